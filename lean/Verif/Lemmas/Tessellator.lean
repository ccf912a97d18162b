import Verif.Spec.Tessellator
import Mathlib.Tactic.IntervalCases
import Mathlib.Tactic.Set

/-!
# Lemmas about the tessellation of polylines
-/

set_option autoImplicit false

namespace Verif.Tess

open Verif Verif.Tess.Spec

theorem elem_corner {t : Output} {ins : List (F32 × F32)} (w : WellFormed t ins) {e : Nat} (he : e < t.elementCount)
    (v : Nat) : ∃ o < t.vertices.length, t.elements[e * 6 + v % 3]? = some (some o) ∧ vertexOf t e v = some o := by
  obtain ⟨o, ho, h⟩ := w.corner e he v
  refine ⟨o, ho, ?_, h⟩
  unfold vertexOf at h
  rw [Nat.mul_comm 6 e] at h
  cases hx : t.elements[e * 6 + v % 3]? with
  | none => rw [hx] at h; simp at h
  | some x => rw [hx] at h; simp at h; rw [h]

theorem elem_neighbor {t : Output} {ins : List (F32 × F32)} (w : WellFormed t ins) {e : Nat} (he : e < t.elementCount)
    (v : Nat) : t.elements[e * 6 + 3 + v % 3]? = some (neighborOf t e v) := by
  have hs := w.size
  have : e * 6 + 3 + v % 3 < t.elements.length := by omega
  unfold neighborOf
  rw [Nat.mul_comm 6 e, List.getElem?_eq_getElem this]
  rfl

theorem adjacentTo_corner {t : Output} {ins : List (F32 × F32)} (w : WellFormed t ins) {e : Nat}
    (he : e < t.elementCount) (v off : Nat) :
    ∃ o < t.vertices.length, adjacentTo t.elements (e * 6) v off = some (some o) ∧ vertexOf t e (v + off) = some o :=
  elem_corner w he (v + off)

theorem vertexOf_mod (t : Output) (e v w : Nat) (h : v % 3 = w % 3) : vertexOf t e v = vertexOf t e w := by
  unfold vertexOf; rw [h]

/-- The loop of `FindNeighbor` finds the only corner that is `o`. -/
theorem findNeighborLoop_eq {t : Output} {ins : List (F32 × F32)} (w : WellFormed t ins) {k : Nat}
    (hk : k < t.elementCount) (o u off : Nat) (hu : vertexOf t k u = some o) :
    findNeighborLoop t.elements (some o) (k * 6) off [0, 1, 2] = adjacentTo t.elements (k * 6) (u % 3) off := by
  have key : ∀ v < 3, ∃ p, t.elements[k * 6 + v]? = some (some p) ∧ (p = o ↔ v = u % 3) := by
    intro v hv
    obtain ⟨p, -, h1, h2⟩ := elem_corner w hk v
    rw [Nat.mod_eq_of_lt hv] at h1
    refine ⟨p, h1, ?_, ?_⟩
    · rintro rfl
      refine w.distinct k hk v hv (u % 3) (Nat.mod_lt _ (by decide)) ?_
      rw [h2, ← hu]; exact vertexOf_mod _ _ _ _ (by simp)
    · rintro rfl
      have : vertexOf t k (u % 3) = some o := by rw [← hu]; exact vertexOf_mod _ _ _ _ (by simp)
      rw [h2] at this
      exact Option.some.inj this
  obtain ⟨p0, a0, b0⟩ := key 0 (by decide)
  obtain ⟨p1, a1, b1⟩ := key 1 (by decide)
  obtain ⟨p2, a2, b2⟩ := key 2 (by decide)
  have hu3 : u % 3 < 3 := Nat.mod_lt _ (by decide)
  simp only [findNeighborLoop, a0, a1, a2, Option.bind_eq_bind, Option.bind_some, Option.some.injEq]
  generalize u % 3 = m at *
  interval_cases m <;> simp_all

theorem findNeighbor_across {t : Output} {ins : List (F32 × F32)} (w : WellFormed t ins) {e : Nat}
    (he : e < t.elementCount) (v o : Nat) (ho : vertexOf t e v = some o) :
    (∃ d, findNeighbor t.elements (some o) (neighborOf t e v) kCounterClockwise = some d ∧ Across t e v d ∧
      ∀ x, d = some x → x < t.vertices.length) ∧
    (∃ d, findNeighbor t.elements (some o) (neighborOf t e (v + 2)) kClockwise = some d ∧ Across t e (v + 2) d ∧
      ∀ x, d = some x → x < t.vertices.length) := by
  constructor
  · cases hn : neighborOf t e v with
    | none => exact ⟨none, rfl, hn, by simp⟩
    | some k =>
      obtain ⟨hk, u, h1, h2⟩ := w.edge e he v k hn
      have h3 : vertexOf t k (u + 1) = some o := by rw [h2, ho]
      obtain ⟨x, hx, hx1, hx2⟩ := adjacentTo_corner w hk ((u + 1) % 3) kCounterClockwise
      refine ⟨some x, ?_, ⟨k, u, hn, h1, h2, ?_⟩, fun y hy => by cases hy; exact hx⟩
      · show findNeighborLoop t.elements (some o) (k * 6) kCounterClockwise [0, 1, 2] = _
        rw [findNeighborLoop_eq w hk o (u + 1) _ h3, hx1]
      · rw [← hx2]; exact vertexOf_mod _ _ _ _ (by unfold kCounterClockwise; omega)
  · cases hn : neighborOf t e (v + 2) with
    | none => exact ⟨none, rfl, hn, by simp⟩
    | some k =>
      obtain ⟨hk, u, h1, h2⟩ := w.edge e he (v + 2) k hn
      have h3 : vertexOf t k u = some o := by
        rw [h1, ← ho]; exact vertexOf_mod _ _ _ _ (by omega)
      obtain ⟨x, hx, hx1, hx2⟩ := adjacentTo_corner w hk (u % 3) kClockwise
      refine ⟨some x, ?_, ⟨k, u, hn, h1, h2, ?_⟩, fun y hy => by cases hy; exact hx⟩
      · show findNeighborLoop t.elements (some o) (k * 6) kClockwise [0, 1, 2] = _
        rw [findNeighborLoop_eq w hk o u _ h3, hx1]
      · rw [← hx2]; exact vertexOf_mod _ _ _ _ (by unfold kClockwise; omega)

theorem toInputIndices_eq {t : Output} (hs : t.vertexIndices.length = t.vertices.length) :
    ∀ l : List (Option Nat), (∀ d ∈ l, ∀ x, d = some x → x < t.vertices.length) →
    toInputIndices t.vertexIndices l = some (l.map fun d => d.bind (inputOf t))
  | [], _ => rfl
  | none :: l, h => by
    simp [toInputIndices, toInputIndices_eq hs l (fun d hd => h d (by simp [hd]))]
  | some o :: l, h => by
    have ho : o < t.vertexIndices.length := by rw [hs]; exact h _ (by simp) _ rfl
    simp [toInputIndices, toInputIndices_eq hs l (fun d hd => h d (by simp [hd])), inputOf, ho]

theorem findNeighbors_around {t : Output} {ins : List (F32 × F32)} (w : WellFormed t ins) {e : Nat}
    (he : e < t.elementCount) {v : Nat} (hv : v < 3) :
    ∃ n, findNeighbors t (e * 6) v = some n ∧ Around t e v n := by
  obtain ⟨o, -, ho1, ho2⟩ := elem_corner w he v
  rw [Nat.mod_eq_of_lt hv] at ho1
  obtain ⟨a, ha, ha1, ha2⟩ := adjacentTo_corner w he v kCounterClockwise
  obtain ⟨b, hb, hb1, hb2⟩ := adjacentTo_corner w he v kClockwise
  obtain ⟨⟨d, hd1, hd2, hd3⟩, c, hc1, hc2, hc3⟩ := findNeighbor_across w he v o ho2
  have e1 : adjacentTo t.elements (e * 6 + kTriangleSize) v kClockwise = some (neighborOf t e (v + 2)) :=
    elem_neighbor w he (v + 2)
  have e2 : t.elements[e * 6 + kTriangleSize + v]? = some (neighborOf t e v) := by
    have := elem_neighbor w he v
    rwa [Nat.mod_eq_of_lt hv] at this
  refine ⟨_, ?_, a, b, c, d, ha2, hb2, hc2, hd2, rfl⟩
  unfold findNeighbors
  simp only [ho1, ha1, hb1, hc1, hd1, e1, e2, Option.bind_eq_bind, Option.bind_some]
  rw [toInputIndices_eq w.sameSize]
  · simp
  · intro x hx y hy
    simp only [List.mem_cons, List.not_mem_nil, or_false] at hx
    rcases hx with rfl | rfl | rfl | rfl
    · cases hy; exact ha
    · cases hy; exact hb
    · exact hc3 y hy
    · exact hd3 y hy

variable {V : Type}

theorem interpolate_eq (h : Helper V) {t : Output} {ins : List (F32 × F32)} (w : WellFormed t ins) {e : Nat}
    (he : e < t.elementCount) {v : Nat} (hv : v < 3) {o : Nat} (ho : vertexOf t e v = some o) (vs : List V) :
    ∃ x y n, t.vertices[o]? = some (x, y) ∧ Around t e v n ∧
      interpolateIntersectionVertex h t (e * 6) v vs = some (h.populate vs n (h.createVertex x y)) := by
  obtain ⟨o', ho', h1, h2⟩ := elem_corner w he v
  rw [Nat.mod_eq_of_lt hv] at h1
  rw [ho] at h2; cases h2
  obtain ⟨n, hn, hr⟩ := findNeighbors_around w he hv
  have hp := List.getElem?_eq_getElem ho'
  refine ⟨_, _, n, hp, hr, ?_⟩
  simp only [interpolateIntersectionVertex, h1, Option.bind_eq_bind, Option.bind_some, hp, hn]
  rfl

/-- What holds after `c` corners. -/
structure Inv (h : Helper V) (t : Output) (inputs : List V) (c : Nat) (s : State V) : Prop where
  ilen : s.indices.length = c
  klen : s.known.length = t.vertexIndices.length
  keeps : s.vertices.take inputs.length = inputs
  old : ∀ o j, inputOf t o = some j → s.known[o]? = some (some j)
  new : ∀ o i, inputOf t o = none → s.known[o]? = some (some i) → inputs.length ≤ i ∧ i < s.vertices.length ∧
    ∃ c' x y n, c' < c ∧ cornerAt t c' = some o ∧ (∀ c'' < c', cornerAt t c'' ≠ some o) ∧
      t.vertices[o]? = some (x, y) ∧ Around t (c' / 3) (c' % 3) n ∧
      s.vertices[i]? = some (h.populate (s.vertices.take i) n (h.createVertex x y))
  inj : ∀ o o' i, inputOf t o = none → inputOf t o' = none → s.known[o]? = some (some i) →
    s.known[o']? = some (some i) → o = o'
  used : ∀ i, inputs.length ≤ i → i < s.vertices.length → ∃ o, inputOf t o = none ∧ s.known[o]? = some (some i)
  index : ∀ c' < c, ∀ o, cornerAt t c' = some o → ∃ i, s.known[o]? = some (some i) ∧ s.indices[c']? = some i

theorem keeps_append {inputs vs : List V} (h : vs.take inputs.length = inputs) (x : V) :
    (vs ++ [x]).take inputs.length = inputs := by
  have : inputs.length ≤ vs.length := by
    have := congrArg List.length h
    simp at this
    exact this
  rw [List.take_append_of_le_length this, h]

theorem inv_step (h : Helper V) {t : Output} {ins : List (F32 × F32)} (w : WellFormed t ins) (inputs : List V)
    {e v : Nat} (he : e < t.elementCount) (hv : v < 3) {o : Nat} (ho : vertexOf t e v = some o)
    (hol : o < t.vertices.length) {s : State V} (I : Inv h t inputs (3 * e + v) s) :
    ∃ s', corner h t (e * 6) v o s = some s' ∧ Inv h t inputs (3 * e + v + 1) s' := by
  have hdiv : (3 * e + v) / 3 = e := by omega
  have hmod : (3 * e + v) % 3 = v := by omega
  have hc : cornerAt t (3 * e + v) = some o := by
    unfold cornerAt
    rw [hdiv, ← ho]; exact vertexOf_mod _ _ _ _ (by omega)
  generalize hcc : 3 * e + v = c at *
  have hkl : o < s.known.length := by rw [I.klen, w.sameSize]; exact hol
  have hk := List.getElem?_eq_getElem hkl
  have hlen : inputs.length ≤ s.vertices.length := by
    have := congrArg List.length I.keeps
    simp at this
    exact this
  unfold corner
  rw [hk]
  simp only [Option.bind_eq_bind, Option.bind_some]
  cases hx : s.known[o] with
  | some i =>
    rw [hx] at hk
    refine ⟨_, rfl, ?_⟩
    refine ⟨by simp [I.ilen], I.klen, I.keeps, I.old, ?_, I.inj, I.used, ?_⟩
    · intro o' i' h1 h2
      obtain ⟨a1, a2, c', x, y, n, b1, b2⟩ := I.new o' i' h1 h2
      exact ⟨a1, a2, c', x, y, n, by omega, b2⟩
    · intro c' hc' o' ho'
      by_cases hlt : c' < c
      · obtain ⟨i', a1, a2⟩ := I.index c' hlt o' ho'
        exact ⟨i', a1, by rw [List.getElem?_append_left (by rw [I.ilen]; exact hlt), a2]⟩
      · have : c' = c := by omega
        subst this
        rw [hc] at ho'; cases ho'
        exact ⟨i, hk, by rw [← I.ilen]; simp⟩
  | none =>
    rw [hx] at hk
    have hnone : inputOf t o = none := by
      cases hj : inputOf t o with
      | none => rfl
      | some j => rw [I.old o j hj] at hk; simp at hk
    have hfirst : ∀ c'' < c, cornerAt t c'' ≠ some o := by
      intro c'' hlt heq
      obtain ⟨i, a1, -⟩ := I.index c'' hlt o heq
      rw [hk] at a1; simp at a1
    obtain ⟨x, y, n, hp, hr, hi⟩ := interpolate_eq h w he hv ho s.vertices
    refine ⟨⟨s.known.set o (some s.vertices.length), s.vertices ++ [_], s.indices ++ [s.vertices.length]⟩, by rw [hi]; rfl, ?_⟩
    have hself : (s.known.set o (some s.vertices.length))[o]? = some (some s.vertices.length) := by
      rw [List.getElem?_set_self hkl]
    have hother : ∀ p, p ≠ o → (s.known.set o (some s.vertices.length))[p]? = s.known[p]? := by
      intro p hp'
      rw [List.getElem?_set_ne (Ne.symm hp')]
    refine ⟨by simp [I.ilen], by simp [I.klen], keeps_append I.keeps _, ?_, ?_, ?_, ?_, ?_⟩
    · intro p j hj
      have : p ≠ o := by rintro rfl; rw [hnone] at hj; simp at hj
      simp only [hother p this]
      exact I.old p j hj
    · intro p i hp' hki
      by_cases hpo : p = o
      · subst hpo
        simp only [hself, Option.some.injEq] at hki
        subst hki
        refine ⟨hlen, by simp, c, x, y, n, by omega, hc, hfirst, hp, ?_, ?_⟩
        · rw [hdiv, hmod]; exact hr
        · simp
      · simp only [hother p hpo] at hki
        obtain ⟨a1, a2, c', x', y', n', b1, b2, b3, b4, b5, b6⟩ := I.new p i hp' hki
        refine ⟨a1, by simp; omega, c', x', y', n', by omega, b2, b3, b4, b5, ?_⟩
        simp only [List.getElem?_append_left a2, List.take_append_of_le_length (Nat.le_of_lt a2)]
        exact b6
    · intro p q i hp' hq hpi hqi
      by_cases hpo : p = o <;> by_cases hqo : q = o
      · rw [hpo, hqo]
      · subst hpo
        simp only [hself, Option.some.injEq] at hpi
        simp only [hother q hqo] at hqi
        have := (I.new q i hq hqi).2.1
        omega
      · subst hqo
        simp only [hself, Option.some.injEq] at hqi
        simp only [hother p hpo] at hpi
        have := (I.new p i hp' hpi).2.1
        omega
      · simp only [hother p hpo] at hpi
        simp only [hother q hqo] at hqi
        exact I.inj p q i hp' hq hpi hqi
    · intro i h1 h2
      by_cases hi' : i < s.vertices.length
      · obtain ⟨p, a1, a2⟩ := I.used i h1 hi'
        have : p ≠ o := by rintro rfl; rw [hk] at a2; simp at a2
        exact ⟨p, a1, by simp only [hother p this]; exact a2⟩
      · have : i = s.vertices.length := by simp at h2; omega
        subst this
        exact ⟨o, hnone, hself⟩
    · intro c' hc' p hp'
      by_cases hlt : c' < c
      · obtain ⟨i, a1, a2⟩ := I.index c' hlt p hp'
        have : p ≠ o := by rintro rfl; rw [hk] at a1; simp at a1
        exact ⟨i, by simp only [hother p this]; exact a1,
          by rw [List.getElem?_append_left (by rw [I.ilen]; exact hlt), a2]⟩
      · have : c' = c := by omega
        subst this
        rw [hc] at hp'; cases hp'
        exact ⟨_, hself, by rw [← I.ilen]; simp⟩

theorem inv_corners (h : Helper V) {t : Output} {ins : List (F32 × F32)} (w : WellFormed t ins) (inputs : List V)
    {e : Nat} (he : e < t.elementCount) {s : State V} (I : Inv h t inputs (3 * e) s) :
    ∃ s', corners h t (e * 6) [0, 1, 2] s = some s' ∧ Inv h t inputs (3 * (e + 1)) s' := by
  obtain ⟨o0, l0, a0, b0⟩ := elem_corner w he 0
  obtain ⟨o1, l1, a1, b1⟩ := elem_corner w he 1
  obtain ⟨o2, l2, a2, b2⟩ := elem_corner w he 2
  obtain ⟨s1, c1, I1⟩ := inv_step h w inputs (v := 0) he (by decide) b0 l0 I
  obtain ⟨s2, c2, I2⟩ := inv_step h w inputs (v := 1) he (by decide) b1 l1 I1
  obtain ⟨s3, c3, I3⟩ := inv_step h w inputs (v := 2) he (by decide) b2 l2 I2
  refine ⟨s3, ?_, I3⟩
  simp only [Nat.zero_mod] at a0
  simp only [show (1 : Nat) % 3 = 1 from rfl, show (2 : Nat) % 3 = 2 from rfl] at a1 a2
  simp only [corners, a0, a1, a2, Option.bind_eq_bind, Option.bind_some, c1, c2, c3]

theorem inv_triangles (h : Helper V) {t : Output} {ins : List (F32 × F32)} (w : WellFormed t ins) (inputs : List V) :
    ∀ (k e : Nat) (s : State V), e + k = t.elementCount → Inv h t inputs (3 * e) s →
    ∃ s', triangles h t (List.range' e k) s = some s' ∧ Inv h t inputs (3 * t.elementCount) s'
  | 0, e, s, hk, I => ⟨s, rfl, by rw [← hk]; exact I⟩
  | k + 1, e, s, hk, I => by
    obtain ⟨s', h1, I'⟩ := inv_corners h w inputs (by omega) I
    obtain ⟨s'', h2, I''⟩ := inv_triangles h w inputs k (e + 1) s' (by omega) I'
    refine ⟨s'', ?_, I''⟩
    simp only [List.range'_succ, triangles]
    show (corners h t (e * 6) [0, 1, 2] s).bind _ = _
    rw [h1]; exact h2

theorem inv_init (h : Helper V) (t : Output) (inputs : List V) : Inv h t inputs 0 ⟨t.vertexIndices, inputs, []⟩ := by
  have key : ∀ o i, t.vertexIndices[o]? = some (some i) → inputOf t o = some i := by
    intro o i ho; unfold inputOf; rw [ho]; rfl
  refine ⟨rfl, rfl, by simp, ?_, ?_, ?_, ?_, by simp⟩
  · intro o j hj
    unfold inputOf at hj
    cases hx : t.vertexIndices[o]? with
    | none => rw [hx] at hj; simp at hj
    | some x => rw [hx] at hj; simp at hj; simp only [hj]
  · intro o i h1 h2
    rw [key o i h2] at h1; simp at h1
  · intro o o' i h1 _ h2
    rw [key o i h2] at h1; simp at h1
  · intro i h1 h2
    simp at h2; omega

theorem populateResult_faithful (h : Helper V) {t : Output} {ins : List (F32 × F32)} (w : WellFormed t ins)
    (edges : List (List V)) :
    ∃ r, populateResult h t edges = some r ∧ Faithful h t edges.flatten r := by
  obtain ⟨s, h1, I⟩ := inv_triangles h w edges.flatten t.elementCount 0 _ (by omega) (inv_init h t edges.flatten)
  refine ⟨⟨s.vertices, s.indices⟩, ?_, ?_⟩
  · unfold populateResult
    rw [List.range_eq_range', h1]; rfl
  refine ⟨I.ilen, I.keeps, ?_, ?_, ?_, ?_⟩
  · intro c o j hc ho hj
    obtain ⟨i, a1, a2⟩ := I.index c hc o ho
    rw [I.old o j hj] at a1
    simp only [Option.some.injEq] at a1
    rw [a1]; exact a2
  · intro c o hc ho hj
    obtain ⟨i, a1, a2⟩ := I.index c hc o ho
    obtain ⟨b1, b2, -⟩ := I.new o i hj a1
    exact ⟨i, b1, b2, a2⟩
  · intro c o c' o' hc hc' ho ho' hn hn'
    obtain ⟨i, a1, a2⟩ := I.index c hc o ho
    obtain ⟨i', a1', a2'⟩ := I.index c' hc' o' ho'
    simp only [a2, a2', Option.some.injEq]
    constructor
    · rintro rfl; exact I.inj o o' i hn hn' a1 a1'
    · rintro rfl; rw [a1] at a1'; simpa using a1'
  · intro i hi1 hi2
    obtain ⟨o, a1, a2⟩ := I.used i hi1 hi2
    obtain ⟨b1, b2, c, x, y, n, d1, d2, d3, d4, d5, d6⟩ := I.new o i a1 a2
    obtain ⟨i', e1, e2⟩ := I.index c d1 o d2
    rw [a2] at e1
    simp only [Option.some.injEq] at e1
    exact ⟨c, o, x, y, n, d1, d2, a1, by rw [e1]; exact e2, d3, d4, d5, d6⟩

end Verif.Tess
