import Verif.Spec.FlipCorrection
import Verif.Lemmas.Requantise
import Verif.Props.Rect
import Verif.Props.Duration
import Verif.Props.TipState

/-!
# Lemmas about the correction of flipped triangles
-/

set_option autoImplicit false

namespace Verif.Flip

open F32 Mesh FlipSpec

/-! ## The loop over the adjacent triangles -/

section adjacent

variable (E : Env) (d : St) (nv : Nat → Option PointF)

/-- The triangle has a corner that is moved. -/
def Affected (t : Tri) : Prop := ¬ ((nv t.1).isNone ∧ (nv t.2.1).isNone ∧ (nv t.2.2).isNone)

/-- The triangle is flipped after the move. -/
def FlippedAfter (t : Tri) : Prop :=
  isFlipped ((nv t.1).getD (d.pos t.1)) ((nv t.2.1).getD (d.pos t.2.1)) ((nv t.2.2).getD (d.pos t.2.2)) = true

structure AdjOk (as : List Nat) (r : List Nat × List Nat) : Prop where
  fixed : ∀ a, a ∈ r.1 ↔ a ∈ as ∧ Affected nv (E.tri a) ∧ ¬ FlippedAfter d nv (E.tri a) ∧ d.state a = .flipped
  flipped : ∀ a, a ∈ r.2 ↔ a ∈ as ∧ Affected nv (E.tri a) ∧ FlippedAfter d nv (E.tri a) ∧ d.state a = .notFlipped
  stay : ∀ a ∈ as, Affected nv (E.tri a) → FlippedAfter d nv (E.tri a) → d.state a ≠ .fixed
  sub : r.2.Sublist as

theorem adjacentLoop_spec : ∀ (as : List Nat) (r : List Nat × List Nat),
    adjacentLoop E d nv as = some r → AdjOk E d nv as r := by
  intro as
  induction as with
  | nil =>
    intro r h
    simp only [adjacentLoop, Option.some.injEq] at h
    subst h
    exact ⟨by simp, by simp, by simp, List.Sublist.refl _⟩
  | cons a as ih =>
    intro r h
    unfold adjacentLoop at h
    simp only at h
    by_cases hu : (nv (E.tri a).1).isNone ∧ (nv (E.tri a).2.1).isNone ∧ (nv (E.tri a).2.2).isNone
    · rw [if_pos hu] at h
      have H := ih r h
      have hna : ¬ Affected nv (E.tri a) := fun hh => hh hu
      refine ⟨?_, ?_, ?_, H.sub.cons a⟩
      · intro b
        rw [H.fixed b, List.mem_cons]
        constructor
        · rintro ⟨h1, h2⟩; exact ⟨Or.inr h1, h2⟩
        · rintro ⟨rfl | h1, h2⟩
          · exact absurd h2.1 hna
          · exact ⟨h1, h2⟩
      · intro b
        rw [H.flipped b, List.mem_cons]
        constructor
        · rintro ⟨h1, h2⟩; exact ⟨Or.inr h1, h2⟩
        · rintro ⟨rfl | h1, h2⟩
          · exact absurd h2.1 hna
          · exact ⟨h1, h2⟩
      · intro b hb
        rcases List.mem_cons.1 hb with rfl | hb
        · exact fun hh => absurd hh hna
        · exact H.stay b hb
    · rw [if_neg hu] at h
      have ha : Affected nv (E.tri a) := hu
      by_cases hf : isFlipped ((nv (E.tri a).1).getD (d.pos (E.tri a).1))
          ((nv (E.tri a).2.1).getD (d.pos (E.tri a).2.1)) ((nv (E.tri a).2.2).getD (d.pos (E.tri a).2.2)) = true
      · rw [if_pos hf] at h
        have hfa : FlippedAfter d nv (E.tri a) := hf
        cases hs : d.state a with
        | notFlipped =>
          rw [hs] at h
          simp only [Option.map_eq_some_iff] at h
          obtain ⟨r', h', rfl⟩ := h
          have H := ih r' h'
          refine ⟨?_, ?_, ?_, H.sub.cons_cons a⟩
          · intro b
            simp only
            rw [H.fixed b, List.mem_cons]
            constructor
            · rintro ⟨h1, h2⟩; exact ⟨Or.inr h1, h2⟩
            · rintro ⟨rfl | h1, h2⟩
              · exact absurd hfa h2.2.1
              · exact ⟨h1, h2⟩
          · intro b
            simp only
            rw [List.mem_cons, H.flipped b, List.mem_cons]
            constructor
            · rintro (rfl | ⟨h1, h2⟩)
              · exact ⟨Or.inl rfl, ha, hfa, hs⟩
              · exact ⟨Or.inr h1, h2⟩
            · rintro ⟨rfl | h1, h2⟩
              · exact Or.inl rfl
              · exact Or.inr ⟨h1, h2⟩
          · intro b hb
            rcases List.mem_cons.1 hb with rfl | hb
            · intro _ _; rw [hs]; simp
            · exact H.stay b hb
        | fixed => rw [hs] at h; simp at h
        | flipped =>
          rw [hs] at h
          simp only at h
          have H := ih r h
          refine ⟨?_, ?_, ?_, H.sub.cons a⟩
          · intro b
            rw [H.fixed b, List.mem_cons]
            constructor
            · rintro ⟨h1, h2⟩; exact ⟨Or.inr h1, h2⟩
            · rintro ⟨rfl | h1, h2⟩
              · exact absurd hfa h2.2.1
              · exact ⟨h1, h2⟩
          · intro b
            rw [H.flipped b, List.mem_cons]
            constructor
            · rintro ⟨h1, h2⟩; exact ⟨Or.inr h1, h2⟩
            · rintro ⟨rfl | h1, h2⟩
              · rw [hs] at h2; simp at h2
              · exact ⟨h1, h2⟩
          · intro b hb
            rcases List.mem_cons.1 hb with rfl | hb
            · intro _ _; rw [hs]; simp
            · exact H.stay b hb
      · rw [if_neg hf] at h
        have hfa : ¬ FlippedAfter d nv (E.tri a) := hf
        by_cases hs : d.state a = .flipped
        · rw [if_pos hs] at h
          simp only [Option.map_eq_some_iff] at h
          obtain ⟨r', h', rfl⟩ := h
          have H := ih r' h'
          refine ⟨?_, ?_, ?_, H.sub.cons a⟩
          · intro b
            simp only
            rw [List.mem_cons, H.fixed b, List.mem_cons]
            constructor
            · rintro (rfl | ⟨h1, h2⟩)
              · exact ⟨Or.inl rfl, ha, hfa, hs⟩
              · exact ⟨Or.inr h1, h2⟩
            · rintro ⟨rfl | h1, h2⟩
              · exact Or.inl rfl
              · exact Or.inr ⟨h1, h2⟩
          · intro b
            simp only
            rw [H.flipped b, List.mem_cons]
            constructor
            · rintro ⟨h1, h2⟩; exact ⟨Or.inr h1, h2⟩
            · rintro ⟨rfl | h1, h2⟩
              · exact absurd h2.2.1 hfa
              · exact ⟨h1, h2⟩
          · intro b hb
            rcases List.mem_cons.1 hb with rfl | hb
            · intro _ hh; exact absurd hh hfa
            · exact H.stay b hb
        · rw [if_neg hs] at h
          have H := ih r h
          refine ⟨?_, ?_, ?_, H.sub.cons a⟩
          · intro b
            rw [H.fixed b, List.mem_cons]
            constructor
            · rintro ⟨h1, h2⟩; exact ⟨Or.inr h1, h2⟩
            · rintro ⟨rfl | h1, h2⟩
              · exact absurd h2.2.2 hs
              · exact ⟨h1, h2⟩
          · intro b
            rw [H.flipped b, List.mem_cons]
            constructor
            · rintro ⟨h1, h2⟩; exact ⟨Or.inr h1, h2⟩
            · rintro ⟨rfl | h1, h2⟩
              · exact absurd h2.2.1 hfa
              · exact ⟨h1, h2⟩
          · intro b hb
            rcases List.mem_cons.1 hb with rfl | hb
            · intro _ hh; exact absurd hh hfa
            · exact H.stay b hb

end adjacent

/-! ## Candidates -/

/-- What is known about a candidate that is chosen. -/
structure CandOk (E : Env) (d : St) (i already : Nat) (c : Candidate) : Prop where
  mask : c.mask &&& already = 0
  notFlipped : isFlipped (nudgedTri E d (E.tri i) c.mask).1 (nudgedTri E d (E.tri i) c.mask).2.1
    (nudgedTri E d (E.tri i) c.mask).2.2 = false
  bounds : E.bounds.containsRect (envelopeOf (nudgedTri E d (E.tri i) c.mask)) = true
  adj : AdjOk E d (nudgedVertex (E.tri i) c.mask (nudgedTri E d (E.tri i) c.mask)) (E.adjacent i)
    (c.newlyFixed, c.newlyFlipped)
  mem : c.mask ∈ masks

theorem maybeCandidate_spec {E : Env} {d : St} {i already mask : Nat} {c : Candidate}
    (h : maybeCandidate E d i already mask = some c) (hm : mask ∈ masks) : CandOk E d i already c := by
  unfold maybeCandidate at h
  simp only at h
  by_cases h1 : mask &&& already ≠ 0
  · rw [if_pos h1] at h; cases h
  rw [if_neg h1] at h
  by_cases h2 : isFlipped (nudgedTri E d (E.tri i) mask).1 (nudgedTri E d (E.tri i) mask).2.1
      (nudgedTri E d (E.tri i) mask).2.2 = true
  · rw [if_pos h2] at h; cases h
  rw [if_neg h2] at h
  by_cases h3 : (!E.bounds.containsRect (envelopeOf (nudgedTri E d (E.tri i) mask))) = true
  · rw [if_pos h3] at h; cases h
  rw [if_neg h3] at h
  obtain ⟨r, hr, rfl⟩ := Option.map_eq_some_iff.1 h
  exact ⟨not_not.1 h1, by simpa using h2, by simpa using h3, adjacentLoop_spec _ _ _ _ _ hr, hm⟩

theorem bestNudge_spec {E : Env} {d : St} {i already n : Nat} : ∀ (ms : List Nat) (best : Option Candidate)
    (c : Candidate), (∀ m ∈ ms, m ∈ masks) → (∀ b, best = some b → CandOk E d i already b) →
    bestNudge E d i already n ms best = some c → CandOk E d i already c := by
  intro ms
  induction ms with
  | nil => intro best c _ hb h; exact hb c h
  | cons m ms ih =>
    intro best c hms hb h
    have hms' : ∀ m ∈ ms, m ∈ masks := fun x hx => hms x (by simp [hx])
    unfold bestNudge at h
    cases hc : maybeCandidate E d i already m with
    | none => rw [hc] at h; exact ih best c hms' hb h
    | some c' =>
      rw [hc] at h
      simp only at h
      have ok := maybeCandidate_spec hc (hms m (by simp))
      split at h
      · cases h; exact ok
      · cases best with
        | none => exact ih _ c hms' (by intro b hb'; cases hb'; exact ok) h
        | some b =>
          refine ih _ c hms' ?_ h
          intro b' hb'
          split at hb'
          · cases hb'; exact ok
          · cases hb'; exact hb b rfl

/-! ## Recording a correction -/

theorem record_state (E : Env) (d : St) (i : Nat) (c : Candidate) (j : Nat) :
    (record E d i c).state j = if j ∈ c.newlyFlipped then .flipped else if j ∈ c.newlyFixed then .fixed
      else if j = i then .fixed else d.state j := rfl

theorem record_queue (E : Env) (d : St) (i : Nat) (c : Candidate) :
    (record E d i c).queue = d.queue ++ c.newlyFlipped := by
  unfold record recordVertex
  simp only
  split <;> split <;> split <;> rfl

theorem record_pos (E : Env) (d : St) (i : Nat) (c : Candidate)
    (ht : (E.tri i).1 ≠ (E.tri i).2.1 ∧ (E.tri i).1 ≠ (E.tri i).2.2 ∧ (E.tri i).2.1 ≠ (E.tri i).2.2) (v : Nat) :
    (record E d i c).pos v =
      (nudgedVertex (E.tri i) c.mask (nudgedTri E d (E.tri i) c.mask) v).getD (d.pos v) := by
  obtain ⟨t1, t2, t3⟩ := ht
  unfold record nudgedVertex recordVertex
  simp only
  generalize nudgedTri E d (E.tri i) c.mask = n
  by_cases m0 : c.mask &&& vertexMask 0 ≠ 0 <;> by_cases m1 : c.mask &&& vertexMask 1 ≠ 0 <;>
    by_cases m2 : c.mask &&& vertexMask 2 ≠ 0 <;>
    by_cases v0 : v = (E.tri i).1 <;> by_cases v1 : v = (E.tri i).2.1 <;>
    by_cases v2 : v = (E.tri i).2.2 <;>
    first
      | (exfalso; exact t1 (v0.symm.trans v1))
      | (exfalso; exact t2 (v0.symm.trans v2))
      | (exfalso; exact t3 (v1.symm.trans v2))
      | simp [m0, m1, m2, v0, v1, v2, t1, t2, t3, t1.symm, t2.symm, t3.symm]

theorem record_corrected (E : Env) (d : St) (i : Nat) (c : Candidate)
    (ht : (E.tri i).1 ≠ (E.tri i).2.1 ∧ (E.tri i).1 ≠ (E.tri i).2.2 ∧ (E.tri i).2.1 ≠ (E.tri i).2.2) (v : Nat)
    (hc : (nudgedVertex (E.tri i) c.mask (nudgedTri E d (E.tri i) c.mask) v).isSome → d.corrected v = none) :
    (record E d i c).corrected v =
      (nudgedVertex (E.tri i) c.mask (nudgedTri E d (E.tri i) c.mask) v).or (d.corrected v) := by
  obtain ⟨t1, t2, t3⟩ := ht
  unfold nudgedVertex at hc ⊢
  unfold record recordVertex
  simp only
  revert hc
  generalize nudgedTri E d (E.tri i) c.mask = n
  intro hc
  by_cases m0 : c.mask &&& vertexMask 0 ≠ 0 <;> by_cases m1 : c.mask &&& vertexMask 1 ≠ 0 <;>
    by_cases m2 : c.mask &&& vertexMask 2 ≠ 0 <;>
    by_cases v0 : v = (E.tri i).1 <;> by_cases v1 : v = (E.tri i).2.1 <;>
    by_cases v2 : v = (E.tri i).2.2 <;>
    first
      | (exfalso; exact t1 (v0.symm.trans v1))
      | (exfalso; exact t2 (v0.symm.trans v2))
      | (exfalso; exact t3 (v1.symm.trans v2))
      | (simp [m0, m1, m2, v0, v1, v2, t1, t2, t3, t1.symm, t2.symm, t3.symm] at hc ⊢ <;> simp [hc])

/-- Moved corners have not been corrected before. -/
theorem nudged_not_corrected {d : St} {t : Tri} {mask v : Nat} {n : PointF × PointF × PointF}
    (hm : mask &&& correctedMask d t = 0) (h : (nudgedVertex t mask n v).isSome) : d.corrected v = none := by
  unfold correctedMask at hm
  rw [Nat.and_or_distrib_left, Nat.and_or_distrib_left, Nat.or_eq_zero_iff, Nat.or_eq_zero_iff] at hm
  obtain ⟨⟨h0, h1⟩, h2⟩ := hm
  unfold nudgedVertex at h
  split at h
  · rename_i hv
    cases hc : d.corrected v with
    | none => rfl
    | some p => rw [← hv.1, hc] at h0; exact absurd h0 hv.2
  split at h
  · rename_i hv
    cases hc : d.corrected v with
    | none => rfl
    | some p => rw [← hv.1, hc] at h1; exact absurd h1 hv.2
  split at h
  · rename_i hv
    cases hc : d.corrected v with
    | none => rfl
    | some p => rw [← hv.1, hc] at h2; exact absurd h2 hv.2
  · cases h

/-! ## Termination -/

/-- Triangles that are not flipped yet, and those in the queue. -/
def measureOf (E : Env) (d : St) : Nat :=
  d.queue.length + ((List.range E.tris.length).filter fun j => d.state j == .notFlipped).length

theorem nodup_adjacent (E : Env) (i : Nat) : (E.adjacent i).Nodup :=
  List.Nodup.filter _ List.nodup_range

theorem record_measure {E : Env} {d : St} {i already : Nat} {c : Candidate} (ok : CandOk E d i already c) :
    measureOf E (record E d i c) ≤ measureOf E d := by
  unfold measureOf
  rw [record_queue, List.length_append]
  have key : (((List.range E.tris.length).filter fun j => (record E d i c).state j == .notFlipped) ++
      c.newlyFlipped).length ≤ ((List.range E.tris.length).filter fun j => d.state j == .notFlipped).length := by
    apply List.Subperm.length_le
    apply List.Nodup.subperm
    · rw [List.nodup_append]
      refine ⟨List.Nodup.filter _ List.nodup_range, ok.adj.sub.nodup (nodup_adjacent E i), ?_⟩
      intro a ha b hb hab
      subst hab
      have := (List.mem_filter.1 ha).2
      rw [record_state, if_pos hb] at this
      simp at this
    · intro a ha
      rcases List.mem_append.1 ha with h | h
      · obtain ⟨h1, h2⟩ := List.mem_filter.1 h
        refine List.mem_filter.2 ⟨h1, ?_⟩
        rw [record_state] at h2
        split at h2
        · simp at h2
        split at h2
        · simp at h2
        split at h2
        · simp at h2
        exact h2
      · obtain ⟨h1, h2⟩ := (ok.adj.flipped a).1 h
        refine List.mem_filter.2 ⟨(List.mem_filter.1 h1).1, ?_⟩
        rw [h2.2.2]
        rfl
  rw [List.length_append] at key
  omega

theorem loop_some (E : Env) : ∀ (fuel : Nat) (d : St), measureOf E d ≤ fuel → (loop E fuel d).isSome := by
  intro fuel
  induction fuel with
  | zero =>
    intro d h
    unfold measureOf at h
    have : d.queue = [] := List.length_eq_zero_iff.1 (by omega)
    unfold loop
    rw [this]
    rfl
  | succ fuel ih =>
    intro d h
    unfold loop
    cases hq : d.queue with
    | nil => rfl
    | cons i rest =>
      simp only
      have hm : measureOf E { d with queue := rest } ≤ fuel := by
        unfold measureOf at h ⊢
        rw [hq] at h
        simp only [List.length_cons] at h ⊢
        omega
      split
      · exact ih _ hm
      split
      · rfl
      split
      · rfl
      · rename_i c hc
        have ok := bestNudge_spec masks none c (fun _ h => h) (by simp) hc
        exact ih _ (Nat.le_trans (record_measure ok) hm)

theorem measure_init (E : Env) : measureOf E E.init ≤ E.tris.length := by
  unfold measureOf Env.init
  simp only
  have : ∀ l : List Nat, (l.filter fun i => flippedAt E.quantized (E.tri i)).length +
      (l.filter fun j => (if flippedAt E.quantized (E.tri j) then TriState.flipped else .notFlipped) ==
        .notFlipped).length = l.length := by
    intro l
    induction l with
    | nil => rfl
    | cons a l ih =>
      cases hf : flippedAt E.quantized (E.tri a) <;> simp [hf] <;> omega
  rw [this, List.length_range]

/-! ## Positions -/

theorem add_notNaN {a b : F32} (ha : a.isNaN = false) (hb : b.isFinite = true) : (add a b).isNaN = false := by
  rw [Tip.add_comm']; exact isNaN_add hb ha

theorem quantize_notNaN {c : Coding} (ok : CodingOk c) {v : F32} (hv : v.isNaN = false) :
    (quantize c v).isNaN = false := by
  unfold quantize
  have h1 : (sub v c.offset).isNaN = false := by
    unfold sub
    exact add_notNaN hv (by simp [ok.offset])
  obtain ⟨s, n, hn, hs⟩ := exists_of_isFinite ok.scale
  have hpos := ok.pos
  rw [hs] at hpos
  have hn0 : n ≠ 0 := by
    rintro rfl
    clear hs
    revert hpos hn
    cases s <;> decide
  have hsf : s = false := by
    cases s with
    | false => rfl
    | true =>
      exfalso
      rw [lt_iff (by rfl) (by rfl)] at hpos
      rw [toRat_fin_true] at hpos
      have : toRat zero = 0 := by decide +kernel
      rw [this] at hpos
      have : (0 : ℚ) ≤ (mag n : ℚ) / 2 ^ 149 := by positivity
      linarith
  subst hsf
  have h2 : (div (sub v c.offset) c.scale).isNaN = false := by
    rw [hs]
    generalize sub v c.offset = a at h1
    cases a with
    | nan => cases h1
    | inf t => rfl
    | fin t m hm =>
      simp only [div]
      rw [if_neg hn0]
      exact isNaN_packRound _ _
  have h3 : (fround (div (sub v c.offset) c.scale)).isNaN = false := by
    generalize div (sub v c.offset) c.scale = a at h2
    cases a with
    | nan => cases h2
    | inf t => rfl
    | fin t m hm => exact isNaN_packRound _ _
  have h4 : (mul (fround (div (sub v c.offset) c.scale)) c.scale).isNaN = false := by
    generalize fround (div (sub v c.offset) c.scale) = a at h3
    rw [hs]
    cases a with
    | nan => cases h3
    | inf t => simp only [mul]; rw [if_neg hn0]; rfl
    | fin t m hm => exact isNaN_packRound _ _
  exact add_notNaN h4 ok.offset

theorem corners_in {r : RectF} {n : PointF × PointF × PointF} (h0 : n.1.Valid) (h1 : n.2.1.Valid)
    (h2 : n.2.2.Valid) (h : r.containsRect (envelopeOf n) = true) :
    r.contains n.1 = true ∧ r.contains n.2.1 = true ∧ r.contains n.2.2 = true := by
  unfold envelopeOf at h
  have hv : (RectF.mk n.1.x n.1.y n.1.x n.1.y).Valid := ⟨le_refl h0.1, le_refl h0.2⟩
  have j1 := join_spec hv h1
  have j2 := join_spec j1.1 h2
  have e := C21_smallest n.2.2 n.2.2 ((RectF.mk n.1.x n.1.y n.1.x n.1.y).join n.2.1)
    ((RectF.mk n.1.x n.1.y n.1.x n.1.y).join n.2.1) h2 h2 j1.1 j1.1
  obtain ⟨a, b⟩ := (e.2.1 r).1 h
  have e' := C21_smallest n.2.1 n.2.1 (RectF.mk n.1.x n.1.y n.1.x n.1.y)
    (RectF.mk n.1.x n.1.y n.1.x n.1.y) h1 h1 hv hv
  obtain ⟨a', b'⟩ := (e'.2.1 r).1 a
  refine ⟨?_, b', b⟩
  rw [containsRect_iff] at a'
  rw [contains_iff]
  exact a'

/-- What is assumed of the mesh and the parameters. -/
structure EnvOk (E : Env) : Prop where
  distinct : Distinct E.tris
  cx : CodingOk E.cx
  cy : CodingOk E.cy
  original : ∀ v, (E.original v).Valid
  sx : Stable E.cx E.bounds.xMin E.bounds.xMax
  sy : Stable E.cy E.bounds.yMin E.bounds.yMax
  inBounds : ∀ t ∈ E.tris, ∀ v, Corner t v → E.bounds.contains (E.quantized v) = true

/-- A position whose components have been quantised. -/
def Quantised (E : Env) (p : PointF) : Prop := ∃ q : PointF, q.Valid ∧ p = quantizePoint E.cx E.cy q

theorem Quantised.valid {E : Env} (ok : EnvOk E) {p : PointF} (h : Quantised E p) : p.Valid := by
  obtain ⟨q, hq, rfl⟩ := h
  exact ⟨quantize_notNaN ok.cx hq.1, quantize_notNaN ok.cy hq.2⟩

theorem finite_nudge {s : F32} (h : s.isFinite = true) (v : F32) : (copysign (mul (ofInt 1) s) v).isFinite = true := by
  have : (mul (ofInt 1) s).isFinite = true := by
    apply isFinite_mul (by decide +kernel) h
    have : toRat (ofInt 1) = 1 := by decide +kernel
    rw [this, one_mul]
    exact lt_of_le_of_lt (abs_toRat_le s) maxVal_lt_ovf
  unfold copysign
  split
  · simpa using this
  · exact this

theorem nudged_quantised {E : Env} (ok : EnvOk E) {d : St} (mask bx bY v : Nat) (h : Quantised E (d.pos v)) :
    Quantised E (nudged E d mask bx bY v) := by
  have hv := h.valid ok
  have hz : F32.zero.isFinite = true := rfl
  refine ⟨_, ⟨?_, ?_⟩, rfl⟩
  · apply add_notNaN hv.1
    split
    · exact finite_nudge ok.cx.scale _
    · exact hz
  · apply add_notNaN hv.2
    split
    · exact finite_nudge ok.cy.scale _
    · exact hz

/-- A corrected position. -/
structure Moved (E : Env) (v : Nat) (p : PointF) : Prop where
  x : Step E.cx (E.original v).x p.x
  y : Step E.cy (E.original v).y p.y
  bounds : E.bounds.contains p = true

structure Inv (E : Env) (d : St) : Prop where
  qlt : ∀ i ∈ d.queue, i < E.tris.length
  flippedQ : ∀ j < E.tris.length, d.state j = .flipped → j ∈ d.queue
  good : ∀ j < E.tris.length, d.state j ≠ .flipped → flippedAt d.pos (E.tri j) = false
  cor : ∀ v p, d.corrected v = some p → d.pos v = p ∧ Moved E v p ∧ ∃ t ∈ E.tris, Corner t v
  unc : ∀ v, d.corrected v = none → d.pos v = E.quantized v
  quant : ∀ v, Quantised E (d.pos v)

theorem Inv.inBounds {E : Env} {d : St} (ok : EnvOk E) (I : Inv E d) {t : Tri} (ht : t ∈ E.tris) {v : Nat}
    (hv : Corner t v) : E.bounds.contains (d.pos v) = true := by
  cases h : d.corrected v with
  | none => rw [I.unc v h]; exact ok.inBounds t ht v hv
  | some p => obtain ⟨e, m, -⟩ := I.cor v p h; rw [e]; exact m.bounds

/-- A vertex which is not moved keeps its position. -/
theorem Inv.stays {E : Env} {d : St} (ok : EnvOk E) (I : Inv E d) {t : Tri} (ht : t ∈ E.tris) {v : Nat}
    (hv : Corner t v) {mask bx bY : Nat} (h1 : bx &&& mask = 0) (h2 : bY &&& mask = 0) :
    nudged E d mask bx bY v = d.pos v := by
  have hb := I.inBounds ok ht hv
  obtain ⟨q, -, hq⟩ := I.quant v
  rw [contains_iff] at hb
  unfold nudged
  simp only
  rw [if_neg (by simpa using h1), if_neg (by simpa using h2)]
  rw [hq] at hb ⊢
  unfold quantizePoint at hb ⊢
  simp only at hb ⊢
  rw [quantize_add_zero ok.cx, quantize_add_zero ok.cy, ok.sx _ hb.1 hb.2.1, ok.sy _ hb.2.2.1 hb.2.2.2]

theorem tri_mem {E : Env} {i : Nat} (h : i < E.tris.length) : E.tri i ∈ E.tris := by
  unfold Env.tri
  rw [List.getD_eq_getElem?_getD, List.getElem?_eq_getElem h]
  exact List.getElem_mem h

theorem mask_split : ∀ mask ∈ masks,
    (mask &&& vertexMask 0 = 0 → bitX0 &&& mask = 0 ∧ bitY0 &&& mask = 0) ∧
    (mask &&& vertexMask 1 = 0 → bitX1 &&& mask = 0 ∧ bitY1 &&& mask = 0) ∧
    (mask &&& vertexMask 2 = 0 → bitX2 &&& mask = 0 ∧ bitY2 &&& mask = 0) := by decide

/-- The positions after a correction, at the corners of the corrected triangle. -/
theorem pos_at_corners {E : Env} {d : St} (ok : EnvOk E) (I : Inv E d) {i already : Nat} (hi : i < E.tris.length)
    {c : Candidate} (C : CandOk E d i already c) :
    (record E d i c).pos (E.tri i).1 = (nudgedTri E d (E.tri i) c.mask).1 ∧
    (record E d i c).pos (E.tri i).2.1 = (nudgedTri E d (E.tri i) c.mask).2.1 ∧
    (record E d i c).pos (E.tri i).2.2 = (nudgedTri E d (E.tri i) c.mask).2.2 := by
  have hm := tri_mem hi
  obtain ⟨t1, t2, t3⟩ := ok.distinct _ hm
  obtain ⟨m0, m1, m2⟩ := mask_split c.mask C.mem
  rw [record_pos E d i c ⟨t1, t2, t3⟩, record_pos E d i c ⟨t1, t2, t3⟩, record_pos E d i c ⟨t1, t2, t3⟩]
  unfold nudgedVertex
  refine ⟨?_, ?_, ?_⟩
  · by_cases h : c.mask &&& vertexMask 0 = 0
    · simp only [h, ne_eq, not_true, and_false, if_false, t1, t2, false_and]
      exact (I.stays ok hm (Or.inl rfl) (m0 h).1 (m0 h).2).symm
    · simp [h]
  · by_cases h : c.mask &&& vertexMask 1 = 0
    · simp only [h, ne_eq, not_true, and_false, if_false, t1.symm, t3, false_and]
      exact (I.stays ok hm (Or.inr (Or.inl rfl)) (m1 h).1 (m1 h).2).symm
    · simp [h, t1.symm]
  · by_cases h : c.mask &&& vertexMask 2 = 0
    · simp only [h, ne_eq, not_true, and_false, if_false, t2.symm, t3.symm, false_and]
      exact (I.stays ok hm (Or.inr (Or.inr rfl)) (m2 h).1 (m2 h).2).symm
    · simp [h, t2.symm, t3.symm]

theorem nudgedVertex_corner {t : Tri} {mask v : Nat} {n : PointF × PointF × PointF} {p : PointF}
    (h : nudgedVertex t mask n v = some p) :
    (v = t.1 ∧ p = n.1) ∨ (v = t.2.1 ∧ p = n.2.1) ∨ (v = t.2.2 ∧ p = n.2.2) := by
  unfold nudgedVertex at h
  split at h
  · rename_i hh; cases h; exact Or.inl ⟨hh.1, rfl⟩
  split at h
  · rename_i hh; cases h; exact Or.inr (Or.inl ⟨hh.1, rfl⟩)
  split at h
  · rename_i hh; cases h; exact Or.inr (Or.inr ⟨hh.1, rfl⟩)
  · cases h

theorem step_of_nudged {E : Env} (ok : EnvOk E) {d : St} {v mask bx bY : Nat} (hq : d.pos v = E.quantized v)
    (hb : E.bounds.contains (E.quantized v) = true) :
    Step E.cx (E.original v).x (nudged E d mask bx bY v).x ∧
    Step E.cy (E.original v).y (nudged E d mask bx bY v).y := by
  rw [contains_iff] at hb
  unfold Env.quantized quantizePoint at hb
  simp only at hb
  unfold nudged nudgeVector quantizePoint copysign
  simp only [hq]
  unfold Env.quantized quantizePoint
  constructor
  · unfold Step
    by_cases h : bx &&& mask ≠ 0
    · rw [if_pos h]; exact Or.inr rfl
    · rw [if_neg h]; exact Or.inl (by simp only [quantize_add_zero ok.cx]; exact ok.sx _ hb.1 hb.2.1)
  · unfold Step
    by_cases h : bY &&& mask ≠ 0
    · rw [if_pos h]; exact Or.inr rfl
    · rw [if_neg h]; exact Or.inl (by simp only [quantize_add_zero ok.cy]; exact ok.sy _ hb.2.2.1 hb.2.2.2)

theorem corner_adjacent {E : Env} {i j : Nat} (hj : j < E.tris.length) (hne : j ≠ i) {v : Nat}
    (h1 : Corner (E.tri i) v) (h2 : Corner (E.tri j) v) : j ∈ E.adjacent i := by
  unfold Env.adjacent
  rw [List.mem_filter]
  refine ⟨List.mem_range.2 hj, ?_⟩
  have hh : hasVertex (E.tri i) v = true := by
    unfold hasVertex
    rcases h1 with h | h | h <;> simp [h]
  rw [Bool.and_eq_true]
  refine ⟨by simpa using hne, ?_⟩
  unfold shares
  rcases h2 with h | h | h <;> rw [h] at hh <;> simp [hh]

theorem record_inv {E : Env} {d : St} (ok : EnvOk E) (I : Inv E d) {i : Nat} {rest : List Nat}
    (hq : d.queue = i :: rest) {c : Candidate}
    (C : CandOk E { d with queue := rest } i (correctedMask { d with queue := rest } (E.tri i)) c) :
    Inv E (record E { d with queue := rest } i c) := by
  have hi : i < E.tris.length := I.qlt i (by rw [hq]; simp)
  have hm := tri_mem hi
  have hdis := ok.distinct _ hm
  set e : St := { d with queue := rest } with he
  have nc : ∀ v, (nudgedVertex (E.tri i) c.mask (nudgedTri E e (E.tri i) c.mask) v).isSome → e.corrected v = none :=
    fun v h => nudged_not_corrected C.mask h
  have hqn : ∀ bx bY v, Quantised E (nudged E e c.mask bx bY v) :=
    fun bx bY v => nudged_quantised ok _ _ _ _ (I.quant v)
  have hin := corners_in (n := nudgedTri E e (E.tri i) c.mask) ((hqn _ _ _).valid ok) ((hqn _ _ _).valid ok)
    ((hqn _ _ _).valid ok) C.bounds
  -- what a moved vertex gets
  have hmv : ∀ v p, nudgedVertex (E.tri i) c.mask (nudgedTri E e (E.tri i) c.mask) v = some p →
      Moved E v p ∧ Corner (E.tri i) v ∧ Quantised E p := by
    intro v p h
    have hu : e.pos v = E.quantized v := I.unc v (nc v (by rw [h]; rfl))
    rcases nudgedVertex_corner h with ⟨hv, hp⟩ | ⟨hv, hp⟩ | ⟨hv, hp⟩
    · have s := step_of_nudged ok (d := e) (v := v) (mask := c.mask) (bx := bitX0) (bY := bitY0) hu (ok.inBounds _ hm v (hv ▸ Or.inl rfl))
      have hp' : p = nudged E e c.mask bitX0 bitY0 v := by rw [hp, hv]; rfl
      exact ⟨⟨hp' ▸ s.1, hp' ▸ s.2, by rw [hp]; exact hin.1⟩, Or.inl hv, hp' ▸ hqn _ _ _⟩
    · have s := step_of_nudged ok (d := e) (v := v) (mask := c.mask) (bx := bitX1) (bY := bitY1) hu (ok.inBounds _ hm v (hv ▸ Or.inr (Or.inl rfl)))
      have hp' : p = nudged E e c.mask bitX1 bitY1 v := by rw [hp, hv]; rfl
      exact ⟨⟨hp' ▸ s.1, hp' ▸ s.2, by rw [hp]; exact hin.2.1⟩, Or.inr (Or.inl hv), hp' ▸ hqn _ _ _⟩
    · have s := step_of_nudged ok (d := e) (v := v) (mask := c.mask) (bx := bitX2) (bY := bitY2) hu (ok.inBounds _ hm v (hv ▸ Or.inr (Or.inr rfl)))
      have hp' : p = nudged E e c.mask bitX2 bitY2 v := by rw [hp, hv]; rfl
      exact ⟨⟨hp' ▸ s.1, hp' ▸ s.2, by rw [hp]; exact hin.2.2⟩, Or.inr (Or.inr hv), hp' ▸ hqn _ _ _⟩
  refine ⟨?_, ?_, ?_, ?_, ?_, ?_⟩
  · intro j hj
    rw [record_queue] at hj
    rcases List.mem_append.1 hj with h | h
    · exact I.qlt j (by rw [hq]; exact List.mem_cons_of_mem _ h)
    · have := ((C.adj.flipped j).1 h).1
      exact List.mem_range.1 (List.mem_filter.1 this).1
  · intro j hj hs
    rw [record_queue, List.mem_append]
    rw [record_state] at hs
    split at hs
    · rename_i h; exact Or.inr h
    split at hs
    · cases hs
    split at hs
    · cases hs
    · rename_i hne
      have := I.flippedQ j hj hs
      rw [hq] at this
      rcases List.mem_cons.1 this with h | h
      · exact absurd h hne
      · exact Or.inl h
  · intro j hj hs
    rw [record_state] at hs
    by_cases hji : j = i
    · subst hji
      -- the corrected triangle
      have hpos : (record E e j c).pos (E.tri j).1 = (nudgedTri E e (E.tri j) c.mask).1 ∧
          (record E e j c).pos (E.tri j).2.1 = (nudgedTri E e (E.tri j) c.mask).2.1 ∧
          (record E e j c).pos (E.tri j).2.2 = (nudgedTri E e (E.tri j) c.mask).2.2 := by
        -- `pos_at_corners` for the state before the triangle was taken from the queue
        have C' : CandOk E d j (correctedMask d (E.tri j)) c := ⟨C.mask, C.notFlipped, C.bounds, ⟨C.adj.fixed, C.adj.flipped, C.adj.stay, C.adj.sub⟩, C.mem⟩
        have := pos_at_corners ok I hi C'
        rw [record_pos E d j c hdis, record_pos E d j c hdis, record_pos E d j c hdis] at this
        rw [record_pos E e j c hdis, record_pos E e j c hdis, record_pos E e j c hdis]
        exact this
      unfold flippedAt
      rw [hpos.1, hpos.2.1, hpos.2.2]
      exact C.notFlipped
    · unfold flippedAt
      rw [record_pos E e i c hdis, record_pos E e i c hdis, record_pos E e i c hdis]
      by_cases ha : Affected (nudgedVertex (E.tri i) c.mask (nudgedTri E e (E.tri i) c.mask)) (E.tri j)
      · -- it shares a moved vertex
        have hadj : j ∈ E.adjacent i := by
          unfold Affected at ha
          have : ∃ v, Corner (E.tri j) v ∧
              (nudgedVertex (E.tri i) c.mask (nudgedTri E e (E.tri i) c.mask) v).isSome := by
            by_contra hno
            apply ha
            refine ⟨?_, ?_, ?_⟩
            · by_contra h; exact hno ⟨_, Or.inl rfl, by simpa [Option.isSome_iff_ne_none] using h⟩
            · by_contra h; exact hno ⟨_, Or.inr (Or.inl rfl), by simpa [Option.isSome_iff_ne_none] using h⟩
            · by_contra h; exact hno ⟨_, Or.inr (Or.inr rfl), by simpa [Option.isSome_iff_ne_none] using h⟩
          obtain ⟨v, hc, hv⟩ := this
          obtain ⟨p, hp⟩ := Option.isSome_iff_exists.1 hv
          exact corner_adjacent hj hji (hmv v p hp).2.1 hc
        by_contra hf
        have hfa : FlippedAfter e (nudgedVertex (E.tri i) c.mask (nudgedTri E e (E.tri i) c.mask)) (E.tri j) := by
          unfold FlippedAfter
          simpa using hf
        by_cases hn : j ∈ c.newlyFlipped
        · rw [if_pos hn] at hs; exact hs rfl
        rw [if_neg hn] at hs
        have hst := C.adj.stay j hadj ha hfa
        have hnf : e.state j ≠ .notFlipped := fun h => hn ((C.adj.flipped j).2 ⟨hadj, ha, hfa, h⟩)
        have hfx : j ∉ c.newlyFixed := fun h => ((C.adj.fixed j).1 h).2.2.1 hfa
        rw [if_neg hfx, if_neg hji] at hs
        cases hh : e.state j with
        | notFlipped => exact hnf hh
        | flipped => exact hs hh
        | fixed => exact hst hh
      · unfold Affected at ha
        rw [not_not] at ha
        obtain ⟨a1, a2, a3⟩ := ha
        rw [Option.isNone_iff_eq_none] at a1 a2 a3
        rw [a1, a2, a3]
        apply I.good j hj
        intro hfl
        have hna : ¬ Affected (nudgedVertex (E.tri i) c.mask (nudgedTri E e (E.tri i) c.mask)) (E.tri j) := by
          unfold Affected; rw [not_not, a1, a2, a3]; exact ⟨rfl, rfl, rfl⟩
        rw [if_neg (fun h => hna ((C.adj.flipped j).1 h).2.1), if_neg (fun h => hna ((C.adj.fixed j).1 h).2.1),
          if_neg hji] at hs
        exact hs hfl
  · intro v p h
    rw [record_corrected E e i c hdis v (nc v)] at h
    rw [record_pos E e i c hdis]
    cases hn : nudgedVertex (E.tri i) c.mask (nudgedTri E e (E.tri i) c.mask) v with
    | some p' =>
      rw [hn] at h
      simp only [Option.some_or, Option.some.injEq] at h
      subst h
      exact ⟨rfl, (hmv v _ hn).1, _, hm, (hmv v _ hn).2.1⟩
    | none =>
      rw [hn] at h
      rw [Option.none_or] at h
      exact I.cor v p h
  · intro v h
    rw [record_corrected E e i c hdis v (nc v)] at h
    rw [record_pos E e i c hdis]
    rw [Option.or_eq_none_iff] at h
    rw [h.1]
    exact I.unc v h.2
  · intro v
    rw [record_pos E e i c hdis]
    cases hn : nudgedVertex (E.tri i) c.mask (nudgedTri E e (E.tri i) c.mask) v with
    | some p => exact (hmv v p hn).2.2
    | none => exact I.quant v

theorem loop_inv {E : Env} (ok : EnvOk E) : ∀ (fuel : Nat) (d : St), Inv E d →
    ∀ f, loop E fuel d = some (some f) → ∃ d', Inv E d' ∧ d'.queue = [] ∧ d'.corrected = f := by
  intro fuel
  induction fuel with
  | zero =>
    intro d I f h
    unfold loop at h
    cases hq : d.queue with
    | nil =>
      rw [hq] at h
      simp only [Option.some.injEq] at h
      exact ⟨d, I, hq, h⟩
    | cons i rest => rw [hq] at h; simp at h
  | succ fuel ih =>
    intro d I f h
    unfold loop at h
    cases hq : d.queue with
    | nil =>
      rw [hq] at h
      simp only [Option.some.injEq] at h
      exact ⟨d, I, hq, h⟩
    | cons i rest =>
      rw [hq] at h
      simp only at h
      by_cases hf : d.state i = .fixed
      · rw [if_pos hf] at h
        refine ih { d with queue := rest } ⟨?_, ?_, I.good, I.cor, I.unc, I.quant⟩ f h
        · intro j hj; exact I.qlt j (by rw [hq]; exact List.mem_cons_of_mem _ hj)
        · intro j hj hs
          have := I.flippedQ j hj hs
          rw [hq] at this
          rcases List.mem_cons.1 this with rfl | h'
          · rw [hf] at hs; cases hs
          · exact h'
      · rw [if_neg hf] at h
        split at h
        · cases h
        split at h
        · cases h
        · rename_i c hc
          have C := bestNudge_spec masks none c (fun _ h => h) (by simp) hc
          exact ih _ (record_inv ok I hq C) f h

theorem init_inv {E : Env} (ok : EnvOk E) : Inv E E.init where
  qlt := by
    intro i hi
    exact List.mem_range.1 (List.mem_filter.1 hi).1
  flippedQ := by
    intro j hj hs
    refine List.mem_filter.2 ⟨List.mem_range.2 hj, ?_⟩
    unfold Env.init at hs
    simp only at hs
    split at hs
    · assumption
    · cases hs
  good := by
    intro j hj hs
    unfold Env.init at hs ⊢
    simp only at hs ⊢
    split at hs
    · exact absurd rfl hs
    · rename_i h; simpa using h
  cor := by intro v p h; cases h
  unc := fun _ _ => rfl
  quant := fun v => ⟨E.original v, ok.original v, rfl⟩

end Verif.Flip
