import Verif.Spec.Polyline
import Verif.Props.SegmentAlgorithms
import Verif.Props.Distance
import Mathlib.Tactic.Linarith
import Mathlib.Tactic.Ring

/-!
# Lemmas for C59
-/

set_option autoImplicit false
set_option linter.unusedSectionVars false

namespace Verif.Polyline

open Verif.Geo Verif.Geo.Spec Spec

variable {K : Type} [Field K] [LinearOrder K] [IsStrictOrderedRing K] {hypot : K → K → K}

theorem bind_some' {α β : Type} {x : Option α} {f : α → Option β} {y : β} (h : x.bind f = some y) :
    ∃ a, x = some a ∧ f a = some y := Option.bind_eq_some_iff.1 h

theorem visitAll_inv {σ : Type} {f : σ → Bundle K → Option σ} {Inv : List (Bundle K) → σ → Prop} (l : List (Bundle K))
    (h : ∀ seen s b, b ∈ l → Inv seen s → ∃ s', f s b = some s' ∧ Inv (seen ++ [b]) s') :
    ∀ seen s, Inv seen s → ∃ s', visitAll f l s = some s' ∧ Inv (seen ++ l) s' := by
  induction l with
  | nil => exact fun seen s hs => ⟨s, rfl, by simpa using hs⟩
  | cons b l ih =>
    intro seen s hs
    obtain ⟨s', e, hs'⟩ := h seen s b (by simp) hs
    obtain ⟨s'', e', hs''⟩ := ih (fun seen s c hc => h seen s c (by simp [hc])) _ _ hs'
    refine ⟨s'', ?_, by simpa using hs''⟩
    unfold visitAll
    rw [e]
    exact e'

/-! ## The segments -/

/-- The bundle of a segment of the polyline. -/
def bundleAt (hypot : K → K → K) (pts : List (Pt K)) (i : ℕ) : Bundle K := ⟨side pts i, i, sideLength hypot pts i⟩

theorem bundles_get (hypot : K → K → K) : ∀ (pts : List (Pt K)) (k i : ℕ), (bundles hypot k pts)[i]? =
    if i + 1 < pts.length then some ⟨side pts i, k + i, sideLength hypot pts i⟩ else none
  | [], k, i => by simp [bundles]
  | [p], k, i => by simp [bundles]
  | p :: q :: l, k, 0 => by
    simp [bundles, side, sideLength, distPP, Pt.magnitude, Pt.sub]
  | p :: q :: l, k, i + 1 => by
    simp only [bundles, List.getElem?_cons_succ]
    rw [bundles_get hypot (q :: l) (k + 1) i]
    simp only [side, sideLength, List.length_cons, List.getD_cons_succ]
    have : k + 1 + i = k + (i + 1) := by omega
    rw [this]
    by_cases h : i + 1 < l.length + 1
    · rw [if_pos h, if_pos (by omega)]
    · rw [if_neg h, if_neg (by omega)]

theorem bundles_length (hypot : K → K → K) : ∀ (pts : List (Pt K)) (k : ℕ), (bundles hypot k pts).length = pts.length - 1
  | [], k => by simp [bundles]
  | [p], k => by simp [bundles]
  | p :: q :: l, k => by
    simp only [bundles, List.length_cons]
    rw [bundles_length hypot (q :: l)]
    simp

theorem bundles_eq (pts : List (Pt K)) : bundles hypot 0 pts = (List.range (pts.length - 1)).map (bundleAt hypot pts) := by
  apply List.ext_getElem?
  intro i
  rw [bundles_get, List.getElem?_map]
  by_cases h : i + 1 < pts.length
  · rw [if_pos h, List.getElem?_range (by omega)]
    simp [bundleAt]
  · rw [if_neg h, List.getElem?_eq_none (by simp; omega)]
    rfl

theorem segs_get (pts : List (Pt K)) (i : ℕ) : (bundles hypot 0 pts)[i]? =
    if i + 1 < pts.length then some (bundleAt hypot pts i) else none := by
  rw [bundles_get]
  simp [bundleAt]

theorem foldl_add (l : List K) : ∀ a : K, l.foldl (· + ·) a = a + l.sum := by
  induction l with
  | nil => simp
  | cons x l ih =>
    intro a
    rw [List.foldl_cons, ih, List.sum_cons, add_assoc]

theorem walk_first (pts : List (Pt K)) {i : ℕ} (hi : i + 1 < pts.length) (t : K) :
    walkDistance (bundles hypot 0 pts) i t false = some (walkFromStart hypot pts (i, t)) := by
  unfold walkDistance
  rw [segs_get, if_pos hi]
  simp only [Option.map_some, Bool.false_eq_true, if_false, foldl_add, walkFromStart, Option.some.injEq]
  rw [bundles_eq, ← List.map_take, List.take_range, List.map_map]
  have : min i (pts.length - 1) = i := by omega
  rw [this, add_comm, mul_comm]
  rfl

theorem walk_last (pts : List (Pt K)) {i : ℕ} (hi : i + 1 < pts.length) (t : K) :
    walkDistance (bundles hypot 0 pts) i t true = some (walkToEnd hypot pts (i, t)) := by
  unfold walkDistance
  rw [segs_get, if_pos hi]
  simp only [Option.map_some, if_true, foldl_add, walkToEnd, Option.some.injEq]
  rw [bundles_eq, ← List.map_drop, List.map_map, List.range_eq_range', List.drop_range', mul_comm]
  simp only [Nat.zero_add, Nat.mul_one]
  rfl

theorem sideLength_nonneg (hh : IsHypot hypot) (pts : List (Pt K)) (i : ℕ) : 0 ≤ sideLength hypot pts i := (hh _ _).1

theorem walkFromStart_nonneg (hh : IsHypot hypot) (pts : List (Pt K)) {a : Place K} (h0 : 0 ≤ a.2) :
    0 ≤ walkFromStart hypot pts a := by
  refine add_nonneg (List.sum_nonneg ?_) (mul_nonneg h0 (sideLength_nonneg hh _ _))
  simp only [List.mem_map]
  rintro x ⟨i, -, rfl⟩
  exact sideLength_nonneg hh _ _

theorem walkToEnd_nonneg (hh : IsHypot hypot) (pts : List (Pt K)) {a : Place K} (h1 : a.2 ≤ 1) :
    0 ≤ walkToEnd hypot pts a := by
  refine add_nonneg (mul_nonneg (by linarith) (sideLength_nonneg hh _ _)) (List.sum_nonneg ?_)
  simp only [List.mem_map]
  rintro x ⟨i, -, rfl⟩
  exact sideLength_nonneg hh _ _

/-! ## The queries -/

theorem onSegment_bounds {p : Pt K} {s : Segment K} (h : OnSegment p s) :
    min s.start.x s.stop.x ≤ p.x ∧ p.x ≤ max s.start.x s.stop.x ∧ min s.start.y s.stop.y ≤ p.y ∧
      p.y ≤ max s.start.y s.stop.y := by
  have key : ∀ a b t : K, 0 ≤ t → t ≤ 1 → min a b ≤ a + t * (b - a) ∧ a + t * (b - a) ≤ max a b := by
    intro a b t h0 h1
    rcases le_total a b with hab | hab
    · rw [min_eq_left hab, max_eq_right hab]
      constructor <;> nlinarith
    · rw [min_eq_right hab, max_eq_left hab]
      constructor <;> nlinarith
  obtain ⟨t, h0, h1, hx, hy⟩ := h
  rw [hx, hy]
  exact ⟨(key _ _ _ h0 h1).1, (key _ _ _ h0 h1).2, (key _ _ _ h0 h1).1, (key _ _ _ h0 h1).2⟩

theorem bounds_meet {a b : Bundle K} (h : Meet a.segment b.segment) :
    intersectsRR (segmentBounds b) (segmentBounds a) = true := by
  obtain ⟨p, ha, hb⟩ := h
  have h1 := onSegment_bounds ha
  have h2 := onSegment_bounds hb
  unfold intersectsRR segmentBounds Rect.fromTwoPoints
  rw [if_neg, if_neg]
  · rintro (h | h)
    · exact absurd h (not_lt.2 (h2.2.2.1.trans h1.2.2.2))
    · exact absurd h (not_lt.2 (h1.2.2.1.trans h2.2.2.2))
  · rintro (h | h)
    · exact absurd h (not_lt.2 (h2.1.trans h1.2.1))
    · exact absurd h (not_lt.2 (h1.1.trans h2.2.1))

theorem mem_tree {mkTree : List (Bundle K) → Tree K} (hT : TreeOk mkTree) (pts : List (Pt K)) (r : Rect K) (b : Bundle K) :
    b ∈ mkTree (bundles hypot 0 pts) r ↔
      (∃ i, i + 1 < pts.length ∧ b = bundleAt hypot pts i) ∧ intersectsRR (segmentBounds b) r = true := by
  rw [(hT _ r).mem_iff, List.mem_filter, bundles_eq, List.mem_map]
  constructor
  · rintro ⟨⟨i, hi, rfl⟩, h⟩
    exact ⟨⟨i, by simp at hi; omega, rfl⟩, h⟩
  · rintro ⟨⟨i, hi, rfl⟩, h⟩
    exact ⟨⟨i, by simp; omega, rfl⟩, h⟩

/-! ## The first search -/

/-- What the first visitor knows after some elements. -/
def EarlyInv (cur : Bundle K) (seen : List (Bundle K)) : Option (K × K × Bundle K) → Prop
  | none => ∀ b ∈ seen, b.index > cur.index + 1 → ¬ Meet cur.segment b.segment
  | some (t, s, o) => o ∈ seen ∧ o.index > cur.index + 1 ∧ FirstRatio cur.segment o.segment t ∧
    FirstRatio o.segment cur.segment s ∧
    ∀ b ∈ seen, b.index > cur.index + 1 → ∀ u, 0 ≤ u → u ≤ 1 → OnSegment (at_ cur.segment u) b.segment → t ≤ u

theorem not_meet_at {a b : Segment K} (h : ¬ Meet a b) {u : K} (h0 : 0 ≤ u) (h1 : u ≤ 1) : ¬ OnSegment (at_ a u) b :=
  fun hb => h ⟨_, onSegment_at.2 ⟨u, h0, h1, rfl⟩, hb⟩

theorem early_step (cur : Bundle K) (seen : List (Bundle K)) (st : Option (K × K × Bundle K)) (b : Bundle K)
    (h : EarlyInv cur seen st) : ∃ st', earliestVisitor cur st b = some st' ∧ EarlyInv cur (seen ++ [b]) st' := by
  unfold earliestVisitor
  by_cases hb : b.index > cur.index + 1
  · rw [if_pos hb]
    obtain ⟨r1, r2, r3⟩ := C53_ratio cur.segment b.segment
    cases e : segmentIntersectionRatio cur.segment b.segment with
    | crash => exact absurd e r1
    | none =>
      have hm := r2.1 e
      refine ⟨st, rfl, ?_⟩
      cases st with
      | none =>
        intro c hc
        rw [List.mem_append, List.mem_singleton] at hc
        rcases hc with hc | rfl
        · exact h c hc
        · exact fun _ => hm
      | some x =>
        obtain ⟨t, s, o⟩ := x
        obtain ⟨h1, h2, h3, h4, h5⟩ := h
        refine ⟨by simp [h1], h2, h3, h4, fun c hc => ?_⟩
        rw [List.mem_append, List.mem_singleton] at hc
        rcases hc with hc | rfl
        · exact h5 c hc
        · exact fun _ u h0 h1 ho => absurd ho (not_meet_at hm h0 h1)
    | some t s =>
      obtain ⟨f1, f2⟩ := r3 t s e
      cases st with
      | none =>
        refine ⟨_, rfl, by simp, hb, f1, f2, fun c hc hi u h0 h1 ho => ?_⟩
        rw [List.mem_append, List.mem_singleton] at hc
        rcases hc with hc | rfl
        · exact absurd ho (not_meet_at (h c hc hi) h0 h1)
        · exact f1.2.2.2 u h0 h1 ho
      | some x =>
        obtain ⟨t0, s0, o⟩ := x
        obtain ⟨h1, h2, h3, h4, h5⟩ := h
        simp only
        by_cases ht : t < t0
        · rw [if_pos ht]
          refine ⟨_, rfl, by simp, hb, f1, f2, fun c hc hi u h0 h1 ho => ?_⟩
          rw [List.mem_append, List.mem_singleton] at hc
          rcases hc with hc | rfl
          · exact ht.le.trans (h5 c hc hi u h0 h1 ho)
          · exact f1.2.2.2 u h0 h1 ho
        · rw [if_neg ht]
          refine ⟨_, rfl, by simp [h1], h2, h3, h4, fun c hc hi u h0 h1 ho => ?_⟩
          rw [List.mem_append, List.mem_singleton] at hc
          rcases hc with hc | rfl
          · exact h5 c hc hi u h0 h1 ho
          · exact (not_lt.1 ht).trans (f1.2.2.2 u h0 h1 ho)
  · rw [if_neg hb]
    refine ⟨st, rfl, ?_⟩
    cases st with
    | none =>
      intro c hc
      rw [List.mem_append, List.mem_singleton] at hc
      rcases hc with hc | rfl
      · exact h c hc
      · exact fun hi => absurd hi hb
    | some x =>
      obtain ⟨t, s, o⟩ := x
      obtain ⟨h1, h2, h3, h4, h5⟩ := h
      refine ⟨by simp [h1], h2, h3, h4, fun c hc => ?_⟩
      rw [List.mem_append, List.mem_singleton] at hc
      rcases hc with hc | rfl
      · exact h5 c hc
      · exact fun hi => absurd hi hb

/-- What the first search finds among the segments from an index on. -/
def FirstFound (hypot : K → K → K) (pts : List (Pt K)) (i : ℕ) : Option (ℕ × K × K × Bundle K) → Prop
  | none => ∀ a, MeetsLater pts a → a.1 < i
  | some (i', t, s, o) => MeetsLater pts (i', t) ∧ (∀ a, MeetsLater pts a → i ≤ a.1 → NotAfter (i', t) a) ∧
    ∃ j, i' + 2 ≤ j ∧ j + 1 < pts.length ∧ o = bundleAt hypot pts j ∧ FirstRatio (side pts j) (side pts i') s

theorem searchFirst_spec {mkTree : List (Bundle K) → Tree K} (hT : TreeOk mkTree) (pts : List (Pt K)) :
    ∀ k i, i + k = pts.length - 1 - 2 → ∃ r, searchFirst (mkTree (bundles hypot 0 pts)) (bundles hypot 0 pts)
      (List.range' i k) none = some r ∧ FirstFound hypot pts i r := by
  intro k
  induction k with
  | zero =>
    intro i hi
    refine ⟨none, rfl, fun a ha => ?_⟩
    obtain ⟨-, j, h1, h2, -⟩ := ha
    omega
  | succ k ih =>
    intro i hi
    simp only [List.range'_succ, searchFirst]
    rw [segs_get, if_pos (by omega)]
    simp only [Option.bind_some]
    obtain ⟨st, e, inv⟩ := visitAll_inv (f := earliestVisitor (bundleAt hypot pts i))
      (Inv := EarlyInv (bundleAt hypot pts i)) (mkTree (bundles hypot 0 pts) (segmentBounds (bundleAt hypot pts i)))
      (fun seen s b _ h => early_step _ seen s b h) [] none (fun b hb => absurd hb (by simp))
    rw [e]
    simp only [Option.bind_some, List.nil_append] at inv ⊢
    -- every later segment which meets this one is shown
    have shown : ∀ j, i + 2 ≤ j → j + 1 < pts.length → Meet (side pts i) (side pts j) →
        bundleAt hypot pts j ∈ mkTree (bundles hypot 0 pts) (segmentBounds (bundleAt hypot pts i)) := by
      intro j h1 h2 hm
      exact (mem_tree hT pts _ _).2 ⟨⟨j, h2, rfl⟩, bounds_meet (a := bundleAt hypot pts i) hm⟩
    cases st with
    | none =>
      obtain ⟨r, er, hr⟩ := ih (i + 1) (by omega)
      refine ⟨r, er, ?_⟩
      have none_i : ∀ a, MeetsLater pts a → a.1 ≠ i := by
        rintro ⟨i', u⟩ ⟨⟨-, h0, h1⟩, j, hj, hl, ho⟩ he
        change i' = i at he
        subst he
        have hm : Meet (side pts i') (side pts j) := ⟨_, onSegment_at.2 ⟨u, h0, h1, rfl⟩, ho⟩
        exact inv _ (shown j hj hl hm) (by simp only [bundleAt] at *; omega) hm
      cases r with
      | none =>
        intro a ha
        have := hr a ha
        have := none_i a ha
        omega
      | some x =>
        obtain ⟨i', t, s, o⟩ := x
        obtain ⟨g1, g2, g3⟩ := hr
        refine ⟨g1, fun a ha hia => g2 a ha ?_, g3⟩
        have := none_i a ha
        omega
    | some x =>
      obtain ⟨t, s, o⟩ := x
      obtain ⟨h1, h2, h3, h4, h5⟩ := inv
      simp only
      rw [if_pos h3.2.1]
      obtain ⟨⟨j, hj, rfl⟩, -⟩ := (mem_tree hT pts _ _).1 h1
      have hij : i + 2 ≤ j := by simp only [bundleAt] at h2; omega
      refine ⟨_, rfl, ⟨⟨?_, h3.1, h3.2.1⟩, j, hij, hj, h3.2.2.1⟩, fun a ha hia => ?_, j, hij, hj, rfl, h4⟩
      · simp only
        omega
      · obtain ⟨i', u⟩ := a
        obtain ⟨⟨-, u0, u1⟩, j', hj', hl', ho⟩ := ha
        simp only at hia hj' ho u0 u1
        rcases Nat.lt_or_ge i i' with hlt | hge
        · exact Or.inl hlt
        · have : i' = i := by omega
          subst this
          refine Or.inr ⟨rfl, h5 _ (shown j' hj' hl' ⟨_, onSegment_at.2 ⟨u, u0, u1, rfl⟩, ho⟩) ?_ u u0 u1 ho⟩
          simp only [bundleAt]
          omega

/-! ## The second search -/

/-- What the second visitor knows after some elements. -/
def LargeInv (f : ℕ) (cur : Bundle K) (seen : List (Bundle K)) : Option K → Prop
  | none => ∀ b ∈ seen, b.index + 1 < cur.index → f ≤ b.index → ¬ Meet cur.segment b.segment
  | some t => (∃ o ∈ seen, o.index + 1 < cur.index ∧ f ≤ o.index ∧ FirstRatio cur.segment o.segment t) ∧
    ∀ b ∈ seen, b.index + 1 < cur.index → f ≤ b.index → ∀ u, FirstRatio cur.segment b.segment u → u ≤ t

theorem firstRatio_unique {a b : Segment K} {t u : K} (h1 : FirstRatio a b t) (h2 : FirstRatio a b u) : t = u :=
  le_antisymm (h1.2.2.2 u h2.1 h2.2.1 h2.2.2.1) (h2.2.2.2 t h1.1 h1.2.1 h1.2.2.1)

theorem firstRatio_meet {a b : Segment K} {t : K} (h1 : FirstRatio a b t) : Meet a b :=
  ⟨_, onSegment_at.2 ⟨t, h1.1, h1.2.1, rfl⟩, h1.2.2.1⟩

theorem large_step (f : ℕ) (cur : Bundle K) (seen : List (Bundle K)) (st : Option K) (b : Bundle K)
    (h : LargeInv f cur seen st) : ∃ st', largestVisitor f cur st b = some st' ∧ LargeInv f cur (seen ++ [b]) st' := by
  unfold largestVisitor
  by_cases hb : b.index + 1 < cur.index ∧ b.index + 1 > f
  · rw [if_pos hb]
    obtain ⟨r1, r2, r3⟩ := C53_ratio cur.segment b.segment
    cases e : segmentIntersectionRatio cur.segment b.segment with
    | crash => exact absurd e r1
    | none =>
      have hm := r2.1 e
      refine ⟨st, rfl, ?_⟩
      cases st with
      | none =>
        intro c hc
        rw [List.mem_append, List.mem_singleton] at hc
        rcases hc with hc | rfl
        · exact h c hc
        · exact fun _ _ => hm
      | some t =>
        obtain ⟨⟨o, h1, h2⟩, h5⟩ := h
        refine ⟨⟨o, by simp [h1], h2⟩, fun c hc => ?_⟩
        rw [List.mem_append, List.mem_singleton] at hc
        rcases hc with hc | rfl
        · exact h5 c hc
        · exact fun _ _ u hu => absurd (firstRatio_meet hu) hm
    | some t s =>
      obtain ⟨f1, f2⟩ := r3 t s e
      cases st with
      | none =>
        refine ⟨_, rfl, ⟨b, by simp, hb.1, by omega, f1⟩, fun c hc hi hf u hu => ?_⟩
        rw [List.mem_append, List.mem_singleton] at hc
        rcases hc with hc | rfl
        · exact absurd (firstRatio_meet hu) (h c hc hi hf)
        · exact le_of_eq (firstRatio_unique hu f1)
      | some t0 =>
        obtain ⟨⟨o, h1, h2⟩, h5⟩ := h
        simp only
        by_cases ht : t > t0
        · rw [if_pos ht]
          refine ⟨_, rfl, ⟨b, by simp, hb.1, by omega, f1⟩, fun c hc hi hf u hu => ?_⟩
          rw [List.mem_append, List.mem_singleton] at hc
          rcases hc with hc | rfl
          · exact (h5 c hc hi hf u hu).trans ht.le
          · exact le_of_eq (firstRatio_unique hu f1)
        · rw [if_neg ht]
          refine ⟨_, rfl, ⟨o, by simp [h1], h2⟩, fun c hc hi hf u hu => ?_⟩
          rw [List.mem_append, List.mem_singleton] at hc
          rcases hc with hc | rfl
          · exact h5 c hc hi hf u hu
          · rw [firstRatio_unique hu f1]
            exact not_lt.1 ht
  · rw [if_neg hb]
    refine ⟨st, rfl, ?_⟩
    cases st with
    | none =>
      intro c hc
      rw [List.mem_append, List.mem_singleton] at hc
      rcases hc with hc | rfl
      · exact h c hc
      · exact fun h1 h2 => absurd ⟨h1, by omega⟩ hb
    | some t =>
      obtain ⟨⟨o, h1, h2⟩, h5⟩ := h
      refine ⟨⟨o, by simp [h1], h2⟩, fun c hc => ?_⟩
      rw [List.mem_append, List.mem_singleton] at hc
      rcases hc with hc | rfl
      · exact h5 c hc
      · exact fun h1 h2 => absurd ⟨h1, by omega⟩ hb

/-- What the second search finds, going backwards from an index. -/
def LastFound (pts : List (Pt K)) (f lo hi : ℕ) : Option (ℕ × K) → Prop
  | none => ∀ i, lo ≤ i → i < hi → ∀ j, j + 2 ≤ i → f ≤ j → ¬ Meet (side pts i) (side pts j)
  | some (i, t) => lo ≤ i ∧ i < hi ∧ (∃ j, j + 2 ≤ i ∧ f ≤ j ∧ FirstRatio (side pts i) (side pts j) t) ∧
    (∀ j, j + 2 ≤ i → f ≤ j → ∀ u, FirstRatio (side pts i) (side pts j) u → u ≤ t) ∧
    ∀ i', i < i' → i' < hi → ∀ j, j + 2 ≤ i' → f ≤ j → ¬ Meet (side pts i') (side pts j)

theorem searchLast_spec {mkTree : List (Bundle K) → Tree K} (hT : TreeOk mkTree) (pts : List (Pt K)) (f lo : ℕ) :
    ∀ k, lo + k ≤ pts.length - 1 → ∃ r, searchLast (mkTree (bundles hypot 0 pts)) (bundles hypot 0 pts) f
      (List.range' lo k).reverse none = some r ∧ LastFound pts f lo (lo + k) r := by
  intro k
  induction k with
  | zero =>
    intro _
    exact ⟨none, rfl, fun i h1 h2 => by omega⟩
  | succ k ih =>
    intro hk
    rw [List.range'_1_concat, List.reverse_append]
    simp only [List.reverse_cons, List.reverse_nil, List.nil_append, List.singleton_append, searchLast]
    rw [segs_get, if_pos (by omega)]
    simp only [Option.bind_some]
    obtain ⟨st, e, inv⟩ := visitAll_inv (f := largestVisitor f (bundleAt hypot pts (lo + k)))
      (Inv := LargeInv f (bundleAt hypot pts (lo + k)))
      (mkTree (bundles hypot 0 pts) (segmentBounds (bundleAt hypot pts (lo + k))))
      (fun seen s b _ h => large_step _ _ seen s b h) [] none (fun b hb => absurd hb (by simp))
    rw [e]
    simp only [Option.bind_some, List.nil_append] at inv ⊢
    have shown : ∀ j, j + 2 ≤ lo + k → Meet (side pts (lo + k)) (side pts j) →
        bundleAt hypot pts j ∈ mkTree (bundles hypot 0 pts) (segmentBounds (bundleAt hypot pts (lo + k))) := by
      intro j h1 hm
      exact (mem_tree hT pts _ _).2 ⟨⟨j, by omega, rfl⟩, bounds_meet (a := bundleAt hypot pts (lo + k)) hm⟩
    cases st with
    | none =>
      have none_i : ∀ j, j + 2 ≤ lo + k → f ≤ j → ¬ Meet (side pts (lo + k)) (side pts j) :=
        fun j h1 h2 hm => inv _ (shown j h1 hm) (by simp only [bundleAt]; omega) h2 hm
      obtain ⟨r, er, hr⟩ := ih (by omega)
      refine ⟨r, er, ?_⟩
      cases r with
      | none =>
        intro i h1 h2
        rcases Nat.lt_or_ge i (lo + k) with h | h
        · exact hr i h1 h
        · have : i = lo + k := by omega
          subst this
          exact none_i
      | some x =>
        obtain ⟨i, t⟩ := x
        obtain ⟨g1, g2, g3, g4, g5⟩ := hr
        refine ⟨g1, by omega, g3, g4, fun i' h1 h2 => ?_⟩
        rcases Nat.lt_or_ge i' (lo + k) with h | h
        · exact g5 i' h1 h
        · have : i' = lo + k := by omega
          subst this
          exact none_i
    | some t =>
      obtain ⟨⟨o, h1, h2, h3, h4⟩, h5⟩ := inv
      simp only
      rw [if_pos h4.1]
      obtain ⟨⟨j, hj, rfl⟩, -⟩ := (mem_tree hT pts _ _).1 h1
      refine ⟨_, rfl, by omega, by omega, ⟨j, by simp only [bundleAt] at h2; omega, h3, h4⟩, fun j' hj' hf u hu => ?_,
        fun i' h1 h2 => by omega⟩
      exact h5 _ (shown j' hj' (firstRatio_meet hu)) (by simp only [bundleAt]; omega) hf u hu

/-- The data before the searches. -/
def base (hypot : K → K → K) (pts : List (Pt K)) : Data K :=
  ⟨bundles hypot 0 pts, none, none, ⟨0, 0⟩, ⟨0, 0⟩, false, false, false⟩

/-- The data after the search for intersections. -/
def crossed (hypot : K → K → K) (pts : List (Pt K)) : Option (Place K × Place K) → Data K
  | none => base hypot pts
  | some (a, b) => ⟨bundles hypot 0 pts, some ⟨a.1, a.2, walkFromStart hypot pts a⟩, some ⟨b.1, b.2, walkToEnd hypot pts b⟩,
      pointAt pts a, pointAt pts b, false, false, true⟩

/-- The intersections found by the code. -/
def Found (pts : List (Pt K)) : Option (Place K × Place K) → Prop
  | none => ∀ a, ¬ MeetsLater pts a
  | some (a, b) => IsFirst pts a ∧ IsLastStart pts b ∧ a.1 + 2 ≤ b.1

theorem findIntersections_spec {mkTree : List (Bundle K) → Tree K} (hT : TreeOk mkTree) (pts : List (Pt K)) :
    ∃ c, findIntersections (mkTree (bundles hypot 0 pts)) (base hypot pts) = some (crossed hypot pts c) ∧ Found pts c := by
  unfold findIntersections
  have hseg : (base hypot pts).segments = bundles hypot 0 pts := rfl
  simp only [hseg, bundles_length]
  obtain ⟨r, er, hr⟩ := searchFirst_spec (hypot := hypot) hT pts (pts.length - 1 - 2) 0 (by omega)
  rw [List.range_eq_range', er]
  simp only [Option.bind_some]
  cases r with
  | none => exact ⟨none, rfl, fun a ha => absurd (hr a ha) (by omega)⟩
  | some x =>
    obtain ⟨i, t, s, o⟩ := x
    obtain ⟨h1, h2, j, hij, hj, rfl, hs⟩ := hr
    simp only
    rw [segs_get, if_pos (by omega)]
    simp only [Option.bind_some, bundleAt]
    rw [walk_first pts (by omega), walk_last pts hj]
    simp only [Option.bind_some]
    obtain ⟨r, er, hr⟩ := searchLast_spec (hypot := hypot) hT pts i j (pts.length - 1 - j) (by omega)
    rw [er]
    simp only [Option.bind_some]
    have hn : j + (pts.length - 1 - j) = pts.length - 1 := by omega
    rw [hn] at hr
    cases r with
    | none =>
      exact absurd (firstRatio_meet hs) (hr j (le_refl _) (by omega) i hij (le_refl _))
    | some y =>
      obtain ⟨k, u⟩ := y
      obtain ⟨g1, g2, ⟨j', g3, g4, g5⟩, g6, g7⟩ := hr
      simp only
      rw [segs_get, if_pos (by omega), walk_last pts (by omega)]
      simp only [Option.bind_some, Option.map_some, bundleAt]
      refine ⟨some ((i, t), (k, u)), ?_, ⟨h1, fun a ha => h2 a ha (Nat.zero_le _)⟩, ⟨⟨⟨?_, g5.1, g5.2.1⟩, j', g3, g5.2.2.1⟩, ?_, ⟨j', g3, g5⟩, ?_⟩, ?_⟩
      · simp only [crossed, base, pointAt, lerp_eq_at]
      · simp only
        omega
      · -- earlier segments which meet a later one are not before the first
        rintro ⟨k', v⟩ ⟨⟨hk, v0, v1⟩, l, hl, ho⟩
        simp only at hk hl v0 v1 ho ⊢
        by_contra hc
        have hm : Meet (side pts k') (side pts l) := ⟨_, onSegment_at.2 ⟨v, v0, v1, rfl⟩, ho⟩
        obtain ⟨w, w0, w1, ew⟩ := onSegment_at.1 ho
        have hml : MeetsLater pts (l, w) :=
          ⟨⟨by simp only; omega, w0, w1⟩, k', hl, hk, by rw [show pointAt pts (l, w) = _ from ew.symm]; exact onSegment_at.2 ⟨v, v0, v1, rfl⟩⟩
        have := h2 _ hml (Nat.zero_le _)
        exact g7 k' (by omega) (by omega) l hl (by rcases this with h | h <;> simp only at h <;> omega) hm
      · intro l v hl hv
        have hl' : l + 2 ≤ k := hl
        obtain ⟨w, w0, w1, ew⟩ := onSegment_at.1 hv.2.2.1
        have hml : MeetsLater pts (l, w) :=
          ⟨⟨by simp only; omega, w0, w1⟩, k, hl, by omega, by
            rw [show pointAt pts (l, w) = _ from ew.symm]; exact onSegment_at.2 ⟨v, hv.1, hv.2.1, rfl⟩⟩
        have := h2 _ hml (Nat.zero_le _)
        exact g6 l hl (by rcases this with h | h <;> simp only at h <;> omega) v hv
      · simp only
        omega

/-! ## The searches for connections -/

theorem hypot_sq (hh : IsHypot hypot) {a b c d : K} : hypot a b ≤ hypot c d ↔ a * a + b * b ≤ c * c + d * d := by
  refine ⟨fun h => ?_, fun h => hh.le h⟩
  rw [← (hh a b).2, ← (hh c d).2]
  exact mul_self_le_mul_self (hh a b).1 h

theorem abs_le_hypot (hh : IsHypot hypot) (x y : K) : |x| ≤ hypot x y ∧ |y| ≤ hypot x y := by
  have h := hh x y
  constructor
  · exact abs_le_of_sq_le_sq' (by nlinarith [mul_self_nonneg y]) h.1 |> abs_le.2
  · exact abs_le_of_sq_le_sq' (by nlinarith [mul_self_nonneg x]) h.1 |> abs_le.2

theorem straight_le (hh : IsHypot hypot) {s : Segment K} (hd : s.start ≠ s.stop) (p : Pt K) {τ : K}
    (hτ : s.project p = some τ) (u v : K) :
    straight hypot p (at_ s u) ≤ straight hypot p (at_ s v) ↔ (u - τ) * (u - τ) ≤ (v - τ) * (v - τ) := by
  rw [project_eq hd] at hτ
  have hm := dot_self_pos hd
  have htm : τ * s.vector.dot s.vector = (p.sub s.start).dot s.vector := by
    cases hτ
    field_simp
  unfold straight at_
  rw [hypot_sq hh]
  set m := s.vector.dot s.vector with hmdef
  have key := (mul_le_mul_iff_of_pos_right (b := (u - τ) * (u - τ)) (c := (v - τ) * (v - τ)) hm).symm
  rw [key]
  clear key
  simp only [Segment.vector, Pt.sub, Pt.dot] at htm hmdef
  have e : ∀ w : K, (w - τ) * (w - τ) * m = w * w * m - 2 * w * (τ * m) + τ * τ * m := fun w => by ring
  rw [e, e, htm, hmdef]
  constructor <;> intro h <;> linarith

theorem nearest_iff (hh : IsHypot hypot) {s : Segment K} (hd : s.start ≠ s.stop) (p : Pt K) {τ : K}
    (hτ : s.project p = some τ) {u : K} (h0 : 0 ≤ u) (h1 : u ≤ 1) :
    (∀ v, 0 ≤ v → v ≤ 1 → straight hypot p (at_ s u) ≤ straight hypot p (at_ s v)) ↔ u = clamp01 τ := by
  simp only [straight_le hh hd p hτ]
  unfold clamp01
  constructor
  · intro h
    by_cases a : τ < 0
    · rw [if_pos a]
      have := h 0 (le_refl _) zero_le_one
      nlinarith
    · rw [if_neg a]
      by_cases b : 1 < τ
      · rw [if_pos b]
        have := h 1 zero_le_one (le_refl _)
        nlinarith
      · rw [if_neg b]
        have := h τ (not_lt.1 a) (not_lt.1 b)
        have h2 : (u - τ) * (u - τ) = 0 := le_antisymm (by linarith [this, show (τ - τ) * (τ - τ) = 0 by ring]) (mul_self_nonneg _)
        exact sub_eq_zero.1 (mul_self_eq_zero.1 h2)
  · intro h v v0 v1
    by_cases a : τ < 0
    · rw [if_pos a] at h
      subst h
      nlinarith
    · rw [if_neg a] at h
      by_cases b : 1 < τ
      · rw [if_pos b] at h
        subst h
        nlinarith
      · rw [if_neg b] at h
        subst h
        rw [sub_self, zero_mul]
        exact mul_self_nonneg _

theorem clamp01_mem (τ : K) : 0 ≤ clamp01 τ ∧ clamp01 τ ≤ 1 := by
  unfold clamp01
  by_cases a : τ < 0
  · rw [if_pos a]
    exact ⟨le_refl _, zero_le_one⟩
  · rw [if_neg a]
    by_cases b : 1 < τ
    · rw [if_pos b]
      exact ⟨zero_le_one, le_refl _⟩
    · rw [if_neg b]
      exact ⟨not_lt.1 a, not_lt.1 b⟩

theorem dist_clamp {s : Segment K} (hd : s.start ≠ s.stop) (p : Pt K) {τ : K} (hτ : s.project p = some τ) :
    distPS hypot p s = straight hypot p (at_ s (clamp01 τ)) := by
  unfold distPS
  rw [if_neg hd, hτ]
  simp only
  have e1 : at_ s 1 = s.stop := by simp [at_]
  have e0 : at_ s 0 = s.start := by simp [at_]
  unfold clamp01
  by_cases h1 : τ ≥ 1
  · rw [if_pos h1, if_neg (by linarith)]
    by_cases h : 1 < τ
    · rw [if_pos h, e1]
      rfl
    · rw [if_neg h, le_antisymm (not_lt.1 h) h1, e1]
      rfl
  · rw [if_neg h1]
    by_cases h2 : τ ≤ 0
    · rw [if_pos h2]
      by_cases h : τ < 0
      · rw [if_pos h, e0]
        rfl
      · rw [if_neg h, if_neg (by linarith), le_antisymm h2 (not_lt.1 h), e0]
        rfl
    · rw [if_neg h2, if_neg (by linarith), if_neg (by linarith), lerp_eq_at]
      rfl

theorem quotientLess_iff {a b r : K} (ha : 0 ≤ a) (hb : 0 ≤ b) : quotientLess a b r = true ↔ ¬ r * b ≤ a := by
  unfold quotientLess
  rcases hb.lt_or_eq with h | h
  · simp only [h.ne', Bool.and_eq_true, decide_eq_true_eq, ne_eq, not_false_eq_true, true_and, not_le]
    exact div_lt_iff₀ h
  · rw [← h]
    simp [ha]

/-- The walking distance between an endpoint and a place. -/
def walkOf (hypot : K → K → K) (pts : List (Pt K)) (backwards : Bool) : Place K → K :=
  if backwards then walkToEnd hypot pts else walkFromStart hypot pts

theorem walkOf_nonneg (hh : IsHypot hypot) (pts : List (Pt K)) (bw : Bool) {a : Place K} (h0 : 0 ≤ a.2) (h1 : a.2 ≤ 1) :
    0 ≤ walkOf hypot pts bw a := by
  cases bw
  · exact walkFromStart_nonneg hh pts h0
  · exact walkToEnd_nonneg hh pts h1

theorem walk_spec (pts : List (Pt K)) (bw : Bool) {i : ℕ} (hi : i + 1 < pts.length) (t : K) :
    walkDistance (bundles hypot 0 pts) i t bw = some (walkOf hypot pts bw (i, t)) := by
  cases bw
  · exact walk_first pts hi t
  · exact walk_last pts hi t

/-- The data have the segments and the intersections. -/
structure HasCrossing (hypot : K → K → K) (pts : List (Pt K)) (c : Option (Place K × Place K)) (d : Data K) : Prop where
  segments : d.segments = bundles hypot 0 pts
  has : d.hasIntersection = c.isSome
  first : d.first = c.map fun x => ⟨x.1.1, x.1.2, walkFromStart hypot pts x.1⟩
  last : d.last = c.map fun x => ⟨x.2.1, x.2.2, walkToEnd hypot pts x.2⟩

theorem crossed_has (pts : List (Pt K)) (c : Option (Place K × Place K)) : HasCrossing hypot pts c (crossed hypot pts c) := by
  cases c with
  | none => exact ⟨rfl, rfl, rfl, rfl⟩
  | some x => exact ⟨rfl, rfl, rfl, rfl⟩

/-- The intersection nearest to an endpoint. -/
def crossingOf (backwards : Bool) (c : Option (Place K × Place K)) : Option (Place K) :=
  c.map fun x => if backwards then x.2 else x.1

theorem found_places {pts : List (Pt K)} {c : Option (Place K × Place K)} (hf : Found pts c) (bw : Bool) {a : Place K}
    (h : crossingOf bw c = some a) : IsPlace pts a := by
  cases c with
  | none => cases h
  | some x =>
    obtain ⟨x, y⟩ := x
    obtain ⟨h1, h2, -⟩ := hf
    cases bw
    · cases h
      exact h1.1.1
    · cases h
      exact h2.1.1

theorem connectable_spec (hh : IsHypot hypot) {pts : List (Pt K)} {c : Option (Place K × Place K)} {d : Data K}
    (hc : HasCrossing hypot pts c d) (hf : Found pts c) (P : Params K) (bw : Bool) {i : ℕ} (hi : i + 1 < pts.length) {t : K}
    (t0 : 0 ≤ t) (t1 : t ≤ 1) {l : K} (hl : 0 ≤ l) :
    ∃ r, connectable P d i t l bw = some r ∧ (r = true ↔ P.minWalk ≤ walkOf hypot pts bw (i, t) ∧
      P.minConnectionRatio * l ≤ walkOf hypot pts bw (i, t) ∧
      ∀ x, crossingOf bw c = some x → P.minTrimmingRatio * l ≤ walkOf hypot pts bw x) := by
  unfold connectable
  rw [hc.segments, walk_spec pts bw hi]
  simp only [Option.bind_some]
  have hw := walkOf_nonneg hh pts bw (a := (i, t)) t0 t1
  have hq0 := quotientLess_iff (r := P.minConnectionRatio) hw hl
  by_cases h : walkOf hypot pts bw (i, t) < P.minWalk ∨ ¬ P.minConnectionRatio * l ≤ walkOf hypot pts bw (i, t)
  · rw [if_pos (by rw [hq0]; exact h)]
    refine ⟨_, rfl, ?_⟩
    simp only [Bool.false_eq_true, false_iff]
    rintro ⟨h1, h2, -⟩
    rcases h with h | h
    · exact absurd h1 (not_le.2 h)
    · exact h h2
  · rw [if_neg (by rw [hq0]; exact h)]
    push Not at h
    rw [hc.has]
    cases c with
    | none =>
      refine ⟨true, rfl, ?_⟩
      simp [h, crossingOf]
    | some x =>
      have hx := found_places hf bw (a := if bw then x.2 else x.1) rfl
      have hq := fun r => quotientLess_iff (r := r) (walkOf_nonneg hh pts bw hx.2.1 hx.2.2) hl
      have e : (if bw = true then d.last else d.first) = some ⟨(if bw then x.2 else x.1).1, (if bw then x.2 else x.1).2,
          walkOf hypot pts bw (if bw then x.2 else x.1)⟩ := by
        rw [hc.first, hc.last]
        cases bw <;> rfl
      simp only [Option.isSome_some, if_true]
      rw [e]
      refine ⟨_, rfl, ?_⟩
      simp only [Bool.not_eq_true', crossingOf, Option.map_some, Option.some.injEq, forall_eq', h, true_and]
      rw [← Bool.not_eq_true, hq, not_not]

/-- The connections which are allowed for an endpoint. -/
def Allowed (hypot : K → K → K) (P : Params K) (pts : List (Pt K)) (c : Option (Place K × Place K)) (p : Pt K)
    (backwards : Bool) : Place K → Prop :=
  Connectable hypot P pts p (fun i => if backwards then i + 3 < pts.length else 2 ≤ i) (walkOf hypot pts backwards)
    (crossingOf backwards c)

/-- What the search for a connection knows after some elements. -/
def ConnInv (hypot : K → K → K) (P : Params K) (pts : List (Pt K)) (c : Option (Place K × Place K)) (p : Pt K) (bw : Bool)
    (seen : List (Bundle K)) : Option (ℕ × K × K) → Prop
  | none => ∀ b ∈ seen, ∀ u, ¬ Allowed hypot P pts c p bw (b.index, u)
  | some (i, t, l) => Allowed hypot P pts c p bw (i, t) ∧ l = straight hypot p (pointAt pts (i, t)) ∧
    ∀ b ∈ seen, ∀ u, Allowed hypot P pts c p bw (b.index, u) → l ≤ straight hypot p (pointAt pts (b.index, u))

theorem conn_step (hh : IsHypot hypot) {pts : List (Pt K)} {c : Option (Place K × Place K)} {d : Data K}
    (hc : HasCrossing hypot pts c d) (hf : Found pts c) (P : Params K) (p : Pt K) (bw : Bool) {i : ℕ} (hi : i + 1 < pts.length)
    (hd : (side pts i).start ≠ (side pts i).stop) (seen : List (Bundle K)) (st : Option (ℕ × K × K))
    (h : ConnInv hypot P pts c p bw seen st) :
    ∃ st', connectionVisitor hypot P d p bw st (bundleAt hypot pts i) = some st' ∧
      ConnInv hypot P pts c p bw (seen ++ [bundleAt hypot pts i]) st' := by
  obtain ⟨τ, hτ⟩ : ∃ τ, (side pts i).project p = some τ := by
    cases e : (side pts i).project p with
    | none => exact absurd (project_none.1 e) hd
    | some τ => exact ⟨τ, rfl⟩
  obtain ⟨c0, c1⟩ := clamp01_mem τ
  have hdist : distPS hypot p (side pts i) = straight hypot p (pointAt pts (i, clamp01 τ)) := dist_clamp hd p hτ
  have hl : 0 ≤ straight hypot p (pointAt pts (i, clamp01 τ)) := (hh _ _).1
  -- the only place which may be allowed
  have only : ∀ u, Allowed hypot P pts c p bw (i, u) → u = clamp01 τ := fun u hu =>
    (nearest_iff hh hd p hτ hu.place.2.1 hu.place.2.2).1 hu.nearest
  have near := (nearest_iff hh hd p hτ c0 c1).2 rfl
  have hlen : d.segments.length = pts.length - 1 := by rw [hc.segments, bundles_length]
  obtain ⟨r, er, hr⟩ := connectable_spec hh hc hf P bw hi c0 c1 hl
  unfold connectionVisitor
  simp only [bundleAt, hdist, hτ, Option.bind_some, er, Option.map_some, hlen]
  have hother : (if bw = true then i + 2 < pts.length - 1 else i > 1) ↔ (if bw = true then i + 3 < pts.length else 2 ≤ i) := by
    cases bw
    · simp only [Bool.false_eq_true, if_false]
      omega
    · simp only [if_true]
      omega
  simp only [hother]
  cases st with
  | none =>
    simp only [true_and]
    by_cases hcond : straight hypot p (pointAt pts (i, clamp01 τ)) < P.maxConnection ∧
        (if bw = true then i + 3 < pts.length else 2 ≤ i)
    · rw [if_pos hcond]
      refine ⟨_, rfl, ?_⟩
      by_cases hrt : r = true
      · rw [if_pos hrt]
        obtain ⟨w1, w2, w3⟩ := hr.1 hrt
        refine ⟨⟨⟨hi, c0, c1⟩, hcond.2, near, hcond.1, w1, w2, w3⟩, rfl, fun b hb u hu => ?_⟩
        rw [List.mem_append, List.mem_singleton] at hb
        rcases hb with hb | rfl
        · exact absurd hu (h b hb u)
        · rw [only u hu]
      · rw [if_neg hrt]
        intro b hb u hu
        rw [List.mem_append, List.mem_singleton] at hb
        rcases hb with hb | rfl
        · exact h b hb u hu
        · have := only u hu
          subst this
          exact hrt (hr.2 ⟨hu.walked, hu.ratio, hu.trim⟩)
    · rw [if_neg hcond]
      refine ⟨_, rfl, fun b hb u hu => ?_⟩
      rw [List.mem_append, List.mem_singleton] at hb
      rcases hb with hb | rfl
      · exact h b hb u hu
      · have := only u hu
        subst this
        exact hcond ⟨hu.near, hu.other⟩
  | some x =>
    obtain ⟨i', t', l'⟩ := x
    obtain ⟨g1, g2, g3⟩ := h
    simp only [decide_eq_true_eq]
    by_cases hcond : straight hypot p (pointAt pts (i, clamp01 τ)) < P.maxConnection ∧
        straight hypot p (pointAt pts (i, clamp01 τ)) < l' ∧ (if bw = true then i + 3 < pts.length else 2 ≤ i)
    · rw [if_pos hcond]
      refine ⟨_, rfl, ?_⟩
      by_cases hrt : r = true
      · rw [if_pos hrt]
        obtain ⟨w1, w2, w3⟩ := hr.1 hrt
        refine ⟨⟨⟨hi, c0, c1⟩, hcond.2.2, near, hcond.1, w1, w2, w3⟩, rfl, fun b hb u hu => ?_⟩
        rw [List.mem_append, List.mem_singleton] at hb
        rcases hb with hb | rfl
        · exact hcond.2.1.le.trans (g3 b hb u hu)
        · rw [only u hu]
      · rw [if_neg hrt]
        refine ⟨g1, g2, fun b hb u hu => ?_⟩
        rw [List.mem_append, List.mem_singleton] at hb
        rcases hb with hb | rfl
        · exact g3 b hb u hu
        · have := only u hu
          subst this
          exact absurd (hr.2 ⟨hu.walked, hu.ratio, hu.trim⟩) hrt
    · rw [if_neg hcond]
      refine ⟨_, rfl, g1, g2, fun b hb u hu => ?_⟩
      rw [List.mem_append, List.mem_singleton] at hb
      rcases hb with hb | rfl
      · exact g3 b hb u hu
      · have := only u hu
        subst this
        by_contra hlt
        exact hcond ⟨hu.near, not_le.1 hlt, hu.other⟩

/-- The result of the search for a connection. -/
def ConnFound (hypot : K → K → K) (P : Params K) (pts : List (Pt K)) (c : Option (Place K × Place K)) (p : Pt K) (bw : Bool) :
    Option (ℕ × K × K) → Prop
  | none => ∀ a, ¬ Allowed hypot P pts c p bw a
  | some (i, t, l) => Allowed hypot P pts c p bw (i, t) ∧ l = straight hypot p (pointAt pts (i, t)) ∧
    ∀ a, Allowed hypot P pts c p bw a → l ≤ straight hypot p (pointAt pts a)

theorem allowed_shown (hh : IsHypot hypot) {mkTree : List (Bundle K) → Tree K} (hT : TreeOk mkTree) {pts : List (Pt K)}
    {p : Pt K} {P : Params K} {i : ℕ} {u : K} (hp : IsPlace pts (i, u)) (hn : straight hypot p (pointAt pts (i, u)) < P.maxConnection) :
    bundleAt hypot pts i ∈ mkTree (bundles hypot 0 pts) ⟨p.x - P.maxConnection * 2 / 2, p.y - P.maxConnection * 2 / 2,
      p.x + P.maxConnection * 2 / 2, p.y + P.maxConnection * 2 / 2⟩ := by
  refine (mem_tree hT pts _ _).2 ⟨⟨i, hp.1, rfl⟩, ?_⟩
  have hb := onSegment_bounds (p := pointAt pts (i, u)) (s := side pts i) (onSegment_at.2 ⟨u, hp.2.1, hp.2.2, rfl⟩)
  obtain ⟨a1, a2⟩ := abs_le_hypot hh (p.x - (pointAt pts (i, u)).x) (p.y - (pointAt pts (i, u)).y)
  unfold straight at hn
  have e : P.maxConnection * 2 / 2 = P.maxConnection := by ring
  rw [e]
  have b1 := abs_le.1 (a1.trans hn.le)
  have b2 := abs_le.1 (a2.trans hn.le)
  have n1 : ¬ (min (side pts i).start.x (side pts i).stop.x > p.x + P.maxConnection ∨
      p.x - P.maxConnection > max (side pts i).start.x (side pts i).stop.x) := by
    rintro (h | h)
    · linarith [hb.1]
    · linarith [hb.2.1]
  have n2 : ¬ (min (side pts i).start.y (side pts i).stop.y > p.y + P.maxConnection ∨
      p.y - P.maxConnection > max (side pts i).start.y (side pts i).stop.y) := by
    rintro (h | h)
    · linarith [hb.2.2.1]
    · linarith [hb.2.2.2]
  simp only [intersectsRR, segmentBounds, Rect.fromTwoPoints, bundleAt, n1, n2, if_false]

theorem searchConnection_spec (hh : IsHypot hypot) {mkTree : List (Bundle K) → Tree K} (hT : TreeOk mkTree)
    {pts : List (Pt K)} (hd : ∀ i, i + 1 < pts.length → (side pts i).start ≠ (side pts i).stop)
    {c : Option (Place K × Place K)} {d : Data K} (hc : HasCrossing hypot pts c d) (hf : Found pts c) {P : Params K}
    (hP : 0 ≤ P.maxConnection) (p : Pt K) (bw : Bool) :
    ∃ r, searchConnection hypot P (mkTree (bundles hypot 0 pts)) d p bw = some r ∧ ConnFound hypot P pts c p bw r := by
  unfold searchConnection fromCenter
  rw [if_pos ⟨by linarith, by linarith⟩]
  simp only [Option.bind_some]
  obtain ⟨r, er, hr⟩ := visitAll_inv (f := connectionVisitor hypot P d p bw) (Inv := ConnInv hypot P pts c p bw)
    (mkTree (bundles hypot 0 pts) ⟨p.x - P.maxConnection * 2 / 2, p.y - P.maxConnection * 2 / 2,
      p.x + P.maxConnection * 2 / 2, p.y + P.maxConnection * 2 / 2⟩)
    (fun seen s b hb h => by
      obtain ⟨⟨i, hi, rfl⟩, -⟩ := (mem_tree hT pts _ _).1 hb
      exact conn_step hh hc hf P p bw hi (hd i hi) seen s h) [] none (fun b hb => absurd hb (by simp))
  refine ⟨r, er, ?_⟩
  rw [List.nil_append] at hr
  cases r with
  | none => exact fun a ha => hr _ (allowed_shown hh hT ha.place ha.near) a.2 ha
  | some x =>
    obtain ⟨i, t, l⟩ := x
    obtain ⟨g1, g2, g3⟩ := hr
    exact ⟨g1, g2, fun a ha => g3 _ (allowed_shown hh hT ha.place ha.near) a.2 ha⟩

end Verif.Polyline
