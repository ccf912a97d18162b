import Verif.Lemmas.Polyline
import Mathlib.Tactic.IntervalCases

/-!
# C59: processing polylines for meshes
-/

set_option autoImplicit false
set_option linter.unusedSectionVars false
set_option linter.unusedSimpArgs false

namespace Verif.Polyline

open Verif.Geo Verif.Geo.Spec Spec

variable {K : Type} [Field K] [LinearOrder K] [IsStrictOrderedRing K] {hypot : K → K → K}

theorem newPoly_eq (pts : List (Pt K)) {front back : ℕ} (h : front < back) (hb : back ≤ pts.length) (P Q : Pt K) :
    ((pts[front]?).bind fun p => if back > pts.length then none else
      let l := (if P ≠ p then [P] else []) ++ (pts.drop front).take (back - front)
      (l.getLast?).map fun q => if Q ≠ q then l ++ [Q] else l) =
    some (append (prepend P ((pts.take back).drop front)) Q) := by
  rw [List.getElem?_eq_getElem (by omega)]
  simp only [Option.bind_some]
  rw [if_neg (by omega), List.drop_take]
  set L := (pts.drop front).take (back - front) with hL
  have hhead : L.head? = some pts[front] := by
    rw [hL, List.head?_take, if_neg (by omega), List.head?_drop, List.getElem?_eq_getElem (by omega)]
  have hpre : (if P ≠ pts[front] then [P] else []) ++ L = prepend P L := by
    unfold prepend
    rw [hhead]
    by_cases e : P = pts[front]
    · rw [if_neg (by simpa using e), if_pos (by rw [e]), List.nil_append]
    · rw [if_pos e, if_neg (by simpa using fun h => e h.symm)]
      rfl
  rw [hpre]
  have hne : prepend P L ≠ [] := by
    unfold prepend
    by_cases e : L.head? = some P
    · rw [if_pos e]
      intro h
      rw [h] at e
      cases e
    · rw [if_neg e]
      simp
  rw [List.getLast?_eq_some_getLast hne]
  simp only [Option.map_some, append]
  rw [List.getLast?_eq_some_getLast hne]
  by_cases e : Q = (prepend P L).getLast hne
  · rw [if_neg (by simpa using e), if_pos (by rw [e])]
  · rw [if_pos e, if_neg (by simpa using fun h => e h.symm)]

/-- The connection without its length. -/
def placeOf (r : Option (ℕ × K × K)) : Option (Place K) := r.map fun x => (x.1, x.2.1)

theorem finish {pts : List (Pt K)} (h2 : 2 ≤ pts.length) {P : Params K} {c : Option (Place K × Place K)} (hf : Found pts c)
    {p q : Pt K} {c1 c2 : Option (ℕ × K × K)} (h1 : ConnFound hypot P pts c p false c1) (h1' : ConnFound hypot P pts c q true c2) :
    (applyFirst P c1 (crossed hypot pts c)).bind (fun d => (applyLast P c2 d).bind fun d =>
      (updateIntersections c1 c2 d).bind fun d => newPolyline d pts) =
    some (Spec.newPolyline pts c (placeOf c1) (placeOf c2)) := by
  have a1 : ∀ i t l, c1 = some (i, t, l) → i + 1 < pts.length ∧ l ≤ P.maxConnection := by
    rintro i t l rfl
    obtain ⟨g1, g2, -⟩ := h1
    exact ⟨g1.place.1, by rw [g2]; exact g1.near.le⟩
  have a2 : ∀ i t l, c2 = some (i, t, l) → i + 1 < pts.length ∧ l ≤ P.maxConnection := by
    rintro i t l rfl
    obtain ⟨g1, g2, -⟩ := h1'
    exact ⟨g1.place.1, by rw [g2]; exact g1.near.le⟩
  clear h1 h1'
  have e1 : ∀ i t, (side pts i).lerp t = pointAt pts (i, t) := fun i t => lerp_eq_at _ _
  have take0 : ∀ n, pts.take n = (pts.take n).drop 0 := fun n => by simp
  have drop_eq : ∀ {n : ℕ}, n < pts.length → ∀ P Q : Pt K, _ := fun {n} h P Q => by
    have key := newPoly_eq pts (front := n) (back := pts.length) h (le_refl _) P Q
    rw [List.take_length] at key
    exact key
  have both : pts = (pts.take pts.length).drop 0 := by simp
  cases c1 with
  | none =>
    cases c2 with
    | none =>
      cases c with
      | none => simp [applyFirst, applyLast, updateIntersections, betterLast, betterFirst, crossed, base, newPolyline,
          Spec.newPolyline, placeOf]
      | some x =>
        obtain ⟨a, b⟩ := x
        obtain ⟨f1, f2, f3⟩ := hf
        have hb := f2.1.1.1
        simp only [applyFirst, applyLast, updateIntersections, betterLast, betterFirst, crossed, newPolyline,
          Spec.newPolyline, placeOf, Option.bind_some, Option.map_some, Option.map_none, Bool.not_false, Bool.not_true, Bool.or_false,
          Bool.or_true, Bool.false_or, if_true, Bool.false_eq_true, if_false]
        exact newPoly_eq pts (by omega) (by omega) _ _
    | some y =>
      obtain ⟨i, t, l⟩ := y
      obtain ⟨hi, hl⟩ := a2 i t l rfl
      cases c with
      | none =>
        simp only [applyFirst, applyLast, updateIntersections, betterLast, betterFirst, crossed, base, newPolyline, segs_get,
          Spec.newPolyline, placeOf, Option.bind_some, Option.map_some, Option.map_none, Bool.not_false, Bool.not_true, Bool.or_false,
          Bool.or_true, Bool.false_or, if_true, Bool.false_eq_true, if_false, hl, hi, bundleAt, e1]
        exact drop_eq (by omega) _ _
      | some x =>
        obtain ⟨a, b⟩ := x
        obtain ⟨f1, f2, f3⟩ := hf
        have ha := f1.1.1.1
        by_cases hx : i < a.1 ∨ i = a.1 ∧ t < a.2
        · have hy : (if i < a.1 then true else decide (i = a.1) && decide (t < a.2)) = true := by
            rcases hx with hx | hx
            · rw [if_pos hx]
            · rw [if_neg (by omega)]
              simp [hx.1, hx.2]
          simp only [applyFirst, applyLast, updateIntersections, betterLast, betterFirst, crossed, base, newPolyline, segs_get,
            Spec.newPolyline, placeOf, Option.bind_some, Option.map_some, Option.map_none, Bool.not_false, Bool.not_true, Bool.or_false,
            Bool.or_true, Bool.false_or, if_true, Bool.false_eq_true, if_false, hl, hi, bundleAt, e1, earlier, hy, hx]
          exact drop_eq (by omega) _ _
        · have hy : (if i < a.1 then true else decide (i = a.1) && decide (t < a.2)) = false := by
            push Not at hx
            rw [if_neg (by omega)]
            by_cases e : i = a.1
            · simp [e, hx.2 e]
            · simp [e]
          simp only [applyFirst, applyLast, updateIntersections, betterLast, betterFirst, crossed, base, newPolyline, segs_get,
            Spec.newPolyline, placeOf, Option.bind_some, Option.map_some, Option.map_none, Bool.not_false, Bool.not_true, Bool.or_false,
            Bool.or_true, Bool.false_or, if_true, Bool.false_eq_true, if_false, hl, hi, bundleAt, e1, earlier, hy, hx]
          exact drop_eq (by omega) _ _
  | some z =>
    obtain ⟨j, u, m⟩ := z
    obtain ⟨hj, hm⟩ := a1 j u m rfl
    cases c2 with
    | none =>
      cases c with
      | none =>
        simp only [applyFirst, applyLast, updateIntersections, betterLast, betterFirst, crossed, base, newPolyline, segs_get,
          Spec.newPolyline, placeOf, Option.bind_some, Option.map_some, Option.map_none, Bool.not_false, Bool.not_true, Bool.or_false,
          Bool.or_true, Bool.false_or, if_true, Bool.false_eq_true, if_false, hm, hj, bundleAt, e1]
        rw [take0]
        exact newPoly_eq pts (by omega) (by omega) _ _
      | some x =>
        obtain ⟨a, b⟩ := x
        obtain ⟨f1, f2, f3⟩ := hf
        have hb := f2.1.1.1
        by_cases hx : j > b.1 ∨ j = b.1 ∧ u > b.2
        · have hy : (if j > b.1 then true else decide (j = b.1) && decide (u > b.2)) = true := by
            rcases hx with hx | hx
            · rw [if_pos hx]
            · rw [if_neg (by omega)]
              simp [hx.1, hx.2]
          simp only [applyFirst, applyLast, updateIntersections, betterLast, betterFirst, crossed, base, newPolyline, segs_get,
            Spec.newPolyline, placeOf, Option.bind_some, Option.map_some, Option.map_none, Bool.not_false, Bool.not_true, Bool.or_false,
            Bool.or_true, Bool.false_or, if_true, Bool.false_eq_true, if_false, hm, hj, bundleAt, e1, later, hy, hx]
          rw [take0]
          exact newPoly_eq pts (by omega) (by omega) _ _
        · have hy : (if j > b.1 then true else decide (j = b.1) && decide (u > b.2)) = false := by
            push Not at hx
            rw [if_neg (by omega)]
            by_cases e : j = b.1
            · simp [e, hx.2 e]
            · simp [e]
          simp only [applyFirst, applyLast, updateIntersections, betterLast, betterFirst, crossed, base, newPolyline, segs_get,
            Spec.newPolyline, placeOf, Option.bind_some, Option.map_some, Option.map_none, Bool.not_false, Bool.not_true, Bool.or_false,
            Bool.or_true, Bool.false_or, if_true, Bool.false_eq_true, if_false, hm, hj, bundleAt, e1, later, hy, hx]
          rw [take0]
          exact newPoly_eq pts (by omega) (by omega) _ _
    | some y =>
      obtain ⟨i, t, l⟩ := y
      obtain ⟨hi, hl⟩ := a2 i t l rfl
      have key := newPoly_eq pts (front := 0) (back := pts.length) (by omega) (le_refl _) (pointAt pts (j, u)) (pointAt pts (i, t))
      rw [← both] at key
      cases c with
      | none =>
        simp only [applyFirst, applyLast, updateIntersections, betterLast, betterFirst, crossed, base, newPolyline, segs_get,
          Spec.newPolyline, placeOf, Option.bind_some, Option.map_some, Bool.not_false, Bool.not_true, Bool.or_false,
          Bool.or_true, Bool.false_or, if_true, Bool.false_eq_true, if_false, hm, hj, hl, hi, bundleAt, e1]
        exact key
      | some x =>
        simp only [applyFirst, applyLast, updateIntersections, betterLast, betterFirst, crossed, base, newPolyline, segs_get,
          Spec.newPolyline, placeOf, Option.bind_some, Option.map_some, Bool.not_false, Bool.not_true, Bool.or_false,
          Bool.or_true, Bool.false_or, if_true, Bool.false_eq_true, if_false, hm, hj, hl, hi, bundleAt, e1]
        exact key

/-- No point of the polyline is repeated. -/
def Spec.NoRepeats (pts : List (Pt K)) : Prop := ∀ i, i + 1 < pts.length → (side pts i).start ≠ (side pts i).stop

/-- **C59**: a polyline of at least two points, none of which is repeated, is processed as documented: it is trimmed to the
first and last intersection, except that endpoints are connected to the nearest place where that is allowed. -/
theorem C59_process (hh : IsHypot hypot) {mkTree : List (Bundle K) → Tree K} (hT : TreeOk mkTree) {P : Params K}
    (hP : 0 ≤ P.maxConnection) {pts : List (Pt K)} (h2 : 2 ≤ pts.length) (hr : NoRepeats pts) :
    ∃ crossing c1 c2, process hypot mkTree P pts = some (Spec.newPolyline pts crossing c1 c2) ∧
      (match crossing with
       | none => ∀ a, ¬ MeetsLater pts a
       | some (a, b) => IsFirst pts a ∧ IsLastStart pts b ∧ a.1 + 2 ≤ b.1) ∧
      IsBest hypot pts (pts.getD 0 ⟨0, 0⟩) (ConnectableFirst hypot P pts (crossing.map Prod.fst)) c1 ∧
      IsBest hypot pts (pts.getD (pts.length - 1) ⟨0, 0⟩) (ConnectableLast hypot P pts (crossing.map Prod.snd)) c2 := by
  obtain ⟨c, ec, hc⟩ := findIntersections_spec (hypot := hypot) hT pts
  have hcr := crossed_has (hypot := hypot) pts c
  obtain ⟨r1, e1, h1⟩ := searchConnection_spec hh hT hr hcr hc hP (pts.getD 0 ⟨0, 0⟩) false
  obtain ⟨d1, ed1, hd1⟩ : ∃ d1, applyFirst P r1 (crossed hypot pts c) = some d1 ∧ HasCrossing hypot pts c d1 := by
    unfold applyFirst
    cases r1 with
    | none => exact ⟨_, rfl, hcr⟩
    | some x =>
      obtain ⟨i, t, l⟩ := x
      obtain ⟨g1, g2, -⟩ := h1
      have := g1.place.1
      simp only at this ⊢
      rw [if_pos (by rw [g2]; exact g1.near.le), hcr.segments, segs_get, if_pos this]
      exact ⟨_, rfl, rfl, hcr.has, hcr.first, hcr.last⟩
  obtain ⟨r2, e2, h3⟩ := searchConnection_spec hh hT hr hd1 hc hP (pts.getD (pts.length - 1) ⟨0, 0⟩) true
  refine ⟨c, placeOf r1, placeOf r2, ?_, ?_, ?_, ?_⟩
  · rw [← finish h2 hc h1 h3]
    unfold process createData
    rw [if_neg (by cases pts <;> simp at h2 ⊢)]
    simp only [Option.bind_some]
    rw [show (⟨bundles hypot 0 pts, none, none, ⟨0, 0⟩, ⟨0, 0⟩, false, false, false⟩ : Data K) = base hypot pts from rfl, ec]
    simp only [Option.bind_some]
    rw [hcr.segments]
    unfold findConnections
    have hfront : (crossed hypot pts c).segments.head? = some (bundleAt hypot pts 0) := by
      rw [hcr.segments, List.head?_eq_getElem?, segs_get, if_pos (by omega)]
    have hback : d1.segments.getLast? = some (bundleAt hypot pts (pts.length - 2)) := by
      rw [hd1.segments, List.getLast?_eq_getElem?, bundles_length, segs_get, if_pos (by omega)]
      rfl
    have hs : (bundleAt hypot pts (pts.length - 2)).segment.stop = pts.getD (pts.length - 1) ⟨0, 0⟩ := by
      simp only [bundleAt, side]
      congr 1
      omega
    rw [hfront]
    simp only [Option.bind_some]
    rw [show (bundleAt hypot pts 0).segment.start = pts.getD 0 ⟨0, 0⟩ from rfl, e1]
    simp only [Option.bind_some]
    rw [ed1]
    simp only [Option.bind_some]
    rw [hback]
    simp only [Option.bind_some]
    rw [hs, e2]
    simp only [Option.bind_some, Option.bind_assoc]
  · cases c with
    | none => exact hc
    | some x => exact hc
  · cases r1 with
    | none => exact h1
    | some x =>
      obtain ⟨i, t, l⟩ := x
      obtain ⟨g1, g2, g3⟩ := h1
      subst g2
      exact ⟨g1, g3⟩
  · cases r2 with
    | none => exact h3
    | some x =>
      obtain ⟨i, t, l⟩ := x
      obtain ⟨g1, g2, g3⟩ := h3
      subst g2
      exact ⟨g1, g3⟩

/-- **C59**, the last intersection: if the segment on which the polyline is trimmed meets no earlier segment in more than
one point, then it is trimmed at the last intersection. -/
theorem C59_last_partial {pts : List (Pt K)} {a : Place K} (h : IsLastStart pts a)
    (hu : ∀ j, j + 2 ≤ a.1 → ∀ t u, 0 ≤ t → t ≤ 1 → 0 ≤ u → u ≤ 1 → OnSegment (pointAt pts (a.1, t)) (side pts j) →
      OnSegment (pointAt pts (a.1, u)) (side pts j) → t = u) : IsLast pts a := by
  obtain ⟨h1, h2, -, h4⟩ := h
  refine ⟨h1, fun b hb => ?_⟩
  rcases (h2 b hb).lt_or_eq with hlt | heq
  · exact Or.inl hlt
  · refine Or.inr ⟨heq, ?_⟩
    obtain ⟨i, u⟩ := b
    simp only at heq
    subst heq
    obtain ⟨⟨-, u0, u1⟩, j, hj, ho⟩ := hb
    exact h4 j u hj ⟨u0, u1, ho, fun t t0 t1 ht => le_of_eq (hu j hj u t u0 u1 t0 t1 ho ht)⟩

/-- **C59**, no change: without intersections and places to connect to, the polyline is returned as it is. -/
theorem C59_unchanged (hh : IsHypot hypot) {mkTree : List (Bundle K) → Tree K} (hT : TreeOk mkTree) {P : Params K}
    (hP : 0 ≤ P.maxConnection) {pts : List (Pt K)} (h2 : 2 ≤ pts.length) (hr : NoRepeats pts)
    (hm : ∀ a, ¬ MeetsLater pts a) (h1 : ∀ a, ¬ ConnectableFirst hypot P pts none a)
    (h3 : ∀ a, ¬ ConnectableLast hypot P pts none a) : process hypot mkTree P pts = some pts := by
  obtain ⟨c, c1, c2, e, g1, g2, g3⟩ := C59_process hh hT hP h2 hr
  cases c with
  | some x => exact absurd g1.1.1 (hm _)
  | none =>
    cases c1 with
    | some a => exact absurd g2.1 (h1 a)
    | none =>
      cases c2 with
      | some a => exact absurd g3.1 (h3 a)
      | none => exact e

/-- A polyline whose last segment overlaps the first. -/
def overlapping : List (Pt K) := [⟨0, 0⟩, ⟨4, 0⟩, ⟨4, 4⟩, ⟨1, 4⟩, ⟨1, 0⟩, ⟨3, 0⟩]

theorem overlapping_noRepeats : NoRepeats (overlapping : List (Pt K)) := by
  intro i hi
  have : i < 5 := by simp [overlapping] at hi; omega
  interval_cases i <;> simp [overlapping, side]

/-- **C59**, overlapping segments: the end of this polyline is an intersection, on the first segment, but it is trimmed to
where the overlap starts: the part of the polyline before its end, from (1, 0) to (3, 0), is lost. -/
theorem C59_overlap_counterexample (hh : IsHypot hypot) {mkTree : List (Bundle K) → Tree K} (hT : TreeOk mkTree)
    {P : Params K} (hP : P.maxConnection = 0) :
    IsLast (overlapping : List (Pt K)) (4, 1) ∧ pointAt (overlapping : List (Pt K)) (4, 1) = ⟨3, 0⟩ ∧
    process hypot mkTree P overlapping = some [⟨1, 0⟩, ⟨4, 0⟩, ⟨4, 4⟩, ⟨1, 4⟩, ⟨1, 0⟩] := by
  have hlen : (overlapping : List (Pt K)).length = 6 := rfl
  have s0 : side (overlapping : List (Pt K)) 0 = ⟨⟨0, 0⟩, ⟨4, 0⟩⟩ := rfl
  have s1 : side (overlapping : List (Pt K)) 1 = ⟨⟨4, 0⟩, ⟨4, 4⟩⟩ := rfl
  have s2 : side (overlapping : List (Pt K)) 2 = ⟨⟨4, 4⟩, ⟨1, 4⟩⟩ := rfl
  have s3 : side (overlapping : List (Pt K)) 3 = ⟨⟨1, 4⟩, ⟨1, 0⟩⟩ := rfl
  have s4 : side (overlapping : List (Pt K)) 4 = ⟨⟨1, 0⟩, ⟨3, 0⟩⟩ := rfl
  have p41 : pointAt (overlapping : List (Pt K)) (4, 1) = ⟨3, 0⟩ := by
    simp only [pointAt, s4, at_, Pt.mk.injEq]
    constructor <;> norm_num
  refine ⟨⟨⟨⟨by rw [hlen]; norm_num, zero_le_one, le_refl _⟩, 0, by norm_num, ?_⟩, ?_⟩, p41, ?_⟩
  · rw [p41, s0]
    exact ⟨3 / 4, by norm_num, by norm_num, by norm_num, by norm_num⟩
  · rintro ⟨i, t⟩ ⟨⟨hi, t0, t1⟩, -⟩
    rw [hlen] at hi
    simp only at hi t1
    rcases Nat.lt_or_ge i 4 with h | h
    · exact Or.inl h
    · exact Or.inr ⟨by simp only; omega, t1⟩
  · obtain ⟨c, c1, c2, e, g1, g2, g3⟩ := C59_process hh hT (by rw [hP]) (by rw [hlen]; norm_num) overlapping_noRepeats (P := P)
    have no : ∀ {p : Pt K} {o : ℕ → Prop} {w : Place K → K} {x : Option (Place K)} {a : Place K},
        ¬ Connectable hypot P overlapping p o w x a := by
      intro p o w x a h
      have := h.near
      rw [hP] at this
      exact absurd (hh _ _).1 (not_le.2 this)
    cases c1 with
    | some a => exact absurd g2.1 no
    | none =>
      cases c2 with
      | some a => exact absurd g3.1 no
      | none =>
        have m0 : MeetsLater (overlapping : List (Pt K)) (0, 1 / 4) := by
          refine ⟨⟨by rw [hlen]; norm_num, by norm_num, by norm_num⟩, 3, by norm_num, by rw [hlen]; norm_num, ?_⟩
          simp only [pointAt, s0, s3, at_]
          exact ⟨1, by norm_num, by norm_num, by norm_num, by norm_num⟩
        cases c with
        | none => exact absurd m0 (g1 _)
        | some x =>
          obtain ⟨⟨i, t⟩, ⟨j, u⟩⟩ := x
          obtain ⟨⟨f1, f2⟩, ⟨f3, f4, ⟨k, hk, f5⟩, -⟩, -⟩ := g1
          -- the first intersection
          have hfirst : i = 0 ∧ t = 1 / 4 := by
            rcases f2 _ m0 with h | ⟨h, ht⟩
            · exact absurd h (by simp)
            · simp only at h ht
              refine ⟨h, le_antisymm ht ?_⟩
              subst h
              obtain ⟨-, l, hl, hl', ho⟩ := f1
              rw [hlen] at hl'
              simp only [pointAt, s0, at_] at hl ho
              have : l = 2 ∨ l = 3 ∨ l = 4 := by omega
              rcases this with rfl | rfl | rfl
              · rw [s2] at ho
                obtain ⟨v, -, -, -, hy⟩ := ho
                norm_num at hy
              · rw [s3] at ho
                obtain ⟨v, -, -, hx, -⟩ := ho
                norm_num at hx
                linarith
              · rw [s4] at ho
                obtain ⟨v, v0, -, hx, -⟩ := ho
                norm_num at hx
                linarith
          obtain ⟨rfl, rfl⟩ := hfirst
          -- the start of the last
          have hlast : j = 4 ∧ u = 0 := by
            have m4 : MeetsEarlier (overlapping : List (Pt K)) (4, 1) :=
              ⟨⟨by rw [hlen]; norm_num, zero_le_one, le_refl _⟩, 0, by norm_num, by
                rw [p41, s0]
                exact ⟨3 / 4, by norm_num, by norm_num, by norm_num, by norm_num⟩⟩
            have h1 := f4 _ m4
            have h2 := f3.1.1
            rw [hlen] at h2
            simp only at h1 h2
            have hj : j = 4 := by omega
            subst hj
            refine ⟨rfl, ?_⟩
            simp only at hk f5
            have : k = 0 ∨ k = 1 ∨ k = 2 := by omega
            rw [s4] at f5
            rcases this with rfl | rfl | rfl
            · rw [s0] at f5
              refine le_antisymm (f5.2.2.2 0 (le_refl _) zero_le_one ?_) f5.1
              simp only [at_]
              exact ⟨1 / 4, by norm_num, by norm_num, by norm_num, by norm_num⟩
            · rw [s1] at f5
              obtain ⟨-, h1, ⟨v, -, -, hx, -⟩, -⟩ := f5
              simp only [at_] at hx
              norm_num at hx
              linarith
            · rw [s2] at f5
              obtain ⟨-, h1, ⟨v, -, -, -, hy⟩, -⟩ := f5
              simp only [at_] at hy
              norm_num at hy
          obtain ⟨rfl, rfl⟩ := hlast
          rw [e]
          have q1 : pointAt (overlapping : List (Pt K)) (0, 1 / 4) = ⟨1, 0⟩ := by
            simp only [pointAt, s0, at_, Pt.mk.injEq]
            constructor <;> norm_num
          have q2 : pointAt (overlapping : List (Pt K)) (4, 0) = ⟨1, 0⟩ := by
            simp only [pointAt, s4, at_, Pt.mk.injEq]
            constructor <;> norm_num
          simp only [Spec.newPolyline, q1, q2]
          have q3 : ((overlapping : List (Pt K)).take (4 + 1)).drop (0 + 1) = [⟨4, 0⟩, ⟨4, 4⟩, ⟨1, 4⟩, ⟨1, 0⟩] := rfl
          rw [q3]
          simp [prepend, append]

/-- **C59**, repeated points: if the polyline has a repeated point near to its first point, other than its first two, then
processing it fails a check, in the case that it is too short for any connection. -/
theorem C59_repeated_counterexample (hh : IsHypot hypot) {mkTree : List (Bundle K) → Tree K} (hT : TreeOk mkTree)
    {P : Params K} {pts : List (Pt K)} (hw : ∀ a, IsPlace pts a → walkFromStart hypot pts a < P.minWalk) {k : ℕ} (hk : 2 ≤ k)
    (hk' : k + 1 < pts.length) (hd : (side pts k).start = (side pts k).stop)
    (hn : straight hypot (pts.getD 0 ⟨0, 0⟩) (side pts k).start < P.maxConnection) : process hypot mkTree P pts = none := by
  obtain ⟨c, ec, hc⟩ := findIntersections_spec (hypot := hypot) hT pts
  have hcr := crossed_has (hypot := hypot) pts c
  have hP : 0 ≤ P.maxConnection := (hh _ _).1.trans hn.le
  set p := pts.getD 0 ⟨0, 0⟩ with hp
  have hdist : distPS hypot p (side pts k) = straight hypot p (side pts k).start := by
    unfold distPS
    rw [if_pos hd, distPP_comm hh]
    rfl
  have step : ∀ b i, i + 1 < pts.length → b = bundleAt hypot pts i →
      (connectionVisitor hypot P (crossed hypot pts c) p false none b = some none ∨
       connectionVisitor hypot P (crossed hypot pts c) p false none b = none) ∧
      (i = k → connectionVisitor hypot P (crossed hypot pts c) p false none b = none) := by
    rintro b i hi rfl
    have hconn : ∀ t l, 0 ≤ t → t ≤ 1 → connectable P (crossed hypot pts c) i t l false = some false := by
      intro t l t0 t1
      unfold connectable
      rw [hcr.segments, walk_spec pts false hi]
      simp only [Option.bind_some]
      exact if_pos (Or.inl (hw (i, t) ⟨hi, t0, t1⟩))
    constructor
    · unfold connectionVisitor
      simp only [bundleAt, true_and]
      by_cases h : distPS hypot p (side pts i) < P.maxConnection ∧ (if false = true then i + 2 < (crossed hypot pts c).segments.length else i > 1)
      · rw [if_pos h]
        cases e : (side pts i).project p with
        | none => exact Or.inr rfl
        | some t =>
          obtain ⟨h0, h1⟩ := clamp01_mem t
          simp only [Option.bind_some, hconn _ _ h0 h1, Option.map_some]
          exact Or.inl rfl
      · rw [if_neg h]
        exact Or.inl rfl
    · rintro rfl
      unfold connectionVisitor
      simp only [bundleAt, true_and]
      rw [if_pos ⟨by rw [hdist]; exact hn, by simp only [Bool.false_eq_true, if_false]; omega⟩, project_none.2 hd]
      rfl
  have run : ∀ l : List (Bundle K), (∀ b ∈ l, ∃ i, i + 1 < pts.length ∧ b = bundleAt hypot pts i) →
      bundleAt hypot pts k ∈ l → visitAll (connectionVisitor hypot P (crossed hypot pts c) p false) l none = none := by
    intro l
    induction l with
    | nil => exact fun _ h => absurd h (by simp)
    | cons b l ih =>
      intro hl hm
      unfold visitAll
      obtain ⟨i, hi, eb⟩ := hl b (by simp)
      obtain ⟨h1, h2⟩ := step b i hi eb
      rw [List.mem_cons] at hm
      rcases hm with hm | hm
      · have : i = k := by
          rw [eb] at hm
          exact (congrArg Bundle.index hm).symm
        rw [h2 this]
        rfl
      · rcases h1 with h1 | h1
        · rw [h1]
          exact ih (fun b hb => hl b (by simp [hb])) hm
        · rw [h1]
          rfl
  have hsearch : searchConnection hypot P (mkTree (bundles hypot 0 pts)) (crossed hypot pts c) p false = none := by
    unfold searchConnection fromCenter
    rw [if_pos ⟨by linarith, by linarith⟩]
    simp only [Option.bind_some]
    refine run _ (fun b hb => ((mem_tree hT pts _ _).1 hb).1) ?_
    refine allowed_shown hh hT (u := 0) ⟨hk', le_refl _, zero_le_one⟩ ?_
    have : pointAt pts (k, 0) = (side pts k).start := by simp [pointAt, at_]
    rw [this]
    exact hn
  unfold process createData
  rw [if_neg (by cases pts <;> simp at hk' ⊢)]
  simp only [Option.bind_some]
  rw [show (⟨bundles hypot 0 pts, none, none, ⟨0, 0⟩, ⟨0, 0⟩, false, false, false⟩ : Data K) = base hypot pts from rfl, ec]
  simp only [Option.bind_some]
  rw [hcr.segments]
  unfold findConnections
  rw [hcr.segments, List.head?_eq_getElem?, segs_get, if_pos (by omega)]
  simp only [Option.bind_some]
  rw [show (bundleAt hypot pts 0).segment.start = p from rfl, hsearch]
  rfl

/-- **C59**, short polylines: with less than two points, the behaviour is undefined (or an exception is thrown). -/
theorem C59_short_counterexample (mkTree : List (Bundle K) → Tree K) (P : Params K) (pts : List (Pt K)) (h : pts.length < 2) :
    process hypot mkTree P pts = none := by
  match pts, h with
  | [], _ => rfl
  | [p], _ => rfl
  | _ :: _ :: _, h => simp at h

/-! ## The hypotheses can be met -/

/-- A search through all segments does what is asked of the R-tree. -/
theorem tree_exists : TreeOk (K := K) fun segs r => segs.filter fun b => intersectsRR (segmentBounds b) r :=
  fun _ _ => List.Perm.refl _

/-- The hypotheses of `C59_process`, for a polyline with an intersection. -/
example : IsHypot (K := ℝ) (fun x y => Real.sqrt (x * x + y * y)) ∧ NoRepeats (overlapping : List (Pt ℝ)) ∧
    2 ≤ (overlapping : List (Pt ℝ)).length := ⟨isHypot_real, overlapping_noRepeats, by simp [overlapping]⟩

/-- The hypotheses of `C59_repeated_counterexample`: the last point is repeated, one away from the first, and the
polyline has to be long for a connection. -/
example : ∃ (P : Params ℝ) (pts : List (Pt ℝ)),
    (∀ a, IsPlace pts a → walkFromStart (fun x y => Real.sqrt (x * x + y * y)) pts a < P.minWalk) ∧
    2 + 1 < pts.length ∧ (side pts 2).start = (side pts 2).stop ∧
    straight (fun x y => Real.sqrt (x * x + y * y)) (pts.getD 0 ⟨0, 0⟩) (side pts 2).start < P.maxConnection := by
  refine ⟨⟨10, 2, 0, 0⟩, [⟨0, 0⟩, ⟨3, 0⟩, ⟨1, 0⟩, ⟨1, 0⟩], ?_, by simp, rfl, ?_⟩
  · rintro ⟨i, t⟩ ⟨hi, t0, t1⟩
    have h3 : Real.sqrt 9 = 3 := by rw [show (9 : ℝ) = 3 * 3 by norm_num]; exact Real.sqrt_mul_self (by norm_num)
    have h2 : Real.sqrt 4 = 2 := by rw [show (4 : ℝ) = 2 * 2 by norm_num]; exact Real.sqrt_mul_self (by norm_num)
    simp only [List.length_cons, List.length_nil] at hi t1
    have : i = 0 ∨ i = 1 ∨ i = 2 := by omega
    rcases this with rfl | rfl | rfl
    · simp only [walkFromStart, sideLength, side, List.range_zero, List.map_nil, List.sum_nil, List.getD_cons_zero, List.getD_cons_succ]
      norm_num [h3, h2]
      linarith
    · simp only [walkFromStart, sideLength, side, List.range_succ, List.range_zero, List.nil_append, List.map_cons, List.map_nil, List.sum_cons, List.sum_nil, List.getD_cons_zero, List.getD_cons_succ]
      norm_num [h3, h2]
      linarith
    · simp [walkFromStart, sideLength, side, List.range_succ]
      norm_num [h3, h2]
  · simp [straight, side]

end Verif.Polyline
