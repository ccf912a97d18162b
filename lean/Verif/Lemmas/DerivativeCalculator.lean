import Verif.Spec.DerivativeCalculator
import Verif.Props.SegmentAlgorithms
import Verif.Props.Circle

/-!
# Lemmas on the derivatives and margins of stroke vertices
-/

set_option autoImplicit false

namespace Verif.Derivative

open Geo Spec

open Verif.Vertex (Category)

/-! ## Labels -/

theorem three (x : ℝ) : x < 0 ∧ x ≠ 0 ∧ ¬0 < x ∨ ¬x < 0 ∧ x = 0 ∧ ¬0 < x ∨ ¬x < 0 ∧ x ≠ 0 ∧ 0 < x := by
  rcases lt_trichotomy x 0 with h | h | h
  · exact Or.inl ⟨h, h.ne, h.not_gt⟩
  · exact Or.inr (Or.inl ⟨h.not_lt, h, h.not_gt⟩)
  · exact Or.inr (Or.inr ⟨h.not_gt, h.ne', h⟩)

theorem category_same (x y : ℝ) : category x = category y ↔ SameSign x y := by
  unfold category SameSign
  rcases three x with ⟨a, b, c⟩ | ⟨a, b, c⟩ | ⟨a, b, c⟩ <;> rcases three y with ⟨a', b', c'⟩ | ⟨a', b', c'⟩ | ⟨a', b', c'⟩ <;>
    simp [a, b, a', b']

theorem category_left (x : ℝ) : category x = .leftOrFront ↔ x < 0 := by
  unfold category
  rcases three x with ⟨a, b, c⟩ | ⟨a, b, c⟩ | ⟨a, b, c⟩ <;> simp [a, b, c]

theorem category_right (x : ℝ) : category x = .rightOrBack ↔ 0 < x := by
  unfold category
  rcases three x with ⟨a, b, c⟩ | ⟨a, b, c⟩ | ⟨a, b, c⟩ <;> simp [a, b, c]

theorem sameSign_comm {x y : ℝ} (h : SameSign x y) : SameSign y x := ⟨h.1.symm, h.2.symm⟩
theorem sameSign_trans {x y z : ℝ} (h : SameSign x y) (g : SameSign y z) : SameSign x z := ⟨h.1.trans g.1, h.2.trans g.2⟩
theorem sameSign_refl (x : ℝ) : SameSign x x := ⟨Iff.rfl, Iff.rfl⟩

theorem outsetSign_eq (x : ℝ) : outsetSign x = if x < 0 then -1 else if x = 0 then 0 else 1 := by
  unfold outsetSign
  rcases three x with ⟨a, b, c⟩ | ⟨a, b, c⟩ | ⟨a, b, c⟩ <;> simp [a, b, c]

theorem decodeMargin_eq (x : ℝ) : decodeMargin x = marginIn x := by
  unfold decodeMargin marginIn linearMap maximumMargin
  split_ifs <;> first | rfl | (exfalso; linarith) | ring

theorem clamp_eq {x lo hi : ℝ} (h : lo ≤ hi) : RealGeom.clamp x lo hi = max lo (min hi x) := by
  unfold RealGeom.clamp
  split_ifs with h1 h2
  · rw [min_eq_right (by linarith), max_eq_left h1.le]
  · rw [min_eq_left h2.le, max_eq_right h]
  · rw [min_eq_right (by linarith), max_eq_right (by linarith)]

theorem withMargin_eq {x : ℝ} (hx : x ≠ 0) (m : ℝ) :
    ∃ n : ℤ, 1 ≤ n ∧ (n : ℝ) ≤ 1 + max 0 (min 4 m) * (126 / 4) ∧ 1 + max 0 (min 4 m) * (126 / 4) < n + 1 ∧ withMargin x m = outsetSign x * n := by
  refine ⟨⌊linearMap (RealGeom.clamp m 0 maximumMargin) 0 maximumMargin 1 127⌋, ?_, ?_, ?_, ?_⟩
  all_goals
    have e : linearMap (RealGeom.clamp m 0 maximumMargin) 0 maximumMargin 1 127 = 1 + max 0 (min 4 m) * (126 / 4) := by
      unfold linearMap maximumMargin
      rw [clamp_eq (by norm_num), if_neg (by norm_num)]
      ring
  · rw [e, Int.le_floor]
    have : (0 : ℝ) ≤ max 0 (min 4 m) := le_max_left _ _
    push_cast; nlinarith
  · rw [e]; exact Int.floor_le _
  · rw [e]; exact Int.lt_floor_add_one _
  · unfold withMargin
    rw [if_neg hx]

theorem withMargin_same (x m : ℝ) : SameSign (withMargin x m) x := by
  by_cases hx : x = 0
  · unfold withMargin; rw [if_pos hx]; exact sameSign_refl _
  · obtain ⟨n, h1, -, -, e⟩ := withMargin_eq hx m
    have hn : (1 : ℝ) ≤ n := by exact_mod_cast h1
    rw [e, outsetSign_eq]
    rcases lt_or_gt_of_ne hx with h | h
    · rw [if_pos h]
      exact ⟨⟨fun _ => h, fun _ => by linarith⟩, ⟨fun g => by linarith, fun g => absurd g hx⟩⟩
    · rw [if_neg h.not_gt, if_neg hx]
      exact ⟨⟨fun g => by linarith, fun g => absurd g h.not_gt⟩, ⟨fun g => by linarith, fun g => absurd g hx⟩⟩

theorem withMargin_congr {x y : ℝ} (h : SameSign x y) (m : ℝ) : withMargin x m = withMargin y m := by
  unfold withMargin
  by_cases hx : x = 0
  · rw [if_pos hx, if_pos (h.2.1 hx), hx, h.2.1 hx]
  · rw [if_neg hx, if_neg (fun g => hx (h.2.2 g)), outsetSign_eq, outsetSign_eq]
    by_cases h0 : x < 0
    · rw [if_pos h0, if_pos (h.1.1 h0)]
    · rw [if_neg h0, if_neg (fun g => h0 (h.1.2 g)), if_neg hx, if_neg (fun g => hx (h.2.2 g))]

/-- The margin is stored up to a step, and never too great. -/
theorem marginIn_with (x m : ℝ) : 0 ≤ marginIn (withMargin x m) ∧ marginIn (withMargin x m) ≤ max 0 (min 4 m) ∧
    (x ≠ 0 → max 0 (min 4 m) < marginIn (withMargin x m) + 4 / 126) := by
  have h0 : (0 : ℝ) ≤ max 0 (min 4 m) := le_max_left _ _
  by_cases hx : x = 0
  · unfold withMargin marginIn
    rw [if_pos hx, if_pos hx]
    exact ⟨le_refl _, h0, fun g => absurd hx g⟩
  · obtain ⟨n, h1, h2, h3, e⟩ := withMargin_eq hx m
    have hn : (1 : ℝ) ≤ n := by exact_mod_cast h1
    have ne : withMargin x m ≠ 0 := fun g => hx ((withMargin_same x m).2.1 g)
    have ha : |withMargin x m| = n := by
      rw [e, outsetSign_eq]
      split_ifs with g
      · rw [abs_of_neg (by linarith)]; ring
      · rw [one_mul, abs_of_pos (by linarith)]
    unfold marginIn
    rw [if_neg ne, ha]
    refine ⟨by nlinarith, by nlinarith, fun _ => by nlinarith⟩

/-! ## Averages -/

theorem magnitude_length (v : Pt ℝ) : RealGeom.Vec.magnitude ⟨v.x, v.y⟩ = length v := rfl

theorem length_nonneg (v : Pt ℝ) : 0 ≤ length v := Real.sqrt_nonneg _

theorem length_zero (v : Pt ℝ) : length v = 0 ↔ v = ⟨0, 0⟩ := by
  unfold length
  rw [Real.sqrt_eq_zero (by nlinarith [mul_self_nonneg v.x, mul_self_nonneg v.y])]
  constructor
  · intro h
    have hx : v.x * v.x = 0 := le_antisymm (by nlinarith [mul_self_nonneg v.y]) (mul_self_nonneg _)
    have hy : v.y * v.y = 0 := le_antisymm (by nlinarith [mul_self_nonneg v.x]) (mul_self_nonneg _)
    exact Pt.ext (mul_self_eq_zero.1 hx) (mul_self_eq_zero.1 hy)
  · intro h; rw [h]; simp

open Classical in
/-- What an average has accumulated. -/
def Accumulates (a : Average) (vs : List (Pt ℝ)) : Prop :=
  let ws := vs.filter fun v => v ≠ ⟨0, 0⟩
  a.magnitudeSum = (ws.map length).sum ∧ a.unitVectorSum.x = (ws.map fun w => w.x / length w).sum ∧
    a.unitVectorSum.y = (ws.map fun w => w.y / length w).sum ∧ a.count = ws.length

theorem accumulates_nil : Accumulates {} [] := by simp [Accumulates]

theorem accumulates_add {a : Average} {vs : List (Pt ℝ)} (h : Accumulates a vs) (v : Pt ℝ) : Accumulates (a.add v) (vs ++ [v]) := by
  obtain ⟨h1, h2, h3, h4⟩ := h
  unfold Average.add
  rw [magnitude_length]
  by_cases hv : v = ⟨0, 0⟩
  · rw [if_pos ((length_zero v).2 hv)]
    unfold Accumulates
    simp only [List.filter_append]
    simp only [hv, ne_eq, not_true_eq_false, decide_false, List.filter_cons, Bool.false_eq_true, if_false, List.filter_nil, List.append_nil]
    exact ⟨h1, h2, h3, h4⟩
  · rw [if_neg (fun g => hv ((length_zero v).1 g))]
    unfold Accumulates
    simp only [List.filter_append, List.filter_cons, ne_eq, hv, not_false_eq_true, decide_true, if_true, List.filter_nil, List.map_append,
      List.sum_append, List.length_append, List.map_cons, List.map_nil, List.sum_cons, List.sum_nil, add_zero, List.length_cons, List.length_nil]
    refine ⟨by rw [h1], ?_, ?_, by rw [h4]⟩
    · show a.unitVectorSum.x + v.x / length v = _; rw [h2]
    · show a.unitVectorSum.y + v.y / length v = _; rw [h3]

theorem accumulates_foldl {a : Average} {vs : List (Pt ℝ)} (h : Accumulates a vs) (us : List (Pt ℝ)) :
    Accumulates (us.foldl Average.add a) (vs ++ us) := by
  induction us generalizing a vs with
  | nil => simpa using h
  | cons u us ih =>
    rw [List.foldl_cons, show vs ++ u :: us = (vs ++ [u]) ++ us by simp]
    exact ih (accumulates_add h u)

theorem accumulates_merge {a b : Average} {vs us : List (Pt ℝ)} (h : Accumulates a vs) (g : Accumulates b us) :
    Accumulates (a.merge b) (vs ++ us) := by
  obtain ⟨h1, h2, h3, h4⟩ := h
  obtain ⟨g1, g2, g3, g4⟩ := g
  unfold Accumulates Average.merge
  simp only [List.filter_append, List.map_append, List.sum_append, List.length_append]
  refine ⟨by rw [h1, g1], ?_, ?_, by rw [h4, g4]⟩
  · show a.unitVectorSum.x + b.unitVectorSum.x = _; rw [h2, g2]
  · show a.unitVectorSum.y + b.unitVectorSum.y = _; rw [h3, g3]

theorem accumulates_value {a : Average} {vs : List (Pt ℝ)} (h : Accumulates a vs) : IsMean vs a.value := by
  obtain ⟨h1, h2, h3, h4⟩ := h
  unfold IsMean
  dsimp only
  generalize hw : List.filter (fun v : Pt ℝ => decide (v ≠ ⟨0, 0⟩)) vs = ws at *
  have hmem : ∀ w ∈ ws, w ≠ (⟨0, 0⟩ : Pt ℝ) := by
    intro w hw'
    rw [← hw, List.mem_filter] at hw'
    simpa using hw'.2
  constructor
  · intro e
    unfold Average.value
    rw [if_pos (by rw [h4, e]; rfl)]
  · intro e
    have hc : a.count ≠ 0 := by rw [h4]; simpa using e
    have hcpos : (0 : ℝ) < a.count := by exact_mod_cast Nat.pos_of_ne_zero hc
    have hmpos : 0 < a.magnitudeSum := by
      rw [h1]
      apply List.sum_pos
      · intro x hx
        obtain ⟨w, hw', rfl⟩ := List.mem_map.1 hx
        exact lt_of_le_of_ne (length_nonneg w) (fun g => hmem w hw' ((length_zero w).1 g.symm))
      · simpa using e
    have hm := div_pos hmpos hcpos
    have hval : a.value = ⟨a.magnitudeSum / a.count * Real.cos (Complex.arg ⟨a.unitVectorSum.x, a.unitVectorSum.y⟩),
        a.magnitudeSum / a.count * Real.sin (Complex.arg ⟨a.unitVectorSum.x, a.unitVectorSum.y⟩)⟩ := by
      unfold Average.value
      rw [if_neg hc]
      rfl
    generalize hz : (⟨a.unitVectorSum.x, a.unitVectorSum.y⟩ : ℂ) = z at *
    have zx : a.unitVectorSum.x = ‖z‖ * Real.cos (Complex.arg z) := by rw [Complex.norm_mul_cos_arg, ← hz]
    have zy : a.unitVectorSum.y = ‖z‖ * Real.sin (Complex.arg z) := by rw [Complex.norm_mul_sin_arg, ← hz]
    generalize hr : a.magnitudeSum / a.count = r at *
    refine ⟨?_, ‖z‖ / r, by positivity, ?_, ?_⟩
    · rw [hval, ← h1, ← h4, hr]
      unfold length
      dsimp only
      rw [show r * Real.cos z.arg * (r * Real.cos z.arg) + r * Real.sin z.arg * (r * Real.sin z.arg) =
        r * r * (Real.sin z.arg ^ 2 + Real.cos z.arg ^ 2) by ring, Real.sin_sq_add_cos_sq, mul_one, Real.sqrt_mul_self hm.le]
    · rw [← h2, zx, hval]; field_simp
    · rw [← h3, zy, hval]; field_simp

/-! ## Changes of lists -/

theorem changeAt_some {α : Type} {l l' : List α} {i : ℕ} {f : α → α} (h : changeAt l i f = some l') :
    ∃ x, l[i]? = some x ∧ l' = l.set i (f x) := by
  unfold changeAt at h
  cases e : l[i]? with
  | none => rw [e] at h; simp at h
  | some x =>
    rw [e] at h
    exact ⟨x, rfl, (Option.some.inj h).symm⟩

theorem changeAt_get {α : Type} {l l' : List α} {i : ℕ} {f : α → α} (h : changeAt l i f = some l') (j : ℕ) :
    l'.length = l.length ∧ l'[j]? = if j = i then l[j]?.map f else l[j]? := by
  obtain ⟨x, hx, rfl⟩ := changeAt_some h
  refine ⟨List.length_set, ?_⟩
  rw [List.getElem?_set]
  have hi : i < l.length := (List.getElem?_eq_some_iff.1 hx).1
  by_cases hj : j = i
  · subst hj
    rw [if_pos rfl, if_pos hi, if_pos rfl, hx]
    rfl
  · rw [if_neg (fun g => hj g.symm), if_neg hj]

theorem changeAt_isSome {α : Type} {l : List α} {i : ℕ} (f : α → α) (h : i < l.length) : ∃ l', changeAt l i f = some l' := by
  unfold changeAt
  rw [List.getElem?_eq_getElem h]
  exact ⟨_, rfl⟩

end Verif.Derivative
