import Verif.Lemmas.Antialias

/-!
# Lemmas on the outsets of vertices
-/

set_option autoImplicit false

namespace Verif.Antialias

open Geo Spec

open Verif.Derivative (Vertex three)
open Verif.Derivative.Spec (marginIn)

theorem calculate_isSome (v : Vertex) (m : Mat2) :
    (calculate v m).isSome ↔ m.det ≠ 0 ∧ v.sideDerivative ≠ ⟨0, 0⟩ ∧ v.forwardDerivative ≠ ⟨0, 0⟩ := by
  unfold calculate
  dsimp only
  split_ifs with h
  · rw [pixels_zero, pixels_zero] at h
    simp only [Option.isSome_none, Bool.false_eq_true, false_iff]
    tauto
  · rw [pixels_zero, pixels_zero] at h
    simp only [Option.isSome_some, true_iff]
    tauto

/-- What the part of an outset in the forward direction does to it. -/
theorem common_part (s f : Pt ℝ) : ∃ k : ℝ, s.add (Pt.smul (1 - saturate (dot s f / max 0.000001 (dot f f))) f) =
      ⟨s.x + (1 - k) * f.x, s.y + (1 - k) * f.y⟩ ∧ 0 ≤ k ∧ k ≤ 1 ∧ (Spec.inner s f ≤ 0 → k = 0) ∧
      (0.000001 ≤ Spec.inner f f → 0 ≤ Spec.inner s f → Spec.inner ⟨s.x + (1 - k) * f.x, s.y + (1 - k) * f.y⟩ f = max (Spec.inner f f) (Spec.inner s f)) := by
  have hM : (0 : ℝ) < max 0.000001 (dot f f) := lt_of_lt_of_le (by norm_num) (le_max_left _ _)
  refine ⟨_, rfl, saturate_nonneg _, saturate_le _, fun h => saturate_low (div_nonpos_of_nonpos_of_nonneg h hM.le), fun h1 h2 => ?_⟩
  have e : ∀ k, Spec.inner ⟨s.x + (1 - k) * f.x, s.y + (1 - k) * f.y⟩ f = Spec.inner s f + (1 - k) * Spec.inner f f := fun k => by
    unfold Spec.inner
    ring
  rw [e, show dot s f = Spec.inner s f from rfl, show dot f f = Spec.inner f f from rfl, max_eq_right h1]
  have hpos : 0 < Spec.inner f f := lt_of_lt_of_le (by norm_num) h1
  rcases le_total (Spec.inner f f) (Spec.inner s f) with h | h
  · rw [saturate_high ((one_le_div hpos).2 h), max_eq_right h]
    ring
  · rw [saturate_of (div_nonneg h2 hpos.le) ((div_le_one hpos).2 h), max_eq_left h, sub_mul, div_mul_cancel₀ _ hpos.ne']
    ring

theorem calculate_parts {v : Vertex} {m : Mat2} {o : Pt ℝ} {w : Varyings} (h : calculate v m = some (o, w))
    (hs : ∃ n : ℤ, v.sideLabel = (n : ℝ)) (hf : ∃ n : ℤ, v.forwardLabel = (n : ℝ)) :
    w.side = pixels m v.sideDerivative ∧ w.forward = pixels m v.forwardDerivative ∧ 0 < w.side ∧ 0 < w.forward ∧
    w.toEdge = edgesOf v.sideLabel v.forwardLabel ∧
    ∃ s f : ℝ, 0 ≤ s ∧ 0 ≤ f ∧ s * w.side ≤ halfEdge w.side ∧ f * w.forward ≤ halfEdge w.side ∧
      min (halfEdge w.side / w.side) (marginIn v.sideLabel) ≤ s ∧
      (1 / 2 ≤ w.side → s = min (halfEdge w.side / w.side) (marginIn v.sideLabel)) ∧
      (w.side ≤ 1 / 4 → s * w.side = halfEdge w.side) ∧
      f = min (halfEdge w.side / w.forward) (marginIn v.forwardLabel) ∧
      w.outset = ⟨if v.sideLabel < 0 then s * w.side else 0, if 0 < v.sideLabel then s * w.side else 0,
        if v.forwardLabel < 0 then f * w.forward else 0, if 0 < v.forwardLabel then f * w.forward else 0⟩ ∧
      o = (outward v.sideLabel s v.sideDerivative).add
        (Pt.smul (1 - saturate (dot (outward v.sideLabel s v.sideDerivative) (outward v.forwardLabel f v.forwardDerivative) /
          max 0.000001 (dot (outward v.forwardLabel f v.forwardDerivative) (outward v.forwardLabel f v.forwardDerivative))))
          (outward v.forwardLabel f v.forwardDerivative)) := by
  unfold calculate at h
  dsimp only at h
  split_ifs at h with hz
  push Not at hz
  rw [edges_int hs hf, decodeMargin_int hs, decodeMargin_int hf, sign_smul, sign_smul, target_eq] at h
  have h1 : 0 < pixels m v.sideDerivative := lt_of_le_of_ne (pixels_nonneg _ _) (Ne.symm hz.1)
  have h2 : 0 < pixels m v.forwardDerivative := lt_of_le_of_ne (pixels_nonneg _ _) (Ne.symm hz.2)
  have hms : 0 ≤ marginIn v.sideLabel := by rw [← decodeMargin_int hs]; exact decodeMargin_nonneg _
  have hmf : 0 ≤ marginIn v.forwardLabel := by rw [← decodeMargin_int hf]; exact decodeMargin_nonneg _
  generalize pixels m v.sideDerivative = a at *
  generalize pixels m v.forwardDerivative = b at *
  generalize marginIn v.sideLabel = p at *
  generalize hq : min (halfEdge a / b) (marginIn v.forwardLabel) = q at *
  have hτ : 0 < halfEdge a := lt_of_lt_of_le (by norm_num) (halfEdge_bounds a).1
  have hT : 0 < halfEdge a / a := div_pos hτ h1
  have hT' : 0 < halfEdge a / b := div_pos hτ h2
  have hsa := saturate_nonneg (4 * a - 1)
  have hsb := saturate_le (4 * a - 1)
  have hmix : mix (halfEdge a / a) (min (halfEdge a / a) p) (saturate (4 * a - 1)) ≤ halfEdge a / a := by
    unfold mix
    have := min_le_left (halfEdge a / a) p
    nlinarith
  have hmix0 : 0 ≤ mix (halfEdge a / a) (min (halfEdge a / a) p) (saturate (4 * a - 1)) := by
    unfold mix
    have := le_min hT.le hms
    have := mul_nonneg this hsa
    nlinarith
  have hmix3 : min (halfEdge a / a) p ≤ mix (halfEdge a / a) (min (halfEdge a / a) p) (saturate (4 * a - 1)) := by
    unfold mix
    have := min_le_left (halfEdge a / a) p
    nlinarith
  have hmix1 : 1 / 2 ≤ a → mix (halfEdge a / a) (min (halfEdge a / a) p) (saturate (4 * a - 1)) = min (halfEdge a / a) p := fun q => by
    rw [saturate_high (by linarith)]
    unfold mix
    ring
  have hmix2 : a ≤ 1 / 4 → mix (halfEdge a / a) (min (halfEdge a / a) p) (saturate (4 * a - 1)) = halfEdge a / a := fun q => by
    rw [saturate_low (by linarith)]
    unfold mix
    ring
  generalize mix (halfEdge a / a) (min (halfEdge a / a) p) (saturate (4 * a - 1)) = s at *
  have hq0 : 0 ≤ q := by rw [← hq]; exact le_min hT'.le hmf
  have hq1 : q ≤ halfEdge a / b := by rw [← hq]; exact min_le_left _ _
  simp only [Option.some.injEq, Prod.mk.injEq] at h
  obtain ⟨rfl, rfl⟩ := h
  refine ⟨rfl, rfl, h1, h2, rfl, s, q, hmix0, hq0, (le_div_iff₀ h1).1 hmix, (le_div_iff₀ h2).1 hq1, hmix3, hmix1, fun k => ?_, hq.symm, ?_, rfl⟩
  · rw [hmix2 k]
    exact div_mul_cancel₀ _ h1.ne'
  · have e1 : ∀ x y : ℝ, 0 < y → halfEdge a * x * (s / (halfEdge a / y)) = x * (s * y) := fun x y hy => by field_simp
    have e2 : ∀ x y : ℝ, 0 < y → halfEdge a * x * (q / (halfEdge a / y)) = x * (q * y) := fun x y hy => by field_simp
    have l1 := congrArg Edges.left (edges_int hs hf)
    have l2 := congrArg Edges.right (edges_int hs hf)
    have l3 := congrArg Edges.front (edges_int hs hf)
    have l4 := congrArg Edges.back (edges_int hs hf)
    dsimp only [edgesOf] at l1 l2 l3 l4 ⊢
    rw [l1, l2, l3, l4, e1 _ _ h1, e1 _ _ h1, e2 _ _ h2, e2 _ _ h2]
    simp only [Edges.mk.injEq]
    refine ⟨?_, ?_, ?_, ?_⟩ <;> split_ifs <;> ring

end Verif.Antialias
