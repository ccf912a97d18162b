import Verif.Model.AffineTransform
import Verif.Props.Geometry
import Mathlib.Analysis.Real.Sqrt

/-!
# C25, C26: `Quad` and `AffineTransform`
-/

set_option autoImplicit false
set_option linter.unusedSectionVars false

namespace Verif.Geo

open Spec

variable {K : Type} [Field K] [LinearOrder K] [IsStrictOrderedRing K]

/-- Specification of `Vec::Magnitude`: the length of a vector. -/
def IsMagnitude (mag : Pt K → K) : Prop := ∀ v, 0 ≤ mag v ∧ mag v * mag v = v.x * v.x + v.y * v.y

/-! ## Composition and factories -/

/-- C26: composing transforms is applying them one after the other. -/
theorem C26_compose (s t : Affine K) (p : Pt K) : (s.mul t).apply p = s.apply (t.apply p) := by
  simp only [Affine.mul, Affine.apply, Pt.mk.injEq]
  constructor <;> ring

/-- C26: composition is associative with the identity as unit. -/
theorem C26_monoid (r s t : Affine K) : (r.mul s).mul t = r.mul (s.mul t) ∧
    Affine.identity.mul t = t ∧ t.mul Affine.identity = t ∧ ∀ p : Pt K, Affine.identity.apply p = p := by
  refine ⟨?_, ?_, ?_, fun p => ?_⟩ <;>
    simp only [Affine.mul, Affine.identity, Affine.apply] <;> ext <;> simp <;> ring

/-- C26: what the factories do to a point, and the documented compositions. -/
theorem C26_factories (v p c : Pt K) (x y k cs sn : K) :
    (Affine.translate v).apply p = ⟨p.x + v.x, p.y + v.y⟩ ∧
    (Affine.scale x y).apply p = ⟨x * p.x, y * p.y⟩ ∧
    (Affine.rotate cs sn).apply p = ⟨cs * p.x - sn * p.y, sn * p.x + cs * p.y⟩ ∧
    (Affine.shearX k).apply p = ⟨p.x + k * p.y, p.y⟩ ∧
    (Affine.shearY k).apply p = ⟨p.x, k * p.x + p.y⟩ ∧
    Affine.scaleAboutPoint x y c =
      (((Affine.translate c).mul (Affine.scale x 1)).mul (Affine.scale 1 y)).mul
        (Affine.translate ⟨-c.x, -c.y⟩) ∧
    Affine.rotateAboutPoint cs sn c =
      ((Affine.translate c).mul (Affine.rotate cs sn)).mul (Affine.translate ⟨-c.x, -c.y⟩) ∧
    (Affine.scaleAboutPoint x y c).apply c = c ∧ (Affine.rotateAboutPoint cs sn c).apply c = c := by
  refine ⟨?_, ?_, ?_, ?_, ?_, ?_, ?_, ?_, ?_⟩ <;>
    simp only [Affine.mul, Affine.translate, Affine.scale, Affine.rotate, Affine.shearX, Affine.shearY,
      Affine.scaleAboutPoint, Affine.rotateAboutPoint, Affine.apply] <;> ext <;> simp <;> ring

/-- C26: the inverse exists exactly when the transform is one to one, and is a two-sided inverse. -/
theorem C26_inverse (t : Affine K) :
    (∀ i, t.inverse = some i → t.mul i = Affine.identity ∧ i.mul t = Affine.identity) ∧
    (t.inverse ≠ none ↔ Function.Injective t.apply) ∧
    (t.inverse = none ↔ t.a * t.e - t.b * t.d = 0) := by
  have key : ∀ i, t.inverse = some i → t.mul i = Affine.identity ∧ i.mul t = Affine.identity := by
    intro i h
    unfold Affine.inverse at h
    simp only at h
    split_ifs at h with hd
    injection h with h
    subst h
    have hd' : t.a * t.e - t.b * t.d ≠ 0 := sub_ne_zero.mpr hd
    generalize hD : t.a * t.e - t.b * t.d = D at hd'
    constructor <;> simp only [Affine.mul, Affine.identity] <;> ext <;> simp only <;> field_simp <;>
      first | ring1 | linear_combination hD | linear_combination t.c * hD | linear_combination t.f * hD |
        linear_combination -t.c * hD | linear_combination -t.f * hD
  have hn : t.inverse = none ↔ t.a * t.e - t.b * t.d = 0 := by
    unfold Affine.inverse
    simp only
    split_ifs with hd
    · simp [hd]
    · simp [sub_eq_zero, hd]
  refine ⟨key, ⟨fun h => ?_, fun h hno => ?_⟩, hn⟩
  · obtain ⟨i, hi⟩ := Option.ne_none_iff_exists'.mp h
    intro p q hpq
    have := congrArg i.apply hpq
    rw [← C26_compose, ← C26_compose, (key i hi).2] at this
    rwa [(C26_monoid t t t).2.2.2, (C26_monoid t t t).2.2.2] at this
  · have hd := hn.mp hno
    by_cases h0 : t.a = 0 ∧ t.b = 0 ∧ t.d = 0 ∧ t.e = 0
    · have := @h ⟨0, 0⟩ ⟨1, 0⟩ (by simp [Affine.apply, h0])
      simp at this
    · -- the kernel has a vector that is not zero
      have e1 : t.apply ⟨t.b, -t.a⟩ = t.apply ⟨0, 0⟩ := by
        simp only [Affine.apply, Pt.mk.injEq]
        constructor <;> first | ring1 | linear_combination -hd
      have e2 : t.apply ⟨t.e, -t.d⟩ = t.apply ⟨0, 0⟩ := by
        simp only [Affine.apply, Pt.mk.injEq]
        constructor <;> first | ring1 | linear_combination hd
      have i1 := h e1
      have i2 := h e2
      simp only [Pt.mk.injEq, neg_eq_zero] at i1 i2
      exact h0 ⟨i1.2, i1.1, i2.2, i2.1⟩

/-! ## `Apply` on shapes -/

/-- C26: `Apply` maps the points of a segment, and of a triangle, to the points of the result. -/
theorem C26_apply_segment_triangle (t : Affine K) (s : Segment K) (g : Triangle K) (p : Pt K) :
    (OnSegment p (t.applySegment s) ↔ ∃ q, OnSegment q s ∧ p = t.apply q) ∧
    (InTriangle p (t.applyTriangle g) ↔ ∃ q, InTriangle q g ∧ p = t.apply q) := by
  constructor
  · constructor
    · rintro ⟨k, k0, k1, hx, hy⟩
      refine ⟨⟨s.start.x + k * (s.stop.x - s.start.x), s.start.y + k * (s.stop.y - s.start.y)⟩,
        ⟨k, k0, k1, rfl, rfl⟩, ?_⟩
      simp only [Affine.applySegment, Affine.apply] at hx hy ⊢
      ext
      · simp only; linear_combination hx
      · simp only; linear_combination hy
    · rintro ⟨q, ⟨k, k0, k1, hx, hy⟩, rfl⟩
      refine ⟨k, k0, k1, ?_, ?_⟩ <;> simp only [Affine.applySegment, Affine.apply] <;> rw [hx, hy] <;>
        ring
  · constructor
    · rintro ⟨a, b, c, a0, b0, c0, h1, hx, hy⟩
      refine ⟨⟨a * g.p0.x + b * g.p1.x + c * g.p2.x, a * g.p0.y + b * g.p1.y + c * g.p2.y⟩,
        ⟨a, b, c, a0, b0, c0, h1, rfl, rfl⟩, ?_⟩
      simp only [Affine.applyTriangle, Affine.apply] at hx hy ⊢
      ext
      · simp only; linear_combination hx + t.c * h1
      · simp only; linear_combination hy + t.f * h1
    · rintro ⟨q, ⟨a, b, c, a0, b0, c0, h1, hx, hy⟩, rfl⟩
      refine ⟨a, b, c, a0, b0, c0, h1, ?_, ?_⟩ <;> simp only [Affine.applyTriangle, Affine.apply] <;>
        rw [hx, hy]
      · linear_combination -t.c * h1
      · linear_combination -t.f * h1

theorem par_image (t : Affine K) (c u v p : Pt K) :
    InPar (t.apply c) (t.applyVec u) (t.applyVec v) p ↔ ∃ q, InPar c u v q ∧ p = t.apply q := by
  constructor
  · rintro ⟨α, β, a0, a1, b0, b1, hx, hy⟩
    refine ⟨⟨c.x + α * u.x + β * v.x, c.y + α * u.y + β * v.y⟩, ⟨α, β, a0, a1, b0, b1, rfl, rfl⟩, ?_⟩
    simp only [Affine.applyVec, Affine.apply] at hx hy ⊢
    ext
    · simp only; linear_combination hx
    · simp only; linear_combination hy
  · rintro ⟨q, ⟨α, β, a0, a1, b0, b1, hx, hy⟩, rfl⟩
    refine ⟨α, β, a0, a1, b0, b1, ?_, ?_⟩ <;> simp only [Affine.applyVec, Affine.apply] <;>
      rw [hx, hy] <;> ring

theorem asUnit_unit {mag : Pt K → K} (hm : IsMagnitude mag) (v : Pt K) :
    (asUnit mag v).x * (asUnit mag v).x + (asUnit mag v).y * (asUnit mag v).y = 1 ∧
    v.x = mag v * (asUnit mag v).x ∧ v.y = mag v * (asUnit mag v).y := by
  obtain ⟨m0, m2⟩ := hm v
  unfold asUnit
  by_cases h : v.x = 0 ∧ v.y = 0
  · rw [if_pos h]
    rw [h.1, h.2] at m2 ⊢
    have : mag v = 0 := by
      have : mag v * mag v = 0 := by rw [m2]; ring
      simpa using this
    rw [this]
    simp
  · rw [if_neg h]
    have hne : mag v ≠ 0 := by
      intro h0
      rw [h0] at m2
      have hx := mul_self_nonneg v.x
      have hy := mul_self_nonneg v.y
      exact h ⟨by have : v.x * v.x = 0 := by linarith
                  simpa using this, by have : v.y * v.y = 0 := by linarith
                                       simpa using this⟩
    simp only
    refine ⟨?_, ?_, ?_⟩
    · field_simp
      linear_combination -m2
    · field_simp
    · field_simp

/-- The semi-axes of the transformed quad are the transformed semi-axes. -/
theorem applyQuad_axes {mag : Pt K → K} (hm : IsMagnitude mag) (t : Affine K)
    (ht : t.a * t.e - t.b * t.d ≠ 0) (q : Quad K) (hq : q.cos * q.cos + q.sin * q.sin = 1) :
    (t.applyQuad mag q).center = t.apply q.center ∧
    (t.applyQuad mag q).semiAxes = (t.applyVec q.semiAxes.1, t.applyVec q.semiAxes.2) ∧
    Proper (.quad (t.applyQuad mag q)) := by
  unfold Affine.applyQuad
  simp only
  generalize hu : (if q.width = 0 then (⟨q.cos, q.sin⟩ : Pt K) else q.semiAxes.1) = u
  generalize hv : (if q.height = 0 then (u.smul q.shear).add ⟨-u.y, u.x⟩ else q.semiAxes.2) = v
  have hdet : u.det v ≠ 0 := by
    have hu2 : u.x * u.x + u.y * u.y ≠ 0 := by
      by_cases hw : q.width = 0
      · rw [if_pos hw] at hu
        rw [← hu]
        simp only
        rw [hq]; exact one_ne_zero
      · rw [if_neg hw] at hu
        rw [← hu]
        simp only [Quad.semiAxes]
        have : 1 / 2 * q.width * q.cos * (1 / 2 * q.width * q.cos) +
            1 / 2 * q.width * q.sin * (1 / 2 * q.width * q.sin) = q.width * q.width / 4 := by
          linear_combination q.width * q.width / 4 * hq
        rw [this]
        exact div_ne_zero (mul_ne_zero hw hw) (by norm_num)
    by_cases hh : q.height = 0
    · rw [if_pos hh] at hv
      rw [← hv]
      simp only [Pt.det, Pt.smul, Pt.add]
      intro h
      exact hu2 (by linear_combination h)
    · rw [if_neg hh] at hv
      rw [← hv]
      by_cases hw : q.width = 0
      · rw [if_pos hw] at hu
        rw [← hu]
        simp only [Pt.det, Quad.semiAxes]
        intro h
        have : q.height / 2 = 0 := by linear_combination h - q.height / 2 * hq
        exact (div_ne_zero hh (by norm_num)) this
      · rw [if_neg hw] at hu
        rw [← hu]
        simp only [Pt.det, Quad.semiAxes]
        intro h
        have : q.width * q.height / 4 = 0 := by
          linear_combination h - q.width * q.height / 4 * hq
        exact (div_ne_zero (mul_ne_zero hw hh) (by norm_num)) this
  have hX : (t.applyVec u).det (t.applyVec v) ≠ 0 := by
    have : (t.applyVec u).det (t.applyVec v) = (t.a * t.e - t.b * t.d) * u.det v := by
      simp only [Pt.det, Affine.applyVec]; ring
    rw [this]
    exact mul_ne_zero ht hdet
  obtain ⟨d1, dx, dy⟩ := asUnit_unit hm (t.applyVec u)
  obtain ⟨m0, m2⟩ := hm (t.applyVec u)
  have hm0 : mag (t.applyVec u) ≠ 0 := by
    intro h0
    rw [h0, zero_mul] at dx dy
    exact hX (by simp [Pt.det, dx, dy])
  have hU : q.width ≠ 0 → t.applyVec q.semiAxes.1 = t.applyVec u := by
    intro hw; rw [← hu, if_neg hw]
  have hV : q.height ≠ 0 → t.applyVec q.semiAxes.2 = t.applyVec v := by
    intro hh; rw [← hv, if_neg hh]
  have hX' : (t.applyVec u).det (t.applyVec v) = mag (t.applyVec u) *
      ((asUnit mag (t.applyVec u)).x * (t.applyVec v).y - (asUnit mag (t.applyVec u)).y *
        (t.applyVec v).x) := by
    unfold Pt.det; linear_combination (t.applyVec v).y * dx - (t.applyVec v).x * dy
  have hY' : (t.applyVec u).dot (t.applyVec v) = mag (t.applyVec u) *
      ((asUnit mag (t.applyVec u)).x * (t.applyVec v).x + (asUnit mag (t.applyVec u)).y *
        (t.applyVec v).y) := by
    unfold Pt.dot; linear_combination (t.applyVec v).x * dx + (t.applyVec v).y * dy
  generalize (t.applyVec u).det (t.applyVec v) = X at *
  generalize (t.applyVec u).dot (t.applyVec v) = Y at *
  generalize asUnit mag (t.applyVec u) = dir at *
  generalize mag (t.applyVec u) = m at *
  generalize t.applyVec v = V at *
  generalize t.applyVec u = U at *
  have hw0 : 0 ≤ (if q.width = 0 then 0 else 2 * m) := by split_ifs <;> linarith
  unfold Affine.mkQuad
  rw [if_neg (not_lt.mpr hw0)]
  refine ⟨rfl, ?_, hw0, d1⟩
  rw [if_neg hX]
  apply Prod.ext
  · by_cases hw : q.width = 0
    · simp [Quad.semiAxes, Affine.applyVec, hw]
    · rw [hU hw]
      simp only [Quad.semiAxes, if_neg hw]
      ext
      · simp only; linear_combination -dx
      · simp only; linear_combination -dy
  · by_cases hh : q.height = 0
    · simp [Quad.semiAxes, Affine.applyVec, hh]
    · rw [hV hh]
      have hc : ¬ (q.height = 0 ∨ X = 0) := by tauto
      simp only [Quad.semiAxes, if_neg hc]
      have e1 : 1 / 2 * (2 * X / m) * (Y / X * dir.x - dir.y) = (Y * dir.x - X * dir.y) / m := by
        field_simp
      have e2 : 1 / 2 * (2 * X / m) * (Y / X * dir.y + dir.x) = (Y * dir.y + X * dir.x) / m := by
        field_simp
      ext
      · simp only
        rw [e1, div_eq_iff hm0, hX', hY']
        linear_combination V.x * m * d1
      · simp only
        rw [e2, div_eq_iff hm0, hX', hY']
        linear_combination V.y * m * d1

/-- C26: `Apply` maps the points of a quad to the points of the result, for every transform that can be
inverted; and the result is a proper quad. -/
theorem C26_apply_quad_partial {mag : Pt K → K} (hm : IsMagnitude mag) (t : Affine K)
    (ht : t.inverse ≠ none) (q : Quad K) (hq : Proper (.quad q)) :
    (∀ p, InQuad p (t.applyQuad mag q) ↔ ∃ p', InQuad p' q ∧ p = t.apply p') ∧
    Proper (.quad (t.applyQuad mag q)) := by
  have hd : t.a * t.e - t.b * t.d ≠ 0 := fun h => ht ((C26_inverse t).2.2.2 h)
  obtain ⟨h1, h2, h3⟩ := applyQuad_axes hm t hd q hq.2
  refine ⟨fun p => ?_, h3⟩
  rw [inQuad_iff, h1, h2, par_image]
  simp only [inQuad_iff]

/-- C26: `Apply` maps the points of a rectangle to the points of the result. -/
theorem C26_apply_rect_partial {mag : Pt K → K} (hm : IsMagnitude mag) (t : Affine K)
    (ht : t.inverse ≠ none) (r : Rect K) (hr : Proper (.rect r)) :
    (∀ p, InQuad p (t.applyRect mag r) ↔ ∃ p', InRect p' r ∧ p = t.apply p') ∧
    Proper (.quad (t.applyRect mag r)) := by
  have hw : 0 ≤ r.width := by unfold Rect.width; linarith [hr.1]
  have hp : Affine.quadFromRect r = ⟨r.center, r.width, r.height, 1, 0, 0⟩ := by
    unfold Affine.quadFromRect Affine.mkQuad; rw [if_neg (not_lt.mpr hw)]
  have hq : Proper (.quad (Affine.quadFromRect r)) := by
    rw [hp]; exact ⟨hw, by simp⟩
  obtain ⟨h1, h2⟩ := C26_apply_quad_partial hm t ht _ hq
  refine ⟨fun p => ?_, h2⟩
  unfold Affine.applyRect
  rw [h1]
  have : ∀ p', InQuad p' (Affine.quadFromRect r) ↔ InRect p' r := by
    intro p'
    rw [inQuad_iff, inRect_iff r p' hr, hp]
    have : (⟨r.center, r.width, r.height, 1, 0, 0⟩ : Quad K).semiAxes =
        (⟨r.width / 2, 0⟩, ⟨0, r.height / 2⟩) := by
      simp only [Quad.semiAxes, Prod.mk.injEq, Pt.mk.injEq]
      refine ⟨⟨?_, ?_⟩, ?_, ?_⟩ <;> ring
    rw [this]
  simp only [this]

/-- C26, what is missing in `C26_apply_quad_partial`: a transform that cannot be inverted may lose a
side. Scaling x by zero maps the square around the origin with side 2 to the segment from (0, -1) to
(0, 1), and `Apply` returns a point. -/
theorem C26_apply_quad_counterexample {mag : Pt K → K} (hm : IsMagnitude mag) :
    let q : Quad K := ⟨⟨0, 0⟩, 2, 2, 1, 0, 0⟩
    let t : Affine K := Affine.scale 0 1
    InQuad ⟨0, 1⟩ q ∧ t.apply ⟨0, 1⟩ = ⟨0, 1⟩ ∧ ¬ InQuad ⟨0, 1⟩ (t.applyQuad mag q) := by
  intro q t
  refine ⟨⟨0, 1, by norm_num, by norm_num, by norm_num, by norm_num, by norm_num [q], by norm_num [q]⟩,
    by simp [t, Affine.scale, Affine.apply], ?_⟩
  have h0 : mag ⟨0, 0⟩ = 0 := by
    have := (hm ⟨0, 0⟩).2
    simpa using this
  have e : t.applyQuad mag q = ⟨⟨0, 0⟩, 0, 0, 1, 0, 0⟩ := by
    simp [t, q, Affine.applyQuad, Affine.scale, Affine.applyVec, Affine.apply, Quad.semiAxes, Pt.det,
      asUnit, h0, Affine.mkQuad]
  rw [e]
  rintro ⟨α, β, -, -, -, -, -, h⟩
  simp at h

/-! ## `Find` -/

/-- C26: `Find` for segments. -/
theorem C26_find_segment {mag : Pt K → K} (hm : IsMagnitude mag) (src dst : Segment K) :
    (∀ t, Affine.findSegment mag src dst = some t →
      t.applySegment src = dst ∧ t.a = t.e ∧ t.b = -t.d) ∧
    (Affine.findSegment mag src dst = none ↔ src.start = src.stop ∧ dst.start ≠ dst.stop) := by
  have z : ∀ s : Segment K, mag s.vector = 0 ↔ s.start = s.stop := by
    intro s
    obtain ⟨d1, dx, dy⟩ := asUnit_unit hm s.vector
    obtain ⟨m0, m2⟩ := hm s.vector
    constructor
    · intro h
      rw [h] at dx dy
      simp only [Segment.vector, Pt.sub, zero_mul] at dx dy
      ext
      · linear_combination -dx
      · linear_combination -dy
    · intro h
      simp only [Segment.vector, Pt.sub, h, sub_self, mul_zero, add_zero] at m2 ⊢
      simpa using m2
  obtain ⟨d1, dx, dy⟩ := asUnit_unit hm src.vector
  obtain ⟨e1, ex, ey⟩ := asUnit_unit hm dst.vector
  constructor
  · intro t h
    unfold Affine.findSegment at h
    by_cases hs : mag src.vector = 0
    · rw [if_pos hs] at h
      by_cases hd : mag dst.vector = 0
      · rw [if_pos hd] at h
        injection h with h
        subst h
        have h1 := (z src).1 hs
        have h2 := (z dst).1 hd
        refine ⟨?_, rfl, by simp [Affine.translate]⟩
        cases src; cases dst
        simp only at h1 h2
        subst h1 h2
        simp [Affine.applySegment, Affine.apply, Affine.translate, Pt.sub]
      · rw [if_neg hd] at h; cases h
    · rw [if_neg hs] at h
      injection h with h
      subst h
      refine ⟨?_, rfl, rfl⟩
      generalize asUnit mag src.vector = ua at *
      generalize asUnit mag dst.vector = ub at *
      have hk : mag dst.vector / mag src.vector * mag src.vector = mag dst.vector :=
        div_mul_cancel₀ _ hs
      generalize mag dst.vector / mag src.vector = k at *
      generalize mag src.vector = m at *
      generalize mag dst.vector = n at *
      simp only [Segment.vector, Pt.sub] at dx dy ex ey
      obtain ⟨⟨sx, sy⟩, ⟨tx, ty⟩⟩ := src
      obtain ⟨⟨px, py⟩, ⟨qx, qy⟩⟩ := dst
      simp only [Affine.applySegment, Affine.apply, Pt.dot, Pt.det, Segment.mk.injEq, Pt.mk.injEq]
      simp only at dx dy ex ey
      refine ⟨⟨by ring, by ring⟩, ?_, ?_⟩
      · linear_combination k * (ua.x * ub.x + ua.y * ub.y) * dx - k * (ua.x * ub.y - ua.y * ub.x) * dy
          - ex + k * m * ub.x * d1 + ub.x * hk
      · linear_combination k * (ua.x * ub.y - ua.y * ub.x) * dx + k * (ua.x * ub.x + ua.y * ub.y) * dy
          - ey + k * m * ub.y * d1 + ub.y * hk
  · unfold Affine.findSegment
    rw [← z, Ne, ← z]
    split_ifs <;> simp_all

/-- C26: `Find` for triangles. -/
theorem C26_find_triangle (src dst : Triangle K) :
    (∀ t, Affine.findTriangle src dst = some t → t.applyTriangle src = dst) ∧
    (Affine.findTriangle src dst = none ↔ src.signedArea = 0) := by
  have hd : src.p1.x * src.p0.y - src.p2.x * src.p0.y - src.p0.x * src.p1.y + src.p2.x * src.p1.y +
      src.p0.x * src.p2.y - src.p1.x * src.p2.y = -(2 * src.signedArea) := by
    simp only [Triangle.signedArea, Pt.det, Pt.sub]; ring
  unfold Affine.findTriangle
  simp only
  constructor
  · intro t h
    rw [hd] at h
    split_ifs at h with hc
    injection h with h
    subst h
    have hA : -(2 * src.signedArea) ≠ 0 := fun h => hc (Or.inl h)
    generalize -(2 * src.signedArea) = A at *
    obtain ⟨⟨a0, b0⟩, ⟨a1, b1⟩, ⟨a2, b2⟩⟩ := src
    obtain ⟨⟨x0, y0⟩, ⟨x1, y1⟩, ⟨x2, y2⟩⟩ := dst
    simp only [Affine.applyTriangle, Affine.apply, Triangle.mk.injEq, Pt.mk.injEq]
    simp only at hd
    have fin : ∀ n0 n1 n2 x y r : K, n0 * x - n1 * y + n2 = r * A →
        n0 / A * x + n1 / -A * y + n2 / A = r := by
      intro n0 n1 n2 x y r h
      field_simp
      linear_combination h
    refine ⟨⟨?_, ?_⟩, ⟨?_, ?_⟩, ?_, ?_⟩ <;> apply fin <;> rw [← hd] <;> ring
  · rw [hd]
    split_ifs with h
    · simp only [true_iff]
      rcases h with h | h
      · linarith
      · exact h
    · simp only [false_iff]
      tauto

/-- A transform that maps three corners of a parallelogram maps its center and sides. -/
theorem par_of_corners (t : Affine K) (c u v c' u' v' : Pt K)
    (h : t.applyTriangle ⟨(c.sub u).sub v, (c.add u).sub v, (c.add u).add v⟩ =
      ⟨(c'.sub u').sub v', (c'.add u').sub v', (c'.add u').add v'⟩) :
    t.apply c = c' ∧ t.applyVec u = u' ∧ t.applyVec v = v' ∧
      t.apply ((c.sub u).add v) = (c'.sub u').add v' := by
  simp only [Affine.applyTriangle, Affine.apply, Pt.add, Pt.sub, Triangle.mk.injEq, Pt.mk.injEq] at h
  obtain ⟨⟨x0, y0⟩, ⟨x1, y1⟩, x2, y2⟩ := h
  refine ⟨?_, ?_, ?_, ?_⟩ <;> ext <;> simp only [Affine.apply, Affine.applyVec, Pt.add, Pt.sub]
  · linear_combination (x0 + x2) / 2
  · linear_combination (y0 + y2) / 2
  · linear_combination (x1 - x0) / 2
  · linear_combination (y1 - y0) / 2
  · linear_combination (x2 - x1) / 2
  · linear_combination (y2 - y1) / 2
  · linear_combination x0 + x2 - x1
  · linear_combination y0 + y2 - y1

/-- C26: `Find` for quads maps every corner to the corner with the same index and the points of one quad
to the points of the other; it fails exactly when the area is zero. -/
theorem C26_find_quad (src dst : Quad K) (hs : Proper (.quad src)) :
    (∀ t, Affine.findQuad src dst = some t →
      (t.apply src.corners.1 = dst.corners.1 ∧ t.apply src.corners.2.1 = dst.corners.2.1 ∧
        t.apply src.corners.2.2.1 = dst.corners.2.2.1 ∧
        t.apply src.corners.2.2.2 = dst.corners.2.2.2) ∧
      ∀ p, InQuad p dst ↔ ∃ p', InQuad p' src ∧ p = t.apply p') ∧
    (Affine.findQuad src dst = none ↔ src.width * src.height = 0) := by
  obtain ⟨f1, f2⟩ := C26_find_triangle (K := K) ⟨src.corners.1, src.corners.2.1, src.corners.2.2.1⟩
    ⟨dst.corners.1, dst.corners.2.1, dst.corners.2.2.1⟩
  constructor
  · intro t ht
    have h := f1 t ht
    obtain ⟨h1, h2, h3, h4⟩ := par_of_corners t src.center src.semiAxes.1 src.semiAxes.2 dst.center
      dst.semiAxes.1 dst.semiAxes.2 h
    have h' := h
    simp only [Affine.applyTriangle, Triangle.mk.injEq] at h'
    refine ⟨⟨h'.1, h'.2.1, h'.2.2, h4⟩, fun p => ?_⟩
    rw [inQuad_iff, ← h1, ← h2, ← h3, par_image]
    simp only [inQuad_iff]
  · unfold Affine.findQuad
    rw [f2]
    have : (⟨src.corners.1, src.corners.2.1, src.corners.2.2.1⟩ : Triangle K).signedArea =
        src.width * src.height / 2 := by
      simp only [Triangle.signedArea, Quad.corners, Quad.semiAxes, Pt.det, Pt.add, Pt.sub]
      linear_combination src.width * src.height / 2 * hs.2
    rw [this]
    constructor
    · intro h; linarith
    · intro h; rw [h]; ring

/-- C26: `Find` for rectangles. -/
theorem C26_find_rect (src dst : Rect K) (hs : Proper (.rect src)) (hd : Proper (.rect dst)) :
    (∀ t, Affine.findRect src dst = some t →
      (t.apply ⟨src.xMin, src.yMin⟩ = ⟨dst.xMin, dst.yMin⟩ ∧
        t.apply ⟨src.xMax, src.yMin⟩ = ⟨dst.xMax, dst.yMin⟩ ∧
        t.apply ⟨src.xMax, src.yMax⟩ = ⟨dst.xMax, dst.yMax⟩ ∧
        t.apply ⟨src.xMin, src.yMax⟩ = ⟨dst.xMin, dst.yMax⟩) ∧
      ∀ p, InRect p dst ↔ ∃ p', InRect p' src ∧ p = t.apply p') ∧
    (Affine.findRect src dst = none ↔ src.width = 0 ∨ src.height = 0) := by
  obtain ⟨f1, f2⟩ := C26_find_triangle (K := K)
    ⟨⟨src.xMin, src.yMin⟩, ⟨src.xMax, src.yMin⟩, ⟨src.xMax, src.yMax⟩⟩
    ⟨⟨dst.xMin, dst.yMin⟩, ⟨dst.xMax, dst.yMin⟩, ⟨dst.xMax, dst.yMax⟩⟩
  have corner : ∀ r : Rect K,
      (⟨r.xMin, r.yMin⟩ : Pt K) = (r.center.sub ⟨r.width / 2, 0⟩).sub ⟨0, r.height / 2⟩ ∧
      (⟨r.xMax, r.yMin⟩ : Pt K) = (r.center.add ⟨r.width / 2, 0⟩).sub ⟨0, r.height / 2⟩ ∧
      (⟨r.xMax, r.yMax⟩ : Pt K) = (r.center.add ⟨r.width / 2, 0⟩).add ⟨0, r.height / 2⟩ ∧
      (⟨r.xMin, r.yMax⟩ : Pt K) = (r.center.sub ⟨r.width / 2, 0⟩).add ⟨0, r.height / 2⟩ := by
    intro r
    refine ⟨?_, ?_, ?_, ?_⟩ <;> ext <;>
      simp only [Rect.center, Rect.width, Rect.height, Pt.add, Pt.sub] <;> ring
  constructor
  · intro t ht
    have h := f1 t ht
    have h' := h
    simp only [Affine.applyTriangle, Triangle.mk.injEq] at h'
    have h2 := h
    rw [(corner src).1, (corner src).2.1, (corner src).2.2.1, (corner dst).1, (corner dst).2.1,
      (corner dst).2.2.1] at h2
    obtain ⟨c1, c2, c3, c4⟩ := par_of_corners t _ _ _ _ _ _ h2
    refine ⟨⟨h'.1, h'.2.1, h'.2.2, ?_⟩, fun p => ?_⟩
    · rw [(corner src).2.2.2, (corner dst).2.2.2]; exact c4
    · rw [inRect_iff dst p hd, ← c1, ← c2, ← c3, par_image]
      constructor
      · rintro ⟨q, h1, h2⟩; exact ⟨q, (inRect_iff src q hs).2 h1, h2⟩
      · rintro ⟨q, h1, h2⟩; exact ⟨q, (inRect_iff src q hs).1 h1, h2⟩
  · unfold Affine.findRect
    rw [f2]
    have : (⟨⟨src.xMin, src.yMin⟩, ⟨src.xMax, src.yMin⟩, ⟨src.xMax, src.yMax⟩⟩ : Triangle K).signedArea =
        src.width * src.height / 2 := by
      simp only [Triangle.signedArea, Rect.width, Rect.height, Pt.det, Pt.sub]; ring
    rw [this, div_eq_zero_iff, mul_eq_zero]
    simp

/-! ## Histories of a `Quad` -/

/-- C25, the state of every reachable quad: the width is not negative, the rotation is an angle, and the
cached semi-axes are those of the current dimensions. -/
def QuadObj.Ok (o : QuadObj K) : Prop :=
  Proper (.quad o.quad) ∧ ∀ c, o.cache = some c → c = o.quad.semiAxes

/-- The operations that pass an angle. -/
def QuadOp.Ok : QuadOp K → Prop
  | .setRotation c s => c * c + s * s = 1
  | _ => True

theorem mkQuad_proper (center : Pt K) (w h c s k : K) (hc : c * c + s * s = 1) :
    Proper (.quad (Affine.mkQuad center w h c s k)) := by
  unfold Affine.mkQuad
  split_ifs with hw
  · exact ⟨by simp only; linarith, by simp only; linear_combination hc⟩
  · exact ⟨not_lt.mp hw, hc⟩

theorem QuadObj.ok_step (o : QuadObj K) (ho : o.Ok) (op : QuadOp K) (hop : op.Ok) : (o.step op).Ok := by
  obtain ⟨⟨hw, hc⟩, hcache⟩ := ho
  have none_ok : ∀ q : Quad K, Proper (.quad q) → QuadObj.Ok (⟨q, none⟩ : QuadObj K) :=
    fun q hq => ⟨hq, fun c h => by cases h⟩
  cases op with
  | setCenter p => exact ⟨⟨hw, hc⟩, fun c h => hcache c h⟩
  | setWidth w =>
    unfold QuadObj.step QuadObj.setWidth QuadObj.normalize
    simp only
    split_ifs with h1 h2
    · exact ⟨⟨hw, hc⟩, hcache⟩
    · exact none_ok _ ⟨by simp only; linarith, by simp only; linear_combination hc⟩
    · exact none_ok _ ⟨not_lt.mp h2, hc⟩
  | setHeight h =>
    unfold QuadObj.step QuadObj.setHeight
    simp only
    split_ifs
    · exact ⟨⟨hw, hc⟩, hcache⟩
    · exact none_ok _ ⟨hw, hc⟩
  | setRotation c s =>
    unfold QuadObj.step QuadObj.setRotation
    simp only
    split_ifs
    · exact ⟨⟨hw, hc⟩, hcache⟩
    · exact none_ok _ ⟨hw, hop⟩
  | setShearFactor k =>
    unfold QuadObj.step QuadObj.setShearFactor
    simp only
    split_ifs
    · exact ⟨⟨hw, hc⟩, hcache⟩
    · exact none_ok _ ⟨hw, hc⟩
  | join p => exact none_ok _ ⟨le_trans hw (le_max_left _ _), hc⟩
  | semiAxes =>
    unfold QuadObj.step QuadObj.semiAxes
    simp only
    cases hx : o.cache with
    | none => exact ⟨⟨hw, hc⟩, fun c h => by injection h with h; exact h.symm⟩
    | some c => exact ⟨⟨hw, hc⟩, hcache⟩

/-- C25: after any history of calls the width is not negative, the rotation is an angle, and the semi-axes
and corners reported are those of the current center, dimensions, rotation and shear factor, in the
documented order. -/
theorem C25_history (center : Pt K) (w h c s k : K) (hc : c * c + s * s = 1) (ops : List (QuadOp K))
    (hops : ∀ op ∈ ops, op.Ok) :
    let o := (QuadObj.new center w h c s k).run ops
    let u : Pt K := ⟨o.quad.width / 2 * o.quad.cos, o.quad.width / 2 * o.quad.sin⟩
    let v : Pt K := ⟨o.quad.height / 2 * (o.quad.shear * o.quad.cos - o.quad.sin),
      o.quad.height / 2 * (o.quad.shear * o.quad.sin + o.quad.cos)⟩
    let ctr := o.quad.center
    0 ≤ o.quad.width ∧ o.quad.cos * o.quad.cos + o.quad.sin * o.quad.sin = 1 ∧
    o.semiAxes.1 = (u, v) ∧
    o.corners = (⟨ctr.x - u.x - v.x, ctr.y - u.y - v.y⟩, ⟨ctr.x + u.x - v.x, ctr.y + u.y - v.y⟩,
      ⟨ctr.x + u.x + v.x, ctr.y + u.y + v.y⟩, ⟨ctr.x - u.x + v.x, ctr.y - u.y + v.y⟩) := by
  intro o u v ctr
  have ok : o.Ok := by
    have h0 : (QuadObj.new center w h c s k).Ok :=
      ⟨mkQuad_proper center w h c s k hc, fun c h => by cases h⟩
    clear u v ctr
    have : ∀ (l : List (QuadOp K)) (o : QuadObj K), o.Ok → (∀ op ∈ l, op.Ok) → (o.run l).Ok := by
      intro l
      induction l with
      | nil => intro o ho _; exact ho
      | cons op l ih =>
        intro o ho hl
        exact ih _ (o.ok_step ho op (hl op (by simp))) fun op' h' => hl op' (by simp [h'])
    exact this ops _ h0 hops
  have e : o.quad.semiAxes = (u, v) := by
    simp only [Quad.semiAxes, u, v, Prod.mk.injEq, Pt.mk.injEq]
    refine ⟨⟨?_, ?_⟩, ?_, ?_⟩ <;> ring
  have hs : o.semiAxes.1 = (u, v) := by
    unfold QuadObj.semiAxes
    cases hx : o.cache with
    | none => exact e
    | some c => rw [← e]; exact ok.2 c hx
  refine ⟨ok.1.1, ok.1.2, hs, ?_⟩
  unfold QuadObj.corners
  rw [hs]
  rfl

/-- C25: what each setter changes; a negative width turns the quad by half a turn and negates both
dimensions, which keeps its points. -/
theorem C25_setters (o : QuadObj K) (p : Pt K) (w h c s k : K) :
    (o.setCenter p).quad = { o.quad with center := p } ∧
    (o.setHeight h).quad = { o.quad with height := h } ∧
    (o.setRotation c s).quad = { o.quad with cos := c, sin := s } ∧
    (o.setShearFactor k).quad = { o.quad with shear := k } ∧
    (0 ≤ w → (o.setWidth w).quad = { o.quad with width := w }) ∧
    (0 ≤ o.quad.width → ∀ x, InQuad x (o.setWidth w).quad ↔ InQuad x { o.quad with width := w }) := by
  refine ⟨rfl, ?_, ?_, ?_, fun hw => ?_, fun hw x => ?_⟩
  · unfold QuadObj.setHeight; split_ifs with h1
    · rw [h1]
    · rfl
  · unfold QuadObj.setRotation; split_ifs with h1
    · rw [h1.1, h1.2]
    · rfl
  · unfold QuadObj.setShearFactor; split_ifs with h1
    · rw [h1]
    · rfl
  · unfold QuadObj.setWidth QuadObj.normalize; simp only
    rw [if_neg (not_lt.mpr hw)]
    split_ifs with h1
    · rw [h1]
    · rfl
  · unfold QuadObj.setWidth QuadObj.normalize; simp only
    split_ifs with h1 h2
    · rw [h1]
    · unfold InQuad
      simp only
      constructor <;>
      · rintro ⟨α, β, a0, a1, b0, b1, hx, hy⟩
        exact ⟨α, β, a0, a1, b0, b1, by rw [hx]; ring, by rw [hy]; ring⟩
    · rfl

theorem sgn_mul (x : K) : sgn x * x = |x| ∧ sgn x * sgn x = 1 := by
  unfold sgn
  split_ifs with h
  · rw [abs_of_neg h]; exact ⟨by ring, by ring⟩
  · rw [abs_of_nonneg (not_lt.mp h)]; exact ⟨by ring, by ring⟩

/-- One dimension of `Join`: `r` is half the size, `x` the coordinate of the point, `g` the shift. -/
theorem join_dim (r x s : K) (hr : 0 ≤ r) (hs : s * x = |x|) (hs2 : s * s = 1) :
    let r' := max (2 * r) (r + |x|) / 2
    let g := s * (r' - r)
    |x - g| ≤ r' ∧ ∀ y, |y| ≤ r → |y - g| ≤ r' := by
  intro r' g
  have hs1 : s = 1 ∨ s = -1 := mul_self_eq_one_iff.1 hs2
  have h1 : 2 * r ≤ 2 * r' := by simp only [r']; linarith [le_max_left (2 * r) (r + |x|)]
  have h2 : r + |x| ≤ 2 * r' := by simp only [r']; linarith [le_max_right (2 * r) (r + |x|)]
  simp only [g, abs_le]
  rcases hs1 with rfl | rfl
  · have hx : x = |x| := by linarith
    have := abs_nonneg x
    refine ⟨⟨?_, ?_⟩, fun y hy => ⟨?_, ?_⟩⟩
    · by_cases hm : 2 * r ≤ r + |x|
      · have : 2 * r' = r + |x| := by simp only [r']; rw [max_eq_right hm]; ring
        linarith
      · have : 2 * r' = 2 * r := by simp only [r']; rw [max_eq_left (by linarith)]; ring
        linarith
    · linarith
    · linarith [hy.1]
    · linarith [hy.2]
  · have hx : x = -|x| := by linarith
    have := abs_nonneg x
    refine ⟨⟨?_, ?_⟩, fun y hy => ⟨?_, ?_⟩⟩
    · linarith
    · by_cases hm : 2 * r ≤ r + |x|
      · have : 2 * r' = r + |x| := by simp only [r']; rw [max_eq_right hm]; ring
        linarith
      · have : 2 * r' = 2 * r := by simp only [r']; rw [max_eq_left (by linarith)]; ring
        linarith
    · linarith [hy.1]
    · linarith [hy.2]

/-- Containment in the coordinates of the quad. -/
theorem inQuad_coord (q : Quad K) (p : Pt K) (h : Proper (.quad q)) : InQuad p q ↔
    |q.cos * (p.y - q.center.y) - q.sin * (p.x - q.center.x)| ≤ |q.height| / 2 ∧
    |q.cos * (p.x - q.center.x) + q.sin * (p.y - q.center.y) -
      q.shear * (q.cos * (p.y - q.center.y) - q.sin * (p.x - q.center.x))| ≤ q.width / 2 := by
  rw [← quad_contains q p h]
  rw [show |q.height| / 2 = 1 / 2 * |q.height| by ring, show q.width / 2 = 1 / 2 * q.width by ring]
  change (if |q.cos * (p.y - q.center.y) - q.sin * (p.x - q.center.x)| > 1 / 2 * |q.height| then false
    else decide (|q.cos * (p.x - q.center.x) + q.sin * (p.y - q.center.y) -
      q.shear * (q.cos * (p.y - q.center.y) - q.sin * (p.x - q.center.x))| ≤ 1 / 2 * q.width)) = true ↔ _
  by_cases hc : |q.cos * (p.y - q.center.y) - q.sin * (p.x - q.center.x)| > 1 / 2 * |q.height|
  · rw [if_pos hc]
    exact ⟨fun h => (by cases h), fun h => absurd h.1 (not_le.mpr hc)⟩
  · rw [if_neg hc, decide_eq_true_eq]
    exact ⟨fun h => ⟨not_lt.mp hc, h⟩, fun h => h.2⟩

/-- C25: `Join(p)` makes the quad contain `p` and everything it contained before, keeps rotation, shear
factor and the sign of the height, and changes nothing when `p` was contained. -/
theorem C25_join (o : QuadObj K) (ho : Proper (.quad o.quad)) (p : Pt K) :
    InQuad p (o.join p).quad ∧ (∀ x, InQuad x o.quad → InQuad x (o.join p).quad) ∧
    (o.join p).quad.cos = o.quad.cos ∧ (o.join p).quad.sin = o.quad.sin ∧
    (o.join p).quad.shear = o.quad.shear ∧
    o.quad.width ≤ (o.join p).quad.width ∧ |o.quad.height| ≤ |(o.join p).quad.height| ∧
    (o.quad.height < 0 ↔ (o.join p).quad.height < 0) ∧
    (InQuad p o.quad → (o.join p).quad = o.quad) := by
  have hP : Proper (.quad (o.join p).quad) := ⟨le_trans ho.1 (le_max_left _ _), ho.2⟩
  obtain ⟨hw, hc⟩ := ho
  -- coordinates of `p`
  generalize hb : o.quad.cos * (p.y - o.quad.center.y) - o.quad.sin * (p.x - o.quad.center.x) = b
  generalize ha : o.quad.cos * (p.x - o.quad.center.x) + o.quad.sin * (p.y - o.quad.center.y)
    - o.quad.shear * b = a
  have hv : (o.quad.shear * o.quad.cos - o.quad.sin) * (p.y - o.quad.center.y) -
      (o.quad.shear * o.quad.sin + o.quad.cos) * (p.x - o.quad.center.x) = -a := by
    rw [← ha, ← hb]; ring
  obtain ⟨sh, sh2⟩ := sgn_mul o.quad.height
  obtain ⟨sb, sb2⟩ := sgn_mul b
  obtain ⟨sa, sa2⟩ := sgn_mul (-a)
  have aw := join_dim (o.quad.width / 2) a (-sgn (-a)) (by linarith) (by rw [← abs_neg a]; linarith)
    (by linarith)
  have ah := join_dim (|o.quad.height| / 2) b (sgn b) (by have := abs_nonneg o.quad.height; linarith) sb
    sb2
  simp only at aw ah
  have e2w : 2 * (o.quad.width / 2) = o.quad.width := by ring
  have e2h : 2 * (|o.quad.height| / 2) = |o.quad.height| := by ring
  rw [e2w] at aw
  rw [e2h] at ah
  -- the new quad
  generalize hM : max |o.quad.height| (|o.quad.height| / 2 + |b|) = M at ah
  generalize hW : max o.quad.width (o.quad.width / 2 + |a|) = W at aw
  have M0 : 0 ≤ M := by rw [← hM]; exact le_trans (abs_nonneg _) (le_max_left _ _)
  have jw : (o.join p).quad.width = W := by
    rw [← hW, ← ha, ← hb]
    simp only [QuadObj.join, Quad.unitAxes, Pt.det, Pt.dot, Pt.sub]
    rw [show (1 / 2 * o.quad.width : K) = o.quad.width / 2 by ring]
  have jh : (o.join p).quad.height = sgn o.quad.height * M := by
    rw [← hM, ← hb]
    simp only [QuadObj.join, Quad.unitAxes, Pt.det, Pt.sub]
    rw [show (1 / 2 * |o.quad.height| : K) = |o.quad.height| / 2 by ring]
  have jc : (o.join p).quad.center =
      ⟨o.quad.center.x + -sgn (-a) * (W / 2 - o.quad.width / 2) * o.quad.cos
        + sgn b * (M / 2 - |o.quad.height| / 2) * (o.quad.shear * o.quad.cos - o.quad.sin),
       o.quad.center.y + -sgn (-a) * (W / 2 - o.quad.width / 2) * o.quad.sin
        + sgn b * (M / 2 - |o.quad.height| / 2) * (o.quad.shear * o.quad.sin + o.quad.cos)⟩ := by
    have : (o.join p).quad.center =
        ⟨o.quad.center.x + -(1 / 2) * sgn (-a) * ((o.join p).quad.width - o.quad.width) * o.quad.cos
          + 1 / 2 * sgn b * sgn o.quad.height * ((o.join p).quad.height - o.quad.height) *
            (o.quad.shear * o.quad.cos - o.quad.sin),
         o.quad.center.y + -(1 / 2) * sgn (-a) * ((o.join p).quad.width - o.quad.width) * o.quad.sin
          + 1 / 2 * sgn b * sgn o.quad.height * ((o.join p).quad.height - o.quad.height) *
            (o.quad.shear * o.quad.sin + o.quad.cos)⟩ := by
      rw [← hv, ← hb]
      simp only [QuadObj.join, Quad.unitAxes, Pt.det, Pt.dot, Pt.sub, Pt.add, Pt.smul]
    rw [this, jw, jh]
    have hk : sgn o.quad.height * (sgn o.quad.height * M - o.quad.height) = M - |o.quad.height| := by
      linear_combination M * sh2 - sh
    ext
    · simp only
      linear_combination (1 / 2 * sgn b * (o.quad.shear * o.quad.cos - o.quad.sin)) * hk
    · simp only
      linear_combination (1 / 2 * sgn b * (o.quad.shear * o.quad.sin + o.quad.cos)) * hk
  have jhabs : |(o.join p).quad.height| = M := by
    rw [jh, abs_mul, abs_of_nonneg M0]
    have : |sgn o.quad.height| = 1 := by
      unfold sgn; split_ifs <;> simp
    rw [this, one_mul]
  have jcos : (o.join p).quad.cos = o.quad.cos := rfl
  have jsin : (o.join p).quad.sin = o.quad.sin := rfl
  have jk : (o.join p).quad.shear = o.quad.shear := rfl
  -- coordinates in the new quad
  generalize hg : sgn b * (M / 2 - |o.quad.height| / 2) = g at *
  generalize hf : -sgn (-a) * (W / 2 - o.quad.width / 2) = f at *
  have coord : ∀ x : Pt K, ∀ α β : K,
      o.quad.cos * (x.y - o.quad.center.y) - o.quad.sin * (x.x - o.quad.center.x) = β →
      o.quad.cos * (x.x - o.quad.center.x) + o.quad.sin * (x.y - o.quad.center.y)
        - o.quad.shear * β = α →
      |β - g| ≤ M / 2 → |α - f| ≤ W / 2 → InQuad x (o.join p).quad := by
    intro x α β h1 h2 h3 h4
    rw [inQuad_coord _ _ hP, jcos, jsin, jk, jc, jw, jhabs]
    simp only
    have e1 : o.quad.cos * (x.y - (o.quad.center.y + f * o.quad.sin +
        g * (o.quad.shear * o.quad.sin + o.quad.cos))) - o.quad.sin * (x.x - (o.quad.center.x +
        f * o.quad.cos + g * (o.quad.shear * o.quad.cos - o.quad.sin))) = β - g := by
      linear_combination h1 - g * hc
    rw [e1]
    have e2 : o.quad.cos * (x.x - (o.quad.center.x + f * o.quad.cos +
        g * (o.quad.shear * o.quad.cos - o.quad.sin))) + o.quad.sin * (x.y - (o.quad.center.y +
        f * o.quad.sin + g * (o.quad.shear * o.quad.sin + o.quad.cos))) - o.quad.shear * (β - g)
        = α - f := by
      linear_combination h2 - (f + o.quad.shear * g) * hc
    rw [e2]
    exact ⟨h3, h4⟩
  refine ⟨coord p a b hb ha ah.1 aw.1, fun x hx => ?_, jcos, jsin, jk, ?_, ?_, ?_, ?_⟩
  · rw [inQuad_coord _ _ ⟨hw, hc⟩] at hx
    exact coord x _ _ rfl rfl (ah.2 _ hx.1) (aw.2 _ hx.2)
  · rw [jw, ← hW]; exact le_max_left _ _
  · rw [jhabs, ← hM]; exact le_max_left _ _
  · rw [jh]
    unfold sgn
    split_ifs with hn
    · have : 0 < M := by
        rw [← hM]; exact lt_of_lt_of_le (abs_pos.2 (ne_of_lt hn)) (le_max_left _ _)
      simp only [hn, true_iff]
      linarith
    · simp only [hn, false_iff]
      linarith
  · intro hin
    rw [inQuad_coord _ _ ⟨hw, hc⟩, hb, ha] at hin
    have eM : M = |o.quad.height| := by
      rw [← hM]; exact max_eq_left (by linarith [hin.1])
    have eW : W = o.quad.width := by
      rw [← hW]; exact max_eq_left (by linarith [hin.2])
    have g0 : g = 0 := by rw [← hg, eM]; ring
    have f0 : f = 0 := by rw [← hf, eW]; ring
    have e1 : (o.join p).quad.center = o.quad.center := by
      rw [jc, g0, f0]; ext <;> simp
    have e2 : (o.join p).quad.width = o.quad.width := by rw [jw, eW]
    have e3 : (o.join p).quad.height = o.quad.height := by
      rw [jh, eM, ← sh]
      linear_combination o.quad.height * sh2
    generalize (o.join p).quad = q' at *
    cases q'
    simp only at jcos jsin jk e1 e2 e3
    subst jcos jsin jk e1 e2 e3
    rfl

/-! ## Examples -/

/-- A magnitude exists over the reals. -/
example : IsMagnitude (K := ℝ) fun v => Real.sqrt (v.x * v.x + v.y * v.y) := fun v =>
  ⟨Real.sqrt_nonneg _, Real.mul_self_sqrt (by have := mul_self_nonneg v.x; have := mul_self_nonneg v.y; linarith)⟩

/-- A transform that can be inverted and one that cannot. -/
example : (⟨2, 1, 5, 1, 1, 7⟩ : Affine ℚ).inverse = some ⟨1, -1, 2, -1, 2, -9⟩ ∧
    (⟨2, 1, 5, 4, 2, 7⟩ : Affine ℚ).inverse = none := by decide +kernel

/-- `Find` on triangles with and without area. -/
example : (Affine.findTriangle (K := ℚ) ⟨⟨0, 0⟩, ⟨1, 0⟩, ⟨0, 1⟩⟩ ⟨⟨2, 3⟩, ⟨4, 3⟩, ⟨2, 8⟩⟩).isSome ∧
    Affine.findTriangle (K := ℚ) ⟨⟨0, 0⟩, ⟨1, 1⟩, ⟨2, 2⟩⟩ ⟨⟨2, 3⟩, ⟨4, 3⟩, ⟨2, 8⟩⟩ = none := by
  decide +kernel

/-- A history of a rotated and sheared quad, with a negative width and a `Join`. -/
example : (((QuadObj.new (K := ℚ) ⟨1, 2⟩ 3 4 (3/5) (4/5) 2).run
    [.semiAxes, .setWidth (-7), .setHeight (-1), .semiAxes, .join ⟨10, -10⟩, .setCenter ⟨0, 1⟩]).quad.width
      = 281 / 10) := by decide +kernel

end Verif.Geo
