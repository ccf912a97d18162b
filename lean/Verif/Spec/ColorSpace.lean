import Verif.Model.ColorSpace

/-!
# Specification of the gamma curve and of the change of primaries
-/

set_option autoImplicit false

namespace Verif.ColorCurve.Spec

/-- The electro-optical transfer function of sRGB, as published. -/
noncomputable def eotf (j : ℝ) : ℝ := if j ≤ 0.04045 then j / 12.92 else ((j + 0.055) / 1.055) ^ (2.4 : ℝ)

/-- The parametric curve of type 3 of the ICC, with parameters in the order a, b, c, d, g. -/
noncomputable def icc3 (a b c d g x : ℝ) : ℝ := if d ≤ x then (a * x + b) ^ g else c * x

/-- All components of a colour differ by no more than `d`, and the opacity is the same. -/
def Near (d : ℝ) (c e : Rgba) : Prop := |c.r - e.r| ≤ d ∧ |c.g - e.g| ≤ d ∧ |c.b - e.b| ≤ d ∧ c.a = e.a

/-- All components are from `-d` to `1 + d`. -/
def InGamut (d : ℝ) (c : Rgba) : Prop := (-d ≤ c.r ∧ c.r ≤ 1 + d) ∧ (-d ≤ c.g ∧ c.g ≤ 1 + d) ∧ (-d ≤ c.b ∧ c.b ≤ 1 + d)

/-- The coordinates in XYZ that nine entries give to a colour, if these are the columns of a matrix. -/
noncomputable def byColumns (m : List ℝ) (r g b : ℝ) : ℝ × ℝ × ℝ :=
  (m.getD 0 0 * r + m.getD 3 0 * g + m.getD 6 0 * b, m.getD 1 0 * r + m.getD 4 0 * g + m.getD 7 0 * b, m.getD 2 0 * r + m.getD 5 0 * g + m.getD 8 0 * b)

/-- The same if they are its rows. -/
noncomputable def byRows (m : List ℝ) (r g b : ℝ) : ℝ × ℝ × ℝ :=
  (m.getD 0 0 * r + m.getD 1 0 * g + m.getD 2 0 * b, m.getD 3 0 * r + m.getD 4 0 * g + m.getD 5 0 * b, m.getD 6 0 * r + m.getD 7 0 * g + m.getD 8 0 * b)

/-- Coordinates in XYZ have the chromaticity `x`, `y`, up to 10^-15. -/
def Chromaticity (x y : ℝ) (p : ℝ × ℝ × ℝ) : Prop :=
  |p.1 - x * (p.1 + p.2.1 + p.2.2)| ≤ 1 / 10 ^ 15 ∧ |p.2.1 - y * (p.1 + p.2.1 + p.2.2)| ≤ 1 / 10 ^ 15

/-- The published chromaticities of the red, the green and the blue of a space. -/
noncomputable def primaries : ColorSpace → (ℝ × ℝ) × (ℝ × ℝ) × (ℝ × ℝ)
  | .srgb => ((0.64, 0.33), (0.3, 0.6), (0.15, 0.06))
  | .displayP3 => ((0.68, 0.32), (0.265, 0.69), (0.15, 0.06))

/-- `x` is a finite number near `y`, up to a millionth of it, or next to 0. -/
def Close (x : F32) (y : ℝ) : Prop := x.isFinite = true ∧ |(x.toRat : ℝ) - y| ≤ |y| / 1000000 + 1 / 10 ^ 30

/-- Curves in binary32 that are close to those in real numbers, for numbers from -1 to 2. -/
def CloseCurves (E : ColorEnv) : Prop :=
  ∀ (x : F32) (s : ColorSpace), x.isFinite = true → -1 ≤ x.toRat → x.toRat ≤ 2 →
    Close (E.decode x s) (gammaDecode x.toRat) ∧ Close (E.encode x s) (gammaEncode x.toRat)

end Verif.ColorCurve.Spec
