import Verif.Model.Antialias
import Mathlib.Analysis.SpecialFunctions.Trigonometric.Basic

/-!
# Specification of the colours of vertices and fragments

Only the data of the model are used: colours.
-/

set_option autoImplicit false

namespace Verif.Antialias.Spec

/-- The luma of a colour, by the weights of Rec. 601. -/
noncomputable def luma (c : Color) : ℝ := 0.299 * c.r + 0.587 * c.g + 0.114 * c.b

/-- The two coordinates of the chroma of a colour, as a complex number: the angle is its hue and the length its saturation. -/
noncomputable def chroma (c : Color) : ℂ := ⟨0.596 * c.r - 0.275 * c.g - 0.321 * c.b, 0.212 * c.r - 0.523 * c.g + 0.311 * c.b⟩

/-- The colour with a luma and a chroma. -/
noncomputable def ofLumaChroma (y : ℝ) (z : ℂ) (a : ℝ) : Color := ⟨y + 0.956 * z.re + 0.621 * z.im, y - 0.272 * z.re - 0.647 * z.im, y - 1.107 * z.re + 1.704 * z.im, a⟩

/-- A number moved into the range from 0 to 1. -/
noncomputable def clip (x : ℝ) : ℝ := if x < 0 then 0 else if 1 < x then 1 else x

/-- All components are from 0 to 1. -/
def InRange (c : Color) : Prop := (0 ≤ c.r ∧ c.r ≤ 1) ∧ (0 ≤ c.g ∧ c.g ≤ 1) ∧ (0 ≤ c.b ∧ c.b ≤ 1) ∧ 0 ≤ c.a ∧ c.a ≤ 1

/-- A premultiplied colour of the range: no component is less than 0 or above the opacity, which is at most 1. -/
def Premultiplied (c : Color) : Prop := (0 ≤ c.r ∧ c.r ≤ c.a) ∧ (0 ≤ c.g ∧ c.g ≤ c.a) ∧ (0 ≤ c.b ∧ c.b ≤ c.a) ∧ c.a ≤ 1

/-- Components that differ by no more than `d`. -/
def Near (d : ℝ) (c e : Color) : Prop := |c.r - e.r| ≤ d ∧ |c.g - e.g| ≤ d ∧ |c.b - e.b| ≤ d ∧ c.a = e.a

end Verif.Antialias.Spec
