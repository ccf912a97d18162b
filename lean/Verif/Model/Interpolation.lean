import Verif.Model.BrushBehavior
import Verif.Model.Circle
import Verif.Model.Color
import Verif.Model.ExtrusionPoints
import Verif.Model.VecF32

/-!
# Model of interpolation

From `ink/geometry/internal/algorithms.{h,cc}`: interpolation of numbers, vectors, colours and angles in binary32 (`Lerp` and `InverseLerp` of numbers
are in `Model/Easing.lean`, `Lerp` and `NormalizedAngleLerp` of angles in `Model/BrushBehavior.lean`), and `SpiralLerp` and `NormalizedAngleLerp` in
real numbers, with vectors as in `Model/Circle.lean`.
-/

set_option autoImplicit false

namespace Verif

open F32

/-- algorithms.cc:123-125 `Lerp(Vec, Vec, float)` -/
def lerpVec (a b : F32 × F32) (t : F32) : F32 × F32 := (lerpF a.1 b.1 t, lerpF a.2 b.2 t)

/-- algorithms.cc:112-115: one component of a colour -/
def lerpComponent (a b t : F32) : F32 := add (mul a (sub VecF.one t)) (mul b t)

/-- algorithms.cc:110-116 `Lerp(Color::RgbaFloat, Color::RgbaFloat, float)` -/
def lerpColor (a b : RgbaFloat) (t : F32) : RgbaFloat :=
  ⟨lerpComponent a.r b.r t, lerpComponent a.g b.g t, lerpComponent a.b b.b t, lerpComponent a.a b.a t⟩

/-- algorithms.cc:136-140 `LinearMap` -/
def linearMap (value : F32) (input output : F32 × F32) : F32 := lerpF output.1 output.2 (inverseLerpF input.1 input.2 value)

namespace RealGeom

/-- algorithms.cc:118 `Lerp(Angle, Angle, float)`, in real numbers -/
noncomputable def Angle.lerp (a b t : ℝ) : ℝ := (1 - t) * a + t * b

/-- algorithms.cc:119-121 `NormalizedAngleLerp`, in real numbers -/
noncomputable def Angle.normalizedLerp (a b t : ℝ) : ℝ := Angle.normalized (a + Angle.lerp 0 (Angle.normalizedAboutZero (b - a)) t)

open Classical in
/-- algorithms.cc:54-63 `SpiralLerp` -/
noncomputable def Vec.spiralLerp (a b : ℂ) (t : ℝ) : ℂ :=
  if t = 0 then a
  else if t = 1 then b
  else
    let direction := Vec.direction a + t * Vec.signedAngleBetween a b
    let magnitude := (1 - t) * Vec.magnitude a + t * Vec.magnitude b
    Vec.fromDirectionAndMagnitude direction magnitude

end RealGeom

end Verif
