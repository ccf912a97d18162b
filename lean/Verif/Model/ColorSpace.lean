import Verif.Model.Color
import Mathlib.Analysis.SpecialFunctions.Pow.Real

/-!
# Model of the gamma curve and of the change of primaries, in real arithmetic

From `ink/color/color_space.cc`. Constants are the decimal numbers of the source and `std::pow` is the power of real numbers; there is no
rounding to `double` or `float`, no NaN and no infinity. In `Model/Color.lean` these functions are parameters.
-/

set_option autoImplicit false

namespace Verif.ColorCurve

/-- color_space.cc:35 -/
noncomputable def kSrgbA : ℝ := 1 / 1.055
/-- color_space.cc:36 -/
noncomputable def kSrgbB : ℝ := 0.055 / 1.055
/-- color_space.cc:37 -/
noncomputable def kSrgbC : ℝ := 1 / 12.92
/-- color_space.cc:38 -/
noncomputable def kSrgbD : ℝ := 0.04045
/-- color_space.cc:39 -/
noncomputable def kSrgbG : ℝ := 2.4

/-- color_space.cc:95-109 `GammaDecode`; the two spaces have the same curve -/
noncomputable def gammaDecode (encoded : ℝ) : ℝ := if encoded < kSrgbD then kSrgbC * encoded else (kSrgbA * encoded + kSrgbB) ^ kSrgbG

/-- color_space.cc:111-125 `GammaEncode` -/
noncomputable def gammaEncode (linear : ℝ) : ℝ :=
  if linear < kSrgbC * kSrgbD then linear / kSrgbC else (linear ^ (1 / kSrgbG) - kSrgbB) / kSrgbA

/-- `std::array<double, 9>`: the entries of a matrix, column by column -/
structure Mat3 where
  e0 : ℝ
  e1 : ℝ
  e2 : ℝ
  e3 : ℝ
  e4 : ℝ
  e5 : ℝ
  e6 : ℝ
  e7 : ℝ
  e8 : ℝ

/-- color_space.cc:52-55 -/
noncomputable def kSrgbToXyzD65 : Mat3 :=
  ⟨0.4123865632529916, 0.2126368216773238, 0.0193306201524840, 0.3575914909206254, 0.7151829818412507, 0.1191971636402085,
    0.1804504912035637, 0.0721801964814255, 0.9503725870054357⟩

/-- color_space.cc:56-59 -/
noncomputable def kXyzD65ToSrgb : Mat3 :=
  ⟨3.2410032329763610, -0.9692242522025170, 0.0556394198519755, -1.5373989694887868, 1.8759299836951764, -0.2040112061239100,
    -0.4986158819963633, 0.0415542263400848, 1.0571489771875330⟩

/-- color_space.cc:60-63 -/
noncomputable def kDisplayP3ToXyzD65 : Mat3 :=
  ⟨0.4865685656607022, 0.2289734426638599, 0.0000000000000000, 0.2656727394591274, 0.6917516612331996, 0.0451142387760782,
    0.1981872402573512, 0.0792748961029405, 1.0437861320220500⟩

/-- color_space.cc:64-67 -/
noncomputable def kXyzD65ToDisplayP3 : Mat3 :=
  ⟨2.4935091239346090, -0.8294732139295545, 0.0358512644339180, -0.9313881794047785, 1.7626305796003034, -0.0761839369220757,
    -0.4027127567416515, 0.0236242371055886, 0.9570295866943107⟩

/-- color_space.cc:69-79 `GetFromXyzD65` -/
noncomputable def fromXyz : ColorSpace → Mat3
  | .srgb => kXyzD65ToSrgb
  | .displayP3 => kXyzD65ToDisplayP3

/-- color_space.cc:81-91 `GetToXyzD65` -/
noncomputable def toXyz : ColorSpace → Mat3
  | .srgb => kSrgbToXyzD65
  | .displayP3 => kDisplayP3ToXyzD65

/-- color_space.cc:130-141 `MultMat3ByMat3` -/
def Mat3.mul (a b : Mat3) : Mat3 :=
  ⟨a.e0 * b.e0 + a.e3 * b.e1 + a.e6 * b.e2, a.e1 * b.e0 + a.e4 * b.e1 + a.e7 * b.e2, a.e2 * b.e0 + a.e5 * b.e1 + a.e8 * b.e2,
    a.e0 * b.e3 + a.e3 * b.e4 + a.e6 * b.e5, a.e1 * b.e3 + a.e4 * b.e4 + a.e7 * b.e5, a.e2 * b.e3 + a.e5 * b.e4 + a.e8 * b.e5,
    a.e0 * b.e6 + a.e3 * b.e7 + a.e6 * b.e8, a.e1 * b.e6 + a.e4 * b.e7 + a.e7 * b.e8, a.e2 * b.e6 + a.e5 * b.e7 + a.e8 * b.e8⟩

/-- `std::array<float, 4>`: red, green, blue and opacity -/
structure Rgba where
  r : ℝ
  g : ℝ
  b : ℝ
  a : ℝ

/-- color_space.cc:145-150 `MultMat3ByVec4` -/
def Mat3.apply (m : Mat3) (v : Rgba) : Rgba :=
  ⟨m.e0 * v.r + m.e3 * v.g + m.e6 * v.b, m.e1 * v.r + m.e4 * v.g + m.e7 * v.b, m.e2 * v.r + m.e5 * v.g + m.e8 * v.b, v.a⟩

/-- color_space.cc:157-166 `ConvertColor` -/
noncomputable def convertColor (c : Rgba) (source target : ColorSpace) : Rgba :=
  if source = target then c else ((fromXyz target).mul (toXyz source)).apply c

/-- color_space.h `MatrixLayout` -/
inductive MatrixLayout | columnMajor | rowMajor

/-- color_space.cc:152-153 `kRowMajorToColumnMajorIndexMap` and the loops that use it -/
def Mat3.entries (m : Mat3) : MatrixLayout → List ℝ
  | .columnMajor => [m.e0, m.e1, m.e2, m.e3, m.e4, m.e5, m.e6, m.e7, m.e8]
  | .rowMajor => [0, 3, 6, 1, 4, 7, 2, 5, 8].map fun i : ℕ => [m.e0, m.e1, m.e2, m.e3, m.e4, m.e5, m.e6, m.e7, m.e8].getD i 0

/-- color_space.cc:180-200 `GetColorSpaceToXyzD65Matrix` -/
noncomputable def colorSpaceToXyz (s : ColorSpace) (l : MatrixLayout) : List ℝ := (toXyz s).entries l

/-- color_space.cc:202-222 `GetXyzD65ToColorSpaceMatrix` -/
noncomputable def xyzToColorSpace (s : ColorSpace) (l : MatrixLayout) : List ℝ := (fromXyz s).entries l

/-- color_space.cc:168-178 `GetGammaDecodingParameters` -/
noncomputable def gammaDecodingParameters : List ℝ := [kSrgbA, kSrgbB, kSrgbC, kSrgbD, kSrgbG]

end Verif.ColorCurve
