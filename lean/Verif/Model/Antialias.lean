import Verif.Model.DerivativeCalculator
import Mathlib.Analysis.SpecialFunctions.Complex.Arg

/-!
# Model of the anti-aliasing and of the colours of the shaders, in real arithmetic

From `ink/rendering/skia/common_internal/sksl_vertex_shader_helper_functions.h`, `sksl_common_shader_helper_functions.h`,
`sksl_fragment_shader_helper_functions.h` and the main functions in `mesh_specification_data.cc`. Numbers are real numbers: there is no
rounding, no NaN and no infinity. `none` is a division by 0, whose result the shading language leaves open. The attributes are those after
unpacking, which is modelled in `Model/Shader.lean`.
-/

set_option autoImplicit false

namespace Verif.Antialias

open Geo Verif.Derivative

/-- SkSL `saturate` -/
noncomputable def saturate (x : ℝ) : ℝ := max 0 (min 1 x)

/-- SkSL `mix` -/
noncomputable def mix (x y a : ℝ) : ℝ := x * (1 - a) + y * a

/-- SkSL `step` -/
noncomputable def step (edge x : ℝ) : ℝ := if x < edge then 0 else 1

/-- SkSL `sign` -/
noncomputable def sign (x : ℝ) : ℝ := if x < 0 then -1 else if x = 0 then 0 else 1

/-- SkSL: a boolean as a number -/
noncomputable def number (p : Prop) [Decidable p] : ℝ := if p then 1 else 0

/-- SkSL `dot` -/
def dot (v w : Pt ℝ) : ℝ := v.x * w.x + v.y * w.y

/-- SkSL `length` -/
noncomputable def len (v : Pt ℝ) : ℝ := Real.sqrt (dot v v)

/-- SkSL `mat2`: `m00` and `m01` are the first column. -/
structure Mat2 where
  m00 : ℝ
  m01 : ℝ
  m10 : ℝ
  m11 : ℝ

/-- SkSL: a matrix times a vector -/
def Mat2.mul (m : Mat2) (v : Pt ℝ) : Pt ℝ := ⟨m.m00 * v.x + m.m10 * v.y, m.m01 * v.x + m.m11 * v.y⟩

/-- sksl_vertex_shader_helper_functions.h:46-48 `matrixDeterminant` -/
def Mat2.det (m : Mat2) : ℝ := m.m00 * m.m11 - m.m10 * m.m01

/-- sksl_vertex_shader_helper_functions.h:52 `orthogonal` -/
def orthogonal (v : Pt ℝ) : Pt ℝ := ⟨-v.y, v.x⟩

/-- sksl_common_shader_helper_functions.h:49-51 `targetAntialiasingPixelOutset` -/
noncomputable def target (width : ℝ) : ℝ := mix 0.5 0.707107 (saturate (2 * (width - 0.5)))

/-- sksl_vertex_shader_helper_functions.h:105-107 `decodeMargins`, of one label -/
noncomputable def decodeMargin (label : ℝ) : ℝ := 4 / 126 * max (|label| - 1) 0

/-- Four numbers for the left, right, front and back edge -/
structure Edges where
  left : ℝ
  right : ℝ
  front : ℝ
  back : ℝ

/-- What the vertex shader gives to the fragment shader, in part: `pixelsPerDimension`, `normalizedToEdgeLRFB` and `outsetPixelsLRFB` -/
structure Varyings where
  side : ℝ
  forward : ℝ
  toEdge : Edges
  outset : Edges

/-- sksl_vertex_shader_helper_functions.h:205-213: `pixelsPerDimension`, of one derivative -/
noncomputable def pixels (m : Mat2) (v : Pt ℝ) : ℝ := |m.det| * dot v v / max 0.000001 (len (m.mul (orthogonal v)))

/-- sksl_vertex_shader_helper_functions.h:195-239 `calculateAntialiasingAndPositionOutset` -/
noncomputable def calculate (v : Vertex) (m : Mat2) : Option (Pt ℝ × Varyings) :=
  let side := pixels m v.sideDerivative
  let forward := pixels m v.forwardDerivative
  let toEdge : Edges := ⟨number (v.sideLabel > -0.005), number (v.sideLabel < 0.005), number (v.forwardLabel > -0.005), number (v.forwardLabel < 0.005)⟩
  if side = 0 ∨ forward = 0 then none
  else
    let target := target side
    let sideTarget := target / side
    let forwardTarget := target / forward
    let sideOut := mix sideTarget (min sideTarget (decodeMargin v.sideLabel)) (saturate (4 * side - 1))
    let forwardOut := min forwardTarget (decodeMargin v.forwardLabel)
    let outset : Edges := ⟨target * (1 - toEdge.left) * (sideOut / sideTarget), target * (1 - toEdge.right) * (sideOut / sideTarget),
      target * (1 - toEdge.front) * (forwardOut / forwardTarget), target * (1 - toEdge.back) * (forwardOut / forwardTarget)⟩
    let s := Pt.smul (sign v.sideLabel * sideOut) v.sideDerivative
    let f := Pt.smul (sign v.forwardLabel * forwardOut) v.forwardDerivative
    let common := saturate (dot s f / max 0.000001 (dot f f))
    some (s.add (Pt.smul (1 - common) f), ⟨side, forward, toEdge, outset⟩)

/-- sksl_fragment_shader_helper_functions.h:85-101 `simulatedPixelCoverage`, of one dimension: `a` and `b` are the distances to the two
edges and `p` and `q` the outsets -/
noncomputable def coverageOf (target width a b p q : ℝ) : ℝ :=
  let adjusted := width + min (p / max (1 - a) 0.000001) target + min (q / max (1 - b) 0.000001) target
  let toA := saturate (adjusted * a / (2 * target))
  let toB := saturate (adjusted * b / (2 * target))
  mix (max (toA + toB - 1) 0) 1 (step 1.9999 (a + b))

/-- sksl_fragment_shader_helper_functions.h:85-101 `simulatedPixelCoverage` -/
noncomputable def coverage (v : Varyings) : ℝ :=
  coverageOf (target v.side) v.side v.toEdge.left v.toEdge.right v.outset.left v.outset.right *
    coverageOf (target v.side) v.forward v.toEdge.front v.toEdge.back v.outset.front v.outset.back

/-- A colour with four components -/
structure Color where
  r : ℝ
  g : ℝ
  b : ℝ
  a : ℝ

/-- sksl_vertex_shader_helper_functions.h:57-59 `applyOpacityShift` -/
noncomputable def applyOpacityShift (shift base : ℝ) : ℝ := saturate ((shift + 1) * base)

/-- sksl_vertex_shader_helper_functions.h:73-95 `applyHSLAndOpacityShift`; `atan` of two arguments is the argument of a complex number,
which is 0 for 0, where the shading language leaves it open -/
noncomputable def applyShift (h s l opacity : ℝ) (c : Color) : Color :=
  let y := c.r * 0.299 + c.g * 0.587 + c.b * 0.114
  let i := c.r * 0.596 + c.g * -0.275 + c.b * -0.321
  let q := c.r * 0.212 + c.g * -0.523 + c.b * 0.311
  let hue := Complex.arg ⟨i, q⟩
  let chroma := Real.sqrt (i * i + q * q)
  let hue := hue - h * (2 * Real.pi)
  let chroma := chroma * (s + 1)
  let y := y + l
  let i := chroma * Real.cos hue
  let q := chroma * Real.sin hue
  ⟨y * 1 + i * 0.956 + q * 0.621, y * 1 + i * -0.272 + q * -0.647, y * 1 + i * -1.107 + q * 1.704, applyOpacityShift opacity c.a⟩

/-- mesh_specification_data.cc:118-121 and 463-468: the colour of a vertex, premultiplied -/
noncomputable def vertexColor (h s l opacity : ℝ) (brush : Color) : Color :=
  let c := applyShift h s l opacity brush
  ⟨c.r * c.a, c.g * c.a, c.b * c.a, c.a⟩

/-- mesh_specification_data.cc:469-472: the colour of a vertex without a shift of hue, saturation or luminosity -/
noncomputable def vertexColorWithout (opacity : ℝ) (brush : Color) : Color :=
  let a := applyOpacityShift opacity brush.a
  ⟨brush.r * a, brush.g * a, brush.b * a, a⟩

/-- mesh_specification_data.cc:52-59: the colour of a fragment -/
noncomputable def fragmentColor (color : Color) (v : Varyings) : Color :=
  let k := coverage v
  ⟨color.r * k, color.g * k, color.b * k, color.a * k⟩

end Verif.Antialias
