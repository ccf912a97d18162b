import Verif.Model.Mesh
import Verif.Model.StrokeVertex

/-!
# Model of the decoding of vertices by the Skia renderer

From `ink/rendering/skia/common_internal/mesh_specification_data.{h,cc}`,
`ink/rendering/skia/common_internal/sksl_vertex_shader_helper_functions.h`,
`ink/rendering/skia/native/internal/mesh_uniform_data.cc`, `ink/rendering/skia/native/skia_renderer.cc`
and `ink/strokes/internal/stroke_vertex.cc`.

The shader's arithmetic on `float` is binary32 with rounding to nearest. What the graphics hardware does
before the shader starts is modelled from the description of the attribute types: an attribute starts
`offset` bytes after the start of the vertex; a `kFloat2` or `kFloat3` is a number of `float`s in memory, a
`kUByte4` four bytes, each of which reaches the shader as a number in [0, 1] that stands for `b / 255`.
How exactly it stands for it (the type is `half`) is a parameter `unorm` of the functions. Names of
attributes, varyings and uniforms, and the rest of the shader, are not modelled. `none` is an error
status, a failed check, or an access out of range.
-/

set_option autoImplicit false

namespace Verif.Shader

open Verif Verif.F32 Verif.Mesh

/-! ## The specification of the vertex attributes -/

/-- mesh_specification_data.h:56-60 `AttributeType` -/
inductive Kind where
  | float2 | float3 | ubyte4
  deriving DecidableEq

/-- mesh_specification_data.h:89-93 `Attribute`, without the name. -/
structure Attr where
  kind : Kind
  offset : Nat
  deriving DecidableEq

/-- stroke_vertex.h:125-140 `FormatAttributeIndices`; -1 is `none`. -/
structure Indices where
  position : Option Nat := none
  opacityShift : Option Nat := none
  hslShift : Option Nat := none
  sideDerivative : Option Nat := none
  sideLabel : Option Nat := none
  forwardDerivative : Option Nat := none
  forwardLabel : Option Nat := none
  surfaceUv : Option Nat := none
  deriving DecidableEq

/-- stroke_vertex.cc:235-262, the body of the loop of `FindAttributeIndices`. The ids are the codes of
mesh_format.h:160-180. -/
def addIndex (x : Indices) (id i : Nat) : Indices :=
  if id = 0 then { x with position := some i }
  else if id = 2 then { x with opacityShift := some i }
  else if id = 1 then { x with hslShift := some i }
  else if id = 4 then { x with sideDerivative := some i }
  else if id = 5 then { x with sideLabel := some i }
  else if id = 6 then { x with forwardDerivative := some i }
  else if id = 7 then { x with forwardLabel := some i }
  else if id = 8 then { x with surfaceUv := some i }
  else x

/-- stroke_vertex.cc:234-263, the loop, from index `i` on. -/
def indicesFrom : Nat → List Attribute → Indices → Indices
  | _, [], x => x
  | i, a :: as, x => indicesFrom (i + 1) as (addIndex x a.id i)

/-- stroke_vertex.cc:230-265 `FindAttributeIndices` -/
def findIndices (f : MeshFormat) : Indices := indicesFrom 0 f.attributes {}

/-- mesh_specification_data.cc:211-224 `FindTypeForPositionAndOpacityShift` -/
def positionAndOpacityKind : AttrType → AttrType → Option Kind
  | .f2In1Float, .f1Unpacked => some .float2
  | .f2In3Bytes, .f1In1Byte => some .ubyte4
  | _, _ => none

/-- mesh_specification_data.cc:228-238 `FindTypeForHslShift` -/
def hslKind : AttrType → Option Kind
  | .f3Unpacked => some .float3
  | .f3In4Bytes => some .ubyte4
  | _ => none

/-- mesh_specification_data.cc:242-255 `FindTypeForDerivativeAndLabel` -/
def derivativeAndLabelKind : AttrType → AttrType → Option Kind
  | .f2Unpacked, .f1Unpacked => some .float3
  | .f2In3Bytes, .f1In1Byte => some .ubyte4
  | _, _ => none

/-- mesh_specification_data.cc:259-269 `FindTypeForSurfaceUv` -/
def surfaceUvKind : AttrType → Option Kind
  | .f2Unpacked => some .float2
  | .f2In4Bytes => some .ubyte4
  | _ => none

/-- The attributes of a `MeshSpecificationData` for strokes, by name, and the vertex stride. -/
structure StrokeSpec where
  positionAndOpacity : Attr
  hsl : Option Attr
  side : Attr
  forward : Attr
  uv : Option Attr
  stride : Nat
  deriving DecidableEq

/-- mesh_specification_data.cc:316-333, 353-370 and 374-392: an attribute and the label or shift that must
come right after it. -/
def pairAttr (kind : AttrType → AttrType → Option Kind) (as : List Attribute) (i j : Option Nat) :
    Option Attr := do
  let i ← i
  let j ← j
  if i + 1 ≠ j then none
  else
    let a ← as[i]?
    let b ← as[j]?
    let k ← kind a.type b.type
    some ⟨k, a.packedOffset⟩

/-- mesh_specification_data.cc:337-349 and 396-407: an attribute that may be missing. -/
def optionalAttr (kind : AttrType → Option Kind) (as : List Attribute) :
    Option Nat → Option (Option Attr)
  | none => some none
  | some i => do
    let a ← as[i]?
    let k ← kind a.type
    some (some ⟨k, a.packedOffset⟩)

/-- mesh_specification_data.cc:288-410, 414-548 `GetValidatedStrokeAttributeTypesAndOffsets` and
`CreateForStroke` -/
def createForStroke (f : MeshFormat) : Option StrokeSpec := do
  let x := findIndices f
  let p ← pairAttr positionAndOpacityKind f.attributes x.position x.opacityShift
  let h ← optionalAttr hslKind f.attributes x.hslShift
  let s ← pairAttr derivativeAndLabelKind f.attributes x.sideDerivative x.sideLabel
  let w ← pairAttr derivativeAndLabelKind f.attributes x.forwardDerivative x.forwardLabel
  let u ← optionalAttr surfaceUvKind f.attributes x.surfaceUv
  some { positionAndOpacity := p, hsl := h, side := s, forward := w, uv := u, stride := f.packedStride }

/-! ## What the shader gets -/

/-- A value of an attribute in the shader: `float2`, `float3` or `half4`. -/
inductive Val where
  | floats (l : List F32)
  | unorms (x y z w : F32)
  deriving DecidableEq

/-- The value of an attribute of vertex `i` of a vertex buffer. -/
def fetch (unorm : Nat → F32) (data : List Nat) (stride : Nat) (a : Attr) (i : Nat) : Option Val :=
  match a.kind with
  | .float2 => do
    let bs ← readBytes (i * stride + a.offset) 8 data
    let l ← floatsOfBytes 2 bs
    some (.floats l)
  | .float3 => do
    let bs ← readBytes (i * stride + a.offset) 12 data
    let l ← floatsOfBytes 3 bs
    some (.floats l)
  | .ubyte4 => do
    match ← readBytes (i * stride + a.offset) 4 data with
    | [x, y, z, w] => some (.unorms (unorm x) (unorm y) (unorm z) (unorm w))
    | _ => none

/-- A byte that reaches the shader as the `float` nearest to `b / 255`. -/
def unorm32 (b : Nat) : F32 := div (ofInt b) (ofInt 255)

/-- A `float4` uniform with an unpacking transform: offset and scale of both components. -/
structure Transform where
  x : F32
  y : F32
  z : F32
  w : F32
  deriving DecidableEq

/-- mesh_uniform_data.cc:103-111 `Copy2DUnpackingParams` -/
def copy2D : List Coding → Option Transform
  | [a, b] => some ⟨a.offset, a.scale, b.offset, b.scale⟩
  | _ => none

/-- The unpacking transforms among the uniforms; `none` is memory that has not been set. -/
structure Uniforms where
  position : Option Transform := none
  side : Option Transform := none
  forward : Option Transform := none
  deriving DecidableEq

/-- mesh_uniform_data.cc:73-87, 113-146: the body of the loop of `InitializeAttributeUnpackingTransforms`.
The specification of a stroke has all three uniforms (mesh_specification_data.cc:523-536). -/
def addTransform (u : Uniforms) (id : AttrId) (cs : Option (List Coding)) : Option Uniforms :=
  if id = 0 then do
    let t ← copy2D (← cs)
    some { u with position := some t }
  else if id = 4 then do
    let t ← copy2D (← cs)
    some { u with side := some t }
  else if id = 6 then do
    let t ← copy2D (← cs)
    some { u with forward := some t }
  else some u

/-- mesh_uniform_data.cc:129-147 `InitializeAttributeUnpackingTransforms`, from attribute `i` on. -/
def transformsFrom (params : List (List Coding)) : Nat → List Attribute → Uniforms → Option Uniforms
  | _, [], u => some u
  | i, a :: as, u => do
    let u ← addTransform u a.id params[i]?
    transformsFrom params (i + 1) as u

/-- skia_renderer.cc:236-244, the uniforms for a mesh. -/
def uniformsOf (m : Mesh) : Option Uniforms := transformsFrom m.unpackingParams 0 m.format.attributes {}

/-! ## The unpacking functions of the shader -/

/-- SkSL `fract` -/
def fract (x : F32) : F32 := sub x (ffloor x)

/-- sksl_vertex_shader_helper_functions.h:259 and 273: `unpackingTransform.yw * unpacked +
unpackingTransform.xz` -/
def applyTransform (t : Transform) (a b : F32) : F32 × F32 :=
  (add (mul t.y a) t.x, add (mul t.w b) t.z)

/-- sksl_vertex_shader_helper_functions.h:255-260 `unpackFloat2PackedIntoFloat` -/
def unpackFloat2PackedIntoFloat (t : Transform) (v : F32) : F32 × F32 :=
  applyTransform t (ffloor (div v (ofInt 4096))) (mul (fract (div v (ofInt 4096))) (ofInt 4096))

/-- sksl_vertex_shader_helper_functions.h:267-274 `unpackFloat2PackedIntoUByte3` -/
def unpackFloat2PackedIntoUByte3 (t : Transform) (x y z : F32) : F32 × F32 :=
  let mixedXY := mul (ofRat (255 / 16)) y
  applyTransform t (add (mul (ofInt 4080) x) (ffloor mixedXY))
    (add (mul (ofInt 4096) (fract mixedXY)) (mul (ofInt 255) z))

/-- sksl_vertex_shader_helper_functions.h:283-294 `unpackPositionAndOpacityShift` -/
def unpackPositionAndOpacityShift (t : Transform) : Val → Option (F32 × F32 × F32)
  | .floats [x, y] =>
    let p := unpackFloat2PackedIntoFloat t x
    some (p.1, p.2, y)
  | .floats _ => none
  | .unorms x y z w =>
    let p := unpackFloat2PackedIntoUByte3 t x y z
    some (p.1, p.2, sub (mul (div (ofInt 255) (ofInt 127)) w) (ofInt 1))

/-- sksl_vertex_shader_helper_functions.h:302-311 `unpackDerivativeAndLabel` -/
def unpackDerivativeAndLabel (t : Transform) : Val → Option (F32 × F32 × F32)
  | .floats [x, y, z] => some (x, y, z)
  | .floats _ => none
  | .unorms x y z w =>
    let p := unpackFloat2PackedIntoUByte3 t x y z
    some (p.1, p.2, sub (mul (ofInt 255) w) (ofInt 128))

/-- sksl_vertex_shader_helper_functions.h:319-330 `unpackHSLColorShift` -/
def unpackHSLColorShift : Val → Option (F32 × F32 × F32)
  | .floats [x, y, z] => some (x, y, z)
  | .floats _ => none
  | .unorms x y z w =>
    let mixedXY := mul (ofRat (255 / 64)) y
    let mixedYZ := mul (ofRat (255 / 16)) z
    let f := fun v => sub (div v (ofInt 511)) (ofInt 1)
    some (f (add (mul (ofInt 1020) x) (ffloor mixedXY)),
      f (add (mul (ofInt 1024) (fract mixedXY)) (ffloor mixedYZ)),
      f (add (mul (ofInt 1024) (fract mixedYZ)) (mul (ofRat (255 / 4)) w)))

/-- sksl_vertex_shader_helper_functions.h:338-347 `unpackSurfaceUv` -/
def unpackSurfaceUv : Val → Option (F32 × F32)
  | .floats [x, y] => some (x, y)
  | .floats _ => none
  | .unorms x y z w =>
    let mixedXY := mul (ofRat (255 / 16)) y
    some (div (add (mul (ofInt 4080) x) (ffloor mixedXY)) (ofInt 4095),
      div (add (add (mul (ofInt 1048576) (fract mixedXY)) (mul (ofInt 65280) z)) (mul (ofInt 255) w))
        (ofInt 1048575))

/-- sksl_vertex_shader_helper_functions.h:105-107 `decodeMargins`, one component; SkSL `max`. -/
def decodeMargin (label : F32) : F32 :=
  mul (div (ofInt 4) (ofInt 126)) (smax (sub (fabs label) (ofInt 1)) zero)

/-- What the vertex shader computes from the attributes of a vertex, before it uses the values. -/
structure Decoded where
  position : F32 × F32
  opacityShift : F32
  side : F32 × F32
  sideLabel : F32
  forward : F32 × F32
  forwardLabel : F32
  hsl : Option (F32 × F32 × F32)
  uv : Option (F32 × F32)
  deriving DecidableEq

/-- An optional attribute: `fetch` and unpack it. -/
def decodeOptional {α : Type} (unorm : Nat → F32) (data : List Nat) (stride i : Nat)
    (unpack : Val → Option α) : Option Attr → Option (Option α)
  | none => some none
  | some a => do
    let v ← fetch unorm data stride a i
    let r ← unpack v
    some (some r)

/-- mesh_specification_data.cc:446-482, the uses of attributes in `main` of the vertex shader for a
`Stroke`, for vertex `i`. -/
def decode (unorm : Nat → F32) (spec : StrokeSpec) (u : Uniforms) (data : List Nat) (i : Nat) :
    Option Decoded := do
  let p ← unpackPositionAndOpacityShift (← u.position)
    (← fetch unorm data spec.stride spec.positionAndOpacity i)
  let s ← unpackDerivativeAndLabel (← u.side) (← fetch unorm data spec.stride spec.side i)
  let w ← unpackDerivativeAndLabel (← u.forward) (← fetch unorm data spec.stride spec.forward i)
  let h ← decodeOptional unorm data spec.stride i unpackHSLColorShift spec.hsl
  let t ← decodeOptional unorm data spec.stride i unpackSurfaceUv spec.uv
  some { position := (p.1, p.2.1), opacityShift := p.2.2, side := (s.1, s.2.1), sideLabel := s.2.2,
         forward := (w.1, w.2.1), forwardLabel := w.2.2, hsl := h, uv := t }

/-- skia_renderer.cc:209-245, drawing the meshes of a render group: the specification is made for the
format of the group (`MeshSpecificationCache::GetForStroke`), which is that of all its meshes, and the
uniforms are those of the first mesh. The result is what the shader gets for vertex `i` of mesh `k`. -/
def drawGroup (unorm : Nat → F32) (meshes : List Mesh) (k i : Nat) : Option Decoded := do
  let first ← meshes[0]?
  let spec ← createForStroke first.format
  let u ← uniformsOf first
  let m ← meshes[k]?
  decode unorm spec u m.vertexData i

/-! ## The parameters that strokes are packed with -/

/-- stroke_vertex.cc:78-151 `GetCustomPackingParams` -/
def customPacking (t : AttrType) (id : AttrId) : Option (List Coding) :=
  if id = 2 then if t = .f1In1Byte then some [Vertex.opacityCoding] else none
  else if id = 1 then
    if t = .f3In4Bytes then some [Vertex.hslCoding, Vertex.hslCoding, Vertex.hslCoding] else none
  else if id = 5 ∨ id = 7 then if t = .f1In1Byte then some [Vertex.labelCoding] else none
  else if id = 8 then
    if t = .f2In4Bytes then some [Vertex.surfaceUCoding, Vertex.surfaceVCoding] else none
  else none

/-- stroke_vertex.cc:155-175 `MakeCustomPackingArray` -/
def customPackingArray (f : MeshFormat) (skipped : List AttrId) : List (Option (List Coding)) :=
  (f.attributes.filter fun a => !skipped.contains a.id).map fun a => customPacking a.type a.id

/-- stroke_vertex.cc:179-228 `FullMeshFormat` -/
def fullFormat : Option MeshFormat :=
  create [(.f2In3Bytes, 0), (.f1In1Byte, 2), (.f3In4Bytes, 1), (.f2In3Bytes, 4), (.f1In1Byte, 5),
    (.f2In3Bytes, 6), (.f1In1Byte, 7), (.f2In4Bytes, 8)] .unpacked32

/-! ## Strokes in progress -/

/-- mesh_specification_data.cc:91-205 `CreateForInProgressStroke`: the attributes, in order, and the
stride. The indices are those of `kFullFormatAttributeIndices` (stroke_vertex.h:166-178). -/
def inProgressSpec : Option (List Attr × Nat) := do
  let f ← fullFormat
  let p ← f.attributes[0]?
  let h ← f.attributes[2]?
  let s ← f.attributes[3]?
  let w ← f.attributes[5]?
  let u ← f.attributes[7]?
  some ([⟨.float3, p.unpackedOffset⟩, ⟨.float3, h.unpackedOffset⟩, ⟨.float3, s.unpackedOffset⟩,
    ⟨.float3, w.unpackedOffset⟩, ⟨.float2, u.unpackedOffset⟩], f.unpackedStride)

/-- mesh_specification_data.cc:106-127, 151-184: the values of the attributes that `main` of the vertex
shader for an `InProgressStroke` uses, for vertex `i` of a `MutableMesh`. -/
def decodeInProgress (m : MutableMesh) (i : Nat) : Option Decoded := do
  let f ← fullFormat
  if !formatEq m.format f then none
  else
    match ← inProgressSpec with
    | ([p, h, s, w, u], stride) => do
      match ← fetch unorm32 m.vertexData stride p i, ← fetch unorm32 m.vertexData stride h i,
          ← fetch unorm32 m.vertexData stride s i, ← fetch unorm32 m.vertexData stride w i,
          ← fetch unorm32 m.vertexData stride u i with
      | .floats [px, py, o], .floats [hx, hy, hz], .floats [sx, sy, sl], .floats [wx, wy, wl],
          .floats [ux, uy] =>
        some { position := (px, py), opacityShift := o, side := (sx, sy), sideLabel := sl,
               forward := (wx, wy), forwardLabel := wl, hsl := some (hx, hy, hz), uv := some (ux, uy) }
      | _, _, _, _, _ => none
    | _ => none

end Verif.Shader
