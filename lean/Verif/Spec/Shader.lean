import Verif.F32.Ops
import Verif.Spec.MeshPacking
import Verif.Model.Shader

/-!
# What a shader is supposed to see of a mesh

The values of the attributes of a vertex are those that `Mesh::FloatVertexAttribute` returns; attributes
are found by their identifiers. After the comments in
`ink/rendering/skia/common_internal/sksl_vertex_shader_helper_functions.h:233-347` and
`ink/rendering/skia/common_internal/mesh_specification_data.h:158-176`.
-/

set_option autoImplicit false

namespace Verif.Shader.Spec

open Verif Verif.Mesh Verif.Mesh.Spec Verif.Shader

/-- The value of the attribute with the identifier `id` at vertex `i`; `none` if there is no such
attribute. -/
def valueOf (m : Mesh) (i : Nat) (id : AttrId) : Option (List F32) :=
  (m.format.attributes.findIdx? fun a => a.id = id).bind (m.floatVertexAttribute i)

/-- The same float, or finite floats that differ by at most `ε`. -/
def Close (ε : ℚ) (x y : F32) : Prop :=
  x = y ∨ x.isFinite = true ∧ y.isFinite = true ∧ |F32.toRat x - F32.toRat y| ≤ ε

/-- What the shader computes from vertex `i` is the vertex: positions, derivatives and labels exactly,
shifts of the colour up to `2^-20`, texture coordinates up to `2^-22`. -/
structure Shows (m : Mesh) (i : Nat) (d : Decoded) : Prop where
  position : valueOf m i 0 = some [d.position.1, d.position.2]
  opacity : ∃ o, valueOf m i 2 = some [o] ∧ Close (1 / 2 ^ 20) d.opacityShift o
  side : valueOf m i 4 = some [d.side.1, d.side.2]
  sideLabel : valueOf m i 5 = some [d.sideLabel]
  forward : valueOf m i 6 = some [d.forward.1, d.forward.2]
  forwardLabel : valueOf m i 7 = some [d.forwardLabel]
  noHsl : d.hsl = none → valueOf m i 1 = none
  hsl : ∀ x y z, d.hsl = some (x, y, z) → ∃ h s l, valueOf m i 1 = some [h, s, l] ∧
    Close (1 / 2 ^ 20) x h ∧ Close (1 / 2 ^ 20) y s ∧ Close (1 / 2 ^ 20) z l
  noUv : d.uv = none → valueOf m i 8 = none
  uv : ∀ x y, d.uv = some (x, y) → ∃ u v, valueOf m i 8 = some [u, v] ∧
    Close (1 / 2 ^ 22) x u ∧ Close (1 / 2 ^ 22) y v

/-- The attributes `a` and `b`, with these pairs of types, one right after the other. -/
def Adjacent (attrs : List (AttrType × AttrId)) (a b : AttrId) (types : List (AttrType × AttrType)) :
    Prop :=
  ∃ j s t, attrs[j]? = some (s, a) ∧ attrs[j + 1]? = some (t, b) ∧ (s, t) ∈ types

/-- The attribute `a`, if there is one, has one of these types. -/
def OfType (attrs : List (AttrType × AttrId)) (a : AttrId) (types : List AttrType) : Prop :=
  ∀ t, (t, a) ∈ attrs → t ∈ types

/-- The formats that the shader for strokes supports. -/
structure Supported (attrs : List (AttrType × AttrId)) : Prop where
  position : Adjacent attrs 0 2 [(.f2In1Float, .f1Unpacked), (.f2In3Bytes, .f1In1Byte)]
  side : Adjacent attrs 4 5 [(.f2Unpacked, .f1Unpacked), (.f2In3Bytes, .f1In1Byte)]
  forward : Adjacent attrs 6 7 [(.f2Unpacked, .f1Unpacked), (.f2In3Bytes, .f1In1Byte)]
  hsl : OfType attrs 1 [.f3Unpacked, .f3In4Bytes]
  uv : OfType attrs 8 [.f2Unpacked, .f2In4Bytes]

/-- The parameters that the shader takes for granted, for attributes of these types and identifiers: the
offset and the divisor of each component, such that a value is `k / divisor + offset`. -/
def fixedParams (t : AttrType) (id : AttrId) : Option (List (ℤ × ℕ)) :=
  match t, id with
  | .f1In1Byte, 2 => some [(-1, 127)]
  | .f3In4Bytes, 1 => some [(-1, 511), (-1, 511), (-1, 511)]
  | .f1In1Byte, 5 => some [(-128, 1)]
  | .f1In1Byte, 7 => some [(-128, 1)]
  | .f2In4Bytes, 8 => some [(0, 4095), (0, 1048575)]
  | _, _ => none

/-- An offset and a divisor as coding parameters: the floats nearest to the offset and to the inverse of
the divisor. -/
def codingFor (p : ℤ × ℕ) : Coding := ⟨F32.ofInt p.1, F32.ofRat (1 / p.2)⟩

/-- The attributes of a vertex that the shader for strokes uses: position, shifts of hue, saturation and
luminosity, shift of opacity, side derivative and label, forward derivative and label, texture
coordinates. -/
def Used (id : AttrId) : Prop := id ∈ [0, 1, 2, 4, 5, 6, 7, 8]

/-- A mesh that can be drawn as a part of a stroke. For the attributes that the shader uses, there are
parameters for each component, those that the shader takes for granted are as it expects them, and each
packed value consists of integers in the range of its type. -/
structure Drawable (m : Mesh) : Prop where
  params : ∀ (j : Nat) (a : Attribute), m.format.attributes[j]? = some a → Used a.id →
    ∃ cs, m.unpackingParams[j]? = some cs ∧ cs.length = components a.type ∧
      ∀ ps, fixedParams a.type a.id = some ps → cs = ps.map codingFor
  stored : ∀ i < m.vertexCount, ∀ (j : Nat) (a : Attribute), m.format.attributes[j]? = some a →
    Used a.id → ∃ bs, m.packedVertexAttribute i j = some bs ∧
      (IsPacked a.type → ∃ ks, Fits a.type ks ∧ packIntegers a.type ks = some bs)

/-- The meshes use the same parameters for the attributes whose parameters are given to the shader. -/
def SameParams (m m' : Mesh) : Prop :=
  ∀ (j : Nat) (a : Attribute), m.format.attributes[j]? = some a → a.id = 0 ∨ a.id = 4 ∨ a.id = 6 →
    m.unpackingParams[j]? = m'.unpackingParams[j]?

/-- The exponent of `b / 255`: the least `k` such that `2^-k ≤ b / 255`. -/
def unormExponent (b : Nat) : Nat := ((List.range 9).find? fun k => 255 ≤ b * 2 ^ k).getD 0

/-- `b / 255` in units of the last of eleven bits, rounded. -/
def unormDigits (b : Nat) : Nat := (2 * b * 2 ^ (10 + unormExponent b) + 255) / 510

/-- A byte that reaches the shader as the half-precision float (11 significant bits) nearest to
`b / 255`. -/
def unorm16 (b : Nat) : F32 := F32.ofRat (unormDigits b / 2 ^ (10 + unormExponent b))

end Verif.Shader.Spec
