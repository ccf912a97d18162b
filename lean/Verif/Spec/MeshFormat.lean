import Verif.Model.MeshFormat

/-!
# What a mesh format is supposed to be
-/

set_option autoImplicit false

namespace Verif.Mesh.Spec

open Verif.Mesh

/-- Number of components, from the name of the type. -/
def components : AttrType → Nat
  | .f1Unpacked | .f1In1Byte => 1
  | .f2Unpacked | .f2In1Float | .f2In3Bytes | .f2In4Bytes => 2
  | .f3Unpacked | .f3In1Float | .f3In2Floats | .f3In4Bytes => 3
  | .f4Unpacked | .f4In1Float | .f4In2Floats | .f4In3Floats => 4
  | .unnamed _ => 0

/-- Number of bytes in a packed vertex, from the name of the type. -/
def packedBytes : AttrType → Nat
  | .f1In1Byte => 1
  | .f2In3Bytes => 3
  | .f2In4Bytes | .f3In4Bytes => 4
  | .f2In1Float | .f3In1Float | .f4In1Float => 4
  | .f3In2Floats | .f4In2Floats => 2 * 4
  | .f4In3Floats => 3 * 4
  | .f1Unpacked => 4
  | .f2Unpacked => 2 * 4
  | .f3Unpacked => 3 * 4
  | .f4Unpacked => 4 * 4
  | .unnamed _ => 0

/-- The documented requirements (mesh_format.h:217-226), except that an ID must be a named value: see
`C11_ids_from_128_counterexample`. -/
structure Valid (attrs : List (AttrType × AttrId)) : Prop where
  nonempty : attrs ≠ []
  max : attrs.length ≤ 16
  namedType : ∀ a ∈ attrs, ∀ code, a.1 ≠ .unnamed code
  namedId : ∀ a ∈ attrs, a.2 ≤ 18
  distinct : (attrs.map Prod.snd).Nodup
  position : ∃ a ∈ attrs, a.2 = 0 ∧ components a.1 = 2

/-- The byte ranges `[offset i, offset i + width i)` of the attributes lie one after the other without
gaps in a vertex of `stride` bytes. -/
def Tiles (ranges : List (Nat × Nat)) (stride : Nat) : Prop :=
  (∀ i r, ranges[i]? = some r → r.1 = ((ranges.take i).map Prod.snd).sum) ∧
  stride = (ranges.map Prod.snd).sum

/-- Bytes per vertex index. -/
def indexBytes : IndexFormat → Nat
  | .unpacked16 => 2
  | .unpacked32 => 4

/-- Number of bytes in an unpacked vertex: four per component. -/
def unpackedBytes (t : AttrType) : Nat := 4 * components t

end Verif.Mesh.Spec
