import Mathlib.Data.List.Basic

/-!
# Model of `ink::MeshFormat`

From `ink/geometry/mesh_format.{h,cc}`. An error status or a fatal log is `none`. The enumerations
are `uint8_t` and a caller may pass values without a name, so `AttrType` has a constructor for them
and an attribute ID is its code (mesh_format.h:154-174: the named values are 0 to 18 in order).
String conversion and hashing are not modelled.
-/

set_option autoImplicit false

namespace Verif.Mesh

/-- mesh_format.h:79-149 `AttributeType`; `unnamed` is any other value of the underlying `uint8_t`. -/
inductive AttrType where
  | f1Unpacked
  | f1In1Byte
  | f2Unpacked
  | f2In1Float
  | f2In3Bytes
  | f2In4Bytes
  | f3Unpacked
  | f3In1Float
  | f3In2Floats
  | f3In4Bytes
  | f4Unpacked
  | f4In1Float
  | f4In2Floats
  | f4In3Floats
  | unnamed (code : Nat)
  deriving DecidableEq, Repr

/-- mesh_format.h:160-180 `AttributeId`, by its code. -/
abbrev AttrId := Nat

/-- `AttributeId::kPosition` -/
def kPosition : AttrId := 0

/-- mesh_format.h:207-210 `IndexFormat` -/
inductive IndexFormat where
  | unpacked16
  | unpacked32
  deriving DecidableEq, Repr

/-- internal/mesh_constants.h:22 -/
def kMaxVertexAttributes : Nat := 16

/-- mesh_format.cc:40-59 `IsValidAttributeType` -/
def isValidType : AttrType → Bool
  | .unnamed _ => false
  | _ => true

/-- mesh_format.cc:61-85 `IsValidAttributeId` -/
def isValidId (id : AttrId) : Bool := id ∈ List.range 19

/-- mesh_format.cc:184-206 `ComponentCount` -/
def componentCount : AttrType → Option Nat
  | .f1Unpacked | .f1In1Byte => some 1
  | .f2Unpacked | .f2In1Float | .f2In3Bytes | .f2In4Bytes => some 2
  | .f3Unpacked | .f3In1Float | .f3In2Floats | .f3In4Bytes => some 3
  | .f4Unpacked | .f4In1Float | .f4In2Floats | .f4In3Floats => some 4
  | .unnamed _ => none

/-- mesh_format.cc:208-237 `PackedBitsPerComponent`. The outer `none` is the fatal log. -/
def packedBits : AttrType → Option (Option (List Nat))
  | .f1Unpacked | .f2Unpacked | .f3Unpacked | .f4Unpacked => some none
  | .f1In1Byte => some (some [8])
  | .f2In1Float | .f2In3Bytes => some (some [12, 12])
  | .f2In4Bytes => some (some [12, 20])
  | .f4In2Floats => some (some [12, 12, 12, 12])
  | .f3In1Float => some (some [8, 8, 8])
  | .f3In2Floats => some (some [16, 16, 16])
  | .f3In4Bytes => some (some [10, 10, 10])
  | .f4In1Float => some (some [6, 6, 6, 6])
  | .f4In3Floats => some (some [18, 18, 18, 18])
  | .unnamed _ => none

/-- mesh_format.cc:239-241 `UnpackedAttributeSize`; `uint8_t` arithmetic. -/
def unpackedAttributeSize (t : AttrType) : Option Nat :=
  (componentCount t).map fun c => (4 * c) % 256

/-- mesh_format.cc:243-263 `IsPackedAsFloat` -/
def isPackedAsFloat : AttrType → Option Bool
  | .f2In1Float | .f3In1Float | .f3In2Floats | .f4In1Float | .f4In2Floats | .f4In3Floats => some true
  | .unnamed _ => none
  | _ => some false

/-- mesh_format.cc:265-289 `PackedAttributeSize` -/
def packedAttributeSize : AttrType → Option Nat
  | .f1In1Byte => some 1
  | .f2In3Bytes => some 3
  | .f1Unpacked | .f2In1Float | .f3In1Float | .f4In1Float | .f2In4Bytes | .f3In4Bytes => some 4
  | .f2Unpacked | .f3In2Floats | .f4In2Floats => some 8
  | .f3Unpacked | .f4In3Floats => some 12
  | .f4Unpacked => some 16
  | .unnamed _ => none

/-- mesh_format.cc:291-300 `UnpackedIndexSize` -/
def unpackedIndexSize : IndexFormat → Nat
  | .unpacked16 => 2
  | .unpacked32 => 4

/-- mesh_format.h:187-200 `Attribute` -/
structure Attribute where
  type : AttrType
  id : AttrId
  unpackedOffset : Nat
  packedOffset : Nat
  unpackedWidth : Nat
  packedWidth : Nat
  deriving DecidableEq, Repr

/-- mesh_format.h:304-312, the data members. -/
structure MeshFormat where
  attributes : List Attribute
  positionIndex : Nat
  indexFormat : IndexFormat
  unpackedStride : Nat
  packedStride : Nat
  indexStride : Nat
  deriving DecidableEq, Repr

/-- mesh_format.cc:305-312, the loop of `PopulateOffsetWidthAndStride`, with the two current offsets
(`uint16_t`); returns the attributes and the final offsets. -/
def layoutFrom : Nat → Nat → List (AttrType × AttrId) → Option (List Attribute × Nat × Nat)
  | u, p, [] => some ([], u, p)
  | u, p, (t, id) :: rest => do
    let uw ← unpackedAttributeSize t
    let pw ← packedAttributeSize t
    let (as, u', p') ← layoutFrom ((u + uw) % 65536) ((p + pw) % 65536) rest
    some (⟨t, id, u, p, uw, pw⟩ :: as, u', p')

/-- mesh_format.cc:109-131, the loop of `Create`: `seen` is the bitset, `pos` the
`position_attribute_index`. -/
def checkAttributes : Nat → List AttrId → Option Nat → List (AttrType × AttrId) → Option (Option Nat)
  | _, _, pos, [] => some pos
  | i, seen, pos, (t, id) :: rest =>
    if !isValidType t then none
    else if !isValidId id then none
    else if seen.contains id then none
    else checkAttributes (i + 1) (id :: seen) (if id = kPosition then some i else pos) rest

/-- mesh_format.cc:97-152 `Create`. The position index is stored as `uint8_t`. -/
def create (attrs : List (AttrType × AttrId)) (ixf : IndexFormat) : Option MeshFormat :=
  if attrs.isEmpty then none
  else if attrs.length > kMaxVertexAttributes then none
  else do
    let pos ← checkAttributes 0 [] none attrs
    let pos ← pos
    let a ← attrs[pos]?
    let c ← componentCount a.1
    if c ≠ 2 then none
    else do
      let (as, u, p) ← layoutFrom 0 0 attrs
      some { attributes := as, positionIndex := pos % 256, indexFormat := ixf,
             unpackedStride := u, packedStride := p, indexStride := unpackedIndexSize ixf }

/-- mesh_format.cc:166-171, the loop of `WithoutAttributes`; the hash set is a list used as a set.
Returns the new attributes and what is left of the set. -/
def removeLoop : List AttrId → List Attribute → List (AttrType × AttrId) × List AttrId
  | left, [] => ([], left)
  | left, a :: rest =>
    if left.contains a.id then removeLoop (left.filter (· ≠ a.id)) rest
    else
      let r := removeLoop left rest
      ((a.type, a.id) :: r.1, r.2)

/-- mesh_format.cc:154-182 `WithoutAttributes` -/
def withoutAttributes (f : MeshFormat) (remove : List AttrId) : Option MeshFormat :=
  if remove.contains kPosition then none
  else
    let r := removeLoop remove f.attributes
    if !r.2.isEmpty then none
    else create r.1 f.indexFormat

/-- mesh_format.cc:330-335, the loop of `IsPackedEquivalent` for equal lengths. -/
def packedEquivLoop : List Attribute → List Attribute → Bool
  | a :: as, b :: bs => if a.id ≠ b.id || a.type ≠ b.type then false else packedEquivLoop as bs
  | _, _ => true

/-- mesh_format.cc:318-337 `IsPackedEquivalent` -/
def isPackedEquivalent (f g : MeshFormat) : Bool :=
  if f.positionIndex ≠ g.positionIndex then false
  else if f.attributes.length ≠ g.attributes.length then false
  else packedEquivLoop f.attributes g.attributes

/-- mesh_format.cc:351-363, the loop of `IsUnpackedEquivalent`. -/
def unpackedEquivLoop : List Attribute → List Attribute → Bool
  | a :: as, b :: bs =>
    if a.id ≠ b.id || componentCount a.type ≠ componentCount b.type ||
      a.unpackedWidth ≠ b.unpackedWidth then false else unpackedEquivLoop as bs
  | _, _ => true

/-- mesh_format.cc:339-365 `IsUnpackedEquivalent` -/
def isUnpackedEquivalent (f g : MeshFormat) : Bool :=
  if f.positionIndex ≠ g.positionIndex then false
  else if f.attributes.length ≠ g.attributes.length then false
  else unpackedEquivLoop f.attributes g.attributes

/-- mesh_format.cc:379-386 `operator==` -/
def formatEq (f g : MeshFormat) : Bool :=
  f.attributes.length = g.attributes.length &&
    (f.attributes.zip g.attributes).all (fun p => p.1.type = p.2.type && p.1.id = p.2.id) &&
    f.indexFormat = g.indexFormat

/-- mesh_format.cc:89-95, the default constructor. -/
def MeshFormat.default : MeshFormat :=
  { attributes := [⟨.f2Unpacked, kPosition, 0, 0, 8, 8⟩], positionIndex := 0,
    indexFormat := .unpacked32, unpackedStride := 8, packedStride := 8, indexStride := 4 }

end Verif.Mesh
