import Verif.F32.Ops
import Verif.Model.MeshFormat

/-!
# Model of the mesh packing functions

From `ink/geometry/internal/mesh_packing.{h,cc}`. A byte is a number below 256, raw memory is a list
of bytes, and a float or an index is stored in little-endian order (the code uses `memcpy` both ways,
so only consistency matters). `none` is a failed `ABSL_CHECK`/`ABSL_LOG(FATAL)`, an out-of-range
access, or undefined behaviour (a float to integer conversion that does not fit). `ABSL_DCHECK`s are
not modelled, except where the access they protect would be out of range. The compiler is assumed not
to contract `a * b + c` into a fused operation.
-/

set_option autoImplicit false

namespace Verif.Mesh

open Verif

/-! ## Raw memory -/

/-- The bytes of a `uint16_t`. -/
def bytesOfU16 (n : Nat) : List Nat := [n % 256, n / 256 % 256]

/-- The bytes of a `uint32_t`. -/
def bytesOfU32 (n : Nat) : List Nat :=
  [n % 256, n / 256 % 256, n / 65536 % 256, n / 16777216 % 256]

def u16OfBytes : List Nat → Option Nat
  | [a, b] => some (a + 256 * b)
  | _ => none

def u32OfBytes : List Nat → Option Nat
  | [a, b, c, d] => some (a + 256 * b + 65536 * c + 16777216 * d)
  | _ => none

/-- The bytes of a `float`. -/
def bytesOfFloat (f : F32) : List Nat := bytesOfU32 f.toBits

def floatOfBytes (bs : List Nat) : Option F32 := (u32OfBytes bs).map F32.ofBits

/-- `memcpy` of `k` floats from memory. -/
def floatsOfBytes : Nat → List Nat → Option (List F32)
  | 0, _ => some []
  | k + 1, bs => do
    let f ← floatOfBytes (bs.take 4)
    let r ← floatsOfBytes k (bs.drop 4)
    some (f :: r)

/-- `static_cast<uint32_t>(float)`: truncation; undefined when the result does not fit. -/
def u32OfFloat : F32 → Option Nat
  | .fin s n _ =>
    let t := ⌊(mag n : ℚ) / 2 ^ 149⌋.toNat
    if s && t ≠ 0 then none else if t ≥ 2 ^ 32 then none else some t
  | _ => none

/-- `static_cast<float>(uint32_t)` -/
def floatOfU32 (n : Nat) : F32 := F32.ofInt n

/-- `a << k` on `uint32_t`. -/
def shl (a k : Nat) : Nat := (a <<< k) % 2 ^ 32

/-- `static_cast<std::byte>` -/
def toByte (n : Nat) : Nat := n % 256

/-! ## One component -/

/-- mesh_packing_types.h:28-31 `ComponentCodingParams` -/
structure Coding where
  offset : F32
  scale : F32
  deriving DecidableEq, Repr

/-- mesh_packing.h:66-69 `MaxValueForBits` -/
def maxValueForBits (n : Nat) : Nat := if n = 32 then 2 ^ 32 - 1 else 1 <<< n - 1

/-- mesh_packing.cc:296-299 `PackSingleFloat` -/
def packSingleFloat (c : Coding) (v : F32) : Option Nat :=
  u32OfFloat (F32.fround (F32.div (F32.sub v c.offset) c.scale))

/-- mesh_packing.cc:377-380 `UnpackSingleFloat` -/
def unpackSingleFloat (c : Coding) (k : Nat) : F32 :=
  F32.add (F32.mul (floatOfU32 k) c.scale) c.offset

/-! ## The integers of an attribute, and the bytes that hold them -/

/-- The bit layout of the packed integers, for each packed type:
mesh_packing.cc:108-109 (`f1In1Byte`), 123 (`f2In1Float`), 140-143 (`f2In3Bytes`),
161-166 (`f3In4Bytes`), 182-186 (`f2In4Bytes`), 202-203 (`f3In1Float`), 221-223 (`f3In2Floats`),
243-244 (`f4In1Float`), 264-265 (`f4In2Floats`), 285-289 (`f4In3Floats`). -/
def packIntegers : AttrType → List Nat → Option (List Nat)
  | .f1In1Byte, [a] => some [toByte a]
  | .f2In1Float, [a, b] => some (bytesOfFloat (floatOfU32 (shl a 12 ||| b)))
  | .f2In3Bytes, [a, b] =>
    some [toByte (a >>> 4), toByte (shl (a &&& 0xF) 4 + (b >>> 8)), toByte (b &&& 0xFF)]
  | .f3In4Bytes, [a, b, c] =>
    some [toByte (a >>> 2), toByte (shl (a &&& 0x03) 6 + (b >>> 4)),
      toByte (shl (b &&& 0x0F) 4 + (c >>> 6)), toByte (shl (c &&& 0x3F) 2)]
  | .f2In4Bytes, [a, b] =>
    some [toByte (a >>> 4), toByte (shl (a &&& 0xF) 4 + (b >>> 16)),
      toByte ((b &&& 0xFF00) >>> 8), toByte (b &&& 0xFF)]
  | .f3In1Float, [a, b, c] => some (bytesOfFloat (floatOfU32 (shl a 16 ||| shl b 8 ||| c)))
  | .f3In2Floats, [a, b, c] =>
    some (bytesOfFloat (floatOfU32 (shl a 8 ||| b >>> 8)) ++
      bytesOfFloat (floatOfU32 (shl (b &&& 0x000000FF) 16 ||| c)))
  | .f4In1Float, [a, b, c, d] =>
    some (bytesOfFloat (floatOfU32 (shl a 18 ||| shl b 12 ||| shl c 6 ||| d)))
  | .f4In2Floats, [a, b, c, d] =>
    some (bytesOfFloat (floatOfU32 (shl a 12 ||| b)) ++ bytesOfFloat (floatOfU32 (shl c 12 ||| d)))
  | .f4In3Floats, [a, b, c, d] =>
    some (bytesOfFloat (floatOfU32 (shl a 6 ||| b >>> 12)) ++
      bytesOfFloat (floatOfU32 (shl (b &&& 0x00000FFF) 12 ||| c >>> 6)) ++
      bytesOfFloat (floatOfU32 (shl (c &&& 0x0000003F) 18 ||| d)))
  | _, _ => none

/-- mesh_packing.cc:301-356 `PackAttribute`, for the packed types: pack each component, then lay out
the integers (each of the helpers at mesh_packing.cc:100-292 begins with these calls). -/
def packComponents : List Coding → List F32 → Option (List Nat)
  | [], [] => some []
  | c :: cs, v :: vs => do
    let k ← packSingleFloat c v
    let ks ← packComponents cs vs
    some (k :: ks)
  | _, _ => none

/-- mesh_packing.cc:301-356 `PackAttribute`. For an unpacked type the floats are copied. -/
def packAttribute (t : AttrType) (cs : List Coding) (vs : List F32) : Option (List Nat) :=
  match t with
  | .f1Unpacked | .f2Unpacked | .f3Unpacked | .f4Unpacked => some (vs.flatMap bytesOfFloat)
  | _ => (packComponents cs vs).bind (packIntegers t)

/-- The float at index `i` of the packed bytes, converted to `uint32_t`. -/
def castFloat (bs : List Nat) (i : Nat) : Option Nat :=
  (floatOfBytes ((bs.drop (4 * i)).take 4)).bind u32OfFloat

/-- mesh_packing.cc:634-668 `UnpackIntegersFromPackedAttribute`, with the helpers at 421-432
(`f1In1Byte`), 434-448 (`f2In1Float`), 450-468 (`f2In3Bytes`), 470-492 (`f3In4Bytes`), 494-514
(`f2In4Bytes`), 516-531 (`f3In1Float`), 533-548 (`f3In2Floats`), 550-565 (`f4In1Float`), 567-582
(`f4In2Floats`), 584-602 (`f4In3Floats`). -/
def unpackIntegers (t : AttrType) (bs : List Nat) : Option (List Nat) :=
  match t with
  | .f1In1Byte => match bs with
    | [p] => some [p]
    | _ => none
  | .f2In1Float => (castFloat bs 0).bind fun f =>
    some [(f &&& 0xFFF000) >>> 12, f &&& 0x000FFF]
  | .f2In3Bytes => match bs with
    | [p, q, r] => some [shl p 4 + (q >>> 4), shl (q &&& 0x0F) 8 + r]
    | _ => none
  | .f3In4Bytes => match bs with
    | [p, q, r, s] => some [shl p 2 + (q >>> 6), shl (q &&& 0x3F) 4 + (r >>> 4),
        shl (r &&& 0x0F) 6 + ((s &&& 0xFC) >>> 2)]
    | _ => none
  | .f2In4Bytes => match bs with
    | [p, q, r, s] => some [shl p 4 + (q >>> 4), shl (q &&& 0xF) 16 + shl r 8 + s]
    | _ => none
  | .f3In1Float => (castFloat bs 0).bind fun f =>
    some [(f &&& 0xFF0000) >>> 16, (f &&& 0x00FF00) >>> 8, f &&& 0x0000FF]
  | .f3In2Floats => (castFloat bs 0).bind fun f => (castFloat bs 1).bind fun g =>
    some [(f &&& 0xFFFF00) >>> 8, shl (f &&& 0x0000FF) 8 ||| (g &&& 0xFF0000) >>> 16,
      g &&& 0x00FFFF]
  | .f4In1Float => (castFloat bs 0).bind fun f =>
    some [(f &&& 0xFC0000) >>> 18, (f &&& 0x03F000) >>> 12, (f &&& 0x000FC0) >>> 6, f &&& 0x00003F]
  | .f4In2Floats => (castFloat bs 0).bind fun f => (castFloat bs 1).bind fun g =>
    some [(f &&& 0xFFF000) >>> 12, f &&& 0x000FFF, (g &&& 0xFFF000) >>> 12, g &&& 0x000FFF]
  | .f4In3Floats => (castFloat bs 0).bind fun f => (castFloat bs 1).bind fun g =>
    (castFloat bs 2).bind fun h =>
    some [(f &&& 0xFFFFC0) >>> 6, shl (f &&& 0x00003F) 12 ||| (g &&& 0xFFF000) >>> 12,
      shl (g &&& 0x000FFF) 6 ||| (h &&& 0xFC0000) >>> 18, h &&& 0x03FFFF]
  | _ => none

/-- mesh_packing.cc:627-630, the loop of `UnpackAttribute`. -/
def unpackComponents : List Coding → List Nat → Option (List F32)
  | [], [] => some []
  | c :: cs, k :: ks => (unpackComponents cs ks).map (unpackSingleFloat c k :: ·)
  | _, _ => none

/-- mesh_packing.cc:606-632 `UnpackAttribute` and 670-694 `ReadFloatsFromUnpackedAttribute`. -/
def unpackAttribute (t : AttrType) (cs : List Coding) (bs : List Nat) : Option (List F32) :=
  match t with
  | .f1Unpacked => floatsOfBytes 1 bs
  | .f2Unpacked => floatsOfBytes 2 bs
  | .f3Unpacked => floatsOfBytes 3 bs
  | .f4Unpacked => floatsOfBytes 4 bs
  | _ => (unpackIntegers t bs).bind (unpackComponents cs)

/-! ## Coding parameters -/

/-- mesh_packing.cc:867-880, one step of the loop of `ComputeCodingParams`: `none` is the check
failure, `some none` the error status. `max_values[i]` is converted to `float` by the division. -/
def codingOf (bits : Nat) (lo hi : F32) : Option (Option Coding) :=
  if !F32.le lo hi then none
  else
    let range := F32.sub hi lo
    if !range.isFinite then some none
    else some (some ⟨lo, if F32.gt range F32.zero
      then F32.div range (floatOfU32 (maxValueForBits bits)) else F32.ofInt 1⟩)

/-- The loop itself; an error is returned at the first component that has one. -/
def codingLoop : List Nat → List F32 → List F32 → Option (Option (List Coding))
  | [], [], [] => some (some [])
  | b :: bs, lo :: los, hi :: his => (codingOf b lo hi).bind fun c =>
    match c with
    | none => some none
    | some c => (codingLoop bs los his).map fun r => r.map (c :: ·)
  | _, _, _ => none

/-- mesh_packing.cc:841-883 `ComputeCodingParams` -/
def computeCodingParams (t : AttrType) (lo hi : List F32) : Option (Option (List Coding)) := do
  let n ← componentCount t
  match ← packedBits t with
  | none => some (some (List.replicate n ⟨F32.zero, F32.ofInt 1⟩))
  | some bits => codingLoop bits lo hi

/-- mesh_packing.cc:65-75 `IsValidCodingParams` -/
def isValidCodingParams (t : AttrType) (cs : List Coding) : Bool :=
  if packedBits t = some none then true
  else if some cs.length ≠ componentCount t then false
  else cs.all fun c => c.offset.isFinite && c.scale.isFinite && F32.gt c.scale F32.zero

/-- mesh_packing.cc:91-97, the loop of `UnpackedFloatValuesAreRepresentable`; the comparison converts
`max_values[i]` to `float`. -/
def representableLoop : List Nat → List Coding → List F32 → Bool
  | b :: bs, c :: cs, v :: vs =>
    let p := F32.fround (F32.div (F32.sub v c.offset) c.scale)
    if F32.lt p F32.zero || F32.gt p (floatOfU32 (maxValueForBits b)) then false
    else representableLoop bs cs vs
  | _, _, _ => true

/-- mesh_packing.cc:77-98 `UnpackedFloatValuesAreRepresentable` -/
def valuesRepresentable (t : AttrType) (cs : List Coding) (vs : List F32) : Bool :=
  match packedBits t with
  | some (some bits) => representableLoop bits cs vs
  | _ => true

/-! ## Triangle indices -/

abbrev Tri := Nat × Nat × Nat

/-- The bytes of one triangle. -/
def bytesOfTri (stride : Nat) (t : Tri) : List Nat :=
  if stride = 2 then bytesOfU16 (t.1 % 65536) ++ bytesOfU16 (t.2.1 % 65536) ++
    bytesOfU16 (t.2.2 % 65536)
  else bytesOfU32 t.1 ++ bytesOfU32 t.2.1 ++ bytesOfU32 t.2.2

/-- mesh_packing.cc:696-712 `ReadTriangleIndicesFromByteArray` -/
def readTri (i stride : Nat) (data : List Nat) : Option Tri := do
  let offset := i * 3 * stride
  let bs := (data.drop offset).take (3 * stride)
  if stride = 2 then
    let a ← u16OfBytes (bs.take 2)
    let b ← u16OfBytes ((bs.drop 2).take 2)
    let c ← u16OfBytes (bs.drop 4)
    some (a, b, c)
  else
    let a ← u32OfBytes (bs.take 4)
    let b ← u32OfBytes ((bs.drop 4).take 4)
    let c ← u32OfBytes (bs.drop 8)
    some (a, b, c)

/-- mesh_packing.cc:714-731 `WriteTriangleIndicesToByteArray` -/
def writeTri (i stride : Nat) (t : Tri) (data : List Nat) : Option (List Nat) :=
  let offset := i * 3 * stride
  if offset + 3 * stride ≤ data.length then
    some (data.take offset ++ bytesOfTri stride t ++ data.drop (offset + 3 * stride))
  else none

/-! ## Partitions -/

/-- mesh_packing.h:165-171 `PartitionInfo` -/
structure PartitionInfo where
  vertices : List Nat := []
  triangles : List Tri := []
  deriving DecidableEq, Repr

/-- The state of the loop of `PartitionTriangles`: finished partitions, the current one
(`partitions.back()`) and the hash map, as an association list. -/
structure PState where
  done : List PartitionInfo := []
  cur : PartitionInfo := {}
  map : List (Nat × Nat) := []

/-- mesh_packing.cc:828-833, one iteration of the inner loop: `insert` keeps an existing entry. -/
def addVertex (s : PState) (v : Nat) : PState × Nat :=
  match s.map.lookup v with
  | some i => (s, i)
  | none =>
    let i := s.cur.vertices.length
    ({ s with map := (v, i) :: s.map, cur := { s.cur with vertices := s.cur.vertices ++ [v] } }, i)

/-- mesh_packing.cc:811-824, the check for a new partition. `max_vertices_per_partition - 3` is
`uint64_t` arithmetic. -/
def maybeSplit (max : Nat) (s : PState) (t : Tri) : PState :=
  if s.cur.vertices.length > (max + 2 ^ 64 - 3) % 2 ^ 64 then
    let n := ([t.1, t.2.1, t.2.2].filter fun v => (s.map.lookup v).isNone).length
    if s.cur.vertices.length + n > max then
      { done := s.done ++ [s.cur], cur := {}, map := [] }
    else s
  else s

/-- mesh_packing.cc:826-835, the rest of the body of the loop. -/
def addCorners (s : PState) (t : Tri) : PState :=
  let (s, a) := addVertex s t.1
  let (s, b) := addVertex s t.2.1
  let (s, c) := addVertex s t.2.2
  { s with cur := { s.cur with triangles := s.cur.triangles ++ [(a, b, c)] } }

/-- mesh_packing.cc:805-836, the body of the loop. -/
def addTriangle (max : Nat) (s : PState) (t : Tri) : PState := addCorners (maybeSplit max s t) t

/-- mesh_packing.cc:806-807, reading all triangles. -/
def readTris (stride : Nat) (data : List Nat) : Nat → Option (List Tri)
  | 0 => some []
  | n + 1 => do
    let ts ← readTris stride data n
    let t ← readTri n stride data
    some (ts ++ [t])

/-- mesh_packing.cc:786-839 `PartitionTriangles`; the number of triangles is a `uint32_t`. -/
def partitionTriangles (data : List Nat) (fmt : IndexFormat) (max : Nat) :
    Option (List PartitionInfo) := do
  let stride := unpackedIndexSize fmt
  let ts ← readTris stride data (data.length / stride / 3 % 2 ^ 32)
  let s := ts.foldl (addTriangle max) {}
  some (s.done ++ [s.cur])

end Verif.Mesh
