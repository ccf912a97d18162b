import Verif.Model.FlipCorrection

/-!
# What the correction of flipped triangles should do

After `ink/geometry/mutable_mesh.h:267-274`.
-/

set_option autoImplicit false

namespace Verif.FlipSpec

open F32 Mesh Flip

/-- Coding parameters that can be used: a finite offset (not the negative zero) and a finite positive
scale. -/
structure CodingOk (c : Coding) : Prop where
  offset : c.offset.isFinite = true
  scale : c.scale.isFinite = true
  pos : lt zero c.scale = true
  offset_ne : c.offset ≠ neg zero

/-- Quantised values between `lo` and `hi` are not changed by being quantised again. -/
def Stable (c : Coding) (lo hi : F32) : Prop :=
  ∀ x, le lo (quantize c x) = true → le (quantize c x) hi = true →
    quantize c (quantize c x) = quantize c x

/-- The triangles refer to three different vertices. -/
def Distinct (tris : List Tri) : Prop :=
  ∀ t ∈ tris, t.1 ≠ t.2.1 ∧ t.1 ≠ t.2.2 ∧ t.2.1 ≠ t.2.2

/-- `v` is a corner of the triangle. -/
def Corner (t : Tri) (v : Nat) : Prop := v = t.1 ∨ v = t.2.1 ∨ v = t.2.2

/-- No triangle has a negative area, for these positions of the vertices. -/
def NoneNegative (tris : List Tri) (pos : Nat → PointF) : Prop :=
  ∀ t ∈ tris, lt (signedArea (pos t.1) (pos t.2.1) (pos t.2.2)) zero = false

/-- A component of a corrected position: the quantised value of `v`, or the result of moving it by the
scale in the direction of `v` and quantising again. -/
def Step (c : Coding) (v : F32) (p : F32) : Prop :=
  p = quantize c v ∨
  p = quantize c (add (quantize c v)
    (if (sub v (quantize c v)).signBit then neg (mul (ofInt 1) c.scale) else mul (ofInt 1) c.scale))

/-- The value `v` is packed as an integer of `b` bits. -/
def InRange (c : Coding) (b : Nat) (v : F32) : Prop :=
  ∃ k, packSingleFloat c v = some k ∧ k ≤ maxValueForBits b

/-- The value that is read after `v` has been packed. -/
def readBack (c : Coding) (v : F32) : F32 := ((packSingleFloat c v).map (unpackSingleFloat c)).getD nan

/-- The position that is read after `p` has been packed. -/
def readPoint (cx cy : Coding) (p : PointF) : PointF := ⟨readBack cx p.x, readBack cy p.y⟩

/-- The parameters are valid, for a number of bits that a position can have, and the least and the
greatest value that can be represented are at most `A`, which is at most `2 ^ 21` steps: for 12 bits, the
mesh is not further from the origin than 512 times its own size, and for 20 bits twice its size. -/
structure Precise (c : Coding) (b : Nat) (A : ℚ) : Prop where
  coding : CodingOk c
  b0 : 12 ≤ b
  b1 : b ≤ 20
  off : |toRat c.offset| ≤ A
  top : |toRat (unpackSingleFloat c (maxValueForBits b))| ≤ A
  As : A ≤ 2 ^ 21 * toRat c.scale
  s0 : 1 / 2 ^ 100 ≤ toRat c.scale
  s1 : toRat c.scale ≤ 2 ^ 100

end Verif.FlipSpec
