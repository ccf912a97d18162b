import Verif.Spec.MeshFormat

/-!
# What packing a mesh is supposed to preserve
-/

set_option autoImplicit false

namespace Verif.Mesh.Spec

open Verif.Mesh

/-- Bits kept for each component of a packed type, from the documentation of the types
(mesh_format.h:57-127); empty for the types that are not packed. -/
def bits : AttrType → List Nat
  | .f1In1Byte => [8]
  | .f2In1Float => [12, 12]
  | .f2In3Bytes => [12, 12]
  | .f2In4Bytes => [12, 20]
  | .f3In1Float => [8, 8, 8]
  | .f3In2Floats => [16, 16, 16]
  | .f3In4Bytes => [10, 10, 10]
  | .f4In1Float => [6, 6, 6, 6]
  | .f4In2Floats => [12, 12, 12, 12]
  | .f4In3Floats => [18, 18, 18, 18]
  | _ => []

/-- Types whose components are quantised. -/
def IsPacked (t : AttrType) : Prop := bits t ≠ []

/-- One integer per component, each within the bits of its component. -/
def Fits (t : AttrType) (ks : List Nat) : Prop :=
  List.Forall₂ (fun k b => k < 2 ^ b) ks (bits t)

end Verif.Mesh.Spec

namespace Verif.Mesh.Spec

open Verif.Mesh

/-- The vertices a triangle of a partition stands for, as numbers of the whole mesh: `vertices[i]` for
each of its three indices. -/
def lift (vertices : List Nat) (t : Nat × Nat × Nat) : Option Nat × Option Nat × Option Nat :=
  (vertices[t.1]?, vertices[t.2.1]?, vertices[t.2.2]?)

/-- A triangle of the whole mesh, in the same form. -/
def whole (t : Nat × Nat × Nat) : Option Nat × Option Nat × Option Nat :=
  (some t.1, some t.2.1, some t.2.2)

/-- One of the corners of the triangle is the vertex `v`. -/
def Refers (vertices : List Nat) (t : Nat × Nat × Nat) (v : Nat) : Prop :=
  vertices[t.1]? = some v ∨ vertices[t.2.1]? = some v ∨ vertices[t.2.2]? = some v

/-- The bytes of a list of triangles with indices of `w` bytes each, one after the other, least
significant byte first. -/
def indexBytesOf (w : Nat) (ts : List (Nat × Nat × Nat)) : List Nat :=
  ts.flatMap fun t => [t.1, t.2.1, t.2.2].flatMap fun n => (List.range w).map fun k => n / 256 ^ k % 256

end Verif.Mesh.Spec
