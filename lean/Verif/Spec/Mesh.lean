import Verif.F32.Ops
import Verif.Spec.MeshPacking
import Verif.Model.Mesh

/-!
# What `Mesh::Create` is supposed to accept and keep

From the documentation at mesh.h:60-97. The caller gives one span of floats per component, the spans of
the first attribute first.
-/

set_option autoImplicit false

namespace Verif.Mesh.Spec

open Verif Verif.Mesh

/-- The spans of attribute `j`: they come after those of the attributes before it. -/
def spansOf (attrs : List (AttrType × AttrId)) (spans : List (List F32)) (j : Nat) :
    List (List F32) :=
  (spans.drop ((attrs.take j).map fun a => components a.1).sum).take
    ((attrs[j]?.map fun a => components a.1).getD 0)

/-- The value of attribute `j` at vertex `i`: entry `i` of each of its spans. -/
def valueAt (attrs : List (AttrType × AttrId)) (spans : List (List F32)) (i j : Nat) : List F32 :=
  (spansOf attrs spans j).map fun s => s.getD i F32.zero

/-- The length of the first span. -/
def numVertices (spans : List (List F32)) : Nat := (spans.headD []).length

/-- The requirements on spans and triangles. -/
structure Acceptable (attrs : List (AttrType × AttrId)) (spans : List (List F32))
    (tris : List Nat) : Prop where
  count : spans.length = (attrs.map fun a => components a.1).sum
  max : numVertices spans ≤ 65536
  equal : ∀ s ∈ spans, s.length = numVertices spans
  finite : ∀ s ∈ spans, ∀ x ∈ s, x.isFinite = true
  triples : 3 ∣ tris.length
  inRange : ∀ i ∈ tris, i < numVertices spans

/-- The value `v` is within reach of `b` bits with coding parameters `c`: `(v - offset) / scale`
rounds to one of `0, …, 2^b - 1`. -/
def Representable (b : Nat) (c : Coding) (v : F32) : Prop :=
  F32.le F32.zero (F32.fround (F32.div (F32.sub v c.offset) c.scale)) = true ∧
  F32.le (F32.fround (F32.div (F32.sub v c.offset) c.scale)) (F32.ofInt (2 ^ b - 1)) = true

/-- The requirements on coding parameters `cs` given for attribute `j` of type `t`. -/
structure ParamsFor (attrs : List (AttrType × AttrId)) (spans : List (List F32)) (j : Nat)
    (t : AttrType) (cs : List Coding) : Prop where
  packed : IsPacked t
  size : cs.length = components t
  valid : ∀ c ∈ cs, c.offset.isFinite = true ∧ c.scale.isFinite = true ∧
    F32.lt F32.zero c.scale = true
  reach : ∀ (k b : Nat) (c : Coding) (s : List F32), (bits t)[k]? = some b → cs[k]? = some c →
    (spansOf attrs spans j)[k]? = some s → ∀ v ∈ s, Representable b c v

/-- The requirements on all coding parameters: none are given, or there is an entry per attribute. -/
def ParamsOk (attrs : List (AttrType × AttrId)) (spans : List (List F32))
    (params : List (Option (List Coding))) : Prop :=
  params = [] ∨ params.length = attrs.length ∧
    ∀ (j : Nat) (a : AttrType × AttrId) (cs : List Coding), attrs[j]? = some a →
      params[j]? = some (some cs) → ParamsFor attrs spans j a.1 cs

/-- Attribute `j` has no coding parameters from the caller. -/
def NotGiven (params : List (Option (List Coding))) (j : Nat) : Prop :=
  ∀ cs, params[j]? ≠ some (some cs)

/-- Two values of a component are further apart than the largest float. -/
def RangeOverflows (attrs : List (AttrType × AttrId)) (spans : List (List F32)) (j : Nat) : Prop :=
  ∃ s ∈ spansOf attrs spans j, ∃ x ∈ s, ∃ y ∈ s, F32.ovf ≤ F32.toRat y - F32.toRat x

/-- The values `s` of a component can be quantised to `b` bits: they are at most `2^126` in magnitude,
and either all equal or spread over at least `(2^b - 1) / 2^126`. -/
def Quantisable (b : Nat) (s : List F32) : Prop :=
  (∀ x ∈ s, |F32.toRat x| ≤ 2 ^ 126) ∧
  ((∀ x ∈ s, ∀ y ∈ s, F32.toRat x = F32.toRat y) ∨
    ∃ x ∈ s, ∃ y ∈ s, ((2 ^ b - 1 : ℕ) : ℚ) / 2 ^ 126 ≤ F32.toRat y - F32.toRat x)

/-- A list of indices as triangles. -/
def triples : List Nat → List (Nat × Nat × Nat)
  | a :: b :: c :: rest => (a, b, c) :: triples rest
  | _ => []

end Verif.Mesh.Spec
