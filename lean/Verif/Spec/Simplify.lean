import Verif.Spec.Distance

/-!
# Specification for C38

After `ink/strokes/internal/brush_tip_extruder/simplify.h:24-30`.
-/

set_option autoImplicit false

namespace Verif.Simplify.Spec

/-- `r` is the polyline `l` without some vertices: the first and the last are kept, and each dropped vertex is near the
segment between the kept ones before and after it. -/
inductive Simplified {V : Type} (near : V → V → V → Prop) : List V → List V → Prop where
  | one (v : V) : Simplified near [v] [v]
  | step (v : V) (dropped : List V) (w : V) (rest kept : List V) (h : ∀ u ∈ dropped, near v w u)
      (hr : Simplified near (w :: rest) (w :: kept)) : Simplified near (v :: (dropped ++ w :: rest)) (v :: w :: kept)

/-- Every kept vertex between the ends is there for a reason: it is far from the segment between two other kept vertices,
one before and one after it. -/
def Needed {V : Type} (far : V → V → V → Prop) (r : List V) : Prop :=
  ∀ before v after, r = before ++ v :: after → before ≠ [] → after ≠ [] → ∃ a ∈ before, ∃ b ∈ after, far a b v

/-- A point of a polyline with the given vertices. -/
def OnPolyline {K : Type} [Field K] [LinearOrder K] (l : List (Geo.Pt K)) (x : Geo.Pt K) : Prop :=
  ∃ l₁ p q l₂, l = l₁ ++ p :: q :: l₂ ∧ Geo.Spec.OnSegment x ⟨p, q⟩

/-- What is needed of the numbers and their comparison: `N` are those which are not NaN. -/
structure Comparison {D : Type} (gt : D → D → Bool) (zero : D) (N : D → Prop) : Prop where
  zero : N zero
  left : ∀ a b, gt a b = true → N a
  asymm : ∀ a b, gt a b = true → gt b a = false
  trans : ∀ a b c, N b → gt a b = false → gt b c = false → gt a c = false

end Verif.Simplify.Spec
