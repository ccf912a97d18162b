import Verif.Model.SegmentAlgorithms
import Verif.Spec.Geometry

/-!
# Specification for C53

After `ink/geometry/internal/algorithms.h`.
-/

set_option autoImplicit false

namespace Verif.Geo.Spec

open Verif.Geo

variable {K : Type} [Field K] [LinearOrder K]

/-- The point at a ratio of the line through a segment: 0 is its start, 1 its end. -/
def at_ (s : Segment K) (t : K) : Pt K := ⟨s.start.x + t * (s.stop.x - s.start.x), s.start.y + t * (s.stop.y - s.start.y)⟩

/-- Going along `a` from its start, `t` is the ratio of the first point which is on `b`. -/
def FirstRatio (a b : Segment K) (t : K) : Prop :=
  0 ≤ t ∧ t ≤ 1 ∧ OnSegment (at_ a t) b ∧ ∀ t', 0 ≤ t' → t' ≤ 1 → OnSegment (at_ a t') b → t ≤ t'

/-- The segments have a point in common. -/
def Meet (a b : Segment K) : Prop := ∃ p, OnSegment p a ∧ OnSegment p b

/-- The three corners are on a line. -/
def Collinear (t : Triangle K) : Prop :=
  ∃ s : Segment K, ∃ k0 k1 k2, t.p0 = at_ s k0 ∧ t.p1 = at_ s k1 ∧ t.p2 = at_ s k2

end Verif.Geo.Spec
