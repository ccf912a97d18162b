import Verif.Model.LegacyIntersection
import Verif.Spec.Geometry

/-!
# Specification of the intersections that the triangulation of strokes uses
-/

set_option autoImplicit false

namespace Verif.Legacy.Spec

open Geo Geo.Spec

variable {K : Type} [Field K] [LinearOrder K]

/-- Numbers without rounding: the next number is the number itself. -/
def Exact (f : Format K) : Prop := (∀ x, f.next x = x) ∧ ∀ x, f.previous x = x

/-- The point of a segment at a ratio of its length. -/
def along (s : Segment K) (t : K) : Pt K := ⟨s.start.x + t * (s.stop.x - s.start.x), s.start.y + t * (s.stop.y - s.start.y)⟩

/-- Intervals of the parameters of two segments, in order of the first segment, with the same points at both ends. -/
def Common (a b : Segment K) (r : Intervals K) : Prop :=
  0 ≤ r.s0 ∧ r.s0 ≤ r.s1 ∧ r.s1 ≤ 1 ∧ (0 ≤ r.t0 ∧ r.t0 ≤ 1) ∧ (0 ≤ r.t1 ∧ r.t1 ≤ 1) ∧ along a r.s0 = along b r.t0 ∧ along a r.s1 = along b r.t1

end Verif.Legacy.Spec
