import Verif.Model.Distance
import Verif.Spec.Geometry

/-!
# Specification for C48

After `ink/geometry/distance.h:30-36`.
-/

set_option autoImplicit false

namespace Verif.Geo.Spec

open Verif.Geo

variable {K : Type} [Field K] [LinearOrder K]

/-- `hypot` is the square root of the sum of squares. -/
def IsHypot (hypot : K → K → K) : Prop := ∀ x y, 0 ≤ hypot x y ∧ hypot x y * hypot x y = x * x + y * y

/-- `d` is the least distance between a point of `S` and a point of `T`. -/
structure Least (hypot : K → K → K) (S T : Pt K → Prop) (d : K) : Prop where
  attained : ∃ p q, S p ∧ T q ∧ d = hypot (p.x - q.x) (p.y - q.y)
  least : ∀ p q, S p → T q → d ≤ hypot (p.x - q.x) (p.y - q.y)

end Verif.Geo.Spec
