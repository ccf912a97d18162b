import Mathlib.Algebra.Order.Group.Unbundled.Abs
import Verif.Model.Geometry

/-!
# Model of `ConvexHull`

From `ink/geometry/convex_hull.h` and `ink/geometry/internal/convex_hull_helper.h`, in exact arithmetic like
`Verif.Model.Geometry`. Vertices are points, as in `PointTessellationHelper`. `std::sort` is a parameter that is given the
comparison function: it promises no order among equivalent elements.
-/

set_option autoImplicit false

namespace Verif.Geo.Hull

variable {K : Type} [Field K] [LinearOrder K]

/-- convex_hull_helper.h:51-55: the points with the largest and smallest coordinates so far. -/
structure Extrema (K : Type) where
  maxX : Pt K
  maxY : Pt K
  minX : Pt K
  minY : Pt K

/-- convex_hull_helper.h:57-67 the body of the loop -/
def Extrema.step (e : Extrema K) (p : Pt K) : Extrema K :=
  let e :=
    if p.x > e.maxX.x then { e with maxX := p }
    else if p.x < e.minX.x then { e with minX := p } else e
  if p.y > e.maxY.y then { e with maxY := p }
  else if p.y < e.minY.y then { e with minY := p } else e

/-- convex_hull_helper.h:51-68 -/
def extrema (front : Pt K) (rest : List (Pt K)) : Extrema K := rest.foldl Extrema.step ⟨front, front, front, front⟩

/-- convex_hull_helper.h:45-90 `PruneUsingAkiToussaint`. Called with at least 501 points, so there is a first one. -/
def prune : List (Pt K) → List (Pt K)
  | [] => []
  | front :: rest =>
    let e := extrema front rest
    let upper : Triangle K := ⟨e.minX, e.maxX, e.maxY⟩
    let lower : Triangle K := ⟨e.minX, e.minY, e.maxX⟩
    (front :: rest).filter fun p => !upper.contains p && !lower.contains p

/-- convex_hull_helper.h:111-114 the comparison of `std::min_element` -/
def lower (a b : Pt K) : Bool := decide (a.y < b.y) || decide (a.y = b.y) && decide (a.x < b.x)

/-- convex_hull_helper.h:109-114 `std::min_element`: the first of the smallest elements. -/
def startPoint (front : Pt K) (rest : List (Pt K)) : Pt K := rest.foldl (fun m p => if lower p m then p else m) front

/-- convex_hull_helper.h:124-132 the comparison of `std::sort` -/
def before (start lhs rhs : Pt K) : Bool :=
  let l : Pt K := ⟨lhs.x - start.x, lhs.y - start.y⟩
  let r : Pt K := ⟨rhs.x - start.x, rhs.y - start.y⟩
  let det := l.det r
  decide (det > 0) || decide (det = 0) && decide (|l.x| < |r.x|)

/-- convex_hull_helper.h:142-145 the determinant of the last two points of the hull and the next point -/
def corner (a b p : Pt K) : K := (⟨b.x - a.x, b.y - a.y⟩ : Pt K).det ⟨p.x - b.x, p.y - b.y⟩

/-- convex_hull_helper.h:140-146 the inner loop; the hull is in reverse order, `hull.back()` comes first. -/
def popConcave (p : Pt K) : List (Pt K) → List (Pt K)
  | b :: a :: rest => if corner a b p ≤ 0 then popConcave p (a :: rest) else b :: a :: rest
  | l => l

/-- convex_hull_helper.h:139-148 the body of the outer loop -/
def addPoint (hull : List (Pt K)) (p : Pt K) : List (Pt K) := p :: popConcave p hull

/-- convex_hull_helper.h:135-150 -/
def scan (start : Pt K) (sorted : List (Pt K)) : List (Pt K) := (sorted.foldl addPoint [start]).reverse

/-- convex_hull_helper.h:92-151 `ConvexHull` -/
def convexHull (sort : (Pt K → Pt K → Bool) → List (Pt K) → List (Pt K)) : List (Pt K) → List (Pt K)
  | [] => []
  | [p] => [p]
  | front :: second :: rest =>
    let points := front :: second :: rest
    let pruned := if points.length > 500 then prune points else points
    let start := startPoint front (second :: rest)
    let remaining := pruned.filter fun v => decide (v ≠ start)
    scan start (sort (before start) remaining)

end Verif.Geo.Hull
