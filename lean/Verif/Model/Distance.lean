import Verif.Model.Geometry

/-!
# Model of `Distance`

From `ink/geometry/distance.{h,cc}`, in exact arithmetic like `Verif.Model.Geometry`: coordinates are elements of an ordered
field. `hypot` is a parameter.
-/

set_option autoImplicit false

namespace Verif.Geo

variable {K : Type} [Field K] [LinearOrder K] (hypot : K → K → K)

/-- `std::min` of an initializer list, with its first element. -/
def minOf (a : K) (l : List K) : K := l.foldl min a

/-- distance.cc:31 etc. the test for point-like triangles. -/
def Triangle.allEqual (t : Triangle K) : Bool := decide (t.p0 = t.p1) && decide (t.p1 = t.p2)

/-- vec.h:39 `Magnitude` -/
def Pt.magnitude (v : Pt K) : K := hypot v.x v.y

/-- distance.h:69 point and point -/
def distPP (a b : Pt K) : K := (a.sub b).magnitude hypot

/-- distance.h:70-92 point and segment -/
def distPS (p : Pt K) (s : Segment K) : K :=
  if s.start = s.stop then distPP hypot s.start p
  else match s.project p with
    | none => min (distPP hypot s.start p) (distPP hypot s.stop p)
    | some t =>
      if t ≥ 1 then distPP hypot p s.stop
      else if t ≤ 0 then distPP hypot p s.start
      else distPP hypot p (s.lerp t)

/-- distance.h:94-109 segment and segment -/
def distSS (a b : Segment K) : K :=
  if a.start = a.stop then distPS hypot a.start b
  else if b.start = b.stop then distPS hypot b.start a
  else if intersectsSS a b then 0
  else minOf (distPS hypot a.start b) [distPS hypot a.stop b, distPS hypot b.start a, distPS hypot b.stop a]

/-- The minimum over the edges of a shape. All shapes have edges. -/
def minEdges (es : List (Segment K)) (f : Segment K → K) : K :=
  match es with
  | [] => 0
  | e :: es => minOf (f e) (es.map f)

/-- distance.cc:28-46 point and triangle -/
def distPT (p : Pt K) (t : Triangle K) : K :=
  if t.allEqual then distPP hypot t.p0 p
  else if t.contains p then 0
  else minEdges t.edges (distPS hypot p)

/-- distance.cc:48-64 point and rect -/
def distPR (p : Pt K) (r : Rect K) : K :=
  if r.isPoint then distPP hypot r.center p
  else if r.contains p then 0
  else minEdges r.edges (distPS hypot p)

/-- distance.cc:66-81 point and quad -/
def distPQ (p : Pt K) (q : Quad K) : K :=
  if q.isPoint then distPP hypot q.center p
  else if q.contains p then 0
  else minEdges q.edges (distPS hypot p)

/-- distance.cc:83-104 segment and triangle -/
def distST (s : Segment K) (t : Triangle K) : K :=
  if s.start = s.stop then distPT hypot s.start t
  else if t.allEqual then distPS hypot t.p0 s
  else if intersectsST s t then 0
  else minEdges t.edges (distSS hypot s)

/-- distance.cc:106-127 segment and rect -/
def distSR (s : Segment K) (r : Rect K) : K :=
  if s.start = s.stop then distPR hypot s.start r
  else if r.isPoint then distPS hypot r.center s
  else if intersectsSR s r then 0
  else minEdges r.edges (distSS hypot s)

/-- distance.cc:129-150 segment and quad -/
def distSQ (s : Segment K) (q : Quad K) : K :=
  if s.start = s.stop then distPQ hypot s.start q
  else if q.isPoint then distPS hypot q.center s
  else if intersectsSQ s q then 0
  else minEdges q.edges (distSS hypot s)

/-- distance.cc:152-173 triangle and triangle -/
def distTT (a b : Triangle K) : K :=
  if a.allEqual then distPT hypot a.p0 b
  else if b.allEqual then distPT hypot b.p0 a
  else if intersectsTT a b then 0
  else minEdges b.edges fun e => distST hypot e a

/-- distance.cc:175-198 triangle and rect -/
def distTR (t : Triangle K) (r : Rect K) : K :=
  if t.allEqual then distPR hypot t.p0 r
  else if r.isPoint then distPT hypot r.center t
  else if intersectsTR t r then 0
  else minEdges t.edges fun e => distSR hypot e r

/-- distance.cc:200-223 triangle and quad -/
def distTQ (t : Triangle K) (q : Quad K) : K :=
  if t.allEqual then distPQ hypot t.p0 q
  else if q.isPoint then distPT hypot q.center t
  else if intersectsTQ t q then 0
  else minEdges t.edges fun e => distSQ hypot e q

/-- distance.cc:225-245 rect and rect -/
def distRR (a b : Rect K) : K :=
  if a.isPoint then distPR hypot a.center b
  else if b.isPoint then distPR hypot b.center a
  else if intersectsRR a b then 0
  else minEdges a.edges fun e => distSR hypot e b

/-- distance.cc:247-269 rect and quad -/
def distRQ (r : Rect K) (q : Quad K) : K :=
  if r.isPoint then distPQ hypot r.center q
  else if q.isPoint then distPR hypot q.center r
  else if intersectsRQ r q then 0
  else minEdges r.edges fun e => distSQ hypot e q

/-- distance.cc:271-291 quad and quad -/
def distQQ (a b : Quad K) : K :=
  if a.isPoint then distPQ hypot a.center b
  else if b.isPoint then distPQ hypot b.center a
  else if intersectsQQ a b then 0
  else minEdges a.edges fun e => distSQ hypot e b

/-- distance.h:38-62, 111-141 `Distance`: the overloads. -/
def distance : Shape K → Shape K → K
  | .point a, .point b => distPP hypot a b
  | .point a, .segment b => distPS hypot a b
  | .point a, .triangle b => distPT hypot a b
  | .point a, .rect b => distPR hypot a b
  | .point a, .quad b => distPQ hypot a b
  | .segment a, .point b => distPS hypot b a
  | .segment a, .segment b => distSS hypot a b
  | .segment a, .triangle b => distST hypot a b
  | .segment a, .rect b => distSR hypot a b
  | .segment a, .quad b => distSQ hypot a b
  | .triangle a, .point b => distPT hypot b a
  | .triangle a, .segment b => distST hypot b a
  | .triangle a, .triangle b => distTT hypot a b
  | .triangle a, .rect b => distTR hypot a b
  | .triangle a, .quad b => distTQ hypot a b
  | .rect a, .point b => distPR hypot b a
  | .rect a, .segment b => distSR hypot b a
  | .rect a, .triangle b => distTR hypot b a
  | .rect a, .rect b => distRR hypot a b
  | .rect a, .quad b => distRQ hypot a b
  | .quad a, .point b => distPQ hypot b a
  | .quad a, .segment b => distSQ hypot b a
  | .quad a, .triangle b => distTQ hypot b a
  | .quad a, .rect b => distRQ hypot b a
  | .quad a, .quad b => distQQ hypot a b

end Verif.Geo
