import Verif.Model.Rect

/-!
# Model of `SimplifyPolyline`

From `ink/strokes/internal/brush_tip_extruder/simplify.cc`, with `Distance` of a segment and a point from
`ink/geometry/distance.h:70-92` in binary32. A range of iterators is a list. The number type of distances, its comparison and
the distance function are parameters of the algorithm, so that it can be used in binary32 and in exact arithmetic.
-/

set_option autoImplicit false

namespace Verif.Simplify

section Algorithm

variable {V P D : Type} (pos : V → P) (dist : P → P → P → D) (gt : D → D → Bool) (zero : D)

/-- simplify.cc:39-45 the search for the farthest point: its index and distance. -/
def farthest (a b : P) : List V → Nat → Nat × D → Nat × D
  | [], _, best => best
  | v :: vs, i, best =>
    farthest a b vs (i + 1) (if gt (dist a b (pos v)) best.2 then (i, dist a b (pos v)) else best)

/-- simplify.cc:28-59 `SimplifyPolylineInterior`: what is appended to the output. -/
def interior (epsilon : D) (a b : P) (l : List V) : List V :=
  if l.length < 1 then []
  else
    match farthest pos dist gt a b l 0 (0, zero) with
    | (i, d) =>
      if gt d epsilon then
        match h : l[i]? with
        | none => []
        | some v => interior epsilon a (pos v) (l.take i) ++ v :: interior epsilon (pos v) b (l.drop (i + 1))
      else []
  termination_by l.length
  decreasing_by
    all_goals
      have := (List.getElem?_eq_some_iff.1 h).1
      simp only [List.length_take, List.length_drop]
      omega

/-- simplify.cc:63-85 `SimplifyPolyline` -/
def simplify (epsilon : D) (l : List V) (output : List V) : List V :=
  match l with
  | first :: x :: y :: rest =>
    let last := (y :: rest).getLast (by simp)
    (output ++ [first]) ++ interior pos dist gt zero epsilon (pos first) (pos last) (x :: (y :: rest).dropLast) ++ [last]
  | _ => output ++ l

end Algorithm

/-- point.h `operator==` -/
def samePoint (a b : PointF) : Bool := F32.feq a.x b.x && F32.feq a.y b.y

/-- distance.h:69 point and point; `hypot` is `std::hypot`. -/
def distPP (hypot : F32 → F32 → F32) (a b : PointF) : F32 := hypot (F32.sub a.x b.x) (F32.sub a.y b.y)

/-- segment.cc:32-45 `Project` -/
def project (s : SegmentF) (p : PointF) : Option F32 :=
  if samePoint s.start s.fin then none
  else
    let vx := F32.sub s.fin.x s.start.x
    let vy := F32.sub s.fin.y s.start.y
    let m := F32.add (F32.mul vx vx) (F32.mul vy vy)
    if F32.le m F32.zero then none
    else some (F32.div (F32.add (F32.mul (F32.sub p.x s.start.x) vx) (F32.mul (F32.sub p.y s.start.y) vy)) m)

/-- `std::min` -/
def fmin (a b : F32) : F32 := if F32.lt b a then b else a

/-- distance.h:70-92 `Distance` of a point and a segment. -/
def distance (hypot : F32 → F32 → F32) (a b p : PointF) : F32 :=
  if samePoint a b then distPP hypot a p
  else match project ⟨a, b⟩ p with
    | none => fmin (distPP hypot a p) (distPP hypot b p)
    | some t =>
      if F32.ge t RectF.one then distPP hypot p b
      else if F32.le t F32.zero then distPP hypot p a
      else distPP hypot p (SegmentF.lerp ⟨a, b⟩ t)

end Verif.Simplify
