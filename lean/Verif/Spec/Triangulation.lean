import Verif.Model.Triangulation

/-!
# Specification of the triangulation of extruded vertices
-/

set_option autoImplicit false

namespace Verif.Triangulation.Spec

open Geo
open PartialOutline (SideId)

variable {K : Type} [Field K] [LinearOrder K]

/-- The position of a vertex. -/
def positionOf (s : State K) (i : ℕ) : Option (Pt K) := s.vertices[i]?.map Vertex.position

/-- A triangle turns counter-clockwise. -/
def Ccw (s : State K) (t : ℕ × ℕ × ℕ) : Prop :=
  ∃ a b c, positionOf s t.1 = some a ∧ positionOf s t.2.1 = some b ∧ positionOf s t.2.2 = some c ∧ 0 < (b.sub a).det (c.sub a)

/-- A triangle connects a vertex with the last vertex of the left side and the last one of the right side before it. -/
def Connects (s : State K) (t : ℕ × ℕ × ℕ) : Prop :=
  s.sideOf[t.1]? = some .left ∧ s.sideOf[t.2.1]? = some .right ∧ t.1 < t.2.2 ∧ t.2.1 < t.2.2 ∧ t.2.2 < s.vertices.length ∧
    (∀ i, t.1 < i → i < t.2.2 → s.sideOf[i]? ≠ some .left) ∧ ∀ i, t.2.1 < i → i < t.2.2 → s.sideOf[i]? ≠ some .right

/-- The extruder gives vertices without labels. -/
def Unlabelled : Op K → Prop
  | .append _ v => v.forward = .interior
  | _ => True

/-- All three vertices of a triangle are those from number `b`. -/
def From (b : ℕ) (t : ℕ × ℕ × ℕ) : Prop := b ≤ t.1 ∧ b ≤ t.2.1 ∧ b ≤ t.2.2

/-- The vertices of a side, in order. -/
def verticesOf (s : State K) (k : SideId) : List ℕ := (List.range s.vertices.length).filter fun i => decide (s.sideOf[i]? = some k)

/-- The last vertex of a side before number `c`. -/
def lastBefore (s : State K) (k : SideId) (c : ℕ) : Option ℕ := ((List.range c).filter fun i => decide (s.sideOf[i]? = some k)).getLast?

/-- The triangle of a vertex with the last ones of both sides before it, if it turns counter-clockwise. -/
def triangleOf (s : State K) (c : ℕ) : Option (ℕ × ℕ × ℕ) :=
  (lastBefore s .left c).bind fun l => (lastBefore s .right c).bind fun r =>
    (positionOf s l).bind fun a => (positionOf s r).bind fun b => (positionOf s c).bind fun p =>
      if 0 < (b.sub a).det (p.sub a) then some (l, r, c) else none

/-- Pairs of a right and a left vertex, one after the other. -/
def pairs {V : Type} (l r : List V) : List (SideId × V) := (r.zip l).flatMap fun p => [(.right, p.1), (.left, p.2)]

/-- The order in which new vertices of both sides are added: pairs for half of the shorter side, what the longer side has more, and the rest in
pairs. -/
def addingOrder {V : Type} (l r : List V) : List (SideId × V) :=
  let m := min l.length r.length
  let h := (m + 1) / 2
  pairs (l.take h) (r.take h) ++ (((l.drop h).take (l.length - m)).map (Prod.mk .left) ++ ((r.drop h).take (r.length - m)).map (Prod.mk .right)) ++
    pairs (l.drop (l.length - m / 2)) (r.drop (r.length - m / 2))

/-- The vertices of a side in such a sequence. -/
def ofSide {V : Type} (k : SideId) (q : List (SideId × V)) : List V := (q.filter fun p => decide (p.1 = k)).map Prod.snd

/-- There is no simplification. -/
def Plain : Op K → Prop
  | .process _ threshold _ _ => threshold ≤ 0
  | _ => True

end Verif.Triangulation.Spec
