import Verif.Model.BrushTipExtruder
import Verif.Spec.StrokeGeometry

/-!
# Specification of the extruder (C50)

A stroke that is extruded once, from the first tip state to the last: nothing is saved or restored, outlines are cut off the
sides at each break, and there are no derivatives.
-/

set_option autoImplicit false

namespace Verif.StrokeGeom.Spec

open Verif.StrokeGeom

variable {T E V X C : Type}

/-- A change as the triangulation makes it. -/
def Inner : Op V X → Prop
  | .addBreak => False
  | .clear => False
  | .derivatives _ => False
  | .resetTracking => False
  | _ => True

/-- The steps of a program see the contents only, and are changes of the triangulation. -/
def OkProgram (core : V → C) (p : Program V X) : Prop :=
  ∀ f ∈ p, (∀ g, Inner (f g)) ∧ ∀ s t : Geometry V X, contents core s = contents core t → f s = f t

/-- What is assumed about the parameters. -/
structure OkTip (core : V → C) (tip : Tip T E V X) : Prop where
  turn : ∀ a b c, OkProgram core (tip.turn a b c)
  startcap : ∀ a b, OkProgram core (tip.startcap a b)
  endcap : ∀ a b, OkProgram core (tip.endcap a b)
  whole : ∀ a, OkProgram core (tip.whole a)
  derivatives : ∀ n g, ∀ u ∈ tip.derivatives n g, ∀ v, core (u.2 v) = core v

/-- The stroke so far, with the outlines of its finished parts. -/
structure Stroke (E V X : Type) where
  extrusions : List (Option E)
  geometry : Geometry V X
  outlines : List (List Nat × List Nat)

namespace Stroke

def start (env : Env V X) (save : Save V X) : Stroke E V X := ⟨[], Geometry.reset env save, []⟩

/-- The part since the last break is over: a break, and its outline. -/
def finishPart (env : Env V X) (r : Stroke E V X) : Option (Stroke E V X) :=
  let b := r.geometry.lastBreak
  let left := r.geometry.left.indices.drop b.left.indexCount
  let right := r.geometry.right.indices.drop b.right.indexCount
  if left = [] ∧ right = [] then some r
  else (r.geometry.addBreak env).bind fun g => some ⟨r.extrusions ++ [none], g, r.outlines ++ [(left, right)]⟩

/-- A break: the end of a part is extruded, if one was begun. -/
def stop (env : Env V X) (tip : Tip T E V X) (r : Stroke E V X) : Option (Stroke E V X) :=
  match r.extrusions.reverse with
  | some c :: some b :: _ => (r.geometry.exec env (tip.endcap b c)).bind fun g => finishPart env { r with geometry := g }
  | some c :: _ => (r.geometry.exec env (tip.whole c)).bind fun g => finishPart env { r with geometry := g }
  | _ => some r

/-- The extrusions since the last break are forgotten. -/
def forget (env : Env V X) (r : Stroke E V X) : Option (Stroke E V X) :=
  (r.geometry.clearSinceBreak env).bind fun g =>
    some { r with extrusions := (r.extrusions.reverse.dropWhile Option.isSome).reverse, geometry := g }

/-- Extrudes from the last extrusions. -/
def advance (env : Env V X) (tip : Tip T E V X) (r : Stroke E V X) : Option (Stroke E V X) :=
  match r.extrusions.reverse with
  | some c :: some b :: some a :: _ => (r.geometry.exec env (tip.turn a b c)).bind fun g => some { r with geometry := g }
  | some c :: some b :: _ => (r.geometry.exec env (tip.startcap b c)).bind fun g => some { r with geometry := g }
  | _ => some r

def push (r : Stroke E V X) (x : E) : Stroke E V X := { r with extrusions := r.extrusions ++ [some x] }

/-- The extrusions of the present part. -/
def part (r : Stroke E V X) : List E := (r.extrusions.reverse.takeWhile Option.isSome).filterMap id

/-- One tip state; `isLast` if nothing follows. -/
def add (env : Env V X) (tip : Tip T E V X) (r : Stroke E V X) (t : T) (isLast : Bool) : Option (Stroke E V X) :=
  if tip.small t then r.stop env tip
  else
    let new := tip.make t
    match r.part with
    | [] => (r.push new).advance env tip
    | c :: older =>
      match tip.constrain c new with
      | .proposedValid => (r.push new).advance env tip
      | .found x tooSimilar => if tooSimilar ∧ !isLast then some r else (r.push x).advance env tip
      | .proposedContainsLast =>
        if ∀ x ∈ older, tip.contains new x then (r.forget env).bind fun r => (r.push new).advance env tip
        else (r.stop env tip).bind fun r => (r.push new).advance env tip
      | .lastContainsProposed => some r
      | .cannotFind => some r

def addAll (env : Env V X) (tip : Tip T E V X) (r : Stroke E V X) : List (T × Bool) → Option (Stroke E V X)
  | [] => some r
  | t :: ts => (r.add env tip t.1 t.2).bind fun r => addAll env tip r ts

end Stroke

/-- The states of a list, and whether they are the last one (if `last`). -/
def marked (last : Bool) : List T → List (T × Bool)
  | [] => []
  | [t] => [(t, last)]
  | t :: ts => (t, false) :: marked last ts

/-- The fixed states of a call; the last one is the last of the call if there are no volatile ones. -/
def markedFixed (c : List T × List T) : List (T × Bool) := marked c.2.isEmpty c.1

/-- A stroke of fixed states and then volatile ones. -/
def strokeOf (env : Env V X) (tip : Tip T E V X) (save : Save V X) (fixed : List (T × Bool)) (volatile : List T) :
    Option (Stroke E V X) :=
  ((Stroke.start env save).addAll env tip fixed).bind fun r =>
    ({ r with geometry := trimmed r.geometry } : Stroke E V X).addAll env tip (marked true volatile) |>.bind fun r => r.stop env tip

end Verif.StrokeGeom.Spec
