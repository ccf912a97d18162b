import Verif.Model.StrokeGeometry

/-!
# Model of `BrushTipExtruder`

From `ink/strokes/internal/brush_tip_extruder.{h,cc}`, on the model of `Geometry` (`Model/StrokeGeometry.lean`).

Parameters (`Tip`): the shapes of tip states and the relations between them (`BrushTipExtrusion`, `ConstrainBrushTipExtrusion`,
`BrushTipShape::Contains`), and what is done with the geometry for the points of a turn, a start cap, an end cap or a whole shape
(`ExtrudeGeometry`) and for derivatives: a list of changes, each computed from the geometry.

`StrokeOutline` is the pair of its left and right indices (C36). Bounds and the returned update are not modelled. `debug` says
whether DCHECKs are compiled; `none` is a failed CHECK (or DCHECK) or an access outside a vector.
-/

set_option autoImplicit false

namespace Verif.StrokeGeom

/-- constrain_brush_tip_extrusion.h:30-70 `ConstrainedBrushTipExtrusion`; of `lerp_amount`, whether it is below the minimum of
brush_tip_extruder.cc:318-320. -/
inductive Constrained (E : Type) where
  | proposedValid
  | found (e : E) (tooSimilar : Bool)
  | proposedContainsLast
  | lastContainsProposed
  | cannotFind

/-- A program that changes the geometry. -/
abbrev Program (V X : Type) := List (Geometry V X → Op V X)

/-- What the extruder uses of tips. `T` are tip states, `E` extrusions of them. -/
structure Tip (T E V X : Type) where
  /-- brush_tip_extruder.cc:452 -/
  small : T → Bool
  make : T → E
  /-- `ConstrainBrushTipExtrusion(last, proposed)` -/
  constrain : E → E → Constrained E
  /-- `new.GetShape().Contains(old.GetShape())` -/
  contains : E → E → Bool
  turn : E → E → E → Program V X
  startcap : E → E → Program V X
  endcap : E → E → Program V X
  whole : E → Program V X
  /-- geometry.cc:578-620 `UpdateMeshDerivatives`: which vertices are updated depends on the geometry and on which parts of the mesh
  have changed. The latter is not modelled, so the updates may be different ones at each moment. -/
  derivatives : Nat → Geometry V X → List (Nat × (V → V))

/-- brush_tip_extruder.h:222-253, the data members that are modelled. `none` is a break-point. `moment`
is not part of the code, see `Tip.derivatives`. -/
structure Extruder (E V X : Type) where
  extrusions : List (Option E)
  savedCount : Nat
  deleted : List (Option E)
  geometry : Geometry V X
  outlines : List (List Nat × List Nat)
  moment : Nat

section

variable {T E V X : Type}

/-- The changes one after the other. -/
def Geometry.exec (env : Env V X) (g : Geometry V X) : Program V X → Option (Geometry V X)
  | [] => some g
  | p :: ps => (g.step env (p g)).bind fun g => g.exec env ps

namespace Extruder

/-- brush_tip_extruder.cc:59-73 `StartStroke` -/
def start (env : Env V X) (save : Save V X) : Extruder E V X :=
  { extrusions := [], savedCount := 0, deleted := [], geometry := Geometry.reset env save, outlines := [([], [])], moment := 0 }

/-- Subtraction of `uint32_t`. -/
def sub32 (a b : Nat) : Nat := if b ≤ a then a - b else 2 ^ 32 + a - b

/-- `outlines_.back().TruncateIndices({.left = a, .right = b})`, see stroke_outline.h:107-112 -/
def truncateLast (a b : Nat) (os : List (List Nat × List Nat)) : List (List Nat × List Nat) :=
  match os.getLast? with
  | some o => os.dropLast ++ [(o.1.take a, o.2.take b)]
  | none => os

/-- brush_tip_extruder.cc:213-236 `TruncateOutlines` -/
def truncateOutlines (debug : Bool) (e : Extruder E V X) : Option (Extruder E V X) :=
  let g := e.geometry
  if debug ∧ ¬ g.lastBreak.count ≤ e.outlines.length then none
  else if e.outlines.length ≥ g.lastBreak.count + 1 then
    if debug ∧ ¬ (g.lastBreak.left.indexCount ≤ g.firstMutatedLeft ∧ g.lastBreak.right.indexCount ≤ g.firstMutatedRight) then none
    else some { e with
      outlines := truncateLast (sub32 g.firstMutatedLeft g.lastBreak.left.indexCount)
        (sub32 g.firstMutatedRight g.lastBreak.right.indexCount) (e.outlines.take (g.lastBreak.count + 1)) }
  else some e

/-- brush_tip_extruder.cc:207-211 `Save` -/
def save (e : Extruder E V X) : Extruder E V X :=
  { e with savedCount := e.extrusions.length, deleted := [], geometry := e.geometry.setSavePoint }

/-- brush_tip_extruder.cc:238-244 `Restore` -/
def restore (debug : Bool) (env : Env V X) (order : {α : Type} → List α → List α) (e : Extruder E V X) :
    Option (Extruder E V X) := do
  let es ← copyToEnd (resize e.extrusions e.savedCount none) e.deleted
  let g ← e.geometry.revert env order
  truncateOutlines debug { e with extrusions := es, geometry := g }

/-- brush_tip_extruder.cc:268-276 the extrusions that `ClearSinceLastExtrusionBreak` keeps for `Restore` -/
def keepDeleted (e : Extruder E V X) (first : Nat) (isVolatile : Bool) : Option (List (Option E)) :=
  if isVolatile ∧ e.deleted = [] ∧ first < e.savedCount then slice e.extrusions first e.savedCount else some e.deleted

/-- brush_tip_extruder.cc:246-282 `ClearSinceLastExtrusionBreak`; `first` is the index of the first extrusion to erase. -/
def clear (debug : Bool) (env : Env V X) (e : Extruder E V X) (first : Nat) (isVolatile : Bool) : Option (Extruder E V X) :=
  if first < e.extrusions.length then do
    let deleted ← e.keepDeleted first isVolatile
    let g ← e.geometry.clearSinceBreak env
    truncateOutlines debug { e with deleted := deleted, extrusions := e.extrusions.take first, geometry := g }
  else none

/-- brush_tip_extruder.cc:505-520 -/
def endProgram (tip : Tip T E V X) (rest : List (Option E)) (c : E) : Program V X :=
  match rest with
  | some b :: _ => tip.endcap b c
  | _ => tip.whole c

/-- brush_tip_extruder.cc:540-542 -/
def openOutline (os : List (List Nat × List Nat)) (count : Nat) : List (List Nat × List Nat) :=
  if os.length = count then os ++ [([], [])] else os

/-- brush_tip_extruder.cc:547-561 the last outline is completed. -/
def completeOutline (debug : Bool) (os : List (List Nat × List Nat)) (count left right : Nat) (l r : List Nat) :
    Option (List (List Nat × List Nat)) := do
  let o ← os.getLast?
  if (debug ∧ count ≠ os.length) ∨ ¬ left + o.1.length ≤ l.length ∨ ¬ right + o.2.length ≤ r.length then none
  else some (os.dropLast ++ [(o.1 ++ l.drop (left + o.1.length), o.2 ++ r.drop (right + o.2.length))])

/-- brush_tip_extruder.cc:529-561 the second half of `ExtrudeBreakPoint` -/
def finishBreak (debug : Bool) (env : Env V X) (tip : Tip T E V X) (e : Extruder E V X) : Option (Extruder E V X) :=
  let b := e.geometry.lastBreak
  if e.geometry.left.indices.length ≤ b.left.indexCount ∧ e.geometry.right.indices.length ≤ b.right.indexCount then some e
  else do
    let os := openOutline e.outlines b.count
    let g ← e.geometry.addBreak env
    let g ← g.updateVertices (tip.derivatives e.moment g)
    let os ← completeOutline debug os g.lastBreak.count b.left.indexCount b.right.indexCount g.left.indices g.right.indices
    some { e with extrusions := e.extrusions ++ [none], geometry := g, outlines := os, moment := e.moment + 1 }

/-- brush_tip_extruder.cc:498-562 `ExtrudeBreakPoint` -/
def breakPoint (debug : Bool) (env : Env V X) (tip : Tip T E V X) (e : Extruder E V X) : Option (Extruder E V X) :=
  match e.extrusions.reverse with
  | some c :: rest => do
    let g ← e.geometry.exec env (endProgram tip rest c)
    finishBreak debug env tip { e with geometry := g }
  | _ => some e

/-- brush_tip_extruder.cc:329-359 the tip shapes before the last one, back to a break-point, are contained in the new one, or there
is a break. The shapes are examined from the last to the first; only whether one is not contained matters. -/
def swallow (debug : Bool) (env : Env V X) (tip : Tip T E V X) (e : Extruder E V X) (new : E) (rest : List (Option E))
    (isVolatile : Bool) : Option (Extruder E V X) :=
  let part := (rest.takeWhile Option.isSome).filterMap id
  if part.all (tip.contains new) then e.clear debug env (e.extrusions.length - 1 - part.length) isVolatile
  else e.breakPoint debug env tip

/-- Appends an extrusion. -/
def push (e : Extruder E V X) (x : E) : Extruder E V X := { e with extrusions := e.extrusions ++ [some x] }

/-- brush_tip_extruder.cc:284-382 `TryAppendNonBreakPointState` -/
def tryAppend (debug : Bool) (env : Env V X) (tip : Tip T E V X) (e : Extruder E V X) (t : T) (isVolatile isLast : Bool) :
    Option (Bool × Extruder E V X) :=
  match e.extrusions.reverse with
  | some c :: rest =>
    match tip.constrain c (tip.make t) with
    | .proposedValid => some (true, e.push (tip.make t))
    | .found x tooSimilar => if !isLast ∧ tooSimilar then some (false, e) else some (true, e.push x)
    | .proposedContainsLast => (e.swallow debug env tip (tip.make t) rest isVolatile).bind fun e => some (true, e.push (tip.make t))
    | .lastContainsProposed => some (false, e)
    | .cannotFind => some (false, e)
  | _ => some (true, e.push (tip.make t))

/-- brush_tip_extruder.cc:462-494 what is extruded after an extrusion was appended -/
def turnProgram (tip : Tip T E V X) : List (Option E) → Program V X
  | some c :: some b :: some a :: _ => tip.turn a b c
  | some c :: some b :: _ => tip.startcap b c
  | _ => []

/-- brush_tip_extruder.cc:450-495 `Extrude` -/
def extrude (debug : Bool) (env : Env V X) (tip : Tip T E V X) (e : Extruder E V X) (t : T) (isVolatile isLast : Bool) :
    Option (Extruder E V X) :=
  if tip.small t then e.breakPoint debug env tip
  else (e.tryAppend debug env tip t isVolatile isLast).bind fun r =>
    if r.1 then (r.2.geometry.exec env (turnProgram tip r.2.extrusions.reverse)).bind fun g => some { r.2 with geometry := g }
    else some r.2

/-- brush_tip_extruder.cc:112-116, 121-125 the loops of `ExtendStroke`; `last` says whether the last of the states is the last one of
the call. -/
def extrudeAll (debug : Bool) (env : Env V X) (tip : Tip T E V X) (isVolatile last : Bool) (e : Extruder E V X) :
    List T → Option (Extruder E V X)
  | [] => some e
  | t :: ts => (e.extrude debug env tip t isVolatile (last && ts.isEmpty)).bind fun e => extrudeAll debug env tip isVolatile last e ts

/-- brush_tip_extruder.cc:99-131 `ExtendStroke` -/
def extend (debug : Bool) (env : Env V X) (tip : Tip T E V X) (order : {α : Type} → List α → List α) (e : Extruder E V X)
    (fixed volatile : List T) : Option (Extruder E V X) := do
  let e ← restore debug env order { e with geometry := e.geometry.resetTracking }
  let e ← e.extrudeAll debug env tip false volatile.isEmpty fixed
  let e ← e.save.extrudeAll debug env tip true true volatile
  e.breakPoint debug env tip

/-- Any number of calls. -/
def extendAll (debug : Bool) (env : Env V X) (tip : Tip T E V X) (order : {α : Type} → List α → List α) (e : Extruder E V X) :
    List (List T × List T) → Option (Extruder E V X)
  | [] => some e
  | c :: cs => (e.extend debug env tip order c.1 c.2).bind fun e => extendAll debug env tip order e cs

end Extruder

end

end Verif.StrokeGeom
