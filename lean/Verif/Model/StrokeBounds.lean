import Verif.Model.StrokeGeometry

/-!
# Model of the bounds of a stroke in progress

From `ink/strokes/internal/brush_tip_extruder.{h,cc}`: the bounds that are computed incrementally. The geometry is that of
`Model/StrokeGeometry.lean`, and what is done to it is any sequence of its changes. Envelopes are lists of the points that were added
to them, which determine the smallest rectangle (C20). `pos` is the position of a vertex. `none` is a failed CHECK or an access
outside a vector.
-/

set_option autoImplicit false

namespace Verif.StrokeGeom

variable {V X P : Type}

/-- brush_tip_extruder.h:108-126 `Bounds` -/
structure Bounds (P : Type) where
  cached : List P := []
  left : Nat := 0
  right : Nat := 0
  current : List P := []

namespace Bounds

/-- brush_tip_extruder.cc:133-137 `ClearCachedPartialBounds` -/
def clearCached (b : Bounds P) : Bounds P := { b with cached := [], left := 0, right := 0 }

/-- brush_tip_extruder.cc:141-147 `AddPositionsToEnvelope` -/
def addPositions (pos : V → P) (vs : List V) (e : List P) : List Nat → Option (List P)
  | [] => some e
  | i :: is => do
    let v ← vs[i]?
    addPositions pos vs (e ++ [pos v]) is

/-- brush_tip_extruder.cc:149-171 `UpdateCachedPartialBoundsForSide` -/
def cacheSide (pos : V → P) (vs : List V) (s : Side V X) (e : List P) (n : Nat) : Option (List P × Nat) :=
  if n ≤ s.indices.length then do
    let new := (s.indices.drop n).dropLast
    let e ← addPositions pos vs e new
    some (e, n + new.length)
  else none

/-- brush_tip_extruder.cc:175-191 `UpdateCachedPartialBounds` -/
def updateCached (pos : V → P) (g : Geometry V X) (b : Bounds P) : Option (Bounds P) := do
  let (e, l) ← cacheSide pos g.vertices g.left b.cached b.left
  let (e, r) ← cacheSide pos g.vertices g.right e b.right
  some { b with cached := e, left := l, right := r }

/-- `subspan`, whose offset must not be greater than the size -/
def subspan (l : List Nat) (n : Nat) : Option (List Nat) := if n ≤ l.length then some (l.drop n) else none

/-- brush_tip_extruder.cc:193-206 `UpdateCurrentBounds` -/
def updateCurrent (pos : V → P) (g : Geometry V X) (b : Bounds P) : Option (Bounds P) := do
  let l ← subspan g.left.indices b.left
  let e ← addPositions pos g.vertices b.cached l
  let r ← subspan g.right.indices b.right
  let e ← addPositions pos g.vertices e r
  some { b with current := e }

end Bounds

/-- A change of the geometry that depends on it. -/
abbrev Change (V X : Type) := Geometry V X → Op V X

/-- brush_tip_extruder.cc:241-281: after geometry has been deleted, the cached bounds are cleared. -/
def boundsAfter (b : Bounds P) : Op V X → Bounds P
  | .clear => b.clearCached
  | _ => b

/-- Some changes. -/
def runBounds (env : Env V X) (g : Geometry V X) (b : Bounds P) : List (Change V X) → Option (Geometry V X × Bounds P)
  | [] => some (g, b)
  | c :: cs => do
    let g' ← g.step env (c g)
    runBounds env g' (boundsAfter b (c g)) cs

/-- brush_tip_extruder.cc:102-131 `ExtendStroke`, what concerns the geometry and its bounds -/
def extendBounds (pos : V → P) (env : Env V X) (order : {α : Type} → List α → List α) (g : Geometry V X) (b : Bounds P)
    (real predicted : List (Change V X)) : Option (Geometry V X × Bounds P) := do
  let g ← g.resetTracking.revert env order
  let (g, b) ← runBounds env g b real
  let b ← b.updateCached pos g
  let (g, b) ← runBounds env g.setSavePoint b predicted
  let b ← b.updateCurrent pos g
  some (g, b)

/-- ... any number of times. -/
def extendBoundsAll (pos : V → P) (env : Env V X) (order : {α : Type} → List α → List α) (g : Geometry V X) (b : Bounds P) :
    List (List (Change V X) × List (Change V X)) → Option (Geometry V X × Bounds P)
  | [] => some (g, b)
  | (real, predicted) :: rs => do
    let (g, b) ← extendBounds pos env order g b real predicted
    extendBoundsAll pos env order g b rs

end Verif.StrokeGeom
