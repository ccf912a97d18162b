import Verif.Model.StrokeGeometry

/-!
# Specification of save points of a stroke's geometry (C49)

What the geometry of a stroke *is*, histories of changes, and strokes that are extended with predictions.
-/

set_option autoImplicit false

namespace Verif.StrokeGeom.Spec

open Verif.StrokeGeom

variable {V X C : Type}

/-- All that later changes of the geometry, and its readers, depend on. Vertices are seen through `core`. -/
structure Contents (V X C : Type) where
  vertices : List C
  triangles : List Tri
  ids : List SideId
  offsets : List Nat
  opposite : List Nat
  left : Side V X
  right : Side V X
  lastBreak : Break

def contents (core : V → C) (g : Geometry V X) : Contents V X C :=
  { vertices := g.vertices.map core
    triangles := g.triangles
    ids := g.ids
    offsets := g.offsets
    opposite := g.opposite
    left := g.left
    right := g.right
    lastBreak := g.lastBreak }

/-- Derivative updates write attributes that `core` ignores, all other operations are arbitrary. -/
def Keeps (core : V → C) : Op V X → Prop
  | .derivatives us => ∀ u ∈ us, ∀ v, core (u.2 v) = core v
  | _ => True

/-- Not an update of derivatives. -/
def NotDerivatives : Op V X → Prop
  | .derivatives _ => False
  | _ => True

/-- Not a break. -/
def NotBreak : Op V X → Prop
  | .addBreak => False
  | _ => True

/-- A hash map is iterated in some order. -/
def IsOrder (order : {α : Type} → List α → List α) : Prop := ∀ {α : Type} (l : List α), (order l).Perm l

/-- Calls in the life of a geometry. -/
inductive Call (V X : Type) where
  | op (o : Op V X)
  | save
  | revert

def call (env : Env V X) (order : {α : Type} → List α → List α) (g : Geometry V X) : Call V X → Option (Geometry V X)
  | .op o => g.step env o
  | .save => some g.setSavePoint
  | .revert => g.revert env order

def calls (env : Env V X) (order : {α : Type} → List α → List α) (g : Geometry V X) : List (Call V X) → Option (Geometry V X)
  | [] => some g
  | c :: cs => (call env order g c).bind fun g => calls env order g cs

/-- A change whose kind and arguments are computed from the contents. -/
abbrev Strategy (V X C : Type) := Contents V X C → Op V X

/-- Changes, one after the other. -/
def runBy (env : Env V X) (core : V → C) (g : Geometry V X) : List (Strategy V X C) → Option (Geometry V X)
  | [] => some g
  | p :: ps => (g.step env (p (contents core g))).bind fun g => runBy env core g ps

/-- A stroke is extended: the predictions of the last time are undone, the new input is processed, its result is saved, and the new
predictions are processed. -/
def extend (env : Env V X) (order : {α : Type} → List α → List α) (core : V → C) (g : Geometry V X)
    (real predicted : List (Strategy V X C)) : Option (Geometry V X) :=
  (g.revert env order).bind fun g => (runBy env core g real).bind fun g => runBy env core g.setSavePoint predicted

/-- ... any number of times. -/
def extendAll (env : Env V X) (order : {α : Type} → List α → List α) (core : V → C) (g : Geometry V X) :
    List (List (Strategy V X C) × List (Strategy V X C)) → Option (Geometry V X)
  | [] => some g
  | (real, predicted) :: rs => (extend env order core g real predicted).bind fun g => extendAll env order core g rs

/-- The only effect of a save point on later changes: one buffered vertex of each side is left. -/
def trimmed (g : Geometry V X) : Geometry V X :=
  { g with left := Geometry.keepLast g.left, right := Geometry.keepLast g.right }

/-- The label that `AddExtrusionBreak` sets is not computed from what `core` ignores. -/
def Respects (core : V → C) (env : Env V X) : Prop :=
  ∀ v w, core v = core w → core (env.exteriorBack v) = core (env.exteriorBack w)

end Verif.StrokeGeom.Spec
