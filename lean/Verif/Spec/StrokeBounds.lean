import Verif.Model.StrokeBounds
import Verif.Spec.StrokeGeometry

/-!
# Specification of the bounds of a stroke in progress (C56)
-/

set_option autoImplicit false

namespace Verif.StrokeGeom.Spec

open Verif.StrokeGeom

variable {V X P : Type}

/-- The bounds are those of all vertices of the mesh: the same points were added to them, in any order and any number of times. -/
def BoundsOf (pos : V → P) (g : Geometry V X) (e : List P) : Prop := ∀ p, p ∈ e ↔ p ∈ g.vertices.map pos

/-- Of the vertices only the last one of each side is moved. Anything else may be done to the geometry, and to other attributes. -/
def MovesLast (pos : V → P) (g : Geometry V X) : Op V X → Prop
  | .setVertex i v => (∀ w, g.vertices[i]? = some w → pos v = pos w) ∨ g.left.indices.getLast? = some i ∨ g.right.indices.getLast? = some i
  | .derivatives us => ∀ u ∈ us, ∀ v, pos (u.2 v) = pos v
  | _ => True

/-- What happens to the geometry without its bounds: changes one after the other, ... -/
def runChanges (env : Env V X) (g : Geometry V X) : List (Change V X) → Option (Geometry V X)
  | [] => some g
  | c :: cs => (g.step env (c g)).bind fun g => runChanges env g cs

/-- ... and updates of a stroke: undo predictions, real input, save point, predictions. -/
def extendGeometry (env : Env V X) (order : {α : Type} → List α → List α) (g : Geometry V X) :
    List (List (Change V X) × List (Change V X)) → Option (Geometry V X)
  | [] => some g
  | (real, predicted) :: rs =>
    (g.resetTracking.revert env order).bind fun g => (runChanges env g real).bind fun g =>
      (runChanges env g.setSavePoint predicted).bind fun g => extendGeometry env order g rs

end Verif.StrokeGeom.Spec
