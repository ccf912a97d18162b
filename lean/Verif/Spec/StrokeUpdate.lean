import Verif.Model.StrokeUpdate
import Verif.Spec.StrokeGeometry

/-!
# Specification of the updates reported while a stroke is drawn (C55)
-/

set_option autoImplicit false

namespace Verif.StrokeGeom.Spec

open Verif.StrokeGeom

variable {V X P : Type}

/-- A buffer `b` that was copied before a change is brought up to date by copying what follows the offset (stroke_shape_update.h:36-44):
without an offset nothing has changed. -/
def Unchanged {α : Type} (before after : List α) : Option Nat → Prop
  | none => after = before
  | some k => k ≤ before.length ∧ k ≤ after.length ∧ after.take k = before.take k

/-- The index buffer of the mesh. -/
def indexBuffer (g : Geometry V X) : List Nat := g.triangles.flatMap fun t => [t.1, t.2.1, t.2.2]

/-- Tracking is only reset at the start of an update. -/
def NotReset : Op V X → Prop
  | .resetTracking => False
  | _ => True

/-- The vertices at the corners of triangle `j`; none if there is no such triangle. -/
def drawn (g : Geometry V X) (j : Nat) : List V :=
  match g.triangles[j]? with
  | none => []
  | some t => [t.1, t.2.1, t.2.2].filterMap (g.vertices[·]?)

/-- All triangles that disappear, appear, or change are in the region: their corners are, and so is what is between them in any
rectangle around the region. -/
def Covers (pos : V → P) (before after : Geometry V X) (region : List P) : Prop :=
  ∀ j, drawn before j ≠ drawn after j → ∀ v ∈ drawn before j ++ drawn after j, pos v ∈ region

/-! ### What the extruder does as long as it does not retriangulate a self-intersection -/

/-- A triangle is added between the last vertices of both sides and the new vertex (geometry.cc:834-843), if both sides have
vertices in the current partition (geometry.cc:320-328). -/
def extrude (k : SideId) (v : V) : Tracked.Move V X := fun g =>
  match g.left.indices.getLast?, g.right.indices.getLast? with
  | some l, some r =>
    if g.left.state.adjacentFirst < g.left.indices.length ∧ g.right.state.adjacentFirst < g.right.indices.length then
      [.appendVertex k v, .appendTriangle (l, r, g.vertices.length)]
    else []
  | _, _ => []

/-- Members of a side are changed, the start of its partition is not moved back. -/
def changeState (k : SideId) (s : SideState V X) : Tracked.Move V X := fun g =>
  if (g.side k).state.adjacentFirst ≤ s.adjacentFirst then [.setState k s] else []

/-- These changes, new vertices, changes of vertices, breaks, clearing, and updates of derivatives, which do not move vertices. -/
inductive PlainMove (pos : V → P) : Tracked.Move V X → Prop
  | buffer (k : SideId) (v : V) : PlainMove pos fun _ => [.bufferVertex k v]
  | append (k : SideId) (v : V) : PlainMove pos fun _ => [.appendVertex k v]
  | extrude (k : SideId) (v : V) : PlainMove pos (extrude k v)
  | setVertex (i : Nat) (v : V) : PlainMove pos fun _ => [.setVertex i v]
  | setOpposite (i o : Nat) : PlainMove pos fun _ => [.setOpposite i o]
  | addDiscontinuity (k : SideId) (r : Nat × Nat) : PlainMove pos fun _ => [.addDiscontinuity k r]
  | changeState (k : SideId) (s : SideState V X) : PlainMove pos (changeState k s)
  | addBreak : PlainMove pos fun _ => [.addBreak]
  | clear : PlainMove pos fun _ => [.clear]
  | derivatives (us : List (Nat × (V → V))) (h : ∀ u ∈ us, ∀ v, pos (u.2 v) = pos v) : PlainMove pos fun _ => [.derivatives us]

/-- The first triangles, as many as there were when predictions began, use the first vertices, as many as there were then. -/
def Fits (g : Geometry V X) : Prop :=
  ∀ (j : Nat) (t : Tri), g.triangles[j]? = some t → j < g.save.nTriangles →
    t.1 < g.save.nVertices ∧ t.2.1 < g.save.nVertices ∧ t.2.2 < g.save.nVertices

end Verif.StrokeGeom.Spec
