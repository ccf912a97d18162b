import Verif.Lemmas.StrokeBounds

/-!
# C56: bounds of a stroke in progress
-/

set_option autoImplicit false

namespace Verif.StrokeGeom

open Verif.StrokeGeom.Spec

variable {V X P : Type}

/-- **C56**: after any number of updates of a stroke, with any real and predicted tips, the bounds that are maintained are exactly
those of all vertices of the mesh, as long as self-intersections are not retriangulated: only the last vertex of each side is moved.
Computing the bounds does not fail if computing the geometry does not, and has no influence on the geometry. -/
theorem C56_bounds_partial (pos : V → P) (env : Env V X) (order : {α : Type} → List α → List α) (ho : IsOrder order) (sv : Save V X)
    (rounds : List (List (Change V X) × List (Change V X))) (hne : rounds ≠ [])
    (hm : ∀ r ∈ rounds, ∀ c ∈ r.1 ++ r.2, ∀ g, MovesLast pos g (c g)) (g : Geometry V X)
    (h : extendGeometry env order (Geometry.reset env sv) rounds = some g) :
    ∃ b, extendBoundsAll pos env order (Geometry.reset env sv) {} rounds = some (g, b) ∧ BoundsOf pos g b.current := by
  obtain ⟨b, h1, -, h2⟩ := going_extendAll ho rounds (going_reset pos env sv) hm h
  exact ⟨b, h1, h2 hne⟩

/-! ### A concrete stroke: a vertex is its position, a number, and its other attributes, another number. -/

section Example

abbrev env2 : Env (Nat × Nat) Bool where
  blank := (0, 0)
  fresh := false
  exteriorFront := fun _ v => (v.1, v.2 + 1000)
  exteriorBack := fun v => (v.1, v.2 + 2000)
  retriangulating := id

abbrev side2 : SaveSide (Nat × Nat) Bool := ⟨0, 0, [], [], ⟨0, 0, 0, 0, [], 0, false⟩⟩

abbrev save2 : Save (Nat × Nat) Bool := ⟨false, false, 0, 0, [], [], [], [], [], {}, side2, side2⟩

abbrev C2 := Change (Nat × Nat) Bool

/-- Move the last vertex of the left side. -/
abbrev moveLast2 (v : Nat × Nat) : C2 := fun g =>
  match g.left.indices.getLast? with
  | some i => .setVertex i v
  | none => .resetTracking

theorem movesLast2 (v : Nat × Nat) (g : Geometry (Nat × Nat) Bool) : MovesLast (fun v : Nat × Nat => v.1) g (moveLast2 v g) := by
  unfold moveLast2
  cases h : g.left.indices.getLast? with
  | none => trivial
  | some i => exact Or.inr (Or.inl h)

/-- Vertices, one of which is moved; predictions that delete it and draw something else; more vertices. -/
abbrev rounds2 : List (List C2 × List C2) :=
  [([fun _ => .appendVertex .left (1, 0), fun _ => .appendVertex .right (2, 0), fun _ => .addBreak, fun _ => .appendVertex .left (3, 0),
     moveLast2 (4, 0)], [moveLast2 (5, 0), fun _ => .clear, fun _ => .appendVertex .right (6, 0)]),
   ([fun _ => .appendVertex .left (7, 0), fun _ => .appendVertex .left (8, 0)], [moveLast2 (9, 0), fun _ => .appendVertex .right (10, 0)]),
   ([fun _ => .appendVertex .right (11, 0)], [])]

/-- The hypotheses of `C56_bounds_partial` are met, and the bounds are those of the vertices 1, 2, 4, 7, 8 and 11. -/
example : rounds2 ≠ [] ∧ (∀ r ∈ rounds2, ∀ c ∈ r.1 ++ r.2, ∀ g, MovesLast (fun v : Nat × Nat => v.1) g (c g)) ∧
    ∃ g, extendGeometry env2 (fun l => l) (Geometry.reset env2 save2) rounds2 = some g ∧ g.vertices.map (·.1) = [1, 2, 4, 7, 8, 11] := by
  refine ⟨by simp, ?_, _, rfl, by decide +kernel⟩
  intro r hr
  simp only [rounds2, List.mem_cons, List.not_mem_nil, or_false] at hr
  rcases hr with rfl | rfl | rfl
  · intro c hc g
    simp only [List.mem_append, List.mem_cons, List.not_mem_nil, or_false] at hc
    rcases hc with (rfl | rfl | rfl | rfl | rfl) | rfl | rfl | rfl <;> first | exact movesLast2 _ _ | trivial
  · intro c hc g
    simp only [List.mem_append, List.mem_cons, List.not_mem_nil, or_false] at hc
    rcases hc with (rfl | rfl) | rfl | rfl <;> first | exact movesLast2 _ _ | trivial
  · intro c hc g
    simp only [List.mem_append, List.mem_cons, List.not_mem_nil, or_false] at hc
    subst hc
    trivial

/-- **C56** (defect): if a vertex before the last one of its side is moved, as retriangulation does, the bounds keep its old position
and do not contain the new one. The header of the extruder requires to clear the cached bounds then, but nothing does. -/
theorem C56_moved_counterexample :
    ∃ (rounds : List (List C2 × List C2)) (g : Geometry (Nat × Nat) Bool) (b : Bounds Nat),
      extendBoundsAll (fun v => v.1) env2 (fun l => l) (Geometry.reset env2 save2) {} rounds = some (g, b) ∧
      g.vertices.map (·.1) = [9, 2, 3] ∧ b.current = [1, 2, 3] ∧ ¬ BoundsOf (fun v => v.1) g b.current := by
  refine ⟨[([fun _ => .appendVertex .left (1, 0), fun _ => .appendVertex .left (2, 0), fun _ => .appendVertex .left (3, 0)], []),
    ([fun _ => .setVertex 0 (9, 0)], [])], _, _, rfl, by decide +kernel, by decide +kernel, ?_⟩
  intro h
  have := (h 9).2 (by decide +kernel)
  revert this
  decide +kernel

end Example

end Verif.StrokeGeom
