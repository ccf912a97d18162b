import Verif.Lemmas.StrokeGeometry

/-!
# C49: predictions leave no trace in the geometry of a stroke
-/

set_option autoImplicit false

namespace Verif.StrokeGeom

open Verif.StrokeGeom.Spec

variable {V X C : Type}

/-- **C49** (restoration): set a save point in any state that the geometry can have, change the geometry in any way, and revert: it
has the same vertices, triangles, sides, outlines, buffered vertices and extrusion breaks as before. Of the vertices only
attributes are different that updates of derivatives may have written. -/
theorem C49_revert_partial (env : Env V X) (core : V → C) (order order' : {α : Type} → List α → List α) (ho : IsOrder order)
    (ho' : IsOrder order') (sv : Save V X) (history : List (Call V X)) (g : Geometry V X)
    (hg : calls env order (Geometry.reset env sv) history = some g) (ops : List (Op V X)) (hops : ∀ op ∈ ops, Keeps core op)
    (s : Geometry V X) (hs : g.setSavePoint.run env ops = some s) :
    ∃ r, s.revert env order' = some r ∧ contents core r = contents core g ∧ r.save.active = false := by
  obtain ⟨g0, -, G0⟩ := reach_calls ho history (reach_reset env sv) hg
  have G : Good core g g.setSavePoint := ⟨wf_save G0.1, fun _ => inv_save core G0.1⟩
  have G' := good_run G0.1 ops G hops hs
  have ha : s.save.active = true := (run_active ops hs).trans rfl
  obtain ⟨r, hr, hc, hi, -⟩ := revert_ok (env := env) ho' G0.1 (G'.2 ha) ha
  exact ⟨r, hr, hc, hi⟩

/-- **C49** (exact restoration): if derivatives are not updated, nothing is different. -/
theorem C49_revert_exact (env : Env V X) (order order' : {α : Type} → List α → List α) (ho : IsOrder order)
    (ho' : IsOrder order') (sv : Save V X) (history : List (Call V X)) (g : Geometry V X)
    (hg : calls env order (Geometry.reset env sv) history = some g) (ops : List (Op V X)) (hops : ∀ op ∈ ops, NotDerivatives op)
    (s : Geometry V X) (hs : g.setSavePoint.run env ops = some s) :
    ∃ r, s.revert env order' = some r ∧ r.vertices = g.vertices ∧ r.triangles = g.triangles ∧ r.ids = g.ids ∧
      r.offsets = g.offsets ∧ r.opposite = g.opposite ∧ r.left = g.left ∧ r.right = g.right ∧ r.lastBreak = g.lastBreak := by
  obtain ⟨r, hr, hc, -⟩ := C49_revert_partial env (id : V → V) order order' ho ho' sv history g hg ops
    (fun op h => by have := hops op h; cases op <;> simp_all [Keeps, NotDerivatives]) s hs
  have S := same_iff.2 hc
  exact ⟨r, hr, by simpa using S.1, S.2, S.3, S.4, S.5, S.6, S.7, S.8⟩

/-- **C49** (history independence): however often a stroke was extended, and whatever was predicted before, its geometry is that of
all its input followed by the last predictions. Every change may depend on all of the geometry. -/
theorem C49_extend_partial (env : Env V X) (core : V → C) (he : Respects core env) (order : {α : Type} → List α → List α)
    (ho : IsOrder order) (sv : Save V X) (rounds : List (List (Strategy V X C) × List (Strategy V X C)))
    (real predicted : List (Strategy V X C))
    (hk : ∀ r ∈ rounds ++ [(real, predicted)], (∀ p ∈ r.1, ∀ c, Keeps core (p c)) ∧ ∀ p ∈ r.2, ∀ c, Keeps core (p c))
    (s : Geometry V X) (hs : extendAll env order core (Geometry.reset env sv) (rounds ++ [(real, predicted)]) = some s) :
    ∃ t u, runBy env core (Geometry.reset env sv) (rounds.flatMap (·.1) ++ real) = some t ∧
      runBy env core (trimmed t) predicted = some u ∧ contents core s = contents core u := by
  rw [extendAll_append] at hs
  obtain ⟨s1, h1, hs⟩ := bind_some hs
  obtain ⟨t1, ht1, A1⟩ := extendAll_ahead he ho rounds (ahead_reset core env sv)
    (fun r hr => hk r (List.mem_append_left _ hr)) h1
  obtain ⟨s2, h2, hs⟩ := bind_some hs
  injection hs with hs; subst hs
  have hk1 := hk (real, predicted) (List.mem_append_right _ (List.mem_singleton_self _))
  obtain ⟨t, u, ht, -, hu, S⟩ := extend_ahead he ho A1 hk1.1 hk1.2 h2
  exact ⟨t, u, by rw [runBy_append, ht1]; exact ht, hu, same_iff.1 S⟩

/-- **C49** (undoing all predictions): what is left is the geometry of the input alone. -/
theorem C49_no_trace_partial (env : Env V X) (core : V → C) (he : Respects core env) (order : {α : Type} → List α → List α)
    (ho : IsOrder order) (sv : Save V X) (rounds : List (List (Strategy V X C) × List (Strategy V X C)))
    (hk : ∀ r ∈ rounds, (∀ p ∈ r.1, ∀ c, Keeps core (p c)) ∧ ∀ p ∈ r.2, ∀ c, Keeps core (p c))
    (s : Geometry V X) (hs : extendAll env order core (Geometry.reset env sv) rounds = some s) :
    ∃ r t, s.revert env order = some r ∧ runBy env core (Geometry.reset env sv) (rounds.flatMap (·.1)) = some t ∧
      contents core r = contents core t := by
  obtain ⟨t, ht, A⟩ := extendAll_ahead he ho rounds (ahead_reset core env sv) hk hs
  obtain ⟨r, hr, -, -, S⟩ := A.revert (env := env) ho
  exact ⟨r, t, hr, ht, same_iff.1 S⟩

/-- **C49** (clearing): after a save point, all connected geometry since the last break can be deleted if there was no break since
the save point. -/
theorem C49_clear_partial (env : Env V X) (order : {α : Type} → List α → List α) (ho : IsOrder order) (sv : Save V X)
    (history : List (Call V X)) (g : Geometry V X) (hg : calls env order (Geometry.reset env sv) history = some g)
    (ops : List (Op V X)) (hops : ∀ op ∈ ops, NotBreak op) (s : Geometry V X) (hs : g.setSavePoint.run env ops = some s) :
    ∃ s', s.clearSinceBreak env = some s' := by
  obtain ⟨g0, -, G0⟩ := reach_calls ho history (reach_reset env sv) hg
  have G : Good (fun _ : V => ()) g g.setSavePoint := ⟨wf_save G0.1, fun _ => inv_save _ G0.1⟩
  have G' := good_run G0.1 ops G (fun op _ => by cases op <;> simp [Keeps]) hs
  exact clear_some G0.1 G' (fun _ => Or.inl (run_lastBreak (s := g.setSavePoint) ops hops hs))

/-- ... and always if no save point is set. -/
theorem C49_clear_input (env : Env V X) (order : {α : Type} → List α → List α) (ho : IsOrder order) (sv : Save V X)
    (history : List (Call V X)) (s : Geometry V X) (hs : calls env order (Geometry.reset env sv) history = some s)
    (ha : s.save.active = false) : ∃ s', s.clearSinceBreak env = some s' := by
  obtain ⟨g0, Wg, G0⟩ := reach_calls ho history (reach_reset env sv) hs
  exact clear_some Wg G0 (fun h => by rw [ha] at h; cases h)

/-! ### A concrete stroke: a vertex is a number and a derivative, `X` says whether a self-intersection is retriangulated. -/

section Example

abbrev env0 : Env (Nat × Nat) Bool where
  blank := (0, 0)
  fresh := false
  exteriorFront := fun _ v => (v.1 + 1000, v.2)
  exteriorBack := fun v => (v.1 + 2000, v.2)
  retriangulating := id

abbrev side0 : SaveSide (Nat × Nat) Bool := ⟨0, 0, [], [], ⟨0, 0, 0, 0, [], 0, false⟩⟩

abbrev save0 : Save (Nat × Nat) Bool := ⟨false, false, 0, 0, [], [], [], [], [], {}, side0, side0⟩

/-- The order of insertion is an order of iteration. -/
theorem isOrder_id : IsOrder (fun l => l) := fun _ => List.Perm.refl _

/-- A part of a stroke, a break, and the next part. -/
abbrev input0 : List (Op (Nat × Nat) Bool) :=
  [.bufferVertex .left (1, 0), .bufferVertex .right (2, 0), .appendVertex .left (3, 0), .appendTriangle (0, 1, 2), .addBreak,
   .bufferVertex .left (4, 0), .bufferVertex .right (5, 0), .appendVertex .right (6, 0), .appendTriangle (3, 4, 5)]

/-- Predictions: old vertices move, triangles are inserted, all since the last break is deleted, and there are new vertices. -/
abbrev prediction0 : List (Op (Nat × Nat) Bool) :=
  [.setVertex 1 (7, 0), .unzip 1 (fun _ t => (t.1, t.2.1, 9)) (1, 2, 3), .setOpposite 2 5, .addDiscontinuity .left (0, 1), .clear,
   .bufferVertex .left (8, 0), .bufferVertex .right (9, 0), .derivatives [(0, fun v => (v.1, 5))], .addBreak,
   .appendVertex .left (10, 0), .clear]

example : ((Geometry.reset env0 save0).run env0 input0).isSome = true ∧
    (((Geometry.reset env0 save0).run env0 input0).bind fun g => g.setSavePoint.run env0 prediction0).isSome = true := by
  decide +kernel

/-- The example meets the hypotheses of `C49_revert_partial`. -/
example : ∃ g s, calls env0 (fun l => l) (Geometry.reset env0 save0) (input0.map .op) = some g ∧
    g.setSavePoint.run env0 prediction0 = some s ∧ (∀ op ∈ prediction0, Keeps (fun v : Nat × Nat => v.1) op) ∧
    s.vertices ≠ g.vertices ∧ s.triangles ≠ g.triangles :=
  ⟨_, _, rfl, rfl, by
    intro op h
    simp only [prediction0, List.mem_cons, List.not_mem_nil, or_false] at h
    rcases h with rfl | rfl | rfl | rfl | rfl | rfl | rfl | rfl | rfl | rfl | rfl <;> simp [Keeps], by decide +kernel, by decide +kernel⟩

/-- The hypotheses of `C49_extend_partial`: three times more input, with predictions that depend on the geometry. -/
example : (extendAll env0 (fun l => l) (fun v : Nat × Nat => v.1) (Geometry.reset env0 save0)
    [(input0.map fun o _ => o, prediction0.map fun o _ => o), (input0.map fun o _ => o, [fun c => .setVertex 0 (c.vertices.length, 3)]),
     ([fun c => .appendTriangle (0, 1, c.triangles.length)], [fun _ => .clear])]).isSome = true := by
  decide +kernel

example : Respects (fun v : Nat × Nat => v.1) env0 := by
  intro v w h; simpa [env0] using h

/-- **C49** (defect): a prediction that adds vertices but no triangles to a new part of the stroke, then a break, more vertices and
the deletion of these, violate an assertion. -/
theorem C49_clear_counterexample :
    ∃ g s, calls env0 (fun l => l) (Geometry.reset env0 save0) (input0.map .op) = some g ∧
      g.setSavePoint.run env0 [.addBreak, .bufferVertex .left (7, 0), .addBreak, .bufferVertex .left (8, 0)] = some s ∧
      s.clearSinceBreak env0 = none :=
  ⟨_, _, rfl, rfl, rfl⟩

/-- **C49** (defect): updates of derivatives for predictions are not undone. -/
theorem C49_derivatives_counterexample :
    ∃ g s r, calls env0 (fun l => l) (Geometry.reset env0 save0) (input0.map .op) = some g ∧
      g.setSavePoint.run env0 [.derivatives [(0, fun v => (v.1, 5))]] = some s ∧ s.revert env0 (fun l => l) = some r ∧
      g.vertices[0]? = some (1001, 0) ∧ r.vertices[0]? = some (1001, 5) :=
  ⟨_, _, _, rfl, rfl, rfl, rfl, rfl⟩

end Example

end Verif.StrokeGeom
