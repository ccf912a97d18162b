import Verif.Lemmas.StrokeCoversRevert

/-!
# C55: updates reported while a stroke is drawn
-/

set_option autoImplicit false

namespace Verif.StrokeGeom

open Verif.StrokeGeom.Spec

variable {V X P : Type}

/-- **C55** (offsets): a copy of the index buffer or of the vertex buffer that was made before a stroke was extended is brought up to
date by copying what follows the offset of the update; without an offset it is up to date. Whatever the extruder does. -/
theorem C55_offsets (pos : V → P) (env : Env V X) (order : {α : Type} → List α → List α) (t t' : Tracked V X P)
    (real predicted : List (Tracked.Move V X)) (hm : ∀ m ∈ real ++ predicted, ∀ g, ∀ op ∈ m g, NotReset op) (u : Update P)
    (h : t.extend pos env order real predicted = some (t', u)) :
    Unchanged (indexBuffer t.g) (indexBuffer t'.g) u.firstIndex ∧ Unchanged t.g.vertices t'.g.vertices u.firstVertex :=
  off_extend (fun m hq => hm m (List.mem_append_left _ hq)) (fun m hq => hm m (List.mem_append_right _ hq)) h

/-- **C55** (joined offsets): the same for a copy that was made any number of updates ago, and all updates since then joined. -/
theorem C55_offsets_all (pos : V → P) (env : Env V X) (order : {α : Type} → List α → List α) (t t' : Tracked V X P)
    (rounds : List (List (Tracked.Move V X) × List (Tracked.Move V X)))
    (hm : ∀ r ∈ rounds, ∀ m ∈ r.1 ++ r.2, ∀ g, ∀ op ∈ m g, NotReset op) (u : Update P)
    (h : t.extendAll pos env order ⟨[], none, none⟩ rounds = some (t', u)) :
    Unchanged (indexBuffer t.g) (indexBuffer t'.g) u.firstIndex ∧ Unchanged t.g.vertices t'.g.vertices u.firstVertex :=
  off_extendAll (u := ⟨[], none, none⟩) rounds hm ⟨rfl, rfl⟩ h

/-- **C55** (region): if a stroke is extended, and none of its self-intersections is retriangulated, then all triangles that were
removed, added or changed are in the updated region, before and after. There is one condition, on what was predicted before. -/
theorem C55_region_partial (pos : V → P) (env : Env V X) (order : {α : Type} → List α → List α) (ho : IsOrder order) (sv : Save V X)
    (history : List (List (Tracked.Move V X) × List (Tracked.Move V X))) (real predicted : List (Tracked.Move V X))
    (hm : ∀ r ∈ history ++ [(real, predicted)], ∀ m ∈ r.1 ++ r.2, PlainMove pos m) (t t' : Tracked V X P) (u0 u : Update P)
    (ht : (Tracked.reset env sv).extendAll pos env order ⟨[], none, none⟩ history = some (t, u0))
    (hf : t.g.save.active = true → Fits t.g) (h : t.extend pos env order real predicted = some (t', u)) :
    Covers pos t.g t'.g u.region := by
  have H := hist_extendAll ho history (hist_reset env sv) (fun r hr => hm r (List.mem_append_left _ hr)) ht
  have hl := hm (real, predicted) (List.mem_append_right _ (List.mem_singleton_self _))
  exact covers_extend ho H hf (fun m hq => hl m (List.mem_append_left _ hq)) (fun m hq => hl m (List.mem_append_right _ hq)) h

/-- **C55** (joined region): the same for any number of updates joined, if predictions never delete the geometry since a break: for
these the condition is met. -/
theorem C55_region_all_partial (pos : V → P) (env : Env V X) (order : {α : Type} → List α → List α) (ho : IsOrder order)
    (sv : Save V X) (history rounds : List (List (Tracked.Move V X) × List (Tracked.Move V X)))
    (hm : ∀ r ∈ history ++ rounds, ∀ m ∈ r.1 ++ r.2, PlainMove pos m)
    (hc : ∀ r ∈ history ++ rounds, ∀ m ∈ r.2, ∀ g, .clear ∉ m g) (t t' : Tracked V X P) (u0 u : Update P)
    (ht : (Tracked.reset env sv).extendAll pos env order ⟨[], none, none⟩ history = some (t, u0))
    (h : t.extendAll pos env order ⟨[], none, none⟩ rounds = some (t', u)) : Covers pos t.g t'.g u.region := by
  have H0 : Hist (Tracked.reset env sv : Tracked V X P).g := hist_reset env sv
  have hh : ∀ r ∈ history, ∀ m ∈ r.1 ++ r.2, PlainMove pos m := fun r hr => hm r (List.mem_append_left _ hr)
  have H := hist_extendAll ho history H0 hh ht
  have F := fits_extendAll ho history H0 (fun h => by cases h) hh (fun r hr => hc r (List.mem_append_left _ hr)) ht
  exact covers_extendAll ho rounds H F (fun r hr => hm r (List.mem_append_right _ hr)) (fun r hr => hc r (List.mem_append_right _ hr))
    (covers_refl _ _ _) h

/-! ### A concrete stroke: a vertex is its position, a number, and its other attributes, another number. -/

section Example

abbrev env1 : Env (Nat × Nat) Bool where
  blank := (0, 0)
  fresh := false
  exteriorFront := fun _ v => (v.1, v.2 + 1000)
  exteriorBack := fun v => (v.1, v.2 + 2000)
  retriangulating := id

abbrev side1 : SaveSide (Nat × Nat) Bool := ⟨0, 0, [], [], ⟨0, 0, 0, 0, [], 0, false⟩⟩

abbrev save1 : Save (Nat × Nat) Bool := ⟨false, false, 0, 0, [], [], [], [], [], {}, side1, side1⟩

theorem isOrder_id1 : IsOrder (fun l => l) := fun _ => List.Perm.refl _

abbrev M := Tracked.Move (Nat × Nat) Bool

/-- A part of a stroke with one triangle, then a break. -/
abbrev part1 (n : Nat) : List M :=
  [fun _ => [.bufferVertex .left (n, 0)], fun _ => [.bufferVertex .right (n + 1, 0)], extrude .left (n + 2, 0), fun _ => [.addBreak]]

/-- A part with three triangles. -/
abbrev long1 (n : Nat) : List M :=
  [fun _ => [.bufferVertex .left (n, 0)], fun _ => [.bufferVertex .right (n + 1, 0)], extrude .left (n + 2, 0),
   extrude .right (n + 3, 0), extrude .left (n + 4, 0)]

/-- Input, with predictions that move a vertex, end the part and begin a new one. -/
abbrev rounds1 : List (List M × List M) :=
  [(long1 1, [fun _ => [.setVertex 1 (7, 0)], extrude .right (8, 0), fun _ => [.addBreak]] ++ part1 11),
   ([extrude .right (9, 0), fun _ => [.derivatives [(0, fun v => (v.1, 5))]], fun _ => [.addBreak]], part1 21 ++ [fun _ => [.setVertex 2 (10, 0)]])]

theorem plain_part1 (n : Nat) : ∀ m ∈ part1 n, PlainMove (fun v : Nat × Nat => v.1) m := by
  intro m h
  simp only [part1, List.mem_cons, List.not_mem_nil, or_false] at h
  rcases h with rfl | rfl | rfl | rfl
  · exact .buffer _ _
  · exact .buffer _ _
  · exact .extrude _ _
  · exact .addBreak

theorem plain_long1 (n : Nat) : ∀ m ∈ long1 n, PlainMove (fun v : Nat × Nat => v.1) m := by
  intro m h
  simp only [long1, List.mem_cons, List.not_mem_nil, or_false] at h
  rcases h with rfl | rfl | rfl | rfl | rfl
  · exact .buffer _ _
  · exact .buffer _ _
  · exact .extrude _ _
  · exact .extrude _ _
  · exact .extrude _ _

theorem plain_rounds1 : ∀ r ∈ rounds1, ∀ m ∈ r.1 ++ r.2, PlainMove (fun v : Nat × Nat => v.1) m := by
  intro r hr
  simp only [rounds1, List.mem_cons, List.not_mem_nil, or_false] at hr
  rcases hr with rfl | rfl
  · intro m hm
    simp only [List.mem_append, List.mem_cons, List.not_mem_nil, or_false] at hm
    rcases hm with hm | (rfl | rfl | rfl) | hm
    · exact plain_long1 1 m (by simpa using hm)
    · exact .setVertex _ _
    · exact .extrude _ _
    · exact .addBreak
    · exact plain_part1 11 m (by simpa using hm)
  · intro m hm
    simp only [List.mem_append, List.mem_cons, List.not_mem_nil, or_false] at hm
    rcases hm with (rfl | rfl | rfl) | hm | rfl
    · exact .extrude _ _
    · exact .derivatives _ (by simp)
    · exact .addBreak
    · exact plain_part1 21 m (by simpa using hm)
    · exact .setVertex _ _

theorem noclear_extrude (k : SideId) (v : Nat × Nat) (g : Geometry (Nat × Nat) Bool) : .clear ∉ extrude k v g := by
  unfold extrude
  split
  · split <;> simp
  · simp

theorem noclear_rounds1 : ∀ r ∈ rounds1, ∀ m ∈ r.2, ∀ g, .clear ∉ m g := by
  intro r hr
  simp only [rounds1, List.mem_cons, List.not_mem_nil, or_false] at hr
  rcases hr with rfl | rfl
  · intro m hm g
    simp only [part1, List.mem_append, List.mem_cons, List.not_mem_nil, or_false] at hm
    rcases hm with (rfl | rfl | rfl) | rfl | rfl | rfl | rfl <;> first | exact noclear_extrude _ _ _ | simp
  · intro m hm g
    simp only [part1, List.mem_append, List.mem_cons, List.not_mem_nil, or_false] at hm
    rcases hm with (rfl | rfl | rfl | rfl) | rfl <;> first | exact noclear_extrude _ _ _ | simp

/-- The hypotheses of `C55_region_all_partial` are met: two updates joined, of which the second undoes the predictions of the
first. -/
example : ∃ t' u, (Tracked.reset env1 save1).extendAll (fun v => v.1) env1 (fun l => l) ⟨[], none, none⟩ rounds1 = some (t', u) ∧
    t'.g.vertices.map (·.1) = [1, 2, 10, 4, 5, 9, 21, 22, 23] ∧ t'.g.triangles.length = 5 ∧
    Covers (fun v => v.1) (Tracked.reset env1 save1 : Tracked (Nat × Nat) Bool Nat).g t'.g u.region :=
  ⟨_, _, rfl, by decide +kernel, by decide +kernel,
    C55_region_all_partial _ env1 (fun l => l) isOrder_id1 save1 [] rounds1 plain_rounds1 noclear_rounds1 _ _ _ _ rfl rfl⟩

/-- ... and those of `C55_region_partial`, for the second of them: the predicted vertex 7 is in the region, and so is 2, where it
was and will be. -/
example : ∃ t t' u0 u, (Tracked.reset env1 save1).extendAll (fun v => v.1) env1 (fun l => l) ⟨[], none, none⟩ (rounds1.take 1) = some (t, u0) ∧
    t.extend (fun v => v.1) env1 (fun l => l) rounds1[1].1 rounds1[1].2 = some (t', u) ∧ (t.g.save.active = true → Fits t.g) ∧
    7 ∈ u.region ∧ 2 ∈ u.region ∧ u.firstIndex = some 9 ∧ u.firstVertex = some 0 := by
  refine ⟨_, _, _, _, rfl, rfl, ?_, by decide +kernel, by decide +kernel, by decide +kernel, by decide +kernel⟩
  exact fits_extendAll (pos := fun v : Nat × Nat => v.1) (env := env1) (t := Tracked.reset env1 save1)
    (u := ⟨[], none, none⟩) isOrder_id1 (rounds1.take 1) (hist_reset env1 save1) (fun h => by cases h)
    (fun r hr => plain_rounds1 r (List.mem_of_mem_take hr)) (fun r hr => noclear_rounds1 r (List.mem_of_mem_take hr)) rfl

/-- Offsets, if only the end of the stroke changes: the first three vertices and the first triangle need not be copied. -/
example : ∃ t t' u0 u, (Tracked.reset env1 save1).extendAll (fun v => v.1) env1 (fun l => l) ⟨[], none, none⟩ [(part1 1, part1 11)] = some (t, u0) ∧
    t.extend (fun v => v.1) env1 (fun l => l) (part1 21) [] = some (t', u) ∧ u.firstIndex = some 3 ∧ u.firstVertex = some 3 ∧
    t.g.vertices.map (·.1) = [1, 2, 3, 11, 12, 13] ∧ t'.g.vertices.map (·.1) = [1, 2, 3, 21, 22, 23] :=
  ⟨_, _, _, _, rfl, rfl, by decide +kernel, by decide +kernel, by decide +kernel, by decide +kernel⟩

/-- **C55** (defect): if predictions delete all of the stroke and draw several disconnected parts, and are then undone, some of the
predicted triangles are not in the updated region: it does not contain the corner 33. -/
theorem C55_region_counterexample :
    ∃ history : List (List M × List M), (∀ r ∈ history, ∀ m ∈ r.1 ++ r.2, PlainMove (fun v : Nat × Nat => v.1) m) ∧
      ∃ t t' u0 u, (Tracked.reset env1 save1).extendAll (fun v => v.1) env1 (fun l => l) ⟨[], none, none⟩ history = some (t, u0) ∧
        t.extend (fun v => v.1) env1 (fun l => l) [] [] = some (t', u) ∧
        (drawn t.g 2).map (·.1) = [31, 32, 33] ∧ (drawn t'.g 2).map (·.1) = [3, 4, 5] ∧ u.region = [11, 12, 13, 21, 22, 1, 2, 3, 4, 5] ∧
        ¬ Covers (fun v => v.1) t.g t'.g u.region := by
  refine ⟨[(long1 1, (fun _ => [.clear]) :: (part1 11 ++ part1 21 ++ part1 31))], ?_, _, _, _, _, rfl, rfl, by decide +kernel, by decide +kernel,
    by decide +kernel, ?_⟩
  · intro r hr m hm
    simp only [List.mem_singleton] at hr
    subst hr
    rcases List.mem_append.1 hm with hm | hm
    · exact plain_long1 1 m hm
    · rcases List.mem_cons.1 hm with rfl | hm
      · exact .clear
      · rcases List.mem_append.1 hm with hm | hm
        · rcases List.mem_append.1 hm with hm | hm
          · exact plain_part1 11 m hm
          · exact plain_part1 21 m hm
        · exact plain_part1 31 m hm
  · intro C
    have h := C 2 (by decide +kernel) (33, 2000) (by decide +kernel)
    revert h
    decide +kernel

end Example

end Verif.StrokeGeom
