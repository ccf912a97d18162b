import Verif.Lemmas.GeometryHistory
import Verif.Props.GeometryDerivatives
import Verif.Props.Triangulation

/-!
# C79: derivatives and margins are up to date whatever the extruder does
-/

set_option autoImplicit false
set_option linter.unusedSectionVars false

namespace Verif.Derivative

open Geo Spec
open PartialOutline (SideId)
open Triangulation (State Op run start Fine Tail Inv run_fine run_spec fine_empty inv_empty)
open Triangulation.Spec (positionOf Unlabelled)

variable {K : Type} [Field K] [LinearOrder K] [IsStrictOrderedRing K]

/-- After any calls of the extruder the mesh is a strip. -/
theorem C79_strip {hypot : K → K → K} {place : Pt K → Pt ℝ} {os : List (Op K)} {s : State K} {g : Geometry} (ho : ∀ o ∈ os, Unlabelled o)
    (h : run hypot start os = some s) (hs : Shows place g s) : Strip g := by
  obtain ⟨s2, e2, i2, -⟩ := run_spec hypot os start inv_empty
  rw [h, Option.some.injEq] at e2
  subst e2
  exact shows_strip i2 (run_fine hypot os start s fine_empty ho h).1 hs

/-- Later calls keep all triangles, add others after them for new vertices, and of the vertices that were there they change only the last one of each
side. They move none that did not come with a triangle. -/
theorem C79_changes {hypot : K → K → K} {os os' : List (Op K)} {s s' : State K} (ho : ∀ o ∈ os ++ os', Unlabelled o) (h : run hypot start os = some s)
    (h' : run hypot s os' = some s') :
    (∃ new, s'.triangles = s.triangles ++ new ∧ ∀ t ∈ new, s.vertices.length ≤ t.2.2) ∧ s.sideOf <+: s'.sideOf ∧
      (∀ i < s.vertices.length, s'.vertices[i]? ≠ s.vertices[i]? → ∃ k, (s.side k).indices.getLast? = some i) ∧
      ∀ i < s.vertices.length, positionOf s' i ≠ positionOf s i → ∃ t ∈ s.triangles, t.2.2 = i := by
  have f := (run_fine hypot os start s fine_empty (fun o h => ho o (List.mem_append_left _ h)) h).1
  have t := (run_fine hypot os' s s' f (fun o h => ho o (List.mem_append_right _ h)) h').2
  refine ⟨t.tri, t.ids, fun i hi hne => ?_, fun i hi hne => ?_⟩
  · by_contra c
    exact hne (t.same i hi fun k e => c ⟨k, e⟩)
  · by_contra c
    exact hne (t.pos i hi fun t ht e => c ⟨t, ht, e⟩)

/-- After each update of a stroke that is drawn by calls of the extruder, and of which what was predicted is removed again, it is up to date. -/
theorem C79_stroke_partial {hypot : K → K → K} {place : Pt K → Pt ℝ} {kept shown : State K} {g : Geometry} (h : Stroke hypot place kept shown g) : UpToDate g :=
  (stroke_spec h).2.2.2.2.2.2

/-! ## Meshes for all states -/

/-- A vertex before its first update -/
noncomputable def vertexOf (place : Pt K → Pt ℝ) (v : Triangulation.Vertex K) : Vertex :=
  ⟨place v.position, ⟨0, 0⟩, 127, ⟨0, 0⟩, match v.forward with | .interior => 0 | .front => -127 | .back => 127⟩

omit [IsStrictOrderedRing K] in
theorem shows_vertexOf (place : Pt K → Pt ℝ) (v : Triangulation.Vertex K) : ShowsVertex place (vertexOf place v) v := by
  refine ⟨rfl, ?_, ?_, by simp [vertexOf]⟩ <;> cases h : v.forward <;> simp [vertexOf, h]

/-- A mesh of a state, with these vertices -/
noncomputable def geometryOf (s : State K) (vertices : List Vertex) (first : ℕ) : Geometry where
  mesh := ⟨vertices, s.triangles⟩
  sideIds := s.sideOf
  offsets := (List.range s.vertices.length).map fun i => if s.sideOf[i]? = some .left then s.left.indices.idxOf i else s.right.indices.idxOf i
  left := s.left.indices
  right := s.right.indices
  firstTriangle := first
  firstLeft := none
  firstRight := none

theorem shows_geometryOf {hypot : K → K → K} {place : Pt K → Pt ℝ} {os : List (Op K)} {s : State K} {vs : List Vertex} {first : ℕ} (ho : ∀ o ∈ os, Unlabelled o)
    (h : run hypot start os = some s) (hl : vs.length = s.vertices.length) (hv : ∀ (i : ℕ) v w, vs[i]? = some v → s.vertices[i]? = some w → ShowsVertex place v w) :
    Shows place (geometryOf s vs first) s := by
  have f := (run_fine hypot os start s fine_empty ho h).1
  refine ⟨rfl, rfl, rfl, rfl, hl, hv, fun k p i hp => ?_⟩
  have hp' : (s.side k).indices[p]? = some i := by cases k <;> exact hp
  obtain ⟨hpl, e⟩ := List.getElem?_eq_some_iff.1 hp'
  have hm : i ∈ (s.side k).indices := List.mem_of_getElem? hp'
  have hi := f.lt hm
  have hk := f.mem k i hm
  have idx : (s.side k).indices.idxOf i = p := by rw [← e]; exact (f.nodup k).idxOf_getElem p hpl
  show ((List.range s.vertices.length).map _)[i]? = some p
  rw [List.getElem?_map, List.getElem?_range hi, Option.map_some, hk]
  cases k
  · rw [if_pos rfl]; exact congrArg some idx
  · rw [if_neg (by simp)]; exact congrArg some idx

/-- Every state of the triangulation has a mesh, which is a strip. -/
theorem C79_shown {hypot : K → K → K} (place : Pt K → Pt ℝ) {os : List (Op K)} {s : State K} (ho : ∀ o ∈ os, Unlabelled o) (h : run hypot start os = some s) :
    ∃ g, Shows place g s ∧ Strip g ∧ g.firstTriangle = 0 := by
  have hs : Shows place (geometryOf s (s.vertices.map (vertexOf place)) 0) s := by
    refine shows_geometryOf ho h (by simp) fun i v w hv hw => ?_
    rw [List.getElem?_map, hw, Option.map_some, Option.some.injEq] at hv
    rw [← hv]
    exact shows_vertexOf place w
  exact ⟨_, hs, C79_strip ho h hs, rfl⟩

/-! ## A stroke of which the end was predicted -/

section Example

open Triangulation (root vtx)

/-- Two triangles -/
def opsKept : List (Op ℚ) := [.append .left (vtx 0 1), .append .right (vtx 1 0), .append .left (vtx 2 1), .append .right (vtx 3 0), .process false 0 10 10]

/-- Two more, predicted -/
def opsPredicted : List (Op ℚ) := [.append .left (vtx 4 1), .append .right (vtx 5 0), .process false 0 10 10, .break]

/-- Two others instead -/
def opsThen : List (Op ℚ) := [.append .left (vtx 4 2), .append .right (vtx 6 0), .process false 0 10 10]

/-- The place of a point in the mesh -/
noncomputable def toReal (p : Pt ℚ) : Pt ℝ := ⟨p.x, p.y⟩

def stateKept : State ℚ := (run root start opsKept).getD start
def statePredicted : State ℚ := (run root stateKept opsPredicted).getD start
def stateThen : State ℚ := (run root stateKept opsThen).getD start

theorem run_kept : run root start opsKept = some stateKept := by decide +kernel
theorem run_predicted : run root stateKept opsPredicted = some statePredicted := by decide +kernel
theorem run_then : run root stateKept opsThen = some stateThen := by decide +kernel

theorem run_append {hypot : ℚ → ℚ → ℚ} : ∀ (os os' : List (Op ℚ)) (s : State ℚ), run hypot s (os ++ os') = (run hypot s os).bind fun s => run hypot s os'
  | [], _, _ => rfl
  | o :: os, os', s => by
    rw [List.cons_append, run, run]
    cases Triangulation.step hypot s o with
    | none => rfl
    | some a => exact run_append os os' a

theorem ops_unlabelled : ∀ o ∈ opsKept ++ (opsPredicted ++ opsThen), Unlabelled o := by
  intro o ho
  simp only [opsKept, opsPredicted, opsThen, List.cons_append, List.nil_append, List.mem_cons, List.not_mem_nil, or_false] at ho
  rcases ho with rfl | rfl | rfl | rfl | rfl | rfl | rfl | rfl | rfl | rfl | rfl | rfl <;> first | rfl | trivial

/-- The first two triangles stay, the predicted ones are replaced. -/
example : ∃ (kept shown : State ℚ) (g : Geometry), Stroke root toReal kept shown g ∧ UpToDate g ∧ kept.triangles.length = 4 ∧
    g.mesh.triangles = [(0, 1, 2), (0, 2, 3), (3, 2, 4), (3, 4, 5)] := by
  have u1 : ∀ o ∈ opsKept ++ opsPredicted, Unlabelled o := fun o h => ops_unlabelled o (by simp only [List.mem_append] at h ⊢; tauto)
  have u2 : ∀ o ∈ opsKept ++ opsThen, Unlabelled o := fun o h => ops_unlabelled o (by simp only [List.mem_append] at h ⊢; tauto)
  have e1 : run root start (opsKept ++ opsPredicted) = some statePredicted := by rw [run_append, run_kept]; exact run_predicted
  have e2 : run root start (opsKept ++ opsThen) = some stateThen := by rw [run_append, run_kept]; exact run_then
  obtain ⟨g, hs, hg, h0⟩ := C79_shown toReal u1 e1
  obtain ⟨r, hr⟩ := C79_total hg (by rw [h0]; exact Nat.zero_le _)
  have d1 : Stroke root toReal stateKept statePredicted r := .first u1 run_kept run_predicted hs h0 hr
  have hs' := (stroke_spec d1).2.2.2.2.2.1
  have l1 : r.mesh.vertices.length = 6 := hs'.count.trans (by decide +kernel)
  have same : ∀ i < 4, stateThen.vertices[i]? = statePredicted.vertices[i]? := by decide +kernel
  have len : (r.mesh.vertices.take 4).length = 4 := by rw [List.length_take, l1]; rfl
  have hn : Shows toReal (geometryOf stateThen (r.mesh.vertices.take 4 ++ (stateThen.vertices.drop 4).map (vertexOf toReal)) 2) stateThen := by
    refine shows_geometryOf u2 e2 ?_ fun i v w hv hw => ?_
    · rw [List.length_append, len, List.length_map, List.length_drop]
      decide +kernel
    · by_cases c : i < 4
      · rw [List.getElem?_append_left (by omega), List.getElem?_take_of_lt c] at hv
        exact hs'.vertex i v w hv (by rw [← same i c]; exact hw)
      · rw [List.getElem?_append_right (by omega), len, List.getElem?_map, List.getElem?_drop, show 4 + (i - 4) = i by omega, hw, Option.map_some, Option.some.injEq] at hv
        rw [← hv]
        exact shows_vertexOf _ w
  have quiet : ∀ vs i, ¬Noted (geometryOf stateThen vs 2) i := by
    rintro vs i (⟨-, a, h, -⟩ | ⟨-, a, h, -⟩) <;> simp [geometryOf] at h
  have he : Extends stateKept statePredicted stateThen r (geometryOf stateThen (r.mesh.vertices.take 4 ++ (stateThen.vertices.drop 4).map (vertexOf toReal)) 2) := by
    refine ⟨⟨?_, fun i _ h => absurd h (quiet _ i), fun i hi _ => ?_, fun k i j v w hj _ _ _ _ hb => ?_⟩, Or.inr (Or.inr ⟨(3, 2, 4), ?_⟩)⟩
    · show 2 = _
      decide +kernel
    · have hi : i < 4 := lt_of_lt_of_eq hi (by decide +kernel)
      show (r.mesh.vertices.take 4 ++ _)[i]? = _
      rw [List.getElem?_append_left (by omega), List.getElem?_take_of_lt hi]
    · have q : ∀ k, ∀ j ∈ (stateKept.side k).indices.getLast?, statePredicted.vertices[j]?.map (·.forward) ≠ some .back := by
        intro k
        cases k <;> decide +kernel
      exact absurd hb (q k j hj)
    · decide +kernel
  obtain ⟨r', hr'⟩ := C79_total (C79_strip u2 e2 hn) (by show 2 ≤ stateThen.triangles.length; decide +kernel)
  have d2 : Stroke root toReal stateThen stateThen r' :=
    .next d1 (fixed := opsThen) (predicted := []) (fun o h => u2 o (by rw [List.append_nil] at h; exact List.mem_append_right _ h)) run_then rfl hn he hr'
  refine ⟨_, _, r', d2, C79_stroke_partial d2, by decide +kernel, ?_⟩
  rw [(stroke_spec d2).2.2.2.2.2.1.triangles]
  decide +kernel

/-! ## A prediction is taken back and nothing comes instead -/

/-- One triangle -/
def opsOne : List (Op ℚ) := [.append .left (vtx 0 1), .append .right (vtx 0 0), .append .right (vtx 2 0), .process false 0 10 10]

/-- Another one, predicted -/
def opsMore : List (Op ℚ) := [.append .left (vtx 0 3), .process false 0 10 10]

def stateOne : State ℚ := (run root start opsOne).getD start
def stateMore : State ℚ := (run root stateOne opsMore).getD start

theorem run_one : run root start opsOne = some stateOne := by decide +kernel
theorem run_more : run root stateOne opsMore = some stateMore := by decide +kernel

theorem one_unlabelled : ∀ o ∈ opsOne ++ opsMore, Unlabelled o := by
  intro o ho
  simp only [opsOne, opsMore, List.cons_append, List.nil_append, List.mem_cons, List.not_mem_nil, or_false] at ho
  rcases ho with rfl | rfl | rfl | rfl | rfl | rfl <;> first | rfl | trivial

/-- The vertices of both triangles, with their sides -/
noncomputable def verticesMore : List Vertex :=
  [⟨⟨0, 1⟩, ⟨0, 0⟩, -127, ⟨0, 0⟩, -127⟩, ⟨⟨0, 0⟩, ⟨0, 0⟩, 127, ⟨0, 0⟩, -127⟩, ⟨⟨2, 0⟩, ⟨0, 0⟩, 127, ⟨0, 0⟩, 0⟩, ⟨⟨0, 3⟩, ⟨0, 0⟩, -127, ⟨0, 0⟩, 0⟩]

theorem shows_more : Shows toReal (geometryOf stateMore verticesMore 0) stateMore := by
  have e : run root start (opsOne ++ opsMore) = some stateMore := by rw [run_append, run_one]; exact run_more
  refine shows_geometryOf one_unlabelled e (by rw [show stateMore.vertices.length = 4 by decide +kernel]; rfl) fun i v w hv hw => ?_
  have q : stateMore.vertices = [{ vtx 0 1 with forward := .front }, { vtx 0 0 with forward := .front }, vtx 2 0, vtx 0 3] := by decide +kernel
  rw [q] at hw
  match i with
  | 0 | 1 | 2 | 3 =>
    simp only [verticesMore, List.getElem?_cons_zero, List.getElem?_cons_succ, Option.some.injEq] at hv hw
    subst hv hw
    refine ⟨?_, ?_, ?_, ?_⟩ <;> first | (norm_num [toReal, vtx]; done) | simp [vtx]
  | i + 4 => simp [verticesMore] at hv

theorem single_mean {M r : Mesh} {S : List ℕ} {x : ℕ} (c : Closed M r S) (hx : [x] ∈ S.splitBy (alikeAt M)) :
    ∃ w, r.vertices[x]? = some w ∧ IsMean (vectorsAt sideVectors M x) w.sideDerivative := by
  obtain ⟨w, w1, w2, -⟩ := c.derivatives [x] hx x (by simp)
  refine ⟨w, w1, ?_⟩
  rw [w2]
  have h := accumulates_merge accumulates_nil (accumulates_foldl accumulates_nil (vectorsAt sideVectors M x))
  simp only [List.nil_append] at h
  exact accumulates_value h

/-- `Extends.reach` cannot be left out: if a prediction is taken back and nothing comes instead, then nothing is updated, and the last vertices of triangles
keep the derivatives that they had with the predicted triangles. -/
theorem C79_reach_counterexample : ∃ (kept shown : State ℚ) (old new r : Geometry), Stroke root toReal kept shown old ∧ run root kept [] = some kept ∧
    Shows toReal new kept ∧ Keeps kept shown kept old new ∧ new.updateDerivatives = some r ∧ ¬UpToDate r := by
  have e1 : run root start (opsOne ++ opsMore) = some stateMore := by rw [run_append, run_one]; exact run_more
  have u0 : ∀ o ∈ opsOne, Unlabelled o := fun o h => one_unlabelled o (List.mem_append_left _ h)
  have st := C79_strip one_unlabelled e1 shows_more
  obtain ⟨r, hr⟩ := C79_total st (Nat.zero_le _)
  have d1 : Stroke root toReal stateOne stateMore r := .first one_unlabelled run_one run_more shows_more rfl hr
  have hs := (stroke_spec d1).2.2.2.2.2.1
  obtain ⟨p, M, p1, p2, rfl⟩ := update_cases hr
  have l1 : M.vertices.length = 4 := hs.count.trans (by decide +kernel)
  have z : (geometryOf stateMore verticesMore 0).firstMutated = some 0 := if_pos (Or.inl rfl)
  rw [toUpdate_zero z, Option.some.injEq] at p1
  subst p1
  have cl := closed_side st p2 .right
  have sr : side (geometryOf stateMore verticesMore 0) .right = [1, 2] := by
    show stateMore.right.indices = _
    decide +kernel
  have tr : (geometryOf stateMore verticesMore 0).mesh = ⟨verticesMore, [(0, 1, 2), (0, 2, 3)]⟩ := by
    show Mesh.mk verticesMore stateMore.triangles = _
    rw [show stateMore.triangles = [(0, 1, 2), (0, 2, 3)] by decide +kernel]
  rw [sr, tr] at cl
  rw [tr] at p2
  -- with the predicted triangle
  have old2 : ∃ w, M.vertices[2]? = some w ∧ length w.sideDerivative = 3 / 2 := by
    obtain ⟨w, w1, w2⟩ := single_mean (x := 2) cl (by
      have q : alikeAt ⟨verticesMore, [(0, 1, 2), (0, 2, 3)]⟩ 1 2 = false := by
        by_contra c
        rw [Bool.not_eq_false, alikeAt_true] at c
        obtain ⟨v, w, hv, hw, c, -⟩ := c
        simp only [verticesMore, List.getElem?_cons_zero, List.getElem?_cons_succ, Option.some.injEq] at hv hw
        subst hv hw
        simp at c
      simp [List.splitBy, List.splitBy.loop, q])
    refine ⟨w, w1, ?_⟩
    have v : vectorsAt sideVectors ⟨verticesMore, [(0, 1, 2), (0, 2, 3)]⟩ 2 = [⟨2, 0⟩, ⟨0, -1⟩] := by
      simp [vectorsAt, verticesMore, sideVectors, Coincide, fromLine, toLine]
      norm_num
    rw [v] at w2
    obtain ⟨-, w3⟩ := w2
    obtain ⟨w3, -⟩ := w3 (by simp)
    rw [w3]
    norm_num [length]
    rw [show (4 : ℝ) = 2 * 2 by norm_num, Real.sqrt_mul_self (by norm_num)]
    norm_num
  have new2 : ∀ w whole, M.vertices[2]? = some w → updateMesh [0] [1, 2] ⟨M.vertices.take 3, [(0, 1, 2)]⟩ = some whole →
      ∀ w', whole.vertices[2]? = some w' → length w'.sideDerivative = 1 := by
    intro c whole hc h w' hw'
    obtain ⟨a, ha⟩ : ∃ a, M.vertices[0]? = some a := ⟨_, List.getElem?_eq_getElem (by omega)⟩
    obtain ⟨b, hb⟩ : ∃ b, M.vertices[1]? = some b := ⟨_, List.getElem?_eq_getElem (by omega)⟩
    obtain ⟨a', a1, a2, -, -⟩ := update_position p2 ha
    obtain ⟨b', b1, b2, -, b3, b4⟩ := update_position p2 hb
    obtain ⟨c', c1, c2, -, c3, c4⟩ := update_position p2 hc
    simp only [verticesMore, List.getElem?_cons_zero, List.getElem?_cons_succ, Option.some.injEq] at a1 b1 c1
    subst a1 b1 c1
    dsimp only at a2 b2 b3 b4 c2 c3 c4
    have b5 : 0 < b.sideLabel := by
      rcases lt_trichotomy b.sideLabel 0 with q | q | q
      · exact absurd (b3.1 q) (by norm_num)
      · exact absurd (b4.1 q) (by norm_num)
      · exact q
    have c5 : 0 < c.sideLabel := by
      rcases lt_trichotomy c.sideLabel 0 with q | q | q
      · exact absurd (c3.1 q) (by norm_num)
      · exact absurd (c4.1 q) (by norm_num)
      · exact q
    have ga : (M.vertices.take 3)[0]? = some a := by rw [List.getElem?_take_of_lt (by omega)]; exact ha
    have gb : (M.vertices.take 3)[1]? = some b := by rw [List.getElem?_take_of_lt (by omega)]; exact hb
    have gc : (M.vertices.take 3)[2]? = some c := by rw [List.getElem?_take_of_lt (by omega)]; exact hc
    generalize M.vertices.take 3 = V at h ga gb gc
    obtain ⟨-, cl⟩ := updateMesh_closed (m := 0) h ⟨Or.inl (by simp), by simp, by simp⟩ (by
      rintro before i after - ⟨q, -⟩
      omega) (by decide)
    obtain ⟨w, w1, w2⟩ := single_mean (x := 2) cl (by
      have q : alikeAt ⟨V, [(0, 1, 2)]⟩ 1 2 = false := by
        by_contra q
        rw [Bool.not_eq_false, alikeAt_true] at q
        obtain ⟨v, w, hv, hw, q, -⟩ := q
        have hv' : V[1]? = some v := hv
        have hw'' : V[2]? = some w := hw
        rw [gb, Option.some.injEq] at hv'
        rw [gc, Option.some.injEq] at hw''
        subst hv' hw''
        rw [b2, c2] at q
        simp at q
      simp [List.splitBy, List.splitBy.loop, q])
    rw [w1, Option.some.injEq] at hw'
    subst hw'
    have v : vectorsAt sideVectors ⟨V, [(0, 1, 2)]⟩ 2 = [⟨0, -1⟩] := by
      simp [vectorsAt, ga, gb, gc, sideVectors, Coincide, fromLine, toLine, a2, b2, c2, b5, c5, not_lt.2 c5.le]
    rw [v] at w2
    obtain ⟨-, w3⟩ := w2
    obtain ⟨w3, -⟩ := w3 (by simp)
    rw [w3]
    norm_num [length]
  have hn : Shows toReal (geometryOf stateOne (M.vertices.take 3) 1) stateOne := by
    refine shows_geometryOf u0 run_one (by rw [List.length_take, l1, show stateOne.vertices.length = 3 by decide +kernel]; rfl) fun i v w hv hw => ?_
    have hi : i < 3 := by
      have := (List.getElem?_eq_some_iff.1 hw).1
      rwa [show stateOne.vertices.length = 3 by decide +kernel] at this
    rw [List.getElem?_take_of_lt hi] at hv
    have same : ∀ i < 3, stateMore.vertices[i]? = stateOne.vertices[i]? := by decide +kernel
    exact hs.vertex i v w hv (by rw [same i hi]; exact hw)
  have len : stateOne.triangles = [(0, 1, 2)] := by decide +kernel
  have quiet : ∀ i, ¬Noted (geometryOf stateOne (M.vertices.take 3) 1) i := by
    rintro i (⟨-, a, h, -⟩ | ⟨-, a, h, -⟩) <;> simp [geometryOf] at h
  have up : (geometryOf stateOne (M.vertices.take 3) 1).updateDerivatives = some (geometryOf stateOne (M.vertices.take 3) 1) := by
    unfold Geometry.updateDerivatives
    have z : (geometryOf stateOne (M.vertices.take 3) 1).firstMutated = some 1 := if_pos (Or.inr ⟨rfl, rfl⟩)
    rw [toUpdate_none z one_ne_zero (by show stateOne.triangles.length ≤ 1; rw [len]; rfl)]
    simp [updateMesh, lowerFirst, geometryOf]
  refine ⟨stateOne, stateMore, _, _, _, d1, rfl, hn, ⟨?_, fun i _ h => absurd h (quiet i), fun i hi _ => ?_, fun k i j v w hj _ _ _ _ hb => ?_⟩, up, ?_⟩
  · rw [len]; rfl
  · rw [show stateOne.vertices.length = 3 by decide +kernel] at hi
    exact List.getElem?_take_of_lt hi
  · have q : ∀ k, ∀ j ∈ (stateOne.side k).indices.getLast?, stateMore.vertices[j]?.map (·.forward) ≠ some .back := by
      intro k
      cases k <;> decide +kernel
    exact absurd hb (q k j hj)
  · rintro ⟨whole, h1, h2⟩
    obtain ⟨w, w1, w2⟩ := old2
    have h1' : updateMesh stateOne.left.indices stateOne.right.indices ⟨M.vertices.take 3, stateOne.triangles⟩ = some whole := h1
    rw [len, show stateOne.left.indices = [0] by decide +kernel, show stateOne.right.indices = [1, 2] by decide +kernel] at h1'
    have h3 := h2 (0, 1, 2) (by show _ ∈ stateOne.triangles; rw [len]; simp) 2 (by unfold Corner; simp)
    have h4 : (M.vertices.take 3)[2]? = some w := by rw [List.getElem?_take_of_lt (by omega)]; exact w1
    have h5 := new2 w whole w1 h1' w (h3.trans h4)
    rw [w2] at h5
    norm_num at h5

/-- The last vertex of a side is labelled and unlabelled again: this is what may be noted. -/
example : ∃ s : State ℚ, run root stateKept [.break] = some s ∧ s.vertices[3]? ≠ stateKept.vertices[3]? ∧ (stateKept.side .left).indices.getLast? = some 3 :=
  ⟨(run root stateKept [.break]).getD start, by decide +kernel⟩

end Example

end Verif.Derivative
