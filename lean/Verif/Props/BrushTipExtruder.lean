import Verif.Lemmas.BrushTipExtruder

/-!
# C50: the shape of a stroke does not depend on its predictions

`Extruder.extendAll … history` are calls of `ExtendStroke` on a started extruder: each with the states that are fixed from now on
and with volatile ones that the next call replaces. The specification (`Spec.strokeOf`) extrudes a stroke once.

`core` is what of a vertex is not a derivative. The theorems are about calls after which the extruder is in a defined state (`some`);
see C49 for one where it is not.
-/

set_option autoImplicit false

namespace Verif.StrokeGeom

open Verif.StrokeGeom.Spec

variable {T E V X C : Type}

/-- **C50** After any history the extruder has the stroke of all fixed states and the last volatile ones: its extrusions, its geometry
up to derivatives, and its outlines, but perhaps for a last one without indices. (Partial: the changes that the triangulation makes are
a parameter.) -/
theorem C50_extend_partial {core : V → C} {env : Env V X} (he : Respects core env) {tip : Tip T E V X} (ht : OkTip core tip)
    {order : {α : Type} → List α → List α} (ho : IsOrder order) {save : Save V X} {debug : Bool} {history : List (List T × List T)}
    {fixed volatile : List T} {e : Extruder E V X}
    (h : (Extruder.start env save).extendAll debug env tip order (history ++ [(fixed, volatile)]) = some e) :
    ∃ u, strokeOf env tip save ((history ++ [(fixed, volatile)]).flatMap markedFixed) volatile = some u ∧
      e.extrusions = u.extrusions ∧ contents core e.geometry = contents core u.geometry ∧
      (e.outlines = u.outlines ∨ e.outlines = u.outlines ++ [([], [])]) := by
  obtain ⟨u, hu, S⟩ := extend_ok ho he ht save h
  exact ⟨u, hu, S.ext, same_iff.1 S.same, S.outlines (strokeOf_ok ht hu).1⟩

theorem marked_false (ts : List T) : marked false ts = ts.map fun t => (t, false) := by
  induction ts with
  | nil => rfl
  | cons t ts ih => rw [marked_cons, ih]; simp

theorem marked_append (last : Bool) (a : List T) {b : List T} (h : b ≠ [] ∨ last = false) :
    marked last (a ++ b) = (a.map fun t => (t, false)) ++ marked last b := by
  induction a with
  | nil => rfl
  | cons t a ih =>
    rw [List.cons_append, marked_cons, ih]
    rcases h with h | h
    · have : (a ++ b).isEmpty = false := by cases a <;> cases b <;> simp_all
      simp [this]
    · simp [h]

/-- **C50** How the fixed states come in calls does not matter, nor do the volatile states of earlier calls: if every call but the
last has volatile states (or no fixed ones), a call for all states has the same effect, whatever derivatives, the order of hash maps
and an earlier use of the extruder are. -/
theorem C50_batching_partial {core : V → C} {env : Env V X} (he : Respects core env) {tip : Tip T E V X} (ht : OkTip core tip)
    {derivatives : Nat → Geometry V X → List (Nat × (V → V))} (hd : ∀ n g, ∀ u ∈ derivatives n g, ∀ v, core (u.2 v) = core v)
    {order order' : {α : Type} → List α → List α} (ho : IsOrder order) (ho' : IsOrder order') {save save' : Save V X}
    {debug debug' : Bool} {history : List (List T × List T)} {fixed volatile : List T} {e e' : Extruder E V X}
    (hv : ∀ c ∈ history, c.2 ≠ [] ∨ c.1 = []) (hl : fixed ≠ [] ∨ volatile ≠ [])
    (h : (Extruder.start env save).extendAll debug env tip order (history ++ [(fixed, volatile)]) = some e)
    (h' : (Extruder.start env save').extend debug' env { tip with derivatives := derivatives } order'
      (history.flatMap (·.1) ++ fixed) volatile = some e') :
    e'.extrusions = e.extrusions ∧ contents core e'.geometry = contents core e.geometry ∧
    e'.outlines.filter (· ≠ ([], [])) = e.outlines.filter (· ≠ ([], [])) := by
  obtain ⟨u, hu, S⟩ := extend_ok ho he ht save h
  have ht' : OkTip core { tip with derivatives := derivatives } := ⟨ht.turn, ht.startcap, ht.endcap, ht.whole, hd⟩
  have h2 : (Extruder.start env save').extendAll debug' env { tip with derivatives := derivatives } order'
      ([] ++ [(history.flatMap (·.1) ++ fixed, volatile)]) = some e' := by
    show ((Extruder.start env save').extend debug' env _ order' _ volatile).bind _ = _
    rw [h']; rfl
  obtain ⟨u', hu', S'⟩ := extend_ok ho' he ht' save h2
  have same : ∀ (fs : List (T × Bool)), strokeOf env { tip with derivatives := derivatives } save fs volatile =
      strokeOf env tip save fs volatile := by
    have add : ∀ (r : Stroke E V X) (t : T) (l : Bool), r.add env { tip with derivatives := derivatives } t l = r.add env tip t l :=
      fun _ _ _ => rfl
    have addAll : ∀ (ts : List (T × Bool)) (r : Stroke E V X), r.addAll env { tip with derivatives := derivatives } ts = r.addAll env tip ts := by
      intro ts
      induction ts with
      | nil => intro r; rfl
      | cons t ts ih =>
        intro r
        show (r.add env _ t.1 t.2).bind _ = (r.add env _ t.1 t.2).bind _
        rw [add]; congr 1; funext r; exact ih r
    intro fs
    unfold strokeOf
    rw [addAll]; congr 1; funext r
    rw [addAll]; rfl
  have marks : ([] ++ [(history.flatMap (fun c : List T × List T => c.1) ++ fixed, volatile)]).flatMap markedFixed =
      (history ++ [(fixed, volatile)]).flatMap markedFixed := by
    simp only [List.nil_append, List.flatMap_append, List.flatMap_cons, List.flatMap_nil, List.append_nil]
    unfold markedFixed
    dsimp only
    rw [marked_append _ _ (by rcases hl with h | h; exact Or.inl h; right; cases volatile <;> simp_all)]
    congr 1
    clear h h2 hu hu' h'
    induction history with
    | nil => rfl
    | cons c cs ih =>
      rw [List.flatMap_cons, List.flatMap_cons, List.map_append, ih (fun c hc => hv c (List.mem_cons_of_mem _ hc))]
      congr 1
      rcases hv c List.mem_cons_self with h | h
      · have : c.2.isEmpty = false := by cases hc : c.2 <;> simp_all
        rw [this, marked_false]
      · rw [h]; rfl
  rw [same, marks, hu] at hu'
  injection hu' with hu'; subst hu'
  refine ⟨S'.ext.trans S.ext.symm, (same_iff.1 S'.same).trans (same_iff.1 S.same).symm, ?_⟩
  have hf := (strokeOf_ok ht hu).1
  rcases S.outlines hf with h | h <;> rcases S'.outlines hf with h' | h' <;> rw [h, h'] <;> simp

/-- **C50** After each call the outlines are the vertices of the mesh: the left sides of all outlines in order, and the right sides,
contain every vertex of the mesh once, and each side has ascending indices of vertices of that side. -/
theorem C50_outlines_partial {core : V → C} {env : Env V X} (he : Respects core env) {tip : Tip T E V X} (ht : OkTip core tip)
    {order : {α : Type} → List α → List α} (ho : IsOrder order) {save : Save V X} {debug : Bool} {history : List (List T × List T)}
    {e : Extruder E V X} (hn : history ≠ []) (h : (Extruder.start env save).extendAll debug env tip order history = some e) :
    ((e.outlines.map (·.1)).flatten ++ (e.outlines.map (·.2)).flatten).Perm (List.range e.geometry.vertices.length) ∧
    (e.outlines.map (·.1)).flatten.Pairwise (· < ·) ∧ (e.outlines.map (·.2)).flatten.Pairwise (· < ·) ∧
    (∀ i ∈ (e.outlines.map (·.1)).flatten, e.geometry.ids[i]? = some .left) ∧
    (∀ i ∈ (e.outlines.map (·.2)).flatten, e.geometry.ids[i]? = some .right) := by
  rw [← List.dropLast_concat_getLast hn] at h
  obtain ⟨u, hu, S⟩ := extend_ok ho he ht save (fixed := (history.getLast hn).1) (volatile := (history.getLast hn).2) h
  obtain ⟨hf, Tb⟩ := strokeOf_ok ht hu
  have hl : (e.outlines.map (·.1)).flatten = positions .left e.geometry.ids := by
    have e1 : (e.outlines.map (·.1)).flatten = (u.outlines.map (·.1)).flatten := by
      rcases S.outlines hf with h | h
      · rw [h]
      · rw [h]; simp
    rw [e1, S.left, List.take_of_length_le, S.same.left, Tb.left, S.same.ids]
    have := hf.1
    rw [List.drop_eq_nil_iff] at this
    rw [S.same.left, S.same.lastBreak]; exact this
  have hr : (e.outlines.map (·.2)).flatten = positions .right e.geometry.ids := by
    have e1 : (e.outlines.map (·.2)).flatten = (u.outlines.map (·.2)).flatten := by
      rcases S.outlines hf with h | h
      · rw [h]
      · rw [h]; simp
    rw [e1, S.right, List.take_of_length_le, S.same.right, Tb.right, S.same.ids]
    have := hf.2
    rw [List.drop_eq_nil_iff] at this
    rw [S.same.right, S.same.lastBreak]; exact this
  have hlen : e.geometry.vertices.length = e.geometry.ids.length := by rw [S.same.ids, Tb.ids, S.same.length]
  rw [hl, hr, hlen]
  have sorted : ∀ k, (positions k e.geometry.ids).Pairwise (· < ·) := fun k => List.pairwise_lt_range.sublist List.filter_sublist
  have mem : ∀ k, ∀ i ∈ positions k e.geometry.ids, e.geometry.ids[i]? = some k := by
    intro k i hi
    have := (List.mem_filter.1 hi).2
    simpa using this
  exact ⟨positions_perm _, sorted _, sorted _, mem _, mem _⟩

/-- **C50** The assertions about outlines (that exist only in debug builds) hold for every history: builds with and without them behave
the same. -/
theorem C50_dchecks_partial {core : V → C} {env : Env V X} (he : Respects core env) {tip : Tip T E V X} (ht : OkTip core tip)
    {order : {α : Type} → List α → List α} (ho : IsOrder order) {save : Save V X} {history : List (List T × List T)} :
    (Extruder.start env save : Extruder E V X).extendAll true env tip order history =
      (Extruder.start env save).extendAll false env tip order history := by
  cases h : (Extruder.start env save : Extruder E V X).extendAll true env tip order history with
  | some e => exact ((between_all ho he ht history (between_start core env save save) h).1 false).symm
  | none =>
    cases h' : (Extruder.start env save : Extruder E V X).extendAll false env tip order history with
    | none => rfl
    | some e =>
      have := (between_all ho he ht history (between_start core env save save) h').1 true
      rw [h] at this; cases this

/-! ### An example -/

namespace ExtruderExample

def env0 : Env (Nat × Nat) Unit := ⟨(0, 0), (), fun _ v => (v.1 + 1000, v.2), fun v => (v.1 + 1, v.2), fun _ => false⟩

def save0 : Save (Nat × Nat) Unit :=
  ⟨false, false, 0, 0, [], [], [], [], [], {}, ⟨0, 0, [], [], (clearedSide env0).state⟩, ⟨0, 0, [], [], (clearedSide env0).state⟩⟩

/-- Tips are numbers; 0 is too small, and a number is far larger than another one if it is so by 100. -/
def tip0 : Tip Nat Nat (Nat × Nat) Unit where
  small t := t == 0
  make t := t
  constrain a b :=
    if a + 100 ≤ b then .proposedContainsLast else if b = a then .lastContainsProposed else if b = a + 1 then .found b true
    else if b + 100 ≤ a then .cannotFind else .proposedValid
  contains new old := decide (old + 100 ≤ new)
  turn _ _ c := [fun _ => .appendVertex .left (c, 0), fun _ => .appendVertex .right (c, 0), fun g => .appendTriangle (0, 1, g.vertices.length)]
  startcap b c := [fun _ => .appendVertex .left (b, 0), fun _ => .bufferVertex .right (c, 0), fun _ => .setVertex 0 (c, 0)]
  endcap _ c := [fun _ => .appendVertex .right (c, 0), fun _ => .appendTriangle (0, 1, 2)]
  whole c := [fun _ => .appendVertex .left (c, 0), fun _ => .appendVertex .right (c, 0)]
  derivatives n _ := [(0, fun v => (v.1, n))]

theorem okTip0 : OkTip (fun v : Nat × Nat => v.1) tip0 := by
  have key : ∀ (g h : Geometry (Nat × Nat) Unit), contents (fun v : Nat × Nat => v.1) g = contents (fun v : Nat × Nat => v.1) h →
      g.vertices.length = h.vertices.length := fun g h e => (same_iff.2 e).length
  refine ⟨?_, ?_, ?_, ?_, ?_⟩
  · intro a b c f hf
    simp only [tip0, List.mem_cons, List.not_mem_nil, or_false] at hf
    rcases hf with rfl | rfl | rfl
    · exact ⟨fun _ => trivial, fun _ _ _ => rfl⟩
    · exact ⟨fun _ => trivial, fun _ _ _ => rfl⟩
    · exact ⟨fun _ => trivial, fun g h e => by dsimp only; rw [key g h e]⟩
  · intro a b f hf
    simp only [tip0, List.mem_cons, List.not_mem_nil, or_false] at hf
    rcases hf with rfl | rfl | rfl <;> exact ⟨fun _ => trivial, fun _ _ _ => rfl⟩
  · intro a b f hf
    simp only [tip0, List.mem_cons, List.not_mem_nil, or_false] at hf
    rcases hf with rfl | rfl <;> exact ⟨fun _ => trivial, fun _ _ _ => rfl⟩
  · intro a f hf
    simp only [tip0, List.mem_cons, List.not_mem_nil, or_false] at hf
    rcases hf with rfl | rfl <;> exact ⟨fun _ => trivial, fun _ _ _ => rfl⟩
  · intro n g u hu v
    simp only [tip0, List.mem_singleton] at hu
    subst hu; rfl

/-- Predictions that end a part of the stroke, swallow fixed parts of it or begin another part. -/
def history0 : List (List Nat × List Nat) := [([1, 5, 9], [20, 30]), ([12], [300, 301]), ([0, 7], [500, 0, 9]), ([8, 20], [21])]

/-- The hypotheses of the theorems: the calls of the example succeed, the stroke is in two parts, and so does the call for all states. -/
example : ∃ e e', (Extruder.start env0 save0).extendAll true env0 tip0 (fun l => l) (history0 ++ [([40], [60, 200])]) = some e ∧
    (Extruder.start env0 save0).extend true env0 tip0 (fun l => l) (history0.flatMap (·.1) ++ [40]) [60, 200] = some e' ∧
    e.outlines = [([0, 2, 4], [1, 3, 5, 6]), ([7], [8])] ∧ e.extrusions.length = 7 ∧ e.geometry.vertices ≠ e'.geometry.vertices := by
  refine ⟨_, _, rfl, rfl, ?_⟩
  decide +kernel

example : (∀ c ∈ history0, c.2 ≠ [] ∨ c.1 = []) ∧ Respects (fun v : Nat × Nat => v.1) env0 := by
  refine ⟨by decide, fun v w h => by simpa [env0] using h⟩

/-- **C50** Without volatile states the calls matter: the last fixed state of a call is extruded although it is too similar to the one
before, and remains. -/
theorem C50_batching_counterexample :
    ∃ e e', (Extruder.start env0 save0).extendAll true env0 tip0 (fun l => l) [([1, 2], []), ([10], [])] = some e ∧
      (Extruder.start env0 save0).extendAll true env0 tip0 (fun l => l) [([1, 2, 10], [])] = some e' ∧
      e.extrusions ≠ e'.extrusions ∧ e.geometry.vertices ≠ e'.geometry.vertices := by
  refine ⟨_, _, rfl, rfl, ?_, ?_⟩ <;> decide +kernel

end ExtruderExample

end Verif.StrokeGeom
