import Verif.Lemmas.Triangulation
import Mathlib.Data.Rat.Sqrt

/-!
# C76: the mesh of extruded vertices

The vertices of both sides of a stroke are joined by triangles. Here self-intersections are not handled
(`IntersectionHandling::kDisabled`).
-/

set_option autoImplicit false
set_option linter.unusedSectionVars false

namespace Verif.Triangulation

open Geo Spec
open PartialOutline (SideId)

variable {K : Type} [Field K] [LinearOrder K]

/-- A new stroke -/
def start : State K := ⟨[], [], [], ⟨[], 0, [], 0, []⟩, ⟨[], 0, [], 0, []⟩⟩

variable [IsStrictOrderedRing K]

/-- **C76.** Any calls succeed: no vertex is read where there is none. Each side has its vertices in the order of the mesh. Every triangle
connects a vertex with the last vertex of the left side and the last one of the right side before it; every vertex is the last one of at most one
triangle, and triangles are in the order of their last vertices. -/
theorem C76_run (hypot : K → K → K) (os : List (Op K)) :
    ∃ s, run hypot start os = some s ∧ (∀ k, (s.side k).indices = verticesOf s k) ∧ s.sideOf.length = s.vertices.length ∧
      (∀ t ∈ s.triangles, Connects s t) ∧ s.triangles.Pairwise fun t u => t.2.2 < u.2.2 := by
  obtain ⟨s, e, h, -⟩ := run_spec hypot os start inv_empty
  exact ⟨s, e, h.ind, h.len, h.tri, h.inc⟩

/-- **C76.** A call that neither simplifies nor adds vertices for winding textures takes all vertices that were given since the last one into
the mesh, after those that are there, in the order `addingOrder`. For every one of them there is the triangle with the last vertices of both
sides before it, exactly if it turns counter-clockwise. -/
theorem C76_batch (hypot : K → K → K) (os : List (Op K)) (s s' : State K) (hs : run hypot start os = some s) (threshold width height : K)
    (ht : threshold ≤ 0) (hl : s.left.buffer ≠ []) (hr : s.right.buffer ≠ []) (h : step hypot s (.process false threshold width height) = some s') :
    let new := addingOrder (s.left.buffer.drop s.left.next) (s.right.buffer.drop s.right.next)
    s'.vertices = s.vertices ++ new.map Prod.snd ∧ s'.sideOf = s.sideOf ++ new.map Prod.fst ∧
      s'.triangles = s.triangles ++ (List.range' s.vertices.length new.length).filterMap (triangleOf s') := by
  obtain ⟨s1, e, i, -⟩ := run_spec hypot os start inv_empty
  rw [e, Option.some.injEq] at hs
  subst hs
  obtain ⟨s2, e2, -, -, -, g⟩ := process_spec hypot false threshold width height i
  have e3 : step hypot s1 (.process false threshold width height) = some s2 := e2
  rw [h, Option.some.injEq] at e3
  subst e3
  have g := g ht rfl hl hr
  exact ⟨g.vertices, g.sideOf, g.triangles⟩

omit [Field K] [LinearOrder K] [IsStrictOrderedRing K] in
theorem ofSide_pairs {V : Type} : ∀ (l r : List V), l.length = r.length → ofSide .left (pairs l r) = l ∧ ofSide .right (pairs l r) = r
  | [], [], _ => ⟨rfl, rfl⟩
  | a :: l, b :: r, h => by
    obtain ⟨h1, h2⟩ := ofSide_pairs l r (by simpa using h)
    rw [pairs_cons]
    simp only [ofSide] at h1 h2 ⊢
    simp [h1, h2]

omit [Field K] [LinearOrder K] [IsStrictOrderedRing K] in
theorem ofSide_append {V : Type} (k : SideId) (p q : List (SideId × V)) : ofSide k (p ++ q) = ofSide k p ++ ofSide k q := by
  simp [ofSide]

omit [Field K] [LinearOrder K] [IsStrictOrderedRing K] in
theorem ofSide_mk {V : Type} (k k' : SideId) (l : List V) : ofSide k (l.map (Prod.mk k')) = if k' = k then l else [] := by
  unfold ofSide
  by_cases e : k' = k
  · rw [if_pos e]
    subst e
    rw [List.filter_eq_self.2 (by simp)]
    simp
  · rw [if_neg e, List.filter_eq_nil_iff.2 (by simp [e])]
    rfl

omit [Field K] [LinearOrder K] [IsStrictOrderedRing K] in
/-- **C76.** That order has all new vertices of each side, in their order. -/
theorem C76_order {V : Type} (l r : List V) : ofSide .left (addingOrder l r) = l ∧ ofSide .right (addingOrder l r) = r := by
  unfold addingOrder
  dsimp only
  generalize hm : min l.length r.length = m
  have p1 := ofSide_pairs (l.take ((m + 1) / 2)) (r.take ((m + 1) / 2)) (by rw [List.length_take, List.length_take]; omega)
  have p2 := ofSide_pairs (l.drop (l.length - m / 2)) (r.drop (r.length - m / 2)) (by rw [List.length_drop, List.length_drop]; omega)
  have join : ∀ q : List V, m ≤ q.length → q.take ((m + 1) / 2) ++ (q.drop ((m + 1) / 2)).take (q.length - m) ++ q.drop (q.length - m / 2) = q := fun q hq => by
    have e : q.drop (q.length - m / 2) = (q.drop ((m + 1) / 2)).drop (q.length - m) := by
      rw [List.drop_drop]; congr 1; omega
    rw [e, List.append_assoc, List.take_append_drop, List.take_append_drop]
  constructor
  · rw [ofSide_append, ofSide_append, ofSide_append, p1.1, p2.1, ofSide_mk, ofSide_mk, if_pos rfl, if_neg (by decide), List.append_nil]
    exact join l (by omega)
  · rw [ofSide_append, ofSide_append, ofSide_append, p1.2, p2.2, ofSide_mk, ofSide_mk, if_pos rfl, if_neg (by decide), List.nil_append]
    exact join r (by omega)

/-- **C76.** Triangles that are added after a break only use vertices that are added after it. -/
theorem C76_break (hypot : K → K → K) (os os' : List (Op K)) (s s' : State K) (hs : run hypot start os = some s)
    (hs' : run hypot s (.break :: os') = some s') :
    s'.triangles.take s.triangles.length = s.triangles ∧ ∀ t ∈ s'.triangles.drop s.triangles.length, From s.vertices.length t := by
  obtain ⟨s1, e, i, -⟩ := run_spec hypot os start inv_empty
  rw [e, Option.some.injEq] at hs
  subst hs
  obtain ⟨s2, e2, -, i2, -, t2, -⟩ := addBreak_spec i
  have e3 : step hypot s1 (.break) = some s2 := e2
  rw [run, e3, Option.bind_some] at hs'
  have pre : ∀ (os : List (Op K)) (s : State K) {b n : ℕ}, Inv s b n → ∀ s', run hypot s os = some s' → s.triangles <+: s'.triangles := by
    intro os
    induction os with
    | nil => intro s b n _ s' h; rw [run, Option.some.injEq] at h; rw [h]
    | cons o os ih =>
      intro s b n hi s' h
      obtain ⟨u, eu, iu, ku, -⟩ := step_spec hypot hi o
      rw [run, eu, Option.bind_some] at h
      exact ku.tri.trans (ih u iu s' h)
  have p := pre os' s2 i2 s' hs'
  obtain ⟨s3, e4, i4, -⟩ := run_spec hypot os' s2 i2
  rw [hs', Option.some.injEq] at e4
  subst e4
  rw [t2] at p
  refine ⟨(List.prefix_iff_eq_take.1 p).symm, i4.new⟩

/-- **C76.** Without simplification all triangles turn counter-clockwise. (Partial: with simplification they may not, see
`C76_simplify_counterexample`.) -/
theorem C76_ccw_partial (hypot : K → K → K) (os : List (Op K)) (ho : ∀ o ∈ os, Plain o) (s : State K) (hs : run hypot start os = some s) :
    ∀ t ∈ s.triangles, Ccw s t := by
  obtain ⟨s1, e, -, c⟩ := run_spec hypot os start inv_empty
  rw [e, Option.some.injEq] at hs
  subst hs
  exact c ho (fun t ht => by simp [start] at ht)

theorem stable_step {s s' : State K} {b n : ℕ} (h : Inv s b n) (hk : Kept s s') (j : ℕ) (hj : j < stableCount s) (t : ℕ × ℕ × ℕ)
    (ht : s.triangles[j]? = some t) :
    s'.triangles[j]? = some t ∧ ∀ i, i = t.1 ∨ i = t.2.1 ∨ i = t.2.2 → positionOf s' i = positionOf s i := by
  unfold stableCount at hj
  obtain ⟨hjl, rfl⟩ := List.getElem?_eq_some_iff.1 ht
  obtain ⟨c1, c2, c3, c4, c5⟩ := h.tri _ (List.getElem_mem hjl)
  refine ⟨?_, fun i hi => ?_⟩
  · obtain ⟨u, hu⟩ := hk.tri
    rw [← hu, List.getElem?_append_left hjl, ht]
  · have hle : i ≤ (s.triangles[j]).2.2 := by rcases hi with e | e | e <;> omega
    rcases hk.pos i (by omega) with e | ⟨k, a, a'⟩
    · exact e
    · exfalso
      have r : Recent s k := by
        rcases h.buf k with c | c
        · rcases c.two with q | q
          · omega
          · exact q.2
        · rw [c.2.1] at a; omega
      obtain ⟨i', e1, u, hu, e2⟩ := r
      rw [a', Option.some.injEq] at e1
      obtain ⟨m, hm⟩ := List.mem_iff_getElem?.1 hu
      rw [List.getElem?_drop] at hm
      obtain ⟨hml, rfl⟩ := List.getElem?_eq_some_iff.1 hm
      have := List.pairwise_iff_getElem.1 h.inc j _ hjl hml (by omega)
      omega

/-- **C76.** The first `NStableTriangles` triangles keep their vertices, and those keep their positions, whatever calls follow. -/
theorem C76_stable (hypot : K → K → K) (os os' : List (Op K)) (s s' : State K) (hs : run hypot start os = some s) (hs' : run hypot s os' = some s')
    (j : ℕ) (hj : j < stableCount s) (t : ℕ × ℕ × ℕ) (ht : s.triangles[j]? = some t) :
    s'.triangles[j]? = some t ∧ ∀ i, i = t.1 ∨ i = t.2.1 ∨ i = t.2.2 → positionOf s' i = positionOf s i := by
  obtain ⟨s1, e, i, -⟩ := run_spec hypot os start inv_empty
  rw [e, Option.some.injEq] at hs
  subst hs
  have all : ∀ (os : List (Op K)) (s : State K) {b n : ℕ}, Inv s b n → ∀ s', run hypot s os = some s' → j < stableCount s → s.triangles[j]? = some t →
      s'.triangles[j]? = some t ∧ ∀ i, i = t.1 ∨ i = t.2.1 ∨ i = t.2.2 → positionOf s' i = positionOf s i := by
    intro os
    induction os with
    | nil => intro s b n _ s' h _ ht; rw [run, Option.some.injEq] at h; subst h; exact ⟨ht, fun _ _ => rfl⟩
    | cons o os ih =>
      intro s b n hi s' h hj ht
      obtain ⟨u, eu, iu, ku, -⟩ := step_spec hypot hi o
      rw [run, eu, Option.bind_some] at h
      obtain ⟨a1, a2⟩ := stable_step hi ku j hj t ht
      have len := ku.tri.length_le
      obtain ⟨b1, b2⟩ := ih u iu s' h (by unfold stableCount at hj ⊢; omega) a1
      exact ⟨b1, fun i hi => (b2 i hi).trans (a2 i hi)⟩
  exact all os' s1 i s' hs' hj ht

/-- The number of vertices without a triangle of their own. -/
def lacking (s : State K) : ℤ := s.vertices.length - s.triangles.length

/-- Where no vertex is added without its triangle, both programs do the same. -/
def Agree (f g : State K → Option (State K)) : Prop := ∀ s s', f s = some s' → lacking s ≤ lacking s' ∧ (lacking s' = lacking s → g s = some s')

theorem Agree.bind {f g f' g' : State K → Option (State K)} (h : Agree f g) (h' : Agree f' g') : Agree (fun s => (f s).bind f') (fun s => (g s).bind g') := by
  intro s s' e
  obtain ⟨u, e1, e2⟩ := Option.bind_eq_some_iff.1 e
  obtain ⟨a1, a2⟩ := h s u e1
  obtain ⟨b1, b2⟩ := h' u s' e2
  refine ⟨a1.trans b1, fun q => ?_⟩
  dsimp only
  rw [a2 (by omega), Option.bind_some, b2 (by omega)]

theorem Agree.self (f : State K → Option (State K)) (h : ∀ s s', f s = some s' → lacking s' = lacking s) : Agree f f := fun s s' e => ⟨(h s s' e).ge, fun _ => e⟩

theorem Agree.times {f g : State K → Option (State K)} (h : Agree f g) : ∀ n, Agree (Triangulation.times f n) (Triangulation.times g n)
  | 0 => Agree.self _ fun s s' e => by rw [Triangulation.times, Option.some.injEq] at e; rw [e]
  | n + 1 => fun s s' e => by
    rw [Triangulation.times] at e ⊢
    exact (h.bind (Agree.times h n)) s s' e

theorem lacking_setSide (s : State K) (k : SideId) (x : Side K) : lacking (s.setSide k x) = lacking s := by
  unfold lacking
  rw [setSide_vertices, setSide_triangles]

theorem agree_tryAppend (slow : Option (Slow K)) (k : SideId) : Agree (tryAppend none k) (tryAppend slow k) := by
  intro s s' e
  unfold tryAppend at e ⊢
  obtain ⟨v, e1, e⟩ := Option.bind_eq_some_iff.1 e
  obtain ⟨a, e2, e⟩ := Option.bind_eq_some_iff.1 e
  rw [e1, Option.bind_some, e2, Option.bind_some]
  by_cases q : 0 < a
  · rw [if_pos q] at e ⊢
    refine ⟨?_, fun _ => e⟩
    obtain ⟨l, e3, e⟩ := Option.bind_eq_some_iff.1 e
    obtain ⟨r, e4, rfl⟩ := Option.map_eq_some_iff.1 e
    simp only [lacking, append_vertices, append_triangles, List.length_append, List.length_singleton]
    omega
  · rw [if_neg q] at e
    dsimp only at e
    rw [Option.some.injEq] at e
    subst e
    simp only [lacking, append_vertices, append_triangles, List.length_append, List.length_singleton]
    exact ⟨by omega, fun c => by omega⟩

theorem agree_quad (slow : Option (Slow K)) : Agree (quad none) (quad slow) := by
  have h := (agree_tryAppend slow .right).bind ((agree_tryAppend slow .left).bind (Agree.self (fun s => some ((s.advance .right).advance .left)) fun s s' e => by
    rw [Option.some.injEq] at e
    rw [← e, State.advance, State.advance, lacking_setSide, lacking_setSide]))
  intro s s' e
  have := h s s'
  unfold quad at e ⊢
  have m : ∀ o : Option (State K), (o.bind fun s => some ((s.advance .right).advance .left)) = o.map fun s => (s.advance .right).advance .left := fun o => by cases o <;> rfl
  simp only [m] at this
  exact this e

theorem agree_fan (slow : Option (Slow K)) (k : SideId) : Agree (fanStep none k) (fanStep slow k) := by
  have h := (agree_tryAppend slow k).bind (Agree.self (fun s => some (s.advance k)) fun s s' e => by
    rw [Option.some.injEq] at e
    rw [← e, State.advance, lacking_setSide])
  intro s s' e
  have := h s s'
  have m : ∀ o : Option (State K), (o.bind fun s => some (s.advance k)) = o.map fun s => s.advance k := fun o => by cases o <;> rfl
  simp only [m] at this
  exact this e

theorem lacking_prepare (m : Bool) (k : SideId) (s s' : State K) (e : prepare m k s = some s') : lacking s' = lacking s := by
  unfold prepare at e
  dsimp only at e
  cases hi : (s.side k).indices.getLast? with
  | none =>
    rw [hi] at e
    dsimp only at e
    rw [Option.some.injEq] at e
    rw [← e, lacking_setSide]
  | some i =>
    rw [hi] at e
    dsimp only at e
    obtain ⟨v, -, e⟩ := Option.bind_eq_some_iff.1 e
    split_ifs at e
    · obtain ⟨j, -, e⟩ := Option.bind_eq_some_iff.1 e
      obtain ⟨w, -, rfl⟩ := Option.map_eq_some_iff.1 e
      rw [lacking_setSide]
    · rw [Option.some.injEq] at e
      rw [← e, lacking_setSide]

theorem agree_triangulate (slow : Option (Slow K)) : Agree (triangulate none false) (triangulate slow false) := by
  intro s s' e
  unfold triangulate at e ⊢
  dsimp only at e ⊢
  by_cases q : s.left.buffer.length - s.left.next + 1 < 2 ∧ s.right.buffer.length - s.right.next + 1 < 2
  · rw [if_pos q] at e ⊢
    rw [Option.some.injEq] at e
    rw [e]
    exact ⟨le_rfl, fun _ => rfl⟩
  · rw [if_neg q] at e ⊢
    generalize s.left.buffer.length - s.left.next + 1 = nl at e ⊢
    generalize s.right.buffer.length - s.right.next + 1 = nr at e ⊢
    have h := ((agree_quad slow).times (min nl nr / 2)).bind (((agree_fan slow (if nr < nl then .left else .right)).times (max nl nr - min nl nr)).bind
      (((agree_quad slow).times ((min nl nr - 1) / 2)).bind (Agree.self (fun s => (prepare false .left s).bind (prepare false .right)) fun s s' e => by
        obtain ⟨u, e1, e2⟩ := Option.bind_eq_some_iff.1 e
        rw [lacking_prepare _ _ _ _ e2, lacking_prepare _ _ _ _ e1]))) s s'
    simp only [Bool.false_eq_true, and_false, if_false, Option.bind_some, endsInPivot, Option.bind_assoc] at e ⊢ h
    exact h (by simpa using e)

/-- **C76.** Where each vertex that a call adds has its triangle, handling self-intersections makes no difference, whatever it does: the mesh is
the same. -/
theorem C76_enabled (hypot : K → K → K) (os : List (Op K)) (s s' : State K) (hs : run hypot start os = some s) (slow : Slow K) (threshold width height : K)
    (h : process hypot none false threshold width height s = some s') (hn : s'.triangles.length + s.vertices.length = s.triangles.length + s'.vertices.length) :
    process hypot (some slow) false threshold width height s = some s' := by
  obtain ⟨s1, e, i, -⟩ := run_spec hypot os start inv_empty
  rw [e, Option.some.injEq] at hs
  subst hs
  unfold process at h ⊢
  by_cases q : s1.left.buffer = [] ∨ s1.right.buffer = []
  · rw [if_pos q] at h ⊢; exact h
  rw [if_neg q] at h ⊢
  dsimp only at h ⊢
  obtain ⟨hr0, hb0⟩ := i.ready (fun c => q (Or.inl c)) (fun c => q (Or.inr c))
  obtain ⟨s2, e2, r2, t2, l2, b2, -, -⟩ := simplifySide_spec hypot threshold (8 * (1 / 2 * (width + height))) .left hr0 hb0
  obtain ⟨s3, e3, r3, t3, l3, b3, -, -⟩ := simplifySide_spec hypot threshold (8 * (1 / 2 * (width + height))) .right r2 fun k => (b2 k).1
  rw [e2, Option.bind_some, e3, Option.bind_some] at h ⊢
  obtain ⟨s4, e4, rfl⟩ := Option.map_eq_some_iff.1 h
  have c : ∀ m k (u : State K), (clearSimplified m k u).vertices = u.vertices ∧ (clearSimplified m k u).triangles = u.triangles := fun m k u => by
    unfold clearSimplified
    split_ifs
    · exact ⟨rfl, rfl⟩
    · exact ⟨setSide_vertices _ _ _, setSide_triangles _ _ _⟩
  rw [(c _ _ _).1, (c _ _ _).1, (c _ _ _).2, (c _ _ _).2] at hn
  rw [(agree_triangulate (some slow) s3 s4 e4).2 (by unfold lacking; rw [t3, t2, l3, l2]; omega), Option.map_some]

section Examples

/-- A vertex -/
def vtx (x y : ℚ) : Vertex ℚ := ⟨⟨x, y⟩, ⟨0, 0⟩, .interior⟩

/-- The square root, exact for squares -/
def root (a b : ℚ) : ℚ := Rat.sqrt (a * a + b * b)

/-- Two vertices on the left side and one on the right side, then one on the right side, then one on the left side that is simplified -/
def flip : List (Op ℚ) :=
  [.append .left (vtx (-4) (-4)), .append .right (vtx 0 (-1)), .append .left (vtx (-1) 0), .process false 1 10 10, .append .right (vtx 0 1),
    .process false 1 10 10, .append .left (vtx 2 4), .process false 1 10 10]

/-- **C76.** A call with simplification may move the last vertex of a side so that a triangle turns the other way: before this call all
triangles turn counter-clockwise, after it one does not. -/
theorem C76_simplify_counterexample : ∃ s s' : State ℚ, run root start (flip.take 7) = some s ∧ run root start flip = some s' ∧
    s.triangles = [(0, 1, 2), (2, 1, 3)] ∧ s'.triangles = s.triangles ∧ (∀ t ∈ s.triangles, Ccw s t) ∧ ¬ ∀ t ∈ s'.triangles, Ccw s' t := by
  refine ⟨(run root start (flip.take 7)).getD start, (run root start flip).getD start, by decide +kernel, by decide +kernel, by decide +kernel,
    by decide +kernel, ?_, ?_⟩
  · have e : ((run root start (flip.take 7)).getD start).triangles = [(0, 1, 2), (2, 1, 3)] := by decide +kernel
    rw [e]
    intro t ht
    rcases List.mem_cons.1 ht with rfl | ht
    · exact ⟨⟨-4, -4⟩, ⟨0, -1⟩, ⟨-1, 0⟩, by decide +kernel, by decide +kernel, by decide +kernel, by decide +kernel⟩
    · rw [List.mem_singleton] at ht
      subst ht
      exact ⟨⟨-1, 0⟩, ⟨0, -1⟩, ⟨0, 1⟩, by decide +kernel, by decide +kernel, by decide +kernel, by decide +kernel⟩
  · intro h
    obtain ⟨a, b, c, h1, h2, h3, h4⟩ := h (2, 1, 3) (by decide +kernel)
    have e1 : positionOf ((run root start flip).getD start) 2 = some ⟨2, 4⟩ := by decide +kernel
    have e2 : positionOf ((run root start flip).getD start) 1 = some ⟨0, -1⟩ := by decide +kernel
    have e3 : positionOf ((run root start flip).getD start) 3 = some ⟨0, 1⟩ := by decide +kernel
    rw [e1, Option.some.injEq] at h1
    rw [e2, Option.some.injEq] at h2
    rw [e3, Option.some.injEq] at h3
    subst h1 h2 h3
    exact absurd h4 (by decide +kernel)

/-- The distances in that run are exact. -/
example : root 0 0 = 0 ∧ root (-6) (-8) = 10 ∧ root 6 8 = 10 := by decide +kernel

/-- A fan around one vertex of the right side -/
def fan : List (Op ℚ) :=
  [.append .left (vtx 0 0), .append .right (vtx 1 0), .append .left (vtx 0 1), .append .left (vtx 0 2), .append .left (vtx 0 3),
    .process false 0 10 10]

/-- **C76.** Other attributes of a vertex of a stable triangle may change: a break labels the last vertex of each side as an end of the
stroke. -/
theorem C76_label_counterexample : ∃ (s s' : State ℚ) (t : ℕ × ℕ × ℕ), run root start fan = some s ∧ run root s [.break] = some s' ∧
    t ∈ s.triangles.take (stableCount s) ∧ s'.vertices[t.2.1]? ≠ s.vertices[t.2.1]? := by
  refine ⟨(run root start fan).getD start, ((run root start fan).bind fun s => run root s [.break]).getD start, (0, 1, 2), ?_⟩
  decide +kernel

/-- A batch that is neither empty nor all of one side -/
def batch : List (Op ℚ) :=
  [.append .left (vtx 0 0), .append .right (vtx 1 0), .append .left (vtx 0 1), .append .right (vtx 1 1), .append .left (vtx 0 2), .append .left (vtx 0 3),
    .append .left (vtx 0 4), .append .right (vtx 1 4)]

example : ∃ s s' : State ℚ, run root start batch = some s ∧ s.left.buffer ≠ [] ∧ s.right.buffer ≠ [] ∧ step root s (.process false 0 10 10) = some s' ∧
    s'.triangles = [(0, 1, 2), (0, 2, 3), (3, 2, 4), (4, 2, 5), (5, 2, 6), (5, 6, 7)] ∧ stableCount s' = 4 :=
  ⟨(run root start batch).getD start, ((run root start batch).bind fun s => step root s (.process false 0 10 10)).getD start, by decide +kernel⟩

/-- There every new vertex has its triangle. -/
example : ∃ s s' : State ℚ, run root start batch = some s ∧ process root none false 0 10 10 s = some s' ∧
    s'.triangles.length + s.vertices.length = s.triangles.length + s'.vertices.length ∧ s.triangles.length + 6 = s'.triangles.length :=
  ⟨(run root start batch).getD start, ((run root start batch).bind fun s => step root s (.process false 0 10 10)).getD start, by decide +kernel⟩

example : addingOrder [1, 2, 3, 4] [10, 20] = [(.right, 10), (.left, 1), (.left, 2), (.left, 3), (.right, 20), (.left, 4)] := by decide

example : ∀ o ∈ batch ++ [.process true 0 10 10, .break], Plain o := by
  intro o ho
  simp only [batch, List.cons_append, List.nil_append, List.mem_cons, List.not_mem_nil, or_false] at ho
  rcases ho with rfl | rfl | rfl | rfl | rfl | rfl | rfl | rfl | rfl | rfl <;> simp [Plain]

/-- After a break there are further triangles. -/
example : ∃ s s' : State ℚ, run root start fan = some s ∧ run root s (.break :: fan) = some s' ∧ s'.triangles.drop s.triangles.length = [(5, 6, 7), (7, 6, 8), (8, 6, 9)] :=
  ⟨(run root start fan).getD start, ((run root start fan).bind fun s => run root s (.break :: fan)).getD start, by decide +kernel⟩

end Examples

end Verif.Triangulation
