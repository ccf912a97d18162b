import Verif.Lemmas.StrokeUpdate

/-! # Lemmas for C55: strokes that are strips of triangles -/

set_option autoImplicit false

namespace Verif.StrokeGeom

open Verif.StrokeGeom.Spec

variable {V X P : Type}

/-- What a break knows about a side. -/
def Break.side (b : Break) : SideId → BreakSide
  | .left => b.left
  | .right => b.right

/-- The indices of a side are those of its vertices, in order. -/
structure SideStrip (ids : List SideId) (vC : Nat) (k : SideId) (indices : List Nat) (adjacent count : Nat) : Prop where
  sorted : indices.Pairwise (· < ·)
  mem : ∀ x : Nat, x ∈ indices ↔ ids[x]? = some k
  brk : ∀ (j x : Nat), indices[j]? = some x → (x < vC ↔ j < count)
  adj : count ≤ adjacent
  fit : count ≤ indices.length

/-- A triangle between the last vertices of both sides and the next vertex. -/
structure Conf (ids : List SideId) (t : Tri) : Prop where
  a : t.1 < t.2.2
  b : t.2.1 < t.2.2
  c : t.2.2 < ids.length
  ia : ids[t.1]? = some .left
  ib : ids[t.2.1]? = some .right
  left : ∀ x : Nat, x < t.2.2 → ids[x]? = some .left → x ≤ t.1
  right : ∀ x : Nat, x < t.2.2 → ids[x]? = some .right → x ≤ t.2.1

structure Strip (g : Geometry V X) : Prop where
  len : g.ids.length = g.vertices.length
  side : ∀ k, SideStrip g.ids g.lastBreak.vertexCount k (g.side k).indices (g.side k).state.adjacentFirst (g.lastBreak.side k).indexCount
  tri : ∀ (j : Nat) (t : Tri), g.triangles[j]? = some t → Conf g.ids t
  inc : ∀ (i j : Nat) (s t : Tri), i < j → g.triangles[i]? = some s → g.triangles[j]? = some t → s.2.2 < t.2.2
  low : ∀ (j : Nat) (t : Tri), g.triangles[j]? = some t → j < g.lastBreak.triangleCount → t.2.2 < g.lastBreak.vertexCount
  high : ∀ (j : Nat) (t : Tri), g.triangles[j]? = some t → g.lastBreak.triangleCount ≤ j →
    g.lastBreak.vertexCount ≤ t.1 ∧ g.lastBreak.vertexCount ≤ t.2.1
  vle : g.lastBreak.vertexCount ≤ g.vertices.length
  tle : g.lastBreak.triangleCount ≤ g.triangles.length

/-- The operations that keep a strip a strip. -/
def OpOk (pos : V → P) (g : Geometry V X) : Op V X → Prop
  | .appendTriangle t => Conf g.ids t ∧ (∀ (j : Nat) (s : Tri), g.triangles[j]? = some s → s.2.2 < t.2.2) ∧ g.lastBreak.vertexCount ≤ t.1 ∧
      g.lastBreak.vertexCount ≤ t.2.1
  | .setState k s => (g.side k).state.adjacentFirst ≤ s.adjacentFirst
  | .derivatives us => ∀ u ∈ us, ∀ v, pos (u.2 v) = pos v
  | .setTriangle _ _ | .unzip _ _ _ | .resetTracking => False
  | _ => True

theorem getElem?_lt {α : Type} {l : List α} {i : Nat} {a : α} (h : l[i]? = some a) : i < l.length := by
  by_contra hc
  rw [List.getElem?_eq_none (Nat.le_of_not_lt hc)] at h; cases h

theorem strip_congr {g g' : Geometry V X} (S : Strip g) (h1 : g'.ids = g.ids) (h2 : g'.triangles = g.triangles)
    (h3 : g'.lastBreak = g.lastBreak) (h4 : g'.vertices.length = g.vertices.length)
    (h5 : ∀ k, (g'.side k).indices = (g.side k).indices)
    (h6 : ∀ k, (g.side k).state.adjacentFirst ≤ (g'.side k).state.adjacentFirst) : Strip g' where
  len := by rw [h1, h4]; exact S.len
  side k := by
    rw [h1, h3, h5]
    exact ⟨(S.side k).1, (S.side k).2, (S.side k).3, Nat.le_trans (S.side k).4 (h6 k), (S.side k).5⟩
  tri := by rw [h1, h2]; exact S.tri
  inc := by rw [h2]; exact S.inc
  low := by rw [h2, h3]; exact S.low
  high := by rw [h2, h3]; exact S.high
  vle := by rw [h3, h4]; exact S.vle
  tle := by rw [h2, h3]; exact S.tle

theorem side_congr {g g' : Geometry V X} (h : g'.left = g.left) (h' : g'.right = g.right) (k : SideId) : g'.side k = g.side k := by
  cases k
  · exact h
  · exact h'

theorem side_setSide (g : Geometry V X) (k k' : SideId) (s : Side V X) :
    (g.setSide k s).side k' = if k' = k then s else g.side k' := by
  cases k <;> cases k' <;> rfl

theorem setSide_more (g : Geometry V X) (k : SideId) (s : Side V X) :
    (g.setSide k s).ids = g.ids ∧ (g.setSide k s).lastBreak = g.lastBreak ∧ (g.setSide k s).save = g.save := by
  cases k <;> exact ⟨rfl, rfl, rfl⟩

theorem strip_setSide {g : Geometry V X} (S : Strip g) (k : SideId) {s : Side V X} (h : s.indices = (g.side k).indices)
    (h' : (g.side k).state.adjacentFirst ≤ s.state.adjacentFirst) : Strip (g.setSide k s) := by
  refine strip_congr S (setSide_more g k s).1 (setSide_mesh g k s).2 (setSide_more g k s).2.1 (by rw [(setSide_mesh g k s).1]) ?_ ?_
  · intro k'; rw [side_setSide]; split
    · rename_i e; rw [e, h]
    · rfl
  · intro k'; rw [side_setSide]; split
    · rename_i e; rw [e]; exact h'
    · exact Nat.le_refl _

theorem append_get {α : Type} {l : List α} {a b : α} {x : Nat} : (l ++ [a])[x]? = some b ↔ l[x]? = some b ∨ (x = l.length ∧ a = b) := by
  by_cases h : x < l.length
  · rw [List.getElem?_append_left h]
    exact ⟨Or.inl, fun h' => h'.elim id (fun e => absurd e.1 (Nat.ne_of_lt h))⟩
  · rw [List.getElem?_append_right (Nat.le_of_not_lt h)]
    by_cases e : x = l.length
    · subst e; simp
    · have e1 : l[x]? = none := List.getElem?_eq_none (Nat.le_of_not_lt h)
      have e2 : x - l.length ≠ 0 := by omega
      rw [e1]
      constructor
      · intro h'
        obtain ⟨n, hn⟩ := Nat.exists_eq_succ_of_ne_zero e2
        rw [hn] at h'; simp at h'
      · rintro (h' | ⟨h', -⟩)
        · cases h'
        · exact absurd h' e

theorem Conf.append {ids : List SideId} {t : Tri} (C : Conf ids t) (l : List SideId) : Conf (ids ++ l) t where
  a := C.a
  b := C.b
  c := by rw [List.length_append]; exact Nat.lt_of_lt_of_le C.c (Nat.le_add_right _ _)
  ia := by rw [List.getElem?_append_left (Nat.lt_trans C.a C.c)]; exact C.ia
  ib := by rw [List.getElem?_append_left (Nat.lt_trans C.b C.c)]; exact C.ib
  left x hx h := by rw [List.getElem?_append_left (Nat.lt_trans hx C.c)] at h; exact C.left x hx h
  right x hx h := by rw [List.getElem?_append_left (Nat.lt_trans hx C.c)] at h; exact C.right x hx h

theorem Conf.take {ids : List SideId} {t : Tri} (C : Conf ids t) {n : Nat} (h : t.2.2 < n) : Conf (ids.take n) t where
  a := C.a
  b := C.b
  c := by rw [List.length_take]; have := C.c; omega
  ia := by rw [List.getElem?_take_of_lt (Nat.lt_trans C.a h)]; exact C.ia
  ib := by rw [List.getElem?_take_of_lt (Nat.lt_trans C.b h)]; exact C.ib
  left x hx e := by rw [List.getElem?_take_of_lt (Nat.lt_trans hx h)] at e; exact C.left x hx e
  right x hx e := by rw [List.getElem?_take_of_lt (Nat.lt_trans hx h)] at e; exact C.right x hx e

theorem side_appendVertexToMesh (g : Geometry V X) (k k' : SideId) (v : V) :
    ((g.appendVertexToMesh k v).side k').indices = (if k' = k then (g.side k).indices ++ [g.vertices.length] else (g.side k').indices) ∧
      ((g.appendVertexToMesh k v).side k').state = (g.side k').state := by
  cases k <;> cases k' <;> exact ⟨rfl, rfl⟩

theorem strip_append {g : Geometry V X} (S : Strip g) (k : SideId) (v : V) : Strip (g.appendVertexToMesh k v) := by
  obtain ⟨e1, e2, e3, e4⟩ := appendVertexToMesh_mesh g k v
  refine ⟨?_, ?_, ?_, ?_, ?_, ?_, ?_, ?_⟩
  · rw [e1, e3]; simp [S.len]
  · intro k'
    obtain ⟨f1, f2⟩ := side_appendVertexToMesh g k k' v
    rw [e3, e4, f1, f2]
    have A := S.side k'
    by_cases hk : k' = k
    · subst hk
      rw [if_pos rfl]
      refine ⟨?_, ?_, ?_, A.adj, ?_⟩
      · rw [List.pairwise_append]
        refine ⟨A.sorted, List.pairwise_singleton _ _, ?_⟩
        intro x hx y hy
        rw [List.mem_singleton] at hy
        rw [hy, ← S.len]
        exact getElem?_lt ((A.mem x).1 hx)
      · intro x
        rw [List.mem_append, List.mem_singleton, append_get, A.mem, S.len]
        simp
      · intro j x h
        rw [append_get] at h
        rcases h with h | ⟨h, e⟩
        · exact A.brk j x h
        · have := S.vle
          have := A.fit
          omega
      · rw [List.length_append]; exact Nat.le_trans A.fit (Nat.le_add_right _ _)
    · rw [if_neg hk]
      refine ⟨A.sorted, ?_, A.brk, A.adj, A.fit⟩
      intro x
      rw [append_get, A.mem]
      exact ⟨Or.inl, fun h => h.elim id (fun e => absurd e.2.symm hk)⟩
  · intro j t h
    rw [e2] at h; rw [e3]
    exact (S.tri j t h).append _
  · rw [e2]; exact S.inc
  · rw [e2, e4]; exact S.low
  · rw [e2, e4]; exact S.high
  · rw [e1, e4, List.length_append]; exact Nat.le_trans S.vle (Nat.le_add_right _ _)
  · rw [e2, e4]; exact S.tle

theorem strip_appendTriangle {g : Geometry V X} (S : Strip g) {t : Tri} (C : Conf g.ids t)
    (hi : ∀ (j : Nat) (s : Tri), g.triangles[j]? = some s → s.2.2 < t.2.2) (ha : g.lastBreak.vertexCount ≤ t.1) (hb : g.lastBreak.vertexCount ≤ t.2.1) :
    Strip { g with triangles := g.triangles ++ [t] } := by
  refine ⟨S.len, S.side, ?_, ?_, ?_, ?_, S.vle, ?_⟩
  · intro j s h
    rcases append_get.1 h with h | ⟨-, rfl⟩
    · exact S.tri j s h
    · exact C
  · intro i j s u hij h h'
    rcases append_get.1 h with h | ⟨e, rfl⟩ <;> rcases append_get.1 h' with h' | ⟨e', rfl⟩
    · exact S.inc i j s u hij h h'
    · exact hi i s h
    · have := getElem?_lt h'; omega
    · omega
  · intro j s h hj
    rcases append_get.1 h with h | ⟨e, rfl⟩
    · exact S.low j s h hj
    · have := S.tle; dsimp only at hj; exact absurd hj (by omega)
  · intro j s h hj
    rcases append_get.1 h with h | ⟨e, rfl⟩
    · exact S.high j s h hj
    · exact ⟨ha, hb⟩
  · show _ ≤ (g.triangles ++ [t]).length
    rw [List.length_append]; exact Nat.le_trans S.tle (Nat.le_add_right _ _)

theorem strip_setVertex {g g' : Geometry V X} (S : Strip g) {i : Nat} {v : V} {b : Bool} (h : g.setVertex i v b = some g') : Strip g' := by
  obtain ⟨e1, e2, e3, e4, e5, e6⟩ := geomSetVertex h
  exact strip_congr S e3 e2 e6 (by rw [e1, List.length_set]) (fun k => by rw [side_congr e4 e5]) (fun k => Nat.le_of_eq (by rw [side_congr e4 e5]))

theorem strip_labelLast {env : Env V X} {g g' : Geometry V X} {s : Side V X} (S : Strip g) (h : g.labelLast env s = some g') :
    Strip g' := by
  unfold Geometry.labelLast at h
  split at h
  · injection h with h; subst h; exact S
  · obtain ⟨i, -, h⟩ := bind_some h
    obtain ⟨v, -, h⟩ := bind_some h
    exact strip_setVertex S h

theorem strip_addBreak {env : Env V X} {g g' : Geometry V X} (S : Strip g) (h : g.addBreak env = some g') : Strip g' := by
  obtain ⟨g1, h1, h⟩ := bind_some h
  have S1 : Strip g1 := by
    unfold Geometry.labelBoth at h1
    split at h1
    · obtain ⟨g2, h2, h1⟩ := bind_some h1
      exact strip_labelLast (strip_labelLast S h2) h1
    · injection h1 with h1; subst h1; exact S
  injection h with h; subst h
  have hs : ∀ k, SideStrip g1.ids g1.vertices.length k (g1.side k).indices (g1.side k).indices.length (g1.side k).indices.length := by
    intro k
    have A := S1.side k
    refine ⟨A.sorted, A.mem, ?_, Nat.le_refl _, Nat.le_refl _⟩
    intro j x h
    have h2 := getElem?_lt ((A.mem x).1 (List.mem_of_getElem? h))
    have h3 := getElem?_lt h
    rw [S1.len] at h2
    exact ⟨fun _ => h3, fun _ => h2⟩
  refine ⟨S1.len, ?_, S1.tri, S1.inc, ?_, ?_, Nat.le_refl _, Nat.le_refl _⟩
  · intro k
    cases k
    · exact hs .left
    · exact hs .right
  · intro j t h _
    have := (S1.tri j t h).c
    rw [S1.len] at this
    exact this
  · intro j t h hj
    exact absurd (getElem?_lt h) (Nat.not_lt.2 hj)

theorem strip_truncate {env : Env V X} {g : Geometry V X} (S : Strip g) : Strip (g.truncateToBreak env) := by
  have ev : (g.truncateToBreak env).vertices = g.vertices.take g.lastBreak.vertexCount := resize_of_le _ S.vle
  have ei : (g.truncateToBreak env).ids = g.ids.take g.lastBreak.vertexCount := resize_of_le _ (by rw [S.len]; exact S.vle)
  have et : (g.truncateToBreak env).triangles = g.triangles.take g.lastBreak.triangleCount := resize_of_le _ S.tle
  have eb : (g.truncateToBreak env).lastBreak = g.lastBreak := rfl
  have es : ∀ k, ((g.truncateToBreak env).side k).indices = (g.side k).indices.take (g.lastBreak.side k).indexCount := by
    intro k
    cases k
    · exact resize_of_le _ (S.side .left).fit
    · exact resize_of_le _ (S.side .right).fit
  have ea : ∀ k, ((g.truncateToBreak env).side k).state.adjacentFirst = ((g.truncateToBreak env).side k).indices.length := by
    intro k; cases k <;> rfl
  have ht : ∀ (j : Nat) (t : Tri), (g.triangles.take g.lastBreak.triangleCount)[j]? = some t → g.triangles[j]? = some t ∧ j < g.lastBreak.triangleCount := by
    intro j t h
    have hj := getElem?_lt h
    rw [List.length_take] at hj
    rw [List.getElem?_take_of_lt (by omega)] at h
    exact ⟨h, by omega⟩
  refine ⟨?_, ?_, ?_, ?_, ?_, ?_, ?_, ?_⟩
  · rw [ev, ei, List.length_take, List.length_take, S.len]
  · intro k
    have A := S.side k
    rw [ei, eb, ea, es]
    have hl : ((g.side k).indices.take (g.lastBreak.side k).indexCount).length = (g.lastBreak.side k).indexCount := by
      rw [List.length_take]; exact Nat.min_eq_left A.fit
    refine ⟨A.sorted.sublist (List.take_sublist _ _), ?_, ?_, Nat.le_of_eq hl.symm, Nat.le_of_eq hl.symm⟩
    · intro x
      constructor
      · intro h
        obtain ⟨j, hj⟩ := List.getElem?_of_mem h
        have hl' := getElem?_lt hj
        rw [hl] at hl'
        rw [List.getElem?_take_of_lt hl'] at hj
        rw [List.getElem?_take_of_lt ((A.brk j x hj).2 hl')]
        exact (A.mem x).1 (List.mem_of_getElem? hj)
      · intro h
        have hl' := getElem?_lt h
        rw [List.length_take] at hl'
        have hx : x < g.lastBreak.vertexCount := by omega
        rw [List.getElem?_take_of_lt hx] at h
        obtain ⟨j, hj⟩ := List.getElem?_of_mem ((A.mem x).2 h)
        apply List.mem_of_getElem? (i := j)
        rw [List.getElem?_take_of_lt ((A.brk j x hj).1 hx)]; exact hj
    · intro j x h
      have hl' := getElem?_lt h
      rw [hl] at hl'
      rw [List.getElem?_take_of_lt hl'] at h
      exact A.brk j x h
  · intro j t h
    rw [et] at h; rw [ei]
    obtain ⟨h1, h2⟩ := ht j t h
    exact (S.tri j t h1).take (S.low j t h1 h2)
  · intro i j s t hij h h'
    rw [et] at h h'
    exact S.inc i j s t hij (ht i s h).1 (ht j t h').1
  · intro j t h hj
    rw [et] at h; rw [eb] at hj ⊢
    exact S.low j t (ht j t h).1 hj
  · intro j t h hj
    rw [et] at h; rw [eb] at hj
    exact absurd (ht j t h).2 (Nat.not_lt.2 hj)
  · rw [eb, ev, List.length_take, Nat.min_eq_left S.vle]; exact Nat.le_refl _
  · rw [eb, et, List.length_take, Nat.min_eq_left S.tle]; exact Nat.le_refl _

theorem strip_save {g : Geometry V X} (S : Strip g) (p : Save V X) : Strip { g with save := p } :=
  strip_congr S rfl rfl rfl rfl (fun k => by cases k <;> rfl) (fun k => by cases k <;> exact Nat.le_refl _)

theorem strip_clear {env : Env V X} {g g' : Geometry V X} (S : Strip g) (h : g.clearSinceBreak env = some g') : Strip g' := by
  unfold Geometry.clearSinceBreak at h
  split at h
  · injection h with h; subst h; exact S
  · obtain ⟨g1, h1, h⟩ := bind_some h
    injection h with h; subst h
    rw [captureIfNeeded_facts h1]
    exact strip_truncate (strip_save S _)

theorem updateVertices_same (us : List (Nat × (V → V))) : ∀ {g g' : Geometry V X}, g.updateVertices us = some g' →
    g'.vertices.length = g.vertices.length ∧ g' = { g with vertices := g'.vertices } := by
  induction us with
  | nil => intro g g' h; injection h with h; subst h; simp
  | cons p us ih =>
    intro g g' h
    obtain ⟨i, f⟩ := p
    obtain ⟨v, -, h⟩ := bind_some h
    obtain ⟨a, b⟩ := ih h
    exact ⟨by rw [a, List.length_set], by rw [b]⟩

theorem strip_step {pos : V → P} {env : Env V X} {g g' : Geometry V X} {op : Op V X} (S : Strip g) (ho : OpOk pos g op)
    (h : g.step env op = some g') : Strip g' := by
  cases op with
  | bufferVertex k v =>
    obtain ⟨st, e, rfl | ⟨w, rfl⟩⟩ := appendVertexToSide_cases h
    · exact strip_setSide S k rfl (Nat.le_of_eq e.symm)
    · exact strip_append (strip_setSide S k (s := { g.side k with state := st }) rfl (Nat.le_of_eq e.symm)) k w
  | appendVertex k v => injection h with h; subst h; exact strip_append S k v
  | setVertex i v => exact strip_setVertex S h
  | appendTriangle t => injection h with h; subst h; exact strip_appendTriangle S ho.1 ho.2.1 ho.2.2.1 ho.2.2.2
  | setTriangle i t => exact ho.elim
  | unzip k f t => exact ho.elim
  | setOpposite i o =>
    obtain ⟨e2, e1, e3, e4, e5, e6⟩ := geomSetOpposite h
    exact strip_congr S e3 e2 e6 (by rw [e1]) (fun k => by rw [side_congr e4 e5]) (fun k => Nat.le_of_eq (by rw [side_congr e4 e5]))
  | addDiscontinuity k r => injection h with h; subst h; exact strip_setSide S k rfl (Nat.le_refl _)
  | setState k s => injection h with h; subst h; exact strip_setSide S k rfl ho
  | addBreak => exact strip_addBreak S h
  | clear => exact strip_clear S h
  | derivatives us =>
    obtain ⟨a, b⟩ := updateVertices_same us h
    rw [b]
    exact strip_congr S rfl rfl rfl a (fun k => by cases k <;> rfl) (fun k => by cases k <;> exact Nat.le_refl _)
  | resetTracking => exact ho.elim

theorem strip_reset (env : Env V X) (sv : Save V X) : Strip (Geometry.reset env sv) := by
  refine ⟨rfl, ?_, ?_, ?_, ?_, ?_, Nat.le_refl _, Nat.le_refl _⟩
  · intro k
    cases k <;> exact ⟨List.Pairwise.nil, by simp [Geometry.reset, Geometry.side, clearedSide], by simp [Geometry.reset, Geometry.side, clearedSide],
      Nat.le_refl _, Nat.le_refl _⟩
  all_goals simp [Geometry.reset]

/-! ## Moves -/

/-- All operations keep a strip a strip, each in the state that the others have made. -/
def OpsOk (pos : V → P) (env : Env V X) : Geometry V X → List (Op V X) → Prop
  | _, [] => True
  | g, op :: ops => OpOk pos g op ∧ ∀ g', g.step env op = some g' → OpsOk pos env g' ops

theorem getLast?_get {α : Type} {l : List α} {a : α} (h : l.getLast? = some a) : l[l.length - 1]? = some a := by
  rw [List.getLast?_eq_getElem?] at h; exact h

theorem last_index {ids : List SideId} {vC : Nat} {k : SideId} {l : List Nat} {adj n i : Nat} (A : SideStrip ids vC k l adj n)
    (h : l.getLast? = some i) : ids[i]? = some k ∧ (∀ x : Nat, ids[x]? = some k → x ≤ i) ∧ (adj < l.length → vC ≤ i) := by
  have hg := getLast?_get h
  refine ⟨(A.mem i).1 (List.mem_of_getElem? hg), ?_, ?_⟩
  · intro x hx
    obtain ⟨j, hj⟩ := List.getElem?_of_mem ((A.mem x).2 hx)
    have hj' := getElem?_lt hj
    have hl := getElem?_lt hg
    by_cases e : j = l.length - 1
    · rw [e, hg] at hj; injection hj with hj; omega
    · have := List.pairwise_iff_getElem.1 A.sorted j (l.length - 1) hj' hl (by omega)
      rw [List.getElem?_eq_getElem hj'] at hj
      rw [List.getElem?_eq_getElem hl] at hg
      injection hj with hj; injection hg with hg
      omega
  · intro ha
    have h1 := A.brk _ _ hg
    have h2 := A.adj
    by_contra hc
    have := h1.1 (by omega)
    omega

theorem opsOk_move {pos : V → P} {env : Env V X} {m : Tracked.Move V X} (hm : PlainMove pos m) {g : Geometry V X} (S : Strip g) :
    OpsOk pos env g (m g) := by
  cases hm with
  | extrude k v =>
    unfold extrude
    split
    · rename_i l r hl hr
      split
      · rename_i ha
        refine ⟨trivial, ?_⟩
        intro g' h
        injection h with h
        obtain ⟨e1, e2, e3, e4⟩ := appendVertexToMesh_mesh g k v
        rw [h] at e1 e2 e3 e4
        refine ⟨?_, fun _ _ => trivial⟩
        obtain ⟨l1, l2, l3⟩ := last_index (S.side .left) hl
        obtain ⟨r1, r2, r3⟩ := last_index (S.side .right) hr
        have hlen := S.len
        have hl' := getElem?_lt l1
        have hr' := getElem?_lt r1
        refine ⟨?_, ?_, ?_, ?_⟩
        · rw [e3]
          refine ⟨by dsimp only; omega, by dsimp only; omega, by simp [hlen], ?_, ?_, ?_, ?_⟩
          · exact append_get.2 (Or.inl l1)
          · exact append_get.2 (Or.inl r1)
          · intro x hx h'
            rcases append_get.1 h' with h' | ⟨h', -⟩
            · exact l2 x h'
            · dsimp only at hx; omega
          · intro x hx h'
            rcases append_get.1 h' with h' | ⟨h', -⟩
            · exact r2 x h'
            · dsimp only at hx; omega
        · intro j s hs
          rw [e2] at hs
          have := (S.tri j s hs).c
          dsimp only; omega
        · rw [e4]; exact l3 ha.1
        · rw [e4]; exact r3 ha.2
      · trivial
    · trivial
  | changeState k s =>
    unfold changeState
    split
    · rename_i h; exact ⟨h, fun _ _ => trivial⟩
    · trivial
  | derivatives us h => exact ⟨h, fun _ _ => trivial⟩
  | _ => exact ⟨trivial, fun _ _ => trivial⟩

end Verif.StrokeGeom
