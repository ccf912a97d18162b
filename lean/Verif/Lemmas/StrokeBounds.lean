import Verif.Spec.StrokeBounds
import Verif.Lemmas.StrokeCoversRevert

/-! # Lemmas for C56 -/

set_option autoImplicit false

namespace Verif.StrokeGeom

open Verif.StrokeGeom.Spec

variable {V X P : Type}

/-- Every vertex is in one place of one side. -/
structure Sides (g : Geometry V X) : Prop where
  perm : (g.left.indices ++ g.right.indices).Perm (List.range g.vertices.length)
  brk : (g.left.indices.take g.lastBreak.left.indexCount ++ g.right.indices.take g.lastBreak.right.indexCount).Perm
    (List.range g.lastBreak.vertexCount)

theorem sides_congr {g g' : Geometry V X} (S : Sides g) (h1 : g'.left.indices = g.left.indices) (h2 : g'.right.indices = g.right.indices)
    (h3 : g'.vertices.length = g.vertices.length) (h4 : g'.lastBreak = g.lastBreak) : Sides g' :=
  ⟨by rw [h1, h2, h3]; exact S.perm, by rw [h1, h2, h4]; exact S.brk⟩

theorem sides_append {g : Geometry V X} (W : WF g) (S : Sides g) (k : SideId) (v : V) : Sides (g.appendVertexToMesh k v) := by
  have hl := W.left.indices
  have hr := W.right.indices
  cases k
  · refine ⟨?_, ?_⟩
    · show (g.left.indices ++ [g.vertices.length] ++ g.right.indices).Perm (List.range (g.vertices ++ [v]).length)
      rw [List.length_append, List.length_singleton, List.range_succ, List.append_assoc]
      refine (List.perm_append_comm.append_left _).trans ?_
      rw [← List.append_assoc]
      exact S.perm.append_right _
    · show ((g.left.indices ++ [g.vertices.length]).take g.lastBreak.left.indexCount ++ _).Perm _
      rw [List.take_append_of_le_length hl]
      exact S.brk
  · refine ⟨?_, ?_⟩
    · show (g.left.indices ++ (g.right.indices ++ [g.vertices.length])).Perm (List.range (g.vertices ++ [v]).length)
      rw [List.length_append, List.length_singleton, List.range_succ, ← List.append_assoc]
      exact S.perm.append_right _
    · show (_ ++ (g.right.indices ++ [g.vertices.length]).take g.lastBreak.right.indexCount).Perm _
      rw [List.take_append_of_le_length hr]
      exact S.brk

theorem prefix_of_eq {α : Type} {l l' : List α} (h : l = l') : l <+: l' := by rw [h]; exact List.prefix_rfl

theorem resize_take {α : Type} (l : List α) {n : Nat} (d : α) (h : n ≤ l.length) : resize l n d = l.take n := by
  unfold resize
  rw [Nat.sub_eq_zero_of_le h]; simp

theorem setSide_indices (g : Geometry V X) (k : SideId) (s : Side V X) (h : s.indices = (g.side k).indices) :
    (g.setSide k s).left.indices = g.left.indices ∧ (g.setSide k s).right.indices = g.right.indices := by
  cases k
  · exact ⟨h, rfl⟩
  · exact ⟨rfl, h⟩

/-- What a change does to sides and positions, unless it deletes. -/
structure Effect (pos : V → P) (g g' : Geometry V X) : Prop where
  sides : Sides g'
  left : g.left.indices <+: g'.left.indices
  right : g.right.indices <+: g'.right.indices
  keep : ∀ i, i < g.vertices.length → g.left.indices.getLast? ≠ some i → g.right.indices.getLast? ≠ some i →
    (g'.vertices[i]?).map pos = (g.vertices[i]?).map pos

theorem effect_congr {pos : V → P} {g g' : Geometry V X} (S : Sides g) (h1 : g'.left.indices = g.left.indices)
    (h2 : g'.right.indices = g.right.indices) (h3 : g'.vertices = g.vertices) (h4 : g'.lastBreak = g.lastBreak) : Effect pos g g' :=
  ⟨sides_congr S h1 h2 (by rw [h3]) h4, prefix_of_eq h1.symm, prefix_of_eq h2.symm, fun i _ _ _ => by rw [h3]⟩

theorem effect_setVertex {pos : V → P} {g g' : Geometry V X} {i : Nat} {v : V} {b : Bool} (S : Sides g)
    (hm : (∀ w, g.vertices[i]? = some w → pos v = pos w) ∨ g.left.indices.getLast? = some i ∨ g.right.indices.getLast? = some i)
    (h : g.setVertex i v b = some g') : Effect pos g g' := by
  have f := geomSetVertex h
  have hl : g'.left.indices = g.left.indices ∧ g'.right.indices = g.right.indices := by
    obtain ⟨old, -, h⟩ := bind_some h
    injection h with h; subst h
    dsimp only
    split <;> exact ⟨rfl, rfl⟩
  refine ⟨sides_congr S hl.1 hl.2 (by rw [f.1, List.length_set]) f.2.2.2.2.2, prefix_of_eq hl.1.symm, prefix_of_eq hl.2.symm, ?_⟩
  intro j hj h1 h2
  rw [f.1]
  by_cases e : i = j
  · subst e
    rcases hm with hm | hm | hm
    · rw [List.getElem?_set_self hj, List.getElem?_eq_getElem hj]
      simp only [Option.map_some, Option.some.injEq]
      exact hm _ (List.getElem?_eq_getElem hj)
    · exact absurd hm h1
    · exact absurd hm h2
  · rw [List.getElem?_set_ne e]

theorem effect_trans {pos : V → P} {g g1 g2 : Geometry V X} (h : Effect pos g g1) (h' : Effect pos g1 g2)
    (e1 : g1.left.indices = g.left.indices) (e2 : g1.right.indices = g.right.indices) (e3 : g1.vertices.length = g.vertices.length) :
    Effect pos g g2 :=
  ⟨h'.sides, h.left.trans h'.left, h.right.trans h'.right, fun i hi h1 h2 => by
    rw [h'.keep i (by omega) (by rw [e1]; exact h1) (by rw [e2]; exact h2), h.keep i hi h1 h2]⟩

theorem unzipLoop_sides (f : Nat → Tri → Tri) (k : Nat) (i : Nat) : ∀ {g g' : Geometry V X}, Geometry.unzipLoop f k i g = some g' →
    g'.vertices = g.vertices ∧ g'.left = g.left ∧ g'.right = g.right ∧ g'.lastBreak = g.lastBreak := by
  induction i with
  | zero => intro g g' h; simp only [Geometry.unzipLoop] at h; injection h with h; subst h; simp
  | succ i ih =>
    intro g g' h
    simp only [Geometry.unzipLoop] at h
    split at h
    · obtain ⟨t, ht, h⟩ := bind_some h
      obtain ⟨g1, h1, h⟩ := bind_some h
      rw [unzipStep ht] at h1
      have f1 := geomSetTriangle h1
      obtain ⟨a, b, c, d⟩ := ih h
      exact ⟨a.trans f1.2.1, b.trans f1.2.2.2.1, c.trans f1.2.2.2.2.1, d.trans f1.2.2.2.2.2⟩
    · injection h with h; subst h; simp

theorem updateVertices_pos {pos : V → P} (us : List (Nat × (V → V))) : ∀ {g g' : Geometry V X}, (∀ u ∈ us, ∀ v, pos (u.2 v) = pos v) →
    g.updateVertices us = some g' → g'.vertices.map pos = g.vertices.map pos := by
  induction us with
  | nil => intro g g' _ h; injection h with h; subst h; rfl
  | cons p us ih =>
    intro g g' hp h
    obtain ⟨i, f⟩ := p
    obtain ⟨v, hv, h⟩ := bind_some h
    rw [ih (fun u hu => hp u (List.mem_cons_of_mem _ hu)) h]
    dsimp only
    rw [List.map_set, hp (i, f) List.mem_cons_self]
    apply List.ext_getElem?
    intro j
    by_cases e : i = j
    · subst e
      have := getElem?_lt hv
      rw [List.getElem?_set_self (by rw [List.length_map]; exact this), List.getElem?_map, hv]; rfl
    · rw [List.getElem?_set_ne e]

theorem effect_labelLast {pos : V → P} {env : Env V X} {g g' : Geometry V X} {s : Side V X} (S : Sides g)
    (hs : s.indices = g.left.indices ∨ s.indices = g.right.indices) (h : g.labelLast env s = some g') :
    Effect pos g g' ∧ g'.left.indices = g.left.indices ∧ g'.right.indices = g.right.indices ∧ g'.vertices.length = g.vertices.length := by
  unfold Geometry.labelLast at h
  split at h
  · injection h with h; subst h
    exact ⟨effect_congr S rfl rfl rfl rfl, rfl, rfl, rfl⟩
  · obtain ⟨i, hi, h⟩ := bind_some h
    obtain ⟨v, -, h⟩ := bind_some h
    have f := geomSetVertex h
    refine ⟨effect_setVertex S (Or.inr ?_) h, by rw [f.2.2.2.1], by rw [f.2.2.2.2.1], by rw [f.1, List.length_set]⟩
    rcases hs with hs | hs
    · left; rw [← hs]; exact hi
    · right; rw [← hs]; exact hi

theorem effect_step {pos : V → P} {env : Env V X} {g g' : Geometry V X} {op : Op V X} (W : WF g) (S : Sides g) (hm : MovesLast pos g op)
    (hc : op ≠ .clear) (h : g.step env op = some g') : Effect pos g g' := by
  have app : ∀ (g : Geometry V X) (k : SideId) (v : V), WF g → Sides g → Effect pos g (g.appendVertexToMesh k v) := by
    intro g k v W S
    refine ⟨sides_append W S k v, ?_, ?_, ?_⟩
    · cases k
      · exact List.prefix_append _ _
      · exact List.prefix_rfl
    · cases k
      · exact List.prefix_rfl
      · exact List.prefix_append _ _
    · intro i hi _ _
      rw [(appendVertexToMesh_mesh g k v).1, List.getElem?_append_left hi]
  have side : ∀ (k : SideId) (s : Side V X), s.indices = (g.side k).indices → Effect pos g (g.setSide k s) := by
    intro k s hs
    obtain ⟨a, b⟩ := setSide_indices g k s hs
    exact effect_congr S a b (setSide_mesh g k s).1 (setSide_more g k s).2.1
  cases op with
  | bufferVertex k v =>
    obtain ⟨st, -, rfl | ⟨w, rfl⟩⟩ := appendVertexToSide_cases h
    · exact side k _ rfl
    · have E := side k { g.side k with state := st } rfl
      obtain ⟨a, b⟩ := setSide_indices g k { g.side k with state := st } rfl
      refine effect_trans E (app _ k w ?_ E.sides) a b (by rw [(setSide_mesh g k _).1])
      have c := setSide_mesh g k { g.side k with state := st }
      cases k
      · exact ⟨W.ids, W.offsets, W.opposite, W.vertexCount, W.triangleCount, ⟨W.left.1, W.left.2⟩, W.right⟩
      · exact ⟨W.ids, W.offsets, W.opposite, W.vertexCount, W.triangleCount, W.left, ⟨W.right.1, W.right.2⟩⟩
  | appendVertex k v => injection h with h; subst h; exact app _ _ _ W S
  | setVertex i v => exact effect_setVertex S hm h
  | appendTriangle t => injection h with h; subst h; exact effect_congr S rfl rfl rfl rfl
  | setTriangle i t =>
    have f := geomSetTriangle h
    exact effect_congr S (by rw [f.2.2.2.1]) (by rw [f.2.2.2.2.1]) f.2.1 f.2.2.2.2.2
  | unzip k f t =>
    obtain ⟨g1, h1, h⟩ := bind_some h
    obtain ⟨a, b, c, d⟩ := unzipLoop_sides f k _ h1
    split at h
    · injection h with h; subst h
      exact effect_congr S (by dsimp only; rw [b]) (by dsimp only; rw [c]) a d
    · cases h
  | setOpposite i o =>
    have f := geomSetOpposite h
    exact effect_congr S (by rw [f.2.2.2.1]) (by rw [f.2.2.2.2.1]) f.2.1 f.2.2.2.2.2
  | addDiscontinuity k r => injection h with h; subst h; exact side k _ rfl
  | setState k s => injection h with h; subst h; exact side k _ rfl
  | addBreak =>
    obtain ⟨g1, h1, h⟩ := bind_some h
    have E1 : Effect pos g g1 ∧ g1.left.indices = g.left.indices ∧ g1.right.indices = g.right.indices ∧
        g1.vertices.length = g.vertices.length := by
      unfold Geometry.labelBoth at h1
      split at h1
      · obtain ⟨g2, h2, h1⟩ := bind_some h1
        obtain ⟨a1, a2, a3, a4⟩ := effect_labelLast (pos := pos) S (Or.inl rfl) h2
        obtain ⟨b1, b2, b3, b4⟩ := effect_labelLast (pos := pos) a1.sides (Or.inr rfl) h1
        exact ⟨effect_trans a1 b1 a2 a3 a4, b2.trans a2, b3.trans a3, b4.trans a4⟩
      · injection h1 with h1; subst h1
        exact ⟨effect_congr S rfl rfl rfl rfl, rfl, rfl, rfl⟩
    obtain ⟨E, e1, e2, e3⟩ := E1
    injection h with h; subst h
    refine ⟨⟨E.sides.perm, ?_⟩, E.left, E.right, E.keep⟩
    show (g1.left.indices.take g1.left.indices.length ++ g1.right.indices.take g1.right.indices.length).Perm
      (List.range g1.vertices.length)
    rw [List.take_length, List.take_length]
    exact E.sides.perm
  | clear => exact absurd rfl hc
  | derivatives us =>
    obtain ⟨a, b⟩ := updateVertices_same us h
    have e := updateVertices_pos (pos := pos) us hm h
    refine ⟨sides_congr S (by rw [b]) (by rw [b]) a (by rw [b]), prefix_of_eq (by rw [b]), prefix_of_eq (by rw [b]), fun i _ _ _ => ?_⟩
    rw [← List.getElem?_map, e, List.getElem?_map]
  | resetTracking => injection h with h; subst h; exact effect_congr S rfl rfl rfl rfl

theorem sides_clear {env : Env V X} {g g' : Geometry V X} (W : WF g) (S : Sides g) (h : g.clearSinceBreak env = some g') : Sides g' := by
  unfold Geometry.clearSinceBreak at h
  split at h
  · injection h with h; subst h; exact S
  · obtain ⟨g1, h1, h⟩ := bind_some h
    have e := captureIfNeeded_facts h1
    injection h with h; subst h
    rw [e]
    have hl := W.left.indices
    have hr := W.right.indices
    have hv := W.vertexCount
    have el : ((({ g with save := g1.save } : Geometry V X).truncateToBreak env).left.indices) = g.left.indices.take g.lastBreak.left.indexCount :=
      resize_take _ _ hl
    have er : ((({ g with save := g1.save } : Geometry V X).truncateToBreak env).right.indices) = g.right.indices.take g.lastBreak.right.indexCount :=
      resize_take _ _ hr
    refine ⟨?_, ?_⟩
    · rw [el, er]
      show _root_.List.Perm _ (List.range (resize g.vertices g.lastBreak.vertexCount env.blank).length)
      rw [resize_length]
      exact S.brk
    · rw [el, er]
      show ((g.left.indices.take g.lastBreak.left.indexCount).take g.lastBreak.left.indexCount ++
        (g.right.indices.take g.lastBreak.right.indexCount).take g.lastBreak.right.indexCount).Perm (List.range g.lastBreak.vertexCount)
      rw [List.take_take, List.take_take, Nat.min_self, Nat.min_self]
      exact S.brk

/-! ## The cache -/

/-- The cached bounds are those of the first vertices of each side, without the last one. -/
structure Cache (pos : V → P) (g : Geometry V X) (b : Bounds P) : Prop where
  left : b.left = 0 ∨ b.left < g.left.indices.length
  right : b.right = 0 ∨ b.right < g.right.indices.length
  mem : ∀ p, p ∈ b.cached ↔ ∃ i ∈ g.left.indices.take b.left ++ g.right.indices.take b.right, (g.vertices[i]?).map pos = some p

theorem cache_clear (pos : V → P) (g : Geometry V X) (b : Bounds P) : Cache pos g b.clearCached :=
  ⟨Or.inl rfl, Or.inl rfl, fun p => by simp [Bounds.clearCached]⟩

theorem take_prefix {α : Type} {l l' : List α} {n : Nat} (h : l <+: l') (hn : n = 0 ∨ n < l.length) :
    l'.take n = l.take n ∧ (n = 0 ∨ n < l'.length) := by
  obtain ⟨m, rfl⟩ := h
  constructor
  · exact List.take_append_of_le_length (by omega)
  · rw [List.length_append]; omega

theorem not_last {l m : List Nat} {n i : Nat} (hn : n = 0 ∨ n < l.length) (hd : (l ++ m).Nodup) (hi : i ∈ l.take n) :
    l.getLast? ≠ some i := by
  intro hl
  rcases hn with rfl | hn
  · simp at hi
  · have hd : l.Nodup := hd.of_append_left
    obtain ⟨j, hj, e⟩ := List.mem_iff_getElem.1 hi
    rw [List.length_take] at hj
    rw [List.getElem_take] at e
    rw [List.getLast?_eq_getElem?, List.getElem?_eq_getElem (by omega)] at hl
    injection hl with hl
    have := (List.Nodup.getElem_inj_iff hd).1 (hl.trans e.symm)
    omega

theorem cache_effect {pos : V → P} {g g' : Geometry V X} {b : Bounds P} (S : Sides g) (E : Effect pos g g') (C : Cache pos g b) :
    Cache pos g' b := by
  obtain ⟨l1, l2⟩ := take_prefix E.left C.left
  obtain ⟨r1, r2⟩ := take_prefix E.right C.right
  refine ⟨l2, r2, fun p => ?_⟩
  rw [C.mem, l1, r1]
  have hnd : (g.left.indices ++ g.right.indices).Nodup := S.perm.symm.nodup (List.nodup_range)
  have key : ∀ i ∈ g.left.indices.take b.left ++ g.right.indices.take b.right, (g'.vertices[i]?).map pos = (g.vertices[i]?).map pos := by
    intro i hi
    have hm : i ∈ g.left.indices ++ g.right.indices := by
      rcases List.mem_append.1 hi with h | h
      · exact List.mem_append_left _ (List.mem_of_mem_take h)
      · exact List.mem_append_right _ (List.mem_of_mem_take h)
    have hd := List.disjoint_of_nodup_append hnd
    refine E.keep i (List.mem_range.1 (S.perm.mem_iff.1 hm)) ?_ ?_
    · rcases List.mem_append.1 hi with h | h
      · exact not_last C.left hnd h
      · intro hl
        exact hd (List.mem_of_getLast? hl) (List.mem_of_mem_take h)
    · rcases List.mem_append.1 hi with h | h
      · intro hl
        exact hd (List.mem_of_mem_take h) (List.mem_of_getLast? hl)
      · have hnd' : (g.right.indices ++ g.left.indices).Nodup := List.perm_append_comm.nodup hnd
        exact not_last C.right hnd' h
  constructor
  · rintro ⟨i, hi, e⟩; exact ⟨i, hi, by rw [key i hi]; exact e⟩
  · rintro ⟨i, hi, e⟩; exact ⟨i, hi, by rw [← key i hi]; exact e⟩

theorem addPositions_facts (pos : V → P) (vs : List V) (is : List Nat) : ∀ {e : List P}, (∀ i ∈ is, i < vs.length) →
    ∃ e', Bounds.addPositions pos vs e is = some e' ∧ ∀ p, p ∈ e' ↔ p ∈ e ∨ ∃ i ∈ is, (vs[i]?).map pos = some p := by
  induction is with
  | nil => intro e _; exact ⟨e, rfl, fun p => by simp⟩
  | cons i is ih =>
    intro e hl
    have hi := hl i List.mem_cons_self
    obtain ⟨e', h1, h2⟩ := ih (e := e ++ [pos vs[i]]) (fun j hj => hl j (List.mem_cons_of_mem _ hj))
    refine ⟨e', ?_, fun p => ?_⟩
    · show (vs[i]?).bind _ = _
      rw [List.getElem?_eq_getElem hi]; exact h1
    · rw [h2]
      rw [List.mem_append, List.mem_singleton]
      simp only [List.mem_cons, exists_eq_or_imp, List.getElem?_eq_getElem hi, Option.map_some, Option.some.injEq]
      constructor
      · rintro ((h | h) | h)
        · exact Or.inl h
        · exact Or.inr (Or.inl h.symm)
        · exact Or.inr (Or.inr h)
      · rintro (h | h | h)
        · exact Or.inl (Or.inl h)
        · exact Or.inl (Or.inr h.symm)
        · exact Or.inr h

theorem _root_.List.mem_of_mem_dropLast' {α : Type} {l : List α} {a : α} (h : a ∈ l.dropLast) : a ∈ l :=
  List.dropLast_subset _ h

theorem take_more (l : List Nat) (n : Nat) :
    l.take (n + (l.drop n).dropLast.length) = l.take n ++ (l.drop n).dropLast := by
  rw [List.take_add, List.dropLast_eq_take, List.length_take]
  congr 1
  rw [Nat.min_eq_left (Nat.sub_le _ _)]

theorem cacheSide_facts (pos : V → P) (vs : List V) (s : Side V X) {e : List P} {n : Nat} (hn : n = 0 ∨ n < s.indices.length)
    (hl : ∀ i ∈ s.indices, i < vs.length) :
    ∃ e' n', Bounds.cacheSide pos vs s e n = some (e', n') ∧ (n' = 0 ∨ n' < s.indices.length) ∧
      ∃ new, s.indices.take n' = s.indices.take n ++ new ∧ ∀ p, p ∈ e' ↔ p ∈ e ∨ ∃ i ∈ new, (vs[i]?).map pos = some p := by
  have hn' : n ≤ s.indices.length := by omega
  obtain ⟨e', h1, h2⟩ := addPositions_facts pos vs (e := e) (s.indices.drop n).dropLast
    (fun i hi => hl i (List.mem_of_mem_drop (List.mem_of_mem_dropLast' hi)))
  refine ⟨e', n + (s.indices.drop n).dropLast.length, ?_, ?_, (s.indices.drop n).dropLast, take_more _ n, h2⟩
  · unfold Bounds.cacheSide
    rw [if_pos hn']
    show (Bounds.addPositions pos vs e (s.indices.drop n).dropLast).bind _ = _
    rw [h1]; rfl
  · rw [List.length_dropLast, List.length_drop]; omega

theorem cache_update {pos : V → P} {g : Geometry V X} {b : Bounds P} (S : Sides g) (C : Cache pos g b) :
    ∃ b', b.updateCached pos g = some b' ∧ Cache pos g b' := by
  have hm : ∀ i ∈ g.left.indices ++ g.right.indices, i < g.vertices.length := fun i hi => List.mem_range.1 (S.perm.mem_iff.1 hi)
  obtain ⟨e1, n1, h1, h2, new1, h3, h4⟩ := cacheSide_facts pos g.vertices g.left (e := b.cached) C.left
    (fun i hi => hm i (List.mem_append_left _ hi))
  obtain ⟨e2, n2, h5, h6, new2, h7, h8⟩ := cacheSide_facts pos g.vertices g.right (e := e1) C.right
    (fun i hi => hm i (List.mem_append_right _ hi))
  refine ⟨{ b with cached := e2, left := n1, right := n2 }, ?_, ⟨h2, h6, fun p => ?_⟩⟩
  · unfold Bounds.updateCached
    rw [h1]
    show (Bounds.cacheSide pos g.vertices g.right e1 b.right).bind _ = _
    rw [h5]; rfl
  · dsimp only
    rw [h8, h4, C.mem, h3, h7]
    simp only [List.mem_append]
    constructor
    · rintro ((⟨i, hi, e⟩ | ⟨i, hi, e⟩) | ⟨i, hi, e⟩)
      · exact ⟨i, by tauto, e⟩
      · exact ⟨i, by tauto, e⟩
      · exact ⟨i, by tauto, e⟩
    · rintro ⟨i, (hi | hi) | hi | hi, e⟩
      · exact Or.inl (Or.inl ⟨i, Or.inl hi, e⟩)
      · exact Or.inl (Or.inr ⟨i, hi, e⟩)
      · exact Or.inl (Or.inl ⟨i, Or.inr hi, e⟩)
      · exact Or.inr ⟨i, hi, e⟩

theorem current_update {pos : V → P} {g : Geometry V X} {b : Bounds P} (S : Sides g) (C : Cache pos g b) :
    ∃ e, b.updateCurrent pos g = some { b with current := e } ∧ BoundsOf pos g e := by
  have hm : ∀ i ∈ g.left.indices ++ g.right.indices, i < g.vertices.length := fun i hi => List.mem_range.1 (S.perm.mem_iff.1 hi)
  have hl : b.left ≤ g.left.indices.length := by have := C.left; omega
  have hr : b.right ≤ g.right.indices.length := by have := C.right; omega
  obtain ⟨e1, h1, h2⟩ := addPositions_facts pos g.vertices (e := b.cached) (g.left.indices.drop b.left)
    (fun i hi => hm i (List.mem_append_left _ (List.mem_of_mem_drop hi)))
  obtain ⟨e2, h3, h4⟩ := addPositions_facts pos g.vertices (e := e1) (g.right.indices.drop b.right)
    (fun i hi => hm i (List.mem_append_right _ (List.mem_of_mem_drop hi)))
  refine ⟨e2, ?_, fun p => ?_⟩
  · unfold Bounds.updateCurrent Bounds.subspan
    rw [if_pos hl, if_pos hr]
    show (Bounds.addPositions pos g.vertices b.cached (g.left.indices.drop b.left)).bind _ = _
    rw [h1]
    show (Bounds.addPositions pos g.vertices e1 (g.right.indices.drop b.right)).bind _ = _
    rw [h3]; rfl
  · rw [h4, h2, C.mem]
    constructor
    · have key : ∀ i : Nat, (g.vertices[i]?).map pos = some p → p ∈ g.vertices.map pos := by
        intro i e
        rw [← List.getElem?_map] at e
        exact List.mem_of_getElem? e
      rintro ((⟨i, -, e⟩ | ⟨i, -, e⟩) | ⟨i, -, e⟩) <;> exact key i e
    · intro hp
      obtain ⟨i, hi, e⟩ := List.mem_iff_getElem.1 hp
      rw [List.length_map] at hi
      have e' : (g.vertices[i]?).map pos = some p := by
        rw [List.getElem?_eq_getElem hi]; simpa using e
      have hi' : i ∈ g.left.indices ++ g.right.indices := S.perm.mem_iff.2 (List.mem_range.2 hi)
      rw [← List.take_append_drop b.left g.left.indices, ← List.take_append_drop b.right g.right.indices] at hi'
      simp only [List.mem_append] at hi' ⊢
      rcases hi' with (h | h) | h | h
      · exact Or.inl (Or.inl ⟨i, Or.inl h, e'⟩)
      · exact Or.inl (Or.inr ⟨i, h, e'⟩)
      · exact Or.inl (Or.inl ⟨i, Or.inr h, e'⟩)
      · exact Or.inr ⟨i, h, e'⟩

/-! ## All updates -/

theorem cache_same {pos : V → P} {g g' : Geometry V X} {b : Bounds P} (h : Same pos g' g) (C : Cache pos g b) : Cache pos g' b := by
  refine ⟨by rw [h.left]; exact C.left, by rw [h.right]; exact C.right, fun p => ?_⟩
  rw [C.mem, h.left, h.right]
  have e : ∀ i : Nat, (g'.vertices[i]?).map pos = (g.vertices[i]?).map pos := fun i => by
    rw [← List.getElem?_map, h.vertices, List.getElem?_map]
  simp only [e]

theorem sides_same {pos : V → P} {g g' : Geometry V X} (h : Same pos g' g) (S : Sides g) : Sides g' :=
  sides_congr S (by rw [h.left]) (by rw [h.right]) h.length h.lastBreak

theorem movesLast_keeps {pos : V → P} {g : Geometry V X} {op : Op V X} (h : MovesLast pos g op) : Keeps pos op := by
  cases op <;> trivial

/-- While an update is made. `s0` is the state to which predictions will be undone. -/
structure Going (pos : V → P) (g : Geometry V X) (b : Bounds P) : Prop where
  wf : WF g
  sides : Sides g
  cache : Cache pos g b
  save : g.save.active = true → ∃ s0 : Geometry V X, WF s0 ∧ Sides s0 ∧ Cache pos s0 b ∧ Inv pos s0 g g.save

theorem going_step {pos : V → P} {env : Env V X} {g g' : Geometry V X} {b : Bounds P} {op : Op V X} (G : Going pos g b)
    (hm : MovesLast pos g op) (h : g.step env op = some g') : Going pos g' (boundsAfter b op) := by
  have hk := movesLast_keeps hm
  have ea := step_active h
  have hw : WF g' := by
    by_cases ha : g.save.active = true
    · obtain ⟨s0, a, -, -, I⟩ := G.save ha
      exact (good_step a ⟨G.wf, fun _ => I⟩ hk h).1
    · exact (good_step (core := pos) G.wf ⟨G.wf, fun h => absurd h ha⟩ hk h).1
  have hs : g'.save.active = true → ∃ s0 : Geometry V X, WF s0 ∧ Sides s0 ∧ Cache pos s0 (boundsAfter b op) ∧ Inv pos s0 g' g'.save := by
    intro ha
    obtain ⟨s0, a1, a2, a3, I⟩ := G.save (by rw [← ea]; exact ha)
    refine ⟨s0, a1, a2, ?_, (good_step a1 ⟨G.wf, fun _ => I⟩ hk h).2 ha⟩
    cases op <;> first | exact a3 | exact cache_clear _ _ _
  by_cases hc : op = .clear
  · subst hc
    exact ⟨hw, sides_clear G.wf G.sides h, cache_clear _ _ _, hs⟩
  · have E := effect_step (pos := pos) G.wf G.sides hm hc h
    have eb : boundsAfter b op = b := by cases op <;> first | rfl | exact absurd rfl hc
    rw [eb] at hs ⊢
    exact ⟨hw, E.sides, cache_effect G.sides E G.cache, hs⟩

theorem going_run {pos : V → P} {env : Env V X} (cs : List (Change V X)) : ∀ {g g' : Geometry V X} {b : Bounds P}, Going pos g b →
    (∀ c ∈ cs, ∀ g, MovesLast pos g (c g)) → runChanges env g cs = some g' → ∃ b', runBounds env g b cs = some (g', b') ∧ Going pos g' b' := by
  induction cs with
  | nil => intro g g' b G _ h; injection h with h; subst h; exact ⟨b, rfl, G⟩
  | cons c cs ih =>
    intro g g' b G hm h
    obtain ⟨g1, h1, h⟩ := bind_some h
    obtain ⟨b', h2, h3⟩ := ih (going_step G (hm c List.mem_cons_self g) h1) (fun q hq => hm q (List.mem_cons_of_mem _ hq)) h
    refine ⟨b', ?_, h3⟩
    show (g.step env (c g)).bind _ = _
    rw [h1]; exact h2

theorem going_save {pos : V → P} {g : Geometry V X} {b : Bounds P} (W : WF g) (S : Sides g) (C : Cache pos g b) : Going pos g.setSavePoint b := by
  have el : g.setSavePoint.left.indices = g.left.indices := keepLast_indices _
  have er : g.setSavePoint.right.indices = g.right.indices := keepLast_indices _
  refine ⟨wf_save W, sides_congr S el er rfl rfl, ⟨by rw [el]; exact C.left, by rw [er]; exact C.right, fun p => ?_⟩,
    fun _ => ⟨g, W, S, C, inv_save _ W⟩⟩
  rw [el, er]; exact C.mem p

theorem going_revert {pos : V → P} {env : Env V X} {order : {α : Type} → List α → List α} (ho : IsOrder order) {g g' : Geometry V X}
    {b : Bounds P} (G : Going pos g b) (h : g.resetTracking.revert env order = some g') : Going pos g' b := by
  by_cases ha : g.save.active = true
  · obtain ⟨s0, W0, S0, C0, I⟩ := G.save ha
    have I' : Inv pos s0 g.resetTracking g.resetTracking.save :=
      ⟨I.1, I.2, I.3, I.4, I.5, I.6, I.7, I.8, I.9, I.10, I.11, I.12, I.13, I.14⟩
    obtain ⟨r, hr, hcn, hi, -⟩ := revert_ok (env := env) ho W0 I' ha
    rw [hr] at h; injection h with h; subst h
    have Sm := same_iff.2 hcn
    have hl := Sm.length
    refine ⟨?_, sides_same Sm S0, cache_same Sm C0, fun h => by rw [hi] at h; cases h⟩
    exact ⟨by rw [Sm.ids, hl]; exact W0.ids, by rw [Sm.offsets, hl]; exact W0.offsets, by rw [Sm.opposite, hl]; exact W0.opposite,
      by rw [Sm.lastBreak, hl]; exact W0.vertexCount, by rw [Sm.lastBreak, Sm.triangles]; exact W0.triangleCount,
      by rw [Sm.left, Sm.lastBreak]; exact W0.left, by rw [Sm.right, Sm.lastBreak]; exact W0.right⟩
  · unfold Geometry.revert at h
    have ha' : ¬ g.resetTracking.save.active = true := ha
    rw [if_neg ha'] at h
    injection h with h; subst h
    exact ⟨⟨G.wf.1, G.wf.2, G.wf.3, G.wf.4, G.wf.5, G.wf.6, G.wf.7⟩, ⟨G.sides.1, G.sides.2⟩, ⟨G.cache.1, G.cache.2, G.cache.3⟩,
      fun h => absurd h ha⟩

theorem going_current {pos : V → P} {g : Geometry V X} {b : Bounds P} (G : Going pos g b) (e : List P) :
    Going pos g { b with current := e } :=
  ⟨G.wf, G.sides, ⟨G.cache.1, G.cache.2, G.cache.3⟩, fun ha => by
    obtain ⟨s0, a, c, d, f⟩ := G.save ha
    exact ⟨s0, a, c, ⟨d.1, d.2, d.3⟩, f⟩⟩

theorem going_extend {pos : V → P} {env : Env V X} {order : {α : Type} → List α → List α} (ho : IsOrder order) {g g1 g2 g3 : Geometry V X}
    {b : Bounds P} {real predicted : List (Change V X)} (G : Going pos g b) (hr : ∀ c ∈ real, ∀ g, MovesLast pos g (c g))
    (hp : ∀ c ∈ predicted, ∀ g, MovesLast pos g (c g)) (h1 : g.resetTracking.revert env order = some g1)
    (h2 : runChanges env g1 real = some g2) (h3 : runChanges env g2.setSavePoint predicted = some g3) :
    ∃ b', extendBounds pos env order g b real predicted = some (g3, b') ∧ Going pos g3 b' ∧ BoundsOf pos g3 b'.current := by
  have G1 := going_revert ho G h1
  obtain ⟨b2, e2, G2⟩ := going_run real G1 hr h2
  obtain ⟨b3, e3, C3⟩ := cache_update G2.sides G2.cache
  obtain ⟨b4, e4, G4⟩ := going_run predicted (going_save G2.wf G2.sides C3) hp h3
  obtain ⟨e, e5, B⟩ := current_update G4.sides G4.cache
  refine ⟨{ b4 with current := e }, ?_, going_current G4 e, B⟩
  unfold extendBounds
  rw [h1]
  show (runBounds env g1 b real).bind _ = _
  rw [e2]
  show (b2.updateCached pos g2).bind _ = _
  rw [e3]
  show (runBounds env g2.setSavePoint b3 predicted).bind _ = _
  rw [e4]
  show (b4.updateCurrent pos g3).bind _ = _
  rw [e5]; rfl

theorem going_extendAll {pos : V → P} {env : Env V X} {order : {α : Type} → List α → List α} (ho : IsOrder order)
    (rounds : List (List (Change V X) × List (Change V X))) : ∀ {g g' : Geometry V X} {b : Bounds P}, Going pos g b →
    (∀ r ∈ rounds, ∀ c ∈ r.1 ++ r.2, ∀ g, MovesLast pos g (c g)) → extendGeometry env order g rounds = some g' →
    ∃ b', extendBoundsAll pos env order g b rounds = some (g', b') ∧ Going pos g' b' ∧ (rounds ≠ [] → BoundsOf pos g' b'.current) := by
  induction rounds with
  | nil => intro g g' b G _ h; injection h with h; subst h; exact ⟨b, rfl, G, fun h => absurd rfl h⟩
  | cons r rs ih =>
    intro g g' b G hm h
    obtain ⟨real, predicted⟩ := r
    obtain ⟨g1, h1, h⟩ := bind_some h
    obtain ⟨g2, h2, h⟩ := bind_some h
    obtain ⟨g3, h3, h⟩ := bind_some h
    have hq := hm (real, predicted) List.mem_cons_self
    obtain ⟨b1, e1, G1, B1⟩ := going_extend ho G (fun c hc => hq c (List.mem_append_left _ hc))
      (fun c hc => hq c (List.mem_append_right _ hc)) h1 h2 h3
    obtain ⟨b2, e2, G2, B2⟩ := ih G1 (fun r hr => hm r (List.mem_cons_of_mem _ hr)) h
    cases rs with
    | nil =>
      injection h with h; subst h
      refine ⟨b1, ?_, G1, fun _ => B1⟩
      show (extendBounds pos env order g b real predicted).bind _ = _
      rw [e1]; rfl
    | cons r rs =>
      refine ⟨b2, ?_, G2, fun _ => B2 (by simp)⟩
      show (extendBounds pos env order g b real predicted).bind _ = _
      rw [e1]; exact e2

theorem going_reset (pos : V → P) (env : Env V X) (sv : Save V X) : Going pos (Geometry.reset env sv) {} :=
  ⟨wf_reset env sv, ⟨List.Perm.refl _, List.Perm.refl _⟩, cache_clear pos _ {}, fun h => by cases h⟩

end Verif.StrokeGeom
