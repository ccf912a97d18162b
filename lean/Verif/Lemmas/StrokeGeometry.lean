import Verif.Spec.StrokeGeometry
import Mathlib.Data.List.Nodup
import Mathlib.Data.List.Perm.Basic
import Mathlib.Tactic.Common

/-! # Lemmas for C49 -/

set_option autoImplicit false

namespace Verif.StrokeGeom

open Verif.StrokeGeom.Spec

/-! ## Lists -/

section Lists

variable {α β : Type}

theorem resize_length (l : List α) (n : Nat) (d : α) : (resize l n d).length = n := by
  simp only [resize, List.length_append, List.length_take, List.length_replicate]; omega

theorem resize_of_le {l : List α} {n : Nat} (d : α) (h : n ≤ l.length) : resize l n d = l.take n := by
  simp [resize, Nat.sub_eq_zero_of_le h]

theorem resize_get {l : List α} {n i : Nat} (d : α) (h : i < n) (hl : i < l.length) : (resize l n d)[i]? = l[i]? := by
  unfold resize
  rw [List.getElem?_append_left (by simp; omega), List.getElem?_take_of_lt h]

def keys (m : List (Nat × α)) : List Nat := m.map (·.1)

theorem mem_keys {m : List (Nat × α)} {i : Nat} : i ∈ keys m ↔ ∃ a, (i, a) ∈ m := by
  simp [keys]

theorem any_iff {m : List (Nat × α)} {i : Nat} : m.any (·.1 == i) = true ↔ i ∈ keys m := by
  simp only [List.any_eq_true, beq_iff_eq, keys, List.mem_map]

/-- The saved and the current values together have the original ones. -/
structure MapOk (f : α → β) (orig cur : List α) (m : List (Nat × α)) : Prop where
  nodup : (keys m).Nodup
  saved : ∀ i a, (i, a) ∈ m → (orig[i]?).map f = some (f a)
  kept : ∀ i, i < orig.length → i ∉ keys m → (cur[i]?).map f = (orig[i]?).map f

theorem MapOk.init (f : α → β) (l : List α) : MapOk f l l [] := ⟨List.nodup_nil, by simp, by simp⟩

theorem keys_emplace {m : List (Nat × α)} {i j : Nat} {a : α} : j ∈ keys (emplace m i a) ↔ j = i ∨ j ∈ keys m := by
  unfold emplace
  split
  · rename_i h; have h := any_iff.1 h
    exact ⟨Or.inr, fun h' => h'.elim (fun e => e ▸ h) id⟩
  · simp only [keys, List.map_append, List.mem_append, List.map_cons, List.map_nil, List.mem_singleton]; tauto

theorem MapOk.emplace {f : α → β} {orig cur : List α} {m : List (Nat × α)} (M : MapOk f orig cur m) {i : Nat} {a : α}
    (hi : i < orig.length) (ha : cur[i]? = some a) : MapOk f orig cur (emplace m i a) := by
  by_cases h : i ∈ keys m
  · have : Verif.StrokeGeom.emplace m i a = m := by simp [Verif.StrokeGeom.emplace, any_iff.2 h]
    rw [this]; exact M
  · have e : Verif.StrokeGeom.emplace m i a = m ++ [(i, a)] := by
      simp only [Verif.StrokeGeom.emplace]; rw [if_neg]; intro h'; exact h (any_iff.1 h')
    refine ⟨?_, ?_, ?_⟩
    · rw [e]; simp only [keys, List.map_append, List.map_cons, List.map_nil]
      refine List.nodup_append.2 ⟨M.nodup, List.nodup_singleton _, ?_⟩
      intro x hx y hy hxy
      rw [List.mem_singleton] at hy
      exact h (hy ▸ hxy ▸ hx)
    · intro j b hb
      rw [e, List.mem_append, List.mem_singleton] at hb
      rcases hb with hb | hb
      · exact M.saved j b hb
      · obtain ⟨rfl, rfl⟩ := Prod.mk.inj hb
        rw [← M.kept j hi h, ha]; rfl
    · intro j hj hk
      exact M.kept j hj (fun h' => hk (keys_emplace.2 (Or.inr h')))

/-- Changing an element that is saved, or beyond the original ones. -/
theorem MapOk.set {f : α → β} {orig cur : List α} {m : List (Nat × α)} (M : MapOk f orig cur m) {i : Nat} {a : α}
    (hi : orig.length ≤ i ∨ i ∈ keys m) : MapOk f orig (cur.set i a) m := by
  refine ⟨M.nodup, M.saved, fun j hj hk => ?_⟩
  have hne : i ≠ j := by rintro rfl; rcases hi with h | h; omega; exact hk h
  rw [List.getElem?_set_ne hne]; exact M.kept j hj hk

theorem MapOk.update {f : α → β} {orig cur : List α} {m : List (Nat × α)} (M : MapOk f orig cur m) {i : Nat} {a b : α}
    (hb : cur[i]? = some b) (h : f a = f b) : MapOk f orig (cur.set i a) m := by
  refine ⟨M.nodup, M.saved, fun j hj hk => ?_⟩
  rw [← M.kept j hj hk]
  by_cases hij : i = j
  · subst hij
    have := List.getElem?_eq_some_iff.1 hb
    rw [List.getElem?_set_self this.1, hb]; simp [h]
  · rw [List.getElem?_set_ne hij]

theorem MapOk.append {f : α → β} {orig cur : List α} {m : List (Nat × α)} (M : MapOk f orig cur m) (l : List α) :
    MapOk f orig (cur ++ l) m := by
  refine ⟨M.nodup, M.saved, fun j hj hk => ?_⟩
  have h := M.kept j hj hk
  rw [List.getElem?_eq_getElem hj] at h ⊢
  have hl : j < cur.length := by
    by_contra hc
    rw [List.getElem?_eq_none (Nat.le_of_not_lt hc)] at h; simp at h
  rw [List.getElem?_append_left hl]; exact h

/-- Any change of the elements that are saved. -/
theorem MapOk.congr {f : α → β} {orig cur cur' : List α} {m : List (Nat × α)} (M : MapOk f orig cur m)
    (h : ∀ i, i < orig.length → i ∉ keys m → cur'[i]? = cur[i]?) : MapOk f orig cur' m :=
  ⟨M.nodup, M.saved, fun j hj hk => by rw [h j hj hk]; exact M.kept j hj hk⟩

theorem MapOk.resize {f : α → β} {orig cur : List α} {m : List (Nat × α)} (M : MapOk f orig cur m) (n : Nat) (d : α)
    (h : ∀ i, i < orig.length → i ∉ keys m → i < n) : MapOk f orig (resize cur n d) m := by
  refine M.congr fun i hi hk => ?_
  have h' := M.kept i hi hk
  rw [List.getElem?_eq_getElem hi] at h'
  have hl : i < cur.length := by
    by_contra hc
    rw [List.getElem?_eq_none (Nat.le_of_not_lt hc)] at h'; simp at h'
  exact resize_get d (h i hi hk) hl

/-- Assigns elements of a list. -/
def setAll (l : List α) : List (Nat × α) → List α
  | [] => l
  | (i, a) :: m => setAll (l.set i a) m

theorem setAll_length (m : List (Nat × α)) : ∀ l : List α, (setAll l m).length = l.length := by
  induction m with
  | nil => intro l; rfl
  | cons p m ih => intro l; obtain ⟨i, a⟩ := p; simp [setAll, ih]

theorem setAll_not_mem (m : List (Nat × α)) : ∀ (l : List α) (i : Nat), i ∉ keys m → (setAll l m)[i]? = l[i]? := by
  induction m with
  | nil => intro l i _; rfl
  | cons p m ih =>
    intro l i h
    obtain ⟨j, a⟩ := p
    simp only [keys, List.map_cons, List.mem_cons, not_or] at h
    rw [setAll, ih _ _ h.2, List.getElem?_set_ne (Ne.symm h.1)]

theorem setAll_mem (m : List (Nat × α)) (hn : (keys m).Nodup) : ∀ (l : List α) (i : Nat) (a : α), (i, a) ∈ m → i < l.length →
    (setAll l m)[i]? = some a := by
  induction m with
  | nil => intro l i a h; cases h
  | cons p m ih =>
    intro l i a h hi
    obtain ⟨j, b⟩ := p
    simp only [keys, List.map_cons, List.nodup_cons] at hn
    rcases List.mem_cons.1 h with h | h
    · obtain ⟨rfl, rfl⟩ := Prod.mk.inj h
      rw [setAll, setAll_not_mem _ _ _ hn.1, List.getElem?_set_self hi]
    · rw [setAll]; exact ih hn.2 _ _ _ h (by simpa using hi)

theorem MapOk.key_lt {f : α → β} {orig cur : List α} {m : List (Nat × α)} (M : MapOk f orig cur m) {i : Nat} (h : i ∈ keys m) :
    i < orig.length := by
  obtain ⟨a, ha⟩ := mem_keys.1 h
  have := M.saved i a ha
  by_contra hc
  rw [List.getElem?_eq_none (Nat.le_of_not_lt hc)] at this; simp at this

theorem MapOk.restore {f : α → β} {orig cur : List α} {m m' : List (Nat × α)} (M : MapOk f orig cur m) (hp : m'.Perm m) (d : α) :
    (setAll (Verif.StrokeGeom.resize cur orig.length d) m').map f = orig.map f := by
  have hk : ∀ i, i ∈ keys m' ↔ i ∈ keys m := fun i => (hp.map _).mem_iff
  have hn : (keys m').Nodup := (hp.map (fun p : Nat × α => p.1)).nodup_iff.2 M.nodup
  apply List.ext_getElem?
  intro i
  rw [List.getElem?_map, List.getElem?_map]
  by_cases hi : i < orig.length
  · by_cases h : i ∈ keys m
    · obtain ⟨a, ha⟩ := mem_keys.1 h
      rw [setAll_mem m' hn _ i a (hp.mem_iff.2 ha) (by rw [resize_length]; exact hi), M.saved i a ha]; rfl
    · rw [setAll_not_mem _ _ _ (fun h' => h ((hk i).1 h')), ← M.kept i hi h]
      have h' := M.kept i hi h
      rw [List.getElem?_eq_getElem hi] at h'
      have hl : i < cur.length := by
        by_contra hc
        rw [List.getElem?_eq_none (Nat.le_of_not_lt hc)] at h'; simp at h'
      rw [resize_get d hi hl]
  · rw [List.getElem?_eq_none (Nat.le_of_not_lt hi),
      List.getElem?_eq_none (by rw [setAll_length, resize_length]; exact Nat.le_of_not_lt hi)]

/-- A saved end of a list, and the rest of it. -/
structure TailOk (orig cur saved : List α) : Prop where
  le : saved.length ≤ orig.length
  tail : saved = orig.drop (orig.length - saved.length)
  kept : cur.take (orig.length - saved.length) = orig.take (orig.length - saved.length)

theorem TailOk.init (l : List α) : TailOk l l [] := ⟨by simp, by simp, rfl⟩

theorem TailOk.length_le {orig cur saved : List α} (T : TailOk orig cur saved) : orig.length - saved.length ≤ cur.length := by
  have := congrArg List.length T.kept
  simp only [List.length_take] at this
  omega

theorem TailOk.append {orig cur saved : List α} (T : TailOk orig cur saved) (l : List α) : TailOk orig (cur ++ l) saved :=
  ⟨T.le, T.tail, by rw [List.take_append_of_le_length T.length_le]; exact T.kept⟩

theorem TailOk.resize {orig cur saved : List α} (T : TailOk orig cur saved) (n : Nat) (d : α)
    (h : orig.length - saved.length ≤ n) : TailOk orig (resize cur n d) saved := by
  refine ⟨T.le, T.tail, ?_⟩
  rw [← T.kept]
  unfold Verif.StrokeGeom.resize
  have := T.length_le
  rw [List.take_append_of_le_length (by rw [List.length_take]; omega), List.take_take, Nat.min_eq_left h]

theorem TailOk.restore {orig cur saved : List α} (T : TailOk orig cur saved) (d : α) :
    copyToEnd (Verif.StrokeGeom.resize cur orig.length d) saved = some orig := by
  unfold copyToEnd
  rw [resize_length, if_pos T.le]
  have T' := T.resize orig.length d (Nat.sub_le _ _)
  rw [T'.kept]
  congr 1
  conv_lhs => rhs; rw [T.tail]
  exact List.take_append_drop _ _

theorem slice_tail {orig cur l : List α} {b : Nat} (T : TailOk orig cur []) (h : slice cur b orig.length = some l) :
    TailOk orig cur l ∧ orig.length - l.length = b := by
  unfold slice at h
  split at h
  · rename_i hb
    injection h with h
    have hk : cur.take orig.length = orig := by simpa using T.kept
    have hl : l = orig.drop b := by rw [← h, hk]
    have hlen : l.length = orig.length - b := by rw [hl, List.length_drop]
    have e : orig.length - l.length = b := by omega
    refine ⟨⟨by omega, by rw [e]; exact hl, ?_⟩, e⟩
    rw [e]
    conv_rhs => rw [← hk]
    rw [List.take_take, Nat.min_eq_left hb.1]
  · cases h

theorem emplaceRange_ok {f : α → β} {orig cur : List α} (n : Nat) : ∀ {m m' : List (Nat × α)} {i : Nat}, MapOk f orig cur m →
    i + n ≤ orig.length → Geometry.emplaceRange m cur i n = some m' →
    MapOk f orig cur m' ∧ (∀ j, j ∈ keys m' ↔ j ∈ keys m ∨ (i ≤ j ∧ j < i + n)) := by
  induction n with
  | zero =>
    intro m m' i M _ h
    simp only [Geometry.emplaceRange] at h
    injection h with h; subst h
    exact ⟨M, fun j => ⟨Or.inl, fun h => h.elim id (by omega)⟩⟩
  | succ n ih =>
    intro m m' i M hi h
    simp only [Geometry.emplaceRange] at h
    cases hc : cur[i]? with
    | none => rw [hc] at h; cases h
    | some a =>
      rw [hc] at h
      obtain ⟨M', hk⟩ := ih (M.emplace (by omega) hc) (by omega) h
      refine ⟨M', fun j => ?_⟩
      rw [hk, keys_emplace]
      constructor
      · rintro ((rfl | h) | h)
        · right; omega
        · left; exact h
        · right; omega
      · rintro (h | h)
        · left; right; exact h
        · by_cases hj : j = i
          · left; left; exact hj
          · right; omega

end Lists

/-! ## The invariant -/

variable {V X C : Type}

structure BreakFits (s : Side V X) (b : BreakSide) : Prop where
  indices : b.indexCount ≤ s.indices.length
  discontinuities : b.discontinuityCount ≤ s.discontinuities.length

structure WF (g : Geometry V X) : Prop where
  ids : g.ids.length = g.vertices.length
  offsets : g.offsets.length = g.vertices.length
  opposite : g.opposite.length = g.vertices.length
  vertexCount : g.lastBreak.vertexCount ≤ g.vertices.length
  triangleCount : g.lastBreak.triangleCount ≤ g.triangles.length
  left : BreakFits g.left g.lastBreak.left
  right : BreakFits g.right g.lastBreak.right

/-- One side of a save point. -/
structure SideOk (orig cur : Side V X) (p : SaveSide V X) : Prop where
  nIndices : p.nIndices = orig.indices.length
  nDiscontinuities : p.nDiscontinuities = orig.discontinuities.length
  state : p.state = orig.state
  indices : TailOk orig.indices cur.indices p.savedIndices
  discontinuities : TailOk orig.discontinuities cur.discontinuities p.savedDiscontinuities

/-- How a break made relates to a save point: the geometry up to the break is not needed to restore, or `n` bounds. -/
structure CapturedSide (orig : Side V X) (p : SaveSide V X) (b : BreakSide) : Prop where
  indices : orig.indices.length - p.savedIndices.length ≤ b.indexCount
  discontinuities : orig.discontinuities.length - p.savedDiscontinuities.length ≤ b.discontinuityCount

/-- What of the original geometry is in the mesh after the break is also saved. -/
structure Captured (g : Geometry V X) (p : Save V X) (b : Break) : Prop where
  vertices : ∀ i, i < g.vertices.length → i ∉ keys p.savedVertices → i < b.vertexCount
  triangles : ∀ i, i < g.triangles.length → i ∉ keys p.savedTriangles → i < b.triangleCount
  opposite : ∀ i, i < g.opposite.length → i ∉ keys p.savedOpposite → i < b.vertexCount
  ids : g.ids.length - p.savedIds.length ≤ b.vertexCount
  offsets : g.offsets.length - p.savedOffsets.length ≤ b.vertexCount
  left : CapturedSide g.left p.left b.left
  right : CapturedSide g.right p.right b.right

/-- Nothing was captured. -/
structure Plain (p : Save V X) : Prop where
  ids : p.savedIds = []
  offsets : p.savedOffsets = []
  leftIndices : p.left.savedIndices = []
  leftDiscontinuities : p.left.savedDiscontinuities = []
  rightIndices : p.right.savedIndices = []
  rightDiscontinuities : p.right.savedDiscontinuities = []

/-- What was captured is after the break of the save point. -/
structure Above (g : Geometry V X) (p : Save V X) : Prop where
  left : g.lastBreak.left.indexCount ≤ g.left.indices.length - p.left.savedIndices.length
  right : g.lastBreak.right.indexCount ≤ g.right.indices.length - p.right.savedIndices.length

/-- `p` is a save point of `g`, and the present geometry is `s`. -/
structure Inv (core : V → C) (g : Geometry V X) (s : Geometry V X) (p : Save V X) : Prop where
  nVertices : p.nVertices = g.vertices.length
  nTriangles : p.nTriangles = g.triangles.length
  savedBreak : p.savedBreak = g.lastBreak
  vertices : MapOk core g.vertices s.vertices p.savedVertices
  triangles : MapOk id g.triangles s.triangles p.savedTriangles
  opposite : MapOk id g.opposite s.opposite p.savedOpposite
  ids : TailOk g.ids s.ids p.savedIds
  offsets : TailOk g.offsets s.offsets p.savedOffsets
  left : SideOk g.left s.left p.left
  right : SideOk g.right s.right p.right
  captured : p.containsAll = true → Captured g p s.lastBreak
  plain : p.containsAll = false → Plain p ∧ (s.lastBreak = g.lastBreak ∨ Captured g p s.lastBreak)
  long : p.containsAll = false → g.triangles.length ≤ s.triangles.length
  above : Above g p

theorem MapOk.lt {α β : Type} {f : α → β} {orig cur : List α} {m : List (Nat × α)} (M : MapOk f orig cur m) {i : Nat}
    (hi : i < orig.length) (hk : i ∉ keys m) : i < cur.length := by
  have h := M.kept i hi hk
  rw [List.getElem?_eq_getElem hi] at h
  by_contra hc
  rw [List.getElem?_eq_none (Nat.le_of_not_lt hc)] at h; simp at h

/-- Everything is captured by a break made now. -/
theorem Inv.now {core : V → C} {g s : Geometry V X} {p : Save V X} (I : Inv core g s p) (W : WF s) {b : Break}
    (h1 : b.vertexCount = s.vertices.length) (h2 : b.triangleCount = s.triangles.length)
    (h3 : b.left = Geometry.breakSide s.left) (h4 : b.right = Geometry.breakSide s.right) : Captured g p b where
  vertices i hi hk := h1 ▸ I.vertices.lt hi hk
  triangles i hi hk := h2 ▸ I.triangles.lt hi hk
  opposite i hi hk := by rw [h1, ← W.opposite]; exact I.opposite.lt hi hk
  ids := by rw [h1, ← W.ids]; exact I.ids.length_le
  offsets := by rw [h1, ← W.offsets]; exact I.offsets.length_le
  left := by rw [h3]; exact ⟨I.left.indices.length_le, I.left.discontinuities.length_le⟩
  right := by rw [h4]; exact ⟨I.right.indices.length_le, I.right.discontinuities.length_le⟩

/-! ## Operations -/

theorem wf_reset (env : Env V X) (sv : Save V X) : WF (Geometry.reset env sv) := by
  constructor <;> first | rfl | exact Nat.le_refl _ | exact ⟨Nat.le_refl _, Nat.le_refl _⟩

theorem keepLast_indices (s : Side V X) : (Geometry.keepLast s).indices = s.indices := by
  unfold Geometry.keepLast; split
  · split <;> rfl
  · rfl

theorem keepLast_discontinuities (s : Side V X) : (Geometry.keepLast s).discontinuities = s.discontinuities := by
  unfold Geometry.keepLast; split
  · split <;> rfl
  · rfl

theorem wf_save {s : Geometry V X} (W : WF s) : WF s.setSavePoint where
  ids := W.ids
  offsets := W.offsets
  opposite := W.opposite
  vertexCount := W.vertexCount
  triangleCount := W.triangleCount
  left := ⟨by show _ ≤ (Geometry.keepLast s.left).indices.length; rw [keepLast_indices]; exact W.left.1,
    by show _ ≤ (Geometry.keepLast s.left).discontinuities.length; rw [keepLast_discontinuities]; exact W.left.2⟩
  right := ⟨by show _ ≤ (Geometry.keepLast s.right).indices.length; rw [keepLast_indices]; exact W.right.1,
    by show _ ≤ (Geometry.keepLast s.right).discontinuities.length; rw [keepLast_discontinuities]; exact W.right.2⟩

theorem inv_save (core : V → C) {s : Geometry V X} (W : WF s) : Inv core s s.setSavePoint s.setSavePoint.save where
  nVertices := rfl
  nTriangles := rfl
  savedBreak := rfl
  vertices := MapOk.init _ _
  triangles := MapOk.init _ _
  opposite := MapOk.init _ _
  ids := TailOk.init _
  offsets := TailOk.init _
  left := ⟨rfl, rfl, rfl, by show TailOk _ (Geometry.keepLast s.left).indices []; rw [keepLast_indices]; exact TailOk.init _,
    by show TailOk _ (Geometry.keepLast s.left).discontinuities []; rw [keepLast_discontinuities]; exact TailOk.init _⟩
  right := ⟨rfl, rfl, rfl, by show TailOk _ (Geometry.keepLast s.right).indices []; rw [keepLast_indices]; exact TailOk.init _,
    by show TailOk _ (Geometry.keepLast s.right).discontinuities []; rw [keepLast_discontinuities]; exact TailOk.init _⟩
  captured := nofun
  plain := fun _ => ⟨⟨rfl, rfl, rfl, rfl, rfl, rfl⟩, Or.inl rfl⟩
  long := fun _ => Nat.le_refl _
  above := ⟨W.left.1, W.right.1⟩

/-- What an operation must preserve. -/
def Good (core : V → C) (g : Geometry V X) (s : Geometry V X) : Prop :=
  WF s ∧ (s.save.active = true → Inv core g s s.save)

theorem bind_some {α β : Type} {a : Option α} {f : α → Option β} {b : β} (h : a.bind f = some b) : ∃ x, a = some x ∧ f x = some b :=
  Option.bind_eq_some_iff.1 h

theorem Captured.emplace {g : Geometry V X} {p p' : Save V X} {b : Break} (K : Captured g p b)
    (h1 : ∀ i, i ∈ keys p.savedVertices → i ∈ keys p'.savedVertices)
    (h2 : ∀ i, i ∈ keys p.savedTriangles → i ∈ keys p'.savedTriangles)
    (h3 : ∀ i, i ∈ keys p.savedOpposite → i ∈ keys p'.savedOpposite)
    (h4 : p'.savedIds = p.savedIds) (h5 : p'.savedOffsets = p.savedOffsets) (h6 : p'.left = p.left) (h7 : p'.right = p.right) :
    Captured g p' b where
  vertices i hi hk := K.vertices i hi (fun h => hk (h1 i h))
  triangles i hi hk := K.triangles i hi (fun h => hk (h2 i h))
  opposite i hi hk := K.opposite i hi (fun h => hk (h3 i h))
  ids := by rw [h4]; exact K.ids
  offsets := by rw [h5]; exact K.offsets
  left := by rw [h6]; exact K.left
  right := by rw [h7]; exact K.right

theorem good_setVertex {core : V → C} {g s s' : Geometry V X} {i : Nat} {v : V} (G : Good core g s)
    (h : s.setVertex i v true = some s') : Good core g s' := by
  obtain ⟨W, I⟩ := G
  obtain ⟨old, ho, h⟩ := bind_some h
  injection h with h
  split at h
  · rename_i hc
    subst h
    refine ⟨⟨?_, ?_, ?_, ?_, W.triangleCount, W.left, W.right⟩, fun ha => ?_⟩
    · simpa using W.ids
    · simpa using W.offsets
    · simpa using W.opposite
    · simpa using W.vertexCount
    · have I := I hc.2.1
      have hi : i < g.vertices.length := I.nVertices ▸ hc.2.2
      have hk : ∀ j, j ∈ keys s.save.savedVertices → j ∈ keys (Verif.StrokeGeom.emplace s.save.savedVertices i old) :=
        fun j hj => keys_emplace.2 (Or.inr hj)
      exact
        { nVertices := I.nVertices
          nTriangles := I.nTriangles
          savedBreak := I.savedBreak
          vertices := (I.vertices.emplace hi ho).set (Or.inr (keys_emplace.2 (Or.inl rfl)))
          triangles := I.triangles
          opposite := I.opposite
          ids := I.ids
          offsets := I.offsets
          left := I.left
          right := I.right
          captured := fun h => (I.captured h).emplace hk (fun _ h => h) (fun _ h => h) rfl rfl rfl rfl
          plain := fun h => ⟨⟨(I.plain h).1.ids, (I.plain h).1.offsets, (I.plain h).1.leftIndices,
            (I.plain h).1.leftDiscontinuities, (I.plain h).1.rightIndices, (I.plain h).1.rightDiscontinuities⟩,
            (I.plain h).2.imp_right fun K => K.emplace hk (fun _ h => h) (fun _ h => h) rfl rfl rfl rfl⟩
          long := I.long
          above := ⟨I.above.1, I.above.2⟩ }
  · rename_i hc
    subst h
    refine ⟨⟨?_, ?_, ?_, ?_, W.triangleCount, W.left, W.right⟩, fun ha => ?_⟩
    · simpa using W.ids
    · simpa using W.offsets
    · simpa using W.opposite
    · simpa using W.vertexCount
    · have I := I ha
      have hi : g.vertices.length ≤ i := by
        by_contra hl
        exact hc ⟨rfl, ha, by rw [I.nVertices]; omega⟩
      exact { I with vertices := I.vertices.set (Or.inl hi) }

theorem good_setTriangle {core : V → C} {g s s' : Geometry V X} {i : Nat} {t : Tri} (G : Good core g s)
    (h : s.setTriangle i t true = some s') : Good core g s' := by
  obtain ⟨W, I⟩ := G
  obtain ⟨old, ho, h⟩ := bind_some h
  injection h with h
  split at h
  · rename_i hc
    subst h
    refine ⟨⟨W.ids, W.offsets, W.opposite, W.vertexCount, ?_, W.left, W.right⟩, fun ha => ?_⟩
    · simpa using W.triangleCount
    · have I := I hc.2.1
      have hi : i < g.triangles.length := I.nTriangles ▸ hc.2.2
      have hk : ∀ j, j ∈ keys s.save.savedTriangles → j ∈ keys (Verif.StrokeGeom.emplace s.save.savedTriangles i old) :=
        fun j hj => keys_emplace.2 (Or.inr hj)
      exact
        { nVertices := I.nVertices
          nTriangles := I.nTriangles
          savedBreak := I.savedBreak
          vertices := I.vertices
          triangles := (I.triangles.emplace hi ho).set (Or.inr (keys_emplace.2 (Or.inl rfl)))
          opposite := I.opposite
          ids := I.ids
          offsets := I.offsets
          left := I.left
          right := I.right
          captured := fun h => (I.captured h).emplace (fun _ h => h) hk (fun _ h => h) rfl rfl rfl rfl
          plain := fun h => ⟨⟨(I.plain h).1.ids, (I.plain h).1.offsets, (I.plain h).1.leftIndices,
            (I.plain h).1.leftDiscontinuities, (I.plain h).1.rightIndices, (I.plain h).1.rightDiscontinuities⟩,
            (I.plain h).2.imp_right fun K => K.emplace (fun _ h => h) hk (fun _ h => h) rfl rfl rfl rfl⟩
          long := fun h => by simpa using I.long h
          above := ⟨I.above.1, I.above.2⟩ }
  · rename_i hc
    subst h
    refine ⟨⟨W.ids, W.offsets, W.opposite, W.vertexCount, ?_, W.left, W.right⟩, fun ha => ?_⟩
    · simpa using W.triangleCount
    · have I := I ha
      have hi : g.triangles.length ≤ i := by
        by_contra hl
        exact hc ⟨rfl, ha, by rw [I.nTriangles]; omega⟩
      exact { I with triangles := I.triangles.set (Or.inl hi), long := fun h => by simpa using I.long h }

theorem good_setOpposite {core : V → C} {g s s' : Geometry V X} {i o : Nat} (W' : WF g) (G : Good core g s)
    (h : s.setOpposite i o true = some s') : Good core g s' := by
  have G0 := G
  obtain ⟨W, I⟩ := G
  obtain ⟨old, ho, h⟩ := bind_some h
  split at h
  · injection h with h; subst h; exact G0
  injection h with h
  split at h
  · rename_i hc
    subst h
    refine ⟨⟨W.ids, W.offsets, ?_, W.vertexCount, W.triangleCount, W.left, W.right⟩, fun ha => ?_⟩
    · simpa using W.opposite
    · have I := I hc.2.1
      have hi : i < g.opposite.length := by rw [W'.opposite]; exact I.nVertices ▸ hc.2.2
      have hk : ∀ j, j ∈ keys s.save.savedOpposite → j ∈ keys (Verif.StrokeGeom.emplace s.save.savedOpposite i old) :=
        fun j hj => keys_emplace.2 (Or.inr hj)
      exact
        { nVertices := I.nVertices
          nTriangles := I.nTriangles
          savedBreak := I.savedBreak
          vertices := I.vertices
          triangles := I.triangles
          opposite := (I.opposite.emplace hi ho).set (Or.inr (keys_emplace.2 (Or.inl rfl)))
          ids := I.ids
          offsets := I.offsets
          left := I.left
          right := I.right
          captured := fun h => (I.captured h).emplace (fun _ h => h) (fun _ h => h) hk rfl rfl rfl rfl
          plain := fun h => ⟨⟨(I.plain h).1.ids, (I.plain h).1.offsets, (I.plain h).1.leftIndices,
            (I.plain h).1.leftDiscontinuities, (I.plain h).1.rightIndices, (I.plain h).1.rightDiscontinuities⟩,
            (I.plain h).2.imp_right fun K => K.emplace (fun _ h => h) (fun _ h => h) hk rfl rfl rfl rfl⟩
          long := I.long
          above := ⟨I.above.1, I.above.2⟩ }
  · rename_i hc
    subst h
    refine ⟨⟨W.ids, W.offsets, ?_, W.vertexCount, W.triangleCount, W.left, W.right⟩, fun ha => ?_⟩
    · simpa using W.opposite
    · have I := I ha
      have hi : g.opposite.length ≤ i := by
        rw [W'.opposite]
        by_contra hl
        exact hc ⟨rfl, ha, by rw [I.nVertices]; omega⟩
      exact { I with opposite := I.opposite.set (Or.inl hi) }

theorem SideOk.grow {orig cur cur' : Side V X} {p : SaveSide V X} (S : SideOk orig cur p) {l1 : List Nat} {l2 : List (Nat × Nat)}
    (h1 : cur'.indices = cur.indices ++ l1) (h2 : cur'.discontinuities = cur.discontinuities ++ l2) : SideOk orig cur' p :=
  ⟨S.1, S.2, S.3, h1 ▸ S.4.append l1, h2 ▸ S.5.append l2⟩

theorem BreakFits.grow {cur cur' : Side V X} {b : BreakSide} (S : BreakFits cur b) {l1 : List Nat} {l2 : List (Nat × Nat)}
    (h1 : cur'.indices = cur.indices ++ l1) (h2 : cur'.discontinuities = cur.discontinuities ++ l2) : BreakFits cur' b :=
  ⟨by rw [h1, List.length_append]; exact Nat.le_trans S.1 (Nat.le_add_right _ _),
   by rw [h2, List.length_append]; exact Nat.le_trans S.2 (Nat.le_add_right _ _)⟩

theorem good_setSide {core : V → C} {g s : Geometry V X} (G : Good core g s) (k : SideId) {sd : Side V X} {l1 : List Nat}
    {l2 : List (Nat × Nat)} (h1 : sd.indices = (s.side k).indices ++ l1)
    (h2 : sd.discontinuities = (s.side k).discontinuities ++ l2) : Good core g (s.setSide k sd) := by
  obtain ⟨W, I⟩ := G
  cases k with
  | left =>
    exact ⟨⟨W.ids, W.offsets, W.opposite, W.vertexCount, W.triangleCount, W.left.grow h1 h2, W.right⟩, fun ha =>
      { I ha with left := (I ha).left.grow h1 h2 }⟩
  | right =>
    exact ⟨⟨W.ids, W.offsets, W.opposite, W.vertexCount, W.triangleCount, W.left, W.right.grow h1 h2⟩, fun ha =>
      { I ha with right := (I ha).right.grow h1 h2 }⟩

theorem good_append {core : V → C} {g s : Geometry V X} (G : Good core g s) (v : V) (k : SideId) (a b : Nat) :
    Good core g { s with vertices := s.vertices ++ [v], ids := s.ids ++ [k], offsets := s.offsets ++ [a], opposite := s.opposite ++ [b] } := by
  obtain ⟨W, I⟩ := G
  refine ⟨⟨?_, ?_, ?_, ?_, W.triangleCount, W.left, W.right⟩, fun ha => ?_⟩
  · simpa using W.ids
  · simpa using W.offsets
  · simpa using W.opposite
  · simp only [List.length_append]; exact Nat.le_trans W.vertexCount (Nat.le_add_right _ _)
  · exact { I ha with
      vertices := (I ha).vertices.append _
      ids := (I ha).ids.append _
      offsets := (I ha).offsets.append _
      opposite := (I ha).opposite.append _ }

theorem good_appendVertexToMesh {core : V → C} {g s : Geometry V X} (G : Good core g s) (k : SideId) (v : V) :
    Good core g (s.appendVertexToMesh k v) := by
  unfold Geometry.appendVertexToMesh
  exact good_append (good_setSide G k (l1 := [s.vertices.length]) (l2 := []) rfl (by simp)) v k _ _

theorem good_appendVertexToSide {core : V → C} {env : Env V X} {g s s' : Geometry V X} (G : Good core g s) {k : SideId} {v : V}
    (h : s.appendVertexToSide env k v = some s') : Good core g s' := by
  unfold Geometry.appendVertexToSide at h
  dsimp only at h
  split at h
  · obtain ⟨next, _, h⟩ := bind_some h
    injection h with h; subst h
    exact good_appendVertexToMesh (good_setSide G k (l1 := []) (l2 := []) (by simp) (by simp)) k _
  · injection h with h; subst h
    exact good_setSide G k (l1 := []) (l2 := []) (by simp) (by simp)

theorem unzipStep {s : Geometry V X} {i : Nat} {t t' : Tri} (h : s.triangles[i]? = some t) :
    (if s.save.active = true ∧ i < s.save.nTriangles then
          { s with save := { s.save with savedTriangles := emplace s.save.savedTriangles i t } } else s).setTriangle i t' false =
      s.setTriangle i t' true := by
  unfold Geometry.setTriangle
  by_cases hc : s.save.active = true ∧ i < s.save.nTriangles
  · rw [if_pos hc]; simp [h, hc]
  · rw [if_neg hc]
    have : ¬ (True ∧ s.save.active = true ∧ i < s.save.nTriangles) := by rw [true_and]; exact hc
    simp only [h]; simp [hc]

theorem setTriangle_facts {s s' : Geometry V X} {i : Nat} {t : Tri} (h : s.setTriangle i t true = some s') :
    s'.triangles.length = s.triangles.length ∧ s'.save.active = s.save.active ∧ s'.save.nTriangles = s.save.nTriangles ∧
    (∀ j, j ∈ keys s.save.savedTriangles → j ∈ keys s'.save.savedTriangles) ∧
    (s.save.active = true → i < s.save.nTriangles → i ∈ keys s'.save.savedTriangles) := by
  obtain ⟨old, ho, h⟩ := bind_some h
  injection h with h
  split at h
  · subst h
    exact ⟨by simp, rfl, rfl, fun j hj => keys_emplace.2 (Or.inr hj), fun _ _ => keys_emplace.2 (Or.inl rfl)⟩
  · rename_i hc
    subst h
    exact ⟨by simp, rfl, rfl, fun j hj => hj, fun h1 h2 => absurd ⟨rfl, h1, h2⟩ hc⟩

theorem good_unzipLoop {core : V → C} {g : Geometry V X} (f : Nat → Tri → Tri) (k : Nat) (i : Nat) : ∀ {s s' : Geometry V X},
    Good core g s → (s.save.active = true → ∀ j, i ≤ j → j < s.save.nTriangles → j ∈ keys s.save.savedTriangles) →
    Geometry.unzipLoop f k i s = some s' →
    Good core g s' ∧ s'.triangles.length = s.triangles.length ∧
      (s'.save.active = true → ∀ j, k ≤ j → j < s'.save.nTriangles → j ∈ keys s'.save.savedTriangles) := by
  induction i with
  | zero =>
    intro s s' G hk h
    simp only [Geometry.unzipLoop] at h
    injection h with h; subst h
    exact ⟨G, rfl, fun ha j _ => hk ha j (Nat.zero_le _)⟩
  | succ i ih =>
    intro s s' G hk h
    unfold Geometry.unzipLoop at h
    split at h
    · obtain ⟨t, ht, h⟩ := bind_some h
      dsimp only at h
      rw [unzipStep ht] at h
      obtain ⟨s1, h1, h⟩ := bind_some h
      obtain ⟨e1, e2, e3, e4, e5⟩ := setTriangle_facts h1
      obtain ⟨G', hl, hr⟩ := ih (good_setTriangle G h1) (fun ha j hj hjn => by
        rw [e2] at ha; rw [e3] at hjn
        by_cases hij : j = i
        · subst hij; exact e5 ha hjn
        · exact e4 j (hk ha j (by omega) hjn)) h
      exact ⟨G', hl.trans e1, hr⟩
    · rename_i hlt
      injection h with h; subst h
      exact ⟨G, rfl, fun ha j hj hn => hk ha j (by omega) hn⟩

theorem good_unzip {core : V → C} {g s s' : Geometry V X} (G : Good core g s) {k : Nat} {f : Nat → Tri → Tri} {t : Tri}
    (h : s.unzip k f t = some s') : Good core g s' := by
  obtain ⟨s1, h1, h⟩ := bind_some h
  obtain ⟨G1, hl, hk⟩ := good_unzipLoop f k _ G (fun ha j hj hn => by
    by_contra hc
    have I := G.2 ha
    have := I.triangles.lt (I.nTriangles ▸ hn) hc
    omega) h1
  split at h
  · rename_i hkl
    injection h with h; subst h
    obtain ⟨W, I⟩ := G1
    refine ⟨⟨W.ids, W.offsets, W.opposite, W.vertexCount, ?_, W.left, W.right⟩, fun ha => ?_⟩
    · have := W.triangleCount
      simp only [List.length_append, List.length_take, List.length_cons, List.length_drop]; omega
    · have I := I ha
      refine { I with
        triangles := I.triangles.congr fun i hi hik => ?_
        long := fun h => Nat.le_trans (I.long h) (by
          simp only [List.length_append, List.length_take, List.length_cons, List.length_drop]; omega) }
      have hik' : i < k := by
        by_contra hc
        exact hik (hk ha i (Nat.le_of_not_lt hc) (I.nTriangles ▸ hi))
      rw [List.getElem?_append_left (by simp; omega), List.getElem?_take_of_lt hik']
  · cases h

theorem good_labelLast {core : V → C} {env : Env V X} {g s s' : Geometry V X} (G : Good core g s) {sd : Side V X}
    (h : s.labelLast env sd = some s') : Good core g s' := by
  unfold Geometry.labelLast at h
  split at h
  · injection h with h; subst h; exact G
  · obtain ⟨i, _, h⟩ := bind_some h
    obtain ⟨v, _, h⟩ := bind_some h
    exact good_setVertex G h

theorem good_addBreak {core : V → C} {env : Env V X} {g s s' : Geometry V X} (G : Good core g s)
    (h : s.addBreak env = some s') : Good core g s' := by
  obtain ⟨s1, h1, h⟩ := bind_some h
  have G1 : Good core g s1 := by
    unfold Geometry.labelBoth at h1
    split at h1
    · obtain ⟨s2, h2, h1⟩ := bind_some h1
      exact good_labelLast (good_labelLast G h2) h1
    · injection h1 with h1; subst h1; exact G
  injection h with h; subst h
  obtain ⟨W, I⟩ := G1
  refine ⟨⟨W.ids, W.offsets, W.opposite, Nat.le_refl _, Nat.le_refl _, ⟨Nat.le_refl _, Nat.le_refl _⟩, ⟨Nat.le_refl _, Nat.le_refl _⟩⟩,
    fun ha => ?_⟩
  have I := I ha
  have K := I.now W (b := ⟨s1.lastBreak.count + 1, s1.vertices.length, s1.triangles.length, Geometry.breakSide s1.left,
    Geometry.breakSide s1.right⟩) rfl rfl rfl rfl
  exact
    { nVertices := I.nVertices
      nTriangles := I.nTriangles
      savedBreak := I.savedBreak
      vertices := I.vertices
      triangles := I.triangles
      opposite := I.opposite
      ids := I.ids
      offsets := I.offsets
      left := ⟨I.left.1, I.left.2, I.left.3, I.left.4, I.left.5⟩
      right := ⟨I.right.1, I.right.2, I.right.3, I.right.4, I.right.5⟩
      captured := fun _ => ⟨K.1, K.2, K.3, K.4, K.5, K.6, K.7⟩
      plain := fun h => ⟨(I.plain h).1, Or.inr ⟨K.1, K.2, K.3, K.4, K.5, K.6, K.7⟩⟩
      long := I.long
      above := I.above }

theorem captureSide_ok {orig cur : Side V X} {b : BreakSide} {p p' : SaveSide V X} (S : SideOk orig cur p)
    (h1 : p.savedIndices = []) (h2 : p.savedDiscontinuities = []) (h : Geometry.captureSide cur b p = some p') :
    SideOk orig cur p' ∧ CapturedSide orig p' b ∧ orig.indices.length - p'.savedIndices.length = b.indexCount := by
  unfold Geometry.captureSide at h
  split at h
  · obtain ⟨is, hi, h⟩ := bind_some h
    obtain ⟨ds, hd, h⟩ := bind_some h
    injection h with h; subst h
    rw [S.nIndices] at hi
    rw [S.nDiscontinuities] at hd
    have T1 := S.indices
    have T2 := S.discontinuities
    rw [h1] at T1; rw [h2] at T2
    obtain ⟨A1, A2⟩ := slice_tail T1 hi
    obtain ⟨B1, B2⟩ := slice_tail T2 hd
    simp only [h1, h2, List.nil_append]
    exact ⟨⟨S.nIndices, S.nDiscontinuities, S.state, A1, B1⟩, ⟨Nat.le_of_eq A2, Nat.le_of_eq B2⟩, A2⟩
  · cases h

theorem inv_capture {core : V → C} {g s s' : Geometry V X} (Wg : WF g) (I : Inv core g s s.save)
    (hc : s.save.containsAll = false) (h : s.capture = some s') :
    s' = { s with save := s'.save } ∧ s'.save.active = s.save.active ∧ s'.save.containsAll = true ∧ Inv core g s s'.save ∧
      Captured g s'.save s.lastBreak := by
  unfold Geometry.capture at h
  dsimp only at h
  split at h
  · rename_i hle
    obtain ⟨ids, hids, h⟩ := bind_some h
    obtain ⟨offs, hoffs, h⟩ := bind_some h
    obtain ⟨ts, hts, h⟩ := bind_some h
    obtain ⟨vs, hvs, h⟩ := bind_some h
    obtain ⟨os, hos, h⟩ := bind_some h
    obtain ⟨l, hl, h⟩ := bind_some h
    obtain ⟨r, hr, h⟩ := bind_some h
    injection h with h; subst h
    obtain ⟨P, hb⟩ := I.plain hc
    rw [I.nVertices] at hids hoffs hvs hos hle
    rw [I.nTriangles] at hts hle
    have T1 := I.ids
    have T2 := I.offsets
    rw [P.ids] at T1; rw [P.offsets] at T2
    rw [← Wg.ids] at hids
    rw [← Wg.offsets] at hoffs
    obtain ⟨A1, A2⟩ := slice_tail T1 hids
    obtain ⟨B1, B2⟩ := slice_tail T2 hoffs
    obtain ⟨M1, K1⟩ := emplaceRange_ok _ I.triangles (by omega) hts
    obtain ⟨M2, K2⟩ := emplaceRange_ok _ I.vertices (by omega) hvs
    obtain ⟨M3, K3⟩ := emplaceRange_ok _ I.opposite (by rw [Wg.opposite]; omega) hos
    obtain ⟨L1, L2, L3⟩ := captureSide_ok I.left P.leftIndices P.leftDiscontinuities hl
    obtain ⟨R1, R2, R3⟩ := captureSide_ok I.right P.rightIndices P.rightDiscontinuities hr
    have K : Captured g { s.save with
        containsAll := true, savedIds := s.save.savedIds ++ ids, savedOffsets := s.save.savedOffsets ++ offs
        savedTriangles := ts, savedVertices := vs, savedOpposite := os, left := l, right := r } s.lastBreak := by
      refine ⟨fun i hi hk => ?_, fun i hi hk => ?_, fun i hi hk => ?_, ?_, ?_, L2, R2⟩
      · by_contra hb; exact hk ((K2 i).2 (Or.inr (by omega)))
      · by_contra hb; exact hk ((K1 i).2 (Or.inr (by omega)))
      · rw [Wg.opposite] at hi; by_contra hb; exact hk ((K3 i).2 (Or.inr (by omega)))
      · show _ - (s.save.savedIds ++ ids).length ≤ _; rw [P.ids, List.nil_append]; exact Nat.le_of_eq A2
      · show _ - (s.save.savedOffsets ++ offs).length ≤ _; rw [P.offsets, List.nil_append]; exact Nat.le_of_eq B2
    refine ⟨rfl, rfl, rfl, ?_, K⟩
    exact
      { nVertices := I.nVertices
        nTriangles := I.nTriangles
        savedBreak := I.savedBreak
        vertices := M2
        triangles := M1
        opposite := M3
        ids := by show TailOk _ _ (s.save.savedIds ++ ids); rw [P.ids]; exact A1
        offsets := by show TailOk _ _ (s.save.savedOffsets ++ offs); rw [P.offsets]; exact B1
        left := L1
        right := R1
        captured := fun _ => K
        plain := nofun
        long := nofun
        above := by
          constructor
          · show _ ≤ _ - l.savedIndices.length
            rw [L3]
            rcases hb with hb | hb
            · rw [hb]; exact Nat.le_refl _
            · have := hb.left.indices; rw [P.leftIndices] at this
              exact Nat.le_trans Wg.left.1 this
          · show _ ≤ _ - r.savedIndices.length
            rw [R3]
            rcases hb with hb | hb
            · rw [hb]; exact Nat.le_refl _
            · have := hb.right.indices; rw [P.rightIndices] at this
              exact Nat.le_trans Wg.right.1 this }
  · cases h

theorem wf_truncate {env : Env V X} {s : Geometry V X} : WF (s.truncateToBreak env) := by
  constructor <;> simp [Geometry.truncateToBreak, resize_length]
  all_goals constructor <;> simp [Geometry.breakPartition, Geometry.truncateSide, resize_length]

theorem truncateSide_ok {env : Env V X} {orig cur : Side V X} {b : BreakSide} {p : SaveSide V X} (S : SideOk orig cur p)
    (K : CapturedSide orig p b) (n m : Nat) : SideOk orig (Geometry.breakPartition env (Geometry.truncateSide cur b) n m) p :=
  ⟨S.1, S.2, S.3, S.4.resize _ _ K.1, S.5.resize _ _ K.2⟩

theorem inv_truncate {core : V → C} {env : Env V X} {g s : Geometry V X} (I : Inv core g s s.save)
    (K : Captured g s.save s.lastBreak) (hl : s.save.containsAll = false → g.triangles.length ≤ s.lastBreak.triangleCount) :
    Inv core g (s.truncateToBreak env) s.save where
  nVertices := I.nVertices
  nTriangles := I.nTriangles
  savedBreak := I.savedBreak
  vertices := I.vertices.resize _ _ K.vertices
  triangles := I.triangles.resize _ _ K.triangles
  opposite := I.opposite.resize _ _ K.opposite
  ids := I.ids.resize _ _ K.ids
  offsets := I.offsets.resize _ _ K.offsets
  left := truncateSide_ok I.left K.left _ _
  right := truncateSide_ok I.right K.right _ _
  captured := fun _ => K
  plain := fun h => ⟨(I.plain h).1, Or.inr K⟩
  long := fun h => by
    show _ ≤ (resize s.triangles s.lastBreak.triangleCount (0, 0, 0)).length
    rw [resize_length]; exact hl h
  above := I.above

theorem good_clear {core : V → C} {env : Env V X} {g s s' : Geometry V X} (Wg : WF g) (G : Good core g s)
    (h : s.clearSinceBreak env = some s') : Good core g s' := by
  unfold Geometry.clearSinceBreak at h
  split at h
  · injection h with h; subst h; exact G
  obtain ⟨s1, h1, h⟩ := bind_some h
  injection h with h; subst h
  refine ⟨wf_truncate, fun ha => ?_⟩
  have ha1 : s1.save.active = true := ha
  show Inv core g (s1.truncateToBreak env) s1.save
  unfold Geometry.captureIfNeeded at h1
  split at h1
  · rename_i hc
    obtain ⟨e, -, eall, I', K'⟩ := inv_capture Wg (G.2 hc.1) (by simpa using hc.2.1) h1
    have eb : s1.lastBreak = s.lastBreak := by rw [e]
    refine inv_truncate ?_ (by rw [eb]; exact K') (fun h => by rw [eall] at h; cases h)
    have : Inv core g { s with save := s1.save } s1.save :=
      ⟨I'.1, I'.2, I'.3, I'.4, I'.5, I'.6, I'.7, I'.8, I'.9, I'.10, I'.11, I'.12, I'.13, I'.14⟩
    rw [← e] at this; exact this
  · rename_i hc
    injection h1 with h1; subst h1
    have I := G.2 ha1
    refine inv_truncate I ?_ (fun hca => by
      by_contra hlt
      exact hc ⟨ha1, by simp [hca], by rw [I.nTriangles]; omega⟩)
    cases hca : s.save.containsAll with
    | true => exact I.captured hca
    | false =>
      rcases (I.plain hca).2 with hb | K
      · exfalso; apply hc
        refine ⟨ha1, by simp [hca], ?_⟩
        rw [I.nTriangles, hb]; exact Wg.triangleCount
      · exact K

theorem good_updateVertices {core : V → C} {g : Geometry V X} (us : List (Nat × (V → V))) : ∀ {s s' : Geometry V X}, Good core g s →
    (∀ u ∈ us, ∀ v, core (u.2 v) = core v) → s.updateVertices us = some s' → Good core g s' := by
  induction us with
  | nil =>
    intro s s' G _ h
    simp only [Geometry.updateVertices] at h
    injection h with h; subst h; exact G
  | cons u us ih =>
    intro s s' G hu h
    obtain ⟨i, f⟩ := u
    obtain ⟨v, hv, h⟩ := bind_some h
    refine ih ?_ (fun u hm => hu u (List.mem_cons_of_mem _ hm)) h
    obtain ⟨W, I⟩ := G
    refine ⟨⟨?_, ?_, ?_, ?_, W.triangleCount, W.left, W.right⟩, fun ha => ?_⟩
    · simpa using W.ids
    · simpa using W.offsets
    · simpa using W.opposite
    · simpa using W.vertexCount
    · exact { I ha with vertices := (I ha).vertices.update hv (hu (i, f) List.mem_cons_self v) }

theorem good_step {core : V → C} {env : Env V X} {g s s' : Geometry V X} (Wg : WF g) (G : Good core g s) {op : Op V X}
    (hk : Keeps core op) (h : s.step env op = some s') : Good core g s' := by
  cases op with
  | bufferVertex k v => exact good_appendVertexToSide G h
  | appendVertex k v => injection h with h; subst h; exact good_appendVertexToMesh G k v
  | setVertex i v => exact good_setVertex G h
  | appendTriangle t =>
    injection h with h; subst h
    obtain ⟨W, I⟩ := G
    refine ⟨⟨W.ids, W.offsets, W.opposite, W.vertexCount, ?_, W.left, W.right⟩, fun ha =>
      { I ha with triangles := (I ha).triangles.append _, long := fun h => Nat.le_trans ((I ha).long h) (by simp) }⟩
    simp only [List.length_append]; exact Nat.le_trans W.triangleCount (Nat.le_add_right _ _)
  | setTriangle i t => exact good_setTriangle G h
  | unzip k f t => exact good_unzip G h
  | setOpposite i o => exact good_setOpposite Wg G h
  | addDiscontinuity k r =>
    injection h with h; subst h
    exact good_setSide G k (l1 := []) (l2 := [r]) (by simp) rfl
  | setState k sd =>
    injection h with h; subst h
    exact good_setSide G k (l1 := []) (l2 := []) (by simp) (by simp)
  | addBreak => exact good_addBreak G h
  | clear => exact good_clear Wg G h
  | derivatives us => exact good_updateVertices us G hk h
  | resetTracking =>
    injection h with h; subst h
    obtain ⟨W, I⟩ := G
    exact ⟨⟨W.1, W.2, W.3, W.4, W.5, W.6, W.7⟩, fun ha =>
      ⟨(I ha).1, (I ha).2, (I ha).3, (I ha).4, (I ha).5, (I ha).6, (I ha).7, (I ha).8, (I ha).9, (I ha).10, (I ha).11, (I ha).12, (I ha).13, (I ha).14⟩⟩

theorem good_run {core : V → C} {env : Env V X} {g : Geometry V X} (Wg : WF g) (ops : List (Op V X)) : ∀ {s s' : Geometry V X},
    Good core g s → (∀ op ∈ ops, Keeps core op) → s.run env ops = some s' → Good core g s' := by
  induction ops with
  | nil => intro s s' G _ h; injection h with h; subst h; exact G
  | cons op ops ih =>
    intro s s' G hk h
    obtain ⟨s1, h1, h⟩ := bind_some h
    exact ih (good_step Wg G (hk op List.mem_cons_self) h1) (fun o ho => hk o (List.mem_cons_of_mem _ ho)) h

/-! ## Revert -/

theorem setVertices_eq (m : List (Nat × V)) : ∀ {s : Geometry V X}, (∀ i ∈ keys m, i < s.vertices.length) →
    s.setVertices m = some { s with vertices := setAll s.vertices m } := by
  induction m with
  | nil => intro s _; rfl
  | cons p m ih =>
    intro s h
    obtain ⟨i, v⟩ := p
    have hi : i < s.vertices.length := h i (by simp [keys])
    have e : s.setVertex i v false = some { s with vertices := s.vertices.set i v } := by
      unfold Geometry.setVertex
      rw [List.getElem?_eq_getElem hi]; simp
    rw [Geometry.setVertices, e]
    show Geometry.setVertices _ m = _
    rw [ih (by intro j hj; simp only [List.length_set]; exact h j (by simp only [keys, List.map_cons, List.mem_cons]; exact Or.inr hj))]
    rfl

theorem setTriangles_eq (m : List (Nat × Tri)) : ∀ {s : Geometry V X}, (∀ i ∈ keys m, i < s.triangles.length) →
    s.setTriangles m = some { s with triangles := setAll s.triangles m } := by
  induction m with
  | nil => intro s _; rfl
  | cons p m ih =>
    intro s h
    obtain ⟨i, v⟩ := p
    have hi : i < s.triangles.length := h i (by simp [keys])
    have e : s.setTriangle i v false = some { s with triangles := s.triangles.set i v } := by
      unfold Geometry.setTriangle
      rw [List.getElem?_eq_getElem hi]; simp
    rw [Geometry.setTriangles, e]
    show Geometry.setTriangles _ m = _
    rw [ih (by intro j hj; simp only [List.length_set]; exact h j (by simp only [keys, List.map_cons, List.mem_cons]; exact Or.inr hj))]
    rfl

theorem setOpposites_eq (m : List (Nat × Nat)) : ∀ {s : Geometry V X}, (∀ i ∈ keys m, i < s.opposite.length) →
    s.setOpposites m = some { s with opposite := setAll s.opposite m } := by
  induction m with
  | nil => intro s _; rfl
  | cons p m ih =>
    intro s h
    obtain ⟨i, v⟩ := p
    have hi : i < s.opposite.length := h i (by simp [keys])
    have e : s.setOpposite i v false = some { s with opposite := s.opposite.set i v } := by
      unfold Geometry.setOpposite
      rw [List.getElem?_eq_getElem hi]
      by_cases hv : s.opposite[i] = v
      · have : s.opposite.set i v = s.opposite := by rw [← hv]; exact List.set_getElem_self hi
        simp [hv, this]
      · simp [hv]
    rw [Geometry.setOpposites, e]
    show Geometry.setOpposites _ m = _
    rw [ih (by intro j hj; simp only [List.length_set]; exact h j (by simp only [keys, List.map_cons, List.mem_cons]; exact Or.inr hj))]
    rfl

theorem revertSide_eq {orig cur : Side V X} {p : SaveSide V X} (S : SideOk orig cur p) : Geometry.revertSide cur p = some orig := by
  unfold Geometry.revertSide
  rw [S.nIndices, S.nDiscontinuities, S.indices.restore, S.discontinuities.restore, S.state]; rfl

theorem revert_ok {core : V → C} {env : Env V X} {order : {α : Type} → List α → List α} (ho : IsOrder order) {g s : Geometry V X}
    (Wg : WF g) (I : Inv core g s s.save) (ha : s.save.active = true) :
    ∃ r, s.revert env order = some r ∧ contents core r = contents core g ∧ r.save.active = false ∧
      r.firstMutatedLeft = min s.firstMutatedLeft (s.save.left.nIndices - s.save.left.savedIndices.length) ∧
      r.firstMutatedRight = min s.firstMutatedRight (s.save.right.nIndices - s.save.right.savedIndices.length) := by
  have hk1 : ∀ i, i ∈ keys (order s.save.savedVertices) → i < (resize s.vertices s.save.nVertices env.blank).length := fun i hi => by
    rw [resize_length, I.nVertices]; exact I.vertices.key_lt (((ho s.save.savedVertices).map _).mem_iff.1 hi)
  have hk2 : ∀ i, i ∈ keys (order s.save.savedTriangles) → i < (resize s.triangles s.save.nTriangles (0, 0, 0)).length := fun i hi => by
    rw [resize_length, I.nTriangles]; exact I.triangles.key_lt (((ho s.save.savedTriangles).map _).mem_iff.1 hi)
  have hk3 : ∀ i, i ∈ keys (order s.save.savedOpposite) → i < (resize s.opposite s.save.nVertices 0).length := fun i hi => by
    rw [resize_length, I.nVertices, ← Wg.opposite]; exact I.opposite.key_lt (((ho s.save.savedOpposite).map _).mem_iff.1 hi)
  unfold Geometry.revert
  rw [if_pos ha]
  dsimp only
  rw [setVertices_eq _ hk1, Option.bind_eq_bind, Option.bind_some, setTriangles_eq _ hk2, Option.bind_eq_bind, Option.bind_some,
    setOpposites_eq _ hk3, Option.bind_eq_bind, Option.bind_some]
  dsimp only
  have e1 : copyToEnd (resize s.ids s.save.nVertices SideId.left) s.save.savedIds = some g.ids := by
    rw [I.nVertices, ← Wg.ids]; exact I.ids.restore _
  have e2 : copyToEnd (resize s.offsets s.save.nVertices 0) s.save.savedOffsets = some g.offsets := by
    rw [I.nVertices, ← Wg.offsets]; exact I.offsets.restore _
  rw [e1, e2, revertSide_eq I.left, revertSide_eq I.right]
  refine ⟨_, rfl, ?_, rfl, rfl, rfl⟩
  unfold contents
  dsimp only
  congr 1
  · rw [I.nVertices]; exact I.vertices.restore (ho _) _
  · rw [I.nTriangles]; simpa using I.triangles.restore (ho _) (0, 0, 0)
  · rw [I.nVertices, ← Wg.opposite]; simpa using I.opposite.restore (ho _) 0
  · exact I.savedBreak

theorem wf_of_contents {core : V → C} {g r : Geometry V X} (W : WF g) (h : contents core r = contents core g) : WF r := by
  have h1 : r.vertices.length = g.vertices.length := by
    have := congrArg (fun c => c.vertices.length) h; simpa [contents] using this
  have h2 : r.triangles = g.triangles := congrArg Contents.triangles h
  have h3 : r.ids = g.ids := congrArg Contents.ids h
  have h4 : r.offsets = g.offsets := congrArg Contents.offsets h
  have h5 : r.opposite = g.opposite := congrArg Contents.opposite h
  have h6 : r.left = g.left := congrArg Contents.left h
  have h7 : r.right = g.right := congrArg Contents.right h
  have h8 : r.lastBreak = g.lastBreak := congrArg Contents.lastBreak h
  constructor
  · rw [h3, h1]; exact W.ids
  · rw [h4, h1]; exact W.offsets
  · rw [h5, h1]; exact W.opposite
  · rw [h8, h1]; exact W.vertexCount
  · rw [h8, h2]; exact W.triangleCount
  · rw [h8, h6]; exact W.left
  · rw [h8, h7]; exact W.right

/-- Any state in the life of a geometry. -/
def Reach (s : Geometry V X) : Prop := ∃ g, WF g ∧ Good (fun _ : V => ()) g s

theorem reach_reset (env : Env V X) (sv : Save V X) : Reach (Geometry.reset env sv) :=
  ⟨_, wf_reset env sv, wf_reset env sv, nofun⟩

theorem reach_call {env : Env V X} {order : {α : Type} → List α → List α} (ho : IsOrder order) {s s' : Geometry V X} (R : Reach s)
    {c : Call V X} (h : call env order s c = some s') : Reach s' := by
  obtain ⟨g, Wg, G⟩ := R
  cases c with
  | op o =>
    refine ⟨g, Wg, good_step Wg G ?_ h⟩
    cases o <;> simp [Keeps]
  | save => injection h with h; subst h; exact ⟨s, G.1, wf_save G.1, fun _ => inv_save _ G.1⟩
  | revert =>
    have h : s.revert env order = some s' := h
    by_cases ha : s.save.active = true
    · obtain ⟨r, hr, hc, hi, -⟩ := revert_ok (env := env) ho Wg (G.2 ha) ha
      rw [hr] at h; injection h with h; subst h
      exact ⟨g, Wg, wf_of_contents Wg hc, fun h => by rw [hi] at h; cases h⟩
    · unfold Geometry.revert at h
      rw [if_neg ha] at h; injection h with h; subst h
      exact ⟨g, Wg, G⟩

theorem reach_calls {env : Env V X} {order : {α : Type} → List α → List α} (ho : IsOrder order) (cs : List (Call V X)) :
    ∀ {s s' : Geometry V X}, Reach s → calls env order s cs = some s' → Reach s' := by
  induction cs with
  | nil => intro s s' R h; injection h with h; subst h; exact R
  | cons c cs ih =>
    intro s s' R h
    obtain ⟨s1, h1, h⟩ := bind_some h
    exact ih (reach_call ho R h1) h

/-! ## Changes depend on the contents only -/

/-- Same contents. -/
structure Same (core : V → C) (s t : Geometry V X) : Prop where
  vertices : s.vertices.map core = t.vertices.map core
  triangles : s.triangles = t.triangles
  ids : s.ids = t.ids
  offsets : s.offsets = t.offsets
  opposite : s.opposite = t.opposite
  left : s.left = t.left
  right : s.right = t.right
  lastBreak : s.lastBreak = t.lastBreak

theorem same_iff {core : V → C} {s t : Geometry V X} : Same core s t ↔ contents core s = contents core t := by
  constructor
  · intro h
    unfold contents
    rw [h.1, h.2, h.3, h.4, h.5, h.6, h.7, h.8]
  · intro h
    exact ⟨congrArg Contents.vertices h, congrArg Contents.triangles h, congrArg Contents.ids h, congrArg Contents.offsets h,
      congrArg Contents.opposite h, congrArg Contents.left h, congrArg Contents.right h, congrArg Contents.lastBreak h⟩

theorem Same.length {core : V → C} {s t : Geometry V X} (h : Same core s t) : s.vertices.length = t.vertices.length := by
  simpa using congrArg List.length h.vertices

theorem Same.get {core : V → C} {s t : Geometry V X} (h : Same core s t) {i : Nat} {v : V} (hv : s.vertices[i]? = some v) :
    ∃ w, t.vertices[i]? = some w ∧ core v = core w := by
  have e := congrArg (fun l => l[i]?) h.vertices
  simp only [List.getElem?_map, hv, Option.map_some] at e
  cases ht : t.vertices[i]? with
  | none => rw [ht] at e; cases e
  | some w => rw [ht] at e; exact ⟨w, rfl, by simpa using e⟩

theorem Same.side {core : V → C} {s t : Geometry V X} (h : Same core s t) (k : SideId) : s.side k = t.side k := by
  cases k
  · exact h.left
  · exact h.right

theorem setVertex_effect {s s' : Geometry V X} {i : Nat} {v : V} {u : Bool} (h : s.setVertex i v u = some s') :
    ∃ sv, sv.active = s.save.active ∧ s' = { s with vertices := s.vertices.set i v, save := sv } := by
  obtain ⟨old, _, h⟩ := bind_some h
  injection h with h
  split at h
  · subst h; exact ⟨{ s.save with savedVertices := emplace s.save.savedVertices i old }, rfl, rfl⟩
  · subst h; exact ⟨s.save, rfl, rfl⟩

theorem setVertex_exists {s : Geometry V X} {i : Nat} {w : V} (hw : s.vertices[i]? = some w) (v : V) (u : Bool) :
    ∃ s', s.setVertex i v u = some s' := by
  unfold Geometry.setVertex
  rw [hw]
  exact ⟨_, rfl⟩

theorem same_setVertex {core : V → C} {s t s' : Geometry V X} (R : Same core s t) {i : Nat} {v w : V} (hvw : core v = core w)
    {u u' : Bool} (h : s.setVertex i v u = some s') :
    ∃ t', t.setVertex i w u' = some t' ∧ Same core s' t' ∧ t'.save.active = t.save.active := by
  obtain ⟨old, ho, -⟩ := bind_some h
  obtain ⟨w', hw', -⟩ := R.get ho
  obtain ⟨t', ht⟩ := setVertex_exists hw' w u'
  obtain ⟨sv, -, rfl⟩ := setVertex_effect h
  obtain ⟨tv, ha, rfl⟩ := setVertex_effect ht
  refine ⟨_, ht, ⟨?_, R.2, R.3, R.4, R.5, R.6, R.7, R.8⟩, ha⟩
  show (s.vertices.set i v).map core = (t.vertices.set i w).map core
  rw [List.map_set, List.map_set, R.vertices, hvw]

theorem same_setTriangle {core : V → C} {s t s' : Geometry V X} (R : Same core s t) {i : Nat} {a : Tri} {u u' : Bool}
    (h : s.setTriangle i a u = some s') :
    ∃ t', t.setTriangle i a u' = some t' ∧ Same core s' t' ∧ t'.save.active = t.save.active := by
  obtain ⟨old, ho, h⟩ := bind_some h
  injection h with h
  unfold Geometry.setTriangle
  rw [← R.triangles, ho]
  refine ⟨_, rfl, ?_, ?_⟩
  · split at h <;> subst h <;> split <;>
      exact ⟨R.1, by simp only [R.triangles], R.3, R.4, R.5, R.6, R.7, R.8⟩
  · split <;> rfl

theorem same_setOpposite {core : V → C} {s t s' : Geometry V X} (R : Same core s t) {i o : Nat} {u u' : Bool}
    (h : s.setOpposite i o u = some s') :
    ∃ t', t.setOpposite i o u' = some t' ∧ Same core s' t' ∧ t'.save.active = t.save.active := by
  obtain ⟨old, ho, h⟩ := bind_some h
  unfold Geometry.setOpposite
  rw [← R.opposite, ho]
  dsimp only [Option.bind_eq_bind, Option.bind_some]
  split at h
  · rename_i e
    rw [if_pos e]
    injection h with h; subst h
    exact ⟨t, rfl, R, rfl⟩
  · rename_i e
    rw [if_neg e]
    injection h with h
    refine ⟨_, rfl, ?_, ?_⟩
    · split at h <;> subst h <;> split <;>
        exact ⟨R.1, R.2, R.3, R.4, by simp only [R.opposite], R.6, R.7, R.8⟩
    · split <;> rfl

theorem same_setSide {core : V → C} {s t : Geometry V X} (R : Same core s t) (k : SideId) (sd : Side V X) :
    Same core (s.setSide k sd) (t.setSide k sd) := by
  cases k
  · exact ⟨R.1, R.2, R.3, R.4, R.5, rfl, R.7, R.8⟩
  · exact ⟨R.1, R.2, R.3, R.4, R.5, R.6, rfl, R.8⟩

theorem setSide_save (s : Geometry V X) (k : SideId) (sd : Side V X) : (s.setSide k sd).save = s.save := by cases k <;> rfl

theorem same_appendVertexToMesh {core : V → C} {s t : Geometry V X} (R : Same core s t) (k : SideId) (v : V) :
    Same core (s.appendVertexToMesh k v) (t.appendVertexToMesh k v) := by
  unfold Geometry.appendVertexToMesh
  dsimp only
  rw [R.side k, R.side (Geometry.other k), R.length]
  have R' := same_setSide R k { t.side k with indices := (t.side k).indices ++ [t.vertices.length] }
  exact ⟨by simp only [List.map_append]; rw [R'.1], R'.2, by simp only [R'.3], by simp only [R'.4], by simp only [R'.5], R'.6, R'.7, R'.8⟩

theorem appendVertexToMesh_save (s : Geometry V X) (k : SideId) (v : V) : (s.appendVertexToMesh k v).save = s.save :=
  setSide_save s k _

theorem same_appendVertexToSide {core : V → C} {env : Env V X} {s t s' : Geometry V X} (R : Same core s t) {k : SideId} {v : V}
    (h : s.appendVertexToSide env k v = some s') :
    ∃ t', t.appendVertexToSide env k v = some t' ∧ Same core s' t' ∧ t'.save.active = t.save.active := by
  unfold Geometry.appendVertexToSide at h ⊢
  dsimp only at h ⊢
  rw [R.side k] at h
  split at h
  · rename_i e
    rw [if_pos e]
    obtain ⟨next, hn, h⟩ := bind_some h
    injection h with h; subst h
    rw [hn]
    refine ⟨_, rfl, same_appendVertexToMesh (same_setSide R k _) k _, ?_⟩
    rw [appendVertexToMesh_save, setSide_save]
  · rename_i e
    rw [if_neg e]
    injection h with h; subst h
    exact ⟨_, rfl, same_setSide R k _, by rw [setSide_save]⟩

theorem same_unzipLoop {core : V → C} (f : Nat → Tri → Tri) (k i : Nat) : ∀ {s t s' : Geometry V X}, Same core s t →
    Geometry.unzipLoop f k i s = some s' →
    ∃ t', Geometry.unzipLoop f k i t = some t' ∧ Same core s' t' ∧ t'.save.active = t.save.active := by
  induction i with
  | zero => intro s t s' R h; injection h with h; subst h; exact ⟨t, rfl, R, rfl⟩
  | succ i ih =>
    intro s t s' R h
    unfold Geometry.unzipLoop at h ⊢
    split at h
    · rename_i hk
      rw [if_pos hk]
      obtain ⟨a, ha, h⟩ := bind_some h
      dsimp only at h
      rw [unzipStep ha] at h
      obtain ⟨s1, h1, h⟩ := bind_some h
      obtain ⟨t1, ht1, R1, e1⟩ := same_setTriangle (u' := true) R h1
      obtain ⟨t', ht', R', e'⟩ := ih R1 h
      have ha' : t.triangles[i]? = some a := by rw [← R.triangles]; exact ha
      refine ⟨t', ?_, R', e'.trans e1⟩
      rw [ha']
      dsimp only [Option.bind_eq_bind, Option.bind_some]
      rw [unzipStep ha', ht1]
      exact ht'
    · rename_i hk
      rw [if_neg hk]
      injection h with h; subst h
      exact ⟨t, rfl, R, rfl⟩

theorem same_unzip {core : V → C} {s t s' : Geometry V X} (R : Same core s t) {k : Nat} {f : Nat → Tri → Tri} {a : Tri}
    (h : s.unzip k f a = some s') : ∃ t', t.unzip k f a = some t' ∧ Same core s' t' ∧ t'.save.active = t.save.active := by
  obtain ⟨s1, h1, h⟩ := bind_some h
  rw [R.triangles] at h1
  obtain ⟨t1, ht1, R1, e1⟩ := same_unzipLoop f k _ R h1
  unfold Geometry.unzip
  rw [ht1]
  dsimp only [Option.bind_eq_bind, Option.bind_some]
  split at h
  · rename_i hk
    injection h with h; subst h
    rw [if_pos (by rw [← R1.triangles]; exact hk)]
    exact ⟨_, rfl, ⟨R1.1, by simp only [R1.triangles], R1.3, R1.4, R1.5, R1.6, R1.7, R1.8⟩, e1⟩
  · cases h

theorem same_labelLast {core : V → C} {env : Env V X} (he : Respects core env) {s t s' : Geometry V X} (R : Same core s t)
    {sd : Side V X} (h : s.labelLast env sd = some s') :
    ∃ t', t.labelLast env sd = some t' ∧ Same core s' t' ∧ t'.save.active = t.save.active := by
  unfold Geometry.labelLast at h ⊢
  split at h
  · rename_i e
    rw [if_pos e]
    injection h with h; subst h
    exact ⟨t, rfl, R, rfl⟩
  · rename_i e
    rw [if_neg e]
    obtain ⟨i, hi, h⟩ := bind_some h
    obtain ⟨v, hv, h⟩ := bind_some h
    obtain ⟨w, hw, hvw⟩ := R.get hv
    rw [hi]
    dsimp only [Option.bind_eq_bind, Option.bind_some]
    rw [hw]
    exact same_setVertex R (he v w hvw) h

theorem same_addBreak {core : V → C} {env : Env V X} (he : Respects core env) {s t s' : Geometry V X} (R : Same core s t)
    (h : s.addBreak env = some s') :
    ∃ t', t.addBreak env = some t' ∧ Same core s' t' ∧ t'.save.active = t.save.active := by
  obtain ⟨s1, h1, h⟩ := bind_some h
  have A : ∃ t1, t.labelBoth env = some t1 ∧ Same core s1 t1 ∧ t1.save.active = t.save.active := by
    unfold Geometry.labelBoth at h1 ⊢
    rw [R.left, R.right] at h1
    split at h1
    · rename_i e
      rw [if_pos e]
      obtain ⟨s2, h2, h1⟩ := bind_some h1
      obtain ⟨t2, ht2, R2, e2⟩ := same_labelLast he R h2
      rw [R2.right] at h1
      obtain ⟨t1, ht1, R1, e1⟩ := same_labelLast he R2 h1
      refine ⟨t1, ?_, R1, e1.trans e2⟩
      rw [ht2]; exact ht1
    · rename_i e
      rw [if_neg e]
      injection h1 with h1; subst h1
      exact ⟨t, rfl, R, rfl⟩
  obtain ⟨t1, ht1, R1, e1⟩ := A
  injection h with h; subst h
  unfold Geometry.addBreak
  rw [ht1]
  refine ⟨_, rfl, ⟨R1.1, R1.2, R1.3, R1.4, R1.5, ?_, ?_, ?_⟩, e1⟩
  · simp only [R1.left, R1.right, R1.triangles]
  · simp only [R1.left, R1.right, R1.triangles]
  · simp only [R1.left, R1.right, R1.triangles, R1.lastBreak, R1.length]

theorem capture_same {core : V → C} {s s' : Geometry V X} (h : s.captureIfNeeded = some s') : Same core s' s := by
  unfold Geometry.captureIfNeeded at h
  split at h
  · unfold Geometry.capture at h
    dsimp only at h
    split at h
    · obtain ⟨_, _, h⟩ := bind_some h
      obtain ⟨_, _, h⟩ := bind_some h
      obtain ⟨_, _, h⟩ := bind_some h
      obtain ⟨_, _, h⟩ := bind_some h
      obtain ⟨_, _, h⟩ := bind_some h
      obtain ⟨_, _, h⟩ := bind_some h
      obtain ⟨_, _, h⟩ := bind_some h
      injection h with h; subst h
      exact ⟨rfl, rfl, rfl, rfl, rfl, rfl, rfl, rfl⟩
    · cases h
  · injection h with h; subst h; exact ⟨rfl, rfl, rfl, rfl, rfl, rfl, rfl, rfl⟩

theorem map_resize {α β : Type} (f : α → β) (l : List α) (n : Nat) (d : α) : (resize l n d).map f = resize (l.map f) n (f d) := by
  simp [resize, List.map_take]

theorem same_clear {core : V → C} {env : Env V X} {s t s' : Geometry V X} (R : Same core s t) (ht : t.save.active = false)
    (h : s.clearSinceBreak env = some s') :
    ∃ t', t.clearSinceBreak env = some t' ∧ Same core s' t' ∧ t'.save.active = t.save.active := by
  unfold Geometry.clearSinceBreak at h ⊢
  rw [R.length, R.lastBreak] at h
  split at h
  · rename_i e
    rw [if_pos e]
    injection h with h; subst h
    exact ⟨t, rfl, R, rfl⟩
  · rename_i e
    rw [if_neg e]
    obtain ⟨s1, h1, h⟩ := bind_some h
    injection h with h; subst h
    have S1 := capture_same (core := core) h1
    have e : t.captureIfNeeded = some t := by unfold Geometry.captureIfNeeded; rw [if_neg]; rw [ht]; rintro ⟨h, _⟩; cases h
    rw [e]
    refine ⟨_, rfl, ?_, rfl⟩
    have R1 : Same core s1 t := same_iff.2 ((same_iff.1 S1).trans (same_iff.1 R))
    constructor <;> simp only [Geometry.truncateToBreak, R1.2, R1.3, R1.4, R1.5, R1.6, R1.7, R1.8, map_resize, R1.1]

theorem same_updateVertices {core : V → C} (us : List (Nat × (V → V))) : ∀ {s t s' : Geometry V X}, Same core s t →
    (∀ u ∈ us, ∀ v, core (u.2 v) = core v) → s.updateVertices us = some s' →
    ∃ t', t.updateVertices us = some t' ∧ Same core s' t' ∧ t'.save.active = t.save.active := by
  induction us with
  | nil => intro s t s' R _ h; injection h with h; subst h; exact ⟨t, rfl, R, rfl⟩
  | cons u us ih =>
    intro s t s' R hu h
    obtain ⟨i, f⟩ := u
    obtain ⟨v, hv, h⟩ := bind_some h
    obtain ⟨w, hw, hvw⟩ := R.get hv
    have R' : Same core { s with vertices := s.vertices.set i (f v) } { t with vertices := t.vertices.set i (f w) } := by
      refine ⟨?_, R.2, R.3, R.4, R.5, R.6, R.7, R.8⟩
      show (s.vertices.set i (f v)).map core = (t.vertices.set i (f w)).map core
      have hf := hu (i, f) List.mem_cons_self
      rw [List.map_set, List.map_set, R.vertices, hf v, hf w, hvw]
    obtain ⟨t', ht', R2, e⟩ := ih R' (fun u hm => hu u (List.mem_cons_of_mem _ hm)) h
    refine ⟨t', ?_, R2, e⟩
    unfold Geometry.updateVertices
    rw [hw]; exact ht'

theorem same_step {core : V → C} {env : Env V X} (he : Respects core env) {s t s' : Geometry V X} (R : Same core s t)
    (ht : t.save.active = false) {op : Op V X} (hk : Keeps core op) (h : s.step env op = some s') :
    ∃ t', t.step env op = some t' ∧ Same core s' t' ∧ t'.save.active = t.save.active := by
  cases op with
  | bufferVertex k v => exact same_appendVertexToSide R h
  | appendVertex k v =>
    injection h with h; subst h
    exact ⟨_, rfl, same_appendVertexToMesh R k v, by rw [appendVertexToMesh_save]⟩
  | setVertex i v => exact same_setVertex R rfl h
  | appendTriangle a =>
    injection h with h; subst h
    exact ⟨_, rfl, ⟨R.1, by simp only [R.2], R.3, R.4, R.5, R.6, R.7, R.8⟩, rfl⟩
  | setTriangle i a => exact same_setTriangle R h
  | unzip k f a => exact same_unzip R h
  | setOpposite i o => exact same_setOpposite R h
  | addDiscontinuity k r =>
    injection h with h; subst h
    refine ⟨_, rfl, ?_, by rw [setSide_save]⟩
    rw [R.side k]; exact same_setSide R k _
  | setState k sd =>
    injection h with h; subst h
    refine ⟨_, rfl, ?_, by rw [setSide_save]⟩
    rw [R.side k]; exact same_setSide R k _
  | addBreak => exact same_addBreak he R h
  | clear => exact same_clear R ht h
  | derivatives us => exact same_updateVertices us R hk h
  | resetTracking =>
    injection h with h; subst h
    exact ⟨_, rfl, ⟨R.1, R.2, R.3, R.4, R.5, R.6, R.7, R.8⟩, rfl⟩

theorem same_runBy {core : V → C} {env : Env V X} (he : Respects core env) (ps : List (Strategy V X C)) : ∀ {s t s' : Geometry V X},
    Same core s t → t.save.active = false → (∀ p ∈ ps, ∀ c, Keeps core (p c)) → runBy env core s ps = some s' →
    ∃ t', runBy env core t ps = some t' ∧ Same core s' t' ∧ t'.save.active = false := by
  induction ps with
  | nil => intro s t s' R ht _ h; injection h with h; subst h; exact ⟨t, rfl, R, ht⟩
  | cons p ps ih =>
    intro s t s' R ht hk h
    obtain ⟨s1, h1, h⟩ := bind_some h
    rw [same_iff.1 R] at h1
    obtain ⟨t1, ht1, R1, e1⟩ := same_step he R ht (hk p List.mem_cons_self _) h1
    obtain ⟨t', ht', R', e'⟩ := ih R1 (e1.trans ht) (fun q hq => hk q (List.mem_cons_of_mem _ hq)) h
    refine ⟨t', ?_, R', e'⟩
    unfold runBy
    rw [ht1]; exact ht'

theorem setVertex_active {s s' : Geometry V X} {i : Nat} {v : V} {u : Bool} (h : s.setVertex i v u = some s') :
    s'.save.active = s.save.active := by
  obtain ⟨sv, e, rfl⟩ := setVertex_effect h; exact e

theorem labelLast_active {env : Env V X} {s s' : Geometry V X} {sd : Side V X} (h : s.labelLast env sd = some s') :
    s'.save.active = s.save.active := by
  unfold Geometry.labelLast at h
  split at h
  · injection h with h; subst h; rfl
  · obtain ⟨i, _, h⟩ := bind_some h
    obtain ⟨v, _, h⟩ := bind_some h
    exact setVertex_active h

theorem unzipLoop_active (f : Nat → Tri → Tri) (k i : Nat) : ∀ {s s' : Geometry V X}, Geometry.unzipLoop f k i s = some s' →
    s'.save.active = s.save.active := by
  induction i with
  | zero => intro s s' h; injection h with h; subst h; rfl
  | succ i ih =>
    intro s s' h
    unfold Geometry.unzipLoop at h
    split at h
    · obtain ⟨a, ha, h⟩ := bind_some h
      dsimp only at h
      rw [unzipStep ha] at h
      obtain ⟨s1, h1, h⟩ := bind_some h
      exact (ih h).trans (setTriangle_facts h1).2.1
    · injection h with h; subst h; rfl

theorem updateVertices_active (us : List (Nat × (V → V))) : ∀ {s s' : Geometry V X}, s.updateVertices us = some s' →
    s'.save.active = s.save.active := by
  induction us with
  | nil => intro s s' h; injection h with h; subst h; rfl
  | cons u us ih =>
    intro s s' h
    obtain ⟨i, f⟩ := u
    obtain ⟨v, _, h⟩ := bind_some h
    have e := ih h
    exact e

theorem capture_active {s s' : Geometry V X} (h : s.captureIfNeeded = some s') : s'.save.active = s.save.active := by
  unfold Geometry.captureIfNeeded at h
  split at h
  · unfold Geometry.capture at h
    dsimp only at h
    split at h
    · obtain ⟨_, _, h⟩ := bind_some h
      obtain ⟨_, _, h⟩ := bind_some h
      obtain ⟨_, _, h⟩ := bind_some h
      obtain ⟨_, _, h⟩ := bind_some h
      obtain ⟨_, _, h⟩ := bind_some h
      obtain ⟨_, _, h⟩ := bind_some h
      obtain ⟨_, _, h⟩ := bind_some h
      injection h with h; subst h; rfl
    · cases h
  · injection h with h; subst h; rfl

theorem step_active {env : Env V X} {s s' : Geometry V X} {op : Op V X} (h : s.step env op = some s') :
    s'.save.active = s.save.active := by
  cases op with
  | bufferVertex k v =>
    have h : s.appendVertexToSide env k v = some s' := h
    unfold Geometry.appendVertexToSide at h
    dsimp only at h
    split at h
    · obtain ⟨_, _, h⟩ := bind_some h
      injection h with h; subst h
      rw [appendVertexToMesh_save, setSide_save]
    · injection h with h; subst h; rw [setSide_save]
  | appendVertex k v => injection h with h; subst h; rw [appendVertexToMesh_save]
  | setVertex i v => exact setVertex_active h
  | appendTriangle a => injection h with h; subst h; rfl
  | setTriangle i a => exact (setTriangle_facts h).2.1
  | unzip k f a =>
    obtain ⟨s1, h1, h⟩ := bind_some h
    split at h
    · injection h with h; subst h; have e := unzipLoop_active f k _ h1; exact e
    · cases h
  | setOpposite i o =>
    obtain ⟨_, _, h⟩ := bind_some h
    split at h
    · injection h with h; subst h; rfl
    · injection h with h; subst h; split <;> rfl
  | addDiscontinuity k r => injection h with h; subst h; rw [setSide_save]
  | setState k sd => injection h with h; subst h; rw [setSide_save]
  | addBreak =>
    obtain ⟨s1, h1, h⟩ := bind_some h
    injection h with h; subst h
    show s1.save.active = _
    unfold Geometry.labelBoth at h1
    split at h1
    · obtain ⟨s2, h2, h1⟩ := bind_some h1
      exact (labelLast_active h1).trans (labelLast_active h2)
    · injection h1 with h1; subst h1; rfl
  | clear =>
    have h : s.clearSinceBreak env = some s' := h
    unfold Geometry.clearSinceBreak at h
    split at h
    · injection h with h; subst h; rfl
    · obtain ⟨s1, h1, h⟩ := bind_some h
      injection h with h; subst h
      have e := capture_active h1; exact e
  | derivatives us => exact updateVertices_active us h
  | resetTracking => injection h with h; subst h; rfl

theorem good_runBy {core : V → C} {env : Env V X} {g : Geometry V X} (Wg : WF g) (ps : List (Strategy V X C)) :
    ∀ {s s' : Geometry V X}, Good core g s → (∀ p ∈ ps, ∀ c, Keeps core (p c)) → runBy env core s ps = some s' →
    Good core g s' ∧ s'.save.active = s.save.active := by
  induction ps with
  | nil => intro s s' G _ h; injection h with h; subst h; exact ⟨G, rfl⟩
  | cons p ps ih =>
    intro s s' G hk h
    obtain ⟨s1, h1, h⟩ := bind_some h
    obtain ⟨G', e⟩ := ih (good_step Wg G (hk p List.mem_cons_self _) h1) (fun q hq => hk q (List.mem_cons_of_mem _ hq)) h
    exact ⟨G', e.trans (step_active h1)⟩

theorem run_active {env : Env V X} (ops : List (Op V X)) : ∀ {s s' : Geometry V X}, s.run env ops = some s' →
    s'.save.active = s.save.active := by
  induction ops with
  | nil => intro s s' h; injection h with h; subst h; rfl
  | cons p ps ih =>
    intro s s' h
    obtain ⟨s1, h1, h⟩ := bind_some h
    exact (ih h).trans (step_active h1)

/-- `s` is a stroke with predictions, `t` is one that never had any. -/
def Ahead (core : V → C) (s t : Geometry V X) : Prop :=
  t.save.active = false ∧ ((s.save.active = true ∧ ∃ g, WF g ∧ Good core g s ∧ Same core g t) ∨
    (s.save.active = false ∧ WF s ∧ Same core s t))

theorem Ahead.revert {core : V → C} {env : Env V X} {order : {α : Type} → List α → List α} (ho : IsOrder order)
    {s t : Geometry V X} (A : Ahead core s t) :
    ∃ r, s.revert env order = some r ∧ WF r ∧ r.save.active = false ∧ Same core r t := by
  rcases A.2 with ⟨ha, g, Wg, G, S⟩ | ⟨ha, W, S⟩
  · obtain ⟨r, hr, hc, hi, -⟩ := revert_ok (env := env) ho Wg (G.2 ha) ha
    exact ⟨r, hr, wf_of_contents Wg hc, hi, same_iff.2 (hc.trans (same_iff.1 S))⟩
  · refine ⟨s, ?_, W, ha, S⟩
    unfold Geometry.revert
    rw [if_neg (by rw [ha]; nofun)]

theorem extend_ahead {core : V → C} {env : Env V X} (he : Respects core env) {order : {α : Type} → List α → List α}
    (ho : IsOrder order) {s t s' : Geometry V X} {real predicted : List (Strategy V X C)} (A : Ahead core s t)
    (h1 : ∀ p ∈ real, ∀ c, Keeps core (p c)) (h2 : ∀ p ∈ predicted, ∀ c, Keeps core (p c))
    (h : extend env order core s real predicted = some s') :
    ∃ t' u, runBy env core t real = some t' ∧ Ahead core s' t' ∧ runBy env core (trimmed t') predicted = some u ∧
      Same core s' u := by
  obtain ⟨r, hr, W, ha, S⟩ := A.revert (env := env) ho
  obtain ⟨r', hr', h⟩ := bind_some h
  rw [hr] at hr'; injection hr' with hr'; subst hr'
  obtain ⟨r1, hr1, h⟩ := bind_some h
  obtain ⟨t', ht', S', e'⟩ := same_runBy he real S A.1 h1 hr1
  obtain ⟨G1, e1⟩ := good_runBy (core := core) W real ⟨W, fun h => by rw [ha] at h; cases h⟩ h1 hr1
  have G2 : Good core r1 r1.setSavePoint := ⟨wf_save G1.1, fun _ => inv_save core G1.1⟩
  obtain ⟨G3, e3⟩ := good_runBy G1.1 predicted G2 h2 h
  have ST : Same core r1.setSavePoint (trimmed t') :=
    ⟨S'.1, S'.2, S'.3, S'.4, S'.5, congrArg Geometry.keepLast S'.6, congrArg Geometry.keepLast S'.7, S'.8⟩
  obtain ⟨u, hu, Su, -⟩ := same_runBy he predicted ST e' h2 h
  exact ⟨t', u, ht', ⟨e', Or.inl ⟨e3, r1, G1.1, G3, S'⟩⟩, hu, Su⟩

theorem runBy_append {core : V → C} {env : Env V X} (ps qs : List (Strategy V X C)) : ∀ {s : Geometry V X},
    runBy env core s (ps ++ qs) = (runBy env core s ps).bind fun s => runBy env core s qs := by
  induction ps with
  | nil => intro s; rfl
  | cons p ps ih =>
    intro s
    simp only [List.cons_append, runBy]
    cases s.step env (p (contents core s)) with
    | none => rfl
    | some s1 => exact ih

theorem extendAll_ahead {core : V → C} {env : Env V X} (he : Respects core env) {order : {α : Type} → List α → List α}
    (ho : IsOrder order) (rs : List (List (Strategy V X C) × List (Strategy V X C))) : ∀ {s t s' : Geometry V X}, Ahead core s t →
    (∀ r ∈ rs, (∀ p ∈ r.1, ∀ c, Keeps core (p c)) ∧ ∀ p ∈ r.2, ∀ c, Keeps core (p c)) →
    extendAll env order core s rs = some s' →
    ∃ t', runBy env core t (rs.flatMap (·.1)) = some t' ∧ Ahead core s' t' := by
  induction rs with
  | nil => intro s t s' A _ h; injection h with h; subst h; exact ⟨t, rfl, A⟩
  | cons r rs ih =>
    intro s t s' A hk h
    obtain ⟨real, predicted⟩ := r
    obtain ⟨s1, h1, h⟩ := bind_some h
    have hk1 := hk (real, predicted) List.mem_cons_self
    obtain ⟨t1, -, ht1, A1, -⟩ := extend_ahead he ho A hk1.1 hk1.2 h1
    obtain ⟨t', ht', A'⟩ := ih A1 (fun r hr => hk r (List.mem_cons_of_mem _ hr)) h
    refine ⟨t', ?_, A'⟩
    rw [List.flatMap_cons, runBy_append, ht1]; exact ht'

theorem ahead_reset (core : V → C) (env : Env V X) (sv : Save V X) : Ahead core (Geometry.reset env sv) (Geometry.reset env sv) :=
  ⟨rfl, Or.inr ⟨rfl, wf_reset env sv, ⟨rfl, rfl, rfl, rfl, rfl, rfl, rfl, rfl⟩⟩⟩

theorem extendAll_append {core : V → C} {env : Env V X} {order : {α : Type} → List α → List α}
    (as bs : List (List (Strategy V X C) × List (Strategy V X C))) : ∀ {s : Geometry V X},
    extendAll env order core s (as ++ bs) = (extendAll env order core s as).bind fun s => extendAll env order core s bs := by
  induction as with
  | nil => intro s; rfl
  | cons a as ih =>
    intro s
    obtain ⟨real, predicted⟩ := a
    simp only [List.cons_append, extendAll]
    cases extend env order core s real predicted with
    | none => rfl
    | some s1 => exact ih

theorem emplaceRange_some {α : Type} (l : List α) (n : Nat) : ∀ (m : List (Nat × α)) (i : Nat), i + n ≤ l.length →
    ∃ m', Geometry.emplaceRange m l i n = some m' := by
  induction n with
  | zero => intro m i _; exact ⟨m, rfl⟩
  | succ n ih =>
    intro m i h
    have hi : i < l.length := by omega
    simp only [Geometry.emplaceRange]
    rw [List.getElem?_eq_getElem hi]
    exact ih _ _ (by omega)

theorem captureSide_some {s : Side V X} {b : BreakSide} {p : SaveSide V X} (h1 : b.indexCount ≤ p.nIndices)
    (h2 : b.discontinuityCount ≤ p.nDiscontinuities) (h3 : p.nIndices ≤ s.indices.length)
    (h4 : p.nDiscontinuities ≤ s.discontinuities.length) : ∃ p', Geometry.captureSide s b p = some p' := by
  unfold Geometry.captureSide
  rw [if_pos h1]
  simp only [slice, if_pos (And.intro h1 h3), if_pos (And.intro h2 h4)]
  exact ⟨_, rfl⟩

/-- Where clearing cannot fail: the save point was set after the last break, or triangles were added between them. -/
theorem clear_some {core : V → C} {env : Env V X} {g s : Geometry V X} (Wg : WF g) (G : Good core g s)
    (h : s.save.active = true → s.lastBreak = g.lastBreak ∨ s.save.nTriangles < s.lastBreak.triangleCount) :
    ∃ s', s.clearSinceBreak env = some s' := by
  unfold Geometry.clearSinceBreak
  split
  · exact ⟨s, rfl⟩
  · have : ∃ s1, s.captureIfNeeded = some s1 := by
      unfold Geometry.captureIfNeeded
      split
      · rename_i hc
        have I := G.2 hc.1
        rcases h hc.1 with hb | hb
        · have hca : s.save.containsAll = false := by simpa using hc.2.1
          obtain ⟨P, -⟩ := I.plain hca
          have W := G.1
          have L1 := I.ids.length_le; rw [P.ids] at L1
          have L2 := I.offsets.length_le; rw [P.offsets] at L2
          have L3 := I.left.indices.length_le; rw [P.leftIndices] at L3
          have L4 := I.left.discontinuities.length_le; rw [P.leftDiscontinuities] at L4
          have L5 := I.right.indices.length_le; rw [P.rightIndices] at L5
          have L6 := I.right.discontinuities.length_le; rw [P.rightDiscontinuities] at L6
          simp only [List.length_nil, Nat.sub_zero] at L1 L2 L3 L4 L5 L6
          have w1 := Wg.ids; have w2 := Wg.offsets; have w3 := Wg.opposite
          have v1 := W.ids; have v2 := W.offsets; have v3 := W.opposite
          have b1 := Wg.vertexCount; have b2 := Wg.triangleCount
          have c3 := W.triangleCount
          unfold Geometry.capture
          dsimp only
          rw [hb, I.nVertices, I.nTriangles, if_pos ⟨Wg.vertexCount, Wg.triangleCount⟩]
          have ht := I.long hca
          obtain ⟨a1, e1⟩ := emplaceRange_some s.triangles (g.triangles.length - g.lastBreak.triangleCount) s.save.savedTriangles
            g.lastBreak.triangleCount (by omega)
          obtain ⟨a2, e2⟩ := emplaceRange_some s.vertices (g.vertices.length - g.lastBreak.vertexCount) s.save.savedVertices
            g.lastBreak.vertexCount (by omega)
          obtain ⟨a3, e3⟩ := emplaceRange_some s.opposite (g.vertices.length - g.lastBreak.vertexCount) s.save.savedOpposite
            g.lastBreak.vertexCount (by omega)
          obtain ⟨p1, f1⟩ := captureSide_some (s := s.left) (b := g.lastBreak.left) (p := s.save.left)
            (by rw [I.left.nIndices]; exact Wg.left.1) (by rw [I.left.nDiscontinuities]; exact Wg.left.2)
            (by rw [I.left.nIndices]; exact L3) (by rw [I.left.nDiscontinuities]; exact L4)
          obtain ⟨p2, f2⟩ := captureSide_some (s := s.right) (b := g.lastBreak.right) (p := s.save.right)
            (by rw [I.right.nIndices]; exact Wg.right.1) (by rw [I.right.nDiscontinuities]; exact Wg.right.2)
            (by rw [I.right.nIndices]; exact L5) (by rw [I.right.nDiscontinuities]; exact L6)
          simp only [slice]
          rw [if_pos ⟨b1, by omega⟩, if_pos ⟨b1, by omega⟩, e1, e2, e3, f1, f2]
          exact ⟨_, rfl⟩
        · exact absurd hc.2.2 (by omega)
      · exact ⟨s, rfl⟩
    obtain ⟨s1, h1⟩ := this
    rw [h1]; exact ⟨_, rfl⟩

theorem setTriangle_lastBreak {s s' : Geometry V X} {i : Nat} {t : Tri} {u : Bool} (h : s.setTriangle i t u = some s') :
    s'.lastBreak = s.lastBreak := by
  obtain ⟨old, ho, h⟩ := bind_some h
  injection h with h; subst h; split <;> rfl

theorem unzipLoop_lastBreak (f : Nat → Tri → Tri) (k i : Nat) : ∀ {s s' : Geometry V X}, Geometry.unzipLoop f k i s = some s' →
    s'.lastBreak = s.lastBreak := by
  induction i with
  | zero => intro s s' h; injection h with h; subst h; rfl
  | succ i ih =>
    intro s s' h
    unfold Geometry.unzipLoop at h
    split at h
    · obtain ⟨a, ha, h⟩ := bind_some h
      dsimp only at h
      rw [unzipStep ha] at h
      obtain ⟨s1, h1, h⟩ := bind_some h
      exact (ih h).trans (setTriangle_lastBreak h1)
    · injection h with h; subst h; rfl

theorem updateVertices_lastBreak (us : List (Nat × (V → V))) : ∀ {s s' : Geometry V X}, s.updateVertices us = some s' →
    s'.lastBreak = s.lastBreak := by
  induction us with
  | nil => intro s s' h; injection h with h; subst h; rfl
  | cons u us ih =>
    intro s s' h
    obtain ⟨i, f⟩ := u
    obtain ⟨v, _, h⟩ := bind_some h
    have e := ih h
    exact e

theorem step_lastBreak {env : Env V X} {s s' : Geometry V X} {op : Op V X} (ho : NotBreak op) (h : s.step env op = some s') :
    s'.lastBreak = s.lastBreak := by
  cases op with
  | bufferVertex k v =>
    have h : s.appendVertexToSide env k v = some s' := h
    unfold Geometry.appendVertexToSide at h
    dsimp only at h
    split at h
    · obtain ⟨_, _, h⟩ := bind_some h
      injection h with h; subst h
      cases k <;> rfl
    · injection h with h; subst h; cases k <;> rfl
  | appendVertex k v => injection h with h; subst h; cases k <;> rfl
  | setVertex i v => obtain ⟨sv, -, rfl⟩ := setVertex_effect h; rfl
  | appendTriangle a => injection h with h; subst h; rfl
  | setTriangle i a => exact setTriangle_lastBreak h
  | unzip k f a =>
    obtain ⟨s1, h1, h⟩ := bind_some h
    split at h
    · injection h with h; subst h; have e := unzipLoop_lastBreak f k _ h1; exact e
    · cases h
  | setOpposite i o =>
    obtain ⟨_, _, h⟩ := bind_some h
    split at h
    · injection h with h; subst h; rfl
    · injection h with h; subst h; split <;> rfl
  | addDiscontinuity k r => injection h with h; subst h; cases k <;> rfl
  | setState k sd => injection h with h; subst h; cases k <;> rfl
  | addBreak => cases ho
  | clear =>
    have h : s.clearSinceBreak env = some s' := h
    unfold Geometry.clearSinceBreak at h
    split at h
    · injection h with h; subst h; rfl
    · obtain ⟨s1, h1, h⟩ := bind_some h
      injection h with h; subst h
      have e := (capture_same (core := fun _ : V => ()) h1).lastBreak; exact e
  | derivatives us => exact updateVertices_lastBreak us h
  | resetTracking => injection h with h; subst h; rfl

theorem run_lastBreak {env : Env V X} (ops : List (Op V X)) : ∀ {s s' : Geometry V X}, (∀ op ∈ ops, NotBreak op) →
    s.run env ops = some s' → s'.lastBreak = s.lastBreak := by
  induction ops with
  | nil => intro s s' _ h; injection h with h; subst h; rfl
  | cons p ps ih =>
    intro s s' hk h
    obtain ⟨s1, h1, h⟩ := bind_some h
    exact (ih (fun q hq => hk q (List.mem_cons_of_mem _ hq)) h).trans (step_lastBreak (hk p List.mem_cons_self) h1)

end Verif.StrokeGeom
