import Verif.Spec.StrokeUpdate
import Verif.Lemmas.StrokeGeometry

/-! # Lemmas for C55: offsets -/

set_option autoImplicit false

namespace Verif.StrokeGeom

open Verif.StrokeGeom.Spec

/-! ## Lists -/

section Lists

variable {α : Type}

/-- The first `k` elements are the same. -/
structure Kept (l0 l : List α) (k : Nat) : Prop where
  le0 : k ≤ l0.length
  le : k ≤ l.length
  eq : ∀ i, i < k → l[i]? = l0[i]?

theorem Kept.init (l : List α) : Kept l l l.length := ⟨Nat.le_refl _, Nat.le_refl _, fun _ _ => rfl⟩

theorem Kept.mono {l0 l : List α} {k k' : Nat} (K : Kept l0 l k) (h : k' ≤ k) : Kept l0 l k' :=
  ⟨Nat.le_trans h K.1, Nat.le_trans h K.2, fun i hi => K.3 i (Nat.lt_of_lt_of_le hi h)⟩

theorem Kept.append {l0 l : List α} {k : Nat} (K : Kept l0 l k) (m : List α) : Kept l0 (l ++ m) k :=
  ⟨K.1, by rw [List.length_append]; exact Nat.le_trans K.2 (Nat.le_add_right _ _), fun i hi => by
    rw [List.getElem?_append_left (Nat.lt_of_lt_of_le hi K.2)]; exact K.3 i hi⟩

theorem Kept.set {l0 l : List α} {k : Nat} (K : Kept l0 l k) (i : Nat) (a : α) : Kept l0 (l.set i a) (min k i) :=
  ⟨by have := K.1; omega, by have := K.2; simp; omega, fun j hj => by
    rw [List.getElem?_set_ne (by omega)]; exact K.3 j (by omega)⟩

theorem Kept.resize {l0 l : List α} {k : Nat} (K : Kept l0 l k) (n : Nat) (d : α) : Kept l0 (resize l n d) (min k n) :=
  ⟨by have := K.1; omega, by rw [resize_length]; omega, fun j hj => by
    rw [resize_get d (by omega) (by have := K.2; omega)]; exact K.3 j (by omega)⟩

theorem Kept.take {l0 l : List α} {k : Nat} (K : Kept l0 l k) : l.take k = l0.take k := by
  apply List.ext_getElem?
  intro i
  by_cases h : i < k
  · rw [List.getElem?_take_of_lt h, List.getElem?_take_of_lt h]; exact K.3 i h
  · rw [List.getElem?_eq_none (by simp; omega), List.getElem?_eq_none (by simp; omega)]

theorem Kept.trans {l0 l l' : List α} {k k' : Nat} (K : Kept l0 l k) (K' : Kept l l' k') : Kept l0 l' (min k k') :=
  ⟨by have := K.1; omega, by have := K'.2; omega, fun i hi => (K'.3 i (by omega)).trans (K.3 i (by omega))⟩

theorem Kept.insert {l0 l : List α} {k j : Nat} (K : Kept l0 l k) (a : α) (hj : j ≤ l.length) :
    Kept l0 (l.take j ++ a :: l.drop j) (min k j) :=
  ⟨by have := K.1; omega, by simp; have := K.2; omega, fun i hi => by
    rw [List.getElem?_append_left (by simp; omega), List.getElem?_take_of_lt (by omega)]; exact K.3 i (by omega)⟩

end Lists

variable {V X P : Type}

/-- Nothing before the recorded offsets has changed. -/
structure Off (o : Geometry V X) (t : Tracked V X P) : Prop where
  v : Kept o.vertices t.g.vertices t.firstVertex
  t : Kept o.triangles t.g.triangles t.firstTriangle

theorem note_g (t : Tracked V X P) (k : SideId) (i : Nat) : (t.note k i).g = t.g := by cases k <;> rfl
theorem note_v (t : Tracked V X P) (k : SideId) (i : Nat) : (t.note k i).firstVertex = t.firstVertex := by cases k <;> rfl
theorem note_t (t : Tracked V X P) (k : SideId) (i : Nat) : (t.note k i).firstTriangle = t.firstTriangle := by cases k <;> rfl
theorem note_removed (t : Tracked V X P) (k : SideId) (i : Nat) : (t.note k i).removed = t.removed := by cases k <;> rfl

theorem geomSetVertex {g g' : Geometry V X} {i : Nat} {v : V} {b : Bool} (h : g.setVertex i v b = some g') :
    g'.vertices = g.vertices.set i v ∧ g'.triangles = g.triangles ∧ g'.ids = g.ids ∧ g'.left = g.left ∧ g'.right = g.right ∧
      g'.lastBreak = g.lastBreak := by
  obtain ⟨old, -, h⟩ := bind_some h
  injection h with h
  subst h
  dsimp only
  split <;> simp

theorem geomSetTriangle {g g' : Geometry V X} {i : Nat} {v : Tri} {b : Bool} (h : g.setTriangle i v b = some g') :
    g'.triangles = g.triangles.set i v ∧ g'.vertices = g.vertices ∧ g'.ids = g.ids ∧ g'.left = g.left ∧ g'.right = g.right ∧
      g'.lastBreak = g.lastBreak := by
  obtain ⟨old, -, h⟩ := bind_some h
  injection h with h
  subst h
  dsimp only
  split <;> simp

theorem geomSetOpposite {g g' : Geometry V X} {i o : Nat} {b : Bool} (h : g.setOpposite i o b = some g') :
    g'.triangles = g.triangles ∧ g'.vertices = g.vertices ∧ g'.ids = g.ids ∧ g'.left = g.left ∧ g'.right = g.right ∧
      g'.lastBreak = g.lastBreak := by
  obtain ⟨old, -, h⟩ := bind_some h
  split at h
  · injection h with h; subst h; simp
  · injection h with h
    subst h
    dsimp only
    split <;> simp

theorem geomSetOpposites (m : List (Nat × Nat)) : ∀ {g g' : Geometry V X}, g.setOpposites m = some g' →
    g'.triangles = g.triangles ∧ g'.vertices = g.vertices ∧ g'.ids = g.ids ∧ g'.left = g.left ∧ g'.right = g.right ∧
      g'.lastBreak = g.lastBreak := by
  induction m with
  | nil => intro g g' h; injection h with h; subst h; simp
  | cons p m ih =>
    intro g g' h
    obtain ⟨i, o⟩ := p
    obtain ⟨g1, h1, h⟩ := bind_some h
    have a := geomSetOpposite h1
    have b := ih h
    exact ⟨b.1.trans a.1, b.2.1.trans a.2.1, b.2.2.1.trans a.2.2.1, b.2.2.2.1.trans a.2.2.2.1, b.2.2.2.2.1.trans a.2.2.2.2.1,
      b.2.2.2.2.2.trans a.2.2.2.2.2⟩

/-- What `SetVertex` does. -/
theorem setVertex_facts {pos : V → P} {t t' : Tracked V X P} {i : Nat} {v : V} {b e : Bool} (h : t.setVertex pos i v b e = some t') :
    ∃ old k g, t.g.vertices[i]? = some old ∧ t.g.ids[i]? = some k ∧ t.g.setVertex i v b = some g ∧
      t' = { (t.note k i) with g := g, removed := (if e then t.removed ++ [pos old] else t.removed), firstVertex := min t.firstVertex i } := by
  obtain ⟨old, h1, h⟩ := bind_some h
  obtain ⟨k, h2, h⟩ := bind_some h
  obtain ⟨g, h3, h⟩ := bind_some h
  injection h with h
  exact ⟨old, k, g, h1, h2, h3, by rw [← h]; simp only [note_v, note_removed]⟩

theorem off_setVertex {o : Geometry V X} {pos : V → P} {t t' : Tracked V X P} {i : Nat} {v : V} {b e : Bool} (O : Off o t)
    (h : t.setVertex pos i v b e = some t') : Off o t' := by
  obtain ⟨old, k, g, h1, h2, h3, rfl⟩ := setVertex_facts h
  have f := geomSetVertex h3
  exact ⟨by dsimp only; rw [f.1]; exact O.v.set i v, by dsimp only; rw [f.2.1, note_t]; exact O.t⟩

theorem off_setTriangle {o : Geometry V X} {t t' : Tracked V X P} {i : Nat} {tri : Tri} {b : Bool} (O : Off o t)
    (h : t.setTriangle i tri b = some t') : Off o t' := by
  obtain ⟨g, h3, h⟩ := bind_some h
  injection h with h; subst h
  have f := geomSetTriangle h3
  exact ⟨by dsimp only; rw [f.2.1]; exact O.v, by dsimp only; rw [f.1]; exact O.t.set i tri⟩

theorem off_setVertices {o : Geometry V X} {pos : V → P} {n : Nat} (m : List (Nat × V)) : ∀ {t t' : Tracked V X P}, Off o t →
    t.setVertices pos n m = some t' → Off o t' := by
  induction m with
  | nil => intro t t' O h; injection h with h; subst h; exact O
  | cons p m ih =>
    intro t t' O h
    obtain ⟨i, v⟩ := p
    obtain ⟨t1, h1, h⟩ := bind_some h
    exact ih (off_setVertex O h1) h

theorem off_setTriangles {o : Geometry V X} (m : List (Nat × Tri)) : ∀ {t t' : Tracked V X P}, Off o t →
    t.setTriangles m = some t' → Off o t' := by
  induction m with
  | nil => intro t t' O h; injection h with h; subst h; exact O
  | cons p m ih =>
    intro t t' O h
    obtain ⟨i, v⟩ := p
    obtain ⟨t1, h1, h⟩ := bind_some h
    exact ih (off_setTriangle O h1) h

theorem off_labelLast {o : Geometry V X} {pos : V → P} {env : Env V X} {t t' : Tracked V X P} {s : Side V X} (O : Off o t)
    (h : t.labelLast pos env s = some t') : Off o t' := by
  unfold Tracked.labelLast at h
  split at h
  · injection h with h; subst h; exact O
  · obtain ⟨i, -, h⟩ := bind_some h
    obtain ⟨v, -, h⟩ := bind_some h
    exact off_setVertex O h

theorem off_addBreak {o : Geometry V X} {pos : V → P} {env : Env V X} {t t' : Tracked V X P} (O : Off o t)
    (h : t.addBreak pos env = some t') : Off o t' := by
  obtain ⟨t1, h1, h⟩ := bind_some h
  have O1 : Off o t1 := by
    unfold Tracked.labelBoth at h1
    split at h1
    · obtain ⟨t2, h2, h1⟩ := bind_some h1
      exact off_labelLast (off_labelLast O h2) h1
    · injection h1 with h1; subst h1; exact O
  injection h with h; subst h
  exact ⟨O1.v, O1.t⟩

/-- Capturing only changes the save point. -/
theorem captureIfNeeded_facts {g g' : Geometry V X} (h : g.captureIfNeeded = some g') : g' = { g with save := g'.save } := by
  unfold Geometry.captureIfNeeded at h
  split at h
  · unfold Geometry.capture at h
    dsimp only at h
    split at h
    · obtain ⟨_, -, h⟩ := bind_some h
      obtain ⟨_, -, h⟩ := bind_some h
      obtain ⟨_, -, h⟩ := bind_some h
      obtain ⟨_, -, h⟩ := bind_some h
      obtain ⟨_, -, h⟩ := bind_some h
      obtain ⟨_, -, h⟩ := bind_some h
      obtain ⟨_, -, h⟩ := bind_some h
      injection h with h
      rw [← h]
    · cases h
  · injection h with h; rw [← h]

theorem off_clear {o : Geometry V X} {pos : V → P} {env : Env V X} {t t' : Tracked V X P} (O : Off o t)
    (h : t.clearSinceBreak pos env = some t') : Off o t' := by
  unfold Tracked.clearSinceBreak at h
  split at h
  · injection h with h; subst h; exact O
  · obtain ⟨g, h1, h⟩ := bind_some h
    obtain ⟨ps, -, h⟩ := bind_some h
    injection h with h; subst h
    have e := captureIfNeeded_facts h1
    have ev : g.vertices = t.g.vertices := by rw [e]
    have et : g.triangles = t.g.triangles := by rw [e]
    refine ⟨?_, ?_⟩
    · show Kept _ (resize g.vertices _ _) _; rw [ev]; exact O.v.resize _ _
    · show Kept _ (resize g.triangles _ _) _; rw [et]; exact O.t.resize _ _

theorem off_derivatives {o : Geometry V X} (us : List (Nat × (V → V))) : ∀ {t t' : Tracked V X P}, Off o t →
    t.updateVertices us = some t' → Off o t' := by
  induction us with
  | nil => intro t t' O h; injection h with h; subst h; exact O
  | cons p us ih =>
    intro t t' O h
    obtain ⟨i, f⟩ := p
    obtain ⟨v, -, h⟩ := bind_some h
    obtain ⟨k, -, h⟩ := bind_some h
    refine ih ?_ h
    exact ⟨by dsimp only; rw [note_g, note_v]; exact O.v.set i _, by dsimp only; rw [note_g, note_t]; exact O.t⟩

theorem unzipLoop_kept (f : Nat → Tri → Tri) (k : Nat) (i : Nat) : ∀ {g g' : Geometry V X},
    Geometry.unzipLoop f k i g = some g' → g'.vertices = g.vertices ∧ g'.triangles.length = g.triangles.length ∧
      ∀ j, j < k → g'.triangles[j]? = g.triangles[j]? := by
  induction i with
  | zero => intro g g' h; simp only [Geometry.unzipLoop] at h; injection h with h; subst h; simp
  | succ i ih =>
    intro g g' h
    simp only [Geometry.unzipLoop] at h
    split at h
    · obtain ⟨t, ht, h⟩ := bind_some h
      obtain ⟨g1, h1, h⟩ := bind_some h
      rw [unzipStep ht] at h1
      have a := geomSetTriangle h1
      have b := ih h
      refine ⟨b.1.trans a.2.1, by rw [b.2.1, a.1, List.length_set], fun j hj => ?_⟩
      rw [b.2.2 j hj, a.1, List.getElem?_set_ne (by omega)]
    · injection h with h; subst h; simp

theorem off_unzip {o : Geometry V X} {t : Tracked V X P} {g : Geometry V X} {k : Nat} {f : Nat → Tri → Tri} {tri : Tri} (O : Off o t)
    (h : t.g.unzip k f tri = some g) : Off o { t with g := g, firstTriangle := min t.firstTriangle k } := by
  obtain ⟨g1, h1, h⟩ := bind_some h
  have a := unzipLoop_kept f k _ h1
  split at h
  · rename_i hk
    injection h with h; subst h
    refine ⟨by dsimp only; rw [a.1]; exact O.v, ?_⟩
    dsimp only
    have K : Kept o.triangles g1.triangles (min t.firstTriangle k) :=
      ⟨by have := O.t.1; omega, by have := O.t.2; omega, fun j hj => (a.2.2 j (by omega)).trans (O.t.3 j (by omega))⟩
    have := K.insert tri hk
    rwa [Nat.min_eq_left (Nat.min_le_right _ _)] at this
  · cases h

theorem setSide_mesh (g : Geometry V X) (k : SideId) (s : Side V X) :
    (g.setSide k s).vertices = g.vertices ∧ (g.setSide k s).triangles = g.triangles := by
  cases k <;> exact ⟨rfl, rfl⟩

theorem off_mesh {o : Geometry V X} {t : Tracked V X P} {g : Geometry V X} (O : Off o t) (lv : List V) (lt : List Tri)
    (hv : g.vertices = t.g.vertices ++ lv) (ht : g.triangles = t.g.triangles ++ lt) : Off o { t with g := g } :=
  ⟨by dsimp only; rw [hv]; exact O.v.append _, by dsimp only; rw [ht]; exact O.t.append _⟩

theorem appendVertexToMesh_mesh (g : Geometry V X) (k : SideId) (v : V) :
    (g.appendVertexToMesh k v).vertices = g.vertices ++ [v] ∧ (g.appendVertexToMesh k v).triangles = g.triangles ∧
      (g.appendVertexToMesh k v).ids = g.ids ++ [k] ∧ (g.appendVertexToMesh k v).lastBreak = g.lastBreak := by
  cases k <;> exact ⟨rfl, rfl, rfl, rfl⟩

theorem appendVertexToSide_cases {env : Env V X} {g g' : Geometry V X} {k : SideId} {v : V}
    (h : g.appendVertexToSide env k v = some g') :
    ∃ st : SideState V X, st.adjacentFirst = (g.side k).state.adjacentFirst ∧
      (g' = g.setSide k { g.side k with state := st } ∨
       ∃ w, g' = (g.setSide k { g.side k with state := st }).appendVertexToMesh k w) := by
  unfold Geometry.appendVertexToSide at h
  dsimp only at h
  split at h
  · obtain ⟨next, -, h⟩ := bind_some h
    injection h with h; subst h
    exact ⟨{ (g.side k).state with buffer := (g.side k).state.buffer ++ [v], nextBuffered := (g.side k).state.nextBuffered + 1 }, rfl,
      Or.inr ⟨_, rfl⟩⟩
  · injection h with h; subst h
    exact ⟨{ (g.side k).state with buffer := (g.side k).state.buffer ++ [v] }, rfl, Or.inl rfl⟩

/-- The operations about which nothing is recorded. -/
def Silent : Op V X → Prop
  | .bufferVertex _ _ | .appendVertex _ _ | .appendTriangle _ | .setOpposite _ _ | .addDiscontinuity _ _ | .setState _ _ => True
  | _ => False

theorem step_silent {pos : V → P} {env : Env V X} {t t' : Tracked V X P} {op : Op V X}
    (h : t.step pos env op = some t') (hs : Silent op) : ∃ g, t.g.step env op = some g ∧ t' = { t with g := g } := by
  have e : t.step pos env op = (t.g.step env op).bind fun g => some { t with g := g } := by
    cases op <;> first | exact hs.elim | rfl
  rw [e] at h
  obtain ⟨g, h1, h⟩ := bind_some h
  injection h with h
  exact ⟨g, h1, h.symm⟩

theorem off_step {o : Geometry V X} {pos : V → P} {env : Env V X} {t t' : Tracked V X P} {op : Op V X} (hop : NotReset op) (O : Off o t)
    (h : t.step pos env op = some t') : Off o t' := by
  cases op with
  | bufferVertex k v =>
    obtain ⟨g, h1, rfl⟩ := step_silent h trivial
    obtain ⟨st, -, rfl | ⟨w, rfl⟩⟩ := appendVertexToSide_cases h1
    · exact off_mesh O [] [] (by rw [(setSide_mesh _ _ _).1, List.append_nil]) (by rw [(setSide_mesh _ _ _).2, List.append_nil])
    · exact off_mesh O [w] [] (by rw [(appendVertexToMesh_mesh _ _ _).1, (setSide_mesh _ _ _).1])
        (by rw [(appendVertexToMesh_mesh _ _ _).2.1, (setSide_mesh _ _ _).2, List.append_nil])
  | appendVertex k v =>
    obtain ⟨g, h1, rfl⟩ := step_silent h trivial
    injection h1 with h1; subst h1
    exact off_mesh O [v] [] (appendVertexToMesh_mesh _ _ _).1 (by rw [(appendVertexToMesh_mesh _ _ _).2.1, List.append_nil])
  | setVertex i v => exact off_setVertex O h
  | appendTriangle tri =>
    obtain ⟨g, h1, rfl⟩ := step_silent h trivial
    injection h1 with h1; subst h1
    exact off_mesh O [] [tri] (by simp) rfl
  | setTriangle i tri => exact off_setTriangle O h
  | unzip k f tri =>
    obtain ⟨g, h1, h⟩ := bind_some h
    injection h with h; subst h
    exact off_unzip O h1
  | setOpposite i a =>
    obtain ⟨g, h1, rfl⟩ := step_silent h trivial
    have f := geomSetOpposite h1
    exact off_mesh O [] [] (by simpa using f.2.1) (by simpa using f.1)
  | addDiscontinuity k r =>
    obtain ⟨g, h1, rfl⟩ := step_silent h trivial
    injection h1 with h1; subst h1
    exact off_mesh O [] [] (by rw [(setSide_mesh _ _ _).1, List.append_nil]) (by rw [(setSide_mesh _ _ _).2, List.append_nil])
  | setState k s =>
    obtain ⟨g, h1, rfl⟩ := step_silent h trivial
    injection h1 with h1; subst h1
    exact off_mesh O [] [] (by rw [(setSide_mesh _ _ _).1, List.append_nil]) (by rw [(setSide_mesh _ _ _).2, List.append_nil])
  | addBreak => exact off_addBreak O h
  | clear => exact off_clear O h
  | derivatives us => exact off_derivatives us O h
  | resetTracking => exact hop.elim

theorem off_run {o : Geometry V X} {pos : V → P} {env : Env V X} (ops : List (Op V X)) : ∀ {t t' : Tracked V X P},
    (∀ op ∈ ops, NotReset op) → Off o t → t.run pos env ops = some t' → Off o t' := by
  induction ops with
  | nil => intro t t' _ O h; injection h with h; subst h; exact O
  | cons op ops ih =>
    intro t t' hop O h
    obtain ⟨t1, h1, h⟩ := bind_some h
    exact ih (fun q hq => hop q (List.mem_cons_of_mem _ hq)) (off_step (hop op List.mem_cons_self) O h1) h

theorem off_runMoves {o : Geometry V X} {pos : V → P} {env : Env V X} (ms : List (Tracked.Move V X)) : ∀ {t t' : Tracked V X P},
    (∀ m ∈ ms, ∀ g, ∀ op ∈ m g, NotReset op) → Off o t → t.runMoves pos env ms = some t' → Off o t' := by
  induction ms with
  | nil => intro t t' _ O h; injection h with h; subst h; exact O
  | cons m ms ih =>
    intro t t' hop O h
    obtain ⟨t1, h1, h⟩ := bind_some h
    exact ih (fun q hq => hop q (List.mem_cons_of_mem _ hq)) (off_run _ (hop m List.mem_cons_self _) O h1) h

theorem off_revert {o : Geometry V X} {pos : V → P} {env : Env V X} {order : {α : Type} → List α → List α} {t t' : Tracked V X P}
    (O : Off o t) (h : t.revert pos env order = some t') : Off o t' := by
  unfold Tracked.revert at h
  split at h
  · obtain ⟨ps, -, h⟩ := bind_some h
    obtain ⟨t1, h1, h⟩ := bind_some h
    obtain ⟨t2, h2, h⟩ := bind_some h
    obtain ⟨g, h3, h⟩ := bind_some h
    obtain ⟨_, -, h⟩ := bind_some h
    obtain ⟨_, -, h⟩ := bind_some h
    obtain ⟨_, -, h⟩ := bind_some h
    obtain ⟨_, -, h⟩ := bind_some h
    injection h with h; subst h
    have O2 : Off o t2 := off_setTriangles _ (off_setVertices _ ⟨O.v.resize _ _, O.t.resize _ _⟩ h1) h2
    have f := geomSetOpposites _ h3
    exact ⟨by dsimp only; rw [f.2.1]; exact O2.v, by dsimp only; rw [f.1]; exact O2.t⟩
  · injection h with h; subst h; exact O

theorem off_reset (t : Tracked V X P) : Off t.g t.resetTracking := ⟨Kept.init _, Kept.init _⟩

/-! ## The offsets of an update -/

theorem unchanged_of_kept {α : Type} {l0 l : List α} {k : Nat} (K : Kept l0 l k) :
    Unchanged l0 l (if k ≠ l.length ∨ l.length ≠ l0.length then some k else none) := by
  split
  · exact ⟨K.1, K.2, K.take⟩
  · rename_i h
    have h1 : k = l.length := by by_contra hc; exact h (Or.inl hc)
    have h2 : l.length = l0.length := by by_contra hc; exact h (Or.inr hc)
    have := K.take
    rw [h1, List.take_length] at this
    show l = l0
    rw [this, h2, List.take_length]

theorem flat_length (l : List Tri) : (l.flatMap fun t => [t.1, t.2.1, t.2.2]).length = 3 * l.length := by
  induction l with
  | nil => rfl
  | cons a l ih => simp only [List.flatMap_cons, List.length_append, ih, List.length_cons, List.length_nil]; omega

theorem flat_take (l : List Tri) : ∀ k, (l.flatMap fun t => [t.1, t.2.1, t.2.2]).take (3 * k) =
    (l.take k).flatMap fun t => [t.1, t.2.1, t.2.2] := by
  induction l with
  | nil => simp
  | cons a l ih =>
    intro k
    cases k with
    | zero => rfl
    | succ k =>
      have : 3 * (k + 1) = 3 * k + 3 := by omega
      rw [this, List.take_succ_cons, List.flatMap_cons, List.flatMap_cons, ← ih k]
      simp

theorem unchanged_flat {g g' : Geometry V X} {o : Option Nat} (h : Unchanged g.triangles g'.triangles o) :
    Unchanged (indexBuffer g) (indexBuffer g') (o.map (3 * ·)) := by
  cases o with
  | none => show indexBuffer g' = indexBuffer g; unfold indexBuffer; rw [show g'.triangles = g.triangles from h]
  | some k =>
    obtain ⟨h1, h2, h3⟩ := h
    refine ⟨?_, ?_, ?_⟩
    · simp only [indexBuffer, flat_length]; omega
    · simp only [indexBuffer, flat_length]; omega
    · simp only [indexBuffer, flat_take]; rw [h3]

/-- Parts of `extend`. -/
theorem extend_facts {pos : V → P} {env : Env V X} {order : {α : Type} → List α → List α} {t t' : Tracked V X P}
    {real predicted : List (Tracked.Move V X)} {u : Update P} (h : t.extend pos env order real predicted = some (t', u)) :
    ∃ t1 t2, t.resetTracking.revert pos env order = some t1 ∧ t1.runMoves pos env real = some t2 ∧
      ({ t2 with g := t2.g.setSavePoint } : Tracked V X P).runMoves pos env predicted = some t' ∧
      t'.constructUpdate pos t.g.triangles.length t.g.vertices.length = some u := by
  obtain ⟨t1, h1, h⟩ := bind_some h
  obtain ⟨t2, h2, h⟩ := bind_some h
  obtain ⟨t3, h3, h⟩ := bind_some h
  obtain ⟨w, h4, h⟩ := bind_some h
  injection h with h
  injection h with h h'
  subst h; subst h'
  exact ⟨t1, t2, h1, h2, h3, h4⟩

theorem off_extend {pos : V → P} {env : Env V X} {order : {α : Type} → List α → List α} {t t' : Tracked V X P}
    {real predicted : List (Tracked.Move V X)} {u : Update P} (hr : ∀ m ∈ real, ∀ g, ∀ op ∈ m g, NotReset op)
    (hp : ∀ m ∈ predicted, ∀ g, ∀ op ∈ m g, NotReset op) (h : t.extend pos env order real predicted = some (t', u)) :
    Unchanged (indexBuffer t.g) (indexBuffer t'.g) u.firstIndex ∧ Unchanged t.g.vertices t'.g.vertices u.firstVertex := by
  obtain ⟨t1, t2, h1, h2, h3, h4⟩ := extend_facts h
  have O2 := off_runMoves _ hr (off_revert (off_reset t) h1) h2
  have O2' : Off t.g ({ t2 with g := t2.g.setSavePoint } : Tracked V X P) := ⟨O2.v, O2.t⟩
  have O3 : Off t.g t' := off_runMoves _ hp O2' h3
  obtain ⟨R, -, h4⟩ := bind_some h4
  injection h4 with h4; subst h4
  refine ⟨?_, unchanged_of_kept O3.v⟩
  have := unchanged_flat (unchanged_of_kept O3.t)
  dsimp only
  split
  · rw [if_pos ‹_›] at this; exact this
  · rw [if_neg ‹_›] at this; exact this

theorem unchanged_trans {α : Type} {l0 l l' : List α} {a b : Option Nat} (h : Unchanged l0 l a) (h' : Unchanged l l' b) :
    Unchanged l0 l' (getMinValue a b) := by
  cases a with
  | none => cases h; exact h'
  | some a =>
    cases b with
    | none => cases h'; exact h
    | some b =>
      obtain ⟨h1, h2, h3⟩ := h
      obtain ⟨g1, g2, g3⟩ := h'
      refine ⟨by omega, by omega, ?_⟩
      have e1 : l'.take (min a b) = (l'.take b).take (min a b) := by rw [List.take_take, Nat.min_eq_left (Nat.min_le_right _ _)]
      have e2 : l.take (min a b) = (l.take b).take (min a b) := by rw [List.take_take, Nat.min_eq_left (Nat.min_le_right _ _)]
      have e3 : l.take (min a b) = (l.take a).take (min a b) := by rw [List.take_take, Nat.min_eq_left (Nat.min_le_left _ _)]
      have e4 : l0.take (min a b) = (l0.take a).take (min a b) := by rw [List.take_take, Nat.min_eq_left (Nat.min_le_left _ _)]
      rw [e1, g3, ← e2, e3, h3, ← e4]

end Verif.StrokeGeom
