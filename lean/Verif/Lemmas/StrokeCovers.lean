import Verif.Lemmas.StrokeRegion

/-! # Lemmas for C55: the updated region covers all changes -/

set_option autoImplicit false

namespace Verif.StrokeGeom

open Verif.StrokeGeom.Spec

variable {V X P : Type}

def corners (t : Tri) : List Nat := [t.1, t.2.1, t.2.2]

theorem mem_corners {t : Tri} {w : Nat} : w ∈ corners t ↔ w = t.1 ∨ w = t.2.1 ∨ w = t.2.2 := by simp [corners]

theorem Conf.le {ids : List SideId} {t : Tri} (C : Conf ids t) {w : Nat} (h : w ∈ corners t) : w ≤ t.2.2 := by
  have := C.a; have := C.b
  rcases mem_corners.1 h with h | h | h <;> omega

theorem mem_positionsOf {pos : V → P} {vs : List V} (ts : List Tri) : ∀ {ps : List P}, positionsOf pos vs ts = some ps →
    ∀ t ∈ ts, ∀ w ∈ corners t, ∀ v, vs[w]? = some v → pos v ∈ ps := by
  induction ts with
  | nil => intro ps _ t h; cases h
  | cons s ts ih =>
    intro ps h t ht w hw v hv
    obtain ⟨a, b, c⟩ := s
    obtain ⟨va, ha, h⟩ := bind_some h
    obtain ⟨vb, hb, h⟩ := bind_some h
    obtain ⟨vc, hc, h⟩ := bind_some h
    obtain ⟨qs, hq, h⟩ := bind_some h
    injection h with h; subst h
    rcases List.mem_cons.1 ht with rfl | ht
    · rcases mem_corners.1 hw with rfl | rfl | rfl
      · rw [ha] at hv; injection hv with hv; subst hv; simp
      · rw [hb] at hv; injection hv with hv; subst hv; simp
      · rw [hc] at hv; injection hv with hv; subst hv; simp
    · have := ih hq t ht w hw v hv
      simp [this]

/-! ## What is recorded -/

def Tracked.first (t : Tracked V X P) : SideId → Option Nat
  | .left => t.firstLeft
  | .right => t.firstRight

/-- A change of the vertex is recorded. -/
def Noted (t : Tracked V X P) (w : Nat) : Prop := ∃ k, t.g.ids[w]? = some k ∧ ∃ f, t.first k = some f ∧ f ≤ w

theorem note_first (t : Tracked V X P) (k k' : SideId) (i : Nat) :
    (t.note k i).first k' = if k' = k then updateFirst i (t.first k) else t.first k' := by
  cases k <;> cases k' <;> rfl

theorem updateFirst_le (i : Nat) (f : Option Nat) : ∃ f', updateFirst i f = some f' ∧ f' ≤ i ∧ ∀ g, f = some g → f' ≤ g := by
  cases f with
  | none => exact ⟨i, rfl, Nat.le_refl _, by intro g h; cases h⟩
  | some f => exact ⟨min f i, rfl, Nat.min_le_right _ _, by intro g h; injection h with h; subst h; exact Nat.min_le_left _ _⟩

theorem noted_mono {t t' : Tracked V X P} {w : Nat} (h : Noted t w) (hi : ∀ k, t.g.ids[w]? = some k → t'.g.ids[w]? = some k)
    (hf : ∀ k f, t.first k = some f → ∃ f', t'.first k = some f' ∧ f' ≤ f) : Noted t' w := by
  obtain ⟨k, hk, f, hf', hle⟩ := h
  obtain ⟨f'', h1, h2⟩ := hf k f hf'
  exact ⟨k, hi k hk, f'', h1, Nat.le_trans h2 hle⟩

theorem note_mono (t : Tracked V X P) (k : SideId) (i : Nat) (k' : SideId) (f : Nat) (h : t.first k' = some f) :
    ∃ f', (t.note k i).first k' = some f' ∧ f' ≤ f := by
  rw [note_first]
  split
  · rename_i e; subst e
    obtain ⟨f', h1, -, h3⟩ := updateFirst_le i (t.first k')
    exact ⟨f', h1, h3 f h⟩
  · exact ⟨f, h, Nat.le_refl _⟩

/-- The position of an old vertex is recorded, or has not changed. -/
def OldV (pos : V → P) (o : Geometry V X) (t : Tracked V X P) (w : Nat) : Prop :=
  ∀ v, o.vertices[w]? = some v → pos v ∈ t.removed ∨ ∃ v', t.g.vertices[w]? = some v' ∧ pos v' = pos v

/-- The positions of an old triangle are recorded, or have not changed. -/
def Old (pos : V → P) (o : Geometry V X) (t : Tracked V X P) : Prop :=
  ∀ (j : Nat) (T : Tri), o.triangles[j]? = some T → (∀ w ∈ corners T, ∀ v, o.vertices[w]? = some v → pos v ∈ t.removed) ∨
    (t.g.triangles[j]? = some T ∧ ∀ w ∈ corners T, OldV pos o t w)

/-- A vertex has not changed, or its change is recorded. -/
def NewV (o : Geometry V X) (t : Tracked V X P) (w : Nat) : Prop :=
  (∃ v, o.vertices[w]? = some v ∧ t.g.vertices[w]? = some v) ∨ Noted t w

/-- This holds for all vertices of triangles before the first mutated one. -/
def New (o : Geometry V X) (t : Tracked V X P) : Prop :=
  ∀ (j : Nat) (T : Tri), j < t.firstTriangle → t.g.triangles[j]? = some T → ∀ w ∈ corners T, NewV o t w

theorem Old.mono {pos : V → P} {o : Geometry V X} {t t' : Tracked V X P} (H : Old pos o t) (hr : ∀ p ∈ t.removed, p ∈ t'.removed)
    (ht : ∀ (j : Nat) (T : Tri), t.g.triangles[j]? = some T → t'.g.triangles[j]? = some T) (hv : ∀ w, OldV pos o t w → OldV pos o t' w) :
    Old pos o t' := by
  intro j T h
  rcases H j T h with h | ⟨h, h'⟩
  · exact Or.inl fun w hw v hv => hr _ (h w hw v hv)
  · exact Or.inr ⟨ht j T h, fun w hw => hv w (h' w hw)⟩

theorem New.mono {o : Geometry V X} {t t' : Tracked V X P} (H : New o t) (hf : t'.firstTriangle ≤ t.firstTriangle)
    (ht : ∀ (j : Nat) (T : Tri), j < t'.firstTriangle → t'.g.triangles[j]? = some T → t.g.triangles[j]? = some T ∧
      ∀ w ∈ corners T, NewV o t w → NewV o t' w) : New o t' := by
  intro j T hj h w hw
  obtain ⟨h1, h2⟩ := ht j T hj h
  exact h2 w hw (H j T (Nat.lt_of_lt_of_le hj hf) h1 w hw)

/-- Adding vertices. -/
theorem oldV_append {pos : V → P} {o : Geometry V X} {t : Tracked V X P} {g : Geometry V X} {w : Nat} {l : List V}
    (hv : g.vertices = t.g.vertices ++ l) (H : OldV pos o t w) : OldV pos o { t with g := g } w := by
  intro v h
  rcases H v h with h | ⟨v', h1, h2⟩
  · exact Or.inl h
  · refine Or.inr ⟨v', ?_, h2⟩
    show g.vertices[w]? = _
    rw [hv, List.getElem?_append_left (getElem?_lt h1)]; exact h1

theorem newV_append {o : Geometry V X} {t : Tracked V X P} {g : Geometry V X} {w : Nat} {l : List V} {m : List SideId}
    (hv : g.vertices = t.g.vertices ++ l) (hi : g.ids = t.g.ids ++ m) (H : NewV o t w) : NewV o { t with g := g } w := by
  rcases H with ⟨v, h1, h2⟩ | H
  · refine Or.inl ⟨v, h1, ?_⟩
    show g.vertices[w]? = _
    rw [hv, List.getElem?_append_left (getElem?_lt h2)]; exact h2
  · refine Or.inr (noted_mono H ?_ fun k f h => ⟨f, h, Nat.le_refl _⟩)
    intro k h
    show g.ids[w]? = _
    rw [hi, List.getElem?_append_left (getElem?_lt h)]; exact h

theorem silent_grow {env : Env V X} {g g' : Geometry V X} {op : Op V X} (hs : Silent op) (h : g.step env op = some g') :
    ∃ lv lt li, g'.vertices = g.vertices ++ lv ∧ g'.triangles = g.triangles ++ lt ∧ g'.ids = g.ids ++ li := by
  have side : ∀ k (s : Side V X), ∃ lv lt li, (g.setSide k s).vertices = g.vertices ++ lv ∧ (g.setSide k s).triangles = g.triangles ++ lt ∧
      (g.setSide k s).ids = g.ids ++ li := fun k s =>
    ⟨[], [], [], by rw [(setSide_mesh g k s).1, List.append_nil], by rw [(setSide_mesh g k s).2, List.append_nil],
      by rw [(setSide_more g k s).1, List.append_nil]⟩
  cases op with
  | bufferVertex k v =>
    obtain ⟨st, -, rfl | ⟨w, rfl⟩⟩ := appendVertexToSide_cases h
    · exact side _ _
    · obtain ⟨e1, e2, e3, -⟩ := appendVertexToMesh_mesh (g.setSide k { g.side k with state := st }) k w
      rw [(setSide_mesh _ _ _).1] at e1
      rw [(setSide_mesh _ _ _).2] at e2
      rw [(setSide_more _ _ _).1] at e3
      exact ⟨[w], [], [k], e1, by rw [e2, List.append_nil], e3⟩
  | appendVertex k v =>
    injection h with h; subst h
    obtain ⟨e1, e2, e3, -⟩ := appendVertexToMesh_mesh g k v
    exact ⟨[v], [], [k], e1, by rw [e2, List.append_nil], e3⟩
  | appendTriangle t => injection h with h; subst h; exact ⟨[], [t], [], by simp, rfl, by simp⟩
  | setOpposite i o =>
    have f := geomSetOpposite h
    exact ⟨[], [], [], by rw [f.2.1, List.append_nil], by rw [f.1, List.append_nil], by rw [f.2.2.1, List.append_nil]⟩
  | addDiscontinuity k r => injection h with h; subst h; exact side _ _
  | setState k s => injection h with h; subst h; exact side _ _
  | _ => exact hs.elim

/-- One vertex is set. -/
theorem oldV_setVertex {pos : V → P} {o : Geometry V X} {t t' : Tracked V X P} {i w : Nat} {v : V} {b e : Bool}
    (he : e = true ∨ o.vertices.length ≤ i) (h : t.setVertex pos i v b e = some t') (H : OldV pos o t w) :
    OldV pos o t' w ∧ (w = i → ∀ v, o.vertices[w]? = some v → pos v ∈ t'.removed) := by
  obtain ⟨old, k, g, h1, h2, h3, rfl⟩ := setVertex_facts h
  have f := geomSetVertex h3
  have key : w = i → ∀ v, o.vertices[w]? = some v → pos v ∈ (if e = true then t.removed ++ [pos old] else t.removed) := by
    rintro rfl v' hv
    have he' : e = true := by
      rcases he with he | he
      · exact he
      · have := getElem?_lt hv; omega
    rw [if_pos he']
    rcases H v' hv with h | ⟨v'', h4, h5⟩
    · exact List.mem_append_left _ h
    · rw [h1] at h4; injection h4 with h4; subst h4
      rw [← h5]; simp
  refine ⟨?_, key⟩
  intro v' hv
  by_cases hw : w = i
  · exact Or.inl (key hw v' hv)
  · rcases H v' hv with h | ⟨v'', h4, h5⟩
    · left
      show pos v' ∈ (if e = true then t.removed ++ [pos old] else t.removed)
      split
      · exact List.mem_append_left _ h
      · exact h
    · refine Or.inr ⟨v'', ?_, h5⟩
      show g.vertices[w]? = _
      rw [f.1, List.getElem?_set_ne (Ne.symm hw)]; exact h4

theorem setVertex_removed {pos : V → P} {t t' : Tracked V X P} {i : Nat} {v : V} {b e : Bool}
    (h : t.setVertex pos i v b e = some t') : ∀ p ∈ t.removed, p ∈ t'.removed := by
  obtain ⟨old, k, g, h1, h2, h3, rfl⟩ := setVertex_facts h
  intro p hp
  dsimp only
  split
  · exact List.mem_append_left _ hp
  · exact hp

theorem newV_setVertex {pos : V → P} {o : Geometry V X} {t t' : Tracked V X P} {i w : Nat} {v : V} {b e : Bool}
    (h : t.setVertex pos i v b e = some t') (H : NewV o t w) : NewV o t' w := by
  obtain ⟨old, k, g, h1, h2, h3, rfl⟩ := setVertex_facts h
  have f := geomSetVertex h3
  have hfirst : ∀ k', Tracked.first ({ (t.note k i) with g := g, removed := (if e then t.removed ++ [pos old] else t.removed), firstVertex := min t.firstVertex i } : Tracked V X P) k'
      = (t.note k i).first k' := by intro k'; cases k' <;> rfl
  by_cases hw : w = i
  · subst hw
    right
    refine ⟨k, by show g.ids[w]? = _; rw [f.2.2.1]; exact h2, ?_⟩
    rw [hfirst, note_first, if_pos rfl]
    obtain ⟨f', h4, h5, -⟩ := updateFirst_le w (t.first k)
    exact ⟨f', h4, h5⟩
  · rcases H with ⟨v', h4, h5⟩ | H
    · refine Or.inl ⟨v', h4, ?_⟩
      show g.vertices[w]? = _
      rw [f.1, List.getElem?_set_ne (Ne.symm hw)]; exact h5
    · refine Or.inr (noted_mono H ?_ ?_)
      · intro k' h; show g.ids[w]? = _; rw [f.2.2.1]; exact h
      · intro k' f' h; rw [hfirst]; exact note_mono t k i k' f' h

theorem on_setVertex {pos : V → P} {o : Geometry V X} {t t' : Tracked V X P} {i : Nat} {v : V} {b : Bool}
    (h : t.setVertex pos i v b true = some t') (H : Old pos o t) (N : New o t) : Old pos o t' ∧ New o t' := by
  have ht : t'.g.triangles = t.g.triangles ∧ t'.firstTriangle = t.firstTriangle := by
    obtain ⟨old, k, g, h1, h2, h3, rfl⟩ := setVertex_facts h
    exact ⟨(geomSetVertex h3).2.1, note_t _ _ _⟩
  refine ⟨H.mono (setVertex_removed h) (by rw [ht.1]; exact fun _ _ h => h) (fun w hw => (oldV_setVertex (Or.inl rfl) h hw).1), ?_⟩
  refine N.mono (Nat.le_of_eq ht.2) ?_
  intro j T _ hT
  rw [ht.1] at hT
  exact ⟨hT, fun w _ => newV_setVertex h⟩

theorem on_labelLast {pos : V → P} {env : Env V X} {o : Geometry V X} {t t' : Tracked V X P} {s : Side V X}
    (h : t.labelLast pos env s = some t') (H : Old pos o t ∧ New o t) : Old pos o t' ∧ New o t' := by
  unfold Tracked.labelLast at h
  split at h
  · injection h with h; subst h; exact H
  · obtain ⟨i, -, h⟩ := bind_some h
    obtain ⟨v, -, h⟩ := bind_some h
    exact on_setVertex h H.1 H.2

theorem on_derivatives {pos : V → P} {o : Geometry V X} (us : List (Nat × (V → V))) : ∀ {t t' : Tracked V X P},
    (∀ u ∈ us, ∀ v, pos (u.2 v) = pos v) → t.updateVertices us = some t' → Old pos o t → New o t → Old pos o t' ∧ New o t' := by
  induction us with
  | nil => intro t t' _ h H N; injection h with h; subst h; exact ⟨H, N⟩
  | cons p us ih =>
    intro t t' hu h H N
    obtain ⟨i, f⟩ := p
    obtain ⟨v, h1, h⟩ := bind_some h
    obtain ⟨k, h2, h⟩ := bind_some h
    dsimp only at h
    refine ih (fun u hu' => hu u (List.mem_cons_of_mem _ hu')) h ?_ ?_
    · refine H.mono (by intro p hp; dsimp only; rw [note_removed]; exact hp) (by intro j T hT; dsimp only; rw [note_g]; exact hT) ?_
      intro w hw v' hv'
      rcases hw v' hv' with h3 | ⟨v'', h3, h4⟩
      · left; dsimp only; rw [note_removed]; exact h3
      · right
        dsimp only
        rw [note_g]
        by_cases e : w = i
        · subst e
          rw [h1] at h3; injection h3 with h3; subst h3
          exact ⟨f v, by rw [List.getElem?_set_self (getElem?_lt h1)], by rw [← h4]; exact hu (w, f) List.mem_cons_self v⟩
        · exact ⟨v'', by rw [List.getElem?_set_ne (Ne.symm e)]; exact h3, h4⟩
    · refine N.mono (by dsimp only; rw [note_t]; exact Nat.le_refl _) ?_
      intro j T _ hT
      dsimp only at hT
      rw [note_g] at hT
      refine ⟨hT, fun w _ hw => ?_⟩
      have hfirst : ∀ k', Tracked.first ({ (t.note k i) with g := { (t.note k i).g with vertices := (t.note k i).g.vertices.set i (f v) }, firstVertex := min (t.note k i).firstVertex i } : Tracked V X P) k'
          = (t.note k i).first k' := by intro k'; cases k' <;> rfl
      by_cases e : w = i
      · subst e
        right
        refine ⟨k, by dsimp only; rw [note_g]; exact h2, ?_⟩
        rw [hfirst, note_first, if_pos rfl]
        obtain ⟨f', h4, h5, -⟩ := updateFirst_le w (t.first k)
        exact ⟨f', h4, h5⟩
      · rcases hw with ⟨v', h4, h5⟩ | hw
        · refine Or.inl ⟨v', h4, ?_⟩
          dsimp only
          rw [note_g, List.getElem?_set_ne (Ne.symm e)]; exact h5
        · refine Or.inr (noted_mono hw ?_ ?_)
          · intro k' h; dsimp only; rw [note_g]; exact h
          · intro k' f' h; rw [hfirst]; exact note_mono t k i k' f' h

theorem on_clear {pos : V → P} {env : Env V X} {o : Geometry V X} {t t' : Tracked V X P} (S : Strip t.g)
    (h : t.clearSinceBreak pos env = some t') (H : Old pos o t) (N : New o t) : Old pos o t' ∧ New o t' := by
  unfold Tracked.clearSinceBreak at h
  split at h
  · injection h with h; subst h; exact ⟨H, N⟩
  · obtain ⟨g, h1, h⟩ := bind_some h
    obtain ⟨ps, h2, h⟩ := bind_some h
    injection h with h; subst h
    have e := captureIfNeeded_facts h1
    have eb : g.lastBreak = t.g.lastBreak := by rw [e]
    have et : g.triangles = t.g.triangles := by rw [e]
    have ev : g.vertices = t.g.vertices := by rw [e]
    have ei : g.ids = t.g.ids := by rw [e]
    rw [eb, et, ev] at h2
    have f1 : (g.truncateToBreak env).triangles = t.g.triangles.take t.g.lastBreak.triangleCount := by
      show resize _ _ _ = _; rw [eb, et]; exact resize_of_le _ S.tle
    have f2 : (g.truncateToBreak env).vertices = t.g.vertices.take t.g.lastBreak.vertexCount := by
      show resize _ _ _ = _; rw [eb, ev]; exact resize_of_le _ S.vle
    have f3 : (g.truncateToBreak env).ids = t.g.ids.take t.g.lastBreak.vertexCount := by
      show resize _ _ _ = _; rw [eb, ei]; exact resize_of_le _ (by rw [S.len]; exact S.vle)
    constructor
    · intro j T hT
      dsimp only
      rcases H j T hT with h | ⟨h, h'⟩
      · exact Or.inl fun w hw v hv => List.mem_append_left _ (h w hw v hv)
      · by_cases hj : j < t.g.lastBreak.triangleCount
        · right
          rw [f1, List.getElem?_take_of_lt hj]
          refine ⟨h, fun w hw v hv => ?_⟩
          have hlt : w < t.g.lastBreak.vertexCount := Nat.lt_of_le_of_lt ((S.tri j T h).le hw) (S.low j T h hj)
          rcases h' w hw v hv with h3 | ⟨v', h3, h4⟩
          · exact Or.inl (List.mem_append_left _ h3)
          · refine Or.inr ⟨v', ?_, h4⟩
            dsimp only
            rw [f2, List.getElem?_take_of_lt hlt]; exact h3
        · left
          intro w hw v hv
          rcases h' w hw v hv with h3 | ⟨v', h3, h4⟩
          · exact List.mem_append_left _ h3
          · rw [← h4]
            refine List.mem_append_right _ (mem_positionsOf _ h2 T ?_ w hw v' h3)
            apply List.mem_of_getElem? (i := j - t.g.lastBreak.triangleCount)
            rw [List.getElem?_drop, Nat.add_sub_cancel' (Nat.le_of_not_lt hj)]; exact h
    · refine N.mono (Nat.min_le_left _ _) ?_
      intro j T hj hT
      dsimp only at hj hT
      rw [eb] at hj
      have hj' : j < t.g.lastBreak.triangleCount := by omega
      rw [f1, List.getElem?_take_of_lt hj'] at hT
      refine ⟨hT, fun w hw hn => ?_⟩
      have hlt : w < t.g.lastBreak.vertexCount := Nat.lt_of_le_of_lt ((S.tri j T hT).le hw) (S.low j T hT hj')
      rcases hn with ⟨v, h3, h4⟩ | hn
      · refine Or.inl ⟨v, h3, ?_⟩
        dsimp only
        rw [f2, List.getElem?_take_of_lt hlt]; exact h4
      · refine Or.inr (noted_mono hn ?_ fun k f h => ⟨f, by cases k <;> exact h, Nat.le_refl _⟩)
        intro k h
        dsimp only
        rw [f3, List.getElem?_take_of_lt hlt]; exact h

theorem on_step {pos : V → P} {env : Env V X} {o : Geometry V X} {t t' : Tracked V X P} {op : Op V X} (S : Strip t.g) (F : Off o t)
    (ho : OpOk pos t.g op) (h : t.step pos env op = some t') (H : Old pos o t) (N : New o t) : Old pos o t' ∧ New o t' := by
  by_cases hs : Silent op
  · obtain ⟨g, h1, rfl⟩ := step_silent h hs
    obtain ⟨lv, lt, li, e1, e2, e3⟩ := silent_grow hs h1
    constructor
    · refine H.mono (fun _ h => h) ?_ (fun w => oldV_append e1)
      intro j T hT
      show g.triangles[j]? = _
      rw [e2, List.getElem?_append_left (getElem?_lt hT)]; exact hT
    · refine N.mono (Nat.le_refl _) ?_
      intro j T hj hT
      have hT : g.triangles[j]? = some T := hT
      rw [e2, List.getElem?_append_left (Nat.lt_of_lt_of_le hj F.t.le)] at hT
      exact ⟨hT, fun w _ => newV_append e1 e3⟩
  cases op with
  | setVertex i v => exact on_setVertex h H N
  | setTriangle i t => exact ho.elim
  | unzip k f t => exact ho.elim
  | addBreak =>
    obtain ⟨t1, h1, h⟩ := bind_some h
    have O1 : Old pos o t1 ∧ New o t1 := by
      unfold Tracked.labelBoth at h1
      split at h1
      · obtain ⟨t2, h2, h1⟩ := bind_some h1
        exact on_labelLast h1 (on_labelLast h2 ⟨H, N⟩)
      · injection h1 with h1; subst h1; exact ⟨H, N⟩
    injection h with h; subst h
    exact O1
  | clear => exact on_clear S h H N
  | derivatives us => exact on_derivatives us ho h H N
  | resetTracking => exact ho.elim
  | _ => exact absurd trivial hs

end Verif.StrokeGeom
