import Verif.Lemmas.StrokeCovers

/-! # Lemmas for C55: the updated region covers all changes, continued -/

set_option autoImplicit false

namespace Verif.StrokeGeom

open Verif.StrokeGeom.Spec

variable {V X P : Type}

/-! ## Undoing predictions -/

theorem setVertices_facts {pos : V → P} {o : Geometry V X} (m : List (Nat × V)) : ∀ {t t' : Tracked V X P},
    t.setVertices pos o.vertices.length m = some t' →
    (∀ p ∈ t.removed, p ∈ t'.removed) ∧ t'.g.triangles = t.g.triangles ∧ t'.firstTriangle = t.firstTriangle ∧ t'.g.ids = t.g.ids ∧
    (∀ w, NewV o t w → NewV o t' w) ∧
    (∀ w, OldV pos o t w → OldV pos o t' w ∧ (w ∈ keys m → ∀ v, o.vertices[w]? = some v → pos v ∈ t'.removed)) := by
  induction m with
  | nil =>
    intro t t' h; injection h with h; subst h
    exact ⟨fun _ h => h, rfl, rfl, rfl, fun _ h => h, fun w h => ⟨h, fun hk => by simp [keys] at hk⟩⟩
  | cons p m ih =>
    intro t t' h
    obtain ⟨i, v⟩ := p
    obtain ⟨t1, h1, h⟩ := bind_some h
    obtain ⟨a1, a2, a3, a4, a5, a6⟩ := ih h
    have he : decide (i < o.vertices.length) = true ∨ o.vertices.length ≤ i := by
      by_cases hi : i < o.vertices.length
      · exact Or.inl (decide_eq_true hi)
      · exact Or.inr (Nat.le_of_not_lt hi)
    have hf : t1.g.triangles = t.g.triangles ∧ t1.firstTriangle = t.firstTriangle ∧ t1.g.ids = t.g.ids := by
      obtain ⟨old, k, g, -, -, h3, rfl⟩ := setVertex_facts h1
      have f := geomSetVertex h3
      exact ⟨f.2.1, note_t _ _ _, f.2.2.1⟩
    refine ⟨fun p hp => a1 p (setVertex_removed h1 p hp), a2.trans hf.1, a3.trans hf.2.1, a4.trans hf.2.2,
      fun w hw => a5 w (newV_setVertex h1 hw), fun w hw => ?_⟩
    obtain ⟨b1, b2⟩ := oldV_setVertex he h1 hw
    obtain ⟨c1, c2⟩ := a6 w b1
    refine ⟨c1, fun hk v hv => ?_⟩
    simp only [keys, List.map_cons, List.mem_cons] at hk
    rcases hk with hk | hk
    · exact a1 _ (b2 hk v hv)
    · exact c2 hk v hv

theorem setTriangles_facts (m : List (Nat × Tri)) : ∀ {t t' : Tracked V X P}, t.setTriangles m = some t' →
    t'.removed = t.removed ∧ t'.g.vertices = t.g.vertices ∧ t'.g.ids = t.g.ids ∧ t'.firstLeft = t.firstLeft ∧
    t'.firstRight = t.firstRight ∧ t'.firstTriangle ≤ t.firstTriangle ∧ (∀ i ∈ keys m, t'.firstTriangle ≤ i) ∧
    (∀ j, j ∉ keys m → t'.g.triangles[j]? = t.g.triangles[j]?) := by
  induction m with
  | nil =>
    intro t t' h; injection h with h; subst h
    exact ⟨rfl, rfl, rfl, rfl, rfl, Nat.le_refl _, fun i h => by simp [keys] at h, fun _ _ => rfl⟩
  | cons p m ih =>
    intro t t' h
    obtain ⟨i, tri⟩ := p
    obtain ⟨t1, h1, h⟩ := bind_some h
    obtain ⟨a1, a2, a3, a4, a5, a6, a7, a8⟩ := ih h
    obtain ⟨g, h2, h1⟩ := bind_some h1
    injection h1 with h1; subst h1
    have f := geomSetTriangle h2
    dsimp only at a1 a2 a3 a4 a5 a6 a8
    refine ⟨a1, a2.trans f.2.1, a3.trans f.2.2.1, a4, a5, by omega, ?_, ?_⟩
    · intro j hj
      simp only [keys, List.map_cons, List.mem_cons] at hj
      rcases hj with hj | hj
      · omega
      · exact a7 j hj
    · intro j hj
      simp only [keys, List.map_cons, List.mem_cons, not_or] at hj
      rw [a8 j hj.2, f.1, List.getElem?_set_ne (Ne.symm hj.1)]

theorem on_revert {pos : V → P} {env : Env V X} {order : {α : Type} → List α → List α} (ho : IsOrder order) {t t' : Tracked V X P}
    (S : Strip t.g) (Sv : t.g.save.active = true → SaveInv t.g) (F : t.g.save.active = true → Fits t.g)
    (hf : t.firstTriangle = t.g.triangles.length)
    (h : t.revert pos env order = some t') : Old pos t.g t' ∧ New t.g t' := by
  by_cases ha : t.g.save.active = true
  swap
  · unfold Tracked.revert at h
    rw [if_neg ha] at h
    injection h with h; subst h
    exact ⟨fun j T hT => Or.inr ⟨hT, fun w _ v hv => Or.inr ⟨v, hv, rfl⟩⟩, fun j T _ hT w hw => by
      have hlt : w < t.g.vertices.length := by
        rw [← S.len]; exact Nat.lt_of_le_of_lt ((S.tri j T hT).le hw) (S.tri j T hT).c
      exact Or.inl ⟨t.g.vertices[w], List.getElem?_eq_getElem hlt, List.getElem?_eq_getElem hlt⟩⟩
  have F := F ha
  obtain ⟨vC, tC, Sv⟩ := Sv ha
  obtain ⟨ps, t1, t2, h0, h1, h2, e1, e2, e3, e4, -⟩ := revert_facts h ha
  obtain ⟨a1, a2, a3, a4, a5, a6⟩ := setVertices_facts (o := t.g) _ h1
  obtain ⟨b1, b2, b3, b4, b5, b6, b7, b8⟩ := setTriangles_facts _ h2
  dsimp only at a1 a2 a3 a4
  have hkv : ∀ i, i ∈ keys (order t.g.save.savedVertices) ↔ i ∈ keys t.g.save.savedVertices := fun i =>
    ((ho t.g.save.savedVertices).map _).mem_iff
  have hkt : ∀ i, i ∈ keys (order t.g.save.savedTriangles) ↔ i ∈ keys t.g.save.savedTriangles := fun i =>
    ((ho t.g.save.savedTriangles).map _).mem_iff
  have hrem : t'.removed = t1.removed := by rw [e4]; exact b1
  have hft : t'.firstTriangle = t2.firstTriangle := by rw [e4]
  have hverts : t'.g.vertices = t1.g.vertices := e1.trans b2
  -- vertices that exist before and after
  have hold : ∀ w, w < t.g.save.nVertices → OldV pos t.g t1 w ∧ (w ∈ keys t.g.save.savedVertices → ∀ v, t.g.vertices[w]? = some v → pos v ∈ t1.removed) := by
    intro w hw
    obtain ⟨c1, c2⟩ := a6 w (fun v hv => Or.inr ⟨v, by
      dsimp only; rw [resize_get _ hw (getElem?_lt hv)]; exact hv, rfl⟩)
    exact ⟨c1, fun hk => c2 ((hkv w).2 hk)⟩
  have htri : ∀ j, j < tC → t'.g.triangles[j]? = t.g.triangles[j]? := by
    intro j hj
    have hk : j ∉ keys (order t.g.save.savedTriangles) := by
      rw [hkt, Sv.keysT]; omega
    rw [e2, b8 j hk, a2, resize_get _ (by have := Sv.tle; omega) (by have := Sv.tlen; omega)]
  constructor
  · intro j T hT
    rw [hrem]
    by_cases h1 : j < t.g.save.nTriangles
    · by_cases h2 : j < tC
      · right
        refine ⟨by rw [htri j h2]; exact hT, fun w hw v hv => ?_⟩
        have hw' : w < vC := Nat.lt_of_le_of_lt ((S.tri j T hT).le hw) (Sv.low j T hT h2)
        rcases (hold w (Nat.lt_of_lt_of_le hw' Sv.vle)).1 v hv with h | ⟨v', h, h'⟩
        · left; rw [hrem]; exact h
        · right; exact ⟨v', by rw [hverts]; exact h, h'⟩
      · left
        intro w hw v hv
        have hn : w < t.g.save.nVertices := by
          obtain ⟨f1, f2, f3⟩ := F j T hT h1
          rcases mem_corners.1 hw with h | h | h <;> omega
        have hvC : vC ≤ w := by
          obtain ⟨f1, f2⟩ := Sv.high j T hT (Nat.le_of_not_lt h2) h1
          have := (S.tri j T hT).a
          rcases mem_corners.1 hw with h | h | h <;> omega
        exact (hold w hn).2 (Sv.keysV w hvC hn) v hv
    · left
      intro w hw v hv
      apply a1
      apply List.mem_append_right
      refine mem_positionsOf _ h0 T ?_ w hw v hv
      apply List.mem_of_getElem? (i := j - t.g.save.nTriangles)
      rw [List.getElem?_drop, Nat.add_sub_cancel' (Nat.le_of_not_lt h1)]; exact hT
  · intro j T hj hT w hw
    rw [hft] at hj
    have hjt : j < tC := by
      by_contra hc
      by_cases h1 : tC < t.g.save.nTriangles
      · have := b7 tC ((hkt tC).2 ((Sv.keysT tC).2 ⟨Nat.le_refl _, h1⟩)); omega
      · have := Sv.tle; omega
    rw [htri j hjt] at hT
    have hw' : w < vC := Nat.lt_of_le_of_lt ((S.tri j T hT).le hw) (Sv.low j T hT hjt)
    have hlt : w < t.g.vertices.length := Nat.lt_of_lt_of_le hw' Sv.vlen
    have hnv : w < t.g.save.nVertices := Nat.lt_of_lt_of_le hw' Sv.vle
    have hn1 : NewV t.g t1 w := a5 w (Or.inl ⟨t.g.vertices[w], List.getElem?_eq_getElem hlt, by
      dsimp only; rw [resize_get _ hnv hlt]; exact List.getElem?_eq_getElem hlt⟩)
    rcases hn1 with ⟨v, h3, h4⟩ | hn1
    · exact Or.inl ⟨v, h3, by rw [hverts]; exact h4⟩
    · right
      have hid : t'.g.ids[w]? = t1.g.ids[w]? := by
        unfold copyToEnd at e3
        have hlen : t2.g.ids.length = t.g.save.nVertices := by rw [b3, a4, resize_length]
        split at e3
        · injection e3 with e3
          have := Sv.ids
          rw [← e3, List.getElem?_append_left (by rw [List.length_take, hlen]; omega), List.getElem?_take_of_lt (by rw [hlen]; omega), b3]
        · cases e3
      refine noted_mono hn1 (fun k hk => by rw [hid]; exact hk) ?_
      intro k f hf
      refine ⟨f, ?_, Nat.le_refl _⟩
      cases k
      · show t'.firstLeft = _; rw [e4]; exact b4.trans hf
      · show t'.firstRight = _; rw [e4]; exact b5.trans hf

/-! ## All of an update -/

/-- The state of a stroke that was drawn without retriangulating self-intersections. -/
structure Hist (g : Geometry V X) : Prop where
  strip : Strip g
  wf : WF g
  save : g.save.active = true → SaveInv g ∧ ∃ s0 : Geometry V X, Strip s0 ∧ WF s0 ∧ Inv (fun _ => ()) s0 g g.save

theorem opOk_keeps (op : Op V X) : Keeps (fun _ : V => ()) op := by
  cases op <;> simp [Keeps]

theorem hist_step {pos : V → P} {env : Env V X} {g g' : Geometry V X} {op : Op V X} (H : Hist g) (ho : OpOk pos g op)
    (h : g.step env op = some g') : Hist g' := by
  have S' := strip_step H.strip ho h
  have ea := step_active h
  by_cases ha : g.save.active = true
  · obtain ⟨h1, s0, h2, h3, h4⟩ := H.save ha
    have G := good_step (core := fun _ : V => ()) h3 ⟨H.wf, fun _ => h4⟩ (opOk_keeps op) h
    exact ⟨S', G.1, fun ha' => ⟨sv_step H.strip h1 ha ho h, s0, h2, h3, G.2 ha'⟩⟩
  · have G := good_step (core := fun _ : V => ()) H.wf ⟨H.wf, fun h => absurd h ha⟩ (opOk_keeps op) h
    exact ⟨S', G.1, fun ha' => by rw [ea] at ha'; exact absurd ha' ha⟩

theorem hist_save {g : Geometry V X} (H : Hist g) : Hist g.setSavePoint := by
  refine ⟨?_, wf_save H.wf, fun _ => ⟨sv_save H.strip, g, H.strip, H.wf, inv_save _ H.wf⟩⟩
  refine strip_congr H.strip rfl rfl rfl rfl ?_ ?_
  · intro k; cases k
    · exact keepLast_indices _
    · exact keepLast_indices _
  · intro k
    have e : ∀ s : Side V X, (Geometry.keepLast s).state.adjacentFirst = s.state.adjacentFirst := by
      intro s; unfold Geometry.keepLast; split
      · split <;> rfl
      · rfl
    cases k
    · exact Nat.le_of_eq (e _).symm
    · exact Nat.le_of_eq (e _).symm

theorem hist_revert {env : Env V X} {order : {α : Type} → List α → List α} (ho : IsOrder order) {g g' : Geometry V X} (H : Hist g)
    (h : g.revert env order = some g') : Hist g' := by
  by_cases ha : g.save.active = true
  · obtain ⟨-, s0, S0, W0, I⟩ := H.save ha
    obtain ⟨r, hr, hc, hi, -⟩ := revert_ok (env := env) ho W0 I ha
    rw [hr] at h; injection h with h; subst h
    have Sm := same_iff.2 hc
    have hl := Sm.length
    have hs : ∀ k, r.side k = s0.side k := side_congr Sm.left Sm.right
    refine ⟨?_, ?_, fun ha' => by rw [hi] at ha'; cases ha'⟩
    · exact strip_congr S0 Sm.ids Sm.triangles Sm.lastBreak hl (fun k => by rw [hs k]) (fun k => by rw [hs k]; exact Nat.le_refl _)
    · exact ⟨by rw [Sm.ids, hl]; exact W0.ids, by rw [Sm.offsets, hl]; exact W0.offsets, by rw [Sm.opposite, hl]; exact W0.opposite,
        by rw [Sm.lastBreak, hl]; exact W0.vertexCount, by rw [Sm.lastBreak, Sm.triangles]; exact W0.triangleCount,
        by rw [Sm.left, Sm.lastBreak]; exact W0.left, by rw [Sm.right, Sm.lastBreak]; exact W0.right⟩
  · unfold Geometry.revert at h
    rw [if_neg ha] at h
    injection h with h; subst h; exact H

/-- Everything that is known while an update is made. -/
structure Progress (pos : V → P) (o : Geometry V X) (t : Tracked V X P) : Prop where
  hist : Hist t.g
  off : Off o t
  old : Old pos o t
  new : New o t

theorem opOk_notReset {pos : V → P} {g : Geometry V X} {op : Op V X} (h : OpOk pos g op) : NotReset op := by
  cases op <;> trivial

theorem progress_run {pos : V → P} {env : Env V X} {o : Geometry V X} (ops : List (Op V X)) : ∀ {t t' : Tracked V X P},
    OpsOk pos env t.g ops → Progress pos o t → t.run pos env ops = some t' → Progress pos o t' := by
  induction ops with
  | nil => intro t t' _ H h; injection h with h; subst h; exact H
  | cons op ops ih =>
    intro t t' ho H h
    obtain ⟨t1, h1, h⟩ := bind_some h
    obtain ⟨a, b⟩ := on_step H.hist.strip H.off ho.1 h1 H.old H.new
    exact ih (ho.2 _ (step_g h1)) ⟨hist_step H.hist ho.1 (step_g h1), off_step (opOk_notReset ho.1) H.off h1, a, b⟩ h

theorem progress_moves {pos : V → P} {env : Env V X} {o : Geometry V X} (ms : List (Tracked.Move V X)) : ∀ {t t' : Tracked V X P},
    (∀ m ∈ ms, PlainMove pos m) → Progress pos o t → t.runMoves pos env ms = some t' → Progress pos o t' := by
  induction ms with
  | nil => intro t t' _ H h; injection h with h; subst h; exact H
  | cons m ms ih =>
    intro t t' hm H h
    obtain ⟨t1, h1, h⟩ := bind_some h
    exact ih (fun q hq => hm q (List.mem_cons_of_mem _ hq))
      (progress_run _ (opsOk_move (hm m List.mem_cons_self) H.hist.strip) H h1) h

theorem progress_save {pos : V → P} {o : Geometry V X} {t : Tracked V X P} (H : Progress pos o t) :
    Progress pos o { t with g := t.g.setSavePoint } :=
  ⟨hist_save H.hist, ⟨H.off.v, H.off.t⟩, H.old, H.new⟩

theorem hist_resetTracking {g : Geometry V X} (H : Hist g) : Hist g.resetTracking := by
  refine ⟨strip_congr H.strip rfl rfl rfl rfl (fun k => by cases k <;> rfl) (fun k => by cases k <;> exact Nat.le_refl _),
    ⟨H.wf.1, H.wf.2, H.wf.3, H.wf.4, H.wf.5, H.wf.6, H.wf.7⟩, fun ha => ?_⟩
  obtain ⟨⟨vC, tC, h1⟩, s0, h2, h3, h4⟩ := H.save ha
  exact ⟨⟨vC, tC, sv_congr h1 rfl (Nat.le_refl _) rfl (fun _ h => h) rfl rfl rfl rfl rfl⟩, s0, h2, h3,
    ⟨h4.1, h4.2, h4.3, h4.4, h4.5, h4.6, h4.7, h4.8, h4.9, h4.10, h4.11, h4.12, h4.13, h4.14⟩⟩

theorem revert_g {pos : V → P} {env : Env V X} {order : {α : Type} → List α → List α} {t t' : Tracked V X P}
    (h : t.revert pos env order = some t') : t.g.revert env order = some t'.g := by
  by_cases ha : t.g.save.active = true
  · obtain ⟨_, _, _, -, -, -, -, -, -, -, e⟩ := revert_facts h ha; exact e
  · unfold Tracked.revert at h
    unfold Geometry.revert
    rw [if_neg ha] at h ⊢
    injection h with h; rw [h]

theorem progress_start {pos : V → P} {env : Env V X} {order : {α : Type} → List α → List α} (ho : IsOrder order) {t t' : Tracked V X P}
    (H : Hist t.g) (F : t.g.save.active = true → Fits t.g) (h : t.resetTracking.revert pos env order = some t') :
    Progress pos t.g t' := by
  have H' : Hist t.resetTracking.g := hist_resetTracking H
  obtain ⟨a, b⟩ := on_revert ho H'.strip (fun ha => (H'.save ha).1) F rfl h
  exact ⟨hist_revert ho H' (revert_g h), off_revert (off_reset t) h, a, b⟩

/-! ## The first visually mutated triangle -/

theorem search_facts {g : Geometry V X} {l r : Nat} (n : Nat) : ∀ {i : Nat}, Tracked.searchLoop g l r n = some i →
    i ≤ n ∧ (i = 0 ∨ ∃ T kc, g.triangles[i - 1]? = some T ∧ g.ids[T.2.2]? = some kc ∧
      (if kc = .left then T.2.2 else T.1) < l ∧ (if kc = .left then T.2.1 else T.2.2) < r) := by
  induction n with
  | zero => intro i h; injection h with h; subst h; exact ⟨Nat.le_refl _, Or.inl rfl⟩
  | succ n ih =>
    intro i h
    unfold Tracked.searchLoop at h
    obtain ⟨T, h1, h⟩ := bind_some h
    obtain ⟨ka, -, h⟩ := bind_some h
    obtain ⟨kb, -, h⟩ := bind_some h
    have rest : Tracked.searchLoop g l r n = some i → i ≤ n + 1 ∧ (i = 0 ∨ ∃ T kc, g.triangles[i - 1]? = some T ∧ g.ids[T.2.2]? = some kc ∧
      (if kc = .left then T.2.2 else T.1) < l ∧ (if kc = .left then T.2.1 else T.2.2) < r) := fun h =>
      ⟨Nat.le_succ_of_le (ih h).1, (ih h).2⟩
    by_cases hc : ka = .left ∧ kb = .right
    · rw [if_pos hc] at h
      obtain ⟨kc, h2, h⟩ := bind_some h
      dsimp only at h
      by_cases hm : (if kc = .left then T.2.2 else T.1) < l ∧ (if kc = .left then T.2.1 else T.2.2) < r
      · rw [if_pos hm] at h
        injection h with h; subst h
        exact ⟨Nat.le_refl _, Or.inr ⟨T, kc, h1, h2, hm⟩⟩
      · rw [if_neg hm] at h; exact rest h
    · rw [if_neg hc] at h; exact rest h

theorem corner_bound {g : Geometry V X} (S : Strip g) {l r i j w : Nat} {T T' : Tri} {kc k : SideId} (hi : g.triangles[i]? = some T)
    (hc : g.ids[T.2.2]? = some kc) (hl : (if kc = .left then T.2.2 else T.1) < l) (hr : (if kc = .left then T.2.1 else T.2.2) < r)
    (hj : g.triangles[j]? = some T') (hji : j ≤ i) (hw : w ∈ corners T') (hk : g.ids[w]? = some k) :
    w < (match k with | .left => l | .right => r) := by
  have C := S.tri i T hi
  have hle : w ≤ T.2.2 := by
    have h1 := (S.tri j T' hj).le hw
    by_cases e : j = i
    · subst e; rw [hj] at hi; injection hi with hi; subst hi; exact h1
    · have := S.inc j i T' T (by omega) hj hi; omega
  by_cases e : w = T.2.2
  · subst e
    rw [hc] at hk; injection hk with hk; subst hk
    cases kc
    · simpa using hl
    · simpa using hr
  · have hlt : w < T.2.2 := by omega
    cases k
    · have h1 := C.left w hlt hk
      have h2 := C.a
      cases kc
      · simp only [if_true] at hl; dsimp only; omega
      · simp only [reduceCtorEq, if_false] at hl; dsimp only; omega
    · have h1 := C.right w hlt hk
      have h2 := C.b
      cases kc
      · simp only [if_true] at hr; dsimp only; omega
      · simp only [reduceCtorEq, if_false] at hr; dsimp only; omega

/-- No vertex of a triangle before the first visually mutated one is recorded. -/
theorem fvm_facts {t : Tracked V X P} (S : Strip t.g) {k : Nat} (h : t.firstVisuallyMutated = some k) :
    k ≤ t.firstTriangle ∧ ∀ (j : Nat) (T : Tri), j < k → t.g.triangles[j]? = some T → ∀ w ∈ corners T, ¬ Noted t w := by
  unfold Tracked.firstVisuallyMutated at h
  by_cases hc : t.firstTriangle = 0 ∨ (t.firstLeft = none ∧ t.firstRight = none)
  · rw [if_pos hc] at h
    injection h with h; subst h
    refine ⟨Nat.le_refl _, fun j T hj hT w hw hn => ?_⟩
    rcases hc with hc | hc
    · omega
    · obtain ⟨k, -, f, hf, -⟩ := hn
      cases k
      · have : t.firstLeft = some f := hf
        rw [hc.1] at this; cases this
      · have : t.firstRight = some f := hf
        rw [hc.2] at this; cases this
  · rw [if_neg hc] at h
    obtain ⟨i, h1, h⟩ := bind_some h
    injection h with h; subst h
    refine ⟨Nat.min_le_left _ _, fun j T hj hT w hw hn => ?_⟩
    obtain ⟨h2, h3⟩ := search_facts _ h1
    rcases h3 with h3 | ⟨T', kc, h3, h4, h5, h6⟩
    · omega
    · obtain ⟨k, hk, f, hf, hfw⟩ := hn
      have hb := corner_bound S h3 h4 h5 h6 hT (by omega) hw hk
      cases k
      · have : t.firstLeft = some f := hf
        dsimp only at hb
        rw [this] at hb; simp only [Option.getD_some] at hb; omega
      · have : t.firstRight = some f := hf
        dsimp only at hb
        rw [this] at hb; simp only [Option.getD_some] at hb; omega

theorem drawn_eq {g g' : Geometry V X} {j : Nat} (h : g'.triangles[j]? = g.triangles[j]?)
    (h' : ∀ T, g.triangles[j]? = some T → ∀ w ∈ corners T, g'.vertices[w]? = g.vertices[w]?) : drawn g j = drawn g' j := by
  unfold drawn
  rw [h]
  cases hT : g.triangles[j]? with
  | none => rfl
  | some T =>
    dsimp only
    have e := h' T hT
    simp only [List.filterMap_cons, List.filterMap_nil]
    rw [e T.1 (by simp [corners]), e T.2.1 (by simp [corners]), e T.2.2 (by simp [corners])]

theorem mem_drawn {g : Geometry V X} {j : Nat} {v : V} (h : v ∈ drawn g j) :
    ∃ T w, g.triangles[j]? = some T ∧ w ∈ corners T ∧ g.vertices[w]? = some v := by
  unfold drawn at h
  cases hT : g.triangles[j]? with
  | none => rw [hT] at h; cases h
  | some T =>
    rw [hT] at h
    obtain ⟨w, hw, hv⟩ := List.mem_filterMap.1 h
    exact ⟨T, w, rfl, hw, hv⟩

theorem covers {pos : V → P} {o : Geometry V X} {t : Tracked V X P} (H : Progress pos o t) {R : List P} (h : t.region pos = some R) :
    Covers pos o t.g R := by
  intro j hd v hv
  have S := H.hist.strip
  unfold Tracked.region at h
  -- the new triangle
  have key : (∀ p ∈ t.removed, p ∈ R) ∧ ∀ v ∈ drawn t.g j, pos v ∈ R := by
    by_cases hz : t.g.triangles.length = 0
    · rw [if_pos hz] at h
      injection h with h; subst h
      refine ⟨fun _ h => h, fun v hv => ?_⟩
      obtain ⟨T, w, hT, -, -⟩ := mem_drawn hv
      have := getElem?_lt hT; omega
    · rw [if_neg hz] at h
      obtain ⟨k, h1, h⟩ := bind_some h
      obtain ⟨h2, h3⟩ := fvm_facts S h1
      have hjk : k ≤ j := by
        by_contra hc
        have hc : j < k := Nat.lt_of_not_le hc
        apply hd
        have e := H.off.t.eq j (by omega)
        refine drawn_eq e (fun T hT w hw => ?_)
        rw [← e] at hT
        rcases H.new j T (by omega) hT w hw with ⟨v, h4, h5⟩ | hn
        · rw [h4, h5]
        · exact absurd hn (h3 j T hc hT w hw)
      by_cases hk : k = 0
      · rw [if_pos hk] at h
        injection h with h; subst h
        refine ⟨fun _ h => List.mem_append_left _ h, fun v hv => List.mem_append_right _ ?_⟩
        obtain ⟨T, w, -, -, hv⟩ := mem_drawn hv
        exact List.mem_map_of_mem (List.mem_of_getElem? hv)
      · rw [if_neg hk] at h
        obtain ⟨ps, h4, h⟩ := bind_some h
        injection h with h; subst h
        refine ⟨fun _ h => List.mem_append_left _ h, fun v hv => List.mem_append_right _ ?_⟩
        obtain ⟨T, w, hT, hw, hv⟩ := mem_drawn hv
        refine mem_positionsOf _ h4 T ?_ w hw v hv
        apply List.mem_of_getElem? (i := j - k)
        rw [List.getElem?_drop, Nat.add_sub_cancel' hjk]; exact hT
  rcases List.mem_append.1 hv with hv | hv
  · obtain ⟨T, w, hT, hw, hv⟩ := mem_drawn hv
    rcases H.old j T hT with h4 | ⟨h4, h5⟩
    · exact key.1 _ (h4 w hw v hv)
    · rcases h5 w hw v hv with h6 | ⟨v', h6, h7⟩
      · exact key.1 _ h6
      · rw [← h7]
        apply key.2
        unfold drawn
        rw [h4]
        exact List.mem_filterMap.2 ⟨w, hw, h6⟩
  · exact key.2 v hv

theorem covers_extend {pos : V → P} {env : Env V X} {order : {α : Type} → List α → List α} (ho : IsOrder order) {t t' : Tracked V X P}
    {real predicted : List (Tracked.Move V X)} {u : Update P} (H : Hist t.g) (F : t.g.save.active = true → Fits t.g)
    (hr : ∀ m ∈ real, PlainMove pos m) (hp : ∀ m ∈ predicted, PlainMove pos m)
    (h : t.extend pos env order real predicted = some (t', u)) : Covers pos t.g t'.g u.region := by
  obtain ⟨t1, t2, h1, h2, h3, h4⟩ := extend_facts h
  have P1 := progress_start ho H F h1
  have P2 := progress_moves _ hr P1 h2
  have P3 := progress_moves _ hp (progress_save P2) h3
  obtain ⟨R, h5, h4⟩ := bind_some h4
  injection h4 with h4; subst h4
  exact covers P3 h5

theorem hist_run {pos : V → P} {env : Env V X} (ops : List (Op V X)) : ∀ {t t' : Tracked V X P},
    OpsOk pos env t.g ops → Hist t.g → t.run pos env ops = some t' → Hist t'.g := by
  induction ops with
  | nil => intro t t' _ H h; injection h with h; subst h; exact H
  | cons op ops ih =>
    intro t t' ho H h
    obtain ⟨t1, h1, h⟩ := bind_some h
    exact ih (ho.2 _ (step_g h1)) (hist_step H ho.1 (step_g h1)) h

theorem hist_moves {pos : V → P} {env : Env V X} (ms : List (Tracked.Move V X)) : ∀ {t t' : Tracked V X P},
    (∀ m ∈ ms, PlainMove pos m) → Hist t.g → t.runMoves pos env ms = some t' → Hist t'.g := by
  induction ms with
  | nil => intro t t' _ H h; injection h with h; subst h; exact H
  | cons m ms ih =>
    intro t t' hm H h
    obtain ⟨t1, h1, h⟩ := bind_some h
    exact ih (fun q hq => hm q (List.mem_cons_of_mem _ hq)) (hist_run _ (opsOk_move (hm m List.mem_cons_self) H.strip) H h1) h

theorem hist_extend {pos : V → P} {env : Env V X} {order : {α : Type} → List α → List α} (ho : IsOrder order) {t t' : Tracked V X P}
    {real predicted : List (Tracked.Move V X)} {u : Update P} (H : Hist t.g)
    (hr : ∀ m ∈ real, PlainMove pos m) (hp : ∀ m ∈ predicted, PlainMove pos m)
    (h : t.extend pos env order real predicted = some (t', u)) : Hist t'.g := by
  obtain ⟨t1, t2, h1, h2, h3, -⟩ := extend_facts h
  exact hist_moves _ hp (hist_save (hist_moves _ hr (hist_revert ho (hist_resetTracking H) (revert_g h1)) h2)) h3

/-! ## Predictions without clearing -/

theorem step_containsAll {pos : V → P} {env : Env V X} {g g' : Geometry V X} {op : Op V X} (ho : OpOk pos g op) (hc : op ≠ .clear)
    (h : g.step env op = some g') : g'.save.containsAll = g.save.containsAll := by
  cases op with
  | bufferVertex k v =>
    obtain ⟨st, -, rfl | ⟨w, rfl⟩⟩ := appendVertexToSide_cases h
    · rw [setSide_save]
    · rw [appendVertexToMesh_save, setSide_save]
  | appendVertex k v => injection h with h; subst h; rw [appendVertexToMesh_save]
  | setVertex i v => exact (setVertex_save h).2.2.2.2.2
  | appendTriangle t => injection h with h; subst h; rfl
  | setTriangle i t => exact ho.elim
  | unzip k f t => exact ho.elim
  | setOpposite i o =>
    obtain ⟨_, _, h⟩ := bind_some h
    split at h
    · injection h with h; subst h; rfl
    · injection h with h; subst h; dsimp only; split <;> rfl
  | addDiscontinuity k r => injection h with h; subst h; rw [setSide_save]
  | setState k s => injection h with h; subst h; rw [setSide_save]
  | addBreak =>
    obtain ⟨s1, h1, h⟩ := bind_some h
    injection h with h; subst h
    show s1.save.containsAll = _
    have lab : ∀ {s : Side V X} {g g' : Geometry V X}, g.labelLast env s = some g' → g'.save.containsAll = g.save.containsAll := by
      intro s g g' h
      unfold Geometry.labelLast at h
      split at h
      · injection h with h; subst h; rfl
      · obtain ⟨i, -, h⟩ := bind_some h
        obtain ⟨v, -, h⟩ := bind_some h
        exact (setVertex_save h).2.2.2.2.2
    unfold Geometry.labelBoth at h1
    split at h1
    · obtain ⟨s2, h2, h1⟩ := bind_some h1
      exact (lab h1).trans (lab h2)
    · injection h1 with h1; subst h1; rfl
  | clear => exact absurd rfl hc
  | derivatives us =>
    obtain ⟨a, b⟩ := updateVertices_same us h
    rw [b]
  | resetTracking => exact ho.elim

theorem run_containsAll {pos : V → P} {env : Env V X} (ops : List (Op V X)) : ∀ {t t' : Tracked V X P},
    OpsOk pos env t.g ops → .clear ∉ ops → t.run pos env ops = some t' → t'.g.save.containsAll = t.g.save.containsAll := by
  induction ops with
  | nil => intro t t' _ _ h; injection h with h; subst h; rfl
  | cons op ops ih =>
    intro t t' ho hc h
    obtain ⟨t1, h1, h⟩ := bind_some h
    rw [ih (ho.2 _ (step_g h1)) (fun hm => hc (List.mem_cons_of_mem _ hm)) h]
    exact step_containsAll ho.1 (fun e => hc (by rw [e]; exact List.mem_cons_self)) (step_g h1)

theorem moves_containsAll {pos : V → P} {env : Env V X} (ms : List (Tracked.Move V X)) : ∀ {t t' : Tracked V X P},
    (∀ m ∈ ms, PlainMove pos m) → (∀ m ∈ ms, ∀ g, .clear ∉ m g) → Hist t.g → t.runMoves pos env ms = some t' →
    t'.g.save.containsAll = t.g.save.containsAll := by
  induction ms with
  | nil => intro t t' _ _ _ h; injection h with h; subst h; rfl
  | cons m ms ih =>
    intro t t' hm hc H h
    obtain ⟨t1, h1, h⟩ := bind_some h
    have ho := opsOk_move (env := env) (hm m List.mem_cons_self) H.strip
    rw [ih (fun q hq => hm q (List.mem_cons_of_mem _ hq)) (fun q hq => hc q (List.mem_cons_of_mem _ hq)) (hist_run _ ho H h1) h]
    exact run_containsAll _ ho (hc m List.mem_cons_self _) h1

theorem fits_of_not_containsAll {g : Geometry V X} (H : Hist g) (hc : g.save.containsAll = false) : g.save.active = true → Fits g := by
  intro ha j T hT hj
  obtain ⟨⟨vC, tC, S⟩, -⟩ := H.save ha
  obtain ⟨e1, e2, -⟩ := S.none hc
  have h1 := S.low j T hT (by omega)
  have h2 := (H.strip.tri j T hT).a
  have h3 := (H.strip.tri j T hT).b
  omega

theorem fits_extend {pos : V → P} {env : Env V X} {order : {α : Type} → List α → List α} (ho : IsOrder order) {t t' : Tracked V X P}
    {real predicted : List (Tracked.Move V X)} {u : Update P} (H : Hist t.g)
    (hr : ∀ m ∈ real, PlainMove pos m) (hp : ∀ m ∈ predicted, PlainMove pos m) (hc : ∀ m ∈ predicted, ∀ g, .clear ∉ m g)
    (h : t.extend pos env order real predicted = some (t', u)) : t'.g.save.active = true → Fits t'.g := by
  have H' := hist_extend ho H hr hp h
  obtain ⟨t1, t2, h1, h2, h3, -⟩ := extend_facts h
  have H2 := hist_save (hist_moves _ hr (hist_revert ho (hist_resetTracking H) (revert_g h1)) h2)
  exact fits_of_not_containsAll H' (moves_containsAll _ hp hc H2 h3)

theorem hist_reset (env : Env V X) (sv : Save V X) : Hist (Geometry.reset env sv) :=
  ⟨strip_reset env sv, wf_reset env sv, fun h => by cases h⟩

theorem hist_extendAll {pos : V → P} {env : Env V X} {order : {α : Type} → List α → List α} (ho : IsOrder order)
    (rounds : List (List (Tracked.Move V X) × List (Tracked.Move V X))) : ∀ {t t' : Tracked V X P} {u u' : Update P}, Hist t.g →
    (∀ r ∈ rounds, ∀ m ∈ r.1 ++ r.2, PlainMove pos m) → t.extendAll pos env order u rounds = some (t', u') → Hist t'.g := by
  induction rounds with
  | nil => intro t t' u u' H _ h; injection h with h; injection h with h1 h2; subst h1; exact H
  | cons r rs ih =>
    intro t t' u u' H hm h
    obtain ⟨⟨t1, w⟩, h1, h⟩ := bind_some h
    exact ih (hist_extend ho H (fun m hq => hm r List.mem_cons_self m (List.mem_append_left _ hq))
      (fun m hq => hm r List.mem_cons_self m (List.mem_append_right _ hq)) h1) (fun q hq => hm q (List.mem_cons_of_mem _ hq)) h

theorem fits_extendAll {pos : V → P} {env : Env V X} {order : {α : Type} → List α → List α} (ho : IsOrder order)
    (rounds : List (List (Tracked.Move V X) × List (Tracked.Move V X))) : ∀ {t t' : Tracked V X P} {u u' : Update P}, Hist t.g →
    (t.g.save.active = true → Fits t.g) → (∀ r ∈ rounds, ∀ m ∈ r.1 ++ r.2, PlainMove pos m) →
    (∀ r ∈ rounds, ∀ m ∈ r.2, ∀ g, .clear ∉ m g) → t.extendAll pos env order u rounds = some (t', u') →
    t'.g.save.active = true → Fits t'.g := by
  induction rounds with
  | nil => intro t t' u u' _ F _ _ h; injection h with h; injection h with h1 h2; subst h1; exact F
  | cons r rs ih =>
    intro t t' u u' H F hm hc h
    obtain ⟨⟨t1, w⟩, h1, h⟩ := bind_some h
    have hr := fun m hq => hm r List.mem_cons_self m (List.mem_append_left _ hq)
    have hp := fun m hq => hm r List.mem_cons_self m (List.mem_append_right _ hq)
    exact ih (hist_extend ho H hr hp h1) (fits_extend ho H hr hp (hc r List.mem_cons_self) h1)
      (fun q hq => hm q (List.mem_cons_of_mem _ hq)) (fun q hq => hc q (List.mem_cons_of_mem _ hq)) h

theorem covers_refl (pos : V → P) (g : Geometry V X) (R : List P) : Covers pos g g R := fun _ h => absurd rfl h

theorem covers_trans {pos : V → P} {a b c : Geometry V X} {R R' : List P} (h : Covers pos a b R) (h' : Covers pos b c R') :
    Covers pos a c (R ++ R') := by
  intro j hd v hv
  by_cases e : drawn a j = drawn b j
  · rw [e] at hd hv
    exact List.mem_append_right _ (h' j hd v hv)
  · by_cases e' : drawn b j = drawn c j
    · rw [← e'] at hv
      exact List.mem_append_left _ (h j e v hv)
    · rcases List.mem_append.1 hv with hv | hv
      · exact List.mem_append_left _ (h j e v (List.mem_append_left _ hv))
      · exact List.mem_append_right _ (h' j e' v (List.mem_append_right _ hv))

theorem covers_extendAll {pos : V → P} {env : Env V X} {order : {α : Type} → List α → List α} (ho : IsOrder order) {o : Geometry V X}
    (rounds : List (List (Tracked.Move V X) × List (Tracked.Move V X))) : ∀ {t t' : Tracked V X P} {u u' : Update P}, Hist t.g →
    (t.g.save.active = true → Fits t.g) → (∀ r ∈ rounds, ∀ m ∈ r.1 ++ r.2, PlainMove pos m) →
    (∀ r ∈ rounds, ∀ m ∈ r.2, ∀ g, .clear ∉ m g) → Covers pos o t.g u.region →
    t.extendAll pos env order u rounds = some (t', u') → Covers pos o t'.g u'.region := by
  induction rounds with
  | nil => intro t t' u u' _ F _ _ C h; injection h with h; injection h with h1 h2; subst h1; subst h2; exact C
  | cons r rs ih =>
    intro t t' u u' H F hm hc C h
    obtain ⟨⟨t1, w⟩, h1, h⟩ := bind_some h
    have hr := fun m hq => hm r List.mem_cons_self m (List.mem_append_left _ hq)
    have hp := fun m hq => hm r List.mem_cons_self m (List.mem_append_right _ hq)
    exact ih (hist_extend ho H hr hp h1) (fits_extend ho H hr hp (hc r List.mem_cons_self) h1)
      (fun q hq => hm q (List.mem_cons_of_mem _ hq)) (fun q hq => hc q (List.mem_cons_of_mem _ hq))
      (covers_trans C (covers_extend ho H F hr hp h1)) h

theorem off_extendAll {pos : V → P} {env : Env V X} {order : {α : Type} → List α → List α} {o : Geometry V X}
    (rounds : List (List (Tracked.Move V X) × List (Tracked.Move V X))) : ∀ {t t' : Tracked V X P} {u u' : Update P},
    (∀ r ∈ rounds, ∀ m ∈ r.1 ++ r.2, ∀ g, ∀ op ∈ m g, NotReset op) →
    Unchanged (indexBuffer o) (indexBuffer t.g) u.firstIndex ∧ Unchanged o.vertices t.g.vertices u.firstVertex →
    t.extendAll pos env order u rounds = some (t', u') →
    Unchanged (indexBuffer o) (indexBuffer t'.g) u'.firstIndex ∧ Unchanged o.vertices t'.g.vertices u'.firstVertex := by
  induction rounds with
  | nil => intro t t' u u' _ C h; injection h with h; injection h with h1 h2; subst h1; subst h2; exact C
  | cons r rs ih =>
    intro t t' u u' hm C h
    obtain ⟨⟨t1, w⟩, h1, h⟩ := bind_some h
    obtain ⟨a, b⟩ := off_extend (fun m hq => hm r List.mem_cons_self m (List.mem_append_left _ hq))
      (fun m hq => hm r List.mem_cons_self m (List.mem_append_right _ hq)) h1
    exact ih (fun q hq => hm q (List.mem_cons_of_mem _ hq)) ⟨unchanged_trans C.1 a, unchanged_trans C.2 b⟩ h

end Verif.StrokeGeom
