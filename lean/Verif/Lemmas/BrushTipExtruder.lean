import Verif.Lemmas.StrokeGeometry
import Verif.Spec.BrushTipExtruder

/-! # Lemmas for C50 -/

set_option autoImplicit false

namespace Verif.StrokeGeom

open Verif.StrokeGeom.Spec

variable {T E V X C : Type}

/-! ## What a change of the triangulation leaves alone -/

structure Grows (s s' : Geometry V X) : Prop where
  lastBreak : s'.lastBreak = s.lastBreak
  firstLeft : s'.firstMutatedLeft = s.firstMutatedLeft
  firstRight : s'.firstMutatedRight = s.firstMutatedRight
  left : s.left.indices <+: s'.left.indices
  right : s.right.indices <+: s'.right.indices

theorem Grows.refl (s : Geometry V X) : Grows s s := ⟨rfl, rfl, rfl, List.prefix_refl _, List.prefix_refl _⟩

theorem Grows.trans {s t u : Geometry V X} (a : Grows s t) (b : Grows t u) : Grows s u :=
  ⟨b.1.trans a.1, b.2.trans a.2, b.3.trans a.3, a.4.trans b.4, a.5.trans b.5⟩

theorem grows_setSide (s : Geometry V X) (k : SideId) {sd : Side V X} (h : (s.side k).indices <+: sd.indices) :
    Grows s (s.setSide k sd) := by
  cases k
  · exact ⟨rfl, rfl, rfl, h, List.prefix_refl _⟩
  · exact ⟨rfl, rfl, rfl, List.prefix_refl _, h⟩

theorem grows_appendVertexToMesh (s : Geometry V X) (k : SideId) (v : V) : Grows s (s.appendVertexToMesh k v) := by
  have h := grows_setSide s k (sd := { s.side k with indices := (s.side k).indices ++ [s.vertices.length] }) (List.prefix_append _ _)
  exact ⟨h.1, h.2, h.3, h.4, h.5⟩

theorem grows_setTriangle {s s' : Geometry V X} {i : Nat} {t : Tri} {u : Bool} (h : s.setTriangle i t u = some s') : Grows s s' := by
  obtain ⟨old, _, h⟩ := bind_some h
  injection h with h; subst h
  split <;> exact ⟨rfl, rfl, rfl, List.prefix_refl _, List.prefix_refl _⟩

theorem grows_unzipLoop (f : Nat → Tri → Tri) (k i : Nat) : ∀ {s s' : Geometry V X}, Geometry.unzipLoop f k i s = some s' →
    Grows s s' := by
  induction i with
  | zero => intro s s' h; injection h with h; subst h; exact Grows.refl _
  | succ i ih =>
    intro s s' h
    unfold Geometry.unzipLoop at h
    split at h
    · obtain ⟨a, ha, h⟩ := bind_some h
      dsimp only at h
      rw [unzipStep ha] at h
      obtain ⟨s1, h1, h⟩ := bind_some h
      exact (grows_setTriangle h1).trans (ih h)
    · injection h with h; subst h; exact Grows.refl _

theorem grows_step {env : Env V X} {s s' : Geometry V X} {op : Op V X} (ho : Inner op) (h : s.step env op = some s') : Grows s s' := by
  cases op with
  | bufferVertex k v =>
    have h : s.appendVertexToSide env k v = some s' := h
    unfold Geometry.appendVertexToSide at h
    dsimp only at h
    split at h
    · obtain ⟨_, _, h⟩ := bind_some h
      injection h with h; subst h
      refine Grows.trans (t := s.setSide k _) (grows_setSide s k ?_) (grows_appendVertexToMesh _ _ _)
      exact List.prefix_refl _
    · injection h with h; subst h; exact grows_setSide s k (List.prefix_refl _)
  | appendVertex k v => injection h with h; subst h; exact grows_appendVertexToMesh s k v
  | setVertex i v =>
    obtain ⟨sv, -, rfl⟩ := setVertex_effect h
    exact ⟨rfl, rfl, rfl, List.prefix_refl _, List.prefix_refl _⟩
  | appendTriangle a => injection h with h; subst h; exact ⟨rfl, rfl, rfl, List.prefix_refl _, List.prefix_refl _⟩
  | setTriangle i a => exact grows_setTriangle h
  | unzip k f a =>
    obtain ⟨s1, h1, h⟩ := bind_some h
    split at h
    · injection h with h; subst h
      have G := grows_unzipLoop f k _ h1
      exact ⟨G.1, G.2, G.3, G.4, G.5⟩
    · cases h
  | setOpposite i o =>
    obtain ⟨_, _, h⟩ := bind_some h
    split at h
    · injection h with h; subst h; exact Grows.refl _
    · injection h with h; subst h; split <;> exact ⟨rfl, rfl, rfl, List.prefix_refl _, List.prefix_refl _⟩
  | addDiscontinuity k r => injection h with h; subst h; exact grows_setSide s k (List.prefix_refl _)
  | setState k sd => injection h with h; subst h; exact grows_setSide s k (List.prefix_refl _)
  | addBreak => cases ho
  | clear => cases ho
  | derivatives us => cases ho
  | resetTracking => cases ho

theorem Inner.keeps {core : V → C} {op : Op V X} (h : Inner op) : Keeps core op := by
  cases op <;> simp_all [Inner, Keeps]

/-- A program. -/
theorem exec_ok {core : V → C} {env : Env V X} (he : Respects core env) {g : Geometry V X} (Wg : WF g) (p : Program V X) :
    ∀ {s t s' : Geometry V X}, OkProgram core p → Same core s t → t.save.active = false → Good core g s → s.exec env p = some s' →
    ∃ t', t.exec env p = some t' ∧ Same core s' t' ∧ t'.save.active = false ∧ Good core g s' ∧ s'.save.active = s.save.active ∧
      Grows s s' := by
  induction p with
  | nil =>
    intro s t s' _ R ht G h; injection h with h; subst h
    exact ⟨t, rfl, R, ht, G, rfl, Grows.refl _⟩
  | cons f p ih =>
    intro s t s' hp R ht G h
    obtain ⟨s1, h1, h⟩ := bind_some h
    have hf := hp f List.mem_cons_self
    have hg := grows_step (hf.1 s) h1
    have ha := step_active h1
    have G1 := good_step Wg G (Inner.keeps (hf.1 s)) h1
    have e := hf.2 s t (same_iff.1 R)
    rw [e] at h1
    obtain ⟨t1, ht1, R1, e1⟩ := same_step he R ht (Inner.keeps (hf.1 t)) h1
    obtain ⟨t', ht', R', i', G', a', g'⟩ := ih (fun f hf => hp f (List.mem_cons_of_mem _ hf)) R1 (e1.trans ht) G1 h
    refine ⟨t', ?_, R', i', G', a'.trans ha, hg.trans g'⟩
    unfold Geometry.exec
    rw [ht1]; exact ht'

theorem updateVertices_facts (us : List (Nat × (V → V))) : ∀ {s s' : Geometry V X}, s.updateVertices us = some s' →
    ∃ vs, s' = { s with vertices := vs } := by
  induction us with
  | nil => intro s s' h; injection h with h; subst h; exact ⟨_, rfl⟩
  | cons u us ih =>
    intro s s' h
    obtain ⟨i, f⟩ := u
    obtain ⟨v, _, h⟩ := bind_some h
    obtain ⟨vs, rfl⟩ := ih h
    exact ⟨vs, rfl⟩

theorem updateVertices_core {core : V → C} (us : List (Nat × (V → V))) : ∀ {s s' : Geometry V X},
    (∀ u ∈ us, ∀ v, core (u.2 v) = core v) → s.updateVertices us = some s' → Same core s' s := by
  induction us with
  | nil => intro s s' _ h; injection h with h; subst h; exact same_iff.2 rfl
  | cons u us ih =>
    intro s s' hu h
    obtain ⟨i, f⟩ := u
    obtain ⟨v, hv, h⟩ := bind_some h
    have R := ih (fun u hm => hu u (List.mem_cons_of_mem _ hm)) h
    refine ⟨R.1.trans ?_, R.2, R.3, R.4, R.5, R.6, R.7, R.8⟩
    have hf := hu (i, f) List.mem_cons_self v
    show (s.vertices.set i (f v)).map core = s.vertices.map core
    rw [List.map_set, hf]
    apply List.ext_getElem?
    intro j
    by_cases hij : i = j
    · subst hij
      have := List.getElem?_eq_some_iff.1 hv
      obtain ⟨hl, hv'⟩ := this
      rw [List.getElem?_set_self (by simpa using hl), List.getElem?_map, hv]; rfl
    · rw [List.getElem?_set_ne hij]

/-- What a break does to the sides. -/
theorem addBreak_facts {env : Env V X} {s s' : Geometry V X} (h : s.addBreak env = some s') :
    s'.left.indices = s.left.indices ∧ s'.right.indices = s.right.indices ∧ s'.lastBreak.count = s.lastBreak.count + 1 ∧
    s'.lastBreak.left.indexCount = s.left.indices.length ∧ s'.lastBreak.right.indexCount = s.right.indices.length ∧
    s'.firstMutatedLeft = s.left.indices.length ∧ s'.firstMutatedRight = s.right.indices.length := by
  obtain ⟨s1, h1, h⟩ := bind_some h
  have A : s1.left = s.left ∧ s1.right = s.right ∧ s1.lastBreak = s.lastBreak := by
    have L : ∀ {s s' : Geometry V X} {sd : Side V X}, s.labelLast env sd = some s' →
        s'.left = s.left ∧ s'.right = s.right ∧ s'.lastBreak = s.lastBreak := by
      intro s s' sd h
      unfold Geometry.labelLast at h
      split at h
      · injection h with h; subst h; exact ⟨rfl, rfl, rfl⟩
      · obtain ⟨i, _, h⟩ := bind_some h
        obtain ⟨v, _, h⟩ := bind_some h
        obtain ⟨sv, -, rfl⟩ := setVertex_effect h
        exact ⟨rfl, rfl, rfl⟩
    unfold Geometry.labelBoth at h1
    split at h1
    · obtain ⟨s2, h2, h1⟩ := bind_some h1
      obtain ⟨a, b, c⟩ := L h2
      obtain ⟨a', b', c'⟩ := L h1
      exact ⟨a'.trans a, b'.trans b, c'.trans c⟩
    · injection h1 with h1; subst h1; exact ⟨rfl, rfl, rfl⟩
  obtain ⟨a, b, c⟩ := A
  injection h with h; subst h
  refine ⟨?_, ?_, ?_, ?_, ?_, ?_, ?_⟩ <;> simp [Geometry.breakPartition, Geometry.breakSide, a, b, c]

/-- What clearing does to the sides. -/
theorem clear_facts {env : Env V X} {s s' : Geometry V X} (h : s.clearSinceBreak env = some s') :
    s' = s ∨ (s'.left.indices = resize s.left.indices s.lastBreak.left.indexCount 0 ∧
      s'.right.indices = resize s.right.indices s.lastBreak.right.indexCount 0 ∧ s'.lastBreak = s.lastBreak ∧
      s'.firstMutatedLeft = min s.firstMutatedLeft s.lastBreak.left.indexCount ∧
      s'.firstMutatedRight = min s.firstMutatedRight s.lastBreak.right.indexCount) := by
  unfold Geometry.clearSinceBreak at h
  split at h
  · injection h with h; subst h; exact Or.inl rfl
  · obtain ⟨s1, h1, h⟩ := bind_some h
    injection h with h; subst h
    right
    have S := capture_same (core := fun _ : V => ()) h1
    have F : s1.firstMutatedLeft = s.firstMutatedLeft ∧ s1.firstMutatedRight = s.firstMutatedRight := by
      unfold Geometry.captureIfNeeded at h1
      split at h1
      · unfold Geometry.capture at h1
        dsimp only at h1
        split at h1
        · obtain ⟨_, _, h⟩ := bind_some h1
          obtain ⟨_, _, h⟩ := bind_some h
          obtain ⟨_, _, h⟩ := bind_some h
          obtain ⟨_, _, h⟩ := bind_some h
          obtain ⟨_, _, h⟩ := bind_some h
          obtain ⟨_, _, h⟩ := bind_some h
          obtain ⟨_, _, h⟩ := bind_some h
          injection h with h; subst h; exact ⟨rfl, rfl⟩
        · cases h1
      · injection h1 with h1; subst h1; exact ⟨rfl, rfl⟩
    refine ⟨?_, ?_, ?_, ?_, ?_⟩ <;>
      simp [Geometry.truncateToBreak, Geometry.breakPartition, Geometry.truncateSide, resize_length, S.left, S.right, S.lastBreak, F.1, F.2]

/-! ## The simulation -/

/-- The extruder has the stroke `r`. -/
structure Sim (core : V → C) (e : Extruder E V X) (r : Stroke E V X) : Prop where
  ext : e.extrusions = r.extrusions
  same : Same core e.geometry r.geometry
  inactive : r.geometry.save.active = false
  count : e.geometry.lastBreak.count = r.outlines.length
  lenLe : r.outlines.length ≤ e.outlines.length
  lenGe : e.outlines.length ≤ r.outlines.length + 1
  closed : e.outlines.take r.outlines.length = r.outlines
  left : (r.outlines.map (·.1)).flatten = e.geometry.left.indices.take e.geometry.lastBreak.left.indexCount
  right : (r.outlines.map (·.2)).flatten = e.geometry.right.indices.take e.geometry.lastBreak.right.indexCount
  opened : ∀ o, e.outlines[r.outlines.length]? = some o →
    o.1 <+: e.geometry.left.indices.drop e.geometry.lastBreak.left.indexCount ∧
    o.2 <+: e.geometry.right.indices.drop e.geometry.lastBreak.right.indexCount
  firstLeft : e.geometry.lastBreak.left.indexCount ≤ e.geometry.firstMutatedLeft
  firstRight : e.geometry.lastBreak.right.indexCount ≤ e.geometry.firstMutatedRight

/-- The save point of the extruder has the stroke `r0`. -/
structure Rest (core : V → C) (e : Extruder E V X) (r r0 : Stroke E V X) (g : Geometry V X) : Prop where
  same : Same core g r0.geometry
  inactive : r0.geometry.save.active = false
  savedCount : e.savedCount = r0.extrusions.length
  tail : TailOk r0.extrusions e.extrusions e.deleted
  at_break : e.deleted ≠ [] → r0.extrusions.length - e.deleted.length = 0 ∨
    r0.extrusions[r0.extrusions.length - e.deleted.length - 1]? = some none
  outlines : r0.outlines <+: r.outlines
  count : g.lastBreak.count = r0.outlines.length
  left : (r0.outlines.map (·.1)).flatten = g.left.indices.take g.lastBreak.left.indexCount
  right : (r0.outlines.map (·.2)).flatten = g.right.indices.take g.lastBreak.right.indexCount

/-- `v` if volatile states are extruded. -/
structure Hold (core : V → C) (v : Bool) (e : Extruder E V X) (r r0 : Stroke E V X) (g : Geometry V X) : Prop where
  wf : WF g
  good : Good core g e.geometry
  active : e.geometry.save.active = v
  rest : v = true → Rest core e r r0 g

theorem prefix_drop {α : Type} {l l' : List α} (h : l <+: l') (n : Nat) : l.drop n <+: l'.drop n := by
  obtain ⟨t, rfl⟩ := h
  rw [List.drop_append]
  exact List.prefix_append _ _

theorem prefix_take_eq {α : Type} {l l' : List α} (h : l <+: l') {n : Nat} (hn : n ≤ l.length) : l'.take n = l.take n := by
  obtain ⟨t, rfl⟩ := h
  exact List.take_append_of_le_length hn

/-- More geometry since the last break. -/
theorem Sim.grow {core : V → C} {e : Extruder E V X} {r : Stroke E V X} (S : Sim core e r) (W : WF e.geometry)
    {s t : Geometry V X} (G : Grows e.geometry s) (R : Same core s t) (ht : t.save.active = false) :
    Sim core { e with geometry := s } { r with geometry := t } where
  ext := S.ext
  same := R
  inactive := ht
  count := by show s.lastBreak.count = _; rw [G.lastBreak]; exact S.count
  lenLe := S.lenLe
  lenGe := S.lenGe
  closed := S.closed
  left := by
    show _ = s.left.indices.take s.lastBreak.left.indexCount
    rw [G.lastBreak, prefix_take_eq G.left W.left.1]; exact S.left
  right := by
    show _ = s.right.indices.take s.lastBreak.right.indexCount
    rw [G.lastBreak, prefix_take_eq G.right W.right.1]; exact S.right
  opened o ho := by
    show _ <+: s.left.indices.drop s.lastBreak.left.indexCount ∧ _ <+: s.right.indices.drop s.lastBreak.right.indexCount
    rw [G.lastBreak]
    exact ⟨(S.opened o ho).1.trans (prefix_drop G.left _), (S.opened o ho).2.trans (prefix_drop G.right _)⟩
  firstLeft := by show s.lastBreak.left.indexCount ≤ s.firstMutatedLeft; rw [G.lastBreak, G.firstLeft]; exact S.firstLeft
  firstRight := by show s.lastBreak.right.indexCount ≤ s.firstMutatedRight; rw [G.lastBreak, G.firstRight]; exact S.firstRight

theorem Hold.grow {core : V → C} {v : Bool} {e : Extruder E V X} {r r0 : Stroke E V X} {g : Geometry V X}
    (H : Hold core v e r r0 g) {s t : Geometry V X} (G : Good core g s) (ha : s.save.active = e.geometry.save.active) :
    Hold core v { e with geometry := s } { r with geometry := t } r0 g :=
  ⟨H.wf, G, ha.trans H.active, fun h => by
    have R := H.rest h
    exact ⟨R.1, R.2, R.3, R.4, R.5, R.6, R.7, R.8, R.9⟩⟩

/-- A program of the tip. -/
theorem sim_exec {core : V → C} {env : Env V X} (he : Respects core env) {v : Bool} {e : Extruder E V X} {r r0 : Stroke E V X}
    {g s : Geometry V X} (S : Sim core e r) (H : Hold core v e r r0 g) {p : Program V X} (hp : OkProgram core p)
    (h : e.geometry.exec env p = some s) :
    ∃ t, r.geometry.exec env p = some t ∧ Sim core { e with geometry := s } { r with geometry := t } ∧
      Hold core v { e with geometry := s } { r with geometry := t } r0 g := by
  obtain ⟨t, ht, R, hi, G, ha, hg⟩ := exec_ok he H.wf p hp S.same S.inactive H.good h
  exact ⟨t, ht, S.grow H.good.1 hg R hi, H.grow G ha⟩

theorem take_flatten_length {α : Type} (l : List α) (n : Nat) (h : n ≤ l.length) : (l.take n).length = n := by
  rw [List.length_take]; exact Nat.min_eq_left h

/-- Completing the outline. -/
theorem completeOutline_ok {os ro : List (List Nat × List Nat)} {l r : List Nat} {bl br : Nat} (debug : Bool)
    (h1 : ro.length ≤ os.length) (h2 : os.length ≤ ro.length + 1) (h3 : os.take ro.length = ro)
    (h4 : ∀ o, os[ro.length]? = some o → o.1 <+: l.drop bl ∧ o.2 <+: r.drop br) (hl : bl ≤ l.length) (hr : br ≤ r.length) :
    Extruder.completeOutline debug (Extruder.openOutline os ro.length) (ro.length + 1) bl br l r =
      some (ro ++ [(l.drop bl, r.drop br)]) := by
  have key : ∃ o, Extruder.openOutline os ro.length = ro ++ [o] ∧ o.1 <+: l.drop bl ∧ o.2 <+: r.drop br := by
    unfold Extruder.openOutline
    split
    · rename_i h
      refine ⟨([], []), ?_, List.nil_prefix, List.nil_prefix⟩
      rw [← h, List.take_length] at h3
      rw [h3]
    · rename_i h
      have hlen : ro.length < os.length := by omega
      refine ⟨os[ro.length], ?_, h4 _ (List.getElem?_eq_getElem hlen)⟩
      have e1 : os = os.take (ro.length + 1) := by rw [List.take_of_length_le (by omega)]
      have e2 := List.take_succ_eq_append_getElem hlen
      rw [h3] at e2
      exact e1.trans e2
  obtain ⟨o, ho, p1, p2⟩ := key
  rw [ho]
  unfold Extruder.completeOutline
  rw [List.getLast?_append_of_ne_nil (l₁ := ro) (by simp)]
  have q1 := p1.length_le
  have q2 := p2.length_le
  rw [List.length_drop] at q1 q2
  simp only [List.getLast?_singleton, Option.bind_eq_bind, Option.bind_some]
  rw [if_neg]
  · obtain ⟨t1, e1⟩ := p1
    obtain ⟨t2, e2⟩ := p2
    simp only [List.dropLast_concat]
    have d1 : o.1 ++ l.drop (bl + o.1.length) = l.drop bl := by
      rw [← List.drop_drop, ← e1, List.drop_left]
    have d2 : o.2 ++ r.drop (br + o.2.length) = r.drop br := by
      rw [← List.drop_drop, ← e2, List.drop_left]
    rw [d1, d2]
  · simp only [List.length_append, List.length_singleton]
    omega

theorem Rest.of_eq {core : V → C} {e e' : Extruder E V X} {r r' r0 : Stroke E V X} {g : Geometry V X} (R : Rest core e r r0 g)
    (h1 : e'.savedCount = e.savedCount) (h2 : e'.deleted = e.deleted) {l : List (Option E)} (h3 : e'.extrusions = e.extrusions ++ l)
    (h4 : r.outlines <+: r'.outlines) : Rest core e' r' r0 g :=
  ⟨R.same, R.inactive, h1 ▸ R.savedCount, by rw [h3, h2]; exact R.tail.append l, by rw [h2]; exact R.at_break, R.outlines.trans h4,
   R.count, R.left, R.right⟩

/-- The second half of a break-point. -/
theorem sim_finish {core : V → C} {env : Env V X} (he : Respects core env) {tip : Tip T E V X} (ht : OkTip core tip) {v : Bool}
    {e e' : Extruder E V X} {r r0 : Stroke E V X} {g : Geometry V X} (S : Sim core e r) (H : Hold core v e r r0 g) {debug : Bool}
    (h : e.finishBreak debug env tip = some e') :
    (∀ d, e.finishBreak d env tip = some e') ∧
    ∃ r', r.finishPart env = some r' ∧ Sim core e' r' ∧ Hold core v e' r' r0 g := by
  have W := H.good.1
  unfold Extruder.finishBreak at h ⊢
  unfold Stroke.finishPart
  rw [← S.same.lastBreak, ← S.same.left, ← S.same.right]
  dsimp only at h ⊢
  have hcond : (e.geometry.left.indices.length ≤ e.geometry.lastBreak.left.indexCount ∧
      e.geometry.right.indices.length ≤ e.geometry.lastBreak.right.indexCount) ↔
      (e.geometry.left.indices.drop e.geometry.lastBreak.left.indexCount = [] ∧
        e.geometry.right.indices.drop e.geometry.lastBreak.right.indexCount = []) := by
    rw [List.drop_eq_nil_iff, List.drop_eq_nil_iff]
  by_cases hc : e.geometry.left.indices.length ≤ e.geometry.lastBreak.left.indexCount ∧
      e.geometry.right.indices.length ≤ e.geometry.lastBreak.right.indexCount
  · rw [if_pos hc] at h
    injection h with h; subst h
    refine ⟨fun d => by rw [if_pos hc], r, ?_, S, H⟩
    rw [if_pos (hcond.1 hc)]
  · rw [if_neg hc] at h
    obtain ⟨g1, h1, h⟩ := bind_some h
    obtain ⟨g2, h2, h⟩ := bind_some h
    obtain ⟨os, hos, h⟩ := bind_some h
    injection h with h
    obtain ⟨a1, a2, a3, a4, a5, a6, a7⟩ := addBreak_facts h1
    obtain ⟨vs, hvs⟩ := updateVertices_facts _ h2
    have b1 : g2.left.indices = e.geometry.left.indices := by rw [hvs]; exact a1
    have b2 : g2.right.indices = e.geometry.right.indices := by rw [hvs]; exact a2
    have b3 : g2.lastBreak.count = r.outlines.length + 1 := by rw [hvs, ← S.count]; exact a3
    have b4 : g2.lastBreak.left.indexCount = e.geometry.left.indices.length := by rw [hvs]; exact a4
    have b5 : g2.lastBreak.right.indexCount = e.geometry.right.indices.length := by rw [hvs]; exact a5
    have b6 : g2.firstMutatedLeft = e.geometry.left.indices.length := by rw [hvs]; exact a6
    have b7 : g2.firstMutatedRight = e.geometry.right.indices.length := by rw [hvs]; exact a7
    have hcomp := fun d => completeOutline_ok (l := e.geometry.left.indices) (r := e.geometry.right.indices)
      (bl := e.geometry.lastBreak.left.indexCount) (br := e.geometry.lastBreak.right.indexCount) d S.lenLe S.lenGe S.closed S.opened
      W.left.1 W.right.1
    rw [b1, b2, b3, S.count, hcomp debug] at hos
    injection hos with hos
    subst hos
    obtain ⟨t1, ht1, R1, e1⟩ := same_addBreak he S.same h1
    have G1 := good_addBreak H.good h1
    have A1 : g1.save.active = e.geometry.save.active := step_active (op := Op.addBreak) h1
    have R2 : Same core g2 t1 :=
      same_iff.2 ((same_iff.1 (updateVertices_core _ (ht.derivatives _ g1) h2)).trans (same_iff.1 R1))
    have G2 := good_updateVertices _ G1 (ht.derivatives _ g1) h2
    have A2 := updateVertices_active _ h2
    subst h
    refine ⟨fun d => ?_, ⟨r.extrusions ++ [none], t1, r.outlines ++ [(e.geometry.left.indices.drop e.geometry.lastBreak.left.indexCount,
        e.geometry.right.indices.drop e.geometry.lastBreak.right.indexCount)]⟩, ?_, ?_, ?_⟩
    · rw [if_neg hc, h1]
      dsimp only [Option.bind_eq_bind, Option.bind_some]
      rw [h2]
      dsimp only [Option.bind_some]
      rw [b1, b2, b3, S.count, hcomp d]
      rfl
    · rw [if_neg (fun h => hc (hcond.2 h)), ht1]
      rfl
    · refine ⟨by rw [S.ext], R2, e1.trans S.inactive, ?_, ?_, ?_, ?_, ?_, ?_, ?_, ?_, ?_⟩
      · rw [b3]; simp
      · simp
      · simp
      · rw [List.take_of_length_le (by simp)]
      · dsimp only
        rw [b4, b1, List.take_length, List.map_append, List.flatten_append, S.left]
        simp
      · dsimp only
        rw [b5, b2, List.take_length, List.map_append, List.flatten_append, S.right]
        simp
      · intro o ho
        rw [List.getElem?_eq_none (by simp)] at ho; cases ho
      · exact Nat.le_of_eq (b4.trans b6.symm)
      · exact Nat.le_of_eq (b5.trans b7.symm)
    · refine ⟨H.wf, G2, (A2.trans A1).trans H.active, fun hv => (H.rest hv).of_eq rfl rfl (l := [none]) rfl (List.prefix_append _ _)⟩

/-- A break-point. -/
theorem sim_break {core : V → C} {env : Env V X} (he : Respects core env) {tip : Tip T E V X} (ht : OkTip core tip) {v : Bool}
    {e e' : Extruder E V X} {r r0 : Stroke E V X} {g : Geometry V X} (S : Sim core e r) (H : Hold core v e r r0 g) {debug : Bool}
    (h : e.breakPoint debug env tip = some e') :
    (∀ d, e.breakPoint d env tip = some e') ∧
    ∃ r', r.stop env tip = some r' ∧ Sim core e' r' ∧ Hold core v e' r' r0 g := by
  unfold Extruder.breakPoint at h ⊢
  unfold Stroke.stop
  have hx : r.extrusions.reverse = e.extrusions.reverse := by rw [S.ext]
  rw [hx]
  split at h
  · rename_i c rest heq
    obtain ⟨s, hs, h⟩ := bind_some h
    have key : OkProgram core (Extruder.endProgram tip rest c) := by
      unfold Extruder.endProgram
      split
      · exact ht.endcap _ _
      · exact ht.whole _
    obtain ⟨t, htt, S1, H1⟩ := sim_exec he S H key hs
    obtain ⟨hd, r', hr, S2, H2⟩ := sim_finish he ht S1 H1 h
    refine ⟨fun d => ?_, r', ?_, S2, H2⟩
    · show (e.geometry.exec env (Extruder.endProgram tip rest c)).bind _ = _
      rw [hs]; exact hd d
    · rw [heq]
      unfold Extruder.endProgram at htt
      split
      · rename_i h'
        injection h' with h1 h2; injection h1 with h1; subst h1 h2
        dsimp only at htt
        rw [htt]; exact hr
      · rename_i hn h'
        injection h' with h1 h2; injection h1 with h1; subst h1 h2
        split at htt
        · rename_i b l
          exact absurd rfl (hn b l)
        · rw [htt]; exact hr
      · rename_i hn1 hn2
        exact absurd rfl (hn2 c rest)
  · rename_i hn
    injection h with h; subst h
    refine ⟨fun d => rfl, r, ?_, S, H⟩
    split
    · rename_i h'; exact absurd h' (hn _ _)
    · rename_i h'; exact absurd h' (hn _ _)
    · rfl

theorem sub32_eq {a b : Nat} (h : b ≤ a) : Extruder.sub32 a b = a - b := if_pos h

/-- Cutting off the outlines. -/
theorem truncate_ok {debug : Bool} {e e' : Extruder E V X} {ro : List (List Nat × List Nat)}
    (hc : e.geometry.lastBreak.count = ro.length) (h1 : ro.length ≤ e.outlines.length) (h2 : e.outlines.take ro.length = ro)
    (h3 : ∀ o, e.outlines[ro.length]? = some o →
      o.1.take (e.geometry.firstMutatedLeft - e.geometry.lastBreak.left.indexCount) <+:
        e.geometry.left.indices.drop e.geometry.lastBreak.left.indexCount ∧
      o.2.take (e.geometry.firstMutatedRight - e.geometry.lastBreak.right.indexCount) <+:
        e.geometry.right.indices.drop e.geometry.lastBreak.right.indexCount)
    (hl : e.geometry.lastBreak.left.indexCount ≤ e.geometry.firstMutatedLeft)
    (hr : e.geometry.lastBreak.right.indexCount ≤ e.geometry.firstMutatedRight)
    (h : e.truncateOutlines debug = some e') :
    (∀ d, e.truncateOutlines d = some e') ∧ ∃ os, e' = { e with outlines := os } ∧ ro.length ≤ os.length ∧ os.length ≤ ro.length + 1 ∧
      os.take ro.length = ro ∧ ∀ o, os[ro.length]? = some o →
        o.1 <+: e.geometry.left.indices.drop e.geometry.lastBreak.left.indexCount ∧
        o.2 <+: e.geometry.right.indices.drop e.geometry.lastBreak.right.indexCount := by
  have key : ∀ d, e.truncateOutlines d = if e.outlines.length ≥ ro.length + 1 then some { e with
      outlines := Extruder.truncateLast (e.geometry.firstMutatedLeft - e.geometry.lastBreak.left.indexCount)
        (e.geometry.firstMutatedRight - e.geometry.lastBreak.right.indexCount) (e.outlines.take (ro.length + 1)) } else some e := by
    intro d
    unfold Extruder.truncateOutlines
    dsimp only
    rw [hc, if_neg (by tauto), sub32_eq hl, sub32_eq hr]
    split
    · rw [if_neg (by tauto)]
    · rfl
  rw [key] at h
  refine ⟨fun d => (key d).trans h, ?_⟩
  split at h
  · rename_i hge
    injection h with h
    have hlt : ro.length < e.outlines.length := hge
    rw [List.take_succ_eq_append_getElem hlt, h2] at h
    unfold Extruder.truncateLast at h
    rw [List.getLast?_append_of_ne_nil (l₁ := ro) (by simp)] at h
    simp only [List.getLast?_singleton, List.dropLast_concat] at h
    refine ⟨_, h.symm, by simp, by simp, by simp, fun o ho => ?_⟩
    rw [List.getElem?_append_right (Nat.le_refl _), Nat.sub_self] at ho
    injection ho with ho; subst ho
    exact h3 _ (List.getElem?_eq_getElem hlt)
  · rename_i hge
    injection h with h; subst h
    have : e.outlines.length = ro.length := by omega
    exact ⟨_, rfl, h1, by omega, h2, fun o ho => by rw [List.getElem?_eq_none (by omega)] at ho; cases ho⟩

/-! The last part of a stroke. -/

theorem split_part (l : List (Option E)) : ∃ p : List (Option E), l = (l.reverse.dropWhile Option.isSome).reverse ++ p ∧
    (∀ x ∈ p, x.isSome = true) ∧ p.length = (l.reverse.takeWhile Option.isSome).length := by
  refine ⟨(l.reverse.takeWhile Option.isSome).reverse, ?_, ?_, by simp⟩
  · rw [← List.reverse_append, List.takeWhile_append_dropWhile, List.reverse_reverse]
  · intro x hx
    rw [List.mem_reverse] at hx
    exact List.all_eq_true.1 List.all_takeWhile x hx

theorem part_break {l : List (Option E)} {j : Nat} (h : l[j]? = some none) :
    j < (l.reverse.dropWhile Option.isSome).reverse.length := by
  obtain ⟨p, hp, hs, _⟩ := split_part l
  by_contra hc
  rw [hp, List.getElem?_append_right (Nat.le_of_not_lt hc)] at h
  have := hs _ (List.mem_of_getElem? h)
  cases this

theorem before_part (l : List (Option E)) : (l.reverse.dropWhile Option.isSome).reverse.length = 0 ∨
    l[(l.reverse.dropWhile Option.isSome).reverse.length - 1]? = some none := by
  obtain ⟨p, hp, -, -⟩ := split_part l
  generalize hd : (l.reverse.dropWhile Option.isSome) = d at *
  cases d with
  | nil => left; rfl
  | cons a d =>
    right
    have ha : ¬ a.isSome = true := by
      have := List.head?_dropWhile_not (p := Option.isSome) l.reverse
      rw [hd] at this; simpa using this
    rw [hp, List.reverse_cons]
    have : a = none := by cases a with
      | none => rfl
      | some => exact absurd rfl ha
    subst this
    simp

theorem tail_take {α : Type} {orig cur saved : List α} (T : TailOk orig cur saved) {n : Nat} (h : orig.length - saved.length ≤ n) :
    TailOk orig (cur.take n) saved :=
  ⟨T.le, T.tail, by rw [List.take_take, Nat.min_eq_left h]; exact T.kept⟩

/-- Clearing since the last break. -/
theorem sim_clear {core : V → C} {env : Env V X} {v : Bool} {e e' : Extruder E V X} {r r0 : Stroke E V X} {g : Geometry V X}
    (S : Sim core e r) (H : Hold core v e r r0 g) {debug : Bool} {n : Nat}
    (hn : n = (e.extrusions.reverse.dropWhile Option.isSome).reverse.length)
    (h : e.clear debug env n v = some e') :
    (∀ d, e.clear d env n v = some e') ∧
    ∃ r', r.forget env = some r' ∧ Sim core e' r' ∧ Hold core v e' r' r0 g := by
  have W := H.good.1
  unfold Extruder.clear at h ⊢
  by_cases hlt : n < e.extrusions.length
  swap
  · rw [if_neg hlt] at h; cases h
  rw [if_pos hlt] at h
  obtain ⟨del, hdel, h⟩ := bind_some h
  obtain ⟨s, hs, h⟩ := bind_some h
  have htake : e.extrusions.take n = (r.extrusions.reverse.dropWhile Option.isSome).reverse := by
    rw [← S.ext]
    obtain ⟨p, hp, -, -⟩ := split_part e.extrusions
    generalize (e.extrusions.reverse.dropWhile Option.isSome).reverse = d at *
    rw [hp, hn, List.take_left]
  obtain ⟨t, hts, R, ha⟩ := same_clear S.same S.inactive hs
  have G := good_clear H.wf H.good hs
  have A : s.save.active = e.geometry.save.active := step_active (op := Op.clear) hs
  have hb := clear_facts hs
  have L : s.lastBreak = e.geometry.lastBreak ∧
      s.left.indices.take e.geometry.lastBreak.left.indexCount = e.geometry.left.indices.take e.geometry.lastBreak.left.indexCount ∧
      s.right.indices.take e.geometry.lastBreak.right.indexCount = e.geometry.right.indices.take e.geometry.lastBreak.right.indexCount ∧
      e.geometry.lastBreak.left.indexCount ≤ s.firstMutatedLeft ∧ e.geometry.lastBreak.right.indexCount ≤ s.firstMutatedRight ∧
      ∀ o, e.outlines[r.outlines.length]? = some o →
        o.1.take (s.firstMutatedLeft - s.lastBreak.left.indexCount) <+: s.left.indices.drop s.lastBreak.left.indexCount ∧
        o.2.take (s.firstMutatedRight - s.lastBreak.right.indexCount) <+: s.right.indices.drop s.lastBreak.right.indexCount := by
    rcases hb with rfl | ⟨b1, b2, b3, b4, b5⟩
    · exact ⟨rfl, rfl, rfl, S.firstLeft, S.firstRight, fun o ho =>
        ⟨(List.take_prefix _ _).trans (S.opened o ho).1, (List.take_prefix _ _).trans (S.opened o ho).2⟩⟩
    · rw [b3, b1, b2, b4, b5, resize_of_le 0 W.left.1, resize_of_le 0 W.right.1, Nat.min_eq_right S.firstLeft,
        Nat.min_eq_right S.firstRight]
      exact ⟨rfl, by rw [List.take_take, Nat.min_self], by rw [List.take_take, Nat.min_self], Nat.le_refl _, Nat.le_refl _, fun o ho =>
        by simp⟩
  obtain ⟨l1, l2, l3, l4, l5, l6⟩ := L
  obtain ⟨hd, os, rfl, o1, o2, o3, o4⟩ := truncate_ok (e := { e with deleted := del, extrusions := e.extrusions.take n, geometry := s })
    (ro := r.outlines) (by dsimp only; rw [l1]; exact S.count) S.lenLe S.closed l6 (by dsimp only; rw [l1]; exact l4)
    (by dsimp only; rw [l1]; exact l5) h
  refine ⟨fun d => ?_, { r with extrusions := (r.extrusions.reverse.dropWhile Option.isSome).reverse, geometry := t }, ?_, ?_, ?_⟩
  · rw [if_pos hlt, hdel]
    dsimp only [Option.bind_eq_bind, Option.bind_some]
    rw [hs]; exact hd d
  · unfold Stroke.forget; rw [hts]; rfl
  · exact ⟨htake, R, ha.trans S.inactive, by dsimp only; rw [l1]; exact S.count, o1, o2, o3, by dsimp only; rw [l1, l2]; exact S.left,
      by dsimp only; rw [l1, l3]; exact S.right, o4, by dsimp only; rw [l1]; exact l4, by dsimp only; rw [l1]; exact l5⟩
  · refine ⟨H.wf, G, A.trans H.active, fun hv => ?_⟩
    have Q := H.rest hv
    have key : TailOk r0.extrusions (e.extrusions.take n) del ∧ (del ≠ [] → r0.extrusions.length - del.length = 0 ∨
        r0.extrusions[r0.extrusions.length - del.length - 1]? = some none) := by
      unfold Extruder.keepDeleted at hdel
      split at hdel
      · rename_i hk
        rw [Q.savedCount] at hdel
        have T0 : TailOk r0.extrusions e.extrusions [] := hk.2.1 ▸ Q.tail
        obtain ⟨T1, hl⟩ := slice_tail T0 hdel
        refine ⟨tail_take T1 (Nat.le_of_eq hl), fun _ => ?_⟩
        rw [hl]
        rcases before_part e.extrusions with h0 | h0
        · left; rw [hn, h0]
        · by_cases hz : n = 0
          · left; exact hz
          right
          rw [← hn] at h0
          have hk0 : e.extrusions.take r0.extrusions.length = r0.extrusions := by simpa using T0.kept
          rw [← hk0, List.getElem?_take_of_lt (by have := hk.2.2; rw [Q.savedCount] at this; omega)]
          exact h0
      · rename_i hk
        injection hdel with hdel; subst hdel
        have hle : r0.extrusions.length - e.deleted.length ≤ n := by
          by_cases hz : e.deleted = []
          · rw [hz, ← Q.savedCount]
            have : ¬ n < e.savedCount := fun hc => hk ⟨hv, hz, hc⟩
            simp; omega
          · rcases Q.at_break hz with h0 | h0
            · omega
            · by_cases hp : r0.extrusions.length - e.deleted.length = 0
              · omega
              have hk0 := Q.tail.kept
              have : e.extrusions[r0.extrusions.length - e.deleted.length - 1]? = some none := by
                rw [← List.getElem?_take_of_lt (j := r0.extrusions.length - e.deleted.length) (by omega), hk0,
                  List.getElem?_take_of_lt (by omega)]
                exact h0
              have := part_break this
              omega
        exact ⟨tail_take Q.tail hle, Q.at_break⟩
    exact ⟨Q.same, Q.inactive, Q.savedCount, key.1, key.2, Q.outlines, Q.count, Q.left, Q.right⟩

theorem sim_push {core : V → C} {v : Bool} {e : Extruder E V X} {r r0 : Stroke E V X} {g : Geometry V X}
    (S : Sim core e r) (H : Hold core v e r r0 g) (x : E) : Sim core (e.push x) (r.push x) ∧ Hold core v (e.push x) (r.push x) r0 g :=
  ⟨⟨by show e.extrusions ++ _ = r.extrusions ++ _; rw [S.ext], S.same, S.inactive, S.count, S.lenLe, S.lenGe, S.closed, S.left, S.right,
    S.opened, S.firstLeft, S.firstRight⟩,
   ⟨H.wf, H.good, H.active, fun hv => (H.rest hv).of_eq rfl rfl (l := [some x]) rfl (List.prefix_refl _)⟩⟩

/-- What is extruded after an extrusion was appended. -/
theorem sim_advance {core : V → C} {env : Env V X} (he : Respects core env) {tip : Tip T E V X} (ht : OkTip core tip) {v : Bool}
    {e : Extruder E V X} {r r0 : Stroke E V X} {g s : Geometry V X} (S : Sim core e r) (H : Hold core v e r r0 g)
    (h : e.geometry.exec env (Extruder.turnProgram tip e.extrusions.reverse) = some s) :
    ∃ r', r.advance env tip = some r' ∧ Sim core { e with geometry := s } r' ∧ Hold core v { e with geometry := s } r' r0 g := by
  have hx : r.extrusions.reverse = e.extrusions.reverse := by rw [S.ext]
  have key : OkProgram core (Extruder.turnProgram tip e.extrusions.reverse) := by
    unfold Extruder.turnProgram
    split
    · exact ht.turn _ _ _
    · exact ht.startcap _ _
    · exact fun f hf => by cases hf
  obtain ⟨t, htt, S', H'⟩ := sim_exec he S H key h
  refine ⟨_, ?_, S', H'⟩
  unfold Stroke.advance
  rw [hx]
  unfold Extruder.turnProgram at htt
  split at htt
  · rename_i heq; rw [heq]; dsimp only; rw [htt]; rfl
  · rename_i hn heq
    rw [heq]
    split
    · rename_i h'
      injection h' with h1 h2; injection h2 with h2 h3
      subst h3
      exact (hn _ _ rfl).elim
    · rename_i h'
      injection h' with h1 h2; injection h2 with h2 h3; injection h1 with h1; injection h2 with h2
      subst h1 h2 h3
      rw [htt]; rfl
    · rename_i hn1 hn2
      exact absurd rfl (hn2 _ _ _)
  · rename_i hn1 hn2
    injection htt with htt; subst htt
    split
    · rename_i h'; exact absurd h' (hn1 _ _ _ _)
    · rename_i h'; exact absurd h' (hn2 _ _ _)
    · rfl

theorem filterMap_length {l : List (Option E)} (h : ∀ x ∈ l, x.isSome = true) : (l.filterMap id).length = l.length := by
  induction l with
  | nil => rfl
  | cons a l ih =>
    have ha := h a List.mem_cons_self
    cases a with
    | none => cases ha
    | some a =>
      have := ih (fun x hx => h x (List.mem_cons_of_mem _ hx))
      exact congrArg (· + 1) this

theorem sim_swallow {core : V → C} {env : Env V X} (he : Respects core env) {tip : Tip T E V X} (ht : OkTip core tip) {v : Bool}
    {e e' : Extruder E V X} {r r0 : Stroke E V X} {g : Geometry V X} (S : Sim core e r) (H : Hold core v e r r0 g) {debug : Bool}
    {new c : E} {rest : List (Option E)} (hr : e.extrusions.reverse = some c :: rest)
    (h : e.swallow debug env tip new rest v = some e') :
    (∀ d, e.swallow d env tip new rest v = some e') ∧
    ∃ r', (if ∀ x ∈ (rest.takeWhile Option.isSome).filterMap id, tip.contains new x then r.forget env else r.stop env tip) = some r' ∧
      Sim core e' r' ∧ Hold core v e' r' r0 g := by
  unfold Extruder.swallow at h ⊢
  dsimp only at h ⊢
  have hall : (((rest.takeWhile Option.isSome).filterMap id).all (tip.contains new) = true) ↔
      ∀ x ∈ (rest.takeWhile Option.isSome).filterMap id, tip.contains new x = true := List.all_eq_true
  by_cases hc : ((rest.takeWhile Option.isSome).filterMap id).all (tip.contains new) = true
  · rw [if_pos hc] at h
    have hn : e.extrusions.length - 1 - ((rest.takeWhile Option.isSome).filterMap id).length =
        (e.extrusions.reverse.dropWhile Option.isSome).reverse.length := by
      rw [filterMap_length (fun x hx => List.all_eq_true.1 List.all_takeWhile x hx)]
      have h1 : e.extrusions.length = rest.length + 1 := by
        have := congrArg List.length hr; simpa using this
      have h2 : rest.length = (rest.takeWhile Option.isSome).length + (rest.dropWhile Option.isSome).length := by
        rw [← List.length_append, List.takeWhile_append_dropWhile]
      rw [hr, List.length_reverse, List.dropWhile_cons]
      simp only [Option.isSome_some, if_true]
      omega
    obtain ⟨hd, r', hr', S', H'⟩ := sim_clear S H hn h
    exact ⟨fun d => by rw [if_pos hc]; exact hd d, r', by rw [if_pos (hall.1 hc)]; exact hr', S', H'⟩
  · rw [if_neg hc] at h
    obtain ⟨hd, r', hr', S', H'⟩ := sim_break he ht S H h
    exact ⟨fun d => by rw [if_neg hc]; exact hd d, r', by rw [if_neg (fun h' => hc (hall.2 h'))]; exact hr', S', H'⟩

/-- A tip state. -/
theorem sim_extrude {core : V → C} {env : Env V X} (he : Respects core env) {tip : Tip T E V X} (ht : OkTip core tip) {v : Bool}
    {e e' : Extruder E V X} {r r0 : Stroke E V X} {g : Geometry V X} (S : Sim core e r) (H : Hold core v e r r0 g) {debug : Bool}
    {t : T} {isLast : Bool} (h : e.extrude debug env tip t v isLast = some e') :
    (∀ d, e.extrude d env tip t v isLast = some e') ∧
    ∃ r', r.add env tip t isLast = some r' ∧ Sim core e' r' ∧ Hold core v e' r' r0 g := by
  unfold Extruder.extrude at h ⊢
  unfold Stroke.add
  by_cases hs : tip.small t = true
  · rw [if_pos hs] at h
    obtain ⟨hd, r', hr', S', H'⟩ := sim_break he ht S H h
    exact ⟨fun d => by rw [if_pos hs]; exact hd d, r', by rw [if_pos hs]; exact hr', S', H'⟩
  simp only [if_neg hs] at h ⊢
  have hx : r.extrusions.reverse = e.extrusions.reverse := by rw [S.ext]
  obtain ⟨⟨b, e1⟩, h1, h⟩ := bind_some h
  have adv : ∀ {e1 : Extruder E V X} {r1 : Stroke E V X} {x : E}, Sim core e1 r1 → Hold core v e1 r1 r0 g →
      ((e1.push x).geometry.exec env (Extruder.turnProgram tip (e1.push x).extrusions.reverse)).bind
        (fun g => some { e1.push x with geometry := g }) = some e' →
      ∃ r', (r1.push x).advance env tip = some r' ∧ Sim core e' r' ∧ Hold core v e' r' r0 g := by
    intro e1 r1 x S1 H1 h
    obtain ⟨S2, H2⟩ := sim_push S1 H1 x
    obtain ⟨s, hs, h⟩ := bind_some h
    injection h with h; subst h
    exact sim_advance he ht S2 H2 hs
  unfold Extruder.tryAppend at h1 ⊢
  unfold Stroke.part
  rw [hx]
  cases hrev : e.extrusions.reverse with
  | nil =>
    rw [hrev] at h1
    injection h1 with h1; injection h1 with h1 h2; subst h1 h2
    exact ⟨fun d => h, adv S H h⟩
  | cons a rest =>
    rw [hrev] at h1
    cases a with
    | none =>
      injection h1 with h1; injection h1 with h1 h2; subst h1 h2
      exact ⟨fun d => h, adv S H h⟩
    | some c =>
      have hp : ((some c :: rest).takeWhile Option.isSome).filterMap id = c :: (rest.takeWhile Option.isSome).filterMap id := by
        simp
      rw [hp]
      dsimp only at h1 ⊢
      cases hcon : tip.constrain c (tip.make t) with
      | proposedValid =>
        rw [hcon] at h1
        injection h1 with h1; injection h1 with h1 h2; subst h1 h2
        exact ⟨fun d => h, adv S H h⟩
      | found x too =>
        rw [hcon] at h1
        dsimp only at h1 ⊢
        by_cases hc : (!isLast) = true ∧ too = true
        · rw [if_pos hc] at h1
          injection h1 with h1; injection h1 with h1 h2; subst h1 h2
          simp only [Bool.false_eq_true, if_false] at h
          injection h with h; subst h
          refine ⟨fun d => ?_, r, ?_, S, H⟩
          · rw [if_pos hc]; rfl
          · rw [if_pos ⟨hc.2, hc.1⟩]
        · rw [if_neg hc] at h1
          injection h1 with h1; injection h1 with h1 h2; subst h1 h2
          refine ⟨fun d => ?_, ?_⟩
          · rw [if_neg hc]; exact h
          · rw [if_neg (fun h' => hc ⟨h'.2, h'.1⟩)]; exact adv S H h
      | proposedContainsLast =>
        rw [hcon] at h1
        obtain ⟨e2, h2, h1⟩ := bind_some h1
        injection h1 with h1; injection h1 with h1 h3; subst h1 h3
        obtain ⟨hd, r2, hr2, S2, H2⟩ := sim_swallow he ht S H hrev h2
        refine ⟨fun d => ?_, ?_⟩
        · dsimp only; rw [hd d]; exact h
        · obtain ⟨r', hr', S', H'⟩ := adv S2 H2 h
          refine ⟨r', ?_, S', H'⟩
          dsimp only
          split
          · rename_i hc; rw [if_pos hc] at hr2; rw [hr2]; exact hr'
          · rename_i hc; rw [if_neg hc] at hr2; rw [hr2]; exact hr'
      | lastContainsProposed =>
        rw [hcon] at h1
        injection h1 with h1; injection h1 with h1 h2; subst h1 h2
        simp only [Bool.false_eq_true, if_false] at h
        injection h with h; subst h
        exact ⟨fun d => rfl, r, rfl, S, H⟩
      | cannotFind =>
        rw [hcon] at h1
        injection h1 with h1; injection h1 with h1 h2; subst h1 h2
        simp only [Bool.false_eq_true, if_false] at h
        injection h with h; subst h
        exact ⟨fun d => rfl, r, rfl, S, H⟩

theorem marked_cons (last : Bool) (t : T) (ts : List T) : marked last (t :: ts) = (t, last && ts.isEmpty) :: marked last ts := by
  cases ts with
  | nil => simp [marked]
  | cons a ts => simp [marked]

theorem sim_all {core : V → C} {env : Env V X} (he : Respects core env) {tip : Tip T E V X} (ht : OkTip core tip) {v : Bool}
    {r0 : Stroke E V X} {g : Geometry V X} {debug last : Bool} (ts : List T) : ∀ {e e' : Extruder E V X} {r : Stroke E V X},
    Sim core e r → Hold core v e r r0 g → e.extrudeAll debug env tip v last ts = some e' →
    (∀ d, e.extrudeAll d env tip v last ts = some e') ∧
    ∃ r', r.addAll env tip (marked last ts) = some r' ∧ Sim core e' r' ∧ Hold core v e' r' r0 g := by
  induction ts with
  | nil => intro e e' r S H h; injection h with h; subst h; exact ⟨fun d => rfl, r, rfl, S, H⟩
  | cons t ts ih =>
    intro e e' r S H h
    obtain ⟨e1, h1, h⟩ := bind_some h
    obtain ⟨hd, r1, hr1, S1, H1⟩ := sim_extrude he ht S H h1
    obtain ⟨hd2, r2, hr2, S2, H2⟩ := ih S1 H1 h
    refine ⟨fun d => ?_, r2, ?_, S2, H2⟩
    · unfold Extruder.extrudeAll; rw [hd d]; exact hd2 d
    · rw [marked_cons]; unfold Stroke.addAll; rw [hr1]; exact hr2

/-! ## Saving and restoring -/

theorem same_trimmed {core : V → C} {s t : Geometry V X} (R : Same core s t) : Same core s.setSavePoint (trimmed t) := by
  have h := same_iff.1 R
  rw [same_iff]
  have e1 : contents core s.setSavePoint = contents core (trimmed s) := rfl
  rw [e1]
  have hl := R.left
  have hr := R.right
  exact same_iff.1 ⟨R.1, R.2, R.3, R.4, R.5, by show Geometry.keepLast s.left = Geometry.keepLast t.left; rw [hl],
    by show Geometry.keepLast s.right = Geometry.keepLast t.right; rw [hr], R.8⟩

theorem flatten_length_take {α : Type} {l : List α} {f : List α} {b : Nat} (h : f = l.take b) (hb : b ≤ l.length) : f.length = b := by
  rw [h, List.length_take]; exact Nat.min_eq_left hb

/-- An outline of the saved part that has grown since. -/
theorem reopened {α : Type} {sel : α → List Nat} {os r r0 : List α} {cur orig : List Nat} {b b0 p : Nat} (hpre : r0 <+: r)
    (hclosed : os.take r.length = r) (hcur : (r.map sel).flatten = cur.take b) (hb : b ≤ cur.length)
    (hopen : ∀ o, os[r.length]? = some o → sel o <+: cur.drop b) (h0 : (r0.map sel).flatten.length = b0)
    (hp : b0 ≤ p) (hkept : cur.take p = orig.take p) {o : α} (ho : os[r0.length]? = some o) :
    (sel o).take (p - b0) <+: orig.drop b0 := by
  have key : sel o <+: cur.drop b0 := by
    obtain ⟨t, rfl⟩ := hpre
    cases t with
    | nil =>
      have := hopen o (by simpa using ho)
      have hb0 : b0 = b := by rw [← h0]; simpa using flatten_length_take hcur hb
      rw [hb0]; exact this
    | cons a t =>
      have : os[r0.length]? = some a := by
        rw [← List.getElem?_take_of_lt (j := (r0 ++ a :: t).length) (by simp), hclosed]
        simp
      rw [this] at ho
      injection ho with ho; subst ho
      rw [List.map_append, List.flatten_append, List.map_cons, List.flatten_cons] at hcur
      have e : cur.drop b0 = sel a ++ ((t.map sel).flatten ++ cur.drop b) := by
        conv => lhs; rw [← List.take_append_drop b cur, ← hcur]
        rw [List.append_assoc, ← h0, List.drop_left, List.append_assoc]
      rw [e]; exact List.prefix_append _ _
  have h1 : (sel o).take (p - b0) <+: (cur.drop b0).take (p - b0) := by
    obtain ⟨t, ht⟩ := key
    rw [← ht, List.take_append]
    exact List.prefix_append _ _
  have e : (cur.drop b0).take (p - b0) = (orig.take p).drop b0 := by
    rw [List.take_drop, ← hkept, Nat.add_sub_cancel' hp]
  rw [e] at h1
  exact h1.trans (prefix_drop (List.take_prefix _ _) _)

theorem good_resetTracking {core : V → C} {g s : Geometry V X} (G : Good core g s) : Good core g s.resetTracking :=
  ⟨⟨G.1.1, G.1.2, G.1.3, G.1.4, G.1.5, G.1.6, G.1.7⟩, fun h => by
    have I := G.2 h
    exact ⟨I.1, I.2, I.3, I.4, I.5, I.6, I.7, I.8, I.9, I.10, I.11, I.12, I.13, I.14⟩⟩

/-- Restoring what was saved. -/
theorem sim_restore {core : V → C} {env : Env V X} {order : {α : Type} → List α → List α} (ho : IsOrder order)
    {e e' : Extruder E V X} {r r0 : Stroke E V X} {g : Geometry V X} (S : Sim core e r) (H : Hold core true e r r0 g) {debug : Bool}
    (h : Extruder.restore debug env order { e with geometry := e.geometry.resetTracking } = some e') :
    (∀ d, Extruder.restore d env order { e with geometry := e.geometry.resetTracking } = some e') ∧
    Sim core e' r0 ∧ Hold core false e' r0 r0 e'.geometry := by
  have Q := H.rest rfl
  have W := H.good.1
  have G := good_resetTracking H.good
  have ha : e.geometry.resetTracking.save.active = true := H.active
  have I := G.2 ha
  obtain ⟨q, hq, hqc, hqa, hql, hqr⟩ := revert_ok (env := env) (order := @order) ho H.wf I ha
  have Rq : Same core q g := same_iff.2 hqc
  have Wq := wf_of_contents H.wf hqc
  have hx : copyToEnd (resize e.extrusions e.savedCount none) e.deleted = some r0.extrusions := by
    rw [Q.savedCount]; exact Q.tail.restore none
  have fL : q.firstMutatedLeft = g.left.indices.length - e.geometry.save.left.savedIndices.length := by
    rw [hql, I.left.nIndices]; exact Nat.min_eq_right I.left.indices.length_le
  have fR : q.firstMutatedRight = g.right.indices.length - e.geometry.save.right.savedIndices.length := by
    rw [hqr, I.right.nIndices]; exact Nat.min_eq_right I.right.indices.length_le
  have aL : g.lastBreak.left.indexCount ≤ q.firstMutatedLeft := by rw [fL]; exact I.above.left
  have aR : g.lastBreak.right.indexCount ≤ q.firstMutatedRight := by rw [fR]; exact I.above.right
  have kL : e.geometry.left.indices.take q.firstMutatedLeft = g.left.indices.take q.firstMutatedLeft := by
    rw [fL]; exact I.left.indices.kept
  have kR : e.geometry.right.indices.take q.firstMutatedRight = g.right.indices.take q.firstMutatedRight := by
    rw [fR]; exact I.right.indices.kept
  unfold Extruder.restore at h ⊢
  simp only [Option.bind_eq_bind, hx, Option.bind_some, hq] at h ⊢
  have hle := Q.outlines.length_le
  obtain ⟨hd, os, rfl, o1, o2, o3, o4⟩ := truncate_ok (e := { e with extrusions := r0.extrusions, geometry := q })
    (ro := r0.outlines) (by
      dsimp only; rw [Rq.lastBreak]; exact Q.count) (Nat.le_trans hle S.lenLe) (by
      dsimp only
      have := congrArg (List.take r0.outlines.length) S.closed
      rw [List.take_take, Nat.min_eq_left hle] at this
      rw [this, prefix_take_eq Q.outlines (Nat.le_refl _), List.take_length]) (by
      intro o ho
      dsimp only at ho ⊢
      rw [Rq.lastBreak, Rq.left, Rq.right]
      exact ⟨reopened (sel := fun o : List Nat × List Nat => o.1) Q.outlines S.closed S.left W.left.1 (fun o ho => (S.opened o ho).1)
          (flatten_length_take Q.left H.wf.left.1) aL kL ho,
        reopened (sel := fun o : List Nat × List Nat => o.2) Q.outlines S.closed S.right W.right.1 (fun o ho => (S.opened o ho).2)
          (flatten_length_take Q.right H.wf.right.1) aR kR ho⟩) (by dsimp only; rw [Rq.lastBreak]; exact aL)
    (by dsimp only; rw [Rq.lastBreak]; exact aR) h
  refine ⟨hd, ⟨rfl, same_iff.2 (hqc.trans (same_iff.1 Q.same)), Q.inactive, by dsimp only; rw [Rq.lastBreak]; exact Q.count, o1, o2, o3,
    ?_, ?_, o4, by dsimp only; rw [Rq.lastBreak]; exact aL, by dsimp only; rw [Rq.lastBreak]; exact aR⟩,
    ⟨Wq, ⟨Wq, fun h' => ?_⟩, hqa, nofun⟩⟩
  · dsimp only; rw [Rq.lastBreak, Rq.left]; exact Q.left
  · dsimp only; rw [Rq.lastBreak, Rq.right]; exact Q.right
  · rw [hqa] at h'; cases h'

/-- Saving. -/
theorem sim_save {core : V → C} {e : Extruder E V X} {r r0 : Stroke E V X} {g : Geometry V X} (S : Sim core e r)
    (H : Hold core false e r r0 g) :
    Sim core e.save { r with geometry := trimmed r.geometry } ∧
    Hold core true e.save { r with geometry := trimmed r.geometry } r e.geometry := by
  have W := H.good.1
  have kl := keepLast_indices e.geometry.left
  have kr := keepLast_indices e.geometry.right
  refine ⟨⟨S.ext, same_trimmed S.same, S.inactive, S.count, S.lenLe, S.lenGe, S.closed, ?_, ?_, ?_, S.firstLeft, S.firstRight⟩,
    ⟨W, ⟨wf_save W, fun _ => inv_save core W⟩, rfl, fun _ => ⟨S.same, S.inactive, ?_, ?_, ?_, List.prefix_refl _, S.count, S.left, S.right⟩⟩⟩
  · show _ = (Geometry.keepLast e.geometry.left).indices.take _
    rw [kl]; exact S.left
  · show _ = (Geometry.keepLast e.geometry.right).indices.take _
    rw [kr]; exact S.right
  · intro o ho
    show _ <+: (Geometry.keepLast e.geometry.left).indices.drop _ ∧ _ <+: (Geometry.keepLast e.geometry.right).indices.drop _
    rw [kl, kr]; exact S.opened o ho
  · show e.extrusions.length = _; rw [S.ext]
  · show TailOk r.extrusions e.extrusions []; rw [S.ext]; exact TailOk.init _
  · intro h; exact absurd rfl h

/-- Between two calls. -/
def Between (core : V → C) (e : Extruder E V X) (r0 : Stroke E V X) : Prop :=
  (∃ r g, Sim core e r ∧ Hold core true e r r0 g) ∨
  (Sim core e r0 ∧ Hold core false e r0 r0 e.geometry ∧ e.extrusions = [] ∧ e.savedCount = 0 ∧ e.deleted = [])

theorem between_start (core : V → C) (env : Env V X) (sv sv' : Save V X) :
    Between core (Extruder.start env sv : Extruder E V X) (Stroke.start env sv') := by
  have hs : (Geometry.reset env sv).save.active = false := rfl
  right
  refine ⟨⟨rfl, ⟨rfl, rfl, rfl, rfl, rfl, rfl, rfl, rfl⟩, rfl, rfl, Nat.zero_le _, Nat.le_refl _, rfl, rfl, rfl, ?_, Nat.le_refl _, Nat.le_refl _⟩,
    ⟨wf_reset env sv, ⟨wf_reset env sv, fun h => ?_⟩, hs, nofun⟩, rfl, rfl, rfl⟩
  · intro o ho
    injection ho with ho; subst ho
    exact ⟨List.nil_prefix, List.nil_prefix⟩
  · have h : (Geometry.reset env sv).save.active = true := h
    rw [hs] at h; cases h

theorem between_restore {core : V → C} {env : Env V X} {order : {α : Type} → List α → List α} (ho : IsOrder order)
    {e e' : Extruder E V X} {r0 : Stroke E V X} (B : Between core e r0) {debug : Bool}
    (h : Extruder.restore debug env order { e with geometry := e.geometry.resetTracking } = some e') :
    (∀ d, Extruder.restore d env order { e with geometry := e.geometry.resetTracking } = some e') ∧
    Sim core e' r0 ∧ Hold core false e' r0 r0 e'.geometry := by
  rcases B with ⟨r, g, S, H⟩ | ⟨S, H, h1, h2, h3⟩
  · exact sim_restore ho S H h
  · have W := H.good.1
    have hr : e.geometry.resetTracking.revert env order = some e.geometry.resetTracking := by
      unfold Geometry.revert
      rw [if_neg]
      intro hc
      have : e.geometry.save.active = true := hc
      rw [H.active] at this; cases this
    unfold Extruder.restore at h ⊢
    have hc : copyToEnd (resize e.extrusions e.savedCount none) e.deleted = some e.extrusions := by
      rw [h1, h2, h3]; rfl
    simp only [Option.bind_eq_bind, hc, Option.bind_some, hr] at h ⊢
    obtain ⟨hd, os, rfl, o1, o2, o3, o4⟩ := truncate_ok (e := { e with geometry := e.geometry.resetTracking })
      (ro := r0.outlines) S.count S.lenLe S.closed (fun o ho =>
      ⟨(List.take_prefix _ _).trans (S.opened o ho).1, (List.take_prefix _ _).trans (S.opened o ho).2⟩) W.left.1 W.right.1 h
    refine ⟨hd, ⟨S.ext, ⟨S.same.1, S.same.2, S.same.3, S.same.4, S.same.5, S.same.6, S.same.7, S.same.8⟩, S.inactive, S.count, o1, o2, o3,
      S.left, S.right, o4, W.left.1, W.right.1⟩, ?_⟩
    have W' : WF e.geometry.resetTracking := ⟨W.1, W.2, W.3, W.4, W.5, W.6, W.7⟩
    refine ⟨W', ⟨W', fun hc => ?_⟩, H.active, nofun⟩
    have : e.geometry.save.active = true := hc
    rw [H.active] at this; cases this

/-- A call of `ExtendStroke`. -/
theorem between_extend {core : V → C} {env : Env V X} {order : {α : Type} → List α → List α} (ho : IsOrder order)
    (he : Respects core env) {tip : Tip T E V X} (ht : OkTip core tip) {e e' : Extruder E V X} {r0 : Stroke E V X}
    (B : Between core e r0) {debug : Bool} {fixed volatile : List T} (h : e.extend debug env tip order fixed volatile = some e') :
    (∀ d, e.extend d env tip order fixed volatile = some e') ∧
    ∃ r1 u, r0.addAll env tip (markedFixed (fixed, volatile)) = some r1 ∧
      ((({ r1 with geometry := trimmed r1.geometry } : Stroke E V X).addAll env tip (marked true volatile)).bind fun r => r.stop env tip) =
        some u ∧ Sim core e' u ∧ Between core e' r1 := by
  unfold Extruder.extend at h ⊢
  obtain ⟨e1, h1, h⟩ := bind_some h
  obtain ⟨e2, h2, h⟩ := bind_some h
  obtain ⟨e3, h3, h⟩ := bind_some h
  obtain ⟨d1, S1, H1⟩ := between_restore ho B h1
  obtain ⟨d2, r1, hr1, S2, H2⟩ := sim_all he ht fixed S1 H1 h2
  obtain ⟨S2', H2'⟩ := sim_save S2 H2
  obtain ⟨d3, r3, hr3, S3, H3⟩ := sim_all he ht volatile S2' H2' h3
  obtain ⟨d4, u, hu, S4, H4⟩ := sim_break he ht S3 H3 h
  refine ⟨fun d => ?_, r1, u, hr1, ?_, S4, Or.inl ⟨_, _, S4, H4⟩⟩
  · simp only [Option.bind_eq_bind, d1 d, Option.bind_some, d2 d, d3 d, d4 d]
  · rw [hr3]; exact hu

theorem addAll_append {env : Env V X} {tip : Tip T E V X} (a : List (T × Bool)) : ∀ {r : Stroke E V X} {b : List (T × Bool)},
    r.addAll env tip (a ++ b) = (r.addAll env tip a).bind fun r => r.addAll env tip b := by
  induction a with
  | nil => intro r b; rfl
  | cons t a ih =>
    intro r b
    show (r.add env tip t.1 t.2).bind _ = ((r.add env tip t.1 t.2).bind _).bind _
    rw [Option.bind_assoc]
    congr 1; funext r; exact ih

/-- Any number of calls. -/
theorem between_all {core : V → C} {env : Env V X} {order : {α : Type} → List α → List α} (ho : IsOrder order)
    (he : Respects core env) {tip : Tip T E V X} (ht : OkTip core tip) {debug : Bool} (history : List (List T × List T)) :
    ∀ {e e' : Extruder E V X} {r0 : Stroke E V X}, Between core e r0 → e.extendAll debug env tip order history = some e' →
    (∀ d, e.extendAll d env tip order history = some e') ∧
    ∃ r1, r0.addAll env tip (history.flatMap markedFixed) = some r1 ∧ Between core e' r1 := by
  induction history with
  | nil => intro e e' r0 B h; injection h with h; subst h; exact ⟨fun d => rfl, r0, rfl, B⟩
  | cons c cs ih =>
    intro e e' r0 B h
    obtain ⟨e1, h1, h⟩ := bind_some h
    obtain ⟨d1, r1, u, hr1, -, -, B1⟩ := between_extend ho he ht B h1
    obtain ⟨d2, r2, hr2, B2⟩ := ih B1 h
    refine ⟨fun d => ?_, r2, ?_, B2⟩
    · unfold Extruder.extendAll; rw [d1 d]; exact d2 d
    · rw [List.flatMap_cons, addAll_append, hr1]; exact hr2

/-! ## After a break nothing is left open -/

/-- Nothing was extruded since the last break. -/
def Flat (r : Stroke E V X) : Prop :=
  r.geometry.left.indices.drop r.geometry.lastBreak.left.indexCount = [] ∧
  r.geometry.right.indices.drop r.geometry.lastBreak.right.indexCount = []

/-- Without extrusions since the last break there is nothing extruded. -/
def Idle (r : Stroke E V X) : Prop := (∀ c rest, r.extrusions.reverse ≠ some c :: rest) → Flat r

theorem finishPart_flat {env : Env V X} {r r' : Stroke E V X} (h : r.finishPart env = some r') : Flat r' := by
  unfold Stroke.finishPart at h
  dsimp only at h
  split at h
  · rename_i hc; injection h with h; subst h; exact hc
  · obtain ⟨g1, h1, h⟩ := bind_some h
    injection h with h; subst h
    obtain ⟨a1, a2, a3, a4, a5, -, -⟩ := addBreak_facts h1
    refine ⟨?_, ?_⟩
    · show g1.left.indices.drop g1.lastBreak.left.indexCount = []
      rw [a1, a4, List.drop_length]
    · show g1.right.indices.drop g1.lastBreak.right.indexCount = []
      rw [a2, a5, List.drop_length]

theorem stop_flat {env : Env V X} {tip : Tip T E V X} {r r' : Stroke E V X} (hi : Idle r) (h : r.stop env tip = some r') : Flat r' := by
  unfold Stroke.stop at h
  split at h
  · obtain ⟨g, _, h⟩ := bind_some h; exact finishPart_flat h
  · obtain ⟨g, _, h⟩ := bind_some h; exact finishPart_flat h
  · rename_i hn1 hn2
    injection h with h; subst h; exact hi fun c rest => hn2 c rest

theorem advance_ext {env : Env V X} {tip : Tip T E V X} {r r' : Stroke E V X} (h : r.advance env tip = some r') :
    r'.extrusions = r.extrusions := by
  unfold Stroke.advance at h
  split at h
  · obtain ⟨g, _, h⟩ := bind_some h; injection h with h; subst h; rfl
  · obtain ⟨g, _, h⟩ := bind_some h; injection h with h; subst h; rfl
  · injection h with h; subst h; rfl

theorem push_idle {env : Env V X} {tip : Tip T E V X} {r r' : Stroke E V X} {x : E} (h : (r.push x).advance env tip = some r') : Idle r' := by
  intro hn
  rw [advance_ext h] at hn
  exact absurd (by simp [Stroke.push]) (hn x r.extrusions.reverse)

theorem add_idle {env : Env V X} {tip : Tip T E V X} {r r' : Stroke E V X} {t : T} {l : Bool} (hi : Idle r)
    (h : r.add env tip t l = some r') : Idle r' := by
  unfold Stroke.add at h
  split at h
  · exact fun _ => stop_flat hi h
  · dsimp only at h
    split at h
    · exact push_idle h
    · split at h
      · exact push_idle h
      · split at h
        · injection h with h; subst h; exact hi
        · exact push_idle h
      · split at h
        · obtain ⟨_, _, h⟩ := bind_some h; exact push_idle h
        · obtain ⟨_, _, h⟩ := bind_some h; exact push_idle h
      · injection h with h; subst h; exact hi
      · injection h with h; subst h; exact hi

theorem addAll_idle {env : Env V X} {tip : Tip T E V X} (ts : List (T × Bool)) : ∀ {r r' : Stroke E V X}, Idle r →
    r.addAll env tip ts = some r' → Idle r' := by
  induction ts with
  | nil => intro r r' hi h; injection h with h; subst h; exact hi
  | cons t ts ih =>
    intro r r' hi h
    obtain ⟨r1, h1, h⟩ := bind_some h
    exact ih (add_idle hi h1) h

theorem trimmed_idle {r : Stroke E V X} (hi : Idle r) : Idle ({ r with geometry := trimmed r.geometry } : Stroke E V X) := by
  intro hn
  have := hi hn
  unfold Flat at this ⊢
  have e1 : (trimmed r.geometry).left.indices = r.geometry.left.indices := keepLast_indices _
  have e2 : (trimmed r.geometry).right.indices = r.geometry.right.indices := keepLast_indices _
  dsimp only
  rw [e1, e2]; exact this

theorem start_idle (env : Env V X) (sv : Save V X) : Idle (Stroke.start env sv : Stroke E V X) := fun _ => ⟨rfl, rfl⟩

/-- The outlines of an extruder after a break. -/
theorem Sim.outlines {core : V → C} {e : Extruder E V X} {r : Stroke E V X} (S : Sim core e r) (hf : Flat r) :
    e.outlines = r.outlines ∨ e.outlines = r.outlines ++ [([], [])] := by
  by_cases h : e.outlines.length = r.outlines.length
  · left
    have := S.closed
    rwa [← h, List.take_length] at this
  · right
    have h1 := S.lenLe
    have h2 := S.lenGe
    have hlt : r.outlines.length < e.outlines.length := by omega
    have e1 : e.outlines = e.outlines.take (r.outlines.length + 1) := by rw [List.take_of_length_le (by omega)]
    have e2 := List.take_succ_eq_append_getElem hlt
    rw [S.closed] at e2
    obtain ⟨p1, p2⟩ := S.opened _ (List.getElem?_eq_getElem hlt)
    unfold Flat at hf
    rw [← S.same.lastBreak, ← S.same.left, ← S.same.right] at hf
    rw [hf.1] at p1
    rw [hf.2] at p2
    have q : e.outlines[r.outlines.length] = ([], []) := Prod.ext (List.prefix_nil.1 p1) (List.prefix_nil.1 p2)
    rw [e1, e2, q]

/-! ## Every vertex is on one side -/

def positions (k : SideId) (ids : List SideId) : List Nat := (List.range ids.length).filter fun i => decide (ids[i]? = some k)

theorem positions_append (k : SideId) (a b : List SideId) : positions k a <+: positions k (a ++ b) := by
  unfold positions
  rw [List.length_append, List.range_add, List.filter_append]
  have : (List.range a.length).filter (fun i => decide ((a ++ b)[i]? = some k)) =
      (List.range a.length).filter (fun i => decide (a[i]? = some k)) := by
    apply List.filter_congr
    intro i hi
    rw [List.getElem?_append_left (List.mem_range.1 hi)]
  rw [this]
  exact List.prefix_append _ _

theorem positions_snoc (k k' : SideId) (a : List SideId) :
    positions k (a ++ [k']) = positions k a ++ if k' = k then [a.length] else [] := by
  unfold positions
  rw [List.length_append, List.length_singleton, List.range_succ, List.filter_append]
  congr 1
  · apply List.filter_congr
    intro i hi
    rw [List.getElem?_append_left (List.mem_range.1 hi)]
  · by_cases h : k' = k <;> simp [h]

theorem positions_take (k : SideId) (a : List SideId) (n : Nat) :
    (positions k a).take (positions k (a.take n)).length = positions k (a.take n) := by
  have h := positions_append k (a.take n) (a.drop n)
  rw [List.take_append_drop] at h
  rw [prefix_take_eq h (Nat.le_refl _), List.take_length]

theorem positions_perm (a : List SideId) : (positions .left a ++ positions .right a).Perm (List.range a.length) := by
  have e : positions .right a = (List.range a.length).filter fun i => !decide (a[i]? = some .left) := by
    unfold positions
    apply List.filter_congr
    intro i hi
    have hi := List.mem_range.1 hi
    rw [List.getElem?_eq_getElem hi]
    cases a[i] <;> simp
  rw [e]
  exact List.filter_append_perm _ _

/-- The sides of the geometry are its vertices. -/
structure Tables (g : Geometry V X) : Prop where
  ids : g.ids.length = g.vertices.length
  left : g.left.indices = positions .left g.ids
  right : g.right.indices = positions .right g.ids
  count : g.lastBreak.vertexCount ≤ g.ids.length
  breakLeft : g.lastBreak.left.indexCount = (positions .left (g.ids.take g.lastBreak.vertexCount)).length
  breakRight : g.lastBreak.right.indexCount = (positions .right (g.ids.take g.lastBreak.vertexCount)).length

theorem Tables.congr {g g' : Geometry V X} (h : Tables g) (h1 : g'.vertices.length = g.vertices.length) (h2 : g'.ids = g.ids)
    (h3 : g'.left.indices = g.left.indices) (h4 : g'.right.indices = g.right.indices) (h5 : g'.lastBreak = g.lastBreak) : Tables g' := by
  refine ⟨?_, ?_, ?_, ?_, ?_, ?_⟩
  · rw [h1, h2]; exact h.ids
  · rw [h2, h3]; exact h.left
  · rw [h2, h4]; exact h.right
  · rw [h2, h5]; exact h.count
  · rw [h2, h5]; exact h.breakLeft
  · rw [h2, h5]; exact h.breakRight

theorem tables_appendVertexToMesh {g : Geometry V X} (h : Tables g) (k : SideId) (v : V) : Tables (g.appendVertexToMesh k v) := by
  have ht : ∀ {n}, n ≤ g.ids.length → (g.ids ++ [k]).take n = g.ids.take n := fun hn => List.take_append_of_le_length hn
  cases k with
  | left =>
    refine ⟨?_, ?_, ?_, ?_, ?_, ?_⟩
    · show (g.ids ++ [_]).length = (g.vertices ++ [v]).length; simp [h.ids]
    · show g.left.indices ++ [g.vertices.length] = positions _ (g.ids ++ [_])
      rw [positions_snoc, h.left, if_pos rfl, h.ids]
    · show g.right.indices = positions _ (g.ids ++ [_])
      rw [positions_snoc, h.right, if_neg (by simp)]; simp
    · show _ ≤ (g.ids ++ [_]).length; rw [List.length_append]; exact Nat.le_trans h.count (Nat.le_add_right _ _)
    · show g.lastBreak.left.indexCount = (positions _ ((g.ids ++ [_]).take g.lastBreak.vertexCount)).length
      rw [ht h.count]; exact h.breakLeft
    · show g.lastBreak.right.indexCount = (positions _ ((g.ids ++ [_]).take g.lastBreak.vertexCount)).length
      rw [ht h.count]; exact h.breakRight
  | right =>
    refine ⟨?_, ?_, ?_, ?_, ?_, ?_⟩
    · show (g.ids ++ [_]).length = (g.vertices ++ [v]).length; simp [h.ids]
    · show g.left.indices = positions _ (g.ids ++ [_])
      rw [positions_snoc, h.left, if_neg (by simp)]; simp
    · show g.right.indices ++ [g.vertices.length] = positions _ (g.ids ++ [_])
      rw [positions_snoc, h.right, if_pos rfl, h.ids]
    · show _ ≤ (g.ids ++ [_]).length; rw [List.length_append]; exact Nat.le_trans h.count (Nat.le_add_right _ _)
    · show g.lastBreak.left.indexCount = (positions _ ((g.ids ++ [_]).take g.lastBreak.vertexCount)).length
      rw [ht h.count]; exact h.breakLeft
    · show g.lastBreak.right.indexCount = (positions _ ((g.ids ++ [_]).take g.lastBreak.vertexCount)).length
      rw [ht h.count]; exact h.breakRight

theorem tables_setSide {g : Geometry V X} (h : Tables g) (k : SideId) {sd : Side V X} (hs : sd.indices = (g.side k).indices) :
    Tables (g.setSide k sd) := by
  cases k with
  | left => exact h.congr rfl rfl hs rfl rfl
  | right => exact h.congr rfl rfl rfl hs rfl

theorem tables_setVertex {g g' : Geometry V X} (h : Tables g) {i : Nat} {v : V} {u : Bool} (hs : g.setVertex i v u = some g') :
    Tables g' := by
  obtain ⟨sv, -, rfl⟩ := setVertex_effect hs
  exact h.congr (List.length_set ..) rfl rfl rfl rfl

theorem tables_setTriangle {g g' : Geometry V X} (h : Tables g) {i : Nat} {t : Tri} {u : Bool} (hs : g.setTriangle i t u = some g') :
    Tables g' := by
  obtain ⟨old, _, hs⟩ := bind_some hs
  injection hs with hs; subst hs
  split <;> exact h.congr rfl rfl rfl rfl rfl

theorem tables_unzipLoop (f : Nat → Tri → Tri) (k i : Nat) : ∀ {s s' : Geometry V X}, Tables s → Geometry.unzipLoop f k i s = some s' →
    Tables s' := by
  induction i with
  | zero => intro s s' H h; injection h with h; subst h; exact H
  | succ i ih =>
    intro s s' H h
    unfold Geometry.unzipLoop at h
    split at h
    · obtain ⟨a, ha, h⟩ := bind_some h
      dsimp only at h
      rw [unzipStep ha] at h
      obtain ⟨s1, h1, h⟩ := bind_some h
      exact ih (tables_setTriangle H h1) h
    · injection h with h; subst h; exact H

theorem tables_inner {env : Env V X} {s s' : Geometry V X} {op : Op V X} (ho : Inner op) (H : Tables s) (h : s.step env op = some s') :
    Tables s' := by
  cases op with
  | bufferVertex k v =>
    have h : s.appendVertexToSide env k v = some s' := h
    unfold Geometry.appendVertexToSide at h
    dsimp only at h
    split at h
    · obtain ⟨_, _, h⟩ := bind_some h
      injection h with h; subst h
      refine tables_appendVertexToMesh (g := s.setSide k _) (tables_setSide H k ?_) _ _
      rfl
    · injection h with h; subst h; exact tables_setSide H k rfl
  | appendVertex k v => injection h with h; subst h; exact tables_appendVertexToMesh H k v
  | setVertex i v => exact tables_setVertex H h
  | appendTriangle a => injection h with h; subst h; exact H.congr rfl rfl rfl rfl rfl
  | setTriangle i a => exact tables_setTriangle H h
  | unzip k f a =>
    obtain ⟨s1, h1, h⟩ := bind_some h
    have H1 := tables_unzipLoop f k _ H h1
    split at h
    · injection h with h; subst h
      exact H1.congr rfl rfl rfl rfl rfl
    · cases h
  | setOpposite i o =>
    obtain ⟨_, _, h⟩ := bind_some h
    split at h
    · injection h with h; subst h; exact H
    · injection h with h; subst h; split <;> exact H.congr rfl rfl rfl rfl rfl
  | addDiscontinuity k r => injection h with h; subst h; exact tables_setSide H k rfl
  | setState k sd => injection h with h; subst h; exact tables_setSide H k rfl
  | addBreak => cases ho
  | clear => cases ho
  | derivatives us => cases ho
  | resetTracking => cases ho

theorem tables_exec {core : V → C} {env : Env V X} (p : Program V X) : ∀ {s s' : Geometry V X}, OkProgram core p → Tables s →
    s.exec env p = some s' → Tables s' := by
  induction p with
  | nil => intro s s' _ H h; injection h with h; subst h; exact H
  | cons f p ih =>
    intro s s' hp H h
    obtain ⟨s1, h1, h⟩ := bind_some h
    exact ih (fun f hf => hp f (List.mem_cons_of_mem _ hf)) (tables_inner ((hp f List.mem_cons_self).1 s) H h1) h

theorem tables_addBreak {env : Env V X} {s s' : Geometry V X} (H : Tables s) (h : s.addBreak env = some s') : Tables s' := by
  obtain ⟨s1, h1, h⟩ := bind_some h
  have H1 : Tables s1 := by
    have L : ∀ {s s' : Geometry V X} {sd : Side V X}, Tables s → s.labelLast env sd = some s' → Tables s' := by
      intro s s' sd H h
      unfold Geometry.labelLast at h
      split at h
      · injection h with h; subst h; exact H
      · obtain ⟨i, _, h⟩ := bind_some h
        obtain ⟨v, _, h⟩ := bind_some h
        exact tables_setVertex H h
    unfold Geometry.labelBoth at h1
    split at h1
    · obtain ⟨s2, h2, h1⟩ := bind_some h1
      exact L (L H h2) h1
    · injection h1 with h1; subst h1; exact H
  injection h with h; subst h
  refine ⟨H1.ids, H1.left, H1.right, ?_, ?_, ?_⟩
  · exact Nat.le_of_eq H1.ids.symm
  · show s1.left.indices.length = (positions _ (s1.ids.take s1.vertices.length)).length
    rw [← H1.ids, List.take_length, H1.left]
  · show s1.right.indices.length = (positions _ (s1.ids.take s1.vertices.length)).length
    rw [← H1.ids, List.take_length, H1.right]

theorem tables_clear {env : Env V X} {s0 s' : Geometry V X} (H : Tables s0) (h : s0.clearSinceBreak env = some s') : Tables s' := by
  unfold Geometry.clearSinceBreak at h
  split at h
  · injection h with h; subst h; exact H
  · obtain ⟨s, h1, h⟩ := bind_some h
    injection h with h; subst h
    have S := capture_same (core := fun _ : V => ()) h1
    have H : Tables s := H.congr S.length S.ids (by rw [S.left]) (by rw [S.right]) S.lastBreak
    have hc := H.count
    have hc' : s.lastBreak.vertexCount ≤ s.vertices.length := H.ids ▸ hc
    have kl : s.lastBreak.left.indexCount ≤ s.left.indices.length := by
      rw [H.left, H.breakLeft, ← positions_take .left s.ids]; exact List.length_take_le' ..
    have kr : s.lastBreak.right.indexCount ≤ s.right.indices.length := by
      rw [H.right, H.breakRight, ← positions_take .right s.ids]; exact List.length_take_le' ..
    refine ⟨?_, ?_, ?_, ?_, ?_, ?_⟩
    · show (resize _ _ _).length = (resize _ _ _).length; rw [resize_length, resize_length]
    · show resize s.left.indices _ _ = positions _ (resize s.ids _ _)
      rw [resize_of_le _ hc, resize_of_le _ kl, H.left, H.breakLeft, positions_take]
    · show resize s.right.indices _ _ = positions _ (resize s.ids _ _)
      rw [resize_of_le _ hc, resize_of_le _ kr, H.right, H.breakRight, positions_take]
    · show _ ≤ (resize s.ids _ _).length; rw [resize_length]; exact Nat.le_refl _
    · show s.lastBreak.left.indexCount = (positions _ ((resize s.ids s.lastBreak.vertexCount _).take s.lastBreak.vertexCount)).length
      rw [resize_of_le _ hc, List.take_take, Nat.min_self]; exact H.breakLeft
    · show s.lastBreak.right.indexCount = (positions _ ((resize s.ids s.lastBreak.vertexCount _).take s.lastBreak.vertexCount)).length
      rw [resize_of_le _ hc, List.take_take, Nat.min_self]; exact H.breakRight

theorem finishPart_tables {env : Env V X} {r r' : Stroke E V X} (H : Tables r.geometry)
    (h : r.finishPart env = some r') : Tables r'.geometry := by
  unfold Stroke.finishPart at h
  dsimp only at h
  split at h
  · injection h with h; subst h; exact H
  · obtain ⟨g1, h1, h⟩ := bind_some h
    injection h with h; subst h
    exact tables_addBreak H h1

theorem stop_tables {core : V → C} {env : Env V X} {tip : Tip T E V X} (ht : OkTip core tip) {r r' : Stroke E V X}
    (H : Tables r.geometry) (h : r.stop env tip = some r') : Tables r'.geometry := by
  unfold Stroke.stop at h
  split at h
  · obtain ⟨g, hg, h⟩ := bind_some h
    exact finishPart_tables (r := { r with geometry := g }) (tables_exec _ (ht.endcap _ _) H hg) h
  · obtain ⟨g, hg, h⟩ := bind_some h
    exact finishPart_tables (r := { r with geometry := g }) (tables_exec _ (ht.whole _) H hg) h
  · injection h with h; subst h; exact H

theorem advance_tables {core : V → C} {env : Env V X} {tip : Tip T E V X} (ht : OkTip core tip) {r r' : Stroke E V X}
    (H : Tables r.geometry) (h : r.advance env tip = some r') : Tables r'.geometry := by
  unfold Stroke.advance at h
  split at h
  · obtain ⟨g, hg, h⟩ := bind_some h
    injection h with h; subst h; exact tables_exec _ (ht.turn _ _ _) H hg
  · obtain ⟨g, hg, h⟩ := bind_some h
    injection h with h; subst h; exact tables_exec _ (ht.startcap _ _) H hg
  · injection h with h; subst h; exact H

theorem forget_tables {env : Env V X} {r r' : Stroke E V X} (H : Tables r.geometry) (h : r.forget env = some r') :
    Tables r'.geometry := by
  obtain ⟨g, hg, h⟩ := bind_some h
  injection h with h; subst h; exact tables_clear H hg

theorem add_tables {core : V → C} {env : Env V X} {tip : Tip T E V X} (ht : OkTip core tip) {r r' : Stroke E V X} {t : T} {l : Bool}
    (H : Tables r.geometry) (h : r.add env tip t l = some r') : Tables r'.geometry := by
  have adv : ∀ {r r' : Stroke E V X} {x : E}, Tables r.geometry → (r.push x).advance env tip = some r' → Tables r'.geometry :=
    fun {r r' x} H h => advance_tables (r := r.push x) ht H h
  unfold Stroke.add at h
  split at h
  · exact stop_tables ht H h
  · dsimp only at h
    split at h
    · exact adv H h
    · split at h
      · exact adv H h
      · split at h
        · injection h with h; subst h; exact H
        · exact adv H h
      · split at h
        · obtain ⟨_, h1, h⟩ := bind_some h; exact adv (forget_tables H h1) h
        · obtain ⟨_, h1, h⟩ := bind_some h; exact adv (stop_tables ht H h1) h
      · injection h with h; subst h; exact H
      · injection h with h; subst h; exact H

theorem addAll_tables {core : V → C} {env : Env V X} {tip : Tip T E V X} (ht : OkTip core tip) (ts : List (T × Bool)) :
    ∀ {r r' : Stroke E V X}, Tables r.geometry → r.addAll env tip ts = some r' → Tables r'.geometry := by
  induction ts with
  | nil => intro r r' H h; injection h with h; subst h; exact H
  | cons t ts ih =>
    intro r r' H h
    obtain ⟨r1, h1, h⟩ := bind_some h
    exact ih (add_tables ht H h1) h

theorem start_tables (env : Env V X) (sv : Save V X) : Tables (Geometry.reset env sv) := by
  constructor <;> first | rfl | exact Nat.le_refl _

theorem trimmed_tables {g : Geometry V X} (H : Tables g) : Tables (trimmed g) :=
  H.congr rfl rfl (keepLast_indices _) (keepLast_indices _) rfl

/-- What a stroke of fixed and volatile states is like. -/
theorem strokeOf_ok {core : V → C} {env : Env V X} {tip : Tip T E V X} (ht : OkTip core tip) {sv : Save V X} {fixed : List (T × Bool)}
    {volatile : List T} {u : Stroke E V X} (h : strokeOf env tip sv fixed volatile = some u) : Flat u ∧ Tables u.geometry := by
  obtain ⟨r, h1, h⟩ := bind_some h
  obtain ⟨r2, h2, h⟩ := bind_some h
  exact ⟨stop_flat (addAll_idle _ (trimmed_idle (addAll_idle _ (start_idle env sv) h1)) h2) h,
    stop_tables ht (addAll_tables ht _ (r := { r with geometry := trimmed r.geometry })
      (trimmed_tables (addAll_tables ht _ (r := Stroke.start env sv) (start_tables env sv) h1)) h2) h⟩

/-- The calls of a history. -/
theorem extend_ok {core : V → C} {env : Env V X} {order : {α : Type} → List α → List α} (ho : IsOrder order)
    (he : Respects core env) {tip : Tip T E V X} (ht : OkTip core tip) {sv : Save V X} (sv' : Save V X) {debug : Bool} {history : List (List T × List T)}
    {fixed volatile : List T} {e : Extruder E V X}
    (h : (Extruder.start env sv).extendAll debug env tip order (history ++ [(fixed, volatile)]) = some e) :
    ∃ u, strokeOf env tip sv' ((history ++ [(fixed, volatile)]).flatMap markedFixed) volatile = some u ∧ Sim core e u := by
  have split : ∀ (a : List (List T × List T)) (e0 : Extruder E V X) (b : List (List T × List T)),
      e0.extendAll debug env tip order (a ++ b) = (e0.extendAll debug env tip order a).bind fun e => e.extendAll debug env tip order b := by
    intro a
    induction a with
    | nil => intro e0 b; rfl
    | cons c a ih =>
      intro e0 b
      show (e0.extend debug env tip order c.1 c.2).bind _ = ((e0.extend debug env tip order c.1 c.2).bind _).bind _
      rw [Option.bind_assoc]
      congr 1; funext e1; exact ih e1 b
  rw [split] at h
  obtain ⟨e1, h1, h⟩ := bind_some h
  obtain ⟨-, r1, hr1, B⟩ := between_all ho he ht history (between_start core env sv sv') h1
  obtain ⟨e2, h2, h⟩ := bind_some h
  injection h with h; subst h
  obtain ⟨-, r2, u, hr2, hu, S, -⟩ := between_extend ho he ht B h2
  refine ⟨u, ?_, S⟩
  unfold strokeOf
  rw [List.flatMap_append, addAll_append, hr1]
  simp only [List.flatMap_cons, List.flatMap_nil, List.append_nil, Option.bind_some, hr2]
  exact hu

end Verif.StrokeGeom
