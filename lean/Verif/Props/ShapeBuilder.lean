import Verif.Lemmas.ShapeBuilder

/-!
# C81: a stroke is the same however it is drawn

The modeler of inputs, the modeler of the tip and the extruder together.
-/

set_option autoImplicit false

namespace Verif.ShapeBuilder

open Verif F32 InputModeler.Spec Spec

variable {I σ E V X C : Type} {p : Parts I σ E V X}

theorem same_drawn {core : V → C} (he : StrokeGeom.Spec.Respects core p.env) {tip : StrokeGeom.Tip Tip.TipState E V X}
    (ht : StrokeGeom.Spec.OkTip core tip) (ho : StrokeGeom.Spec.IsOrder p.order) {sv sv' : StrokeGeom.Save V X}
    {H H' : List (List Tip.TipState × List Tip.TipState)} {fixed fixed' vol : List Tip.TipState} {e e' : StrokeGeom.Extruder E V X}
    (hm : StrokeGeom.Spec.strokeOf p.env tip sv ((H' ++ [(fixed', vol)]).flatMap StrokeGeom.Spec.markedFixed) vol =
      StrokeGeom.Spec.strokeOf p.env tip sv ((H ++ [(fixed, vol)]).flatMap StrokeGeom.Spec.markedFixed) vol)
    (h : (StrokeGeom.Extruder.start p.env sv).extendAll p.debug p.env tip p.order (H ++ [(fixed, vol)]) = some e)
    (h' : (StrokeGeom.Extruder.start p.env sv').extendAll p.debug p.env tip p.order (H' ++ [(fixed', vol)]) = some e') :
    e'.extrusions = e.extrusions ∧ StrokeGeom.Spec.contents core e'.geometry = StrokeGeom.Spec.contents core e.geometry ∧
    e'.outlines.filter (· ≠ ([], [])) = e.outlines.filter (· ≠ ([], [])) := by
  obtain ⟨u, hu, S⟩ := StrokeGeom.extend_ok ho he ht sv h
  obtain ⟨u', hu', S'⟩ := StrokeGeom.extend_ok ho he ht sv h'
  rw [hm, hu] at hu'
  injection hu' with hu'; subst hu'
  refine ⟨S'.ext.trans S.ext.symm, (StrokeGeom.same_iff.1 S'.same).trans (StrokeGeom.same_iff.1 S.same).symm, ?_⟩
  have hf := (StrokeGeom.strokeOf_ok ht hu).1
  rcases S.outlines hf with h | h <;> rcases S'.outlines hf with h' | h' <;> rw [h, h'] <;> simp

theorem shows_busy {b : Builder I σ E V X} {cs : List InputModeler.Call} {P : List Batch.Input} (h : Shows p b cs P) : cs.all idle = false := by
  obtain ⟨before, c, later, rfl, hc, -⟩ := h
  rw [List.all_append, List.all_cons, hc]
  simp

/-- **C81.** The shape of a stroke does not depend on how its inputs arrived. Take two builders, whatever they were used for before, that are
started with the same arguments for a steady tip. If all real inputs are the same in the end, in whatever batches they came, and so is the
prediction that is shown, whatever was predicted and taken back before, whatever the times of the updates were, and however many updates there
were without inputs, then what is drawn is the same: extrusions, mesh (up to derivatives) and outlines. (Inputs may differ in the sign of a unit
length that is zero.) This is so for particles, and for continuous lines if there is always a modeled input which is not stable. What is missing:
continuous lines after an update with which all modeled inputs become stable (see `C81_settled_counterexample`), predictions that cannot be seen
when they are taken back (see `C81_withdrawn_counterexample` and `Shows`) and sources of the end of a stroke. -/
theorem C81_schedule_partial {core : V → C} (he : StrokeGeom.Spec.Respects core p.env)
    (hsh : ∀ e w, StrokeGeom.Spec.OkTip core (p.shapes e w)) (ho : StrokeGeom.Spec.IsOrder p.order) (hsm : EmptyIsSmall p)
    {b b' b0 b0' x x' : Builder I σ E V X} {im : I} {coat : Brushes.Coat} {size eps : F32} {tip : Tip.BrushTip}
    (ht : coat.tips = [tip]) (hv : Steady tip) (hs : b.start p im coat size eps = some b0) (hs' : b'.start p im coat size eps = some b0')
    {cs ds : List InputModeler.Call} {P P' : List Batch.Input} (hb : BeginsReal cs) (hb' : BeginsReal ds)
    (hn : Continuous tip size → NeverSettled p b0 cs) (hn' : Continuous tip size → NeverSettled p b0' ds)
    (hc : Shows p b0 cs P) (hd : Shows p b0' ds P')
    (hr : (reals ds).map InProgress.Spec.canon = (reals cs).map InProgress.Spec.canon)
    (hp : P'.map InProgress.Spec.canon = P.map InProgress.Spec.canon)
    (h : b0.run p cs = some x) (h' : b0'.run p ds = some x') (hne : x.input.modeled ≠ []) (hta : TimesAscend x.input) :
    drawn core x' = drawn core x := by
  obtain ⟨m0, us, H, m, e1, D, ch, v1, -, tl, -, last⟩ := did_run ht hs _ x hb hn h
  obtain ⟨m0', us', H', m', e1', D', ch', v1', -, tl', -, last'⟩ := did_run ht hs' _ x' hb' hn' h'
  rw [e1] at e1'; cases e1'
  obtain ⟨us, H, fixed, vol, rfl, rfl, hvol, hout⟩ := last (shows_busy hc)
  obtain ⟨us', H', fixed', vol', rfl, rfl, hvol', hout'⟩ := last' (shows_busy hd)
  obtain ⟨t1, t2⟩ := tl (shows_busy hc)
  obtain ⟨t1', t2'⟩ := tl' (shows_busy hd)
  obtain ⟨hi, -, -, -, he0, hep, hwi⟩ := start_parts ht hs
  obtain ⟨hi', -, -, -, he0', hep', hwi'⟩ := start_parts ht hs'
  have w : x.input.stableCount ≤ x.input.modeled.length := (Tip.chain_last us _ ch ⟨stateOf x.input, x.input.modeled⟩ (by simp)).1
  have w' : x'.input.stableCount ≤ x'.input.modeled.length := (Tip.chain_last us' _ ch' ⟨stateOf x'.input, x'.input.modeled⟩ (by simp)).1
  have q1 := (InputModeler.inv_outcome p.hypot p.lib (shows_inv hi hc h)).1
  have q1' := (InputModeler.inv_outcome p.hypot p.lib (shows_inv hi' hd h')).1
  rw [← outcome_canon, hr, hp, outcome_canon, q1] at q1'
  simp only [Option.some.injEq, Outcome.mk.injEq] at q1'
  obtain ⟨o1, -, o3⟩ := q1'
  have hst : x'.input.stableCount = x.input.stableCount := by
    have := congrArg List.length o1
    simp only [List.length_take] at this
    omega
  have u1 : InputModeler.toolTypeOf (reals ds) = InputModeler.toolTypeOf (reals cs) := by
    rw [← toolTypeOf_canon, hr, toolTypeOf_canon]
  have u2 : InputModeler.unitLengthOf (reals ds) = InputModeler.unitLengthOf (reals cs) := by
    rw [← unitLengthOf_canon, hr, unitLengthOf_canon]
  obtain ⟨f1, f2⟩ := Tip.same_split p.libm p.tabulate p.fuel e1 hv.sources hv.direction ch ch' hne o3.symm hst
    (by show toolOf x'.input.toolType = toolOf x.input.toolType; rw [t1, t1', u1])
    (by show x'.input.unitLength = x.input.unitLength; rw [t2, t2', u2]) (inOrder_of hi _ D.input hta) D.collected D'.collected hvol hvol'
  subst f2
  have E1 := D.extruded
  have E2 := D'.extruded
  rw [he0, hep, hwi] at E1
  rw [he0', hep', hwi'] at E2
  have hgt : gt eps zero = true := by
    unfold InputModeler.Modeler.start at hi
    split at hi
    · assumption
    · cases hi
  have hgap : ∀ c : List Tip.TipState × List Tip.TipState, c.2 ≠ [] ∨ Tip.EndsInGap c.1 →
      c.2 ≠ [] ∨ ∀ t ∈ c.1.getLast?, (p.shapes eps (isWindingTextureParticleBrush coat tip)).small t = true :=
    fun c h => h.imp id fun h t ht => by rw [h t ht]; exact hsm _ _ _ hgt rfl rfl
  have := same_drawn he (hsh _ _) ho (by
    rw [strokeOf_marks (fun c hc => hgap c (v1 c hc)), strokeOf_marks (fun c hc => hgap c (v1' c hc)), f1]) E1 E2
  unfold drawn
  rw [this.1, this.2.1, hout, hout', this.2.2]

/-- **C81.** A finished stroke looks as it did when it was drawn: when the shape is built again from all its inputs in a single update (as
`Stroke::RegenerateShape` does, stroke.cc:173-176), the result is what the last update drew, if no prediction was shown then. -/
theorem C81_finished_partial {core : V → C} (he : StrokeGeom.Spec.Respects core p.env)
    (hsh : ∀ e w, StrokeGeom.Spec.OkTip core (p.shapes e w)) (ho : StrokeGeom.Spec.IsOrder p.order) (hsm : EmptyIsSmall p)
    {b b' b0 b0' x x' : Builder I σ E V X} {im : I} {coat : Brushes.Coat} {size eps : F32} {tip : Tip.BrushTip}
    (ht : coat.tips = [tip]) (hv : Steady tip) (hs : b.start p im coat size eps = some b0) (hs' : b'.start p im coat size eps = some b0')
    {cs : List InputModeler.Call} {inputs : List Batch.Input} {now : Duration32} (hb : BeginsReal cs)
    (hn : Continuous tip size → NeverSettled p b0 cs) (hc : Shows p b0 cs [])
    (hr : inputs.map InProgress.Spec.canon = (reals cs).map InProgress.Spec.canon)
    (h : b0.run p cs = some x) (h' : b0'.run p [⟨inputs, [], now⟩] = some x')
    (hn' : Continuous tip size → x'.input.stableCount < x'.input.modeled.length) (hne : x.input.modeled ≠ []) (hta : TimesAscend x.input) :
    drawn core x' = drawn core x := by
  have h0 : inputs ≠ [] := by
    intro e
    rw [e, List.map_nil] at hr
    exact reals_ne hb (shows_busy hc) (List.map_eq_nil_iff.1 hr.symm)
  have hi : idle ⟨inputs, [], now⟩ = false := by
    cases inputs with
    | nil => exact absurd rfl h0
    | cons a l => rfl
  refine C81_schedule_partial he hsh ho hsm ht hv hs hs' (cs := cs) (ds := [⟨inputs, [], now⟩]) hb ?_ hn ?_ hc
    ⟨[], _, [], rfl, hi, rfl, Or.inl ⟨rfl, rfl⟩⟩ (by simpa [reals] using hr) rfl h h' hne hta
  · intro k hk
    rw [List.find?_cons, hi] at hk
    cases hk
    exact h0
  · intro hcn done hpre y hy hm
    rcases List.prefix_cons_iff.1 hpre with e | ⟨t, rfl, hpt⟩
    · rw [e] at hy
      cases hy
      obtain ⟨hi', -⟩ := start_parts ht hs'
      unfold InputModeler.Modeler.start at hi'
      split at hi'
      · injection hi' with hi'
        rw [← hi'] at hm
        exact absurd rfl hm
      · cases hi'
    · rw [List.prefix_nil.1 hpt, h'] at hy
      cases hy
      exact hn' hcn

theorem reals_idle {cs : List InputModeler.Call} (h : cs.all idle = true) : reals cs = [] := by
  rw [reals, List.flatMap_eq_nil_iff]
  intro k hk
  have := List.all_eq_true.1 h k hk
  unfold idle at this
  rw [Bool.and_eq_true, List.isEmpty_iff] at this
  exact this.1

theorem shows_later {b : Builder I σ E V X} {cs later : List InputModeler.Call} (hl : later.all idle = true) (hc : Shows p b cs []) :
    Shows p b (cs ++ later) [] := by
  obtain ⟨before, c, l, rfl, h1, h2, h3⟩ := hc
  refine ⟨before, c, l ++ later, by simp, h1, by rw [List.all_append, h2, hl]; rfl, ?_⟩
  cases later with
  | nil => rw [List.append_nil]; exact h3
  | cons a later =>
    right
    refine ⟨by simp, rfl, ?_⟩
    rcases h3 with ⟨-, e⟩ | ⟨-, -, e⟩
    · exact Or.inl e.symm
    · exact e

theorem begins_later {cs later : List InputModeler.Call} (hb : BeginsReal cs) (hl : later.all idle = true) : BeginsReal (cs ++ later) := by
  intro k hk
  refine hb k ?_
  rw [List.find?_append] at hk
  cases hf : cs.find? (fun c => !idle c) with
  | none =>
    rw [hf, Option.none_or] at hk
    have hm := List.mem_of_find?_eq_some hk
    have hi := List.find?_some hk
    rw [List.all_eq_true.1 hl k hm] at hi
    cases hi
  | some a =>
    rw [hf] at hk
    exact hk

/-- Nothing is modeled again. -/
theorem modeled_later {b b0 x y : Builder I σ E V X} {im : I} {eps : F32} (hi : b.input.start im eps = some b0.input)
    {cs later : List InputModeler.Call} (hl : later.all idle = true) (hc : Shows p b0 cs []) (h : b0.run p cs = some x)
    (h' : b0.run p (cs ++ later) = some y) : y.input.modeled = x.input.modeled ∧ y.input.stableCount = x.input.stableCount := by
  have J := shows_inv hi hc h
  have J' := shows_inv hi (shows_later hl hc) h'
  rw [reals_append, reals_idle hl, List.append_nil] at J'
  obtain ⟨st, sre, sal, rst, a1, a2, h1, h2, h3, h4, h5, h6, h7⟩ := J.core.data
  obtain ⟨st', sre', sal', rst', a1', a2', h1', h2', h3', h4', h5', h6', h7'⟩ := J'.core.data
  rw [h1] at h1'
  rw [h3] at h3'
  simp only [Option.some.injEq, Prod.mk.injEq] at h1' h3'
  exact ⟨by rw [h6, h6', h3'.2], by rw [h4, h4', h1'.2]⟩

theorem settled_later {b b0 x : Builder I σ E V X} {im : I} {eps : F32} (hi : b.input.start im eps = some b0.input)
    {cs later : List InputModeler.Call} (hl : later.all idle = true) (hc : Shows p b0 cs []) (h : b0.run p cs = some x)
    (hn : NeverSettled p b0 cs) : NeverSettled p b0 (cs ++ later) := by
  intro done hp y hy hm
  rcases Nat.le_total done.length cs.length with hlen | hlen
  · exact hn done (List.prefix_of_prefix_length_le hp (List.prefix_append _ _) hlen) y hy hm
  · obtain ⟨l, rfl⟩ := List.prefix_of_prefix_length_le (List.prefix_append _ _) hp hlen
    rw [List.prefix_append_right_inj] at hp
    obtain ⟨e1, e2⟩ := modeled_later hi (List.all_eq_true.2 fun c hc => List.all_eq_true.1 hl c (hp.subset hc)) hc h hy
    rw [e1] at hm
    rw [e1, e2]
    exact hn cs (List.prefix_refl _) x h hm

/-- **C81.** Time alone does not change a stroke: updates without inputs, however many and at whatever times, change nothing that is drawn by a
steady tip once no prediction is shown. -/
theorem C81_dry_partial {core : V → C} (he : StrokeGeom.Spec.Respects core p.env)
    (hsh : ∀ e w, StrokeGeom.Spec.OkTip core (p.shapes e w)) (ho : StrokeGeom.Spec.IsOrder p.order) (hsm : EmptyIsSmall p)
    {b b0 x y : Builder I σ E V X} {im : I} {coat : Brushes.Coat} {size eps : F32} {tip : Tip.BrushTip}
    (ht : coat.tips = [tip]) (hv : Steady tip) (hs : b.start p im coat size eps = some b0)
    {cs later : List InputModeler.Call} (hl : later.all idle = true) (hb : BeginsReal cs)
    (hn : Continuous tip size → NeverSettled p b0 cs) (hc : Shows p b0 cs [])
    (h : b0.run p cs = some x) (h' : x.run p later = some y) (hne : x.input.modeled ≠ []) (hta : TimesAscend x.input) :
    drawn core y = drawn core x := by
  have hrun : b0.run p (cs ++ later) = some y := by rw [run_append, h]; exact h'
  obtain ⟨hi, -⟩ := start_parts ht hs
  exact C81_schedule_partial he hsh ho hsm ht hv hs hs hb (begins_later hb hl) hn (fun hcn => settled_later hi hl hc h (hn hcn)) hc
    (shows_later hl hc) (by rw [reals_append, reals_idle hl, List.append_nil]) rfl h hrun hne hta

/-! ### An earlier use of the builder -/

/-- Two input modelers that differ in what the first input of a stroke resets. -/
structure Alike (m n : InputModeler.Modeler I σ) : Prop where
  rest : n = { m with library := n.library, hasInput := n.hasInput }
  lib : m.lastReal.isSome → n = m

theorem Alike.refl (m : InputModeler.Modeler I σ) : Alike m m := ⟨rfl, fun _ => rfl⟩

theorem alike_start {m n m0 n0 : InputModeler.Modeler I σ} {im : I} {eps : F32} (hm : m.start im eps = some m0) (hn : n.start im eps = some n0) :
    Alike m0 n0 := by
  unfold InputModeler.Modeler.start at hm hn
  split at hm
  · rename_i hg
    rw [if_pos hg] at hn
    cases hm; cases hn
    exact ⟨rfl, fun h => by cases h⟩
  · cases hm

theorem updateTime_alike {m n m' : InputModeler.Modeler I σ} (h : Alike m n) {now : Duration32} (e : m.updateTimeAndDistance now = some m') :
    ∃ n', n.updateTimeAndDistance now = some n' ∧ Alike m' n' := by
  by_cases hl : m.lastReal.isSome
  · rw [h.lib hl]; exact ⟨m', e, Alike.refl _⟩
  · have hr := h.rest
    generalize n.library = l at hr
    generalize n.hasInput = i at hr
    subst hr
    unfold InputModeler.Modeler.updateTimeAndDistance at e ⊢
    dsimp only
    cases hm : m.modeled.getLast? with
    | none =>
      rw [hm] at e
      cases e
      exact ⟨_, rfl, ⟨rfl, fun h => absurd h hl⟩⟩
    | some z =>
      rw [hm] at e
      dsimp only at e ⊢
      split at e
      · rename_i h0
        rw [if_pos h0]
        cases e
        exact ⟨_, rfl, ⟨rfl, fun h => absurd h hl⟩⟩
      · rename_i h0
        rw [if_neg h0]
        obtain ⟨r, hr, e⟩ := StrokeGeom.bind_some e
        rw [hr]
        cases e
        exact ⟨_, rfl, ⟨rfl, fun h => absurd h hl⟩⟩

theorem prepare_alike {m n : InputModeler.Modeler I σ} {lib : InputModeler.Library I σ} (h : Alike m n) (r q : List Batch.Input) :
    n.prepare lib r q = m.prepare lib r q := by
  by_cases hl : m.lastReal.isSome
  · rw [h.lib hl]
  · have hr := h.rest
    generalize n.library = l at hr
    generalize n.hasInput = i at hr
    subst hr
    unfold InputModeler.Modeler.prepare
    rw [if_neg hl]
    simp only [hl, if_false, Bool.false_eq_true]

theorem extend_alike {m n m' : InputModeler.Modeler I σ} (h : Alike m n) {hypot : F32 → F32 → F32} {lib : InputModeler.Library I σ}
    {r q : List Batch.Input} {now : Duration32} (e : m.extendStroke hypot lib r q now = some m') :
    ∃ n', n.extendStroke hypot lib r q now = some n' ∧ Alike m' n' := by
  unfold InputModeler.Modeler.extendStroke at e ⊢
  have e1 : n.epsilon = m.epsilon := by rw [h.rest]
  have e2 : n.realCount = m.realCount := by rw [h.rest]
  have e3 : n.modeled = m.modeled := by rw [h.rest]
  rw [e1, e2, e3]
  split at e
  · rename_i hg
    rw [if_pos hg]
    split at e
    · rename_i hq
      rw [if_pos hq]
      exact updateTime_alike h e
    · rename_i hq
      rw [if_neg hq, prepare_alike h]
      exact ⟨m', e, Alike.refl _⟩
  · cases e

/-- Two builders that drew the same. -/
theorem run_alike {a a0 b b0 : Builder I σ E V X} {im : I} {coat : Brushes.Coat} {size eps : F32} {tip : Tip.BrushTip} (ht : coat.tips = [tip])
    (ha : a.start p im coat size eps = some a0) (hb : b.start p im coat size eps = some b0) (cs : List InputModeler.Call) :
    ∀ (x y : Builder I σ E V X), a0.run p cs = some x → b0.run p cs = some y →
    Alike x.input y.input ∧ ∃ m0 us H m, Did p a0 m0 cs x us H m ∧ Did p b0 m0 cs y us H m ∧
      (cs ≠ [] → ∃ H' fixed vol, H = H' ++ [(fixed, vol)] ∧ x.outlines = x.extruder.outlines.filter (· ≠ ([], [])) ∧
        y.outlines = y.extruder.outlines.filter (· ≠ ([], []))) := by
  obtain ⟨hia, m0, hm0, hma, -⟩ := start_parts ht ha
  obtain ⟨hib, n0, hn0, hmb, -⟩ := start_parts ht hb
  rw [hm0] at hn0; cases hn0
  induction cs using List.reverseRecOn with
  | nil =>
    intro x y hx hy
    cases hx; cases hy
    exact ⟨alike_start hia hib, m0, [], [], m0, did_start hma, did_start hmb, by simp⟩
  | append_singleton cs c ih =>
    intro x y hx hy
    obtain ⟨x1, hx1, hx2⟩ := run_last hx
    obtain ⟨y1, hy1, hy2⟩ := run_last hy
    obtain ⟨al, m0', us, H, m, D1, D2, -⟩ := ih x1 y1 hx1 hy1
    obtain ⟨m', f, v, D1', u1, f1, v1, o1⟩ := D1.step hx2
    obtain ⟨m'', f', v', D2', u2, f2, v2, o2⟩ := D2.step hy2
    obtain ⟨q, -⟩ := extend_parts hx2
    obtain ⟨q', -⟩ := extend_parts hy2
    obtain ⟨n', r1, r2⟩ := extend_alike al q
    rw [r1] at q'
    cases q'
    have s1 : stateOf y.input = stateOf x.input := by rw [r2.rest]; rfl
    have s2 : y.input.modeled = x.input.modeled := by rw [r2.rest]
    rw [s1, s2, u1] at u2
    cases u2
    rw [f1] at f2; cases f2
    rw [v1] at v2; cases v2
    rw [s1, s2] at D2'
    exact ⟨r2, m0', _, _, m', D1', D2', fun _ => ⟨H, f, v, rfl, o1, o2⟩⟩

/-- **C81.** An earlier use of a builder leaves no trace: whatever two builders drew before, when they are started with the same arguments and
then given the same updates, the modeled inputs are the same, and so is what is drawn, for every tip and every history, and so is whether the
shape will still change with time alone. -/
theorem C81_reuse_partial {core : V → C} (he : StrokeGeom.Spec.Respects core p.env)
    (hsh : ∀ e w, StrokeGeom.Spec.OkTip core (p.shapes e w)) (ho : StrokeGeom.Spec.IsOrder p.order)
    {a b a0 b0 x y : Builder I σ E V X} {im : I} {coat : Brushes.Coat} {size eps : F32}
    (ha : a.start p im coat size eps = some a0) (hb : b.start p im coat size eps = some b0) {cs : List InputModeler.Call}
    (hx : a0.run p cs = some x) (hy : b0.run p cs = some y) :
    y.input.modeled = x.input.modeled ∧ stateOf y.input = stateOf x.input ∧
    y.hasUnfinishedTimeBehaviors = x.hasUnfinishedTimeBehaviors ∧ (cs ≠ [] → drawn core y = drawn core x) := by
  obtain ⟨tip, ht⟩ := start_tips ha
  obtain ⟨al, m0, us, H, m, D1, D2, last⟩ := run_alike ht ha hb cs x y hx hy
  have s1 : stateOf y.input = stateOf x.input := by rw [al.rest]; rfl
  refine ⟨by rw [al.rest], s1, ?_, fun hne => ?_⟩
  · unfold Builder.hasUnfinishedTimeBehaviors
    rw [D1.modeler, D2.modeler, s1]
  · obtain ⟨H', f, v, rfl, o1, o2⟩ := last hne
    obtain ⟨-, -, -, -, he0, hep, hwi⟩ := start_parts ht ha
    obtain ⟨-, -, -, -, he0', hep', hwi'⟩ := start_parts ht hb
    have E1 := D1.extruded
    have E2 := D2.extruded
    rw [he0, hep, hwi] at E1
    rw [he0', hep', hwi'] at E2
    have := same_drawn he (hsh _ _) ho rfl E1 E2
    unfold drawn
    rw [this.1, this.2.1, o1, o2, this.2.2]

/-! ### What behaviors see -/

theorem did_any {b b0 : Builder I σ E V X} {im : I} {coat : Brushes.Coat} {size eps : F32} {tip : Tip.BrushTip} (ht : coat.tips = [tip])
    (hs : b.start p im coat size eps = some b0) (cs : List InputModeler.Call) : ∀ (x : Builder I σ E V X), b0.run p cs = some x →
    ∃ m0 us H m, Tip.start p.tabulate tip size = some m0 ∧ Did p b0 m0 cs x us H m := by
  obtain ⟨-, m0, hm0, hm, -⟩ := start_parts ht hs
  induction cs using List.reverseRecOn with
  | nil =>
    intro x h
    cases h
    exact ⟨m0, [], [], m0, hm0, did_start hm⟩
  | append_singleton cs c ih =>
    intro y h
    obtain ⟨x, h1, h2⟩ := run_last h
    obtain ⟨m0', us, H, m, e1, D⟩ := ih x h1
    obtain ⟨m', f, v, D', -⟩ := D.step h2
    exact ⟨m0', _, _, m', e1, D'⟩

/-- **C81.** What the behaviors of the tip are told after each update is what was modeled: the tool and the unit length are those of the first
input, real or, if there is no real one, predicted; the time is that of the last modeled input, or that of the update if it is later; and the
distance and time of the real inputs are those at the last of them. -/
theorem C81_state {b b0 x : Builder I σ E V X} {im : I} {coat : Brushes.Coat} {size eps : F32}
    (hs : b.start p im coat size eps = some b0) {cs : List InputModeler.Call} {c : InputModeler.Call}
    (hp : c.real ≠ [] ∨ c.pred ≠ []) (h : b0.run p (cs ++ [c]) = some x) :
    (∀ i ∈ (reals (cs ++ [c]) ++ c.pred).head?, ((stateOf x.input).toolType = .mouse ↔ i.tool = .mouse) ∧
      ((stateOf x.input).toolType = .touch ↔ i.tool = .touch) ∧ ((stateOf x.input).toolType = .stylus ↔ i.tool = .stylus) ∧
      (stateOf x.input).strokeUnitLength = if i.hasUnitLength then some i.unitLength else none) ∧
    (∀ l ∈ x.input.modeled.getLast?, (stateOf x.input).completeElapsedTime = Tip.durMax l.elapsedTime c.now ∧
      (stateOf x.input).completeTraveledDistance = l.traveledDistance) ∧
    (∀ r ∈ (x.input.modeled.take (stateOf x.input).realInputCount).getLast?, (stateOf x.input).totalRealDistance = r.traveledDistance ∧
      (stateOf x.input).totalRealElapsedTime = r.elapsedTime) ∧
    (stateOf x.input).stableInputCount ≤ (stateOf x.input).realInputCount ∧ (stateOf x.input).realInputCount ≤ x.input.modeled.length ∧
    stableInputs p.hypot p.lib im eps (reals (cs ++ [c])) = some (x.input.modeled.take (stateOf x.input).stableInputCount) := by
  obtain ⟨tip, ht⟩ := start_tips hs
  obtain ⟨hi, -⟩ := start_parts ht hs
  obtain ⟨m0, us, H, m, -, D⟩ := did_any ht hs _ x h
  obtain ⟨P, -, q2, q3, q4, q5, q6⟩ := InputModeler.C35_modeled p.hypot p.lib hi cs c D.input
  obtain ⟨-, r2, r3⟩ := InputModeler.C35_times p.hypot p.lib hi cs c D.input
  have hP : P = c.pred := by
    rcases q6 with q | ⟨q5, q6, -⟩
    · exact q
    · rcases hp with hc | hc <;> contradiction
  subst hP
  refine ⟨fun i hi => ?_, fun l hl => ⟨(r2 l hl).1, (r2 l hl).2.2.2⟩, fun r hr => r3 r hr, q2, q3,
    InputModeler.C35_stable p.hypot p.lib hi _ D.input⟩
  have e1 : x.input.toolType = i.tool := by
    rw [q4]; unfold InputModeler.toolTypeOf
    rw [show List.head? _ = some i from hi]; rfl
  have e2 : x.input.unitLength = if i.hasUnitLength then some i.unitLength else none := by
    rw [q5]; unfold InputModeler.unitLengthOf
    rw [show List.head? _ = some i from hi]; rfl
  refine ⟨?_, ?_, ?_, e2⟩ <;> (show toolOf x.input.toolType = _ ↔ _; rw [e1]; cases i.tool <;> simp [toolOf])

/-- **C81.** The shape will change with time alone exactly if some behavior of the tip depends on the time since an input and the time since the
last real input is within its range. -/
theorem C81_unfinished {b b0 x : Builder I σ E V X} {im : I} {coat : Brushes.Coat} {size eps : F32} {tip : Tip.BrushTip}
    (ht : coat.tips = [tip]) (hv : tip.valid = true) (hs : b.start p im coat size eps = some b0) {cs : List InputModeler.Call}
    {c : InputModeler.Call} (h : b0.run p (cs ++ [c]) = some x) {l r : Tip.Input} (hl : x.input.modeled.getLast? = some l)
    (hr : (x.input.modeled.take x.input.realCount).getLast? = some r) (hf : (Tip.durMax l.elapsedTime c.now).isFinite = true)
    (hle : le r.elapsedTime.seconds (Tip.durMax l.elapsedTime c.now).seconds = true) :
    x.hasUnfinishedTimeBehaviors = true ↔ ∃ node ∈ tip.behaviors.flatten, ∃ d, TipSpec.changesFor node = some d ∧
      lt (sub (Tip.durMax l.elapsedTime c.now).seconds r.elapsedTime.seconds) d = true := by
  obtain ⟨hi, -⟩ := start_parts ht hs
  obtain ⟨m0, us, H, m, hm, D⟩ := did_any ht hs _ x h
  obtain ⟨-, r2, r3⟩ := InputModeler.C35_times p.hypot p.lib hi cs c D.input
  have e1 : (stateOf x.input).completeElapsedTime = Tip.durMax l.elapsedTime c.now := (r2 l hl).1
  have e2 : (stateOf x.input).totalRealElapsedTime = r.elapsedTime := (r3 r hr).2
  have := Tip.C42_unfinished p.libm p.tabulate p.fuel hm hv us D.collected (stateOf x.input) (by rw [e1]; exact hf) (by rw [e1, e2]; exact hle)
  rw [e1, e2] at this
  unfold Builder.hasUnfinishedTimeBehaviors
  rw [D.modeler]
  exact this

/-! ### The start of a stroke -/

/-- **C81.** A stroke can be started with a positive brush epsilon, a finite positive brush size and a coat of one tip, and only so; then
nothing is drawn, whatever was before. Winding textures matter to the extruder if the coat has exactly one texture layer, which is a winding
texture, and the tip has a gap between particles. -/
theorem C81_start (b : Builder I σ E V X) (im : I) (coat : Brushes.Coat) (size eps : F32) :
    ((b.start p im coat size eps).isSome ↔
      gt eps zero = true ∧ size.isFinite = true ∧ gt size zero = true ∧ coat.tips.length = 1) ∧
    ∀ b0, b.start p im coat size eps = some b0 → b0.outlines = [] ∧ b0.extruder.extrusions = [] ∧
      b0.extruder.geometry.vertices = [] ∧ b0.extruder.geometry.triangles = [] ∧ b0.input.modeled = [] ∧ b0.epsilon = eps ∧
      (b0.winding = true ↔ (∃ l, coat.paint.layers = [l] ∧ l.mapping = 1) ∧
        ∃ tip ∈ coat.tips, feq tip.particleGapDistanceScale zero = false ∨ feq tip.particleGapDuration.seconds zero = false) := by
  constructor
  · constructor
    · intro h
      obtain ⟨b0, hb⟩ := Option.isSome_iff_exists.1 h
      obtain ⟨tip, ht⟩ := start_tips hb
      obtain ⟨hi, m0, hm, -⟩ := start_parts ht hb
      obtain ⟨s1, s2⟩ := Tip.start_size p.tabulate hm
      unfold InputModeler.Modeler.start at hi
      split at hi
      · exact ⟨by assumption, s1, s2, by rw [ht]; rfl⟩
      · cases hi
    · rintro ⟨h1, h2, h3, h4⟩
      obtain ⟨tip, ht⟩ := List.length_eq_one_iff.1 h4
      unfold Builder.start InputModeler.Modeler.start Tip.start
      rw [if_pos h1, ht, h2, h3]
      rfl
  · intro b0 hb
    obtain ⟨tip, ht⟩ := start_tips hb
    obtain ⟨hi, m0, hm, hmod, he, hep, hw⟩ := start_parts ht hb
    have ho : b0.outlines = [] := by
      unfold Builder.start at hb
      rw [ht] at hb
      obtain ⟨i, -, hb⟩ := StrokeGeom.bind_some hb
      obtain ⟨m, -, hb⟩ := StrokeGeom.bind_some hb
      cases hb; rfl
    have hmd : b0.input.modeled = [] := by
      unfold InputModeler.Modeler.start at hi
      split at hi
      · injection hi with hi; rw [← hi]
      · cases hi
    refine ⟨ho, by rw [he]; rfl, by rw [he]; rfl, by rw [he]; rfl, hmd, hep, ?_⟩
    rw [hw, ht]
    unfold isWindingTextureParticleBrush isWindingTextureCoat
    rw [Bool.and_eq_true, Bool.or_eq_true, Bool.not_eq_true', Bool.not_eq_true']
    refine and_congr ?_ ?_
    · split
      · rename_i l hl
        rw [hl]
        constructor
        · intro h
          exact ⟨l, rfl, of_decide_eq_true h⟩
        · rintro ⟨l', e, h⟩
          injection e with e
          subst e
          exact decide_eq_true h
      · rename_i hne
        simp only [Bool.false_eq_true, false_iff, not_exists, not_and]
        intro l hl
        exact absurd hl (hne l)
    · simp only [List.mem_singleton, exists_eq_left]
      rfl

/-! ### Concrete strokes -/

namespace Example

open InputModeler StrokeGeom.ExtruderExample

/-- A library that reports every input where it is. -/
def echo : Library Unit Nat where
  reset := fun _ _ _ => 0
  update := fun s i => some (s + 1, [⟨i.position, ⟨zero, zero⟩, ⟨zero, zero⟩, ⟨i.time⟩, i.pressure, i.tilt, i.orientation⟩])

/-- A tip state extrudes to the number that is its position. -/
def shape : StrokeGeom.Tip Tip.TipState Nat (Nat × Nat) Unit where
  small t := decide (t.width = zero ∧ t.height = zero)
  make t := (toRat t.position.x).num.toNat
  constrain := tip0.constrain
  contains := tip0.contains
  turn := tip0.turn
  startcap := tip0.startcap
  endcap := tip0.endcap
  whole := tip0.whole
  derivatives := tip0.derivatives

def parts : Parts Unit Nat Nat (Nat × Nat) Unit where
  hypot := toyHypot
  lib := echo
  libm := Tip.sampleLibm
  tabulate := fun _ => []
  fuel := 0
  order := fun l => l
  debug := true
  env := env0
  shapes := fun _ _ => shape

def coat : Brushes.Coat := { tips := [Tip.sampleTip] }

/-- A builder that was never used, and one that was. -/
def fresh : Builder Unit Nat Nat (Nat × Nat) Unit :=
  ⟨{ inputModel := (), library := 0 }, none, StrokeGeom.Extruder.start env0 save0, zero, false, []⟩

def used : Option (Builder Unit Nat Nat (Nat × Nat) Unit) :=
  (fresh.start parts () coat (ofInt 3) (ofInt 2)).bind fun b => b.run parts [call [at' 7 0, at' 20 1] [at' 30 5]]

def slow : List Call := [call [] [], call [at' 0 0] [at' 9 1], call [at' 12 1, at' 24 2] [at' 99 7], call [] [at' 40 3], call [at' 36 3] [at' 50 4]]

def fast : List Call := [call [at' 0 0, at' 12 1, at' 24 2, at' 36 3] [at' 50 4]]

def run (b : Option (Builder Unit Nat Nat (Nat × Nat) Unit)) (cs : List Call) : Option (Builder Unit Nat Nat (Nat × Nat) Unit) :=
  (b.bind fun b => b.start parts () coat (ofInt 1) (ofInt 1)).bind fun b => b.run parts cs

theorem steady : Steady Tip.sampleTip :=
  ⟨by decide +kernel, Or.inr (by decide +kernel)⟩

theorem emptyIsSmall : EmptyIsSmall parts := fun _ _ _ _ hw hh => decide_eq_true ⟨hw, hh⟩

theorem okShape : StrokeGeom.Spec.OkTip (fun v : Nat × Nat => v.1) shape :=
  ⟨okTip0.turn, okTip0.startcap, okTip0.endcap, okTip0.whole, okTip0.derivatives⟩

theorem respects0 : StrokeGeom.Spec.Respects (fun v : Nat × Nat => v.1) parts.env := fun v w h => by
  show v.1 + 1 = w.1 + 1
  rw [show v.1 = w.1 from h]

theorem neverSettled_of {b : Builder Unit Nat Nat (Nat × Nat) Unit} {cs : List Call}
    (h : (cs.inits.all fun done => (b.run parts done).all fun x => x.input.modeled.isEmpty ||
      decide (x.input.stableCount < x.input.modeled.length)) = true) : NeverSettled parts b cs := by
  intro done hp x hx h0
  have := List.all_eq_true.1 h done ((List.mem_inits _ _).2 hp)
  rw [hx] at this
  simpa [h0] using this

instance {m : Modeler Unit Nat} : Decidable (TimesAscend m) := by
  unfold TimesAscend
  infer_instance

theorem exists_of {α : Type} {o : Option α} {q : α → Bool} (h : o.any q = true) : ∃ a, o = some a ∧ q a = true := by
  cases o with
  | none => cases h
  | some a => exact ⟨a, rfl, h⟩

def notSettled (cs : List Call) (b : Builder Unit Nat Nat (Nat × Nat) Unit) : Bool :=
  cs.inits.all fun done => (b.run parts done).all fun x => x.input.modeled.isEmpty || decide (x.input.stableCount < x.input.modeled.length)

def expected (x : Builder Unit Nat Nat (Nat × Nat) Unit) : Bool :=
  decide (x.input.modeled ≠ [] ∧ TimesAscend x.input ∧ x.input.stableCount = 3 ∧
    x.extruder.extrusions = [some 0, some 12, some 24, some 36, some 50, none] ∧ x.outlines = [([0, 2, 4, 6], [1, 3, 5, 7, 8])])

/-- The hypotheses of the theorems are met by a stroke of four real inputs in five updates, one without inputs, with predictions that are taken back, and by one in a
single update with a builder that was used before: five extrusions, with the vertices of both sides in an outline. -/
example : ∃ b a0 b0 x y, used = some b ∧ fresh.start parts () coat (ofInt 1) (ofInt 1) = some a0 ∧
    b.start parts () coat (ofInt 1) (ofInt 1) = some b0 ∧ a0.run parts slow = some x ∧ b0.run parts fast = some y ∧
    NeverSettled parts a0 slow ∧ NeverSettled parts b0 fast ∧ TimesAscend x.input ∧ x.input.stableCount = 3 ∧
    reals fast = reals slow ∧ BeginsReal slow ∧ BeginsReal fast ∧
    x.extruder.extrusions = [some 0, some 12, some 24, some 36, some 50, none] ∧ x.outlines = [([0, 2, 4, 6], [1, 3, 5, 7, 8])] ∧
    drawn (fun v : Nat × Nat => v.1) y = drawn (fun v : Nat × Nat => v.1) x := by
  obtain ⟨b, hb, hb1⟩ := exists_of (o := used) (q := fun b => (b.start parts () coat (ofInt 1) (ofInt 1)).any fun b0 =>
    notSettled fast b0 && (b0.run parts fast).isSome) (by decide +kernel)
  obtain ⟨b0, hb0, hb2⟩ := exists_of hb1
  obtain ⟨a0, ha0, ha2⟩ := exists_of (o := fresh.start parts () coat (ofInt 1) (ofInt 1)) (q := fun a0 => notSettled slow a0 &&
    (a0.run parts slow).any expected) (by decide +kernel)
  rw [Bool.and_eq_true] at hb2 ha2
  obtain ⟨y, hy⟩ := Option.isSome_iff_exists.1 hb2.2
  obtain ⟨x, hx, hx2⟩ := exists_of ha2.2
  obtain ⟨t0, t1, t2, t3, t4⟩ := of_decide_eq_true hx2
  have na := neverSettled_of ha2.1
  have nb := neverSettled_of hb2.1
  have bs : BeginsReal slow := by
    intro c hc
    have : slow.find? (fun c => !idle c) = some (call [at' 0 0] [at' 9 1]) := rfl
    rw [this] at hc
    cases hc
    simp [call]
  have bf : BeginsReal fast := by
    intro c hc
    have : fast.find? (fun c => !idle c) = some (call [at' 0 0, at' 12 1, at' 24 2, at' 36 3] [at' 50 4]) := rfl
    rw [this] at hc
    cases hc
    simp [call]
  have hr : reals fast = reals slow := rfl
  refine ⟨b, a0, b0, x, y, hb, ha0, hb0, hx, hy, na, nb, t1, t2, hr, bs, bf, t3, t4, ?_⟩
  exact C81_schedule_partial respects0 (fun _ _ => okShape) (fun _ => List.Perm.refl _) emptyIsSmall (tip := Tip.sampleTip) rfl steady ha0 hb0
    (cs := slow) (ds := fast) (P := [at' 50 4]) (P' := [at' 50 4]) bs bf (fun _ => na) (fun _ => nb)
    ⟨[call [] [], call [at' 0 0] [at' 9 1], call [at' 12 1, at' 24 2] [at' 99 7], call [] [at' 40 3]], call [at' 36 3] [at' 50 4], [], rfl, rfl, rfl,
      Or.inl ⟨rfl, rfl⟩⟩
    ⟨[], call [at' 0 0, at' 12 1, at' 24 2, at' 36 3] [at' 50 4], [], rfl, rfl, rfl, Or.inl ⟨rfl, rfl⟩⟩ (by rw [hr]) rfl hx hy t0 t1

/-- A tip with a particle at every 12 units. -/
def dotsTip : Tip.BrushTip := { Tip.sampleTip with behaviors := [], particleGapDistanceScale := ofInt 12 }

def dotsCoat : Brushes.Coat := { tips := [dotsTip] }

def dotsParts : Parts Unit Nat Nat (Nat × Nat) Unit := { parts with fuel := 5 }

theorem dotsSteady : Steady dotsTip := ⟨by decide +kernel, Or.inr (by decide +kernel)⟩

def settledDots (x : Builder Unit Nat Nat (Nat × Nat) Unit) : Bool :=
  decide (x.input.stableCount = 3 ∧ x.input.modeled.length = 3 ∧ x.extruder.extrusions = [some 0, none, some 12, none])

def fourDots (x : Builder Unit Nat Nat (Nat × Nat) Unit) : Bool :=
  decide (TimesAscend x.input ∧ x.input.modeled ≠ [] ∧
    x.extruder.extrusions = [some 0, none, some 12, none, some 24, none, some 36, none] ∧
    x.outlines = [([0], [1]), ([2], [3]), ([4], [5]), ([6], [7])])

def seenDot (x : Builder Unit Nat Nat (Nat × Nat) Unit) : Bool :=
  decide (x.input.realCount < x.input.modeled.length ∧ x.extruder.extrusions = [some 0, some 12, some 24, some 50, none])

def withdrawn (x : Builder Unit Nat Nat (Nat × Nat) Unit) : Bool :=
  decide (TimesAscend x.input ∧ x.input.modeled ≠ [] ∧ x.extruder.extrusions = [some 0, some 12, some 24, none]) &&
    (x.run parts [call [] [], call [] []]).isSome

/-- The hypotheses are met by particles, also after an update with which all modeled inputs become stable: four particles, each with an outline. -/
example : ∃ a0 x1 x y, fresh.start dotsParts () dotsCoat (ofInt 1) (ofInt 1) = some a0 ∧
    a0.run dotsParts [call [at' 0 0, at' 12 1, at' 13 2, at' 13 3] []] = some x1 ∧
    x1.input.stableCount = 3 ∧ x1.input.modeled.length = 3 ∧ x1.extruder.extrusions = [some 0, none, some 12, none] ∧
    a0.run dotsParts [call [at' 0 0, at' 12 1, at' 13 2, at' 13 3] [], call [at' 40 4] []] = some x ∧
    a0.run dotsParts [call [at' 0 0, at' 12 1, at' 13 2, at' 13 3, at' 40 4] []] = some y ∧
    x.extruder.extrusions = [some 0, none, some 12, none, some 24, none, some 36, none] ∧
    x.outlines = [([0], [1]), ([2], [3]), ([4], [5]), ([6], [7])] ∧
    drawn (fun v : Nat × Nat => v.1) y = drawn (fun v : Nat × Nat => v.1) x := by
  obtain ⟨a0, ha0, ha⟩ := exists_of (o := fresh.start dotsParts () dotsCoat (ofInt 1) (ofInt 1)) (q := fun a0 =>
    (a0.run dotsParts [call [at' 0 0, at' 12 1, at' 13 2, at' 13 3] []]).any settledDots &&
    ((a0.run dotsParts [call [at' 0 0, at' 12 1, at' 13 2, at' 13 3] [], call [at' 40 4] []]).any fourDots &&
    (a0.run dotsParts [call [at' 0 0, at' 12 1, at' 13 2, at' 13 3, at' 40 4] []]).isSome)) (by decide +kernel)
  rw [Bool.and_eq_true, Bool.and_eq_true] at ha
  obtain ⟨x1, hx1, e1⟩ := exists_of ha.1
  obtain ⟨x, hx, e⟩ := exists_of ha.2.1
  obtain ⟨y, hy⟩ := Option.isSome_iff_exists.1 ha.2.2
  obtain ⟨s1, s2, s3⟩ := of_decide_eq_true e1
  obtain ⟨t1, t2, t3, t4⟩ := of_decide_eq_true e
  have hc : ¬ Continuous dotsTip (ofInt 1) := by
    unfold Continuous
    decide +kernel
  refine ⟨a0, x1, x, y, ha0, hx1, s1, s2, s3, hx, hy, t3, t4, ?_⟩
  exact C81_finished_partial (p := dotsParts) respects0 (fun _ _ => okShape) (fun _ => List.Perm.refl _) emptyIsSmall (tip := dotsTip) rfl
    dotsSteady ha0 ha0 (cs := [call [at' 0 0, at' 12 1, at' 13 2, at' 13 3] [], call [at' 40 4] []])
    (by
      intro c hc
      have : [call [at' 0 0, at' 12 1, at' 13 2, at' 13 3] [], call [at' 40 4] []].find? (fun c => !idle c) =
        some (call [at' 0 0, at' 12 1, at' 13 2, at' 13 3] []) := rfl
      rw [this] at hc
      cases hc
      simp [call])
    (fun h => absurd h hc) ⟨[call [at' 0 0, at' 12 1, at' 13 2, at' 13 3] []], call [at' 40 4] [], [], rfl, rfl, rfl, Or.inl ⟨rfl, rfl⟩⟩ rfl hx hy
    (fun h => absurd h hc) t2 t1

/-- The hypotheses are met when a prediction that can be seen is taken back by an update without inputs, after which another one changes nothing:
a line to 24, then to 50, to 24, and to 24. -/
example : ∃ a0 z x y, fresh.start parts () coat (ofInt 1) (ofInt 1) = some a0 ∧
    a0.run parts [call [at' 0 0, at' 12 1, at' 24 2] [at' 50 3]] = some z ∧
    z.extruder.extrusions = [some 0, some 12, some 24, some 50, none] ∧
    a0.run parts [call [at' 0 0, at' 12 1, at' 24 2] [at' 50 3], call [] []] = some x ∧
    x.extruder.extrusions = [some 0, some 12, some 24, none] ∧ x.run parts [call [] [], call [] []] = some y ∧
    drawn (fun v : Nat × Nat => v.1) y = drawn (fun v : Nat × Nat => v.1) x := by
  obtain ⟨a0, ha0, ha⟩ := exists_of (o := fresh.start parts () coat (ofInt 1) (ofInt 1)) (q := fun a0 =>
    notSettled [call [at' 0 0, at' 12 1, at' 24 2] [at' 50 3], call [] []] a0 &&
    ((a0.run parts [call [at' 0 0, at' 12 1, at' 24 2] [at' 50 3]]).any seenDot &&
    (a0.run parts [call [at' 0 0, at' 12 1, at' 24 2] [at' 50 3], call [] []]).any withdrawn)) (by decide +kernel)
  rw [Bool.and_eq_true, Bool.and_eq_true] at ha
  obtain ⟨z, hz, ez⟩ := exists_of ha.2.1
  obtain ⟨x, hx, ex⟩ := exists_of ha.2.2
  obtain ⟨s1, s2⟩ := of_decide_eq_true ez
  unfold withdrawn at ex
  rw [Bool.and_eq_true] at ex
  obtain ⟨t1, t2, t3⟩ := of_decide_eq_true ex.1
  obtain ⟨y, hy⟩ := Option.isSome_iff_exists.1 ex.2
  refine ⟨a0, z, x, y, ha0, hz, s2, hx, t3, hy, ?_⟩
  refine C81_dry_partial respects0 (fun _ _ => okShape) (fun _ => List.Perm.refl _) emptyIsSmall (tip := Tip.sampleTip) rfl steady ha0
    (cs := [call [at' 0 0, at' 12 1, at' 24 2] [at' 50 3], call [] []]) rfl ?_ (fun _ => neverSettled_of ha.1)
    ⟨[], call [at' 0 0, at' 12 1, at' 24 2] [at' 50 3], [call [] []], rfl, rfl, rfl, Or.inr ⟨by simp, rfl, Or.inr ?_⟩⟩ hx hy t2 t1
  · intro c hc
    have : [call [at' 0 0, at' 12 1, at' 24 2] [at' 50 3], call [] []].find? (fun c => !idle c) =
      some (call [at' 0 0, at' 12 1, at' 24 2] [at' 50 3]) := rfl
    rw [this] at hc
    cases hc
    simp [call]
  · intro w hw
    rw [List.nil_append, hz] at hw
    cases hw
    exact s1

def taperCoat : Brushes.Coat := { tips := [Tip.taperTip] }

def still (x : Builder Unit Nat Nat (Nat × Nat) Unit) : Bool :=
  x.hasUnfinishedTimeBehaviors && decide (x.input.realCount = 2 ∧ x.input.modeled.length = 2) &&
    x.input.modeled.all fun i => i.elapsedTime.isFinite

/-- The hypotheses of `C81_state` and `C81_unfinished` are met by a stroke which still changes, and by one which does not, because its last real
input is a second ago. -/
example : Tip.taperTip.valid = true ∧
    (((fresh.start parts () taperCoat (ofInt 1) (ofInt 1)).bind fun b => b.run parts [call [at' 0 0] [], call [at' 12 1] []]).any still) = true ∧
    (((fresh.start parts () taperCoat (ofInt 1) (ofInt 1)).bind fun b =>
      b.run parts [call [at' 0 0] [], ⟨[at' 12 1], [], ⟨ofInt 2⟩⟩]).map (·.hasUnfinishedTimeBehaviors)) = some false := by
  refine ⟨by decide +kernel, by decide +kernel, by decide +kernel⟩

/-- What is left of a stroke: its extrusions and its outlines. -/
def seen {σ : Type} (x : Option (Builder Unit σ Nat (Nat × Nat) Unit)) := x.map fun x => (x.extruder.extrusions, x.outlines)

/-- **C81**, why `NeverSettled` is needed: the same real inputs without predictions give another shape when they come in two updates. After the
first one all modeled inputs are stable, because the last input is too near to the one before, so that the state at 13 counts as the last of the
stroke and is extruded although it is too similar to the one at 12; it stays when the stroke goes on. A finished stroke whose shape is built again
from its inputs therefore need not look as it did when it was drawn. -/
theorem C81_settled_counterexample :
    seen (run (some fresh) [call [at' 0 0, at' 12 1, at' 13 2, at' 13 3] [], call [at' 40 4] []]) =
      some ([some 0, some 12, some 13, some 40, none], [([0, 2, 4], [1, 3, 5, 6])]) ∧
    seen (run (some fresh) [call [at' 0 0, at' 12 1, at' 13 2, at' 13 3, at' 40 4] []]) =
      some ([some 0, some 12, some 40, none], [([0, 2], [1, 3, 4])]) := by
  constructor <;> decide +kernel

def parts' : Parts Unit Bool Nat (Nat × Nat) Unit := { parts with lib := toy }

def fresh' : Builder Unit Bool Nat (Nat × Nat) Unit :=
  ⟨{ inputModel := (), library := false }, none, StrokeGeom.Extruder.start env0 save0, zero, false, []⟩

def run' (cs : List Call) : Option (Builder Unit Bool Nat (Nat × Nat) Unit) :=
  (fresh'.start parts' () coat (ofInt 1) (ofInt 1)).bind fun b => b.run parts' cs

/-- **C81**, why the last update must have inputs: when the prediction of a pen that comes back is taken back and nothing comes instead, the
shape remains that of the prediction, and the last real input, at 5, is not drawn. -/
theorem C81_withdrawn_counterexample :
    seen (run' [call [at' 0 0, at' 5 1] [at' 0 2], call [] []]) = some ([some 0, none], [([0], [1])]) ∧
    seen (run' [call [at' 0 0, at' 5 1] []]) = some ([some 0, some 5, none], [([0], [1, 2])]) := by
  constructor <;> decide +kernel

end Example

end Verif.ShapeBuilder
