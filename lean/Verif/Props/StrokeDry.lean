import Verif.Lemmas.StrokeDry

/-!
# C83: a stroke that needs no update does not change with time
-/

set_option autoImplicit false

namespace Verif.StrokeDry

open Verif F32 Spec InputModeler.Spec ShapeBuilder.Spec

variable {I σ E V X C Col : Type}

/-- The sources of the compiled behaviors are those of the tip. -/
theorem mem_compile {tabulate : Easing.CubicBezier → List F32} (l : List Tip.Node) : ∀ (d t : Nat) (s : Tip.Source) (oor : Tip.OutOfRange) (lo hi : F32),
    Tip.INode.source s oor lo hi ∈ Tip.compile tabulate d t l → Tip.Node.source s oor lo hi ∈ l := by
  induction l with
  | nil => intro d t s oor lo hi h; simp [Tip.compile] at h
  | cons n l ih =>
    intro d t s oor lo hi h
    cases n with
    | source s' o' l' h' =>
      simp only [Tip.compile, List.mem_cons, Tip.INode.source.injEq] at h
      rcases h with ⟨rfl, rfl, rfl, rfl⟩ | h
      · exact List.mem_cons_self ..
      · exact List.mem_cons_of_mem _ (ih _ _ _ _ _ _ h)
    | constant v => simp [Tip.compile] at h; exact List.mem_cons_of_mem _ (ih _ _ _ _ _ _ h)
    | fallbackFilter v => simp [Tip.compile] at h; exact List.mem_cons_of_mem _ (ih _ _ _ _ _ _ h)
    | toolTypeFilter v => simp [Tip.compile] at h; exact List.mem_cons_of_mem _ (ih _ _ _ _ _ _ h)
    | damping v => simp [Tip.compile] at h; exact List.mem_cons_of_mem _ (ih _ _ _ _ _ _ h)
    | response v => simp [Tip.compile] at h; exact List.mem_cons_of_mem _ (ih _ _ _ _ _ _ h)
    | binaryOp v => simp [Tip.compile] at h; exact List.mem_cons_of_mem _ (ih _ _ _ _ _ _ h)
    | interpolation v => simp [Tip.compile] at h; exact List.mem_cons_of_mem _ (ih _ _ _ _ _ _ h)
    | target v => simp [Tip.compile] at h; exact List.mem_cons_of_mem _ (ih _ _ _ _ _ _ h)

/-- A source that does not measure the time since an input does not depend on the time. -/
theorem ageless_value {M : Libm} {st : Tip.MState} {T T' : Duration32} {s : Tip.Source} (hs : ofTime s = false) (i : Tip.Input) (dir : Option F32)
    (size : F32) : Tip.sourceValue M i dir size { st with completeElapsedTime := T' } s =
      Tip.sourceValue M i dir size { st with completeElapsedTime := T } s := by
  cases s <;> first | rfl | cases hs

section
variable {p : ShapeBuilder.Parts I σ E V X}

/-- **C83.** The stroke of a brush whose behaviors do not depend on the time since an input does not change with time: once the last update had no
prediction, no update without inputs changes what is drawn. The tip may draw particles and depend on the distance that remains, on the predicted
distance or on anything else; the inputs, the earlier updates and the times are arbitrary. -/
theorem C83_ageless {core : V → C} (he : StrokeGeom.Spec.Respects core p.env)
    (hsh : ∀ e w, StrokeGeom.Spec.OkTip core (p.shapes e w)) (ho : StrokeGeom.Spec.IsOrder p.order)
    {b b0 x y : ShapeBuilder.Builder I σ E V X} {im : I} {coat : Brushes.Coat} {size eps : F32} {tip : Tip.BrushTip}
    (ht : coat.tips = [tip]) (ha : Ageless tip) (hs : b.start p im coat size eps = some b0)
    {before later : List InputModeler.Call} {last : InputModeler.Call} (hx : b0.run p (before ++ [last]) = some x) (hp : last.pred = [])
    (hid : later.all idle = true) (hy : x.run p later = some y) : drawn core y = drawn core x := by
  obtain ⟨-, m0, hm0, -⟩ := ShapeBuilder.start_parts ht hs
  have hreal : x.input.realCount = x.input.modeled.length := by
    have hx := hx
    rw [ShapeBuilder.run_append] at hx
    obtain ⟨z, -, hz⟩ := Option.bind_eq_some_iff.1 hx
    obtain ⟨w, hw, hz⟩ := StrokeGeom.bind_some hz
    cases hz
    exact ShapeBuilder.real_last hp (ShapeBuilder.extend_parts hw).1
  by_cases hne : x.input.modeled = []
  · exact ShapeBuilder.dry_empty he hsh ho ht hs later hx hid hne (by rw [hreal, hne]; rfl) hy
  refine ShapeBuilder.dry_run he hsh ho ht hs hm0 (modeled := x.input.modeled) (l := x.input.modeled.getLast hne)
    (List.getLast?_eq_some_getLast hne) (Q := fun _ => True) (S := fun _ => True) ?_ (Or.inl fun _ => trivial) (fun _ _ => trivial) later hx hid rfl hreal
    trivial (fun _ _ => trivial) hy
  intro st T T' _ _ s oor lo hi hmem i _ dir size prev
  rw [(Tip.start_spec p.tabulate hm0).1] at hmem
  have := ha s (Tip.sources_compile p.tabulate _ _ _ _ _ _ _ hmem)
  unfold Tip.sourceNodeValue
  dsimp only
  rw [ageless_value this]

/-- **C83.** A continuous stroke that says that it has no unfinished time behaviors does not change with time, also when the brush has behaviors that
depend on the time since an input. The modeled inputs are not after the last one; the times are finite and not earlier. -/
theorem C83_aged_partial {core : V → C} (he : StrokeGeom.Spec.Respects core p.env)
    (hsh : ∀ e w, StrokeGeom.Spec.OkTip core (p.shapes e w)) (ho : StrokeGeom.Spec.IsOrder p.order)
    {b b0 x y : ShapeBuilder.Builder I σ E V X} {im : I} {coat : Brushes.Coat} {size eps : F32} {tip : Tip.BrushTip}
    (ht : coat.tips = [tip]) (hv : tip.valid = true) (ha : Forward tip) (hcont : Continuous tip size) (hs : b.start p im coat size eps = some b0)
    {before later : List InputModeler.Call} {last : InputModeler.Call} (hx : b0.run p (before ++ [last]) = some x) (hp : last.pred = [])
    (hun : x.hasUnfinishedTimeBehaviors = false) (hid : later.all idle = true) (hn : last.now.isFinite = true)
    (htimes : ∀ c ∈ later, c.now.isFinite = true ∧ le last.now.seconds c.now.seconds = true)
    (hta : ∀ l, x.input.modeled.getLast? = some l →
      ∀ i ∈ x.input.modeled, i.elapsedTime.isFinite = true ∧ le i.elapsedTime.seconds l.elapsedTime.seconds = true)
    (hy : x.run p later = some y) : drawn core y = drawn core x := by
  obtain ⟨hi0, m0, hm0, -⟩ := ShapeBuilder.start_parts ht hs
  have hreal : x.input.realCount = x.input.modeled.length := by
    have hx := hx
    rw [ShapeBuilder.run_append] at hx
    obtain ⟨z, -, hz⟩ := Option.bind_eq_some_iff.1 hx
    obtain ⟨w, hw, hz⟩ := StrokeGeom.bind_some hz
    cases hz
    exact ShapeBuilder.real_last hp (ShapeBuilder.extend_parts hw).1
  by_cases hne : x.input.modeled = []
  · exact ShapeBuilder.dry_empty he hsh ho ht hs later hx hid hne (by rw [hreal, hne]; rfl) hy
  obtain ⟨l, hl⟩ : ∃ l, x.input.modeled.getLast? = some l := ⟨_, List.getLast?_eq_some_getLast hne⟩
  replace hta := hta l hl
  have hlf : l.elapsedTime.isFinite = true := (hta l (List.mem_of_getLast? hl)).1
  have nan : ∀ {a : F32}, a.isFinite = true → a.isNaN = false := by
    intro a h
    cases a <;> first | rfl | cases h
  -- the larger of two finite times
  have hmax : ∀ {t : Duration32}, t.isFinite = true → (Tip.durMax l.elapsedTime t).isFinite = true ∧
      le l.elapsedTime.seconds (Tip.durMax l.elapsedTime t).seconds = true ∧ le t.seconds (Tip.durMax l.elapsedTime t).seconds = true := by
    intro t htf
    have n1 : l.elapsedTime.seconds.isNaN = false := nan hlf
    have n2 : t.seconds.isNaN = false := nan htf
    unfold Tip.durMax
    by_cases h : l.elapsedTime.lt t = true
    · rw [if_pos h]
      have h' : lt l.elapsedTime.seconds t.seconds = true := h
      refine ⟨htf, ?_, F32.le_refl n2⟩
      simp only [lt, Bool.and_eq_true, decide_eq_true_eq] at h'
      exact le_of_key n1 n2 (by omega)
    · rw [if_neg h]
      have h' : lt l.elapsedTime.seconds t.seconds = false := Bool.eq_false_iff.2 h
      exact ⟨hlf, F32.le_refl n1, (not_lt_iff n1 n2).1 h'⟩
  have hcomplete : x.input.completeElapsedTime = Tip.durMax l.elapsedTime last.now := by
    obtain ⟨m0', us, H, m, hm, D⟩ := ShapeBuilder.did_any ht hs _ x hx
    exact ((InputModeler.C35_times p.hypot p.lib hi0 before last D.input).2.1 l hl).1
  obtain ⟨f1, f2, f3⟩ := hmax hn
  have hun' := ShapeBuilder.C81_unfinished ht hv hs hx hl (r := l) (by rw [hreal, List.take_length]; exact hl) f1 f2
  rw [hun] at hun'
  -- the time since the last input is not within a range
  have hpast : ∀ node ∈ tip.behaviors.flatten, ∀ d, TipSpec.changesFor node = some d → d.isNaN = false →
      le d (sub (Tip.durMax l.elapsedTime last.now).seconds l.elapsedTime.seconds) = true := by
    intro node hmem d hd hdn
    have hk := key_sub (a := (Tip.durMax l.elapsedTime last.now).seconds) (b := l.elapsedTime.seconds) f1 hlf
    refine (not_lt_iff hk.1 hdn).1 (Bool.eq_false_iff.2 fun h => ?_)
    exact absurd (hun'.2 ⟨_, hmem, _, hd, h⟩) (by simp)
  have hm0c : m0.continuous = true := by
    unfold Tip.Modeler.continuous
    rw [(Tip.start_spec p.tabulate hm0).2.2.2.2.2.2.1]
    rw [Bool.and_eq_true]
    exact hcont
  refine ShapeBuilder.dry_run he hsh ho ht hs hm0 (modeled := x.input.modeled) (l := l) hl
    (Q := fun T => T.isFinite = true ∧ le (Tip.durMax l.elapsedTime last.now).seconds T.seconds = true) (S := fun i => i ∈ x.input.modeled) ?_
    (Or.inr hm0c) (fun _ h => h) later hx hid rfl hreal ?_ ?_ hy
  · intro st T T' hT hT' s oor lo hi hmem i hmi dir size prev
    rw [(Tip.start_spec p.tabulate hm0).1] at hmem
    have hnode := mem_compile _ _ _ _ _ _ _ hmem
    unfold Tip.sourceNodeValue
    dsimp only
    cases hof : ofTime s with
    | false => rw [ageless_value hof]
    | true =>
      obtain ⟨hlt, hms⟩ := ha s oor lo hi hnode hof
      have hval := Tip.valid_nodes hv _ hnode
      simp only [Tip.Node.valid, Tip.rangeOk, Bool.and_eq_true] at hval
      obtain ⟨hoor, ⟨hlo, hhi⟩, -⟩ := hval
      have hmx : smax lo hi = hi := by
        unfold smax
        rw [if_pos hlt]
      obtain ⟨hif, hile⟩ := hta i hmi
      have hile' := (le_iff (a := i.elapsedTime.seconds) (b := l.elapsedTime.seconds) hif hlf).1 hile
      have beyond : ∀ {T : Duration32}, T.isFinite = true → le (Tip.durMax l.elapsedTime last.now).seconds T.seconds = true →
          le (sub (Tip.durMax l.elapsedTime last.now).seconds l.elapsedTime.seconds) (sub T.seconds i.elapsedTime.seconds) = true ∧
            le zero (sub T.seconds i.elapsedTime.seconds) = true := by
        intro T hTf hTl
        have k1 := key_sub (a := T.seconds) (b := l.elapsedTime.seconds) hTf hlf
        have k2 := key_sub (a := T.seconds) (b := i.elapsedTime.seconds) hTf hif
        refine ⟨F32.le_trans (sub_le_sub_right f1 hTf hlf hTl) (le_of_key k1.1 k2.1 ?_), le_of_key rfl k2.1 ?_⟩
        · rw [k1.2, k2.2]
          exact keyR_mono (by linarith)
        · rw [k2.2, show key zero = 0 from rfl]
          refine keyR_nonneg ?_
          have := (le_iff (a := l.elapsedTime.seconds) (b := T.seconds) hlf hTf).1 (F32.le_trans f2 hTl)
          linarith
      have secs : ∀ {T : Duration32}, T.isFinite = true →
          (Tip.timeSinceInput { st with completeElapsedTime := T } i).seconds = sub T.seconds i.elapsedTime.seconds := by
        intro T hTf
        unfold Tip.timeSinceInput Duration32.sub
        dsimp only
        rw [hTf]
        rfl
      have b1 := beyond hT.1 hT.2
      have b2 := beyond hT'.1 hT'.2
      cases s with
      | timeSinceInputSeconds =>
        obtain rfl : oor = .clamp := of_decide_eq_true hoor
        have hp0 := hpast _ hnode _ rfl (by rw [hmx]; exact nan hhi)
        rw [hmx] at hp0
        show Tip.applyOutOfRange .clamp (inverseLerpF lo hi (Tip.timeSinceInput { st with completeElapsedTime := T' } i).seconds) =
          Tip.applyOutOfRange .clamp (inverseLerpF lo hi (Tip.timeSinceInput { st with completeElapsedTime := T } i).seconds)
        rw [secs hT'.1, secs hT.1]
        exact past_value hlo hhi hlt (F32.le_trans hp0 b2.1) (F32.le_trans hp0 b1.1)
      | timeSinceInputMillis =>
        obtain rfl : oor = .clamp := of_decide_eq_true hoor
        have hp0 := hpast _ hnode _ rfl (by rw [hmx]; exact (key_mul (a := Duration32.milli) rfl hhi).1)
        rw [hmx] at hp0
        show Tip.applyOutOfRange .clamp (inverseLerpF lo hi (mul (ofInt 1000) (Tip.timeSinceInput { st with completeElapsedTime := T' } i).seconds)) =
          Tip.applyOutOfRange .clamp (inverseLerpF lo hi (mul (ofInt 1000) (Tip.timeSinceInput { st with completeElapsedTime := T } i).seconds))
        rw [secs hT'.1, secs hT.1]
        exact past_value hlo hhi hlt (millis_past hhi (hms rfl) b2.2 (F32.le_trans hp0 b2.1))
          (millis_past hhi (hms rfl) b1.2 (F32.le_trans hp0 b1.1))
      | _ => cases hof
  · rw [hcomplete]
    exact ⟨f1, F32.le_refl (nan f1)⟩
  · intro c hc
    obtain ⟨g1, g2⟩ := htimes c hc
    obtain ⟨e1, e2, e3⟩ := hmax g1
    refine ⟨e1, ?_⟩
    unfold Tip.durMax
    by_cases h : l.elapsedTime.lt last.now = true
    · rw [if_pos h]
      exact F32.le_trans g2 e3
    · rw [if_neg h]
      exact e2

end

/-! ### `InProgressStroke` -/

/-- The last update a coat received was at the current time, and had no prediction if none is counted. -/
def LastOk {B : Type} (coats : B → Nat) (s : InProgress.State B) (τ : InProgress.Spec.State B) : Prop :=
  ∀ i < InProgress.coatCount coats s, ∀ bl, s.builders[i]? = some bl → ∀ e ∈ bl.log.getLast?, e.time = s.time ∧ (τ.pred = [] → e.pred = [])

theorem step_last {B : Type} {coats : B → Nat} {s s' : InProgress.State B} {τ : InProgress.Spec.State B} {op : InProgress.Op B} {b : Bool}
    (h : InProgress.Rel coats s τ) (hop : InProgress.Spec.OpOk op) (hl : LastOk coats s τ) (hs : InProgress.step coats s op = some (b, s')) :
    LastOk coats s' (InProgress.Spec.step τ op).2 := by
  obtain ⟨s1, e, r1, hun⟩ := InProgress.step_rel h hop
  rw [hs] at e
  simp only [Option.some.injEq, Prod.mk.injEq] at e
  obtain ⟨eb, rfl⟩ := e
  cases op with
  | clear =>
    simp only [InProgress.step, Option.some.injEq, Prod.mk.injEq] at hs
    obtain ⟨_, rfl⟩ := hs
    intro i hi
    exact absurd hi (Nat.not_lt_zero i)
  | start b' =>
    simp only [InProgress.step, Option.some.injEq, Prod.mk.injEq] at hs
    obtain ⟨_, rfl⟩ := hs
    intro i hi bl hbl e he
    exfalso
    have hcc : InProgress.coatCount coats (InProgress.start coats s b') = coats b' := by
      unfold InProgress.start InProgress.clear InProgress.coatCount; simp only []; split_ifs <;> rfl
    rw [hcc] at hi
    have hbs : ∃ bs : List (InProgress.Builder B), (InProgress.start coats s b').builders = InProgress.startBuilders b' (coats b') bs := by
      unfold InProgress.start InProgress.clear; simp only []
      split_ifs with hc
      · exact ⟨_, rfl⟩
      · exact ⟨_, rfl⟩
    obtain ⟨bs, hbs⟩ := hbs
    rw [hbs] at hbl
    cases hg : bs[i]? with
    | none => simp [InProgress.startBuilders, hg] at hbl
    | some b1 =>
      simp [InProgress.startBuilders, hg, hi] at hbl
      rw [← hbl] at he
      simp at he
  | finish =>
    simp only [InProgress.step, Option.some.injEq, Prod.mk.injEq] at hs
    obtain ⟨_, rfl⟩ := hs
    exact hl
  | enqueue R P =>
    have hσ : (InProgress.Spec.step τ (.enqueue R P)).2.pred = τ.pred := by
      simp only [InProgress.Spec.step]; split_ifs <;> rfl
    have hsame : s'.builders = s.builders ∧ s'.brush = s.brush ∧ s'.time = s.time := by
      simp only [InProgress.step, InProgress.enqueueInputs] at hs
      by_cases hb1 : s.brush.isNone = true
      · rw [if_pos hb1] at hs; simp only [Option.some.injEq, Prod.mk.injEq] at hs
        obtain ⟨_, rfl⟩ := hs; exact ⟨rfl, rfl, rfl⟩
      rw [if_neg hb1] at hs
      by_cases hfi : s.finished = true
      · rw [if_pos hfi] at hs; simp only [Option.some.injEq, Prod.mk.injEq] at hs
        obtain ⟨_, rfl⟩ := hs; exact ⟨rfl, rfl, rfl⟩
      rw [if_neg hfi] at hs
      simp only [Option.bind_eq_bind, Option.bind_eq_some_iff] at hs
      obtain ⟨ok, _, hs⟩ := hs
      split_ifs at hs
      · simp only [Option.some.injEq, Prod.mk.injEq] at hs; obtain ⟨_, rfl⟩ := hs; exact ⟨rfl, rfl, rfl⟩
      · cases ha : InProgress.appendBatch s.queuedReal R with
        | none =>
          rw [ha] at hs; simp only [Option.some.injEq, Prod.mk.injEq] at hs
          obtain ⟨_, rfl⟩ := hs; exact ⟨rfl, rfl, rfl⟩
        | some q =>
          rw [ha] at hs; simp only [Option.some.injEq, Prod.mk.injEq] at hs
          obtain ⟨_, rfl⟩ := hs; exact ⟨rfl, rfl, rfl⟩
    intro i hi bl hbl e he
    unfold InProgress.coatCount at hi
    rw [hsame.2.1] at hi
    rw [hsame.1] at hbl
    rw [hσ, hsame.2.2]
    exact hl i hi bl hbl e he
  | update t =>
    by_cases hok : (InProgress.Spec.step τ (.update t)).1 = true
    · rw [hok] at eb
      subst eb
      obtain ⟨u1, u2, _⟩ := InProgress.update_eq hs
      obtain ⟨-, -, -, v1, v2⟩ := InProgress.spec_update_ok hok
      have hti : s'.time = t := by
        rw [r1.time]
        simp only [InProgress.Spec.step] at hok ⊢
        split_ifs at hok ⊢ <;> rfl
      intro i hi bl hbl e he
      unfold InProgress.coatCount at hi
      rw [u2] at hi
      rw [u1] at hbl
      have hi' : i < InProgress.coatCount coats s := hi
      have he' : e = ⟨s.queuedReal, s.queuedPred, t⟩ := by
        cases hg : s.builders[i]? with
        | none => simp [InProgress.extendBuilders, hg] at hbl
        | some b1 =>
          simp [InProgress.extendBuilders, hg, hi'] at hbl
          rw [← hbl] at he
          simp at he
          exact he.symm
      subst he'
      refine ⟨hti.symm, fun hp => ?_⟩
      show s.queuedPred = []
      by_contra hq
      have hw : τ.waitingPred ≠ [] := by
        intro hw
        have := h.queuedPred.length
        rw [hw] at this
        exact hq (List.length_eq_zero_iff.1 this)
      exact hw ((v1 (Or.inr (Or.inr hw))).symm.trans hp)
    · have hf : (InProgress.Spec.step τ (.update t)).1 = false := by simpa using hok
      have := hun hf
      subst this
      rw [InProgress.spec_update_err hf]
      exact hl

theorem run_last {B : Type} {coats : B → Nat} : ∀ {ops : List (InProgress.Op B)} {s s' : InProgress.State B} {τ : InProgress.Spec.State B} {bs},
    InProgress.Rel coats s τ → LastOk coats s τ → (∀ op ∈ ops, InProgress.Spec.OpOk op) →
    InProgress.run coats s ops = some (bs, s') → LastOk coats s' (InProgress.Spec.run τ ops).2 := by
  intro ops
  induction ops with
  | nil =>
    intro s s' τ bs _ hb _ h
    simp only [InProgress.run, Option.some.injEq, Prod.mk.injEq] at h
    obtain ⟨_, rfl⟩ := h
    exact hb
  | cons op ops ih =>
    intro s s' τ bs hr hb hok h
    simp only [InProgress.run, Option.bind_eq_bind, Option.bind_eq_some_iff, Option.some.injEq, Prod.mk.injEq, Prod.exists] at h
    obtain ⟨b1, s1, h1, bs2, s2, h2, _, rfl⟩ := h
    obtain ⟨s1', e, r1, _⟩ := InProgress.step_rel hr (hok op (by simp))
    rw [h1] at e
    simp only [Option.some.injEq, Prod.mk.injEq] at e
    obtain ⟨_, rfl⟩ := e
    exact ih r1 (step_last hr (hok op (by simp)) hb h1) (fun o ho => hok o (by simp [ho])) h2

/-- When no predicted inputs are counted, the last update of every coat had none; and it was at the current time. -/
theorem last_update {B : Type} {coats : B → Nat} {ops : List (InProgress.Op B)} {bs : List Bool} {s : InProgress.State B}
    (hok : ∀ op ∈ ops, InProgress.Spec.OpOk op) (h : InProgress.run coats {} ops = some (bs, s)) (hp : InProgress.predictedInputCount s = 0)
    {i : Nat} (hi : i < InProgress.coatCount coats s) {bl : InProgress.Builder B} (hbl : s.builders[i]? = some bl) :
    ∀ e ∈ bl.log.getLast?, e.time = s.time ∧ e.pred = [] := by
  intro e he
  have h0 : LastOk coats ({} : InProgress.State B) {} := by
    intro i hi; exact absurd hi (Nat.not_lt_zero i)
  obtain ⟨h1, h2⟩ := run_last (InProgress.rel_init coats) h0 hok h i hi bl hbl e he
  refine ⟨h1, h2 ?_⟩
  obtain ⟨s1, e1, -, -, e4, -⟩ := InProgress.C05_inputs_real_then_prediction (coats := coats) hok
  rw [h] at e1
  cases e1
  rw [e4] at hp
  exact List.length_eq_zero_iff.1 hp

section
variable {p : ShapeBuilder.Parts Brushes.InputModel σ E V X}

/-- **C83.** An `InProgressStroke` which needs no update, and counts no predicted inputs, shows the same after any further calls of `UpdateShape`, whether
they are accepted or not: a coat whose behaviors do not depend on the time since an input. The history of calls, the inputs and the times are arbitrary. -/
theorem C83_stays {core : V → C} (he : StrokeGeom.Spec.Respects core p.env)
    (hsh : ∀ e w, StrokeGeom.Spec.OkTip core (p.shapes e w)) (ho : StrokeGeom.Spec.IsOrder p.order)
    {ops : List (InProgress.Op (Brushes.Brush Col))} {bs bs' : List Bool} {s s' : InProgress.State (Brushes.Brush Col)}
    (hok : ∀ op ∈ ops, InProgress.Spec.OpOk op) (hrun : InProgress.run StrokeShape.coats {} ops = some (bs, s))
    {unfinished : InProgress.Builder (Brushes.Brush Col) → Bool} (hq : InProgress.needsUpdate StrokeShape.coats unfinished s = false)
    (hp : InProgress.predictedInputCount s = 0) {ts : List F32} (hrun' : InProgress.run StrokeShape.coats s (ts.map .update) = some (bs', s'))
    {brush : Brushes.Brush Col} (hbr : s.brush = some brush) {i : Nat} {coat : Brushes.Coat} (hcoat : brush.family.coats[i]? = some coat)
    {tip : Tip.BrushTip} (ht : coat.tips = [tip]) (ha : Ageless tip)
    {bl bl' : InProgress.Builder (Brushes.Brush Col)} (hbl : s.builders[i]? = some bl) (hbl' : s'.builders[i]? = some bl')
    {old x y : ShapeBuilder.Builder Brushes.InputModel σ E V X} (h : StrokeShape.wet p old brush i bl.log = some x)
    (h' : StrokeShape.wet p old brush i bl'.log = some y) :
    s'.brush = s.brush ∧ drawn core y = drawn core x := by
  have hqq : s.queuedReal = [] ∧ s.queuedPred = [] := by
    unfold InProgress.needsUpdate at hq
    split_ifs at hq with hc
    simpa using hc
  have hi : i < InProgress.coatCount StrokeShape.coats s := by
    unfold InProgress.coatCount StrokeShape.coats
    rw [hbr]
    exact (List.getElem?_eq_some_iff.1 hcoat).1
  have hlast := last_update hok hrun hp hi hbl
  obtain ⟨g0, g⟩ := StrokeShape.updates_log ts hqq.1 hqq.2 hrun'
  refine ⟨g0, ?_⟩
  obtain ⟨later, g1, g2, -⟩ := g i bl hbl
  rw [hbl'] at g2
  cases g2
  unfold StrokeShape.wet at h h'
  obtain ⟨b0, h0, h⟩ := Option.bind_eq_some_iff.1 h
  rw [h0] at h'
  unfold StrokeShape.begin at h0
  rw [hcoat] at h0
  dsimp only [Option.bind_some] at h'
  rw [List.map_append, ShapeBuilder.run_append, h] at h'
  rcases List.eq_nil_or_concat bl.log with hnil | ⟨before, last, hlog⟩
  · rw [hnil] at h
    cases h
    refine ShapeBuilder.dry_started he hsh ho ht (show old.start p brush.family.inputModel coat brush.size brush.epsilon = some x from h0) _ ?_ h'
    rw [List.all_map]
    exact g1
  · rw [List.concat_eq_append] at hlog
    rw [hlog, List.map_append] at h
    refine C83_ageless he hsh ho ht ha h0 (before := before.map StrokeShape.callOf) (last := StrokeShape.callOf last) h ?_ ?_ h'
    · exact (hlast last (by rw [hlog]; simp)).2
    · rw [List.all_map]
      exact g1

/-- **C83.** The same for a coat that is drawn as a line and depends on the time since an input, when its shape builder says that it
has no unfinished time behaviors. The modeled inputs are not after the last one; the times are finite and not earlier than the current one. -/
theorem C83_stays_aged_partial {core : V → C} (he : StrokeGeom.Spec.Respects core p.env)
    (hsh : ∀ e w, StrokeGeom.Spec.OkTip core (p.shapes e w)) (ho : StrokeGeom.Spec.IsOrder p.order)
    {ops : List (InProgress.Op (Brushes.Brush Col))} {bs bs' : List Bool} {s s' : InProgress.State (Brushes.Brush Col)}
    (hok : ∀ op ∈ ops, InProgress.Spec.OpOk op) (hrun : InProgress.run StrokeShape.coats {} ops = some (bs, s))
    {old : ShapeBuilder.Builder Brushes.InputModel σ E V X} {brush : Brushes.Brush Col} (hbr : s.brush = some brush)
    {unfinished : InProgress.Builder (Brushes.Brush Col) → Bool}
    (hunf : ∀ bl k, bl.started = some (brush, k) → unfinished bl = (StrokeShape.wet p old brush k bl.log).any fun x => x.hasUnfinishedTimeBehaviors)
    (hq : InProgress.needsUpdate StrokeShape.coats unfinished s = false)
    (hp : InProgress.predictedInputCount s = 0) {ts : List F32} (hrun' : InProgress.run StrokeShape.coats s (ts.map .update) = some (bs', s'))
    (hts : s.time.isFinite = true ∧ ∀ t ∈ ts, t.isFinite = true ∧ le s.time t = true)
    {i : Nat} {coat : Brushes.Coat} (hcoat : brush.family.coats[i]? = some coat)
    {tip : Tip.BrushTip} (ht : coat.tips = [tip]) (hv : tip.valid = true) (ha : Forward tip) (hcont : Continuous tip brush.size)
    {bl bl' : InProgress.Builder (Brushes.Brush Col)} (hbl : s.builders[i]? = some bl) (hbl' : s'.builders[i]? = some bl')
    {x y : ShapeBuilder.Builder Brushes.InputModel σ E V X} (h : StrokeShape.wet p old brush i bl.log = some x)
    (h' : StrokeShape.wet p old brush i bl'.log = some y)
    (hta : ∀ l, x.input.modeled.getLast? = some l →
      ∀ i ∈ x.input.modeled, i.elapsedTime.isFinite = true ∧ le i.elapsedTime.seconds l.elapsedTime.seconds = true) :
    s'.brush = s.brush ∧ drawn core y = drawn core x := by
  have hi : i < InProgress.coatCount StrokeShape.coats s := by
    unfold InProgress.coatCount StrokeShape.coats
    rw [hbr]
    exact (List.getElem?_eq_some_iff.1 hcoat).1
  have hqq : (s.queuedReal = [] ∧ s.queuedPred = []) ∧ unfinished bl = false := by
    unfold InProgress.needsUpdate at hq
    split_ifs at hq with hc
    refine ⟨by simpa using hc, ?_⟩
    have := List.any_eq_false.1 hq bl (by
      rw [List.mem_iff_getElem?]
      exact ⟨i, by rw [List.getElem?_take, if_pos hi]; exact hbl⟩)
    simpa using this
  have hstarted : bl.started = some (brush, i) := by
    obtain ⟨bl2, k1, k2, -⟩ := InProgress.C08_geometry_has_the_real_inputs hok hrun i hi
    rw [hbl] at k1
    cases k1
    rw [k2, hbr]
    rfl
  have hun : x.hasUnfinishedTimeBehaviors = false := by
    have := hqq.2
    rw [hunf bl i hstarted, h] at this
    exact this
  have hlast := last_update hok hrun hp hi hbl
  obtain ⟨g0, g⟩ := StrokeShape.updates_log ts hqq.1.1 hqq.1.2 hrun'
  refine ⟨g0, ?_⟩
  obtain ⟨later, g1, g2, g3⟩ := g i bl hbl
  rw [hbl'] at g2
  cases g2
  unfold StrokeShape.wet at h h'
  obtain ⟨b0, h0, h⟩ := Option.bind_eq_some_iff.1 h
  rw [h0] at h'
  unfold StrokeShape.begin at h0
  rw [hcoat] at h0
  dsimp only [Option.bind_some] at h'
  rw [List.map_append, ShapeBuilder.run_append, h] at h'
  rcases List.eq_nil_or_concat bl.log with hnil | ⟨before, last, hlog⟩
  · rw [hnil] at h
    cases h
    refine ShapeBuilder.dry_started he hsh ho ht (show old.start p brush.family.inputModel coat brush.size brush.epsilon = some x from h0) _ ?_ h'
    rw [List.all_map]
    exact g1
  · rw [List.concat_eq_append] at hlog
    rw [hlog, List.map_append] at h
    obtain ⟨j1, j2⟩ := hlast last (by rw [hlog]; simp)
    refine C83_aged_partial he hsh ho ht hv ha hcont h0 (before := before.map StrokeShape.callOf) (last := StrokeShape.callOf last)
      (later := later.map StrokeShape.callOf) h j2 hun ?_ ?_ ?_ hta h'
    · rw [List.all_map]
      exact g1
    · show last.time.isFinite = true
      rw [j1]
      exact hts.1
    · intro c hc
      obtain ⟨e, he, rfl⟩ := List.mem_map.1 hc
      show e.time.isFinite = true ∧ le last.time e.time = true
      rw [j1]
      exact hts.2 _ (g3 e he)

/-- One more call. -/
theorem run_snoc {B : Type} {coats : B → Nat} {op : InProgress.Op B} {b : Bool} {s1 s2 : InProgress.State B}
    (h2 : InProgress.step coats s1 op = some (b, s2)) : ∀ (ops : List (InProgress.Op B)) {bs : List Bool} {s : InProgress.State B},
    InProgress.run coats s ops = some (bs, s1) → InProgress.run coats s (ops ++ [op]) = some (bs ++ [b], s2) := by
  intro ops
  induction ops with
  | nil =>
    intro bs s h
    simp only [InProgress.run, Option.some.injEq, Prod.mk.injEq] at h
    obtain ⟨rfl, rfl⟩ := h
    simp [InProgress.run, h2]
  | cons o ops ih =>
    intro bs s h
    simp only [InProgress.run, Option.bind_eq_bind, Option.bind_eq_some_iff, Option.some.injEq, Prod.mk.injEq, Prod.exists] at h
    obtain ⟨b1, t1, h1, bs2, t2, h3, rfl, rfl⟩ := h
    simp [InProgress.run, h1, ih h3]

/-- **C83.** One update after `FinishInputs` is enough: whatever happened before, when the inputs are finished and an update is accepted, a coat whose
behaviors do not depend on the time since an input shows its final shape, which no later update changes. -/
theorem C83_finished {core : V → C} (he : StrokeGeom.Spec.Respects core p.env)
    (hsh : ∀ e w, StrokeGeom.Spec.OkTip core (p.shapes e w)) (ho : StrokeGeom.Spec.IsOrder p.order)
    {ops : List (InProgress.Op (Brushes.Brush Col))} {bs bs' : List Bool} {s s1 s' : InProgress.State (Brushes.Brush Col)}
    (hok : ∀ op ∈ ops, InProgress.Spec.OpOk op) (hrun : InProgress.run StrokeShape.coats {} ops = some (bs, s)) (hfin : s.finished = true)
    {t : F32} (hup : InProgress.updateShape StrokeShape.coats s t = some (true, s1))
    {ts : List F32} (hrun' : InProgress.run StrokeShape.coats s1 (ts.map .update) = some (bs', s'))
    {brush : Brushes.Brush Col} (hbr : s1.brush = some brush) {i : Nat} {coat : Brushes.Coat} (hcoat : brush.family.coats[i]? = some coat)
    {tip : Tip.BrushTip} (ht : coat.tips = [tip]) (ha : Ageless tip)
    {bl bl' : InProgress.Builder (Brushes.Brush Col)} (hbl : s1.builders[i]? = some bl) (hbl' : s'.builders[i]? = some bl')
    {old x y : ShapeBuilder.Builder Brushes.InputModel σ E V X} (h : StrokeShape.wet p old brush i bl.log = some x)
    (h' : StrokeShape.wet p old brush i bl'.log = some y) :
    drawn core y = drawn core x := by
  obtain ⟨h1, h2, h3⟩ := InProgress.C07_no_prediction_after_finish hok hrun hfin (t := t) hup
  refine (C83_stays he hsh ho (ops := ops ++ [.update t]) ?_ (run_snoc (op := .update t) hup ops hrun) (unfinished := fun _ => false) ?_ h1 hrun'
    hbr hcoat ht ha hbl hbl' h h').2
  · intro op hop
    rcases List.mem_append.1 hop with hop | hop
    · exact hok op hop
    · rw [List.mem_singleton.1 hop]
      trivial
  · unfold InProgress.needsUpdate
    rw [h2, h3]
    simp

end

/-! ### A concrete stroke -/

namespace Example

open InputModeler StrokeGeom.ExtruderExample StrokeShape.Example

/-- A tip that moves to the right by four brush sizes in the two seconds after an input, and downwards in its first 1700 milliseconds. -/
def movingTip : Tip.BrushTip :=
  { Tip.sampleTip with behaviors := [[.source .timeSinceInputSeconds .clamp zero (ofInt 2), .target .positionOffsetX zero (ofInt 4)],
      [.source .timeSinceInputMillis .clamp zero (ofInt 1700), .target .positionOffsetY zero (ofInt 4)]] }

/-- Particles that are moved by the distance that remains. -/
def taperedDots : Tip.BrushTip :=
  { Tip.sampleTip with
    behaviors := [[.source .distanceRemaining .clamp zero (ofInt 48), .target .positionOffsetX zero (ofInt 4)]]
    particleGapDistanceScale := ofInt 12 }

def brush : Brushes.Brush Unit :=
  ⟨⟨[{ tips := [movingTip] }, { tips := [taperedDots] }], none, .springV2⟩, (), ofInt 1, ofInt 1⟩

/-- A stroke of four inputs with a prediction that is replaced; the last update is at `t` seconds. -/
def ops (t : Int) : List (InProgress.Op (Brushes.Brush Unit)) :=
  [.start brush, .enqueue [at' 0 0] [at' 9 1], .update (ofInt 1), .enqueue [at' 12 1, at' 24 2, at' 36 3] [], .update (ofInt t)]

def wetOf (ops : List (InProgress.Op (Brushes.Brush Unit))) (i : Nat) : Option B := StrokeShape.wet parts fresh brush i (logOf ops i)

/-- What the shape builder of a coat says. -/
def unfinished (bl : InProgress.Builder (Brushes.Brush Unit)) : Bool :=
  match bl.started with
  | some (_, k) => (StrokeShape.wet parts fresh brush k bl.log).any fun x => x.hasUnfinishedTimeBehaviors
  | none => false

theorem brushAfter : (stateAfter (ops 5)).brush = some brush := by decide +kernel

/-- What is asked of the modeled inputs. -/
def timely (ext : List (Option Nat)) (x : B) : Bool :=
  decide (x.input.modeled ≠ [] ∧ x.extruder.extrusions = ext ∧ ∀ l ∈ x.input.modeled.getLast?, ∀ i ∈ x.input.modeled,
    i.elapsedTime.isFinite = true ∧ le i.elapsedTime.seconds l.elapsedTime.seconds = true)

/-- What is asked of three further updates, of which the second is refused. -/
def further (i : Nat) (r : List Bool × InProgress.State (Brushes.Brush Unit)) : Bool :=
  decide (r.1 = [true, false, true]) && (r.2.builders[i]?).any fun bl => (StrokeShape.wet parts fresh brush i bl.log).isSome

def later : List F32 := [ofInt 6, ofInt 5, ofInt 9]

set_option maxHeartbeats 1000000 in
/-- The hypotheses of `C83_stays` (and of `C83_ageless`) are met by particles that depend on the distance that remains. -/
example : ∃ bs bs' bl bl' s' x y, InProgress.run StrokeShape.coats {} (ops 5) = some (bs, stateAfter (ops 5)) ∧
    InProgress.run StrokeShape.coats (stateAfter (ops 5)) (later.map .update) = some (bs', s') ∧ bs' = [true, false, true] ∧
    (stateAfter (ops 5)).builders[1]? = some bl ∧ s'.builders[1]? = some bl' ∧
    StrokeShape.wet parts fresh brush 1 bl.log = some x ∧ StrokeShape.wet parts fresh brush 1 bl'.log = some y ∧
    x.extruder.extrusions = [some 3, none, some 14, none, some 25, none, some 36, none] ∧
    drawn (fun v : Nat × Nat => v.1) y = drawn (fun v : Nat × Nat => v.1) x := by
  obtain ⟨bs, bl, hrun, hbl, hlog⟩ := state_facts (i := 1) (ops := ops 5) (by decide +kernel) (by decide +kernel)
  obtain ⟨x, hx, hd⟩ := ShapeBuilder.Example.exists_of (o := wetOf (ops 5) 1)
    (q := timely [some 3, none, some 14, none, some 25, none, some 36, none]) (by decide +kernel)
  obtain ⟨d1, d2, -⟩ := of_decide_eq_true hd
  obtain ⟨⟨bs', s'⟩, hrun', hd'⟩ := ShapeBuilder.Example.exists_of
    (o := InProgress.run StrokeShape.coats (stateAfter (ops 5)) (later.map .update)) (q := further 1) (by decide +kernel)
  unfold further at hd'
  rw [Bool.and_eq_true] at hd'
  obtain ⟨bl', hbl', hy⟩ := ShapeBuilder.Example.exists_of hd'.2
  obtain ⟨y, hy⟩ := Option.isSome_iff_exists.1 hy
  have hx' : StrokeShape.wet parts fresh brush 1 bl.log = some x := by rw [hlog]; exact hx
  refine ⟨bs, bs', bl, bl', s', x, y, hrun, hrun', of_decide_eq_true hd'.1, hbl, hbl', hx', hy, d2, ?_⟩
  have ha : Ageless taperedDots := by
    intro s hs
    simp [TipSpec.sources, taperedDots] at hs
    subst hs
    rfl
  exact (C83_stays respects okShape (fun _ => List.Perm.refl _) (ok_of (by decide +kernel)) hrun (unfinished := unfinished) (by decide +kernel)
    (by decide +kernel) hrun' brushAfter (coat := { tips := [taperedDots] }) rfl rfl ha hbl hbl' hx' hy).2

set_option maxHeartbeats 1000000 in
/-- The hypotheses of `C83_stays_aged_partial` (and of `C83_aged_partial`) are met by a line that moves for two seconds; when its last update is earlier,
the stroke does need an update, and shows something else. -/
example : ∃ bs bs' bl bl' s' x y, InProgress.run StrokeShape.coats {} (ops 5) = some (bs, stateAfter (ops 5)) ∧
    InProgress.run StrokeShape.coats (stateAfter (ops 5)) ([ofInt 6, ofInt 9].map .update) = some (bs', s') ∧
    (stateAfter (ops 5)).builders[0]? = some bl ∧ s'.builders[0]? = some bl' ∧
    StrokeShape.wet parts fresh brush 0 bl.log = some x ∧ StrokeShape.wet parts fresh brush 0 bl'.log = some y ∧
    x.extruder.extrusions = [some 4, some 16, some 28, some 40, none] ∧
    drawn (fun v : Nat × Nat => v.1) y = drawn (fun v : Nat × Nat => v.1) x ∧
    InProgress.needsUpdate StrokeShape.coats unfinished (stateAfter (ops 3)) = true ∧
    (wetOf (ops 3) 0).map (fun x => x.extruder.extrusions) = some [some 4, some 16, some 26, some 36, none] := by
  obtain ⟨bs, bl, hrun, hbl, hlog⟩ := state_facts (i := 0) (ops := ops 5) (by decide +kernel) (by decide +kernel)
  obtain ⟨x, hx, hd⟩ := ShapeBuilder.Example.exists_of (o := wetOf (ops 5) 0)
    (q := timely [some 4, some 16, some 28, some 40, none]) (by decide +kernel)
  obtain ⟨d1, d2, d3⟩ := of_decide_eq_true hd
  obtain ⟨⟨bs', s'⟩, hrun', hd'⟩ := ShapeBuilder.Example.exists_of
    (o := InProgress.run StrokeShape.coats (stateAfter (ops 5)) ([ofInt 6, ofInt 9].map .update))
    (q := fun r => (r.2.builders[0]?).any fun bl => (StrokeShape.wet parts fresh brush 0 bl.log).isSome) (by decide +kernel)
  obtain ⟨bl', hbl', hy⟩ := ShapeBuilder.Example.exists_of hd'
  obtain ⟨y, hy⟩ := Option.isSome_iff_exists.1 hy
  have hx' : StrokeShape.wet parts fresh brush 0 bl.log = some x := by rw [hlog]; exact hx
  refine ⟨bs, bs', bl, bl', s', x, y, hrun, hrun', hbl, hbl', hx', hy, d2, ?_, by decide +kernel, by decide +kernel⟩
  have ha : Forward movingTip := by
    intro s oor lo hi hs _
    simp only [movingTip, List.flatten_cons, List.flatten_nil, List.append_nil, List.cons_append, List.nil_append, List.mem_cons, List.not_mem_nil,
      or_false, false_or, reduceCtorEq, Tip.Node.source.injEq] at hs
    rcases hs with ⟨rfl, -, rfl, rfl⟩ | ⟨rfl, -, rfl, rfl⟩
    · exact ⟨by decide +kernel, fun e => by cases e⟩
    · exact ⟨by decide +kernel, fun _ => Or.inr (by decide +kernel)⟩
  exact (C83_stays_aged_partial respects okShape (fun _ => List.Perm.refl _) (ok_of (by decide +kernel)) hrun (old := fresh) brushAfter
    (unfinished := unfinished) (fun bl k e => by unfold unfinished; rw [e]) (by decide +kernel) (by decide +kernel) hrun'
    ⟨by decide +kernel, by decide +kernel⟩ (coat := { tips := [movingTip] }) rfl rfl (by decide +kernel) ha
    (by unfold Continuous; decide +kernel) hbl hbl' hx' hy fun l hl => d3 l hl).2

/-- A stroke that shows a prediction when its inputs are finished. -/
def ending : List (InProgress.Op (Brushes.Brush Unit)) := [.start brush, .enqueue [at' 0 0, at' 12 1] [at' 24 2], .update (ofInt 1), .finish]

def ended (r : Bool × InProgress.State (Brushes.Brush Unit)) : Bool :=
  decide (r.1 = true ∧ r.2.brush = some brush) &&
    ((r.2.builders[1]?).any fun bl => (StrokeShape.wet parts fresh brush 1 bl.log).any (timely [some 1, none, some 12, none])) &&
    (InProgress.run StrokeShape.coats r.2 ([ofInt 6, ofInt 5, ofInt 9].map .update)).any fun r' =>
      (r'.2.builders[1]?).any fun bl => (StrokeShape.wet parts fresh brush 1 bl.log).isSome

set_option maxHeartbeats 1000000 in
/-- The hypotheses of `C83_finished` are met by a stroke with a prediction that its last update takes away. -/
example : ∃ bs bs' bl bl' s1 s' x y, InProgress.run StrokeShape.coats {} ending = some (bs, stateAfter ending) ∧
    (stateAfter ending).finished = true ∧ InProgress.updateShape StrokeShape.coats (stateAfter ending) (ofInt 5) = some (true, s1) ∧
    InProgress.run StrokeShape.coats s1 ([ofInt 6, ofInt 5, ofInt 9].map .update) = some (bs', s') ∧
    s1.builders[1]? = some bl ∧ s'.builders[1]? = some bl' ∧
    StrokeShape.wet parts fresh brush 1 bl.log = some x ∧ StrokeShape.wet parts fresh brush 1 bl'.log = some y ∧
    x.extruder.extrusions = [some 1, none, some 12, none] ∧ drawn (fun v : Nat × Nat => v.1) y = drawn (fun v : Nat × Nat => v.1) x := by
  obtain ⟨bs, -, hrun, -, -⟩ := state_facts (i := 1) (ops := ending) (by decide +kernel) (by decide +kernel)
  obtain ⟨⟨b, s1⟩, hup, hd⟩ := ShapeBuilder.Example.exists_of
    (o := InProgress.updateShape StrokeShape.coats (stateAfter ending) (ofInt 5)) (q := ended) (by decide +kernel)
  unfold ended at hd
  rw [Bool.and_eq_true, Bool.and_eq_true] at hd
  obtain ⟨⟨hb, hd1⟩, hd2⟩ := hd
  obtain ⟨hb, hbr⟩ := of_decide_eq_true hb
  obtain ⟨bl, hbl, hx⟩ := ShapeBuilder.Example.exists_of hd1
  obtain ⟨x, hx, hxt⟩ := ShapeBuilder.Example.exists_of hx
  obtain ⟨d1, d2, -⟩ := of_decide_eq_true hxt
  obtain ⟨⟨bs', s'⟩, hrun', hd'⟩ := ShapeBuilder.Example.exists_of hd2
  obtain ⟨bl', hbl', hy⟩ := ShapeBuilder.Example.exists_of hd'
  obtain ⟨y, hy⟩ := Option.isSome_iff_exists.1 hy
  have hb : b = true := hb
  subst hb
  have hfin : (stateAfter ending).finished = true := by decide +kernel
  refine ⟨bs, bs', bl, bl', s1, s', x, y, hrun, hfin, hup, hrun', hbl, hbl', hx, hy, d2, ?_⟩
  have ha : Ageless taperedDots := by
    intro s hs
    simp [TipSpec.sources, taperedDots] at hs
    subst hs
    rfl
  exact C83_finished respects okShape (fun _ => List.Perm.refl _) (ok_of (by decide +kernel)) hrun hfin hup hrun' hbr
    (coat := { tips := [taperedDots] }) rfl rfl ha hbl hbl' hx hy

/-- What the second coat shows. -/
def shown (s : InProgress.State (Brushes.Brush Unit)) : Option (List (Option Nat)) :=
  (s.builders[1]?.bind fun bl => StrokeShape.wet parts fresh brush 1 bl.log).map fun x => x.extruder.extrusions

def changed (r : List Bool × InProgress.State (Brushes.Brush Unit)) (r' : List Bool × InProgress.State (Brushes.Brush Unit)) : Bool :=
  decide (r.2.finished = true ∧ InProgress.needsUpdate StrokeShape.coats (fun _ => false) r.2 = false ∧ InProgress.predictedInputCount r.2 = 1 ∧
    r'.1 = [true] ∧ shown r.2 = some [some 2, none, some 13, none, some 24, none] ∧ shown r'.2 = some [some 1, none, some 12, none])

def changes (r : List Bool × InProgress.State (Brushes.Brush Unit)) : Bool :=
  (InProgress.run StrokeShape.coats r.2 [.update (ofInt 2)]).any (changed r)

/-- **C83** does not hold for strokes that show a prediction: the inputs of this stroke are finished and it needs no update, but a later update takes
the prediction away. The comments on `NeedsUpdate` (in_progress_stroke.h:147-160) say that it will not change any further. -/
theorem C83_prediction_counterexample : Ageless taperedDots ∧ ∃ bs bs' s s', InProgress.run StrokeShape.coats {} ending = some (bs, s) ∧
    s.finished = true ∧ InProgress.needsUpdate StrokeShape.coats (fun _ => false) s = false ∧ InProgress.predictedInputCount s = 1 ∧
    InProgress.run StrokeShape.coats s [.update (ofInt 2)] = some (bs', s') ∧ bs' = [true] ∧
    shown s = some [some 2, none, some 13, none, some 24, none] ∧ shown s' = some [some 1, none, some 12, none] := by
  refine ⟨?_, ?_⟩
  · intro s hs
    simp [TipSpec.sources, taperedDots] at hs
    subst hs
    rfl
  · obtain ⟨⟨bs, s⟩, hrun, hd⟩ := ShapeBuilder.Example.exists_of (o := InProgress.run StrokeShape.coats {} ending) (q := changes) (by decide +kernel)
    obtain ⟨⟨bs', s'⟩, hrun', hd'⟩ := ShapeBuilder.Example.exists_of hd
    obtain ⟨h1, h2, h3, h4, h5, h6⟩ := of_decide_eq_true hd'
    exact ⟨bs, bs', s, s', hrun, h1, h2, h3, hrun', h4, h5, h6⟩

/-- A tip that moves to the right in the first `2^-149` milliseconds after an input. -/
def hastyTip : Tip.BrushTip :=
  { Tip.sampleTip with behaviors := [[.source .timeSinceInputMillis .clamp zero (.fin false 1 (by decide)), .target .positionOffsetX zero (ofInt 4)]] }

def hasty : Brushes.Brush Unit := ⟨⟨[{ tips := [hastyTip] }], none, .springV2⟩, (), ofInt 1, ofInt 1⟩

def begun : List (InProgress.Op (Brushes.Brush Unit)) := [.start hasty, .enqueue [at' 0 0, at' 12 1] [], .update (ofInt 1), .finish]

/-- What its coat shows, and whether it has unfinished time behaviors. -/
def hastyShown (s : InProgress.State (Brushes.Brush Unit)) : Option (List (Option Nat) × Bool) :=
  (s.builders[0]?.bind fun bl => StrokeShape.wet parts fresh hasty 0 bl.log).map fun x => (x.extruder.extrusions, x.hasUnfinishedTimeBehaviors)

def hastened (r : List Bool × InProgress.State (Brushes.Brush Unit)) (r' : List Bool × InProgress.State (Brushes.Brush Unit)) : Bool :=
  decide (r.2.finished = true ∧ InProgress.needsUpdate StrokeShape.coats (fun _ => false) r.2 = false ∧ InProgress.predictedInputCount r.2 = 0 ∧
    r'.1 = [true] ∧ hastyShown r.2 = some ([some 4, some 12, none], false) ∧ hastyShown r'.2 = some ([some 4, some 16, none], false))

def hastens (r : List Bool × InProgress.State (Brushes.Brush Unit)) : Bool :=
  (InProgress.run StrokeShape.coats r.2 [.update (ofInt 2)]).any (hastened r)

/-- **C83** does not hold for ranges in milliseconds that are positive and very small: in seconds the end of the range is rounded to zero, and a stroke
of this valid brush needs no update although a later one changes it. -/
theorem C83_tiny_counterexample : hastyTip.valid = true ∧ ∃ bs bs' s s', InProgress.run StrokeShape.coats {} begun = some (bs, s) ∧
    s.finished = true ∧ InProgress.needsUpdate StrokeShape.coats (fun _ => false) s = false ∧ InProgress.predictedInputCount s = 0 ∧
    InProgress.run StrokeShape.coats s [.update (ofInt 2)] = some (bs', s') ∧ bs' = [true] ∧
    hastyShown s = some ([some 4, some 12, none], false) ∧ hastyShown s' = some ([some 4, some 16, none], false) := by
  refine ⟨by decide +kernel, ?_⟩
  obtain ⟨⟨bs, s⟩, hrun, hd⟩ := ShapeBuilder.Example.exists_of (o := InProgress.run StrokeShape.coats {} begun) (q := hastens) (by decide +kernel)
  obtain ⟨⟨bs', s'⟩, hrun', hd'⟩ := ShapeBuilder.Example.exists_of hd
  obtain ⟨h1, h2, h3, h4, h5, h6⟩ := of_decide_eq_true hd'
  exact ⟨bs, bs', s, s', hrun, h1, h2, h3, hrun', h4, h5, h6⟩

end Example

end Verif.StrokeDry
