import Verif.Model.StrokeShape
import Verif.Props.InProgressStroke
import Verif.Props.ShapeBuilder

/-!
# C82: from the calls of `InProgressStroke` to what is drawn
-/

set_option autoImplicit false

namespace Verif.StrokeShape

open Verif F32 InputModeler.Spec ShapeBuilder.Spec

variable {σ E V X C Col : Type} {p : ShapeBuilder.Parts Brushes.InputModel σ E V X}

theorem reals_log (log : List InProgress.Extend) : reals (log.map callOf) = log.flatMap InProgress.Extend.real := by
  unfold reals
  rw [List.flatMap_map]
  rfl

/-- **C82.** After any calls of an `InProgressStroke` that leave no predicted inputs, the shape that a `Stroke` builds from `GetInputs` is, coat by
coat, what the `InProgressStroke` shows. `log` are the calls its shape builder received (`C08_geometry_has_the_real_inputs`), `x` is what it is now and
`x'` the shape builder of the `Stroke`; the builders may have been used before. -/
theorem C82_copied_partial {core : V → C} (he : StrokeGeom.Spec.Respects core p.env)
    (hsh : ∀ e w, StrokeGeom.Spec.OkTip core (p.shapes e w)) (ho : StrokeGeom.Spec.IsOrder p.order) (hsm : EmptyIsSmall p)
    {ops : List (InProgress.Op (Brushes.Brush Col))} {bs : List Bool} {s : InProgress.State (Brushes.Brush Col)}
    (hok : ∀ op ∈ ops, InProgress.Spec.OpOk op) (hrun : InProgress.run coats {} ops = some (bs, s)) (hp : InProgress.predictedInputCount s = 0)
    {brush : Brushes.Brush Col} (hbr : s.brush = some brush) {i : Nat} {coat : Brushes.Coat} (hcoat : brush.family.coats[i]? = some coat)
    {tip : Tip.BrushTip} (ht : coat.tips = [tip]) (hv : Steady tip) {bl : InProgress.Builder (Brushes.Brush Col)} (hbl : s.builders[i]? = some bl)
    {old old' b0 x x' : ShapeBuilder.Builder Brushes.InputModel σ E V X} (h0 : begin p old brush i = some b0)
    (hb : BeginsReal (bl.log.map callOf)) (hn : Continuous tip brush.size → NeverSettled p b0 (bl.log.map callOf))
    (hc : Shows p b0 (bl.log.map callOf) [])
    (h : wet p old brush i bl.log = some x) (h' : dry p old' brush i (InProgress.getInputs s) = some x')
    (hn' : Continuous tip brush.size → x'.input.stableCount < x'.input.modeled.length) (hne : x.input.modeled ≠ []) (hta : TimesAscend x.input) :
    drawn core x' = drawn core x := by
  have hi : i < InProgress.coatCount coats s := by
    unfold InProgress.coatCount coats
    rw [hbr]
    exact (List.getElem?_eq_some_iff.1 hcoat).1
  obtain ⟨bl', e, -, hr⟩ := InProgress.C08_geometry_has_the_real_inputs hok hrun i hi
  rw [hbl] at e
  cases e
  rw [List.take_of_length_le (by unfold InProgress.predictedInputCount InProgress.inputCount at hp; unfold InProgress.getInputs; omega)] at hr
  unfold wet at h
  rw [h0] at h
  unfold dry at h'
  obtain ⟨b0', h0', h'⟩ := Option.bind_eq_some_iff.1 h'
  unfold begin at h0 h0'
  rw [hcoat] at h0 h0'
  refine ShapeBuilder.C81_finished_partial he hsh ho hsm ht hv h0 h0' (cs := bl.log.map callOf) (inputs := InProgress.getInputs s)
    (now := duration (InProgress.getInputs s)) hb hn hc ?_ h ?_ hn' hne hta
  · rw [reals_log]; exact hr.symm
  · unfold ShapeBuilder.Builder.run; rw [h']; rfl

/-- **C82.** Two strokes in progress with the same brush, the same real inputs and the same prediction shown look the same, coat by coat, whatever
calls led there: other batches, other predictions before, other strokes before, other times of updates. -/
theorem C82_same_partial {core : V → C} (he : StrokeGeom.Spec.Respects core p.env)
    (hsh : ∀ e w, StrokeGeom.Spec.OkTip core (p.shapes e w)) (ho : StrokeGeom.Spec.IsOrder p.order) (hsm : EmptyIsSmall p)
    {ops ops' : List (InProgress.Op (Brushes.Brush Col))} {bs bs' : List Bool} {s s' : InProgress.State (Brushes.Brush Col)}
    (hok : ∀ op ∈ ops, InProgress.Spec.OpOk op) (hrun : InProgress.run coats {} ops = some (bs, s))
    (hok' : ∀ op ∈ ops', InProgress.Spec.OpOk op) (hrun' : InProgress.run coats {} ops' = some (bs', s'))
    {brush : Brushes.Brush Col} (hbr : s.brush = some brush) (hbr' : s'.brush = some brush)
    (hin : ((InProgress.getInputs s').take (InProgress.realInputCount s')).map InProgress.Spec.canon =
      ((InProgress.getInputs s).take (InProgress.realInputCount s)).map InProgress.Spec.canon)
    {i : Nat} {coat : Brushes.Coat} (hcoat : brush.family.coats[i]? = some coat)
    {tip : Tip.BrushTip} (ht : coat.tips = [tip]) (hv : Steady tip)
    {bl bl' : InProgress.Builder (Brushes.Brush Col)} (hbl : s.builders[i]? = some bl) (hbl' : s'.builders[i]? = some bl')
    {old old' b0 b0' x x' : ShapeBuilder.Builder Brushes.InputModel σ E V X} (h0 : begin p old brush i = some b0) (h0' : begin p old' brush i = some b0')
    {P P' : List Batch.Input} (hb : BeginsReal (bl.log.map callOf)) (hb' : BeginsReal (bl'.log.map callOf))
    (hn : Continuous tip brush.size → NeverSettled p b0 (bl.log.map callOf))
    (hn' : Continuous tip brush.size → NeverSettled p b0' (bl'.log.map callOf))
    (hc : Shows p b0 (bl.log.map callOf) P) (hc' : Shows p b0' (bl'.log.map callOf) P')
    (hP : P'.map InProgress.Spec.canon = P.map InProgress.Spec.canon)
    (h : wet p old brush i bl.log = some x) (h' : wet p old' brush i bl'.log = some x')
    (hne : x.input.modeled ≠ []) (hta : TimesAscend x.input) :
    drawn core x' = drawn core x := by
  have hi : ∀ {t : InProgress.State (Brushes.Brush Col)}, t.brush = some brush → i < InProgress.coatCount coats t := by
    intro t e
    unfold InProgress.coatCount coats
    rw [e]
    exact (List.getElem?_eq_some_iff.1 hcoat).1
  obtain ⟨l, e, -, hr⟩ := InProgress.C08_geometry_has_the_real_inputs hok hrun i (hi hbr)
  rw [hbl] at e
  cases e
  obtain ⟨l, e, -, hr'⟩ := InProgress.C08_geometry_has_the_real_inputs hok' hrun' i (hi hbr')
  rw [hbl'] at e
  cases e
  unfold wet at h h'
  rw [h0] at h
  rw [h0'] at h'
  unfold begin at h0 h0'
  rw [hcoat] at h0 h0'
  refine ShapeBuilder.C81_schedule_partial he hsh ho hsm ht hv h0 h0' (cs := bl.log.map callOf) (ds := bl'.log.map callOf) hb hb' hn hn' hc hc' ?_ hP
    h h' hne hta
  rw [reals_log, reals_log, hr, hr', hin]

/-! ### Calls without predictions -/

/-- No prediction is ever given. -/
def Unpredicted (ops : List (InProgress.Op (Brushes.Brush Col))) : Prop := ∀ R P, InProgress.Op.enqueue R P ∈ ops → P = []

/-- What holds of the specification if there are no predictions. -/
theorem spec_unpredicted {B : Type} : ∀ (ops : List (InProgress.Op B)) (t : InProgress.Spec.State B), t.pred = [] → t.waitingPred = [] →
    (∀ R P, InProgress.Op.enqueue R P ∈ ops → P = []) → (InProgress.Spec.run t ops).2.pred = [] := by
  intro ops
  induction ops with
  | nil => intro t h _ _; exact h
  | cons op ops ih =>
    intro t h hw hu
    have hu' : ∀ R P, InProgress.Op.enqueue R P ∈ ops → P = [] := fun R P h => hu R P (List.mem_cons_of_mem _ h)
    refine ih _ ?_ ?_ hu'
    · cases op <;> simp only [InProgress.Spec.step]
      · split_ifs <;> exact h
      · split_ifs
        · exact hw
        · exact h
        · exact h
      · exact h
    · cases op with
      | enqueue R P =>
        simp only [InProgress.Spec.step]
        split_ifs
        · exact hu R P (List.mem_cons_self ..)
        · exact hw
      | update t' =>
        simp only [InProgress.Spec.step]
        split_ifs
        · rfl
        · rfl
        · exact hw
      | _ => rfl

/-- Nothing predicted is queued, and no shape builder was given a prediction. -/
def Bare {B : Type} (s : InProgress.State B) : Prop := s.queuedPred = [] ∧ ∀ bl ∈ s.builders, ∀ e ∈ bl.log, e.pred = []

theorem update_builders {B : Type} {coats : B → Nat} {s s' : InProgress.State B} {t : F32} {b : Bool}
    (h : InProgress.updateShape coats s t = some (b, s')) : s'.brush = s.brush ∧
    ((s'.builders = s.builders ∧ s'.queuedReal = s.queuedReal ∧ s'.queuedPred = s.queuedPred) ∨
      (s'.builders = InProgress.extendBuilders (InProgress.coatCount coats s) ⟨s.queuedReal, s.queuedPred, t⟩ s.builders ∧
        s'.queuedReal = [] ∧ s'.queuedPred = [])) := by
  cases b with
  | true =>
    obtain ⟨h1, h2, h3, h4, -⟩ := InProgress.update_eq h
    exact ⟨h2, Or.inr ⟨h1, h3, h4⟩⟩
  | false =>
    unfold InProgress.updateShape at h
    by_cases h1 : s.brush.isNone = true
    · rw [if_pos h1] at h
      simp only [Option.some.injEq, Prod.mk.injEq, true_and] at h
      subst h
      exact ⟨rfl, Or.inl ⟨rfl, rfl, rfl⟩⟩
    rw [if_neg h1] at h
    by_cases h2 : (!InProgress.validateNewElapsedTime s t) = true
    · rw [if_pos h2] at h
      simp only [Option.some.injEq, Prod.mk.injEq, true_and] at h
      subst h
      exact ⟨rfl, Or.inl ⟨rfl, rfl, rfl⟩⟩
    rw [if_neg h2] at h
    dsimp only at h
    generalize he : (s.finished || !s.queuedReal.isEmpty || !s.queuedPred.isEmpty) = c at h
    by_cases h3 : (c && decide (s.processed.length < s.realCount)) = true
    · rw [if_pos h3] at h; cases h
    rw [if_neg h3] at h
    have hs : ∃ r, (if c = true then { s with processed := s.processed.take s.realCount } else s) = { s with processed := r } := by
      cases c
      · exact ⟨s.processed, rfl⟩
      · exact ⟨_, rfl⟩
    obtain ⟨r, hr⟩ := hs
    rw [hr] at h
    dsimp only at h
    cases ha : InProgress.appendBatch r s.queuedReal with
    | none =>
      rw [ha] at h
      simp only [Option.some.injEq, Prod.mk.injEq, true_and] at h
      subst h
      exact ⟨rfl, Or.inl ⟨rfl, rfl, rfl⟩⟩
    | some q =>
      rw [ha] at h
      dsimp only at h
      cases hb : InProgress.appendBatch q s.queuedPred with
      | none =>
        rw [hb] at h
        simp only [Option.some.injEq, Prod.mk.injEq, true_and] at h
        subst h
        exact ⟨rfl, Or.inl ⟨rfl, rfl, rfl⟩⟩
      | some q =>
        rw [hb] at h
        dsimp only at h
        split_ifs at h
        simp at h

theorem bare_step {B : Type} {coats : B → Nat} {op : InProgress.Op B} {b : Bool} {s s' : InProgress.State B} (h : Bare s)
    (hu : ∀ R P, op = .enqueue R P → P = []) (hs : InProgress.step coats s op = some (b, s')) : Bare s' := by
  cases op with
  | clear =>
    simp only [InProgress.step, Option.some.injEq, Prod.mk.injEq] at hs
    obtain ⟨-, rfl⟩ := hs
    exact ⟨rfl, h.2⟩
  | start br =>
    simp only [InProgress.step, Option.some.injEq, Prod.mk.injEq] at hs
    obtain ⟨-, rfl⟩ := hs
    have key : ∀ l : List (InProgress.Builder B), (∀ bl ∈ l, ∀ e ∈ bl.log, e.pred = []) →
        ∀ bl ∈ InProgress.startBuilders br (coats br) l, ∀ e ∈ bl.log, e.pred = [] := by
      intro l hl bl hbl e he
      unfold InProgress.startBuilders at hbl
      obtain ⟨q, hq, rfl⟩ := List.mem_map.1 hbl
      split at he
      · cases he
      · exact hl q.1 (List.fst_mem_of_mem_zipIdx hq) e he
    refine ⟨?_, ?_⟩
    · unfold InProgress.start InProgress.clear
      dsimp only
      split_ifs <;> rfl
    · unfold InProgress.start InProgress.clear
      dsimp only
      split_ifs
      · refine key _ ?_
        intro bl hbl
        rcases List.mem_append.1 hbl with hbl | hbl
        · exact h.2 bl hbl
        · rw [List.eq_of_mem_replicate hbl]
          intro e he
          cases he
      · exact key _ h.2
  | enqueue R P =>
    simp only [InProgress.step] at hs
    unfold InProgress.enqueueInputs at hs
    split_ifs at hs
    · cases hs; exact h
    · cases hs; exact h
    · obtain ⟨ok, -, hs⟩ := Option.bind_eq_some_iff.1 hs
      split_ifs at hs
      · cases hs; exact h
      · split at hs
        · cases hs; exact h
        · cases hs; exact ⟨hu R P rfl, h.2⟩
  | update t =>
    obtain ⟨-, ⟨e1, -, e3⟩ | ⟨e1, -, e3⟩⟩ := update_builders hs
    · unfold Bare; rw [e1, e3]; exact h
    · refine ⟨e3, ?_⟩
      rw [e1]
      intro bl hbl e he
      unfold InProgress.extendBuilders at hbl
      obtain ⟨q, hq, rfl⟩ := List.mem_map.1 hbl
      have hq1 : q.1 ∈ s.builders := List.fst_mem_of_mem_zipIdx hq
      split at he
      · rcases List.mem_append.1 he with he | he
        · exact h.2 _ hq1 e he
        · rw [List.mem_singleton.1 he]; exact h.1
      · exact h.2 _ hq1 e he
  | finish =>
    simp only [InProgress.step, Option.some.injEq, Prod.mk.injEq] at hs
    obtain ⟨-, rfl⟩ := hs
    exact ⟨rfl, h.2⟩

theorem bare_run {B : Type} {coats : B → Nat} : ∀ (ops : List (InProgress.Op B)) {bs : List Bool} {s s' : InProgress.State B}, Bare s →
    (∀ R P, InProgress.Op.enqueue R P ∈ ops → P = []) → InProgress.run coats s ops = some (bs, s') → Bare s' := by
  intro ops
  induction ops with
  | nil =>
    intro bs s s' h _ hr
    simp only [InProgress.run, Option.some.injEq, Prod.mk.injEq] at hr
    obtain ⟨-, rfl⟩ := hr
    exact h
  | cons op ops ih =>
    intro bs s s' h hu hr
    simp only [InProgress.run, Option.bind_eq_bind, Option.bind_eq_some_iff, Option.some.injEq, Prod.mk.injEq, Prod.exists] at hr
    obtain ⟨b1, s1, h1, bs2, s2, h2, -, rfl⟩ := hr
    exact ih (bare_step h (fun R P e => hu R P (e ▸ List.mem_cons_self ..)) h1) (fun R P hm => hu R P (List.mem_cons_of_mem _ hm)) h2

/-- Calls without predictions of which one has inputs show no prediction and begin with a real input. -/
theorem shows_bare {b : ShapeBuilder.Builder Brushes.InputModel σ E V X} : ∀ (cs : List InputModeler.Call), (∀ c ∈ cs, c.pred = []) → reals cs ≠ [] →
    Shows p b cs [] ∧ BeginsReal cs := by
  intro cs hp hr
  constructor
  · induction cs using List.reverseRecOn with
    | nil => exact absurd rfl hr
    | append_singleton cs c ih =>
      by_cases hc : idle c = true
      · have hr' : reals cs ≠ [] := by
          intro e
          apply hr
          unfold idle at hc
          simp only [Bool.and_eq_true, List.isEmpty_iff] at hc
          unfold reals at e ⊢
          rw [List.flatMap_append, e]
          simp [hc.1]
        obtain ⟨before, k, later, rfl, hk, hl, -⟩ := ih (fun c hc => hp c (List.mem_append_left _ hc)) hr'
        refine ⟨before, k, later ++ [c], by simp, hk, by simp [List.all_append, hl, hc], Or.inr ⟨by simp, rfl, Or.inl (hp k (by simp))⟩⟩
      · exact ⟨cs, c, [], rfl, by simpa using hc, rfl, Or.inl ⟨rfl, (hp c (by simp)).symm⟩⟩
  · intro c hc h
    have h1 := List.find?_some hc
    unfold idle at h1
    rw [h, hp c (List.mem_of_find?_eq_some hc)] at h1
    simp at h1

theorem unpredicted_calls {b : ShapeBuilder.Builder Brushes.InputModel σ E V X} {ops : List (InProgress.Op (Brushes.Brush Col))} {bs : List Bool}
    {s : InProgress.State (Brushes.Brush Col)} (hok : ∀ op ∈ ops, InProgress.Spec.OpOk op) (hu : Unpredicted ops)
    (hrun : InProgress.run coats {} ops = some (bs, s)) (hin : InProgress.getInputs s ≠ [])
    {brush : Brushes.Brush Col} (hbr : s.brush = some brush) {i : Nat} {coat : Brushes.Coat} (hcoat : brush.family.coats[i]? = some coat)
    {bl : InProgress.Builder (Brushes.Brush Col)} (hbl : s.builders[i]? = some bl) :
    InProgress.predictedInputCount s = 0 ∧ Shows p b (bl.log.map callOf) [] ∧ BeginsReal (bl.log.map callOf) := by
  have hpc : InProgress.predictedInputCount s = 0 := by
    obtain ⟨s1, e1, -, -, e4, -⟩ := InProgress.C05_inputs_real_then_prediction (coats := coats) hok
    rw [hrun] at e1
    cases e1
    rw [e4, spec_unpredicted ops {} rfl rfl hu]
    rfl
  refine ⟨hpc, ?_⟩
  have hi : i < InProgress.coatCount coats s := by
    unfold InProgress.coatCount coats
    rw [hbr]
    exact (List.getElem?_eq_some_iff.1 hcoat).1
  obtain ⟨bl', e, -, hr⟩ := InProgress.C08_geometry_has_the_real_inputs hok hrun i hi
  rw [hbl] at e
  cases e
  rw [List.take_of_length_le (by unfold InProgress.predictedInputCount InProgress.inputCount at hpc; unfold InProgress.getInputs; omega)] at hr
  have hbare : Bare s := bare_run ops ⟨rfl, fun _ h => by cases h⟩ hu hrun
  refine shows_bare _ ?_ ?_
  · intro c hc
    obtain ⟨e, he, rfl⟩ := List.mem_map.1 hc
    exact hbare.2 bl (List.mem_of_getElem? hbl) e he
  · rw [reals_log]
    intro e
    rw [e, List.map_nil] at hr
    exact hin (List.map_eq_nil_iff.1 hr.symm)

/-- **C82.** If the stroke was drawn without predictions: `Finish`ed or not, and whenever it was updated, the shape that a `Stroke` builds from
`GetInputs` is what the `InProgressStroke` shows. -/
theorem C82_unpredicted_partial {core : V → C} (he : StrokeGeom.Spec.Respects core p.env)
    (hsh : ∀ e w, StrokeGeom.Spec.OkTip core (p.shapes e w)) (ho : StrokeGeom.Spec.IsOrder p.order) (hsm : EmptyIsSmall p)
    {ops : List (InProgress.Op (Brushes.Brush Col))} {bs : List Bool} {s : InProgress.State (Brushes.Brush Col)}
    (hok : ∀ op ∈ ops, InProgress.Spec.OpOk op) (hu : Unpredicted ops) (hrun : InProgress.run coats {} ops = some (bs, s))
    (hin : InProgress.getInputs s ≠ [])
    {brush : Brushes.Brush Col} (hbr : s.brush = some brush) {i : Nat} {coat : Brushes.Coat} (hcoat : brush.family.coats[i]? = some coat)
    {tip : Tip.BrushTip} (ht : coat.tips = [tip]) (hv : Steady tip) {bl : InProgress.Builder (Brushes.Brush Col)} (hbl : s.builders[i]? = some bl)
    {old old' b0 x x' : ShapeBuilder.Builder Brushes.InputModel σ E V X} (h0 : begin p old brush i = some b0)
    (hn : Continuous tip brush.size → NeverSettled p b0 (bl.log.map callOf))
    (h : wet p old brush i bl.log = some x) (h' : dry p old' brush i (InProgress.getInputs s) = some x')
    (hn' : Continuous tip brush.size → x'.input.stableCount < x'.input.modeled.length) (hne : x.input.modeled ≠ []) (hta : TimesAscend x.input) :
    drawn core x' = drawn core x := by
  obtain ⟨hpc, hsb⟩ := unpredicted_calls (p := p) (b := b0) hok hu hrun hin hbr hcoat hbl
  exact C82_copied_partial he hsh ho hsm hok hrun hpc hbr hcoat ht hv hbl h0 hsb.2 hn hsb.1 h h' hn' hne hta

/-! ### Time alone -/

/-- Updates when nothing is queued only give the shape builders calls without inputs. -/
theorem updates_log {B : Type} {coats : B → Nat} : ∀ (ts : List F32) {bs : List Bool} {s s' : InProgress.State B}, s.queuedReal = [] → s.queuedPred = [] →
    InProgress.run coats s (ts.map .update) = some (bs, s') → s'.brush = s.brush ∧ ∀ (i : Nat) (bl : InProgress.Builder B), s.builders[i]? = some bl →
      ∃ later, later.all (fun e : InProgress.Extend => e.real.isEmpty && e.pred.isEmpty) = true ∧
        s'.builders[i]? = some { bl with log := bl.log ++ later } ∧ ∀ e ∈ later, e.time ∈ ts := by
  intro ts
  induction ts with
  | nil =>
    intro bs s s' _ _ hr
    simp only [List.map_nil, InProgress.run, Option.some.injEq, Prod.mk.injEq] at hr
    obtain ⟨-, rfl⟩ := hr
    exact ⟨rfl, fun i bl h => ⟨[], rfl, by rw [List.append_nil]; exact h, by simp⟩⟩
  | cons t ts ih =>
    intro bs s s' hq hq' hr
    simp only [List.map_cons, InProgress.run, Option.bind_eq_bind, Option.bind_eq_some_iff, Option.some.injEq, Prod.mk.injEq, Prod.exists] at hr
    obtain ⟨b1, s1, h1, bs2, s2, h2, -, rfl⟩ := hr
    obtain ⟨e0, ⟨e1, e2, e3⟩ | ⟨e1, e2, e3⟩⟩ := update_builders h1
    · obtain ⟨f0, f1⟩ := ih (e2.trans hq) (e3.trans hq') h2
      refine ⟨f0.trans e0, fun i bl hbl => ?_⟩
      obtain ⟨later, g1, g2, g3⟩ := f1 i bl (by rw [e1]; exact hbl)
      exact ⟨later, g1, g2, fun e he => List.mem_cons_of_mem _ (g3 e he)⟩
    · obtain ⟨f0, f1⟩ := ih e2 e3 h2
      refine ⟨f0.trans e0, ?_⟩
      intro i bl hbl
      rw [hq, hq'] at e1
      by_cases hi : i < InProgress.coatCount coats s
      · obtain ⟨later, g1, g2, g3⟩ := f1 i { bl with log := bl.log ++ [⟨[], [], t⟩] } (by
          rw [e1]; simp [InProgress.extendBuilders, hbl, hi])
        exact ⟨⟨[], [], t⟩ :: later, by simpa using g1, by rw [g2, List.append_assoc]; rfl, by
          intro e he
          rcases List.mem_cons.1 he with rfl | he
          · exact List.mem_cons_self ..
          · exact List.mem_cons_of_mem _ (g3 e he)⟩
      · obtain ⟨later, g1, g2, g3⟩ := f1 i bl (by rw [e1]; simp [InProgress.extendBuilders, hbl, hi])
        exact ⟨later, g1, g2, fun e he => List.mem_cons_of_mem _ (g3 e he)⟩

/-- **C82.** Once nothing is queued and no prediction is shown, time alone changes nothing: after any further calls of `UpdateShape`, accepted or not,
a coat with a steady tip shows what it showed. -/
theorem C82_stays_partial {core : V → C} (he : StrokeGeom.Spec.Respects core p.env)
    (hsh : ∀ e w, StrokeGeom.Spec.OkTip core (p.shapes e w)) (ho : StrokeGeom.Spec.IsOrder p.order) (hsm : EmptyIsSmall p)
    {unfinished : InProgress.Builder (Brushes.Brush Col) → Bool} {s s' : InProgress.State (Brushes.Brush Col)}
    (hq : InProgress.needsUpdate coats unfinished s = false) {ts : List F32} {bs : List Bool}
    (hrun : InProgress.run coats s (ts.map .update) = some (bs, s'))
    {brush : Brushes.Brush Col} {i : Nat} {coat : Brushes.Coat} (hcoat : brush.family.coats[i]? = some coat)
    {tip : Tip.BrushTip} (ht : coat.tips = [tip]) (hv : Steady tip)
    {bl bl' : InProgress.Builder (Brushes.Brush Col)} (hbl : s.builders[i]? = some bl) (hbl' : s'.builders[i]? = some bl')
    {old b0 x y : ShapeBuilder.Builder Brushes.InputModel σ E V X} (h0 : begin p old brush i = some b0)
    (hb : BeginsReal (bl.log.map callOf)) (hn : Continuous tip brush.size → NeverSettled p b0 (bl.log.map callOf))
    (hc : Shows p b0 (bl.log.map callOf) [])
    (h : wet p old brush i bl.log = some x) (h' : wet p old brush i bl'.log = some y)
    (hne : x.input.modeled ≠ []) (hta : TimesAscend x.input) :
    s'.brush = s.brush ∧ drawn core y = drawn core x := by
  have hqq : s.queuedReal = [] ∧ s.queuedPred = [] := by
    unfold InProgress.needsUpdate at hq
    split_ifs at hq with hc
    simpa using hc
  obtain ⟨g0, g⟩ := updates_log ts hqq.1 hqq.2 hrun
  refine ⟨g0, ?_⟩
  obtain ⟨later, g1, g2, -⟩ := g i bl hbl
  rw [hbl'] at g2
  cases g2
  unfold wet at h h'
  rw [h0] at h h'
  unfold begin at h0
  rw [hcoat] at h0
  dsimp only [Option.bind_some] at h h'
  rw [List.map_append, ShapeBuilder.run_append, h] at h'
  refine ShapeBuilder.C81_dry_partial he hsh ho hsm ht hv h0 (cs := bl.log.map callOf) (later := later.map callOf) ?_ hb hn hc h h' hne hta
  rw [List.all_map]
  exact g1

/-! ### A concrete stroke -/

namespace Example

open InputModeler StrokeGeom.ExtruderExample

abbrev B := ShapeBuilder.Builder Brushes.InputModel Nat Nat (Nat × Nat) Unit

def echo : Library Brushes.InputModel Nat := ⟨fun _ _ _ => 0, ShapeBuilder.Example.echo.update⟩

def parts : ShapeBuilder.Parts Brushes.InputModel Nat Nat (Nat × Nat) Unit where
  hypot := toyHypot
  lib := echo
  libm := Tip.sampleLibm
  tabulate := fun _ => []
  fuel := 20
  order := fun l => l
  debug := true
  env := env0
  shapes := fun _ _ => ShapeBuilder.Example.shape

/-- A brush with two coats: a line and particles. -/
def brush : Brushes.Brush Unit :=
  ⟨⟨[ShapeBuilder.Example.coat, ShapeBuilder.Example.dotsCoat], none, .springV2⟩, (), ofInt 1, ofInt 1⟩

def fresh : B := ⟨{ inputModel := .springV1, library := 0 }, none, StrokeGeom.Extruder.start env0 save0, zero, false, []⟩

/-- A stroke of four inputs without predictions after another one, with an error and updates without inputs; it is finished at the end. -/
def ops : List (InProgress.Op (Brushes.Brush Unit)) :=
  [.start brush, .enqueue [at' 3 0] [], .update zero, .start brush, .update zero, .enqueue [at' 0 0] [], .enqueue [at' 12 1] [], .update (ofInt 1),
    .update zero, .enqueue [at' 24 2] [], .update (ofInt 2), .enqueue [at' 36 3] [], .finish, .update (ofInt 3)]

/-- The same stroke with a prediction and in another order. -/
def ops' : List (InProgress.Op (Brushes.Brush Unit)) :=
  [.start brush, .enqueue [at' 0 0, at' 12 1, at' 24 2] [at' 99 3], .update (ofInt 2), .enqueue [at' 36 3] [], .update (ofInt 4)]

def stateAfter (ops : List (InProgress.Op (Brushes.Brush Unit))) : InProgress.State (Brushes.Brush Unit) :=
  ((InProgress.run coats {} ops).map Prod.snd).getD {}

def logOf (ops : List (InProgress.Op (Brushes.Brush Unit))) (i : Nat) : List InProgress.Extend :=
  ((stateAfter ops).builders[i]?.map InProgress.Builder.log).getD []

/-- What is asked of the shape builder of a coat. -/
def fine (i : Nat) (extrusions : List (Option Nat)) (ops : List (InProgress.Op (Brushes.Brush Unit))) : Bool :=
  (begin parts fresh brush i).any (fun b0 => ((logOf ops i).map callOf).inits.all fun done => (b0.run parts done).all fun x =>
      i = 1 || x.input.modeled.isEmpty || decide (x.input.stableCount < x.input.modeled.length)) &&
    (wet parts fresh brush i (logOf ops i)).any fun x => decide ((∀ l ∈ (x.input.modeled.take x.input.stableCount).getLast?,
      ∀ i ∈ x.input.modeled.take x.input.stableCount, i.traveledDistance.isFinite = true ∧ i.elapsedTime.seconds.isFinite = true ∧
        le i.elapsedTime.seconds l.elapsedTime.seconds = true) ∧ x.input.modeled ≠ [] ∧ x.extruder.extrusions = extrusions)

theorem fine_facts {i : Nat} {ext : List (Option Nat)} {ops : List (InProgress.Op (Brushes.Brush Unit))} (h : fine i ext ops = true) :
    ∃ b0 x, begin parts fresh brush i = some b0 ∧ (i ≠ 1 → NeverSettled parts b0 ((logOf ops i).map callOf)) ∧
      wet parts fresh brush i (logOf ops i) = some x ∧ TimesAscend x.input ∧ x.input.modeled ≠ [] ∧ x.extruder.extrusions = ext := by
  unfold fine at h
  rw [Bool.and_eq_true] at h
  obtain ⟨b0, h0, hn⟩ := ShapeBuilder.Example.exists_of h.1
  obtain ⟨x, hx, hd⟩ := ShapeBuilder.Example.exists_of h.2
  obtain ⟨t1, t2, t3⟩ := of_decide_eq_true hd
  refine ⟨b0, x, h0, ?_, hx, t1, t2, t3⟩
  intro hi done hp y hy hm
  have := List.all_eq_true.1 hn done ((List.mem_inits _ _).2 hp)
  rw [hy] at this
  simpa [hm, hi] using this

theorem state_facts {ops : List (InProgress.Op (Brushes.Brush Unit))} {i : Nat} (h : (InProgress.run coats {} ops).isSome = true)
    (hi : ((stateAfter ops).builders[i]?).isSome = true) : ∃ bs bl, InProgress.run coats {} ops = some (bs, stateAfter ops) ∧
      (stateAfter ops).builders[i]? = some bl ∧ bl.log = logOf ops i := by
  obtain ⟨⟨bs, s⟩, h⟩ := Option.isSome_iff_exists.1 h
  obtain ⟨bl, hbl⟩ := Option.isSome_iff_exists.1 hi
  refine ⟨bs, bl, ?_, hbl, ?_⟩
  · unfold stateAfter; rw [h]; rfl
  · unfold logOf; rw [hbl]; rfl

theorem emptyIsSmall : EmptyIsSmall parts := fun _ _ _ _ hw hh => decide_eq_true ⟨hw, hh⟩

theorem respects : StrokeGeom.Spec.Respects (fun v : Nat × Nat => v.1) parts.env := ShapeBuilder.Example.respects0

theorem okShape : ∀ e w, StrokeGeom.Spec.OkTip (fun v : Nat × Nat => v.1) (parts.shapes e w) := fun _ _ => ShapeBuilder.Example.okShape

instance (x y : Batch.Input) : Decidable (Batch.Spec.SameFormat x y) := by
  unfold Batch.Spec.SameFormat
  infer_instance

def okOp : InProgress.Op (Brushes.Brush Unit) → Bool
  | .enqueue R P => R.all (fun x => R.all fun y => decide (Batch.Spec.SameFormat x y)) && P.all (fun x => P.all fun y => decide (Batch.Spec.SameFormat x y))
  | _ => true

theorem ok_of {ops : List (InProgress.Op (Brushes.Brush Unit))} (h : ops.all okOp = true) : ∀ op ∈ ops, InProgress.Spec.OpOk op := by
  intro op hop
  have := List.all_eq_true.1 h op hop
  cases op with
  | enqueue R P =>
    unfold okOp at this
    rw [Bool.and_eq_true] at this
    exact ⟨fun x hx y hy => of_decide_eq_true (List.all_eq_true.1 (List.all_eq_true.1 this.1 x hx) y hy),
      fun x hx y hy => of_decide_eq_true (List.all_eq_true.1 (List.all_eq_true.1 this.2 x hx) y hy)⟩
  | _ => trivial

theorem unpredicted : Unpredicted ops := by
  intro R P h
  simp only [ops, List.mem_cons, List.not_mem_nil, or_false, reduceCtorEq, false_or, InProgress.Op.enqueue.injEq] at h
  rcases h with h | h | h | h | h <;> exact h.2

deriving instance DecidableEq for Brushes.Brush

deriving instance DecidableEq for Call

theorem brushAfter : (stateAfter ops).brush = some brush := by decide +kernel

theorem brushAfter' : (stateAfter ops').brush = some brush := by decide +kernel

def dryFine (x : B) : Bool := decide (x.input.stableCount < x.input.modeled.length)

set_option maxHeartbeats 1000000 in
/-- The hypotheses of `C82_unpredicted_partial` are met by the line of a stroke with two coats, which is finished after errors, updates without inputs and
another stroke; the builder of the `Stroke` was used for it before. -/
example : ∃ bs bl b0 x x', InProgress.run coats {} ops = some (bs, stateAfter ops) ∧
    bs = [true, true, true, true, true, true, true, true, false, true, true, true, true, true] ∧
    (stateAfter ops).builders[0]? = some bl ∧ begin parts fresh brush 0 = some b0 ∧ wet parts fresh brush 0 bl.log = some x ∧
    dry parts x brush 0 (InProgress.getInputs (stateAfter ops)) = some x' ∧ x.extruder.extrusions = [some 0, some 12, some 24, some 36, none] ∧
    drawn (fun v : Nat × Nat => v.1) x' = drawn (fun v : Nat × Nat => v.1) x := by
  obtain ⟨b0, x, h0, hn, hx, hta, hne, hext⟩ := fine_facts (i := 0) (ops := ops) (ext := [some 0, some 12, some 24, some 36, none]) (by decide +kernel)
  obtain ⟨bs, bl, hrun, hbl, hlog⟩ := state_facts (i := 0) (ops := ops) (by decide +kernel) (by decide +kernel)
  have hbs : (InProgress.run coats {} ops).map Prod.fst = some [true, true, true, true, true, true, true, true, false, true, true, true, true, true] := by
    decide +kernel
  rw [hrun] at hbs
  have hd : ((wet parts fresh brush 0 (logOf ops 0)).any fun x =>
    (dry parts x brush 0 (InProgress.getInputs (stateAfter ops))).any dryFine) = true := by decide +kernel
  rw [hx] at hd
  obtain ⟨x', hx', hd'⟩ := ShapeBuilder.Example.exists_of (o := dry parts x brush 0 (InProgress.getInputs (stateAfter ops))) hd
  refine ⟨bs, bl, b0, x, x', hrun, by injection hbs, hbl, h0, by rw [hlog]; exact hx, hx', hext, ?_⟩
  exact C82_unpredicted_partial respects okShape (fun _ => List.Perm.refl _) emptyIsSmall (ok_of (by decide +kernel)) unpredicted hrun
    (by decide +kernel) (brush := brush) brushAfter (coat := ShapeBuilder.Example.coat) rfl rfl ShapeBuilder.Example.steady hbl h0
    (fun _ => by rw [hlog]; exact hn (by decide)) (by rw [hlog]; exact hx) hx' (fun _ => of_decide_eq_true hd') hne hta

set_option maxHeartbeats 1000000 in
/-- The hypotheses of `C82_same_partial`, `C82_copied_partial` and `C82_stays_partial` are met by the particles of the same stroke drawn with a prediction
that is replaced: four of them, as without the prediction, in the `Stroke` and after two more updates of which the first is refused. -/
example : ∃ bs bs' bs2 bl bl' bl2 s2 x x' x2 y, InProgress.run coats {} ops = some (bs, stateAfter ops) ∧
    InProgress.run coats {} ops' = some (bs', stateAfter ops') ∧
    InProgress.run coats (stateAfter ops') ([zero, ofInt 5].map .update) = some (bs2, s2) ∧ bs2 = [false, true] ∧
    (stateAfter ops).builders[1]? = some bl ∧ (stateAfter ops').builders[1]? = some bl' ∧ s2.builders[1]? = some bl2 ∧
    wet parts fresh brush 1 bl.log = some x ∧ wet parts fresh brush 1 bl'.log = some x' ∧ wet parts fresh brush 1 bl2.log = some x2 ∧
    dry parts x brush 1 (InProgress.getInputs (stateAfter ops')) = some y ∧
    x.extruder.extrusions = [some 0, none, some 12, none, some 24, none, some 36, none] ∧
    drawn (fun v : Nat × Nat => v.1) x' = drawn (fun v : Nat × Nat => v.1) x ∧
    drawn (fun v : Nat × Nat => v.1) y = drawn (fun v : Nat × Nat => v.1) x' ∧
    drawn (fun v : Nat × Nat => v.1) x2 = drawn (fun v : Nat × Nat => v.1) x' := by
  obtain ⟨b0, x, h0, -, hx, hta, hne, hext⟩ := fine_facts (i := 1) (ops := ops)
    (ext := [some 0, none, some 12, none, some 24, none, some 36, none]) (by decide +kernel)
  obtain ⟨b0', x', h0', -, hx', hta', hne', -⟩ := fine_facts (i := 1) (ops := ops')
    (ext := [some 0, none, some 12, none, some 24, none, some 36, none]) (by decide +kernel)
  obtain ⟨bs, bl, hrun, hbl, hlog⟩ := state_facts (i := 1) (ops := ops) (by decide +kernel) (by decide +kernel)
  obtain ⟨bs', bl', hrun', hbl', hlog'⟩ := state_facts (i := 1) (ops := ops') (by decide +kernel) (by decide +kernel)
  have hd : ((wet parts fresh brush 1 (logOf ops 1)).any fun x =>
    (dry parts x brush 1 (InProgress.getInputs (stateAfter ops'))).isSome) = true := by decide +kernel
  rw [hx] at hd
  obtain ⟨y, hy⟩ := Option.isSome_iff_exists.1 (show (dry parts x brush 1 (InProgress.getInputs (stateAfter ops'))).isSome = true from hd)
  obtain ⟨⟨bs2, s2⟩, hs2, hb2⟩ := ShapeBuilder.Example.exists_of (o := InProgress.run coats (stateAfter ops') ([zero, ofInt 5].map .update))
    (q := fun r => decide (r.1 = [false, true]) && (r.2.builders[1]?).any fun bl => (wet parts fresh brush 1 bl.log).isSome) (by decide +kernel)
  rw [Bool.and_eq_true] at hb2
  obtain ⟨bl2, hbl2, h2⟩ := ShapeBuilder.Example.exists_of hb2.2
  obtain ⟨x2, hx2⟩ := Option.isSome_iff_exists.1 h2
  have hcont : ¬ Continuous ShapeBuilder.Example.dotsTip brush.size := by
    unfold Continuous
    decide +kernel
  have hok : ∀ op ∈ ops, InProgress.Spec.OpOk op := ok_of (by decide +kernel)
  have hok' : ∀ op ∈ ops', InProgress.Spec.OpOk op := ok_of (by decide +kernel)
  obtain ⟨-, hsh, hbr⟩ := unpredicted_calls (p := parts) (b := b0) hok unpredicted hrun (by decide +kernel) (brush := brush) brushAfter
    (coat := ShapeBuilder.Example.dotsCoat) (i := 1) rfl hbl
  have el : bl'.log.map callOf = [⟨[at' 0 0, at' 12 1, at' 24 2], [at' 99 3], ⟨ofInt 2⟩⟩, ⟨[at' 36 3], [], ⟨ofInt 4⟩⟩] := by
    rw [hlog']; decide +kernel
  have hsh' : Shows parts b0' (bl'.log.map callOf) [] := by
    rw [el]
    exact ⟨[_], _, [], rfl, rfl, rfl, Or.inl ⟨rfl, rfl⟩⟩
  have hbr' : BeginsReal (bl'.log.map callOf) := by
    rw [el]
    intro c hc
    have : [(⟨[at' 0 0, at' 12 1, at' 24 2], [at' 99 3], ⟨ofInt 2⟩⟩ : Call), ⟨[at' 36 3], [], ⟨ofInt 4⟩⟩].find? (fun c => !idle c) =
      some ⟨[at' 0 0, at' 12 1, at' 24 2], [at' 99 3], ⟨ofInt 2⟩⟩ := rfl
    rw [this] at hc
    cases hc
    simp
  rw [← hlog] at hx
  rw [← hlog'] at hx'
  refine ⟨bs, bs', bs2, bl, bl', bl2, s2, x, x', x2, y, hrun, hrun', hs2, of_decide_eq_true hb2.1, hbl, hbl', hbl2, hx, hx', hx2, hy, hext, ?_, ?_, ?_⟩
  · exact C82_same_partial respects okShape (fun _ => List.Perm.refl _) emptyIsSmall hok hrun hok' hrun' (brush := brush) brushAfter brushAfter' (by decide +kernel)
      (coat := ShapeBuilder.Example.dotsCoat) rfl rfl ShapeBuilder.Example.dotsSteady hbl hbl' h0 h0' hbr hbr' (fun h => absurd h hcont)
      (fun h => absurd h hcont) hsh hsh' rfl hx hx' hne hta
  · exact C82_copied_partial respects okShape (fun _ => List.Perm.refl _) emptyIsSmall hok' hrun' (by decide +kernel) (brush := brush) brushAfter'
      (coat := ShapeBuilder.Example.dotsCoat) rfl rfl ShapeBuilder.Example.dotsSteady hbl' h0' hbr' (fun h => absurd h hcont) hsh' hx' hy
      (fun h => absurd h hcont) hne' hta'
  · exact (C82_stays_partial respects okShape (fun _ => List.Perm.refl _) emptyIsSmall (unfinished := fun _ => false) (s := stateAfter ops')
      (by decide +kernel) hs2 (brush := brush) (coat := ShapeBuilder.Example.dotsCoat) rfl rfl ShapeBuilder.Example.dotsSteady hbl' hbl2 h0' hbr'
      (fun h => absurd h hcont) hsh' hx' hx2 hne' hta').2

end Example

end Verif.StrokeShape
