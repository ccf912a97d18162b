import Verif.Lemmas.InProgressStroke

/-!
# Properties C05 - C08: `ink::InProgressStroke`
-/

set_option autoImplicit false

namespace Verif.InProgress

open Verif Verif.Batch Verif.InProgress.Spec

variable {B : Type} {coats : B → Nat}

theorem run_rel : ∀ {ops : List (Op B)} {s : State B} {σ : Spec.State B}, Rel coats s σ →
    (∀ op ∈ ops, OpOk op) →
    ∃ s', run coats s ops = some ((Spec.run σ ops).1, s') ∧ Rel coats s' (Spec.run σ ops).2 := by
  intro ops
  induction ops with
  | nil => intro s σ h _; exact ⟨s, rfl, h⟩
  | cons op ops ih =>
    intro s σ h hok
    obtain ⟨s1, e1, r1, _⟩ := step_rel h (hok op (by simp))
    obtain ⟨s2, e2, r2⟩ := ih r1 (fun o ho => hok o (by simp [ho]))
    exact ⟨s2, by simp [run, e1, e2, Spec.run], r2⟩

theorem reach_rel {ops : List (Op B)} {bs : List Bool} {s : State B} (hok : ∀ op ∈ ops, OpOk op)
    (h : run coats {} ops = some (bs, s)) :
    bs = (Spec.run {} ops).1 ∧ Rel coats s (Spec.run {} ops).2 := by
  obtain ⟨s', e, r⟩ := run_rel (rel_init coats) hok
  rw [h] at e; cases e
  exact ⟨rfl, r⟩

/-- **C05.** After any history of calls, `GetInputs` is all real inputs consumed so far followed by
the most recently consumed prediction (as the specification defines them), and the three counts are
the lengths of these parts. No call ever fails a check. -/
theorem C05_inputs_real_then_prediction {ops : List (Op B)} (hok : ∀ op ∈ ops, OpOk op) :
    ∃ s, run coats {} ops = some ((Spec.run {} ops).1, s) ∧
      (getInputs s).map canon = ((Spec.run {} ops).2.real ++ (Spec.run {} ops).2.pred).map canon ∧
      realInputCount s = (Spec.run {} ops).2.real.length ∧
      predictedInputCount s = (Spec.run {} ops).2.pred.length ∧
      inputCount s = realInputCount s + predictedInputCount s ∧
      s.finished = (Spec.run {} ops).2.finished := by
  obtain ⟨s, e, r⟩ := run_rel (rel_init coats) hok
  have hlen := r.processed.length
  rw [List.length_append, ← r.count] at hlen
  refine ⟨s, e, r.processed, r.count, ?_, ?_, r.finished⟩
  · unfold predictedInputCount inputCount realInputCount; omega
  · unfold predictedInputCount inputCount realInputCount; omega

/-- **C06.** In every reachable state, `EnqueueInputs` succeeds exactly when a stroke is started and
not finished and the new inputs continue the real inputs given so far; otherwise it returns an error
and the object is unchanged. In particular no internal `Append` fails. -/
theorem C06_enqueue_accepts_iff {ops : List (Op B)} {bs : List Bool} {s : State B}
    (hok : ∀ op ∈ ops, OpOk op) (h : run coats {} ops = some (bs, s)) {R P : List Input}
    (hR : Uniform R) (hP : Uniform P) :
    let σ := (Spec.run {} ops).2
    (σ.brush.isSome ∧ σ.finished = false ∧ Continues σ R P →
      ∃ s', step coats s (.enqueue R P) = some (true, s')) ∧
    (¬ (σ.brush.isSome ∧ σ.finished = false ∧ Continues σ R P) →
      step coats s (.enqueue R P) = some (false, s)) := by
  obtain ⟨_, r⟩ := reach_rel hok h
  intro σ
  obtain ⟨s', e, _, hun⟩ := step_rel (op := .enqueue R P) r ⟨hR, hP⟩
  constructor
  · intro hc
    have hs : (Spec.step σ (.enqueue R P)).1 = true := by simp only [Spec.step]; rw [if_pos hc]
    rw [hs] at e
    exact ⟨s', e⟩
  · intro hc
    have hs : (Spec.step σ (.enqueue R P)).1 = false := by simp only [Spec.step]; rw [if_neg hc]
    rw [hs] at e
    rw [e, hun hs]

/-- **C06.** For valid sequences (the contents of batches, property C03), the acceptance condition is
that all real inputs so far, the new real inputs and the new prediction form one valid sequence. -/
theorem C06_continues_iff_valid_sequence {σ : Spec.State B} {R P : List Input}
    (h0 : Batch.Spec.ValidSeq (σ.real ++ σ.waitingReal)) (hR : Batch.Spec.ValidSeq R)
    (hP : Batch.Spec.ValidSeq P) :
    Continues σ R P ↔ Batch.Spec.ValidSeq (σ.real ++ σ.waitingReal ++ (R ++ P)) := by
  unfold Continues JoinOk Batch.Spec.ValidSeq at *
  rw [List.isChain_append (l₁ := σ.real ++ σ.waitingReal), List.isChain_append (l₁ := R)]
  constructor
  · rintro ⟨h1, h2⟩
    refine ⟨?_, h0.2, ⟨hR.2, hP.2, h2⟩, h1⟩
    intro x hx
    rcases List.mem_append.1 hx with hx | hx
    · exact h0.1 x hx
    · rcases List.mem_append.1 hx with hx | hx
      · exact hR.1 x hx
      · exact hP.1 x hx
  · rintro ⟨_, _, ⟨_, _, h2⟩, h1⟩
    exact ⟨h1, h2⟩

/-- **C06.** In every reachable state, `UpdateShape` succeeds exactly when a stroke is started and the
time is not negative and not before the previous one; otherwise the object is unchanged. -/
theorem C06_update_accepts_iff {ops : List (Op B)} {bs : List Bool} {s : State B}
    (hok : ∀ op ∈ ops, OpOk op) (h : run coats {} ops = some (bs, s)) (t : F32) :
    let σ := (Spec.run {} ops).2
    (σ.brush.isSome ∧ ¬ F32.lt t F32.zero ∧ ¬ F32.lt t σ.time →
      ∃ s', step coats s (.update t) = some (true, s')) ∧
    (¬ (σ.brush.isSome ∧ ¬ F32.lt t F32.zero ∧ ¬ F32.lt t σ.time) →
      step coats s (.update t) = some (false, s)) := by
  obtain ⟨_, r⟩ := reach_rel hok h
  intro σ
  obtain ⟨s', e, _, hun⟩ := step_rel (op := .update t) r trivial
  constructor
  · intro hc
    have hs : (Spec.step σ (.update t)).1 = true := by simp only [Spec.step]; rw [if_pos hc]
    rw [hs] at e
    exact ⟨s', e⟩
  · intro hc
    have hs : (Spec.step σ (.update t)).1 = false := by simp only [Spec.step]; rw [if_neg hc]
    rw [hs] at e
    rw [e, hun hs]

/-- **C06.** An error leaves the object unchanged, and no call fails a check. -/
theorem C06_error_changes_nothing {ops : List (Op B)} {bs : List Bool} {s : State B}
    (hok : ∀ op ∈ ops, OpOk op) (h : run coats {} ops = some (bs, s)) {op : Op B} (hop : OpOk op) :
    ∃ b s', step coats s op = some (b, s') ∧ (b = false → s' = s) := by
  obtain ⟨_, r⟩ := reach_rel hok h
  obtain ⟨s', e, _, hun⟩ := step_rel r hop
  exact ⟨_, s', e, hun⟩

/-- Times accepted by `UpdateShape` are compared with C++ `<`, so NaN (which `Duration32` does not
exclude) passes both checks, and after it any time is accepted: the sequence 1, NaN, 0 is accepted.
-/
theorem C06_nan_time_accepted_counterexample :
    ((run (B := Unit) (fun _ => 1) {} [.start (), .update kOne, .update F32.nan,
      .update F32.zero]).map Prod.fst) = some [true, true, true, true] := by
  decide +kernel

/-! ## C07: dry strokes -/

/-- The specified update, when it is accepted. -/
theorem spec_update_ok {σ : Spec.State B} {t : F32} (h : (Spec.step σ (.update t)).1 = true) :
    (Spec.step σ (.update t)).2.real = σ.real ++ σ.waitingReal ∧
    (Spec.step σ (.update t)).2.finished = σ.finished ∧
    (Spec.step σ (.update t)).2.waitingPred = [] ∧
    ((σ.finished ∨ σ.waitingReal ≠ [] ∨ σ.waitingPred ≠ []) →
      (Spec.step σ (.update t)).2.pred = σ.waitingPred) ∧
    (¬ (σ.finished ∨ σ.waitingReal ≠ [] ∨ σ.waitingPred ≠ []) →
      (Spec.step σ (.update t)).2.pred = σ.pred) := by
  simp only [Spec.step] at h ⊢
  by_cases hc : σ.brush.isSome ∧ ¬ F32.lt t F32.zero ∧ ¬ F32.lt t σ.time
  · rw [if_pos hc]
    exact ⟨rfl, rfl, rfl, fun h => if_pos h, fun h => if_neg h⟩
  · rw [if_neg hc] at h; cases h

theorem spec_update_err {σ : Spec.State B} {t : F32} (h : (Spec.step σ (.update t)).1 = false) :
    (Spec.step σ (.update t)).2 = σ := by
  simp only [Spec.step] at h ⊢
  by_cases hc : σ.brush.isSome ∧ ¬ F32.lt t F32.zero ∧ ¬ F32.lt t σ.time
  · rw [if_pos hc] at h; cases h
  · rw [if_neg hc]

theorem update_eq {s s' : State B} {t : F32} (h : updateShape coats s t = some (true, s')) :
    s'.builders = extendBuilders (coatCount coats s) ⟨s.queuedReal, s.queuedPred, t⟩ s.builders ∧
      s'.brush = s.brush ∧ s'.queuedReal = [] ∧ s'.queuedPred = [] ∧ s'.finished = s.finished := by
  unfold updateShape at h
  by_cases h1 : s.brush.isNone = true
  · rw [if_pos h1] at h; simp at h
  rw [if_neg h1] at h
  by_cases h2 : (!validateNewElapsedTime s t) = true
  · rw [if_pos h2] at h; simp at h
  rw [if_neg h2] at h
  generalize hc : (s.finished || !s.queuedReal.isEmpty || !s.queuedPred.isEmpty) = c at h
  simp only [] at h
  split_ifs at h with h3 h4
  · simp only [] at h
    cases ha : appendBatch (s.processed.take s.realCount) s.queuedReal with
    | none => rw [ha] at h; simp at h
    | some p =>
      rw [ha] at h
      simp only [] at h
      cases hb : appendBatch p s.queuedPred with
      | none => rw [hb] at h; simp at h
      | some q =>
        rw [hb] at h
        simp only [] at h
        split_ifs at h
        simp only [Option.some.injEq, Prod.mk.injEq, true_and] at h
        subst h
        exact ⟨rfl, rfl, rfl, rfl, rfl⟩
  · cases ha : appendBatch s.processed s.queuedReal with
    | none => rw [ha] at h; simp at h
    | some p =>
      rw [ha] at h
      simp only [] at h
      cases hb : appendBatch p s.queuedPred with
      | none => rw [hb] at h; simp at h
      | some q =>
        rw [hb] at h
        simp only [] at h
        split_ifs at h
        simp only [Option.some.injEq, Prod.mk.injEq, true_and] at h
        subst h
        exact ⟨rfl, rfl, rfl, rfl, rfl⟩

/-- The inputs that the geometry of a coat is computed from: `StrokeInputModeler::ExtendStroke`
appends the real inputs of each call and replaces the predicted inputs by those of the last call. -/
def geometryInputs (b : Builder B) : List Input :=
  b.log.flatMap Extend.real ++ (b.log.getLast?.map Extend.pred).getD []

/-- An update of a stroke with nothing queued and no processed prediction. -/
theorem idle_update {s s' : State B} {t : F32} {b : Bool} (h1 : s.queuedReal = [])
    (h2 : s.queuedPred = []) (h3 : s.processed.length = s.realCount)
    (h : updateShape coats s t = some (b, s')) :
    s'.processed = s.processed ∧ s'.realCount = s.realCount ∧ s'.queuedReal = [] ∧
      s'.queuedPred = [] ∧ s'.finished = s.finished ∧ s'.brush = s.brush ∧
      s'.builders.length = s.builders.length ∧
      ∀ (i : Nat) (bl : Builder B), s.builders[i]? = some bl → ∃ bl' : Builder B, s'.builders[i]? = some bl' ∧
        bl'.started = bl.started ∧
        bl'.log.flatMap Extend.real = bl.log.flatMap Extend.real ∧
        (bl'.log = bl.log ∨ (bl'.log.getLast?.map Extend.pred).getD [] = []) := by
  have happ : ∀ l : List Input, appendBatch l [] = some l := by
    intro l; unfold appendBatch; cases l.getLast? <;> rfl
  have hself : ∀ (i : Nat) (bl : Builder B), s.builders[i]? = some bl → ∃ bl' : Builder B, s.builders[i]? = some bl' ∧
        bl'.started = bl.started ∧
        bl'.log.flatMap Extend.real = bl.log.flatMap Extend.real ∧
        (bl'.log = bl.log ∨ (bl'.log.getLast?.map Extend.pred).getD [] = []) :=
    fun i bl hb => ⟨bl, hb, rfl, rfl, Or.inl rfl⟩
  unfold updateShape at h
  by_cases hb : s.brush.isNone = true
  · rw [if_pos hb] at h
    simp only [Option.some.injEq, Prod.mk.injEq] at h
    obtain ⟨_, rfl⟩ := h
    exact ⟨rfl, rfl, h1, h2, rfl, rfl, rfl, hself⟩
  rw [if_neg hb] at h
  by_cases hv : (!validateNewElapsedTime s t) = true
  · rw [if_pos hv] at h
    simp only [Option.some.injEq, Prod.mk.injEq] at h
    obtain ⟨_, rfl⟩ := h
    exact ⟨rfl, rfl, h1, h2, rfl, rfl, rfl, hself⟩
  rw [if_neg hv] at h
  have hlt : ¬ s.processed.length < s.realCount := by omega
  have ht : s.processed.take s.realCount = s.processed := List.take_of_length_le (by omega)
  simp only [hlt, decide_false, Bool.and_false, Bool.false_eq_true, if_false, ht] at h
  have e : (if (s.finished || !s.queuedReal.isEmpty || !s.queuedPred.isEmpty) = true then
      { s with processed := s.processed } else s) = s := by split_ifs <;> rfl
  rw [e] at h
  rw [h1, h2, happ] at h
  simp only [happ, List.length_nil, Nat.add_zero] at h
  split_ifs at h
  simp only [Option.some.injEq, Prod.mk.injEq] at h
  obtain ⟨_, rfl⟩ := h
  refine ⟨rfl, rfl, rfl, rfl, rfl, rfl, by rw [extendBuilders_length], ?_⟩
  intro i bl hbl
  refine ⟨_, by simp [extendBuilders, hbl]; rfl, ?_⟩
  split_ifs
  · refine ⟨rfl, by simp, Or.inr (by simp)⟩
  · exact ⟨rfl, rfl, Or.inl rfl⟩

/-- **C07 (partial).** If a stroke needs no update and holds no predicted inputs (in particular after
one `UpdateShape` following `FinishInputs`, see `C07_no_prediction_after_finish`), then no later
sequence of `UpdateShape` calls changes its inputs, its counts or the inputs its geometry is computed
from. The documented claim does not mention the missing predictions: `C07_dry_counterexample`.
(That the geometry does not depend on the time when no time behaviors are unfinished is a property of
the builders and is not part of this model.) -/
theorem C07_dry_partial {ops : List (Op B)} {bs : List Bool} {s : State B}
    {unfinished : Builder B → Bool}
    (hok : ∀ op ∈ ops, OpOk op) (h : run coats {} ops = some (bs, s))
    (hn : needsUpdate coats unfinished s = false) (hp : predictedInputCount s = 0)
    {ts : List F32} {bs' : List Bool} {s' : State B}
    (h' : run coats s (ts.map Op.update) = some (bs', s')) :
    getInputs s' = getInputs s ∧ realInputCount s' = realInputCount s ∧
      predictedInputCount s' = 0 ∧ s'.finished = s.finished ∧
      ∀ (i : Nat) (bl : Builder B), s.builders[i]? = some bl → ∃ bl' : Builder B, s'.builders[i]? = some bl' ∧
        bl'.started = bl.started ∧
        bl'.log.flatMap Extend.real = bl.log.flatMap Extend.real := by
  obtain ⟨_, r⟩ := reach_rel hok h
  have hq : s.queuedReal = [] ∧ s.queuedPred = [] := by
    unfold needsUpdate at hn
    split_ifs at hn with hc
    simpa using hc
  have hlen : s.processed.length = s.realCount := by
    have h1 := r.processed.length
    rw [List.length_append, ← r.count] at h1
    unfold predictedInputCount inputCount realInputCount at hp
    omega
  clear hn hok h r hp
  induction ts generalizing s bs' with
  | nil =>
    simp only [List.map_nil, run, Option.some.injEq, Prod.mk.injEq] at h'
    obtain ⟨_, rfl⟩ := h'
    refine ⟨rfl, rfl, ?_, rfl, fun i bl hbl => ⟨bl, hbl, rfl, rfl⟩⟩
    unfold predictedInputCount inputCount realInputCount; omega
  | cons t ts ih =>
    simp only [List.map_cons, run, step, Option.bind_eq_bind, Option.bind_eq_some_iff,
      Option.some.injEq, Prod.mk.injEq, Prod.exists] at h'
    obtain ⟨b1, s1, h1, bs2, s2, h2, _, rfl⟩ := h'
    obtain ⟨e1, e2, e3, e4, e5, _, _, e8⟩ := idle_update hq.1 hq.2 hlen h1
    obtain ⟨f1, f2, f3, f4, f5⟩ := ih h2 ⟨e3, e4⟩ (by rw [e1, e2]; exact hlen)
    refine ⟨?_, ?_, f3, f4.trans e5, ?_⟩
    · rw [f1]; exact e1
    · rw [f2]; exact e2
    · intro i bl hbl
      obtain ⟨bl1, g1, g2, g3, _⟩ := e8 i bl hbl
      obtain ⟨bl2, k1, k2, k3⟩ := f5 i bl1 g1
      exact ⟨bl2, k1, k2.trans g2, k3.trans g3⟩

/-- Nothing predicted is waiting once inputs are finished. -/
theorem spec_finished_no_pred : ∀ {ops : List (Op B)} {σ : Spec.State B},
    (σ.finished = true → σ.waitingPred = []) →
    ((Spec.run σ ops).2.finished = true → (Spec.run σ ops).2.waitingPred = []) := by
  intro ops
  induction ops with
  | nil => intro σ h; exact h
  | cons op ops ih =>
    intro σ h
    refine ih ?_
    cases op with
    | clear => intro _; rfl
    | start b => intro _; rfl
    | finish => intro _; rfl
    | enqueue R P =>
      simp only [Spec.step]
      split_ifs with hc
      · intro hf; simp only [hc.2.1] at hf; cases hf
      · exact h
    | update t =>
      cases hs : (Spec.step σ (.update t)).1 with
      | true => intro _; exact (spec_update_ok hs).2.2.1
      | false => rw [spec_update_err hs]; exact h

/-- **C07.** In the documented work flow (call `UpdateShape` after `FinishInputs`), the stroke holds
no predicted inputs and nothing is queued afterwards, so `C07_dry_partial` applies. -/
theorem C07_no_prediction_after_finish {ops : List (Op B)} {bs : List Bool} {s s' : State B}
    {t : F32} (hok : ∀ op ∈ ops, OpOk op) (h : run coats {} ops = some (bs, s))
    (hf : s.finished = true) (h' : step coats s (.update t) = some (true, s')) :
    predictedInputCount s' = 0 ∧ s'.queuedReal = [] ∧ s'.queuedPred = [] := by
  obtain ⟨_, r⟩ := reach_rel hok h
  obtain ⟨s1, e, r1, _⟩ := step_rel (op := .update t) r trivial
  rw [h'] at e
  simp only [Option.some.injEq, Prod.mk.injEq] at e
  obtain ⟨e1, rfl⟩ := e
  have hw := spec_finished_no_pred (ops := ops) (σ := {}) (fun _ => rfl)
  generalize hσ : (Spec.run {} ops).2 = σ at *
  have hfin : σ.finished = true := by rw [← r.finished]; exact hf
  have hpred : (Spec.step σ (.update t)).2.pred = [] := by
    rw [(spec_update_ok e1.symm).2.2.2.1 (Or.inl hfin)]
    exact hw hfin
  have hlen := r1.processed.length
  rw [hpred, List.append_nil, ← r1.count] at hlen
  refine ⟨?_, (update_eq h').2.2.1, (update_eq h').2.2.2.1⟩
  unfold predictedInputCount inputCount realInputCount
  omega

def exR : Input := {}
def exP : Input := { x := kOne, time := kOne }

/-- The documented claim, "once `InputsAreFinished()` returns true and `NeedsUpdate()` returns false,
the stroke will not change any further", is false: with a prediction already consumed,
`FinishInputs` alone makes both conditions true, and the next `UpdateShape` removes the predicted
inputs from `GetInputs()`. -/
theorem C07_dry_counterexample :
    let pre : List (Op Unit) := [.start (), .enqueue [exR] [exP], .update kOne, .finish]
    (run (fun _ => 1) {} pre).map (fun r =>
      (r.1, r.2.finished, needsUpdate (fun _ => 1) (fun _ => false) r.2, getInputs r.2)) =
      some ([true, true, true, true], true, false, [exR, exP]) ∧
    (run (fun _ => 1) {} (pre ++ [.update kOne])).map (fun r => getInputs r.2) =
      some [exR] := by
  decide +kernel

/-! ## C08: geometry and inputs -/

/-- What the builders know, in terms of the specification. -/
def BuildersOk (coats : B → Nat) (s : State B) (σ : Spec.State B) : Prop :=
  ∀ i < coatCount coats s, ∃ bl : Builder B, s.builders[i]? = some bl ∧
    bl.started = s.brush.map (fun b => (b, i)) ∧
    LEqv (bl.log.flatMap Extend.real) σ.real

theorem step_builders {s s' : State B} {σ : Spec.State B} {op : Op B} {b : Bool}
    (h : Rel coats s σ) (hop : OpOk op) (hb : BuildersOk coats s σ)
    (hs : step coats s op = some (b, s')) : BuildersOk coats s' (Spec.step σ op).2 := by
  obtain ⟨s1, e, r1, hun⟩ := step_rel h hop
  rw [hs] at e
  simp only [Option.some.injEq, Prod.mk.injEq] at e
  obtain ⟨eb, rfl⟩ := e
  cases op with
  | clear =>
    simp only [step, Option.some.injEq, Prod.mk.injEq] at hs
    obtain ⟨_, rfl⟩ := hs
    intro i hi
    exact absurd hi (Nat.not_lt_zero i)
  | start b' =>
    simp only [step, Option.some.injEq, Prod.mk.injEq] at hs
    obtain ⟨_, rfl⟩ := hs
    intro i hi
    have hcc : coatCount coats (start coats s b') = coats b' := by
      unfold start clear coatCount; simp only []; split_ifs <;> rfl
    rw [hcc] at hi
    have hbr : (start coats s b').brush = some b' := by
      unfold start clear; simp only []; split_ifs <;> rfl
    have hbl : ∃ bs : List (Builder B), (start coats s b').builders = startBuilders b' (coats b') bs ∧
        coats b' ≤ bs.length := by
      unfold start clear; simp only []
      split_ifs with hc
      · exact ⟨_, rfl, by simp only [List.length_append, List.length_replicate]; omega⟩
      · exact ⟨_, rfl, Nat.le_of_not_lt hc⟩
    obtain ⟨bs, hbs, hlen⟩ := hbl
    refine ⟨{ started := some (b', i), log := [] }, ?_, ?_, rfl⟩
    · rw [hbs]
      have : i < bs.length := by omega
      simp [startBuilders, List.getElem?_eq_getElem this, hi]
    · rw [hbr]; rfl
  | finish =>
    simp only [step, Option.some.injEq, Prod.mk.injEq] at hs
    obtain ⟨_, rfl⟩ := hs
    exact hb
  | enqueue R P =>
    have hσ : (Spec.step σ (.enqueue R P)).2.real = σ.real := by
      simp only [Spec.step]; split_ifs <;> rfl
    have hsame : s'.builders = s.builders ∧ s'.brush = s.brush := by
      simp only [step, enqueueInputs] at hs
      by_cases hb1 : s.brush.isNone = true
      · rw [if_pos hb1] at hs; simp only [Option.some.injEq, Prod.mk.injEq] at hs
        obtain ⟨_, rfl⟩ := hs; exact ⟨rfl, rfl⟩
      rw [if_neg hb1] at hs
      by_cases hfi : s.finished = true
      · rw [if_pos hfi] at hs; simp only [Option.some.injEq, Prod.mk.injEq] at hs
        obtain ⟨_, rfl⟩ := hs; exact ⟨rfl, rfl⟩
      rw [if_neg hfi] at hs
      simp only [Option.bind_eq_bind, Option.bind_eq_some_iff] at hs
      obtain ⟨ok, _, hs⟩ := hs
      split_ifs at hs
      · simp only [Option.some.injEq, Prod.mk.injEq] at hs; obtain ⟨_, rfl⟩ := hs; exact ⟨rfl, rfl⟩
      · cases ha : appendBatch s.queuedReal R with
        | none =>
          rw [ha] at hs; simp only [Option.some.injEq, Prod.mk.injEq] at hs
          obtain ⟨_, rfl⟩ := hs; exact ⟨rfl, rfl⟩
        | some q =>
          rw [ha] at hs; simp only [Option.some.injEq, Prod.mk.injEq] at hs
          obtain ⟨_, rfl⟩ := hs; exact ⟨rfl, rfl⟩
    intro i hi
    unfold coatCount at hi
    rw [hsame.2] at hi
    obtain ⟨bl, g1, g2, g3⟩ := hb i hi
    exact ⟨bl, by rw [hsame.1]; exact g1, by rw [hsame.2]; exact g2, by rw [hσ]; exact g3⟩
  | update t =>
    by_cases hok : (Spec.step σ (.update t)).1 = true
    · rw [hok] at eb
      subst eb
      obtain ⟨u1, u2, _⟩ := update_eq hs
      intro i hi
      unfold coatCount at hi
      rw [u2] at hi
      obtain ⟨bl, g1, g2, g3⟩ := hb i hi
      refine ⟨{ bl with log := bl.log ++ [⟨s.queuedReal, s.queuedPred, t⟩] }, ?_, ?_, ?_⟩
      · rw [u1]
        have hi' : i < coatCount coats s := hi
        simp [extendBuilders, g1, hi']
      · rw [u2]; exact g2
      · have : (Spec.step σ (.update t)).2.real = σ.real ++ σ.waitingReal :=
          (spec_update_ok hok).1
        rw [this]
        simpa using g3.append h.queuedReal
    · have hf : (Spec.step σ (.update t)).1 = false := by simpa using hok
      have := hun hf
      subst this
      have h2 : (Spec.step σ (.update t)).2 = σ := spec_update_err hf
      rw [h2]; exact hb

theorem run_builders : ∀ {ops : List (Op B)} {s s' : State B} {σ : Spec.State B} {bs},
    Rel coats s σ → BuildersOk coats s σ → (∀ op ∈ ops, OpOk op) →
    run coats s ops = some (bs, s') → BuildersOk coats s' (Spec.run σ ops).2 := by
  intro ops
  induction ops with
  | nil =>
    intro s s' σ bs _ hb _ h
    simp only [run, Option.some.injEq, Prod.mk.injEq] at h
    obtain ⟨_, rfl⟩ := h
    exact hb
  | cons op ops ih =>
    intro s s' σ bs hr hb hok h
    simp only [run, Option.bind_eq_bind, Option.bind_eq_some_iff, Option.some.injEq,
      Prod.mk.injEq, Prod.exists] at h
    obtain ⟨b1, s1, h1, bs2, s2, h2, _, rfl⟩ := h
    obtain ⟨s1', e, r1, _⟩ := step_rel hr (hok op (by simp))
    rw [h1] at e
    simp only [Option.some.injEq, Prod.mk.injEq] at e
    obtain ⟨_, rfl⟩ := e
    exact ih r1 (step_builders hr (hok op (by simp)) hb h1) (fun o ho => hok o (by simp [ho])) h2

/-- **C08.** In every reachable state, every coat was started with the current brush and its geometry
is computed from exactly the real inputs that `GetInputs` reports (its first `RealInputCount`
elements). -/
theorem C08_geometry_has_the_real_inputs {ops : List (Op B)} {bs : List Bool} {s : State B}
    (hok : ∀ op ∈ ops, OpOk op) (h : run coats {} ops = some (bs, s)) :
    ∀ i < coatCount coats s, ∃ bl : Builder B, s.builders[i]? = some bl ∧
      bl.started = s.brush.map (fun b => (b, i)) ∧
      (bl.log.flatMap Extend.real).map canon =
        ((getInputs s).take (realInputCount s)).map canon := by
  have hb : BuildersOk coats ({} : State B) {} := by
    intro i hi; exact absurd hi (Nat.not_lt_zero i)
  have := run_builders (rel_init coats) hb hok h
  obtain ⟨_, r⟩ := reach_rel hok h
  intro i hi
  obtain ⟨bl, g1, g2, g3⟩ := this i hi
  refine ⟨bl, g1, g2, ?_⟩
  rw [List.map_take]
  have hp := r.processed
  unfold LEqv at g3 hp
  unfold getInputs realInputCount
  rw [g3, hp, r.count, List.map_append, List.take_left' (by simp)]

/-- **C08 (partial).** After a successful `UpdateShape` that had something to do (inputs were queued,
the inputs are finished, or there was no prediction), the geometry of every coat is computed from
exactly the inputs that `GetInputs` reports. Missing: an update with an empty queue while a prediction
is shown, where the claim is false (`C08_stale_prediction_counterexample`). -/
theorem C08_geometry_matches_inputs_partial {ops : List (Op B)} {bs : List Bool} {s s' : State B}
    {t : F32} (hok : ∀ op ∈ ops, OpOk op) (h : run coats {} ops = some (bs, s))
    (hu : step coats s (.update t) = some (true, s'))
    (hc : s.queuedReal ≠ [] ∨ s.queuedPred ≠ [] ∨ s.finished = true ∨ predictedInputCount s = 0) :
    ∀ i < coatCount coats s', ∃ bl : Builder B, s'.builders[i]? = some bl ∧
      (geometryInputs bl).map canon = (getInputs s').map canon := by
  have hb0 : BuildersOk coats ({} : State B) {} := by
    intro i hi; exact absurd hi (Nat.not_lt_zero i)
  have hb := run_builders (rel_init coats) hb0 hok h
  obtain ⟨_, r⟩ := reach_rel hok h
  generalize (Spec.run {} ops).2 = σ at *
  obtain ⟨s1, e, r1, _⟩ := step_rel (op := .update t) r trivial
  rw [hu] at e
  simp only [Option.some.injEq, Prod.mk.injEq] at e
  obtain ⟨e1, rfl⟩ := e
  obtain ⟨u1, u2, _⟩ := update_eq hu
  -- the prediction after the update is the queued one
  have hpred : (Spec.step σ (.update t)).2.pred = σ.waitingPred ∧
      (Spec.step σ (.update t)).2.real = σ.real ++ σ.waitingReal := by
    have hcond : (σ.finished ∨ σ.waitingReal ≠ [] ∨ σ.waitingPred ≠ []) ∨
        (σ.pred = [] ∧ σ.waitingPred = []) := by
      rcases hc with hc | hc | hc | hc
      · exact Or.inl (Or.inr (Or.inl fun hx => hc (r.queuedReal.nil_iff.2 hx)))
      · exact Or.inl (Or.inr (Or.inr fun hx => hc (r.queuedPred.nil_iff.2 hx)))
      · exact Or.inl (Or.inl (by rw [← r.finished]; exact hc))
      · have hlen := r.processed.length
        rw [List.length_append, ← r.count] at hlen
        unfold predictedInputCount inputCount realInputCount at hc
        have : σ.pred = [] := List.length_eq_zero_iff.1 (by omega)
        by_cases hw : σ.waitingPred = []
        · exact Or.inr ⟨this, hw⟩
        · exact Or.inl (Or.inr (Or.inr hw))
    have hu := spec_update_ok e1.symm
    refine ⟨?_, hu.1⟩
    by_cases hx : σ.finished ∨ σ.waitingReal ≠ [] ∨ σ.waitingPred ≠ []
    · exact hu.2.2.2.1 hx
    · rcases hcond with hy | ⟨hy, hz⟩
      · exact absurd hy hx
      · rw [hu.2.2.2.2 hx, hy, hz]
  intro i hi
  unfold coatCount at hi
  rw [u2] at hi
  obtain ⟨bl, g1, g2, g3⟩ := hb i hi
  have hi' : i < coatCount coats s := hi
  refine ⟨{ bl with log := bl.log ++ [⟨s.queuedReal, s.queuedPred, t⟩] }, ?_, ?_⟩
  · rw [u1]
    simp [extendBuilders, g1, hi']
  · have hp := r1.processed
    rw [hpred.1, hpred.2] at hp
    unfold getInputs
    rw [show s'.processed.map canon = _ from hp]
    have : geometryInputs { bl with log := bl.log ++ [⟨s.queuedReal, s.queuedPred, t⟩] } =
        (bl.log.flatMap Extend.real ++ s.queuedReal) ++ s.queuedPred := by
      simp [geometryInputs]
    rw [this]
    exact (g3.append r.queuedReal).append r.queuedPred

/-- The documentation of `GetInputs` says its inputs are reflected in the current geometry. An
`UpdateShape` with an empty queue (used to advance animations) removes the predicted inputs from the
geometry and keeps them in `GetInputs`. -/
theorem C08_stale_prediction_counterexample :
    (run (B := Unit) (fun _ => 1) {} [.start (), .enqueue [exR] [exP], .update kOne,
      .update kOne]).map (fun r => (r.1, getInputs r.2, r.2.builders.map geometryInputs)) =
    some ([true, true, true, true], [exR, exP], [[exR]]) := by
  decide +kernel

/-! ### The hypotheses are met -/

/-- A history with real and predicted inputs, an update, new inputs that replace the prediction, and
a finish. -/
def exOps : List (Op Unit) := [.start (), .enqueue [exR] [exP], .update F32.zero,
  .enqueue [exP] [], .update kOne, .finish, .update kOne]

example : ∀ op ∈ exOps, OpOk op := by
  have h1 : Uniform [exR] := by
    intro a ha b hb
    simp at ha hb; subst ha hb
    exact ⟨rfl, by decide +kernel, Iff.rfl, Iff.rfl, Iff.rfl⟩
  have h2 : Uniform [exP] := by
    intro a ha b hb
    simp at ha hb; subst ha hb
    exact ⟨rfl, by decide +kernel, Iff.rfl, Iff.rfl, Iff.rfl⟩
  intro op hop
  simp only [exOps, List.mem_cons, List.not_mem_nil, or_false] at hop
  rcases hop with rfl | rfl | rfl | rfl | rfl | rfl | rfl <;>
    first | trivial | exact ⟨h1, h2⟩ | exact ⟨h2, uniform_nil⟩

example : (run (fun _ : Unit => 2) {} exOps).map (fun r =>
    (r.1, getInputs r.2, realInputCount r.2, predictedInputCount r.2,
      r.2.builders.map geometryInputs)) =
    some ([true, true, true, true, true, true, true], [exR, exP], 2, 0, [[exR, exP], [exR, exP]]) := by
  decide +kernel

/-- A dry stroke without predictions. -/
example : (run (fun _ : Unit => 2) {} exOps).map (fun r =>
    (needsUpdate (fun _ => 2) (fun _ => false) r.2, predictedInputCount r.2)) =
    some (false, 0) := by decide +kernel

/-- A rejected call. -/
example : (run (fun _ : Unit => 2) {} [.start (), .enqueue [exP] [exR]]).map Prod.fst =
    some [true, false] := by decide +kernel

end Verif.InProgress
