import Verif.Props.StrokeShape
import Verif.Spec.StrokeDry

/-!
# Lemmas for C83: what time alone changes
-/

set_option autoImplicit false

namespace Verif.Tip

open F32 TipSpec

variable (M : Libm) (fuel : Nat)

/-- At some inputs the sources of the nodes have the same values in both states. -/
def SameValues (nodes : List INode) (st st' : MState) (S : Input → Prop) : Prop :=
  ∀ s oor lo hi, INode.source s oor lo hi ∈ nodes → ∀ i, S i → ∀ dir size prev,
    sourceNodeValue M ⟨st', i, dir, size, prev⟩ s oor lo hi = sourceNodeValue M ⟨st, i, dir, size, prev⟩ s oor lo hi

theorem processNodes_values {st st' : MState} (ht : st'.toolType = st.toolType) (hu : st'.strokeUnitLength = st.strokeUnitLength)
    {i : Input} {dir : Option F32} {size : F32} {prev : Option Metrics} (l : List INode)
    (hs : ∀ s oor lo hi, INode.source s oor lo hi ∈ l →
      sourceNodeValue M ⟨st', i, dir, size, prev⟩ s oor lo hi = sourceNodeValue M ⟨st, i, dir, size, prev⟩ s oor lo hi)
    (mem : Mem) : processNodes M ⟨st', i, dir, size, prev⟩ l mem = processNodes M ⟨st, i, dir, size, prev⟩ l mem := by
  induction l generalizing mem with
  | nil => rfl
  | cons n l ih =>
    have hn : processNode M ⟨st', i, dir, size, prev⟩ n mem = processNode M ⟨st, i, dir, size, prev⟩ n mem := by
      obtain ⟨stack, ds, ms⟩ := mem
      cases n with
      | source s oor lo up => simp only [processNode, hs s oor lo up (by simp)]
      | damping idx s gap =>
        have : ∀ d x, dampedValue M ⟨st', i, dir, size, prev⟩ s gap d x = dampedValue M ⟨st, i, dir, size, prev⟩ s gap d x := by
          intro d x
          unfold dampedValue
          rw [hu]
        cases stack with
        | nil => rfl
        | cons x stack => simp only [processNode, this]
      | fallbackFilter p => cases stack <;> rfl
      | toolTypeFilter e => cases stack <;> simp only [processNode, ht]
      | constant v => rfl
      | easing e => cases stack <;> rfl
      | binaryOp op => rcases stack with _ | ⟨a, _ | ⟨b, stack⟩⟩ <;> rfl
      | interpolation i => rcases stack with _ | ⟨a, _ | ⟨b, _ | ⟨c, stack⟩⟩⟩ <;> rfl
      | target idx lo hi => cases stack <;> rfl
    unfold processNodes
    rw [hn]
    cases processNode M ⟨st, i, dir, size, prev⟩ n mem with
    | none => rfl
    | some m' => exact ih (fun s o lo hi hm => hs s o lo hi (List.mem_cons_of_mem _ hm)) m'

section

variable {m : Modeler} {st st' : MState} (ht : st'.toolType = st.toolType) (hu : st'.strokeUnitLength = st.strokeUnitLength)
  {S : Input → Prop} (hv : SameValues M m.nodes st st' S)

include ht hu hv

theorem addTipState_values {i : Input} (hi : S i) (dir : Option F32) (prev : Option Metrics) (a : Acc) :
    m.addTipState M st' i dir prev a = m.addTipState M st i dir prev a := by
  unfold Modeler.addTipState
  rw [processNodes_values M ht hu m.nodes (fun s oor lo up hs => hv s oor lo up hs i hi dir m.size prev)]

theorem emit_values (hS : ∀ i, S i) (cur prev : Input) (dir : Option F32) (a : Acc) :
    m.emit M st' cur prev dir fuel a = m.emit M st cur prev dir fuel a := by
  induction fuel generalizing a with
  | zero => unfold Modeler.emit; rfl
  | succ n ih =>
    unfold Modeler.emit
    cases a.metrics with
    | none => rfl
    | some last => simp only [addTipState_values M ht hu hv (hS _), ih]

theorem processInput_values (hS : (∀ i, S i) ∨ m.continuous = true) {cur : Input} (hc : S cur) (dir : Option F32) (prev : Option Input) (a : Acc) :
    m.processInput M fuel st' cur dir prev a = m.processInput M fuel st cur dir prev a := by
  unfold Modeler.processInput
  rw [addTipState_values M ht hu hv hc]
  rcases hS with hS | hS
  · simp only [emit_values M fuel ht hu hv hS]
  · rw [hS]; rfl

theorem runFrom_values {inputs : List Input} (hS : (∀ i, S i) ∨ m.continuous = true) (hi : ∀ i ∈ inputs, S i) (k n : Nat) (a : Acc) :
    m.runFrom M fuel st' inputs k n a = m.runFrom M fuel st inputs k n a := by
  induction k generalizing n a with
  | zero => rfl
  | succ k ih =>
    have e : m.processIndex M fuel st' inputs n a = m.processIndex M fuel st inputs n a := by
      unfold Modeler.processIndex
      cases hc : inputs[n]? with
      | none => rfl
      | some cur =>
        cases travelDirection M inputs n with
        | none => rfl
        | some dir => exact processInput_values M fuel ht hu hv hS (hi cur (List.mem_of_getElem? hc)) dir _ a
    unfold Modeler.runFrom
    rw [e]
    cases m.processIndex M fuel st inputs n a with
    | none => rfl
    | some a' => exact ih (n + 1) a'

end

/-- Where the loop over the stable inputs stopped, it stops at once. -/
theorem fixLoop_stop {m m' : Modeler} (hm : m'.dependsNext = m.dependsNext) {st st' : MState} (hst : st'.stableInputCount = st.stableInputCount)
    {inputs : List Input} {mx : Metrics} (k : Nat) : ∀ {i : Nat} {a : Acc} {i' : Nat} {a' : Acc},
    m.fixLoop M fuel st inputs mx k i a = some (i', a') → ∀ b, m'.fixLoop M fuel st' inputs mx (k + i - i') i' b = some (i', b) := by
  induction k with
  | zero =>
    intro i a i' a' h b
    simp only [Modeler.fixLoop, Option.some.injEq, Prod.mk.injEq] at h
    obtain ⟨rfl, rfl⟩ := h
    rw [show 0 + i - i = 0 by omega]
    rfl
  | succ k ih =>
    intro i a i' a' h b
    rw [Modeler.fixLoop] at h
    by_cases h1 : i + (if m.dependsNext then 1 else 0) < st.stableInputCount
    · rw [if_neg (by simpa using h1)] at h
      cases hc : inputs[i]? with
      | none => rw [hc] at h; cases h
      | some cur =>
        rw [hc] at h
        simp only at h
        split at h
        · rename_i hg
          simp only [Option.some.injEq, Prod.mk.injEq] at h
          obtain ⟨rfl, rfl⟩ := h
          rw [show k + 1 + i - i = k + 1 by omega, Modeler.fixLoop, hm, hst, if_neg (by simpa using h1), hc]
          simp only
          rw [if_pos hg]
        · cases hp : m.processIndex M fuel st inputs i a with
          | none => rw [hp] at h; cases h
          | some c =>
            rw [hp] at h
            have := ih h b
            rwa [show k + (i + 1) = k + 1 + i by omega] at this
    · rw [if_pos (by simpa using h1)] at h
      simp only [Option.some.injEq, Prod.mk.injEq] at h
      obtain ⟨rfl, rfl⟩ := h
      rw [show k + 1 + i - i = k + 1 by omega, Modeler.fixLoop, hm, hst, if_pos (by simpa using h1)]

theorem runFrom_zero (m : Modeler) (st : MState) (inputs : List Input) (i : Nat) (a : Acc) : m.runFrom M fuel st inputs 0 i a = some a := rfl

/-- A second update with the same inputs and source values fixes nothing more and gives the same volatile tip states. -/
theorem update_again {m m1 m2 : Modeler} {st st' : MState} {inputs : List Input} (hne : inputs ≠ [])
    (h : m.update M fuel st inputs = some m1) (h' : m1.update M fuel st' inputs = some m2)
    (ht : st'.toolType = st.toolType) (hu : st'.strokeUnitLength = st.strokeUnitLength) (hst : st'.stableInputCount = st.stableInputCount)
    {S : Input → Prop} (hv : SameValues M m.nodes st st' S) (hS : (∀ i, S i) ∨ m.continuous = true) (hi : ∀ i ∈ inputs, S i) :
    m2.newFixed = some [] ∧ m2.volatile = m1.volatile := by
  obtain ⟨c1, l1, -, new, vol, b, n1, v1, r1, r2, ho⟩ := update_spec M fuel h hne
  obtain ⟨c2, l2, -, new', vol', b', n2, v2, q1, q2, ho'⟩ := update_spec M fuel h' hne
  have hnext : m2.nextFixed = m1.nextFixed := by
    unfold Modeler.update at h h'
    rw [if_neg hne] at h h'
    have hmx : m1.maxFixedMetrics st' inputs = m.maxFixedMetrics st inputs := by
      unfold Modeler.maxFixedMetrics
      rw [hst, c1.2.2.1, c1.2.2.2.1]
    rw [hmx] at h'
    cases hm : m.maxFixedMetrics st inputs with
    | none => rw [hm] at h; cases h
    | some mx =>
      rw [hm] at h h'
      simp only at h h'
      cases hf : m.fixLoop M fuel st inputs mx (st.stableInputCount - m.nextFixed) m.nextFixed
          ⟨m.fixedMetrics, m.fixedDamped, m.fixedMods, []⟩ with
      | none => rw [hf] at h; cases h
      | some q =>
        obtain ⟨i, a⟩ := q
        rw [hf] at h
        simp only at h
        have e1 : m1.nextFixed = i := by
          cases hr : m.runFrom M fuel st inputs (inputs.length - i) i a with
          | none => rw [hr] at h; cases h
          | some c => rw [hr] at h; cases h; rfl
        have stop := fixLoop_stop M fuel (m' := m1) c1.2.2.2.2.1 hst _ hf ⟨m1.fixedMetrics, m1.fixedDamped, m1.fixedMods, []⟩
        have hk : st.stableInputCount - m.nextFixed + m.nextFixed - i = st'.stableInputCount - m1.nextFixed := by
          by_cases hn : m.nextFixed ≤ st.stableInputCount
          · omega
          · rw [show st.stableInputCount - m.nextFixed = 0 by omega] at hf
            simp only [Modeler.fixLoop, Option.some.injEq, Prod.mk.injEq] at hf
            omega
        rw [hk] at stop
        rw [e1] at h' stop ⊢
        rw [stop] at h'
        simp only at h'
        split at h'
        · cases h'
        · cases h'; rfl
  rw [hnext] at q1 q2
  rw [Nat.sub_self, runFrom_zero] at q1
  injection q1 with q1
  injection q1 with z1 z2 z3 z4
  subst z4
  refine ⟨n2, ?_⟩
  rw [v1, v2]
  rw [← z1, ← z2, ← z3, runFrom_config M fuel c1, runFrom_values M fuel ht hu hv hS hi] at q2
  have hpre := runFrom_pre M fuel m st inputs (inputs.length - m1.nextFixed) m1.nextFixed new ⟨m1.fixedMetrics, m1.fixedDamped, m1.fixedMods, []⟩
  rw [q2] at hpre
  have : Acc.pre new ⟨m1.fixedMetrics, m1.fixedDamped, m1.fixedMods, []⟩ = ⟨m1.fixedMetrics, m1.fixedDamped, m1.fixedMods, new⟩ := by
    simp [Acc.pre]
  rw [this, r2] at hpre
  injection hpre with hpre
  rw [hpre] at ho
  have : new ++ b'.out = new ++ vol := ho
  rw [List.append_cancel_left_eq] at this
  rw [← this, ho']
  rfl

/-- Without inputs there are no tip states. -/
theorem update_nothing {M : Libm} {fuel : Nat} {m m' : Modeler} {st : MState} {fixed vol : List TipState} (h : m.update M fuel st [] = some m')
    (hf : m'.newFixed = some fixed) (hv : m'.volatile = some vol) : fixed = [] ∧ vol = [] := by
  unfold Modeler.update at h
  rw [if_pos rfl] at h
  cases h
  unfold Modeler.newFixed at hf
  unfold Modeler.volatile at hv
  dsimp only at hf hv
  split_ifs at hf hv
  simp only [List.take_nil, List.drop_nil, Option.some.injEq] at hf hv
  exact ⟨hf.symm, hv.symm⟩

end Verif.Tip

namespace Verif.InputModeler

variable {I σ : Type} (hypot : F32 → F32 → F32) (lib : Library I σ)

/-- The times and distances are already those of the modeled inputs, but for the time that has passed. -/
theorem update_twice {m a b : Modeler I σ} {t t' : Duration32} {l : Tip.Input} (h : m.updateTimeAndDistance t = some a)
    (h' : a.updateTimeAndDistance t' = some b) (hl : a.modeled.getLast? = some l) :
    b = { a with completeElapsedTime := Tip.durMax l.elapsedTime t' } := by
  have hm : a.modeled = m.modeled := by
    unfold Modeler.updateTimeAndDistance at h
    split at h
    · cases h; rfl
    · dsimp only at h
      split at h
      · cases h; rfl
      · obtain ⟨r, -, h⟩ := Option.bind_eq_some_iff.1 h
        cases h; rfl
  have hl' : m.modeled.getLast? = some l := hm ▸ hl
  unfold Modeler.updateTimeAndDistance at h h'
  rw [hl] at h'
  rw [hl'] at h
  clear hm hl
  dsimp only at h h'
  by_cases h0 : m.realCount = 0
  · rw [if_pos h0] at h
    cases h
    rw [if_pos h0] at h'
    cases h'
    rfl
  · rw [if_neg h0] at h
    obtain ⟨r, hr, h⟩ := Option.bind_eq_some_iff.1 h
    cases h
    rw [if_neg h0] at h'
    obtain ⟨r', hr', h'⟩ := Option.bind_eq_some_iff.1 h'
    cases h'
    dsimp only at hr hr'
    rw [hr] at hr'
    cases hr'
    rfl

theorem extend_idle {m0 m n : Modeler I σ} {c0 : Call} (h0 : m0.extendStroke hypot lib c0.real c0.pred c0.now = some m) {c : Call}
    (h : m.extendStroke hypot lib c.real c.pred c.now = some n) (hc : c.real = [] ∧ c.pred = []) (hr : m.realCount = m.modeled.length)
    {l : Tip.Input} (hl : m.modeled.getLast? = some l) : n = { m with completeElapsedTime := Tip.durMax l.elapsedTime c.now } := by
  have hu : ∃ k : Modeler I σ, k.updateTimeAndDistance c0.now = some m := by
    unfold Modeler.extendStroke at h0
    split at h0
    · split at h0
      · exact ⟨_, h0⟩
      · obtain ⟨k1, -, h0⟩ := Option.bind_eq_some_iff.1 h0
        obtain ⟨k2, -, h0⟩ := Option.bind_eq_some_iff.1 h0
        exact ⟨_, h0⟩
    · cases h0
  obtain ⟨k, hk⟩ := hu
  unfold Modeler.extendStroke at h
  split at h
  · rw [if_pos ⟨by rw [hc.1]; rfl, by rw [hc.2]; rfl, hr⟩] at h
    exact update_twice hk h hl
  · cases h

end Verif.InputModeler

namespace Verif.ShapeBuilder

open Verif F32 InputModeler.Spec Spec TipSpec

variable {I σ E V X C : Type} {p : Parts I σ E V X}

/-- One update without inputs, if the sources have the same values. -/
theorem dry_step {core : V → C} (he : StrokeGeom.Spec.Respects core p.env)
    (hsh : ∀ e w, StrokeGeom.Spec.OkTip core (p.shapes e w)) (ho : StrokeGeom.Spec.IsOrder p.order)
    {b b0 x y : Builder I σ E V X} {im : I} {coat : Brushes.Coat} {size eps : F32} {tip : Tip.BrushTip}
    (ht : coat.tips = [tip]) (hs : b.start p im coat size eps = some b0) {cs : List InputModeler.Call} {c0 c : InputModeler.Call}
    (h : b0.run p (cs ++ [c0]) = some x) (hc : idle c = true) (hr : x.input.realCount = x.input.modeled.length)
    {l : Tip.Input} (hl : x.input.modeled.getLast? = some l) (hy : x.extend p c = some y) :
    y.input = { x.input with completeElapsedTime := Tip.durMax l.elapsedTime c.now } ∧
    ∀ m0, Tip.start p.tabulate tip size = some m0 → ∀ S : Tip.Input → Prop,
      Tip.SameValues p.libm m0.nodes (stateOf x.input) (stateOf y.input) S → ((∀ i, S i) ∨ m0.continuous = true) →
      (∀ i ∈ x.input.modeled, S i) → drawn core y = drawn core x := by
  rw [run_append] at h
  obtain ⟨z, hz, h⟩ := StrokeGeom.bind_some h
  obtain ⟨x', hx, h⟩ := StrokeGeom.bind_some h
  cases h
  have hci : c.real = [] ∧ c.pred = [] := by
    unfold idle at hc
    simpa using hc
  have hin := InputModeler.extend_idle p.hypot p.lib (extend_parts hx).1 (extend_parts hy).1 hci hr hl
  refine ⟨hin, ?_⟩
  intro m0 hm0 S hv hS hi
  obtain ⟨m0', us, H, m, hm0', D⟩ := did_any ht hs cs z hz
  rw [hm0] at hm0'
  cases hm0'
  obtain ⟨m1, fixed, vol, D1, u1, f1, v1, o1⟩ := D.step hx
  obtain ⟨m2, fixed2, vol2, D2, u2, f2, v2, o2⟩ := D1.step hy
  have hmod : y.input.modeled = x.input.modeled := by rw [hin]
  have hne : x.input.modeled ≠ [] := by rintro e; rw [e] at hl; cases hl
  obtain ⟨-, -, -, -, -, -, -, g0, gm, -⟩ := Tip.start_spec p.tabulate hm0
  obtain ⟨-, -, c2, -⟩ := Tip.collect_spec p.libm p.fuel g0 gm _ D.collected
  rw [hmod] at u2
  have hnodes : m.nodes = m0.nodes := c2.2.2.2.2.2.1
  have hcont : m.continuous = m0.continuous := by unfold Tip.Modeler.continuous; rw [c2.2.2.2.2.2.2.2]
  obtain ⟨a1, a2⟩ := Tip.update_again p.libm p.fuel hne u1 u2 (by rw [hin]; rfl) (by rw [hin]; rfl) (by rw [hin]; rfl)
    (by rw [hnodes]; exact hv) (by rw [hcont]; exact hS) hi
  rw [f2] at a1
  cases a1
  rw [v1, v2] at a2
  cases a2
  obtain ⟨-, -, -, -, he0, -, -⟩ := start_parts ht hs
  have E1 := D1.extruded
  have E2 := D2.extruded
  rw [he0] at E1 E2
  have hflat : (H ++ [(fixed, vol)] ++ [([], vol)]).flatMap StrokeGeom.Spec.markedFixed =
      (H ++ [(fixed, vol)]).flatMap StrokeGeom.Spec.markedFixed := by
    rw [List.flatMap_append]
    simp [StrokeGeom.Spec.markedFixed, StrokeGeom.Spec.marked]
  have := same_drawn he (hsh _ _) ho (by rw [hflat]) E1 E2
  unfold drawn
  rw [this.1, this.2.1, o1, o2, this.2.2]

/-- Updates without inputs at times at which the sources have the same values. -/
theorem dry_run {core : V → C} (he : StrokeGeom.Spec.Respects core p.env)
    (hsh : ∀ e w, StrokeGeom.Spec.OkTip core (p.shapes e w)) (ho : StrokeGeom.Spec.IsOrder p.order)
    {b b0 : Builder I σ E V X} {im : I} {coat : Brushes.Coat} {size eps : F32} {tip : Tip.BrushTip}
    (ht : coat.tips = [tip]) (hs : b.start p im coat size eps = some b0) {m0 : Tip.Modeler} (hm0 : Tip.start p.tabulate tip size = some m0)
    {modeled : List Tip.Input} {l : Tip.Input} (hl : modeled.getLast? = some l) {Q : Duration32 → Prop} {S : Tip.Input → Prop}
    (hQ : ∀ (st : Tip.MState) (T T' : Duration32), Q T → Q T' →
      Tip.SameValues p.libm m0.nodes { st with completeElapsedTime := T } { st with completeElapsedTime := T' } S)
    (hS : (∀ i, S i) ∨ m0.continuous = true) (hi : ∀ i ∈ modeled, S i) (later : List InputModeler.Call) :
    ∀ {cs : List InputModeler.Call} {c0 : InputModeler.Call} {x y : Builder I σ E V X}, b0.run p (cs ++ [c0]) = some x → later.all idle = true →
    x.input.modeled = modeled → x.input.realCount = modeled.length → Q x.input.completeElapsedTime → (∀ c ∈ later, Q (Tip.durMax l.elapsedTime c.now)) →
    x.run p later = some y → drawn core y = drawn core x := by
  induction later with
  | nil => intro cs c0 x y _ _ _ _ _ _ h; cases h; rfl
  | cons c later ih =>
    intro cs c0 x y hx hid hmod hreal hq hql h
    obtain ⟨z, hz, h⟩ := StrokeGeom.bind_some h
    rw [List.all_cons, Bool.and_eq_true] at hid
    obtain ⟨e1, e2⟩ := dry_step he hsh ho ht hs hx hid.1 (by rw [hmod]; exact hreal) (by rw [hmod]; exact hl) hz
    have hqc := hql c (List.mem_cons_self ..)
    have hrun : b0.run p ((cs ++ [c0]) ++ [c]) = some z := by
      rw [run_append, hx]
      show (x.extend p c).bind _ = _
      rw [hz]
      rfl
    have d1 : drawn core y = drawn core z := ih hrun hid.2 (by rw [e1]; exact hmod) (by rw [e1]; exact hreal) (by rw [e1]; exact hqc)
      (fun c hc => hql c (List.mem_cons_of_mem _ hc)) h
    have d2 : drawn core z = drawn core x := e2 m0 hm0 S (by
      have := hQ (stateOf x.input) _ _ hq hqc
      rw [e1]
      exact this) hS (by rw [hmod]; exact hi)
    exact d1.trans d2

/-- An update without inputs while there are no modeled inputs. -/
theorem idle_empty {x z : Builder I σ E V X} {c : InputModeler.Call} (hc : idle c = true) (hmod : x.input.modeled = [])
    (hreal : x.input.realCount = 0) (hz : x.extend p c = some z) : z.input = { x.input with completeElapsedTime := c.now } := by
  have hci : c.real = [] ∧ c.pred = [] := by
    unfold idle at hc
    simpa using hc
  have k := (extend_parts hz).1
  unfold InputModeler.Modeler.extendStroke at k
  split at k
  · rw [if_pos ⟨by rw [hci.1]; rfl, by rw [hci.2]; rfl, by rw [hreal, hmod]; rfl⟩] at k
    unfold InputModeler.Modeler.updateTimeAndDistance at k
    rw [show x.input.modeled.getLast? = none by rw [hmod]; rfl] at k
    injection k with k
    exact k.symm
  · cases k

/-- Updates without inputs while there are no modeled inputs. -/
theorem dry_empty {core : V → C} (he : StrokeGeom.Spec.Respects core p.env)
    (hsh : ∀ e w, StrokeGeom.Spec.OkTip core (p.shapes e w)) (ho : StrokeGeom.Spec.IsOrder p.order)
    {b b0 : Builder I σ E V X} {im : I} {coat : Brushes.Coat} {size eps : F32} {tip : Tip.BrushTip}
    (ht : coat.tips = [tip]) (hs : b.start p im coat size eps = some b0) (later : List InputModeler.Call) :
    ∀ {cs : List InputModeler.Call} {c0 : InputModeler.Call} {x y : Builder I σ E V X}, b0.run p (cs ++ [c0]) = some x → later.all idle = true →
    x.input.modeled = [] → x.input.realCount = 0 → x.run p later = some y → drawn core y = drawn core x := by
  induction later with
  | nil => intro cs c0 x y _ _ _ _ h; cases h; rfl
  | cons c later ih =>
    intro cs c0 x y hx hid hmod hreal h
    obtain ⟨z, hz, h⟩ := StrokeGeom.bind_some h
    rw [List.all_cons, Bool.and_eq_true] at hid
    have hrun : b0.run p ((cs ++ [c0]) ++ [c]) = some z := by
      rw [run_append, hx]
      show (x.extend p c).bind _ = _
      rw [hz]
      rfl
    have hin := idle_empty hid.1 hmod hreal hz
    refine (ih hrun hid.2 (by rw [hin]; exact hmod) (by rw [hin]; exact hreal) h).trans ?_
    rw [run_append] at hx
    obtain ⟨w, hw, hx⟩ := StrokeGeom.bind_some hx
    obtain ⟨x', hx', hx⟩ := StrokeGeom.bind_some hx
    cases hx
    obtain ⟨m0, us, H, m, hm0, D⟩ := did_any ht hs cs w hw
    obtain ⟨m1, fixed, vol, D1, u1, f1, v1, o1⟩ := D.step hx'
    obtain ⟨m2, fixed2, vol2, D2, u2, f2, v2, o2⟩ := D1.step hz
    rw [hmod] at u1
    rw [show z.input.modeled = [] by rw [hin]; exact hmod] at u2
    obtain ⟨rfl, rfl⟩ := Tip.update_nothing u1 f1 v1
    obtain ⟨rfl, rfl⟩ := Tip.update_nothing u2 f2 v2
    obtain ⟨-, -, -, -, he0, -, -⟩ := start_parts ht hs
    have E1 := D1.extruded
    have E2 := D2.extruded
    rw [he0] at E1 E2
    have hflat : (H ++ [([], [])] ++ [([], [])]).flatMap StrokeGeom.Spec.markedFixed =
        (H ++ [([], [])]).flatMap StrokeGeom.Spec.markedFixed := by
      rw [List.flatMap_append]
      simp [StrokeGeom.Spec.markedFixed, StrokeGeom.Spec.marked]
    have := same_drawn he (hsh _ _) ho (by rw [hflat]) E1 E2
    unfold drawn
    rw [this.1, this.2.1, o1, o2, this.2.2]

/-- Updates without inputs when there was no other since the start. -/
theorem dry_started {core : V → C} (he : StrokeGeom.Spec.Respects core p.env)
    (hsh : ∀ e w, StrokeGeom.Spec.OkTip core (p.shapes e w)) (ho : StrokeGeom.Spec.IsOrder p.order)
    {b b0 y : Builder I σ E V X} {im : I} {coat : Brushes.Coat} {size eps : F32} {tip : Tip.BrushTip}
    (ht : coat.tips = [tip]) (hs : b.start p im coat size eps = some b0) (later : List InputModeler.Call) (hid : later.all idle = true)
    (hy : b0.run p later = some y) : drawn core y = drawn core b0 := by
  cases later with
  | nil => cases hy; rfl
  | cons c later =>
    obtain ⟨z, hz, h⟩ := StrokeGeom.bind_some hy
    rw [List.all_cons, Bool.and_eq_true] at hid
    obtain ⟨hi0, m0, hm0, hbm, he0, -, -⟩ := start_parts ht hs
    have h00 : b0.input.modeled = [] ∧ b0.input.realCount = 0 := by
      unfold InputModeler.Modeler.start at hi0
      split_ifs at hi0
      injection hi0 with k
      rw [← k]
      exact ⟨rfl, rfl⟩
    have hin := idle_empty hid.1 h00.1 h00.2 hz
    have hrun : b0.run p ([] ++ [c]) = some z := by
      show (b0.extend p c).bind _ = _
      rw [hz]
      rfl
    refine (dry_empty he hsh ho ht hs later hrun hid.2 (by rw [hin]; exact h00.1) (by rw [hin]; exact h00.2) h).trans ?_
    obtain ⟨m1, fixed, vol, D1, u1, f1, v1, o1⟩ := (did_start (p := p) hbm).step hz
    rw [show z.input.modeled = [] by rw [hin]; exact h00.1] at u1
    obtain ⟨rfl, rfl⟩ := Tip.update_nothing u1 f1 v1
    have E1 := D1.extruded
    rw [he0] at E1
    obtain ⟨u, hu, S⟩ := StrokeGeom.extend_ok ho he (hsh _ _) b.extruder.geometry.save E1
    have hf := (StrokeGeom.strokeOf_ok (hsh _ _) hu).1
    have hu0 : u = ⟨[], StrokeGeom.Spec.trimmed (StrokeGeom.Geometry.reset p.env b.extruder.geometry.save), []⟩ := by
      injection hu with hu
      exact hu.symm
    subst hu0
    have hob : b0.outlines = [] := by
      unfold Builder.start at hs
      rw [ht] at hs
      obtain ⟨i, -, hs⟩ := StrokeGeom.bind_some hs
      obtain ⟨m, -, hs⟩ := StrokeGeom.bind_some hs
      simp only [Option.some.injEq] at hs
      subst hs
      rfl
    unfold drawn
    rw [S.ext, StrokeGeom.same_iff.1 S.same, o1, hob, he0]
    rcases S.outlines hf with h | h <;> rw [h] <;> rfl

/-- Without a prediction in the last update all modeled inputs are real. -/
theorem real_last {m n : InputModeler.Modeler I σ} {c : InputModeler.Call} (hc : c.pred = [])
    (h : m.extendStroke p.hypot p.lib c.real c.pred c.now = some n) : n.realCount = n.modeled.length := by
  have key : ∀ {k n : InputModeler.Modeler I σ}, k.realCount = k.modeled.length → k.updateTimeAndDistance c.now = some n →
      n.realCount = n.modeled.length := by
    intro k n hk h
    unfold InputModeler.Modeler.updateTimeAndDistance at h
    split at h
    · cases h; exact hk
    · dsimp only at h
      split at h
      · cases h; exact hk
      · obtain ⟨r, -, h⟩ := Option.bind_eq_some_iff.1 h
        cases h; exact hk
  unfold InputModeler.Modeler.extendStroke at h
  split at h
  · split at h
    · rename_i hg
      exact key hg.2.2 h
    · obtain ⟨k1, -, h⟩ := Option.bind_eq_some_iff.1 h
      obtain ⟨k2, hk, h⟩ := Option.bind_eq_some_iff.1 h
      refine key ?_ h
      unfold InputModeler.Modeler.modelUnstable at hk
      rw [hc] at hk
      obtain ⟨k3, -, hk⟩ := Option.bind_eq_some_iff.1 hk
      cases hk
      rfl
  · cases h

end Verif.ShapeBuilder

namespace Verif.StrokeDry

open Verif F32 Spec

/-- Beyond its range a source has one value. -/
theorem past_value {lo hi v v' : F32} (hlo : lo.isFinite = true) (hhi : hi.isFinite = true) (hlt : lt lo hi = true) (hv : le hi v = true)
    (hv' : le hi v' = true) : clamp (inverseLerpF lo hi v) zero RectF.one = clamp (inverseLerpF lo hi v') zero RectF.one := by
  unfold inverseLerpF
  by_cases h0 : feq (sub hi lo) zero = true
  · rw [if_pos h0, if_pos h0]
  rw [if_neg h0, if_neg h0]
  have hle : toRat lo ≤ toRat hi := by
    have : le lo hi = true := by
      simp only [lt, Bool.and_eq_true, Bool.not_eq_true', decide_eq_true_eq] at hlt
      exact le_of_key hlt.1.1 hlt.1.2 (by omega)
    exact (le_iff hlo hhi).1 this
  have kd := key_sub hhi hlo
  have kd0 : 0 ≤ key (sub hi lo) := by
    rw [kd.2]; exact keyR_nonneg (by linarith)
  have mono : ∀ {w : F32}, le hi w = true → le (sub hi lo) (sub w lo) = true := by
    intro w hw
    rcases isFinite_or_inf (le_key hw).2.1 with hf | ⟨s, rfl⟩
    · exact sub_le_sub_right hhi hf hlo hw
    · cases s
      · have : sub (inf false) lo = inf false := by
          obtain ⟨s, n, hn, rfl⟩ := exists_of_isFinite hlo
          rfl
        rw [this]
        exact le_pos_inf kd.1
      · have h1 := (le_key hw).2.2
        have h2 := (isFinite_iff_key hi).1 hhi
        rw [key_inf_true] at h1
        omega
  rcases isFinite_or_inf kd.1 with hf | ⟨s, hs⟩
  · have hpos : 0 < toRat (sub hi lo) := by
      have h1 : keyR (toRat (sub hi lo)) = key (sub hi lo) := keyR_toRat hf
      rcases lt_trichotomy (toRat (sub hi lo)) 0 with h | h | h
      · have := (key_le_iff (a := zero) (b := sub hi lo) rfl hf).1 (by
          rw [show key zero = 0 from rfl]; exact kd0)
        rw [show toRat zero = 0 from by decide +kernel] at this
        linarith
      · exact absurd ((feq_iff hf rfl).2 (by rw [h]; decide +kernel)) h0
      · exact h
    have one_of : ∀ {w : F32}, le hi w = true → clamp (div (sub w lo) (sub hi lo)) zero RectF.one = RectF.one := by
      intro w hw
      have h1 := div_le_div_right hf hpos (mono hw)
      have k1 := key_div hf hf hpos.ne'
      rw [div_self hpos.ne'] at k1
      have ko : key RectF.one = keyR 1 := by
        rw [← keyR_toRat (a := RectF.one) rfl]
        congr 1
        decide +kernel
      obtain ⟨n1, n2, n3⟩ := le_key h1
      rw [k1.2, ← ko] at n3
      generalize div (sub w lo) (sub hi lo) = q at n2 n3 ⊢
      have k1' : key RectF.one = 0x3F800000 := rfl
      have kz : key zero = 0 := rfl
      have l1 : lt q zero = false := by
        simp only [lt, n2, Bool.not_false, Bool.true_and, Bool.and_eq_false_iff, decide_eq_false_iff_not]
        right
        rw [kz]
        rw [k1'] at n3
        omega
      unfold clamp
      rw [l1]
      simp only [Bool.false_eq_true, if_false]
      by_cases l2 : lt RectF.one q = true
      · rw [if_pos l2]
      · rw [if_neg l2]
        have hk : key q = key RectF.one := by
          simp only [lt, n2, Bool.not_false, Bool.and_true, Bool.not_eq_true, Bool.and_eq_false_iff, decide_eq_false_iff_not] at l2
          rcases l2 with l2 | l2
          · cases l2
          · omega
        rw [k1'] at hk
        cases q with
        | nan => cases n2
        | inf s => cases s <;> simp [key, infPat] at hk
        | fin s n hn =>
          cases s
          · simp only [key, Bool.false_eq_true, if_false] at hk
            have : n = 0x3F800000 := by omega
            subst this
            rfl
          · simp only [key, if_true] at hk
            omega
    rw [one_of hv, one_of hv']
  · have inf_of : ∀ {w : F32}, le hi w = true → sub w lo = inf false := by
      intro w hw
      obtain ⟨-, n2, n3⟩ := le_key (mono hw)
      have hsf : s = false := by
        cases s
        · rfl
        · rw [hs, key_inf_true] at kd0
          simp [infPat] at kd0
      rw [hs, hsf, key_inf_false] at n3
      rcases isFinite_or_inf n2 with hf | ⟨t, ht⟩
      · have := (isFinite_iff_key _).1 hf
        omega
      · cases t
        · exact ht
        · rw [ht, key_inf_true] at n3
          simp [infPat] at n3
    rw [inf_of hv, inf_of hv']

/-- Rounding does not lose a number that is missed by a quarter of an ulp. -/
theorem le_roundPat_near {q : ℚ} {n : Nat} (hq : (mag n : ℚ) * (1 - 1 / 2 ^ 26) ≤ q) : n ≤ roundPat q := by
  by_cases hle : (mag n : ℚ) ≤ q
  · exact le_roundPat_of_le hle
  have hlt := not_le.1 hle
  cases n with
  | zero => exact Nat.zero_le _
  | succ c =>
    by_contra h
    have hq0 : 0 ≤ q := by
      have : (0 : ℚ) ≤ (mag (c + 1) : ℚ) * (1 - 1 / 2 ^ 26) := by
        have : (0 : ℚ) ≤ (mag (c + 1) : ℚ) := Nat.cast_nonneg _
        norm_num
      linarith
    have h1 := roundPat_nearest hq0 (c + 1)
    have h2 : (mag (roundPat q) : ℚ) ≤ mag c := by exact_mod_cast mag_le_iff.2 (by omega : roundPat q ≤ c)
    have h3 : (mag (c + 1) : ℚ) = mag c + 2 ^ gapE c := by exact_mod_cast mag_succ c
    obtain ⟨M, m1, m2, -⟩ := mag_eq c
    have h4 : (mag c : ℚ) = M * 2 ^ gapE c := by rw [m2]; push_cast; rfl
    have h5 : ((M : ℚ) + 1) ≤ 2 ^ 24 := by exact_mod_cast m1
    have hg : (0 : ℚ) < 2 ^ gapE c := by positivity
    generalize (2 : ℚ) ^ gapE c = g at h3 h4 hg
    rw [abs_of_pos (a := (mag (c + 1) : ℚ) - q) (by linarith)] at h1
    have h6 := neg_abs_le ((mag (roundPat q) : ℚ) - q)
    have h7 : (mag (c + 1) : ℚ) ≤ 2 ^ 24 * g := by rw [h3, h4]; nlinarith
    norm_num at hq h7
    linarith

/-- After the time at which a behavior in milliseconds says that it is finished, its source is past its range. -/
theorem millis_past {hi t : F32} (hhi : hi.isFinite = true) (hr : le hi zero = true ∨ le tiny hi = true)
    (ht : le zero t = true) (h : le (mul Duration32.milli hi) t = true) : le hi (mul (ofInt 1000) t) = true := by
  have t1000 : toRat (ofInt 1000) = 1000 := by decide +kernel
  have f1000 : (ofInt 1000).isFinite = true := by decide +kernel
  rcases isFinite_or_inf (le_key ht).2.1 with hf | ⟨s, rfl⟩
  · have hk := key_mul f1000 hf
    rw [t1000] at hk
    have ht0 : 0 ≤ toRat t := by
      have := (le_iff (a := zero) rfl hf).1 ht
      rwa [show toRat zero = 0 from by decide +kernel] at this
    have nan : hi.isNaN = false := by cases hi <;> first | rfl | cases hhi
    refine le_of_key nan hk.1 ?_
    rw [hk.2]
    rcases hr with hr | hr
    · have := (le_key hr).2.2
      rw [show key zero = 0 from rfl] at this
      exact this.trans (keyR_nonneg (by linarith))
    · have hb : (1 : ℚ) / 2 ^ 112 ≤ toRat hi := by
        have := (le_iff (a := tiny) rfl hhi).1 hr
        refine _root_.le_trans ?_ this
        decide +kernel
      have hm : toRat Duration32.milli = 8589935 / 2 ^ 33 := by decide +kernel
      have e := rnd_err_normal (q := toRat Duration32.milli * toRat hi) (by
        rw [hm, abs_of_nonneg (by positivity)]
        norm_num at hb ⊢
        linarith)
      have hov : |toRat hi| < ovf := Repr.lt_ovf ⟨hi, hhi, rfl⟩
      have hh0 : 0 < toRat hi := lt_of_lt_of_le (by positivity) hb
      have hq0 : 0 ≤ toRat Duration32.milli * toRat hi := by rw [hm]; positivity
      have hmr := toRat_mul (a := Duration32.milli) (b := hi) rfl hhi (by
        rw [abs_of_nonneg hq0, hm]
        rw [abs_of_pos hh0] at hov
        norm_num
        linarith)
      have hmf : (mul Duration32.milli hi).isFinite = true := by
        rcases isFinite_or_inf (le_key h).1 with hx | ⟨s, hx⟩
        · exact hx
        · have k := (le_key h).2.2
          have kt := (isFinite_iff_key t).1 hf
          have kp := key_mul (a := Duration32.milli) (b := hi) rfl hhi
          have kn := keyR_nonneg hq0
          rw [← kp.2] at kn
          rw [hx] at k kn
          cases s
          · rw [key_inf_false] at k
            omega
          · rw [key_inf_true] at kn
            simp [infPat] at kn
      have hle := (le_iff hmf hf).1 h
      rw [hmr] at hle
      rw [abs_of_nonneg hq0] at e
      have e' := neg_abs_le (rnd (toRat Duration32.milli * toRat hi) - toRat Duration32.milli * toRat hi)
      have hmain : toRat hi * (1 - 1 / 2 ^ 26) ≤ 1000 * toRat t := by
        rw [hm] at e e' hle
        norm_num at e e' hle ⊢
        linarith
      obtain ⟨s, n, hn, rfl⟩ := exists_of_isFinite hhi
      cases s
      · have hmag : (toRat (.fin false n hn)) = (mag n : ℚ) / 2 ^ 149 := by
          simp [toRat]
        rw [keyR_of_nonneg (by linarith)]
        have hnear : n ≤ roundPat (1000 * toRat t * 2 ^ 149) := by
          refine le_roundPat_near ?_
          rw [hmag] at hmain
          have := mul_le_mul_of_nonneg_right hmain (show (0 : ℚ) ≤ 2 ^ 149 by positivity)
          refine _root_.le_trans (le_of_eq ?_) this
          field_simp
        show ((n : Nat) : Int) ≤ _
        have : n ≤ min (roundPat (1000 * toRat t * 2 ^ 149)) infPat := le_min hnear hn.le
        exact_mod_cast this
      · exfalso
        have : toRat (.fin true n hn) ≤ 0 := by
          have : (0 : ℚ) ≤ (mag n : ℚ) / 2 ^ 149 := by positivity
          simp only [toRat, if_true, neg_mul, one_mul, neg_div]
          linarith
        linarith
  · cases s
    · have : mul (ofInt 1000) (inf false) = inf false := by decide +kernel
      rw [this]
      exact le_pos_inf (by cases hi <;> first | rfl | cases hhi)
    · exact absurd ht (by decide)

end Verif.StrokeDry
