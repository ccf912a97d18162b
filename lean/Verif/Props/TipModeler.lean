import Verif.Spec.TipModeler
import Verif.Props.BrushBehavior

/-!
# C42, C43: the tip states of a stroke
-/

set_option autoImplicit false

namespace Verif.Tip

open F32 BehaviorSpec TipSpec

variable (M : Libm) (tabulate : Easing.CubicBezier → List F32) (fuel : Nat)

/-! ## Tip states are only appended -/

/-- The same accumulator behind other tip states. -/
def Acc.pre (F : List TipState) (a : Acc) : Acc := { a with out := F ++ a.out }

theorem addTipState_pre (m : Modeler) (st : MState) (input : Input) (dir : Option F32)
    (prev : Option Metrics) (F : List TipState) (a : Acc) :
    m.addTipState M st input dir prev (a.pre F) =
      (m.addTipState M st input dir prev a).map (Acc.pre F) := by
  unfold Modeler.addTipState
  show (match processNodes M _ m.nodes ⟨[], a.damped, a.mods⟩ with | none => _ | some mem => _) = _
  cases processNodes M ⟨st, input, dir, m.size, prev⟩ m.nodes ⟨[], a.damped, a.mods⟩ with
  | none => rfl
  | some mem =>
    simp only
    split
    · rfl
    · simp [Acc.pre]

theorem appendGap_pre (F : List TipState) (a : Acc) : (a.pre F).appendGap = (a.appendGap).pre F := by
  simp [Acc.pre, Acc.appendGap]

theorem emit_pre (m : Modeler) (st : MState) (cur prev : Input) (dir : Option F32)
    (F : List TipState) (a : Acc) :
    m.emit M st cur prev dir fuel (a.pre F) = (m.emit M st cur prev dir fuel a).map (Acc.pre F) := by
  induction fuel generalizing a with
  | zero =>
    unfold Modeler.emit
    show (match a.metrics with | none => _ | some last => _) = _
    cases a.metrics with
    | none => rfl
    | some last => simp only; split <;> rfl
  | succ n ih =>
    unfold Modeler.emit
    show (match a.metrics with | none => _ | some last => _) = _
    cases a.metrics with
    | none => rfl
    | some last =>
      simp only
      split
      · rfl
      · rw [addTipState_pre]
        cases m.addTipState M st (lerpInput cur prev (m.particleRatio cur prev last)) dir
          (some last) a with
        | none => rfl
        | some a' =>
          simp only [Option.map_some]
          rw [appendGap_pre, ih]

theorem processInput_pre (m : Modeler) (st : MState) (cur : Input) (dir : Option F32)
    (prev : Option Input) (F : List TipState) (a : Acc) :
    m.processInput M fuel st cur dir prev (a.pre F) =
      (m.processInput M fuel st cur dir prev a).map (Acc.pre F) := by
  unfold Modeler.processInput
  show (if m.continuous || a.metrics.isNone then _ else _) = _
  split
  · rw [addTipState_pre]
    cases m.addTipState M st cur dir (prev.map fun p => ⟨p.traveledDistance, p.elapsedTime⟩) a with
    | none => rfl
    | some a' =>
      simp only [Option.map_some, appendGap_pre]
      split <;> rfl
  · cases prev with
    | none => rfl
    | some p => exact emit_pre M fuel m st cur p dir F a

theorem processIndex_pre (m : Modeler) (st : MState) (inputs : List Input) (i : Nat)
    (F : List TipState) (a : Acc) :
    m.processIndex M fuel st inputs i (a.pre F) =
      (m.processIndex M fuel st inputs i a).map (Acc.pre F) := by
  unfold Modeler.processIndex
  split
  · exact processInput_pre M fuel m st _ _ _ F a
  · rfl

theorem runFrom_pre (m : Modeler) (st : MState) (inputs : List Input) (k i : Nat)
    (F : List TipState) (a : Acc) :
    m.runFrom M fuel st inputs k i (a.pre F) = (m.runFrom M fuel st inputs k i a).map (Acc.pre F) := by
  induction k generalizing i a with
  | zero => rfl
  | succ k ih =>
    unfold Modeler.runFrom
    rw [processIndex_pre]
    cases m.processIndex M fuel st inputs i a with
    | none => rfl
    | some a' => exact ih (i + 1) a'

theorem runFrom_add (m : Modeler) (st : MState) (inputs : List Input) (j k i : Nat) (a : Acc) :
    m.runFrom M fuel st inputs (j + k) i a =
      (m.runFrom M fuel st inputs j i a).bind (m.runFrom M fuel st inputs k (i + j)) := by
  induction j generalizing i a with
  | zero => simp [Modeler.runFrom]
  | succ j ih =>
    rw [show j + 1 + k = (j + k) + 1 by omega]
    rw [Modeler.runFrom, Modeler.runFrom]
    cases m.processIndex M fuel st inputs i a with
    | none => rfl
    | some a' =>
      simp only
      rw [ih, show i + 1 + j = i + (j + 1) by omega]

/-! ## Only the configuration of the modeler matters -/

/-- The members that `UpdateStroke` does not change are the same. -/
def SameConfig (m m' : Modeler) : Prop :=
  m.tip = m'.tip ∧ m.size = m'.size ∧ m.distanceUpperBound = m'.distanceUpperBound ∧
  m.timeUpperBound = m'.timeUpperBound ∧ m.dependsNext = m'.dependsNext ∧ m.nodes = m'.nodes ∧
  m.targets = m'.targets ∧ m.gap = m'.gap

theorem SameConfig.refl (m : Modeler) : SameConfig m m := ⟨rfl, rfl, rfl, rfl, rfl, rfl, rfl, rfl⟩

theorem SameConfig.trans {a b c : Modeler} (h : SameConfig a b) (g : SameConfig b c) :
    SameConfig a c :=
  ⟨h.1.trans g.1, h.2.1.trans g.2.1, h.2.2.1.trans g.2.2.1, h.2.2.2.1.trans g.2.2.2.1,
    h.2.2.2.2.1.trans g.2.2.2.2.1, h.2.2.2.2.2.1.trans g.2.2.2.2.2.1,
    h.2.2.2.2.2.2.1.trans g.2.2.2.2.2.2.1, h.2.2.2.2.2.2.2.trans g.2.2.2.2.2.2.2⟩

theorem SameConfig.symm {a b : Modeler} (h : SameConfig a b) : SameConfig b a :=
  ⟨h.1.symm, h.2.1.symm, h.2.2.1.symm, h.2.2.2.1.symm, h.2.2.2.2.1.symm, h.2.2.2.2.2.1.symm,
    h.2.2.2.2.2.2.1.symm, h.2.2.2.2.2.2.2.symm⟩

/-- The state of the input modeler as far as the other sources see it, and the travel direction as far
as it is used. -/
structure Agree (m : Modeler) (st st' : MState) (dir dir' : Option F32) : Prop where
  tool : st'.toolType = st.toolType
  unit : st'.strokeUnitLength = st.strokeUnitLength
  source : st' = st ∨ ∀ s oor lo hi, INode.source s oor lo hi ∈ m.nodes → ofTheEnd s = false
  dirSource : dir' = dir ∨ ∀ s oor lo hi, INode.source s oor lo hi ∈ m.nodes → isDirection s = false
  dirTarget : dir' = dir ∨ ∀ t ∈ m.targets, alongDirection t = false

theorem sourceValue_congr {st st' : MState} {dir dir' : Option F32} {s : Source} {i : Input} {size : F32}
    (unit : st'.strokeUnitLength = st.strokeUnitLength) (hs : st' = st ∨ ofTheEnd s = false)
    (hd : dir' = dir ∨ isDirection s = false) :
    sourceValue M i dir' size st' s = sourceValue M i dir size st s := by
  rcases hs with rfl | hs
  · rcases hd with rfl | hd
    · rfl
    · cases s <;> first | rfl | cases hd
  · rcases hd with rfl | hd
    · cases s <;> first | rfl | exact absurd hs (by decide) | (simp only [sourceValue, unit])
    · cases s <;> first | rfl | exact absurd hs (by decide) | exact absurd hd (by decide) |
        (simp only [sourceValue, unit])

theorem processNodes_congr {c c' : Ctx} (hi : c'.input = c.input) (hz : c'.size = c.size)
    (hp : c'.prev = c.prev) (ht : c'.st.toolType = c.st.toolType)
    (hu : c'.st.strokeUnitLength = c.st.strokeUnitLength) (l : List INode)
    (hs : c'.st = c.st ∨ ∀ s oor lo hi, INode.source s oor lo hi ∈ l → ofTheEnd s = false)
    (hd : c'.dir = c.dir ∨ ∀ s oor lo hi, INode.source s oor lo hi ∈ l → isDirection s = false)
    (mem : Mem) : processNodes M c' l mem = processNodes M c l mem := by
  induction l generalizing mem with
  | nil => rfl
  | cons n l ih =>
    have hn : processNode M c' n mem = processNode M c n mem := by
      obtain ⟨st, ds, ms⟩ := mem
      cases n with
      | source s oor lo up =>
        have : sourceNodeValue M c' s oor lo up = sourceNodeValue M c s oor lo up := by
          unfold sourceNodeValue
          rw [hi, hz, sourceValue_congr M hu (hs.imp id fun h => h s oor lo up (by simp))
            (hd.imp id fun h => h s oor lo up (by simp))]
        simp only [processNode, this]
      | damping idx s gap =>
        have : ∀ d x, dampedValue M c' s gap d x = dampedValue M c s gap d x := by
          intro d x
          unfold dampedValue
          rw [hp, hu, hi, hz]
        cases st with
        | nil => rfl
        | cons x st => simp only [processNode, this]
      | fallbackFilter p => cases st <;> simp only [processNode, hi]
      | toolTypeFilter e => cases st <;> simp only [processNode, ht]
      | constant v => rfl
      | easing e => cases st <;> rfl
      | binaryOp op => rcases st with _ | ⟨a, _ | ⟨b, st⟩⟩ <;> rfl
      | interpolation i => rcases st with _ | ⟨a, _ | ⟨b, _ | ⟨c, st⟩⟩⟩ <;> rfl
      | target idx lo hi => cases st <;> rfl
    unfold processNodes
    rw [hn]
    cases processNode M c n mem with
    | none => rfl
    | some m' =>
      exact ih (hs.imp id fun h s o lo hi hm => h s o lo hi (List.mem_cons_of_mem _ hm))
        (hd.imp id fun h s o lo hi hm => h s o lo hi (List.mem_cons_of_mem _ hm)) m'

theorem foldl_dir_congr {size : F32} (f f' g g' : Option (F32 × F32)) (l : List (Target × F32))
    (h : ∀ tv ∈ l, alongDirection tv.1 = false) (m : Modifiers F32) :
    l.foldl (fun m tv => applyModifier size f' g' m tv.1 tv.2) m =
      l.foldl (fun m tv => applyModifier size f g m tv.1 tv.2) m := by
  induction l generalizing m with
  | nil => rfl
  | cons tv l ih =>
    simp only [List.foldl_cons]
    have : applyModifier size f' g' m tv.1 tv.2 = applyModifier size f g m tv.1 tv.2 := by
      have h1 := h tv (by simp)
      obtain ⟨t, v⟩ := tv
      cases t <;> first | rfl | cases h1
    rw [this]
    exact ih (fun tv htv => h tv (List.mem_cons_of_mem _ htv)) _

theorem createTipState_congr {position : PointF} {dir dir' : Option F32} {tip : BrushTip} {size : F32}
    {ts : List Target} {vs : List F32} (h : dir' = dir ∨ ∀ t ∈ ts, alongDirection t = false) :
    createTipState M position dir' tip size (ts.zip vs) =
      createTipState M position dir tip size (ts.zip vs) := by
  rcases h with rfl | h
  · rfl
  · unfold createTipState accumulate
    rw [foldl_dir_congr]
    intro tv htv
    exact h tv.1 (List.of_mem_zip htv).1

theorem addTipState_congr {m m' : Modeler} (hm : SameConfig m' m) {st st' : MState}
    {dir dir' : Option F32} (h : Agree m st st' dir dir') (input : Input) (prev : Option Metrics)
    (a : Acc) : m'.addTipState M st' input dir' prev a = m.addTipState M st input dir prev a := by
  unfold Modeler.addTipState
  rw [hm.1, hm.2.1, hm.2.2.2.2.2.1, hm.2.2.2.2.2.2.1,
    processNodes_congr M (c := ⟨st, input, dir, m.size, prev⟩) (c' := ⟨st', input, dir', m.size, prev⟩)
      rfl rfl rfl h.tool h.unit m.nodes h.source h.dirSource]
  cases processNodes M ⟨st, input, dir, m.size, prev⟩ m.nodes ⟨[], a.damped, a.mods⟩ with
  | none => rfl
  | some mem => simp only [createTipState_congr M h.dirTarget]

theorem emit_congr {m m' : Modeler} (hm : SameConfig m' m) {st st' : MState}
    {dir dir' : Option F32} (h : Agree m st st' dir dir') (cur prev : Input) (a : Acc) :
    m'.emit M st' cur prev dir' fuel a = m.emit M st cur prev dir fuel a := by
  have hf : ∀ last, m'.particleFits cur last = m.particleFits cur last := fun last => by
    unfold Modeler.particleFits; rw [hm.2.2.2.2.2.2.2]
  have hr : ∀ last, m'.particleRatio cur prev last = m.particleRatio cur prev last := fun last => by
    unfold Modeler.particleRatio; rw [hm.2.2.2.2.2.2.2]
  induction fuel generalizing a with
  | zero =>
    unfold Modeler.emit
    cases a.metrics with
    | none => rfl
    | some last => simp only [hf]
  | succ n ih =>
    unfold Modeler.emit
    cases a.metrics with
    | none => rfl
    | some last =>
      simp only [hf, hr, addTipState_congr M hm h, ih]

theorem processInput_congr {m m' : Modeler} (hm : SameConfig m' m) {st st' : MState}
    {dir dir' : Option F32} (h : Agree m st st' dir dir') (cur : Input) (prev : Option Input) (a : Acc) :
    m'.processInput M fuel st' cur dir' prev a = m.processInput M fuel st cur dir prev a := by
  have hc : m'.continuous = m.continuous := by
    unfold Modeler.continuous; rw [hm.2.2.2.2.2.2.2]
  unfold Modeler.processInput
  simp only [hc, addTipState_congr M hm h, emit_congr M fuel hm h]

/-- Nothing after the next input matters to the processing of an input, and the next one only through
the travel direction. -/
theorem processIndex_congr {m m' : Modeler} (hm : SameConfig m' m) {st st' : MState}
    {inputs inputs' : List Input} {i : Nat}
    (h0 : inputs'[i]? = inputs[i]?) (h1 : 0 < i → inputs'[i - 1]? = inputs[i - 1]?)
    (tool : st'.toolType = st.toolType) (unit : st'.strokeUnitLength = st.strokeUnitLength)
    (hs : st' = st ∨ ∀ s oor lo hi, INode.source s oor lo hi ∈ m.nodes → ofTheEnd s = false)
    (hd : inputs'[i + 1]? = inputs[i + 1]? ∨
      ((∀ s oor lo hi, INode.source s oor lo hi ∈ m.nodes → isDirection s = false) ∧
        ∀ t ∈ m.targets, alongDirection t = false)) (a : Acc) :
    m'.processIndex M fuel st' inputs' i a = m.processIndex M fuel st inputs i a := by
  unfold Modeler.processIndex
  rw [h0]
  cases hc : inputs[i]? with
  | none => rfl
  | some cur =>
    have e1 : (if 0 < i then inputs'[i - 1]? else none) = (if 0 < i then inputs[i - 1]? else none) := by
      split
      · rename_i h; exact h1 h
      · rfl
    rw [e1]
    have hx : ∀ l : List Input, l[i]? = some cur → ∃ d, travelDirection M l i = some d := by
      intro l hl
      unfold travelDirection
      rw [hl]
      simp only
      split <;> split <;> exact ⟨_, rfl⟩
    obtain ⟨d, hd1⟩ := hx inputs hc
    obtain ⟨d', hd2⟩ := hx inputs' (h0.trans hc)
    rw [hd1, hd2]
    simp only
    refine processInput_congr M fuel hm ⟨tool, unit, hs, ?_, ?_⟩ cur _ a
    · rcases hd with hd | hd
      · left
        have : travelDirection M inputs' i = travelDirection M inputs i := by
          unfold travelDirection
          rw [h0, hd]
          cases inputs[i]? with
          | none => rfl
          | some c =>
            by_cases h : 0 < i
            · simp only [h, if_true, h1 h]
            · simp only [h, if_false]
        rw [hd1, hd2] at this
        simpa using this
      · exact Or.inr hd.1
    · rcases hd with hd | hd
      · left
        have : travelDirection M inputs' i = travelDirection M inputs i := by
          unfold travelDirection
          rw [h0, hd]
          cases inputs[i]? with
          | none => rfl
          | some c =>
            by_cases h : 0 < i
            · simp only [h, if_true, h1 h]
            · simp only [h, if_false]
        rw [hd1, hd2] at this
        simpa using this
      · exact Or.inr hd.2

theorem runFrom_config {m m' : Modeler} (hm : SameConfig m' m) (st : MState) (inputs : List Input)
    (k i : Nat) (a : Acc) :
    m'.runFrom M fuel st inputs k i a = m.runFrom M fuel st inputs k i a := by
  induction k generalizing i a with
  | zero => rfl
  | succ k ih =>
    unfold Modeler.runFrom
    rw [processIndex_congr M fuel hm rfl (fun _ => rfl) rfl rfl (Or.inl rfl) (Or.inl rfl)]
    cases m.processIndex M fuel st inputs i a with
    | none => rfl
    | some a' => exact ih (i + 1) a'

/-- The loop over the stable inputs is a run over some of them. -/
theorem fixLoop_spec (m : Modeler) (st : MState) (inputs : List Input) (mx : Metrics) (k i : Nat)
    (a : Acc) {i' : Nat} {a' : Acc} (h : m.fixLoop M fuel st inputs mx k i a = some (i', a')) :
    i ≤ i' ∧ m.runFrom M fuel st inputs (i' - i) i a = some a' ∧
      (i' = i ∨ i' + (if m.dependsNext then 1 else 0) ≤ st.stableInputCount) := by
  induction k generalizing i a with
  | zero =>
    simp only [Modeler.fixLoop, Option.some.injEq, Prod.mk.injEq] at h
    obtain ⟨rfl, rfl⟩ := h
    exact ⟨le_refl _, by simp [Modeler.runFrom], Or.inl rfl⟩
  | succ k ih =>
    have stop : some (i, a) = some (i', a') → i ≤ i' ∧
        m.runFrom M fuel st inputs (i' - i) i a = some a' ∧
        (i' = i ∨ i' + (if m.dependsNext then 1 else 0) ≤ st.stableInputCount) := by
      intro h
      simp only [Option.some.injEq, Prod.mk.injEq] at h
      obtain ⟨rfl, rfl⟩ := h
      exact ⟨le_refl _, by simp [Modeler.runFrom], Or.inl rfl⟩
    rw [Modeler.fixLoop] at h
    by_cases h1 : i + (if m.dependsNext then 1 else 0) < st.stableInputCount
    · rw [if_neg (by simpa using h1)] at h
      cases hc : inputs[i]? with
      | none => rw [hc] at h; cases h
      | some cur =>
        rw [hc] at h
        simp only at h
        split at h
        · exact stop h
        · cases hp : m.processIndex M fuel st inputs i a with
          | none => rw [hp] at h; cases h
          | some b =>
            rw [hp] at h
            obtain ⟨e1, e2, e3⟩ := ih (i + 1) b h
            refine ⟨by omega, ?_, ?_⟩
            · rw [show i' - i = (i' - (i + 1)) + 1 by omega, Modeler.runFrom, hp]
              exact e2
            · right
              rcases e3 with e3 | e3 <;> omega
    · rw [if_pos (by simpa using h1)] at h
      exact stop h

/-- The check of an input before it is fixed. -/
def Passes (m : Modeler) (u : Update) (n : Nat) : Prop :=
  ∃ cur mx, u.inputs[n]? = some cur ∧ m.maxFixedMetrics u.state u.inputs = some mx ∧
    gt cur.traveledDistance mx.traveledDistance = false ∧ mx.elapsedTime.lt cur.elapsedTime = false

theorem Passes.config {m m' : Modeler} (h : SameConfig m' m) {u : Update} {n : Nat}
    (p : Passes m' u n) : Passes m u n := by
  obtain ⟨cur, mx, p1, p2, p3⟩ := p
  refine ⟨cur, mx, p1, ?_, p3⟩
  unfold Modeler.maxFixedMetrics at p2 ⊢
  rw [← h.2.2.1, ← h.2.2.2.1]
  exact p2

theorem fixLoop_passes (m : Modeler) (st : MState) (inputs : List Input) (mx : Metrics) (k i : Nat)
    (a : Acc) {i' : Nat} {a' : Acc} (h : m.fixLoop M fuel st inputs mx k i a = some (i', a'))
    (hmx : m.maxFixedMetrics st inputs = some mx) {n : Nat} (h1 : i ≤ n) (h2 : n < i') :
    Passes m ⟨st, inputs⟩ n := by
  induction k generalizing i a with
  | zero =>
    simp only [Modeler.fixLoop, Option.some.injEq, Prod.mk.injEq] at h
    omega
  | succ k ih =>
    rw [Modeler.fixLoop] at h
    by_cases h3 : i + (if m.dependsNext then 1 else 0) < st.stableInputCount
    · rw [if_neg (by simpa using h3)] at h
      cases hc : inputs[i]? with
      | none => rw [hc] at h; cases h
      | some cur =>
        rw [hc] at h
        simp only at h
        split at h
        · simp only [Option.some.injEq, Prod.mk.injEq] at h
          omega
        · rename_i hcheck
          cases hp : m.processIndex M fuel st inputs i a with
          | none => rw [hp] at h; cases h
          | some b =>
            rw [hp] at h
            by_cases hn : n = i
            · subst hn
              simp only [Bool.or_eq_true, not_or, Bool.not_eq_true] at hcheck
              exact ⟨cur, mx, hc, hmx, hcheck⟩
            · exact ih (i + 1) b h (by omega)
    · rw [if_pos (by simpa using h3)] at h
      simp only [Option.some.injEq, Prod.mk.injEq] at h
      omega

theorem update_passes {m m' : Modeler} {u : Update}
    (h : m.update M fuel u.state u.inputs = some m') {n : Nat} (h1 : m.nextFixed ≤ n)
    (h2 : n < m'.nextFixed) : Passes m u n := by
  unfold Modeler.update at h
  split at h
  · simp only [Option.some.injEq] at h
    subst h
    simp only at h2
    omega
  · cases hm : m.maxFixedMetrics u.state u.inputs with
    | none => rw [hm] at h; cases h
    | some mx =>
      rw [hm] at h
      simp only at h
      cases hf : m.fixLoop M fuel u.state u.inputs mx (u.state.stableInputCount - m.nextFixed) m.nextFixed
          ⟨m.fixedMetrics, m.fixedDamped, m.fixedMods, []⟩ with
      | none => rw [hf] at h; cases h
      | some p =>
        obtain ⟨i, a⟩ := p
        rw [hf] at h
        simp only at h
        cases hr : m.runFrom M fuel u.state u.inputs (u.inputs.length - i) i a with
        | none => rw [hr] at h; cases h
        | some b =>
          rw [hr] at h
          simp only [Option.some.injEq] at h
          subst h
          exact fixLoop_passes M fuel m u.state u.inputs mx _ _ _ hf hm h1 h2

/-- What an update does: it goes on with the run over the inputs, and hands out as fixed what the run
over the first inputs gives. -/
theorem update_spec {m m' : Modeler} {st : MState} {inputs : List Input}
    (h : m.update M fuel st inputs = some m') (hne : inputs ≠ []) :
    SameConfig m' m ∧ m.nextFixed ≤ m'.nextFixed ∧
    (m'.nextFixed = m.nextFixed ∨
      m'.nextFixed + (if m.dependsNext then 1 else 0) ≤ st.stableInputCount) ∧
    ∃ new vol b, m'.newFixed = some new ∧ m'.volatile = some vol ∧
      m.runFrom M fuel st inputs (m'.nextFixed - m.nextFixed) m.nextFixed
        ⟨m.fixedMetrics, m.fixedDamped, m.fixedMods, []⟩ =
        some ⟨m'.fixedMetrics, m'.fixedDamped, m'.fixedMods, new⟩ ∧
      m.runFrom M fuel st inputs (inputs.length - m'.nextFixed) m'.nextFixed
        ⟨m'.fixedMetrics, m'.fixedDamped, m'.fixedMods, new⟩ = some b ∧ b.out = new ++ vol := by
  unfold Modeler.update at h
  rw [if_neg hne] at h
  cases hm : m.maxFixedMetrics st inputs with
  | none => rw [hm] at h; cases h
  | some mx =>
    rw [hm] at h
    simp only at h
    cases hf : m.fixLoop M fuel st inputs mx (st.stableInputCount - m.nextFixed) m.nextFixed
        ⟨m.fixedMetrics, m.fixedDamped, m.fixedMods, []⟩ with
    | none => rw [hf] at h; cases h
    | some p =>
      obtain ⟨i, a⟩ := p
      rw [hf] at h
      simp only at h
      obtain ⟨e1, e2, e3⟩ := fixLoop_spec M fuel m st inputs mx _ _ _ hf
      cases hr : m.runFrom M fuel st inputs (inputs.length - i) i a with
      | none => rw [hr] at h; cases h
      | some b =>
        rw [hr] at h
        simp only [Option.some.injEq] at h
        subst h
        have hpre : ∃ vol, b.out = a.out ++ vol := by
          have : a = Acc.pre a.out { a with out := [] } := by simp [Acc.pre]
          rw [this, runFrom_pre] at hr
          obtain ⟨b', -, hb⟩ := Option.map_eq_some_iff.1 hr
          exact ⟨b'.out, by rw [← hb]; rfl⟩
        obtain ⟨vol, hv⟩ := hpre
        refine ⟨⟨rfl, rfl, rfl, rfl, rfl, rfl, rfl, rfl⟩, e1, e3, a.out, vol, b, ?_, ?_, e2, hr, hv⟩
        · simp only [Modeler.newFixed, hv]
          simp
        · simp only [Modeler.volatile, hv]
          simp

/-! ## C42 -/

theorem onePass_append (m : Modeler) (l l' : List (Update × Nat)) (i : Nat) (a : Acc) :
    onePass M fuel m (l ++ l') i a =
      (onePass M fuel m l i a).bind (onePass M fuel m l' (i + (l.map Prod.snd).sum)) := by
  induction l generalizing i a with
  | nil => simp [onePass]
  | cons p l ih =>
    obtain ⟨u, k⟩ := p
    simp only [List.cons_append, onePass]
    cases m.runFrom M fuel u.state u.inputs k i a with
    | none => rfl
    | some a' =>
      simp only
      rw [ih]
      simp only [List.map_cons, List.sum_cons]
      rw [Nat.add_assoc]

theorem collect_append (m : Modeler) (F : List TipState) (us vs : List Update) :
    collect M fuel m F (us ++ vs) =
      (collect M fuel m F us).bind fun p => collect M fuel p.1 p.2 vs := by
  induction us generalizing m F with
  | nil => simp [collect]
  | cons u us ih =>
    simp only [List.cons_append, collect]
    cases m.update M fuel u.state u.inputs with
    | none => rfl
    | some m' =>
      simp only
      cases m'.newFixed with
      | none => rfl
      | some new => exact ih m' _

theorem acc_pre (m : Option Metrics) (d ms : List F32) (F : List TipState) :
    (⟨m, d, ms, F⟩ : Acc) = Acc.pre F ⟨m, d, ms, []⟩ := by simp [Acc.pre]

/-- One update after a run. -/
theorem step_spec {m0 m m' : Modeler} (hc : SameConfig m m0) {u : Update} {new : List TipState}
    (h : m.update M fuel u.state u.inputs = some m') (hn : m'.newFixed = some new) (F : List TipState) :
    SameConfig m' m0 ∧ ∃ k vol b, m'.nextFixed = m.nextFixed + k ∧
      (k = 0 ∨ m.nextFixed + k + (if m0.dependsNext then 1 else 0) ≤ u.state.stableInputCount) ∧
      m'.volatile = some vol ∧
      m0.runFrom M fuel u.state u.inputs k m.nextFixed
        ⟨m.fixedMetrics, m.fixedDamped, m.fixedMods, F⟩ =
        some ⟨m'.fixedMetrics, m'.fixedDamped, m'.fixedMods, F ++ new⟩ ∧
      m0.runFrom M fuel u.state u.inputs (u.inputs.length - m'.nextFixed) m'.nextFixed
        ⟨m'.fixedMetrics, m'.fixedDamped, m'.fixedMods, F ++ new⟩ = some b ∧
      b.out = F ++ new ++ vol := by
  by_cases hne : u.inputs = []
  · rw [hne] at h ⊢
    simp only [Modeler.update, if_true, Option.some.injEq] at h
    subst h
    simp only [Modeler.newFixed, List.take_nil, List.length_nil] at hn
    split at hn
    · rename_i h0
      simp only [Option.some.injEq] at hn
      subst hn
      refine ⟨hc, 0, [], ⟨m.fixedMetrics, m.fixedDamped, m.fixedMods, F⟩, rfl, Or.inl rfl, ?_, ?_, ?_, ?_⟩
      · simp only [Modeler.volatile, List.length_nil, if_pos h0, List.drop_nil]
      · simp [Modeler.runFrom]
      · simp [Modeler.runFrom]
      · simp
    · cases hn
  · obtain ⟨e1, e2, e3, new', vol, b, f1, f2, f3, f4, f5⟩ := update_spec M fuel h hne
    rw [hn] at f1
    simp only [Option.some.injEq] at f1
    subst f1
    refine ⟨e1.trans hc, m'.nextFixed - m.nextFixed, vol, b.pre F, by omega, ?_, f2, ?_, ?_, ?_⟩
    · rcases e3 with e3 | e3
      · left; omega
      · right
        rw [← hc.2.2.2.2.1]
        omega
    · rw [← runFrom_config M fuel hc, acc_pre, runFrom_pre, f3]
      simp [Acc.pre]
    · rw [← runFrom_config M fuel hc]
      have : (⟨m'.fixedMetrics, m'.fixedDamped, m'.fixedMods, F ++ new⟩ : Acc) =
          Acc.pre F ⟨m'.fixedMetrics, m'.fixedDamped, m'.fixedMods, new⟩ := by simp [Acc.pre]
      rw [this, runFrom_pre, f4]
      rfl
    · simp [Acc.pre, f5]

theorem collect_spec {m0 : Modeler} (hn : m0.nextFixed = 0) (hm : m0.fixedMetrics = none)
    (us : List Update) : ∀ {m : Modeler} {F : List TipState},
    collect M fuel m0 [] us = some (m, F) →
    ∃ counts : List Nat, counts.length = us.length ∧ SameConfig m m0 ∧ m.nextFixed = counts.sum ∧
      (∀ (j : Nat) (u : Update) (k : Nat), us[j]? = some u → counts[j]? = some k → k = 0 ∨
        (counts.take (j + 1)).sum + (if m0.dependsNext then 1 else 0) ≤ u.state.stableInputCount) ∧
      onePass M fuel m0 (us.zip counts) 0 (nothing m0) =
        some ⟨m.fixedMetrics, m.fixedDamped, m.fixedMods, F⟩ ∧
      (∀ (j : Nat) (u : Update) (n : Nat), us[j]? = some u → (counts.take j).sum ≤ n →
        n < (counts.take (j + 1)).sum → Passes m0 u n) := by
  induction us using List.reverseRecOn with
  | nil =>
    intro m F h
    simp only [collect, Option.some.injEq, Prod.mk.injEq] at h
    obtain ⟨rfl, rfl⟩ := h
    exact ⟨[], rfl, SameConfig.refl _, by simp [hn], by simp, by simp [onePass, nothing, hm], by simp⟩
  | append_singleton us u ih =>
    intro m' F' h
    rw [collect_append] at h
    cases hc : collect M fuel m0 [] us with
    | none => rw [hc] at h; cases h
    | some p =>
      obtain ⟨m, F⟩ := p
      rw [hc] at h
      simp only [Option.bind_some, collect] at h
      cases hu : m.update M fuel u.state u.inputs with
      | none => rw [hu] at h; cases h
      | some m1 =>
        rw [hu] at h
        simp only at h
        cases hf : m1.newFixed with
        | none => rw [hf] at h; cases h
        | some new =>
          rw [hf] at h
          simp only [Option.some.injEq, Prod.mk.injEq] at h
          obtain ⟨rfl, rfl⟩ := h
          obtain ⟨counts, c1, c2, c3, c4, c5, c6⟩ := ih hc
          obtain ⟨d1, k, vol, b, d2, d3, d4, d5, d6, d7⟩ := step_spec M fuel c2 hu hf F
          refine ⟨counts ++ [k], by simp [c1], d1, by simp [d2, c3], ?_, ?_, ?_⟩
          · intro j w q hw hq
            by_cases hj : j < us.length
            · rw [List.getElem?_append_left hj] at hw
              rw [List.getElem?_append_left (by omega)] at hq
              rw [List.take_append_of_le_length (by omega)]
              exact c4 j w q hw hq
            · have hj2 : j = us.length := by
                have := (List.getElem?_eq_some_iff.1 hw).1
                simp at this
                omega
              subst hj2
              rw [List.getElem?_append_right (le_refl _)] at hw
              rw [← c1, List.getElem?_append_right (le_refl _)] at hq
              simp at hw hq
              subst hw hq
              rw [List.take_of_length_le (by simp [c1])]
              simp only [List.sum_append, List.sum_singleton]
              rw [← c3]
              exact d3
          · rw [List.zip_append c1.symm, onePass_append, c5]
            simp only [Option.bind_some, List.zip_cons_cons, List.zip_nil_right, onePass]
            have : ((us.zip counts).map Prod.snd).sum = m.nextFixed := by
              rw [c3, List.map_snd_zip (by omega)]
            rw [this, Nat.zero_add, d5]
          · intro j w n hw hn1 hn2
            by_cases hj : j < us.length
            · rw [List.getElem?_append_left hj] at hw
              rw [List.take_append_of_le_length (by omega)] at hn1 hn2
              exact c6 j w n hw hn1 hn2
            · have hj2 : j = us.length := by
                have := (List.getElem?_eq_some_iff.1 hw).1
                simp at this
                omega
              subst hj2
              rw [List.getElem?_append_right (le_refl _)] at hw
              simp at hw
              subst hw
              rw [← c1, List.take_left' rfl] at hn1
              rw [List.take_of_length_le (by simp [c1]), List.sum_append, List.sum_singleton] at hn2
              exact (update_passes M fuel hu (by omega) (by omega)).config c2

theorem one_pass_core {tip : BrushTip} {size : F32} {m0 : Modeler}
    (hs : start tabulate tip size = some m0) (us : List Update) (u : Update) {m : Modeler}
    {F : List TipState} (h : collect M fuel m0 [] (us ++ [u]) = some (m, F)) :
    ∃ (counts : List Nat) (vol : List TipState) (a b : Acc),
      counts.length = us.length + 1 ∧
      (∀ (j : Nat) (v : Update) (k : Nat), (us ++ [u])[j]? = some v → counts[j]? = some k →
        k = 0 ∨ (counts.take (j + 1)).sum + (if m0.dependsNext then 1 else 0) ≤
          v.state.stableInputCount) ∧
      m.volatile = some vol ∧
      onePass M fuel m0 ((us ++ [u]).zip counts) 0 (nothing m0) = some a ∧ a.out = F ∧
      onePass M fuel m0 ((us ++ [u]).zip counts ++ [(u, u.inputs.length - counts.sum)]) 0
        (nothing m0) = some b ∧ b.out = F ++ vol ∧
      (∀ (j : Nat) (v : Update) (n : Nat), (us ++ [u])[j]? = some v → (counts.take j).sum ≤ n →
        n < (counts.take (j + 1)).sum → Passes m0 v n) := by
  obtain ⟨-, -, -, -, -, -, -, h0, hm, -⟩ := start_spec tabulate hs
  obtain ⟨counts, c1, c2, c3, c4, c5, c6⟩ := collect_spec M fuel h0 hm _ h
  rw [collect_append] at h
  cases hc : collect M fuel m0 [] us with
  | none => rw [hc] at h; cases h
  | some p =>
    obtain ⟨m1, F1⟩ := p
    rw [hc] at h
    simp only [Option.bind_some, collect] at h
    cases hu : m1.update M fuel u.state u.inputs with
    | none => rw [hu] at h; cases h
    | some m2 =>
      rw [hu] at h
      simp only at h
      cases hf : m2.newFixed with
      | none => rw [hf] at h; cases h
      | some new =>
        rw [hf] at h
        simp only [Option.some.injEq, Prod.mk.injEq] at h
        obtain ⟨rfl, rfl⟩ := h
        obtain ⟨counts1, -, e2, -, -, -⟩ := collect_spec M fuel h0 hm _ hc
        obtain ⟨d1, k, vol, b, d2, d3, d4, d5, d6, d7⟩ := step_spec M fuel e2 hu hf F1
        refine ⟨counts, vol, _, b, by simpa using c1, ?_, d4, c5, rfl, ?_, d7, c6⟩
        · intro j v k hv hk
          exact c4 j v k hv hk
        · rw [onePass_append, c5]
          simp only [Option.bind_some, onePass]
          have : (((us ++ [u]).zip counts).map Prod.snd).sum = m2.nextFixed := by
            rw [c3, List.map_snd_zip (by omega)]
          rw [this, ← c3, Nat.zero_add, d6]

theorem start_size {tip : BrushTip} {size : F32} {m : Modeler} (hs : start tabulate tip size = some m) :
    size.isFinite = true ∧ lt zero size = true := by
  unfold start at hs
  split at hs
  · cases hs
  · rename_i h
    simp only [Bool.or_eq_true, Bool.not_eq_true', not_or, Bool.not_eq_false] at h
    exact h

theorem smax_isNaN {a b : F32} (ha : a.isNaN = false) (hb : b.isNaN = false) :
    (smax a b).isNaN = false := by
  unfold smax
  split <;> assumption

theorem lt_smax_iff {a b d : F32} (ha : a.isNaN = false) (hb : b.isNaN = false) :
    lt d (smax a b) = true ↔ lt d a = true ∨ lt d b = true := by
  unfold smax
  by_cases h : lt a b = true
  · rw [if_pos h]
    refine ⟨Or.inr, fun h' => h'.elim (fun h' => ?_) id⟩
    unfold lt at *
    simp only [Bool.and_eq_true, Bool.not_eq_true', decide_eq_true_eq] at *
    exact ⟨⟨h'.1.1, hb⟩, by omega⟩
  · rw [if_neg h]
    refine ⟨Or.inl, fun h' => h'.elim id (fun h' => ?_)⟩
    unfold lt at *
    simp only [Bool.and_eq_true, Bool.not_eq_true', decide_eq_true_eq, not_and] at *
    have := h ⟨ha, hb⟩
    exact ⟨⟨h'.1.1, ha⟩, by omega⟩

/-- The bounds of a node. -/
def nodeDistance (size : F32) : Node → F32
  | .source s oor lo hi => distanceBound s oor lo hi size
  | _ => zero

def nodeTime : Node → F32
  | .source s oor lo hi => (timeBound s oor lo hi).seconds
  | _ => zero

theorem source_range {s : Source} {oor : OutOfRange} {lo hi : F32}
    (h : (Node.source s oor lo hi).valid = true) : lo.isFinite = true ∧ hi.isFinite = true ∧
      ((s = .timeSinceInputSeconds ∨ s = .timeSinceInputMillis) → oor = .clamp) := by
  simp only [Node.valid, rangeOk, Bool.and_eq_true] at h
  refine ⟨h.2.1.1, h.2.1.2, fun hs => ?_⟩
  rcases hs with rfl | rfl <;> simpa [sourceOutOfRangeOk] using h.1

theorem smax_finite {a b : F32} (ha : a.isFinite = true) (hb : b.isFinite = true) :
    (smax a b).isFinite = true := by
  unfold smax
  split <;> assumption

theorem mul_finite_isNaN {a b : F32} (ha : a.isFinite = true) (hb : b.isFinite = true) :
    (F32.mul a b).isNaN = false := by
  rw [← Bool.not_eq_true, isNaN_mul (isNaN_of_isFinite ha) (isNaN_of_isFinite hb)]
  rintro (⟨-, -, h⟩ | ⟨-, -, h⟩)
  · cases b <;> simp_all [F32.isFinite, F32.isInf]
  · cases a <;> simp_all [F32.isFinite, F32.isInf]

theorem milli_finite : Duration32.milli.isFinite = true := by decide +kernel

theorem nodeDistance_isNaN {size : F32} (h1 : size.isFinite = true) (h2 : lt zero size = true)
    {n : Node} (hn : n.valid = true) : (nodeDistance size n).isNaN = false := by
  cases n with
  | source s oor lo hi =>
    obtain ⟨a, b, -⟩ := source_range hn
    unfold nodeDistance distanceBound
    simp only
    split
    · unfold sourceUpperBound
      split
      · rw [← Bool.not_eq_true, isNaN_mul (isNaN_of_isFinite h1) rfl]
        rintro (⟨-, h, -⟩ | ⟨h, -, -⟩)
        · rw [lt_iff (by rfl) h1, h] at h2
          simp [toRat_zero] at h2
        · cases h
      · exact mul_finite_isNaN h1 (smax_finite a b)
    · rfl
  | _ => rfl

theorem nodeTime_eq {n : Node} (hn : n.valid = true) :
    (nodeTime n).isNaN = false ∧ nodeTime n = (changesFor n).getD zero := by
  cases n with
  | source s oor lo hi =>
    obtain ⟨a, b, c⟩ := source_range hn
    have hf := isNaN_of_isFinite (smax_finite a b)
    unfold nodeTime timeBound
    simp only
    split
    · rw [c (Or.inl rfl)]
      simp only [sourceUpperBound, hasUpperBound, Bool.not_true, Bool.false_eq_true, if_false,
        Duration32.ofSeconds, hf, changesFor, Option.getD_some, and_self]
    · rw [c (Or.inr rfl)]
      simp only [sourceUpperBound, hasUpperBound, Bool.not_true, Bool.false_eq_true, if_false,
        Duration32.ofMillis, hf, changesFor, Option.getD_some, and_true]
      exact mul_finite_isNaN milli_finite (smax_finite a b)
    · refine ⟨rfl, ?_⟩
      unfold changesFor
      split
      · simp_all
      · simp_all
      · rfl
  | _ => exact ⟨rfl, rfl⟩

theorem durMax_seconds (a b : Duration32) : (durMax a b).seconds = smax a.seconds b.seconds := by
  unfold durMax smax Duration32.lt
  split <;> rfl

/-- The bounds of the whole tip are the largest of the bounds of its nodes. -/
theorem append_bounds (l : List Node) : ∀ (m : Modeler), (∀ n ∈ l, n.valid = true) →
    m.size.isFinite = true → lt zero m.size = true → m.distanceUpperBound.isNaN = false →
    m.timeUpperBound.seconds.isNaN = false → le zero m.distanceUpperBound = true →
    le zero m.timeUpperBound.seconds = true →
    (l.foldl (Modeler.append tabulate) m).distanceUpperBound.isNaN = false ∧
    (l.foldl (Modeler.append tabulate) m).timeUpperBound.seconds.isNaN = false ∧
    (∀ x, lt x (l.foldl (Modeler.append tabulate) m).distanceUpperBound = true ↔
      lt x m.distanceUpperBound = true ∨ ∃ n ∈ l, lt x (nodeDistance m.size n) = true) ∧
    (∀ x, lt x (l.foldl (Modeler.append tabulate) m).timeUpperBound.seconds = true ↔
      lt x m.timeUpperBound.seconds = true ∨ ∃ n ∈ l, lt x (nodeTime n) = true) := by
  induction l with
  | nil =>
    intro m _ _ _ h1 h2 _ _
    simp only [List.foldl_nil, List.not_mem_nil, false_and, exists_false, or_false, implies_true,
      and_true]
    exact ⟨h1, h2⟩
  | cons n l ih =>
    intro m hl s1 s2 h1 h2 z1 z2
    have hn := hl n (by simp)
    have d1 := nodeDistance_isNaN s1 s2 hn
    have d2 := (nodeTime_eq hn).1
    have trans : ∀ {x b : F32}, le zero b = true → lt x zero = true → lt x b = true := by
      intro x b h1 h2
      unfold le lt at *
      simp only [Bool.and_eq_true, Bool.not_eq_true', decide_eq_true_eq] at *
      exact ⟨⟨h2.1.1, h1.1.2⟩, by omega⟩
    have step : (m.append tabulate n).size = m.size ∧
        (m.append tabulate n).distanceUpperBound.isNaN = false ∧
        (m.append tabulate n).timeUpperBound.seconds.isNaN = false ∧
        (∀ x, lt x (m.append tabulate n).distanceUpperBound = true ↔
          lt x m.distanceUpperBound = true ∨ lt x (nodeDistance m.size n) = true) ∧
        (∀ x, lt x (m.append tabulate n).timeUpperBound.seconds = true ↔
          lt x m.timeUpperBound.seconds = true ∨ lt x (nodeTime n) = true) := by
      have other : ∀ n', n' = n → (∀ s oor lo hi, n' ≠ .source s oor lo hi) →
          nodeDistance m.size n = zero ∧ nodeTime n = zero := by
        intro n' e hn'
        subst e
        cases n' with
        | source s oor lo hi => exact absurd rfl (hn' s oor lo hi)
        | _ => exact ⟨rfl, rfl⟩
      have plain : ∀ m' : Modeler, m'.size = m.size → m'.distanceUpperBound = m.distanceUpperBound →
          m'.timeUpperBound = m.timeUpperBound → (∀ s oor lo hi, n ≠ .source s oor lo hi) →
          m'.size = m.size ∧ m'.distanceUpperBound.isNaN = false ∧
          m'.timeUpperBound.seconds.isNaN = false ∧
          (∀ x, lt x m'.distanceUpperBound = true ↔
            lt x m.distanceUpperBound = true ∨ lt x (nodeDistance m.size n) = true) ∧
          (∀ x, lt x m'.timeUpperBound.seconds = true ↔
            lt x m.timeUpperBound.seconds = true ∨ lt x (nodeTime n) = true) := by
        intro m' e1 e2 e3 hne
        rw [(other n rfl hne).1, (other n rfl hne).2, e1, e2, e3]
        exact ⟨rfl, h1, h2, fun x => ⟨Or.inl, fun h => h.elim id (trans z1)⟩,
          fun x => ⟨Or.inl, fun h => h.elim id (trans z2)⟩⟩
      cases n with
      | source s oor lo hi =>
        refine ⟨rfl, smax_isNaN h1 d1, ?_, fun x => lt_smax_iff h1 d1, fun x => ?_⟩
        · show (durMax _ _).seconds.isNaN = false
          rw [durMax_seconds]
          exact smax_isNaN h2 d2
        · show lt x (durMax _ _).seconds = true ↔ _
          rw [durMax_seconds]
          exact lt_smax_iff h2 d2
      | _ => exact plain _ rfl rfl rfl (by intro s oor lo hi h; cases h)
    obtain ⟨p1, p2, p3, p4, p5⟩ := step
    have nn : ∀ {b : F32}, b.isNaN = false → (lt b zero = false) → le zero b = true := by
      intro b h1 h2
      exact NLt.le h2 rfl h1
    have q1 : le zero (m.append tabulate n).distanceUpperBound = true := by
      refine nn p2 ?_
      cases hx : lt (m.append tabulate n).distanceUpperBound zero with
      | false => rfl
      | true =>
        have := (p4 _).2 (Or.inl (trans z1 hx))
        unfold lt at this
        simp at this
    have q2 : le zero (m.append tabulate n).timeUpperBound.seconds = true := by
      refine nn p3 ?_
      cases hx : lt (m.append tabulate n).timeUpperBound.seconds zero with
      | false => rfl
      | true =>
        have := (p5 _).2 (Or.inl (trans z2 hx))
        unfold lt at this
        simp at this
    obtain ⟨i1, i2, i3, i4⟩ := ih (m.append tabulate n) (fun k hk => hl k (by simp [hk])) (by rw [p1]; exact s1)
      (by rw [p1]; exact s2) p2 p3 q1 q2
    rw [List.foldl_cons]
    refine ⟨i1, i2, fun x => ?_, fun x => ?_⟩
    · rw [i3, p4, p1]
      simp only [List.mem_cons, exists_eq_or_imp, or_assoc]
    · rw [i4, p5]
      simp only [List.mem_cons, exists_eq_or_imp, or_assoc]

theorem valid_nodes {tip : BrushTip} (hv : tip.valid = true) :
    ∀ n ∈ tip.behaviors.flatten, n.valid = true := by
  unfold BrushTip.valid at hv
  simp only [Bool.and_eq_true] at hv
  intro n hn
  obtain ⟨b, hb, hn⟩ := List.mem_flatten.1 hn
  have hbv := List.all_eq_true.1 hv.2 b hb
  have go : ∀ (l : List Node) (d : Nat), (validateFrom d l).isSome → ∀ n ∈ l, n.valid = true := by
    intro l
    induction l with
    | nil => intro d _ n hn; cases hn
    | cons a l ih =>
      intro d h n hn
      rw [validateFrom] at h
      split at h
      · cases h
      split at h
      · cases h
      rcases List.mem_cons.1 hn with rfl | hn
      · simp_all
      · exact ih _ h n hn
  refine go b 0 ?_ n hn
  unfold Behavior.valid at hbv
  cases hx : validateFrom 0 b with
  | none => rw [hx] at hbv; cases hbv
  | some d => rfl

theorem start_bounds {tip : BrushTip} {size : F32} {m : Modeler} (hs : start tabulate tip size = some m)
    (hv : tip.valid = true) :
    m.distanceUpperBound.isNaN = false ∧ m.timeUpperBound.seconds.isNaN = false ∧
    (∀ x, lt x m.distanceUpperBound = true ↔
      lt x zero = true ∨ ∃ n ∈ tip.behaviors.flatten, lt x (nodeDistance size n) = true) ∧
    (∀ x, lt x m.timeUpperBound.seconds = true ↔
      lt x zero = true ∨ ∃ n ∈ tip.behaviors.flatten, lt x (nodeTime n) = true) := by
  obtain ⟨z1, z2⟩ := start_size tabulate hs
  unfold start at hs
  split at hs
  · cases hs
  · simp only [Option.some.injEq] at hs
    subst hs
    exact append_bounds tabulate _ _ (valid_nodes hv) z1 z2 rfl rfl (F32.le_refl rfl) (F32.le_refl rfl)

theorem lt_irrefl' (x : F32) : lt x x = false := by
  unfold lt
  simp

/-- An input which passes the check is far from the end, for every node. -/
theorem settled_of {tip : BrushTip} {size : F32} {m0 : Modeler} (hs : start tabulate tip size = some m0)
    (hv : tip.valid = true) {u : Update} (hf : FiniteInputs u) {n : Nat}
    (hn : u.state.stableInputCount ≠ 0) (p : Passes m0 u n) :
    ∃ last cur, u.inputs[u.state.stableInputCount - 1]? = some last ∧ u.inputs[n]? = some cur ∧
      ∀ node ∈ tip.behaviors.flatten, Settled size last cur node := by
  obtain ⟨cur, mx, p1, p2, p3, p4⟩ := p
  unfold Modeler.maxFixedMetrics at p2
  rw [if_neg hn] at p2
  obtain ⟨last, l1, l2⟩ := Option.map_eq_some_iff.1 p2
  subst l2
  refine ⟨last, cur, l1, p1, fun node hnode => ?_⟩
  obtain ⟨f1, f2⟩ := hf last (List.mem_of_getElem? l1)
  obtain ⟨g1, g2⟩ := hf cur (List.mem_of_getElem? p1)
  obtain ⟨b1, b2, b3, b4⟩ := start_bounds tabulate hs hv
  have hvn := valid_nodes hv node hnode
  obtain ⟨z1, z2⟩ := start_size tabulate hs
  have dn := nodeDistance_isNaN z1 z2 hvn
  have tn := (nodeTime_eq hvn).1
  have kd : NLt (nodeDistance size node) m0.distanceUpperBound := by
    unfold NLt
    cases hx : lt m0.distanceUpperBound (nodeDistance size node) with
    | false => rfl
    | true =>
      have := (b3 _).2 (Or.inr ⟨node, hnode, hx⟩)
      rw [lt_irrefl'] at this
      cases this
  have kt : NLt (nodeTime node) m0.timeUpperBound.seconds := by
    unfold NLt
    cases hx : lt m0.timeUpperBound.seconds (nodeTime node) with
    | false => rfl
    | true =>
      have := (b4 _).2 (Or.inr ⟨node, hnode, hx⟩)
      rw [lt_irrefl'] at this
      cases this
  have nan : ∀ {a b : F32}, a.isFinite = true → b.isNaN = false → (F32.sub a b).isNaN = false :=
    fun ha hb => isNaN_add ha (by rw [isNaN_neg]; exact hb)
  have rd : le cur.traveledDistance (F32.sub last.traveledDistance (nodeDistance size node)) = true := by
    refine F32.le_trans (b := F32.sub last.traveledDistance m0.distanceUpperBound) ?_ ?_
    · exact NLt.le p3 (isNaN_of_isFinite g1) (nan f1 b1)
    · exact NLt.le (NLt.sub (NLt.refl _) kd) (nan f1 b1) (nan f1 dn)
  have rt : le cur.elapsedTime.seconds (F32.sub last.elapsedTime.seconds (nodeTime node)) = true := by
    have e : (last.elapsedTime.sub m0.timeUpperBound).seconds =
        F32.sub last.elapsedTime.seconds m0.timeUpperBound.seconds := by
      unfold Duration32.sub Duration32.isFinite
      rw [f2]
      rfl
    unfold Duration32.lt at p4
    simp only at p4
    rw [e] at p4
    refine F32.le_trans (b := F32.sub last.elapsedTime.seconds m0.timeUpperBound.seconds) ?_ ?_
    · exact NLt.le p4 (isNaN_of_isFinite g2) (nan f2 b2)
    · exact NLt.le (NLt.sub (NLt.refl _) kt) (nan f2 b2) (nan f2 tn)
  have et := (nodeTime_eq hvn).2
  cases node with
  | source s oor lo hi =>
    obtain ⟨-, -, c⟩ := source_range hvn
    cases s with
    | distanceRemaining =>
      simp only [nodeDistance, distanceBound, sourceUpperBound] at rd
      cases oor with
      | clamp => exact ⟨rfl, by simpa [hasUpperBound] using rd⟩
      | _ =>
        exfalso
        simp only [hasUpperBound, Bool.not_false, if_true] at rd
        have e : F32.mul size (inf false) = inf false := by
          obtain ⟨s, k, hk, rfl⟩ := exists_of_isFinite z1
          cases s with
          | true => simp [lt, F32.key, zero, isNaN] at z2; omega
          | false =>
            cases k with
            | zero => simp [lt, F32.key, zero, isNaN] at z2
            | succ k => rfl
        rw [e] at rd
        obtain ⟨s, k, hk, e2⟩ := exists_of_isFinite f1
        obtain ⟨s', k', hk', e3⟩ := exists_of_isFinite g1
        rw [e2, e3] at rd
        have : F32.sub (fin s k hk) (inf false) = inf true := rfl
        rw [this] at rd
        unfold infPat at hk'
        cases s' <;> simp [le, F32.key, isNaN, infPat] at rd <;> omega
    | timeSinceInputSeconds =>
      rw [et] at rt
      exact ⟨c (Or.inl rfl), rt⟩
    | timeSinceInputMillis =>
      rw [et] at rt
      exact ⟨c (Or.inr rfl), rt⟩
    | _ => exact trivial
  | _ => exact trivial

/-- C42. Whatever the updates, the tip states handed out as fixed by all of them, followed by the
volatile ones after the last, are the outcome of one pass over the inputs: every input is modeled
once, in order. The first `counts[0]` inputs are modeled as the first update gives them, and are never
modeled again, and so on; the inputs after the fixed ones are modeled as the last update gives them,
starting from what was remembered at the last fixed one. Only stable inputs are fixed, and only those so
far from the last stable one that every source which measures the distance or the time to the end of the
stroke is past its range. -/
theorem C42_one_pass {tip : BrushTip} {size : F32} {m0 : Modeler}
    (hs : start tabulate tip size = some m0) (us : List Update) (u : Update) {m : Modeler}
    {F : List TipState} (h : collect M fuel m0 [] (us ++ [u]) = some (m, F)) :
    ∃ (counts : List Nat) (vol : List TipState) (a b : Acc),
      counts.length = us.length + 1 ∧
      (∀ (j : Nat) (v : Update) (k : Nat), (us ++ [u])[j]? = some v → counts[j]? = some k →
        k = 0 ∨ (counts.take (j + 1)).sum ≤ v.state.stableInputCount) ∧
      (tip.valid = true → ∀ (j : Nat) (v : Update) (n : Nat), (us ++ [u])[j]? = some v →
        FiniteInputs v → (counts.take j).sum ≤ n → n < (counts.take (j + 1)).sum →
        ∃ last cur, v.inputs[v.state.stableInputCount - 1]? = some last ∧ v.inputs[n]? = some cur ∧
          ∀ node ∈ tip.behaviors.flatten, Settled size last cur node) ∧
      m.volatile = some vol ∧
      onePass M fuel m0 ((us ++ [u]).zip counts) 0 (nothing m0) = some a ∧ a.out = F ∧
      onePass M fuel m0 ((us ++ [u]).zip counts ++ [(u, u.inputs.length - counts.sum)]) 0
        (nothing m0) = some b ∧ b.out = F ++ vol := by
  obtain ⟨counts, vol, a, b, h1, h2, h3, h4, h5, h6, h7, h8⟩ := one_pass_core M tabulate fuel hs us u h
  refine ⟨counts, vol, a, b, h1, fun j v k hv hk => (h2 j v k hv hk).imp id fun h => by omega, ?_,
    h3, h4, h5, h6, h7⟩
  intro hval j v n hj hf n1 n2
  have hlt : j < counts.length := by
    have := (List.getElem?_eq_some_iff.1 hj).1
    simp only [List.length_append, List.length_singleton] at this
    omega
  have hne : v.state.stableInputCount ≠ 0 := by
    rcases h2 j v _ hj (List.getElem?_eq_getElem hlt) with h | h
    · rw [List.take_add_one, List.getElem?_eq_getElem hlt, h] at n2
      simp at n2
      omega
    · omega
  exact settled_of tabulate hs hval hf hne (h8 j v n hj n1 n2)

/-- C42. Time alone can still change the stroke exactly while less time has passed since its last input
than one of the sources which measure this can see. -/
theorem C42_unfinished {tip : BrushTip} {size : F32} {m0 : Modeler}
    (hs : start tabulate tip size = some m0) (hv : tip.valid = true) (us : List Update) {m : Modeler}
    {F : List TipState} (h : collect M fuel m0 [] us = some (m, F)) (st : MState)
    (hc : st.completeElapsedTime.isFinite = true)
    (hle : le st.totalRealElapsedTime.seconds st.completeElapsedTime.seconds = true) :
    m.hasUnfinishedTimeBehaviors st = true ↔ ∃ node ∈ tip.behaviors.flatten, ∃ d,
      changesFor node = some d ∧
      lt (F32.sub st.completeElapsedTime.seconds st.totalRealElapsedTime.seconds) d = true := by
  obtain ⟨-, -, -, -, -, -, -, h0, hm, -⟩ := start_spec tabulate hs
  obtain ⟨-, -, c2, -⟩ := collect_spec M fuel h0 hm _ h
  obtain ⟨b1, b2, b3, b4⟩ := start_bounds tabulate hs hv
  have hz : lt (F32.sub st.completeElapsedTime.seconds st.totalRealElapsedTime.seconds) zero = false := by
    have := nlt_sub_self (NLt.of_le hle)
    generalize F32.sub st.completeElapsedTime.seconds st.totalRealElapsedTime.seconds = x at *
    rw [nlt_iff] at this
    change NLt zero x
    rw [nlt_iff]
    intro _ hx
    have := this (by rw [isNaN_neg]; exact hx) hx
    rw [key_neg] at this
    show (0 : Int) ≤ _
    omega
  have e : m.hasUnfinishedTimeBehaviors st =
      lt (F32.sub st.completeElapsedTime.seconds st.totalRealElapsedTime.seconds)
        m0.timeUpperBound.seconds := by
    unfold Modeler.hasUnfinishedTimeBehaviors Duration32.lt Duration32.sub
    rw [hc, c2.2.2.2.1]
    rfl
  rw [e, b4, hz]
  simp only [Bool.false_eq_true, false_or]
  constructor
  · rintro ⟨n, hn, hx⟩
    rw [(nodeTime_eq (valid_nodes hv n hn)).2] at hx
    cases hc : changesFor n with
    | none =>
      rw [hc, Option.getD_none, hz] at hx
      cases hx
    | some d =>
      rw [hc, Option.getD_some] at hx
      exact ⟨n, hn, d, hc, hx⟩
  · rintro ⟨n, hn, d, hd, hx⟩
    refine ⟨n, hn, ?_⟩
    rw [(nodeTime_eq (valid_nodes hv n hn)).2, hd]
    exact hx

/-! ## Schedules -/

theorem extends_refl {u : Update} : Extends u u := ⟨le_refl _, rfl, rfl, rfl⟩

theorem extends_trans {u v w : Update} (h : Extends u v) (g : Extends v w) : Extends u w := by
  refine ⟨le_trans h.1 g.1, ?_, g.2.2.1.trans h.2.2.1, g.2.2.2.trans h.2.2.2⟩
  have := congrArg (List.take u.state.stableInputCount) g.2.1
  rw [List.take_take, List.take_take, Nat.min_eq_left h.1] at this
  rw [this, h.2.1]

theorem chain_last (us : List Update) (u : Update) (h : Chain (us ++ [u])) :
    ∀ v ∈ us ++ [u], WellFormed v ∧ Extends v u := by
  induction us with
  | nil => intro v hv; simp at hv; subst hv; exact ⟨h, extends_refl⟩
  | cons a us ih =>
    intro v hv
    have hc : WellFormed a ∧ ∃ b l, us ++ [u] = b :: l ∧ Extends a b ∧ Chain (b :: l) := by
      cases us with
      | nil => exact ⟨h.1, u, [], rfl, h.2.1, h.2.2⟩
      | cons b l => exact ⟨h.1, b, l ++ [u], rfl, h.2.1, h.2.2⟩
    obtain ⟨hw, b, l, e, he, hb⟩ := hc
    rw [e] at ih
    have ih := ih hb
    rw [List.cons_append, e] at hv
    rcases List.mem_cons.1 hv with rfl | hv
    · exact ⟨hw, extends_trans he (ih b (by simp)).2⟩
    · exact ih v hv

theorem sources_compile (l : List Node) : ∀ (d t : Nat) (s : Source) (oor : OutOfRange) (lo hi : F32),
    INode.source s oor lo hi ∈ compile tabulate d t l →
    s ∈ l.filterMap fun n => match n with | .source s .. => some s | _ => none := by
  induction l with
  | nil => intro d t s oor lo hi h; simp [compile] at h
  | cons n l ih =>
    intro d t s oor lo hi h
    cases n with
    | source s' o' l' h' =>
      simp only [compile, List.mem_cons, INode.source.injEq] at h
      simp only [List.filterMap_cons, List.mem_cons]
      exact h.imp (fun h => h.1) (ih _ _ _ _ _ _)
    | constant v => simp [compile] at h; simpa using ih _ _ _ _ _ _ h
    | fallbackFilter v => simp [compile] at h; simpa using ih _ _ _ _ _ _ h
    | toolTypeFilter v => simp [compile] at h; simpa using ih _ _ _ _ _ _ h
    | damping v => simp [compile] at h; simpa using ih _ _ _ _ _ _ h
    | response v => simp [compile] at h; simpa using ih _ _ _ _ _ _ h
    | binaryOp v => simp [compile] at h; simpa using ih _ _ _ _ _ _ h
    | interpolation v => simp [compile] at h; simpa using ih _ _ _ _ _ _ h
    | target v => simp [compile] at h; simpa using ih _ _ _ _ _ _ h

theorem targetsOf_eq (l : List Node) : targetsOf l =
    l.filterMap fun n => match n with | .target t .. => some t | _ => none := by
  induction l with
  | nil => rfl
  | cons n l ih => cases n <;> simp [targetsOf, ih]

theorem dependsOnNext_eq (s : Source) : dependsOnNext s = isDirection s := by cases s <;> rfl

theorem append_dependsNext (l : List Node) (m : Modeler) :
    (l.foldl (Modeler.append tabulate) m).dependsNext = (m.dependsNext ||
      (l.filterMap fun n => match n with | .source s .. => some s | _ => none).any isDirection) := by
  induction l generalizing m with
  | nil => simp
  | cons n l ih =>
    rw [List.foldl_cons, ih]
    cases n <;> simp [Modeler.append]
    rename_i s _ _ _
    rw [dependsOnNext_eq]
    cases isDirection s <;> simp

theorem start_dependsNext {tip : BrushTip} {size : F32} {m : Modeler}
    (h : start tabulate tip size = some m) : m.dependsNext = (sources tip).any isDirection := by
  unfold start at h
  split at h
  · cases h
  · simp only [Option.some.injEq] at h
    subst h
    rw [append_dependsNext]
    simp only [Bool.false_or]
    rfl

theorem getElem?_of_take {l l' : List Input} {n i : Nat} (h : l'.take n = l.take n) (hi : i < n) :
    l'[i]? = l[i]? := by
  have := congrArg (fun l => l[i]?) h
  simpa [List.getElem?_take, hi] using this

/-- Runs over inputs that both updates agree on. -/
theorem runFrom_extends {m : Modeler} {u v : Update} {n : Nat}
    (ht : v.inputs.take n = u.inputs.take n)
    (tool : v.state.toolType = u.state.toolType)
    (unit : v.state.strokeUnitLength = u.state.strokeUnitLength)
    (hs : ∀ s oor lo hi, INode.source s oor lo hi ∈ m.nodes → ofTheEnd s = false)
    (hd : m.dependsNext = true ∨
      ((∀ s oor lo hi, INode.source s oor lo hi ∈ m.nodes → isDirection s = false) ∧
        ∀ t ∈ m.targets, alongDirection t = false)) (k i : Nat)
    (hk : k = 0 ∨ i + k + (if m.dependsNext then 1 else 0) ≤ n) (a : Acc) :
    m.runFrom M fuel v.state v.inputs k i a = m.runFrom M fuel u.state u.inputs k i a := by
  induction k generalizing i a with
  | zero => rfl
  | succ k ih =>
    rcases hk with hk | hk
    · omega
    unfold Modeler.runFrom
    rw [processIndex_congr M fuel (SameConfig.refl m) (getElem?_of_take ht (by omega))
      (fun _ => getElem?_of_take ht (by omega)) tool unit (Or.inr hs)
      (hd.imp (fun h => getElem?_of_take ht (by rw [h, if_pos rfl] at hk; omega)) id)]
    cases m.processIndex M fuel u.state u.inputs i a with
    | none => rfl
    | some a' => exact ih (i + 1) (Or.inr (by omega)) a'

/-- If the whole run succeeds, so does the loop over the stable inputs. -/
theorem fixLoop_total {m : Modeler} {st : MState} {inputs : List Input} (mx : Metrics)
    (hw : st.stableInputCount ≤ inputs.length) (k i : Nat) (a : Acc) {b : Acc}
    (hr : m.runFrom M fuel st inputs (inputs.length - i) i a = some b) :
    ∃ p, m.fixLoop M fuel st inputs mx k i a = some p := by
  induction k generalizing i a with
  | zero => exact ⟨_, rfl⟩
  | succ k ih =>
    rw [Modeler.fixLoop]
    by_cases h1 : i + (if m.dependsNext then 1 else 0) < st.stableInputCount
    · rw [if_neg (by simpa using h1)]
      have hi : i < inputs.length := by omega
      rw [List.getElem?_eq_getElem hi]
      simp only
      split
      · exact ⟨_, rfl⟩
      · rw [show inputs.length - i = (inputs.length - (i + 1)) + 1 by omega, Modeler.runFrom] at hr
        cases hp : m.processIndex M fuel st inputs i a with
        | none => rw [hp] at hr; cases hr
        | some a' =>
          rw [hp] at hr
          exact ih (i + 1) a' hr
    · rw [if_pos (by simpa using h1)]; exact ⟨_, rfl⟩

/-- A single update is a run over all inputs. -/
theorem stroke_single {m : Modeler} (h0 : m.nextFixed = 0) (hm : m.fixedMetrics = none) {v : Update}
    (hne : v.inputs ≠ []) (hw : WellFormed v) {b : Acc}
    (hr : m.runFrom M fuel v.state v.inputs v.inputs.length 0 (nothing m) = some b) :
    stroke M fuel m [v] = some b.out := by
  have hmx : ∃ mx, m.maxFixedMetrics v.state v.inputs = some mx := by
    unfold Modeler.maxFixedMetrics
    split
    · exact ⟨_, rfl⟩
    · have : v.state.stableInputCount - 1 < v.inputs.length := by unfold WellFormed at hw; omega
      rw [List.getElem?_eq_getElem this]
      exact ⟨_, rfl⟩
  obtain ⟨mx, hmx⟩ := hmx
  have hacc : nothing m = ⟨m.fixedMetrics, m.fixedDamped, m.fixedMods, []⟩ := by simp [nothing, hm]
  have hr' : m.runFrom M fuel v.state v.inputs (v.inputs.length - m.nextFixed) m.nextFixed
      ⟨m.fixedMetrics, m.fixedDamped, m.fixedMods, []⟩ = some b := by
    rw [h0, ← hacc, Nat.sub_zero]; exact hr
  obtain ⟨⟨i, a⟩, hf⟩ := fixLoop_total M fuel mx hw (v.state.stableInputCount - m.nextFixed)
    m.nextFixed _ hr'
  obtain ⟨e1, e2, e3⟩ := fixLoop_spec M fuel m v.state v.inputs mx _ _ _ hf
  have hi : i ≤ v.inputs.length := by unfold WellFormed at hw; omega
  have hr2 : m.runFrom M fuel v.state v.inputs (v.inputs.length - i) i a = some b := by
    rw [show v.inputs.length - m.nextFixed = (i - m.nextFixed) + (v.inputs.length - i) by omega,
      runFrom_add, e2] at hr'
    simp only [Option.bind_some] at hr'
    rwa [show m.nextFixed + (i - m.nextFixed) = i by omega] at hr'
  obtain ⟨m', hu⟩ : ∃ m', m.update M fuel v.state v.inputs = some m' := by
    unfold Modeler.update
    rw [if_neg hne, hmx]
    simp only
    rw [hf]
    simp only
    rw [hr2]
    exact ⟨_, rfl⟩
  obtain ⟨-, d2, d3, new, vol, b', f1, f2, f3, f4, f5⟩ := update_spec M fuel hu hne
  have hbb : b' = b := by
    rw [h0] at f3
    have hi' : m'.nextFixed ≤ v.inputs.length := by unfold WellFormed at hw; omega
    have : m.runFrom M fuel v.state v.inputs v.inputs.length 0 (nothing m) = some b' := by
      rw [show v.inputs.length = m'.nextFixed + (v.inputs.length - m'.nextFixed) by omega, runFrom_add,
        hacc]
      rw [Nat.sub_zero] at f3
      rw [f3]
      simp only [Option.bind_some, Nat.zero_add]
      exact f4
    rw [hr] at this
    exact (Option.some.inj this).symm
  unfold stroke collect
  rw [hu]
  simp only [f1, List.nil_append, collect]
  rw [f2, Option.map_some, ← f5, hbb]

theorem onePass_same {m : Modeler} {v : Update}
    (hs : ∀ s oor lo hi, INode.source s oor lo hi ∈ m.nodes → ofTheEnd s = false)
    (hd : m.dependsNext = true ∨
      ((∀ s oor lo hi, INode.source s oor lo hi ∈ m.nodes → isDirection s = false) ∧
        ∀ t ∈ m.targets, alongDirection t = false)) (l : List (Update × Nat)) :
    ∀ (i : Nat) (a : Acc),
    (∀ (j : Nat) (w : Update) (k : Nat), l[j]? = some (w, k) → k = 0 ∨
      ∃ n, v.inputs.take n = w.inputs.take n ∧
        i + ((l.map Prod.snd).take (j + 1)).sum + (if m.dependsNext then 1 else 0) ≤ n) →
    (∀ p ∈ l, v.state.toolType = p.1.state.toolType ∧
      v.state.strokeUnitLength = p.1.state.strokeUnitLength) →
    onePass M fuel m l i a = m.runFrom M fuel v.state v.inputs (l.map Prod.snd).sum i a := by
  induction l with
  | nil => intro i a _ _; rfl
  | cons p l ih =>
    intro i a hl ht
    obtain ⟨w, k⟩ := p
    simp only [onePass, List.map_cons, List.sum_cons]
    rw [runFrom_add]
    have e : m.runFrom M fuel v.state v.inputs k i a = m.runFrom M fuel w.state w.inputs k i a := by
      rcases hl 0 w k rfl with h | ⟨n, hn, hle⟩
      · subst h; rfl
      · simp at hle
        exact runFrom_extends M fuel hn (ht (w, k) (by simp)).1 (ht (w, k) (by simp)).2 hs hd k i
          (Or.inr hle) a
    rw [e]
    cases m.runFrom M fuel w.state w.inputs k i a with
    | none => rfl
    | some a' =>
      simp only [Option.bind_some]
      refine ih (i + k) a' (fun j w' k' hj => ?_) fun p hp => ht p (List.mem_cons_of_mem _ hp)
      refine (hl (j + 1) w' k' (by simpa using hj)).imp id fun ⟨n, hn, hle⟩ => ⟨n, hn, ?_⟩
      simp only [List.map_cons, List.take_succ_cons, List.sum_cons] at hle
      omega

theorem sum_le_of (counts : List Nat) (N : Nat)
    (h : ∀ (j k : Nat), counts[j]? = some k → k = 0 ∨ (counts.take (j + 1)).sum ≤ N) :
    counts.sum ≤ N := by
  induction counts using List.reverseRecOn with
  | nil => simp
  | append_singleton l k ih =>
    rcases h l.length k (by simp) with rfl | h1
    · simp only [List.sum_append, List.sum_singleton, Nat.add_zero]
      refine ih fun j k hj => ?_
      have hlt := (List.getElem?_eq_some_iff.1 hj).1
      have := h j k (by rw [List.getElem?_append_left hlt]; exact hj)
      rwa [List.take_append_of_le_length (by omega)] at this
    · rwa [List.take_of_length_le (by simp)] at h1

/-- C42. The stroke does not depend on the schedule. Take a tip without the sources that look at the end
of the stroke, and, if it moves the tip along or across the travel direction, with a source for that
direction. However the inputs arrive, as long as every update keeps the stable inputs, the tip states are
those of a fresh modeler which gets the last inputs in a single update, with any number of them
stable. -/
theorem C42_schedule {tip : BrushTip} {size : F32} {m0 : Modeler}
    (hs : start tabulate tip size = some m0)
    (hsrc : ∀ s ∈ sources tip, ofTheEnd s = false)
    (hdir : (∃ s ∈ sources tip, isDirection s = true) ∨
      ∀ t ∈ TipSpec.targets tip, alongDirection t = false)
    (us : List Update) (u : Update) (hc : Chain (us ++ [u])) (hne : u.inputs ≠ [])
    {S : List TipState} (h : stroke M fuel m0 (us ++ [u]) = some S)
    (v : Update) (hi : v.inputs = u.inputs) (hw : WellFormed v)
    (tool : v.state.toolType = u.state.toolType)
    (unit : v.state.strokeUnitLength = u.state.strokeUnitLength) :
    stroke M fuel m0 [v] = some S := by
  obtain ⟨n1, n2, -, -, -, -, -, h0, hm, -⟩ := start_spec tabulate hs
  have hsrc' : ∀ s oor lo hi, INode.source s oor lo hi ∈ m0.nodes → ofTheEnd s = false := by
    intro s oor lo hi hmem
    rw [n1] at hmem
    exact hsrc s (sources_compile tabulate _ _ _ _ _ _ _ hmem)
  have hdir' : m0.dependsNext = true ∨
      ((∀ s oor lo hi, INode.source s oor lo hi ∈ m0.nodes → isDirection s = false) ∧
        ∀ t ∈ m0.targets, alongDirection t = false) := by
    rw [start_dependsNext tabulate hs]
    by_cases hany : (sources tip).any isDirection = true
    · exact Or.inl hany
    · right
      have hno : ∀ s ∈ sources tip, isDirection s = false := by
        intro s hs
        cases hx : isDirection s with
        | false => rfl
        | true => exact absurd (List.any_eq_true.2 ⟨s, hs, hx⟩) hany
      refine ⟨fun s oor lo hi hmem => ?_, fun t ht => ?_⟩
      · rw [n1] at hmem
        exact hno s (sources_compile tabulate _ _ _ _ _ _ _ hmem)
      · rcases hdir with ⟨s, hs, hx⟩ | hdir
        · rw [hno s hs] at hx; cases hx
        · rw [n2, targetsOf_eq] at ht
          exact hdir t ht
  unfold stroke at h
  cases hcol : collect M fuel m0 [] (us ++ [u]) with
  | none => rw [hcol] at h; cases h
  | some p =>
    obtain ⟨m, F⟩ := p
    rw [hcol] at h
    simp only at h
    obtain ⟨counts, vol, a, b, l1, c4, l2, l3, l4, l5, l6, -⟩ :=
      one_pass_core M tabulate fuel hs us u hcol
    rw [l2, Option.map_some, ← l6] at h
    have hS : b.out = S := by simpa using h
    rw [← hS]
    have hlen : (us ++ [u]).length = counts.length := by simp [l1]
    have hall := chain_last us u hc
    have hsum : counts.sum ≤ u.inputs.length := by
      refine sum_le_of counts _ fun j k hj => ?_
      have hlt := (List.getElem?_eq_some_iff.1 hj).1
      have hw' : (us ++ [u])[j]? = some ((us ++ [u])[j]'(by omega)) :=
        List.getElem?_eq_getElem (by omega)
      have hv := hall _ (List.getElem_mem (l := us ++ [u]) (n := j) (by omega))
      refine (c4 j _ k hw' hj).imp id fun hle => ?_
      have h1 := hv.2.1
      have h2 := (hall u (by simp)).1
      unfold WellFormed at h2
      omega
    have hsnd : ((us ++ [u]).zip counts).map Prod.snd = counts := List.map_snd_zip (by omega)
    refine stroke_single M fuel h0 hm (by rw [hi]; exact hne) hw ?_
    rw [onePass_same M fuel (v := v) hsrc' hdir'] at l5
    · rw [List.map_append, hsnd] at l5
      simp only [List.map_cons, List.map_nil, List.sum_append, List.sum_singleton] at l5
      rw [hi]
      rw [hi, show counts.sum + (u.inputs.length - counts.sum) = u.inputs.length by omega] at l5
      exact l5
    · intro j w k hj
      rw [List.map_append, hsnd]
      by_cases hlt : j < counts.length
      · rw [List.getElem?_append_left (by simp [List.length_zip]; omega), List.getElem?_zip_eq_some] at hj
        have hv := hall w (List.mem_of_getElem? hj.1)
        refine (c4 j w k hj.1 hj.2).imp id fun hle => ⟨w.state.stableInputCount, ?_, ?_⟩
        · rw [hi]; exact hv.2.2.1
        · rw [List.take_append_of_le_length (by omega)]; omega
      · right
        have hj2 : j = ((us ++ [u]).zip counts).length := by
          have := (List.getElem?_eq_some_iff.1 hj).1
          simp only [List.length_append, List.length_zip, List.length_singleton] at this ⊢
          simp only [List.length_append, List.length_singleton] at hlen
          omega
        rw [hj2, List.getElem?_append_right (le_refl _)] at hj
        simp at hj
        refine ⟨_, ?_, le_refl _⟩
        rw [hi, hj.1]
    · intro p hp
      rcases List.mem_append.1 hp with hp | hp
      · have hv := (hall p.1 (List.of_mem_zip hp).1).2
        exact ⟨tool.trans hv.2.2.1, unit.trans hv.2.2.2⟩
      · simp at hp
        subst hp
        exact ⟨tool, unit⟩

/-! ## Modeling never fails -/

/-- The remembered values fit the tip, and there are none before the first input. -/
def Good (m : Modeler) (d : Nat) (i : Nat) (a : Acc) : Prop :=
  a.damped.length = d ∧ a.mods.length = m.targets.length ∧ (0 < i ∨ ∀ v ∈ a.damped, v.isNaN = true)

theorem processIndex_total (htab : ∀ b, (tabulate b).length = 14) {tip : BrushTip} {size : F32}
    {m : Modeler} (hv : tip.valid = true) (hs : start tabulate tip size = some m)
    (hcont : m.continuous = true) (st : MState) (inputs : List Input) {i : Nat}
    (hi : i < inputs.length) {a : Acc} (ha : Good m m.fixedDamped.length i a) :
    ∃ a', m.processIndex M fuel st inputs i a = some a' ∧ Good m m.fixedDamped.length (i + 1) a' := by
  unfold Modeler.processIndex
  have hx : ∃ d, travelDirection M inputs i = some d := by
    unfold travelDirection
    rw [List.getElem?_eq_getElem hi]
    simp only
    split <;> split <;> exact ⟨_, rfl⟩
  obtain ⟨dir, hd⟩ := hx
  rw [List.getElem?_eq_getElem hi, hd]
  simp only
  unfold Modeler.processInput
  rw [hcont]
  simp only [Bool.true_or, if_true]
  unfold Modeler.addTipState
  obtain ⟨ds', ms', e1, e2, e3⟩ := C32_never_underflows M tabulate htab hv hs
    ⟨st, inputs[i], dir, m.size,
      (if 0 < i then inputs[i - 1]? else none).map fun p => ⟨p.traveledDistance, p.elapsedTime⟩⟩
    (ds := a.damped) (ms := a.mods) ha.1 ha.2.1 (by
      rcases ha.2.2 with h | h
      · left
        rw [if_pos h, List.getElem?_eq_getElem (by omega)]
        rfl
      · exact Or.inr h)
  rw [e1]
  refine ⟨_, rfl, ?_, ?_, Or.inl (by omega)⟩
  · simp [e2, ha.1]
  · simp [e3, ha.2.1]

theorem runFrom_total (htab : ∀ b, (tabulate b).length = 14) {tip : BrushTip} {size : F32}
    {m : Modeler} (hv : tip.valid = true) (hs : start tabulate tip size = some m)
    (hcont : m.continuous = true) (st : MState) (inputs : List Input) (k i : Nat)
    (hi : i + k ≤ inputs.length) {a : Acc} (ha : Good m m.fixedDamped.length i a) :
    ∃ b, m.runFrom M fuel st inputs k i a = some b ∧ Good m m.fixedDamped.length (i + k) b := by
  induction k generalizing i a with
  | zero => exact ⟨a, rfl, ha⟩
  | succ k ih =>
    obtain ⟨a', e, ha'⟩ := processIndex_total M tabulate fuel htab hv hs hcont st inputs
      (show i < inputs.length by omega) ha
    unfold Modeler.runFrom
    rw [e]
    obtain ⟨b, e2, hb⟩ := ih (i + 1) (by omega) ha'
    exact ⟨b, e2, by rwa [show i + (k + 1) = i + 1 + k by omega]⟩

/-- What holds between updates, the last of which had `n` stable inputs. -/
structure Between (m0 m : Modeler) (n : Nat) : Prop where
  config : SameConfig m m0
  next : m.nextFixed ≤ n
  good : Good m0 m0.fixedDamped.length m.nextFixed ⟨m.fixedMetrics, m.fixedDamped, m.fixedMods, []⟩
  fresh : n = 0 → m.newFixedCount = 0
  span : m.newFixedCount ≤ m.saved.length

theorem fixLoop_config {m m' : Modeler} (hm : SameConfig m' m) (st : MState) (inputs : List Input)
    (mx : Metrics) (k i : Nat) (a : Acc) :
    m'.fixLoop M fuel st inputs mx k i a = m.fixLoop M fuel st inputs mx k i a := by
  induction k generalizing i a with
  | zero => rfl
  | succ k ih =>
    unfold Modeler.fixLoop
    rw [hm.2.2.2.2.1]
    simp only [processIndex_congr M fuel hm (st := st) (st' := st) (inputs := inputs)
      (inputs' := inputs) rfl (fun _ => rfl) rfl rfl (Or.inl rfl) (Or.inl rfl), ih]

theorem update_total (htab : ∀ b, (tabulate b).length = 14) {tip : BrushTip} {size : F32}
    {m0 m : Modeler} (hv : tip.valid = true) (hs : start tabulate tip size = some m0)
    (hcont : m0.continuous = true) {n : Nat} (hb : Between m0 m n) {u : Update}
    (hw : WellFormed u) (hn : n ≤ u.state.stableInputCount) :
    ∃ m', m.update M fuel u.state u.inputs = some m' ∧ Between m0 m' u.state.stableInputCount := by
  unfold WellFormed at hw
  unfold Modeler.update
  by_cases hne : u.inputs = []
  · rw [if_pos hne]
    rw [hne] at hw
    simp only [List.length_nil, Nat.le_zero_eq] at hw
    have h0 := hb.fresh (by omega)
    exact ⟨_, rfl, hb.config, by have := hb.next; simp only; omega, hb.good, fun _ => h0,
      by simp only [h0]; omega⟩
  · rw [if_neg hne]
    obtain ⟨mx, hmx⟩ : ∃ mx, m.maxFixedMetrics u.state u.inputs = some mx := by
      unfold Modeler.maxFixedMetrics
      split
      · exact ⟨_, rfl⟩
      · have : u.state.stableInputCount - 1 < u.inputs.length := by omega
        rw [List.getElem?_eq_getElem this]
        exact ⟨_, rfl⟩
    rw [hmx]
    simp only
    have hnx := hb.next
    obtain ⟨b, hr, -⟩ := runFrom_total M tabulate fuel htab hv hs hcont u.state u.inputs
      (u.inputs.length - m.nextFixed) m.nextFixed (by omega) hb.good
    obtain ⟨⟨i, a⟩, hf⟩ := fixLoop_total M fuel mx hw (u.state.stableInputCount - m.nextFixed)
      m.nextFixed _ hr
    obtain ⟨e1, e2, e3⟩ := fixLoop_spec M fuel m0 u.state u.inputs mx _ _ _ hf
    have hi : i ≤ u.state.stableInputCount := by omega
    obtain ⟨a1, q1, hga⟩ := runFrom_total M tabulate fuel htab hv hs hcont u.state u.inputs
      (i - m.nextFixed) m.nextFixed (by omega) hb.good
    rw [e2] at q1
    simp only [Option.some.injEq] at q1
    subst q1
    rw [show m.nextFixed + (i - m.nextFixed) = i by omega] at hga
    obtain ⟨b', hr', -⟩ := runFrom_total M tabulate fuel htab hv hs hcont u.state u.inputs
      (u.inputs.length - i) i (by omega) hga
    rw [fixLoop_config M fuel hb.config, hf]
    simp only
    rw [runFrom_config M fuel hb.config, hr']
    refine ⟨_, rfl, hb.config, hi, hga, ?_, ?_⟩
    · intro hz
      have : i = m.nextFixed := by omega
      subst this
      rw [Nat.sub_self] at e2
      simp only [Modeler.runFrom, Option.some.injEq] at e2
      rw [← e2]
      rfl
    · have : a = Acc.pre a.out { a with out := [] } := by simp [Acc.pre]
      rw [this, runFrom_pre] at hr'
      obtain ⟨c, -, hc⟩ := Option.map_eq_some_iff.1 hr'
      show a.out.length ≤ b'.out.length
      rw [← hc]
      simp [Acc.pre]

theorem collect_total (htab : ∀ b, (tabulate b).length = 14) {tip : BrushTip} {size : F32}
    {m0 : Modeler} (hv : tip.valid = true) (hs : start tabulate tip size = some m0)
    (hcont : m0.continuous = true) (us : List Update) : ∀ (m : Modeler) (n : Nat) (F : List TipState),
    Between m0 m n → Chain us → (∀ u ∈ us.head?, n ≤ u.state.stableInputCount) →
    ∃ m' n' F', collect M fuel m F us = some (m', F') ∧ Between m0 m' n' := by
  induction us with
  | nil => intro m n F hb _ _; exact ⟨m, n, F, rfl, hb⟩
  | cons u us ih =>
    intro m n F hb hc hle
    have hw : WellFormed u := by
      cases us with
      | nil => exact hc
      | cons v l => exact hc.1
    obtain ⟨m1, h1, hb1⟩ := update_total M tabulate fuel htab hv hs hcont hb hw (hle u (by simp))
    have hnf : m1.newFixed = some (m1.saved.take m1.newFixedCount) := by
      unfold Modeler.newFixed
      rw [if_pos hb1.span]
    rw [collect, h1]
    simp only [hnf]
    cases us with
    | nil => exact ⟨m1, _, _, rfl, hb1⟩
    | cons v l => exact ih m1 _ _ hb1 hc.2.2 (by intro w hw'; simp at hw'; subst hw'; exact hc.2.1.1)

theorem continuous_of {tip : BrushTip} {size : F32}
    {m0 : Modeler} (hv : tip.valid = true) (hs : start tabulate tip size = some m0)
    (hg : feq tip.particleGapDistanceScale zero = true)
    (ht : tip.particleGapDuration.eq Duration32.zero = true) : m0.continuous = true := by
  obtain ⟨-, -, -, -, -, -, h5, -⟩ := start_spec tabulate hs
  have hz : size.isFinite = true := by
    unfold start at hs
    split at hs
    · cases hs
    · rename_i h
      simp at h
      exact h.1
  have hgf : tip.particleGapDistanceScale.isFinite = true := by
    unfold BrushTip.valid at hv
    simp only [Bool.and_eq_true, Bool.not_eq_true', Bool.or_eq_false_iff, Bool.not_eq_false'] at hv
    exact hv.1.1.2.1
  unfold Modeler.continuous
  rw [h5]
  simp only [ht, Bool.and_true]
  have h0 : toRat tip.particleGapDistanceScale = 0 := by
    have := (feq_iff hgf (b := zero) rfl).1 hg
    rwa [toRat_zero] at this
  have hov : |toRat tip.particleGapDistanceScale * toRat size| < ovf := by
    rw [h0, zero_mul, abs_zero]; unfold ovf; norm_num
  rw [feq_iff (isFinite_mul hgf hz hov) (b := zero) rfl, toRat_mul hgf hz hov, h0, zero_mul,
    toRat_zero, rnd_zero]

/-- C43. Modeling never fails: for every valid tip without particle gaps and every history of updates
that keep the stable inputs, every call returns, no node pops an empty stack, no index is out of range,
and the spans of fixed and of volatile tip states lie in the stored ones. -/
theorem C43_continuous (htab : ∀ b, (tabulate b).length = 14) {tip : BrushTip} {size : F32}
    {m0 : Modeler} (hv : tip.valid = true) (hs : start tabulate tip size = some m0)
    (hg : feq tip.particleGapDistanceScale zero = true)
    (ht : tip.particleGapDuration.eq Duration32.zero = true) (us : List Update) (hc : Chain us) :
    ∃ S, stroke M fuel m0 us = some S := by
  obtain ⟨-, h2, h3, h4, -, -, h5, h6, h7, h8, h9⟩ := start_spec tabulate hs
  have hcont := continuous_of tabulate hv hs hg ht
  obtain ⟨m, n, F, e, hb⟩ := collect_total M tabulate fuel htab hv hs hcont us m0 0 []
    ⟨SameConfig.refl _, by omega, ⟨rfl, by simp only [h4, h2, List.length_map], Or.inr (by
      intro v hv; simp only [h3] at hv; rw [List.eq_of_mem_replicate hv]; rfl)⟩, fun _ => h9,
      by omega⟩ hc (by intro u _; omega)
  unfold stroke
  rw [e]
  have : m.volatile = some (m.saved.drop m.newFixedCount) := by
    unfold Modeler.volatile
    rw [if_pos hb.span]
  simp only [this]
  exact ⟨_, rfl⟩

theorem runFrom_length {m : Modeler} (hcont : m.continuous = true) (st : MState) (inputs : List Input)
    (k i : Nat) (a : Acc) {b : Acc} (h : m.runFrom M fuel st inputs k i a = some b) :
    b.out.length = a.out.length + k := by
  induction k generalizing i a with
  | zero => simp only [Modeler.runFrom, Option.some.injEq] at h; subst h; rfl
  | succ k ih =>
    unfold Modeler.runFrom at h
    cases hp : m.processIndex M fuel st inputs i a with
    | none => rw [hp] at h; cases h
    | some a' =>
      rw [hp] at h
      have e := ih (i + 1) a' h
      unfold Modeler.processIndex at hp
      split at hp
      · unfold Modeler.processInput at hp
        rw [hcont] at hp
        simp only [Bool.true_or, if_true] at hp
        split at hp
        · cases hp
        · rename_i a'' h2
          simp only [Bool.not_true, Bool.false_eq_true, if_false, Option.some.injEq] at hp
          subst hp
          unfold Modeler.addTipState at h2
          split at h2
          · cases h2
          · split at h2
            · cases h2
            · simp only [Option.some.injEq] at h2
              rw [← h2] at e
              simp at e
              omega
      · cases hp

theorem onePass_length {m : Modeler} (hcont : m.continuous = true) (l : List (Update × Nat)) (i : Nat)
    (a : Acc) {b : Acc} (h : onePass M fuel m l i a = some b) :
    b.out.length = a.out.length + (l.map Prod.snd).sum := by
  induction l generalizing i a with
  | nil => simp only [onePass, Option.some.injEq] at h; subst h; simp
  | cons p l ih =>
    obtain ⟨u, k⟩ := p
    simp only [onePass] at h
    cases hr : m.runFrom M fuel u.state u.inputs k i a with
    | none => rw [hr] at h; cases h
    | some a' =>
      rw [hr] at h
      have e1 := ih _ _ h
      have e2 := runFrom_length M fuel hcont _ _ _ _ _ hr
      simp only [List.map_cons, List.sum_cons]
      omega

/-- C43. Without particle gaps there is one tip state for every input, whatever the schedule. -/
theorem C43_one_state_per_input {tip : BrushTip} {size : F32}
    {m0 : Modeler} (hv : tip.valid = true) (hs : start tabulate tip size = some m0)
    (hg : feq tip.particleGapDistanceScale zero = true)
    (ht : tip.particleGapDuration.eq Duration32.zero = true) (us : List Update) (u : Update)
    (hc : Chain (us ++ [u])) {S : List TipState} (h : stroke M fuel m0 (us ++ [u]) = some S) :
    S.length = u.inputs.length := by
  have hcont := continuous_of tabulate hv hs hg ht
  unfold stroke at h
  cases hcol : collect M fuel m0 [] (us ++ [u]) with
  | none => rw [hcol] at h; cases h
  | some p =>
    obtain ⟨m, F⟩ := p
    rw [hcol] at h
    simp only at h
    obtain ⟨counts, vol, a, b, l1, c4, l2, l3, l4, l5, l6, -⟩ :=
      one_pass_core M tabulate fuel hs us u hcol
    rw [l2, Option.map_some, ← l6] at h
    have hS : b.out = S := by simpa using h
    rw [← hS]
    have hall := chain_last us u hc
    have hsum : counts.sum ≤ u.inputs.length := by
      refine sum_le_of counts _ fun j k hj => ?_
      have hlt := (List.getElem?_eq_some_iff.1 hj).1
      have hj' : j < (us ++ [u]).length := by simp; omega
      have hv := hall _ (List.getElem_mem hj')
      refine (c4 j _ k (List.getElem?_eq_getElem hj') hj).imp id fun hle => ?_
      have h1 := hv.2.1
      have h2 := (hall u (by simp)).1
      unfold WellFormed at h2
      omega
    have e := onePass_length M fuel hcont _ _ _ l5
    rw [e, List.map_append, List.map_snd_zip (by simp; omega)]
    simp [nothing]
    omega

/-! ### Examples -/

/-- An input at `(x, 0)` which is `x` units into the stroke. -/
def inputAt (x : F32) : Input :=
  ⟨⟨x, zero⟩, ⟨zero, zero⟩, ⟨zero, zero⟩, x, Duration32.ofMillis x, half, negOne, negOne⟩

/-- A state with some stable inputs. -/
def stateWith (n : Nat) : MState := ⟨.stylus, none, Duration32.zero, zero, Duration32.zero, zero, n, n⟩

/-- Three updates: the second replaces a predicted input. -/
def sampleUpdates : List Update :=
  [⟨stateWith 1, [inputAt zero, inputAt half]⟩, ⟨stateWith 2, [inputAt zero, inputAt one]⟩,
    ⟨stateWith 2, [inputAt zero, inputAt one, inputAt two]⟩]

/-- The hypotheses of `C42_schedule`, `C43_continuous` and `C43_one_state_per_input` are met. -/
example : sampleTip.valid = true ∧ (start (fun _ => []) sampleTip one).isSome = true ∧
    feq sampleTip.particleGapDistanceScale zero = true ∧
    sampleTip.particleGapDuration.eq Duration32.zero = true ∧
    (∀ s ∈ sources sampleTip, ofTheEnd s = false) ∧
    (∀ t ∈ TipSpec.targets sampleTip, alongDirection t = false) ∧ Chain sampleUpdates := by
  refine ⟨by decide +kernel, by decide +kernel, by decide +kernel, by decide +kernel,
    by decide +kernel, by decide +kernel, ?_⟩
  simp only [Chain, sampleUpdates, WellFormed, Extends]
  decide +kernel

/-- A tip which is moved forward by the brush size. -/
def forwardTip : BrushTip :=
  { sampleTip with behaviors := [[.constant one, .target .positionOffsetForward zero one]] }

/-- Library functions which are right where they are called below. -/
def sampleLibm : Libm where
  cos _ := one
  sin _ := zero
  tan _ := zero
  atan _ := zero
  exp _ := one
  hypot x _ := x
  atan2 _ _ := zero

/-- A tip whose width depends on the distance and on the time to the end of the stroke. -/
def taperTip : BrushTip :=
  { sampleTip with behaviors := [[.source .distanceRemaining .clamp zero one,
      .target .widthMultiplier zero one], [.source .timeSinceInputMillis .clamp zero two,
      .target .heightMultiplier zero one]] }

/-- The case of `C42_one_pass` with such sources, with inputs that are fixed and a stable one that is not;
and the hypotheses of `C42_unfinished`, in a state where time still matters. -/
example : taperTip.valid = true ∧ FiniteInputs ⟨stateWith 4, [inputAt zero, inputAt one, inputAt two,
      inputAt (ofInt 3)]⟩ ∧
    (((start (fun _ => []) taperTip one).bind fun m => m.update sampleLibm 0 (stateWith 4)
      [inputAt zero, inputAt one, inputAt two, inputAt (ofInt 3)]).map
        fun m => (m.nextFixed, m.hasUnfinishedTimeBehaviors (stateWith 4))) = some (1, true) := by
  refine ⟨by decide +kernel, ?_, by decide +kernel⟩
  intro i hi
  simp only [List.mem_cons, List.not_mem_nil, or_false] at hi
  rcases hi with rfl | rfl | rfl | rfl <;> decide +kernel

/-- C42, why a source for the travel direction is needed in `C42_schedule`: moving the tip forward uses
the travel direction, hence the next input, but an input is fixed without waiting for the next one. The
first tip state is fixed when its input is the only one, without an offset; a fresh modeler moves it. -/
theorem C42_direction_counterexample :
    forwardTip.valid = true ∧
    Chain [⟨stateWith 1, [inputAt zero]⟩, ⟨stateWith 2, [inputAt zero, inputAt one]⟩] ∧
    ∃ m0 S S', start (fun _ => []) forwardTip one = some m0 ∧
      stroke sampleLibm 0 m0
        [⟨stateWith 1, [inputAt zero]⟩, ⟨stateWith 2, [inputAt zero, inputAt one]⟩] = some S ∧
      stroke sampleLibm 0 m0 [⟨stateWith 2, [inputAt zero, inputAt one]⟩] = some S' ∧
      (S.map fun t => t.position.x) = [zero, two] ∧ (S'.map fun t => t.position.x) = [one, two] := by
  refine ⟨by decide +kernel, ?_, (start (fun _ => []) forwardTip one).get (by decide +kernel),
    (stroke sampleLibm 0 ((start (fun _ => []) forwardTip one).get (by decide +kernel))
      [⟨stateWith 1, [inputAt zero]⟩, ⟨stateWith 2, [inputAt zero, inputAt one]⟩]).get
      (by decide +kernel),
    (stroke sampleLibm 0 ((start (fun _ => []) forwardTip one).get (by decide +kernel))
      [⟨stateWith 2, [inputAt zero, inputAt one]⟩]).get (by decide +kernel),
    (Option.some_get _).symm, (Option.some_get _).symm, (Option.some_get _).symm, by decide +kernel,
    by decide +kernel⟩
  simp only [Chain, WellFormed, Extends]
  decide +kernel

/-- A tip with a particle every 2⁻³⁰ brush sizes. -/
def particleTip : BrushTip :=
  { sampleTip with behaviors := [], particleGapDistanceScale := .fin false 0x30800000 (by decide) }

/-- The modeler started with it. -/
def particleModeler : Modeler where
  tip := particleTip
  size := one
  distanceUpperBound := zero
  timeUpperBound := Duration32.zero
  dependsNext := false
  nodes := []
  targets := []
  gap := ⟨F32.mul particleTip.particleGapDistanceScale one, particleTip.particleGapDuration⟩
  nextFixed := 0
  fixedMetrics := none
  fixedDamped := []
  fixedMods := []
  saved := []
  newFixedCount := 0

theorem particle_stuck (st : MState) (dir : Option F32) (a : Acc)
    (ha : a.metrics = some ⟨zero, Duration32.zero⟩) (hd : a.damped = []) (hm : a.mods = []) :
    particleModeler.emit M st (inputAt one) (inputAt zero) dir fuel a = none := by
  induction fuel generalizing a with
  | zero =>
    unfold Modeler.emit
    rw [ha]
    simp only
    rw [if_neg (by decide +kernel)]
  | succ n ih =>
    unfold Modeler.emit
    rw [ha]
    simp only
    rw [if_neg (by decide +kernel)]
    have e : ∃ t, particleModeler.addTipState M st (lerpInput (inputAt one) (inputAt zero)
        (particleModeler.particleRatio (inputAt one) (inputAt zero) ⟨zero, Duration32.zero⟩)) dir
        (some ⟨zero, Duration32.zero⟩) a = some ⟨some ⟨zero, Duration32.zero⟩, [], [], t⟩ := by
      have e1 : (lerpInput (inputAt one) (inputAt zero)
        (particleModeler.particleRatio (inputAt one) (inputAt zero)
          ⟨zero, Duration32.zero⟩)).traveledDistance = zero := by decide +kernel
      have e2 : (lerpInput (inputAt one) (inputAt zero)
        (particleModeler.particleRatio (inputAt one) (inputAt zero)
          ⟨zero, Duration32.zero⟩)).elapsedTime = Duration32.zero := by decide +kernel
      unfold Modeler.addTipState
      rw [e1, e2, hd, hm]
      exact ⟨_, rfl⟩
    obtain ⟨t, e⟩ := e
    rw [e]
    exact ih _ rfl rfl rfl

/-- C43, the missing part: with a valid but very small particle gap an update never returns: the next
particle is placed by interpolating between two inputs, where the gap is lost by rounding, so that it is
put where the last one is. -/
theorem C43_particles_counterexample : particleTip.valid = true ∧
    toRat particleTip.particleGapDistanceScale = 1 / 2 ^ 30 ∧
    start tabulate particleTip one = some particleModeler ∧
    Chain [⟨stateWith 2, [inputAt zero, inputAt one]⟩] ∧
    ∀ fuel, particleModeler.update M fuel (stateWith 2) [inputAt zero, inputAt one] = none := by
  refine ⟨by decide +kernel, by decide +kernel, ?_, by simp only [Chain, WellFormed]; decide, ?_⟩
  · unfold start
    rw [if_neg (by decide +kernel)]
    rfl
  intro fuel
  unfold Modeler.update
  rw [if_neg (by simp)]
  have h1 : particleModeler.maxFixedMetrics (stateWith 2) [inputAt zero, inputAt one] =
    some ⟨one, (inputAt one).elapsedTime⟩ := by decide +kernel
  rw [h1]
  simp only
  have h0 : ∃ t, particleModeler.processIndex M fuel (stateWith 2) [inputAt zero, inputAt one] 0
      ⟨none, [], [], []⟩ = some ⟨some ⟨zero, Duration32.zero⟩, [], [], t⟩ := by
    obtain ⟨d, hd⟩ : ∃ d, travelDirection M [inputAt zero, inputAt one] 0 = some d := by
      unfold travelDirection
      simp only [List.getElem?_cons_zero]
      split <;> split <;> exact ⟨_, rfl⟩
    unfold Modeler.processIndex
    rw [hd]
    simp only [List.getElem?_cons_zero]
    unfold Modeler.processInput
    rw [if_pos (by simp)]
    unfold Modeler.addTipState
    have hz : (inputAt zero).elapsedTime = Duration32.zero := by decide +kernel
    have hz' : (inputAt zero).traveledDistance = zero := by decide +kernel
    have hc : particleModeler.continuous = false := by decide +kernel
    rw [hz, hz']
    simp only [hc]
    exact ⟨_, rfl⟩
  obtain ⟨t, h0⟩ := h0
  have h2 : particleModeler.processIndex M fuel (stateWith 2) [inputAt zero, inputAt one] 1
      ⟨some ⟨zero, Duration32.zero⟩, [], [], t⟩ = none := by
    obtain ⟨d, hd⟩ : ∃ d, travelDirection M [inputAt zero, inputAt one] 1 = some d := by
      unfold travelDirection
      simp only [List.getElem?_cons_succ, List.getElem?_cons_zero]
      split <;> split <;> exact ⟨_, rfl⟩
    unfold Modeler.processIndex
    rw [hd]
    simp only [List.getElem?_cons_zero, List.getElem?_cons_succ]
    unfold Modeler.processInput
    have hc : particleModeler.continuous = false := by decide +kernel
    rw [if_neg (by simp [hc])]
    exact particle_stuck M fuel _ d _ rfl rfl rfl
  have h3 : particleModeler.fixLoop M fuel (stateWith 2) [inputAt zero, inputAt one]
      ⟨one, (inputAt one).elapsedTime⟩ ((stateWith 2).stableInputCount - particleModeler.nextFixed)
      particleModeler.nextFixed ⟨particleModeler.fixedMetrics, particleModeler.fixedDamped,
        particleModeler.fixedMods, []⟩ = none := by
    show particleModeler.fixLoop M fuel (stateWith 2) [inputAt zero, inputAt one]
      ⟨one, (inputAt one).elapsedTime⟩ 2 0 ⟨none, [], [], []⟩ = none
    rw [Modeler.fixLoop, if_neg (by decide)]
    simp only [List.getElem?_cons_zero]
    rw [if_neg (by decide +kernel), h0]
    simp only
    rw [Modeler.fixLoop, if_neg (by decide)]
    simp only [List.getElem?_cons_zero, List.getElem?_cons_succ, Nat.zero_add]
    rw [if_neg (by decide +kernel), h2]
  rw [h3]

end Verif.Tip
