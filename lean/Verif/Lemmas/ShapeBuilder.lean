import Verif.Spec.ShapeBuilder
import Verif.Spec.InProgressStroke
import Verif.Props.StrokeInputModeler
import Verif.Props.TipModeler
import Verif.Props.BrushTipExtruder
import Verif.Props.Coverage

/-!
# Lemmas for C81
-/

set_option autoImplicit false

namespace Verif.Tip

open F32 BehaviorSpec TipSpec

variable (M : Libm) (tabulate : Easing.CubicBezier → List F32) (fuel : Nat)

theorem append_bounds_zero (l : List Node) : ∀ (m : Modeler), (∀ s ∈ l.filterMap (fun n => match n with | .source s .. => some s | _ => none),
      ofTheEnd s = false) → m.distanceUpperBound = zero → m.timeUpperBound = Duration32.zero →
    (l.foldl (Modeler.append tabulate) m).distanceUpperBound = zero ∧
    (l.foldl (Modeler.append tabulate) m).timeUpperBound = Duration32.zero := by
  induction l with
  | nil => intro m _ h1 h2; exact ⟨h1, h2⟩
  | cons n l ih =>
    intro m hs h1 h2
    rw [List.foldl_cons]
    cases n with
    | source s oor lo hi =>
      have hs : ofTheEnd s = false ∧ ∀ s ∈ l.filterMap (fun n => match n with | .source s .. => some s | _ => none), ofTheEnd s = false :=
        ⟨hs s (List.mem_filterMap.2 ⟨_, List.mem_cons_self, rfl⟩), fun t ht => hs t (by
          obtain ⟨a, ha, hb⟩ := List.mem_filterMap.1 ht
          exact List.mem_filterMap.2 ⟨a, List.mem_cons_of_mem _ ha, hb⟩)⟩
      refine ih _ hs.2 ?_ ?_
      · have : distanceBound s oor lo hi m.size = zero := by
          have := hs.1
          cases s <;> first | rfl | cases this
        simp only [Modeler.append, h1, this]
        decide +kernel
      · have : timeBound s oor lo hi = Duration32.zero := by
          have := hs.1
          cases s <;> first | rfl | cases this
        simp only [Modeler.append, h2, this]
        decide +kernel
    | _ => exact ih _ (by simpa using hs) h1 h2

theorem start_bounds_zero {tip : BrushTip} {size : F32} {m : Modeler} (hs : start tabulate tip size = some m)
    (h : ∀ s ∈ sources tip, ofTheEnd s = false) : m.distanceUpperBound = zero ∧ m.timeUpperBound = Duration32.zero := by
  unfold start at hs
  split at hs
  · cases hs
  · simp only [Option.some.injEq] at hs
    subst hs
    exact append_bounds_zero tabulate _ _ h rfl rfl

theorem sub_zero_finite {x : F32} (h : x.isFinite = true) : (sub x zero).isFinite = true ∧ toRat (sub x zero) = toRat x := by
  have hb : |toRat x - toRat zero| < ovf := by
    rw [toRat_zero, sub_zero]; exact (Repr.toRat x).lt_ovf
  exact ⟨isFinite_sub h rfl hb, by rw [toRat_sub h rfl hb, toRat_zero, sub_zero, rnd_toRat]⟩

/-- If all stable inputs pass the check, the loop ends at the last of them, or at the one before. -/
theorem fixLoop_all {m : Modeler} {st : MState} {inputs : List Input} {mx : Metrics}
    (hp : ∀ (n : Nat) (cur : Input), n < st.stableInputCount → inputs[n]? = some cur →
      gt cur.traveledDistance mx.traveledDistance = false ∧ mx.elapsedTime.lt cur.elapsedTime = false)
    (k i : Nat) (hk : st.stableInputCount ≤ i + k) (a : Acc) {i' : Nat} {a' : Acc}
    (h : m.fixLoop M fuel st inputs mx k i a = some (i', a')) :
    st.stableInputCount ≤ i' + (if m.dependsNext then 1 else 0) := by
  induction k generalizing i a with
  | zero =>
    simp only [Modeler.fixLoop, Option.some.injEq, Prod.mk.injEq] at h
    omega
  | succ k ih =>
    rw [Modeler.fixLoop] at h
    by_cases h1 : i + (if m.dependsNext then 1 else 0) < st.stableInputCount
    · rw [if_neg (by simpa using h1)] at h
      cases hc : inputs[i]? with
      | none => rw [hc] at h; cases h
      | some cur =>
        rw [hc] at h
        obtain ⟨p1, p2⟩ := hp i cur (by omega) hc
        simp only [p1, p2, Bool.or_self, Bool.false_eq_true, if_false] at h
        cases hq : m.processIndex M fuel st inputs i a with
        | none => rw [hq] at h; cases h
        | some b =>
          rw [hq] at h
          exact ih (i + 1) (by omega) b h
    · rw [if_pos (by simpa using h1)] at h
      simp only [Option.some.injEq, Prod.mk.injEq] at h
      omega

/-- The stable inputs of an update are in order. -/
def InOrder (u : Update) : Prop :=
  ∀ l ∈ (u.inputs.take u.state.stableInputCount).getLast?, ∀ i ∈ u.inputs.take u.state.stableInputCount,
    i.traveledDistance.isFinite = true ∧ i.elapsedTime.seconds.isFinite = true ∧
    le i.traveledDistance l.traveledDistance = true ∧ le i.elapsedTime.seconds l.elapsedTime.seconds = true

theorem update_all {m m' : Modeler} {u : Update} (h : m.update M fuel u.state u.inputs = some m')
    (hd : m.distanceUpperBound = zero) (ht : m.timeUpperBound = Duration32.zero) (hne : u.inputs ≠ []) (hw : WellFormed u) (ho : InOrder u) :
    u.state.stableInputCount ≤ m'.nextFixed + (if m.dependsNext then 1 else 0) := by
  unfold Modeler.update at h
  rw [if_neg hne] at h
  cases hm : m.maxFixedMetrics u.state u.inputs with
  | none => rw [hm] at h; cases h
  | some mx =>
    rw [hm] at h
    simp only at h
    cases hf : m.fixLoop M fuel u.state u.inputs mx (u.state.stableInputCount - m.nextFixed) m.nextFixed
        ⟨m.fixedMetrics, m.fixedDamped, m.fixedMods, []⟩ with
    | none => rw [hf] at h; cases h
    | some p =>
      obtain ⟨i, a⟩ := p
      rw [hf] at h
      simp only at h
      cases hr : m.runFrom M fuel u.state u.inputs (u.inputs.length - i) i a with
      | none => rw [hr] at h; cases h
      | some b =>
        rw [hr] at h
        simp only [Option.some.injEq] at h
        subst h
        refine fixLoop_all M fuel (fun n cur hn hc => ?_) _ _ (by omega) _ hf
        unfold WellFormed at hw
        have hl : (u.inputs.take u.state.stableInputCount).length = u.state.stableInputCount := by simp; omega
        have hget : (u.inputs.take u.state.stableInputCount).getLast? = u.inputs[u.state.stableInputCount - 1]? := by
          rw [List.getLast?_eq_getElem?, hl, List.getElem?_take_of_lt (by omega)]
        have h1 : u.state.stableInputCount - 1 < u.inputs.length := by omega
        rw [List.getElem?_eq_getElem h1] at hget
        have key := ho _ (by rw [hget]; rfl)
        have hcm : cur ∈ u.inputs.take u.state.stableInputCount :=
          List.mem_of_getElem? (by rw [List.getElem?_take_of_lt hn]; exact hc)
        have klast := key _ (List.mem_of_getLast? hget)
        have kc := key _ hcm
        unfold Modeler.maxFixedMetrics at hm
        rw [if_neg (by omega), List.getElem?_eq_getElem h1, hd, ht] at hm
        simp only [Option.map_some, Option.some.injEq] at hm
        subst hm
        obtain ⟨s1, s2⟩ := sub_zero_finite klast.1
        obtain ⟨s3, s4⟩ := sub_zero_finite klast.2.1
        constructor
        · have := (le_iff kc.1 klast.1).1 kc.2.2.1
          show lt _ _ = false
          rw [Bool.eq_false_iff]
          intro hlt
          rw [lt_iff s1 kc.1, s2] at hlt
          linarith
        · have := (le_iff kc.2.1 klast.2.1).1 kc.2.2.2
          show lt _ _ = false
          rw [Bool.eq_false_iff]
          intro hlt
          have e : (u.inputs[u.state.stableInputCount - 1].elapsedTime.sub Duration32.zero).seconds =
              sub u.inputs[u.state.stableInputCount - 1].elapsedTime.seconds zero := by
            unfold Duration32.sub
            have : u.inputs[u.state.stableInputCount - 1].elapsedTime.isFinite = true := klast.2.1
            rw [this]; rfl
          have hlt := (lt_iff (by rw [e]; exact s3) kc.2.1).1 hlt
          simp only [e] at hlt
          rw [s4] at hlt
          linarith

/-- All stable inputs are fixed, but the last if the direction matters. -/
theorem next_fixed {tip : BrushTip} {size : F32} {m0 : Modeler} (hs : start tabulate tip size = some m0)
    (hsrc : ∀ s ∈ sources tip, ofTheEnd s = false) (us : List Update) (u : Update) (hc : Chain (us ++ [u])) (hne : u.inputs ≠ [])
    (ho : InOrder u) {m : Modeler} {F : List TipState} (h : collect M fuel m0 [] (us ++ [u]) = some (m, F)) :
    m.nextFixed = u.state.stableInputCount - (if m0.dependsNext then 1 else 0) := by
  obtain ⟨-, -, -, -, -, -, -, h0, hm, -⟩ := start_spec tabulate hs
  obtain ⟨counts, c1, c2, c3, c4, -, -⟩ := collect_spec M fuel h0 hm _ h
  have hall := chain_last us u hc
  have hup : counts.sum ≤ u.state.stableInputCount - (if m0.dependsNext then 1 else 0) := by
    refine sum_le_of counts _ fun j k hj => ?_
    have hlt := (List.getElem?_eq_some_iff.1 hj).1
    have hj' : j < (us ++ [u]).length := by rw [← c1]; exact hlt
    have hv := (hall _ (List.getElem_mem hj')).2.1
    refine (c4 j _ k (List.getElem?_eq_getElem hj') hj).imp id fun hle => ?_
    omega
  rw [collect_append] at h
  cases hcol : collect M fuel m0 [] us with
  | none => rw [hcol] at h; cases h
  | some p =>
    obtain ⟨m1, F1⟩ := p
    rw [hcol] at h
    simp only [Option.bind_some, collect] at h
    cases hu : m1.update M fuel u.state u.inputs with
    | none => rw [hu] at h; cases h
    | some m2 =>
      rw [hu] at h
      simp only at h
      cases hf : m2.newFixed with
      | none => rw [hf] at h; cases h
      | some new =>
        rw [hf] at h
        simp only [Option.some.injEq, Prod.mk.injEq] at h
        obtain ⟨rfl, rfl⟩ := h
        obtain ⟨-, -, e2, -⟩ := collect_spec M fuel h0 hm _ hcol
        obtain ⟨b1, b2⟩ := start_bounds_zero tabulate hs hsrc
        have := update_all M fuel hu (e2.2.2.1.trans b1) (e2.2.2.2.1.trans b2) hne (hall u (by simp)).1 ho
        rw [e2.2.2.2.2.1] at this
        omega

theorem node_facts {tip : BrushTip} {size : F32} {m0 : Modeler} (hs : start tabulate tip size = some m0)
    (hsrc : ∀ s ∈ sources tip, ofTheEnd s = false)
    (hdir : (∃ s ∈ sources tip, isDirection s = true) ∨ ∀ t ∈ TipSpec.targets tip, alongDirection t = false) :
    (∀ s oor lo hi, INode.source s oor lo hi ∈ m0.nodes → ofTheEnd s = false) ∧
    (m0.dependsNext = true ∨ ((∀ s oor lo hi, INode.source s oor lo hi ∈ m0.nodes → isDirection s = false) ∧
        ∀ t ∈ m0.targets, alongDirection t = false)) := by
  obtain ⟨n1, n2, -⟩ := start_spec tabulate hs
  refine ⟨fun s oor lo hi hmem => ?_, ?_⟩
  · rw [n1] at hmem
    exact hsrc s (sources_compile tabulate _ _ _ _ _ _ _ hmem)
  · rw [start_dependsNext tabulate hs]
    by_cases hany : (sources tip).any isDirection = true
    · exact Or.inl hany
    · right
      have hno : ∀ s ∈ sources tip, isDirection s = false := by
        intro s hs
        cases hx : isDirection s with
        | false => rfl
        | true => exact absurd (List.any_eq_true.2 ⟨s, hs, hx⟩) hany
      refine ⟨fun s oor lo hi hmem => ?_, fun t ht => ?_⟩
      · rw [n1] at hmem
        exact hno s (sources_compile tabulate _ _ _ _ _ _ _ hmem)
      · rcases hdir with ⟨s, hs, hx⟩ | hdir
        · rw [hno s hs] at hx; cases hx
        · rw [n2, targetsOf_eq] at ht
          exact hdir t ht

/-- What was fixed is what a run over the stable inputs gives. -/
theorem fixed_run {tip : BrushTip} {size : F32} {m0 : Modeler} (hs : start tabulate tip size = some m0)
    (hsrc : ∀ s ∈ sources tip, ofTheEnd s = false)
    (hdir : (∃ s ∈ sources tip, isDirection s = true) ∨ ∀ t ∈ TipSpec.targets tip, alongDirection t = false)
    (us : List Update) (u : Update) (hc : Chain (us ++ [u])) (hne : u.inputs ≠ [])
    (ho : InOrder u) {m : Modeler} {F : List TipState} (h : collect M fuel m0 [] (us ++ [u]) = some (m, F)) :
    ∃ a, m0.runFrom M fuel u.state u.inputs (u.state.stableInputCount - (if m0.dependsNext then 1 else 0)) 0 (nothing m0) = some a ∧
      a.out = F := by
  have hnf := next_fixed M tabulate fuel hs hsrc us u hc hne ho h
  obtain ⟨-, -, -, -, -, -, -, h0, hm, -⟩ := start_spec tabulate hs
  obtain ⟨counts, c1, c2, c3, c4, c5, -⟩ := collect_spec M fuel h0 hm _ h
  obtain ⟨k1, k2⟩ := node_facts tabulate hs hsrc hdir
  have hall := chain_last us u hc
  have hsnd : ((us ++ [u]).zip counts).map Prod.snd = counts := List.map_snd_zip (by omega)
  rw [onePass_same M fuel (v := u) k1 k2, hsnd, ← c3, hnf] at c5
  · exact ⟨_, c5, rfl⟩
  · intro j w k hj
    rw [hsnd]
    rw [List.getElem?_zip_eq_some] at hj
    have hv := hall w (List.mem_of_getElem? hj.1)
    refine (c4 j w k hj.1 hj.2).imp id fun hle => ⟨w.state.stableInputCount, hv.2.2.1, ?_⟩
    omega
  · intro p hp
    have hv := (hall p.1 (List.of_mem_zip hp).1).2
    exact ⟨hv.2.2.1, hv.2.2.2⟩

/-- Two histories that end with the same inputs: the same states are fixed, and the same volatile. -/
theorem same_split {tip : BrushTip} {size : F32} {m0 : Modeler} (hs : start tabulate tip size = some m0)
    (hsrc : ∀ s ∈ sources tip, ofTheEnd s = false)
    (hdir : (∃ s ∈ sources tip, isDirection s = true) ∨ ∀ t ∈ TipSpec.targets tip, alongDirection t = false)
    {us us' : List Update} {u u' : Update} (hc : Chain (us ++ [u])) (hc' : Chain (us' ++ [u'])) (hne : u.inputs ≠ [])
    (hi : u'.inputs = u.inputs) (hst : u'.state.stableInputCount = u.state.stableInputCount)
    (tool : u'.state.toolType = u.state.toolType) (unit : u'.state.strokeUnitLength = u.state.strokeUnitLength)
    (ho : InOrder u) {m m' : Modeler} {F F' vol vol' : List TipState} (h : collect M fuel m0 [] (us ++ [u]) = some (m, F))
    (h' : collect M fuel m0 [] (us' ++ [u']) = some (m', F')) (hvol : m.volatile = some vol) (hvol' : m'.volatile = some vol') :
    F' = F ∧ vol' = vol := by
  have ho' : InOrder u' := by unfold InOrder; rw [hi, hst]; exact ho
  obtain ⟨a, e1, e2⟩ := fixed_run M tabulate fuel hs hsrc hdir us u hc hne ho h
  obtain ⟨a', e1', e2'⟩ := fixed_run M tabulate fuel hs hsrc hdir us' u' hc' (by rw [hi]; exact hne) ho' h'
  obtain ⟨k1, k2⟩ := node_facts tabulate hs hsrc hdir
  have same := runFrom_extends M fuel (m := m0) (u := u) (v := u') (n := u.state.stableInputCount + 1) (by rw [hi]) tool unit k1 k2
    (u.state.stableInputCount - (if m0.dependsNext then 1 else 0)) 0 (by right; split <;> omega) (nothing m0)
  rw [hst, same, e1] at e1'
  cases e1'
  have hF : F' = F := e2'.symm.trans e2
  subst hF
  have s1 : stroke M fuel m0 (us ++ [u]) = some (F' ++ vol) := by unfold stroke; rw [h]; simp only [hvol]; rfl
  have s2 : stroke M fuel m0 (us' ++ [u']) = some (F' ++ vol') := by unfold stroke; rw [h']; simp only [hvol']; rfl
  have hw := (chain_last us u hc u (by simp)).1
  have t1 := C42_schedule M tabulate fuel hs hsrc hdir us u hc hne s1 u rfl hw rfl rfl
  have t2 := C42_schedule M tabulate fuel hs hsrc hdir us' u' hc' (by rw [hi]; exact hne) s2 u hi.symm hw tool.symm unit.symm
  rw [t1] at t2
  simp only [Option.some.injEq, List.append_cancel_left_eq] at t2
  exact ⟨rfl, t2.symm⟩

/-! ### Particles end with a gap -/

/-- Nothing, or something with a gap at its end. -/
def EndsInGap (l : List TipState) : Prop := ∀ t ∈ l.getLast?, t = gapTipState

theorem appendGap_ends (a : Acc) : EndsInGap a.appendGap.out := by
  intro t ht
  simpa [Acc.appendGap] using ht.symm

theorem emit_ends {m : Modeler} {st : MState} {cur prev : Input} {dir : Option F32} (n : Nat) : ∀ {a b : Acc}, EndsInGap a.out →
    m.emit M st cur prev dir n a = some b → EndsInGap b.out := by
  induction n with
  | zero =>
    intro a b ha h
    unfold Modeler.emit at h
    split at h
    · cases h
    · split at h
      · cases h; exact ha
      · cases h
  | succ n ih =>
    intro a b ha h
    unfold Modeler.emit at h
    split at h
    · cases h
    · split at h
      · cases h; exact ha
      · dsimp only at h
        split at h
        · cases h
        · exact ih (appendGap_ends _) h

theorem processIndex_ends {m : Modeler} (hcont : m.continuous = false) {st : MState} {inputs : List Input} {i : Nat} {a b : Acc}
    (ha : EndsInGap a.out) (h : m.processIndex M fuel st inputs i a = some b) : EndsInGap b.out := by
  unfold Modeler.processIndex at h
  split at h
  · unfold Modeler.processInput at h
    split at h
    · split at h
      · cases h
      · rw [hcont] at h
        simp only [Bool.not_false, if_true, Option.some.injEq] at h
        subst h
        exact appendGap_ends _
    · split at h
      · cases h
      · exact emit_ends M fuel ha h
  · cases h

theorem runFrom_ends {m : Modeler} (hcont : m.continuous = false) {st : MState} {inputs : List Input} (k : Nat) : ∀ {i : Nat} {a b : Acc},
    EndsInGap a.out → m.runFrom M fuel st inputs k i a = some b → EndsInGap b.out := by
  induction k with
  | zero => intro i a b ha h; cases h; exact ha
  | succ k ih =>
    intro i a b ha h
    unfold Modeler.runFrom at h
    split at h
    · cases h
    · rename_i hp
      exact ih (processIndex_ends M fuel hcont ha hp) h

/-- What an update fixes ends in a gap, if the tip has particles. -/
theorem update_ends {m m' : Modeler} (hcont : m.continuous = false) {st : MState} {inputs : List Input} (hne : inputs ≠ [])
    (h : m.update M fuel st inputs = some m') {new : List TipState} (hn : m'.newFixed = some new) : EndsInGap new := by
  obtain ⟨-, -, -, new', vol, b, f1, -, f3, -, -⟩ := update_spec M fuel h hne
  rw [hn] at f1
  cases f1
  exact runFrom_ends M fuel hcont _ (a := ⟨m.fixedMetrics, m.fixedDamped, m.fixedMods, []⟩) (fun t ht => by cases ht) f3

end Verif.Tip

namespace Verif.ShapeBuilder

open Verif F32 InputModeler.Spec Spec
open Verif.TipSpec (Update collect Chain WellFormed Extends)

variable {I σ E V X C : Type} {p : Parts I σ E V X}

/-! ### Distances grow -/

theorem distance_step {a d eps : F32} (ha : le zero a = true) (he : gt eps zero = true) (hd : lt d eps = false)
    (hn : (add a d).isNaN = false) : le a (add a d) = true ∧ le zero (add a d) = true := by
  have hnd := (isNaN_of_add hn).2
  have h0 : le zero d = true := by
    have he : lt zero eps = true := he
    unfold lt le at *
    simp only [Bool.and_eq_true, Bool.not_eq_true', decide_eq_true_eq, hnd] at *
    refine ⟨⟨rfl, trivial⟩, ?_⟩
    have h1 := he.1.2
    have h2 := he.2
    rw [h1] at hd
    simp only [Bool.not_false, Bool.and_self, Bool.true_and, decide_eq_false_iff_not] at hd
    omega
  have h1 := PMeshSpec.le_add ha h0
  exact ⟨h1, F32.le_trans ha h1⟩

theorem distances_ascend {eps : F32} {hypot : F32 → F32 → F32} (he : gt eps zero = true) (l : List Tip.Input)
    (h0 : ∀ a ∈ l.head?, a.traveledDistance = zero)
    (h1 : ∀ k a b, l[k]? = some a → l[k + 1]? = some b → lt (dist hypot a.position b.position) eps = false ∧
      b.traveledDistance = add a.traveledDistance (dist hypot a.position b.position)) (n : Nat)
    (hf : ∀ i ∈ l.take n, i.traveledDistance.isFinite = true) :
    ∀ j, j < n → ∀ b, l[j]? = some b → le zero b.traveledDistance = true ∧
      ∀ i, i ≤ j → ∀ a, l[i]? = some a → le a.traveledDistance b.traveledDistance = true := by
  intro j
  induction j with
  | zero =>
    intro _ b hb
    have hz : b.traveledDistance = zero := h0 b (by rw [List.head?_eq_getElem?, hb]; rfl)
    refine ⟨by rw [hz]; rfl, fun i hi a ha => ?_⟩
    obtain rfl : i = 0 := by omega
    rw [ha] at hb; cases hb
    rw [hz]; rfl
  | succ j ih =>
    intro hj b hb
    have hlt := (List.getElem?_eq_some_iff.1 hb).1
    have hc : l[j]? = some l[j] := List.getElem?_eq_getElem (by omega)
    obtain ⟨i1, i2⟩ := ih (by omega) _ hc
    obtain ⟨s1, s2⟩ := h1 j _ b hc hb
    have hfin := hf b (List.mem_of_getElem? (by rw [List.getElem?_take_of_lt hj]; exact hb))
    have st := distance_step i1 he s1 (by rw [← s2]; exact isNaN_of_isFinite hfin)
    rw [← s2] at st
    refine ⟨st.2, fun i hi a ha => ?_⟩
    rcases Nat.lt_or_ge i (j + 1) with h | h
    · exact F32.le_trans (i2 i (by omega) a ha) st.1
    · obtain rfl : i = j + 1 := by omega
      rw [ha] at hb; cases hb
      exact F32.le_refl (isNaN_of_isFinite hfin)

theorem inOrder_of {m m0 m' : InputModeler.Modeler I σ} {inputModel : I} {epsilon : F32}
    (h0 : m.start inputModel epsilon = some m0) (cs : List InputModeler.Call) (h : m0.run p.hypot p.lib cs = some m')
    (ht : TimesAscend m') : Tip.InOrder ⟨stateOf m', m'.modeled⟩ := by
  have hg : gt epsilon zero = true := by
    unfold InputModeler.Modeler.start at h0
    split at h0
    · assumption
    · cases h0
  obtain ⟨a0, a1⟩ := InputModeler.C35_spacing p.hypot p.lib h0 cs h
  intro l hl i hi
  change l ∈ (m'.modeled.take m'.stableCount).getLast? at hl
  change i ∈ m'.modeled.take m'.stableCount at hi
  obtain ⟨t1, t2, t3⟩ := ht l hl i hi
  refine ⟨t1, t2, ?_, t3⟩
  have hall := distances_ascend hg m'.modeled a0 a1 m'.stableCount (fun i hi => (ht l hl i hi).1)
  obtain ⟨k, hk, rfl⟩ := List.getElem_of_mem hi
  have hk2 : k < min m'.stableCount m'.modeled.length := by simpa using hk
  rw [Option.mem_def, List.getLast?_eq_getElem?, List.length_take, List.getElem?_take_of_lt (by omega)] at hl
  refine (hall (min m'.stableCount m'.modeled.length - 1) (by omega) l hl).2 k (by omega) _ ?_
  rw [List.getElem_take, List.getElem?_eq_getElem (by omega)]

/-! ### What the three parts do -/

theorem start_parts {b b0 : Builder I σ E V X} {im : I} {coat : Brushes.Coat} {size eps : F32} {tip : Tip.BrushTip}
    (ht : coat.tips = [tip]) (h : b.start p im coat size eps = some b0) :
    b.input.start im eps = some b0.input ∧ ∃ m0, Tip.start p.tabulate tip size = some m0 ∧ b0.modeler = some m0 ∧
      b0.extruder = StrokeGeom.Extruder.start p.env b.extruder.geometry.save ∧ b0.epsilon = eps ∧
      b0.winding = isWindingTextureParticleBrush coat tip := by
  unfold Builder.start at h
  rw [ht] at h
  obtain ⟨i, hi, h⟩ := StrokeGeom.bind_some h
  obtain ⟨m, hm, h⟩ := StrokeGeom.bind_some h
  simp only [Option.some.injEq] at h
  subst h
  exact ⟨hi, m, hm, rfl, rfl, rfl, rfl⟩

theorem start_tips {b b0 : Builder I σ E V X} {im : I} {coat : Brushes.Coat} {size eps : F32}
    (h : b.start p im coat size eps = some b0) : ∃ tip, coat.tips = [tip] := by
  unfold Builder.start at h
  obtain ⟨i, hi, h⟩ := StrokeGeom.bind_some h
  dsimp only at h
  split at h
  · exact ⟨_, by assumption⟩
  · cases h

theorem extend_parts {b x : Builder I σ E V X} {c : InputModeler.Call} (h : b.extend p c = some x) :
    b.input.extendStroke p.hypot p.lib c.real c.pred c.now = some x.input ∧
    ∃ m m' fixed vol, b.modeler = some m ∧ x.modeler = some m' ∧ m.update p.libm p.fuel (stateOf x.input) x.input.modeled = some m' ∧
      m'.newFixed = some fixed ∧ m'.volatile = some vol ∧
      b.extruder.extend p.debug p.env (p.shapes b.epsilon b.winding) p.order fixed vol = some x.extruder ∧
      x.epsilon = b.epsilon ∧ x.winding = b.winding ∧ x.outlines = x.extruder.outlines.filter (· ≠ ([], [])) := by
  unfold Builder.extend at h
  obtain ⟨i, hi, h⟩ := StrokeGeom.bind_some h
  obtain ⟨m, hm, h⟩ := StrokeGeom.bind_some h
  obtain ⟨m', hm', h⟩ := StrokeGeom.bind_some h
  obtain ⟨f, hf, h⟩ := StrokeGeom.bind_some h
  obtain ⟨v, hv, h⟩ := StrokeGeom.bind_some h
  obtain ⟨e, he, h⟩ := StrokeGeom.bind_some h
  simp only [Option.some.injEq] at h
  subst h
  exact ⟨hi, m, m', f, v, hm, rfl, hm', hf, hv, he, rfl, rfl, rfl⟩

theorem run_append (a b : List InputModeler.Call) : ∀ x : Builder I σ E V X,
    x.run p (a ++ b) = (x.run p a).bind fun y => y.run p b := by
  induction a with
  | nil => intro x; rfl
  | cons c a ih =>
    intro x
    show (x.extend p c).bind _ = ((x.extend p c).bind _).bind _
    rw [Option.bind_assoc]
    congr 1; funext y; exact ih y

theorem run_last {x y : Builder I σ E V X} {cs : List InputModeler.Call} {c : InputModeler.Call} (h : x.run p (cs ++ [c]) = some y) :
    ∃ z, x.run p cs = some z ∧ z.extend p c = some y := by
  rw [run_append] at h
  obtain ⟨z, h1, h2⟩ := StrokeGeom.bind_some h
  obtain ⟨y', h2, h3⟩ := StrokeGeom.bind_some h2
  cases h3
  exact ⟨z, h1, h2⟩

theorem extendAll_append {debug : Bool} {env : StrokeGeom.Env V X} {T : Type} {tip : StrokeGeom.Tip T E V X}
    {order : {α : Type} → List α → List α} : ∀ (a : List (List T × List T)) (e0 : StrokeGeom.Extruder E V X) (b : List (List T × List T)),
      e0.extendAll debug env tip order (a ++ b) = (e0.extendAll debug env tip order a).bind fun e => e.extendAll debug env tip order b := by
  intro a
  induction a with
  | nil => intro e0 b; rfl
  | cons c a ih =>
    intro e0 b
    show (e0.extend debug env tip order c.1 c.2).bind _ = ((e0.extend debug env tip order c.1 c.2).bind _).bind _
    rw [Option.bind_assoc]
    congr 1; funext e1; exact ih e1 b

/-- What a builder did since the start of a stroke: the updates `us` of the tip modeler and the calls `H` of the extruder. -/
structure Did (p : Parts I σ E V X) (b0 : Builder I σ E V X) (m0 : Tip.Modeler) (cs : List InputModeler.Call) (x : Builder I σ E V X)
    (us : List Update) (H : List (List Tip.TipState × List Tip.TipState)) (m : Tip.Modeler) : Prop where
  input : b0.input.run p.hypot p.lib cs = some x.input
  modeler : x.modeler = some m
  collected : collect p.libm p.fuel m0 [] us = some (m, H.flatMap (·.1))
  extruded : b0.extruder.extendAll p.debug p.env (p.shapes b0.epsilon b0.winding) p.order H = some x.extruder
  epsilon : x.epsilon = b0.epsilon
  winding : x.winding = b0.winding

theorem did_start {b0 : Builder I σ E V X} {m0 : Tip.Modeler} (h : b0.modeler = some m0) : Did p b0 m0 [] b0 [] [] m0 :=
  ⟨rfl, h, rfl, rfl, rfl, rfl⟩

theorem Did.step {b0 x y : Builder I σ E V X} {m0 m : Tip.Modeler} {cs : List InputModeler.Call} {us : List Update}
    {H : List (List Tip.TipState × List Tip.TipState)} (D : Did p b0 m0 cs x us H m) {c : InputModeler.Call} (h : x.extend p c = some y) :
    ∃ m' fixed vol, Did p b0 m0 (cs ++ [c]) y (us ++ [⟨stateOf y.input, y.input.modeled⟩]) (H ++ [(fixed, vol)]) m' ∧
      m.update p.libm p.fuel (stateOf y.input) y.input.modeled = some m' ∧
      m'.newFixed = some fixed ∧ m'.volatile = some vol ∧ y.outlines = y.extruder.outlines.filter (· ≠ ([], [])) := by
  obtain ⟨h1, m1, m', fixed, vol, h2, h3, h4, h5, h6, h7, h8, h9, h10⟩ := extend_parts h
  rw [D.modeler] at h2
  cases h2
  refine ⟨m', fixed, vol, ⟨?_, h3, ?_, ?_, h8.trans D.epsilon, h9.trans D.winding⟩, h4, h5, h6, h10⟩
  · rw [InputModeler.run_append, D.input]
    show (InputModeler.Modeler.extendStroke p.hypot p.lib x.input c.real c.pred c.now).bind _ = _
    rw [h1]; rfl
  · rw [Tip.collect_append, D.collected]
    simp only [Option.bind_some, collect, h4, h5, List.flatMap_append, List.flatMap_cons, List.flatMap_nil, List.append_nil]
  · rw [extendAll_append, D.extruded]
    show (StrokeGeom.Extruder.extend p.debug p.env _ p.order x.extruder fixed vol).bind _ = _
    rw [← D.epsilon, ← D.winding, h7]; rfl

/-! ### The updates are a chain -/

theorem chain_snoc (us : List Update) (u : Update) (h : Chain us) (hu : WellFormed u) (he : ∀ l ∈ us.getLast?, Extends l u) :
    Chain (us ++ [u]) := by
  induction us with
  | nil => exact hu
  | cons a us ih =>
    cases us with
    | nil => exact ⟨h, he a rfl, hu⟩
    | cons b us =>
      obtain ⟨h1, h2, h3⟩ := h
      exact ⟨h1, h2, ih h3 (fun l hl => he l (by rw [List.getLast?_cons_cons]; exact hl))⟩

theorem toolTypeOf_append {a b : List Batch.Input} (h : a ≠ []) : InputModeler.toolTypeOf (a ++ b) = InputModeler.toolTypeOf a := by
  cases a with
  | nil => exact absurd rfl h
  | cons x a => rfl

theorem unitLengthOf_append {a b : List Batch.Input} (h : a ≠ []) : InputModeler.unitLengthOf (a ++ b) = InputModeler.unitLengthOf a := by
  cases a with
  | nil => exact absurd rfl h
  | cons x a => rfl

theorem reals_append (a b : List InputModeler.Call) : reals (a ++ b) = reals a ++ reals b := List.flatMap_append

theorem reals_ne {cs : List InputModeler.Call} (hb : BeginsReal cs) (h : cs.all idle = false) : reals cs ≠ [] := by
  cases hf : cs.find? (fun c => !idle c) with
  | none =>
    rw [List.find?_eq_none] at hf
    have : cs.all idle = true := List.all_eq_true.2 fun c hc => by simpa using hf c hc
    rw [this] at h; cases h
  | some c =>
    have h1 := hb c hf
    have h2 := List.mem_of_find?_eq_some hf
    intro e
    exact h1 (List.flatMap_eq_nil_iff.1 e c h2)

theorem beginsReal_prefix {a b : List InputModeler.Call} (h : BeginsReal (a ++ b)) : BeginsReal a := by
  intro c hc
  refine h c ?_
  rw [List.find?_append, show a.find? (fun c => !idle c) = some c from hc]
  rfl

theorem start_saved {tab : Easing.CubicBezier → List F32} {tip : Tip.BrushTip} {size : F32} {m0 : Tip.Modeler} (h : Tip.start tab tip size = some m0) :
    m0.saved = [] ∧ m0.newFixedCount = 0 := by
  have step : ∀ (m : Tip.Modeler) n, (m.append tab n).saved = m.saved ∧ (m.append tab n).newFixedCount = m.newFixedCount := by
    intro m n
    cases n <;> exact ⟨rfl, rfl⟩
  have fold : ∀ (l : List Tip.Node) (m : Tip.Modeler), (l.foldl (Tip.Modeler.append tab) m).saved = m.saved ∧
      (l.foldl (Tip.Modeler.append tab) m).newFixedCount = m.newFixedCount := by
    intro l
    induction l with
    | nil => intro m; exact ⟨rfl, rfl⟩
    | cons n l ih =>
      intro m
      obtain ⟨a, b⟩ := ih (m.append tab n)
      obtain ⟨c, d⟩ := step m n
      exact ⟨a.trans c, b.trans d⟩
  unfold Tip.start at h
  split at h
  · cases h
  · cases h
    exact fold _ _

/-- Calls without inputs, before there are any, do nothing. -/
theorem Did.idle {b0 x y : Builder I σ E V X} {m0 : Tip.Modeler} {cs : List InputModeler.Call} (hm0 : m0.saved = [] ∧ m0.newFixedCount = 0)
    {H : List (List Tip.TipState × List Tip.TipState)} (D : Did p b0 m0 cs x [] H m0) (hx : x.input.modeled = [] ∧ x.input.realCount = 0)
    {c : InputModeler.Call} (hc : Spec.idle c = true) (h : x.extend p c = some y) :
    Did p b0 m0 (cs ++ [c]) y [] (H ++ [([], [])]) m0 ∧ y.input.modeled = [] ∧ y.input.realCount = 0 := by
  obtain ⟨m', fixed, vol, D', hu, hf, hv, -⟩ := D.step h
  obtain ⟨h1, -⟩ := extend_parts h
  unfold Spec.idle at hc
  rw [Bool.and_eq_true] at hc
  have hy : y.input.modeled = [] ∧ y.input.realCount = 0 := by
    unfold InputModeler.Modeler.extendStroke at h1
    split at h1
    · rw [if_pos ⟨hc.1, hc.2, by rw [hx.1, hx.2]; rfl⟩] at h1
      unfold InputModeler.Modeler.updateTimeAndDistance at h1
      rw [hx.1] at h1
      simp only [List.getLast?_nil, Option.some.injEq] at h1
      rw [← h1]
      exact ⟨rfl, hx.2⟩
    · cases h1
  rw [hy.1, Tip.Modeler.update, if_pos rfl] at hu
  have em : m' = m0 := by
    injection hu with hu
    rw [← hu, ← hm0.1]
  subst em
  unfold Tip.Modeler.newFixed at hf
  unfold Tip.Modeler.volatile at hv
  rw [hm0.1, hm0.2] at hf hv
  simp only [List.length_nil, Nat.le_refl, if_true, List.take_zero, List.drop_zero, Option.some.injEq] at hf hv
  subst hf hv
  refine ⟨⟨D'.input, D'.modeler, ?_, D'.extruded, D'.epsilon, D'.winding⟩, hy⟩
  have := D.collected
  rw [List.flatMap_append]
  simpa using this

/-- A whole history: the updates with inputs are a chain, and each call has volatile states or fixed ones that end in a gap. -/
theorem did_run {b b0 : Builder I σ E V X} {im : I} {coat : Brushes.Coat} {size eps : F32} {tip : Tip.BrushTip} (ht : coat.tips = [tip])
    (hs : b.start p im coat size eps = some b0) (cs : List InputModeler.Call) :
    ∀ (x : Builder I σ E V X), BeginsReal cs → (Continuous tip size → NeverSettled p b0 cs) → b0.run p cs = some x →
    ∃ m0 us H m, Tip.start p.tabulate tip size = some m0 ∧ Did p b0 m0 cs x us H m ∧ Chain us ∧ (∀ c ∈ H, c.2 ≠ [] ∨ Tip.EndsInGap c.1) ∧
      (∀ l ∈ us.getLast?, l = ⟨stateOf x.input, x.input.modeled⟩) ∧
      (cs.all idle = false → x.input.toolType = InputModeler.toolTypeOf (reals cs) ∧ x.input.unitLength = InputModeler.unitLengthOf (reals cs)) ∧
      (cs.all idle = true → us = [] ∧ m = m0 ∧ x.input.modeled = [] ∧ x.input.realCount = 0) ∧
      (cs.all idle = false → ∃ us' H' fixed vol, us = us' ++ [⟨stateOf x.input, x.input.modeled⟩] ∧ H = H' ++ [(fixed, vol)] ∧
        m.volatile = some vol ∧ x.outlines = x.extruder.outlines.filter (· ≠ ([], []))) := by
  obtain ⟨hi, m0, hm0, hm, -, -, -⟩ := start_parts ht hs
  induction cs using List.reverseRecOn with
  | nil =>
    intro x _ _ h
    cases h
    have hx : b0.input.modeled = [] ∧ b0.input.realCount = 0 := by
      unfold InputModeler.Modeler.start at hi
      split at hi
      · injection hi with hi; rw [← hi]; exact ⟨rfl, rfl⟩
      · cases hi
    exact ⟨m0, [], [], m0, hm0, did_start hm, trivial, by simp, by simp, by simp, fun _ => ⟨rfl, rfl, hx⟩, by simp⟩
  | append_singleton cs c ih =>
    intro y hb hn h
    obtain ⟨x, h1, h2⟩ := run_last h
    obtain ⟨m0', us, H, m, e1, D, ch, hv2, hl, tl, nil, -⟩ := ih x (beginsReal_prefix hb)
      (fun hcn done hp => hn hcn done (hp.trans (List.prefix_append _ _))) h1
    rw [hm0] at e1
    cases e1
    cases hall : (cs ++ [c]).all idle with
    | true =>
      rw [List.all_append, Bool.and_eq_true] at hall
      obtain ⟨rfl, rfl, hx⟩ := nil hall.1
      obtain ⟨D', hy⟩ := D.idle (start_saved hm0) hx (by simpa using hall.2) h2
      refine ⟨_, [], _, _, hm0, D', trivial, ?_, by simp, by simp, fun _ => ⟨rfl, rfl, hy⟩, by simp⟩
      intro k hk
      rcases List.mem_append.1 hk with hk | hk
      · exact hv2 k hk
      · simp only [List.mem_singleton] at hk
        subst hk
        exact Or.inr fun t ht => by cases ht
    | false =>
      obtain ⟨m', fixed, vol, D', hu, hf, hvol, ho⟩ := D.step h2
      obtain ⟨P, -, w1, w2, w3, w4, -⟩ := InputModeler.C35_modeled p.hypot p.lib hi cs c D'.input
      have hr := reals_ne hb hall
      rw [toolTypeOf_append hr] at w3
      rw [unitLengthOf_append hr] at w4
      have hw : WellFormed ⟨stateOf y.input, y.input.modeled⟩ := by
        show y.input.stableCount ≤ y.input.modeled.length
        omega
      have hx : ∀ l ∈ us.getLast?, Extends l ⟨stateOf y.input, y.input.modeled⟩ := by
        intro l hl'
        have hcs : cs.all idle = false := by
          cases e : cs.all idle with
          | true => rw [(nil e).1] at hl'; cases hl'
          | false => rfl
        obtain rfl := hl l hl'
        obtain ⟨t1, t2⟩ := tl hcs
        have hfin := InputModeler.C35_final p.hypot p.lib hi cs [c] D.input (m2 := y.input) (by
          obtain ⟨q, -⟩ := extend_parts h2
          show (InputModeler.Modeler.extendStroke p.hypot p.lib x.input c.real c.pred c.now).bind _ = _
          rw [q]; rfl)
        have hr' := reals_ne (beginsReal_prefix hb) hcs
        refine ⟨hfin.1, hfin.2, ?_, ?_⟩
        · show toolOf y.input.toolType = toolOf x.input.toolType
          rw [w3, t1, reals_append, toolTypeOf_append hr']
        · show y.input.unitLength = x.input.unitLength
          rw [w4, t2, reals_append, unitLengthOf_append hr']
      have ch' := chain_snoc us _ ch hw hx
      obtain ⟨-, -, -, -, -, -, hgap, z1, z2, -⟩ := Tip.start_spec p.tabulate hm0
      have hvne : vol ≠ [] ∨ Tip.EndsInGap fixed := by
        obtain ⟨-, -, c2, -⟩ := Tip.collect_spec p.libm p.fuel z1 z2 _ D.collected
        by_cases hne : y.input.modeled = []
        · right
          intro t hmem
          rw [hne, Tip.Modeler.update, if_pos rfl] at hu
          cases hu
          unfold Tip.Modeler.newFixed at hf
          split at hf
          · cases hf; simp at hmem
          · cases hf
        cases hcont : m0.continuous with
        | false =>
          right
          have hcm : m.continuous = false := by
            rw [← hcont]; unfold Tip.Modeler.continuous; rw [c2.2.2.2.2.2.2.2]
          exact Tip.update_ends p.libm p.fuel hcm hne hu hf
        | true =>
          left
          have hcn : Continuous tip size := by
            unfold Tip.Modeler.continuous at hcont
            rw [hgap, Bool.and_eq_true] at hcont
            exact hcont
          have hset := hn hcn (cs ++ [c]) (List.prefix_refl _) y h hne
          obtain ⟨counts, c1, -, c3, c4, -, -⟩ := Tip.collect_spec p.libm p.fuel z1 z2 _ D'.collected
          obtain ⟨-, k, vol', b', d2, d3, d4, d5, d6, d7⟩ := Tip.step_spec p.libm p.fuel c2 (u := ⟨stateOf y.input, y.input.modeled⟩) hu hf []
          rw [hvol] at d4
          cases d4
          have n1 := Tip.runFrom_length p.libm p.fuel hcont _ _ _ _ _ d6
          rw [d7] at n1
          simp only [List.nil_append, List.length_append] at n1
          have n3 : counts.sum ≤ y.input.stableCount := by
            refine Tip.sum_le_of counts _ fun j k hj => ?_
            have hlt := (List.getElem?_eq_some_iff.1 hj).1
            have hj' : j < (us ++ [(⟨stateOf y.input, y.input.modeled⟩ : Update)]).length := by rw [← c1]; exact hlt
            have hq := (Tip.chain_last _ _ ch' _ (List.getElem_mem hj')).2.1
            refine (c4 j _ k (List.getElem?_eq_getElem hj') hj).imp id fun hle => ?_
            exact le_trans (le_trans (Nat.le_add_right _ _) hle) hq
          intro e
          rw [e, List.length_nil] at n1
          omega
      refine ⟨m0, _, _, m', hm0, D', ch', ?_, ?_, fun _ => ⟨w3, w4⟩, by simp, fun _ => ⟨us, H, fixed, vol, rfl, rfl, hvol, ho⟩⟩
      · intro k hk
        rcases List.mem_append.1 hk with hk | hk
        · exact hv2 k hk
        · simp only [List.mem_singleton] at hk
          subst hk
          exact hvne
      · intro l hl'
        simpa using hl'.symm

/-! ### What is shown -/

theorem idle_inv {inputModel : I} {epsilon : F32} (hgt : gt epsilon zero = true) (cs : List InputModeler.Call) (hc : cs.all idle = true) :
    ∀ {m m' : InputModeler.Modeler I σ} {R P : List Batch.Input}, InputModeler.Inv p.hypot p.lib inputModel epsilon m R P →
    m.run p.hypot p.lib cs = some m' → (P = [] ∨ (cs ≠ [] ∧ m.realCount ≠ m.modeled.length)) →
    InputModeler.Inv p.hypot p.lib inputModel epsilon m' R [] := by
  induction cs with
  | nil =>
    intro m m' R P J h hP
    cases h
    rcases hP with rfl | ⟨h, -⟩
    · exact J
    · exact absurd rfl h
  | cons c cs ih =>
    intro m m' R P J h hP
    rw [List.all_cons, Bool.and_eq_true] at hc
    have hi := hc.1
    unfold idle at hi
    rw [Bool.and_eq_true, List.isEmpty_iff, List.isEmpty_iff] at hi
    obtain ⟨m1, h1, h2⟩ := StrokeGeom.bind_some h
    refine ih hc.2 (P := []) ?_ h2 (Or.inl rfl)
    by_cases hne : m.realCount = m.modeled.length
    · obtain rfl : P = [] := hP.resolve_right fun h => h.2 hne
      rcases (InputModeler.step_inv p.hypot p.lib hgt J c.real c.pred c.now h1).2 with J1 | ⟨-, -, J1, -⟩
      · rw [hi.1, hi.2, List.append_nil] at J1
        exact J1
      · exact J1
    · obtain ⟨a1, a2⟩ := InputModeler.extend_inv p.hypot p.lib hgt J c.real c.pred c.now (fun h => hne h.2.2)
      cases hf : feed p.lib (p.lib.reset inputModel epsilon (InputModeler.unitLengthOf (R ++ c.real))) (script true (R ++ c.real ++ c.pred)) with
      | none => rw [a2 hf] at h1; cases h1
      | some q =>
        obtain ⟨m2, k1, k2, -⟩ := a1 q hf
        rw [k1] at h1
        cases h1
        rw [hi.1, hi.2, List.append_nil] at k2
        exact k2

theorem run_input (cs : List InputModeler.Call) : ∀ {x y : Builder I σ E V X}, x.run p cs = some y →
    x.input.run p.hypot p.lib cs = some y.input := by
  induction cs with
  | nil => intro x y h; cases h; rfl
  | cons c cs ih =>
    intro x y h
    obtain ⟨z, h1, h2⟩ := StrokeGeom.bind_some h
    show (InputModeler.Modeler.extendStroke p.hypot p.lib x.input c.real c.pred c.now).bind _ = _
    rw [(extend_parts h1).1]
    exact ih h2

/-- The modeled inputs are those of the real inputs and the prediction that is shown. -/
theorem shows_inv {b b0 x : Builder I σ E V X} {im : I} {eps : F32} (hi : b.input.start im eps = some b0.input) {cs : List InputModeler.Call}
    {P : List Batch.Input} (hs : Shows p b0 cs P) (h : b0.run p cs = some x) :
    InputModeler.Inv p.hypot p.lib im eps x.input (reals cs) P := by
  obtain ⟨before, c, later, rfl, hc, hl, hP⟩ := hs
  obtain ⟨hg, J0⟩ := InputModeler.start_inv p.hypot p.lib hi
  rw [List.append_cons, run_append] at h
  obtain ⟨z, h1, h2⟩ := StrokeGeom.bind_some h
  have hz := h1
  obtain ⟨w, h3, h4⟩ := run_last h1
  obtain ⟨P1, J1⟩ := InputModeler.run_inv p.hypot p.lib hg before J0 (run_input _ h3)
  have J2 : InputModeler.Inv p.hypot p.lib im eps z.input (reals (before ++ [c])) c.pred := by
    rcases (InputModeler.step_inv p.hypot p.lib hg J1 c.real c.pred c.now (extend_parts h4).1).2 with J2 | ⟨e1, e2, -⟩
    · simpa [reals] using J2
    · unfold idle at hc
      rw [e1, e2] at hc
      cases hc
  have hrl : reals later = [] := by
    rw [reals, List.flatMap_eq_nil_iff]
    intro k hk
    have := List.all_eq_true.1 hl k hk
    unfold idle at this
    rw [Bool.and_eq_true, List.isEmpty_iff] at this
    exact this.1
  rw [List.append_cons, reals_append, hrl, List.append_nil]
  rcases hP with ⟨rfl, rfl⟩ | ⟨hne, rfl, hP⟩
  · cases h2
    exact J2
  · exact idle_inv hg later hl J2 (run_input _ h2) (hP.imp id fun hP => ⟨hne, (hP z hz).ne⟩)

/-! ### Inputs up to the sign of a unit length that is zero -/

theorem unitLengthOf_canon (l : List Batch.Input) : InputModeler.unitLengthOf (l.map InProgress.Spec.canon) = InputModeler.unitLengthOf l := by
  cases l with
  | nil => rfl
  | cons x l =>
    show (if (InProgress.Spec.canon x).hasUnitLength then _ else none) = if x.hasUnitLength then _ else none
    unfold InProgress.Spec.canon
    split
    · rename_i h
      have h1 : x.hasUnitLength = false := by unfold Batch.Input.hasUnitLength; rw [h]; rfl
      rw [h1]
      rfl
    · rfl

theorem toolTypeOf_canon (l : List Batch.Input) : InputModeler.toolTypeOf (l.map InProgress.Spec.canon) = InputModeler.toolTypeOf l := by
  cases l with
  | nil => rfl
  | cons x l =>
    show (InProgress.Spec.canon x).tool = x.tool
    unfold InProgress.Spec.canon
    split <;> rfl

theorem script_canon (ended : Bool) (l : List Batch.Input) : script ended (l.map InProgress.Spec.canon) = script ended l := by
  have : ∀ x : Batch.Input, (InProgress.Spec.canon x).x = x.x ∧ (InProgress.Spec.canon x).y = x.y ∧ (InProgress.Spec.canon x).time = x.time ∧
      (InProgress.Spec.canon x).pressure = x.pressure ∧ (InProgress.Spec.canon x).tilt = x.tilt ∧
      (InProgress.Spec.canon x).orientation = x.orientation := by
    intro x
    unfold InProgress.Spec.canon
    split <;> exact ⟨rfl, rfl, rfl, rfl, rfl, rfl⟩
  unfold script
  refine List.ext_getElem (by simp) fun k h1 h2 => ?_
  simp only [List.getElem_mapIdx, List.getElem_map, List.length_map]
  obtain ⟨a, b, c, d, e, f⟩ := this (l[k]'(by simpa using h2))
  rw [a, b, c, d, e, f]

theorem outcome_canon {hypot : F32 → F32 → F32} {lib : InputModeler.Library I σ} (im : I) (eps : F32) (R P : List Batch.Input) :
    outcome hypot lib im eps (R.map InProgress.Spec.canon) (P.map InProgress.Spec.canon) = outcome hypot lib im eps R P := by
  unfold outcome stableInputs model
  rw [unitLengthOf_canon, ← List.map_dropLast, script_canon, script_canon, ← List.map_append, script_canon]
  have : (P.map InProgress.Spec.canon).isEmpty = P.isEmpty := by cases P <;> rfl
  rw [this]

/-! ### Whether a state is the last one -/

theorem addAll_marked {T : Type} {env : StrokeGeom.Env V X} {tip : StrokeGeom.Tip T E V X} (last : Bool) (ts : List T)
    (h : last = false ∨ ∀ t ∈ ts.getLast?, tip.small t = true) : ∀ r : StrokeGeom.Spec.Stroke E V X,
    r.addAll env tip (StrokeGeom.Spec.marked last ts) = r.addAll env tip (ts.map fun t => (t, false)) := by
  induction ts with
  | nil => intro r; rfl
  | cons t ts ih =>
    intro r
    cases ts with
    | nil =>
      show (r.add env tip t last).bind _ = (r.add env tip t false).bind _
      rcases h with h | h
      · rw [h]; rfl
      · have hs : tip.small t = true := h t rfl
        unfold StrokeGeom.Spec.Stroke.add
        rw [if_pos hs, if_pos hs]; rfl
    | cons t' ts =>
      show (r.add env tip t false).bind _ = (r.add env tip t false).bind _
      congr 1; funext r'
      exact ih (h.imp id fun h t ht => h t (by rw [List.getLast?_cons_cons]; exact ht)) r'

/-- The marks of calls do not matter if they have volatile states or end in a gap. -/
theorem strokeOf_marks {T : Type} {env : StrokeGeom.Env V X} {tip : StrokeGeom.Tip T E V X} {sv : StrokeGeom.Save V X}
    {H : List (List T × List T)} (h : ∀ c ∈ H, c.2 ≠ [] ∨ ∀ t ∈ c.1.getLast?, tip.small t = true) (vol : List T) :
    StrokeGeom.Spec.strokeOf env tip sv (H.flatMap StrokeGeom.Spec.markedFixed) vol =
      StrokeGeom.Spec.strokeOf env tip sv ((H.flatMap (·.1)).map fun t => (t, false)) vol := by
  have key : ∀ r : StrokeGeom.Spec.Stroke E V X, r.addAll env tip (H.flatMap StrokeGeom.Spec.markedFixed) =
      r.addAll env tip ((H.flatMap (·.1)).map fun t => (t, false)) := by
    induction H with
    | nil => intro r; rfl
    | cons c H ih =>
      intro r
      rw [List.flatMap_cons, List.flatMap_cons, List.map_append, StrokeGeom.addAll_append, StrokeGeom.addAll_append]
      unfold StrokeGeom.Spec.markedFixed
      rw [addAll_marked _ _ ((h c List.mem_cons_self).imp (fun h => by cases hc : c.2 <;> simp_all) id)]
      congr 1; funext r'
      exact ih (fun c hc => h c (List.mem_cons_of_mem _ hc)) r'
  unfold StrokeGeom.Spec.strokeOf
  rw [key]

end Verif.ShapeBuilder
