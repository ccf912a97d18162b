import Verif.Spec.BrushBehavior
import Verif.Model.BrushTipModeler
import Verif.Props.Easing

/-!
# C32: brush behaviors
-/

set_option autoImplicit false

namespace Verif.Tip

open F32 BehaviorSpec

/-! ## Validation -/

theorem inputs_eq (n : Node) : inputs n = n.inputCount := by cases n <;> rfl
theorem outputs_eq (n : Node) : outputs n = n.outputCount := by cases n <;> rfl

theorem feq_ne {a b : F32} (ha : a.isFinite = true) (hb : b.isFinite = true) :
    feq a b = false ↔ toRat a ≠ toRat b := by
  rw [← Bool.not_eq_true, feq_iff ha hb]

theorem rangeOk_iff (lo hi : F32) :
    rangeOk lo hi = true ↔ lo.isFinite = true ∧ hi.isFinite = true ∧ toRat lo ≠ toRat hi := by
  unfold rangeOk
  simp only [Bool.and_eq_true, Bool.not_eq_true']
  constructor
  · rintro ⟨⟨h1, h2⟩, h3⟩; exact ⟨h1, h2, (feq_ne h1 h2).1 h3⟩
  · rintro ⟨h1, h2, h3⟩; exact ⟨⟨h1, h2⟩, (feq_ne h1 h2).2 h3⟩

theorem valid_iff (n : Node) : n.valid = true ↔ NodeOk n := by
  cases n with
  | source s oor lo hi =>
    simp only [Node.valid, NodeOk, Bool.and_eq_true, rangeOk_iff]
    constructor
    · rintro ⟨h1, h2, h3, h4⟩
      refine ⟨h2, h3, h4, ?_⟩
      rintro (rfl | rfl) <;> simpa [sourceOutOfRangeOk] using h1
    · rintro ⟨h2, h3, h4, h1⟩
      refine ⟨?_, h2, h3, h4⟩
      cases s <;> simp_all [sourceOutOfRangeOk]
  | constant v => exact Iff.rfl
  | fallbackFilter p => simp [Node.valid, NodeOk]
  | toolTypeFilter e => simp [Node.valid, NodeOk, or_assoc]
  | damping s gap =>
    simp only [Node.valid, NodeOk]
    cases hf : gap.isFinite with
    | false => simp
    | true =>
      have : lt gap zero = true ↔ toRat gap < 0 := by rw [lt_iff hf rfl, toRat_zero]
      cases hl : lt gap zero with
      | false => simp; rw [hl] at this; simpa using this
      | true => simp; exact this.1 hl
  | response e => exact Iff.rfl
  | binaryOp op => simp [Node.valid, NodeOk]
  | interpolation i => simp [Node.valid, NodeOk]
  | target t lo hi => exact rangeOk_iff lo hi

theorem depth_cons (n : Node) (l : List Node) :
    depth (n :: l) = outputs n - inputs n + depth l := by simp [depth]

theorem validateFrom_iff (l : List Node) : ∀ d d' : Nat, validateFrom d l = some d' ↔
    (∀ n ∈ l, NodeOk n) ∧ (∀ p n s, l = p ++ n :: s → inputs n ≤ d + depth p) ∧
      (d' : ℤ) = d + depth l := by
  induction l with
  | nil =>
    intro d d'
    simp [validateFrom, depth]
    omega
  | cons n l ih =>
    intro d d'
    unfold validateFrom
    by_cases hv : n.valid = true
    · by_cases hd : d < n.inputCount
      · simp only [hv, Bool.not_true, Bool.false_eq_true, if_false, hd, if_true]
        constructor
        · intro h; cases h
        · rintro ⟨-, h, -⟩
          have := h [] n l rfl
          rw [inputs_eq] at this; simp [depth] at this; omega
      · simp only [hv, Bool.not_true, Bool.false_eq_true, if_false, hd]
        rw [ih]
        have hc : ((d - n.inputCount + n.outputCount : ℕ) : ℤ) = d + (outputs n - inputs n) := by
          rw [inputs_eq, outputs_eq]; omega
        rw [hc, depth_cons]
        constructor
        · rintro ⟨h1, h2, h3⟩
          refine ⟨?_, ?_, by omega⟩
          · intro k hk
            rcases List.mem_cons.1 hk with rfl | hk
            · exact (valid_iff _).1 hv
            · exact h1 k hk
          · intro p k s e
            cases p with
            | nil =>
              simp at e; obtain ⟨rfl, -⟩ := e
              rw [inputs_eq]; simp [depth]; omega
            | cons q p =>
              simp at e; obtain ⟨rfl, e⟩ := e
              have := h2 p k s e
              rw [depth_cons]; omega
        · rintro ⟨h1, h2, h3⟩
          refine ⟨fun k hk => h1 k (by simp [hk]), ?_, by omega⟩
          intro p k s e
          have := h2 (n :: p) k s (by rw [e]; rfl)
          rw [depth_cons] at this; omega
    · simp only [hv, Bool.not_false, if_true]
      constructor
      · intro h; cases h
      · rintro ⟨h, -⟩; exact absurd ((valid_iff _).2 (h n (by simp))) hv

/-- C32. `ValidateBrushBehavior` accepts exactly the lists in which every node is valid by itself, every
node finds as many values left over by the nodes before it as it takes, and no value is left over at
the end. -/
theorem C32_validation (b : Behavior) :
    b.valid = true ↔ (∀ n ∈ b, NodeOk n) ∧
      (∀ p n s, b = p ++ n :: s → inputs n ≤ depth p) ∧ depth b = 0 := by
  have key := validateFrom_iff b 0 0
  unfold Behavior.valid
  constructor
  · intro h
    cases hv : validateFrom 0 b with
    | none => rw [hv] at h; cases h
    | some d =>
      rw [hv] at h
      have hd : d = 0 := by simpa using h
      subst hd
      obtain ⟨h1, h2, h3⟩ := key.1 hv
      refine ⟨h1, fun p n s e => by have := h2 p n s e; push_cast at this; omega, by push_cast at h3; omega⟩
  · rintro ⟨h1, h2, h3⟩
    rw [key.2 ⟨h1, fun p n s e => by have := h2 p n s e; push_cast; omega, by push_cast; omega⟩]
    rfl

/-! ## The implementation of a list of nodes -/

section Env
variable (M : Libm) (tabulate : Easing.CubicBezier → List F32)

/-- What `StartStroke` makes of the nodes, with the next indices of damped values and targets. -/
def compile : Nat → Nat → List Node → List INode
  | _, _, [] => []
  | d, t, .source s oor lo hi :: l => .source s oor lo hi :: compile d t l
  | d, t, .constant v :: l => .constant v :: compile d t l
  | d, t, .fallbackFilter p :: l => .fallbackFilter p :: compile d t l
  | d, t, .toolTypeFilter e :: l => .toolTypeFilter e :: compile d t l
  | d, t, .damping s gap :: l => .damping d s gap :: compile (d + 1) t l
  | d, t, .response e :: l => .easing (Easing.setUp tabulate e) :: compile d t l
  | d, t, .binaryOp op :: l => .binaryOp op :: compile d t l
  | d, t, .interpolation i :: l => .interpolation i :: compile d t l
  | d, t, .target _ lo hi :: l => .target t lo hi :: compile d (t + 1) l

/-- The number of damping nodes. -/
def dampings : List Node → Nat
  | [] => 0
  | .damping .. :: l => dampings l + 1
  | _ :: l => dampings l

/-- The targets. -/
def targetsOf : List Node → List Target
  | [] => []
  | .target t .. :: l => t :: targetsOf l
  | _ :: l => targetsOf l

theorem dampings_append (a b : List Node) : dampings (a ++ b) = dampings a + dampings b := by
  induction a with
  | nil => simp [dampings]
  | cons n a ih => cases n <;> simp [dampings, ih]; omega

theorem targetsOf_append (a b : List Node) : targetsOf (a ++ b) = targetsOf a ++ targetsOf b := by
  induction a with
  | nil => simp [targetsOf]
  | cons n a ih => cases n <;> simp [targetsOf, ih]

theorem compile_append (a b : List Node) : ∀ d t, compile tabulate d t (a ++ b) =
    compile tabulate d t a ++ compile tabulate (d + dampings a) (t + (targetsOf a).length) b := by
  induction a with
  | nil => intro d t; simp [compile, dampings, targetsOf]
  | cons n a ih =>
    intro d t
    cases n <;> simp [compile, dampings, targetsOf, ih] <;> congr 1 <;> omega

theorem processNodes_append (c : Ctx) (a b : List INode) : ∀ m,
    processNodes M c (a ++ b) m = (processNodes M c a m).bind (processNodes M c b) := by
  induction a with
  | nil => intro m; rfl
  | cons n a ih =>
    intro m
    simp only [List.cons_append, processNodes]
    cases processNode M c n m with
    | none => rfl
    | some m' => exact ih m'

/-- `StartStroke` keeps the behaviors in order. -/
theorem foldl_append (l : List Node) : ∀ m : Modeler,
    let r := l.foldl (Modeler.append tabulate) m
    r.nodes = m.nodes ++ compile tabulate m.fixedDamped.length m.targets.length l ∧
    r.targets = m.targets ++ targetsOf l ∧
    r.fixedDamped = m.fixedDamped ++ List.replicate (dampings l) .nan ∧
    r.fixedMods = m.fixedMods ++ (targetsOf l).map initialModifier ∧
    r.tip = m.tip ∧ r.size = m.size ∧ r.gap = m.gap ∧ r.nextFixed = m.nextFixed ∧
    r.fixedMetrics = m.fixedMetrics ∧ r.saved = m.saved ∧ r.newFixedCount = m.newFixedCount := by
  induction l with
  | nil => intro m; simp [compile, targetsOf, dampings]
  | cons n l ih =>
    intro m
    obtain ⟨h1, h2, h3, h4, h5, h6, h7, h8, h9, h10, h11⟩ := ih (Modeler.append tabulate m n)
    simp only [List.foldl_cons]
    rw [h1, h2, h3, h4, h5, h6, h7, h8, h9, h10, h11]
    cases n <;> simp [Modeler.append, compile, targetsOf, dampings, List.replicate_succ]

/-- What `StartStroke` builds. -/
theorem start_spec {tip : BrushTip} {size : F32} {m : Modeler}
    (h : start tabulate tip size = some m) :
    m.nodes = compile tabulate 0 0 tip.behaviors.flatten ∧
    m.targets = targetsOf tip.behaviors.flatten ∧
    m.fixedDamped = List.replicate (dampings tip.behaviors.flatten) .nan ∧
    m.fixedMods = (targetsOf tip.behaviors.flatten).map initialModifier ∧
    m.tip = tip ∧ m.size = size ∧
    m.gap = ⟨F32.mul tip.particleGapDistanceScale size, tip.particleGapDuration⟩ ∧
    m.nextFixed = 0 ∧ m.fixedMetrics = none ∧ m.saved = [] ∧ m.newFixedCount = 0 := by
  unfold start at h
  split at h
  · cases h
  · simp only [Option.some.injEq] at h
    subst h
    have := foldl_append tabulate tip.behaviors.flatten
      { tip := tip, size := size, distanceUpperBound := zero, timeUpperBound := Duration32.zero
        dependsNext := false, nodes := [], targets := []
        gap := ⟨F32.mul tip.particleGapDistanceScale size, tip.particleGapDuration⟩
        nextFixed := 0, fixedMetrics := none, fixedDamped := [], fixedMods := []
        saved := [], newFixedCount := 0 }
    simpa using this

/-! ## Safety -/

theorem getY_total (htab : ∀ b, (tabulate b).length = 14) (f : Easing.Fn) (x : F32) :
    ∃ y, (Easing.setUp tabulate f).getY x = some y := by
  have bez : ∀ t : List F32, t.length = 14 → ∃ y, (Easing.Impl.bezier t).getY x = some y := by
    intro t ht
    cases hx : x.isNaN with
    | true => exact ⟨x, by simp [Easing.Impl.getY, Easing.bezierY, hx]⟩
    | false =>
      obtain ⟨y, hy, -⟩ := Easing.C29_bezier_in_bounds (table := t) ht hx
      exact ⟨y, hy⟩
  cases f with
  | predefined p =>
    cases p
    case linear => exact ⟨_, rfl⟩
    case stepEnd => exact ⟨_, rfl⟩
    case stepStart => exact ⟨_, rfl⟩
    all_goals exact bez _ (htab _)
  | cubicBezier b => exact bez _ (htab _)
  | linear ps => exact ⟨_, rfl⟩
  | steps n pos => cases pos <;> exact ⟨_, rfl⟩

theorem dampedValue_total {c : Ctx} {s : DampingSource} {gap d x : F32}
    (h : c.prev.isSome = true ∨ d.isNaN = true) : ∃ v, dampedValue M c s gap d x = some v := by
  unfold dampedValue
  split
  · exact ⟨_, rfl⟩
  · split
    · exact ⟨_, rfl⟩
    · rename_i h1 h2
      cases hp : c.prev with
      | none =>
        rw [hp] at h
        have : d.isNaN = true := by simpa using h
        rw [this] at h2; simp at h2
      | some p =>
        cases s
        · cases c.st.strokeUnitLength <;> exact ⟨_, rfl⟩
        · exact ⟨_, rfl⟩
        · exact ⟨_, rfl⟩

/-- Running valid nodes: no failure, the expected depth, and the arrays keep their lengths. -/
theorem processNodes_safe (htab : ∀ b, (tabulate b).length = 14) (c : Ctx) (l : List Node) :
    ∀ (k k' d t : Nat) (m : Mem), validateFrom k l = some k' → m.stack.length = k →
      d + dampings l = m.damped.length → t + (targetsOf l).length = m.mods.length →
      (c.prev.isSome = true ∨ ∀ i v, d ≤ i → m.damped[i]? = some v → v.isNaN = true) →
      ∃ m', processNodes M c (compile tabulate d t l) m = some m' ∧ m'.stack.length = k' ∧
        m'.damped.length = m.damped.length ∧ m'.mods.length = m.mods.length := by
  induction l with
  | nil =>
    intro k k' d t m hv hk _ _ _
    simp [validateFrom] at hv
    exact ⟨m, rfl, by omega, rfl, rfl⟩
  | cons n l ih =>
    intro k k' d t m hv hk hd ht hp
    unfold validateFrom at hv
    split at hv
    · cases hv
    split at hv
    · cases hv
    rename_i hin
    obtain ⟨st, ds, ms⟩ := m
    simp only at hk hd ht hp
    cases n with
    | source s oor lo hi =>
      simp only [compile, processNodes, processNode, dampings, targetsOf] at hd ht ⊢
      exact ih _ k' d t ⟨_ :: st, ds, ms⟩ hv (by simp [Node.inputCount, Node.outputCount, hk]) hd ht hp
    | constant v =>
      simp only [compile, processNodes, processNode, dampings, targetsOf] at hd ht ⊢
      exact ih _ k' d t ⟨_ :: st, ds, ms⟩ hv (by simp [Node.inputCount, Node.outputCount, hk]) hd ht hp
    | fallbackFilter p =>
      simp only [Node.inputCount, Node.outputCount] at hin hv
      cases st with
      | nil => simp at hk; omega
      | cons x st =>
        simp only [compile, processNodes, processNode, dampings, targetsOf] at hd ht ⊢
        exact ih _ k' d t ⟨_ :: st, ds, ms⟩ hv (by simp at hk ⊢; omega) hd ht hp
    | toolTypeFilter p =>
      simp only [Node.inputCount, Node.outputCount] at hin hv
      cases st with
      | nil => simp at hk; omega
      | cons x st =>
        simp only [compile, processNodes, processNode, dampings, targetsOf] at hd ht ⊢
        exact ih _ k' d t ⟨_ :: st, ds, ms⟩ hv (by simp at hk ⊢; omega) hd ht hp
    | damping s gap =>
      simp only [Node.inputCount, Node.outputCount] at hin hv
      cases st with
      | nil => simp at hk; omega
      | cons x st =>
        simp only [compile, processNodes, processNode, dampings, targetsOf] at hd ht ⊢
        have hlt : d < ds.length := by omega
        have hget : ds[d]? = some ds[d] := List.getElem?_eq_getElem hlt
        obtain ⟨v, hv'⟩ := dampedValue_total M (c := c) (s := s) (gap := gap) (d := ds[d]) (x := x)
          (hp.imp id fun h => h d _ (le_refl _) hget)
        rw [hget]
        simp only [hv']
        obtain ⟨m', e1, e2, e3, e4⟩ := ih _ k' (d + 1) t ⟨v :: st, ds.set d v, ms⟩ hv
          (by simp at hk ⊢; omega) (by simp; omega) ht (hp.imp id fun h i w hi hw => by
            rw [List.getElem?_set_ne (by omega)] at hw
            exact h i w (by omega) hw)
        exact ⟨m', e1, e2, by simpa using e3, e4⟩
    | response e =>
      simp only [Node.inputCount, Node.outputCount] at hin hv
      cases st with
      | nil => simp at hk; omega
      | cons x st =>
        simp only [compile, processNodes, processNode, dampings, targetsOf] at hd ht ⊢
        obtain ⟨y, hy⟩ := getY_total tabulate htab e x
        simp only [hy]
        exact ih _ k' d t ⟨_ :: st, ds, ms⟩ hv (by simp at hk ⊢; omega) hd ht hp
    | binaryOp op =>
      simp only [Node.inputCount, Node.outputCount] at hin hv
      match st, hk with
      | [], hk => simp at hk; omega
      | [_], hk => simp at hk; omega
      | y :: x :: st, hk =>
        simp only [compile, processNodes, processNode, dampings, targetsOf] at hd ht ⊢
        exact ih _ k' d t ⟨_ :: st, ds, ms⟩ hv (by simp at hk ⊢; omega) hd ht hp
    | interpolation i =>
      simp only [Node.inputCount, Node.outputCount] at hin hv
      match st, hk with
      | [], hk => simp at hk; omega
      | [_], hk => simp at hk; omega
      | [_, _], hk => simp at hk; omega
      | z :: y :: x :: st, hk =>
        simp only [compile, processNodes, processNode, dampings, targetsOf] at hd ht ⊢
        exact ih _ k' d t ⟨_ :: st, ds, ms⟩ hv (by simp at hk ⊢; omega) hd ht hp
    | target tg lo hi =>
      simp only [Node.inputCount, Node.outputCount] at hin hv
      cases st with
      | nil => simp at hk; omega
      | cons x st =>
        simp only [compile, processNodes, processNode, dampings, targetsOf, List.length_cons] at hd ht ⊢
        have hlt : t < ms.length := by omega
        by_cases hx : x.isNaN = true
        · rw [if_pos hx]
          exact ih _ k' d (t + 1) ⟨st, ds, ms⟩ hv (by simp at hk ⊢; omega) hd (by simp only; omega) hp
        · rw [if_neg hx, if_pos hlt]
          obtain ⟨m', e1, e2, e3, e4⟩ := ih _ k' d (t + 1) ⟨st, ds, ms.set t (lerpF lo hi x)⟩ hv
            (by simp at hk ⊢; omega) hd (by simp; omega) hp
          exact ⟨m', e1, e2, e3, by simpa using e4⟩

theorem validateFrom_append {a b : List Node} {d e : Nat} (h : validateFrom d a = some e) :
    validateFrom d (a ++ b) = validateFrom e b := by
  induction a generalizing d with
  | nil => simp [validateFrom] at h; subst h; rfl
  | cons n a ih =>
    simp only [List.cons_append, validateFrom] at h ⊢
    split at h
    · cases h
    · rename_i h1
      rw [if_neg h1]
      split at h
      · cases h
      · rename_i h2
        rw [if_neg h2]
        exact ih h

theorem validate_flatten {bs : List Behavior} (h : bs.all Behavior.valid = true) :
    validateFrom 0 bs.flatten = some 0 := by
  induction bs with
  | nil => rfl
  | cons b bs ih =>
    simp only [List.all_cons, Bool.and_eq_true] at h
    have hb : validateFrom 0 b = some 0 := by
      have := h.1
      unfold Behavior.valid at this
      cases hv : validateFrom 0 b with
      | none => rw [hv] at this; cases this
      | some d => rw [hv] at this; simp at this; rw [this]
    rw [List.flatten_cons, validateFrom_append hb]
    exact ih h.2

theorem tip_behaviors_valid {tip : BrushTip} (h : tip.valid = true) :
    tip.behaviors.all Behavior.valid = true := by
  unfold BrushTip.valid at h
  simp only [Bool.and_eq_true] at h
  exact h.2

/-- C32. After `StartStroke` with a tip accepted by `ValidateBrushTip`, running the behaviors on any
input, with any values of the library functions and from any remembered values, never pops an empty
stack, never reads outside an array and ends with an empty stack. The first tip state of a stroke has no
previous input: then no damping node may have an output yet. -/
theorem C32_never_underflows (htab : ∀ b, (tabulate b).length = 14) {tip : BrushTip} {size : F32}
    {m : Modeler} (hv : tip.valid = true) (hs : start tabulate tip size = some m) (c : Ctx)
    {ds ms : List F32} (hd : ds.length = m.fixedDamped.length) (hm : ms.length = m.targets.length)
    (hp : c.prev.isSome = true ∨ ∀ v ∈ ds, v.isNaN = true) :
    ∃ ds' ms', processNodes M c m.nodes ⟨[], ds, ms⟩ = some ⟨[], ds', ms'⟩ ∧
      ds'.length = ds.length ∧ ms'.length = ms.length := by
  obtain ⟨h1, h2, h3, -⟩ := start_spec tabulate hs
  obtain ⟨m', e1, e2, e3, e4⟩ := processNodes_safe M tabulate htab c tip.behaviors.flatten 0 0 0 0
    ⟨[], ds, ms⟩ (validate_flatten (tip_behaviors_valid hv)) rfl
    (by rw [h3] at hd; simp at hd ⊢; omega) (by rw [h2] at hm; simp [hm])
    (hp.imp id fun h i v _ hv => h v (List.mem_of_getElem? hv))
  rw [h1]
  obtain ⟨st, ds', ms'⟩ := m'
  have : st = [] := List.length_eq_zero_iff.1 e2
  subst this
  exact ⟨ds', ms', e1, e3, e4⟩

/-! ## The meaning of a list of nodes -/

theorem encode_number (v : F32) : encode (number v) = v := by
  unfold number; cases v <;> simp [encode, isNaN]

theorem encode_finite (v : F32) : encode (finite v) = orNull v := by
  unfold finite orNull; split <;> rfl

theorem number_ok {v w : F32} (h : number v = some w) : w.isNaN = false := by
  unfold number at h; split at h
  · cases h
  · simp at h; subst h; rename_i hh; simpa using hh

theorem finite_ok {v w : F32} (h : finite v = some w) : w.isNaN = false := by
  unfold finite at h; split at h
  · simp at h; subst h; rename_i hh; exact isNaN_of_isFinite hh
  · cases h

theorem damped_ok {c : Ctx} {s : DampingSource} {gap : F32} {last x : Option F32}
    (hl : ∀ v, last = some v → v.isNaN = false) (hx : ∀ v, x = some v → v.isNaN = false) :
    ∀ v, damped M c s gap last x = some v → v.isNaN = false := by
  intro v h
  unfold damped at h
  cases x with
  | none => exact hl v h
  | some y =>
    cases last with
    | none => exact hx v (by simpa using h)
    | some l =>
      simp only at h
      split at h
      · exact hx v (by simpa using h)
      · split at h
        · exact hx v (by simpa using h)
        · exact number_ok h

/-- The value of a tree is never a NaN. -/
theorem value_ok (c : Ctx) (e : Expr) (h : e.Proper) :
    ∀ v, e.value M tabulate c = some v → v.isNaN = false := by
  induction e with
  | source s oor lo hi =>
    intro v hv
    simp only [Expr.value, Option.bind_eq_some_iff] at hv
    obtain ⟨a, -, hv⟩ := hv
    exact number_ok hv
  | constant w => intro v hv; exact number_ok hv
  | fallbackFilter p e ih =>
    intro v hv
    simp only [Expr.value] at hv
    split at hv
    · cases hv
    · exact ih h v hv
  | toolTypeFilter p e ih =>
    intro v hv
    simp only [Expr.value] at hv
    split at hv
    · exact ih h v hv
    · cases hv
  | damping s gap last e ih => exact damped_ok M h.1 (ih h.2)
  | response f e ih =>
    intro v hv
    simp only [Expr.value, Option.bind_eq_some_iff] at hv
    obtain ⟨a, -, b, -, hv⟩ := hv
    exact number_ok hv
  | binaryOp op a b iha ihb =>
    intro v hv
    simp only [Expr.value] at hv
    generalize a.value M tabulate c = x at hv
    generalize b.value M tabulate c = y at hv
    cases op <;> cases x <;> cases y <;> simp only [combine] at hv <;>
      first | exact finite_ok hv | cases hv
  | interpolation i p a b ihp iha ihb =>
    intro v hv
    simp only [Expr.value] at hv
    generalize a.value M tabulate c = x at hv
    generalize b.value M tabulate c = y at hv
    generalize p.value M tabulate c = z at hv
    cases i <;> cases x <;> cases y <;> cases z <;> simp only [between] at hv <;>
      first
      | exact finite_ok hv
      | cases hv
      | (split at hv
         · cases hv
         · exact finite_ok hv)

theorem next_proper (c : Ctx) (e : Expr) (h : e.Proper) : (e.next M tabulate c).Proper := by
  induction e with
  | source | constant => trivial
  | fallbackFilter p e ih | toolTypeFilter p e ih | response p e ih => exact ih h
  | damping s gap last e ih =>
    have hv : (Expr.damping s gap last e).Proper := h
    exact ⟨value_ok M tabulate c _ hv, ih h.2⟩
  | binaryOp op a b iha ihb => exact ⟨iha h.1, ihb h.2⟩
  | interpolation i p a b ihp iha ihb => exact ⟨ihp h.1, iha h.2.1, ihb h.2.2⟩

theorem fresh_proper (e : Expr) (h : e.Fresh) : e.Proper := by
  induction e with
  | source | constant => trivial
  | fallbackFilter p e ih | toolTypeFilter p e ih | response p e ih => exact ih h
  | damping s gap last e ih => exact ⟨fun v hv => (by rw [h.1] at hv; cases hv), ih h.2⟩
  | binaryOp op a b iha ihb => exact ⟨iha h.1, ihb h.2⟩
  | interpolation i p a b ihp iha ihb => exact ⟨ihp h.1, iha h.2.1, ihb h.2.2⟩

theorem next_memory_length (c : Ctx) (e : Expr) :
    (e.next M tabulate c).memory.length = e.memory.length := by
  induction e <;> simp [Expr.next, Expr.memory, *]

theorem next_nodes (c : Ctx) (e : Expr) : (e.next M tabulate c).nodes = e.nodes := by
  induction e <;> simp [Expr.next, Expr.nodes, *]

theorem nodes_dampings (e : Expr) : dampings e.nodes = e.memory.length := by
  induction e <;> simp [Expr.nodes, Expr.memory, dampings_append, dampings, *]

theorem nodes_targets (e : Expr) : targetsOf e.nodes = [] := by
  induction e <;> simp [Expr.nodes, targetsOf_append, targetsOf, *]

theorem getY_nan (f : Easing.Fn) : (Easing.setUp tabulate f).getY .nan = some .nan := by
  have st : ∀ n pos, (Easing.setUpSteps n pos).getY .nan = some .nan := by
    intro n pos
    have h : ∀ c h s : F32, Easing.stepsY c h s .nan = .nan := by
      intro c h s
      have e1 : F32.mul c .nan = .nan := by cases c <;> rfl
      have e2 : F32.mul h .nan = .nan := by cases h <;> rfl
      have e3 : F32.add s .nan = .nan := by cases s <;> rfl
      have e4 : ffloor .nan = .nan := rfl
      unfold Easing.stepsY
      rw [e1, e4, e2, e3]; rfl
    cases pos <;> simp only [Easing.setUpSteps, Easing.Impl.getY, h]
  cases f with
  | predefined p => 
    cases p
    case stepEnd => exact st 1 .jumpEnd
    case stepStart => exact st 1 .jumpStart
    all_goals rfl
  | cubicBezier b => rfl
  | linear ps => rfl
  | steps n pos => exact st _ _

theorem nan_of_isNaN {v : F32} (h : v.isNaN = true) : v = .nan := by cases v <;> simp_all [isNaN]

/-- The damping node computes `damped`. -/
theorem dampedValue_eq {c : Ctx} {s : DampingSource} {gap : F32} {last x : Option F32}
    (hl : ∀ v, last = some v → v.isNaN = false) (hx : ∀ v, x = some v → v.isNaN = false)
    (hp : c.prev.isSome = true ∨ last = none) :
    dampedValue M c s gap (encode last) (encode x) = some (encode (damped M c s gap last x)) := by
  unfold dampedValue damped
  cases x with
  | none => simp [encode, isNaN]
  | some y =>
    have hy : (encode (some y)).isNaN = false := hx y rfl
    simp only [hy, Bool.false_eq_true, if_false]
    cases last with
    | none => simp [encode, isNaN]
    | some l =>
      have hl' : (encode (some l)).isNaN = false := hl l rfl
      simp only [hl', Bool.false_or]
      split
      · rfl
      · cases hpr : c.prev with
        | none => rw [hpr] at hp; simp at hp
        | some p =>
          cases s
          · simp only [Option.bind_some, dampingDistance]
            cases c.st.strokeUnitLength with
            | none => rfl
            | some u => simp only [Option.map_some]; rw [encode_number]; rfl
          · simp only [Option.bind_some, dampingDistance]; rw [encode_number]; rfl
          · simp only [Option.bind_some, dampingDistance]; rw [encode_number]; rfl

theorem add_nan_left (b : F32) : F32.add .nan b = .nan := rfl
theorem add_nan_right (a : F32) : F32.add a .nan = .nan := by cases a <;> rfl
theorem mul_nan_left (b : F32) : F32.mul .nan b = .nan := rfl
theorem mul_nan_right (a : F32) : F32.mul a .nan = .nan := by cases a <;> rfl

theorem binaryOp_eq (op : BinaryOp) (a b : Option F32) :
    binaryOpValue op (encode a) (encode b) = encode (combine op a b) := by
  have hn : orNull .nan = .nan := rfl
  cases op <;> cases a <;> cases b <;>
    simp only [binaryOpValue, encode, Option.getD_none, Option.getD_some, add_nan_left, add_nan_right,
      mul_nan_left, mul_nan_right, hn, combine] <;>
    exact (encode_finite _).symm

theorem interpolation_eq (i : Interpolation) {p a b : Option F32}
    (hp : ∀ v, p = some v → v.isNaN = false) (ha : ∀ v, a = some v → v.isNaN = false)
    (hb : ∀ v, b = some v → v.isNaN = false) :
    interpolationValue i (encode p) (encode a) (encode b) = encode (between i p a b) := by
  have en : encode none = .nan := rfl
  have nn : F32.nan.isNaN = true := rfl
  unfold interpolationValue
  cases a with
  | none => simp only [en, nn, Bool.true_or, if_true]; cases i <;> cases p <;> cases b <;> rfl
  | some x =>
    cases b with
    | none => simp only [en, nn, Bool.true_or, Bool.or_true, if_true]; cases i <;> cases p <;> rfl
    | some y =>
      cases p with
      | none => simp only [en, nn, Bool.or_true, if_true]; cases i <;> rfl
      | some t =>
        have e : ∀ v, encode (some v) = v := fun _ => rfl
        simp only [e, hp t rfl, ha x rfl, hb y rfl, Bool.or_false, Bool.false_eq_true, if_false]
        cases i
        · exact (encode_finite _).symm
        · simp only [between]
          split
          · rfl
          · exact (encode_finite _).symm

/-- Running the post-order traversal of a tree pushes its value and updates its memory. -/
theorem run_expr (htab : ∀ b, (tabulate b).length = 14) (c : Ctx) (e : Expr) (h : e.Proper)
    (hp : c.prev.isSome = true ∨ e.Fresh) :
    ∀ (d t : Nat) (st pre post ms : List F32), pre.length = d →
      processNodes M c (compile tabulate d t e.nodes) ⟨st, pre ++ e.memory ++ post, ms⟩ =
        some ⟨encode (e.value M tabulate c) :: st,
          pre ++ (e.next M tabulate c).memory ++ post, ms⟩ := by
  induction e with
  | source s oor lo hi =>
    intro d t st pre post ms _
    simp only [Expr.nodes, compile, processNodes, processNode, Expr.memory, Expr.next, Expr.value]
    congr 3
    unfold sourceNodeValue
    cases sourceValue M c.input c.dir c.size c.st s with
    | none => rfl
    | some v => exact (encode_number _).symm
  | constant v =>
    intro d t st pre post ms _
    simp only [Expr.nodes, compile, processNodes, processNode, Expr.memory, Expr.next, Expr.value,
      encode_number]
  | fallbackFilter p e ih =>
    intro d t st pre post ms hd
    simp only [Expr.nodes, compile_append, processNodes_append, Expr.memory, Expr.next, Expr.value]
    rw [ih h hp d t st pre post ms hd]
    simp only [Option.bind_some, compile, processNodes, processNode]
    split <;> rfl
  | toolTypeFilter p e ih =>
    intro d t st pre post ms hd
    simp only [Expr.nodes, compile_append, processNodes_append, Expr.memory, Expr.next, Expr.value]
    rw [ih h hp d t st pre post ms hd]
    simp only [Option.bind_some, compile, processNodes, processNode]
    cases toolTypeEnabled p c.st.toolType <;> rfl
  | damping s gap last e ih =>
    intro d t st pre post ms hd
    simp only [Expr.nodes, compile_append, processNodes_append, Expr.memory, Expr.next, Expr.value]
    have e1 : pre ++ (e.memory ++ [encode last]) ++ post = pre ++ e.memory ++ (encode last :: post) := by
      simp
    rw [e1, ih h.2 (hp.imp id fun q => q.2) d t st pre _ ms hd]
    simp only [Option.bind_some, compile, processNodes, processNode]
    have hix : d + dampings e.nodes = (pre ++ (e.next M tabulate c).memory).length := by
      rw [nodes_dampings, List.length_append, next_memory_length, hd]
    rw [hix, List.getElem?_append_right (le_refl _)]
    simp only [Nat.sub_self, List.getElem?_cons_zero]
    rw [dampedValue_eq M h.1 (value_ok M tabulate c e h.2) (hp.imp id fun q => q.1)]
    simp only
    rw [List.set_append_right _ _ (le_refl _)]
    simp
  | response f e ih =>
    intro d t st pre post ms hd
    simp only [Expr.nodes, compile_append, processNodes_append, Expr.memory, Expr.next, Expr.value]
    rw [ih h hp d t st pre post ms hd]
    simp only [Option.bind_some, compile, processNodes, processNode]
    cases hv : e.value M tabulate c with
    | none =>
      have : (Easing.setUp tabulate f).getY (encode none) = some .nan := getY_nan tabulate f
      rw [this]; rfl
    | some v =>
      obtain ⟨y, hy⟩ := getY_total tabulate htab f v
      have : (Easing.setUp tabulate f).getY (encode (some v)) = some y := hy
      rw [this]
      simp only [Option.bind_some, hy, encode_number]
  | binaryOp op a b iha ihb =>
    intro d t st pre post ms hd
    simp only [Expr.nodes, compile_append, processNodes_append, Expr.memory, Expr.next, Expr.value]
    have e1 : pre ++ (a.memory ++ b.memory) ++ post = pre ++ a.memory ++ (b.memory ++ post) := by simp
    rw [e1, iha h.1 (hp.imp id fun q => q.1) d t st pre _ ms hd]
    simp only [Option.bind_some]
    have e2 : pre ++ (a.next M tabulate c).memory ++ (b.memory ++ post)
        = (pre ++ (a.next M tabulate c).memory) ++ b.memory ++ post := by simp
    rw [e2, ihb h.2 (hp.imp id fun q => q.2) _ _ _ _ post ms
      (by rw [nodes_dampings, List.length_append, next_memory_length, hd])]
    simp only [Option.bind_some, compile, processNodes, processNode, binaryOp_eq]
    simp
  | interpolation i p a b ihp iha ihb =>
    intro d t st pre post ms hd
    simp only [Expr.nodes, compile_append, processNodes_append, Expr.memory, Expr.next, Expr.value]
    have e1 : pre ++ (p.memory ++ a.memory ++ b.memory) ++ post
        = pre ++ p.memory ++ (a.memory ++ b.memory ++ post) := by simp
    rw [e1, ihp h.1 (hp.imp id fun q => q.1) d t st pre _ ms hd]
    simp only [Option.bind_some]
    have e2 : pre ++ (p.next M tabulate c).memory ++ (a.memory ++ b.memory ++ post)
        = (pre ++ (p.next M tabulate c).memory) ++ a.memory ++ (b.memory ++ post) := by simp
    rw [e2, iha h.2.1 (hp.imp id fun q => q.2.1) _ _ _ _ _ ms
      (by rw [nodes_dampings, List.length_append, next_memory_length, hd])]
    simp only [Option.bind_some]
    have e3 : (pre ++ (p.next M tabulate c).memory) ++ (a.next M tabulate c).memory ++ (b.memory ++ post)
        = (pre ++ (p.next M tabulate c).memory ++ (a.next M tabulate c).memory) ++ b.memory ++ post := by
      simp
    rw [e3, ihb h.2.2 (hp.imp id fun q => q.2.2) _ _ _ _ post ms
      (by
        rw [dampings_append, nodes_dampings, nodes_dampings, List.length_append, List.length_append,
          next_memory_length, next_memory_length, hd, Nat.add_assoc])]
    simp only [Option.bind_some, compile, processNodes, processNode]
    rw [interpolation_eq i (value_ok M tabulate c p h.1) (value_ok M tabulate c a h.2.1)
      (value_ok M tabulate c b h.2.2)]
    simp only [List.append_assoc]

theorem run_forest (htab : ∀ b, (tabulate b).length = 14) (c : Ctx) (T : List TargetTree)
    (h : ∀ x ∈ T, x.input.Proper) (hp : c.prev.isSome = true ∨ ∀ x ∈ T, x.input.Fresh) :
    ∀ (d t : Nat) (pre prem : List F32), pre.length = d → prem.length = t →
      processNodes M c (compile tabulate d t (T.flatMap TargetTree.nodes))
          ⟨[], pre ++ T.flatMap (·.input.memory), prem ++ T.map (·.effect)⟩ =
        some ⟨[], pre ++ (T.map (TargetTree.next M tabulate c)).flatMap (·.input.memory),
          prem ++ (T.map (TargetTree.next M tabulate c)).map (·.effect)⟩ := by
  induction T with
  | nil => intro d t pre prem _ _; rfl
  | cons x T ih =>
    intro d t pre prem hd ht
    have hx := h x (by simp)
    have hpx : c.prev.isSome = true ∨ x.input.Fresh := hp.imp id fun q => q x (by simp)
    simp only [List.flatMap_cons, List.map_cons, TargetTree.nodes, List.append_assoc, compile_append,
      processNodes_append]
    have := run_expr M tabulate htab c x.input hx hpx d t [] pre (T.flatMap (·.input.memory))
      (prem ++ x.effect :: T.map (·.effect)) hd
    rw [List.append_assoc] at this
    rw [this]
    simp only [Option.bind_some, compile, processNodes, processNode]
    have ix : t + (targetsOf x.input.nodes).length = prem.length := by rw [nodes_targets, ht]; rfl
    have ih' := ih (fun y hy => h y (by simp [hy])) (hp.imp id fun q y hy => q y (by simp [hy]))
      (d + dampings x.input.nodes) (t + 1) (pre ++ (x.input.next M tabulate c).memory)
      (prem ++ [(x.next M tabulate c).effect])
      (by rw [nodes_dampings, List.length_append, next_memory_length, hd])
      (by simp [ht])
    simp only [List.append_assoc, List.singleton_append, List.map_map] at ih'
    rw [ix]
    have step : (if (encode (x.input.value M tabulate c)).isNaN = true then
          some (⟨[], pre ++ ((x.input.next M tabulate c).memory ++ T.flatMap (·.input.memory)),
            prem ++ x.effect :: T.map (·.effect)⟩ : Mem)
        else if prem.length < (prem ++ x.effect :: T.map (·.effect)).length then
          some ⟨[], pre ++ ((x.input.next M tabulate c).memory ++ T.flatMap (·.input.memory)),
            (prem ++ x.effect :: T.map (·.effect)).set prem.length
              (lerpF x.lo x.hi (encode (x.input.value M tabulate c)))⟩
        else none) = some ⟨[], pre ++ ((x.input.next M tabulate c).memory ++ T.flatMap (·.input.memory)),
            prem ++ (x.next M tabulate c).effect :: T.map (·.effect)⟩ := by
      cases hv : x.input.value M tabulate c with
      | none => simp [encode, isNaN, TargetTree.next, hv]
      | some v =>
        have hn := value_ok M tabulate c _ hx v hv
        simp [encode, hn, TargetTree.next, hv]
    simp only [List.append_assoc]
    rw [step]
    simp only [Option.bind_some, dampings, targetsOf, List.length_singleton, Nat.add_zero]
    rw [ht]
    simp only [List.map_map]
    exact ih'

/-- The trees after the evaluation of a list of contexts, one after the other. -/
def runTrees (cs : List Ctx) (T : List TargetTree) : List TargetTree :=
  cs.foldl (fun T c => T.map (TargetTree.next M tabulate c)) T

/-- The nodes run on a list of contexts, keeping the arrays and starting each time with an empty
stack. -/
def runNodes (nodes : List INode) : List Ctx → Mem → Option Mem
  | [], m => some m
  | c :: cs, m =>
    match processNodes M c nodes { m with stack := [] } with
    | none => none
    | some m' => runNodes nodes cs m'

theorem runNodes_forest (htab : ∀ b, (tabulate b).length = 14) (cs : List Ctx) :
    ∀ T : List TargetTree, (∀ x ∈ T, x.input.Proper) →
    ((∀ c ∈ cs, c.prev.isSome = true) ∨ (∀ x ∈ T, x.input.Fresh) ∧ ∀ c ∈ cs.tail, c.prev.isSome = true) →
    runNodes M (compile tabulate 0 0 (T.flatMap TargetTree.nodes)) cs
        ⟨[], T.flatMap (·.input.memory), T.map (·.effect)⟩ =
      some ⟨[], (runTrees M tabulate cs T).flatMap (·.input.memory),
        (runTrees M tabulate cs T).map (·.effect)⟩ := by
  induction cs with
  | nil => intro T _ _; rfl
  | cons c cs ih =>
    intro T h hp
    have h1 := run_forest M tabulate htab c T h
      (hp.imp (fun q => q c (by simp)) (fun q => q.1)) 0 0 [] [] rfl rfl
    simp only [List.nil_append] at h1
    simp only [runNodes, h1]
    have hn : (T.map (TargetTree.next M tabulate c)).flatMap TargetTree.nodes
        = T.flatMap TargetTree.nodes := by
      rw [List.flatMap_map]
      apply congrArg (fun f => T.flatMap f)
      funext x
      simp [TargetTree.nodes, TargetTree.next, next_nodes]
    rw [← hn]
    refine ih _ ?_ (Or.inl fun c' hc => ?_)
    · intro x hx
      obtain ⟨y, hy, rfl⟩ := List.mem_map.1 hx
      exact next_proper M tabulate c _ (h y hy)
    · rcases hp with q | q
      · exact q c' (by simp [hc])
      · exact q.2 c' (by simpa using hc)

/-- C32. What the node list of a tip means. Let the behaviors of the tip be the post-order traversals
of target trees `T` with nothing remembered yet, and let the nodes that `StartStroke` makes of them run
on any sequence of contexts, all but the first with the metrics of a previous input. Then no step
fails, the stack ends empty, and the stored modifiers and damped values are those of the trees,
each evaluated by itself according to the documentation of the nodes. -/
theorem C32_evaluation (htab : ∀ b, (tabulate b).length = 14) {tip : BrushTip} {size : F32}
    {m : Modeler} (hs : start tabulate tip size = some m) {T : List TargetTree}
    (hT : tip.behaviors.flatten = T.flatMap TargetTree.nodes)
    (hf : ∀ x ∈ T, x.input.Fresh ∧ x.effect = initialModifier x.target)
    (cs : List Ctx) (hc : ∀ c ∈ cs.tail, c.prev.isSome = true) :
    m.targets = T.map (·.target) ∧
    runNodes M m.nodes cs ⟨[], m.fixedDamped, m.fixedMods⟩ =
      some ⟨[], (runTrees M tabulate cs T).flatMap (·.input.memory),
        (runTrees M tabulate cs T).map (·.effect)⟩ := by
  obtain ⟨h1, h2, h3, h4, -⟩ := start_spec tabulate hs
  have ht : targetsOf (T.flatMap TargetTree.nodes) = T.map (·.target) := by
    clear hT hf
    induction T with
    | nil => rfl
    | cons x T ih => simp [targetsOf_append, TargetTree.nodes, nodes_targets, targetsOf, ih]
  have hfm : ∀ e : Expr, e.Fresh → e.memory = List.replicate (dampings e.nodes) .nan := by
    intro e he
    rw [nodes_dampings]
    induction e with
    | source | constant => rfl
    | fallbackFilter p e ih | toolTypeFilter p e ih | response p e ih => exact ih he
    | damping s gap last e ih =>
      simp only [Expr.memory, List.length_append, List.length_singleton, List.replicate_succ']
      rw [← ih he.2, he.1]; rfl
    | binaryOp op a b iha ihb =>
      simp only [Expr.memory, List.length_append, List.replicate_add]
      rw [← iha he.1, ← ihb he.2]
    | interpolation i p a b ihp iha ihb =>
      simp only [Expr.memory, List.length_append, List.replicate_add]
      rw [← ihp he.1, ← iha he.2.1, ← ihb he.2.2]
  have hd : List.replicate (dampings (T.flatMap TargetTree.nodes)) F32.nan
      = T.flatMap (·.input.memory) := by
    clear hT ht
    induction T with
    | nil => rfl
    | cons x T ih =>
      simp only [List.flatMap_cons, dampings_append, TargetTree.nodes, List.replicate_add]
      have ih' := ih fun y hy => hf y (by simp [hy])
      rw [ih', ← hfm _ (hf x (by simp)).1]
      simp [dampings]
  have hm : (T.map (·.target)).map initialModifier = T.map (·.effect) := by
    rw [List.map_map]
    exact List.map_congr_left fun x hx => (hf x hx).2.symm
  rw [h1, h2, h3, h4, hT, ht, hd, hm]
  exact ⟨rfl, runNodes_forest M tabulate htab cs T (fun x hx => fresh_proper _ (hf x hx).1)
    (Or.inr ⟨fun x hx => (hf x hx).1, hc⟩)⟩

end Env

/-- A valid behavior with all kinds of nodes: the sum of a damped, filtered pressure and an interpolated
constant, through a response curve, to the width. -/
def sampleTree : TargetTree where
  target := .widthMultiplier
  lo := half
  hi := two
  effect := one
  input := .response (.predefined .linear) (.binaryOp .sum
    (.damping .timeInSeconds half none (.toolTypeFilter ⟨true, true, true, true⟩
      (.source .normalizedPressure .clamp zero one)))
    (.interpolation .lerp (.fallbackFilter .tilt (.constant half)) (.constant zero) (.constant one)))

def sampleTip : BrushTip where
  scaleX := one
  scaleY := one
  cornerRounding := one
  slant := zero
  pinch := zero
  rotation := zero
  opacityMultiplier := one
  particleGapDistanceScale := zero
  particleGapDuration := Duration32.zero
  behaviors := [sampleTree.nodes]

example : sampleTip.valid = true ∧ (start (fun _ => []) sampleTip one).isSome = true ∧
    sampleTip.behaviors.flatten = [sampleTree].flatMap TargetTree.nodes ∧
    sampleTree.input.Fresh ∧ sampleTree.effect = initialModifier sampleTree.target := by
  refine ⟨by decide +kernel, by decide +kernel, by simp [sampleTip], ⟨⟨rfl, trivial⟩, trivial, trivial,
    trivial⟩, rfl⟩

/-- Validation also accepts lists that are not one tree after the other: here the second target takes
the first constant. `C32_never_underflows` covers them. -/
example : Behavior.valid [.constant zero, .constant one, .target .hueOffset zero one,
    .target .luminosity zero one] = true := by decide +kernel

end Verif.Tip
