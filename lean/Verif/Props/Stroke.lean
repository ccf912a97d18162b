import Verif.Spec.Stroke
import Verif.Props.Brush

/-! # C31: strokes -/

set_option autoImplicit false

namespace Verif.Strokes

open F32 Tip Brushes BrushSpec StrokeSpec

/-! ## Equality of tips -/

theorem num_iff {a b : F32} (ha : a.isFinite = true) (hb : b.isFinite = true) :
    feq a b = true ↔ num a = num b := by
  rw [feq_iff ha hb]
  unfold num
  by_cases h1 : toRat a = 0
  · rw [if_pos ⟨ha, h1⟩]
    by_cases h2 : toRat b = 0
    · rw [if_pos ⟨hb, h2⟩]; simp [h1, h2]
    · rw [if_neg (fun h => h2 h.2)]
      constructor
      · intro h; exact absurd (h ▸ h1) h2
      · intro h; rw [← h, rat_zero] at h2; exact absurd rfl h2
  · rw [if_neg (fun h => h1 h.2)]
    by_cases h2 : toRat b = 0
    · rw [if_pos ⟨hb, h2⟩]
      constructor
      · intro h; exact absurd (h.trans h2) h1
      · intro h; rw [h, rat_zero] at h1; exact absurd rfl h1
    · rw [if_neg (fun h => h2 h.2)]
      constructor
      · intro h
        have hk := (key_eq_iff ha hb).2 h
        obtain ⟨s, n, hn, rfl⟩ := exists_of_isFinite ha
        obtain ⟨t, m, hm, rfl⟩ := exists_of_isFinite hb
        have hn0 : n ≠ 0 := by
          rintro rfl; apply h1; cases s <;> simp [toRat, mag]
        cases s <;> cases t <;> simp [F32.key] at hk ⊢ <;> omega
      · intro h; rw [h]

theorem listEq_iff {α : Type} {eq : α → α → Bool} {f : α → α} {P : α → Prop}
    (h : ∀ a b, P a → P b → (eq a b = true ↔ f a = f b)) :
    ∀ l l' : List α, (∀ a ∈ l, P a) → (∀ a ∈ l', P a) →
      (listEq eq l l' = true ↔ l.map f = l'.map f)
  | [], [], _, _ => by simp [listEq]
  | [], _ :: _, _, _ => by simp [listEq]
  | _ :: _, [], _, _ => by simp [listEq]
  | a :: l, b :: l', h1, h2 => by
    simp only [listEq, Bool.and_eq_true, List.map_cons, List.cons.injEq]
    rw [h a b (h1 a (by simp)) (h2 b (by simp)),
      listEq_iff h l l' (fun x hx => h1 x (by simp [hx])) (fun x hx => h2 x (by simp [hx]))]

theorem easing_iff {a b : Easing.Fn} (ha : a.valid = true) (hb : b.valid = true) :
    easingEq a b = true ↔ easing a = easing b := by
  cases a <;> cases b
  case cubicBezier.cubicBezier c c' =>
    simp only [Easing.Fn.valid, Bool.not_eq_true', Bool.or_eq_false_iff, Bool.not_eq_false',
      Bool.and_eq_true] at ha hb
    obtain ⟨⟨⟨⟨⟨⟨⟨a1, a2⟩, a3⟩, a4⟩, -⟩, -⟩, -⟩, -⟩ := ha
    obtain ⟨⟨⟨⟨⟨⟨⟨b1, b2⟩, b3⟩, b4⟩, -⟩, -⟩, -⟩, -⟩ := hb
    simp only [easingEq, easing, Bool.and_eq_true, num_iff a1 b1, num_iff a2 b2, num_iff a3 b3,
      num_iff a4 b4, Easing.Fn.cubicBezier.injEq, Easing.CubicBezier.mk.injEq, and_assoc]
  case linear.linear ps ps' =>
    simp only [Easing.Fn.valid, Bool.and_eq_true, List.all_eq_true] at ha hb
    have := listEq_iff (eq := pointEq) (f := fun p => ⟨num p.x, num p.y⟩)
      (P := fun p => Easing.pointOk p = true) (fun p q hp hq => by
        simp only [Easing.pointOk, Bool.and_eq_true, Bool.not_eq_true', Bool.or_eq_false_iff,
          Bool.not_eq_false'] at hp hq
        simp only [pointEq, Bool.and_eq_true, num_iff hp.1.1.1 hq.1.1.1, num_iff hp.2 hq.2,
          PointF.mk.injEq]) ps ps' ha.1 hb.1
    simp only [easingEq, easing, this, Easing.Fn.linear.injEq]
  all_goals simp [easingEq, easing]

theorem node_iff {a b : Node} (ha : BehaviorSpec.NodeOk a) (hb : BehaviorSpec.NodeOk b) :
    nodeEq a b = true ↔ node a = node b := by
  cases a <;> cases b
  case source.source =>
    simp [nodeEq, node, num_iff ha.1 hb.1, num_iff ha.2.1 hb.2.1, and_assoc]
  case constant.constant => simp [nodeEq, node, num_iff ha hb]
  case damping.damping => simp [nodeEq, node, num_iff ha.1 hb.1]
  case target.target =>
    simp [nodeEq, node, num_iff ha.1 hb.1, num_iff ha.2.1 hb.2.1]
  case response.response => simp [nodeEq, node, easing_iff ha hb]
  case toolTypeFilter.toolTypeFilter e e' =>
    obtain ⟨a1, a2, a3, a4⟩ := e
    obtain ⟨b1, b2, b3, b4⟩ := e'
    simp [nodeEq, node, and_assoc]
  all_goals simp [nodeEq, node]

/-- C31. Two valid tips compare equal exactly when they have the same values. -/
theorem C31_tip_equality {a b : BrushTip} (ha : TipOk a) (hb : TipOk b) :
    tipEq a b = true ↔ tip a = tip b := by
  obtain ⟨a1, a2, -, a3, a4, a5, a6, a7, a8, a9, a10⟩ := ha
  obtain ⟨b1, b2, -, b3, b4, b5, b6, b7, b8, b9, b10⟩ := hb
  have hbeh := listEq_iff (eq := listEq nodeEq) (f := fun b => b.map node) (P := BehaviorOk)
    (fun p q hp hq => listEq_iff (P := BehaviorSpec.NodeOk) (f := node)
      (fun n m hn hm => node_iff hn hm) p q hp.1 hq.1)
    a.behaviors b.behaviors a10 b10
  unfold tipEq tip
  simp only [Bool.and_eq_true, num_iff a1.1 b1.1, num_iff a2.1 b2.1, num_iff a3.1 b3.1,
    num_iff a4.1 b4.1, num_iff a5.1 b5.1, num_iff a6 b6, num_iff a7.1 b7.1, num_iff a8.1 b8.1,
    Duration32.eq, num_iff a9.1 b9.1, hbeh, BrushTip.mk.injEq, Duration32.mk.injEq, and_assoc]

theorem tips_iff {a b : List Coat} (ha : CoatsOk a) (hb : CoatsOk b) :
    tipsAreEqual a b = true ↔ tips a = tips b := by
  unfold tipsAreEqual
  by_cases hl : a.length = b.length
  · rw [if_neg (by simpa using hl)]
    induction a generalizing b with
    | nil => cases b with
      | nil => simp [tipsEqualLoop, tips]
      | cons => simp at hl
    | cons c l ih => cases b with
      | nil => simp at hl
      | cons c' l' =>
        have hc := listEq_iff (P := TipOk) (f := tip) (eq := tipEq) (fun p q hp hq => C31_tip_equality hp hq) c.tips c'.tips
          (ha c (by simp)) (hb c' (by simp))
        have := @ih l' (fun x hx => ha x (by simp [hx])) (fun x hx => hb x (by simp [hx]))
          (by simpa using hl)
        simp only [tips, List.map_cons, List.cons.injEq] at this ⊢
        rw [tipsEqualLoop, ← hc]
        cases h : listEq tipEq c.tips c'.tips
        · simp
        · simpa using this
  · rw [if_pos (by simpa using hl)]
    simp only [Bool.false_eq_true, false_iff]
    intro h
    have := congrArg List.length h
    simp [tips] at this
    exact hl this

/-! ## Shapes -/

variable {Shape Mesh C : Type} (E : Env Shape Mesh)

theorem regenerate_eq (s : Stroke Shape C) :
    s.regenerate E = ⟨s.brush, s.inputs, shapeOf E s.brush s.inputs⟩ := by
  unfold Stroke.regenerate shapeOf Brush.coatCount
  by_cases h : s.inputs = [] ∨ s.brush.family.coats.length = 0
  · rw [if_pos (by simpa [or_comm] using h)]
    simp only [if_pos h]
  · rw [if_neg (by simpa [or_comm] using h)]
    simp only [if_neg h]
    cases E.build (s.brush.family.coats.map fun c =>
      E.gen s.brush.family.inputModel c s.brush.size s.brush.epsilon s.inputs) <;> rfl

theorem groups_shapeOf (hE : EnvOk E) (b : Brush C) (inputs : List Batch.Input) :
    E.groups (shapeOf E b inputs) = b.coatCount := by
  unfold shapeOf Brush.coatCount
  by_cases h : inputs = [] ∨ b.family.coats.length = 0
  · simp only [if_pos h]; exact hE.empty _
  · simp only [if_neg h]
    cases hb : E.build (b.family.coats.map fun c =>
      E.gen b.family.inputModel c b.size b.epsilon inputs) with
    | none => exact hE.empty _
    | some m => rw [Option.getD_some, hE.build _ _ hb, List.length_map]

/-- C31. The constructors: what the brush, the inputs and the shape are. -/
theorem C31_construct (b : Brush C) (inputs : List Batch.Input) (shape : Shape) :
    ofBrush E b = ⟨b, [], shapeOf E b []⟩ ∧
    ofInputs E b inputs = ⟨b, inputs, shapeOf E b inputs⟩ ∧
    (E.groups shape = b.coatCount → ofShape E b inputs shape = some ⟨b, inputs, shape⟩) ∧
    (E.groups shape ≠ b.coatCount → ofShape E b inputs shape = none) := by
  refine ⟨?_, ?_, fun h => if_pos h, fun h => if_neg h⟩
  · simp [ofBrush, shapeOf, Brush.coatCount]
  · rw [ofInputs, regenerate_eq]

/-- C31. `SetBrushAndInputs` and `SetInputs` give the shape for the new brush and inputs, and do not
fail. -/
theorem C31_set_inputs (s : Stroke Shape C) (b : Brush C) (inputs : List Batch.Input) :
    s.setBrushAndInputs E b inputs = ⟨b, inputs, shapeOf E b inputs⟩ ∧
    s.setInputs E (.given inputs) = some ⟨s.brush, inputs, shapeOf E s.brush inputs⟩ := by
  constructor
  · rw [Stroke.setBrushAndInputs, regenerate_eq]
  · unfold Stroke.setInputs
    have : InProgress.appendBatch [] inputs = some inputs := by
      cases inputs <;> rfl
    simp only [this, regenerate_eq]

theorem feq_sizes {a b : F32} (ha : Positive a) (hb : Positive b) : feq a b = true ↔ a = b := by
  rw [num_iff ha.1 hb.1]
  unfold num
  rw [if_neg (fun h => by have := ha.2; rw [h.2] at this; exact absurd this (lt_irrefl _)),
    if_neg (fun h => by have := hb.2; rw [h.2] at this; exact absurd this (lt_irrefl _))]

open Classical in
/-- C31. `SetBrush` gives the stroke the new brush. The shape is regenerated exactly when the size,
epsilon or the tips change. -/
theorem C31_set_brush (s : Stroke Shape C) (hs : BrushOk s.brush) (b : Brush C) (hb : BrushOk b) :
    s.setBrush E b = ⟨b, s.inputs, if SameShape b s.brush then s.shape else shapeOf E b s.inputs⟩ := by
  have h1 := feq_sizes hb.1.1 hs.1.1
  have h2 := feq_sizes hb.1.2.1 hs.1.2.1
  have h3 := tips_iff hb.2 hs.2
  have main : (!feq b.size s.brush.size || !feq b.epsilon s.brush.epsilon ||
      !tipsAreEqual b.family.coats s.brush.family.coats) = false ↔ SameShape b s.brush := by
    unfold SameShape
    rw [← h1, ← h2, ← h3]
    simp [and_assoc]
  unfold Stroke.setBrush
  by_cases h : SameShape b s.brush
  · have := main.2 h
    simp only [this, if_pos h, Bool.false_eq_true, if_false]
  · have := (not_congr main).2 h
    simp only [Bool.not_eq_false] at this
    simp only [this, if_neg h, if_true, regenerate_eq]

open Classical in
/-- C31. `SetBrushFamily` gives the brush the new family. The shape is regenerated exactly when the tips
change. -/
theorem C31_set_family (s : Stroke Shape C) (hs : BrushOk s.brush) (f : Family) (hf : CoatsOk f.coats) :
    s.setBrushFamily E f = ⟨s.brush.setFamily f, s.inputs,
      if tips f.coats = tips s.brush.family.coats then s.shape
      else shapeOf E (s.brush.setFamily f) s.inputs⟩ := by
  have main := tips_iff hf hs.2
  unfold Stroke.setBrushFamily
  by_cases h : tips f.coats = tips s.brush.family.coats
  · have := main.2 h
    simp only [this, if_pos h, Bool.not_true, Bool.false_eq_true, if_false]
  · have := (not_congr main).2 h
    simp only [Bool.not_eq_true] at this
    simp only [this, if_neg h, if_true, Bool.not_false, regenerate_eq]

/-- C31. `SetBrushSize` fails exactly when the size is invalid for the brush, and then changes nothing.
Otherwise the size is the new one, and the shape is regenerated exactly when it is different. -/
theorem C31_set_size (s : Stroke Shape C) (hs : BrushOk s.brush) (x : F32) :
    (¬ SizeOk x s.brush.epsilon → s.setBrushSize E x = (false, s)) ∧
    (x = s.brush.size → s.setBrushSize E x = (true, s)) ∧
    (SizeOk x s.brush.epsilon → x ≠ s.brush.size →
      s.setBrushSize E x = (true, ⟨{ s.brush with size := x }, s.inputs,
        shapeOf E { s.brush with size := x } s.inputs⟩)) := by
  unfold Stroke.setBrushSize
  have hset := C30_set_size s.brush hs.1 x
  have hfe : Positive x → (feq x s.brush.size = true ↔ x = s.brush.size) :=
    fun h => feq_sizes h hs.1.1
  refine ⟨fun h => ?_, fun h => ?_, fun h h' => ?_⟩
  · by_cases he : feq x s.brush.size = true
    · exfalso
      have hfin : x.isFinite = true := by
        unfold feq at he
        simp only [Bool.and_eq_true, decide_eq_true_eq, Bool.not_eq_true'] at he
        rw [isFinite_iff_key, he.2]
        exact ⟨he.1.1, ((isFinite_iff_key _).1 hs.1.1.1).2⟩
      have := (feq_iff hfin hs.1.1.1).1 he
      have hp : Positive x := ⟨hfin, this ▸ hs.1.1.2⟩
      rw [(hfe hp).1 he] at h
      exact h hs.1
    · rw [if_neg he]
      simp only [hset.2 h]
      rfl
  · rw [if_pos (by rw [h]; exact (feq_sizes hs.1.1 hs.1.1).2 rfl)]
  · rw [if_neg (fun e => h' ((hfe h.1).1 e))]
    simp only [hset.1 h, Bool.not_true, Bool.false_eq_true, if_false, regenerate_eq]

/-- C31. `SetBrushEpsilon`, likewise. -/
theorem C31_set_epsilon (s : Stroke Shape C) (hs : BrushOk s.brush) (x : F32) :
    (¬ SizeOk s.brush.size x → s.setBrushEpsilon E x = (false, s)) ∧
    (x = s.brush.epsilon → s.setBrushEpsilon E x = (true, s)) ∧
    (SizeOk s.brush.size x → x ≠ s.brush.epsilon →
      s.setBrushEpsilon E x = (true, ⟨{ s.brush with epsilon := x }, s.inputs,
        shapeOf E { s.brush with epsilon := x } s.inputs⟩)) := by
  unfold Stroke.setBrushEpsilon
  have hset := C30_set_epsilon s.brush hs.1 x
  have hfe : Positive x → (feq x s.brush.epsilon = true ↔ x = s.brush.epsilon) :=
    fun h => feq_sizes h hs.1.2.1
  refine ⟨fun h => ?_, fun h => ?_, fun h h' => ?_⟩
  · by_cases he : feq x s.brush.epsilon = true
    · exfalso
      have hfin : x.isFinite = true := by
        unfold feq at he
        simp only [Bool.and_eq_true, decide_eq_true_eq, Bool.not_eq_true'] at he
        rw [isFinite_iff_key, he.2]
        exact ⟨he.1.1, ((isFinite_iff_key _).1 hs.1.2.1.1).2⟩
      have := (feq_iff hfin hs.1.2.1.1).1 he
      have hp : Positive x := ⟨hfin, this ▸ hs.1.2.1.2⟩
      rw [(hfe hp).1 he] at h
      exact h hs.1
    · rw [if_neg he]
      simp only [hset.2 h]
      rfl
  · rw [if_pos (by rw [h]; exact (feq_sizes hs.1.2.1 hs.1.2.1).2 rfl)]
  · rw [if_neg (fun e => h' ((hfe h.2.1).1 e))]
    simp only [hset.1 h, Bool.not_true, Bool.false_eq_true, if_false, regenerate_eq]

/-- C31. `SetBrushColor` changes the colour only. -/
theorem C31_set_color (s : Stroke Shape C) (c : C) :
    s.setBrushColor c = ⟨{ s.brush with color := c }, s.inputs, s.shape⟩ := rfl

/-! ## Histories -/

/-- The invariant: the shape is that of a brush with the size, epsilon and tips of the current one, for
the current inputs, or still `given`. -/
def ShapeIs (P : List Batch.Input → Shape → Brush C → Prop) (s : Stroke Shape C) : Prop :=
  ∃ b' : Brush C, SameShape b' s.brush ∧
    (s.shape = shapeOf E b' s.inputs ∨ P s.inputs s.shape b')

theorem SameShape.refl (b : Brush C) : SameShape b b := ⟨rfl, rfl, rfl⟩
theorem SameShape.trans {a b c : Brush C} (h : SameShape a b) (h' : SameShape b c) : SameShape a c :=
  ⟨h.1.trans h'.1, h.2.1.trans h'.2.1, h.2.2.trans h'.2.2⟩
theorem SameShape.symm {a b : Brush C} (h : SameShape a b) : SameShape b a :=
  ⟨h.1.symm, h.2.1.symm, h.2.2.symm⟩

theorem ShapeIs.fresh (P : List Batch.Input → Shape → Brush C → Prop) (b : Brush C)
    (inputs : List Batch.Input) : ShapeIs E P ⟨b, inputs, shapeOf E b inputs⟩ :=
  ⟨b, SameShape.refl b, Or.inl rfl⟩

theorem sameShape_coatCount {a b : Brush C} (h : SameShape a b) : a.coatCount = b.coatCount := by
  have := congrArg List.length h.2.2
  simpa [tips, Brush.coatCount] using this

theorem step_inv {P : List Batch.Input → Shape → Brush C → Prop} {s : Stroke Shape C}
    (hb : BrushOk s.brush) (h : ShapeIs E P s) {op : StrokeOp C} (ha : ArgsOk op) :
    ∃ r, s.step E op = some r ∧ BrushOk r.2.brush ∧ ShapeIs E P r.2 := by
  cases op with
  | setBrushAndInputs b i =>
    refine ⟨_, rfl, ?_⟩
    simp only [(C31_set_inputs E s b i).1]
    exact ⟨ha, ShapeIs.fresh E P _ _⟩
  | setBrush b =>
    refine ⟨_, rfl, ?_⟩
    simp only [C31_set_brush E s hb b ha]
    refine ⟨ha, ?_⟩
    by_cases hs : SameShape b s.brush
    · obtain ⟨b', h1, h2⟩ := h
      rw [if_pos hs]
      exact ⟨b', SameShape.trans h1 (SameShape.symm hs), h2⟩
    · rw [if_neg hs]; exact ShapeIs.fresh E P _ _
  | setBrushFamily f =>
    refine ⟨_, rfl, ?_⟩
    simp only [C31_set_family E s hb f ha]
    refine ⟨⟨hb.1, ha⟩, ?_⟩
    by_cases hs : tips f.coats = tips s.brush.family.coats
    · obtain ⟨b', h1, h2⟩ := h
      rw [if_pos hs]
      exact ⟨b', ⟨h1.1, h1.2.1, h1.2.2.trans hs.symm⟩, h2⟩
    · rw [if_neg hs]; exact ShapeIs.fresh E P _ _
  | setBrushColor c =>
    obtain ⟨b', h1, h2⟩ := h
    exact ⟨_, rfl, hb, b', h1, h2⟩
  | setBrushSize x =>
    refine ⟨_, rfl, ?_⟩
    obtain ⟨c1, c2, c3⟩ := C31_set_size E s hb x
    by_cases hx : SizeOk x s.brush.epsilon
    · by_cases he : x = s.brush.size
      · rw [c2 he]; exact ⟨hb, h⟩
      · rw [c3 hx he]
        exact ⟨⟨hx, hb.2⟩, ShapeIs.fresh E P _ _⟩
    · rw [c1 hx]; exact ⟨hb, h⟩
  | setBrushEpsilon x =>
    refine ⟨_, rfl, ?_⟩
    obtain ⟨c1, c2, c3⟩ := C31_set_epsilon E s hb x
    by_cases hx : SizeOk s.brush.size x
    · by_cases he : x = s.brush.epsilon
      · rw [c2 he]; exact ⟨hb, h⟩
      · rw [c3 hx he]
        exact ⟨⟨hx, hb.2⟩, ShapeIs.fresh E P _ _⟩
    · rw [c1 hx]; exact ⟨hb, h⟩
  | setInputs a =>
    cases a with
    | given l =>
      refine ⟨_, by simp only [Stroke.step, (C31_set_inputs E s s.brush l).2]; rfl, hb,
        ShapeIs.fresh E P _ _⟩
    | own =>
      have : s.setInputs E .own = some ⟨s.brush, [], shapeOf E s.brush []⟩ := by
        have := (C31_set_inputs E s s.brush []).2
        exact this
      refine ⟨_, by simp only [Stroke.step, this]; rfl, hb, ShapeIs.fresh E P _ _⟩

theorem run_inv {P : List Batch.Input → Shape → Brush C → Prop} :
    ∀ (ops : List (StrokeOp C)) {s : Stroke Shape C}, BrushOk s.brush → ShapeIs E P s →
      (∀ op ∈ ops, ArgsOk op) → ∃ s', s.run E ops = some s' ∧ BrushOk s'.brush ∧ ShapeIs E P s'
  | [], s, hb, h, _ => ⟨s, rfl, hb, h⟩
  | op :: ops, s, hb, h, ha => by
    obtain ⟨r, hr, hb', h'⟩ := step_inv E hb h (ha op (by simp))
    obtain ⟨s', hs', hx⟩ := run_inv ops hb' h' (fun o ho => ha o (by simp [ho]))
    exact ⟨s', by simp only [Stroke.run, hr]; exact hs', hx⟩

/-- C31. However a stroke is made and changed, with valid brushes: no check fails, the brush stays valid,
there is one render group for each coat, and the shape is the one for the current inputs and for a brush
that has the size, the epsilon and the tips of the current one. (For a stroke made with a shape, that
shape stands for one, until it is regenerated.) -/
theorem C31_shape_partial (hE : EnvOk E) (b : Brush C) (hb : BrushOk b) (inputs : List Batch.Input)
    (given : Shape) (hg : E.groups given = b.coatCount)
    (ops : List (StrokeOp C)) (ha : ∀ op ∈ ops, ArgsOk op) :
    (∃ s, (ofInputs E b inputs).run E ops = some s ∧ BrushOk s.brush ∧
      E.groups s.shape = s.brush.coatCount ∧
      ∃ b', SameShape b' s.brush ∧ s.shape = shapeOf E b' s.inputs) ∧
    (∃ s, (ofBrush E b).run E ops = some s ∧ BrushOk s.brush ∧
      E.groups s.shape = s.brush.coatCount ∧
      ∃ b', SameShape b' s.brush ∧ s.shape = shapeOf E b' s.inputs) ∧
    (∃ s₀ s, ofShape E b inputs given = some s₀ ∧ s₀.run E ops = some s ∧ BrushOk s.brush ∧
      E.groups s.shape = s.brush.coatCount ∧
      ((∃ b', SameShape b' s.brush ∧ s.shape = shapeOf E b' s.inputs) ∨
        (SameShape b s.brush ∧ s.inputs = inputs ∧ s.shape = given))) := by
  have hc := C31_construct E b inputs given
  have plain : ∀ s₀ : Stroke Shape C, BrushOk s₀.brush → s₀.shape = shapeOf E s₀.brush s₀.inputs →
      ∃ s, s₀.run E ops = some s ∧ BrushOk s.brush ∧ E.groups s.shape = s.brush.coatCount ∧
        ∃ b', SameShape b' s.brush ∧ s.shape = shapeOf E b' s.inputs := by
    intro s₀ h1 h2
    obtain ⟨s, hs, hbs, b', h3, h4⟩ := run_inv E (P := fun _ _ _ => False) ops h1
      ⟨s₀.brush, SameShape.refl _, Or.inl h2⟩ ha
    have h5 : s.shape = shapeOf E b' s.inputs := by
      rcases h4 with h | h
      · exact h
      · exact h.elim
    exact ⟨s, hs, hbs, by rw [h5, groups_shapeOf E hE, sameShape_coatCount h3], b', h3, h5⟩
  refine ⟨plain _ (by rw [hc.2.1]; exact hb) (by rw [hc.2.1]), plain _ (by rw [hc.1]; exact hb)
    (by rw [hc.1]), ?_⟩
  obtain ⟨s, hs, hbs, b', h3, h4⟩ := run_inv E
    (P := fun i sh b' => b' = b ∧ i = inputs ∧ sh = given) ops
    (s := ⟨b, inputs, given⟩) hb ⟨b, SameShape.refl _, Or.inr ⟨rfl, rfl, rfl⟩⟩ ha
  refine ⟨_, s, hc.2.2.1 hg, hs, hbs, ?_⟩
  rcases h4 with h4 | ⟨rfl, h5, h6⟩
  · exact ⟨by rw [h4, groups_shapeOf E hE, sameShape_coatCount h3], Or.inl ⟨b', h3, h4⟩⟩
  · exact ⟨by rw [h6, hg, sameShape_coatCount h3], Or.inr ⟨h3, h5, h6⟩⟩

/-- C31. The stale shape: a new family with the same tips leaves the shape as it is. So wherever the
input model, or the paint, makes a difference for the generated meshes, the shape afterwards is not the
one for the new brush. -/
theorem C31_stale_shape (b : Brush C) (hb : BrushOk b) (inputs : List Batch.Input) (f : Family)
    (hf : CoatsOk f.coats) (ht : tips f.coats = tips b.family.coats)
    (hd : shapeOf E (b.setFamily f) inputs ≠ shapeOf E b inputs) :
    ∃ s, s = (ofInputs E b inputs).setBrushFamily E f ∧ s.brush = b.setFamily f ∧ s.inputs = inputs ∧
      s.shape ≠ shapeOf E s.brush s.inputs ∧
      (ofInputs E s.brush s.inputs).shape = shapeOf E s.brush s.inputs := by
  have h1 := (C31_construct E b inputs (E.empty 0)).2.1
  refine ⟨_, rfl, ?_⟩
  rw [h1, C31_set_family E _ hb f hf, if_pos ht]
  exact ⟨rfl, rfl, fun h => hd h.symm, congrArg Stroke.shape (C31_construct E _ inputs (E.empty 0)).2.1⟩

/-! ## Concrete cases -/

/-- An environment where a mesh is a record of what it was generated from. -/
def logEnv : Env (List (InputModel × F32 × F32 × List Batch.Input)) (InputModel × F32 × F32 × List Batch.Input) where
  gen := fun m _ size epsilon inputs => (m, size, epsilon, inputs)
  build := some
  empty := fun n => List.replicate n (.springV1, zero, zero, [])
  groups := List.length

example : EnvOk logEnv := ⟨fun n => by simp [logEnv], fun ms s h => by simp [logEnv] at h ⊢; rw [h]⟩

theorem default_ok : BrushOk (defaultBrush ()) := by
  refine ⟨C30_default (), fun c hc t ht => ?_⟩
  obtain rfl := List.mem_singleton.1 hc
  obtain rfl := List.mem_singleton.1 ht
  exact (tip_iff _).1 (by decide +kernel)

/-- An input at the origin. -/
def anInput : Batch.Input := {}

/-- C31. The shape of a stroke does not follow a change of the input model. -/
theorem C31_shape_counterexample :
    let s := (ofInputs logEnv (defaultBrush ()) [anInput]).setBrushFamily logEnv
      { defaultFamily with inputModel := .springV2 }
    s.shape ≠ shapeOf logEnv s.brush s.inputs := by
  obtain ⟨s, rfl, -, -, h, -⟩ := C31_stale_shape logEnv (defaultBrush ()) default_ok [anInput]
    { defaultFamily with inputModel := .springV2 } default_ok.2 rfl (by decide +kernel)
  exact h

/-- C31. `stroke.SetInputs(stroke.GetInputs())` empties the stroke. -/
theorem C31_alias_counterexample :
    ((ofInputs logEnv (defaultBrush ()) [anInput]).setInputs logEnv .own).map
      (fun s => (s.inputs, s.shape)) =
    some ([], logEnv.empty 1) := by
  decide +kernel

/-- A history whose calls are valid, with a resize that fails. -/
example : ((ofInputs logEnv (defaultBrush ()) [anInput]).run logEnv
    [.setBrushSize (ofInt 2), .setBrushSize .nan, .setBrushEpsilon (ofInt 1), .setInputs (.given []),
     .setInputs (.given [anInput])]).map (fun s => s.shape) =
    some [(.springV1, ofInt 2, ofInt 1, [anInput])] := by decide +kernel

end Verif.Strokes
