import Verif.Spec.Brush
import Verif.Props.BrushBehavior
import Verif.Props.TipState

/-! # C30 and C44: brushes and brush families are valid -/

set_option autoImplicit false

namespace Verif.Brushes

open F32 Tip BrushSpec

/-! ## Comparisons -/

theorem within_iff {lo hi x : F32} (hl : lo.isFinite = true) (hh : hi.isFinite = true) :
    (le lo x = true ∧ le x hi = true) ↔ Within (toRat lo) (toRat hi) x := by
  constructor
  · rintro ⟨h1, h2⟩
    have hx := isFinite_of_between hl hh h1 h2
    exact ⟨hx, (le_iff hl hx).1 h1, (le_iff hx hh).1 h2⟩
  · rintro ⟨hx, h1, h2⟩
    exact ⟨(le_iff hl hx).2 h1, (le_iff hx hh).2 h2⟩

theorem fin_zero : (zero : F32).isFinite = true := rfl
theorem fin_one : (ofInt 1).isFinite = true := by decide +kernel
theorem rat_one : toRat (ofInt 1) = 1 := by decide +kernel
theorem rat_zero : toRat (zero : F32) = 0 := by decide +kernel

theorem unit_iff {x : F32} : (ge x zero = true ∧ le x (ofInt 1) = true) ↔ Within 0 1 x := by
  have := within_iff (x := x) fin_zero fin_one
  rw [rat_zero, rat_one] at this
  exact this

theorem positive_iff {x : F32} : (x.isFinite = true ∧ le x zero = false) ↔ Positive x := by
  constructor
  · rintro ⟨h, h'⟩
    refine ⟨h, lt_of_not_ge fun h2 => ?_⟩
    rw [(le_iff h fin_zero).2 (by rw [rat_zero]; exact h2)] at h'
    cases h'
  · rintro ⟨h, h'⟩
    refine ⟨h, ?_⟩
    rw [← Bool.not_eq_true]
    intro h2
    have := (le_iff h fin_zero).1 h2
    rw [rat_zero] at this
    linarith

theorem nonNeg_iff {x : F32} : (x.isFinite = true ∧ lt x zero = false) ↔ NonNeg x := by
  constructor
  · rintro ⟨h, h'⟩
    refine ⟨h, le_of_not_gt fun h2 => ?_⟩
    rw [(lt_iff h fin_zero).2 (by rw [rat_zero]; exact h2)] at h'
    cases h'
  · rintro ⟨h, h'⟩
    refine ⟨h, ?_⟩
    rw [← Bool.not_eq_true]
    intro h2
    have := (lt_iff h fin_zero).1 h2
    rw [rat_zero] at this
    linarith

/-! ## C30: brushes -/

variable {C : Type}

theorem validSize_iff {x : F32} : validSize x = true ↔ Positive x := by
  rw [← positive_iff]; simp [validSize]

theorem validEpsilon_iff {x : F32} : validEpsilon x = true ↔ Positive x := by
  rw [← positive_iff]; simp [validEpsilon]

theorem validRelative_iff {s e : F32} (hs : Positive s) (he : Positive e) :
    validRelative s e = true ↔ toRat e ≤ toRat s := by
  have := lt_iff hs.1 he.1
  unfold validRelative
  cases h : lt s e
  · simp only [Bool.not_false, true_iff]; rw [h] at this; exact le_of_not_gt (by simpa using this)
  · simp only [Bool.not_true, Bool.false_eq_true, false_iff, not_le]; exact this.1 h

/-- C30. `Create` fails exactly when the documented rule is broken, and otherwise gives what it was
given. -/
theorem C30_create (f : Family) (c : C) (size epsilon : F32) :
    (SizeOk size epsilon → Brush.create f c size epsilon = some ⟨f, c, size, epsilon⟩) ∧
    (¬ SizeOk size epsilon → Brush.create f c size epsilon = none) := by
  unfold Brush.create SizeOk
  by_cases h1 : validSize size = true
  · by_cases h2 : validEpsilon epsilon = true
    · have p1 := validSize_iff.1 h1
      have p2 := validEpsilon_iff.1 h2
      by_cases h3 : validRelative size epsilon = true
      · have := (validRelative_iff p1 p2).1 h3
        simp [h1, h2, h3, p1, p2, this]
      · have := (not_congr (validRelative_iff p1 p2)).1 h3
        simp [h1, h2, h3, p1, p2, this]
    · have := (not_congr validEpsilon_iff).1 h2
      simp [h1, h2, this]
  · have := (not_congr validSize_iff).1 h1
    simp [h1, this]

/-- C30. `SetSize` succeeds exactly when the brush would be valid with the new size. Then only the size
changes, and otherwise nothing does. -/
theorem C30_set_size (b : Brush C) (hb : SizeOk b.size b.epsilon) (x : F32) :
    (SizeOk x b.epsilon → b.setSize x = (true, ⟨b.family, b.color, x, b.epsilon⟩)) ∧
    (¬ SizeOk x b.epsilon → b.setSize x = (false, b)) := by
  unfold Brush.setSize SizeOk
  have p2 := hb.2.1
  by_cases h1 : validSize x = true
  · have p1 := validSize_iff.1 h1
    by_cases h3 : validRelative x b.epsilon = true
    · have := (validRelative_iff p1 p2).1 h3
      simp [h1, h3, p1, p2, this]
    · have := (not_congr (validRelative_iff p1 p2)).1 h3
      simp [h1, h3, p1, p2, this]
  · have := (not_congr validSize_iff).1 h1
    simp [h1, this]

/-- C30. `SetEpsilon` succeeds exactly when the brush would be valid with the new epsilon. Then only
epsilon changes, and otherwise nothing does. -/
theorem C30_set_epsilon (b : Brush C) (hb : SizeOk b.size b.epsilon) (x : F32) :
    (SizeOk b.size x → b.setEpsilon x = (true, ⟨b.family, b.color, b.size, x⟩)) ∧
    (¬ SizeOk b.size x → b.setEpsilon x = (false, b)) := by
  unfold Brush.setEpsilon SizeOk
  have p1 := hb.1
  by_cases h1 : validEpsilon x = true
  · have p2 := validEpsilon_iff.1 h1
    by_cases h3 : validRelative b.size x = true
    · have := (validRelative_iff p1 p2).1 h3
      simp [h1, h3, p1, p2, this]
    · have := (not_congr (validRelative_iff p1 p2)).1 h3
      simp [h1, h3, p1, p2, this]
  · have := (not_congr validEpsilon_iff).1 h1
    simp [h1, this]

/-- The default brush is valid. -/
theorem C30_default (red : C) :
    SizeOk (defaultBrush red).size (defaultBrush red).epsilon := by
  have : ((ofInt 1).isFinite = true ∧ 0 < toRat (ofInt 1)) ∧
      ((ofRat (1 / 10)).isFinite = true ∧ 0 < toRat (ofRat (1 / 10))) ∧
      toRat (ofRat (1 / 10)) ≤ toRat (ofInt 1) := by decide +kernel
  exact this

theorem step_ok {b : Brush C} (hb : SizeOk b.size b.epsilon) (op : BrushOp C) :
    SizeOk (b.step op).2.size (b.step op).2.epsilon := by
  cases op with
  | setSize x =>
    by_cases h : SizeOk x b.epsilon
    · simp only [Brush.step, (C30_set_size b hb x).1 h]; exact h
    · simp only [Brush.step, (C30_set_size b hb x).2 h]; exact hb
  | setEpsilon x =>
    by_cases h : SizeOk b.size x
    · simp only [Brush.step, (C30_set_epsilon b hb x).1 h]; exact h
    · simp only [Brush.step, (C30_set_epsilon b hb x).2 h]; exact hb
  | setFamily f => exact hb
  | setColor c => exact hb

theorem run_ok {b : Brush C} (hb : SizeOk b.size b.epsilon) (ops : List (BrushOp C)) :
    SizeOk (b.run ops).size (b.run ops).epsilon := by
  unfold Brush.run
  induction ops generalizing b with
  | nil => exact hb
  | cons op ops ih => exact ih (step_ok hb op)

/-- C30. After every history of calls, a brush made by the default constructor or by `Create` has a
finite positive size, a finite positive epsilon, and a size that is at least epsilon. -/
theorem C30_valid (ops : List (BrushOp C)) :
    (∀ red : C, SizeOk ((defaultBrush red).run ops).size ((defaultBrush red).run ops).epsilon) ∧
    ∀ (f : Family) (c : C) (size epsilon : F32) (b : Brush C), Brush.create f c size epsilon = some b →
      SizeOk (b.run ops).size (b.run ops).epsilon := by
  refine ⟨fun red => run_ok (C30_default red) ops, fun f c size epsilon b h => run_ok ?_ ops⟩
  by_cases hok : SizeOk size epsilon
  · rw [(C30_create f c size epsilon).1 hok] at h
    cases h; exact hok
  · rw [(C30_create f c size epsilon).2 hok] at h
    cases h

/-- C30. What `SetFamily` and `SetColor` do. -/
theorem C30_set_others (b : Brush C) (f : Family) (c : C) :
    b.setFamily f = ⟨f, b.color, b.size, b.epsilon⟩ ∧ b.setColor c = ⟨b.family, c, b.size, b.epsilon⟩ :=
  ⟨rfl, rfl⟩

/-! ## C44: brush families -/

theorem behavior_iff (b : Behavior) : b.valid = true ↔ BehaviorOk b := C32_validation b

theorem fin_quarter : quarterTurn.isFinite = true := by decide +kernel
theorem fin_neg_quarter : (neg quarterTurn).isFinite = true := by decide +kernel
theorem rat_neg_quarter : toRat (neg quarterTurn) = -toRat quarterTurn := by decide +kernel
theorem fin_tone : (Tip.one).isFinite = true := by decide +kernel
theorem rat_tone : toRat Tip.one = 1 := by decide +kernel
theorem fin_ttwo : (Tip.two).isFinite = true := by decide +kernel
theorem rat_ttwo : toRat Tip.two = 2 := by decide +kernel

theorem tip_iff (t : BrushTip) : t.valid = true ↔ TipOk t := by
  have c1 := within_iff (x := t.cornerRounding) fin_zero fin_tone
  have c2 := within_iff (x := t.slant) fin_neg_quarter fin_quarter
  have c3 := within_iff (x := t.pinch) fin_zero fin_tone
  have c4 := within_iff (x := t.opacityMultiplier) fin_zero fin_ttwo
  rw [rat_zero, rat_tone] at c1 c3
  rw [rat_neg_quarter] at c2
  rw [rat_zero, rat_ttwo] at c4
  unfold BrushTip.valid TipOk
  simp only [Bool.and_eq_true, Bool.not_eq_true', Bool.or_eq_false_iff, Bool.not_eq_false',
    Bool.and_eq_false_iff, ge, Duration32.isFinite, Duration32.lt, Duration32.zero, List.all_eq_true,
    behavior_iff, c1, c2, c3, c4, nonNeg_iff]
  have hz : ∀ {x : F32}, NonNeg x → (feq x zero = false ↔ 0 < toRat x) := by
    intro x hx
    rw [← Bool.not_eq_true, feq_iff hx.1 fin_zero, rat_zero]
    exact ⟨fun h => lt_of_le_of_ne hx.2 (Ne.symm h), fun h => ne_of_gt h⟩
  constructor
  · rintro ⟨⟨⟨⟨⟨⟨⟨⟨h1, h2⟩, h3⟩, h4⟩, h5⟩, h6⟩, h7⟩, h8⟩, h9⟩
    obtain ⟨⟨⟨⟨fx, fy⟩, lx⟩, ly⟩, hz'⟩ := h1
    have nx := nonNeg_iff.1 ⟨fx, lx⟩
    have ny := nonNeg_iff.1 ⟨fy, ly⟩
    rw [hz nx, hz ny] at hz'
    exact ⟨nx, ny, hz', h2, h3.2, h4, h5, h6, h7, h8, h9⟩
  · rintro ⟨nx, ny, hz', h2, h3, h4, h5, h6, h7, h8, h9⟩
    rw [← hz nx, ← hz ny] at hz'
    have ex := nonNeg_iff.2 nx
    have ey := nonNeg_iff.2 ny
    exact ⟨⟨⟨⟨⟨⟨⟨⟨⟨⟨⟨⟨ex.1, ey.1⟩, ex.2⟩, ey.2⟩, hz'⟩, h2⟩, ⟨h3.1, h3⟩⟩, h4⟩, h5⟩, h6⟩, h7⟩, h8⟩, h9⟩

theorem any_false_iff {α : Type} {o : Option α} {p : α → Bool} :
    o.any p = false ↔ ∀ a, o = some a → p a = false := by
  cases o <;> simp

/-- A chain of checks. -/
theorem chain {c rest : Bool} : (if c = true then false else rest) = true ↔ c = false ∧ rest = true := by
  cases c <;> simp

theorem chainP {c : Prop} [Decidable c] {rest : Bool} :
    (if c then false else rest) = true ↔ ¬ c ∧ rest = true := by
  by_cases h : c <;> simp [h]

theorem keyframe_iff (k : Keyframe) : k.valid = true ↔ KeyframeOk k := by
  unfold Keyframe.valid KeyframeOk
  simp only [chain, any_false_iff, Bool.not_eq_false', Bool.and_eq_true, Bool.or_eq_false_iff, unit_iff,
    and_true]
  constructor
  · rintro ⟨h1, h2, h3, h4, h5⟩
    refine ⟨h1, fun s e => ?_, fun o e => ?_, h4, h5⟩
    · obtain ⟨⟨⟨a, b⟩, c⟩, d⟩ := h2 s e
      exact ⟨positive_iff.1 ⟨a, c⟩, positive_iff.1 ⟨b, d⟩⟩
    · obtain ⟨⟨a, c⟩, d⟩ := h3 o e
      exact ⟨a, unit_iff.1 ⟨c, d⟩⟩
  · rintro ⟨h1, h2, h3, h4, h5⟩
    refine ⟨h1, fun s e => ?_, fun o e => ?_, h4, h5⟩
    · obtain ⟨a, b⟩ := h2 s e
      have := positive_iff.2 a
      have := positive_iff.2 b
      tauto
    · obtain ⟨a, b⟩ := h3 o e
      have := unit_iff.2 a
      have := unit_iff.2 b
      tauto

theorem mapping_iff (x : ℤ) : validMapping x = true ↔ Named 2 x := by
  unfold validMapping Named; simp; omega
theorem origin_iff (x : ℤ) : validOrigin x = true ↔ Named 3 x := by
  unfold validOrigin Named; simp; omega
theorem sizeUnit_iff (x : ℤ) : validSizeUnit x = true ↔ Named 3 x := by
  unfold validSizeUnit Named; simp; omega
theorem wrap_iff (x : ℤ) : validWrap x = true ↔ Named 3 x := by
  unfold validWrap Named; simp; omega
theorem blendMode_iff (x : ℤ) : validBlendMode x = true ↔ Named 12 x := by
  unfold validBlendMode Named; simp; omega

theorem jitter_iff {j s : F32} (hs : Positive s) :
    (ge j zero = true ∧ le j s = true) ↔ Within 0 (toRat s) j := by
  have := within_iff (x := j) fin_zero hs.1
  rw [rat_zero] at this
  exact this

theorem layer_iff (l : Layer) : l.valid = true ↔ LayerOk checkedOffset l := by
  unfold Layer.valid LayerOk checkedOffset
  simp only [chainP, Bool.not_eq_false', Bool.and_eq_true, Bool.or_eq_false_iff, unit_iff,
    and_true, mapping_iff, origin_iff, sizeUnit_iff, wrap_iff, blendMode_iff, List.any_eq_false,
    Bool.not_eq_true, keyframe_iff, not_not, ne_eq]
  constructor
  · rintro ⟨h1, h2, h3, h4, h5, h6, h7, h8, h9, h10, h11, h12, h13, h14, h15⟩
    obtain ⟨⟨⟨a, b⟩, c⟩, d⟩ := h7
    have s1 := positive_iff.1 ⟨b, a⟩
    have s2 := positive_iff.1 ⟨d, c⟩
    obtain ⟨⟨⟨a1, b1⟩, c1⟩, d1⟩ := h10
    obtain ⟨⟨a2, b2⟩, c2⟩ := h11
    exact ⟨h1, h2, h3, h4, h5, h6, h15, s1, s2, h8.1, h8.2, h9, (jitter_iff s1).1 ⟨a1, b1⟩,
      (jitter_iff s2).1 ⟨c1, d1⟩, a2, unit_iff.1 ⟨b2, c2⟩, h12, h13, h14⟩
  · rintro ⟨h1, h2, h3, h4, h5, h6, h15, s1, s2, o1, o2, h9, j1, j2, u1, u2, h12, h13, h14⟩
    have a1 := positive_iff.2 s1
    have a2 := positive_iff.2 s2
    have b1 := (jitter_iff s1).2 j1
    have b2 := (jitter_iff s2).2 j2
    have c2 := unit_iff.2 u2
    exact ⟨h1, h2, h3, h4, h5, h6, ⟨⟨⟨a1.2, a1.1⟩, a2.2⟩, a2.1⟩, ⟨o1, o2⟩, h9,
      ⟨⟨⟨b1.1, b1.2⟩, b2.1⟩, b2.2⟩, ⟨⟨u1, c2.1⟩, c2.2⟩, h12, h13, h14, h15⟩

theorem paint_iff (p : Paint) : p.valid = true ↔ PaintOk checkedOffset p := by
  obtain ⟨layers⟩ := p
  unfold Paint.valid PaintOk
  simp only [chain, List.any_eq_false, Bool.not_eq_true', Bool.not_eq_false, layer_iff]
  refine and_congr_right fun _ => ?_
  cases layers with
  | nil => simp
  | cons f rest =>
    simp only [Bool.not_eq_true', List.any_eq_false, decide_eq_true_eq, not_not, ne_eq]
    constructor
    · intro h l hl l' hl'; rw [h l hl, h l' hl']
    · intro h l hl; exact h l hl f (by simp)

theorem coat_iff (c : Coat) : c.valid = true ↔ CoatOk checkedOffset c := by
  obtain ⟨tips, paint⟩ := c
  unfold Coat.valid CoatOk
  simp only [chainP, List.any_eq_false, Bool.not_eq_true, Bool.not_eq_false', tip_iff, paint_iff,
    and_true]
  match tips with
  | [] => simp
  | [t] => simp
  | _ :: _ :: _ => simp

/-- C44. `BrushFamily::Create` succeeds exactly when the documented rules hold, except that the offset
of a texture layer only has to be finite. Then the family has what it was given. -/
theorem C44_create_partial (coats : List Coat) (uri : Option Uri.Uri) (m : InputModel) :
    (FamilyOk checkedOffset coats uri → Family.create coats uri m = some ⟨coats, uri, m⟩) ∧
    (¬ FamilyOk checkedOffset coats uri → Family.create coats uri m = none) := by
  have hc : (coats.any fun c => !c.valid) = false ↔ ∀ c ∈ coats, CoatOk checkedOffset c := by
    simp [List.any_eq_false, coat_iff]
  have hu : (uri.any fun u => !validBrushUri u) = false ↔
      ∀ u, uri = some u → u.assetType = .brushFamily := by
    simp [any_false_iff, validBrushUri]
  unfold Family.create FamilyOk maxBrushCoats
  rw [← hc, ← hu]
  by_cases h1 : coats.length > 10
  · rw [if_pos h1]; exact ⟨fun h => by omega, fun _ => rfl⟩
  · rw [if_neg h1]
    cases coats.any fun c => !c.valid
    · cases uri.any fun u => !validBrushUri u
      · simp; omega
      · simp
    · simp

/-- C44. Whatever the documented rules allow is accepted. -/
theorem C44_documented_accepted (coats : List Coat) (uri : Option Uri.Uri) (m : InputModel)
    (h : FamilyOk documentedOffset coats uri) :
    Family.create coats uri m = some ⟨coats, uri, m⟩ := by
  refine (C44_create_partial coats uri m).1 ⟨h.1, fun c hc => ?_, h.2.2⟩
  obtain ⟨ht, hl, hm⟩ := h.2.1 c hc
  refine ⟨ht, fun l hl' => ?_, hm⟩
  obtain ⟨a1, a2, a3, a4, a5, a6, a7, a8, a9, a10, a11, a12⟩ := hl l hl'
  exact ⟨a1, a2, a3, a4, a5, a6, a7, a8, a9, a10.1, a11.1, a12⟩

/-- C44. `Create` from a URI string: an empty one is no URI, and one that does not parse is an error. -/
theorem C44_create_string (coats : List Coat) (uri : List Char) (m : InputModel) :
    Family.createFromString coats [] m = Family.create coats none m ∧
    (uri ≠ [] → Uri.parse uri = none → Family.createFromString coats uri m = none) ∧
    (∀ u, uri ≠ [] → Uri.parse uri = some u →
      Family.createFromString coats uri m = Family.create coats (some u) m) := by
  refine ⟨rfl, fun h1 h2 => ?_, fun u h1 h2 => ?_⟩ <;>
    · unfold Family.createFromString
      rw [if_neg (by simpa using h1), h2]

/-- C44. A family with one tip and one paint has one coat. -/
theorem C44_create_single (tip : BrushTip) (paint : Paint) (uri : Option Uri.Uri) (m : InputModel)
    (f : Family) (h : Family.createSingle tip paint uri m = some f) :
    f = ⟨[⟨[tip], paint⟩], uri, m⟩ ∧ TipOk tip ∧ PaintOk checkedOffset paint := by
  unfold Family.createSingle at h
  by_cases hok : FamilyOk checkedOffset [⟨[tip], paint⟩] uri
  · rw [(C44_create_partial _ _ _).1 hok] at h
    cases h
    obtain ⟨⟨t, ht, ht'⟩, hp⟩ := hok.2.1 _ (List.mem_singleton.2 rfl)
    simp only [List.cons.injEq, and_true] at ht
    subst ht
    exact ⟨rfl, ht', hp⟩
  · rw [(C44_create_partial _ _ _).2 hok] at h
    cases h

/-- A texture layer with the offset (2, 0). -/
def offsetLayer : Layer := { uri := { assetType := .texture }, offset := (ofInt 2, zero) }

/-- C44. The documentation allows no offset outside [0, 1], but the code does. -/
theorem C44_offset_counterexample :
    (Family.createSingle defaultTip ⟨[offsetLayer]⟩ none .springV1).isSome = true ∧
    ¬ FamilyOk documentedOffset [⟨[defaultTip], ⟨[offsetLayer]⟩⟩] none := by
  refine ⟨by decide +kernel, ?_⟩
  rintro ⟨-, h, -⟩
  obtain ⟨-, hl, -⟩ := h _ (List.mem_singleton.2 rfl)
  obtain ⟨-, -, -, -, -, -, -, -, -, h10, -⟩ := hl offsetLayer (List.mem_singleton.2 rfl)
  have h2 := h10.2.2
  rw [show toRat offsetLayer.offset.1 = 2 by decide +kernel] at h2
  norm_num at h2

/-- C44. The default family follows the documented rules. -/
theorem C44_default : FamilyOk documentedOffset defaultFamily.coats defaultFamily.uri := by
  refine ⟨by decide, fun c hc => ?_, fun u h => by cases h⟩
  obtain rfl := List.mem_singleton.1 hc
  exact ⟨⟨defaultTip, rfl, (tip_iff _).1 (by decide +kernel)⟩,
    ⟨(fun l hl => by cases hl), (fun l hl => by cases hl)⟩⟩

/-- C44. The attributes that the meshes of a coat need: no attribute twice, always a position, a colour
shift exactly when some behavior changes the hue, saturation or luminosity, and texture coordinates
exactly when some texture is wound along the stroke. -/
theorem C44_required_attributes (c : Coat) :
    c.requiredIds.Nodup ∧
    (∀ i, i ∈ c.requiredIds ↔
      i = Mesh.kPosition ∨ i = kSideDerivative ∨ i = kSideLabel ∨ i = kForwardDerivative ∨
      i = kForwardLabel ∨ i = kOpacityShift ∨
      (i = kColorShiftHsl ∧ ∃ t ∈ c.tips, ∃ b ∈ t.behaviors, ∃ n ∈ b, ∃ lo hi,
        n = .target .hueOffset lo hi ∨ n = .target .saturationMultiplier lo hi ∨
        n = .target .luminosity lo hi) ∨
      (i = kSurfaceUv ∧ ∃ l ∈ c.paint.layers, l.mapping = 1)) := by
  have hcol : (c.tips.any usesColorShift = true) ↔ ∃ t ∈ c.tips, ∃ b ∈ t.behaviors, ∃ n ∈ b, ∃ lo hi,
        n = .target .hueOffset lo hi ∨ n = .target .saturationMultiplier lo hi ∨
        n = .target .luminosity lo hi := by
    simp only [List.any_eq_true, usesColorShift]
    refine exists_congr fun t => and_congr_right fun _ => exists_congr fun b => and_congr_right fun _ =>
      exists_congr fun n => and_congr_right fun _ => ?_
    cases n with
    | target t lo hi => cases t <;> simp
    | _ => simp
  have huv : (c.paint.layers.any fun l => l.mapping = kWinding) = true ↔
      ∃ l ∈ c.paint.layers, l.mapping = 1 := by
    simp only [List.any_eq_true, kWinding]
    exact exists_congr fun l => and_congr_right fun _ => decide_eq_true_iff
  unfold Coat.requiredIds
  rw [← hcol, ← huv]
  cases c.tips.any usesColorShift <;> cases (c.paint.layers.any fun l => l.mapping = kWinding)
  all_goals
    refine ⟨by decide, fun i => ?_⟩
    simp

/-! ## Concrete cases -/

/-- A brush that is made, resized, and given sizes it refuses. -/
example : (((Brush.create defaultFamily () (ofInt 8) (ofInt 2)).map fun b =>
    ((b.run [.setSize (ofInt 3), .setSize .nan, .setEpsilon (ofInt 3), .setSize (ofInt 2),
      .setEpsilon (.inf false), .setEpsilon zero]).size,
     (b.run [.setSize (ofInt 3), .setSize .nan, .setEpsilon (ofInt 3), .setSize (ofInt 2),
      .setEpsilon (.inf false), .setEpsilon zero]).epsilon)) = some (ofInt 3, ofInt 3)) := by
  decide +kernel

example : ¬ SizeOk (ofInt 1) (ofInt 2) := by
  rintro ⟨-, -, h⟩
  rw [show toRat (ofInt 2) = 2 by decide +kernel, rat_one] at h
  norm_num at h

/-- A family with eleven coats is refused, one with ten is not. -/
example : (Family.create (List.replicate 11 ⟨[defaultTip], {}⟩) none .springV2).isNone ∧
    (Family.create (List.replicate 10 ⟨[defaultTip], {}⟩) none .springV2).isSome := by
  decide +kernel

/-- A coat with a texture wound along the stroke. -/
example : (⟨[defaultTip], ⟨[{ uri := { assetType := .texture }, mapping := 1 }]⟩⟩ : Coat).requiredIds =
    [0, 4, 5, 6, 7, 2, 8] := by decide +kernel

end Verif.Brushes
