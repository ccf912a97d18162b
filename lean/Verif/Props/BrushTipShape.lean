import Verif.Lemmas.BrushTipShape

/-!
# C65: the shape of a brush tip
-/

set_option autoImplicit false

namespace Verif.RealGeom

open Spec Real

/-- A shape is made exactly of valid values. It is centered at the position of the tip and has one to four circles of the same size:
the fraction of the smaller half dimension, or nothing if that is less than the least radius. -/
theorem C65_make (s : TipState) (m : ℝ) : (TipShape.make s m = none ↔ ¬ValidTip s) ∧ ∀ t, TipShape.make s m = some t →
    t.center = s.position ∧ 1 ≤ t.circles.length ∧ t.circles.length ≤ 4 ∧ ∃ r, (∀ c ∈ t.circles, c.radius = r) ∧ 0 ≤ r ∧
      (r = s.percentRadius * (min s.width s.height / 2) ∧ m ≤ r ∨
        r = 0 ∧ s.percentRadius * (min s.width s.height / 2) < max m (1 / 2 ^ 126)) := by
  constructor
  · constructor
    · intro h hv
      obtain ⟨t, r, x, y, ht, -⟩ := make_cases hv m
      rw [h] at ht; cases ht
    · intro hn
      cases ht : TipShape.make s m with
      | none => rfl
      | some t => exact absurd (make_radius ht).1 hn
  · intro t ht
    obtain ⟨hv, h1, h2, h3, r, r0, r1, r2, r3⟩ := make_radius ht
    refine ⟨h1, List.length_pos_iff.2 h2, h3, r, r3, r0, ?_⟩
    have e : min (1 / 2 * s.width) (1 / 2 * s.height) = min s.width s.height / 2 := by
      rw [← mul_min_of_nonneg _ _ (by norm_num : (0 : ℝ) ≤ 1 / 2)]; ring
    unfold TipShape.calculateCircleRadius at r2
    dsimp only at r2
    rw [e] at r2
    by_cases hlt : s.percentRadius * (min s.width s.height / 2) < max m TipShape.floatMin
    · rw [if_pos hlt] at r2
      exact Or.inr ⟨r2, hlt⟩
    · rw [if_neg hlt] at r2
      left
      refine ⟨r2, ?_⟩
      rw [r2]
      exact (le_max_left _ _).trans (not_lt.1 hlt)

/-- The next circle counter-clockwise is the next one in the list, after the last the first; clockwise is the way back. -/
theorem C65_next (t : TipShape) (i : ℕ) (hi : i < t.circles.length) :
    t.nextCcw i = (i + 1) % t.circles.length ∧ t.nextCw (t.nextCcw i) = i ∧ t.nextCcw (t.nextCw i) = i := by
  unfold TipShape.nextCcw TipShape.nextCw
  have h1 : (if i + 1 ≥ t.circles.length then 0 else i + 1) = (i + 1) % t.circles.length := by
    split_ifs with h
    · rw [show i + 1 = t.circles.length by omega, Nat.mod_self]
    · rw [Nat.mod_eq_of_lt (by omega)]
  generalize t.circles.length = n at *
  refine ⟨h1, ?_, ?_⟩
  · by_cases h : i + 1 ≥ n
    · rw [if_pos h, if_pos rfl]; omega
    · rw [if_neg h, if_neg (by omega)]; omega
  · by_cases h : i = 0
    · rw [if_pos h, if_pos (by omega)]; exact h.symm
    · rw [if_neg h, if_neg (by omega)]; omega

/-- The circles are in counter-clockwise order around the center and each is on the left of all the edges that it is not an end of. -/
theorem C65_counterclockwise {s : TipState} {m : ℝ} {t : TipShape} (hs : Slanted s) (ht : TipShape.make s m = some t) :
    Counterclockwise t.center t.circles := by
  have hv := (make_radius ht).1
  obtain ⟨t', r, x, y, h1, hcen, -, h2, -, x1, y1, -, -, -, -, hc⟩ := make_cases hv m
  rw [ht] at h1
  obtain rfl := Option.some.inj h1
  have hcos := cos_slant hs
  have hM := sep_pos m
  have left_iff : ∀ a b c : ℂ, LeftOf a b c ↔ 0 < Vec.determinant (b - a) (c - a) := by
    intro a b c; unfold LeftOf Vec.determinant; simp only [Complex.sub_re, Complex.sub_im]
  have around : ∀ x y x' y' : ℝ, 0 < x * y' - y * x' →
      LeftOf t.center (TipShape.makeCircle s r x y).center (TipShape.makeCircle s r x' y').center := by
    intro x y x' y' h
    rw [left_iff, hcen, makeCircle_pos, makeCircle_pos, det_rotate]
    unfold Vec.determinant
    dsimp only
    have := mul_pos hcos h
    linarith
  have edges : ∀ x y x' y' x2 y2 : ℝ, 0 < (x' - x) * (y2 - y) - (y' - y) * (x2 - x) →
      LeftOf (TipShape.makeCircle s r x y).center (TipShape.makeCircle s r x' y').center (TipShape.makeCircle s r x2 y2).center := by
    intro x y x' y' x2 y2 h
    rw [left_iff, det_makeCircle]
    exact mul_pos hcos h
  rcases hc with ⟨hc, -⟩ | ⟨hc, hx, -⟩ | ⟨hc, -, hy⟩ | ⟨hc, hx, hy⟩ | ⟨x', hc, hx, hy, hx', hm⟩ <;> rw [hc]
  · refine ⟨fun i c d _ _ h => absurd h (by simp), ?_⟩
    intro i j c d e h1 h2 h3 n1 n2
    rw [List.getElem?_eq_some_iff] at h1 h3
    obtain ⟨h1, -⟩ := h1
    obtain ⟨h3, -⟩ := h3
    simp only [List.length_cons, List.length_nil] at h1 h3
    omega
  · refine ⟨fun i c d _ _ h => absurd h (by simp), ?_⟩
    intro i j c d e h1 h2 h3 n1 n2
    rw [List.getElem?_eq_some_iff] at h1 h3
    obtain ⟨h1, -⟩ := h1
    obtain ⟨h3, -⟩ := h3
    simp only [List.length_cons, List.length_nil] at h1 h3 n2
    omega
  · refine ⟨fun i c d _ _ h => absurd h (by simp), ?_⟩
    intro i j c d e h1 h2 h3 n1 n2
    rw [List.getElem?_eq_some_iff] at h1 h3
    obtain ⟨h1, -⟩ := h1
    obtain ⟨h3, -⟩ := h3
    simp only [List.length_cons, List.length_nil] at h1 h3 n2
    omega
  · have p := mul_pos hx hy
    constructor
    · intro i c d h1 h2 _
      have hi : i < 3 := by
        rw [List.getElem?_eq_some_iff] at h1
        obtain ⟨h1, -⟩ := h1
        simpa using h1
      interval_cases i <;> simp at h1 h2 <;> subst h1 <;> subst h2 <;> apply around <;> nlinarith
    · intro i j c d e h1 h2 h3 n1 n2
      have hi : i < 3 := by
        rw [List.getElem?_eq_some_iff] at h1
        obtain ⟨h1, -⟩ := h1
        simpa using h1
      have hj : j < 3 := by
        rw [List.getElem?_eq_some_iff] at h3
        obtain ⟨h1, -⟩ := h3
        simpa using h1
      interval_cases i <;> interval_cases j <;> simp at n1 n2 <;> simp at h1 h2 h3 <;> subst h1 <;> subst h2 <;> subst h3 <;>
        apply edges <;> nlinarith
  · have p := mul_pos hx hy
    have hx2 : 0 < x' := by linarith
    have p2 := mul_pos hx2 hy
    constructor
    · intro i c d h1 h2 _
      have hi : i < 4 := by
        rw [List.getElem?_eq_some_iff] at h1
        obtain ⟨h1, -⟩ := h1
        simpa using h1
      interval_cases i <;> simp at h1 h2 <;> subst h1 <;> subst h2 <;> apply around <;> nlinarith
    · intro i j c d e h1 h2 h3 n1 n2
      have hi : i < 4 := by
        rw [List.getElem?_eq_some_iff] at h1
        obtain ⟨h1, -⟩ := h1
        simpa using h1
      have hj : j < 4 := by
        rw [List.getElem?_eq_some_iff] at h3
        obtain ⟨h1, -⟩ := h3
        simpa using h1
      interval_cases i <;> interval_cases j <;> simp at n1 n2 <;> simp at h1 h2 h3 <;> subst h1 <;> subst h2 <;> subst h3 <;>
        apply edges <;> nlinarith

/-- Distances of circles are at least the least separation times the cosine of the slant. Without slant, this is what is documented. -/
theorem C65_separated_partial {s : TipState} {m : ℝ} {t : TipShape} (hs : |s.slant| ≤ π / 2) (ht : TipShape.make s m = some t) :
    Separated (max m (1 / 2 ^ 126) * Real.cos s.slant) t.circles := by
  have hv := (make_radius ht).1
  obtain ⟨t', r, x, y, h1, hcen, -, h2, -, x1, y1, -, -, -, -, hc⟩ := make_cases hv m
  rw [ht] at h1
  obtain rfl := Option.some.inj h1
  have hcos : 0 ≤ Real.cos s.slant := by
    obtain ⟨h1, h2⟩ := abs_le.1 hs
    exact Real.cos_nonneg_of_mem_Icc ⟨by linarith, h2⟩
  have hcos1 := Real.cos_le_one s.slant
  have hM := sep_pos m
  change Separated (max m TipShape.floatMin * Real.cos s.slant) t.circles
  generalize max m TipShape.floatMin = M at *
  have horizontal : ∀ x x' y : ℝ, M ≤ |x - x'| →
      M * Real.cos s.slant ≤ ‖(TipShape.makeCircle s r x y).center - (TipShape.makeCircle s r x' y).center‖ := by
    intro x x' y h
    rw [makeCircle_sub, norm_rotate]
    have h1 := Complex.abs_re_le_norm (⟨x - x' - Real.sin s.slant * (y - y), Real.cos s.slant * (y - y)⟩ : ℂ)
    dsimp only at h1
    rw [sub_self, mul_zero, sub_zero] at h1 ⊢
    nlinarith
  have vertical : ∀ x x' y y' : ℝ, M ≤ |y - y'| →
      M * Real.cos s.slant ≤ ‖(TipShape.makeCircle s r x y).center - (TipShape.makeCircle s r x' y').center‖ := by
    intro x x' y y' h
    rw [makeCircle_sub, norm_rotate]
    have h1 := Complex.abs_im_le_norm (⟨x - x' - Real.sin s.slant * (y - y'), Real.cos s.slant * (y - y')⟩ : ℂ)
    dsimp only at h1
    rw [abs_mul, abs_of_nonneg hcos] at h1
    nlinarith
  have ab : ∀ z : ℝ, 0 < z → (z = 0 ∨ M ≤ 2 * z) → M ≤ 2 * z := fun z hz h => h.resolve_left hz.ne'
  unfold Separated
  rcases hc with ⟨hc, -⟩ | ⟨hc, hx, -⟩ | ⟨hc, -, hy⟩ | ⟨hc, hx, hy⟩ | ⟨x', hc, hx, hy, hx', hm⟩ <;> rw [hc]
  · simp
  · have := ab x hx x1
    simp only [List.pairwise_cons, List.mem_singleton, forall_eq, List.not_mem_nil, false_imp_iff, implies_true, List.Pairwise.nil, and_true]
    apply horizontal
    rw [le_abs]; left; linarith
  · have := ab y hy y1
    simp only [List.pairwise_cons, List.mem_singleton, forall_eq, List.not_mem_nil, false_imp_iff, implies_true, List.Pairwise.nil, and_true]
    apply vertical
    rw [le_abs]; left; linarith
  · have := ab x hx x1
    have := ab y hy y1
    simp only [List.pairwise_cons, List.mem_cons, forall_eq_or_imp, List.not_mem_nil, false_imp_iff, implies_true, List.Pairwise.nil, and_true]
    refine ⟨⟨horizontal _ _ _ ?_, vertical _ _ _ _ ?_⟩, vertical _ _ _ _ ?_⟩ <;> rw [le_abs] <;> left <;> linarith
  · have := ab x hx x1
    have := ab y hy y1
    simp only [List.pairwise_cons, List.mem_cons, forall_eq_or_imp, List.not_mem_nil, false_imp_iff, implies_true, List.Pairwise.nil, and_true]
    refine ⟨⟨horizontal _ _ _ ?_, vertical _ _ _ _ ?_, vertical _ _ _ _ ?_⟩, ⟨vertical _ _ _ _ ?_, vertical _ _ _ _ ?_⟩,
      horizontal _ _ _ ?_⟩ <;> rw [le_abs] <;> first | (left; linarith) | (right; linarith)

/-- The bounds are the smallest rectangle around a shape. -/
theorem C65_bounds {s : TipState} {m : ℝ} {t : TipShape} (ht : TipShape.make s m = some t) :
    ∃ b, t.bounds = some b ∧ MinRect b (region t) := by
  obtain ⟨-, -, h, -, r, r0, -, -, hr⟩ := make_radius ht
  exact bounds_min h fun c hc => by rw [hr c hc]; exact r0

/-- A shape without rotation and slant is as large as its tip, up to the least separation, and symmetric about the position in each
direction. -/
theorem C65_size {s : TipState} {m : ℝ} {t : TipShape} (h0 : s.rotation = 0) (h1 : s.slant = 0) (ht : TipShape.make s m = some t) :
    ∃ b, t.bounds = some b ∧ b.xMin + b.xMax = 2 * s.position.re ∧ b.yMin + b.yMax = 2 * s.position.im ∧
      b.xMax - b.xMin ≤ s.width ∧ s.width - max m (1 / 2 ^ 126) < b.xMax - b.xMin ∧
      b.yMax - b.yMin ≤ s.height ∧ s.height - max m (1 / 2 ^ 126) < b.yMax - b.yMin := by
  obtain ⟨hv, -, hne, -⟩ := make_radius ht
  obtain ⟨t', r, x, y, g1, hcen, -, h2, -, x1, y1, x2, x3, y2, y3, hc⟩ := make_cases hv m
  rw [ht] at g1
  obtain rfl := Option.some.inj g1
  have hM := sep_pos m
  change ∃ b, t.bounds = some b ∧ b.xMin + b.xMax = 2 * s.position.re ∧ b.yMin + b.yMax = 2 * s.position.im ∧
      b.xMax - b.xMin ≤ s.width ∧ s.width - max m TipShape.floatMin < b.xMax - b.xMin ∧
      b.yMax - b.yMin ≤ s.height ∧ s.height - max m TipShape.floatMin < b.yMax - b.yMin
  generalize max m TipShape.floatMin = M at *
  have mk : ∀ x y, TipShape.makeCircle s r x y = ⟨⟨x + s.position.re, y + s.position.im⟩, r⟩ := by
    intro x y
    unfold TipShape.makeCircle TipShape.rotate
    rw [h0, h1]
    dsimp only
    congr 1
    apply Complex.ext <;> simp
  suffices ∃ b, t.bounds = some b ∧ b.xMin = s.position.re - (x + r) ∧ b.xMax = s.position.re + (x + r) ∧
      b.yMin = s.position.im - (y + r) ∧ b.yMax = s.position.im + (y + r) by
    obtain ⟨b, hb, e1, e2, e3, e4⟩ := this
    refine ⟨b, hb, ?_, ?_, ?_, ?_, ?_, ?_⟩ <;> linarith
  obtain ⟨b, hb, ⟨a1, c1, a2, a3⟩, ⟨b1, c2, b2, b3⟩, ⟨d1, c3, d2, d3⟩, ⟨e1, c4, e2, e3⟩⟩ := bounds_spec hne
  refine ⟨b, hb, ?_⟩
  rcases hc with ⟨hc, hx, hy⟩ | ⟨hc, hx, hy⟩ | ⟨hc, hx, hy⟩ | ⟨hc, hx, hy⟩ | ⟨x', hc, hx, hy, hx', hm⟩
  all_goals
    rw [hc] at a1 a2 b1 b2 d1 d2 e1 e2
    simp only [mk, List.mem_cons, List.not_mem_nil, or_false, forall_eq_or_imp, forall_eq] at a1 a2 b1 b2 d1 d2 e1 e2
  · subst a2 b2 d2 e2
    subst hx hy
    dsimp only at *
    refine ⟨?_, ?_, ?_, ?_⟩ <;> linarith
  · subst hy
    refine ⟨?_, ?_, ?_, ?_⟩
    · rcases d2 with e | e <;> rw [e] at d3 <;> dsimp only at d3 <;> linarith
    · rcases a2 with e | e <;> rw [e] at a3 <;> dsimp only at a3 <;> linarith
    · rcases e2 with e | e <;> rw [e] at e3 <;> dsimp only at e3 <;> linarith
    · rcases b2 with e | e <;> rw [e] at b3 <;> dsimp only at b3 <;> linarith
  · subst hx
    refine ⟨?_, ?_, ?_, ?_⟩
    · rcases d2 with e | e <;> rw [e] at d3 <;> dsimp only at d3 <;> linarith
    · rcases a2 with e | e <;> rw [e] at a3 <;> dsimp only at a3 <;> linarith
    · rcases e2 with e | e <;> rw [e] at e3 <;> dsimp only at e3 <;> linarith
    · rcases b2 with e | e <;> rw [e] at b3 <;> dsimp only at b3 <;> linarith
  · refine ⟨?_, ?_, ?_, ?_⟩
    · rcases d2 with e | e | e <;> rw [e] at d3 <;> dsimp only at d3 <;> linarith
    · rcases a2 with e | e | e <;> rw [e] at a3 <;> dsimp only at a3 <;> linarith
    · rcases e2 with e | e | e <;> rw [e] at e3 <;> dsimp only at e3 <;> linarith
    · rcases b2 with e | e | e <;> rw [e] at b3 <;> dsimp only at b3 <;> linarith
  · refine ⟨?_, ?_, ?_, ?_⟩
    · rcases d2 with e | e | e | e <;> rw [e] at d3 <;> dsimp only at d3 <;> linarith
    · rcases a2 with e | e | e | e <;> rw [e] at a3 <;> dsimp only at a3 <;> linarith
    · rcases e2 with e | e | e | e <;> rw [e] at e3 <;> dsimp only at e3 <;> linarith
    · rcases b2 with e | e | e | e <;> rw [e] at b3 <;> dsimp only at b3 <;> linarith

/-- A shape contains another one exactly if it has all of its points. -/
theorem C65_contains {s s' : TipState} {m m' : ℝ} {t t' : TipShape} (hs : Slanted s) (ht : TipShape.make s m = some t)
    (ht' : TipShape.make s' m' = some t') : t.contains t' = some true ∧ region t' ⊆ region t ∨
      t.contains t' = some false ∧ ¬region t' ⊆ region t := by
  classical
  obtain ⟨hv, -, -, -⟩ := make_radius ht
  obtain ⟨-, -, hne, -, r', r0, -, -, hr⟩ := make_radius ht'
  have ho : ∀ c ∈ t'.circles, 0 ≤ c.radius := fun c hc => by rw [hr c hc]; exact r0
  have key : t.contains t' = some (decide (region t' ⊆ region t)) := by
    obtain ⟨r, h0, h | h⟩ := make_polygonal hv hs ht
    · exact contains_single (d := ⟨s.position, r⟩) h0 h ho hne
    · exact contains_polygonal h0 h ho hne
  by_cases hsub : region t' ⊆ region t
  · left; rw [key, decide_eq_true hsub]; exact ⟨rfl, hsub⟩
  · right; rw [key, decide_eq_false hsub]; exact ⟨rfl, hsub⟩

/-- A shape contains itself. -/
theorem C65_self {s : TipState} {m : ℝ} {t : TipShape} (hs : Slanted s) (ht : TipShape.make s m = some t) :
    t.contains t = some true := by
  rcases C65_contains hs ht ht with h | h
  · exact h.1
  · exact absurd (fun _ h => h) h.2

/-! ## Not as documented -/

/-- A tip that is slanted by a quarter of a turn. -/
noncomputable def tip0 : TipState := ⟨0, 6, 2, 0, 0, π / 2, 2 / 3⟩

/-- A slant of a quarter of a turn is valid, but two of the four circles are then at the same place. -/
theorem C65_separated_counterexample : ∃ (s : TipState) (t : TipShape), ValidTip s ∧ |s.slant| ≤ π / 2 ∧ TipShape.make s 1 = some t ∧
    t.circles.length = 4 ∧ ∃ c d, t.circles[0]? = some c ∧ t.circles[3]? = some d ∧ c.center = d.center ∧ c.Contains d := by
  have hM : max (1 : ℝ) TipShape.floatMin = 1 := by
    apply max_eq_left
    unfold TipShape.floatMin
    rw [div_le_one (by positivity)]
    exact one_le_pow₀ (by norm_num)
  refine ⟨tip0, ⟨0, [TipShape.makeCircle tip0 0 3 1, TipShape.makeCircle tip0 0 (-3) 1, TipShape.makeCircle tip0 0 (-1) (-1),
    TipShape.makeCircle tip0 0 1 (-1)]⟩, by unfold ValidTip tip0; norm_num, ?_, ?_, rfl, TipShape.makeCircle tip0 0 3 1,
    TipShape.makeCircle tip0 0 1 (-1), rfl, rfl, ?_, ?_⟩
  case refine_2 =>
    unfold TipShape.make
    rw [hM]
    unfold TipShape.makeShapeControlCircles TipShape.calculateCircleRadius
    norm_num [tip0]
  · unfold tip0
    rw [abs_of_pos (by linarith [Real.pi_pos])]
  · unfold TipShape.makeCircle TipShape.rotate tip0
    apply Complex.ext <;> simp <;> norm_num
  · unfold Circle.Contains
    rw [magnitude_eq]
    have : ∀ z : ℂ, z = 0 → ‖z‖ = 0 := fun z h => by rw [h, norm_zero]
    rw [this]
    · simp [TipShape.makeCircle]
    · unfold TipShape.makeCircle TipShape.rotate tip0
      apply Complex.ext <;> simp <;> norm_num

/-! ## Examples -/

/-- A pinched and slanted tip. -/
noncomputable def tip1 : TipState := ⟨⟨3, 4⟩, 10, 6, 1 / 2, 1, 1 / 2, 1 / 3⟩

/-- It is valid, so that a shape is made of it, with four corners. -/
example : ∃ t, TipShape.make tip1 (1 / 10) = some t ∧ t.circles.length = 4 ∧ Slanted tip1 := by
  have hM : max (1 / 10 : ℝ) TipShape.floatMin = 1 / 10 := by
    apply max_eq_left
    unfold TipShape.floatMin
    rw [div_le_div_iff₀ (by positivity) (by norm_num)]
    norm_num
  refine ⟨⟨⟨3, 4⟩, [TipShape.makeCircle tip1 (3 / 2) (7 / 2) (3 / 2), TipShape.makeCircle tip1 (3 / 2) (-(7 / 2)) (3 / 2),
    TipShape.makeCircle tip1 (3 / 2) (-(7 / 3)) (-(3 / 2)), TipShape.makeCircle tip1 (3 / 2) (7 / 3) (-(3 / 2))]⟩, ?_, rfl, ?_⟩
  · unfold TipShape.make
    rw [hM]
    unfold TipShape.makeShapeControlCircles TipShape.calculateCircleRadius
    norm_num [tip1]
  · unfold Slanted tip1
    rw [abs_of_pos (by norm_num)]
    linarith [Real.two_le_pi]

/-- A shape does not contain one that is far away. -/
example {t : TipShape} (ht : TipShape.make ⟨0, 2, 2, 1, 0, 0, 0⟩ (1 / 2) = some t) {t' : TipShape}
    (ht' : TipShape.make ⟨10, 2, 2, 1, 0, 0, 0⟩ (1 / 2) = some t') : t.contains t' = some false := by
  have hs : Slanted ⟨0, 2, 2, 1, 0, 0, 0⟩ := by
    unfold Slanted; simp only [abs_zero]; linarith [Real.pi_pos]
  rcases C65_contains hs ht ht' with h | h
  · obtain ⟨b, hb, e1, -, e3, -⟩ := C65_size rfl rfl ht
    obtain ⟨b', hb', f1, -, -, f4, -⟩ := C65_size rfl rfl ht'
    obtain ⟨b2, hb2, k1, k2⟩ := C65_bounds ht
    obtain ⟨b3, hb3, l1, l2⟩ := C65_bounds ht'
    rw [hb] at hb2; rw [hb'] at hb3
    obtain rfl := Option.some.inj hb2
    obtain rfl := Option.some.inj hb3
    have := l2 b fun p hp => k1 p (h.2 hp)
    have hm : max (1 / 2 : ℝ) (1 / 2 ^ 126) ≤ 1 := max_le (by norm_num) (by norm_num)
    dsimp only at e1 e3 f1 f4
    rw [show (10 : ℂ).re = 10 from rfl] at f1
    rw [Complex.zero_re] at e1
    linarith [this.1, this.2.1]
  · exact h.1

end Verif.RealGeom
