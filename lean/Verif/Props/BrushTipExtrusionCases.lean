import Verif.Props.BrushTipExtrusion

/-!
# C67: cases of the tangents between two tip shapes
-/

set_option autoImplicit false

namespace Verif.RealGeom

open Spec Real TipShape

/-! ## A circle and a line that crosses it -/

/-- A tip that is a circle of radius one. -/
noncomputable def discTip : TipState := ⟨0, 2, 2, 1, 0, 0, 0⟩

/-- A tip that is a line. -/
noncomputable def lineTip : TipState := ⟨⟨1 / 5, 0⟩, 0, 14 / 5, 0, 0, 0, 0⟩

theorem disc_slanted : Slanted discTip := by
  have := Real.pi_pos
  unfold Slanted discTip; dsimp only; rw [abs_zero]; linarith

theorem line_slanted : Slanted lineTip := by
  have := Real.pi_pos
  unfold Slanted lineTip; dsimp only; rw [abs_zero]; linarith

noncomputable def discShape : TipShape := ⟨0, [⟨0, 1⟩]⟩

noncomputable def lineShape : TipShape := ⟨⟨1 / 5, 0⟩, [⟨⟨1 / 5, 7 / 5⟩, 0⟩, ⟨⟨1 / 5, -7 / 5⟩, 0⟩]⟩

theorem tenth : max (1 / 10 : ℝ) floatMin = 1 / 10 := by
  unfold floatMin; norm_num

theorem disc_make : TipShape.make discTip (1 / 10) = some discShape := by
  unfold TipShape.make makeShapeControlCircles calculateCircleRadius discTip discShape
  rw [tenth]
  norm_num

theorem line_make : TipShape.make lineTip (1 / 10) = some lineShape := by
  unfold TipShape.make makeShapeControlCircles calculateCircleRadius lineTip lineShape
  rw [tenth]
  norm_num [makeCircle, rotate]
  constructor <;> apply Complex.ext <;> norm_num

noncomputable def discTipX : TipExtrusion := ⟨discTip, discShape⟩

noncomputable def lineTipX : TipExtrusion := ⟨lineTip, lineShape⟩

theorem discX_make : TipExtrusion.make discTip (1 / 10) = some discTipX := by
  unfold TipExtrusion.make; rw [disc_make]; rfl

theorem lineX_make : TipExtrusion.make lineTip (1 / 10) = some lineTipX := by
  unfold TipExtrusion.make; rw [line_make]; rfl

/-- A region is where its circles are. -/
theorem region_along {t : TipShape} {φ k : ℝ} (h : ∀ c ∈ t.circles, along φ c.center + c.radius ≤ k) {p : ℂ} (hp : p ∈ region t) :
    along φ p ≤ k := by
  have : region t ⊆ {p | along φ p ≤ k} := by
    refine convexHull_min ?_ (convex_along_le _ _)
    rintro p ⟨c, hc, hd⟩
    exact (along_disc φ hd).trans (h c hc)
  exact this hp

theorem center_region {t : TipShape} {c : Circle} (hc : c ∈ t.circles) (hr : 0 ≤ c.radius) : c.center ∈ region t := by
  refine disc_region hc ?_
  unfold InDisc
  rw [sub_self, norm_zero]; exact hr

theorem not_in_disc {t : TipShape} {p : ℂ} (h : t.circles = [⟨0, 1⟩]) (hp : 1 < ‖p‖) : p ∉ region t := by
  intro hin
  have hsub : region t ⊆ Metric.closedBall 0 1 := by
    refine convexHull_min ?_ (convex_closedBall _ _)
    rintro q ⟨c, hc, hd⟩
    rw [h, List.mem_singleton] at hc
    subst hc
    unfold InDisc at hd
    rw [mem_closedBall_zero_iff]
    simpa using hd
  have := mem_closedBall_zero_iff.1 (hsub hin)
  linarith

theorem one_lt_norm {z : ℂ} (h : 1 < z.re ^ 2 + z.im ^ 2) : 1 < ‖z‖ := by
  rw [Complex.norm_def, Complex.normSq_apply]
  rw [show z.re * z.re + z.im * z.im = z.re ^ 2 + z.im ^ 2 by ring]
  exact Real.lt_sqrt_of_sq_lt (by linarith)

theorem contains_zero {c d : Circle} (hc : c.center = 0) (hr : c.radius = 1) (hd : d.radius = 0) :
    (1 < d.center.re ^ 2 + d.center.im ^ 2 → ¬c.Contains d) ∧ (d.center.re ^ 2 + d.center.im ^ 2 ≤ 1 → c.Contains d) ∧ ¬d.Contains c := by
  unfold Circle.Contains
  rw [magnitude_eq, magnitude_eq, hc, hr, hd, sub_zero, add_zero]
  refine ⟨fun h => not_le.2 (one_lt_norm h), fun h => ?_, fun h => ?_⟩
  · rw [Complex.norm_def, Complex.normSq_apply]
    rw [show d.center.re * d.center.re + d.center.im * d.center.im = d.center.re ^ 2 + d.center.im ^ 2 by ring]
    exact Real.sqrt_le_one.2 h
  · have := norm_nonneg (0 - d.center)
    linarith

theorem line_apart : ¬region lineShape ⊆ region discShape ∧ ¬region discShape ⊆ region lineShape := by
  constructor
  · intro h
    refine not_in_disc (t := discShape) rfl (p := ⟨1 / 5, 7 / 5⟩) (one_lt_norm (by norm_num)) (h ?_)
    exact center_region (c := ⟨⟨1 / 5, 7 / 5⟩, 0⟩) (by simp [lineShape]) (le_refl _)
  · intro h
    have hp : (0 : ℂ) ∈ region lineShape := h (center_region (t := discShape) (c := ⟨0, 1⟩) (by simp [discShape]) (by norm_num))
    have := region_along (t := lineShape) (φ := π) (k := -(1 / 5)) (by
      intro c hc
      simp only [lineShape, List.mem_cons, List.not_mem_nil, or_false] at hc
      rcases hc with rfl | rfl <;> simp [along_pi]) hp
    rw [along_pi] at this
    norm_num at this

/-- The tangents from the circle to the ends of the line. -/
theorem line_tangents :
    tangentProperties ⟨0, 1⟩ ⟨⟨1 / 5, 7 / 5⟩, 0⟩ 1 .left = some (Complex.arg ⟨4 / 5, 3 / 5⟩, ‖(⟨4 / 5, 3 / 5⟩ : ℂ)‖) ∧
    tangentProperties ⟨0, 1⟩ ⟨⟨1 / 5, -7 / 5⟩, 0⟩ 1 .left = some (Complex.arg ⟨-3 / 5, -4 / 5⟩, ‖(⟨-3 / 5, -4 / 5⟩ : ℂ)‖) ∧
    tangentProperties ⟨0, 1⟩ ⟨⟨1 / 5, 7 / 5⟩, 0⟩ 1 .right = some (Complex.arg ⟨-3 / 5, 4 / 5⟩, ‖(⟨-3 / 5, 4 / 5⟩ : ℂ)‖) ∧
    tangentProperties ⟨0, 1⟩ ⟨⟨1 / 5, -7 / 5⟩, 0⟩ 1 .right = some (Complex.arg ⟨4 / 5, -3 / 5⟩, ‖(⟨4 / 5, -3 / 5⟩ : ℂ)‖) := by
  have c1 := contains_zero (c := ⟨0, 1⟩) (d := ⟨⟨1 / 5, 7 / 5⟩, 0⟩) rfl rfl rfl
  have c2 := contains_zero (c := ⟨0, 1⟩) (d := ⟨⟨1 / 5, -7 / 5⟩, 0⟩) rfl rfl rfl
  simp only [← signed_one]
  refine ⟨properties_eq (n := ⟨-3 / 5, 4 / 5⟩) (c1.1 (by norm_num)) c1.2.2 ?_ ?_ ?_ ?_ ?_, properties_eq (n := ⟨4 / 5, -3 / 5⟩) (c2.1 (by norm_num)) c2.2.2 ?_ ?_ ?_ ?_ ?_,
    properties_eq (n := ⟨4 / 5, 3 / 5⟩) (c1.1 (by norm_num)) c1.2.2 ?_ ?_ ?_ ?_ ?_, properties_eq (n := ⟨-3 / 5, -4 / 5⟩) (c2.1 (by norm_num)) c2.2.2 ?_ ?_ ?_ ?_ ?_⟩
  all_goals first
    | norm_num; done
    | (rw [if_neg (by simp : ¬Side.right = Side.left)]; norm_num)
    | (apply Complex.ext <;> norm_num)
    | (intro e; have := congrArg Complex.re e; norm_num at this)

theorem arg_quadrant {z : ℂ} : (0 < z.re → |Complex.arg z| < π / 2) ∧ (z.re < 0 → 0 < z.im → π / 2 < Complex.arg z) ∧
    (z.re < 0 → z.im < 0 → Complex.arg z < -(π / 2)) := by
  refine ⟨fun h => Complex.abs_arg_lt_pi_div_two_iff.2 (Or.inl h), fun h1 h2 => ?_, fun h1 h2 => ?_⟩
  · by_contra hn
    have h0 := Complex.arg_nonneg_iff.2 h2.le
    have := Complex.abs_arg_le_pi_div_two_iff.1 (abs_le.2 ⟨by linarith [Real.pi_pos], not_lt.1 hn⟩)
    linarith
  · by_contra hn
    have h0 := Complex.arg_neg_iff.2 h2
    have := Complex.abs_arg_le_pi_div_two_iff.1 (abs_le.2 ⟨not_lt.1 hn, by linarith [Real.pi_pos]⟩)
    linarith

theorem line_left (th : ℝ) (h : th ≤ -(π / 2)) : leftmostTurningIndex ⟨0, 1⟩ 1 lineShape th = some 0 := by
  obtain ⟨t1, t2, -, -⟩ := line_tangents
  have a1 := abs_lt.1 ((arg_quadrant (z := ⟨4 / 5, 3 / 5⟩)).1 (by norm_num))
  have a2 := (arg_quadrant (z := ⟨-3 / 5, -4 / 5⟩)).2.2 (by norm_num) (by norm_num)
  cases hl : leftmostTurningIndex ⟨0, 1⟩ 1 lineShape th with
  | none =>
    have := leftmost_none hl _ (by simp [lineShape]) _ t1 a1.2.le
    dsimp only at this
    linarith
  | some i =>
    obtain ⟨d, t, hd, ht, -, -, hall⟩ := leftmost_some hl
    have := (hall _ (by simp [lineShape]) _ t1 a1.2.le).1
    dsimp only at this
    match i with
    | 0 => rfl
    | 1 =>
      simp only [lineShape, List.getElem?_cons_succ, List.getElem?_cons_zero, Option.some_inj] at hd
      subst hd
      rw [t2] at ht
      obtain rfl := Option.some.inj ht
      dsimp only at this
      linarith
    | i + 2 => simp [lineShape] at hd

theorem line_right (th : ℝ) (h : π / 2 ≤ th) : rightmostTurningIndex ⟨0, 1⟩ 1 lineShape th = some 1 := by
  obtain ⟨-, -, t1, t2⟩ := line_tangents
  have a1 := (arg_quadrant (z := ⟨-3 / 5, 4 / 5⟩)).2.1 (by norm_num) (by norm_num)
  have a2 := abs_lt.1 ((arg_quadrant (z := ⟨4 / 5, -3 / 5⟩)).1 (by norm_num))
  cases hl : rightmostTurningIndex ⟨0, 1⟩ 1 lineShape th with
  | none =>
    have := rightmost_none hl _ (by simp [lineShape]) _ t2 a2.1.le
    dsimp only at this
    linarith
  | some i =>
    obtain ⟨d, t, hd, ht, -, -, hall⟩ := rightmost_some hl
    have := (hall _ (by simp [lineShape]) _ t2 a2.1.le).1
    dsimp only at this
    match i with
    | 0 =>
      simp only [lineShape, List.getElem?_cons_zero, Option.some_inj] at hd
      subst hd
      rw [t1] at ht
      obtain rfl := Option.some.inj ht
      dsimp only at this
      linarith
    | 1 => rfl
    | i + 2 => simp [lineShape] at hd

theorem line_indices : tangentCircleIndices discShape lineShape = some ⟨(0, 0), (0, 1)⟩ := by
  unfold tangentCircleIndices
  rw [if_neg (by simp [lineShape]), forward_one (x := 1 / 5) (by simp [discShape, lineShape]; apply Complex.ext <;> simp) (by norm_num)]
  have hpi := Real.pi_pos
  have e1 := line_left (-π) (by linarith)
  have e2 := line_right π (by linarith)
  simp only [discShape]
  rw [e1, e2]
  rfl

/-- The tangents are said to be good. -/
theorem line_good : evaluateTangentQuality discTipX lineTipX 0 = some .good := by
  obtain ⟨-, -, c1, c2⟩ := shapes discX_make lineX_make disc_slanted line_slanted
  obtain ⟨g1, g2⟩ := line_apart
  unfold evaluateTangentQuality
  rw [if_neg (by rintro ⟨-, h, -⟩; simp [discTipX, lineTipX, discTip, lineTip] at h)]
  unfold evaluateInternal
  rw [(c1 false).2 (by simp [discTipX, lineTipX, g1]), (c2 false).2 (by simp [discTipX, lineTipX, g2])]
  dsimp only
  rw [if_neg (by simp [discTipX, lineTipX, discShape, lineShape])]
  have := line_indices
  simp only [discTipX, lineTipX]
  rw [this]
  simp [nextCw, discShape]

/-- The circles of the joined shape. -/
noncomputable def lineJoined : List Circle := [⟨0, 1⟩, ⟨⟨1 / 5, -7 / 5⟩, 0⟩, ⟨⟨1 / 5, 7 / 5⟩, 0⟩]

theorem line_joined : Joined discShape lineShape ⟨(0, 0), (0, 1)⟩ lineJoined := by
  refine ⟨[⟨0, 1⟩], [⟨⟨1 / 5, -7 / 5⟩, 0⟩, ⟨⟨1 / 5, 7 / 5⟩, 0⟩], ⟨0, by simp [discShape], by simp [discShape], by simp, rfl, ?_⟩,
    ⟨1, by simp [lineShape], by simp [lineShape], by simp [lineShape], rfl, ?_⟩, rfl⟩
  · intro p hp
    obtain rfl : p = 0 := by omega
    rfl
  · intro p hp
    obtain rfl | rfl : p = 0 ∨ p = 1 := by omega
    · rfl
    · rfl

/-- The angles of its boundary. -/
noncomputable def lineθ (i : ℕ) : ℝ := if i = 0 then Real.arccos (-3 / 5) else if i = 1 then 2 * π - Real.arccos (-3 / 5) else
  if i = 2 then 2 * π else Real.arccos (-3 / 5) + 2 * π

theorem line_turns {x : ℝ} : TurnsOnce (enlarged x lineJoined) lineθ := by
  have hpi := Real.pi_pos
  have hc : Real.cos (Real.arccos (-3 / 5)) = -3 / 5 := Real.cos_arccos (by norm_num) (by norm_num)
  have hs : Real.sin (Real.arccos (-3 / 5)) = 4 / 5 := by
    rw [Real.sin_arccos]
    rw [show 1 - (-3 / 5 : ℝ) ^ 2 = (4 / 5) ^ 2 by norm_num]
    exact Real.sqrt_sq (by norm_num)
  have h0 := Real.arccos_nonneg (-3 / 5)
  have h1 := Real.arccos_le_pi (-3 / 5)
  generalize he : Real.arccos (-3 / 5) = α at *
  have e0 : lineθ 0 = α := by simp [lineθ, he]
  have e1 : lineθ 1 = 2 * π - α := by simp [lineθ, he]
  have e2 : lineθ 2 = 2 * π := by simp [lineθ]
  have e3 : lineθ 3 = α + 2 * π := by simp [lineθ, he]
  have hlen : (enlarged x lineJoined).length = 3 := by simp [enlarged, lineJoined]
  refine ⟨?_, ?_, ?_⟩
  · intro i hi
    rw [hlen] at hi
    obtain rfl | rfl | rfl : i = 0 ∨ i = 1 ∨ i = 2 := by omega
    · rw [e0, e1]; linarith
    · rw [e1, e2]; linarith
    · rw [e2, e3]; linarith
  · rw [hlen, e0, e3]
  · rintro i c d ⟨h2, h3⟩
    rw [hlen] at h3
    have hi : i < 3 := by rw [← hlen]; exact (List.getElem?_eq_some_iff.1 h2).1
    rw [rightTangent_iff]
    obtain rfl | rfl | rfl : i = 0 ∨ i = 1 ∨ i = 2 := by omega
    · simp [enlarged, lineJoined] at h2 h3
      subst h2 h3
      rw [e1]
      unfold along across
      rw [Real.cos_two_pi_sub, Real.sin_two_pi_sub, hc, hs]
      norm_num
    · simp [enlarged, lineJoined] at h2 h3
      subst h2 h3
      rw [e2]
      unfold along across
      rw [Real.cos_two_pi, Real.sin_two_pi]
      norm_num
    · simp [enlarged, lineJoined] at h2 h3
      subst h2 h3
      rw [e3]
      unfold along across
      rw [Real.cos_add_two_pi, Real.sin_add_two_pi, hc, hs]
      norm_num

/-- The tangents of a circle and a line that crosses it are said to be good, but the joined shape, although it is convex, does not cover
the circle: it ends where the line is. So the tangents are not always good when they are said to be. -/
theorem C67_good_counterexample : ∃ s1 s2 m x e1 e2 ix js θ, Slanted s1 ∧ Slanted s2 ∧ TipExtrusion.make s1 m = some e1 ∧
    TipExtrusion.make s2 m = some e2 ∧ ¬region e2.shape ⊆ region e1.shape ∧ ¬region e1.shape ⊆ region e2.shape ∧ ¬Moved s1 s2 ∧
    tangentCircleIndices e1.shape e2.shape = some ix ∧
    Joined e1.shape e2.shape ix js ∧ Margin e1.shape e2.shape x ∧ TurnsOnce (enlarged x js) θ ∧
    (∀ i < js.length, θ (i + 1) = θ i ∨ 5 / 1000000 ≤ |Real.sin (θ (i + 1) - θ i)|) ∧
    evaluateTangentQuality e1 e2 0 = some .good ∧ ¬Covers (enlarged x js) θ e1.shape e2.shape := by
  have hne1 : discShape.circles ≠ [] := by simp [discShape]
  have hne2 : lineShape.circles ≠ [] := by simp [lineShape]
  have hrad := radii discX_make lineX_make
  obtain ⟨ra, rb, -, -, hm, hx0⟩ := margin_exists hne1 hne2 (fun c hc => hrad c (Or.inl hc)) (fun c hc => hrad c (Or.inr hc))
  generalize joinOffset ra rb = x at hm hx0
  have hx : 1000000 * x ≤ 7 / 5 := by
    have b1 : ∀ φ, (φ = 0 ∨ φ = π ∨ φ = π / 2 ∨ φ = -(π / 2)) → ∀ p ∈ region discShape ∪ region lineShape, along φ p ≤ 7 / 5 := by
      intro φ hφ p hp
      rcases hp with hp | hp
      · refine region_along (fun c hc => ?_) hp
        simp only [discShape, List.mem_singleton] at hc
        subst hc
        rcases hφ with rfl | rfl | rfl | rfl <;> norm_num [along_zero, along_pi, along_half, along_neg_half]
      · refine region_along (fun c hc => ?_) hp
        simp only [lineShape, List.mem_cons, List.not_mem_nil, or_false] at hc
        rcases hc with rfl | rfl <;> rcases hφ with rfl | rfl | rfl | rfl <;> norm_num [along_zero, along_pi, along_half, along_neg_half]
    obtain ⟨-, p, hp, e | e⟩ := hm
    · rw [← e, abs_le]
      have k1 := b1 0 (by simp) p hp
      have k2 := b1 π (by simp) p hp
      rw [along_zero] at k1
      rw [along_pi] at k2
      constructor <;> linarith
    · rw [← e, abs_le]
      have k1 := b1 (π / 2) (by simp) p hp
      have k2 := b1 (-(π / 2)) (by simp) p hp
      rw [along_half] at k1
      rw [along_neg_half] at k2
      constructor <;> linarith
  refine ⟨discTip, lineTip, 1 / 10, x, discTipX, lineTipX, _, lineJoined, lineθ, disc_slanted, line_slanted, discX_make, lineX_make,
    line_apart.1, line_apart.2, ?_, line_indices, line_joined, hm, line_turns, ?_, line_good, ?_⟩
  · rintro ⟨p, hp⟩
    have := congrArg TipState.width hp
    simp [discTip, lineTip] at this
  · have hc : Real.cos (Real.arccos (-3 / 5)) = -3 / 5 := Real.cos_arccos (by norm_num) (by norm_num)
    have hs : Real.sin (Real.arccos (-3 / 5)) = 4 / 5 := by
      rw [Real.sin_arccos]
      rw [show 1 - (-3 / 5 : ℝ) ^ 2 = (4 / 5) ^ 2 by norm_num]
      exact Real.sqrt_sq (by norm_num)
    intro i hi
    right
    have hi' : i < 3 := hi
    obtain rfl | rfl | rfl : i = 0 ∨ i = 1 ∨ i = 2 := by omega
    · simp only [lineθ, if_true, one_ne_zero, if_false, zero_add]
      rw [show 2 * π - Real.arccos (-3 / 5) - Real.arccos (-3 / 5) = 2 * π - 2 * Real.arccos (-3 / 5) by ring, Real.sin_two_pi_sub,
        Real.sin_two_mul, hc, hs]
      norm_num [abs_of_pos]
    · simp only [lineθ, one_ne_zero, if_true, if_false, Nat.reduceAdd, OfNat.ofNat_ne_zero, OfNat.ofNat_ne_one]
      rw [sub_sub_cancel, hs]
      norm_num [abs_of_pos]
    · simp only [lineθ, if_true, if_false, Nat.reduceAdd, OfNat.ofNat_ne_zero, OfNat.ofNat_ne_one]
      norm_num
      rw [show (-(3 / 5) : ℝ) = -3 / 5 by norm_num, hs]
      norm_num [abs_of_pos]
  · rintro ⟨h, -⟩
    have hin : (1 : ℂ) ∈ region discShape := disc_region (c := ⟨0, 1⟩) (by simp [discShape]) (by simp [InDisc])
    have := h hin
    have hr' : ∀ c ∈ enlarged x lineJoined, 0 ≤ c.radius := by
      intro c hc
      obtain ⟨d, hd, rfl⟩ := List.mem_map.1 hc
      exact add_nonneg (hrad d (joined_mem line_joined hd)) hx0
    have T := turns_tour (by simp [enlarged, lineJoined]) hr' (line_turns (x := x))
    unfold polygonRegion at this
    rw [boundary_bd (by simp [enlarged, lineJoined]) line_turns] at this
    have hlen : (enlarged x lineJoined).length = 3 := by simp [enlarged, lineJoined]
    have ho := (line_turns (x := x)).once
    have hk := T.bd_le (i := 1) (φ := lineθ 2) (by rw [hlen]; norm_num) (by
      rw [lapΘ_small ho (by rw [hlen]; norm_num) (by rw [hlen]; norm_num)]
      exact (line_turns (x := x)).mono 1 (by rw [hlen]; norm_num)) (by
      rw [lapΘ_small ho (by rw [hlen]; norm_num) (by rw [hlen]; norm_num)]) this
    simp [lapC, enlarged, lineJoined, lineθ, along] at hk
    linarith

/-! ## A circle and a triangle -/

/-- A tip that is a triangle. -/
noncomputable def triTip : TipState := ⟨⟨1 / 12, 0⟩, 1, 3 / 2, 0, 0, Real.arcsin (3 / 5), 1⟩

noncomputable def triShape : TipShape := ⟨⟨1 / 12, 0⟩, [⟨⟨2 / 15, 3 / 5⟩, 0⟩, ⟨⟨-13 / 15, 3 / 5⟩, 0⟩, ⟨⟨8 / 15, -3 / 5⟩, 0⟩]⟩

noncomputable def triTipX : TipExtrusion := ⟨triTip, triShape⟩

theorem tri_slanted : Slanted triTip := by
  unfold Slanted triTip
  dsimp only
  rw [abs_lt]
  exact ⟨Real.neg_pi_div_two_lt_arcsin.2 (by norm_num), Real.arcsin_lt_pi_div_two.2 (by norm_num)⟩

theorem triX_make : TipExtrusion.make triTip (1 / 10) = some triTipX := by
  have hs : Real.sin (Real.arcsin (3 / 5)) = 3 / 5 := Real.sin_arcsin (by norm_num) (by norm_num)
  have hc : Real.cos (Real.arcsin (3 / 5)) = 4 / 5 := by
    rw [Real.cos_arcsin]
    rw [show 1 - (3 / 5 : ℝ) ^ 2 = (4 / 5) ^ 2 by norm_num]
    exact Real.sqrt_sq (by norm_num)
  have : TipShape.make triTip (1 / 10) = some triShape := by
    unfold TipShape.make makeShapeControlCircles calculateCircleRadius triTip triShape
    rw [tenth]
    norm_num [makeCircle, rotate, hs, hc]
    refine ⟨?_, ?_, ?_⟩ <;> apply Complex.ext <;> norm_num
  unfold TipExtrusion.make
  rw [this]; rfl

theorem tri_apart : ¬region triShape ⊆ region discShape ∧ ¬region discShape ⊆ region triShape := by
  constructor
  · intro h
    refine not_in_disc (t := discShape) rfl (p := ⟨-13 / 15, 3 / 5⟩) (one_lt_norm (by norm_num)) (h ?_)
    exact center_region (c := ⟨⟨-13 / 15, 3 / 5⟩, 0⟩) (by simp [triShape]) (le_refl _)
  · intro h
    have hp : (⟨0, 1⟩ : ℂ) ∈ region triShape := h (disc_region (c := ⟨0, 1⟩) (by simp [discShape]) (by
      unfold InDisc
      rw [Complex.norm_def, Complex.normSq_apply]
      simp))
    have := region_along (t := triShape) (φ := π / 2) (k := 3 / 5) (by
      intro c hc
      simp only [triShape, List.mem_cons, List.not_mem_nil, or_false] at hc
      rcases hc with rfl | rfl | rfl <;> norm_num [along_half]) hp
    rw [along_half] at this
    norm_num at this

/-- There are tangents only from the circle to one of the corners. -/
theorem tri_tangents : (∀ side, tangentProperties ⟨0, 1⟩ ⟨⟨2 / 15, 3 / 5⟩, 0⟩ 1 side = none) ∧
    (∀ side, tangentProperties ⟨0, 1⟩ ⟨⟨8 / 15, -3 / 5⟩, 0⟩ 1 side = none) ∧
    tangentProperties ⟨0, 1⟩ ⟨⟨-13 / 15, 3 / 5⟩, 0⟩ 1 .left = some (Complex.arg ⟨7 / 75, 8 / 25⟩, ‖(⟨7 / 75, 8 / 25⟩ : ℂ)‖) ∧
    tangentProperties ⟨0, 1⟩ ⟨⟨-13 / 15, 3 / 5⟩, 0⟩ 1 .right = some (Complex.arg ⟨-4 / 15, -1 / 5⟩, ‖(⟨-4 / 15, -1 / 5⟩ : ℂ)‖) := by
  have c0 := contains_zero (c := ⟨0, 1⟩) (d := ⟨⟨2 / 15, 3 / 5⟩, 0⟩) rfl rfl rfl
  have c1 := contains_zero (c := ⟨0, 1⟩) (d := ⟨⟨-13 / 15, 3 / 5⟩, 0⟩) rfl rfl rfl
  have c2 := contains_zero (c := ⟨0, 1⟩) (d := ⟨⟨8 / 15, -3 / 5⟩, 0⟩) rfl rfl rfl
  simp only [← signed_one]
  refine ⟨fun side => properties_none.2 (Or.inl (c0.2.1 (by norm_num))), fun side => properties_none.2 (Or.inl (c2.2.1 (by norm_num))),
    properties_eq (n := ⟨-24 / 25, 7 / 25⟩) (c1.1 (by norm_num)) c1.2.2 ?_ ?_ ?_ ?_ ?_,
    properties_eq (n := ⟨-3 / 5, 4 / 5⟩) (c1.1 (by norm_num)) c1.2.2 ?_ ?_ ?_ ?_ ?_⟩
  all_goals first
    | norm_num; done
    | (rw [if_neg (by simp : ¬Side.right = Side.left)]; norm_num)
    | (apply Complex.ext <;> norm_num)
    | (intro e; have := congrArg Complex.re e; norm_num at this)

theorem tri_indices : tangentCircleIndices discShape triShape = some ⟨(0, 1), (0, 0)⟩ := by
  have hpi := Real.pi_pos
  obtain ⟨t0, t2, tl, tr⟩ := tri_tangents
  have a1 := abs_lt.1 ((arg_quadrant (z := ⟨7 / 75, 8 / 25⟩)).1 (by norm_num))
  have a2 := (arg_quadrant (z := ⟨-4 / 15, -1 / 5⟩)).2.2 (by norm_num) (by norm_num)
  have e1 : leftmostTurningIndex ⟨0, 1⟩ 1 triShape (-π) = some 1 := by
    cases hl : leftmostTurningIndex ⟨0, 1⟩ 1 triShape (-π) with
    | none =>
      have := leftmost_none hl _ (by simp [triShape]) _ tl a1.2.le
      dsimp only at this
      linarith
    | some i =>
      obtain ⟨d, t, hd, ht, -⟩ := leftmost_some hl
      match i with
      | 0 =>
        simp only [triShape, List.getElem?_cons_zero, Option.some_inj] at hd
        subst hd
        rw [t0] at ht; cases ht
      | 1 => rfl
      | 2 =>
        simp only [triShape, List.getElem?_cons_succ, List.getElem?_cons_zero, Option.some_inj] at hd
        subst hd
        rw [t2] at ht; cases ht
      | i + 3 => simp [triShape] at hd
  have e2 : rightmostTurningIndex ⟨0, 1⟩ 1 triShape π = none := by
    cases hl : rightmostTurningIndex ⟨0, 1⟩ 1 triShape π with
    | none => rfl
    | some i =>
      exfalso
      obtain ⟨d, t, hd, ht, hn, -⟩ := rightmost_some hl
      have hd' := List.mem_of_getElem? hd
      simp only [triShape, List.mem_cons, List.not_mem_nil, or_false] at hd'
      rcases hd' with rfl | rfl | rfl
      · rw [t0] at ht; cases ht
      · rw [tr] at ht
        obtain rfl := Option.some.inj ht
        unfold Near at hn
        dsimp only at hn
        linarith
      · rw [t2] at ht; cases ht
  unfold tangentCircleIndices
  rw [if_neg (by simp [triShape]), forward_one (x := 1 / 12) (by simp [discShape, triShape]; apply Complex.ext <;> simp) (by norm_num)]
  simp only [discShape]
  rw [e1, e2]
  rfl

/-- A circle and a triangle, neither of which has the other, for which the process ends: circles are to be connected of which one contains
the other, and this is checked in every build. So there is not always an evaluation. -/
theorem C67_total_counterexample : ∃ s1 s2 m e1 e2, Slanted s1 ∧ Slanted s2 ∧ TipExtrusion.make s1 m = some e1 ∧
    TipExtrusion.make s2 m = some e2 ∧ ¬region e2.shape ⊆ region e1.shape ∧ ¬region e1.shape ⊆ region e2.shape ∧
    ∀ τ, evaluateTangentQuality e1 e2 τ = none := by
  refine ⟨discTip, triTip, 1 / 10, discTipX, triTipX, disc_slanted, tri_slanted, discX_make, triX_make, tri_apart.1, tri_apart.2, fun τ => ?_⟩
  have hne1 : discShape.circles ≠ [] := by simp [discShape]
  have hne2 : triShape.circles ≠ [] := by simp [triShape]
  have hrad := radii discX_make triX_make
  obtain ⟨ra, rb, -, -, hm, hx0⟩ := margin_exists hne1 hne2 (fun c hc => hrad c (Or.inl hc)) (fun c hc => hrad c (Or.inr hc))
  generalize joinOffset ra rb = x at hm hx0
  have hj : Joined discShape triShape ⟨(0, 1), (0, 0)⟩ [⟨0, 1⟩, ⟨⟨2 / 15, 3 / 5⟩, 0⟩, ⟨⟨-13 / 15, 3 / 5⟩, 0⟩] := by
    refine ⟨[⟨0, 1⟩], [⟨⟨2 / 15, 3 / 5⟩, 0⟩, ⟨⟨-13 / 15, 3 / 5⟩, 0⟩], ⟨0, by simp [discShape], by simp [discShape], by simp, rfl, ?_⟩,
      ⟨1, by simp [triShape], by simp [triShape], by simp [triShape], rfl, ?_⟩, rfl⟩
    · intro p hp
      obtain rfl : p = 0 := by omega
      rfl
    · intro p hp
      obtain rfl | rfl : p = 0 ∨ p = 1 := by omega
      · rfl
      · rfl
  have hnone : RoundedPolygon.make (enlarged x [⟨0, 1⟩, ⟨⟨2 / 15, 3 / 5⟩, 0⟩, ⟨⟨-13 / 15, 3 / 5⟩, 0⟩]) = none := by
    rw [RoundedPolygon.make_none]
    right
    refine ⟨0, ⟨0, 1 + x⟩, ⟨⟨2 / 15, 3 / 5⟩, 0 + x⟩, ⟨rfl, rfl⟩, Or.inl ?_⟩
    have := (contains_zero (c := ⟨0, 1⟩) (d := ⟨⟨2 / 15, 3 / 5⟩, 0⟩) rfl rfl rfl).2.1 (by norm_num)
    unfold Circle.Contains at *
    dsimp only at *
    linarith
  rcases outcomes (τ := τ) disc_slanted tri_slanted discX_make triX_make tri_apart.1 tri_apart.2 (by
      rintro ⟨-, p, hp⟩
      have := congrArg TipState.width hp
      simp [discTip, triTip] at this) tri_indices hj hm with ⟨-, hu⟩ | ⟨e, -⟩ | ⟨arcs, e, -⟩ | ⟨arcs, e, -⟩
  · exfalso
    refine hu ⟨⟨⟨8 / 15, -3 / 5⟩, 0⟩, Or.inr ⟨1, by simp [triTipX, triShape], by simp [triTipX, triShape], 0, by norm_num, ?_⟩⟩
    simp [triTipX, triShape]
  · exact e
  · rw [hnone] at e; cases e
  · rw [hnone] at e; cases e

/-! ## Two lines that cross -/

noncomputable def flatTip : TipState := ⟨0, 2, 0, 0, 0, 0, 0⟩

noncomputable def uprightTip : TipState := ⟨0, 0, 2, 0, 0, 0, 0⟩

noncomputable def flatX : TipExtrusion := ⟨flatTip, 0, [⟨1, 0⟩, ⟨-1, 0⟩]⟩

noncomputable def uprightX : TipExtrusion := ⟨uprightTip, 0, [⟨Complex.I, 0⟩, ⟨-Complex.I, 0⟩]⟩

theorem flat_slanted : Slanted flatTip := by
  have := Real.pi_pos
  unfold Slanted flatTip; dsimp only; rw [abs_zero]; linarith

theorem upright_slanted : Slanted uprightTip := by
  have := Real.pi_pos
  unfold Slanted uprightTip; dsimp only; rw [abs_zero]; linarith

theorem flat_make : TipExtrusion.make flatTip (1 / 10) = some flatX := by
  have : TipShape.make flatTip (1 / 10) = some flatX.shape := by
    unfold TipShape.make makeShapeControlCircles calculateCircleRadius flatTip flatX
    rw [tenth]
    norm_num [makeCircle, rotate]
    constructor <;> apply Complex.ext <;> norm_num
  unfold TipExtrusion.make
  rw [this]; rfl

theorem upright_make : TipExtrusion.make uprightTip (1 / 10) = some uprightX := by
  have : TipShape.make uprightTip (1 / 10) = some uprightX.shape := by
    unfold TipShape.make makeShapeControlCircles calculateCircleRadius uprightTip uprightX
    rw [tenth]
    norm_num [makeCircle, rotate]
    constructor <;> apply Complex.ext <;> norm_num
  unfold TipExtrusion.make
  rw [this]; rfl

theorem cross_apart : ¬region uprightX.shape ⊆ region flatX.shape ∧ ¬region flatX.shape ⊆ region uprightX.shape := by
  constructor
  · intro h
    have hp : Complex.I ∈ region flatX.shape := h (center_region (c := ⟨Complex.I, 0⟩) (by simp [uprightX]) (le_refl _))
    have := region_along (φ := π / 2) (k := 0) (by
      intro c hc
      simp only [flatX, List.mem_cons, List.not_mem_nil, or_false] at hc
      rcases hc with rfl | rfl <;> simp [along_half]) hp
    rw [along_half] at this
    norm_num at this
  · intro h
    have hp : 1 ∈ region uprightX.shape := h (center_region (c := ⟨1, 0⟩) (by simp [flatX]) (le_refl _))
    have := region_along (φ := 0) (k := 0) (by
      intro c hc
      simp only [uprightX, List.mem_cons, List.not_mem_nil, or_false] at hc
      rcases hc with rfl | rfl <;> simp [along_zero]) hp
    rw [along_zero] at this
    norm_num at this

/-- A tangent between points. -/
theorem properties_point {a b w : ℂ} {side : Side} (hw : w = b - a) (h : w ≠ 0) :
    tangentProperties ⟨a, 0⟩ ⟨b, 0⟩ 1 side = some (Complex.arg w, ‖w‖) := by
  have hne : a ≠ b := fun e => h (by rw [hw, e, sub_self])
  rw [← signed_one]
  have h0 : 0 < ‖w‖ := norm_pos_iff.2 h
  have hsq : w.re * w.re + w.im * w.im = ‖w‖ * ‖w‖ := by
    rw [← Complex.normSq_apply, Complex.normSq_eq_norm_sq]; ring
  cases side with
  | left =>
    refine properties_eq (n := ⟨-w.im / ‖w‖, w.re / ‖w‖⟩) (apart_contains rfl hne) (apart_contains rfl hne.symm) ?_ ?_ ?_ ?_ h
    · field_simp; linarith
    · dsimp only; rw [← hw]; ring
    · rw [if_pos rfl]
      dsimp only
      rw [← hw]
      have : w.re * (w.re / ‖w‖) - w.im * (-w.im / ‖w‖) = ‖w‖ := by field_simp; linarith
      rw [this]; exact h0
    · dsimp only; rw [hw]; simp
  | right =>
    refine properties_eq (n := ⟨w.im / ‖w‖, -w.re / ‖w‖⟩) (apart_contains rfl hne) (apart_contains rfl hne.symm) ?_ ?_ ?_ ?_ h
    · field_simp; linarith
    · dsimp only; rw [← hw]; ring
    · rw [if_neg (by simp : ¬Side.right = Side.left)]
      dsimp only
      rw [← hw]
      have : w.re * (-w.re / ‖w‖) - w.im * (w.im / ‖w‖) = -‖w‖ := by field_simp; linarith
      rw [this]; linarith
    · dsimp only; rw [hw]; simp

theorem cross_indices : tangentCircleIndices flatX.shape uprightX.shape = some ⟨(1, 0), (1, 1)⟩ := by
  have hpi := Real.pi_pos
  have h1 : (⟨1, 1⟩ : ℂ) ≠ 0 := by intro e; have := congrArg Complex.re e; norm_num at this
  have h2 : (⟨1, -1⟩ : ℂ) ≠ 0 := by intro e; have := congrArg Complex.re e; norm_num at this
  have p1 : ∀ side, tangentProperties ⟨-1, 0⟩ ⟨Complex.I, 0⟩ 1 side = some (Complex.arg ⟨1, 1⟩, ‖(⟨1, 1⟩ : ℂ)‖) :=
    fun side => properties_point (by apply Complex.ext <;> simp) h1
  have p2 : ∀ side, tangentProperties ⟨-1, 0⟩ ⟨-Complex.I, 0⟩ 1 side = some (Complex.arg ⟨1, -1⟩, ‖(⟨1, -1⟩ : ℂ)‖) :=
    fun side => properties_point (by apply Complex.ext <;> simp) h2
  have p0 : ∀ side, tangentProperties ⟨-1, 0⟩ ⟨1, 0⟩ 1 side = some (Complex.arg (2 : ℝ), ‖((2 : ℝ) : ℂ)‖) :=
    fun side => properties_point (by apply Complex.ext <;> norm_num) (by norm_num)
  rw [Complex.arg_ofReal_of_nonneg (by norm_num)] at p0
  have q1 := abs_lt.1 ((arg_quadrant (z := ⟨1, 1⟩)).1 (by norm_num))
  have q2 := abs_lt.1 ((arg_quadrant (z := ⟨1, -1⟩)).1 (by norm_num))
  have s1 : 0 ≤ Complex.arg ⟨1, 1⟩ := Complex.arg_nonneg_iff.2 (by norm_num)
  have s2 : Complex.arg ⟨1, -1⟩ < 0 := Complex.arg_neg_iff.2 (by norm_num)
  have e1 : leftmostTurningIndex ⟨-1, 0⟩ 1 uprightX.shape 0 = some 0 := by
    cases hl : leftmostTurningIndex ⟨-1, 0⟩ 1 uprightX.shape 0 with
    | none =>
      have := leftmost_none hl _ (by simp [uprightX]) _ (p1 .left) q1.2.le
      dsimp only at this
      linarith
    | some i =>
      obtain ⟨d, t, hd, ht, -, h0, -⟩ := leftmost_some hl
      match i with
      | 0 => rfl
      | 1 =>
        simp only [uprightX, List.getElem?_cons_succ, List.getElem?_cons_zero, Option.some_inj] at hd
        subst hd
        rw [p2] at ht
        obtain rfl := Option.some.inj ht
        dsimp only at h0
        linarith
      | i + 2 => simp [uprightX] at hd
  have e2 : rightmostTurningIndex ⟨-1, 0⟩ 1 uprightX.shape 0 = some 1 := by
    cases hl : rightmostTurningIndex ⟨-1, 0⟩ 1 uprightX.shape 0 with
    | none =>
      have := rightmost_none hl _ (by simp [uprightX]) _ (p2 .right) q2.1.le
      dsimp only at this
      linarith
    | some i =>
      obtain ⟨d, t, hd, ht, -, h0, hall⟩ := rightmost_some hl
      match i with
      | 0 =>
        simp only [uprightX, List.getElem?_cons_zero, Option.some_inj] at hd
        subst hd
        rw [p1] at ht
        obtain rfl := Option.some.inj ht
        have := (hall _ (by simp [uprightX]) _ (p2 .right) q2.1.le).1
        dsimp only at this
        linarith
      | 1 => rfl
      | i + 2 => simp [uprightX] at hd
  have hr : rearIndices flatX.shape 1 = some (1, 1) := by
    norm_num [rearIndices, rearLoop, flatX, Vec.dotProduct, Vec.determinant]
  have hf : forwardDirection flatX.shape uprightX.shape = 1 := by simp [forwardDirection, flatX, uprightX]
  have hl : leftSide flatX.shape uprightX.shape 1 1 = some (1, 0) := by
    have : leftLoop flatX.shape uprightX.shape 1 1 2 = some (some (1, 0)) := by
      rw [leftLoop]
      simp only [flatX, nextCw, one_ne_zero, if_false, Nat.sub_self, List.getElem?_cons_succ, List.getElem?_cons_zero]
      rw [p0]
      dsimp only
      rw [e1]
    unfold leftSide
    rw [show flatX.shape.circles.length = 2 from rfl, this]
  have hrr : rightSide flatX.shape uprightX.shape 1 1 = some (1, 1) := by
    have : rightLoop flatX.shape uprightX.shape 1 1 2 = some (some (1, 1)) := by
      rw [rightLoop]
      simp only [flatX, nextCcw, List.length_cons, List.length_nil, Nat.reduceAdd, ge_iff_le, le_refl, if_true,
        List.getElem?_cons_succ, List.getElem?_cons_zero]
      rw [p0]
      dsimp only
      rw [e2]
    unfold rightSide
    rw [show flatX.shape.circles.length = 2 from rfl, this]
  unfold tangentCircleIndices
  rw [if_neg (by simp [flatX]), hf]
  dsimp only
  split
  · rename_i c hc
    simp [flatX] at hc
  · rw [hr]
    dsimp only
    rw [hl, hrr]

noncomputable def crossJoined : List Circle := [⟨-1, 0⟩, ⟨-Complex.I, 0⟩, ⟨Complex.I, 0⟩]

theorem cross_joined : Joined flatX.shape uprightX.shape ⟨(1, 0), (1, 1)⟩ crossJoined := by
  refine ⟨[⟨-1, 0⟩], [⟨-Complex.I, 0⟩, ⟨Complex.I, 0⟩], ⟨0, by simp [flatX], by simp [flatX], by simp [flatX], rfl, ?_⟩,
    ⟨1, by simp [uprightX], by simp [uprightX], by simp [uprightX], rfl, ?_⟩, rfl⟩
  · intro p hp
    obtain rfl : p = 0 := by omega
    rfl
  · intro p hp
    obtain rfl | rfl : p = 0 ∨ p = 1 := by omega
    · rfl
    · rfl

noncomputable def crossθ (i : ℕ) : ℝ := if i = 0 then π - π / 4 else if i = 1 then π / 4 + π else if i = 2 then 2 * π else π - π / 4 + 2 * π

theorem cross_turns {x : ℝ} : TurnsOnce (enlarged x crossJoined) crossθ := by
  have hpi := Real.pi_pos
  have h2 : 0 < √2 := by positivity
  have e0 : crossθ 0 = π - π / 4 := by simp [crossθ]
  have e1 : crossθ 1 = π / 4 + π := by simp [crossθ]
  have e2 : crossθ 2 = 2 * π := by simp [crossθ]
  have e3 : crossθ 3 = π - π / 4 + 2 * π := by simp [crossθ]
  have hlen : (enlarged x crossJoined).length = 3 := by simp [enlarged, crossJoined]
  refine ⟨?_, ?_, ?_⟩
  · intro i hi
    rw [hlen] at hi
    obtain rfl | rfl | rfl : i = 0 ∨ i = 1 ∨ i = 2 := by omega
    · rw [e0, e1]; linarith
    · rw [e1, e2]; linarith
    · rw [e2, e3]; linarith
  · rw [hlen, e0, e3]
  · rintro i c d ⟨g1, g2⟩
    rw [hlen] at g2
    have hi : i < 3 := by rw [← hlen]; exact (List.getElem?_eq_some_iff.1 g1).1
    rw [rightTangent_iff]
    obtain rfl | rfl | rfl : i = 0 ∨ i = 1 ∨ i = 2 := by omega
    · simp [enlarged, crossJoined] at g1 g2
      subst g1 g2
      rw [e1]
      unfold along across
      rw [Real.cos_add_pi, Real.sin_add_pi, Real.cos_pi_div_four, Real.sin_pi_div_four]
      simp
    · simp [enlarged, crossJoined] at g1 g2
      subst g1 g2
      rw [e2]
      unfold along across
      rw [Real.cos_two_pi, Real.sin_two_pi]
      norm_num
    · simp [enlarged, crossJoined] at g1 g2
      subst g1 g2
      rw [e3]
      unfold along across
      rw [Real.cos_add_two_pi, Real.sin_add_two_pi, Real.cos_pi_sub, Real.sin_pi_sub, Real.cos_pi_div_four, Real.sin_pi_div_four]
      simp

/-- The hypotheses of `C67_good_partial`, `C67_unused` and `C67_bad` are met by two lines that cross, of which the tangents are bad: the
joined shape does not have the front end of the first line. -/
theorem cross_bad : ∃ x, (∀ c, c ∈ flatX.shape.circles ∨ c ∈ uprightX.shape.circles → c.radius = 0) ∧
    ¬region uprightX.shape ⊆ region flatX.shape ∧ ¬region flatX.shape ⊆ region uprightX.shape ∧ ¬Moved flatTip uprightTip ∧
    tangentCircleIndices flatX.shape uprightX.shape = some ⟨(1, 0), (1, 1)⟩ ∧
    Joined flatX.shape uprightX.shape ⟨(1, 0), (1, 1)⟩ crossJoined ∧ Margin flatX.shape uprightX.shape x ∧
    TurnsOnce (enlarged x crossJoined) crossθ ∧
    (∀ i < crossJoined.length, crossθ (i + 1) = crossθ i ∨ 5 / 1000000 ≤ |Real.sin (crossθ (i + 1) - crossθ i)|) ∧
    evaluateTangentQuality flatX uprightX 0 = some .bad := by
  have hne1 : flatX.shape.circles ≠ [] := by simp [flatX]
  have hne2 : uprightX.shape.circles ≠ [] := by simp [uprightX]
  have hrad := radii flat_make upright_make
  have hr : ∀ c, c ∈ flatX.shape.circles ∨ c ∈ uprightX.shape.circles → c.radius = 0 := by
    intro c hc
    simp only [flatX, uprightX, List.mem_cons, List.not_mem_nil, or_false] at hc
    rcases hc with (rfl | rfl) | rfl | rfl <;> rfl
  have hmv : ¬Moved flatTip uprightTip := by
    rintro ⟨p, hp⟩
    have := congrArg TipState.width hp
    simp [flatTip, uprightTip] at this
  obtain ⟨ra, rb, -, -, hm, hx0⟩ := margin_exists hne1 hne2 (fun c hc => hrad c (Or.inl hc)) (fun c hc => hrad c (Or.inr hc))
  generalize joinOffset ra rb = x at hm hx0
  have hx : 1000000 * x ≤ 1 := by
    have b1 : ∀ φ, (φ = 0 ∨ φ = π ∨ φ = π / 2 ∨ φ = -(π / 2)) → ∀ p ∈ region flatX.shape ∪ region uprightX.shape, along φ p ≤ 1 := by
      intro φ hφ p hp
      rcases hp with hp | hp
      · refine region_along (fun c hc => ?_) hp
        simp only [flatX, List.mem_cons, List.not_mem_nil, or_false] at hc
        rcases hc with rfl | rfl <;> rcases hφ with rfl | rfl | rfl | rfl <;> norm_num [along_zero, along_pi, along_half, along_neg_half]
      · refine region_along (fun c hc => ?_) hp
        simp only [uprightX, List.mem_cons, List.not_mem_nil, or_false] at hc
        rcases hc with rfl | rfl <;> rcases hφ with rfl | rfl | rfl | rfl <;> norm_num [along_zero, along_pi, along_half, along_neg_half]
    obtain ⟨-, p, hp, e | e⟩ := hm
    · rw [← e, abs_le]
      have k1 := b1 0 (by simp) p hp
      have k2 := b1 π (by simp) p hp
      rw [along_zero] at k1
      rw [along_pi] at k2
      constructor <;> linarith
    · rw [← e, abs_le]
      have k1 := b1 (π / 2) (by simp) p hp
      have k2 := b1 (-(π / 2)) (by simp) p hp
      rw [along_half] at k1
      rw [along_neg_half] at k2
      constructor <;> linarith
  have harc : ∀ i < crossJoined.length, crossθ (i + 1) = crossθ i ∨ 5 / 1000000 ≤ |Real.sin (crossθ (i + 1) - crossθ i)| := by
    have h2 : 1 < √2 := by rw [Real.lt_sqrt (by norm_num)]; norm_num
    have hq : |Real.sin (π - π / 4)| = √2 / 2 := by rw [Real.sin_pi_sub, Real.sin_pi_div_four, abs_of_pos (by positivity)]
    intro i hi
    right
    have hi' : i < 3 := hi
    obtain rfl | rfl | rfl : i = 0 ∨ i = 1 ∨ i = 2 := by omega
    · rw [show crossθ (0 + 1) - crossθ 0 = π / 2 by simp [crossθ]; ring, Real.sin_pi_div_two]
      norm_num
    · rw [show crossθ (1 + 1) - crossθ 1 = π - π / 4 by simp [crossθ]; ring, hq]
      linarith
    · rw [show crossθ (2 + 1) - crossθ 2 = π - π / 4 by simp [crossθ], hq]
      linarith
  refine ⟨x, hr, cross_apart.1, cross_apart.2, hmv, cross_indices, cross_joined, hm, cross_turns, harc, ?_⟩
  have hiff := C67_good_partial flatTip uprightTip (1 / 10) (1 / 10) 0 x 0 flatX uprightX flat_slanted upright_slanted flat_make upright_make hr
    cross_apart.1 cross_apart.2 (fun h => hmv h.2) _ crossJoined crossθ cross_indices cross_joined hm cross_turns harc
  have hncov : ¬Covers (enlarged x crossJoined) crossθ flatX.shape uprightX.shape := by
    rintro ⟨h, -⟩
    have hin : (1 : ℂ) ∈ region flatX.shape := center_region (c := ⟨1, 0⟩) (by simp [flatX]) (le_refl _)
    have := h hin
    have hr' : ∀ c ∈ enlarged x crossJoined, 0 ≤ c.radius := by
      intro c hc
      obtain ⟨d, hd, rfl⟩ := List.mem_map.1 hc
      exact add_nonneg (hrad d (joined_mem cross_joined hd)) hx0
    have T := turns_tour (by simp [enlarged, crossJoined]) hr' (cross_turns (x := x))
    unfold polygonRegion at this
    rw [boundary_bd (by simp [enlarged, crossJoined]) cross_turns] at this
    have hlen : (enlarged x crossJoined).length = 3 := by simp [enlarged, crossJoined]
    have ho := (cross_turns (x := x)).once
    have hk := T.bd_le (i := 1) (φ := crossθ 2) (by rw [hlen]; norm_num) (by
      rw [lapΘ_small ho (by rw [hlen]; norm_num) (by rw [hlen]; norm_num)]
      exact (cross_turns (x := x)).mono 1 (by rw [hlen]; norm_num)) (by
      rw [lapΘ_small ho (by rw [hlen]; norm_num) (by rw [hlen]; norm_num)]) this
    simp [lapC, enlarged, crossJoined, crossθ, along] at hk
    linarith
  rcases outcomes (τ := 0) flat_slanted upright_slanted flat_make upright_make cross_apart.1 cross_apart.2 (fun h => hmv h.2)
    cross_indices cross_joined hm with ⟨e, -⟩ | ⟨-, hn⟩ | ⟨arcs, -, e, -⟩ | ⟨arcs, -, e, -⟩
  · exact absurd (hiff.1 e) hncov
  · exfalso
    rw [RoundedPolygon.make_none] at hn
    rcases hn with hn | ⟨i, c, d, hf, hcd⟩
    · simp [enlarged, crossJoined] at hn
    · have ht := ((rightTangent_iff _ _ _).1 (cross_turns.tangent i c d hf))
      have hmem : ∀ c ∈ enlarged x crossJoined, c.radius = x := by
        intro c hc
        obtain ⟨d, hd, rfl⟩ := List.mem_map.1 hc
        rw [hr d (joined_mem cross_joined hd), zero_add]
      have hne : c.center ≠ d.center := by
        intro e
        have := ht.2
        rw [e, sub_self] at this
        simp [across] at this
      have r1 := hmem c (List.mem_of_getElem? hf.1)
      have r2 := hmem d (List.mem_of_getElem? hf.2)
      rcases hcd with g | g
      · exact apart_contains (r1.trans r2.symm) hne g
      · exact apart_contains (r2.trans r1.symm) hne.symm g
  · exact absurd (hiff.1 e) hncov
  · exact e

end Verif.RealGeom
