import Verif.Lemmas.ExtrusionPoints

/-!
# Lemmas about the extrusion points of the shapes of tips
-/

set_option autoImplicit false

namespace Verif.RealGeom

open Spec Real TipShape

/-! ## The tour of a shape -/

/-- The way into a circle. -/
noncomputable def edge (cs : List Circle) (j : ℕ) : ℂ := (lapC cs (j + cs.length)).center - (lapC cs (j + cs.length - 1)).center

theorem lapC_period (cs : List Circle) (j : ℕ) : lapC cs (j + cs.length) = lapC cs j := by
  unfold lapC; rw [Nat.add_mod_right]

theorem edge_succ {cs : List Circle} (j : ℕ) : edge cs (j + 1) = (lapC cs (j + 1)).center - (lapC cs j).center := by
  unfold edge
  rw [lapC_period, show j + 1 + cs.length - 1 = j + cs.length by omega, lapC_period]

theorem edge_period {cs : List Circle} (j : ℕ) (h : 0 < cs.length) : edge cs (j + cs.length) = edge cs j := by
  rw [show j + cs.length = (j + cs.length - 1) + 1 by omega, edge_succ, show j + cs.length - 1 + 1 = j + cs.length by omega]
  rfl

theorem Ordered.turns {s : TipShape} {r : ℝ} (h : Ordered s r) (j : ℕ) : edge s.circles j ≠ 0 ∧
    (0 < Vec.determinant (edge s.circles j) (edge s.circles (j + 1)) ∨
      (s.circles.length = 2 ∧ edge s.circles (j + 1) = -edge s.circles j)) := by
  have hn := h.two
  have key : ∀ j, edge s.circles (j + 1) ≠ 0 ∧ (0 < Vec.determinant (edge s.circles (j + 1)) (edge s.circles (j + 2)) ∨
      (s.circles.length = 2 ∧ edge s.circles (j + 2) = -edge s.circles (j + 1))) := by
    intro j
    obtain ⟨f1, f2⟩ := lapC_follows (cs := s.circles) (by omega) j
    obtain ⟨g1, g2⟩ := lapC_follows (cs := s.circles) (by omega) (j + 1)
    rw [edge_succ, edge_succ]
    have e : (j % s.circles.length + 1) % s.circles.length = (j + 1) % s.circles.length := Nat.mod_add_mod _ _ _
    refine ⟨fun e0 => ?_, ?_⟩
    · have := h.inj _ _ _ _ f2 f1 (sub_eq_zero.1 e0)
      have hlt := Nat.mod_lt j (by omega : 0 < s.circles.length)
      rcases Nat.lt_or_ge (j % s.circles.length + 1) s.circles.length with q | q
      · rw [Nat.mod_eq_of_lt q] at this; omega
      · rw [show j % s.circles.length + 1 = s.circles.length by omega, Nat.mod_self] at this; omega
    · have f2' := f2
      rw [e] at f2'
      rcases h.corner _ _ _ _ f1 f2 (by rw [e]; exact g2) with q | ⟨q1, q2⟩
      · exact Or.inl q
      · right
        refine ⟨?_, by rw [q1]; ring⟩
        rw [Nat.mod_add_mod] at g2
        have := h.inj _ _ _ _ g2 f1 (by rw [q1])
        have h4 := h.four
        obtain q | q | q : s.circles.length = 2 ∨ s.circles.length = 3 ∨ s.circles.length = 4 := by omega
        · exact q
        · rw [q] at this; omega
        · rw [q] at this; omega
  cases j with
  | succ j => exact key j
  | zero =>
    have := key (s.circles.length - 1)
    rw [show s.circles.length - 1 + 1 = 0 + s.circles.length by omega, show s.circles.length - 1 + 2 = 0 + 1 + s.circles.length by omega,
      edge_period _ (by omega), edge_period _ (by omega)] at this
    exact this

theorem beta_same (e : ℂ) : SameAngle (beta e) (Vec.direction e - π / 2) := (normalized_spec _).2

/-- How much the way turns at a circle. -/
noncomputable def bend (cs : List Circle) (j : ℕ) : ℝ := Complex.arg (edge cs (j + 1) / edge cs j)

theorem arg_div_same {a b : ℂ} (ha : a ≠ 0) (hb : b ≠ 0) : SameAngle (Vec.direction b) (Vec.direction a + Complex.arg (b / a)) := by
  have h2 : ((Complex.arg (b / a) : ℝ) : Real.Angle) = ((Vec.direction b - Vec.direction a : ℝ) : Real.Angle) := by
    rw [Real.Angle.coe_sub]
    exact Complex.arg_div_coe_angle hb ha
  obtain ⟨l, hl⟩ := Real.Angle.angle_eq_iff_two_pi_dvd_sub.1 h2
  exact ⟨-l, by push_cast; linarith⟩

theorem Ordered.bend_spec {s : TipShape} {r : ℝ} (h : Ordered s r) (j : ℕ) : 0 < bend s.circles j ∧ bend s.circles j ≤ π ∧
    (s.circles.length ≠ 2 → bend s.circles j < π) ∧
    SameAngle (beta (edge s.circles (j + 1))) (beta (edge s.circles j) + bend s.circles j) := by
  obtain ⟨h0, h1⟩ := h.turns j
  have h0' := (h.turns (j + 1)).1
  generalize hE : edge s.circles j = a at *
  generalize hF : edge s.circles (j + 1) = b at *
  have hb : bend s.circles j = Complex.arg (b / a) := by unfold bend; rw [hE, hF]
  rw [hb]
  have hs := arg_div_same h0 h0'
  have hsame : SameAngle (beta b) (beta a + Complex.arg (b / a)) := by
    obtain ⟨k1, e1⟩ := beta_same a
    obtain ⟨k2, e2⟩ := beta_same b
    obtain ⟨k3, e3⟩ := hs
    exact ⟨k2 + k3 - k1, by push_cast; linarith⟩
  have hdet : Vec.determinant a b = ‖a‖ * ‖b‖ * Real.sin (Complex.arg (b / a)) := by
    have e : SameAngle (Vec.direction b - Vec.direction a) (Complex.arg (b / a)) := by
      obtain ⟨k3, e3⟩ := hs
      exact ⟨k3, by linarith⟩
    rw [det_eq, SameAngle.sin e]
  have hle := Complex.arg_le_pi (b / a)
  have hgt := Complex.neg_pi_lt_arg (b / a)
  rcases h1 with g | ⟨g1, g2⟩
  · rw [hdet] at g
    have hpos : 0 < ‖a‖ * ‖b‖ := mul_pos (norm_pos_iff.2 h0) (norm_pos_iff.2 h0')
    have hsin := (mul_pos_iff_of_pos_left hpos).1 g
    have p1 : 0 < Complex.arg (b / a) := by
      by_contra q
      have := Real.sin_nonpos_of_nonpos_of_neg_pi_le (not_lt.1 q) hgt.le
      linarith
    refine ⟨p1, hle, fun _ => lt_of_le_of_ne hle fun e => ?_, hsame⟩
    rw [e, Real.sin_pi] at hsin
    exact lt_irrefl _ hsin
  · have : b / a = -1 := by rw [g2, neg_div, div_self h0]
    rw [this, Complex.arg_neg_one] at hsame ⊢
    exact ⟨Real.pi_pos, le_refl _, fun q => absurd g1 q, hsame⟩

/-- The directions of the tangents, around and around. -/
noncomputable def heading (cs : List Circle) : ℕ → ℝ
  | 0 => beta (edge cs 0)
  | j + 1 => heading cs j + bend cs j

theorem Ordered.heading_same {s : TipShape} {r : ℝ} (h : Ordered s r) (j : ℕ) : SameAngle (heading s.circles j) (beta (edge s.circles j)) := by
  induction j with
  | zero => exact SameAngle.refl _
  | succ j ih =>
    obtain ⟨k, hk⟩ := ih
    obtain ⟨l, hl⟩ := (h.bend_spec j).2.2.2
    refine ⟨k - l, ?_⟩
    rw [heading, hk, hl]
    push_cast
    ring

theorem bend_period {cs : List Circle} (j : ℕ) (h : 0 < cs.length) : bend cs (j + cs.length) = bend cs j := by
  unfold bend
  rw [show j + cs.length + 1 = j + 1 + cs.length by omega, edge_period _ h, edge_period _ h]

theorem Ordered.heading_period {s : TipShape} {r : ℝ} (h : Ordered s r) (j : ℕ) :
    heading s.circles (j + s.circles.length) = heading s.circles j + 2 * π := by
  have hn := h.two
  have h4 := h.four
  have hpi := Real.pi_pos
  induction j with
  | zero =>
    have hs : SameAngle (heading s.circles (0 + s.circles.length)) (heading s.circles 0) := by
      obtain ⟨k, hk⟩ := h.heading_same (0 + s.circles.length)
      rw [edge_period _ (by omega)] at hk
      exact ⟨k, hk⟩
    obtain ⟨k, hk⟩ := hs
    have b0 := h.bend_spec 0
    have b1 := h.bend_spec 1
    have b2 := h.bend_spec 2
    have b3 := h.bend_spec 3
    have lo : heading s.circles 0 < heading s.circles (0 + s.circles.length) ∧
        heading s.circles (0 + s.circles.length) < heading s.circles 0 + 4 * π := by
      obtain q | q | q : s.circles.length = 2 ∨ s.circles.length = 3 ∨ s.circles.length = 4 := by omega
      · rw [q]; simp only [heading]; constructor <;> linarith [b0.1, b0.2.1, b1.1, b1.2.1]
      · rw [q]; simp only [heading]; constructor <;> linarith [b0.1, b0.2.1, b1.1, b1.2.1, b2.1, b2.2.1]
      · have := b0.2.2.1 (by omega)
        rw [q]; simp only [heading]; constructor <;> linarith [b0.1, b1.1, b1.2.1, b2.1, b2.2.1, b3.1, b3.2.1]
    have k1 : (0 : ℝ) < k := by
      by_contra g
      have := mul_nonpos_of_nonpos_of_nonneg (not_lt.1 g) (by linarith : 0 ≤ 2 * π)
      linarith
    have k2 : (k : ℝ) < 2 := by
      by_contra g
      have := mul_le_mul_of_nonneg_right (not_lt.1 g) (by linarith : 0 ≤ 2 * π)
      linarith
    have k1' : 0 < k := by exact_mod_cast k1
    have k2' : k < 2 := by exact_mod_cast k2
    obtain rfl : k = 1 := by omega
    rw [hk]; push_cast; ring
  | succ j ih =>
    rw [show j + 1 + s.circles.length = j + s.circles.length + 1 by omega, heading, heading, ih, bend_period _ (by omega)]
    ring

/-- Equal circles are connected along the way between their centers. -/
theorem equal_tangent {c d : Circle} (hr : c.radius = d.radius) (hne : d.center - c.center ≠ 0) {a : ℝ}
    (ha : SameAngle a (beta (d.center - c.center))) : RightTangent c d a := by
  rw [SameAngle.rightTangent (SameAngle.trans ha (beta_same _)), rightTangent_iff, along_eq, RoundedPolygon.across_eq]
  generalize d.center - c.center = v at *
  rw [show Vec.direction v - π / 2 - Vec.direction v = -(π / 2) by ring, show Vec.direction v - (Vec.direction v - π / 2) = π / 2 by ring,
    Real.cos_neg, Real.cos_pi_div_two, Real.sin_pi_div_two, hr]
  exact ⟨by ring, by rw [mul_one]; exact norm_pos_iff.2 hne⟩

theorem Ordered.tour {s : TipShape} {r : ℝ} (h : Ordered s r) : Tour s.circles.length (lapC s.circles) (heading s.circles) := by
  have hn := h.two
  have hr : ∀ j, (lapC s.circles j).radius = r := fun j => h.sound.radius _ (List.mem_of_getElem? (lapC_follows (by omega) j).1)
  refine ⟨by omega, lapC_period _, h.heading_period, fun j => ?_, fun j => ?_, fun j => ?_⟩
  · rw [heading]; linarith [(h.bend_spec j).1]
  · have := h.heading_same (j + 1)
    rw [edge_succ] at this
    refine equal_tangent (by rw [hr, hr]) ?_ this
    rw [← edge_succ]
    exact (h.turns (j + 1)).1
  · rw [hr]; exact h.sound.pos

/-- In a tour of equal circles, the center of an arc is the farthest in its directions. -/
theorem Tour.far {n : ℕ} {C : ℕ → Circle} {Θ : ℕ → ℝ} (T : Tour n C Θ) {r : ℝ} (hr : ∀ j, (C j).radius = r) {i j : ℕ} {φ : ℝ}
    (h1 : Θ i ≤ φ) (h2 : φ ≤ Θ (i + 1)) : along φ (C j).center ≤ along φ (C i).center := by
  have T' : Tour n (fun j => ⟨(C j).center, 0⟩) Θ := by
    refine ⟨T.pos, fun j => by rw [T.perC], T.per, T.mono, fun j => ?_, fun j => le_refl _⟩
    have := T.tan j
    rw [rightTangent_iff] at this ⊢
    rw [hr, hr] at this
    dsimp only
    exact ⟨by linarith [this.1], this.2⟩
  obtain ⟨k, l, k1, k2, k3, k4, k5⟩ := T.laps i
  obtain ⟨k', l', k1', k2', -, k4', k5'⟩ := T.laps j
  have := T'.support (i := k) (j := k') (φ := φ - l * (2 * π)) (ψ := Θ k') k1 k1' (by linarith) (by linarith) (le_refl _) (T.mono _)
  have e : SameAngle φ (φ - l * (2 * π)) := ⟨l, by push_cast; ring⟩
  rw [k2, k2', SameAngle.along e, SameAngle.along e]
  have g : (⟨(C k').center, 0⟩ : Circle).getPoint (Θ k') = (C k').center := by rw [getPoint_eq]; simp
  rw [g] at this
  dsimp only at this
  linarith

theorem Ordered.radius {s : TipShape} {r : ℝ} (h : Ordered s r) (j : ℕ) : (lapC s.circles j).radius = r :=
  h.sound.radius _ (List.mem_of_getElem? (lapC_follows (by have := h.two; omega) j).1)

theorem lapC_mem {cs : List Circle} (h : 0 < cs.length) (j : ℕ) : lapC cs j ∈ cs := List.mem_of_getElem? (lapC_follows h j).1

theorem exists_lapC {cs : List Circle} {c : Circle} (h : c ∈ cs) : ∃ j < cs.length, lapC cs j = c := by
  obtain ⟨j, hj⟩ := List.mem_iff_getElem?.1 h
  have hl := (List.getElem?_eq_some_iff.1 hj).1
  exact ⟨j, hl, by unfold lapC; rw [Nat.mod_eq_of_lt hl, hj]; rfl⟩

theorem Ordered.sharp {s : TipShape} {r : ℝ} (h : Ordered s r) (hs : Sharp s.circles) (j : ℕ) (hj : (lapC s.circles j).radius ≠ 0) :
    collinear ≤ heading s.circles (j + 1) - heading s.circles j := by
  have key : ∀ j, (lapC s.circles (j + 1)).radius ≠ 0 → collinear ≤ bend s.circles (j + 1) := by
    intro j hj
    have hn := h.two
    obtain ⟨f1, f2⟩ := lapC_follows (cs := s.circles) (by omega) j
    have g := lapC_follows (cs := s.circles) (by omega) (j + 1)
    have := hs _ _ _ _ ⟨f1, f2⟩ (by rw [Nat.mod_add_mod]; exact g)
      (fun e => (h.turns (j + 1)).1 (by rw [edge_succ, e, sub_self])) (lt_of_le_of_ne (by rw [h.radius]; exact h.sound.pos) (Ne.symm hj))
    rw [← edge_succ, ← edge_succ] at this
    have hb := (h.bend_spec (j + 1)).1
    unfold bend at hb ⊢
    rwa [abs_of_pos hb] at this
  rw [heading, add_sub_cancel_left]
  cases j with
  | succ j => exact key j hj
  | zero =>
    have hn := h.two
    have := key (s.circles.length - 1)
    rw [show s.circles.length - 1 + 1 = 0 + s.circles.length by omega, lapC_period, bend_period _ (by omega)] at this
    exact this hj

theorem collinear_lt_pi : collinear < π := by
  have := Real.pi_gt_three
  unfold collinear
  linarith

/-- The hull of discs is not further in a direction than the furthest. -/
theorem hull_along {cs : List Circle} {φ k : ℝ} (h : ∀ c ∈ cs, along φ c.center + c.radius ≤ k) :
    ∀ z ∈ hull cs, along φ z ≤ k := by
  intro z hz
  have hsub : hull cs ⊆ {p | along φ p ≤ k} := by
    refine convexHull_min ?_ (convex_along_le φ k)
    rintro p ⟨c, hc, hp⟩
    exact (along_disc φ hp).trans (h c hc)
  exact hsub hz

/-- The points of a whole shape. -/
theorem Ordered.whole {s : TipShape} {r h : ℝ} (hs : Ordered s r) (hh : 0 < h) (hbig : NotHuge h s.circles) (hsh : Sharp s.circles)
    (v : ℂ) (pts : ExtrusionPoints) : ∃ l r, s.appendWholeShape h v pts = some ⟨pts.left ++ l, pts.right ++ r⟩ ∧
      Outlines (region s) h (l ++ r.reverse) ∧ (∀ p ∈ l, NotRight v s.center p) ∧ ∀ p ∈ r, NotLeft v s.center p := by
  have hn := hs.two
  refine whole_points hs.two hs.tour hh hbig (fun j hj => ⟨hs.sharp hsh j hj, ?_⟩) ?_ ?_ v pts
  · have := (hs.bend_spec j).2.1
    rw [heading]
    linarith [collinear_lt_pi]
  · intro i φ _ _
    exact disc_region (lapC_mem (by omega) i) (getPoint_in (by rw [hs.radius]; exact hs.sound.pos) _)
  · intro i φ h1 h2
    refine hull_along fun c hc => ?_
    obtain ⟨j, -, rfl⟩ := exists_lapC hc
    have := hs.tour.far hs.radius (j := j) h1 h2
    rw [hs.radius, hs.radius]
    linarith

/-! ## Caps -/

theorem walk_eq (s : TipShape) (hn : 0 < s.circles.length) (i m fuel : ℕ) (hm : m < s.circles.length) (hf : m < fuel) :
    s.walk s.nextCw (i % s.circles.length) ((i + m) % s.circles.length) fuel = some (cwList (lapC s.circles) i (m + 1)) := by
  induction m generalizing fuel with
  | zero =>
    obtain ⟨f, rfl⟩ : ∃ f, fuel = f + 1 := ⟨fuel - 1, by omega⟩
    rw [TipShape.walk, (lapC_follows hn (i + 0)).1]
    simp only [Nat.add_zero, if_true]
    rfl
  | succ m ih =>
    obtain ⟨f, rfl⟩ : ∃ f, fuel = f + 1 := ⟨fuel - 1, by omega⟩
    rw [TipShape.walk, (lapC_follows hn (i + (m + 1))).1]
    simp only []
    rw [if_neg, ← Nat.add_assoc, nextCw_mod hn, ih f (by omega) (by omega)]
    · rfl
    · intro e
      have e' : i + (m + 1) ≡ i + 0 [MOD s.circles.length] := e
      have := Nat.ModEq.add_left_cancel' i e'
      unfold Nat.ModEq at this
      rw [Nat.zero_mod, Nat.mod_eq_of_lt hm] at this
      omega

theorem cwList_split (C : ℕ → Circle) (s m : ℕ) : cwList C s (m + 1) = cwList C (s + 1) m ++ [C s] := by
  induction m with
  | zero => rfl
  | succ m ih => rw [cwList, ih, cwList, show s + (m + 1) = s + 1 + m by omega]; rfl

theorem cwList_congr {C D : ℕ → Circle} {s t m : ℕ} (h : ∀ j < m, C (s + j) = D (t + j)) : cwList C s m = cwList D t m := by
  induction m with
  | zero => rfl
  | succ m ih => rw [cwList, cwList, h m (by omega), ih fun j hj => h j (by omega)]

theorem split_flags {right : ℂ → Bool} {l : List ℂ} (h : l.Pairwise fun x y => right y = true → right x = true) :
    ∃ R L : List ℂ, l = R ++ L ∧ (∀ p ∈ R, right p = true) ∧ ∀ p ∈ L, right p = false := by
  induction l with
  | nil => exact ⟨[], [], rfl, by simp, by simp⟩
  | cons a l ih =>
    obtain ⟨h1, h2⟩ := List.pairwise_cons.1 h
    by_cases ha : right a = true
    · obtain ⟨R, L, rfl, h3, h4⟩ := ih h2
      exact ⟨a :: R, L, rfl, by simpa [ha] using h3, h4⟩
    · refine ⟨[], a :: l, rfl, by simp, ?_⟩
      intro p hp
      rcases List.mem_cons.1 hp with rfl | hp
      · simpa using ha
      · by_contra g
        exact ha (h1 p hp (by simpa using g))

theorem move_sorted (v center : ℂ) (l R L r : List ℂ) (hR : ∀ p ∈ R, isRightPoint v center p = true)
    (hL : ∀ p ∈ L, isRightPoint v center p = false) :
    moveNewRightPointsOutOfLeft v center (R ++ L).length ⟨l ++ (R ++ L), r⟩ = some ⟨l ++ L, r ++ R.reverse⟩ := by
  have hcount : rightLoopCount (isRightPoint v center) 0 none 0 (R ++ L) =
      (R.length, if L ≠ [] ∧ R ≠ [] then some (R.length - 1) else none) := by
    rw [rightLoopCount_right _ R L _ _ _ hR, Nat.zero_add]
    cases L with
    | nil => rw [rightLoopCount]; simp
    | cons a L =>
      have hL' : (L.filter (isRightPoint v center)).length = 0 := by
        rw [List.length_eq_zero_iff, List.filter_eq_nil_iff]
        intro p hp
        rw [hL p (List.mem_cons_of_mem _ hp)]
        simp
      by_cases hR0 : R = []
      · subst hR0
        have := rightLoopCount_left (isRightPoint v center) (a :: L) [] 0 hL
        rw [List.append_nil] at this
        simp only [List.length_nil]
        rw [this, rightLoopCount]
        simp
      · have hpos := List.length_pos_iff.2 hR0
        rw [rightLoopCount, if_neg (by rw [hL a List.mem_cons_self]; simp), if_pos ⟨rfl, hpos⟩, rightLoopCount_some, hL', if_pos ⟨by simp, hR0⟩,
          Nat.add_zero]
  unfold moveNewRightPointsOutOfLeft
  dsimp only
  rw [List.length_append (as := l), Nat.add_sub_cancel, List.drop_left, List.take_left, hcount]
  by_cases hR0 : R = []
  · subst hR0
    simp
  have hpos := List.length_pos_iff.2 hR0
  have hst : (if (if L ≠ [] ∧ R ≠ [] then some (R.length - 1) else none) = none ∧ R.length > 0 then some ((R ++ L).length - 1)
      else if L ≠ [] ∧ R ≠ [] then some (R.length - 1) else none) = some (R.length - 1) := by
    by_cases hL0 : L = []
    · subst hL0
      rw [if_pos ⟨by simp, hpos⟩, List.append_nil]
    · simp [hL0, hR0]
  rw [hst]
  simp only []
  rw [moveLoop_spec _ _ _ (by rw [List.length_append]; omega)]
  simp only []
  rw [show R.length - 1 + 1 = R.length by omega, List.drop_left, List.take_left, List.reverse_append, ← List.append_assoc, List.length_append,
    Nat.add_sub_cancel_left, moveBackLoop_spec]

theorem endcap_sorted (right : ℂ → Bool) (l L R r : List ℂ) (hR : ∀ p ∈ R, right p = true) (hL : ∀ p ∈ L, right p = false) (n : ℕ)
    (hn : R.length ≤ n) : endcapLoop right l.length ⟨l ++ (L ++ R), r⟩ n = ⟨l ++ L, r ++ R.reverse⟩ := by
  induction R using List.reverseRecOn generalizing n r with
  | nil =>
    rw [List.append_nil, List.reverse_nil, List.append_nil]
    cases n with
    | zero => rfl
    | succ n =>
      rw [endcapLoop]
      dsimp only
      cases hg : (l ++ L).getLast? with
      | none => rfl
      | some p =>
        simp only []
        rw [if_neg]
        rintro ⟨h1, h2⟩
        have hL0 : L ≠ [] := by rintro rfl; simp at h1
        rw [List.getLast?_append_of_ne_nil _ hL0] at hg
        rw [hL p (List.mem_of_getLast? hg)] at h2
        simp at h2
  | append_singleton R a ih =>
    rw [List.length_append, List.length_singleton] at hn
    obtain ⟨m, rfl⟩ : ∃ m, n = m + 1 := ⟨n - 1, by omega⟩
    rw [endcapLoop]
    dsimp only
    rw [← List.append_assoc, ← List.append_assoc, List.getLast?_concat]
    simp only []
    rw [if_pos ⟨by simp, hR a (by simp)⟩, List.dropLast_concat, List.append_assoc, ih _ (fun p hp => hR p (List.mem_append_left _ hp)) _ (by omega)]
    simp

/-- The points of the two caps of a convex joined shape: those of `first` are at the indices up to `K`. -/
theorem caps_points {first second : TipShape} {K K' : ℕ} {C : ℕ → Circle} {Θ : ℕ → ℝ} (T : Tour (K + K' + 2) C Θ) {R : Set ℂ} {h : ℝ}
    (hin : ∀ i φ, Θ i ≤ φ → φ ≤ Θ (i + 1) → (C i).getPoint φ ∈ R)
    (hsup : ∀ i φ, Θ i ≤ φ → φ ≤ Θ (i + 1) → ∀ z ∈ R, along φ z ≤ along φ (C i).center + (C i).radius)
    (hh : 0 < h) (hbig : ∀ j, (C j).radius ≤ 200000000 * h)
    (hs : ∀ j, (C j).radius ≠ 0 → collinear ≤ Θ (j + 1) - Θ j ∧ Θ (j + 1) - Θ j ≤ 2 * π - collinear)
    {ix : TangentIndices} (hix : tangentCircleIndices first second = some ix)
    (h1 : first.circles[ix.left.1]? = some (C 0)) (h2 : first.circles[ix.right.1]? = some (C K))
    (h3 : second.circles[ix.right.2]? = some (C (K + 1))) (h4 : second.circles[ix.left.2]? = some (C (K + 1 + K')))
    (hw : first.walk first.nextCw ix.left.1 ix.right.1 first.circles.length = some (cwList C 0 (K + 1)))
    (hw' : second.walk second.nextCw ix.right.2 ix.left.2 second.circles.length = some (cwList C (K + 1) (K' + 1)))
    (hf : ∀ x y i j, i ≤ K → j ≤ K → OnArc C Θ i x → OnArc C Θ j y → Step y x → along x.2 y.1 ≤ along x.2 x.1 → along y.2 x.1 ≤ along y.2 y.1 →
      isRightPoint (forwardDirection first second) first.center x.1 = true → isRightPoint (forwardDirection first second) first.center y.1 = true)
    (hf' : ∀ x y i j, K + 1 ≤ i → i ≤ K + 1 + K' → K + 1 ≤ j → j ≤ K + 1 + K' → OnArc C Θ i x → OnArc C Θ j y → Step y x →
      along x.2 y.1 ≤ along x.2 x.1 → along y.2 x.1 ≤ along y.2 y.1 →
      isRightPoint (forwardDirection first second) second.center y.1 = true → isRightPoint (forwardDirection first second) second.center x.1 = true)
    (pts : ExtrusionPoints) : ∃ l r l' r',
      appendStartcap first second h pts = some ⟨pts.left ++ l, pts.right ++ r⟩ ∧
      appendEndcap first second h ⟨pts.left ++ l, pts.right ++ r⟩ = some ⟨pts.left ++ l ++ l', pts.right ++ r ++ r'⟩ ∧
      Outlines R h ((l ++ l') ++ (r ++ r').reverse) ∧
      (∀ p ∈ l, NotRight (forwardDirection first second) first.center p) ∧ (∀ p ∈ r, NotLeft (forwardDirection first second) first.center p) ∧
      (∀ p ∈ l', NotRight (forwardDirection first second) second.center p) ∧
      ∀ p ∈ r', NotLeft (forwardDirection first second) second.center p := by
  obtain ⟨Q, hQ, hturn⟩ := T.turns hh hbig hs
  have hon : ∀ j x, x ∈ Q j → OnArc C Θ j x := fun j x hx => ⟨((hQ j).on x hx).1, ((hQ j).on x hx).2.1, ((hQ j).on x hx).2.2⟩
  have hper : ∀ j, C (K + K' + 2 + j) = C j := fun j => by rw [Nat.add_comm]; exact T.perC j
  have hL := T.loop hin hsup hQ (K + 1)
  have hN := T.near hsup hQ (K + 1)
  have eD : down Q (K + 1) (K + K' + 2) = down Q (K + K' + 2) (K + 1) ++ down Q (K + 1) (K' + 1) := by
    rw [show K + K' + 2 = (K' + 1) + (K + 1) by omega, down_add, show K + 1 + (K' + 1) = K' + 1 + (K + 1) by omega]
  have ch1 := T.down_chain hon (fun j => (hQ j).chain) (K + K' + 2) (K + 1)
  have ch2 := T.down_chain hon (fun j => (hQ j).chain) (K + 1) (K' + 1)
  rw [eD] at hL hN
  have fl1 : ((down Q (K + K' + 2) (K + 1)).map Prod.fst).Pairwise fun x y =>
      isRightPoint (forwardDirection first second) first.center y = true → isRightPoint (forwardDirection first second) first.center x = true := by
    rw [List.pairwise_map]
    refine List.Pairwise.imp_of_mem ?_ ch1
    intro y x hy hx hst
    have p1 := hL.pair (List.mem_append_left _ hx) (List.mem_append_left _ hy)
    have p2 := hL.pair (List.mem_append_left _ hy) (List.mem_append_left _ hx)
    obtain ⟨i, i1, i2, i3⟩ := mem_down.1 hx
    obtain ⟨j, j1, j2, j3⟩ := mem_down.1 hy
    obtain ⟨i, rfl⟩ := Nat.exists_eq_add_of_le i1
    obtain ⟨j, rfl⟩ := Nat.exists_eq_add_of_le j1
    have back : ∀ i z, OnArc C Θ (K + K' + 2 + i) z → OnArc C Θ i (lapBack z) := by
      rintro i z ⟨z1, z2, z3⟩
      rw [Nat.add_comm (K + K' + 2) i, T.per] at z1
      rw [show K + K' + 2 + i + 1 = i + 1 + (K + K' + 2) by omega, T.per] at z2
      refine ⟨by unfold lapBack; dsimp only; linarith, by unfold lapBack; dsimp only; linarith, ?_⟩
      unfold lapBack
      dsimp only
      rw [z3, hper, SameAngle.getPoint (sameAngle_lap z.2)]
    have := hf (lapBack x) (lapBack y) i j (by omega) (by omega) (back i x (hon _ x i3)) (back j y (hon _ y j3)) hst.lap
    unfold lapBack at this
    dsimp only at this
    rw [along_lap, along_lap, along_lap, along_lap] at this
    exact this p1 p2
  have fl2 : ((down Q (K + 1) (K' + 1)).map Prod.fst).Pairwise fun x y =>
      isRightPoint (forwardDirection first second) second.center x = true → isRightPoint (forwardDirection first second) second.center y = true := by
    rw [List.pairwise_map]
    refine List.Pairwise.imp_of_mem ?_ ch2
    intro y x hy hx hst
    have p1 := hL.pair (List.mem_append_right _ hx) (List.mem_append_right _ hy)
    have p2 := hL.pair (List.mem_append_right _ hy) (List.mem_append_right _ hx)
    obtain ⟨i, i1, i2, i3⟩ := mem_down.1 hx
    obtain ⟨j, j1, j2, j3⟩ := mem_down.1 hy
    exact hf' x y i j i1 (by omega) j1 (by omega) (hon _ x i3) (hon _ y j3) hst p1 p2
  obtain ⟨R1, L1, e1, r1, l1⟩ := split_flags fl1
  obtain ⟨R2', L2', e2, r2, l2⟩ := split_flags (right := isRightPoint (forwardDirection first second) second.center)
    (l := ((down Q (K + 1) (K' + 1)).map Prod.fst).reverse) (List.pairwise_reverse.2 fl2)
  obtain ⟨R2, rfl⟩ : ∃ R2, R2' = R2.reverse := ⟨R2'.reverse, by simp⟩
  obtain ⟨L2, rfl⟩ : ∃ L2, L2' = L2.reverse := ⟨L2'.reverse, by simp⟩
  rw [← List.reverse_append, List.reverse_inj] at e2
  have r2' : ∀ p ∈ R2, isRightPoint (forwardDirection first second) second.center p = true := fun p hp => r2 p (List.mem_reverse.2 hp)
  have l2' : ∀ p ∈ L2, isRightPoint (forwardDirection first second) second.center p = false := fun p hp => l2 p (List.mem_reverse.2 hp)
  have notL : ∀ v c p, isRightPoint v c p = true → NotLeft v c p := by
    intro v c p hp
    unfold isRightPoint at hp
    rw [decide_eq_true_eq] at hp
    exact hp.le
  have notR : ∀ v c p, isRightPoint v c p = false → NotRight v c p := by
    intro v c p hp
    unfold isRightPoint at hp
    rw [decide_eq_false_iff_not, not_lt] at hp
    exact hp
  refine ⟨L1, R1.reverse, L2, R2.reverse, ?_, ?_, ?_, fun p hp => notR _ _ _ (l1 p hp), fun p hp => notL _ _ _ (r1 p (List.mem_reverse.1 hp)),
    fun p hp => notR _ _ _ (l2' p hp), fun p hp => notL _ _ _ (r2' p (List.mem_reverse.1 hp))⟩
  · unfold appendStartcap
    rw [hix]
    simp only []
    rw [h3, hw, h4]
    simp only []
    have e : C (K + 1) :: cwList C 0 (K + 1) ++ [C (K + 1 + K')] = cwList C (K + 1 + K') (K + 1 + 2) := by
      rw [cwList_split C _ (K + 2), show cwList C (K + 1 + K' + 1) (K + 2) = C (K + 1 + K' + 1 + (K + 1)) :: cwList C (K + 1 + K' + 1) (K + 1) from rfl,
        show K + 1 + K' + 1 + (K + 1) = K + K' + 2 + (K + 1) by omega, hper]
      congr 2
      exact cwList_congr fun j _ => by rw [show K + 1 + K' + 1 + j = K + K' + 2 + j by omega, hper, Nat.zero_add]
    rw [e, hturn]
    simp only []
    rw [show K + 1 + K' + 1 = K + K' + 2 by omega, e1, List.length_append (as := pts.left), Nat.add_sub_cancel_left]
    exact move_sorted _ _ _ _ _ _ r1 l1
  · unfold appendEndcap
    rw [hix]
    simp only []
    rw [h1, hw', h2]
    simp only []
    have e : C 0 :: cwList C (K + 1) (K' + 1) ++ [C K] = cwList C K (K' + 1 + 2) := by
      rw [cwList_split C _ (K' + 2), show cwList C (K + 1) (K' + 2) = C (K + 1 + (K' + 1)) :: cwList C (K + 1) (K' + 1) from rfl,
        show K + 1 + (K' + 1) = K + K' + 2 + 0 by omega, hper]
    rw [e, hturn]
    simp only []
    rw [e2, List.length_append (as := pts.left ++ L1), Nat.add_sub_cancel_left]
    rw [endcap_sorted _ _ _ _ _ r2' l2' _ (by rw [List.length_append]; omega)]
  · rw [List.reverse_append, List.reverse_reverse, List.reverse_reverse, ← List.append_assoc]
    refine hL.outlines_rotate hh.le hN (A := R1) (B := L1 ++ L2 ++ R2) ?_
    rw [List.map_append, e1, e2]
    simp

/-! ## A shape that moves -/

theorem abs_same {a b : ℝ} (h : SameAngle a b) (ha : |a| ≤ π) (hb : |b| ≤ π) : |a| = |b| := by
  have hpi := Real.pi_pos
  obtain ⟨k, hk⟩ := h
  obtain ⟨a1, a2⟩ := abs_le.1 ha
  obtain ⟨b1, b2⟩ := abs_le.1 hb
  have k1 : (k : ℝ) < 2 := by
    by_contra g
    have := mul_le_mul_of_nonneg_right (not_lt.1 g) (by linarith : 0 ≤ 2 * π)
    linarith
  have k2 : (-2 : ℝ) < k := by
    by_contra g
    have := mul_le_mul_of_nonneg_right (not_lt.1 g) (by linarith : 0 ≤ 2 * π)
    linarith
  have k1' : k < 2 := by exact_mod_cast k1
  have k2' : -2 < k := by exact_mod_cast k2
  obtain rfl | rfl | rfl : k = -1 ∨ k = 0 ∨ k = 1 := by omega
  · push_cast at hk
    rw [show a = -π by linarith, show b = π by linarith, abs_neg]
  · push_cast at hk
    rw [show a = b by linarith]
  · push_cast at hk
    rw [show a = π by linarith, show b = -π by linarith, abs_neg]

theorem abs_arg_le (z : ℂ) : |Complex.arg z| ≤ π := Complex.abs_arg_le_pi z

theorem along_left {u : ℂ} (hu : ‖u‖ = 1) {A : ℝ} (hA : SameAngle A (Vec.direction u + π / 2)) (z : ℂ) : along A z = lft u z := by
  have := rotate_left u z (χ := A) (by obtain ⟨k, hk⟩ := hA; exact ⟨-k, by push_cast; linarith⟩)
  rw [hu, one_mul] at this
  rw [← this]
  rfl

theorem across_left {u : ℂ} (hu : ‖u‖ = 1) {A : ℝ} (hA : SameAngle A (Vec.direction u + π / 2)) (z : ℂ) : across A z = -fwd u z := by
  rw [SameAngle.across hA]
  unfold across fwd Vec.dotProduct
  rw [Real.cos_add_pi_div_two, Real.sin_add_pi_div_two]
  have h1 := re_eq u
  have h2 := im_eq u
  rw [hu, one_mul] at h1 h2
  rw [h1, h2]
  ring

/-- If a difference is not positive for a while, it does not grow from zero. -/
theorem across_nonpos {w : ℂ} {A b : ℝ} (hb : A < b) (h0 : along A w = 0) (h : ∀ φ, A ≤ φ → φ ≤ b → along φ w ≤ 0) : across A w ≤ 0 := by
  have hpi := Real.pi_pos
  have e : 0 < min (b - A) (π / 2) := lt_min (by linarith) (by linarith)
  have := h (A + min (b - A) (π / 2)) (by linarith) (by linarith [min_le_left (b - A) (π / 2)])
  rw [along_change A, h0, show A - (A + min (b - A) (π / 2)) = -min (b - A) (π / 2) by ring, Real.sin_neg] at this
  have hs := Real.sin_pos_of_pos_of_lt_pi e (by linarith [min_le_right (b - A) (π / 2)])
  by_contra g
  have := mul_pos hs (not_le.1 g)
  linarith

theorem across_nonneg {w : ℂ} {A b : ℝ} (hb : b < A) (h0 : along A w = 0) (h : ∀ φ, b ≤ φ → φ ≤ A → along φ w ≤ 0) : 0 ≤ across A w := by
  have hpi := Real.pi_pos
  have e : 0 < min (A - b) (π / 2) := lt_min (by linarith) (by linarith)
  have := h (A - min (A - b) (π / 2)) (by linarith [min_le_left (A - b) (π / 2)]) (by linarith)
  rw [along_change A, h0, show A - (A - min (A - b) (π / 2)) = min (A - b) (π / 2) by ring] at this
  have hs := Real.sin_pos_of_pos_of_lt_pi e (by linarith [min_le_right (A - b) (π / 2)])
  by_contra g
  have := mul_neg_of_pos_of_neg hs (not_le.1 g)
  linarith

/-- The circles on the sides of a way. -/
theorem Ordered.sides {s : TipShape} {r : ℝ} (h : Ordered s r) {u : ℂ} (hu : ‖u‖ = 1)
    (hline : ∃ c ∈ s.circles, ∃ d ∈ s.circles, lft u c.center ≠ lft u d.center) :
    ∃ k K A, SameAngle A (Vec.direction u + π / 2) ∧ 1 ≤ K ∧ K < s.circles.length ∧ heading s.circles k ≤ A ∧ A < heading s.circles (k + 1) ∧
      heading s.circles (k + K) < A + π ∧ A + π ≤ heading s.circles (k + K + 1) := by
  have hpi := Real.pi_pos
  have T := h.tour
  have hn := h.two
  have grow : ∀ j, heading s.circles j < heading s.circles (j + 1) := fun j => by rw [heading]; linarith [(h.bend_spec j).1]
  have small : ∀ j, heading s.circles (j + 1) ≤ heading s.circles j + π := fun j => by rw [heading]; linarith [(h.bend_spec j).2.1]
  obtain ⟨k, A, hA, hk1, hk2⟩ : ∃ k A, SameAngle A (Vec.direction u + π / 2) ∧ heading s.circles k ≤ A ∧ A < heading s.circles (k + 1) := by
    obtain ⟨i, φ, -, h1, h2, h3⟩ := T.cover (Vec.direction u + π / 2)
    rcases h2.lt_or_eq with g | g
    · exact ⟨i, φ, SameAngle.symm h3, h1, g⟩
    · exact ⟨i + 1, φ, SameAngle.symm h3, g.ge, by rw [g]; exact grow _⟩
  have hex : ∃ K, A + π ≤ heading s.circles (k + K + 1) := by
    refine ⟨s.circles.length - 1, ?_⟩
    rw [show k + (s.circles.length - 1) + 1 = k + s.circles.length by omega, h.heading_period]
    linarith [small k]
  classical
  obtain ⟨K, hK, hmin⟩ : ∃ K, A + π ≤ heading s.circles (k + K + 1) ∧ ∀ j < K, heading s.circles (k + j + 1) < A + π :=
    ⟨Nat.find hex, Nat.find_spec hex, fun j hj => not_le.1 (Nat.find_min hex hj)⟩
  have hK0 : K ≠ 0 := by
    rintro rfl
    obtain ⟨c, hc, d, hd, hne⟩ := hline
    have e1 : A = heading s.circles k := by
      have := small k
      rw [add_zero] at hK
      linarith
    have e2 : A + π = heading s.circles (k + 1) := by
      have := small k
      rw [add_zero] at hK
      linarith
    have key : ∀ c ∈ s.circles, lft u c.center = lft u (lapC s.circles k).center := by
      intro c hc
      obtain ⟨j, -, rfl⟩ := exists_lapC hc
      have q1 := T.far h.radius (i := k) (j := j) (φ := A) hk1 hk2.le
      have q2 := T.far h.radius (i := k) (j := j) (φ := A + π) (by linarith) e2.le
      rw [along_add_pi, along_add_pi] at q2
      rw [along_left hu hA, along_left hu hA] at q1 q2
      linarith
    exact hne (by rw [key c hc, key d hd])
  refine ⟨k, K, A, hA, by omega, ?_, hk1, hk2, ?_, hK⟩
  · by_contra g
    have := hmin (s.circles.length - 1) (by omega)
    rw [show k + (s.circles.length - 1) + 1 = k + s.circles.length by omega, h.heading_period] at this
    linarith [small k]
  · have := hmin (K - 1) (by omega)
    rwa [show k + (K - 1) + 1 = k + K by omega] at this

theorem Ordered.isLeft {s : TipShape} {r : ℝ} (h : Ordered s r) {u : ℂ} (hu : ‖u‖ = 1) {k : ℕ} {A : ℝ} (hA : SameAngle A (Vec.direction u + π / 2))
    (h1 : heading s.circles k ≤ A) (h2 : A < heading s.circles (k + 1)) : IsLeft s.circles u (lapC s.circles k) := by
  intro e he
  obtain ⟨j, -, rfl⟩ := exists_lapC he
  refine ⟨?_, fun heq => ?_⟩
  · have := h.tour.far h.radius (i := k) (j := j) (φ := A) h1 h2.le
    rwa [along_left hu hA, along_left hu hA] at this
  · have := across_nonpos (w := (lapC s.circles j).center - (lapC s.circles k).center) h2
      (by rw [along_sub, along_left hu hA, along_left hu hA]; linarith) fun φ p1 p2 => by
        rw [along_sub]
        linarith [h.tour.far h.radius (i := k) (j := j) (φ := φ) (by linarith) p2]
    rw [across_sub, across_left hu hA, across_left hu hA] at this
    linarith

theorem Ordered.isRight {s : TipShape} {r : ℝ} (h : Ordered s r) {u : ℂ} (hu : ‖u‖ = 1) {k : ℕ} {A : ℝ} (hA : SameAngle A (Vec.direction u + π / 2))
    (h1 : heading s.circles k < A + π) (h2 : A + π ≤ heading s.circles (k + 1)) : IsRight s.circles u (lapC s.circles k) := by
  have across_pi : ∀ z, across (A + π) z = -across A z := fun z => by
    unfold across; rw [Real.cos_add_pi, Real.sin_add_pi]; ring
  intro e he
  obtain ⟨j, -, rfl⟩ := exists_lapC he
  refine ⟨?_, fun heq => ?_⟩
  · have := h.tour.far h.radius (i := k) (j := j) (φ := A + π) h1.le h2
    rw [along_add_pi, along_add_pi, along_left hu hA, along_left hu hA] at this
    linarith
  · have := across_nonneg (w := (lapC s.circles j).center - (lapC s.circles k).center) h1
      (by rw [along_add_pi, along_sub, along_left hu hA, along_left hu hA]; linarith) fun φ p1 p2 => by
        rw [along_sub]
        linarith [h.tour.far h.radius (i := k) (j := j) (φ := φ) p1 (by linarith)]
    rw [across_pi, across_sub, across_left hu hA, across_left hu hA] at this
    linarith

/-- The circles of the joined shape of a shape that moves: those of the first up to the index `K`. -/
noncomputable def movedC (cs : List Circle) (v : ℂ) (k K j : ℕ) : Circle :=
  if j ≤ K then lapC cs (k + j) else shift v (lapC cs (k + j - 1))

/-- The directions of its tangents. -/
noncomputable def movedΘ (cs : List Circle) (A : ℝ) (k K j : ℕ) : ℝ :=
  if j = 0 then A else if j ≤ K then heading cs (k + j) else if j = K + 1 then A + π
  else if j ≤ cs.length + 1 then heading cs (k + j - 1) else A + 2 * π

/-- One arc of the joined shape. -/
structure MovedArc (s : TipShape) (r : ℝ) (A : ℝ) (k K i : ℕ) : Prop where
  le : movedΘ s.circles A k K i ≤ movedΘ s.circles A k K (i + 1)
  pi : movedΘ s.circles A k K (i + 1) - movedΘ s.circles A k K i ≤ π
  sharp : 0 < r → collinear ≤ movedΘ s.circles A k K (i + 1) - movedΘ s.circles A k K i
  side : (i ≤ K ∧ A ≤ movedΘ s.circles A k K i ∧ movedΘ s.circles A k K (i + 1) ≤ A + π ∧
      heading s.circles (k + i) ≤ movedΘ s.circles A k K i ∧ movedΘ s.circles A k K (i + 1) ≤ heading s.circles (k + i + 1)) ∨
    (K < i ∧ A + π ≤ movedΘ s.circles A k K i ∧ movedΘ s.circles A k K (i + 1) ≤ A + 2 * π ∧
      heading s.circles (k + i - 1) ≤ movedΘ s.circles A k K i ∧ movedΘ s.circles A k K (i + 1) ≤ heading s.circles (k + i - 1 + 1))

theorem MovedArc.of {s : TipShape} {r : ℝ} {A : ℝ} {k K i : ℕ} (a b : ℝ) (m : ℕ) (ha : movedΘ s.circles A k K i = a)
    (hb : movedΘ s.circles A k K (i + 1) = b) (h1 : a ≤ b) (h2 : b - a ≤ π) (h3 : 0 < r → collinear ≤ b - a)
    (h4 : heading s.circles m ≤ a) (h5 : b ≤ heading s.circles (m + 1))
    (h6 : (i ≤ K ∧ m = k + i ∧ A ≤ a ∧ b ≤ A + π) ∨ (K < i ∧ m = k + i - 1 ∧ A + π ≤ a ∧ b ≤ A + 2 * π)) : MovedArc s r A k K i := by
  subst ha hb
  refine ⟨h1, h2, h3, ?_⟩
  rcases h6 with ⟨p1, rfl, p2, p3⟩ | ⟨p1, rfl, p2, p3⟩
  · exact Or.inl ⟨p1, p2, p3, h4, h5⟩
  · exact Or.inr ⟨p1, p2, p3, h4, h5⟩

theorem Ordered.movedArc {s : TipShape} {r : ℝ} (h : Ordered s r) {u : ℂ} (hu : ‖u‖ = 1) {k K : ℕ} {A : ℝ} (hsh : Sharp s.circles)
    (hac : Across s.circles u) (hA : SameAngle A (Vec.direction u + π / 2)) (hK : 1 ≤ K) (hKn : K < s.circles.length)
    (a1 : heading s.circles k ≤ A) (a2 : A < heading s.circles (k + 1)) (a3 : heading s.circles (k + K) < A + π)
    (a4 : A + π ≤ heading s.circles (k + K + 1)) (i : ℕ) (hi : i < s.circles.length + 2) : MovedArc s r A k K i := by
  have hpi := Real.pi_pos
  have T := h.tour
  have hn := h.two
  have hu0 : u ≠ 0 := by intro e; rw [e, norm_zero] at hu; exact zero_ne_one hu
  have small : ∀ j, heading s.circles (j + 1) ≤ heading s.circles j + π := fun j => by rw [heading]; linarith [(h.bend_spec j).2.1]
  have mono : ∀ i j, i ≤ j → heading s.circles i ≤ heading s.circles j := fun i j hij => T.le hij
  have per : heading s.circles (k + s.circles.length) = heading s.circles k + 2 * π := h.heading_period k
  -- angles with the way
  have ang : ∀ j, 0 < r → (∀ t, SameAngle t (heading s.circles j - (A + π)) → |t| ≤ π → collinear ≤ |t|) ∧
      (∀ t, SameAngle t (heading s.circles j - A) → |t| ≤ π → collinear ≤ |t|) := by
    have key : ∀ j, 0 < r → (∀ t, SameAngle t (heading s.circles (j + 1) - (A + π)) → |t| ≤ π → collinear ≤ |t|) ∧
        (∀ t, SameAngle t (heading s.circles (j + 1) - A) → |t| ≤ π → collinear ≤ |t|) := by
      intro j hr
      obtain ⟨q1, q2⟩ := hac _ _ _ (lapC_follows (cs := s.circles) (by omega) j)
        (fun e => (h.turns (j + 1)).1 (by rw [edge_succ, e, sub_self])) (by rw [h.radius]; exact hr)
      have hE := (h.turns (j + 1)).1
      rw [edge_succ] at hE
      have hE' : (lapC s.circles j).center - (lapC s.circles (j + 1)).center ≠ 0 := by
        rw [← neg_sub]; exact neg_ne_zero.2 hE
      obtain ⟨k1, e1⟩ := h.heading_same (j + 1)
      rw [edge_succ] at e1
      obtain ⟨k2, e2⟩ := beta_same ((lapC s.circles (j + 1)).center - (lapC s.circles j).center)
      obtain ⟨k3, e3⟩ := hA
      obtain ⟨k4, e4⟩ := arg_div_same hu0 hE
      obtain ⟨k5, e5⟩ := arg_div_same hu0 hE'
      obtain ⟨k6, e6⟩ : SameAngle (Vec.direction ((lapC s.circles j).center - (lapC s.circles (j + 1)).center))
          (Vec.direction ((lapC s.circles (j + 1)).center - (lapC s.circles j).center) + π) := by
        have := arg_div_same hE hE'
        rwa [show ((lapC s.circles j).center - (lapC s.circles (j + 1)).center) / ((lapC s.circles (j + 1)).center - (lapC s.circles j).center) = -1 by
          rw [← neg_sub, neg_div, div_self hE], Complex.arg_neg_one] at this
      refine ⟨fun t ht htp => ?_, fun t ht htp => ?_⟩
      · obtain ⟨k7, e7⟩ := ht
        rwa [abs_same (a := t) (b := Complex.arg (((lapC s.circles (j + 1)).center - (lapC s.circles j).center) / u))
          ⟨k7 + k1 + k2 + k4 - k3 - 1, by push_cast; linarith⟩ htp (abs_arg_le _)]
      · obtain ⟨k7, e7⟩ := ht
        rwa [abs_same (a := t) (b := Complex.arg (((lapC s.circles j).center - (lapC s.circles (j + 1)).center) / u))
          ⟨k7 + k1 + k2 + k5 - k3 - k6 - 1, by push_cast; linarith⟩ htp (abs_arg_le _)]
    intro j hr
    cases j with
    | succ j => exact key j hr
    | zero =>
      have := key (s.circles.length - 1) hr
      rw [show s.circles.length - 1 + 1 = 0 + s.circles.length by omega, h.heading_period] at this
      refine ⟨fun t ⟨k, e⟩ => this.1 t ⟨k - 1, by push_cast; linarith⟩, fun t ⟨k, e⟩ => this.2 t ⟨k - 1, by push_cast; linarith⟩⟩
  have sharp : ∀ j, 0 < r → collinear ≤ heading s.circles (j + 1) - heading s.circles j := fun j hr =>
    h.sharp hsh j (by rw [h.radius]; exact hr.ne')
  -- the values
  have v0 : movedΘ s.circles A k K 0 = A := by unfold movedΘ; rw [if_pos rfl]
  have v1 : ∀ p, 1 ≤ p → p ≤ K → movedΘ s.circles A k K p = heading s.circles (k + p) := fun p p1 p2 => by
    unfold movedΘ; rw [if_neg (by omega), if_pos p2]
  have v2 : movedΘ s.circles A k K (K + 1) = A + π := by
    unfold movedΘ; rw [if_neg (by omega), if_neg (by omega), if_pos rfl]
  have v3 : ∀ p, K + 2 ≤ p → p ≤ s.circles.length + 1 → movedΘ s.circles A k K p = heading s.circles (k + p - 1) := fun p p1 p2 => by
    unfold movedΘ; rw [if_neg (by omega), if_neg (by omega), if_neg (by omega), if_pos p2]
  have v4 : movedΘ s.circles A k K (s.circles.length + 2) = A + 2 * π := by
    unfold movedΘ; rw [if_neg (by omega), if_neg (by omega), if_neg (by omega), if_neg (by omega)]
  obtain rfl | ⟨i1, i2⟩ | rfl | rfl | ⟨i1, i2⟩ | rfl : i = 0 ∨ (1 ≤ i ∧ i + 1 ≤ K) ∨ i = K ∨ i = K + 1 ∨
      (K + 2 ≤ i ∧ i ≤ s.circles.length) ∨ i = s.circles.length + 1 := by omega
  · refine .of _ _ k v0 (v1 1 (le_refl _) hK) a2.le (by linarith [small k]) (fun hr => ?_) a1 (le_refl _)
      (Or.inl ⟨by omega, rfl, le_refl _, by linarith [mono (k + 1) (k + K) (by omega)]⟩)
    have := (ang (k + 1) hr).2 _ (SameAngle.refl _) (by rw [abs_of_pos (by linarith)]; linarith [small k])
    rwa [abs_of_pos (by linarith)] at this
  · exact .of _ _ (k + i) (v1 i i1 (by omega)) (v1 (i + 1) (by omega) i2) (T.mono _) (by rw [← Nat.add_assoc]; linarith [small (k + i)])
      (sharp (k + i)) (le_refl _) (le_refl _)
      (Or.inl ⟨by omega, rfl, by linarith [mono (k + 1) (k + i) (by omega)], by linarith [mono (k + (i + 1)) (k + K) (by omega)]⟩)
  · refine .of _ _ (k + i) (v1 i hK (le_refl _)) v2 a3.le (by linarith [small (k + i)]) (fun hr => ?_) (le_refl _) a4
      (Or.inl ⟨by omega, rfl, by linarith [mono (k + 1) (k + i) (by omega)], le_refl _⟩)
    have := (ang (k + i) hr).1 _ (SameAngle.refl _) (by rw [abs_sub_comm, abs_of_pos (by linarith)]; linarith [small (k + i)])
    rwa [abs_sub_comm, abs_of_pos (by linarith)] at this
  · have e2 := v3 (K + 1 + 1) (by omega) (by omega)
    rw [show k + (K + 1 + 1) - 1 = k + K + 1 by omega] at e2
    refine .of _ _ (k + K) v2 e2 a4 (by linarith [small (k + K)]) (fun hr => ?_) a3.le (le_refl _)
      (Or.inr ⟨by omega, by omega, le_refl _, by linarith [mono (k + K + 1) (k + s.circles.length) (by omega)]⟩)
    have g : |heading s.circles (k + K + 1) - (A + π)| = heading s.circles (k + K + 1) - (A + π) := abs_of_nonneg (by linarith)
    have := (ang (k + K + 1) hr).1 _ (SameAngle.refl _) (by rw [g]; linarith [small (k + K)])
    rwa [g] at this
  · have e2 := v3 (i + 1) (by omega) (by omega)
    rw [show k + (i + 1) - 1 = k + i - 1 + 1 by omega] at e2
    exact .of _ _ (k + i - 1) (v3 i i1 (by omega)) e2 (T.mono _) (by linarith [small (k + i - 1)]) (sharp (k + i - 1)) (le_refl _) (le_refl _)
      (Or.inr ⟨by omega, rfl, by linarith [mono (k + K + 1) (k + i - 1) (by omega)],
        by linarith [mono (k + i - 1 + 1) (k + s.circles.length) (by omega)]⟩)
  · have e1 := v3 (s.circles.length + 1) (by omega) (le_refl _)
    rw [show k + (s.circles.length + 1) - 1 = k + s.circles.length by omega] at e1
    refine .of _ _ (k + s.circles.length) e1 v4 (by linarith) (by linarith [small k]) (fun hr => ?_) (le_refl _) ?_
      (Or.inr ⟨by omega, by omega, by linarith [mono (k + K + 1) (k + s.circles.length) (by omega)], le_refl _⟩)
    · have g : |heading s.circles k - A| = A - heading s.circles k := by rw [abs_sub_comm]; exact abs_of_nonneg (by linarith)
      have := (ang k hr).2 _ (SameAngle.refl _) (by rw [g]; linarith [small k])
      rw [g] at this
      linarith
    · rw [show k + s.circles.length + 1 = k + 1 + s.circles.length by omega, h.heading_period]
      linarith

theorem lapC_shift {cs ds : List Circle} {v : ℂ} (h : ds = cs.map (shift v)) (hn : 0 < cs.length) (j : ℕ) : lapC ds j = shift v (lapC cs j) := by
  subst h
  unfold lapC
  rw [List.length_map, List.getElem?_map, List.getElem?_eq_getElem (Nat.mod_lt j hn)]
  rfl

theorem shift_tangent {v : ℂ} {c d : Circle} {a : ℝ} (h : RightTangent c d a) : RightTangent (shift v c) (shift v d) a := by
  rw [rightTangent_iff] at h ⊢
  unfold shift
  dsimp only
  rwa [add_sub_add_right_eq_sub]

/-- The list of the circles of the joined shape. -/
noncomputable def movedJ (cs : List Circle) (v : ℂ) (k K : ℕ) : List Circle := (List.range (cs.length + 2)).map (movedC cs v k K)

theorem movedJ_length (cs : List Circle) (v : ℂ) (k K : ℕ) : (movedJ cs v k K).length = cs.length + 2 := by
  unfold movedJ; rw [List.length_map, List.length_range]

theorem movedJ_lap (cs : List Circle) (v : ℂ) (k K : ℕ) {j : ℕ} (hj : j < cs.length + 2) : lapC (movedJ cs v k K) j = movedC cs v k K j := by
  unfold lapC
  rw [movedJ_length, Nat.mod_eq_of_lt hj]
  unfold movedJ
  rw [List.getElem?_map, List.getElem?_range hj]
  rfl

theorem Ordered.movedTour {s : TipShape} {r x : ℝ} (h : Ordered s r) {u : ℂ} (hu : ‖u‖ = 1) (hx : 0 < x) {k K : ℕ} {A : ℝ}
    (hA : SameAngle A (Vec.direction u + π / 2)) (hK : 1 ≤ K) (hKn : K < s.circles.length)
    (harc : ∀ i < s.circles.length + 2, MovedArc s r A k K i) :
    Tour (s.circles.length + 2) (lapC (movedJ s.circles (x * u) k K)) (lapΘ (s.circles.length + 2) (movedΘ s.circles A k K)) ∧
      movedΘ s.circles A k K (s.circles.length + 2) = movedΘ s.circles A k K 0 + 2 * π := by
  have hn := h.two
  have v0 : movedΘ s.circles A k K 0 = A := by unfold movedΘ; rw [if_pos rfl]
  have v1 : ∀ p, 1 ≤ p → p ≤ K → movedΘ s.circles A k K p = heading s.circles (k + p) := fun p p1 p2 => by
    unfold movedΘ; rw [if_neg (by omega), if_pos p2]
  have v2 : movedΘ s.circles A k K (K + 1) = A + π := by
    unfold movedΘ; rw [if_neg (by omega), if_neg (by omega), if_pos rfl]
  have v3 : ∀ p, K + 2 ≤ p → p ≤ s.circles.length + 1 → movedΘ s.circles A k K p = heading s.circles (k + p - 1) := fun p p1 p2 => by
    unfold movedΘ; rw [if_neg (by omega), if_neg (by omega), if_neg (by omega), if_pos p2]
  have v4 : movedΘ s.circles A k K (s.circles.length + 2) = A + 2 * π := by
    unfold movedΘ; rw [if_neg (by omega), if_neg (by omega), if_neg (by omega), if_neg (by omega)]
  have honce : movedΘ s.circles A k K (s.circles.length + 2) = movedΘ s.circles A k K 0 + 2 * π := by rw [v4, v0]
  have hlen := movedJ_length s.circles (x * u) k K
  have hx0 : (x : ℂ) * u ≠ 0 := by
    intro e
    have := congrArg norm e
    rw [norm_mul, hu, norm_zero, mul_one, Complex.norm_real, Real.norm_eq_abs, abs_of_pos hx] at this
    exact hx.ne' this
  have hdir : SameAngle (Vec.direction ((x : ℂ) * u)) (Vec.direction u) := by
    unfold Vec.direction
    rw [Complex.arg_real_mul _ hx]
    exact SameAngle.refl _
  have hdir' : SameAngle (Vec.direction (-((x : ℂ) * u))) (Vec.direction u + π) := by
    obtain ⟨m, hm⟩ := hdir
    have := arg_div_same hx0 (neg_ne_zero.2 hx0)
    rw [neg_div, div_self hx0, Complex.arg_neg_one, hm] at this
    obtain ⟨l, hl⟩ := this
    exact ⟨l + m, by rw [hl]; push_cast; ring⟩
  have tt : TurnsOnce (movedJ s.circles (x * u) k K) (movedΘ s.circles A k K) := by
    refine ⟨?_, ?_, ?_⟩
    · intro i hi
      rw [hlen] at hi
      exact (harc i hi).le
    · rw [hlen]; exact honce
    · intro i c d hf
      obtain ⟨hi, rfl, rfl⟩ := lapC_eq hf
      rw [hlen] at hi
      rw [movedJ_lap _ _ _ _ hi]
      by_cases hl : i + 1 < s.circles.length + 2
      · rw [movedJ_lap _ _ _ _ hl]
        obtain i1 | rfl | i1 : i + 1 ≤ K ∨ i = K ∨ K + 1 ≤ i := by omega
        · unfold movedC
          rw [if_pos (by omega), if_pos i1, v1 _ (by omega) i1]
          exact h.tour.tan (k + i)
        · unfold movedC
          rw [if_pos (le_refl _), if_neg (by omega), v2, show k + (i + 1) - 1 = k + i by omega]
          refine equal_tangent (by rfl) ?_ ?_
          · unfold shift; dsimp only; rwa [add_sub_cancel_left]
          · unfold shift; dsimp only; rw [add_sub_cancel_left]
            obtain ⟨k1, e1⟩ := hA
            obtain ⟨k2, e2⟩ := beta_same ((x : ℂ) * u)
            obtain ⟨k3, e3⟩ := hdir
            exact ⟨k1 - k2 - k3 + 1, by push_cast; linarith⟩
        · unfold movedC
          rw [if_neg (by omega), if_neg (by omega), v3 _ (by omega) (by omega), show k + (i + 1) - 1 = k + i - 1 + 1 by omega]
          exact shift_tangent (h.tour.tan _)
      · obtain rfl : i = s.circles.length + 1 := by omega
        have e0 : lapC (movedJ s.circles (x * u) k K) (s.circles.length + 1 + 1) = lapC (movedJ s.circles (x * u) k K) 0 := by
          have := lapC_period (movedJ s.circles (x * u) k K) 0
          rwa [hlen, Nat.zero_add] at this
        rw [e0, movedJ_lap _ _ _ _ (by omega), v4]
        unfold movedC
        rw [if_neg (by omega), if_pos (by omega), show k + (s.circles.length + 1) - 1 = k + s.circles.length by omega, lapC_period, add_zero]
        refine equal_tangent (by rfl) ?_ ?_
        · unfold shift; dsimp only; rw [sub_add_cancel_left]; exact neg_ne_zero.2 hx0
        · unfold shift; dsimp only; rw [sub_add_cancel_left]
          obtain ⟨k1, e1⟩ := hA
          obtain ⟨k2, e2⟩ := beta_same (-((x : ℂ) * u))
          obtain ⟨k3, e3⟩ := hdir'
          exact ⟨k1 - k2 - k3 + 1, by push_cast; linarith⟩
  refine ⟨?_, honce⟩
  have := turns_tour (by rw [← List.length_pos_iff, hlen]; omega) ?_ tt
  · rwa [hlen] at this
  · intro c hc
    unfold movedJ at hc
    obtain ⟨j, -, rfl⟩ := List.mem_map.1 hc
    have : (movedC s.circles (x * u) k K j).radius = r := by
      unfold movedC
      split_ifs
      · exact h.radius _
      · exact h.radius _
    rw [this]; exact h.sound.pos

/-- The points of the two caps of a shape that moves. -/
theorem Ordered.moved_caps {s o : TipShape} {r x h : ℝ} (hs : Ordered s r) {u : ℂ} (hu : ‖u‖ = 1) (hx : 0 < x)
    (ho : o.circles = s.circles.map (shift (x * u))) (hf : forwardDirection s o = u)
    (hline : ∃ c ∈ s.circles, ∃ d ∈ s.circles, lft u c.center ≠ lft u d.center) (hsh : Sharp s.circles) (hac : Across s.circles u)
    (hh : 0 < h) (hbig : NotHuge h s.circles) (pts : ExtrusionPoints) : ∃ l r l' r',
      appendStartcap s o h pts = some ⟨pts.left ++ l, pts.right ++ r⟩ ∧
      appendEndcap s o h ⟨pts.left ++ l, pts.right ++ r⟩ = some ⟨pts.left ++ l ++ l', pts.right ++ r ++ r'⟩ ∧
      Outlines (hull (s.circles ++ o.circles)) h ((l ++ l') ++ (r ++ r').reverse) ∧
      (∀ p ∈ l, NotRight u s.center p) ∧ (∀ p ∈ r, NotLeft u s.center p) ∧ (∀ p ∈ l', NotRight u o.center p) ∧ ∀ p ∈ r', NotLeft u o.center p := by
  have hpi := Real.pi_pos
  have hn := hs.two
  obtain ⟨k, K, A, hA, hK, hKn, a1, a2, a3, a4⟩ := hs.sides hu hline
  have harc := hs.movedArc hu hsh hac hA hK hKn a1 a2 a3 a4
  obtain ⟨T, honce⟩ := hs.movedTour hu hx hA hK hKn harc
  have small : ∀ i ≤ s.circles.length + 2, lapΘ (s.circles.length + 2) (movedΘ s.circles A k K) i = movedΘ s.circles A k K i :=
    fun i hi => lapΘ_small honce hi (by omega)
  have hrad : ∀ j, (lapC (movedJ s.circles (x * u) k K) j).radius = r := by
    intro j
    obtain ⟨m, l, m1, m2, -⟩ := T.laps j
    rw [m2, movedJ_lap _ _ _ _ m1]
    unfold movedC
    split_ifs
    · exact hs.radius _
    · exact hs.radius _
  -- arcs, up to laps
  have arcs : ∀ i φ, lapΘ (s.circles.length + 2) (movedΘ s.circles A k K) i ≤ φ → φ ≤ lapΘ (s.circles.length + 2) (movedΘ s.circles A k K) (i + 1) →
      ∃ m φ', m < s.circles.length + 2 ∧ SameAngle φ φ' ∧ lapC (movedJ s.circles (x * u) k K) i = movedC s.circles (x * u) k K m ∧
        movedΘ s.circles A k K m ≤ φ' ∧ φ' ≤ movedΘ s.circles A k K (m + 1) := by
    intro i φ h1 h2
    obtain ⟨m, l, m1, m2, -, m4, m5⟩ := T.laps i
    rw [small m (by omega)] at m4
    rw [small (m + 1) (by omega)] at m5
    refine ⟨m, φ - l * (2 * π), m1, ⟨l, by push_cast; ring⟩, by rw [m2, movedJ_lap _ _ _ _ m1], by linarith, by linarith⟩
  have alu : ∀ φ, along φ ((x : ℂ) * u) = x * Real.sin (φ - A + π) := by
    intro φ
    have e : along φ ((x : ℂ) * u) = x * along φ u := by
      unfold along
      simp only [Complex.mul_re, Complex.mul_im, Complex.ofReal_re, Complex.ofReal_im, zero_mul, sub_zero, add_zero]
      ring
    rw [e, along_eq, hu, one_mul]
    congr 1
    obtain ⟨k1, e1⟩ := hA
    rw [← Real.cos_sub_pi_div_two]
    refine SameAngle.cos ⟨k1, ?_⟩
    linarith
  have hmem : ∀ m, movedC s.circles (x * u) k K m ∈ s.circles ++ o.circles := by
    intro m
    unfold movedC
    split_ifs
    · exact List.mem_append_left _ (lapC_mem (by omega) _)
    · refine List.mem_append_right _ ?_
      rw [ho]
      exact List.mem_map_of_mem (lapC_mem (by omega) _)
  have hin : ∀ i φ, lapΘ (s.circles.length + 2) (movedΘ s.circles A k K) i ≤ φ → φ ≤ lapΘ (s.circles.length + 2) (movedΘ s.circles A k K) (i + 1) →
      (lapC (movedJ s.circles (x * u) k K) i).getPoint φ ∈ hull (s.circles ++ o.circles) := by
    intro i φ h1 h2
    obtain ⟨m, φ', -, -, e, -⟩ := arcs i φ h1 h2
    refine subset_convexHull ℝ _ ⟨_, hmem m, ?_⟩
    rw [← e]
    exact getPoint_in (by rw [hrad]; exact hs.sound.pos) _
  have hsup : ∀ i φ, lapΘ (s.circles.length + 2) (movedΘ s.circles A k K) i ≤ φ → φ ≤ lapΘ (s.circles.length + 2) (movedΘ s.circles A k K) (i + 1) →
      ∀ z ∈ hull (s.circles ++ o.circles), along φ z ≤ along φ (lapC (movedJ s.circles (x * u) k K) i).center + (lapC (movedJ s.circles (x * u) k K) i).radius := by
    intro i φ h1 h2
    refine hull_along fun c hc => ?_
    have hcr : c.radius = r := by
      rcases List.mem_append.1 hc with g | g
      · exact hs.sound.radius c g
      · rw [ho] at g
        obtain ⟨d, hd, rfl⟩ := List.mem_map.1 g
        exact hs.sound.radius d hd
    rw [hrad, hcr]
    obtain ⟨m, φ', m1, m2, m3, m4, m5⟩ := arcs i φ h1 h2
    rw [m3, SameAngle.along m2, SameAngle.along m2]
    have base : ∃ j, c.center = (lapC s.circles j).center ∨ c.center = (lapC s.circles j).center + x * u := by
      rcases List.mem_append.1 hc with g | g
      · obtain ⟨j, -, rfl⟩ := exists_lapC g
        exact ⟨j, Or.inl rfl⟩
      · rw [ho] at g
        obtain ⟨d, hd, rfl⟩ := List.mem_map.1 g
        obtain ⟨j, -, rfl⟩ := exists_lapC hd
        exact ⟨j, Or.inr rfl⟩
    obtain ⟨j, hj⟩ := base
    rcases (harc m m1).side with ⟨q1, q2, q3, q4, q5⟩ | ⟨q1, q2, q3, q4, q5⟩
    · unfold movedC
      rw [if_pos q1]
      have far := hs.tour.far hs.radius (j := j) (q4.trans m4) (m5.trans q5)
      have hsin : along φ' ((x : ℂ) * u) ≤ 0 := by
        rw [alu, Real.sin_add_pi]
        have := mul_nonneg hx.le (Real.sin_nonneg_of_nonneg_of_le_pi (x := φ' - A) (by linarith) (by linarith))
        linarith
      rcases hj with g | g
      · rw [g]; linarith
      · rw [g, along_add]; linarith
    · unfold movedC
      rw [if_neg (by omega)]
      have far := hs.tour.far hs.radius (j := j) (q4.trans m4) (m5.trans q5)
      have hsin : 0 ≤ along φ' ((x : ℂ) * u) := by
        rw [alu, show φ' - A + π = φ' - A - π + 2 * π by ring, Real.sin_add_two_pi]
        exact mul_nonneg hx.le (Real.sin_nonneg_of_nonneg_of_le_pi (by linarith) (by linarith))
      unfold shift
      dsimp only
      rw [along_add]
      rcases hj with g | g
      · rw [g]; linarith
      · rw [g, along_add]; linarith
  -- the indices
  obtain ⟨k0, l0, c, d, hix, hc, hd, hl, hr⟩ := hs.moved_indices hu hx ho hf
  have gk := (lapC_follows (cs := s.circles) (by omega) k).1
  have gl := (lapC_follows (cs := s.circles) (by omega) (k + K)).1
  have hk0 : k0 = k % s.circles.length := by
    have H := hs.isLeft hu hA a1 a2
    have q1 := hl _ (List.mem_of_getElem? gk)
    have q2 := H _ (List.mem_of_getElem? hc)
    have e1 : lft u c.center = lft u (lapC s.circles k).center := le_antisymm q2.1 q1.1
    exact hs.inj _ _ _ _ hc gk (frame_eq hu (le_antisymm (q1.2 e1.symm) (q2.2 e1)) e1)
  have hl0 : l0 = (k + K) % s.circles.length := by
    have H := hs.isRight hu hA a3 a4
    have q1 := hr _ (List.mem_of_getElem? gl)
    have q2 := H _ (List.mem_of_getElem? hd)
    have e1 : lft u d.center = lft u (lapC s.circles (k + K)).center := le_antisymm q1.1 q2.1
    exact hs.inj _ _ _ _ hd gl (frame_eq hu (le_antisymm (q1.2 e1.symm) (q2.2 e1)) e1)
  subst hk0 hl0
  have hol : o.circles.length = s.circles.length := by rw [ho, List.length_map]
  have hoget : ∀ j, o.circles[j % s.circles.length]? = some (shift (x * u) (lapC s.circles j)) := by
    intro j
    rw [ho, List.getElem?_map, (lapC_follows (cs := s.circles) (by omega) j).1]
    rfl
  have hN : s.circles.length + 2 = K + (s.circles.length - K) + 2 := by omega
  have T' : Tour (K + (s.circles.length - K) + 2) (lapC (movedJ s.circles (x * u) k K)) (lapΘ (s.circles.length + 2) (movedΘ s.circles A k K)) := by
    rw [← hN]; exact T
  have sideA : ∀ v c p : ℂ, v = u → (isRightPoint v c p = true ↔ along A p < along A c) := by
    rintro v c p rfl
    unfold isRightPoint
    rw [decide_eq_true_eq]
    have : Vec.determinant v (p - c) = along A (p - c) := (along_left hu hA _).symm
    rw [this, along_sub, sub_neg]
  have vals : ∀ i, i ≤ s.circles.length + 1 → ∀ z, OnArc (lapC (movedJ s.circles (x * u) k K)) (lapΘ (s.circles.length + 2) (movedΘ s.circles A k K)) i z →
      movedΘ s.circles A k K i ≤ z.2 ∧ z.2 ≤ movedΘ s.circles A k K (i + 1) := by
    intro i hi z hz
    obtain ⟨z1, z2, -⟩ := hz
    rw [small i (by omega)] at z1
    rw [small (i + 1) (by omega)] at z2
    exact ⟨z1, z2⟩
  have vfirst : ∀ i, i ≤ K → ∀ z, OnArc (lapC (movedJ s.circles (x * u) k K)) (lapΘ (s.circles.length + 2) (movedΘ s.circles A k K)) i z →
      A ≤ z.2 ∧ z.2 ≤ A + π := by
    intro i hi z hz
    obtain ⟨z1, z2⟩ := vals i (by omega) z hz
    rcases (harc i (by omega)).side with ⟨q1, q2, q3, -⟩ | ⟨q1, -⟩
    · exact ⟨q2.trans z1, z2.trans q3⟩
    · omega
  have vlast : ∀ i, K < i → i ≤ s.circles.length + 1 → ∀ z, OnArc (lapC (movedJ s.circles (x * u) k K)) (lapΘ (s.circles.length + 2) (movedΘ s.circles A k K)) i z →
      A + π ≤ z.2 ∧ z.2 ≤ A + 2 * π := by
    intro i hi hi' z hz
    obtain ⟨z1, z2⟩ := vals i hi' z hz
    rcases (harc i (by omega)).side with ⟨q1, -⟩ | ⟨q1, q2, q3, -⟩
    · omega
    · exact ⟨q2.trans z1, z2.trans q3⟩
  have main := caps_points (first := s) (second := o) T' hin hsup hh
    (fun j => by
      rw [hrad, ← hs.radius 0]
      exact hbig _ (lapC_mem (by omega) 0))
    (fun j hj => by
      obtain ⟨m, l, m1, -, -, m4, m5⟩ := T.laps j
      rw [small m (by omega)] at m4
      rw [small (m + 1) (by omega)] at m5
      rw [hrad] at hj
      have q1 := (harc m m1).sharp (lt_of_le_of_ne hs.sound.pos (Ne.symm hj))
      have q2 := (harc m m1).pi
      have := collinear_lt_pi
      constructor <;> linarith)
    hix
    (by rw [movedJ_lap _ _ _ _ (by omega)]; unfold movedC; rw [if_pos (by omega)]; exact gk)
    (by rw [movedJ_lap _ _ _ _ (by omega)]; unfold movedC; rw [if_pos (le_refl _)]; exact gl)
    (by rw [movedJ_lap _ _ _ _ (by omega)]; unfold movedC; rw [if_neg (by omega)]; exact hoget (k + K))
    (by
      rw [movedJ_lap _ _ _ _ (by omega)]
      unfold movedC
      rw [if_neg (by omega), show k + (K + 1 + (s.circles.length - K)) - 1 = k + s.circles.length by omega, lapC_period]
      exact hoget k)
    (by
      dsimp only
      rw [walk_eq s (by omega) k K _ hKn hKn]
      congr 1
      refine cwList_congr fun j hj => ?_
      rw [Nat.zero_add, movedJ_lap _ _ _ _ (by omega)]
      unfold movedC
      rw [if_pos (by omega)])
    (by
      dsimp only
      have e : k % s.circles.length = (k + K + (s.circles.length - K)) % s.circles.length := by
        rw [show k + K + (s.circles.length - K) = k + s.circles.length by omega, Nat.add_mod_right]
      have := walk_eq o (by omega) (k + K) (s.circles.length - K) o.circles.length (by omega) (by omega)
      rw [hol] at this ⊢
      rw [e, this]
      congr 1
      refine cwList_congr fun j hj => ?_
      rw [movedJ_lap _ _ _ _ (by omega), lapC_shift ho (by omega)]
      unfold movedC
      rw [if_neg (by omega), show k + (K + 1 + j) - 1 = k + K + j by omega])
    (by
      intro p q i j hi hj hp hq hst p1 p2
      rw [sideA _ _ _ hf, sideA _ _ _ hf]
      have := hst.up p2 p1 (χ := A) (vfirst j hj q hq).2 (vfirst i hi p hp).1
      intro g
      linarith)
    (by
      intro p q i j hi hi' hj hj' hp hq hst p1 p2
      rw [sideA _ _ _ hf, sideA _ _ _ hf]
      have := hst.up p2 p1 (χ := A + π) (by linarith [(vlast j (by omega) (by omega) q hq).2]) (vlast i (by omega) (by omega) p hp).1
      rw [along_add_pi, along_add_pi] at this
      intro g
      linarith)
    pts
  rw [hf] at main
  exact main

/-! ## Circles -/

theorem circle_step {c : Circle} {x y : ℂ × ℝ} (hx : x.1 = c.getPoint x.2) (hy : y.1 = c.getPoint y.2) (h : y.2 ≤ x.2) : Step x y := by
  refine ⟨h, fun e => ?_⟩
  rw [hx, hy, e, sub_self]
  simp [across]

/-- The points of a circle. -/
theorem circle_whole {s : TipShape} {c : Circle} {h : ℝ} (hs : s.circles = [c]) (hr : 0 ≤ c.radius) (hcen : s.center = c.center) (hh : 0 < h)
    (hbig : NotHuge h s.circles) (v : ℂ) (pts : ExtrusionPoints) : ∃ l r, s.appendWholeShape h v pts = some ⟨pts.left ++ l, pts.right ++ r⟩ ∧
      Outlines (region s) h (l ++ r.reverse) ∧ (∀ p ∈ l, NotRight v s.center p) ∧ ∀ p ∈ r, NotLeft v s.center p := by
  have hpi := Real.pi_pos
  have hb : c.radius ≤ 200000000 * h := hbig c (by rw [hs]; exact List.mem_singleton_self c)
  obtain ⟨α, hα⟩ : ∃ α, α = min (c.getArcAngleForChordHeight h) π := ⟨_, rfl⟩
  obtain ⟨ρ, hρ⟩ : ∃ ρ, ρ = Vec.direction (-v) := ⟨_, rfl⟩
  have α1 : α ≤ π := by rw [hα]; exact min_le_right _ _
  have α0 : 0 ≤ α ∧ c.radius * (1 - Real.cos (α / 2)) ≤ h := by
    rcases hr.eq_or_lt with e | e
    · have : α = 0 := by
        rw [hα]
        unfold Circle.getArcAngleForChordHeight
        rw [if_pos e.symm]
        exact min_eq_left hpi.le
      rw [this, ← e, zero_mul]
      exact ⟨le_refl _, hh.le⟩
    · have h0 : 0 ≤ α := by rw [hα]; exact le_min (arcAngle_pos e hh).1.le hpi.le
      exact ⟨h0, ((step_iff e hh h0).1 (by rw [hα]; exact min_le_left _ _)).2⟩
  obtain ⟨α0, αh⟩ := α0
  obtain ⟨q, hq, ⟨qa, qb⟩, hql⟩ := arc_points (c := c) (a := ρ - α / 2) (b := ρ - π + α / 2) (α := ρ - α / 2) hr hh hb (by linarith) (by linarith)
    (SameAngle.refl _)
  obtain ⟨q', hq', ⟨qa', qb'⟩, hqr⟩ := arc_points_up (c := c) (a := ρ - π - α / 2) (b := ρ - 2 * π + α / 2) (β := ρ + α / 2) hr hh hb (by linarith)
    (by linarith) ⟨1, by push_cast; ring⟩
  have far : ∀ φ, ∀ z ∈ region s, along φ z ≤ along φ c.center + c.radius := by
    intro φ
    refine hull_along fun d hd => ?_
    rw [hs, List.mem_singleton] at hd
    rw [hd]
  have hL : Loop (region s) (q ++ q') := by
    have on : ∀ x ∈ q ++ q', x.1 = c.getPoint x.2 ∧ ρ - 2 * π + α / 2 ≤ x.2 ∧ x.2 ≤ ρ - α / 2 := by
      intro x hx
      rcases List.mem_append.1 hx with g | g
      · obtain ⟨g1, g2, g3⟩ := hq.on x g; exact ⟨g3, by linarith, g2⟩
      · obtain ⟨g1, g2, g3⟩ := hq'.on x g; exact ⟨g3, g1, by linarith⟩
    refine ⟨?_, ?_, ?_⟩
    · intro x hx
      rw [(on x hx).1]
      refine ⟨disc_region (by rw [hs]; exact List.mem_singleton_self c) (getPoint_in hr _), fun z hz => ?_⟩
      rw [along_getPoint]
      exact far _ z hz
    · rw [List.pairwise_append]
      refine ⟨hq.chain, hq'.chain, fun x hx y hy => ?_⟩
      obtain ⟨g1, g2, g3⟩ := hq.on x hx
      obtain ⟨k1, k2, k3⟩ := hq'.on y hy
      exact circle_step g3 k3 (by linarith)
    · intro x hx y hy
      obtain ⟨g1, g2, g3⟩ := on x hx
      obtain ⟨k1, k2, k3⟩ := on y hy
      refine circle_step (c := c) k1 ?_ ?_
      · unfold lapBack; dsimp only
        rw [g1, SameAngle.getPoint (sameAngle_lap x.2)]
      · unfold lapBack; dsimp only; linarith
  have hN : ∀ φ, ∀ z ∈ region s, ∃ x ∈ q ++ q', along φ z ≤ along φ x.1 + h := by
    intro φ z hz
    have key : ∃ x ∈ q ++ q', c.radius * (1 - Real.cos (φ - x.2)) ≤ h ∧ x.1 = c.getPoint x.2 := by
      obtain ⟨u, u1, u2, u3⟩ := exists_turn (ρ - 2 * π) φ
      have conv : ∀ x : ℂ × ℝ, Real.cos (φ - x.2) = Real.cos (ρ - 2 * π + u - x.2) := by
        intro x
        obtain ⟨k, hk⟩ := u3
        exact SameAngle.cos ⟨k, by rw [hk]; ring⟩
      have close : ∀ t, |t| ≤ α / 2 → c.radius * (1 - Real.cos t) ≤ h := by
        intro t ht
        have := Real.cos_le_cos_of_nonneg_of_le_pi (abs_nonneg t) (by linarith : α / 2 ≤ π) ht
        rw [Real.cos_abs] at this
        have := mul_le_mul_of_nonneg_left this hr
        linarith
      by_cases c1 : ρ - 2 * π + u ≤ ρ - 2 * π + α / 2
      · refine ⟨_, List.mem_append_right _ qb', ?_, rfl⟩
        rw [conv]
        exact close _ (abs_le.2 ⟨by dsimp only; linarith, by dsimp only; linarith⟩)
      by_cases c2 : ρ - 2 * π + u ≤ ρ - π - α / 2
      · obtain ⟨x, x1, x2⟩ := hq'.near (ρ - 2 * π + u) (by linarith) c2
        exact ⟨x, List.mem_append_right _ x1, by rw [conv]; exact x2, (hq'.on x x1).2.2⟩
      by_cases c3 : ρ - 2 * π + u ≤ ρ - π
      · refine ⟨_, List.mem_append_right _ qa', ?_, rfl⟩
        rw [conv]
        exact close _ (abs_le.2 ⟨by dsimp only; linarith, by dsimp only; linarith⟩)
      by_cases c4 : ρ - 2 * π + u ≤ ρ - π + α / 2
      · refine ⟨_, List.mem_append_left _ qb, ?_, rfl⟩
        rw [conv]
        exact close _ (abs_le.2 ⟨by dsimp only; linarith, by dsimp only; linarith⟩)
      by_cases c5 : ρ - 2 * π + u ≤ ρ - α / 2
      · obtain ⟨x, x1, x2⟩ := hq.near (ρ - 2 * π + u) (by linarith) c5
        exact ⟨x, List.mem_append_left _ x1, by rw [conv]; exact x2, (hq.on x x1).2.2⟩
      · refine ⟨_, List.mem_append_left _ qa, ?_, rfl⟩
        rw [conv]
        exact close _ (abs_le.2 ⟨by dsimp only; linarith, by dsimp only; linarith⟩)
    obtain ⟨x, hx, h1, h2⟩ := key
    refine ⟨x, hx, ?_⟩
    rw [h2, along_point, ← Real.cos_neg, show -(x.2 - φ) = φ - x.2 by ring]
    have := far φ z hz
    linarith
  have side : ∀ φ, v.re * ((c.getPoint φ).im - s.center.im) - v.im * ((c.getPoint φ).re - s.center.re) = ‖v‖ * (c.radius * Real.cos (φ - (ρ - π / 2))) := by
    intro φ
    by_cases hv : v = 0
    · rw [hv]; simp
    have e : SameAngle (Vec.direction v) (ρ - π / 2 - π / 2) := by
      have := arg_div_same hv (neg_ne_zero.2 hv)
      rw [neg_div, div_self hv, Complex.arg_neg_one, ← hρ] at this
      obtain ⟨k, hk⟩ := this
      exact ⟨-k, by push_cast; linarith⟩
    have := rotate_left v (c.getPoint φ - s.center) e
    rw [Complex.sub_im, Complex.sub_re] at this
    rw [this, hcen, along_sub, along_point]
    ring
  refine ⟨q.map Prod.fst, (q'.map Prod.fst).reverse, ?_, ?_, ?_, ?_⟩
  · unfold TipShape.appendWholeShape
    rw [hs]
    dsimp only
    rw [← hα, ← hρ, show α - π = ρ - π + α / 2 - (ρ - α / 2) by ring, hql,
      show π - α = ρ - π - α / 2 - (ρ - 2 * π + α / 2) by ring, hqr]
  · rw [List.reverse_reverse, ← List.map_append]
    exact hL.outlines hh.le hN rfl
  · intro p hp
    obtain ⟨x, hx, rfl⟩ := List.mem_map.1 hp
    obtain ⟨g1, g2, g3⟩ := hq.on x hx
    unfold NotRight
    rw [g3, side]
    exact mul_nonneg (norm_nonneg _) (mul_nonneg hr (Real.cos_nonneg_of_neg_pi_div_two_le_of_le (by linarith) (by linarith)))
  · intro p hp
    obtain ⟨x, hx, rfl⟩ := List.mem_map.1 (List.mem_reverse.1 hp)
    obtain ⟨g1, g2, g3⟩ := hq'.on x hx
    unfold NotLeft
    rw [g3, side]
    have : Real.cos (x.2 - (ρ - π / 2)) ≤ 0 := by
      rw [← Real.cos_add_two_pi]
      exact Real.cos_nonpos_of_pi_div_two_le_of_le (by linarith) (by linarith)
    exact mul_nonpos_of_nonneg_of_nonpos (norm_nonneg _) (mul_nonpos_of_nonneg_of_nonpos hr this)

/-- The points of the two caps between two circles. -/
theorem circle_caps {s o : TipShape} {c d : Circle} {h : ℝ} (hs : s.circles = [c]) (ho : o.circles = [d]) (hr : 0 ≤ c.radius) (hr' : 0 ≤ d.radius)
    (hcen : s.center = c.center) (hcen' : o.center = d.center) (hbes : Beside c d) (hh : 0 < h) (hbig : NotHuge h (s.circles ++ o.circles))
    (pts : ExtrusionPoints) : ∃ l r l' r',
      appendStartcap s o h pts = some ⟨pts.left ++ l, pts.right ++ r⟩ ∧
      appendEndcap s o h ⟨pts.left ++ l, pts.right ++ r⟩ = some ⟨pts.left ++ l ++ l', pts.right ++ r ++ r'⟩ ∧
      Outlines (hull (s.circles ++ o.circles)) h ((l ++ l') ++ (r ++ r').reverse) ∧
      (∀ p ∈ l, NotRight (forwardDirection s o) s.center p) ∧ (∀ p ∈ r, NotLeft (forwardDirection s o) s.center p) ∧
      (∀ p ∈ l', NotRight (forwardDirection s o) o.center p) ∧ ∀ p ∈ r', NotLeft (forwardDirection s o) o.center p := by
  have hpi := Real.pi_pos
  obtain ⟨hne, hle⟩ := hbes
  have hw0 : d.center - c.center ≠ 0 := sub_ne_zero.2 hne.symm
  have hd0 : 0 < ‖d.center - c.center‖ := norm_pos_iff.2 hw0
  have hfwd : forwardDirection s o = Vec.asUnitVec (d.center - c.center) := by
    unfold forwardDirection
    rw [hcen, hcen', if_neg hne]
  obtain ⟨ψ, hψ⟩ : ∃ ψ, ψ = Vec.direction (d.center - c.center) := ⟨_, rfl⟩
  have hal : ∀ φ, along φ (d.center - c.center) = ‖d.center - c.center‖ * Real.cos (φ - ψ) := fun φ => by rw [along_eq, hψ]
  have hac : ∀ φ, across φ (d.center - c.center) = ‖d.center - c.center‖ * Real.sin (ψ - φ) := fun φ => by rw [RoundedPolygon.across_eq, hψ]
  generalize hD : ‖d.center - c.center‖ = D at *
  -- the angle of the tangents
  have hcol : 0 < collinear := by unfold collinear; norm_num
  have hcpi := collinear_lt_pi
  have hcos0 : 0 ≤ Real.cos (collinear / 2) := Real.cos_nonneg_of_neg_pi_div_two_le_of_le (by linarith) (by linarith)
  obtain ⟨γ, γ1, γ2, γ3⟩ : ∃ γ, collinear / 2 ≤ γ ∧ γ ≤ π - collinear / 2 ∧ D * Real.cos γ = c.radius - d.radius := by
    obtain ⟨l1, l2⟩ := abs_le.1 hle
    have q1 : (c.radius - d.radius) / D ≤ Real.cos (collinear / 2) := by rw [div_le_iff₀ hd0]; exact l2
    have q2 : -Real.cos (collinear / 2) ≤ (c.radius - d.radius) / D := by rw [le_div_iff₀ hd0]; linarith
    refine ⟨Real.arccos ((c.radius - d.radius) / D), ?_, ?_, ?_⟩
    · have := Real.arccos_le_arccos q1
      rwa [Real.arccos_cos (by linarith) (by linarith)] at this
    · have := Real.arccos_le_arccos q2
      rwa [Real.arccos_neg, Real.arccos_cos (by linarith) (by linarith)] at this
    · have := Real.cos_le_one (collinear / 2)
      rw [Real.cos_arccos (by linarith) (by linarith), mul_div_cancel₀ _ hd0.ne']
  have sγ : 0 < Real.sin γ := Real.sin_pos_of_pos_of_lt_pi (by linarith) (by linarith)
  obtain ⟨θ, hθ⟩ : ∃ θ : ℕ → ℝ, θ = fun j => if j = 0 then ψ + γ else if j = 1 then ψ + 2 * π - γ else ψ + 2 * π + γ := ⟨_, rfl⟩
  have t0 : θ 0 = ψ + γ := by rw [hθ]; rfl
  have t1 : θ 1 = ψ + 2 * π - γ := by rw [hθ]; rfl
  have t2 : θ 2 = ψ + 2 * π + γ := by rw [hθ]; rfl
  have tt : TurnsOnce [c, d] θ := by
    refine ⟨?_, ?_, ?_⟩
    · intro i hi
      simp only [List.length_cons, List.length_nil] at hi
      obtain rfl | rfl : i = 0 ∨ i = 1 := by omega
      · rw [t0, t1]; linarith
      · rw [t1, t2]; linarith
    · simp only [List.length_cons, List.length_nil]
      rw [t0, show 0 + 1 + 1 = 2 from rfl, t2]; ring
    · rintro i a b ⟨f1, f2⟩
      have hi := (List.getElem?_eq_some_iff.1 f1).1
      simp only [List.length_cons, List.length_nil] at hi f2
      obtain rfl | rfl : i = 0 ∨ i = 1 := by omega
      · simp only [List.getElem?_cons_zero, Option.some.injEq] at f1
        norm_num at f2
        subst f1 f2
        rw [rightTangent_iff, hal, hac, Nat.zero_add, t1]
        refine ⟨?_, ?_⟩
        · rw [show ψ + 2 * π - γ - ψ = -γ + 2 * π by ring, Real.cos_add_two_pi, Real.cos_neg, γ3]
        · rw [show ψ - (ψ + 2 * π - γ) = γ - 2 * π by ring, Real.sin_sub_two_pi]
          exact mul_pos hd0 sγ
      · norm_num at f1 f2
        subst f1 f2
        rw [rightTangent_iff, ← neg_sub d.center c.center]
        have n1 : ∀ φ, along φ (-(d.center - c.center)) = -along φ (d.center - c.center) := fun φ => by
          unfold along; rw [Complex.neg_re, Complex.neg_im]; ring
        have n2 : ∀ φ, across φ (-(d.center - c.center)) = -across φ (d.center - c.center) := fun φ => by
          unfold across; rw [Complex.neg_re, Complex.neg_im]; ring
        rw [n1, n2, hal, hac, show 1 + 1 = 2 from rfl, t2]
        refine ⟨?_, ?_⟩
        · rw [show ψ + 2 * π + γ - ψ = γ + 2 * π by ring, Real.cos_add_two_pi, γ3]; ring
        · rw [show ψ - (ψ + 2 * π + γ) = -γ - 2 * π by ring, Real.sin_sub_two_pi, Real.sin_neg]
          linarith [mul_pos hd0 sγ]
  have T := turns_tour (cs := [c, d]) (by simp) (by simp [hr, hr']) tt
  have len : [c, d].length = 2 := rfl
  rw [len] at T
  have honce : θ 2 = θ 0 + 2 * π := by rw [t0, t2]; ring
  have small : ∀ i ≤ 2, lapΘ 2 θ i = θ i := fun i hi => lapΘ_small honce hi (by omega)
  have c0 : lapC [c, d] 0 = c := rfl
  have c1 : lapC [c, d] 1 = d := rfl
  -- arcs, up to laps
  have arcs : ∀ i, ∃ l : ℕ, (lapC [c, d] i = c ∧ lapΘ 2 θ i = ψ + γ + l * (2 * π) ∧ lapΘ 2 θ (i + 1) = ψ + 2 * π - γ + l * (2 * π)) ∨
      (lapC [c, d] i = d ∧ lapΘ 2 θ i = ψ + 2 * π - γ + l * (2 * π) ∧ lapΘ 2 θ (i + 1) = ψ + 2 * π + γ + l * (2 * π)) := by
    intro i
    obtain ⟨m, l, m1, m2, -, m4, m5⟩ := T.laps i
    rw [small m (by omega)] at m4
    rw [small (m + 1) (by omega)] at m5
    refine ⟨l, ?_⟩
    obtain rfl | rfl : m = 0 ∨ m = 1 := by omega
    · exact Or.inl ⟨m2, by rw [m4, t0], by rw [m5, Nat.zero_add, t1]⟩
    · exact Or.inr ⟨m2, by rw [m4, t1], by rw [m5, show 1 + 1 = 2 from rfl, t2]⟩
  have hall : ∀ φ k, along φ c.center + c.radius ≤ k → along φ d.center + d.radius ≤ k → ∀ z ∈ hull (s.circles ++ o.circles), along φ z ≤ k := by
    intro φ k h1 h2
    refine hull_along fun e he => ?_
    rw [hs, ho] at he
    simp only [List.cons_append, List.nil_append, List.mem_cons, List.not_mem_nil, or_false] at he
    rcases he with rfl | rfl
    · exact h1
    · exact h2
  have hin : ∀ i φ, lapΘ 2 θ i ≤ φ → φ ≤ lapΘ 2 θ (i + 1) → (lapC [c, d] i).getPoint φ ∈ hull (s.circles ++ o.circles) := by
    intro i φ _ _
    refine subset_convexHull ℝ _ ⟨lapC [c, d] i, ?_, getPoint_in (T.rad i) _⟩
    rw [hs, ho]
    exact lapC_mem (by simp) i
  have hsup : ∀ i φ, lapΘ 2 θ i ≤ φ → φ ≤ lapΘ 2 θ (i + 1) → ∀ z ∈ hull (s.circles ++ o.circles),
      along φ z ≤ along φ (lapC [c, d] i).center + (lapC [c, d] i).radius := by
    intro i φ h1 h2
    have e : along φ d.center - along φ c.center = D * Real.cos (φ - ψ) := by rw [← along_sub, hal]
    obtain ⟨l, ⟨l1, l2, l3⟩ | ⟨l1, l2, l3⟩⟩ := arcs i
    · rw [l1]
      refine hall _ _ (le_refl _) ?_
      have hc : Real.cos (φ - ψ) ≤ Real.cos γ := by
        rw [SameAngle.cos (a := φ - ψ) (b := φ - ψ - l * (2 * π)) ⟨l, by push_cast; ring⟩]
        rw [l2] at h1
        rw [l3] at h2
        by_cases g : φ - ψ - l * (2 * π) ≤ π
        · exact Real.cos_le_cos_of_nonneg_of_le_pi (by linarith) g (by linarith)
        · rw [← Real.cos_neg, ← Real.cos_add_two_pi]
          exact Real.cos_le_cos_of_nonneg_of_le_pi (by linarith) (by linarith) (by linarith)
      have := mul_le_mul_of_nonneg_left hc hd0.le
      linarith
    · rw [l1]
      refine hall _ _ ?_ (le_refl _)
      have hc : Real.cos γ ≤ Real.cos (φ - ψ) := by
        rw [SameAngle.cos (a := φ - ψ) (b := φ - ψ - 2 * π - l * (2 * π)) ⟨l + 1, by push_cast; ring⟩, ← Real.cos_abs (φ - ψ - 2 * π - l * (2 * π))]
        rw [l2] at h1
        rw [l3] at h2
        exact Real.cos_le_cos_of_nonneg_of_le_pi (abs_nonneg _) (by linarith) (abs_le.2 ⟨by linarith, by linarith⟩)
      have := mul_le_mul_of_nonneg_left hc hd0.le
      linarith
  have hix : tangentCircleIndices s o = some ⟨(0, 0), (0, 0)⟩ := by
    unfold tangentCircleIndices
    rw [if_pos (by rw [hs, ho]; exact ⟨rfl, rfl⟩)]
  have hu : ‖forwardDirection s o‖ = 1 := by rw [hfwd]; exact unit_norm
  have hdir : SameAngle (ψ + π / 2) (Vec.direction (forwardDirection s o) + π / 2) := by
    have e : Vec.direction (forwardDirection s o) = ψ := by
      rw [hfwd, hψ]
      conv_rhs => rw [unit_mul (v := d.center - c.center)]
      unfold Vec.direction
      rw [Complex.arg_real_mul _ (by rw [hD]; exact hd0)]
    rw [e]; exact SameAngle.refl _
  have side : ∀ e p : ℂ, isRightPoint (forwardDirection s o) e p = true ↔ along (ψ + π / 2) p < along (ψ + π / 2) e := by
    intro e p
    unfold isRightPoint
    rw [decide_eq_true_eq]
    have : Vec.determinant (forwardDirection s o) (p - e) = along (ψ + π / 2) (p - e) := (along_left hu hdir _).symm
    rw [this, along_sub, sub_neg]
  have on : ∀ (e : Circle) (t : ℝ), 0 ≤ e.radius → (along (ψ + π / 2) (e.getPoint t) < along (ψ + π / 2) e.center ↔
      0 < e.radius ∧ Real.cos (t - (ψ + π / 2)) < 0) := by
    intro e t he
    rw [along_point]
    constructor
    · intro g
      have g' : e.radius * Real.cos (t - (ψ + π / 2)) < 0 := by linarith
      have h0 : 0 < e.radius := lt_of_le_of_ne he fun e0 => by rw [← e0, zero_mul] at g'; exact lt_irrefl _ g'
      exact ⟨h0, by by_contra k; linarith [mul_nonneg he (not_lt.1 k)]⟩
    · rintro ⟨g1, g2⟩
      linarith [mul_neg_of_pos_of_neg g1 g2]
  refine caps_points (first := s) (second := o) (K := 0) (K' := 0) T hin hsup hh ?_ ?_ hix ?_ ?_ ?_ ?_ ?_ ?_ ?_ ?_ pts
  · intro j
    refine hbig _ ?_
    rw [hs, ho]
    exact lapC_mem (by simp) j
  · intro j _
    obtain ⟨l, ⟨-, l2, l3⟩ | ⟨-, l2, l3⟩⟩ := arcs j
    · rw [l2, l3]; constructor <;> linarith
    · rw [l2, l3]; constructor <;> linarith
  · rw [hs, c0]; rfl
  · rw [hs, c0]; rfl
  · rw [ho, Nat.zero_add, c1]; rfl
  · rw [ho, Nat.zero_add, c1]; rfl
  · rw [hs]
    simp only [List.length_singleton]
    rw [TipShape.walk, hs]
    rfl
  · rw [ho]
    simp only [List.length_singleton]
    rw [TipShape.walk, ho]
    rfl
  · intro x y i j hi hj hx hy hst _ _
    obtain rfl : i = 0 := by omega
    obtain rfl : j = 0 := by omega
    obtain ⟨x1, x2, x3⟩ := hx
    obtain ⟨y1, y2, y3⟩ := hy
    rw [small 0 (by omega), t0] at x1 y1
    rw [Nat.zero_add, small 1 (by omega), t1] at x2 y2
    rw [c0] at x3 y3
    have hxy := hst.1
    rw [side, side, hcen, x3, y3, on _ _ hr, on _ _ hr]
    rintro ⟨g1, g2⟩
    refine ⟨g1, ?_⟩
    have : π / 2 < x.2 - (ψ + π / 2) := by
      by_contra k
      exact absurd g2 (not_lt.2 (Real.cos_nonneg_of_neg_pi_div_two_le_of_le (by linarith) (not_lt.1 k)))
    exact Real.cos_neg_of_pi_div_two_lt_of_lt (by linarith) (by linarith)
  · intro x y i j hi hi' hj hj' hx hy hst _ _
    obtain rfl : i = 1 := by omega
    obtain rfl : j = 1 := by omega
    obtain ⟨x1, x2, x3⟩ := hx
    obtain ⟨y1, y2, y3⟩ := hy
    rw [small 1 (by omega), t1] at x1 y1
    rw [show 1 + 1 = 2 from rfl, small 2 (by omega), t2] at x2 y2
    rw [c1] at x3 y3
    have hxy := hst.1
    rw [side, side, hcen', x3, y3, on _ _ hr', on _ _ hr']
    rintro ⟨g1, g2⟩
    refine ⟨g1, ?_⟩
    have : y.2 - (ψ + π / 2) - 2 * π < -(π / 2) := by
      by_contra k
      refine absurd g2 (not_lt.2 ?_)
      rw [← Real.cos_sub_two_pi]
      exact Real.cos_nonneg_of_neg_pi_div_two_le_of_le (not_lt.1 k) (by linarith)
    rw [← Real.cos_neg]
    rw [← Real.cos_add_two_pi]
    exact Real.cos_neg_of_pi_div_two_lt_of_lt (by linarith) (by linarith)

end Verif.RealGeom
