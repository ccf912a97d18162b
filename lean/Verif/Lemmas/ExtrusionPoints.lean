import Verif.Lemmas.BrushTipMove
import Verif.Spec.ExtrusionPoints
import Mathlib.Analysis.SpecialFunctions.Trigonometric.Bounds
import Mathlib.Analysis.Real.Pi.Bounds

/-!
# Lemmas about the extrusion points of tip shapes
-/

set_option autoImplicit false

namespace Verif.RealGeom

open Spec Real

/-! ## Points with normals that turn clockwise -/

/-- A point and the direction of the outward normal there. The second comes after the first, clockwise. -/
def Step (x y : ℂ × ℝ) : Prop := y.2 ≤ x.2 ∧ (x.2 = y.2 → across x.2 (y.1 - x.1) ≤ 0)

/-- The same point, one lap later. -/
noncomputable def lapBack (x : ℂ × ℝ) : ℂ × ℝ := (x.1, x.2 - 2 * π)

theorem Step.refl (x : ℂ × ℝ) : Step x x := ⟨le_refl _, fun _ => by rw [sub_self]; simp [across]⟩

theorem across_add (θ : ℝ) (p q : ℂ) : across θ (p + q) = across θ p + across θ q := by
  unfold across; rw [Complex.add_re, Complex.add_im]; ring

theorem Step.trans {x y z : ℂ × ℝ} (h : Step x y) (h' : Step y z) : Step x z := by
  refine ⟨h'.1.trans h.1, fun e => ?_⟩
  have e1 : x.2 = y.2 := le_antisymm (by rw [e]; exact h'.1) h.1
  have e2 : y.2 = z.2 := by rw [← e1, e]
  have a := h.2 e1
  have b := h'.2 e2
  rw [← e1] at b
  rw [across_sub] at *
  linarith

theorem sameAngle_lap (x : ℝ) : SameAngle (x - 2 * π) x := ⟨-1, by push_cast; ring⟩

theorem Step.lap {x y : ℂ × ℝ} (h : Step x y) : Step (lapBack x) (lapBack y) := by
  refine ⟨by unfold lapBack; dsimp only; linarith [h.1], fun e => ?_⟩
  unfold lapBack at *
  dsimp only at *
  rw [SameAngle.across (sameAngle_lap x.2)]
  exact h.2 (by linarith)

/-- Points that go around a set. -/
structure Loop (R : Set ℂ) (L : List (ℂ × ℝ)) : Prop where
  support : ∀ x ∈ L, x.1 ∈ R ∧ ∀ z ∈ R, along x.2 z ≤ along x.2 x.1
  chain : L.Pairwise Step
  close : ∀ x ∈ L, ∀ y ∈ L, Step y (lapBack x)

theorem Loop.rotate {R : Set ℂ} {A B : List (ℂ × ℝ)} (h : Loop R (A ++ B)) : Loop R (B ++ A.map lapBack) := by
  have hpi := Real.pi_pos
  obtain ⟨hA, hB, hAB⟩ := List.pairwise_append.1 h.chain
  refine ⟨?_, ?_, ?_⟩
  · intro x hx
    rcases List.mem_append.1 hx with g | g
    · exact h.support x (List.mem_append_right _ g)
    · obtain ⟨y, hy, rfl⟩ := List.mem_map.1 g
      obtain ⟨a, b⟩ := h.support y (List.mem_append_left _ hy)
      refine ⟨a, fun z hz => ?_⟩
      unfold lapBack
      dsimp only
      rw [SameAngle.along (sameAngle_lap y.2), SameAngle.along (sameAngle_lap y.2)]
      exact b z hz
  · refine List.pairwise_append.2 ⟨hB, ?_, ?_⟩
    · rw [List.pairwise_map]
      exact hA.imp fun g => g.lap
    · intro x hx y hy
      obtain ⟨y, hy', rfl⟩ := List.mem_map.1 hy
      exact h.close y (List.mem_append_left _ hy') x (List.mem_append_right _ hx)
  · intro x hx y hy
    rcases List.mem_append.1 hx with g | g <;> rcases List.mem_append.1 hy with g' | g'
    · exact h.close x (List.mem_append_right _ g) y (List.mem_append_right _ g')
    · obtain ⟨y, hy', rfl⟩ := List.mem_map.1 g'
      exact (hAB y hy' x g).lap
    · obtain ⟨x, hx', rfl⟩ := List.mem_map.1 g
      have := (h.close x (List.mem_append_left _ hx') y (List.mem_append_right _ g')).1
      unfold lapBack at *
      dsimp only at *
      exact ⟨by dsimp only; linarith, fun e => by dsimp only at e; linarith⟩
    · obtain ⟨x, hx', rfl⟩ := List.mem_map.1 g
      obtain ⟨y, hy', rfl⟩ := List.mem_map.1 g'
      exact (h.close x (List.mem_append_left _ hx') y (List.mem_append_left _ hy')).lap

theorem along_combine (a b χ : ℝ) (w : ℂ) : Real.sin (a - b) * along χ w = Real.sin (χ - b) * along a w - Real.sin (χ - a) * along b w := by
  have h1 := Real.sin_sq_add_cos_sq χ
  unfold along
  rw [Real.sin_sub, Real.sin_sub, Real.sin_sub]
  ring

theorem along_add_pi (χ : ℝ) (w : ℂ) : along (χ + π) w = -along χ w := by
  unfold along; rw [Real.cos_add_pi, Real.sin_add_pi]; ring

theorem along_lap (χ : ℝ) (w : ℂ) : along (χ - 2 * π) w = along χ w := SameAngle.along (sameAngle_lap χ) w

/-- While the normal turns away from a direction, points are less and less far in it. -/
theorem Step.down {x y : ℂ × ℝ} (h : Step x y) (h1 : along x.2 y.1 ≤ along x.2 x.1) (h2 : along y.2 x.1 ≤ along y.2 y.1) {χ : ℝ}
    (hx : x.2 ≤ χ) (hy : χ - π ≤ y.2) : along χ y.1 ≤ along χ x.1 := by
  rw [← sub_nonpos, ← along_sub] at h1 ⊢
  rw [← sub_nonneg, ← along_sub] at h2
  rcases eq_or_lt_of_le h.1 with e | e
  · have ha := h.2 e.symm
    rw [e] at h2
    have := along_change x.2 χ (y.1 - x.1)
    rw [this, le_antisymm h1 h2, mul_zero, zero_sub, ← neg_mul, ← Real.sin_neg, neg_sub]
    exact mul_nonpos_of_nonneg_of_nonpos (Real.sin_nonneg_of_nonneg_of_le_pi (by linarith) (by linarith)) ha
  · rcases eq_or_lt_of_le (show x.2 ≤ y.2 + π by linarith) with e' | e'
    · have : χ = x.2 := by linarith
      rw [this]; exact h1
    · have hs : 0 < Real.sin (x.2 - y.2) := Real.sin_pos_of_pos_of_lt_pi (by linarith) (by linarith)
      have e1 := along_combine x.2 y.2 χ (y.1 - x.1)
      have s1 : 0 ≤ Real.sin (χ - y.2) := Real.sin_nonneg_of_nonneg_of_le_pi (by linarith) (by linarith)
      have s2 : 0 ≤ Real.sin (χ - x.2) := Real.sin_nonneg_of_nonneg_of_le_pi (by linarith) (by linarith)
      have a := mul_nonpos_of_nonneg_of_nonpos s1 h1
      have b := mul_nonneg s2 h2
      have : Real.sin (x.2 - y.2) * along χ (y.1 - x.1) ≤ 0 := by linarith
      exact nonpos_of_mul_nonpos_right this hs

theorem Step.up {x y : ℂ × ℝ} (h : Step x y) (h1 : along x.2 y.1 ≤ along x.2 x.1) (h2 : along y.2 x.1 ≤ along y.2 y.1) {χ : ℝ}
    (hx : x.2 ≤ χ + π) (hy : χ ≤ y.2) : along χ x.1 ≤ along χ y.1 := by
  have := h.down h1 h2 (χ := χ + π) hx (by linarith)
  rw [along_add_pi, along_add_pi] at this
  linarith

theorem Loop.pair {R : Set ℂ} {L : List (ℂ × ℝ)} (h : Loop R L) {x y : ℂ × ℝ} (hx : x ∈ L) (hy : y ∈ L) :
    along x.2 y.1 ≤ along x.2 x.1 := (h.support x hx).2 _ (h.support y hy).1

theorem Loop.lapPair {R : Set ℂ} {L : List (ℂ × ℝ)} (h : Loop R L) {x y : ℂ × ℝ} (hx : x ∈ L) (hy : y ∈ L) :
    along (lapBack x).2 y.1 ≤ along (lapBack x).2 (lapBack x).1 := by
  unfold lapBack
  dsimp only
  rw [along_lap, along_lap]
  exact h.pair hx hy

/-- A line does not separate points of a loop that take turns. -/
theorem Loop.four {R : Set ℂ} {L : List (ℂ × ℝ)} (h : Loop R L) {x1 x2 x3 x4 : ℂ × ℝ} (hs : [x1, x2, x3, x4].Sublist L) {χ : ℝ}
    (f12 : along χ x1.1 < along χ x2.1) (f32 : along χ x3.1 < along χ x2.1) (f34 : along χ x3.1 < along χ x4.1)
    (f14 : along χ x1.1 < along χ x4.1) : False := by
  have m := hs.subset
  simp only [List.cons_subset, List.nil_subset, and_true] at m
  obtain ⟨m1, m2, m3, m4⟩ := m
  have p := List.Pairwise.sublist hs h.chain
  simp only [List.pairwise_cons, List.mem_cons, List.not_mem_nil, or_false, forall_eq_or_imp, forall_eq] at p
  obtain ⟨⟨s12, s13, s14⟩, ⟨s23, s24⟩, s34, -⟩ := p
  have s41 := h.close x1 m1 x4 m4
  obtain ⟨v, v0, v1, hv⟩ := exists_turn (x1.2 - π) χ
  simp only [SameAngle.along hv] at f12 f32 f34 f14
  have hpi := Real.pi_pos
  have c1 : x1.2 - π + v - π < x1.2 := by linarith
  have c2 : x1.2 ≤ x1.2 - π + v + π := by linarith
  clear hv
  generalize x1.2 - π + v = χ' at *
  have l41 : x1.2 - 2 * π ≤ x4.2 := s41.1
  rcases lt_or_ge χ' x1.2 with g | g
  · have a3 : x3.2 < χ' := by
      by_contra q
      exact absurd (s23.up (h.pair m2 m3) (h.pair m3 m2) (χ := χ') (by linarith [s12.1]) (by linarith)) (by linarith)
    have a4 : x4.2 < χ' - π := by
      by_contra q
      exact absurd (s34.down (h.pair m3 m4) (h.pair m4 m3) (χ := χ') (by linarith) (by linarith)) (by linarith)
    have := s41.up (y := lapBack x1) (h.pair (y := x1) m4 m1) (h.lapPair m1 m4) (χ := χ' - 2 * π) (by linarith) (by unfold lapBack; dsimp only; linarith)
    rw [along_lap, along_lap] at this
    unfold lapBack at this
    dsimp only at this
    linarith
  · have a2 : x2.2 < χ' - π := by
      by_contra q
      exact absurd (s12.down (h.pair m1 m2) (h.pair m2 m1) (χ := χ') (by linarith) (by linarith)) (by linarith)
    have a3 : x3.2 < χ' - 2 * π := by
      by_contra q
      have := s23.up (h.pair m2 m3) (h.pair m3 m2) (χ := χ' - 2 * π) (by linarith) (by linarith)
      rw [along_lap, along_lap] at this
      linarith
    have a4 : x4.2 < χ' - 3 * π := by
      by_contra q
      have := s34.down (h.pair m3 m4) (h.pair m4 m3) (χ := χ' - 2 * π) (by linarith) (by linarith)
      rw [along_lap, along_lap] at this
      linarith
    linarith

/-! ## The points are the corners of a convex polygon in clockwise order -/

theorem rotate_left (w v : ℂ) {χ : ℝ} (h : SameAngle (Vec.direction w) (χ - π / 2)) :
    w.re * v.im - w.im * v.re = ‖w‖ * along χ v := by
  rw [re_eq w, im_eq w, SameAngle.cos h, SameAngle.sin h, Real.cos_sub_pi_div_two, Real.sin_sub_pi_div_two]
  unfold along
  ring

theorem Loop.three {R : Set ℂ} {L : List (ℂ × ℝ)} (h : Loop R L) {x y z : ℂ × ℝ} (hs : [x, y, z].Sublist L) : ¬LeftOf x.1 y.1 z.1 := by
  intro hl
  have m := hs.subset
  simp only [List.cons_subset, List.nil_subset, and_true] at m
  obtain ⟨m1, m2, m3⟩ := m
  have p := List.Pairwise.sublist hs h.chain
  simp only [List.pairwise_cons, List.mem_cons, List.not_mem_nil, or_false, forall_eq_or_imp, forall_eq] at p
  obtain ⟨⟨s12, s13⟩, s23, -⟩ := p
  have s31 := h.close x m1 z m3
  have l31 : x.2 - 2 * π ≤ z.2 := s31.1
  have hpi := Real.pi_pos
  generalize hw : y.1 - x.1 = w at *
  have hN : 0 < ‖w‖ := by
    rw [norm_pos_iff]
    rintro rfl
    have e : y.1 = x.1 := sub_eq_zero.1 hw
    unfold LeftOf at hl
    rw [e] at hl
    simp at hl
  obtain ⟨v, v0, v1, hv⟩ := exists_turn (y.2 - 2 * π) (Vec.direction w + π / 2)
  have c1 : y.2 - 2 * π + v < y.2 := by linarith
  have c2 : y.2 ≤ y.2 - 2 * π + v + 2 * π := by linarith
  generalize y.2 - 2 * π + v = χ at *
  -- the direction of `w`, up to laps
  obtain ⟨j, hj⟩ := hv
  have hd : SameAngle (Vec.direction w) (χ - π / 2) := ⟨j, by linarith⟩
  have hal : ∀ φ, along φ w = ‖w‖ * Real.cos (φ - (χ - π / 2)) := fun φ => by
    have e := along_eq φ w
    rw [e, SameAngle.cos (b := φ - (χ - π / 2))]
    exact ⟨-j, by push_cast; linarith⟩
  have hac : ∀ φ, across φ w = ‖w‖ * Real.sin (χ - π / 2 - φ) := fun φ => by
    rw [RoundedPolygon.across_eq, SameAngle.sin (b := χ - π / 2 - φ)]
    exact ⟨j, by linarith⟩
  have f12 : along χ y.1 = along χ x.1 := by
    have := hal χ
    rw [← hw, along_sub, sub_sub_cancel, Real.cos_pi_div_two, mul_zero] at this
    linarith
  have f13 : along χ x.1 < along χ z.1 := by
    have e := rotate_left w (z.1 - x.1) hd
    unfold LeftOf at hl
    rw [← hw, Complex.sub_re, Complex.sub_im, Complex.sub_re, Complex.sub_im] at e
    rw [hw, along_sub] at e
    have : 0 < ‖w‖ * (along χ z.1 - along χ x.1) := by linarith
    have := pos_of_mul_pos_right this hN.le
    linarith
  have g1 : along x.2 w ≤ 0 := by rw [← hw, along_sub]; linarith [h.pair m1 m2]
  have g2 : 0 ≤ along y.2 w := by rw [← hw, along_sub]; linarith [h.pair m2 m1]
  rw [hal] at g1 g2
  -- no tie at the far side
  have hx : χ + π < x.2 := by
    by_contra q
    have q1 : y.2 = χ + π := by
      by_contra q2
      have := Real.cos_neg_of_pi_div_two_lt_of_lt (x := y.2 - (χ - π / 2)) (by linarith)
        (by have := lt_of_le_of_ne (show y.2 ≤ χ + π by linarith [s12.1]) q2; linarith)
      have := mul_neg_of_pos_of_neg hN this
      linarith
    have q2 : x.2 = y.2 := le_antisymm (by linarith) s12.1
    have := s12.2 q2
    rw [hw, hac, q2, q1, show χ - π / 2 - (χ + π) = π / 2 - 2 * π by ring, Real.sin_sub_two_pi, Real.sin_pi_div_two] at this
    linarith
  have hy : χ + π ≤ y.2 := by
    by_contra q2
    have := Real.cos_neg_of_pi_div_two_lt_of_lt (x := y.2 - (χ - π / 2)) (by linarith) (by linarith)
    have := mul_neg_of_pos_of_neg hN this
    linarith
  have hz : z.2 < χ + π := by
    by_contra q
    have := s23.down (h.pair m2 m3) (h.pair m3 m2) (χ := χ + 2 * π) (by linarith) (by linarith)
    rw [← along_lap (χ + 2 * π), ← along_lap (χ + 2 * π), add_sub_cancel_right] at this
    linarith
  have hx2 : χ + 2 * π ≤ x.2 := by
    by_contra q
    have := Real.cos_pos_of_mem_Ioo (x := x.2 - (χ - π / 2) - 2 * π) ⟨by linarith, by linarith⟩
    rw [Real.cos_sub_two_pi] at this
    have := mul_pos hN this
    linarith
  have := s31.up (y := lapBack x) (h.pair (y := x) m3 m1) (h.lapPair m1 m3) (χ := χ) (by linarith)
    (by unfold lapBack; dsimp only; linarith)
  unfold lapBack at this
  dsimp only at this
  linarith

theorem cons_sublist_drop {α : Type} {L l : List α} {i j : ℕ} {x : α} (hx : L[i]? = some x) (hij : i < j) (hl : l.Sublist (L.drop j)) :
    (x :: l).Sublist (L.drop i) := by
  obtain ⟨l1, e1⟩ := List.getElem?_eq_some_iff.1 hx
  rw [List.drop_eq_getElem_cons l1, e1, List.cons_sublist_cons]
  refine hl.trans ?_
  have : j = i + 1 + (j - (i + 1)) := by omega
  rw [this, ← List.drop_drop]
  exact List.drop_sublist _ _

theorem Loop.clockwise {R : Set ℂ} {L : List (ℂ × ℝ)} (h : Loop R L) : Clockwise (L.map Prod.fst) := by
  intro i j k a b c hij hjk ha hb hc
  rw [List.getElem?_map, Option.map_eq_some_iff] at ha hb hc
  obtain ⟨x, hx, rfl⟩ := ha
  obtain ⟨y, hy, rfl⟩ := hb
  obtain ⟨z, hz, rfl⟩ := hc
  refine h.three ?_
  have := cons_sublist_drop hx hij (cons_sublist_drop hy hjk (cons_sublist_drop hz (Nat.lt_succ_self k) (List.nil_sublist _)))
  exact this.trans (List.drop_sublist _ _)

/-! ## Moving the points of the right side -/

namespace TipShape

/-- No four points, in order, that take turns. -/
def NoTurns (right : ℂ → Bool) (l : List ℂ) : Prop :=
  ∀ a b c d, [a, b, c, d].Sublist l → right a = right c → right b = right d → right a = right b

theorem rightLoopCount_left (right : ℂ → Bool) (P ps : List ℂ) (i : ℕ) (h : ∀ p ∈ P, right p = false) :
    rightLoopCount right 0 none i (P ++ ps) = rightLoopCount right 0 none (i + P.length) ps := by
  induction P generalizing i with
  | nil => simp
  | cons p P ih =>
    rw [List.cons_append, rightLoopCount, if_neg (by simp [h p]), if_neg (by simp), ih (i + 1) fun q hq => h q (List.mem_cons_of_mem _ hq)]
    rw [List.length_cons, add_assoc, add_comm 1]

theorem rightLoopCount_right (right : ℂ → Bool) (M ps : List ℂ) (c i : ℕ) (st : Option ℕ) (h : ∀ p ∈ M, right p = true) :
    rightLoopCount right c st i (M ++ ps) = rightLoopCount right (c + M.length) st (i + M.length) ps := by
  induction M generalizing i c with
  | nil => simp
  | cons p M ih =>
    rw [List.cons_append, rightLoopCount, if_pos (by simp [h p]), ih _ _ fun q hq => h q (List.mem_cons_of_mem _ hq)]
    rw [List.length_cons, add_assoc, add_assoc, add_comm 1]

theorem rightLoopCount_some (right : ℂ → Bool) (ps : List ℂ) (c i k : ℕ) :
    rightLoopCount right c (some k) i ps = (c + (ps.filter right).length, some k) := by
  induction ps generalizing c i with
  | nil => simp [rightLoopCount]
  | cons p ps ih =>
    rw [rightLoopCount]
    by_cases h : right p = true
    · rw [if_pos h, ih, List.filter_cons_of_pos h, List.length_cons]; congr 1; omega
    · rw [if_neg h, if_neg (by simp), ih, List.filter_cons_of_neg h]

theorem moveLoop_down (new : List ℂ) (st : ℕ) (right : List ℂ) (i n : ℕ) (hs : st < new.length) (h : i + n = st + 1) (m : ℕ) :
    moveLoop new st right i (n + m) = moveLoop new st (right ++ (new.take n).reverse) (i + n) m := by
  induction n generalizing i right with
  | zero => simp
  | succ n ih =>
    rw [show n + 1 + m = n + m + 1 by omega, moveLoop]
    rw [if_pos (by omega), show st - i = n by omega, List.getElem?_eq_getElem (by omega)]
    simp only []
    rw [ih _ (i + 1) (by omega), List.take_succ_eq_append_getElem (by omega), List.reverse_append]
    congr 1
    · simp
    · omega

theorem moveLoop_up (new : List ℂ) (st : ℕ) (right : List ℂ) (i n : ℕ) (hi : st < i) (h : i + n = new.length) (hn : st + 1 + n ≤ new.length) :
    moveLoop new st right i n = some (right ++ ((new.drop (st + 1)).take n).reverse) := by
  induction n generalizing i right with
  | zero => simp [moveLoop]
  | succ n ih =>
    rw [moveLoop]
    rw [if_neg (by omega), show st + new.length - i = st + 1 + n by omega, List.getElem?_eq_getElem (by omega)]
    simp only []
    rw [ih _ (i + 1) (by omega) (by omega) (by omega), List.take_succ_eq_append_getElem (by rw [List.length_drop]; omega), List.reverse_append]
    simp

theorem moveLoop_spec (new : List ℂ) (st : ℕ) (right : List ℂ) (hs : st < new.length) :
    moveLoop new st right 0 new.length = some (right ++ (new.drop (st + 1) ++ new.take (st + 1)).reverse) := by
  have := moveLoop_down new st right 0 (st + 1) hs (by omega) (new.length - (st + 1))
  rw [show st + 1 + (new.length - (st + 1)) = new.length by omega] at this
  rw [this, moveLoop_up new st _ _ _ (by omega) (by omega) (by omega), List.reverse_append, List.append_assoc,
    List.take_of_length_le (l := new.drop (st + 1)) (by rw [List.length_drop])]

theorem moveBackLoop_spec (l : List ℂ) (X r : List ℂ) : moveBackLoop ⟨l, r ++ X.reverse⟩ X.length = some ⟨l ++ X, r⟩ := by
  induction X generalizing l with
  | nil => simp [moveBackLoop]
  | cons x X ih =>
    rw [List.length_cons, moveBackLoop]
    dsimp only
    rw [List.reverse_cons, ← List.append_assoc, List.getLast?_concat]
    dsimp only
    rw [List.dropLast_concat, ih]
    simp

theorem split_while {A B : ℂ → Prop} (f : ℂ → Bool) (hA : ∀ p, f p = true → A p) (hB : ∀ p, f p = false → B p) (l : List ℂ) :
    ∃ P rest : List ℂ, (∀ p ∈ P, A p) ∧ (∀ x xs, rest = x :: xs → B x) ∧ l = P ++ rest := by
  induction l with
  | nil => exact ⟨[], [], by simp, by simp, rfl⟩
  | cons a l ih =>
    by_cases h : f a = true
    · obtain ⟨P, rest, h1, h2, rfl⟩ := ih
      refine ⟨a :: P, rest, ?_, h2, rfl⟩
      intro p hp
      rcases List.mem_cons.1 hp with rfl | hp
      · exact hA _ h
      · exact h1 p hp
    · refine ⟨[], a :: l, by simp, ?_, rfl⟩
      intro x xs e
      rw [List.cons.injEq] at e
      rw [← e.1]
      exact hB a (by simpa using h)

/-- The points stay in their order, up to where the first one is; if the sides do not take turns, they are told apart. -/
theorem move_spec (forward center : ℂ) (l new r : List ℂ) : ∃ A B Ls Rs : List ℂ, new = A ++ B ∧ B ++ A = Ls ++ Rs ∧
    moveNewRightPointsOutOfLeft forward center new.length ⟨l ++ new, r⟩ = some ⟨l ++ Ls, r ++ Rs.reverse⟩ ∧
    (NoTurns (isRightPoint forward center) new →
      (∀ p ∈ Ls, isRightPoint forward center p = false) ∧ ∀ p ∈ Rs, isRightPoint forward center p = true) := by
  unfold moveNewRightPointsOutOfLeft
  dsimp only
  rw [List.length_append, Nat.add_sub_cancel, List.drop_left, List.take_left]
  generalize isRightPoint forward center = right
  obtain ⟨P, rest, hP, hrest, rfl⟩ : ∃ P rest : List ℂ, (∀ p ∈ P, right p = false) ∧ (∀ x xs, rest = x :: xs → right x = true) ∧ new = P ++ rest :=
    split_while (fun p => !right p) (by simp) (by simp) new
  obtain ⟨M, T, hM, hT, rfl⟩ : ∃ M T : List ℂ, (∀ p ∈ M, right p = true) ∧ (∀ x xs, T = x :: xs → right x = false) ∧ rest = M ++ T :=
    split_while right (by simp) (by simp) rest
  rcases M with _ | ⟨m, M⟩
  · have hT0 : T = [] := by
      rcases T with _ | ⟨t, T⟩
      · rfl
      · have := hT t T rfl; have := hrest t T rfl; simp_all
    subst hT0
    refine ⟨[], P, P, [], by simp, by simp, ?_, fun _ => ⟨hP, by simp⟩⟩
    rw [List.append_nil, List.append_nil, ← List.append_nil P, rightLoopCount_left right P [] 0 hP]
    simp [rightLoopCount]
  · have hc : ∃ st, rightLoopCount right 0 none 0 (P ++ (m :: M ++ T)) = ((m :: M).length + (T.filter right).length, st) ∧
        (if st = none ∧ (m :: M).length + (T.filter right).length > 0 then some ((P ++ (m :: M ++ T)).length - 1) else st) =
          some (P.length + M.length) := by
      rw [rightLoopCount_left right P _ 0 hP, rightLoopCount_right right _ _ _ _ _ hM]
      rcases T with _ | ⟨t, T⟩
      · refine ⟨none, by simp [rightLoopCount], ?_⟩
        rw [if_pos ⟨rfl, by simp⟩]
        simp
      · have := hT t T rfl
        refine ⟨some (P.length + M.length), ?_, by simp⟩
        rw [rightLoopCount, if_neg (by simp [this]), if_pos ⟨rfl, by simp⟩, rightLoopCount_some, List.filter_cons_of_neg (by simp [this])]
        simp
    obtain ⟨st, h1, h2⟩ := hc
    rw [h1]
    dsimp only
    rw [h2]
    simp only []
    rw [moveLoop_spec _ _ _ (by simp)]
    simp only []
    have e1 : (P ++ (m :: M ++ T)).drop (P.length + M.length + 1) = T := by
      rw [← List.append_assoc, List.drop_left' (by simp; omega)]
    have e2 : (P ++ (m :: M ++ T)).take (P.length + M.length + 1) = P ++ m :: M := by
      rw [← List.append_assoc, List.take_left' (by simp; omega)]
    rw [e1, e2]
    have fW : ((T ++ (P ++ m :: M)).filter right).length = (m :: M).length + (T.filter right).length := by
      rw [List.filter_append, List.filter_append, (List.filter_eq_nil_iff (l := P)).2 (by simpa using hP),
        (List.filter_eq_self (l := m :: M)).2 (by simpa using hM), List.nil_append, List.length_append, add_comm]
    have lW : (P ++ (m :: M ++ T)).length = (T ++ (P ++ m :: M)).length := by simp; omega
    rw [lW, ← fW]
    refine ⟨P ++ m :: M, T, (T ++ (P ++ m :: M)).take ((T ++ (P ++ m :: M)).length - ((T ++ (P ++ m :: M)).filter right).length),
      (T ++ (P ++ m :: M)).drop ((T ++ (P ++ m :: M)).length - ((T ++ (P ++ m :: M)).filter right).length), by simp,
      (List.take_append_drop _ _).symm, ?_, ?_⟩
    · generalize T ++ (P ++ m :: M) = W
      have := moveBackLoop_spec l (W.take (W.length - (W.filter right).length)) (r ++ (W.drop (W.length - (W.filter right).length)).reverse)
      rw [List.append_assoc, ← List.reverse_append, List.take_append_drop, List.length_take, min_eq_left (by omega)] at this
      exact this
    · intro hno
      obtain ⟨Ls, Rs, hW, hL, hR⟩ : ∃ Ls Rs : List ℂ, T ++ (P ++ m :: M) = Ls ++ Rs ∧ (∀ p ∈ Ls, right p = false) ∧ ∀ p ∈ Rs, right p = true := by
        rcases P with _ | ⟨p, P⟩
        · obtain ⟨T1, T2, hT1, hT2, rfl⟩ : ∃ P rest : List ℂ, (∀ p ∈ P, right p = false) ∧ (∀ x xs, rest = x :: xs → right x = true) ∧ T = P ++ rest :=
            split_while (fun p => !right p) (by simp) (by simp) T
          refine ⟨T1, T2 ++ m :: M, by simp, hT1, ?_⟩
          have h2 : ∀ x ∈ T2, right x = true := by
            rcases T2 with _ | ⟨u, T2⟩
            · simp
            · have hu := hT2 u T2 rfl
              rcases T1 with _ | ⟨t, T1⟩
              · have := hT u T2 rfl; simp_all
              · intro x hx
                rcases List.mem_cons.1 hx with rfl | hx
                · exact hu
                · by_contra q
                  have := hno m t u x (by
                    refine List.Sublist.trans ?_ (List.sublist_append_right _ _)
                    rw [List.cons_append, List.cons_sublist_cons]
                    refine List.Sublist.trans ?_ (List.sublist_append_right _ _)
                    rw [List.cons_append, List.cons_sublist_cons]
                    refine List.Sublist.trans ?_ (List.sublist_append_right _ _)
                    rw [List.cons_sublist_cons]
                    simpa using hx) (by rw [hM m (by simp), hu]) (by rw [hT1 t (by simp)]; simpa using q)
                  rw [hM m (by simp), hT1 t (by simp)] at this
                  simp at this
          intro q hq
          rcases List.mem_append.1 hq with g | g
          · exact h2 q g
          · exact hM q g
        · refine ⟨T ++ p :: P, m :: M, by simp, ?_, hM⟩
          have h2 : ∀ x ∈ T, right x = false := by
            rcases T with _ | ⟨t, T⟩
            · simp
            · have ht := hT t T rfl
              intro x hx
              rcases List.mem_cons.1 hx with rfl | hx
              · exact ht
              · by_contra q
                have := hno p m t x (by
                  rw [List.cons_append, List.cons_sublist_cons]
                  refine List.Sublist.trans ?_ (List.sublist_append_right _ _)
                  rw [List.cons_append, List.cons_sublist_cons]
                  refine List.Sublist.trans ?_ (List.sublist_append_right _ _)
                  rw [List.cons_sublist_cons]
                  simpa using hx) (by rw [hP p (by simp), ht]) (by rw [hM m (by simp)]; simpa using q)
                rw [hM m (by simp), hP p (by simp)] at this
                simp at this
          intro q hq
          rcases List.mem_append.1 hq with g | g
          · exact h2 q g
          · exact hP q g
      rw [hW]
      have f : (Ls ++ Rs).filter right = Rs := by
        rw [List.filter_append, (List.filter_eq_nil_iff (l := Ls)).2 (by simpa using hL), (List.filter_eq_self (l := Rs)).2 hR, List.nil_append]
      rw [f, List.length_append, Nat.add_sub_cancel, List.take_left, List.drop_left]
      exact ⟨hL, hR⟩

end TipShape

/-- The sides of the points of a loop do not take turns. -/
theorem Loop.noTurns {R : Set ℂ} {L : List (ℂ × ℝ)} (h : Loop R L) (v c : ℂ) : TipShape.NoTurns (TipShape.isRightPoint v c) (L.map Prod.fst) := by
  intro a b p d hs e1 e2
  obtain ⟨l, hl, hm⟩ := List.sublist_map_iff.1 hs
  obtain ⟨x1, l1, rfl, rfl, hm1⟩ := List.map_eq_cons_iff.1 hm.symm
  obtain ⟨x2, l2, rfl, rfl, hm2⟩ := List.map_eq_cons_iff.1 hm1
  obtain ⟨x3, l3, rfl, rfl, hm3⟩ := List.map_eq_cons_iff.1 hm2
  obtain ⟨x4, l4, rfl, rfl, hm4⟩ := List.map_eq_cons_iff.1 hm3
  rw [List.map_eq_nil_iff] at hm4
  subst hm4
  have key : ∀ p, TipShape.isRightPoint v c p = true ↔ ‖v‖ * (along (Vec.direction v + π / 2) p - along (Vec.direction v + π / 2) c) < 0 := by
    intro p
    unfold TipShape.isRightPoint
    rw [decide_eq_true_eq, ← along_sub, ← rotate_left v (p - c) (χ := Vec.direction v + π / 2) (by rw [add_sub_cancel_right]; exact SameAngle.refl _)]
    rfl
  by_contra q
  generalize Vec.direction v + π / 2 = χ at key
  rcases (norm_nonneg v).eq_or_lt with hv | hv
  · simp only [← hv, zero_mul, lt_irrefl, iff_false, Bool.not_eq_true] at key
    rw [key, key] at q
    exact q rfl
  · have key' : ∀ p, TipShape.isRightPoint v c p = true ↔ along χ p < along χ c := by
      intro p
      rw [key]
      constructor
      · intro g; by_contra q; have := mul_nonneg hv.le (sub_nonneg.2 (not_lt.1 q)); linarith
      · intro g; exact mul_neg_of_pos_of_neg hv (sub_neg.2 g)
    have key'' : ∀ p, TipShape.isRightPoint v c p = false ↔ along χ c ≤ along χ p := by
      intro p
      rw [← not_lt, ← key', Bool.not_eq_true]
    rcases h1 : TipShape.isRightPoint v c x1.1 with _ | _
    · have h3 := h1 ▸ e1
      rcases h2 : TipShape.isRightPoint v c x2.1 with _ | _
      · exact q (h1.trans h2.symm)
      · have h4 := h2 ▸ e2
        refine h.four hl (χ := χ + π) ?_ ?_ ?_ ?_ <;> rw [along_add_pi, along_add_pi]
        · linarith [(key'' _).1 h1, (key' _).1 h2]
        · linarith [(key'' _).1 h3.symm, (key' _).1 h2]
        · linarith [(key'' _).1 h3.symm, (key' _).1 h4.symm]
        · linarith [(key'' _).1 h1, (key' _).1 h4.symm]
    · have h3 := h1 ▸ e1
      rcases h2 : TipShape.isRightPoint v c x2.1 with _ | _
      · have h4 := h2 ▸ e2
        refine h.four hl (χ := χ) ?_ ?_ ?_ ?_
        · linarith [(key' _).1 h1, (key'' _).1 h2]
        · linarith [(key' _).1 h3.symm, (key'' _).1 h2]
        · linarith [(key' _).1 h3.symm, (key'' _).1 h4.symm]
        · linarith [(key' _).1 h1, (key'' _).1 h4.symm]
      · exact q (h1.trans h2.symm)

/-! ## Points of arcs -/

/-- Points of an arc, clockwise from the angle `a` to the angle `b`, close to each other. -/
structure ArcPts (h : ℝ) (c : Circle) (a b : ℝ) (q : List (ℂ × ℝ)) : Prop where
  ne : q ≠ []
  on : ∀ x ∈ q, b ≤ x.2 ∧ x.2 ≤ a ∧ x.1 = c.getPoint x.2
  chain : q.Pairwise Step
  near : ∀ θ, b ≤ θ → θ ≤ a → ∃ x ∈ q, c.radius * (1 - Real.cos (θ - x.2)) ≤ h

/-- The points of the arcs from the last of `k` to the first, which is at `s`. -/
def down (Q : ℕ → List (ℂ × ℝ)) (s : ℕ) : ℕ → List (ℂ × ℝ)
  | 0 => []
  | k + 1 => Q (s + k) ++ down Q s k

theorem mem_down {Q : ℕ → List (ℂ × ℝ)} {s k : ℕ} {x : ℂ × ℝ} : x ∈ down Q s k ↔ ∃ j, s ≤ j ∧ j < s + k ∧ x ∈ Q j := by
  induction k with
  | zero => simp [down]; omega
  | succ k ih =>
    rw [down, List.mem_append, ih]
    constructor
    · rintro (g | ⟨j, h1, h2, h3⟩)
      · exact ⟨s + k, by omega, by omega, g⟩
      · exact ⟨j, h1, by omega, h3⟩
    · rintro ⟨j, h1, h2, h3⟩
      rcases Nat.lt_or_ge j (s + k) with g | g
      · exact Or.inr ⟨j, h1, g, h3⟩
      · exact Or.inl ((by omega : j = s + k) ▸ h3)

theorem down_add (Q : ℕ → List (ℂ × ℝ)) (s k m : ℕ) : down Q s (k + m) = down Q (s + k) m ++ down Q s k := by
  induction m with
  | zero => simp [down]
  | succ m ih => rw [← Nat.add_assoc, down, down, ih, List.append_assoc, Nat.add_assoc]

section
variable {n : ℕ} {C : ℕ → Circle} {Θ : ℕ → ℝ}

/-- A point of the arc `j`. -/
def OnArc (C : ℕ → Circle) (Θ : ℕ → ℝ) (j : ℕ) (x : ℂ × ℝ) : Prop := Θ j ≤ x.2 ∧ x.2 ≤ Θ (j + 1) ∧ x.1 = (C j).getPoint x.2

theorem OnArc.step {j : ℕ} {x y : ℂ × ℝ} (hx : OnArc C Θ j x) (hy : OnArc C Θ j y) (h : y.2 ≤ x.2) : Step x y := by
  refine ⟨h, fun e => ?_⟩
  rw [hx.2.2, hy.2.2, e, sub_self]
  simp [across]

theorem Tour.hop (T : Tour n C Θ) (j : ℕ) : Step ((C (j + 1)).getPoint (Θ (j + 1)), Θ (j + 1)) ((C j).getPoint (Θ (j + 1)), Θ (j + 1)) := by
  refine ⟨le_refl _, fun _ => ?_⟩
  have h := ((rightTangent_iff _ _ _).1 (T.tan j)).2
  dsimp only
  rw [getPoint_eq, getPoint_eq]
  unfold across at *
  simp only [Complex.sub_re, Complex.sub_im, Complex.add_re, Complex.add_im, Complex.mul_re, Complex.mul_im, Complex.ofReal_re,
    Complex.ofReal_im, Complex.I_re, Complex.I_im] at *
  rw [← Complex.ofReal_cos, ← Complex.ofReal_sin]
  simp only [Complex.ofReal_re, Complex.ofReal_im]
  nlinarith

theorem Tour.steps (T : Tour n C Θ) {j m : ℕ} {x y : ℂ × ℝ} (hx : OnArc C Θ (j + m + 1) x) (hy : OnArc C Θ j y) : Step x y := by
  induction m generalizing x with
  | zero =>
    have h1 : Step x ((C (j + 1)).getPoint (Θ (j + 1)), Θ (j + 1)) := OnArc.step hx ⟨le_refl _, T.mono _, rfl⟩ hx.1
    have h2 : Step ((C j).getPoint (Θ (j + 1)), Θ (j + 1)) y := OnArc.step ⟨T.mono _, le_refl _, rfl⟩ hy hy.2.1
    exact h1.trans ((T.hop j).trans h2)
  | succ m ih =>
    have h1 : Step x ((C (j + m + 1 + 1)).getPoint (Θ (j + m + 1 + 1)), Θ (j + m + 1 + 1)) := OnArc.step hx ⟨le_refl _, T.mono _, rfl⟩ hx.1
    exact h1.trans ((T.hop (j + m + 1)).trans (ih ⟨T.mono _, le_refl _, rfl⟩))

theorem Tour.down_chain (T : Tour n C Θ) {Q : ℕ → List (ℂ × ℝ)} (hon : ∀ j x, x ∈ Q j → OnArc C Θ j x) (hch : ∀ j, (Q j).Pairwise Step) (s k : ℕ) :
    (down Q s k).Pairwise Step := by
  induction k with
  | zero => simp [down]
  | succ k ih =>
    rw [down, List.pairwise_append]
    refine ⟨hch _, ih, fun x hx y hy => ?_⟩
    obtain ⟨j, h1, h2, h3⟩ := mem_down.1 hy
    obtain ⟨m, hm⟩ : ∃ m, s + k = j + m + 1 := ⟨s + k - j - 1, by omega⟩
    exact T.steps (m := m) (hm ▸ hon _ x hx) (hon j y h3)

theorem Tour.loop (T : Tour n C Θ) {R : Set ℂ} (hin : ∀ i φ, Θ i ≤ φ → φ ≤ Θ (i + 1) → (C i).getPoint φ ∈ R)
    (hsup : ∀ i φ, Θ i ≤ φ → φ ≤ Θ (i + 1) → ∀ z ∈ R, along φ z ≤ along φ (C i).center + (C i).radius) {h : ℝ} {Q : ℕ → List (ℂ × ℝ)}
    (hQ : ∀ j, ArcPts h (C j) (Θ (j + 1)) (Θ j) (Q j)) (s : ℕ) : Loop R (down Q s n) := by
  have hon : ∀ j x, x ∈ Q j → OnArc C Θ j x := fun j x hx => ⟨((hQ j).on x hx).1, ((hQ j).on x hx).2.1, ((hQ j).on x hx).2.2⟩
  refine ⟨?_, ?_, ?_⟩
  · intro x hx
    obtain ⟨j, h1, h2, h3⟩ := mem_down.1 hx
    obtain ⟨g1, g2, g3⟩ := hon j x h3
    rw [g3]
    refine ⟨hin j _ g1 g2, fun z hz => ?_⟩
    rw [along_getPoint]
    exact hsup j _ g1 g2 z hz
  · exact T.down_chain hon (fun j => (hQ j).chain) s n
  · intro x hx y hy
    obtain ⟨i, h1, h2, h3⟩ := mem_down.1 hx
    obtain ⟨j, g1, g2, g3⟩ := mem_down.1 hy
    have ox := hon i x h3
    have oy := hon j y g3
    have : Step (y.1, y.2 + 2 * π) x := by
      obtain ⟨m, hm⟩ : ∃ m, j + n = i + m + 1 := ⟨j + n - i - 1, by omega⟩
      refine T.steps (j := i) (m := m) ?_ ox
      rw [← hm]
      refine ⟨by rw [T.per]; linarith [oy.1], by rw [show j + n + 1 = j + 1 + n by omega, T.per]; linarith [oy.2.1], ?_⟩
      rw [T.perC, oy.2.2]
      exact (SameAngle.getPoint (⟨1, by push_cast; ring⟩ : SameAngle (y.2 + 2 * π) y.2) _).symm
    have := this.lap
    unfold lapBack at this ⊢
    dsimp only at this
    rwa [add_sub_cancel_right] at this

/-- Each direction is one of the arcs from `s` on. -/
theorem Tour.cover_from (T : Tour n C Θ) (s : ℕ) (α : ℝ) : ∃ i φ, s ≤ i ∧ i < s + n ∧ Θ i ≤ φ ∧ φ ≤ Θ (i + 1) ∧ SameAngle α φ := by
  have T' : Tour n (fun j => C (s + j)) (fun j => Θ (s + j)) :=
    ⟨T.pos, fun j => by rw [← Nat.add_assoc]; exact T.perC (s + j), fun j => by rw [← Nat.add_assoc]; exact T.per (s + j), fun j => T.mono (s + j), fun j => T.tan (s + j), fun j => T.rad (s + j)⟩
  obtain ⟨i, φ, h1, h2, h3, h4⟩ := T'.cover α
  exact ⟨s + i, φ, by omega, by omega, h2, h3, h4⟩

theorem Tour.near (T : Tour n C Θ) {R : Set ℂ}
    (hsup : ∀ i φ, Θ i ≤ φ → φ ≤ Θ (i + 1) → ∀ z ∈ R, along φ z ≤ along φ (C i).center + (C i).radius) {h : ℝ} {Q : ℕ → List (ℂ × ℝ)}
    (hQ : ∀ j, ArcPts h (C j) (Θ (j + 1)) (Θ j) (Q j)) (s : ℕ) (α : ℝ) (z : ℂ) (hz : z ∈ R) :
    ∃ x ∈ down Q s n, along α z ≤ along α x.1 + h := by
  obtain ⟨i, φ, h1, h2, h3, h4, h5⟩ := T.cover_from s α
  obtain ⟨x, hx, hn⟩ := (hQ i).near φ h3 h4
  refine ⟨x, mem_down.2 ⟨i, h1, h2, hx⟩, ?_⟩
  rw [SameAngle.along h5, SameAngle.along h5, ((hQ i).on x hx).2.2, along_point]
  have := hsup i φ h3 h4 z hz
  rw [← Real.cos_neg, neg_sub]
  linarith

end

open scoped Pointwise in
/-- A set is near a polygon if it is in each direction. -/
theorem near_hull {P : List ℂ} {R : Set ℂ} {h : ℝ} (hh : 0 ≤ h) (H : ∀ θ, ∀ z ∈ R, ∃ p ∈ P, along θ z ≤ along θ p + h) :
    ∀ z ∈ R, ∃ w ∈ convexHull ℝ {p | p ∈ P}, ‖z - w‖ ≤ h := by
  intro z hz
  have hfin : Set.Finite {p : ℂ | p ∈ P} := List.finite_toSet P
  have hcomp : IsCompact (convexHull ℝ {p | p ∈ P} + Metric.closedBall (0 : ℂ) h) :=
    (compact_hull hfin.isCompact).add (isCompact_closedBall _ _)
  have hconv : Convex ℝ (convexHull ℝ {p | p ∈ P} + Metric.closedBall (0 : ℂ) h) := (convex_convexHull ℝ _).add (convex_closedBall _ _)
  by_cases hm : z ∈ convexHull ℝ {p | p ∈ P} + Metric.closedBall (0 : ℂ) h
  · obtain ⟨w, hw, b, hb, rfl⟩ := Set.mem_add.1 hm
    refine ⟨w, hw, ?_⟩
    rw [add_sub_cancel_left]
    simpa using hb
  · exfalso
    obtain ⟨f, u, f1, f2⟩ := geometric_hahn_banach_closed_point hconv hcomp.isClosed hm
    obtain ⟨M, α, M0, hM⟩ := functional f
    obtain ⟨p, hp, hpz⟩ := H α z hz
    have hb : Vec.fromDirectionAndMagnitude α h ∈ Metric.closedBall (0 : ℂ) h := by
      rw [mem_closedBall_zero_iff, norm_from, abs_of_nonneg hh]
    have g1 := f1 (p + Vec.fromDirectionAndMagnitude α h) (Set.add_mem_add (subset_convexHull ℝ _ hp) hb)
    rw [hM] at g1 f2
    have e : along α (p + Vec.fromDirectionAndMagnitude α h) = along α p + h := by
      have := Real.sin_sq_add_cos_sq α
      unfold along Vec.fromDirectionAndMagnitude
      simp only [Complex.add_re, Complex.add_im]
      linear_combination h * this
    rw [e] at g1
    have := mul_le_mul_of_nonneg_left hpz M0
    linarith

/-! ## The points that are appended for an arc -/

theorem arcLoop_prefix (c : Circle) (start step : ℝ) (l m : List ℂ) (i n : ℕ) :
    Circle.arcLoop c start step (l ++ m) i n = l ++ Circle.arcLoop c start step m i n := by
  induction n generalizing m i with
  | zero => rfl
  | succ n ih => rw [Circle.arcLoop, Circle.arcLoop, List.append_assoc, ih]

theorem append_prefix (c : Circle) (start arc h : ℝ) (l : List ℂ) :
    c.appendArcToPolyline start arc h l = (c.appendArcToPolyline start arc h []).map fun m => l ++ m := by
  unfold Circle.appendArcToPolyline
  by_cases h1 : h > 0
  · rw [if_pos h1, if_pos h1]
    by_cases h2 : c.radius = 0
    · rw [if_pos h2, if_pos h2]; rfl
    · rw [if_neg h2, if_neg h2]
      dsimp only
      rw [arcLoop_prefix, List.nil_append, Option.map_some, List.append_assoc]
  · rw [if_neg h1, if_neg h1]; rfl

/-- The height of the chords of an arc. -/
theorem arc_height {c : Circle} {h a b start arc : ℝ} {n : ℕ} (hr : 0 ≤ c.radius) (hh : 0 < h) (hbig : c.radius ≤ 200000000 * h) (hab : b ≤ a)
    (hab' : a - b ≤ 2 * π) (harc : arc = b - a ∨ arc = a - b) (hn1 : 1 ≤ n) (hn3 : Enough c start arc h n ∨ n = 32767 ∨ c.radius = 0) :
    c.radius * (1 - Real.cos ((a - b) / n / 2)) ≤ h := by
  have hnp : (0 : ℝ) < n := by exact_mod_cast hn1
  rcases hn3 with g | g | g
  · have := g.2.2 0 (by omega)
    rw [chordHeight_eq, abs_of_nonneg hr] at this
    rcases harc with e | e
    · rw [show (start + ((0 : ℕ) + 1) * (arc / n) - (start + (0 : ℕ) * (arc / n))) / 2 = -((a - b) / n / 2) by rw [e]; push_cast; ring,
        Real.cos_neg] at this
      exact this
    · rw [show (start + ((0 : ℕ) + 1) * (arc / n) - (start + (0 : ℕ) * (arc / n))) / 2 = (a - b) / n / 2 by rw [e]; push_cast; ring] at this
      exact this
  · have h1 := Real.one_sub_sq_div_two_le_cos (x := (a - b) / n / 2)
    have h2 : (a - b) / n / 2 ≤ 3.15 / 32767 := by
      rw [g]
      have := Real.pi_lt_d2
      push_cast
      rw [div_div, div_le_div_iff₀ (by norm_num) (by norm_num)]
      nlinarith
    have h3 : 0 ≤ (a - b) / n / 2 := by
      have := div_nonneg (sub_nonneg.2 hab) hnp.le
      linarith
    have h4 : ((a - b) / n / 2) ^ 2 ≤ (3.15 / 32767) ^ 2 := pow_le_pow_left₀ h3 h2 2
    have h5 : 1 - Real.cos ((a - b) / n / 2) ≤ (3.15 / 32767) ^ 2 / 2 := by linarith
    calc c.radius * (1 - Real.cos ((a - b) / n / 2)) ≤ c.radius * ((3.15 / 32767) ^ 2 / 2) := mul_le_mul_of_nonneg_left h5 hr
      _ ≤ 200000000 * h * ((3.15 / 32767) ^ 2 / 2) := mul_le_mul_of_nonneg_right hbig (by norm_num)
      _ ≤ h := by norm_num; linarith
  · rw [g, zero_mul]; exact hh.le

theorem arc_core {c : Circle} {h a b start arc : ℝ} {n : ℕ} (hr : 0 ≤ c.radius) (hh : 0 < h) (hbig : c.radius ≤ 200000000 * h) (hab : b ≤ a)
    (hab' : a - b ≤ 2 * π) (harc : arc = b - a ∨ arc = a - b) (hn1 : 1 ≤ n) (hn3 : Enough c start arc h n ∨ n = 32767 ∨ c.radius = 0) :
    ArcPts h c a b ((List.range (n + 1)).map fun i : ℕ => (c.getPoint (a + (i : ℝ) * ((b - a) / n)), a + (i : ℝ) * ((b - a) / n))) := by
  have hpi := Real.pi_pos
  have hnp : (0 : ℝ) < n := by exact_mod_cast hn1
  have hn1' : (1 : ℝ) ≤ n := by exact_mod_cast hn1
  have hheight := arc_height hr hh hbig hab hab' harc hn1 hn3
  have hstep : (a - b) / n / 2 ≤ π := by
    have := div_le_self (sub_nonneg.2 hab) hn1'
    linarith
  have hs0 : 0 ≤ (a - b) / n := div_nonneg (sub_nonneg.2 hab) hnp.le
  have hsn : (a - b) / n * n = a - b := div_mul_cancel₀ _ hnp.ne'
  have angle_eq : ∀ i : ℕ, a + (i : ℝ) * ((b - a) / n) = a - i * ((a - b) / n) := fun i => by ring
  refine ⟨by simp, ?_, ?_, ?_⟩
  · intro x hx
    obtain ⟨i, hi, rfl⟩ := List.mem_map.1 hx
    rw [List.mem_range] at hi
    have hi' : (i : ℝ) ≤ n := by exact_mod_cast (by omega : i ≤ n)
    dsimp only
    refine ⟨?_, ?_, rfl⟩ <;> rw [angle_eq]
    · have := mul_le_mul_of_nonneg_right hi' hs0
      linarith
    · have := mul_nonneg (Nat.cast_nonneg (α := ℝ) i) hs0
      linarith
  · rw [List.pairwise_map]
    refine (List.pairwise_lt_range).imp fun {i j} hij => ?_
    have hij' : (i : ℝ) ≤ j := by exact_mod_cast hij.le
    refine ⟨?_, fun e => ?_⟩
    · dsimp only
      rw [angle_eq, angle_eq]
      have := mul_le_mul_of_nonneg_right hij' hs0
      linarith
    · dsimp only at e ⊢
      rw [← e, sub_self]
      simp [across]
  · intro θ h1 h2
    rcases hs0.eq_or_lt with e | e
    · refine ⟨_, List.mem_map.2 ⟨0, by simp, rfl⟩, ?_⟩
      have : θ = a := by rw [← e, zero_mul] at hsn; linarith
      dsimp only
      rw [this]
      simp [hh.le]
    · generalize hd : (a - b) / n = d at *
      have hx0 : 0 ≤ (a - θ) / d + 1 / 2 := by have := div_nonneg (sub_nonneg.2 h2) e.le; linarith
      have f1 := Nat.floor_le hx0
      have f2 := Nat.lt_floor_add_one ((a - θ) / d + 1 / 2)
      generalize ⌊(a - θ) / d + 1 / 2⌋₊ = i at *
      have hin : i < n + 1 := by
        have : (a - θ) / d ≤ n := by rw [div_le_iff₀ e]; linarith
        have : (i : ℝ) < n + 1 := by linarith
        exact_mod_cast this
      refine ⟨_, List.mem_map.2 ⟨i, List.mem_range.2 hin, rfl⟩, ?_⟩
      dsimp only
      rw [angle_eq]
      have hxd : (a - θ) / d * d = a - θ := div_mul_cancel₀ _ e.ne'
      have g1 : (i : ℝ) * d ≤ (a - θ) + d / 2 := by
        have := mul_le_mul_of_nonneg_right f1 e.le
        rw [add_mul, hxd] at this; linarith
      have g2 : (a - θ) - d / 2 ≤ (i : ℝ) * d := by
        have := mul_le_mul_of_nonneg_right f2.le e.le
        rw [add_mul, hxd, add_mul] at this; linarith
      have hcos : Real.cos (d / 2) ≤ Real.cos (θ - (a - i * d)) := by
        rw [← Real.cos_abs (θ - (a - i * d))]
        exact Real.cos_le_cos_of_nonneg_of_le_pi (abs_nonneg _) hstep (abs_le.2 ⟨by linarith, by linarith⟩)
      have := mul_le_mul_of_nonneg_left hcos hr
      linarith

theorem arc_ends (c : Circle) (a b : ℝ) {n : ℕ} (hn1 : 1 ≤ n) :
    (c.getPoint a, a) ∈ (List.range (n + 1)).map (fun i : ℕ => (c.getPoint (a + (i : ℝ) * ((b - a) / n)), a + (i : ℝ) * ((b - a) / n))) ∧
    (c.getPoint b, b) ∈ (List.range (n + 1)).map (fun i : ℕ => (c.getPoint (a + (i : ℝ) * ((b - a) / n)), a + (i : ℝ) * ((b - a) / n))) := by
  have hnp : (n : ℝ) ≠ 0 := by exact_mod_cast (by omega : n ≠ 0)
  constructor
  · exact List.mem_map.2 ⟨0, by simp, by simp⟩
  · refine List.mem_map.2 ⟨n, by simp, ?_⟩
    have e2 : a + (n : ℝ) * ((b - a) / n) = b := by rw [mul_div_cancel₀ _ hnp]; ring
    rw [e2]

/-- The points of an arc that is followed clockwise. -/
theorem arc_points {c : Circle} {h a b α : ℝ} (hr : 0 ≤ c.radius) (hh : 0 < h) (hbig : c.radius ≤ 200000000 * h) (hab : b ≤ a)
    (hab' : a - b ≤ 2 * π) (hα : SameAngle α a) :
    ∃ q, ArcPts h c a b q ∧ ((c.getPoint a, a) ∈ q ∧ (c.getPoint b, b) ∈ q) ∧ ∀ l, c.appendArcToPolyline α (b - a) h l = some (l ++ q.map Prod.fst) := by
  obtain ⟨n, hn0, hn1, hn2, hn3, -⟩ := append_spec (c := c) (start := α) (arc := b - a) (h := h) (l := []) hr hh
  refine ⟨_, arc_core hr hh hbig hab hab' (Or.inl rfl) hn1 hn3, arc_ends c a b hn1, ?_⟩
  intro l
  rw [append_prefix, hn0, Option.map_some, List.nil_append, List.map_map]
  congr 2
  refine List.map_congr_left fun i _ => ?_
  refine SameAngle.getPoint ?_ c
  obtain ⟨k, hk⟩ := hα
  exact ⟨k, by rw [hk]; ring⟩

/-- The points of an arc that is followed counter-clockwise. -/
theorem arc_points_up {c : Circle} {h a b β : ℝ} (hr : 0 ≤ c.radius) (hh : 0 < h) (hbig : c.radius ≤ 200000000 * h) (hab : b ≤ a)
    (hab' : a - b ≤ 2 * π) (hβ : SameAngle β b) :
    ∃ q, ArcPts h c a b q ∧ ((c.getPoint a, a) ∈ q ∧ (c.getPoint b, b) ∈ q) ∧ ∀ l, c.appendArcToPolyline β (a - b) h l = some (l ++ (q.map Prod.fst).reverse) := by
  obtain ⟨n, hn0, hn1, hn2, hn3, -⟩ := append_spec (c := c) (start := β) (arc := a - b) (h := h) (l := []) hr hh
  refine ⟨_, arc_core hr hh hbig hab hab' (Or.inr rfl) hn1 hn3, arc_ends c a b hn1, ?_⟩
  intro l
  have hnp : (n : ℝ) ≠ 0 := by exact_mod_cast (by omega : n ≠ 0)
  rw [append_prefix, hn0, Option.map_some, List.nil_append, List.map_map]
  congr 2
  refine List.ext_getElem? fun i => ?_
  by_cases hi : i < n + 1
  · rw [List.getElem?_reverse (by simpa using hi), List.getElem?_map, List.getElem?_map, List.getElem?_range hi, List.length_map, List.length_range,
      List.getElem?_range (by omega)]
    simp only [Option.map_some, Function.comp]
    congr 1
    refine SameAngle.getPoint ?_ c
    obtain ⟨k, hk⟩ := hβ
    refine ⟨k, ?_⟩
    have e : ((n + 1 - 1 - i : ℕ) : ℝ) = n - i := by
      rw [Nat.add_sub_cancel, Nat.cast_sub (by omega)]
    have e2 : (n : ℝ) * ((b - a) / n) = b - a := mul_div_cancel₀ _ hnp
    rw [hk, e, sub_mul, e2]
    ring
  · rw [List.getElem?_eq_none (by simp; omega), List.getElem?_eq_none (by simp; omega)]


/-- A turn is a left arc if it is not taken for none. -/
theorem turn_points {p c d : Circle} {h a b : ℝ} (hp : RightTangent c p a) (hd : RightTangent d c b) (hr : 0 ≤ c.radius) (hh : 0 < h)
    (hbig : c.radius ≤ 200000000 * h) (h0 : c.radius = 0 → b ≤ a) (hs : c.radius ≠ 0 → collinear ≤ a - b ∧ a - b ≤ 2 * π - collinear) :
    ∃ q, ArcPts h c a b q ∧ ∀ l rest, TipShape.appendLeftTurns h false l (p :: c :: d :: rest) =
      TipShape.appendLeftTurns h false (l ++ q.map Prod.fst) (c :: d :: rest) := by
  have hpi := Real.pi_pos
  by_cases hc : c.radius = 0
  · refine ⟨[(c.center, a)], ⟨by simp, ?_, by simp, ?_⟩, ?_⟩
    · intro x hx
      rw [List.mem_singleton] at hx
      subst hx
      exact ⟨h0 hc, le_refl _, by rw [getPoint_eq, hc]; simp⟩
    · intro θ _ _
      exact ⟨(c.center, a), by simp, by rw [hc, zero_mul]; exact hh.le⟩
    · intro l rest
      rw [TipShape.appendLeftTurns, if_pos hc]
      rfl
  · obtain ⟨s1, s2⟩ := hs hc
    have ht : 0 < collinear := by unfold collinear; norm_num
    obtain ⟨ti, hti⟩ := Option.ne_none_iff_exists'.1 (fun e => by
      have := right_apart hp; rcases (none_iff _ _).1 e with g | g
      · exact this.2 g
      · exact this.1 g : p.getTangentAngles c ≠ none)
    obtain ⟨tj, hto⟩ := Option.ne_none_iff_exists'.1 (fun e => by
      have := right_apart hd; rcases (none_iff _ _).1 e with g | g
      · exact this.2 g
      · exact this.1 g : c.getTangentAngles d ≠ none)
    have key : ∀ {x y : Circle} {t : Circle.TangentAngles}, x.getTangentAngles y = some t → RightTangent y x t.left ∧ Normal t.left := by
      intro x y t ht
      obtain ⟨n1, -, n3, -, n5⟩ := tangent_spec ht
      refine ⟨⟨?_, ?_⟩, n1⟩
      · obtain ⟨k, k1, k2, k3, k4⟩ := (n5 _ n1).2 (Or.inl rfl)
        exact ⟨k, k2, k1, k4, k3⟩
      · unfold ToTheLeft at n3
        unfold ToTheRight
        simp only [Complex.sub_re, Complex.sub_im] at *
        linarith
    obtain ⟨i1, i2⟩ := key hti
    obtain ⟨o1, o2⟩ := key hto
    have ea := right_unique i1 hp
    have eb := right_unique o1 hd
    obtain ⟨ka, hka⟩ := ea
    obtain ⟨kb, hkb⟩ := eb
    -- the difference of the angles
    obtain ⟨q, hq1, -, hq2⟩ := arc_points (α := ti.left) hr hh hbig (by linarith : b ≤ a) (by linarith) ⟨ka, hka⟩
    refine ⟨q, hq1, fun l rest => ?_⟩
    have hdiff : ti.left - tj.left = a - b ∨ ti.left - tj.left = a - b - 2 * π := by
      have e : ti.left - tj.left = a - b + (ka - kb : ℤ) * (2 * π) := by rw [hka, hkb]; push_cast; ring
      have b1 : -(2 * π) < ti.left - tj.left := by linarith [i2.1, o2.2]
      have b2 : ti.left - tj.left < 2 * π := by linarith [i2.2, o2.1]
      have k1 : (-2 : ℝ) < (ka - kb : ℤ) := by
        by_contra g
        have := mul_le_mul_of_nonneg_right (not_lt.1 g) (by linarith : 0 ≤ 2 * π)
        linarith
      have k2 : ((ka - kb : ℤ) : ℝ) < 1 := by
        by_contra g
        have := mul_le_mul_of_nonneg_right (not_lt.1 g) (by linarith : 0 ≤ 2 * π)
        linarith
      have k1' : -2 < ka - kb := by exact_mod_cast k1
      have k2' : ka - kb < 1 := by exact_mod_cast k2
      obtain g | g : ka - kb = 0 ∨ ka - kb = -1 := by omega
      · left; rw [e, g]; simp
      · right; rw [e, g]; push_cast; ring
    have hsnap : CircularTurn.snap ti.left tj.left = ti.left := by
      unfold CircularTurn.snap
      dsimp only
      rw [if_neg]
      have : CircularTurn.collinearTol = collinear := rfl
      rw [this]
      push Not
      rcases hdiff with g | g
      · rw [g, abs_of_nonneg (by linarith)]; exact ⟨s1, by linarith⟩
      · rw [g, abs_of_nonpos (by linarith)]; exact ⟨by linarith, by linarith⟩
    have harc : CircularTurn.atLeast ti.left tj.left - ti.left - 2 * π = b - a := by
      unfold CircularTurn.atLeast
      rcases hdiff with g | g
      · rw [if_pos (by linarith)]; linarith
      · rw [if_neg (by linarith)]; linarith
    rw [TipShape.appendLeftTurns, if_neg hc]
    have : CircularTurn.appendLeft p c d h false l = some (l ++ q.map Prod.fst) := by
      unfold CircularTurn.appendLeft CircularTurn.angles
      rw [hti, hto]
      dsimp only
      rw [hsnap]
      unfold CircularTurn.arcs
      rw [if_pos (by simp)]
      unfold CircularTurn.leftArc
      rw [harc, hq2]
    rw [this]

/-- Circles in clockwise order, from the last of `m` to the first, which is at `s`. -/
def cwList (C : ℕ → Circle) (s : ℕ) : ℕ → List Circle
  | 0 => []
  | m + 1 => C (s + m) :: cwList C s m

theorem Tour.turns {n : ℕ} {C : ℕ → Circle} {Θ : ℕ → ℝ} (T : Tour n C Θ) {h : ℝ} (hh : 0 < h) (hbig : ∀ j, (C j).radius ≤ 200000000 * h)
    (hs : ∀ j, (C j).radius ≠ 0 → collinear ≤ Θ (j + 1) - Θ j ∧ Θ (j + 1) - Θ j ≤ 2 * π - collinear) :
    ∃ Q : ℕ → List (ℂ × ℝ), (∀ j, ArcPts h (C j) (Θ (j + 1)) (Θ j) (Q j)) ∧ ∀ s k l,
      TipShape.appendLeftTurns h false l (cwList C s (k + 2)) = some (l ++ (down Q (s + 1) k).map Prod.fst) := by
  have each : ∀ j, ∃ q, ArcPts h (C j) (Θ (j + 1)) (Θ j) q ∧ ∀ i, j = i + 1 → ∀ l rest,
      TipShape.appendLeftTurns h false l (C (j + 1) :: C j :: C i :: rest) =
        TipShape.appendLeftTurns h false (l ++ q.map Prod.fst) (C j :: C i :: rest) := by
    intro j
    cases j with
    | zero =>
      have hp := T.pos
      have t := T.tan (n - 1)
      rw [show n - 1 + 1 = 0 + n by omega, T.perC, T.per, SameAngle.rightTangent (⟨1, by push_cast; ring⟩ : SameAngle (Θ 0 + 2 * π) (Θ 0))] at t
      obtain ⟨q, hq, -⟩ := turn_points (T.tan 0) t (T.rad 0) hh (hbig 0) (fun _ => T.mono 0) (hs 0)
      exact ⟨q, hq, fun i hi => by omega⟩
    | succ i =>
      obtain ⟨q, hq, hq'⟩ := turn_points (T.tan (i + 1)) (T.tan i) (T.rad (i + 1)) hh (hbig (i + 1)) (fun _ => T.mono (i + 1)) (hs (i + 1))
      refine ⟨q, hq, fun i' hi' => ?_⟩
      obtain rfl : i = i' := by omega
      exact hq'
  choose Q hQ hQ' using each
  refine ⟨Q, hQ, fun s k => ?_⟩
  induction k with
  | zero => intro l; simp [cwList, TipShape.appendLeftTurns, down]
  | succ k ih =>
    intro l
    have := hQ' (s + k + 1) (s + k) rfl l (cwList C s k)
    rw [show cwList C s (k + 1 + 2) = C (s + k + 1 + 1) :: C (s + k + 1) :: C (s + k) :: cwList C s k from rfl, this]
    have e : C (s + k + 1) :: C (s + k) :: cwList C s k = cwList C s (k + 2) := rfl
    rw [e, ih, down, List.map_append, List.append_assoc, show s + 1 + k = s + k + 1 by omega]

/-! ## Whole outlines -/

theorem Loop.outlines {R : Set ℂ} {L : List (ℂ × ℝ)} (h : Loop R L) {e : ℝ} (he : 0 ≤ e)
    (hn : ∀ α, ∀ z ∈ R, ∃ x ∈ L, along α z ≤ along α x.1 + e) {ps : List ℂ} (hp : L.map Prod.fst = ps) : Outlines R e ps := by
  subst hp
  refine ⟨?_, h.clockwise, ?_⟩
  · intro p hp
    obtain ⟨x, hx, rfl⟩ := List.mem_map.1 hp
    obtain ⟨h1, h2⟩ := h.support x hx
    exact ⟨h1, x.2, h2⟩
  · refine near_hull he fun θ z hz => ?_
    obtain ⟨x, hx, hxz⟩ := hn θ z hz
    exact ⟨x.1, List.mem_map_of_mem hx, hxz⟩

/-- From any of its points on. -/
theorem Loop.outlines_rotate {R : Set ℂ} {L : List (ℂ × ℝ)} (h : Loop R L) {e : ℝ} (he : 0 ≤ e)
    (hn : ∀ α, ∀ z ∈ R, ∃ x ∈ L, along α z ≤ along α x.1 + e) {A B : List ℂ} (hp : L.map Prod.fst = A ++ B) : Outlines R e (B ++ A) := by
  obtain ⟨LA, LB, rfl, rfl, rfl⟩ := List.map_eq_append_iff.1 hp
  refine h.rotate.outlines he ?_ ?_
  · intro α z hz
    obtain ⟨x, hx, hxz⟩ := hn α z hz
    rcases List.mem_append.1 hx with g | g
    · exact ⟨lapBack x, List.mem_append_right _ (List.mem_map_of_mem g), hxz⟩
    · exact ⟨x, List.mem_append_left _ g, hxz⟩
  · rw [List.map_append, List.map_map]
    rfl

theorem nextCw_mod {s : TipShape} (hn : 0 < s.circles.length) (j : ℕ) : s.nextCw ((j + 1) % s.circles.length) = j % s.circles.length := by
  unfold TipShape.nextCw
  have h := Nat.mod_lt j hn
  rw [← Nat.mod_add_mod]
  by_cases e : j % s.circles.length + 1 = s.circles.length
  · rw [e, Nat.mod_self, if_pos rfl]; omega
  · rw [Nat.mod_eq_of_lt (by omega), if_neg (by omega)]; omega

theorem wholeLoop_eq (s : TipShape) (hn : 0 < s.circles.length) (i m : ℕ) :
    s.wholeLoop ((i + m) % s.circles.length) (m + 1) = some (cwList (lapC s.circles) i (m + 1)) := by
  induction m with
  | zero =>
    rw [TipShape.wholeLoop, (lapC_follows hn (i + 0)).1]
    rfl
  | succ m ih =>
    rw [TipShape.wholeLoop, (lapC_follows hn (i + (m + 1))).1, ← Nat.add_assoc, nextCw_mod hn, ih]
    rfl

/-- The points of a whole shape. -/
theorem whole_points {s : TipShape} {θ : ℕ → ℝ} {R : Set ℂ} {h : ℝ} (hn : 2 ≤ s.circles.length)
    (T : Tour s.circles.length (lapC s.circles) θ) (hh : 0 < h) (hbig : NotHuge h s.circles)
    (hs : ∀ j, (lapC s.circles j).radius ≠ 0 → collinear ≤ θ (j + 1) - θ j ∧ θ (j + 1) - θ j ≤ 2 * π - collinear)
    (hin : ∀ i φ, θ i ≤ φ → φ ≤ θ (i + 1) → (lapC s.circles i).getPoint φ ∈ R)
    (hsup : ∀ i φ, θ i ≤ φ → φ ≤ θ (i + 1) → ∀ z ∈ R, along φ z ≤ along φ (lapC s.circles i).center + (lapC s.circles i).radius)
    (v : ℂ) (pts : ExtrusionPoints) : ∃ l r, s.appendWholeShape h v pts = some ⟨pts.left ++ l, pts.right ++ r⟩ ∧
      Outlines R h (l ++ r.reverse) ∧ (∀ p ∈ l, NotRight v s.center p) ∧ ∀ p ∈ r, NotLeft v s.center p := by
  obtain ⟨Q, hQ, hturn⟩ := T.turns hh (fun j => hbig _ (List.mem_of_getElem? (lapC_follows (by omega) j).1)) hs
  have hL := T.loop hin hsup hQ 1
  have hN := T.near hsup hQ 1
  obtain ⟨A, B, Ls, Rs, h1, h2, h3, h4⟩ := TipShape.move_spec v s.center pts.left ((down Q 1 s.circles.length).map Prod.fst) pts.right
  obtain ⟨h5, h6⟩ := h4 (hL.noTurns v s.center)
  refine ⟨Ls, Rs.reverse, ?_, ?_, ?_, ?_⟩
  · unfold TipShape.appendWholeShape
    split
    · rename_i c hc; rw [hc] at hn; simp at hn
    · have e : s.nextCcw 0 = (0 + (s.circles.length + 1)) % s.circles.length := by
        rw [nextCcw_eq (by omega), Nat.zero_add, Nat.zero_add, Nat.add_comm, Nat.add_mod_right]
      rw [e, wholeLoop_eq s (by omega)]
      simp only []
      rw [hturn 0]
      simp only []
      rw [List.length_append, Nat.add_sub_cancel_left]
      exact h3
  · rw [List.reverse_reverse, ← h2]
    exact hL.outlines_rotate hh.le hN h1
  · intro p hp
    have := h5 p hp
    unfold TipShape.isRightPoint at this
    rw [decide_eq_false_iff_not, not_lt] at this
    exact this
  · intro p hp
    have := h6 p (List.mem_reverse.1 hp)
    unfold TipShape.isRightPoint at this
    rw [decide_eq_true_eq] at this
    exact this.le

end Verif.RealGeom
