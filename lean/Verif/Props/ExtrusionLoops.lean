import Verif.Props.ExtrusionPoints

/-!
# C68: outlines with a loop
-/

set_option autoImplicit false

namespace Verif.RealGeom

open Spec Real TipShape

/-! ## A turn that is taken for none -/

theorem steps_two {c : Circle} (hr : c.radius = 1) : Circle.steps (-(2 * π)) (c.getArcAngleForChordHeight 1) = 2 := by
  have hpi := Real.pi_pos
  have e : c.getArcAngleForChordHeight 1 = π := by
    unfold Circle.getArcAngleForChordHeight clamp
    rw [hr]
    norm_num [Real.arccos_zero]
    ring
  rw [e]
  unfold Circle.steps
  rw [show -(2 * π) / π = -2 by field_simp, show |(-2 : ℝ)| = ((2 : ℤ) : ℝ) by norm_num, Int.ceil_intCast]
  unfold clamp trunc
  norm_num
  rfl

/-- If the angles of a turn are nearly the same then the left arc is a full turn. -/
theorem full_turn {a b c : Circle} {ti tj : Circle.TangentAngles} (hi : a.getTangentAngles b = some ti) (hj : b.getTangentAngles c = some tj)
    (hr : b.radius = 1) (hd : |ti.left - tj.left| < CircularTurn.collinearTol) (l : List ℂ) :
    CircularTurn.appendLeft a b c 1 false l =
      some (l ++ [b.getPoint tj.left, b.getPoint (tj.left - π), b.getPoint (tj.left - 2 * π)]) := by
  unfold CircularTurn.appendLeft CircularTurn.angles
  rw [hi, hj]
  dsimp only
  have hsnap : CircularTurn.snap ti.left tj.left = tj.left := by
    unfold CircularTurn.snap; dsimp only; rw [if_pos (Or.inl hd)]
  rw [hsnap]
  have hat : CircularTurn.atLeast tj.left tj.left = tj.left := by
    unfold CircularTurn.atLeast; rw [if_neg (lt_irrefl _)]
  rw [hat]
  unfold CircularTurn.arcs
  rw [if_pos (by simp)]
  unfold CircularTurn.leftArc Circle.appendArcToPolyline
  rw [if_pos (by norm_num), if_neg (by rw [hr]; norm_num)]
  dsimp only
  rw [show tj.left - tj.left - 2 * π = -(2 * π) by ring, steps_two hr]
  simp only [Circle.arcLoop, Nat.add_one_sub_one, Nat.cast_one, one_mul, Nat.cast_ofNat, List.append_assoc, List.cons_append, List.nil_append]
  rw [show tj.left + -(2 * π) / 2 = tj.left - π by ring, show tj.left + -(2 * π) = tj.left - 2 * π by ring]

theorem tangents_some {a b : Circle} (hr : a.radius = b.radius) (hne : a.center ≠ b.center) : ∃ t, a.getTangentAngles b = some t := by
  unfold Circle.getTangentAngles
  dsimp only
  rw [if_neg]
  · exact ⟨_, rfl⟩
  · rw [hr, sub_self, abs_zero, magnitude_eq]
    rintro (g | g)
    · exact hne g
    · exact absurd g (not_le.2 (norm_pos_iff.2 (sub_ne_zero.2 hne.symm)))

/-- The points of turns between circles of radius 1. -/
theorem turns_full (cs : List Circle) (hr : ∀ c ∈ cs, c.radius = 1) (hne : cs.IsChain fun a b => a.center ≠ b.center) (l : List ℂ) :
    ∃ e, appendLeftTurns 1 false l cs = some (l ++ e) ∧ ∀ (i : ℕ) (a b c : Circle) (ti tj : Circle.TangentAngles), cs[i]? = some a →
      cs[i + 1]? = some b → cs[i + 2]? = some c → a.getTangentAngles b = some ti → b.getTangentAngles c = some tj →
      |ti.left - tj.left| < CircularTurn.collinearTol → b.getPoint (tj.left - π) ∈ e := by
  induction cs generalizing l with
  | nil => exact ⟨[], by simp [appendLeftTurns], by simp⟩
  | cons a cs ih =>
    cases cs with
    | nil => exact ⟨[], by simp [appendLeftTurns], by simp⟩
    | cons b cs =>
      cases cs with
      | nil => exact ⟨[], by simp [appendLeftTurns], by intro i a b c ti tj _ _ h; simp at h⟩
      | cons c cs =>
        have hb : b.radius = 1 := hr b (by simp)
        obtain ⟨ti, hti⟩ := tangents_some (a := a) (b := b) (by rw [hb, hr a (by simp)]) (List.isChain_cons_cons.1 hne).1
        obtain ⟨tj, htj⟩ := tangents_some (a := b) (b := c) (by rw [hb, hr c (by simp)])
          (List.isChain_cons_cons.1 (List.isChain_cons_cons.1 hne).2).1
        obtain ⟨q, hq⟩ : ∃ q, CircularTurn.appendLeft a b c 1 false l = some (l ++ q) := by
          unfold CircularTurn.appendLeft CircularTurn.angles
          rw [hti, htj]
          dsimp only
          unfold CircularTurn.arcs
          rw [if_pos (by simp)]
          unfold CircularTurn.leftArc
          rw [append_prefix]
          unfold Circle.appendArcToPolyline
          rw [if_pos (by norm_num), if_neg (by rw [hb]; norm_num)]
          exact ⟨_, rfl⟩
        obtain ⟨e, he, hall⟩ := ih (fun x hx => hr x (List.mem_cons_of_mem _ hx)) (List.isChain_cons_cons.1 hne).2 (l ++ q)
        refine ⟨q ++ e, ?_, ?_⟩
        · rw [appendLeftTurns, if_neg (by rw [hb]; norm_num), hq]
          dsimp only
          rw [he, List.append_assoc]
        · intro i a' b' c' ti' tj' ha' hb' hc' hi' hj' hd
          cases i with
          | zero =>
            simp only [List.getElem?_cons_zero, Option.some.injEq, Nat.zero_add, List.getElem?_cons_succ] at ha' hb' hc'
            subst ha' hb' hc'
            rw [full_turn hi' hj' hb hd l] at hq
            have := List.append_cancel_left (Option.some.inj hq)
            rw [← this]; simp
          | succ i =>
            rw [List.mem_append]
            right
            exact hall i a' b' c' ti' tj' (by simpa using ha') (by simpa using hb') (by simpa using hc') hi' hj' hd

theorem endcap_split (right : ℂ → Bool) (l e r : List ℂ) (n : ℕ) : ∃ e1 e2, e = e1 ++ e2 ∧
    endcapLoop right l.length ⟨l ++ e, r⟩ n = ⟨l ++ e1, r ++ e2.reverse⟩ := by
  induction e using List.reverseRecOn generalizing n r with
  | nil =>
    refine ⟨[], [], rfl, ?_⟩
    cases n with
    | zero => simp [endcapLoop]
    | succ n =>
      rw [endcapLoop]
      dsimp only
      cases (l ++ []).getLast? with
      | none => simp
      | some p => simp
  | append_singleton e a ih =>
    cases n with
    | zero => exact ⟨e ++ [a], [], by simp, by simp [endcapLoop]⟩
    | succ n =>
      rw [endcapLoop]
      dsimp only
      rw [← List.append_assoc, List.getLast?_append_of_ne_nil _ (by simp), List.getLast?_singleton]
      dsimp only
      by_cases hg : (l ++ e ++ [a]).length > l.length ∧ right a = true
      · rw [if_pos hg, List.dropLast_append_of_ne_nil (by simp)]
        simp only [List.dropLast_singleton, List.append_nil]
        obtain ⟨e1, e2, h1, h2⟩ := ih (r ++ [a]) n
        exact ⟨e1, e2 ++ [a], by rw [h1, List.append_assoc], by rw [h2]; simp⟩
      · rw [if_neg hg]
        exact ⟨e ++ [a], [], by simp, by simp⟩

/-! ## A box that moves along its sides -/

/-- A square with round corners. -/
noncomputable def boxTip (p : ℂ) : TipState := ⟨p, 4, 4, 1 / 2, 0, 0, 0⟩

noncomputable def boxShape (p : ℂ) : TipShape :=
  ⟨p, [⟨p + ⟨1, 1⟩, 1⟩, ⟨p + ⟨-1, 1⟩, 1⟩, ⟨p + ⟨-1, -1⟩, 1⟩, ⟨p + ⟨1, -1⟩, 1⟩]⟩

theorem box_slanted (p : ℂ) : Slanted (boxTip p) := by
  have := Real.pi_pos
  unfold Slanted boxTip; dsimp only; rw [abs_zero]; linarith

theorem box_make (p : ℂ) : TipShape.make (boxTip p) (1 / 10) = some (boxShape p) := by
  unfold TipShape.make makeShapeControlCircles calculateCircleRadius boxTip boxShape
  rw [show max (1 / 10 : ℝ) floatMin = 1 / 10 by unfold floatMin; norm_num]
  norm_num [makeCircle, rotate]
  refine ⟨?_, ?_, ?_, ?_⟩ <;> apply Complex.ext <;> simp [add_comm]

theorem box_follows {i : ℕ} {c d : Circle} (h : Follows (boxShape 0).circles i c d) :
    (i = 0 ∧ c = ⟨⟨1, 1⟩, 1⟩ ∧ d = ⟨⟨-1, 1⟩, 1⟩) ∨ (i = 1 ∧ c = ⟨⟨-1, 1⟩, 1⟩ ∧ d = ⟨⟨-1, -1⟩, 1⟩) ∨
    (i = 2 ∧ c = ⟨⟨-1, -1⟩, 1⟩ ∧ d = ⟨⟨1, -1⟩, 1⟩) ∨ (i = 3 ∧ c = ⟨⟨1, -1⟩, 1⟩ ∧ d = ⟨⟨1, 1⟩, 1⟩) := by
  obtain ⟨h1, h2⟩ := h
  have hi : i < 4 := by have := (List.getElem?_eq_some_iff.1 h1).1; simpa [boxShape] using this
  interval_cases i <;> simp [boxShape] at h1 h2 <;> subst h1 h2 <;> simp

theorem box_sharp : Sharp (boxShape 0).circles := by
  have hpi := Real.pi_gt_three
  intro i c d e h1 h2 _ _
  have key : (e.center - d.center) / (d.center - c.center) = Complex.I := by
    rcases box_follows h1 with ⟨rfl, rfl, rfl⟩ | ⟨rfl, rfl, rfl⟩ | ⟨rfl, rfl, rfl⟩ | ⟨rfl, rfl, rfl⟩ <;>
      rcases box_follows h2 with ⟨g, g1, rfl⟩ | ⟨g, g1, rfl⟩ | ⟨g, g1, rfl⟩ | ⟨g, g1, rfl⟩ <;> simp [boxShape] at g <;>
      (dsimp only; rw [div_eq_iff (by intro e; have := congrArg Complex.re e; have := congrArg Complex.im e; norm_num at *)]
       apply Complex.ext <;> norm_num)
  rw [key, Complex.arg_I, abs_of_pos (by linarith)]
  unfold collinear; linarith

theorem box_indices : tangentCircleIndices (boxShape 0) (boxShape 3) = some ⟨(1, 1), (2, 2)⟩ := by
  obtain ⟨r, -, ho⟩ := make_ordered (box_slanted 0) (box_make 0)
  have ho : Ordered (boxShape 0) r := by
    rcases ho with g | g
    · simp [boxShape] at g
    · exact g
  obtain ⟨k, l, c, d, hix, hc, hd, il, ir⟩ := ho.moved_indices (o := boxShape 3) (u := 1) (x := 3) (by simp) (by norm_num)
    (by simp [boxShape, shift]; refine ⟨?_, ?_, ?_, ?_⟩ <;> apply Complex.ext <;> norm_num) (by
      unfold forwardDirection
      rw [if_neg (show (boxShape 0).center ≠ (boxShape 3).center by simp [boxShape])]
      simp only [boxShape]
      have := unit_mul (v := (3 : ℂ) - 0)
      norm_num at this ⊢
      exact this)
  have hk : k < 4 := by have := (List.getElem?_eq_some_iff.1 hc).1; simpa [boxShape] using this
  have hl : l < 4 := by have := (List.getElem?_eq_some_iff.1 hd).1; simpa [boxShape] using this
  have a1 := il ⟨⟨-1, 1⟩, 1⟩ (by simp [boxShape])
  have a2 := ir ⟨⟨-1, -1⟩, 1⟩ (by simp [boxShape])
  have ek : k = 1 := by
    interval_cases k
    · simp [boxShape] at hc; subst hc; norm_num [lft, fwd, Vec.determinant, Vec.dotProduct] at a1
    · rfl
    · simp [boxShape] at hc; subst hc; norm_num [lft, fwd, Vec.determinant, Vec.dotProduct] at a1
    · simp [boxShape] at hc; subst hc; norm_num [lft, fwd, Vec.determinant, Vec.dotProduct] at a1
  have el : l = 2 := by
    interval_cases l
    · simp [boxShape] at hd; subst hd; norm_num [lft, fwd, Vec.determinant, Vec.dotProduct] at a2
    · simp [boxShape] at hd; subst hd; norm_num [lft, fwd, Vec.determinant, Vec.dotProduct] at a2
    · rfl
    · simp [boxShape] at hd; subst hd; norm_num [lft, fwd, Vec.determinant, Vec.dotProduct] at a2
  rw [hix, ek, el]

/-- The points of the end cap have one inside of the box. -/
theorem box_endcap (points : ExtrusionPoints) : ∃ l r, appendEndcap (boxShape 0) (boxShape 3) 1 points =
    some ⟨points.left ++ l, points.right ++ r⟩ ∧ (2 ∈ l ∨ 2 ∈ r) := by
  have hpi := Real.pi_pos
  set cs : List Circle := [⟨⟨-1, 1⟩, 1⟩, ⟨⟨2, 1⟩, 1⟩, ⟨⟨4, 1⟩, 1⟩, ⟨⟨4, -1⟩, 1⟩, ⟨⟨2, -1⟩, 1⟩, ⟨⟨-1, -1⟩, 1⟩] with hcs
  obtain ⟨e, he, hall⟩ := turns_full cs (by simp [hcs]) (by rw [hcs]; norm_num) points.left
  obtain ⟨e1, e2, h1, h2⟩ := endcap_split (isRightPoint (forwardDirection (boxShape 0) (boxShape 3)) (boxShape 3).center) points.left e points.right
    ((points.left ++ e).length - points.left.length)
  refine ⟨e1, e2.reverse, ?_, ?_⟩
  · unfold appendEndcap
    rw [box_indices]
    dsimp only
    have w : (boxShape 3).walk (boxShape 3).nextCw 2 1 (boxShape 3).circles.length =
        some [⟨⟨2, 1⟩, 1⟩, ⟨⟨4, 1⟩, 1⟩, ⟨⟨4, -1⟩, 1⟩, ⟨⟨2, -1⟩, 1⟩] := by
      simp [boxShape, walk, nextCw]
      refine ⟨?_, ?_, ?_, ?_⟩ <;> apply Complex.ext <;> norm_num
    rw [w, show (boxShape 0).circles[1]? = some ⟨⟨-1, 1⟩, 1⟩ by simp [boxShape], show (boxShape 0).circles[2]? = some ⟨⟨-1, -1⟩, 1⟩ by simp [boxShape]]
    dsimp only
    rw [show (⟨⟨-1, 1⟩, 1⟩ : Circle) :: [⟨⟨2, 1⟩, 1⟩, ⟨⟨4, 1⟩, 1⟩, ⟨⟨4, -1⟩, 1⟩, ⟨⟨2, -1⟩, 1⟩] ++ [⟨⟨-1, -1⟩, 1⟩] = cs from rfl, he]
    dsimp only
    rw [h2]
  · have t : ∀ x y : ℝ, x < y → Circle.getTangentAngles ⟨⟨x, 1⟩, 1⟩ ⟨⟨y, 1⟩, 1⟩ = some ⟨Angle.normalizedAboutZero (π / 2), Angle.normalizedAboutZero (-(π / 2))⟩ := by
      intro x y hxy
      have e : (⟨y, 1⟩ : ℂ) - ⟨x, 1⟩ = ((y - x : ℝ) : ℂ) := by apply Complex.ext <;> simp
      unfold Circle.getTangentAngles Vec.direction
      dsimp only
      rw [e, magnitude_eq, if_neg, Complex.arg_ofReal_of_nonneg (by linarith), sub_self, zero_div, Real.arccos_zero, zero_add, zero_sub]
      rw [sub_self, abs_zero, Complex.norm_real, Real.norm_of_nonneg (by linarith)]
      rintro (g | g)
      · have := congrArg Complex.re g; simp at this; linarith
      · linarith
    have := hall 0 _ _ _ _ _ rfl rfl rfl (t (-1) 2 (by norm_num)) (t 2 4 (by norm_num)) (by
      rw [sub_self, abs_zero]; unfold CircularTurn.collinearTol; norm_num)
    have ep : (⟨⟨2, 1⟩, 1⟩ : Circle).getPoint (Angle.normalizedAboutZero (π / 2) - π) = 2 := by
      unfold Circle.getPoint Vec.fromDirectionAndMagnitude
      rw [Real.cos_sub_pi, Real.sin_sub_pi, cos_normalized, sin_normalized, Real.cos_pi_div_two, Real.sin_pi_div_two]
      apply Complex.ext <;> norm_num
    dsimp only at this
    rw [ep, h1, List.mem_append] at this
    rwa [List.mem_reverse]

/-- The move of a rounded tip along one of its edges: the end cap goes around a circle at its rear and has points inside of the shape. -/
theorem C68_moved_counterexample : ∃ s1 s2 m h t1 t2, Slanted s1 ∧ TipShape.make s1 m = some t1 ∧ TipShape.make s2 m = some t2 ∧
    Moved s1 s2 ∧ s1.position ≠ s2.position ∧ ¬InLine t1.circles (s2.position - s1.position) ∧ 0 < h ∧ NotHuge h t1.circles ∧
    Sharp t1.circles ∧ ∀ points, ∃ l r, appendEndcap t1 t2 h points = some ⟨points.left ++ l, points.right ++ r⟩ ∧
      ∃ p, (p ∈ l ∨ p ∈ r) ∧ ¬OnBoundary (convexHull ℝ (region t1 ∪ region t2)) p := by
  refine ⟨boxTip 0, boxTip 3, 1 / 10, 1, boxShape 0, boxShape 3, box_slanted 0, box_make 0, box_make 3, ⟨3, rfl⟩, ?_, ?_, one_pos, ?_,
    box_sharp, fun points => ?_⟩
  · simp [boxTip]
  · rintro ⟨-, h⟩
    have := h ⟨⟨1, 1⟩, 1⟩ (by simp [boxShape]) ⟨⟨-1, -1⟩, 1⟩ (by simp [boxShape])
    norm_num [boxTip] at this
  · intro c hc
    simp only [boxShape, List.mem_cons, List.not_mem_nil, or_false] at hc
    rcases hc with rfl | rfl | rfl | rfl <;> norm_num
  · obtain ⟨l, r, h1, h2⟩ := box_endcap points
    refine ⟨l, r, h1, 2, h2, ?_⟩
    rintro ⟨-, θ, hθ⟩
    have key : ∀ c ∈ (boxShape 3).circles, c.radius = 1 → along θ c.center + 1 ≤ along θ 2 := by
      intro c hc hr
      have := hθ (c.getPoint θ) (subset_convexHull ℝ _ (Or.inr (disc_region hc (getPoint_in (by rw [hr]; norm_num) θ))))
      rwa [along_getPoint, hr] at this
    have k1 := key ⟨3 + ⟨-1, 1⟩, 1⟩ (by simp [boxShape]) rfl
    have k2 := key ⟨3 + ⟨-1, -1⟩, 1⟩ (by simp [boxShape]) rfl
    norm_num [along] at k1 k2
    linarith

/-! ## A flat triangle -/

/-- A triangle with round corners that is much wider than it is high. -/
noncomputable def lowTip : TipState := ⟨0, 2000002, 4, 1 / 2, 0, 0, 1⟩

noncomputable def lowShape : TipShape := ⟨0, [⟨⟨1000000, 1⟩, 1⟩, ⟨⟨-1000000, 1⟩, 1⟩, ⟨⟨0, -1⟩, 1⟩]⟩

theorem low_slanted : Slanted lowTip := by
  have := Real.pi_pos
  unfold Slanted lowTip; dsimp only; rw [abs_zero]; linarith

theorem low_make : TipShape.make lowTip (1 / 10) = some lowShape := by
  unfold TipShape.make makeShapeControlCircles calculateCircleRadius lowTip lowShape
  rw [show max (1 / 10 : ℝ) floatMin = 1 / 10 by unfold floatMin; norm_num]
  norm_num [makeCircle, rotate]

/-- The tangents of the two long sides. -/
theorem low_tangents : ∃ ti tj δ, Circle.getTangentAngles ⟨⟨1000000, 1⟩, 1⟩ ⟨⟨0, -1⟩, 1⟩ = some ti ∧
    Circle.getTangentAngles ⟨⟨0, -1⟩, 1⟩ ⟨⟨-1000000, 1⟩, 1⟩ = some tj ∧ 0 ≤ δ ∧ δ ≤ 2 / 1000000 ∧ ti.left = -(π / 2) + δ ∧ tj.left = -(π / 2) - δ := by
  have hpi := Real.pi_gt_three
  have b0 : 0 ≤ Complex.arg ⟨1000000, 2⟩ := Complex.arg_nonneg_iff.2 (by norm_num)
  have b1 : |Complex.arg ⟨1000000, 2⟩| < π / 2 := Complex.abs_arg_lt_pi_div_two_iff.2 (Or.inl (by norm_num))
  have b2 := Complex.tan_arg ⟨1000000, 2⟩
  have a1 : Complex.arg (-⟨1000000, 2⟩) = Complex.arg ⟨1000000, 2⟩ - π := Complex.arg_neg_eq_arg_sub_pi_of_im_pos (by norm_num)
  have a2 : Complex.arg (-(starRingEnd ℂ) ⟨1000000, 2⟩) = Complex.arg ((starRingEnd ℂ) ⟨1000000, 2⟩) + π :=
    Complex.arg_neg_eq_arg_add_pi_of_im_neg (by norm_num)
  rw [Complex.arg_conj] at a2
  generalize Complex.arg ⟨1000000, 2⟩ = δ at *
  rw [abs_of_nonneg b0] at b1
  rw [if_neg (by linarith)] at a2
  have b3 := Real.le_tan b0 b1
  rw [b2] at b3
  norm_num at b3
  have get : ∀ a b : Circle, a.radius = 1 → b.radius = 1 → a.center ≠ b.center →
      ∃ t, a.getTangentAngles b = some t ∧ t.left = Angle.normalizedAboutZero (Complex.arg (b.center - a.center) + π / 2) := by
    intro a b ha hb hne
    unfold Circle.getTangentAngles
    dsimp only
    rw [if_neg]
    · refine ⟨_, rfl, ?_⟩
      rw [ha, hb, sub_self, zero_div, Real.arccos_zero]; rfl
    · rw [ha, hb, sub_self, abs_zero, magnitude_eq]
      rintro (g | g)
      · exact hne g
      · exact absurd g (not_le.2 (norm_pos_iff.2 (sub_ne_zero.2 hne.symm)))
  obtain ⟨ti, hi, ei⟩ := get ⟨⟨1000000, 1⟩, 1⟩ ⟨⟨0, -1⟩, 1⟩ rfl rfl (by simp)
  obtain ⟨tj, hj, ej⟩ := get ⟨⟨0, -1⟩, 1⟩ ⟨⟨-1000000, 1⟩, 1⟩ rfl rfl (by simp)
  have f1 : (⟨0, -1⟩ : ℂ) - ⟨1000000, 1⟩ = -⟨1000000, 2⟩ := by apply Complex.ext <;> norm_num
  have f2 : (⟨-1000000, 1⟩ : ℂ) - ⟨0, -1⟩ = -(starRingEnd ℂ) ⟨1000000, 2⟩ := by apply Complex.ext <;> norm_num
  dsimp only at ei ej
  rw [f1, a1] at ei
  rw [f2, a2] at ej
  refine ⟨ti, tj, δ, hi, hj, b0, by norm_num; linarith, ?_, ?_⟩
  · rw [ei]
    refine normal_unique (normalized_spec _).1 ⟨by linarith, by linarith⟩ (SameAngle.trans (normalized_spec _).2 ⟨0, by push_cast; ring⟩)
  · rw [ej]
    refine normal_unique (normalized_spec _).1 ⟨by linarith, by linarith⟩ (SameAngle.trans (normalized_spec _).2 ⟨1, by push_cast; ring⟩)

/-- A turn by less than 0.00001 radians of a rounded tip: the outline goes around the circle there and has points inside of the tip. -/
theorem C68_whole_counterexample : ∃ s m h t, Slanted s ∧ TipShape.make s m = some t ∧ 0 < h ∧ NotHuge h t.circles ∧ ∀ v points, ∃ l r,
    t.appendWholeShape h v points = some ⟨points.left ++ l, points.right ++ r⟩ ∧ ∃ p, (p ∈ l ∨ p ∈ r) ∧ ¬OnBoundary (region t) p := by
  refine ⟨lowTip, 1 / 10, 1, lowShape, low_slanted, low_make, one_pos, ?_, fun v points => ?_⟩
  · intro c hc
    simp only [lowShape, List.mem_cons, List.not_mem_nil, or_false] at hc
    rcases hc with rfl | rfl | rfl <;> norm_num
  obtain ⟨ti, tj, δ, hi, hj, d0, d1, ei, ej⟩ := low_tangents
  set cs : List Circle := [⟨⟨-1000000, 1⟩, 1⟩, ⟨⟨1000000, 1⟩, 1⟩, ⟨⟨0, -1⟩, 1⟩, ⟨⟨-1000000, 1⟩, 1⟩, ⟨⟨1000000, 1⟩, 1⟩] with hcs
  obtain ⟨e, he, hall⟩ := turns_full cs (by simp [hcs]) (by rw [hcs]; norm_num) points.left
  obtain ⟨A, B, L, R, h1, h2, h3, -⟩ := move_spec v lowShape.center points.left e points.right
  refine ⟨L, R.reverse, ?_, (⟨⟨0, -1⟩, 1⟩ : Circle).getPoint (tj.left - π), ?_, ?_⟩
  · unfold appendWholeShape
    have w : lowShape.wholeLoop (lowShape.nextCcw 0) (lowShape.circles.length + 2) = some cs := by
      simp [lowShape, wholeLoop, nextCw, nextCcw, hcs]
    rw [w]
    simp only [lowShape] at h3 ⊢
    rw [he]
    dsimp only
    rw [List.length_append, Nat.add_sub_cancel_left, h3]
  · have := hall 1 _ _ _ _ _ rfl rfl rfl hi hj (by
      rw [ei, ej, show -(π / 2) + δ - (-(π / 2) - δ) = 2 * δ by ring, abs_of_nonneg (by linarith)]
      unfold CircularTurn.collinearTol; linarith)
    have : (⟨⟨0, -1⟩, 1⟩ : Circle).getPoint (tj.left - π) ∈ L ++ R := by
      rw [← h2, List.mem_append]
      rw [h1, List.mem_append] at this
      exact this.symm
    rw [List.mem_append] at this
    rwa [List.mem_reverse]
  · rintro ⟨-, θ, hθ⟩
    have key : ∀ c ∈ lowShape.circles, c.radius = 1 → along θ c.center + 1 ≤ along θ ((⟨⟨0, -1⟩, 1⟩ : Circle).getPoint (tj.left - π)) := by
      intro c hc hr
      have := hθ (c.getPoint θ) (disc_region hc (getPoint_in (by rw [hr]; norm_num) θ))
      rwa [along_getPoint, hr] at this
    have k1 := key ⟨⟨1000000, 1⟩, 1⟩ (by simp [lowShape]) rfl
    have k2 := key ⟨⟨-1000000, 1⟩, 1⟩ (by simp [lowShape]) rfl
    have k3 := key ⟨⟨0, -1⟩, 1⟩ (by simp [lowShape]) rfl
    have ep : along θ ((⟨⟨0, -1⟩, 1⟩ : Circle).getPoint (tj.left - π)) = Real.cos θ * Real.sin δ + Real.sin θ * (Real.cos δ - 1) := by
      unfold Circle.getPoint Vec.fromDirectionAndMagnitude along
      rw [Real.cos_sub_pi, Real.sin_sub_pi, ej, show -(π / 2) - δ = -(δ + π / 2) by ring, Real.cos_neg, Real.sin_neg, Real.cos_add_pi_div_two,
        Real.sin_add_pi_div_two]
      simp only [Complex.add_re, Complex.add_im]
      ring
    rw [ep] at k1 k2 k3
    simp only [along] at k1 k2 k3
    have c1 := Real.sin_sq_add_cos_sq θ
    have c2 := Real.sin_sq_add_cos_sq δ
    have c3 : Real.cos δ > 0 := Real.cos_pos_of_mem_Ioo ⟨by linarith [Real.pi_gt_three], by linarith [Real.pi_gt_three]⟩
    have hcos := Real.cos_le_one (θ - δ)
    nlinarith [sq_nonneg (Real.sin θ - Real.cos δ), sq_nonneg (Real.cos θ - Real.sin δ)]

end Verif.RealGeom
