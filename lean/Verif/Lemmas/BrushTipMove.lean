import Verif.Lemmas.BrushTipExtrusion
import Verif.Props.BrushTipShape

/-!
# Lemmas about the tangents between two positions of a tip (C67)
-/

set_option autoImplicit false

namespace Verif.RealGeom

open Spec Real TipShape

/-! ## The frame of a direction -/

/-- How far forward. -/
abbrev fwd (u z : ℂ) : ℝ := Vec.dotProduct u z

/-- How far to the left. -/
abbrev lft (u z : ℂ) : ℝ := Vec.determinant u z

/-- The turn from a direction. -/
noncomputable def turn (u w : ℂ) : ℝ := Complex.arg ⟨fwd u w, lft u w⟩

theorem det_frame {u : ℂ} (hu : ‖u‖ = 1) (a b : ℂ) : Vec.determinant a b = fwd u a * lft u b - lft u a * fwd u b := by
  have h : u.re * u.re + u.im * u.im = 1 := by
    rw [← Complex.normSq_apply, Complex.normSq_eq_norm_sq, hu]; norm_num
  unfold fwd lft Vec.dotProduct Vec.determinant
  linear_combination -(a.re * b.im - a.im * b.re) * h

theorem frame_eq {u : ℂ} (hu : ‖u‖ = 1) {a b : ℂ} (h1 : fwd u a = fwd u b) (h2 : lft u a = lft u b) : a = b := by
  have h : u.re * u.re + u.im * u.im = 1 := by
    rw [← Complex.normSq_apply, Complex.normSq_eq_norm_sq, hu]; norm_num
  unfold fwd lft Vec.dotProduct Vec.determinant at *
  apply Complex.ext
  · linear_combination u.re * h1 - u.im * h2 - (a.re - b.re) * h
  · linear_combination u.im * h1 + u.re * h2 - (a.im - b.im) * h

theorem frame_mul (u w : ℂ) : (⟨fwd u w, lft u w⟩ : ℂ) = w * (starRingEnd ℂ) u := by
  unfold fwd lft Vec.dotProduct Vec.determinant
  apply Complex.ext <;> simp <;> ring

theorem frame_norm {u : ℂ} (hu : ‖u‖ = 1) (w : ℂ) : ‖(⟨fwd u w, lft u w⟩ : ℂ)‖ = ‖w‖ := by
  rw [frame_mul, norm_mul, Complex.norm_conj, hu, mul_one]

theorem fwd_sub (u a b : ℂ) : fwd u (a - b) = fwd u a - fwd u b := by
  unfold fwd Vec.dotProduct; simp; ring

theorem lft_sub (u a b : ℂ) : lft u (a - b) = lft u a - lft u b := by
  unfold lft Vec.determinant; simp; ring

theorem fwd_add (u a b : ℂ) : fwd u (a + b) = fwd u a + fwd u b := by
  unfold fwd Vec.dotProduct; simp; ring

theorem lft_add (u a b : ℂ) : lft u (a + b) = lft u a + lft u b := by
  unfold lft Vec.determinant; simp; ring

theorem fwd_smul {u : ℂ} (hu : ‖u‖ = 1) (x : ℝ) : fwd u (x * u) = x := by
  have h : u.re * u.re + u.im * u.im = 1 := by
    rw [← Complex.normSq_apply, Complex.normSq_eq_norm_sq, hu]; norm_num
  unfold fwd Vec.dotProduct; simp; linear_combination x * h

theorem lft_smul (u : ℂ) (x : ℝ) : lft u (x * u) = 0 := by
  unfold lft Vec.determinant; simp; ring

theorem signed_frame {u w : ℂ} (hu : ‖u‖ = 1) (hw : w ≠ 0) : Vec.signedAngleBetween u w = turn u w := by
  have hu0 : u ≠ 0 := fun e => by rw [e, norm_zero] at hu; norm_num at hu
  rw [signed_eq]
  refine normal_unique (normalized_spec _).1 ⟨Complex.neg_pi_lt_arg _, Complex.arg_le_pi _⟩ ?_
  obtain ⟨k, hk⟩ := (normalized_spec (Vec.direction w - Vec.direction u)).2
  unfold turn
  rw [frame_mul]
  have h1 := Complex.arg_mul_coe_angle hw ((map_ne_zero (starRingEnd ℂ)).2 hu0)
  rw [Complex.arg_conj_coe_angle] at h1
  have h2 : ((Vec.direction w - Vec.direction u : ℝ) : Real.Angle) = ((w * (starRingEnd ℂ) u).arg : ℝ) := by
    rw [h1, Real.Angle.coe_sub, sub_eq_add_neg]; rfl
  obtain ⟨l, hl⟩ := Real.Angle.angle_eq_iff_two_pi_dvd_sub.1 h2
  refine ⟨k + l, ?_⟩
  rw [hk]
  push_cast
  linarith

/-- Equal circles are connected by the way between their centers. -/
theorem properties_equal {a b w u : ℂ} {r : ℝ} {side : Side} (hu : ‖u‖ = 1) (hw : w = b - a) (h : w ≠ 0) :
    tangentProperties ⟨a, r⟩ ⟨b, r⟩ u side = some (turn u w, ‖w‖) := by
  have hne : a ≠ b := fun e => h (by rw [hw, e, sub_self])
  rw [← signed_frame hu h]
  have h0 : 0 < ‖w‖ := norm_pos_iff.2 h
  have hsq : w.re * w.re + w.im * w.im = ‖w‖ * ‖w‖ := by
    rw [← Complex.normSq_apply, Complex.normSq_eq_norm_sq]; ring
  cases side with
  | left =>
    refine properties_eq (n := ⟨-w.im / ‖w‖, w.re / ‖w‖⟩) (apart_contains rfl hne) (apart_contains rfl hne.symm) ?_ ?_ ?_ ?_ h
    · field_simp; linarith
    · dsimp only; rw [← hw]; ring
    · rw [if_pos rfl]
      dsimp only
      rw [← hw]
      have : w.re * (w.re / ‖w‖) - w.im * (-w.im / ‖w‖) = ‖w‖ := by field_simp; linarith
      rw [this]; exact h0
    · dsimp only; rw [hw]; simp
  | right =>
    refine properties_eq (n := ⟨w.im / ‖w‖, -w.re / ‖w‖⟩) (apart_contains rfl hne) (apart_contains rfl hne.symm) ?_ ?_ ?_ ?_ h
    · field_simp; linarith
    · dsimp only; rw [← hw]; ring
    · rw [if_neg (by simp : ¬Side.right = Side.left)]
      dsimp only
      rw [← hw]
      have : w.re * (-w.re / ‖w‖) - w.im * (w.im / ‖w‖) = -‖w‖ := by field_simp; linarith
      rw [this]; linarith
    · dsimp only; rw [hw]; simp

theorem det_arg (z w : ℂ) : Vec.determinant z w = ‖z‖ * ‖w‖ * Real.sin (Complex.arg w - Complex.arg z) := by
  rw [Real.sin_sub]
  have a1 := Complex.norm_mul_cos_arg z
  have a2 := Complex.norm_mul_sin_arg z
  have a3 := Complex.norm_mul_cos_arg w
  have a4 := Complex.norm_mul_sin_arg w
  unfold Vec.determinant
  rw [← a1, ← a2, ← a3, ← a4]
  ring

/-- What is to the right of a way to the left turns less to the left. -/
theorem turn_lt_left {u e w : ℂ} (hu : ‖u‖ = 1) (he : 0 < lft u e) (h : Vec.determinant e w < 0) : turn u w < turn u e := by
  by_contra hn
  rw [not_lt] at hn
  have h1 : 0 ≤ turn u e := Complex.arg_nonneg_iff.2 he.le
  have h1' : turn u e ≠ 0 := by
    intro e0
    unfold turn at e0
    rw [Complex.arg_eq_zero_iff] at e0
    exact he.ne' e0.2
  have h2 : turn u w ≤ π := Complex.arg_le_pi _
  rw [det_frame hu] at h
  have h3 := det_arg ⟨fwd u e, lft u e⟩ ⟨fwd u w, lft u w⟩
  unfold Vec.determinant at h3
  dsimp only at h3
  rw [h3] at h
  have h4 : 0 ≤ Real.sin (turn u w - turn u e) := Real.sin_nonneg_of_nonneg_of_le_pi (by linarith) (by linarith)
  unfold turn at h4
  have := mul_nonneg (mul_nonneg (norm_nonneg (⟨fwd u e, lft u e⟩ : ℂ)) (norm_nonneg (⟨fwd u w, lft u w⟩ : ℂ))) h4
  linarith

theorem turn_lt_right {u e w : ℂ} (hu : ‖u‖ = 1) (he : lft u e < 0) (h : 0 < Vec.determinant e w) : turn u e < turn u w := by
  by_contra hn
  rw [not_lt] at hn
  have h1 : turn u e < 0 := Complex.arg_neg_iff.2 he
  have h2 : -π < turn u w := Complex.neg_pi_lt_arg _
  rw [det_frame hu] at h
  have h3 := det_arg ⟨fwd u e, lft u e⟩ ⟨fwd u w, lft u w⟩
  unfold Vec.determinant at h3
  dsimp only at h3
  rw [h3] at h
  have h4 : Real.sin (turn u w - turn u e) ≤ 0 := Real.sin_nonpos_of_nonpos_of_neg_pi_le (by linarith) (by linarith)
  unfold turn at h4
  have := mul_nonpos_of_nonneg_of_nonpos (mul_nonneg (norm_nonneg (⟨fwd u e, lft u e⟩ : ℂ)) (norm_nonneg (⟨fwd u w, lft u w⟩ : ℂ))) h4
  linarith

theorem turn_forward {u : ℂ} (hu : ‖u‖ = 1) {x : ℝ} (hx : 0 < x) : turn u (x * u) = 0 := by
  unfold turn
  rw [Complex.arg_eq_zero_iff, fwd_smul hu, lft_smul]
  exact ⟨hx.le, rfl⟩

/-! ## Convex shapes -/

/-- Circles of equal size, in counter-clockwise order. -/
structure Ordered (s : TipShape) (r : ℝ) : Prop where
  sound : Sound s r
  two : 2 ≤ s.circles.length
  four : s.circles.length ≤ 4
  left : ∀ (i : ℕ) (c d e : Circle), s.circles[i]? = some c → s.circles[(i + 1) % s.circles.length]? = some d → e ∈ s.circles →
    0 ≤ Vec.determinant (d.center - c.center) (e.center - c.center)
  corner : ∀ (i : ℕ) (a b d : Circle), s.circles[i]? = some a → s.circles[(i + 1) % s.circles.length]? = some b →
    s.circles[((i + 1) % s.circles.length + 1) % s.circles.length]? = some d →
    0 < Vec.determinant (b.center - a.center) (d.center - b.center) ∨ (d = a ∧ ∀ e ∈ s.circles, e = a ∨ e = b)
  inj : ∀ (i j : ℕ) (c d : Circle), s.circles[i]? = some c → s.circles[j]? = some d → c.center = d.center → i = j

theorem leftOf_iff (a b p : ℂ) : LeftOf a b p ↔ 0 < Vec.determinant (b - a) (p - a) := by
  unfold LeftOf Vec.determinant
  simp only [Complex.sub_re, Complex.sub_im]

theorem make_ordered {s : TipState} {t : TipShape} {m : ℝ} (hs : Slanted s) (ht : TipShape.make s m = some t) :
    ∃ r, Sound t r ∧ (t.circles.length = 1 ∨ Ordered t r) := by
  obtain ⟨r, hr⟩ := make_sound hs ht
  refine ⟨r, hr, ?_⟩
  by_cases h1 : t.circles.length = 1
  · exact Or.inl h1
  right
  obtain ⟨-, h2⟩ := C65_make s m
  obtain ⟨-, l1, l4, -⟩ := h2 t ht
  obtain ⟨-, hccw⟩ := C65_counterclockwise hs ht
  have hsep := C65_separated_partial (le_of_lt hs) ht
  have hpos : 0 < max m (1 / 2 ^ 126) * Real.cos s.slant :=
    mul_pos (lt_of_lt_of_le (by positivity) (le_max_right _ _)) (cos_slant hs)
  have hlt : ∀ {i : ℕ} {c : Circle}, t.circles[i]? = some c → i < t.circles.length := fun h => (List.getElem?_eq_some_iff.1 h).1
  refine ⟨hr, by omega, l4, ?_, ?_, ?_⟩
  · intro i c d e hc hd he
    obtain ⟨j, hj⟩ := List.mem_iff_getElem?.1 he
    by_cases g1 : j = i
    · subst g1
      rw [hc] at hj; obtain rfl := Option.some.inj hj
      rw [sub_self]; simp [Vec.determinant]
    by_cases g2 : j = (i + 1) % t.circles.length
    · subst g2
      rw [hd] at hj; obtain rfl := Option.some.inj hj
      apply le_of_eq; unfold Vec.determinant; ring
    exact ((leftOf_iff _ _ _).1 (hccw i j c d e hc hd hj g1 g2)).le
  · intro i a b d ha hb hd
    have hi := hlt ha
    by_cases h3 : t.circles.length = 2
    · right
      rw [h3] at hb hd hi
      have e1 : ((i + 1) % 2 + 1) % 2 = i := by omega
      rw [e1, ha] at hd
      obtain rfl := Option.some.inj hd
      refine ⟨rfl, fun e he => ?_⟩
      obtain ⟨j, hj⟩ := List.mem_iff_getElem?.1 he
      have hjn := hlt hj
      rw [h3] at hjn
      by_cases e2 : j = i
      · subst e2; rw [ha] at hj; exact Or.inl (Option.some.inj hj).symm
      · have : j = (i + 1) % 2 := by omega
        subst this; rw [hb] at hj; exact Or.inr (Option.some.inj hj).symm
    · left
      have hne : ((i + 1) % t.circles.length + 1) % t.circles.length ≠ i ∧
          ((i + 1) % t.circles.length + 1) % t.circles.length ≠ (i + 1) % t.circles.length := by
        obtain h | h : t.circles.length = 3 ∨ t.circles.length = 4 := by omega
        · rw [h] at hi ⊢; omega
        · rw [h] at hi ⊢; omega
      have := (leftOf_iff _ _ _).1 (hccw i _ a b d ha hb hd hne.1 hne.2)
      have e : Vec.determinant (b.center - a.center) (d.center - b.center) = Vec.determinant (b.center - a.center) (d.center - a.center) := by
        unfold Vec.determinant; simp only [Complex.sub_re, Complex.sub_im]; ring
      rw [e]; exact this
  · intro i j c d hc hd he
    have hi := hlt hc
    have hj := hlt hd
    unfold Separated at hsep
    rw [List.pairwise_iff_getElem] at hsep
    obtain ⟨q1, hc⟩ := List.getElem?_eq_some_iff.1 hc
    obtain ⟨q2, hd⟩ := List.getElem?_eq_some_iff.1 hd
    by_contra hne
    rcases lt_or_gt_of_ne hne with g | g
    · have := hsep i j q1 q2 g
      rw [hc, hd, he, sub_self, norm_zero] at this
      linarith
    · have := hsep j i q2 q1 g
      rw [hc, hd, he, sub_self, norm_zero] at this
      linarith

/-- The circles from one to another are to the right of the way between the two. -/
theorem Ordered.chord {s : TipShape} {r : ℝ} (h : Ordered s r) {i k p : ℕ} {a b e : Circle} (hk : k < s.circles.length) (hp : p ≤ k)
    (ha : s.circles[i]? = some a) (hb : s.circles[(i + k) % s.circles.length]? = some b)
    (he : s.circles[(i + p) % s.circles.length]? = some e) : Vec.determinant (b.center - a.center) (e.center - a.center) ≤ 0 := by
  have hi : i < s.circles.length := (List.getElem?_eq_some_iff.1 ha).1
  have hem := List.mem_of_getElem? he
  have hbm := List.mem_of_getElem? hb
  have h4 := h.four
  by_cases p0 : p = 0
  · subst p0
    rw [add_zero, Nat.mod_eq_of_lt hi, ha] at he
    obtain rfl := Option.some.inj he
    simp [Vec.determinant]
  by_cases pk : p = k
  · subst pk
    rw [hb] at he
    obtain rfl := Option.some.inj he
    apply le_of_eq; unfold Vec.determinant; ring
  by_cases p1 : p = 1
  · subst p1
    have := h.left i a e b ha he hbm
    unfold Vec.determinant at *
    simp only [Complex.sub_re, Complex.sub_im] at *
    linarith
  have hk3 : k = 3 := by omega
  have hn : s.circles.length = 4 := by omega
  have hw : ((i + k) % s.circles.length + 1) % s.circles.length = i := by rw [hn] at hi ⊢; omega
  have := h.left _ b a e hb (by rw [hw]; exact ha) hem
  unfold Vec.determinant at *
  simp only [Complex.sub_re, Complex.sub_im] at *
  linarith

/-! ## The walk around a shape -/

theorem peak1 {a b x y : ℝ} (hb : 0 ≤ b) (hne : a ≠ 0 ∨ b ≠ 0) (hx : 0 ≤ x) (hxy : x = 0 → y ≤ 0) (ha : 0 ≤ a) (F : a * y + b * x ≤ 0) :
    y ≤ 0 := by
  rcases ha.eq_or_lt with rfl | ha
  · have hb' : 0 < b := lt_of_le_of_ne hb (Ne.symm (hne.resolve_left (by simp)))
    exact hxy (by nlinarith)
  · by_contra hn
    rw [not_le] at hn
    have := mul_pos ha hn
    have := mul_nonneg hb hx
    linarith

theorem peak2 {a b a' b' x y : ℝ} (hb : 0 ≤ b) (hb' : 0 < b') (F : a * y + b * x ≤ 0) (G : a' * y - b' * x ≤ 0) (K : 0 < a * b' + b * a') :
    y ≤ 0 ∧ (y = 0 → 0 ≤ x) := by
  constructor
  · by_contra hn
    rw [not_le] at hn
    have h1 := mul_pos hn K
    have h2 := mul_nonpos_of_nonneg_of_nonpos hb'.le F
    have h3 := mul_nonpos_of_nonneg_of_nonpos hb G
    linarith
  · rintro rfl
    by_contra hn
    rw [not_le] at hn
    have := mul_neg_of_pos_of_neg hb' hn
    linarith

theorem Ordered.ccw_left {s : TipShape} {r : ℝ} (h : Ordered s r) {i : ℕ} {c d e : Circle} (hc : s.circles[i]? = some c)
    (hd : s.circles[s.nextCcw i]? = some d) (he : e ∈ s.circles) : 0 ≤ Vec.determinant (d.center - c.center) (e.center - c.center) :=
  h.left i c d e hc (by rw [← nextCcw_eq (List.getElem?_eq_some_iff.1 hc).1]; exact hd) he

theorem Ordered.cw_right {s : TipShape} {r : ℝ} (h : Ordered s r) {i : ℕ} {c d e : Circle} (hc : s.circles[i]? = some c)
    (hd : s.circles[s.nextCw i]? = some d) (he : e ∈ s.circles) : Vec.determinant (d.center - c.center) (e.center - c.center) ≤ 0 := by
  have := h.left _ d c e hd (by rw [nextCw_ccw (List.getElem?_eq_some_iff.1 hc).1]; exact hc) he
  unfold Vec.determinant at *
  simp only [Complex.sub_re, Complex.sub_im] at *
  linarith

theorem cw_ccw {s : TipShape} {i : ℕ} (hi : i < s.circles.length) : s.nextCw (s.nextCcw i) = i := (C65_next s i hi).2.1

theorem exists_max {cs : List Circle} (h : cs ≠ []) (f : Circle → ℝ) : ∃ c ∈ cs, ∀ d ∈ cs, f d ≤ f c := by
  induction cs with
  | nil => exact absurd rfl h
  | cons c cs ih =>
    rcases eq_or_ne cs [] with rfl | hne
    · exact ⟨c, List.mem_singleton_self c, fun d hd => by rw [List.mem_singleton.1 hd]⟩
    · obtain ⟨d, hd, hall⟩ := ih hne
      rcases le_total (f d) (f c) with g | g
      · refine ⟨c, List.mem_cons_self, fun e he => ?_⟩
        rcases List.mem_cons.1 he with rfl | he
        · exact le_refl _
        · exact (hall e he).trans g
      · refine ⟨d, List.mem_cons_of_mem _ hd, fun e he => ?_⟩
        rcases List.mem_cons.1 he with rfl | he
        · exact g
        · exact hall e he

theorem exists_left {cs : List Circle} (h : cs ≠ []) (u : ℂ) : ∃ c ∈ cs, ∀ d ∈ cs, lft u d.center ≤ lft u c.center :=
  exists_max h fun c => lft u c.center

theorem exists_right {cs : List Circle} (h : cs ≠ []) (u : ℂ) : ∃ c ∈ cs, ∀ d ∈ cs, lft u c.center ≤ lft u d.center := by
  obtain ⟨c, hc, hall⟩ := exists_max h fun c => -lft u c.center
  exact ⟨c, hc, fun d hd => by linarith [hall d hd]⟩

/-- No circle is further to the left, and those as far are not further back. -/
def IsLeft (cs : List Circle) (u : ℂ) (c : Circle) : Prop :=
  ∀ e ∈ cs, lft u e.center ≤ lft u c.center ∧ (lft u e.center = lft u c.center → fwd u c.center ≤ fwd u e.center)

/-- At the rear, and the furthest to the left there. -/
def RearLeft (cs : List Circle) (u : ℂ) (c : Circle) : Prop :=
  ∀ e ∈ cs, fwd u c.center ≤ fwd u e.center ∧ (fwd u e.center = fwd u c.center → lft u e.center ≤ lft u c.center)

theorem Ordered.left_peak {s : TipShape} {r : ℝ} {u : ℂ} (h : Ordered s r) (hu : ‖u‖ = 1) {i : ℕ} {c d : Circle}
    (hc : s.circles[i]? = some c) (hd : s.circles[s.nextCw i]? = some d)
    (hI : RearLeft s.circles u c ∨ ∃ f, s.circles[s.nextCcw i]? = some f ∧ lft u f.center < lft u c.center)
    (hle : lft u d.center ≤ lft u c.center) : IsLeft s.circles u c := by
  have hi : i < s.circles.length := (List.getElem?_eq_some_iff.1 hc).1
  have hdm := List.mem_of_getElem? hd
  have hcm := List.mem_of_getElem? hc
  intro e he
  have F : Vec.determinant (d.center - c.center) (e.center - c.center) ≤ 0 := by
    exact h.cw_right hc hd he
  rw [det_frame hu, fwd_sub, fwd_sub, lft_sub, lft_sub] at F
  rcases hI with hI | ⟨f, hf, hlt⟩
  · obtain ⟨r1, r2⟩ := hI e he
    obtain ⟨r3, -⟩ := hI d hdm
    refine ⟨?_, fun _ => r1⟩
    have hne : d.center ≠ c.center := by
      exact (h.sound.apart.resolve_left (by have := h.two; omega)) _ d c hd (by rw [nextCw_ccw hi]; exact hc)
    have := peak1 (a := fwd u d.center - fwd u c.center) (b := lft u c.center - lft u d.center)
      (x := fwd u e.center - fwd u c.center) (y := lft u e.center - lft u c.center) (by linarith) (by
        by_contra hn
        push Not at hn
        exact hne (frame_eq hu (by linarith [hn.1]) (by linarith [hn.2]))) (by linarith) (fun e0 => by linarith [r2 (by linarith)]) (by linarith)
        (by linarith)
    linarith
  · have hfm := List.mem_of_getElem? hf
    have G : Vec.determinant (c.center - f.center) (e.center - c.center) ≤ 0 := by
      have := h.left i c f e hc (by rw [← nextCcw_eq hi]; exact hf) he
      unfold Vec.determinant at *
      simp only [Complex.sub_re, Complex.sub_im] at *
      linarith
    rw [det_frame hu, fwd_sub, fwd_sub, lft_sub, lft_sub] at G
    have hK := h.corner _ d c f hd (by rw [nextCw_ccw hi]; exact hc) (by rw [nextCw_ccw hi, ← nextCcw_eq hi]; exact hf)
    rcases hK with K | ⟨rfl, hall⟩
    · rw [det_frame hu, fwd_sub, fwd_sub, lft_sub, lft_sub] at K
      obtain ⟨p1, p2⟩ := peak2 (a := fwd u d.center - fwd u c.center) (b := lft u c.center - lft u d.center)
        (a' := fwd u c.center - fwd u f.center) (b' := lft u c.center - lft u f.center)
        (x := fwd u e.center - fwd u c.center) (y := lft u e.center - lft u c.center) (by linarith) (by linarith) (by linarith)
        (by linarith) (by linarith)
      exact ⟨by linarith, fun e0 => by linarith [p2 (by rw [e0]; ring)]⟩
    · rcases hall e he with rfl | rfl
      · exact ⟨hlt.le, fun e0 => by linarith⟩
      · exact ⟨le_refl _, fun _ => le_refl _⟩

theorem Ordered.left_pass {s o : TipShape} {r x : ℝ} {u : ℂ} (h : Ordered s r) (hu : ‖u‖ = 1) (hx : 0 < x)
    (ho : o.circles = s.circles.map (shift (x * u))) {i : ℕ} {c d : Circle}
    (hc : s.circles[i]? = some c) (hd : s.circles[s.nextCw i]? = some d) (hlt : lft u c.center < lft u d.center) :
    leftmostTurningIndex c u o (turn u (d.center - c.center)) = none := by
  have hi : i < s.circles.length := (List.getElem?_eq_some_iff.1 hc).1
  have hdm := List.mem_of_getElem? hd
  have hcm := List.mem_of_getElem? hc
  cases hl : leftmostTurningIndex c u o (turn u (d.center - c.center)) with
  | none => rfl
  | some j =>
    exfalso
    obtain ⟨e', t, he', ht, -, hle, -⟩ := leftmost_some hl
    rw [ho, List.getElem?_map, Option.map_eq_some_iff] at he'
    obtain ⟨e, he, rfl⟩ := he'
    have he := List.mem_of_getElem? he
    have F : Vec.determinant (d.center - c.center) (e.center - c.center) ≤ 0 := by
      exact h.cw_right hc hd he
    have D : Vec.determinant (d.center - c.center) (e.center + x * u - c.center) < 0 := by
      rw [det_frame hu] at F ⊢
      rw [show e.center + x * u - c.center = (e.center - c.center) + x * u by ring, fwd_add, lft_add, fwd_smul hu, lft_smul]
      rw [fwd_sub, fwd_sub, lft_sub, lft_sub] at F ⊢
      nlinarith
    have hw : e.center + x * u - c.center ≠ 0 := by
      intro e0
      rw [e0] at D
      simp [Vec.determinant] at D
    have hrc := h.sound.radius c hcm
    have hre := h.sound.radius e he
    have hp : tangentProperties c (shift (x * u) e) u .left = some (turn u (e.center + x * u - c.center), ‖e.center + x * u - c.center‖) := by
      have := properties_equal (a := c.center) (b := e.center + x * u) (r := r) (side := .left) hu rfl hw
      unfold shift
      rw [hre]
      rw [← this, ← hrc]
    rw [hp] at ht
    obtain rfl := Option.some.inj ht
    have := turn_lt_left hu (e := d.center - c.center) (by rw [lft_sub]; linarith) D
    dsimp only at hle
    linarith

theorem Ordered.left_stop {s o : TipShape} {r x : ℝ} {u : ℂ} (h : Ordered s r) (hu : ‖u‖ = 1) (hx : 0 < x)
    (ho : o.circles = s.circles.map (shift (x * u))) {i : ℕ} {c d : Circle}
    (hc : s.circles[i]? = some c) (hd : s.circles[s.nextCw i]? = some d) (hl : IsLeft s.circles u c) :
    leftmostTurningIndex c u o (turn u (d.center - c.center)) = some i := by
  have hi : i < s.circles.length := (List.getElem?_eq_some_iff.1 hc).1
  have hdm := List.mem_of_getElem? hd
  have hcm := List.mem_of_getElem? hc
  have hpi := Real.pi_pos
  have hrc := h.sound.radius c hcm
  have hx0 : (x : ℂ) * u ≠ 0 := by
    intro e0
    have := fwd_smul hu x
    rw [e0] at this
    simp [fwd, Vec.dotProduct] at this
    linarith
  have hprop : ∀ e ∈ s.circles, e.center + x * u - c.center ≠ 0 →
      tangentProperties c (shift (x * u) e) u .left = some (turn u (e.center + x * u - c.center), ‖e.center + x * u - c.center‖) := by
    intro e he hw
    have := properties_equal (a := c.center) (b := e.center + x * u) (r := r) (side := .left) hu rfl hw
    unfold shift
    rw [h.sound.radius e he]
    rw [← this, ← hrc]
  have hself := hprop c hcm (by rw [add_sub_cancel_left]; exact hx0)
  rw [add_sub_cancel_left, turn_forward hu hx] at hself
  have hnear : Near .left (0 : ℝ) := by unfold Near; linarith
  have hth : turn u (d.center - c.center) ≤ 0 := by
    obtain ⟨d1, d2⟩ := hl d hdm
    have hne : d.center ≠ c.center :=
      (h.sound.apart.resolve_left (by have := h.two; omega)) _ d c hd (by rw [nextCw_ccw hi]; exact hc)
    by_cases g : lft u d.center = lft u c.center
    · apply le_of_eq
      unfold turn
      rw [Complex.arg_eq_zero_iff, fwd_sub, lft_sub]
      exact ⟨by dsimp only; linarith [d2 g], by dsimp only; linarith⟩
    · refine le_of_lt (Complex.arg_neg_iff.2 ?_)
      rw [lft_sub]
      exact sub_neg.2 (lt_of_le_of_ne d1 g)
  cases hm : leftmostTurningIndex c u o (turn u (d.center - c.center)) with
  | none =>
    have := leftmost_none hm (shift (x * u) c) (by rw [ho]; exact List.mem_map_of_mem hcm) _ hself hnear
    dsimp only at this
    linarith
  | some j =>
    obtain ⟨e', t, he', ht, hn, -, hall⟩ := leftmost_some hm
    rw [ho, List.getElem?_map, Option.map_eq_some_iff] at he'
    obtain ⟨e, he, rfl⟩ := he'
    have hem := List.mem_of_getElem? he
    obtain ⟨e1, e2⟩ := hl e hem
    obtain ⟨m1, m2⟩ := hall (shift (x * u) c) (by rw [ho]; exact List.mem_map_of_mem hcm) _ hself hnear
    dsimp only at m1 m2
    have hw : e.center + x * u - c.center ≠ 0 := by
      intro e0
      obtain ⟨q1, q2⟩ := properties_apart ht
      refine q1 ?_
      unfold Circle.Contains shift
      rw [magnitude_eq, h.sound.radius e hem, hrc]
      dsimp only
      rw [e0, norm_zero, zero_add]
    rw [hprop e hem hw] at ht
    obtain rfl := Option.some.inj ht
    unfold Near at hn
    dsimp only at m1 m2 hn
    have hf : fwd u (e.center + x * u - c.center) = fwd u e.center - fwd u c.center + x := by
      rw [fwd_sub, fwd_add, fwd_smul hu]; ring
    have hy : lft u (e.center + x * u - c.center) = lft u e.center - lft u c.center := by
      rw [lft_sub, lft_add, lft_smul]; ring
    have hy0 : lft u e.center = lft u c.center := by
      by_contra g
      have : turn u (e.center + x * u - c.center) < 0 := Complex.arg_neg_iff.2 (by rw [hy]; exact sub_neg.2 (lt_of_le_of_ne e1 g))
      linarith
    have e3 := e2 hy0
    have ht0 : turn u (e.center + x * u - c.center) = 0 := by
      unfold turn
      rw [Complex.arg_eq_zero_iff, hf, hy]
      exact ⟨by dsimp only; linarith, by dsimp only; linarith⟩
    have m3 := m2 ht0.symm
    rw [← frame_norm hu, ← frame_norm hu (x * u), hf, hy, hy0, sub_self, fwd_smul hu, lft_smul] at m3
    have nrm : ∀ y : ℝ, 0 ≤ y → ‖(⟨y, 0⟩ : ℂ)‖ = y := by
      intro y hy
      have : (⟨y, 0⟩ : ℂ) = (y : ℂ) := rfl
      rw [this, Complex.norm_real, Real.norm_of_nonneg hy]
    rw [nrm _ (by linarith), nrm _ hx.le] at m3
    have : e.center = c.center := frame_eq hu (by linarith) hy0
    rw [h.inj _ _ _ _ he hc this]

theorem Ordered.leftLoop_moved {s o : TipShape} {r x : ℝ} {u : ℂ} (h : Ordered s r) (hu : ‖u‖ = 1) (hx : 0 < x)
    (ho : o.circles = s.circles.map (shift (x * u))) {q : ℕ} {g : Circle} (hq : s.circles[q]? = some g)
    (hg : ∀ e ∈ s.circles, lft u e.center ≤ lft u g.center) (p : ℕ) : ∀ i n, p < n → i < s.circles.length → i = (q + p) % s.circles.length →
    (∀ c, s.circles[i]? = some c → RearLeft s.circles u c ∨ ∃ f, s.circles[s.nextCcw i]? = some f ∧ lft u f.center < lft u c.center) →
    ∃ k c, leftLoop s o u i n = some (some (k, k)) ∧ s.circles[k]? = some c ∧ IsLeft s.circles u c := by
  have hqn : q < s.circles.length := (List.getElem?_eq_some_iff.1 hq).1
  have step : ∀ i n c d, s.circles[i]? = some c → s.circles[s.nextCw i]? = some d →
      (RearLeft s.circles u c ∨ ∃ f, s.circles[s.nextCcw i]? = some f ∧ lft u f.center < lft u c.center) →
      (lft u d.center ≤ lft u c.center → ∃ k c, leftLoop s o u i (n + 1) = some (some (k, k)) ∧ s.circles[k]? = some c ∧ IsLeft s.circles u c) ∧
      (lft u c.center < lft u d.center → leftLoop s o u i (n + 1) = leftLoop s o u (s.nextCw i) n) := by
    intro i n c d hc hd hI
    have hi : i < s.circles.length := (List.getElem?_eq_some_iff.1 hc).1
    have hne : d.center - c.center ≠ 0 := by
      rw [sub_ne_zero]
      exact (h.sound.apart.resolve_left (by have := h.two; omega)) _ d c hd (by rw [nextCw_ccw hi]; exact hc)
    have ht : tangentProperties c d u .left = some (turn u (d.center - c.center), ‖d.center - c.center‖) := by
      have := properties_equal (a := c.center) (b := d.center) (r := r) (side := .left) hu rfl hne
      have e1 := h.sound.getRadius hc
      have e2 := h.sound.getRadius hd
      rw [← this]
      congr 1
      · rw [← e1]
      · rw [← e2]
    constructor
    · intro hle
      have hpk := h.left_peak hu hc hd hI hle
      refine ⟨i, c, ?_, hc, hpk⟩
      rw [leftLoop]
      simp only [hc, hd, ht, h.left_stop hu hx ho hc hd hpk]
    · intro hlt
      rw [leftLoop]
      simp only [hc, hd, ht, h.left_pass hu hx ho hc hd hlt]
  induction p with
  | zero =>
    intro i n hn hi hs hI
    obtain ⟨n, rfl⟩ : ∃ m, n = m + 1 := ⟨n - 1, by omega⟩
    have hiq : i = q := by rw [hs, add_zero, Nat.mod_eq_of_lt hqn]
    subst hiq
    have hd := get_getD (nextCw_lt hqn)
    exact (step i n g _ hq hd (hI g hq)).1 (hg _ (List.mem_of_getElem? hd))
  | succ p ih =>
    intro i n hn hi hs hI
    obtain ⟨n, rfl⟩ : ∃ m, n = m + 1 := ⟨n - 1, by omega⟩
    have hc := get_getD hi
    have hd := get_getD (nextCw_lt hi)
    generalize (s.circles[i]?).getD ⟨0, 0⟩ = c at hc
    generalize (s.circles[s.nextCw i]?).getD ⟨0, 0⟩ = d at hd
    obtain ⟨s1, s2⟩ := step i n c d hc hd (hI c hc)
    rcases le_or_gt (lft u d.center) (lft u c.center) with g1 | g1
    · exact s1 g1
    · rw [s2 g1]
      refine ih _ n (by omega) (nextCw_lt hi) ?_ ?_
      · rw [hs]
        have e := nextCw_ccw (s := s) hi
        have hl := nextCw_lt (s := s) hi
        rw [hs] at e hl
        generalize s.nextCw ((q + (p + 1)) % s.circles.length) = a at e hl
        have e2 : a + 1 ≡ q + p + 1 [MOD s.circles.length] := e
        have e3 : a ≡ q + p [MOD s.circles.length] := Nat.ModEq.add_right_cancel' 1 e2
        unfold Nat.ModEq at e3
        rw [Nat.mod_eq_of_lt hl] at e3
        exact e3
      · intro c' hc'
        rw [hd] at hc'
        obtain rfl := Option.some.inj hc'
        right
        refine ⟨c, ?_, g1⟩
        rw [nextCcw_eq (nextCw_lt hi), nextCw_ccw hi]
        exact hc

theorem Ordered.leftSide_moved {s o : TipShape} {r x : ℝ} {u : ℂ} (h : Ordered s r) (hu : ‖u‖ = 1) (hx : 0 < x)
    (ho : o.circles = s.circles.map (shift (x * u))) {i : ℕ} {c : Circle} (hc : s.circles[i]? = some c) (hr : RearLeft s.circles u c) :
    ∃ k c, leftSide s o u i = some (k, k) ∧ s.circles[k]? = some c ∧ IsLeft s.circles u c := by
  have hi : i < s.circles.length := (List.getElem?_eq_some_iff.1 hc).1
  obtain ⟨g, hgm, hg⟩ := exists_left h.sound.ne u
  obtain ⟨q, hq⟩ := List.mem_iff_getElem?.1 hgm
  have hqn : q < s.circles.length := (List.getElem?_eq_some_iff.1 hq).1
  obtain ⟨p, hp, hs⟩ := exists_steps (n := s.circles.length) hqn hi
  obtain ⟨k, d, h1, h2, h3⟩ := h.leftLoop_moved hu hx ho hq hg p i s.circles.length hp hi hs (fun c' hc' => by
    rw [hc] at hc'; obtain rfl := Option.some.inj hc'; exact Or.inl hr)
  refine ⟨k, d, ?_, h2, h3⟩
  unfold leftSide
  rw [h1]

/-- No circle is further to the right, and those as far are not further back. -/
def IsRight (cs : List Circle) (u : ℂ) (c : Circle) : Prop :=
  ∀ e ∈ cs, lft u c.center ≤ lft u e.center ∧ (lft u e.center = lft u c.center → fwd u c.center ≤ fwd u e.center)

/-- At the rear, and the furthest to the right there. -/
def RearRight (cs : List Circle) (u : ℂ) (c : Circle) : Prop :=
  ∀ e ∈ cs, fwd u c.center ≤ fwd u e.center ∧ (fwd u e.center = fwd u c.center → lft u c.center ≤ lft u e.center)

theorem Ordered.right_peak {s : TipShape} {r : ℝ} {u : ℂ} (h : Ordered s r) (hu : ‖u‖ = 1) {i : ℕ} {c d : Circle}
    (hc : s.circles[i]? = some c) (hd : s.circles[s.nextCcw i]? = some d)
    (hI : RearRight s.circles u c ∨ ∃ f, s.circles[s.nextCw i]? = some f ∧ lft u c.center < lft u f.center)
    (hle : lft u c.center ≤ lft u d.center) : IsRight s.circles u c := by
  have hi : i < s.circles.length := (List.getElem?_eq_some_iff.1 hc).1
  have hdm := List.mem_of_getElem? hd
  have hcm := List.mem_of_getElem? hc
  intro e he
  have F : 0 ≤ Vec.determinant (d.center - c.center) (e.center - c.center) := by
    exact h.ccw_left hc hd he
  rw [det_frame hu, fwd_sub, fwd_sub, lft_sub, lft_sub] at F
  rcases hI with hI | ⟨f, hf, hlt⟩
  · obtain ⟨r1, r2⟩ := hI e he
    obtain ⟨r3, -⟩ := hI d hdm
    refine ⟨?_, fun _ => r1⟩
    have hne : d.center ≠ c.center := by
      exact ((h.sound.apart.resolve_left (by have := h.two; omega)) i c d hc (by rw [← nextCcw_eq hi]; exact hd)).symm
    have := peak1 (a := fwd u d.center - fwd u c.center) (b := -(lft u c.center - lft u d.center))
      (x := fwd u e.center - fwd u c.center) (y := -(lft u e.center - lft u c.center)) (by linarith) (by
        by_contra hn
        push Not at hn
        exact hne (frame_eq hu (by linarith [hn.1]) (by linarith [hn.2]))) (by linarith) (fun e0 => by linarith [r2 (by linarith)]) (by linarith)
        (by linarith)
    linarith
  · have hfm := List.mem_of_getElem? hf
    have G : 0 ≤ Vec.determinant (c.center - f.center) (e.center - c.center) := by
      have := h.left _ f c e hf (by rw [nextCw_ccw hi]; exact hc) he
      unfold Vec.determinant at *
      simp only [Complex.sub_re, Complex.sub_im] at *
      linarith
    rw [det_frame hu, fwd_sub, fwd_sub, lft_sub, lft_sub] at G
    have hK := h.corner _ f c d hf (by rw [nextCw_ccw hi]; exact hc) (by rw [nextCw_ccw hi, ← nextCcw_eq hi]; exact hd)
    rcases hK with K | ⟨rfl, hall⟩
    · rw [det_frame hu, fwd_sub, fwd_sub, lft_sub, lft_sub] at K
      obtain ⟨p1, p2⟩ := peak2 (a := fwd u d.center - fwd u c.center) (b := -(lft u c.center - lft u d.center))
        (a' := fwd u c.center - fwd u f.center) (b' := -(lft u c.center - lft u f.center))
        (x := fwd u e.center - fwd u c.center) (y := -(lft u e.center - lft u c.center)) (by linarith) (by linarith) (by linarith)
        (by linarith) (by linarith)
      exact ⟨by linarith, fun e0 => by linarith [p2 (by rw [e0]; ring)]⟩
    · rcases hall e he with rfl | rfl
      · exact ⟨hle, fun e0 => by linarith⟩
      · exact ⟨le_refl _, fun _ => le_refl _⟩

theorem Ordered.right_pass {s o : TipShape} {r x : ℝ} {u : ℂ} (h : Ordered s r) (hu : ‖u‖ = 1) (hx : 0 < x)
    (ho : o.circles = s.circles.map (shift (x * u))) {i : ℕ} {c d : Circle}
    (hc : s.circles[i]? = some c) (hd : s.circles[s.nextCcw i]? = some d) (hlt : lft u d.center < lft u c.center) :
    rightmostTurningIndex c u o (turn u (d.center - c.center)) = none := by
  have hi : i < s.circles.length := (List.getElem?_eq_some_iff.1 hc).1
  have hdm := List.mem_of_getElem? hd
  have hcm := List.mem_of_getElem? hc
  cases hl : rightmostTurningIndex c u o (turn u (d.center - c.center)) with
  | none => rfl
  | some j =>
    exfalso
    obtain ⟨e', t, he', ht, -, hle, -⟩ := rightmost_some hl
    rw [ho, List.getElem?_map, Option.map_eq_some_iff] at he'
    obtain ⟨e, he, rfl⟩ := he'
    have he := List.mem_of_getElem? he
    have F : 0 ≤ Vec.determinant (d.center - c.center) (e.center - c.center) := by
      exact h.ccw_left hc hd he
    have D : 0 < Vec.determinant (d.center - c.center) (e.center + x * u - c.center) := by
      rw [det_frame hu] at F ⊢
      rw [show e.center + x * u - c.center = (e.center - c.center) + x * u by ring, fwd_add, lft_add, fwd_smul hu, lft_smul]
      rw [fwd_sub, fwd_sub, lft_sub, lft_sub] at F ⊢
      nlinarith
    have hw : e.center + x * u - c.center ≠ 0 := by
      intro e0
      rw [e0] at D
      simp [Vec.determinant] at D
    have hrc := h.sound.radius c hcm
    have hre := h.sound.radius e he
    have hp : tangentProperties c (shift (x * u) e) u .right = some (turn u (e.center + x * u - c.center), ‖e.center + x * u - c.center‖) := by
      have := properties_equal (a := c.center) (b := e.center + x * u) (r := r) (side := .right) hu rfl hw
      unfold shift
      rw [hre]
      rw [← this, ← hrc]
    rw [hp] at ht
    obtain rfl := Option.some.inj ht
    have := turn_lt_right hu (e := d.center - c.center) (by rw [lft_sub]; linarith) D
    dsimp only at hle
    linarith

theorem Ordered.right_stop {s o : TipShape} {r x : ℝ} {u : ℂ} (h : Ordered s r) (hu : ‖u‖ = 1) (hx : 0 < x)
    (ho : o.circles = s.circles.map (shift (x * u))) {i : ℕ} {c d : Circle}
    (hc : s.circles[i]? = some c) (hd : s.circles[s.nextCcw i]? = some d) (hl : IsRight s.circles u c) :
    rightmostTurningIndex c u o (turn u (d.center - c.center)) = some i := by
  have hi : i < s.circles.length := (List.getElem?_eq_some_iff.1 hc).1
  have hdm := List.mem_of_getElem? hd
  have hcm := List.mem_of_getElem? hc
  have hpi := Real.pi_pos
  have hrc := h.sound.radius c hcm
  have hx0 : (x : ℂ) * u ≠ 0 := by
    intro e0
    have := fwd_smul hu x
    rw [e0] at this
    simp [fwd, Vec.dotProduct] at this
    linarith
  have hprop : ∀ e ∈ s.circles, e.center + x * u - c.center ≠ 0 →
      tangentProperties c (shift (x * u) e) u .right = some (turn u (e.center + x * u - c.center), ‖e.center + x * u - c.center‖) := by
    intro e he hw
    have := properties_equal (a := c.center) (b := e.center + x * u) (r := r) (side := .right) hu rfl hw
    unfold shift
    rw [h.sound.radius e he]
    rw [← this, ← hrc]
  have hself := hprop c hcm (by rw [add_sub_cancel_left]; exact hx0)
  rw [add_sub_cancel_left, turn_forward hu hx] at hself
  have hnear : Near .right (0 : ℝ) := by unfold Near; linarith
  have hth : 0 ≤ turn u (d.center - c.center) := by
    obtain ⟨d1, d2⟩ := hl d hdm
    refine Complex.arg_nonneg_iff.2 ?_
    rw [lft_sub]
    exact sub_nonneg.2 d1
  cases hm : rightmostTurningIndex c u o (turn u (d.center - c.center)) with
  | none =>
    have := rightmost_none hm (shift (x * u) c) (by rw [ho]; exact List.mem_map_of_mem hcm) _ hself hnear
    dsimp only at this
    linarith
  | some j =>
    obtain ⟨e', t, he', ht, hn, -, hall⟩ := rightmost_some hm
    rw [ho, List.getElem?_map, Option.map_eq_some_iff] at he'
    obtain ⟨e, he, rfl⟩ := he'
    have hem := List.mem_of_getElem? he
    obtain ⟨e1, e2⟩ := hl e hem
    obtain ⟨m1, m2⟩ := hall (shift (x * u) c) (by rw [ho]; exact List.mem_map_of_mem hcm) _ hself hnear
    dsimp only at m1 m2
    have hw : e.center + x * u - c.center ≠ 0 := by
      intro e0
      obtain ⟨q1, q2⟩ := properties_apart ht
      refine q1 ?_
      unfold Circle.Contains shift
      rw [magnitude_eq, h.sound.radius e hem, hrc]
      dsimp only
      rw [e0, norm_zero, zero_add]
    rw [hprop e hem hw] at ht
    obtain rfl := Option.some.inj ht
    unfold Near at hn
    dsimp only at m1 m2 hn
    have hf : fwd u (e.center + x * u - c.center) = fwd u e.center - fwd u c.center + x := by
      rw [fwd_sub, fwd_add, fwd_smul hu]; ring
    have hy : lft u (e.center + x * u - c.center) = lft u e.center - lft u c.center := by
      rw [lft_sub, lft_add, lft_smul]; ring
    have hy0 : lft u e.center = lft u c.center := by
      by_contra g
      have h0 : 0 ≤ turn u (e.center + x * u - c.center) := Complex.arg_nonneg_iff.2 (by rw [hy]; exact sub_nonneg.2 e1)
      have h1 : turn u (e.center + x * u - c.center) = 0 := le_antisymm m1 h0
      unfold turn at h1
      rw [Complex.arg_eq_zero_iff] at h1
      have h2 := h1.2
      rw [hy] at h2
      exact g (sub_eq_zero.1 h2)
    have e3 := e2 hy0
    have ht0 : turn u (e.center + x * u - c.center) = 0 := by
      unfold turn
      rw [Complex.arg_eq_zero_iff, hf, hy]
      exact ⟨by dsimp only; linarith, by dsimp only; linarith⟩
    have m3 := m2 ht0.symm
    rw [← frame_norm hu, ← frame_norm hu (x * u), hf, hy, hy0, sub_self, fwd_smul hu, lft_smul] at m3
    have nrm : ∀ y : ℝ, 0 ≤ y → ‖(⟨y, 0⟩ : ℂ)‖ = y := by
      intro y hy
      have : (⟨y, 0⟩ : ℂ) = (y : ℂ) := rfl
      rw [this, Complex.norm_real, Real.norm_of_nonneg hy]
    rw [nrm _ (by linarith), nrm _ hx.le] at m3
    have : e.center = c.center := frame_eq hu (by linarith) hy0
    rw [h.inj _ _ _ _ he hc this]

theorem Ordered.rightLoop_moved {s o : TipShape} {r x : ℝ} {u : ℂ} (h : Ordered s r) (hu : ‖u‖ = 1) (hx : 0 < x)
    (ho : o.circles = s.circles.map (shift (x * u))) {q : ℕ} {g : Circle} (hq : s.circles[q]? = some g)
    (hg : ∀ e ∈ s.circles, lft u g.center ≤ lft u e.center) (p : ℕ) : ∀ i n, p < n → i < s.circles.length → q = (i + p) % s.circles.length →
    (∀ c, s.circles[i]? = some c → RearRight s.circles u c ∨ ∃ f, s.circles[s.nextCw i]? = some f ∧ lft u c.center < lft u f.center) →
    ∃ k c, rightLoop s o u i n = some (some (k, k)) ∧ s.circles[k]? = some c ∧ IsRight s.circles u c := by
  have hqn : q < s.circles.length := (List.getElem?_eq_some_iff.1 hq).1
  have step : ∀ i n c d, s.circles[i]? = some c → s.circles[s.nextCcw i]? = some d →
      (RearRight s.circles u c ∨ ∃ f, s.circles[s.nextCw i]? = some f ∧ lft u c.center < lft u f.center) →
      (lft u c.center ≤ lft u d.center → ∃ k c, rightLoop s o u i (n + 1) = some (some (k, k)) ∧ s.circles[k]? = some c ∧ IsRight s.circles u c) ∧
      (lft u d.center < lft u c.center → rightLoop s o u i (n + 1) = rightLoop s o u (s.nextCcw i) n) := by
    intro i n c d hc hd hI
    have hi : i < s.circles.length := (List.getElem?_eq_some_iff.1 hc).1
    have hne : d.center - c.center ≠ 0 := by
      rw [sub_ne_zero]
      exact ((h.sound.apart.resolve_left (by have := h.two; omega)) i c d hc (by rw [← nextCcw_eq hi]; exact hd)).symm
    have ht : tangentProperties c d u .right = some (turn u (d.center - c.center), ‖d.center - c.center‖) := by
      have := properties_equal (a := c.center) (b := d.center) (r := r) (side := .right) hu rfl hne
      have e1 := h.sound.getRadius hc
      have e2 := h.sound.getRadius hd
      rw [← this]
      congr 1
      · rw [← e1]
      · rw [← e2]
    constructor
    · intro hle
      have hpk := h.right_peak hu hc hd hI hle
      refine ⟨i, c, ?_, hc, hpk⟩
      rw [rightLoop]
      simp only [hc, hd, ht, h.right_stop hu hx ho hc hd hpk]
    · intro hlt
      rw [rightLoop]
      simp only [hc, hd, ht, h.right_pass hu hx ho hc hd hlt]
  induction p with
  | zero =>
    intro i n hn hi hs hI
    obtain ⟨n, rfl⟩ : ∃ m, n = m + 1 := ⟨n - 1, by omega⟩
    have hiq : i = q := by rw [hs, add_zero, Nat.mod_eq_of_lt hi]
    subst hiq
    have hd := get_getD (nextCcw_lt hqn)
    exact (step i n g _ hq hd (hI g hq)).1 (hg _ (List.mem_of_getElem? hd))
  | succ p ih =>
    intro i n hn hi hs hI
    obtain ⟨n, rfl⟩ : ∃ m, n = m + 1 := ⟨n - 1, by omega⟩
    have hc := get_getD hi
    have hd := get_getD (nextCcw_lt hi)
    generalize (s.circles[i]?).getD ⟨0, 0⟩ = c at hc
    generalize (s.circles[s.nextCcw i]?).getD ⟨0, 0⟩ = d at hd
    obtain ⟨s1, s2⟩ := step i n c d hc hd (hI c hc)
    rcases le_or_gt (lft u c.center) (lft u d.center) with g1 | g1
    · exact s1 g1
    · rw [s2 g1]
      refine ih _ n (by omega) (nextCcw_lt hi) ?_ ?_
      · rw [hs, nextCcw_eq hi, Nat.mod_add_mod]
        congr 1; ring
      · intro c' hc'
        rw [hd] at hc'
        obtain rfl := Option.some.inj hc'
        right
        refine ⟨c, ?_, g1⟩
        rw [cw_ccw hi]
        exact hc

theorem Ordered.rightSide_moved {s o : TipShape} {r x : ℝ} {u : ℂ} (h : Ordered s r) (hu : ‖u‖ = 1) (hx : 0 < x)
    (ho : o.circles = s.circles.map (shift (x * u))) {i : ℕ} {c : Circle} (hc : s.circles[i]? = some c) (hr : RearRight s.circles u c) :
    ∃ k c, rightSide s o u i = some (k, k) ∧ s.circles[k]? = some c ∧ IsRight s.circles u c := by
  have hi : i < s.circles.length := (List.getElem?_eq_some_iff.1 hc).1
  obtain ⟨g, hgm, hg⟩ := exists_right h.sound.ne u
  obtain ⟨q, hq⟩ := List.mem_iff_getElem?.1 hgm
  have hqn : q < s.circles.length := (List.getElem?_eq_some_iff.1 hq).1
  obtain ⟨p, hp, hs⟩ := exists_steps (n := s.circles.length) hi hqn
  obtain ⟨k, d, h1, h2, h3⟩ := h.rightLoop_moved hu hx ho hq hg p i s.circles.length hp hi hs (fun c' hc' => by
    rw [hc] at hc'; obtain rfl := Option.some.inj hc'; exact Or.inl hr)
  refine ⟨k, d, ?_, h2, h3⟩
  unfold rightSide
  rw [h1]

/-! ## A shape that moves -/

theorem along_frame {u : ℂ} (hu : ‖u‖ = 1) (φ : ℝ) (z : ℂ) : along φ z = along φ u * fwd u z + along φ ⟨-u.im, u.re⟩ * lft u z := by
  have h : u.re * u.re + u.im * u.im = 1 := by
    rw [← Complex.normSq_apply, Complex.normSq_eq_norm_sq, hu]; norm_num
  unfold along fwd lft Vec.dotProduct Vec.determinant
  linear_combination -(Real.cos φ * z.re + Real.sin φ * z.im) * h

theorem unit_norm {v : ℂ} : ‖Vec.asUnitVec v‖ = 1 := norm_unit v

theorem unit_mul {v : ℂ} : v = (‖v‖ : ℝ) * Vec.asUnitVec v := by
  rw [unit_eq]
  unfold Vec.fromDirectionAndMagnitude
  apply Complex.ext
  · have := re_eq v
    simp
    linarith
  · have := im_eq v
    simp
    linarith

theorem Ordered.moved_indices {s o : TipShape} {r x : ℝ} {u : ℂ} (h : Ordered s r) (hu : ‖u‖ = 1) (hx : 0 < x)
    (ho : o.circles = s.circles.map (shift (x * u))) (hf : forwardDirection s o = u) :
    ∃ k l c d, tangentCircleIndices s o = some ⟨(k, k), (l, l)⟩ ∧ s.circles[k]? = some c ∧ s.circles[l]? = some d ∧
      IsLeft s.circles u c ∧ IsRight s.circles u d := by
  obtain ⟨a, b, ca, cb, hr, ha, hb, ra, rb⟩ := rear_spec (u := u) h.sound.ne
  have r1 : RearLeft s.circles u ca := by
    intro e he
    obtain ⟨q1, q2⟩ := ra e he
    rw [if_pos rfl] at q2
    rw [show Vec.dotProduct u (ca.center - s.center) = fwd u (ca.center - s.center) from rfl,
      show Vec.dotProduct u (e.center - s.center) = fwd u (e.center - s.center) from rfl, fwd_sub, fwd_sub] at *
    rw [show Vec.determinant u (ca.center - s.center) = lft u (ca.center - s.center) from rfl,
      show Vec.determinant u (e.center - s.center) = lft u (e.center - s.center) from rfl, lft_sub, lft_sub] at *
    exact ⟨by linarith, fun e0 => by linarith [q2 (by linarith)]⟩
  have r2 : RearRight s.circles u cb := by
    intro e he
    obtain ⟨q1, q2⟩ := rb e he
    rw [if_neg (by simp : ¬Side.right = Side.left)] at q2
    rw [show Vec.dotProduct u (cb.center - s.center) = fwd u (cb.center - s.center) from rfl,
      show Vec.dotProduct u (e.center - s.center) = fwd u (e.center - s.center) from rfl, fwd_sub, fwd_sub] at *
    rw [show Vec.determinant u (cb.center - s.center) = lft u (cb.center - s.center) from rfl,
      show Vec.determinant u (e.center - s.center) = lft u (e.center - s.center) from rfl, lft_sub, lft_sub] at *
    exact ⟨by linarith, fun e0 => by linarith [q2 (by linarith)]⟩
  obtain ⟨k, c, h1, hc, hl⟩ := h.leftSide_moved hu hx ho ha r1
  obtain ⟨l, d, h2, hd, hl'⟩ := h.rightSide_moved hu hx ho hb r2
  refine ⟨k, l, c, d, ?_, hc, hd, hl, hl'⟩
  unfold tangentCircleIndices
  have h2' := h.two
  rw [if_neg (by omega), hf]
  dsimp only
  rw [hr]
  split
  · next heq => rw [heq] at h2'; simp at h2'
  · simp only [h1, h2]

theorem Ordered.between_chord {s : TipShape} {r : ℝ} (h : Ordered s r) {i j : ℕ} {a b e : Circle} (ha : s.circles[i]? = some a)
    (hb : s.circles[j]? = some b) (he : Between s.circles i j e) : Vec.determinant (b.center - a.center) (e.center - a.center) ≤ 0 := by
  obtain ⟨L, hL, hj, p, hp, hc⟩ := he
  have hi : i < s.circles.length := (List.getElem?_eq_some_iff.1 ha).1
  rw [Nat.mod_add_mod] at hj hc
  rcases Nat.lt_or_ge (L + 1) s.circles.length with g | g
  · refine h.chord (k := L + 1) (p := p + 1) g (by omega) ha ?_ ?_
    · rw [← hb, hj]; congr 2; ring
    · rw [← hc]; congr 2; ring
  · have : j = i := by
      rw [hj, show i + 1 + L = i + s.circles.length by omega, Nat.add_mod_right, Nat.mod_eq_of_lt hi]
    rw [this, ha] at hb
    obtain rfl := Option.some.inj hb
    rw [sub_self]; simp [Vec.determinant]

theorem between_map {f : Circle → Circle} {cs : List Circle} {i j : ℕ} {e : Circle} (h : Between (cs.map f) i j e) :
    ∃ c, e = f c ∧ Between cs i j c := by
  obtain ⟨L, hL, hj, p, hp, hc⟩ := h
  rw [List.length_map] at hL hj hc
  rw [List.getElem?_map, Option.map_eq_some_iff] at hc
  obtain ⟨c, hc, rfl⟩ := hc
  exact ⟨c, rfl, L, hL, hj, p, hp, hc⟩

theorem run_ends {cs run : List Circle} {i j : ℕ} {a b : Circle} (h : Run cs i j run) (ha : cs[i]? = some a) (hb : cs[j]? = some b) :
    a ∈ run ∧ b ∈ run := by
  obtain ⟨k, hk, hi, hj, hlen, hget⟩ := h
  constructor
  · have := hget 0 (by omega)
    rw [add_zero, Nat.mod_eq_of_lt hi, ha] at this
    exact List.mem_of_getElem? this
  · have := hget k (le_refl _)
    rw [← hj, hb] at this
    exact List.mem_of_getElem? this

theorem dominated {α β p q x y : ℝ} (hq : 0 < q) (h0 : 0 ≤ y) (hy : y ≤ q) (h : α * (q * x - p * y) ≤ 0) :
    α * x + β * y ≤ 0 ∨ α * x + β * y ≤ α * p + β * q := by
  have e : q * (α * x + β * y) ≤ y * (α * p + β * q) := by nlinarith
  rcases le_total (α * p + β * q) 0 with g | g
  · left
    by_contra hn
    rw [not_le] at hn
    have := mul_pos hq hn
    have := mul_nonpos_of_nonneg_of_nonpos h0 g
    linarith
  · right
    have h1 := mul_le_mul_of_nonneg_right hy g
    exact le_of_mul_le_mul_left (e.trans h1) hq

/-- The joined shape of a shape that moves has all that is farthest. -/
theorem Ordered.moved_cover {s o : TipShape} {r x : ℝ} {u : ℂ} (h : Ordered s r) (hu : ‖u‖ = 1) (hx : 0 < x)
    (ho : o.circles = s.circles.map (shift (x * u))) {k l : ℕ} {c d : Circle} (hc : s.circles[k]? = some c) (hd : s.circles[l]? = some d)
    (hl : IsLeft s.circles u c) (hr : IsRight s.circles u d) (hlt : lft u d.center < lft u c.center) {js : List Circle}
    (hj : Joined s o ⟨(k, k), (l, l)⟩ js) (φ : ℝ) (e : Circle) (he : e ∈ s.circles ∨ e ∈ o.circles) :
    ∃ e' ∈ js, along φ e.center ≤ along φ e'.center := by
  obtain ⟨a, b, ha, hb, rfl⟩ := hj
  dsimp only at ha hb
  obtain ⟨a1, a2⟩ := run_ends ha hc hd
  have hc' : o.circles[k]? = some (shift (x * u) c) := by rw [ho, List.getElem?_map, hc]; rfl
  have hd' : o.circles[l]? = some (shift (x * u) d) := by rw [ho, List.getElem?_map, hd]; rfl
  obtain ⟨b1, b2⟩ := run_ends hb hd' hc'
  have hsh : ∀ e : Circle, along φ (shift (x * u) e).center = along φ e.center + x * along φ u := by
    intro e
    unfold shift
    dsimp only
    rw [along_add]
    congr 1
    unfold along; simp; ring
  have diff : ∀ e f : Circle, along φ e.center - along φ f.center = along φ u * (fwd u e.center - fwd u f.center) +
      along φ ⟨-u.im, u.re⟩ * (lft u e.center - lft u f.center) := by
    intro e f
    rw [along_frame hu φ e.center, along_frame hu φ f.center]; ring
  have S : along φ u ≤ 0 → ∀ e ∈ s.circles, ∃ e' ∈ a ++ b, along φ e.center ≤ along φ e'.center := by
    intro hα e he
    rcases (run_between ha e).1 he with g | g
    · exact ⟨e, List.mem_append_left _ g, le_refl _⟩
    · have D := h.between_chord hd hc g
      rw [det_frame hu, fwd_sub, fwd_sub, lft_sub, lft_sub] at D
      have q1 := (hl e he).1
      have q2 := (hr e he).1
      rcases dominated (α := along φ u) (β := along φ ⟨-u.im, u.re⟩) (p := fwd u c.center - fwd u d.center)
        (q := lft u c.center - lft u d.center) (x := fwd u e.center - fwd u d.center) (y := lft u e.center - lft u d.center)
        (by linarith) (by linarith) (by linarith) (mul_nonpos_of_nonpos_of_nonneg hα (by linarith)) with g | g
      · exact ⟨d, List.mem_append_left _ a2, by linarith [diff e d]⟩
      · exact ⟨c, List.mem_append_left _ a1, by linarith [diff e d, diff c d]⟩
  have O : 0 ≤ along φ u → ∀ e ∈ s.circles, ∃ e' ∈ a ++ b, along φ (shift (x * u) e).center ≤ along φ e'.center := by
    intro hα e he
    rcases (run_between hb (shift (x * u) e)).1 (by rw [ho]; exact List.mem_map_of_mem he) with g | g
    · exact ⟨_, List.mem_append_right _ g, le_refl _⟩
    · rw [ho] at g
      obtain ⟨e2, he2, g⟩ := between_map g
      have hee : e2.center = e.center := by
        have := congrArg Circle.center he2
        unfold shift at this
        dsimp only at this
        exact (add_right_cancel this).symm
      have D := h.between_chord hc hd g
      rw [hee, det_frame hu, fwd_sub, fwd_sub, lft_sub, lft_sub] at D
      have q1 := (hl e he).1
      have q2 := (hr e he).1
      rcases dominated (α := along φ u) (β := along φ ⟨-u.im, u.re⟩) (p := fwd u c.center - fwd u d.center)
        (q := lft u c.center - lft u d.center) (x := fwd u e.center - fwd u d.center) (y := lft u e.center - lft u d.center)
        (by linarith) (by linarith) (by linarith) (mul_nonpos_of_nonneg_of_nonpos hα (by linarith)) with g | g
      · exact ⟨_, List.mem_append_right _ b1, by rw [hsh, hsh]; linarith [diff e d]⟩
      · exact ⟨_, List.mem_append_right _ b2, by rw [hsh, hsh]; linarith [diff e d, diff c d]⟩
  rcases he with he | he
  · rcases le_total (along φ u) 0 with g | g
    · exact S g e he
    · obtain ⟨e', h1, h2⟩ := O g e he
      refine ⟨e', h1, ?_⟩
      rw [hsh] at h2
      have := mul_nonneg hx.le g
      linarith
  · rw [ho, List.mem_map] at he
    obtain ⟨e, he, rfl⟩ := he
    rcases le_total (along φ u) 0 with g | g
    · obtain ⟨e', h1, h2⟩ := S g e he
      refine ⟨e', h1, ?_⟩
      rw [hsh]
      have := mul_nonpos_of_nonneg_of_nonpos hx.le g
      linarith
    · exact O g e he

/-- The joined shape of a line that moves along itself is without its front. -/
theorem Ordered.moved_line {s o : TipShape} {r x : ℝ} {u : ℂ} (h : Ordered s r) (hu : ‖u‖ = 1) (hx : 0 < x)
    (ho : o.circles = s.circles.map (shift (x * u))) {k l : ℕ} {c d : Circle} (hc : s.circles[k]? = some c) (hd : s.circles[l]? = some d)
    (hl : IsLeft s.circles u c) (hr : IsRight s.circles u d) (heq : lft u d.center = lft u c.center) {js : List Circle}
    (hj : Joined s o ⟨(k, k), (l, l)⟩ js) : ∃ e ∈ o.circles, ∀ e' ∈ js, fwd u e'.center < fwd u e.center := by
  have hcm := List.mem_of_getElem? hc
  have hdm := List.mem_of_getElem? hd
  have h1 := (hl d hdm).2 heq
  have h2 := (hr c hcm).2 heq.symm
  have hcd : c.center = d.center := frame_eq hu (by linarith) heq.symm
  have hkl : k = l := h.inj _ _ _ _ hc hd hcd
  subst hkl
  rw [hc] at hd
  obtain rfl := Option.some.inj hd
  have hk : k < s.circles.length := (List.getElem?_eq_some_iff.1 hc).1
  have htwo := h.two
  have hn : (k + 1) % s.circles.length < s.circles.length := Nat.mod_lt _ (by omega)
  have hf := get_getD hn
  generalize (s.circles[(k + 1) % s.circles.length]?).getD ⟨0, 0⟩ = f at hf
  have hfm := List.mem_of_getElem? hf
  have hfe : lft u f.center = lft u c.center := le_antisymm (hl f hfm).1 (hr f hfm).1
  have hlt : fwd u c.center < fwd u f.center := by
    refine lt_of_le_of_ne ((hl f hfm).2 hfe) fun e0 => ?_
    exact (h.sound.apart.resolve_left (by omega)) k c f hc hf (frame_eq hu e0 hfe.symm)
  refine ⟨shift (x * u) f, by rw [ho]; exact List.mem_map_of_mem hfm, ?_⟩
  obtain ⟨a, b, ha, hb, rfl⟩ := hj
  dsimp only at ha hb
  have one : ∀ {cs run : List Circle}, Run cs k k run → ∀ e ∈ run, cs[k]? = some e := by
    intro cs run hrun e he
    obtain ⟨p, hp, hi, hj, hlen, hget⟩ := hrun
    have hp0 : p = 0 := (steps_unique (n := cs.length) (i := k) hp (by omega) (by rw [← hj, add_zero, Nat.mod_eq_of_lt hi]))
    subst hp0
    obtain ⟨q, hq⟩ := List.mem_iff_getElem?.1 he
    have hqn := (List.getElem?_eq_some_iff.1 hq).1
    obtain rfl : q = 0 := by omega
    have := hget 0 (le_refl _)
    rw [add_zero, Nat.mod_eq_of_lt hi, hq] at this
    exact this.symm
  have hsf : fwd u (shift (x * u) f).center = fwd u f.center + x := by
    unfold shift; dsimp only; rw [fwd_add, fwd_smul hu]
  intro e he
  rw [hsf]
  rcases List.mem_append.1 he with g | g
  · have := one ha e g
    rw [hc] at this
    obtain rfl := Option.some.inj this
    linarith
  · have := one hb e g
    rw [ho, List.getElem?_map, hc, Option.map_some] at this
    rw [← Option.some.inj this]
    unfold shift; dsimp only; rw [fwd_add, fwd_smul hu]
    linarith

/-! ## The center of a shape -/

/-- The center is inside: in no direction is it in front of circles unless it is beside all of them. -/
def Balanced (s : TipShape) : Prop := ∀ u, (∀ c ∈ s.circles, fwd u (c.center - s.center) ≤ 0) → ∀ c ∈ s.circles, fwd u (c.center - s.center) = 0

theorem make_balanced {s : TipState} {t : TipShape} {m : ℝ} (ht : TipShape.make s m = some t) : Balanced t := by
  obtain ⟨t', r, x, y, h1, hcen, -, h2, -, x1, y1, -, -, -, -, hc⟩ := make_cases (make_radius ht).1 m
  rw [ht] at h1
  obtain rfl := Option.some.inj h1
  intro u hle
  have f : ∀ x y, fwd u ((TipShape.makeCircle s r x y).center - t.center) =
      x * fwd u (TipShape.rotate s.rotation ⟨1, 0⟩) + y * fwd u (TipShape.rotate s.rotation ⟨-Real.sin s.slant, Real.cos s.slant⟩) := by
    intro x y
    rw [hcen, makeCircle_pos]
    unfold fwd Vec.dotProduct TipShape.rotate
    dsimp only
    ring
  rcases hc with ⟨hc, -, -⟩ | ⟨hc, -, -⟩ | ⟨hc, -, -⟩ | ⟨hc, -, -⟩ | ⟨x', hc, -, -, -, -⟩ <;> rw [hc] at hle ⊢
  · intro c hc
    rw [List.mem_singleton.1 hc, hcen]
    dsimp only
    rw [sub_self]; simp [fwd, Vec.dotProduct]
  all_goals
    simp only [List.mem_cons, List.not_mem_nil, or_false, forall_eq_or_imp, forall_eq, f] at hle ⊢
  · obtain ⟨p1, p2⟩ := hle
    constructor <;> linarith
  · obtain ⟨p1, p2⟩ := hle
    constructor <;> linarith
  · obtain ⟨p1, p2, p3⟩ := hle
    refine ⟨?_, ?_, ?_⟩ <;> linarith
  · obtain ⟨p1, p2, p3, p4⟩ := hle
    refine ⟨?_, ?_, ?_, ?_⟩ <;> linarith

theorem fwd_neg (u z : ℂ) : fwd (-u) z = -fwd u z := by
  unfold fwd Vec.dotProduct; simp; ring

/-- The rear is not in front of the center. -/
theorem Balanced.rear {s : TipShape} (h : Balanced s) (hne : s.circles ≠ []) {u : ℂ} {c : Circle}
    (hr : ∀ e ∈ s.circles, fwd u c.center ≤ fwd u e.center) : fwd u (c.center - s.center) ≤ 0 := by
  by_contra hn
  rw [not_le] at hn
  obtain ⟨d, hd⟩ := List.exists_mem_of_ne_nil _ hne
  have hall : ∀ e ∈ s.circles, 0 < fwd u (e.center - s.center) := by
    intro e he
    have := hr e he
    rw [fwd_sub] at *
    linarith
  have := h (-u) (fun e he => by rw [fwd_neg]; linarith [hall e he]) d hd
  rw [fwd_neg] at this
  linarith [hall d hd]

theorem fwd_forward (s o : TipShape) : 0 ≤ fwd (forwardDirection s o) (o.center - s.center) := by
  unfold forwardDirection
  split_ifs with h
  · rw [h, sub_self]; simp [fwd, Vec.dotProduct]
  · generalize o.center - s.center = v
    conv_rhs => rw [unit_mul (v := v)]
    have := fwd_smul (norm_unit v) ‖v‖
    rw [← unit_mul] at this ⊢
    rw [this]
    exact norm_nonneg v

/-- Circles that all are behind one that is not in front of the center, or at its place. -/
theorem all_at {s o : TipShape} {r : ℝ} (hs : Sound s r) (ho : Sound o r) (bo : Balanced o) {u : ℂ} (hu : u = forwardDirection s o)
    {c : Circle} (hc : c ∈ s.circles) (hb : fwd u (c.center - s.center) ≤ 0)
    (hall : ∀ e ∈ o.circles, e.center ≠ c.center → fwd u (e.center - c.center) < 0) : region o ⊆ region s := by
  have hf := fwd_forward s o
  rw [← hu] at hf
  have hle : ∀ e ∈ o.circles, fwd u (e.center - c.center) ≤ 0 := by
    intro e he
    by_cases g : e.center = c.center
    · rw [g, sub_self]; simp [fwd, Vec.dotProduct]
    · exact (hall e he g).le
  have h0 := bo u fun e he => by
    have := hle e he
    rw [fwd_sub] at *
    linarith
  refine convexHull_min ?_ (convex_convexHull ℝ _)
  rintro p ⟨e, he, hp⟩
  have hce : e.center = c.center := by
    by_contra g
    have h1 := hall e he g
    have h2 := h0 e he
    rw [fwd_sub] at *
    linarith
  refine disc_region hc ?_
  unfold InDisc at *
  rw [hs.radius c hc, ← ho.radius e he, ← hce]
  exact hp

/-- From a circle that is not in front of the center there is a circle of the other shape to be turned to, unless all are at its place. -/
theorem leftmost_found {s o : TipShape} {r : ℝ} (hs : Sound s r) (ho : Sound o r) (bo : Balanced o) {u : ℂ}
    (hu : u = forwardDirection s o) {c : Circle} (hc : c ∈ s.circles) (hb : fwd u (c.center - s.center) ≤ 0)
    (hn : ¬region o ⊆ region s) : ∃ j e, leftmostTurningIndex c u o (-π) = some j ∧ o.circles[j]? = some e ∧ e.center ≠ c.center := by
  have hu1 : ‖u‖ = 1 := by
    rw [hu]; unfold forwardDirection
    split_ifs
    · exact norm_one
    · exact norm_unit _
  cases hl : leftmostTurningIndex c u o (-π) with
  | some j =>
    obtain ⟨e, t, he, ht, -⟩ := leftmost_some hl
    refine ⟨j, e, rfl, he, fun e0 => ?_⟩
    refine (properties_apart ht).1 ?_
    unfold Circle.Contains
    rw [magnitude_eq, e0, sub_self, norm_zero, hs.radius c hc, ho.getRadius he, zero_add]
  | none =>
    exfalso
    refine hn (all_at hs ho bo hu hc hb fun e he hne => ?_)
    have hw : e.center - c.center ≠ 0 := sub_ne_zero.2 hne
    have hp := properties_equal (a := c.center) (b := e.center) (r := r) (side := .left) hu1 rfl hw
    have hp' : tangentProperties c e u .left = some (turn u (e.center - c.center), ‖e.center - c.center‖) := by
      rw [← hp]
      congr 1
      · rw [← hs.radius c hc]
      · rw [← ho.radius e he]
    by_contra hge
    rw [not_lt] at hge
    have hab := Complex.abs_arg_le_pi_div_two_iff.2 (show 0 ≤ (⟨fwd u (e.center - c.center), lft u (e.center - c.center)⟩ : ℂ).re from hge)
    have hab := abs_le.1 hab
    have h1 := leftmost_none hl e he _ hp' (by unfold Near turn; exact hab.2)
    dsimp only at h1
    have h2 : -π < turn u (e.center - c.center) := Complex.neg_pi_lt_arg _
    linarith

theorem leftSide_apart {s o : TipShape} {r : ℝ} (hs : Sound s r) (ho : Sound o r) (bs : Balanced s) (bo : Balanced o)
    (h1 : s.circles.length ≠ 1) {u : ℂ} (hu : u = forwardDirection s o) {i : ℕ} {c : Circle} (hc : s.circles[i]? = some c)
    (hr : ∀ e ∈ s.circles, fwd u c.center ≤ fwd u e.center) (hn : ¬region o ⊆ region s) :
    ∃ k j a b, s.leftSide o u i = some (k, j) ∧ s.circles[k]? = some a ∧ o.circles[j]? = some b ∧ b.center ≠ a.center := by
  have hi : i < s.circles.length := (List.getElem?_eq_some_iff.1 hc).1
  unfold leftSide
  obtain ⟨res, h2, h3⟩ := leftLoop_spec (o := o) hs h1 u s.circles.length i hi
  rw [h2]
  cases res with
  | some kj =>
    obtain ⟨a, d, t, ha, hd, ht, hj⟩ := h3 kj.1 kj.2 rfl
    obtain ⟨b, t', hb, ht', -⟩ := leftmost_some hj
    refine ⟨kj.1, kj.2, a, b, rfl, ha, hb, fun e0 => ?_⟩
    refine (properties_apart ht').1 ?_
    unfold Circle.Contains
    rw [magnitude_eq, e0, sub_self, norm_zero, hs.getRadius ha, ho.getRadius hb, zero_add]
  | none =>
    obtain ⟨j, e, hj, he, hne⟩ := leftmost_found hs ho bo hu (List.mem_of_getElem? hc) (bs.rear hs.ne hr) hn
    refine ⟨i, j, c, e, ?_, hc, he, hne⟩
    rw [hc, Option.map_some, hj, Option.getD_some]

/-- From a circle that is not in front of the center there is a circle of the other shape to be turned to, unless all are at its place. -/
theorem rightmost_found {s o : TipShape} {r : ℝ} (hs : Sound s r) (ho : Sound o r) (bo : Balanced o) {u : ℂ}
    (hu : u = forwardDirection s o) {c : Circle} (hc : c ∈ s.circles) (hb : fwd u (c.center - s.center) ≤ 0)
    (hn : ¬region o ⊆ region s) : ∃ j e, rightmostTurningIndex c u o π = some j ∧ o.circles[j]? = some e ∧ e.center ≠ c.center := by
  have hu1 : ‖u‖ = 1 := by
    rw [hu]; unfold forwardDirection
    split_ifs
    · exact norm_one
    · exact norm_unit _
  cases hl : rightmostTurningIndex c u o π with
  | some j =>
    obtain ⟨e, t, he, ht, -⟩ := rightmost_some hl
    refine ⟨j, e, rfl, he, fun e0 => ?_⟩
    refine (properties_apart ht).1 ?_
    unfold Circle.Contains
    rw [magnitude_eq, e0, sub_self, norm_zero, hs.radius c hc, ho.getRadius he, zero_add]
  | none =>
    exfalso
    refine hn (all_at hs ho bo hu hc hb fun e he hne => ?_)
    have hw : e.center - c.center ≠ 0 := sub_ne_zero.2 hne
    have hp := properties_equal (a := c.center) (b := e.center) (r := r) (side := .right) hu1 rfl hw
    have hp' : tangentProperties c e u .right = some (turn u (e.center - c.center), ‖e.center - c.center‖) := by
      rw [← hp]
      congr 1
      · rw [← hs.radius c hc]
      · rw [← ho.radius e he]
    by_contra hge
    rw [not_lt] at hge
    have hab := Complex.abs_arg_le_pi_div_two_iff.2 (show 0 ≤ (⟨fwd u (e.center - c.center), lft u (e.center - c.center)⟩ : ℂ).re from hge)
    have hab := abs_le.1 hab
    have h1 := rightmost_none hl e he _ hp' (by unfold Near turn; exact hab.1)
    dsimp only at h1
    have h2 : turn u (e.center - c.center) ≤ π := Complex.arg_le_pi _
    linarith

theorem rightSide_apart {s o : TipShape} {r : ℝ} (hs : Sound s r) (ho : Sound o r) (bs : Balanced s) (bo : Balanced o)
    (h1 : s.circles.length ≠ 1) {u : ℂ} (hu : u = forwardDirection s o) {i : ℕ} {c : Circle} (hc : s.circles[i]? = some c)
    (hr : ∀ e ∈ s.circles, fwd u c.center ≤ fwd u e.center) (hn : ¬region o ⊆ region s) :
    ∃ k j a b, s.rightSide o u i = some (k, j) ∧ s.circles[k]? = some a ∧ o.circles[j]? = some b ∧ b.center ≠ a.center := by
  have hi : i < s.circles.length := (List.getElem?_eq_some_iff.1 hc).1
  unfold rightSide
  obtain ⟨res, h2, h3⟩ := rightLoop_spec (o := o) hs h1 u s.circles.length i hi
  rw [h2]
  cases res with
  | some kj =>
    obtain ⟨a, d, t, ha, hd, ht, hj⟩ := h3 kj.1 kj.2 rfl
    obtain ⟨b, t', hb, ht', -⟩ := rightmost_some hj
    refine ⟨kj.1, kj.2, a, b, rfl, ha, hb, fun e0 => ?_⟩
    refine (properties_apart ht').1 ?_
    unfold Circle.Contains
    rw [magnitude_eq, e0, sub_self, norm_zero, hs.getRadius ha, ho.getRadius hb, zero_add]
  | none =>
    obtain ⟨j, e, hj, he, hne⟩ := rightmost_found hs ho bo hu (List.mem_of_getElem? hc) (bs.rear hs.ne hr) hn
    refine ⟨i, j, c, e, ?_, hc, he, hne⟩
    rw [hc, Option.map_some, hj, Option.getD_some]

/-- Of shapes with circles of the same size, of which the first does not have the second, circles at different places are connected. -/
theorem indices_apart {s o : TipShape} {r : ℝ} (hs : Sound s r) (ho : Sound o r) (bs : Balanced s) (bo : Balanced o)
    (hn : ¬region o ⊆ region s) (h1 : ¬(s.circles.length = 1 ∧ o.circles.length = 1)) :
    ∃ ix a b c d, tangentCircleIndices s o = some ix ∧ s.circles[ix.left.1]? = some a ∧ o.circles[ix.left.2]? = some b ∧ b.center ≠ a.center ∧
      s.circles[ix.right.1]? = some c ∧ o.circles[ix.right.2]? = some d ∧ d.center ≠ c.center := by
  unfold tangentCircleIndices
  rw [if_neg h1]
  dsimp only
  generalize hu : forwardDirection s o = u
  split
  · next c hc =>
    have hcm : c ∈ s.circles := by rw [hc]; exact List.mem_singleton_self c
    have hb := bs.rear hs.ne (u := u) (c := c) (fun e he => by rw [hc] at he; rw [List.mem_singleton.1 he])
    obtain ⟨j, e, hj, he, hne⟩ := leftmost_found hs ho bo hu.symm hcm hb hn
    obtain ⟨j', e', hj', he', hne'⟩ := rightmost_found hs ho bo hu.symm hcm hb hn
    refine ⟨_, c, e, c, e', rfl, ?_, ?_, hne, ?_, ?_, hne'⟩
    · simp [hc]
    · simp only [hj, Option.getD_some]; exact he
    · simp [hc]
    · simp only [hj', Option.getD_some]; exact he'
  · next hc =>
    have hl : s.circles.length ≠ 1 := by
      intro e
      obtain ⟨c, hc'⟩ := List.length_eq_one_iff.1 e
      exact hc c hc'
    obtain ⟨a, b, ca, cb, hr, ha, hb, ra, rb⟩ := rear_spec (u := u) hs.ne
    have g : ∀ {side : Side} {c : Circle} {x : ℝ}, AtRear side s.center u (Vec.dotProduct u (c.center - s.center)) x s.circles →
        ∀ e ∈ s.circles, fwd u c.center ≤ fwd u e.center := by
      intro side c x h e he
      have h1 : fwd u (c.center - s.center) ≤ fwd u (e.center - s.center) := (h e he).1
      rw [fwd_sub, fwd_sub] at h1
      linarith
    obtain ⟨k, j, c1, c2, h2, h3, h4, h5⟩ := leftSide_apart hs ho bs bo hl hu.symm ha (g ra) hn
    obtain ⟨k', j', c1', c2', h2', h3', h4', h5'⟩ := rightSide_apart hs ho bs bo hl hu.symm hb (g rb) hn
    rw [hr]
    simp only [h2, h2']
    exact ⟨_, c1, c2, c1', c2', rfl, h3, h4, h5, h3', h4', h5'⟩

theorem run_adjacent {s : TipShape} {r : ℝ} (hs : Sound s r) {i j : ℕ} {run : List Circle} (h : Run s.circles i j run) {p : ℕ} {c d : Circle}
    (hc : run[p]? = some c) (hd : run[p + 1]? = some d) : c.center ≠ d.center := by
  obtain ⟨k, hk, hi, hj, hlen, hget⟩ := h
  have hp : p + 1 < run.length := (List.getElem?_eq_some_iff.1 hd).1
  rw [hget p (by omega)] at hc
  rw [hget (p + 1) (by omega)] at hd
  refine (hs.apart.resolve_left (by omega)) _ c d hc ?_
  rw [Nat.mod_add_mod, ← hd]
  rfl

theorem joined_adjacent {s o : TipShape} {r : ℝ} (hs : Sound s r) (ho : Sound o r) {ix : TangentIndices} {js : List Circle}
    (hj : Joined s o ix js) {a b c d : Circle} (ha : s.circles[ix.left.1]? = some a) (hb : o.circles[ix.left.2]? = some b)
    (hab : b.center ≠ a.center) (hc : s.circles[ix.right.1]? = some c) (hd : o.circles[ix.right.2]? = some d) (hcd : d.center ≠ c.center)
    {i : ℕ} {e f : Circle} (h : Follows js i e f) : e.center ≠ f.center := by
  obtain ⟨x, y, hx, hy, rfl⟩ := hj
  obtain ⟨h1, h2⟩ := h
  have hx' := hx
  have hy' := hy
  obtain ⟨k, hk, hi, hjj, hlen, hget⟩ := hx
  obtain ⟨k', hk', hi', hj', hlen', hget'⟩ := hy
  have x0 := hget 0 (by omega)
  have xk := hget k (le_refl _)
  have y0 := hget' 0 (by omega)
  have yk := hget' k' (le_refl _)
  rw [add_zero, Nat.mod_eq_of_lt hi, ha] at x0
  rw [← hjj, hc] at xk
  rw [add_zero, Nat.mod_eq_of_lt hi', hd] at y0
  rw [← hj', hb] at yk
  have hin : i < (x ++ y).length := (List.getElem?_eq_some_iff.1 h1).1
  rw [List.length_append] at hin h2
  rcases Nat.lt_or_ge i k with g | g
  · rw [Nat.mod_eq_of_lt (by omega), List.getElem?_append_left (by omega)] at h2
    rw [List.getElem?_append_left (by omega)] at h1
    exact run_adjacent hs hx' h1 h2
  rcases Nat.lt_or_ge k i with g' | g'
  · rw [List.getElem?_append_right (by omega)] at h1
    rcases Nat.lt_or_ge (i + 1) (x.length + y.length) with g2 | g2
    · rw [Nat.mod_eq_of_lt (by omega), List.getElem?_append_right (by omega), Nat.sub_add_comm (by omega)] at h2
      exact run_adjacent ho hy' h1 h2
    · rw [show i + 1 = x.length + y.length by omega, Nat.mod_self, List.getElem?_append_left (by omega), x0] at h2
      rw [show i - x.length = k' by omega, yk] at h1
      obtain rfl := Option.some.inj h1
      obtain rfl := Option.some.inj h2
      exact hab
  · obtain rfl : i = k := by omega
    rw [List.getElem?_append_left (by omega), xk] at h1
    rw [Nat.mod_eq_of_lt (by omega), List.getElem?_append_right (by omega), show i + 1 - x.length = 0 by omega, y0] at h2
    obtain rfl := Option.some.inj h1
    obtain rfl := Option.some.inj h2
    exact hcd.symm

end Verif.RealGeom
