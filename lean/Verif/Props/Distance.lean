import Verif.Spec.Distance
import Verif.Props.Geometry
import Mathlib.Analysis.Real.Sqrt

/-!
# C48: distances
-/

set_option autoImplicit false
set_option linter.unusedSectionVars false

namespace Verif.Geo

open Verif.Geo.Spec

variable {K : Type} [Field K] [LinearOrder K] [IsStrictOrderedRing K] {hypot : K → K → K}

/-! ## `hypot` -/

theorem Spec.IsHypot.le (h : IsHypot hypot) {a b c d : K} (hle : a * a + b * b ≤ c * c + d * d) : hypot a b ≤ hypot c d := by
  obtain ⟨h1, h2⟩ := h a b
  obtain ⟨h3, h4⟩ := h c d
  by_contra hlt
  push Not at hlt
  nlinarith

theorem Spec.IsHypot.eq (h : IsHypot hypot) {a b c d : K} (he : a * a + b * b = c * c + d * d) : hypot a b = hypot c d :=
  le_antisymm (h.le he.le) (h.le he.ge)

theorem Spec.IsHypot.symm (h : IsHypot hypot) (a b c d : K) : hypot (a - b) (c - d) = hypot (b - a) (d - c) :=
  h.eq (by ring)

theorem Spec.IsHypot.zero (h : IsHypot hypot) : hypot 0 0 = 0 := by
  have := (h 0 0).2
  simpa using this

theorem Spec.Least.symm (h : IsHypot hypot) {S T : Pt K → Prop} {d : K} (hd : Least hypot S T d) : Least hypot T S d := by
  obtain ⟨⟨p, q, hp, hq, rfl⟩, h2⟩ := hd
  exact ⟨⟨q, p, hq, hp, h.symm ..⟩, fun x y hx hy => by rw [h.symm x.x]; exact h2 y x hy hx⟩

theorem Spec.Least.unique {S T : Pt K → Prop} {d e : K} (hd : Least hypot S T d) (he : Least hypot S T e) : d = e := by
  obtain ⟨⟨p, q, hp, hq, h1⟩, h2⟩ := hd
  obtain ⟨⟨p', q', hp', hq', h3⟩, h4⟩ := he
  exact le_antisymm (h3 ▸ h2 p' q' hp' hq') (h1 ▸ h4 p q hp hq)

theorem least_zero (h : IsHypot hypot) {S T : Pt K → Prop} (hm : ∃ p, S p ∧ T p) : Least hypot S T 0 := by
  obtain ⟨p, hS, hT⟩ := hm
  exact ⟨⟨p, p, hS, hT, by rw [sub_self, sub_self, h.zero]⟩, fun x y _ _ => (h _ _).1⟩

/-! ## Minima -/

theorem minOf_le (l : List K) : ∀ a : K, minOf a l ≤ a ∧ ∀ x ∈ l, minOf a l ≤ x := by
  induction l with
  | nil => intro a; exact ⟨_root_.le_refl a, by simp⟩
  | cons b l ih =>
    intro a
    obtain ⟨h1, h2⟩ := ih (min a b)
    refine ⟨_root_.le_trans h1 (min_le_left a b), fun x hx => ?_⟩
    rcases List.mem_cons.1 hx with rfl | hx
    · exact _root_.le_trans h1 (min_le_right a x)
    · exact h2 x hx

theorem minOf_mem (l : List K) : ∀ a : K, minOf a l = a ∨ minOf a l ∈ l := by
  induction l with
  | nil => intro a; exact Or.inl rfl
  | cons b l ih =>
    intro a
    have e : minOf a (b :: l) = minOf (min a b) l := rfl
    rw [e]
    rcases ih (min a b) with h | h
    · rcases min_choice a b with h' | h'
      · exact Or.inl (by rw [h, h'])
      · exact Or.inr (by rw [h, h']; simp)
    · exact Or.inr (List.mem_cons_of_mem _ h)

theorem minEdges_spec {es : List (Segment K)} (hne : es ≠ []) (f : Segment K → K) :
    (∃ e ∈ es, minEdges es f = f e) ∧ ∀ e ∈ es, minEdges es f ≤ f e := by
  match es, hne with
  | e :: es, _ =>
    obtain ⟨h1, h2⟩ := minOf_le (es.map f) (f e)
    constructor
    · rcases minOf_mem (es.map f) (f e) with h | h
      · exact ⟨e, by simp, h⟩
      · obtain ⟨x, hx, hx'⟩ := List.mem_map.1 h
        exact ⟨x, by simp [hx], hx'.symm⟩
    · intro x hx
      rcases List.mem_cons.1 hx with rfl | hx
      · exact h1
      · exact h2 _ (List.mem_map_of_mem hx)

/-! ## Points and segments -/

theorem least_PP (a b : Pt K) : Least hypot (· = a) (· = b) (distPP hypot a b) :=
  ⟨⟨a, b, rfl, rfl, rfl⟩, by rintro _ _ rfl rfl; exact _root_.le_refl _⟩

theorem distPP_comm (h : IsHypot hypot) (a b : Pt K) : distPP hypot a b = distPP hypot b a := h.symm ..

/-- A point between two others is not farther. -/
theorem between_le (h : IsHypot hypot) {p q x : Pt K} (hx : OnSegment x ⟨p, q⟩) :
    hypot (x.x - q.x) (x.y - q.y) ≤ hypot (p.x - q.x) (p.y - q.y) := by
  obtain ⟨t, t0, t1, e1, e2⟩ := hx
  simp only at e1 e2
  apply h.le
  have h1 : x.x - q.x = (1 - t) * (p.x - q.x) := by rw [e1]; ring
  have h2 : x.y - q.y = (1 - t) * (p.y - q.y) := by rw [e2]; ring
  rw [h1, h2]
  have h3 : (1 - t) * (1 - t) ≤ 1 := by nlinarith
  nlinarith [mul_self_nonneg (p.x - q.x), mul_self_nonneg (p.y - q.y)]

theorem least_PS (h : IsHypot hypot) (p : Pt K) (s : Segment K) :
    Least hypot (· = p) (OnSegment · s) (distPS hypot p s) := by
  unfold distPS
  by_cases hd : s.start = s.stop
  · rw [if_pos hd, distPP_comm h]
    obtain ⟨a, b⟩ := s
    simp only at hd
    subst hd
    have := least_PP (hypot := hypot) p a
    simpa only [onSegment_degenerate] using this
  rw [if_neg hd, project_eq hd]
  have hm := dot_self_pos hd
  simp only
  set m := s.vector.dot s.vector with hmdef
  set t := (p.sub s.start).dot s.vector / m with ht
  have htm : t * m = (p.sub s.start).dot s.vector := by rw [ht]; field_simp
  -- the square of the distance to the point with parameter `u` is a parabola around `t`
  have key : ∀ u v : K, (u - t) * (u - t) ≤ (v - t) * (v - t) → ∀ x y : Pt K,
      x.x = s.start.x + u * (s.stop.x - s.start.x) → x.y = s.start.y + u * (s.stop.y - s.start.y) →
      y.x = s.start.x + v * (s.stop.x - s.start.x) → y.y = s.start.y + v * (s.stop.y - s.start.y) →
      hypot (p.x - x.x) (p.y - x.y) ≤ hypot (p.x - y.x) (p.y - y.y) := by
    intro u v huv x y hx hx' hy hy'
    apply h.le
    rw [hx, hx', hy, hy']
    have h1 := mul_le_mul_of_nonneg_right huv hm.le
    have h2 : (u * u - v * v) * m ≤ 2 * (u - v) * (t * m) := by linarith
    rw [htm] at h2
    simp only [hmdef, Segment.vector, Pt.sub, Pt.dot] at h2
    linarith
  by_cases h1 : t ≥ 1
  · rw [if_pos h1]
    refine ⟨⟨p, s.stop, rfl, onSegment_stop s, rfl⟩, ?_⟩
    rintro _ y rfl ⟨v, v0, v1, e1, e2⟩
    exact key 1 v (by nlinarith) s.stop y (by ring) (by ring) e1 e2
  rw [if_neg h1]
  by_cases h2 : t ≤ 0
  · rw [if_pos h2]
    refine ⟨⟨p, s.start, rfl, onSegment_start s, rfl⟩, ?_⟩
    rintro _ y rfl ⟨v, v0, v1, e1, e2⟩
    exact key 0 v (by nlinarith) s.start y (by ring) (by ring) e1 e2
  rw [if_neg h2]
  push Not at h1 h2
  refine ⟨⟨p, s.lerp t, rfl, ⟨t, h2.le, h1.le, by simp only [Segment.lerp]; ring, by simp only [Segment.lerp]; ring⟩, rfl⟩, ?_⟩
  rintro _ y rfl ⟨v, v0, v1, e1, e2⟩
  refine key t v ?_ (s.lerp t) y (by simp only [Segment.lerp]; ring) (by simp only [Segment.lerp]; ring) e1 e2
  rw [sub_self, zero_mul]
  exact mul_self_nonneg _

theorem scale_le {k : K} (h0 : 0 ≤ k) (h1 : k ≤ 1) (x y : K) : k * x * (k * x) + k * y * (k * y) ≤ x * x + y * y := by
  have h2 : k * k ≤ 1 := mul_le_one₀ h1 h0 h1
  have h3 := mul_le_mul_of_nonneg_right h2 (add_nonneg (mul_self_nonneg x) (mul_self_nonneg y))
  linarith

/-- Two segments without a common point are nearest to each other at an end of one of them. -/
theorem nearest_end (h : IsHypot hypot) {a b : Segment K} (ha : a.start ≠ a.stop) (hb : b.start ≠ b.stop)
    (hno : ¬ ∃ x, OnSegment x a ∧ OnSegment x b) {p q : Pt K} (hp : OnSegment p a) (hq : OnSegment q b) :
    ∃ p' q', OnSegment p' a ∧ OnSegment q' b ∧ (p' = a.start ∨ p' = a.stop ∨ q' = b.start ∨ q' = b.stop) ∧
      hypot (p'.x - q'.x) (p'.y - q'.y) ≤ hypot (p.x - q.x) (p.y - q.y) := by
  obtain ⟨s, s0, s1, ps, ps'⟩ := hp
  obtain ⟨t, t0, t1, qt, qt'⟩ := hq
  have hu := dot_self_pos ha
  have hv := dot_self_pos hb
  simp only [Segment.vector, Pt.sub, Pt.dot] at hu hv
  set ux := a.stop.x - a.start.x with hux
  set uy := a.stop.y - a.start.y with huy
  set vx := b.stop.x - b.start.x with hvx
  set vy := b.stop.y - b.start.y with hvy
  clear_value ux uy vx vy
  -- a direction in which the distance does not grow, to a pair outside of the square
  have dir : ∃ s' t' c : K, 0 ≤ c ∧ c ≤ 1 ∧ ¬ (0 ≤ s' ∧ s' ≤ 1 ∧ 0 ≤ t' ∧ t' ≤ 1) ∧
      a.start.x + s' * ux - (b.start.x + t' * vx) = c * (p.x - q.x) ∧
      a.start.y + s' * uy - (b.start.y + t' * vy) = c * (p.y - q.y) := by
    by_cases hD : ux * vy - uy * vx = 0
    · have hne := ne_of_gt hv
      obtain ⟨k, hk⟩ : ∃ k, k * (vx * vx + vy * vy) = ux * vx + uy * vy :=
        ⟨(ux * vx + uy * vy) / (vx * vx + vy * vy), div_mul_cancel₀ _ hne⟩
      have k1 : ux = k * vx := mul_right_cancel₀ hne (by linear_combination vy * hD - vx * hk)
      have k2 : uy = k * vy := mul_right_cancel₀ hne (by linear_combination -vx * hD - vy * hk)
      refine ⟨s + 2, t + 2 * k, 1, zero_le_one, le_refl _, ?_, ?_, ?_⟩
      · rintro ⟨-, h1, -⟩; linarith
      · rw [ps, qt]; linear_combination 2 * k1
      · rw [ps', qt']; linear_combination 2 * k2
    · have h3 : ∃ s' t' : K, a.start.x + s' * ux - (b.start.x + t' * vx) = 0 ∧
          a.start.y + s' * uy - (b.start.y + t' * vy) = 0 := by
        obtain ⟨s', hs'⟩ : ∃ k, k * (ux * vy - uy * vx) = (b.start.x - a.start.x) * vy - (b.start.y - a.start.y) * vx :=
          ⟨_, div_mul_cancel₀ _ hD⟩
        obtain ⟨t', ht'⟩ : ∃ k, k * (ux * vy - uy * vx) = (b.start.x - a.start.x) * uy - (b.start.y - a.start.y) * ux :=
          ⟨_, div_mul_cancel₀ _ hD⟩
        exact ⟨s', t', mul_right_cancel₀ hD (by linear_combination ux * hs' - vx * ht'),
          mul_right_cancel₀ hD (by linear_combination uy * hs' - vy * ht')⟩
      obtain ⟨s', t', e1, e2⟩ := h3
      refine ⟨s', t', 0, le_refl _, zero_le_one, ?_, by rw [e1]; ring, by rw [e2]; ring⟩
      rintro ⟨h1, h2, h3, h4⟩
      exact hno ⟨⟨a.start.x + s' * ux, a.start.y + s' * uy⟩, ⟨s', h1, h2, by rw [hux], by rw [huy]⟩,
        ⟨t', h3, h4, by rw [← hvx]; simp only; linear_combination e1, by rw [← hvy]; simp only; linear_combination e2⟩⟩
  obtain ⟨s', t', c, c0, c1, hout, e1, e2⟩ := dir
  obtain ⟨r, r0, r1, hall, hz⟩ := crossing [(s, s'), (1 - s, 1 - s'), (t, t'), (1 - t, 1 - t')]
    (by
      intro f hf
      simp only [List.mem_cons, List.not_mem_nil, or_false] at hf
      rcases hf with rfl | rfl | rfl | rfl <;> simp only <;> linarith)
    (by
      by_contra hcon
      push Not at hcon
      have g1 := hcon (s, s') (by simp)
      have g2 := hcon (1 - s, 1 - s') (by simp)
      have g3 := hcon (t, t') (by simp)
      have g4 := hcon (1 - t, 1 - t') (by simp)
      simp only at g1 g2 g3 g4
      exact hout ⟨g1, by linarith, g3, by linarith⟩)
  have g1 := hall (s, s') (by simp)
  have g2 := hall (1 - s, 1 - s') (by simp)
  have g3 := hall (t, t') (by simp)
  have g4 := hall (1 - t, 1 - t') (by simp)
  simp only at g1 g2 g3 g4
  set σ := s + r * (s' - s) with hσ
  set τ := t + r * (t' - t) with hτ
  refine ⟨⟨a.start.x + σ * ux, a.start.y + σ * uy⟩, ⟨b.start.x + τ * vx, b.start.y + τ * vy⟩,
    ⟨σ, g1, by rw [hσ]; linarith, by rw [hux], by rw [huy]⟩, ⟨τ, g3, by rw [hτ]; linarith, by rw [hvx], by rw [hvy]⟩, ?_, ?_⟩
  · obtain ⟨f, hf, hz⟩ := hz
    simp only [List.mem_cons, List.not_mem_nil, or_false] at hf
    rcases hf with rfl | rfl | rfl | rfl
    · left
      have : σ = 0 := hz
      rw [this]
      exact Pt.ext (by simp) (by simp)
    · right; left
      have : σ = 1 := by rw [hσ]; linear_combination -hz
      rw [this, hux, huy]
      exact Pt.ext (by simp) (by simp)
    · right; right; left
      have : τ = 0 := hz
      rw [this]
      exact Pt.ext (by simp) (by simp)
    · right; right; right
      have : τ = 1 := by rw [hτ]; linear_combination -hz
      rw [this, hvx, hvy]
      exact Pt.ext (by simp) (by simp)
  · apply h.le
    simp only
    have k1 : a.start.x + σ * ux - (b.start.x + τ * vx) = (1 - r * (1 - c)) * (p.x - q.x) := by
      rw [hσ, hτ]
      have : p.x - q.x = a.start.x + s * ux - (b.start.x + t * vx) := by rw [ps, qt]
      linear_combination r * e1 - (1 - r) * this
    have k2 : a.start.y + σ * uy - (b.start.y + τ * vy) = (1 - r * (1 - c)) * (p.y - q.y) := by
      rw [hσ, hτ]
      have : p.y - q.y = a.start.y + s * uy - (b.start.y + t * vy) := by rw [ps', qt']
      linear_combination r * e2 - (1 - r) * this
    rw [k1, k2]
    have c2 : 0 ≤ 1 - c := by linarith
    have l1 : 0 ≤ r * (1 - c) := mul_nonneg r0 c2
    have l2 : r * (1 - c) ≤ 1 := mul_le_one₀ r1 c2 (by linarith)
    exact scale_le (by linarith) (by linarith) _ _

theorem least_SS (h : IsHypot hypot) (a b : Segment K) :
    Least hypot (OnSegment · a) (OnSegment · b) (distSS hypot a b) := by
  unfold distSS
  by_cases ha : a.start = a.stop
  · rw [if_pos ha]
    have := least_PS h a.start b
    obtain ⟨x, y⟩ := a
    simp only at ha
    subst ha
    simpa only [onSegment_degenerate] using this
  rw [if_neg ha]
  by_cases hb : b.start = b.stop
  · rw [if_pos hb]
    have := (least_PS h b.start a).symm h
    obtain ⟨x, y⟩ := b
    simp only at hb
    subst hb
    simpa only [onSegment_degenerate] using this
  rw [if_neg hb]
  by_cases hi : intersectsSS a b = true
  · rw [if_pos hi]
    exact least_zero h ((intersectsSS_iff a b).1 hi)
  rw [if_neg hi]
  have hno : ¬ ∃ x, OnSegment x a ∧ OnSegment x b := fun hx => hi ((intersectsSS_iff a b).2 hx)
  have L1 := least_PS h a.start b
  have L2 := least_PS h a.stop b
  have L3 := (least_PS h b.start a).symm h
  have L4 := (least_PS h b.stop a).symm h
  obtain ⟨m1, m2⟩ := minOf_le [distPS hypot a.stop b, distPS hypot b.start a, distPS hypot b.stop a] (distPS hypot a.start b)
  have m3 := m2 (distPS hypot a.stop b) (by simp)
  have m4 := m2 (distPS hypot b.start a) (by simp)
  have m5 := m2 (distPS hypot b.stop a) (by simp)
  constructor
  · rcases minOf_mem [distPS hypot a.stop b, distPS hypot b.start a, distPS hypot b.stop a] (distPS hypot a.start b) with hm | hm
    · rw [hm]
      obtain ⟨p, q, rfl, hq, e⟩ := L1.attained
      exact ⟨_, q, onSegment_start a, hq, e⟩
    · simp only [List.mem_cons, List.not_mem_nil, or_false] at hm
      rcases hm with hm | hm | hm <;> rw [hm]
      · obtain ⟨p, q, rfl, hq, e⟩ := L2.attained
        exact ⟨_, q, onSegment_stop a, hq, e⟩
      · obtain ⟨p, q, hp, rfl, e⟩ := L3.attained
        exact ⟨p, _, hp, onSegment_start b, e⟩
      · obtain ⟨p, q, hp, rfl, e⟩ := L4.attained
        exact ⟨p, _, hp, onSegment_stop b, e⟩
  · intro p q hp hq
    obtain ⟨p', q', hp', hq', hc, hle⟩ := nearest_end h ha hb hno hp hq
    refine _root_.le_trans ?_ hle
    rcases hc with rfl | rfl | rfl | rfl
    · exact _root_.le_trans m1 (L1.least _ q' rfl hq')
    · exact _root_.le_trans m3 (L2.least _ q' rfl hq')
    · exact _root_.le_trans m4 (L3.least p' _ hp' rfl)
    · exact _root_.le_trans m5 (L4.least p' _ hp' rfl)

/-! ## Shapes with edges -/

/-- The distance of something from a shape it does not meet is the one from an edge. -/
theorem least_edges (h : IsHypot hypot) {S T : Pt K → Prop} {es : List (Segment K)} {r : Pt K} (P : Poly S es r)
    (hes : es ≠ []) (hno : ¬ ∃ x, T x ∧ S x) {f : Segment K → K} (hf : ∀ e ∈ es, Least hypot T (OnSegment · e) (f e)) :
    Least hypot T S (minEdges es f) := by
  obtain ⟨⟨e, he, hm⟩, hle⟩ := minEdges_spec hes f
  constructor
  · obtain ⟨p, q, hp, hq, hd⟩ := (hf e he).attained
    exact ⟨p, q, hp, P.sub e he q hq, by rw [hm, hd]⟩
  · intro p q hp hq
    obtain ⟨e, he, x, hx, hx'⟩ := P.cross q p hq fun hS => hno ⟨p, hp, hS⟩
    have h1 := (hf e he).least p x hp hx
    have h2 := between_le h hx'
    refine _root_.le_trans (hle e he) (_root_.le_trans h1 ?_)
    rw [h.symm p.x, h.symm p.x]
    exact h2

/-- The form of the distances of a shape with edges from something else. -/
theorem least_case (h : IsHypot hypot) {S T : Pt K → Prop} {es : List (Segment K)} {r : Pt K} (P : Poly S es r)
    (hes : es ≠ []) {meet : Bool} (hm : meet = true ↔ ∃ x, T x ∧ S x) {f : Segment K → K}
    (hf : ∀ e ∈ es, Least hypot T (OnSegment · e) (f e)) :
    Least hypot T S (if meet then 0 else minEdges es f) := by
  by_cases hmt : meet = true
  · rw [if_pos hmt]
    exact least_zero h (hm.1 hmt)
  · rw [if_neg hmt]
    exact least_edges h P hes (fun hx => hmt (hm.2 hx)) hf

theorem allEqual_iff (t : Triangle K) : t.allEqual = t.isPoint := by
  unfold Triangle.allEqual Triangle.isPoint
  rw [Bool.eq_iff_iff]
  simp only [Bool.and_eq_true, decide_eq_true_eq]
  constructor
  · rintro ⟨h1, h2⟩; exact ⟨h1, h1.trans h2⟩
  · rintro ⟨h1, h2⟩; exact ⟨h1, h1 ▸ h2⟩

theorem Spec.Least.congr {S S' T T' : Pt K → Prop} {d : K} (hd : Least hypot S T d) (hS : ∀ p, S p ↔ S' p)
    (hT : ∀ p, T p ↔ T' p) : Least hypot S' T' d := by
  have e1 : S = S' := funext fun p => propext (hS p)
  have e2 : T = T' := funext fun p => propext (hT p)
  rw [← e1, ← e2]
  exact hd

theorem on_degenerate {s : Segment K} (h : s.start = s.stop) (p : Pt K) : p = s.start ↔ OnSegment p s := by
  obtain ⟨a, b⟩ := s
  simp only at h
  subst h
  rw [onSegment_degenerate]

theorem least_PT (h : IsHypot hypot) (p : Pt K) (t : Triangle K) :
    Least hypot (· = p) (InTriangle · t) (distPT hypot p t) := by
  unfold distPT
  rw [allEqual_iff]
  by_cases hp : t.isPoint = true
  · rw [if_pos hp, distPP_comm h]
    exact (least_PP p t.p0).congr (fun _ => Iff.rfl) fun x => (triangle_point hp x).symm
  · rw [if_neg hp]
    exact least_case h (poly_triangle t) (by simp [Triangle.edges]) (by rw [C24_triangle_contains]; simp)
      fun e _ => least_PS h p e

theorem least_PR (h : IsHypot hypot) (p : Pt K) (r : Rect K) (hr : Proper (.rect r)) :
    Least hypot (· = p) (InRect · r) (distPR hypot p r) := by
  unfold distPR
  by_cases hp : r.isPoint = true
  · rw [if_pos hp, distPP_comm h]
    exact (least_PP p r.center).congr (fun _ => Iff.rfl) fun x => (rect_point hp x).symm
  · rw [if_neg hp]
    exact least_case h (poly_rect r hr) (by simp [Rect.edges]) (by rw [rect_contains]; simp)
      fun e _ => least_PS h p e

theorem least_PQ (h : IsHypot hypot) (p : Pt K) (q : Quad K) (hq : Proper (.quad q)) :
    Least hypot (· = p) (InQuad · q) (distPQ hypot p q) := by
  unfold distPQ
  by_cases hp : q.isPoint = true
  · rw [if_pos hp, distPP_comm h]
    exact (least_PP p q.center).congr (fun _ => Iff.rfl) fun x => (quad_point hp x).symm
  · rw [if_neg hp]
    exact least_case h (poly_quad q hq) (by simp [Quad.edges]) (by rw [quad_contains q p hq]; simp)
      fun e _ => least_PS h p e

theorem least_ST (h : IsHypot hypot) (s : Segment K) (t : Triangle K) :
    Least hypot (OnSegment · s) (InTriangle · t) (distST hypot s t) := by
  unfold distST
  by_cases hs : s.start = s.stop
  · rw [if_pos hs]
    exact (least_PT h s.start t).congr (on_degenerate hs) fun _ => Iff.rfl
  rw [if_neg hs, allEqual_iff]
  by_cases hp : t.isPoint = true
  · rw [if_pos hp]
    exact ((least_PS h t.p0 s).symm h).congr (fun _ => Iff.rfl) fun x => (triangle_point hp x).symm
  · rw [if_neg hp]
    exact least_case h (poly_triangle t) (by simp [Triangle.edges])
      (C22_intersects_iff (.segment s) (.triangle t) trivial trivial) fun e _ => least_SS h s e

theorem least_SR (h : IsHypot hypot) (s : Segment K) (r : Rect K) (hr : Proper (.rect r)) :
    Least hypot (OnSegment · s) (InRect · r) (distSR hypot s r) := by
  unfold distSR
  by_cases hs : s.start = s.stop
  · rw [if_pos hs]
    exact (least_PR h s.start r hr).congr (on_degenerate hs) fun _ => Iff.rfl
  rw [if_neg hs]
  by_cases hp : r.isPoint = true
  · rw [if_pos hp]
    exact ((least_PS h r.center s).symm h).congr (fun _ => Iff.rfl) fun x => (rect_point hp x).symm
  · rw [if_neg hp]
    exact least_case h (poly_rect r hr) (by simp [Rect.edges])
      (C22_intersects_iff (.segment s) (.rect r) trivial hr) fun e _ => least_SS h s e

theorem least_SQ (h : IsHypot hypot) (s : Segment K) (q : Quad K) (hq : Proper (.quad q)) :
    Least hypot (OnSegment · s) (InQuad · q) (distSQ hypot s q) := by
  unfold distSQ
  by_cases hs : s.start = s.stop
  · rw [if_pos hs]
    exact (least_PQ h s.start q hq).congr (on_degenerate hs) fun _ => Iff.rfl
  rw [if_neg hs]
  by_cases hp : q.isPoint = true
  · rw [if_pos hp]
    exact ((least_PS h q.center s).symm h).congr (fun _ => Iff.rfl) fun x => (quad_point hp x).symm
  · rw [if_neg hp]
    exact least_case h (poly_quad q hq) (by simp [Quad.edges])
      (C22_intersects_iff (.segment s) (.quad q) trivial hq) fun e _ => least_SS h s e

/-- The intersection test, the other way round. -/
theorem meet_symm {a b : Shape K} (ha : Proper a) (hb : Proper b) :
    intersects a b = true ↔ ∃ p, In p b ∧ In p a := by
  rw [C22_intersects_iff a b ha hb]
  constructor <;> rintro ⟨p, h1, h2⟩ <;> exact ⟨p, h2, h1⟩

theorem least_TT (h : IsHypot hypot) (a b : Triangle K) :
    Least hypot (InTriangle · a) (InTriangle · b) (distTT hypot a b) := by
  unfold distTT
  rw [allEqual_iff, allEqual_iff]
  by_cases ha : a.isPoint = true
  · rw [if_pos ha]
    exact (least_PT h a.p0 b).congr (fun x => (triangle_point ha x).symm) fun _ => Iff.rfl
  rw [if_neg ha]
  by_cases hb : b.isPoint = true
  · rw [if_pos hb]
    exact ((least_PT h b.p0 a).symm h).congr (fun _ => Iff.rfl) fun x => (triangle_point hb x).symm
  rw [if_neg hb]
  exact least_case h (poly_triangle b) (by simp [Triangle.edges])
    (C22_intersects_iff (.triangle a) (.triangle b) trivial trivial) fun e _ => (least_ST h e a).symm h

theorem least_TR (h : IsHypot hypot) (t : Triangle K) (r : Rect K) (hr : Proper (.rect r)) :
    Least hypot (InTriangle · t) (InRect · r) (distTR hypot t r) := by
  unfold distTR
  rw [allEqual_iff]
  by_cases ha : t.isPoint = true
  · rw [if_pos ha]
    exact (least_PR h t.p0 r hr).congr (fun x => (triangle_point ha x).symm) fun _ => Iff.rfl
  rw [if_neg ha]
  by_cases hb : r.isPoint = true
  · rw [if_pos hb]
    exact ((least_PT h r.center t).symm h).congr (fun _ => Iff.rfl) fun x => (rect_point hb x).symm
  rw [if_neg hb]
  exact (least_case h (poly_triangle t) (by simp [Triangle.edges])
    (meet_symm (a := .triangle t) (b := .rect r) trivial hr) fun e _ => (least_SR h e r hr).symm h).symm h

theorem least_TQ (h : IsHypot hypot) (t : Triangle K) (q : Quad K) (hq : Proper (.quad q)) :
    Least hypot (InTriangle · t) (InQuad · q) (distTQ hypot t q) := by
  unfold distTQ
  rw [allEqual_iff]
  by_cases ha : t.isPoint = true
  · rw [if_pos ha]
    exact (least_PQ h t.p0 q hq).congr (fun x => (triangle_point ha x).symm) fun _ => Iff.rfl
  rw [if_neg ha]
  by_cases hb : q.isPoint = true
  · rw [if_pos hb]
    exact ((least_PT h q.center t).symm h).congr (fun _ => Iff.rfl) fun x => (quad_point hb x).symm
  rw [if_neg hb]
  exact (least_case h (poly_triangle t) (by simp [Triangle.edges])
    (meet_symm (a := .triangle t) (b := .quad q) trivial hq) fun e _ => (least_SQ h e q hq).symm h).symm h

theorem least_RR (h : IsHypot hypot) (a b : Rect K) (ha' : Proper (.rect a)) (hb' : Proper (.rect b)) :
    Least hypot (InRect · a) (InRect · b) (distRR hypot a b) := by
  unfold distRR
  by_cases ha : a.isPoint = true
  · rw [if_pos ha]
    exact (least_PR h a.center b hb').congr (fun x => (rect_point ha x).symm) fun _ => Iff.rfl
  rw [if_neg ha]
  by_cases hb : b.isPoint = true
  · rw [if_pos hb]
    exact ((least_PR h b.center a ha').symm h).congr (fun _ => Iff.rfl) fun x => (rect_point hb x).symm
  rw [if_neg hb]
  exact (least_case h (poly_rect a ha') (by simp [Rect.edges])
    (meet_symm (a := .rect a) (b := .rect b) ha' hb') fun e _ => (least_SR h e b hb').symm h).symm h

theorem least_RQ (h : IsHypot hypot) (r : Rect K) (q : Quad K) (hr : Proper (.rect r)) (hq : Proper (.quad q)) :
    Least hypot (InRect · r) (InQuad · q) (distRQ hypot r q) := by
  unfold distRQ
  by_cases ha : r.isPoint = true
  · rw [if_pos ha]
    exact (least_PQ h r.center q hq).congr (fun x => (rect_point ha x).symm) fun _ => Iff.rfl
  rw [if_neg ha]
  by_cases hb : q.isPoint = true
  · rw [if_pos hb]
    exact ((least_PR h q.center r hr).symm h).congr (fun _ => Iff.rfl) fun x => (quad_point hb x).symm
  rw [if_neg hb]
  exact (least_case h (poly_rect r hr) (by simp [Rect.edges])
    (meet_symm (a := .rect r) (b := .quad q) hr hq) fun e _ => (least_SQ h e q hq).symm h).symm h

theorem least_QQ (h : IsHypot hypot) (a b : Quad K) (ha' : Proper (.quad a)) (hb' : Proper (.quad b)) :
    Least hypot (InQuad · a) (InQuad · b) (distQQ hypot a b) := by
  unfold distQQ
  by_cases ha : a.isPoint = true
  · rw [if_pos ha]
    exact (least_PQ h a.center b hb').congr (fun x => (quad_point ha x).symm) fun _ => Iff.rfl
  rw [if_neg ha]
  by_cases hb : b.isPoint = true
  · rw [if_pos hb]
    exact ((least_PQ h b.center a ha').symm h).congr (fun _ => Iff.rfl) fun x => (quad_point hb x).symm
  rw [if_neg hb]
  exact (least_case h (poly_quad a ha') (by simp [Quad.edges])
    (meet_symm (a := .quad a) (b := .quad b) ha' hb') fun e _ => (least_SQ h e b hb').symm h).symm h

/-- **C48.** `Distance` is the least distance between a point of one shape and a point of the other, for every pair of
points, segments, triangles, rectangles and quads, degenerate ones included. -/
theorem C48_distance (h : IsHypot hypot) (a b : Shape K) (ha : Proper a) (hb : Proper b) :
    Least hypot (In · a) (In · b) (distance hypot a b) := by
  cases a <;> cases b <;> simp only [distance, In]
  case point.point => exact least_PP _ _
  case point.segment => exact least_PS h _ _
  case point.triangle => exact least_PT h _ _
  case point.rect => exact least_PR h _ _ hb
  case point.quad => exact least_PQ h _ _ hb
  case segment.point => exact (least_PS h _ _).symm h
  case segment.segment => exact least_SS h _ _
  case segment.triangle => exact least_ST h _ _
  case segment.rect => exact least_SR h _ _ hb
  case segment.quad => exact least_SQ h _ _ hb
  case triangle.point => exact (least_PT h _ _).symm h
  case triangle.segment => exact (least_ST h _ _).symm h
  case triangle.triangle => exact least_TT h _ _
  case triangle.rect => exact least_TR h _ _ hb
  case triangle.quad => exact least_TQ h _ _ hb
  case rect.point => exact (least_PR h _ _ ha).symm h
  case rect.segment => exact (least_SR h _ _ ha).symm h
  case rect.triangle => exact (least_TR h _ _ ha).symm h
  case rect.rect => exact least_RR h _ _ ha hb
  case rect.quad => exact least_RQ h _ _ ha hb
  case quad.point => exact (least_PQ h _ _ ha).symm h
  case quad.segment => exact (least_SQ h _ _ ha).symm h
  case quad.triangle => exact (least_TQ h _ _ ha).symm h
  case quad.rect => exact (least_RQ h _ _ hb ha).symm h
  case quad.quad => exact least_QQ h _ _ ha hb

/-- **C48.** `Distance` is not negative, symmetric, and zero exactly when the shapes intersect. -/
theorem C48_symm_zero (h : IsHypot hypot) (a b : Shape K) (ha : Proper a) (hb : Proper b) :
    0 ≤ distance hypot a b ∧ distance hypot a b = distance hypot b a ∧
      (distance hypot a b = 0 ↔ intersects a b = true) := by
  have L := C48_distance h a b ha hb
  refine ⟨?_, L.unique ((C48_distance h b a hb ha).symm h), ?_⟩
  · obtain ⟨p, q, -, -, e⟩ := L.attained
    rw [e]
    exact (h _ _).1
  · rw [C22_intersects_iff a b ha hb]
    constructor
    · intro h0
      obtain ⟨p, q, hp, hq, e⟩ := L.attained
      have h2 := (h (p.x - q.x) (p.y - q.y)).2
      rw [← e, h0] at h2
      have h3 : p.x - q.x = 0 := by nlinarith [mul_self_nonneg (p.x - q.x), mul_self_nonneg (p.y - q.y)]
      have h4 : p.y - q.y = 0 := by nlinarith [mul_self_nonneg (p.x - q.x), mul_self_nonneg (p.y - q.y)]
      have : p = q := Pt.ext (by linarith) (by linarith)
      exact ⟨p, hp, this ▸ hq⟩
    · intro hm
      exact L.unique (least_zero h hm)

/-- There is such a function: the usual one. -/
theorem isHypot_real : IsHypot (K := ℝ) fun x y => Real.sqrt (x * x + y * y) := by
  intro x y
  have : 0 ≤ x * x + y * y := add_nonneg (mul_self_nonneg x) (mul_self_nonneg y)
  exact ⟨Real.sqrt_nonneg _, Real.mul_self_sqrt this⟩

/-- A case with proper shapes and a distance that is not zero: the triangle is one to the right of the quad. -/
example : Proper (.triangle ⟨⟨2, 0⟩, ⟨5, 0⟩, ⟨2, 3⟩⟩ : Shape ℝ) ∧ Proper (.quad ⟨⟨0, 0⟩, 2, 2, 1, 0, 0⟩ : Shape ℝ) ∧
    intersects (.triangle ⟨⟨2, 0⟩, ⟨5, 0⟩, ⟨2, 3⟩⟩ : Shape ℚ) (.quad ⟨⟨0, 0⟩, 2, 2, 1, 0, 0⟩) = false :=
  ⟨trivial, ⟨by norm_num, by norm_num⟩, by decide +kernel⟩

end Verif.Geo
