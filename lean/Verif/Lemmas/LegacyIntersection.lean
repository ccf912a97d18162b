import Verif.Spec.LegacyIntersection
import Mathlib.Tactic.Linarith
import Mathlib.Tactic.LinearCombination
import Mathlib.Tactic.FieldSimp
import Mathlib.Tactic.Ring
import Mathlib.Tactic.NormNum

/-!
# Lemmas for C74: intersections of segments
-/

set_option autoImplicit false

namespace Verif.Legacy

open Geo Geo.Spec Spec

variable {K : Type} [Field K] [LinearOrder K] [IsStrictOrderedRing K]

theorem adjust_exact {f : Format K} (h : Exact f) (v d : Pt K) : adjustForError f v d = v := by
  unfold adjustForError
  rw [h.1, h.2, h.1, h.2]
  simp

theorem position_exact {f : Format K} (h : Exact f) (p q t : Pt K) :
    positionRelativeToLine f p q t =
      if p = q then .indeterminate
      else if (q.sub p).det (t.sub p) = 0 then .collinear else if 0 < (q.sub p).det (t.sub p) then .left else .right := by
  unfold positionRelativeToLine
  by_cases h1 : p = q
  · rw [if_pos h1, if_pos h1]
  rw [if_neg h1, if_neg h1]
  by_cases h2 : p = t ∨ q = t
  · rw [if_pos h2, if_pos]
    rcases h2 with rfl | rfl
    · simp [Pt.sub, Pt.det]
    · simp only [Pt.sub, Pt.det]; ring
  rw [if_neg h2]
  by_cases h3 : (q.sub p).det (t.sub p) = 0
  · rw [if_pos h3, if_pos h3]
  rw [if_neg h3, if_neg h3]
  simp only [adjust_exact h, ite_self]
  rw [if_neg]
  rintro ⟨-, q⟩
  exact absurd (mul_self_pos.2 h3) (not_lt.2 q)

theorem collinear_iff {f : Format K} (h : Exact f) {p q : Pt K} (hpq : p ≠ q) (t : Pt K) :
    positionRelativeToLine f p q t = .collinear ↔ (q.sub p).det (t.sub p) = 0 := by
  rw [position_exact h, if_neg hpq]
  split_ifs <;> simp_all

theorem dot_self_eq {v : Pt K} : v.dot v = 0 ↔ v = ⟨0, 0⟩ := by
  constructor
  · intro h
    simp only [Pt.dot] at h
    have h1 := mul_self_nonneg v.x
    have h2 := mul_self_nonneg v.y
    ext
    · exact mul_self_eq_zero.1 (by linarith)
    · exact mul_self_eq_zero.1 (by linarith)
  · rintro rfl
    simp [Pt.dot]

theorem sub_eq_zero_iff {p q : Pt K} : p.sub q = ⟨0, 0⟩ ↔ q = p := by
  constructor
  · intro h
    have h1 := congrArg Pt.x h
    have h2 := congrArg Pt.y h
    simp only [Pt.sub] at h1 h2
    ext <;> linarith
  · rintro rfl
    simp [Pt.sub]

theorem dot_pos {v : Pt K} (h : v ≠ ⟨0, 0⟩) : 0 < v.dot v := by
  have : v.dot v ≠ 0 := fun q => h (dot_self_eq.1 q)
  refine lt_of_le_of_ne ?_ this.symm
  simp only [Pt.dot]
  linarith [mul_self_nonneg v.x, mul_self_nonneg v.y]

/-- A vector collinear with another one is a multiple of it. -/
theorem multiple {u v : Pt K} (hu : u ≠ ⟨0, 0⟩) (h : u.det v = 0) : v.x = u.dot v / u.dot u * u.x ∧ v.y = u.dot v / u.dot u * u.y := by
  have hd := (dot_pos hu).ne'
  simp only [Pt.det] at h
  constructor
  · rw [div_mul_eq_mul_div, eq_div_iff hd]
    simp only [Pt.dot]
    linear_combination (-u.y) * h
  · rw [div_mul_eq_mul_div, eq_div_iff hd]
    simp only [Pt.dot]
    linear_combination u.x * h

/-- Points of two segments are the same. -/
theorem along_eq {a b : Segment K} {s t : K} :
    along a s = along b t ↔
      s * (a.stop.sub a.start).x = (b.start.sub a.start).x + t * (b.stop.sub b.start).x ∧
      s * (a.stop.sub a.start).y = (b.start.sub a.start).y + t * (b.stop.sub b.start).y := by
  simp only [along, Pt.sub, Pt.mk.injEq]
  constructor
  · rintro ⟨h1, h2⟩
    constructor <;> linarith
  · rintro ⟨h1, h2⟩
    constructor <;> linarith

/-- What the search for common points of two segments returns. -/
def Good (a b : Segment K) (r : Intervals K) : Prop :=
  Common a b r ∧ (∀ s t, 0 ≤ s → s ≤ 1 → 0 ≤ t → t ≤ 1 → along a s = along b t → (a.start ≠ a.stop → r.s0 ≤ s ∧ s ≤ r.s1)) ∧
    (¬(a.start = a.stop ∧ b.start = b.stop) → along a r.s0 = along a r.s1 → r.s0 = r.s1 ∧ r.t0 = r.t1)

theorem good_single {a b : Segment K} {s t : K} (hs : 0 ≤ s ∧ s ≤ 1) (ht : 0 ≤ t ∧ t ≤ 1) (h : along a s = along b t)
    (hu : a.start ≠ a.stop → b.start ≠ b.stop → (a.stop.sub a.start).det (b.stop.sub b.start) ≠ 0) : Good a b ⟨s, s, t, t⟩ := by
  refine ⟨⟨hs.1, le_rfl, hs.2, ht, ht, h, h⟩, fun s' t' _ _ _ _ e ha => ?_, fun _ _ => ⟨rfl, rfl⟩⟩
  rw [along_eq] at h e
  obtain ⟨h1, h2⟩ := h
  obtain ⟨e1, e2⟩ := e
  suffices s = s' by rw [this]; exact ⟨le_rfl, le_rfl⟩
  by_cases hb : b.start = b.stop
  · have hv : b.stop.sub b.start = ⟨0, 0⟩ := sub_eq_zero_iff.2 hb
    rw [hv, mul_zero, add_zero] at h1 h2 e1 e2
    have hu0 : a.stop.sub a.start ≠ ⟨0, 0⟩ := fun q => ha (sub_eq_zero_iff.1 q)
    have hd := (dot_pos hu0).ne'
    generalize a.stop.sub a.start = u at *
    apply mul_right_cancel₀ hd
    simp only [Pt.dot]
    linear_combination u.x * (h1 - e1) + u.y * (h2 - e2)
  · have hd := hu ha hb
    apply mul_right_cancel₀ hd
    generalize a.stop.sub a.start = u at *
    generalize b.stop.sub b.start = v at *
    simp only [Pt.det]
    linear_combination v.y * (h1 - e1) - v.x * (h2 - e2)

/-- Two segments in the same line: `s` on the first is `x + t * c` for `t` on the second. -/
theorem good_parallel {a b : Segment K} {x c : K} (hc : c ≠ 0)
    (h : ∀ s t, along a s = along b t ↔ s = x + t * c) {p q : K} (hp : p = -x / c) (hq : q = (1 - x) / c) :
    let y := x + c
    let lo := if y < x then y else x
    let hi := if y < x then x else y
    (¬(hi < 0 ∨ 1 < lo) → Good a b ⟨if lo < 0 then 0 else lo, if 1 < hi then 1 else hi, if lo < 0 then p else if y < x then 1 else 0,
      if 1 < hi then q else if y < x then 0 else 1⟩) ∧
    (hi < 0 ∨ 1 < lo → ∀ s t, 0 ≤ s → s ≤ 1 → 0 ≤ t → t ≤ 1 → along a s ≠ along b t) := by
  intro y lo hi
  have pc : p * c = -x := by rw [hp, div_mul_cancel₀ _ hc]
  have qc : q * c = 1 - x := by rw [hq, div_mul_cancel₀ _ hc]
  have inj : ∀ s t, along b s = along b t → s = t := fun s t e => by
    have e1 := (h (x + s * c) s).2 rfl
    rw [e] at e1
    have := (h _ _).1 e1
    exact mul_right_cancel₀ hc (by linarith)
  rcases lt_or_gt_of_ne hc with hn | hn
  · have hyx : y < x := by show x + c < x; linarith
    have hlo : lo = x + c := if_pos hyx
    have hhi : hi = x := if_pos hyx
    rw [hlo, hhi]
    simp only [if_pos hyx]
    have bound : ∀ s t, 0 ≤ t → t ≤ 1 → along a s = along b t → x + c ≤ s ∧ s ≤ x := fun s t t0 t1 e => by
      rw [(h s t).1 e]
      constructor <;> nlinarith
    constructor
    · intro hno
      push Not at hno
      have common : Common a b ⟨if x + c < 0 then 0 else x + c, if 1 < x then 1 else x, if x + c < 0 then p else 1, if 1 < x then q else 0⟩ := by
        refine ⟨?_, ?_, ?_, ?_, ?_, (h _ _).2 ?_, (h _ _).2 ?_⟩
        · dsimp only; split_ifs <;> linarith
        · dsimp only; split_ifs <;> linarith
        · dsimp only; split_ifs <;> linarith
        · dsimp only; split_ifs
          · constructor <;> nlinarith
          · exact ⟨zero_le_one, le_rfl⟩
        · dsimp only; split_ifs
          · constructor <;> nlinarith
          · exact ⟨le_rfl, zero_le_one⟩
        · dsimp only; split_ifs <;> linarith
        · dsimp only; split_ifs <;> linarith
      refine ⟨common, fun s t s0 s1 t0 t1 e _ => ?_, fun _ e => ?_⟩
      · obtain ⟨b1, b2⟩ := bound s t t0 t1 e
        constructor <;> (dsimp only; split_ifs <;> linarith)
      · have e1 := common.2.2.2.2.2.1
        have e2 := common.2.2.2.2.2.2
        have := inj _ _ (e1.symm.trans (e.trans e2))
        refine ⟨?_, this⟩
        rw [(h _ _).1 e1, (h _ _).1 e2, this]
    · intro hno s t s0 s1 t0 t1 e
      obtain ⟨b1, b2⟩ := bound s t t0 t1 e
      rcases hno with q | q <;> linarith
  · have hyx : ¬y < x := by show ¬x + c < x; linarith
    have hlo : lo = x := if_neg hyx
    have hhi : hi = x + c := if_neg hyx
    rw [hlo, hhi]
    simp only [if_neg hyx]
    have bound : ∀ s t, 0 ≤ t → t ≤ 1 → along a s = along b t → x ≤ s ∧ s ≤ x + c := fun s t t0 t1 e => by
      rw [(h s t).1 e]
      constructor <;> nlinarith
    constructor
    · intro hno
      push Not at hno
      have common : Common a b ⟨if x < 0 then 0 else x, if 1 < x + c then 1 else x + c, if x < 0 then p else 0, if 1 < x + c then q else 1⟩ := by
        refine ⟨?_, ?_, ?_, ?_, ?_, (h _ _).2 ?_, (h _ _).2 ?_⟩
        · dsimp only; split_ifs <;> linarith
        · dsimp only; split_ifs <;> linarith
        · dsimp only; split_ifs <;> linarith
        · dsimp only; split_ifs
          · constructor <;> nlinarith
          · exact ⟨le_rfl, zero_le_one⟩
        · dsimp only; split_ifs
          · constructor <;> nlinarith
          · exact ⟨zero_le_one, le_rfl⟩
        · dsimp only; split_ifs <;> linarith
        · dsimp only; split_ifs <;> linarith
      refine ⟨common, fun s t s0 s1 t0 t1 e _ => ?_, fun _ e => ?_⟩
      · obtain ⟨b1, b2⟩ := bound s t t0 t1 e
        constructor <;> (dsimp only; split_ifs <;> linarith)
      · have e1 := common.2.2.2.2.2.1
        have e2 := common.2.2.2.2.2.2
        have := inj _ _ (e1.symm.trans (e.trans e2))
        refine ⟨?_, this⟩
        rw [(h _ _).1 e1, (h _ _).1 e2, this]
    · intro hno s t s0 s1 t0 t1 e
      obtain ⟨b1, b2⟩ := bound s t t0 t1 e
      rcases hno with q | q <;> linarith

theorem helper_spec {f : Format K} (hf : Exact f) (a b : Segment K) :
    (∀ r, helper f a b = some r → Good a b r) ∧
    (helper f a b = none → ∀ s t, 0 ≤ s → s ≤ 1 → 0 ≤ t → t ≤ 1 → along a s ≠ along b t) := by
  have hu : ∀ {p q : Pt K}, (q.sub p).dot (q.sub p) = 0 ↔ p = q := fun {p q} => by rw [dot_self_eq, sub_eq_zero_iff]
  have e1 : b.stop.sub a.start = (b.stop.sub b.start).add (b.start.sub a.start) := by simp [Pt.sub, Pt.add]
  have e2 : a.stop.sub b.start = (a.stop.sub a.start).sub (b.start.sub a.start) := by simp [Pt.sub]
  have fl : ∀ (p q t : Pt K), ((q.sub p).dot (q.sub p) ≠ 0 ∧ positionRelativeToLine f p q t = .collinear) ↔ p ≠ q ∧ (q.sub p).det (t.sub p) = 0 := by
    intro p q t
    rw [Ne, hu]
    constructor
    · rintro ⟨h1, h2⟩
      exact ⟨h1, (collinear_iff hf h1 t).1 h2⟩
    · rintro ⟨h1, h2⟩
      exact ⟨h1, (collinear_iff hf h1 t).2 h2⟩
  have e3 : a.start.sub b.start = Pt.smul (-1) (b.start.sub a.start) := by simp [Pt.sub, Pt.smul]
  have key : helper f a b = _ := rfl
  unfold helper
  simp only [fl, e1, e2, e3]
  have au : ∀ s t, along a s = along b t ↔ _ := fun s t => along_eq (a := a) (b := b) (s := s) (t := t)
  by_cases h0 : a.start = a.stop ∧ b.start = b.stop
  · -- both are points
    obtain ⟨ha, hb⟩ := h0
    have h1 : (a.stop.sub a.start).dot (a.stop.sub a.start) = 0 := hu.2 ha
    have h2 : (b.stop.sub b.start).dot (b.stop.sub b.start) = 0 := hu.2 hb
    rw [if_pos ⟨h1, h2⟩]
    have z1 := sub_eq_zero_iff.2 ha
    have z2 := sub_eq_zero_iff.2 hb
    by_cases hw : (b.start.sub a.start).dot (b.start.sub a.start) = 0
    · rw [if_pos hw]
      have hw' := dot_self_eq.1 hw
      refine ⟨?_, fun h => by simp at h⟩
      rintro _ ⟨⟩
      refine ⟨⟨le_rfl, zero_le_one, le_rfl, ⟨le_rfl, zero_le_one⟩, ⟨zero_le_one, le_rfl⟩, ?_, ?_⟩, fun _ _ _ _ _ _ _ q => absurd ha q, fun q => absurd ⟨ha, hb⟩ q⟩
      · rw [au, z1, z2, hw']; simp
      · rw [au, z1, z2, hw']; simp
    · rw [if_neg hw]
      refine ⟨fun r h => by simp at h, fun _ s t _ _ _ _ e => hw ?_⟩
      rw [au, z1, z2] at e
      simp only [mul_zero, add_zero] at e
      rw [dot_self_eq]
      ext
      · exact e.1.symm
      · exact e.2.symm
  rw [if_neg (show ¬((a.stop.sub a.start).dot (a.stop.sub a.start) = 0 ∧ (b.stop.sub b.start).dot (b.stop.sub b.start) = 0) by rw [hu, hu]; exact h0)]
  simp only [Ne, hu]
  obtain ⟨u, hu'⟩ : ∃ u, a.stop.sub a.start = u := ⟨_, rfl⟩
  obtain ⟨v, hv'⟩ : ∃ v, b.stop.sub b.start = v := ⟨_, rfl⟩
  obtain ⟨w, hw'⟩ : ∃ w, b.start.sub a.start = w := ⟨_, rfl⟩
  have zu : a.start = a.stop ↔ u = ⟨0, 0⟩ := by rw [← hu', sub_eq_zero_iff]
  have zv : b.start = b.stop ↔ v = ⟨0, 0⟩ := by rw [← hv', sub_eq_zero_iff]
  simp only [hu', hv', hw'] at au ⊢
  have gs : ∀ {s t : K}, 0 ≤ s ∧ s ≤ 1 → 0 ≤ t ∧ t ≤ 1 → along a s = along b t → (¬a.start = a.stop → ¬b.start = b.stop → u.det v ≠ 0) →
      Good a b ⟨s, s, t, t⟩ := by
    intro s t h1 h2 h3 h4
    exact good_single h1 h2 h3 (by rw [hu', hv']; exact h4)
  clear fl e1 e2 e3 hu'  hv' hw' hu
  by_cases hp : ¬a.start = a.stop ∧ ¬b.start = b.stop ∧ ((¬b.start = b.stop ∧ v.det (Pt.smul (-1) w) = 0) ∧ ¬b.start = b.stop ∧ v.det (u.sub w) = 0 ∨
      (¬a.start = a.stop ∧ u.det w = 0) ∧ ¬a.start = a.stop ∧ u.det (v.add w) = 0)
  · rw [if_pos hp]
    obtain ⟨ha, hb, hd⟩ := hp
    have hu0 : u ≠ ⟨0, 0⟩ := fun q => ha (zu.2 q)
    have hv0 : v ≠ ⟨0, 0⟩ := fun q => hb (zv.2 q)
    have hd' : u.det v = 0 ∧ u.det w = 0 := by
      rcases hd with ⟨⟨-, h1⟩, -, h2⟩ | ⟨⟨-, h1⟩, -, h2⟩
      · have h3 : v.det u = 0 := by
          simp only [Pt.det, Pt.smul, Pt.sub] at h1 h2 ⊢
          linarith
        obtain ⟨m1, m2⟩ := multiple hv0 h3
        obtain ⟨n1, n2⟩ := multiple hv0 h1
        simp only [Pt.det, Pt.smul] at n1 n2 h3 ⊢
        constructor
        · linarith
        · rw [m1, m2]
          linear_combination (v.dot u / v.dot v) * (v.x * (-n2) + v.y * n1)
      · refine ⟨?_, h1⟩
        simp only [Pt.det, Pt.add] at h1 h2 ⊢
        linarith
    obtain ⟨m1, m2⟩ := multiple hu0 hd'.1
    obtain ⟨n1, n2⟩ := multiple hu0 hd'.2
    have hdd := dot_pos hu0
    obtain ⟨c, hc⟩ : ∃ c, u.dot v / u.dot u = c := ⟨_, rfl⟩
    obtain ⟨x, hx⟩ : ∃ x, u.dot w / u.dot u = x := ⟨_, rfl⟩
    rw [hc] at m1 m2
    rw [hx] at n1 n2
    have hc0 : c ≠ 0 := by
      rintro rfl
      apply hv0
      ext
      · rw [m1, zero_mul]
      · rw [m2, zero_mul]
    have hy : u.dot (v.add w) / u.dot u = x + c := by
      rw [← hc, ← hx, ← add_div]
      congr 1
      simp only [Pt.dot, Pt.add]
      ring
    have hvv : v.dot v = c * c * u.dot u := by
      simp only [Pt.dot]
      rw [m1, m2]
      ring
    have hp : v.dot (Pt.smul (-1) w) / v.dot v = -x / c := by
      have : v.dot (Pt.smul (-1) w) = -(c * x) * u.dot u := by
        simp only [Pt.dot, Pt.smul]
        rw [m1, m2, n1, n2]
        ring
      rw [hvv, this, mul_div_mul_right _ _ hdd.ne']
      field_simp
    have hq : v.dot (u.sub w) / v.dot v = (1 - x) / c := by
      have : v.dot (u.sub w) = (c * (1 - x)) * u.dot u := by
        simp only [Pt.dot, Pt.sub]
        rw [m1, m2, n1, n2]
        ring
      rw [hvv, this, mul_div_mul_right _ _ hdd.ne']
      field_simp
    have hal : ∀ s t, along a s = along b t ↔ s = x + t * c := by
      intro s t
      rw [au, m1, m2, n1, n2]
      constructor
      · rintro ⟨h1, h2⟩
        apply mul_right_cancel₀ hdd.ne'
        simp only [Pt.dot]
        linear_combination u.x * h1 + u.y * h2
      · rintro rfl
        constructor <;> ring
    obtain ⟨g1, g2⟩ := good_parallel hc0 hal hp hq
    simp only [hx, hy]
    by_cases hno : (if x + c < x then x else x + c) < 0 ∨ 1 < (if x + c < x then x + c else x)
    · rw [if_pos hno]
      exact ⟨fun r h => by simp at h, fun _ => g2 hno⟩
    · rw [if_neg hno]
      refine ⟨?_, fun h => by simp at h⟩
      rintro _ ⟨⟩
      exact g1 hno
  · rw [if_neg hp]
    have nd1 : ¬b.start = b.stop ∧ v.det (Pt.smul (-1) w) = 0 → ¬a.start = a.stop → ¬b.start = b.stop → u.det v ≠ 0 := by
      rintro ⟨-, q⟩ ha hb hd
      refine hp ⟨ha, hb, Or.inl ⟨⟨hb, q⟩, hb, ?_⟩⟩
      simp only [Pt.det, Pt.smul, Pt.sub] at q hd ⊢
      linarith
    have nd2 : ¬b.start = b.stop ∧ v.det (u.sub w) = 0 → ¬a.start = a.stop → ¬b.start = b.stop → u.det v ≠ 0 := by
      rintro ⟨-, q⟩ ha hb hd
      refine hp ⟨ha, hb, Or.inl ⟨⟨hb, ?_⟩, hb, q⟩⟩
      simp only [Pt.det, Pt.smul, Pt.sub] at q hd ⊢
      linarith
    have nd3 : ¬a.start = a.stop ∧ u.det w = 0 → ¬a.start = a.stop → ¬b.start = b.stop → u.det v ≠ 0 := by
      rintro ⟨-, q⟩ ha hb hd
      refine hp ⟨ha, hb, Or.inr ⟨⟨ha, q⟩, ha, ?_⟩⟩
      simp only [Pt.det, Pt.add] at q hd ⊢
      linarith
    have nd4 : ¬a.start = a.stop ∧ u.det (v.add w) = 0 → ¬a.start = a.stop → ¬b.start = b.stop → u.det v ≠ 0 := by
      rintro ⟨-, q⟩ ha hb hd
      refine hp ⟨ha, hb, Or.inr ⟨⟨ha, ?_⟩, ha, q⟩⟩
      simp only [Pt.det, Pt.add] at q hd ⊢
      linarith
    by_cases c1 : (¬b.start = b.stop ∧ v.det (Pt.smul (-1) w) = 0) ∧ 0 ≤ v.dot (Pt.smul (-1) w) / v.dot v ∧ v.dot (Pt.smul (-1) w) / v.dot v ≤ 1
    · rw [if_pos c1]
      refine ⟨?_, fun h => by simp at h⟩
      rintro _ ⟨⟩
      refine gs ⟨le_rfl, zero_le_one⟩ c1.2 ((au _ _).2 ?_) (nd1 c1.1)
      obtain ⟨m1, m2⟩ := multiple (fun q => c1.1.1 (zv.2 q)) c1.1.2
      simp only [Pt.smul] at m1 m2 ⊢
      constructor <;> linarith
    rw [if_neg c1]
    by_cases c2 : (¬b.start = b.stop ∧ v.det (u.sub w) = 0) ∧ 0 ≤ v.dot (u.sub w) / v.dot v ∧ v.dot (u.sub w) / v.dot v ≤ 1
    · rw [if_pos c2]
      refine ⟨?_, fun h => by simp at h⟩
      rintro _ ⟨⟩
      refine gs ⟨zero_le_one, le_rfl⟩ c2.2 ((au _ _).2 ?_) (nd2 c2.1)
      obtain ⟨m1, m2⟩ := multiple (fun q => c2.1.1 (zv.2 q)) c2.1.2
      simp only [Pt.sub] at m1 m2 ⊢
      constructor <;> linarith
    rw [if_neg c2]
    by_cases c3 : (¬a.start = a.stop ∧ u.det w = 0) ∧ 0 ≤ u.dot w / u.dot u ∧ u.dot w / u.dot u ≤ 1
    · rw [if_pos c3]
      refine ⟨?_, fun h => by simp at h⟩
      rintro _ ⟨⟩
      refine gs c3.2 ⟨le_rfl, zero_le_one⟩ ((au _ _).2 ?_) (nd3 c3.1)
      obtain ⟨m1, m2⟩ := multiple (fun q => c3.1.1 (zu.2 q)) c3.1.2
      constructor <;> linarith
    rw [if_neg c3]
    by_cases c4 : (¬a.start = a.stop ∧ u.det (v.add w) = 0) ∧ 0 ≤ u.dot (v.add w) / u.dot u ∧ u.dot (v.add w) / u.dot u ≤ 1
    · rw [if_pos c4]
      refine ⟨?_, fun h => by simp at h⟩
      rintro _ ⟨⟩
      refine gs c4.2 ⟨zero_le_one, le_rfl⟩ ((au _ _).2 ?_) (nd4 c4.1)
      obtain ⟨m1, m2⟩ := multiple (fun q => c4.1.1 (zu.2 q)) c4.1.2
      simp only [Pt.add] at m1 m2 ⊢
      constructor <;> linarith
    rw [if_neg c4]
    by_cases hd : u.det v = 0
    · rw [if_pos hd]
      refine ⟨fun r h => by simp at h, fun _ s t s0 s1 t0 t1 e => ?_⟩
      obtain ⟨g1, g2⟩ := (au s t).1 e
      by_cases ha : a.start = a.stop
      · have hb : ¬b.start = b.stop := fun q => h0 ⟨ha, q⟩
        have hu0 := zu.1 ha
        have hvv := dot_pos (fun q => hb (zv.2 q))
        rw [hu0, mul_zero] at g1 g2
        have : v.dot (Pt.smul (-1) w) / v.dot v = t := by
          rw [div_eq_iff hvv.ne']
          simp only [Pt.dot, Pt.smul]
          linear_combination v.x * g1 + v.y * g2
        refine c1 ⟨⟨hb, ?_⟩, by rw [this]; exact ⟨t0, t1⟩⟩
        simp only [Pt.det, Pt.smul]
        linear_combination v.x * g2 - v.y * g1
      · have hu0 : u ≠ ⟨0, 0⟩ := fun q => ha (zu.2 q)
        have hdd := dot_pos hu0
        have hw0 : u.det w = 0 := by
          simp only [Pt.det] at hd ⊢
          linear_combination (-u.x) * g2 + u.y * g1 - t * hd
        by_cases hb : b.start = b.stop
        · rw [zv.1 hb, mul_zero, add_zero] at g1 g2
          have : u.dot w / u.dot u = s := by
            rw [div_eq_iff hdd.ne']
            simp only [Pt.dot]
            linear_combination (-u.x) * g1 - u.y * g2
          exact c3 ⟨⟨ha, hw0⟩, by rw [this]; exact ⟨s0, s1⟩⟩
        · exact nd3 ⟨ha, hw0⟩ ha hb hd
    · rw [if_neg hd]
      have cramer : ∀ s t, along a s = along b t ↔ s = w.det v / u.det v ∧ t = w.det u / u.det v := by
        intro s t
        rw [au, eq_div_iff hd, eq_div_iff hd]
        constructor
        · rintro ⟨g1, g2⟩
          simp only [Pt.det]
          constructor
          · linear_combination v.y * g1 - v.x * g2
          · linear_combination u.y * g1 - u.x * g2
        · rintro ⟨g1, g2⟩
          constructor
          · apply mul_right_cancel₀ hd
            simp only [Pt.det] at g1 g2 ⊢
            linear_combination u.x * g1 - v.x * g2
          · apply mul_right_cancel₀ hd
            simp only [Pt.det] at g1 g2 ⊢
            linear_combination u.y * g1 - v.y * g2
      by_cases hc : 0 ≤ w.det v / u.det v ∧ w.det v / u.det v ≤ 1 ∧ 0 ≤ w.det u / u.det v ∧ w.det u / u.det v ≤ 1
      · rw [if_pos hc]
        refine ⟨?_, fun h => by simp at h⟩
        rintro _ ⟨⟩
        exact gs ⟨hc.1, hc.2.1⟩ hc.2.2 ((cramer _ _).2 ⟨rfl, rfl⟩) (fun _ _ => hd)
      · rw [if_neg hc]
        refine ⟨fun r h => by simp at h, fun _ s t s0 s1 t0 t1 e => ?_⟩
        obtain ⟨g1, g2⟩ := (cramer s t).1 e
        exact hc ⟨by rw [← g1]; exact s0, by rw [← g1]; exact s1, by rw [← g2]; exact t0, by rw [← g2]; exact t1⟩

theorem along_scale (k : K) (a : Segment K) (s : K) : along (scale k a) s = Pt.smul k (along a s) := by
  ext <;> (simp only [along, scale, Pt.smul]; ring)

theorem smul_inj {k : K} (hk : k ≠ 0) {p q : Pt K} : Pt.smul k p = Pt.smul k q ↔ p = q := by
  constructor
  · intro h
    have h1 := congrArg Pt.x h
    have h2 := congrArg Pt.y h
    simp only [Pt.smul] at h1 h2
    ext
    · exact mul_left_cancel₀ hk h1
    · exact mul_left_cancel₀ hk h2
  · rintro rfl
    rfl

theorem good_scale {k : K} (hk : k ≠ 0) {a b : Segment K} {r : Intervals K} (h : Good (scale k a) (scale k b) r) : Good a b r := by
  obtain ⟨⟨h1, h2, h3, h4, h5, h6, h7⟩, g, u⟩ := h
  rw [along_scale, along_scale, smul_inj hk] at h6 h7
  have sc : ∀ c : Segment K, (scale k c).start = (scale k c).stop ↔ c.start = c.stop := fun c => smul_inj hk
  refine ⟨⟨h1, h2, h3, h4, h5, h6, h7⟩, fun s t s0 s1 t0 t1 e ha => ?_, fun hd e => ?_⟩
  · exact g s t s0 s1 t0 t1 (by rw [along_scale, along_scale, e]) (fun q => ha ((sc a).1 q))
  · exact u (by rw [sc, sc]; exact hd) (by rw [along_scale, along_scale, e])

theorem good_whole {a b : Segment K} {t0 t1 : K} (h : t0 = 0 ∧ t1 = 1 ∨ t0 = 1 ∧ t1 = 0) (h0 : along a 0 = along b t0) (h1 : along a 1 = along b t1) :
    Good a b ⟨0, 1, t0, t1⟩ := by
  refine ⟨⟨le_rfl, zero_le_one, le_rfl, ?_, ?_, h0, h1⟩, fun s t s0 s1 _ _ _ _ => ⟨s0, s1⟩, fun hd e => ?_⟩
  · rcases h with ⟨rfl, rfl⟩ | ⟨rfl, rfl⟩ <;> simp
  · rcases h with ⟨rfl, rfl⟩ | ⟨rfl, rfl⟩ <;> simp
  · exfalso
    have ends : ∀ c : Segment K, along c 0 = along c 1 → c.start = c.stop := fun c q => by
      have q1 := congrArg Pt.x q
      have q2 := congrArg Pt.y q
      simp only [along] at q1 q2
      ext <;> linarith
    refine hd ⟨ends a e, ends b ?_⟩
    rcases h with ⟨rfl, rfl⟩ | ⟨rfl, rfl⟩
    · rw [← h0, ← h1, e]
    · rw [← h0, ← h1, e]

theorem intersection_spec {f : Format K} (hf : Exact f) (a b : Segment K) :
    (∀ r, segmentIntersection f a b = some r → Good a b r) ∧
    (segmentIntersection f a b = none → ∀ s t, 0 ≤ s → s ≤ 1 → 0 ≤ t → t ≤ 1 → along a s ≠ along b t) := by
  unfold segmentIntersection
  by_cases h1 : a.start = b.start ∧ a.stop = b.stop
  · rw [if_pos h1]
    refine ⟨?_, fun h => by simp at h⟩
    rintro _ ⟨⟩
    exact good_whole (Or.inl ⟨rfl, rfl⟩) (by simp only [along]; rw [h1.1, h1.2]) (by simp only [along]; rw [h1.1, h1.2])
  rw [if_neg h1]
  by_cases h2 : a.start = b.stop ∧ a.stop = b.start
  · rw [if_pos h2]
    refine ⟨?_, fun h => by simp at h⟩
    rintro _ ⟨⟩
    refine good_whole (Or.inr ⟨rfl, rfl⟩) ?_ ?_ <;> (simp only [along]; rw [h2.1, h2.2]; ext <;> (dsimp only; ring))
  rw [if_neg h2]
  have hk : (2 : K) ^ f.exponent a b ≠ 0 := zpow_ne_zero _ two_ne_zero
  obtain ⟨g1, g2⟩ := helper_spec hf (scale (2 ^ f.exponent a b) a) (scale (2 ^ f.exponent a b) b)
  refine ⟨fun r h => good_scale hk (g1 r h), fun h s t s0 s1 t0 t1 e => g2 h s t s0 s1 t0 t1 ?_⟩
  rw [along_scale, along_scale, e]

theorem lerp_eq_along (a : Segment K) (t : K) : a.lerp t = along a t := by
  ext <;> (simp only [Segment.lerp, along]; ring)

theorem onSegment_iff {p : Pt K} {a : Segment K} : OnSegment p a ↔ ∃ t, 0 ≤ t ∧ t ≤ 1 ∧ p = along a t := by
  unfold OnSegment along
  constructor
  · rintro ⟨t, h1, h2, h3, h4⟩
    exact ⟨t, h1, h2, Pt.ext h3 h4⟩
  · rintro ⟨t, h1, h2, rfl⟩
    exact ⟨t, h1, h2, rfl, rfl⟩

/-! ## Triangles -/

/-- The positions relative to two lines are opposite. -/
theorem opposite_iff (x y : K) :
    ((if x = 0 then RelativePos.collinear else if 0 < x then .left else .right) =
      (if y = 0 then RelativePos.collinear else if 0 < y then .left else .right).reverse) ↔ x * y < 0 ∨ x = 0 ∧ y = 0 := by
  rcases lt_trichotomy x 0 with h | h | h <;> rcases lt_trichotomy y 0 with g | g | g
  · simp [h.ne, g.ne, h.not_gt, g.not_gt, RelativePos.reverse, (mul_pos_of_neg_of_neg h g).not_gt]
  · simp [h.ne, h.not_gt, g, RelativePos.reverse]
  · simp [h.ne, g.ne', h.not_gt, g, RelativePos.reverse, mul_neg_of_neg_of_pos h g]
  · simp [h, g.ne, g.not_gt, RelativePos.reverse]
  · simp [h, g, RelativePos.reverse]
  · simp [h, g, g.ne', RelativePos.reverse]
  · simp [h, h.ne', g.ne, g.not_gt, RelativePos.reverse, mul_neg_of_pos_of_neg h g]
  · simp [h, h.ne', g, RelativePos.reverse]
  · simp [h, h.ne', g, g.ne', RelativePos.reverse, (mul_pos h g).not_gt]

end Verif.Legacy
