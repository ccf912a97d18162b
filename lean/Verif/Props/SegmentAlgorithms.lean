import Verif.Spec.SegmentAlgorithms
import Verif.Lemmas.MeshIntersects

/-!
# C53: intersections of segments and lines, barycentric coordinates, projections
-/

set_option autoImplicit false
set_option linter.unusedSectionVars false

namespace Verif.Geo

open Spec

variable {K : Type} [Field K] [LinearOrder K] [IsStrictOrderedRing K]

theorem lerp_eq_at (s : Segment K) (t : K) : s.lerp t = at_ s t := by
  simp only [Segment.lerp, at_, Pt.mk.injEq]
  constructor <;> ring

theorem at_inj {s : Segment K} (h : s.start ≠ s.stop) {t u : K} (e : at_ s t = at_ s u) : t = u := by
  simp only [at_, Pt.mk.injEq] at e
  exact param_unique h e.1 e.2

theorem onSegment_at {p : Pt K} {s : Segment K} : OnSegment p s ↔ ∃ t, 0 ≤ t ∧ t ≤ 1 ∧ p = at_ s t := by
  constructor
  · rintro ⟨t, h0, h1, hx, hy⟩
    exact ⟨t, h0, h1, Pt.ext hx hy⟩
  · rintro ⟨t, h0, h1, rfl⟩
    exact ⟨t, h0, h1, rfl, rfl⟩

theorem at_degenerate {s : Segment K} (h : s.start = s.stop) (t : K) : at_ s t = s.start := by
  simp only [at_, h, sub_self, mul_zero, add_zero]

/-! ## Parallel segments -/

/-- Two segments on a line, the second given by ratios on the first. -/
theorem on_other {a b : Segment K} {α β : K} (h1 : b.start = at_ a α) (h2 : b.stop = at_ a β) (x : Pt K) :
    OnSegment x b ↔ ∃ τ, min α β ≤ τ ∧ τ ≤ max α β ∧ x = at_ a τ := by
  have e : b = ⟨a.lerp α, a.lerp β⟩ := by rw [lerp_eq_at, lerp_eq_at, ← h1, ← h2]
  rw [e, onSegment_lerp]
  simp only [lerp_eq_at]

theorem first_overlap {a b : Segment K} (ha : a.start ≠ a.stop) {α β : K} (h1 : b.start = at_ a α)
    (h2 : b.stop = at_ a β) (hm : Meet a b) : FirstRatio a b (max (min α β) 0) := by
  obtain ⟨p, hpa, hpb⟩ := hm
  obtain ⟨k, k0, k1, rfl⟩ := onSegment_at.1 hpa
  have key : ∀ k, OnSegment (at_ a k) b ↔ min α β ≤ k ∧ k ≤ max α β := by
    intro k
    rw [on_other h1 h2]
    constructor
    · rintro ⟨τ, t1, t2, e⟩
      rw [at_inj ha e]
      exact ⟨t1, t2⟩
    · exact fun h => ⟨k, h.1, h.2, rfl⟩
  have hk := (key k).1 hpb
  refine ⟨le_max_right _ _, max_le (hk.1.trans k1) zero_le_one, (key _).2 ⟨le_max_left _ _, ?_⟩, fun t' t0 _ ht => ?_⟩
  · exact max_le min_le_max (k0.trans hk.2)
  · exact max_le ((key t').1 ht).1 t0

theorem meet_overlap {a b : Segment K} {α β : K} (h1 : b.start = at_ a α)
    (h2 : b.stop = at_ a β) (ha : a.start ≠ a.stop) : Meet a b ↔ ¬ ((α < 0 ∧ β < 0) ∨ (α > 1 ∧ β > 1)) := by
  constructor
  · rintro ⟨p, hpa, hpb⟩ h
    obtain ⟨k, k0, k1, rfl⟩ := onSegment_at.1 hpa
    obtain ⟨τ, t1, t2, e⟩ := (on_other h1 h2 _).1 hpb
    have := at_inj ha e
    subst this
    rw [min_le_iff] at t1
    rw [le_max_iff] at t2
    rcases h with ⟨h3, h4⟩ | ⟨h3, h4⟩
    · rcases t2 with t2 | t2 <;> linarith
    · rcases t1 with t1 | t1 <;> linarith
  · intro h
    push Not at h
    have hz : (0 : K) ≤ max α β := by
      by_contra hc
      push Not at hc
      rw [max_lt_iff] at hc
      have := h.1 hc.1
      linarith
    have ho : min α β ≤ (1 : K) := by
      by_contra hc
      push Not at hc
      rw [lt_min_iff] at hc
      have := h.2 hc.1
      linarith
    refine ⟨at_ a (max (min α β) 0), onSegment_at.2 ⟨_, le_max_right _ _, max_le ho zero_le_one, rfl⟩,
      (on_other h1 h2 _).2 ⟨_, le_max_left _ _, max_le min_le_max hz, rfl⟩⟩

/-- A degenerate segment. -/
theorem first_point {a b : Segment K} (ha : a.start = a.stop) (h : OnSegment a.start b) : FirstRatio a b 0 :=
  ⟨le_refl _, zero_le_one, by rw [at_degenerate ha]; exact h, fun _ h _ _ => h⟩

theorem first_on {a b : Segment K} (ha : a.start = a.stop) (hb : b.start ≠ b.stop) {t : K} (ht : b.project a.start = some t)
    (h : OnSegment a.start b) : FirstRatio b a t := by
  obtain ⟨k, k0, k1, e⟩ := onSegment_at.1 h
  have hk := project_of hb (p := a.start) (t := k) (congrArg Pt.x e) (congrArg Pt.y e)
  rw [ht] at hk
  cases hk
  have ea : a = ⟨a.start, a.start⟩ := by
    cases a
    simp only at ha
    subst ha
    rfl
  refine ⟨k0, k1, ?_, fun t' _ _ h' => ?_⟩
  · rw [ea, ← e]
    exact (onSegment_degenerate _ _).2 rfl
  · rw [ea, onSegment_degenerate, e] at h'
    exact le_of_eq (at_inj hb h').symm

theorem meet_degenerate {a b : Segment K} (ha : a.start = a.stop) : Meet a b ↔ OnSegment a.start b := by
  constructor
  · rintro ⟨p, hp, hb⟩
    obtain ⟨k, -, -, rfl⟩ := onSegment_at.1 hp
    rwa [at_degenerate ha] at hb
  · exact fun h => ⟨a.start, onSegment_start a, h⟩

theorem meet_comm {a b : Segment K} : Meet a b ↔ Meet b a :=
  ⟨fun ⟨p, h1, h2⟩ => ⟨p, h2, h1⟩, fun ⟨p, h1, h2⟩ => ⟨p, h2, h1⟩⟩

theorem project_none {s : Segment K} {p : Pt K} : s.project p = none ↔ s.start = s.stop := by
  constructor
  · intro h
    by_contra hn
    rw [project_eq hn] at h
    cases h
  · intro h
    unfold Segment.project
    rw [if_pos h]

/-- What the specification says about a result. -/
def Right (a b : Segment K) : Ratios K → Prop
  | .crash => False
  | .none => ¬ Meet a b
  | .some t s => FirstRatio a b t ∧ FirstRatio b a s

theorem parallel_right (a b : Segment K) (hab : a ≠ b) (hd : a.vector.det b.vector = 0) : Right a b (parallelRatio a b) := by
  unfold parallelRatio
  by_cases hw : a.vector.det (b.start.sub a.start) ≠ 0
  · rw [if_pos hw]
    rintro ⟨p, hpa, hpb⟩
    obtain ⟨k, -, -, rfl⟩ := onSegment_at.1 hpa
    obtain ⟨l, -, -, e⟩ := onSegment_at.1 hpb
    apply hw
    simp only [at_, Pt.mk.injEq] at e
    simp only [Segment.vector, Pt.sub, Pt.det] at hd ⊢
    linear_combination (a.stop.x - a.start.x) * (-e.2) - (a.stop.y - a.start.y) * (-e.1) - l * hd
  rw [if_neg hw]
  push Not at hw
  by_cases ha : a.start = a.stop
  · rw [project_none.2 ha]
    by_cases hb : b.start = b.stop
    · rw [project_none.2 hb]
      dsimp only [Right]
      rw [meet_degenerate ha]
      intro h
      obtain ⟨k, -, -, e⟩ := onSegment_at.1 h
      rw [at_degenerate hb] at e
      apply hab
      cases a
      cases b
      simp only at ha hb e
      subst ha hb e
      rfl
    · have ht := project_eq hb a.start
      rw [ht]
      dsimp only
      by_cases hi : intersectsPS a.start b = true
      · rw [if_pos hi]
        rw [intersectsPS_iff] at hi
        exact ⟨first_point ha hi, first_on ha hb ht hi⟩
      · rw [if_neg hi]
        rw [intersectsPS_iff] at hi
        exact fun h => hi ((meet_degenerate ha).1 h)
  · by_cases hb : b.start = b.stop
    · rw [project_none.2 hb]
      have ht := project_eq ha b.start
      rw [ht]
      dsimp only
      by_cases hi : intersectsPS b.start a = true
      · rw [if_pos hi]
        rw [intersectsPS_iff] at hi
        exact ⟨first_on hb ha ht hi, first_point hb hi⟩
      · rw [if_neg hi]
        rw [intersectsPS_iff] at hi
        exact fun h => hi ((meet_degenerate hb).1 (meet_comm.1 h))
    · -- on a line
      have p1 := project_eq ha b.start
      have p2 := project_eq ha b.stop
      have p3 := project_eq hb a.start
      have p4 := project_eq hb a.stop
      simp only [Segment.vector, Pt.sub, Pt.det] at hd hw
      have hw' : (b.start.x - a.start.x) * (b.stop.y - b.start.y) - (b.start.y - a.start.y) * (b.stop.x - b.start.x) = 0 := by
        by_cases hx : a.stop.x - a.start.x = 0
        · have hy : a.stop.y - a.start.y ≠ 0 := fun hy => ha (Pt.ext (by linarith) (by linarith))
          have := mul_left_cancel₀ hy (a := a.stop.y - a.start.y) (b := (b.start.x - a.start.x) * (b.stop.y - b.start.y) -
            (b.start.y - a.start.y) * (b.stop.x - b.start.x)) (c := 0)
            (by linear_combination (b.start.y - a.start.y) * hd - (b.stop.y - b.start.y) * hw)
          exact this
        · have := mul_left_cancel₀ hx (a := a.stop.x - a.start.x) (b := (b.start.x - a.start.x) * (b.stop.y - b.start.y) -
            (b.start.y - a.start.y) * (b.stop.x - b.start.x)) (c := 0)
            (by linear_combination (b.start.x - a.start.x) * hd - (b.stop.x - b.start.x) * hw)
          exact this
      have e1 := on_line ha (p := b.start) (by simp only [Pt.sub, Pt.det]; linear_combination -hw) p1
      have e2 := on_line ha (p := b.stop) (by simp only [Pt.sub, Pt.det]; linear_combination -hw - hd) p2
      have e3 := on_line hb (p := a.start) (by simp only [Pt.sub, Pt.det]; linear_combination -hw') p3
      have e4 := on_line hb (p := a.stop) (by simp only [Pt.sub, Pt.det]; linear_combination hd - hw') p4
      rw [p1, p2, p3, p4]
      dsimp only
      have m := meet_overlap (a := a) (b := b) (Pt.ext e1.1 e1.2) (Pt.ext e2.1 e2.2) ha
      split_ifs with hc
      · exact fun h => m.1 h hc
      · have hm := m.2 hc
        exact ⟨first_overlap ha (Pt.ext e1.1 e1.2) (Pt.ext e2.1 e2.2) hm,
          first_overlap hb (Pt.ext e3.1 e3.2) (Pt.ext e4.1 e4.2) (meet_comm.1 hm)⟩

/-- Cramer's rule. -/
theorem cramer {a b : Segment K} (hd : a.vector.det b.vector ≠ 0) (k l : K) : at_ a k = at_ b l ↔
    k = (b.start.sub a.start).det b.vector / a.vector.det b.vector ∧
    l = (b.start.sub a.start).det a.vector / a.vector.det b.vector := by
  rw [eq_div_iff hd, eq_div_iff hd]
  simp only [at_, Pt.mk.injEq, Segment.vector, Pt.sub, Pt.det] at hd ⊢
  constructor
  · rintro ⟨h1, h2⟩
    constructor
    · linear_combination (b.stop.y - b.start.y) * h1 - (b.stop.x - b.start.x) * h2
    · linear_combination (a.stop.y - a.start.y) * h1 - (a.stop.x - a.start.x) * h2
  · rintro ⟨h1, h2⟩
    constructor
    · have := mul_left_cancel₀ hd (b := k * (a.stop.x - a.start.x) - (b.start.x - a.start.x) - l * (b.stop.x - b.start.x))
        (c := 0) (by linear_combination (a.stop.x - a.start.x) * h1 - (b.stop.x - b.start.x) * h2)
      linear_combination this
    · have := mul_left_cancel₀ hd (b := k * (a.stop.y - a.start.y) - (b.start.y - a.start.y) - l * (b.stop.y - b.start.y))
        (c := 0) (by linear_combination (a.stop.y - a.start.y) * h1 - (b.stop.y - b.start.y) * h2)
      linear_combination this

theorem ratio_right (a b : Segment K) : Right a b (segmentIntersectionRatio a b) := by
  unfold segmentIntersectionRatio
  by_cases hab : a = b
  · rw [if_pos hab]
    subst hab
    have : FirstRatio a a 0 := ⟨le_refl _, zero_le_one, onSegment_at.2 ⟨0, le_refl _, zero_le_one, rfl⟩, fun _ h _ _ => h⟩
    exact ⟨this, this⟩
  rw [if_neg hab]
  dsimp only
  by_cases hd : a.vector.det b.vector = 0
  · rw [if_pos hd]
    exact parallel_right a b hab hd
  rw [if_neg hd]
  have key : ∀ k l, at_ a k = at_ b l ↔ _ := cramer hd
  split_ifs with hc
  · obtain ⟨t0, t1, s0, s1⟩ := hc
    have e := (key _ _).2 ⟨rfl, rfl⟩
    refine ⟨⟨t0, t1, onSegment_at.2 ⟨_, s0, s1, e⟩, fun t' _ _ h => ?_⟩,
      s0, s1, onSegment_at.2 ⟨_, t0, t1, e.symm⟩, fun t' _ _ h => ?_⟩
    · obtain ⟨l, -, -, e'⟩ := onSegment_at.1 h
      exact le_of_eq ((key _ _).1 e').1.symm
    · obtain ⟨l, -, -, e'⟩ := onSegment_at.1 h
      exact le_of_eq ((key _ _).1 e'.symm).2.symm
  · rintro ⟨p, hpa, hpb⟩
    obtain ⟨k, k0, k1, rfl⟩ := onSegment_at.1 hpa
    obtain ⟨l, l0, l1, e⟩ := onSegment_at.1 hpb
    obtain ⟨rfl, rfl⟩ := (key _ _).1 e
    exact hc ⟨k0, k1, l0, l1⟩

/-- C53: `SegmentIntersectionRatio` fails no check. It returns no value exactly if the segments have no point in common;
otherwise it returns the ratio of the first point of the one segment which is on the other, for both segments. -/
theorem C53_ratio (a b : Segment K) :
    segmentIntersectionRatio a b ≠ .crash ∧
    (segmentIntersectionRatio a b = .none ↔ ¬ Meet a b) ∧
    ∀ t s, segmentIntersectionRatio a b = .some t s → FirstRatio a b t ∧ FirstRatio b a s := by
  have h := ratio_right a b
  cases e : segmentIntersectionRatio a b with
  | crash => rw [e] at h; exact h.elim
  | none => rw [e] at h; exact ⟨by simp, by simpa [Right] using h, by simp⟩
  | some t s =>
    rw [e] at h
    refine ⟨by simp, ?_, fun t' s' e' => ?_⟩
    · simp only [reduceCtorEq, false_iff, not_not]
      exact ⟨_, onSegment_at.2 ⟨t, h.1.1, h.1.2.1, rfl⟩, h.1.2.2.1⟩
    · cases e'
      exact h

/-- C53: the ratio of a segment which is a point is 0; and if the segments have only one point in common, both ratios are
those of this point. -/
theorem C53_ratio_special (a b : Segment K) (t s : K) (h : segmentIntersectionRatio a b = .some t s) :
    (a.start = a.stop → t = 0) ∧ (b.start = b.stop → s = 0) ∧
    ((∀ p q, OnSegment p a → OnSegment p b → OnSegment q a → OnSegment q b → p = q) → at_ a t = at_ b s) := by
  obtain ⟨h1, h2⟩ := (C53_ratio a b).2.2 t s h
  refine ⟨fun e => ?_, fun e => ?_, fun hu => ?_⟩
  · refine le_antisymm (h1.2.2.2 0 (le_refl _) zero_le_one ?_) h1.1
    have := h1.2.2.1
    rwa [at_degenerate e] at this ⊢
  · refine le_antisymm (h2.2.2.2 0 (le_refl _) zero_le_one ?_) h2.1
    have := h2.2.2.1
    rwa [at_degenerate e] at this ⊢
  · exact hu _ _ (onSegment_at.2 ⟨t, h1.1, h1.2.1, rfl⟩) h1.2.2.1 h2.2.2.1 (onSegment_at.2 ⟨s, h2.1, h2.2.1, rfl⟩)

/-- C53: `SegmentIntersection` returns the first point along the first segment which is on the second, if there is one. -/
theorem C53_intersection (a b : Segment K) : ∃ r, segmentIntersection a b = some r ∧ (r = none ↔ ¬ Meet a b) ∧
    ∀ p, r = some p → ∃ t, FirstRatio a b t ∧ p = at_ a t := by
  obtain ⟨h1, h2, h3⟩ := C53_ratio a b
  unfold segmentIntersection
  cases e : segmentIntersectionRatio a b with
  | crash => exact absurd e h1
  | none => exact ⟨none, rfl, by simpa using h2.1 e, by simp⟩
  | some t s =>
    refine ⟨some (a.lerp t), rfl, ?_, fun p hp => ?_⟩
    · rw [e] at h2
      simpa using h2
    · cases hp
      exact ⟨t, (h3 t s e).1, lerp_eq_at a t⟩

/-- C53: `UniqueLineIntersectionRatio` returns the ratios of the point of intersection if there is exactly one pair of
ratios, and no value otherwise. -/
theorem C53_lines (a b : Segment K) :
    (∀ t s, uniqueLineIntersectionRatio a b = some (t, s) ↔ at_ a t = at_ b s ∧ ∀ t' s', at_ a t' = at_ b s' → t' = t ∧ s' = s) ∧
    (uniqueLineIntersectionRatio a b = none ↔ ¬ ∃ t s, at_ a t = at_ b s ∧ ∀ t' s', at_ a t' = at_ b s' → t' = t ∧ s' = s) := by
  have key : ∀ t s, uniqueLineIntersectionRatio a b = some (t, s) ↔
      at_ a t = at_ b s ∧ ∀ t' s', at_ a t' = at_ b s' → t' = t ∧ s' = s := by
    intro t s
    unfold uniqueLineIntersectionRatio
    dsimp only
    by_cases hd : a.vector.det b.vector = 0
    · rw [if_pos hd]
      simp only [reduceCtorEq, false_iff, not_and]
      intro e hu
      -- another solution
      simp only [Segment.vector, Pt.sub, Pt.det] at hd
      have ex := congrArg Pt.x e
      have ey := congrArg Pt.y e
      simp only [at_] at ex ey
      have other : ∀ dt ds : K, dt * (a.stop.x - a.start.x) = ds * (b.stop.x - b.start.x) →
          dt * (a.stop.y - a.start.y) = ds * (b.stop.y - b.start.y) → dt = 0 ∧ ds = 0 := by
        intro dt ds h1 h2
        have := hu (t + dt) (s + ds) (Pt.ext (by simp only [at_]; linear_combination ex + h1)
          (by simp only [at_]; linear_combination ey + h2))
        exact ⟨by linarith [this.1], by linarith [this.2]⟩
      have o1 := other (b.stop.x - b.start.x) (a.stop.x - a.start.x) (by ring) (by linear_combination -hd)
      have o2 := other (b.stop.y - b.start.y) (a.stop.y - a.start.y) (by linear_combination hd) (by ring)
      have o3 := other 1 0 (by rw [o1.2]; ring) (by rw [o2.2]; ring)
      exact one_ne_zero o3.1
    · rw [if_neg hd, Option.some.injEq, Prod.mk.injEq]
      have c := cramer hd
      constructor
      · rintro ⟨rfl, rfl⟩
        exact ⟨(c _ _).2 ⟨rfl, rfl⟩, fun t' s' e => (c _ _).1 e⟩
      · rintro ⟨e, -⟩
        obtain ⟨h1, h2⟩ := (c _ _).1 e
        exact ⟨h1.symm, h2.symm⟩
  refine ⟨key, ?_⟩
  constructor
  · rintro h ⟨t, s, hts⟩
    rw [(key t s).2 hts] at h
    cases h
  · intro h
    cases e : uniqueLineIntersectionRatio a b with
    | none => rfl
    | some r => exact absurd ⟨r.1, r.2, (key r.1 r.2).1 e⟩ h

/-- C53: `GetBarycentricCoordinates` returns no value exactly if the corners of the triangle are on a line; otherwise the
position is the combination of the corners with the coordinates, which are the only ones. -/
theorem C53_barycentric (t : Triangle K) (p : Pt K) :
    (barycentric t p = none ↔ Collinear t) ∧
    ∀ c, barycentric t p = some c → c.1 + c.2.1 + c.2.2 = 1 ∧
      p.x = c.1 * t.p0.x + c.2.1 * t.p1.x + c.2.2 * t.p2.x ∧ p.y = c.1 * t.p0.y + c.2.1 * t.p1.y + c.2.2 * t.p2.y ∧
      ∀ c' : K × K × K, c'.1 + c'.2.1 + c'.2.2 = 1 →
        p.x = c'.1 * t.p0.x + c'.2.1 * t.p1.x + c'.2.2 * t.p2.x →
        p.y = c'.1 * t.p0.y + c'.2.1 * t.p1.y + c'.2.2 * t.p2.y → c' = c := by
  unfold barycentric
  dsimp only
  have hdet : (t.p2.sub t.p0).det (t.p1.sub t.p2) =
      (t.p2.x - t.p0.x) * (t.p1.y - t.p2.y) - (t.p2.y - t.p0.y) * (t.p1.x - t.p2.x) := rfl
  constructor
  · constructor
    · intro h
      split_ifs at h with hd
      rw [hdet] at hd
      by_cases h02 : t.p0 = t.p2
      · exact ⟨⟨t.p0, t.p1⟩, 0, 1, 0, by simp [at_], by simp [at_], by rw [← h02]; simp [at_]⟩
      · have hp := project_eq (s := ⟨t.p0, t.p2⟩) h02 t.p1
        have e := on_line (s := ⟨t.p0, t.p2⟩) h02 (p := t.p1)
          (by simp only [Pt.sub, Pt.det]; linear_combination -hd) hp
        exact ⟨⟨t.p0, t.p2⟩, 0, _, 1, by simp [at_], Pt.ext e.1 e.2, by simp [at_]⟩
    · rintro ⟨s, k0, k1, k2, e0, e1, e2⟩
      rw [if_pos]
      rw [hdet, e0, e1, e2]
      simp only [at_]
      ring
  · intro c hc
    split_ifs at hc with hd
    cases hc
    rw [hdet] at hd
    have e0 := div_mul_cancel₀ ((t.p1.sub t.p2).det (p.sub t.p2)) hd
    have e1 := div_mul_cancel₀ ((t.p2.sub t.p0).det (p.sub t.p2)) hd
    rw [← hdet] at e0 e1 hd
    generalize hD : (t.p2.sub t.p0).det (t.p1.sub t.p2) = D at e0 e1 hd ⊢
    generalize (t.p1.sub t.p2).det (p.sub t.p2) / D = b0 at e0 ⊢
    generalize (t.p2.sub t.p0).det (p.sub t.p2) / D = b1 at e1 ⊢
    simp only [Pt.sub, Pt.det] at e0 e1
    rw [hdet] at hD
    replace hD := hD.symm
    have hx : p.x = b0 * t.p0.x + b1 * t.p1.x + (1 - b0 - b1) * t.p2.x := by
      have := mul_left_cancel₀ hd (b := p.x - (b0 * t.p0.x + b1 * t.p1.x + (1 - b0 - b1) * t.p2.x)) (c := 0)
        (by rw [hD] at e0 e1 ⊢; linear_combination (t.p2.x - t.p0.x) * e0 + (t.p2.x - t.p1.x) * e1)
      linear_combination this
    have hy : p.y = b0 * t.p0.y + b1 * t.p1.y + (1 - b0 - b1) * t.p2.y := by
      have := mul_left_cancel₀ hd (b := p.y - (b0 * t.p0.y + b1 * t.p1.y + (1 - b0 - b1) * t.p2.y)) (c := 0)
        (by rw [hD] at e0 e1 ⊢; linear_combination (t.p2.y - t.p0.y) * e0 + (t.p2.y - t.p1.y) * e1)
      linear_combination this
    refine ⟨by ring, hx, hy, ?_⟩
    rintro ⟨c0, c1, c2⟩ h1 hx' hy'
    simp only at h1 hx' hy'
    have hc2 : c2 = 1 - c0 - c1 := by linear_combination h1
    subst hc2
    have f0 : c0 = b0 := mul_right_cancel₀ hd (by
      rw [hD] at e0 ⊢
      rw [e0]
      linear_combination (-(t.p1.x - t.p2.x)) * hy' + (t.p1.y - t.p2.y) * hx')
    have f1 : c1 = b1 := mul_right_cancel₀ hd (by
      rw [hD] at e1 ⊢
      rw [e1]
      linear_combination (-(t.p2.x - t.p0.x)) * hy' + (t.p2.y - t.p0.y) * hx')
    rw [f0, f1]

/-- C53: `VectorFromPointToSegmentProjection` is the vector from the point to its projection on the line of the segment:
adding it to the point gives a point of the line, and it is orthogonal to the segment. It has no value exactly if the segment
is a point. -/
theorem C53_projection (p : Pt K) (s : Segment K) :
    (vectorToProjection p s = none ↔ s.start = s.stop) ∧
    ∀ v, vectorToProjection p s = some v →
      (∃ t, p.add v = at_ s t ∧ s.project p = some t) ∧
      v.x * (s.stop.x - s.start.x) + v.y * (s.stop.y - s.start.y) = 0 := by
  unfold vectorToProjection
  dsimp only
  by_cases h : s.start = s.stop
  · rw [if_pos (by simp [Segment.vector, Pt.sub, Pt.dot, h])]
    simp [h]
  · have hm := ne_of_gt (dot_self_pos h)
    rw [if_neg hm]
    refine ⟨by simp [h], fun v hv => ?_⟩
    cases hv
    have hpr := project_eq h p
    constructor
    · refine ⟨_, ?_, hpr⟩
      have e1 := div_mul_cancel₀ (s.vector.det (s.start.sub p)) hm
      have e2 := div_mul_cancel₀ ((p.sub s.start).dot s.vector) hm
      generalize s.vector.det (s.start.sub p) / s.vector.dot s.vector = q at e1
      generalize (p.sub s.start).dot s.vector / s.vector.dot s.vector = t at e2
      have hM : s.vector.dot s.vector = (s.stop.x - s.start.x) * (s.stop.x - s.start.x) +
        (s.stop.y - s.start.y) * (s.stop.y - s.start.y) := rfl
      simp only [Segment.vector, Pt.sub, Pt.det, Pt.dot] at e1 e2
      rw [hM] at hm
      refine Pt.ext ?_ ?_
      · have := mul_left_cancel₀ hm (b := p.x + q * -(s.stop.y - s.start.y) - (s.start.x + t * (s.stop.x - s.start.x)))
          (c := 0) (by linear_combination (-(s.stop.y - s.start.y)) * e1 - (s.stop.x - s.start.x) * e2)
        simp only [Pt.add, Pt.smul, Pt.orthogonal, Segment.vector, Pt.sub, at_]
        linear_combination this
      · have := mul_left_cancel₀ hm (b := p.y + q * (s.stop.x - s.start.x) - (s.start.y + t * (s.stop.y - s.start.y)))
          (c := 0) (by linear_combination (s.stop.x - s.start.x) * e1 - (s.stop.y - s.start.y) * e2)
        simp only [Pt.add, Pt.smul, Pt.orthogonal, Segment.vector, Pt.sub, at_]
        linear_combination this
    · simp only [Pt.smul, Pt.orthogonal, Segment.vector, Pt.sub]
      ring

/-- All kinds of results: crossing, overlapping in opposite directions (where the ratios are those of different points), a
point on a segment, parallel, on one line without a common point. -/
example :
    segmentIntersectionRatio (⟨⟨0, 0⟩, ⟨4, 4⟩⟩ : Segment ℚ) ⟨⟨0, 4⟩, ⟨2, 0⟩⟩ = .some (1 / 3) (2 / 3) ∧
    segmentIntersectionRatio (⟨⟨0, 0⟩, ⟨4, 0⟩⟩ : Segment ℚ) ⟨⟨6, 0⟩, ⟨2, 0⟩⟩ = .some (1 / 2) (1 / 2) ∧
    segmentIntersectionRatio (⟨⟨1, 0⟩, ⟨1, 0⟩⟩ : Segment ℚ) ⟨⟨0, 0⟩, ⟨4, 0⟩⟩ = .some 0 (1 / 4) ∧
    segmentIntersectionRatio (⟨⟨0, 1⟩, ⟨1, 1⟩⟩ : Segment ℚ) ⟨⟨0, 0⟩, ⟨4, 0⟩⟩ = .none ∧
    segmentIntersectionRatio (⟨⟨5, 0⟩, ⟨6, 0⟩⟩ : Segment ℚ) ⟨⟨0, 0⟩, ⟨4, 0⟩⟩ = .none ∧
    barycentric (⟨⟨0, 0⟩, ⟨4, 0⟩, ⟨0, 4⟩⟩ : Triangle ℚ) ⟨1, 2⟩ = some (1 / 4, 1 / 4, 1 / 2) ∧
    vectorToProjection ⟨3, 3⟩ (⟨⟨0, 1⟩, ⟨1, 1⟩⟩ : Segment ℚ) = some ⟨0, -2⟩ ∧
    uniqueLineIntersectionRatio (⟨⟨0, 0⟩, ⟨1, 1⟩⟩ : Segment ℚ) ⟨⟨0, 4⟩, ⟨2, 0⟩⟩ = some (4 / 3, 2 / 3) := by
  decide +kernel

end Verif.Geo
