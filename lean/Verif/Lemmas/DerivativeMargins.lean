import Verif.Lemmas.DerivativeUpdate

/-!
# Lemmas on the upper bounds of margins
-/

set_option autoImplicit false

namespace Verif.Derivative

open Geo Spec

open Verif.Vertex (Category)

theorem marginUpperBound_nonneg (s b : Segment ℝ) : 0 ≤ marginUpperBound s b := by
  unfold marginUpperBound maximumMargin
  split
  · split_ifs with h
    · exact h
    · norm_num
  · norm_num

theorem marginUpperBound_side {p u b f : Pt ℝ} {t : ℝ} (h0 : 0 ≤ t) (h : t ≤ marginUpperBound ⟨p, p.add u⟩ ⟨b, f⟩) :
    SameSide b f p ⟨p.x + t * u.x, p.y + t * u.y⟩ := by
  unfold marginUpperBound uniqueLineIntersectionRatio at h
  dsimp only at h
  unfold SameSide sideOf
  dsimp only
  have hD : (Segment.vector (⟨p, p.add u⟩ : Segment ℝ)).det (Segment.vector ⟨b, f⟩) = u.x * (f.y - b.y) - u.y * (f.x - b.x) := by
    unfold Segment.vector Pt.det Pt.sub Pt.add
    ring
  have hw : (b.sub p).det (Segment.vector ⟨b, f⟩) = (b.x - p.x) * (f.y - b.y) - (b.y - p.y) * (f.x - b.x) := rfl
  rw [hD, hw] at h
  generalize hd : u.x * (f.y - b.y) - u.y * (f.x - b.x) = D at h
  generalize hn : (b.x - p.x) * (f.y - b.y) - (b.y - p.y) * (f.x - b.x) = N at h
  have e0 : (f.x - b.x) * (p.y - b.y) - (f.y - b.y) * (p.x - b.x) = N := by rw [← hn]; ring
  have e1 : (f.x - b.x) * (p.y + t * u.y - b.y) - (f.y - b.y) * (p.x + t * u.x - b.x) = N - t * D := by rw [← hn, ← hd]; ring
  rw [e0, e1]
  by_cases hz : D = 0
  · rw [hz]; nlinarith [mul_self_nonneg N]
  · rw [if_neg hz] at h
    dsimp only at h
    obtain ⟨r, rfl⟩ : ∃ r, N = r * D := ⟨N / D, by field_simp⟩
    rw [mul_div_cancel_right₀ _ hz] at h
    have hq : 0 ≤ D * D := mul_self_nonneg D
    have : 0 ≤ r * (r - t) := by
      by_cases hr : r ≥ 0
      · rw [if_pos hr] at h
        exact mul_nonneg hr (by linarith)
      · push Not at hr
        nlinarith
    have e : r * D * (r * D - t * D) = (D * D) * (r * (r - t)) := by ring
    rw [e]
    exact mul_nonneg hq this

theorem boundingSegment_foot {p a b : Pt ℝ} (h : a ≠ b) : ∃ f, Foot p a b f ∧ boundingSegment p ⟨a, b⟩ = ⟨p, f⟩ := by
  have hm : 0 < (b.x - a.x) * (b.x - a.x) + (b.y - a.y) * (b.y - a.y) := by
    by_contra hc
    apply h
    have h1 : (b.x - a.x) * (b.x - a.x) = 0 := by nlinarith [mul_self_nonneg (b.x - a.x), mul_self_nonneg (b.y - a.y)]
    have h2 : (b.y - a.y) * (b.y - a.y) = 0 := by nlinarith [mul_self_nonneg (b.x - a.x), mul_self_nonneg (b.y - a.y)]
    have h3 := mul_self_eq_zero.1 h1
    have h4 := mul_self_eq_zero.1 h2
    cases a; cases b
    simp only [Pt.mk.injEq] at *
    constructor <;> linarith
  refine ⟨_, ?_, rfl⟩
  unfold Segment.project
  have e : (Segment.vector (⟨a, b⟩ : Segment ℝ)).dot (Segment.vector ⟨a, b⟩) =
      (b.x - a.x) * (b.x - a.x) + (b.y - a.y) * (b.y - a.y) := rfl
  have e' : (p.sub a).dot (Segment.vector ⟨a, b⟩) = (p.x - a.x) * (b.x - a.x) + (p.y - a.y) * (b.y - a.y) := rfl
  dsimp only
  rw [if_neg h, e, if_neg (not_le.2 hm), e', Option.getD_some, clamp_eq (by norm_num)]
  refine ⟨((p.x - a.x) * (b.x - a.x) + (p.y - a.y) * (b.y - a.y)) / ((b.x - a.x) * (b.x - a.x) + (b.y - a.y) * (b.y - a.y)), _, ?_, rfl, ?_⟩
  · generalize hM : (b.x - a.x) * (b.x - a.x) + (b.y - a.y) * (b.y - a.y) = M at hm
    have hne := hm.ne'
    field_simp
    rw [← hM]
    ring
  · unfold Segment.lerp
    simp only [Pt.mk.injEq]
    constructor <;> ring

theorem signedArea_eq (a b c : Pt ℝ) : (⟨a, b, c⟩ : Triangle ℝ).signedArea = sideOf a b c / 2 := by
  unfold Triangle.signedArea sideOf Pt.det Pt.sub
  dsimp only
  ring

theorem sideOf_rotate (a b c : Pt ℝ) : sideOf a b c = sideOf b c a := by unfold sideOf; ring

/-- Margins only get smaller. -/
def Lowers (t t' : Tracked) : Prop :=
  t'.min = t.min ∧ t'.averages = t.averages ∧ t'.margins.length = t.margins.length ∧
    ∀ (x : ℕ) (m : ℝ), t'.margins[x]? = some m → ∃ m', t.margins[x]? = some m' ∧ m ≤ m'

theorem lowers_refl (t : Tracked) : Lowers t t := ⟨rfl, rfl, rfl, fun _ m h => ⟨m, h, le_rfl⟩⟩

theorem lowers_trans {t t' t'' : Tracked} (h : Lowers t t') (g : Lowers t' t'') : Lowers t t'' := by
  refine ⟨g.1.trans h.1, g.2.1.trans h.2.1, g.2.2.1.trans h.2.2.1, fun x m hm => ?_⟩
  obtain ⟨m', h1, h2⟩ := g.2.2.2 x m hm
  obtain ⟨m'', h3, h4⟩ := h.2.2.2 x m' h1
  exact ⟨m'', h3, h2.trans h4⟩

/-- The margin of the vertex `i` is at most `b`. -/
def AtMost (t : Tracked) (i : ℕ) (b : ℝ) : Prop := t.min ≤ i → ∀ m, t.margins[i - t.min]? = some m → m ≤ b

theorem atMost_lowers {t t' : Tracked} (h : Lowers t t') {i : ℕ} {b : ℝ} (g : AtMost t i b) : AtMost t' i b := by
  intro hi m hm
  rw [h.1] at hi hm
  obtain ⟨m', h1, h2⟩ := h.2.2.2 _ m hm
  exact h2.trans (g hi m' h1)

theorem saveMargin_spec {t t' : Tracked} {i : ℕ} {b : ℝ} (h : saveMargin t i b = some t') : Lowers t t' ∧ AtMost t' i b := by
  unfold saveMargin at h
  by_cases hi : i < t.min
  · rw [if_pos hi] at h
    cases h
    exact ⟨lowers_refl _, fun g => absurd hi (not_lt.2 g)⟩
  · rw [if_neg hi] at h
    cases e : changeAt t.margins (i - t.min) (fun m => Min.min m b) with
    | none => rw [e] at h; simp at h
    | some ms =>
      rw [e] at h
      cases h
      constructor
      · refine ⟨rfl, rfl, (changeAt_get e 0).1, fun x m hm => ?_⟩
        have hm' : ms[x]? = some m := hm
        rw [(changeAt_get e x).2] at hm'
        split_ifs at hm'
        · rw [Option.map_eq_some_iff] at hm'
          obtain ⟨m', h1, rfl⟩ := hm'
          exact ⟨m', h1, min_le_left _ _⟩
        · exact ⟨m, hm', le_rfl⟩
      · intro _ m hm
        have hm' : ms[i - t.min]? = some m := hm
        rw [(changeAt_get e _).2, if_pos rfl, Option.map_eq_some_iff] at hm'
        obtain ⟨m', -, rfl⟩ := hm'
        exact min_le_right _ _

/-- The upper bound of the margin of the first corner of a triangle. -/
noncomputable def boundOf (v : Vertex) (b c : Pt ℝ) : ℝ :=
  if outsetSign v.sideLabel = 0 then 0
  else min (marginUpperBound (outsetSegment v.position (outsetSign v.sideLabel) v.sideDerivative) (boundingSegment b ⟨c, v.position⟩))
    (marginUpperBound (outsetSegment v.position (outsetSign v.sideLabel) v.sideDerivative) (boundingSegment c ⟨v.position, b⟩))

theorem saveMarginOf_spec {t t' : Tracked} {i : ℕ} {v : Vertex} {b c : Pt ℝ}
    (h : saveMarginOf v i (boundingSegment b ⟨c, v.position⟩) (boundingSegment c ⟨v.position, b⟩) t = some t') :
    Lowers t t' ∧ AtMost t' i (boundOf v b c) := by
  unfold saveMarginOf at h
  unfold boundOf
  dsimp only at h
  by_cases hs : outsetSign v.sideLabel = 0
  · rw [if_pos hs] at h ⊢
    exact saveMargin_spec h
  · rw [if_neg hs] at h ⊢
    exact saveMargin_spec h

/-- What a triangle says of the margin of its first corner. -/
def Bounds (mesh : Mesh) (t : Tracked) (j : ℕ × ℕ × ℕ) : Prop :=
  ∃ a b c, mesh.vertices[j.1]? = some a ∧ mesh.vertices[j.2.1]? = some b ∧ mesh.vertices[j.2.2]? = some c ∧
    (sideOf a.position b.position c.position ≠ 0 → AtMost t j.1 (boundOf a b.position c.position)) ∧
    (sideOf a.position b.position c.position = 0 → ¬Coincide a b c → AtMost t j.1 0)

theorem bounds_lowers {mesh : Mesh} {t t' : Tracked} (h : Lowers t t') {j : ℕ × ℕ × ℕ} (g : Bounds mesh t j) : Bounds mesh t' j := by
  obtain ⟨a, b, c, h1, h2, h3, h4, h5⟩ := g
  exact ⟨a, b, c, h1, h2, h3, fun q => atMost_lowers h (h4 q), fun q r => atMost_lowers h (h5 q r)⟩

theorem addMargins_spec {mesh : Mesh} {i : ℕ × ℕ × ℕ} {t t' : Tracked} (h : addMargins mesh i t = some t') :
    Lowers t t' ∧ ∀ j, Corners i j → Bounds mesh t' j := by
  unfold addMargins at h
  cases e : corners mesh i with
  | none => rw [e] at h; simp at h
  | some v =>
    obtain ⟨a, b, c⟩ := v
    obtain ⟨ha, hb, hc⟩ := corners_some e
    rw [e] at h
    dsimp only at h
    rw [signedArea_eq] at h
    have r1 := sideOf_rotate a.position b.position c.position
    have r2 := sideOf_rotate b.position c.position a.position
    by_cases hz : sideOf a.position b.position c.position = 0
    · rw [if_pos (by rw [hz]; norm_num)] at h
      by_cases hd : a.position ≠ b.position ∧ a.position ≠ c.position ∧ b.position ≠ c.position
      · rw [if_pos hd] at h
        obtain ⟨t1, h1, h'⟩ := Option.bind_eq_some_iff.1 h
        obtain ⟨t2, h2, h3⟩ := Option.bind_eq_some_iff.1 h'
        obtain ⟨l1, m1⟩ := saveMargin_spec h1
        obtain ⟨l2, m2⟩ := saveMargin_spec h2
        obtain ⟨l3, m3⟩ := saveMargin_spec h3
        refine ⟨lowers_trans l1 (lowers_trans l2 l3), ?_⟩
        rintro j (rfl | rfl | rfl)
        · exact ⟨a, b, c, ha, hb, hc, fun q => absurd hz q, fun _ _ => atMost_lowers (lowers_trans l2 l3) m1⟩
        · exact ⟨b, c, a, hb, hc, ha, fun q => absurd (r1.symm.trans hz) q, fun _ _ => atMost_lowers l3 m2⟩
        · exact ⟨c, a, b, hc, ha, hb, fun q => absurd (r2.symm.trans (r1.symm.trans hz)) q, fun _ _ => m3⟩
      · rw [if_neg hd] at h
        cases h
        refine ⟨lowers_refl _, ?_⟩
        have hco : a.position = b.position ∨ a.position = c.position ∨ b.position = c.position := by
          by_contra g
          push Not at g
          exact hd ⟨g.1, g.2.1, g.2.2⟩
        rintro j (rfl | rfl | rfl)
        · refine ⟨a, b, c, ha, hb, hc, fun q => absurd hz q, fun _ q => absurd ?_ q⟩
          rcases hco with g | g | g
          exacts [Or.inl g, Or.inr (Or.inr g.symm), Or.inr (Or.inl g)]
        · refine ⟨b, c, a, hb, hc, ha, fun q => absurd (r1.symm.trans hz) q, fun _ q => absurd ?_ q⟩
          rcases hco with g | g | g
          exacts [Or.inr (Or.inr g), Or.inr (Or.inl g.symm), Or.inl g]
        · refine ⟨c, a, b, hc, ha, hb, fun q => absurd (r2.symm.trans (r1.symm.trans hz)) q, fun _ q => absurd ?_ q⟩
          rcases hco with g | g | g
          exacts [Or.inr (Or.inl g), Or.inl g.symm, Or.inr (Or.inr g)]
    · rw [if_neg (by intro q; apply hz; linarith)] at h
      obtain ⟨t1, h1, h'⟩ := Option.bind_eq_some_iff.1 h
      obtain ⟨t2, h2, h3⟩ := Option.bind_eq_some_iff.1 h'
      obtain ⟨l1, m1⟩ := saveMarginOf_spec h1
      obtain ⟨l2, m2⟩ := saveMarginOf_spec h2
      obtain ⟨l3, m3⟩ := saveMarginOf_spec h3
      refine ⟨lowers_trans l1 (lowers_trans l2 l3), ?_⟩
      rintro j (rfl | rfl | rfl)
      · exact ⟨a, b, c, ha, hb, hc, fun _ => atMost_lowers (lowers_trans l2 l3) m1, fun q => absurd q hz⟩
      · exact ⟨b, c, a, hb, hc, ha, fun _ => atMost_lowers l3 m2, fun q => absurd (r1.trans q) hz⟩
      · exact ⟨c, a, b, hc, ha, hb, fun _ => m3, fun q => absurd (r1.trans (r2.trans q)) hz⟩

theorem forEach_margins {mesh : Mesh} {is : List (ℕ × ℕ × ℕ)} {t t' : Tracked} (h : forEachTriangle t.min (addMargins mesh) is t = some t') :
    ∃ n, (∀ i, is[n]? = some i → Below t.min i) ∧ Lowers t t' ∧ ∀ i ∈ is.take n, ∀ j, Corners i j → Bounds mesh t' j := by
  generalize hm : t.min = m at h
  induction is generalizing t with
  | nil => rw [forEachTriangle] at h; cases h; exact ⟨0, by simp, lowers_refl _, by simp⟩
  | cons i is ih =>
    rw [forEachTriangle] at h
    by_cases hb : i.1 < m ∧ i.2.1 < m ∧ i.2.2 < m
    · rw [if_pos hb] at h
      cases h
      refine ⟨0, ?_, lowers_refl _, by simp⟩
      intro k hk
      simp only [List.getElem?_cons_zero, Option.some.injEq] at hk
      exact hk ▸ hb
    · rw [if_neg hb] at h
      cases e : addMargins mesh i t with
      | none => rw [e] at h; simp at h
      | some t1 =>
        rw [e] at h
        obtain ⟨l1, b1⟩ := addMargins_spec e
        obtain ⟨n, h1, h2, h3⟩ := ih (l1.1.trans hm) h
        refine ⟨n + 1, by simpa using h1, lowers_trans l1 h2, ?_⟩
        intro k hk j hj
        rw [List.take_succ_cons, List.mem_cons] at hk
        rcases hk with rfl | hk
        · exact bounds_lowers h2 (b1 j hj)
        · exact h3 k hk j hj

/-- Up to the upper bound, a vertex stays within its region. -/
theorem boundOf_region {v : Vertex} {b c : Pt ℝ} (h : sideOf v.position b c ≠ 0) {t : ℝ} (h0 : 0 ≤ t) (ht : t ≤ boundOf v b c) :
    InRegion v.position b c (moved v t) := by
  have hca : c ≠ v.position := by rintro rfl; apply h; unfold sideOf; ring
  have hab : v.position ≠ b := by intro g; apply h; rw [← g]; unfold sideOf; ring
  obtain ⟨f, f1, f2⟩ := boundingSegment_foot (p := b) hca
  obtain ⟨g, g1, g2⟩ := boundingSegment_foot (p := c) hab
  refine ⟨f, g, f1, g1, ?_⟩
  unfold boundOf at ht
  rw [f2, g2] at ht
  have he : moved v t = ⟨v.position.x + t * (Pt.smul (outsetSign v.sideLabel) v.sideDerivative).x,
      v.position.y + t * (Pt.smul (outsetSign v.sideLabel) v.sideDerivative).y⟩ := by
    unfold moved Pt.smul
    rw [outsetSign_eq]
    dsimp only
    rcases three v.sideLabel with ⟨p, q, r⟩ | ⟨p, q, r⟩ | ⟨p, q, r⟩ <;> simp [p, q]
  rw [he]
  by_cases hs : outsetSign v.sideLabel = 0
  · rw [if_pos hs] at ht
    have : t = 0 := le_antisymm ht h0
    subst this
    unfold SameSide
    simp only [zero_mul, add_zero]
    exact ⟨mul_self_nonneg _, mul_self_nonneg _⟩
  · rw [if_neg hs] at ht
    exact ⟨marginUpperBound_side h0 (ht.trans (min_le_left _ _)), marginUpperBound_side h0 (ht.trans (min_le_right _ _))⟩

theorem boundOf_nonneg (v : Vertex) (b c : Pt ℝ) : 0 ≤ boundOf v b c := by
  unfold boundOf
  split_ifs
  · exact le_rfl
  · exact le_min (marginUpperBound_nonneg _ _) (marginUpperBound_nonneg _ _)

end Verif.Derivative
