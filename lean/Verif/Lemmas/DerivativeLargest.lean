import Verif.Lemmas.DerivativeTotal

/-!
# Lemmas on lower bounds of margins
-/

set_option autoImplicit false

namespace Verif.Derivative

open Geo Spec

open Verif.Vertex (Category)

/-- The margin of the vertex `i` is at least `b`. -/
def AtLeast (t : Tracked) (i : ℕ) (b : ℝ) : Prop := t.min ≤ i → ∀ m, t.margins[i - t.min]? = some m → b ≤ m

theorem saveMargin_atLeast {t t' : Tracked} {i x : ℕ} {b s : ℝ} (h : saveMargin t i b = some t') (hs : i = x → s ≤ b) (g : AtLeast t x s) :
    AtLeast t' x s := by
  unfold saveMargin at h
  by_cases hi : i < t.min
  · rw [if_pos hi] at h
    cases h
    exact g
  · rw [if_neg hi] at h
    cases e : changeAt t.margins (i - t.min) (fun m => Min.min m b) with
    | none => rw [e] at h; simp at h
    | some ms =>
      rw [e] at h
      cases h
      intro hx m hm
      have hm' : ms[x - t.min]? = some m := hm
      rw [(changeAt_get e _).2] at hm'
      split_ifs at hm' with q
      · rw [Option.map_eq_some_iff] at hm'
        obtain ⟨m', h1, rfl⟩ := hm'
        have hx' : t.min ≤ x := hx
        exact le_min (g hx m' h1) (hs (by omega))
      · exact g hx m hm'

/-- A triangle lets its first corner have the margin `s`. -/
def Allows (mesh : Mesh) (j : ℕ × ℕ × ℕ) (s : ℝ) : Prop :=
  ∀ a b c, mesh.vertices[j.1]? = some a → mesh.vertices[j.2.1]? = some b → mesh.vertices[j.2.2]? = some c →
    (sideOf a.position b.position c.position ≠ 0 → s ≤ boundOf a b.position c.position) ∧
    (sideOf a.position b.position c.position = 0 → Coincide a b c)

theorem saveMarginOf_atLeast {t t' : Tracked} {i x : ℕ} {v : Vertex} {b c : Pt ℝ} {s : ℝ}
    (h : saveMarginOf v i (boundingSegment b ⟨c, v.position⟩) (boundingSegment c ⟨v.position, b⟩) t = some t')
    (hs : i = x → s ≤ boundOf v b c) (g : AtLeast t x s) : AtLeast t' x s := by
  unfold saveMarginOf at h
  unfold boundOf at hs
  dsimp only at h
  by_cases hz : outsetSign v.sideLabel = 0
  · rw [if_pos hz] at h hs
    exact saveMargin_atLeast h hs g
  · rw [if_neg hz] at h hs
    exact saveMargin_atLeast h hs g

theorem addMargins_atLeast {mesh : Mesh} {i : ℕ × ℕ × ℕ} {t t' : Tracked} {x : ℕ} {s : ℝ} (h : addMargins mesh i t = some t')
    (hs : ∀ j, Corners i j → j.1 = x → Allows mesh j s) (g : AtLeast t x s) : AtLeast t' x s := by
  unfold addMargins at h
  cases e : corners mesh i with
  | none => rw [e] at h; simp at h
  | some v =>
    obtain ⟨a, b, c⟩ := v
    obtain ⟨ha, hb, hc⟩ := corners_some e
    rw [e] at h
    dsimp only at h
    rw [signedArea_eq] at h
    have r1 := sideOf_rotate a.position b.position c.position
    have r2 := sideOf_rotate b.position c.position a.position
    have k0 := hs i (Or.inl rfl)
    have k1 := hs (i.2.1, i.2.2, i.1) (Or.inr (Or.inl rfl))
    have k2 := hs (i.2.2, i.1, i.2.1) (Or.inr (Or.inr rfl))
    by_cases hz : sideOf a.position b.position c.position = 0
    · rw [if_pos (by rw [hz]; norm_num)] at h
      by_cases hd : a.position ≠ b.position ∧ a.position ≠ c.position ∧ b.position ≠ c.position
      · rw [if_pos hd] at h
        obtain ⟨t1, h1, h'⟩ := Option.bind_eq_some_iff.1 h
        obtain ⟨t2, h2, h3⟩ := Option.bind_eq_some_iff.1 h'
        have f0 : i.1 = x → s ≤ 0 := fun q => by
          rcases (k0 q a b c ha hb hc).2 hz with p | p | p
          exacts [absurd p hd.1, absurd p hd.2.2, absurd p.symm hd.2.1]
        have f1 : i.2.1 = x → s ≤ 0 := fun q => by
          rcases (k1 q b c a hb hc ha).2 (r1.symm.trans hz) with p | p | p
          exacts [absurd p hd.2.2, absurd p.symm hd.2.1, absurd p hd.1]
        have f2 : i.2.2 = x → s ≤ 0 := fun q => by
          rcases (k2 q c a b hc ha hb).2 (r2.symm.trans (r1.symm.trans hz)) with p | p | p
          exacts [absurd p.symm hd.2.1, absurd p hd.1, absurd p hd.2.2]
        exact saveMargin_atLeast h3 f2 (saveMargin_atLeast h2 f1 (saveMargin_atLeast h1 f0 g))
      · rw [if_neg hd] at h
        cases h
        exact g
    · rw [if_neg (by intro q; apply hz; linarith)] at h
      obtain ⟨t1, h1, h'⟩ := Option.bind_eq_some_iff.1 h
      obtain ⟨t2, h2, h3⟩ := Option.bind_eq_some_iff.1 h'
      exact saveMarginOf_atLeast h3 (fun q => (k2 q c a b hc ha hb).1 (fun p => hz (r1.trans (r2.trans p))))
        (saveMarginOf_atLeast h2 (fun q => (k1 q b c a hb hc ha).1 (fun p => hz (r1.trans p)))
          (saveMarginOf_atLeast h1 (fun q => (k0 q a b c ha hb hc).1 hz) g))

theorem forEach_atLeast {mesh : Mesh} {m : ℕ} {is : List (ℕ × ℕ × ℕ)} {t t' : Tracked} {x : ℕ} {s : ℝ}
    (h : forEachTriangle m (addMargins mesh) is t = some t') (hs : ∀ i ∈ is, ∀ j, Corners i j → j.1 = x → Allows mesh j s) (g : AtLeast t x s) :
    AtLeast t' x s := by
  induction is generalizing t with
  | nil => rw [forEachTriangle] at h; cases h; exact g
  | cons i is ih =>
    rw [forEachTriangle] at h
    split_ifs at h
    · cases h; exact g
    · cases e : addMargins mesh i t with
      | none => rw [e] at h; simp at h
      | some t1 =>
        rw [e] at h
        exact ih h (fun k hk => hs k (by simp [hk])) (addMargins_atLeast e (hs i (by simp)) g)

theorem marginOf_atLeast {t : Tracked} {acc a s : ℝ} {is : List ℕ} (h : marginOf t acc is = some a) (hacc : s ≤ acc)
    (hs : ∀ i ∈ is, AtLeast t i s) : s ≤ a := by
  induction is generalizing acc with
  | nil => rw [marginOf] at h; cases h; exact hacc
  | cons i is ih =>
    rw [marginOf] at h
    split_ifs at h with hi
    cases e : t.margins[i - t.min]? with
    | none => rw [e] at h; simp at h
    | some b =>
      rw [e] at h
      exact ih h (le_min hacc (hs i (by simp) (not_lt.1 hi) b e)) (fun k hk => hs k (by simp [hk]))

theorem updateMargins_atLeast {t : Tracked} {n j : ℕ} {is : List ℕ} {mesh mesh' : Mesh} {v : Vertex} {s : ℝ} (hn : is.length ≤ n)
    (h : updateMargins t n is mesh = some mesh') (hj : j ∈ is) (hv : mesh.vertices[j]? = some v) (h4 : s ≤ 4)
    (hs : ∀ k ∈ is, ∀ w, mesh.vertices[k]? = some w → w.position = v.position → AtLeast t k s) :
    ∃ a, s ≤ a ∧ mesh'.vertices[j]? = some { v with sideLabel := withMargin v.sideLabel a } := by
  induction n generalizing is mesh v with
  | zero =>
    cases is with
    | nil => simp at hj
    | cons i is => simp at hn
  | succ n ih =>
    cases is with
    | nil => simp at hj
    | cons i is =>
      obtain ⟨first, m, a, mesh1, h1, h2, h3, -, h5, h6, h7⟩ := updateMargins_step h
      obtain ⟨g1, g2⟩ := setMargins_spec h6
      have hl : (is.drop m).length ≤ n := by rw [List.length_drop]; simp at hn; omega
      obtain ⟨f1, f2⟩ := updateMargins_spec hl h7
      have hs' : i :: is = (i :: is.take m) ++ is.drop m := by simp
      by_cases hd : j ∈ is.drop m
      · have back : ∀ (k : ℕ) (w : Vertex), mesh1.vertices[k]? = some w → ∃ w', mesh.vertices[k]? = some w' ∧ w.position = w'.position := by
          intro k w hw
          rw [g2 k] at hw
          split_ifs at hw
          · rw [Option.map_eq_some_iff] at hw
            obtain ⟨w', q1, rfl⟩ := hw
            exact ⟨w', q1, rfl⟩
          · exact ⟨w, hw, rfl⟩
        have hv1 : ∃ x, mesh1.vertices[j]? = some { v with sideLabel := x } ∧ SameSign x v.sideLabel := by
          rw [g2 j, hv]
          split_ifs
          · exact ⟨_, rfl, withMargin_same _ a⟩
          · exact ⟨v.sideLabel, rfl, sameSign_refl _⟩
        obtain ⟨x, hx1, hx2⟩ := hv1
        obtain ⟨a', p1, p2⟩ := ih hl h7 hd hx1 (fun k hk w hw hp => by
          obtain ⟨w', q1, q2⟩ := back k w hw
          exact hs k (by rw [hs']; exact List.mem_append_right _ hk) w' q1 (q2.symm.trans hp))
        refine ⟨a', p1, ?_⟩
        rw [p2]
        dsimp only
        rw [withMargin_congr hx2]
      · have hj' : j ∈ i :: is.take m := by
          rw [hs', List.mem_append] at hj
          exact hj.resolve_right hd
        have hrun : ∀ k ∈ i :: is.take m, ∃ w, mesh.vertices[k]? = some w ∧ w.position = first.position := by
          intro k hk
          rw [List.mem_cons] at hk
          rcases hk with rfl | hk
          · exact ⟨first, h1, rfl⟩
          · exact h3 k hk
        obtain ⟨v', e1, e2⟩ := hrun j hj'
        rw [hv] at e1
        cases e1
        refine ⟨a, marginOf_atLeast h5 h4 ?_, ?_⟩
        · intro k hk
          obtain ⟨w, d1, d2⟩ := hrun k hk
          exact hs k (by rw [hs']; exact List.mem_append_left _ hk) w d1 (d2.trans e2.symm)
        · rw [(f2 j).1 hd, g2 j, if_pos hj', hv]
          rfl

theorem foot_unique {p a b f g : Pt ℝ} (h : a ≠ b) (hf : Foot p a b f) (hg : Foot p a b g) : f = g := by
  obtain ⟨k, r, h1, rfl, rfl⟩ := hf
  obtain ⟨l, q, g1, rfl, rfl⟩ := hg
  have hm : (b.x - a.x) * (b.x - a.x) + (b.y - a.y) * (b.y - a.y) ≠ 0 := by
    intro hc
    apply h
    have h1 : (b.x - a.x) * (b.x - a.x) = 0 := by nlinarith [mul_self_nonneg (b.x - a.x), mul_self_nonneg (b.y - a.y)]
    have h2 : (b.y - a.y) * (b.y - a.y) = 0 := by nlinarith [mul_self_nonneg (b.x - a.x), mul_self_nonneg (b.y - a.y)]
    have h3 := mul_self_eq_zero.1 h1
    have h4 := mul_self_eq_zero.1 h2
    cases a; cases b
    simp only [Pt.mk.injEq] at *
    constructor <;> linarith
  have : k = l := by
    have : (k - l) * ((b.x - a.x) * (b.x - a.x) + (b.y - a.y) * (b.y - a.y)) = 0 := by linarith
    have := (mul_eq_zero.1 this).resolve_right hm
    linarith
  rw [this]

theorem foot_ratio {p a b f : Pt ℝ} (h : Foot p a b f) : ∃ r : ℝ, 1 / 10 ≤ r ∧ r ≤ 9 / 10 ∧ f = ⟨a.x + r * (b.x - a.x), a.y + r * (b.y - a.y)⟩ := by
  obtain ⟨k, r, -, h2, h3⟩ := h
  refine ⟨r, ?_, ?_, h3⟩
  · rw [h2]; exact le_max_left _ _
  · rw [h2]; exact max_le (by norm_num) (min_le_left _ _)

theorem side_marginUpperBound {p u b f : Pt ℝ} {t : ℝ} (h4 : t ≤ 4) (hp : sideOf b f p ≠ 0)
    (h : SameSide b f p ⟨p.x + t * u.x, p.y + t * u.y⟩) : t ≤ marginUpperBound ⟨p, p.add u⟩ ⟨b, f⟩ := by
  unfold marginUpperBound uniqueLineIntersectionRatio maximumMargin
  dsimp only
  unfold SameSide at h
  unfold sideOf at h hp
  dsimp only at h
  have hD : (Segment.vector (⟨p, p.add u⟩ : Segment ℝ)).det (Segment.vector ⟨b, f⟩) = u.x * (f.y - b.y) - u.y * (f.x - b.x) := by
    unfold Segment.vector Pt.det Pt.sub Pt.add
    ring
  have hw : (b.sub p).det (Segment.vector ⟨b, f⟩) = (b.x - p.x) * (f.y - b.y) - (b.y - p.y) * (f.x - b.x) := rfl
  rw [hD, hw]
  generalize hd : u.x * (f.y - b.y) - u.y * (f.x - b.x) = D
  generalize hn : (b.x - p.x) * (f.y - b.y) - (b.y - p.y) * (f.x - b.x) = N
  have e0 : (f.x - b.x) * (p.y - b.y) - (f.y - b.y) * (p.x - b.x) = N := by rw [← hn]; ring
  have e1 : (f.x - b.x) * (p.y + t * u.y - b.y) - (f.y - b.y) * (p.x + t * u.x - b.x) = N - t * D := by rw [← hn, ← hd]; ring
  rw [e0] at hp
  rw [e0, e1] at h
  by_cases hz : D = 0
  · rw [if_pos hz]; exact h4
  · rw [if_neg hz]
    dsimp only
    obtain ⟨r, rfl⟩ : ∃ r, N = r * D := ⟨N / D, by field_simp⟩
    rw [mul_div_cancel_right₀ _ hz]
    split_ifs with hr
    · have hr0 : r ≠ 0 := fun q => hp (by rw [q]; ring)
      have hr' : 0 < r := lt_of_le_of_ne hr hr0.symm
      have hDD : 0 < D * D := lt_of_le_of_ne (mul_self_nonneg D) (fun q => hz (mul_self_eq_zero.1 q.symm))
      have e : r * D * (r * D - t * D) = (r * (D * D)) * (r - t) := by ring
      rw [e] at h
      have := nonneg_of_mul_nonneg_right h (mul_pos hr' hDD)
      linarith
    · exact h4

theorem region_bound {v : Vertex} {b c : Pt ℝ} (h : sideOf v.position b c ≠ 0) (hl : v.sideLabel ≠ 0) {t : ℝ} (h4 : t ≤ 4)
    (hr : InRegion v.position b c (moved v t)) : t ≤ boundOf v b c := by
  have hca : c ≠ v.position := by rintro rfl; apply h; unfold sideOf; ring
  have hab : v.position ≠ b := by intro g; apply h; rw [← g]; unfold sideOf; ring
  obtain ⟨f, f1, f2⟩ := boundingSegment_foot (p := b) hca
  obtain ⟨g, g1, g2⟩ := boundingSegment_foot (p := c) hab
  obtain ⟨f', g', q1, q2, q3, q4⟩ := hr
  rw [foot_unique hca q1 f1] at q3
  rw [foot_unique hab q2 g1] at q4
  have he : moved v t = ⟨v.position.x + t * (Pt.smul (outsetSign v.sideLabel) v.sideDerivative).x,
      v.position.y + t * (Pt.smul (outsetSign v.sideLabel) v.sideDerivative).y⟩ := by
    unfold moved Pt.smul
    rw [outsetSign_eq]
    dsimp only
    rcases three v.sideLabel with ⟨p, q, r⟩ | ⟨p, q, r⟩ | ⟨p, q, r⟩ <;> simp [p, q]
  rw [he] at q3 q4
  have hs : outsetSign v.sideLabel ≠ 0 := by
    rw [outsetSign_eq]
    rcases three v.sideLabel with ⟨p, q, r⟩ | ⟨p, q, r⟩ | ⟨p, q, r⟩
    · simp [p]
    · exact absurd q hl
    · simp [p, q]
  obtain ⟨r, ra, rb, rf⟩ := foot_ratio f1
  obtain ⟨r', ra', rb', rf'⟩ := foot_ratio g1
  have z1 : sideOf b f v.position ≠ 0 := by
    have e : sideOf b f v.position = (1 - r) * sideOf v.position b c := by rw [rf]; unfold sideOf; ring
    rw [e]
    exact mul_ne_zero (by linarith) h
  have z2 : sideOf c g v.position ≠ 0 := by
    have e : sideOf c g v.position = -r' * sideOf v.position b c := by rw [rf']; unfold sideOf; ring
    rw [e]
    exact mul_ne_zero (by linarith) h
  unfold boundOf
  rw [if_neg hs, f2, g2]
  exact le_min (side_marginUpperBound h4 z1 q3) (side_marginUpperBound h4 z2 q4)

/-- A vertex within its region is at least a nineteenth as far from the opposite edge as the corner. -/
theorem region_area {a b c x : Pt ℝ} (h : sideOf b c a ≠ 0) (hr : InRegion a b c x) : 1 / 19 ≤ sideOf b c x / sideOf b c a := by
  obtain ⟨f, g, f1, g1, h1, h2⟩ := hr
  obtain ⟨r, ra, rb, rf⟩ := foot_ratio f1
  obtain ⟨s, sa, sb, sf⟩ := foot_ratio g1
  generalize hS : sideOf b c a = S at h
  have e1 : sideOf b f a = (1 - r) * S := by rw [rf, ← hS]; unfold sideOf; ring
  have e2 : sideOf c g a = -s * S := by rw [sf, ← hS]; unfold sideOf; ring
  have e3 : sideOf b f x = (1 - r) * sideOf b c x - r * sideOf a b x := by rw [rf]; unfold sideOf; ring
  have e4 : sideOf c g x = (1 - s) * sideOf c a x - s * sideOf b c x := by rw [sf]; unfold sideOf; ring
  have e5 : sideOf a b x = S - sideOf b c x - sideOf c a x := by rw [← hS]; unfold sideOf; ring
  unfold SameSide at h1 h2
  rw [e1, e3, e5] at h1
  rw [e2, e4] at h2
  obtain ⟨α, hα⟩ : ∃ α, sideOf b c x = α * S := ⟨sideOf b c x / S, by field_simp⟩
  obtain ⟨β, hβ⟩ : ∃ β, sideOf c a x = β * S := ⟨sideOf c a x / S, by field_simp⟩
  rw [hα, hβ] at h1 h2
  rw [hα, mul_div_cancel_right₀ _ h]
  have hSS : 0 < S * S := lt_of_le_of_ne (mul_self_nonneg S) (fun q => h (mul_self_eq_zero.1 q.symm))
  have k1 : 0 ≤ (1 - r) * ((1 - r) * α - r * (1 - α - β)) := by
    by_contra hc
    push Not at hc
    have e : (1 - r) * S * ((1 - r) * (α * S) - r * (S - α * S - β * S)) = ((1 - r) * ((1 - r) * α - r * (1 - α - β))) * (S * S) := by ring
    rw [e] at h1
    nlinarith
  have k2 : 0 ≤ -s * ((1 - s) * β - s * α) := by
    by_contra hc
    push Not at hc
    have e : -s * S * ((1 - s) * (β * S) - s * (α * S)) = (-s * ((1 - s) * β - s * α)) * (S * S) := by ring
    rw [e] at h2
    nlinarith
  have k1' : 0 ≤ (1 - r) * α - r * (1 - α - β) := by
    by_contra hc
    push Not at hc
    nlinarith
  have k2' : (1 - s) * β ≤ s * α := by
    by_contra hc
    push Not at hc
    nlinarith
  by_contra hc
  push Not at hc
  have hβ : β < 9 / 19 := by
    by_contra q
    push Not at q
    rcases le_total 0 α with hα0 | hα0 <;> nlinarith
  have hγ : 1 - α - β ≤ 9 / 19 := by
    by_contra q
    push Not at q
    rcases le_total 0 α with hα0 | hα0 <;> nlinarith
  linarith

end Verif.Derivative
