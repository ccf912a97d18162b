import Verif.Spec.MeshIntersects
import Verif.Props.AffineTransform

/-!
# Lemmas for C52
-/

set_option autoImplicit false
set_option linter.unusedSectionVars false

namespace Verif.Geo

open Spec

variable {K : Type} [Field K] [LinearOrder K] [IsStrictOrderedRing K]

/-! ## Bounding boxes -/

theorem conv3 {lo x y z a b c : K} (hx : lo ≤ x) (hy : lo ≤ y) (hz : lo ≤ z) (a0 : 0 ≤ a) (b0 : 0 ≤ b) (c0 : 0 ≤ c)
    (h : a + b + c = 1) : lo ≤ a * x + b * y + c * z := by
  have h1 := mul_nonneg a0 (sub_nonneg.2 hx)
  have h2 := mul_nonneg b0 (sub_nonneg.2 hy)
  have h3 := mul_nonneg c0 (sub_nonneg.2 hz)
  have e : lo = (a + b + c) * lo := by rw [h, one_mul]
  rw [e]
  linarith

theorem conv3' {hi x y z a b c : K} (hx : x ≤ hi) (hy : y ≤ hi) (hz : z ≤ hi) (a0 : 0 ≤ a) (b0 : 0 ≤ b) (c0 : 0 ≤ c)
    (h : a + b + c = 1) : a * x + b * y + c * z ≤ hi := by
  have := conv3 (neg_le_neg hx) (neg_le_neg hy) (neg_le_neg hz) a0 b0 c0 h
  linarith

theorem conv2 {lo x y k : K} (hx : lo ≤ x) (hy : lo ≤ y) (k0 : 0 ≤ k) (k1 : k ≤ 1) : lo ≤ x + k * (y - x) := by
  have h1 := mul_nonneg k0 (sub_nonneg.2 hy)
  have h2 := mul_nonneg (sub_nonneg.2 k1) (sub_nonneg.2 hx)
  linarith

theorem conv2' {hi x y k : K} (hx : x ≤ hi) (hy : y ≤ hi) (k0 : 0 ≤ k) (k1 : k ≤ 1) : x + k * (y - x) ≤ hi := by
  have := conv2 (neg_le_neg hx) (neg_le_neg hy) k0 k1
  linarith

theorem convPar {lo c u v α β : K} (h0 : lo ≤ c - u - v) (h1 : lo ≤ c + u - v) (h2 : lo ≤ c + u + v)
    (h3 : lo ≤ c - u + v) (a0 : -1 ≤ α) (a1 : α ≤ 1) (b0 : -1 ≤ β) (b1 : β ≤ 1) : lo ≤ c + α * u + β * v := by
  have f1 : lo ≤ c + α * u - v := by
    have := conv2 h0 h1 (by linarith : 0 ≤ (1 + α) / 2) (by linarith)
    have e : c + α * u - v = c - u - v + (1 + α) / 2 * (c + u - v - (c - u - v)) := by ring
    rw [e]; exact this
  have f2 : lo ≤ c + α * u + v := by
    have := conv2 h3 h2 (by linarith : 0 ≤ (1 + α) / 2) (by linarith)
    have e : c + α * u + v = c - u + v + (1 + α) / 2 * (c + u + v - (c - u + v)) := by ring
    rw [e]; exact this
  have := conv2 f1 f2 (by linarith : 0 ≤ (1 + β) / 2) (by linarith)
  have e : c + α * u + β * v = c + α * u - v + (1 + β) / 2 * (c + α * u + v - (c + α * u - v)) := by ring
  rw [e]; exact this

theorem convPar' {hi c u v α β : K} (h0 : c - u - v ≤ hi) (h1 : c + u - v ≤ hi) (h2 : c + u + v ≤ hi)
    (h3 : c - u + v ≤ hi) (a0 : -1 ≤ α) (a1 : α ≤ 1) (b0 : -1 ≤ β) (b1 : β ≤ 1) : c + α * u + β * v ≤ hi := by
  have := convPar (lo := -hi) (c := -c) (u := -u) (v := -v) (by linarith) (by linarith) (by linarith) (by linarith)
    a0 a1 b0 b1
  linarith

/-- The bounding box contains the object. -/
theorem in_boxOf {p : Pt K} {s : Shape K} (h : In p s) : InRect p (boxOf s) := by
  cases s with
  | point q =>
    rw [In] at h
    subst h
    exact ⟨le_refl _, le_refl _, le_refl _, le_refl _⟩
  | segment s =>
    obtain ⟨k, k0, k1, hx, hy⟩ := h
    unfold boxOf Rect.fromTwoPoints InRect
    dsimp only
    rw [hx, hy]
    exact ⟨conv2 (min_le_left _ _) (min_le_right _ _) k0 k1, conv2' (le_max_left _ _) (le_max_right _ _) k0 k1,
      conv2 (min_le_left _ _) (min_le_right _ _) k0 k1, conv2' (le_max_left _ _) (le_max_right _ _) k0 k1⟩
  | triangle t =>
    obtain ⟨a, b, c, a0, b0, c0, h1, hx, hy⟩ := h
    unfold boxOf Rect.fromTwoPoints Rect.joinPoint InRect
    dsimp only
    rw [hx, hy]
    refine ⟨conv3 ?_ ?_ ?_ a0 b0 c0 h1, conv3' ?_ ?_ ?_ a0 b0 c0 h1, conv3 ?_ ?_ ?_ a0 b0 c0 h1,
      conv3' ?_ ?_ ?_ a0 b0 c0 h1⟩ <;> simp
  | rect r => exact h
  | quad q =>
    rw [In, inQuad_iff] at h
    obtain ⟨α, β, a0, a1, b0, b1, hx, hy⟩ := h
    unfold boxOf Rect.fromTwoPoints Rect.joinPoint InRect Quad.corners Pt.add Pt.sub
    dsimp only
    rw [hx, hy]
    refine ⟨convPar ?_ ?_ ?_ ?_ a0 a1 b0 b1, convPar' ?_ ?_ ?_ ?_ a0 a1 b0 b1, convPar ?_ ?_ ?_ ?_ a0 a1 b0 b1,
      convPar' ?_ ?_ ?_ ?_ a0 a1 b0 b1⟩ <;> simp

theorem boxes_meet {p : Pt K} {r s : Rect K} (hr : InRect p r) (hs : InRect p s) : intersectsRR r s = true := by
  obtain ⟨a1, a2, a3, a4⟩ := hr
  obtain ⟨b1, b2, b3, b4⟩ := hs
  unfold intersectsRR
  rw [if_neg, if_neg]
  · rintro (h | h) <;> linarith
  · rintro (h | h) <;> linarith

/-! ## Transformed objects -/

/-- The transforms for which `Apply` is right: those which can be inverted, and all if the object is neither a rectangle nor
a quad. -/
def Transforms (T : Affine K) : Shape K → Prop
  | .rect _ => T.inverse ≠ none
  | .quad _ => T.inverse ≠ none
  | _ => True

theorem in_applyShape {mag : Pt K → K} (hm : IsMagnitude mag) {T : Affine K} {q : Shape K} (hq : Proper q)
    (hT : Transforms T q) :
    Proper (T.applyShape mag q) ∧ ∀ p, In p (T.applyShape mag q) ↔ ∃ p', In p' q ∧ p = T.apply p' := by
  cases q with
  | point q => exact ⟨trivial, fun p => by simp [Affine.applyShape, In]⟩
  | segment s => exact ⟨trivial, fun p => (C26_apply_segment_triangle T s ⟨s.start, s.start, s.start⟩ p).1⟩
  | triangle t => exact ⟨trivial, fun p => (C26_apply_segment_triangle T ⟨t.p0, t.p0⟩ t p).2⟩
  | rect r =>
    obtain ⟨h1, h2⟩ := C26_apply_rect_partial hm T hT r hq
    exact ⟨h2, h1⟩
  | quad q =>
    obtain ⟨h1, h2⟩ := C26_apply_quad_partial hm T hT q hq
    exact ⟨h2, h1⟩

theorem transforms_of_invertible {T : Affine K} (h : T.inverse ≠ none) (q : Shape K) : Transforms T q := by
  cases q <;> trivial

theorem identity_invertible : (Affine.identity : Affine K).inverse ≠ none := by
  rw [Ne, (C26_inverse _).2.2]
  simp [Affine.identity]

theorem identity_apply (p : Pt K) : Affine.identity.apply p = p := (C26_monoid Affine.identity Affine.identity
  Affine.identity).2.2.2 p

theorem inverse_apply {T i : Affine K} (h : T.inverse = some i) (p : Pt K) : i.apply (T.apply p) = p ∧
    T.apply (i.apply p) = p := by
  obtain ⟨h1, h2⟩ := (C26_inverse T).1 i h
  rw [← C26_compose, ← C26_compose, h1, h2, identity_apply]
  exact ⟨rfl, rfl⟩

theorem inverse_invertible {T i : Affine K} (h : T.inverse = some i) : i.inverse ≠ none := by
  rw [(C26_inverse i).2.1]
  intro p q hpq
  rw [← (inverse_apply h p).2, ← (inverse_apply h q).2, hpq]

theorem mul_inverse_none {T i S : Affine K} (h : T.inverse = some i) : (i.mul S).inverse = none ↔ S.inverse = none := by
  have a := (C26_inverse i).2.2.not.1 (inverse_invertible h)
  rw [(C26_inverse (i.mul S)).2.2, (C26_inverse S).2.2]
  have e : (i.mul S).a * (i.mul S).e - (i.mul S).b * (i.mul S).d = (i.a * i.e - i.b * i.d) * (S.a * S.e - S.b * S.d) := by
    simp only [Affine.mul]
    ring
  rw [e, mul_eq_zero]
  exact ⟨fun h => h.resolve_left a, Or.inr⟩

/-! ## Visits -/

theorem mem_triangles {M : ShapeK K} {t : Triangle K} : t ∈ M.triangles ↔ IsTri M t := by
  unfold ShapeK.triangles IsTri
  simp [List.mem_flatMap]

theorem inMeshes_iff {M : ShapeK K} {p : Pt K} : InMeshes p M ↔ ∃ t, IsTri M t ∧ InTriangle p t := by
  constructor
  · rintro ⟨m, hm, t, ht, hp⟩
    exact ⟨t, ⟨m, hm, ht⟩, hp⟩
  · rintro ⟨t, ⟨m, hm, ht⟩, hp⟩
    exact ⟨m, hm, t, ht, hp⟩

theorem mem_visit {mag : Pt K → K} (hm : IsMagnitude mag) (M : ShapeK K) {T : Affine K} {q : Shape K} (hq : Proper q)
    (hT : Transforms T q) (t : Triangle K) :
    t ∈ M.visit mag q T ↔ IsTri M t ∧ ∃ p, In p q ∧ InTriangle (T.apply p) t := by
  obtain ⟨h1, h2⟩ := in_applyShape hm hq hT
  unfold ShapeK.visit
  dsimp only
  rw [List.mem_filter, mem_triangles, Bool.and_eq_true, C22_intersects_iff _ (.triangle t) h1 trivial]
  constructor
  · rintro ⟨ht, -, x, hx, hxt⟩
    obtain ⟨p, hp, rfl⟩ := (h2 x).1 hx
    exact ⟨ht, p, hp, hxt⟩
  · rintro ⟨ht, p, hp, hpt⟩
    have hx := (h2 (T.apply p)).2 ⟨p, hp, rfl⟩
    exact ⟨ht, boxes_meet (in_boxOf hx) (in_boxOf (s := .triangle t) hpt), _, hx, hpt⟩

theorem visit_nonempty {mag : Pt K → K} (hm : IsMagnitude mag) (M : ShapeK K) {T : Affine K} {q : Shape K}
    (hq : Proper q) (hT : Transforms T q) :
    (!(M.visit mag q T).isEmpty) = true ↔ ∃ p, In p q ∧ InMeshes (T.apply p) M := by
  rw [Bool.not_eq_true', List.isEmpty_eq_false_iff_exists_mem]
  constructor
  · rintro ⟨t, ht⟩
    obtain ⟨h, p, hp, hpt⟩ := (mem_visit hm M hq hT t).1 ht
    exact ⟨p, hp, inMeshes_iff.2 ⟨t, h, hpt⟩⟩
  · rintro ⟨p, hp, hpM⟩
    obtain ⟨t, h, hpt⟩ := inMeshes_iff.1 hpM
    exact ⟨t, (mem_visit hm M hq hT t).2 ⟨h, p, hp, hpt⟩⟩

/-! ## Bounds -/

theorem joinPoint_in {r : Rect K} {p q : Pt K} (h : InRect q r ∨ q = p) : InRect q (r.joinPoint p) := by
  unfold InRect Rect.joinPoint
  dsimp only
  rcases h with ⟨h1, h2, h3, h4⟩ | rfl
  · exact ⟨min_le_of_left_le h1, le_max_of_le_left h2, min_le_of_left_le h3, le_max_of_le_left h4⟩
  · exact ⟨min_le_right _ _, le_max_right _ _, min_le_right _ _, le_max_right _ _⟩

/-- The rectangle is the smallest one which contains the points, given by its sides. -/
structure Hugs (l : List (Pt K)) (r : Rect K) : Prop where
  contains : ∀ v ∈ l, InRect v r
  left : ∃ v ∈ l, v.x = r.xMin
  right : ∃ v ∈ l, v.x = r.xMax
  bottom : ∃ v ∈ l, v.y = r.yMin
  top : ∃ v ∈ l, v.y = r.yMax

theorem hugs_snoc {l : List (Pt K)} {r : Rect K} (h : Hugs l r) (p : Pt K) : Hugs (l ++ [p]) (r.joinPoint p) := by
  have pick : ∀ (f : Pt K → K) (a : K), (∃ v ∈ l, f v = a) →
      (∃ v ∈ l ++ [p], f v = min a (f p)) ∧ ∃ v ∈ l ++ [p], f v = max a (f p) := by
    rintro f a ⟨v, hv, rfl⟩
    constructor
    · rcases min_choice (f v) (f p) with e | e
      · exact ⟨v, List.mem_append_left _ hv, e.symm⟩
      · exact ⟨p, by simp, e.symm⟩
    · rcases max_choice (f v) (f p) with e | e
      · exact ⟨v, List.mem_append_left _ hv, e.symm⟩
      · exact ⟨p, by simp, e.symm⟩
  refine ⟨fun v hv => ?_, (pick Pt.x _ h.left).1, (pick Pt.x _ h.right).2, (pick Pt.y _ h.bottom).1,
    (pick Pt.y _ h.top).2⟩
  rw [List.mem_append, List.mem_singleton] at hv
  exact joinPoint_in (hv.imp (h.contains v) id)

theorem bounds_fold (l : List (Pt K)) : (l = [] ∧ l.foldl ShapeK.addPoint none = none) ∨
    ∃ r, l.foldl ShapeK.addPoint none = some r ∧ Hugs l r := by
  induction l using List.reverseRecOn with
  | nil => exact Or.inl ⟨rfl, rfl⟩
  | append_singleton l p ih =>
    right
    rw [List.foldl_append]
    rcases ih with ⟨rfl, h⟩ | ⟨r, h, hr⟩
    · rw [h]
      refine ⟨⟨p.x, p.y, p.x, p.y⟩, rfl, ?_⟩
      refine ⟨fun v hv => ?_, ⟨p, by simp, rfl⟩, ⟨p, by simp, rfl⟩, ⟨p, by simp, rfl⟩, ⟨p, by simp, rfl⟩⟩
      rw [List.nil_append, List.mem_singleton] at hv
      subst hv
      exact ⟨le_refl _, le_refl _, le_refl _, le_refl _⟩
    · rw [h]
      exact ⟨_, rfl, hugs_snoc hr p⟩

theorem hugs_box {M : ShapeK K} {r : Rect K} (h : Hugs (M.flatMap MeshK.vertices) r) : BoundingBox M r := by
  have e : ∀ v, v ∈ M.flatMap MeshK.vertices ↔ ∃ m ∈ M, v ∈ m.vertices := fun v => by simp [List.mem_flatMap]
  refine ⟨fun m hm v hv => h.contains v ((e v).2 ⟨m, hm, hv⟩), fun s hs p hp => ?_⟩
  have i : ∀ v ∈ M.flatMap MeshK.vertices, InRect v s := fun v hv => by
    obtain ⟨m, hm, hv⟩ := (e v).1 hv
    exact hs m hm v hv
  obtain ⟨v1, m1, e1⟩ := h.left
  obtain ⟨v2, m2, e2⟩ := h.right
  obtain ⟨v3, m3, e3⟩ := h.bottom
  obtain ⟨v4, m4, e4⟩ := h.top
  obtain ⟨p1, p2, p3, p4⟩ := hp
  have j1 := (i v1 m1).1
  have j2 := (i v2 m2).2.1
  have j3 := (i v3 m3).2.2.1
  have j4 := (i v4 m4).2.2.2
  exact ⟨by linarith, by linarith, by linarith, by linarith⟩

theorem bounds_some {M : ShapeK K} (hM : M ≠ []) (hb : Built M) : ∃ r, M.bounds = some r ∧ BoundingBox M r ∧
    Proper (.rect r) := by
  rcases bounds_fold (M.flatMap MeshK.vertices) with ⟨h, -⟩ | ⟨r, h, hr⟩
  · exfalso
    cases M with
    | nil => exact hM rfl
    | cons m M =>
      obtain ⟨h1, h2⟩ := hb m (by simp)
      obtain ⟨t, ht⟩ := List.exists_mem_of_ne_nil _ h1
      have := (h2 t ht).1
      rw [List.flatMap_cons, List.append_eq_nil_iff] at h
      rw [h.1] at this
      cases this
  · refine ⟨r, h, hugs_box hr, ?_⟩
    obtain ⟨v1, m1, e1⟩ := hr.left
    obtain ⟨v3, m3, e3⟩ := hr.bottom
    exact ⟨e1 ▸ (hr.contains v1 m1).2.1, e3 ▸ (hr.contains v3 m3).2.2.2⟩

/-- The points of the shape are in the bounding box. -/
theorem in_box {M : ShapeK K} (hb : Built M) {r : Rect K} (hr : BoundingBox M r) {p : Pt K} (hp : InMeshes p M) :
    InRect p r := by
  obtain ⟨m, hm, t, ht, a, b, c, a0, b0, c0, h1, hx, hy⟩ := hp
  obtain ⟨v0, v1, v2⟩ := (hb m hm).2 t ht
  have i0 := hr.1 m hm _ v0
  have i1 := hr.1 m hm _ v1
  have i2 := hr.1 m hm _ v2
  unfold InRect
  rw [hx, hy]
  exact ⟨conv3 i0.1 i1.1 i2.1 a0 b0 c0 h1, conv3' i0.2.1 i1.2.1 i2.2.1 a0 b0 c0 h1,
    conv3 i0.2.2.1 i1.2.2.1 i2.2.2.1 a0 b0 c0 h1, conv3' i0.2.2.2 i1.2.2.2 i2.2.2.2 a0 b0 c0 h1⟩

/-! ## Points on a line -/

theorem onSegment_lerp {d : Segment K} {α β : K} {x : Pt K} : OnSegment x ⟨d.lerp α, d.lerp β⟩ ↔
    ∃ τ, min α β ≤ τ ∧ τ ≤ max α β ∧ x = d.lerp τ := by
  constructor
  · rintro ⟨k, k0, k1, hx, hy⟩
    refine ⟨α + k * (β - α), conv2 (min_le_left _ _) (min_le_right _ _) k0 k1,
      conv2' (le_max_left _ _) (le_max_right _ _) k0 k1, Pt.ext ?_ ?_⟩
    · rw [hx]; simp only [Segment.lerp]; ring
    · rw [hy]; simp only [Segment.lerp]; ring
  · rintro ⟨τ, h1, h2, rfl⟩
    by_cases e : α = β
    · subst e
      rw [min_self] at h1
      rw [max_self] at h2
      rw [le_antisymm h2 h1, onSegment_degenerate]
    · have hne : β - α ≠ 0 := sub_ne_zero.2 (Ne.symm e)
      have hk : (τ - α) / (β - α) * (β - α) = τ - α := div_mul_cancel₀ _ hne
      refine ⟨(τ - α) / (β - α), ?_, ?_, ?_, ?_⟩
      · rcases lt_or_gt_of_ne e with h | h
        · rw [min_eq_left h.le] at h1
          exact div_nonneg (by linarith) (by linarith)
        · rw [max_eq_left h.le] at h2
          exact div_nonneg_of_nonpos (by linarith) (by linarith)
      · rcases lt_or_gt_of_ne e with h | h
        · rw [max_eq_right h.le] at h2
          rw [div_le_one (by linarith)]
          linarith
        · rw [min_eq_right h.le] at h1
          rw [div_le_one_of_neg (by linarith)]
          linarith
      · simp only [Segment.lerp]
        linear_combination (d.start.x - d.stop.x) * hk
      · simp only [Segment.lerp]
        linear_combination (d.start.y - d.stop.y) * hk

/-- A transform which cannot be inverted maps the plane to a line. -/
theorem rank_one {T : Affine K} (h : T.inverse = none) : ∃ (d : Segment K) (α β : K),
    ∀ p, T.apply p = d.lerp (α * p.x + β * p.y) := by
  have hd := (C26_inverse T).2.2.1 h
  have mk : ∀ (u : Pt K) (α β : K), T.a = α * u.x → T.d = α * u.y → T.b = β * u.x → T.e = β * u.y →
      ∃ (d : Segment K) (α β : K), ∀ p, T.apply p = d.lerp (α * p.x + β * p.y) := by
    intro u α β h1 h2 h3 h4
    refine ⟨⟨⟨T.c, T.f⟩, ⟨T.c + u.x, T.f + u.y⟩⟩, α, β, fun p => Pt.ext ?_ ?_⟩
    · simp only [Affine.apply, Segment.lerp, h1, h3]; ring
    · simp only [Affine.apply, Segment.lerp, h2, h4]; ring
  by_cases ha : T.a = 0
  · by_cases hdd : T.d = 0
    · exact mk ⟨T.b, T.e⟩ 0 1 (by simp [ha]) (by simp [hdd]) (by simp) (by simp)
    · refine mk ⟨T.a, T.d⟩ 1 (T.e / T.d) (by simp) (by simp) ?_ ?_
      · rw [ha] at hd ⊢
        have : T.b = 0 := by
          have : T.b * T.d = 0 := by linear_combination -hd
          exact (mul_eq_zero.1 this).resolve_right hdd
        simp [this]
      · rw [div_mul_cancel₀ _ hdd]
  · refine mk ⟨T.a, T.d⟩ 1 (T.b / T.a) (by simp) (by simp) ?_ ?_
    · rw [div_mul_cancel₀ _ ha]
    · rw [div_mul_eq_mul_div, eq_div_iff ha]
      linear_combination hd

/-- The transformed shape, if it is in one piece, has all points between its points. -/
theorem between_iff {M : ShapeK K} {T : Affine K} (hT : T.inverse = none) (hc : Connected M) (x : Pt K) :
    Between M T x ↔ ∃ p, InMeshes p M ∧ T.apply p = x := by
  obtain ⟨d, α, β, hd⟩ := rank_one hT
  constructor
  · rintro ⟨p, q, hp, hq, hx⟩
    obtain ⟨t, ht, hpt⟩ := inMeshes_iff.1 hp
    obtain ⟨u, hu, hqu⟩ := inMeshes_iff.1 hq
    have key : ∀ u, Relation.ReflTransGen (fun a b => IsTri M b ∧ ∃ p, InTriangle p a ∧ InTriangle p b) t u →
        ∀ q, InTriangle q u → ∀ x, OnSegment x ⟨T.apply p, T.apply q⟩ → ∃ p, InMeshes p M ∧ T.apply p = x := by
      intro u h
      -- within a triangle
      have within : ∀ u p q x, IsTri M u → InTriangle p u → InTriangle q u → OnSegment x ⟨T.apply p, T.apply q⟩ →
          ∃ p, InMeshes p M ∧ T.apply p = x := by
        intro u p q x hu hp hq hx
        obtain ⟨y, hy, rfl⟩ := (C26_apply_segment_triangle T ⟨p, q⟩ u x).1.1 hx
        exact ⟨y, inMeshes_iff.2 ⟨u, hu, inTriangle_conv u p q hp hq y hy⟩, rfl⟩
      induction h with
      | refl => exact fun q hq x hx => within t p q x ht hpt hq hx
      | @tail a b _ hab ih =>
        obtain ⟨hb, r, hra, hrb⟩ := hab
        intro q hq x hx
        rw [hd, hd, onSegment_lerp] at hx
        obtain ⟨τ, h1, h2, rfl⟩ := hx
        set φp := α * p.x + β * p.y with e1
        set φq := α * q.x + β * q.y with e2
        by_cases hr : min φp (α * r.x + β * r.y) ≤ τ ∧ τ ≤ max φp (α * r.x + β * r.y)
        · refine ih r hra _ ?_
          rw [hd, hd, onSegment_lerp]
          exact ⟨τ, hr.1, hr.2, rfl⟩
        · refine within b r q _ hb hrb hq ?_
          rw [hd, hd, onSegment_lerp]
          refine ⟨τ, ?_, ?_, rfl⟩
          · rw [min_le_iff] at *
            rw [le_max_iff] at *
            by_contra hcon
            push Not at hcon
            apply hr
            constructor
            · rcases h1 with h1 | h1
              · exact Or.inl h1
              · exact absurd h1 (not_le.2 hcon.2)
            · right; exact hcon.1.le
          · rw [min_le_iff] at *
            rw [le_max_iff] at *
            by_contra hcon
            push Not at hcon
            apply hr
            constructor
            · right; exact hcon.1.le
            · rcases h2 with h2 | h2
              · exact Or.inl h2
              · exact absurd h2 (not_le.2 hcon.2)
    exact key u (hc t u ht hu) q hqu x hx
  · rintro ⟨p, hp, rfl⟩
    exact ⟨p, p, hp, hp, (onSegment_degenerate _ _).2 rfl⟩

/-! ## The collapsed segment -/

theorem fold_lower (l : List K) : (l = [] ∧ l.foldl lower none = none) ∨
    ∃ m ∈ l, l.foldl lower none = some m ∧ ∀ x ∈ l, m ≤ x := by
  induction l using List.reverseRecOn with
  | nil => exact Or.inl ⟨rfl, rfl⟩
  | append_singleton l p ih =>
    right
    rw [List.foldl_append]
    rcases ih with ⟨rfl, h⟩ | ⟨m, hm, h, hl⟩
    · rw [h]
      exact ⟨p, by simp, rfl, by simp⟩
    · rw [h]
      refine ⟨min m p, ?_, rfl, fun x hx => ?_⟩
      · rcases min_choice m p with e | e <;> rw [e] <;> simp [hm]
      · rw [List.mem_append, List.mem_singleton] at hx
        rcases hx with hx | rfl
        · exact min_le_of_left_le (hl x hx)
        · exact min_le_right _ _

theorem fold_upper (l : List K) : (l = [] ∧ l.foldl upper none = none) ∨
    ∃ m ∈ l, l.foldl upper none = some m ∧ ∀ x ∈ l, x ≤ m := by
  induction l using List.reverseRecOn with
  | nil => exact Or.inl ⟨rfl, rfl⟩
  | append_singleton l p ih =>
    right
    rw [List.foldl_append]
    rcases ih with ⟨rfl, h⟩ | ⟨m, hm, h, hl⟩
    · rw [h]
      exact ⟨p, by simp, rfl, by simp⟩
    · rw [h]
      refine ⟨max m p, ?_, rfl, fun x hx => ?_⟩
      · rcases max_choice m p with e | e <;> rw [e] <;> simp [hm]
      · rw [List.mem_append, List.mem_singleton] at hx
        rcases hx with hx | rfl
        · exact le_max_of_le_left (hl x hx)
        · exact le_max_right _ _

/-- `CalculateCollapsedSegment` is right. -/
theorem collapsed_ok {M : ShapeK K} (hM : M ≠ []) (hb : Built M) {T : Affine K} (hT : T.inverse = none)
    {r : Rect K} (hr : BoundingBox M r) (hk : DiagonalKept M T) :
    ∃ s, collapsedSegment M r T = some s ∧ ∀ x, OnSegment x s ↔ Between M T x := by
  obtain ⟨t, ht⟩ : ∃ t, IsTri M t := by
    cases M with
    | nil => exact absurd rfl hM
    | cons m M =>
      obtain ⟨t, ht⟩ := List.exists_mem_of_ne_nil _ (hb m (by simp)).1
      exact ⟨t, m, by simp, ht⟩
  unfold collapsedSegment
  dsimp only
  set d := T.applySegment ⟨⟨r.xMin, r.yMin⟩, ⟨r.xMax, r.yMax⟩⟩ with hd
  by_cases h0 : d.start = d.stop
  · rw [if_pos (by unfold Segment.vector Pt.sub Pt.dot; rw [h0]; simp)]
    refine ⟨d, rfl, fun x => ?_⟩
    have one := hk r hr h0
    have e : d = ⟨T.apply ⟨r.xMin, r.yMin⟩, T.apply ⟨r.xMin, r.yMin⟩⟩ := by
      have : d = ⟨d.start, d.stop⟩ := rfl
      rw [this, ← h0]
      rfl
    rw [e, onSegment_degenerate]
    constructor
    · rintro rfl
      have hp : InMeshes t.p0 M := inMeshes_iff.2 ⟨t, ht, (inTriangle_corners t).1⟩
      exact ⟨t.p0, t.p0, hp, hp, (onSegment_degenerate _ _).2 (one _ hp).symm⟩
    · rintro ⟨p, q, hp, hq, hx⟩
      rw [one p hp, one q hq] at hx
      exact (onSegment_degenerate _ _).1 hx
  · rw [if_neg (ne_of_gt (dot_self_pos h0))]
    set φ : Pt K → K := fun p => ((T.apply p).sub d.start).dot d.vector / d.vector.dot d.vector with hφ
    have hpr : ∀ p, d.project (T.apply p) = some (φ p) := fun p => project_eq h0 _
    have hdet := (C26_inverse T).2.2.1 hT
    have hl : ∀ p, T.apply p = d.lerp (φ p) := by
      intro p
      obtain ⟨e1, e2⟩ := on_line h0 (p := T.apply p) (by
        simp only [hd, Affine.applySegment, Affine.apply, Pt.sub, Pt.det]
        linear_combination ((p.x - r.xMin) * (r.yMax - r.yMin) - (p.y - r.yMin) * (r.xMax - r.xMin)) * hdet) (hpr p)
      refine Pt.ext ?_ ?_
      · rw [e1]; simp only [Segment.lerp]; ring
      · rw [e2]; simp only [Segment.lerp]; ring
    have haff : ∀ (t : Triangle K) (p : Pt K) (a b c : K), a + b + c = 1 →
        p.x = a * t.p0.x + b * t.p1.x + c * t.p2.x → p.y = a * t.p0.y + b * t.p1.y + c * t.p2.y →
        φ p = a * φ t.p0 + b * φ t.p1 + c * φ t.p2 := by
      intro t p a b c h1 hx hy
      simp only [hφ, mul_div_assoc', ← add_div]
      congr 1
      simp only [Affine.apply, Pt.sub, Pt.dot, hx, hy]
      linear_combination (-(T.c - d.start.x) * d.vector.x - (T.f - d.start.y) * d.vector.y) * h1
    have hps : ((M.triangles.flatMap Triangle.corners).filterMap fun p => d.project (T.apply p)) =
        (M.triangles.flatMap Triangle.corners).map φ := by
      rw [← List.filterMap_eq_map]
      exact List.filterMap_congr fun p _ => hpr p
    have corner : ∀ p, p ∈ M.triangles.flatMap Triangle.corners → InMeshes p M := by
      intro p hp
      obtain ⟨t, ht, hp⟩ := List.mem_flatMap.1 hp
      refine inMeshes_iff.2 ⟨t, mem_triangles.1 ht, ?_⟩
      simp only [Triangle.corners, List.mem_cons, List.not_mem_nil, or_false] at hp
      rcases hp with rfl | rfl | rfl
      · exact (inTriangle_corners t).1
      · exact (inTriangle_corners t).2.1
      · exact (inTriangle_corners t).2.2
    have nonempty : (M.triangles.flatMap Triangle.corners).map φ ≠ [] := by
      intro h
      rw [List.map_eq_nil_iff] at h
      have : t.p0 ∈ M.triangles.flatMap Triangle.corners :=
        List.mem_flatMap.2 ⟨t, mem_triangles.2 ht, by simp [Triangle.corners]⟩
      rw [h] at this
      cases this
    rw [hps]
    rcases fold_lower ((M.triangles.flatMap Triangle.corners).map φ) with ⟨h, -⟩ | ⟨lo, hlo, elo, blo⟩
    · exact absurd h nonempty
    rcases fold_upper ((M.triangles.flatMap Triangle.corners).map φ) with ⟨h, -⟩ | ⟨hi, hhi, ehi, bhi⟩
    · exact absurd h nonempty
    rw [elo, ehi]
    refine ⟨_, rfl, fun x => ?_⟩
    obtain ⟨v, hv, rfl⟩ := List.mem_map.1 hlo
    obtain ⟨w, hw, rfl⟩ := List.mem_map.1 hhi
    constructor
    · intro hx
      refine ⟨v, w, corner v hv, corner w hw, ?_⟩
      rw [hl v, hl w]
      exact hx
    · rintro ⟨p, q, hp, hq, hx⟩
      have inside : ∀ p, InMeshes p M → φ v ≤ φ p ∧ φ p ≤ φ w := by
        intro p hp
        obtain ⟨t, ht, a, b, c, a0, b0, c0, h1, hx, hy⟩ := inMeshes_iff.1 hp
        have m : ∀ z ∈ t.corners, φ z ∈ (M.triangles.flatMap Triangle.corners).map φ := fun z hz =>
          List.mem_map_of_mem (List.mem_flatMap.2 ⟨t, mem_triangles.2 ht, hz⟩)
        have m0 := m t.p0 (by simp [Triangle.corners])
        have m1 := m t.p1 (by simp [Triangle.corners])
        have m2 := m t.p2 (by simp [Triangle.corners])
        rw [haff t p a b c h1 hx hy]
        exact ⟨conv3 (blo _ m0) (blo _ m1) (blo _ m2) a0 b0 c0 h1, conv3' (bhi _ m0) (bhi _ m1) (bhi _ m2) a0 b0 c0 h1⟩
      rw [hl p, hl q, onSegment_lerp] at hx
      obtain ⟨τ, h1, h2, rfl⟩ := hx
      have ip := inside p hp
      have iq := inside q hq
      refine onSegment_lerp.2 ⟨τ, ?_, ?_, rfl⟩
      · exact le_trans (min_le_left _ _) (le_trans (le_min ip.1 iq.1) h1)
      · exact le_trans (le_trans h2 (max_le ip.2 iq.2)) (le_max_right _ _)

end Verif.Geo
