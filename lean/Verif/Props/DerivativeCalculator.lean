import Verif.Lemmas.DerivativeLargest

/-!
# C70: the derivatives and margins of stroke vertices
-/

set_option autoImplicit false

namespace Verif.Derivative

open Geo Spec

/-- Only the derivatives and the margins of the given vertices change. Positions, triangles and the sides that the labels tell stay; a new
label is an integer of a signed byte that stands for a margin from 0 to 4. -/
theorem C70_frame {left right : List ℕ} {mesh mesh' : Mesh} (h : updateMesh left right mesh = some mesh') :
    mesh'.triangles = mesh.triangles ∧ mesh'.vertices.length = mesh.vertices.length ∧
      ∀ (j : ℕ) (v v' : Vertex), mesh.vertices[j]? = some v → mesh'.vertices[j]? = some v' →
        v'.position = v.position ∧ v'.forwardLabel = v.forwardLabel ∧ SameSign v'.sideLabel v.sideLabel ∧
        (j ∉ left → j ∉ right → v' = v) ∧
        (j ∈ left ∨ j ∈ right → 0 ≤ marginIn v'.sideLabel ∧ marginIn v'.sideLabel ≤ 4 ∧ ∃ n : ℤ, v'.sideLabel = (n : ℝ) ∧ |n| ≤ 127) := by
  obtain ⟨h1, h2⟩ := update_vertex h
  refine ⟨h1, length_eq_of fun j => ?_, fun j v v' hv hv' => ?_⟩
  · by_cases hj : j ∈ left ∨ j ∈ right
    · obtain ⟨v, v', _, e1, e2, -⟩ := (h2 j).2 hj
      rw [e1, e2]
      simp
    · push Not at hj
      rw [(h2 j).1 hj.1 hj.2]
  · obtain ⟨w, q1, q2, q3, q4⟩ := update_position h hv'
    rw [hv] at q1
    cases q1
    refine ⟨q2, q3, q4, fun a b => ?_, fun hj => ?_⟩
    · rw [(h2 j).1 a b, hv] at hv'
      exact (Option.some.inj hv').symm
    · obtain ⟨u, u', a, e1, e2, -, -, e5⟩ := (h2 j).2 hj
      rw [hv'] at e2
      cases e2
      rw [e5]
      obtain ⟨k1, k2, -⟩ := marginIn_with u.sideLabel a
      refine ⟨k1, k2.trans (max_le (by norm_num) (min_le_left _ _)), ?_⟩
      by_cases hz : u.sideLabel = 0
      · refine ⟨0, ?_, by norm_num⟩
        unfold withMargin
        rw [if_pos hz, hz]
        simp
      · obtain ⟨n, n1, n2, -, n4⟩ := withMargin_eq hz a
        have hn : (n : ℝ) ≤ 127 := by
          have : max 0 (min 4 a) ≤ 4 := max_le (by norm_num) (min_le_left _ _)
          linarith
        have hn' : n ≤ 127 := by exact_mod_cast hn
        rw [n4, outsetSign_eq]
        rcases three u.sideLabel with ⟨p, q, r⟩ | ⟨p, q, r⟩ | ⟨p, q, r⟩
        · refine ⟨-n, by simp [p], ?_⟩
          rw [abs_neg, abs_of_nonneg (by omega)]
          exact hn'
        · exact absurd q hz
        · refine ⟨n, by simp [p, q], ?_⟩
          rw [abs_of_nonneg (by omega)]
          exact hn'

/-- The update of a mesh with triangles of its own vertices does not fail. -/
theorem C70_total {left right : List ℕ} {mesh : Mesh} {m : ℕ} (hm : First left right m)
    (ht : ∀ i ∈ mesh.triangles, Below mesh.vertices.length i) (hl : ∀ i ∈ left ++ right, m ≤ i ∧ i < mesh.vertices.length) :
    ∃ mesh', updateMesh left right mesh = some mesh' := updateMesh_isSome hm ht hl

/-- The derivatives of a vertex are the means of the vectors of all triangles that have it or one of a run of vertices like it. -/
theorem C70_mean {left right : List ℕ} {mesh mesh' : Mesh} {m j : ℕ} (h : updateMesh left right mesh = some mesh') (hm : First left right m)
    (hs : Sorted m mesh.triangles) (hj : j ∈ left ∨ j ∈ right) :
    ∃ run v v', (run <:+: left ∨ run <:+: right) ∧ j ∈ run ∧ mesh.vertices[j]? = some v ∧ mesh'.vertices[j]? = some v' ∧
      (∀ k ∈ run, ∃ w, mesh.vertices[k]? = some w ∧ Alike w v) ∧
      IsMean (run.flatMap (vectorsAt sideVectors mesh)) v'.sideDerivative ∧
      IsMean (run.flatMap (vectorsAt forwardVectors mesh)) v'.forwardDerivative := by
  have hne : ¬(left = [] ∧ right = []) := by
    rintro ⟨rfl, rfl⟩
    simp at hj
  obtain ⟨t, t1, m1, m2, t2, m3, h1, h2, h3, h4, h5, h6, h7⟩ := update_parts hne h
  obtain ⟨d1, d2⟩ := derivatives_pass h3 h4
  obtain ⟨e1, e2⟩ := margins_pass h6 h7
  obtain ⟨run, v, a, p1, p2, p3, p4, p5, p6⟩ := (d2 j).2 hj
  obtain ⟨-, w, b, _, q1, -, -, q4⟩ := (e2 j).2 hj
  rw [p6] at q1
  cases q1
  obtain ⟨k1, k2⟩ := averagesOf_accumulates (tracked_accumulates h1 h2 hm hs) accumulates_nil accumulates_nil p5
  rw [List.nil_append] at k1 k2
  exact ⟨run, v, _, p1, p2, p3, q4, p4, accumulates_value k1, accumulates_value k2⟩

/-- Vertices next to each other on one side, at the same point and with the same categories, get the same derivatives and margins; so does
the margin of those with other categories unless a new part of the stroke starts. -/
theorem C70_coincident {left right : List ℕ} {mesh mesh' : Mesh} {p i j : ℕ} {v w v' w' : Vertex} (h : updateMesh left right mesh = some mesh')
    (hd : (left ++ right).Nodup) (hij : (left[p]? = some i ∧ left[p + 1]? = some j) ∨ (right[p]? = some i ∧ right[p + 1]? = some j))
    (hv : mesh.vertices[i]? = some v) (hw : mesh.vertices[j]? = some w) (hv' : mesh'.vertices[i]? = some v') (hw' : mesh'.vertices[j]? = some w') :
    (Alike v w → v'.sideDerivative = w'.sideDerivative ∧ v'.forwardDerivative = w'.forwardDerivative ∧ v'.sideLabel = w'.sideLabel) ∧
    (v.position = w.position → (0 < v.forwardLabel → 0 < w.forwardLabel) → v.sideLabel ≠ 0 → w.sideLabel ≠ 0 →
      marginIn v'.sideLabel = marginIn w'.sideLabel) := by
  have hne : ¬(left = [] ∧ right = []) := by
    rintro ⟨rfl, rfl⟩
    simp at hij
  obtain ⟨t, t1, m1, m2, t2, m3, -, -, h3, h4, -, h6, h7⟩ := update_parts hne h
  obtain ⟨nl, nr, hdis⟩ := List.nodup_append'.1 hd
  obtain ⟨-, a2⟩ := updateDerivatives_spec le_rfl h3
  obtain ⟨-, b2⟩ := updateDerivatives_spec le_rfl h4
  obtain ⟨-, c2⟩ := updateMargins_spec le_rfl h6
  obtain ⟨-, d2⟩ := updateMargins_spec le_rfl h7
  -- the vertices after the first pass
  have first : ∃ v2 w2, m2.vertices[i]? = some v2 ∧ m2.vertices[j]? = some w2 ∧ Alike v2 v ∧ Alike w2 w ∧
      v2.sideLabel = v.sideLabel ∧ w2.sideLabel = w.sideLabel ∧ v2.forwardLabel = v.forwardLabel ∧ w2.forwardLabel = w.forwardLabel ∧
      (Alike v w → SameDerivatives v2 w2) := by
    have hlr : (i ∈ left ∨ i ∈ right) ∧ (j ∈ left ∨ j ∈ right) := by
      rcases hij with ⟨x, y⟩ | ⟨x, y⟩
      · exact ⟨Or.inl (List.mem_of_getElem? x), Or.inl (List.mem_of_getElem? y)⟩
      · exact ⟨Or.inr (List.mem_of_getElem? x), Or.inr (List.mem_of_getElem? y)⟩
    obtain ⟨-, e2⟩ := derivatives_pass h3 h4
    obtain ⟨_, u, a, -, -, p3, -, -, p6⟩ := (e2 i).2 hlr.1
    obtain ⟨_, u', a', -, -, q3, -, -, q6⟩ := (e2 j).2 hlr.2
    rw [hv] at p3
    rw [hw] at q3
    cases p3
    cases q3
    refine ⟨_, _, p6, q6, ⟨rfl, sameSign_refl _, sameSign_refl _⟩, ⟨rfl, sameSign_refl _, sameSign_refl _⟩, rfl, rfl, rfl, rfl, fun ha => ?_⟩
    rcases hij with ⟨x, y⟩ | ⟨x, y⟩
    · obtain ⟨x1, y1, k1, k2, k3⟩ := updateDerivatives_adjacent le_rfl h3 nl x y hv hw ha
      have ni : i ∉ right := fun q => hdis (List.mem_of_getElem? x) q
      have nj : j ∉ right := fun q => hdis (List.mem_of_getElem? y) q
      rw [(b2 i).1 ni, k1] at p6
      rw [(b2 j).1 nj, k2] at q6
      rw [← Option.some.inj p6, ← Option.some.inj q6]
      exact k3
    · have ni : i ∉ left := fun q => hdis q (List.mem_of_getElem? x)
      have nj : j ∉ left := fun q => hdis q (List.mem_of_getElem? y)
      obtain ⟨x1, y1, k1, k2, k3⟩ := updateDerivatives_adjacent (v := v) (w := w) le_rfl h4 nr x y (by rw [(a2 i).1 ni, hv]) (by rw [(a2 j).1 nj, hw]) ha
      rw [k1] at p6
      rw [k2] at q6
      rw [← Option.some.inj p6, ← Option.some.inj q6]
      exact k3
  obtain ⟨v2, w2, f1, f2, f3, f4, f5, f6, f7, f8, f9⟩ := first
  -- the second pass
  have second : Connected v2 w2 → ∃ a, v' = { v2 with sideLabel := withMargin v2.sideLabel a } ∧ w' = { w2 with sideLabel := withMargin w2.sideLabel a } := by
    intro hc
    rcases hij with ⟨x, y⟩ | ⟨x, y⟩
    · obtain ⟨a, k1, k2⟩ := updateMargins_adjacent le_rfl h6 nl x y f1 f2 hc
      have ni : i ∉ right := fun q => hdis (List.mem_of_getElem? x) q
      have nj : j ∉ right := fun q => hdis (List.mem_of_getElem? y) q
      rw [(d2 i).1 ni, k1] at hv'
      rw [(d2 j).1 nj, k2] at hw'
      exact ⟨a, (Option.some.inj hv').symm, (Option.some.inj hw').symm⟩
    · have ni : i ∉ left := fun q => hdis q (List.mem_of_getElem? x)
      have nj : j ∉ left := fun q => hdis q (List.mem_of_getElem? y)
      obtain ⟨a, k1, k2⟩ := updateMargins_adjacent (v := v2) (w := w2) le_rfl h7 nr x y (by rw [(c2 i).1 ni, f1]) (by rw [(c2 j).1 nj, f2]) hc
      rw [k1] at hv'
      rw [k2] at hw'
      exact ⟨a, (Option.some.inj hv').symm, (Option.some.inj hw').symm⟩
  constructor
  · intro ha
    have hc : Connected v2 w2 := alike_connected (alike_trans f3 (alike_trans ha (alike_symm f4)))
    obtain ⟨a, rfl, rfl⟩ := second hc
    refine ⟨(f9 ha).1, (f9 ha).2, ?_⟩
    dsimp only
    rw [f5, f6]
    exact withMargin_congr ha.2.1 a
  · intro hp hf hx hy
    obtain ⟨a, rfl, rfl⟩ := second ⟨f3.1.trans (hp.trans f4.1.symm), by rw [f7, f8]; exact hf⟩
    dsimp only
    rw [f5, f6]
    exact marginIn_sign hx hy a

/-- A given vertex of a triangle that moves outward by no more than its margin stays within its region of the triangle. -/
theorem C70_region {left right : List ℕ} {mesh mesh' : Mesh} {m : ℕ} {i j : ℕ × ℕ × ℕ} {a b c : Vertex}
    (h : updateMesh left right mesh = some mesh') (hm : First left right m) (hs : Sorted m mesh.triangles) (hi : i ∈ mesh.triangles)
    (hc : Corners i j) (hj : j.1 ∈ left ∨ j.1 ∈ right) (ha : mesh'.vertices[j.1]? = some a) (hb : mesh'.vertices[j.2.1]? = some b)
    (hcc : mesh'.vertices[j.2.2]? = some c) (hz : sideOf a.position b.position c.position ≠ 0) {t : ℝ} (h0 : 0 ≤ t)
    (ht : t ≤ marginIn a.sideLabel) : InRegion a.position b.position c.position (moved a t) :=
  boundOf_region hz h0 (ht.trans ((update_bounds h hm hs hi hc hj ha hb hcc).1 hz))

/-- The margin of a given vertex of a triangle whose corners are three points of a line is 0. -/
theorem C70_collinear {left right : List ℕ} {mesh mesh' : Mesh} {m : ℕ} {i j : ℕ × ℕ × ℕ} {a b c : Vertex}
    (h : updateMesh left right mesh = some mesh') (hm : First left right m) (hs : Sorted m mesh.triangles) (hi : i ∈ mesh.triangles)
    (hc : Corners i j) (hj : j.1 ∈ left ∨ j.1 ∈ right) (ha : mesh'.vertices[j.1]? = some a) (hb : mesh'.vertices[j.2.1]? = some b)
    (hcc : mesh'.vertices[j.2.2]? = some c) (hz : sideOf a.position b.position c.position = 0) (hd : ¬Coincide a b c) :
    marginIn a.sideLabel = 0 :=
  (update_bounds h hm hs hi hc hj ha hb hcc).2 hz hd

/-- One vertex of a triangle that moves outward by no more than its margin does not turn the triangle over, and leaves it at least a
nineteenth of its area. -/
theorem C70_alone {left right : List ℕ} {mesh mesh' : Mesh} {m : ℕ} {i j : ℕ × ℕ × ℕ} {a b c : Vertex}
    (h : updateMesh left right mesh = some mesh') (hm : First left right m) (hs : Sorted m mesh.triangles) (hi : i ∈ mesh.triangles)
    (hc : Corners i j) (hj : j.1 ∈ left ∨ j.1 ∈ right) (ha : mesh'.vertices[j.1]? = some a) (hb : mesh'.vertices[j.2.1]? = some b)
    (hcc : mesh'.vertices[j.2.2]? = some c) (hz : sideOf b.position c.position a.position ≠ 0) {t : ℝ} (h0 : 0 ≤ t)
    (ht : t ≤ marginIn a.sideLabel) : 1 / 19 ≤ sideOf b.position c.position (moved a t) / sideOf b.position c.position a.position :=
  region_area hz (C70_region h hm hs hi hc hj ha hb hcc (by rw [sideOf_rotate]; exact hz) h0 ht)

/-- The margin is no smaller than needed, up to one step: if the vertices at its point can move by `s` within their regions of all
triangles, and no such triangle is three points of a line, then the margin is more than `s` less a step. -/
theorem C70_largest {left right : List ℕ} {mesh mesh' : Mesh} {j : ℕ} {v : Vertex} {s : ℝ} (h : updateMesh left right mesh = some mesh')
    (hj : j ∈ left ∨ j ∈ right) (hv : mesh'.vertices[j]? = some v) (hl : v.sideLabel ≠ 0) (h4 : s ≤ 4)
    (hs : ∀ i ∈ mesh.triangles, ∀ k, Corners i k → k.1 ∈ left ∨ k.1 ∈ right → ∀ a b c, mesh'.vertices[k.1]? = some a →
      mesh'.vertices[k.2.1]? = some b → mesh'.vertices[k.2.2]? = some c → a.position = v.position →
      (sideOf a.position b.position c.position ≠ 0 → a.sideLabel ≠ 0 ∧ InRegion a.position b.position c.position (moved a s)) ∧
      (sideOf a.position b.position c.position = 0 → Coincide a b c)) :
    s < marginIn v.sideLabel + 4 / 126 := by
  have hne : ¬(left = [] ∧ right = []) := by
    rintro ⟨rfl, rfl⟩
    simp at hj
  obtain ⟨t, t1, m1, m2, t2, m3, h1, h2, h3, h4', h5, h6, h7⟩ := update_parts hne h
  obtain ⟨d1, d2⟩ := derivatives_pass h3 h4'
  obtain ⟨e1, e2⟩ := margins_pass h6 h7
  obtain ⟨n0, -, ad⟩ := forEach_adds h2
  -- a vertex after the first pass, from the vertex at the end
  have fwd : ∀ (k : ℕ) (w : Vertex), m2.vertices[k]? = some w → ∃ x, mesh'.vertices[k]? = some { w with sideLabel := x } ∧ SameSign x w.sideLabel := by
    intro k w hw
    by_cases hk : k ∈ left ∨ k ∈ right
    · obtain ⟨-, u, a, _, q1, -, -, q4⟩ := (e2 k).2 hk
      rw [hw] at q1
      cases q1
      exact ⟨_, q4, withMargin_same _ _⟩
    · push Not at hk
      exact ⟨w.sideLabel, by rw [(e2 k).1 hk.1 hk.2, hw], sameSign_refl _⟩
  have start : ∀ k, AtLeast t1 k s := by
    intro k hk y hy
    have r := h1
    unfold reset at r
    rw [ad.2.1] at hy
    have hrep : t.margins = List.replicate t.margins.length 4 := by
      unfold reset at h1
      rcases left with _ | ⟨l, ls⟩ <;> rcases right with _ | ⟨r, rs⟩ <;> dsimp only at h1
      · simp at h1
      all_goals
        split_ifs at h1
        cases h1
        simp [maximumMargin]
    rw [hrep, List.getElem?_replicate] at hy
    split_ifs at hy
    cases hy
    exact h4
  have bounds : ∀ k, (k ∈ left ∨ k ∈ right) → ∀ w, m2.vertices[k]? = some w → w.position = v.position → AtLeast t2 k s := by
    intro k hk w hw hp
    refine forEach_atLeast h5 ?_ (start k)
    intro i hi jj hc hjk
    rw [d1, List.mem_reverse] at hi
    subst hjk
    intro a b c ha hb hcc
    rw [hw] at ha
    cases ha
    obtain ⟨x, x1, x2⟩ := fwd _ _ hw
    obtain ⟨y, y1, -⟩ := fwd _ _ hb
    obtain ⟨z, z1, -⟩ := fwd _ _ hcc
    obtain ⟨k1, k2⟩ := hs i hi jj hc hk _ _ _ x1 y1 z1 hp
    dsimp only at k1 k2
    refine ⟨fun q => ?_, fun q => k2 q⟩
    obtain ⟨k3, k4⟩ := k1 q
    have k5 := region_bound (v := { w with sideLabel := x }) q k3 h4 k4
    have : boundOf { w with sideLabel := x } b.position c.position = boundOf w b.position c.position := by
      unfold boundOf
      dsimp only
      have : outsetSign x = outsetSign w.sideLabel := by
        rw [outsetSign_eq, outsetSign_eq]
        simp only [x2.1, x2.2]
      rw [this]
    rw [this] at k5
    exact k5
  obtain ⟨-, c2⟩ := updateMargins_spec le_rfl h6
  obtain ⟨-, c3⟩ := updateMargins_spec le_rfl h7
  have hv2 : ∃ u, m2.vertices[j]? = some u ∧ u.position = v.position ∧ u.sideLabel ≠ 0 := by
    obtain ⟨-, u, a, _, q1, -, -, q4⟩ := (e2 j).2 hj
    rw [hv] at q4
    cases q4
    exact ⟨u, q1, rfl, fun q => hl ((withMargin_same u.sideLabel a).2.2 q)⟩
  obtain ⟨u, u1, u2, u3⟩ := hv2
  have concl : ∀ a, s ≤ a → v.sideLabel = withMargin u.sideLabel a → s < marginIn v.sideLabel + 4 / 126 := by
    intro a ha he
    rw [he]
    exact lt_of_le_of_lt ((le_min h4 ha).trans (le_max_right _ _)) ((marginIn_with u.sideLabel a).2.2 u3)
  by_cases hr : j ∈ right
  · have pos3 : ∀ (k : ℕ) (w : Vertex), m3.vertices[k]? = some w → ∃ w', m2.vertices[k]? = some w' ∧ w'.position = w.position := by
      intro k w hw
      by_cases hk : k ∈ left
      · obtain ⟨-, w', _, _, q1, -, -, q4⟩ := (c2 k).2 hk
        rw [hw] at q4
        cases q4
        exact ⟨w', q1, rfl⟩
      · rw [(c2 k).1 hk] at hw
        exact ⟨w, hw, rfl⟩
    have hu3 : ∃ x, m3.vertices[j]? = some { u with sideLabel := x } ∧ SameSign x u.sideLabel := by
      by_cases hk : j ∈ left
      · obtain ⟨-, w', _, _, q1, -, -, q4⟩ := (c2 j).2 hk
        rw [u1] at q1
        cases q1
        exact ⟨_, q4, withMargin_same _ _⟩
      · exact ⟨u.sideLabel, by rw [(c2 j).1 hk, u1], sameSign_refl _⟩
    obtain ⟨x, x1, x2⟩ := hu3
    obtain ⟨a, a1, a2⟩ := updateMargins_atLeast (s := s) le_rfl h7 hr x1 h4 (fun k hk w hw hp => by
      obtain ⟨w', q1, q2⟩ := pos3 k w hw
      exact bounds k (Or.inr hk) w' q1 (q2.trans (hp.trans u2)))
    rw [hv] at a2
    refine concl a a1 ?_
    rw [Option.some.inj a2]
    exact withMargin_congr x2 a
  · obtain ⟨a, a1, a2⟩ := updateMargins_atLeast (s := s) le_rfl h6 (hj.resolve_right hr) u1 h4 (fun k hk w hw hp =>
      bounds k (Or.inl hk) w hw (hp.trans u2))
    rw [(c3 j).1 hr] at hv
    rw [hv] at a2
    exact concl a a1 (by rw [Option.some.inj a2])

/-! ## Instances -/

/-- Two triangles of a square with sides 1: the left vertices are 0 and 2, the right ones 1 and 3. -/
noncomputable def square : Mesh where
  vertices := [⟨⟨0, 1⟩, ⟨0, 0⟩, -1, ⟨0, 0⟩, 1⟩, ⟨⟨0, 0⟩, ⟨0, 0⟩, 1, ⟨0, 0⟩, 1⟩, ⟨⟨1, 1⟩, ⟨0, 0⟩, -1, ⟨0, 0⟩, -1⟩, ⟨⟨1, 0⟩, ⟨0, 0⟩, 1, ⟨0, 0⟩, -1⟩]
  triangles := [(0, 1, 2), (1, 3, 2)]

example : First [0, 2] [1, 3] 0 := by simp [First]

theorem square_sorted : Sorted 0 square.triangles := by
  rintro before i after - ⟨h, -⟩
  exact absurd h (Nat.not_lt_zero _)

theorem square_update : ∃ mesh', updateMesh [0, 2] [1, 3] square = some mesh' := by
  refine C70_total (m := 0) (by simp [First]) ?_ ?_
  · intro i hi
    simp only [square, List.mem_cons, List.not_mem_nil, or_false] at hi
    rcases hi with rfl | rfl <;> simp [Below, square]
  · intro i hi
    simp only [List.cons_append, List.nil_append, List.mem_cons, List.not_mem_nil, or_false] at hi
    rcases hi with rfl | rfl | rfl | rfl <;> simp [square]

/-- Both triangles of the square have an area. -/
example : sideOf ⟨0, 1⟩ ⟨0, 0⟩ ⟨1, 1⟩ ≠ 0 ∧ sideOf ⟨0, 0⟩ ⟨1, 0⟩ ⟨1, 1⟩ ≠ 0 := by unfold sideOf; norm_num

/-- The vector from left to right of the first triangle is that from its left edge to its right corner. -/
example : sideVectors ⟨⟨0, 1⟩, ⟨0, 0⟩, -1, ⟨0, 0⟩, 1⟩ ⟨⟨0, 0⟩, ⟨0, 0⟩, 1, ⟨0, 0⟩, 1⟩ ⟨⟨1, 1⟩, ⟨0, 0⟩, -1, ⟨0, 0⟩, -1⟩ = [⟨0, -1⟩] := by
  have h : ¬Coincide ⟨⟨0, 1⟩, ⟨0, 0⟩, -1, ⟨0, 0⟩, 1⟩ ⟨⟨0, 0⟩, ⟨0, 0⟩, 1, ⟨0, 0⟩, 1⟩ ⟨⟨1, 1⟩, ⟨0, 0⟩, -1, ⟨0, 0⟩, -1⟩ := by
    simp [Coincide]
  unfold sideVectors
  rw [if_neg h, if_pos (by norm_num)]
  simp [fromLine, toLine]

/-- The update of the square, of which the theorems speak. -/
example : ∃ mesh' a b c, updateMesh [0, 2] [1, 3] square = some mesh' ∧ mesh'.vertices[0]? = some a ∧ mesh'.vertices[1]? = some b ∧
    mesh'.vertices[2]? = some c ∧ sideOf a.position b.position c.position ≠ 0 ∧ a.sideLabel < 0 := by
  obtain ⟨mesh', h⟩ := square_update
  obtain ⟨v0, w0, x0, p0, q0, r0, s0, t0⟩ := ((update_vertex h).2 0).2 (by simp)
  obtain ⟨v1, w1, x1, p1, q1, r1, -⟩ := ((update_vertex h).2 1).2 (by simp)
  obtain ⟨v2, w2, x2, p2, q2, r2, -⟩ := ((update_vertex h).2 2).2 (by simp)
  simp only [square, List.getElem?_cons_zero, List.getElem?_cons_succ, Option.some.injEq] at p0 p1 p2
  refine ⟨mesh', w0, w1, w2, h, q0, q1, q2, ?_, ?_⟩
  · rw [r0, r1, r2, ← p0, ← p1, ← p2]
    unfold sideOf
    norm_num
  · rw [t0, (withMargin_same _ _).1, ← p0]
    norm_num

end Verif.Derivative
