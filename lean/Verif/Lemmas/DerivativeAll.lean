import Verif.Lemmas.DerivativeMargins

/-!
# Lemmas on the whole update of a mesh
-/

set_option autoImplicit false

namespace Verif.Derivative

open Geo Spec

open Verif.Vertex (Category)

theorem reset_spec {left right : List ℕ} {mesh : Mesh} {t : Tracked} (h : reset left right mesh = some t) :
    First left right t.min ∧ t.min < mesh.vertices.length ∧ t.averages = List.replicate (mesh.vertices.length - t.min) {} ∧
      t.margins.length = mesh.vertices.length - t.min := by
  unfold reset at h
  rcases left with _ | ⟨l, ls⟩ <;> rcases right with _ | ⟨r, rs⟩ <;> dsimp only at h
  · simp at h
  all_goals
    split_ifs at h with hl
    cases h
    refine ⟨?_, hl, rfl, by simp⟩
    unfold First
    simp
  exact le_total l r

theorem first_unique {left right : List ℕ} {m n : ℕ} (h : First left right m) (g : First left right n) : m = n := by
  obtain ⟨h1, h2, h3⟩ := h
  obtain ⟨g1, g2, g3⟩ := g
  apply le_antisymm
  · rcases g1 with q | q
    exacts [h2 n q, h3 n q]
  · rcases h1 with q | q
    exacts [g2 m q, g3 m q]

theorem reset_isSome {left right : List ℕ} {mesh : Mesh} {m : ℕ} (h : First left right m) (hm : m < mesh.vertices.length) :
    ∃ t, reset left right mesh = some t := by
  have key : ∀ n, First left right n → n < mesh.vertices.length := fun n g => first_unique h g ▸ hm
  unfold reset
  rcases left with _ | ⟨l, ls⟩ <;> rcases right with _ | ⟨r, rs⟩ <;> dsimp only
  · simp [First] at h
  all_goals
    rw [if_pos]
    · exact ⟨_, rfl⟩
    · apply key
      unfold First
      simp [le_total]

theorem update_parts {left right : List ℕ} {mesh mesh' : Mesh} (hne : ¬(left = [] ∧ right = [])) (h : updateMesh left right mesh = some mesh') :
    ∃ t t1 m1 m2 t2 m3, reset left right mesh = some t ∧
      forEachTriangle t.min (addDerivatives mesh) mesh.triangles.reverse t = some t1 ∧
      updateDerivatives t1 left.length left mesh = some m1 ∧ updateDerivatives t1 right.length right m1 = some m2 ∧
      forEachTriangle t1.min (addMargins m2) m2.triangles.reverse t1 = some t2 ∧
      updateMargins t2 left.length left m2 = some m3 ∧ updateMargins t2 right.length right m3 = some mesh' := by
  unfold updateMesh at h
  rw [if_neg hne] at h
  obtain ⟨t, h1, h⟩ := Option.bind_eq_some_iff.1 h
  obtain ⟨t1, h2, h⟩ := Option.bind_eq_some_iff.1 h
  obtain ⟨m1, h3, h⟩ := Option.bind_eq_some_iff.1 h
  obtain ⟨m2, h4, h⟩ := Option.bind_eq_some_iff.1 h
  obtain ⟨t2, h5, h⟩ := Option.bind_eq_some_iff.1 h
  obtain ⟨m3, h6, h7⟩ := Option.bind_eq_some_iff.1 h
  exact ⟨t, t1, m1, m2, t2, m3, h1, h2, h3, h4, h5, h6, h7⟩

theorem sorted_visited {m n : ℕ} {is : List (ℕ × ℕ × ℕ)} {i : ℕ × ℕ × ℕ} (hs : Sorted m is) (hn : ∀ k, is.reverse[n]? = some k → Below m k)
    (hi : i ∈ is) (hb : ¬Below m i) : i ∈ is.reverse.take n := by
  have hi' : i ∈ is.reverse := List.mem_reverse.2 hi
  rw [← List.take_append_drop n is.reverse, List.mem_append] at hi'
  rcases hi' with g | g
  · exact g
  · exfalso
    cases e : is.reverse.drop n with
    | nil => rw [e] at g; simp at g
    | cons k rest =>
      have hk : is.reverse[n]? = some k := by
        have := List.getElem?_drop (xs := is.reverse) (i := n) (j := 0)
        rw [e] at this
        simpa using this.symm
      have hl : is = rest.reverse ++ k :: (is.reverse.take n).reverse := by
        have h1 : is.reverse = is.reverse.take n ++ k :: rest := by rw [← e, List.take_append_drop]
        have h2 := congrArg List.reverse h1
        rw [List.reverse_reverse, List.reverse_append, List.reverse_cons] at h2
        simpa using h2
      rw [e, List.mem_cons] at g
      rcases g with rfl | g
      · exact hb (hn _ hk)
      · exact hb (hs _ _ _ hl (hn _ hk) i (List.mem_reverse.2 g))

/-- What the first pass does to the vertices. -/
theorem derivatives_pass {t : Tracked} {left right : List ℕ} {mesh m1 m2 : Mesh}
    (h1 : updateDerivatives t left.length left mesh = some m1) (h2 : updateDerivatives t right.length right m1 = some m2) :
    m2.triangles = mesh.triangles ∧ ∀ j, (j ∉ left → j ∉ right → m2.vertices[j]? = mesh.vertices[j]?) ∧
      (j ∈ left ∨ j ∈ right → ∃ run v a, (run <:+: left ∨ run <:+: right) ∧ j ∈ run ∧ mesh.vertices[j]? = some v ∧
        (∀ k ∈ run, ∃ w, mesh.vertices[k]? = some w ∧ Alike w v) ∧ averagesOf t {} run = some a ∧
        m2.vertices[j]? = some { v with sideDerivative := a.side.value, forwardDerivative := a.forward.value }) := by
  obtain ⟨a1, a2⟩ := updateDerivatives_spec le_rfl h1
  obtain ⟨b1, b2⟩ := updateDerivatives_spec le_rfl h2
  refine ⟨b1.trans a1, fun j => ⟨fun p q => ((b2 j).1 q).trans ((a2 j).1 p), fun hj => ?_⟩⟩
  by_cases hr : j ∈ right
  · obtain ⟨run, v, a, r1, r2, r3, r4, r5, r6⟩ := (b2 j).2 hr
    have back : ∀ (k : ℕ) (w : Vertex), m1.vertices[k]? = some w → ∃ w', mesh.vertices[k]? = some w' ∧ Alike w' w ∧
        w' = { w with sideDerivative := w'.sideDerivative, forwardDerivative := w'.forwardDerivative } := by
      intro k w hw
      by_cases hk : k ∈ left
      · obtain ⟨_, v', _, -, -, q1, -, -, q2⟩ := (a2 k).2 hk
        rw [q2] at hw
        cases hw
        exact ⟨v', q1, ⟨rfl, sameSign_refl _, sameSign_refl _⟩, rfl⟩
      · rw [(a2 k).1 hk] at hw
        exact ⟨w, hw, alike_refl _, rfl⟩
    obtain ⟨v', q1, q2, q3⟩ := back j v r3
    refine ⟨run, v', a, Or.inr r1, r2, q1, ?_, r5, ?_⟩
    · intro k hk
      obtain ⟨w, e1, e2⟩ := r4 k hk
      obtain ⟨w', d1, d2, -⟩ := back k w e1
      exact ⟨w', d1, alike_trans (alike_trans d2 e2) (alike_symm q2)⟩
    · rw [r6, q3]
  · obtain ⟨run, v, a, r1, r2, r3, r4, r5, r6⟩ := (a2 j).2 (hj.resolve_right hr)
    exact ⟨run, v, a, Or.inl r1, r2, r3, r4, r5, by rw [(b2 j).1 hr, r6]⟩

/-- What the second pass does to the vertices. -/
theorem margins_pass {t : Tracked} {left right : List ℕ} {mesh m1 m2 : Mesh}
    (h1 : updateMargins t left.length left mesh = some m1) (h2 : updateMargins t right.length right m1 = some m2) :
    m2.triangles = mesh.triangles ∧ ∀ j, (j ∉ left → j ∉ right → m2.vertices[j]? = mesh.vertices[j]?) ∧
      (j ∈ left ∨ j ∈ right → t.min ≤ j ∧ ∃ v a m, mesh.vertices[j]? = some v ∧ t.margins[j - t.min]? = some m ∧ a ≤ m ∧
        m2.vertices[j]? = some { v with sideLabel := withMargin v.sideLabel a }) := by
  obtain ⟨a1, a2⟩ := updateMargins_spec le_rfl h1
  obtain ⟨b1, b2⟩ := updateMargins_spec le_rfl h2
  refine ⟨b1.trans a1, fun j => ⟨fun p q => ((b2 j).1 q).trans ((a2 j).1 p), fun hj => ?_⟩⟩
  by_cases hr : j ∈ right
  · obtain ⟨r0, v, a, m, r1, r2, r3, r4⟩ := (b2 j).2 hr
    refine ⟨r0, ?_⟩
    by_cases hl : j ∈ left
    · obtain ⟨-, v', a', m', q1, q2, q3, q4⟩ := (a2 j).2 hl
      rw [q4] at r1
      cases r1
      refine ⟨v', a, m, q1, r2, r3, ?_⟩
      rw [r4]
      simp [withMargin_twice]
    · rw [(a2 j).1 hl] at r1
      exact ⟨v, a, m, r1, r2, r3, r4⟩
  · obtain ⟨r0, v, a, m, r1, r2, r3, r4⟩ := (a2 j).2 (hj.resolve_right hr)
    exact ⟨r0, v, a, m, r1, r2, r3, by rw [(b2 j).1 hr, r4]⟩

theorem length_eq_of {α : Type} {l l' : List α} (h : ∀ j : ℕ, l[j]? = none ↔ l'[j]? = none) : l'.length = l.length := by
  simp only [List.getElem?_eq_none_iff] at h
  exact le_antisymm ((h _).1 le_rfl) ((h _).2 le_rfl)

/-- Each vertex after the update, from that before. -/
theorem update_vertex {left right : List ℕ} {mesh mesh' : Mesh} (h : updateMesh left right mesh = some mesh') :
    mesh'.triangles = mesh.triangles ∧ ∀ j, (j ∉ left → j ∉ right → mesh'.vertices[j]? = mesh.vertices[j]?) ∧
      (j ∈ left ∨ j ∈ right → ∃ v v' a, mesh.vertices[j]? = some v ∧ mesh'.vertices[j]? = some v' ∧ v'.position = v.position ∧
        v'.forwardLabel = v.forwardLabel ∧ v'.sideLabel = withMargin v.sideLabel a) := by
  by_cases hne : left = [] ∧ right = []
  · unfold updateMesh at h
    rw [if_pos hne] at h
    cases h
    refine ⟨rfl, fun j => ⟨fun _ _ => rfl, fun q => ?_⟩⟩
    rw [hne.1, hne.2] at q
    simp at q
  · obtain ⟨t, t1, m1, m2, t2, m3, -, -, h3, h4, -, h6, h7⟩ := update_parts hne h
    obtain ⟨d1, d2⟩ := derivatives_pass h3 h4
    obtain ⟨e1, e2⟩ := margins_pass h6 h7
    refine ⟨e1.trans d1, fun j => ⟨fun p q => ((e2 j).1 p q).trans ((d2 j).1 p q), fun q => ?_⟩⟩
    obtain ⟨run, v, a, -, -, p3, -, -, p6⟩ := (d2 j).2 q
    obtain ⟨-, w, b, m, q1, -, -, q4⟩ := (e2 j).2 q
    rw [p6] at q1
    cases q1
    exact ⟨v, _, b, p3, q4, rfl, rfl, rfl⟩

theorem update_position {left right : List ℕ} {mesh mesh' : Mesh} (h : updateMesh left right mesh = some mesh') {j : ℕ} {v' : Vertex}
    (hj : mesh'.vertices[j]? = some v') : ∃ v, mesh.vertices[j]? = some v ∧ v'.position = v.position ∧ v'.forwardLabel = v.forwardLabel ∧
      SameSign v'.sideLabel v.sideLabel := by
  by_cases hlr : j ∈ left ∨ j ∈ right
  · obtain ⟨v, w, a, h1, h2, h3, h4, h5⟩ := ((update_vertex h).2 j).2 hlr
    rw [h2] at hj
    cases hj
    exact ⟨v, h1, h3, h4, h5 ▸ withMargin_same _ _⟩
  · push Not at hlr
    rw [((update_vertex h).2 j).1 hlr.1 hlr.2] at hj
    exact ⟨v', hj, rfl, rfl, sameSign_refl _⟩

theorem moved_congr {v w : Vertex} (hp : v.position = w.position) (hd : v.sideDerivative = w.sideDerivative)
    (hs : SameSign v.sideLabel w.sideLabel) (t : ℝ) : moved v t = moved w t := by
  unfold moved
  rw [hp, hd]
  simp only [hs.1, hs.2]

/-- What the triangles say of the margin of a vertex, after the whole update. -/
theorem update_bounds {left right : List ℕ} {mesh mesh' : Mesh} {m : ℕ} {i j : ℕ × ℕ × ℕ} {a b c : Vertex}
    (h : updateMesh left right mesh = some mesh') (hm : First left right m) (hs : Sorted m mesh.triangles) (hi : i ∈ mesh.triangles)
    (hc : Corners i j) (hj : j.1 ∈ left ∨ j.1 ∈ right) (ha : mesh'.vertices[j.1]? = some a) (hb : mesh'.vertices[j.2.1]? = some b)
    (hcc : mesh'.vertices[j.2.2]? = some c) :
    (sideOf a.position b.position c.position ≠ 0 → marginIn a.sideLabel ≤ boundOf a b.position c.position) ∧
      (sideOf a.position b.position c.position = 0 → ¬Coincide a b c → marginIn a.sideLabel = 0) := by
  have hne : ¬(left = [] ∧ right = []) := by
    rintro ⟨rfl, rfl⟩
    simp at hj
  obtain ⟨t, t1, m1, m2, t2, m3, h1, h2, h3, h4, h5, h6, h7⟩ := update_parts hne h
  obtain ⟨d1, d2⟩ := derivatives_pass h3 h4
  obtain ⟨e1, e2⟩ := margins_pass h6 h7
  obtain ⟨n0, -, ad⟩ := forEach_adds h2
  obtain ⟨n, s1, s2, s3⟩ := forEach_margins h5
  have hmin : t2.min = m := (s2.1.trans ad.1).trans (first_unique (reset_spec h1).1 hm)
  have hmin1 : t1.min = m := ad.1.trans (first_unique (reset_spec h1).1 hm)
  obtain ⟨g0, v, x, y, g1, g2, g3, g4⟩ := (e2 j.1).2 hj
  have hnb : ¬Below m i := by
    rw [hmin] at g0
    rintro ⟨p, q, r⟩
    rcases hc with rfl | rfl | rfl
    · exact absurd p (not_lt.2 g0)
    · exact absurd q (not_lt.2 g0)
    · exact absurd r (not_lt.2 g0)
  rw [d1] at s1 s3
  rw [hmin1] at s1
  obtain ⟨a', b', c', b1, b2, b3, b4, b5⟩ := s3 i (sorted_visited hs s1 hi hnb) j hc
  rw [g1] at b1
  cases b1
  rw [g4] at ha
  cases ha
  have hpos : ∀ (k : ℕ) (u w : Vertex), m2.vertices[k]? = some u → mesh'.vertices[k]? = some w → w.position = u.position := by
    intro k u w hu hw
    by_cases hk : k ∈ left ∨ k ∈ right
    · obtain ⟨-, u', _, _, q1, -, -, q4⟩ := (e2 k).2 hk
      rw [hu] at q1
      rw [q4] at hw
      cases q1
      cases hw
      rfl
    · push Not at hk
      rw [(e2 k).1 hk.1 hk.2, hu] at hw
      cases hw
      rfl
  have pb := hpos _ _ _ b2 hb
  have pc := hpos _ _ _ b3 hcc
  dsimp only
  have hx : ∀ B, 0 ≤ B → y ≤ B → marginIn (withMargin v.sideLabel x) ≤ B := by
    intro B hB hy
    refine (marginIn_with v.sideLabel x).2.1.trans (max_le hB ((min_le_right _ _).trans (g3.trans hy)))
  constructor
  · intro hz
    rw [pb, pc] at hz
    have hbo : boundOf { v with sideLabel := withMargin v.sideLabel x } b.position c.position = boundOf v b'.position c'.position := by
      unfold boundOf
      rw [pb, pc]
      dsimp only
      have : outsetSign (withMargin v.sideLabel x) = outsetSign v.sideLabel := by
        rw [outsetSign_eq, outsetSign_eq]
        have := withMargin_same v.sideLabel x
        simp only [this.1, this.2]
      rw [this]
    rw [hbo]
    exact hx _ (boundOf_nonneg _ _ _) (b4 hz g0 y g2)
  · intro hz hco
    rw [pb, pc] at hz
    refine le_antisymm (hx 0 le_rfl (b5 hz ?_ g0 y g2)) (marginIn_with _ _).1
    unfold Coincide at hco ⊢
    rw [pb, pc] at hco
    exact hco

theorem marginIn_sign {x y : ℝ} (hx : x ≠ 0) (hy : y ≠ 0) (a : ℝ) : marginIn (withMargin x a) = marginIn (withMargin y a) := by
  have habs : ∀ z : ℝ, z ≠ 0 → |withMargin z a| = |withMargin 1 a| := by
    intro z hz
    unfold withMargin
    rw [if_neg hz, if_neg one_ne_zero, abs_mul, abs_mul]
    congr 1
    rw [outsetSign_eq, outsetSign_eq]
    rcases three z with ⟨p, q, r⟩ | ⟨p, q, r⟩ | ⟨p, q, r⟩
    · simp [p, not_lt.2 (zero_le_one (α := ℝ))]
    · exact absurd q hz
    · simp [p, q, not_lt.2 (zero_le_one (α := ℝ))]
  unfold marginIn
  rw [if_neg (fun q => hx ((withMargin_same x a).2.1 q)), if_neg (fun q => hy ((withMargin_same y a).2.1 q)), habs x hx, habs y hy]

end Verif.Derivative
