import Verif.Lemmas.DerivativeClosed

/-!
# An update of the ends of the sides does what an update of everything does
-/

set_option autoImplicit false

namespace Verif.Derivative

open Geo Spec

theorem sameAt_update {left right : List ℕ} {M r : Mesh} (h : updateMesh left right M = some r) (j : ℕ) : SameAt M r j := by
  obtain ⟨-, h2⟩ := update_vertex h
  by_cases hj : j ∈ left ∨ j ∈ right
  · obtain ⟨v, v', a, e1, e2, e3, e4, e5⟩ := (h2 j).2 hj
    exact Or.inr ⟨v, v', e1, e2, e3.symm, by rw [e5]; exact sameSign_comm (withMargin_same _ _), by rw [e4]; exact sameSign_refl _⟩
  · push Not at hj
    have e := (h2 j).1 hj.1 hj.2
    cases q : M.vertices[j]? with
    | none => exact Or.inl ⟨q, by rw [e, q]⟩
    | some v => exact Or.inr ⟨v, v, q, by rw [e, q], alike_refl v⟩

theorem reset_margins {left right : List ℕ} {M : Mesh} {t : Tracked} (h : reset left right M = some t) :
    t.margins = List.replicate (M.vertices.length - t.min) maximumMargin := by
  unfold reset at h
  dsimp only at h
  split at h
  · simp at h
  · split_ifs at h
    cases h
    rfl

theorem sameAt_derivatives {t : Tracked} {n : ℕ} {is : List ℕ} {M M' : Mesh} (hn : is.length ≤ n) (h : updateDerivatives t n is M = some M') (j : ℕ) :
    SameAt M M' j := by
  obtain ⟨-, h2⟩ := updateDerivatives_spec hn h
  by_cases hj : j ∈ is
  · obtain ⟨run, v, a, -, -, e1, -, -, e2⟩ := (h2 j).2 hj
    exact Or.inr ⟨v, _, e1, e2, rfl, sameSign_refl _, sameSign_refl _⟩
  · have e := (h2 j).1 hj
    cases q : M.vertices[j]? with
    | none => exact Or.inl ⟨q, by rw [e, q]⟩
    | some v => exact Or.inr ⟨v, v, q, by rw [e, q], alike_refl v⟩

theorem sameAt_margins {t : Tracked} {n : ℕ} {is : List ℕ} {M M' : Mesh} (hn : is.length ≤ n) (h : updateMargins t n is M = some M') (j : ℕ) :
    SameAt M M' j ∧ SameSide' M M' j := by
  obtain ⟨-, h2⟩ := updateMargins_spec hn h
  by_cases hj : j ∈ is
  · obtain ⟨-, v, a, m, e1, -, -, e2⟩ := (h2 j).2 hj
    refine ⟨Or.inr ⟨v, _, e1, e2, rfl, sameSign_comm (withMargin_same _ _), sameSign_refl _⟩, fun x y hx hy => ?_⟩
    rw [e1] at hx
    rw [e2] at hy
    cases hx
    cases hy
    rfl
  · have e := (h2 j).1 hj
    constructor
    · cases q : M.vertices[j]? with
      | none => exact Or.inl ⟨q, by rw [e, q]⟩
      | some v => exact Or.inr ⟨v, v, q, by rw [e, q], alike_refl v⟩
    · intro x y hx hy
      rw [e, hx] at hy
      cases hy
      rfl

/-- What an update gives to the vertices of a side. -/
structure Closed (M r : Mesh) (S : List ℕ) : Prop where
  derivatives : ∀ run ∈ S.splitBy (alikeAt M), ∀ j ∈ run, ∃ w, r.vertices[j]? = some w ∧ w.sideDerivative = (runAverage M run).side.value ∧
    w.forwardDerivative = (runAverage M run).forward.value
  margins : ∀ run ∈ S.splitBy (connAt M), ∀ j ∈ run, ∃ v w, M.vertices[j]? = some v ∧ r.vertices[j]? = some w ∧
    w.sideLabel = withMargin v.sideLabel (runMargin r run)

theorem updateMesh_closed {left right : List ℕ} {M r : Mesh} {m : ℕ} (h : updateMesh left right M = some r) (hm : First left right m)
    (hs : Sorted m M.triangles) (hd : (left ++ right).Nodup) : Closed M r left ∧ Closed M r right := by
  have hne : ¬(left = [] ∧ right = []) := by
    rintro ⟨rfl, rfl⟩
    simp [First] at hm
  obtain ⟨t, t1, m1, m2, t2, m3, h1, h2, h3, h4, h5, h6, h7⟩ := update_parts hne h
  obtain ⟨nl, nr, hdis⟩ := List.nodup_append'.1 hd
  have avg := tracked_average h1 h2 hm hs
  have tri1 := (updateDerivatives_spec le_rfl h3).1
  have tri2 := (updateDerivatives_spec le_rfl h4).1
  have tri3 := (updateMargins_spec le_rfl h6).1
  have tri4 := (updateMargins_spec le_rfl h7).1
  have s1 := sameAt_derivatives le_rfl h3
  have s2 : ∀ j, SameAt M m2 j := fun j => (s1 j).trans (sameAt_derivatives le_rfl h4 j)
  have s3 : ∀ j, SameAt m2 r j := fun j => (sameAt_margins le_rfl h6 j).1.trans (sameAt_margins le_rfl h7 j).1
  have d3 : ∀ j, SameSide' m2 r j := fun j v w hv hw => by
    rcases (sameAt_margins le_rfl h6 j).1 with ⟨q, -⟩ | ⟨v', u, q1, q2, -⟩
    · rw [q] at hv; simp at hv
    · exact ((sameAt_margins le_rfl h6 j).2 v u hv q2).trans ((sameAt_margins le_rfl h7 j).2 u w q2 hw)
  -- the stored margins
  have marg : ∀ x a, t2.min ≤ x → t2.margins[x - t2.min]? = some a → a = marginAt r x := by
    obtain ⟨r1, r2, -, -⟩ := reset_spec h1
    obtain rfl := first_unique hm r1
    obtain ⟨-, -, ⟨a1, a2, -, -⟩⟩ := forEach_adds h2
    obtain ⟨n, n1, n2, n3⟩ := forEach_changes h5
    intro x a hx ha
    rw [n2] at hx ha
    rw [n3 x hx, a1, a2, reset_margins h1, List.getElem?_replicate] at ha
    have e : marginAt m2 x = marginAt r x := by
      refine marginAt_congr ?_ (fun i _ _ => ⟨s3 _, s3 _, s3 _⟩) (d3 x)
      rw [tri4, tri3]
    rw [a1] at n1 hx
    split_ifs at ha
    · simp only [Option.map_some, Option.some.injEq] at ha
      rw [← ha, ← e]
      exact margin_take (by rw [tri2, tri1]; exact hs) n1 hx
    · simp at ha
  have fin : ∀ {j : ℕ} {v : Vertex}, m2.vertices[j]? = some v → ∃ w, r.vertices[j]? = some w ∧ w.sideDerivative = v.sideDerivative ∧
      w.forwardDerivative = v.forwardDerivative := by
    intro j v hv
    obtain ⟨-, e2⟩ := margins_pass h6 h7
    by_cases hj : j ∈ left ∨ j ∈ right
    · obtain ⟨-, w, a, _, q1, -, -, q4⟩ := (e2 j).2 hj
      rw [hv] at q1
      cases q1
      exact ⟨_, q4, rfl, rfl⟩
    · push Not at hj
      exact ⟨v, by rw [(e2 j).1 hj.1 hj.2]; exact hv, rfl, rfl⟩
  have lab : ∀ {j : ℕ} {v : Vertex}, m2.vertices[j]? = some v → ∃ w, M.vertices[j]? = some w ∧ v.sideLabel = w.sideLabel := by
    intro j v hv
    obtain ⟨-, e2⟩ := derivatives_pass h3 h4
    by_cases hj : j ∈ left ∨ j ∈ right
    · obtain ⟨_, w, a, -, -, q1, -, -, q4⟩ := (e2 j).2 hj
      rw [hv] at q4
      cases q4
      exact ⟨w, q1, rfl⟩
    · push Not at hj
      rw [(e2 j).1 hj.1 hj.2] at hv
      exact ⟨v, hv, rfl⟩
  constructor
  · constructor
    · intro run hrun j hj
      obtain ⟨a, a1, a2⟩ := updateDerivatives_closed le_rfl nl h3 run hrun
      obtain ⟨v, v1, v2⟩ := a2 j hj
      have hjl : j ∈ left := by
        rw [← List.flatten_splitBy (alikeAt M) left]
        exact List.mem_flatten.2 ⟨run, hrun, hj⟩
      rw [← ((updateDerivatives_spec le_rfl h4).2 j).1 (hdis hjl)] at v2
      obtain ⟨w, w1, w2, w3⟩ := fin v2
      have e := averagesOf_eq avg a1
      refine ⟨w, w1, w2.trans ?_, w3.trans ?_⟩
      · rw [e]; rfl
      · rw [e]; rfl
    · intro run hrun j hj
      rw [splitBy_congr fun x _ y _ => connAt_congr (s2 x) (s2 y)] at hrun
      obtain ⟨a, a1, a2⟩ := updateMargins_closed le_rfl nl h6 run hrun
      obtain ⟨v, v1, v2⟩ := a2 j hj
      have hjl : j ∈ left := by
        rw [← List.flatten_splitBy (connAt m2) left]
        exact List.mem_flatten.2 ⟨run, hrun, hj⟩
      rw [← ((updateMargins_spec le_rfl h7).2 j).1 (hdis hjl)] at v2
      obtain ⟨u, u1, u2⟩ := lab v1
      refine ⟨u, _, u1, v2, ?_⟩
      rw [marginOf_eq marg a1, u2]
      rfl
  · constructor
    · intro run hrun j hj
      rw [splitBy_congr fun x _ y _ => alikeAt_congr (s1 x) (s1 y)] at hrun
      obtain ⟨a, a1, a2⟩ := updateDerivatives_closed le_rfl nr h4 run hrun
      obtain ⟨v, v1, v2⟩ := a2 j hj
      obtain ⟨w, w1, w2, w3⟩ := fin v2
      have e := averagesOf_eq avg a1
      refine ⟨w, w1, w2.trans ?_, w3.trans ?_⟩
      · rw [e]; rfl
      · rw [e]; rfl
    · intro run hrun j hj
      rw [splitBy_congr fun x _ y _ => connAt_congr ((s2 x).trans (sameAt_margins le_rfl h6 x).1) ((s2 y).trans (sameAt_margins le_rfl h6 y).1)] at hrun
      obtain ⟨a, a1, a2⟩ := updateMargins_closed le_rfl nr h7 run hrun
      obtain ⟨v, v1, v2⟩ := a2 j hj
      have hjr : j ∈ right := by
        rw [← List.flatten_splitBy (connAt m3) right]
        exact List.mem_flatten.2 ⟨run, hrun, hj⟩
      have hjl : j ∉ left := fun q => hdis q hjr
      rw [((updateMargins_spec le_rfl h6).2 j).1 hjl] at v1
      obtain ⟨u, u1, u2⟩ := lab v1
      refine ⟨u, _, u1, v2, ?_⟩
      rw [marginOf_eq marg a1, u2]
      rfl

/-- A list of indices does not end in the middle of a run. -/
def Cut (M : Mesh) (pre post : List ℕ) : Prop := ∀ x ∈ pre.getLast?, ∀ y ∈ post.head?, connAt M x y = false

theorem cut_alike {M : Mesh} {pre post : List ℕ} (h : Cut M pre post) : ∀ x ∈ pre.getLast?, ∀ y ∈ post.head?, alikeAt M x y = false := by
  intro x hx y hy
  by_contra q
  rw [Bool.not_eq_false, alikeAt_true] at q
  obtain ⟨v, w, a, b, c⟩ := q
  have := h x hx y hy
  rw [connAt_true.2 ⟨v, w, a, b, alike_connected c⟩] at this
  simp at this

theorem mem_run {r : ℕ → ℕ → Bool} {S : List ℕ} {j : ℕ} (hj : j ∈ S) : ∃ run ∈ S.splitBy r, j ∈ run := by
  rw [← List.flatten_splitBy r S] at hj
  exact List.mem_flatten.1 hj

theorem run_subset {r : ℕ → ℕ → Bool} {S run : List ℕ} (h : run ∈ S.splitBy r) : ∀ j ∈ run, j ∈ S := fun j hj => by
  rw [← List.flatten_splitBy r S]
  exact List.mem_flatten.2 ⟨run, h, hj⟩

/-- The triangles of a vertex -/
def trianglesOf (M : Mesh) (x : ℕ) : List (ℕ × ℕ × ℕ) := M.triangles.filter fun i => decide (x = i.1 ∨ x = i.2.1 ∨ x = i.2.2)

/-- Two updates give the same to a part of a side that has the same runs, triangles and vertices. -/
theorem closed_agree {M M' r r' : Mesh} {S S' P : List ℕ} (h : Closed M r S) (h' : Closed M' r' S')
    (p1 : ∀ run ∈ P.splitBy (alikeAt M), run ∈ S.splitBy (alikeAt M)) (p2 : ∀ run ∈ P.splitBy (connAt M), run ∈ S.splitBy (connAt M))
    (p1' : ∀ run ∈ P.splitBy (alikeAt M'), run ∈ S'.splitBy (alikeAt M')) (p2' : ∀ run ∈ P.splitBy (connAt M'), run ∈ S'.splitBy (connAt M'))
    (sr : ∀ j, SameAt M r j) (sr' : ∀ j, SameAt M' r' j) (tr : r.triangles = M.triangles) (tr' : r'.triangles = M'.triangles)
    (ps : ∀ j ∈ P, SameAt M M' j) (pt : ∀ x ∈ P, trianglesOf M x = trianglesOf M' x)
    (pc : ∀ x ∈ P, ∀ i ∈ M.triangles, x = i.1 ∨ x = i.2.1 ∨ x = i.2.2 → SameAt M M' i.1 ∧ SameAt M M' i.2.1 ∧ SameAt M M' i.2.2) :
    ∀ j ∈ P, ∃ w w', r.vertices[j]? = some w ∧ r'.vertices[j]? = some w' ∧ w.sideDerivative = w'.sideDerivative ∧
      w.forwardDerivative = w'.forwardDerivative ∧ w.sideLabel = w'.sideLabel := by
  have e1 : P.splitBy (alikeAt M) = P.splitBy (alikeAt M') := splitBy_congr fun x hx y hy => alikeAt_congr (ps x hx) (ps y hy)
  have e2 : P.splitBy (connAt M) = P.splitBy (connAt M') := splitBy_congr fun x hx y hy => connAt_congr (ps x hx) (ps y hy)
  have der : ∀ j ∈ P, ∃ w w', r.vertices[j]? = some w ∧ r'.vertices[j]? = some w' ∧ w.sideDerivative = w'.sideDerivative ∧
      w.forwardDerivative = w'.forwardDerivative := by
    intro j hj
    obtain ⟨run, hrun, hjr⟩ := mem_run (r := alikeAt M) hj
    obtain ⟨w, w1, w2, w3⟩ := h.derivatives run (p1 run hrun) j hjr
    obtain ⟨w', w1', w2', w3'⟩ := h'.derivatives run (p1' run (by rw [← e1]; exact hrun)) j hjr
    have e : runAverage M run = runAverage M' run := by
      unfold runAverage
      refine List.foldl_ext _ _ _ fun a x hx => ?_
      have hxP := run_subset hrun x hx
      rw [averageAt_congr (pt x hxP) (pc x hxP)]
    exact ⟨w, w', w1, w1', by rw [w2, w2', e], by rw [w3, w3', e]⟩
  intro j hj
  obtain ⟨run, hrun, hjr⟩ := mem_run (r := connAt M) hj
  obtain ⟨v, w, v1, w1, w2⟩ := h.margins run (p2 run hrun) j hjr
  obtain ⟨v', w', v1', w1', w2'⟩ := h'.margins run (p2' run (by rw [← e2]; exact hrun)) j hjr
  obtain ⟨u, u', u1, u1', u2, u3⟩ := der j hj
  rw [w1] at u1
  rw [w1'] at u1'
  cases u1
  cases u1'
  refine ⟨w, w', w1, w1', u2, u3, ?_⟩
  have e : runMargin r run = runMargin r' run := by
    unfold runMargin
    refine List.foldl_ext _ _ _ fun a x hx => ?_
    have hxP := run_subset hrun x hx
    rw [marginAt_congr (M' := r') ?_ (fun i hi hx' => ?_) fun a b ha hb => ?_]
    · rw [tr, tr']; exact pt x hxP
    · rw [tr] at hi
      obtain ⟨q1, q2, q3⟩ := pc x hxP i hi hx'
      exact ⟨(sr _).symm.trans (q1.trans (sr' _)), (sr _).symm.trans (q2.trans (sr' _)), (sr _).symm.trans (q3.trans (sr' _))⟩
    · obtain ⟨y, y', y1, y1', y2, -⟩ := der x hxP
      rw [ha] at y1
      rw [hb] at y1'
      cases y1
      cases y1'
      exact y2
  rw [w2, w2', e]
  rcases ps j hj with ⟨q, -⟩ | ⟨a, b, q1, q2, q3⟩
  · rw [v1] at q; simp at q
  · rw [v1] at q1
    rw [v1'] at q2
    cases q1
    cases q2
    exact withMargin_congr q3.2.1 _

end Verif.Derivative
