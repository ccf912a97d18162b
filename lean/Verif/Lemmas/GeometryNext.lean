import Verif.Lemmas.GeometryUpdate

/-!
# After a stroke was extended, the update of its end gives what an update of everything gives
-/

set_option autoImplicit false

namespace Verif.Derivative

open Geo Spec
open PartialOutline (SideId)

/-- The corner of a triangle on a side, of the two that are before the last -/
def cornerOn (t : ℕ × ℕ × ℕ) : SideId → ℕ
  | .left => t.1
  | .right => t.2.1

theorem cornerOn_last {g : Geometry} (hg : Strip g) {t : ℕ × ℕ × ℕ} (ht : t ∈ g.mesh.triangles) (k : SideId) :
    LastBefore g.sideIds k t.2.2 (cornerOn t k) := by
  obtain ⟨-, h1, h2⟩ := hg.triangles t ht
  cases k
  exacts [h1, h2]

/-- A corner is the last vertex of the triangle, or the last one of its side before. -/
theorem corner_cases {g : Geometry} (hg : Strip g) {t : ℕ × ℕ × ℕ} (ht : t ∈ g.mesh.triangles) {x : ℕ} {k : SideId} (hx : Corner x t)
    (hk : g.sideIds[x]? = some k) : x = t.2.2 ∨ x = cornerOn t k := by
  obtain ⟨-, h1, h2⟩ := hg.triangles t ht
  rcases hx with rfl | rfl | rfl
  · right
    rw [h1.1] at hk
    cases hk
    rfl
  · right
    rw [h2.1] at hk
    cases hk
    rfl
  · exact Or.inl rfl

/-- The corners of a triangle are not before a vertex of their side that is before its last vertex. -/
theorem corner_ge {g : Geometry} (hg : Strip g) {t : ℕ × ℕ × ℕ} (ht : t ∈ g.mesh.triangles) {x z : ℕ} {k : SideId} (hx : Corner x t)
    (hk : g.sideIds[x]? = some k) (hz : g.sideIds[z]? = some k) (hzt : z < t.2.2) : z ≤ x := by
  rcases corner_cases hg ht hx hk with rfl | rfl
  · exact hzt.le
  · exact lastBefore_le (cornerOn_last hg ht k) hz hzt

theorem toUpdate_zero {g : Geometry} (h : g.firstMutated = some 0) : g.toUpdate = some (g.left, g.right) := by
  unfold Geometry.toUpdate
  rw [h]
  simp

theorem toUpdate_later {g : Geometry} (hg : Strip g) {i : ℕ} {t : ℕ × ℕ × ℕ} (h : g.firstMutated = some i) (hi : i ≠ 0) (ht : g.mesh.triangles[i]? = some t) :
    ∃ a b y z, g.toUpdate = some (g.left.drop a, g.right.drop b) ∧ g.left[a]? = some y ∧ y ≤ t.1 ∧ Start g.mesh (g.left.take a) (g.left.drop a) ∧
      g.right[b]? = some z ∧ z ≤ t.2.1 ∧ Start g.mesh (g.right.take b) (g.right.drop b) := by
  obtain ⟨-, h1, h2⟩ := hg.triangles t (List.mem_of_getElem? ht)
  obtain ⟨a, y, a1, a2, a3, a4⟩ := subspan_spec hg h1.1
  obtain ⟨b, z, b1, b2, b3, b4⟩ := subspan_spec hg h2.1
  refine ⟨a, b, y, z, ?_, a2, a3, a4, b2, b3, b4⟩
  unfold Geometry.toUpdate
  rw [h, Option.bind_some, if_neg hi, findFirst_spec hg ht, Option.bind_some]
  dsimp only
  have a1' : g.subspan g.left (some t.1) = some (g.left.drop a) := a1
  have b1' : g.subspan g.right (some t.2.1) = some (g.right.drop b) := b1
  rw [a1', Option.bind_some, b1']
  rfl

/-- No triangle from the first one to update on: nothing is updated. -/
theorem toUpdate_none {g : Geometry} {i : ℕ} (h : g.firstMutated = some i) (hi : i ≠ 0) (ht : g.mesh.triangles.length ≤ i) :
    g.toUpdate = some ([], []) := by
  unfold Geometry.toUpdate
  rw [h, Option.bind_some, if_neg hi, List.drop_eq_nil_of_le ht, findFirst]
  rfl

/-- What is updated is always the end of each side. -/
theorem toUpdate_total {g : Geometry} (hg : Strip g) (hf : g.firstTriangle ≤ g.mesh.triangles.length) :
    ∃ a b, g.toUpdate = some (g.left.drop a, g.right.drop b) := by
  obtain ⟨i, i1, i2, -⟩ := firstMutated_spec hg hf
  by_cases h0 : i = 0
  · subst h0
    exact ⟨0, 0, toUpdate_zero i1⟩
  · by_cases hl : i < g.mesh.triangles.length
    · obtain ⟨a, b, y, z, e, -⟩ := toUpdate_later hg i1 h0 (List.getElem?_eq_getElem hl)
      exact ⟨a, b, e⟩
    · refine ⟨g.left.length, g.right.length, ?_⟩
      rw [toUpdate_none i1 h0 (by omega), List.drop_length, List.drop_length]

theorem update_cases {g r : Geometry} (h : g.updateDerivatives = some r) :
    ∃ p M, g.toUpdate = some p ∧ updateMesh p.1 p.2 g.mesh = some M ∧
      r = { g with mesh := M, firstLeft := lowerFirst g.firstLeft p.1, firstRight := lowerFirst g.firstRight p.2 } := by
  unfold Geometry.updateDerivatives at h
  cases e : g.toUpdate with
  | none => rw [e] at h; simp at h
  | some p =>
    rw [e, Option.bind_some] at h
    cases e' : updateMesh p.1 p.2 g.mesh with
    | none => rw [e'] at h; simp at h
    | some M =>
      rw [e'] at h
      cases h
      exact ⟨p, M, rfl, e', rfl⟩

theorem uptodate_zero {g r : Geometry} (hg : Strip g) (h0 : g.firstMutated = some 0) (h : g.updateDerivatives = some r) : UpToDate r := by
  obtain ⟨p, M, e1, e2, rfl⟩ := update_cases h
  rw [toUpdate_zero h0] at e1
  cases e1
  exact whole_again (n := g.firstTriangle) hg e2 e2 fun _ _ _ _ => rfl

/-- One side: the vertices that are updated. -/
theorem agree_post {g : Geometry} {M F : Mesh} {S l r L R : List ℕ} {o : ℕ} (h : updateMesh l r g.mesh = some M)
    (hF : updateMesh L R g.mesh = some F) (c : Closed g.mesh M (S.drop o)) (cF : Closed g.mesh F S) (hc : Cut g.mesh (S.take o) (S.drop o)) {x : ℕ}
    (hx : x ∈ S.drop o) : F.vertices[x]? = M.vertices[x]? := by
  obtain ⟨s1, s2⟩ := cut_runs hc
  rw [List.take_append_drop] at s1 s2
  have ag := closed_agree (P := S.drop o) cF c (fun q hq => by rw [s1]; exact List.mem_append_right _ hq) (fun q hq => by rw [s2]; exact List.mem_append_right _ hq)
    (fun _ q => q) (fun _ q => q) (sameAt_update hF) (sameAt_update h) (update_vertex hF).1 (update_vertex h).1 (fun j _ => SameAt.refl _ j) (fun _ _ => rfl)
    (fun _ _ _ _ _ => ⟨SameAt.refl _ _, SameAt.refl _ _, SameAt.refl _ _⟩) x hx
  obtain ⟨w, w', w1, w2, -⟩ := id ag
  obtain ⟨v, v1, -⟩ := update_position hF w1
  exact vertex_eq hF h v1 v1 rfl rfl ag

theorem closed_side {g : Geometry} (hg : Strip g) {F : Mesh} (h : updateMesh g.left g.right g.mesh = some F) (k : SideId) : Closed g.mesh F (side g k) := by
  have c := part_closed hg (a := 0) (b := 0) (by rw [List.drop_zero, List.drop_zero]; exact h)
  simp only [List.drop_zero] at c
  cases k
  exacts [c.1, c.2]

/-- One side: the vertices that are not updated. -/
theorem agree_pre {old new : Geometry} {c : ℕ} {M F Fo : Mesh} {l r : List ℕ} (ho : Strip old) (hn : Strip new) (hb : Became old new c)
    (hu : updateMesh old.left old.right old.mesh = some Fo) (hu' : ∀ t ∈ old.mesh.triangles, ∀ x, Corner x t → Fo.vertices[x]? = old.mesh.vertices[x]?)
    (hF : updateMesh new.left new.right new.mesh = some F) (hM : updateMesh l r new.mesh = some M) {i : ℕ} {t : ℕ × ℕ × ℕ} (hi : i ≤ new.firstTriangle)
    (hq : ∀ t ∈ new.mesh.triangles.take i, ∀ x, Corner x t → ¬Noted new x) (ht : new.mesh.triangles[i]? = some t) (k : SideId) (hk : cornerOn t k < c)
    {o y : ℕ} (hy : (side new k)[o]? = some y) (hyt : y ≤ cornerOn t k) (hs : Start new.mesh ((side new k).take o) ((side new k).drop o)) {x : ℕ}
    (hx : x ∈ (side new k).take o) (hl : x ∉ l) (hr : x ∉ r) {u : ℕ × ℕ × ℕ} (hu2 : u ∈ new.mesh.triangles) (hxu : Corner x u) :
    F.vertices[x]? = M.vertices[x]? := by
  have hyk : new.sideIds[y]? = some k := (mem_side hn).1 (List.mem_of_getElem? hy)
  have hyc : y < c := by omega
  obtain ⟨i1, i2⟩ := List.getElem?_eq_some_iff.1 ht
  have htm : t ∈ new.mesh.triangles := List.mem_of_getElem? ht
  have hct := cornerOn_last hn htm k
  -- the vertices of the first part
  have hpre : ∀ z ∈ (side new k).take o, z < y ∧ new.sideIds[z]? = some k := by
    intro z hz
    refine ⟨?_, (mem_side hn).1 ((List.take_sublist _ _).subset hz)⟩
    obtain ⟨q, hq1, hq2⟩ := List.mem_take_iff_getElem.1 hz
    obtain ⟨o1, o2⟩ := List.getElem?_eq_some_iff.1 hy
    have := List.pairwise_iff_getElem.1 (side_sorted hn k) q o (by omega) o1 (by omega)
    rw [hq2, o2] at this
    exact this
  have quiet : ∀ z ∈ (side new k).take o, ¬Noted new z := by
    intro z hz hz'
    obtain ⟨z1, z2⟩ := hpre z hz
    have := lastBefore_le (hb.last k z (by omega) z2 hz') hyk hyc
    omega
  -- their triangles are before the first one to update
  have early : ∀ z ∈ (side new k).take o, ∀ u ∈ new.mesh.triangles, Corner z u → u ∈ new.mesh.triangles.take i := by
    intro z hz u hu hzu
    obtain ⟨z1, z2⟩ := hpre z hz
    obtain ⟨j, hj, ej⟩ := List.mem_iff_getElem.1 hu
    by_cases hji : j < i
    · exact List.mem_take_iff_getElem.2 ⟨j, by omega, ej⟩
    · exfalso
      have h1 : t.2.2 ≤ u.2.2 := by
        rcases (not_lt.1 hji).lt_or_eq with q | q
        · have := List.pairwise_iff_getElem.1 hn.increasing i j i1 hj q
          rw [i2, ej] at this
          exact this.le
        · subst q
          rw [i2] at ej
          rw [ej]
      have := corner_ge hn hu hzu z2 hct.1 (lt_of_lt_of_le hct.2.1 h1)
      omega
  have keep : ∀ u ∈ new.mesh.triangles.take i, u ∈ new.mesh.triangles.take new.firstTriangle := fun u hu => List.take_subset_take_left _ hi hu
  have inOld : ∀ u ∈ new.mesh.triangles.take i, u ∈ old.mesh.triangles := fun u hu => by
    have := keep u hu
    rw [hb.kept] at this
    exact (List.take_sublist _ _).subset this
  have late : ∀ z ∈ (side new k).take o, ∀ u ∈ old.mesh.triangles.drop new.firstTriangle, ¬Corner z u := by
    intro z hz u hu hzu
    obtain ⟨z1, z2⟩ := hpre z hz
    have h1 := hb.removed u hu
    have := corner_ge ho ((List.drop_sublist _ _).subset hu) hzu (by rw [← hb.ids z (by omega)]; exact z2)
      (by rw [← hb.ids _ hk]; exact hct.1) (lt_of_lt_of_le hk h1)
    omega
  have lateNew : ∀ z ∈ (side new k).take o, ∀ u ∈ new.mesh.triangles.drop new.firstTriangle, ¬Corner z u := by
    intro z hz u hu hzu
    obtain ⟨z1, z2⟩ := hpre z hz
    have h1 := hb.added u hu
    have := corner_ge hn ((List.drop_sublist _ _).subset hu) hzu z2 hct.1 (lt_of_lt_of_le hk h1)
    omega
  have tri : ∀ z ∈ (side new k).take o, trianglesOf new.mesh z = trianglesOf old.mesh z := by
    intro z hz
    unfold trianglesOf
    have f : ∀ ts : List (ℕ × ℕ × ℕ), (∀ u ∈ ts, ¬Corner z u) → ts.filter (fun i => decide (z = i.1 ∨ z = i.2.1 ∨ z = i.2.2)) = [] := by
      intro ts h
      rw [List.filter_eq_nil_iff]
      intro u hu
      rw [decide_eq_true_eq]
      exact h u hu
    rw [← List.take_append_drop new.firstTriangle new.mesh.triangles, ← List.take_append_drop new.firstTriangle old.mesh.triangles, List.filter_append,
      List.filter_append, f _ (lateNew z hz), f _ (late z hz), hb.kept]
  have sameAt : ∀ z, z < c → ¬Noted new z → SameAt new.mesh old.mesh z := by
    intro z hz hz'
    have e := hb.same z hz hz'
    cases q : old.mesh.vertices[z]? with
    | none => exact Or.inl ⟨by rw [e, q], q⟩
    | some v => exact Or.inr ⟨v, v, by rw [e, q], q, alike_refl v⟩
  -- the parts begin at the same place in the old mesh
  obtain ⟨post, p1, p2⟩ := kept_prefix ho hn hb.count hb.ids hy hyc
  have cutOld : Cut old.mesh ((side new k).take o) post := by
    intro a ha b hb'
    rw [p2] at hb'
    cases hb'
    have am := List.mem_of_getLast? ha
    obtain ⟨a1, a2⟩ := hpre a am
    have sa := sameAt a (by omega) (quiet a am)
    have hh : y ∈ ((side new k).drop o).head? := by rw [List.head?_drop]; exact hy
    by_cases hny : Noted new y
    · by_contra q
      rw [Bool.not_eq_false, connAt_true] at q
      obtain ⟨v, w, v1, w1, c1, c2⟩ := q
      have hv := hb.same a (by omega) (quiet a am)
      rw [v1] at hv
      obtain ⟨w', hw'⟩ : ∃ w', new.mesh.vertices[y]? = some w' := ⟨_, List.getElem?_eq_getElem (by have := hb.count.2; omega)⟩
      have hcons : LastBefore new.sideIds k y a := by
        cases o with
        | zero => simp at ha
        | succ o =>
          exact side_consecutive hn (last_take (by have := (List.getElem?_eq_some_iff.1 hy).1; omega) ha) hy
      have own : ∀ u ∈ new.mesh.triangles.take new.firstTriangle, u.2.2 ≠ y := by
        intro u hu e
        obtain ⟨j, hj, ej⟩ := List.mem_take_iff_getElem.1 hu
        rcases Nat.lt_or_ge j i with hji | hji
        · exact hq u (List.mem_take_iff_getElem.2 ⟨j, by omega, ej⟩) y (Or.inr (Or.inr e.symm)) hny
        · have h1 : t.2.2 ≤ u.2.2 := by
            rcases hji.lt_or_eq with q | q
            · have := List.pairwise_iff_getElem.1 hn.increasing i j i1 (by omega) q
              rw [i2, ej] at this
              exact this.le
            · subst q
              rw [i2] at ej
              rw [ej]
          have := hct.2.1
          omega
      obtain ⟨q1, q2⟩ := hb.place k a y v w w' (hb.last k y hyc hyk hny) hcons own v1 w1 hw' c1
      rcases hs a ha y hh v w' hv hw' with q | ⟨q3, q4⟩
      · exact q (by rw [q1]; exact c1)
      · exact absurd (c2 q3) (not_lt.2 (q2 q4))
    · rw [← connAt_congr sa (sameAt y hyc hny)]
      exact hs.cut a ha y hh
  obtain ⟨s1, s2⟩ := cut_runs hs.cut
  rw [List.take_append_drop] at s1 s2
  obtain ⟨s1', s2'⟩ := cut_runs cutOld
  rw [← p1] at s1' s2'
  have ag := closed_agree (P := (side new k).take o) (closed_side hn hF k) (closed_side ho hu k) (fun q hq => by rw [s1]; exact List.mem_append_left _ hq)
    (fun q hq => by rw [s2]; exact List.mem_append_left _ hq) (fun q hq => by rw [s1']; exact List.mem_append_left _ hq)
    (fun q hq => by rw [s2']; exact List.mem_append_left _ hq) (sameAt_update hF) (sameAt_update hu) (update_vertex hF).1 (update_vertex hu).1
    (fun z hz => sameAt z (by have := (hpre z hz).1; omega) (quiet z hz)) tri
    (fun z hz u hu hzu => by
      have hu' := early z hz u hu hzu
      have hlt := hb.before u (keep u hu')
      have one : ∀ w, Corner w u → SameAt new.mesh old.mesh w := fun w hw => sameAt w (lt_of_le_of_lt (corner_le hn hu hw) hlt) (hq u hu' w hw)
      exact ⟨one _ (Or.inl rfl), one _ (Or.inr (Or.inl rfl)), one _ (Or.inr (Or.inr rfl))⟩) x hx
  obtain ⟨x1, x2⟩ := hpre x hx
  have ex := hb.same x (by omega) (quiet x hx)
  obtain ⟨v, hv⟩ : ∃ v, new.mesh.vertices[x]? = some v := ⟨_, List.getElem?_eq_getElem (by have := hb.count.2; omega)⟩
  rw [vertex_eq hF hu hv (by rw [← ex]; exact hv) rfl rfl ag, hu' u (inOld u (early x hx u hu2 hxu)) x hxu, ← ex, ((update_vertex hM).2 x).1 hl hr]

theorem not_mem_drop {S : List ℕ} {o x : ℕ} (hs : S.Pairwise (· < ·)) (hx : x ∈ S.take o) : x ∉ S.drop o := by
  intro h
  have nd : (S.take o ++ S.drop o).Nodup := by
    rw [List.take_append_drop]
    exact hs.imp fun h => ne_of_lt h
  exact (List.nodup_append'.1 nd).2.2 hx h

theorem uptodate_next {old new r : Geometry} {c : ℕ} (ho : Strip old) (hu : UpToDate old) (hn : Strip new) (hb : Became old new c)
    (h : new.updateDerivatives = some r) : UpToDate r := by
  obtain ⟨i, i1, i2, i3, i4⟩ := firstMutated_spec hn hb.first
  by_cases h0 : i = 0
  · subst h0
    exact uptodate_zero hn i1 h
  obtain ⟨Fo, u1, u2⟩ := hu
  obtain ⟨F, hF⟩ := part_total hn 0 0
  rw [List.drop_zero, List.drop_zero] at hF
  -- the first triangle to update is at the end of the kept ones or among them
  obtain ⟨t, t1, t2⟩ : ∃ t, new.mesh.triangles[i]? = some t ∧ ∀ k, cornerOn t k < c := by
    rcases i2.lt_or_eq with q | q
    · have hl : i < new.mesh.triangles.length := by have := hb.first; omega
      refine ⟨_, List.getElem?_eq_getElem hl, fun k => ?_⟩
      have hm : new.mesh.triangles[i] ∈ new.mesh.triangles.take new.firstTriangle := List.mem_take_iff_getElem.2 ⟨i, by omega, rfl⟩
      have := hb.before _ hm
      have := (cornerOn_last hn (List.getElem_mem hl) k).2.1
      omega
    · rcases hb.reach with q' | ⟨t, q1, q2, q3⟩
      · have := i4 q'
        omega
      · refine ⟨t, by rw [q]; exact q1, fun k => ?_⟩
        cases k
        exacts [q2.2.1, q3.2.1]
  obtain ⟨a, b, y, z, e, a1, a2, a3, b1, b2, b3⟩ := toUpdate_later hn i1 h0 t1
  obtain ⟨p, M, e1, e2, rfl⟩ := update_cases h
  rw [e] at e1
  cases e1
  dsimp only at e2
  have cM := part_closed hn e2
  refine whole_again (n := new.firstTriangle) hn e2 hF fun u hu x hx => ?_
  have hxl : x < new.mesh.vertices.length := lt_of_le_of_lt (corner_le hn hu hx) (hn.triangles u hu).1
  obtain ⟨k, hk⟩ := side_of hn hxl
  have hm := (mem_side hn).2 hk
  have other : ∀ k' o, k' ≠ k → x ∉ (side new k').drop o := fun k' o hne q => by
    have := (mem_side hn).1 ((List.drop_sublist _ _).subset q)
    rw [hk] at this
    cases this
    exact hne rfl
  cases k with
  | left =>
    rw [← List.take_append_drop a (side new .left), List.mem_append] at hm
    rcases hm with hm | hm
    · exact agree_pre ho hn hb u1 u2 hF e2 i2 i3 t1 .left (t2 _) a1 a2 a3 hm (not_mem_drop (side_sorted hn .left) hm) (other .right b (by simp)) hu hx
    · exact agree_post e2 hF cM.1 (closed_side hn hF .left) a3.cut hm
  | right =>
    rw [← List.take_append_drop b (side new .right), List.mem_append] at hm
    rcases hm with hm | hm
    · exact agree_pre ho hn hb u1 u2 hF e2 i2 i3 t1 .right (t2 _) b1 b2 b3 hm (other .left a (by simp)) (not_mem_drop (side_sorted hn .right) hm) hu hx
    · exact agree_post e2 hF cM.2 (closed_side hn hF .right) b3.cut hm

end Verif.Derivative
