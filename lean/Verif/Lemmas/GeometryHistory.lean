import Verif.Lemmas.GeometryNext
import Verif.Lemmas.TriangulationMarks
import Verif.Spec.GeometryHistory

/-!
# Lemmas for C79: meshes of the triangulation
-/

set_option autoImplicit false
set_option linter.unusedSectionVars false

namespace Verif.Derivative

open Geo Spec
open PartialOutline (SideId)
open Triangulation (State Op run Forward Fine Tail Inv Core run_fine run_spec mark marks Follows fine_empty inv_empty)
open Triangulation.Spec (verticesOf positionOf Connects)

variable {K : Type} [Field K] [LinearOrder K]

theorem shows_side {place : Pt K → Pt ℝ} {g : Geometry} {s : State K} (h : Shows place g s) (k : SideId) : side g k = (s.side k).indices := by
  cases k
  · exact h.left
  · exact h.right

theorem connects_last {s : State K} {t : ℕ × ℕ × ℕ} (h : Connects s t) : LastBefore s.sideOf .left t.2.2 t.1 ∧ LastBefore s.sideOf .right t.2.2 t.2.1 :=
  ⟨⟨h.1, h.2.2.1, h.2.2.2.2.2.1⟩, ⟨h.2.1, h.2.2.2.1, h.2.2.2.2.2.2⟩⟩

/-- The label of a vertex and of the next one of its side -/
theorem fine_follows {s : State K} {b n : ℕ} (hi : Inv s b n) (hf : Fine s) {k : SideId} {i j : ℕ} (h : LastBefore s.sideOf k j i) (hj : s.sideOf[j]? = some k) :
    Follows (mark s i) (mark s j) := by
  have jl : j < s.vertices.length := by rw [← hi.len]; exact (List.getElem?_eq_some_iff.1 hj).1
  have mem : ∀ x, x < s.vertices.length → s.sideOf[x]? = some k → x ∈ (s.side k).indices := fun x hx e => by
    rw [hi.ind]
    unfold verticesOf
    rw [List.mem_filter, List.mem_range, decide_eq_true_eq]
    exact ⟨hx, e⟩
  obtain ⟨p, hp, ep⟩ := List.getElem_of_mem (mem i (by have := h.2.1; omega) h.1)
  obtain ⟨q, hq, eq⟩ := List.getElem_of_mem (mem j jl hj)
  have sorted : (s.side k).indices.Pairwise (· < ·) := by rw [hi.ind]; exact List.pairwise_lt_range.filter _
  have mono := List.pairwise_iff_getElem.1 sorted
  have hpq : q = p + 1 := by
    rcases lt_trichotomy q (p + 1) with c | c | c
    · exfalso
      have lt := h.2.1
      rcases (Nat.lt_succ_iff.1 c).lt_or_eq with d | d
      · have := mono q p hq hp d
        omega
      · subst d
        omega
    · exact c
    · exfalso
      have h1 := mono p (p + 1) hp (by omega) (by omega)
      have h2 := mono (p + 1) q (by omega) hq c
      exact h.2.2 (s.side k).indices[p + 1] (by omega) (by omega) (hi.toCore.mem (List.getElem_mem _)).2
  subst hpq
  have g := List.isChain_iff_getElem.1 (hf.good k) p (by unfold marks; rw [List.length_map]; exact hq)
  unfold marks at g
  rw [List.getElem_map, List.getElem_map, ep, eq] at g
  exact g

/-- A mesh of a triangulation is a strip. -/
theorem shows_strip {place : Pt K → Pt ℝ} {g : Geometry} {s : State K} {b n : ℕ} (hi : Inv s b n) (hf : Fine s) (h : Shows place g s) : Strip g := by
  constructor
  · rw [h.ids, h.count, hi.len]
  · intro k
    rw [shows_side h k, hi.ind, h.ids, h.count]
    rfl
  · exact h.offsets
  · intro t ht
    rw [h.triangles] at ht
    have c := hi.tri t ht
    rw [h.ids, h.count]
    exact ⟨c.2.2.2.2.1, connects_last c⟩
  · rw [h.triangles]; exact hi.inc
  · intro v hv
    obtain ⟨i, hl, rfl⟩ := List.getElem_of_mem hv
    exact (h.vertex i _ _ (List.getElem?_eq_getElem hl) (List.getElem?_eq_getElem (by rw [← h.count]; exact hl))).outline
  · intro k i j v w hl hj hv hw _ hneg h0
    rw [h.ids] at hl hj
    have f := fine_follows hi hf hl hj
    have get : ∀ {x : ℕ} {u : Vertex}, g.mesh.vertices[x]? = some u → ∃ u', s.vertices[x]? = some u' ∧ ShowsVertex place u u' := by
      intro x u hu
      have hx := (List.getElem?_eq_some_iff.1 hu).1
      rw [h.count] at hx
      exact ⟨_, List.getElem?_eq_getElem hx, h.vertex x _ _ hu (List.getElem?_eq_getElem hx)⟩
    obtain ⟨v', hv', sv⟩ := get hv
    obtain ⟨w', hw', sw⟩ := get hw
    unfold mark at f
    rw [hv', hw', Option.map_some, Option.map_some] at f
    refine f (congrArg some (sw.front.1 hneg)) (congrArg some ?_)
    cases e : v'.forward with
    | interior => rfl
    | front => exact absurd (sv.front.2 e) (by rw [h0]; exact lt_irrefl _)
    | back => exact absurd (sv.back.2 e) (by rw [h0]; exact lt_irrefl _)

/-- The last vertex of a side is the last one before the next vertex. -/
theorem last_before {s : State K} {b n : ℕ} (hi : Inv s b n) {k : SideId} {j : ℕ} (h : (s.side k).indices.getLast? = some j) :
    LastBefore s.sideOf k s.vertices.length j := by
  obtain ⟨h1, h2⟩ := hi.toCore.mem (List.mem_of_getLast? h)
  exact ⟨h2, h1, fun x hx hl => hi.toCore.after h hx hl⟩

theorem lastBefore_congr {ids ids' : List SideId} {k : SideId} {c i : ℕ} (h : ∀ x < c, ids'[x]? = ids[x]?) (hl : LastBefore ids k c i) : LastBefore ids' k c i :=
  ⟨by rw [h i hl.2.1]; exact hl.1, hl.2.1, fun j hj hc => by rw [h j hc]; exact hl.2.2 j hj hc⟩

theorem lastBefore_unique {ids : List SideId} {k : SideId} {c i j : ℕ} (h : LastBefore ids k c i) (g : LastBefore ids k c j) : i = j :=
  le_antisymm (lastBefore_le g h.1 h.2.1) (lastBefore_le h g.1 g.2.1)

theorem extends_became {place : Pt K → Pt ℝ} {old new : Geometry} {kept before after : State K} {b0 n0 b2 n2 : ℕ} (h0 : Inv kept b0 n0)
    (h2 : Inv after b2 n2) (t1 : Tail kept before) (t2 : Tail kept after) (so : Shows place old before) (sn : Shows place new after)
    (he : Extends kept before after old new) (hr : kept.triangles ≠ []) : Became old new kept.vertices.length := by
  obtain ⟨a1, e1, l1⟩ := t1.tri
  obtain ⟨a2, e2, l2⟩ := t2.tri
  have low1 : ∀ i < kept.vertices.length, before.sideOf[i]? = kept.sideOf[i]? := fun i hi => by
    obtain ⟨z, hz⟩ := t1.ids
    rw [← hz, List.getElem?_append_left (by rw [h0.len]; exact hi)]
  have low2 : ∀ i < kept.vertices.length, after.sideOf[i]? = kept.sideOf[i]? := fun i hi => by
    obtain ⟨z, hz⟩ := t2.ids
    rw [← hz, List.getElem?_append_left (by rw [h0.len]; exact hi)]
  have tk : new.mesh.triangles.take new.firstTriangle = kept.triangles := by rw [sn.triangles, he.first, e2, List.take_left']; rfl
  have lastk : ∀ {k : SideId} {j : ℕ}, (kept.side k).indices.getLast? = some j → LastBefore after.sideOf k kept.vertices.length j := fun hj =>
    lastBefore_congr low2 (last_before h0 hj)
  constructor
  · rw [so.count, sn.count]; exact ⟨t1.len, t2.len⟩
  · intro i hi
    rw [so.ids, sn.ids, low1 i hi, low2 i hi]
  · rw [sn.triangles, he.first, e2, List.length_append]; omega
  · rw [tk, so.triangles, he.first, e1, List.take_left']; rfl
  · intro t ht
    rw [tk] at ht
    exact (h0.tri t ht).2.2.2.2.1
  · intro t ht
    rw [so.triangles, he.first, e1, List.drop_left'] at ht
    · exact l1 t ht
    · rfl
  · intro t ht
    rw [sn.triangles, he.first, e2, List.drop_left'] at ht
    · exact l2 t ht
    · rfl
  · exact he.same
  · intro k i hi hk hn
    obtain ⟨k', hk'⟩ := he.noted i hi hn
    rw [sn.ids] at hk ⊢
    have := lastk hk'
    have e := this.1
    rw [hk, Option.some.injEq] at e
    rw [e]
    exact this
  · intro k i j v w w' hl hl' ht hv hw hw' hp
    rw [sn.ids] at hl hl'
    rw [tk] at ht
    have hj : j < kept.vertices.length := hl.2.1
    have hjk : kept.sideOf[j]? = some k := by rw [← low2 j hj]; exact hl.1
    have hlast : (kept.side k).indices.getLast? = some j := by
      have mj : j ∈ (kept.side k).indices := by
        rw [h0.ind]
        unfold verticesOf
        rw [List.mem_filter, List.mem_range, decide_eq_true_eq]
        exact ⟨hj, hjk⟩
      have ne : (kept.side k).indices ≠ [] := List.ne_nil_of_mem mj
      have e := List.getLast?_eq_some_getLast ne
      rw [e, Option.some.injEq]
      exact lastBefore_unique (lastk e) hl
    have get : ∀ {g : Geometry} {s : State K} {x : ℕ} {u : Vertex}, Shows place g s → g.mesh.vertices[x]? = some u → ∃ u', s.vertices[x]? = some u' ∧ ShowsVertex place u u' := by
      intro g s x u h hu
      have hx := (List.getElem?_eq_some_iff.1 hu).1
      rw [h.count] at hx
      exact ⟨_, List.getElem?_eq_getElem hx, h.vertex x _ _ hu (List.getElem?_eq_getElem hx)⟩
    obtain ⟨x, x1, x2⟩ := get so hv
    obtain ⟨y, y1, y2⟩ := get so hw
    obtain ⟨z, z1, z2⟩ := get sn hw'
    have pj : positionOf after j = positionOf before j := (t2.pos j hj ht).trans (t1.pos j hj ht).symm
    unfold positionOf at pj
    rw [z1, y1, Option.map_some, Option.map_some, Option.some.injEq] at pj
    refine ⟨by rw [z2.position, y2.position, pj], fun hneg => ?_⟩
    by_contra c
    have li : LastBefore kept.sideOf k j i := lastBefore_congr (fun x hx => (low2 x (by omega)).symm) hl'
    refine he.label k i j v w hlast li hv hw hp ?_ ?_
    · rw [y1, Option.map_some, y2.back.1 (not_le.1 c)]
    · rw [z1, Option.map_some, z2.front.1 hneg]
  · rcases he.reach with c | ⟨t, ht, x, hx, hn⟩ | ⟨t, ht, c1, c2⟩
    · exact absurd c hr
    · exact Or.inl ⟨t, by rw [tk]; exact ht, x, hx, hn⟩
    · refine Or.inr ⟨t, by rw [sn.triangles, he.first]; exact ht, ?_⟩
      have hm : t ∈ a2 := by
        rw [e2, List.getElem?_append_right le_rfl] at ht
        exact List.mem_of_getElem? ht
      have hc := connects_last (h2.tri t (List.mem_of_getElem? ht))
      have hl := l2 t hm
      rw [sn.ids]
      exact ⟨⟨hc.1.1, c1, fun j hj hk => hc.1.2.2 j hj (by omega)⟩, ⟨hc.2.1, c2, fun j hj hk => hc.2.2.2 j hj (by omega)⟩⟩

theorem shows_update {place : Pt K → Pt ℝ} {g r : Geometry} {s : State K} (hg : Strip g) (hs : Shows place g s) (h : g.updateDerivatives = some r) : Shows place r s := by
  obtain ⟨p, M, -, e2, rfl⟩ := update_cases h
  have st := strip_update hg e2 (n := g.firstTriangle) (fl := none) (fr := none)
  refine ⟨hs.ids, hs.left, hs.right, (update_vertex e2).1.trans hs.triangles, (sameAt_length (sameAt_update e2)).trans hs.count, fun i v w hv hw => ?_, ?_⟩
  · obtain ⟨u, u1, u2, u3, -⟩ := update_position e2 hv
    have su := hs.vertex i u w u1 hw
    exact ⟨by rw [u2, su.position], by rw [u3]; exact su.front, by rw [u3]; exact su.back, st.outline v (List.mem_of_getElem? hv)⟩
  · intro k q i hq
    refine hs.offsets k q i ?_
    cases k <;> exact hq

/-- What holds of a stroke while it is drawn -/
theorem stroke_spec [IsStrictOrderedRing K] {hypot : K → K → K} {place : Pt K → Pt ℝ} {kept shown : State K} {g : Geometry} (h : Stroke hypot place kept shown g) :
    Inv kept 0 0 ∧ Fine kept ∧ Inv shown 0 0 ∧ Fine shown ∧ Tail kept shown ∧ Shows place g shown ∧ UpToDate g := by
  have go : ∀ {os : List (Op K)} {s s' : State K}, Inv s 0 0 → Fine s → (∀ o ∈ os, Triangulation.Spec.Unlabelled o) → run hypot s os = some s' → Inv s' 0 0 ∧ Fine s' ∧ Tail s s' := by
    intro os s s' hi hf ho e
    obtain ⟨s2, e2, i2, -⟩ := run_spec hypot os s hi
    rw [e, Option.some.injEq] at e2
    subst e2
    exact ⟨i2, run_fine hypot os s s' hf ho e⟩
  induction h with
  | first ho e1 e2 hs h0 hu =>
    obtain ⟨i1, f1, -⟩ := go inv_empty fine_empty (fun o h => ho o (List.mem_append_left _ h)) e1
    obtain ⟨i2, f2, t2⟩ := go i1 f1 (fun o h => ho o (List.mem_append_right _ h)) e2
    have st := shows_strip i2 f2 hs
    refine ⟨i1, f1, i2, f2, t2, shows_update st hs hu, uptodate_zero st ?_ hu⟩
    unfold Geometry.firstMutated
    rw [if_pos (Or.inl h0), h0]
  | next _ ho e1 e2 hs he hu ih =>
    obtain ⟨i0, f0, i1, f1, t1, s1, u1⟩ := ih
    obtain ⟨i2, f2, t2⟩ := go i0 f0 (fun o h => ho o (List.mem_append_left _ h)) e1
    obtain ⟨i3, f3, t3⟩ := go i2 f2 (fun o h => ho o (List.mem_append_right _ h)) e2
    have st := shows_strip i3 f3 hs
    refine ⟨i2, f2, i3, f3, t3, shows_update st hs hu, ?_⟩
    rename_i kept0 _ _ _ _ _ _ new _ _
    by_cases hr : kept0.triangles = []
    · refine uptodate_zero st ?_ hu
      have h0 : new.firstTriangle = 0 := by rw [he.first, hr]; rfl
      unfold Geometry.firstMutated
      rw [if_pos (Or.inl h0), h0]
    · exact uptodate_next (shows_strip i1 f1 s1) u1 st (extends_became i0 i3 t1 (t2.trans t3) s1 hs he hr) hu

end Verif.Derivative
