import Verif.Spec.GeometryDerivatives
import Verif.Lemmas.DerivativeSuffix

/-!
# Which vertices are updated after a stroke was extended
-/

set_option autoImplicit false

namespace Verif.Derivative

open Geo Spec
open PartialOutline (SideId)

theorem lastBefore_le {ids : List SideId} {k : SideId} {c i j : ℕ} (h : LastBefore ids k c i) (hj : ids[j]? = some k) (hc : j < c) : j ≤ i := by
  by_contra q
  exact h.2.2 j (by omega) hc hj

theorem corner_le {g : Geometry} (hg : Strip g) {t : ℕ × ℕ × ℕ} (ht : t ∈ g.mesh.triangles) {x : ℕ} (hx : Corner x t) : x ≤ t.2.2 := by
  obtain ⟨-, h1, h2⟩ := hg.triangles t ht
  have := h1.2.1
  have := h2.2.1
  rcases hx with rfl | rfl | rfl <;> omega

theorem side_of {g : Geometry} (hg : Strip g) {x : ℕ} (hx : x < g.mesh.vertices.length) : ∃ k, g.sideIds[x]? = some k :=
  ⟨_, List.getElem?_eq_getElem (by rw [hg.ids]; exact hx)⟩

theorem mem_side {g : Geometry} (hg : Strip g) {k : SideId} {x : ℕ} : x ∈ side g k ↔ g.sideIds[x]? = some k := by
  rw [hg.sides, List.mem_filter, List.mem_range, decide_eq_true_eq]
  refine ⟨fun h => h.2, fun h => ⟨?_, h⟩⟩
  rw [← hg.ids]
  exact (List.getElem?_eq_some_iff.1 h).1

theorem side_sorted {g : Geometry} (hg : Strip g) (k : SideId) : (side g k).Pairwise (· < ·) := by
  rw [hg.sides]
  exact List.Pairwise.filter _ List.pairwise_lt_range

/-- All corners of the triangle are before the first changed vertex of their side. -/
def Quiet (ids : List SideId) (left right : ℕ) (t : ℕ × ℕ × ℕ) : Prop :=
  ∀ x, Corner x t → (ids[x]? = some .left → x < left) ∧ (ids[x]? = some .right → x < right)

theorem mutatedLoop_spec {g : Geometry} (hg : Strip g) (left right n : ℕ) (hn : n ≤ g.mesh.triangles.length) :
    ∃ i, mutatedLoop g.sideIds g.mesh.triangles left right n = some i ∧ i ≤ n ∧
      (∀ j t, i = j + 1 → g.mesh.triangles[j]? = some t → Quiet g.sideIds left right t) ∧
      ∀ j t, i ≤ j → j < n → g.mesh.triangles[j]? = some t → ¬Quiet g.sideIds left right t := by
  induction n with
  | zero => exact ⟨0, rfl, le_rfl, fun j t h => by simp at h, fun j t _ h => by omega⟩
  | succ n ih =>
    obtain ⟨i, e1, e2, e3, e4⟩ := ih (by omega)
    have hlt : n < g.mesh.triangles.length := by omega
    obtain ⟨hc, ha, hb⟩ := hg.triangles _ (List.getElem_mem hlt)
    obtain ⟨k, hk⟩ := side_of hg hc
    rw [mutatedLoop, List.getElem?_eq_getElem hlt]
    generalize ht : g.mesh.triangles[n] = t at *
    have hget : g.mesh.triangles[n]? = some t := by rw [List.getElem?_eq_getElem hlt, ht]
    simp only [Option.bind_some, ha.1, hb.1, hk, and_self, not_true_eq_false, if_false]
    have key : Quiet g.sideIds left right t ↔ (if k = .left then t.2.2 else t.1) < left ∧ (if k = .left then t.2.1 else t.2.2) < right := by
      have q1 := ha.2.1
      have q2 := hb.2.1
      cases k with
      | left =>
        simp only [if_true]
        constructor
        · intro h
          exact ⟨(h _ (Or.inr (Or.inr rfl))).1 hk, (h _ (Or.inr (Or.inl rfl))).2 hb.1⟩
        · rintro ⟨h1, h2⟩ x (rfl | rfl | rfl)
          · exact ⟨fun _ => by omega, fun h => by rw [ha.1] at h; simp at h⟩
          · exact ⟨fun h => by rw [hb.1] at h; simp at h, fun _ => h2⟩
          · exact ⟨fun _ => h1, fun h => by rw [hk] at h; simp at h⟩
      | right =>
        simp only [reduceCtorEq, if_false]
        constructor
        · intro h
          exact ⟨(h _ (Or.inl rfl)).1 ha.1, (h _ (Or.inr (Or.inr rfl))).2 hk⟩
        · rintro ⟨h1, h2⟩ x (rfl | rfl | rfl)
          · exact ⟨fun _ => h1, fun h => by rw [ha.1] at h; simp at h⟩
          · exact ⟨fun h => by rw [hb.1] at h; simp at h, fun _ => by omega⟩
          · exact ⟨fun h => by rw [hk] at h; simp at h, fun _ => h2⟩
    by_cases hq : Quiet g.sideIds left right t
    · refine ⟨n + 1, ?_, le_rfl, ?_, fun j t h1 h2 => by omega⟩
      · rw [if_pos (key.1 hq)]
      · intro j u hj hu
        obtain rfl : j = n := by omega
        rw [hget] at hu
        cases hu
        exact hq
    · refine ⟨i, ?_, by omega, e3, ?_⟩
      · rw [if_neg fun q => hq (key.2 q)]
        exact e1
      · intro j u h1 h2 hu
        rcases Nat.lt_succ_iff_lt_or_eq.1 h2 with h | rfl
        · exact e4 j u h1 h hu
        · rw [hget] at hu
          cases hu
          exact hq

theorem quiet_mono {g : Geometry} (hg : Strip g) {left right i j : ℕ} {t u : ℕ × ℕ × ℕ} (hij : i ≤ j) (hi : g.mesh.triangles[i]? = some t)
    (hj : g.mesh.triangles[j]? = some u) (h : Quiet g.sideIds left right u) : Quiet g.sideIds left right t := by
  rcases hij.lt_or_eq with q | rfl
  · obtain ⟨i1, i2⟩ := List.getElem?_eq_some_iff.1 hi
    obtain ⟨j1, j2⟩ := List.getElem?_eq_some_iff.1 hj
    have hlt := List.pairwise_iff_getElem.1 hg.increasing i j i1 j1 q
    rw [i2, j2] at hlt
    have ht : t ∈ g.mesh.triangles := i2 ▸ List.getElem_mem i1
    obtain ⟨-, u1, u2⟩ := hg.triangles u (j2 ▸ List.getElem_mem j1)
    intro x hx
    have hx' := corner_le hg ht hx
    constructor
    · intro hk
      exact lt_of_le_of_lt (lastBefore_le u1 hk (by omega)) ((h _ (Or.inl rfl)).1 u1.1)
    · intro hk
      exact lt_of_le_of_lt (lastBefore_le u2 hk (by omega)) ((h _ (Or.inr (Or.inl rfl))).2 u2.1)
  · rw [hi] at hj
    cases hj
    exact h

theorem quiet_noted {g : Geometry} (hg : Strip g) {t : ℕ × ℕ × ℕ} (ht : t ∈ g.mesh.triangles) :
    Quiet g.sideIds (g.firstLeft.getD g.mesh.vertices.length) (g.firstRight.getD g.mesh.vertices.length) t ↔ ∀ x, Corner x t → ¬Noted g x := by
  refine forall_congr' fun x => forall_congr' fun hx => ?_
  have hx' := corner_le hg ht hx
  have hlt : x < g.mesh.vertices.length := lt_of_le_of_lt hx' (hg.triangles t ht).1
  obtain ⟨k, hk⟩ := side_of hg hlt
  unfold Noted
  rw [hk]
  cases k with
  | left =>
    cases g.firstLeft with
    | none => simpa using hlt
    | some a => simp
  | right =>
    cases g.firstRight with
    | none => simpa using hlt
    | some a => simp

/-- What comes before the first triangle to update is not changed; if a vertex before it was, then it is one of the kept triangles. -/
theorem firstMutated_spec {g : Geometry} (hg : Strip g) (hf : g.firstTriangle ≤ g.mesh.triangles.length) :
    ∃ i, g.firstMutated = some i ∧ i ≤ g.firstTriangle ∧ (∀ t ∈ g.mesh.triangles.take i, ∀ x, Corner x t → ¬Noted g x) ∧
      ((∃ t ∈ g.mesh.triangles.take g.firstTriangle, ∃ x, Corner x t ∧ Noted g x) → i < g.firstTriangle) := by
  unfold Geometry.firstMutated
  by_cases h : g.firstTriangle = 0 ∨ (g.firstLeft = none ∧ g.firstRight = none)
  · rw [if_pos h]
    refine ⟨_, rfl, le_rfl, ?_, ?_⟩
    · intro t ht x _ hn
      rcases h with h | ⟨h1, h2⟩
      · rw [h] at ht; simp at ht
      · rcases hn with ⟨-, a, q, -⟩ | ⟨-, a, q, -⟩
        · rw [h1] at q; simp at q
        · rw [h2] at q; simp at q
    · rintro ⟨t, ht, x, -, hn⟩
      rcases h with h | ⟨h1, h2⟩
      · rw [h] at ht; simp at ht
      · rcases hn with ⟨-, a, q, -⟩ | ⟨-, a, q, -⟩
        · rw [h1] at q; simp at q
        · rw [h2] at q; simp at q
  · rw [if_neg h]
    obtain ⟨i, e1, e2, e3, e4⟩ := mutatedLoop_spec hg (g.firstLeft.getD g.mesh.vertices.length) (g.firstRight.getD g.mesh.vertices.length)
      (min (g.firstTriangle + 1) g.mesh.triangles.length) (min_le_right _ _)
    rw [e1]
    refine ⟨min g.firstTriangle i, rfl, min_le_left _ _, ?_, ?_⟩
    · intro t ht
      obtain ⟨j, hj, ej⟩ := List.mem_take_iff_getElem.1 ht
      obtain ⟨p, rfl⟩ : ∃ p, i = p + 1 := ⟨i - 1, by omega⟩
      have hp : p < g.mesh.triangles.length := by omega
      have hj' : g.mesh.triangles[j]? = some t := by rw [List.getElem?_eq_getElem (by omega), ej]
      have hp' := List.getElem?_eq_getElem hp
      exact (quiet_noted hg (ej ▸ List.getElem_mem _)).1 (quiet_mono hg (by omega) hj' hp' (e3 p _ rfl hp'))
    · rintro ⟨t, ht, x, hx, hn⟩
      obtain ⟨j, hj, ej⟩ := List.mem_take_iff_getElem.1 ht
      have hj' : g.mesh.triangles[j]? = some t := by rw [List.getElem?_eq_getElem (by omega), ej]
      by_contra q
      rw [not_lt] at q
      have q' : g.firstTriangle ≤ i := le_trans q (min_le_right _ _)
      obtain ⟨p, rfl⟩ : ∃ p, i = p + 1 := ⟨i - 1, by omega⟩
      have hp : p < g.mesh.triangles.length := by omega
      have hp' := List.getElem?_eq_getElem hp
      exact (quiet_noted hg (ej ▸ List.getElem_mem _)).1 (quiet_mono hg (by omega) hj' hp' (e3 p _ rfl hp')) x hx hn

theorem findFirst_spec {g : Geometry} (hg : Strip g) {i : ℕ} {t : ℕ × ℕ × ℕ} (ht : g.mesh.triangles[i]? = some t) :
    findFirst g.mesh g.sideIds (g.mesh.triangles.drop i) (none, none) = some (some t.1, some t.2.1) := by
  obtain ⟨i1, i2⟩ := List.getElem?_eq_some_iff.1 ht
  rw [List.drop_eq_getElem_cons i1, i2, findFirst]
  obtain ⟨hc, ha, hb⟩ := hg.triangles t (i2 ▸ List.getElem_mem i1)
  obtain ⟨k, hk⟩ := side_of hg hc
  have a1 : t.1 < g.mesh.vertices.length := lt_trans ha.2.1 hc
  have b1 : t.2.1 < g.mesh.vertices.length := lt_trans hb.2.1 hc
  have ea : Exterior g.mesh.vertices[t.1] := Or.inl (hg.outline _ (List.getElem_mem _))
  have eb : Exterior g.mesh.vertices[t.2.1] := Or.inl (hg.outline _ (List.getElem_mem _))
  have e : findIn g.mesh g.sideIds [t.1, t.2.1, t.2.2] (none, none) = some (some t.1, some t.2.1) := by
    simp only [findIn, ha.1, hb.1, hk, if_true, List.getElem?_eq_getElem a1, List.getElem?_eq_getElem b1, Option.bind_some, ea, eb]
    cases k <;> simp
  rw [e]
  simp

/-- The search for the start goes back to a place where a run begins. -/
theorem backtrack_spec {M : Mesh} {S : List ℕ} (hS : ∀ x ∈ S, x < M.vertices.length) (position : Pt ℝ) (n : ℕ) (forward : Vertex.Category)
    (hn : ∃ x v, S[n]? = some x ∧ M.vertices[x]? = some v ∧ v.position = position ∧ category v.forwardLabel = forward) :
    ∃ o, backtrack M S position n forward = some o ∧ o ≤ n ∧ ∀ p x y v w, o = p + 1 → S[p]? = some x → S[o]? = some y → M.vertices[x]? = some v →
      M.vertices[y]? = some w → v.position ≠ w.position ∨ (w.forwardLabel < 0 ∧ ¬v.forwardLabel < 0) := by
  induction n generalizing forward with
  | zero => exact ⟨0, rfl, le_rfl, fun p x y v w h => by omega⟩
  | succ n ih =>
    obtain ⟨y, w, y1, y2, y3, y4⟩ := hn
    have hlt := (List.getElem?_eq_some_iff.1 y1).1
    have hn' : n < S.length := by omega
    have hx := List.getElem?_eq_getElem hn'
    obtain ⟨v, hv⟩ : ∃ v, M.vertices[S[n]]? = some v := ⟨_, List.getElem?_eq_getElem (hS _ (List.getElem_mem hn'))⟩
    generalize S[n] = x at hx hv
    rw [backtrack, hx, Option.bind_some, hv, Option.bind_some]
    have front : ∀ l : ℝ, category l = .leftOrFront ↔ l < 0 := fun l => by
      unfold category
      split_ifs <;> simp_all
    by_cases h : v.position ≠ position ∨ (category v.forwardLabel ≠ forward ∧ forward = .leftOrFront)
    · rw [if_pos h]
      refine ⟨n + 1, rfl, le_rfl, ?_⟩
      intro p x' y' v' w' hp hx' hy' hv' hw'
      obtain rfl : p = n := by omega
      rw [hx] at hx'
      cases hx'
      rw [hv] at hv'
      cases hv'
      rw [y1] at hy'
      cases hy'
      rw [y2] at hw'
      cases hw'
      rcases h with h | ⟨h1, h2⟩
      · left
        rw [y3]
        exact h
      · right
        rw [h2] at y4 h1
        exact ⟨(front _).1 y4, fun q => h1 ((front _).2 q)⟩
    · rw [if_neg h]
      push Not at h
      obtain ⟨o, o1, o2, o3⟩ := ih (category v.forwardLabel) ⟨x, v, hx, hv, h.1, rfl⟩
      exact ⟨o, o1, by omega, o3⟩

end Verif.Derivative
