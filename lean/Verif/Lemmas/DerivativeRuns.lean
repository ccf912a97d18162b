import Verif.Lemmas.DerivativeMesh

/-!
# Lemmas on the runs of coincident vertices
-/

set_option autoImplicit false

namespace Verif.Derivative

open Geo Spec

open Verif.Vertex (Category)

theorem alike_refl (v : Vertex) : Alike v v := ⟨rfl, sameSign_refl _, sameSign_refl _⟩
theorem alike_symm {v w : Vertex} (h : Alike v w) : Alike w v := ⟨h.1.symm, sameSign_comm h.2.1, sameSign_comm h.2.2⟩
theorem alike_trans {u v w : Vertex} (h : Alike u v) (g : Alike v w) : Alike u w :=
  ⟨h.1.trans g.1, sameSign_trans h.2.1 g.2.1, sameSign_trans h.2.2 g.2.2⟩

theorem sameCount_spec {mesh : Mesh} {first : Vertex} {c n : ℕ} {is : List ℕ} (h : sameCount mesh first c is = some n) :
    ∃ m, n = c + m ∧ m ≤ is.length ∧ (∀ k ∈ is.take m, ∃ w, mesh.vertices[k]? = some w ∧ Alike w first) ∧
      ∀ k, is[m]? = some k → ∃ w, mesh.vertices[k]? = some w ∧ ¬Alike w first := by
  induction is generalizing c with
  | nil =>
    rw [sameCount] at h
    cases h
    exact ⟨0, rfl, le_refl _, by simp, by simp⟩
  | cons i is ih =>
    rw [sameCount] at h
    cases e : mesh.vertices[i]? with
    | none => rw [e] at h; simp at h
    | some v =>
      rw [e] at h
      dsimp only at h
      by_cases g : v.position ≠ first.position ∨ category v.sideLabel ≠ category first.sideLabel ∨ category v.forwardLabel ≠ category first.forwardLabel
      · rw [if_pos g] at h
        cases h
        refine ⟨0, rfl, by simp, by simp, ?_⟩
        intro k hk
        simp only [List.getElem?_cons_zero, Option.some.injEq] at hk
        subst hk
        refine ⟨v, e, fun q => ?_⟩
        rcases g with g | g | g
        · exact g q.1
        · exact g ((category_same _ _).2 q.2.1)
        · exact g ((category_same _ _).2 q.2.2)
      · rw [if_neg g] at h
        push Not at g
        obtain ⟨m, h1, h2, h3, h4⟩ := ih h
        refine ⟨m + 1, by omega, by simpa using h2, ?_, by simpa using h4⟩
        intro k hk
        rw [List.take_succ_cons, List.mem_cons] at hk
        rcases hk with rfl | hk
        · exact ⟨v, e, g.1, (category_same _ _).1 g.2.1, (category_same _ _).1 g.2.2⟩
        · exact h3 k hk

/-- Two vertices at the same point, the second of which does not start a new part of the stroke. -/
def Connected (v w : Vertex) : Prop := v.position = w.position ∧ (0 < v.forwardLabel → 0 < w.forwardLabel)

theorem connectedCount_spec {mesh : Mesh} {first : Pt ℝ} {u : Vertex} {j c n : ℕ} {is : List ℕ} (hj : mesh.vertices[j]? = some u)
    (hu : u.position = first) (h : connectedCount mesh first (category u.forwardLabel) c is = some n) :
    ∃ m, n = c + m ∧ m ≤ is.length ∧ (∀ k ∈ is.take m, ∃ w, mesh.vertices[k]? = some w ∧ w.position = first) ∧
      ∀ k l, (j :: is)[m]? = some k → is[m]? = some l →
        ∃ v w, mesh.vertices[k]? = some v ∧ mesh.vertices[l]? = some w ∧ ¬Connected v w := by
  induction is generalizing c j u with
  | nil =>
    rw [connectedCount] at h
    cases h
    exact ⟨0, rfl, le_refl _, by simp, by simp⟩
  | cons i is ih =>
    rw [connectedCount] at h
    cases e : mesh.vertices[i]? with
    | none => rw [e] at h; simp at h
    | some v =>
      rw [e] at h
      dsimp only at h
      by_cases g : v.position ≠ first
      · rw [if_pos g] at h
        cases h
        refine ⟨0, rfl, by simp, by simp, ?_⟩
        intro k l hk hl
        simp only [List.getElem?_cons_zero, Option.some.injEq] at hk hl
        subst hk hl
        exact ⟨u, v, hj, e, fun q => g (q.1.symm.trans hu)⟩
      · rw [if_neg g] at h
        push Not at g
        by_cases g' : category u.forwardLabel = .rightOrBack ∧ category v.forwardLabel ≠ category u.forwardLabel
        · rw [if_pos g'] at h
          cases h
          refine ⟨0, rfl, by simp, by simp, ?_⟩
          intro k l hk hl
          simp only [List.getElem?_cons_zero, Option.some.injEq] at hk hl
          subst hk hl
          refine ⟨u, v, hj, e, fun q => g'.2 ?_⟩
          rw [g'.1, category_right]
          exact q.2 ((category_right _).1 g'.1)
        · rw [if_neg g'] at h
          obtain ⟨m, h1, h2, h3, h4⟩ := ih e g h
          refine ⟨m + 1, by omega, by simpa using h2, ?_, ?_⟩
          · intro k hk
            rw [List.take_succ_cons, List.mem_cons] at hk
            rcases hk with rfl | hk
            · exact ⟨v, e, g⟩
            · exact h3 k hk
          · intro k l hk hl
            exact h4 k l (by simpa using hk) (by simpa using hl)

theorem alike_connected {v w : Vertex} (h : Alike v w) : Connected v w := by
  refine ⟨h.1, fun g => ?_⟩
  have h1 : ¬w.forwardLabel < 0 := fun q => (not_lt.2 g.le) (h.2.2.1.2 q)
  have h2 : w.forwardLabel ≠ 0 := fun q => g.ne' (h.2.2.2.2 q)
  exact lt_of_le_of_ne (not_lt.1 h1) h2.symm

theorem setDerivatives_spec {s f : Pt ℝ} {mesh mesh' : Mesh} {is : List ℕ} (h : setDerivatives s f mesh is = some mesh') :
    mesh'.triangles = mesh.triangles ∧ ∀ j, mesh'.vertices[j]? =
      if j ∈ is then mesh.vertices[j]?.map (fun v => { v with sideDerivative := s, forwardDerivative := f }) else mesh.vertices[j]? := by
  induction is generalizing mesh with
  | nil => rw [setDerivatives] at h; cases h; exact ⟨rfl, fun j => by simp⟩
  | cons i is ih =>
    rw [setDerivatives] at h
    cases e : changeAt mesh.vertices i (fun v => { v with sideDerivative := s, forwardDerivative := f }) with
    | none => rw [e] at h; simp at h
    | some vs =>
      rw [e] at h
      obtain ⟨h1, h2⟩ := ih h
      refine ⟨h1, fun j => ?_⟩
      rw [h2 j]
      show (if j ∈ is then vs[j]?.map _ else vs[j]?) = _
      rw [(changeAt_get e j).2]
      by_cases ji : j = i <;> by_cases js : j ∈ is <;> simp [ji, js]
      · subst ji; simp [js]; rfl
      · subst ji; simp [js]

theorem withMargin_twice (x m n : ℝ) : withMargin (withMargin x n) m = withMargin x m := withMargin_congr (withMargin_same x n) m

theorem setMargins_spec {m : ℝ} {mesh mesh' : Mesh} {is : List ℕ} (h : setMargins m mesh is = some mesh') :
    mesh'.triangles = mesh.triangles ∧ ∀ j, mesh'.vertices[j]? =
      if j ∈ is then mesh.vertices[j]?.map (fun v => { v with sideLabel := withMargin v.sideLabel m }) else mesh.vertices[j]? := by
  induction is generalizing mesh with
  | nil => rw [setMargins] at h; cases h; exact ⟨rfl, fun j => by simp⟩
  | cons i is ih =>
    rw [setMargins] at h
    cases e : changeAt mesh.vertices i (fun v => { v with sideLabel := withMargin v.sideLabel m }) with
    | none => rw [e] at h; simp at h
    | some vs =>
      rw [e] at h
      obtain ⟨h1, h2⟩ := ih h
      refine ⟨h1, fun j => ?_⟩
      rw [h2 j]
      show (if j ∈ is then vs[j]?.map _ else vs[j]?) = _
      rw [(changeAt_get e j).2]
      by_cases ji : j = i <;> by_cases js : j ∈ is
      · subst ji
        simp only [js, if_true, List.mem_cons, true_or, Option.map_map]
        congr 1
        funext v
        simp [withMargin_twice]
      · subst ji; simp [js]
      · simp [ji, js]
      · simp [ji, js]

end Verif.Derivative
