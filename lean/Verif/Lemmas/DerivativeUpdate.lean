import Verif.Lemmas.DerivativeRuns

/-!
# Lemmas on the passes that store derivatives and margins
-/

set_option autoImplicit false

namespace Verif.Derivative

open Geo Spec

open Verif.Vertex (Category)

theorem updateDerivatives_step {t : Tracked} {n i : ℕ} {is : List ℕ} {mesh mesh' : Mesh}
    (h : updateDerivatives t (n + 1) (i :: is) mesh = some mesh') :
    ∃ first m a mesh1, mesh.vertices[i]? = some first ∧ m ≤ is.length ∧
      (∀ k ∈ is.take m, ∃ w, mesh.vertices[k]? = some w ∧ Alike w first) ∧
      (∀ k, is[m]? = some k → ∃ w, mesh.vertices[k]? = some w ∧ ¬Alike w first) ∧
      averagesOf t {} (i :: is.take m) = some a ∧
      setDerivatives a.side.value a.forward.value mesh (i :: is.take m) = some mesh1 ∧
      updateDerivatives t n (is.drop m) mesh1 = some mesh' := by
  rw [updateDerivatives] at h
  cases e : mesh.vertices[i]? with
  | none => rw [e] at h; simp at h
  | some first =>
    rw [e] at h
    dsimp only at h
    cases e2 : sameCount mesh first 1 is with
    | none => rw [e2] at h; simp at h
    | some c =>
      rw [e2] at h
      dsimp only at h
      obtain ⟨m, rfl, h2, h3, h4⟩ := sameCount_spec e2
      rw [Nat.add_comm 1 m, List.take_succ_cons, List.drop_succ_cons] at h
      cases e3 : averagesOf t {} (i :: is.take m) with
      | none => rw [e3] at h; simp at h
      | some a =>
        rw [e3] at h
        dsimp only at h
        cases e4 : setDerivatives a.side.value a.forward.value mesh (i :: is.take m) with
        | none => rw [e4] at h; simp at h
        | some mesh1 =>
          rw [e4] at h
          exact ⟨first, m, a, mesh1, rfl, h2, h3, h4, e3, e4, h⟩

theorem updateDerivatives_spec {t : Tracked} {n : ℕ} {is : List ℕ} {mesh mesh' : Mesh} (hn : is.length ≤ n)
    (h : updateDerivatives t n is mesh = some mesh') :
    mesh'.triangles = mesh.triangles ∧ ∀ j, (j ∉ is → mesh'.vertices[j]? = mesh.vertices[j]?) ∧
      (j ∈ is → ∃ run v a, run <:+: is ∧ j ∈ run ∧ mesh.vertices[j]? = some v ∧
        (∀ k ∈ run, ∃ w, mesh.vertices[k]? = some w ∧ Alike w v) ∧ averagesOf t {} run = some a ∧
        mesh'.vertices[j]? = some { v with sideDerivative := a.side.value, forwardDerivative := a.forward.value }) := by
  induction n generalizing is mesh with
  | zero =>
    cases is with
    | nil => rw [updateDerivatives] at h; cases h; exact ⟨rfl, fun j => ⟨fun _ => rfl, by simp⟩⟩
    | cons i is => simp at hn
  | succ n ih =>
    cases is with
    | nil => rw [updateDerivatives] at h; cases h; exact ⟨rfl, fun j => ⟨fun _ => rfl, by simp⟩⟩
    | cons i is =>
      obtain ⟨first, m, a, mesh1, h1, h2, h3, h4, h5, h6, h7⟩ := updateDerivatives_step h
      obtain ⟨g1, g2⟩ := setDerivatives_spec h6
      obtain ⟨f1, f2⟩ := ih (by rw [List.length_drop]; simp at hn; omega) h7
      have hs : i :: is = (i :: is.take m) ++ is.drop m := by simp
      have hrun : ∀ k ∈ i :: is.take m, ∃ w, mesh.vertices[k]? = some w ∧ Alike w first := by
        intro k hk
        rw [List.mem_cons] at hk
        rcases hk with rfl | hk
        · exact ⟨first, h1, alike_refl _⟩
        · exact h3 k hk
      refine ⟨f1.trans g1, fun j => ⟨fun hj => ?_, fun hj => ?_⟩⟩
      · rw [hs, List.mem_append, not_or] at hj
        rw [(f2 j).1 hj.2, g2 j, if_neg hj.1]
      · by_cases hd : j ∈ is.drop m
        · obtain ⟨run, v, b, r1, r2, r3, r4, r5, r6⟩ := (f2 j).2 hd
          have back : ∀ (k : ℕ) (w : Vertex), mesh1.vertices[k]? = some w → ∃ w', mesh.vertices[k]? = some w' ∧ Alike w' w ∧
              w' = { w with sideDerivative := w'.sideDerivative, forwardDerivative := w'.forwardDerivative } := by
            intro k w hw
            rw [g2 k] at hw
            split_ifs at hw
            · rw [Option.map_eq_some_iff] at hw
              obtain ⟨w', q1, rfl⟩ := hw
              exact ⟨w', q1, ⟨rfl, sameSign_refl _, sameSign_refl _⟩, rfl⟩
            · exact ⟨w, hw, alike_refl _, rfl⟩
          obtain ⟨v', q1, q2, q3⟩ := back j v r3
          refine ⟨run, v', b, ?_, r2, q1, ?_, r5, ?_⟩
          · exact r1.trans (hs ▸ (List.suffix_append _ _).isInfix)
          · intro k hk
            obtain ⟨w, e1, e2⟩ := r4 k hk
            obtain ⟨w', d1, d2, -⟩ := back k w e1
            exact ⟨w', d1, alike_trans (alike_trans d2 e2) (alike_symm q2)⟩
          · rw [r6, q3]
        · have hj' : j ∈ i :: is.take m := by
            rw [hs, List.mem_append] at hj
            exact hj.resolve_right hd
          obtain ⟨v, e1, e2⟩ := hrun j hj'
          refine ⟨i :: is.take m, v, a, hs ▸ (List.prefix_append _ _).isInfix, hj', e1, ?_, h5, ?_⟩
          · intro k hk
            obtain ⟨w, d1, d2⟩ := hrun k hk
            exact ⟨w, d1, alike_trans d2 (alike_symm e2)⟩
          · rw [(f2 j).1 hd, g2 j, if_pos hj', e1]
            rfl

/-- Two vertices have the same derivatives. -/
def SameDerivatives (v w : Vertex) : Prop := v.sideDerivative = w.sideDerivative ∧ v.forwardDerivative = w.forwardDerivative

theorem updateDerivatives_adjacent {t : Tracked} {n p i j : ℕ} {is : List ℕ} {mesh mesh' : Mesh} {v w : Vertex} (hn : is.length ≤ n)
    (h : updateDerivatives t n is mesh = some mesh') (hd : is.Nodup) (hi : is[p]? = some i) (hj : is[p + 1]? = some j)
    (hv : mesh.vertices[i]? = some v) (hw : mesh.vertices[j]? = some w) (ha : Alike v w) :
    ∃ v' w', mesh'.vertices[i]? = some v' ∧ mesh'.vertices[j]? = some w' ∧ SameDerivatives v' w' := by
  induction n generalizing is mesh p v w with
  | zero =>
    cases is with
    | nil => simp at hi
    | cons i is => simp at hn
  | succ n ih =>
    cases is with
    | nil => simp at hi
    | cons i0 is =>
      obtain ⟨first, m, a, mesh1, h1, h2, h3, h4, h5, h6, h7⟩ := updateDerivatives_step h
      obtain ⟨g1, g2⟩ := setDerivatives_spec h6
      have hl : (is.drop m).length ≤ n := by rw [List.length_drop]; simp at hn; omega
      obtain ⟨f1, f2⟩ := updateDerivatives_spec hl h7
      have hs : i0 :: is = (i0 :: is.take m) ++ is.drop m := by simp
      have hd' := hd
      rw [hs] at hd'
      have disj : ∀ k ∈ i0 :: is.take m, k ∉ is.drop m := fun k hk => List.disjoint_of_nodup_append hd' hk
      have hrun : ∀ k ∈ i0 :: is.take m, ∃ w, mesh.vertices[k]? = some w ∧ Alike w first := by
        intro k hk
        rw [List.mem_cons] at hk
        rcases hk with rfl | hk
        · exact ⟨first, h1, alike_refl _⟩
        · exact h3 k hk
      have inrun : ∀ q k, q ≤ m → (i0 :: is)[q]? = some k → k ∈ i0 :: is.take m := by
        intro q k hq hk
        cases q with
        | zero => simp at hk; simp [hk]
        | succ q =>
          simp only [List.getElem?_cons_succ] at hk
          refine List.mem_cons_of_mem _ (List.mem_of_getElem? (i := q) ?_)
          rw [List.getElem?_take, if_pos (by omega)]
          exact hk
      by_cases c : p + 1 ≤ m
      · have mi := inrun p i (by omega) hi
        have mj := inrun (p + 1) j c hj
        refine ⟨{ v with sideDerivative := a.side.value, forwardDerivative := a.forward.value },
          { w with sideDerivative := a.side.value, forwardDerivative := a.forward.value }, ?_, ?_, rfl, rfl⟩
        · rw [(f2 i).1 (disj i mi), g2 i, if_pos mi, hv]; rfl
        · rw [(f2 j).1 (disj j mj), g2 j, if_pos mj, hw]; rfl
      · by_cases c' : p = m
        · subst c'
          have mi := inrun p i le_rfl hi
          obtain ⟨v', e1, e2⟩ := hrun i mi
          rw [hv] at e1
          cases e1
          simp only [List.getElem?_cons_succ] at hj
          obtain ⟨w', e3, e4⟩ := h4 j hj
          rw [hw] at e3
          cases e3
          exact absurd (alike_trans (alike_symm ha) e2) e4
        · obtain ⟨q, rfl⟩ : ∃ q, p = m + 1 + q := ⟨p - (m + 1), by omega⟩
          have hi' : (is.drop m)[q]? = some i := by
            rw [List.getElem?_drop, ← hi, show m + 1 + q = (m + q) + 1 by omega, List.getElem?_cons_succ]
          have hj' : (is.drop m)[q + 1]? = some j := by
            rw [List.getElem?_drop, ← hj, show m + 1 + q + 1 = (m + (q + 1)) + 1 by omega, List.getElem?_cons_succ]
          have ni : i ∉ i0 :: is.take m := fun q => disj i q (List.mem_of_getElem? hi')
          have nj : j ∉ i0 :: is.take m := fun q => disj j q (List.mem_of_getElem? hj')
          have e1 : mesh1.vertices[i]? = some v := by rw [g2 i, if_neg ni, hv]
          have e2 : mesh1.vertices[j]? = some w := by rw [g2 j, if_neg nj, hw]
          exact ih hl h7 (List.nodup_append.1 hd').2.1 hi' hj' e1 e2 ha

theorem averagesOf_accumulates {t : Tracked} {f g : ℕ → List (Pt ℝ)}
    (ht : ∀ x a, t.min ≤ x → t.averages[x - t.min]? = some a → Accumulates a.side (f x) ∧ Accumulates a.forward (g x))
    {is : List ℕ} {acc a : Averages} {u v : List (Pt ℝ)} (hu : Accumulates acc.side u) (hv : Accumulates acc.forward v)
    (h : averagesOf t acc is = some a) : Accumulates a.side (u ++ is.flatMap f) ∧ Accumulates a.forward (v ++ is.flatMap g) := by
  induction is generalizing acc u v with
  | nil => rw [averagesOf] at h; cases h; simpa using ⟨hu, hv⟩
  | cons i is ih =>
    rw [averagesOf] at h
    split_ifs at h with hi
    cases e : t.averages[i - t.min]? with
    | none => rw [e] at h; simp at h
    | some b =>
      rw [e] at h
      dsimp only at h
      obtain ⟨h1, h2⟩ := ht i b (not_lt.1 hi) e
      have := ih (accumulates_merge hu h1) (accumulates_merge hv h2) h
      simpa [List.flatMap_cons, List.append_assoc] using this

theorem updateMargins_step {t : Tracked} {n i : ℕ} {is : List ℕ} {mesh mesh' : Mesh}
    (h : updateMargins t (n + 1) (i :: is) mesh = some mesh') :
    ∃ first m a mesh1, mesh.vertices[i]? = some first ∧ m ≤ is.length ∧
      (∀ k ∈ is.take m, ∃ w, mesh.vertices[k]? = some w ∧ w.position = first.position) ∧
      (∀ k l, (i :: is)[m]? = some k → is[m]? = some l →
        ∃ v w, mesh.vertices[k]? = some v ∧ mesh.vertices[l]? = some w ∧ ¬Connected v w) ∧
      marginOf t maximumMargin (i :: is.take m) = some a ∧
      setMargins a mesh (i :: is.take m) = some mesh1 ∧
      updateMargins t n (is.drop m) mesh1 = some mesh' := by
  rw [updateMargins] at h
  cases e : mesh.vertices[i]? with
  | none => rw [e] at h; simp at h
  | some first =>
    rw [e] at h
    dsimp only at h
    cases e2 : connectedCount mesh first.position (category first.forwardLabel) 1 is with
    | none => rw [e2] at h; simp at h
    | some c =>
      rw [e2] at h
      dsimp only at h
      obtain ⟨m, rfl, h2, h3, h4⟩ := connectedCount_spec e rfl e2
      rw [Nat.add_comm 1 m, List.take_succ_cons, List.drop_succ_cons] at h
      cases e3 : marginOf t maximumMargin (i :: is.take m) with
      | none => rw [e3] at h; simp at h
      | some a =>
        rw [e3] at h
        dsimp only at h
        cases e4 : setMargins a mesh (i :: is.take m) with
        | none => rw [e4] at h; simp at h
        | some mesh1 =>
          rw [e4] at h
          exact ⟨first, m, a, mesh1, rfl, h2, h3, h4, e3, e4, h⟩

theorem marginOf_spec {t : Tracked} {acc a : ℝ} {is : List ℕ} (h : marginOf t acc is = some a) :
    a ≤ acc ∧ ∀ i ∈ is, t.min ≤ i ∧ ∃ m, t.margins[i - t.min]? = some m ∧ a ≤ m := by
  induction is generalizing acc with
  | nil => rw [marginOf] at h; cases h; simp
  | cons i is ih =>
    rw [marginOf] at h
    split_ifs at h with hi
    cases e : t.margins[i - t.min]? with
    | none => rw [e] at h; simp at h
    | some b =>
      rw [e] at h
      dsimp only at h
      obtain ⟨h1, h2⟩ := ih h
      refine ⟨h1.trans (min_le_left _ _), fun k hk => ?_⟩
      rw [List.mem_cons] at hk
      rcases hk with rfl | hk
      · exact ⟨not_lt.1 hi, b, e, h1.trans (min_le_right _ _)⟩
      · exact h2 k hk

theorem updateMargins_spec {t : Tracked} {n : ℕ} {is : List ℕ} {mesh mesh' : Mesh} (hn : is.length ≤ n)
    (h : updateMargins t n is mesh = some mesh') :
    mesh'.triangles = mesh.triangles ∧ ∀ j, (j ∉ is → mesh'.vertices[j]? = mesh.vertices[j]?) ∧
      (j ∈ is → t.min ≤ j ∧ ∃ v a m, mesh.vertices[j]? = some v ∧ t.margins[j - t.min]? = some m ∧ a ≤ m ∧
        mesh'.vertices[j]? = some { v with sideLabel := withMargin v.sideLabel a }) := by
  induction n generalizing is mesh with
  | zero =>
    cases is with
    | nil => rw [updateMargins] at h; cases h; exact ⟨rfl, fun j => ⟨fun _ => rfl, by simp⟩⟩
    | cons i is => simp at hn
  | succ n ih =>
    cases is with
    | nil => rw [updateMargins] at h; cases h; exact ⟨rfl, fun j => ⟨fun _ => rfl, by simp⟩⟩
    | cons i is =>
      obtain ⟨first, m, a, mesh1, h1, h2, -, h4, h5, h6, h7⟩ := updateMargins_step h
      obtain ⟨g1, g2⟩ := setMargins_spec h6
      obtain ⟨f1, f2⟩ := ih (by rw [List.length_drop]; simp at hn; omega) h7
      have hs : i :: is = (i :: is.take m) ++ is.drop m := by simp
      obtain ⟨-, hm⟩ := marginOf_spec h5
      refine ⟨f1.trans g1, fun j => ⟨fun hj => ?_, fun hj => ?_⟩⟩
      · rw [hs, List.mem_append, not_or] at hj
        rw [(f2 j).1 hj.2, g2 j, if_neg hj.1]
      · by_cases hd : j ∈ is.drop m
        · obtain ⟨r1, v, b, c, r2, r3, r4, r5⟩ := (f2 j).2 hd
          rw [g2 j] at r2
          split_ifs at r2
          · rw [Option.map_eq_some_iff] at r2
            obtain ⟨v', q1, rfl⟩ := r2
            refine ⟨r1, v', b, c, q1, r3, r4, ?_⟩
            rw [r5]
            simp [withMargin_twice]
          · exact ⟨r1, v, b, c, r2, r3, r4, r5⟩
        · have hj' : j ∈ i :: is.take m := by
            rw [hs, List.mem_append] at hj
            exact hj.resolve_right hd
          obtain ⟨q1, c, q2, q3⟩ := hm j hj'
          have e := g2 j
          rw [if_pos hj'] at e
          cases ev : mesh.vertices[j]? with
          | none =>
            exfalso
            rw [ev] at e
            have hc : ∀ {is : List ℕ} {mesh mesh1 : Mesh}, setMargins a mesh is = some mesh1 → j ∈ is → mesh.vertices[j]? ≠ none := by
              intro is
              induction is with
              | nil => intro _ _ _ hh; simp at hh
              | cons i is ih2 =>
                intro mesh mesh1 hh hjj
                rw [setMargins] at hh
                cases e5 : changeAt mesh.vertices i (fun v => { v with sideLabel := withMargin v.sideLabel a }) with
                | none => rw [e5] at hh; simp at hh
                | some vs =>
                  rw [e5] at hh
                  rw [List.mem_cons] at hjj
                  obtain ⟨x, ex, -⟩ := changeAt_some e5
                  rcases hjj with rfl | hjj
                  · rw [ex]; simp
                  · have := ih2 hh hjj
                    intro hnone
                    apply this
                    show vs[j]? = none
                    rw [(changeAt_get e5 j).2, hnone]
                    simp
            exact hc h6 hj' ev
          | some v =>
            refine ⟨q1, v, a, c, rfl, q2, q3, ?_⟩
            rw [(f2 j).1 hd, e, ev]
            rfl

theorem updateMargins_adjacent {t : Tracked} {n p i j : ℕ} {is : List ℕ} {mesh mesh' : Mesh} {v w : Vertex} (hn : is.length ≤ n)
    (h : updateMargins t n is mesh = some mesh') (hd : is.Nodup) (hi : is[p]? = some i) (hj : is[p + 1]? = some j)
    (hv : mesh.vertices[i]? = some v) (hw : mesh.vertices[j]? = some w) (ha : Connected v w) :
    ∃ a, mesh'.vertices[i]? = some { v with sideLabel := withMargin v.sideLabel a } ∧
      mesh'.vertices[j]? = some { w with sideLabel := withMargin w.sideLabel a } := by
  induction n generalizing is mesh p v w with
  | zero =>
    cases is with
    | nil => simp at hi
    | cons i is => simp at hn
  | succ n ih =>
    cases is with
    | nil => simp at hi
    | cons i0 is =>
      obtain ⟨first, m, a, mesh1, h1, h2, -, h4, h5, h6, h7⟩ := updateMargins_step h
      obtain ⟨g1, g2⟩ := setMargins_spec h6
      have hl : (is.drop m).length ≤ n := by rw [List.length_drop]; simp at hn; omega
      obtain ⟨f1, f2⟩ := updateMargins_spec hl h7
      have hs : i0 :: is = (i0 :: is.take m) ++ is.drop m := by simp
      have hd' := hd
      rw [hs] at hd'
      have disj : ∀ k ∈ i0 :: is.take m, k ∉ is.drop m := fun k hk => List.disjoint_of_nodup_append hd' hk
      have inrun : ∀ q k, q ≤ m → (i0 :: is)[q]? = some k → k ∈ i0 :: is.take m := by
        intro q k hq hk
        cases q with
        | zero => simp at hk; simp [hk]
        | succ q =>
          simp only [List.getElem?_cons_succ] at hk
          refine List.mem_cons_of_mem _ (List.mem_of_getElem? (i := q) ?_)
          rw [List.getElem?_take, if_pos (by omega)]
          exact hk
      by_cases c : p + 1 ≤ m
      · have mi := inrun p i (by omega) hi
        have mj := inrun (p + 1) j c hj
        refine ⟨a, ?_, ?_⟩
        · rw [(f2 i).1 (disj i mi), g2 i, if_pos mi, hv]; rfl
        · rw [(f2 j).1 (disj j mj), g2 j, if_pos mj, hw]; rfl
      · by_cases c' : p = m
        · subst c'
          simp only [List.getElem?_cons_succ] at hj
          obtain ⟨v', w', e1, e2, e3⟩ := h4 i j hi hj
          rw [hv] at e1
          rw [hw] at e2
          cases e1
          cases e2
          exact absurd ha e3
        · obtain ⟨q, rfl⟩ : ∃ q, p = m + 1 + q := ⟨p - (m + 1), by omega⟩
          have hi' : (is.drop m)[q]? = some i := by
            rw [List.getElem?_drop, ← hi, show m + 1 + q = (m + q) + 1 by omega, List.getElem?_cons_succ]
          have hj' : (is.drop m)[q + 1]? = some j := by
            rw [List.getElem?_drop, ← hj, show m + 1 + q + 1 = (m + (q + 1)) + 1 by omega, List.getElem?_cons_succ]
          have ni : i ∉ i0 :: is.take m := fun q => disj i q (List.mem_of_getElem? hi')
          have nj : j ∉ i0 :: is.take m := fun q => disj j q (List.mem_of_getElem? hj')
          have e1 : mesh1.vertices[i]? = some v := by rw [g2 i, if_neg ni, hv]
          have e2 : mesh1.vertices[j]? = some w := by rw [g2 j, if_neg nj, hw]
          exact ih hl h7 (List.nodup_append.1 hd').2.1 hi' hj' e1 e2 ha

end Verif.Derivative
