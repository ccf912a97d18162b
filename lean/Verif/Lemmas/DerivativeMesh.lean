import Verif.Lemmas.DerivativeCalculator

/-!
# Lemmas on the update of a mesh
-/

set_option autoImplicit false

namespace Verif.Derivative

open Geo Spec

open Verif.Vertex (Category)

/-! ## Projections -/

theorem toProjection_eq {p a b : Pt ℝ} (h : a ≠ b) : vectorToProjection p ⟨a, b⟩ = some (toLine p a b) := by
  unfold vectorToProjection
  have hm : (Segment.vector (⟨a, b⟩ : Segment ℝ)).dot (Segment.vector ⟨a, b⟩) =
      (b.x - a.x) * (b.x - a.x) + (b.y - a.y) * (b.y - a.y) := rfl
  have hd : (Segment.vector (⟨a, b⟩ : Segment ℝ)).det (a.sub p) = (b.x - a.x) * (a.y - p.y) - (b.y - a.y) * (a.x - p.x) := rfl
  dsimp only
  rw [hm, hd]
  have hne : (b.x - a.x) * (b.x - a.x) + (b.y - a.y) * (b.y - a.y) ≠ 0 := by
    intro g
    apply h
    have hx : (b.x - a.x) * (b.x - a.x) = 0 := le_antisymm (by nlinarith [mul_self_nonneg (b.y - a.y)]) (mul_self_nonneg _)
    have hy : (b.y - a.y) * (b.y - a.y) = 0 := le_antisymm (by nlinarith [mul_self_nonneg (b.x - a.x)]) (mul_self_nonneg _)
    exact Pt.ext (by linarith [mul_self_eq_zero.1 hx]) (by linarith [mul_self_eq_zero.1 hy])
  rw [if_neg hne]
  unfold toLine Pt.smul Pt.orthogonal Segment.vector Pt.sub
  dsimp only
  generalize hM : (b.x - a.x) * (b.x - a.x) + (b.y - a.y) * (b.y - a.y) = M at hne
  congr 1
  apply Pt.ext
  · dsimp only; field_simp; rw [← hM]; ring
  · dsimp only; field_simp; rw [← hM]; ring

theorem toProjection_none {p a : Pt ℝ} : vectorToProjection p ⟨a, a⟩ = none := by
  unfold vectorToProjection Segment.vector Pt.sub Pt.dot
  simp

theorem projections_eq (a b c : Vertex) :
    (Coincide a b c → projections ⟨a.position, b.position, c.position⟩ = none) ∧
    (¬Coincide a b c → projections ⟨a.position, b.position, c.position⟩ =
      some (toLine c.position a.position b.position, toLine a.position b.position c.position, toLine b.position c.position a.position)) := by
  constructor
  · intro h
    unfold projections
    dsimp only
    rcases h with h | h | h
    · rw [h, toProjection_none]
    · rw [h, toProjection_none]
      cases vectorToProjection c.position ⟨a.position, c.position⟩ <;> rfl
    · rw [h, toProjection_none]
      cases vectorToProjection a.position ⟨a.position, b.position⟩ <;> cases vectorToProjection a.position ⟨b.position, a.position⟩ <;> rfl
  · intro h
    unfold Coincide at h
    push Not at h
    unfold projections
    dsimp only
    rw [toProjection_eq h.1, toProjection_eq h.2.1, toProjection_eq h.2.2]

/-! ## Averages of triangles -/

theorem saveDerivative_spec {add : Averages → Averages} {t t' : Tracked} {is : List ℕ} (h : saveDerivative add t is = some t') :
    t'.min = t.min ∧ t'.margins = t.margins ∧ t'.averages.length = t.averages.length ∧
      ∀ x, t.min ≤ x → t'.averages[x - t.min]? = t.averages[x - t.min]?.map (add^[is.count x]) := by
  induction is generalizing t with
  | nil =>
    rw [saveDerivative] at h
    cases h
    exact ⟨rfl, rfl, rfl, fun x _ => by simp⟩
  | cons i is ih =>
    rw [saveDerivative] at h
    by_cases hi : i < t.min
    · rw [if_pos hi] at h
      obtain ⟨h1, h2, h3, h4⟩ := ih h
      refine ⟨h1, h2, h3, fun x hx => ?_⟩
      rw [h4 x hx, List.count_cons_of_ne (by omega)]
    · rw [if_neg hi] at h
      cases e : changeAt t.averages (i - t.min) add with
      | none => rw [e] at h; simp at h
      | some as =>
        rw [e] at h
        obtain ⟨h1, h2, h3, h4⟩ := ih h
        have hl := (changeAt_get e 0).1
        refine ⟨h1, h2, by rw [h3]; exact hl, fun x hx => ?_⟩
        rw [h4 x hx]
        show as[x - t.min]?.map _ = _
        rw [(changeAt_get e (x - t.min)).2]
        by_cases hxi : x = i
        · subst hxi
          rw [if_pos rfl, List.count_cons_self, Option.map_map]
          congr 1
        · rw [if_neg (by omega), List.count_cons_of_ne (fun g => hxi g.symm)]

theorem saveDerivative_isSome {add : Averages → Averages} {t : Tracked} {is : List ℕ} (h : ∀ i ∈ is, i < t.min + t.averages.length) :
    ∃ t', saveDerivative add t is = some t' := by
  induction is generalizing t with
  | nil => exact ⟨t, by rw [saveDerivative]⟩
  | cons i is ih =>
    rw [saveDerivative]
    by_cases hi : i < t.min
    · rw [if_pos hi]
      exact ih (fun j hj => h j (by simp [hj]))
    · rw [if_neg hi]
      obtain ⟨as, e⟩ := changeAt_isSome (l := t.averages) (i := i - t.min) add (by have := h i (by simp); omega)
      rw [e]
      refine ih (t := { t with averages := as }) (fun j hj => ?_)
      have := h j (by simp [hj])
      have hl := (changeAt_get e 0).1
      show j < t.min + as.length
      omega

/-- What the triangle adds to the vertex `x`. -/
def Adds (t t' : Tracked) (side forward : ℕ → List (Pt ℝ)) : Prop :=
  t'.min = t.min ∧ t'.margins = t.margins ∧ t'.averages.length = t.averages.length ∧
    ∀ x, t.min ≤ x → t'.averages[x - t.min]? =
      t.averages[x - t.min]?.map fun a => ⟨(side x).foldl Average.add a.side, (forward x).foldl Average.add a.forward⟩

theorem adds_refl (t : Tracked) : Adds t t (fun _ => []) (fun _ => []) := ⟨rfl, rfl, rfl, fun x _ => by simp⟩

theorem adds_trans {t t' t'' : Tracked} {s f s' f' : ℕ → List (Pt ℝ)} (h : Adds t t' s f) (g : Adds t' t'' s' f') :
    Adds t t'' (fun x => s x ++ s' x) (fun x => f x ++ f' x) := by
  obtain ⟨h1, h2, h3, h4⟩ := h
  obtain ⟨g1, g2, g3, g4⟩ := g
  refine ⟨g1.trans h1, g2.trans h2, g3.trans h3, fun x hx => ?_⟩
  have := g4 x (by omega)
  rw [h1] at this
  rw [this, h4 x hx, Option.map_map]
  congr 1
  funext a
  simp [List.foldl_append]

theorem count_three {i j k : ℕ} (h1 : i ≠ j) (h2 : j ≠ k) (h3 : k ≠ i) (x : ℕ) :
    [i, j, k].count x = if x = i ∨ x = j ∨ x = k then 1 else 0 := by
  by_cases a : x = i
  · subst a; simp [h1.symm, h3]
  · by_cases b : x = j
    · subst b; simp [h1, h2.symm]
    · by_cases c : x = k
      · subst c; simp [h2, h3.symm]
      · simp [a, b, c, Ne.symm a, Ne.symm b, Ne.symm c]

theorem saveSide_adds {t t' : Tracked} {i j k : ℕ} {v : Pt ℝ} (h1 : i ≠ j) (h2 : j ≠ k) (h3 : k ≠ i)
    (h : saveSide t [i, j, k] v = some t') : Adds t t' (fun x => if x = i ∨ x = j ∨ x = k then [v] else []) (fun _ => []) := by
  obtain ⟨a1, a2, a3, a4⟩ := saveDerivative_spec h
  refine ⟨a1, a2, a3, fun x hx => ?_⟩
  rw [a4 x hx, count_three h1 h2 h3]
  congr 1
  funext a
  dsimp only
  split_ifs with q <;> simp

theorem saveForward_adds {t t' : Tracked} {i j k : ℕ} {v : Pt ℝ} (h1 : i ≠ j) (h2 : j ≠ k) (h3 : k ≠ i)
    (h : saveForward t [i, j, k] v = some t') : Adds t t' (fun _ => []) (fun x => if x = i ∨ x = j ∨ x = k then [v] else []) := by
  obtain ⟨a1, a2, a3, a4⟩ := saveDerivative_spec h
  refine ⟨a1, a2, a3, fun x hx => ?_⟩
  rw [a4 x hx, count_three h1 h2 h3]
  congr 1
  funext a
  dsimp only
  split_ifs with q <;> simp

theorem saveSideOf_adds {t t' : Tracked} {i j k : ℕ} {a b c : Vertex} {p : Pt ℝ} (h1 : i ≠ j) (h2 : j ≠ k) (h3 : k ≠ i) (hc : ¬Coincide a b c)
    (h : saveSideOf a b c (p, toLine a.position b.position c.position, toLine b.position c.position a.position) t [i, j, k] = some t') :
    Adds t t' (fun x => if x = i ∨ x = j ∨ x = k then sideVectors a b c else []) (fun _ => []) := by
  unfold saveSideOf at h
  unfold sideVectors
  rw [if_neg hc]
  by_cases g : c.sideLabel < 0 ∧ a.sideLabel < 0
  · rw [if_pos ⟨(category_left _).2 g.1, by rw [(category_left _).2 g.1, (category_left _).2 g.2]⟩] at h
    rw [if_pos g]
    exact saveSide_adds h1 h2 h3 h
  · rw [if_neg (by rintro ⟨u, v⟩; rw [u] at v; exact g ⟨(category_left _).1 u, (category_left _).1 v⟩)] at h
    rw [if_neg g]
    by_cases g' : 0 < c.sideLabel ∧ 0 < b.sideLabel
    · rw [if_pos ⟨(category_right _).2 g'.1, by rw [(category_right _).2 g'.1, (category_right _).2 g'.2]⟩] at h
      rw [if_pos g']
      exact saveSide_adds h1 h2 h3 h
    · rw [if_neg (by rintro ⟨u, v⟩; rw [u] at v; exact g' ⟨(category_right _).1 u, (category_right _).1 v⟩)] at h
      rw [if_neg g']
      cases h
      simpa using adds_refl t

open Classical in
theorem when_adds {t t' : Tracked} {i j k : ℕ} {x y : ℝ} {v : Pt ℝ} (h1 : i ≠ j) (h2 : j ≠ k) (h3 : k ≠ i)
    (h : when (category x = category y) (fun t => saveForward t [i, j, k] v) t = some t') :
    Adds t t' (fun _ => []) (fun z => if z = i ∨ z = j ∨ z = k then (if SameSign x y then [v] else []) else []) := by
  unfold when at h
  by_cases g : SameSign x y
  · rw [if_pos ((category_same x y).2 g)] at h
    simp only [if_pos g]
    exact saveForward_adds h1 h2 h3 h
  · rw [if_neg (fun u => g ((category_same x y).1 u))] at h
    simp only [if_neg g]
    cases h
    simpa using adds_refl t

theorem corners_some {mesh : Mesh} {i : ℕ × ℕ × ℕ} {a b c : Vertex} (h : corners mesh i = some (a, b, c)) :
    mesh.vertices[i.1]? = some a ∧ mesh.vertices[i.2.1]? = some b ∧ mesh.vertices[i.2.2]? = some c := by
  unfold corners at h
  cases e1 : mesh.vertices[i.1]? <;> cases e2 : mesh.vertices[i.2.1]? <;> cases e3 : mesh.vertices[i.2.2]? <;> rw [e1, e2, e3] at h <;> simp_all

/-- What a triangle gives to the vertex `x`. -/
noncomputable def given (vectors : Vertex → Vertex → Vertex → List (Pt ℝ)) (mesh : Mesh) (i : ℕ × ℕ × ℕ) (x : ℕ) : List (Pt ℝ) :=
  match mesh.vertices[i.1]?, mesh.vertices[i.2.1]?, mesh.vertices[i.2.2]? with
  | some a, some b, some c => if x = i.1 ∨ x = i.2.1 ∨ x = i.2.2 then vectors a b c else []
  | _, _, _ => []

theorem addDerivatives_adds {mesh : Mesh} {i : ℕ × ℕ × ℕ} {t t' : Tracked} (h : addDerivatives mesh i t = some t') :
    Adds t t' (given sideVectors mesh i) (given forwardVectors mesh i) := by
  unfold addDerivatives at h
  cases e : corners mesh i with
  | none => rw [e] at h; simp at h
  | some v =>
    obtain ⟨a, b, c⟩ := v
    rw [e] at h
    dsimp only at h
    obtain ⟨ea, eb, ec⟩ := corners_some e
    have hs : given sideVectors mesh i = fun x => if x = i.1 ∨ x = i.2.1 ∨ x = i.2.2 then sideVectors a b c else [] := by
      funext x; unfold given; rw [ea, eb, ec]
    have hf : given forwardVectors mesh i = fun x => if x = i.1 ∨ x = i.2.1 ∨ x = i.2.2 then forwardVectors a b c else [] := by
      funext x; unfold given; rw [ea, eb, ec]
    rw [hs, hf]
    by_cases hc : Coincide a b c
    · rw [(projections_eq a b c).1 hc] at h
      cases h
      unfold sideVectors forwardVectors
      rw [if_pos hc, if_pos hc]
      simpa using adds_refl t
    · rw [(projections_eq a b c).2 hc] at h
      dsimp only at h
      have n1 : i.1 ≠ i.2.1 := by
        intro g; rw [g, eb] at ea; cases ea; exact hc (Or.inl rfl)
      have n2 : i.2.1 ≠ i.2.2 := by
        intro g; rw [g, ec] at eb; cases eb; exact hc (Or.inr (Or.inl rfl))
      have n3 : i.2.2 ≠ i.1 := by
        intro g; rw [g, ea] at ec; cases ec; exact hc (Or.inr (Or.inr rfl))
      rw [Option.bind_eq_some_iff] at h
      obtain ⟨t1, g1, h⟩ := h
      rw [Option.bind_eq_some_iff] at h
      obtain ⟨t2, g2, h⟩ := h
      rw [Option.bind_eq_some_iff] at h
      obtain ⟨t3, g3, h⟩ := h
      have q := adds_trans (adds_trans (adds_trans (saveSideOf_adds n1 n2 n3 hc g1) (when_adds n1 n2 n3 g2)) (when_adds n1 n2 n3 g3))
        (when_adds n1 n2 n3 h)
      convert q using 2 with x
      · simp
      · unfold forwardVectors
        rw [if_neg hc]
        split_ifs <;> simp [fromLine, minus]

theorem forEach_adds {mesh : Mesh} {is : List (ℕ × ℕ × ℕ)} {t t' : Tracked} (h : forEachTriangle t.min (addDerivatives mesh) is t = some t') :
    ∃ n, (∀ i, is[n]? = some i → Below t.min i) ∧
      Adds t t' (fun x => (is.take n).flatMap fun i => given sideVectors mesh i x) (fun x => (is.take n).flatMap fun i => given forwardVectors mesh i x) := by
  generalize hm : t.min = m at h
  induction is generalizing t with
  | nil =>
    rw [forEachTriangle] at h
    cases h
    exact ⟨0, by simp, by simpa using adds_refl _⟩
  | cons i is ih =>
    rw [forEachTriangle] at h
    by_cases hb : i.1 < m ∧ i.2.1 < m ∧ i.2.2 < m
    · rw [if_pos hb] at h
      cases h
      refine ⟨0, ?_, by simpa using adds_refl _⟩
      intro j hj
      simp only [List.getElem?_cons_zero, Option.some.injEq] at hj
      subst hj
      exact hb
    · rw [if_neg hb] at h
      cases e : addDerivatives mesh i t with
      | none => rw [e] at h; simp at h
      | some t1 =>
        rw [e] at h
        dsimp only at h
        have g := addDerivatives_adds e
        obtain ⟨n, h1, h2⟩ := ih (g.1.trans hm) h
        refine ⟨n + 1, by simpa using h1, ?_⟩
        simpa using adds_trans g h2

end Verif.Derivative
