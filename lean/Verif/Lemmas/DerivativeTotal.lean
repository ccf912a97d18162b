import Verif.Lemmas.DerivativeAll

/-!
# Lemmas on the averages and on failure
-/

set_option autoImplicit false

namespace Verif.Derivative

open Geo Spec

open Verif.Vertex (Category)

theorem sorted_rest {m n : ℕ} {is : List (ℕ × ℕ × ℕ)} {i : ℕ × ℕ × ℕ} (hs : Sorted m is) (hn : ∀ k, is.reverse[n]? = some k → Below m k)
    (g : i ∈ is.reverse.drop n) : Below m i := by
  cases e : is.reverse.drop n with
  | nil => rw [e] at g; simp at g
  | cons k rest =>
    have hk : is.reverse[n]? = some k := by
      have := List.getElem?_drop (xs := is.reverse) (i := n) (j := 0)
      rw [e] at this
      simpa using this.symm
    have hl : is = rest.reverse ++ k :: (is.reverse.take n).reverse := by
      have h1 : is.reverse = is.reverse.take n ++ k :: rest := by rw [← e, List.take_append_drop]
      have h2 := congrArg List.reverse h1
      rw [List.reverse_reverse, List.reverse_append, List.reverse_cons] at h2
      simpa using h2
    rw [e, List.mem_cons] at g
    rcases g with rfl | g
    · exact hn _ hk
    · exact hs _ _ _ hl (hn _ hk) i (List.mem_reverse.2 g)

theorem given_below {vectors : Vertex → Vertex → Vertex → List (Pt ℝ)} {mesh : Mesh} {m x : ℕ} {i : ℕ × ℕ × ℕ} (hb : Below m i) (hx : m ≤ x) :
    given vectors mesh i x = [] := by
  obtain ⟨h1, h2, h3⟩ := hb
  unfold given
  split
  · rw [if_neg]
    omega
  · rfl

theorem vectorsAt_take {vectors : Vertex → Vertex → Vertex → List (Pt ℝ)} {mesh : Mesh} {m n x : ℕ} (hs : Sorted m mesh.triangles)
    (hn : ∀ k, mesh.triangles.reverse[n]? = some k → Below m k) (hx : m ≤ x) :
    ((mesh.triangles.reverse.take n).flatMap fun i => given vectors mesh i x) = vectorsAt vectors mesh x := by
  have e : vectorsAt vectors mesh x = mesh.triangles.reverse.flatMap fun i => given vectors mesh i x := rfl
  rw [e]
  conv_rhs => rw [← List.take_append_drop n mesh.triangles.reverse]
  rw [List.flatMap_append]
  have : ((mesh.triangles.reverse.drop n).flatMap fun i => given vectors mesh i x) = [] := by
    rw [List.flatMap_eq_nil_iff]
    exact fun i hi => given_below (sorted_rest hs hn hi) hx
  rw [this, List.append_nil]

theorem tracked_accumulates {left right : List ℕ} {mesh : Mesh} {t t1 : Tracked} {m : ℕ} (h1 : reset left right mesh = some t)
    (h2 : forEachTriangle t.min (addDerivatives mesh) mesh.triangles.reverse t = some t1) (hm : First left right m) (hs : Sorted m mesh.triangles)
    (x : ℕ) (a : Averages) (hx : t1.min ≤ x) (ha : t1.averages[x - t1.min]? = some a) :
    Accumulates a.side (vectorsAt sideVectors mesh x) ∧ Accumulates a.forward (vectorsAt forwardVectors mesh x) := by
  obtain ⟨r1, -, r3, -⟩ := reset_spec h1
  obtain ⟨n, n1, d1, -, -, d4⟩ := forEach_adds h2
  have htm := first_unique r1 hm
  rw [d1] at hx ha
  rw [d4 x hx, r3, Option.map_eq_some_iff] at ha
  obtain ⟨b, hb, rfl⟩ := ha
  rw [List.getElem?_replicate] at hb
  split_ifs at hb
  cases hb
  rw [htm] at n1 hx
  rw [← vectorsAt_take (vectors := sideVectors) hs n1 hx, ← vectorsAt_take (vectors := forwardVectors) hs n1 hx]
  have k1 := accumulates_foldl accumulates_nil ((mesh.triangles.reverse.take n).flatMap fun i => given sideVectors mesh i x)
  have k2 := accumulates_foldl accumulates_nil ((mesh.triangles.reverse.take n).flatMap fun i => given forwardVectors mesh i x)
  rw [List.nil_append] at k1 k2
  exact ⟨k1, k2⟩

/-! ## Failure -/

theorem corners_isSome {mesh : Mesh} {i : ℕ × ℕ × ℕ} (h : Below mesh.vertices.length i) : ∃ a b c, corners mesh i = some (a, b, c) := by
  obtain ⟨h1, h2, h3⟩ := h
  unfold corners
  rw [List.getElem?_eq_getElem h1, List.getElem?_eq_getElem h2, List.getElem?_eq_getElem h3]
  exact ⟨_, _, _, rfl⟩

theorem addDerivatives_isSome {mesh : Mesh} {i : ℕ × ℕ × ℕ} {t : Tracked} (h : Below mesh.vertices.length i)
    (ht : mesh.vertices.length ≤ t.min + t.averages.length) : ∃ t', addDerivatives mesh i t = some t' := by
  obtain ⟨a, b, c, e⟩ := corners_isSome h
  have hin : ∀ (t : Tracked), mesh.vertices.length ≤ t.min + t.averages.length → ∀ k ∈ [i.1, i.2.1, i.2.2], k < t.min + t.averages.length := by
    intro t ht k hk
    obtain ⟨h1, h2, h3⟩ := h
    simp only [List.mem_cons, List.not_mem_nil, or_false] at hk
    rcases hk with rfl | rfl | rfl <;> omega
  have step : ∀ (f : Averages → Averages) (t : Tracked), mesh.vertices.length ≤ t.min + t.averages.length →
      ∃ t', saveDerivative f t [i.1, i.2.1, i.2.2] = some t' ∧ mesh.vertices.length ≤ t'.min + t'.averages.length := by
    intro f t ht
    obtain ⟨t', e⟩ := saveDerivative_isSome (add := f) (hin t ht)
    obtain ⟨q1, -, q3, -⟩ := saveDerivative_spec e
    exact ⟨t', e, by rw [q1, q3]; exact ht⟩
  have wstep : ∀ (p : Prop) [Decidable p] (v : Pt ℝ) (t : Tracked), mesh.vertices.length ≤ t.min + t.averages.length →
      ∃ t', when p (fun t => saveForward t [i.1, i.2.1, i.2.2] v) t = some t' ∧ mesh.vertices.length ≤ t'.min + t'.averages.length := by
    intro p _ v t ht
    unfold when
    split_ifs
    · exact step _ t ht
    · exact ⟨t, rfl, ht⟩
  unfold addDerivatives
  rw [e]
  dsimp only
  cases e2 : projections ⟨a.position, b.position, c.position⟩ with
  | none => exact ⟨t, rfl⟩
  | some p =>
    dsimp only
    obtain ⟨t1, e3, ht1⟩ : ∃ t', saveSideOf a b c p t [i.1, i.2.1, i.2.2] = some t' ∧ mesh.vertices.length ≤ t'.min + t'.averages.length := by
      unfold saveSideOf
      split_ifs
      · exact step _ t ht
      · exact step _ t ht
      · exact ⟨t, rfl, ht⟩
    rw [e3, Option.bind_some]
    obtain ⟨t2, e4, ht2⟩ := wstep (category a.forwardLabel = category b.forwardLabel) (minus p.1) t1 ht1
    rw [e4, Option.bind_some]
    obtain ⟨t3, e5, ht3⟩ := wstep (category b.forwardLabel = category c.forwardLabel) p.2.1 t2 ht2
    rw [e5, Option.bind_some]
    obtain ⟨t4, e6, -⟩ := wstep (category a.forwardLabel = category c.forwardLabel) p.2.2 t3 ht3
    exact ⟨t4, e6⟩

theorem forEach_isSome {m : ℕ} {f : ℕ × ℕ × ℕ → Tracked → Option Tracked} (P : Tracked → Prop) {is : List (ℕ × ℕ × ℕ)}
    (hf : ∀ i ∈ is, ∀ t, P t → ∃ t', f i t = some t' ∧ P t') {t : Tracked} (ht : P t) : ∃ t', forEachTriangle m f is t = some t' := by
  induction is generalizing t with
  | nil => exact ⟨t, by rw [forEachTriangle]⟩
  | cons i is ih =>
    rw [forEachTriangle]
    split_ifs
    · exact ⟨t, rfl⟩
    · obtain ⟨t', e, h⟩ := hf i (by simp) t ht
      rw [e]
      exact ih (fun k hk => hf k (by simp [hk])) h

theorem saveMargin_isSome {t : Tracked} {i : ℕ} {b : ℝ} (h : i < t.min + t.margins.length) : ∃ t', saveMargin t i b = some t' := by
  unfold saveMargin
  split_ifs with hi
  · exact ⟨t, rfl⟩
  · obtain ⟨l, e⟩ := changeAt_isSome (fun m => Min.min m b) (show i - t.min < t.margins.length by omega)
    rw [e]
    exact ⟨_, rfl⟩

theorem addMargins_isSome {mesh : Mesh} {i : ℕ × ℕ × ℕ} {t : Tracked} (h : Below mesh.vertices.length i)
    (ht : mesh.vertices.length ≤ t.min + t.margins.length) : ∃ t', addMargins mesh i t = some t' := by
  obtain ⟨a, b, c, e⟩ := corners_isSome h
  obtain ⟨h1, h2, h3⟩ := h
  have step : ∀ (t : Tracked) (k : ℕ) (x : ℝ), mesh.vertices.length ≤ t.min + t.margins.length → k < mesh.vertices.length →
      ∃ t', saveMargin t k x = some t' ∧ mesh.vertices.length ≤ t'.min + t'.margins.length := by
    intro t k x ht hk
    obtain ⟨t', e⟩ := saveMargin_isSome (b := x) (show k < t.min + t.margins.length by omega)
    obtain ⟨q, -⟩ := saveMargin_spec e
    exact ⟨t', e, by rw [q.1, q.2.2.1]; exact ht⟩
  have step' : ∀ (t : Tracked) (v : Vertex) (k : ℕ) (s s' : Segment ℝ), mesh.vertices.length ≤ t.min + t.margins.length → k < mesh.vertices.length →
      ∃ t', saveMarginOf v k s s' t = some t' ∧ mesh.vertices.length ≤ t'.min + t'.margins.length := by
    intro t v k s s' ht hk
    unfold saveMarginOf
    dsimp only
    split_ifs
    · exact step t k _ ht hk
    · exact step t k _ ht hk
  unfold addMargins
  rw [e]
  dsimp only
  split_ifs
  · obtain ⟨t1, e1, k1⟩ := step t i.1 0 ht h1
    rw [e1, Option.bind_some]
    obtain ⟨t2, e2, k2⟩ := step t1 i.2.1 0 k1 h2
    rw [e2, Option.bind_some]
    obtain ⟨t3, e3, -⟩ := step t2 i.2.2 0 k2 h3
    exact ⟨t3, e3⟩
  · exact ⟨t, rfl⟩
  · obtain ⟨t1, e1, k1⟩ := step' t a i.1 _ _ ht h1
    rw [e1, Option.bind_some]
    obtain ⟨t2, e2, k2⟩ := step' t1 b i.2.1 _ _ k1 h2
    rw [e2, Option.bind_some]
    obtain ⟨t3, e3, -⟩ := step' t2 c i.2.2 _ _ k2 h3
    exact ⟨t3, e3⟩

theorem sameCount_isSome {mesh : Mesh} {first : Vertex} {c : ℕ} {is : List ℕ} (h : ∀ i ∈ is, i < mesh.vertices.length) :
    ∃ n, sameCount mesh first c is = some n := by
  induction is generalizing c with
  | nil => exact ⟨c, by rw [sameCount]⟩
  | cons i is ih =>
    rw [sameCount, List.getElem?_eq_getElem (h i (by simp))]
    dsimp only
    split_ifs
    · exact ⟨c, rfl⟩
    · exact ih fun k hk => h k (by simp [hk])

theorem connectedCount_isSome {mesh : Mesh} {first : Pt ℝ} {p : Category} {c : ℕ} {is : List ℕ} (h : ∀ i ∈ is, i < mesh.vertices.length) :
    ∃ n, connectedCount mesh first p c is = some n := by
  induction is generalizing c p with
  | nil => exact ⟨c, by rw [connectedCount]⟩
  | cons i is ih =>
    rw [connectedCount, List.getElem?_eq_getElem (h i (by simp))]
    dsimp only
    split_ifs
    · exact ⟨c, rfl⟩
    · exact ⟨c, rfl⟩
    · exact ih fun k hk => h k (by simp [hk])

theorem averagesOf_isSome {t : Tracked} {acc : Averages} {is : List ℕ} (h : ∀ i ∈ is, t.min ≤ i ∧ i < t.min + t.averages.length) :
    ∃ a, averagesOf t acc is = some a := by
  induction is generalizing acc with
  | nil => exact ⟨acc, by rw [averagesOf]⟩
  | cons i is ih =>
    obtain ⟨h1, h2⟩ := h i (by simp)
    rw [averagesOf, if_neg (not_lt.2 h1), List.getElem?_eq_getElem (show i - t.min < t.averages.length by omega)]
    exact ih fun k hk => h k (by simp [hk])

theorem marginOf_isSome {t : Tracked} {acc : ℝ} {is : List ℕ} (h : ∀ i ∈ is, t.min ≤ i ∧ i < t.min + t.margins.length) :
    ∃ a, marginOf t acc is = some a := by
  induction is generalizing acc with
  | nil => exact ⟨acc, by rw [marginOf]⟩
  | cons i is ih =>
    obtain ⟨h1, h2⟩ := h i (by simp)
    rw [marginOf, if_neg (not_lt.2 h1), List.getElem?_eq_getElem (show i - t.min < t.margins.length by omega)]
    exact ih fun k hk => h k (by simp [hk])

theorem setDerivatives_isSome {s f : Pt ℝ} {mesh : Mesh} {is : List ℕ} (h : ∀ i ∈ is, i < mesh.vertices.length) :
    ∃ m, setDerivatives s f mesh is = some m ∧ m.vertices.length = mesh.vertices.length := by
  induction is generalizing mesh with
  | nil => exact ⟨mesh, by rw [setDerivatives], rfl⟩
  | cons i is ih =>
    obtain ⟨l, e⟩ := changeAt_isSome (fun v : Vertex => { v with sideDerivative := s, forwardDerivative := f }) (h i (by simp))
    have hl := (changeAt_get e 0).1
    rw [setDerivatives, e]
    obtain ⟨m, e2, h2⟩ := ih (mesh := { mesh with vertices := l }) (fun k hk => by show k < l.length; rw [hl]; exact h k (by simp [hk]))
    exact ⟨m, e2, h2.trans hl⟩

theorem setMargins_isSome {x : ℝ} {mesh : Mesh} {is : List ℕ} (h : ∀ i ∈ is, i < mesh.vertices.length) :
    ∃ m, setMargins x mesh is = some m ∧ m.vertices.length = mesh.vertices.length := by
  induction is generalizing mesh with
  | nil => exact ⟨mesh, by rw [setMargins], rfl⟩
  | cons i is ih =>
    obtain ⟨l, e⟩ := changeAt_isSome (fun v : Vertex => { v with sideLabel := withMargin v.sideLabel x }) (h i (by simp))
    have hl := (changeAt_get e 0).1
    rw [setMargins, e]
    obtain ⟨m, e2, h2⟩ := ih (mesh := { mesh with vertices := l }) (fun k hk => by show k < l.length; rw [hl]; exact h k (by simp [hk]))
    exact ⟨m, e2, h2.trans hl⟩

theorem updateDerivatives_isSome {t : Tracked} {n : ℕ} {is : List ℕ} {mesh : Mesh} (ht : mesh.vertices.length = t.min + t.averages.length)
    (h : ∀ i ∈ is, t.min ≤ i ∧ i < mesh.vertices.length) :
    ∃ m, updateDerivatives t n is mesh = some m ∧ m.vertices.length = mesh.vertices.length := by
  induction n generalizing is mesh with
  | zero => cases is <;> exact ⟨mesh, by rw [updateDerivatives], rfl⟩
  | succ n ih =>
    cases is with
    | nil => exact ⟨mesh, by rw [updateDerivatives], rfl⟩
    | cons i is =>
      rw [updateDerivatives, List.getElem?_eq_getElem (h i (by simp)).2]
      dsimp only
      obtain ⟨c, ec⟩ := sameCount_isSome (mesh := mesh) (first := mesh.vertices[i]'(h i (by simp)).2) (c := 1) (is := is) (fun k hk => (h k (by simp [hk])).2)
      rw [ec]
      dsimp only
      have hin : ∀ k ∈ (i :: is).take c, t.min ≤ k ∧ k < mesh.vertices.length := fun k hk => h k (List.mem_of_mem_take hk)
      obtain ⟨a, ea⟩ := averagesOf_isSome (acc := {}) (fun k hk => ⟨(hin k hk).1, ht ▸ (hin k hk).2⟩)
      rw [ea]
      dsimp only
      obtain ⟨m, em, hm⟩ := setDerivatives_isSome (s := a.side.value) (f := a.forward.value) (fun k hk => (hin k hk).2)
      rw [em]
      obtain ⟨m', e', h'⟩ := ih (mesh := m) (hm.trans ht) (fun k hk => hm ▸ h k (List.mem_of_mem_drop hk))
      exact ⟨m', e', h'.trans hm⟩

theorem updateMargins_isSome {t : Tracked} {n : ℕ} {is : List ℕ} {mesh : Mesh} (ht : mesh.vertices.length = t.min + t.margins.length)
    (h : ∀ i ∈ is, t.min ≤ i ∧ i < mesh.vertices.length) :
    ∃ m, updateMargins t n is mesh = some m ∧ m.vertices.length = mesh.vertices.length := by
  induction n generalizing is mesh with
  | zero => cases is <;> exact ⟨mesh, by rw [updateMargins], rfl⟩
  | succ n ih =>
    cases is with
    | nil => exact ⟨mesh, by rw [updateMargins], rfl⟩
    | cons i is =>
      rw [updateMargins, List.getElem?_eq_getElem (h i (by simp)).2]
      dsimp only
      obtain ⟨c, ec⟩ := connectedCount_isSome (mesh := mesh) (first := (mesh.vertices[i]'(h i (by simp)).2).position)
        (p := category (mesh.vertices[i]'(h i (by simp)).2).forwardLabel) (c := 1) (is := is) (fun k hk => (h k (by simp [hk])).2)
      rw [ec]
      dsimp only
      have hin : ∀ k ∈ (i :: is).take c, t.min ≤ k ∧ k < mesh.vertices.length := fun k hk => h k (List.mem_of_mem_take hk)
      obtain ⟨a, ea⟩ := marginOf_isSome (acc := maximumMargin) (fun k hk => ⟨(hin k hk).1, ht ▸ (hin k hk).2⟩)
      rw [ea]
      dsimp only
      obtain ⟨m, em, hm⟩ := setMargins_isSome (x := a) (fun k hk => (hin k hk).2)
      rw [em]
      obtain ⟨m', e', h'⟩ := ih (mesh := m) (hm.trans ht) (fun k hk => hm ▸ h k (List.mem_of_mem_drop hk))
      exact ⟨m', e', h'.trans hm⟩

theorem updateMesh_isSome {left right : List ℕ} {mesh : Mesh} {m : ℕ} (hm : First left right m)
    (ht : ∀ i ∈ mesh.triangles, Below mesh.vertices.length i) (hl : ∀ i ∈ left ++ right, m ≤ i ∧ i < mesh.vertices.length) :
    ∃ mesh', updateMesh left right mesh = some mesh' := by
  have hne : ¬(left = [] ∧ right = []) := by
    rintro ⟨rfl, rfl⟩
    simp [First] at hm
  have hlt : m < mesh.vertices.length := by
    rcases hm.1 with q | q
    · exact (hl m (List.mem_append_left _ (List.mem_of_mem_head? q))).2
    · exact (hl m (List.mem_append_right _ (List.mem_of_mem_head? q))).2
  obtain ⟨t, e1⟩ := reset_isSome (mesh := mesh) hm hlt
  obtain ⟨r1, r2, r3, r4⟩ := reset_spec e1
  have hmin := first_unique r1 hm
  have ra : mesh.vertices.length = t.min + t.averages.length := by rw [r3, List.length_replicate]; omega
  have rm : mesh.vertices.length = t.min + t.margins.length := by rw [r4]; omega
  unfold updateMesh
  rw [if_neg hne, e1, Option.bind_some]
  obtain ⟨t1, e2⟩ := forEach_isSome (m := t.min) (f := addDerivatives mesh) (P := fun t => mesh.vertices.length = t.min + t.averages.length)
    (is := mesh.triangles.reverse) (fun i hi u hu => by
      obtain ⟨u', e⟩ := addDerivatives_isSome (ht i (List.mem_reverse.1 hi)) hu.le
      obtain ⟨q1, -, q3, -⟩ := addDerivatives_adds e
      exact ⟨u', e, by rw [q1, q3]; exact hu⟩) ra
  obtain ⟨n, -, d1, d2, d3, -⟩ := forEach_adds e2
  rw [e2, Option.bind_some]
  have ra1 : mesh.vertices.length = t1.min + t1.averages.length := by rw [d1, d3]; exact ra
  have rm1 : mesh.vertices.length = t1.min + t1.margins.length := by rw [d1, d2]; exact rm
  have in1 : ∀ i ∈ left, t1.min ≤ i ∧ i < mesh.vertices.length := fun i hi => by
    rw [d1, hmin]; exact hl i (List.mem_append_left _ hi)
  have in2 : ∀ i ∈ right, t1.min ≤ i ∧ i < mesh.vertices.length := fun i hi => by
    rw [d1, hmin]; exact hl i (List.mem_append_right _ hi)
  obtain ⟨m1, e3, l1⟩ := updateDerivatives_isSome (n := left.length) ra1 in1
  rw [e3, Option.bind_some]
  obtain ⟨m2, e4, l2⟩ := updateDerivatives_isSome (n := right.length) (mesh := m1) (l1.trans ra1) (l1 ▸ in2)
  rw [e4, Option.bind_some]
  have htr : m2.triangles = mesh.triangles := (derivatives_pass e3 e4).1
  have l2' := l2.trans l1
  obtain ⟨t2, e5⟩ := forEach_isSome (m := t1.min) (f := addMargins m2) (P := fun t => mesh.vertices.length = t.min + t.margins.length)
    (is := m2.triangles.reverse) (fun i hi u hu => by
      rw [htr] at hi
      obtain ⟨u', e⟩ := addMargins_isSome (mesh := m2) (l2' ▸ ht i (List.mem_reverse.1 hi)) (l2' ▸ hu.le)
      obtain ⟨q, -⟩ := addMargins_spec e
      exact ⟨u', e, by rw [q.1, q.2.2.1]; exact hu⟩) rm1
  obtain ⟨-, -, lo, -⟩ := forEach_margins e5
  rw [e5, Option.bind_some]
  have rm2 : m2.vertices.length = t2.min + t2.margins.length := by rw [lo.1, lo.2.2.1, l2']; exact rm1
  obtain ⟨m3, e6, l3⟩ := updateMargins_isSome (n := left.length) rm2 (by rw [lo.1, l2']; exact in1)
  rw [e6, Option.bind_some]
  obtain ⟨m4, e7, -⟩ := updateMargins_isSome (n := right.length) (mesh := m3) (l3.trans rm2) (by rw [lo.1, l3, l2']; exact in2)
  exact ⟨m4, e7⟩

end Verif.Derivative
