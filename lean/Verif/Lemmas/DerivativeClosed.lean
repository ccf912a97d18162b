import Verif.Lemmas.DerivativeTotal
import Verif.Lemmas.DerivativeAll
import Mathlib.Data.List.SplitBy

/-!
# The derivatives and margins after an update, in closed form
-/

set_option autoImplicit false

namespace Verif.Derivative

open Geo Spec

open Verif.Vertex (Category)

/-! ## Runs -/

theorem splitBy_loop_congr {α : Type} {r r' : α → α → Bool} (l : List α) (a : α) (g : List α) (gs : List (List α))
    (h : ∀ x ∈ a :: l, ∀ y ∈ a :: l, r x y = r' x y) : List.splitBy.loop r l a g gs = List.splitBy.loop r' l a g gs := by
  induction l generalizing a g gs with
  | nil => rfl
  | cons b l ih =>
    have h' : ∀ x ∈ b :: l, ∀ y ∈ b :: l, r x y = r' x y := fun x hx y hy => h x (List.mem_cons_of_mem _ hx) y (List.mem_cons_of_mem _ hy)
    rw [List.splitBy.loop, List.splitBy.loop, h a (by simp) b (by simp)]
    cases r' a b
    · exact ih b _ _ h'
    · exact ih b _ _ h'

theorem splitBy_congr {α : Type} {r r' : α → α → Bool} {l : List α} (h : ∀ x ∈ l, ∀ y ∈ l, r x y = r' x y) : l.splitBy r = l.splitBy r' := by
  cases l with
  | nil => rfl
  | cons a l => exact splitBy_loop_congr l a [] [] h

theorem splitBy_head {r : ℕ → ℕ → Bool} {i m : ℕ} {is : List ℕ} (hm : m ≤ is.length) (hc : (i :: is.take m).IsChain fun x y => r x y = true)
    (hb : ∀ k l, (i :: is)[m]? = some k → is[m]? = some l → r k l = false) :
    (i :: is).splitBy r = (i :: is.take m) :: (is.drop m).splitBy r := by
  have e : i :: is = (i :: is.take m) ++ is.drop m := by simp
  conv_lhs => rw [e]
  rw [List.splitBy_append, List.splitBy_of_isChain (by simp) hc, List.singleton_append]
  intro x hx y hy
  refine hb x y ?_ ?_
  · rw [List.getLast?_eq_getElem?] at hx
    rw [← List.take_succ_cons, List.getElem?_take_of_lt (by simp)] at hx
    simpa [hm] using hx
  · rw [List.head?_drop] at hy
    exact hy

open Classical in
/-- Two vertices are alike. -/
noncomputable def alikeAt (M : Mesh) (i j : ℕ) : Bool := decide (∃ v w, M.vertices[i]? = some v ∧ M.vertices[j]? = some w ∧ Alike v w)

open Classical in
/-- Two vertices are at the same point in one part of the stroke. -/
noncomputable def connAt (M : Mesh) (i j : ℕ) : Bool := decide (∃ v w, M.vertices[i]? = some v ∧ M.vertices[j]? = some w ∧ Connected v w)

theorem alikeAt_true {M : Mesh} {i j : ℕ} : alikeAt M i j = true ↔ ∃ v w, M.vertices[i]? = some v ∧ M.vertices[j]? = some w ∧ Alike v w := by
  unfold alikeAt
  simp only [decide_eq_true_eq]

theorem connAt_true {M : Mesh} {i j : ℕ} : connAt M i j = true ↔ ∃ v w, M.vertices[i]? = some v ∧ M.vertices[j]? = some w ∧ Connected v w := by
  unfold connAt
  simp only [decide_eq_true_eq]

/-- A vertex is at the same point with the same categories in two meshes, or in neither. -/
def SameAt (M M' : Mesh) (i : ℕ) : Prop :=
  M.vertices[i]? = none ∧ M'.vertices[i]? = none ∨ ∃ v w, M.vertices[i]? = some v ∧ M'.vertices[i]? = some w ∧ Alike v w

theorem SameAt.refl (M : Mesh) (i : ℕ) : SameAt M M i := by
  cases e : M.vertices[i]? with
  | none => exact Or.inl ⟨e, e⟩
  | some v => exact Or.inr ⟨v, v, e, e, alike_refl v⟩

theorem SameAt.symm {M M' : Mesh} {i : ℕ} (h : SameAt M M' i) : SameAt M' M i := by
  rcases h with ⟨a, b⟩ | ⟨v, w, a, b, c⟩
  exacts [Or.inl ⟨b, a⟩, Or.inr ⟨w, v, b, a, alike_symm c⟩]

theorem SameAt.trans {M M' M'' : Mesh} {i : ℕ} (h : SameAt M M' i) (g : SameAt M' M'' i) : SameAt M M'' i := by
  rcases h with ⟨a, b⟩ | ⟨v, w, a, b, c⟩
  · rcases g with ⟨-, d⟩ | ⟨x, y, d, -⟩
    · exact Or.inl ⟨a, d⟩
    · rw [b] at d; simp at d
  · rcases g with ⟨d, -⟩ | ⟨x, y, d, e, f⟩
    · rw [b] at d; simp at d
    · rw [b] at d
      cases d
      exact Or.inr ⟨v, y, a, e, alike_trans c f⟩

theorem connected_congr {v w v' w' : Vertex} (h : Alike v v') (g : Alike w w') : Connected v w ↔ Connected v' w' := by
  have pos : ∀ {x y : ℝ}, SameSign x y → (0 < x ↔ 0 < y) := fun {x y} q => by
    rw [← category_right, ← category_right, (category_same x y).2 q]
  unfold Connected
  rw [h.1, g.1, pos h.2.2, pos g.2.2]

theorem alikeAt_congr {M M' : Mesh} {i j : ℕ} (hi : SameAt M M' i) (hj : SameAt M M' j) : alikeAt M i j = alikeAt M' i j := by
  unfold alikeAt
  rw [decide_eq_decide]
  have one : ∀ {M M' : Mesh}, SameAt M M' i → SameAt M M' j → (∃ v w, M.vertices[i]? = some v ∧ M.vertices[j]? = some w ∧ Alike v w) →
      ∃ v w, M'.vertices[i]? = some v ∧ M'.vertices[j]? = some w ∧ Alike v w := by
    rintro M M' hi hj ⟨v, w, a, b, c⟩
    rcases hi with ⟨d, -⟩ | ⟨x, y, d, e, f⟩
    · rw [a] at d; simp at d
    rcases hj with ⟨d', -⟩ | ⟨x', y', d', e', f'⟩
    · rw [b] at d'; simp at d'
    rw [a] at d
    rw [b] at d'
    cases d
    cases d'
    exact ⟨y, y', e, e', alike_trans (alike_symm f) (alike_trans c f')⟩
  exact ⟨one hi hj, one hi.symm hj.symm⟩

theorem connAt_congr {M M' : Mesh} {i j : ℕ} (hi : SameAt M M' i) (hj : SameAt M M' j) : connAt M i j = connAt M' i j := by
  unfold connAt
  rw [decide_eq_decide]
  have one : ∀ {M M' : Mesh}, SameAt M M' i → SameAt M M' j → (∃ v w, M.vertices[i]? = some v ∧ M.vertices[j]? = some w ∧ Connected v w) →
      ∃ v w, M'.vertices[i]? = some v ∧ M'.vertices[j]? = some w ∧ Connected v w := by
    rintro M M' hi hj ⟨v, w, a, b, c⟩
    rcases hi with ⟨d, -⟩ | ⟨x, y, d, e, f⟩
    · rw [a] at d; simp at d
    rcases hj with ⟨d', -⟩ | ⟨x', y', d', e', f'⟩
    · rw [b] at d'; simp at d'
    rw [a] at d
    rw [b] at d'
    cases d
    cases d'
    exact ⟨y, y', e, e', (connected_congr f f').1 c⟩
  exact ⟨one hi hj, one hi.symm hj.symm⟩

/-! ## The first pass -/

theorem chain_of_alike {M : Mesh} {first : Vertex} {l : List ℕ} (h : ∀ k ∈ l, ∃ w, M.vertices[k]? = some w ∧ Alike w first) :
    l.IsChain fun x y => alikeAt M x y = true := by
  rw [List.isChain_iff_getElem]
  intro i hi
  obtain ⟨v, a, b⟩ := h _ (List.getElem_mem (show i < l.length by omega))
  obtain ⟨w, c, d⟩ := h _ (List.getElem_mem hi)
  exact alikeAt_true.2 ⟨v, w, a, c, alike_trans b (alike_symm d)⟩

theorem updateDerivatives_closed {t : Tracked} {n : ℕ} {is : List ℕ} {mesh mesh' : Mesh} (hn : is.length ≤ n) (hd : is.Nodup)
    (h : updateDerivatives t n is mesh = some mesh') :
    ∀ run ∈ is.splitBy (alikeAt mesh), ∃ a, averagesOf t {} run = some a ∧ ∀ j ∈ run, ∃ v, mesh.vertices[j]? = some v ∧
      mesh'.vertices[j]? = some { v with sideDerivative := a.side.value, forwardDerivative := a.forward.value } := by
  induction n generalizing is mesh with
  | zero =>
    cases is with
    | nil => simp
    | cons i is => simp at hn
  | succ n ih =>
    cases is with
    | nil => simp
    | cons i is =>
      obtain ⟨first, m, a, mesh1, h1, h2, h3, h4, h5, h6, h7⟩ := updateDerivatives_step h
      obtain ⟨s1, s2⟩ := setDerivatives_spec h6
      have hl : (is.drop m).length ≤ n := by
        rw [List.length_drop]
        simp only [List.length_cons] at hn
        omega
      have hmem : ∀ k ∈ i :: is.take m, ∃ w, mesh.vertices[k]? = some w ∧ Alike w first := by
        intro k hk
        rw [List.mem_cons] at hk
        rcases hk with rfl | hk
        exacts [⟨first, h1, alike_refl _⟩, h3 k hk]
      have hnd : ((i :: is.take m) ++ is.drop m).Nodup := by simpa using hd
      obtain ⟨-, nd2, dis⟩ := List.nodup_append'.1 hnd
      have hsplit : (i :: is).splitBy (alikeAt mesh) = (i :: is.take m) :: (is.drop m).splitBy (alikeAt mesh) := by
        refine splitBy_head h2 (chain_of_alike hmem) fun k l hk hl => ?_
        obtain ⟨w, w1, w2⟩ := h4 l hl
        have hk' : k ∈ i :: is.take m := by
          rw [← List.take_succ_cons]
          exact List.mem_of_getElem? (i := m) (by rw [List.getElem?_take_of_lt (Nat.lt_succ_self m)]; exact hk)
        obtain ⟨v, v1, v2⟩ := hmem k hk'
        unfold alikeAt
        rw [decide_eq_false_iff_not]
        rintro ⟨x, y, x1, y1, xy⟩
        rw [v1] at x1
        rw [w1] at y1
        cases x1
        cases y1
        exact w2 (alike_trans (alike_symm xy) v2)
      have same : ∀ k, SameAt mesh mesh1 k := fun k => by
        have q := s2 k
        cases e : mesh.vertices[k]? with
        | none => rw [e] at q; exact Or.inl ⟨e, by simpa using q⟩
        | some v =>
          rw [e] at q
          refine Or.inr ⟨v, _, e, q.trans (?_ : _ = some (if k ∈ i :: is.take m then { v with sideDerivative := a.side.value, forwardDerivative := a.forward.value } else v)), ?_⟩
          · split_ifs <;> rfl
          · split_ifs <;> exact ⟨rfl, sameSign_refl _, sameSign_refl _⟩
      intro run hrun
      rw [hsplit, List.mem_cons] at hrun
      rcases hrun with rfl | hrun
      · refine ⟨a, h5, fun j hj => ?_⟩
        obtain ⟨v, v1, -⟩ := hmem j hj
        refine ⟨v, v1, ?_⟩
        rw [((updateDerivatives_spec hl h7).2 j).1 (dis hj), s2 j, if_pos hj, v1]
        rfl
      · rw [splitBy_congr fun x _ y _ => alikeAt_congr (same x) (same y)] at hrun
        obtain ⟨b, b1, b2⟩ := ih hl nd2 h7 run hrun
        refine ⟨b, b1, fun j hj => ?_⟩
        obtain ⟨v, v1, v2⟩ := b2 j hj
        have hj' : j ∈ is.drop m := by
          have := List.flatten_splitBy (alikeAt mesh1) (is.drop m)
          rw [← this]
          exact List.mem_flatten.2 ⟨run, hrun, hj⟩
        refine ⟨v, ?_, v2⟩
        rw [← v1, s2 j, if_neg fun q => dis q hj']

/-! ## The second pass -/

theorem connectedCount_chain {mesh : Mesh} {first : Pt ℝ} {u : Vertex} {j c n : ℕ} {is : List ℕ} (hj : mesh.vertices[j]? = some u)
    (hu : u.position = first) (h : connectedCount mesh first (category u.forwardLabel) c is = some n) :
    ∃ m, n = c + m ∧ (j :: is.take m).IsChain fun x y => connAt mesh x y = true := by
  induction is generalizing c j u with
  | nil =>
    rw [connectedCount] at h
    cases h
    exact ⟨0, rfl, by simp⟩
  | cons i is ih =>
    rw [connectedCount] at h
    cases e : mesh.vertices[i]? with
    | none => rw [e] at h; simp at h
    | some v =>
      rw [e] at h
      dsimp only at h
      by_cases g : v.position ≠ first
      · rw [if_pos g] at h
        cases h
        exact ⟨0, rfl, by simp⟩
      · rw [if_neg g] at h
        push Not at g
        by_cases g' : category u.forwardLabel = .rightOrBack ∧ category v.forwardLabel ≠ category u.forwardLabel
        · rw [if_pos g'] at h
          cases h
          exact ⟨0, rfl, by simp⟩
        · rw [if_neg g'] at h
          obtain ⟨m, h1, h2⟩ := ih e g h
          refine ⟨m + 1, by omega, ?_⟩
          rw [List.take_succ_cons, List.isChain_cons_cons]
          refine ⟨?_, h2⟩
          refine connAt_true.2 ⟨u, v, hj, e, hu.trans g.symm, fun q => ?_⟩
          rw [← category_right] at q ⊢
          by_contra q'
          exact g' ⟨q, by rw [q]; exact q'⟩

theorem updateMargins_closed {t : Tracked} {n : ℕ} {is : List ℕ} {mesh mesh' : Mesh} (hn : is.length ≤ n) (hd : is.Nodup)
    (h : updateMargins t n is mesh = some mesh') :
    ∀ run ∈ is.splitBy (connAt mesh), ∃ a, marginOf t maximumMargin run = some a ∧ ∀ j ∈ run, ∃ v, mesh.vertices[j]? = some v ∧
      mesh'.vertices[j]? = some { v with sideLabel := withMargin v.sideLabel a } := by
  induction n generalizing is mesh with
  | zero =>
    cases is with
    | nil => simp
    | cons i is => simp at hn
  | succ n ih =>
    cases is with
    | nil => simp
    | cons i is =>
      rw [updateMargins] at h
      cases e : mesh.vertices[i]? with
      | none => rw [e] at h; simp at h
      | some first =>
      rw [e] at h
      dsimp only at h
      cases e2 : connectedCount mesh first.position (category first.forwardLabel) 1 is with
      | none => rw [e2] at h; simp at h
      | some c =>
      rw [e2] at h
      dsimp only at h
      obtain ⟨m, rfl, h2, h3, h4⟩ := connectedCount_spec e rfl e2
      obtain ⟨m', hm', hchain⟩ := connectedCount_chain e rfl e2
      obtain rfl : m = m' := by omega
      rw [Nat.add_comm 1 m, List.take_succ_cons, List.drop_succ_cons] at h
      cases e3 : marginOf t maximumMargin (i :: is.take m) with
      | none => rw [e3] at h; simp at h
      | some a =>
      rw [e3] at h
      dsimp only at h
      cases e4 : setMargins a mesh (i :: is.take m) with
      | none => rw [e4] at h; simp at h
      | some mesh1 =>
      rw [e4] at h
      dsimp only at h
      obtain ⟨s1, s2⟩ := setMargins_spec e4
      have hl : (is.drop m).length ≤ n := by
        rw [List.length_drop]
        simp only [List.length_cons] at hn
        omega
      have hnd : ((i :: is.take m) ++ is.drop m).Nodup := by simpa using hd
      obtain ⟨-, nd2, dis⟩ := List.nodup_append'.1 hnd
      have hsplit : (i :: is).splitBy (connAt mesh) = (i :: is.take m) :: (is.drop m).splitBy (connAt mesh) := by
        refine splitBy_head h2 hchain fun k l hk hl => ?_
        obtain ⟨v, w, v1, w1, nc⟩ := h4 k l hk hl
        unfold connAt
        rw [decide_eq_false_iff_not]
        rintro ⟨x, y, x1, y1, xy⟩
        rw [v1] at x1
        rw [w1] at y1
        cases x1
        cases y1
        exact nc xy
      have same : ∀ k, SameAt mesh mesh1 k := fun k => by
        have q := s2 k
        cases e : mesh.vertices[k]? with
        | none => rw [e] at q; exact Or.inl ⟨e, by simpa using q⟩
        | some v =>
          rw [e] at q
          refine Or.inr ⟨v, _, e, q.trans (?_ : _ = some (if k ∈ i :: is.take m then { v with sideLabel := withMargin v.sideLabel a } else v)), ?_⟩
          · split_ifs <;> rfl
          · split_ifs
            · exact ⟨rfl, sameSign_comm (withMargin_same _ _), sameSign_refl _⟩
            · exact alike_refl v
      intro run hrun
      rw [hsplit, List.mem_cons] at hrun
      rcases hrun with rfl | hrun
      · refine ⟨a, e3, fun j hj => ?_⟩
        have hv : ∃ v, mesh.vertices[j]? = some v := by
          rw [List.mem_cons] at hj
          rcases hj with rfl | hj
          · exact ⟨first, e⟩
          · obtain ⟨w, w1, -⟩ := h3 j hj
            exact ⟨w, w1⟩
        obtain ⟨v, v1⟩ := hv
        refine ⟨v, v1, ?_⟩
        rw [((updateMargins_spec hl h).2 j).1 (dis hj), s2 j, if_pos hj, v1]
        rfl
      · rw [splitBy_congr fun x _ y _ => connAt_congr (same x) (same y)] at hrun
        obtain ⟨b, b1, b2⟩ := ih hl nd2 h run hrun
        refine ⟨b, b1, fun j hj => ?_⟩
        obtain ⟨v, v1, v2⟩ := b2 j hj
        have hj' : j ∈ is.drop m := by
          have := List.flatten_splitBy (connAt mesh1) (is.drop m)
          rw [← this]
          exact List.mem_flatten.2 ⟨run, hrun, hj⟩
        refine ⟨v, ?_, v2⟩
        rw [← v1, s2 j, if_neg fun q => dis q hj']

/-! ## Averages and margins of a vertex -/

/-- The averages of the vectors of all triangles of a vertex -/
noncomputable def averageAt (M : Mesh) (x : ℕ) : Averages :=
  ⟨(vectorsAt sideVectors M x).foldl Average.add {}, (vectorsAt forwardVectors M x).foldl Average.add {}⟩

noncomputable def runAverage (M : Mesh) (run : List ℕ) : Averages :=
  run.foldl (fun a x => ⟨a.side.merge (averageAt M x).side, a.forward.merge (averageAt M x).forward⟩) {}

theorem averagesOf_eq {M : Mesh} {t : Tracked} (ht : ∀ x a, t.min ≤ x → t.averages[x - t.min]? = some a → a = averageAt M x) {is : List ℕ} {acc a : Averages}
    (h : averagesOf t acc is = some a) :
    a = is.foldl (fun a x => ⟨a.side.merge (averageAt M x).side, a.forward.merge (averageAt M x).forward⟩) acc := by
  induction is generalizing acc with
  | nil => rw [averagesOf] at h; cases h; rfl
  | cons i is ih =>
    rw [averagesOf] at h
    split_ifs at h with hi
    cases e : t.averages[i - t.min]? with
    | none => rw [e] at h; simp at h
    | some b =>
      rw [e] at h
      dsimp only at h
      rw [List.foldl_cons, ← ht i b (not_lt.1 hi) e]
      exact ih h

theorem tracked_average {left right : List ℕ} {mesh : Mesh} {t t1 : Tracked} {m : ℕ} (h1 : reset left right mesh = some t)
    (h2 : forEachTriangle t.min (addDerivatives mesh) mesh.triangles.reverse t = some t1) (hm : First left right m) (hs : Sorted m mesh.triangles)
    (x : ℕ) (a : Averages) (hx : t1.min ≤ x) (ha : t1.averages[x - t1.min]? = some a) : a = averageAt mesh x := by
  obtain ⟨r1, r2, r3, r4⟩ := reset_spec h1
  obtain rfl := first_unique hm r1
  obtain ⟨n, n1, n2⟩ := forEach_adds h2
  obtain ⟨e1, -, -, e4⟩ := n2
  rw [e1] at hx ha
  rw [e4 x hx, r3] at ha
  dsimp only at ha
  rw [vectorsAt_take hs n1 hx, vectorsAt_take hs n1 hx] at ha
  rw [List.getElem?_replicate] at ha
  split_ifs at ha
  · simp only [Option.map_some, Option.some.injEq] at ha
    exact ha.symm
  · simp at ha

/-- An upper bound is given to a vertex. -/
noncomputable def lowerAt (k : ℕ) (b : ℝ) (x : ℕ) (m : ℝ) : ℝ := if x = k then min m b else m

open Classical in
/-- What a triangle does to the margin of the vertex `x`. -/
noncomputable def effect (M : Mesh) (i : ℕ × ℕ × ℕ) (x : ℕ) (m : ℝ) : ℝ :=
  match M.vertices[i.1]?, M.vertices[i.2.1]?, M.vertices[i.2.2]? with
  | some a, some b, some c =>
    if sideOf a.position b.position c.position = 0 then
      if Coincide a b c then m else lowerAt i.2.2 0 x (lowerAt i.2.1 0 x (lowerAt i.1 0 x m))
    else
      lowerAt i.2.2 (boundOf c a.position b.position) x
        (lowerAt i.2.1 (boundOf b c.position a.position) x (lowerAt i.1 (boundOf a b.position c.position) x m))
  | _, _, _ => m

noncomputable def marginAt (M : Mesh) (x : ℕ) : ℝ := M.triangles.reverse.foldl (fun m i => effect M i x m) maximumMargin

noncomputable def runMargin (M : Mesh) (run : List ℕ) : ℝ := run.foldl (fun m x => min m (marginAt M x)) maximumMargin

/-- The margin of each tracked vertex is changed by a function. -/
def Changes (t t' : Tracked) (F : ℕ → ℝ → ℝ) : Prop :=
  t'.min = t.min ∧ ∀ x, t.min ≤ x → t'.margins[x - t.min]? = t.margins[x - t.min]?.map (F x)

theorem changes_refl (t : Tracked) : Changes t t fun _ m => m := ⟨rfl, fun x _ => by simp⟩

theorem changes_trans {t t' t'' : Tracked} {F G : ℕ → ℝ → ℝ} (h : Changes t t' F) (g : Changes t' t'' G) : Changes t t'' fun x m => G x (F x m) := by
  refine ⟨g.1.trans h.1, fun x hx => ?_⟩
  have := g.2 x (by rw [h.1]; exact hx)
  rw [h.1] at this
  rw [this, h.2 x hx, Option.map_map]
  rfl

theorem saveMargin_changes {t t' : Tracked} {i : ℕ} {b : ℝ} (h : saveMargin t i b = some t') : Changes t t' (lowerAt i b) := by
  unfold saveMargin at h
  by_cases hi : i < t.min
  · rw [if_pos hi] at h
    cases h
    refine ⟨rfl, fun x hx => ?_⟩
    have e : (lowerAt i b x) = id := by
      funext m
      unfold lowerAt
      rw [if_neg (by omega)]
      rfl
    rw [e, Option.map_id]
    rfl
  · rw [if_neg hi] at h
    cases e : changeAt t.margins (i - t.min) (fun m => min m b) with
    | none => rw [e] at h; simp at h
    | some ms =>
      rw [e] at h
      cases h
      refine ⟨rfl, fun x hx => ?_⟩
      dsimp only
      rw [(changeAt_get e _).2]
      by_cases q : x = i
      · subst q
        rw [if_pos rfl]
        congr 1
        funext m
        unfold lowerAt
        rw [if_pos rfl]
      · rw [if_neg (by omega)]
        have e : (lowerAt i b x) = id := by
          funext m
          unfold lowerAt
          rw [if_neg q]
          rfl
        rw [e, Option.map_id]
        rfl

theorem saveMarginOf_changes {t t' : Tracked} {i : ℕ} {v : Vertex} {b c : Pt ℝ}
    (h : saveMarginOf v i (boundingSegment b ⟨c, v.position⟩) (boundingSegment c ⟨v.position, b⟩) t = some t') : Changes t t' (lowerAt i (boundOf v b c)) := by
  unfold saveMarginOf at h
  unfold boundOf
  dsimp only at h
  by_cases hs : outsetSign v.sideLabel = 0
  · rw [if_pos hs] at h ⊢
    exact saveMargin_changes h
  · rw [if_neg hs] at h ⊢
    exact saveMargin_changes h

theorem addMargins_changes {mesh : Mesh} {i : ℕ × ℕ × ℕ} {t t' : Tracked} (h : addMargins mesh i t = some t') : Changes t t' (effect mesh i) := by
  unfold addMargins at h
  cases e : corners mesh i with
  | none => rw [e] at h; simp at h
  | some v =>
    obtain ⟨a, b, c⟩ := v
    obtain ⟨ha, hb, hc⟩ := corners_some e
    rw [e] at h
    dsimp only at h
    rw [signedArea_eq] at h
    unfold effect
    rw [ha, hb, hc]
    dsimp only
    by_cases hz : sideOf a.position b.position c.position = 0
    · rw [if_pos (by rw [hz]; norm_num)] at h
      simp only [if_pos hz]
      by_cases hd : Coincide a b c
      · rw [if_neg] at h
        · cases h
          simp only [if_pos hd]
          exact changes_refl _
        · rintro ⟨q1, q2, q3⟩
          rcases hd with q | q | q
          exacts [q1 q, q3 q, q2 q.symm]
      · rw [if_pos ⟨fun q => hd (Or.inl q), fun q => hd (Or.inr (Or.inr q.symm)), fun q => hd (Or.inr (Or.inl q))⟩] at h
        simp only [if_neg hd]
        obtain ⟨t1, h1, h'⟩ := Option.bind_eq_some_iff.1 h
        obtain ⟨t2, h2, h3⟩ := Option.bind_eq_some_iff.1 h'
        exact changes_trans (changes_trans (saveMargin_changes h1) (saveMargin_changes h2)) (saveMargin_changes h3)
    · rw [if_neg (by intro q; apply hz; linarith)] at h
      simp only [if_neg hz]
      obtain ⟨t1, h1, h'⟩ := Option.bind_eq_some_iff.1 h
      obtain ⟨t2, h2, h3⟩ := Option.bind_eq_some_iff.1 h'
      exact changes_trans (changes_trans (saveMarginOf_changes h1) (saveMarginOf_changes h2)) (saveMarginOf_changes h3)

theorem forEach_changes {mesh : Mesh} {is : List (ℕ × ℕ × ℕ)} {t t' : Tracked} (h : forEachTriangle t.min (addMargins mesh) is t = some t') :
    ∃ n, (∀ i, is[n]? = some i → Below t.min i) ∧ Changes t t' fun x m => (is.take n).foldl (fun m i => effect mesh i x m) m := by
  generalize hm : t.min = m at h
  induction is generalizing t with
  | nil =>
    rw [forEachTriangle] at h
    cases h
    exact ⟨0, by simp, changes_refl _⟩
  | cons i is ih =>
    rw [forEachTriangle] at h
    by_cases hb : i.1 < m ∧ i.2.1 < m ∧ i.2.2 < m
    · rw [if_pos hb] at h
      cases h
      refine ⟨0, ?_, changes_refl _⟩
      intro j hj
      simp only [List.getElem?_cons_zero, Option.some.injEq] at hj
      subst hj
      exact hb
    · rw [if_neg hb] at h
      cases e : addMargins mesh i t with
      | none => rw [e] at h; simp at h
      | some t1 =>
        rw [e] at h
        dsimp only at h
        have g := addMargins_changes e
        obtain ⟨n, h1, h2⟩ := ih (g.1.trans hm) h
        refine ⟨n + 1, by simpa using h1, ?_⟩
        simpa using changes_trans g h2

theorem effect_other {M : Mesh} {i : ℕ × ℕ × ℕ} {x : ℕ} (h : x ≠ i.1 ∧ x ≠ i.2.1 ∧ x ≠ i.2.2) (m : ℝ) : effect M i x m = m := by
  unfold effect lowerAt
  obtain ⟨h1, h2, h3⟩ := h
  cases M.vertices[i.1]? with
  | none => rfl
  | some a =>
    cases M.vertices[i.2.1]? with
    | none => rfl
    | some b =>
      cases M.vertices[i.2.2]? with
      | none => rfl
      | some c =>
        dsimp only
        rw [if_neg h1, if_neg h2, if_neg h3, if_neg h1, if_neg h2, if_neg h3, ite_self, ite_self]

theorem foldl_effect_other {M : Mesh} {x : ℕ} {is : List (ℕ × ℕ × ℕ)} (h : ∀ i ∈ is, x ≠ i.1 ∧ x ≠ i.2.1 ∧ x ≠ i.2.2) (m : ℝ) :
    is.foldl (fun m i => effect M i x m) m = m := by
  induction is generalizing m with
  | nil => rfl
  | cons i is ih =>
    rw [List.foldl_cons, effect_other (h i (by simp))]
    exact ih (fun j hj => h j (List.mem_cons_of_mem _ hj)) m

theorem margin_take {M : Mesh} {m n x : ℕ} (hs : Sorted m M.triangles) (hn : ∀ k, M.triangles.reverse[n]? = some k → Below m k) (hx : m ≤ x) :
    (M.triangles.reverse.take n).foldl (fun m i => effect M i x m) maximumMargin = marginAt M x := by
  unfold marginAt
  conv_rhs => rw [← List.take_append_drop n M.triangles.reverse, List.foldl_append]
  refine (foldl_effect_other (fun i hi => ?_) _).symm
  obtain ⟨b1, b2, b3⟩ := sorted_rest hs hn hi
  omega

theorem marginOf_eq {M : Mesh} {t : Tracked} (ht : ∀ x a, t.min ≤ x → t.margins[x - t.min]? = some a → a = marginAt M x) {is : List ℕ} {acc a : ℝ}
    (h : marginOf t acc is = some a) : a = is.foldl (fun m x => min m (marginAt M x)) acc := by
  induction is generalizing acc with
  | nil => rw [marginOf] at h; cases h; rfl
  | cons i is ih =>
    rw [marginOf] at h
    split_ifs at h with hi
    cases e : t.margins[i - t.min]? with
    | none => rw [e] at h; simp at h
    | some b =>
      rw [e] at h
      dsimp only at h
      rw [List.foldl_cons, ← ht i b (not_lt.1 hi) e]
      exact ih h

/-- A vertex has the same position, categories and side derivative in two meshes, or there is none in either. -/
def SameSide' (M M' : Mesh) (x : ℕ) : Prop := ∀ v w, M.vertices[x]? = some v → M'.vertices[x]? = some w → v.sideDerivative = w.sideDerivative

theorem boundOf_congr {v w : Vertex} (h : Alike v w) (hd : v.sideDerivative = w.sideDerivative) (b c : Pt ℝ) : boundOf v b c = boundOf w b c := by
  have e : outsetSign v.sideLabel = outsetSign w.sideLabel := by
    rw [outsetSign_eq, outsetSign_eq]
    simp only [h.2.1.1, h.2.1.2]
  unfold boundOf
  rw [e, hd, h.1]

theorem effect_congr {M M' : Mesh} {i : ℕ × ℕ × ℕ} {x : ℕ} (h1 : SameAt M M' i.1) (h2 : SameAt M M' i.2.1) (h3 : SameAt M M' i.2.2)
    (hx : SameSide' M M' x) (m : ℝ) : effect M i x m = effect M' i x m := by
  unfold effect
  rcases h1 with ⟨a, b⟩ | ⟨v1, w1, a1, b1, c1⟩
  · rw [a, b]
  rcases h2 with ⟨a, b⟩ | ⟨v2, w2, a2, b2, c2⟩
  · rw [a, b, a1, b1]
  rcases h3 with ⟨a, b⟩ | ⟨v3, w3, a3, b3, c3⟩
  · rw [a, b, a1, b1, a2, b2]
  rw [a1, b1, a2, b2, a3, b3]
  dsimp only
  have co : Coincide v1 v2 v3 ↔ Coincide w1 w2 w3 := by unfold Coincide; rw [c1.1, c2.1, c3.1]
  have low : ∀ {k : ℕ} {v w : Vertex} {b c : Pt ℝ} (m : ℝ), M.vertices[k]? = some v → M'.vertices[k]? = some w → Alike v w →
      lowerAt k (boundOf v b c) x m = lowerAt k (boundOf w b c) x m := fun {k v w b c} m hv hw ha => by
    unfold lowerAt
    by_cases q : x = k
    · subst q
      rw [boundOf_congr ha (hx v w hv hw)]
    · rw [if_neg q, if_neg q]
  rw [c1.1, c2.1, c3.1, low _ a1 b1 c1, low _ a2 b2 c2, low _ a3 b3 c3, propext co]

theorem marginAt_congr {M M' : Mesh} {x : ℕ} (ht : (M.triangles.filter fun i => decide (x = i.1 ∨ x = i.2.1 ∨ x = i.2.2)) =
      M'.triangles.filter fun i => decide (x = i.1 ∨ x = i.2.1 ∨ x = i.2.2))
    (hs : ∀ i ∈ M.triangles, x = i.1 ∨ x = i.2.1 ∨ x = i.2.2 → SameAt M M' i.1 ∧ SameAt M M' i.2.1 ∧ SameAt M M' i.2.2) (hx : SameSide' M M' x) :
    marginAt M x = marginAt M' x := by
  have key : ∀ (M : Mesh) (l : List (ℕ × ℕ × ℕ)) (m : ℝ), l.foldl (fun m i => effect M i x m) m =
      (l.filter fun i => decide (x = i.1 ∨ x = i.2.1 ∨ x = i.2.2)).foldl (fun m i => effect M i x m) m := by
    intro M l
    induction l with
    | nil => intro m; rfl
    | cons i l ih =>
      intro m
      rw [List.foldl_cons, ih]
      by_cases q : x = i.1 ∨ x = i.2.1 ∨ x = i.2.2
      · rw [List.filter_cons_of_pos (by simpa using q), List.foldl_cons]
      · rw [List.filter_cons_of_neg (by simpa using q), effect_other]
        push Not at q
        exact q
  unfold marginAt
  rw [key M, key M', List.filter_reverse, List.filter_reverse, ← ht]
  refine List.foldl_ext _ _ _ fun m i hi => ?_
  rw [List.mem_reverse, List.mem_filter, decide_eq_true_eq] at hi
  obtain ⟨s1, s2, s3⟩ := hs i hi.1 hi.2
  exact effect_congr s1 s2 s3 hx m

theorem vectors_congr {a b c a' b' c' : Vertex} (h1 : Alike a a') (h2 : Alike b b') (h3 : Alike c c') :
    sideVectors a b c = sideVectors a' b' c' ∧ forwardVectors a b c = forwardVectors a' b' c' := by
  have co : Coincide a b c ↔ Coincide a' b' c' := by unfold Coincide; rw [h1.1, h2.1, h3.1]
  have pos : ∀ {x y : ℝ}, SameSign x y → (0 < x ↔ 0 < y) := fun {x y} q => by
    rw [← category_right, ← category_right, (category_same x y).2 q]
  have ss : ∀ {x y x' y' : ℝ}, SameSign x x' → SameSign y y' → (SameSign x y ↔ SameSign x' y') := fun {x y x' y'} p q =>
    ⟨fun r => sameSign_trans (sameSign_comm p) (sameSign_trans r q), fun r => sameSign_trans p (sameSign_trans r (sameSign_comm q))⟩
  constructor
  · unfold sideVectors
    rw [propext co]
    simp only [h1.1, h2.1, h3.1, h1.2.1.1, h3.2.1.1, pos h3.2.1, pos h2.2.1]
  · unfold forwardVectors
    rw [propext co, propext (ss h1.2.2 h2.2.2), propext (ss h2.2.2 h3.2.2), propext (ss h1.2.2 h3.2.2), h1.1, h2.1, h3.1]

theorem given_congr {M M' : Mesh} {i : ℕ × ℕ × ℕ} {x : ℕ} (h1 : SameAt M M' i.1) (h2 : SameAt M M' i.2.1) (h3 : SameAt M M' i.2.2) :
    given sideVectors M i x = given sideVectors M' i x ∧ given forwardVectors M i x = given forwardVectors M' i x := by
  unfold given
  rcases h1 with ⟨a, b⟩ | ⟨v1, w1, a1, b1, c1⟩
  · rw [a, b]
    exact ⟨rfl, rfl⟩
  rcases h2 with ⟨a, b⟩ | ⟨v2, w2, a2, b2, c2⟩
  · rw [a, b, a1, b1]
    exact ⟨rfl, rfl⟩
  rcases h3 with ⟨a, b⟩ | ⟨v3, w3, a3, b3, c3⟩
  · rw [a, b, a1, b1, a2, b2]
    exact ⟨rfl, rfl⟩
  rw [a1, b1, a2, b2, a3, b3]
  dsimp only
  rw [(vectors_congr c1 c2 c3).1, (vectors_congr c1 c2 c3).2]
  exact ⟨rfl, rfl⟩

theorem averageAt_congr {M M' : Mesh} {x : ℕ} (ht : (M.triangles.filter fun i => decide (x = i.1 ∨ x = i.2.1 ∨ x = i.2.2)) =
      M'.triangles.filter fun i => decide (x = i.1 ∨ x = i.2.1 ∨ x = i.2.2))
    (hs : ∀ i ∈ M.triangles, x = i.1 ∨ x = i.2.1 ∨ x = i.2.2 → SameAt M M' i.1 ∧ SameAt M M' i.2.1 ∧ SameAt M M' i.2.2) :
    averageAt M x = averageAt M' x := by
  have key : ∀ (vectors : Vertex → Vertex → Vertex → List (Pt ℝ)) (M : Mesh), vectorsAt vectors M x =
      (M.triangles.filter fun i => decide (x = i.1 ∨ x = i.2.1 ∨ x = i.2.2)).reverse.flatMap fun i => given vectors M i x := by
    intro vectors M
    have : vectorsAt vectors M x = M.triangles.reverse.flatMap fun i => given vectors M i x := rfl
    rw [this, ← List.filter_reverse]
    generalize M.triangles.reverse = l
    induction l with
    | nil => rfl
    | cons i l ih =>
      rw [List.flatMap_cons, ih]
      by_cases q : x = i.1 ∨ x = i.2.1 ∨ x = i.2.2
      · rw [List.filter_cons_of_pos (by simpa using q), List.flatMap_cons]
      · rw [List.filter_cons_of_neg (by simpa using q)]
        have : given vectors M i x = [] := by
          unfold given
          cases M.vertices[i.1]? <;> cases M.vertices[i.2.1]? <;> cases M.vertices[i.2.2]? <;> first | rfl | exact if_neg q
        rw [this, List.nil_append]
  have two : ∀ i ∈ (M.triangles.filter fun i => decide (x = i.1 ∨ x = i.2.1 ∨ x = i.2.2)).reverse,
      given sideVectors M i x = given sideVectors M' i x ∧ given forwardVectors M i x = given forwardVectors M' i x := by
    intro i hi
    rw [List.mem_reverse, List.mem_filter, decide_eq_true_eq] at hi
    obtain ⟨s1, s2, s3⟩ := hs i hi.1 hi.2
    exact given_congr s1 s2 s3
  unfold averageAt
  rw [key sideVectors M, key forwardVectors M, key sideVectors M', key forwardVectors M', ← ht, List.flatMap_congr fun i hi => (two i hi).1,
    List.flatMap_congr fun i hi => (two i hi).2]

end Verif.Derivative
