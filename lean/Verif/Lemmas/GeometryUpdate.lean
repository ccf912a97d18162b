import Verif.Lemmas.GeometryStrip
import Verif.Lemmas.DerivativeTotal

/-!
# The update of the ends of the sides after a stroke was extended
-/

set_option autoImplicit false

namespace Verif.Derivative

open Geo Spec
open PartialOutline (SideId)

theorem side_consecutive {g : Geometry} (hg : Strip g) {k : SideId} {p x y : ℕ} (hx : (side g k)[p]? = some x) (hy : (side g k)[p + 1]? = some y) :
    LastBefore g.sideIds k y x := by
  obtain ⟨p1, p2⟩ := List.getElem?_eq_some_iff.1 hx
  obtain ⟨q1, q2⟩ := List.getElem?_eq_some_iff.1 hy
  have hs := List.pairwise_iff_getElem.1 (side_sorted hg k)
  refine ⟨(mem_side hg).1 (p2 ▸ List.getElem_mem p1), ?_, ?_⟩
  · have := hs p (p + 1) p1 q1 (by omega)
    rwa [p2, q2] at this
  · intro j h1 h2 hj
    obtain ⟨q, hq, e⟩ := List.mem_iff_getElem.1 ((mem_side hg).2 hj)
    subst e
    rcases lt_trichotomy q p with h | rfl | h
    · have := hs q p hq p1 h
      omega
    · omega
    · rcases Nat.lt_or_ge (p + 1) q with h' | h'
      · have := hs (p + 1) q q1 hq h'
        omega
      · obtain rfl : q = p + 1 := by omega
        omega

theorem side_bound {g : Geometry} (hg : Strip g) {k : SideId} {x : ℕ} (hx : x ∈ side g k) : x < g.mesh.vertices.length := by
  rw [hg.sides, List.mem_filter, List.mem_range] at hx
  exact hx.1

/-- A part of a stroke begins between the two lists: at another place, or with a front after a back. -/
def Start (M : Mesh) (pre post : List ℕ) : Prop :=
  ∀ x ∈ pre.getLast?, ∀ y ∈ post.head?, ∀ v w, M.vertices[x]? = some v → M.vertices[y]? = some w →
    v.position ≠ w.position ∨ (0 < v.forwardLabel ∧ w.forwardLabel < 0)

theorem Start.cut {M : Mesh} {pre post : List ℕ} (h : Start M pre post) : Cut M pre post := by
  intro a ha b hb
  by_contra q
  rw [Bool.not_eq_false, connAt_true] at q
  obtain ⟨u, w, u1, w1, c1, c2⟩ := q
  rcases h a ha b hb u w u1 w1 with h | ⟨h1, h2⟩
  · exact h c1
  · exact absurd (c2 h1) (not_lt.2 h2.le)

theorem last_take {S : List ℕ} {o a : ℕ} (ho : o < S.length) (ha : a ∈ (S.take (o + 1)).getLast?) : S[o]? = some a := by
  rw [List.getLast?_take] at ha
  simpa [List.getElem?_eq_getElem ho] using ha

theorem subspan_spec {g : Geometry} (hg : Strip g) {k : SideId} {x : ℕ} (hx : g.sideIds[x]? = some k) :
    ∃ o y, g.subspan (side g k) (some x) = some ((side g k).drop o) ∧ (side g k)[o]? = some y ∧ y ≤ x ∧
      Start g.mesh ((side g k).take o) ((side g k).drop o) := by
  obtain ⟨p, hp, e⟩ := List.mem_iff_getElem.1 ((mem_side hg).2 hx)
  have hp' : (side g k)[p]? = some x := by rw [List.getElem?_eq_getElem hp, e]
  have hxl : x < g.mesh.vertices.length := side_bound hg ((mem_side hg).2 hx)
  obtain ⟨v, hv⟩ : ∃ v, g.mesh.vertices[x]? = some v := ⟨_, List.getElem?_eq_getElem hxl⟩
  obtain ⟨o, o1, o2, o3⟩ := backtrack_spec (M := g.mesh) (S := side g k) (fun y hy => side_bound hg hy) v.position p (category v.forwardLabel)
    ⟨x, v, hp', hv, rfl, rfl⟩
  have ho : o < (side g k).length := by omega
  refine ⟨o, (side g k)[o], ?_, List.getElem?_eq_getElem ho, ?_, ?_⟩
  · rw [Geometry.subspan, hg.offsets k p x hp', Option.bind_some]
    unfold startingOffset
    rw [hp', Option.bind_some, hv, Option.bind_some, o1]
    rfl
  · rcases o2.lt_or_eq with q | rfl
    · have := List.pairwise_iff_getElem.1 (side_sorted hg k) o p ho hp q
      omega
    · omega
  · intro a ha b hb u w u1 w1
    cases o with
    | zero => simp at ha
    | succ o =>
      rw [List.head?_drop] at hb
      have ha' : (side g k)[o]? = some a := last_take (by omega) ha
      by_cases c1 : u.position = w.position
      · rcases o3 o a b u w rfl ha' hb u1 w1 with h | ⟨h1, h2⟩
        · exact Or.inl h
        · have h3 := hg.labels k a b u w (side_consecutive hg ha' hb) ((mem_side hg).1 (List.mem_of_getElem? hb)) u1 w1 c1 h1
          exact Or.inr ⟨lt_of_le_of_ne (not_lt.1 h2) (Ne.symm h3), h1⟩
      · exact Or.inl c1

theorem strip_sorted {g : Geometry} (hg : Strip g) (m : ℕ) : Sorted m g.mesh.triangles := by
  intro before i after e hi j hj
  have hinc := hg.increasing
  rw [e] at hinc
  have hlt := (List.pairwise_append.1 hinc).2.2 j hj i (by simp)
  have hj' : j ∈ g.mesh.triangles := by rw [e]; exact List.mem_append_left _ hj
  have := corner_le hg hj' (x := j.1) (Or.inl rfl)
  have := corner_le hg hj' (x := j.2.1) (Or.inr (Or.inl rfl))
  have := hi.2.2
  exact ⟨by omega, by omega, by omega⟩

theorem first_exists {l r : List ℕ} (hl : l.Pairwise (· < ·)) (hr : r.Pairwise (· < ·)) (h : ¬(l = [] ∧ r = [])) : ∃ m, First l r m ∧ ∀ i ∈ l ++ r, m ≤ i := by
  have low : ∀ {a : ℕ} {s : List ℕ}, (a :: s).Pairwise (· < ·) → ∀ i ∈ a :: s, a ≤ i := fun {a s} hs i hi => by
    rcases List.mem_cons.1 hi with rfl | hi
    · exact le_rfl
    · exact ((List.pairwise_cons.1 hs).1 i hi).le
  cases l with
  | nil =>
    cases r with
    | nil => simp at h
    | cons b r => exact ⟨b, by simp [First], by simpa using low hr⟩
  | cons a l =>
    cases r with
    | nil => exact ⟨a, by simp [First], by simpa using low hl⟩
    | cons b r =>
      refine ⟨min a b, ⟨?_, by simp, by simp⟩, fun i hi => ?_⟩
      · rcases le_total a b with q | q
        · left; simp [q]
        · right; simp [q]
      · rcases List.mem_append.1 hi with hi | hi
        · exact le_trans (min_le_left _ _) (low hl i hi)
        · exact le_trans (min_le_right _ _) (low hr i hi)

theorem sides_nodup {g : Geometry} (hg : Strip g) (a b : ℕ) : (g.left.drop a ++ g.right.drop b).Nodup := by
  have nd : ∀ k, (side g k).Nodup := fun k => (side_sorted hg k).imp fun h => ne_of_lt h
  rw [List.nodup_append']
  refine ⟨(nd .left).sublist (List.drop_sublist _ _), (nd .right).sublist (List.drop_sublist _ _), fun x h1 h2 => ?_⟩
  have e1 := (mem_side hg (k := .left)).1 ((List.drop_sublist _ _).subset h1)
  have e2 := (mem_side hg (k := .right)).1 ((List.drop_sublist _ _).subset h2)
  rw [e1] at e2
  simp at e2

/-- An update of the ends of the sides does not fail. -/
theorem part_total {g : Geometry} (hg : Strip g) (a b : ℕ) : ∃ r, updateMesh (g.left.drop a) (g.right.drop b) g.mesh = some r := by
  by_cases h : g.left.drop a = [] ∧ g.right.drop b = []
  · exact ⟨g.mesh, by unfold updateMesh; rw [if_pos h]⟩
  · obtain ⟨m, m1, m2⟩ := first_exists ((side_sorted hg .left).sublist (List.drop_sublist a _)) ((side_sorted hg .right).sublist (List.drop_sublist b _)) h
    refine updateMesh_isSome m1 (fun t ht => ?_) fun i hi => ⟨m2 i hi, ?_⟩
    · have h1 := (hg.triangles t ht).1
      have := corner_le hg ht (x := t.1) (Or.inl rfl)
      have := corner_le hg ht (x := t.2.1) (Or.inr (Or.inl rfl))
      exact ⟨by omega, by omega, h1⟩
    · rcases List.mem_append.1 hi with hi | hi
      · exact side_bound hg (k := .left) ((List.drop_sublist _ _).subset hi)
      · exact side_bound hg (k := .right) ((List.drop_sublist _ _).subset hi)

theorem part_closed {g : Geometry} (hg : Strip g) {a b : ℕ} {r : Mesh} (h : updateMesh (g.left.drop a) (g.right.drop b) g.mesh = some r) :
    Closed g.mesh r (g.left.drop a) ∧ Closed g.mesh r (g.right.drop b) := by
  by_cases q : g.left.drop a = [] ∧ g.right.drop b = []
  · rw [q.1, q.2]
    exact ⟨⟨by simp, by simp⟩, ⟨by simp, by simp⟩⟩
  · obtain ⟨m, m1, -⟩ := first_exists ((side_sorted hg .left).sublist (List.drop_sublist a _)) ((side_sorted hg .right).sublist (List.drop_sublist b _)) q
    exact updateMesh_closed h m1 (strip_sorted hg m) (sides_nodup hg a b)

theorem cut_runs {M : Mesh} {pre post : List ℕ} (h : Cut M pre post) :
    (pre ++ post).splitBy (alikeAt M) = pre.splitBy (alikeAt M) ++ post.splitBy (alikeAt M) ∧
      (pre ++ post).splitBy (connAt M) = pre.splitBy (connAt M) ++ post.splitBy (connAt M) :=
  ⟨List.splitBy_append (cut_alike h), List.splitBy_append h⟩

theorem vertex_eq {L R L' R' : List ℕ} {M r M' r' : Mesh} {x : ℕ} {v v' : Vertex} (h : updateMesh L R M = some r) (h' : updateMesh L' R' M' = some r')
    (hv : M.vertices[x]? = some v) (hv' : M'.vertices[x]? = some v') (hp : v.position = v'.position) (hf : v.forwardLabel = v'.forwardLabel)
    (hw : ∃ w w', r.vertices[x]? = some w ∧ r'.vertices[x]? = some w' ∧ w.sideDerivative = w'.sideDerivative ∧ w.forwardDerivative = w'.forwardDerivative ∧
      w.sideLabel = w'.sideLabel) : r.vertices[x]? = r'.vertices[x]? := by
  obtain ⟨w, w', w1, w2, w3, w4, w5⟩ := hw
  obtain ⟨u, u1, u2, u3, -⟩ := update_position h w1
  obtain ⟨u', u1', u2', u3', -⟩ := update_position h' w2
  rw [hv] at u1
  rw [hv'] at u1'
  cases u1
  cases u1'
  rw [w1, w2]
  congr 1
  cases w
  cases w'
  simp_all

theorem sameAt_length {M r : Mesh} (h : ∀ j, SameAt M r j) : r.vertices.length = M.vertices.length := by
  refine le_antisymm ?_ ?_
  · rw [← List.getElem?_eq_none_iff]
    rcases h M.vertices.length with ⟨-, q⟩ | ⟨v, w, q, -⟩
    · exact q
    · simp at q
  · rw [← List.getElem?_eq_none_iff]
    rcases h r.vertices.length with ⟨q, -⟩ | ⟨v, w, -, q, -⟩
    · exact q
    · simp at q

theorem strip_update {g : Geometry} (hg : Strip g) {l r : List ℕ} {M : Mesh} (h : updateMesh l r g.mesh = some M) {n : ℕ} {fl fr : Option ℕ} :
    Strip { g with mesh := M, firstTriangle := n, firstLeft := fl, firstRight := fr } := by
  have hs := sameAt_update h
  have hl := sameAt_length hs
  have ht := (update_vertex h).1
  have hside : ∀ k, side { g with mesh := M, firstTriangle := n, firstLeft := fl, firstRight := fr } k = side g k := fun k => by cases k <;> rfl
  constructor
  · rw [hl]; exact hg.ids
  · intro k
    rw [hside, hl]
    exact hg.sides k
  · intro k p i
    rw [hside]
    exact hg.offsets k p i
  · rw [hl, ht]
    exact hg.triangles
  · rw [ht]
    exact hg.increasing
  · intro v hv
    obtain ⟨j, hj⟩ := List.mem_iff_getElem?.1 hv
    obtain ⟨u, u1, -, -, u2⟩ := update_position h hj
    exact fun q => hg.outline u (List.mem_of_getElem? u1) (u2.2.1 q)
  · intro k i j v w h1 h2 hv hw hp hf
    obtain ⟨a, a1, a2, a3, -⟩ := update_position h hv
    obtain ⟨b, b1, b2, b3, -⟩ := update_position h hw
    rw [a3]
    exact hg.labels k i j a b h1 h2 a1 b1 (by rw [← a2, ← b2]; exact hp) (by rw [← b3]; exact hf)

/-- If the vertices of the triangles have what an update of the whole mesh gives, then the next update of the whole mesh changes nothing. -/
theorem whole_again {g : Geometry} (hg : Strip g) {l r : List ℕ} {M F : Mesh} (h : updateMesh l r g.mesh = some M) (hF : updateMesh g.left g.right g.mesh = some F)
    (e : ∀ t ∈ g.mesh.triangles, ∀ x, Corner x t → F.vertices[x]? = M.vertices[x]?) {n : ℕ} {fl fr : Option ℕ} :
    UpToDate { g with mesh := M, firstTriangle := n, firstLeft := fl, firstRight := fr } := by
  have hg' : Strip { g with mesh := M, firstTriangle := n, firstLeft := fl, firstRight := fr } := strip_update hg h
  obtain ⟨F', hF'⟩ := part_total hg' 0 0
  rw [List.drop_zero, List.drop_zero] at hF'
  refine ⟨F', hF', ?_⟩
  have ht := (update_vertex h).1
  dsimp only at hF' ⊢
  rw [ht]
  intro t ht' x hx
  rw [← e t ht' x hx]
  have c := part_closed hg (a := 0) (b := 0) (by rw [List.drop_zero, List.drop_zero]; exact hF)
  have c' := part_closed hg' (a := 0) (b := 0) (by rw [List.drop_zero, List.drop_zero]; exact hF')
  simp only [List.drop_zero] at c c'
  have hxl : x < g.mesh.vertices.length := lt_of_le_of_lt (corner_le hg ht' hx) (hg.triangles t ht').1
  obtain ⟨k, hk⟩ := side_of hg hxl
  have hs := sameAt_update h
  obtain ⟨v, hv⟩ : ∃ v, g.mesh.vertices[x]? = some v := ⟨_, List.getElem?_eq_getElem hxl⟩
  obtain ⟨v', hv'⟩ : ∃ v, M.vertices[x]? = some v := ⟨_, List.getElem?_eq_getElem (by rw [sameAt_length hs]; exact hxl)⟩
  obtain ⟨u, u1, u2, u3, -⟩ := update_position h hv'
  rw [hv] at u1
  cases u1
  refine (vertex_eq hF hF' hv hv' u2.symm u3.symm ?_).symm
  have mm := (mem_side hg).2 hk
  cases k with
  | left =>
    exact closed_agree c.1 c'.1 (fun _ q => q) (fun _ q => q) (fun _ q => q) (fun _ q => q) (sameAt_update hF) (sameAt_update hF') (update_vertex hF).1
      (update_vertex hF').1 (fun j _ => hs j) (fun y _ => by unfold trianglesOf; rw [ht]) (fun y _ i _ _ => ⟨hs _, hs _, hs _⟩) x mm
  | right =>
    exact closed_agree c.2 c'.2 (fun _ q => q) (fun _ q => q) (fun _ q => q) (fun _ q => q) (sameAt_update hF) (sameAt_update hF') (update_vertex hF).1
      (update_vertex hF').1 (fun j _ => hs j) (fun y _ => by unfold trianglesOf; rw [ht]) (fun y _ i _ _ => ⟨hs _, hs _, hs _⟩) x mm

theorem kept_prefix {old new : Geometry} (ho : Strip old) (hn : Strip new) {c : ℕ} (hc : c ≤ old.mesh.vertices.length ∧ c ≤ new.mesh.vertices.length)
    (hi : ∀ i < c, new.sideIds[i]? = old.sideIds[i]?) {k : SideId} {o y : ℕ} (hy : (side new k)[o]? = some y) (hyc : y < c) :
    ∃ post, side old k = (side new k).take o ++ post ∧ post.head? = some y := by
  obtain ⟨a, ha⟩ := Nat.exists_eq_add_of_le hc.1
  obtain ⟨b, hb⟩ := Nat.exists_eq_add_of_le hc.2
  have e1 := ho.sides k
  have e2 := hn.sides k
  rw [ha, List.range_add, List.filter_append] at e1
  rw [hb, List.range_add, List.filter_append] at e2
  have e3 : (List.range c).filter (fun i => decide (old.sideIds[i]? = some k)) = (List.range c).filter fun i => decide (new.sideIds[i]? = some k) :=
    List.filter_congr fun i hi' => by rw [hi i (List.mem_range.1 hi')]
  rw [e3] at e1
  have hB : ∀ x ∈ ((List.range b).map (c + ·)).filter (fun i => decide (new.sideIds[i]? = some k)), c ≤ x := fun x hx => by
    obtain ⟨z, -, rfl⟩ := List.mem_map.1 (List.mem_filter.1 hx).1
    omega
  generalize (List.range c).filter (fun i => decide (new.sideIds[i]? = some k)) = A at e1 e2
  generalize ((List.range b).map (c + ·)).filter (fun i => decide (new.sideIds[i]? = some k)) = B at e2 hB
  generalize ((List.range a).map (c + ·)).filter (fun i => decide (old.sideIds[i]? = some k)) = B' at e1
  rw [e1, e2]
  rw [e2] at hy
  have hoA : o < A.length := by
    by_contra q
    rw [List.getElem?_append_right (by omega)] at hy
    have := hB y (List.mem_of_getElem? hy)
    omega
  rw [List.getElem?_append_left hoA] at hy
  refine ⟨A.drop o ++ B', ?_, ?_⟩
  · rw [List.take_append_of_le_length hoA.le, ← List.append_assoc, List.take_append_drop]
  · rw [List.head?_append, List.head?_drop, hy]
    rfl

end Verif.Derivative
