import Verif.Lemmas.GeometryNext
import Mathlib.Tactic.IntervalCases

/-!
# C79: derivatives and margins are up to date after each extension of a stroke
-/

set_option autoImplicit false

namespace Verif.Derivative

open Geo Spec
open PartialOutline (SideId)

/-- An update does not fail. -/
theorem C79_total {g : Geometry} (hg : Strip g) (hf : g.firstTriangle ≤ g.mesh.triangles.length) : ∃ r, g.updateDerivatives = some r := by
  obtain ⟨a, b, e⟩ := toUpdate_total hg hf
  obtain ⟨M, hM⟩ := part_total hg a b
  unfold Geometry.updateDerivatives
  rw [e, Option.bind_some]
  dsimp only
  rw [hM]
  exact ⟨_, rfl⟩

/-- An update of a mesh that is new as a whole brings it up to date. -/
theorem C79_first {g r : Geometry} (hg : Strip g) (h0 : g.firstTriangle = 0) (h : g.updateDerivatives = some r) : UpToDate r := by
  refine uptodate_zero hg ?_ h
  unfold Geometry.firstMutated
  rw [if_pos (Or.inl h0), h0]

/-- After a stroke that was up to date was extended, an update brings it up to date again. -/
theorem C79_next_partial {old new r : Geometry} {c : ℕ} (ho : Strip old) (hu : UpToDate old) (hn : Strip new) (hb : Became old new c)
    (h : new.updateDerivatives = some r) : UpToDate r := uptodate_next ho hu hn hb h

/-- However often a stroke was extended, after the update it is up to date. -/
theorem C79_drawn_partial {g : Geometry} (h : Drawn g) : UpToDate g := by
  have key : Strip g ∧ UpToDate g := by
    induction h with
    | first hg h0 h =>
      refine ⟨?_, C79_first hg h0 h⟩
      obtain ⟨p, M, -, e2, rfl⟩ := update_cases h
      exact strip_update hg e2 (n := _)
    | next _ hn hb h ih =>
      refine ⟨?_, C79_next_partial ih.1 ih.2 hn hb h⟩
      obtain ⟨p, M, -, e2, rfl⟩ := update_cases h
      exact strip_update hn e2 (n := _)
  exact key.2

/-- All vertices that an update changes are noted as changed, and what was noted before still is. Positions and forward labels are not changed. -/
theorem C79_noted {g r : Geometry} (hg : Strip g) (hf : g.firstTriangle ≤ g.mesh.triangles.length) (h : g.updateDerivatives = some r) (x : ℕ) :
    (r.mesh.vertices[x]? ≠ g.mesh.vertices[x]? → Noted r x) ∧ (Noted g x → Noted r x) ∧
      ∀ v w, g.mesh.vertices[x]? = some v → r.mesh.vertices[x]? = some w → w.position = v.position ∧ w.forwardLabel = v.forwardLabel := by
  obtain ⟨a, b, e⟩ := toUpdate_total hg hf
  obtain ⟨p, M, e1, e2, rfl⟩ := update_cases h
  rw [e] at e1
  cases e1
  dsimp only at e2
  have low : ∀ {f : Option ℕ} {k : SideId} {o x : ℕ}, x ∈ (side g k).drop o → ∃ y, lowerFirst f ((side g k).drop o) = some y ∧ y ≤ x := by
    intro f k o x hx
    have hs := (side_sorted hg k).sublist (List.drop_sublist o _)
    generalize (side g k).drop o = l at hx hs
    cases l with
    | nil => simp at hx
    | cons z l =>
      have hz : z ≤ x := by
        rcases List.mem_cons.1 hx with rfl | hx
        · exact le_rfl
        · exact ((List.pairwise_cons.1 hs).1 x hx).le
      cases f with
      | none => exact ⟨z, rfl, hz⟩
      | some j => exact ⟨min j z, rfl, le_trans (min_le_right _ _) hz⟩
  have still : ∀ {f : Option ℕ} {l : List ℕ} {a : ℕ}, f = some a → ∃ y, lowerFirst f l = some y ∧ y ≤ a := by
    rintro f l a rfl
    cases l with
    | nil => exact ⟨a, rfl, le_rfl⟩
    | cons z l => exact ⟨min a z, rfl, min_le_left _ _⟩
  refine ⟨fun hne => ?_, ?_, fun v w hv hw => ?_⟩
  · by_contra q
    refine hne (((update_vertex e2).2 x).1 (fun hx => q ?_) fun hx => q ?_)
    · exact Or.inl ⟨(mem_side hg (k := .left)).1 ((List.drop_sublist _ _).subset hx), low (k := .left) hx⟩
    · exact Or.inr ⟨(mem_side hg (k := .right)).1 ((List.drop_sublist _ _).subset hx), low (k := .right) hx⟩
  · rintro (⟨h1, j, h2, h3⟩ | ⟨h1, j, h2, h3⟩)
    · obtain ⟨y, y1, y2⟩ := still (l := g.left.drop a) h2
      exact Or.inl ⟨h1, y, y1, by omega⟩
    · obtain ⟨y, y1, y2⟩ := still (l := g.right.drop b) h2
      exact Or.inr ⟨h1, y, y1, by omega⟩
  · obtain ⟨u, u1, u2, u3, -⟩ := update_position e2 hw
    rw [hv] at u1
    cases u1
    exact ⟨u2, u3⟩

/-- In any mesh an update of the ends of both sides gives their vertices what an update of the whole sides gives, if no part of vertices at one place is
divided: the ends begin at another place than the vertices before them, or after a back. -/
theorem C79_suffix {L L' R R' : List ℕ} {M part whole : Mesh} {m m' : ℕ} (hw : updateMesh (L ++ L') (R ++ R') M = some whole)
    (hp : updateMesh L' R' M = some part) (hm : First (L ++ L') (R ++ R') m) (hm' : First L' R' m') (hs : Sorted m M.triangles)
    (hs' : Sorted m' M.triangles) (hd : ((L ++ L') ++ (R ++ R')).Nodup)
    (hc : ∀ A B, (A = L ∧ B = L') ∨ (A = R ∧ B = R') → ∀ x ∈ A.getLast?, ∀ y ∈ B.head?, ∀ v w, M.vertices[x]? = some v → M.vertices[y]? = some w →
      v.position ≠ w.position ∨ (0 < v.forwardLabel ∧ ¬0 < w.forwardLabel)) :
    ∀ x, x ∈ L' ∨ x ∈ R' → whole.vertices[x]? = part.vertices[x]? := by
  have cut : ∀ A B, (A = L ∧ B = L') ∨ (A = R ∧ B = R') → Cut M A B := by
    intro A B h x hx y hy
    by_contra q
    rw [Bool.not_eq_false, connAt_true] at q
    obtain ⟨v, w, v1, w1, c1, c2⟩ := q
    rcases hc A B h x hx y hy v w v1 w1 with q | ⟨q1, q2⟩
    · exact q c1
    · exact q2 (c2 q1)
  have nd : (L' ++ R').Nodup := hd.sublist (List.Sublist.append (List.sublist_append_right _ _) (List.sublist_append_right _ _))
  obtain ⟨w1, w2⟩ := updateMesh_closed hw hm hs hd
  obtain ⟨p1, p2⟩ := updateMesh_closed hp hm' hs' nd
  have one : ∀ {A B : List ℕ}, Cut M A B → Closed M whole (A ++ B) → Closed M part B → ∀ x ∈ B, whole.vertices[x]? = part.vertices[x]? := by
    intro A B h c c' x hx
    obtain ⟨s1, s2⟩ := cut_runs h
    have ag := closed_agree (P := B) c c' (fun q hq => by rw [s1]; exact List.mem_append_right _ hq) (fun q hq => by rw [s2]; exact List.mem_append_right _ hq)
      (fun _ q => q) (fun _ q => q) (sameAt_update hw) (sameAt_update hp) (update_vertex hw).1 (update_vertex hp).1 (fun j _ => SameAt.refl _ j) (fun _ _ => rfl)
      (fun _ _ _ _ _ => ⟨SameAt.refl _ _, SameAt.refl _ _, SameAt.refl _ _⟩) x hx
    obtain ⟨w, w', w1, w2, -⟩ := id ag
    obtain ⟨v, v1, -⟩ := update_position hw w1
    exact vertex_eq hw hp v1 v1 rfl rfl ag
  rintro x (hx | hx)
  · exact one (cut _ _ (Or.inl ⟨rfl, rfl⟩)) w1 p1 x hx
  · exact one (cut _ _ (Or.inr ⟨rfl, rfl⟩)) w2 p2 x hx

/-! ## A stroke that is drawn in two parts -/

/-- Two vertices on each side -/
def fourIds : List SideId := [.left, .right, .left, .right]

/-- Three vertices on each side -/
def sixIds : List SideId := [.left, .right, .left, .right, .left, .right]

/-- A zigzag of two triangles, new as a whole -/
noncomputable def zigzag : Geometry where
  mesh :=
    { vertices := [⟨⟨0, 1⟩, ⟨0, 0⟩, -127, ⟨0, 0⟩, -127⟩, ⟨⟨1, 0⟩, ⟨0, 0⟩, 127, ⟨0, 0⟩, -127⟩, ⟨⟨2, 1⟩, ⟨0, 0⟩, -127, ⟨0, 0⟩, 0⟩, ⟨⟨3, 0⟩, ⟨0, 0⟩, 127, ⟨0, 0⟩, 0⟩]
      triangles := [(0, 1, 2), (2, 1, 3)] }
  sideIds := fourIds
  offsets := [0, 0, 1, 1]
  left := [0, 2]
  right := [1, 3]
  firstTriangle := 0
  firstLeft := none
  firstRight := none

/-- Two more triangles after the ones of a mesh -/
noncomputable def longer (M : Mesh) : Geometry where
  mesh :=
    { vertices := M.vertices ++ [⟨⟨4, 1⟩, ⟨0, 0⟩, -127, ⟨0, 0⟩, 127⟩, ⟨⟨5, 0⟩, ⟨0, 0⟩, 127, ⟨0, 0⟩, 127⟩]
      triangles := [(0, 1, 2), (2, 1, 3), (2, 3, 4), (4, 3, 5)] }
  sideIds := sixIds
  offsets := [0, 0, 1, 1, 2, 2]
  left := [0, 2, 4]
  right := [1, 3, 5]
  firstTriangle := 2
  firstLeft := none
  firstRight := none

theorem last_six {k : SideId} {c i : ℕ} (h : sixIds[i]? = some k ∧ i < c ∧ ∀ j < c, i < j → sixIds[j]? ≠ some k) : LastBefore sixIds k c i :=
  ⟨h.1, h.2.1, fun j hj hc => h.2.2 j hc hj⟩

theorem last_four {k : SideId} {c i : ℕ} (h : fourIds[i]? = some k ∧ i < c ∧ ∀ j < c, i < j → fourIds[j]? ≠ some k) : LastBefore fourIds k c i :=
  ⟨h.1, h.2.1, fun j hj hc => h.2.2 j hc hj⟩

theorem zigzag_strip : Strip zigzag := by
  constructor
  · rfl
  · intro k
    cases k <;> decide +kernel
  · intro k p i h
    have hp : p < 2 := by
      have := (List.getElem?_eq_some_iff.1 h).1
      cases k <;> exact this
    cases k <;> interval_cases p <;> cases h <;> rfl
  · intro t ht
    simp only [zigzag, List.mem_cons, List.not_mem_nil, or_false] at ht
    rcases ht with rfl | rfl
    all_goals exact ⟨by simp [zigzag], last_four (by decide +kernel), last_four (by decide +kernel)⟩
  · simp [zigzag]
  · intro v hv
    simp only [zigzag, List.mem_cons, List.not_mem_nil, or_false] at hv
    rcases hv with rfl | rfl | rfl | rfl <;> norm_num
  · intro k i j v w h hj hv hw hp
    have hx : ∀ {n : ℕ} {u : Vertex}, zigzag.mesh.vertices[n]? = some u → u.position.x = n := by
      intro n u hu
      have hn : n < 4 := (List.getElem?_eq_some_iff.1 hu).1
      interval_cases n <;> cases hu <;> simp
    have := hx hv
    rw [hp, hx hw] at this
    have := Nat.cast_injective this
    have := h.2.1
    omega

/-- The first update of the zigzag -/
theorem zigzag_update : ∃ r, zigzag.updateDerivatives = some r := C79_total zigzag_strip (by simp [zigzag])

theorem zigzag_drawn {r : Geometry} (h : zigzag.updateDerivatives = some r) : Drawn r := .first zigzag_strip rfl h

/-- The update of the zigzag, then its extension -/
theorem longer_became {r : Geometry} (h : zigzag.updateDerivatives = some r) : Strip (longer r.mesh) ∧ Became r (longer r.mesh) 4 := by
  obtain ⟨p, M, e1, e2, rfl⟩ := update_cases h
  have hs := strip_update zigzag_strip e2 (n := 0) (fl := none) (fr := none)
  have hl : M.vertices.length = 4 := sameAt_length (sameAt_update e2)
  have ht : M.triangles = [(0, 1, 2), (2, 1, 3)] := (update_vertex e2).1
  have hx : ∀ {n : ℕ} {u : Vertex}, M.vertices[n]? = some u → u.position.x = n := by
    intro n u hu
    obtain ⟨v, v1, v2, -⟩ := update_position e2 hu
    have hn : n < 4 := (List.getElem?_eq_some_iff.1 v1).1
    rw [v2]
    interval_cases n <;> cases v1 <;> simp
  have hx' : ∀ {n : ℕ} {u : Vertex}, (longer M).mesh.vertices[n]? = some u → u.position.x = n := by
    intro n u hu
    by_cases hn : n < 4
    · exact hx (by rw [← hu]; exact (List.getElem?_append_left (by omega)).symm)
    · have hu' : [(⟨⟨4, 1⟩, ⟨0, 0⟩, -127, ⟨0, 0⟩, 127⟩ : Vertex), ⟨⟨5, 0⟩, ⟨0, 0⟩, 127, ⟨0, 0⟩, 127⟩][n - 4]? = some u := by
        have e := List.getElem?_append_right (l₁ := M.vertices) (i := n)
          (l₂ := [(⟨⟨4, 1⟩, ⟨0, 0⟩, -127, ⟨0, 0⟩, 127⟩ : Vertex), ⟨⟨5, 0⟩, ⟨0, 0⟩, 127, ⟨0, 0⟩, 127⟩]) (by omega)
        rw [hl] at e
        rw [← e]
        exact hu
      have hn' := (List.getElem?_eq_some_iff.1 hu').1
      simp only [List.length_cons, List.length_nil] at hn'
      obtain rfl | rfl : n = 4 ∨ n = 5 := by omega
      · cases hu'; simp
      · cases hu'; simp
  have len : (longer M).mesh.vertices.length = 6 := by simp [longer, hl]
  refine ⟨?_, ?_⟩
  · constructor
    · rw [len]; rfl
    · intro k
      rw [len]
      cases k <;> rfl
    · intro k p i h
      have hp : p < 3 := by
        have := (List.getElem?_eq_some_iff.1 h).1
        cases k <;> exact this
      cases k <;> interval_cases p <;> cases h <;> rfl
    · intro t ht
      rw [len]
      simp only [longer, List.mem_cons, List.not_mem_nil, or_false] at ht
      rcases ht with rfl | rfl | rfl | rfl
      all_goals exact ⟨by norm_num, last_six (by decide +kernel), last_six (by decide +kernel)⟩
    · simp [longer]
    · intro v hv
      rcases List.mem_append.1 hv with hv | hv
      · exact hs.outline v hv
      · simp only [List.mem_cons, List.not_mem_nil, or_false] at hv
        rcases hv with rfl | rfl <;> norm_num
    · intro k i j v w h hj hv hw hp
      have := hx' hv
      rw [hp, hx' hw] at this
      have := Nat.cast_injective this
      have := h.2.1
      omega
  · have quiet : ∀ i, ¬Noted (longer M) i := by
      rintro i (⟨-, a, h, -⟩ | ⟨-, a, h, -⟩) <;> simp [longer] at h
    constructor
    · exact ⟨hl.ge, by rw [len]; norm_num⟩
    · intro i hi
      interval_cases i <;> rfl
    · simp [longer]
    · simp [longer, ht]
    · intro t ht
      simp only [longer, List.take_succ_cons, List.take_zero, List.mem_cons, List.not_mem_nil, or_false] at ht
      rcases ht with rfl | rfl <;> norm_num
    · intro t ht'
      simp [longer, ht] at ht'
    · intro t ht
      simp only [longer, List.drop_succ_cons, List.drop_zero, List.mem_cons, List.not_mem_nil, or_false] at ht
      rcases ht with rfl | rfl <;> norm_num
    · intro i hi _
      exact List.getElem?_append_left (hi.trans_eq hl.symm)
    · exact fun k i _ _ h => absurd h (quiet i)
    · intro k i j v w w' h1 h2 _ hv hw _ hp
      have := hx hv
      rw [hp, hx hw] at this
      have := Nat.cast_injective this
      have := h2.2.1
      omega
    · exact Or.inr ⟨(2, 3, 4), rfl, last_six (by decide +kernel), last_six (by decide +kernel)⟩

/-- The longer stroke is up to date after the second update. -/
example : ∃ g, Drawn g ∧ UpToDate g ∧ g.mesh.triangles.length = 4 := by
  obtain ⟨r, hr⟩ := zigzag_update
  obtain ⟨h1, h2⟩ := longer_became hr
  obtain ⟨r', hr'⟩ := C79_total h1 h2.first
  have hd : Drawn r' := .next (zigzag_drawn hr) h1 h2 hr'
  refine ⟨r', hd, C79_drawn_partial hd, ?_⟩
  obtain ⟨p, M, -, e2, rfl⟩ := update_cases hr'
  show M.triangles.length = 4
  rw [(update_vertex e2).1]
  rfl

end Verif.Derivative
