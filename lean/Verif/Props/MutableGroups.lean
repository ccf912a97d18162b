import Verif.Spec.MutableGroups
import Verif.Props.PartitionedMesh
import Verif.Props.AsMeshes

/-!
# C16: `PartitionedMesh::FromMutableMeshGroups`
-/

set_option autoImplicit false

namespace Verif

open Mesh PMesh PMeshSpec Mesh.Spec

/-! ## The map from vertices to points -/

theorem lookup_append_some {l l' : List (Nat × VertexIndexPair)} {k : Nat} {p : VertexIndexPair}
    (h : l.lookup k = some p) : (l ++ l').lookup k = some p := by
  induction l with
  | nil => simp at h
  | cons x l ih =>
    obtain ⟨a, b⟩ := x
    rw [List.cons_append, List.lookup_cons]
    rw [List.lookup_cons] at h
    cases hk : k == a with
    | true => rw [hk] at h; exact h
    | false => rw [hk] at h; exact ih h

theorem lookup_mem {l : List (Nat × VertexIndexPair)} {k : Nat} {p : VertexIndexPair}
    (h : l.lookup k = some p) : (k, p) ∈ l := by
  induction l with
  | nil => simp at h
  | cons x l ih =>
    obtain ⟨a, b⟩ := x
    rw [List.lookup_cons] at h
    cases hk : k == a with
    | true => rw [hk] at h; cases h; rw [eq_of_beq hk]; exact List.mem_cons_self
    | false => rw [hk] at h; exact List.mem_cons_of_mem _ (ih h)

theorem lookup_of_mem {l : List (Nat × VertexIndexPair)} {k : Nat} {p : VertexIndexPair}
    (h : (k, p) ∈ l) : (l.lookup k).isSome = true := by
  induction l with
  | nil => simp at h
  | cons x l ih =>
    obtain ⟨a, b⟩ := x
    rw [List.lookup_cons]
    cases hk : k == a with
    | true => rfl
    | false =>
      rcases List.mem_cons.1 h with h | h
      · cases h; simp at hk
      · exact ih h

theorem mapInsert_fold : ∀ (es map : List (Nat × VertexIndexPair)),
    (∀ k p, (es.foldl (fun m e => mapInsert m e.1 e.2) map).lookup k = some p →
      (k, p) ∈ map ∨ (k, p) ∈ es) ∧
    ∀ k, (map.lookup k).isSome = true ∨ (∃ p, (k, p) ∈ es) →
      ((es.foldl (fun m e => mapInsert m e.1 e.2) map).lookup k).isSome = true
  | [], map => ⟨fun k p h => Or.inl (lookup_mem h), fun k h => by simpa using h⟩
  | e :: es, map => by
    obtain ⟨h1, h2⟩ := mapInsert_fold es (mapInsert map e.1 e.2)
    constructor
    · intro k p h
      rcases h1 k p h with h | h
      · unfold mapInsert at h
        split at h
        · exact Or.inl h
        · rcases List.mem_append.1 h with h | h
          · exact Or.inl h
          · rw [List.mem_singleton.1 h]; exact Or.inr List.mem_cons_self
      · exact Or.inr (List.mem_cons_of_mem _ h)
    · intro k h
      refine h2 k ?_
      rcases h with h | ⟨p, h⟩
      · left
        obtain ⟨q, hq⟩ := Option.isSome_iff_exists.1 h
        unfold mapInsert
        split
        · exact h
        · rw [lookup_append_some hq]; rfl
      · rcases List.mem_cons.1 h with h | h
        · left
          subst h
          unfold mapInsert
          split
          · assumption
          · exact lookup_of_mem (List.mem_append_right _ List.mem_cons_self)
        · exact Or.inr ⟨p, h⟩

/-- The pairs that are inserted. -/
def entries (ps : List PartitionInfo) : List (Nat × VertexIndexPair) :=
  ps.zipIdx.flatMap fun pi => pi.1.vertices.zipIdx.map fun vi => (vi.1, ⟨u16 pi.2, u16 vi.2⟩)

theorem partitionMap_eq (ps : List PartitionInfo) :
    partitionMap ps = (entries ps).foldl (fun m e => mapInsert m e.1 e.2) [] := by
  unfold partitionMap entries
  rw [List.foldl_flatMap]
  simp only [List.foldl_map]

theorem mem_entries {ps : List PartitionInfo} {v : Nat} {p : VertexIndexPair} :
    (v, p) ∈ entries ps ↔ ∃ (k i : Nat) (q : PartitionInfo), ps[k]? = some q ∧ q.vertices[i]? = some v ∧
      p = ⟨u16 k, u16 i⟩ := by
  unfold entries
  simp only [List.mem_flatMap, List.mem_map, Prod.exists, List.mem_zipIdx_iff_getElem?, Prod.mk.injEq]
  constructor
  · rintro ⟨q, k, h1, v', i, h2, rfl, rfl⟩
    exact ⟨k, i, q, h1, h2, rfl⟩
  · rintro ⟨k, i, q, h1, h2, rfl⟩
    exact ⟨q, k, h1, v, i, h2, rfl, rfl⟩

/-- A vertex is found if and only if some partition has it, and then a partition has it at the place that
is found. -/
theorem partitionMap_lookup {ps : List PartitionInfo} (hn : ps.length ≤ 65536)
    (hv : ∀ p ∈ ps, p.vertices.length ≤ 65536) (v : Nat) :
    (∀ p, (partitionMap ps).lookup v = some p →
      ∃ q, ps[p.meshIndex]? = some q ∧ q.vertices[p.vertexIndex]? = some v) ∧
    (((partitionMap ps).lookup v).isSome = true ↔ v ∈ ps.flatMap fun p => p.vertices) := by
  obtain ⟨h1, h2⟩ := mapInsert_fold (entries ps) []
  rw [← partitionMap_eq] at h1 h2
  have key : ∀ p, (partitionMap ps).lookup v = some p →
      ∃ q, ps[p.meshIndex]? = some q ∧ q.vertices[p.vertexIndex]? = some v := by
    intro p hp
    rcases h1 v p hp with h | h
    · cases h
    · obtain ⟨k, i, q, a1, a2, rfl⟩ := mem_entries.1 h
      have b1 := (List.getElem?_eq_some_iff.1 a1).1
      have b2 := (List.getElem?_eq_some_iff.1 a2).1
      have b3 := hv q (List.mem_of_getElem? a1)
      refine ⟨q, ?_, ?_⟩
      · change ps[k % 65536]? = _; rw [Nat.mod_eq_of_lt (by omega)]; exact a1
      · change q.vertices[i % 65536]? = _; rw [Nat.mod_eq_of_lt (by omega)]; exact a2
  refine ⟨key, fun h => ?_, fun h => ?_⟩
  · obtain ⟨p, hp⟩ := Option.isSome_iff_exists.1 h
    obtain ⟨q, a1, a2⟩ := key p hp
    exact List.mem_flatMap.2 ⟨q, List.mem_of_getElem? a1, List.mem_of_getElem? a2⟩
  · obtain ⟨q, hq, hvq⟩ := List.mem_flatMap.1 h
    obtain ⟨k, hk⟩ := List.mem_iff_getElem?.1 hq
    obtain ⟨i, hi⟩ := List.mem_iff_getElem?.1 hvq
    exact h2 v (Or.inr ⟨_, mem_entries.2 ⟨k, i, q, hk, hi, rfl⟩⟩)

theorem filterMap_forall₂ {α β : Type} (f : α → Option β) (P : α → Prop) [DecidablePred P]
    (Q : α → β → Prop) (h1 : ∀ a b, f a = some b → Q a b) (h2 : ∀ a, (f a).isSome = true ↔ P a) :
    ∀ l : List α, List.Forall₂ Q (l.filter fun a => P a) (l.filterMap f)
  | [] => List.Forall₂.nil
  | a :: l => by
    have ih := filterMap_forall₂ f P Q h1 h2 l
    cases hf : f a with
    | none =>
      have : ¬ P a := by rw [← h2, hf]; simp
      rw [List.filter_cons_of_neg (by simpa using this), List.filterMap_cons_none hf]
      exact ih
    | some b =>
      have : P a := by rw [← h2, hf]; rfl
      rw [List.filter_cons_of_pos (by simpa using this), List.filterMap_cons_some hf]
      exact .cons (h1 a b hf) ih

/-! ## One group -/

theorem built_rep {m : MutableMesh} {s : MeshState} (h : Built m s) : Rep m s := by
  obtain ⟨attrs, ixf, f, ops, h1, h2, h3⟩ := h
  obtain ⟨m0, hm0, R0⟩ := rep_new h1
  obtain ⟨m', hm, R⟩ := run_rep R0 ops h2
  rw [hm0, Option.bind_some, hm] at h3
  cases h3
  exact R

theorem MeshesOf.used {s : MeshState} {params : List (Option (List Coding))} {om : List AttrId}
    {moved : Nat → Option PointF} {parts : List (List Nat × Mesh)}
    (h : MeshesOf s params om moved parts) (v : Nat) :
    v ∈ parts.flatMap Prod.fst ↔ v ∈ corners s.triangles := by
  have T := h.triangles
  constructor
  · intro hv
    obtain ⟨p, hp, hvp⟩ := List.mem_flatMap.1 hv
    obtain ⟨i, hi⟩ := List.mem_iff_getElem?.1 hvp
    have P := h.part p hp
    obtain ⟨t, ht, hr⟩ := P.refers i (List.getElem?_eq_some_iff.1 hi).1
    have : lift p.1 t ∈ s.triangles.map whole := by
      rw [← T]; exact List.mem_flatMap.2 ⟨p, hp, List.mem_map.2 ⟨t, ht, rfl⟩⟩
    obtain ⟨t', ht', hw⟩ := List.mem_map.1 this
    simp only [lift, whole, Prod.mk.injEq] at hw
    obtain ⟨w1, w2, w3⟩ := hw
    refine List.mem_flatMap.2 ⟨t', ht', ?_⟩
    rcases hr with rfl | rfl | rfl
    · rw [hi] at w1; cases w1; simp
    · rw [hi] at w2; cases w2; simp
    · rw [hi] at w3; cases w3; simp
  · intro hv
    obtain ⟨t', ht', hc⟩ := List.mem_flatMap.1 hv
    have : whole t' ∈ parts.flatMap (fun p => (trianglesOf p.2).map (lift p.1)) := by
      rw [T]; exact List.mem_map.2 ⟨t', ht', rfl⟩
    obtain ⟨p, hp, hl⟩ := List.mem_flatMap.1 this
    obtain ⟨t, ht, hw⟩ := List.mem_map.1 hl
    simp only [lift, whole, Prod.mk.injEq] at hw
    obtain ⟨w1, w2, w3⟩ := hw
    refine List.mem_flatMap.2 ⟨p, hp, ?_⟩
    simp only [List.mem_cons, List.not_mem_nil, or_false] at hc
    rcases hc with rfl | rfl | rfl
    · exact List.mem_of_getElem? w1
    · exact List.mem_of_getElem? w2
    · exact List.mem_of_getElem? w3

/-- The first two requirements. -/
def Converts (g : MutableMeshGroup) (s : MeshState) : Prop :=
  (∀ o ∈ g.outlines, ∀ v ∈ o, v < s.vertices.length) ∧
    (s.triangles ≠ [] → Accepted s g.params g.omitted)

theorem outlines_ok {g : MutableMeshGroup} {s : MeshState} {ps : List PartitionInfo}
    {parts : List (List Nat × Mesh)}
    (h1 : partitionTriangles g.mesh.indexData g.mesh.format.indexFormat 65536 = some ps)
    (h2 : parts.length ≤ 65536 → ∀ v, (∀ p, (partitionMap ps).lookup v = some p → IsVertex parts v p) ∧
      (((partitionMap ps).lookup v).isSome = true ↔ v ∈ corners s.triangles)) :
    ∃ os, partitionOutlines g = some os ∧ os.length = (g.outlines.filter fun o => o ≠ []).length ∧
      (parts.length ≤ 65536 → List.Forall₂ (fun o o' =>
        List.Forall₂ (IsVertex parts) (o.filter fun v => v ∈ corners s.triangles) o')
        (g.outlines.filter fun o => o ≠ []) os) := by
  have e : (g.outlines.filter fun o => !o.isEmpty) = g.outlines.filter fun o => o ≠ [] := by
    apply List.filter_congr
    intro o _
    cases o <;> simp
  unfold partitionOutlines
  by_cases h0 : g.outlines.isEmpty = true
  · rw [if_pos h0]
    rw [List.isEmpty_iff.1 h0]
    exact ⟨[], rfl, rfl, fun _ => List.Forall₂.nil⟩
  · rw [if_neg h0, h1, Option.map_some, e]
    refine ⟨_, rfl, by simp, fun hn => ?_⟩
    rw [List.forall₂_map_right_iff, List.forall₂_same]
    intro o _
    exact filterMap_forall₂ _ (fun v => v ∈ corners s.triangles) (IsVertex parts)
      (fun v p hp => (h2 hn v).1 p hp) (fun v => (h2 hn v).2) o

theorem convertGroup_spec {g : MutableMeshGroup} {s : MeshState} (hb : Built g.mesh s) (hf : Fine g s) :
    (¬ Converts g s ∧ convertGroup g = some none) ∨
    (Converts g s ∧ ∃ parts g', convertGroup g = some (some g') ∧ GroupOf g s parts g' ∧
      g'.outlines.length = (g.outlines.filter fun o => o ≠ []).length) := by
  have R := built_rep hb
  unfold convertGroup
  by_cases hi : ∀ o ∈ g.outlines, ∀ v ∈ o, v < s.vertices.length
  swap
  · left
    refine ⟨fun h => hi h.1, ?_⟩
    rw [if_pos]
    push Not at hi
    obtain ⟨o, ho, v, hv, h⟩ := hi
    rw [List.any_eq_true]
    refine ⟨o, ho, ?_⟩
    rw [List.any_eq_true]
    exact ⟨v, hv, by rw [decide_eq_true_eq, R.vc]; exact h⟩
  rw [if_neg (by
    rw [List.any_eq_true]
    rintro ⟨o, ho, h⟩
    obtain ⟨v, hv, h⟩ := List.any_eq_true.1 h
    have := hi o ho v hv
    rw [decide_eq_true_eq, R.vc] at h
    omega)]
  by_cases h0 : s.triangles = []
  · right
    refine ⟨⟨hi, fun h => absurd h0 h⟩, ?_⟩
    have e1 : asMeshes g.mesh g.params g.omitted = some (some []) := by
      unfold asMeshes
      rw [if_pos (by rw [R.tc, h0]; rfl)]
    have e2 : partitionTriangles g.mesh.indexData g.mesh.format.indexFormat 65536 = some [{}] := by
      obtain ⟨ps, q1, -, -, -, q2⟩ := C14_partition s.triangles s.ixf 65536
        (fun t ht => R.fits t ht) (by have := R.tmax; unfold maxCount at this; omega) (by omega)
        (by omega)
      rw [R.id, (create_eq R.fmt).2.2.1]
      rw [q2 h0] at q1
      exact q1
    obtain ⟨os, ho1, ho2, ho3⟩ := outlines_ok (g := g) (s := s) (parts := []) e2 (by
      intro _ v
      refine ⟨fun p hp => ?_, ?_⟩
      · exact absurd hp (by simp [partitionMap])
      · simp [partitionMap, h0, corners])
    rw [e1, Option.bind_some]
    refine ⟨[], ⟨[], os⟩, by simp only [ho1, Option.map_some], ⟨rfl, fun h => absurd h0 h, fun _ => rfl, ho3⟩, ho2⟩
  by_cases hA : Accepted s g.params g.omitted
  · right
    refine ⟨⟨hi, fun _ => hA⟩, ?_⟩
    obtain ⟨f1, f2⟩ := hf h0 hA
    obtain ⟨moved, parts, a1, ⟨ps, a2, a3⟩, a4⟩ := asMeshes_contents R g.params g.omitted h0 hA f2 f1
    obtain ⟨os, ho1, ho2, ho3⟩ := outlines_ok (g := g) (s := s) (parts := parts) a2 (by
      intro hn v
      have hlen : ps.length = parts.length := by
        have := congrArg List.length a3; simpa using this.symm
      have hfl : (ps.flatMap fun p => p.vertices) = parts.flatMap Prod.fst := by
        rw [List.flatMap_def, List.flatMap_def, a3]
      have hsm : ∀ p ∈ ps, p.vertices.length ≤ 65536 := by
        intro p hp
        have : p.vertices ∈ parts.map Prod.fst := by rw [a3]; exact List.mem_map.2 ⟨p, hp, rfl⟩
        obtain ⟨x, hx, hxe⟩ := List.mem_map.1 this
        rw [← hxe]
        exact (a4.part x hx).small
      obtain ⟨b1, b2⟩ := partitionMap_lookup (by omega) hsm v
      refine ⟨fun p hp => ?_, by rw [b2, hfl, MeshesOf.used a4]⟩
      obtain ⟨q, c1, c2⟩ := b1 p hp
      have : (parts.map Prod.fst)[p.meshIndex]? = some q.vertices := by
        rw [a3, List.getElem?_map, c1]; rfl
      rw [List.getElem?_map] at this
      obtain ⟨x, d1, d2⟩ := Option.map_eq_some_iff.1 this
      exact ⟨x, d1, by rw [d2]; exact c2⟩)
    rw [a1, Option.bind_some]
    exact ⟨parts, ⟨parts.map Prod.snd, os⟩, by simp only [ho1, Option.map_some],
      ⟨rfl, fun _ => ⟨moved, a4⟩, fun h => absurd h h0, ho3⟩, ho2⟩
  · left
    refine ⟨fun h => hA (h.2 h0), ?_⟩
    rcases asMeshes_cases R h0 g.params g.omitted with ⟨-, h⟩ | ⟨h, -⟩
    · rw [h]; rfl
    · exact absurd h hA

/-! ## All groups -/

theorem groupOk_iff {g : MutableMeshGroup} {s : MeshState} {parts : List (List Nat × Mesh)}
    {g' : MeshGroup} (h : GroupOf g s parts g') (hn : parts.length ≤ 65536) :
    GroupOk g' ↔ ∀ o ∈ g.outlines, o ≠ [] → ∃ v ∈ o, v ∈ corners s.triangles := by
  have hO := h.outlines hn
  have hpart : ∀ x ∈ parts, ∃ moved, PartOf s g.params g.omitted moved x.1 x.2 := by
    intro x hx
    have h0 : s.triangles ≠ [] := fun h0 => by rw [h.empty h0] at hx; cases hx
    obtain ⟨moved, H⟩ := h.contents h0
    exact ⟨moved, H.part x hx⟩
  constructor
  · intro G o ho hne
    obtain ⟨o', ho', hF⟩ : ∃ o' ∈ g'.outlines,
        List.Forall₂ (IsVertex parts) (o.filter fun v => v ∈ corners s.triangles) o' := by
      have hm : o ∈ g.outlines.filter fun o => o ≠ [] := by simp [ho, hne]
      obtain ⟨i, hi⟩ := List.mem_iff_getElem?.1 hm
      obtain ⟨hil, hie⟩ := List.getElem?_eq_some_iff.1 hi
      rw [List.forall₂_iff_get] at hO
      have := hO.2 i hil (by rw [← hO.1]; exact hil)
      simp only [List.get_eq_getElem] at this
      rw [hie] at this
      exact ⟨_, List.getElem_mem _, this⟩
    have hne' := G.outlines o' ho'
    have hl := hF.length_eq
    have : (o.filter fun v => v ∈ corners s.triangles) ≠ [] := by
      intro he
      rw [he] at hl
      exact hne' (List.length_eq_zero_iff.1 hl.symm)
    obtain ⟨v, hv⟩ := List.exists_mem_of_ne_nil _ this
    rw [List.mem_filter] at hv
    exact ⟨v, hv.1, by simpa using hv.2⟩
  · intro hu
    have hback : ∀ o' ∈ g'.outlines, ∃ o ∈ g.outlines, o ≠ [] ∧
        List.Forall₂ (IsVertex parts) (o.filter fun v => v ∈ corners s.triangles) o' := by
      intro o' ho'
      obtain ⟨i, hi⟩ := List.mem_iff_getElem?.1 ho'
      obtain ⟨hil, hie⟩ := List.getElem?_eq_some_iff.1 hi
      rw [List.forall₂_iff_get] at hO
      have hil' : i < (g.outlines.filter fun o => o ≠ []).length := by rw [hO.1]; exact hil
      have := hO.2 i hil' hil
      simp only [List.get_eq_getElem] at this
      rw [hie] at this
      have hm := List.getElem_mem hil'
      have hm' := List.mem_filter.1 hm
      exact ⟨_, hm'.1, by simpa using hm'.2, this⟩
    constructor
    · intro m hm
      rw [h.meshes] at hm
      obtain ⟨x, hx, rfl⟩ := List.mem_map.1 hm
      obtain ⟨moved, P⟩ := hpart x hx
      intro h0
      have := P.triangles.1
      rw [h0] at this
      exact P.triangles.2 (List.length_eq_zero_iff.1 this)
    · intro m hm m' hm'
      rw [h.meshes] at hm hm'
      obtain ⟨x, hx, rfl⟩ := List.mem_map.1 hm
      obtain ⟨x', hx', rfl⟩ := List.mem_map.1 hm'
      obtain ⟨moved, P⟩ := hpart x hx
      obtain ⟨moved', P'⟩ := hpart x' hx'
      have := P.format.symm.trans P'.format
      simp only [Option.some.injEq] at this
      rw [this]
      exact ⟨rfl, rfl⟩
    · intro o' ho' he
      obtain ⟨o, ho, hne, hF⟩ := hback o' ho'
      obtain ⟨v, hv, hc⟩ := hu o ho hne
      rw [he] at hF
      have hl := List.length_eq_zero_iff.1 hF.length_eq
      have : v ∈ o.filter fun v => v ∈ corners s.triangles := by simp [hv, hc]
      rw [hl] at this
      cases this
    · intro o' ho' p hp
      obtain ⟨o, ho, hne, hF⟩ := hback o' ho'
      obtain ⟨i, hi⟩ := List.mem_iff_getElem?.1 hp
      obtain ⟨hil, hie⟩ := List.getElem?_eq_some_iff.1 hi
      rw [List.forall₂_iff_get] at hF
      have := hF.2 i (by rw [hF.1]; exact hil) hil
      simp only [List.get_eq_getElem] at this
      rw [hie] at this
      obtain ⟨x, c1, c2⟩ := this
      obtain ⟨moved, P⟩ := hpart x (List.mem_of_getElem? c1)
      refine ⟨x.2, by rw [h.meshes, List.getElem?_map, c1]; rfl, ?_⟩
      rw [P.vertices]
      exact (List.getElem?_eq_some_iff.1 c2).1

/-- What becomes of the groups. -/
def Becomes (x : MutableMeshGroup × MeshState) (y : List (List Nat × Mesh) × MeshGroup) : Prop :=
  GroupOf x.1 x.2 y.1 y.2 ∧
    y.2.outlines.length = (x.1.outlines.filter fun o => o ≠ []).length

theorem convertGroups_spec : ∀ (gs : List (MutableMeshGroup × MeshState)),
    (∀ x ∈ gs, Built x.1.mesh x.2 ∧ Fine x.1 x.2) →
    ((∃ x ∈ gs, ¬ Converts x.1 x.2) ∧ convertGroups (gs.map Prod.fst) = some none) ∨
    ((∀ x ∈ gs, Converts x.1 x.2) ∧ ∃ out : List (List (List Nat × Mesh) × MeshGroup),
      convertGroups (gs.map Prod.fst) = some (some (out.map Prod.snd)) ∧ List.Forall₂ Becomes gs out)
  | [], _ => Or.inr ⟨by simp, [], rfl, .nil⟩
  | x :: gs, h => by
    obtain ⟨hb, hf⟩ := h x List.mem_cons_self
    have ih := convertGroups_spec gs fun y hy => h y (List.mem_cons_of_mem _ hy)
    rw [List.map_cons]
    rcases convertGroup_spec hb hf with ⟨h1, h2⟩ | ⟨h1, parts, g', h2, h3, h4⟩
    · left
      refine ⟨⟨x, List.mem_cons_self, h1⟩, ?_⟩
      unfold convertGroups
      rw [h2]
      rfl
    · unfold convertGroups
      rw [h2, Option.bind_some]
      simp only
      rcases ih with ⟨⟨y, hy, h5⟩, h6⟩ | ⟨h5, out, h6, h7⟩
      · left
        exact ⟨⟨y, List.mem_cons_of_mem _ hy, h5⟩, by rw [h6]; rfl⟩
      · right
        refine ⟨?_, (parts, g') :: out, by rw [h6]; rfl, .cons ⟨h3, h4⟩ h7⟩
        intro y hy
        rcases List.mem_cons.1 hy with rfl | hy
        · exact h1
        · exact h5 y hy

theorem total_eq {gs : List (MutableMeshGroup × MeshState)}
    {out : List (List (List Nat × Mesh) × MeshGroup)} (h : List.Forall₂ Becomes gs out) :
    totalMeshes (out.map Prod.snd) = (out.map fun y => y.1.length).sum ∧
    totalOutlines (out.map Prod.snd) ≤ (gs.flatMap fun x => x.1.outlines).length ∧
    ∀ y ∈ out, y.1.length ≤ (out.map fun y => y.1.length).sum := by
  induction h with
  | nil => simp [totalMeshes, totalOutlines]
  | @cons x y gs out hxy _ ih =>
    obtain ⟨i1, i2, i3⟩ := ih
    obtain ⟨G, hl⟩ := hxy
    have hm : y.2.meshes.length = y.1.length := by rw [G.meshes, List.length_map]
    have hle := List.length_filter_le (fun o => decide (o ≠ [])) x.1.outlines
    unfold totalMeshes totalOutlines at *
    simp only [List.map_cons, List.flatMap_cons, List.length_append, List.sum_cons]
    refine ⟨by rw [hm, i1], by omega, ?_⟩
    intro z hz
    rcases List.mem_cons.1 hz with rfl | hz
    · omega
    · have := i3 z hz; omega

/-- **C16.** A shape made of mutable meshes. If a group does not meet the requirements then an error is
returned. Otherwise the meshes are those of C45, and if there are at most 65535 of them then the shape
consists of them, and the points of its outlines are the vertices that the caller listed.

Partial: an outline that is not empty must have a vertex of a triangle, which is not documented
(`C16_outline_counterexample`); vertices of outlines that are in no triangle are dropped; the limit is
documented as 65536 (`C16_limit_counterexample`); positions and values have to be as in C45. -/
theorem C16_mutable_partial (gs : List (MutableMeshGroup × MeshState))
    (hb : ∀ x ∈ gs, Built x.1.mesh x.2) (hf : ∀ x ∈ gs, Fine x.1 x.2) (hg : gs.length < maxCount)
    (ho : (gs.flatMap fun x => x.1.outlines).length < maxCount) :
    ((∃ x ∈ gs, ¬ MutableOk x.1 x.2) →
      PartitionedMesh.fromMutableMeshGroups (gs.map Prod.fst) = some none) ∧
    ((∀ x ∈ gs, MutableOk x.1 x.2) → ∃ out : List (List (List Nat × Mesh) × MeshGroup),
      List.Forall₂ (fun x y => GroupOf x.1 x.2 y.1 y.2) gs out ∧
      (65535 < (out.map fun y => y.1.length).sum →
        PartitionedMesh.fromMutableMeshGroups (gs.map Prod.fst) = some none) ∧
      ((out.map fun y => y.1.length).sum ≤ 65535 → ∃ shape,
        PartitionedMesh.fromMutableMeshGroups (gs.map Prod.fst) = some (some shape) ∧
        Shows shape (out.map Prod.snd))) := by
  have key := convertGroups_spec gs fun x hx => ⟨hb x hx, hf x hx⟩
  have hnone : ∀ l : List MeshGroup, ¬ (totalMeshes l ≤ 65535 ∧ ∀ g ∈ l, GroupOk g) →
      PartitionedMesh.fromMeshGroups l = none := by
    intro l hl
    cases hc : PartitionedMesh.fromMeshGroups l with
    | none => rfl
    | some s => exact absurd ((C16_build_iff_partial l).1 ⟨s, hc⟩) hl
  unfold PartitionedMesh.fromMutableMeshGroups
  rcases key with ⟨⟨x, hx, h1⟩, h2⟩ | ⟨h1, out, h2, h3⟩
  · refine ⟨fun _ => by rw [h2]; rfl, fun h => absurd ⟨(h x hx).indices, (h x hx).asMeshes⟩ h1⟩
  · obtain ⟨t1, t2, t3⟩ := total_eq h3
    have hpair : ∀ x ∈ gs, ∃ y ∈ out, Becomes x y := by
      intro x hx
      obtain ⟨i, hi⟩ := List.mem_iff_getElem?.1 hx
      obtain ⟨hil, hie⟩ := List.getElem?_eq_some_iff.1 hi
      have h3' := List.forall₂_iff_get.1 h3
      have := h3'.2 i hil (by rw [← h3'.1]; exact hil)
      simp only [List.get_eq_getElem] at this
      rw [hie] at this
      exact ⟨_, List.getElem_mem _, this⟩
    have hpair' : ∀ y ∈ out, ∃ x ∈ gs, Becomes x y := by
      intro y hy
      obtain ⟨i, hi⟩ := List.mem_iff_getElem?.1 hy
      obtain ⟨hil, hie⟩ := List.getElem?_eq_some_iff.1 hi
      have h3' := List.forall₂_iff_get.1 h3
      have := h3'.2 i (by rw [h3'.1]; exact hil) hil
      simp only [List.get_eq_getElem] at this
      rw [hie] at this
      exact ⟨_, List.getElem_mem _, this⟩
    rw [h2, Option.map_some, Option.bind_some]
    constructor
    · rintro ⟨x, hx, hbad⟩
      rw [hnone]
      rintro ⟨c1, c2⟩
      obtain ⟨y, hy, B⟩ := hpair x hx
      have hn : y.1.length ≤ 65536 := by have := t3 y hy; omega
      exact hbad ⟨(h1 x hx).1, (h1 x hx).2, (groupOk_iff B.1 hn).1 (c2 _ (List.mem_map.2 ⟨y, hy, rfl⟩))⟩
    · intro hok
      refine ⟨out, h3.imp fun x y h => h.1, fun hlt => ?_, fun hle => ?_⟩
      · rw [hnone]
        rintro ⟨c1, -⟩
        omega
      · obtain ⟨shape, hs⟩ := (C16_build_iff_partial (out.map Prod.snd)).2 ⟨by omega, by
          intro g' hg'
          obtain ⟨y, hy, rfl⟩ := List.mem_map.1 hg'
          obtain ⟨x, hx, B⟩ := hpair' y hy
          exact (groupOk_iff B.1 (by have := t3 y hy; omega)).2 (hok x hx).used⟩
        have hl := h3.length_eq
        exact ⟨shape, by rw [hs], C16_contents _ _ hs (by rw [List.length_map]; omega) (by omega)⟩

/-! ## Concrete cases -/

namespace MutableGroupsExample

open Mesh.ExAs

/-- The mesh of the example of C45, with two outlines: vertex 1 is in no triangle. -/
def group (m : MutableMesh) : MutableMeshGroup := ⟨m, [[3, 2], [], [1, 0]], [5], []⟩

theorem ok (m : MutableMesh) : MutableOk (group m) state :=
  ⟨by change ∀ o ∈ [[3, 2], [], [1, 0]], ∀ v ∈ o, v < state.vertices.length; decide,
    fun _ => accepted, by
      change ∀ o ∈ [[3, 2], [], [1, 0]], o ≠ [] → ∃ v ∈ o, v ∈ corners state.triangles; decide⟩

theorem fine (m : MutableMesh) : Fine (group m) state :=
  fun _ _ => ⟨ExAs.fine, fun _ _ h1 _ _ _ _ _ h2 h3 => quantisable h1 h2 h3⟩

/-- The mesh exists. -/
theorem built : ∃ m, Built m state ∧
    (create attrs .unpacked16).bind (fun f => (MutableMesh.new f).bind (·.run ops)) = some m := by
  have h : ((create attrs .unpacked16).bind
      fun f => (MutableMesh.new f).bind (·.run ops)).isSome := by decide +kernel
  obtain ⟨m, hm⟩ := Option.isSome_iff_exists.1 h
  obtain ⟨f, hf, h⟩ := Option.bind_eq_some_iff.1 hm
  exact ⟨m, ⟨attrs, .unpacked16, f, ops, hf, run, h⟩, hm⟩

/-- The outlines of the shape. -/
example : ((create attrs .unpacked16).bind fun f => ((MutableMesh.new f).bind (·.run ops)).bind fun m =>
    (PartitionedMesh.fromMutableMeshGroups [group m]).bind fun s => s.map fun s =>
      (s.renderGroupCount, s.outlineCount 0, (s.outline 0 0), (s.outline 0 1))) =
    some (1, some 2, some [⟨0, 2⟩, ⟨0, 1⟩], some [⟨0, 0⟩]) := by decide +kernel

end MutableGroupsExample

/-- The documentation of `FromMutableMesh` names two errors: that `AsMeshes` fails and that an outline has
an index which is not below the number of vertices. There is another: an outline of which no vertex is a
corner of a triangle. -/
theorem C16_outline_counterexample : ∃ (m : MutableMesh) (s : MeshState) (ms : List Mesh), Built m s ∧
    asMeshes m [] [5] = some (some ms) ∧ 1 < m.vertexCount ∧
    PartitionedMesh.fromMutableMesh m [[1]] [5] [] = some none := by
  have h : ((create ExAs.attrs .unpacked16).bind fun f => ((MutableMesh.new f).bind
      (·.run ExAs.ops)).bind fun m => ((PartitionedMesh.fromMutableMesh m [[1]] [5] []).bind
        fun r => if r.isSome then none else if 1 < m.vertexCount then
          (asMeshes m [] [5]).bind fun ms => ms else none)).isSome := by decide +kernel
  obtain ⟨ms, h⟩ := Option.isSome_iff_exists.1 h
  obtain ⟨f, hf, h⟩ := Option.bind_eq_some_iff.1 h
  obtain ⟨m, hm, h⟩ := Option.bind_eq_some_iff.1 h
  obtain ⟨r, h1, h⟩ := Option.bind_eq_some_iff.1 h
  cases r with
  | some _ => cases h
  | none =>
    have h := (if_neg Bool.false_ne_true).symm.trans h
    by_cases hc : 1 < m.vertexCount
    · rw [if_pos hc] at h
      obtain ⟨r, h2, h⟩ := Option.bind_eq_some_iff.1 h
      exact ⟨m, ExAs.state, ms, ⟨ExAs.attrs, .unpacked16, f, ExAs.ops, hf, ExAs.run, hm⟩,
        h2.trans (congrArg some h), hc, h1⟩
    · rw [if_neg hc] at h
      cases h

end Verif
