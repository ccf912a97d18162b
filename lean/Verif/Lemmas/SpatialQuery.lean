import Verif.Spec.SpatialQuery
import Verif.Props.StaticRTree
import Verif.Spec.PartitionedMesh

/-!
# Lemmas for C17 and C47
-/

set_option autoImplicit false

namespace Verif.PMeshSpec

open Verif.Mesh Verif.PMesh F32 Verif.RTree

/-! ## The generator -/

/-- The triangles of mesh number `i`, from number `j`, `k` of them. -/
def pairsFrom (i j k : Nat) : List TriangleIndexPair := (List.range' j k).map fun t => ⟨i, t⟩

/-- All triangles of the meshes `ms`, of which the first has number `i`. -/
def pairs : Nat → List Mesh → List TriangleIndexPair
  | _, [] => []
  | i, m :: ms => pairsFrom i 0 m.triangleCount ++ pairs (i + 1) ms

theorem mem_pairsFrom {i j k : Nat} {p : TriangleIndexPair} :
    p ∈ pairsFrom i j k ↔ p.meshIndex = i ∧ j ≤ p.triangleIndex ∧ p.triangleIndex < j + k := by
  obtain ⟨a, b⟩ := p
  unfold pairsFrom
  simp only [List.mem_map, List.mem_range'_1, TriangleIndexPair.mk.injEq]
  constructor
  · rintro ⟨t, h, rfl, rfl⟩; exact ⟨rfl, h⟩
  · rintro ⟨rfl, h⟩; exact ⟨b, h, rfl, rfl⟩

theorem mem_pairs {i : Nat} {ms : List Mesh} {p : TriangleIndexPair} :
    p ∈ pairs i ms ↔ i ≤ p.meshIndex ∧ ∃ m, ms[p.meshIndex - i]? = some m ∧ p.triangleIndex < m.triangleCount := by
  induction ms generalizing i with
  | nil => simp [pairs]
  | cons m ms ih =>
    rw [pairs, List.mem_append, mem_pairsFrom, ih]
    constructor
    · rintro (⟨h1, -, h2⟩ | ⟨h1, m', h2, h3⟩)
      · exact ⟨by omega, m, by simp [h1], by omega⟩
      · refine ⟨by omega, m', ?_, h3⟩
        rw [show p.meshIndex - i = p.meshIndex - (i + 1) + 1 by omega]
        simpa using h2
    · rintro ⟨h1, m', h2, h3⟩
      by_cases h : p.meshIndex = i
      · left
        rw [h, Nat.sub_self] at h2
        simp only [List.getElem?_cons_zero, Option.some.injEq] at h2
        subst h2
        exact ⟨h, by omega, by omega⟩
      · right
        rw [show p.meshIndex - i = p.meshIndex - (i + 1) + 1 by omega] at h2
        exact ⟨by omega, m', by simpa using h2, h3⟩

theorem nodup_pairsFrom (i j k : Nat) : (pairsFrom i j k).Nodup := by
  unfold pairsFrom
  refine List.Nodup.map ?_ (List.nodup_range' (step := 1))
  intro a b h
  exact (TriangleIndexPair.mk.inj h).2

theorem nodup_pairs (i : Nat) (ms : List Mesh) : (pairs i ms).Nodup := by
  induction ms generalizing i with
  | nil => exact List.nodup_nil
  | cons m ms ih =>
    rw [pairs]
    refine List.Nodup.append (nodup_pairsFrom _ _ _) (ih _) ?_
    intro p h1 h2
    rw [mem_pairsFrom] at h1
    rw [mem_pairs] at h2
    omega

theorem generate_mesh {ms : List Mesh} {i : Nat} {m : Mesh} (hm : ms[i]? = some m) (hi : i < 65535)
    (hc : m.triangleCount < 65536) (n : Nat) : ∀ k j, 0 < k → j + k = m.triangleCount →
      generate ms (k + n) ⟨i, j⟩ = (generate ms n ⟨i + 1, 0⟩).map fun l => pairsFrom i j k ++ l := by
  intro k
  induction k with
  | zero => intro j h; omega
  | succ k ih =>
    intro j _ hj
    rw [show k + 1 + n = (k + n) + 1 by omega, generate]
    unfold nextIndex
    simp only [hm, Option.map_some, Option.bind_some]
    have hu : u16 (j + 1) = j + 1 := Nat.mod_eq_of_lt (by omega)
    have hv : u16 (i + 1) = i + 1 := Nat.mod_eq_of_lt (by omega)
    rw [hu, hv]
    by_cases hk : k = 0
    · subst hk
      rw [if_pos (by omega), Nat.zero_add]
      rfl
    · rw [if_neg (by omega), ih (j + 1) (by omega) (by omega)]
      cases generate ms n ⟨i + 1, 0⟩ <;> rfl

theorem generate_all {ms : List Mesh} (hl : ms.length ≤ 65535) (hne : ∀ m ∈ ms, m.triangleCount ≠ 0)
    (hc : ∀ m ∈ ms, m.triangleCount < 65536) : ∀ (rest done : List Mesh), ms = done ++ rest →
      generate ms (rest.map fun m => m.triangleCount).sum ⟨done.length, 0⟩ = some (pairs done.length rest) := by
  intro rest
  induction rest with
  | nil => intro done _; rfl
  | cons m rest ih =>
    intro done h
    have hm : ms[done.length]? = some m := by rw [h]; simp
    have hmem : m ∈ ms := by rw [h]; simp
    have hlen : done.length < ms.length := by rw [h]; simp
    have h' := ih (done ++ [m]) (by rw [h]; simp)
    rw [List.length_append, List.length_singleton] at h'
    rw [List.map_cons, List.sum_cons,
      generate_mesh hm (by omega) (hc m hmem) _ m.triangleCount 0 (Nat.pos_of_ne_zero (hne m hmem)) (by omega), h']
    rfl

theorem sum_lt {ms : List Mesh} (hl : ms.length ≤ 65535) (hc : ∀ m ∈ ms, m.triangleCount < 65536) :
    (ms.map fun m => m.triangleCount).sum < 4294967296 := by
  have : ∀ ms : List Mesh, (∀ m ∈ ms, m.triangleCount < 65536) →
      (ms.map fun m => m.triangleCount).sum ≤ ms.length * 65535 := by
    intro ms hc
    induction ms with
    | nil => simp
    | cons m ms ih =>
      have h1 := hc m (by simp)
      have h2 := ih fun x hx => hc x (by simp [hx])
      rw [List.map_cons, List.sum_cons, List.length_cons]
      omega
  have h := this ms hc
  have : ms.length * 65535 ≤ 65535 * 65535 := Nat.mul_le_mul_right _ hl
  omega

theorem triangleTotal_eq {ms : List Mesh} (h : (ms.map fun m => m.triangleCount).sum < 4294967296) :
    triangleTotal ms = (ms.map fun m => m.triangleCount).sum := by
  have : ∀ (ms : List Mesh) (n : Nat), n + (ms.map fun m => m.triangleCount).sum < 4294967296 →
      ms.foldl (fun n m => u32 (n + m.triangleCount)) n = n + (ms.map fun m => m.triangleCount).sum := by
    intro ms
    induction ms with
    | nil => intro n _; simp
    | cons m ms ih =>
      intro n hn
      rw [List.map_cons, List.sum_cons] at hn
      rw [List.foldl_cons, List.map_cons, List.sum_cons,
        show u32 (n + m.triangleCount) = n + m.triangleCount by
          unfold u32; exact Nat.mod_eq_of_lt (by omega),
        ih _ (by omega)]
      omega
  unfold triangleTotal
  rw [this ms 0 (by omega), Nat.zero_add]

/-! ## The tree -/

theorem triangleBounds_valid {t : TriangleF} (h : NoNaN t) : (triangleBounds t).Valid :=
  (join_spec (fromTwoPoints_spec h.1 h.2.1).1 h.2.2).1

theorem triangleBounds_contains {t : TriangleF} (h : NoNaN t) (p : PointF) :
    (triangleBounds t).contains p = true ↔ InBox t p := by
  obtain ⟨v, a, b, l⟩ := fromTwoPoints_spec h.1 h.2.1
  obtain ⟨v', a', b', l'⟩ := join_spec v h.2.2
  constructor
  · intro hp s h1 h2 h3
    exact (C21_contains_rect s _ v').1 (l' s h3 (l s h1 h2)) p hp
  · intro hp
    exact hp _ ((C21_contains_rect _ _ v).1 b' _ a) ((C21_contains_rect _ _ v).1 b' _ b) a'

theorem boxesMeet_iff {t : TriangleF} {r : RectF} (h : NoNaN t) (hr : r.Valid) :
    (triangleBounds t).intersects r = true ↔ BoxesMeet t r := by
  rw [(C23_rect_binary32 _ _ (triangleBounds_valid h) hr).1]
  unfold BoxesMeet
  simp only [triangleBounds_contains h]

/-- Showing the elements to the wrapper of a visitor shows those which hit to the visitor. -/
theorem show_wrapper {σ : Type} {ms : List Mesh} {hits : TriangleF → Option Bool}
    (visitor : σ → TriangleIndexPair → σ × Bool) :
    ∀ (l : List TriangleIndexPair) (st : σ), (∀ p ∈ l, ((triangleAt ms p).bind hits).isSome = true) →
      showUntilStop (visitorWrapper ms hits visitor) l (some st) =
        some (showUntilStop visitor (l.filter fun p => (triangleAt ms p).bind hits == some true) st) := by
  intro l
  induction l with
  | nil => intro st _; rfl
  | cons p l ih =>
    intro st h
    have h' := fun st => ih st fun x hx => h x (by simp [hx])
    obtain ⟨b, hb⟩ := Option.isSome_iff_exists.1 (h p (by simp))
    rw [showUntilStop]
    cases b with
    | false =>
      have e : visitorWrapper ms hits visitor (some st) p = (some st, true) := by
        unfold visitorWrapper; simp [hb]
      rw [e, List.filter_cons_of_neg (by simp [hb])]
      simp only [if_true]
      exact h' st
    | true =>
      have e : visitorWrapper ms hits visitor (some st) p = (some (visitor st p).1, (visitor st p).2) := by
        unfold visitorWrapper; simp [hb]
      rw [e, List.filter_cons_of_pos (by simp [hb]), showUntilStop]
      simp only
      split
      · exact h' _
      · rfl

/-- A visit, for any elements of the tree which are triangles. -/
theorem visit_elements {S : Sorts} (hx : ∀ f l, (S.x f l).Perm l) (hy : ∀ f l, (S.y f l).Perm l) {d : Data}
    {es : List TriangleIndexPair} (hm : d.meshes ≠ []) (hg : generate d.meshes (triangleTotal d.meshes) ⟨0, 0⟩ = some es)
    (hne : es ≠ []) (hlt : es.length < 2 ^ 32) (hr : ∀ p ∈ es, ∃ t, triangleAt d.meshes p = some t ∧ NoNaN t)
    {q : Query} {r : RectF} (hb : Envelope.add none q.object = some r)
    (hh : ∀ p ∈ es, ∀ t, triangleAt d.meshes p = some t → (q.hits t).isSome = true) :
    ∃ order : List TriangleIndexPair,
      order.Perm (es.filter fun p => (boundsFunc d.meshes p).intersects r && ((triangleAt d.meshes p).bind q.hits == some true)) ∧
      ∀ (σ : Type) (visitor : σ → TriangleIndexPair → σ × Bool) (st : σ),
        PartitionedMesh.visitTriangles S (some d) q visitor st = some (showUntilStop visitor order st) := by
  have hbv : ∀ p ∈ es, (boundsFunc d.meshes p).Valid := by
    intro p hp
    obtain ⟨t, ht, hn⟩ := hr p hp
    unfold boundsFunc
    rw [ht]
    exact triangleBounds_valid hn
  obtain ⟨tree, htree, hq⟩ := C15_query_partial S hx hy branchingFactor (by decide) es (boundsFunc d.meshes) hne hlt hbv
  obtain ⟨order, hperm, hvis⟩ := hq r
  have hi : d.spatialIndex S = some tree := by
    unfold Data.spatialIndex
    rw [if_neg (by simpa using hm), hg, Option.bind_some, if_pos]
    · rw [← htree]
      unfold RTree.create
      rw [if_pos (by norm_num at hlt; omega)]
    · rw [List.all_eq_true]
      intro p hp
      obtain ⟨t, ht, -⟩ := hr p hp
      rw [ht]; rfl
  have hall : ∀ p ∈ order, ((triangleAt d.meshes p).bind q.hits).isSome = true := by
    intro p hp
    have hp' := (List.mem_filter.1 (hperm.mem_iff.1 hp)).1
    obtain ⟨t, ht, -⟩ := hr p hp'
    rw [ht, Option.bind_some]
    exact hh p hp' t ht
  refine ⟨order.filter fun p => (triangleAt d.meshes p).bind q.hits == some true, ?_, ?_⟩
  · refine (hperm.filter _).trans (List.Perm.of_eq ?_)
    rw [List.filter_filter]
    apply List.filter_congr
    intro p _
    rw [Bool.and_comm]
  · intro σ visitor st
    unfold PartitionedMesh.visitTriangles
    simp only [hi, hb, Option.bind_some]
    rw [hvis, show_wrapper visitor order st hall]
    rfl

theorem isTriangle_iff {d : Data} {p : TriangleIndexPair} {t : TriangleF} :
    IsTriangle (some d) p t ↔ p ∈ pairs 0 d.meshes ∧ triangleAt d.meshes p = some t := by
  rw [mem_pairs]
  unfold IsTriangle triangleAt
  constructor
  · rintro ⟨m, h1, h2, h3⟩
    have h1 : d.meshes[p.meshIndex]? = some m := h1
    exact ⟨⟨by omega, m, by simpa using h1, h2⟩, by rw [h1, Option.bind_some, h3]⟩
  · rintro ⟨⟨-, m, h1, h2⟩, h3⟩
    rw [Nat.sub_zero] at h1
    rw [h1, Option.bind_some] at h3
    exact ⟨m, h1, h2, h3⟩

/-- The elements of the index of a searchable shape are all its triangles. -/
theorem Searchable.elements {d : Data} (h : Searchable (some d)) :
    d.meshes ≠ [] ∧ generate d.meshes (triangleTotal d.meshes) ⟨0, 0⟩ = some (pairs 0 d.meshes) ∧
      pairs 0 d.meshes ≠ [] ∧ (pairs 0 d.meshes).length < 2 ^ 32 ∧
      ∀ p ∈ pairs 0 d.meshes, ∃ t, triangleAt d.meshes p = some t ∧ NoNaN t := by
  have hf : d.meshes ≠ [] := h.filled.resolve_left (by simp)
  have hc : d.meshes.length ≤ 65535 := h.count
  have hn : ∀ m ∈ d.meshes, m.triangleCount ≠ 0 := h.nonempty
  have hw : ∀ m ∈ d.meshes, m.triangleCount < 65536 := h.few
  have hr := h.readable
  have hs := sum_lt hc hw
  have hg := generate_all hc hn hw d.meshes [] rfl
  rw [List.length_nil] at hg
  have hlen : ∀ (ms : List Mesh) (i : Nat), (pairs i ms).length = (ms.map fun m => m.triangleCount).sum := by
    intro ms
    induction ms with
    | nil => intro i; rfl
    | cons m ms ih => intro i; simp [pairs, pairsFrom, ih]
  refine ⟨hf, ?_, ?_, ?_, ?_⟩
  · rw [triangleTotal_eq hs]; exact hg
  · intro hnil
    cases hms : d.meshes with
    | nil => exact hf hms
    | cons m ms =>
      have h0 := hn m (by show m ∈ d.meshes; rw [hms]; simp)
      have := hlen d.meshes 0
      rw [hnil, hms, List.map_cons, List.sum_cons, List.length_nil] at this
      omega
  · rw [hlen]; norm_num; exact hs
  · intro p hp
    obtain ⟨-, m, h1, h2⟩ := mem_pairs.1 hp
    rw [Nat.sub_zero] at h1
    obtain ⟨t, ht, hv⟩ := hr m (List.mem_of_getElem? h1) _ h2
    exact ⟨t, by unfold triangleAt; rw [h1, Option.bind_some, ht], hv⟩

theorem isTriangle_none {p : TriangleIndexPair} {t : TriangleF} : ¬ IsTriangle none p t := by
  rintro ⟨m, h, -⟩
  cases h

/-- What a visit does. -/
theorem visit_found {S : Sorts} (hx : ∀ f l, (S.x f l).Perm l) (hy : ∀ f l, (S.y f l).Perm l) {s : PartitionedMesh}
    (hs : Searchable s) {q : Query} {r : RectF} (hq : QueryFor s q r) :
    ∃ order, Found s q r order ∧ ∀ (σ : Type) (visitor : σ → TriangleIndexPair → σ × Bool) (st : σ),
      s.visitTriangles S q visitor st = some (showUntilStop visitor order st) := by
  cases s with
  | none =>
    refine ⟨[], ⟨List.nodup_nil, fun p => ?_⟩, fun _ _ _ => rfl⟩
    simp [isTriangle_none]
  | some d =>
    obtain ⟨hm, hg, hne, hlt, hr⟩ := hs.elements
    obtain ⟨order, hperm, hvis⟩ := visit_elements hx hy hm hg hne hlt hr hq.box
      (fun p hp t ht => hq.total p t (isTriangle_iff.2 ⟨hp, ht⟩))
    refine ⟨order, ⟨hperm.nodup_iff.2 ((nodup_pairs 0 _).filter _), fun p => ?_⟩, hvis⟩
    rw [hperm.mem_iff, List.mem_filter]
    constructor
    · rintro ⟨hp, hc⟩
      obtain ⟨t, ht, hn⟩ := hr p hp
      rw [Bool.and_eq_true, ht, Option.bind_some, beq_iff_eq] at hc
      refine ⟨t, isTriangle_iff.2 ⟨hp, ht⟩, hc.2, ?_⟩
      rw [← boxesMeet_iff hn hq.valid]
      have := hc.1
      unfold boundsFunc at this
      rw [ht] at this
      exact this
    · rintro ⟨t, ht, hh, hb⟩
      rw [isTriangle_iff] at ht
      obtain ⟨t', ht', hn⟩ := hr p ht.1
      have : t' = t := by rw [ht.2] at ht'; exact (Option.some.inj ht').symm
      subst this
      refine ⟨ht.1, ?_⟩
      unfold boundsFunc
      rw [ht.2, Bool.and_eq_true, Option.bind_some, hh]
      exact ⟨(boxesMeet_iff hn hq.valid).2 hb, by simp⟩

end Verif.PMeshSpec
