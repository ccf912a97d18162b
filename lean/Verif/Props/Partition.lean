import Verif.Props.MeshPacking

/-!
# C14: splitting a triangle list into partitions; C40: triangle indices in byte arrays

See `/verif/properties.jsonl`.
-/

set_option autoImplicit false

namespace Verif.Mesh

open Verif Verif.Mesh.Spec

/-! ## Indices in byte arrays -/

theorem indexBytesOf_two (ts : List Tri) : indexBytesOf 2 ts =
    ts.flatMap fun t => bytesOfU16 t.1 ++ bytesOfU16 t.2.1 ++ bytesOfU16 t.2.2 := by
  unfold indexBytesOf; congr; funext t
  simp [bytesOfU16, List.range, List.range.loop]

theorem indexBytesOf_four (ts : List Tri) : indexBytesOf 4 ts =
    ts.flatMap fun t => bytesOfU32 t.1 ++ bytesOfU32 t.2.1 ++ bytesOfU32 t.2.2 := by
  unfold indexBytesOf; congr; funext t
  simp [bytesOfU32, List.range, List.range.loop]

theorem bytesOfTri_eq (w : Nat) (hw : w = 2 ∨ w = 4) (t : Tri) :
    bytesOfTri w t = indexBytesOf w [t] := by
  rcases hw with rfl | rfl
  · rw [indexBytesOf_two]; simp only [bytesOfTri, bytesOfU16, if_true, List.flatMap_cons,
      List.flatMap_nil, List.append_nil, List.cons_append, List.nil_append, List.cons.injEq, and_true]
    omega
  · rw [indexBytesOf_four]; simp [bytesOfTri]

theorem length_indexBytesOf (w : Nat) (ts : List Tri) :
    (indexBytesOf w ts).length = ts.length * (3 * w) := by
  unfold indexBytesOf
  rw [List.length_flatMap]
  induction ts with
  | nil => simp
  | cons t ts ih => simp only [List.map_cons, List.sum_cons, ih]; simp; ring

theorem indexBytesOf_append (w : Nat) (a b : List Tri) :
    indexBytesOf w (a ++ b) = indexBytesOf w a ++ indexBytesOf w b := by
  simp [indexBytesOf]

/-- An index fits in `w` bytes. -/
def TriFits (w : Nat) (t : Tri) : Prop := t.1 < 256 ^ w ∧ t.2.1 < 256 ^ w ∧ t.2.2 < 256 ^ w

theorem readTri_one (w : Nat) (hw : w = 2 ∨ w = 4) (a b : List Tri) (t : Tri) (ht : TriFits w t) :
    readTri a.length w (indexBytesOf w (a ++ t :: b)) = some t := by
  have hlen : a.length * 3 * w = (indexBytesOf w a).length := by rw [length_indexBytesOf]; ring
  unfold readTri
  simp only
  rw [indexBytesOf_append, hlen, List.drop_left,
    show t :: b = [t] ++ b from rfl, indexBytesOf_append,
    List.take_left' (by rw [length_indexBytesOf]; simp)]
  obtain ⟨x, y, z⟩ := t
  obtain ⟨h1, h2, h3⟩ := ht
  rcases hw with rfl | rfl
  · rw [if_pos rfl, indexBytesOf_two]
    simp only [bytesOfU16, List.flatMap_cons, List.flatMap_nil, List.append_nil, List.cons_append,
      List.nil_append, List.take_succ_cons, List.take_zero, List.drop_succ_cons, List.drop_zero,
      u16OfBytes, Option.bind_eq_bind, Option.bind_some, Option.some.injEq, Prod.mk.injEq]
    norm_num at h1 h2 h3 ⊢
    omega
  · rw [if_neg (by decide), indexBytesOf_four]
    simp only [bytesOfU32, List.flatMap_cons, List.flatMap_nil, List.append_nil, List.cons_append,
      List.nil_append, List.take_succ_cons, List.take_zero, List.drop_succ_cons, List.drop_zero,
      u32OfBytes, Option.bind_eq_bind, Option.bind_some, Option.some.injEq, Prod.mk.injEq]
    norm_num at h1 h2 h3 ⊢
    omega

/-- Reading triangle `i` from an array that holds `ts` gives `ts[i]`, for both index widths. -/
theorem C40_read_triangle (w : Nat) (hw : w = 2 ∨ w = 4) (ts : List Tri)
    (h : ∀ t ∈ ts, TriFits w t) (i : Nat) (hi : i < ts.length) :
    readTri i w (indexBytesOf w ts) = some ts[i] := by
  have e : ts = ts.take i ++ ts[i] :: ts.drop (i + 1) := by
    simp
  have := readTri_one w hw (ts.take i) (ts.drop (i + 1)) ts[i] (h _ (List.getElem_mem hi))
  rw [← e, List.length_take, Nat.min_eq_left (Nat.le_of_lt hi)] at this
  exact this

/-- Writing triangle `i` replaces that triangle and nothing else, and the array keeps its size. -/
theorem C40_write_triangle (w : Nat) (hw : w = 2 ∨ w = 4) (ts : List Tri) (t : Tri) (i : Nat)
    (hi : i < ts.length) :
    writeTri i w t (indexBytesOf w ts) = some (indexBytesOf w (ts.set i t)) := by
  have hlen : ∀ n, n ≤ ts.length → (indexBytesOf w (ts.take n)).length = n * 3 * w := by
    intro n hn; rw [length_indexBytesOf, List.length_take, Nat.min_eq_left hn]; ring
  have split : ∀ n, n ≤ ts.length → (indexBytesOf w ts).take (n * 3 * w) = indexBytesOf w (ts.take n) ∧
      (indexBytesOf w ts).drop (n * 3 * w) = indexBytesOf w (ts.drop n) := by
    intro n hn
    have e : indexBytesOf w ts = indexBytesOf w (ts.take n) ++ indexBytesOf w (ts.drop n) := by
      rw [← indexBytesOf_append, List.take_append_drop]
    constructor
    · rw [e, List.take_left' (hlen n hn)]
    · rw [e, List.drop_left' (hlen n hn)]
  unfold writeTri
  simp only
  have hs : i * 3 * w + 3 * w = (i + 1) * 3 * w := by ring
  rw [hs, if_pos (by
    rw [length_indexBytesOf, show ts.length * (3 * w) = ts.length * 3 * w by ring]
    exact Nat.mul_le_mul_right _ (Nat.mul_le_mul_right _ hi))]
  rw [(split i (Nat.le_of_lt hi)).1, (split (i + 1) hi).2, bytesOfTri_eq w hw,
    ← indexBytesOf_append, ← indexBytesOf_append]
  rw [List.set_eq_take_append_cons_drop, if_pos hi]
  simp

/-- Writing then reading, at any two positions. -/
theorem C40_write_then_read (w : Nat) (hw : w = 2 ∨ w = 4) (ts : List Tri)
    (h : ∀ t ∈ ts, TriFits w t) (t : Tri) (ht : TriFits w t) (i j : Nat) (hi : i < ts.length)
    (hj : j < ts.length) :
    (writeTri i w t (indexBytesOf w ts)).bind (readTri j w) =
      some (if i = j then t else ts[j]) := by
  rw [C40_write_triangle w hw ts t i hi, Option.bind_some, C40_read_triangle w hw]
  · rw [List.getElem_set]
  · intro u hu
    rcases List.mem_or_eq_of_mem_set hu with h' | rfl
    · exact h u h'
    · exact ht
  · simpa using hj

example : TriFits 2 (65535, 0, 256) := by unfold TriFits; decide

/-! ## Partitions -/

theorem readTris_eq (w : Nat) (hw : w = 2 ∨ w = 4) (ts : List Tri) (h : ∀ t ∈ ts, TriFits w t) :
    ∀ n, n ≤ ts.length → readTris w (indexBytesOf w ts) n = some (ts.take n) := by
  intro n
  induction n with
  | zero => intro _; simp [readTris]
  | succ n ih =>
    intro hn
    rw [readTris]
    rw [ih (by omega), C40_read_triangle w hw ts h n hn]
    rw [List.take_succ_eq_append_getElem hn]; rfl

/-- The map knows exactly the position of each vertex of the current partition. -/
def MapOk (s : PState) : Prop := ∀ v i, s.map.lookup v = some i ↔ s.cur.vertices[i]? = some v

structure AddVertexFacts (s s' : PState) (v i : Nat) : Prop where
  done : s'.done = s.done
  tris : s'.cur.triangles = s.cur.triangles
  map : MapOk s'
  nodup : s'.cur.vertices.Nodup
  here : s'.cur.vertices[i]? = some v
  keep : ∀ (j u : Nat), s.cur.vertices[j]? = some u → s'.cur.vertices[j]? = some u
  new : ∀ u ∈ s'.cur.vertices, u ∈ s.cur.vertices ∨ u = v
  len : s'.cur.vertices.length ≤ s.cur.vertices.length + if (s.map.lookup v).isNone then 1 else 0
  known : ∀ u, (s'.map.lookup u).isNone → (s.map.lookup u).isNone

theorem addVertex_facts (s : PState) (v : Nat) (hm : MapOk s) (hn : s.cur.vertices.Nodup) :
    AddVertexFacts s (addVertex s v).1 v (addVertex s v).2 := by
  unfold addVertex
  cases hl : s.map.lookup v with
  | some i =>
    exact ⟨rfl, rfl, hm, hn, (hm v i).1 hl, fun _ _ h => h, fun u h => Or.inl h, by simp, fun _ h => h⟩
  | none =>
    have hnot : v ∉ s.cur.vertices := by
      intro hmem
      obtain ⟨i, hi⟩ := List.mem_iff_getElem?.1 hmem
      have := (hm v i).2 hi
      rw [hl] at this; cases this
    refine ⟨rfl, rfl, ?_, ?_, ?_, ?_, ?_, ?_, ?_⟩
    · intro u i
      simp only [List.lookup_cons]
      by_cases hu : u = v
      · subst hu
        simp only [beq_self_eq_true]
        constructor
        · rintro ⟨rfl⟩; simp
        · intro h
          rw [List.getElem?_append] at h
          split at h
          · exact absurd (List.mem_of_getElem? h) hnot
          · rename_i hge
            have hlt := (List.getElem?_eq_some_iff.1 h).1
            simp at hlt
            congr 1; omega
      · rw [show (u == v) = false by simp [hu]]
        simp only
        rw [hm u i]
        constructor
        · intro h
          rw [List.getElem?_append_left (List.getElem?_eq_some_iff.1 h).1]; exact h
        · intro h
          rw [List.getElem?_append] at h
          split at h
          · exact h
          · have := List.mem_of_getElem? h
            simp at this; exact absurd this hu
    · simp only
      rw [List.nodup_append]
      refine ⟨hn, by simp, ?_⟩
      intro a ha b hb; simp at hb; subst hb
      rintro rfl; exact hnot ha
    · simp
    · intro j u h
      simp only
      rw [List.getElem?_append_left (List.getElem?_eq_some_iff.1 h).1]; exact h
    · intro u hu; simpa using hu
    · simp [hl]
    · intro u hu
      simp only [List.lookup_cons] at hu
      split at hu
      · simp at hu
      · exact hu

/-- What a finished partition satisfies. -/
structure Good (max : Nat) (p : PartitionInfo) : Prop where
  small : p.vertices.length ≤ max
  nodup : p.vertices.Nodup
  used : ∀ v ∈ p.vertices, ∃ t ∈ p.triangles, Refers p.vertices t v
  valid : ∀ t ∈ p.triangles, t.1 < p.vertices.length ∧ t.2.1 < p.vertices.length ∧
    t.2.2 < p.vertices.length

structure Inv (max : Nat) (s : PState) (ts : List Tri) : Prop where
  done : ∀ p ∈ s.done, Good max p ∧ p.triangles ≠ []
  cur : Good max s.cur
  map : MapOk s
  tris : (s.done ++ [s.cur]).flatMap (fun p => p.triangles.map (lift p.vertices)) = ts.map whole
  first : s.cur.triangles = [] → s.done = []

theorem good_empty (max : Nat) : Good max {} := ⟨by simp, by simp, by simp, by simp⟩

theorem mapOk_empty (done : List PartitionInfo) : MapOk { done := done, cur := {}, map := [] } := by
  intro v i; simp

theorem maybeSplit_eq {max : Nat} (hmax : 3 ≤ max) (hmax' : max < 2 ^ 64) (s : PState) (t : Tri) :
    maybeSplit max s t = if s.cur.vertices.length > max - 3 then
      if s.cur.vertices.length +
          ([t.1, t.2.1, t.2.2].filter fun v => (s.map.lookup v).isNone).length > max then
      { done := s.done ++ [s.cur], cur := {}, map := [] }
    else s
  else s := by
  have hsub : (max + 2 ^ 64 - 3) % 2 ^ 64 = max - 3 := by
    rw [show max + 2 ^ 64 - 3 = max - 3 + 2 ^ 64 by omega, Nat.add_mod_right,
      Nat.mod_eq_of_lt (by omega)]
  simp only [maybeSplit, hsub]

/-- After `maybeSplit` the new vertices fit. -/
theorem maybeSplit_facts {max : Nat} (hmax : 3 ≤ max) (hmax' : max < 2 ^ 64) (s : PState) (t : Tri)
    (ts : List Tri) (h : Inv max s ts) :
    ∀ s', s' = maybeSplit max s t → (∀ p ∈ s'.done, Good max p ∧ p.triangles ≠ []) ∧ Good max s'.cur ∧ MapOk s' ∧
    (s'.done ++ [s'.cur]).flatMap (fun p => p.triangles.map (lift p.vertices)) = ts.map whole ∧
    s'.cur.vertices.length +
      ([t.1, t.2.1, t.2.2].filter fun v => (s'.map.lookup v).isNone).length ≤ max := by
  have h3 : ∀ (m : List (Nat × Nat)),
      ([t.1, t.2.1, t.2.2].filter fun v => (m.lookup v).isNone).length ≤ 3 :=
    fun m => List.length_filter_le _ _
  intro s' hs'
  rw [maybeSplit_eq hmax hmax'] at hs'
  by_cases h1 : s.cur.vertices.length > max - 3
  · rw [if_pos h1] at hs'
    by_cases h2 : s.cur.vertices.length +
        ([t.1, t.2.1, t.2.2].filter fun v => (s.map.lookup v).isNone).length > max
    · rw [if_pos h2] at hs'
      subst hs'
      refine ⟨?_, good_empty max, mapOk_empty _, ?_, ?_⟩
      · intro p hp
        simp only [List.mem_append, List.mem_singleton] at hp
        rcases hp with hp | rfl
        · exact h.done p hp
        · refine ⟨h.cur, ?_⟩
          intro he
          have hv : s.cur.vertices ≠ [] := by
            intro hv; rw [hv] at h1; simp at h1
          obtain ⟨v, hv⟩ := List.exists_mem_of_ne_nil _ hv
          obtain ⟨t', ht', -⟩ := h.cur.used v hv
          rw [he] at ht'; cases ht'
      · have := h.tris
        simpa using this
      · have := h3 []
        simp only [List.length_nil, Nat.zero_add]
        omega
    · rw [if_neg h2] at hs'
      subst hs'
      exact ⟨h.done, h.cur, h.map, h.tris, by omega⟩
  · rw [if_neg h1] at hs'
    subst hs'
    have := h3 s'.map
    exact ⟨h.done, h.cur, h.map, h.tris, by omega⟩

theorem length_filter3 (p : Nat → Bool) (a b c : Nat) : ([a, b, c].filter p).length =
    (if p a then 1 else 0) + (if p b then 1 else 0) + (if p c then 1 else 0) := by
  simp only [List.filter_cons, List.filter_nil]
  split <;> split <;> split <;> rfl

theorem addCorners_inv {max : Nat} (s0 : PState) (t : Tri) (ts : List Tri)
    (d0 : ∀ p ∈ s0.done, Good max p ∧ p.triangles ≠ []) (g0 : Good max s0.cur) (m0 : MapOk s0)
    (t0 : (s0.done ++ [s0.cur]).flatMap (fun p => p.triangles.map (lift p.vertices)) =
      ts.map whole)
    (l0 : s0.cur.vertices.length +
      ([t.1, t.2.1, t.2.2].filter fun v => (s0.map.lookup v).isNone).length ≤ max) :
    Inv max (addCorners s0 t) (ts ++ [t]) := by
  obtain ⟨x, y, z⟩ := t
  unfold addCorners
  simp only at l0 ⊢
  have A1 := addVertex_facts s0 x m0 g0.nodup
  generalize addVertex s0 x = r1 at *
  obtain ⟨s1, a⟩ := r1
  simp only at A1 ⊢
  have A2 := addVertex_facts s1 y A1.map A1.nodup
  generalize addVertex s1 y = r2 at *
  obtain ⟨s2, b⟩ := r2
  simp only at A2 ⊢
  have A3 := addVertex_facts s2 z A2.map A2.nodup
  generalize addVertex s2 z = r3 at *
  obtain ⟨s3, c⟩ := r3
  simp only at A3 ⊢
  have ha : s3.cur.vertices[a]? = some x := A3.keep _ _ (A2.keep _ _ A1.here)
  have hb : s3.cur.vertices[b]? = some y := A3.keep _ _ A2.here
  have hc := A3.here
  have keep : ∀ (j u : Nat), s0.cur.vertices[j]? = some u → s3.cur.vertices[j]? = some u :=
    fun j u h => A3.keep _ _ (A2.keep _ _ (A1.keep _ _ h))
  have htr : s3.cur.triangles = s0.cur.triangles := by rw [A3.tris, A2.tris, A1.tris]
  have hdone : s3.done = s0.done := by rw [A3.done, A2.done, A1.done]
  have hlift : s0.cur.triangles.map (lift s3.cur.vertices) =
      s0.cur.triangles.map (lift s0.cur.vertices) := by
    apply List.map_congr_left
    intro t ht
    obtain ⟨v1, v2, v3⟩ := g0.valid t ht
    have k : ∀ j : Nat, j < s0.cur.vertices.length → s3.cur.vertices[j]? = s0.cur.vertices[j]? := by
      intro j hj
      rw [List.getElem?_eq_getElem hj]
      exact keep j _ (List.getElem?_eq_getElem hj)
    simp only [lift, k _ v1, k _ v2, k _ v3]
  have hlen : s3.cur.vertices.length ≤ max := by
    have l1 := A1.len
    have l2 := A2.len
    have l3 := A3.len
    have e2 : (if (s1.map.lookup y).isNone then 1 else 0) ≤
        (if (s0.map.lookup y).isNone then 1 else 0) := by
      by_cases hh : (s1.map.lookup y).isNone
      · rw [if_pos hh, if_pos (A1.known y hh)]
      · rw [if_neg hh]; omega
    have e3 : (if (s2.map.lookup z).isNone then 1 else 0) ≤
        (if (s0.map.lookup z).isNone then 1 else 0) := by
      by_cases hh : (s2.map.lookup z).isNone
      · rw [if_pos hh, if_pos (A1.known z (A2.known z hh))]
      · rw [if_neg hh]; omega
    rw [length_filter3] at l0
    omega
  have hl0 : s0.cur.vertices.length ≤ s3.cur.vertices.length := by
    by_contra hlt
    have hlt : s3.cur.vertices.length < s0.cur.vertices.length := by omega
    have := keep _ _ (List.getElem?_eq_getElem hlt)
    rw [List.getElem?_eq_none (Nat.le_refl _)] at this; cases this
  refine ⟨?_, ⟨hlen, A3.nodup, ?_, ?_⟩, A3.map, ?_, ?_⟩
  · intro p hp
    simp only [hdone] at hp
    exact d0 p hp
  · intro v hv
    simp only at hv ⊢
    have newv : v ∈ s0.cur.vertices ∨ v = x ∨ v = y ∨ v = z := by
      rcases A3.new v hv with h3 | h3
      · rcases A2.new v h3 with h2 | h2
        · rcases A1.new v h2 with h1 | h1
          · exact Or.inl h1
          · exact Or.inr (Or.inl h1)
        · exact Or.inr (Or.inr (Or.inl h2))
      · exact Or.inr (Or.inr (Or.inr h3))
    rcases newv with hold | hnew
    · obtain ⟨t, ht, hr⟩ := g0.used v hold
      refine ⟨t, by rw [htr]; simp [ht], ?_⟩
      rcases hr with hr | hr | hr
      · exact Or.inl (keep _ _ hr)
      · exact Or.inr (Or.inl (keep _ _ hr))
      · exact Or.inr (Or.inr (keep _ _ hr))
    · refine ⟨(a, b, c), by simp, ?_⟩
      rcases hnew with rfl | rfl | rfl
      · exact Or.inl ha
      · exact Or.inr (Or.inl hb)
      · exact Or.inr (Or.inr hc)
  · intro t ht
    simp only [htr, List.mem_append, List.mem_singleton] at ht ⊢
    rcases ht with ht | rfl
    · obtain ⟨v1, v2, v3⟩ := g0.valid t ht
      omega
    · exact ⟨(List.getElem?_eq_some_iff.1 ha).1, (List.getElem?_eq_some_iff.1 hb).1,
        (List.getElem?_eq_some_iff.1 hc).1⟩
  · simp only [hdone, htr, List.flatMap_append, List.flatMap_cons, List.flatMap_nil, List.append_nil,
      List.map_append, List.map_cons, List.map_nil] at t0 ⊢
    rw [hlift, ← List.append_assoc, t0]
    simp [lift, ha, hb, hc, whole]
  · simp

theorem addTriangle_inv {max : Nat} (hmax : 3 ≤ max) (hmax' : max < 2 ^ 64) (s : PState) (t : Tri)
    (ts : List Tri) (h : Inv max s ts) : Inv max (addTriangle max s t) (ts ++ [t]) := by
  rw [addTriangle]
  obtain ⟨d0, g0, m0, t0, l0⟩ := maybeSplit_facts hmax hmax' s t ts h _ rfl
  exact addCorners_inv _ t ts d0 g0 m0 t0 l0

theorem fold_inv {max : Nat} (hmax : 3 ≤ max) (hmax' : max < 2 ^ 64) (more : List Tri) :
    ∀ (s : PState) (ts : List Tri), Inv max s ts →
      Inv max (more.foldl (addTriangle max) s) (ts ++ more) := by
  induction more with
  | nil => intro s ts h; simpa using h
  | cons t more ih =>
    intro s ts h
    have := ih _ _ (addTriangle_inv hmax hmax' s t ts h)
    simpa using this

/-- Partitioning the triangles `ts` of a mesh, stored with 16- or 32-bit indices, for any limit of at
least three vertices per partition:
* no partition has more than `max` vertices, and none lists a vertex twice or lists a vertex that none
  of its triangles refers to;
* the triangles of all partitions, one after the other and with their indices mapped back to the
  vertices of the whole mesh, are `ts`;
* no partition is empty unless there are no triangles at all. -/
theorem C14_partition (ts : List Tri) (ixf : IndexFormat) (max : Nat)
    (hts : ∀ t ∈ ts, TriFits (indexBytes ixf) t) (hn : ts.length < 2 ^ 32)
    (hmax : 3 ≤ max) (hmax' : max < 2 ^ 64) :
    ∃ ps, partitionTriangles (indexBytesOf (indexBytes ixf) ts) ixf max = some ps ∧
      (∀ p ∈ ps, p.vertices.length ≤ max ∧ p.vertices.Nodup ∧
        (∀ v ∈ p.vertices, ∃ t ∈ p.triangles, Refers p.vertices t v)) ∧
      ps.flatMap (fun p => p.triangles.map (lift p.vertices)) = ts.map whole ∧
      (ts ≠ [] → ∀ p ∈ ps, p.triangles ≠ []) ∧ (ts = [] → ps = [{}]) := by
  have hw : unpackedIndexSize ixf = indexBytes ixf := by cases ixf <;> rfl
  have hw' : indexBytes ixf = 2 ∨ indexBytes ixf = 4 := by cases ixf <;> simp [indexBytes]
  have hcount : (indexBytesOf (indexBytes ixf) ts).length / indexBytes ixf / 3 % 2 ^ 32 =
      ts.length := by
    rw [length_indexBytesOf]
    rcases hw' with e | e <;> rw [e] <;> omega
  have init : Inv max {} [] := by
    refine ⟨by simp, good_empty max, mapOk_empty [], by simp, by simp⟩
  have I := fold_inv hmax hmax' ts {} [] init
  rw [List.nil_append] at I
  refine ⟨_, ?_, ?_, I.tris, ?_, ?_⟩
  · unfold partitionTriangles
    simp only [hw, hcount]
    rw [readTris_eq _ hw' ts hts ts.length (Nat.le_refl _), List.take_length]
    rfl
  · intro p hp
    simp only [List.mem_append, List.mem_singleton] at hp
    rcases hp with hp | rfl
    · have := (I.done p hp).1; exact ⟨this.small, this.nodup, this.used⟩
    · exact ⟨I.cur.small, I.cur.nodup, I.cur.used⟩
  · intro hne p hp
    simp only [List.mem_append, List.mem_singleton] at hp
    rcases hp with hp | rfl
    · exact (I.done p hp).2
    · intro he
      have hd := I.first he
      have := I.tris
      rw [hd] at this
      simp [he] at this
      exact hne this
  · rintro rfl; rfl

/-- A limit of four splits three triangles into two partitions. -/
example : partitionTriangles (indexBytesOf 2 [(0, 1, 2), (0, 2, 3), (3, 4, 5)]) .unpacked16 4 =
    some [⟨[0, 1, 2, 3], [(0, 1, 2), (0, 2, 3)]⟩, ⟨[3, 4, 5], [(0, 1, 2)]⟩] := by decide +kernel

/-- The limit must be at least three: with two, the subtraction `max - 3` wraps, no split ever
happens and the partition has more vertices than allowed. -/
theorem C14_small_limit_counterexample :
    ∃ ts p, (∀ t ∈ ts, TriFits 2 t) ∧
      partitionTriangles (indexBytesOf 2 ts) .unpacked16 2 = some [p] ∧ p.vertices.length > 2 := by
  refine ⟨[(0, 1, 2), (3, 4, 5)], ⟨[0, 1, 2, 3, 4, 5], [(0, 1, 2), (3, 4, 5)]⟩, ?_, ?_, ?_⟩
  · unfold TriFits; decide
  · decide +kernel
  · decide

end Verif.Mesh
