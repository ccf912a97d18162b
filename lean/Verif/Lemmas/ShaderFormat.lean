import Verif.Lemmas.Shader

/-!
# Finding the attributes and reading them
-/

set_option autoImplicit false

namespace Verif.Shader

open Verif Verif.F32 Verif.Mesh Verif.Mesh.Spec Verif.Shader.Spec

/-! ## Indices of attributes -/

/-- The index for an identifier. -/
def Indices.get (x : Indices) (id : AttrId) : Option Nat :=
  if id = 0 then x.position
  else if id = 2 then x.opacityShift
  else if id = 1 then x.hslShift
  else if id = 4 then x.sideDerivative
  else if id = 5 then x.sideLabel
  else if id = 6 then x.forwardDerivative
  else if id = 7 then x.forwardLabel
  else if id = 8 then x.surfaceUv
  else none

/-- The identifiers of attributes of strokes. -/
def strokeIds : List AttrId := [0, 1, 2, 4, 5, 6, 7, 8]

theorem addIndex_get (x : Indices) (id i id' : Nat) (h : id' ∈ strokeIds) :
    (addIndex x id i).get id' = if id = id' then some i else x.get id' := by
  simp only [strokeIds, List.mem_cons, List.not_mem_nil, or_false] at h
  unfold addIndex
  by_cases e : id = id'
  · subst e
    rw [if_pos rfl]
    rcases h with rfl | rfl | rfl | rfl | rfl | rfl | rfl | rfl <;> simp [Indices.get]
  · rw [if_neg e]
    rcases h with rfl | rfl | rfl | rfl | rfl | rfl | rfl | rfl <;>
      (split_ifs <;> first | rfl | omega)

theorem indicesFrom_get : ∀ (as : List Attribute) (n : Nat) (x : Indices) (id : AttrId),
    (as.map (·.id)).Nodup → id ∈ strokeIds →
    (indicesFrom n as x).get id = ((as.findIdx? fun a => a.id = id).map (n + ·)).or (x.get id)
  | [], _, _, _, _, _ => rfl
  | a :: as, n, x, id, hn, h => by
    simp only [List.map_cons, List.nodup_cons] at hn
    rw [indicesFrom, indicesFrom_get as (n + 1) _ id hn.2 h, addIndex_get _ _ _ _ h, List.findIdx?_cons]
    by_cases e : a.id = id
    · have : as.findIdx? (fun a => a.id = id) = none := by
        rw [List.findIdx?_eq_none_iff]
        intro b hb
        have : b.id ≠ a.id := fun hh => hn.1 (hh ▸ List.mem_map.2 ⟨b, hb, rfl⟩)
        simp [← e, this]
      rw [this]
      simp [e]
    · simp only [e, if_false, decide_false, Bool.false_eq_true, Option.map_map]
      congr 2
      funext k
      simp only [Function.comp]
      omega

theorem findIndices_get (f : MeshFormat) (hn : (f.attributes.map (·.id)).Nodup) (id : AttrId)
    (h : id ∈ strokeIds) : (findIndices f).get id = f.attributes.findIdx? fun a => a.id = id := by
  unfold findIndices
  rw [indicesFrom_get _ _ _ _ hn h]
  have : (({} : Indices).get id) = none := by
    simp only [strokeIds, List.mem_cons, List.not_mem_nil, or_false] at h
    rcases h with rfl | rfl | rfl | rfl | rfl | rfl | rfl | rfl <;> rfl
  rw [this]
  simp

theorem findIdx_of {as : List Attribute} (hn : (as.map (·.id)).Nodup) {j : Nat} {a : Attribute}
    (h : as[j]? = some a) : as.findIdx? (fun b => b.id = a.id) = some j := by
  obtain ⟨hj, rfl⟩ := List.getElem?_eq_some_iff.1 h
  rw [List.findIdx?_eq_some_iff_getElem]
  refine ⟨hj, by simp, fun k hk => ?_⟩
  simp only [decide_eq_true_eq]
  intro e
  have h1 : (as.map (·.id))[k]'(by simp; omega) = (as.map (·.id))[j]'(by simpa using hj) := by
    simpa using e
  have := (List.Nodup.getElem_inj_iff hn).1 h1
  omega

theorem of_findIdx {as : List Attribute} {id : AttrId} {j : Nat}
    (h : as.findIdx? (fun b => b.id = id) = some j) : ∃ a, as[j]? = some a ∧ a.id = id := by
  rw [List.findIdx?_eq_some_iff_getElem] at h
  obtain ⟨hj, h, -⟩ := h
  exact ⟨_, List.getElem?_eq_getElem hj, by simpa using h⟩

theorem valueOf_eq {m : Mesh} (hn : (m.format.attributes.map (·.id)).Nodup) {j : Nat} {a : Attribute}
    (h : m.format.attributes[j]? = some a) (i : Nat) :
    valueOf m i a.id = m.floatVertexAttribute i j := by
  unfold valueOf
  rw [findIdx_of hn h]
  rfl

/-! ## The specification -/

/-- The attribute for a pair. -/
structure PairAt (kind : AttrType → AttrType → Option Kind) (as : List Attribute) (p q : AttrId) (A : Attr)
    (j : Nat) (a b : Attribute) : Prop where
  fst : as[j]? = some a
  snd : as[j + 1]? = some b
  id1 : a.id = p
  id2 : b.id = q
  kind : kind a.type b.type = some A.kind
  offset : A.offset = a.packedOffset

theorem pairAttr_eq {kind : AttrType → AttrType → Option Kind} {as : List Attribute} {p q : AttrId}
    {A : Attr} (h : pairAttr kind as (as.findIdx? fun a => a.id = p) (as.findIdx? fun a => a.id = q) = some A) :
    ∃ j a b, PairAt kind as p q A j a b := by
  unfold pairAttr at h
  simp only [Option.bind_eq_bind, Option.bind_eq_some_iff] at h
  obtain ⟨i, h1, j, h2, h⟩ := h
  split at h
  · cases h
  · rename_i hij
    push Not at hij
    subst hij
    simp only [Option.bind_eq_some_iff, Option.some.injEq] at h
    obtain ⟨a, ha, b, hb, k, hk, rfl⟩ := h
    obtain ⟨a', ha', e1⟩ := of_findIdx h1
    obtain ⟨b', hb', e2⟩ := of_findIdx h2
    rw [ha] at ha'
    rw [hb] at hb'
    cases ha'
    cases hb'
    exact ⟨i, a, b, ha, hb, e1, e2, hk, rfl⟩

theorem eq_pairAttr {kind : AttrType → AttrType → Option Kind} {as : List Attribute} {p q : AttrId}
    {A : Attr} (hn : (as.map (·.id)).Nodup) {j : Nat} {a b : Attribute} (P : PairAt kind as p q A j a b) :
    pairAttr kind as (as.findIdx? fun a => a.id = p) (as.findIdx? fun a => a.id = q) = some A := by
  obtain ⟨h1, h2, rfl, rfl, h3, h4⟩ := P
  unfold pairAttr
  rw [findIdx_of hn h1, findIdx_of hn h2]
  simp only [Option.bind_eq_bind, Option.bind_some, ne_eq, not_true_eq_false, if_false, h1, h2, h3, ← h4]

theorem optionalAttr_eq {kind : AttrType → Option Kind} {as : List Attribute} {p : AttrId}
    {A : Option Attr} (h : optionalAttr kind as (as.findIdx? fun a => a.id = p) = some A) :
    (A = none ∧ ∀ a ∈ as, a.id ≠ p) ∨
    ∃ (j : Nat) (a : Attribute) (B : Attr), A = some B ∧ as[j]? = some a ∧ a.id = p ∧ kind a.type = some B.kind ∧
      B.offset = a.packedOffset := by
  cases hi : as.findIdx? fun a => a.id = p with
  | none =>
    rw [hi] at h
    simp only [optionalAttr, Option.some.injEq] at h
    refine Or.inl ⟨h.symm, ?_⟩
    rw [List.findIdx?_eq_none_iff] at hi
    intro a ha
    simpa using hi a ha
  | some i =>
    rw [hi] at h
    simp only [optionalAttr, Option.bind_eq_bind, Option.bind_eq_some_iff, Option.some.injEq] at h
    obtain ⟨a, ha, k, hk, rfl⟩ := h
    obtain ⟨a', ha', e1⟩ := of_findIdx hi
    rw [ha] at ha'
    cases ha'
    exact Or.inr ⟨i, a, _, rfl, ha, e1, hk, rfl⟩

theorem createForStroke_eq {f : MeshFormat} (hn : (f.attributes.map (·.id)).Nodup) :
    createForStroke f =
      (pairAttr positionAndOpacityKind f.attributes (f.attributes.findIdx? fun a => a.id = 0)
        (f.attributes.findIdx? fun a => a.id = 2)).bind fun p =>
      (optionalAttr hslKind f.attributes (f.attributes.findIdx? fun a => a.id = 1)).bind fun h =>
      (pairAttr derivativeAndLabelKind f.attributes (f.attributes.findIdx? fun a => a.id = 4)
        (f.attributes.findIdx? fun a => a.id = 5)).bind fun s =>
      (pairAttr derivativeAndLabelKind f.attributes (f.attributes.findIdx? fun a => a.id = 6)
        (f.attributes.findIdx? fun a => a.id = 7)).bind fun w =>
      (optionalAttr surfaceUvKind f.attributes (f.attributes.findIdx? fun a => a.id = 8)).bind fun u =>
      some { positionAndOpacity := p, hsl := h, side := s, forward := w, uv := u,
             stride := f.packedStride } := by
  have g : ∀ id ∈ strokeIds, (findIndices f).get id = f.attributes.findIdx? fun a => a.id = id :=
    fun id h => findIndices_get f hn id h
  have g0 : (findIndices f).position = _ := g 0 (by decide)
  have g1 : (findIndices f).hslShift = _ := g 1 (by decide)
  have g2 : (findIndices f).opacityShift = _ := g 2 (by decide)
  have g4 : (findIndices f).sideDerivative = _ := g 4 (by decide)
  have g5 : (findIndices f).sideLabel = _ := g 5 (by decide)
  have g6 : (findIndices f).forwardDerivative = _ := g 6 (by decide)
  have g7 : (findIndices f).forwardLabel = _ := g 7 (by decide)
  have g8 : (findIndices f).surfaceUv = _ := g 8 (by decide)
  unfold createForStroke
  simp only [Option.bind_eq_bind, g0, g1, g2, g4, g5, g6, g7, g8]

/-! ## Reading -/

theorem readBytes_append {off m n : Nat} {d x y : List Nat} (h1 : readBytes off m d = some x)
    (h2 : readBytes (off + m) n d = some y) : readBytes off (m + n) d = some (x ++ y) := by
  unfold readBytes at *
  split at h1
  · split at h2
    · rw [if_pos (by omega)]
      cases h1
      cases h2
      rw [List.take_add, List.drop_drop]
    · cases h2
  · cases h1

theorem packed_read {m : Mesh} {i j : Nat} {a : Attribute} (ha : m.format.attributes[j]? = some a)
    {bs : List Nat} (h : m.packedVertexAttribute i j = some bs) :
    readBytes (i * m.format.packedStride + a.packedOffset) a.packedWidth m.vertexData = some bs := by
  unfold Mesh.packedVertexAttribute at h
  rw [ha] at h
  exact h

theorem readBytes_length {off n : Nat} {d x : List Nat} (h : readBytes off n d = some x) : x.length = n := by
  unfold readBytes at h
  split at h
  · cases h
    rw [List.length_take, List.length_drop]
    omega
  · cases h

theorem next_offset {attrs : List (AttrType × AttrId)} {f : MeshFormat} (F : Fmt attrs f) {j : Nat}
    {a b : Attribute} (ha : f.attributes[j]? = some a) (hb : f.attributes[j + 1]? = some b) :
    b.packedOffset = a.packedOffset + a.packedWidth := by
  rw [F.off _ _ ha, F.off _ _ hb, F.width a (List.mem_of_getElem? ha), List.take_add_one, ha]
  simp

/-! ## The uniforms -/

/-- The transform for an identifier. -/
def Uniforms.get (u : Uniforms) (id : AttrId) : Option Transform :=
  if id = 0 then u.position else if id = 4 then u.side else u.forward

/-- The identifiers with a transform. -/
def uniformIds : List AttrId := [0, 4, 6]

theorem addTransform_get {u : Uniforms} {id : AttrId} {cs : Option (List Coding)}
    (h : id ∈ uniformIds → ∃ l t, cs = some l ∧ copy2D l = some t) :
    ∃ u', addTransform u id cs = some u' ∧ ∀ id' ∈ uniformIds,
      u'.get id' = if id = id' then cs.bind copy2D else u.get id' := by
  unfold addTransform
  by_cases h0 : id = 0
  · obtain ⟨l, t, rfl, ht⟩ := h (by simp [h0, uniformIds])
    subst h0
    refine ⟨{ u with position := some t }, by simp [ht], fun id' hid => ?_⟩
    simp only [uniformIds, List.mem_cons, List.not_mem_nil, or_false] at hid
    rcases hid with rfl | rfl | rfl <;> simp [Uniforms.get, ht]
  by_cases h4 : id = 4
  · obtain ⟨l, t, rfl, ht⟩ := h (by simp [h4, uniformIds])
    subst h4
    refine ⟨{ u with side := some t }, by simp [ht], fun id' hid => ?_⟩
    simp only [uniformIds, List.mem_cons, List.not_mem_nil, or_false] at hid
    rcases hid with rfl | rfl | rfl <;> simp [Uniforms.get, ht]
  by_cases h6 : id = 6
  · obtain ⟨l, t, rfl, ht⟩ := h (by simp [h6, uniformIds])
    subst h6
    refine ⟨{ u with forward := some t }, by simp [ht], fun id' hid => ?_⟩
    simp only [uniformIds, List.mem_cons, List.not_mem_nil, or_false] at hid
    rcases hid with rfl | rfl | rfl <;> simp [Uniforms.get, ht]
  · refine ⟨u, by simp [h0, h4, h6], fun id' hid => ?_⟩
    rw [if_neg]
    rintro rfl
    simp [uniformIds, h0, h4, h6] at hid

theorem transformsFrom_get (params : List (List Coding)) : ∀ (as : List Attribute) (n : Nat) (u : Uniforms),
    (as.map (·.id)).Nodup →
    (∀ (j : Nat) (a : Attribute), as[j]? = some a → a.id ∈ uniformIds →
      ∃ l t, params[n + j]? = some l ∧ copy2D l = some t) →
    ∃ u', transformsFrom params n as u = some u' ∧ ∀ id ∈ uniformIds,
      (∀ (j : Nat) (a : Attribute), as[j]? = some a → a.id = id → u'.get id = params[n + j]?.bind copy2D) ∧
      ((∀ a ∈ as, a.id ≠ id) → u'.get id = u.get id)
  | [], n, u, _, _ => ⟨u, rfl, fun _ _ => ⟨by simp, fun _ => rfl⟩⟩
  | a :: as, n, u, hn, h => by
    simp only [List.map_cons, List.nodup_cons] at hn
    obtain ⟨u1, e1, g1⟩ := addTransform_get (u := u) (id := a.id) (cs := params[n]?) (fun hid => h 0 a rfl hid)
    obtain ⟨u2, e2, g2⟩ := transformsFrom_get params as (n + 1) u1 hn.2 (by
      intro j b hb hid
      have := h (j + 1) b (by simpa using hb) hid
      rwa [show n + (j + 1) = n + 1 + j by omega] at this)
    refine ⟨u2, by simp [transformsFrom, e1, e2], fun id hid => ⟨?_, ?_⟩⟩
    · intro j b hb hbi
      cases j with
      | zero =>
        simp only [List.getElem?_cons_zero, Option.some.injEq] at hb
        subst hb
        rw [(g2 id hid).2 (fun b hb e => hn.1 (by rw [hbi, ← e]; exact List.mem_map.2 ⟨b, hb, rfl⟩)),
          g1 id hid, if_pos hbi]
        rfl
      | succ j =>
        rw [(g2 id hid).1 j b (by simpa using hb) hbi, show n + (j + 1) = n + 1 + j by omega]
    · intro hne
      rw [(g2 id hid).2 (fun b hb => hne b (by simp [hb])), g1 id hid, if_neg (hne a (by simp))]

end Verif.Shader
