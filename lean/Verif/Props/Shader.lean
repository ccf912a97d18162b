import Verif.Lemmas.ShaderStored

/-!
# C54: the shader sees the vertices of a mesh
-/

set_option autoImplicit false

namespace Verif.Shader

open Verif Verif.F32 Verif.Mesh Verif.Mesh.Spec Verif.Shader.Spec

/-! ## Formats -/

theorem nodup_ids {attrs : List (AttrType × AttrId)} {ixf : IndexFormat} {f : MeshFormat}
    (hf : create attrs ixf = some f) : (f.attributes.map (·.id)).Nodup := by
  have h := (create_eq hf).1.distinct
  rw [← (fmt_of hf).map, List.map_map] at h
  exact h

theorem adjacent_iff {attrs : List (AttrType × AttrId)} {ixf : IndexFormat} {f : MeshFormat}
    (hf : create attrs ixf = some f) {kind : AttrType → AttrType → Option Kind}
    {types : List (AttrType × AttrType)} (hk : ∀ s t, (kind s t).isSome ↔ (s, t) ∈ types) (p q : AttrId) :
    (∃ A, pairAttr kind f.attributes (f.attributes.findIdx? fun a => a.id = p)
      (f.attributes.findIdx? fun a => a.id = q) = some A) ↔ Adjacent attrs p q types := by
  have F := fmt_of hf
  constructor
  · rintro ⟨A, h⟩
    obtain ⟨j, a, b, ha, hb, rfl, rfl, k, -⟩ := pairAttr_eq h
    exact ⟨j, a.type, b.type, attr_at F ha, attr_at F hb, (hk _ _).1 (by rw [k]; rfl)⟩
  · rintro ⟨j, s, t, h1, h2, h3⟩
    rw [← F.map, List.getElem?_map, Option.map_eq_some_iff] at h1 h2
    obtain ⟨a, ha, e1⟩ := h1
    obtain ⟨b, hb, e2⟩ := h2
    cases e1
    cases e2
    obtain ⟨k, e3⟩ := Option.isSome_iff_exists.1 ((hk _ _).2 h3)
    exact ⟨⟨k, a.packedOffset⟩, eq_pairAttr (nodup_ids hf) ⟨ha, hb, rfl, rfl, e3, rfl⟩⟩

theorem ofType_iff {attrs : List (AttrType × AttrId)} {ixf : IndexFormat} {f : MeshFormat}
    (hf : create attrs ixf = some f) {kind : AttrType → Option Kind}
    {types : List AttrType} (hk : ∀ t, (kind t).isSome ↔ t ∈ types) (p : AttrId) :
    (∃ A, optionalAttr kind f.attributes (f.attributes.findIdx? fun a => a.id = p) = some A) ↔
      OfType attrs p types := by
  have F := fmt_of hf
  constructor
  · rintro ⟨A, h⟩ t ht
    rw [← F.map] at ht
    obtain ⟨a', ha', e⟩ := List.mem_map.1 ht
    cases e
    rcases optionalAttr_eq h with ⟨-, h⟩ | ⟨j, a, B, -, ha, hid, hkd, -⟩
    · exact absurd rfl (h a' ha')
    · obtain ⟨j', hj'⟩ := List.mem_iff_getElem?.1 ha'
      have e1 := findIdx_of (nodup_ids hf) hj'
      have e2 := findIdx_of (nodup_ids hf) ha
      rw [hid, e1] at e2
      cases e2
      rw [hj'] at ha
      cases ha
      exact (hk _).1 (by rw [hkd]; rfl)
  · intro h
    cases hi : f.attributes.findIdx? fun a => a.id = p with
    | none => exact ⟨none, rfl⟩
    | some i =>
      obtain ⟨a, ha, hid⟩ := of_findIdx hi
      have : a.type ∈ types := h a.type (by
        rw [← F.map, ← hid]
        exact List.mem_map.2 ⟨a, List.mem_of_getElem? ha, rfl⟩)
      obtain ⟨k, e3⟩ := Option.isSome_iff_exists.1 ((hk _).2 this)
      exact ⟨some ⟨k, a.packedOffset⟩, by simp [optionalAttr, ha, e3]⟩

/-- C54: a mesh format is accepted for drawing exactly if it is one of the supported ones. -/
theorem C54_accepts_iff {attrs : List (AttrType × AttrId)} {ixf : IndexFormat} {f : MeshFormat}
    (hf : create attrs ixf = some f) : (createForStroke f).isSome ↔ Supported attrs := by
  have k1 : ∀ s t, (positionAndOpacityKind s t).isSome ↔
      (s, t) ∈ [(AttrType.f2In1Float, AttrType.f1Unpacked), (AttrType.f2In3Bytes, AttrType.f1In1Byte)] := by
    intro s t
    cases s <;> cases t <;> simp [positionAndOpacityKind]
  have k2 : ∀ s t, (derivativeAndLabelKind s t).isSome ↔
      (s, t) ∈ [(AttrType.f2Unpacked, AttrType.f1Unpacked), (AttrType.f2In3Bytes, AttrType.f1In1Byte)] := by
    intro s t
    cases s <;> cases t <;> simp [derivativeAndLabelKind]
  have k3 : ∀ t, (hslKind t).isSome ↔ t ∈ [AttrType.f3Unpacked, AttrType.f3In4Bytes] := by
    intro t
    cases t <;> simp [hslKind]
  have k4 : ∀ t, (surfaceUvKind t).isSome ↔ t ∈ [AttrType.f2Unpacked, AttrType.f2In4Bytes] := by
    intro t
    cases t <;> simp [surfaceUvKind]
  rw [createForStroke_eq (nodup_ids hf), Option.isSome_iff_exists]
  simp only [Option.bind_eq_some_iff, Option.some.injEq]
  constructor
  · rintro ⟨spec, p, h1, h, h2, s, h3, w, h4, u, h5, -⟩
    exact ⟨(adjacent_iff hf k1 0 2).1 ⟨p, h1⟩, (adjacent_iff hf k2 4 5).1 ⟨s, h3⟩,
      (adjacent_iff hf k2 6 7).1 ⟨w, h4⟩, (ofType_iff hf k3 1).1 ⟨h, h2⟩, (ofType_iff hf k4 8).1 ⟨u, h5⟩⟩
  · rintro ⟨h1, h2, h3, h4, h5⟩
    obtain ⟨p, h1⟩ := (adjacent_iff hf k1 0 2).2 h1
    obtain ⟨s, h2⟩ := (adjacent_iff hf k2 4 5).2 h2
    obtain ⟨w, h3⟩ := (adjacent_iff hf k2 6 7).2 h3
    obtain ⟨h, h4⟩ := (ofType_iff hf k3 1).2 h4
    obtain ⟨u, h5⟩ := (ofType_iff hf k4 8).2 h5
    exact ⟨_, p, h1, h, h4, s, h2, w, h3, u, h5, rfl⟩

/-! ## Meshes -/

theorem components_of_kind {kind : AttrType → AttrType → Option Kind} {s t : AttrType}
    (h : (kind s t).isSome) (hk : kind = positionAndOpacityKind ∨ kind = derivativeAndLabelKind) :
    components s = 2 := by
  rcases hk with rfl | rfl
  · cases s <;> cases t <;> simp [positionAndOpacityKind] at h <;> rfl
  · cases s <;> cases t <;> simp [derivativeAndLabelKind] at h <;> rfl

theorem copy2D_some {cs : List Coding} (h : cs.length = 2) : ∃ t, copy2D cs = some t := by
  obtain ⟨a, b, rfl⟩ := List.length_eq_two.1 h
  exact ⟨_, rfl⟩

/-- C54: of meshes with the same, supported format and the same parameters for positions and derivatives,
the shader sees every vertex as the accessors of the mesh do. Each attribute that the shader takes for
granted must have been packed with the parameters that are written into the shader. -/
theorem C54_drawn_partial {attrs : List (AttrType × AttrId)} {ixf : IndexFormat} {f : MeshFormat}
    (hf : create attrs ixf = some f) (hs : Supported attrs) (meshes : List Mesh)
    (hm : ∀ m ∈ meshes, m.format = f ∧ Drawable m) (hp : ∀ m ∈ meshes, ∀ m' ∈ meshes, SameParams m m')
    (k : Nat) (m : Mesh) (hk : meshes[k]? = some m) (i : Nat) (hi : i < m.vertexCount) :
    ∃ d, drawGroup unorm32 meshes k i = some d ∧ Shows m i d := by
  have F := fmt_of hf
  have hmem := List.mem_of_getElem? hk
  obtain ⟨rfl, D⟩ := hm m hmem
  have hn := nodup_ids hf
  obtain ⟨first, h0⟩ : ∃ first, meshes[0]? = some first :=
    ⟨_, List.getElem?_eq_getElem (by have := (List.getElem?_eq_some_iff.1 hk).1; omega)⟩
  have hmem0 := List.mem_of_getElem? h0
  obtain ⟨e0, D0⟩ := hm first hmem0
  obtain ⟨spec, hspec⟩ := Option.isSome_iff_exists.1 ((C54_accepts_iff hf).2 hs)
  have hspec' := hspec
  rw [createForStroke_eq hn] at hspec'
  simp only [Option.bind_eq_some_iff, Option.some.injEq] at hspec'
  obtain ⟨pa, q1, ha, q2, sa, q3, wa, q4, ua, q5, rfl⟩ := hspec'
  obtain ⟨jp, p1, p2, P⟩ := pairAttr_eq q1
  obtain ⟨js, s1, s2, S⟩ := pairAttr_eq q3
  obtain ⟨jw, w1, w2, W⟩ := pairAttr_eq q4
  have cp := components_of_kind (by rw [P.kind]; rfl) (Or.inl rfl)
  have cs := components_of_kind (by rw [S.kind]; rfl) (Or.inr rfl)
  have cw := components_of_kind (by rw [W.kind]; rfl) (Or.inr rfl)
  have two : ∀ (j : Nat) (a : Attribute), m.format.attributes[j]? = some a → a.id ∈ uniformIds →
      components a.type = 2 := by
    intro j a ha hid
    have key : ∀ {j' : Nat} {a' : Attribute}, m.format.attributes[j']? = some a' → a'.id = a.id → a' = a := by
      intro j' a' ha' e
      have e1 := findIdx_of hn ha'
      have e2 := findIdx_of hn ha
      rw [e, e2] at e1
      cases e1
      rw [ha] at ha'
      cases ha'
      rfl
    simp only [uniformIds, List.mem_cons, List.not_mem_nil, or_false] at hid
    rcases hid with h | h | h
    · rw [← key P.fst (by rw [P.id1, h])]; exact cp
    · rw [← key S.fst (by rw [S.id1, h])]; exact cs
    · rw [← key W.fst (by rw [W.id1, h])]; exact cw
  obtain ⟨u, hu, hug⟩ := transformsFrom_get first.unpackingParams first.format.attributes 0 {}
    (by rw [e0]; exact hn) (by
      intro j a ha hid
      obtain ⟨cs, hc, hl, -⟩ := D0.params j a ha (by
        simp only [uniformIds, List.mem_cons, List.not_mem_nil, or_false] at hid
        rcases hid with h | h | h <;> simp [Used, h])
      rw [e0] at ha
      rw [two j a ha hid] at hl
      obtain ⟨t, ht⟩ := copy2D_some hl
      exact ⟨cs, t, by simpa using hc, ht⟩)
  have get : ∀ {id : AttrId} {j : Nat} {a : Attribute}, id ∈ uniformIds → m.format.attributes[j]? = some a →
      a.id = id → ∃ t, u.get id = some t ∧ m.unpackingParams[j]?.bind copy2D = some t := by
    intro id j a hid ha hai
    have h1 := (hug id hid).1 j a (by rw [e0]; exact ha) hai
    obtain ⟨cs, hc, hl, -⟩ := D.params j a ha (by
      rw [hai]
      simp only [uniformIds, List.mem_cons, List.not_mem_nil, or_false] at hid
      rcases hid with h | h | h <;> simp [Used, h])
    rw [two j a ha (hai ▸ hid)] at hl
    obtain ⟨t, ht⟩ := copy2D_some hl
    have h2 := hp m hmem first hmem0 j a ha (by
      rw [hai]
      simpa only [uniformIds, List.mem_cons, List.not_mem_nil, or_false] using hid)
    rw [Nat.zero_add, ← h2, hc] at h1
    exact ⟨t, by rw [h1]; exact ht, by rw [hc]; exact ht⟩
  obtain ⟨tp, gp, gp'⟩ := get (by decide) P.fst P.id1
  obtain ⟨ts, gs, gs'⟩ := get (by decide) S.fst S.id1
  obtain ⟨tw, gw, gw'⟩ := get (by decide) W.fst W.id1
  obtain ⟨vp, px, py, po, po', a1, a2, a3, a4, a5⟩ := position_shows D F hi P gp'
  obtain ⟨vs, sx, sy, sl, b1, b2, b3, b4⟩ := derivative_shows D F hi S (Or.inl rfl) (Or.inl rfl) gs'
  obtain ⟨vw, wx, wy, wl, c1, c2, c3, c4⟩ := derivative_shows D F hi W (Or.inr rfl) (Or.inr rfl) gw'
  have none_of : ∀ id, (∀ a ∈ m.format.attributes, a.id ≠ id) → valueOf m i id = none := by
    intro id h
    unfold valueOf
    rw [List.findIdx?_eq_none_iff.2 (fun a ha => by simpa using h a ha)]
    rfl
  have hh : ∃ r, decodeOptional unorm32 m.vertexData m.format.packedStride i unpackHSLColorShift ha =
      some r ∧ (r = none → valueOf m i 1 = none) ∧
      ∀ x y z, r = some (x, y, z) → ∃ h s l, valueOf m i 1 = some [h, s, l] ∧
        Close (1 / 2 ^ 20) x h ∧ Close (1 / 2 ^ 20) y s ∧ Close (1 / 2 ^ 20) z l := by
    rcases optionalAttr_eq q2 with ⟨rfl, h⟩ | ⟨j, a, B, rfl, ha, hid, hkd, ho⟩
    · exact ⟨none, rfl, fun _ => none_of 1 h, by simp⟩
    · obtain ⟨v, x, y, z, h, s, l, d1, d2, d3, d4⟩ := hsl_shows D F hi ha hid hkd ho
      refine ⟨some (x, y, z), by simp [decodeOptional, d1, d2], by simp, ?_⟩
      intro x' y' z' e
      cases e
      refine ⟨h, s, l, ?_, d4⟩
      rw [← hid, valueOf_eq hn ha, d3]
  have huv : ∃ r, decodeOptional unorm32 m.vertexData m.format.packedStride i unpackSurfaceUv ua =
      some r ∧ (r = none → valueOf m i 8 = none) ∧
      ∀ x y, r = some (x, y) → ∃ u v, valueOf m i 8 = some [u, v] ∧
        Close (1 / 2 ^ 22) x u ∧ Close (1 / 2 ^ 22) y v := by
    rcases optionalAttr_eq q5 with ⟨rfl, h⟩ | ⟨j, a, B, rfl, ha, hid, hkd, ho⟩
    · exact ⟨none, rfl, fun _ => none_of 8 h, by simp⟩
    · obtain ⟨v, x, y, s, t, d1, d2, d3, d4⟩ := uv_shows D F hi ha hid hkd ho
      refine ⟨some (x, y), by simp [decodeOptional, d1, d2], by simp, ?_⟩
      intro x' y' e
      cases e
      refine ⟨s, t, ?_, d4⟩
      rw [← hid, valueOf_eq hn ha, d3]
  obtain ⟨rh, d1, d2, d3⟩ := hh
  obtain ⟨ru, f1, f2, f3⟩ := huv
  refine ⟨{ position := (px, py), opacityShift := po, side := (sx, sy), sideLabel := sl,
            forward := (wx, wy), forwardLabel := wl, hsl := rh, uv := ru }, ?_, ?_⟩
  · have gp1 : u.position = some tp := gp
    have gs1 : u.side = some ts := gs
    have gw1 : u.forward = some tw := gw
    unfold drawGroup
    rw [h0]
    simp only [Option.bind_eq_bind, Option.bind_some]
    rw [e0, hspec, Option.bind_some]
    unfold uniformsOf
    rw [hu, Option.bind_some, hk, Option.bind_some]
    unfold decode
    simp only [gp1, gs1, gw1, a1, a2, b1, b2, c1, c2, d1, f1, Option.bind_eq_bind, Option.bind_some]
  · refine ⟨?_, ⟨po', ?_, a5⟩, ?_, ?_, ?_, ?_, d2, d3, f2, f3⟩
    · rw [← P.id1, valueOf_eq hn P.fst, a3]
    · rw [← P.id2, valueOf_eq hn P.snd, a4]
    · rw [← S.id1, valueOf_eq hn S.fst, b3]
    · rw [← S.id2, valueOf_eq hn S.snd, b4]
    · rw [← W.id1, valueOf_eq hn W.fst, c3]
    · rw [← W.id2, valueOf_eq hn W.snd, c4]

/-! ## Meshes of a stroke -/

theorem customPacking_eq (t : AttrType) (id : AttrId) :
    customPacking t id = (fixedParams t id).map (List.map codingFor) := by
  have c1 : Vertex.opacityCoding = codingFor (-1, 127) := by decide +kernel
  have c2 : Vertex.hslCoding = codingFor (-1, 511) := by decide +kernel
  have c3 : Vertex.labelCoding = codingFor (-128, 1) := by decide +kernel
  have c4 : Vertex.surfaceUCoding = codingFor (0, 4095) := by decide +kernel
  have c5 : Vertex.surfaceVCoding = codingFor (0, 1048575) := by decide +kernel
  unfold customPacking
  rw [c1, c2, c3, c4, c5]
  by_cases h2 : id = 2
  · subst h2
    cases t <;> simp [fixedParams]
  by_cases h1 : id = 1
  · subst h1
    cases t <;> simp [fixedParams]
  by_cases h5 : id = 5
  · subst h5
    cases t <;> simp [fixedParams]
  by_cases h7 : id = 7
  · subst h7
    cases t <;> simp [fixedParams]
  by_cases h8 : id = 8
  · subst h8
    cases t <;> simp [fixedParams]
  · have : fixedParams t id = none := by
      unfold fixedParams
      split <;> first | exact absurd rfl h2 | exact absurd rfl h1 | exact absurd rfl h5 |
        exact absurd rfl h7 | exact absurd rfl h8 | rfl
    rw [this]
    simp [h1, h2, h5, h7, h8]

theorem customPackingArray_get {attrs : List (AttrType × AttrId)} {f : MeshFormat} (F : Fmt attrs f)
    (om : List AttrId) {j : Nat} {a : AttrType × AttrId} (h : (keptAttrs om attrs)[j]? = some a) :
    (customPackingArray f om)[j]? = some (customPacking a.1 a.2) := by
  have e : customPackingArray f om = (keptAttrs om attrs).map fun a => customPacking a.1 a.2 := by
    unfold customPackingArray keptAttrs
    rw [← F.map, List.filter_map, List.map_map]
    rfl
  rw [e, List.getElem?_map, h]
  rfl

/-- The types of the attributes that the shader uses. -/
theorem supported_type {attrs : List (AttrType × AttrId)} (hs : Supported attrs)
    (hd : (attrs.map Prod.snd).Nodup) (hp : (AttrType.f2In1Float, (0 : AttrId)) ∉ attrs)
    {t : AttrType} {id : AttrId} (h : (t, id) ∈ attrs) (hu : Used id) : ¬ IsPacked t ∨ ByteType t := by
  have uniq : ∀ {t t' : AttrType}, (t, id) ∈ attrs → (t', id) ∈ attrs → t = t' := by
    intro t t' h1 h2
    have := List.inj_on_of_nodup_map hd h1 h2 rfl
    exact (Prod.mk.inj this).1
  have ad : ∀ {p q : AttrId} {types : List (AttrType × AttrType)}, Adjacent attrs p q types →
      ∃ s t, (s, p) ∈ attrs ∧ (t, q) ∈ attrs ∧ (s, t) ∈ types := by
    rintro p q types ⟨j, s, t, h1, h2, h3⟩
    exact ⟨s, t, List.mem_of_getElem? h1, List.mem_of_getElem? h2, h3⟩
  obtain ⟨p1, p2, hp1, hp2, hp3⟩ := ad hs.position
  obtain ⟨s1, s2, hs1, hs2, hs3⟩ := ad hs.side
  obtain ⟨w1, w2, hw1, hw2, hw3⟩ := ad hs.forward
  simp only [List.mem_cons, Prod.mk.injEq, List.not_mem_nil, or_false] at hp3 hs3 hw3
  simp only [Used, List.mem_cons, List.not_mem_nil, or_false] at hu
  have un1 : ¬ IsPacked .f1Unpacked := by simp [IsPacked, bits]
  have un2 : ¬ IsPacked .f2Unpacked := by simp [IsPacked, bits]
  have un3 : ¬ IsPacked .f3Unpacked := by simp [IsPacked, bits]
  rcases hu with rfl | rfl | rfl | rfl | rfl | rfl | rfl | rfl
  · rw [uniq h hp1]
    rcases hp3 with ⟨rfl, -⟩ | ⟨rfl, -⟩
    · exact absurd hp1 hp
    · simp [ByteType]
  · have := hs.hsl t h
    simp only [List.mem_cons, List.not_mem_nil, or_false] at this
    rcases this with rfl | rfl
    · exact Or.inl un3
    · simp [ByteType]
  · rw [uniq h hp2]
    rcases hp3 with ⟨-, rfl⟩ | ⟨-, rfl⟩
    · exact Or.inl un1
    · simp [ByteType]
  · rw [uniq h hs1]
    rcases hs3 with ⟨rfl, -⟩ | ⟨rfl, -⟩
    · exact Or.inl un2
    · simp [ByteType]
  · rw [uniq h hs2]
    rcases hs3 with ⟨-, rfl⟩ | ⟨-, rfl⟩
    · exact Or.inl un1
    · simp [ByteType]
  · rw [uniq h hw1]
    rcases hw3 with ⟨rfl, -⟩ | ⟨rfl, -⟩
    · exact Or.inl un2
    · simp [ByteType]
  · rw [uniq h hw2]
    rcases hw3 with ⟨-, rfl⟩ | ⟨-, rfl⟩
    · exact Or.inl un1
    · simp [ByteType]
  · have := hs.uv t h
    simp only [List.mem_cons, List.not_mem_nil, or_false] at this
    rcases this with rfl | rfl
    · exact Or.inl un2
    · simp [ByteType]

theorem fixedParams_length {t : AttrType} {id : AttrId} {ps : List (ℤ × ℕ)}
    (h : fixedParams t id = some ps) : ps.length = components t := by
  unfold fixedParams at h
  split at h <;> cases h <;> rfl

theorem mem_mapM {α β : Type} {g : α → Option β} : ∀ {l : List α} {r : List β}, l.mapM g = some r →
    ∀ b ∈ r, ∃ a ∈ l, g a = some b
  | [], r, h, b, hb => by
    cases h
    simp at hb
  | a :: l, r, h, b, hb => by
    rw [List.mapM_cons] at h
    simp only [Option.bind_eq_bind, Option.bind_eq_some_iff, Option.pure_def, Option.some.injEq] at h
    obtain ⟨c, hc, r', h, rfl⟩ := h
    rcases List.mem_cons.1 hb with rfl | hb
    · exact ⟨a, by simp, hc⟩
    · obtain ⟨a', h1, h2⟩ := mem_mapM h b hb
      exact ⟨a', by simp [h1], h2⟩

/-- A mesh that has been packed with the parameters for strokes. -/
theorem finish_drawable {attrs : List (AttrType × AttrId)} {ixf : IndexFormat} {f : MeshFormat}
    (hf : create attrs ixf = some f) (hs : Supported attrs)
    (hp : (AttrType.f2In1Float, (0 : AttrId)) ∉ attrs) {params : List (Option (List Coding))}
    (hpar : ∀ (j : Nat) (a : AttrType × AttrId), attrs[j]? = some a →
      params[j]? = some (customPacking a.1 a.2))
    {total : List (List F32 × List F32)} (htl : total.length = attrs.length) {css : List (List Coding)}
    (hcl : css.length = attrs.length)
    (hce : ∀ (j : Nat) (a : AttrType × AttrId) (bj : List F32 × List F32) (cs : List Coding),
      attrs[j]? = some a → total[j]? = some bj → css[j]? = some cs →
        params[j]? = some (some cs) ∨
          NotGiven params j ∧ computeCodingParams a.1 bj.1 bj.2 = some (some cs))
    {n : Nat} {gs : List (List (List F32))} {tris : List Nat} {bounds : Option (List (List F32 × List F32))}
    {M : Mesh} (hgl : gs.length = attrs.length)
    (hg : ∀ (j : Nat) (a : AttrType × AttrId) (g : List (List F32)), attrs[j]? = some a → gs[j]? = some g →
      g.length = components a.1)
    (h : Mesh.finish f n gs tris bounds css = some (some M)) :
    M.format = f ∧ M.unpackingParams = css ∧ Drawable M := by
  have G := fmt_of hf
  have hval := (create_eq hf).1
  have hcl' : css.length = f.attributes.length := by rw [hcl, G.len]
  obtain ⟨e1, e2, e3, e4⟩ := finish_inv G hval (by rw [hgl, G.len])
    (fun j a g ha hgj => hg j _ g (attr_at G ha) hgj) hcl' h
  refine ⟨e1, e2, ?_, ?_⟩
  · intro j a ha hu
    rw [e1] at ha
    have hka := attr_at G ha
    have hj := (List.getElem?_eq_some_iff.1 ha).1
    have hcs := List.getElem?_eq_getElem (l := css) (i := j) (by omega)
    have htot := List.getElem?_eq_getElem (l := total) (i := j) (by rw [htl, ← G.len]; exact hj)
    rw [e2]
    refine ⟨_, hcs, ?_⟩
    have hcp := hpar j _ hka
    rw [customPacking_eq] at hcp
    rcases hce j _ _ _ hka htot hcs with h1 | ⟨h1, h2⟩
    · rw [hcp] at h1
      simp only [Option.some.injEq, Option.map_eq_some_iff] at h1
      obtain ⟨pp, h3, h4⟩ := h1
      refine ⟨?_, fun ps' hps' => ?_⟩
      · rw [← h4, List.length_map, fixedParams_length h3]
      · rw [h3] at hps'
        cases hps'
        exact h4.symm
    · refine ⟨length_computed (G.named a (List.mem_of_getElem? ha)) h2, fun ps' hps' => ?_⟩
      rw [hps'] at hcp
      exact absurd hcp (h1 _)
  · intro i hi j a ha hu
    rw [e1] at ha
    obtain ⟨cs, value, blk, -, h2, h3⟩ := e4 i (by omega) j a ha
    refine ⟨blk, h3, fun hpk' => ?_⟩
    rw [packAttribute_packed _ hpk'] at h2
    obtain ⟨ks, -, h2⟩ := Option.bind_eq_some_iff.1 h2
    rcases supported_type hs hval.distinct hp (List.mem_of_getElem? (attr_at G ha)) hu with h4 | h4
    · exact absurd hpk' h4
    · exact fits_of_packed h4 h2

theorem created_drawable {attrs : List (AttrType × AttrId)} {ixf : IndexFormat} {f : MeshFormat}
    (hf : create attrs ixf = some f) (hs : Supported attrs)
    (hp : (AttrType.f2In1Float, (0 : AttrId)) ∉ attrs) {spans : List (List F32)} {tris : List Nat}
    {m : Mesh} (h : Mesh.Mesh.create f spans tris (customPackingArray f []) = some (some m))
    (h0 : 0 < numVertices spans) : m.format = f ∧ Drawable m := by
  obtain ⟨c1, c2⟩ := create_cases hf spans tris (customPackingArray f [])
  have ha : Acceptable attrs spans tris := by
    by_contra hn
    rw [c1 hn] at h
    cases h
  obtain ⟨gs, g1, g2, g3⟩ := c2 ha
  rw [g3] at h
  unfold createRest at h
  rw [if_neg (by omega)] at h
  obtain ⟨b, b1, b2, b3⟩ := allData hf ha h0 g1 g2
  obtain ⟨r, r1, -, r2⟩ := codingArray hf b2 b3 (customPackingArray f [])
  rw [b1, Option.bind_some, r1, Option.bind_some] at h
  cases r with
  | none => cases h
  | some css =>
    obtain ⟨k1, k2⟩ := r2 css rfl
    have := finish_drawable hf hs hp (params := customPackingArray f [])
      (fun j a hj => by
        have e : keptAttrs [] attrs = attrs := by simp [keptAttrs]
        exact customPackingArray_get (fmt_of hf) [] (by rw [e]; exact hj)) b2 k1 k2 g1
      (fun j a g q1 q2 => by
        rw [g2 j (List.getElem?_eq_some_iff.1 q1).1] at q2
        cases q2
        exact length_spansOf ha.count q1) h
    exact ⟨this.1, this.2.2⟩

/-- C54: a mesh that has been created with the parameters for strokes is drawn as it is, if its format is
supported. Formats with two components of the position in one float are left out. -/
theorem C54_created_partial {attrs : List (AttrType × AttrId)} {ixf : IndexFormat} {f : MeshFormat}
    (hf : create attrs ixf = some f) (hs : Supported attrs)
    (hp : (AttrType.f2In1Float, (0 : AttrId)) ∉ attrs) (spans : List (List F32)) (tris : List Nat)
    (m : Mesh) (h : Mesh.Mesh.create f spans tris (customPackingArray f []) = some (some m)) (i : Nat)
    (hi : i < m.vertexCount) : ∃ d, drawGroup unorm32 [m] 0 i = some d ∧ Shows m i d := by
  by_cases h0 : 0 < numVertices spans
  · have hd := created_drawable hf hs hp h h0
    refine C54_drawn_partial hf hs [m] (fun m' hm' => ?_) ?_ 0 m rfl i hi
    · rw [List.mem_singleton.1 hm']
      exact hd
    · intro m1 h1 m2 h2 j a _ _
      rw [List.mem_singleton.1 h1, List.mem_singleton.1 h2]
  · have h0' : numVertices spans = 0 := by omega
    exfalso
    obtain ⟨c1, c2⟩ := create_cases hf spans tris (customPackingArray f [])
    have ha : Acceptable attrs spans tris := by
      by_contra hn
      rw [c1 hn] at h
      cases h
    obtain ⟨gs, g1, g2, g3⟩ := c2 ha
    rw [g3] at h
    unfold createRest at h
    rw [if_pos h0'] at h
    obtain ⟨p, hpp, hh⟩ := Option.bind_eq_some_iff.1 h
    unfold Mesh.finish at hh
    simp only [Option.bind_eq_bind, Option.bind_eq_some_iff, Option.some.injEq] at hh
    obtain ⟨vd, hv, ix, -, rfl⟩ := hh
    rw [h0'] at hv
    simp only [packVertexByteData, packVertices, Option.some.injEq, Nat.zero_mul, List.replicate_zero] at hv
    subst hv
    simp [Mesh.ofData, u32] at hi

/-- C54: whatever has been done to a mutable mesh, if the meshes that are made of it with the parameters
for strokes (`StrokeVertex::MakeCustomPackingArray`) have a supported format, then the shader sees every
vertex of each of them as the accessors of the mesh do. Formats with two components of the position in one
float are left out. -/
theorem C54_stroke_partial {attrs : List (AttrType × AttrId)} {ixf : IndexFormat} {f : MeshFormat}
    (hf : create attrs ixf = some f) (ops : List MeshOp) (s : MeshState)
    (h : MeshState.run { attrs := attrs, ixf := ixf } ops = some s) (om : List AttrId)
    (hs : Supported (keptAttrs om s.attrs)) (hp : (AttrType.f2In1Float, (0 : AttrId)) ∉ s.attrs) :
    ∃ m, (MutableMesh.new f).bind (·.run ops) = some m ∧
      ∀ meshes, asMeshes m (customPackingArray m.format om) om = some (some meshes) →
        ∀ (k : Nat) (mesh : Mesh), meshes[k]? = some mesh → ∀ i < mesh.vertexCount,
          ∃ d, drawGroup unorm32 meshes k i = some d ∧ Shows mesh i d := by
  obtain ⟨m0, hm0, R0⟩ := rep_new hf
  obtain ⟨m, hm, R⟩ := run_rep R0 ops h
  refine ⟨m, by rw [hm0]; exact hm, fun meshes hms => ?_⟩
  by_cases h0 : s.triangles = []
  · unfold asMeshes at hms
    rw [if_pos (by rw [R.tc, h0]; rfl)] at hms
    cases hms
    simp
  rcases asMeshes_cases R h0 (customPackingArray m.format om) om with ⟨-, h2⟩ |
    ⟨-, g, ps, bss, total, css, C, P, -, hbs, hbt, hcl, hce, heq⟩
  · rw [hms] at h2
    cases h2
  rw [hms] at heq
  have heq' := heq.symm
  simp only [Option.bind_eq_some_iff, Option.some.injEq] at heq'
  obtain ⟨cs0, hcs0, moved, hmoved, ms, hmm, rfl⟩ := heq'
  have G := fmt_of C.fmt
  have hval := (create_eq C.fmt).1
  have hFmt := C.fmt
  have hcl' : css.length = g.attributes.length := by rw [hcl, G.len]
  have key : ∀ M ∈ ms, M.format = g ∧ M.unpackingParams = css ∧ Drawable M := by
    intro M hM
    obtain ⟨pb, hpb, hpk⟩ := mem_mapM hmm M hM
    obtain ⟨hpm, -⟩ := List.of_mem_zip hpb
    have hfin := C.packPartition_eq moved (hcl) (P.vne _ hpm) (P.lt _ hpm) pb.2
    rw [hpk, Option.map_some] at hfin
    refine finish_drawable C.fmt hs (fun hh => hp (List.mem_of_mem_filter hh))
      (fun j a hj => customPackingArray_get (fmt_of R.fmt) om hj) hbt.1 hcl hce (by simp) ?_ hfin.symm
    intro j a gj ha hgj
    rw [List.getElem?_map, Option.map_eq_some_iff] at hgj
    obtain ⟨j', hj', rfl⟩ := hgj
    have hlt := (List.getElem?_eq_some_iff.1 hj').1
    rw [List.length_range] at hlt
    rw [List.getElem?_range hlt] at hj'
    cases hj'
    exact length_spansOf (by unfold pspans; exact length_columns _ _) ha
  intro k M hk i hi
  exact C54_drawn_partial hFmt hs ms (fun M hM => ⟨(key M hM).1, (key M hM).2.2⟩)
    (fun M hM M' hM' j a _ _ => by rw [(key M hM).2.1, (key M' hM').2.1]) k M hk i hi

/-! ## The format of strokes -/

/-- The attributes of `StrokeVertex::FullMeshFormat()`. -/
def fullAttrs : List (AttrType × AttrId) :=
  [(.f2In3Bytes, 0), (.f1In1Byte, 2), (.f3In4Bytes, 1), (.f2In3Bytes, 4), (.f1In1Byte, 5),
    (.f2In3Bytes, 6), (.f1In1Byte, 7), (.f2In4Bytes, 8)]

/-- C54: the format of strokes is supported, also if shifts of hue, saturation and luminosity, or texture
coordinates, or both, are omitted. -/
theorem C54_full_format (om : List AttrId) (h : ∀ id ∈ om, id = 1 ∨ id = 8) :
    Supported (keptAttrs om fullAttrs) := by
  have n0 : ¬ (0 : AttrId) ∈ om := fun hh => by have := h _ hh; revert this; decide
  have n2 : ¬ (2 : AttrId) ∈ om := fun hh => by have := h _ hh; revert this; decide
  have n4 : ¬ (4 : AttrId) ∈ om := fun hh => by have := h _ hh; revert this; decide
  have n5 : ¬ (5 : AttrId) ∈ om := fun hh => by have := h _ hh; revert this; decide
  have n6 : ¬ (6 : AttrId) ∈ om := fun hh => by have := h _ hh; revert this; decide
  have n7 : ¬ (7 : AttrId) ∈ om := fun hh => by have := h _ hh; revert this; decide
  have e : ∃ l r, keptAttrs om fullAttrs = (.f2In3Bytes, 0) :: (.f1In1Byte, 2) ::
      (l ++ (.f2In3Bytes, 4) :: (.f1In1Byte, 5) :: (.f2In3Bytes, 6) :: (.f1In1Byte, 7) :: r) ∧
      (l = [] ∨ l = [(.f3In4Bytes, 1)]) ∧ (r = [] ∨ r = [(.f2In4Bytes, 8)]) := by
    by_cases h1 : (1 : AttrId) ∈ om <;> by_cases h8 : (8 : AttrId) ∈ om
    · exact ⟨[], [], by simp [keptAttrs, fullAttrs, n0, n2, n4, n5, n6, n7, h1, h8], by simp, by simp⟩
    · exact ⟨[], [(.f2In4Bytes, 8)], by simp [keptAttrs, fullAttrs, n0, n2, n4, n5, n6, n7, h1, h8],
        by simp, by simp⟩
    · exact ⟨[(.f3In4Bytes, 1)], [], by simp [keptAttrs, fullAttrs, n0, n2, n4, n5, n6, n7, h1, h8],
        by simp, by simp⟩
    · exact ⟨[(.f3In4Bytes, 1)], [(.f2In4Bytes, 8)],
        by simp [keptAttrs, fullAttrs, n0, n2, n4, n5, n6, n7, h1, h8], by simp, by simp⟩
  obtain ⟨l, r, e, hl, hr⟩ := e
  rw [e]
  refine ⟨⟨0, _, _, rfl, rfl, by simp⟩, ⟨l.length + 2, .f2In3Bytes, .f1In1Byte, ?_, ?_, by simp⟩,
    ⟨l.length + 4, .f2In3Bytes, .f1In1Byte, ?_, ?_, by simp⟩, ?_, ?_⟩
  · rcases hl with rfl | rfl <;> rfl
  · rcases hl with rfl | rfl <;> rfl
  · rcases hl with rfl | rfl <;> rfl
  · rcases hl with rfl | rfl <;> rfl
  · rcases hl with rfl | rfl <;> rcases hr with rfl | rfl <;> intro t ht <;> simp at ht <;> simp [ht]
  · rcases hl with rfl | rfl <;> rcases hr with rfl | rfl <;> intro t ht <;> simp at ht <;> simp [ht]

/-! ## Strokes in progress -/

theorem readBytes_sub {off n o k : Nat} {d B : List Nat} (h : readBytes off n d = some B)
    (hk : o + k ≤ n) : readBytes (off + o) k d = some ((B.drop o).take k) := by
  unfold readBytes at *
  split at h
  · cases h
    rw [if_pos (by omega), List.drop_take, List.take_take, List.drop_drop, Nat.min_eq_left (by omega)]
  · cases h

/-- C54: of a stroke in progress, the shader sees exactly the values that have been stored in the mutable
mesh. -/
theorem C54_in_progress {attrs : List (AttrType × AttrId)} {ixf : IndexFormat} {f : MeshFormat}
    (hf : create attrs ixf = some f) (ops : List MeshOp) (s : MeshState)
    (h : MeshState.run { attrs := attrs, ixf := ixf } ops = some s) (ha : s.attrs = fullAttrs)
    (hx : s.ixf = .unpacked32) :
    ∃ m, (MutableMesh.new f).bind (·.run ops) = some m ∧ ∀ i < s.vertices.length,
      ∃ px py o hh hs hl sx sy sl wx wy wl tu tv,
        s.vertices[i]? = some [[px, py], [o], [hh, hs, hl], [sx, sy], [sl], [wx, wy], [wl], [tu, tv]] ∧
        decodeInProgress m i =
          some { position := (px, py), opacityShift := o, side := (sx, sy), sideLabel := sl,
                 forward := (wx, wy), forwardLabel := wl, hsl := some (hh, hs, hl),
                 uv := some (tu, tv) } := by
  obtain ⟨m0, hm0, R0⟩ := rep_new hf
  obtain ⟨m, hm, R⟩ := run_rep R0 ops h
  refine ⟨m, by rw [hm0]; exact hm, fun i hi => ?_⟩
  have hsh := R.shape _ (List.getElem_mem hi)
  have hv : ∃ px py o hh hs hl sx sy sl wx wy wl tu tv,
      s.vertices[i] = [[px, py], [o], [hh, hs, hl], [sx, sy], [sl], [wx, wy], [wl], [tu, tv]] := by
    unfold Shaped at hsh
    rw [ha] at hsh
    simp only [fullAttrs, List.map_cons, List.map_nil, components] at hsh
    generalize s.vertices[i] = v at hsh
    rcases v with _ | ⟨a, _ | ⟨b, _ | ⟨c, _ | ⟨d, _ | ⟨e, _ | ⟨g, _ | ⟨k, _ | ⟨l, _ | ⟨z, zs⟩⟩⟩⟩⟩⟩⟩⟩⟩ <;>
      simp only [List.map_cons, List.map_nil, List.cons.injEq, and_true, reduceCtorEq, and_false] at hsh
    obtain ⟨h1, h2, h3, h4, h5, h6, h7, h8⟩ := hsh
    obtain ⟨_, _, rfl⟩ := List.length_eq_two.1 h1
    obtain ⟨_, rfl⟩ := List.length_eq_one_iff.1 h2
    obtain ⟨_, _, _, rfl⟩ := List.length_eq_three.1 h3
    obtain ⟨_, _, rfl⟩ := List.length_eq_two.1 h4
    obtain ⟨_, rfl⟩ := List.length_eq_one_iff.1 h5
    obtain ⟨_, _, rfl⟩ := List.length_eq_two.1 h6
    obtain ⟨_, rfl⟩ := List.length_eq_one_iff.1 h7
    obtain ⟨_, _, rfl⟩ := List.length_eq_two.1 h8
    exact ⟨_, _, _, _, _, _, _, _, _, _, _, _, _, _, rfl⟩
  obtain ⟨px, py, o, hh, hs, hl, sx, sy, sl, wx, wy, wl, tu, tv, hv⟩ := hv
  refine ⟨px, py, o, hh, hs, hl, sx, sy, sl, wx, wy, wl, tu, tv,
    by rw [List.getElem?_eq_getElem hi, hv], ?_⟩
  have hlen : ∀ v ∈ s.vertices, (encVertex v).length = 56 := by
    intro v hvm
    rw [length_encVertex]
    have := R.shape v hvm
    unfold Shaped at this
    rw [this, ha]
    rfl
  have hr : readBytes (i * 56) 56 m.vertexData = some (encVertex s.vertices[i]) := by
    have hl : ((s.vertices.take i).flatMap encVertex).length = i * 56 := by
      rw [length_blocks (k := 56) _ (fun v hv => hlen v (List.mem_of_mem_take hv)), List.length_take,
        min_eq_left (by omega)]
    have hs : m.vertexData = ((s.vertices.take i).flatMap encVertex) ++ encVertex s.vertices[i] ++
        ((s.vertices.drop (i + 1)).flatMap encVertex) := by
      rw [R.vd]
      nth_rw 1 [← List.take_append_drop i s.vertices]
      rw [List.flatMap_append, List.drop_eq_getElem_cons hi, List.flatMap_cons, List.append_assoc]
    have := read_block ((s.vertices.take i).flatMap encVertex) (encVertex s.vertices[i])
      ((s.vertices.drop (i + 1)).flatMap encVertex)
    rw [← hs, hl, hlen _ (List.getElem_mem hi)] at this
    exact this
  have henc : encVertex s.vertices[i] =
      [px, py, o, hh, hs, hl, sx, sy, sl, wx, wy, wl, tu, tv].flatMap bytesOfFloat := by
    rw [hv]
    simp [encVertex, encValue]
  rw [henc] at hr
  have sub : ∀ (pre mid post : List F32),
      [px, py, o, hh, hs, hl, sx, sy, sl, wx, wy, wl, tu, tv] = pre ++ (mid ++ post) →
      ∃ bs, readBytes (i * 56 + 4 * pre.length) (4 * mid.length) m.vertexData = some bs ∧
        floatsOfBytes mid.length bs = some mid := by
    intro pre mid post e
    have hlf : ∀ l : List F32, (l.flatMap bytesOfFloat).length = 4 * l.length := by
      intro l
      rw [length_blocks (k := 4) l (fun x _ => length_bytesOfFloat x), Nat.mul_comm]
    have hle := congrArg List.length e
    simp only [List.length_append, List.length_cons, List.length_nil] at hle
    refine ⟨mid.flatMap bytesOfFloat, ?_, by simpa using floatsOfBytes_flatMap mid []⟩
    rw [readBytes_sub hr (by omega), e, List.flatMap_append, List.flatMap_append,
      List.drop_left' (hlf pre), List.take_left' (hlf mid)]
  have hspec : inProgressSpec = some ([⟨.float3, 0⟩, ⟨.float3, 12⟩, ⟨.float3, 24⟩, ⟨.float3, 36⟩,
      ⟨.float2, 48⟩], 56) := by decide +kernel
  have hfull : fullFormat = some m.format := by
    have := R.fmt
    rw [ha, hx] at this
    exact this
  have heq : formatEq m.format m.format = true := by
    have : (fullFormat.map fun f => formatEq f f) = some true := by decide +kernel
    rw [hfull] at this
    simpa using this
  obtain ⟨b1, r1, f1⟩ := sub [] [px, py, o] _ rfl
  obtain ⟨b2, r2, f2⟩ := sub [px, py, o] [hh, hs, hl] _ rfl
  obtain ⟨b3, r3, f3⟩ := sub [px, py, o, hh, hs, hl] [sx, sy, sl] _ rfl
  obtain ⟨b4, r4, f4⟩ := sub [px, py, o, hh, hs, hl, sx, sy, sl] [wx, wy, wl] _ rfl
  obtain ⟨b5, r5, f5⟩ := sub [px, py, o, hh, hs, hl, sx, sy, sl, wx, wy, wl] [tu, tv] _ rfl
  simp only [List.length_cons, List.length_nil, Nat.zero_add, Nat.reduceAdd, Nat.reduceMul]
    at r1 f1 r2 f2 r3 f3 r4 f4 r5 f5
  have g1 : fetch unorm32 m.vertexData 56 ⟨.float3, 0⟩ i = some (.floats [px, py, o]) := by
    simp only [fetch, r1, f1, Option.bind_eq_bind, Option.bind_some]
  have g2 : fetch unorm32 m.vertexData 56 ⟨.float3, 12⟩ i = some (.floats [hh, hs, hl]) := by
    simp only [fetch, r2, f2, Option.bind_eq_bind, Option.bind_some]
  have g3 : fetch unorm32 m.vertexData 56 ⟨.float3, 24⟩ i = some (.floats [sx, sy, sl]) := by
    simp only [fetch, r3, f3, Option.bind_eq_bind, Option.bind_some]
  have g4 : fetch unorm32 m.vertexData 56 ⟨.float3, 36⟩ i = some (.floats [wx, wy, wl]) := by
    simp only [fetch, r4, f4, Option.bind_eq_bind, Option.bind_some]
  have g5 : fetch unorm32 m.vertexData 56 ⟨.float2, 48⟩ i = some (.floats [tu, tv]) := by
    simp only [fetch, r5, f5, Option.bind_eq_bind, Option.bind_some]
  unfold decodeInProgress
  rw [hfull]
  simp only [Option.bind_eq_bind, Option.bind_some]
  rw [heq, hspec]
  simp only [Bool.not_true, Bool.false_eq_true, if_false, Option.bind_some, g1, g2, g3, g4, g5]

end Verif.Shader
