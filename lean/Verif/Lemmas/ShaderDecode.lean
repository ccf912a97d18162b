import Verif.Lemmas.ShaderFormat

/-!
# Decoding a vertex
-/

set_option autoImplicit false

namespace Verif.Shader

open Verif Verif.F32 Verif.Mesh Verif.Mesh.Spec Verif.Shader.Spec

/-! ## Floats in memory -/

theorem floatOfBytes_four {bs : List Nat} (h : bs.length = 4) : ∃ v, floatOfBytes bs = some v := by
  match bs, h with
  | [a, b, c, d], _ => exact ⟨_, rfl⟩

theorem floatsOfBytes_some : ∀ {n : Nat} {bs : List Nat}, bs.length = 4 * n →
    ∃ l, floatsOfBytes n bs = some l ∧ l.length = n
  | 0, _, _ => ⟨[], rfl, rfl⟩
  | n + 1, bs, h => by
    obtain ⟨v, hv⟩ := floatOfBytes_four (bs := bs.take 4) (by rw [List.length_take]; omega)
    obtain ⟨l, hl, e⟩ := floatsOfBytes_some (n := n) (bs := bs.drop 4) (by rw [List.length_drop]; omega)
    exact ⟨v :: l, by simp [floatsOfBytes, hv, hl], by simp [e]⟩

theorem floatsOfBytes_append {n : Nat} {y : List Nat} {l' : List F32} (hy : floatsOfBytes n y = some l') :
    ∀ {m : Nat} {x : List Nat} {l : List F32}, floatsOfBytes m x = some l → x.length = 4 * m →
      floatsOfBytes (m + n) (x ++ y) = some (l ++ l')
  | 0, x, l, hx, hl => by
    have : x = [] := List.length_eq_zero_iff.1 (by omega)
    subst this
    cases hx
    simpa using hy
  | m + 1, x, l, hx, hl => by
    simp only [floatsOfBytes, Option.bind_eq_bind, Option.bind_eq_some_iff, Option.some.injEq] at hx
    obtain ⟨v, hv, r, hr, rfl⟩ := hx
    rw [show m + 1 + n = (m + n) + 1 by omega, floatsOfBytes]
    rw [List.take_append_of_le_length (by omega), List.drop_append_of_le_length (by omega),
      floatsOfBytes_append hy hr (by rw [List.length_drop]; omega), hv]
    rfl

/-! ## Attributes -/

theorem codes {m : Mesh} (D : Drawable m) {i j : Nat} (hi : i < m.vertexCount) {a : Attribute}
    (ha : m.format.attributes[j]? = some a) (hid : Used a.id) (hp : IsPacked a.type) :
    ∃ cs ks bs, m.unpackingParams[j]? = some cs ∧ cs.length = components a.type ∧
      (∀ ps, fixedParams a.type a.id = some ps → cs = ps.map codingFor) ∧
      Fits a.type ks ∧ packIntegers a.type ks = some bs ∧ m.packedVertexAttribute i j = some bs ∧
      m.floatVertexAttribute i j = unpackComponents cs ks := by
  obtain ⟨cs, hc, hl, hps⟩ := D.params j a ha hid
  obtain ⟨bs, hb, hk⟩ := D.stored i hi j a ha hid
  obtain ⟨ks, hks, hpk⟩ := hk hp
  obtain ⟨bs', hb', -, -, hu⟩ := C12_integers_roundtrip a.type ks hp hks
  rw [hpk] at hb'
  cases hb'
  refine ⟨cs, ks, bs, hc, hl, hps, hks, hpk, hb, ?_⟩
  unfold Mesh.floatVertexAttribute
  rw [hb, ha, hc]
  simp only [Option.bind_eq_bind, Option.bind_some]
  rw [unpackAttribute_packed _ hp, hu]
  rfl

theorem raw {m : Mesh} (D : Drawable m) {attrs : List (AttrType × AttrId)} (F : Fmt attrs m.format)
    {i j : Nat} (hi : i < m.vertexCount) {a : Attribute} (ha : m.format.attributes[j]? = some a)
    (hid : Used a.id) {n : Nat}
    (ht : (a.type = .f1Unpacked ∧ n = 1) ∨ (a.type = .f2Unpacked ∧ n = 2) ∨
      (a.type = .f3Unpacked ∧ n = 3)) :
    ∃ bs l, m.packedVertexAttribute i j = some bs ∧ bs.length = 4 * n ∧ floatsOfBytes n bs = some l ∧
      l.length = n ∧ m.floatVertexAttribute i j = some l := by
  obtain ⟨cs, hc, hl, -⟩ := D.params j a ha hid
  obtain ⟨bs, hb, -⟩ := D.stored i hi j a ha hid
  have hlen := readBytes_length (packed_read ha hb)
  rw [F.width a (List.mem_of_getElem? ha)] at hlen
  have h4 : bs.length = 4 * n := by
    rw [hlen]
    rcases ht with ⟨h, rfl⟩ | ⟨h, rfl⟩ | ⟨h, rfl⟩ <;> rw [h] <;> rfl
  obtain ⟨l, hf, hl⟩ := floatsOfBytes_some h4
  refine ⟨bs, l, hb, h4, hf, hl, ?_⟩
  unfold Mesh.floatVertexAttribute
  rw [hb, ha, hc]
  simp only [Option.bind_eq_bind, Option.bind_some]
  rcases ht with ⟨h, rfl⟩ | ⟨h, rfl⟩ | ⟨h, rfl⟩ <;> rw [h] <;> exact hf

theorem read_pair {m : Mesh} {attrs : List (AttrType × AttrId)} (F : Fmt attrs m.format) {i j : Nat}
    {a b : Attribute} (ha : m.format.attributes[j]? = some a) (hb : m.format.attributes[j + 1]? = some b)
    {x y : List Nat} (hx : m.packedVertexAttribute i j = some x)
    (hy : m.packedVertexAttribute i (j + 1) = some y) :
    readBytes (i * m.format.packedStride + a.packedOffset) (x.length + y.length) m.vertexData =
      some (x ++ y) := by
  have h1 := packed_read ha hx
  have h2 := packed_read hb hy
  rw [readBytes_length h1, readBytes_length h2]
  refine readBytes_append h1 ?_
  rw [next_offset F ha hb] at h2
  rwa [Nat.add_assoc]

theorem two_codings {cs : List Coding} {t : Transform} (h : copy2D cs = some t) :
    ∃ cx cy, cs = [cx, cy] ∧ t = ⟨cx.offset, cx.scale, cy.offset, cy.scale⟩ := by
  match cs, h with
  | [cx, cy], h =>
    simp only [copy2D, Option.some.injEq] at h
    exact ⟨cx, cy, rfl, h.symm⟩

theorem fits_one {k : List Nat} (h : Fits .f1In1Byte k) : ∃ b, k = [b] ∧ b < 256 := by
  unfold Fits at h
  simp only [bits] at h
  rcases h with _ | ⟨ha, hn⟩
  cases hn
  exact ⟨_, rfl, by simpa using ha⟩

theorem pack1 {b : ℕ} (h : b < 256) : packIntegers .f1In1Byte [b] = some [b] := by
  simp [packIntegers, toByte, Nat.mod_eq_of_lt h]

/-! ## Two floats in three bytes and one in one byte -/

theorem triple {m : Mesh} (D : Drawable m) {attrs : List (AttrType × AttrId)} (F : Fmt attrs m.format)
    {i j : Nat} (hi : i < m.vertexCount) {a b : Attribute} (ha : m.format.attributes[j]? = some a)
    (hb : m.format.attributes[j + 1]? = some b) (ua : Used a.id) (ub : Used b.id)
    (ta : a.type = .f2In3Bytes) (tb : b.type = .f1In1Byte)
    {p : ℤ × ℕ} (hp : fixedParams b.type b.id = some [p])
    {t : Transform} (ht : m.unpackingParams[j]?.bind copy2D = some t) {A : Attr} (hk : A.kind = .ubyte4)
    (ho : A.offset = a.packedOffset) :
    ∃ x y z w k p', fetch unorm32 m.vertexData m.format.packedStride A i =
        some (.unorms (unorm32 x) (unorm32 y) (unorm32 z) (unorm32 w)) ∧
      unpackFloat2PackedIntoUByte3 t (unorm32 x) (unorm32 y) (unorm32 z) = p' ∧
      m.floatVertexAttribute i j = some [p'.1, p'.2] ∧
      w = k ∧ k < 256 ∧ m.floatVertexAttribute i (j + 1) = some [unpackSingleFloat (codingFor p) k] := by
  obtain ⟨cs, ks, bs, hc, hl, -, hf, hpk, hpv, hv⟩ := codes D hi ha ua (by rw [ta]; simp [IsPacked, bits])
  obtain ⟨cs', ks', bs', hc', hl', hfix, hf', hpk', hpv', hv'⟩ := codes D hi hb ub (by rw [tb]; simp [IsPacked, bits])
  have hcs' := hfix _ hp
  rw [ta] at hf hpk
  rw [tb] at hf' hpk'
  obtain ⟨k1, k2, rfl, h1, h2⟩ := fits_two (T := .f2In3Bytes) rfl hf
  obtain ⟨k, rfl, hk'⟩ := fits_one hf'
  norm_num at h1 h2
  rw [pack3_bytes h1 h2] at hpk
  rw [pack1 hk'] at hpk'
  cases hpk
  cases hpk'
  have hr := read_pair F ha hb hpv hpv'
  rw [hc] at ht
  obtain ⟨cx, cy, rfl, rfl⟩ := two_codings ht
  refine ⟨k1 / 16, k1 % 16 * 16 + k2 / 256, k2 % 256, k, k, _, ?_, rfl, ?_, rfl, hk', ?_⟩
  · unfold fetch
    rw [hk, ho]
    simp only [List.length_cons, List.length_nil, List.cons_append, List.nil_append] at hr
    simp only [Option.bind_eq_bind]
    rw [show 0 + 1 + 1 + 1 + (0 + 1) = 4 by rfl] at hr
    rw [hr]
    rfl
  · rw [unpack3 h1 h2, applyTransform_eq, hv]
    rfl
  · rw [hv', hcs']
    rfl

theorem position_shows {m : Mesh} (D : Drawable m) {attrs : List (AttrType × AttrId)}
    (F : Fmt attrs m.format) {i j : Nat} (hi : i < m.vertexCount) {a b : Attribute} {A : Attr}
    (P : PairAt positionAndOpacityKind m.format.attributes 0 2 A j a b)
    {t : Transform} (ht : m.unpackingParams[j]?.bind copy2D = some t) :
    ∃ v x y o o', fetch unorm32 m.vertexData m.format.packedStride A i = some v ∧
      unpackPositionAndOpacityShift t v = some (x, y, o) ∧ m.floatVertexAttribute i j = some [x, y] ∧
      m.floatVertexAttribute i (j + 1) = some [o'] ∧ Close (1 / 2 ^ 20) o o' := by
  obtain ⟨ha, hb, ia, ib, hk, ho⟩ := P
  have ua : Used a.id := by rw [ia]; simp [Used]
  have ub : Used b.id := by rw [ib]; simp [Used]
  unfold positionAndOpacityKind at hk
  split at hk
  · rename_i ta tb
    simp only [Option.some.injEq] at hk
    obtain ⟨cs, ks, bs, hc, hl, -, hf, hpk, hpv, hv⟩ := codes D hi ha ua (by rw [ta]; simp [IsPacked, bits])
    obtain ⟨bs', l, hpv', hl4, hfl, hl1, hv'⟩ := raw D F hi hb ub (n := 1) (Or.inl ⟨tb, rfl⟩)
    have hr := read_pair F ha hb hpv hpv'
    rw [ta] at hf hpk
    obtain ⟨k1, k2, rfl, h1, h2⟩ := fits_two (T := .f2In1Float) rfl hf
    norm_num at h1 h2
    rw [packFloat_bytes h1 h2] at hpk
    cases hpk
    rw [hc] at ht
    obtain ⟨cx, cy, rfl, rfl⟩ := two_codings ht
    obtain ⟨o, rfl⟩ := List.length_eq_one_iff.1 hl1
    refine ⟨.floats [ofRat ((4096 * k1 + k2 : ℕ) : ℚ), o], _, _, o, o, ?_, rfl, ?_, hv', Or.inl rfl⟩
    · unfold fetch
      rw [← hk, ho]
      simp only [Option.bind_eq_bind]
      rw [hl4, length_bytesOfFloat] at hr
      rw [hr]
      simp only [Option.bind_some]
      have := floatsOfBytes_append hfl (m := 1) (x := bytesOfFloat (ofRat ((4096 * k1 + k2 : ℕ) : ℚ)))
        (l := [ofRat ((4096 * k1 + k2 : ℕ) : ℚ)]) (by simpa using floatsOfBytes_flatMap [ofRat ((4096 * k1 + k2 : ℕ) : ℚ)] [])
        (by rw [length_bytesOfFloat])
      rw [this]
      rfl
    · rw [unpackFloat h1 h2, applyTransform_eq, hv]
      rfl
  · rename_i ta tb
    simp only [Option.some.injEq] at hk
    obtain ⟨x, y, z, w, k, p', hfe, hu, hv, rfl, hk', hv'⟩ :=
      triple D F hi ha hb ua ub ta tb (p := (-1, 127)) (by rw [tb, ib]; rfl) ht hk.symm ho
    refine ⟨_, _, _, _, _, hfe, ?_, hv, hv', opacity_close hk'⟩
    simp only [unpackPositionAndOpacityShift, hu]
  · cases hk

theorem derivative_shows {m : Mesh} (D : Drawable m) {attrs : List (AttrType × AttrId)}
    (F : Fmt attrs m.format) {i j : Nat} (hi : i < m.vertexCount) {a b : Attribute} {A : Attr}
    {p q : AttrId} (P : PairAt derivativeAndLabelKind m.format.attributes p q A j a b) (hp : p = 4 ∨ p = 6)
    (hq : q = 5 ∨ q = 7)
    {t : Transform} (ht : m.unpackingParams[j]?.bind copy2D = some t) :
    ∃ v x y l, fetch unorm32 m.vertexData m.format.packedStride A i = some v ∧
      unpackDerivativeAndLabel t v = some (x, y, l) ∧ m.floatVertexAttribute i j = some [x, y] ∧
      m.floatVertexAttribute i (j + 1) = some [l] := by
  obtain ⟨ha, hb, ia, ib, hk, ho⟩ := P
  have ua : Used a.id := by rw [ia]; rcases hp with rfl | rfl <;> simp [Used]
  have ub : Used b.id := by rw [ib]; rcases hq with rfl | rfl <;> simp [Used]
  unfold derivativeAndLabelKind at hk
  split at hk
  · rename_i ta tb
    simp only [Option.some.injEq] at hk
    obtain ⟨bs, l, hpv, hl8, hfl, hl2, hv⟩ := raw D F hi ha ua (n := 2) (Or.inr (Or.inl ⟨ta, rfl⟩))
    obtain ⟨bs', l', hpv', hl4, hfl', hl1, hv'⟩ := raw D F hi hb ub (n := 1) (Or.inl ⟨tb, rfl⟩)
    have hr := read_pair F ha hb hpv hpv'
    obtain ⟨x, y, rfl⟩ := List.length_eq_two.1 hl2
    obtain ⟨o, rfl⟩ := List.length_eq_one_iff.1 hl1
    refine ⟨.floats [x, y, o], x, y, o, ?_, rfl, hv, hv'⟩
    unfold fetch
    rw [← hk, ho]
    simp only [Option.bind_eq_bind]
    rw [hl4, hl8] at hr
    rw [hr]
    simp only [Option.bind_some]
    rw [floatsOfBytes_append hfl' hfl hl8]
    rfl
  · rename_i ta tb
    simp only [Option.some.injEq] at hk
    have hfix : fixedParams b.type b.id = some [(-128, 1)] := by
      rw [tb, ib]
      rcases hq with rfl | rfl <;> rfl
    obtain ⟨x, y, z, w, k, p', hfe, hu, hv, rfl, hk', hv'⟩ :=
      triple D F hi ha hb ua ub ta tb (p := (-128, 1)) hfix ht hk.symm ho
    refine ⟨_, _, _, _, hfe, ?_, hv, hv'⟩
    simp only [unpackDerivativeAndLabel, hu, label_eq hk']
  · cases hk

theorem fits_three {k : List Nat} (h : Fits .f3In4Bytes k) :
    ∃ a b c, k = [a, b, c] ∧ a < 1024 ∧ b < 1024 ∧ c < 1024 := by
  unfold Fits at h
  simp only [bits] at h
  rcases h with _ | ⟨ha, _ | ⟨hb, _ | ⟨hc, hn⟩⟩⟩
  cases hn
  exact ⟨_, _, _, rfl, by simpa using ha, by simpa using hb, by simpa using hc⟩

theorem hsl_shows {m : Mesh} (D : Drawable m) {attrs : List (AttrType × AttrId)}
    (F : Fmt attrs m.format) {i j : Nat} (hi : i < m.vertexCount) {a : Attribute} {A : Attr}
    (ha : m.format.attributes[j]? = some a) (hid : a.id = 1) (hk : hslKind a.type = some A.kind)
    (ho : A.offset = a.packedOffset) :
    ∃ v x y z h s l, fetch unorm32 m.vertexData m.format.packedStride A i = some v ∧
      unpackHSLColorShift v = some (x, y, z) ∧ m.floatVertexAttribute i j = some [h, s, l] ∧
      Close (1 / 2 ^ 20) x h ∧ Close (1 / 2 ^ 20) y s ∧ Close (1 / 2 ^ 20) z l := by
  have ua : Used a.id := by rw [hid]; simp [Used]
  unfold hslKind at hk
  split at hk
  · rename_i ta
    simp only [Option.some.injEq] at hk
    obtain ⟨bs, l, hpv, hl12, hfl, hl3, hv⟩ := raw D F hi ha ua (n := 3) (Or.inr (Or.inr ⟨ta, rfl⟩))
    have hr := packed_read ha hpv
    rw [← readBytes_length hr, hl12] at hr
    obtain ⟨x, y, z, rfl⟩ := List.length_eq_three.1 hl3
    refine ⟨.floats [x, y, z], x, y, z, x, y, z, ?_, rfl, hv, Or.inl rfl, Or.inl rfl, Or.inl rfl⟩
    unfold fetch
    rw [← hk, ho]
    simp only [Option.bind_eq_bind]
    rw [hr]
    simp only [Option.bind_some, hfl]
  · rename_i ta
    simp only [Option.some.injEq] at hk
    obtain ⟨cs, ks, bs, hc, hl, hfix, hf, hpk, hpv, hv⟩ := codes D hi ha ua (by rw [ta]; simp [IsPacked, bits])
    have hcs := hfix [(-1, 511), (-1, 511), (-1, 511)] (by rw [ta, hid]; rfl)
    rw [ta] at hf hpk
    obtain ⟨k1, k2, k3, rfl, h1, h2, h3⟩ := fits_three hf
    rw [packHsl_bytes h1 h2 h3] at hpk
    cases hpk
    obtain ⟨x, y, z, hu, c1, c2, c3⟩ := unpackHsl h1 h2 h3
    have hr := packed_read ha hpv
    rw [← readBytes_length hr] at hr
    refine ⟨_, x, y, z, _, _, _, ?_, hu, ?_, c1, c2, c3⟩
    · unfold fetch
      rw [← hk, ho]
      simp only [Option.bind_eq_bind]
      simp only [List.length_cons, List.length_nil] at hr
      rw [hr]
      rfl
    · rw [hv, hcs]
      rfl
  · cases hk

theorem uv_shows {m : Mesh} (D : Drawable m) {attrs : List (AttrType × AttrId)}
    (F : Fmt attrs m.format) {i j : Nat} (hi : i < m.vertexCount) {a : Attribute} {A : Attr}
    (ha : m.format.attributes[j]? = some a) (hid : a.id = 8) (hk : surfaceUvKind a.type = some A.kind)
    (ho : A.offset = a.packedOffset) :
    ∃ v x y s t, fetch unorm32 m.vertexData m.format.packedStride A i = some v ∧
      unpackSurfaceUv v = some (x, y) ∧ m.floatVertexAttribute i j = some [s, t] ∧
      Close (1 / 2 ^ 22) x s ∧ Close (1 / 2 ^ 22) y t := by
  have ua : Used a.id := by rw [hid]; simp [Used]
  unfold surfaceUvKind at hk
  split at hk
  · rename_i ta
    simp only [Option.some.injEq] at hk
    obtain ⟨bs, l, hpv, hl8, hfl, hl2, hv⟩ := raw D F hi ha ua (n := 2) (Or.inr (Or.inl ⟨ta, rfl⟩))
    have hr := packed_read ha hpv
    rw [← readBytes_length hr, hl8] at hr
    obtain ⟨x, y, rfl⟩ := List.length_eq_two.1 hl2
    refine ⟨.floats [x, y], x, y, x, y, ?_, rfl, hv, Or.inl rfl, Or.inl rfl⟩
    unfold fetch
    rw [← hk, ho]
    simp only [Option.bind_eq_bind]
    rw [hr]
    simp only [Option.bind_some, hfl]
  · rename_i ta
    simp only [Option.some.injEq] at hk
    obtain ⟨cs, ks, bs, hc, hl, hfix, hf, hpk, hpv, hv⟩ := codes D hi ha ua (by rw [ta]; simp [IsPacked, bits])
    have hcs := hfix [(0, 4095), (0, 1048575)] (by rw [ta, hid]; rfl)
    rw [ta] at hf hpk
    obtain ⟨k1, k2, rfl, h1, h2⟩ := fits_two (T := .f2In4Bytes) rfl hf
    norm_num at h1 h2
    rw [pack4_bytes h1 h2] at hpk
    cases hpk
    obtain ⟨x, y, hu, c1, c2⟩ := unpackUv h1 h2
    have hr := packed_read ha hpv
    rw [← readBytes_length hr] at hr
    refine ⟨_, x, y, _, _, ?_, hu, ?_, c1, c2⟩
    · unfold fetch
      rw [← hk, ho]
      simp only [Option.bind_eq_bind]
      simp only [List.length_cons, List.length_nil] at hr
      rw [hr]
      rfl
    · rw [hv, hcs]
      rfl
  · cases hk

end Verif.Shader
