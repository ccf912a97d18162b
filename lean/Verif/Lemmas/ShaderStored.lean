import Verif.Lemmas.ShaderDecode
import Verif.Props.AsMeshes

/-!
# What is stored in a mesh that has been built
-/

set_option autoImplicit false

namespace Verif.Shader

open Verif Verif.F32 Verif.Mesh Verif.Mesh.Spec Verif.Shader.Spec

/-! ## Bytes that come from `PackAttribute` -/

/-- The types with packed values that the shader reads as bytes. -/
def ByteType (t : AttrType) : Prop := t = .f1In1Byte ∨ t = .f2In3Bytes ∨ t = .f3In4Bytes ∨ t = .f2In4Bytes

theorem toByte_eq (n : ℕ) : toByte n = n % 256 := rfl

theorem fits_of_packed {t : AttrType} (ht : ByteType t) {ks : List ℕ} {bs : List ℕ}
    (h : packIntegers t ks = some bs) : ∃ ks', Fits t ks' ∧ packIntegers t ks' = some bs := by
  rcases ht with rfl | rfl | rfl | rfl
  · match ks, h with
    | [a], h =>
      simp only [packIntegers, Option.some.injEq] at h
      have h1 : a % 256 < 256 := Nat.mod_lt _ (by norm_num)
      exact ⟨[a % 256], by simp [Fits, bits, h1], by rw [pack1 h1, ← h]; rfl⟩
  · match ks, h with
    | [a, b], h =>
      simp only [packIntegers, Option.some.injEq, toByte_eq] at h
      generalize e1 : (a >>> 4) % 256 = p at h
      generalize e2 : (shl (a &&& 0xF) 4 + b >>> 8) % 256 = q at h
      generalize e3 : (b &&& 0xFF) % 256 = r at h
      have h1 : p < 256 := by omega
      have h2 : q < 256 := by omega
      have h3 : r < 256 := by omega
      refine ⟨[p * 16 + q / 16, q % 16 * 256 + r], ?_, ?_⟩
      · simp only [Fits, bits, List.forall₂_cons, List.forall₂_nil_right_iff, and_true]
        norm_num
        omega
      · rw [pack3_bytes (by omega) (by omega), ← h]
        simp only [Option.some.injEq, List.cons.injEq, and_true]
        omega
  · match ks, h with
    | [a, b, c], h =>
      simp only [packIntegers, Option.some.injEq, toByte_eq] at h
      generalize e1 : (a >>> 2) % 256 = p at h
      generalize e2 : (shl (a &&& 0x03) 6 + b >>> 4) % 256 = q at h
      generalize e3 : (shl (b &&& 0x0F) 4 + c >>> 6) % 256 = r at h
      have e4 : shl (c &&& 0x3F) 2 % 256 = c % 64 * 4 := by
        have := low_eq c 6
        norm_num at this
        rw [this]
        simp only [shl, Nat.shiftLeft_eq]
        omega
      rw [e4] at h
      have h1 : p < 256 := by omega
      have h2 : q < 256 := by omega
      have h3 : r < 256 := by omega
      refine ⟨[p * 4 + q / 64, q % 64 * 16 + r / 16, r % 16 * 64 + c % 64], ?_, ?_⟩
      · simp only [Fits, bits, List.forall₂_cons, List.forall₂_nil_right_iff, and_true]
        norm_num
        omega
      · rw [packHsl_bytes (by omega) (by omega) (by omega), ← h]
        simp only [Option.some.injEq, List.cons.injEq, and_true]
        omega
  · match ks, h with
    | [a, b], h =>
      simp only [packIntegers, Option.some.injEq, toByte_eq] at h
      generalize e1 : (a >>> 4) % 256 = p at h
      generalize e2 : (shl (a &&& 0xF) 4 + b >>> 16) % 256 = q at h
      generalize e3 : ((b &&& 0xFF00) >>> 8) % 256 = r at h
      generalize e4 : (b &&& 0xFF) % 256 = w at h
      have h1 : p < 256 := by omega
      have h2 : q < 256 := by omega
      have h3 : r < 256 := by omega
      have h4 : w < 256 := by omega
      refine ⟨[p * 16 + q / 16, q % 16 * 65536 + r * 256 + w], ?_, ?_⟩
      · simp only [Fits, bits, List.forall₂_cons, List.forall₂_nil_right_iff, and_true]
        norm_num
        omega
      · rw [pack4_bytes (by omega) (by omega), ← h]
        simp only [Option.some.injEq, List.cons.injEq, and_true]
        omega

theorem length_packAttribute {t : AttrType} {cs : List Coding} {vs : List F32} {bs : List ℕ}
    (hv : vs.length = components t) (h : packAttribute t cs vs = some bs) : bs.length = packedBytes t := by
  by_cases ht : IsPacked t
  · rw [packAttribute_packed t ht] at h
    obtain ⟨ks, -, h⟩ := Option.bind_eq_some_iff.1 h
    unfold packIntegers at h
    split at h <;> simp only [Option.some.injEq, reduceCtorEq] at h
    all_goals
      subst h
      simp [packedBytes, length_bytesOfFloat]
  · by_cases hn : ∀ code, t ≠ .unnamed code
    · obtain ⟨bs', h1, h2, -, -⟩ := C12_unpacked_exact t cs vs ht hn hv
      rw [h] at h1
      cases h1
      exact h2
    · push Not at hn
      obtain ⟨code, rfl⟩ := hn
      simp only [packAttribute] at h
      obtain ⟨ks, -, h⟩ := Option.bind_eq_some_iff.1 h
      cases ks <;> simp [packIntegers] at h

/-! ## Inversion of the packing of a mesh -/

theorem packVertexAttrs_inv (off v : Nat) : ∀ (as : List Attribute) (css : List (List Coding))
    (gs : List (List (List F32))) (d r : List Nat), packVertexAttrs off v as css gs d = some r →
    ∀ (j : Nat) (a : Attribute), as[j]? = some a → ∃ cs g value blk, css[j]? = some cs ∧ gs[j]? = some g ∧
      g.mapM (·[v]?) = some value ∧ packAttribute a.type cs value = some blk
  | [], _, _, _, _, _, _, _, h => by simp at h
  | a :: as, [], _, _, _, h, _, _, _ => by simp [packVertexAttrs] at h
  | a :: as, cs :: css, [], _, _, h, _, _, _ => by simp [packVertexAttrs] at h
  | a :: as, cs :: css, g :: gs, d, r, h, j, b, hb => by
    simp only [packVertexAttrs, Option.bind_eq_bind, Option.bind_eq_some_iff] at h
    obtain ⟨value, h1, blk, h2, d', h3, h4⟩ := h
    cases j with
    | zero =>
      simp only [List.getElem?_cons_zero, Option.some.injEq] at hb
      subst hb
      exact ⟨cs, g, value, blk, rfl, rfl, h1, h2⟩
    | succ j =>
      simpa using packVertexAttrs_inv off v as css gs d' r h4 j b (by simpa using hb)

theorem packVertices_inv (f : MeshFormat) (css : List (List Coding)) (gs : List (List (List F32))) :
    ∀ (k v : Nat) (d r : List Nat), packVertices f css gs v k d = some r →
    ∀ i, v ≤ i → i < v + k → ∃ o d' r', packVertexAttrs o i f.attributes css gs d' = some r'
  | 0, v, _, _, _, i, h1, h2 => by omega
  | k + 1, v, d, r, h, i, h1, h2 => by
    simp only [packVertices, Option.bind_eq_bind, Option.bind_eq_some_iff] at h
    obtain ⟨d', h3, h4⟩ := h
    by_cases e : i = v
    · subst e
      exact ⟨_, _, _, h3⟩
    · exact packVertices_inv f css gs k (v + 1) d' r h4 i (by omega) (by omega)

theorem u32_le (n : Nat) : u32 n ≤ n := by
  unfold u32
  exact Nat.mod_le _ _

theorem length_mapM {α β : Type} {g : α → Option β} : ∀ {l : List α} {r : List β},
    l.mapM g = some r → r.length = l.length
  | [], r, h => by
    cases h
    rfl
  | a :: l, r, h => by
    rw [List.mapM_cons] at h
    simp only [Option.bind_eq_bind, Option.bind_eq_some_iff, Option.pure_def, Option.some.injEq] at h
    obtain ⟨b, -, r', h, rfl⟩ := h
    simp [length_mapM h]

/-- The value of attribute `j` of vertex `i` that was packed. -/
theorem finish_inv {attrs : List (AttrType × AttrId)} {f : MeshFormat} (F : Fmt attrs f) (hv : Valid attrs)
    {n : Nat} {gs : List (List (List F32))} {tris : List Nat} {bounds : Option (List (List F32 × List F32))}
    {css : List (List Coding)} {M : Mesh} (hgl : gs.length = f.attributes.length)
    (hg : ∀ (j : Nat) (a : Attribute) (g : List (List F32)), f.attributes[j]? = some a → gs[j]? = some g →
      g.length = components a.type)
    (hc : css.length = f.attributes.length) (h : Mesh.finish f n gs tris bounds css = some (some M)) :
    M.format = f ∧ M.unpackingParams = css ∧ M.vertexCount ≤ n ∧
    ∀ i, i < n → ∀ (j : Nat) (a : Attribute), f.attributes[j]? = some a →
      ∃ cs value blk, css[j]? = some cs ∧ packAttribute a.type cs value = some blk ∧
        M.packedVertexAttribute i j = some blk := by
  unfold Mesh.finish at h
  simp only [Option.bind_eq_bind, Option.bind_eq_some_iff, Option.some.injEq] at h
  obtain ⟨vd, h1, ix, -, rfl⟩ := h
  have hex : ∀ i, i < n → ∀ (j : Nat) (a : Attribute), f.attributes[j]? = some a →
      ∃ cs g value blk, css[j]? = some cs ∧ gs[j]? = some g ∧
      g.mapM (·[i]?) = some value ∧ packAttribute a.type cs value = some blk := by
    intro i hi j a ha
    obtain ⟨o, d', r', h2⟩ := packVertices_inv f css gs n 0 _ _ h1 i (by omega) (by omega)
    exact packVertexAttrs_inv o i _ _ _ _ _ h2 j a ha
  let B : Nat → List (List Nat) := fun i => (List.range f.attributes.length).map fun j =>
    (((f.attributes[j]?).bind fun a => (css[j]?).bind fun cs => (gs[j]?).bind fun g =>
      (g.mapM (·[i]?)).bind fun value => packAttribute a.type cs value)).getD []
  have hBj : ∀ i, i < n → ∀ (j : Nat) (a : Attribute), f.attributes[j]? = some a →
      ∃ cs g value blk, css[j]? = some cs ∧ gs[j]? = some g ∧ g.mapM (·[i]?) = some value ∧
        packAttribute a.type cs value = some blk ∧ blk.length = packedBytes a.type ∧ (B i)[j]? = some blk := by
    intro i hi j a ha
    obtain ⟨cs, g, value, blk, q1, q2, q3, q4⟩ := hex i hi j a ha
    refine ⟨cs, g, value, blk, q1, q2, q3, q4, ?_, ?_⟩
    · refine length_packAttribute ?_ q4
      rw [← hg j a g ha q2]
      exact length_mapM q3
    · have hlt := (List.getElem?_eq_some_iff.1 ha).1
      simp only [B, List.getElem?_map, List.getElem?_range hlt, Option.map_some, ha, q1, q2, Option.bind_some]
      rw [q3, Option.bind_some, q4]
      rfl
  have hBlen : ∀ i, (B i).length = f.attributes.length := by
    intro i
    simp [B]
  clear_value B
  have hBmap : ∀ i, i < n → (B i).map List.length = f.attributes.map fun a => packedBytes a.type := by
    intro i hi
    apply List.ext_getElem?
    intro j
    rw [List.getElem?_map, List.getElem?_map]
    cases hj : f.attributes[j]? with
    | none =>
      rw [List.getElem?_eq_none_iff] at hj
      rw [List.getElem?_eq_none (by rw [hBlen]; exact hj)]; rfl
    | some a =>
      obtain ⟨cs, g, value, blk, -, -, -, -, e2, e3⟩ := hBj i hi j a hj
      rw [e3]; simp [e2]
  have hBstride : ∀ i, i < n → (B i).flatten.length = f.packedStride := by
    intro i hi
    rw [List.length_flatten, hBmap i hi, F.stride]
  have hBoff : ∀ i, i < n → ∀ (j : Nat) (a : Attribute), f.attributes[j]? = some a →
      a.packedOffset = (((B i).take j).map List.length).sum := by
    intro i hi j a h1
    rw [List.map_take, hBmap i hi, F.off j a h1, List.map_take]
  have hpack : vd = (List.range' 0 n).flatMap fun i => (B i).flatten := by
    unfold packVertexByteData at h1
    have := packVertices_eq f css gs B hc hgl n
      (by
        intro i hi
        refine ⟨hBlen i, hBstride i hi, ?_⟩
        intro j a cs g blk q1 q2 q3 q4
        obtain ⟨cs', g', value, blk', e1, e2, e3, e4, e5, e6⟩ := hBj i hi j a q1
        rw [q2] at e1
        rw [q3] at e2
        rw [q4] at e6
        cases e1
        cases e2
        cases e6
        exact ⟨⟨value, e3, e4⟩, hBoff i hi j a q1⟩)
      n 0 [] (List.replicate (n * f.packedStride) 0) (by omega) (by simp) (by simp)
    rw [List.nil_append, h1] at this
    simpa using this
  subst hpack
  refine ⟨rfl, rfl, ?_, ?_⟩
  · simp only [Mesh.ofData]
    rw [length_blocks (k := f.packedStride)]
    · rw [List.length_range', Nat.mul_div_cancel _ (stride_pos F hv)]
      exact u32_le n
    · intro i hi; apply hBstride; have := List.mem_range'_1.1 hi; omega
  · intro i hi j a ha
    obtain ⟨cs, g, value, blk, e1, e2, e3, e4, e5, e6⟩ := hBj i hi j a ha
    refine ⟨cs, value, blk, e1, e4, ?_⟩
    simp only [Mesh.packedVertexAttribute, Mesh.ofData, ha, Option.bind_eq_bind, Option.bind_some]
    rw [hBoff i hi j a ha, F.width a (List.mem_of_getElem? ha), ← e5]
    exact read_packed B hBstride i j hi _ e6

end Verif.Shader
