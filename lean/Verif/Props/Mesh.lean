import Verif.Lemmas.Mesh

/-!
# C40: creating a mesh

See `/verif/properties.jsonl`.
-/

set_option autoImplicit false

namespace Verif.Mesh

open Verif Verif.Mesh.Spec

/-! ## The checks of `Create` -/

theorem packed_or (t : AttrType) (hn : ∀ code, t ≠ .unnamed code) :
    (IsPacked t ∧ isUnpackedType t = false) ∨ (¬ IsPacked t ∧ isUnpackedType t = true) := by
  unfold IsPacked isUnpackedType
  cases t <;> simp [bits, packedBits]
  rename_i c; exact hn c rfl

structure Fmt (attrs : List (AttrType × AttrId)) (f : MeshFormat) : Prop where
  map : f.attributes.map (fun a => (a.type, a.id)) = attrs
  len : f.attributes.length = attrs.length
  comp : ∀ a ∈ f.attributes, componentCount a.type = some (components a.type)
  named : ∀ a ∈ f.attributes, ∀ code, a.type ≠ .unnamed code
  width : ∀ a ∈ f.attributes, a.packedWidth = packedBytes a.type
  off : ∀ (j : Nat) (a : Attribute), f.attributes[j]? = some a →
    a.packedOffset = ((f.attributes.take j).map fun a => packedBytes a.type).sum
  stride : f.packedStride = (f.attributes.map fun a => packedBytes a.type).sum

theorem fmt_of {attrs : List (AttrType × AttrId)} {ixf : IndexFormat} {f : MeshFormat}
    (h : create attrs ixf = some f) : Fmt attrs f := by
  obtain ⟨hv, e, -, -, -, -, hw, -, ht⟩ := create_eq h
  have hn : ∀ a ∈ f.attributes, ∀ code, a.type ≠ .unnamed code := by
    intro a ha
    exact hv.namedType (a.type, a.id) (by rw [← e]; exact List.mem_map.2 ⟨a, ha, rfl⟩)
  have hmap : ∀ l : List Attribute, (∀ a ∈ l, a ∈ f.attributes) →
      (l.map fun a => (a.packedOffset, a.packedWidth)).map Prod.snd =
        l.map fun a => packedBytes a.type := by
    intro l hl
    rw [List.map_map]
    exact List.map_congr_left fun a ha => (hw a (hl a ha)).2
  refine ⟨e, by rw [← e]; simp, ?_, hn, fun a ha => (hw a ha).2, ?_, ?_⟩
  · intro a ha
    rw [componentCount_eq]
    exact ⟨hn a ha, rfl⟩
  · intro j a ha
    have := ht.1 j (a.packedOffset, a.packedWidth) (by rw [List.getElem?_map, ha]; rfl)
    simp only at this
    rw [this, ← List.map_take, hmap _ (fun a ha => List.mem_of_mem_take ha)]
  · rw [ht.2, hmap _ (fun a ha => ha)]

theorem mapM_components {attrs : List (AttrType × AttrId)} {f : MeshFormat} (F : Fmt attrs f) :
    f.attributes.mapM (fun a => componentCount a.type) = some (attrs.map fun a => components a.1) := by
  rw [← F.map, List.map_map]
  have := F.comp
  revert this
  generalize f.attributes = l
  induction l with
  | nil => intro _; rfl
  | cons a l ih =>
    intro h
    simp [h a (by simp), ih (fun b hb => h b (by simp [hb]))]

theorem spans_ne_nil {attrs : List (AttrType × AttrId)} (hv : Valid attrs) {spans : List (List F32)}
    (h : spans.length = (attrs.map fun a => components a.1).sum) : spans ≠ [] := by
  rintro rfl
  obtain ⟨a, ha, -, hc⟩ := hv.position
  have := List.le_sum_of_mem (List.mem_map.2 ⟨a, ha, rfl⟩ :
    components a.1 ∈ attrs.map fun a => components a.1)
  simp only [List.length_nil] at h
  omega

/-- The rest of `Create`, after the checks. -/
def createRest (f : MeshFormat) (spans : List (List F32)) (tris : List Nat)
    (params : List (Option (List Coding))) (gs : List (List (List F32))) : Option (Option Mesh) :=
  if numVertices spans = 0 then
    (emptyMeshParams f.attributes).bind (Mesh.finish f (numVertices spans) gs tris none)
  else
    (computeAttributeBounds gs).bind fun b =>
      (computeCodingParamsArray f.attributes b params).bind fun r =>
        match r with
        | none => some none
        | some p => Mesh.finish f (numVertices spans) gs tris (some b) p

theorem create_cases {attrs : List (AttrType × AttrId)} {ixf : IndexFormat} {f : MeshFormat}
    (hf : create attrs ixf = some f) (spans : List (List F32)) (tris : List Nat)
    (params : List (Option (List Coding))) :
    (¬ Acceptable attrs spans tris → Mesh.create f spans tris params = some none) ∧
    (Acceptable attrs spans tris → ∃ gs, gs.length = attrs.length ∧
      (∀ j, j < attrs.length → gs[j]? = some (spansOf attrs spans j)) ∧
      Mesh.create f spans tris params = createRest f spans tris params gs) := by
  have F := fmt_of hf
  have hv := (create_eq hf).1
  unfold Mesh.create
  simp only [mapM_components F, Option.bind_eq_bind, Option.bind_some]
  by_cases h1 : (attrs.map fun a => components a.1).sum ≠ spans.length
  · rw [if_pos h1]
    exact ⟨fun _ => rfl, fun h => absurd h.count (Ne.symm h1)⟩
  rw [if_neg h1]
  have h1' : spans.length = (attrs.map fun a => components a.1).sum := by
    by_contra hc; exact h1 (Ne.symm hc)
  have hne := spans_ne_nil hv h1'
  obtain ⟨first, rest, rfl⟩ := List.exists_cons_of_ne_nil hne
  have hn : numVertices (first :: rest) = first.length := rfl
  simp only [List.getElem?_cons_zero, Option.bind_some]
  by_cases h2 : first.length > 65536
  · rw [if_pos h2]
    exact ⟨fun _ => rfl, fun h => absurd h.max (by rw [hn]; omega)⟩
  rw [if_neg h2]
  by_cases h3 : (!((first :: rest).drop 1).all fun s => decide (s.length = first.length)) = true
  · rw [if_pos h3]
    refine ⟨fun _ => rfl, fun h => absurd h3 ?_⟩
    simp only [Bool.not_eq_true, Bool.not_eq_false', List.all_eq_true, decide_eq_true_iff]
    intro s hs
    exact h.equal s (List.mem_of_mem_drop hs)
  rw [if_neg h3]
  have h3' : ∀ s ∈ first :: rest, s.length = first.length := by
    simp only [Bool.not_eq_true, Bool.not_eq_false', List.all_eq_true, decide_eq_true_iff] at h3
    intro s hs
    rcases List.mem_cons.1 hs with rfl | hs
    · rfl
    · exact h3 s hs
  by_cases h4 : (!(first :: rest).all fun s => s.all F32.isFinite) = true
  · rw [if_pos h4]
    refine ⟨fun _ => rfl, fun h => absurd h4 ?_⟩
    simp only [Bool.not_eq_true, Bool.not_eq_false', List.all_eq_true]
    exact h.finite
  rw [if_neg h4]
  have h4' : ∀ s ∈ first :: rest, ∀ x ∈ s, x.isFinite = true := by
    simpa only [Bool.not_eq_true, Bool.not_eq_false', List.all_eq_true] using h4
  by_cases h5 : tris.length % 3 ≠ 0
  · rw [if_pos h5]
    refine ⟨fun _ => rfl, fun h => absurd (Nat.mod_eq_zero_of_dvd h.triples) h5⟩
  rw [if_neg h5]
  by_cases h6 : (!tris.all fun i => decide (i < first.length)) = true
  · rw [if_pos h6]
    refine ⟨fun _ => rfl, fun h => absurd h6 ?_⟩
    simp only [Bool.not_eq_true, Bool.not_eq_false', List.all_eq_true, decide_eq_true_iff]
    exact h.inRange
  rw [if_neg h6]
  have h6' : ∀ i ∈ tris, i < first.length := by
    simpa only [Bool.not_eq_true, Bool.not_eq_false', List.all_eq_true, decide_eq_true_iff] using h6
  have hacc : Acceptable attrs (first :: rest) tris :=
    ⟨h1', by rw [hn]; omega, h3', h4', Nat.dvd_of_mod_eq_zero (by simpa using h5), h6'⟩
  refine ⟨fun h => absurd hacc h, fun _ => ?_⟩
  obtain ⟨gs, g1, g2, g3⟩ := spanGroups_eq f.attributes (first :: rest) F.comp
  rw [F.map] at g3
  refine ⟨gs, by rw [g2, F.len], fun j hj => g3 j (by rw [F.len]; exact hj), ?_⟩
  simp only [g1, Option.bind_some]
  unfold createRest
  rw [hn]
  by_cases h0 : first = []
  · subst h0; simp
  · rw [if_neg (by simpa using h0), if_neg (by simpa using h0)]
    rfl

theorem finish_ne (f : MeshFormat) (n : Nat) (gs : List (List (List F32))) (tris : List Nat)
    (b : Option (List (List F32 × List F32))) (p : List (List Coding)) :
    Mesh.finish f n gs tris b p ≠ some none := by
  unfold Mesh.finish
  cases packVertexByteData f n gs p with
  | none => simp
  | some x =>
    cases writeTris 0 tris (List.replicate (kBytesPerIndex * tris.length) 0) with
    | none => simp
    | some y => simp

theorem emptyMeshParams_eq {attrs : List (AttrType × AttrId)} {f : MeshFormat} (F : Fmt attrs f) :
    ∃ p, emptyMeshParams f.attributes = some p ∧ p.length = attrs.length := by
  obtain ⟨r, h1, h2⟩ := mapM_some (P := fun _ _ => True)
    (f := fun a : Attribute => (componentCount a.type).map fun n =>
      List.replicate n (⟨F32.zero, F32.ofInt 1⟩ : Coding)) f.attributes
    (fun a ha => ⟨_, by rw [F.comp a ha]; rfl, trivial⟩)
  exact ⟨r, h1, by rw [← h2.length_eq, F.len]⟩

/-! ## Coding parameters -/

theorem codingArrayLoop_eq : ∀ (as : List Attribute) (ps : List (Option (List Coding)))
    (bs : List (List F32 × List F32)), ps.length = as.length → bs.length = as.length →
    (∀ (j : Nat) (a : Attribute) (b : List F32 × List F32), as[j]? = some a → bs[j]? = some b →
      ∃ r, computeCodingParams a.type b.1 b.2 = some r) →
    ∃ r, codingArrayLoop as ps bs = some r ∧
      (r = none ↔ ∃ (j : Nat) (a : Attribute) (b : List F32 × List F32), as[j]? = some a ∧
        bs[j]? = some b ∧ ps[j]? = some none ∧ computeCodingParams a.type b.1 b.2 = some none) ∧
      ∀ css, r = some css → css.length = as.length ∧
        ∀ (j : Nat) (a : Attribute) (b : List F32 × List F32) (cs : List Coding),
          as[j]? = some a → bs[j]? = some b → css[j]? = some cs →
          ps[j]? = some (some cs) ∨
            ps[j]? = some none ∧ computeCodingParams a.type b.1 b.2 = some (some cs) := by
  intro as
  induction as with
  | nil =>
    intro ps bs _ _ _
    refine ⟨some [], rfl, by simp, ?_⟩
    intro css h
    cases h
    simp
  | cons a as ih =>
    intro ps bs h1 h2 h
    cases ps with
    | nil => simp at h1
    | cons p ps =>
    cases bs with
    | nil => simp at h2
    | cons b bs =>
    obtain ⟨r, e1, e2, e3⟩ := ih ps bs (by simpa using h1) (by simpa using h2)
      (fun j a' b' q1 q2 => h (j + 1) a' b' (by simpa using q1) (by simpa using q2))
    obtain ⟨r0, c0⟩ := h 0 a b rfl rfl
    -- this entry
    obtain ⟨c, hc, hcn, hcs⟩ : ∃ c, paramsOrCompute a.type p b = some c ∧
        (c = none ↔ p = none ∧ computeCodingParams a.type b.1 b.2 = some none) ∧
        (∀ cs, c = some cs → p = some cs ∨
          p = none ∧ computeCodingParams a.type b.1 b.2 = some (some cs)) := by
      cases p with
      | none =>
        refine ⟨r0, c0, ?_, ?_⟩
        · constructor
          · rintro rfl; exact ⟨rfl, c0⟩
          · rintro ⟨-, h'⟩; rw [c0] at h'; simpa using h'
        · rintro cs rfl; exact Or.inr ⟨rfl, c0⟩
      | some cs => exact ⟨some cs, rfl, by simp, by rintro cs' h'; cases h'; exact Or.inl rfl⟩
    simp only [codingArrayLoop, hc, Option.bind_some]
    cases c with
    | none =>
      have := hcn.1 rfl
      refine ⟨none, rfl, ?_, by simp⟩
      simp only [true_iff]
      exact ⟨0, a, b, rfl, rfl, by rw [this.1]; rfl, this.2⟩
    | some cs0 =>
      refine ⟨r.map (cs0 :: ·), by simp [e1], ?_, ?_⟩
      · rw [Option.map_eq_none_iff, e2]
        constructor
        · rintro ⟨j, a', b', q1, q2, q3, q4⟩
          exact ⟨j + 1, a', b', by simpa using q1, by simpa using q2, by simpa using q3, q4⟩
        · rintro ⟨j, a', b', q1, q2, q3, q4⟩
          cases j with
          | zero =>
            simp at q1 q2 q3; subst q1 q2 q3
            exact absurd (hcn.2 ⟨rfl, q4⟩) (by simp)
          | succ j => exact ⟨j, a', b', by simpa using q1, by simpa using q2, by simpa using q3, q4⟩
      · intro css hcss
        rw [Option.map_eq_some_iff] at hcss
        obtain ⟨css', rfl, rfl⟩ := hcss
        obtain ⟨l1, l2⟩ := e3 css' rfl
        refine ⟨by simp [l1], ?_⟩
        intro j a' b' cs q1 q2 q3
        cases j with
        | zero =>
          simp at q1 q2 q3; subst q1 q2 q3
          simpa using hcs _ rfl
        | succ j => simpa using l2 j a' b' cs (by simpa using q1) (by simpa using q2) (by simpa using q3)

theorem customLoop_iff : ∀ (as : List Attribute) (ps : List (Option (List Coding)))
    (bs : List (List F32 × List F32)), ps.length = as.length → bs.length = as.length →
    (customLoop as ps bs = true ↔ ∀ (j : Nat) (a : Attribute) (p : Option (List Coding))
      (b : List F32 × List F32), as[j]? = some a → ps[j]? = some p → bs[j]? = some b →
      customOk a.type p b = true) := by
  intro as
  induction as with
  | nil => intro ps bs h1 h2; simp [customLoop]
  | cons a as ih =>
    intro ps bs h1 h2
    cases ps with
    | nil => simp at h1
    | cons p ps =>
    cases bs with
    | nil => simp at h2
    | cons b bs =>
    have ih' := ih ps bs (by simpa using h1) (by simpa using h2)
    rw [customLoop]
    constructor
    · intro h j a' p' b' q1 q2 q3
      split_ifs at h with hh
      cases j with
      | zero => simp at q1 q2 q3; subst q1 q2 q3; exact hh
      | succ j => exact ih'.1 h j a' p' b' (by simpa using q1) (by simpa using q2) (by simpa using q3)
    · intro h
      rw [if_pos (h 0 a p b rfl rfl rfl)]
      exact ih'.2 fun j a' p' b' q1 q2 q3 => h (j + 1) a' p' b' (by simpa using q1) (by simpa using q2)
        (by simpa using q3)

/-- What is known about the spans of one attribute and its bounds. -/
structure AttrData (t : AttrType) (g : List (List F32)) (b : List F32 × List F32) : Prop where
  named : ∀ code, t ≠ .unnamed code
  len : g.length = components t
  fin : ∀ s ∈ g, ∀ x ∈ s, x.isFinite = true
  gb : GroupBounds g b

theorem AttrData.bound {t : AttrType} {g : List (List F32)} {b : List F32 × List F32}
    (D : AttrData t g b) {k : Nat} {lo hi : F32} (h1 : b.1[k]? = some lo) (h2 : b.2[k]? = some hi) :
    ∃ s, g[k]? = some s ∧ MinMax s lo hi ∧ lo.isFinite = true ∧ hi.isFinite = true ∧
      F32.le lo hi = true := by
  have hk := (List.getElem?_eq_some_iff.1 h1).1
  have hs := List.getElem?_eq_getElem (l := g) (i := k) (by rw [← D.gb.len1]; exact hk)
  have hm := D.gb.each k _ lo hi hs h1 h2
  have hmem := List.mem_of_getElem? hs
  exact ⟨_, hs, hm, D.fin _ hmem _ hm.lo_mem, D.fin _ hmem _ hm.hi_mem, hm.lo_le _ hm.hi_mem⟩

theorem AttrData.exists_bounds {t : AttrType} {g : List (List F32)} {b : List F32 × List F32}
    (D : AttrData t g b) {k : Nat} {s : List F32} (h : g[k]? = some s) :
    ∃ lo hi, b.1[k]? = some lo ∧ b.2[k]? = some hi ∧ MinMax s lo hi := by
  have hk := (List.getElem?_eq_some_iff.1 h).1
  have h1 := List.getElem?_eq_getElem (l := b.1) (i := k) (by rw [D.gb.len1]; exact hk)
  have h2 := List.getElem?_eq_getElem (l := b.2) (i := k) (by rw [D.gb.len2]; exact hk)
  exact ⟨_, _, h1, h2, D.gb.each k s _ _ h h1 h2⟩

theorem AttrData.coding {t : AttrType} {g : List (List F32)} {b : List F32 × List F32}
    (D : AttrData t g b) : ∃ r, computeCodingParams t b.1 b.2 = some r ∧
      (r = none ↔ IsPacked t ∧ ∃ s ∈ g, ∃ x ∈ s, ∃ y ∈ s, F32.ovf ≤ F32.toRat y - F32.toRat x) := by
  rcases packed_or t D.named with ⟨hp, -⟩ | ⟨hp, -⟩
  · obtain ⟨r, h1, h2⟩ := C12_coding_params_error_iff t b.1 b.2 hp
      (by rw [D.gb.len1, D.len]) (by rw [D.gb.len2, D.len]) (by
        intro i lo hi hl hh
        obtain ⟨s, -, -, f1, f2, f3⟩ := D.bound hl hh
        exact ⟨f1, f2, f3⟩)
    refine ⟨r, h1, h2.trans ?_⟩
    constructor
    · rintro ⟨i, lo, hi, hl, hh, ho⟩
      obtain ⟨s, hs, hm, -⟩ := D.bound hl hh
      exact ⟨hp, s, List.mem_of_getElem? hs, lo, hm.lo_mem, hi, hm.hi_mem, ho⟩
    · rintro ⟨-, s, hs, x, hx, y, hy, ho⟩
      obtain ⟨k, hk⟩ := List.getElem?_of_mem hs
      obtain ⟨lo, hi, hl, hh, hm⟩ := D.exists_bounds hk
      have a1 := (F32.le_iff (D.fin s hs _ hm.lo_mem) (D.fin s hs x hx)).1 (hm.lo_le x hx)
      have a2 := (F32.le_iff (D.fin s hs y hy) (D.fin s hs _ hm.hi_mem)).1 (hm.le_hi y hy)
      exact ⟨k, lo, hi, hl, hh, by linarith⟩
  · obtain ⟨cs, h1, -⟩ := C12_unpacked_params t b.1 b.2 hp D.named
    exact ⟨some cs, h1, by simp [hp]⟩

theorem bits_le (t : AttrType) : ∀ b ∈ bits t, 2 ≤ b ∧ b ≤ 20 := by
  cases t <;> simp [bits]

theorem AttrData.custom {t : AttrType} {g : List (List F32)} {b : List F32 × List F32}
    (D : AttrData t g b) (cs : List Coding) :
    customOk t (some cs) b = true ↔ IsPacked t ∧ cs.length = components t ∧
      (∀ c ∈ cs, c.offset.isFinite = true ∧ c.scale.isFinite = true ∧
        F32.lt F32.zero c.scale = true) ∧
      ∀ (k n : Nat) (c : Coding) (s : List F32), (bits t)[k]? = some n → cs[k]? = some c →
        g[k]? = some s → ∀ v ∈ s, Representable n c v := by
  unfold customOk
  simp only
  rcases packed_or t D.named with ⟨hp, hu⟩ | ⟨hp, hu⟩
  · rw [hu]
    simp only [Bool.false_eq_true, if_false]
    have hcc : componentCount t = some (components t) := by
      rw [componentCount_eq]; exact ⟨D.named, rfl⟩
    have hvalid : isValidCodingParams t cs = true ↔ cs.length = components t ∧
        ∀ c ∈ cs, c.offset.isFinite = true ∧ c.scale.isFinite = true ∧
          F32.lt F32.zero c.scale = true := by
      unfold isValidCodingParams
      rw [packedBits_eq t hp, hcc]
      simp only [Option.some.injEq, reduceCtorEq, if_false]
      by_cases hl : cs.length = components t
      · rw [if_neg (by simp [hl])]
        simp [List.all_eq_true, hl, and_assoc]
      · rw [if_pos (by simp [hl])]
        simp [hl]
    by_cases hv : isValidCodingParams t cs = true
    · rw [hv]
      simp only [Bool.not_true, Bool.false_eq_true, if_false]
      obtain ⟨hl, hc⟩ := hvalid.1 hv
      have lb := length_bits t hp
      have l1 : b.1.length = (bits t).length := by rw [D.gb.len1, D.len, lb]
      have l2 : b.2.length = (bits t).length := by rw [D.gb.len2, D.len, lb]
      have fin1 : ∀ v ∈ b.1, v.isFinite = true := by
        intro v hv
        obtain ⟨k, hk⟩ := List.getElem?_of_mem hv
        have hlt := (List.getElem?_eq_some_iff.1 hk).1
        obtain ⟨s, -, -, f1, -⟩ := D.bound hk
          (List.getElem?_eq_getElem (l := b.2) (i := k) (by omega))
        exact f1
      have fin2 : ∀ v ∈ b.2, v.isFinite = true := by
        intro v hv
        obtain ⟨k, hk⟩ := List.getElem?_of_mem hv
        have hlt := (List.getElem?_eq_some_iff.1 hk).1
        obtain ⟨s, -, -, -, f1, -⟩ := D.bound
          (List.getElem?_eq_getElem (l := b.1) (i := k) (by omega)) hk
        exact f1
      have r1 := representableLoop_iff (bits t) cs b.1 (by rw [hl, lb]) l1
        (fun n hn => (bits_le t n hn).2) hc fin1
      have r2 := representableLoop_iff (bits t) cs b.2 (by rw [hl, lb]) l2
        (fun n hn => (bits_le t n hn).2) hc fin2
      have e : ∀ vs, valuesRepresentable t cs vs = representableLoop (bits t) cs vs := by
        intro vs; unfold valuesRepresentable; rw [packedBits_eq t hp]
      rw [e, e]
      have hif : (if (!representableLoop (bits t) cs b.1 || !representableLoop (bits t) cs b.2) = true
          then false else true) = true ↔
          representableLoop (bits t) cs b.1 = true ∧ representableLoop (bits t) cs b.2 = true := by
        cases representableLoop (bits t) cs b.1 <;> cases representableLoop (bits t) cs b.2 <;> simp
      rw [hif, r1, r2]
      constructor
      · rintro ⟨a1, a2⟩
        refine ⟨hp, hl, hc, ?_⟩
        intro k n c s e1 e2 e3 v hv
        obtain ⟨lo, hi, h1, h2, hm⟩ := D.exists_bounds e3
        have hmem := List.mem_of_getElem? e3
        exact representable_between (hc c (List.mem_of_getElem? e2)) (D.fin s hmem _ hm.lo_mem)
          (D.fin s hmem v hv) (D.fin s hmem _ hm.hi_mem) (hm.lo_le v hv) (hm.le_hi v hv)
          (a1 k n c lo e1 e2 h1) (a2 k n c hi e1 e2 h2)
      · rintro ⟨-, -, -, h⟩
        constructor
        · intro k n c v e1 e2 e3
          have hlt := (List.getElem?_eq_some_iff.1 e3).1
          obtain ⟨s, hs, hm, -⟩ := D.bound e3
            (List.getElem?_eq_getElem (l := b.2) (i := k) (by omega))
          exact h k n c s e1 e2 hs v hm.lo_mem
        · intro k n c v e1 e2 e3
          have hlt := (List.getElem?_eq_some_iff.1 e3).1
          obtain ⟨s, hs, hm, -⟩ := D.bound
            (List.getElem?_eq_getElem (l := b.1) (i := k) (by omega)) e3
          exact h k n c s e1 e2 hs v hm.hi_mem
    · have hv' := (Bool.not_eq_true _).mp hv
      rw [hv']
      simp only [Bool.not_false, if_true, Bool.false_eq_true, false_iff]
      rintro ⟨-, h1, h2, -⟩
      exact hv (hvalid.2 ⟨h1, h2⟩)
  · rw [hu]; simp [hp]

/-! ## Errors -/

theorem mem_spansOf {attrs : List (AttrType × AttrId)} {spans : List (List F32)} {j : Nat}
    {s : List F32} (h : s ∈ spansOf attrs spans j) : s ∈ spans :=
  List.mem_of_mem_drop (List.mem_of_mem_take h)

theorem length_spansOf {attrs : List (AttrType × AttrId)} {spans : List (List F32)}
    (hc : spans.length = (attrs.map fun a => components a.1).sum) {j : Nat} {a : AttrType × AttrId}
    (h : attrs[j]? = some a) : (spansOf attrs spans j).length = components a.1 := by
  unfold spansOf
  rw [h]
  simp only [Option.map_some, Option.getD_some, List.length_take, List.length_drop]
  have hj := (List.getElem?_eq_some_iff.1 h).1
  have e : attrs = attrs.take j ++ a :: attrs.drop (j + 1) := by
    rw [← (List.getElem?_eq_some_iff.1 h).2]; simp
  have hs : (attrs.map fun a => components a.1).sum =
      ((attrs.take j).map fun a => components a.1).sum + (components a.1 +
        ((attrs.drop (j + 1)).map fun a => components a.1).sum) := by
    conv_lhs => rw [e]
    simp
  omega

/-- The bounds of all attributes. -/
theorem allData {attrs : List (AttrType × AttrId)} {ixf : IndexFormat} {f : MeshFormat}
    (hf : create attrs ixf = some f) {spans : List (List F32)} {tris : List Nat}
    (ha : Acceptable attrs spans tris) (hn : 0 < numVertices spans)
    {gs : List (List (List F32))} (hg : gs.length = attrs.length)
    (hg2 : ∀ j, j < attrs.length → gs[j]? = some (spansOf attrs spans j)) :
    ∃ b, computeAttributeBounds gs = some b ∧ b.length = attrs.length ∧
      ∀ (j : Nat) (a : AttrType × AttrId) (bj : List F32 × List F32), attrs[j]? = some a →
        b[j]? = some bj → AttrData a.1 (spansOf attrs spans j) bj := by
  have hmem : ∀ g ∈ gs, ∀ s ∈ g, s ∈ spans := by
    intro g hgm s hs
    obtain ⟨j, hj⟩ := List.getElem?_of_mem hgm
    have := hg2 j (by rw [← hg]; exact (List.getElem?_eq_some_iff.1 hj).1)
    rw [hj] at this
    cases this
    exact mem_spansOf hs
  obtain ⟨b, h1, h2⟩ := computeAttributeBounds_eq gs
    (by
      intro g hgm s hs hnil
      have := ha.equal s (hmem g hgm s hs)
      rw [hnil] at this; simp at this; omega)
    (fun g hgm s hs => ha.finite s (hmem g hgm s hs))
  refine ⟨b, h1, by rw [← h2.length_eq, hg], ?_⟩
  intro j a bj hj hb
  have hlt := (List.getElem?_eq_some_iff.1 hj).1
  obtain ⟨g, hgj, hgb⟩ := forall₂_right h2 hb
  rw [hg2 j hlt] at hgj
  cases hgj
  exact ⟨(create_eq hf).1.namedType a (List.mem_of_getElem? hj), length_spansOf ha.count hj,
    fun s hs => ha.finite s (mem_spansOf hs), hgb⟩

theorem attr_at {attrs : List (AttrType × AttrId)} {f : MeshFormat} (F : Fmt attrs f) {j : Nat}
    {a : Attribute} (h : f.attributes[j]? = some a) : attrs[j]? = some (a.type, a.id) := by
  rw [← F.map, List.getElem?_map, h]; rfl

theorem at_attr {attrs : List (AttrType × AttrId)} {f : MeshFormat} (F : Fmt attrs f) {j : Nat}
    {a : AttrType × AttrId} (h : attrs[j]? = some a) :
    ∃ a', f.attributes[j]? = some a' ∧ a'.type = a.1 := by
  rw [← F.map, List.getElem?_map, Option.map_eq_some_iff] at h
  obtain ⟨a', h1, rfl⟩ := h
  exact ⟨a', h1, rfl⟩

/-- The result of `ComputeCodingParamsArray`. -/
theorem codingArray {attrs : List (AttrType × AttrId)} {ixf : IndexFormat} {f : MeshFormat}
    (hf : create attrs ixf = some f) {spans : List (List F32)}
    {b : List (List F32 × List F32)} (hb : b.length = attrs.length)
    (hD : ∀ (j : Nat) (a : AttrType × AttrId) (bj : List F32 × List F32), attrs[j]? = some a →
        b[j]? = some bj → AttrData a.1 (spansOf attrs spans j) bj)
    (params : List (Option (List Coding))) :
    ∃ r, computeCodingParamsArray f.attributes b params = some r ∧
      (r = none ↔ ¬ ParamsOk attrs spans params ∨ ∃ (j : Nat) (a : AttrType × AttrId),
        attrs[j]? = some a ∧ IsPacked a.1 ∧ NotGiven params j ∧ RangeOverflows attrs spans j) ∧
      ∀ css, r = some css → css.length = attrs.length ∧
        ∀ (j : Nat) (a : AttrType × AttrId) (bj : List F32 × List F32) (cs : List Coding),
          attrs[j]? = some a → b[j]? = some bj → css[j]? = some cs →
          params[j]? = some (some cs) ∨
            NotGiven params j ∧ computeCodingParams a.1 bj.1 bj.2 = some (some cs) := by
  have F := fmt_of hf
  have hcod : ∀ (j : Nat) (a : Attribute) (bj : List F32 × List F32), f.attributes[j]? = some a →
      b[j]? = some bj → ∃ r, computeCodingParams a.type bj.1 bj.2 = some r := by
    intro j a bj h1 h2
    obtain ⟨r, h, -⟩ := (hD j _ bj (attr_at F h1) h2).coding
    exact ⟨r, h⟩
  -- the loop, for a list `ps` that has an entry for each attribute
  have loop : ∀ ps : List (Option (List Coding)), ps.length = attrs.length →
      (∀ j, j < attrs.length → (ps[j]? = some none ↔ NotGiven params j)) →
      (∀ (j : Nat) (cs : List Coding), ps[j]? = some (some cs) → params[j]? = some (some cs)) →
      ∃ r, codingArrayLoop f.attributes ps b = some r ∧
      (r = none ↔ ∃ (j : Nat) (a : AttrType × AttrId),
        attrs[j]? = some a ∧ IsPacked a.1 ∧ NotGiven params j ∧ RangeOverflows attrs spans j) ∧
      ∀ css, r = some css → css.length = attrs.length ∧
        ∀ (j : Nat) (a : AttrType × AttrId) (bj : List F32 × List F32) (cs : List Coding),
          attrs[j]? = some a → b[j]? = some bj → css[j]? = some cs →
          params[j]? = some (some cs) ∨
            NotGiven params j ∧ computeCodingParams a.1 bj.1 bj.2 = some (some cs) := by
    intro ps hps hng hgiven
    obtain ⟨r, h1, h2, h3⟩ := codingArrayLoop_eq f.attributes ps b (by rw [hps, F.len])
      (by rw [hb, F.len]) hcod
    refine ⟨r, h1, h2.trans ?_, ?_⟩
    · constructor
      · rintro ⟨j, a, bj, q1, q2, q3, q4⟩
        have D := hD j _ bj (attr_at F q1) q2
        obtain ⟨r', h4, h5⟩ := D.coding
        simp only at h4
        rw [q4] at h4
        cases h4
        obtain ⟨p1, p2⟩ := h5.1 rfl
        exact ⟨j, _, attr_at F q1, p1,
          (hng j (List.getElem?_eq_some_iff.1 (attr_at F q1)).1).1 q3, p2⟩
      · rintro ⟨j, a, q1, q2, q3, q4⟩
        obtain ⟨a', q5, q6⟩ := at_attr F q1
        have hlt := (List.getElem?_eq_some_iff.1 q1).1
        have hbj := List.getElem?_eq_getElem (l := b) (i := j) (by omega)
        have D := hD j a _ q1 hbj
        obtain ⟨r', h4, h5⟩ := D.coding
        refine ⟨j, a', _, q5, hbj, (hng j hlt).2 q3, ?_⟩
        rw [q6, h4, h5.2 ⟨q2, q4⟩]
    · intro css hcss
      obtain ⟨l1, l2⟩ := h3 css hcss
      refine ⟨by rw [l1, F.len], ?_⟩
      intro j a bj cs q1 q2 q3
      obtain ⟨a', q5, q6⟩ := at_attr F q1
      rcases l2 j a' bj cs q5 q2 q3 with h | ⟨h, h'⟩
      · exact Or.inl (hgiven j cs h)
      · rw [q6] at h'
        exact Or.inr ⟨(hng j (List.getElem?_eq_some_iff.1 q1).1).1 h, h'⟩
  unfold computeCodingParamsArray
  rw [if_neg (by rw [hb, F.len]; simp)]
  by_cases he : params = []
  · subst he
    obtain ⟨r, h1, h2, h3⟩ := loop (List.replicate f.attributes.length none) (by simp [F.len])
      (by intro j hj; rw [← F.len] at hj; simp [NotGiven, hj])
      (by intro j cs h
          rw [List.getElem?_replicate] at h
          split_ifs at h
          simp at h)
    exact ⟨r, h1, by rw [h2]; simp [ParamsOk], h3⟩
  · rw [if_neg (by simpa using he)]
    by_cases hl : params.length = attrs.length
    · rw [if_neg (by rw [hl, F.len]; simp)]
      have hpar : customLoop f.attributes params b = true ↔ ParamsOk attrs spans params := by
        rw [customLoop_iff f.attributes params b (by rw [hl, F.len]) (by rw [hb, F.len])]
        constructor
        · intro h
          refine Or.inr ⟨hl, ?_⟩
          intro j a cs q1 q2
          obtain ⟨a', q5, q6⟩ := at_attr F q1
          have hlt := (List.getElem?_eq_some_iff.1 q1).1
          have hbj := List.getElem?_eq_getElem (l := b) (i := j) (by omega)
          have D := hD j a _ q1 hbj
          have := h j a' (some cs) _ q5 q2 hbj
          rw [q6, D.custom] at this
          exact ⟨this.1, this.2.1, this.2.2.1, this.2.2.2⟩
        · rintro (h | ⟨-, h⟩)
          · exact absurd h he
          · intro j a p bj q1 q2 q3
            cases p with
            | none => rfl
            | some cs =>
              have D := hD j _ bj (attr_at F q1) q3
              have P := h j _ cs (attr_at F q1) q2
              exact (D.custom cs).2 ⟨P.packed, P.size, P.valid, P.reach⟩
      by_cases hc : customLoop f.attributes params b = true
      · rw [hc]
        simp only [Bool.not_true, Bool.false_eq_true, if_false]
        obtain ⟨r, h1, h2, h3⟩ := loop params hl
          (by
            intro j hj
            rw [← hl] at hj
            unfold NotGiven
            rw [List.getElem?_eq_getElem hj]
            cases params[j] <;> simp)
          (fun _ _ h => h)
        exact ⟨r, h1, by rw [h2]; simp [hpar.1 hc], h3⟩
      · have hc' := (Bool.not_eq_true _).mp hc
        rw [hc']
        refine ⟨none, rfl, ?_, by simp⟩
        simp only [true_iff]
        exact Or.inl fun h => hc (hpar.2 h)
    · rw [if_pos (by rw [F.len]; exact hl)]
      refine ⟨none, rfl, ?_, by simp⟩
      simp only [true_iff]
      refine Or.inl ?_
      rintro (h | ⟨h, -⟩)
      · exact he h
      · exact hl h

/-- `Mesh::Create` returns an error exactly when the spans, the triangle indices or the coding
parameters break a documented requirement, or when the values of a component of a packed attribute
without given coding parameters are further apart than the largest float. In particular it rejects
exactly the triangle index lists whose length is not a multiple of three or that mention a vertex that
does not exist. The coding parameters do not matter when there are no vertices. -/
theorem C40_create_error_iff {attrs : List (AttrType × AttrId)} {ixf : IndexFormat} {f : MeshFormat}
    (hf : create attrs ixf = some f) (spans : List (List F32)) (tris : List Nat)
    (params : List (Option (List Coding))) :
    Mesh.create f spans tris params = some none ↔
      ¬ Acceptable attrs spans tris ∨
      0 < numVertices spans ∧ (¬ ParamsOk attrs spans params ∨
        ∃ (j : Nat) (a : AttrType × AttrId), attrs[j]? = some a ∧ IsPacked a.1 ∧
          NotGiven params j ∧ RangeOverflows attrs spans j) := by
  obtain ⟨h1, h2⟩ := create_cases hf spans tris params
  by_cases ha : Acceptable attrs spans tris
  · obtain ⟨gs, g1, g2, g3⟩ := h2 ha
    rw [g3]
    unfold createRest
    by_cases hn : numVertices spans = 0
    · rw [if_pos hn]
      obtain ⟨p, hp, -⟩ := emptyMeshParams_eq (fmt_of hf)
      rw [hp, Option.bind_some]
      simp [finish_ne, ha, hn]
    · rw [if_neg hn]
      have hn' : 0 < numVertices spans := Nat.pos_of_ne_zero hn
      obtain ⟨b, b1, b2, b3⟩ := allData hf ha hn' g1 g2
      obtain ⟨r, r1, r2, -⟩ := codingArray hf b2 b3 params
      rw [b1, Option.bind_some, r1, Option.bind_some]
      have : (¬ Acceptable attrs spans tris ∨
          0 < numVertices spans ∧ (¬ ParamsOk attrs spans params ∨
            ∃ (j : Nat) (a : AttrType × AttrId), attrs[j]? = some a ∧ IsPacked a.1 ∧
              NotGiven params j ∧ RangeOverflows attrs spans j)) ↔ r = none := by
        rw [r2]; tauto
      rw [this]
      cases r with
      | none => simp
      | some css => simp [finish_ne]
  · exact ⟨fun _ => Or.inl ha, fun _ => h1 ha⟩

/-! ## Contents -/

theorem mapM_valueAt {g : List (List F32)} {i n : Nat} (h : ∀ s ∈ g, s.length = n) (hi : i < n) :
    g.mapM (·[i]?) = some (g.map fun s => s.getD i F32.zero) := by
  induction g with
  | nil => rfl
  | cons s g ih =>
    have hs := h s (by simp)
    have : s[i]? = some (s.getD i F32.zero) := by
      rw [List.getD_eq_getElem?_getD, List.getElem?_eq_getElem (by omega)]; rfl
    rw [List.mapM_cons, this, ih (fun s hs => h s (by simp [hs]))]
    rfl

theorem stride_pos {attrs : List (AttrType × AttrId)} {f : MeshFormat} (F : Fmt attrs f)
    (hv : Valid attrs) : 0 < f.packedStride := by
  obtain ⟨a, ha, -, hc⟩ := hv.position
  rw [← F.map] at ha
  obtain ⟨a', ha', rfl⟩ := List.mem_map.1 ha
  have := List.le_sum_of_mem (List.mem_map.2 ⟨a', ha', rfl⟩ :
    packedBytes a'.type ∈ f.attributes.map fun a => packedBytes a.type)
  rw [F.stride]
  have : 0 < packedBytes a'.type := by
    revert hc
    simp only
    cases a'.type <;> simp [components, packedBytes]
  omega

/-- The blocks of vertex `i`. -/
def blocksOf (f : MeshFormat) (attrs : List (AttrType × AttrId)) (spans : List (List F32))
    (css : List (List Coding)) (i : Nat) : List (List Nat) :=
  (List.range f.attributes.length).map fun j =>
    ((f.attributes[j]?).bind fun a => (css[j]?).bind fun cs =>
      packAttribute a.type cs (valueAt attrs spans i j)).getD []

theorem finish_eq {attrs : List (AttrType × AttrId)} {ixf : IndexFormat} {f : MeshFormat}
    (hf : create attrs ixf = some f) {spans : List (List F32)} {tris : List Nat}
    (ha : Acceptable attrs spans tris) (ht : (triples tris).length < maxCount)
    {gs : List (List (List F32))} (hg : gs.length = attrs.length)
    (hg2 : ∀ j, j < attrs.length → gs[j]? = some (spansOf attrs spans j))
    (bounds : Option (List (List F32 × List F32))) {css : List (List Coding)}
    (hc : css.length = attrs.length)
    (hp : ∀ i, i < numVertices spans → ∀ (j : Nat) (a : AttrType × AttrId) (cs : List Coding),
      attrs[j]? = some a → css[j]? = some cs →
      ∃ blk, packAttribute a.1 cs (valueAt attrs spans i j) = some blk ∧
        blk.length = packedBytes a.1) :
    ∃ m, Mesh.finish f (numVertices spans) gs tris bounds css = some (some m) ∧
      m.format = f ∧ m.unpackingParams = css ∧ m.attributeBounds = bounds ∧
      m.vertexCount = numVertices spans ∧ m.triangleCount = (triples tris).length ∧
      (∀ i, m.triangleIndices i = (triples tris)[i]?) ∧
      ∀ i, i < numVertices spans → ∀ (j : Nat) (a : AttrType × AttrId) (cs : List Coding)
        (blk : List Nat), attrs[j]? = some a → css[j]? = some cs →
        packAttribute a.1 cs (valueAt attrs spans i j) = some blk →
        m.packedVertexAttribute i j = some blk := by
  have F := fmt_of hf
  have hv := (create_eq hf).1
  set n := numVertices spans with hn
  set B := blocksOf f attrs spans css with hB
  -- the blocks
  have hblk : ∀ i, i < n → ∀ (j : Nat) (a : Attribute) (cs : List Coding),
      f.attributes[j]? = some a → css[j]? = some cs →
      ∃ blk, packAttribute a.type cs (valueAt attrs spans i j) = some blk ∧
        blk.length = packedBytes a.type ∧ (B i)[j]? = some blk := by
    intro i hi j a cs h1 h2
    obtain ⟨blk, e1, e2⟩ := hp i hi j _ cs (attr_at F h1) h2
    refine ⟨blk, e1, e2, ?_⟩
    have hlt := (List.getElem?_eq_some_iff.1 h1).1
    simp only at e1
    simp [hB, blocksOf, List.getElem?_map, List.getElem?_range hlt, h1, h2, e1]
  have hBlen : ∀ i, (B i).length = f.attributes.length := by
    intro i; simp [hB, blocksOf]
  have hBmap : ∀ i, i < n → (B i).map List.length = f.attributes.map fun a => packedBytes a.type := by
    intro i hi
    apply List.ext_getElem?
    intro j
    rw [List.getElem?_map, List.getElem?_map]
    cases hj : f.attributes[j]? with
    | none =>
      rw [List.getElem?_eq_none_iff] at hj
      rw [List.getElem?_eq_none (by rw [hBlen]; exact hj)]; rfl
    | some a =>
      have hlt := (List.getElem?_eq_some_iff.1 hj).1
      have hcs := List.getElem?_eq_getElem (l := css) (i := j) (by rw [hc, ← F.len]; exact hlt)
      obtain ⟨blk, e1, e2, e3⟩ := hblk i hi j a _ hj hcs
      rw [e3]; simp [e2]
  have hBstride : ∀ i, i < n → (B i).flatten.length = f.packedStride := by
    intro i hi
    rw [List.length_flatten, hBmap i hi, F.stride]
  have hBoff : ∀ i, i < n → ∀ (j : Nat) (a : Attribute), f.attributes[j]? = some a →
      a.packedOffset = (((B i).take j).map List.length).sum := by
    intro i hi j a h1
    rw [List.map_take, hBmap i hi, F.off j a h1, List.map_take]
  have hpack : packVertexByteData f n gs css =
      some ((List.range' 0 n).flatMap fun i => (B i).flatten) := by
    unfold packVertexByteData
    have := packVertices_eq f css gs B (by rw [hc, F.len]) (by rw [hg, F.len]) n
      (by
        intro i hi
        refine ⟨hBlen i, hBstride i hi, ?_⟩
        intro j a cs g blk q1 q2 q3 q4
        have hlt := (List.getElem?_eq_some_iff.1 q1).1
        rw [hg2 j (by rw [← F.len]; exact hlt)] at q3
        cases q3
        obtain ⟨blk', e1, e2, e3⟩ := hblk i hi j a cs q1 q2
        rw [q4] at e3
        cases e3
        exact ⟨⟨valueAt attrs spans i j, mapM_valueAt
          (fun s hs => ha.equal s (mem_spansOf hs)) hi, e1⟩, hBoff i hi j a q1⟩)
      n 0 [] (List.replicate (n * f.packedStride) 0) (by omega) (by simp) (by simp)
    simpa using this
  have htri : writeTris 0 tris (List.replicate (kBytesPerIndex * tris.length) 0) =
      some (indexBytesOf 2 (triples tris)) := writeTris_all tris ha.triples
  unfold Mesh.finish
  rw [hpack, htri]
  refine ⟨_, rfl, rfl, rfl, rfl, ?_, ?_, ?_, ?_⟩
  · simp only [Mesh.ofData]
    rw [length_blocks (k := f.packedStride)]
    · rw [List.length_range', Nat.mul_div_cancel _ (stride_pos F hv)]
      exact u32_of_lt (by have := ha.max; unfold maxCount; omega)
    · intro i hi; apply hBstride; have := List.mem_range'_1.1 hi; omega
  · simp only [Mesh.ofData, kBytesPerIndex]
    rw [length_indexBytesOf]
    have : (triples tris).length * (3 * 2) / (3 * 2) = (triples tris).length := by omega
    rw [this]
    exact u32_of_lt ht
  · intro i
    simp only [Mesh.triangleIndices, Mesh.ofData, kBytesPerIndex]
    have hfit : ∀ t ∈ triples tris, TriFits 2 t := by
      have key : ∀ l : List Nat, (∀ i ∈ l, i < 65536) → ∀ t ∈ triples l, TriFits 2 t := by
        intro l
        induction l using triples.induct with
        | case1 a b c rest ih =>
          intro h t htm
          simp only [triples, List.mem_cons] at htm
          rcases htm with rfl | htm
          · exact ⟨h a (by simp), h b (by simp), h c (by simp)⟩
          · exact ih (fun i hi => h i (by simp [hi])) t htm
        | case2 l hl => intro h t htm; simp [triples] at htm
      exact key tris fun i hi => lt_of_lt_of_le (ha.inRange i hi) ha.max
    by_cases hi : i < (triples tris).length
    · rw [C40_read_triangle 2 (Or.inl rfl) _ hfit i hi, List.getElem?_eq_getElem hi]
    · rw [List.getElem?_eq_none (by omega), readTri_none _ _ (Or.inl rfl)]
      rw [length_indexBytesOf]; omega
  · intro i hi j a cs blk q1 q2 q3
    obtain ⟨a', q5, q6⟩ := at_attr F q1
    obtain ⟨blk', e1, e2, e3⟩ := hblk i hi j a' cs q5 q2
    rw [q6, q3] at e1
    cases e1
    simp only [Mesh.packedVertexAttribute, Mesh.ofData, q5, Option.bind_eq_bind, Option.bind_some]
    rw [hBoff i hi j a' q5, F.width a' (List.mem_of_getElem? q5), ← e2]
    exact read_packed B hBstride i j hi _ e3

theorem packComponents_given : ∀ (bs : List Nat) (cs : List Coding) (vs : List F32),
    cs.length = bs.length → vs.length = bs.length → (∀ b ∈ bs, b ≤ 20) →
    (∀ (k b : Nat) (c : Coding) (v : F32), bs[k]? = some b → cs[k]? = some c → vs[k]? = some v →
      Representable b c v) →
    ∃ ks, packComponents cs vs = some ks ∧ List.Forall₂ (fun k b => k < 2 ^ b) ks bs ∧
      unpackComponents cs ks = some (List.zipWith unpackSingleFloat cs ks) ∧
      ∀ (k : Nat) (c : Coding) (v : F32) (z : Nat), cs[k]? = some c → vs[k]? = some v →
        ks[k]? = some z → F32.toRat (F32.fround (F32.div (F32.sub v c.offset) c.scale)) = z := by
  intro bs
  induction bs with
  | nil =>
    intro cs vs h1 h2 _ _
    have e1 : cs = [] := List.length_eq_zero_iff.1 h1
    have e2 : vs = [] := List.length_eq_zero_iff.1 h2
    subst e1 e2
    exact ⟨[], rfl, List.Forall₂.nil, rfl, by simp⟩
  | cons b bs ih =>
    intro cs vs h1 h2 hb h
    cases cs with
    | nil => simp at h1
    | cons c cs =>
    cases vs with
    | nil => simp at h2
    | cons v vs =>
    obtain ⟨ks, e1, e2, e3, e4⟩ := ih cs vs (by simpa using h1) (by simpa using h2)
      (fun b hb' => hb b (by simp [hb']))
      (fun k b' c' v' q1 q2 q3 => h (k + 1) b' c' v' (by simpa using q1) (by simpa using q2)
        (by simpa using q3))
    obtain ⟨z, z1, z2, z3⟩ := representable_pack (hb b (by simp)) (h 0 b c v rfl rfl rfl)
    refine ⟨z :: ks, by simp [packComponents, z1, e1], List.Forall₂.cons z2 e2,
      by simp [unpackComponents, e3], ?_⟩
    intro k c' v' z' q1 q2 q3
    cases k with
    | zero => simp at q1 q2 q3; subst q1 q2 q3; exact z3
    | succ k => exact e4 k c' v' z' (by simpa using q1) (by simpa using q2) (by simpa using q3)

/-- What a mesh keeps of attribute `j`, at vertex `i`. -/
structure Kept (attrs : List (AttrType × AttrId)) (spans : List (List F32))
    (params : List (Option (List Coding))) (m : Mesh) (i j : Nat) (t : AttrType) : Prop where
  /-- Unpacked attributes are kept exactly. -/
  exactly : ¬ IsPacked t → m.floatVertexAttribute i j = some (valueAt attrs spans i j)
  /-- With given coding parameters, each component is stored as `(v - offset) / scale`, rounded to an
  integer, and read back as that integer times scale plus offset. -/
  given : IsPacked t → ∀ cs, params[j]? = some (some cs) → ∃ ks,
    m.packedIntegers i j = some ks ∧ Fits t ks ∧
    m.floatVertexAttribute i j = some (List.zipWith (fun c (k : Nat) =>
      F32.add (F32.mul (F32.ofInt k) c.scale) c.offset) cs ks) ∧
    ∀ (k : Nat) (c : Coding) (v : F32) (z : Nat), cs[k]? = some c →
      (valueAt attrs spans i j)[k]? = some v → ks[k]? = some z →
      F32.toRat (F32.fround (F32.div (F32.sub v c.offset) c.scale)) = z
  /-- Without, each component is read back close to its value, within the bounds of the attribute. -/
  close : IsPacked t → NotGiven params j → ∃ los his us,
    m.attributeBoundsOf j = some (some (los, his)) ∧
    m.floatVertexAttribute i j = some us ∧ us.length = components t ∧
    ∀ (k b : Nat) (lo hi v u : F32), (bits t)[k]? = some b → los[k]? = some lo →
      his[k]? = some hi → (valueAt attrs spans i j)[k]? = some v → us[k]? = some u →
      Close b lo hi v u

/-- A mesh made from acceptable spans, triangles and coding parameters has the vertices and the
triangles that were given, and the smallest and largest value of each component as bounds.

Partial: without given coding parameters, the values of a packed component must be `Quantisable`. For
other values the code breaks its promise (`C12_narrow_range_counterexample` and its neighbours).
2^32 triangles or more are not counted correctly. -/
theorem C40_create_contents_partial {attrs : List (AttrType × AttrId)} {ixf : IndexFormat}
    {f : MeshFormat} (hf : create attrs ixf = some f) (spans : List (List F32)) (tris : List Nat)
    (params : List (Option (List Coding))) (ha : Acceptable attrs spans tris)
    (ht : (triples tris).length < maxCount)
    (hp : numVertices spans = 0 ∨ ParamsOk attrs spans params)
    (hq : ∀ (j : Nat) (a : AttrType × AttrId), attrs[j]? = some a → IsPacked a.1 →
      NotGiven params j → ∀ (k b : Nat) (s : List F32), (bits a.1)[k]? = some b →
      (spansOf attrs spans j)[k]? = some s → Quantisable b s) :
    ∃ m, Mesh.create f spans tris params = some (some m) ∧ m.format = f ∧
      m.vertexCount = numVertices spans ∧ m.triangleCount = (triples tris).length ∧
      (∀ i, m.triangleIndices i = (triples tris)[i]?) ∧
      (∀ (i j : Nat) (a : AttrType × AttrId), i < numVertices spans → attrs[j]? = some a →
        Kept attrs spans params m i j a.1) ∧
      (numVertices spans = 0 → ∀ j, j < attrs.length → m.attributeBoundsOf j = some none) ∧
      (0 < numVertices spans → ∀ j, j < attrs.length → ∃ los his,
        m.attributeBoundsOf j = some (some (los, his)) ∧
        los.length = (spansOf attrs spans j).length ∧ his.length = (spansOf attrs spans j).length ∧
        ∀ (k : Nat) (s : List F32) (lo hi : F32), (spansOf attrs spans j)[k]? = some s →
          los[k]? = some lo → his[k]? = some hi →
          lo ∈ s ∧ hi ∈ s ∧ ∀ v ∈ s, F32.le lo v = true ∧ F32.le v hi = true) := by
  have F := fmt_of hf
  obtain ⟨gs, g1, g2, g3⟩ := (create_cases hf spans tris params).2 ha
  rw [g3]
  unfold createRest
  by_cases hn : numVertices spans = 0
  · rw [if_pos hn]
    obtain ⟨p, hp', hpl⟩ := emptyMeshParams_eq F
    rw [hp', Option.bind_some]
    obtain ⟨m, e1, e2, e3, e4, e5, e6, e7, e8⟩ := finish_eq hf ha ht g1 g2 none hpl
      (by intro i hi; omega)
    refine ⟨m, e1, e2, e5, e6, e7, by intro i j a hi; omega, ?_, by intro h; omega⟩
    intro _ j hj
    unfold Mesh.attributeBoundsOf
    rw [e2, if_pos (by rw [F.len]; exact hj), e4]
  · rw [if_neg hn]
    have hn' : 0 < numVertices spans := Nat.pos_of_ne_zero hn
    have hp' : ParamsOk attrs spans params := by
      rcases hp with h | h
      · exact absurd h hn
      · exact h
    obtain ⟨b, b1, b2, b3⟩ := allData hf ha hn' g1 g2
    obtain ⟨r, r1, r2, r3⟩ := codingArray hf b2 b3 params
    rw [b1, Option.bind_some, r1, Option.bind_some]
    -- bounds of a quantisable component
    have hbo : ∀ (j : Nat) (a : AttrType × AttrId) (bj : List F32 × List F32),
        attrs[j]? = some a → b[j]? = some bj → IsPacked a.1 → NotGiven params j →
        ∀ (k n : Nat) (lo hi : F32), (bits a.1)[k]? = some n → bj.1[k]? = some lo →
          bj.2[k]? = some hi → BoundsOk n lo hi := by
      intro j a bj q1 q2 q3 q4 k n lo hi q5 q6 q7
      have D := b3 j a bj q1 q2
      obtain ⟨s, hs, hm, f1, f2, -⟩ := D.bound q6 q7
      have hmem := List.mem_of_getElem? hs
      obtain ⟨w1, w2⟩ := hq j a q1 q3 q4 k n s q5 hs
      refine ⟨f1, f2, w1 lo hm.lo_mem, w1 hi hm.hi_mem, ?_⟩
      rcases w2 with w2 | ⟨x, hx, y, hy, w2⟩
      · exact Or.inl (w2 lo hm.lo_mem hi hm.hi_mem)
      · refine Or.inr (_root_.le_trans w2 ?_)
        have a1 := (F32.le_iff f1 (D.fin s hmem x hx)).1 (hm.lo_le x hx)
        have a2 := (F32.le_iff (D.fin s hmem y hy) f2).1 (hm.le_hi y hy)
        linarith
    cases r with
    | none =>
      exfalso
      rcases r2.1 rfl with h | ⟨j, a, q1, q2, q3, s, hs, x, hx, y, hy, ho⟩
      · exact h hp'
      · have hlt := (List.getElem?_eq_some_iff.1 q1).1
        obtain ⟨k, hk⟩ := List.getElem?_of_mem hs
        have hkl := (List.getElem?_eq_some_iff.1 hk).1
        rw [length_spansOf ha.count q1, ← length_bits a.1 q2] at hkl
        obtain ⟨w1, -⟩ := hq j a q1 q2 q3 k _ s (List.getElem?_eq_getElem hkl) hk
        have a1 := abs_le.1 (w1 x hx)
        have a2 := abs_le.1 (w1 y hy)
        have := ovf_bounds.2.1
        have : (2 : ℚ) ^ 126 + 2 ^ 126 = 2 ^ 127 := by norm_num
        linarith
    | some css =>
      obtain ⟨c1, c2⟩ := r3 css rfl
      -- every value can be packed, and what comes back
      have hall : ∀ i, i < numVertices spans → ∀ (j : Nat) (a : AttrType × AttrId)
          (cs : List Coding), attrs[j]? = some a → css[j]? = some cs →
          ∃ blk us, packAttribute a.1 cs (valueAt attrs spans i j) = some blk ∧
            blk.length = packedBytes a.1 ∧ unpackAttribute a.1 cs blk = some us ∧
            (¬ IsPacked a.1 → us = valueAt attrs spans i j) ∧
            (IsPacked a.1 → ∀ cs', params[j]? = some (some cs') → ∃ ks,
              unpackIntegers a.1 blk = some ks ∧ Fits a.1 ks ∧
              us = List.zipWith unpackSingleFloat cs' ks ∧
              ∀ (k : Nat) (c : Coding) (v : F32) (z : Nat), cs'[k]? = some c →
                (valueAt attrs spans i j)[k]? = some v → ks[k]? = some z →
                F32.toRat (F32.fround (F32.div (F32.sub v c.offset) c.scale)) = z) ∧
            (IsPacked a.1 → NotGiven params j → us.length = components a.1 ∧
              ∀ bj, b[j]? = some bj → ∀ (k b : Nat) (lo hi v u : F32), (bits a.1)[k]? = some b →
                bj.1[k]? = some lo → bj.2[k]? = some hi →
                (valueAt attrs spans i j)[k]? = some v → us[k]? = some u → Close b lo hi v u) := by
        intro i hi j a cs q1 q2
        have hlt := (List.getElem?_eq_some_iff.1 q1).1
        have hbj := List.getElem?_eq_getElem (l := b) (i := j) (by omega)
        have D := b3 j a _ q1 hbj
        have hvl : (valueAt attrs spans i j).length = components a.1 := by
          unfold valueAt; rw [List.length_map, D.len]
        have hval : ∀ (k : Nat) (v : F32), (valueAt attrs spans i j)[k]? = some v →
            ∃ s, (spansOf attrs spans j)[k]? = some s ∧ v ∈ s := by
          intro k v hv
          unfold valueAt at hv
          rw [List.getElem?_map, Option.map_eq_some_iff] at hv
          obtain ⟨s, h1, h2⟩ := hv
          refine ⟨s, h1, ?_⟩
          have hsl := ha.equal s (mem_spansOf (List.mem_of_getElem? h1))
          rw [← h2, List.getD_eq_getElem?_getD, List.getElem?_eq_getElem (by omega)]
          exact List.getElem_mem _
        rcases packed_or a.1 D.named with ⟨hpk, -⟩ | ⟨hpk, -⟩
        · rcases c2 j a _ cs q1 hbj q2 with h | ⟨h, h'⟩
          · -- given
            obtain ⟨e1, e2⟩ : cs.length = components a.1 ∧ _ := by
              rcases hp' with hh | ⟨-, hh⟩
              · rw [hh] at h; simp at h
              · exact ⟨(hh j a cs q1 h).size, (hh j a cs q1 h).reach⟩
            obtain ⟨ks, k1, k2, k3, k4⟩ := packComponents_given (bits a.1) cs
              (valueAt attrs spans i j) (by rw [e1, length_bits _ hpk])
              (by rw [hvl, length_bits _ hpk]) (fun n hn => (bits_le a.1 n hn).2)
              (by
                intro k n c v w1 w2 w3
                obtain ⟨s, hs, hvs⟩ := hval k v w3
                exact e2 k n c s w1 w2 hs v hvs)
            obtain ⟨blk, l1, l2, -, l4⟩ := C12_integers_roundtrip a.1 ks hpk k2
            refine ⟨blk, List.zipWith unpackSingleFloat cs ks, ?_, l2, ?_, fun hh => absurd hpk hh,
              ?_, fun _ hh => absurd h (hh cs)⟩
            · rw [packAttribute_packed _ hpk, k1, Option.bind_some, l1]
            · rw [unpackAttribute_packed _ hpk, l4, Option.bind_some, k3]
            · intro _ cs' hcs'
              rw [h] at hcs'
              cases hcs'
              exact ⟨ks, l4, k2, rfl, k4⟩
          · -- computed
            obtain ⟨cs', blk, us, l1, l2, l3, l4, l5, l6⟩ := C12_quantisation_partial a.1
              (b[j]'(by omega)).1 (b[j]'(by omega)).2 (valueAt attrs spans i j) hpk
              (by rw [D.gb.len1, D.len]) (by rw [D.gb.len2, D.len]) hvl
              (by
                intro k n lo hi' v w1 w2 w3 w4
                obtain ⟨s, hs, hvs⟩ := hval k v w4
                have hm := D.gb.each k s lo hi' hs w2 w3
                exact ⟨hbo j a _ q1 hbj hpk h k n lo hi' w1 w2 w3,
                  D.fin s (List.mem_of_getElem? hs) v hvs, hm.lo_le v hvs, hm.le_hi v hvs⟩)
            rw [h'] at l1
            cases l1
            refine ⟨blk, us, l2, l3, l4, fun hh => absurd hpk hh,
              fun _ cs' hcs' => absurd hcs' (h cs'), fun _ _ => ⟨l5, ?_⟩⟩
            intro bj hbj'
            rw [hbj] at hbj'
            cases hbj'
            exact l6
        · obtain ⟨blk, l1, l2, -, l4⟩ := C12_unpacked_exact a.1 cs (valueAt attrs spans i j) hpk
            D.named hvl
          exact ⟨blk, _, l1, l2, l4, fun _ => rfl, fun h => absurd h hpk, fun h => absurd h hpk⟩
      obtain ⟨m, e1, e2, e3, e4, e5, e6, e7, e8⟩ := finish_eq hf ha ht g1 g2 (some b) c1
        (by
          intro i hi j a cs q1 q2
          obtain ⟨blk, us, l1, l2, -⟩ := hall i hi j a cs q1 q2
          exact ⟨blk, l1, l2⟩)
      have hbound : ∀ (j : Nat) (bj : List F32 × List F32), j < attrs.length → b[j]? = some bj →
          m.attributeBoundsOf j = some (some bj) := by
        intro j bj hj hbj
        unfold Mesh.attributeBoundsOf
        rw [e2, if_pos (by rw [F.len]; exact hj), e4]
        simp [hbj]
      refine ⟨m, e1, e2, e5, e6, e7, ?_, fun h => absurd h hn, ?_⟩
      · intro i j a hi q1
        have hlt := (List.getElem?_eq_some_iff.1 q1).1
        have hcs := List.getElem?_eq_getElem (l := css) (i := j) (by omega)
        have hbj := List.getElem?_eq_getElem (l := b) (i := j) (by omega)
        obtain ⟨blk, us, l1, l2, l3, l4, l5, l6⟩ := hall i hi j a _ q1 hcs
        have hpv := e8 i hi j a _ blk q1 hcs l1
        obtain ⟨a', q5, q6⟩ := at_attr F q1
        have hfl : m.floatVertexAttribute i j = some us := by
          simp only [Mesh.floatVertexAttribute, hpv, e2, e3, q5, hcs, Option.bind_eq_bind,
            Option.bind_some, q6, l3]
        refine ⟨?_, ?_, ?_⟩
        · intro h; rw [hfl, l4 h]
        · intro h cs' hcs'
          obtain ⟨ks, k1, k2, k3, k4⟩ := l5 h cs' hcs'
          refine ⟨ks, ?_, k2, by rw [hfl, k3]; rfl, k4⟩
          simp only [Mesh.packedIntegers, hpv, e2, q5, Option.bind_eq_bind, Option.bind_some, q6, k1]
        · intro h h'
          obtain ⟨k1, k2⟩ := l6 h h'
          exact ⟨_, _, us, hbound j _ hlt hbj, hfl, k1, k2 _ hbj⟩
      · intro _ j hj
        have q1 := List.getElem?_eq_getElem hj
        have hbj := List.getElem?_eq_getElem (l := b) (i := j) (by omega)
        have D := b3 j _ _ q1 hbj
        refine ⟨_, _, hbound j _ hj hbj, D.gb.len1, D.gb.len2, ?_⟩
        intro k s lo hi w1 w2 w3
        have hm := D.gb.each k s lo hi w1 w2 w3
        exact ⟨hm.lo_mem, hm.hi_mem, fun v hv => ⟨hm.lo_le v hv, hm.le_hi v hv⟩⟩

/-! ## Concrete cases -/

namespace Ex

/-- A packed position and an unpacked attribute. -/
def attrs : List (AttrType × AttrId) := [(.f2In3Bytes, kPosition), (.f1Unpacked, 5)]

def spans : List (List F32) :=
  [[F32.ofInt 0, F32.ofInt 4, F32.ofInt 0], [F32.ofInt 0, F32.ofInt 0, F32.ofInt 3],
   [F32.ofInt 1, F32.ofInt (-1), F32.ofInt 0]]

theorem acceptable : Acceptable attrs spans [0, 1, 2] :=
  ⟨by decide, by decide +kernel, by decide +kernel, by decide +kernel, by decide, by decide⟩

theorem quantisable : ∀ (j : Nat) (a : AttrType × AttrId), attrs[j]? = some a → IsPacked a.1 →
    ∀ (k b : Nat) (s : List F32), (bits a.1)[k]? = some b →
      (spansOf attrs spans j)[k]? = some s → Quantisable b s := by
  intro j a h1 h2 k b s h3 h4
  match j with
  | 0 =>
    obtain rfl : (AttrType.f2In3Bytes, kPosition) = a := by simpa [attrs] using h1
    match k with
    | 0 =>
      obtain rfl : 12 = b := by simpa [bits] using h3
      obtain rfl : [F32.ofInt 0, F32.ofInt 4, F32.ofInt 0] = s := by
        simpa [attrs, spans, spansOf, components] using h4
      exact ⟨by decide +kernel, Or.inr ⟨F32.ofInt 0, by simp, F32.ofInt 4, by simp,
        by decide +kernel⟩⟩
    | 1 =>
      obtain rfl : 12 = b := by simpa [bits] using h3
      obtain rfl : [F32.ofInt 0, F32.ofInt 0, F32.ofInt 3] = s := by
        simpa [attrs, spans, spansOf, components] using h4
      exact ⟨by decide +kernel, Or.inr ⟨F32.ofInt 0, by simp, F32.ofInt 3, by simp,
        by decide +kernel⟩⟩
    | k + 2 => simp [bits] at h3
  | 1 =>
    obtain rfl : (AttrType.f1Unpacked, 5) = a := by simpa [attrs] using h1
    simp [bits] at h3
  | j + 2 => simp [attrs] at h1

/-- The hypotheses of `C40_create_contents_partial` can be met. -/
example : ((create attrs .unpacked16).bind fun f => Mesh.create f spans [0, 1, 2] []).isSome ∧
    ((create attrs .unpacked16).bind fun f => (Mesh.create f spans [0, 1, 2] []).bind fun m =>
      m.bind fun m => m.getTriangle 0) =
      some ((F32.ofInt 0, F32.ofInt 0), (F32.ofInt 4, F32.ofInt 0), (F32.ofInt 0, F32.ofInt 3)) := by
  decide +kernel

end Ex

/-- The range of an unpacked attribute is not checked: the documentation of `Create` (mesh.h:75-76)
lists any range above the largest float as an error. -/
theorem C40_unpacked_range_counterexample :
    ∃ f, create [(.f2Unpacked, kPosition)] .unpacked16 = some f ∧
      RangeOverflows [(.f2Unpacked, kPosition)]
        [[F32.ofBits 0xFF7FFFFF, F32.ofBits 0x7F7FFFFF], [F32.zero, F32.zero]] 0 ∧
      ∃ m, Mesh.create f [[F32.ofBits 0xFF7FFFFF, F32.ofBits 0x7F7FFFFF], [F32.zero, F32.zero]] [] []
        = some (some m) := by
  have h1 : ((create [(.f2Unpacked, kPosition)] .unpacked16).bind fun f => (Mesh.create f
    [[F32.ofBits 0xFF7FFFFF, F32.ofBits 0x7F7FFFFF], [F32.zero, F32.zero]] [] []).bind
      fun m => m).isSome := by decide +kernel
  obtain ⟨m, hm⟩ := Option.isSome_iff_exists.1 h1
  obtain ⟨f, hf, hm⟩ := Option.bind_eq_some_iff.1 hm
  obtain ⟨m', hm', rfl⟩ := Option.bind_eq_some_iff.1 hm
  exact ⟨f, hf, ⟨[F32.ofBits 0xFF7FFFFF, F32.ofBits 0x7F7FFFFF],
    by simp [spansOf, components], F32.ofBits 0xFF7FFFFF, by simp,
    F32.ofBits 0x7F7FFFFF, by simp, by decide +kernel⟩, m, hm'⟩

end Verif.Mesh
