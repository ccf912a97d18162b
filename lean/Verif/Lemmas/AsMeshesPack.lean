import Verif.Lemmas.AsMeshes
import Verif.Props.FlipCorrection

/-!
# What the meshes returned by `MutableMesh::AsMeshes` contain
-/

set_option autoImplicit false

namespace Verif.Mesh

open Verif Verif.Mesh Verif.Mesh.Spec Verif.Flip Verif.FlipSpec

/-! ## The precision of computed parameters -/

theorem precise_of_fine {b : Nat} (b0 : 12 ≤ b) (b1 : b ≤ 20) {col : List F32} {lo hi : F32}
    (hm : MinMax col lo hi) (hfin : ∀ x ∈ col, x.isFinite = true) (hF : FineColumn b col) {c : Coding}
    (hc : codingOf b lo hi = some (some c)) : Precise c b (2 ^ 21 * F32.toRat c.scale) := by
  have flo := hfin _ hm.lo_mem
  have fhi := hfin _ hm.hi_mem
  have hle := hm.lo_le _ hm.hi_mem
  have hleq := (F32.le_iff flo fhi).1 hle
  obtain ⟨hnz, hF⟩ := hF
  have hM : maxValueForBits b = 2 ^ b - 1 := maxValueForBits_eq b1
  have pow20 : 2 ^ b ≤ 2 ^ 20 := Nat.pow_le_pow_right (by norm_num) b1
  have pow12 : 2 ^ 12 ≤ 2 ^ b := Nat.pow_le_pow_right (by norm_num) b0
  obtain ⟨o1, o2, o3⟩ := ovf_bounds
  unfold codingOf at hc
  rw [hle] at hc
  simp only [Bool.not_true, Bool.false_eq_true, if_false] at hc
  set M := 2 ^ b - 1 with hMd
  have hM1 : M < 2 ^ 20 := by omega
  have hM0 : 4095 ≤ M := by omega
  have hMq1 : (M : ℚ) ≤ 2 ^ 20 := by exact_mod_cast hM1.le
  have hMq0 : (4095 : ℚ) ≤ M := by exact_mod_cast hM0
  have fM : (floatOfU32 M).isFinite = true := isFinite_floatOfU32 (by omega)
  have tM : F32.toRat (floatOfU32 M) = M := toRat_floatOfU32 (by omega)
  rcases hF with hF | ⟨x, hx, y, hy, hD, hz⟩
  · -- one value
    have heq := (hF lo hm.lo_mem hi hm.hi_mem).1
    have hb := (hF lo hm.lo_mem hi hm.hi_mem).2
    have hsub : |F32.toRat hi - F32.toRat lo| < F32.ovf := by rw [heq, sub_self, abs_zero]; linarith
    have frange : (F32.sub hi lo).isFinite = true := F32.isFinite_sub fhi flo hsub
    have trange : F32.toRat (F32.sub hi lo) = 0 := by
      rw [F32.toRat_sub fhi flo hsub, heq, sub_self, F32.rnd_zero]
    have hz : F32.gt (F32.sub hi lo) F32.zero = false := by
      rw [Bool.eq_false_iff]; intro hc
      have := (F32.lt_iff (by rfl) frange).1 hc
      rw [trange, F32.toRat_zero] at this; exact lt_irrefl _ this
    rw [frange, hz] at hc
    simp only [Bool.not_true, Bool.false_eq_true, if_false, Option.some.injEq] at hc
    subst hc
    have f1 : (F32.ofInt 1).isFinite = true := F32.isFinite_ofInt (by norm_num)
    have t1 : F32.toRat (F32.ofInt 1) = 1 := by rw [F32.toRat_ofInt (by norm_num)]; norm_num
    have hmul : |F32.toRat (floatOfU32 M) * F32.toRat (F32.ofInt 1)| < F32.ovf := by
      rw [tM, t1, mul_one, abs_of_nonneg (by linarith)]
      have : (2 : ℚ) ^ 20 < 2 ^ 21 := by norm_num
      linarith
    have fm := F32.isFinite_mul fM f1 hmul
    have tm : F32.toRat (F32.mul (floatOfU32 M) (F32.ofInt 1)) = M := by
      rw [F32.toRat_mul fM f1 hmul, t1, mul_one, F32.rnd_toRat, tM]
    have hab := abs_le.1 hb
    have hadd' : |F32.toRat (F32.mul (floatOfU32 M) (F32.ofInt 1)) + F32.toRat lo| ≤ 2 ^ 21 := by
      rw [tm, abs_le]
      constructor <;> norm_num at hab ⊢ <;> linarith
    have hadd := lt_of_le_of_lt hadd' o3
    refine ⟨⟨flo, f1, (by change F32.lt F32.zero (F32.ofInt 1) = true; decide +kernel), hnz _ hm.lo_mem⟩, b0, b1, ?_, ?_, le_refl _, ?_, ?_⟩
    · simp only [t1]; norm_num at hb ⊢; linarith
    · simp only [unpackSingleFloat, hM, t1, mul_one]
      rw [F32.toRat_add fm flo hadd, F32.rnd_abs]
      apply F32.rnd_le_of_le _ hadd'
      refine ⟨F32.ofInt (2 ^ 21), F32.isFinite_ofInt (by norm_num), ?_⟩
      rw [F32.toRat_ofInt (by norm_num)]; norm_num
    · simp only [t1]; norm_num
    · simp only [t1]; norm_num
  · -- a range
    set D := F32.toRat hi - F32.toRat lo with hDd
    have hDxy : F32.toRat y - F32.toRat x ≤ D := by
      have a1 := (F32.le_iff flo (hfin x hx)).1 (hm.lo_le x hx)
      have a2 := (F32.le_iff (hfin y hy) fhi).1 (hm.le_hi y hy)
      rw [hDd]; linarith
    have hMpos : (0 : ℚ) < M := by linarith
    set T := 2 ^ 20 * D / M with hT
    have hzT : ∀ z ∈ col, |F32.toRat z| ≤ T := by
      intro z hz'
      refine _root_.le_trans (hz z hz').2 ?_
      rw [hT]
      apply div_le_div_of_nonneg_right _ hMpos.le
      linarith
    have hlo98 := (hz lo hm.lo_mem).1
    have hhi98 := (hz hi hm.hi_mem).1
    have hloT := hzT lo hm.lo_mem
    have hhiT := hzT hi hm.hi_mem
    have hS : 1 / 2 ^ 99 ≤ D / M := by
      rw [le_div_iff₀ hMpos]
      have := _root_.le_trans hD hDxy
      rw [div_eq_mul_one_div] at this
      linarith
    have hDM : D = D / M * M := by field_simp
    set S := D / M with hSd
    have hTS : T = 2 ^ 20 * S := by rw [hT, hSd]; ring
    have hSpos : 0 < S := lt_of_lt_of_le (by norm_num) hS
    have hDpos : 0 < D := by rw [hDM]; positivity
    have hD99 : D ≤ 2 ^ 99 := by
      have := abs_le.1 hlo98; have := abs_le.1 hhi98
      rw [hDd]; norm_num at *; linarith
    have hDS : D ≤ 2 * T := by
      have := abs_le.1 hloT; have := abs_le.1 hhiT
      rw [hDd]; linarith
    have hSD : S ≤ D := by
      rw [hDM]; nlinarith
    have hsub : |F32.toRat hi - F32.toRat lo| < F32.ovf := by
      rw [← hDd, abs_of_pos hDpos]
      have : (2 : ℚ) ^ 99 < 2 ^ 127 := by norm_num
      linarith
    have frange : (F32.sub hi lo).isFinite = true := F32.isFinite_sub fhi flo hsub
    have trange : F32.toRat (F32.sub hi lo) = F32.rnd D := F32.toRat_sub fhi flo hsub
    have e1 : |F32.rnd D - D| ≤ D / 2 ^ 24 := by
      have := F32.rnd_err_normal (q := D) (by
        rw [abs_of_pos hDpos]
        have : (1 : ℚ) / 2 ^ 126 ≤ 1 / 2 ^ 99 := by norm_num
        linarith)
      rwa [abs_of_pos hDpos] at this
    have e1' := abs_le.1 e1
    have hrpos : 0 < F32.rnd D := by
      have : (0 : ℚ) < D - D / 2 ^ 24 := by
        have : D / 2 ^ 24 < D := div_lt_self hDpos (by norm_num)
        linarith
      linarith
    have hgt : F32.gt (F32.sub hi lo) F32.zero = true := by
      rw [F32.gt, F32.lt_iff (by rfl) frange, trange, F32.toRat_zero]; exact hrpos
    rw [frange, hgt, hM] at hc
    simp only [Bool.not_true, Bool.false_eq_true, if_false, if_true, Option.some.injEq] at hc
    set q := F32.rnd D / M with hq
    have hq1 : |q - S| ≤ S / 2 ^ 24 := by
      have : q - S = (F32.rnd D - D) / M := by rw [hq, hSd]; ring
      rw [this, abs_div, abs_of_pos hMpos, div_le_iff₀ hMpos]
      have : S / 2 ^ 24 * M = D / 2 ^ 24 := by rw [hSd]; field_simp
      linarith
    have hq1' := abs_le.1 hq1
    have hSs : S / 2 ^ 24 < S := div_lt_self hSpos (by norm_num)
    have hqpos : 0 < q := by linarith
    have hqS : q ≤ 2 * S := by linarith
    have hq2 : S / 2 ≤ q := by
      have : S / 2 ^ 24 ≤ S / 2 := by
        apply div_le_div_of_nonneg_left hSpos.le (by norm_num) (by norm_num)
      linarith
    have hsd : |F32.toRat (F32.sub hi lo) / F32.toRat (floatOfU32 M)| < F32.ovf := by
      rw [trange, tM, ← hq, abs_of_pos hqpos]
      have : (2 : ℚ) * 2 ^ 99 < 2 ^ 127 := by norm_num
      linarith
    have fs := F32.isFinite_div frange fM (by rw [tM]; exact hMpos.ne') hsd
    have ts := F32.toRat_div frange fM (by rw [tM]; exact hMpos.ne') hsd
    rw [trange, tM, ← hq] at ts
    set sc := F32.div (F32.sub hi lo) (floatOfU32 M) with hsc
    subst hc
    have e2 : |F32.rnd q - q| ≤ q / 2 ^ 24 := by
      have := F32.rnd_err_normal (q := q) (by
        rw [abs_of_pos hqpos]
        have : (1 : ℚ) / 2 ^ 126 ≤ 1 / 2 ^ 99 / 2 := by norm_num
        linarith)
      rwa [abs_of_pos hqpos] at this
    have e2' := abs_le.1 e2
    set σ := F32.toRat sc with hσ
    rw [← ts] at e2'
    have hσ1 : σ ≤ S + S / 2 ^ 22 := by norm_num at *; linarith
    have hσ0 : S - S / 2 ^ 22 ≤ σ := by norm_num at *; linarith
    have hσpos : 0 < σ := by
      have : S / 2 ^ 22 < S := div_lt_self hSpos (by norm_num)
      linarith
    have hMσ1 : M * σ ≤ D + D / 2 ^ 22 := by
      have : D + D / 2 ^ 22 = M * (S + S / 2 ^ 22) := by rw [hSd]; field_simp
      rw [this]; exact mul_le_mul_of_nonneg_left hσ1 hMpos.le
    have hMσ0 : D - D / 2 ^ 22 ≤ M * σ := by
      have : D - D / 2 ^ 22 = M * (S - S / 2 ^ 22) := by rw [hSd]; field_simp
      rw [this]; exact mul_le_mul_of_nonneg_left hσ0 hMpos.le
    have hMσp : 0 < (M : ℚ) * σ := by positivity
    have hmul : |F32.toRat (floatOfU32 M) * F32.toRat sc| < F32.ovf := by
      rw [tM, abs_of_pos hMσp]
      have : D / 2 ^ 22 ≤ D := (div_lt_self hDpos (by norm_num)).le
      have : (2 : ℚ) * 2 ^ 99 < 2 ^ 127 := by norm_num
      linarith
    have fm := F32.isFinite_mul fM fs hmul
    have tm := F32.toRat_mul fM fs hmul
    rw [tM] at tm
    have e3 : |F32.rnd (M * σ) - M * σ| ≤ M * σ / 2 ^ 24 := by
      have := F32.rnd_err_normal (q := M * σ) (by
        rw [abs_of_pos hMσp]
        have : D / 2 ^ 22 ≤ D / 2 := by
          apply div_le_div_of_nonneg_left hDpos.le (by norm_num) (by norm_num)
        have : (1 : ℚ) / 2 ^ 126 ≤ 1 / 2 ^ 99 / 2 := by norm_num
        linarith)
      rwa [abs_of_pos hMσp] at this
    have e3' := abs_le.1 e3
    rw [← tm] at e3'
    set p := F32.toRat (F32.mul (floatOfU32 M) sc) with hp
    have hpD1 : p ≤ D + D / 2 ^ 21 := by norm_num at *; linarith
    have hpD0 : D - D / 2 ^ 21 ≤ p := by norm_num at *; linarith
    have hsum : |p + F32.toRat lo| ≤ T + T / 2 ^ 20 := by
      have g := abs_le.1 hhiT
      have hD21 : D / 2 ^ 21 ≤ T / 2 ^ 20 := by
        have : T / 2 ^ 20 = 2 * T / 2 ^ 21 := by ring
        rw [this]
        exact div_le_div_of_nonneg_right hDS (by norm_num)
      rw [abs_le]
      constructor <;> rw [hDd] at hpD1 hpD0 <;> linarith
    have hTpos : 0 < T := by rw [hTS]; positivity
    have hT' : T + T / 2 ^ 20 < 2 ^ 121 := by
      have h1 : T ≤ 2 ^ 20 * 2 ^ 99 := by
        rw [hTS]; exact mul_le_mul_of_nonneg_left (_root_.le_trans hSD hD99) (by norm_num)
      have : T / 2 ^ 20 ≤ T := (div_lt_self hTpos (by norm_num)).le
      have : (2 : ℚ) ^ 20 * 2 ^ 99 + 2 ^ 20 * 2 ^ 99 < 2 ^ 121 := by norm_num
      linarith
    have hadd : |F32.toRat (F32.mul (floatOfU32 M) sc) + F32.toRat lo| < F32.ovf := by
      have : (2 : ℚ) ^ 121 < 2 ^ 127 := by norm_num
      linarith
    have hTbig : 1 / 2 ^ 126 ≤ T + T / 2 ^ 20 := by
      have h1 : 1 / 2 ^ 99 ≤ T := by
        rw [hTS]
        have : S ≤ 2 ^ 20 * S := by linarith
        linarith
      have : (0 : ℚ) ≤ T / 2 ^ 20 := by positivity
      have : (1 : ℚ) / 2 ^ 126 ≤ 1 / 2 ^ 99 := by norm_num
      linarith
    have e4 := abs_le.1 (rnd_bound hTbig hsum)
    refine ⟨⟨flo, fs, ?_, hnz _ hm.lo_mem⟩, b0, b1, ?_, ?_, le_refl _, ?_, ?_⟩
    · rw [F32.lt_iff (by rfl) fs, F32.toRat_zero]; exact hσpos
    · simp only
      have : T ≤ 2 ^ 21 * σ := by rw [hTS]; norm_num at *; linarith
      linarith
    · simp only [unpackSingleFloat, hM]
      rw [F32.toRat_add fm flo hadd]
      have hs' := abs_le.1 hsum
      have h1 : T + T / 2 ^ 20 + (T + T / 2 ^ 20) / 2 ^ 24 ≤ 2 ^ 21 * σ := by
        rw [hTS]; norm_num at *; linarith
      rw [abs_le]
      constructor <;> linarith
    · simp only
      have : S / 2 ^ 22 ≤ S / 2 := by
        apply div_le_div_of_nonneg_left hSpos.le (by norm_num) (by norm_num)
      have : (1 : ℚ) / 2 ^ 100 = 1 / 2 ^ 99 / 2 := by norm_num
      linarith
    · simp only
      have : S / 2 ^ 22 ≤ S := (div_lt_self hSpos (by norm_num)).le
      have : (2 : ℚ) ^ 100 = 2 * 2 ^ 99 := by norm_num
      linarith

/-! ## Packing one value -/

theorem readBack_zip : ∀ (cs : List Coding) (vs : List F32) (ks : List Nat),
    packComponents cs vs = some ks →
    unpackComponents cs ks = some (List.zipWith readBack cs vs)
  | [], [], ks, h => by cases h; rfl
  | [], _ :: _, _, h => by simp [packComponents] at h
  | _ :: _, [], _, h => by simp [packComponents] at h
  | c :: cs, v :: vs, ks, h => by
    simp only [packComponents, Option.bind_eq_bind] at h
    cases hk : packSingleFloat c v with
    | none => simp [hk] at h
    | some k =>
      cases hr : packComponents cs vs with
      | none => simp [hk, hr] at h
      | some r =>
        simp [hk, hr] at h
        subst h
        rw [unpackComponents, readBack_zip cs vs r hr]
        simp [readBack, hk]

/-- A packed value: the bytes, and what is read from them. -/
theorem packed_block {t : AttrType} (ht : IsPacked t) {cs : List Coding} {val : List F32} {ks : List Nat}
    (h1 : packComponents cs val = some ks) (h2 : Fits t ks) :
    ∃ blk, packAttribute t cs val = some blk ∧ blk.length = packedBytes t ∧
      unpackIntegers t blk = some ks ∧
      unpackAttribute t cs blk = some (List.zipWith readBack cs val) := by
  obtain ⟨blk, l1, l2, -, l4⟩ := C12_integers_roundtrip t ks ht h2
  refine ⟨blk, ?_, l2, l4, ?_⟩
  · rw [packAttribute_packed _ ht, h1, Option.bind_some, l1]
  · rw [unpackAttribute_packed _ ht, l4, Option.bind_some, readBack_zip _ _ _ h1]

/-- The integers of a value, for parameters from the caller or computed ones. -/
theorem ints_of {t : AttrType} (ht : IsPacked t) {cols : List (List F32)} {bj : List F32 × List F32}
    (D : AttrData t cols bj) {cs : List Coding} {given : Prop}
    (hc : (given ∧ cs.length = components t ∧ ∀ (k b : Nat) (c : Coding) (s : List F32),
        (bits t)[k]? = some b → cs[k]? = some c → cols[k]? = some s → ∀ v ∈ s, Representable b c v) ∨
      (¬ given ∧ computeCodingParams t bj.1 bj.2 = some (some cs) ∧
        ∀ (k b : Nat) (s : List F32), (bits t)[k]? = some b → cols[k]? = some s → Quantisable b s))
    {val : List F32} (hl : val.length = components t)
    (hval : ∀ (k : Nat) (v : F32), val[k]? = some v → ∃ s, cols[k]? = some s ∧ v ∈ s) :
    ∃ ks, packComponents cs val = some ks ∧ Fits t ks ∧
      (given → List.zipWith readBack cs val = List.zipWith unpackSingleFloat cs ks ∧
        ∀ (k : Nat) (c : Coding) (v : F32) (z : Nat), cs[k]? = some c → val[k]? = some v →
          ks[k]? = some z → F32.toRat (F32.fround (F32.div (F32.sub v c.offset) c.scale)) = z) ∧
      (¬ given → (List.zipWith readBack cs val).length = components t ∧
        ∀ (k b : Nat) (lo hi v u : F32), (bits t)[k]? = some b → bj.1[k]? = some lo →
          bj.2[k]? = some hi → val[k]? = some v → (List.zipWith readBack cs val)[k]? = some u →
          Close b lo hi v u) := by
  rcases hc with ⟨hg, e1, e2⟩ | ⟨hg, e1, e2⟩
  · obtain ⟨ks, k1, k2, k3, k4⟩ := packComponents_given (bits t) cs val (by rw [e1, length_bits _ ht])
      (by rw [hl, length_bits _ ht]) (fun n hn => (bits_le t n hn).2)
      (by
        intro k n c v w1 w2 w3
        obtain ⟨s, hs, hvs⟩ := hval k v w3
        exact e2 k n c s w1 w2 hs v hvs)
    refine ⟨ks, k1, k2, fun _ => ⟨?_, k4⟩, fun h => absurd hg h⟩
    have := readBack_zip _ _ _ k1
    rw [k3] at this
    exact (Option.some.inj this).symm
  · have hlb := length_bits t ht
    obtain ⟨cs', ks, us, r1, r2, r3, r4, r5, r6⟩ := components_roundtrip (bits t) bj.1 bj.2 val
      (bits_bounds t) (by rw [hlb, ← D.len, D.gb.len1]) (by rw [hlb, ← D.len, D.gb.len2])
      (by rw [hlb, hl])
      (by
        intro k n lo hi v w1 w2 w3 w4
        obtain ⟨s, hs, hm, f1, f2, -⟩ := D.bound w2 w3
        obtain ⟨s', hs', hvs⟩ := hval k v w4
        rw [hs] at hs'; cases hs'
        have hmem := List.mem_of_getElem? hs
        obtain ⟨q1, q2⟩ := e2 k n s w1 hs
        refine ⟨⟨f1, f2, q1 lo hm.lo_mem, q1 hi hm.hi_mem, ?_⟩, D.fin s hmem v hvs, hm.lo_le v hvs,
          hm.le_hi v hvs⟩
        rcases q2 with q2 | ⟨x, hx, y, hy, q2⟩
        · exact Or.inl (q2 lo hm.lo_mem hi hm.hi_mem)
        · refine Or.inr (_root_.le_trans q2 ?_)
          have a1 := (F32.le_iff f1 (D.fin s hmem x hx)).1 (hm.lo_le x hx)
          have a2 := (F32.le_iff (D.fin s hmem y hy) f2).1 (hm.le_hi y hy)
          linarith)
    have hcc : componentCount t = some (components t) := by
      rw [componentCount_eq]
      exact ⟨by intro code; rintro rfl; exact ht rfl, rfl⟩
    have : cs' = cs := by
      have : computeCodingParams t bj.1 bj.2 = some (some cs') := by
        simp [computeCodingParams, hcc, packedBits_eq t ht, r1]
      rw [e1] at this
      simpa using this.symm
    subst this
    have hz : us = List.zipWith readBack cs' val := by
      have := readBack_zip _ _ _ r2
      rw [r4] at this
      exact Option.some.inj this
    subst hz
    exact ⟨ks, r2, r3, fun h => absurd h hg, fun _ => ⟨by rw [r5, hlb], r6⟩⟩

/-- The number of computed parameters. -/
theorem length_codingLoop : ∀ (bs : List Nat) (los his : List F32) (cs : List Coding),
    codingLoop bs los his = some (some cs) → cs.length = bs.length
  | [], [], [], cs, h => by simp [codingLoop] at h; subst h; rfl
  | b :: bs, lo :: los, hi :: his, cs, h => by
    rw [codingLoop] at h
    cases h1 : codingOf b lo hi with
    | none => simp [h1] at h
    | some r =>
      cases r with
      | none => simp [h1] at h
      | some c =>
        simp only [h1, Option.bind_some] at h
        cases h2 : codingLoop bs los his with
        | none => simp [h2] at h
        | some r =>
          cases r with
          | none => simp [h2] at h
          | some cs' =>
            simp [h2] at h
            subst h
            simp [length_codingLoop bs los his cs' h2]
  | [], _ :: _, _, _, h => by simp [codingLoop] at h
  | [], [], _ :: _, _, h => by simp [codingLoop] at h
  | _ :: _, [], _, _, h => by simp [codingLoop] at h
  | _ :: _, _ :: _, [], _, h => by simp [codingLoop] at h

theorem codingLoop_get : ∀ (bs : List Nat) (los his : List F32) (cs : List Coding),
    codingLoop bs los his = some (some cs) → ∀ (k b : Nat) (c : Coding), bs[k]? = some b →
      cs[k]? = some c → ∃ lo hi, los[k]? = some lo ∧ his[k]? = some hi ∧
        codingOf b lo hi = some (some c)
  | [], _, _, _, _ => by intro k b c h; simp at h
  | b :: bs, lo :: los, hi :: his, cs, h => by
    rw [codingLoop] at h
    cases h1 : codingOf b lo hi with
    | none => simp [h1] at h
    | some r =>
      cases r with
      | none => simp [h1] at h
      | some c =>
        simp only [h1, Option.bind_some] at h
        cases h2 : codingLoop bs los his with
        | none => simp [h2] at h
        | some r =>
          cases r with
          | none => simp [h2] at h
          | some cs' =>
            simp [h2] at h
            subst h
            intro k b' c' g1 g2
            cases k with
            | zero =>
              simp at g1 g2
              subst g1 g2
              exact ⟨lo, hi, rfl, rfl, h1⟩
            | succ k =>
              simp at g1 g2
              simpa using codingLoop_get bs los his cs' h2 k b' c' g1 g2
  | _ :: _, [], _, _, h => by simp [codingLoop] at h
  | _ :: _, _ :: _, [], _, h => by simp [codingLoop] at h

theorem computeCodingParams_packed {t : AttrType} (ht : IsPacked t) (los his : List F32) :
    computeCodingParams t los his = codingLoop (bits t) los his := by
  have hcc : componentCount t = some (components t) := by
    rw [componentCount_eq]
    exact ⟨by intro code; rintro rfl; exact ht rfl, rfl⟩
  simp [computeCodingParams, hcc, packedBits_eq t ht]

theorem length_computed {t : AttrType} (hn : ∀ code, t ≠ .unnamed code) {los his : List F32}
    {cs : List Coding} (h : computeCodingParams t los his = some (some cs)) :
    cs.length = components t := by
  by_cases ht : IsPacked t
  · rw [computeCodingParams_packed ht] at h
    rw [length_codingLoop _ _ _ _ h, length_bits t ht]
  · obtain ⟨cs', h1, h2, -⟩ := C12_unpacked_params t los his ht hn
    rw [h] at h1
    cases h1
    exact h2

end Verif.Mesh
