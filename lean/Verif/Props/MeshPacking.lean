import Verif.Lemmas.MeshPackingBits
import Verif.Lemmas.Quantise
import Verif.Spec.MeshPacking
import Verif.Props.MeshFormat

/-!
# C12: packing and unpacking attributes

See `/verif/properties.jsonl`.
-/

set_option autoImplicit false
set_option exponentiation.threshold 400

namespace Verif.Mesh

open Verif Verif.Mesh.Spec

/-! ## Integers -/

/-- Every packed type stores one integer per component, of the documented width, in the documented
number of bytes, and gives back exactly those integers: the components never share a bit. -/
theorem C12_integers_roundtrip (t : AttrType) (ks : List Nat) (ht : IsPacked t) (h : Fits t ks) :
    ∃ bs, packIntegers t ks = some bs ∧ bs.length = packedBytes t ∧ (∀ x ∈ bs, x < 256) ∧
      unpackIntegers t bs = some ks := by
  unfold IsPacked at ht
  unfold Fits at h
  cases t <;> simp only [bits, ne_eq, not_true_eq_false, List.cons_ne_nil, not_false_eq_true] at ht h
  · rcases h with _ | ⟨ha, hn⟩; cases hn; exact roundtrip_f1In1Byte ha
  · rcases h with _ | ⟨ha, _ | ⟨hb, hn⟩⟩; cases hn; exact roundtrip_f2In1Float ha hb
  · rcases h with _ | ⟨ha, _ | ⟨hb, hn⟩⟩; cases hn; exact roundtrip_f2In3Bytes ha hb
  · rcases h with _ | ⟨ha, _ | ⟨hb, hn⟩⟩; cases hn; exact roundtrip_f2In4Bytes ha hb
  · rcases h with _ | ⟨ha, _ | ⟨hb, _ | ⟨hc, hn⟩⟩⟩; cases hn; exact roundtrip_f3In1Float ha hb hc
  · rcases h with _ | ⟨ha, _ | ⟨hb, _ | ⟨hc, hn⟩⟩⟩; cases hn; exact roundtrip_f3In2Floats ha hb hc
  · rcases h with _ | ⟨ha, _ | ⟨hb, _ | ⟨hc, hn⟩⟩⟩; cases hn; exact roundtrip_f3In4Bytes ha hb hc
  · rcases h with _ | ⟨ha, _ | ⟨hb, _ | ⟨hc, _ | ⟨hd, hn⟩⟩⟩⟩; cases hn
    exact roundtrip_f4In1Float ha hb hc hd
  · rcases h with _ | ⟨ha, _ | ⟨hb, _ | ⟨hc, _ | ⟨hd, hn⟩⟩⟩⟩; cases hn
    exact roundtrip_f4In2Floats ha hb hc hd
  · rcases h with _ | ⟨ha, _ | ⟨hb, _ | ⟨hc, _ | ⟨hd, hn⟩⟩⟩⟩; cases hn
    exact roundtrip_f4In3Floats ha hb hc hd

example : Fits .f2In4Bytes [4095, 1048575] := by
  simp [Fits, bits]

/-- The widths in the documentation are the ones the code uses. -/
theorem packedBits_eq (t : AttrType) (ht : IsPacked t) : packedBits t = some (some (bits t)) := by
  unfold IsPacked at ht
  cases t <;> simp_all [bits, packedBits]

/-- A type that is not packed stores its floats exactly, NaN and infinities included. -/
theorem C12_unpacked_exact (t : AttrType) (cs : List Coding) (vs : List F32) (ht : ¬ IsPacked t)
    (hn : ∀ code, t ≠ .unnamed code) (hv : vs.length = components t) :
    ∃ bs, packAttribute t cs vs = some bs ∧ bs.length = packedBytes t ∧ (∀ x ∈ bs, x < 256) ∧
      unpackAttribute t cs bs = some vs := by
  have hb : ∀ x ∈ vs.flatMap bytesOfFloat, x < 256 := by
    intro x hx
    obtain ⟨v, -, h⟩ := List.mem_flatMap.1 hx
    exact bytesOfFloat_lt v x h
  have hl : (vs.flatMap bytesOfFloat).length = vs.length * 4 := by simp [List.length_flatMap]
  have hr := floatsOfBytes_flatMap vs []
  rw [List.append_nil, hv] at hr
  rw [hv] at hl
  unfold IsPacked at ht
  cases t <;> first
    | exact ⟨_, rfl, hl, hb, hr⟩
    | exact absurd rfl (hn _)
    | exact absurd (List.cons_ne_nil _ _) ht

example : ¬ IsPacked .f3Unpacked := by simp [IsPacked, bits]

/-! ## Quantisation of one component -/

/-- The range of a component that the quantisation theorem covers: it is a single value, or it is not
so narrow that the step `range / M` is subnormal. -/
def RangeOk (b : Nat) (lo hi : F32) : Prop :=
  F32.toRat lo = F32.toRat hi ∨ ((2 ^ b - 1 : ℕ) : ℚ) / 2 ^ 126 ≤ F32.toRat hi - F32.toRat lo

theorem maxValueForBits_eq {b : Nat} (h : b ≤ 20) : maxValueForBits b = 2 ^ b - 1 := by
  unfold maxValueForBits
  rw [if_neg (by omega), Nat.shiftLeft_eq, Nat.one_mul]

theorem ovf_bounds : (2 : ℚ) ^ 128 - 2 ^ 104 < F32.ovf ∧ (2 : ℚ) ^ 127 < F32.ovf ∧
    (2 : ℚ) ^ 21 < F32.ovf := by
  unfold F32.ovf; norm_num

theorem component_roundtrip {b : Nat} (hb0 : 2 ≤ b) (hb : b ≤ 20) {lo hi v : F32}
    (flo : lo.isFinite) (fhi : hi.isFinite) (fv : v.isFinite)
    (blo : |F32.toRat lo| ≤ 2 ^ 126) (bhi : |F32.toRat hi| ≤ 2 ^ 126)
    (h1 : F32.toRat lo ≤ F32.toRat v) (h2 : F32.toRat v ≤ F32.toRat hi) (hr : RangeOk b lo hi) :
    ∃ c k, codingOf b lo hi = some (some c) ∧ packSingleFloat c v = some k ∧ k < 2 ^ b ∧
      (unpackSingleFloat c k).isFinite ∧
      |F32.toRat (unpackSingleFloat c k) - F32.toRat v| ≤
        (F32.toRat hi - F32.toRat lo) / (2 * (2 ^ b - 1)) +
          max |F32.toRat lo| |F32.toRat hi| / 2 ^ 20 := by
  obtain ⟨o1, o2, o3⟩ := ovf_bounds
  have hle : F32.le lo hi = true := (F32.le_iff flo fhi).2 (le_trans h1 h2)
  have pow20 : 2 ^ b ≤ 2 ^ 20 := Nat.pow_le_pow_right (by norm_num) hb
  have pow2 : 2 ^ 2 ≤ 2 ^ b := Nat.pow_le_pow_right (by norm_num) hb0
  have tb := abs_le.1 blo
  have tb' := abs_le.1 bhi
  have hsub : |F32.toRat hi - F32.toRat lo| < F32.ovf := by
    rw [abs_of_nonneg (by linarith)]
    have : (2:ℚ) ^ 126 + 2 ^ 126 = 2 ^ 127 := by norm_num
    linarith
  have frange : (F32.sub hi lo).isFinite = true := F32.isFinite_sub fhi flo hsub
  have trange : F32.toRat (F32.sub hi lo) = F32.rnd (F32.toRat hi - F32.toRat lo) :=
    F32.toRat_sub fhi flo hsub
  have hsubv : |F32.toRat v - F32.toRat lo| < F32.ovf := by
    rw [abs_of_nonneg (by linarith)] at hsub ⊢; linarith
  have fd : (F32.sub v lo).isFinite = true := F32.isFinite_sub fv flo hsubv
  have td : F32.toRat (F32.sub v lo) = F32.rnd (F32.toRat v - F32.toRat lo) :=
    F32.toRat_sub fv flo hsubv
  unfold codingOf
  rw [hle]
  simp only [Bool.not_true, Bool.false_eq_true, if_false, frange]
  rcases hr with hr | hr
  · -- a single value
    have hv : F32.toRat v = F32.toRat lo := le_antisymm (hr ▸ h2) h1
    rw [hr, sub_self, F32.rnd_zero] at trange
    have hz : F32.gt (F32.sub hi lo) F32.zero = false := by
      rw [Bool.eq_false_iff]; intro hc
      have := (F32.lt_iff (by rfl) frange).1 hc
      rw [trange, F32.toRat_zero] at this; exact lt_irrefl _ this
    rw [hz]
    have f1 : (F32.ofInt 1).isFinite = true := F32.isFinite_ofInt (by norm_num)
    have t1 : F32.toRat (F32.ofInt 1) = 1 := by rw [F32.toRat_ofInt (by norm_num)]; norm_num
    rw [hv, sub_self, F32.rnd_zero] at td
    have fq : (F32.div (F32.sub v lo) (F32.ofInt 1)).isFinite = true :=
      F32.isFinite_div fd f1 (by rw [t1]; norm_num) (by rw [td, t1]; norm_num [F32.ovf])
    have tq : F32.toRat (F32.div (F32.sub v lo) (F32.ofInt 1)) = 0 := by
      rw [F32.toRat_div fd f1 (by rw [t1]; norm_num) (by rw [td, t1]; norm_num [F32.ovf]), td]
      simp
    have fz : (floatOfU32 0).isFinite = true := isFinite_floatOfU32 (by norm_num)
    have tz : F32.toRat (floatOfU32 0) = 0 := by rw [toRat_floatOfU32 (by norm_num)]; norm_num
    have fm := F32.isFinite_mul fz f1 (by rw [tz]; norm_num [F32.ovf])
    have tm : F32.toRat (F32.mul (floatOfU32 0) (F32.ofInt 1)) = 0 := by
      rw [F32.toRat_mul fz f1 (by rw [tz]; norm_num [F32.ovf]), tz]; simp
    have hs : |F32.toRat (F32.mul (floatOfU32 0) (F32.ofInt 1)) + F32.toRat lo| < F32.ovf := by
      rw [tm, zero_add]; have : (2:ℚ) ^ 126 < 2 ^ 127 := by norm_num
      linarith
    refine ⟨_, 0, rfl, ?_, by omega, ?_, ?_⟩
    · apply u32OfFloat_of_toRat (F32.isFinite_fround fq) _ (by norm_num)
      rw [F32.toRat_fround_of_nonneg fq tq.ge]
      rw [tq]; norm_num
    · exact F32.isFinite_add fm flo hs
    · have : F32.toRat (F32.add (F32.mul (floatOfU32 0) (F32.ofInt 1)) lo) = F32.toRat lo := by
        rw [F32.toRat_add fm flo hs, tm, zero_add, F32.rnd_toRat]
      simp only [unpackSingleFloat, Bool.false_eq_true, if_false]
      rw [this, hv, hr, sub_self, abs_zero, zero_div, zero_add]
      positivity
  · -- a wide range
    set M := 2 ^ b - 1 with hM
    have hMlt : M < 2 ^ 20 := by omega
    have hM2 : 2 ≤ M := by omega
    have Q := F32.quant hM2 hMlt h1 h2 hr blo bhi
    have hMq : (M : ℚ) = 2 ^ b - 1 := by
      rw [hM, Nat.cast_sub (Nat.one_le_two_pow)]; simp
    have hM0 : (M : ℚ) ≠ 0 := by positivity
    rw [maxValueForBits_eq hb, ← hM]
    have hz : F32.gt (F32.sub hi lo) F32.zero = true := by
      rw [F32.gt, F32.lt_iff (by rfl) frange, trange, F32.toRat_zero]; exact Q.rpos
    rw [hz]
    simp only [if_true]
    have fM : (floatOfU32 M).isFinite = true := isFinite_floatOfU32 (by omega)
    have tM : F32.toRat (floatOfU32 M) = M := toRat_floatOfU32 (by omega)
    have hsd : |F32.toRat (F32.sub hi lo) / F32.toRat (floatOfU32 M)| < F32.ovf := by
      rw [trange, tM, abs_of_nonneg (div_nonneg Q.rpos.le (by positivity)),
        div_lt_iff₀ (by positivity)]
      have h1M : (1 : ℚ) ≤ M := by exact_mod_cast (by omega : 1 ≤ M)
      have h0 : (0 : ℚ) < F32.ovf := lt_trans (by norm_num) o3
      have := Q.rle
      have := mul_le_mul_of_nonneg_left h1M h0.le
      linarith
    have fs := F32.isFinite_div frange fM (by rw [tM]; exact hM0) hsd
    have ts := F32.toRat_div frange fM (by rw [tM]; exact hM0) hsd
    rw [trange, tM] at ts
    set sc := F32.div (F32.sub hi lo) (floatOfU32 M) with hsc
    have hs0 : F32.toRat sc ≠ 0 := by rw [ts]; exact Q.spos.ne'
    have hqd : |F32.toRat (F32.sub v lo) / F32.toRat sc| < F32.ovf := by
      rw [td, ts, abs_of_nonneg (div_nonneg Q.d0 Q.spos.le)]
      exact lt_of_le_of_lt Q.qle o3
    have fq := F32.isFinite_div fd fs hs0 hqd
    have tq := F32.toRat_div fd fs hs0 hqd
    rw [td, ts] at tq
    have tk := F32.toRat_fround_of_nonneg fq (by rw [tq]; exact Q.q0)
    rw [tq] at tk
    set k := ⌊F32.rnd (F32.rnd (F32.toRat v - F32.toRat lo) /
      F32.rnd (F32.rnd (F32.toRat hi - F32.toRat lo) / M)) + 1 / 2⌋ with hk
    have hkn : ((k.toNat : ℕ) : ℤ) = k := Int.toNat_of_nonneg Q.k0
    have hknq : ((k.toNat : ℕ) : ℚ) = (k : ℚ) := by exact_mod_cast congrArg (Int.cast (R := ℚ)) hkn
    have hkM : k.toNat ≤ M := by have := Q.kM; omega
    have fkf : (floatOfU32 k.toNat).isFinite = true := isFinite_floatOfU32 (by omega)
    have tkf : F32.toRat (floatOfU32 k.toNat) = k := by
      rw [toRat_floatOfU32 (by omega), hknq]
    have hk0q : (0 : ℚ) ≤ k := by exact_mod_cast Q.k0
    have hmul : |F32.toRat (floatOfU32 k.toNat) * F32.toRat sc| < F32.ovf := by
      rw [tkf, ts, abs_of_nonneg (mul_nonneg hk0q Q.spos.le)]
      exact lt_of_le_of_lt Q.ks o1
    have fm := F32.isFinite_mul fkf fs hmul
    have tm := F32.toRat_mul fkf fs hmul
    rw [tkf, ts] at tm
    have hadd : |F32.toRat (F32.mul (floatOfU32 k.toNat) sc) + F32.toRat lo| < F32.ovf := by
      rw [tm]; exact lt_of_le_of_lt Q.xlo o2
    refine ⟨_, k.toNat, rfl, ?_, by omega, F32.isFinite_add fm flo hadd, ?_⟩
    · exact u32OfFloat_of_toRat (F32.isFinite_fround fq) (by rw [hknq]; exact tk) (by omega)
    · simp only [unpackSingleFloat]
      rw [F32.toRat_add fm flo hadd, tm, ← hMq]
      exact Q.err

/-! ## Quantisation of an attribute -/

/-- A component with its bounds: finite, at most `2^126` in magnitude, and not too narrow. -/
structure BoundsOk (b : Nat) (lo hi : F32) : Prop where
  flo : lo.isFinite = true
  fhi : hi.isFinite = true
  blo : |F32.toRat lo| ≤ 2 ^ 126
  bhi : |F32.toRat hi| ≤ 2 ^ 126
  range : RangeOk b lo hi

/-- Component `i` of the unpacked value `u` against the original `v`. -/
structure Close (b : Nat) (lo hi v u : F32) : Prop where
  fin : u.isFinite = true
  err : |F32.toRat u - F32.toRat v| ≤ (F32.toRat hi - F32.toRat lo) / (2 * (2 ^ b - 1)) +
    max |F32.toRat lo| |F32.toRat hi| / 2 ^ 20

theorem components_roundtrip : ∀ (bs : List Nat) (los his vs : List F32),
    (∀ b ∈ bs, 2 ≤ b ∧ b ≤ 20) → los.length = bs.length → his.length = bs.length →
    vs.length = bs.length →
    (∀ (i b : Nat) (lo hi v : F32), bs[i]? = some b → los[i]? = some lo → his[i]? = some hi →
      vs[i]? = some v → BoundsOk b lo hi ∧ v.isFinite ∧ F32.le lo v ∧ F32.le v hi) →
    ∃ cs ks us, codingLoop bs los his = some (some cs) ∧ packComponents cs vs = some ks ∧
      List.Forall₂ (fun k b => k < 2 ^ b) ks bs ∧ unpackComponents cs ks = some us ∧
      us.length = bs.length ∧
      ∀ (i b : Nat) (lo hi v u : F32), bs[i]? = some b → los[i]? = some lo → his[i]? = some hi →
        vs[i]? = some v → us[i]? = some u → Close b lo hi v u
  | [], los, his, vs => by
    intro _ h1 h2 h3 _
    obtain rfl := List.length_eq_zero_iff.1 h1
    obtain rfl := List.length_eq_zero_iff.1 h2
    obtain rfl := List.length_eq_zero_iff.1 h3
    exact ⟨[], [], [], rfl, rfl, List.Forall₂.nil, rfl, rfl, by simp⟩
  | b :: bs, [], _, _ => by intro _ h; simp at h
  | b :: bs, _ :: _, [], _ => by intro _ _ h; simp at h
  | b :: bs, _ :: _, _ :: _, [] => by intro _ _ _ h; simp at h
  | b :: bs, lo :: los, hi :: his, v :: vs => by
    intro hb h1 h2 h3 h
    obtain ⟨B, fv, l1, l2⟩ := h 0 b lo hi v rfl rfl rfl rfl
    obtain ⟨c, k, e1, e2, e3, e4, e5⟩ := component_roundtrip (hb b (by simp)).1 (hb b (by simp)).2
      B.flo B.fhi fv B.blo B.bhi ((F32.le_iff B.flo fv).1 l1) ((F32.le_iff fv B.fhi).1 l2) B.range
    obtain ⟨cs, ks, us, r1, r2, r3, r4, r5, r6⟩ := components_roundtrip bs los his vs
      (fun b' hb' => hb b' (by simp [hb'])) (by simpa using h1) (by simpa using h2)
      (by simpa using h3) (fun i b lo hi v => h (i + 1) b lo hi v)
    refine ⟨c :: cs, k :: ks, unpackSingleFloat c k :: us, ?_, ?_, List.Forall₂.cons e3 r3, ?_,
      by simp [r5], ?_⟩
    · simp [codingLoop, e1, r1]
    · simp [packComponents, e2, r2]
    · simp [unpackComponents, r4]
    · intro i b' lo' hi' v' u'
      cases i with
      | zero =>
        simp only [List.getElem?_cons_zero, Option.some.injEq]
        rintro rfl rfl rfl rfl rfl
        exact ⟨e4, e5⟩
      | succ i => simpa using r6 i b' lo' hi' v' u'

theorem bits_bounds (t : AttrType) : ∀ b ∈ bits t, 2 ≤ b ∧ b ≤ 20 := by
  cases t <;> simp [bits]

theorem length_bits (t : AttrType) (ht : IsPacked t) : (bits t).length = components t := by
  unfold IsPacked at ht
  cases t <;> simp_all [bits, components]

theorem packAttribute_packed (t : AttrType) (ht : IsPacked t) (cs : List Coding) (vs : List F32) :
    packAttribute t cs vs = (packComponents cs vs).bind (packIntegers t) := by
  unfold IsPacked at ht
  cases t <;> simp_all [bits, packAttribute]

theorem unpackAttribute_packed (t : AttrType) (ht : IsPacked t) (cs : List Coding) (bs : List Nat) :
    unpackAttribute t cs bs = (unpackIntegers t bs).bind (unpackComponents cs) := by
  unfold IsPacked at ht
  cases t <;> simp_all [bits, unpackAttribute]

/-- Packing a value within the bounds given to `ComputeCodingParams` and unpacking it again moves each
component by at most half a step, `(max - min) / (2 * (2^bits - 1))`, plus a rounding error of at most
`2^-20` of the larger bound. Nothing overflows and no component disturbs another.

Partial: the documentation promises half a step alone (false: `C12_half_step_counterexample`), for
every range of finite floats; here bounds above `2^126` (`C12_unpacks_to_infinity_counterexample`) and
ranges so narrow that the step is subnormal (`C12_narrow_range_counterexample`) are excluded. -/
theorem C12_quantisation_partial (t : AttrType) (los his vs : List F32) (ht : IsPacked t)
    (hlo : los.length = components t) (hhi : his.length = components t)
    (hv : vs.length = components t)
    (h : ∀ (i b : Nat) (lo hi v : F32), (bits t)[i]? = some b → los[i]? = some lo →
      his[i]? = some hi → vs[i]? = some v →
      BoundsOk b lo hi ∧ v.isFinite ∧ F32.le lo v ∧ F32.le v hi) :
    ∃ cs bs us, computeCodingParams t los his = some (some cs) ∧ packAttribute t cs vs = some bs ∧
      bs.length = packedBytes t ∧ unpackAttribute t cs bs = some us ∧ us.length = components t ∧
      ∀ (i b : Nat) (lo hi v u : F32), (bits t)[i]? = some b → los[i]? = some lo →
        his[i]? = some hi → vs[i]? = some v → us[i]? = some u → Close b lo hi v u := by
  have hl := length_bits t ht
  obtain ⟨cs, ks, us, r1, r2, r3, r4, r5, r6⟩ := components_roundtrip (bits t) los his vs
    (bits_bounds t) (by omega) (by omega) (by omega) h
  obtain ⟨bs, p1, p2, -, p4⟩ := C12_integers_roundtrip t ks ht r3
  have hcc : componentCount t = some (components t) := by
    rw [componentCount_eq]
    exact ⟨by intro code; rintro rfl; exact ht rfl, rfl⟩
  refine ⟨cs, bs, us, ?_, ?_, p2, ?_, by omega, r6⟩
  · simp [computeCodingParams, hcc, packedBits_eq t ht, r1]
  · rw [packAttribute_packed t ht, r2]; exact p1
  · rw [unpackAttribute_packed t ht, p4]; exact r4

/-! ## Errors -/

/-- For a type that is not packed, whatever the bounds, there is one parameter per component, and it
describes the identity: offset zero, scale one. -/
theorem C12_unpacked_params (t : AttrType) (los his : List F32) (ht : ¬ IsPacked t)
    (hn : ∀ code, t ≠ .unnamed code) :
    ∃ cs, computeCodingParams t los his = some (some cs) ∧ cs.length = components t ∧
      ∀ c ∈ cs, F32.toRat c.offset = 0 ∧ F32.toRat c.scale = 1 := by
  have h1 : F32.toRat (F32.ofInt 1) = 1 := by decide +kernel
  have h0 : F32.toRat F32.zero = 0 := by decide +kernel
  unfold IsPacked at ht
  cases t <;> simp only [bits, ne_eq, not_true_eq_false, List.cons_ne_nil, not_false_eq_true] at ht
  case unnamed c => exact absurd rfl (hn c)
  all_goals
    refine ⟨_, rfl, by simp [components], ?_⟩
    intro c hc
    rw [(List.mem_replicate.1 hc).2]
    exact ⟨h0, h1⟩

/-- Non-trivial: the type with four floats. -/
example : ¬ IsPacked .f4Unpacked ∧ ∀ code, AttrType.f4Unpacked ≠ .unnamed code := by
  constructor
  · simp [IsPacked, bits]
  · intro code h; cases h

/-- For finite bounds in the right order, `ComputeCodingParams` fails exactly when the range of some
component overflows. -/
theorem C12_coding_params_error_iff (t : AttrType) (los his : List F32) (ht : IsPacked t)
    (hlo : los.length = components t) (hhi : his.length = components t)
    (h : ∀ (i : Nat) (lo hi : F32), los[i]? = some lo → his[i]? = some hi →
      lo.isFinite ∧ hi.isFinite ∧ F32.le lo hi) :
    ∃ r, computeCodingParams t los his = some r ∧
      (r = none ↔ ∃ (i : Nat) (lo hi : F32), los[i]? = some lo ∧ his[i]? = some hi ∧
        F32.ovf ≤ F32.toRat hi - F32.toRat lo) := by
  have loop : ∀ (bs : List Nat) (los his : List F32), los.length = bs.length →
      his.length = bs.length → (∀ (i : Nat) (lo hi : F32), los[i]? = some lo → his[i]? = some hi →
        lo.isFinite ∧ hi.isFinite ∧ F32.le lo hi) →
      ∃ r, codingLoop bs los his = some r ∧
        (r = none ↔ ∃ (i : Nat) (lo hi : F32), los[i]? = some lo ∧ his[i]? = some hi ∧
          F32.ovf ≤ F32.toRat hi - F32.toRat lo) := by
    intro bs
    induction bs with
    | nil =>
      intro los his h1 h2 _
      obtain rfl := List.length_eq_zero_iff.1 h1
      obtain rfl := List.length_eq_zero_iff.1 h2
      exact ⟨some [], rfl, by simp⟩
    | cons b bs ih =>
      intro los his h1 h2 h
      cases los with
      | nil => simp at h1
      | cons lo los =>
      cases his with
      | nil => simp at h2
      | cons hi his =>
      obtain ⟨fl, fh, hle⟩ := h 0 lo hi rfl rfl
      have hle' := (F32.le_iff fl fh).1 hle
      obtain ⟨r, hr, hiff⟩ := ih los his (by simpa using h1) (by simpa using h2)
        (fun i lo hi => h (i + 1) lo hi)
      have shift : (∃ (i : Nat) (lo' hi' : F32), (lo :: los)[i]? = some lo' ∧
          (hi :: his)[i]? = some hi' ∧ F32.ovf ≤ F32.toRat hi' - F32.toRat lo') ↔
          F32.ovf ≤ F32.toRat hi - F32.toRat lo ∨ r = none := by
        rw [hiff]; constructor
        · rintro ⟨i, lo', hi', a, b, c⟩
          cases i with
          | zero =>
            simp only [List.getElem?_cons_zero, Option.some.injEq] at a b
            subst a b; exact Or.inl c
          | succ i => exact Or.inr ⟨i, lo', hi', by simpa using a, by simpa using b, c⟩
        · rintro (c | ⟨i, lo', hi', a, b, c⟩)
          · exact ⟨0, lo, hi, rfl, rfl, c⟩
          · exact ⟨i + 1, lo', hi', by simpa using a, by simpa using b, c⟩
      rw [shift]
      by_cases ho : F32.ovf ≤ F32.toRat hi - F32.toRat lo
      · have hf : (F32.sub hi lo).isFinite = false := by
          obtain ⟨s, n, hn, rfl⟩ := F32.exists_of_isFinite fl
          obtain ⟨s', n', hn', rfl⟩ := F32.exists_of_isFinite fh
          have hne : F32.toRat (.fin s' n' hn') + F32.toRat (F32.fin (!s) n hn) ≠ 0 := by
            have : F32.toRat (F32.fin (!s) n hn) = - F32.toRat (F32.fin s n hn) := by
              have := F32.toRat_neg (F32.fin s n hn); simpa [F32.neg] using this
            rw [this, ← sub_eq_add_neg]
            have : (0 : ℚ) < F32.ovf := by norm_num [F32.ovf]
            linarith
          have e : F32.toRat (.fin s' n' hn') + F32.toRat (F32.fin (!s) n hn) =
              F32.toRat (.fin s' n' hn') - F32.toRat (F32.fin s n hn) := by
            have := F32.toRat_neg (F32.fin s n hn)
            simp only [F32.neg] at this
            rw [this, sub_eq_add_neg]
          rw [Bool.eq_false_iff]; intro hc
          simp only [F32.sub, F32.neg, F32.add] at hc
          rw [if_neg hne, F32.isFinite_ofRat_iff, e, abs_of_nonneg (by linarith)] at hc
          linarith
        refine ⟨none, ?_, by simp [ho]⟩
        simp [codingLoop, codingOf, hle, hf]
      · have hf : (F32.sub hi lo).isFinite = true :=
          F32.isFinite_sub fh fl (by rw [abs_of_nonneg (by linarith)]; linarith)
        refine ⟨r.map (⟨lo, if F32.gt (F32.sub hi lo) F32.zero
            then F32.div (F32.sub hi lo) (floatOfU32 (maxValueForBits b)) else F32.ofInt 1⟩ :: ·),
          ?_, ?_⟩
        · simp [codingLoop, codingOf, hle, hf, hr]
        · simp [ho]
  have hcc : componentCount t = some (components t) := by
    rw [componentCount_eq]
    exact ⟨by intro code; rintro rfl; exact ht rfl, rfl⟩
  have hl := length_bits t ht
  obtain ⟨r, e, hi⟩ := loop (bits t) los his (by omega) (by omega) h
  exact ⟨r, by simp [computeCodingParams, hcc, packedBits_eq t ht, e], hi⟩

/-! ## Where the documentation is too optimistic -/

private def fb (n : Nat) : F32 := F32.ofBits n

/-- The documented bound, half a step of `(max - min) / (2^bits - 1)` (mesh_format.h:62-64), is not
met: with 8 bits for values in `[51.692211, 51.693561]`, `51.692627` comes back `51.692631`, an error
of more than 0.7 steps. -/
theorem C12_half_step_counterexample :
    ∃ lo hi v : F32, lo.isFinite ∧ hi.isFinite ∧ v.isFinite ∧ F32.le lo v ∧ F32.le v hi ∧
      ∃ c bs u, computeCodingParams .f1In1Byte [lo] [hi] = some (some [c]) ∧
        isValidCodingParams .f1In1Byte [c] ∧
        packAttribute .f1In1Byte [c] [v] = some bs ∧ unpackAttribute .f1In1Byte [c] bs = some [u] ∧
        7 / 10 * ((F32.toRat hi - F32.toRat lo) / (2 ^ 8 - 1)) < |F32.toRat u - F32.toRat v| := by
  refine ⟨fb 0x424ec4d3, fb 0x424ec635, fb 0x424ec540, ?_⟩
  refine ⟨by decide +kernel, by decide +kernel, by decide +kernel, by decide +kernel,
    by decide +kernel, ⟨fb 0x424ec4d3, F32.div (F32.sub (fb 0x424ec635) (fb 0x424ec4d3))
      (floatOfU32 255)⟩, [79], fb 0x424ec541, ?_⟩
  decide +kernel

/-- A range so narrow that the step underflows to zero: the coding parameters are not valid ones, and
packing a value of the range converts an infinity to an integer (undefined). -/
theorem C12_narrow_range_counterexample :
    ∃ hi c, F32.isFinite hi ∧ F32.lt F32.zero hi ∧
      computeCodingParams .f1In1Byte [F32.zero] [hi] = some (some [c]) ∧
      isValidCodingParams .f1In1Byte [c] = false ∧ packAttribute .f1In1Byte [c] [hi] = none ∧
      packAttribute .f1In1Byte [c] [F32.zero] = none := by
  refine ⟨fb 1, ⟨F32.zero, F32.zero⟩, ?_⟩
  decide +kernel

/-- A narrow range can also give a valid step that is too small, so that the largest value needs more
bits than it has; its upper bits are lost. -/
theorem C12_narrow_range_wraps_counterexample :
    ∃ hi c bs u, F32.isFinite hi ∧ F32.lt F32.zero hi ∧
      computeCodingParams .f1In1Byte [F32.zero] [hi] = some (some [c]) ∧
      isValidCodingParams .f1In1Byte [c] = true ∧
      valuesRepresentable .f1In1Byte [c] [hi] = false ∧
      packAttribute .f1In1Byte [c] [hi] = some bs ∧ unpackAttribute .f1In1Byte [c] bs = some [u] ∧
      F32.toRat u < F32.toRat hi / 2 := by
  refine ⟨fb 380, ⟨F32.zero, fb 1⟩, [124], fb 124, ?_⟩
  decide +kernel

/-- For bounds near the largest float, a finite value comes back infinite. -/
theorem C12_unpacks_to_infinity_counterexample :
    ∃ hi c bs, F32.isFinite hi ∧
      computeCodingParams .f3In4Bytes [F32.zero, F32.zero, F32.zero] [hi, hi, hi] =
        some (some [c, c, c]) ∧ isValidCodingParams .f3In4Bytes [c, c, c] = true ∧
      packAttribute .f3In4Bytes [c, c, c] [hi, hi, hi] = some bs ∧
      unpackAttribute .f3In4Bytes [c, c, c] bs =
        some [F32.inf false, F32.inf false, F32.inf false] := by
  refine ⟨F32.maxFinite, ⟨F32.zero, F32.div F32.maxFinite (floatOfU32 1023)⟩, [255, 255, 255, 252],
    ?_⟩
  decide +kernel

/-- `UnpackedFloatValuesAreRepresentable` says yes to NaN, for every packed type: all its comparisons
are false. -/
theorem C12_nan_is_representable (t : AttrType) (cs : List Coding) (n : Nat) :
    valuesRepresentable t cs (List.replicate n F32.nan) = true := by
  have loop : ∀ (n : Nat) (bs : List Nat) (cs : List Coding),
      representableLoop bs cs (List.replicate n F32.nan) = true := by
    intro n
    induction n with
    | zero => intro bs cs; cases bs <;> cases cs <;> rfl
    | succ n ih =>
      intro bs cs
      cases bs with
      | nil => rfl
      | cons b bs =>
      cases cs with
      | nil => rfl
      | cons c cs =>
        have h : F32.fround (F32.div (F32.sub F32.nan c.offset) c.scale) = F32.nan := by
          have : F32.sub F32.nan c.offset = F32.nan := by simp [F32.sub, F32.add]
          rw [this]; simp [F32.div, F32.fround]
        simp only [List.replicate_succ, representableLoop, h]
        simpa [F32.lt, F32.isNaN] using ih bs cs
  unfold valuesRepresentable
  split
  · exact loop _ _ _
  · rfl

/-- A wide, ordinary range meets the hypotheses of the quantisation theorem. -/
example : BoundsOk 12 (F32.ofInt (-100)) (F32.ofInt 1000) := by
  have e1 : F32.toRat (F32.ofInt (-100)) = -100 := by
    rw [F32.toRat_ofInt (by norm_num)]; norm_num
  have e2 : F32.toRat (F32.ofInt 1000) = 1000 := by rw [F32.toRat_ofInt (by norm_num)]; norm_num
  refine ⟨F32.isFinite_ofInt (by norm_num), F32.isFinite_ofInt (by norm_num), ?_, ?_, ?_⟩
  · rw [e1]; norm_num
  · rw [e2]; norm_num
  · right; rw [e1, e2]; norm_num

end Verif.Mesh
