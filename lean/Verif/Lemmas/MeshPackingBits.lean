import Verif.Lemmas.MeshPacking

/-!
# The bit fields of every packed type
-/

set_option autoImplicit false
set_option exponentiation.threshold 400
set_option linter.unusedSimpArgs false

namespace Verif.Mesh

open Verif

theorem bytes2_lt (f g : F32) : ∀ x ∈ bytesOfFloat f ++ bytesOfFloat g, x < 256 := by
  intro x hx
  rcases List.mem_append.1 hx with h | h <;> exact bytesOfFloat_lt _ _ h

theorem bytes3_lt (f g h : F32) :
    ∀ x ∈ bytesOfFloat f ++ bytesOfFloat g ++ bytesOfFloat h, x < 256 := by
  intro x hx
  rcases List.mem_append.1 hx with h | h
  · exact bytes2_lt _ _ _ h
  · exact bytesOfFloat_lt _ _ h

private theorem mFFF000 (n : Nat) : (n &&& 0xFFF000) >>> 12 = n / 4096 % 4096 := field_eq n 12 12
private theorem mFF0000 (n : Nat) : (n &&& 0xFF0000) >>> 16 = n / 65536 % 256 := field_eq n 16 8
private theorem mFFFF00 (n : Nat) : (n &&& 0xFFFF00) >>> 8 = n / 256 % 65536 := field_eq n 8 16
private theorem mFC0000 (n : Nat) : (n &&& 0xFC0000) >>> 18 = n / 262144 % 64 := field_eq n 18 6
private theorem m03F000 (n : Nat) : (n &&& 0x03F000) >>> 12 = n / 4096 % 64 := field_eq n 12 6
private theorem m000FC0 (n : Nat) : (n &&& 0x000FC0) >>> 6 = n / 64 % 64 := field_eq n 6 6
private theorem mFFFFC0 (n : Nat) : (n &&& 0xFFFFC0) >>> 6 = n / 64 % 262144 := field_eq n 6 18
private theorem m00FF00 (n : Nat) : (n &&& 0x00FF00) >>> 8 = n / 256 % 256 := field_eq n 8 8
private theorem mFC (n : Nat) : (n &&& 0xFC) >>> 2 = n / 4 % 64 := field_eq n 2 6
private theorem l4 (n : Nat) : n &&& 15 = n % 16 := low_eq n 4
private theorem l2 (n : Nat) : n &&& 3 = n % 4 := low_eq n 2
private theorem l6 (n : Nat) : n &&& 63 = n % 64 := low_eq n 6
private theorem l8 (n : Nat) : n &&& 255 = n % 256 := low_eq n 8
private theorem l12 (n : Nat) : n &&& 4095 = n % 4096 := low_eq n 12
private theorem l16 (n : Nat) : n &&& 65535 = n % 65536 := low_eq n 16
private theorem l18 (n : Nat) : n &&& 262143 = n % 262144 := low_eq n 18
private theorem r2 (n : Nat) : n >>> 2 = n / 4 := Nat.shiftRight_eq_div_pow n 2
private theorem r4 (n : Nat) : n >>> 4 = n / 16 := Nat.shiftRight_eq_div_pow n 4
private theorem r6 (n : Nat) : n >>> 6 = n / 64 := Nat.shiftRight_eq_div_pow n 6
private theorem r8 (n : Nat) : n >>> 8 = n / 256 := Nat.shiftRight_eq_div_pow n 8
private theorem r12 (n : Nat) : n >>> 12 = n / 4096 := Nat.shiftRight_eq_div_pow n 12
private theorem r16 (n : Nat) : n >>> 16 = n / 65536 := Nat.shiftRight_eq_div_pow n 16
private theorem s2 (n : Nat) : shl n 2 = n * 4 % 4294967296 := by
  unfold shl; rw [Nat.shiftLeft_eq]; rfl
private theorem s4 (n : Nat) : shl n 4 = n * 16 % 4294967296 := by
  unfold shl; rw [Nat.shiftLeft_eq]; rfl
private theorem s6 (n : Nat) : shl n 6 = n * 64 % 4294967296 := by
  unfold shl; rw [Nat.shiftLeft_eq]; rfl
private theorem s8 (n : Nat) : shl n 8 = n * 256 % 4294967296 := by
  unfold shl; rw [Nat.shiftLeft_eq]; rfl
private theorem s12 (n : Nat) : shl n 12 = n * 4096 % 4294967296 := by
  unfold shl; rw [Nat.shiftLeft_eq]; rfl
private theorem s16 (n : Nat) : shl n 16 = n * 65536 % 4294967296 := by
  unfold shl; rw [Nat.shiftLeft_eq]; rfl
private theorem s18 (n : Nat) : shl n 18 = n * 262144 % 4294967296 := by
  unfold shl; rw [Nat.shiftLeft_eq]; rfl
private theorem o6 {x y : Nat} (hx : x % 64 = 0) (hy : y < 64) : x ||| y = x + y :=
  or_eq_add (k := 6) (Nat.dvd_of_mod_eq_zero hx) hy
private theorem o8 {x y : Nat} (hx : x % 256 = 0) (hy : y < 256) : x ||| y = x + y :=
  or_eq_add (k := 8) (Nat.dvd_of_mod_eq_zero hx) hy
private theorem o12 {x y : Nat} (hx : x % 4096 = 0) (hy : y < 4096) : x ||| y = x + y :=
  or_eq_add (k := 12) (Nat.dvd_of_mod_eq_zero hx) hy
private theorem o16 {x y : Nat} (hx : x % 65536 = 0) (hy : y < 65536) : x ||| y = x + y :=
  or_eq_add (k := 16) (Nat.dvd_of_mod_eq_zero hx) hy
private theorem o18 {x y : Nat} (hx : x % 262144 = 0) (hy : y < 262144) : x ||| y = x + y :=
  or_eq_add (k := 18) (Nat.dvd_of_mod_eq_zero hx) hy

theorem roundtrip_f1In1Byte {a : Nat} (ha : a < 256) :
    ∃ bs, packIntegers .f1In1Byte [a] = some bs ∧ bs.length = 1 ∧ (∀ x ∈ bs, x < 256) ∧
      unpackIntegers .f1In1Byte bs = some [a] := by
  refine ⟨_, rfl, rfl, ?_, ?_⟩
  · simp only [List.mem_cons, List.not_mem_nil, or_false, toByte]
    rintro x h; omega
  · simp only [unpackIntegers, toByte, mFFF000, mFF0000, mFFFF00, mFC0000, m03F000, m000FC0, mFFFFC0, m00FF00, mFC, l4, l2, l6, l8, l12, l16, l18, r2, r4, r6, r8, r12, r16, s2, s4, s6, s8, s12, s16, s18, Option.some.injEq, List.cons.injEq, and_true]
    omega

theorem roundtrip_f2In3Bytes {a b : Nat} (ha : a < 4096) (hb : b < 4096) :
    ∃ bs, packIntegers .f2In3Bytes [a, b] = some bs ∧ bs.length = 3 ∧ (∀ x ∈ bs, x < 256) ∧
      unpackIntegers .f2In3Bytes bs = some [a, b] := by
  refine ⟨_, rfl, rfl, ?_, ?_⟩
  · simp only [List.mem_cons, List.not_mem_nil, or_false, toByte]
    rintro x (h | h | h) <;> omega
  · simp only [unpackIntegers, toByte, mFFF000, mFF0000, mFFFF00, mFC0000, m03F000, m000FC0, mFFFFC0, m00FF00, mFC, l4, l2, l6, l8, l12, l16, l18, r2, r4, r6, r8, r12, r16, s2, s4, s6, s8, s12, s16, s18, Option.some.injEq, List.cons.injEq, and_true]
    omega

theorem roundtrip_f2In4Bytes {a b : Nat} (ha : a < 4096) (hb : b < 1048576) :
    ∃ bs, packIntegers .f2In4Bytes [a, b] = some bs ∧ bs.length = 4 ∧ (∀ x ∈ bs, x < 256) ∧
      unpackIntegers .f2In4Bytes bs = some [a, b] := by
  refine ⟨_, rfl, rfl, ?_, ?_⟩
  · simp only [List.mem_cons, List.not_mem_nil, or_false, toByte]
    rintro x (h | h | h | h) <;> omega
  · simp only [unpackIntegers, toByte, mFC, show (b &&& 0xFF00) >>> 8 = b / 256 % 256 from m00FF00 b]
    simp only [l4, l2, l6, l8, l12, l16, l18, r2, r4, r6, r8, r12, r16, s2, s4, s6, s8, s12, s16, s18, Option.some.injEq, List.cons.injEq, and_true]
    omega

theorem roundtrip_f3In4Bytes {a b c : Nat} (ha : a < 1024) (hb : b < 1024) (hc : c < 1024) :
    ∃ bs, packIntegers .f3In4Bytes [a, b, c] = some bs ∧ bs.length = 4 ∧ (∀ x ∈ bs, x < 256) ∧
      unpackIntegers .f3In4Bytes bs = some [a, b, c] := by
  refine ⟨_, rfl, rfl, ?_, ?_⟩
  · simp only [List.mem_cons, List.not_mem_nil, or_false, toByte]
    rintro x (h | h | h | h) <;> omega
  · simp only [unpackIntegers, toByte, mFC]
    simp only [l4, l2, l6, l8, l12, l16, l18, r2, r4, r6, r8, r12, r16, s2, s4, s6, s8, s12, s16, s18, Option.some.injEq, List.cons.injEq, and_true]
    omega

theorem roundtrip_f2In1Float {a b : Nat} (ha : a < 4096) (hb : b < 4096) :
    ∃ bs, packIntegers .f2In1Float [a, b] = some bs ∧ bs.length = 4 ∧ (∀ x ∈ bs, x < 256) ∧
      unpackIntegers .f2In1Float bs = some [a, b] := by
  refine ⟨_, rfl, rfl, bytesOfFloat_lt _, ?_⟩
  rw [show shl a 12 ||| b = a * 4096 + b by rw [s12, o12 (by omega) (by omega)]; omega]
  have c0 := castFloat1 (show a * 4096 + b ≤ 2 ^ 24 by omega)
  simp only [unpackIntegers, c0, Option.bind_some, mFFF000, mFF0000, mFFFF00, mFC0000, m03F000, m000FC0, mFFFFC0, m00FF00, mFC]
  simp only [l4, l2, l6, l8, l12, l16, l18, r2, r4, r6, r8, r12, r16, s2, s4, s6, s8, s12, s16, s18, Option.some.injEq, List.cons.injEq, and_true]
  omega

theorem roundtrip_f4In2Floats {a b c d : Nat} (ha : a < 4096) (hb : b < 4096) (hc : c < 4096) (hd : d < 4096) :
    ∃ bs, packIntegers .f4In2Floats [a, b, c, d] = some bs ∧ bs.length = 8 ∧ (∀ x ∈ bs, x < 256) ∧
      unpackIntegers .f4In2Floats bs = some [a, b, c, d] := by
  refine ⟨_, rfl, rfl, bytes2_lt _ _, ?_⟩
  rw [show shl a 12 ||| b = a * 4096 + b by rw [s12, o12 (by omega) (by omega)]; omega]
  rw [show shl c 12 ||| d = c * 4096 + d by rw [s12, o12 (by omega) (by omega)]; omega]
  obtain ⟨c0, c1⟩ := castFloat2 (show a * 4096 + b ≤ 2 ^ 24 by omega) (show c * 4096 + d ≤ 2 ^ 24 by omega)
  simp only [unpackIntegers, c0, c1, Option.bind_some, mFFF000, mFF0000, mFFFF00, mFC0000, m03F000, m000FC0, mFFFFC0, m00FF00, mFC]
  simp only [l4, l2, l6, l8, l12, l16, l18, r2, r4, r6, r8, r12, r16, s2, s4, s6, s8, s12, s16, s18, Option.some.injEq, List.cons.injEq, and_true]
  omega

theorem roundtrip_f3In1Float {a b c : Nat} (ha : a < 256) (hb : b < 256) (hc : c < 256) :
    ∃ bs, packIntegers .f3In1Float [a, b, c] = some bs ∧ bs.length = 4 ∧ (∀ x ∈ bs, x < 256) ∧
      unpackIntegers .f3In1Float bs = some [a, b, c] := by
  refine ⟨_, rfl, rfl, bytesOfFloat_lt _, ?_⟩
  rw [show shl a 16 ||| shl b 8 ||| c = a * 65536 + b * 256 + c by rw [s16, s8, o16 (x := a * 65536 % 4294967296) (by omega) (by omega), o8 (by omega) (by omega)]; omega]
  have c0 := castFloat1 (show a * 65536 + b * 256 + c ≤ 2 ^ 24 by omega)
  simp only [unpackIntegers, c0, Option.bind_some, mFFF000, mFF0000, mFFFF00, mFC0000, m03F000, m000FC0, mFFFFC0, m00FF00, mFC]
  simp only [l4, l2, l6, l8, l12, l16, l18, r2, r4, r6, r8, r12, r16, s2, s4, s6, s8, s12, s16, s18, Option.some.injEq, List.cons.injEq, and_true]
  omega

theorem roundtrip_f4In1Float {a b c d : Nat} (ha : a < 64) (hb : b < 64) (hc : c < 64) (hd : d < 64) :
    ∃ bs, packIntegers .f4In1Float [a, b, c, d] = some bs ∧ bs.length = 4 ∧ (∀ x ∈ bs, x < 256) ∧
      unpackIntegers .f4In1Float bs = some [a, b, c, d] := by
  refine ⟨_, rfl, rfl, bytesOfFloat_lt _, ?_⟩
  rw [show shl a 18 ||| shl b 12 ||| shl c 6 ||| d = a * 262144 + b * 4096 + c * 64 + d by rw [s18, s12, s6, o18 (x := a * 262144 % 4294967296) (y := b * 4096 % 4294967296) (by omega) (by omega), o12 (y := c * 64 % 4294967296) (by omega) (by omega), o6 (by omega) (by omega)]; omega]
  have c0 := castFloat1 (show a * 262144 + b * 4096 + c * 64 + d ≤ 2 ^ 24 by omega)
  simp only [unpackIntegers, c0, Option.bind_some, mFFF000, mFF0000, mFFFF00, mFC0000, m03F000, m000FC0, mFFFFC0, m00FF00, mFC]
  simp only [l4, l2, l6, l8, l12, l16, l18, r2, r4, r6, r8, r12, r16, s2, s4, s6, s8, s12, s16, s18, Option.some.injEq, List.cons.injEq, and_true]
  omega

theorem roundtrip_f3In2Floats {a b c : Nat} (ha : a < 65536) (hb : b < 65536) (hc : c < 65536) :
    ∃ bs, packIntegers .f3In2Floats [a, b, c] = some bs ∧ bs.length = 8 ∧ (∀ x ∈ bs, x < 256) ∧
      unpackIntegers .f3In2Floats bs = some [a, b, c] := by
  refine ⟨_, rfl, rfl, bytes2_lt _ _, ?_⟩
  rw [show shl a 8 ||| b >>> 8 = a * 256 + b / 256 by rw [s8, r8, o8 (by omega) (by omega)]; omega]
  rw [show shl (b &&& 0x000000FF) 16 ||| c = b % 256 * 65536 + c by rw [l8, s16, o16 (by omega) (by omega)]; omega]
  obtain ⟨c0, c1⟩ := castFloat2 (show a * 256 + b / 256 ≤ 2 ^ 24 by omega) (show b % 256 * 65536 + c ≤ 2 ^ 24 by omega)
  simp only [unpackIntegers, c0, c1, Option.bind_some, mFFF000, mFF0000, mFFFF00, mFC0000, m03F000, m000FC0, mFFFFC0, m00FF00, mFC]
  simp only [l4, l2, l6, l8, l12, l16, l18, r2, r4, r6, r8, r12, r16, s2, s4, s6, s8, s12, s16, s18, Option.some.injEq, List.cons.injEq, and_true]
  rw [o8 (by omega) (by omega)]; omega

theorem roundtrip_f4In3Floats {a b c d : Nat} (ha : a < 262144) (hb : b < 262144) (hc : c < 262144) (hd : d < 262144) :
    ∃ bs, packIntegers .f4In3Floats [a, b, c, d] = some bs ∧ bs.length = 12 ∧ (∀ x ∈ bs, x < 256) ∧
      unpackIntegers .f4In3Floats bs = some [a, b, c, d] := by
  refine ⟨_, rfl, rfl, bytes3_lt _ _ _, ?_⟩
  rw [show shl a 6 ||| b >>> 12 = a * 64 + b / 4096 by rw [s6, r12, o6 (by omega) (by omega)]; omega]
  rw [show shl (b &&& 0x00000FFF) 12 ||| c >>> 6 = b % 4096 * 4096 + c / 64 by rw [l12, s12, r6, o12 (by omega) (by omega)]; omega]
  rw [show shl (c &&& 0x0000003F) 18 ||| d = c % 64 * 262144 + d by rw [l6, s18, o18 (by omega) (by omega)]; omega]
  obtain ⟨c0, c1, c2⟩ := castFloat3 (show a * 64 + b / 4096 ≤ 2 ^ 24 by omega) (show b % 4096 * 4096 + c / 64 ≤ 2 ^ 24 by omega)
    (show c % 64 * 262144 + d ≤ 2 ^ 24 by omega)
  simp only [unpackIntegers, c0, c1, c2, Option.bind_some, mFFF000, mFF0000, mFFFF00, mFC0000, m03F000, m000FC0, mFFFFC0, m00FF00, mFC]
  simp only [l4, l2, l6, l8, l12, l16, l18, r2, r4, r6, r8, r12, r16, s2, s4, s6, s8, s12, s16, s18, Option.some.injEq, List.cons.injEq, and_true]
  rw [o12 (by omega) (by omega), o6 (by omega) (by omega)]; omega

end Verif.Mesh
