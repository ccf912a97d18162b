import Verif.F32.Int
import Verif.Model.MeshPacking
import Mathlib.Tactic.IntervalCases

/-!
# Lemmas about bytes, floats and bit fields
-/

set_option autoImplicit false
set_option exponentiation.threshold 400

namespace Verif.Mesh

open Verif

theorem u32OfBytes_bytesOfU32 {n : Nat} (h : n < 2 ^ 32) : u32OfBytes (bytesOfU32 n) = some n := by
  simp only [bytesOfU32, u32OfBytes, Option.some.injEq]; omega

theorem u16OfBytes_bytesOfU16 {n : Nat} (h : n < 2 ^ 16) : u16OfBytes (bytesOfU16 n) = some n := by
  simp only [bytesOfU16, u16OfBytes, Option.some.injEq]; omega

@[simp] theorem length_bytesOfU32 (n : Nat) : (bytesOfU32 n).length = 4 := rfl
@[simp] theorem length_bytesOfU16 (n : Nat) : (bytesOfU16 n).length = 2 := rfl
@[simp] theorem length_bytesOfFloat (f : F32) : (bytesOfFloat f).length = 4 := rfl

theorem bytesOfU32_lt (n : Nat) : ∀ b ∈ bytesOfU32 n, b < 256 := by
  intro b hb; simp only [bytesOfU32, List.mem_cons, List.not_mem_nil, or_false] at hb; omega

theorem bytesOfU16_lt (n : Nat) : ∀ b ∈ bytesOfU16 n, b < 256 := by
  intro b hb; simp only [bytesOfU16, List.mem_cons, List.not_mem_nil, or_false] at hb; omega

theorem bytesOfFloat_lt (f : F32) : ∀ b ∈ bytesOfFloat f, b < 256 := bytesOfU32_lt _

theorem floatOfBytes_bytesOfFloat (f : F32) : floatOfBytes (bytesOfFloat f) = some f := by
  simp [floatOfBytes, bytesOfFloat, u32OfBytes_bytesOfU32 (F32.toBits_lt f), F32.ofBits_toBits]

/-- Writing floats and reading them back is exact. -/
theorem floatsOfBytes_flatMap (vs : List F32) (rest : List Nat) :
    floatsOfBytes vs.length (vs.flatMap bytesOfFloat ++ rest) = some vs := by
  induction vs with
  | nil => rfl
  | cons v vs ih =>
    have h1 : (v :: vs).flatMap bytesOfFloat ++ rest =
        bytesOfFloat v ++ (vs.flatMap bytesOfFloat ++ rest) := by simp
    rw [h1, List.length_cons]
    simp only [floatsOfBytes]
    rw [List.take_left' (by simp), List.drop_left' (by simp), floatOfBytes_bytesOfFloat, ih]
    rfl

/-! ## Float and integer conversions -/

theorem u32OfFloat_of_toRat {f : F32} {n : Nat} (hf : f.isFinite) (h : F32.toRat f = n)
    (hn : n < 2 ^ 32) : u32OfFloat f = some n := by
  obtain ⟨s, m, hm, rfl⟩ := F32.exists_of_isFinite hf
  have ha := F32.abs_toRat_fin s m hm
  rw [h, abs_of_nonneg (by positivity)] at ha
  simp only [u32OfFloat, ← ha]
  rw [show ⌊((n : ℕ) : ℚ)⌋.toNat = n by simp]
  have hs : (s && decide (n ≠ 0)) = false := by
    cases s
    · rfl
    · rw [F32.toRat_fin_true] at h
      have hp : (0 : ℚ) ≤ (mag m : ℚ) / 2 ^ 149 := by positivity
      have : (n : ℚ) ≤ 0 := by linarith
      have : n = 0 := by exact_mod_cast le_antisymm this (by positivity)
      simp [this]
  rw [hs]
  simp only [Bool.false_eq_true, if_false]
  rw [if_neg (by omega)]

theorem isFinite_floatOfU32 {n : Nat} (h : n ≤ 2 ^ 24) : (floatOfU32 n).isFinite = true := by
  apply F32.isFinite_ofInt; rw [abs_of_nonneg (by positivity)]; exact_mod_cast h

theorem toRat_floatOfU32 {n : Nat} (h : n ≤ 2 ^ 24) : F32.toRat (floatOfU32 n) = n := by
  unfold floatOfU32
  rw [F32.toRat_ofInt (by rw [abs_of_nonneg (by positivity)]; exact_mod_cast h)]
  simp

theorem u32OfFloat_floatOfU32 {n : Nat} (h : n ≤ 2 ^ 24) : u32OfFloat (floatOfU32 n) = some n :=
  u32OfFloat_of_toRat (isFinite_floatOfU32 h) (toRat_floatOfU32 h) (by omega)

/-- The integers stored as floats come back. -/
theorem castFloat_float (ns : List Nat) (h : ∀ n ∈ ns, n ≤ 2 ^ 24) (i : Nat) :
    castFloat (ns.flatMap fun n => bytesOfFloat (floatOfU32 n)) i =
      if i < ns.length then ns[i]? else none := by
  induction ns generalizing i with
  | nil => simp [castFloat, floatOfBytes, u32OfBytes]
  | cons n ns ih =>
    have h1 : (n :: ns).flatMap (fun n => bytesOfFloat (floatOfU32 n)) =
      bytesOfFloat (floatOfU32 n) ++ ns.flatMap (fun n => bytesOfFloat (floatOfU32 n)) := by simp
    rw [h1]
    cases i with
    | zero =>
      simp only [castFloat, Nat.mul_zero, List.drop_zero]
      rw [List.take_left' (by simp), floatOfBytes_bytesOfFloat]
      simp [u32OfFloat_floatOfU32 (h n (by simp))]
    | succ i =>
      have := ih (fun m hm => h m (by simp [hm])) i
      simp only [castFloat] at this ⊢
      rw [show 4 * (i + 1) = (bytesOfFloat (floatOfU32 n)).length + 4 * i by simp; omega,
        List.drop_length_add_append, this]
      simp

theorem castFloat1 {n : Nat} (h : n ≤ 2 ^ 24) :
    castFloat (bytesOfFloat (floatOfU32 n)) 0 = some n := by
  have := castFloat_float [n] (by simpa using h) 0
  simpa using this

theorem castFloat2 {n m : Nat} (h : n ≤ 2 ^ 24) (h' : m ≤ 2 ^ 24) :
    castFloat (bytesOfFloat (floatOfU32 n) ++ bytesOfFloat (floatOfU32 m)) 0 = some n ∧
    castFloat (bytesOfFloat (floatOfU32 n) ++ bytesOfFloat (floatOfU32 m)) 1 = some m := by
  have h0 := castFloat_float [n, m] (by simp; omega) 0
  have h1 := castFloat_float [n, m] (by simp; omega) 1
  constructor
  · simpa using h0
  · simpa using h1

theorem castFloat3 {n m k : Nat} (h : n ≤ 2 ^ 24) (h' : m ≤ 2 ^ 24) (h'' : k ≤ 2 ^ 24) :
    let bs := bytesOfFloat (floatOfU32 n) ++ bytesOfFloat (floatOfU32 m) ++
      bytesOfFloat (floatOfU32 k)
    castFloat bs 0 = some n ∧ castFloat bs 1 = some m ∧ castFloat bs 2 = some k := by
  have h0 := castFloat_float [n, m, k] (by simp; omega) 0
  have h1 := castFloat_float [n, m, k] (by simp; omega) 1
  have h2 := castFloat_float [n, m, k] (by simp; omega) 2
  refine ⟨?_, ?_, ?_⟩
  · simpa using h0
  · simpa using h1
  · simpa using h2

/-! ## Bit fields -/

/-- `x | y` is a sum when `y` only uses bits below those of `x`. -/
theorem or_eq_add {k x y : Nat} (hx : 2 ^ k ∣ x) (hy : y < 2 ^ k) : x ||| y = x + y := by
  obtain ⟨c, rfl⟩ := hx
  rw [Nat.mul_comm, ← Nat.shiftLeft_eq]
  exact (Nat.shiftLeft_add_eq_or_of_lt hy c).symm

/-- Extracting a bit field. -/
theorem field_eq (n j k : Nat) : (n &&& ((2 ^ k - 1) <<< j)) >>> j = n / 2 ^ j % 2 ^ k := by
  rw [Nat.shiftRight_and_distrib, Nat.shiftLeft_shiftRight, Nat.and_two_pow_sub_one_eq_mod,
    Nat.shiftRight_eq_div_pow]

theorem shl_eq {a k : Nat} (h : a * 2 ^ k < 2 ^ 32) : shl a k = a * 2 ^ k := by
  unfold shl; rw [Nat.shiftLeft_eq, Nat.mod_eq_of_lt h]

theorem low_eq (n k : Nat) : n &&& (2 ^ k - 1) = n % 2 ^ k := Nat.and_two_pow_sub_one_eq_mod n k

end Verif.Mesh
