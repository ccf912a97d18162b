import Mathlib.Algebra.Order.Floor.Ring
import Mathlib.Data.Rat.Floor
import Mathlib.Data.Nat.Log
import Mathlib.Tactic.Linarith
import Mathlib.Tactic.Ring
import Mathlib.Tactic.NormNum

/-!
# IEEE-754 binary32

A concrete model of the C++ `float` used all over /repo: NaN (one value, payloads
are not modelled), two infinities and the finite numbers, with round to nearest,
ties to even, and signed zeros.

The finite magnitudes are numbered by their bit pattern `n < 0x7F800000`
(exponent field and mantissa field, sign bit removed).  The magnitude with pattern
`n` is `mag n * 2^-149`; `mag` is strictly increasing, so comparing floats is comparing
bit patterns, and "round to nearest, ties to even" is "the nearest `mag`, ties to the
even pattern".
-/

namespace Verif

/-- Pattern of `+inf`; patterns below are finite. -/
abbrev infPat : Nat := 0x7F800000

/-- Magnitude, in units of `2^-149`, of the (extended) bit pattern `n`.
For `n < 2^24` (subnormals and the first binade) it is `n`; above it is
`(2^23 + mantissa) * 2^(exponent field - 1)`. Defined for every `n` so that rounding can be
described before overflow is detected. -/
def mag (n : Nat) : Nat :=
  if n < 2 ^ 24 then n else (n % 2 ^ 23 + 2 ^ 23) * 2 ^ (n / 2 ^ 23 - 1)

/-- The pattern of the largest `mag` that is at most `k`. -/
def floorPat (k : Nat) : Nat :=
  if k < 2 ^ 24 then k
  else
    let l := Nat.log2 k - 23
    l * 2 ^ 23 + k / 2 ^ l

/-- Pattern nearest to the nonnegative rational `q` given in units of `2^-149`; ties go
to the even pattern (that is, to the even mantissa). -/
def roundPat (q : ℚ) : Nat :=
  let c := floorPat ⌊q⌋.toNat
  if 2 * q < mag c + mag (c + 1) then c
  else if 2 * q > mag c + mag (c + 1) then c + 1
  else if c % 2 = 0 then c else c + 1

/-- A C++ `float`. -/
inductive F32 where
  | nan : F32
  | inf (neg : Bool) : F32
  | fin (neg : Bool) (n : Nat) (h : n < infPat) : F32
  deriving DecidableEq, Repr

namespace F32

instance : Inhabited F32 := ⟨fin false 0 (by decide)⟩

/-- Sign and (extended) pattern to float: overflow to infinity. -/
def pack (neg : Bool) (n : Nat) : F32 :=
  if h : n < infPat then fin neg n h else inf neg

/-- The unit in the last place of the subnormals. -/
def unit : ℚ := 1 / 2 ^ 149

/-- Round a nonnegative magnitude (a plain rational number) and attach a sign. -/
def packRound (neg : Bool) (q : ℚ) : F32 := pack neg (roundPat (q * 2 ^ 149))

/-- Round a rational to the nearest float; zero becomes `+0`. -/
def ofRat (q : ℚ) : F32 := if q < 0 then packRound true (-q) else packRound false q

/-- The numeric value of a finite float (`0` for the others; always used next to a
finiteness hypothesis). -/
def toRat : F32 → ℚ
  | fin neg n _ => (if neg then -1 else 1) * (mag n : ℚ) / 2 ^ 149
  | _ => 0

def isNaN : F32 → Bool
  | nan => true
  | _ => false

/-- `std::isfinite`. -/
def isFinite : F32 → Bool
  | fin _ _ _ => true
  | _ => false

/-- `std::isinf`. -/
def isInf : F32 → Bool
  | inf _ => true
  | _ => false

/-- Sign bit. -/
def signBit : F32 → Bool
  | nan => false
  | inf s => s
  | fin s _ _ => s

/-- Position of a non-NaN float in the total preorder of the IEEE comparison. -/
def key : F32 → Int
  | nan => 0
  | inf s => if s then -(infPat : Int) else infPat
  | fin s n _ => if s then -(n : Int) else n

/-- C++ `a < b`. -/
def lt (a b : F32) : Bool := !a.isNaN && !b.isNaN && decide (a.key < b.key)
/-- C++ `a <= b`. -/
def le (a b : F32) : Bool := !a.isNaN && !b.isNaN && decide (a.key ≤ b.key)
/-- C++ `a == b` (so `0 == -0` and `nan != nan`). -/
def feq (a b : F32) : Bool := !a.isNaN && !b.isNaN && decide (a.key = b.key)
/-- C++ `a > b`. -/
abbrev gt (a b : F32) : Bool := lt b a
/-- C++ `a >= b`. -/
abbrev ge (a b : F32) : Bool := le b a

/-- C++ unary minus. -/
def neg : F32 → F32
  | nan => nan
  | inf s => inf !s
  | fin s n h => fin (!s) n h

/-- `std::abs`. -/
def fabs : F32 → F32
  | nan => nan
  | inf _ => inf false
  | fin _ n h => fin false n h

/-- `+0`. -/
def zero : F32 := fin false 0 (by decide)
/-- A zero with the given sign. -/
def szero (s : Bool) : F32 := fin s 0 (by decide)

/-- C++ `a + b`. An exact zero sum is `+0` unless both operands are negative zero. -/
def add : F32 → F32 → F32
  | nan, _ => nan
  | _, nan => nan
  | inf s, inf t => if s = t then inf s else nan
  | inf s, fin _ _ _ => inf s
  | fin _ _ _, inf t => inf t
  | fin s n h, fin t m k =>
    if toRat (fin s n h) + toRat (fin t m k) = 0 then szero (s && t)
    else ofRat (toRat (fin s n h) + toRat (fin t m k))

/-- C++ `a - b`. -/
def sub (a b : F32) : F32 := add a (neg b)

/-- C++ `a * b`. -/
def mul : F32 → F32 → F32
  | nan, _ => nan
  | _, nan => nan
  | inf s, inf t => inf (xor s t)
  | inf s, fin t m _ => if m = 0 then nan else inf (xor s t)
  | fin s n _, inf t => if n = 0 then nan else inf (xor s t)
  | fin s n _, fin t m _ => packRound (xor s t) ((mag n : ℚ) / 2 ^ 149 * ((mag m : ℚ) / 2 ^ 149))

/-- C++ `a / b` (IEEE-754 semantics for division by zero). -/
def div : F32 → F32 → F32
  | nan, _ => nan
  | _, nan => nan
  | inf _, inf _ => nan
  | inf s, fin t _ _ => inf (xor s t)
  | fin s _ _, inf t => szero (xor s t)
  | fin s n _, fin t m _ =>
    if m = 0 then (if n = 0 then nan else inf (xor s t))
    else packRound (xor s t) ((mag n : ℚ) / (mag m : ℚ))

/-- `std::fmod(a, b)`: the exact remainder of truncated division, with the sign of `a`. -/
def fmod : F32 → F32 → F32
  | nan, _ => nan
  | _, nan => nan
  | inf _, _ => nan
  | fin s n h, inf _ => fin s n h
  | fin s n _, fin _ m _ =>
    if m = 0 then nan else packRound s (((mag n % mag m : Nat) : ℚ) / 2 ^ 149)

/-- `std::floor`. -/
def ffloor : F32 → F32
  | fin s n h =>
    if n = 0 then fin s n h
    else if s then packRound true (-(⌊toRat (fin s n h)⌋ : ℚ))
    else packRound false (⌊toRat (fin s n h)⌋ : ℚ)
  | a => a

/-- `std::round`: halfway cases away from zero. -/
def fround : F32 → F32
  | fin s n _ => packRound s (⌊(mag n : ℚ) / 2 ^ 149 + 1 / 2⌋ : ℚ)
  | a => a

/-- `std::min(a, b)`: `(b < a) ? b : a`. -/
def smin (a b : F32) : F32 := if lt b a then b else a
/-- `std::max(a, b)`: `(a < b) ? b : a`. -/
def smax (a b : F32) : F32 := if lt a b then b else a
/-- `std::clamp(v, lo, hi)`. -/
def clamp (v lo hi : F32) : F32 := if lt v lo then lo else if lt hi v then hi else v

/-- Literal helper: an integer constant such as `1.f`. -/
def ofInt (z : Int) : F32 := ofRat z

/-- `std::numeric_limits<float>::max()`. -/
def maxFinite : F32 := fin false 0x7F7FFFFF (by decide)

/-- The 32-bit pattern (sign, exponent, mantissa); NaN is given its default quiet pattern. -/
def toBits : F32 → Nat
  | nan => 0x7FC00000
  | inf s => (if s then 2 ^ 31 else 0) + infPat
  | fin s n _ => (if s then 2 ^ 31 else 0) + n

/-- The float of a 32-bit pattern. -/
def ofBits (b : Nat) : F32 :=
  let n := b % 2 ^ 31
  if h : n < infPat then fin (b / 2 ^ 31 % 2 == 1) n h
  else if n = infPat then inf (b / 2 ^ 31 % 2 == 1)
  else nan

end F32
end Verif
