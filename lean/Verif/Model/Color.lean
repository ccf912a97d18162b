import Verif.F32.Basic

/-!
# Model of `Color`, in binary32

From `ink/color/color.{h,cc}` and `ink/color/color_helpers.h`. `LOG(FATAL)`, a failed DCHECK and an
undefined float-to-integer cast are `none`.

The gamma curves (color_space.cc:93-125) and the change of primaries (color_space.cc:127-180) are
computed with `double` and `std::pow`; they are parameters of the model (`ColorEnv`), about which a
theorem states what it needs. Formatting and the named color constants are not modelled.
-/

set_option autoImplicit false

namespace Verif

/-- color_space.h `ColorSpace` -/
inductive ColorSpace | srgb | displayP3
  deriving DecidableEq, Repr

/-- color.h:66-83 `Color::Format` -/
inductive ColorFormat | linear | gammaEncoded | premultipliedAlpha
  deriving DecidableEq, Repr

/-- What color.cc takes from color_space.cc. -/
structure ColorEnv where
  /-- color_space.cc:93-108 `GammaDecode` -/
  decode : F32 → ColorSpace → F32
  /-- color_space.cc:110-125 `GammaEncode` -/
  encode : F32 → ColorSpace → F32
  /-- color_space.cc:156-180: the matrix product used when the two spaces differ. -/
  matrix : ColorSpace → ColorSpace → F32 × F32 × F32 → F32 × F32 × F32

/-- color.h `Color`: `rgba_` and `color_space_`. -/
structure Color where
  r : F32
  g : F32
  b : F32
  a : F32
  space : ColorSpace
  deriving DecidableEq, Repr

/-- color.h `Color::RgbaFloat` -/
structure RgbaFloat where
  r : F32
  g : F32
  b : F32
  a : F32
  deriving DecidableEq, Repr

/-- color.h `Color::RgbaUint8`: four bytes. -/
structure RgbaUint8 where
  r : Nat
  g : Nat
  b : Nat
  a : Nat
  deriving DecidableEq, Repr

namespace Color

open F32

/-- The literal `1.0f`. -/
def one : F32 := .fin false 0x3F800000 (by decide)
/-- The literal `255.0f`. -/
def f255 : F32 := .fin false 0x437F0000 (by decide)
/-- color.cc:41 `kNearlyZero`: the float nearest to `7.62951e-6`. -/
def kNearlyZero : F32 := F32.ofRat (762951 / 100000000000)

/-- color.cc:43-48 `NanToZero` -/
def nanToZero (x : F32) : F32 := if x.isNaN then zero else x

/-- color.h: `Color()` -/
def dflt : Color := ⟨zero, zero, zero, one, .srgb⟩

/-- color.cc:52-81 `FromFloat` -/
def fromFloat (E : ColorEnv) (red green blue alpha : F32) (f : ColorFormat) (s : ColorSpace) :
    Option Color :=
  let r := nanToZero red
  let g := nanToZero green
  let b := nanToZero blue
  let a := clamp (nanToZero alpha) zero one
  match f with
  | .linear => some ⟨r, g, b, a, s⟩
  | .gammaEncoded => some ⟨E.decode r s, E.decode g s, E.decode b s, a, s⟩
  | .premultipliedAlpha =>
    if feq a zero then
      if !feq r zero || !feq g zero || !feq b zero then none else some ⟨r, g, b, a, s⟩
    else some ⟨div r a, div g a, div b a, a, s⟩

/-- color.cc:83-95 `FromUint8` -/
def fromUint8 (E : ColorEnv) (red green blue alpha : Nat) (f : ColorFormat) (s : ColorSpace) :
    Option Color :=
  if f = .premultipliedAlpha ∧ alpha = 0 ∧ (red ≠ 0 ∨ green ≠ 0 ∨ blue ≠ 0) then none
  else fromFloat E (div (ofInt red) f255) (div (ofInt green) f255) (div (ofInt blue) f255)
    (div (ofInt alpha) f255) f s

/-- color.cc:97-103 `FromPackedUint32RGBA` -/
def fromPacked (E : ColorEnv) (rgba : Nat) (f : ColorFormat) (s : ColorSpace) : Option Color :=
  fromUint8 E ((rgba >>> 24) % 256) ((rgba >>> 16) &&& 0xff) ((rgba >>> 8) &&& 0xff) (rgba &&& 0xff) f s

/-- color.cc:105-115 `operator==` -/
def eqB (c d : Color) : Bool :=
  c.space == d.space && feq c.r d.r && feq c.g d.g && feq c.b d.b && feq c.a d.a

/-- color_space.cc:156-160 `ConvertColor` -/
def convert (E : ColorEnv) (c : Color) (target : ColorSpace) : F32 × F32 × F32 × F32 :=
  if c.space = target then (c.r, c.g, c.b, c.a)
  else
    let m := E.matrix c.space target (c.r, c.g, c.b)
    (m.1, m.2.1, m.2.2, c.a)

/-- color.cc:178-185 `InColorSpace` -/
def inColorSpace (E : ColorEnv) (c : Color) (target : ColorSpace) : Option Color :=
  let m := convert E c target
  fromFloat E m.1 m.2.1 m.2.2.1 m.2.2.2 .linear target

/-- color.cc:117-125 `NearlyEquals` -/
def nearlyEquals (E : ColorEnv) (c d : Color) : Option Bool := do
  let o ← inColorSpace E d c.space
  some (!gt (fabs (sub o.r c.r)) kNearlyZero && !gt (fabs (sub o.g c.g)) kNearlyZero &&
    !gt (fabs (sub o.b c.b)) kNearlyZero && !gt (fabs (sub o.a c.a)) kNearlyZero)

/-- color.cc:127-134 `IsInGamut` -/
def isInGamut (c : Color) : Bool :=
  !(lt c.r zero || gt c.r one) && !(lt c.g zero || gt c.g one) && !(lt c.b zero || gt c.b one)

/-- color.cc:136-143 `IsNearlyInGamut` -/
def isNearlyInGamut (c : Color) : Bool :=
  let lo := neg kNearlyZero
  let hi := add one kNearlyZero
  !(lt c.r lo || gt c.r hi) && !(lt c.g lo || gt c.g hi) && !(lt c.b lo || gt c.b hi)

/-- color.cc:145-152 `ClampedToGamut` -/
def clampedToGamut (c : Color) : Color :=
  ⟨clamp c.r zero one, clamp c.g zero one, clamp c.b zero one, clamp c.a zero one, c.space⟩

/-- color.cc:154-176 `ScaledToGamut` -/
def scaledToGamut (c : Color) : Color :=
  let r := smax zero c.r
  let g := smax zero c.g
  let b := smax zero c.b
  let a := smin one (smax zero c.a)
  let m := smax r (smax g b)
  if gt m one then ⟨div r m, div g m, div b m, a, c.space⟩ else ⟨r, g, b, a, c.space⟩

/-- color.cc:187-190 `WithAlphaFloat` -/
def withAlpha (E : ColorEnv) (c : Color) (alpha : F32) : Option Color :=
  fromFloat E c.r c.g c.b alpha .linear c.space

/-- color.cc:192-214 `AsFloat` -/
def asFloat (E : ColorEnv) (c : Color) (f : ColorFormat) : Option RgbaFloat :=
  match f with
  | .linear => some ⟨c.r, c.g, c.b, c.a⟩
  | .gammaEncoded => some ⟨E.encode c.r c.space, E.encode c.g c.space, E.encode c.b c.space, c.a⟩
  | .premultipliedAlpha =>
    if ge c.a zero && le c.a one then
      if feq c.a zero then some ⟨zero, zero, zero, c.a⟩
      else some ⟨mul c.r c.a, mul c.g c.a, mul c.b c.a, c.a⟩
    else none

/-- `static_cast<uint8_t>(float)`: truncation; undefined when the result does not fit. -/
def castUint8 : F32 → Option Nat
  | .fin s n _ =>
    let t := ⌊(mag n : ℚ) / 2 ^ 149⌋.toNat
    if s && t ≠ 0 then none else if t ≥ 256 then none else some t
  | _ => none

/-- color.cc:217-220 `FloatToUint8` -/
def floatToUint8 (x : F32) : Option Nat := castUint8 (clamp (fround (mul f255 x)) zero f255)

/-- color.cc:223-231 `AsUint8` -/
def asUint8 (E : ColorEnv) (c : Color) (f : ColorFormat) : Option RgbaUint8 := do
  let v ← asFloat E c f
  let r ← floatToUint8 v.r
  let g ← floatToUint8 v.g
  let b ← floatToUint8 v.b
  let a ← floatToUint8 v.a
  some ⟨r, g, b, a⟩

/-- color.cc:233-238 `AsPackedUint32RGBA` -/
def asPacked (E : ColorEnv) (c : Color) (f : ColorFormat) : Option Nat := do
  let v ← asUint8 E c f
  some ((v.r <<< 24 % 2 ^ 32) ||| (v.g <<< 16 % 2 ^ 32) ||| (v.b <<< 8 % 2 ^ 32) ||| v.a)

/-- color_helpers.h:25-30 `UnpackUint32ARGB` -/
def unpackARGB (argb : Nat) : RgbaUint8 :=
  ⟨(argb >>> 16) &&& 0xff, (argb >>> 8) &&& 0xff, argb &&& 0xff, (argb >>> 24) % 256⟩

/-- color_helpers.h:33-37 `PackUint32ARGB` -/
def packARGB (c : RgbaUint8) : Nat :=
  (c.a <<< 24 % 2 ^ 32) ||| (c.r <<< 16 % 2 ^ 32) ||| (c.g <<< 8 % 2 ^ 32) ||| c.b

end Color

/-- Every way to obtain a `Color` through the API. -/
inductive ColorExpr
  | dflt
  | fromFloat (r g b a : F32) (f : ColorFormat) (s : ColorSpace)
  | fromUint8 (r g b a : Fin 256) (f : ColorFormat) (s : ColorSpace)
  | fromPacked (rgba : Fin (2 ^ 32)) (f : ColorFormat) (s : ColorSpace)
  | clamped (e : ColorExpr)
  | scaled (e : ColorExpr)
  | inSpace (e : ColorExpr) (s : ColorSpace)
  | withAlpha (e : ColorExpr) (a : F32)

/-- The color a history produces; `none` if the program ended. -/
def ColorExpr.eval (E : ColorEnv) : ColorExpr → Option Color
  | .dflt => some Color.dflt
  | .fromFloat r g b a f s => Color.fromFloat E r g b a f s
  | .fromUint8 r g b a f s => Color.fromUint8 E r g b a f s
  | .fromPacked n f s => Color.fromPacked E n f s
  | .clamped e => (e.eval E).map Color.clampedToGamut
  | .scaled e => (e.eval E).map Color.scaledToGamut
  | .inSpace e s => (e.eval E).bind fun c => Color.inColorSpace E c s
  | .withAlpha e a => (e.eval E).bind fun c => Color.withAlpha E c a

end Verif
