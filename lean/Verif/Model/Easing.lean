import Verif.Model.Rect

/-!
# Model of `EasingFunction` and `EasingImplementation`, in binary32

From `ink/brush/easing_function.{h,cc}`, `ink/strokes/internal/easing_implementation.{h,cc}` and the
scalar helpers of `ink/geometry/internal/algorithms.cc`.

The loop which fills the look-up table of a cubic Bezier (easing_implementation.cc:93-135) is a parameter `tabulate` here; it is
modelled in `Verif.Model.EasingTable`.
-/

set_option autoImplicit false

namespace Verif

open F32

/-- algorithms.cc:104 `Lerp(float, float, float)` -/
def lerpF (a b t : F32) : F32 := add a (mul (sub b a) t)

/-- algorithms.cc:127-134 `InverseLerp` -/
def inverseLerpF (a b value : F32) : F32 :=
  if feq (sub b a) zero then zero else div (sub value a) (sub b a)

namespace Easing

/-- easing_function.h:45-58 `Predefined`. (A variable of this type holds one of the enumerators:
non-enumerator values are rejected by validation and not modelled.) -/
inductive Predefined where
  | linear | ease | easeIn | easeOut | easeInOut | stepStart | stepEnd
  deriving DecidableEq, Repr

/-- easing_function.h:78-86 `CubicBezier` -/
structure CubicBezier where
  x1 : F32
  y1 : F32
  x2 : F32
  y2 : F32
  deriving DecidableEq, Repr

/-- easing_function.h:121-139 `StepPosition` -/
inductive StepPosition where
  | jumpEnd | jumpStart | jumpBoth | jumpNone
  deriving DecidableEq, Repr

/-- easing_function.h:40-168 `EasingFunction::Parameters`; `step_count` is an `int32_t`. -/
inductive Fn where
  | predefined (p : Predefined)
  | cubicBezier (c : CubicBezier)
  | linear (points : List PointF)
  | steps (count : Int) (pos : StepPosition)
  deriving DecidableEq, Repr

def one : F32 := RectF.one

/-- easing_function.cc:110-123, the test of a single point. -/
def pointOk (p : PointF) : Bool :=
  !(!p.x.isFinite || lt p.x zero || gt p.x one) && p.y.isFinite

/-- easing_function.cc:124-133, the test of consecutive points. -/
def sortedX : List PointF → Bool
  | a :: b :: l => !(gt a.x b.x) && sortedX (b :: l)
  | _ => true

/-- easing_function.cc:82-173 `ValidateEasingFunctionParameters`; true is `OkStatus`. -/
def Fn.valid : Fn → Bool
  | .predefined _ => true
  | .cubicBezier c =>
    !(!(c.x1.isFinite && c.y1.isFinite && c.x2.isFinite && c.y2.isFinite) ||
      lt c.x1 zero || gt c.x1 one || lt c.x2 zero || gt c.x2 one)
  | .linear ps => ps.all pointOk && sortedX ps
  | .steps n pos => !(decide (pos = .jumpNone) && decide (n < 2)) && !(decide (n < 1))

/-- easing_implementation.h:78-118 `implementation_type_` -/
inductive Impl where
  | identity
  | bezier (table : List F32)
  | linear (points : List PointF)
  | steps (count height start : F32)
  deriving DecidableEq, Repr

/-- easing_implementation.cc:150-166, one iteration of the loop; `none` is the `break`. -/
def dedupStep (i : Nat) (p : PointF) (acc : List PointF) : Option (List PointF) :=
  if decide (0 < i) && feq p.x zero then some (acc.set 0 p)
  else if feq p.x one && decide (1 ≤ acc.length) &&
      (acc.getLast?.any fun q => feq q.x one) then none
  else if decide (2 ≤ acc.length) && (acc[acc.length - 1]?.any fun q => feq q.x p.x) &&
      (acc[acc.length - 2]?.any fun q => feq q.x p.x) then some (acc.set (acc.length - 1) p)
  else some (acc ++ [p])

/-- easing_implementation.cc:150-166, the loop from index `i`. -/
def dedupFrom : Nat → List PointF → List PointF → List PointF
  | _, [], acc => acc
  | i, p :: l, acc =>
    match dedupStep i p acc with
    | none => acc
    | some acc' => dedupFrom (i + 1) l acc'

/-- easing_implementation.cc:137-168 -/
def dedup (points : List PointF) : List PointF := dedupFrom 0 points []

/-- easing_implementation.cc:170-198 -/
def setUpSteps (count : Int) (pos : StepPosition) : Impl :=
  let n := ofInt count
  match pos with
  | .jumpEnd => .steps n (div one n) zero
  | .jumpStart => .steps n (div one n) (div one n)
  | .jumpNone => .steps n (div one (sub n one)) zero
  | .jumpBoth => .steps n (div one (add n one)) (div one (add n one))

/-- easing_implementation.cc:43-52: the literals 0.25, 0.1, 0.42, 0.58 as binary32. -/
def bezierOf : Predefined → CubicBezier
  | .ease => ⟨.fin false 0x3E800000 (by decide), .fin false 0x3DCCCCCD (by decide),
      .fin false 0x3E800000 (by decide), one⟩
  | .easeIn => ⟨.fin false 0x3ED70A3D (by decide), zero, one, one⟩
  | .easeOut => ⟨zero, zero, .fin false 0x3F147AE1 (by decide), one⟩
  | .easeInOut =>
    ⟨.fin false 0x3ED70A3D (by decide), zero, .fin false 0x3F147AE1 (by decide), one⟩
  /- not reached: LOG(FATAL), easing_implementation.cc:53-61 -/
  | .linear | .stepStart | .stepEnd => ⟨zero, zero, one, one⟩

/-- easing_implementation.cc:67-198 the constructor. -/
def setUp (tabulate : CubicBezier → List F32) : Fn → Impl
  | .predefined .linear => .identity
  | .predefined .stepEnd => setUpSteps 1 .jumpEnd
  | .predefined .stepStart => setUpSteps 1 .jumpStart
  | .predefined p => .bezier (tabulate (bezierOf p))
  | .cubicBezier c => .bezier (tabulate c)
  | .linear ps => .linear (dedup ps)
  | .steps n pos => setUpSteps n pos

/-- easing_implementation.h:60 `kTableSize` -/
def tableSize : Nat := 14

/-- easing_implementation.cc:207-218; `none` is a read outside the table. -/
def bezierY (table : List F32) (x : F32) : Option F32 :=
  if x.isNaN then some x
  else if le x zero then table[0]?
  else if ge x one then table[tableSize - 1]?
  else
    let x := mul x (ofInt (tableSize - 1))
    let index := x.toRat.floor.toNat
    let t := sub x (ofInt index)
    match table[index]?, table[index + 1]? with
    | some a, some b => some (lerpF a b t)
    | _, _ => none

/-- easing_implementation.cc:223-244 the two points that `GetY` interpolates between. `std::upper_bound`
is the split at the first point with `x < point.x`, as the points are sorted by x. -/
def bracket (points : List PointF) (x : F32) : PointF × PointF :=
  let before := points.takeWhile fun p => !(lt x p.x)
  let after := points.dropWhile fun p => !(lt x p.x)
  (before.getLast?.getD ⟨zero, zero⟩, after.head?.getD ⟨one, one⟩)

/-- easing_implementation.cc:246-253 -/
def interpolate (prev next : PointF) (x : F32) : F32 :=
  if feq prev.y next.y then next.y
  else if feq prev.x next.x then if lt x next.x then prev.y else next.y
  else lerpF prev.y next.y (div (sub x prev.x) (sub next.x prev.x))

/-- easing_implementation.cc:220-254 -/
def linearY (points : List PointF) (x : F32) : F32 :=
  if x.isNaN then x else interpolate (bracket points x).1 (bracket points x).2 x

/-- easing_implementation.cc:256-261 -/
def stepsY (count height start x : F32) : F32 :=
  if lt x zero then zero
  else if ge x one then one
  else add start (mul height (ffloor (mul count x)))

/-- easing_implementation.cc:200-203 `GetY` -/
def Impl.getY : Impl → F32 → Option F32
  | .identity, x => some x
  | .bezier table, x => bezierY table x
  | .linear ps, x => some (linearY ps x)
  | .steps n h s, x => some (stepsY n h s x)

end Easing

end Verif
