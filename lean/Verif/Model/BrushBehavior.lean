import Verif.Model.Easing
import Verif.Model.Angle
import Verif.Model.Duration

/-!
# Model of `BrushBehavior`, `BrushTip` and of the evaluation of behaviors, in binary32

From `ink/brush/brush_behavior.{h,cc}`, `ink/brush/brush_tip.{h,cc}`,
`ink/strokes/internal/brush_tip_state.h` and `ink/strokes/internal/brush_tip_modeler_helpers.{h,cc}`.

The functions of the C++ standard library that are not arithmetic (`std::hypot`, `std::exp`, the
trigonometric functions) are fields of `Libm`: every theorem holds whatever they return.
Enum variables hold enumerators: the tests for non-enumerator values are not modelled.
-/

set_option autoImplicit false

namespace Verif

open F32

/-- The library functions called by the code. -/
structure Libm where
  cos : F32 → F32
  sin : F32 → F32
  tan : F32 → F32
  atan : F32 → F32
  exp : F32 → F32
  hypot : F32 → F32 → F32
  atan2 : F32 → F32 → F32

namespace Tip

def one : F32 := RectF.one
def two : F32 := RectF.two
def half : F32 := RectF.half
/-- `-1.f` -/
def negOne : F32 := .fin true 0x3F800000 (by decide)
/-- angle.h:78 `kQuarterTurn` -/
def quarterTurn : F32 := .fin false 0x3FC90FDB (by decide)

/-- brush_behavior.h:111-238 `Source` -/
inductive Source where
  | normalizedPressure | tilt | tiltX | tiltY | orientation | orientationAboutZero
  | speed | velocityX | velocityY
  | direction | directionAboutZero | normalizedDirectionX | normalizedDirectionY
  | distanceTraveled | timeOfInputSeconds | timeOfInputMillis
  | predictedDistanceTraveled | predictedTimeElapsedSeconds | predictedTimeElapsedMillis
  | distanceRemaining | timeSinceInputSeconds | timeSinceInputMillis
  | acceleration | accelerationX | accelerationY | accelerationForward | accelerationLateral
  | inputSpeed | inputVelocityX | inputVelocityY | inputDistanceTraveled
  | predictedInputDistanceTraveled
  | inputAcceleration | inputAccelerationX | inputAccelerationY | inputAccelerationForward
  | inputAccelerationLateral
  deriving DecidableEq, Repr

/-- brush_behavior.h:241-313 `Target` -/
inductive Target where
  | widthMultiplier | heightMultiplier | sizeMultiplier | slantOffset | pinchOffset
  | rotationOffset | cornerRoundingOffset | positionOffsetX | positionOffsetY
  | positionOffsetForward | positionOffsetLateral | hueOffset | saturationMultiplier
  | luminosity | opacityMultiplier
  deriving DecidableEq, Repr

/-- brush_behavior.h:316-330 `OutOfRange` -/
inductive OutOfRange where
  | clamp | repeat | mirror
  deriving DecidableEq, Repr

/-- brush_behavior.h:350-356 `OptionalInputProperty` -/
inductive OptionalProperty where
  | pressure | tilt | orientation | tiltXAndY
  deriving DecidableEq, Repr

/-- brush_behavior.h:334-345 `EnabledToolTypes` -/
structure EnabledToolTypes where
  unknown : Bool
  mouse : Bool
  touch : Bool
  stylus : Bool
  deriving DecidableEq, Repr

/-- stroke_input.h `ToolType` -/
inductive Tool where
  | unknown | mouse | touch | stylus
  deriving DecidableEq, Repr

/-- brush_behavior.h:360-363 `BinaryOp` -/
inductive BinaryOp where
  | product | sum
  deriving DecidableEq, Repr

/-- brush_behavior.h:372-390 `DampingSource` -/
inductive DampingSource where
  | distanceInCentimeters | distanceInMultiplesOfBrushSize | timeInSeconds
  deriving DecidableEq, Repr

/-- brush_behavior.h:395-402 `Interpolation` -/
inductive Interpolation where
  | lerp | inverseLerp
  deriving DecidableEq, Repr

/-- brush_behavior.h:422-536 `Node` -/
inductive Node where
  | source (s : Source) (oor : OutOfRange) (lo hi : F32)
  | constant (value : F32)
  | fallbackFilter (p : OptionalProperty)
  | toolTypeFilter (e : EnabledToolTypes)
  | damping (s : DampingSource) (gap : F32)
  | response (e : Easing.Fn)
  | binaryOp (op : BinaryOp)
  | interpolation (i : Interpolation)
  | target (t : Target) (lo hi : F32)
  deriving DecidableEq, Repr

/-- brush_behavior.h `BrushBehavior` -/
abbrev Behavior := List Node

/-- brush_behavior.cc:212-271 `ValidateSourceAndOutOfRangeCombination` -/
def sourceOutOfRangeOk (s : Source) (oor : OutOfRange) : Bool :=
  match s with
  | .timeSinceInputSeconds | .timeSinceInputMillis => decide (oor = .clamp)
  | _ => true

/-- brush_behavior.cc:305-308 `IsRangeValid` -/
def rangeOk (lo hi : F32) : Bool := lo.isFinite && hi.isFinite && !(feq lo hi)

/-- brush_behavior.cc:351-363 `NodeInputCount` -/
def Node.inputCount : Node → Nat
  | .source .. => 0
  | .constant .. => 0
  | .fallbackFilter .. => 1
  | .toolTypeFilter .. => 1
  | .damping .. => 1
  | .response .. => 1
  | .binaryOp .. => 2
  | .interpolation .. => 3
  | .target .. => 1

/-- brush_behavior.cc:367-372 `NodeOutputCount` -/
def Node.outputCount : Node → Nat
  | .target .. => 0
  | _ => 1

/-- brush_behavior.cc:374-476 `ValidateNode` -/
def Node.valid : Node → Bool
  | .source s oor lo hi => sourceOutOfRangeOk s oor && rangeOk lo hi
  | .constant v => v.isFinite
  | .fallbackFilter _ => true
  | .toolTypeFilter e => e.unknown || e.mouse || e.touch || e.stylus
  | .damping _ gap => !(!gap.isFinite || lt gap zero)
  | .response e => e.valid
  | .binaryOp _ => true
  | .interpolation _ => true
  | .target _ lo hi => rangeOk lo hi

/-- brush_behavior.cc:484-500, the loop with the current stack depth; `none` is an error. -/
def validateFrom : Nat → List Node → Option Nat
  | d, [] => some d
  | d, n :: l =>
    if !n.valid then none
    else if d < n.inputCount then none
    else validateFrom (d - n.inputCount + n.outputCount) l

/-- brush_behavior.cc:484-507 `ValidateBrushBehavior`; true is `OkStatus`. -/
def Behavior.valid (b : Behavior) : Bool :=
  match validateFrom 0 b with
  | none => false
  | some d => !(decide (d > 0))

/-- brush_tip.h:42-109 `BrushTip` -/
structure BrushTip where
  scaleX : F32
  scaleY : F32
  cornerRounding : F32
  slant : F32
  pinch : F32
  rotation : F32
  opacityMultiplier : F32
  particleGapDistanceScale : F32
  particleGapDuration : Duration32
  behaviors : List Behavior
  deriving DecidableEq, Repr

/-- brush_tip.cc:47-105 `ValidateBrushTip`; true is `OkStatus`. -/
def BrushTip.valid (t : BrushTip) : Bool :=
  !(!t.scaleX.isFinite || !t.scaleY.isFinite || lt t.scaleX zero || lt t.scaleY zero ||
    (feq t.scaleX zero && feq t.scaleY zero)) &&
  (ge t.cornerRounding zero && le t.cornerRounding one) &&
  !(!t.slant.isFinite || !(ge t.slant (neg quarterTurn) && le t.slant quarterTurn)) &&
  (ge t.pinch zero && le t.pinch one) &&
  t.rotation.isFinite &&
  (ge t.opacityMultiplier zero && le t.opacityMultiplier two) &&
  !(!t.particleGapDistanceScale.isFinite || lt t.particleGapDistanceScale zero) &&
  !(!t.particleGapDuration.isFinite || t.particleGapDuration.lt Duration32.zero) &&
  t.behaviors.all Behavior.valid

/-- stroke_input_modeler.h:42-51 `ModeledStrokeInput` -/
structure Input where
  position : PointF
  velocity : PointF
  acceleration : PointF
  traveledDistance : F32
  elapsedTime : Duration32
  pressure : F32
  tilt : F32
  orientation : F32
  deriving DecidableEq, Repr

/-- stroke_input_modeler.h:55-60 `InputMetrics` -/
structure Metrics where
  traveledDistance : F32
  elapsedTime : Duration32
  deriving DecidableEq, Repr

/-- stroke_input_modeler.h:80-126 `StrokeInputModeler::State`; `strokeUnitLength` is in centimetres. -/
structure MState where
  toolType : Tool
  strokeUnitLength : Option F32
  completeElapsedTime : Duration32
  completeTraveledDistance : F32
  totalRealElapsedTime : Duration32
  totalRealDistance : F32
  stableInputCount : Nat
  realInputCount : Nat
  deriving DecidableEq, Repr

/-- brush_tip_modeler_helpers.cc:46-59 `IsToolTypeEnabled` -/
def toolTypeEnabled (e : EnabledToolTypes) : Tool → Bool
  | .unknown => e.unknown
  | .mouse => e.mouse
  | .touch => e.touch
  | .stylus => e.stylus

section Env
variable (M : Libm)

/-- brush_tip_modeler_helpers.cc:61-67 `GetTiltX` -/
def getTiltX (tilt orientation : F32) : Option F32 :=
  if feq tilt zero then some zero
  else if feq tilt quarterTurn then none
  else some (M.atan (mul (M.cos orientation) (M.tan tilt)))

/-- brush_tip_modeler_helpers.cc:69-75 `GetTiltY` -/
def getTiltY (tilt orientation : F32) : Option F32 :=
  if feq tilt zero then some zero
  else if feq tilt quarterTurn then none
  else some (M.atan (mul (M.sin orientation) (M.tan tilt)))

/-- brush_tip_modeler_helpers.cc:77-82 -/
def predictedDistance (st : MState) (i : Input) : F32 :=
  smax zero (sub i.traveledDistance st.totalRealDistance)

/-- brush_tip_modeler_helpers.cc:84-90 -/
def predictedTime (st : MState) (i : Input) : Duration32 :=
  let d := i.elapsedTime.sub st.totalRealElapsedTime
  if Duration32.zero.lt d then d else Duration32.zero

/-- brush_tip_modeler_helpers.cc:92-96 -/
def timeSinceInput (st : MState) (i : Input) : Duration32 :=
  st.completeElapsedTime.sub i.elapsedTime

/-- `std::copysign` with a non-negative first argument -/
def copysign (a s : F32) : F32 := if s.signBit then neg a else a

/-- `0.5 * numbers::kSqrt2` as binary32 (vec.cc:40) -/
def halfSqrt2 : F32 := .fin false 0x3F3504F3 (by decide)

/-- vec.cc:28-61 `AsUnitVec` -/
def asUnitVec (v : PointF) : PointF :=
  if v.x.isNaN || v.y.isNaN then ⟨.nan, .nan⟩
  else if v.x.isInf then
    if v.y.isInf then ⟨copysign halfSqrt2 v.x, copysign halfSqrt2 v.y⟩
    else ⟨copysign one v.x, copysign zero v.y⟩
  else if v.y.isInf then ⟨copysign zero v.x, copysign one v.y⟩
  else if feq v.x zero && feq v.y zero then ⟨copysign one v.x, copysign zero v.y⟩
  else
    let s : PointF := ⟨mul half v.x, mul half v.y⟩
    let m := M.hypot s.x s.y
    ⟨div s.x m, div s.y m⟩

/-- vec.h:56 `Orthogonal` -/
def orthogonal (v : PointF) : PointF := ⟨neg v.y, v.x⟩

/-- vec.h `DotProduct` -/
def dot (a b : PointF) : F32 := add (mul a.x b.x) (mul a.y b.y)

/-- brush_tip_modeler_helpers.cc:98-236 `GetSourceValue` -/
def sourceValue (i : Input) (dir : Option F32) (size : F32) (st : MState) : Source → Option F32
  | .normalizedPressure => if feq i.pressure negOne then none else some i.pressure
  | .tilt => if feq i.tilt negOne then none else some i.tilt
  | .tiltX =>
    if feq i.tilt negOne || feq i.orientation negOne then none else getTiltX M i.tilt i.orientation
  | .tiltY =>
    if feq i.tilt negOne || feq i.orientation negOne then none else getTiltY M i.tilt i.orientation
  | .orientation =>
    if feq i.orientation negOne || feq i.tilt zero then none else some i.orientation
  | .orientationAboutZero =>
    if feq i.orientation negOne || feq i.tilt zero then none
    else some (Angle.normalizedAboutZero i.orientation)
  | .speed => some (div (M.hypot i.velocity.x i.velocity.y) size)
  | .velocityX => some (div i.velocity.x size)
  | .velocityY => some (div i.velocity.y size)
  | .direction => dir.map Angle.normalized
  | .directionAboutZero => dir
  | .normalizedDirectionX => dir.map M.cos
  | .normalizedDirectionY => dir.map M.sin
  | .distanceTraveled => some (div i.traveledDistance size)
  | .timeOfInputSeconds => some i.elapsedTime.toSeconds
  | .timeOfInputMillis => some i.elapsedTime.toMillis
  | .predictedDistanceTraveled => some (div (predictedDistance st i) size)
  | .predictedTimeElapsedSeconds => some (predictedTime st i).toSeconds
  | .predictedTimeElapsedMillis => some (predictedTime st i).toMillis
  | .distanceRemaining => some (div (sub st.completeTraveledDistance i.traveledDistance) size)
  | .timeSinceInputSeconds => some (timeSinceInput st i).toSeconds
  | .timeSinceInputMillis => some (timeSinceInput st i).toMillis
  | .acceleration => some (div (M.hypot i.acceleration.x i.acceleration.y) size)
  | .accelerationX => some (div i.acceleration.x size)
  | .accelerationY => some (div i.acceleration.y size)
  | .accelerationForward => some (div (dot i.acceleration (asUnitVec M i.velocity)) size)
  | .accelerationLateral =>
    some (div (dot i.acceleration (orthogonal (asUnitVec M i.velocity))) size)
  | .inputSpeed => st.strokeUnitLength.map fun u => mul (M.hypot i.velocity.x i.velocity.y) u
  | .inputVelocityX => st.strokeUnitLength.map fun u => mul i.velocity.x u
  | .inputVelocityY => st.strokeUnitLength.map fun u => mul i.velocity.y u
  | .inputDistanceTraveled => st.strokeUnitLength.map fun u => mul i.traveledDistance u
  | .predictedInputDistanceTraveled =>
    st.strokeUnitLength.map fun u => mul (predictedDistance st i) u
  | .inputAcceleration =>
    st.strokeUnitLength.map fun u => mul (M.hypot i.acceleration.x i.acceleration.y) u
  | .inputAccelerationX => st.strokeUnitLength.map fun u => mul i.acceleration.x u
  | .inputAccelerationY => st.strokeUnitLength.map fun u => mul i.acceleration.y u
  | .inputAccelerationForward =>
    st.strokeUnitLength.map fun u => mul (dot i.acceleration (asUnitVec M i.velocity)) u
  | .inputAccelerationLateral =>
    st.strokeUnitLength.map fun u => mul (dot i.acceleration (orthogonal (asUnitVec M i.velocity))) u

/-- brush_tip_modeler_helpers.cc:238-253 `IsOptionalInputPropertyPresent` -/
def propertyPresent (i : Input) : OptionalProperty → Bool
  | .pressure => !(feq i.pressure negOne)
  | .tilt => !(feq i.tilt negOne)
  | .orientation => !(feq i.orientation negOne)
  | .tiltXAndY => !(feq i.tilt negOne) && !(feq i.orientation negOne)

/-- brush_tip_modeler_helpers.cc:256-266 `ApplyOutOfRangeBehavior` -/
def applyOutOfRange (b : OutOfRange) (x : F32) : F32 :=
  match b with
  | .clamp => F32.clamp x zero one
  | .repeat => sub x (ffloor x)
  | .mirror => fabs (sub x (mul two (fround (mul half x))))

/-- brush_tip_modeler_helpers.cc:268-282 `DampOffsetTransition` -/
def dampOffset (target previous delta gap : F32) : F32 :=
  if le delta zero then previous else lerpF target previous (M.exp (div (neg delta) gap))

/-- brush_tip_modeler_helpers.h:67-72 `BehaviorNodeImplementation` -/
inductive INode where
  | source (s : Source) (oor : OutOfRange) (lo hi : F32)
  | constant (value : F32)
  | fallbackFilter (p : OptionalProperty)
  | toolTypeFilter (e : EnabledToolTypes)
  | damping (idx : Nat) (s : DampingSource) (gap : F32)
  | easing (e : Easing.Impl)
  | binaryOp (op : BinaryOp)
  | interpolation (i : Interpolation)
  | target (idx : Nat) (lo hi : F32)
  deriving DecidableEq, Repr

/-- The read-only part of brush_tip_modeler_helpers.h:76-87 `BehaviorNodeContext`. -/
structure Ctx where
  st : MState
  input : Input
  dir : Option F32
  size : F32
  prev : Option Metrics

/-- The part of `BehaviorNodeContext` that a node changes. The stack has its back first. -/
structure Mem where
  stack : List F32
  damped : List F32
  mods : List F32
  deriving DecidableEq, Repr

/-- brush_tip_modeler_helpers.cc:300-314 and 316, the value pushed by a source. -/
def sourceNodeValue (c : Ctx) (s : Source) (oor : OutOfRange) (lo hi : F32) : F32 :=
  match sourceValue M c.input c.dir c.size c.st s with
  | none => .nan
  | some v => applyOutOfRange oor (inverseLerpF lo hi v)

/-- brush_tip_modeler_helpers.cc:339-395 (lines 342-393), the new damped value. `none` is the use of an absent
`previous_input_metrics` (line 361). Multiplying a `PhysicalDistance` multiplies its centimetres. -/
def dampedValue (c : Ctx) (s : DampingSource) (gap damped input : F32) : Option F32 :=
  if input.isNaN then some damped
  else if damped.isNaN || feq gap zero then some input
  else
    match c.prev with
    | none => none
    | some p =>
      match s with
      | .distanceInCentimeters =>
        match c.st.strokeUnitLength with
        | none => some input
        | some u =>
          some (dampOffset M input damped
            (mul u (sub c.input.traveledDistance p.traveledDistance)) gap)
      | .distanceInMultiplesOfBrushSize =>
        some (dampOffset M input damped (sub c.input.traveledDistance p.traveledDistance)
          (mul c.size gap))
      | .timeInSeconds =>
        some (dampOffset M input damped (c.input.elapsedTime.sub p.elapsedTime).toSeconds
          (Duration32.ofSeconds gap).toSeconds)

/-- brush_tip_modeler_helpers.cc:417-421 and 455-459: a non-finite result is null. -/
def orNull (r : F32) : F32 := if r.isFinite then r else .nan

/-- brush_tip_modeler_helpers.cc:403-427 (lines 408-426) -/
def binaryOpValue (op : BinaryOp) (first second : F32) : F32 :=
  match op with
  | .product => orNull (mul first second)
  | .sum => orNull (add first second)

/-- brush_tip_modeler_helpers.cc:429-460 (lines 438-459) -/
def interpolationValue (i : Interpolation) (param start end_ : F32) : F32 :=
  if start.isNaN || end_.isNaN || param.isNaN then .nan
  else
    match i with
    | .lerp => orNull (lerpF start end_ param)
    | .inverseLerp => if feq start end_ then .nan else orNull (inverseLerpF start end_ param)

/-- brush_tip_modeler_helpers.cc:300-480 `ProcessBehaviorNode`. `none` is a pop of an empty stack, an
index outside `damped_values` or `target_modifiers`, or a use of absent metrics. -/
def processNode (c : Ctx) (n : INode) (m : Mem) : Option Mem :=
  match n, m.stack with
  /- 300-314 -/
  | .source s oor lo hi, st => some { m with stack := sourceNodeValue M c s oor lo hi :: st }
  /- 316-319 -/
  | .constant v, st => some { m with stack := v :: st }
  /- 321-328 -/
  | .fallbackFilter p, x :: st =>
    some { m with stack := (if propertyPresent c.input p then .nan else x) :: st }
  /- 330-337 -/
  | .toolTypeFilter e, x :: st =>
    some { m with stack := (if !(toolTypeEnabled e c.st.toolType) then .nan else x) :: st }
  /- 339-395 -/
  | .damping idx s gap, x :: st =>
    match m.damped[idx]? with
    | none => none
    | some d =>
      match dampedValue M c s gap d x with
      | none => none
      | some d' => some { m with stack := d' :: st, damped := m.damped.set idx d' }
  /- 397-401 -/
  | .easing e, x :: st =>
    match e.getY x with
    | none => none
    | some y => some { m with stack := y :: st }
  /- 403-427 -/
  | .binaryOp op, second :: first :: st =>
    some { m with stack := binaryOpValue op first second :: st }
  /- 429-460 -/
  | .interpolation i, end_ :: start :: param :: st =>
    some { m with stack := interpolationValue i param start end_ :: st }
  /- 462-470 -/
  | .target idx lo hi, x :: st =>
    if x.isNaN then some { m with stack := st }
    else if idx < m.mods.length then
      some { m with stack := st, mods := m.mods.set idx (lerpF lo hi x) }
    else none
  | _, _ => none

/-- brush_tip_modeler.cc:586-588, the loop over the nodes. -/
def processNodes (c : Ctx) : List INode → Mem → Option Mem
  | [], m => some m
  | n :: l, m =>
    match processNode M c n m with
    | none => none
    | some m' => processNodes c l m'

end Env

/-- brush_tip_modeler_helpers.cc:484-496 `BrushTipStateModifiers`, over any type of numbers. -/
structure Modifiers (α : Type) where
  posX : α
  posY : α
  width : α
  height : α
  slant : α
  corner : α
  rotation : α
  pinch : α
  hue : α
  saturation : α
  luminosity : α
  opacity : α
  deriving DecidableEq, Repr

section Generic
variable {α : Type} [Zero α] [One α] [Add α] [Mul α]

/-- brush_tip_modeler_helpers.cc:484-496, the initial values. -/
def Modifiers.init : Modifiers α := ⟨0, 0, 1, 1, 0, 0, 0, 0, 0, 1, 0, 1⟩

/-- brush_tip_modeler_helpers.cc:500-563 `ApplyModifierToTarget`. `fwd` and `lat` are the unit vectors
`(Cos, Sin)` of the travel direction and of the travel direction plus a quarter turn, or `none` if
there is no travel direction; `Vec::FromDirectionAndMagnitude` (vec.h:34-36) multiplies the magnitude
by them. The `DCHECK` that the modifier is finite is not a failure of the model: it is compiled out of
release builds. -/
def applyModifier (size : α) (fwd lat : Option (α × α)) (m : Modifiers α) (t : Target) (v : α) :
    Modifiers α :=
  match t with
  | .widthMultiplier => { m with width := m.width * v }
  | .heightMultiplier => { m with height := m.height * v }
  | .sizeMultiplier => { m with width := m.width * v, height := m.height * v }
  | .slantOffset => { m with slant := m.slant + v }
  | .pinchOffset => { m with pinch := m.pinch + v }
  | .rotationOffset => { m with rotation := m.rotation + v }
  | .cornerRoundingOffset => { m with corner := m.corner + v }
  | .positionOffsetX => { m with posX := m.posX + v * size }
  | .positionOffsetY => { m with posY := m.posY + v * size }
  | .positionOffsetForward =>
    match fwd with
    | some (c, s) => { m with posX := m.posX + v * size * c, posY := m.posY + v * size * s }
    | none => m
  | .positionOffsetLateral =>
    match lat with
    | some (c, s) => { m with posX := m.posX + v * size * c, posY := m.posY + v * size * s }
    | none => m
  | .hueOffset => { m with hue := m.hue + v }
  | .saturationMultiplier => { m with saturation := m.saturation * v }
  | .luminosity => { m with luminosity := m.luminosity + v }
  | .opacityMultiplier => { m with opacity := m.opacity * v }

/-- brush_tip_modeler_helpers.cc:615-619, the loop over the targets. -/
def accumulate (size : α) (fwd lat : Option (α × α)) (l : List (Target × α)) : Modifiers α :=
  l.foldl (fun m tv => applyModifier size fwd lat m tv.1 tv.2) Modifiers.init

end Generic

/-- binary32 arithmetic as the operations of `accumulate`. -/
scoped instance : Zero F32 := ⟨F32.zero⟩
scoped instance : One F32 := ⟨one⟩
scoped instance : Add F32 := ⟨F32.add⟩
scoped instance : Mul F32 := ⟨F32.mul⟩

/-- brush_tip_state.h:27-57 `BrushTipState` -/
structure TipState where
  position : PointF
  width : F32
  height : F32
  percentRadius : F32
  rotation : F32
  slant : F32
  pinch : F32
  hueOffset : F32
  saturation : F32
  luminosity : F32
  opacity : F32
  deriving DecidableEq, Repr

/-- brush_tip_modeler_helpers.cc:565-605 `ApplyModifiersToTipState` -/
def applyModifiers (m : Modifiers F32) (s : TipState) : TipState where
  position := ⟨F32.add s.position.x m.posX, F32.add s.position.y m.posY⟩
  width := if !(feq m.width one) then F32.mul s.width (F32.clamp m.width zero two) else s.width
  height := if !(feq m.height one) then F32.mul s.height (F32.clamp m.height zero two) else s.height
  slant :=
    if !(feq m.slant zero) then F32.clamp (F32.add s.slant m.slant) (neg quarterTurn) quarterTurn
    else s.slant
  pinch := if !(feq m.pinch zero) then F32.clamp (F32.add s.pinch m.pinch) zero one else s.pinch
  rotation :=
    if !(feq m.rotation zero) then Angle.normalized (F32.add s.rotation m.rotation) else s.rotation
  percentRadius :=
    if !(feq m.corner zero) then F32.clamp (F32.add s.percentRadius m.corner) zero one
    else s.percentRadius
  hueOffset :=
    if !(feq m.hue zero) then div (Angle.normalized m.hue) Angle.twoPi else s.hueOffset
  saturation :=
    if !(feq m.saturation one) then F32.clamp m.saturation zero two else s.saturation
  luminosity :=
    if !(feq m.luminosity zero) then F32.clamp m.luminosity negOne one else s.luminosity
  opacity :=
    if !(feq m.opacity one) then F32.clamp (F32.mul s.opacity m.opacity) zero two else s.opacity

/-- brush_tip_modeler_helpers.cc:621-630 with the defaults of brush_tip_state.h, the unmodified tip. -/
def baseTipState (position : PointF) (tip : BrushTip) (size : F32) : TipState where
  position := position
  width := F32.mul size tip.scaleX
  height := F32.mul size tip.scaleY
  percentRadius := tip.cornerRounding
  rotation := tip.rotation
  slant := tip.slant
  pinch := tip.pinch
  hueOffset := zero
  saturation := one
  luminosity := zero
  opacity := tip.opacityMultiplier

/-- `(Cos(d), Sin(d))` -/
def unitVec (M : Libm) (d : F32) : F32 × F32 := (M.cos d, M.sin d)

/-- brush_tip_modeler_helpers.cc:609-633 `CreateTipState`; the two spans are given as one list of
pairs. -/
def createTipState (M : Libm) (position : PointF) (dir : Option F32) (tip : BrushTip) (size : F32)
    (l : List (Target × F32)) : TipState :=
  applyModifiers
    (accumulate size (dir.map (unitVec M)) (dir.map fun d => unitVec M (F32.add d quarterTurn)) l)
    (baseTipState position tip size)

/-- algorithms.cc:118 `Lerp(Angle, Angle, float)` -/
def lerpAngle (a b t : F32) : F32 := F32.add (F32.mul (sub one t) a) (F32.mul t b)

/-- algorithms.cc:119-121 `NormalizedAngleLerp` -/
def normalizedAngleLerp (a b t : F32) : F32 :=
  Angle.normalized (F32.add a (lerpAngle zero (Angle.normalizedAboutZero (sub b a)) t))

/-- brush_tip_modeler_helpers.cc:635-649 `Lerp(ModeledStrokeInput, …)` -/
def lerpInput (a b : Input) (t : F32) : Input where
  position := SegmentF.lerp ⟨a.position, b.position⟩ t
  velocity := ⟨lerpF a.velocity.x b.velocity.x t, lerpF a.velocity.y b.velocity.y t⟩
  acceleration :=
    ⟨lerpF a.acceleration.x b.acceleration.x t, lerpF a.acceleration.y b.acceleration.y t⟩
  traveledDistance := lerpF a.traveledDistance b.traveledDistance t
  elapsedTime := Duration32.ofMillis (lerpF a.elapsedTime.toMillis b.elapsedTime.toMillis t)
  pressure := lerpF a.pressure b.pressure t
  tilt := lerpAngle a.tilt b.tilt t
  orientation := normalizedAngleLerp a.orientation b.orientation t

end Tip

end Verif
