import Verif.Model.BrushBehavior

/-!
# Model of `BrushTipModeler`

From `ink/strokes/internal/brush_tip_modeler.{h,cc}`.

* `current_damped_values_` and `current_target_modifiers_` are overwritten with the fixed arrays at the
  start of every update (brush_tip_modeler.cc:399-406), so they are local to `update` here.
* The particle loop (brush_tip_modeler.cc:528-566) has no bound in the code. `fuel` bounds the model:
  running out of it gives `none`. Theorems hold for every `fuel`.
-/

set_option autoImplicit false

namespace Verif.Tip

open F32

/-- brush_tip_modeler.cc:41-64 `InitialTargetModifierValue` -/
def initialModifier : Target → F32
  | .widthMultiplier | .heightMultiplier | .sizeMultiplier | .saturationMultiplier
  | .opacityMultiplier => one
  | .slantOffset | .pinchOffset | .rotationOffset | .cornerRoundingOffset | .positionOffsetX
  | .positionOffsetY | .positionOffsetForward | .positionOffsetLateral | .hueOffset
  | .luminosity => zero

/-- brush_tip_modeler.cc:66-79 -/
def hasUpperBound : OutOfRange → Bool
  | .clamp => true
  | .repeat | .mirror => false

/-- brush_tip_modeler.cc:84-90 `SourceValueUpperBound` -/
def sourceUpperBound (oor : OutOfRange) (lo hi : F32) : F32 :=
  if !(hasUpperBound oor) then .inf false else smax lo hi

/-- brush_tip_modeler.cc:92-148 `DistanceRemainingUpperBound` -/
def distanceBound (s : Source) (oor : OutOfRange) (lo hi size : F32) : F32 :=
  match s with
  | .distanceRemaining => F32.mul size (sourceUpperBound oor lo hi)
  | _ => zero

/-- brush_tip_modeler.cc:150-206 `TimeRemainingUpperBound` -/
def timeBound (s : Source) (oor : OutOfRange) (lo hi : F32) : Duration32 :=
  match s with
  | .timeSinceInputSeconds => Duration32.ofSeconds (sourceUpperBound oor lo hi)
  | .timeSinceInputMillis => Duration32.ofMillis (sourceUpperBound oor lo hi)
  | _ => Duration32.zero

/-- brush_tip_modeler.cc:208-261 `SourceDependsOnNextModeledInput` -/
def dependsOnNext : Source → Bool
  | .direction | .directionAboutZero | .normalizedDirectionX | .normalizedDirectionY => true
  | _ => false

/-- `std::max` of two durations -/
def durMax (a b : Duration32) : Duration32 := if a.lt b then b else a

/-- brush_tip_modeler.h:159-198, the members of `BrushTipModeler`. -/
structure Modeler where
  tip : BrushTip
  size : F32
  distanceUpperBound : F32
  timeUpperBound : Duration32
  dependsNext : Bool
  nodes : List INode
  targets : List Target
  gap : Metrics
  nextFixed : Nat
  fixedMetrics : Option Metrics
  fixedDamped : List F32
  fixedMods : List F32
  saved : List TipState
  newFixedCount : Nat
  deriving DecidableEq, Repr

section Env
variable (M : Libm) (tabulate : Easing.CubicBezier → List F32)

/-- brush_tip_modeler.cc:312-376 `AppendBehaviorNode` -/
def Modeler.append (m : Modeler) : Node → Modeler
  | .source s oor lo hi =>
    { m with
      distanceUpperBound := smax m.distanceUpperBound (distanceBound s oor lo hi m.size)
      timeUpperBound := durMax m.timeUpperBound (timeBound s oor lo hi)
      nodes := m.nodes ++ [.source s oor lo hi]
      dependsNext := if dependsOnNext s then true else m.dependsNext }
  | .constant v => { m with nodes := m.nodes ++ [.constant v] }
  | .fallbackFilter p => { m with nodes := m.nodes ++ [.fallbackFilter p] }
  | .toolTypeFilter e => { m with nodes := m.nodes ++ [.toolTypeFilter e] }
  | .damping s gap =>
    { m with
      nodes := m.nodes ++ [.damping m.fixedDamped.length s gap]
      fixedDamped := m.fixedDamped ++ [.nan] }
  | .response e => { m with nodes := m.nodes ++ [.easing (Easing.setUp tabulate e)] }
  | .binaryOp op => { m with nodes := m.nodes ++ [.binaryOp op] }
  | .interpolation i => { m with nodes := m.nodes ++ [.interpolation i] }
  | .target t lo hi =>
    { m with
      nodes := m.nodes ++ [.target m.targets.length lo hi]
      targets := m.targets ++ [t]
      fixedMods := m.fixedMods ++ [initialModifier t] }

/-- brush_tip_modeler.cc:272-310 `StartStroke`; the `CHECK`s on the size give `none`. -/
def start (tip : BrushTip) (size : F32) : Option Modeler :=
  if !size.isFinite || !(gt size zero) then none
  else some (tip.behaviors.flatten.foldl (Modeler.append tabulate)
    { tip := tip, size := size, distanceUpperBound := zero, timeUpperBound := Duration32.zero
      dependsNext := false, nodes := [], targets := []
      gap := ⟨F32.mul tip.particleGapDistanceScale size, tip.particleGapDuration⟩
      nextFixed := 0, fixedMetrics := none, fixedDamped := [], fixedMods := []
      saved := [], newFixedCount := 0 })

/-- brush_tip_modeler.cc:380-387 `GetTravelDirection`; `none` is an index out of range. -/
def travelDirection (inputs : List Input) (i : Nat) : Option (Option F32) :=
  match inputs[i]? with
  | none => none
  | some cur =>
    let s := if 0 < i then (inputs[i - 1]?.getD cur).position else cur.position
    let e := (inputs[i + 1]?.getD cur).position
    if feq s.x e.x && feq s.y e.y then some none
    else some (some (M.atan2 (sub e.y s.y) (sub e.x s.x)))

/-- brush_tip_modeler.cc:466-484 `CalculateMaxFixedInputMetrics`; `none` is an index out of range. -/
def Modeler.maxFixedMetrics (m : Modeler) (st : MState) (inputs : List Input) : Option Metrics :=
  if st.stableInputCount = 0 then some ⟨zero, Duration32.zero⟩
  else (inputs[st.stableInputCount - 1]?).map fun last =>
    ⟨sub last.traveledDistance m.distanceUpperBound, last.elapsedTime.sub m.timeUpperBound⟩

/-- What processing inputs changes: `last_modeled_tip_state_metrics`, the two arrays of current values
and `saved_tip_states_`. -/
structure Acc where
  metrics : Option Metrics
  damped : List F32
  mods : List F32
  out : List TipState
  deriving DecidableEq, Repr

/-- brush_tip_modeler.cc:569-598 `AddNewTipState`. A stack which does not end empty gives `none`
(line 589). -/
def Modeler.addTipState (m : Modeler) (st : MState) (input : Input) (dir : Option F32)
    (prev : Option Metrics) (a : Acc) : Option Acc :=
  match processNodes M ⟨st, input, dir, m.size, prev⟩ m.nodes ⟨[], a.damped, a.mods⟩ with
  | none => none
  | some mem =>
    if mem.stack ≠ [] then none
    else some
      { metrics := some ⟨input.traveledDistance, input.elapsedTime⟩
        damped := mem.damped
        mods := mem.mods
        out := a.out ++ [createTipState M input.position dir m.tip m.size (m.targets.zip mem.mods)] }

/-- brush_tip_modeler.h:155-157: `BrushTipState{.width = 0, .height = 0}`. -/
def gapTipState : TipState :=
  ⟨⟨zero, zero⟩, zero, zero, zero, zero, zero, zero, zero, one, zero, one⟩

def Acc.appendGap (a : Acc) : Acc := { a with out := a.out ++ [gapTipState] }

/-- brush_tip_modeler.cc:491-493 -/
def Modeler.continuous (m : Modeler) : Bool :=
  feq m.gap.traveledDistance zero && m.gap.elapsedTime.eq Duration32.zero

/-- brush_tip_modeler.cc:528-533, the condition of the particle loop. -/
def Modeler.particleFits (m : Modeler) (cur : Input) (last : Metrics) : Bool :=
  ge (sub cur.traveledDistance last.traveledDistance) m.gap.traveledDistance &&
  (cur.elapsedTime.sub last.elapsedTime).ge m.gap.elapsedTime

/-- brush_tip_modeler.cc:536-548 with the deltas of 522-526. -/
def Modeler.particleRatio (m : Modeler) (cur prev : Input) (last : Metrics) : F32 :=
  let t := one
  let t := if !(feq m.gap.traveledDistance zero) then
      smin t (div (sub (sub cur.traveledDistance last.traveledDistance) m.gap.traveledDistance)
        (sub cur.traveledDistance prev.traveledDistance))
    else t
  if !(m.gap.elapsedTime.eq Duration32.zero) then
    smin t (Duration32.ratio ((cur.elapsedTime.sub last.elapsedTime).sub m.gap.elapsedTime)
      (cur.elapsedTime.sub prev.elapsedTime))
  else t

/-- brush_tip_modeler.cc:528-566, the particle loop. -/
def Modeler.emit (m : Modeler) (st : MState) (cur prev : Input) (dir : Option F32) :
    Nat → Acc → Option Acc
  | fuel, a =>
    match a.metrics with
    | none => none
    | some last =>
      if !(m.particleFits cur last) then some a
      else
        match fuel with
        | 0 => none
        | fuel + 1 =>
          match m.addTipState M st (lerpInput cur prev (m.particleRatio cur prev last)) dir
              (some last) a with
          | none => none
          | some a' => m.emit st cur prev dir fuel a'.appendGap

/-- brush_tip_modeler.cc:486-567 `ProcessSingleInput`; a null `previous_input` at line 513 gives `none`. -/
def Modeler.processInput (fuel : Nat) (m : Modeler) (st : MState) (cur : Input) (dir : Option F32)
    (prev : Option Input) (a : Acc) : Option Acc :=
  if m.continuous || a.metrics.isNone then
    match m.addTipState M st cur dir
        (prev.map fun p => ⟨p.traveledDistance, p.elapsedTime⟩) a with
    | none => none
    | some a' => if !m.continuous then some a'.appendGap else some a'
  else
    match prev with
    | none => none
    | some p => m.emit M st cur p dir fuel a

/-- brush_tip_modeler.cc:432-435 / 451-455: process `inputs[i]`, with `previous_input` the input before
it (lines 408-411, 436 and 456: it always is). `none` is an index out of range. -/
def Modeler.processIndex (fuel : Nat) (m : Modeler) (st : MState) (inputs : List Input) (i : Nat)
    (a : Acc) : Option Acc :=
  match inputs[i]?, travelDirection M inputs i with
  | some cur, some dir =>
    m.processInput M fuel st cur dir (if 0 < i then inputs[i - 1]? else none) a
  | _, _ => none

/-- brush_tip_modeler.cc:416-438, the loop over stable inputs; the first argument bounds the number of
iterations and is large enough when it is `stable_input_count - i`. -/
def Modeler.fixLoop (fuel : Nat) (m : Modeler) (st : MState) (inputs : List Input) (mx : Metrics) :
    Nat → Nat → Acc → Option (Nat × Acc)
  | 0, i, a => some (i, a)
  | k + 1, i, a =>
    if !(i + (if m.dependsNext then 1 else 0) < st.stableInputCount) then some (i, a)
    else
      match inputs[i]? with
      | none => none
      | some cur =>
        if gt cur.traveledDistance mx.traveledDistance || mx.elapsedTime.lt cur.elapsedTime then
          some (i, a)
        else
          match m.processIndex M fuel st inputs i a with
          | none => none
          | some a' => m.fixLoop fuel st inputs mx k (i + 1) a'

/-- brush_tip_modeler.cc:449-457, the loop over the remaining inputs: `k` of them from index `i`. -/
def Modeler.runFrom (fuel : Nat) (m : Modeler) (st : MState) (inputs : List Input) :
    Nat → Nat → Acc → Option Acc
  | 0, _, a => some a
  | k + 1, i, a =>
    match m.processIndex M fuel st inputs i a with
    | none => none
    | some a' => m.runFrom fuel st inputs k (i + 1) a'

/-- brush_tip_modeler.cc:391-458 `UpdateStroke` -/
def Modeler.update (fuel : Nat) (m : Modeler) (st : MState) (inputs : List Input) : Option Modeler :=
  if inputs = [] then some { m with saved := [] }
  else
    match m.maxFixedMetrics st inputs with
    | none => none
    | some mx =>
      match m.fixLoop M fuel st inputs mx (st.stableInputCount - m.nextFixed) m.nextFixed
          ⟨m.fixedMetrics, m.fixedDamped, m.fixedMods, []⟩ with
      | none => none
      | some (i, a) =>
        match m.runFrom M fuel st inputs (inputs.length - i) i a with
        | none => none
        | some b => some
            { m with
              nextFixed := i
              fixedMetrics := a.metrics
              fixedDamped := a.damped
              fixedMods := a.mods
              saved := b.out
              newFixedCount := a.out.length }

/-- brush_tip_modeler.h:201-204 `NewFixedTipStates`; `none` is a span past the end of the vector. -/
def Modeler.newFixed (m : Modeler) : Option (List TipState) :=
  if m.newFixedCount ≤ m.saved.length then some (m.saved.take m.newFixedCount) else none

/-- brush_tip_modeler.h:206-211 `VolatileTipStates`; likewise. -/
def Modeler.volatile (m : Modeler) : Option (List TipState) :=
  if m.newFixedCount ≤ m.saved.length then some (m.saved.drop m.newFixedCount) else none

/-- brush_tip_modeler.cc:263-268, 460-464 `HasUnfinishedTimeBehaviors` -/
def Modeler.hasUnfinishedTimeBehaviors (m : Modeler) (st : MState) : Bool :=
  (st.completeElapsedTime.sub st.totalRealElapsedTime).lt m.timeUpperBound

end Env

end Verif.Tip
