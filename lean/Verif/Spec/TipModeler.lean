import Verif.Model.BrushTipModeler

/-!
# What a caller of `BrushTipModeler` sees

Definitions used to state the properties of `Verif.Props.TipModeler`.
-/

set_option autoImplicit false

namespace Verif.TipSpec

open Tip

/-- One call of `UpdateStroke`: the state of the input modeler and all its modeled inputs. -/
structure Update where
  state : MState
  inputs : List Input
  deriving DecidableEq

/-- A caller which makes the given updates and collects the tip states handed out as fixed after each
of them, behind those it already has. `none`: some call is undefined or does not return. -/
def collect (M : Libm) (fuel : Nat) : Modeler → List TipState → List Update →
    Option (Modeler × List TipState)
  | m, fixed, [] => some (m, fixed)
  | m, fixed, u :: us =>
    match m.update M fuel u.state u.inputs with
    | none => none
    | some m' =>
      match m'.newFixed with
      | none => none
      | some new => collect M fuel m' (fixed ++ new) us

/-- The whole stroke after some updates: everything that was fixed, then what is volatile now. -/
def stroke (M : Libm) (fuel : Nat) (m : Modeler) (us : List Update) : Option (List TipState) :=
  match collect M fuel m [] us with
  | none => none
  | some (m', fixed) => m'.volatile.map (fixed ++ ·)

/-- Nothing was modeled yet. -/
def nothing (m : Modeler) : Acc := ⟨none, m.fixedDamped, m.fixedMods, []⟩

/-- One pass over the inputs from index `i` on, in order and without a pause: the first `k` of them as
given by the first update, the next as given by the second one, and so on. -/
def onePass (M : Libm) (fuel : Nat) (m : Modeler) : List (Update × Nat) → Nat → Acc → Option Acc
  | [], _, a => some a
  | (u, k) :: l, i, a =>
    match m.runFrom M fuel u.state u.inputs k i a with
    | none => none
    | some a' => onePass M fuel m l (i + k) a'

/-- What a later update may change: not the stable inputs, the tool or the unit length. -/
def Extends (u v : Update) : Prop :=
  u.state.stableInputCount ≤ v.state.stableInputCount ∧
  v.inputs.take u.state.stableInputCount = u.inputs.take u.state.stableInputCount ∧
  v.state.toolType = u.state.toolType ∧ v.state.strokeUnitLength = u.state.strokeUnitLength

/-- The stable inputs exist. -/
def WellFormed (u : Update) : Prop := u.state.stableInputCount ≤ u.inputs.length

/-- Every update extends the one before it. -/
def Chain : List Update → Prop
  | [] => True
  | [u] => WellFormed u
  | u :: v :: l => WellFormed u ∧ Extends u v ∧ Chain (v :: l)

/-- The sources whose value at an input changes when later inputs arrive: how far the input is ahead of
the last real one, and how far it is from the end of the stroke. -/
def ofTheEnd : Source → Bool
  | .predictedDistanceTraveled | .predictedTimeElapsedSeconds | .predictedTimeElapsedMillis
  | .predictedInputDistanceTraveled | .distanceRemaining | .timeSinceInputSeconds
  | .timeSinceInputMillis => true
  | _ => false

/-- The sources which are the travel direction. -/
def isDirection : Source → Bool
  | .direction | .directionAboutZero | .normalizedDirectionX | .normalizedDirectionY => true
  | _ => false

/-- The targets which move the tip along or across the travel direction. -/
def alongDirection : Target → Bool
  | .positionOffsetForward | .positionOffsetLateral => true
  | _ => false

/-- An input which is so far from the end of the stable inputs (or so old, compared with it) that the
value of a source which measures this is past the end of its range. A source whose values repeat never
gets there. -/
def Settled (size : F32) (last cur : Input) : Node → Prop
  | .source .distanceRemaining oor lo hi => oor = .clamp ∧
      F32.le cur.traveledDistance (F32.sub last.traveledDistance (F32.mul size (F32.smax lo hi))) = true
  | .source .timeSinceInputSeconds oor lo hi => oor = .clamp ∧
      F32.le cur.elapsedTime.seconds (F32.sub last.elapsedTime.seconds (F32.smax lo hi)) = true
  | .source .timeSinceInputMillis oor lo hi => oor = .clamp ∧
      F32.le cur.elapsedTime.seconds
        (F32.sub last.elapsedTime.seconds (F32.mul Duration32.milli (F32.smax lo hi))) = true
  | _ => True

/-- The longest time, in seconds, for which a source still changes. -/
def changesFor : Node → Option F32
  | .source .timeSinceInputSeconds _ lo hi => some (F32.smax lo hi)
  | .source .timeSinceInputMillis _ lo hi => some (F32.mul Duration32.milli (F32.smax lo hi))
  | _ => none

/-- Distances and times are finite. -/
def FiniteInputs (u : Update) : Prop :=
  ∀ i ∈ u.inputs, i.traveledDistance.isFinite = true ∧ i.elapsedTime.seconds.isFinite = true

/-- The sources and the targets of a brush tip. -/
def sources (tip : BrushTip) : List Source :=
  tip.behaviors.flatten.filterMap fun n => match n with | .source s .. => some s | _ => none

def targets (tip : BrushTip) : List Target :=
  tip.behaviors.flatten.filterMap fun n => match n with | .target t .. => some t | _ => none

end Verif.TipSpec
