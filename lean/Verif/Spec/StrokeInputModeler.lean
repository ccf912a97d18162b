import Verif.Model.StrokeInputModeler

/-!
# Specification for C35: what the modeled inputs of a stroke are

No state machine: the modeled inputs are a function of the list of all real inputs and the current prediction. They are the
results that the library returns for these inputs in order, starting from a reset, without those that are closer than epsilon
to the one kept before.
-/

set_option autoImplicit false

namespace Verif.InputModeler.Spec

open Verif F32

/-- What the library is told about the `k`-th input: the first one is a down event and the others are move events, but the last
one is an up event if `ended`. -/
def script (ended : Bool) (l : List Batch.Input) : List LibInput :=
  l.mapIdx fun k i =>
    { event := if k = 0 then .down else if ended ∧ k + 1 = l.length then .up else .move
      position := ⟨i.x, i.y⟩, time := i.time, pressure := i.pressure, tilt := i.tilt, orientation := i.orientation }

section

variable {I σ : Type} (hypot : F32 → F32 → F32) (lib : Library I σ)

/-- The state and the results of the library after some inputs. -/
def feed (s : σ) : List LibInput → Option (σ × List LibResult)
  | [] => some (s, [])
  | i :: is => do
    let (s, a) ← lib.update s i
    let (s, b) ← feed s is
    some (s, a ++ b)

/-- The distance of two points. -/
def dist (a b : PointF) : F32 := hypot (sub b.x a.x) (sub b.y a.y)

/-- The results that are kept after `p` was kept. -/
def keptAfter (epsilon : F32) (p : LibResult) : List LibResult → List LibResult
  | [] => []
  | r :: rs => if lt (dist hypot p.position r.position) epsilon then keptAfter epsilon p rs else r :: keptAfter epsilon r rs

/-- The results that are kept. -/
def kept (epsilon : F32) : List LibResult → List LibResult
  | [] => []
  | r :: rs => r :: keptAfter hypot epsilon r rs

/-- A modeled input. -/
def toInput (r : LibResult) (traveled : F32) : Tip.Input :=
  { position := r.position, velocity := r.velocity, acceleration := r.acceleration, traveledDistance := traveled,
    elapsedTime := r.time, pressure := r.pressure, tilt := r.tilt, orientation := r.orientation }

/-- Modeled inputs after `p`, for which the distance `d` was traveled. -/
def measureAfter (p : LibResult) (d : F32) : List LibResult → List Tip.Input
  | [] => []
  | r :: rs =>
    toInput r (add d (dist hypot p.position r.position)) ::
      measureAfter r (add d (dist hypot p.position r.position)) rs

/-- Modeled inputs with the distances between the kept results added up. -/
def measure : List LibResult → List Tip.Input
  | [] => []
  | r :: rs => toInput r zero :: measureAfter hypot r zero rs

/-- The modeled inputs of a stroke for a script; the library is reset with the unit length of the real inputs. -/
def model (inputModel : I) (epsilon : F32) (real : List Batch.Input) (s : List LibInput) : Option (List Tip.Input) :=
  (feed lib (lib.reset inputModel epsilon (unitLengthOf real)) s).map fun r => measure hypot (kept hypot epsilon r.2)

/-- The modeled inputs of a stroke: those which are stable, those of the real inputs, and all. -/
structure Outcome where
  stable : List Tip.Input
  real : List Tip.Input
  all : List Tip.Input

/-- Stable are those of the real inputs but the last. -/
def stableInputs (inputModel : I) (epsilon : F32) (real : List Batch.Input) : Option (List Tip.Input) :=
  model hypot lib inputModel epsilon real (script false real.dropLast)

/-- The last input ends the stroke for now, be it real or predicted. -/
def outcome (inputModel : I) (epsilon : F32) (real pred : List Batch.Input) : Option Outcome := do
  let stable ← stableInputs hypot lib inputModel epsilon real
  let r ← model hypot lib inputModel epsilon real (script pred.isEmpty real)
  let all ← model hypot lib inputModel epsilon real (script true (real ++ pred))
  some ⟨stable, r, all⟩

end

/-- All real inputs of some calls. -/
def reals (cs : List Call) : List Batch.Input := cs.flatMap (·.real)

end Verif.InputModeler.Spec
