import Verif.Model.StrokeInputBatch
import Verif.Model.BrushTipModeler

/-!
# Model of `StrokeInputModeler`

From `ink/strokes/internal/stroke_input_modeler.{h,cc}`. The library `ink_stroke_modeler` is a parameter: `Library` has its
internal state, `Reset` and `Update`; `Save` and `Restore` copy the state. `std::hypot` is a parameter. A batch is the list of
its inputs. `none` is a failed check.
-/

set_option autoImplicit false

namespace Verif.InputModeler

open Verif F32

/-- `stroke_model::Input::EventType` -/
inductive Event where
  | down
  | move
  | up
  deriving DecidableEq

/-- `stroke_model::Input` as filled in stroke_input_modeler.cc:263-270; `Angle` is a float in radians and `Time` is that of the
input. -/
structure LibInput where
  event : Event
  position : PointF
  time : F32
  pressure : F32
  tilt : F32
  orientation : F32
  deriving DecidableEq

/-- `stroke_model::Result`; the time is already converted by `Duration32::Seconds` (stroke_input_modeler.cc:296). -/
structure LibResult where
  position : PointF
  velocity : PointF
  acceleration : PointF
  time : Duration32
  pressure : F32
  tilt : F32
  orientation : F32
  deriving DecidableEq

/-- `stroke_model::StrokeModeler`. The state after `Reset` depends on the parameters alone, which stroke_input_modeler.cc:72-165
computes from the input model, the brush epsilon and the stroke unit length. `none` is an error. -/
structure Library (I σ : Type) where
  reset : I → F32 → Option F32 → σ
  update : σ → LibInput → Option (σ × List LibResult)

/-- stroke_input_modeler.h:194-208 the data members, with those of `State` (h:81-125). -/
structure Modeler (I σ : Type) where
  inputModel : I
  epsilon : F32 := zero
  library : σ
  lastReal : Option Batch.Input := none
  modeled : List Tip.Input := []
  hasInput : Bool := false
  toolType : Batch.ToolType := .unknown
  unitLength : Option F32 := none
  completeElapsedTime : Duration32 := Duration32.zero
  completeTraveledDistance : F32 := zero
  totalRealElapsedTime : Duration32 := Duration32.zero
  totalRealDistance : F32 := zero
  stableCount : Nat := 0
  realCount : Nat := 0

/-- stroke_input_batch.h `GetToolType`, of the inputs of a batch -/
def toolTypeOf (l : List Batch.Input) : Batch.ToolType := (l.head?.map (·.tool)).getD .unknown

/-- stroke_input_batch.h `GetStrokeUnitLength` -/
def unitLengthOf (l : List Batch.Input) : Option F32 :=
  l.head?.bind fun i => if i.hasUnitLength then some i.unitLength else none

section

variable {I σ : Type} (hypot : F32 → F32 → F32) (lib : Library I σ)

namespace Modeler

/-- stroke_input_modeler.cc:50-69 `StartStroke` -/
def start (m : Modeler I σ) (inputModel : I) (epsilon : F32) : Option (Modeler I σ) :=
  if gt epsilon zero then
    some { m with
      inputModel := inputModel
      epsilon := epsilon
      lastReal := none
      toolType := .unknown
      unitLength := none
      completeElapsedTime := Duration32.zero
      completeTraveledDistance := zero
      stableCount := 0
      realCount := 0
      totalRealDistance := zero
      totalRealElapsedTime := Duration32.zero
      modeled := [] }
  else none

end Modeler

/-- stroke_input_modeler.cc:273-305 the loop over the results: the inputs it adds. -/
def addResults (epsilon : F32) : Option PointF → F32 → List LibResult → List Tip.Input
  | _, _, [] => []
  | none, traveled, r :: rs =>
    ⟨r.position, r.velocity, r.acceleration, traveled, r.time, r.pressure, r.tilt, r.orientation⟩ ::
      addResults epsilon (some r.position) traveled rs
  | some p, traveled, r :: rs =>
    let delta := hypot (sub r.position.x p.x) (sub r.position.y p.y)
    if lt delta epsilon then addResults epsilon (some p) traveled rs
    else
      ⟨r.position, r.velocity, r.acceleration, add traveled delta, r.time, r.pressure, r.tilt, r.orientation⟩ ::
        addResults epsilon (some r.position) (add traveled delta) rs

namespace Modeler

/-- stroke_input_modeler.cc:248-256 the type of the event -/
def event (m : Modeler I σ) (last : Bool) : Event := if !m.hasInput then .down else if last then .up else .move

/-- stroke_input_modeler.cc:233-306 `ModelInput` -/
def modelInput (m : Modeler I σ) (i : Batch.Input) (last : Bool) : Option (Modeler I σ) := do
  let (s, results) ← lib.update m.library ⟨m.event last, ⟨i.x, i.y⟩, i.time, i.pressure, i.tilt, i.orientation⟩
  some { m with
    library := s
    hasInput := true
    modeled := m.modeled ++ addResults hypot m.epsilon (m.modeled.getLast?.map (·.position))
      ((m.modeled.getLast?.map (·.traveledDistance)).getD zero) results }

/-- stroke_input_modeler.cc:204-206 the loop over the real inputs but the last -/
def modelMoves (m : Modeler I σ) : List Batch.Input → Option (Modeler I σ)
  | [] => some m
  | i :: is => do
    let m ← m.modelInput hypot lib i false
    m.modelMoves is

/-- stroke_input_modeler.cc:224-227 the loop over the predicted inputs -/
def modelPredicted (m : Modeler I σ) : List Batch.Input → Option (Modeler I σ)
  | [] => some m
  | i :: is => do
    let m ← m.modelInput hypot lib i is.isEmpty
    m.modelPredicted is

/-- stroke_input_modeler.cc:308-325 `UpdateStateTimeAndDistance` -/
def updateTimeAndDistance (m : Modeler I σ) (now : Duration32) : Option (Modeler I σ) :=
  match m.modeled.getLast? with
  | none => some { m with completeElapsedTime := now }
  | some l =>
    let m := { m with completeElapsedTime := Tip.durMax l.elapsedTime now, completeTraveledDistance := l.traveledDistance }
    if m.realCount = 0 then some m
    else do
      let r ← m.modeled[m.realCount - 1]?
      some { m with totalRealDistance := r.traveledDistance, totalRealElapsedTime := r.elapsedTime }

/-- stroke_input_modeler.cc:184-192 the first input of a stroke resets the library. -/
def prepare (m : Modeler I σ) (real pred : List Batch.Input) : Modeler I σ :=
  if m.lastReal.isSome then m
  else
    { m with
      toolType := if real.isEmpty then toolTypeOf pred else toolTypeOf real
      unitLength := if real.isEmpty then unitLengthOf pred else unitLengthOf real
      library := lib.reset m.inputModel m.epsilon (unitLengthOf real)
      hasInput := false }

/-- stroke_input_modeler.cc:199-201 and 213-220: models the last real input, if there is one. -/
def modelLastReal (m : Modeler I σ) (last : Bool) : Option (Modeler I σ) :=
  match m.lastReal with
  | some l => m.modelInput hypot lib l last
  | none => some m

/-- stroke_input_modeler.cc:194-206 the stable inputs -/
def modelStable (m : Modeler I σ) (real : List Batch.Input) : Option (Modeler I σ) :=
  let m := { m with modeled := m.modeled.take m.stableCount }
  (if real.isEmpty then some m else m.modelLastReal hypot lib false).bind fun m => m.modelMoves hypot lib real.dropLast

/-- stroke_input_modeler.cc:208-231 the others -/
def modelUnstable (m : Modeler I σ) (real pred : List Batch.Input) : Option (Modeler I σ) := do
  let saved := m.library
  let savedHasInput := m.hasInput
  let m := { m with stableCount := m.modeled.length, lastReal := real.getLast?.or m.lastReal }
  let m ← m.modelLastReal hypot lib pred.isEmpty
  let m := { m with realCount := m.modeled.length }
  let m ← m.modelPredicted hypot lib pred
  some { m with library := saved, hasInput := savedHasInput }

/-- stroke_input_modeler.cc:167-231 `ExtendStroke` -/
def extendStroke (m : Modeler I σ) (real pred : List Batch.Input) (now : Duration32) : Option (Modeler I σ) :=
  if gt m.epsilon zero then
    if real.isEmpty ∧ pred.isEmpty ∧ m.realCount = m.modeled.length then m.updateTimeAndDistance now
    else do
      let m := m.prepare lib real pred
      let m ← m.modelStable hypot lib real
      let m ← m.modelUnstable hypot lib real pred
      m.updateTimeAndDistance now
  else none

end Modeler

/-- The arguments of one `ExtendStroke`. -/
structure Call where
  real : List Batch.Input
  pred : List Batch.Input
  now : Duration32

/-- Some calls of `ExtendStroke`. -/
def Modeler.run (m : Modeler I σ) : List Call → Option (Modeler I σ)
  | [] => some m
  | c :: cs => do
    let m ← m.extendStroke hypot lib c.real c.pred c.now
    m.run cs

end

end Verif.InputModeler
