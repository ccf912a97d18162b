import Verif.Model.StrokeInputBatch
import Verif.Spec.StrokeInputBatch

/-!
# Model of `ink::InProgressStroke`

Source: /repo/ink/strokes/in_progress_stroke.{h,cc}.

A `StrokeInputBatch` is modelled by the list of its inputs. Theorem `Batch.C01_call_refines_list`
shows that the batch operations used here (copy, `Append`, `Erase`, `Clear`, `Get`, `Size`) act on
that list as `appendBatch` below does; none of the calls here appends a batch to itself.

The brush is an arbitrary type with a number of coats. A `StrokeShapeBuilder` is modelled by the
arguments of the calls it has received since its last `StartStroke`; its mesh, bounds, outlines and
`HasUnfinishedTimeBehaviors` are arbitrary functions of these. Not modelled: `updated_region_` (it
collects regions reported by the builders and is read by nothing here) and the log messages.
-/

set_option autoImplicit false

namespace Verif.InProgress

open Verif Verif.Batch

/-- in_progress_stroke.cc:153-155, the arguments of one `StrokeShapeBuilder::ExtendStroke` call. -/
structure Extend where
  real : List Input
  pred : List Input
  time : F32

/-- A `StrokeShapeBuilder`: what it was started with, and the extensions since. -/
structure Builder (B : Type) where
  /-- The brush and the coat index of the last `StartStroke`. -/
  started : Option (B × Nat) := none
  log : List Extend := []

/-- in_progress_stroke.h:248-272, the data members. -/
structure State (B : Type) where
  brush : Option B := none
  queuedReal : List Input := []
  queuedPred : List Input := []
  processed : List Input := []
  realCount : Nat := 0
  time : F32 := F32.zero
  builders : List (Builder B) := []
  finished : Bool := true

variable {B : Type} (coats : B → Nat)

/-- stroke_input_batch.cc:329-354 `Append(const StrokeInputBatch&)` on the lists of inputs
(`Batch.C01_call_refines_list`); `none` is an error status. -/
def appendBatch (l xs : List Input) : Option (List Input) :=
  match l.getLast?, xs.head? with
  | _, none => some l
  | none, some _ => some xs
  | some a, some b => if validateConsecutiveInputs a b then some (Spec.joined l xs) else none

/-- in_progress_stroke.cc:48-57 `Clear` -/
def clear (s : State B) : State B :=
  { s with brush := none, queuedReal := [], queuedPred := [], processed := [], realCount := 0,
           time := F32.zero, finished := true }

/-- in_progress_stroke.cc:72-76, the loop over the coats: builders `0 .. k-1` are restarted. -/
def startBuilders (b : B) (k : Nat) (bs : List (Builder B)) : List (Builder B) :=
  bs.zipIdx.map fun p => if p.2 < k then { started := some (b, p.2), log := [] } else p.1

/-- in_progress_stroke.cc:59-77 `Start` -/
def start (s : State B) (b : B) : State B :=
  let s := clear s
  let s := { s with brush := some b, finished := false }
  let s := if s.builders.length < coats b then
      { s with builders := s.builders ++ List.replicate (coats b - s.builders.length) ⟨none, []⟩ } else s
  { s with builders := startBuilders b (coats b) s.builders }

/-- in_progress_stroke.cc:188-201, the previous real input against the first new input; `none` is a
failed check in `Get`. -/
def checkOldNew (s : State B) (real pred : List Input) : Option Bool :=
  if !s.queuedReal.isEmpty || s.realCount ≠ 0 then
    (if s.queuedReal.isEmpty then s.processed[s.realCount - 1]?
      else s.queuedReal[s.queuedReal.length - 1]?).bind fun last =>
    (if real.isEmpty then pred[0]? else real[0]?).bind fun first =>
    some (validateConsecutiveInputs last first)
  else some true

/-- in_progress_stroke.cc:203-211, the last new real input against the first predicted input. -/
def checkRealPred (real pred : List Input) : Option Bool :=
  if !real.isEmpty && !pred.isEmpty then
    real[real.length - 1]?.bind fun last => pred[0]?.bind fun first =>
    some (validateConsecutiveInputs last first)
  else some true

/-- in_progress_stroke.cc:180-214 `ValidateNewInputs` -/
def validateNewInputs (s : State B) (real pred : List Input) : Option Bool :=
  if real.isEmpty && pred.isEmpty then some true
  else (checkOldNew s real pred).bind fun ok =>
    if !ok then some false else checkRealPred real pred

/-- in_progress_stroke.cc:79-112 `EnqueueInputs`. The state returned with `false` is the state of the
object after the error. -/
def enqueueInputs (s : State B) (real pred : List Input) : Option (Bool × State B) :=
  if s.brush.isNone then some (false, s)
  else if s.finished then some (false, s)
  else do
    let ok ← validateNewInputs s real pred
    if !ok then some (false, s)
    else match appendBatch s.queuedReal real with
      | none => some (false, s)
      | some q => some (true, { s with queuedReal := q, queuedPred := pred })

/-- in_progress_stroke.cc:216-232 `ValidateNewElapsedTime` -/
def validateNewElapsedTime (s : State B) (t : F32) : Bool :=
  if F32.lt t F32.zero then false else if F32.lt t s.time then false else true

/-- in_progress_stroke.h:291-293 `BrushCoatCount` -/
def coatCount (s : State B) : Nat := (s.brush.map coats).getD 0

/-- in_progress_stroke.cc:153-160, the loop over the coats. -/
def extendBuilders (k : Nat) (e : Extend) (bs : List (Builder B)) : List (Builder B) :=
  bs.zipIdx.map fun p => if p.2 < k then { p.1 with log := p.1.log ++ [e] } else p.1

/-- in_progress_stroke.cc:114-165 `UpdateShape`. `none`: the check in `Erase`, or an index past the
builders. -/
def updateShape (s : State B) (t : F32) : Option (Bool × State B) :=
  if s.brush.isNone then some (false, s)
  else if !validateNewElapsedTime s t then some (false, s)
  else
    let erase := s.finished || !s.queuedReal.isEmpty || !s.queuedPred.isEmpty
    if erase && s.processed.length < s.realCount then none
    else
      let s := if erase then { s with processed := s.processed.take s.realCount } else s
      match appendBatch s.processed s.queuedReal with
      | none => some (false, s)
      | some p =>
        let s := { s with processed := p, realCount := s.realCount + s.queuedReal.length }
        match appendBatch s.processed s.queuedPred with
        | none => some (false, s)
        | some p =>
          let s := { s with processed := p, time := t }
          if s.builders.length < coatCount coats s then none
          else
            let e : Extend := ⟨s.queuedReal, s.queuedPred, t⟩
            some (true, { s with
              builders := extendBuilders (coatCount coats s) e s.builders,
              queuedReal := [], queuedPred := [] })

/-- in_progress_stroke.h:278-281 `FinishInputs` -/
def finishInputs (s : State B) : State B := { s with finished := true, queuedPred := [] }

/-- in_progress_stroke.cc:167-178 `NeedsUpdate`; `unfinished` is
`StrokeShapeBuilder::HasUnfinishedTimeBehaviors`. -/
def needsUpdate (unfinished : Builder B → Bool) (s : State B) : Bool :=
  if !s.queuedReal.isEmpty || !s.queuedPred.isEmpty then true
  else (s.builders.take (coatCount coats s)).any unfinished

/-- in_progress_stroke.h:179-191, 295-297 `GetInputs`, `InputCount`, `RealInputCount`,
`PredictedInputCount`. -/
def getInputs (s : State B) : List Input := s.processed
def inputCount (s : State B) : Nat := s.processed.length
def realInputCount (s : State B) : Nat := s.realCount
def predictedInputCount (s : State B) : Nat := inputCount s - realInputCount s

/-- A call of the public API. -/
inductive Op (B : Type) where
  | clear
  | start (b : B)
  | enqueue (real pred : List Input)
  | update (t : F32)
  | finish

/-- One call. -/
def step (s : State B) : Op B → Option (Bool × State B)
  | .clear => some (true, clear s)
  | .start b => some (true, start coats s b)
  | .enqueue r p => enqueueInputs s r p
  | .update t => updateShape coats s t
  | .finish => some (true, finishInputs s)

/-- A history of calls. -/
def run : State B → List (Op B) → Option (List Bool × State B)
  | s, [] => some ([], s)
  | s, op :: ops => do
    let (b, s) ← step coats s op
    let (bs, s) ← run s ops
    some (b :: bs, s)

end Verif.InProgress
