import Verif.Model.InProgressStroke

/-!
# What an `InProgressStroke` is supposed to do

The stroke is described by four lists: the real inputs consumed so far, the current prediction, and
the real inputs and the prediction that are waiting for the next `UpdateShape`.
-/

set_option autoImplicit false

namespace Verif.InProgress.Spec

open Verif Verif.Batch

/-- Inputs are compared up to the sign of a zero unit length, which a batch does not keep. -/
def canon (x : Input) : Input :=
  if F32.feq x.unitLength F32.zero then { x with unitLength := F32.zero } else x

structure State (B : Type) where
  brush : Option B := none
  finished : Bool := true
  /-- Real inputs consumed by `UpdateShape`. -/
  real : List Input := []
  /-- The most recently consumed prediction. -/
  pred : List Input := []
  waitingReal : List Input := []
  waitingPred : List Input := []
  time : F32 := F32.zero

/-- `b`, if any, is the first element after the non-empty prefix ending in `a`: nothing to check if
one of them is missing. -/
def JoinOk (l xs : List Input) : Prop :=
  ∀ a ∈ l.getLast?, ∀ b ∈ xs.head?, Batch.Spec.Follows a b

/-- The documented requirement on new inputs: they continue all real inputs given so far, and the
prediction continues the new real inputs. -/
def Continues {B : Type} (s : State B) (real pred : List Input) : Prop :=
  JoinOk (s.real ++ s.waitingReal) (real ++ pred) ∧ JoinOk real pred

open Classical in
/-- The documented effect of a call. -/
noncomputable def step {B : Type} (s : State B) : Op B → Bool × State B
  | .clear => (true, {})
  | .start b => (true, { brush := some b, finished := false })
  | .enqueue real pred =>
    if s.brush.isSome ∧ s.finished = false ∧ Continues s real pred then
      (true, { s with waitingReal := s.waitingReal ++ real, waitingPred := pred })
    else (false, s)
  | .update t =>
    if s.brush.isSome ∧ ¬ F32.lt t F32.zero ∧ ¬ F32.lt t s.time then
      (true, { s with
        real := s.real ++ s.waitingReal,
        pred := if s.finished ∨ s.waitingReal ≠ [] ∨ s.waitingPred ≠ [] then s.waitingPred
          else s.pred,
        waitingReal := [], waitingPred := [], time := t })
    else (false, s)
  | .finish => (true, { s with finished := true, waitingPred := [] })

noncomputable def run {B : Type} : State B → List (Op B) → List Bool × State B
  | s, [] => ([], s)
  | s, op :: ops =>
    let r := step s op
    let r' := run r.2 ops
    (r.1 :: r'.1, r'.2)

/-- The inputs of a call are the contents of batches: one format each. -/
def Uniform (l : List Input) : Prop := ∀ x ∈ l, ∀ y ∈ l, Batch.Spec.SameFormat x y

def OpOk {B : Type} : Op B → Prop
  | .enqueue real pred => Uniform real ∧ Uniform pred
  | _ => True

end Verif.InProgress.Spec
