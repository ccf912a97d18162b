import Verif.Model.StrokeInputBatch

/-!
# What a `StrokeInputBatch` is supposed to be

A batch is a list of inputs, or nothing (`none`) after it has been moved from. The documented
validation rules (stroke_input_batch.h:48-63) are written as predicates on numbers, and each API call
is described by its effect on the lists. Nothing here mentions the float vector, the inline format
members, reference counts or the heap.
-/

namespace Verif.Batch.Spec

open Verif Verif.Batch

/-- Rules 1, 3 and 4 for one input: a named tool type, finite numbers, a non-negative time, and the
optional values absent (`-1`, or `0` for the unit length) or in their range. -/
def ValidInput (i : Input) : Prop :=
  (i.tool = .unknown ∨ i.tool = .mouse ∨ i.tool = .touch ∨ i.tool = .stylus) ∧
  (i.x.isFinite ∧ i.y.isFinite) ∧
  (i.time.isFinite ∧ 0 ≤ i.time.toRat) ∧
  (i.unitLength.isFinite ∧ 0 ≤ i.unitLength.toRat) ∧
  (i.pressure.isFinite ∧ (i.pressure.toRat = -1 ∨ 0 ≤ i.pressure.toRat ∧ i.pressure.toRat ≤ 1)) ∧
  (i.tilt.isFinite ∧
    (i.tilt.toRat = -1 ∨ 0 ≤ i.tilt.toRat ∧ i.tilt.toRat ≤ kQuarterTurn.toRat)) ∧
  (i.orientation.isFinite ∧
    (i.orientation.toRat = -1 ∨
      0 ≤ i.orientation.toRat ∧ i.orientation.toRat ≤ kFullTurn.toRat))

/-- The position and time are the same (C++ `==` on the three floats). -/
def SameTriplet (a b : Input) : Prop := F32.feq a.x b.x ∧ F32.feq a.y b.y ∧ F32.feq a.time b.time

/-- Rule 1: the format of the two inputs is the same. -/
def SameFormat (a b : Input) : Prop :=
  a.tool = b.tool ∧ F32.feq a.unitLength b.unitLength ∧
  (a.pressure = kMinusOne ↔ b.pressure = kMinusOne) ∧
  (a.tilt = kMinusOne ↔ b.tilt = kMinusOne) ∧
  (a.orientation = kMinusOne ↔ b.orientation = kMinusOne)

/-- Rules 1 and 2 for two neighbours: `b` may come directly after `a`. -/
def Follows (a b : Input) : Prop :=
  SameFormat a b ∧ ¬ SameTriplet a b ∧ ¬ F32.lt b.time a.time

/-- A valid sequence. -/
def ValidSeq (l : List Input) : Prop := (∀ x ∈ l, ValidInput x) ∧ l.IsChain Follows

/-- The unit length is stored once per batch. Validation has compared it with `==`, so storing an
input can only change it from one zero to the other. -/
def conform (l : List Input) (x : Input) : Input :=
  match l with
  | [] => x
  | a :: _ => { x with unitLength := a.unitLength }

/-- `l` followed by `xs`. -/
def joined (l xs : List Input) : List Input := l ++ xs.map (conform (l ++ xs))

/-- Appending `xs` to `l` is allowed: `xs` is a valid sequence and its first element may follow the
last element of `l`. -/
def CanAppend (l xs : List Input) : Prop :=
  ValidSeq xs ∧ ∀ a ∈ l.getLast?, ∀ b ∈ xs.head?, Follows a b

/-- Replacing element `i` by `x` is allowed. A single element may be replaced by any valid input. -/
def CanSet (l : List Input) (i : Nat) (x : Input) : Prop :=
  ValidInput x ∧ (l.length = 1 ∨
    (∀ a, 0 < i → l[i - 1]? = some a → Follows a x) ∧ (∀ b, l[i + 1]? = some b → Follows x b))

/-- Apply a transform to the position. -/
def moved (t : Affine) (i : Input) : Input :=
  { i with x := (t.apply i.x i.y).1, y := (t.apply i.x i.y).2 }

/-- The values of all batches, in order of construction. -/
abbrev State := List (Option (List Input))

open Classical in
/-- The effect of a call; `none` if the call breaks its contract (unknown or moved-from operand, index
out of range, or a batch appended to itself). -/
noncomputable def step (s : State) : Op → Option (Bool × State)
  | .new => some (true, s ++ [some []])
  | .create xs =>
    if ValidSeq xs then some (true, s ++ [some (joined [] xs)]) else some (false, s)
  | .copy u => (s[u]?).map fun l => (true, s ++ [l])
  | .move u =>
    (s[u]?).map fun l => (true, s.set u (if l = some [] then l else none) ++ [l])
  | .copyAssign v u =>
    if v < s.length then (s[u]?).map fun l => (true, s.set v l) else none
  | .moveAssign v u =>
    if v < s.length then (s[u]?).map fun l =>
      (true, if v = u then s else (s.set v l).set u (if l = some [] then l else none))
    else none
  | .deepCopy u => (s[u]?).map fun l => (true, s ++ [l])
  | .clear v => if v < s.length then some (true, s.set v (some [])) else none
  | .set v i x => ((s[v]?).join).bind fun l =>
      if i < l.length then
        if CanSet l i x then
          some (true, s.set v (some (l.set i (if l.length = 1 then x else conform l x))))
        else some (false, s)
      else none
  | .append v x => ((s[v]?).join).map fun l =>
      if CanAppend l [x] then (true, s.set v (some (joined l [x]))) else (false, s)
  | .appendSpan v xs => ((s[v]?).join).map fun l =>
      if CanAppend l xs then (true, s.set v (some (joined l xs))) else (false, s)
  | .appendBatch v u => ((s[v]?).join).bind fun l => ((s[u]?).join).bind fun xs =>
      if xs = [] then some (true, s)
      else if l = [] then some (true, s.set v (some xs))
      else if ∀ a ∈ l.getLast?, ∀ b ∈ xs.head?, Follows a b then
        if v = u then none else some (true, s.set v (some (joined l xs)))
      else some (false, s)
  | .erase v start count => ((s[v]?).join).bind fun l =>
      if start ≤ l.length then
        some (true, s.set v (some (l.take start ++ l.drop (start + count))))
      else none
  | .transform v t => ((s[v]?).join).map fun l => (true, s.set v (some (l.map (moved t))))

/-- A history. -/
noncomputable def run : State → List Op → Option (List Bool × State)
  | s, [] => some ([], s)
  | s, op :: ops => do
    let (b, s) ← step s op
    let (bs, s) ← run s ops
    some (b :: bs, s)

end Verif.Batch.Spec

namespace Verif.Batch

/-- What an observer sees of object `v`: `Get(0)`, ..., `Get(k - 1)`; `none` if one of them fails. -/
def firstInputs (w : World) (v : Nat) : Nat → Option (List Input)
  | 0 => some []
  | k + 1 => do
    let l ← firstInputs w v k
    let x ← get w v k
    some (l ++ [x])

/-- All inputs of object `v`, through `Size` and `Get`. -/
def contents (w : World) (v : Nat) : Option (List Input) := firstInputs w v (w.var v).size

/-- The observable values of all objects. -/
def observe (w : World) : Spec.State := (List.range w.n).map (contents w)

end Verif.Batch
