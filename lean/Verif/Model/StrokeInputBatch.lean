import Verif.F32.Basic
import Mathlib.Logic.Function.Basic

/-!
# Model of `ink::StrokeInput`, `ink::StrokeInputBatch` and `ink_internal::CopyOnWrite`

Sources: /repo/ink/strokes/input/stroke_input.h, stroke_input_batch.{h,cc},
internal/stroke_input_validation_helpers.cc, /repo/ink/types/internal/copy_on_write.h.

The model is a small machine: a `World` holds every live `StrokeInputBatch` object of the program
(numbered in order of construction) and the heap of shared `std::vector<float>` objects they point
to. Each member function is a function on worlds, so sharing between copies is explicit.

`none` as a result means that an `ABSL_CHECK` fails or that the behaviour is undefined. A status is
a Boolean (`true` for ok); error messages are not modelled. `size_t` arithmetic does not wrap in the
model. Freeing unreferenced vectors is not modelled (it is not observable).
-/

set_option linter.dupNamespace false

namespace Verif.Batch

open Verif

/-- stroke_input.h:36 `StrokeInput::ToolType`, an enum over `int8_t`: `other` stands for the values
that are not named enumerators. -/
inductive ToolType where
  | unknown | mouse | touch | stylus | other (n : Int)
  deriving DecidableEq, Repr

/-- stroke_input.h:40-42 `kNoPressure`, `kNoTilt`, `kNoOrientation`: the float `-1`. -/
def kMinusOne : F32 := F32.ofBits 0xBF800000
/-- The float `1`. -/
def kOne : F32 := F32.ofBits 0x3F800000
/-- angle.h:78 `kQuarterTurn` = 1.5707963268f. -/
def kQuarterTurn : F32 := F32.ofBits 0x3FC90FDB
/-- angle.h:80 `kFullTurn` = 6.2831853072f. -/
def kFullTurn : F32 := F32.ofBits 0x40C90FDB

/-- stroke_input.h:51-87 `StrokeInput`. `Duration32`, `PhysicalDistance` and `Angle` are wrappers of
one float each. -/
structure Input where
  tool : ToolType := .unknown
  x : F32 := F32.zero
  y : F32 := F32.zero
  time : F32 := F32.zero
  unitLength : F32 := F32.zero
  pressure : F32 := kMinusOne
  tilt : F32 := kMinusOne
  orientation : F32 := kMinusOne
  deriving DecidableEq, Repr

namespace Input
/-- stroke_input.h:44-46 -/
def hasUnitLength (i : Input) : Bool := !F32.feq i.unitLength F32.zero
/-- stroke_input.h:47 -/
def hasPressure (i : Input) : Bool := !F32.feq i.pressure kMinusOne
/-- stroke_input.h:48 -/
def hasTilt (i : Input) : Bool := !F32.feq i.tilt kMinusOne
/-- stroke_input.h:49 -/
def hasOrientation (i : Input) : Bool := !F32.feq i.orientation kMinusOne
end Input

/-- stroke_input_batch.cc:98-156 `ValidateSingleInput`. -/
def validateSingleInput (i : Input) : Bool :=
  if i.tool ≠ .unknown ∧ i.tool ≠ .mouse ∧ i.tool ≠ .stylus ∧ i.tool ≠ .touch then false
  else if !i.x.isFinite || !i.y.isFinite then false
  else if !i.time.isFinite || F32.lt i.time F32.zero then false
  else if i.hasUnitLength && !(i.unitLength.isFinite && F32.gt i.unitLength F32.zero) then false
  else if !i.pressure.isFinite ||
      (i.hasPressure && !(F32.ge i.pressure F32.zero && F32.le i.pressure kOne)) then false
  else if !i.tilt.isFinite ||
      (i.hasTilt && !(F32.ge i.tilt F32.zero && F32.le i.tilt kQuarterTurn)) then false
  else if !i.orientation.isFinite ||
      (i.hasOrientation &&
        !(F32.ge i.orientation F32.zero && F32.le i.orientation kFullTurn)) then false
  else true

/-- stroke_input_validation_helpers.cc:24-73 `ValidateConsecutiveInputs`. -/
def validateConsecutiveInputs (first second : Input) : Bool :=
  if first.tool ≠ second.tool then false
  else if (F32.feq first.x second.x && F32.feq first.y second.y) &&
      F32.feq first.time second.time then false
  else if F32.gt first.time second.time then false
  else if !F32.feq first.unitLength second.unitLength then false
  else if first.hasPressure ≠ second.hasPressure then false
  else if first.hasTilt ≠ second.hasTilt then false
  else if first.hasOrientation ≠ second.hasOrientation then false
  else true

/-- The loop of stroke_input_batch.cc:164-172: `prev` is `inputs[i - 1]`. -/
def validateRest (prev : Input) : List Input → Bool
  | [] => true
  | i :: rest =>
    if !validateSingleInput i then false
    else if !validateConsecutiveInputs prev i then false
    else validateRest i rest

/-- stroke_input_batch.cc:158-175 `ValidateInputSequence`. -/
def validateInputSequence : List Input → Bool
  | [] => true
  | i :: rest => if !validateSingleInput i then false else validateRest i rest

/-- stroke_input_batch.h:218-227, the data members of `StrokeInputBatch`; `data` is the
`shared_ptr` inside the `CopyOnWrite` (a heap location, or `none` for null). -/
structure Batch where
  data : Option Nat := none
  size : Nat := 0
  tool : ToolType := .unknown
  unitLength : F32 := F32.zero
  hasPressure : Bool := false
  hasTilt : Bool := false
  hasOrientation : Bool := false
  deriving DecidableEq

/-- All live objects (numbers below `n`) and the heap. -/
structure World where
  n : Nat
  var : Nat → Batch
  heap : Nat → List F32
  next : Nat

/-- The program before any batch has been constructed. -/
def World.init : World := ⟨0, fun _ => {}, fun _ => [], 0⟩

namespace World

def setVar (w : World) (v : Nat) (b : Batch) : World := { w with var := Function.update w.var v b }

/-- `shared_ptr::use_count()` -/
def useCount (w : World) (l : Nat) : Nat :=
  (List.range w.n).countP fun i => (w.var i).data == some l

/-- copy_on_write.h:72 `HasValue` -/
def hasValue (w : World) (v : Nat) : Bool := (w.var v).data.isSome

/-- copy_on_write.h:76 `IsShared` -/
def isShared (w : World) (v : Nat) : Bool :=
  match (w.var v).data with
  | none => false
  | some l => decide (w.useCount l > 1)

/-- copy_on_write.h:62-66 `Emplace`: a newly allocated object. -/
def emplace (w : World) (v : Nat) (d : List F32) : World :=
  { w with
    var := Function.update w.var v { w.var v with data := some w.next }
    heap := Function.update w.heap w.next d
    next := w.next + 1 }

/-- copy_on_write.h:70 `Reset` -/
def reset (w : World) (v : Nat) : World := w.setVar v { w.var v with data := none }

/-- copy_on_write.h:90-93 `Value`, which check-fails without a value. -/
def value (w : World) (v : Nat) : Option (List F32) := (w.var v).data.map w.heap

/-- copy_on_write.h:82-86 `MutableValue` followed by an update `f` of the referenced vector. -/
def mutate (w : World) (v : Nat) (f : List F32 → List F32) : Option World :=
  match (w.var v).data with
  | none => none
  | some l =>
    let w := if w.isShared v then w.emplace v (w.heap l) else w
    match (w.var v).data with
    | none => none
    | some l => some { w with heap := Function.update w.heap l (f (w.heap l)) }

end World

/-- stroke_input_batch.h:353-359 `FloatsPerInput(bool, bool, bool)` -/
def floatsPerInput (hasPressure hasTilt hasOrientation : Bool) : Nat :=
  3 + hasPressure.toNat + hasTilt.toNat + hasOrientation.toNat

/-- stroke_input_batch.h:366-368 -/
def Batch.stride (b : Batch) : Nat := floatsPerInput b.hasPressure b.hasTilt b.hasOrientation

/-- stroke_input_batch.cc:190-200 `AppendInputToFloatVector`: the floats it pushes back. -/
def encode (i : Input) : List F32 :=
  [i.x, i.y, i.time] ++ (if i.hasPressure then [i.pressure] else []) ++
    (if i.hasTilt then [i.tilt] else []) ++ (if i.hasOrientation then [i.orientation] else [])

/-- `*iter++`, undefined at the end of the span. -/
def next : List F32 → Option (F32 × List F32)
  | [] => none
  | a :: rest => some (a, rest)

/-- `cond ? *iter++ : dflt` -/
def nextIf (cond : Bool) (dflt : F32) (d : List F32) : Option (F32 × List F32) :=
  if cond then next d else some (dflt, d)

/-- stroke_input_batch.cc:248-256, reading one input from the span `d`. -/
def decode (b : Batch) (d : List F32) : Option Input := do
  let (x, d) ← next d
  let (y, d) ← next d
  let (t, d) ← next d
  let (p, d) ← nextIf b.hasPressure kMinusOne d
  let (ti, d) ← nextIf b.hasTilt kMinusOne d
  let (o, _) ← nextIf b.hasOrientation kMinusOne d
  some { tool := b.tool, x := x, y := y, time := t, unitLength := b.unitLength,
         pressure := p, tilt := ti, orientation := o }

/-- stroke_input_batch.cc:244-257 `Get` -/
def get (w : World) (v i : Nat) : Option Input :=
  let b := w.var v
  if i < b.size then (w.value v).bind fun d => decode b (d.drop (i * b.stride)) else none

/-- stroke_input_batch.cc:64-77 `Clear` -/
def clear (w : World) (v : Nat) : Option World := do
  let w ← if w.isShared v then some (w.reset v)
    else if w.hasValue v then w.mutate v fun _ => []
    else some w
  some (w.setVar v { data := (w.var v).data })

/-- stroke_input_batch.cc:179-186 `SetInlineFormatMetadata` -/
def setInlineFormatMetadata (w : World) (v : Nat) (i : Input) : World :=
  w.setVar v { w.var v with
    tool := i.tool, unitLength := i.unitLength, hasPressure := i.hasPressure,
    hasTilt := i.hasTilt, hasOrientation := i.hasOrientation }

/-- `size_ += k` -/
def addSize (w : World) (v k : Nat) : World :=
  w.setVar v { w.var v with size := (w.var v).size + k }

/-- `if (!data_.HasValue()) data_.Emplace();` -/
def ensureValue (w : World) (v : Nat) : World := if w.hasValue v then w else w.emplace v []

/-- The floats written by stroke_input_batch.cc:231-239 (the non-single case of `Set`): which
optional values are written depends on the format of the batch. -/
def encodeAs (b : Batch) (i : Input) : List F32 :=
  [i.x, i.y, i.time] ++ (if b.hasPressure then [i.pressure] else []) ++
    (if b.hasTilt then [i.tilt] else []) ++ (if b.hasOrientation then [i.orientation] else [])

/-- stroke_input_batch.cc:220-224, the comparison with the previous input in `Set`. -/
def checkPrevious (w : World) (v i : Nat) (input : Input) : Option Bool :=
  if 0 < i then (get w v (i - 1)).map (validateConsecutiveInputs · input) else some true

/-- stroke_input_batch.cc:225-229, the comparison with the next input in `Set`. -/
def checkNext (w : World) (v i : Nat) (input : Input) : Option Bool :=
  if i + 1 < (w.var v).size then (get w v (i + 1)).map (validateConsecutiveInputs input ·)
  else some true

/-- stroke_input_batch.cc:204-242 `Set` -/
def set (w : World) (v i : Nat) (input : Input) : Option (Bool × World) :=
  if !(i < (w.var v).size) then none
  else if !validateSingleInput input then some (false, w)
  else if (w.var v).size = 1 then do
    let w ← clear w v
    let w := ensureValue w v
    let w := setInlineFormatMetadata w v input
    let w ← w.mutate v fun d => d ++ encode input
    some (true, w.setVar v { w.var v with size := 1 })
  else do
    let ok1 ← checkPrevious w v i input
    if !ok1 then some (false, w)
    else do
      let ok2 ← checkNext w v i input
      if !ok2 then some (false, w)
      else do
        let b := w.var v
        let vals := encodeAs b input
        let d ← w.value v
        if d.length < i * b.stride + vals.length then none
        else
          let w ← w.mutate v fun d =>
            d.take (i * b.stride) ++ vals ++ d.drop (i * b.stride + vals.length)
          some (true, w)

/-- stroke_input_batch.cc:259-279 `Append(const StrokeInput&)` -/
def append (w : World) (v : Nat) (input : Input) : Option (Bool × World) :=
  if !validateSingleInput input then some (false, w)
  else if (w.var v).size ≠ 0 then do
    let last ← get w v ((w.var v).size - 1)
    if !validateConsecutiveInputs last input then some (false, w)
    else do
      let w ← w.mutate v fun d => d ++ encode input
      some (true, addSize w v 1)
  else do
    let w := ensureValue w v
    let w := setInlineFormatMetadata w v input
    let w ← w.mutate v fun d => d ++ encode input
    some (true, addSize w v 1)

/-- stroke_input_batch.cc:281-312 `Append(absl::Span<const StrokeInput>)` -/
def appendSpan (w : World) (v : Nat) : List Input → Option (Bool × World)
  | [] => some (true, w)
  | i :: is =>
    if !validateInputSequence (i :: is) then some (false, w)
    else if (w.var v).size ≠ 0 then do
      let last ← get w v ((w.var v).size - 1)
      if !validateConsecutiveInputs last i then some (false, w)
      else do
        let w ← w.mutate v fun d => d ++ (i :: is).flatMap encode
        some (true, addSize w v (i :: is).length)
    else do
      let w := ensureValue w v
      let w := setInlineFormatMetadata w v i
      let w ← w.mutate v fun d => d ++ (i :: is).flatMap encode
      some (true, addSize w v (i :: is).length)

/-- A newly constructed object with the given members; it has number `w.n`. -/
def construct (w : World) (b : Batch) : World :=
  { w with n := w.n + 1, var := Function.update w.var w.n b }

/-- stroke_input_batch.cc:314-327 `Create`; on success the batch is the new object. On error the
temporary is destroyed. -/
def create (w : World) (inputs : List Input) : Option (Bool × World) :=
  let w' := construct w {}
  if inputs.isEmpty then some (true, w')
  else do
    let (ok, w') ← appendSpan (w'.emplace w.n []) w.n inputs
    if !ok then some (false, w) else some (true, w')

/-- `operator=(const StrokeInputBatch&) = default` -/
def copyAssign (w : World) (dst src : Nat) : World := w.setVar dst (w.var src)

/-- `operator=(StrokeInputBatch&&) = default` and the move constructor: the pointer is moved, the
other members are copied, and the moved-from object keeps them. -/
def moveAssign (w : World) (dst src : Nat) : World :=
  if dst = src then w
  else (w.setVar dst (w.var src)).setVar src { w.var src with data := none }

/-- stroke_input_batch.cc:329-354 `Append(const StrokeInputBatch&)`. Appending a non-empty batch to
itself would call `vector::insert` with iterators into the same vector, which is undefined. -/
def appendBatch (w : World) (v u : Nat) : Option (Bool × World) :=
  if (w.var u).size = 0 then some (true, w)
  else if (w.var v).size = 0 then some (true, copyAssign w v u)
  else do
    let last ← get w v ((w.var v).size - 1)
    let first ← get w u 0
    if !validateConsecutiveInputs last first then some (false, w)
    else if v = u then none
    else do
      -- `data_.MutableValue()` first detaches `v`, then the data of `u` is read
      let w ← w.mutate v id
      let d' ← w.value u
      let w ← w.mutate v fun d => d ++ d'
      some (true, addSize w v (w.var u).size)

/-- stroke_input_batch.cc:356-371 `Erase` -/
def erase (w : World) (v start count : Nat) : Option (Bool × World) :=
  if (w.var v).size < start then none
  else
    let count := min count ((w.var v).size - start)
    if count = 0 then some (true, w)
    else if start = 0 ∧ count = (w.var v).size then (clear w v).map (true, ·)
    else do
      let k := (w.var v).stride
      let w ← w.mutate v fun d => d.take (start * k) ++ d.drop ((start + count) * k)
      some (true, w.setVar v { w.var v with size := (w.var v).size - count })

/-- affine_transform.h: the six coefficients. -/
structure Affine where
  a : F32
  b : F32
  c : F32
  d : F32
  e : F32
  f : F32

/-- affine_transform.cc:54-56 `Apply(Point)` (no fused multiply-add). -/
def Affine.apply (t : Affine) (x y : F32) : F32 × F32 :=
  (F32.add (F32.add (F32.mul t.a x) (F32.mul t.b y)) t.c,
   F32.add (F32.add (F32.mul t.d x) (F32.mul t.e y)) t.f)

/-- stroke_input_batch.cc:386-396 `TransformPreservingDuration`: the loop over the vector. -/
def transformData (t : Affine) (stride : Nat) : List F32 → List F32
  | x :: y :: rest =>
    let p := t.apply x y
    p.1 :: p.2 :: rest.take (stride - 2) ++ transformData t stride (rest.drop (stride - 2))
  | d => d
  termination_by d => d.length
  decreasing_by simp; omega

/-- stroke_input_batch.cc:378-384 `Transform` -/
def transform (w : World) (v : Nat) (t : Affine) : Option (Bool × World) :=
  if (w.var v).size = 0 then some (true, w)
  else (w.mutate v (transformData t (w.var v).stride)).map (true, ·)

/-- stroke_input_batch.cc:79-85 `MakeDeepCopy`; the copy is the new object. -/
def makeDeepCopy (w : World) (u : Nat) : Option (Bool × World) := do
  let w' := construct w (w.var u)
  if w'.hasValue w.n then
    let d ← w'.value w.n
    some (true, w'.emplace w.n d)
  else some (true, w')

/-- stroke_input_batch.cc:373-376 `GetDuration` -/
def getDuration (w : World) (v : Nat) : Option F32 :=
  if (w.var v).size = 0 then some F32.zero
  else do
    let l ← get w v ((w.var v).size - 1)
    let f ← get w v 0
    some (F32.sub l.time f.time)

/-! ## Iteration -/

/-- stroke_input_batch.h:255-283 `ConstIterator`: `sub` is the span `batch_subdata_`, which always
runs to the end of the vector, so two iterators of a batch have equal `data()` pointers exactly when
the spans have equal lengths. -/
structure Iter where
  sub : List F32
  value : Input

/-- stroke_input_batch.h:265-270, the constructor. -/
def mkIter (w : World) (v index : Nat) : Option Iter :=
  match w.value v with
  | none => some ⟨[], {}⟩
  | some d =>
    if d.length < index * (w.var v).stride then none  -- `subspan` out of range
    else if index < (w.var v).size then
      (get w v index).map fun x => ⟨d.drop (index * (w.var v).stride), x⟩
    else some ⟨d.drop (index * (w.var v).stride), {}⟩

/-- stroke_input_batch.cc:40-55 `operator++` -/
def Iter.incr (it : Iter) : Option Iter :=
  let k := floatsPerInput it.value.hasPressure it.value.hasTilt it.value.hasOrientation
  if it.sub.isEmpty then none
  else if it.sub.length < k then none
  else
    let sub := it.sub.drop k
    if sub.isEmpty then some ⟨sub, it.value⟩
    else do
      let (x, d) ← next sub
      let (y, d) ← next d
      let (t, d) ← next d
      let (p, d) ← nextIf it.value.hasPressure it.value.pressure d
      let (ti, d) ← nextIf it.value.hasTilt it.value.tilt d
      let (o, _) ← nextIf it.value.hasOrientation it.value.orientation d
      some ⟨sub, { it.value with x := x, y := y, time := t, pressure := p, tilt := ti,
                                 orientation := o }⟩

/-- A range-for loop that collects the values, with a bound on the number of rounds (`none` if the
bound is reached). -/
def iterate : Nat → Iter → Iter → Option (List Input)
  | 0, _, _ => none
  | fuel + 1, it, last =>
    if it.sub.length = last.sub.length then some []
    else if it.sub.isEmpty then none
    else do
      let nxt ← it.incr
      let rest ← iterate fuel nxt last
      some (it.value :: rest)

/-! ## Histories -/

/-- A call of the public API. Objects are named by their construction number. -/
inductive Op where
  | new
  | create (xs : List Input)
  | copy (src : Nat)
  | move (src : Nat)
  | copyAssign (dst src : Nat)
  | moveAssign (dst src : Nat)
  | deepCopy (src : Nat)
  | clear (v : Nat)
  | set (v i : Nat) (x : Input)
  | append (v : Nat) (x : Input)
  | appendSpan (v : Nat) (xs : List Input)
  | appendBatch (v u : Nat)
  | erase (v start count : Nat)
  | transform (v : Nat) (t : Affine)

/-- Objects named by a call. -/
def Op.operands : Op → List Nat
  | .new => []
  | .create _ => []
  | .copy u => [u]
  | .move u => [u]
  | .copyAssign v u => [v, u]
  | .moveAssign v u => [v, u]
  | .deepCopy u => [u]
  | .clear v => [v]
  | .set v _ _ => [v]
  | .append v _ => [v]
  | .appendSpan v _ => [v]
  | .appendBatch v u => [v, u]
  | .erase v _ _ => [v]
  | .transform v _ => [v]

/-- One call. -/
def step (w : World) (op : Op) : Option (Bool × World) :=
  if op.operands.all (· < w.n) then
    match op with
    | .new => some (true, construct w {})
    | .create xs => create w xs
    | .copy u => some (true, construct w (w.var u))
    | .move u =>
      some (true, (construct w (w.var u)).setVar u { w.var u with data := none })
    | .copyAssign v u => some (true, Batch.copyAssign w v u)
    | .moveAssign v u => some (true, Batch.moveAssign w v u)
    | .deepCopy u => makeDeepCopy w u
    | .clear v => (clear w v).map (true, ·)
    | .set v i x => set w v i x
    | .append v x => append w v x
    | .appendSpan v xs => appendSpan w v xs
    | .appendBatch v u => appendBatch w v u
    | .erase v s c => erase w v s c
    | .transform v t => transform w v t
  else none

/-- A history of calls; the statuses are collected in order. -/
def run : World → List Op → Option (List Bool × World)
  | w, [] => some ([], w)
  | w, op :: ops => do
    let (b, w) ← step w op
    let (bs, w) ← run w ops
    some (b :: bs, w)

end Verif.Batch
