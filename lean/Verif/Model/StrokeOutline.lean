import Mathlib.Data.Nat.Notation

/-!
# Model of `StrokeOutline`

From `ink/strokes/internal/stroke_outline.{h,cc}`. The storage is modelled as it is in the code: one
array used from the middle to both ends. `none` is a failed `DCHECK` or a copy outside the array.
`size_t` is unbounded here. The contents of newly allocated memory are arbitrary: `alloc n` gives them.
-/

set_option autoImplicit false

namespace Verif.Outline

/-- stroke_outline.h:44-47 `IndexCounts` -/
structure Counts where
  left : ℕ
  right : ℕ
  deriving DecidableEq, Repr

/-- stroke_outline.h:88-106 `IndexStorage`; `capacity` is the member, `data` the allocated array. -/
structure Storage where
  data : List UInt32
  capacity : ℕ
  used : Counts
  deriving DecidableEq, Repr

/-- stroke_outline.h:58, 88-91: the default constructor. -/
def Storage.empty : Storage := ⟨[], 0, ⟨0, 0⟩⟩

/-- stroke_outline.h:130-134 `UnusedLeftCapacity` -/
def Storage.unusedLeft (s : Storage) : Option ℕ :=
  if s.capacity % 2 = 0 ∧ s.used.left ≤ s.capacity / 2 then some (s.capacity / 2 - s.used.left)
  else none

/-- stroke_outline.h:136-140 `UnusedRightCapacity` -/
def Storage.unusedRight (s : Storage) : Option ℕ :=
  if s.capacity % 2 = 0 ∧ s.used.right ≤ s.capacity / 2 then some (s.capacity / 2 - s.used.right)
  else none

/-- stroke_outline.h:142-155 `UsedSpan`: where it begins and how long it is. -/
def Storage.usedSpan (s : Storage) : Option (ℕ × ℕ) :=
  match s.unusedRight with
  | none => none
  | some b =>
    if b + s.used.left + s.used.right ≤ s.capacity then some (b, s.used.left + s.used.right) else none

/-- The elements of a span; `none` if it is not inside the array. -/
def slice (data : List UInt32) (b n : ℕ) : Option (List UInt32) :=
  if b + n ≤ data.length then some ((data.drop b).take n) else none

/-- `absl::c_copy(xs, data + b)` -/
def overwrite (data : List UInt32) (b : ℕ) (xs : List UInt32) : Option (List UInt32) :=
  if b + xs.length ≤ data.length then some (data.take b ++ xs ++ data.drop (b + xs.length)) else none

/-- `absl::bit_ceil`: the least power of two that is not less. -/
def bitCeil (n : ℕ) : ℕ := if n ≤ 1 then 1 else 2 ^ (Nat.log2 (n - 1) + 1)

/-- stroke_outline.cc:29-48 `GrowIndexStorage` -/
def Storage.grow (alloc : ℕ → List UInt32) (s : Storage) (new : Counts) : Option Storage :=
  let minimum := 2 * max (s.used.left + new.left) (s.used.right + new.right)
  let capacity := bitCeil minimum
  let s' : Storage := ⟨alloc capacity, capacity, s.used⟩
  match s.usedSpan, s'.usedSpan with
  | some (b, n), some (b', _) =>
    match slice s.data b n with
    | none => none
    | some xs =>
      match overwrite s'.data b' xs with
      | none => none
      | some d => some { s' with data := d }
  | _, _ => none

/-- stroke_outline.cc:60-69, the copies of `AppendNewIndices`. A reverse iterator writes backwards: the
first new right index goes to the highest place. -/
def Storage.write (s : Storage) (left right : List UInt32) : Option Storage :=
  let s' : Storage := { s with used := ⟨s.used.left + left.length, s.used.right + right.length⟩ }
  match s'.usedSpan with
  | none => none
  | some (b, n) =>
    match overwrite s'.data (b + n - left.length) left with
    | none => none
    | some d =>
      match overwrite d b right.reverse with
      | none => none
      | some d' => some { s' with data := d' }

/-- stroke_outline.cc:50-69 `AppendNewIndices` -/
def Storage.append (alloc : ℕ → List UInt32) (s : Storage) (left right : List UInt32) :
    Option Storage :=
  match s.unusedLeft, s.unusedRight with
  | some ul, some ur =>
    if ul < left.length ∨ ur < right.length then
      match s.grow alloc ⟨left.length, right.length⟩ with
      | none => none
      | some s' => s'.write left right
    else s.write left right
  | _, _ => none

/-- stroke_outline.h:115-120 `TruncateIndices` -/
def Storage.truncate (s : Storage) (c : Counts) : Storage :=
  { s with used := ⟨min s.used.left c.left, min s.used.right c.right⟩ }

/-- stroke_outline.h:122-124 `GetIndices` -/
def Storage.getIndices (s : Storage) : Option (List UInt32) :=
  match s.usedSpan with
  | none => none
  | some (b, n) => slice s.data b n

/-- stroke_outline.h:126-128 `GetIndexCounts` -/
def Storage.getCounts (s : Storage) : Counts := s.used

/-- A call of a modifying method. -/
inductive Op where
  | append (left right : List UInt32)
  | truncate (left right : ℕ)
  deriving DecidableEq, Repr

/-- One call. -/
def Storage.step (alloc : ℕ → List UInt32) (s : Storage) : Op → Option Storage
  | .append l r => s.append alloc l r
  | .truncate l r => some (s.truncate ⟨l, r⟩)

/-- A history of calls. -/
def Storage.run (alloc : ℕ → List UInt32) : Storage → List Op → Option Storage
  | s, [] => some s
  | s, op :: ops =>
    match s.step alloc op with
    | none => none
    | some s' => s'.run alloc ops

end Verif.Outline
