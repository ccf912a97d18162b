import Verif.Model.BrushBehavior

/-!
# Specification of brush behaviors as trees

After the comments of `ink/brush/brush_behavior.h:32-107` and `404-520`: a behavior is a graph whose
edges carry nullable numbers. Here a value is `none` for null. A damping node carries its previous
output and a target its previous effect.
-/

set_option autoImplicit false

namespace Verif.BehaviorSpec

open F32 Tip

/-- The documented numbers of inputs. -/
def inputs : Node → ℤ
  | .source .. | .constant .. => 0
  | .fallbackFilter .. | .toolTypeFilter .. | .damping .. | .response .. | .target .. => 1
  | .binaryOp .. => 2
  | .interpolation .. => 3

/-- A value node produces one output, a target node none. -/
def outputs : Node → ℤ
  | .target .. => 0
  | _ => 1

/-- How many values are left over after the nodes of a list. -/
def depth (l : List Node) : ℤ := (l.map fun n => outputs n - inputs n).sum

/-- The documented "To be valid" rules. The rule on `timeSinceInput` is documented at the sources
(brush_behavior.h:170-185). -/
def NodeOk : Node → Prop
  | .source s oor lo hi => lo.isFinite = true ∧ hi.isFinite = true ∧ toRat lo ≠ toRat hi ∧
      (s = .timeSinceInputSeconds ∨ s = .timeSinceInputMillis → oor = .clamp)
  | .constant v => v.isFinite = true
  | .fallbackFilter _ | .binaryOp _ | .interpolation _ => True
  | .toolTypeFilter e => e.unknown = true ∨ e.mouse = true ∨ e.touch = true ∨ e.stylus = true
  | .damping _ gap => gap.isFinite = true ∧ 0 ≤ toRat gap
  | .response e => e.valid = true
  | .target _ lo hi => lo.isFinite = true ∧ hi.isFinite = true ∧ toRat lo ≠ toRat hi

/-- A value node with the trees of its inputs. -/
inductive Expr where
  | source (s : Source) (oor : OutOfRange) (lo hi : F32)
  | constant (v : F32)
  | fallbackFilter (p : OptionalProperty) (e : Expr)
  | toolTypeFilter (t : EnabledToolTypes) (e : Expr)
  | damping (s : DampingSource) (gap : F32) (last : Option F32) (e : Expr)
  | response (f : Easing.Fn) (e : Expr)
  | binaryOp (op : BinaryOp) (first second : Expr)
  | interpolation (i : Interpolation) (param start end_ : Expr)

/-- A target node with the tree of its input and its current effect. -/
structure TargetTree where
  target : Target
  lo : F32
  hi : F32
  effect : F32
  input : Expr

/-- The post-order traversal. -/
def Expr.nodes : Expr → List Node
  | .source s oor lo hi => [.source s oor lo hi]
  | .constant v => [.constant v]
  | .fallbackFilter p e => e.nodes ++ [.fallbackFilter p]
  | .toolTypeFilter t e => e.nodes ++ [.toolTypeFilter t]
  | .damping s gap _ e => e.nodes ++ [.damping s gap]
  | .response f e => e.nodes ++ [.response f]
  | .binaryOp op a b => a.nodes ++ b.nodes ++ [.binaryOp op]
  | .interpolation i p a b => p.nodes ++ a.nodes ++ b.nodes ++ [.interpolation i]

def TargetTree.nodes (t : TargetTree) : List Node := t.input.nodes ++ [.target t.target t.lo t.hi]

/-- A computed number, null if it is NaN. -/
def number (v : F32) : Option F32 := if v.isNaN then none else some v

/-- A computed number, null if it is not finite. -/
def finite (v : F32) : Option F32 := if v.isFinite then some v else none

/-- A binary operation: null if an input is null or if the result is not finite. -/
def combine : BinaryOp → Option F32 → Option F32 → Option F32
  | .product, some x, some y => finite (mul x y)
  | .sum, some x, some y => finite (add x y)
  | _, _, _ => none

/-- An interpolation with the first value as the parameter: null if an input is null, if the result is
not finite, or for the inverse on an empty range. -/
def between : Interpolation → Option F32 → Option F32 → Option F32 → Option F32
  | .lerp, some t, some x, some y => finite (lerpF x y t)
  | .inverseLerp, some t, some x, some y => if feq x y then none else finite (inverseLerpF x y t)
  | _, _, _, _ => none

section Value
variable (M : Libm) (tabulate : Easing.CubicBezier → List F32) (c : Ctx)

/-- How far `c.input` is from the previous modeled point, in the unit of the damping source, and the
gap in that unit; `none` if there is no such unit. -/
def dampingDistance (s : DampingSource) (gap : F32) (p : Metrics) : Option (F32 × F32) :=
  match s with
  | .distanceInCentimeters => c.st.strokeUnitLength.map fun u =>
      (mul u (sub c.input.traveledDistance p.traveledDistance), gap)
  | .distanceInMultiplesOfBrushSize =>
      some (sub c.input.traveledDistance p.traveledDistance, mul c.size gap)
  | .timeInSeconds => some ((c.input.elapsedTime.sub p.elapsedTime).toSeconds,
      (Duration32.ofSeconds gap).toSeconds)

/-- The output of a damping node: the previous output while the input is null; the input if there was
no previous output, if the gap is zero, or if the distance has no unit; otherwise the previous output
moved towards the input, exponentially with the distance. -/
def damped (s : DampingSource) (gap : F32) (last input : Option F32) : Option F32 :=
  match input with
  | none => last
  | some v =>
    match last with
    | none => some v
    | some l =>
      if feq gap zero then some v
      else
        match c.prev.bind (dampingDistance c s gap) with
        | none => some v
        | some (d, g) => number (dampOffset M v l d g)

/-- The value of a tree. -/
def Expr.value : Expr → Option F32
  | .source s oor lo hi =>
    (sourceValue M c.input c.dir c.size c.st s).bind fun v =>
      number (applyOutOfRange oor (inverseLerpF lo hi v))
  | .constant v => number v
  | .fallbackFilter p e => if propertyPresent c.input p then none else e.value
  | .toolTypeFilter t e => if toolTypeEnabled t c.st.toolType then e.value else none
  | .damping s gap last e => damped M c s gap last e.value
  | .response f e =>
    e.value.bind fun v => ((Easing.setUp tabulate f).getY v).bind number
  | .binaryOp op a b => combine op a.value b.value
  | .interpolation i p a b => between i p.value a.value b.value

/-- The tree after an evaluation: every damping node remembers its output. -/
def Expr.next : Expr → Expr
  | .source s oor lo hi => .source s oor lo hi
  | .constant v => .constant v
  | .fallbackFilter p e => .fallbackFilter p e.next
  | .toolTypeFilter t e => .toolTypeFilter t e.next
  | .damping s gap last e =>
    .damping s gap ((Expr.damping s gap last e).value M tabulate c) e.next
  | .response f e => .response f e.next
  | .binaryOp op a b => .binaryOp op a.next b.next
  | .interpolation i p a b => .interpolation i p.next a.next b.next

/-- A target's effect is its input lerped to its range, and does not change while the input is null. -/
def TargetTree.next (t : TargetTree) : TargetTree :=
  { t with
    effect := match t.input.value M tabulate c with
      | none => t.effect
      | some v => lerpF t.lo t.hi v
    input := t.input.next M tabulate c }

end Value

/-- A null is stored as NaN. -/
def encode (v : Option F32) : F32 := v.getD .nan

/-- The previous outputs of the damping nodes, in post-order, as they are stored. -/
def Expr.memory : Expr → List F32
  | .source .. => []
  | .constant .. => []
  | .fallbackFilter _ e => e.memory
  | .toolTypeFilter _ e => e.memory
  | .damping _ _ last e => e.memory ++ [encode last]
  | .response _ e => e.memory
  | .binaryOp _ a b => a.memory ++ b.memory
  | .interpolation _ p a b => p.memory ++ a.memory ++ b.memory

/-- No damping node remembers a NaN as if it were a number. -/
def Expr.Proper : Expr → Prop
  | .source .. | .constant .. => True
  | .fallbackFilter _ e | .toolTypeFilter _ e | .response _ e => e.Proper
  | .damping _ _ last e => (∀ v, last = some v → v.isNaN = false) ∧ e.Proper
  | .binaryOp _ a b => a.Proper ∧ b.Proper
  | .interpolation _ p a b => p.Proper ∧ a.Proper ∧ b.Proper

/-- No damping node has an output yet. -/
def Expr.Fresh : Expr → Prop
  | .source .. | .constant .. => True
  | .fallbackFilter _ e | .toolTypeFilter _ e | .response _ e => e.Fresh
  | .damping _ _ last e => last = none ∧ e.Fresh
  | .binaryOp _ a b => a.Fresh ∧ b.Fresh
  | .interpolation _ p a b => p.Fresh ∧ a.Fresh ∧ b.Fresh

end Verif.BehaviorSpec
