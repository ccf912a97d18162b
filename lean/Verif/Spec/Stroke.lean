import Verif.Model.Stroke
import Verif.Spec.Brush

/-!
# What the shape of a stroke should be

After `ink/strokes/stroke.h:33-37` and `65-119`.
-/

set_option autoImplicit false

namespace Verif.StrokeSpec

open F32 Tip Brushes Strokes BrushSpec

/-- A negative zero is replaced by a positive one. -/
def num (x : F32) : F32 := if x.isFinite ∧ toRat x = 0 then zero else x

def easing : Easing.Fn → Easing.Fn
  | .predefined p => .predefined p
  | .cubicBezier c => .cubicBezier ⟨num c.x1, num c.y1, num c.x2, num c.y2⟩
  | .linear ps => .linear (ps.map fun p => ⟨num p.x, num p.y⟩)
  | .steps n p => .steps n p

def node : Node → Node
  | .source s o lo hi => .source s o (num lo) (num hi)
  | .constant v => .constant (num v)
  | .damping s g => .damping s (num g)
  | .response e => .response (easing e)
  | .target t lo hi => .target t (num lo) (num hi)
  | n => n

/-- A tip with positive zeros. Two tips are the same if these are. -/
def tip (t : BrushTip) : BrushTip where
  scaleX := num t.scaleX
  scaleY := num t.scaleY
  cornerRounding := num t.cornerRounding
  slant := num t.slant
  pinch := num t.pinch
  rotation := num t.rotation
  opacityMultiplier := num t.opacityMultiplier
  particleGapDistanceScale := num t.particleGapDistanceScale
  particleGapDuration := ⟨num t.particleGapDuration.seconds⟩
  behaviors := t.behaviors.map fun b => b.map node

/-- The tips of the coats. -/
def tips (coats : List Coat) : List (List BrushTip) := coats.map fun c => c.tips.map tip

/-- The tips of a family can be anything `Create` accepts. -/
def CoatsOk (coats : List Coat) : Prop := ∀ c ∈ coats, ∀ t ∈ c.tips, TipOk t

/-- A brush as `Brush` and `BrushFamily` allow. -/
def BrushOk {C : Type} (b : Brush C) : Prop := SizeOk b.size b.epsilon ∧ CoatsOk b.family.coats

variable {Shape Mesh C : Type}

/-- The shape for a brush and inputs: without inputs it is empty, and otherwise it is built from one mesh
for each coat. It is empty as well if it cannot be built. -/
def shapeOf (E : Env Shape Mesh) (b : Brush C) (inputs : List Batch.Input) : Shape :=
  let n := b.family.coats.length
  if inputs = [] ∨ n = 0 then E.empty n
  else ((E.build (b.family.coats.map fun c =>
    E.gen b.family.inputModel c b.size b.epsilon inputs)).getD (E.empty n))

/-- A mesh has the number of groups it is made with. -/
structure EnvOk (E : Env Shape Mesh) : Prop where
  empty : ∀ n, E.groups (E.empty n) = n
  build : ∀ ms s, E.build ms = some s → E.groups s = ms.length

/-- Brushes that only differ in what the documentation says does not change the shape: the colour, the
URI, the paint, the input model and the signs of zeros. -/
def SameShape (b b' : Brush C) : Prop :=
  b.size = b'.size ∧ b.epsilon = b'.epsilon ∧ tips b.family.coats = tips b'.family.coats

/-- The brushes and families among the arguments of a call are valid. -/
def ArgsOk : StrokeOp C → Prop
  | .setBrushAndInputs b _ => BrushOk b
  | .setBrush b => BrushOk b
  | .setBrushFamily f => CoatsOk f.coats
  | _ => True

end Verif.StrokeSpec
