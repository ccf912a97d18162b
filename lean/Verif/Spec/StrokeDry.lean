import Verif.Spec.ShapeBuilder

/-!
# Specification for C83: brushes whose strokes change with time
-/

set_option autoImplicit false

namespace Verif.StrokeDry.Spec

open Verif F32

/-- The sources that measure the time since an input. -/
def ofTime : Tip.Source → Bool
  | .timeSinceInputSeconds | .timeSinceInputMillis => true
  | _ => false

/-- No behavior of the tip depends on the time since an input. -/
def Ageless (tip : Tip.BrushTip) : Prop := ∀ s ∈ TipSpec.sources tip, ofTime s = false

/-- `2^-111` -/
def tiny : F32 := .fin false 0x08000000 (by decide)

/-- The behaviors that depend on the time since an input have ranges from a smaller to a larger number, which in milliseconds is not positive and
smaller than `2^-111`. -/
def Forward (tip : Tip.BrushTip) : Prop :=
  ∀ s oor lo hi, Tip.Node.source s oor lo hi ∈ tip.behaviors.flatten → ofTime s = true → lt lo hi = true ∧
    (s = .timeSinceInputMillis → le hi zero = true ∨ le tiny hi = true)

end Verif.StrokeDry.Spec
