import Verif.Model.BrushBehavior

/-!
# Specification of how modifiers combine

After the comments of `BrushBehavior::Target` (brush_behavior.h:241-313): the modifiers for one tip
property combine by multiplication or by addition.
-/

set_option autoImplicit false

namespace Verif.TipSpec

open Tip

section
variable {α : Type} [Zero α] [One α] [Add α] [Mul α]

/-- The values of the modifiers for some targets, in order. -/
def valuesFor (p : Target → Bool) (l : List (Target × α)) : List α :=
  (l.filter fun tv => p tv.1).map (·.2)

/-- Multiplied from the left, starting with 1. -/
def product (l : List α) : α := l.foldl (· * ·) 1

/-- Added from the left, starting with 0. -/
def sum (l : List α) : α := l.foldl (· + ·) 0

def forWidth (t : Target) : Bool := decide (t = .widthMultiplier ∨ t = .sizeMultiplier)
def forHeight (t : Target) : Bool := decide (t = .heightMultiplier ∨ t = .sizeMultiplier)
def only (t : Target) (t' : Target) : Bool := decide (t' = t)

/-- How far a modifier moves the tip in x and y: multiples of the brush size along an axis, along the
travel direction `fwd` or across it (`lat`). -/
def shift (size : α) (fwd lat : Option (α × α)) : Target × α → Option α × Option α
  | (.positionOffsetX, v) => (some (v * size), none)
  | (.positionOffsetY, v) => (none, some (v * size))
  | (.positionOffsetForward, v) => (fwd.map fun d => v * size * d.1, fwd.map fun d => v * size * d.2)
  | (.positionOffsetLateral, v) => (lat.map fun d => v * size * d.1, lat.map fun d => v * size * d.2)
  | _ => (none, none)

/-- The combined modifiers, property by property. -/
def combined (size : α) (fwd lat : Option (α × α)) (l : List (Target × α)) : Modifiers α where
  posX := sum (l.filterMap fun tv => (shift size fwd lat tv).1)
  posY := sum (l.filterMap fun tv => (shift size fwd lat tv).2)
  width := product (valuesFor forWidth l)
  height := product (valuesFor forHeight l)
  slant := sum (valuesFor (only .slantOffset) l)
  corner := sum (valuesFor (only .cornerRoundingOffset) l)
  rotation := sum (valuesFor (only .rotationOffset) l)
  pinch := sum (valuesFor (only .pinchOffset) l)
  hue := sum (valuesFor (only .hueOffset) l)
  saturation := product (valuesFor (only .saturationMultiplier) l)
  luminosity := sum (valuesFor (only .luminosity) l)
  opacity := product (valuesFor (only .opacityMultiplier) l)

end

/-- In the closed range `[lo, hi]`, and so not NaN. -/
def InRange (lo hi x : F32) : Prop := F32.le lo x = true ∧ F32.le x hi = true

end Verif.TipSpec
