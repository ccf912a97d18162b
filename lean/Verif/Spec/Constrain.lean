import Verif.Model.Constrain

/-!
# What it means to constrain an extrusion
-/

set_option autoImplicit false

namespace Verif.Constrain.Spec

open F32 Verif.Tip

/-- A number from 0 to `B`. -/
def UpTo (B : ℚ) (x : F32) : Prop := x.isFinite = true ∧ 0 ≤ toRat x ∧ toRat x ≤ B

/-- A number from 0 to 1. -/
abbrev InUnit (x : F32) : Prop := UpTo 1 x

/-- A tip state whose size, rounding and pinch are in their documented ranges, the size also in the lower quarter of the range of
`float`. -/
structure Valid (s : TipState) : Prop where
  width : UpTo (2 ^ 126) s.width
  height : UpTo (2 ^ 126) s.height
  percentRadius : InUnit s.percentRadius
  pinch : InUnit s.pinch

/-- `r` is the part `t` of the way from `x` to `y`, up to `e`. -/
def Part (e : ℚ) (x y t r : F32) : Prop := |toRat r - (toRat x + (toRat y - toRat x) * toRat t)| ≤ e

variable {S : Type}

/-- The extrusion of a tip state, wherever that is valid. -/
def ext (G : Shapes S) (s : TipState) : Extrusion S := ⟨s, G.shape s⟩

/-- The last extrusion has good tangents with the one that is the part `t` of the way to the proposed one. -/
def GoodAt (G : Shapes S) (last proposed : Extrusion S) (t : F32) : Prop :=
  G.quality last (ext G (lerpShape last.state proposed.state t)) = .good

/-- The centres have not moved by the tolerance. -/
def Stationary (M : Libm) (tol : F32) (last proposed : Extrusion S) : Prop :=
  lt (M.hypot (sub proposed.state.position.x last.state.position.x) (sub proposed.state.position.y last.state.position.y)) tol = true

/-- Tangents are good up to some part of the way only. -/
def Threshold (G : Shapes S) (last proposed : Extrusion S) : Prop :=
  ∀ s t : F32, InUnit s → InUnit t → toRat s ≤ toRat t → GoodAt G last proposed t → GoodAt G last proposed s

end Verif.Constrain.Spec
