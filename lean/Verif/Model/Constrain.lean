import Verif.Model.BrushBehavior

/-!
# Model of `ConstrainBrushTipExtrusion`, in binary32

From `ink/strokes/internal/constrain_brush_tip_extrusion.{h,cc}`, `BrushTipState::LerpShapeAttributes`
(`ink/strokes/internal/brush_tip_state.cc`) and the checks of the constructor of `BrushTipShape`.

The shape of a tip state and `BrushTipExtrusion::EvaluateTangentQuality` (for the tolerance of the call) are parameters
(`Shapes`): every theorem holds whatever they are. `none` is a failed CHECK or DCHECK; `debug` says whether DCHECKs are
compiled. The tolerance, `0.1 * min_nonzero_radius_and_separation`, is a parameter.
-/

set_option autoImplicit false

namespace Verif.Constrain

open F32 Verif.Tip

/-- brush_tip_extrusion.h:51-62 `TangentQuality` -/
inductive Quality where
  | firstContainsSecond
  | secondContainsFirst
  | bad
  | good
  deriving DecidableEq, Repr

/-- brush_tip_extrusion.h `BrushTipExtrusion`, one that is not default-constructed. -/
structure Extrusion (S : Type) where
  state : TipState
  shape : S
  deriving DecidableEq, Repr

/-- What is not modelled of shapes. -/
structure Shapes (S : Type) where
  /-- brush_tip_shape.cc:66-140, the constructor after its checks. -/
  shape : TipState → S
  /-- brush_tip_extrusion.cc `EvaluateTangentQuality` -/
  quality : Extrusion S → Extrusion S → Quality

variable {S : Type}

/-- brush_tip_shape.cc:68-73, the checks of the constructor. -/
def checked (s : TipState) : Bool :=
  ge s.width zero && ge s.height zero && ge s.percentRadius zero && le s.percentRadius one &&
    ge s.pinch zero && le s.pinch one

/-- brush_tip_extrusion.h, the constructor from a tip state: constructs a `BrushTipShape`. -/
def newExtrusion (G : Shapes S) (s : TipState) : Option (Extrusion S) :=
  if checked s then some ⟨s, G.shape s⟩ else none

/-- brush_tip_state.cc:21-40 `LerpShapeAttributes` -/
def lerpShape (a b : TipState) (t : F32) : TipState where
  position := b.position
  width := lerpF a.width b.width t
  height := lerpF a.height b.height t
  percentRadius := lerpF a.percentRadius b.percentRadius t
  rotation := normalizedAngleLerp a.rotation b.rotation t
  slant := lerpAngle a.slant b.slant t
  pinch := lerpF a.pinch b.pinch t
  hueOffset := b.hueOffset
  saturation := b.saturation
  luminosity := b.luminosity
  opacity := b.opacity

/-- constrain_brush_tip_extrusion.h:25-50 `ResultType` -/
inductive ResultType where
  | proposedIsValid
  | constrainedFound
  | proposedContainsLast
  | lastContainsProposed
  | cannotFind
  deriving DecidableEq, Repr

/-- constrain_brush_tip_extrusion.h:22-63 `ConstrainedBrushTipExtrusion`; `none` is a default-constructed extrusion. -/
structure Result (S : Type) where
  type : ResultType
  lerpAmount : F32
  extrusion : Option (Extrusion S)
  deriving DecidableEq, Repr

/-- The local variables of the search, constrain_brush_tip_extrusion.cc:98-100. -/
structure Search (S : Type) where
  lower : F32
  upper : F32
  best : Extrusion S

/-- constrain_brush_tip_extrusion.cc:108-127, the body of the loop. -/
def step (debug : Bool) (G : Shapes S) (last proposed : Extrusion S) (c : Search S) : Option (Search S) :=
  if debug && !(decide (G.quality last c.best = .good) && le c.lower c.upper) then none
  else
    let next := lerpF c.lower c.upper half
    (newExtrusion G (lerpShape last.state proposed.state next)).map fun guess =>
      if G.quality last guess = .good then { c with lower := next, best := guess }
      else { c with upper := next }

/-- constrain_brush_tip_extrusion.cc:108-127, the loop. -/
def search (debug : Bool) (G : Shapes S) (last proposed : Extrusion S) : ℕ → Search S → Option (Search S)
  | 0, c => some c
  | n + 1, c => (step debug G last proposed c).bind (search debug G last proposed n)

/-- geometry/distance.cc `Distance(Point, Point)` -/
def distance (M : Libm) (a b : PointF) : F32 := M.hypot (sub b.x a.x) (sub b.y a.y)

/-- constrain_brush_tip_extrusion.cc:33-135 `ConstrainBrushTipExtrusion`, with `kStationaryTol = tol`. -/
def constrain (debug : Bool) (M : Libm) (G : Shapes S) (tol : F32) (last proposed : Extrusion S) (maxIterations : ℤ) :
    Option (Result S) :=
  match G.quality last proposed with
  | .firstContainsSecond => some ⟨.lastContainsProposed, negOne, none⟩
  | .secondContainsFirst => some ⟨.proposedContainsLast, negOne, none⟩
  | .good => some ⟨.proposedIsValid, negOne, none⟩
  | .bad =>
    if lt (distance M last.state.position proposed.state.position) tol then some ⟨.cannotFind, negOne, none⟩
    else
      (newExtrusion G (lerpShape last.state proposed.state zero)).bind fun e =>
        if G.quality last e ≠ .good then some ⟨.cannotFind, negOne, none⟩
        else
          (search debug G last proposed maxIterations.toNat ⟨zero, one, e⟩).map fun c =>
            ⟨.constrainedFound, c.lower, some c.best⟩

end Verif.Constrain
