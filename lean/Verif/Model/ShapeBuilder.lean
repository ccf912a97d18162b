import Verif.Model.StrokeInputModeler
import Verif.Model.BrushTipExtruder
import Verif.Model.Brush

/-!
# Model of `StrokeShapeBuilder`

From `ink/strokes/internal/stroke_shape_builder.{h,cc}`: the modeler of inputs (`Model/StrokeInputModeler.lean`), the modeler of a tip
(`Model/BrushTipModeler.lean`) and the extruder (`Model/BrushTipExtruder.lean`) one after the other. The returned update and the bounds are in
`Model/StrokeUpdate.lean` and `Model/StrokeBounds.lean`.
-/

set_option autoImplicit false

namespace Verif.ShapeBuilder

open Verif F32

/-- What the three parts are given: the library for smoothing, `std::hypot` and the other functions of the C++ library, the tables of easing curves,
the bound of the loop over particles, the order of hash maps, whether DCHECKs are compiled; and what is extruded for a tip, which depends on the brush epsilon
and on whether the brush is one of particles with a winding texture. -/
structure Parts (I σ E V X : Type) where
  hypot : F32 → F32 → F32
  lib : InputModeler.Library I σ
  libm : Libm
  tabulate : Easing.CubicBezier → List F32
  fuel : Nat
  order : {α : Type} → List α → List α
  debug : Bool
  env : StrokeGeom.Env V X
  shapes : F32 → Bool → StrokeGeom.Tip Tip.TipState E V X

/-- stroke_shape_builder.h:113-141 the data members. `tips_` has at most one element here: its modeler is `none` before the first stroke. What the extruder
was started with is kept beside it. -/
structure Builder (I σ E V X : Type) where
  input : InputModeler.Modeler I σ
  modeler : Option Tip.Modeler
  extruder : StrokeGeom.Extruder E V X
  epsilon : F32
  winding : Bool
  outlines : List (List Nat × List Nat)

/-- stroke_shape_builder.cc:35-40 `IsWindingTextureCoat` -/
def isWindingTextureCoat (coat : Brushes.Coat) : Bool :=
  match coat.paint.layers with
  | [l] => l.mapping = Brushes.kWinding
  | _ => false

/-- stroke_shape_builder.cc:73-76 -/
def isWindingTextureParticleBrush (coat : Brushes.Coat) (tip : Tip.BrushTip) : Bool :=
  isWindingTextureCoat coat && (!feq tip.particleGapDistanceScale zero || !tip.particleGapDuration.eq Duration32.zero)

/-- The tool types of inputs in behaviors; a number that is no tool type is treated as an unknown tool. -/
def toolOf : Batch.ToolType → Tip.Tool
  | .unknown | .other _ => .unknown
  | .mouse => .mouse
  | .touch => .touch
  | .stylus => .stylus

/-- stroke_input_modeler.h:186-188 `GetState` -/
def stateOf {I σ : Type} (m : InputModeler.Modeler I σ) : Tip.MState :=
  { toolType := toolOf m.toolType
    strokeUnitLength := m.unitLength
    completeElapsedTime := m.completeElapsedTime
    completeTraveledDistance := m.completeTraveledDistance
    totalRealElapsedTime := m.totalRealElapsedTime
    totalRealDistance := m.totalRealDistance
    stableInputCount := m.stableCount
    realInputCount := m.realCount }

section

variable {I σ E V X : Type} (p : Parts I σ E V X)

namespace Builder

/-- stroke_shape_builder.cc:44-84 `StartStroke`; `none` is a failed check. -/
def start (b : Builder I σ E V X) (inputModel : I) (coat : Brushes.Coat) (size epsilon : F32) : Option (Builder I σ E V X) := do
  let input ← b.input.start inputModel epsilon
  match coat.tips with
  | [tip] =>
    let winding := isWindingTextureParticleBrush coat tip
    let modeler ← Tip.start p.tabulate tip size
    some { b with
      input := input
      modeler := some modeler
      extruder := StrokeGeom.Extruder.start p.env b.extruder.geometry.save
      epsilon := epsilon
      winding := winding
      outlines := [] }
  | _ => none

/-- stroke_shape_builder.cc:86-116 `ExtendStroke`; without a tip nothing is extruded, but then no stroke was started. -/
def extend (b : Builder I σ E V X) (c : InputModeler.Call) : Option (Builder I σ E V X) := do
  let input ← b.input.extendStroke p.hypot p.lib c.real c.pred c.now
  let modeler ← b.modeler
  let modeler ← modeler.update p.libm p.fuel (stateOf input) input.modeled
  let fixed ← modeler.newFixed
  let volatile ← modeler.volatile
  let extruder ← b.extruder.extend p.debug p.env (p.shapes b.epsilon b.winding) p.order fixed volatile
  some { b with
    input := input
    modeler := some modeler
    extruder := extruder
    outlines := extruder.outlines.filter (· ≠ ([], [])) }

/-- Some calls of `ExtendStroke`. -/
def run (b : Builder I σ E V X) : List InputModeler.Call → Option (Builder I σ E V X)
  | [] => some b
  | c :: cs => (b.extend p c).bind fun b => run b cs

/-- stroke_shape_builder.cc:118-129 `HasUnfinishedTimeBehaviors` -/
def hasUnfinishedTimeBehaviors (b : Builder I σ E V X) : Bool :=
  match b.modeler with
  | some m => m.hasUnfinishedTimeBehaviors (stateOf b.input)
  | none => false

end Builder

end

end Verif.ShapeBuilder
