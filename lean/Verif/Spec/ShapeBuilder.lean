import Verif.Model.ShapeBuilder
import Verif.Spec.TipModeler
import Verif.Spec.BrushTipExtruder
import Verif.Spec.StrokeInputModeler

/-!
# Specification for C81: what can be seen of a stroke that is drawn in steps

Hypotheses and results, in terms of the inputs given and the shape built.
-/

set_option autoImplicit false

namespace Verif.ShapeBuilder.Spec

open Verif F32

variable {I σ E V X C : Type}

/-- What is drawn: the extrusions, the mesh (with the vertices up to `core`) with its sides, and the outlines. -/
def drawn (core : V → C) (b : Builder I σ E V X) :=
  (b.extruder.extrusions, StrokeGeom.Spec.contents core b.extruder.geometry, b.outlines)

/-- A tip which does not look at the end of the stroke (nor, without waiting for the next input, at the direction). -/
structure Steady (tip : Tip.BrushTip) : Prop where
  sources : ∀ s ∈ TipSpec.sources tip, TipSpec.ofTheEnd s = false
  direction : (∃ s ∈ TipSpec.sources tip, TipSpec.isDirection s = true) ∨ ∀ t ∈ TipSpec.targets tip, TipSpec.alongDirection t = false

/-- A brush of this size draws a continuous line and not particles. -/
def Continuous (tip : Tip.BrushTip) (size : F32) : Prop :=
  feq (mul tip.particleGapDistanceScale size) zero = true ∧ tip.particleGapDuration.eq Duration32.zero = true

/-- Tip states without width and height, as there are between particles, are too small to be drawn (brush_tip_extruder.cc:452). -/
def EmptyIsSmall (p : Parts I σ E V X) : Prop :=
  ∀ e w (t : Tip.TipState), gt e zero = true → t.width = zero → t.height = zero → (p.shapes e w).small t = true

/-- A call without inputs: only time goes on. -/
def idle (c : InputModeler.Call) : Bool := c.real.isEmpty && c.pred.isEmpty

/-- The first call with inputs has a real one. -/
def BeginsReal (cs : List InputModeler.Call) : Prop := ∀ c ∈ cs.find? (fun c => !idle c), c.real ≠ []

/-- The prediction shown after some calls is `P`: that of the last call with inputs or, if there were calls without inputs since, none. These take
back a prediction only if it can be seen in the modeled inputs (see `C81_withdrawn_counterexample`). -/
def Shows (p : Parts I σ E V X) (b : Builder I σ E V X) (cs : List InputModeler.Call) (P : List Batch.Input) : Prop :=
  ∃ before c later, cs = before ++ c :: later ∧ idle c = false ∧ later.all idle = true ∧
    ((later = [] ∧ P = c.pred) ∨ (later ≠ [] ∧ P = [] ∧
      (c.pred = [] ∨ ∀ x, b.run p (before ++ [c]) = some x → x.input.realCount < x.input.modeled.length)))

/-- After each of some calls there is nothing modeled yet or there is a modeled input which is not stable. -/
def NeverSettled (p : Parts I σ E V X) (b : Builder I σ E V X) (cs : List InputModeler.Call) : Prop :=
  ∀ done, done <+: cs → ∀ x, b.run p done = some x → x.input.modeled ≠ [] → x.input.stableCount < x.input.modeled.length

/-- Among the stable inputs none is later than the last one, and distances and times are numbers. -/
def TimesAscend (m : InputModeler.Modeler I σ) : Prop :=
  ∀ l ∈ (m.modeled.take m.stableCount).getLast?, ∀ i ∈ m.modeled.take m.stableCount,
    i.traveledDistance.isFinite = true ∧ i.elapsedTime.seconds.isFinite = true ∧ le i.elapsedTime.seconds l.elapsedTime.seconds = true

end Verif.ShapeBuilder.Spec
