import Verif.Model.InProgressStroke
import Verif.Model.ShapeBuilder

/-!
# The shape builders of `InProgressStroke` and `Stroke`

The model of `InProgressStroke` keeps the calls each shape builder received; here these calls are run on the model of `StrokeShapeBuilder`, as are the
calls that `Stroke` makes to build its shape from its inputs. The partitioning of the resulting mesh is in `Model/PartitionedMesh.lean`.
-/

set_option autoImplicit false

namespace Verif.StrokeShape

open Verif F32

variable {σ E V X Col : Type}

/-- in_progress_stroke.h:291-293 `BrushCoatCount` for a brush. -/
def coats (b : Brushes.Brush Col) : Nat := b.family.coats.length

/-- in_progress_stroke.cc:153-155, the call of `ExtendStroke`. -/
def callOf (e : InProgress.Extend) : InputModeler.Call := ⟨e.real, e.pred, ⟨e.time⟩⟩

/-- in_progress_stroke.cc:72-76, stroke.cc:173-174 `StartStroke` for one coat, by a builder that may have been used before; `none` is a failed check
or an index past the coats. -/
def begin (p : ShapeBuilder.Parts Brushes.InputModel σ E V X) (old : ShapeBuilder.Builder Brushes.InputModel σ E V X) (brush : Brushes.Brush Col)
    (i : Nat) : Option (ShapeBuilder.Builder Brushes.InputModel σ E V X) := do
  let coat ← brush.family.coats[i]?
  old.start p brush.family.inputModel coat brush.size brush.epsilon

/-- stroke_input_batch.cc:373-376 `GetDuration` -/
def duration (inputs : List Batch.Input) : Duration32 :=
  match inputs.getLast?, inputs.head? with
  | some l, some f => Duration32.sub ⟨l.time⟩ ⟨f.time⟩
  | _, _ => Duration32.zero

/-- in_progress_stroke.cc:72-76, 153-155: the builder of a coat after the calls made for it since `Start`. -/
def wet (p : ShapeBuilder.Parts Brushes.InputModel σ E V X) (old : ShapeBuilder.Builder Brushes.InputModel σ E V X) (brush : Brushes.Brush Col)
    (i : Nat) (log : List InProgress.Extend) : Option (ShapeBuilder.Builder Brushes.InputModel σ E V X) :=
  (begin p old brush i).bind fun b => b.run p (log.map callOf)

/-- stroke.cc:171-176: the builder of a coat in `RegenerateShape`, for inputs that are not empty. -/
def dry (p : ShapeBuilder.Parts Brushes.InputModel σ E V X) (old : ShapeBuilder.Builder Brushes.InputModel σ E V X) (brush : Brushes.Brush Col)
    (i : Nat) (inputs : List Batch.Input) : Option (ShapeBuilder.Builder Brushes.InputModel σ E V X) :=
  (begin p old brush i).bind fun b => b.extend p ⟨inputs, [], duration inputs⟩

end Verif.StrokeShape
