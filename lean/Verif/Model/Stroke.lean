import Verif.Model.Brush
import Verif.Model.InProgressStroke

/-!
# Model of `Stroke`

From `ink/strokes/stroke.{h,cc}`. A batch of inputs is the list of its inputs (see
`Batch.C01_call_refines_list`). The generation of a mesh by a `StrokeShapeBuilder` and the making of a
`PartitionedMesh` are parameters: whatever meshes are generated, from the input model, the coat, the size,
epsilon and the inputs. (Builders are kept between calls, in thread-local variables. That a builder
forgets the previous stroke is part of the parameter.)
-/

set_option autoImplicit false

namespace Verif.Strokes

open F32 Tip Brushes

/-! ## Equality of tips -/

/-- vec.h, point.h `operator==` -/
def pointEq (a b : PointF) : Bool := feq a.x b.x && feq a.y b.y

/-- `operator==` of two `std::vector`s. -/
def listEq {α : Type} (eq : α → α → Bool) : List α → List α → Bool
  | [], [] => true
  | a :: l, b :: l' => eq a b && listEq eq l l'
  | _, _ => false

/-- easing_function.cc:30-58 `operator==` -/
def easingEq : Easing.Fn → Easing.Fn → Bool
  | .predefined p, .predefined p' => p = p'
  | .cubicBezier c, .cubicBezier c' =>
    feq c.x1 c'.x1 && feq c.y1 c'.y1 && feq c.x2 c'.x2 && feq c.y2 c'.y2
  | .linear ps, .linear ps' => listEq pointEq ps ps'
  | .steps n p, .steps n' p' => n = n' && p = p'
  | _, _ => false

/-- brush_behavior.cc:42-145 `operator==` of nodes. -/
def nodeEq : Node → Node → Bool
  | .source s o lo hi, .source s' o' lo' hi' => s = s' && o = o' && (feq lo lo' && feq hi hi')
  | .constant v, .constant v' => feq v v'
  | .fallbackFilter p, .fallbackFilter p' => p = p'
  | .toolTypeFilter e, .toolTypeFilter e' =>
    e.unknown = e'.unknown && e.mouse = e'.mouse && e.touch = e'.touch && e.stylus = e'.stylus
  | .damping s g, .damping s' g' => s = s' && feq g g'
  | .response e, .response e' => easingEq e e'
  | .binaryOp o, .binaryOp o' => o = o'
  | .interpolation i, .interpolation i' => i = i'
  | .target t lo hi, .target t' lo' hi' => t = t' && (feq lo lo' && feq hi hi')
  | _, _ => false

/-- brush_tip.cc:31-40 `operator==` -/
def tipEq (a b : BrushTip) : Bool :=
  (feq a.scaleX b.scaleX && feq a.scaleY b.scaleY) && feq a.cornerRounding b.cornerRounding &&
  feq a.slant b.slant && feq a.pinch b.pinch && feq a.rotation b.rotation &&
  feq a.opacityMultiplier b.opacityMultiplier &&
  feq a.particleGapDistanceScale b.particleGapDistanceScale &&
  a.particleGapDuration.eq b.particleGapDuration &&
  listEq (listEq nodeEq) a.behaviors b.behaviors

/-- stroke.cc:42-53, the loop. -/
def tipsEqualLoop : List Coat → List Coat → Bool
  | [], _ => true
  | _, [] => true
  | c :: l, c' :: l' => if !listEq tipEq c.tips c'.tips then false else tipsEqualLoop l l'

/-- stroke.cc:42-53 `BrushCoatTipsAreEqual` -/
def tipsAreEqual (a b : List Coat) : Bool :=
  if a.length ≠ b.length then false else tipsEqualLoop a b

/-! ## Strokes -/

/-- What a `Stroke` uses to make a shape. -/
structure Env (Shape Mesh : Type) where
  /-- stroke.cc:173-187, with the builder. -/
  gen : InputModel → Coat → F32 → F32 → List Batch.Input → Mesh
  /-- partitioned_mesh.h `FromMutableMeshGroups`; `none` is an error. -/
  build : List Mesh → Option Shape
  /-- partitioned_mesh.h `WithEmptyGroups` -/
  empty : ℕ → Shape
  /-- partitioned_mesh.h `RenderGroupCount` -/
  groups : Shape → ℕ

/-- stroke.h:121-123 `Stroke` -/
structure Stroke (Shape C : Type) where
  brush : Brush C
  inputs : List Batch.Input
  shape : Shape

variable {Shape Mesh C : Type} (E : Env Shape Mesh)

/-- stroke.cc:147-203 `RegenerateShape` -/
def Stroke.regenerate (s : Stroke Shape C) : Stroke Shape C :=
  let coats := s.brush.family.coats
  if coats.length = 0 || s.inputs.isEmpty then { s with shape := E.empty s.brush.coatCount }
  else
    let meshes := coats.map fun c =>
      E.gen s.brush.family.inputModel c s.brush.size s.brush.epsilon s.inputs
    match E.build meshes with
    | some m => { s with shape := m }
    | none => { s with shape := E.empty s.brush.coatCount }

/-- stroke.cc:57-59, the constructor from a brush. -/
def ofBrush (b : Brush C) : Stroke Shape C := ⟨b, [], E.empty b.coatCount⟩

/-- stroke.cc:61-64, the constructor from a brush and inputs; the shape starts out as a mesh without
groups. -/
def ofInputs (b : Brush C) (inputs : List Batch.Input) : Stroke Shape C :=
  Stroke.regenerate E ⟨b, inputs, E.empty 0⟩

/-- stroke.cc:66-71, the constructor from a brush, inputs and a shape; `none` is a failed check. -/
def ofShape (b : Brush C) (inputs : List Batch.Input) (shape : Shape) : Option (Stroke Shape C) :=
  if E.groups shape = b.coatCount then some ⟨b, inputs, shape⟩ else none

/-- stroke.cc:73-78 `SetBrushAndInputs` -/
def Stroke.setBrushAndInputs (s : Stroke Shape C) (b : Brush C) (inputs : List Batch.Input) :
    Stroke Shape C :=
  Stroke.regenerate E { s with brush := b, inputs := inputs }

/-- stroke.cc:80-90 `SetBrush` -/
def Stroke.setBrush (s : Stroke Shape C) (b : Brush C) : Stroke Shape C :=
  let needsRegenerate := !feq b.size s.brush.size || !feq b.epsilon s.brush.epsilon ||
    !tipsAreEqual b.family.coats s.brush.family.coats
  let s := { s with brush := b }
  if needsRegenerate then Stroke.regenerate E s else s

/-- stroke.cc:92-99 `SetBrushFamily` -/
def Stroke.setBrushFamily (s : Stroke Shape C) (f : Family) : Stroke Shape C :=
  let needsRegenerate := !tipsAreEqual f.coats s.brush.family.coats
  let s := { s with brush := s.brush.setFamily f }
  if needsRegenerate then Stroke.regenerate E s else s

/-- stroke.cc:101 `SetBrushColor` -/
def Stroke.setBrushColor (s : Stroke Shape C) (c : C) : Stroke Shape C :=
  { s with brush := s.brush.setColor c }

/-- stroke.cc:103-113 `SetBrushSize`: the status and the stroke afterwards. -/
def Stroke.setBrushSize (s : Stroke Shape C) (size : F32) : Bool × Stroke Shape C :=
  if feq size s.brush.size then (true, s)
  else
    let r := s.brush.setSize size
    let s := { s with brush := r.2 }
    if !r.1 then (false, s) else (true, Stroke.regenerate E s)

/-- stroke.cc:115-125 `SetBrushEpsilon` -/
def Stroke.setBrushEpsilon (s : Stroke Shape C) (epsilon : F32) : Bool × Stroke Shape C :=
  if feq epsilon s.brush.epsilon then (true, s)
  else
    let r := s.brush.setEpsilon epsilon
    let s := { s with brush := r.2 }
    if !r.1 then (false, s) else (true, Stroke.regenerate E s)

/-- The argument of `SetInputs`: a batch of the caller, or the one `GetInputs` returns a reference
to. -/
inductive InputsArg where
  | given (l : List Batch.Input)
  | own

/-- stroke.cc:127-131 `SetInputs`; `none` is a failed check. -/
def Stroke.setInputs (s : Stroke Shape C) (arg : InputsArg) : Option (Stroke Shape C) :=
  let s := { s with inputs := [] }
  let inputs := match arg with
    | .given l => l
    | .own => s.inputs
  match InProgress.appendBatch s.inputs inputs with
  | none => none
  | some l => some (Stroke.regenerate E { s with inputs := l })

/-- A call on a stroke. -/
inductive StrokeOp (C : Type) where
  | setBrushAndInputs (b : Brush C) (inputs : List Batch.Input)
  | setBrush (b : Brush C)
  | setBrushFamily (f : Family)
  | setBrushColor (c : C)
  | setBrushSize (x : F32)
  | setBrushEpsilon (x : F32)
  | setInputs (arg : InputsArg)

/-- One call; `none` is a failed check. -/
def Stroke.step (s : Stroke Shape C) : StrokeOp C → Option (Bool × Stroke Shape C)
  | .setBrushAndInputs b i => some (true, s.setBrushAndInputs E b i)
  | .setBrush b => some (true, s.setBrush E b)
  | .setBrushFamily f => some (true, s.setBrushFamily E f)
  | .setBrushColor c => some (true, s.setBrushColor c)
  | .setBrushSize x => some (s.setBrushSize E x)
  | .setBrushEpsilon x => some (s.setBrushEpsilon E x)
  | .setInputs a => (s.setInputs E a).map fun s => (true, s)

/-- A history of calls. -/
def Stroke.run (s : Stroke Shape C) : List (StrokeOp C) → Option (Stroke Shape C)
  | [] => some s
  | op :: ops => match s.step E op with
    | none => none
    | some r => r.2.run ops

end Verif.Strokes
