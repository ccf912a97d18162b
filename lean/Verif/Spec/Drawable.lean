import Verif.Model.Drawable

/-!
# What drawables are

A drawable is a transform, a colour and coats, and drawables have nothing to do with each other. A recorded command has the
transform and the colour of the time of drawing.
-/

set_option autoImplicit false

namespace Verif.Render.Spec

open F32

structure SDrawable (R P : Type) where
  transform : Transform
  color : Rgba
  coats : List (Coat R P)

/-- A recorded command: a matrix, or a part of a mesh of a coat that was drawn with a transform and a colour, or a path. -/
inductive SCmd (R P : Type) where
  | matrix (t : Transform)
  | mesh (part : R) (coat : Coat R P) (t : Transform) (color : Rgba)
  | path (p : P) (opacityMultiplier : F32) (color : Rgba)

structure SState (R P : Type) where
  drawables : List (Option (SDrawable R P))
  recorded : List (SCmd R P)

variable {R P : Type}

def drawCoat (parts : R → List R) (t : Transform) (color : Rgba) : Coat R P → List (SCmd R P)
  | .mesh rest s u m mem => (parts rest).map fun r => .mesh r (.mesh rest s u m mem) t color
  | .path ps o => ps.map fun p => .path p o color

/-- What an operation does; `none` if there is no such drawable, or if one without coats is given a colour. -/
def sstep (parts : R → List R) (s : SState R P) : Op R P → Option (SState R P)
  | .create coats color t => some { s with drawables := s.drawables ++ [some ⟨t, color, coats⟩] }
  | .copy d => (s.drawables[d]?.join).map fun x => { s with drawables := s.drawables ++ [some x] }
  | .destroy d => (s.drawables[d]?.join).map fun _ => { s with drawables := s.drawables.set d none }
  | .setObjectToCanvas d t =>
    (s.drawables[d]?.join).map fun x => { s with drawables := s.drawables.set d (some { x with transform := t }) }
  | .setBrushColor d c =>
    (s.drawables[d]?.join).bind fun x =>
      if x.coats = [] then none else some { s with drawables := s.drawables.set d (some { x with color := c }) }
  | .draw d =>
    (s.drawables[d]?.join).map fun x =>
      { s with recorded := s.recorded ++ .matrix x.transform :: x.coats.flatMap (drawCoat parts x.transform x.color) }
  | .forget n => some { s with recorded := s.recorded.drop n }

def sstart : SState R P := ⟨[], []⟩

def srun (parts : R → List R) (s : SState R P) (ops : List (Op R P)) : Option (SState R P) := ops.foldlM (sstep parts) s

/-- What is at an offset of a buffer. -/
def At (b : Bytes) (offset : Nat) (v : Bytes) : Prop := (b.drop offset).take v.length = v

/-- The buffer has the values of the uniforms: of the transform the linear part by columns, the colour, the texture mapping and the
unpacking transforms. -/
structure Shows (s : SkSpec) (unpacking : List (UniformId × Bytes)) (mapping : Nat) (t : Transform) (color : Rgba) (b : Bytes) :
    Prop where
  length : b.length = s.size
  transform : ∀ u ∈ s.uniforms, u.id = .objectToCanvas → At b u.offset (floatBytes [t.a, t.d, t.b, t.e])
  color : ∀ u ∈ s.uniforms, u.id = .brushColor → At b u.offset (floatBytes [color.r, color.g, color.b, color.a])
  mapping : ∀ u ∈ s.uniforms, u.id = .textureMapping → At b u.offset (le32 mapping)
  unpacking : ∀ x ∈ unpacking, ∀ u ∈ s.uniforms, u.id = x.1 → At b u.offset x.2

/-- What Skia says of the uniforms of a specification: they are in the buffer and do not overlap. The specifications that are
created have a colour and a mapping, of the types that are asked for. -/
structure SpecOk (s : SkSpec) : Prop where
  inside : ∀ u ∈ s.uniforms, u.offset + u.type.bytes ≤ s.size
  apart : ∀ u ∈ s.uniforms, ∀ v ∈ s.uniforms, u = v ∨
    (u.id ≠ v.id ∧ (u.offset + u.type.bytes ≤ v.offset ∨ v.offset + v.type.bytes ≤ u.offset))
  types : ∀ u ∈ s.uniforms, u.type = expectedType u.id
  color : ∃ u ∈ s.uniforms, u.id = .brushColor
  mapping : ∃ u ∈ s.uniforms, u.id = .textureMapping

/-- A coat that is drawn as a mesh has unpacking transforms of different attributes. -/
def CoatOk : Coat R P → Prop
  | .mesh _ s u _ mem => SpecOk s ∧ mem.length = s.size ∧ (u.map Prod.fst).Nodup ∧
      ∀ x ∈ u, x.2.length = 16 ∧ (x.1 = .position ∨ x.1 = .sideDerivative ∨ x.1 = .forwardDerivative)
  | .path _ _ => True

def OpOk : Op R P → Prop
  | .create coats _ _ => ∀ c ∈ coats, CoatOk c
  | _ => True

/-- The recorded command is the one that is meant, with its buffer as it is now. -/
def Records (cells : List Bytes) : Cmd R P → SCmd R P → Prop
  | .setMatrix m, .matrix t =>
    m = [t.a, t.b, zero, t.c, t.d, t.e, zero, t.f, zero, zero, ofInt 1, zero, zero, zero, zero, ofInt 1]
  | .drawMesh r c, .mesh r' (.mesh _ s u m _) t color => r = r' ∧ ∃ b, (c.bind fun i => cells[i]?) = some b ∧ Shows s u m t color b
  | .drawPath p x, .path p' o color => p = p' ∧ x = { color with a := mul color.a o }
  | _, _ => False

end Verif.Render.Spec
