import Verif.F32.Basic

/-!
# Model of the drawables of the Skia renderer

From `ink/rendering/skia/native/skia_renderer.{h,cc}` (`Drawable`) and
`ink/rendering/skia/native/internal/{mesh_drawable,mesh_uniform_data,path_drawable}.{h,cc}`.

A state has the buffers (`SkData`) that were ever allocated, the drawables of the program and what canvases have recorded and not
yet forgotten. A drawable and a recorded command hold references to buffers; `SkData::unique` counts them. `none` is a failed CHECK
or undefined behaviour.

Of Skia, a mesh specification is its uniforms with their types and offsets. Everything else that a mesh is drawn with
(specification, blender, shader, partitions) is never changed after creation and is a value of the type `R`, a path one of `P`.
Colours are in linear sRGB without premultiplied alpha (`Color::AsFloat`).
-/

set_option autoImplicit false
set_option linter.dupNamespace false

namespace Verif.Render

open F32

abbrev Bytes := List Nat

/-- mesh_specification_data.h `UniformId` -/
inductive UniformId where
  | objectToCanvas
  | brushColor
  | position
  | sideDerivative
  | forwardDerivative
  | textureMapping
  deriving DecidableEq, Repr

/-- `SkMeshSpecification::Uniform::Type`, the types that are used. -/
inductive UType where
  | float4
  | int
  deriving DecidableEq, Repr

def UType.bytes : UType → Nat
  | .float4 => 16
  | .int => 4

/-- `SkMeshSpecification::Uniform`; the name is determined by the identifier. -/
structure Uniform where
  id : UniformId
  type : UType
  offset : Nat
  deriving DecidableEq, Repr

/-- `SkMeshSpecification`, its uniforms and `uniformSize()`. -/
structure SkSpec where
  uniforms : List Uniform
  size : Nat
  deriving DecidableEq, Repr

/-- mesh_uniform_data.cc:46-61 `ExpectedSkiaUniformType` -/
def expectedType : UniformId → UType
  | .textureMapping => .int
  | _ => .float4

/-- mesh_uniform_data.cc:63-73 `FindUniformOffset`; `none` is -1. -/
def findOffset (s : SkSpec) (id : UniformId) : Option Nat :=
  (s.uniforms.find? fun u => u.id = id).bind fun u => if u.type = expectedType id then some u.offset else none

/-- geometry/affine_transform.h `AffineTransform` -/
structure Transform where
  a : F32
  b : F32
  c : F32
  d : F32
  e : F32
  f : F32
  deriving DecidableEq, Repr

/-- color.h `Color::RgbaFloat` -/
structure Rgba where
  r : F32
  g : F32
  b : F32
  a : F32
  deriving DecidableEq, Repr

/-- The bytes of a 32-bit value, least significant first. -/
def le32 (n : Nat) : Bytes := [n % 256, n / 2 ^ 8 % 256, n / 2 ^ 16 % 256, n / 2 ^ 24 % 256]

def floatBytes (l : List F32) : Bytes := l.flatMap fun x => le32 (toBits x)

/-- `std::memcpy(dst + offset, src, sizeof src)` -/
def memcpy (dst : Bytes) (offset : Nat) (src : Bytes) : Option Bytes :=
  if offset + src.length ≤ dst.length then some (dst.take offset ++ src ++ dst.drop (offset + src.length)) else none

/-- mesh_uniform_data.h:99-109, the data members; `data` is an index of `State.cells`. -/
structure UniformData where
  data : Option Nat
  transform : Option Nat
  color : Option Nat
  mapping : Option Nat
  deriving DecidableEq, Repr

/-- mesh_drawable.h:112-123 `MeshDrawable` -/
structure MeshDrawable (R : Type) where
  rest : R
  uniforms : UniformData

/-- path_drawable.h `PathDrawable` -/
structure PathDrawable (P : Type) where
  paths : List P
  opacityMultiplier : F32
  paint : Rgba

/-- skia_renderer.h `Drawable::Implementation` -/
inductive Impl (R P : Type) where
  | mesh (m : MeshDrawable R)
  | path (p : PathDrawable P)

/-- skia_renderer.h:201-208 `Drawable` -/
structure Drawable (R P : Type) where
  objectToCanvas : Transform
  impls : List (Impl R P)

/-- What a canvas records. -/
inductive Cmd (R P : Type) where
  | setMatrix (m : List F32)
  | drawMesh (rest : R) (uniforms : Option Nat)
  | drawPath (p : P) (paint : Rgba)

structure State (R P : Type) where
  cells : List Bytes
  drawables : List (Option (Drawable R P))
  recorded : List (Cmd R P)

variable {R P : Type}

def implCells : Impl R P → List Nat
  | .mesh m => m.uniforms.data.toList
  | .path _ => []

def cmdCells : Cmd R P → List Nat
  | .drawMesh _ c => c.toList
  | _ => []

def drawableCells : Option (Drawable R P) → List Nat
  | some d => d.impls.flatMap implCells
  | none => []

/-- All references to buffers. -/
def State.holders (st : State R P) : List Nat :=
  st.drawables.flatMap drawableCells ++ st.recorded.flatMap cmdCells

/-- `SkRefCntBase::unique` -/
def State.unique (st : State R P) (c : Nat) : Bool := st.holders.count c = 1

def State.impl (st : State R P) (d j : Nat) : Option (Impl R P) :=
  (st.drawables[d]?.join).bind fun dr => dr.impls[j]?

def setImpl (i : Impl R P) (j : Nat) (dr : Drawable R P) : Drawable R P := { dr with impls := dr.impls.set j i }

def State.setImpl (st : State R P) (d j : Nat) (i : Impl R P) : State R P :=
  { st with drawables := st.drawables.modify d (Option.map (Verif.Render.setImpl i j)) }

/-- mesh_uniform_data.cc:162-197, what the three setters have in common: the value `src` is set at the offset that `sel` selects,
in the implementation `j` of drawable `d`. -/
def setUniform (st : State R P) (d j : Nat) (sel : UniformData → Option Nat) (src : Bytes) : Option (State R P) :=
  (st.impl d j).bind fun i =>
    match i with
    | .path _ => none
    | .mesh m =>
      (sel m.uniforms).bind fun offset =>
        m.uniforms.data.bind fun c =>
          (st.cells[c]?).bind fun old =>
            (memcpy old offset src).map fun new =>
              if st.unique c then { st with cells := st.cells.set c new }
              else ({ st with cells := st.cells ++ [new] } : State R P).setImpl d j
                (.mesh { m with uniforms := { m.uniforms with data := some st.cells.length } })

/-- mesh_uniform_data.cc:186-197 `SetObjectToCanvasLinearComponent`, the value. -/
def transformBytes (t : Transform) : Bytes := floatBytes [t.a, t.d, t.b, t.e]

/-- mesh_uniform_data.cc:162-173 `SetBrushColor`, the value. -/
def colorBytes (c : Rgba) : Bytes := floatBytes [c.r, c.g, c.b, c.a]

/-- mesh_uniform_data.cc:175-184 `SetTextureMapping`, the value. -/
def mappingBytes (m : Nat) : Bytes := le32 m

/-- path_drawable.cc:120-127 `SetPaintColor` -/
def pathColor (opacity : F32) (c : Rgba) : Rgba := { c with a := mul c.a opacity }

def State.implCount (st : State R P) (d : Nat) : Nat := ((st.drawables[d]?.join).map fun dr => dr.impls.length).getD 0

/-- skia_renderer.cc:308-317, the body of the loop of `SetObjectToCanvas`. -/
def setTransformAt (t : Transform) (d : Nat) (st : State R P) (j : Nat) : Option (State R P) :=
  (st.impl d j).bind fun i =>
    match i with
    | .path _ => some st
    | .mesh m => if m.uniforms.transform.isSome then setUniform st d j UniformData.transform (transformBytes t) else some st

/-- skia_renderer.cc:308-317 `SetObjectToCanvas` -/
def setObjectToCanvas (st : State R P) (d : Nat) (t : Transform) : Option (State R P) :=
  (st.drawables[d]?.join).bind fun _ =>
    (List.range (st.implCount d)).foldlM (setTransformAt t d)
      { st with drawables := st.drawables.modify d (Option.map fun dr => { dr with objectToCanvas := t }) }

/-- skia_renderer.cc:336-351, the body of the loop of `SetBrushColor`, and whether it found a colour. -/
def setColorAt (color : Rgba) (d : Nat) (st : State R P × Bool) (j : Nat) : Option (State R P × Bool) :=
  (st.1.impl d j).bind fun i =>
    match i with
    | .path p => some (st.1.setImpl d j (.path { p with paint := pathColor p.opacityMultiplier color }), true)
    | .mesh m =>
      if m.uniforms.color.isSome then (setUniform st.1 d j UniformData.color (colorBytes color)).map fun s => (s, true)
      else some st

/-- skia_renderer.cc:334-353 `SetBrushColor` -/
def setBrushColor (st : State R P) (d : Nat) (color : Rgba) : Option (State R P) :=
  (st.drawables[d]?.join).bind fun _ =>
    ((List.range (st.implCount d)).foldlM (setColorAt color d) (st, false)).bind fun r =>
      if r.2 then some r.1 else none

/-- skia_renderer.cc:319-332 `HasBrushColor` -/
def hasBrushColor (dr : Drawable R P) : Bool :=
  dr.impls.any fun i =>
    match i with
    | .mesh m => m.uniforms.color.isSome
    | .path _ => true

/-- skia_renderer.cc:280-288 `ToSkiaM44` -/
def toSkiaM44 (t : Transform) : List F32 :=
  let z := zero
  let o := fin false 0x3F800000 (by decide)
  [t.a, t.b, z, t.c,
   t.d, t.e, z, t.f,
   z, z, o, z,
   z, z, z, o]

/-- mesh_drawable.cc:97-126 and path_drawable.cc:129-133 `Draw`. `parts` are the partitions of a mesh. -/
def drawImpl (parts : R → List R) : Impl R P → List (Cmd R P)
  | .mesh m => (parts m.rest).map fun r => .drawMesh r m.uniforms.data
  | .path p => p.paths.map fun q => .drawPath q p.paint

/-- skia_renderer.cc:292-298 `Draw` -/
def draw (parts : R → List R) (st : State R P) (d : Nat) : Option (State R P) :=
  (st.drawables[d]?.join).map fun dr =>
    { st with recorded := st.recorded ++ .setMatrix (toSkiaM44 dr.objectToCanvas) :: dr.impls.flatMap (drawImpl parts) }

/-- The copy constructor. -/
def copy (st : State R P) (d : Nat) : Option (State R P) :=
  (st.drawables[d]?.join).map fun dr => { st with drawables := st.drawables ++ [some dr] }

/-- The destructor. -/
def destroy (st : State R P) (d : Nat) : Option (State R P) :=
  (st.drawables[d]?.join).map fun _ => { st with drawables := st.drawables.set d none }

/-- The canvas is done with the first `n` commands. -/
def forget (st : State R P) (n : Nat) : State R P := { st with recorded := st.recorded.drop n }

/-- What a coat is drawn with, for `CreateDrawable`. `memory` is what is in the allocated memory. -/
inductive Coat (R P : Type) where
  | mesh (rest : R) (spec : SkSpec) (unpacking : List (UniformId × Bytes)) (mapping : Nat) (memory : Bytes)
  | path (paths : List P) (opacityMultiplier : F32)

/-- mesh_uniform_data.cc:92-101, the constructor, apart from the data. -/
def newUniformData (s : SkSpec) : UniformData where
  data := none
  transform := findOffset s .objectToCanvas
  color := findOffset s .brushColor
  mapping := findOffset s .textureMapping

/-- mesh_uniform_data.cc:129-147 `InitializeAttributeUnpackingTransforms`: the values of the attributes that have such a uniform. -/
def writeUnpacking (s : SkSpec) : List (UniformId × Bytes) → Bytes → Option Bytes
  | [], b => some b
  | (id, src) :: l, b =>
    match findOffset s id with
    | none => writeUnpacking s l b
    | some offset => (memcpy b offset src).bind (writeUnpacking s l)

/-- skia_renderer.cc:142-163, 236-256 and mesh_uniform_data.cc:92-160: the uniforms of a new drawable. The data has one owner, so
that the setters write into it. -/
def newMesh (s : SkSpec) (unpacking : List (UniformId × Bytes)) (color : Rgba) (mapping : Nat) (memory : Bytes) : Option Bytes :=
  if s.size = 0 then none
  else
    (writeUnpacking s unpacking (memory.take s.size)).bind fun b0 =>
      (findOffset s .brushColor).bind fun oc =>
        (memcpy b0 oc (colorBytes color)).bind fun b1 =>
          (findOffset s .textureMapping).bind fun om => memcpy b1 om (mappingBytes mapping)

/-- The implementations of a new drawable, and the buffers after their allocation. -/
def newImpls (color : Rgba) : List (Coat R P) → List Bytes → Option (List (Impl R P) × List Bytes)
  | [], cells => some ([], cells)
  | .path ps o :: l, cells =>
    (newImpls color l cells).map fun r => (.path ⟨ps, o, pathColor o color⟩ :: r.1, r.2)
  | .mesh rest s u m mem :: l, cells =>
    (newMesh s u color m mem).bind fun b =>
      (newImpls color l (cells ++ [b])).map fun r =>
        (.mesh ⟨rest, { newUniformData s with data := some cells.length }⟩ :: r.1, r.2)

/-- skia_renderer.cc:105-265 `CreateDrawable`, from the coats that are drawn; 300-306: the constructor sets the transform. -/
def create (st : State R P) (coats : List (Coat R P)) (color : Rgba) (t : Transform) : Option (State R P) :=
  (newImpls color coats st.cells).bind fun r =>
    setObjectToCanvas { st with cells := r.2, drawables := st.drawables ++ [some ⟨t, r.1⟩] } st.drawables.length t

/-- What a program does. -/
inductive Op (R P : Type) where
  | create (coats : List (Coat R P)) (color : Rgba) (t : Transform)
  | copy (d : Nat)
  | destroy (d : Nat)
  | setObjectToCanvas (d : Nat) (t : Transform)
  | setBrushColor (d : Nat) (color : Rgba)
  | draw (d : Nat)
  | forget (n : Nat)

def step (parts : R → List R) (st : State R P) : Op R P → Option (State R P)
  | .create coats color t => create st coats color t
  | .copy d => copy st d
  | .destroy d => destroy st d
  | .setObjectToCanvas d t => setObjectToCanvas st d t
  | .setBrushColor d c => setBrushColor st d c
  | .draw d => draw parts st d
  | .forget n => some (forget st n)

def start : State R P := ⟨[], [], []⟩

def run (parts : R → List R) (st : State R P) (ops : List (Op R P)) : Option (State R P) := ops.foldlM (step parts) st

end Verif.Render
