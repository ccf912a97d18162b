import Verif.Model.Drawable
import Verif.Model.ShaderCache

/-!
# Model of the creation of drawables from strokes

From `ink/rendering/skia/native/skia_renderer.cc` (`CreateDrawable`),
`ink/rendering/skia/native/internal/{mesh_specification_cache,mesh_drawable,path_drawable}.cc`.

The result is the list of coats with which `Verif.Render.create` makes a drawable. Of a brush, a mesh and a stroke there is what
the renderer reads. `none` is a failed CHECK or undefined behaviour. Buffers of Skia hold copies of the bytes, and creating them
does not fail. `F` are the formats of meshes, `D` the data of mesh specifications, `Q` the positions and `B` the rectangles.
-/

set_option autoImplicit false

namespace Verif.Render

open Verif.Textures (Shader SkBlendMode getPaintShader getPaintBlender)

/-- brush_coat.h `BrushCoat`: the opacity multipliers of the tips and the layers of the paint. -/
structure BrushCoat (U : Type) where
  tips : List F32
  layers : List (Textures.Layer U)

/-- brush.h `Brush`, with the inputs of the stroke. -/
structure BrushInfo where
  color : Rgba
  size : ℚ
  inputs : List (Geo.Pt ℚ)

/-- mesh.h `Mesh` -/
structure DryMesh (Q B : Type) where
  vertexData : Bytes
  indexData : Bytes
  triangleCount : Nat
  positions : List Q
  bounds : Option B
  unpacking : List (UniformId × Bytes)

/-- A render group of partitioned_mesh.h `PartitionedMesh`. -/
structure Group (F Q B : Type) where
  format : F
  meshes : List (DryMesh Q B)
  outlines : List (List (Nat × Nat))

/-- A coat of in_progress_stroke.h `InProgressStroke`: `GetMesh`, `GetCoatOutlines` and `GetMeshBounds`. -/
structure WetCoat (Q B : Type) where
  vertexData : Bytes
  positions : List Q
  triangles : List (List Nat)
  outlines : List (List Nat)
  bounds : Option B

/-- mesh_drawable.h:50-60 `MeshDrawable::Partition` -/
structure Partition (B : Type) where
  vertexBuffer : Bytes
  indexBuffer : Bytes
  vertexCount : Nat
  indexCount : Nat
  bounds : B

/-- mesh_drawable.h:112-122, what a mesh is drawn with besides its uniforms. -/
structure MeshRest (B : Type) where
  spec : SkSpec
  blender : Option SkBlendMode
  shader : Option Shader
  partitions : List (Partition B)

/-- The errors of `CreateDrawable`. -/
inductive CreateErr (E SE : Type) where
  | texture (e : Textures.Err E)
  | spec (e : SE)
  | tooManyVertices
  | skia

/-- What is outside: the textures, `MeshSpecificationData::CreateForStroke`, `CreateForInProgressStroke`,
`CreateMeshSpecification`, whether `SkMesh::MakeIndexed` returns a mesh, and what is in allocated memory. -/
structure RenderEnv (U E W F D SE B : Type) where
  textures : Option (Textures.Env U E W)
  specData : F → Except SE D
  wetSpecData : D
  compile : D → Option SkSpec
  makeIndexed : SkSpec → Partition B → Bool
  memory : SkSpec → Bytes

/-- skia_renderer.h `SkiaRenderer`, the caches; mesh_specification_cache.h:69-71. -/
structure Renderer (U W F : Type) where
  shaders : Textures.Cache U W
  wetSpec : Option SkSpec
  specs : F → Option SkSpec

variable {U E W F D SE Q B : Type} [DecidableEq U] [DecidableEq F]

/-- mesh_specification_cache.cc:35-55 `GetFor` -/
def getWetSpec (env : RenderEnv U E W F D SE B) (r : Renderer U W F) : Option (SkSpec × Renderer U W F) :=
  match r.wetSpec with
  | some s => some (s, r)
  | none => (env.compile env.wetSpecData).map fun s => (s, { r with wetSpec := some s })

/-- mesh_specification_cache.cc:57-87 `GetForStroke`, for a group with meshes. -/
def getSpec (env : RenderEnv U E W F D SE B) (r : Renderer U W F) (format : F) : Option (Except SE SkSpec × Renderer U W F) :=
  match r.specs format with
  | some s => some (.ok s, r)
  | none =>
    match env.specData format with
    | .error e => some (.error e, r)
    | .ok d => (env.compile d).map fun s => (.ok s, { r with specs := Function.update r.specs format (some s) })

/-- path_drawable.cc:36-54 and 56-77 `MakePolygonPath`: the corners of the polygon. -/
def makePolygonPath {I : Type} (position : I → Option Q) (outline : List I) : Option (List Q) := outline.mapM position

/-- path_drawable.cc:86-99 and 101-118, the constructors: the paths. -/
def makePaths {I : Type} (position : I → Option Q) (outlines : List (List I)) : Option (List (List Q)) :=
  (outlines.filter fun o => !o.isEmpty).mapM (makePolygonPath position)

/-- skia_renderer.cc:63-72 `FillTemporaryIndices`, as bytes; the indices are converted to `uint16_t`. -/
def fillIndices (triangles : List (List Nat)) : Bytes :=
  triangles.flatMap fun t => t.flatMap fun i => [i % 2 ^ 16 % 256, i % 2 ^ 16 / 256]

/-- skia_renderer.cc:108-112 `GetBrushPaintTextureMapping` -/
def paintMapping (layers : List (Textures.Layer U)) : Nat :=
  match layers with
  | l :: _ => if l.winding then 1 else 0
  | [] => 0

/-- skia_renderer.cc:95-97 `OpacityMultiplierForPath` -/
def pathOpacity (c : BrushCoat U) : Option F32 := c.tips.head?

/-- mesh_drawable.cc:57-75 and 79-95 `MeshDrawable::Create` -/
def createMesh (env : RenderEnv U E W F D SE B) (spec : SkSpec) (layers : List (Textures.Layer U)) (shader : Option Shader)
    (partitions : List (Partition B)) (unpacking : List (UniformId × Bytes)) :
    Except (CreateErr E SE) (Coat (MeshRest B) (List Q)) :=
  if partitions.all (env.makeIndexed spec) then
    .ok (.mesh ⟨spec, getPaintBlender layers, shader, partitions⟩ spec unpacking (paintMapping layers) (env.memory spec))
  else .error .skia

abbrev Created (U E W F SE Q B : Type) := Except (CreateErr E SE) (List (Coat (MeshRest B) (List Q))) × Renderer U W F

/-- What a coat gives, and then the rest of the loop. -/
def pushCoat (x : Coat (MeshRest B) (List Q)) (rest : Option (Created U E W F SE Q B)) : Option (Created U E W F SE Q B) :=
  rest.map fun y =>
    match y with
    | (.error e, r) => (.error e, r)
    | (.ok l, r) => (.ok (x :: l), r)

/-- skia_renderer.cc:132-180, the loop of `CreateDrawable` for an `InProgressStroke`. `gpu` says that there is a context. -/
def wetLoop (env : RenderEnv U E W F D SE B) (gpu : Bool) (brush : BrushInfo) :
    List (BrushCoat U) → List (WetCoat Q B) → Renderer U W F → Option (Created U E W F SE Q B)
  | [], _, r => some (.ok [], r)
  | _ :: _, [], _ => none
  | c :: cs, m :: ms, r =>
    match m.bounds with
    | none => wetLoop env gpu brush cs ms r
    | some bounds =>
      if !gpu then
        (pathOpacity c).bind fun o =>
          (makePaths (fun i => m.positions[i]?) m.outlines).bind fun ps =>
            pushCoat (.path ps o) (wetLoop env gpu brush cs ms r)
      else
        (getPaintShader env.textures r.shaders c.layers brush.size brush.inputs).bind fun x =>
          let r := { r with shaders := x.2 }
          match x.1 with
          | .error e => some (.error (.texture e), r)
          | .ok shader =>
            (getWetSpec env r).bind fun y =>
              if m.positions.length ≥ 65535 then some (.error .tooManyVertices, y.2)
              else
                match createMesh env y.1 c.layers shader
                    [⟨m.vertexData, fillIndices m.triangles, m.positions.length, 3 * m.triangles.length, bounds⟩] [] with
                | .error e => some (.error e, y.2)
                | .ok x => pushCoat x (wetLoop env gpu brush cs ms y.2)

/-- skia_renderer.cc:222-234, a partition; the bounds of a mesh without vertices are dereferenced. -/
def dryPartition (m : DryMesh Q B) : Option (Partition B) :=
  m.bounds.map fun b => ⟨m.vertexData, m.indexData, m.positions.length, 3 * m.triangleCount, b⟩

/-- skia_renderer.cc:198-259, the loop of `CreateDrawable` for a `Stroke`. -/
def dryLoop (env : RenderEnv U E W F D SE B) (gpu : Bool) (brush : BrushInfo) :
    List (BrushCoat U) → List (Group F Q B) → Renderer U W F → Option (Created U E W F SE Q B)
  | [], _, r => some (.ok [], r)
  | _ :: _, [], _ => none
  | c :: cs, g :: gs, r =>
    match g.meshes with
    | [] => dryLoop env gpu brush cs gs r
    | first :: _ =>
      if !gpu then
        (pathOpacity c).bind fun o =>
          (makePaths (fun (i : Nat × Nat) => (g.meshes[i.1]?).bind fun m => m.positions[i.2]?) g.outlines).bind fun ps =>
            pushCoat (.path ps o) (dryLoop env gpu brush cs gs r)
      else
        (getPaintShader env.textures r.shaders c.layers brush.size brush.inputs).bind fun x =>
          let r := { r with shaders := x.2 }
          match x.1 with
          | .error e => some (.error (.texture e), r)
          | .ok shader =>
            (getSpec env r g.format).bind fun y =>
              match y.1 with
              | .error e => some (.error (.spec e), y.2)
              | .ok spec =>
                (g.meshes.mapM dryPartition).bind fun ps =>
                  match createMesh env spec c.layers shader ps first.unpacking with
                  | .error e => some (.error e, y.2)
                  | .ok x => pushCoat x (dryLoop env gpu brush cs gs y.2)

/-- A call of `CreateDrawable`: of a stroke in progress that may not have a brush yet, or of a stroke. -/
inductive Call (U F Q B : Type) where
  | wet (brush : Option (BrushInfo × List (BrushCoat U))) (coats : List (WetCoat Q B))
  | dry (brush : BrushInfo) (coats : List (BrushCoat U)) (groups : List (Group F Q B))

/-- skia_renderer.cc:121-183 and 185-262 `CreateDrawable`, up to the constructor of the drawable. -/
def createCoats (env : RenderEnv U E W F D SE B) (gpu : Bool) (r : Renderer U W F) :
    Call U F Q B → Option (Created U E W F SE Q B)
  | .wet none _ => some (.ok [], r)
  | .wet (some (brush, coats)) ms => wetLoop env gpu brush coats ms r
  | .dry brush coats groups => if groups.isEmpty then some (.ok [], r) else dryLoop env gpu brush coats groups r

/-- Calls, one after the other; the results. -/
def createAll (env : RenderEnv U E W F D SE B) : List (Bool × Call U F Q B) → Renderer U W F →
    Option (List (Except (CreateErr E SE) (List (Coat (MeshRest B) (List Q)))) × Renderer U W F)
  | [], r => some ([], r)
  | (gpu, c) :: cs, r =>
    (createCoats env gpu r c).bind fun x => (createAll env cs x.2).map fun y => (x.1 :: y.1, y.2)

/-- skia_renderer.cc:116-119, the constructor. -/
def newRenderer (w : W) : Renderer U W F := ⟨Textures.newCache w, none, fun _ => none⟩

end Verif.Render
