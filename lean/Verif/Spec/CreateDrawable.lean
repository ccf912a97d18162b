import Verif.Model.CreateDrawable
import Verif.Spec.Drawable
import Verif.Spec.ShaderCache

/-!
# What is drawn of a stroke

The coats that have something to draw, in order: with a context as meshes with the textures of their paints, without one as polygons.
-/

set_option autoImplicit false

namespace Verif.Render.Spec

open Verif.Textures (Request Bitmap getPaintBlender)
open Verif.Textures.Spec (Known serveAll ResultOk)

variable {U E W F D SE Q B : Type} [DecidableEq U]

/-- What a coat of a stroke consists of. -/
inductive Geometry (F Q B : Type) where
  | wet (m : WetCoat Q B)
  | dry (g : Group F Q B)

/-- There is something to draw: a stroke in progress has bounds there, a stroke meshes. -/
def Geometry.hasContent : Geometry F Q B → Bool
  | .wet m => m.bounds.isSome
  | .dry g => !g.meshes.isEmpty

/-- The coats of a call that have something to draw, in order. -/
def visible : Call U F Q B → List (BrushCoat U × Geometry F Q B)
  | .wet none _ => []
  | .wet (some (_, coats)) ms => (coats.zip (ms.map .wet)).filter fun x => x.2.hasContent
  | .dry _ coats gs => (coats.zip (gs.map .dry)).filter fun x => x.2.hasContent

/-- Size and inputs, for the textures. -/
def request (call : Call U F Q B) (c : BrushCoat U) : Request U :=
  match call with
  | .wet none _ => ⟨c.layers, 0, []⟩
  | .wet (some (b, _)) _ => ⟨c.layers, b.size, b.inputs⟩
  | .dry b _ _ => ⟨c.layers, b.size, b.inputs⟩

/-- The 16-bit numbers in a buffer. -/
def words : Bytes → List Nat
  | a :: b :: l => (a + 256 * b) :: words l
  | _ => []

/-! ## Paths -/

/-- The positions on the outlines of a coat; empty outlines do not matter. -/
def outlinePositions : Geometry F Q B → List (List (Option Q))
  | .wet m => (m.outlines.filter (· ≠ [])).map fun o => o.map fun i => m.positions[i]?
  | .dry g => (g.outlines.filter (· ≠ [])).map fun o => o.map fun i => (g.meshes[i.1]?).bind fun m => m.positions[i.2]?

/-- The coat is drawn as the polygons of its outlines, with the opacity of its tip. -/
def PathOf (x : Coat (MeshRest B) (List Q)) (v : BrushCoat U × Geometry F Q B) : Prop :=
  ∃ paths opacity, x = .path paths opacity ∧ v.1.tips.head? = some opacity ∧
    paths.map (fun p => p.map some) = outlinePositions v.2

/-! ## Meshes -/

/-- The partition has the vertices and triangles of the mesh. -/
def DryPart (p : Partition B) (m : DryMesh Q B) : Prop :=
  p.vertexBuffer = m.vertexData ∧ p.indexBuffer = m.indexData ∧ p.vertexCount = m.positions.length ∧
    p.indexCount = 3 * m.triangleCount ∧ m.bounds = some p.bounds

def WetPart (p : Partition B) (m : WetCoat Q B) : Prop :=
  p.vertexBuffer = m.vertexData ∧ words p.indexBuffer = m.triangles.flatten ∧ p.vertexCount = m.positions.length ∧
    p.indexCount = m.triangles.flatten.length ∧ m.bounds = some p.bounds

/-- The specification of a coat. -/
def SpecIs (env : RenderEnv U E W F D SE B) (s : SkSpec) : Geometry F Q B → Prop
  | .wet _ => env.compile env.wetSpecData = some s
  | .dry g => ∃ d, env.specData g.format = .ok d ∧ env.compile d = some s

/-- The partitions are those of the coat. -/
def PartsOf (ps : List (Partition B)) : Geometry F Q B → Prop
  | .wet m => ∃ p, ps = [p] ∧ WetPart p m
  | .dry g => List.Forall₂ DryPart ps g.meshes

/-- A stroke in progress is not packed; the parameters of a stroke are those of the first mesh. -/
def UnpackingOf (u : List (UniformId × Bytes)) : Geometry F Q B → Prop
  | .wet _ => u = []
  | .dry g => ∃ m, g.meshes.head? = some m ∧ u = m.unpacking

/-- Tiling is 0, winding is 1, by the first layer. -/
def MappingOf (n : Nat) (layers : List (Textures.Layer U)) : Prop :=
  n = if (layers.head?.map fun l => l.winding) = some true then 1 else 0

/-- The coat is drawn as its meshes, with the shader for its paint if the textures are these. -/
def MeshOf (env : RenderEnv U E W F D SE B) (call : Call U F Q B) (x : Coat (MeshRest B) (List Q))
    (v : (BrushCoat U × Geometry F Q B) × Except (Textures.Err E) (List Bitmap)) : Prop :=
  ∃ rest unpacking mapping,
    x = .mesh rest rest.spec unpacking mapping (env.memory rest.spec) ∧ SpecIs env rest.spec v.1.2 ∧
    ResultOk (.ok rest.shader) (request call v.1.1) v.2 ∧ rest.blender = getPaintBlender v.1.1.layers ∧
    PartsOf rest.partitions v.1.2 ∧ (∀ p ∈ rest.partitions, env.makeIndexed rest.spec p = true) ∧ UnpackingOf unpacking v.1.2 ∧
    MappingOf mapping v.1.1.layers

/-- The coat cannot be drawn, for this reason. -/
def Fails (env : RenderEnv U E W F D SE B) (v : BrushCoat U × Geometry F Q B) (t : Except (Textures.Err E) (List Bitmap))
    (e : CreateErr E SE) : Prop :=
  match t, v.2 with
  | .error x, _ => e = .texture x
  | .ok _, .wet m => (e = .tooManyVertices ∧ 65535 ≤ m.positions.length) ∨
      (e = .skia ∧ m.positions.length < 65535 ∧ ∃ s p, SpecIs env s v.2 ∧ WetPart p m ∧ env.makeIndexed s p = false)
  | .ok _, .dry g => (∃ x, e = .spec x ∧ env.specData g.format = .error x) ∨
      (e = .skia ∧ ∃ s p m, SpecIs env s v.2 ∧ m ∈ g.meshes ∧ DryPart p m ∧ env.makeIndexed s p = false)

/-! ## Calls -/

abbrev Result (E SE Q B : Type) := Except (CreateErr E SE) (List (Coat (MeshRest B) (List Q)))

/-- Without a context all coats are drawn as paths. -/
def CpuOutcome (call : Call U F Q B) (r : Result E SE Q B) : Prop :=
  ∃ coats, r = .ok coats ∧ List.Forall₂ PathOf coats (visible call)

/-- With a context, and if the textures of the first coats, which were asked for, are these: all coats are drawn as meshes, or one
fails after the coats before it. -/
def GpuOutcome (env : RenderEnv U E W F D SE B) (call : Call U F Q B) (asked : List (Except (Textures.Err E) (List Bitmap)))
    (r : Result E SE Q B) : Prop :=
  (∃ coats, r = .ok coats ∧ asked.length = (visible call).length ∧
      List.Forall₂ (MeshOf env call) coats ((visible call).zip asked)) ∨
    ∃ n e v t, r = .error e ∧ asked.length = n + 1 ∧ (visible call)[n]? = some v ∧ asked[n]? = some t ∧ Fails env v t e ∧
      ∃ coats, List.Forall₂ (MeshOf env call) coats (((visible call).take n).zip asked)

/-- The results of calls, one after the other; what is known are the bitmaps of textures. -/
def Served (env : RenderEnv U E W F D SE B) :
    List (Bool × Call U F Q B) → List (Result E SE Q B) → Known U W → Known U W → Prop
  | [], [], k, k' => k' = k
  | (false, c) :: cs, r :: rs, k, k' => CpuOutcome c r ∧ Served env cs rs k k'
  | (true, c) :: cs, r :: rs, k, k' => ∃ asked k1,
      serveAll env.textures (((visible c).take asked.length).map fun v => request c v.1) k = some (asked, k1) ∧
      GpuOutcome env c asked r ∧ Served env cs rs k1 k'
  | _, _, _, _ => False

/-! ## What strokes are like -/

/-- A coat of a stroke in progress: outlines and triangles refer to vertices, triangles have three corners. -/
def WetOk (m : WetCoat Q B) : Prop :=
  (∀ o ∈ m.outlines, ∀ i ∈ o, i < m.positions.length) ∧ ∀ t ∈ m.triangles, t.length = 3 ∧ ∀ i ∈ t, i < m.positions.length

/-- A group of a stroke: the meshes are not empty, and outlines refer to vertices. -/
def GroupOk (g : Group F Q B) : Prop :=
  (∀ m ∈ g.meshes, m.bounds ≠ none) ∧
    ∀ o ∈ g.outlines, ∀ i ∈ o, ∃ m, g.meshes[i.1]? = some m ∧ i.2 < m.positions.length

/-- A stroke has a group for each coat, or none; each coat has a tip. -/
def CallOk : Call U F Q B → Prop
  | .wet none _ => True
  | .wet (some (_, coats)) ms => coats.length ≤ ms.length ∧ (∀ c ∈ coats, c.tips ≠ []) ∧ ∀ m ∈ ms, WetOk m
  | .dry _ coats gs => (gs = [] ∨ gs.length = coats.length) ∧ (∀ c ∈ coats, c.tips ≠ []) ∧ ∀ g ∈ gs, GroupOk g

end Verif.Render.Spec
