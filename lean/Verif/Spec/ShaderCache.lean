import Verif.Model.ShaderCache
import Mathlib.Data.List.Forall2
import Mathlib.Algebra.Order.Group.Unbundled.Abs

/-!
# What a textured paint looks like

A texture store is asked for a bitmap until it gives a valid one, and that one is used for ever. A paint is a term over its layers:
the layers up to one, combined with the next, by the blend mode of the former.
-/

set_option autoImplicit false

namespace Verif.Textures.Spec

open Geo

/-! ## Bitmaps -/

/-- bitmap.h: "To be valid", apart from the enumerations of colours. -/
def ValidBitmap (b : Bitmap) : Prop :=
  0 < b.width ∧ 0 < b.height ∧ b.pixelFormat = 0 ∧ (b.pixels.length : Int) = 4 * b.width * b.height

/-- The enumerations of colours are valid. -/
def ValidColors (b : Bitmap) : Prop := b.colorFormat ≤ 2 ∧ b.colorSpace ≤ 1

/-- A width and a height are of type `int`. -/
def IntSize (b : Bitmap) : Prop := b.width < 2 ^ 31 ∧ b.height < 2 ^ 31

/-- The image of a bitmap: the same pixels; premultiplied if the format (2) is, and with the sRGB transfer function only if it is
gamma encoded (1). -/
def Shows (i : Image) (b : Bitmap) : Prop :=
  i.width = b.width ∧ i.height = b.height ∧ i.pixels = b.pixels ∧ (i.alpha = .premul ↔ b.colorFormat = 2) ∧
    (i.space.linear = false ↔ b.colorFormat = 1) ∧ (i.space.displayP3 = true ↔ b.colorSpace = 1)

/-! ## Places -/

/-- Where a texel of a shader of a layer is. -/
def place : Shader → Pt ℚ → Option (Pt ℚ)
  | .image _ _ _ m, p => some (m.apply p)
  | .withLocalMatrix m s, p => (place s p).map m.apply
  | .blend _ _ _, _ => none

/-- The origin of a texture: that of stroke space, or the first or the last input. -/
def originOf {U : Type} (l : Layer U) (inputs : List (Pt ℚ)) : Pt ℚ :=
  match l.origin with
  | .strokeSpace => ⟨0, 0⟩
  | .firstInput => inputs.head?.getD ⟨0, 0⟩
  | .lastInput => inputs.getLast?.getD ⟨0, 0⟩

/-- The length of a unit of a layer. -/
def unitOf {U : Type} (l : Layer U) (brushSize : ℚ) : ℚ := if l.sizeUnit = .brushSize then brushSize else 1

/-- Where a texel of an image of `w` times `h` texels is: the image covers `size` units from the origin on, shifted by the offset
as a fraction of the size. -/
def texelPlace {U : Type} (l : Layer U) (brushSize : ℚ) (inputs : List (Pt ℚ)) (w h : ℚ) (p : Pt ℚ) : Pt ℚ :=
  ⟨(originOf l inputs).x + unitOf l brushSize * l.size.x * (p.x / w + l.offset.x),
   (originOf l inputs).y + unitOf l brushSize * l.size.y * (p.y / h + l.offset.y)⟩

/-- Skia's documentation of `SkTileMode` (not in the repository): the texel among `n` that is shown at the place of the texel `k`;
none is transparent. -/
def skTile : SkTileMode → Int → Int → Option Int
  | .clamp, n, k => some (if k < 0 then 0 else if n ≤ k then n - 1 else k)
  | .repeat, n, k => some (k % n)
  | .mirror, n, k => some (if k % (2 * n) < n then k % (2 * n) else 2 * n - 1 - k % (2 * n))
  | .decal, n, k => if 0 ≤ k ∧ k < n then some k else none

/-- brush_paint.h:83-101: the texel `t` among `n` is the one that a texture shows at the place of the texel `k`. Repeated: they are a
number of images apart. Mirrored: an even number of images, or mirror images of one another. Clamped: the nearest one. -/
def Wrapped (w : Wrap) (n k t : Int) : Prop :=
  0 ≤ t ∧ t < n ∧
    match w with
    | .repeat => n ∣ k - t
    | .mirror => 2 * n ∣ k - t ∨ 2 * n ∣ k + t + 1
    | .clamp => ∀ t', 0 ≤ t' → t' < n → |k - t| ≤ |k - t'|

/-! ## Colours -/

/-- A colour with premultiplied alpha, of any channel. -/
structure Premul where
  color : ℚ
  alpha : ℚ
  deriving DecidableEq

/-- Skia's documentation of `SkBlendMode` (not in the repository). -/
def skBlend : SkBlendMode → Premul → Premul → Premul
  | .src, s, _ => s
  | .dst, _, d => d
  | .srcOver, s, d => ⟨s.color + (1 - s.alpha) * d.color, s.alpha + (1 - s.alpha) * d.alpha⟩
  | .dstOver, s, d => ⟨d.color + (1 - d.alpha) * s.color, d.alpha + (1 - d.alpha) * s.alpha⟩
  | .srcIn, s, d => ⟨s.color * d.alpha, s.alpha * d.alpha⟩
  | .dstIn, s, d => ⟨d.color * s.alpha, d.alpha * s.alpha⟩
  | .srcOut, s, d => ⟨s.color * (1 - d.alpha), s.alpha * (1 - d.alpha)⟩
  | .dstOut, s, d => ⟨d.color * (1 - s.alpha), d.alpha * (1 - s.alpha)⟩
  | .srcATop, s, d => ⟨s.color * d.alpha + d.color * (1 - s.alpha), s.alpha * d.alpha + d.alpha * (1 - s.alpha)⟩
  | .dstATop, s, d => ⟨d.color * s.alpha + s.color * (1 - d.alpha), d.alpha * s.alpha + s.alpha * (1 - d.alpha)⟩
  | .xor, s, d => ⟨s.color * (1 - d.alpha) + d.color * (1 - s.alpha), s.alpha * (1 - d.alpha) + d.alpha * (1 - s.alpha)⟩
  | .modulate, s, d => ⟨s.color * d.color, s.alpha * d.alpha⟩

/-- brush_paint.h:107-196, the documented formulas. -/
def docBlend : Blend → Premul → Premul → Premul
  | .modulate, s, d => ⟨s.color * d.color, s.alpha * d.alpha⟩
  | .dstIn, s, d => ⟨s.alpha * d.color, s.alpha * d.alpha⟩
  | .dstOut, s, d => ⟨(1 - s.alpha) * d.color, (1 - s.alpha) * d.alpha⟩
  | .srcAtop, s, d => ⟨d.alpha * s.color + (1 - s.alpha) * d.color, d.alpha⟩
  | .srcIn, s, d => ⟨s.color * d.alpha, s.alpha * d.alpha⟩
  | .srcOver, s, d => ⟨s.color + (1 - s.alpha) * d.color, s.alpha + (1 - s.alpha) * d.alpha⟩
  | .dstOver, s, d => ⟨d.color + (1 - d.alpha) * s.color, d.alpha + (1 - d.alpha) * s.alpha⟩
  | .src, s, _ => ⟨s.color, s.alpha⟩
  | .dst, _, d => ⟨d.color, d.alpha⟩
  | .srcOut, s, d => ⟨(1 - d.alpha) * s.color, (1 - d.alpha) * s.alpha⟩
  | .dstAtop, s, d => ⟨s.alpha * d.color + (1 - d.alpha) * s.color, s.alpha⟩
  | .xor, s, d => ⟨(1 - d.alpha) * s.color + (1 - s.alpha) * d.color, (1 - d.alpha) * s.alpha + (1 - s.alpha) * d.alpha⟩

/-- The colour of a shader at a point, if `tex` is the colour of the shaders of layers. -/
def colorOf (tex : Shader → Premul) : Shader → Premul
  | .blend m d s => skBlend m (colorOf tex s) (colorOf tex d)
  | s => tex s

/-- brush_paint.h:253-261: the combination of colours of layers, and at last of the brush; each with the blend mode of the last
layer up to there. `acc` is the combination so far. -/
def docCombine (acc : Premul) (mode : Blend) : List (Premul × Blend) → Premul → Premul
  | [], brush => docBlend mode acc brush
  | (c, m) :: l, brush => docCombine (docBlend mode acc c) m l brush

def docAll : List (Premul × Blend) → Premul → Premul
  | [], brush => brush
  | (c, m) :: l, brush => docCombine c m l brush

/-! ## Textures -/

variable {U E W : Type} [DecidableEq U]

/-- What is known: the bitmaps of textures, and the world. -/
structure Known (U W : Type) where
  bitmaps : U → Option Bitmap
  world : W

/-- A texture: the known one, or what the store has if that is valid. `none` is a crash. -/
def obtain_ (env : Option (Env U E W)) (k : Known U W) (uri : U) : Option (Except (Err E) Bitmap × Known U W) :=
  match env with
  | none => some (.error .noStore, k)
  | some env =>
    match k.bitmaps uri with
    | some b => some (.ok b, k)
    | none =>
      match env.getBitmap k.world uri with
      | (.error e, w) => some (.error (.store e), { k with world := w })
      | (.ok b, w) =>
        match validateBitmap b with
        | none => none
        | some (.error e) => some (.error (.bitmap e), { k with world := w })
        | some (.ok ()) =>
          if b.colorFormat ≤ 2 ∧ b.colorSpace ≤ 1 ∧ b.pixels.length = env.minByteSize b.width b.height then
            if env.tryAlloc b.width b.height then some (.ok b, ⟨Function.update k.bitmaps uri (some b), w⟩)
            else some (.error .allocation, { k with world := w })
          else none

/-- The textures of layers, one after the other, until the first error. -/
def obtainAll (env : Option (Env U E W)) : List (Layer U) → Known U W →
    Option (Except (Err E) (List Bitmap) × Known U W)
  | [], k => some (.ok [], k)
  | l :: ls, k =>
    (obtain_ env k l.uri).bind fun r =>
      match r with
      | (.error e, k) => some (.error e, k)
      | (.ok b, k) => (obtainAll env ls k).map fun x =>
        match x with
        | (.error e, k) => (.error e, k)
        | (.ok bs, k) => (.ok (b :: bs), k)

/-- The shader is that of the layer with the bitmap. -/
def LayerShader (s : Shader) (l : Layer U) (b : Bitmap) (brushSize : ℚ) (inputs : List (Pt ℚ)) : Prop :=
  ∃ i x y m m', s = .withLocalMatrix m' (.image i x y m) ∧ Shows i b ∧
    (∀ n k, 0 < n → ∃ t, skTile x n k = some t ∧ Wrapped l.wrapX n k t) ∧
    (∀ n k, 0 < n → ∃ t, skTile y n k = some t ∧ Wrapped l.wrapY n k t) ∧
    ∀ p, place s p = some (texelPlace l brushSize inputs b.width b.height p)

/-- A result for layers, if the textures are these: the same error, or each layer has its shader, and blending them, and at last the
colour of the brush with the blender, gives what is documented. -/
def ResultOk (r : Except (Err E) (Option Shader)) (q : Request U) (t : Except (Err E) (List Bitmap)) : Prop :=
  match r, t with
  | .error e, .error e' => e = e'
  | .ok none, .ok _ => q.layers = [] ∧ getPaintBlender q.layers = none
  | .ok (some s), .ok bs => ∃ shaders : List Shader,
      List.Forall₂ (fun x (y : Layer U × Bitmap) => LayerShader x y.1 y.2 q.brushSize q.inputs) shaders (q.layers.zip bs) ∧
      bs.length = q.layers.length ∧
      ∃ mode, getPaintBlender q.layers = some mode ∧ ∀ tex brush, skBlend mode (colorOf tex s) brush =
        docAll ((shaders.map tex).zip (q.layers.map fun l => l.blend)) brush
  | _, _ => False

/-- The textures of requests, one after the other. -/
def serveAll (env : Option (Env U E W)) : List (Request U) → Known U W →
    Option (List (Except (Err E) (List Bitmap)) × Known U W)
  | [], k => some ([], k)
  | r :: rs, k =>
    (obtainAll env r.layers k).bind fun x => (serveAll env rs x.2).map fun y => (x.1 :: y.1, y.2)

end Verif.Textures.Spec
