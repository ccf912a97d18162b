import Verif.Model.AffineTransform
import Mathlib.Algebra.Order.Field.Rat
import Mathlib.Logic.Function.Basic

/-!
# Model of the shaders of textured paints

From `ink/rendering/skia/native/internal/shader_cache.{h,cc}` and `ink/rendering/bitmap.{h,cc}`.

A shader, an image and a colour space of Skia are terms that say how they were made. Coordinates are in exact arithmetic, so that
keys of caches are equal if and only if they are the same. `none` is a failed CHECK or a fatal log. The texture store is
arbitrary: what it returns may depend on a world that changes with every call.
-/

set_option autoImplicit false

namespace Verif.Textures

open Geo

/-- brush_paint.h:48-64 `TextureOrigin` -/
inductive Origin where
  | strokeSpace
  | firstInput
  | lastInput
  deriving DecidableEq, Repr

/-- brush_paint.h:66-85 `TextureSizeUnit` -/
inductive SizeUnit where
  | brushSize
  | strokeSize
  | strokeCoordinates
  deriving DecidableEq, Repr

/-- brush_paint.h:87-105 `TextureWrap` -/
inductive Wrap where
  | repeat
  | mirror
  | clamp
  deriving DecidableEq, Repr

/-- brush_paint.h:107-200 `BlendMode` -/
inductive Blend where
  | modulate | dstIn | dstOut | srcAtop | srcIn | srcOver | dstOver | src | dst | srcOut | dstAtop | xor
  deriving DecidableEq, Repr

/-- brush_paint.h:205-219 `TextureKeyframe` -/
structure Keyframe where
  progress : ℚ
  size : Option (Pt ℚ)
  offset : Option (Pt ℚ)
  rotation : Option ℚ
  opacity : Option ℚ
  deriving DecidableEq

/-- brush_paint.h:221-261 `TextureLayer`; `U` are the URIs. -/
structure Layer (U : Type) where
  uri : U
  winding : Bool
  origin : Origin
  sizeUnit : SizeUnit
  wrapX : Wrap
  wrapY : Wrap
  size : Pt ℚ
  offset : Pt ℚ
  rotation : ℚ
  sizeJitter : Pt ℚ
  offsetJitter : Pt ℚ
  rotationJitter : ℚ
  opacity : ℚ
  keyframes : List Keyframe
  blend : Blend
  deriving DecidableEq

/-- bitmap.h:38-64 `Bitmap`; the three enumerations by their values. -/
structure Bitmap where
  width : Int
  height : Int
  pixelFormat : Nat
  colorFormat : Nat
  colorSpace : Nat
  pixels : List Nat
  deriving DecidableEq, Repr

/-- The errors of bitmap.cc:43-68. -/
inductive BitmapError where
  | width
  | height
  | pixelFormat
  | dataSize
  deriving DecidableEq, Repr

/-- bitmap.cc:33-39 `IsValidPixelFormat` -/
def isValidPixelFormat (f : Nat) : Bool := f = 0

/-- bitmap.cc:93-99 `PixelFormatBytesPerPixel` -/
def bytesPerPixel (f : Nat) : Option Nat := if f = 0 then some 4 else none

/-- bitmap.cc:43-68 `ValidateBitmap`; `size_t` has 64 bits. -/
def validateBitmap (b : Bitmap) : Option (Except BitmapError Unit) :=
  if b.width ≤ 0 then some (.error .width)
  else if b.height ≤ 0 then some (.error .height)
  else if !isValidPixelFormat b.pixelFormat then some (.error .pixelFormat)
  else
    (bytesPerPixel b.pixelFormat).map fun n =>
      if b.pixels.length ≠ (b.width.toNat * b.height.toNat % 2 ^ 64) * n % 2 ^ 64 then .error .dataSize else .ok ()

/-- `SkTileMode` -/
inductive SkTileMode where
  | clamp | repeat | mirror | decal
  deriving DecidableEq, Repr

/-- `SkBlendMode`, those that are used. -/
inductive SkBlendMode where
  | src | dst | srcOver | dstOver | srcIn | dstIn | srcOut | dstOut | srcATop | dstATop | xor | modulate
  deriving DecidableEq, Repr

/-- shader_cache.cc:41-52 `ToSkTileMode` -/
def toSkTileMode : Wrap → SkTileMode
  | .repeat => .repeat
  | .mirror => .mirror
  | .clamp => .clamp

/-- shader_cache.cc:54-83 `ToSkBlendMode` -/
def toSkBlendMode : Blend → SkBlendMode
  | .modulate => .modulate
  | .dstIn => .dstIn
  | .dstOut => .dstOut
  | .srcAtop => .srcATop
  | .srcIn => .srcIn
  | .srcOver => .srcOver
  | .dstOver => .dstOver
  | .src => .src
  | .dst => .dst
  | .srcOut => .srcOut
  | .dstAtop => .dstATop
  | .xor => .xor

/-- `SkAlphaType` -/
inductive SkAlphaType where
  | premul
  | unpremul
  deriving DecidableEq, Repr

/-- shader_cache.cc:94-104 `GetAlphaType` -/
def getAlphaType : Nat → Option SkAlphaType
  | 0 => some .unpremul
  | 1 => some .unpremul
  | 2 => some .premul
  | _ => none

/-- `SkColorSpace`: gamut and transfer function. -/
structure SkColorSpace where
  displayP3 : Bool
  linear : Bool
  deriving DecidableEq, Repr

/-- shader_cache.cc:106-120 `CreateColorSpace` -/
def createColorSpace (space format : Nat) : Option SkColorSpace :=
  let isLinear : Bool := format ≠ 1
  match space with
  | 0 => some ⟨false, isLinear⟩
  | 1 => some ⟨true, isLinear⟩
  | _ => none

/-- `SkImage`; its colour type is always RGBA with 8 bits (shader_cache.cc:85-92). -/
structure Image where
  width : Int
  height : Int
  alpha : SkAlphaType
  space : SkColorSpace
  pixels : List Nat
  deriving DecidableEq, Repr

/-- `SkShader` -/
inductive Shader where
  | image (i : Image) (x y : SkTileMode) (matrix : Affine ℚ)
  | withLocalMatrix (matrix : Affine ℚ) (s : Shader)
  | blend (mode : SkBlendMode) (dst src : Shader)

inductive Err (E : Type) where
  | noStore
  | store (e : E)
  | bitmap (e : BitmapError)
  | allocation

/-- texture_bitmap_store.h:30-39, what is outside of the renderer: the store, the size of an image and allocation. -/
structure Env (U E W : Type) where
  getBitmap : W → U → Except E Bitmap × W
  minByteSize : Int → Int → Nat
  tryAlloc : Int → Int → Bool

/-- shader_cache.h:101-105, the members, and the world. -/
structure Cache (U W : Type) where
  colorSpaces : Nat × Nat → Option SkColorSpace
  images : U → Option Image
  shaders : Layer U → Option Shader
  world : W

variable {U E W : Type} [DecidableEq U]

/-- shader_cache.cc:297-305 `GetColorSpace` -/
def getColorSpace (c : Cache U W) (space format : Nat) : Option (SkColorSpace × Cache U W) :=
  match c.colorSpaces (space, format) with
  | some s => some (s, c)
  | none =>
    (createColorSpace space format).map fun s =>
      (s, { c with colorSpaces := Function.update c.colorSpaces (space, format) (some s) })

/-- shader_cache.cc:274-295 `CreateImageFromBitmap` -/
def createImage (env : Env U E W) (c : Cache U W) (b : Bitmap) : Option (Except (Err E) Image × Cache U W) :=
  (validateBitmap b).bind fun status =>
    match status with
    | .error e => some (.error (.bitmap e), c)
    | .ok () =>
      (getAlphaType b.colorFormat).bind fun alpha =>
        (getColorSpace c b.colorSpace b.colorFormat).bind fun r =>
          if b.pixels.length ≠ env.minByteSize b.width b.height then none
          else if !env.tryAlloc b.width b.height then some (.error .allocation, r.2)
          else some (.ok ⟨b.width, b.height, alpha, r.1, b.pixels⟩, r.2)

/-- shader_cache.cc:255-272 `GetImageForTexture`; without an environment there is no store. -/
def getImage (env : Option (Env U E W)) (c : Cache U W) (uri : U) : Option (Except (Err E) Image × Cache U W) :=
  match env with
  | none => some (.error .noStore, c)
  | some env =>
    match c.images uri with
    | some i => some (.ok i, c)
    | none =>
      match env.getBitmap c.world uri with
      | (.error e, w) => some (.error (.store e), { c with world := w })
      | (.ok b, w) =>
        (createImage env { c with world := w } b).map fun r =>
          match r with
          | (.error e, c) => (.error e, c)
          | (.ok i, c) => (.ok i, { c with images := Function.update c.images uri (some i) })

/-- shader_cache.cc:134-155 `ComputeTexelToSizeUnitTransform` -/
def texelToSizeUnit (l : Layer U) (w h : Int) : Affine ℚ :=
  let texelToUv : Affine ℚ := Affine.scale (1 / w) (1 / h)
  let uvOffset : Affine ℚ := Affine.translate l.offset
  let uvToSizeUnit : Affine ℚ := Affine.scale l.size.x l.size.y
  (uvToSizeUnit.mul uvOffset).mul texelToUv

/-- shader_cache.cc:157-195 `ComputeSizeUnitToStrokeSpaceTransform`, of the positions of the inputs. -/
def sizeUnitToStroke (l : Layer U) (brushSize : ℚ) (inputs : List (Pt ℚ)) : Affine ℚ :=
  let sizeUnit : Affine ℚ :=
    match l.sizeUnit with
    | .brushSize => Affine.scale brushSize brushSize
    | .strokeCoordinates => Affine.identity
    | .strokeSize => Affine.identity
  let offset : Affine ℚ :=
    match l.origin with
    | .strokeSpace => Affine.identity
    | .firstInput => match inputs.head? with
      | some p => Affine.translate p
      | none => Affine.identity
    | .lastInput => match inputs.getLast? with
      | some p => Affine.translate p
      | none => Affine.identity
  offset.mul sizeUnit

/-- shader_cache.cc:242-253 `CreateBaseShaderForLayer` -/
def createBaseShader (env : Option (Env U E W)) (c : Cache U W) (l : Layer U) : Option (Except (Err E) Shader × Cache U W) :=
  (getImage env c l.uri).map fun r =>
    match r with
    | (.error e, c) => (.error e, c)
    | (.ok i, c) =>
      (.ok (.image i (toSkTileMode l.wrapX) (toSkTileMode l.wrapY) (texelToSizeUnit l i.width i.height)), c)

/-- shader_cache.cc:229-240 `GetShaderForLayer` -/
def getLayerShader (env : Option (Env U E W)) (c : Cache U W) (l : Layer U) (brushSize : ℚ) (inputs : List (Pt ℚ)) :
    Option (Except (Err E) Shader × Cache U W) :=
  let finish (s : Shader) : Shader := .withLocalMatrix (sizeUnitToStroke l brushSize inputs) s
  match c.shaders l with
  | some s => some (.ok (finish s), c)
  | none =>
    (createBaseShader env c l).map fun r =>
      match r with
      | (.error e, c) => (.error e, c)
      | (.ok s, c) => (.ok (finish s), { c with shaders := Function.update c.shaders l (some s) })

/-- shader_cache.cc:214-226, the loop of `GetShaderForPaint`; `acc` is `paint_shader` with `blend_mode`. -/
def paintLoop (env : Option (Env U E W)) (brushSize : ℚ) (inputs : List (Pt ℚ)) :
    List (Layer U) → Option (Shader × SkBlendMode) → Cache U W → Option (Except (Err E) (Option Shader) × Cache U W)
  | [], acc, c => some (.ok (acc.map Prod.fst), c)
  | l :: ls, acc, c =>
    (getLayerShader env c l brushSize inputs).bind fun r =>
      match r with
      | (.error e, c) => some (.error e, c)
      | (.ok s, c) =>
        let s' := match acc with
          | none => s
          | some (p, mode) => .blend mode s p
        paintLoop env brushSize inputs ls (some (s', toSkBlendMode l.blend)) c

/-- shader_cache.cc:209-227 `GetShaderForPaint`; no shader is the null pointer. -/
def getPaintShader (env : Option (Env U E W)) (c : Cache U W) (layers : List (Layer U)) (brushSize : ℚ) (inputs : List (Pt ℚ)) :
    Option (Except (Err E) (Option Shader) × Cache U W) :=
  if layers = [] then some (.ok none, c) else paintLoop env brushSize inputs layers none c

/-- shader_cache.cc:202-207 `GetBlenderForPaint` -/
def getPaintBlender (layers : List (Layer U)) : Option SkBlendMode := layers.getLast?.map fun l => toSkBlendMode l.blend

/-- A request for the shader of a paint. -/
structure Request (U : Type) where
  layers : List (Layer U)
  brushSize : ℚ
  inputs : List (Pt ℚ)

/-- A renderer is asked for shaders, one after the other; the results. -/
def serve (env : Option (Env U E W)) : List (Request U) → Cache U W →
    Option (List (Except (Err E) (Option Shader)) × Cache U W)
  | [], c => some ([], c)
  | r :: rs, c =>
    (getPaintShader env c r.layers r.brushSize r.inputs).bind fun x =>
      (serve env rs x.2).map fun y => (x.1 :: y.1, y.2)

/-- shader_cache.cc:199-200, the constructor. -/
def newCache (w : W) : Cache U W := ⟨fun _ => none, fun _ => none, fun _ => none, w⟩

end Verif.Textures
