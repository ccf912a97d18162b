import Verif.Model.BrushBehavior
import Verif.Model.Color
import Verif.Model.MeshFormat
import Verif.Model.Uri

/-!
# Model of `BrushPaint`, `BrushCoat`, `BrushFamily` and `Brush`

From `ink/brush/brush_paint.{h,cc}`, `brush_coat.{h,cc}`, `brush_family.{h,cc}` and `brush.{h,cc}`.
`absl::Status` is `Bool` (true is `OkStatus`) and `absl::StatusOr<T>` is `Option T`: messages are not
modelled. An enumeration in `BrushPaint` is its underlying integer: a caller may pass one without a
name.
-/

set_option autoImplicit false

namespace Verif.Brushes

open F32 Verif.Tip

/-- brush_paint.h:35-45 `TextureMapping` -/
def kTiling : ℤ := 0
/-- brush_paint.h:35-45 `TextureMapping` -/
def kWinding : ℤ := 1

/-- brush_paint.h:205-219 `TextureKeyframe` -/
structure Keyframe where
  progress : F32
  size : Option (F32 × F32) := none
  offset : Option (F32 × F32) := none
  rotation : Option F32 := none
  opacity : Option F32 := none
  deriving DecidableEq

/-- brush_paint.h:221-261 `TextureLayer` -/
structure Layer where
  uri : Uri.Uri
  mapping : ℤ := 0
  origin : ℤ := 0
  sizeUnit : ℤ := 2
  wrapX : ℤ := 0
  wrapY : ℤ := 0
  size : F32 × F32 := (ofInt 1, ofInt 1)
  offset : F32 × F32 := (zero, zero)
  rotation : F32 := zero
  sizeJitter : F32 × F32 := (zero, zero)
  offsetJitter : F32 × F32 := (zero, zero)
  rotationJitter : F32 := zero
  opacity : F32 := ofInt 1
  keyframes : List Keyframe := []
  blendMode : ℤ := 0
  deriving DecidableEq

/-- brush_paint.h:31, 263 `BrushPaint` -/
structure Paint where
  layers : List Layer := []
  deriving DecidableEq

/-- brush_paint.cc:30-37 `IsValidBrushPaintTextureMapping` -/
def validMapping (x : ℤ) : Bool := x = 0 || x = 1
/-- brush_paint.cc:39-47 `IsValidBrushPaintTextureOrigin` -/
def validOrigin (x : ℤ) : Bool := x = 0 || x = 1 || x = 2
/-- brush_paint.cc:49-57 `IsValidBrushPaintTextureSizeUnit` -/
def validSizeUnit (x : ℤ) : Bool := x = 0 || x = 1 || x = 2
/-- brush_paint.cc:59-67 `IsValidBrushPaintTextureWrap` -/
def validWrap (x : ℤ) : Bool := x = 0 || x = 1 || x = 2
/-- brush_paint.cc:69-86 `IsValidBrushPaintBlendMode` -/
def validBlendMode (x : ℤ) : Bool :=
  x = 0 || x = 1 || x = 2 || x = 3 || x = 4 || x = 5 || x = 6 || x = 7 || x = 8 || x = 9 || x = 10 ||
    x = 11

/-- brush_paint.cc:88-131 `ValidateBrushPaintTextureKeyframe` -/
def Keyframe.valid (k : Keyframe) : Bool :=
  if !(ge k.progress zero && le k.progress (ofInt 1)) then false
  else if k.size.any fun s =>
      !s.1.isFinite || !s.2.isFinite || le s.1 zero || le s.2 zero then false
  else if k.offset.any fun o =>
      !(ge o.1 zero && le o.1 (ofInt 1) && ge o.2 zero && le o.2 (ofInt 1)) then false
  else if k.rotation.any fun r => !r.isFinite then false
  else if k.opacity.any fun o => !(ge o zero && le o (ofInt 1)) then false
  else true

/-- brush_paint.cc:135-227 `ValidateBrushPaintTextureLayer` -/
def Layer.valid (l : Layer) : Bool :=
  if l.uri.assetType ≠ .texture then false
  else if !validMapping l.mapping then false
  else if !validOrigin l.origin then false
  else if !validSizeUnit l.sizeUnit then false
  else if !validWrap l.wrapX then false
  else if !validWrap l.wrapY then false
  else if le l.size.1 zero || !l.size.1.isFinite || le l.size.2 zero || !l.size.2.isFinite then false
  else if !l.offset.1.isFinite || !l.offset.2.isFinite then false
  else if !l.rotation.isFinite then false
  else if !(ge l.sizeJitter.1 zero && le l.sizeJitter.1 l.size.1 && ge l.sizeJitter.2 zero &&
      le l.sizeJitter.2 l.size.2) then false
  else if !(ge l.offsetJitter.1 zero && le l.offsetJitter.1 (ofInt 1) && ge l.offsetJitter.2 zero &&
      le l.offsetJitter.2 (ofInt 1)) then false
  else if !l.rotationJitter.isFinite then false
  else if !(ge l.opacity zero && le l.opacity (ofInt 1)) then false
  else if l.keyframes.any fun k => !k.valid then false
  else if !validBlendMode l.blendMode then false
  else true

/-- brush_paint.cc:229-250 `ValidateBrushPaint` -/
def Paint.valid (p : Paint) : Bool :=
  if p.layers.any fun l => !l.valid then false
  else match p.layers with
    | [] => true
    | first :: _ => !(p.layers.any fun l => l.mapping ≠ first.mapping)

/-- brush_coat.h:40-49 `BrushCoat` -/
structure Coat where
  tips : List BrushTip
  paint : Paint := {}
  deriving DecidableEq

/-- brush_coat.cc:53-72 `ValidateBrushCoat` -/
def Coat.valid (c : Coat) : Bool :=
  if c.tips.isEmpty then false
  else if c.tips.length > 1 then false
  else if c.tips.any fun t => !t.valid then false
  else if !c.paint.valid then false
  else true

/-- brush_coat.cc:33-49 `BrushTipUsesColorShift` -/
def usesColorShift (t : BrushTip) : Bool :=
  t.behaviors.any fun b => b.any fun n => match n with
    | .target .hueOffset _ _ => true
    | .target .saturationMultiplier _ _ => true
    | .target .luminosity _ _ => true
    | _ => false

/-- mesh_format.h:162 -/
def kColorShiftHsl : Mesh.AttrId := 1
/-- mesh_format.h:163 -/
def kOpacityShift : Mesh.AttrId := 2
/-- mesh_format.h:165 -/
def kSideDerivative : Mesh.AttrId := 4
/-- mesh_format.h:166 -/
def kSideLabel : Mesh.AttrId := 5
/-- mesh_format.h:167 -/
def kForwardDerivative : Mesh.AttrId := 6
/-- mesh_format.h:168 -/
def kForwardLabel : Mesh.AttrId := 7
/-- mesh_format.h:169 -/
def kSurfaceUv : Mesh.AttrId := 8

/-- brush_coat.cc:74-107 `GetRequiredAttributeIds` -/
def Coat.requiredIds (c : Coat) : List Mesh.AttrId :=
  [Mesh.kPosition, kSideDerivative, kSideLabel, kForwardDerivative, kForwardLabel, kOpacityShift] ++
  (if c.tips.any usesColorShift then [kColorShiftHsl] else []) ++
  (if c.paint.layers.any fun l => l.mapping = kWinding then [kSurfaceUv] else [])

/-- brush_family.h:54-65 `InputModel` -/
inductive InputModel where
  | springV1 | springV2
  deriving DecidableEq

/-- brush_family.h:161-163 `BrushFamily` -/
structure Family where
  coats : List Coat
  uri : Option Uri.Uri
  inputModel : InputModel
  deriving DecidableEq

/-- brush_family.cc:41-48 `MaxBrushCoats` -/
def maxBrushCoats : ℕ := 10

/-- brush_family.cc:80-87 `ValidateBrushUri` -/
def validBrushUri (u : Uri.Uri) : Bool := u.assetType = .brushFamily

/-- brush_family.cc:91-112 `Create` from coats and a URI. -/
def Family.create (coats : List Coat) (uri : Option Uri.Uri) (m : InputModel) : Option Family :=
  if coats.length > maxBrushCoats then none
  else if coats.any fun c => !c.valid then none
  else if uri.any fun u => !validBrushUri u then none
  else some ⟨coats, uri, m⟩

/-- brush_family.cc:56-67 `Create` from coats and a string. -/
def Family.createFromString (coats : List Coat) (uri : List Char) (m : InputModel) : Option Family :=
  if uri.isEmpty then Family.create coats none m
  else match Uri.parse uri with
    | none => none
    | some u => Family.create coats (some u) m

/-- brush_family.cc:114-121 `Create` from a tip and a paint. -/
def Family.createSingle (tip : BrushTip) (paint : Paint) (uri : Option Uri.Uri) (m : InputModel) :
    Option Family :=
  Family.create [⟨[tip], paint⟩] uri m

/-- brush.h:101-104 `Brush`; the colour is not used here and is of any type. -/
structure Brush (C : Type) where
  family : Family
  color : C
  size : F32
  epsilon : F32

/-- brush.cc:30-37 `ValidateBrushSize` -/
def validSize (size : F32) : Bool := !(!size.isFinite || le size zero)

/-- brush.cc:39-47 `ValidateBrushEpsilon` -/
def validEpsilon (epsilon : F32) : Bool := !(!epsilon.isFinite || le epsilon zero)

/-- brush.cc:49-58 `ValidateBrushSizeRelativeToEpsilon` -/
def validRelative (size epsilon : F32) : Bool := !lt size epsilon

variable {C : Type}

/-- brush.cc:66-81 `Create` -/
def Brush.create (f : Family) (c : C) (size epsilon : F32) : Option (Brush C) :=
  if !validSize size then none
  else if !validEpsilon epsilon then none
  else if !validRelative size epsilon then none
  else some ⟨f, c, size, epsilon⟩

/-- brush.cc:83-94 `SetSize`: the status and the brush afterwards. -/
def Brush.setSize (b : Brush C) (size : F32) : Bool × Brush C :=
  if !validSize size then (false, b)
  else if !validRelative size b.epsilon then (false, b)
  else (true, { b with size := size })

/-- brush.cc:96-107 `SetEpsilon` -/
def Brush.setEpsilon (b : Brush C) (epsilon : F32) : Bool × Brush C :=
  if !validEpsilon epsilon then (false, b)
  else if !validRelative b.size epsilon then (false, b)
  else (true, { b with epsilon := epsilon })

/-- brush.h:110 `SetFamily` -/
def Brush.setFamily (b : Brush C) (f : Family) : Brush C := { b with family := f }

/-- brush.h:118 `SetColor` -/
def Brush.setColor (b : Brush C) (c : C) : Brush C := { b with color := c }

/-- brush.h:73 `CoatCount` -/
def Brush.coatCount (b : Brush C) : ℕ := b.family.coats.length

/-- brush_tip.h:44-110, the default tip. -/
def defaultTip : BrushTip :=
  ⟨ofInt 1, ofInt 1, ofInt 1, zero, zero, zero, ofInt 1, zero, Duration32.zero, []⟩

/-- brush_family.h:161-163, the default family. -/
def defaultFamily : Family := ⟨[⟨[defaultTip], {}⟩], none, .springV1⟩

/-- brush.h:101-104, the default brush (`0.1f` is the float nearest to 0.1). -/
def defaultBrush (red : C) : Brush C := ⟨defaultFamily, red, ofInt 1, ofRat (1 / 10)⟩

/-- A call on a brush. -/
inductive BrushOp (C : Type) where
  | setSize (x : F32)
  | setEpsilon (x : F32)
  | setFamily (f : Family)
  | setColor (c : C)

/-- One call. -/
def Brush.step (b : Brush C) : BrushOp C → Bool × Brush C
  | .setSize x => b.setSize x
  | .setEpsilon x => b.setEpsilon x
  | .setFamily f => (true, b.setFamily f)
  | .setColor c => (true, b.setColor c)

/-- The brush after a history of calls. -/
def Brush.run (b : Brush C) (ops : List (BrushOp C)) : Brush C :=
  ops.foldl (fun b op => (b.step op).2) b

end Verif.Brushes
