import Verif.Model.Easing
import Verif.Model.MeshPacking

/-!
# Model of the labels of `StrokeVertex` and its custom packing, in binary32

From `ink/strokes/internal/stroke_vertex.{h,cc}` and `LinearMap` of
`ink/geometry/internal/algorithms.cc`. The functions which store a vertex in a `MutableMesh` are not
modelled (C10 is about `MutableMesh`), except the clamping of the colour shifts.
-/

set_option autoImplicit false

namespace Verif

open F32

/-- algorithms.cc:136-140 `LinearMap` -/
def linearMapF (input : F32) (inLo inHi outLo outHi : F32) : F32 :=
  lerpF outLo outHi (inverseLerpF inLo inHi input)

namespace Vertex

/-- stroke_vertex.h:96 `kMaximumMargin` -/
def maximumMargin : F32 := ofInt 4

/-- stroke_vertex.cc:53 `kRangeOfEncodedMarginValues` -/
def encodedLo : F32 := ofInt 1

/-- stroke_vertex.cc:53 `kRangeOfEncodedMarginValues` -/
def encodedHi : F32 := ofInt 127

/-- stroke_vertex.h:65-86 `Label`: only the encoded value. -/
structure Label where
  encoded : F32
  deriving DecidableEq

/-- stroke_vertex.h:101 -/
def interiorLabel : Label := ⟨zero⟩
/-- stroke_vertex.h:104, 106 `kExteriorLeftLabel`, `kExteriorFrontLabel` -/
def leftLabel : Label := ⟨ofInt (-127)⟩
/-- stroke_vertex.h:105, 107 `kExteriorRightLabel`, `kExteriorBackLabel` -/
def rightLabel : Label := ⟨ofInt 127⟩

/-- stroke_vertex.h:39-40 `SideCategory` and `ForwardCategory`: left or front, interior, right or
back. -/
inductive Category where
  | leftOrFront | interior | rightOrBack
  deriving DecidableEq

/-- stroke_vertex.h:280-285 `DecodeSideCategory` -/
def Label.sideCategory (l : Label) : Category :=
  if lt l.encoded zero then .leftOrFront else if feq l.encoded zero then .interior else .rightOrBack

/-- stroke_vertex.h:287-292 `DecodeForwardCategory` -/
def Label.forwardCategory (l : Label) : Category :=
  if lt l.encoded zero then .leftOrFront else if feq l.encoded zero then .interior else .rightOrBack

/-- stroke_vertex.h:294-296 `DerivativeOutsetSign` -/
def Label.sign (l : Label) : F32 :=
  ofInt ((if gt l.encoded zero then 1 else 0) - (if lt l.encoded zero then 1 else 0))

/-- stroke_vertex.cc:57-66 `WithMargin` -/
def Label.withMargin (l : Label) (margin : F32) : Label :=
  if feq l.encoded zero then l
  else ⟨mul l.sign (ffloor (linearMapF (clamp margin zero maximumMargin) zero maximumMargin
    encodedLo encodedHi))⟩

/-- stroke_vertex.cc:68-72 `DecodeMargin` -/
def Label.decodeMargin (l : Label) : F32 :=
  if feq l.encoded zero then zero
  else linearMapF (fabs l.encoded) encodedLo encodedHi zero maximumMargin

/-- stroke_vertex.cc:402-412 `LerpLabel`; labels are compared by their values. -/
def lerpLabel (a b : Label) (t : F32) : Label :=
  let a := a.withMargin maximumMargin
  let b := b.withMargin maximumMargin
  if feq a.encoded b.encoded || le t zero then a
  else if ge t (ofInt 1) then b
  else interiorLabel

/-- stroke_vertex.cc:414-421 `BarycentricLerpLabel` -/
def barycentricLerpLabel (a b c : Label) (u v w : F32) : Label :=
  if feq u zero then lerpLabel b c w
  else if feq v zero then lerpLabel a c w
  else if feq w zero then lerpLabel a b v
  else interiorLabel

/-- stroke_vertex.cc:103-104 `kLabelCodingParams` -/
def labelCoding : Mesh.Coding := ⟨ofInt (-128), ofInt 1⟩

/-- stroke_vertex.cc:89-90 `kOpacityCodingParams8bit` -/
def opacityCoding : Mesh.Coding := ⟨ofInt (-1), div (ofInt 2) (ofInt 254)⟩

/-- stroke_vertex.cc:94-95 `kHslCodingParams10bit` -/
def hslCoding : Mesh.Coding := ⟨ofInt (-1), div (ofInt 2) (ofInt 1022)⟩

/-- stroke_vertex.cc:109-110 `kSurfaceUCodingParams12bit`; `offset` is 0 by default. -/
def surfaceUCoding : Mesh.Coding := ⟨zero, div (ofInt 1) (ofInt 4095)⟩

/-- stroke_vertex.cc:111-112 `kSurfaceVCodingParams20bit` -/
def surfaceVCoding : Mesh.Coding := ⟨zero, div (ofInt 1) (ofInt 1048575)⟩

/-- stroke_vertex.cc:306-334 `SetNonPositionAttributes`: what is stored for a colour shift. -/
def storedShift (x : F32) : F32 := clamp x (ofInt (-1)) (ofInt 1)

end Vertex

end Verif
