import Verif.F32.Basic

/-!
# Model of `Angle` normalisation and of the stored width and rotation of a `Quad`, in binary32

From `ink/geometry/angle.{h,cc}` and `ink/geometry/quad.h`.
-/

set_option autoImplicit false

namespace Verif

namespace Angle

/-- `static_cast<float>(numbers::kPi)` (angle.cc:46-48), also `kHalfTurn` (angle.h:80). -/
def pi : F32 := .fin false 0x40490FDB (by decide)

/-- `static_cast<float>(-numbers::kPi)` (angle.cc:48) -/
def negPi : F32 := .fin true 0x40490FDB (by decide)

/-- `static_cast<float>(2.0 * numbers::kPi)` (angle.cc:27), also `kFullTurn` (angle.h:81). -/
def twoPi : F32 := .fin false 0x40C90FDB (by decide)

/-- angle.cc:25-43 `Normalized` -/
def normalized (a : F32) : F32 :=
  let r := F32.fmod a twoPi
  if F32.lt r F32.zero then
    let r := F32.add r twoPi
    if F32.feq r twoPi then F32.zero else r
  else r

/-- angle.cc:45-53 `NormalizedAboutZero` -/
def normalizedAboutZero (a : F32) : F32 :=
  let r := F32.fmod a twoPi
  if F32.gt r pi then F32.sub r twoPi
  else if F32.le r negPi then F32.add r twoPi
  else r

end Angle

/-- quad.h:208-212, the width, height and rotation of a `Quad`. -/
structure QuadF where
  width : F32
  height : F32
  rotation : F32
  deriving DecidableEq, Repr

/-- The calls that change them. `join` carries the values that `Join` (quad.cc:80-98) compares with
the current width and assigns to the height; they are arbitrary here. -/
inductive QuadFOp where
  | setWidth (w : F32)
  | setHeight (h : F32)
  | setRotation (r : F32)
  | join (w h : F32)

namespace QuadF

/-- quad.h:195-201 `Normalize` -/
def normalize (q : QuadF) : QuadF :=
  if F32.lt q.width F32.zero then
    ⟨F32.neg q.width, F32.neg q.height, Angle.normalized (F32.add q.rotation Angle.pi)⟩
  else q

/-- quad.h:185-193, the constructor. -/
def new (w h r : F32) : QuadF := normalize ⟨w, h, Angle.normalized r⟩

def step (q : QuadF) : QuadFOp → QuadF
  /- quad.h:249-256 `SetWidth` -/
  | .setWidth w => if F32.feq w q.width then q else normalize { q with width := w }
  /- quad.h:228-234 `SetHeight` -/
  | .setHeight h => if F32.feq h q.height then q else { q with height := h }
  /- quad.h:235-241 `SetRotation` -/
  | .setRotation r => if F32.feq r q.rotation then q else { q with rotation := Angle.normalized r }
  /- quad.cc:86-96 `Join` -/
  | .join w h => { q with width := F32.smax q.width w, height := h }

def run (q : QuadF) (ops : List QuadFOp) : QuadF := ops.foldl step q

end QuadF

end Verif
