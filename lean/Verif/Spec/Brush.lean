import Verif.Model.Brush
import Verif.Spec.BrushBehavior

/-!
# What the comments say a valid brush is

After `ink/brush/brush.h:41-57`, `brush_family.h:74-109`, `brush_tip.h:44-110` and
`brush_paint.h:97-262`. Everything is said in rational numbers, about the parts of a brush.
-/

set_option autoImplicit false

namespace Verif.BrushSpec

open F32 Tip Brushes

/-- A finite number between `lo` and `hi`. -/
def Within (lo hi : ℚ) (x : F32) : Prop := x.isFinite = true ∧ lo ≤ toRat x ∧ toRat x ≤ hi

/-- A finite number that is not negative. -/
def NonNeg (x : F32) : Prop := x.isFinite = true ∧ 0 ≤ toRat x

/-- A finite number greater than 0. -/
def Positive (x : F32) : Prop := x.isFinite = true ∧ 0 < toRat x

/-- The value of one of the `count` named enumerators. -/
def Named (count : ℤ) (x : ℤ) : Prop := 0 ≤ x ∧ x < count

/-- brush.h:53-57 -/
def SizeOk (size epsilon : F32) : Prop :=
  Positive size ∧ Positive epsilon ∧ toRat epsilon ≤ toRat size

/-- brush_behavior.h, the rules for a list of nodes (see C32). -/
def BehaviorOk (b : Behavior) : Prop :=
  (∀ n ∈ b, BehaviorSpec.NodeOk n) ∧
  (∀ p n s, b = p ++ n :: s → BehaviorSpec.inputs n ≤ BehaviorSpec.depth p) ∧
  BehaviorSpec.depth b = 0

/-- brush_tip.h:44-110. The bounds for `slant` are the floats nearest to plus and minus `π/2`. -/
def TipOk (t : BrushTip) : Prop :=
  NonNeg t.scaleX ∧ NonNeg t.scaleY ∧ (0 < toRat t.scaleX ∨ 0 < toRat t.scaleY) ∧
  Within 0 1 t.cornerRounding ∧ Within (-toRat quarterTurn) (toRat quarterTurn) t.slant ∧
  Within 0 1 t.pinch ∧ t.rotation.isFinite = true ∧ Within 0 2 t.opacityMultiplier ∧
  NonNeg t.particleGapDistanceScale ∧ NonNeg t.particleGapDuration.seconds ∧
  ∀ b ∈ t.behaviors, BehaviorOk b

/-- brush_family.h:96-101 -/
def KeyframeOk (k : Keyframe) : Prop :=
  Within 0 1 k.progress ∧ (∀ s, k.size = some s → Positive s.1 ∧ Positive s.2) ∧
  (∀ o, k.offset = some o → Within 0 1 o.1 ∧ Within 0 1 o.2) ∧
  (∀ r, k.rotation = some r → r.isFinite = true) ∧
  (∀ o, k.opacity = some o → Within 0 1 o)

/-- brush_family.h:86-101, 105-106, for a condition on the offset. -/
def LayerOk (offsetOk : F32 → Prop) (l : Layer) : Prop :=
  l.uri.assetType = .texture ∧ Named 2 l.mapping ∧ Named 3 l.origin ∧ Named 3 l.sizeUnit ∧
  Named 3 l.wrapX ∧ Named 3 l.wrapY ∧ Named 12 l.blendMode ∧
  Positive l.size.1 ∧ Positive l.size.2 ∧ offsetOk l.offset.1 ∧ offsetOk l.offset.2 ∧
  l.rotation.isFinite = true ∧
  Within 0 (toRat l.size.1) l.sizeJitter.1 ∧ Within 0 (toRat l.size.2) l.sizeJitter.2 ∧
  Within 0 1 l.offsetJitter.1 ∧ Within 0 1 l.offsetJitter.2 ∧
  l.rotationJitter.isFinite = true ∧ Within 0 1 l.opacity ∧ ∀ k ∈ l.keyframes, KeyframeOk k

/-- brush_family.h:84-106 -/
def PaintOk (offsetOk : F32 → Prop) (p : Paint) : Prop :=
  (∀ l ∈ p.layers, LayerOk offsetOk l) ∧ ∀ l ∈ p.layers, ∀ l' ∈ p.layers, l.mapping = l'.mapping

/-- brush_coat.h:36-49: a coat has one tip. -/
def CoatOk (offsetOk : F32 → Prop) (c : Coat) : Prop :=
  (∃ t, c.tips = [t] ∧ TipOk t) ∧ PaintOk offsetOk c.paint

/-- brush_family.h:70-111 -/
def FamilyOk (offsetOk : F32 → Prop) (coats : List Coat) (uri : Option Uri.Uri) : Prop :=
  coats.length ≤ 10 ∧ (∀ c ∈ coats, CoatOk offsetOk c) ∧ ∀ u, uri = some u → u.assetType = .brushFamily

/-- The condition on texture layer offsets that is documented. -/
def documentedOffset : F32 → Prop := Within 0 1

/-- The condition on texture layer offsets that is checked. -/
def checkedOffset : F32 → Prop := fun x => x.isFinite = true

end Verif.BrushSpec
