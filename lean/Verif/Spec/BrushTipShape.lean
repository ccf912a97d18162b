import Verif.Model.BrushTipShape
import Verif.Spec.Circle
import Mathlib.Analysis.Convex.Hull
import Mathlib.Analysis.Complex.Basic

/-!
# Specification of the shapes of brush tips (C65)
-/

set_option autoImplicit false

namespace Verif.RealGeom.Spec

open Verif.RealGeom

/-- The points of a shape: the convex hull of its discs. -/
def region (s : TipShape) : Set ℂ := convexHull ℝ {p | ∃ c ∈ s.circles, InDisc c p}

/-- brush_tip_shape.h:51-52, the values that are accepted. -/
def ValidTip (s : TipState) : Prop :=
  0 ≤ s.width ∧ 0 ≤ s.height ∧ 0 ≤ s.percentRadius ∧ s.percentRadius ≤ 1 ∧ 0 ≤ s.pinch ∧ s.pinch ≤ 1

/-- brush_tip.cc:62-67: the valid angles are those of at most a quarter of a turn; `Slanted` are those of less. -/
def Slanted (s : TipState) : Prop := |s.slant| < Real.pi / 2

/-- A point belongs to a rectangle. -/
def InRect (r : RealRect) (p : ℂ) : Prop := r.xMin ≤ p.re ∧ p.re ≤ r.xMax ∧ r.yMin ≤ p.im ∧ p.im ≤ r.yMax

/-- `r` is the smallest rectangle with these points: it has them all and any other rectangle with them all has all of its points. -/
def MinRect (r : RealRect) (S : Set ℂ) : Prop :=
  (∀ p ∈ S, InRect r p) ∧ ∀ r', (∀ p ∈ S, InRect r' p) → r'.xMin ≤ r.xMin ∧ r.xMax ≤ r'.xMax ∧ r'.yMin ≤ r.yMin ∧ r.yMax ≤ r'.yMax

/-- The point `p` is to the left of the way from `a` to `b`. -/
def LeftOf (a b p : ℂ) : Prop := 0 < (b.re - a.re) * (p.im - a.im) - (b.im - a.im) * (p.re - a.re)

/-- Circles in the order of a shape: each that follows another is the next one counter-clockwise. -/
def Counterclockwise (center : ℂ) (cs : List Circle) : Prop :=
  (∀ i c d, cs[i]? = some c → cs[(i + 1) % cs.length]? = some d → 3 ≤ cs.length → LeftOf center c.center d.center) ∧
  ∀ i j c d e, cs[i]? = some c → cs[(i + 1) % cs.length]? = some d → cs[j]? = some e → j ≠ i → j ≠ (i + 1) % cs.length →
    LeftOf c.center d.center e.center

/-- No two are nearer than `m`. -/
def Separated (m : ℝ) (cs : List Circle) : Prop := cs.Pairwise fun c d => m ≤ ‖c.center - d.center‖

end Verif.RealGeom.Spec
