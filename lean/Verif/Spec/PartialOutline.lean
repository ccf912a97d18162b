import Verif.Model.PartialOutline
import Verif.Spec.LegacyIntersection

/-!
# Specification of partial outlines and of the search for clockwise triangles in fans
-/

set_option autoImplicit false

namespace Verif.PartialOutline.Spec

open Geo Geo.Spec Legacy Legacy.Spec

/-- The number of indices of a side that belong to the outline: all, or up to the start of an intersection that is being retriangulated. -/
def count (s : Side) : ℕ :=
  match s.intersection with
  | some x => if x.retriangulationStarted = true then x.startingOffset + 1 else s.indices.length
  | none => s.indices.length

/-- The indices of a side that belong to the outline, from an offset. -/
def part (s : Side) (first : ℕ) : List ℕ := (s.indices.take (count s)).drop first

/-- The way along the first `j` pieces of a polyline. -/
noncomputable def way : List (Pt ℝ) → ℕ → ℝ
  | p :: q :: rest, j + 1 => distance p q + way (q :: rest) j
  | _, _ => 0

/-- Piece `j` of a polyline is a point or has no point on the segment. -/
def Untouched (segment : Segment ℝ) (ps : List (Pt ℝ)) (j : ℕ) : Prop :=
  ∀ p q, ps[j]? = some p → ps[j + 1]? = some q → p ≠ q → ∀ x, OnSegment x ⟨p, q⟩ → ¬OnSegment x segment

/-- Piece `j` of a polyline is a point or ends in the triangle, if there is one. -/
def Kept (triangle : Option (Triangle ℝ)) (ps : List (Pt ℝ)) (j : ℕ) : Prop :=
  ∀ t, triangle = some t → ∀ p q, ps[j]? = some p → ps[j + 1]? = some q → p ≠ q → InTriangle q t

/-- The first intersection of a polyline with a segment is on piece `i`, within the budget. -/
def OnPiece (segment : Segment ℝ) (triangle : Option (Triangle ℝ)) (ps : List (Pt ℝ)) (budget : ℝ) (i : ℕ) (h : Hit) (left : ℝ) : Prop :=
  ∃ p q, ps[i]? = some p ∧ ps[i + 1]? = some q ∧ p ≠ q ∧ (0 ≤ h.outlineValue ∧ h.outlineValue ≤ 1) ∧ (0 ≤ h.segmentValue ∧ h.segmentValue ≤ 1) ∧
    h.position = along ⟨p, q⟩ h.outlineValue ∧ h.position = along segment h.segmentValue ∧
    (∀ s, 0 ≤ s → s ≤ 1 → OnSegment (along ⟨p, q⟩ s) segment → h.outlineValue ≤ s) ∧
    (∀ j, j < i → Untouched segment ps j ∧ Kept triangle ps j) ∧ way ps i < budget ∧ left = max 0 (budget - (way ps i + distance p h.position))

/-- All positions are the same one, which is on the segment. -/
def OnPoint (segment : Segment ℝ) (ps : List (Pt ℝ)) (budget : ℝ) (h : Hit) (left : ℝ) : Prop :=
  0 < budget ∧ left = budget ∧ ∃ p, p ∈ ps ∧ (∀ x ∈ ps, x = p) ∧ (0 ≤ h.segmentValue ∧ h.segmentValue ≤ 1) ∧ p = along segment h.segmentValue

/-- The rest of a budget if nothing is found: nothing if the budget is used up or the polyline leaves the triangle, otherwise the budget without
the way along the polyline. -/
def Remaining (triangle : Option (Triangle ℝ)) (ps : List (Pt ℝ)) (budget left : ℝ) : Prop :=
  (left = 0 ∧ (budget ≤ way ps (ps.length - 1) ∨ ∃ j, ¬Kept triangle ps j)) ∨
    (left = budget - way ps (ps.length - 1) ∧ 0 ≤ left ∧ ∀ j, Kept triangle ps j)

section Fans

variable {K : Type} [Field K] [LinearOrder K]

/-- The triangle of a fan with two positions, from the back to the front, on the left or right of the center, turns clockwise. -/
def Clockwise (side : SideId) (center back front : Pt K) : Prop :=
  match side with
  | .right => (back.sub center).det (front.sub center) < 0
  | .left => (front.sub center).det (back.sub center) < 0

/-- The segment of a fan with these positions. -/
def outer (side : SideId) (back front : Pt K) : Segment K :=
  match side with
  | .right => ⟨back, front⟩
  | .left => ⟨front, back⟩

/-- Discontinuities are in order and do not overlap. -/
def Ordered (n : ℕ) (ds : List Range) : Prop := (∀ d ∈ ds, d.first ≤ d.last ∧ d.last < n) ∧ ds.Pairwise fun d e => d.last ≤ e.first

/-- The offsets of a range that are not inside of a discontinuity. -/
def outside (n : ℕ) (ds : List Range) (range : Range) : List ℕ :=
  (List.range n).filter fun k => decide (range.first ≤ k ∧ k ≤ range.last ∧ ∀ d ∈ ds, ¬(d.first < k ∧ k < d.last))

end Fans

end Verif.PartialOutline.Spec
