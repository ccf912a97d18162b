import Verif.Model.Geometry

/-!
# Model of the intersection of segments and lines, and of barycentric coordinates

From `ink/geometry/internal/algorithms.cc`, in exact arithmetic like `Verif.Model.Geometry`. `none` is `std::nullopt`; the
check of line 182 is modelled by `.crash`.
-/

set_option autoImplicit false

namespace Verif.Geo

variable {K : Type} [Field K] [LinearOrder K]

/-- The result of a call which returns a `std::optional<std::pair<float, float>>` or fails a check. -/
inductive Ratios (K : Type) where
  | crash
  | none
  | some (t s : K)
  deriving DecidableEq, Repr

/-- algorithms.cc:153-191 `SegmentIntersectionRatio`, parallel segments. -/
def parallelRatio (a b : Segment K) : Ratios K :=
  if a.vector.det (b.start.sub a.start) ≠ 0 then .none
  else
    match a.project b.start, b.project a.start with
    | .none, .some t => if intersectsPS a.start b then .some 0 t else .none
    | .some t, .none => if intersectsPS b.start a then .some t 0 else .none
    | .none, .none => .none
    | .some as, .some bs =>
      match a.project b.stop, b.project a.stop with
      | .some ae, .some be =>
        if (as < 0 ∧ ae < 0) ∨ (as > 1 ∧ ae > 1) then .none
        else .some (max (min as ae) 0) (max (min bs be) 0)
      | _, _ => .crash

/-- algorithms.cc:142-211 `SegmentIntersectionRatio` -/
def segmentIntersectionRatio (a b : Segment K) : Ratios K :=
  if a = b then .some 0 0
  else
    let u := a.vector
    let v := b.vector
    let w := b.start.sub a.start
    let det := u.det v
    if det = 0 then parallelRatio a b
    else
      let t := w.det v / det
      let s := w.det u / det
      if 0 ≤ t ∧ t ≤ 1 ∧ 0 ≤ s ∧ s ≤ 1 then .some t s else .none

/-- algorithms.cc:213-225 `UniqueLineIntersectionRatio` -/
def uniqueLineIntersectionRatio (a b : Segment K) : Option (K × K) :=
  let u := a.vector
  let v := b.vector
  let det := u.det v
  if det = 0 then none
  else
    let w := b.start.sub a.start
    some (w.det v / det, w.det u / det)

/-- algorithms.cc:227-234 `SegmentIntersection`; the outer `none` is a failed check. -/
def segmentIntersection (a b : Segment K) : Option (Option (Pt K)) :=
  match segmentIntersectionRatio a b with
  | .crash => none
  | .none => some none
  | .some t _ => some (some (a.lerp t))

/-- algorithms.cc:41-52 `GetBarycentricCoordinates` -/
def barycentric (t : Triangle K) (p : Pt K) : Option (K × K × K) :=
  let a := t.p2.sub t.p0
  let b := t.p1.sub t.p2
  let d := a.det b
  if d = 0 then none
  else
    let c := p.sub t.p2
    let b0 := b.det c / d
    let b1 := a.det c / d
    some (b0, b1, 1 - b0 - b1)

/-- vec.h:54-56 `Orthogonal` -/
def Pt.orthogonal (v : Pt K) : Pt K := ⟨-v.y, v.x⟩

/-- algorithms.cc:73-102 `VectorFromPointToSegmentProjection` -/
def vectorToProjection (p : Pt K) (s : Segment K) : Option (Pt K) :=
  let base := s.vector
  let m := base.dot base
  if m = 0 then none
  else some (Pt.smul (base.det (s.start.sub p) / m) base.orthogonal)

end Verif.Geo
