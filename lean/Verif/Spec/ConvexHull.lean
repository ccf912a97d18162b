import Mathlib.Data.List.Perm.Basic
import Verif.Spec.Geometry

/-!
# Convex hulls

The convex hull of a list of points is the smallest set that contains them and, with any two points, the segment between
them.
-/

set_option autoImplicit false

namespace Verif.Geo.Spec

open Verif.Geo

variable {K : Type} [Field K] [LinearOrder K]

/-- `p` is in the convex hull of the points of `l`. -/
inductive InHull (l : List (Pt K)) : Pt K → Prop
  | point (p : Pt K) : p ∈ l → InHull l p
  | between (a b p : Pt K) : InHull l a → InHull l b → OnSegment p ⟨a, b⟩ → InHull l p

/-- From `a` over `b` to `c` is a turn to the left: the points are in counterclockwise order and not on one line. -/
def LeftTurn (a b c : Pt K) : Prop := (b.x - a.x) * (c.y - a.y) - (b.y - a.y) * (c.x - a.x) > 0

/-- `hull` lists the corners of the convex hull of `points`, counterclockwise and each one once, from the lowest (and of
those the leftmost) on. -/
structure IsHullOf (hull points : List (Pt K)) : Prop where
  /-- Corners are given points, -/
  subset : ∀ v ∈ hull, v ∈ points
  /-- all given points are in the convex hull of the corners, -/
  covers : ∀ p ∈ points, InHull hull p
  /-- no corner is listed twice, -/
  nodup : hull.Nodup
  /-- and any three of them, in the listed order, form a proper counterclockwise triangle. -/
  convex : ∀ i j k (_ : i < j) (_ : j < k) (hk : k < hull.length), LeftTurn hull[i] hull[j] hull[k]
  /-- The first one is the lowest, and the leftmost of those. -/
  first : ∀ s ∈ hull.head?, ∀ p ∈ points, s.y < p.y ∨ s.y = p.y ∧ s.x ≤ p.x

/-- `lt` is a strict weak order of the elements of `l`, as `std::sort` demands. -/
structure StrictWeak (lt : Pt K → Pt K → Bool) (l : List (Pt K)) : Prop where
  irrefl : ∀ a ∈ l, lt a a = false
  trans : ∀ a ∈ l, ∀ b ∈ l, ∀ c ∈ l, lt a b = true → lt b c = true → lt a c = true
  incomp : ∀ a ∈ l, ∀ b ∈ l, ∀ c ∈ l, lt a b = false → lt b a = false → lt b c = false → lt c b = false →
    lt a c = false ∧ lt c a = false

/-- What `std::sort` guarantees: for a strict weak order, a permutation in which no element is before an earlier one. -/
def Sorts (sort : (Pt K → Pt K → Bool) → List (Pt K) → List (Pt K)) : Prop :=
  ∀ lt l, StrictWeak lt l → (sort lt l).Perm l ∧ (sort lt l).Pairwise fun a b => lt b a = false

end Verif.Geo.Spec
