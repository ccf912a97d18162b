import Verif.Lemmas.ConvexHull

/-!
# C51: `ConvexHull` returns the corners of the convex hull

In exact arithmetic. `Spec.IsHullOf` says what the corners of a convex hull are, `Spec.Sorts` what `std::sort` guarantees.
-/

set_option autoImplicit false
set_option linter.unusedSectionVars false

namespace Verif.Geo.Hull

open Verif.Geo Verif.Geo.Spec

variable {K : Type} [Field K] [LinearOrder K] [IsStrictOrderedRing K]

/-- `s` is the lowest of the points, and the leftmost of those. -/
def IsLowest (s : Pt K) (points : List (Pt K)) : Prop := s ∈ points ∧ ∀ p ∈ points, s.y < p.y ∨ s.y = p.y ∧ s.x ≤ p.x

theorem startPoint_spec (front : Pt K) (rest : List (Pt K)) :
    IsLowest (startPoint front rest) (front :: rest) := by
  suffices h : ∀ (rest seen : List (Pt K)) (m : Pt K), IsLowest m seen →
      IsLowest (rest.foldl (fun m p => if lower p m then p else m) m) (seen ++ rest) by
    exact h rest [front] front ⟨by simp, by simp⟩
  intro rest
  induction rest with
  | nil => intro seen m h; simpa using h
  | cons p rest ih =>
    intro seen m h
    rw [List.foldl_cons, show seen ++ p :: rest = (seen ++ [p]) ++ rest by simp]
    apply ih
    by_cases c : lower p m = true
    · rw [if_pos c]
      simp only [lower, Bool.or_eq_true, Bool.and_eq_true, decide_eq_true_eq] at c
      refine ⟨by simp, fun q hq => ?_⟩
      rcases List.mem_append.1 hq with hq | hq
      · rcases h.2 q hq with a | ⟨a, a'⟩ <;> rcases c with b | ⟨b, b'⟩
        · exact Or.inl (b.trans a)
        · exact Or.inl (b ▸ a)
        · exact Or.inl (a ▸ b)
        · exact Or.inr ⟨b.trans a, (b'.trans_le a').le⟩
      · rw [List.mem_singleton.1 hq]; exact Or.inr ⟨rfl, le_refl _⟩
    · rw [if_neg c]
      simp only [lower, Bool.or_eq_true, Bool.and_eq_true, decide_eq_true_eq] at c
      push Not at c
      refine ⟨List.mem_append_left _ h.1, fun q hq => ?_⟩
      rcases List.mem_append.1 hq with hq | hq
      · exact h.2 q hq
      · rw [List.mem_singleton.1 hq]
        rcases c.1.lt_or_eq with a | a
        · exact Or.inl a
        · exact Or.inr ⟨a, c.2 a.symm⟩

theorem IsLowest.after {s : Pt K} {points : List (Pt K)} (h : IsLowest s points) {p : Pt K} (hp : p ∈ points)
    (ne : p ≠ s) : After s p := by
  rcases h.2 p hp with a | ⟨a, b⟩
  · exact Or.inl a
  · exact Or.inr ⟨a, lt_of_le_of_ne b fun e => ne (Pt.ext e.symm a.symm)⟩

theorem IsLowest.unique {s t : Pt K} {points : List (Pt K)} (h : IsLowest s points) (h' : IsLowest t points) : s = t := by
  by_contra ne
  rcases h.after h'.1 (Ne.symm ne) with a | a <;> rcases h'.after h.1 ne with b | b
  · exact lt_asymm a b
  · exact absurd b.1 (ne_of_gt a)
  · exact absurd a.1 (ne_of_gt b)
  · exact lt_asymm a.2 b.2

/-- Of two points in the same direction, the one that is not after the other in x is between it and the start. -/
theorem behind_of_not_before {s q p : Pt K} (hq : After s q) (hp : After s p) (h : before s p q = false)
    (hv : p.x = s.x → q.x = s.x → q = p) : Behind s p q := by
  rw [not_before_iff, turn_swap] at h
  refine ⟨by linarith [h.1], fun e => ?_⟩
  have hx := h.2 (by rw [e]; simp)
  simp only [turn] at e
  by_cases px : p.x = s.x
  · have qx : q.x = s.x := by
      rw [px, sub_self, abs_zero] at hx
      exact sub_eq_zero.1 (abs_nonpos_iff.1 hx)
    rw [hv px qx]
    exact onSegment_stop (⟨s, p⟩ : Segment K)
  · have dx : p.x - s.x ≠ 0 := sub_ne_zero.2 px
    have ey : q.y - s.y = (q.x - s.x) / (p.x - s.x) * (p.y - s.y) := by
      rw [div_mul_eq_mul_div, eq_div_iff dx]; linear_combination -e
    have ab : |(q.x - s.x) / (p.x - s.x)| ≤ 1 := by
      rw [abs_div, div_le_one (abs_pos.2 dx)]; exact hx
    refine ⟨(q.x - s.x) / (p.x - s.x), ?_, (le_abs_self _).trans ab, ?_, ?_⟩
    · by_contra neg
      have neg := not_le.1 neg
      rcases hp with hp | ⟨hp, hp'⟩
      · have := mul_neg_of_neg_of_pos neg (sub_pos.2 hp)
        rw [← ey] at this
        rcases hq with hq | ⟨hq, -⟩ <;> linarith
      · rw [← hp, sub_self, mul_zero] at ey
        rcases hq with hq | ⟨-, hq⟩
        · linarith
        · exact absurd (div_pos (sub_pos.2 hq) (sub_pos.2 hp')) (not_lt.2 neg.le)
    · dsimp only; rw [div_mul_cancel₀ _ dx]; ring
    · dsimp only; linear_combination ey

/-- No two different points are directly above the lowest point (of which the leftmost counts). -/
def NoneStacked (points : List (Pt K)) : Prop :=
  ∀ s, IsLowest s points → ∀ p ∈ points, ∀ q ∈ points, p ≠ s → q ≠ s → p.x = s.x → q.x = s.x → q = p

theorem hull_core {sort : (Pt K → Pt K → Bool) → List (Pt K) → List (Pt K)} (hs : Sorts sort) {s : Pt K}
    {points kept : List (Pt K)} (L : IsLowest s points) (V : NoneStacked points) (sub : ∀ p ∈ kept, p ∈ points) :
    IsHullOf (scan s (sort (before s) (kept.filter fun v => decide (v ≠ s)))) (s :: kept) := by
  set l := kept.filter fun v => decide (v ≠ s) with hl
  have meml : ∀ v, v ∈ l ↔ v ∈ kept ∧ v ≠ s := by intro v; rw [hl]; simp
  have hA : ∀ v ∈ l, After s v := fun v hv => L.after (sub v ((meml v).1 hv).1) ((meml v).1 hv).2
  obtain ⟨perm, srt⟩ := hs (before s) l (strictWeak s l hA)
  have hA' : ∀ v ∈ sort (before s) l, After s v := fun v hv => hA v (perm.mem_iff.1 hv)
  have P : (sort (before s) l).Pairwise fun q p => Behind s p q := by
    refine srt.imp_of_mem ?_
    intro q p hq hp h
    have hq' := (meml q).1 (perm.mem_iff.1 hq)
    have hp' := (meml p).1 (perm.mem_iff.1 hp)
    exact behind_of_not_before (hA' q hq) (hA' p hp) h (V s L p (sub p hp'.1) q (sub q hq'.1) hp'.2 hq'.2)
  obtain ⟨h1, h2, h3, h4, h5⟩ := scan_spec hA' P
  refine ⟨?_, ?_, h3, h4, ?_⟩
  · intro v hv
    rcases h1 v hv with h | h
    · rw [h]; simp
    · exact List.mem_cons_of_mem _ ((meml v).1 (perm.mem_iff.1 h)).1
  · intro p hp
    by_cases e : p = s
    · exact h2 p (Or.inl e)
    · refine h2 p (Or.inr (perm.mem_iff.2 ((meml p).2 ⟨?_, e⟩)))
      rcases List.mem_cons.1 hp with hp | hp
      · exact absurd hp e
      · exact hp
  · intro t ht p hp
    rw [h5] at ht
    obtain rfl : s = t := by simpa using ht
    rcases List.mem_cons.1 hp with hp | hp
    · rw [hp]; exact Or.inr ⟨rfl, le_refl _⟩
    · exact L.2 p (sub p hp)

/-- C51, at most 500 points of which no two are directly above the lowest one: the result consists of the corners of the
convex hull. Not in general: `C51_stacked_counterexample`, `C51_large`. -/
theorem C51_hull_partial (sort : (Pt K → Pt K → Bool) → List (Pt K) → List (Pt K)) (hs : Sorts sort)
    (points : List (Pt K)) (hn : points.length ≤ 500) (hv : NoneStacked points) :
    IsHullOf (convexHull sort points) points := by
  match points, hn, hv with
  | [], _, _ => exact ⟨by simp [convexHull], by simp, by simp [convexHull], by simp [convexHull], by simp⟩
  | [p], _, _ =>
    refine ⟨by simp [convexHull], ?_, by simp [convexHull], ?_, ?_⟩
    · intro q hq; exact .point _ (by simpa [convexHull] using hq)
    · intro i j k hij hjk hk; simp [convexHull] at hk; omega
    · intro s hs q hq
      simp [convexHull] at hs hq
      rw [hq, hs]; exact Or.inr ⟨rfl, le_refl _⟩
  | front :: second :: rest, hn, hv =>
    have L := startPoint_spec front (second :: rest)
    have h := hull_core hs L hv (kept := front :: second :: rest) (fun p hp => hp)
    have e : convexHull sort (front :: second :: rest) = scan (startPoint front (second :: rest))
        (sort (before (startPoint front (second :: rest)))
          ((front :: second :: rest).filter fun v => decide (v ≠ startPoint front (second :: rest)))) := by
      unfold convexHull
      dsimp only
      rw [if_neg (by omega)]
    rw [e]
    refine ⟨?_, fun p hp => h.covers p (List.mem_cons_of_mem _ hp), h.nodup, h.convex,
      fun s hs p hp => h.first s hs p (List.mem_cons_of_mem _ hp)⟩
    intro v hv'
    rcases List.mem_cons.1 (h.subset v hv') with e | e
    · rw [e]; exact L.1
    · exact e

/-- C51, any number of points of which no two are directly above the lowest one: the result is a convex polygon, listed
counterclockwise from the lowest point on, whose corners are given points. -/
theorem C51_polygon_partial (sort : (Pt K → Pt K → Bool) → List (Pt K) → List (Pt K)) (hs : Sorts sort)
    (points : List (Pt K)) (hv : NoneStacked points) :
    (∀ v ∈ convexHull sort points, v ∈ points) ∧ IsHullOf (convexHull sort points) (convexHull sort points) := by
  suffices h : ∃ kept, (∀ p ∈ kept, p ∈ points) ∧ IsHullOf (convexHull sort points) kept by
    obtain ⟨kept, hk, h⟩ := h
    exact ⟨fun v hv => hk v (h.subset v hv), fun v hv => hv, fun p hp => .point p hp, h.nodup, h.convex,
      fun s hs p hp => h.first s hs p (h.subset p hp)⟩
  match points, hv with
  | [], hv => exact ⟨[], by simp, C51_hull_partial sort hs [] (by simp) hv⟩
  | [p], hv => exact ⟨[p], by simp, C51_hull_partial sort hs [p] (by simp) hv⟩
  | front :: second :: rest, hv =>
    have L := startPoint_spec front (second :: rest)
    have sub : ∀ p ∈ (if (front :: second :: rest).length > 500 then prune (front :: second :: rest)
        else front :: second :: rest), p ∈ front :: second :: rest := by
      intro p hp
      split at hp
      · rw [prune] at hp; exact List.mem_of_mem_filter hp
      · exact hp
    refine ⟨_, ?_, hull_core hs L hv sub⟩
    intro p hp
    rcases List.mem_cons.1 hp with e | e
    · rw [e]; exact L.1
    · exact sub p e

/-- C51: the comparison given to `std::sort` is a strict weak order of the points it sorts, for any points: the result does
not depend on what the sorting does otherwise. -/
theorem C51_sort_defined (sort sort' : (Pt K → Pt K → Bool) → List (Pt K) → List (Pt K))
    (h : ∀ lt l, StrictWeak lt l → sort lt l = sort' lt l) (points : List (Pt K)) :
    convexHull sort points = convexHull sort' points := by
  match points with
  | [] => rfl
  | [p] => rfl
  | front :: second :: rest =>
    unfold convexHull
    dsimp only
    congr 1
    apply h
    apply strictWeak
    have L := startPoint_spec front (second :: rest)
    intro p hp
    rw [List.mem_filter] at hp
    refine L.after ?_ (by simpa using hp.2)
    have := hp.1
    split at this
    · rw [prune] at this; exact List.mem_of_mem_filter this
    · exact this

/-! ## Edges -/

theorem turn_combination {a b : Pt K} {hull : List (Pt K)} (h : ∀ v ∈ hull, 0 ≤ turn a b v) {p : Pt K}
    (hp : InHull hull p) : 0 ≤ turn a b p := by
  induction hp with
  | point p hp => exact h p hp
  | between c d p _ _ hseg ihc ihd =>
    obtain ⟨t, h0, h1, hx, hy⟩ := hseg
    dsimp only at hx hy
    have e : turn a b p = (1 - t) * turn a b c + t * turn a b d := by simp only [turn, hx, hy]; ring
    rw [e]
    exact add_nonneg (mul_nonneg (by linarith) ihc) (mul_nonneg h0 ihd)

/-- C51: no point is to the right of an edge of the hull, including the edge from the last corner to the first. -/
theorem C51_edges_partial (sort : (Pt K → Pt K → Bool) → List (Pt K) → List (Pt K)) (hs : Sorts sort)
    (points : List (Pt K)) (hn : points.length ≤ 500) (hv : NoneStacked points) (i : ℕ)
    (hi : i < (convexHull sort points).length) (a b : Pt K) (ha : (convexHull sort points)[i]? = some a)
    (hb : (convexHull sort points)[(i + 1) % (convexHull sort points).length]? = some b) (p : Pt K) (hp : p ∈ points) :
    ¬ LeftTurn b a p := by
  have H := C51_hull_partial sort hs points hn hv
  generalize convexHull sort points = hull at *
  suffices h : 0 ≤ turn a b p by
    intro hl
    have e : turn a b p = -((a.x - b.x) * (p.y - b.y) - (a.y - b.y) * (p.x - b.x)) := by simp only [turn]; ring
    have := neg_neg_of_pos (show 0 < (a.x - b.x) * (p.y - b.y) - (a.y - b.y) * (p.x - b.x) from hl)
    linarith
  refine turn_combination (fun v hv => ?_) (H.covers p hp)
  obtain ⟨k, hk, rfl⟩ := List.getElem_of_mem hv
  rw [List.getElem?_eq_some_iff] at ha hb
  obtain ⟨_, rfl⟩ := ha
  obtain ⟨hb', rfl⟩ := hb
  have cyc : ∀ a b c : Pt K, turn a b c = turn c a b := fun a b c => by simp only [turn]; ring
  have conv : ∀ i j k (_ : i < j) (_ : j < k) (hk : k < hull.length), 0 < turn hull[i] hull[j] hull[k] := H.convex
  rcases Nat.lt_or_ge (i + 1) hull.length with c | c
  · have e : (i + 1) % hull.length = i + 1 := Nat.mod_eq_of_lt c
    simp only [e]
    rcases lt_trichotomy k i with hki | hki | hki
    · rw [cyc]; exact (conv k i (i + 1) hki (by omega) c).le
    · subst hki; simp only [turn]; apply le_of_eq; ring
    · rcases Nat.lt_or_ge (i + 1) k with h | h
      · exact (conv i (i + 1) k (by omega) h hk).le
      · obtain rfl : k = i + 1 := by omega
        simp only [turn]; apply le_of_eq; ring
  · have e : (i + 1) % hull.length = 0 := by
      rw [show i + 1 = hull.length by omega]; exact Nat.mod_self _
    simp only [e]
    rcases Nat.eq_zero_or_pos k with h | h
    · subst h; simp only [turn]; apply le_of_eq; ring
    · rcases Nat.lt_or_ge k i with h' | h'
      · rw [cyc, cyc]
        rw [cyc]
        have := (conv 0 k i h h' hi).le
        rw [cyc] at this
        exact this
      · obtain rfl : k = i := by omega
        simp only [turn]; apply le_of_eq; ring

/-! ## More than 500 points -/

theorem extrema_maxX (front : Pt K) (rest : List (Pt K)) :
    (extrema front rest).maxX ∈ front :: rest ∧ ∀ p ∈ front :: rest, p.x ≤ (extrema front rest).maxX.x := by
  suffices h : ∀ (rest seen : List (Pt K)) (e : Extrema K), (e.maxX ∈ seen ∧ ∀ p ∈ seen, p.x ≤ e.maxX.x) →
      (rest.foldl Extrema.step e).maxX ∈ seen ++ rest ∧ ∀ p ∈ seen ++ rest, p.x ≤ (rest.foldl Extrema.step e).maxX.x by
    exact h rest [front] _ ⟨by simp, by simp⟩
  intro rest
  induction rest with
  | nil => intro seen e h; simpa using h
  | cons p rest ih =>
    intro seen e h
    rw [List.foldl_cons, show seen ++ p :: rest = (seen ++ [p]) ++ rest by simp]
    apply ih
    have key : (e.step p).maxX = if p.x > e.maxX.x then p else e.maxX := by
      unfold Extrema.step
      dsimp only
      split <;> split <;> (try split) <;> (try split) <;> rfl
    rw [key]
    split
    · rename_i c
      refine ⟨by simp, fun q hq => ?_⟩
      rcases List.mem_append.1 hq with hq | hq
      · exact (h.2 q hq).trans (le_of_lt c)
      · rw [List.mem_singleton.1 hq]
    · rename_i c
      refine ⟨List.mem_append_left _ h.1, fun q hq => ?_⟩
      rcases List.mem_append.1 hq with hq | hq
      · exact h.2 q hq
      · rw [List.mem_singleton.1 hq]; exact not_lt.1 c

theorem inHull_le {l : List (Pt K)} {m : K} (h : ∀ v ∈ l, v.x < m) {p : Pt K} (hp : InHull l p) : p.x < m := by
  induction hp with
  | point p hp => exact h p hp
  | between a b p _ _ hseg iha ihb =>
    obtain ⟨t, h0, h1, hx, -⟩ := hseg
    dsimp only at hx
    rcases h0.eq_or_lt with e | e
    · rw [hx, ← e]; linarith
    · have q1 := mul_lt_mul_of_pos_left ihb e
      have q2 := mul_le_mul_of_nonneg_left iha.le (sub_nonneg.2 h1)
      rw [hx]
      nlinarith

/-- C51 is false for more than 500 points: the points that the code prunes as interior include the rightmost one. If there is
one rightmost point and it is not also the lowest, it is not among the corners and outside of their convex hull. (The
leftmost and the topmost point are lost in the same way.) -/
theorem C51_large (sort : (Pt K → Pt K → Bool) → List (Pt K) → List (Pt K)) (hs : Sorts sort) (points : List (Pt K))
    (hn : 500 < points.length) (p : Pt K) (hp : p ∈ points) (right : ∀ q ∈ points, q ≠ p → q.x < p.x)
    (low : ¬ IsLowest p points) :
    ¬ InHull (convexHull sort points) p := by
  match points, hn, hp, right, low with
  | front :: second :: rest, hn, hp, right, low =>
    have L := startPoint_spec front (second :: rest)
    obtain ⟨m1, m2⟩ := extrema_maxX front (second :: rest)
    have em : (extrema front (second :: rest)).maxX = p := by
      by_contra ne
      exact absurd (m2 p hp) (not_le.2 (right _ m1 ne))
    have gone : p ∉ prune (front :: second :: rest) := by
      unfold prune
      dsimp only
      rw [List.mem_filter]
      rintro ⟨-, h⟩
      have : (⟨(extrema front (second :: rest)).minX, (extrema front (second :: rest)).maxX,
          (extrema front (second :: rest)).maxY⟩ : Triangle K).contains p = true := by
        rw [C24_triangle_contains]
        exact ⟨0, 1, 0, le_refl _, zero_le_one, le_refl _, by ring, by rw [em]; ring, by rw [em]; ring⟩
      rw [this] at h
      simp at h
    have ns : p ≠ startPoint front (second :: rest) := fun e => low (e ▸ L)
    intro hin
    refine absurd (inHull_le (m := p.x) ?_ hin) (lt_irrefl _)
    intro v hv
    unfold convexHull at hv
    dsimp only at hv
    rw [if_pos hn] at hv
    have sub : ∀ q ∈ (prune (front :: second :: rest)).filter (fun v => decide (v ≠ startPoint front (second :: rest))),
        q ∈ prune (front :: second :: rest) := fun q hq => List.mem_of_mem_filter hq
    have sub' : ∀ q ∈ prune (front :: second :: rest), q ∈ front :: second :: rest := fun q hq => by
      rw [prune] at hq; exact List.mem_of_mem_filter hq
    obtain ⟨perm, -⟩ := hs (before (startPoint front (second :: rest))) _
      (strictWeak _ ((prune (front :: second :: rest)).filter fun v => decide (v ≠ startPoint front (second :: rest)))
        (fun q hq => L.after (sub' q (sub q hq)) (by simpa using (List.mem_filter.1 hq).2)))
    have mem : ∀ (l st : List (Pt K)) (v : Pt K), v ∈ l.foldl addPoint st → v ∈ st ∨ v ∈ l := by
      intro l
      induction l with
      | nil => intro st v h; exact Or.inl h
      | cons x l ih =>
        intro st v h
        rw [List.foldl_cons] at h
        have pc : ∀ st : List (Pt K), ∀ v ∈ popConcave x st, v ∈ st := by
          intro st
          induction st with
          | nil => intro v h; exact h
          | cons b st ih =>
            intro v h
            rcases st with _ | ⟨a, r⟩
            · exact h
            · rw [popConcave] at h
              split at h
              · exact List.mem_cons_of_mem _ (ih v h)
              · exact h
        rcases ih _ v h with h | h
        · rcases List.mem_cons.1 h with h | h
          · exact Or.inr (by simp [h])
          · exact Or.inl (pc _ v h)
        · exact Or.inr (List.mem_cons_of_mem _ h)
    rw [scan, List.mem_reverse] at hv
    rcases mem _ _ v hv with h | h
    · rw [List.mem_singleton.1 h]
      exact right _ L.1 (Ne.symm ns)
    · have h' := sub v (perm.mem_iff.1 h)
      exact right v (sub' v h') fun e => gone (e ▸ h')

/-! ## A sorting routine, and examples -/

/-- Insertion into a sorted list, before equivalent elements. -/
def insertSorted (lt : Pt K → Pt K → Bool) (a : Pt K) : List (Pt K) → List (Pt K)
  | [] => [a]
  | b :: l => if lt b a then b :: insertSorted lt a l else a :: b :: l

/-- Insertion sort, which keeps the order of equivalent elements, as implementations of `std::sort` do for few elements. -/
def insertionSort (lt : Pt K → Pt K → Bool) : List (Pt K) → List (Pt K)
  | [] => []
  | a :: l => insertSorted lt a (insertionSort lt l)

theorem insertSorted_perm (lt : Pt K → Pt K → Bool) (a : Pt K) : ∀ l, (insertSorted lt a l).Perm (a :: l)
  | [] => .refl _
  | b :: l => by
    rw [insertSorted]
    split
    · exact ((insertSorted_perm lt a l).cons b).trans (.swap a b l)
    · exact .refl _

theorem insertionSort_perm (lt : Pt K → Pt K → Bool) : ∀ l, (insertionSort lt l).Perm l
  | [] => .refl _
  | a :: l => (insertSorted_perm lt a _).trans ((insertionSort_perm lt l).cons a)

theorem strictWeak_mono {lt : Pt K → Pt K → Bool} {l l' : List (Pt K)} (h : StrictWeak lt l) (sub : ∀ p ∈ l', p ∈ l) :
    StrictWeak lt l' :=
  ⟨fun a ha => h.irrefl a (sub a ha), fun a ha b hb c hc => h.trans a (sub a ha) b (sub b hb) c (sub c hc),
    fun a ha b hb c hc => h.incomp a (sub a ha) b (sub b hb) c (sub c hc)⟩

theorem strictWeak_neg_trans {lt : Pt K → Pt K → Bool} {l : List (Pt K)} (h : StrictWeak lt l) {a b c : Pt K} (ha : a ∈ l)
    (hb : b ∈ l) (hc : c ∈ l) (h1 : lt b a = false) (h2 : lt c b = false) : lt c a = false := by
  by_contra h3
  rw [Bool.not_eq_false] at h3
  rcases e1 : lt a b with _ | _
  · rcases e2 : lt b c with _ | _
    · have := (h.incomp a ha b hb c hc e1 h1 e2 h2).2
      rw [this] at h3; exact absurd h3 (by decide)
    · have := h.trans b hb c hc a ha e2 h3
      rw [this] at h1; exact absurd h1 (by decide)
  · have := h.trans c hc a ha b hb h3 e1
    rw [this] at h2; exact absurd h2 (by decide)

theorem insertSorted_sorted (lt : Pt K → Pt K → Bool) (a : Pt K) : ∀ l, StrictWeak lt (a :: l) →
    l.Pairwise (fun x y => lt y x = false) → (insertSorted lt a l).Pairwise fun x y => lt y x = false
  | [], _, _ => by simp [insertSorted]
  | b :: l, W, P => by
    rw [insertSorted]
    rw [List.pairwise_cons] at P
    split
    · rename_i c
      refine List.pairwise_cons.2 ⟨?_, insertSorted_sorted lt a l (strictWeak_mono W (by simp; tauto)) P.2⟩
      intro y hy
      rcases List.mem_cons.1 ((insertSorted_perm lt a l).mem_iff.1 hy) with hy | hy
      · rw [hy]
        rcases e : lt a b with _ | _
        · rfl
        · have := W.trans a (by simp) b (by simp) a (by simp) e c
          rw [W.irrefl a (by simp)] at this
          exact absurd this (by decide)
      · exact P.1 y hy
    · rename_i c
      rw [Bool.not_eq_true] at c
      refine List.pairwise_cons.2 ⟨?_, List.pairwise_cons.2 P⟩
      intro y hy
      rcases List.mem_cons.1 hy with e | hy'
      · rw [e]; exact c
      · exact strictWeak_neg_trans W (by simp) (by simp) (by simp [hy']) c (P.1 y hy')

/-- The specification of `std::sort` can be met. -/
theorem insertionSort_sorts : Sorts (insertionSort (K := K)) := by
  intro lt l W
  refine ⟨insertionSort_perm lt l, ?_⟩
  induction l with
  | nil => simp [insertionSort]
  | cons a l ih =>
    refine insertSorted_sorted lt a _ ?_ (ih (strictWeak_mono W (by simp; tauto)))
    exact strictWeak_mono W fun p hp => by
      rcases List.mem_cons.1 hp with h | h
      · simp [h]
      · exact List.mem_cons_of_mem _ ((insertionSort_perm lt l).mem_iff.1 h)

namespace Ex

/-- The points of convex_hull_test.cc `IgnoresInteriorPoints`. -/
def pts : List (Pt ℚ) :=
  [⟨4, 3⟩, ⟨2, 1⟩, ⟨0, 4⟩, ⟨-1, 2⟩, ⟨-2, 0⟩, ⟨-2, -1⟩, ⟨1, 0⟩, ⟨-3, 1⟩, ⟨5, 4⟩, ⟨2, -2⟩, ⟨3, 5⟩, ⟨5, 3⟩]

/-- The result of that test. -/
example : convexHull insertionSort pts = [⟨2, -2⟩, ⟨5, 3⟩, ⟨5, 4⟩, ⟨3, 5⟩, ⟨0, 4⟩, ⟨-3, 1⟩, ⟨-2, -1⟩] := by decide +kernel

/-- The hypotheses of `C51_hull_partial` and `C51_edges_partial`. -/
example : pts.length ≤ 500 ∧ Sorts (insertionSort (K := ℚ)) := ⟨by decide, insertionSort_sorts⟩

example : NoneStacked ([⟨0, 0⟩, ⟨3, 0⟩, ⟨0, 2⟩, ⟨1, 1⟩, ⟨0, 2⟩] : List (Pt ℚ)) := by
  intro s L p hp q hq ps qs px qx
  have e : s = ⟨0, 0⟩ := L.unique ⟨by simp, by simp⟩
  subst e
  simp only [List.mem_cons, List.not_mem_nil, or_false] at hp hq
  rcases hp with rfl | rfl | rfl | rfl | rfl <;> rcases hq with rfl | rfl | rfl | rfl | rfl <;> simp_all

/-- C51 is false if two points are directly above the lowest one: the comparison takes them for equivalent, and if the closer
one is sorted after the other, the other one is dropped. -/
theorem C51_stacked_counterexample :
    ∃ (sort : (Pt ℚ → Pt ℚ → Bool) → List (Pt ℚ) → List (Pt ℚ)) (points : List (Pt ℚ)), Sorts sort ∧ points.length ≤ 500 ∧
      convexHull sort points = [⟨0, 0⟩, ⟨0, 1⟩, ⟨-1, 1⟩] ∧ (⟨0, 2⟩ : Pt ℚ) ∈ points ∧
      ¬ InHull (convexHull sort points) ⟨0, 2⟩ := by
  refine ⟨insertionSort, [⟨0, 0⟩, ⟨0, 2⟩, ⟨0, 1⟩, ⟨-1, 1⟩], insertionSort_sorts, by decide, by decide +kernel, by simp, ?_⟩
  have e : convexHull insertionSort ([⟨0, 0⟩, ⟨0, 2⟩, ⟨0, 1⟩, ⟨-1, 1⟩] : List (Pt ℚ)) = [⟨0, 0⟩, ⟨0, 1⟩, ⟨-1, 1⟩] := by
    decide +kernel
  rw [e]
  intro h
  -- all points of the result are at most at height 1
  have := turn_combination (a := ⟨1, 1⟩) (b := ⟨0, 1⟩) (p := ⟨0, 2⟩) ?_ h
  · norm_num [turn] at this
  · intro v hv
    simp only [List.mem_cons, List.not_mem_nil, or_false] at hv
    rcases hv with rfl | rfl | rfl <;> norm_num [turn]

/-- Many points, most of them the same. -/
def many (n : ℕ) : List (Pt ℚ) := ⟨0, 0⟩ :: ⟨10, 1⟩ :: ⟨5, 10⟩ :: List.replicate n ⟨5, 5⟩

theorem foldl_replicate {α β : Type} (f : α → β → α) (a : α) (b : β) (h : f a b = a) :
    ∀ n, (List.replicate n b).foldl f a = a
  | 0 => rfl
  | n + 1 => by rw [List.replicate_succ, List.foldl_cons, h]; exact foldl_replicate f a b h n

/-- C51 is false for more than 500 points: the result can be a single point. It meets the hypotheses of `C51_large`. -/
theorem C51_large_counterexample (n : ℕ) (hn : 498 ≤ n) :
    (many n).length = n + 3 ∧ convexHull insertionSort (many n) = [⟨0, 0⟩] ∧
      ¬ IsHullOf (convexHull insertionSort (many n)) (many n) := by
  have hl : (many n).length = n + 3 := by rw [many]; simp only [List.length_cons, List.length_replicate]
  refine ⟨hl, ?_, fun h => ?_⟩
  · have st : startPoint (⟨0, 0⟩ : Pt ℚ) (⟨10, 1⟩ :: ⟨5, 10⟩ :: List.replicate n ⟨5, 5⟩) = ⟨0, 0⟩ := by
      rw [startPoint, List.foldl_cons, List.foldl_cons]
      exact foldl_replicate _ _ _ (by decide +kernel) n
    have ext : extrema (⟨0, 0⟩ : Pt ℚ) (⟨10, 1⟩ :: ⟨5, 10⟩ :: List.replicate n ⟨5, 5⟩) =
        ⟨⟨10, 1⟩, ⟨5, 10⟩, ⟨0, 0⟩, ⟨0, 0⟩⟩ := by
      rw [extrema, List.foldl_cons, List.foldl_cons]
      exact foldl_replicate _ _ _ (by norm_num [Extrema.step]) n
    have pr : prune (many n) = [] := by
      rw [many, prune]
      rw [ext]
      dsimp only
      rw [List.filter_eq_nil_iff]
      intro a ha
      simp only [List.mem_cons, List.mem_replicate] at ha
      rcases ha with rfl | rfl | rfl | ⟨-, rfl⟩ <;> decide +kernel
    have e : convexHull insertionSort (many n) = scan (⟨0, 0⟩ : Pt ℚ) (insertionSort (before ⟨0, 0⟩) []) := by
      rw [show many n = (⟨0, 0⟩ : Pt ℚ) :: ⟨10, 1⟩ :: (⟨5, 10⟩ :: List.replicate n ⟨5, 5⟩) from rfl] at pr hl ⊢
      rw [convexHull]
      rw [if_pos (by omega), pr, st]
      rfl
    rw [e]; rfl
  · refine C51_large insertionSort insertionSort_sorts (many n) (by omega) ⟨10, 1⟩ (by simp [many]) ?_ ?_
      (h.covers _ (by simp [many]))
    · intro q hq ne
      simp only [many, List.mem_cons, List.mem_replicate] at hq
      rcases hq with rfl | rfl | rfl | ⟨-, rfl⟩
      · norm_num
      · exact absurd rfl ne
      · norm_num
      · norm_num
    · intro L
      have := L.2 ⟨0, 0⟩ (by simp [many])
      norm_num at this

end Ex

end Verif.Geo.Hull
