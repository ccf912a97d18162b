import Verif.Lemmas.ExtrusionCaps
import Verif.Props.SegmentAlgorithms

/-!
# The extrusion points of turns
-/

set_option autoImplicit false

namespace Verif.RealGeom

open Spec Real TipShape

/-! ## Crossing segments -/

theorem onSegment_iff (p q z : ℂ) : Geo.Spec.OnSegment (⟨z.re, z.im⟩ : Geo.Pt ℝ) ⟨⟨p.re, p.im⟩, ⟨q.re, q.im⟩⟩ ↔ OnSegment p q z := by
  unfold Geo.Spec.OnSegment OnSegment
  refine exists_congr fun t => and_congr_right fun _ => and_congr_right fun _ => ?_
  constructor
  · rintro ⟨h1, h2⟩
    apply Complex.ext
    · simpa using h1
    · simpa using h2
  · intro h
    refine ⟨?_, ?_⟩
    · rw [h]; simp
    · rw [h]; simp

theorem intersection_spec (a b c d : ℂ) : ∃ r, segmentIntersection a b c d = some r ∧
    ((r = none ∧ ∀ z, ¬(OnSegment a b z ∧ OnSegment c d z)) ∨ ∃ z, r = some z ∧ OnSegment a b z ∧ OnSegment c d z) := by
  obtain ⟨r, h1, h2, h3⟩ := Geo.C53_intersection (⟨⟨a.re, a.im⟩, ⟨b.re, b.im⟩⟩ : Geo.Segment ℝ) ⟨⟨c.re, c.im⟩, ⟨d.re, d.im⟩⟩
  unfold segmentIntersection
  rw [h1]
  refine ⟨_, rfl, ?_⟩
  cases r with
  | none =>
    left
    refine ⟨rfl, fun z hz => h2.1 rfl ⟨⟨z.re, z.im⟩, ?_, ?_⟩⟩
    · exact (onSegment_iff _ _ _).2 hz.1
    · exact (onSegment_iff _ _ _).2 hz.2
  | some p =>
    right
    obtain ⟨t, ⟨t0, t1, t2, -⟩, rfl⟩ := h3 p rfl
    refine ⟨_, rfl, ?_, ?_⟩
    · exact (onSegment_iff _ _ _).1 ⟨t, t0, t1, rfl, rfl⟩
    · exact (onSegment_iff _ _ _).1 t2

theorem crossing_spec (a b c : Circle) (α β : ℝ) (l : List ℂ) : ∃ q, CircularTurn.addIntersection a b c α β l = some (l ++ q) ∧
    Crossing (a.getPoint α) (b.getPoint α) (b.getPoint β) (c.getPoint β) q := by
  unfold CircularTurn.addIntersection
  obtain ⟨r, h1, h2⟩ := intersection_spec (a.getPoint α) (b.getPoint α) (b.getPoint β) (c.getPoint β)
  rw [h1]
  rcases h2 with ⟨rfl, h2⟩ | ⟨z, rfl, h2, h3⟩
  · exact ⟨_, rfl, Or.inr ⟨h2, rfl⟩⟩
  · exact ⟨_, rfl, Or.inl ⟨z, h2, h3, rfl⟩⟩

/-! ## Arcs -/

theorem follows_arc {c : Circle} {a start arc h : ℝ} (hr : 0 ≤ c.radius) (hh : 0 < h) (hbig : c.radius ≤ 200000000 * h) (harc : |arc| ≤ 2 * π)
    (ha : SameAngle start a) (l : List ℂ) : ∃ q, c.appendArcToPolyline start arc h l = some (l ++ q) ∧ FollowsArc c a arc h q := by
  obtain ⟨n, hn0, hn1, hn2, hn3, -⟩ := append_spec (c := c) (start := start) (arc := arc) (h := h) (l := l) hr hh
  refine ⟨_, hn0, n, hn1, ?_, ?_⟩
  · refine List.map_congr_left fun i _ => ?_
    refine SameAngle.getPoint ?_ c
    obtain ⟨k, hk⟩ := ha
    exact ⟨k, by rw [hk]; ring⟩
  · have := arc_height (a := |arc|) (b := 0) hr hh hbig (abs_nonneg _) (by rw [sub_zero]; exact harc)
      (by rcases abs_choice arc with e | e
          · right; rw [e, sub_zero]
          · left; rw [e]; ring) hn1 hn3
    intro i _
    rw [chordHeight_eq, abs_of_nonneg hr, show (a + (i + 1) * (arc / n) - (a + i * (arc / n))) / 2 = arc / n / 2 by ring]
    rw [sub_zero] at this
    rcases abs_choice arc with e | e
    · rwa [e] at this
    · rwa [e, show -arc / n / 2 = -(arc / n / 2) by ring, Real.cos_neg] at this

/-! ## Points are inside -/

theorem segment_hull {a b : Circle} (ha : 0 ≤ a.radius) (hb : 0 ≤ b.radius) {α β : ℝ} {z : ℂ} (h : OnSegment (a.getPoint α) (b.getPoint β) z) :
    z ∈ hull [a, b] := by
  obtain ⟨t, t0, t1, rfl⟩ := h
  have p1 : a.getPoint α ∈ hull [a, b] := subset_convexHull ℝ _ ⟨a, by simp, getPoint_in ha α⟩
  have p2 : b.getPoint β ∈ hull [a, b] := subset_convexHull ℝ _ ⟨b, by simp, getPoint_in hb β⟩
  have := (convex_convexHull ℝ _) p1 p2 (by linarith : 0 ≤ 1 - t) t0 (by ring)
  rw [Complex.real_smul, Complex.real_smul] at this
  rw [show a.getPoint α + t * (b.getPoint β - a.getPoint α) = ((1 - t : ℝ) : ℂ) * a.getPoint α + t * b.getPoint β by push_cast; ring]
  exact this

theorem arc_inside {c : Circle} {start arc h : ℝ} {l l' : List ℂ} (hr : 0 ≤ c.radius) (he : c.appendArcToPolyline start arc h l = some l') :
    ∃ q, l' = l ++ q ∧ ∀ p ∈ q, ∃ θ, p = c.getPoint θ := by
  by_cases hh : 0 < h
  · obtain ⟨n, hn0, -⟩ := append_spec (c := c) (start := start) (arc := arc) (h := h) (l := l) hr hh
    rw [hn0] at he
    refine ⟨_, (Option.some.inj he).symm, fun p hp => ?_⟩
    obtain ⟨i, -, rfl⟩ := List.mem_map.1 hp
    exact ⟨_, rfl⟩
  · unfold Circle.appendArcToPolyline at he
    rw [if_neg hh] at he
    cases he

theorem crossing_inside {a b c : Circle} (ha : 0 ≤ a.radius) (hb : 0 ≤ b.radius) {α β : ℝ} {S : Set ℂ} (h1 : hull [a, b] ⊆ S) {q : List ℂ}
    (h : Crossing (a.getPoint α) (b.getPoint α) (b.getPoint β) (c.getPoint β) q) : ∀ p ∈ q, p ∈ S := by
  intro p hp
  rcases h with ⟨z, z1, z2, rfl⟩ | ⟨-, rfl⟩
  · rw [List.mem_singleton] at hp
    subst hp
    exact h1 (segment_hull ha hb z1)
  · simp only [List.mem_cons, List.not_mem_nil, or_false] at hp
    rcases hp with rfl | rfl <;> exact h1 (subset_convexHull ℝ _ ⟨b, by simp, getPoint_in hb _⟩)

theorem appendLeft_inside {a b c : Circle} (ha : 0 ≤ a.radius) (hb : 0 ≤ b.radius) {S : Set ℂ} (h1 : hull [a, b] ⊆ S) {h : ℝ} {ai : Bool}
    {l l' : List ℂ} (he : CircularTurn.appendLeft a b c h ai l = some l') : ∃ q, l' = l ++ q ∧ ∀ p ∈ q, p ∈ S := by
  unfold CircularTurn.appendLeft at he
  cases ht : CircularTurn.angles a b c with
  | none => rw [ht] at he; cases he
  | some t =>
    obtain ⟨inc, out⟩ := t
    rw [ht] at he
    dsimp only at he
    cases hc : (CircularTurn.arcs a b c inc out ai).1 with
    | true =>
      rw [hc, if_pos rfl] at he
      obtain ⟨q, hq, hall⟩ := arc_inside hb he
      refine ⟨q, hq, fun p hp => ?_⟩
      obtain ⟨θ, rfl⟩ := hall p hp
      exact h1 (subset_convexHull ℝ _ ⟨b, by simp, getPoint_in hb _⟩)
    | false =>
      rw [hc, if_neg (by simp)] at he
      obtain ⟨q, hq, hx⟩ := crossing_spec a b c inc.left out.left l
      rw [hq] at he
      exact ⟨q, (Option.some.inj he).symm, crossing_inside ha hb h1 hx⟩

theorem appendRight_inside {a b c : Circle} (ha : 0 ≤ a.radius) (hb : 0 ≤ b.radius) {S : Set ℂ} (h1 : hull [a, b] ⊆ S) {h : ℝ} {ai : Bool}
    {l l' : List ℂ} (he : CircularTurn.appendRight a b c h ai l = some l') : ∃ q, l' = l ++ q ∧ ∀ p ∈ q, p ∈ S := by
  unfold CircularTurn.appendRight at he
  cases ht : CircularTurn.angles a b c with
  | none => rw [ht] at he; cases he
  | some t =>
    obtain ⟨inc, out⟩ := t
    rw [ht] at he
    dsimp only at he
    cases hc : (CircularTurn.arcs a b c inc out ai).2 with
    | true =>
      rw [hc, if_pos rfl] at he
      obtain ⟨q, hq, hall⟩ := arc_inside hb he
      refine ⟨q, hq, fun p hp => ?_⟩
      obtain ⟨θ, rfl⟩ := hall p hp
      exact h1 (subset_convexHull ℝ _ ⟨b, by simp, getPoint_in hb _⟩)
    | false =>
      rw [hc, if_neg (by simp)] at he
      obtain ⟨q, hq, hx⟩ := crossing_spec a b c inc.right out.right l
      rw [hq] at he
      exact ⟨q, (Option.some.inj he).symm, crossing_inside ha hb h1 hx⟩

theorem leftTurns_inside {S : Set ℂ} {h : ℝ} {ai : Bool} (cs : List Circle) (hr : ∀ c ∈ cs, 0 ≤ c.radius)
    (hc : cs.IsChain fun a b => hull [a, b] ⊆ S) {l l' : List ℂ} (he : appendLeftTurns h ai l cs = some l') :
    ∃ q, l' = l ++ q ∧ ∀ p ∈ q, p ∈ S := by
  induction cs generalizing l with
  | nil => simp only [appendLeftTurns, Option.some.injEq] at he; exact ⟨[], by simp [he], by simp⟩
  | cons a cs ih =>
    match cs, ih, hr, hc, he with
    | [], _, _, _, he => simp only [appendLeftTurns, Option.some.injEq] at he; exact ⟨[], by simp [he], by simp⟩
    | [b], _, _, _, he => simp only [appendLeftTurns, Option.some.injEq] at he; exact ⟨[], by simp [he], by simp⟩
    | b :: c :: cs, ih, hr, hc, he =>
      have hab := (List.isChain_cons_cons.1 hc).1
      have ih := fun l => ih (l := l) (fun x hx => hr x (List.mem_cons_of_mem _ hx)) (List.isChain_cons_cons.1 hc).2
      rw [appendLeftTurns] at he
      by_cases hb : b.radius = 0
      · rw [if_pos hb] at he
        obtain ⟨q, h1, h2⟩ := ih _ he
        refine ⟨b.center :: q, by rw [h1]; simp, fun p hp => ?_⟩
        rcases List.mem_cons.1 hp with rfl | hp
        · exact hab (subset_convexHull ℝ _ ⟨b, by simp, by unfold InDisc; rw [sub_self, norm_zero, hb]⟩)
        · exact h2 p hp
      · rw [if_neg hb] at he
        cases hx : CircularTurn.appendLeft a b c h ai l with
        | none => rw [hx] at he; cases he
        | some m =>
          rw [hx] at he
          obtain ⟨q, h1, h2⟩ := appendLeft_inside (hr a (by simp)) (hr b (by simp)) hab hx
          obtain ⟨q', h3, h4⟩ := ih _ he
          refine ⟨q ++ q', by rw [h3, h1, List.append_assoc], fun p hp => ?_⟩
          rcases List.mem_append.1 hp with g | g
          · exact h2 p g
          · exact h4 p g

theorem rightTurns_inside {S : Set ℂ} {h : ℝ} {ai : Bool} (cs : List Circle) (hr : ∀ c ∈ cs, 0 ≤ c.radius)
    (hc : cs.IsChain fun a b => hull [a, b] ⊆ S) {l l' : List ℂ} (he : appendRightTurns h ai l cs = some l') :
    ∃ q, l' = l ++ q ∧ ∀ p ∈ q, p ∈ S := by
  induction cs generalizing l with
  | nil => simp only [appendRightTurns, Option.some.injEq] at he; exact ⟨[], by simp [he], by simp⟩
  | cons a cs ih =>
    match cs, ih, hr, hc, he with
    | [], _, _, _, he => simp only [appendRightTurns, Option.some.injEq] at he; exact ⟨[], by simp [he], by simp⟩
    | [b], _, _, _, he => simp only [appendRightTurns, Option.some.injEq] at he; exact ⟨[], by simp [he], by simp⟩
    | b :: c :: cs, ih, hr, hc, he =>
      have hab := (List.isChain_cons_cons.1 hc).1
      have ih := fun l => ih (l := l) (fun x hx => hr x (List.mem_cons_of_mem _ hx)) (List.isChain_cons_cons.1 hc).2
      rw [appendRightTurns] at he
      by_cases hb : b.radius = 0
      · rw [if_pos hb] at he
        obtain ⟨q, h1, h2⟩ := ih _ he
        refine ⟨b.center :: q, by rw [h1]; simp, fun p hp => ?_⟩
        rcases List.mem_cons.1 hp with rfl | hp
        · exact hab (subset_convexHull ℝ _ ⟨b, by simp, by unfold InDisc; rw [sub_self, norm_zero, hb]⟩)
        · exact h2 p hp
      · rw [if_neg hb] at he
        cases hx : CircularTurn.appendRight a b c h ai l with
        | none => rw [hx] at he; cases he
        | some m =>
          rw [hx] at he
          obtain ⟨q, h1, h2⟩ := appendRight_inside (hr a (by simp)) (hr b (by simp)) hab hx
          obtain ⟨q', h3, h4⟩ := ih _ he
          refine ⟨q ++ q', by rw [h3, h1, List.append_assoc], fun p hp => ?_⟩
          rcases List.mem_append.1 hp with g | g
          · exact h2 p g
          · exact h4 p g

theorem walk_mem {s : TipShape} {next : ℕ → ℕ} {last : ℕ} {n i : ℕ} {cs : List Circle} (h : s.walk next last i n = some cs) :
    cs ≠ [] ∧ ∀ c ∈ cs, c ∈ s.circles := by
  induction n generalizing i cs with
  | zero => cases h
  | succ n ih =>
    rw [TipShape.walk] at h
    cases hc : s.circles[i]? with
    | none => rw [hc] at h; cases h
    | some c =>
      rw [hc] at h
      dsimp only at h
      by_cases hi : i = last
      · rw [if_pos hi] at h
        obtain rfl := Option.some.inj h
        refine ⟨by simp, fun x hx => ?_⟩
        rw [List.mem_singleton] at hx
        subst hx
        exact List.mem_of_getElem? hc
      · rw [if_neg hi] at h
        cases hw : s.walk next last (next i) n with
        | none => rw [hw] at h; cases h
        | some cs' =>
          rw [hw] at h
          obtain rfl := Option.some.inj h
          refine ⟨by simp, fun x hx => ?_⟩
          rcases List.mem_cons.1 hx with rfl | hx
          · exact List.mem_of_getElem? hc
          · exact (ih hw).2 x hx

/-- The chain from a circle of one shape along circles of another to one of a third. -/
theorem chain_inside {A B C : List Circle} {S : Set ℂ} (h1 : hull (A ++ B) ⊆ S) (h2 : hull (B ++ C) ⊆ S) {a d : Circle} (ha : a ∈ A) (hd : d ∈ C)
    {cs : List Circle} (hne : cs ≠ []) (hcs : ∀ c ∈ cs, c ∈ B) : (a :: cs ++ [d]).IsChain fun a b => hull [a, b] ⊆ S := by
  have sub : ∀ {X : List Circle} {x y : Circle}, x ∈ X → y ∈ X → hull [x, y] ⊆ hull X := by
    intro X x y hx hy
    refine convexHull_mono ?_
    rintro z ⟨c, hc, hz⟩
    simp only [List.mem_cons, List.not_mem_nil, or_false] at hc
    rcases hc with rfl | rfl
    · exact ⟨_, hx, hz⟩
    · exact ⟨_, hy, hz⟩
  have tail : ∀ (cs : List Circle), cs ≠ [] → (∀ c ∈ cs, c ∈ B) → (cs ++ [d]).IsChain fun a b => hull [a, b] ⊆ S := by
    intro cs
    induction cs with
    | nil => intro h; exact absurd rfl h
    | cons x xs ih =>
      intro _ hx
      cases xs with
      | nil =>
        refine List.isChain_cons_cons.2 ⟨Set.Subset.trans (sub ?_ ?_) h2, by simp⟩
        · exact List.mem_append.2 (Or.inl (hx x (by simp)))
        · exact List.mem_append.2 (Or.inr hd)
      | cons y ys =>
        refine List.isChain_cons_cons.2 ⟨Set.Subset.trans (sub ?_ ?_) h2, ih (by simp) fun c hc => hx c (List.mem_cons_of_mem _ hc)⟩
        · exact List.mem_append.2 (Or.inl (hx x (by simp)))
        · exact List.mem_append.2 (Or.inl (hx y (by simp)))
  cases cs with
  | nil => exact absurd rfl hne
  | cons x xs =>
    refine List.isChain_cons_cons.2 ⟨Set.Subset.trans (sub ?_ ?_) h1, tail (x :: xs) (by simp) hcs⟩
    · exact List.mem_append.2 (Or.inl ha)
    · exact List.mem_append.2 (Or.inr (hcs x (by simp)))

theorem turnLeft_inside {s1 s2 s3 : TipShape} (r1 : ∀ c ∈ s1.circles, 0 ≤ c.radius) (r2 : ∀ c ∈ s2.circles, 0 ≤ c.radius)
    (r3 : ∀ c ∈ s3.circles, 0 ≤ c.radius) {S : Set ℂ} (h1 : hull (s1.circles ++ s2.circles) ⊆ S) (h2 : hull (s2.circles ++ s3.circles) ⊆ S)
    {h : ℝ} {i j : TangentIndices} {x y : Circle.TangentAngles} {l l' : List ℂ} (he : turnLeft s1 s2 s3 h i j x y l = some l') :
    ∃ q, l' = l ++ q ∧ ∀ p ∈ q, p ∈ S := by
  unfold turnLeft at he
  cases ha : s1.circles[i.left.1]? with
  | none => rw [ha] at he; cases he
  | some a =>
  cases hb : s2.circles[i.left.2]? with
  | none => rw [ha, hb] at he; cases he
  | some b =>
  cases hc : s2.circles[j.left.1]? with
  | none => rw [ha, hb, hc] at he; cases he
  | some c =>
  cases hd : s3.circles[j.left.2]? with
  | none => rw [ha, hb, hc, hd] at he; cases he
  | some d =>
  rw [ha, hb, hc, hd] at he
  dsimp only at he
  have ma := List.mem_of_getElem? ha
  have mb := List.mem_of_getElem? hb
  have mc := List.mem_of_getElem? hc
  have md := List.mem_of_getElem? hd
  by_cases hcond : i.left.2 = j.left.1 ∨ y.left ≥ min x.right y.right
  · rw [if_pos hcond] at he
    cases hw : s2.walk s2.nextCw j.left.1 i.left.2 s2.circles.length with
    | none => rw [hw] at he; cases he
    | some cs =>
      rw [hw] at he
      obtain ⟨hne, hcs⟩ := walk_mem hw
      refine leftTurns_inside (a :: cs ++ [d]) ?_ (chain_inside h1 h2 ma md hne hcs) he
      intro e hem
      simp only [List.cons_append, List.mem_cons, List.mem_append] at hem
      rcases hem with rfl | g | rfl | g
      · exact r1 _ ma
      · exact r2 _ (hcs _ g)
      · exact r3 _ md
      · cases g
  · rw [if_neg hcond] at he
    obtain ⟨r, k1, k2⟩ := intersection_spec (a.getPoint x.left) (b.getPoint x.left) (c.getPoint y.left) (d.getPoint y.left)
    rw [k1] at he
    have hin : ∀ e ∈ s2.circles, ∀ θ, e.getPoint θ ∈ S := fun e hem θ =>
      h1 (subset_convexHull ℝ _ ⟨e, List.mem_append.2 (Or.inr hem), getPoint_in (r2 e hem) θ⟩)
    rcases k2 with ⟨rfl, -⟩ | ⟨z, rfl, z1, -⟩
    · refine ⟨_, (Option.some.inj he).symm, fun p hp => ?_⟩
      simp only [List.mem_cons, List.not_mem_nil, or_false] at hp
      rcases hp with rfl | rfl
      · exact hin b mb _
      · exact hin c mc _
    · refine ⟨_, (Option.some.inj he).symm, fun p hp => ?_⟩
      rw [List.mem_singleton] at hp
      subst hp
      refine h1 (convexHull_mono ?_ (segment_hull (r1 a ma) (r2 b mb) z1))
      rintro w ⟨e, hem, hw⟩
      simp only [List.mem_cons, List.not_mem_nil, or_false] at hem
      rcases hem with rfl | rfl
      · exact ⟨_, List.mem_append.2 (Or.inl ma), hw⟩
      · exact ⟨_, List.mem_append.2 (Or.inr mb), hw⟩

theorem turnRight_inside {s1 s2 s3 : TipShape} (r1 : ∀ c ∈ s1.circles, 0 ≤ c.radius) (r2 : ∀ c ∈ s2.circles, 0 ≤ c.radius)
    (r3 : ∀ c ∈ s3.circles, 0 ≤ c.radius) {S : Set ℂ} (h1 : hull (s1.circles ++ s2.circles) ⊆ S) (h2 : hull (s2.circles ++ s3.circles) ⊆ S)
    {h : ℝ} {i j : TangentIndices} {x y : Circle.TangentAngles} {l l' : List ℂ} (he : turnRight s1 s2 s3 h i j x y l = some l') :
    ∃ q, l' = l ++ q ∧ ∀ p ∈ q, p ∈ S := by
  unfold turnRight at he
  cases ha : s1.circles[i.right.1]? with
  | none => rw [ha] at he; cases he
  | some a =>
  cases hb : s2.circles[i.right.2]? with
  | none => rw [ha, hb] at he; cases he
  | some b =>
  cases hc : s2.circles[j.right.1]? with
  | none => rw [ha, hb, hc] at he; cases he
  | some c =>
  cases hd : s3.circles[j.right.2]? with
  | none => rw [ha, hb, hc, hd] at he; cases he
  | some d =>
  rw [ha, hb, hc, hd] at he
  dsimp only at he
  have ma := List.mem_of_getElem? ha
  have mb := List.mem_of_getElem? hb
  have mc := List.mem_of_getElem? hc
  have md := List.mem_of_getElem? hd
  by_cases hcond : i.right.2 = j.right.1 ∨ y.right > x.right ∨ y.left ≥ y.right ∧ x.right ≥ y.left
  · rw [if_pos hcond] at he
    cases hw : s2.walk s2.nextCcw j.right.1 i.right.2 s2.circles.length with
    | none => rw [hw] at he; cases he
    | some cs =>
      rw [hw] at he
      obtain ⟨hne, hcs⟩ := walk_mem hw
      refine rightTurns_inside (a :: cs ++ [d]) ?_ (chain_inside h1 h2 ma md hne hcs) he
      intro e hem
      simp only [List.cons_append, List.mem_cons, List.mem_append] at hem
      rcases hem with rfl | g | rfl | g
      · exact r1 _ ma
      · exact r2 _ (hcs _ g)
      · exact r3 _ md
      · cases g
  · rw [if_neg hcond] at he
    obtain ⟨r, k1, k2⟩ := intersection_spec (a.getPoint x.right) (b.getPoint x.right) (c.getPoint y.right) (d.getPoint y.right)
    rw [k1] at he
    have hin : ∀ e ∈ s2.circles, ∀ θ, e.getPoint θ ∈ S := fun e hem θ =>
      h1 (subset_convexHull ℝ _ ⟨e, List.mem_append.2 (Or.inr hem), getPoint_in (r2 e hem) θ⟩)
    rcases k2 with ⟨rfl, -⟩ | ⟨z, rfl, z1, -⟩
    · refine ⟨_, (Option.some.inj he).symm, fun p hp => ?_⟩
      simp only [List.mem_cons, List.not_mem_nil, or_false] at hp
      rcases hp with rfl | rfl
      · exact hin b mb _
      · exact hin c mc _
    · refine ⟨_, (Option.some.inj he).symm, fun p hp => ?_⟩
      rw [List.mem_singleton] at hp
      subst hp
      refine h1 (convexHull_mono ?_ (segment_hull (r1 a ma) (r2 b mb) z1))
      rintro w ⟨e, hem, hw⟩
      simp only [List.mem_cons, List.not_mem_nil, or_false] at hem
      rcases hem with rfl | rfl
      · exact ⟨_, List.mem_append.2 (Or.inl ma), hw⟩
      · exact ⟨_, List.mem_append.2 (Or.inr mb), hw⟩

theorem turn_inside {s1 s2 s3 : TipShape} (r1 : ∀ c ∈ s1.circles, 0 ≤ c.radius) (r2 : ∀ c ∈ s2.circles, 0 ≤ c.radius)
    (r3 : ∀ c ∈ s3.circles, 0 ≤ c.radius) {S : Set ℂ} (h1 : hull (s1.circles ++ s2.circles) ⊆ S) (h2 : hull (s2.circles ++ s3.circles) ⊆ S)
    {h : ℝ} {points new : ExtrusionPoints} (he : appendTurn s1 s2 s3 h points = some new) :
    ∃ l r, new = ⟨points.left ++ l, points.right ++ r⟩ ∧ (∀ p ∈ l, p ∈ S) ∧ ∀ p ∈ r, p ∈ S := by
  unfold appendTurn at he
  cases hi : tangentCircleIndices s1 s2 with
  | none => rw [hi] at he; cases he
  | some i =>
  cases hj : tangentCircleIndices s2 s3 with
  | none => rw [hi, hj] at he; cases he
  | some j =>
  rw [hi, hj] at he
  dsimp only at he
  cases hx : tangentAngles s1 s2 i with
  | none => rw [hx] at he; cases he
  | some x =>
  cases hy : tangentAngles s2 s3 j with
  | none => rw [hx, hy] at he; cases he
  | some y =>
  rw [hx, hy] at he
  dsimp only at he
  generalize (⟨x.left, CircularTurn.atLeast x.left x.right⟩ : Circle.TangentAngles) = x' at he
  generalize (⟨CircularTurn.atLeast x.left y.left, CircularTurn.atLeast x.left y.right⟩ : Circle.TangentAngles) = y' at he
  cases hl : turnLeft s1 s2 s3 h i j x' y' points.left with
  | none => rw [hl] at he; cases he
  | some l' =>
  cases hr : turnRight s1 s2 s3 h i j x' y' points.right with
  | none => rw [hl, hr] at he; cases he
  | some r' =>
  rw [hl, hr] at he
  obtain ⟨l, e1, e2⟩ := turnLeft_inside r1 r2 r3 h1 h2 hl
  obtain ⟨r, e3, e4⟩ := turnRight_inside r1 r2 r3 h1 h2 hr
  refine ⟨l, r, ?_, e2, e4⟩
  rw [← Option.some.inj he, e1, e3]

/-! ## Turns of circles of the same size -/

theorem atLeast_eq {L x y : ℝ} (hL : Normal L) (hx : Normal x) (h1 : L ≤ y) (h2 : y < L + 2 * π) (h : SameAngle x y) :
    CircularTurn.atLeast L x = y := by
  have hpi := Real.pi_pos
  obtain ⟨k, hk⟩ := h
  unfold CircularTurn.atLeast
  by_cases hlt : x < L
  · rw [if_pos hlt]
    have k1 : (k : ℝ) * (2 * π) < 0 := by linarith
    have k2 : -(2 * (2 * π)) < (k : ℝ) * (2 * π) := by linarith [hx.1, hL.2]
    have k1' : (k : ℝ) < 0 := by by_contra g; have := mul_nonneg (not_lt.1 g) (by linarith : 0 ≤ 2 * π); linarith
    have k2' : (-2 : ℝ) < k := by by_contra g; have := mul_le_mul_of_nonneg_right (not_lt.1 g) (by linarith : 0 ≤ 2 * π); linarith
    have k3 : k < 0 := by exact_mod_cast k1'
    have k4 : -2 < k := by exact_mod_cast k2'
    obtain rfl : k = -1 := by omega
    rw [hk]; push_cast; ring
  · rw [if_neg hlt]
    have k1 : (k : ℝ) * (2 * π) < 1 * (2 * π) := by linarith [hx.2, hL.1]
    have k2 : -1 * (2 * π) < (k : ℝ) * (2 * π) := by linarith
    have k1' : (k : ℝ) < 1 := lt_of_mul_lt_mul_right k1 (by linarith)
    have k2' : (-1 : ℝ) < k := lt_of_mul_lt_mul_right k2 (by linarith)
    have k3 : k < 1 := by exact_mod_cast k1'
    have k4 : -1 < k := by exact_mod_cast k2'
    obtain rfl : k = 0 := by omega
    rw [hk]; push_cast; ring

theorem snap_eq {L L' δ : ℝ} (hL : Normal L) (hL' : Normal L') (hδ : Normal δ) (h : SameAngle L' (L + δ)) :
    (|δ| < collinear → CircularTurn.snap L L' = L') ∧ (collinear ≤ |δ| → CircularTurn.snap L L' = L) := by
  have hpi := Real.pi_gt_three
  have tol : CircularTurn.collinearTol = collinear := rfl
  have tv : collinear = 1 / 100000 := rfl
  obtain ⟨k, hk⟩ := h
  have key : |L - L'| = |δ| ∨ |L - L'| = 2 * π - |δ| := by
    have k1 : (k : ℝ) * (2 * π) < 2 * (2 * π) := by linarith [hL.1, hL'.2, hδ.1]
    have k2 : -2 * (2 * π) < (k : ℝ) * (2 * π) := by linarith [hL.2, hL'.1, hδ.2]
    have k1' : (k : ℝ) < 2 := lt_of_mul_lt_mul_right k1 (by linarith)
    have k2' : (-2 : ℝ) < k := lt_of_mul_lt_mul_right k2 (by linarith)
    have k3 : k < 2 := by exact_mod_cast k1'
    have k4 : -2 < k := by exact_mod_cast k2'
    obtain rfl | rfl | rfl : k = 0 ∨ k = 1 ∨ k = -1 := by omega
    · left
      rw [hk, show L - (L + δ + ((0 : ℤ) : ℝ) * (2 * π)) = -δ by push_cast; ring, abs_neg]
    · right
      have : δ < 0 := by push_cast at hk; linarith [hL.1, hL'.2]
      rw [hk, show L - (L + δ + ((1 : ℤ) : ℝ) * (2 * π)) = -(2 * π + δ) by push_cast; ring, abs_neg, abs_of_nonneg (by linarith [hδ.1]),
        abs_of_neg this]
      ring
    · right
      have : 0 < δ := by push_cast at hk; linarith [hL.2, hL'.1]
      rw [hk, show L - (L + δ + ((-1 : ℤ) : ℝ) * (2 * π)) = 2 * π - δ by push_cast; ring, abs_of_nonneg (by linarith [hδ.2]), abs_of_pos this]
  have habs : |δ| ≤ π := abs_le.2 ⟨hδ.1.le, hδ.2⟩
  unfold CircularTurn.snap
  dsimp only
  rw [tol]
  constructor
  · intro hs
    rw [if_pos]
    rcases key with e | e
    · left; rw [e]; exact hs
    · right; rw [e]; linarith
  · intro hs
    rw [if_neg]
    push Not
    rcases key with e | e <;> rw [e] <;> exact ⟨by linarith, by linarith⟩

theorem equal_tangents {a b : Circle} (hr : a.radius = b.radius) (hne : a.center ≠ b.center) :
    a.getTangentAngles b = some ⟨Angle.normalizedAboutZero (Vec.direction (b.center - a.center) + π / 2),
      Angle.normalizedAboutZero (Vec.direction (b.center - a.center) - π / 2)⟩ := by
  unfold Circle.getTangentAngles
  dsimp only
  rw [if_neg]
  · rw [hr, sub_self, zero_div, Real.arccos_zero]
  · rw [hr, sub_self, abs_zero, magnitude_eq]
    rintro (g | g)
    · exact hne g
    · exact absurd g (not_le.2 (norm_pos_iff.2 (sub_ne_zero.2 hne.symm)))

/-- The angles of a turn of circles of the same size. -/
theorem equal_angles {a b c : Circle} (h1 : a.radius = b.radius) (h2 : b.radius = c.radius) (n1 : a.center ≠ b.center) (n2 : b.center ≠ c.center)
    {δ : ℝ} (hδ : δ = Complex.arg ((c.center - b.center) / (b.center - a.center))) :
    (|δ| < collinear → ∃ M, SameAngle M (Vec.direction (c.center - b.center) + π / 2) ∧
      CircularTurn.angles a b c = some (⟨M, M + π⟩, ⟨M, M + π⟩)) ∧
    (collinear ≤ |δ| → ∃ L, SameAngle L (Vec.direction (b.center - a.center) + π / 2) ∧
      CircularTurn.angles a b c = some (⟨L, L + π⟩, ⟨if 0 ≤ δ then L + δ else L + δ + 2 * π, if δ < π then L + π + δ else L⟩)) := by
  have hpi := Real.pi_pos
  have hv : b.center - a.center ≠ 0 := sub_ne_zero.2 n1.symm
  have hw : c.center - b.center ≠ 0 := sub_ne_zero.2 n2.symm
  have hs := arg_div_same hv hw
  rw [← hδ] at hs
  have hnδ : Normal δ := by rw [hδ]; exact ⟨Complex.neg_pi_lt_arg _, Complex.arg_le_pi _⟩
  unfold CircularTurn.angles
  rw [equal_tangents h1 n1, equal_tangents h2 n2]
  generalize Vec.direction (b.center - a.center) = α at *
  generalize Vec.direction (c.center - b.center) = β at *
  dsimp only
  obtain ⟨L1, L2⟩ := normalized_spec (α + π / 2)
  obtain ⟨R1, R2⟩ := normalized_spec (α - π / 2)
  obtain ⟨L1', L2'⟩ := normalized_spec (β + π / 2)
  obtain ⟨R1', R2'⟩ := normalized_spec (β - π / 2)
  generalize Angle.normalizedAboutZero (α + π / 2) = L at *
  generalize Angle.normalizedAboutZero (α - π / 2) = R at *
  generalize Angle.normalizedAboutZero (β + π / 2) = L' at *
  generalize Angle.normalizedAboutZero (β - π / 2) = R' at *
  obtain ⟨ks, hs⟩ := hs
  obtain ⟨k1, e1⟩ := L2
  obtain ⟨k2, e2⟩ := R2
  obtain ⟨k3, e3⟩ := L2'
  obtain ⟨k4, e4⟩ := R2'
  have sl := snap_eq L1 L1' hnδ ⟨ks + k3 - k1, by push_cast; linarith⟩
  have sr := snap_eq R1 R1' hnδ ⟨ks + k4 - k2, by push_cast; linarith⟩
  constructor
  · intro hlt
    refine ⟨L', ⟨k3, e3⟩, ?_⟩
    rw [sl.1 hlt, sr.1 hlt, atLeast_eq L1' L1' (le_refl _) (by linarith) (SameAngle.refl _),
      atLeast_eq (y := L' + π) L1' R1' (by linarith) (by linarith) ⟨k4 - k3 - 1, by push_cast; linarith⟩]
  · intro hle
    refine ⟨L, ⟨k1, e1⟩, ?_⟩
    have hl : CircularTurn.atLeast L L' = if 0 ≤ δ then L + δ else L + δ + 2 * π := by
      by_cases g : 0 ≤ δ
      · rw [if_pos g]
        exact atLeast_eq L1 L1' (by linarith) (by linarith [hnδ.2]) ⟨ks + k3 - k1, by push_cast; linarith⟩
      · rw [if_neg g]
        exact atLeast_eq L1 L1' (by linarith [hnδ.1]) (by linarith) ⟨ks + k3 - k1 - 1, by push_cast; linarith⟩
    have hr : CircularTurn.atLeast L R' = if δ < π then L + π + δ else L := by
      by_cases g : δ < π
      · rw [if_pos g]
        exact atLeast_eq L1 R1' (by linarith [hnδ.1]) (by linarith) ⟨ks + k4 - k1 - 1, by push_cast; linarith⟩
      · rw [if_neg g]
        have : δ = π := le_antisymm hnδ.2 (not_lt.1 g)
        exact atLeast_eq L1 R1' (le_refl _) (by linarith) ⟨ks + k4 - k1, by push_cast; linarith⟩
    rw [sl.2 hle, sr.2 hle, hl, hr, atLeast_eq (y := L + π) L1 R1 (by linarith) (by linarith) ⟨k2 - k1 - 1, by push_cast; linarith⟩]

theorem positive_eq {x y : ℝ} (h0 : 0 ≤ y) (h1 : y < 2 * π) (h : SameAngle x y) : Angle.normalized x = y := by
  have hpi := Real.pi_pos
  have hm : |fmod x (2 * π)| < 2 * π := by
    unfold fmod
    have e : x - trunc (x / (2 * π)) * (2 * π) = (x / (2 * π) - trunc (x / (2 * π))) * (2 * π) := by field_simp
    rw [e, abs_mul, abs_of_pos (by linarith : (0 : ℝ) < 2 * π)]
    calc _ < 1 * (2 * π) := mul_lt_mul_of_pos_right (trunc_spec (x / (2 * π))) (by linarith)
      _ = _ := one_mul _
  obtain ⟨k, hk⟩ := h
  have hf : fmod x (2 * π) = y + ((k - trunc (x / (2 * π)) : ℤ) : ℝ) * (2 * π) := by unfold fmod; rw [hk]; push_cast; ring
  unfold Angle.normalized
  dsimp only
  generalize fmod x (2 * π) = f at *
  generalize k - trunc (x / (2 * π)) = j at *
  obtain ⟨m1, m2⟩ := abs_lt.1 hm
  have j1 : (j : ℝ) * (2 * π) < 1 * (2 * π) := by linarith
  have j2 : -2 * (2 * π) < (j : ℝ) * (2 * π) := by linarith
  have j1' : (j : ℝ) < 1 := lt_of_mul_lt_mul_right j1 (by linarith)
  have j2' : (-2 : ℝ) < j := lt_of_mul_lt_mul_right j2 (by linarith)
  have j3 : j < 1 := by exact_mod_cast j1'
  have j4 : -2 < j := by exact_mod_cast j2'
  obtain rfl | rfl : j = 0 ∨ j = -1 := by omega
  · rw [if_neg (by rw [hf]; push_cast; linarith), hf]; push_cast; ring
  · rw [if_pos (by rw [hf]; push_cast; linarith), hf]; push_cast; ring

/-- What a turn of circles of the same size adds. -/
structure EqualTurn (a b c : Circle) (h δ : ℝ) (l r : List ℂ) : Prop where
  straight : |δ| < collinear → l = [b.getPoint (Vec.direction (c.center - b.center) + π / 2)] ∧
    r = [b.getPoint (Vec.direction (c.center - b.center) - π / 2)]
  left : collinear ≤ δ → δ < π →
    Crossing (a.getPoint (Vec.direction (b.center - a.center) + π / 2)) (b.getPoint (Vec.direction (b.center - a.center) + π / 2))
      (b.getPoint (Vec.direction (c.center - b.center) + π / 2)) (c.getPoint (Vec.direction (c.center - b.center) + π / 2)) l ∧
    FollowsArc b (Vec.direction (b.center - a.center) - π / 2) δ h r
  right : δ ≤ -collinear → FollowsArc b (Vec.direction (b.center - a.center) + π / 2) δ h l ∧
    Crossing (a.getPoint (Vec.direction (b.center - a.center) - π / 2)) (b.getPoint (Vec.direction (b.center - a.center) - π / 2))
      (b.getPoint (Vec.direction (c.center - b.center) - π / 2)) (c.getPoint (Vec.direction (c.center - b.center) - π / 2)) r
  back : δ = π → FollowsArc b (Vec.direction (b.center - a.center) + π / 2) (-π) h l ∧
    FollowsArc b (Vec.direction (b.center - a.center) - π / 2) π h r

theorem straight_crossing {a b c : Circle} (h1 : a.radius = b.radius) (h2 : b.radius = c.radius) (n1 : a.center ≠ b.center) (n2 : b.center ≠ c.center)
    (hne : Complex.arg ((c.center - b.center) / (b.center - a.center)) ≠ π) (θ : ℝ) {q : List ℂ}
    (hq : Crossing (a.getPoint θ) (b.getPoint θ) (b.getPoint θ) (c.getPoint θ) q) : q = [b.getPoint θ] := by
  have hv : b.center - a.center ≠ 0 := sub_ne_zero.2 n1.symm
  have hw : c.center - b.center ≠ 0 := sub_ne_zero.2 n2.symm
  have ga : a.getPoint θ = b.getPoint θ - (b.center - a.center) := by rw [getPoint_eq, getPoint_eq, h1]; ring
  have gc : c.getPoint θ = b.getPoint θ + (c.center - b.center) := by rw [getPoint_eq, getPoint_eq, h2]; ring
  rw [ga, gc] at hq
  generalize b.getPoint θ = p at *
  generalize b.center - a.center = v at *
  generalize c.center - b.center = w at *
  rcases hq with ⟨z, ⟨t, t0, t1, e1⟩, ⟨s, s0, s1, e2⟩, rfl⟩ | ⟨hno, -⟩
  · have e : ((1 - t : ℝ) : ℂ) * v + s * w = 0 := by
      have := e1.symm.trans e2
      push_cast
      linear_combination -this
    have hs : s = 0 := by
      by_contra hs
      have hsp : 0 < s := lt_of_le_of_ne s0 (Ne.symm hs)
      have hsc : (s : ℂ) ≠ 0 := by exact_mod_cast hs
      have : w / v = ((-((1 - t) / s) : ℝ) : ℂ) := by
        rw [div_eq_iff hv]
        push_cast at e ⊢
        field_simp
        linear_combination e
      rcases eq_or_lt_of_le t1 with g | g
      · rw [g] at this
        rw [sub_self, zero_div, neg_zero, Complex.ofReal_zero, div_eq_zero_iff] at this
        exact this.elim hw hv
      · rw [this] at hne
        exact hne (Complex.arg_ofReal_of_neg (by have := div_pos (sub_pos.2 g) hsp; linarith))
    rw [e2, hs]; simp
  · exact absurd ⟨⟨1, by norm_num, le_refl _, by push_cast; ring⟩, ⟨0, le_refl _, by norm_num, by push_cast; ring⟩⟩ (hno p)

theorem equal_turn {a b c : Circle} (h1 : a.radius = b.radius) (h2 : b.radius = c.radius) (n1 : a.center ≠ b.center) (n2 : b.center ≠ c.center)
    {δ h : ℝ} (hδ : δ = Complex.arg ((c.center - b.center) / (b.center - a.center))) (hr : 0 < b.radius) (hh : 0 < h)
    (hbig : b.radius ≤ 200000000 * h) (l r : List ℂ) : ∃ l' r', CircularTurn.appendLeft a b c h true l = some (l ++ l') ∧
      CircularTurn.appendRight a b c h true r = some (r ++ r') ∧ EqualTurn a b c h δ l' r' := by
  have hpi := Real.pi_gt_three
  have tv : collinear = 1 / 100000 := rfl
  obtain ⟨k1, k2⟩ := equal_angles h1 h2 n1 n2 hδ
  have hv : b.center - a.center ≠ 0 := sub_ne_zero.2 n1.symm
  have hw : c.center - b.center ≠ 0 := sub_ne_zero.2 n2.symm
  have hs := arg_div_same hv hw
  rw [← hδ] at hs
  have hnδ : Normal δ := by rw [hδ]; exact ⟨Complex.neg_pi_lt_arg _, Complex.arg_le_pi _⟩
  unfold CircularTurn.appendLeft CircularTurn.appendRight
  by_cases hst : |δ| < collinear
  · obtain ⟨M, hM, e⟩ := k1 hst
    have hM' : SameAngle (M + π) (Vec.direction (c.center - b.center) - π / 2) := by
      obtain ⟨k, hk⟩ := hM; exact ⟨k + 1, by push_cast; linarith⟩
    have harcs : CircularTurn.arcs a b c ⟨M, M + π⟩ ⟨M, M + π⟩ true = (false, false) := by
      unfold CircularTurn.arcs
      rw [if_neg (by simp)]
      have : CircularTurn.orderCase ⟨M, M + π⟩ ⟨M, M + π⟩ = 3 := by
        unfold CircularTurn.orderCase
        dsimp only
        rw [min_eq_left (by linarith : M ≤ M + π), min_eq_right (by linarith : M ≤ M + π), if_pos rfl, if_pos (le_refl _)]
      rw [this]
      rfl
    have hback : δ ≠ π := by intro g; rw [g, abs_of_pos (by linarith)] at hst; linarith
    rw [e]
    dsimp only
    rw [harcs]
    simp only [Bool.false_eq_true, if_false]
    obtain ⟨q, hq, hx⟩ := crossing_spec a b c M M l
    obtain ⟨q', hq', hx'⟩ := crossing_spec a b c (M + π) (M + π) r
    rw [hq, hq']
    refine ⟨q, q', rfl, rfl, ?_, ?_, ?_, ?_⟩
    · intro _
      rw [straight_crossing h1 h2 n1 n2 (by rw [← hδ]; exact hback) M hx, straight_crossing h1 h2 n1 n2 (by rw [← hδ]; exact hback) (M + π) hx',
        SameAngle.getPoint hM b, SameAngle.getPoint hM' b]
      exact ⟨rfl, rfl⟩
    · intro g; exact absurd (lt_of_le_of_lt (le_abs_self δ) hst) (not_lt.2 g)
    · intro g; exact absurd (lt_of_le_of_lt (neg_le_abs δ) hst) (not_lt.2 (by linarith))
    · intro g; exact absurd g hback
  · have hge := not_lt.1 hst
    obtain ⟨L, hL, e⟩ := k2 hge
    rw [e]
    dsimp only
    have hL' : SameAngle (L + π) (Vec.direction (b.center - a.center) - π / 2) := by
      obtain ⟨k, hk⟩ := hL; exact ⟨k + 1, by push_cast; linarith⟩
    have hB : SameAngle (L + δ) (Vec.direction (c.center - b.center) + π / 2) := by
      obtain ⟨k, hk⟩ := hL; obtain ⟨j, hj⟩ := hs; exact ⟨k - j, by push_cast; linarith⟩
    have hB' : SameAngle (L + π + δ) (Vec.direction (c.center - b.center) - π / 2) := by
      obtain ⟨k, hk⟩ := hB; exact ⟨k + 1, by push_cast; linarith⟩
    rcases lt_trichotomy δ 0 with hneg | hzero | hpos
    · have hd : δ ≤ -collinear := by rw [abs_of_neg hneg] at hge; linarith
      rw [if_neg (not_le.2 hneg), if_pos (by linarith : δ < π)]
      have harcs : CircularTurn.arcs a b c ⟨L, L + π⟩ ⟨L + δ + 2 * π, L + π + δ⟩ true = (true, false) := by
        unfold CircularTurn.arcs
        rw [if_neg (by simp)]
        have : CircularTurn.orderCase ⟨L, L + π⟩ ⟨L + δ + 2 * π, L + π + δ⟩ = 1 := by
          unfold CircularTurn.orderCase
          dsimp only
          rw [min_eq_right (by linarith : L + π + δ ≤ L + δ + 2 * π), min_eq_right (by linarith : L + π + δ ≤ L + π),
            if_neg (by intro g; linarith), if_pos rfl, if_neg (by linarith [hnδ.1])]
        rw [this]
        rfl
      rw [harcs]
      simp only [Bool.false_eq_true, if_false, if_true]
      unfold CircularTurn.leftArc
      rw [show L + δ + 2 * π - L - 2 * π = δ by ring]
      obtain ⟨q, hq, hf⟩ := follows_arc (c := b) (arc := δ) (h := h) hr.le hh hbig (abs_le.2 ⟨by linarith [hnδ.1], by linarith⟩) hL l
      obtain ⟨q', hq', hx'⟩ := crossing_spec a b c (L + π) (L + π + δ) r
      rw [hq, hq']
      refine ⟨q, q', rfl, rfl, fun g => absurd g hst, fun g => ?_, fun _ => ⟨hf, ?_⟩, fun g => ?_⟩
      · linarith
      · rwa [SameAngle.getPoint hL', SameAngle.getPoint hL', SameAngle.getPoint hB', SameAngle.getPoint hB'] at hx'
      · linarith
    · rw [hzero, abs_zero] at hge; linarith
    · have hd : collinear ≤ δ := by rwa [abs_of_pos hpos] at hge
      rw [if_pos hpos.le]
      rcases lt_or_eq_of_le hnδ.2 with hlt | heq
      · rw [if_pos hlt]
        have harcs : CircularTurn.arcs a b c ⟨L, L + π⟩ ⟨L + δ, L + π + δ⟩ true = (false, true) := by
          unfold CircularTurn.arcs
          rw [if_neg (by simp)]
          have : CircularTurn.orderCase ⟨L, L + π⟩ ⟨L + δ, L + π + δ⟩ = 2 := by
            unfold CircularTurn.orderCase
            dsimp only
            rw [min_eq_left (by linarith : L + δ ≤ L + π + δ), min_eq_right (by linarith : L + δ ≤ L + π), if_pos rfl, if_neg (by linarith)]
          rw [this]
          rfl
        rw [harcs]
        simp only [Bool.false_eq_true, if_false, if_true]
        unfold CircularTurn.rightArc
        rw [show L + π + δ - (L + π) = δ by ring, positive_eq hpos.le (by linarith) (SameAngle.refl _)]
        obtain ⟨q', hq', hf⟩ := follows_arc (c := b) (arc := δ) (h := h) hr.le hh hbig (abs_le.2 ⟨by linarith, by linarith⟩) hL' r
        obtain ⟨q, hq, hx⟩ := crossing_spec a b c L (L + δ) l
        rw [hq, hq']
        refine ⟨q, q', rfl, rfl, fun g => absurd g hst, fun _ _ => ⟨?_, hf⟩, fun g => ?_, fun g => ?_⟩
        · rwa [SameAngle.getPoint hL, SameAngle.getPoint hL, SameAngle.getPoint hB, SameAngle.getPoint hB] at hx
        · linarith
        · linarith
      · rw [if_neg (by rw [heq]; exact lt_irrefl π : ¬δ < π), heq]
        have harcs : CircularTurn.arcs a b c ⟨L, L + π⟩ ⟨L + π, L⟩ true = (true, true) := by
          unfold CircularTurn.arcs
          rw [if_neg (by simp)]
          have : CircularTurn.orderCase ⟨L, L + π⟩ ⟨L + π, L⟩ = 5 := by
            unfold CircularTurn.orderCase
            dsimp only
            rw [min_eq_right (by linarith : L ≤ L + π), min_eq_right (by linarith : L ≤ L + π), if_neg (by intro g; linarith), if_pos rfl,
              if_pos (le_refl _)]
          rw [this]
          dsimp only
          rw [signed_eq, normal_unique (b := π) (normalized_spec _).1 ⟨by linarith, le_refl _⟩ (SameAngle.trans (normalized_spec _).2 (by
            obtain ⟨j, hj⟩ := hs; exact ⟨j, by linarith⟩)), if_pos (by rw [abs_of_pos (by linarith)]; linarith)]
          rfl
        rw [harcs]
        simp only [if_true]
        unfold CircularTurn.leftArc CircularTurn.rightArc
        rw [show L + π - L - 2 * π = -π by ring, show L - (L + π) = -π by ring, positive_eq (x := -π) (y := π) (by linarith) (by linarith) ⟨-1, by push_cast; ring⟩]
        obtain ⟨q, hq, hf⟩ := follows_arc (c := b) (arc := -π) (h := h) hr.le hh hbig (by rw [abs_neg, abs_of_pos (by linarith)]; linarith) hL l
        obtain ⟨q', hq', hf'⟩ := follows_arc (c := b) (arc := π) (h := h) hr.le hh hbig (by rw [abs_of_pos (by linarith)]; linarith) hL' r
        rw [hq, hq']
        refine ⟨q, q', rfl, rfl, fun g => absurd (by rw [heq]; exact g) hst, fun _ g => ?_, fun g => ?_, fun _ => ⟨hf, hf'⟩⟩
        · linarith
        · linarith

/-- A turn of three shapes of one circle each. -/
theorem single_turn {s1 s2 s3 : TipShape} {a b c : Circle} (ha : s1.circles = [a]) (hb : s2.circles = [b]) (hc : s3.circles = [c])
    (h1 : a.radius = b.radius) (h2 : b.radius = c.radius) (n1 : a.center ≠ b.center) (n2 : b.center ≠ c.center) {h : ℝ} (points : ExtrusionPoints)
    {l r : List ℂ} (hl : appendLeftTurns h true points.left [a, b, c] = some (points.left ++ l))
    (hr : appendRightTurns h true points.right [a, b, c] = some (points.right ++ r)) :
    appendTurn s1 s2 s3 h points = some ⟨points.left ++ l, points.right ++ r⟩ := by
  have ix : ∀ {s o : TipShape} {x y : Circle}, s.circles = [x] → o.circles = [y] → tangentCircleIndices s o = some ⟨(0, 0), (0, 0)⟩ := by
    intro s o x y hx hy
    unfold tangentCircleIndices
    rw [if_pos ⟨by rw [hx]; rfl, by rw [hy]; rfl⟩]
  have an : ∀ {s o : TipShape} {x y : Circle}, s.circles = [x] → o.circles = [y] → x.radius = y.radius → x.center ≠ y.center →
      ∃ t, tangentAngles s o ⟨(0, 0), (0, 0)⟩ = some t := by
    intro s o x y hx hy hr hne
    unfold tangentAngles
    rw [hx, hy]
    simp only [List.getElem?_cons_zero]
    rw [equal_tangents hr hne]
    exact ⟨_, rfl⟩
  obtain ⟨t, ht⟩ := an ha hb h1 n1
  obtain ⟨t', ht'⟩ := an hb hc h2 n2
  unfold appendTurn
  rw [ix ha hb, ix hb hc]
  dsimp only
  rw [ht, ht']
  dsimp only
  have wcw : s2.walk s2.nextCw 0 0 s2.circles.length = some [b] := by rw [hb]; simp [walk, hb]
  have wccw : s2.walk s2.nextCcw 0 0 s2.circles.length = some [b] := by rw [hb]; simp [walk, hb]
  unfold turnLeft turnRight
  rw [wcw, wccw, ha, hb, hc]
  simp only [List.getElem?_cons_zero, true_or, if_true, List.cons_append, List.nil_append]
  rw [hl, hr]

end Verif.RealGeom
