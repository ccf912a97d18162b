import Verif.Lemmas.RoundedPolygon

/-!
# C66: rounded polygons
-/

set_option autoImplicit false

namespace Verif.RealGeom

open Spec Real RoundedPolygon

/-- A polygon is made exactly of two or more circles such that no two that follow each other, the last and the first included, contain
one the other. -/
theorem C66_make (cs : List Circle) (hr : ∀ c ∈ cs, 0 ≤ c.radius) : make cs = none ↔
    cs.length < 2 ∨ ∃ i c d, Follows cs i c d ∧ ((∀ p, InDisc d p → InDisc c p) ∨ ∀ p, InDisc c p → InDisc d p) := by
  rw [make_none]
  refine or_congr_right (exists_congr fun i => exists_congr fun c => exists_congr fun d => and_congr_right fun h => ?_)
  rw [contains_iff (hr d (List.mem_of_getElem? h.2)), contains_iff (hr c (List.mem_of_getElem? h.1))]

/-- There is one arc for each circle. Each of the segments is that of the right-side exterior tangent from a circle to the next one. It
is never degenerate. It starts where the arc of its circle ends and it ends where the arc of the next one starts. -/
theorem C66_boundary (cs : List Circle) (arcs : List Arc) (h : make cs = some arcs) : arcs.length = cs.length ∧
    ∀ i c d, Follows cs i c d → ∃ a b φ, arcs[i]? = some a ∧ arcs[(i + 1) % cs.length]? = some b ∧ a.circle = c ∧ b.circle = d ∧
      RightTangent c d φ ∧ a.endUnit = ⟨Real.cos φ, Real.sin φ⟩ ∧ b.startUnit = ⟨Real.cos φ, Real.sin φ⟩ ∧
      getSegment arcs i = some ⟨c.getPoint φ, d.getPoint φ⟩ ∧ c.getPoint φ ≠ d.getPoint φ := by
  obtain ⟨hlen, h2, hspec⟩ := make_some h
  refine ⟨hlen, fun i c d hf => ?_⟩
  obtain ⟨n1, n2, a, b, a1, b1, a2, b2, a3, b3⟩ := hspec i c d hf
  have hu : ∀ φ, Vec.fromDirectionAndMagnitude φ 1 = ⟨Real.cos φ, Real.sin φ⟩ := by
    intro φ; unfold Vec.fromDirectionAndMagnitude; rw [one_mul, one_mul]
  have ht := right_spec n1 n2
  refine ⟨a, b, c.guaranteedRightTangentAngle d, a1, b1, a2, b2, ht, by rw [a3, hu], by rw [b3, hu], ?_, ?_⟩
  · unfold getSegment
    rw [a1, Option.bind_some, hlen, b1, Option.map_some, a2, b2, a3, b3, getPoint_unit, getPoint_unit]
  · intro e
    have h1 := along_step ht (c.guaranteedRightTangentAngle d - π / 2)
    rw [e, sub_sub_cancel, Real.sin_pi_div_two] at h1
    have h2 := ((rightTangent_iff _ _ _).1 ht).2
    linarith

/-- Whatever the convex polygon, no circle inside of it, the boundary included, is said not to be contained. -/
theorem C66_contains_inside (cs : List Circle) (θ : ℕ → ℝ) (arcs : List Arc) (hr : ∀ c ∈ cs, 0 ≤ c.radius) (h : TurnsOnce cs θ)
    (hm : make cs = some arcs) (q : Circle) (hq : 0 ≤ q.radius) (hin : ∀ p, InDisc q p → p ∈ polygonRegion cs θ) :
    ContainsCircle arcs q := by
  have hne : cs ≠ [] := by rintro rfl; simp [make] at hm
  have T := turns_tour hne hr h
  unfold polygonRegion at hin
  rw [boundary_bd hne h, T.disc_iff hq] at hin
  exact (contains_passes hr h hm q).2 (T.complete hin)

/-- A circle is said to be contained in a convex polygon exactly if it is, if no arc of the polygon is near to half a turn or too
short without being a corner with no arc at all. Missing: the other polygons, of which this is not true. -/
theorem C66_contains_partial (cs : List Circle) (θ : ℕ → ℝ) (arcs : List Arc) (hr : ∀ c ∈ cs, 0 ≤ c.radius) (h : TurnsOnce cs θ)
    (hm : make cs = some arcs) (q : Circle) (hq : 0 ≤ q.radius)
    (harc : ∀ i < cs.length, θ (i + 1) = θ i ∨ 5 / 1000000 ≤ |Real.sin (θ (i + 1) - θ i)|) :
    ContainsCircle arcs q ↔ ∀ p, InDisc q p → p ∈ polygonRegion cs θ := by
  have hne : cs ≠ [] := by rintro rfl; simp [make] at hm
  have hn : 0 < cs.length := List.length_pos_iff.2 hne
  have T := turns_tour hne hr h
  unfold polygonRegion
  rw [boundary_bd hne h, T.disc_iff hq, contains_passes hr h hm q]
  refine ⟨fun hp => T.sound (fun i hi => ?_) hp, fun hin => T.complete hin⟩
  rw [lapΘ_small h.once hi.le hn, lapΘ_small h.once (Nat.succ_le_of_lt hi) hn]
  exact harc i hi

/-! ## Cases -/

/-- The corners of a right triangle. -/
noncomputable def tri : List Circle := [⟨0, 1⟩, ⟨4, 1⟩, ⟨⟨0, 4⟩, 1⟩]

/-- ... and the angles of its boundary. -/
noncomputable def triθ (i : ℕ) : ℝ := if i = 0 then -π else if i = 1 then -(π / 2) else if i = 2 then π / 4 else π

theorem tri_turns : TurnsOnce tri triθ := by
  have hpi := Real.pi_pos
  refine ⟨?_, ?_, ?_⟩
  · intro i hi
    have hi' : i < 3 := hi
    obtain rfl | rfl | rfl : i = 0 ∨ i = 1 ∨ i = 2 := by omega
    · simp only [triθ]; norm_num; linarith
    · simp only [triθ]; norm_num; linarith
    · simp only [triθ]; norm_num; linarith
  · show triθ 3 = triθ 0 + 2 * π
    simp only [triθ]; norm_num; ring
  · intro i c d hf
    obtain ⟨hi, h1, h2⟩ := lapC_eq hf
    have hi' : i < 3 := hi
    rw [rightTangent_iff, ← h1, ← h2]
    obtain rfl | rfl | rfl : i = 0 ∨ i = 1 ∨ i = 2 := by omega
    · simp [lapC, tri, triθ, along, across]
    · simp [lapC, tri, triθ, along, across]
    · simp [lapC, tri, triθ, along, across]

theorem tri_radius : ∀ c ∈ tri, 0 ≤ c.radius := by
  intro c hc
  simp only [tri, List.mem_cons, List.not_mem_nil, or_false] at hc
  rcases hc with rfl | rfl | rfl <;> norm_num

/-- A polygon is made of circles that the boundary turns around. -/
theorem turns_make {cs : List Circle} {θ : ℕ → ℝ} (h : TurnsOnce cs θ) (h2 : 2 ≤ cs.length) : ∃ arcs, make cs = some arcs := by
  cases hm : make cs with
  | some arcs => exact ⟨arcs, rfl⟩
  | none =>
    rw [make_none] at hm
    rcases hm with hm | ⟨i, c, d, hf, hc⟩
    · omega
    · have := right_apart (h.tangent i c d hf)
      rcases hc with hc | hc
      · exact absurd hc this.1
      · exact absurd hc this.2

/-- The triangle meets the hypotheses of the theorems; there is a circle that it contains and there is one that it does not. -/
example : ∃ arcs, make tri = some arcs ∧ ContainsCircle arcs ⟨0, 1⟩ ∧ ¬ContainsCircle arcs ⟨⟨4, 4⟩, 1⟩ := by
  have hpi := Real.pi_pos
  obtain ⟨arcs, hm⟩ := turns_make tri_turns (by simp [tri])
  have harc : ∀ i < tri.length, triθ (i + 1) = triθ i ∨ 5 / 1000000 ≤ |Real.sin (triθ (i + 1) - triθ i)| := by
    have hs : (0.7 : ℝ) ≤ √2 / 2 := by
      rw [le_div_iff₀ (by norm_num)]
      exact Real.le_sqrt_of_sq_le (by norm_num)
    intro i hi
    have hi' : i < 3 := hi
    right
    obtain rfl | rfl | rfl : i = 0 ∨ i = 1 ∨ i = 2 := by omega
    · have e : triθ (0 + 1) - triθ 0 = π / 2 := by simp only [triθ]; norm_num; ring
      rw [e, Real.sin_pi_div_two]; norm_num
    · have e : triθ (1 + 1) - triθ 1 = π / 4 + π / 2 := by simp only [triθ]; norm_num
      rw [e, Real.sin_add_pi_div_two, Real.cos_pi_div_four, abs_of_pos (by linarith)]; linarith
    · have e : triθ (2 + 1) - triθ 2 = π - π / 4 := by simp only [triθ]; norm_num
      rw [e, Real.sin_pi_sub, Real.sin_pi_div_four, abs_of_pos (by linarith)]; linarith
  have hne : tri ≠ [] := by simp [tri]
  have T := turns_tour hne tri_radius tri_turns
  have hn : tri.length = 3 := rfl
  have small : ∀ i, i ≤ 3 → lapΘ tri.length triθ i = triθ i := fun i hi => lapΘ_small tri_turns.once hi (by simp [tri])
  refine ⟨arcs, hm, ?_, ?_⟩
  · refine (C66_contains_partial tri triθ arcs tri_radius tri_turns hm ⟨0, 1⟩ zero_le_one harc).2 ?_
    unfold polygonRegion
    rw [boundary_bd hne tri_turns, T.disc_iff zero_le_one]
    intro i φ hi p1 p2
    rw [hn] at hi
    obtain rfl | rfl | rfl : i = 0 ∨ i = 1 ∨ i = 2 := by omega
    · simp [lapC, tri]
    · rw [small 1 (by omega)] at p1
      rw [small 2 (by omega)] at p2
      simp only [triθ] at p1 p2
      norm_num at p1 p2
      have := Real.cos_nonneg_of_neg_pi_div_two_le_of_le p1 (by linarith)
      simp [lapC, tri, along, this]
    · rw [small 2 (by omega)] at p1
      rw [small 3 (by omega)] at p2
      simp only [triθ] at p1 p2
      norm_num at p1 p2
      have := Real.sin_nonneg_of_nonneg_of_le_pi (x := φ) (by linarith) p2
      simp [lapC, tri, along, this]
  · rw [C66_contains_partial tri triθ arcs tri_radius tri_turns hm ⟨⟨4, 4⟩, 1⟩ zero_le_one harc]
    unfold polygonRegion
    rw [boundary_bd hne tri_turns, T.disc_iff zero_le_one]
    intro hall
    have := hall 1 (π / 4) (by rw [hn]; omega) (by rw [small 1 (by omega)]; simp only [triθ]; norm_num; linarith)
      (by rw [small 2 (by omega)]; simp only [triθ]; norm_num)
    simp [lapC, tri, along] at this
    linarith [Real.sqrt_pos.2 (show (0 : ℝ) < 2 by norm_num)]

/-- Two circles of the same size. -/
noncomputable def pill : List Circle := [⟨0, 1⟩, ⟨10, 1⟩]

/-- ... and the angles of the boundary. -/
noncomputable def pillθ (i : ℕ) : ℝ := π / 2 + i * π

theorem pill_turns : TurnsOnce pill pillθ := by
  have hpi := Real.pi_pos
  refine ⟨?_, ?_, ?_⟩
  · intro i _
    unfold pillθ; push_cast; linarith
  · show pillθ 2 = _
    unfold pillθ; push_cast; ring
  · intro i c d hf
    obtain ⟨hi, h1, h2⟩ := lapC_eq hf
    have hi' : i < 2 := hi
    rw [rightTangent_iff, ← h1, ← h2]
    obtain rfl | rfl : i = 0 ∨ i = 1 := by omega
    · have e : pillθ (0 + 1) = π / 2 + π := by unfold pillθ; push_cast; ring
      rw [e]
      unfold along across
      rw [Real.sin_add_pi, Real.cos_add_pi, Real.sin_pi_div_two, Real.cos_pi_div_two]
      simp [lapC, pill]
    · have e : pillθ (1 + 1) = π / 2 + 2 * π := by unfold pillθ; push_cast; ring
      rw [e]
      unfold along across
      rw [Real.sin_add_two_pi, Real.cos_add_two_pi, Real.sin_pi_div_two, Real.cos_pi_div_two]
      simp [lapC, pill]

/-- The code does not have the property without its last hypothesis: the hull of two circles of the same size is said to contain a
circle that is far from it. Its two arcs are half turns and are ignored as if they were too short. -/
theorem C66_contains_counterexample : ∃ (cs : List Circle) (θ : ℕ → ℝ) (arcs : List Arc) (q : Circle), (∀ c ∈ cs, 0 ≤ c.radius) ∧
    TurnsOnce cs θ ∧ make cs = some arcs ∧ 0 ≤ q.radius ∧ ContainsCircle arcs q ∧ ∀ p, InDisc q p → p ∉ polygonRegion cs θ := by
  have hpi := Real.pi_pos
  obtain ⟨arcs, hm⟩ := turns_make pill_turns (by simp [pill])
  have hr : ∀ c ∈ pill, 0 ≤ c.radius := by
    intro c hc
    simp only [pill, List.mem_cons, List.not_mem_nil, or_false] at hc
    rcases hc with rfl | rfl <;> norm_num
  have hne : pill ≠ [] := by simp [pill]
  have T := turns_tour hne hr pill_turns
  have small : ∀ i, i ≤ 2 → lapΘ pill.length pillθ i = pillθ i := fun i hi => lapΘ_small pill_turns.once hi (by simp [pill])
  refine ⟨pill, pillθ, arcs, ⟨100, 1⟩, hr, pill_turns, hm, zero_le_one, ?_, ?_⟩
  · rw [contains_passes hr pill_turns hm]
    intro i hi
    have hi' : i < 2 := hi
    rw [small i (by omega), small (i + 1) (by omega)]
    constructor
    · intro h _
      exfalso
      have e : pillθ (i + 1) - pillθ i = π := by unfold pillθ; push_cast; ring
      rw [e, Real.sin_pi, abs_zero] at h
      exact absurd h (not_le.2 tolerance_pos)
    · obtain rfl | rfl : i = 0 ∨ i = 1 := by omega
      · have e : pillθ (0 + 1) = π / 2 + π := by unfold pillθ; push_cast; ring
        rw [e]
        unfold across
        rw [Real.sin_add_pi, Real.cos_add_pi, Real.sin_pi_div_two, Real.cos_pi_div_two]
        intro _ h
        exfalso
        simp [lapC, pill] at h
        norm_num at h
      · have e : pillθ (1 + 1) = π / 2 + 2 * π := by unfold pillθ; push_cast; ring
        rw [e]
        unfold across
        rw [Real.sin_add_two_pi, Real.cos_add_two_pi, Real.sin_pi_div_two, Real.cos_pi_div_two]
        intro h
        exfalso
        simp [lapC, pill] at h
        norm_num at h
  · intro p hp hmem
    unfold polygonRegion at hmem
    rw [boundary_bd hne pill_turns] at hmem
    have hle := T.bd_le (i := 1) (φ := 2 * π) (by simp [pill]) (by rw [small 1 (by omega)]; unfold pillθ; push_cast; linarith)
      (by rw [small 2 (by omega)]; unfold pillθ; push_cast; linarith) hmem
    unfold InDisc at hp
    have h1 := (Complex.abs_re_le_norm (p - 100)).trans hp
    simp [lapC, pill, along] at hle
    simp at h1
    rw [abs_le] at h1
    linarith [h1.1]

end Verif.RealGeom
