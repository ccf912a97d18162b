import Verif.Lemmas.BrushTipExtrusion
import Verif.Props.RoundedPolygon
import Verif.Props.BrushTipShape

/-!
# C67: the tangents between two tip shapes
-/

set_option autoImplicit false

namespace Verif.RealGeom

open Spec Real TipShape

theorem tip_make {s : TipState} {m : ℝ} {e : TipExtrusion} (h : TipExtrusion.make s m = some e) :
    e.state = s ∧ TipShape.make s m = some e.shape := by
  unfold TipExtrusion.make at h
  cases ht : TipShape.make s m with
  | none => rw [ht] at h; cases h
  | some t => rw [ht] at h; obtain rfl := Option.some.inj h; exact ⟨rfl, rfl⟩

/-- The shortcut is taken only if neither shape has the other. -/
theorem shortcut_apart {s1 s2 : TipState} {m τ : ℝ} {e1 e2 : TipExtrusion} (hτ : 0 ≤ τ) (h1 : TipExtrusion.make s1 m = some e1)
    (h2 : TipExtrusion.make s2 m = some e2)
    (h : Vec.magnitude (e1.state.position - e2.state.position) > τ ∧ EqualShapeProperties e1.state e2.state) :
    ¬region e2.shape ⊆ region e1.shape ∧ ¬region e1.shape ⊆ region e2.shape := by
  obtain ⟨rfl, ht1⟩ := tip_make h1
  obtain ⟨rfl, ht2⟩ := tip_make h2
  have hm := make_moved (p := e2.state.position) ht1
  rw [← equal_moved h.2, ht2] at hm
  have hm' := Option.some.inj hm
  obtain ⟨-, -, hne, -, r, hr, -, -, hrad⟩ := make_radius ht1
  refine shift_not_subset (v := e2.state.position - e1.state.position) hr hrad hne (by rw [hm']) ?_
  intro e
  have hd := h.1
  rw [magnitude_eq, norm_sub_rev, e, norm_zero] at hd
  linarith

theorem shapes {s1 s2 : TipState} {m1 m2 : ℝ} {e1 e2 : TipExtrusion} (h1 : TipExtrusion.make s1 m1 = some e1)
    (h2 : TipExtrusion.make s2 m2 = some e2) (l1 : Slanted s1) (l2 : Slanted s2) :
    (∃ r, Sound e1.shape r) ∧ (∃ r, Sound e2.shape r) ∧
    (∀ b, e1.shape.contains e2.shape = some b ↔ (b = true ↔ region e2.shape ⊆ region e1.shape)) ∧
    ∀ b, e2.shape.contains e1.shape = some b ↔ (b = true ↔ region e1.shape ⊆ region e2.shape) := by
  obtain ⟨rfl, ht1⟩ := tip_make h1
  obtain ⟨rfl, ht2⟩ := tip_make h2
  obtain ⟨r1, q1⟩ := make_sound l1 ht1
  obtain ⟨r2, q2⟩ := make_sound l2 ht2
  exact ⟨⟨r1, q1⟩, ⟨r2, q2⟩, contains_sound l1 ht1 (fun c hc => by rw [q2.radius c hc]; exact q2.pos) q2.ne,
    contains_sound l2 ht2 (fun c hc => by rw [q1.radius c hc]; exact q1.pos) q1.ne⟩

theorem rest_ne {s o : TipShape} (h1 : s.contains o = some false) (h2 : o.contains s = some false) :
    evaluateInternal s o ≠ some .firstContainsSecond ∧ evaluateInternal s o ≠ some .secondContainsFirst := by
  unfold evaluateInternal
  rw [h1, h2]
  dsimp only
  constructor <;> · intro h; split at h <;> (try split at h) <;> (try split at h) <;> (try split at h) <;> (try split at h) <;>
      (try split at h) <;> (try split at h) <;> simp at h

/-- It is said that there are no tangents, since one shape has the other, exactly if it does. Of two shapes that have each other, it is
the first. -/
theorem C67_containment (s1 s2 : TipState) (m τ : ℝ) (e1 e2 : TipExtrusion) (l1 : Slanted s1) (l2 : Slanted s2) (hτ : 0 ≤ τ)
    (h1 : TipExtrusion.make s1 m = some e1) (h2 : TipExtrusion.make s2 m = some e2) :
    (evaluateTangentQuality e1 e2 τ = some .firstContainsSecond ↔ region e2.shape ⊆ region e1.shape) ∧
    (evaluateTangentQuality e1 e2 τ = some .secondContainsFirst ↔
      region e1.shape ⊆ region e2.shape ∧ ¬region e2.shape ⊆ region e1.shape) := by
  obtain ⟨-, -, c1, c2⟩ := shapes h1 h2 l1 l2
  unfold evaluateTangentQuality
  by_cases hs : Vec.magnitude (e1.state.position - e2.state.position) > τ ∧ EqualShapeProperties e1.state e2.state
  · rw [if_pos hs]
    obtain ⟨n1, n2⟩ := shortcut_apart hτ h1 h2 hs
    exact ⟨⟨fun h => by simp at h, fun h => absurd h n1⟩, ⟨fun h => by simp at h, fun h => absurd h.1 n2⟩⟩
  rw [if_neg hs]
  by_cases g1 : region e2.shape ⊆ region e1.shape
  · have e : evaluateInternal e1.shape e2.shape = some .firstContainsSecond := by
      unfold evaluateInternal
      rw [(c1 true).2 (by simp [g1])]
    rw [e]
    simp [g1]
  · by_cases g2 : region e1.shape ⊆ region e2.shape
    · have e : evaluateInternal e1.shape e2.shape = some .secondContainsFirst := by
        unfold evaluateInternal
        rw [(c1 false).2 (by simp [g1]), (c2 true).2 (by simp [g2])]
      rw [e]
      simp [g1, g2]
    · obtain ⟨n1, n2⟩ := rest_ne ((c1 false).2 (by simp [g1])) ((c2 false).2 (by simp [g2]))
      exact ⟨⟨fun h => absurd h n1, fun h => absurd h g1⟩, ⟨fun h => absurd h n2, fun h => absurd h.1 g2⟩⟩

/-- There always are indices of the circles to be connected, so that there is a joined shape. -/
theorem C67_indices (s1 s2 : TipState) (m1 m2 : ℝ) (e1 e2 : TipExtrusion) (l1 : Slanted s1) (l2 : Slanted s2)
    (h1 : TipExtrusion.make s1 m1 = some e1) (h2 : TipExtrusion.make s2 m2 = some e2) :
    ∃ ix js, tangentCircleIndices e1.shape e2.shape = some ix ∧ Joined e1.shape e2.shape ix js := by
  obtain ⟨⟨r1, q1⟩, ⟨r2, q2⟩, -⟩ := shapes h1 h2 l1 l2
  obtain ⟨ix, hix, i1, i2, i3, i4⟩ := indices_lt q1 q2.ne
  obtain ⟨js, hj⟩ := joined_exists i1 i2 i3 i4
  exact ⟨ix, js, hix, hj⟩

/-- The outcomes, if it is neither of two shapes that has the other. -/
theorem outcomes {s1 s2 : TipState} {m1 m2 τ x : ℝ} {e1 e2 : TipExtrusion} (l1 : Slanted s1) (l2 : Slanted s2)
    (h1 : TipExtrusion.make s1 m1 = some e1) (h2 : TipExtrusion.make s2 m2 = some e2)
    (g1 : ¬region e2.shape ⊆ region e1.shape) (g2 : ¬region e1.shape ⊆ region e2.shape)
    (hs : ¬(τ < ‖s1.position - s2.position‖ ∧ Moved s1 s2)) {ix : TangentIndices} {js : List Circle}
    (hix : tangentCircleIndices e1.shape e2.shape = some ix) (hj : Joined e1.shape e2.shape ix js) (hx : Margin e1.shape e2.shape x) :
    (evaluateTangentQuality e1 e2 τ = some .good ∧ (¬∃ c, Unused e1.shape e2.shape ix c)) ∨
    (evaluateTangentQuality e1 e2 τ = none ∧ RoundedPolygon.make (enlarged x js) = none) ∨
    (∃ arcs, RoundedPolygon.make (enlarged x js) = some arcs ∧ evaluateTangentQuality e1 e2 τ = some .good ∧
      ∀ c, Unused e1.shape e2.shape ix c → RoundedPolygon.ContainsCircle arcs c) ∨
    ∃ arcs, RoundedPolygon.make (enlarged x js) = some arcs ∧ evaluateTangentQuality e1 e2 τ = some .bad ∧
      ∃ c, Unused e1.shape e2.shape ix c ∧ ¬RoundedPolygon.ContainsCircle arcs c := by
  obtain ⟨⟨r1, q1⟩, ⟨r2, q2⟩, c1, c2⟩ := shapes h1 h2 l1 l2
  obtain ⟨rfl, -⟩ := tip_make h1
  obtain ⟨rfl, -⟩ := tip_make h2
  unfold evaluateTangentQuality
  rw [if_neg]
  · exact evaluate_rest ((c1 false).2 (by simp [g1])) ((c2 false).2 (by simp [g2])) q1.ne q2.ne
      (fun c hc => by rw [q1.radius c hc]; exact q1.pos) (fun c hc => by rw [q2.radius c hc]; exact q2.pos) hix hj hx
  · rintro ⟨k1, k2⟩
    rw [magnitude_eq] at k1
    exact hs ⟨k1, e2.state.position, equal_moved k2⟩

theorem radii {s1 s2 : TipState} {m1 m2 : ℝ} {e1 e2 : TipExtrusion} (h1 : TipExtrusion.make s1 m1 = some e1)
    (h2 : TipExtrusion.make s2 m2 = some e2) (c : Circle) (hc : c ∈ e1.shape.circles ∨ c ∈ e2.shape.circles) : 0 ≤ c.radius := by
  obtain ⟨-, -, -, -, r, hr, -, -, hrad⟩ := make_radius (tip_make h1).2
  obtain ⟨-, -, -, -, r', hr', -, -, hrad'⟩ := make_radius (tip_make h2).2
  rcases hc with hc | hc
  · rw [hrad c hc]; exact hr
  · rw [hrad' c hc]; exact hr'

/-- If the tangents are said to be bad and the joined shape is convex, then it does not cover the two shapes: not even if it is made larger
by a millionth of the greatest coordinate. -/
theorem C67_bad (s1 s2 : TipState) (m1 m2 τ x : ℝ) (e1 e2 : TipExtrusion) (l1 : Slanted s1) (l2 : Slanted s2)
    (h1 : TipExtrusion.make s1 m1 = some e1) (h2 : TipExtrusion.make s2 m2 = some e2)
    (ix : TangentIndices) (js : List Circle) (θ : ℕ → ℝ) (hix : tangentCircleIndices e1.shape e2.shape = some ix)
    (hj : Joined e1.shape e2.shape ix js) (hx : Margin e1.shape e2.shape x) (hθ : TurnsOnce (enlarged x js) θ)
    (h : evaluateTangentQuality e1 e2 τ = some .bad) : ¬Covers (enlarged x js) θ e1.shape e2.shape := by
  have hin : evaluateInternal e1.shape e2.shape = some .bad := by
    unfold evaluateTangentQuality at h
    split_ifs at h
    · simp at h
    · exact h
  obtain ⟨⟨r1, q1⟩, ⟨r2, q2⟩, c1, c2⟩ := shapes h1 h2 l1 l2
  have hrad := radii h1 h2
  have g1 : ¬region e2.shape ⊆ region e1.shape := by
    intro g
    unfold evaluateInternal at hin
    rw [(c1 true).2 (by simp [g])] at hin
    by_cases g2 : region e1.shape ⊆ region e2.shape
    · rw [(c2 true).2 (by simp [g2])] at hin; simp at hin
    · rw [(c2 false).2 (by simp [g2])] at hin; simp at hin
  have g2 : ¬region e1.shape ⊆ region e2.shape := by
    intro g
    unfold evaluateInternal at hin
    rw [(c1 false).2 (by simp [g1]), (c2 true).2 (by simp [g])] at hin
    simp at hin
  rintro ⟨v1, v2⟩
  have hr' : ∀ c ∈ enlarged x js, 0 ≤ c.radius := by
    intro c hc
    obtain ⟨d, hd, rfl⟩ := List.mem_map.1 hc
    exact add_nonneg (hrad d (joined_mem hj hd)) (margin_nonneg hx)
  rcases evaluate_rest ((c1 false).2 (by simp [g1])) ((c2 false).2 (by simp [g2])) q1.ne q2.ne
      (fun c hc => hrad c (Or.inl hc)) (fun c hc => hrad c (Or.inr hc)) hix hj hx with ⟨e, -⟩ | ⟨e, -⟩ | ⟨arcs, -, e, -⟩ | ⟨arcs, hm, -, c, hc, hn⟩
  · rw [hin] at e; simp at e
  · rw [hin] at e; simp at e
  · rw [hin] at e; simp at e
  · refine hn (C66_contains_inside _ θ arcs hr' hθ hm c (hrad c (unused_mem hc)) fun p hp => ?_)
    rcases unused_mem hc with g | g
    · exact v1 (disc_region g hp)
    · exact v2 (disc_region g hp)

/-- If the tangents are said to be good, then all circles that are not used in the joined shape are inside of it, if it is convex, is made
larger by a millionth of the greatest coordinate and has no arc that is near to half a turn or too short. -/
theorem C67_unused (s1 s2 : TipState) (m1 m2 τ x : ℝ) (e1 e2 : TipExtrusion) (l1 : Slanted s1) (l2 : Slanted s2)
    (h1 : TipExtrusion.make s1 m1 = some e1) (h2 : TipExtrusion.make s2 m2 = some e2)
    (g1 : ¬region e2.shape ⊆ region e1.shape) (g2 : ¬region e1.shape ⊆ region e2.shape)
    (hs : ¬(τ < ‖s1.position - s2.position‖ ∧ Moved s1 s2))
    (ix : TangentIndices) (js : List Circle) (θ : ℕ → ℝ) (hix : tangentCircleIndices e1.shape e2.shape = some ix)
    (hj : Joined e1.shape e2.shape ix js) (hx : Margin e1.shape e2.shape x) (hθ : TurnsOnce (enlarged x js) θ)
    (harc : ∀ i < js.length, θ (i + 1) = θ i ∨ 5 / 1000000 ≤ |Real.sin (θ (i + 1) - θ i)|)
    (h : evaluateTangentQuality e1 e2 τ = some .good) :
    ∀ c, c ∈ e1.shape.circles ∨ c ∈ e2.shape.circles → c ∈ js ∨ ∀ p, InDisc c p → p ∈ polygonRegion (enlarged x js) θ := by
  have hrad := radii h1 h2
  have hr' : ∀ c ∈ enlarged x js, 0 ≤ c.radius := by
    intro c hc
    obtain ⟨d, hd, rfl⟩ := List.mem_map.1 hc
    exact add_nonneg (hrad d (joined_mem hj hd)) (margin_nonneg hx)
  intro c hc
  rcases joined_unused hj hc with g | g
  · exact Or.inl g
  right
  rcases outcomes l1 l2 h1 h2 g1 g2 hs hix hj hx with ⟨-, e⟩ | ⟨e, -⟩ | ⟨arcs, hm, -, e⟩ | ⟨arcs, -, e, -⟩
  · exact absurd ⟨c, g⟩ e
  · rw [h] at e; cases e
  · exact (C66_contains_partial _ θ arcs hr' hθ hm c (hrad c hc) (by rw [enlarged, List.length_map]; exact harc)).1 (e c g)
  · rw [h] at e; simp at e

/-- If moreover the circles of the two shapes are of the same size, then the joined shape covers the two shapes. Missing: circles of two
sizes, for which this is not true. -/
theorem C67_good_partial (s1 s2 : TipState) (m1 m2 τ x r : ℝ) (e1 e2 : TipExtrusion) (l1 : Slanted s1) (l2 : Slanted s2)
    (h1 : TipExtrusion.make s1 m1 = some e1) (h2 : TipExtrusion.make s2 m2 = some e2)
    (hr : ∀ c, c ∈ e1.shape.circles ∨ c ∈ e2.shape.circles → c.radius = r)
    (g1 : ¬region e2.shape ⊆ region e1.shape) (g2 : ¬region e1.shape ⊆ region e2.shape)
    (hs : ¬(τ < ‖s1.position - s2.position‖ ∧ Moved s1 s2))
    (ix : TangentIndices) (js : List Circle) (θ : ℕ → ℝ) (hix : tangentCircleIndices e1.shape e2.shape = some ix)
    (hj : Joined e1.shape e2.shape ix js) (hx : Margin e1.shape e2.shape x) (hθ : TurnsOnce (enlarged x js) θ)
    (harc : ∀ i < js.length, θ (i + 1) = θ i ∨ 5 / 1000000 ≤ |Real.sin (θ (i + 1) - θ i)|) :
    evaluateTangentQuality e1 e2 τ = some .good ↔ Covers (enlarged x js) θ e1.shape e2.shape := by
  have hrad := radii h1 h2
  have hx0 := margin_nonneg hx
  have hr' : ∀ c ∈ enlarged x js, c.radius = r + x := by
    intro c hc
    obtain ⟨d, hd, rfl⟩ := List.mem_map.1 hc
    rw [hr d (joined_mem hj hd)]
  have hr0 : 0 ≤ r := by
    obtain ⟨⟨r1, q1⟩, -⟩ := shapes h1 h2 l1 l2
    obtain ⟨c, hc⟩ := List.exists_mem_of_ne_nil _ q1.ne
    rw [← hr c (Or.inl hc)]; exact hrad c (Or.inl hc)
  constructor
  · intro h
    have hall := C67_unused s1 s2 m1 m2 τ x e1 e2 l1 l2 h1 h2 g1 g2 hs ix js θ hix hj hx hθ harc h
    have hcov : ∀ c, c ∈ e1.shape.circles ∨ c ∈ e2.shape.circles → ∀ p, InDisc c p → p ∈ polygonRegion (enlarged x js) θ := by
      intro c hc
      rcases hall c hc with g | g
      · exact fun p hp => used_covered (add_nonneg hr0 hx0) hr' hθ (enlarged_mem g) p (enlarged_disc hx0 hp)
      · exact g
    exact ⟨region_covered fun c hc => hcov c (Or.inl hc), region_covered fun c hc => hcov c (Or.inr hc)⟩
  · intro h
    rcases outcomes l1 l2 h1 h2 g1 g2 hs hix hj hx with ⟨e, -⟩ | ⟨-, hm⟩ | ⟨arcs, -, e, -⟩ | ⟨arcs, hm, e, -⟩
    · exact e
    · exfalso
      rw [C66_make _ (fun c hc => by rw [hr' c hc]; exact add_nonneg hr0 hx0)] at hm
      rcases hm with hm | ⟨i, c, d, hf, hcd⟩
      · rw [enlarged, List.length_map] at hm
        obtain ⟨a, b, ⟨k, -, -, -, ka, -⟩, ⟨l, -, -, -, la, -⟩, rfl⟩ := hj
        rw [List.length_append] at hm
        omega
      · have ht := ((rightTangent_iff _ _ _).1 (hθ.tangent i c d hf))
        have hc0 := hr' c (List.mem_of_getElem? hf.1)
        have hd0 := hr' d (List.mem_of_getElem? hf.2)
        have hne : c.center ≠ d.center := by
          intro e
          have := ht.2
          rw [e, sub_self] at this
          simp [across] at this
        rcases hcd with g | g
        · exact apart_contains (hc0.trans hd0.symm) hne ((contains_iff (by rw [hd0]; exact add_nonneg hr0 hx0)).2 g)
        · exact apart_contains (hd0.trans hc0.symm) hne.symm ((contains_iff (by rw [hc0]; exact add_nonneg hr0 hx0)).2 g)
    · exact e
    · exact absurd h (C67_bad s1 s2 m1 m2 τ x e1 e2 l1 l2 h1 h2 ix js θ hix hj hx hθ e)

end Verif.RealGeom
