import Verif.Spec.PartialOutline
import Verif.Props.LegacyIntersection

/-!
# Lemmas for C75: searching an outline
-/

set_option autoImplicit false

namespace Verif.PartialOutline

open Geo Geo.Spec Legacy Legacy.Spec Spec

theorem distance_nonneg (a b : Pt ℝ) : 0 ≤ distance a b := Real.sqrt_nonneg _

theorem distance_comm (a b : Pt ℝ) : distance a b = distance b a := by
  unfold distance
  congr 1
  simp only [Pt.dot, Pt.sub]
  ring

theorem distance_self (a : Pt ℝ) : distance a a = 0 := by
  unfold distance
  simp [Pt.dot, Pt.sub]

theorem way_nonneg : ∀ (ps : List (Pt ℝ)) (j : ℕ), 0 ≤ way ps j
  | [], _ => by simp [way]
  | [_], _ => by simp [way]
  | _ :: _ :: _, 0 => by simp [way]
  | p :: q :: rest, j + 1 => by
    rw [way]
    exact add_nonneg (distance_nonneg _ _) (way_nonneg (q :: rest) j)

theorem on_along {a : Segment ℝ} {t : ℝ} (h0 : 0 ≤ t) (h1 : t ≤ 1) : OnSegment (along a t) a := onSegment_iff.2 ⟨t, h0, h1, rfl⟩

theorem on_stop (p q : Pt ℝ) : OnSegment q ⟨p, q⟩ := by
  have := on_along (a := ⟨p, q⟩) zero_le_one le_rfl
  have e : along (⟨p, q⟩ : Segment ℝ) 1 = q := by ext <;> (simp only [along]; ring)
  rwa [e] at this

theorem search_spec {f : Format ℝ} (hf : Exact f) (segment : Segment ℝ) (triangle : Option (Triangle ℝ)) :
    ∀ (ps : List (Pt ℝ)) (i : ℕ) (budget : ℝ),
      (∀ h left, search f segment triangle i ps budget = (some h, left) →
        (i ≤ h.startingIndex ∧ h.endingIndex = h.startingIndex + 1 ∧ OnPiece segment triangle ps budget (h.startingIndex - i) h left) ∨
        (h.startingIndex + 1 = i + ps.length ∧ h.endingIndex = h.startingIndex ∧ OnPoint segment ps budget h left)) ∧
      (∀ left, search f segment triangle i ps budget = (none, left) →
        (∀ j, way ps j < budget → (∀ k, k < j → Kept triangle ps k) → Untouched segment ps j) ∧
        (0 < budget → ∀ p ∈ ps, (∀ x ∈ ps, x = p) → ¬OnSegment p segment) ∧ Remaining triangle ps budget left) := by
  intro ps
  induction ps with
  | nil =>
    intro i budget
    refine ⟨fun h left e => ?_, fun left e => ⟨fun j _ _ p q hp => by simp at hp, fun _ p hp => by simp at hp, ?_⟩⟩
    · rw [search] at e
      simp at e
    · rw [search] at e
      obtain ⟨-, rfl⟩ := Prod.mk.inj e
      rcases le_total 0 budget with q | q
      · exact Or.inr ⟨by rw [max_eq_right q]; simp [way], le_max_left _ _, fun j t _ p q hp => by simp at hp⟩
      · exact Or.inl ⟨max_eq_left q, Or.inl (by simpa [way] using q)⟩
  | cons p ps ih =>
    cases ps with
    | nil =>
      intro i budget
      have unt : ∀ j, Untouched segment [p] j := fun j a b _ hb => by simp at hb
      have kept : ∀ j, Kept triangle [p] j := fun j t _ a b _ hb => by simp at hb
      rw [search]
      by_cases hb : 0 < budget
      · rw [if_pos hb]
        have g := C74_found hf (⟨p, p⟩ : Segment ℝ) segment
        cases hi : intersection f (⟨p, p⟩ : Segment ℝ) segment with
        | none =>
          refine ⟨fun h left e => by simp at e, fun left e => ⟨fun j _ _ => unt j, fun _ x hx _ hs => ?_, ?_⟩⟩
          · obtain rfl : x = p := by simpa using hx
            rw [hi] at g
            have := g.2 ⟨x, on_stop x x, hs⟩
            simp at this
          · obtain ⟨-, rfl⟩ := Prod.mk.inj e
            exact Or.inr ⟨by rw [max_eq_right hb.le]; simp [way], le_max_left _ _, kept⟩
        | some r =>
          refine ⟨fun h left e => Or.inr ?_, fun left e => by simp at e⟩
          obtain ⟨e1, rfl⟩ := Prod.mk.inj e
          obtain rfl := Option.some.inj e1
          obtain ⟨⟨h1, h2, h3, h4, h5, h6, h7⟩, -, -⟩ := C74_intervals hf hi
          refine ⟨by simp, rfl, hb, max_eq_right hb.le, p, by simp, fun x hx => by simpa using hx, h4, ?_⟩
          dsimp only
          rw [← h6]
          ext <;> (simp only [along]; ring)
      · rw [if_neg hb]
        push Not at hb
        refine ⟨fun h left e => by simp at e, fun left e => ⟨fun j _ _ => unt j, fun q => absurd hb (not_le.2 q), Or.inl ⟨?_, Or.inl (by simpa [way] using hb)⟩⟩⟩
        obtain ⟨-, rfl⟩ := Prod.mk.inj e
        exact max_eq_left hb
    | cons q rest =>
      intro i budget
      rw [search]
      by_cases hb : 0 < budget
      swap
      · rw [if_neg hb]
        push Not at hb
        refine ⟨fun h left e => by simp at e, fun left e => ⟨fun j hj _ => ?_, fun q => absurd hb (not_le.2 q), Or.inl ⟨?_, Or.inl (hb.trans (way_nonneg _ _))⟩⟩⟩
        · linarith [way_nonneg (p :: q :: rest) j]
        · obtain ⟨-, rfl⟩ := Prod.mk.inj e
          exact max_eq_left hb
      rw [if_pos hb]
      by_cases hpq : p = q
      · rw [if_pos hpq]
        obtain ⟨g1, g2⟩ := ih (i + 1) budget
        have wy : ∀ j, way (p :: q :: rest) (j + 1) = way (q :: rest) j := fun j => by rw [way, hpq, distance_self, zero_add]
        have u0 : Untouched segment (p :: q :: rest) 0 := fun a b ha hb hab => by
          simp only [List.getElem?_cons_zero, Option.some.injEq] at ha
          simp only [zero_add, List.getElem?_cons_succ, List.getElem?_cons_zero, Option.some.injEq] at hb
          exact absurd (ha.symm.trans (hpq.trans hb)) hab
        have k0 : Kept triangle (p :: q :: rest) 0 := fun t _ a b ha hb hab => by
          simp only [List.getElem?_cons_zero, Option.some.injEq] at ha
          simp only [zero_add, List.getElem?_cons_succ, List.getElem?_cons_zero, Option.some.injEq] at hb
          exact absurd (ha.symm.trans (hpq.trans hb)) hab
        constructor
        · intro h left e
          rcases g1 h left e with ⟨h1, h2, p', q', a1, a2, a3, a4, a5, a6, a7, a8, a9, a10, a11⟩ | ⟨h1, h2, h3, h4, p', h5, h6, h7⟩
          · left
            obtain ⟨k, hk⟩ : ∃ k, h.startingIndex = i + 1 + k := ⟨h.startingIndex - (i + 1), by omega⟩
            have e1 : h.startingIndex - (i + 1) = k := by omega
            have e2 : h.startingIndex - i = k + 1 := by omega
            rw [e1] at a1 a2 a9 a10 a11
            refine ⟨by omega, h2, p', q', ?_, ?_, a3, a4, a5, a6, a7, a8, ?_, ?_, ?_⟩
            · rw [e2]; exact a1
            · rw [e2]; exact a2
            · rw [e2]
              intro j hj
              cases j with
              | zero => exact ⟨u0, k0⟩
              | succ j => exact a9 j (by omega)
            · rw [e2, wy]; exact a10
            · rw [e2, wy]; exact a11
          · right
            refine ⟨by rw [h1]; simp only [List.length_cons]; omega, h2, h3, h4, p', List.mem_cons_of_mem _ h5, fun x hx => ?_, h7⟩
            rcases List.mem_cons.1 hx with rfl | hx
            · rw [hpq]; exact h6 q (List.mem_cons_self ..)
            · exact h6 x hx
        · intro left e
          obtain ⟨r1, r2, r3⟩ := g2 left e
          refine ⟨fun j hj hk => ?_, fun _ x hx hall => ?_, ?_⟩
          · cases j with
            | zero => exact u0
            | succ j =>
              rw [wy] at hj
              exact r1 j hj (fun k hkj => hk (k + 1) (by omega))
          · have hxq : q = x := hall q (by simp)
            exact r2 hb x (by rw [← hxq]; exact List.mem_cons_self ..) (fun y hy => hall y (List.mem_cons_of_mem _ hy))
          · rcases r3 with ⟨r3, r4⟩ | ⟨r3, r4, r5⟩
            · refine Or.inl ⟨r3, r4.imp (fun w => ?_) fun ⟨j, hj⟩ => ⟨j + 1, fun w => hj w⟩⟩
              simp only [List.length_cons, Nat.add_sub_cancel] at w ⊢
              rw [wy]
              exact w
            · refine Or.inr ⟨?_, r4, fun j => ?_⟩
              · rw [r3]
                simp only [List.length_cons, Nat.add_sub_cancel]
                rw [wy]
              · cases j with
                | zero => exact k0
                | succ j => exact r5 j
      · rw [if_neg hpq]
        have g := C74_found hf (⟨p, q⟩ : Segment ℝ) segment
        cases hi : intersection f (⟨p, q⟩ : Segment ℝ) segment with
        | some r =>
          refine ⟨fun h left e => Or.inl ?_, fun left e => by simp at e⟩
          obtain ⟨e1, rfl⟩ := Prod.mk.inj e
          obtain rfl := Option.some.inj e1
          obtain ⟨⟨h1, h2, h3, h4, h5, h6, h7⟩, i1, i2⟩ := C74_intervals hf hi
          refine ⟨le_rfl, rfl, p, q, by simp, by simp, hpq, ⟨h1, h2.trans h3⟩, h4, ?_, ?_, ?_, ?_, ?_, ?_⟩
          · exact lerp_eq_along _ _
          · dsimp only; rw [lerp_eq_along]; exact h6
          · intro s s0 s1 hs
            have hin := (i2 (along ⟨p, q⟩ s)).2 ⟨on_along s0 s1, hs⟩
            rw [i1] at hin
            obtain ⟨l, l0, l1, e⟩ := onSegment_iff.1 hin
            have ex := congrArg Pt.x e
            have ey := congrArg Pt.y e
            simp only [along] at ex ey
            have : s = r.s0 + l * (r.s1 - r.s0) := by
              by_cases hx : p.x = q.x
              · have hy : q.y - p.y ≠ 0 := fun w => hpq (Pt.ext hx (by linarith))
                apply mul_right_cancel₀ hy
                linarith
              · have hx' : q.x - p.x ≠ 0 := fun w => hx (by linarith)
                apply mul_right_cancel₀ hx'
                linarith
            show r.s0 ≤ s
            rw [this]
            nlinarith
          · intro j hj
            simp at hj
          · simpa [way] using hb
          · simp [way]
        | none =>
          rw [hi] at g
          have none' : ∀ x, OnSegment x ⟨p, q⟩ → ¬OnSegment x segment := fun x h1 h2 => by
            have := g.2 ⟨x, h1, h2⟩
            simp at this
          have u0 : Untouched segment (p :: q :: rest) 0 := fun a b ha hb hab => by
            simp only [List.getElem?_cons_zero, Option.some.injEq] at ha
            simp only [zero_add, List.getElem?_cons_succ, List.getElem?_cons_zero, Option.some.injEq] at hb
            subst ha hb
            exact none'
          dsimp only
          by_cases ht : triangle.any (fun t => !t.contains q) = true
          · rw [if_pos ht]
            have not0 : ¬Kept triangle (p :: q :: rest) 0 := fun hk => by
              obtain ⟨t, ht1, ht2⟩ : ∃ t, triangle = some t ∧ (!t.contains q) = true := by
                cases triangle with
                | none => simp at ht
                | some t => exact ⟨t, rfl, ht⟩
              have := hk t ht1 p q (by simp) (by simp) hpq
              rw [(C24_triangle_contains t q).2 this] at ht2
              simp at ht2
            refine ⟨fun h left e => by simp at e, fun left e => ⟨fun j hj hk => ?_, fun _ x hx hall => ?_, Or.inl ⟨?_, Or.inr ⟨0, not0⟩⟩⟩⟩
            · cases j with
              | zero => exact u0
              | succ j => exact absurd (hk 0 (by omega)) not0
            · exact absurd ((hall p (by simp)).trans (hall q (by simp)).symm) hpq
            · obtain ⟨-, rfl⟩ := Prod.mk.inj e
              rfl
          · rw [if_neg ht]
            obtain ⟨g1, g2⟩ := ih (i + 1) (budget - distance q p)
            have wy : ∀ j, way (p :: q :: rest) (j + 1) = distance q p + way (q :: rest) j := fun j => by rw [way, distance_comm]
            have k0 : Kept triangle (p :: q :: rest) 0 := fun t hT a b ha hb hab => by
              simp only [List.getElem?_cons_zero, Option.some.injEq] at ha
              simp only [zero_add, List.getElem?_cons_succ, List.getElem?_cons_zero, Option.some.injEq] at hb
              subst ha hb
              rw [hT] at ht
              refine (C24_triangle_contains t q).1 ?_
              by_contra w
              simp only [Bool.not_eq_true] at w
              apply ht
              simp [w]
            constructor
            · intro h left e
              rcases g1 h left e with ⟨h1, h2, p', q', a1, a2, a3, a4, a5, a6, a7, a8, a9, a10, a11⟩ | ⟨h1, h2, h3, h4, p', h5, h6, h7, h8⟩
              · left
                obtain ⟨k, hk⟩ : ∃ k, h.startingIndex = i + 1 + k := ⟨h.startingIndex - (i + 1), by omega⟩
                have e1 : h.startingIndex - (i + 1) = k := by omega
                have e2 : h.startingIndex - i = k + 1 := by omega
                rw [e1] at a1 a2 a9 a10 a11
                refine ⟨by omega, h2, p', q', ?_, ?_, a3, a4, a5, a6, a7, a8, ?_, ?_, ?_⟩
                · rw [e2]; exact a1
                · rw [e2]; exact a2
                · rw [e2]
                  intro j hj
                  cases j with
                  | zero => exact ⟨u0, k0⟩
                  | succ j => exact a9 j (by omega)
                · rw [e2, wy]; linarith
                · rw [e2, wy, a11]; congr 1; ring
              · exfalso
                have : q = p' := h6 q (List.mem_cons_self ..)
                refine none' q (on_stop p q) ?_
                rw [this, h8]
                exact on_along h7.1 h7.2
            · intro left e
              obtain ⟨r1, r2, r3⟩ := g2 left e
              refine ⟨fun j hj hk => ?_, fun _ x hx hall => ?_, ?_⟩
              · cases j with
                | zero => exact u0
                | succ j =>
                  rw [wy] at hj
                  exact r1 j (by linarith) (fun k hkj => hk (k + 1) (by omega))
              · exact absurd ((hall p (by simp)).trans (hall q (by simp)).symm) hpq
              · rcases r3 with ⟨r3, r4⟩ | ⟨r3, r4, r5⟩
                · refine Or.inl ⟨r3, r4.imp (fun w => ?_) fun ⟨j, hj⟩ => ⟨j + 1, fun w => hj w⟩⟩
                  simp only [List.length_cons, Nat.add_sub_cancel] at w ⊢
                  rw [wy]
                  linarith
                · refine Or.inr ⟨?_, r4, fun j => ?_⟩
                  · rw [r3]
                    simp only [List.length_cons, Nat.add_sub_cancel]
                    rw [wy]
                    ring
                  · cases j with
                    | zero => exact k0
                    | succ j => exact r5 j

end Verif.PartialOutline
