import Verif.Model.EasingTable
import Verif.Props.Damping
import Mathlib.Tactic.LinearCombination

/-!
# The parameters at which a cubic Bezier easing function is evaluated

They do not depend on the curve: there are 79 of them.
-/

set_option autoImplicit false

namespace Verif.Easing

open F32

/-- The value of `t` after `k` steps. -/
def T : Nat → F32
  | 0 => zero
  | k + 1 => add (T k) tStep

/-- What is needed of the parameter after `k` steps and its coefficients. -/
def Good (k : Nat) (t : F32) : Prop :=
  t.isFinite = true ∧ (coeffs t).1.isFinite = true ∧ (coeffs t).2.1.isFinite = true ∧ (coeffs t).2.2.isFinite = true ∧
  |toRat (coeffs t).1 - 3 * (1 - toRat t) ^ 2 * toRat t| ≤ 1 / 2 ^ 23 ∧
  |toRat (coeffs t).2.1 - 3 * (1 - toRat t) * toRat t ^ 2| ≤ 1 / 2 ^ 23 ∧
  |toRat (coeffs t).2.2 - toRat t ^ 3| ≤ 1 / 2 ^ 23 ∧
  0 ≤ toRat t ∧ toRat t ≤ 1 + 1 / 2 ^ 19 ∧ (k ≤ 77 → toRat t ≤ 1) ∧ (k = 78 → 1 ≤ toRat t) ∧
  0 ≤ toRat (coeffs t).1 ∧ toRat (coeffs t).1 ≤ 4445 / 10000 ∧
  -(1 / 2 ^ 18) ≤ toRat (coeffs t).2.1 ∧ toRat (coeffs t).2.1 ≤ 4445 / 10000 ∧
  (k ≤ 77 → 0 ≤ toRat (coeffs t).2.1) ∧
  0 ≤ toRat (coeffs t).2.2 ∧ toRat (coeffs t).2.2 ≤ 1 + 1 / 2 ^ 18 ∧
  (k ≤ 77 → 65 ≤ k → toRat (targetX (k - 65)) ≤ toRat (coeffs t).2.2) ∧
  (k = 78 → toRat (coeffs t).2.1 ≤ 0 ∧ 1 ≤ toRat (add (coeffs t).2.1 (coeffs t).2.2)) ∧
  (k ≤ 77 → 1 / 78 - 1 / 2 ^ 22 ≤ toRat (add t tStep) - toRat t ∧ toRat (add t tStep) - toRat t ≤ 1 / 78 + 1 / 2 ^ 22)

instance (k : Nat) (t : F32) : Decidable (Good k t) := by unfold Good; infer_instance

def checkFrom : Nat → Nat → F32 → Bool
  | 0, _, _ => true
  | n + 1, k, t => decide (Good k t) && checkFrom n (k + 1) (add t tStep)

theorem checkFrom_sound : ∀ (n k : Nat), checkFrom n k (T k) = true → ∀ j, k ≤ j → j < k + n → Good j (T j)
  | 0, k, _, j, h1, h2 => by omega
  | n + 1, k, h, j, h1, h2 => by
    simp only [checkFrom, Bool.and_eq_true, decide_eq_true_eq] at h
    by_cases e : j = k
    · subst e; exact h.1
    · exact checkFrom_sound n (k + 1) h.2 j (by omega) (by omega)

theorem good {k : Nat} (h : k ≤ 78) : Good k (T k) :=
  checkFrom_sound 79 0 (by decide +kernel) k (by omega) (by omega)

structure Point (k : Nat) (t c1 c2 c3 : ℚ) : Prop where
  err1 : |c1 - 3 * (1 - t) ^ 2 * t| ≤ 1 / 2 ^ 23
  err2 : |c2 - 3 * (1 - t) * t ^ 2| ≤ 1 / 2 ^ 23
  err3 : |c3 - t ^ 3| ≤ 1 / 2 ^ 23
  nonneg : 0 ≤ t
  le : t ≤ 1 + 1 / 2 ^ 19
  le_one : k ≤ 77 → t ≤ 1
  one_le : k = 78 → 1 ≤ t
  c1_nonneg : 0 ≤ c1
  c1_le : c1 ≤ 4445 / 10000
  c2_ge : -(1 / 2 ^ 18) ≤ c2
  c2_le : c2 ≤ 4445 / 10000
  c2_nonneg : k ≤ 77 → 0 ≤ c2
  c3_nonneg : 0 ≤ c3
  c3_le : c3 ≤ 1 + 1 / 2 ^ 18
  c3_ge : k ≤ 77 → 65 ≤ k → toRat (targetX (k - 65)) ≤ c3
  c2_nonpos : k = 78 → c2 ≤ 0

theorem point {k : Nat} (h : k ≤ 78) :
    Point k (toRat (T k)) (toRat (coeffs (T k)).1) (toRat (coeffs (T k)).2.1) (toRat (coeffs (T k)).2.2) := by
  obtain ⟨-, -, -, -, a1, a2, a3, a4, a5, a6, a7, a8, a9, a10, a11, a12, a13, a14, a15, a16, -⟩ := good h
  exact ⟨a1, a2, a3, a4, a5, a6, a7, a8, a9, a10, a11, a12, a13, a14, a15, fun e => (a16 e).1⟩

theorem point_finite {k : Nat} (h : k ≤ 78) : (T k).isFinite = true ∧ (coeffs (T k)).1.isFinite = true ∧
    (coeffs (T k)).2.1.isFinite = true ∧ (coeffs (T k)).2.2.isFinite = true := by
  obtain ⟨a1, a2, a3, a4, -⟩ := good h
  exact ⟨a1, a2, a3, a4⟩

theorem point_end : 1 ≤ toRat (add (coeffs (T 78)).2.1 (coeffs (T 78)).2.2) := by
  obtain ⟨-, -, -, -, -, -, -, -, -, -, -, -, -, -, -, -, -, -, -, a, -⟩ := good (k := 78) (by omega)
  exact (a rfl).2

theorem point_step {k : Nat} (h : k ≤ 77) : 1 / 78 - 1 / 2 ^ 22 ≤ toRat (T (k + 1)) - toRat (T k) ∧
    toRat (T (k + 1)) - toRat (T k) ≤ 1 / 78 + 1 / 2 ^ 22 := by
  obtain ⟨-, -, -, -, -, -, -, -, -, -, -, -, -, -, -, -, -, -, -, -, a⟩ := good (k := k) (by omega)
  exact a h

theorem target_ok {i : Nat} (h : i ≤ 13) : (targetX i).isFinite = true ∧ |toRat (targetX i) - i / 13| ≤ 1 / 2 ^ 23 ∧
    0 ≤ toRat (targetX i) ∧ toRat (targetX i) ≤ 1 ∧ (i = 0 → toRat (targetX i) = 0) ∧ (i = 13 → toRat (targetX i) = 1) := by
  have : ∀ i : Fin 14, (targetX i).isFinite = true ∧ |toRat (targetX i) - (i.val : ℚ) / 13| ≤ 1 / 2 ^ 23 ∧
      0 ≤ toRat (targetX i) ∧ toRat (targetX i) ≤ 1 ∧ (i.val = 0 → toRat (targetX i) = 0) ∧ (i.val = 13 → toRat (targetX i) = 1) := by
    decide +kernel
  exact this ⟨i, by omega⟩

end Verif.Easing
