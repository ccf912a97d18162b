import Verif.Spec.BrushTipExtrusion
import Verif.Lemmas.BrushTipShape
import Verif.Lemmas.RoundedPolygon

/-!
# Lemmas about the tangents between two tip shapes (C67)
-/

set_option autoImplicit false

namespace Verif.RealGeom

open Spec Real TipShape

/-! ## Runs of circles -/

/-- The circles from the index `i` on. -/
noncomputable def runFrom (cs : List Circle) (i k : ℕ) : List Circle :=
  (List.range (k + 1)).map fun p => (cs[(i + p) % cs.length]?).getD ⟨0, 0⟩

theorem get_getD {cs : List Circle} {i : ℕ} (h : i < cs.length) : cs[i]? = some ((cs[i]?).getD ⟨0, 0⟩) := by
  rw [List.getElem?_eq_getElem h, Option.getD_some]

theorem runFrom_run {cs : List Circle} {i k : ℕ} (hi : i < cs.length) (hk : k < cs.length) :
    Run cs i ((i + k) % cs.length) (runFrom cs i k) := by
  refine ⟨k, hk, hi, rfl, by simp [runFrom], fun p hp => ?_⟩
  unfold runFrom
  rw [List.getElem?_map, List.getElem?_range (by omega), Option.map_some]
  exact (get_getD (Nat.mod_lt _ (by omega))).symm

theorem steps_unique {n i k l : ℕ} (hk : k < n) (hl : l < n) (h : (i + k) % n = (i + l) % n) : k = l := by
  have : k ≡ l [MOD n] := Nat.ModEq.add_left_cancel' i h
  unfold Nat.ModEq at this
  rwa [Nat.mod_eq_of_lt hk, Nat.mod_eq_of_lt hl] at this

theorem run_eq {cs : List Circle} {i j : ℕ} {run : List Circle} (h : Run cs i j run) :
    ∃ k < cs.length, i < cs.length ∧ j = (i + k) % cs.length ∧ run = runFrom cs i k := by
  obtain ⟨k, hk, hi, hj, hlen, hget⟩ := h
  refine ⟨k, hk, hi, hj, ?_⟩
  obtain ⟨k', hk', -, hj', hlen', hget'⟩ := runFrom_run hi hk
  obtain rfl := steps_unique hk hk' hj'
  apply List.ext_getElem?
  intro p
  rcases Nat.lt_or_ge k p with h | h
  · rw [List.getElem?_eq_none (by omega), List.getElem?_eq_none (by omega)]
  · rw [hget p h, hget' p h]

theorem exists_steps {n i j : ℕ} (hi : i < n) (hj : j < n) : ∃ k < n, j = (i + k) % n := by
  rcases Nat.lt_or_ge j i with h | h
  · refine ⟨n - i + j, by omega, ?_⟩
    rw [show i + (n - i + j) = j + n by omega, Nat.add_mod_right, Nat.mod_eq_of_lt hj]
  · exact ⟨j - i, by omega, by rw [Nat.add_sub_cancel' h, Nat.mod_eq_of_lt hj]⟩

theorem run_exists {cs : List Circle} {i j : ℕ} (hi : i < cs.length) (hj : j < cs.length) : ∃ run, Run cs i j run := by
  obtain ⟨k, hk, rfl⟩ := exists_steps hi hj
  exact ⟨_, runFrom_run hi hk⟩

theorem nextCcw_eq {s : TipShape} {i : ℕ} (hi : i < s.circles.length) : s.nextCcw i = (i + 1) % s.circles.length := by
  unfold TipShape.nextCcw
  split_ifs with h
  · rw [show i + 1 = s.circles.length by omega, Nat.mod_self]
  · rw [Nat.mod_eq_of_lt (by omega)]

theorem nextCcw_lt {s : TipShape} {i : ℕ} (hi : i < s.circles.length) : s.nextCcw i < s.circles.length := by
  rw [nextCcw_eq hi]; exact Nat.mod_lt _ (by omega)

theorem nextCw_lt {s : TipShape} {i : ℕ} (hi : i < s.circles.length) : s.nextCw i < s.circles.length := by
  unfold TipShape.nextCw
  split_ifs <;> omega

theorem nextCw_ccw {s : TipShape} {i : ℕ} (hi : i < s.circles.length) : (s.nextCw i + 1) % s.circles.length = i := by
  unfold TipShape.nextCw
  split_ifs with h
  · rw [Nat.sub_add_cancel (by omega), Nat.mod_self, h]
  · rw [Nat.sub_add_cancel (by omega), Nat.mod_eq_of_lt hi]

theorem addCircles_spec {s : TipShape} (x : ℝ) {j : ℕ} (m : ℕ) : ∀ i k, i < s.circles.length → k < s.circles.length → k < m →
    j = (i + k) % s.circles.length → s.addCircles x j i m = some (enlarged x (runFrom s.circles i k)) := by
  induction m with
  | zero => intro i k _ _ h; omega
  | succ m ih =>
    intro i k hi hk hm hj
    rw [addCircles]
    cases k with
    | zero =>
      rw [Nat.add_zero, Nat.mod_eq_of_lt hi] at hj
      subst hj
      rw [if_pos rfl, get_getD hi, Option.map_some]
      simp [enlarged, runFrom, withOffset, Nat.mod_eq_of_lt hi]
    | succ k =>
      have hne : i ≠ j := by
        intro e
        have := steps_unique (i := i) hk (by omega : 0 < s.circles.length) (by rw [← hj, ← e, Nat.add_zero, Nat.mod_eq_of_lt hi])
        omega
      have hn : 0 < s.circles.length := by omega
      rw [if_neg hne, get_getD hi, ih (s.nextCcw i) k (nextCcw_lt hi) (by omega) (by omega)
        (by rw [nextCcw_eq hi, hj, Nat.mod_add_mod]; congr 1; omega)]
      dsimp only
      congr 1
      unfold runFrom enlarged
      rw [List.range_succ_eq_map (n := k + 1), List.map_cons, List.map_map, List.map_cons, List.map_map, List.map_map]
      congr 1
      · rw [Nat.add_zero, Nat.mod_eq_of_lt hi]; rfl
      · apply List.map_congr_left
        intro p _
        simp only [Function.comp]
        rw [nextCcw_eq hi, Nat.mod_add_mod, show i + 1 + p = i + (p + 1) by omega]

open Classical in
theorem unusedLoop_spec {s : TipShape} {arcs : List RoundedPolygon.Arc} {j : ℕ} (m : ℕ) : ∀ i k, i < s.circles.length →
    k < s.circles.length → k < m → j = (i + k) % s.circles.length → unusedLoop arcs s j i m =
      some (decide (∀ p < k, ∀ c, s.circles[(i + p) % s.circles.length]? = some c → RoundedPolygon.ContainsCircle arcs c)) := by
  induction m with
  | zero => intro i k _ _ h; omega
  | succ m ih =>
    intro i k hi hk hm hj
    rw [unusedLoop]
    cases k with
    | zero =>
      rw [Nat.add_zero, Nat.mod_eq_of_lt hi] at hj
      rw [if_pos hj.symm, decide_eq_true]
      intro p hp; omega
    | succ k =>
      have hne : i ≠ j := by
        intro e
        have := steps_unique (i := i) hk (by omega : 0 < s.circles.length) (by rw [← hj, ← e, Nat.add_zero, Nat.mod_eq_of_lt hi])
        omega
      have hn : 0 < s.circles.length := by omega
      rw [if_neg hne, get_getD hi]
      dsimp only
      have hih := ih (s.nextCcw i) k (nextCcw_lt hi) (by omega) (by omega)
        (by rw [nextCcw_eq hi, hj, Nat.mod_add_mod]; congr 1; omega)
      by_cases hc : RoundedPolygon.ContainsCircle arcs ((s.circles[i]?).getD ⟨0, 0⟩)
      · rw [if_pos hc, hih]
        congr 1
        rw [decide_eq_decide]
        constructor
        · intro h p hp c hget
          cases p with
          | zero =>
            rw [Nat.add_zero, Nat.mod_eq_of_lt hi] at hget
            rw [hget] at hc
            exact hc
          | succ p =>
            refine h p (by omega) c ?_
            rw [nextCcw_eq hi, Nat.mod_add_mod, ← hget]
            congr 2; omega
        · intro h p hp c hget
          refine h (p + 1) (by omega) c ?_
          rw [nextCcw_eq hi, Nat.mod_add_mod] at hget
          rw [← hget]
          congr 2; omega
      · rw [if_neg hc, decide_eq_false]
        intro h
        refine hc (h 0 (by omega) _ ?_)
        rw [Nat.add_zero, Nat.mod_eq_of_lt hi]
        exact get_getD hi

/-- The circles that are not of a run are those from its end to its start. -/
theorem run_split {n i j k l : ℕ} (hi : i < n) (hl : l < n) (hj : j = (i + k) % n) (h : i = ((j + 1) % n + l) % n) {q : ℕ}
    (hq : q < n) : (∃ p ≤ k, q = (i + p) % n) ∨ ∃ p < l, q = ((j + 1) % n + p) % n := by
  obtain ⟨p, hp, hpq⟩ := exists_steps hi hq
  rcases Nat.lt_or_ge k p with h1 | h1
  · right
    have e1 : i ≡ i + (k + 1 + l) [MOD n] := by
      unfold Nat.ModEq
      rw [Nat.mod_eq_of_lt hi]
      conv_lhs => rw [h, hj]
      rw [Nat.mod_add_mod, add_assoc, Nat.mod_add_mod]
      congr 1; omega
    have e2 : 0 ≡ k + 1 + l [MOD n] := Nat.ModEq.add_left_cancel' i e1
    have e3 : k + 1 + l = n := by
      have := (Nat.modEq_zero_iff_dvd.1 e2.symm)
      obtain ⟨c, hc⟩ := this
      have : c = 1 := by
        rcases Nat.lt_or_ge c 1 with h | h
        · have : c = 0 := by omega
          subst this; omega
        · by_contra hne
          have : 2 ≤ c := by omega
          have := Nat.mul_le_mul_left n this
          omega
      subst this; omega
    refine ⟨p - k - 1, by omega, ?_⟩
    rw [hpq, hj, Nat.mod_add_mod, add_assoc, Nat.mod_add_mod]
    congr 1; omega
  · exact Or.inl ⟨p, h1, hpq⟩

/-! ## The circles with the leftmost and the rightmost turn -/

/-- The turns that are not backwards on the wrong side. -/
def Near : Side → ℝ → Prop
  | .left, a => a ≤ π / 2
  | .right, a => -(π / 2) ≤ a

/-- `b` is the index, counted from `i`, and the tangent of a circle of a list. -/
def Found (start : Circle) (dir : ℂ) (side : Side) (i : ℕ) (cs : List Circle) (b : ℕ × ℝ × ℝ) : Prop :=
  ∃ p c, cs[p]? = some c ∧ b.1 = i + p ∧ tangentProperties start c dir side = some b.2 ∧ Near side b.2.1

theorem leftmost_spec (start : Circle) (dir : ℂ) (cs : List Circle) : ∀ best i,
    (∀ b, leftmostLoop start dir best i cs = some b → (best = some b ∨ Found start dir .left i cs b) ∧
      ∀ b', (best = some b' ∨ Found start dir .left i cs b') → b'.2.1 ≤ b.2.1 ∧ (b'.2.1 = b.2.1 → b.2.2 ≤ b'.2.2)) ∧
    (leftmostLoop start dir best i cs = none → best = none ∧ ∀ b, ¬Found start dir .left i cs b) := by
  induction cs with
  | nil =>
    intro best i
    have hF : ∀ b, ¬Found start dir .left i [] b := by rintro b ⟨p, c, h, -⟩; simp at h
    rw [leftmostLoop]
    refine ⟨fun b hb => ⟨Or.inl hb, ?_⟩, fun h => ⟨h, hF⟩⟩
    rintro b' (h | h)
    · rw [hb] at h
      obtain rfl := Option.some.inj h
      exact ⟨le_refl _, fun _ => le_refl _⟩
    · exact absurd h (hF b')
  | cons c cs ih =>
    intro best i
    have step : ∀ b, Found start dir .left i (c :: cs) b ↔
        (b.1 = i ∧ tangentProperties start c dir .left = some b.2 ∧ Near .left b.2.1) ∨ Found start dir .left (i + 1) cs b := by
      intro b
      constructor
      · rintro ⟨p, d, h1, h2, h3, h4⟩
        cases p with
        | zero =>
          simp only [List.getElem?_cons_zero, Option.some.injEq] at h1
          subst h1
          exact Or.inl ⟨by omega, h3, h4⟩
        | succ p =>
          simp only [List.getElem?_cons_succ] at h1
          exact Or.inr ⟨p, d, h1, by omega, h3, h4⟩
      · rintro (⟨h1, h2, h3⟩ | ⟨p, d, h1, h2, h3, h4⟩)
        · exact ⟨0, c, by simp, by omega, h2, h3⟩
        · exact ⟨p + 1, d, by simpa using h1, by omega, h3, h4⟩
    have skip : (∀ t, tangentProperties start c dir .left = some t → ¬Near .left t.1) → ∀ b,
        Found start dir .left i (c :: cs) b ↔ Found start dir .left (i + 1) cs b := by
      intro h b
      rw [step]
      exact ⟨fun h' => h'.resolve_left fun ⟨_, h2, h3⟩ => h _ h2 h3, Or.inr⟩
    rw [leftmostLoop]
    cases ht : tangentProperties start c dir .left with
    | none =>
      dsimp only
      simp only [skip (by rw [ht]; simp)]
      exact ih best (i + 1)
    | some t =>
      dsimp only
      by_cases hfar : t.1 > π / 2
      · rw [if_pos hfar]
        have hn : ¬Near .left t.1 := by unfold Near; exact not_le.2 hfar
        simp only [skip (by rw [ht]; intro t' h; obtain rfl := Option.some.inj h; exact hn)]
        exact ih best (i + 1)
      rw [if_neg hfar]
      have hn : Near .left t.1 := by unfold Near; exact not_lt.1 hfar
      have head : ∀ b, (b.1 = i ∧ tangentProperties start c dir .left = some b.2 ∧ Near .left b.2.1) ↔ b = (i, t) := by
        intro b
        rw [ht]
        constructor
        · rintro ⟨h1, h2, -⟩
          obtain h2 := Option.some.inj h2
          rw [h2, ← h1]
        · rintro rfl
          exact ⟨rfl, rfl, hn⟩
      simp only [step, head]
      cases best with
      | none =>
        dsimp only
        obtain ⟨i1, i2⟩ := ih (some (i, t)) (i + 1)
        refine ⟨fun b hb => ?_, fun hb => absurd (i2 hb).1 (by simp)⟩
        obtain ⟨j1, j2⟩ := i1 b hb
        refine ⟨Or.inr (j1.imp (fun h => (Option.some.inj h).symm) id), ?_⟩
        rintro b' (h | h | h)
        · cases h
        · exact j2 b' (Or.inl (by rw [h]))
        · exact j2 b' (Or.inr h)
      | some b0 =>
        dsimp only
        by_cases hbetter : t.1 > b0.2.1 ∨ t.1 = b0.2.1 ∧ t.2 < b0.2.2
        · rw [if_pos hbetter]
          obtain ⟨i1, i2⟩ := ih (some (i, t)) (i + 1)
          refine ⟨fun b hb => ?_, fun hb => absurd (i2 hb).1 (by simp)⟩
          obtain ⟨j1, j2⟩ := i1 b hb
          refine ⟨Or.inr (j1.imp (fun h => (Option.some.inj h).symm) id), ?_⟩
          rintro b' (h | h | h)
          · obtain rfl := Option.some.inj h
            obtain ⟨k1, k2⟩ := j2 (i, t) (Or.inl rfl)
            dsimp only at k1 k2
            rcases hbetter with g | ⟨g, g'⟩
            · refine ⟨?_, fun e => ?_⟩ <;> linarith
            · refine ⟨by linarith, fun e => ?_⟩
              have := k2 (by linarith)
              linarith
          · exact j2 b' (Or.inl (by rw [h]))
          · exact j2 b' (Or.inr h)
        · rw [if_neg hbetter]
          push Not at hbetter
          obtain ⟨i1, i2⟩ := ih (some b0) (i + 1)
          refine ⟨fun b hb => ?_, fun hb => absurd (i2 hb).1 (by simp)⟩
          obtain ⟨j1, j2⟩ := i1 b hb
          refine ⟨j1.imp id Or.inr, ?_⟩
          rintro b' (h | h | h)
          · exact j2 b' (Or.inl h)
          · subst h
            obtain ⟨k1, k2⟩ := j2 b0 (Or.inl rfl)
            dsimp only
            refine ⟨by linarith [hbetter.1], fun e => ?_⟩
            have e2 : b0.2.1 = b.2.1 := by linarith [hbetter.1]
            have := hbetter.2 (by linarith)
            linarith [k2 e2]
          · exact j2 b' (Or.inr h)

theorem rightmost_spec (start : Circle) (dir : ℂ) (cs : List Circle) : ∀ best i,
    (∀ b, rightmostLoop start dir best i cs = some b → (best = some b ∨ Found start dir .right i cs b) ∧
      ∀ b', (best = some b' ∨ Found start dir .right i cs b') → b.2.1 ≤ b'.2.1 ∧ (b'.2.1 = b.2.1 → b.2.2 ≤ b'.2.2)) ∧
    (rightmostLoop start dir best i cs = none → best = none ∧ ∀ b, ¬Found start dir .right i cs b) := by
  induction cs with
  | nil =>
    intro best i
    have hF : ∀ b, ¬Found start dir .right i [] b := by rintro b ⟨p, c, h, -⟩; simp at h
    rw [rightmostLoop]
    refine ⟨fun b hb => ⟨Or.inl hb, ?_⟩, fun h => ⟨h, hF⟩⟩
    rintro b' (h | h)
    · rw [hb] at h
      obtain rfl := Option.some.inj h
      exact ⟨le_refl _, fun _ => le_refl _⟩
    · exact absurd h (hF b')
  | cons c cs ih =>
    intro best i
    have step : ∀ b, Found start dir .right i (c :: cs) b ↔
        (b.1 = i ∧ tangentProperties start c dir .right = some b.2 ∧ Near .right b.2.1) ∨ Found start dir .right (i + 1) cs b := by
      intro b
      constructor
      · rintro ⟨p, d, h1, h2, h3, h4⟩
        cases p with
        | zero =>
          simp only [List.getElem?_cons_zero, Option.some.injEq] at h1
          subst h1
          exact Or.inl ⟨by omega, h3, h4⟩
        | succ p =>
          simp only [List.getElem?_cons_succ] at h1
          exact Or.inr ⟨p, d, h1, by omega, h3, h4⟩
      · rintro (⟨h1, h2, h3⟩ | ⟨p, d, h1, h2, h3, h4⟩)
        · exact ⟨0, c, by simp, by omega, h2, h3⟩
        · exact ⟨p + 1, d, by simpa using h1, by omega, h3, h4⟩
    have skip : (∀ t, tangentProperties start c dir .right = some t → ¬Near .right t.1) → ∀ b,
        Found start dir .right i (c :: cs) b ↔ Found start dir .right (i + 1) cs b := by
      intro h b
      rw [step]
      exact ⟨fun h' => h'.resolve_left fun ⟨_, h2, h3⟩ => h _ h2 h3, Or.inr⟩
    rw [rightmostLoop]
    cases ht : tangentProperties start c dir .right with
    | none =>
      dsimp only
      simp only [skip (by rw [ht]; simp)]
      exact ih best (i + 1)
    | some t =>
      dsimp only
      by_cases hfar : t.1 < -(π / 2)
      · rw [if_pos hfar]
        have hn : ¬Near .right t.1 := by unfold Near; exact not_le.2 hfar
        simp only [skip (by rw [ht]; intro t' h; obtain rfl := Option.some.inj h; exact hn)]
        exact ih best (i + 1)
      rw [if_neg hfar]
      have hn : Near .right t.1 := by unfold Near; exact not_lt.1 hfar
      have head : ∀ b, (b.1 = i ∧ tangentProperties start c dir .right = some b.2 ∧ Near .right b.2.1) ↔ b = (i, t) := by
        intro b
        rw [ht]
        constructor
        · rintro ⟨h1, h2, -⟩
          obtain h2 := Option.some.inj h2
          rw [h2, ← h1]
        · rintro rfl
          exact ⟨rfl, rfl, hn⟩
      simp only [step, head]
      cases best with
      | none =>
        dsimp only
        obtain ⟨i1, i2⟩ := ih (some (i, t)) (i + 1)
        refine ⟨fun b hb => ?_, fun hb => absurd (i2 hb).1 (by simp)⟩
        obtain ⟨j1, j2⟩ := i1 b hb
        refine ⟨Or.inr (j1.imp (fun h => (Option.some.inj h).symm) id), ?_⟩
        rintro b' (h | h | h)
        · cases h
        · exact j2 b' (Or.inl (by rw [h]))
        · exact j2 b' (Or.inr h)
      | some b0 =>
        dsimp only
        by_cases hbetter : t.1 < b0.2.1 ∨ t.1 = b0.2.1 ∧ t.2 < b0.2.2
        · rw [if_pos hbetter]
          obtain ⟨i1, i2⟩ := ih (some (i, t)) (i + 1)
          refine ⟨fun b hb => ?_, fun hb => absurd (i2 hb).1 (by simp)⟩
          obtain ⟨j1, j2⟩ := i1 b hb
          refine ⟨Or.inr (j1.imp (fun h => (Option.some.inj h).symm) id), ?_⟩
          rintro b' (h | h | h)
          · obtain rfl := Option.some.inj h
            obtain ⟨k1, k2⟩ := j2 (i, t) (Or.inl rfl)
            dsimp only at k1 k2
            rcases hbetter with g | ⟨g, g'⟩
            · refine ⟨?_, fun e => ?_⟩ <;> linarith
            · refine ⟨by linarith, fun e => ?_⟩
              have := k2 (by linarith)
              linarith
          · exact j2 b' (Or.inl (by rw [h]))
          · exact j2 b' (Or.inr h)
        · rw [if_neg hbetter]
          push Not at hbetter
          obtain ⟨i1, i2⟩ := ih (some b0) (i + 1)
          refine ⟨fun b hb => ?_, fun hb => absurd (i2 hb).1 (by simp)⟩
          obtain ⟨j1, j2⟩ := i1 b hb
          refine ⟨j1.imp id Or.inr, ?_⟩
          rintro b' (h | h | h)
          · exact j2 b' (Or.inl h)
          · subst h
            obtain ⟨k1, k2⟩ := j2 b0 (Or.inl rfl)
            dsimp only
            refine ⟨by linarith [hbetter.1], fun e => ?_⟩
            have e2 : b0.2.1 = b.2.1 := by linarith [hbetter.1]
            have := hbetter.2 (by linarith)
            linarith [k2 e2]
          · exact j2 b' (Or.inr h)

/-! ## Turning indices -/

theorem leftmost_some {c : Circle} {dir : ℂ} {s : TipShape} {th : ℝ} {i : ℕ} (h : leftmostTurningIndex c dir s th = some i) :
    ∃ d t, s.circles[i]? = some d ∧ tangentProperties c d dir .left = some t ∧ Near .left t.1 ∧ th ≤ t.1 ∧
      ∀ d' ∈ s.circles, ∀ t', tangentProperties c d' dir .left = some t' → Near .left t'.1 → t'.1 ≤ t.1 ∧ (t'.1 = t.1 → t.2 ≤ t'.2) := by
  unfold leftmostTurningIndex at h
  obtain ⟨s1, -⟩ := leftmost_spec c dir s.circles none 0
  cases hl : leftmostLoop c dir none 0 s.circles with
  | none => rw [hl] at h; cases h
  | some b =>
    rw [hl] at h
    dsimp only at h
    by_cases hth : b.2.1 ≥ th
    · rw [if_pos hth] at h
      obtain rfl := Option.some.inj h
      obtain ⟨h1 | ⟨p, d, g1, g2, g3, g4⟩, h2⟩ := s1 b hl
      · cases h1
      rw [Nat.zero_add] at g2
      rw [g2]
      refine ⟨d, b.2, g1, g3, g4, hth, fun d' hd' t' ht' hn' => ?_⟩
      obtain ⟨q, hq⟩ := List.mem_iff_getElem?.1 hd'
      exact h2 (q, t') (Or.inr ⟨q, d', hq, by simp, ht', hn'⟩)
    · rw [if_neg hth] at h; cases h

theorem leftmost_none {c : Circle} {dir : ℂ} {s : TipShape} {th : ℝ} (h : leftmostTurningIndex c dir s th = none) :
    ∀ d ∈ s.circles, ∀ t, tangentProperties c d dir .left = some t → Near .left t.1 → t.1 < th := by
  intro d hd t ht hn
  obtain ⟨q, hq⟩ := List.mem_iff_getElem?.1 hd
  have hf : Found c dir .left 0 s.circles (q, t) := ⟨q, d, hq, by simp, ht, hn⟩
  unfold leftmostTurningIndex at h
  obtain ⟨s1, s2⟩ := leftmost_spec c dir s.circles none 0
  cases hl : leftmostLoop c dir none 0 s.circles with
  | none => exact absurd hf ((s2 hl).2 _)
  | some b =>
    rw [hl] at h
    dsimp only at h
    by_cases hth : b.2.1 ≥ th
    · rw [if_pos hth] at h; cases h
    · have := ((s1 b hl).2 _ (Or.inr hf)).1
      dsimp only at this
      linarith

theorem rightmost_some {c : Circle} {dir : ℂ} {s : TipShape} {th : ℝ} {i : ℕ} (h : rightmostTurningIndex c dir s th = some i) :
    ∃ d t, s.circles[i]? = some d ∧ tangentProperties c d dir .right = some t ∧ Near .right t.1 ∧ t.1 ≤ th ∧
      ∀ d' ∈ s.circles, ∀ t', tangentProperties c d' dir .right = some t' → Near .right t'.1 → t.1 ≤ t'.1 ∧ (t'.1 = t.1 → t.2 ≤ t'.2) := by
  unfold rightmostTurningIndex at h
  obtain ⟨s1, -⟩ := rightmost_spec c dir s.circles none 0
  cases hl : rightmostLoop c dir none 0 s.circles with
  | none => rw [hl] at h; cases h
  | some b =>
    rw [hl] at h
    dsimp only at h
    by_cases hth : b.2.1 ≤ th
    · rw [if_pos hth] at h
      obtain rfl := Option.some.inj h
      obtain ⟨h1 | ⟨p, d, g1, g2, g3, g4⟩, h2⟩ := s1 b hl
      · cases h1
      rw [Nat.zero_add] at g2
      rw [g2]
      refine ⟨d, b.2, g1, g3, g4, hth, fun d' hd' t' ht' hn' => ?_⟩
      obtain ⟨q, hq⟩ := List.mem_iff_getElem?.1 hd'
      exact h2 (q, t') (Or.inr ⟨q, d', hq, by simp, ht', hn'⟩)
    · rw [if_neg hth] at h; cases h

theorem rightmost_none {c : Circle} {dir : ℂ} {s : TipShape} {th : ℝ} (h : rightmostTurningIndex c dir s th = none) :
    ∀ d ∈ s.circles, ∀ t, tangentProperties c d dir .right = some t → Near .right t.1 → th < t.1 := by
  intro d hd t ht hn
  obtain ⟨q, hq⟩ := List.mem_iff_getElem?.1 hd
  have hf : Found c dir .right 0 s.circles (q, t) := ⟨q, d, hq, by simp, ht, hn⟩
  unfold rightmostTurningIndex at h
  obtain ⟨s1, s2⟩ := rightmost_spec c dir s.circles none 0
  cases hl : rightmostLoop c dir none 0 s.circles with
  | none => exact absurd hf ((s2 hl).2 _)
  | some b =>
    rw [hl] at h
    dsimp only at h
    by_cases hth : b.2.1 ≤ th
    · rw [if_pos hth] at h; cases h
    · have := ((s1 b hl).2 _ (Or.inr hf)).1
      dsimp only at this
      linarith

theorem properties_none {c d : Circle} {dir : ℂ} {side : Side} : tangentProperties c d dir side = none ↔ c.Contains d ∨ d.Contains c := by
  unfold tangentProperties
  rw [Option.map_eq_none_iff, none_iff]

theorem properties_apart {c d : Circle} {dir : ℂ} {side : Side} {t : ℝ × ℝ} (h : tangentProperties c d dir side = some t) :
    ¬c.Contains d ∧ ¬d.Contains c := by
  rw [← not_or, ← properties_none (dir := dir) (side := side), h]
  simp

/-! ## The indices at the rear -/

/-- `c` is at the rear of circles, and the leftmost or rightmost there. -/
def AtRear (side : Side) (center u : ℂ) (dot det : ℝ) (cs : List Circle) : Prop := ∀ c ∈ cs, dot ≤ Vec.dotProduct u (c.center - center) ∧
  (Vec.dotProduct u (c.center - center) = dot →
    if side = .left then Vec.determinant u (c.center - center) ≤ det else det ≤ Vec.determinant u (c.center - center))

structure RearInv (center u : ℂ) (all done : List Circle) (s : Rear) : Prop where
  left : AtRear .left center u s.dotProduct s.leftDeterminant done
  right : AtRear .right center u s.dotProduct s.rightDeterminant done
  order : s.rightDeterminant ≤ s.leftDeterminant
  isLeft : ∃ c, all[s.left]? = some c ∧ Vec.dotProduct u (c.center - center) = s.dotProduct ∧
    Vec.determinant u (c.center - center) = s.leftDeterminant
  isRight : ∃ c, all[s.right]? = some c ∧ Vec.dotProduct u (c.center - center) = s.dotProduct ∧
    Vec.determinant u (c.center - center) = s.rightDeterminant

theorem rearLoop_inv (center u : ℂ) (all : List Circle) (cs : List Circle) : ∀ done s, all = done ++ cs → RearInv center u all done s →
    RearInv center u all all (rearLoop center u s done.length cs) := by
  induction cs with
  | nil => intro done s h hi; rw [List.append_nil] at h; subst h; rw [rearLoop]; exact hi
  | cons c cs ih =>
    intro done s h hi
    rw [rearLoop]
    have hget : all[done.length]? = some c := by rw [h]; simp
    have hlen : (done ++ [c]).length = done.length + 1 := by simp
    rw [← hlen]
    apply ih (done ++ [c]) _ (by rw [h]; simp)
    obtain ⟨l, r, o, il, ir⟩ := hi
    have ext : ∀ side dot det, AtRear side center u dot det done → (dot ≤ Vec.dotProduct u (c.center - center) ∧
        (Vec.dotProduct u (c.center - center) = dot → if side = .left then Vec.determinant u (c.center - center) ≤ det
          else det ≤ Vec.determinant u (c.center - center))) → AtRear side center u dot det (done ++ [c]) := by
      intro side dot det h1 h2 d hd
      rw [List.mem_append, List.mem_singleton] at hd
      rcases hd with hd | rfl
      · exact h1 d hd
      · exact h2
    by_cases h1 : Vec.dotProduct u (c.center - center) < s.dotProduct
    · rw [if_pos h1]
      refine ⟨ext _ _ _ ?_ ⟨le_refl _, fun _ => ?_⟩, ext _ _ _ ?_ ⟨le_refl _, fun _ => ?_⟩, le_refl _, ⟨c, hget, rfl, rfl⟩,
        ⟨c, hget, rfl, rfl⟩⟩
      · intro d hd
        have := (l d hd).1
        exact ⟨by linarith, fun e => by linarith⟩
      · rw [if_pos rfl]
      · intro d hd
        have := (l d hd).1
        exact ⟨by linarith, fun e => by linarith⟩
      · rw [if_neg (by simp)]
    rw [if_neg h1]
    by_cases h2 : Vec.dotProduct u (c.center - center) = s.dotProduct
    · rw [if_pos h2]
      by_cases h3 : Vec.determinant u (c.center - center) > s.leftDeterminant
      · rw [if_pos h3]
        refine ⟨ext _ _ _ ?_ ⟨h2.ge, fun _ => ?_⟩, ext _ _ _ r ⟨h2.ge, fun _ => ?_⟩, ?_, ⟨c, hget, h2, rfl⟩, ir⟩
        · intro d hd
          obtain ⟨k1, k2⟩ := l d hd
          refine ⟨k1, fun e => ?_⟩
          have := k2 e
          rw [if_pos rfl] at this ⊢
          dsimp only
          linarith
        · rw [if_pos rfl]
        · rw [if_neg (by simp)]; dsimp only; linarith
        · dsimp only; linarith
      rw [if_neg h3]
      by_cases h4 : Vec.determinant u (c.center - center) < s.rightDeterminant
      · rw [if_pos h4]
        refine ⟨ext _ _ _ l ⟨h2.ge, fun _ => ?_⟩, ext _ _ _ ?_ ⟨h2.ge, fun _ => ?_⟩, ?_, il, ⟨c, hget, h2, rfl⟩⟩
        · rw [if_pos rfl]; dsimp only; linarith
        · intro d hd
          obtain ⟨k1, k2⟩ := r d hd
          refine ⟨k1, fun e => ?_⟩
          have := k2 e
          rw [if_neg (by simp)] at this ⊢
          dsimp only
          linarith
        · rw [if_neg (by simp)]
        · dsimp only; linarith
      · rw [if_neg h4]
        refine ⟨ext _ _ _ l ⟨h2.ge, fun _ => ?_⟩, ext _ _ _ r ⟨h2.ge, fun _ => ?_⟩, o, il, ir⟩
        · rw [if_pos rfl]; exact not_lt.1 h3
        · rw [if_neg (by simp)]; exact not_lt.1 h4
    · rw [if_neg h2]
      have h5 : s.dotProduct ≤ Vec.dotProduct u (c.center - center) := not_lt.1 h1
      exact ⟨ext _ _ _ l ⟨h5, fun e => absurd e h2⟩, ext _ _ _ r ⟨h5, fun e => absurd e h2⟩, o, il, ir⟩

theorem rear_spec {s : TipShape} {u : ℂ} (hne : s.circles ≠ []) : ∃ l r cl cr, s.rearIndices u = some (l, r) ∧
    s.circles[l]? = some cl ∧ s.circles[r]? = some cr ∧
    AtRear .left s.center u (Vec.dotProduct u (cl.center - s.center)) (Vec.determinant u (cl.center - s.center)) s.circles ∧
    AtRear .right s.center u (Vec.dotProduct u (cr.center - s.center)) (Vec.determinant u (cr.center - s.center)) s.circles := by
  unfold TipShape.rearIndices
  cases hc : s.circles with
  | nil => exact absurd hc hne
  | cons c cs =>
    dsimp only
    have hinv := rearLoop_inv s.center u (c :: cs) cs [c] ⟨0, 0, Vec.dotProduct u (c.center - s.center),
      Vec.determinant u (c.center - s.center), Vec.determinant u (c.center - s.center)⟩ rfl
      ⟨by intro d hd; rw [List.mem_singleton] at hd; subst hd; simp, by intro d hd; rw [List.mem_singleton] at hd; subst hd; simp, le_refl _,
        ⟨c, by simp, rfl, rfl⟩, ⟨c, by simp, rfl, rfl⟩⟩
    rw [List.length_singleton] at hinv
    obtain ⟨l, r, o, ⟨cl, l1, l2, l3⟩, ⟨cr, r1, r2, r3⟩⟩ := hinv
    refine ⟨_, _, cl, cr, rfl, l1, r1, ?_, ?_⟩
    · rw [l2, l3]; exact l
    · rw [r2, r3]; exact r

/-! ## The indices are those of circles -/

/-- Circles of the same size that are next to each other have different centers. -/
structure Sound (s : TipShape) (r : ℝ) : Prop where
  ne : s.circles ≠ []
  pos : 0 ≤ r
  radius : ∀ c ∈ s.circles, c.radius = r
  apart : s.circles.length = 1 ∨ ∀ i c d, s.circles[i]? = some c → s.circles[(i + 1) % s.circles.length]? = some d → c.center ≠ d.center

theorem polygonal_sound {s : TipShape} {r : ℝ} (hr : 0 ≤ r) (hs : Polygonal s r) : Sound s r := by
  obtain ⟨m, c, hc, hcor⟩ := hs
  have hlen : s.circles.length = m + 2 := by rw [hc, List.length_ofFn]
  refine ⟨by intro e; rw [e] at hlen; simp at hlen, hr, ?_, Or.inr ?_⟩
  · intro d hd
    rw [hc, List.mem_ofFn] at hd
    obtain ⟨i, rfl⟩ := hd; rfl
  · intro i d e hd he
    have hi : i < m + 2 := by rw [← hlen]; exact (List.getElem?_eq_some_iff.1 hd).1
    rw [hc, List.getElem?_ofFn, dif_pos hi] at hd
    rw [hlen, hc, List.getElem?_ofFn, dif_pos (Nat.mod_lt _ (by omega))] at he
    obtain rfl := Option.some.inj hd
    obtain rfl := Option.some.inj he
    have := hcor.ne_out ⟨i, hi⟩
    have e2 : (⟨i, hi⟩ : Fin (m + 2)) + 1 = ⟨(i + 1) % (m + 2), Nat.mod_lt _ (by omega)⟩ := by
      ext; simp [Fin.val_add]
    rw [e2] at this
    exact fun e => this (by dsimp only at e; rw [e, sub_self])

theorem single_sound {s : TipShape} {d : Circle} (hd : 0 ≤ d.radius) (hs : s.circles = [d]) : Sound s d.radius := by
  refine ⟨by rw [hs]; simp, hd, ?_, Or.inl (by rw [hs]; rfl)⟩
  intro c hc
  rw [hs, List.mem_singleton] at hc
  rw [hc]

theorem make_sound {s : TipState} {t : TipShape} {m : ℝ} (hs : Slanted s) (ht : TipShape.make s m = some t) : ∃ r, Sound t r := by
  obtain ⟨r, hr, h | h⟩ := make_polygonal (make_radius ht).1 hs ht
  · exact ⟨r, single_sound (d := ⟨s.position, r⟩) hr h⟩
  · exact ⟨r, polygonal_sound hr h⟩

theorem apart_contains {c d : Circle} (hr : c.radius = d.radius) (hc : c.center ≠ d.center) : ¬c.Contains d := by
  unfold Circle.Contains
  rw [magnitude_eq, hr]
  intro h
  have := norm_pos_iff.2 (sub_ne_zero.2 hc)
  have h2 := norm_sub_rev c.center d.center
  linarith

theorem Sound.getRadius {s : TipShape} {r : ℝ} (h : Sound s r) {i : ℕ} {c : Circle} (hc : s.circles[i]? = some c) : c.radius = r :=
  h.radius c (List.mem_of_getElem? hc)

theorem Sound.length_pos {s : TipShape} {r : ℝ} (h : Sound s r) : 0 < s.circles.length := List.length_pos_iff.2 h.ne

theorem Sound.tangent_ccw {s : TipShape} {r : ℝ} (h : Sound s r) (h1 : s.circles.length ≠ 1) {i : ℕ} {c d : Circle}
    (hc : s.circles[i]? = some c) (hd : s.circles[s.nextCcw i]? = some d) (dir : ℂ) (side : Side) :
    ∃ t, tangentProperties c d dir side = some t := by
  have hi : i < s.circles.length := (List.getElem?_eq_some_iff.1 hc).1
  have hr : c.radius = d.radius := by rw [h.getRadius hc, h.getRadius hd]
  have hne := (h.apart.resolve_left h1) i c d hc (by rw [← nextCcw_eq hi]; exact hd)
  refine Option.ne_none_iff_exists'.1 fun e => ?_
  rcases properties_none.1 e with g | g
  · exact apart_contains hr hne g
  · exact apart_contains hr.symm hne.symm g

theorem Sound.tangent_cw {s : TipShape} {r : ℝ} (h : Sound s r) (h1 : s.circles.length ≠ 1) {i : ℕ} {c d : Circle}
    (hc : s.circles[i]? = some c) (hd : s.circles[s.nextCw i]? = some d) (dir : ℂ) (side : Side) :
    ∃ t, tangentProperties c d dir side = some t := by
  have hi : i < s.circles.length := (List.getElem?_eq_some_iff.1 hc).1
  have hr : c.radius = d.radius := by rw [h.getRadius hc, h.getRadius hd]
  have hne := (h.apart.resolve_left h1) _ d c hd (by rw [nextCw_ccw hi]; exact hc)
  refine Option.ne_none_iff_exists'.1 fun e => ?_
  rcases properties_none.1 e with g | g
  · exact apart_contains hr hne.symm g
  · exact apart_contains hr.symm hne g

theorem leftmost_lt {c : Circle} {dir : ℂ} {s : TipShape} {th : ℝ} (hne : s.circles ≠ []) :
    (leftmostTurningIndex c dir s th).getD 0 < s.circles.length := by
  cases h : leftmostTurningIndex c dir s th with
  | none => exact List.length_pos_iff.2 hne
  | some i =>
    obtain ⟨d, t, hd, -⟩ := leftmost_some h
    exact (List.getElem?_eq_some_iff.1 hd).1

/-- The loop finds the first circle from the rear from which the tangent to the other shape is at least as far out as the one to the next
circle. -/
theorem leftLoop_spec {s o : TipShape} {r : ℝ} (h : Sound s r) (h1 : s.circles.length ≠ 1) (dir : ℂ) (n : ℕ) : ∀ i, i < s.circles.length →
    ∃ res, leftLoop s o dir i n = some res ∧ ∀ k j, res = some (k, j) → ∃ c d t, s.circles[k]? = some c ∧
      s.circles[s.nextCw k]? = some d ∧ tangentProperties c d dir .left = some t ∧ leftmostTurningIndex c dir o t.1 = some j := by
  induction n with
  | zero => intro i _; exact ⟨none, rfl, fun k j e => by cases e⟩
  | succ n ih =>
    intro i hi
    have g1 := get_getD hi
    have g2 := get_getD (nextCw_lt hi)
    obtain ⟨t, ht⟩ := h.tangent_cw h1 g1 g2 dir .left
    rw [leftLoop]
    generalize (s.circles[i]?).getD ⟨0, 0⟩ = c at *
    generalize (s.circles[s.nextCw i]?).getD ⟨0, 0⟩ = d at *
    rw [g1, g2]
    dsimp only
    rw [ht]
    dsimp only
    cases hl : leftmostTurningIndex c dir o t.1 with
    | some j =>
      refine ⟨_, rfl, fun k j' e => ?_⟩
      injection e with e
      injection e with e1 e2
      subst e1 e2
      exact ⟨c, d, t, g1, g2, ht, hl⟩
    | none => exact ih _ (nextCw_lt hi)

theorem leftSide_lt {s o : TipShape} {r : ℝ} (h : Sound s r) (ho : o.circles ≠ []) (h1 : s.circles.length ≠ 1) (dir : ℂ) {i : ℕ}
    (hi : i < s.circles.length) : ∃ k j, s.leftSide o dir i = some (k, j) ∧ k < s.circles.length ∧ j < o.circles.length := by
  unfold leftSide
  obtain ⟨res, h2, h3⟩ := leftLoop_spec (o := o) h h1 dir s.circles.length i hi
  rw [h2]
  cases res with
  | some kj =>
    obtain ⟨c, d, t, hc, hd, ht, hj⟩ := h3 kj.1 kj.2 rfl
    obtain ⟨d, t, hd, -⟩ := leftmost_some hj
    exact ⟨kj.1, kj.2, rfl, (List.getElem?_eq_some_iff.1 hc).1, (List.getElem?_eq_some_iff.1 hd).1⟩
  | none =>
    dsimp only
    rw [get_getD hi, Option.map_some]
    exact ⟨_, _, rfl, hi, leftmost_lt ho⟩

theorem rightmost_lt {c : Circle} {dir : ℂ} {s : TipShape} {th : ℝ} (hne : s.circles ≠ []) :
    (rightmostTurningIndex c dir s th).getD 0 < s.circles.length := by
  cases h : rightmostTurningIndex c dir s th with
  | none => exact List.length_pos_iff.2 hne
  | some i =>
    obtain ⟨d, t, hd, -⟩ := rightmost_some h
    exact (List.getElem?_eq_some_iff.1 hd).1

/-- The loop finds the first circle from the rear from which the tangent to the other shape is at least as far out as the one to the next
circle. -/
theorem rightLoop_spec {s o : TipShape} {r : ℝ} (h : Sound s r) (h1 : s.circles.length ≠ 1) (dir : ℂ) (n : ℕ) : ∀ i, i < s.circles.length →
    ∃ res, rightLoop s o dir i n = some res ∧ ∀ k j, res = some (k, j) → ∃ c d t, s.circles[k]? = some c ∧
      s.circles[s.nextCcw k]? = some d ∧ tangentProperties c d dir .right = some t ∧ rightmostTurningIndex c dir o t.1 = some j := by
  induction n with
  | zero => intro i _; exact ⟨none, rfl, fun k j e => by cases e⟩
  | succ n ih =>
    intro i hi
    have g1 := get_getD hi
    have g2 := get_getD (nextCcw_lt hi)
    obtain ⟨t, ht⟩ := h.tangent_ccw h1 g1 g2 dir .right
    rw [rightLoop]
    generalize (s.circles[i]?).getD ⟨0, 0⟩ = c at *
    generalize (s.circles[s.nextCcw i]?).getD ⟨0, 0⟩ = d at *
    rw [g1, g2]
    dsimp only
    rw [ht]
    dsimp only
    cases hl : rightmostTurningIndex c dir o t.1 with
    | some j =>
      refine ⟨_, rfl, fun k j' e => ?_⟩
      injection e with e
      injection e with e1 e2
      subst e1 e2
      exact ⟨c, d, t, g1, g2, ht, hl⟩
    | none => exact ih _ (nextCcw_lt hi)

theorem rightSide_lt {s o : TipShape} {r : ℝ} (h : Sound s r) (ho : o.circles ≠ []) (h1 : s.circles.length ≠ 1) (dir : ℂ) {i : ℕ}
    (hi : i < s.circles.length) : ∃ k j, s.rightSide o dir i = some (k, j) ∧ k < s.circles.length ∧ j < o.circles.length := by
  unfold rightSide
  obtain ⟨res, h2, h3⟩ := rightLoop_spec (o := o) h h1 dir s.circles.length i hi
  rw [h2]
  cases res with
  | some kj =>
    obtain ⟨c, d, t, hc, hd, ht, hj⟩ := h3 kj.1 kj.2 rfl
    obtain ⟨d, t, hd, -⟩ := rightmost_some hj
    exact ⟨kj.1, kj.2, rfl, (List.getElem?_eq_some_iff.1 hc).1, (List.getElem?_eq_some_iff.1 hd).1⟩
  | none =>
    dsimp only
    rw [get_getD hi, Option.map_some]
    exact ⟨_, _, rfl, hi, rightmost_lt ho⟩

theorem rear_lt {s : TipShape} {u : ℂ} (hne : s.circles ≠ []) : ∃ l r, s.rearIndices u = some (l, r) ∧ l < s.circles.length ∧
    r < s.circles.length := by
  obtain ⟨l, r, cl, cr, h, h1, h2, -⟩ := rear_spec (u := u) hne
  exact ⟨l, r, h, (List.getElem?_eq_some_iff.1 h1).1, (List.getElem?_eq_some_iff.1 h2).1⟩

/-- There always are indices, and they are those of circles. -/
theorem indices_lt {s o : TipShape} {r : ℝ} (h : Sound s r) (ho : o.circles ≠ []) : ∃ ix, tangentCircleIndices s o = some ix ∧
    ix.left.1 < s.circles.length ∧ ix.right.1 < s.circles.length ∧ ix.left.2 < o.circles.length ∧ ix.right.2 < o.circles.length := by
  have ho' := List.length_pos_iff.2 ho
  have h' := h.length_pos
  unfold tangentCircleIndices
  by_cases h11 : s.circles.length = 1 ∧ o.circles.length = 1
  · rw [if_pos h11]
    exact ⟨_, rfl, h', h', ho', ho'⟩
  rw [if_neg h11]
  dsimp only
  split
  · exact ⟨_, rfl, h', h', leftmost_lt ho, rightmost_lt ho⟩
  · rename_i hne1
    have h1 : s.circles.length ≠ 1 := by
      intro e
      obtain ⟨c, hc⟩ := List.length_eq_one_iff.1 e
      exact hne1 c hc
    obtain ⟨l, r, hr, l1, r1⟩ := rear_lt (u := forwardDirection s o) h.ne
    obtain ⟨k, j, e1, k1, k2⟩ := leftSide_lt h ho h1 (forwardDirection s o) l1
    obtain ⟨k', j', e2, k3, k4⟩ := rightSide_lt h ho h1 (forwardDirection s o) r1
    rw [hr]
    dsimp only
    rw [e1, e2]
    exact ⟨_, rfl, k1, k3, k2, k4⟩

/-! ## The evaluation -/

/-- The circles from the index `i` on, counter-clockwise, between `i` and `j`. -/
def Between (cs : List Circle) (i j : ℕ) (c : Circle) : Prop :=
  ∃ l < cs.length, j = ((i + 1) % cs.length + l) % cs.length ∧ ∃ p < l, cs[((i + 1) % cs.length + p) % cs.length]? = some c

theorem between_mem {cs : List Circle} {i j : ℕ} {c : Circle} (h : Between cs i j c) : c ∈ cs := by
  obtain ⟨l, -, -, p, -, hc⟩ := h
  exact List.mem_of_getElem? hc

/-- Every circle of a shape is one of a run or between its ends. -/
theorem run_between {cs run : List Circle} {i j : ℕ} (h : Run cs i j run) (c : Circle) : c ∈ cs ↔ c ∈ run ∨ Between cs j i c := by
  obtain ⟨k, hk, hi, hj, hlen, hget⟩ := h
  constructor
  · intro hc
    obtain ⟨q, hq⟩ := List.mem_iff_getElem?.1 hc
    have hqn : q < cs.length := (List.getElem?_eq_some_iff.1 hq).1
    obtain ⟨l, hl, hl'⟩ := exists_steps (n := cs.length) (i := (j + 1) % cs.length) (j := i) (Nat.mod_lt _ (by omega)) hi
    rcases run_split hi hl hj hl' hqn with ⟨p, hp, e⟩ | ⟨p, hp, e⟩
    · left
      refine List.mem_iff_getElem?.2 ⟨p, ?_⟩
      rw [hget p hp, ← e]; exact hq
    · exact Or.inr ⟨l, hl, hl', p, hp, by rw [← e]; exact hq⟩
  · rintro (hc | hc)
    · obtain ⟨p, hp⟩ := List.mem_iff_getElem?.1 hc
      have hpn : p < run.length := (List.getElem?_eq_some_iff.1 hp).1
      rw [hget p (by omega)] at hp
      exact List.mem_of_getElem? hp
    · exact between_mem hc

theorem unused_iff {s : TipShape} {arcs : List RoundedPolygon.Arc} {i j : ℕ} (hi : i < s.circles.length) (hj : j < s.circles.length) :
    ∃ b, unusedLoop arcs s j (s.nextCcw i) s.circles.length = some b ∧
      (b = true ↔ ∀ c, Between s.circles i j c → RoundedPolygon.ContainsCircle arcs c) := by
  classical
  rw [nextCcw_eq hi]
  have hi' : (i + 1) % s.circles.length < s.circles.length := Nat.mod_lt _ (by omega)
  obtain ⟨l, hl, hl'⟩ := exists_steps (n := s.circles.length) hi' hj
  refine ⟨_, unusedLoop_spec s.circles.length _ l hi' hl hl hl', ?_⟩
  rw [decide_eq_true_iff]
  constructor
  · rintro h c ⟨l', k1, k2, p, hp, hc⟩
    obtain rfl := steps_unique hl k1 (hl'.symm.trans k2)
    exact h p hp c hc
  · intro h p hp c hc
    exact h c ⟨l, hl, hl', p, hp, hc⟩

theorem joined_exists {s o : TipShape} {ix : TangentIndices} (h1 : ix.left.1 < s.circles.length) (h2 : ix.right.1 < s.circles.length)
    (h3 : ix.left.2 < o.circles.length) (h4 : ix.right.2 < o.circles.length) : ∃ js, Joined s o ix js := by
  obtain ⟨a, ha⟩ := run_exists h1 h2
  obtain ⟨b, hb⟩ := run_exists h4 h3
  exact ⟨a ++ b, a, b, ha, hb, rfl⟩

theorem construct_eq {s o : TipShape} {ix : TangentIndices} {js : List Circle} {x : ℝ} (hx : 0 ≤ x) (h : Joined s o ix js) :
    constructJoinedShape s o ix x = RoundedPolygon.make (enlarged x js) := by
  obtain ⟨a, b, ha, hb, rfl⟩ := h
  obtain ⟨k, k1, k2, k3, rfl⟩ := run_eq ha
  obtain ⟨l, l1, l2, l3, rfl⟩ := run_eq hb
  unfold constructJoinedShape
  rw [if_pos hx, addCircles_spec x _ _ k k2 k1 k1 k3, addCircles_spec x _ _ l l2 l1 l1 l3]
  dsimp only
  congr 1
  unfold enlarged
  rw [List.map_append]

/-- The offset is the margin. -/
theorem margin_exists {s o : TipShape} (hs : s.circles ≠ []) (ho : o.circles ≠ []) (rs : ∀ c ∈ s.circles, 0 ≤ c.radius)
    (ro : ∀ c ∈ o.circles, 0 ≤ c.radius) : ∃ a b, s.bounds = some a ∧ o.bounds = some b ∧ Margin s o (joinOffset a b) ∧ 0 ≤ joinOffset a b := by
  obtain ⟨a, ha, hma⟩ := bounds_min hs rs
  obtain ⟨b, hb, hmb⟩ := bounds_min ho ro
  refine ⟨a, b, ha, hb, ?_, ?_⟩
  · obtain ⟨a', ha', ⟨-, p1, m1, e1⟩, ⟨-, p2, m2, e2⟩, ⟨-, p3, m3, e3⟩, -, p4, m4, e4⟩ := bounds_spec hs
    obtain ⟨b', hb', ⟨-, q1, n1, f1⟩, ⟨-, q2, n2, f2⟩, ⟨-, q3, n3, f3⟩, -, q4, n4, f4⟩ := bounds_spec ho
    rw [ha] at ha'; rw [hb] at hb'
    obtain rfl := Option.some.inj ha'
    obtain rfl := Option.some.inj hb'
    have pt : ∀ (t : TipShape), (∀ c ∈ t.circles, 0 ≤ c.radius) → ∀ c ∈ t.circles, ∀ θ, c.getPoint θ ∈ region t :=
      fun t ht c hc θ => disc_region hc (getPoint_in (ht c hc) θ)
    have hre : ∀ c : Circle, (c.getPoint 0).re = c.center.re + c.radius := by
      intro c; rw [← along_zero, along_point]; simp [along_zero]
    have him : ∀ c : Circle, (c.getPoint (π / 2)).im = c.center.im + c.radius := by
      intro c; rw [← along_half, along_point]; simp [along_half]
    have hre' : ∀ c : Circle, (c.getPoint π).re = c.center.re - c.radius := by
      intro c; rw [← along_zero, along_point]; simp [along_zero]; ring
    have him' : ∀ c : Circle, (c.getPoint (-(π / 2))).im = c.center.im - c.radius := by
      intro c; rw [← along_half, along_point, show -(π / 2) - π / 2 = -π by ring]; simp [along_half]; ring
    unfold Margin joinOffset
    generalize hM : max |a.xMin| (max |a.xMax| (max |a.yMin| (max |a.yMax| (max |b.xMin| (max |b.xMax| (max |b.yMin| |b.yMax|)))))) = M
    have hle : |a.xMin| ≤ M ∧ |a.xMax| ≤ M ∧ |a.yMin| ≤ M ∧ |a.yMax| ≤ M ∧ |b.xMin| ≤ M ∧ |b.xMax| ≤ M ∧ |b.yMin| ≤ M ∧ |b.yMax| ≤ M := by
      rw [← hM]; simp
    have hmM : (1000000 : ℝ) * (1 / 1000000 * M) = M := by ring
    rw [hmM]
    constructor
    · rintro p (hp | hp)
      · obtain ⟨g1, g2, g3, g4⟩ := hma.1 p hp
        exact ⟨(abs_le_max_abs_abs g1 g2).trans (max_le hle.1 hle.2.1), (abs_le_max_abs_abs g3 g4).trans (max_le hle.2.2.1 hle.2.2.2.1)⟩
      · obtain ⟨g1, g2, g3, g4⟩ := hmb.1 p hp
        exact ⟨(abs_le_max_abs_abs g1 g2).trans (max_le hle.2.2.2.2.1 hle.2.2.2.2.2.1),
          (abs_le_max_abs_abs g3 g4).trans (max_le hle.2.2.2.2.2.2.1 hle.2.2.2.2.2.2.2)⟩
    · have hcase : M = |a.xMin| ∨ M = |a.xMax| ∨ M = |a.yMin| ∨ M = |a.yMax| ∨ M = |b.xMin| ∨ M = |b.xMax| ∨ M = |b.yMin| ∨ M = |b.yMax| := by
        rw [← hM]
        have mc : ∀ (x y : ℝ) (P : Prop), (max x y = y → P) → max x y = x ∨ P := by
          intro x y P h
          rcases le_total x y with g | g
          · exact Or.inr (h (max_eq_right g))
          · exact Or.inl (max_eq_left g)
        refine mc _ _ _ fun h => ?_
        rw [h]; refine mc _ _ _ fun h => ?_
        rw [h]; refine mc _ _ _ fun h => ?_
        rw [h]; refine mc _ _ _ fun h => ?_
        rw [h]; refine mc _ _ _ fun h => ?_
        rw [h]; refine mc _ _ _ fun h => ?_
        rw [h]; exact mc _ _ _ fun h => h
      rcases hcase with e | e | e | e | e | e | e | e
      · exact ⟨_, Or.inl (pt s rs p3 m3 π), Or.inl (by rw [hre', e, e3])⟩
      · exact ⟨_, Or.inl (pt s rs p1 m1 0), Or.inl (by rw [hre, e, e1])⟩
      · exact ⟨_, Or.inl (pt s rs p4 m4 (-(π / 2))), Or.inr (by rw [him', e, e4])⟩
      · exact ⟨_, Or.inl (pt s rs p2 m2 (π / 2)), Or.inr (by rw [him, e, e2])⟩
      · exact ⟨_, Or.inr (pt o ro q3 n3 π), Or.inl (by rw [hre', e, f3])⟩
      · exact ⟨_, Or.inr (pt o ro q1 n1 0), Or.inl (by rw [hre, e, f1])⟩
      · exact ⟨_, Or.inr (pt o ro q4 n4 (-(π / 2))), Or.inr (by rw [him', e, f4])⟩
      · exact ⟨_, Or.inr (pt o ro q2 n2 (π / 2)), Or.inr (by rw [him, e, f2])⟩
  · unfold joinOffset
    have : (0 : ℝ) ≤ |a.xMin| := abs_nonneg _
    have := this.trans (le_max_left |a.xMin| (max |a.xMax| (max |a.yMin| (max |a.yMax| (max |b.xMin| (max |b.xMax| (max |b.yMin| |b.yMax|)))))))
    linarith

theorem margin_unique {s o : TipShape} {x y : ℝ} (hx : Margin s o x) (hy : Margin s o y) : x = y := by
  obtain ⟨hx1, p, hp, hx2⟩ := hx
  obtain ⟨hy1, q, hq, hy2⟩ := hy
  have h1 := hx1 q hq
  have h2 := hy1 p hp
  apply le_antisymm
  · rcases hx2 with e | e
    · linarith [h2.1]
    · linarith [h2.2]
  · rcases hy2 with e | e
    · linarith [h1.1]
    · linarith [h1.2]

theorem contains_sound {t1 t2 : TipShape} {s1 : TipState} {m : ℝ} (h1 : Slanted s1) (ht1 : TipShape.make s1 m = some t1)
    (ho : ∀ c ∈ t2.circles, 0 ≤ c.radius) (hne : t2.circles ≠ []) (b : Bool) : t1.contains t2 = some b ↔ (b = true ↔ region t2 ⊆ region t1) := by
  classical
  have : t1.contains t2 = some (decide (region t2 ⊆ region t1)) := by
    obtain ⟨r, hr, h | h⟩ := make_polygonal (make_radius ht1).1 h1 ht1
    · exact contains_single (d := ⟨s1.position, r⟩) hr h ho hne
    · exact contains_polygonal hr h ho hne
  rw [this, Option.some_inj]
  cases b <;> simp

/-! ## The outcomes -/

/-- The circles that are not used in the joined shape. -/
def Unused (s o : TipShape) (ix : TangentIndices) (c : Circle) : Prop :=
  Between s.circles ix.right.1 ix.left.1 c ∨ Between o.circles ix.left.2 ix.right.2 c

theorem between_empty {cs : List Circle} {i j : ℕ} (hj : j < cs.length) (h : (i + 1) % cs.length = j) (c : Circle) : ¬Between cs i j c := by
  rintro ⟨l, hl, e, p, hp, -⟩
  rw [h] at e
  have := steps_unique (n := cs.length) (i := j) (k := 0) (by omega) hl (by rw [add_zero, Nat.mod_eq_of_lt hj]; exact e)
  omega

theorem joined_unused {s o : TipShape} {ix : TangentIndices} {js : List Circle} (h : Joined s o ix js) {c : Circle}
    (hc : c ∈ s.circles ∨ c ∈ o.circles) : c ∈ js ∨ Unused s o ix c := by
  obtain ⟨a, b, ha, hb, rfl⟩ := h
  rw [List.mem_append]
  rcases hc with hc | hc
  · rcases (run_between ha c).1 hc with g | g
    · exact Or.inl (Or.inl g)
    · exact Or.inr (Or.inl g)
  · rcases (run_between hb c).1 hc with g | g
    · exact Or.inl (Or.inr g)
    · exact Or.inr (Or.inr g)

theorem unused_mem {s o : TipShape} {ix : TangentIndices} {c : Circle} (h : Unused s o ix c) : c ∈ s.circles ∨ c ∈ o.circles := by
  rcases h with h | h
  · exact Or.inl (between_mem h)
  · exact Or.inr (between_mem h)

theorem joined_mem {s o : TipShape} {ix : TangentIndices} {js : List Circle} (h : Joined s o ix js) {c : Circle} (hc : c ∈ js) :
    c ∈ s.circles ∨ c ∈ o.circles := by
  obtain ⟨a, b, ha, hb, rfl⟩ := h
  rcases List.mem_append.1 hc with g | g
  · exact Or.inl ((run_between ha c).2 (Or.inl g))
  · exact Or.inr ((run_between hb c).2 (Or.inl g))

theorem evaluate_rest {s o : TipShape} (h1 : s.contains o = some false) (h2 : o.contains s = some false) (hs : s.circles ≠ [])
    (ho : o.circles ≠ []) (rs : ∀ c ∈ s.circles, 0 ≤ c.radius) (ro : ∀ c ∈ o.circles, 0 ≤ c.radius) {ix : TangentIndices}
    (hix : tangentCircleIndices s o = some ix) {js : List Circle} (hj : Joined s o ix js) {x : ℝ} (hx : Margin s o x) :
    (evaluateInternal s o = some .good ∧ (¬∃ c, Unused s o ix c)) ∨
    (evaluateInternal s o = none ∧ RoundedPolygon.make (enlarged x js) = none) ∨
    (∃ arcs, RoundedPolygon.make (enlarged x js) = some arcs ∧ evaluateInternal s o = some .good ∧
      ∀ c, Unused s o ix c → RoundedPolygon.ContainsCircle arcs c) ∨
    ∃ arcs, RoundedPolygon.make (enlarged x js) = some arcs ∧ evaluateInternal s o = some .bad ∧
      ∃ c, Unused s o ix c ∧ ¬RoundedPolygon.ContainsCircle arcs c := by
  obtain ⟨i1, i2, i3, i4⟩ : ix.left.1 < s.circles.length ∧ ix.right.1 < s.circles.length ∧ ix.left.2 < o.circles.length ∧
      ix.right.2 < o.circles.length := by
    obtain ⟨a, b, ⟨k, k1, k2, k3, -⟩, ⟨l, l1, l2, l3, -⟩, -⟩ := hj
    exact ⟨k2, by rw [k3]; exact Nat.mod_lt _ (by omega), by rw [l3]; exact Nat.mod_lt _ (by omega), l2⟩
  obtain ⟨ra, rb, ba, bb, hm, hm0⟩ := margin_exists hs ho rs ro
  obtain rfl := margin_unique hm hx
  unfold evaluateInternal
  rw [h1, h2]
  dsimp only
  by_cases h11 : s.circles.length = 1 ∧ o.circles.length = 1
  · rw [if_pos h11]
    refine Or.inl ⟨rfl, ?_⟩
    rintro ⟨c, ⟨l, hl, -, p, hp, -⟩ | ⟨l, hl, -, p, hp, -⟩⟩ <;> omega
  rw [if_neg h11, hix]
  dsimp only
  by_cases hsc : s.nextCw ix.left.1 = ix.right.1 ∧ o.nextCw ix.right.2 = ix.left.2
  · rw [if_pos hsc]
    refine Or.inl ⟨rfl, ?_⟩
    rintro ⟨c, h | h⟩
    · exact between_empty i1 (by rw [← hsc.1]; exact nextCw_ccw i1) c h
    · exact between_empty i4 (by rw [← hsc.2]; exact nextCw_ccw i4) c h
  rw [if_neg hsc, ba, bb]
  dsimp only
  rw [construct_eq hm0 hj]
  right
  cases hmk : RoundedPolygon.make (enlarged (joinOffset ra rb) js) with
  | none => exact Or.inl ⟨rfl, rfl⟩
  | some arcs =>
    right
    dsimp only
    obtain ⟨b1, e1, u1⟩ := unused_iff (arcs := arcs) i2 i1
    obtain ⟨b2, e2, u2⟩ := unused_iff (arcs := arcs) i3 i4
    rw [e1]
    cases b1 with
    | false =>
      right
      refine ⟨arcs, rfl, rfl, ?_⟩
      by_contra hn
      refine absurd (u1.2 fun c hc => ?_) (by simp)
      by_contra hg
      exact hn ⟨c, Or.inl hc, hg⟩
    | true =>
      dsimp only
      rw [e2]
      cases b2 with
      | false =>
        right
        refine ⟨arcs, rfl, rfl, ?_⟩
        by_contra hn
        refine absurd (u2.2 fun c hc => ?_) (by simp)
        by_contra hg
        exact hn ⟨c, Or.inr hc, hg⟩
      | true =>
        left
        refine ⟨arcs, rfl, rfl, ?_⟩
        rintro c (hc | hc)
        · exact u1.1 rfl c hc
        · exact u2.1 rfl c hc

/-! ## The same tip at another position -/

/-- A circle at another position. -/
def shift (v : ℂ) (c : Circle) : Circle := ⟨c.center + v, c.radius⟩

theorem makeCircle_moved (s : TipState) (p : ℂ) (r x y : ℝ) :
    TipShape.makeCircle { s with position := p } r x y = shift (p - s.position) (TipShape.makeCircle s r x y) := by
  unfold TipShape.makeCircle shift
  dsimp only
  congr 1
  ring

theorem make_moved {s : TipState} {p : ℂ} {m : ℝ} {t : TipShape} (h : TipShape.make s m = some t) :
    TipShape.make { s with position := p } m = some ⟨p, t.circles.map (shift (p - s.position))⟩ := by
  unfold TipShape.make TipShape.makeShapeControlCircles at *
  simp only [makeCircle_moved]
  by_cases hv : s.width ≥ 0 ∧ s.height ≥ 0 ∧ s.percentRadius ≥ 0 ∧ s.percentRadius ≤ 1 ∧ s.pinch ≥ 0 ∧ s.pinch ≤ 1
  · rw [if_pos hv] at h ⊢
    dsimp only at h
    generalize (if 2 * (1 / 2 * s.width - TipShape.calculateCircleRadius s.percentRadius (1 / 2 * s.width) (1 / 2 * s.height)
      (max m TipShape.floatMin)) < max m TipShape.floatMin then (0 : ℝ) else 1 / 2 * s.width - TipShape.calculateCircleRadius s.percentRadius
        (1 / 2 * s.width) (1 / 2 * s.height) (max m TipShape.floatMin)) = x at *
    generalize (if 2 * (1 / 2 * s.height - TipShape.calculateCircleRadius s.percentRadius (1 / 2 * s.width) (1 / 2 * s.height)
      (max m TipShape.floatMin)) < max m TipShape.floatMin then (0 : ℝ) else 1 / 2 * s.height - TipShape.calculateCircleRadius s.percentRadius
        (1 / 2 * s.width) (1 / 2 * s.height) (max m TipShape.floatMin)) = y at *
    by_cases h1 : x = 0 ∧ y = 0
    · rw [if_pos h1] at h ⊢
      obtain rfl := Option.some.inj h
      simp [shift]
    rw [if_neg h1] at h ⊢
    by_cases h2 : y = 0
    · rw [if_pos h2] at h ⊢
      obtain rfl := Option.some.inj h
      rfl
    rw [if_neg h2] at h ⊢
    by_cases h3 : x = 0
    · rw [if_pos h3] at h ⊢
      obtain rfl := Option.some.inj h
      rfl
    rw [if_neg h3] at h ⊢
    by_cases h4 : 2 * ((1 - s.pinch) * x) < max m TipShape.floatMin
    · rw [if_pos h4] at h ⊢
      obtain rfl := Option.some.inj h
      rfl
    · rw [if_neg h4] at h ⊢
      obtain rfl := Option.some.inj h
      rfl
  · rw [if_neg hv] at h; cases h

theorem equal_moved {s1 s2 : TipState} (h : EqualShapeProperties s1 s2) : s2 = { s1 with position := s2.position } := by
  obtain ⟨h1, h2, h3, h4, h5, h6⟩ := h
  cases s1; cases s2
  dsimp only at *
  subst h1 h2 h3 h4 h5 h6
  rfl

theorem along_self {v : ℂ} (hv : v ≠ 0) : 0 < along (Vec.direction v) v := by
  rw [along_eq, sub_self, Real.cos_zero, mul_one]
  exact norm_pos_iff.2 hv

theorem exists_farthest {cs : List Circle} (h : cs ≠ []) (φ : ℝ) : ∃ c ∈ cs, ∀ d ∈ cs, along φ d.center ≤ along φ c.center := by
  induction cs with
  | nil => exact absurd rfl h
  | cons c cs ih =>
    rcases eq_or_ne cs [] with rfl | hne
    · exact ⟨c, List.mem_singleton_self c, fun d hd => by rw [List.mem_singleton.1 hd]⟩
    · obtain ⟨d, hd, hall⟩ := ih hne
      rcases le_total (along φ d.center) (along φ c.center) with g | g
      · refine ⟨c, List.mem_cons_self, fun e he => ?_⟩
        rcases List.mem_cons.1 he with rfl | he
        · exact le_refl _
        · exact (hall e he).trans g
      · refine ⟨d, List.mem_cons_of_mem _ hd, fun e he => ?_⟩
        rcases List.mem_cons.1 he with rfl | he
        · exact g
        · exact hall e he

/-- A shape at another position is not inside of the shape. -/
theorem shift_not_subset {s o : TipShape} {r : ℝ} {v : ℂ} (hr : 0 ≤ r) (hs : ∀ c ∈ s.circles, c.radius = r) (hne : s.circles ≠ [])
    (ho : o.circles = s.circles.map (shift v)) (hv : v ≠ 0) : ¬region o ⊆ region s ∧ ¬region s ⊆ region o := by
  have ro : ∀ c ∈ o.circles, c.radius = r := by
    intro c hc
    rw [ho, List.mem_map] at hc
    obtain ⟨d, hd, rfl⟩ := hc
    exact hs d hd
  constructor
  · rw [region_subset_iff hr hs (fun c hc => by rw [ro c hc]; exact hr), not_not]
    obtain ⟨c, hc, hall⟩ := exists_farthest hne (Vec.direction v)
    refine ⟨Vec.direction v, shift v c, by rw [ho]; exact List.mem_map_of_mem hc, fun d hd => ?_⟩
    have := hall d hd
    have h0 := along_self hv
    unfold shift
    dsimp only
    rw [along_add, hs c hc]
    linarith
  · rw [region_subset_iff hr ro (fun c hc => by rw [hs c hc]; exact hr), not_not]
    obtain ⟨c, hc, hall⟩ := exists_farthest hne (Vec.direction (-v))
    refine ⟨Vec.direction (-v), c, hc, fun d hd => ?_⟩
    rw [ho, List.mem_map] at hd
    obtain ⟨d, hd, rfl⟩ := hd
    have := hall d hd
    have h0 := along_self (neg_ne_zero.2 hv)
    unfold shift
    dsimp only
    rw [along_add, hs c hc]
    have h1 : along (Vec.direction (-v)) (-v) = -along (Vec.direction (-v)) v := by unfold along; simp; ring
    linarith

/-! ## Coverage -/

/-- A convex polygon of circles of the same size has all of its circles. -/
theorem used_covered {cs : List Circle} {θ : ℕ → ℝ} {r : ℝ} (hr : 0 ≤ r) (hs : ∀ c ∈ cs, c.radius = r) (h : TurnsOnce cs θ) {c : Circle}
    (hc : c ∈ cs) : ∀ p, InDisc c p → p ∈ polygonRegion cs θ := by
  have hne : cs ≠ [] := List.ne_nil_of_mem hc
  have hrad : ∀ c ∈ cs, 0 ≤ c.radius := fun c hc => by rw [hs c hc]; exact hr
  have T := turns_tour hne hrad h
  have hmem : ∀ j, lapC cs j ∈ cs := fun j => List.mem_of_getElem? (lapC_follows (List.length_pos_iff.2 hne) j).1
  have T0 : Tour cs.length (fun j => ⟨(lapC cs j).center, 0⟩) (lapΘ cs.length θ) := by
    refine ⟨T.pos, fun j => by rw [T.perC], T.per, T.mono, fun j => ?_, fun j => le_refl _⟩
    have := T.tan j
    rw [rightTangent_iff] at this ⊢
    rw [hs _ (hmem j), hs _ (hmem (j + 1)), sub_self] at this
    dsimp only
    rw [sub_self]
    exact this
  obtain ⟨j, hj⟩ := List.mem_iff_getElem?.1 hc
  have hjn : j < cs.length := (List.getElem?_eq_some_iff.1 hj).1
  have ej : lapC cs j = c := by unfold lapC; rw [Nat.mod_eq_of_lt hjn, hj, Option.getD_some]
  unfold polygonRegion
  rw [boundary_bd hne h, T.disc_iff (hrad c hc)]
  intro i φ hi h1 h2
  have := T0.support hi hjn h1 h2 (le_refl _) (T.mono j)
  rw [along_point] at this
  dsimp only at this
  rw [ej, zero_mul, add_zero, add_zero] at this
  rw [hs c hc, hs _ (hmem i)]
  linarith

theorem enlarged_mem {x : ℝ} {cs : List Circle} {c : Circle} (h : c ∈ cs) : (⟨c.center, c.radius + x⟩ : Circle) ∈ enlarged x cs :=
  List.mem_map.2 ⟨c, h, rfl⟩

theorem enlarged_disc {x : ℝ} (hx : 0 ≤ x) {c : Circle} {p : ℂ} (h : InDisc c p) : InDisc ⟨c.center, c.radius + x⟩ p := by
  unfold InDisc at *
  dsimp only
  linarith

theorem region_covered {t : TipShape} {cs : List Circle} {θ : ℕ → ℝ}
    (h : ∀ c ∈ t.circles, ∀ p, InDisc c p → p ∈ polygonRegion cs θ) : region t ⊆ polygonRegion cs θ := by
  refine convexHull_min ?_ (convex_convexHull ℝ _)
  rintro p ⟨c, hc, hp⟩
  exact h c hc p hp

theorem margin_nonneg {s o : TipShape} {x : ℝ} (h : Margin s o x) : 0 ≤ x := by
  obtain ⟨-, p, -, e | e⟩ := h
  · have := abs_nonneg p.re; linarith
  · have := abs_nonneg p.im; linarith

/-! ## Concrete tangents -/

/-- The normal of a tangent is determined by the side. -/
theorem normal_eq {v n k : ℂ} {q : ℝ} (hv : v ≠ 0) (hn : n.re ^ 2 + n.im ^ 2 = 1) (hk : k.re ^ 2 + k.im ^ 2 = 1)
    (h1 : n.re * v.re + n.im * v.im = q) (h2 : k.re * v.re + k.im * v.im = q)
    (h3 : 0 < (v.re * n.im - v.im * n.re) * (v.re * k.im - v.im * k.re)) : n = k := by
  have hpos : 0 < v.re ^ 2 + v.im ^ 2 := by
    have := Complex.normSq_pos.2 hv
    rw [Complex.normSq_apply] at this
    nlinarith
  have e1 : (v.re * n.im - v.im * n.re) ^ 2 = v.re ^ 2 + v.im ^ 2 - q ^ 2 := by rw [← h1]; linear_combination (v.re ^ 2 + v.im ^ 2) * hn
  have e2 : (v.re * k.im - v.im * k.re) ^ 2 = v.re ^ 2 + v.im ^ 2 - q ^ 2 := by rw [← h2]; linear_combination (v.re ^ 2 + v.im ^ 2) * hk
  have e3 : v.re * n.im - v.im * n.re = v.re * k.im - v.im * k.re := by
    rcases sq_eq_sq_iff_eq_or_eq_neg.1 (e1.trans e2.symm) with e | e
    · exact e
    · rw [e] at h3; nlinarith [sq_nonneg (v.re * k.im - v.im * k.re)]
  apply Complex.ext
  · have : (v.re ^ 2 + v.im ^ 2) * n.re = (v.re ^ 2 + v.im ^ 2) * k.re := by linear_combination v.re * h1 - v.re * h2 - v.im * e3
    exact mul_left_cancel₀ hpos.ne' this
  · have : (v.re ^ 2 + v.im ^ 2) * n.im = (v.re ^ 2 + v.im ^ 2) * k.im := by linear_combination v.im * h1 - v.im * h2 + v.re * e3
    exact mul_left_cancel₀ hpos.ne' this

theorem getPoint_normal {c d : Circle} {a : ℝ} {n : ℂ} (hn : n = ⟨Real.cos a, Real.sin a⟩) :
    d.getPoint a - c.getPoint a = d.center - c.center + (d.radius - c.radius : ℝ) * n := by
  unfold Circle.getPoint Vec.fromDirectionAndMagnitude
  rw [hn]
  apply Complex.ext <;> simp <;> ring

theorem properties_eq {c d : Circle} {dir n w : ℂ} {side : Side} (h1 : ¬c.Contains d) (h2 : ¬d.Contains c) (hn : n.re ^ 2 + n.im ^ 2 = 1)
    (ha : n.re * (d.center - c.center).re + n.im * (d.center - c.center).im = c.radius - d.radius)
    (hs : if side = .left then 0 < (d.center - c.center).re * n.im - (d.center - c.center).im * n.re
      else (d.center - c.center).re * n.im - (d.center - c.center).im * n.re < 0)
    (hw : w = d.center - c.center + (d.radius - c.radius : ℝ) * n) (hw0 : w ≠ 0) :
    tangentProperties c d dir side = some (Vec.signedAngleBetween dir w, ‖w‖) := by
  obtain ⟨t, ht⟩ : ∃ t, c.getTangentAngles d = some t := Option.ne_none_iff_exists'.1 fun e => (not_or.2 ⟨h1, h2⟩) ((none_iff c d).1 e)
  obtain ⟨n1, n2, tl, tr, tall⟩ := tangent_spec ht
  have hv : d.center - c.center ≠ 0 := by
    intro e
    rw [e] at hs
    simp at hs
  have key : ∀ a, ExteriorTangent c d a → 0 < ((d.center - c.center).re * n.im - (d.center - c.center).im * n.re) *
      ((d.center - c.center).re * Real.sin a - (d.center - c.center).im * Real.cos a) → n = ⟨Real.cos a, Real.sin a⟩ := by
    intro a hta hside
    rw [tangent_iff] at hta
    exact normal_eq (k := ⟨Real.cos a, Real.sin a⟩) hv hn (by have := Real.sin_sq_add_cos_sq a; dsimp only; linarith) ha hta hside
  unfold tangentProperties
  rw [ht, Option.map_some]
  dsimp only
  unfold ToTheLeft at tl
  unfold ToTheRight at tr
  cases side with
  | left =>
    rw [if_pos rfl] at hs ⊢
    have := key t.left ((tall _ n1).2 (Or.inl rfl)) (mul_pos hs tl)
    rw [getPoint_normal this, ← hw, if_neg hw0, magnitude_eq]
  | right =>
    rw [if_neg (by simp : ¬Side.right = Side.left)] at hs ⊢
    have := key t.right ((tall _ n2).2 (Or.inr rfl)) (mul_pos_of_neg_of_neg hs tr)
    rw [getPoint_normal this, ← hw, if_neg hw0, magnitude_eq]

theorem signed_one (w : ℂ) : Vec.signedAngleBetween 1 w = Complex.arg w := by
  rw [signed_eq]
  unfold Vec.direction
  rw [Complex.arg_one, sub_zero]
  exact normal_unique (normalized_spec _).1 ⟨Complex.neg_pi_lt_arg w, Complex.arg_le_pi w⟩ (normalized_spec _).2

theorem forward_one {s o : TipShape} {x : ℝ} (h : o.center - s.center = (x : ℂ)) (hx : 0 < x) : forwardDirection s o = 1 := by
  unfold forwardDirection
  rw [if_neg, h, unit_eq]
  · unfold Vec.direction Vec.fromDirectionAndMagnitude
    rw [Complex.arg_ofReal_of_nonneg hx.le]
    apply Complex.ext <;> simp
  · intro e
    rw [e, sub_self] at h
    have := Complex.ofReal_eq_zero.1 h.symm
    linarith

end Verif.RealGeom
