import Verif.Model.StrokeOutline
import Mathlib.Tactic.Ring
import Mathlib.Tactic.Linarith

/-!
# C36: `StrokeOutline` keeps both sides in order
-/

set_option autoImplicit false

namespace Verif.Outline

/-- Specification: the two sides as plain lists, each growing and shrinking at its end. -/
def sides : List Op → List UInt32 × List UInt32
  | ops => ops.foldl (fun s op => match op with
    | .append l r => (s.1 ++ l, s.2 ++ r)
    | .truncate l r => (s.1.take l, s.2.take r)) ([], [])

theorem le_bitCeil (n : ℕ) : n ≤ bitCeil n := by
  unfold bitCeil
  split
  · assumption
  · have := Nat.lt_log2_self (n := n - 1)
    omega

theorem bitCeil_even {n : ℕ} (h : 1 < n) : bitCeil n % 2 = 0 := by
  unfold bitCeil
  rw [if_neg (by omega), Nat.pow_succ]
  omega

/-- The storage holds the two sides. -/
structure Holds (s : Storage) (left right : List UInt32) : Prop where
  cap : s.data.length = s.capacity
  even : s.capacity % 2 = 0
  usedLeft : s.used.left = left.length
  usedRight : s.used.right = right.length
  leftFits : left.length ≤ s.capacity / 2
  rightFits : right.length ≤ s.capacity / 2
  data : (s.data.drop (s.capacity / 2 - right.length)).take (right.length + left.length) =
    right.reverse ++ left

theorem Holds.span {s : Storage} {l r : List UInt32} (h : Holds s l r) :
    s.usedSpan = some (s.capacity / 2 - r.length, l.length + r.length) := by
  have h1 := h.even
  have h2 := h.leftFits
  have h3 := h.rightFits
  unfold Storage.usedSpan Storage.unusedRight
  rw [h.usedLeft, h.usedRight, if_pos ⟨h1, h3⟩]
  simp only
  rw [if_pos (by omega)]

theorem Holds.get {s : Storage} {l r : List UInt32} (h : Holds s l r) :
    s.getIndices = some (r.reverse ++ l) := by
  have h1 := h.even
  have h2 := h.leftFits
  have h3 := h.rightFits
  unfold Storage.getIndices
  rw [h.span]
  simp only [slice]
  rw [if_pos (by rw [h.cap]; omega), Nat.add_comm l.length, h.data]

theorem Holds.truncate {s : Storage} {l r : List UInt32} (h : Holds s l r) (a b : ℕ) :
    Holds (s.truncate ⟨a, b⟩) (l.take a) (r.take b) := by
  have h2 := h.leftFits
  have h3 := h.rightFits
  refine ⟨h.cap, h.even, ?_, ?_, ?_, ?_, ?_⟩
  · simp [Storage.truncate, h.usedLeft, Nat.min_comm]
  · simp [Storage.truncate, h.usedRight, Nat.min_comm]
  · simp [Storage.truncate]; omega
  · simp [Storage.truncate]; omega
  · have e := congrArg (fun l' => (l'.drop (r.length - (r.take b).length)).take
      ((r.take b).length + (l.take a).length)) h.data
    simp only [List.drop_take, List.drop_drop, List.take_take] at e
    have e1 : s.capacity / 2 - r.length + (r.length - (r.take b).length) =
        s.capacity / 2 - (r.take b).length := by
      simp only [List.length_take]; omega
    have e2 : min ((r.take b).length + (l.take a).length)
        (r.length + l.length - (r.length - (r.take b).length)) =
        (r.take b).length + (l.take a).length := by
      simp only [List.length_take]; omega
    rw [e1, e2] at e
    show (s.data.drop _).take _ = _
    rw [show (s.truncate ⟨a, b⟩).capacity = s.capacity from rfl, e]
    have e3 : (r.reverse ++ l).drop (r.length - (r.take b).length) = (r.take b).reverse ++ l := by
      rw [List.drop_append_of_le_length (by simp), List.reverse_take]
      congr 2
      simp only [List.length_take]; omega
    rw [e3, ← List.length_reverse (as := r.take b), List.take_append, Nat.add_sub_cancel_left,
      List.take_of_length_le (Nat.le_add_right _ _)]
    congr 1
    simp only [List.length_take]
    rcases Nat.le_total a l.length with hle | hle
    · rw [Nat.min_eq_left hle]
    · rw [Nat.min_eq_right hle, List.take_of_length_le hle, List.take_of_length_le (le_refl _)]

theorem overwrite_ok {data xs : List UInt32} {b : ℕ} (h : b + xs.length ≤ data.length) :
    overwrite data b xs = some (data.take b ++ xs ++ data.drop (b + xs.length)) ∧
      (data.take b ++ xs ++ data.drop (b + xs.length)).length = data.length := by
  refine ⟨if_pos h, ?_⟩
  simp only [List.length_append, List.length_take, List.length_drop]
  omega

theorem Holds.write {s : Storage} {l r : List UInt32} (h : Holds s l r) (l' r' : List UInt32)
    (hl : l.length + l'.length ≤ s.capacity / 2) (hr : r.length + r'.length ≤ s.capacity / 2) :
    ∃ s', s.write l' r' = some s' ∧ Holds s' (l ++ l') (r ++ r') := by
  have h1 := h.even
  have hc := h.cap
  unfold Storage.write
  have hsp : ({ s with used := ⟨s.used.left + l'.length, s.used.right + r'.length⟩ } : Storage).usedSpan
      = some (s.capacity / 2 - (r.length + r'.length),
        (l.length + l'.length) + (r.length + r'.length)) := by
    unfold Storage.usedSpan Storage.unusedRight
    simp only [h.usedLeft, h.usedRight]
    rw [if_pos ⟨h1, by omega⟩]
    simp only
    rw [if_pos (by omega)]
  simp only [hsp]
  have e0 : s.capacity / 2 - (r.length + r'.length) +
      ((l.length + l'.length) + (r.length + r'.length)) - l'.length = s.capacity / 2 + l.length := by
    omega
  rw [e0]
  obtain ⟨w1, w2⟩ := overwrite_ok (data := s.data) (xs := l') (b := s.capacity / 2 + l.length)
    (by omega)
  rw [w1]
  simp only
  generalize hd : s.data.take (s.capacity / 2 + l.length) ++ l' ++
    s.data.drop (s.capacity / 2 + l.length + l'.length) = d at *
  obtain ⟨w3, w4⟩ := overwrite_ok (data := d) (xs := r'.reverse)
    (b := s.capacity / 2 - (r.length + r'.length)) (by simp; omega)
  rw [w3]
  refine ⟨_, rfl, ⟨by simp only [w4, w2, hc], h1, by simp [h.usedLeft], by simp [h.usedRight],
    by simpa using hl, by simpa using hr, ?_⟩⟩
  simp only [List.length_append, List.length_reverse]
  -- the part of the array in use, cut at the old right end
  have hp : d.drop (s.capacity / 2 - r.length) =
      r.reverse ++ l ++ l' ++ s.data.drop (s.capacity / 2 + l.length + l'.length) := by
    rw [← hd, List.append_assoc, List.drop_append_of_le_length (by simp; omega), List.drop_take,
      show s.capacity / 2 + l.length - (s.capacity / 2 - r.length) = r.length + l.length by omega,
      h.data]
    simp [List.append_assoc]
  rw [List.append_assoc, List.drop_append, List.drop_eq_nil_of_le (by simp)]
  simp only [List.length_take, List.nil_append]
  rw [show s.capacity / 2 - (r.length + r'.length) -
      min (s.capacity / 2 - (r.length + r'.length)) d.length = 0 by omega, List.drop_zero,
    show s.capacity / 2 - (r.length + r'.length) + r'.length = s.capacity / 2 - r.length by omega,
    hp]
  have : r'.reverse ++ (r.reverse ++ l ++ l' ++
      s.data.drop (s.capacity / 2 + l.length + l'.length)) =
      ((r ++ r').reverse ++ (l ++ l')) ++ s.data.drop (s.capacity / 2 + l.length + l'.length) := by
    simp [List.append_assoc]
  rw [this, List.take_left' (by simp; omega)]

theorem Holds.grow {alloc : ℕ → List UInt32} (halloc : ∀ n, (alloc n).length = n) {s : Storage}
    {l r : List UInt32} (h : Holds s l r) (a b : ℕ) (hpos : 0 < a ∨ 0 < b) :
    ∃ s', s.grow alloc ⟨a, b⟩ = some s' ∧ Holds s' l r ∧ l.length + a ≤ s'.capacity / 2 ∧
      r.length + b ≤ s'.capacity / 2 := by
  unfold Storage.grow
  simp only [h.usedLeft, h.usedRight]
  generalize hm : 2 * max (l.length + a) (r.length + b) = mn
  have c1 := le_bitCeil mn
  have c2 := bitCeil_even (n := mn) (by omega)
  generalize bitCeil mn = c at *
  have g1 : l.length + a ≤ c / 2 := by omega
  have g2 : r.length + b ≤ c / 2 := by omega
  have hsp : (⟨alloc c, c, s.used⟩ : Storage).usedSpan =
      some (c / 2 - r.length, l.length + r.length) := by
    unfold Storage.usedSpan Storage.unusedRight
    simp only [h.usedLeft, h.usedRight]
    rw [if_pos ⟨c2, by omega⟩]
    simp only
    rw [if_pos (by omega)]
  have hg := h.get
  unfold Storage.getIndices at hg
  rw [h.span] at hg ⊢
  simp only at hg
  rw [hsp]
  simp only
  rw [hg]
  simp only
  obtain ⟨w1, w2⟩ := overwrite_ok (data := alloc c) (xs := r.reverse ++ l) (b := c / 2 - r.length)
    (by simp only [halloc, List.length_append, List.length_reverse]; omega)
  rw [w1]
  refine ⟨_, rfl, ⟨by rw [w2, halloc], c2, h.usedLeft, h.usedRight, by simp only; omega,
    by simp only; omega, ?_⟩, g1, g2⟩
  simp only
  rw [List.append_assoc, List.drop_append, List.drop_eq_nil_of_le (by simp), List.nil_append]
  simp only [List.length_take, halloc]
  rw [show c / 2 - r.length - min (c / 2 - r.length) c = 0 by omega, List.drop_zero,
    List.take_left' (by simp)]

theorem Holds.append {alloc : ℕ → List UInt32} (halloc : ∀ n, (alloc n).length = n) {s : Storage}
    {l r : List UInt32} (h : Holds s l r) (l' r' : List UInt32) :
    ∃ s', s.append alloc l' r' = some s' ∧ Holds s' (l ++ l') (r ++ r') := by
  have h2 := h.leftFits
  have h3 := h.rightFits
  unfold Storage.append Storage.unusedLeft Storage.unusedRight
  simp only [h.usedLeft, h.usedRight]
  rw [if_pos ⟨h.even, h2⟩, if_pos ⟨h.even, h3⟩]
  simp only
  by_cases hg : s.capacity / 2 - l.length < l'.length ∨ s.capacity / 2 - r.length < r'.length
  · rw [if_pos hg]
    obtain ⟨s', e, hs', g1, g2⟩ := h.grow halloc l'.length r'.length (by omega)
    rw [e]
    exact hs'.write l' r' g1 g2
  · rw [if_neg hg]
    exact h.write l' r' (by omega) (by omega)

/-- C36. After any history of appends and truncations, whatever the new memory contains, no check fails
and no copy leaves the array; `GetIndices` is the right side backwards followed by the left side, and
`GetIndexCounts` are their lengths. -/
theorem C36_outline (alloc : ℕ → List UInt32) (halloc : ∀ n, (alloc n).length = n) (ops : List Op) :
    ∃ s, Storage.empty.run alloc ops = some s ∧
      s.getIndices = some ((sides ops).2.reverse ++ (sides ops).1) ∧
      s.getCounts = ⟨(sides ops).1.length, (sides ops).2.length⟩ := by
  have key : ∀ (ops : List Op) (s : Storage) (l r : List UInt32), Holds s l r →
      ∃ s', s.run alloc ops = some s' ∧ Holds s'
        (ops.foldl (fun s op => match op with
          | .append l r => (s.1 ++ l, s.2 ++ r)
          | .truncate l r => (s.1.take l, s.2.take r)) (l, r)).1
        (ops.foldl (fun s op => match op with
          | .append l r => (s.1 ++ l, s.2 ++ r)
          | .truncate l r => (s.1.take l, s.2.take r)) (l, r)).2 := by
    intro ops
    induction ops with
    | nil => intro s l r h; exact ⟨s, rfl, h⟩
    | cons op ops ih =>
      intro s l r h
      cases op with
      | append l' r' =>
        obtain ⟨s', e, h'⟩ := h.append halloc l' r'
        simp only [Storage.run, Storage.step, e, List.foldl_cons]
        exact ih s' _ _ h'
      | truncate a b =>
        simp only [Storage.run, Storage.step, List.foldl_cons]
        exact ih _ _ _ (h.truncate a b)
  have h0 : Holds Storage.empty [] [] :=
    ⟨rfl, rfl, rfl, rfl, by simp, by simp, by simp [Storage.empty]⟩
  obtain ⟨s, e, h⟩ := key ops _ _ _ h0
  refine ⟨s, e, h.get, ?_⟩
  obtain ⟨h1, h2⟩ : _ ∧ _ := ⟨h.usedLeft, h.usedRight⟩
  unfold Storage.getCounts
  show s.used = ⟨_, _⟩
  unfold sides
  rw [← h1, ← h2]

/-- A history which grows twice and truncates one side. -/
example : ((Storage.empty.run (fun n => List.replicate n 7)
      [.append [1, 2, 3] [4], .truncate 2 5, .append [5] [6, 8, 9]]).bind Storage.getIndices =
    some [9, 8, 6, 4, 1, 2, 5]) ∧
    sides [.append [1, 2, 3] [4], .truncate 2 5, .append [5] [6, 8, 9]] =
      ([1, 2, 5], [4, 6, 8, 9]) := by decide +kernel

end Verif.Outline
