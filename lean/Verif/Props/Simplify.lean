import Verif.Model.Simplify
import Verif.Spec.Simplify
import Verif.Props.Distance
import Verif.F32.Mono

/-!
# C38: SimplifyPolyline
-/

set_option autoImplicit false
set_option linter.unusedSectionVars false

namespace Verif.Simplify

open Verif.Simplify.Spec

/-! ## What the specification says -/

namespace Spec

variable {V : Type} {near : V → V → V → Prop}

theorem Simplified.sublist {l r : List V} (h : Simplified near l r) : r.Sublist l := by
  induction h with
  | one v => exact List.Sublist.refl _
  | step v dropped w rest kept _ _ ih => exact List.Sublist.cons_cons _ (ih.trans (List.sublist_append_right _ _))

theorem Simplified.ends {l r : List V} (h : Simplified near l r) : r.head? = l.head? ∧ r.getLast? = l.getLast? := by
  induction h with
  | one v => exact ⟨rfl, rfl⟩
  | step v dropped w rest kept _ _ ih =>
    refine ⟨rfl, ?_⟩
    rw [List.getLast?_cons_cons, ih.2, ← List.cons_append, List.getLast?_append_of_ne_nil _ (by simp)]

theorem Simplified.append {a b c : V} {l r l' r' : List V} (h : Simplified near (a :: l ++ [b]) (a :: r ++ [b]))
    (h' : Simplified near (b :: l' ++ [c]) (b :: r' ++ [c])) :
    Simplified near (a :: (l ++ b :: l') ++ [c]) (a :: (r ++ b :: r') ++ [c]) := by
  have key : ∀ {x y : List V}, Simplified near x y → ∀ x0 y0, x = x0 ++ [b] → y = y0 ++ [b] →
      Simplified near (x0 ++ (b :: l' ++ [c])) (y0 ++ (b :: r' ++ [c])) := by
    intro x y hxy
    induction hxy with
    | one v =>
      intro x0 y0 hx hy
      obtain ⟨rfl, hx⟩ : x0 = [] ∧ [v] = [b] := by
        cases x0 with
        | nil => exact ⟨rfl, hx⟩
        | cons _ x0 => cases x0 <;> simp at hx
      obtain rfl : y0 = [] := by
        cases y0 with
        | nil => rfl
        | cons _ y0 => cases y0 <;> simp at hy
      exact h'
    | step v dropped w rest kept hd hr ih =>
      intro x0 y0 hx hy
      obtain ⟨y1, rfl⟩ : ∃ y1, y0 = v :: y1 := by
        cases y0 with
        | nil => simp at hy
        | cons z y1 => simp at hy; exact ⟨y1, by rw [hy.1]⟩
      have hy1 : w :: kept = y1 ++ [b] := by simpa using hy
      have hlast : ∃ r1, w :: rest = r1 ++ [b] := by
        have : (w :: rest).getLast? = some b := by
          rw [← hr.ends.2, hy1]
          simp
        obtain ⟨r1, hr1⟩ := List.getLast?_eq_some_iff.1 this
        exact ⟨r1, hr1⟩
      obtain ⟨r1, hr1⟩ := hlast
      have hx0 : x0 = v :: (dropped ++ r1) := by
        rw [hr1, ← List.append_assoc, ← List.cons_append] at hx
        exact (List.append_inj_left' hx rfl).symm
      have := ih r1 y1 hr1 hy1
      rw [hx0]
      -- the first vertices after `v` are `w`
      have e1 : ∃ t1, r1 ++ (b :: l' ++ [c]) = w :: t1 := by
        cases r1 with
        | nil => simp at hr1; exact ⟨l' ++ [c], by rw [hr1.1]; rfl⟩
        | cons z r1 => simp at hr1; exact ⟨r1 ++ (b :: l' ++ [c]), by rw [hr1.1]; rfl⟩
      have e2 : ∃ t2, y1 ++ (b :: r' ++ [c]) = w :: t2 := by
        cases y1 with
        | nil => simp at hy1; exact ⟨r' ++ [c], by rw [hy1.1]; rfl⟩
        | cons z y1 => simp at hy1; exact ⟨y1 ++ (b :: r' ++ [c]), by rw [hy1.1]; rfl⟩
      obtain ⟨t1, e1⟩ := e1
      obtain ⟨t2, e2⟩ := e2
      rw [List.cons_append, List.append_assoc, e1, List.cons_append, e2]
      rw [e1, e2] at this
      exact .step v dropped w t1 t2 hd this
  have := key h (a :: l) (a :: r) rfl rfl
  simpa using this

end Spec

/-! ## The algorithm -/

section Algorithm

variable {V P D : Type} {pos : V → P} {dist : P → P → P → D} {gt : D → D → Bool} {zero : D} {N : D → Prop}

theorem farthest_spec (C : Comparison gt zero N) (a b : P) (all : List V) : ∀ (vs done : List V) (best : Nat × D),
    all = done ++ vs → N best.2 → (∀ v ∈ done, gt (dist a b (pos v)) best.2 = false) →
    (best.2 = zero ∧ best.1 = 0 ∨ ∃ v, all[best.1]? = some v ∧ best.2 = dist a b (pos v)) →
    let r := farthest pos dist gt a b vs done.length best
    N r.2 ∧ (∀ v ∈ all, gt (dist a b (pos v)) r.2 = false) ∧
      (r.2 = zero ∧ r.1 = 0 ∨ ∃ v, all[r.1]? = some v ∧ r.2 = dist a b (pos v)) := by
  intro vs
  induction vs with
  | nil =>
    intro done best h1 h2 h3 h4
    rw [List.append_nil] at h1
    subst h1
    exact ⟨h2, h3, h4⟩
  | cons v vs ih =>
    intro done best h1 h2 h3 h4
    have hlen : done.length + 1 = (done ++ [v]).length := by simp
    have hall : all = (done ++ [v]) ++ vs := by rw [h1]; simp
    rw [List.length_append, List.length_singleton] at hlen
    rw [farthest]
    have ih := ih (done ++ [v])
    rw [List.length_append, List.length_singleton] at ih
    by_cases hg : gt (dist a b (pos v)) best.2 = true
    · rw [if_pos hg]
      refine ih _ hall (C.left _ _ hg) ?_ (Or.inr ⟨v, by rw [h1]; simp, rfl⟩)
      intro u hu
      rcases List.mem_append.1 hu with hu | hu
      · exact C.trans _ _ _ h2 (h3 u hu) (C.asymm _ _ hg)
      · rw [List.mem_singleton.1 hu]
        by_contra hc
        rw [Bool.not_eq_false] at hc
        have := C.asymm _ _ hc
        rw [hc] at this
        cases this
    · rw [if_neg hg]
      refine ih _ hall h2 ?_ h4
      intro u hu
      rcases List.mem_append.1 hu with hu | hu
      · exact h3 u hu
      · rw [List.mem_singleton.1 hu]
        simpa using hg

theorem interior_spec (C : Comparison gt zero N) (epsilon : D) : ∀ (n : Nat) (l : List V) (a b : V), l.length ≤ n →
    Simplified (fun a b v => gt (dist (pos a) (pos b) (pos v)) epsilon = false) (a :: l ++ [b])
      (a :: interior pos dist gt zero epsilon (pos a) (pos b) l ++ [b]) := by
  intro n
  induction n with
  | zero =>
    intro l a b hl
    obtain rfl : l = [] := List.length_eq_zero_iff.1 (by omega)
    rw [interior, if_pos (by simp)]
    exact .step a [] b [] [] (by simp) (.one b)
  | succ n ih =>
    intro l a b hl
    rw [interior]
    by_cases h0 : l.length < 1
    · obtain rfl : l = [] := List.length_eq_zero_iff.1 (by omega)
      rw [if_pos h0]
      exact .step a [] b [] [] (by simp) (.one b)
    rw [if_neg h0]
    obtain ⟨f1, f2, f3⟩ := farthest_spec (pos := pos) (dist := dist) C (pos a) (pos b) l l [] (0, zero) rfl C.zero (by simp)
      (Or.inl ⟨rfl, rfl⟩)
    simp only [List.length_nil] at f1 f2 f3 ⊢
    set best := farthest pos dist gt (pos a) (pos b) l 0 (0, zero) with hbest
    by_cases hg : gt best.2 epsilon = true
    · rw [if_pos hg]
      obtain ⟨v, hv⟩ : ∃ v, l[best.1]? = some v := by
        rcases f3 with ⟨-, h⟩ | ⟨v, h, -⟩
        · rw [h]
          exact ⟨l[0], List.getElem?_eq_getElem (by omega)⟩
        · exact ⟨v, h⟩
      split
      · rename_i h; rw [hv] at h; cases h
      · rename_i u hu
        rw [hv] at hu
        cases hu
        have hlt := (List.getElem?_eq_some_iff.1 hv).1
        have e : l = l.take best.1 ++ v :: l.drop (best.1 + 1) := by
          rw [List.getElem?_eq_some_iff] at hv
          obtain ⟨h1, h2⟩ := hv
          rw [← h2, List.cons_getElem_drop_succ, List.take_append_drop]
        have g1 := ih (l.take best.1) a v (by rw [List.length_take]; omega)
        have g2 := ih (l.drop (best.1 + 1)) v b (by rw [List.length_drop]; omega)
        have := g1.append g2
        rw [← e] at this
        exact this
    · rw [if_neg hg]
      rw [Bool.not_eq_true] at hg
      exact .step a l b [] [] (fun u hu => C.trans _ _ _ f1 (f2 u hu) hg) (.one b)

theorem interior_needed (C : Comparison gt zero N) (epsilon : D) (h0 : gt zero epsilon = false) :
    ∀ (n : Nat) (l : List V) (a b : V), l.length ≤ n →
    Needed (fun a b v => gt (dist (pos a) (pos b) (pos v)) epsilon = true)
      (a :: interior pos dist gt zero epsilon (pos a) (pos b) l ++ [b]) := by
  have empty : ∀ a b : V, Needed (fun a b v => gt (dist (pos a) (pos b) (pos v)) epsilon = true) (a :: [] ++ [b]) := by
    intro a b before v after h h1 h2
    have := congrArg List.length h
    have h3 := List.length_pos_iff.2 h1
    have h4 := List.length_pos_iff.2 h2
    simp at this
    omega
  intro n
  induction n with
  | zero =>
    intro l a b hl
    obtain rfl : l = [] := List.length_eq_zero_iff.1 (by omega)
    rw [interior, if_pos (by simp)]
    exact empty a b
  | succ n ih =>
    intro l a b hl
    rw [interior]
    by_cases hl0 : l.length < 1
    · rw [if_pos hl0]
      exact empty a b
    rw [if_neg hl0]
    obtain ⟨f1, f2, f3⟩ := farthest_spec (pos := pos) (dist := dist) C (pos a) (pos b) l l [] (0, zero) rfl C.zero (by simp)
      (Or.inl ⟨rfl, rfl⟩)
    simp only [List.length_nil] at f1 f2 f3 ⊢
    set best := farthest pos dist gt (pos a) (pos b) l 0 (0, zero) with hbest
    by_cases hg : gt best.2 epsilon = true
    · rw [if_pos hg]
      obtain ⟨v, hv, hd⟩ : ∃ v, l[best.1]? = some v ∧ best.2 = dist (pos a) (pos b) (pos v) := by
        rcases f3 with ⟨h, -⟩ | h
        · rw [h, h0] at hg; cases hg
        · exact h
      split
      · rename_i h; rw [hv] at h; cases h
      · rename_i u hu
        rw [hv] at hu
        cases hu
        have hlt := (List.getElem?_eq_some_iff.1 hv).1
        have g1 := ih (l.take best.1) a v (by rw [List.length_take]; omega)
        have g2 := ih (l.drop (best.1 + 1)) v b (by rw [List.length_drop]; omega)
        set x := interior pos dist gt zero epsilon (pos a) (pos v) (l.take best.1)
        set y := interior pos dist gt zero epsilon (pos v) (pos b) (l.drop (best.1 + 1))
        intro before w after h h1 h2
        have h : (a :: x) ++ v :: (y ++ [b]) = before ++ w :: after := by simpa using h
        rcases List.append_eq_append_iff.1 h with ⟨m, e1, e2⟩ | ⟨m, e1, e2⟩
        · cases m with
          | nil =>
            simp only [List.append_nil, List.nil_append, List.cons.injEq] at e1 e2
            obtain ⟨rfl, rfl⟩ := e2
            exact ⟨a, by rw [e1]; simp, b, by simp, by simp only [← hd]; exact hg⟩
          | cons z m =>
            simp only [List.cons_append, List.cons.injEq] at e2
            obtain ⟨rfl, e2⟩ := e2
            obtain ⟨p, hp, q, hq, hf⟩ := g2 (v :: m) w after (by rw [List.cons_append, e2]; rfl) (by simp) h2
            exact ⟨p, by rw [e1]; exact List.mem_append_right _ hp, q, hq, hf⟩
        · cases m with
          | nil =>
            simp only [List.append_nil, List.nil_append, List.cons.injEq] at e1 e2
            obtain ⟨rfl, rfl⟩ := e2
            exact ⟨a, by rw [← e1]; simp, b, by simp, by simp only [← hd]; exact hg⟩
          | cons z m =>
            simp only [List.cons_append, List.cons.injEq] at e2
            obtain ⟨rfl, e2⟩ := e2
            obtain ⟨p, hp, q, hq, hf⟩ := g1 before w (m ++ [v]) (by rw [e1]; simp) h1 (by simp)
            refine ⟨p, hp, q, ?_, hf⟩
            rw [e2]
            rcases List.mem_append.1 hq with hq | hq
            · exact List.mem_append_left _ hq
            · rw [List.mem_singleton.1 hq]; simp
    · rw [if_neg hg]
      exact empty a b

/-- C38: `SimplifyPolyline` appends a simplified polyline to the output: the ends are kept, and no dropped vertex is farther
than `epsilon` from the segment between the kept vertices before and after it. (If `epsilon` and the distance are not NaN,
then "not greater" is "at most".) An empty polyline gives nothing. That `interior` is a function shows that the recursion
ends. -/
theorem C38_simplify (C : Comparison gt zero N) (epsilon : D) (l output : List V) :
    ∃ r, simplify pos dist gt zero epsilon l output = output ++ r ∧ (l = [] → r = []) ∧
      (l ≠ [] → Simplified (fun a b v => gt (dist (pos a) (pos b) (pos v)) epsilon = false) l r) := by
  match l with
  | [] => exact ⟨[], rfl, fun _ => rfl, fun h => absurd rfl h⟩
  | [v] => exact ⟨[v], rfl, fun h => (by cases h), fun _ => .one v⟩
  | [v, w] => exact ⟨[v, w], rfl, fun h => (by cases h), fun _ => .step v [] w [] [] (by simp) (.one w)⟩
  | first :: x :: y :: rest =>
    refine ⟨_, by rw [simplify]; simp only [List.append_assoc]; rfl, fun h => (by cases h), fun _ => ?_⟩
    have := interior_spec (pos := pos) (dist := dist) C epsilon _ (x :: (y :: rest).dropLast) first
      ((y :: rest).getLast (by simp)) (le_refl _)
    have e : first :: x :: y :: rest =
        first :: (x :: (y :: rest).dropLast) ++ [(y :: rest).getLast (by simp)] := by
      simp only [List.cons_append]
      rw [List.dropLast_append_getLast]
    rw [e]
    exact this

/-- C38: for `epsilon` at least zero, no more vertices than needed are kept: every kept vertex but the ends is farther than
`epsilon` from the segment between some kept vertex before it and some kept vertex after it. -/
theorem C38_needed (C : Comparison gt zero N) (epsilon : D) (h0 : gt zero epsilon = false) (l : List V) :
    Needed (fun a b v => gt (dist (pos a) (pos b) (pos v)) epsilon = true) (simplify pos dist gt zero epsilon l []) ∨
      l.length < 3 ∧ simplify pos dist gt zero epsilon l [] = l := by
  match l with
  | [] => exact Or.inr ⟨by simp, rfl⟩
  | [v] => exact Or.inr ⟨by simp, rfl⟩
  | [v, w] => exact Or.inr ⟨by simp, rfl⟩
  | first :: x :: y :: rest =>
    left
    have := interior_needed (pos := pos) (dist := dist) C epsilon h0 _ (x :: (y :: rest).dropLast) first
      ((y :: rest).getLast (by simp)) (le_refl _)
    exact this

end Algorithm

/-! ## In binary32 -/

/-- Comparison of `float`s. -/
theorem comparison_f32 : Comparison F32.gt F32.zero (fun d => d.isNaN = false) := by
  refine ⟨rfl, ?_, ?_, ?_⟩
  · intro a b h
    unfold F32.gt F32.lt at h
    simp only [Bool.and_eq_true, Bool.not_eq_true'] at h
    exact h.1.2
  · intro a b h
    unfold F32.gt F32.lt at *
    simp only [Bool.and_eq_true, Bool.not_eq_true', decide_eq_true_eq] at h
    simp only [Bool.and_eq_false_iff, decide_eq_false_iff_not]
    exact Or.inr (by omega)
  · intro a b c hb h1 h2
    unfold F32.gt F32.lt at *
    simp only [hb, Bool.not_false, Bool.true_and, Bool.and_true, Bool.and_eq_false_iff, Bool.not_eq_false',
      decide_eq_false_iff_not] at *
    rcases h2 with h2 | h2
    · exact Or.inl (Or.inl h2)
    · rcases h1 with h1 | h1
      · exact Or.inl (Or.inr h1)
      · exact Or.inr (by omega)

/-- C38, huge coordinates: the distance of a vertex can be NaN, if coordinates are so large that their squares overflow;
such a vertex is dropped, however far it is. Here the polyline goes from `(-2^70, 0)` to `(2^70, 0)` by way of `(0, 2^70)`.
(`std::hypot` of two NaNs is NaN.) -/
theorem C38_overflow_counterexample (hypot : F32 → F32 → F32) (h : hypot F32.nan F32.nan = F32.nan) :
    let big := F32.ofRat (2 ^ 70)
    let l : List PointF := [⟨F32.neg big, F32.zero⟩, ⟨F32.zero, big⟩, ⟨big, F32.zero⟩]
    (∀ p ∈ l, p.x.isFinite = true ∧ p.y.isFinite = true) ∧
    simplify id (distance hypot) F32.gt F32.zero (F32.ofInt 1) l [] = [⟨F32.neg big, F32.zero⟩, ⟨big, F32.zero⟩] := by
  intro big l
  refine ⟨by decide +kernel, ?_⟩
  have hd : distance hypot ⟨F32.neg big, F32.zero⟩ ⟨big, F32.zero⟩ ⟨F32.zero, big⟩ = F32.nan := by
    have hp : project ⟨⟨F32.neg big, F32.zero⟩, ⟨big, F32.zero⟩⟩ ⟨F32.zero, big⟩ = some F32.nan := by decide +kernel
    have hs : samePoint ⟨F32.neg big, F32.zero⟩ ⟨big, F32.zero⟩ = false := by decide +kernel
    have h1 : F32.ge F32.nan RectF.one = false := by decide +kernel
    have h2 : F32.le F32.nan F32.zero = false := by decide +kernel
    have h3 : F32.sub F32.zero (SegmentF.lerp ⟨⟨F32.neg big, F32.zero⟩, ⟨big, F32.zero⟩⟩ F32.nan).x = F32.nan := by decide +kernel
    have h4 : F32.sub big (SegmentF.lerp ⟨⟨F32.neg big, F32.zero⟩, ⟨big, F32.zero⟩⟩ F32.nan).y = F32.nan := by decide +kernel
    unfold distance
    rw [hs, hp]
    simp only [h1, h2, Bool.false_eq_true, if_false, distPP]
    rw [h3, h4]
    exact h
  have hi : interior id (distance hypot) F32.gt F32.zero (F32.ofInt 1) ⟨F32.neg big, F32.zero⟩ ⟨big, F32.zero⟩
      [⟨F32.zero, big⟩] = [] := by
    have hf : farthest id (distance hypot) F32.gt ⟨F32.neg big, F32.zero⟩ ⟨big, F32.zero⟩ [⟨F32.zero, big⟩] 0 (0, F32.zero) =
        (0, F32.zero) := by
      simp only [farthest, id]
      rw [hd]
      decide +kernel
    rw [interior, if_neg (by simp), hf]
    exact if_neg (by decide +kernel)
  show [] ++ [_] ++ interior id (distance hypot) F32.gt F32.zero (F32.ofInt 1) ⟨F32.neg big, F32.zero⟩ ⟨big, F32.zero⟩
      [⟨F32.zero, big⟩] ++ [_] = _
  rw [hi]
  rfl

/-! ## In exact arithmetic -/

section Exact

open Verif.Geo Verif.Geo.Spec

variable {K : Type} [Field K] [LinearOrder K] [IsStrictOrderedRing K] {hypot : K → K → K}

theorem comparison_exact : Comparison (fun a b : K => decide (b < a)) 0 (fun _ => True) := by
  refine ⟨trivial, fun _ _ _ => trivial, ?_, ?_⟩
  · intro a b h; simp at *; exact h.le
  · intro a b c _ h1 h2; simp at *; exact h1.trans h2

/-- Points between two points near a segment are near it. -/
theorem near_between (h : IsHypot hypot) {e : K} (he : 0 ≤ e) {a b p q x : Pt K} (hp : distPS hypot p ⟨a, b⟩ ≤ e)
    (hq : distPS hypot q ⟨a, b⟩ ≤ e) (hx : OnSegment x ⟨p, q⟩) :
    ∃ y, OnSegment y ⟨a, b⟩ ∧ hypot (x.x - y.x) (x.y - y.y) ≤ e := by
  obtain ⟨p₁, p', rfl, hp', ep⟩ := (least_PS h p ⟨a, b⟩).attained
  obtain ⟨q₁, q', rfl, hq', eq⟩ := (least_PS h q ⟨a, b⟩).attained
  rw [ep] at hp
  rw [eq] at hq
  obtain ⟨t, t0, t1, ex, ey⟩ := hx
  simp only at ex ey
  refine ⟨⟨p'.x + t * (q'.x - p'.x), p'.y + t * (q'.y - p'.y)⟩, onSegment_conv hp' hq' ⟨t, t0, t1, rfl, rfl⟩, ?_⟩
  simp only
  have sqle : ∀ {x y : K}, hypot x y ≤ e → x * x + y * y ≤ e * e := by
    intro x y hle
    obtain ⟨h1, h2⟩ := h x y
    rw [← h2]
    exact mul_self_le_mul_self h1 hle
  have s1 := sqle hp
  have s2 := sqle hq
  set u := p₁.x - p'.x
  set u' := p₁.y - p'.y
  set v := q₁.x - q'.x
  set v' := q₁.y - q'.y
  have e1 : x.x - (p'.x + t * (q'.x - p'.x)) = (1 - t) * u + t * v := by rw [ex]; ring
  have e2 : x.y - (p'.y + t * (q'.y - p'.y)) = (1 - t) * u' + t * v' := by rw [ey]; ring
  rw [e1, e2]
  obtain ⟨h1, h2⟩ := h ((1 - t) * u + t * v) ((1 - t) * u' + t * v')
  refine abs_le_of_sq_le_sq' ?_ he |>.2
  rw [sq, sq, h2]
  have k1 : ((1 - t) * u + t * v) * ((1 - t) * u + t * v) + ((1 - t) * u' + t * v') * ((1 - t) * u' + t * v') =
      (1 - t) * (u * u + u' * u') + t * (v * v + v' * v') - t * (1 - t) * ((u - v) * (u - v) + (u' - v') * (u' - v')) := by ring
  have k2 : 0 ≤ t * (1 - t) * ((u - v) * (u - v) + (u' - v') * (u' - v')) :=
    mul_nonneg (mul_nonneg t0 (by linarith)) (add_nonneg (mul_self_nonneg _) (mul_self_nonneg _))
  have k3 := mul_le_mul_of_nonneg_left s1 (by linarith : 0 ≤ 1 - t)
  have k4 := mul_le_mul_of_nonneg_left s2 t0
  rw [k1]
  linarith

/-- C38: in exact arithmetic, every point of the polyline is within `epsilon` of the simplified one. -/
theorem C38_within (h : IsHypot hypot) (epsilon : K) (he : 0 ≤ epsilon) (l : List (Pt K)) (x : Pt K) (hx : OnPolyline l x) :
    ∃ y, OnPolyline (simplify id (fun a b p => distPS hypot p ⟨a, b⟩) (fun a b => decide (b < a)) 0 epsilon l []) y ∧
      hypot (x.x - y.x) (x.y - y.y) ≤ epsilon := by
  obtain ⟨r, hr, -, hs⟩ := C38_simplify (pos := id) (dist := fun a b p => distPS hypot p ⟨a, b⟩) comparison_exact epsilon l []
  rw [hr, List.nil_append]
  have hne : l ≠ [] := by
    rintro rfl
    obtain ⟨l₁, p, q, l₂, h, -⟩ := hx
    simp at h
  replace hs := hs hne
  clear hr hne
  simp only [decide_eq_false_iff_not, not_lt, id] at hs
  have zero : ∀ {p : Pt K} {s : Segment K}, OnSegment p s → distPS hypot p s ≤ epsilon := by
    intro p s hp
    have := (least_PS h p s).least p p rfl hp
    rw [sub_self, sub_self, h.zero] at this
    exact this.trans he
  induction hs with
  | one v =>
    obtain ⟨l₁, p, q, l₂, h, -⟩ := hx
    have := congrArg List.length h
    simp at this
    omega
  | step v dropped w rest kept hd hr ih =>
    have near : ∀ u ∈ v :: dropped ++ [w], distPS hypot u ⟨v, w⟩ ≤ epsilon := by
      intro u hu
      rcases List.mem_append.1 hu with hu | hu
      · rcases List.mem_cons.1 hu with rfl | hu
        · exact zero (onSegment_start ⟨u, w⟩)
        · exact hd u hu
      · rw [List.mem_singleton.1 hu]
        exact zero (onSegment_stop ⟨v, w⟩)
    obtain ⟨l₁, p, q, l₂, e, hx⟩ := hx
    by_cases hin : ∃ m, rest = m ∧ ∃ n, w :: rest = n ++ p :: q :: l₂
    · obtain ⟨-, -, n, hn⟩ := hin
      obtain ⟨y, ⟨m₁, p', q', m₂, e', hy⟩, hle⟩ := ih ⟨n, p, q, l₂, hn, hx⟩
      exact ⟨y, ⟨v :: m₁, p', q', m₂, by rw [e']; rfl, hy⟩, hle⟩
    · have hpq : p ∈ v :: dropped ++ [w] ∧ q ∈ v :: dropped ++ [w] := by
        have e' : (v :: dropped) ++ (w :: rest) = l₁ ++ (p :: q :: l₂) := by simpa using e
        rcases List.append_eq_append_iff.1 e' with ⟨m, e1, e2⟩ | ⟨m, e1, e2⟩
        · exact absurd ⟨rest, rfl, m, e2⟩ hin
        · match m with
          | [] => exact absurd ⟨rest, rfl, [], by simpa using e2.symm⟩ hin
          | [z] =>
            simp only [List.cons_append, List.nil_append, List.cons.injEq] at e2
            obtain ⟨rfl, rfl, -⟩ := e2
            exact ⟨by rw [e1]; simp, by simp⟩
          | z :: z' :: m =>
            simp only [List.cons_append, List.cons.injEq] at e2
            obtain ⟨rfl, rfl, -⟩ := e2
            exact ⟨by rw [e1]; simp, by rw [e1]; simp⟩
      obtain ⟨y, hy, hle⟩ := near_between h he (near p hpq.1) (near q hpq.2) hx
      exact ⟨y, ⟨[], v, w, kept, rfl, hy⟩, hle⟩

end Exact

/-! ## A concrete case -/

/-- A polyline on a line of numbers, with the distance from the middle of a segment: of three vertices
between the ends two are kept. -/
example : simplify (V := Int) id (fun a b p => (2 * p - a - b).natAbs) (fun a b => decide (b < a)) 0 3 [0, 7, 9, 4, 2] [5] =
    [5, 0, 7, 9, 2] := by
  have h1 : ∀ a b : Int, interior (V := Int) id (fun a b p => (2 * p - a - b).natAbs) (fun a b => decide (b < a)) 0 3 a b [] =
      [] := fun a b => by rw [interior, if_pos (by simp)]
  have h2 : interior (V := Int) id (fun a b p => (2 * p - a - b).natAbs) (fun a b => decide (b < a)) 0 3 0 9 [7] = [7] := by
    rw [interior, if_neg (by simp), show farthest (V := Int) id (fun a b p => (2 * p - a - b).natAbs)
      (fun a b => decide (b < a)) 0 9 [7] 0 (0, 0) = (0, 5) by decide]
    simp [h1]
    rfl
  have h3 : interior (V := Int) id (fun a b p => (2 * p - a - b).natAbs) (fun a b => decide (b < a)) 0 3 9 2 [4] = [] := by
    rw [interior, if_neg (by simp), show farthest (V := Int) id (fun a b p => (2 * p - a - b).natAbs)
      (fun a b => decide (b < a)) 9 2 [4] 0 (0, 0) = (0, 3) by decide]
    simp
  have h4 : interior (V := Int) id (fun a b p => (2 * p - a - b).natAbs) (fun a b => decide (b < a)) 0 3 0 2 [7, 9, 4] =
      [7, 9] := by
    rw [interior, if_neg (by simp), show farthest (V := Int) id (fun a b p => (2 * p - a - b).natAbs)
      (fun a b => decide (b < a)) 0 2 [7, 9, 4] 0 (0, 0) = (1, 16) by decide]
    show interior (V := Int) id (fun a b p => (2 * p - a - b).natAbs) (fun a b => decide (b < a)) 0 3 0 9 [7] ++
      9 :: interior (V := Int) id (fun a b p => (2 * p - a - b).natAbs) (fun a b => decide (b < a)) 0 3 9 2 [4] = [7, 9]
    rw [h2, h3]
    rfl
  simp [simplify, h4]

end Verif.Simplify
