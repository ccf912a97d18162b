import Verif.Model.Easing
import Verif.Spec.Easing
import Verif.Props.OutOfRange

/-!
# C29: easing functions
-/

set_option autoImplicit false

namespace Verif.Easing

open F32 EasingSpec

/-! ## Removing repeated points -/

section Dedup

theorem dropWhile_nil_iff {α : Type} (f : α → Bool) (l : List α) :
    l.dropWhile f = [] ↔ ∀ a ∈ l, f a = true := by
  induction l with
  | nil => simp
  | cons a l ih => by_cases h : f a = true <;> simp [h, ih]

theorem takeWhile_self_iff {α : Type} (f : α → Bool) (l : List α) :
    l.takeWhile f = l ↔ ∀ a ∈ l, f a = true := by
  induction l with
  | nil => simp
  | cons a l ih => by_cases h : f a = true <;> simp [h, ih]

/-- `B`: the last point which is not after `x`. -/
def lastBefore (x : F32) (l : List PointF) : Option PointF :=
  (l.takeWhile fun p => !(lt x p.x)).getLast?

/-- `A`: the first point after `x`. -/
def firstAfter (x : F32) (l : List PointF) : Option PointF :=
  (l.dropWhile fun p => !(lt x p.x)).head?

theorem firstAfter_none {x : F32} {l : List PointF} (h : firstAfter x l = none) :
    ∀ p ∈ l, lt x p.x = false := by
  unfold firstAfter at h
  rw [List.head?_eq_none_iff, dropWhile_nil_iff] at h
  intro p hp; simpa using h p hp

theorem firstAfter_some {x : F32} {l : List PointF} {q : PointF} (h : firstAfter x l = some q) :
    ∃ p ∈ l, lt x p.x = true := by
  by_contra hc
  push Not at hc
  have : l.dropWhile (fun p => !(lt x p.x)) = [] := by
    rw [dropWhile_nil_iff]; intro p hp; simpa using hc p hp
  unfold firstAfter at h; rw [this] at h; simp at h

theorem snoc_of_some {x : F32} {l r : List PointF} {q : PointF} (h : firstAfter x l = some q) :
    lastBefore x (l ++ r) = lastBefore x l ∧ firstAfter x (l ++ r) = firstAfter x l := by
  induction l with
  | nil => simp [firstAfter] at h
  | cons a l ih =>
    by_cases ha : lt x a.x = true
    · simp [lastBefore, firstAfter, ha]
    · have ha : lt x a.x = false := by simpa using ha
      have h' : firstAfter x l = some q := by
        simpa [firstAfter, ha] using h
      obtain ⟨i1, i2⟩ := ih h'
      constructor
      · have e : ∀ m : List PointF, lastBefore x (a :: m) = some ((lastBefore x m).getD a) := by
          intro m; simp [lastBefore, ha, List.getLast?_cons]
        rw [List.cons_append, e, e, i1]
      · have e : ∀ m : List PointF, firstAfter x (a :: m) = firstAfter x m := by
          intro m; simp [firstAfter, ha]
        rw [List.cons_append, e, e, i2]

theorem snoc_of_none {x : F32} {l : List PointF} (p : PointF) (h : firstAfter x l = none) :
    lastBefore x (l ++ [p]) = (if lt x p.x = true then l.getLast? else some p) ∧
    firstAfter x (l ++ [p]) = (if lt x p.x = true then some p else none) ∧
    lastBefore x l = l.getLast? := by
  have ha := firstAfter_none h
  have h1 : l.takeWhile (fun p => !(lt x p.x)) = l := by
    rw [takeWhile_self_iff]; intro q hq; simpa using ha q hq
  have h2 : l.dropWhile (fun p => !(lt x p.x)) = [] := by
    rw [dropWhile_nil_iff]; intro q hq; simpa using ha q hq
  have t : ∀ m : List PointF, (l ++ m).takeWhile (fun p => !(lt x p.x)) =
      l ++ m.takeWhile (fun p => !(lt x p.x)) := by
    intro m; rw [List.takeWhile_append, if_pos (by rw [h1])]
  have d : ∀ m : List PointF, (l ++ m).dropWhile (fun p => !(lt x p.x)) =
      m.dropWhile (fun p => !(lt x p.x)) := by
    intro m; rw [List.dropWhile_append, h2]; simp
  unfold lastBefore firstAfter
  rw [t, d, h1]
  by_cases hp : lt x p.x = true
  · simp [hp]
  · simp [hp]

/-- A point that passed validation. -/
def Ok (p : PointF) : Prop :=
  p.x.isFinite = true ∧ 0 ≤ key p.x ∧ key p.x ≤ key one ∧ p.y.isFinite = true

theorem ok_of_pointOk {p : PointF} (h : pointOk p = true) : Ok p := by
  unfold pointOk at h
  simp only [Bool.and_eq_true, Bool.not_eq_true', Bool.or_eq_false_iff] at h
  obtain ⟨⟨⟨h1, h2⟩, h3⟩, h4⟩ := h
  have h1 : p.x.isFinite = true := by simpa using h1
  have hn := isNaN_of_isFinite h1
  have n0 : isNaN zero = false := rfl
  have n1 : isNaN one = false := rfl
  refine ⟨h1, ?_, ?_, h4⟩
  · have : ¬ (key p.x < key zero) := by
      intro hc; simp [lt, hn, n0, hc] at h2
    have z : key zero = 0 := by decide +kernel
    omega
  · have : ¬ (key one < key p.x) := by
      intro hc; simp [F32.gt, lt, hn, n1, hc] at h3
    omega

theorem feq_key {a b : F32} (ha : a.isFinite = true) (hb : b.isFinite = true) :
    feq a b = true ↔ key a = key b := by
  simp [feq, isNaN_of_isFinite ha, isNaN_of_isFinite hb]

theorem lt_key {a b : F32} (ha : a.isNaN = false) (hb : b.isNaN = false) :
    lt a b = true ↔ key a < key b := by
  simp [lt, ha, hb]

theorem lt_key_false {a b : F32} (ha : a.isNaN = false) (hb : b.isNaN = false) :
    lt a b = false ↔ key b ≤ key a := by
  rw [← Bool.not_eq_true, lt_key ha hb]; omega

theorem key_zero : key zero = 0 := by decide +kernel

/-- What the list kept by the implementation has in common with the list it was given. -/
structure Rel (P acc : List PointF) : Prop where
  before : ∀ x : F32, x.isNaN = false → 0 ≤ key x → key x < key one →
    lastBefore x P = lastBefore x acc ∧ firstAfter x P = firstAfter x acc
  lastKey : (P.getLast?.map fun p => key p.x) = (acc.getLast?.map fun p => key p.x)
  last : ∀ p, P.getLast? = some p → key p.x < key one → acc.getLast? = some p
  headKey : (P.head?.map fun p => key p.x) = (acc.head?.map fun p => key p.x)
  head : ∀ p, P.head? = some p → 0 < key p.x → acc.head? = some p
  short : ∀ p, acc.getLast? = some p → 2 ≤ acc.length → 0 < key p.x
  ok : ∀ p ∈ acc, Ok p

theorem Rel.skip {P acc : List PointF} (h : Rel P acc) {q : PointF} (hq : acc.getLast? = some q)
    (hk : key q.x = key one) {p : PointF} (hp1 : key p.x = key one) :
    Rel (P ++ [p]) acc := by
  have hqa : q ∈ acc := List.mem_of_getLast? hq
  have hP : P ≠ [] := by
    intro hc; have := h.lastKey; rw [hc, hq] at this; simp at this
  refine ⟨?_, ?_, ?_, ?_, ?_, h.short, h.ok⟩
  · intro x nx h0 h1
    obtain ⟨b1, b2⟩ := h.before x nx h0 h1
    cases ha : firstAfter x acc with
    | none =>
      have := firstAfter_none ha q hqa
      rw [lt_key_false nx (isNaN_of_isFinite (h.ok q hqa).1)] at this
      omega
    | some r =>
      rw [ha] at b2
      obtain ⟨s1, s2⟩ := snoc_of_some (r := [p]) b2
      rw [s1, s2, b1, b2]; exact ⟨rfl, rfl⟩
  · rw [List.getLast?_append, hq]; simp [hp1, hk]
  · intro r hr hlt
    simp only [List.getLast?_append, List.getLast?_singleton, Option.some_or, Option.some.injEq] at hr
    subst hr; omega
  · rw [List.head?_append_of_ne_nil _ hP]; exact h.headKey
  · rw [List.head?_append_of_ne_nil _ hP]; exact h.head

theorem Rel.step {P acc acc' : List PointF} (h : Rel P acc) {p : PointF} (hp : Ok p)
    (hs : ∀ q ∈ P, key q.x ≤ key p.x) (e : dedupStep P.length p acc = some acc') :
    Rel (P ++ [p]) acc' := by
  have hle : ∀ r, acc.getLast? = some r → key r.x ≤ key p.x := by
    intro r hr
    have := h.lastKey
    rw [hr] at this
    cases hP : P.getLast? with
    | none => rw [hP] at this; simp at this
    | some s =>
      rw [hP] at this; simp at this
      have := hs s (List.mem_of_getLast? hP); omega
  have hpn := isNaN_of_isFinite hp.1
  have hnil : acc = [] ↔ P = [] := by
    have := h.lastKey
    constructor
    · rintro rfl; simp at this; exact this
    · rintro rfl; simpa using this
  unfold dedupStep at e
  by_cases c1 : (decide (0 < P.length) && feq p.x zero) = true
  · rw [if_pos c1] at e
    simp only [Bool.and_eq_true, decide_eq_true_eq] at c1
    obtain ⟨c1, c2⟩ := c1
    rw [feq_key hp.1 rfl, key_zero] at c2
    have hPn : P ≠ [] := by intro hc; simp [hc] at c1
    have hacc : acc ≠ [] := fun hc => hPn (hnil.1 hc)
    obtain ⟨q, hq⟩ : ∃ q, acc.getLast? = some q := by
      cases hl : acc.getLast? with
      | none => simp at hl; exact absurd hl hacc
      | some q => exact ⟨q, rfl⟩
    have hq0 : key q.x = 0 := by
      have h1 := hle q hq
      have h2 := (h.ok q (List.mem_of_getLast? hq)).2.1
      omega
    have hlen : acc.length = 1 := by
      have : acc.length ≠ 0 := by simpa using hacc
      by_contra hc
      have := h.short q hq (by omega)
      omega
    obtain ⟨a, rfl⟩ := List.length_eq_one_iff.1 hlen
    simp at hq; subst hq
    simp at e; subst e
    refine ⟨?_, ?_, ?_, ?_, ?_, ?_, ?_⟩
    · intro x nx h0 h1
      obtain ⟨b1, b2⟩ := h.before x nx h0 h1
      have ha : lt x a.x = false :=
        (lt_key_false nx (isNaN_of_isFinite (h.ok a (by simp)).1)).2 (by omega)
      have hpx : lt x p.x = false := (lt_key_false nx hpn).2 (by omega)
      have b2' : firstAfter x P = none := by rw [b2]; simp [firstAfter, ha]
      obtain ⟨s1, s2, -⟩ := snoc_of_none p b2'
      rw [s1, s2]; simp [lastBefore, firstAfter, hpx]
    · simp
    · intro r hr _
      simp at hr; subst hr; simp
    · have := h.headKey
      rw [List.head?_append_of_ne_nil _ hPn, this]; simp [hq0, c2]
    · intro r hr hpos
      rw [List.head?_append_of_ne_nil _ hPn] at hr
      have := h.headKey; rw [hr] at this; simp at this; omega
    · simp
    · simpa using hp
  · rw [if_neg c1] at e
    have c1' : P ≠ [] → 0 < key p.x := by
      intro hP
      have : 0 < P.length := List.length_pos_iff.2 hP
      simp only [this, decide_true, Bool.true_and] at c1
      rw [feq_key hp.1 rfl, key_zero] at c1
      have := hp.2.1; omega
    by_cases c2 : (feq p.x one && decide (1 ≤ acc.length) &&
        (acc.getLast?.any fun q => feq q.x one)) = true
    · rw [if_pos c2] at e; simp at e
    · rw [if_neg c2] at e
      by_cases c3 : (decide (2 ≤ acc.length) && (acc[acc.length - 1]?.any fun q => feq q.x p.x) &&
          (acc[acc.length - 2]?.any fun q => feq q.x p.x)) = true
      · rw [if_pos c3] at e
        simp only [Option.some.injEq] at e
        simp only [Bool.and_eq_true, decide_eq_true_eq] at c3
        obtain ⟨⟨hl, t1⟩, t2⟩ := c3
        obtain ⟨A0, q, r, rfl⟩ : ∃ A0 q r, acc = A0 ++ [q, r] := by
          refine ⟨acc.take (acc.length - 2), acc[acc.length - 2], acc[acc.length - 1], ?_⟩
          apply List.ext_getElem
          · simp; omega
          · intro i h1 h2
            rw [List.getElem_append]
            split
            · simp
            · rename_i hi
              simp only [List.length_take] at hi h2 ⊢
              have : i = acc.length - 2 ∨ i = acc.length - 1 := by omega
              rcases this with rfl | rfl
              · simp
              · simp [show acc.length - 1 - (acc.length - 2) = 1 by omega]
        have okq := h.ok q (by simp)
        have okr := h.ok r (by simp)
        have t1 : key r.x = key p.x := by
          rw [← feq_key okr.1 hp.1]
          have : (A0 ++ [q, r])[(A0 ++ [q, r]).length - 1]? = some r := by simp
          rw [this] at t1; simpa using t1
        have t2 : key q.x = key p.x := by
          rw [← feq_key okq.1 hp.1]
          have : (A0 ++ [q, r])[(A0 ++ [q, r]).length - 2]? = some q := by simp
          rw [this] at t2; simpa using t2
        have e' : acc' = A0 ++ [q] ++ [p] := by
          rw [← e]
          have : (A0 ++ [q, r]).length - 1 = A0.length + 1 := by simp
          rw [this]; simp
        subst e'
        have hPn : P ≠ [] := by intro hc; have := hnil.2 hc; simp at this
        refine ⟨?_, ?_, ?_, ?_, ?_, ?_, ?_⟩
        · intro x nx h0 h1
          obtain ⟨b1, b2⟩ := h.before x nx h0 h1
          have er : A0 ++ [q, r] = A0 ++ [q] ++ [r] := by simp
          rw [er] at b1 b2
          cases hA : firstAfter x (A0 ++ [q]) with
          | some s =>
            obtain ⟨u1, u2⟩ := snoc_of_some (r := [r]) hA
            obtain ⟨v1, v2⟩ := snoc_of_some (r := [p]) hA
            rw [u2, hA] at b2
            rw [u1] at b1
            obtain ⟨w1, w2⟩ := snoc_of_some (r := [p]) b2
            rw [w1, w2, v1, v2, b1, b2, hA]; exact ⟨rfl, rfl⟩
          | none =>
            have hq : lt x q.x = false := firstAfter_none hA q (by simp)
            have hr : lt x r.x = false := by
              rw [lt_key_false nx (isNaN_of_isFinite okq.1)] at hq
              rw [lt_key_false nx (isNaN_of_isFinite okr.1)]; omega
            have hpx : lt x p.x = false := by
              rw [lt_key_false nx (isNaN_of_isFinite okq.1)] at hq
              rw [lt_key_false nx hpn]; omega
            obtain ⟨u1, u2, -⟩ := snoc_of_none r hA
            obtain ⟨v1, v2, -⟩ := snoc_of_none p hA
            rw [u2, hr] at b2
            obtain ⟨w1, w2, -⟩ := snoc_of_none p (by simpa using b2)
            rw [w1, w2, v1, v2, hpx]; simp
        · simp
        · intro s hs _; simp at hs; subst hs; simp
        · rw [List.head?_append_of_ne_nil _ hPn, h.headKey]
          cases A0 <;> simp
        · rw [List.head?_append_of_ne_nil _ hPn]
          intro s hs hpos
          have := h.head s hs hpos
          cases A0 <;> simpa using this
        · intro s hs _; simp at hs; subst hs; exact c1' hPn
        · intro s hs
          simp only [List.mem_append, List.mem_singleton] at hs
          rcases hs with (hs | hs) | hs
          · exact h.ok s (by simp [hs])
          · exact h.ok s (by simp [hs])
          · rw [hs]; exact hp
      · rw [if_neg c3] at e
        simp only [Option.some.injEq] at e
        subst e
        refine ⟨?_, ?_, ?_, ?_, ?_, ?_, ?_⟩
        · intro x nx h0 h1
          obtain ⟨b1, b2⟩ := h.before x nx h0 h1
          cases hA : firstAfter x acc with
          | some s =>
            rw [hA] at b2
            obtain ⟨u1, u2⟩ := snoc_of_some (r := [p]) b2
            obtain ⟨v1, v2⟩ := snoc_of_some (r := [p]) hA
            rw [u1, u2, v1, v2, b1, b2, hA]; exact ⟨rfl, rfl⟩
          | none =>
            rw [hA] at b2
            obtain ⟨u1, u2, u3⟩ := snoc_of_none p b2
            obtain ⟨v1, v2, v3⟩ := snoc_of_none p hA
            rw [u1, u2, v1, v2, ← u3, ← v3, b1]; exact ⟨rfl, rfl⟩
        · simp
        · intro s hs _; simp at hs; subst hs; simp
        · by_cases hP : P = []
          · rw [hnil.2 hP, hP]
          · have ha : acc ≠ [] := fun hc => hP (hnil.1 hc)
            rw [List.head?_append_of_ne_nil _ hP, List.head?_append_of_ne_nil _ ha]
            exact h.headKey
        · by_cases hP : P = []
          · rw [hnil.2 hP, hP]; intro s hs _; exact hs
          · have ha : acc ≠ [] := fun hc => hP (hnil.1 hc)
            rw [List.head?_append_of_ne_nil _ hP, List.head?_append_of_ne_nil _ ha]
            exact h.head
        · intro s hs hl
          simp at hs; subst hs
          apply c1'
          intro hc
          rw [hnil.2 hc] at hl; simp at hl
        · intro s hs
          simp only [List.mem_append, List.mem_singleton] at hs
          rcases hs with hs | hs
          · exact h.ok s hs
          · rw [hs]; exact hp

theorem dedupStep_none {i : Nat} {p : PointF} {acc : List PointF} (ok : ∀ q ∈ acc, Ok q) (hp : Ok p)
    (h : dedupStep i p acc = none) :
    key p.x = key one ∧ ∃ q, acc.getLast? = some q ∧ key q.x = key one := by
  unfold dedupStep at h
  split at h
  · simp at h
  · split at h
    · rename_i h2
      simp only [Bool.and_eq_true, decide_eq_true_eq] at h2
      obtain ⟨⟨h1, -⟩, h3⟩ := h2
      refine ⟨(feq_key hp.1 rfl).1 h1, ?_⟩
      cases hl : acc.getLast? with
      | none => rw [hl] at h3; simp at h3
      | some q =>
        rw [hl] at h3
        exact ⟨q, rfl, (feq_key (ok q (List.mem_of_getLast? hl)).1 rfl).1 (by simpa using h3)⟩
    · split at h <;> simp at h

theorem Rel.skipAll {P acc : List PointF} (h : Rel P acc) {q : PointF} (hq : acc.getLast? = some q)
    (hk : key q.x = key one) (l : List PointF) (hl : ∀ p ∈ l, Ok p ∧ key p.x = key one) :
    Rel (P ++ l) acc := by
  induction l generalizing P with
  | nil => simpa using h
  | cons p l ih =>
    have := ih (h.skip hq hk (hl p (by simp)).2) (fun p hp => hl p (by simp [hp]))
    simpa using this

theorem dedupFrom_rel (l : List PointF) : ∀ (P acc : List PointF), Rel P acc →
    (∀ p ∈ l, Ok p) → (P ++ l).Pairwise (fun a b => key a.x ≤ key b.x) →
    Rel (P ++ l) (dedupFrom P.length l acc) := by
  induction l with
  | nil => intro P acc h _ _; simpa [dedupFrom] using h
  | cons p l ih =>
    intro P acc h hok hs
    rw [dedupFrom]
    have hp := hok p (by simp)
    have hs' : (P ++ [p] ++ l).Pairwise (fun a b : PointF => key a.x ≤ key b.x) := by simpa using hs
    cases hd : dedupStep P.length p acc with
    | none =>
      obtain ⟨h1, q, hq, hk⟩ := dedupStep_none h.ok hp hd
      simp only
      apply h.skipAll hq hk
      intro r hr
      refine ⟨hok r hr, ?_⟩
      rcases List.mem_cons.1 hr with rfl | hr'
      · exact h1
      · have : key p.x ≤ key r.x := by
          have := (List.pairwise_append.1 hs').2.2 p (by simp) r hr'; exact this
        have := (hok r hr).2.2.1; omega
    | some acc' =>
      simp only
      have hstep := h.step hp (fun q hq => (List.pairwise_append.1 hs).2.2 q hq p (by simp)) hd
      have := ih (P ++ [p]) acc' hstep (fun r hr => hok r (by simp [hr])) hs'
      simpa using this

theorem sortedX_pairwise {l : List PointF} (h : sortedX l = true) (ok : ∀ p ∈ l, Ok p) :
    l.Pairwise (fun a b => key a.x ≤ key b.x) := by
  induction l with
  | nil => simp
  | cons a l ih =>
    cases l with
    | nil => simp
    | cons b l =>
      simp only [sortedX, Bool.and_eq_true, Bool.not_eq_true'] at h
      have ih := ih h.2 (fun p hp => ok p (by simp [hp]))
      rw [List.pairwise_cons]
      have hab : key a.x ≤ key b.x := by
        have := h.1; unfold F32.gt at this
        rwa [lt_key_false (isNaN_of_isFinite (ok b (by simp)).1)
          (isNaN_of_isFinite (ok a (by simp)).1)] at this
      refine ⟨?_, ih⟩
      intro c hc
      rcases List.mem_cons.1 hc with rfl | hc
      · exact hab
      · have := (List.pairwise_cons.1 ih).1 c hc; omega

theorem dedup_rel {ps : List PointF} (h : (Fn.linear ps).valid = true) :
    Rel ps (dedup ps) ∧ (∀ p ∈ ps, Ok p) ∧ ps.Pairwise (fun a b => key a.x ≤ key b.x) := by
  simp only [Fn.valid, Bool.and_eq_true, List.all_eq_true] at h
  have ok : ∀ p ∈ ps, Ok p := fun p hp => ok_of_pointOk (h.1 p hp)
  have hs := sortedX_pairwise h.2 ok
  refine ⟨?_, ok, hs⟩
  have r0 : Rel [] [] :=
    ⟨fun _ _ _ _ => ⟨rfl, rfl⟩, rfl, fun _ h => by simp at h, rfl, fun _ h => by simp at h,
      fun _ h => by simp at h, fun _ h => by simp at h⟩
  exact dedupFrom_rel ps [] [] r0 ok (by simpa using hs)

end Dedup

/-! ## Piecewise-linear functions -/

theorem bracket_eq (ps : List PointF) (x : F32) :
    bracket ps x = ((lastBefore x ps).getD ⟨zero, zero⟩, (firstAfter x ps).getD ⟨one, one⟩) := rfl

/-- Splitting a list at a place where the first part is not after `x` and the rest starts after it. -/
theorem split_at {x : F32} {l r : List PointF} {b : PointF} (hl : ∀ p ∈ l, lt x p.x = false)
    (hb : lt x b.x = true) :
    lastBefore x (l ++ b :: r) = l.getLast? ∧ firstAfter x (l ++ b :: r) = some b := by
  have h0 : firstAfter x l = none := by
    unfold firstAfter
    rw [List.head?_eq_none_iff, dropWhile_nil_iff]
    intro p hp; simp [hl p hp]
  obtain ⟨s1, s2, -⟩ := snoc_of_none b h0
  rw [if_pos hb] at s1 s2
  have e : l ++ b :: r = (l ++ [b]) ++ r := by simp
  obtain ⟨t1, t2⟩ := snoc_of_some (r := r) s2
  rw [e, t1, t2, s1, s2]; exact ⟨rfl, rfl⟩

theorem no_after {x : F32} {l : List PointF} (hl : ∀ p ∈ l, lt x p.x = false) :
    lastBefore x l = l.getLast? ∧ firstAfter x l = none := by
  have h0 : firstAfter x l = none := by
    unfold firstAfter
    rw [List.head?_eq_none_iff, dropWhile_nil_iff]
    intro p hp; simp [hl p hp]
  exact ⟨(snoc_of_none ⟨zero, zero⟩ h0).2.2, h0⟩

theorem between_bracket {ps : List PointF} {x : F32} {a b : PointF}
    (hok : ∀ p ∈ ps, Ok p) (hs : ps.Pairwise (fun a b => key a.x ≤ key b.x))
    (hx : x.isNaN = false) (h : Between ps x a b) : bracket ps x = (a, b) := by
  obtain ⟨⟨l, r, e⟩, ha, hb⟩ := h
  have hak := le_key ha
  rw [bracket_eq]
  cases l with
  | nil =>
    simp only [knots, List.cons_append, List.nil_append, List.cons.injEq] at e
    obtain ⟨rfl, e⟩ := e
    cases ps with
    | nil =>
      simp at e; simp [lastBefore, firstAfter, ← e.1]; rfl
    | cons p ps =>
      simp at e
      obtain ⟨rfl, -⟩ := e
      obtain ⟨s1, s2⟩ := split_at (x := x) (l := []) (r := ps) (by simp) hb
      simp only [List.nil_append] at s1 s2
      rw [s1, s2]; simp
  | cons z l =>
    simp only [knots, List.cons_append, List.cons.injEq] at e
    obtain ⟨-, e⟩ := e
    rcases List.eq_nil_or_concat r with hr | ⟨r', d, hr⟩
    · subst hr
      have e : ps ++ [⟨RectF.one, RectF.one⟩] = (l ++ [a]) ++ [b] := by simpa using e
      obtain ⟨e1, e2⟩ := List.append_inj' e rfl
      have e2 : b = ⟨RectF.one, RectF.one⟩ := by simpa using e2.symm
      subst e1
      have hle : ∀ p ∈ l ++ [a], lt x p.x = false := by
        intro p hp
        rw [lt_key_false hx (isNaN_of_isFinite (hok p hp).1)]
        rcases List.mem_append.1 hp with hp | hp
        · have := (List.pairwise_append.1 hs).2.2 p hp a (by simp); omega
        · simp at hp; subst hp; exact hak.2.2
      obtain ⟨n1, n2⟩ := no_after hle
      rw [n1, n2]; simp [e2]; rfl
    · subst hr
      have e : ps ++ [⟨RectF.one, RectF.one⟩] = (l ++ a :: b :: r') ++ [d] := by simpa using e
      obtain ⟨e1, -⟩ := List.append_inj' e rfl
      subst e1
      have e3 : l ++ a :: b :: r' = (l ++ [a]) ++ b :: r' := by simp
      have hle : ∀ p ∈ l ++ [a], lt x p.x = false := by
        intro p hp
        rw [lt_key_false hx (isNaN_of_isFinite (hok p (by rw [e3]; simp at hp ⊢; tauto)).1)]
        rcases List.mem_append.1 hp with hp | hp
        · have := (List.pairwise_append.1 hs).2.2 p hp a (by simp); omega
        · simp at hp; subst hp; exact hak.2.2
      obtain ⟨n1, n2⟩ := split_at (r := r') hle hb
      rw [e3, n1, n2]; simp

theorem exists_between_aux {x : F32} (l : List PointF) : ∀ c : PointF,
    (∀ p ∈ c :: l, p.x.isNaN = false) → x.isNaN = false → le c.x x = true →
    (∃ d ∈ l, lt x d.x = true) →
    ∃ l1 a b r, c :: l = l1 ++ a :: b :: r ∧ le a.x x = true ∧ lt x b.x = true := by
  induction l with
  | nil => intro c _ _ _ h; simp at h
  | cons d l ih =>
    intro c hn hx hc ⟨e, he, hl⟩
    by_cases hd : lt x d.x = true
    · exact ⟨[], c, d, l, rfl, hc, hd⟩
    · have hd' : le d.x x = true := by
        rw [← not_lt_iff hx (hn d (by simp))]; simpa using hd
      obtain ⟨l1, a, b, r, e1, e2, e3⟩ := ih d (fun p hp => hn p (by simp at hp ⊢; tauto)) hx hd'
        (by
          rcases List.mem_cons.1 he with rfl | he
          · exact absurd hl hd
          · exact ⟨e, he, hl⟩)
      exact ⟨c :: l1, a, b, r, by rw [e1]; rfl, e2, e3⟩

/-- The line through two points with different x. -/
theorem interpolate_line {a b : PointF} {x : F32} (h : feq a.x b.x = false) :
    interpolate a b x = line a b x := by
  unfold interpolate line
  by_cases hy : feq a.y b.y = true
  · rw [if_pos hy, if_pos hy]
  · rw [if_neg hy, if_neg hy, h]; rfl

/-- C29. A valid piecewise-linear easing function has the documented value at every input.

* For `0 ≤ x < 1` there are consecutive knots `a`, `b` (the given points with (0, 0) before them and
  (1, 1) after them) with `a.x ≤ x < b.x`, and whichever such pair is taken, the value is that of the
  line through them. In particular, where several points share an x, the segment used starts at the
  last of them.
* For `1 ≤ x` the value is that of the last segment, or 1 if the last segment is vertical.
* For `x < 0` the value is that of the first segment, or 0 if the first segment is vertical. -/
theorem C29_linear (tabulate : CubicBezier → List F32) {ps : List PointF}
    (h : (Fn.linear ps).valid = true) {x : F32} (hx : x.isNaN = false) :
    ∃ y, (setUp tabulate (.linear ps)).getY x = some y ∧
      (le zero x = true → lt x one = true →
        (∃ a b, Between ps x a b) ∧ ∀ a b, Between ps x a b → y = line a b x) ∧
      (le one x = true → ∀ a, (knots ps).dropLast.getLast? = some a →
        y = if lt a.x one then line a ⟨one, one⟩ x else one) ∧
      (lt x zero = true → ∀ b, (knots ps).tail.head? = some b →
        if lt zero b.x then y = line ⟨zero, zero⟩ b x else feq y zero = true) := by
  obtain ⟨R, hok, hs⟩ := dedup_rel h
  refine ⟨linearY (dedup ps) x, rfl, ?_, ?_, ?_⟩
  · intro h0 h1
    have k0 : 0 ≤ key x := by have := le_key h0; rw [key_zero] at this; exact this.2.2
    have k1 : key x < key one := (lt_key hx rfl).1 h1
    refine ⟨?_, ?_⟩
    · have hn : ∀ p ∈ knots ps, p.x.isNaN = false := by
        intro p hp
        simp only [knots, List.mem_append, List.mem_cons] at hp
        rcases hp with (rfl | hp) | hp
        · rfl
        · exact isNaN_of_isFinite (hok p hp).1
        · rcases hp with rfl | hp
          · rfl
          · simp at hp
      obtain ⟨l1, a, b, r, e, e2, e3⟩ := exists_between_aux (x := x) (ps ++ [⟨RectF.one, RectF.one⟩])
        ⟨zero, zero⟩ (fun p hp => hn p (by simpa [knots] using hp)) hx h0
        ⟨⟨RectF.one, RectF.one⟩, by simp, h1⟩
      exact ⟨a, b, ⟨l1, r, by simpa [knots] using e⟩, e2, e3⟩
    · intro a b hab
      have hb := between_bracket hok hs hx hab
      rw [bracket_eq, (R.before x hx k0 k1).1, (R.before x hx k0 k1).2, ← bracket_eq] at hb
      unfold linearY
      rw [hx, hb]
      simp only [Bool.false_eq_true, if_false]
      apply interpolate_line
      obtain ⟨-, ha, hb⟩ := hab
      have ha := le_key ha
      have hb : key x < key b.x := by simp [lt] at hb; exact hb.2
      rw [← Bool.not_eq_true]
      simp only [feq, Bool.and_eq_true, decide_eq_true_eq, not_and]
      omega
  · intro h1 a ha
    have k1 : key one ≤ key x := (le_key h1).2.2
    have hle : ∀ p ∈ dedup ps, lt x p.x = false := by
      intro p hp
      have := R.ok p hp
      rw [lt_key_false hx (isNaN_of_isFinite this.1)]
      have := this.2.2.1; omega
    obtain ⟨n1, n2⟩ := no_after hle
    unfold linearY
    rw [hx, bracket_eq, n1, n2]
    simp only [Bool.false_eq_true, if_false, Option.getD_none]
    have hd : (knots ps).dropLast = ⟨zero, zero⟩ :: ps := by
      simp only [knots]; rw [List.dropLast_concat]
    rw [hd, List.getLast?_cons] at ha
    simp only [Option.some.injEq] at ha
    cases hl : ps.getLast? with
    | none =>
      have hacc : (dedup ps).getLast? = none := by
        have := R.lastKey; rw [hl] at this; simpa using this.symm
      rw [hl] at ha; simp at ha; subst ha
      rw [hacc]
      have : lt zero one = true := by decide +kernel
      simp only [this, if_true, Option.getD_none]
      exact interpolate_line (by decide +kernel)
    | some q =>
      rw [hl] at ha; simp at ha; subst ha
      have hq := hok q (List.mem_of_getLast? hl)
      by_cases hlt : lt q.x one = true
      · have hk := (lt_key (isNaN_of_isFinite hq.1) rfl).1 hlt
        rw [R.last q hl hk, hlt]
        simp only [Option.getD_some, if_true]
        apply interpolate_line
        rw [← Bool.not_eq_true, feq_key hq.1 rfl]
        show ¬ key q.x = key one
        omega
      · have hk : key q.x = key one := by
          rw [Bool.not_eq_true, lt_key_false (isNaN_of_isFinite hq.1) rfl] at hlt
          have := hq.2.2.1; omega
        rw [if_neg hlt]
        have := R.lastKey
        rw [hl] at this
        cases hl2 : (dedup ps).getLast? with
        | none => rw [hl2] at this; simp at this
        | some r =>
          rw [hl2] at this; simp at this
          have okr := R.ok r (List.mem_of_getLast? hl2)
          simp only [Option.getD_some]
          have hf : feq r.x one = true := (feq_key okr.1 rfl).2 (by omega)
          have hnl : lt x one = false := (lt_key_false hx rfl).2 k1
          unfold interpolate
          simp only [hf, hnl, if_true, Bool.false_eq_true, if_false, ite_self]
  · intro hlt b hb
    have k0 : key x < 0 := by have := (lt_key hx rfl).1 hlt; rwa [key_zero] at this
    have ht : (knots ps).tail = ps ++ [⟨one, one⟩] := rfl
    rw [ht] at hb
    unfold linearY
    rw [hx, bracket_eq]
    simp only [Bool.false_eq_true, if_false]
    cases hps : ps with
    | nil =>
      subst hps
      simp at hb; subst hb
      have : lt zero one = true := by decide +kernel
      simp only [this, if_true]
      have : dedup [] = [] := rfl
      rw [this]
      have e1 : lastBefore x [] = none := rfl
      have e2 : firstAfter x [] = none := rfl
      rw [e1, e2]
      exact interpolate_line (by decide +kernel)
    | cons p l =>
      rw [← hps]
      have hh : ps.head? = some p := by rw [hps]; rfl
      have hbp : b = p := by rw [hps] at hb; simpa using hb.symm
      subst hbp
      have okb := hok b (by rw [hps]; simp)
      have hkk := R.headKey
      rw [hh] at hkk
      cases hd : dedup ps with
      | nil => rw [hd] at hkk; simp at hkk
      | cons r l' =>
        rw [hd] at hkk; simp at hkk
        have okr := R.ok r (by rw [hd]; simp)
        have hxr : lt x r.x = true :=
          (lt_key hx (isNaN_of_isFinite okr.1)).2 (by have := okr.2.1; omega)
        obtain ⟨s1, s2⟩ := split_at (x := x) (l := []) (r := l') (by simp) hxr
        simp only [List.nil_append] at s1 s2
        rw [s1, s2]
        simp only [List.getLast?_nil, Option.getD_none, Option.getD_some]
        by_cases hz : lt zero b.x = true
        · rw [if_pos hz]
          have hzk := (lt_key rfl (isNaN_of_isFinite okb.1)).1 hz
          rw [key_zero] at hzk
          have := R.head b hh hzk
          rw [hd] at this; simp at this; subst this
          apply interpolate_line
          rw [← Bool.not_eq_true, feq_key rfl okb.1, key_zero]; omega
        · rw [if_neg hz]
          have hb0 : key b.x = 0 := by
            rw [Bool.not_eq_true, lt_key_false rfl (isNaN_of_isFinite okb.1), key_zero] at hz
            have := okb.2.1; omega
          have hf : feq zero r.x = true := (feq_key rfl okr.1).2 (by rw [key_zero]; omega)
          unfold interpolate
          by_cases hy : feq zero r.y = true
          · rw [if_pos hy]
            have := (feq_key rfl okr.2.2.2).1 hy
            exact (feq_key okr.2.2.2 rfl).2 this.symm
          · rw [if_neg hy, if_pos hf, if_pos hxr]; decide +kernel

/-- The difference of two distinct finite numbers does not round to zero. -/
theorem sub_pos_of_lt {a b : F32} (ha : a.isFinite = true) (hb : b.isFinite = true)
    (h : toRat a < toRat b) (hov : |toRat b - toRat a| < ovf) : 0 < toRat (sub b a) := by
  have int : ∀ c : F32, ∃ z : ℤ, toRat c = z / 2 ^ 149 := by
    intro c
    cases c with
    | nan => exact ⟨0, by simp [toRat]⟩
    | inf s => exact ⟨0, by simp [toRat]⟩
    | fin s n hn =>
      cases s with
      | false => exact ⟨mag n, by rw [toRat_fin_false]; push_cast; ring⟩
      | true => exact ⟨-mag n, by rw [toRat_fin_true]; push_cast; ring⟩
  obtain ⟨za, ea⟩ := int a
  obtain ⟨zb, eb⟩ := int b
  rw [toRat_sub hb ha hov]
  have h1 : za < zb := by
    rw [ea, eb, div_lt_div_iff_of_pos_right (by positivity)] at h; exact_mod_cast h
  have h2 : (1 : ℚ) / 2 ^ 149 ≤ toRat b - toRat a := by
    rw [ea, eb, ← sub_div, div_le_div_iff_of_pos_right (by positivity)]
    have : (1 : ℤ) ≤ zb - za := by omega
    exact_mod_cast this
  have hr : F32.Repr (1 / 2 ^ 149) :=
    Repr.of_mul_pow (M := 1) (e := 0) (by norm_num) (by norm_num) (by
      rw [abs_of_pos (by positivity)]; norm_num)
  have := le_rnd_of_le hr h2
  have : (0 : ℚ) < 1 / 2 ^ 149 := by positivity
  linarith

/-- C29. At the x of one of the given points, below 1, the function takes exactly the y of the last of
the points with that x, as long as the difference to the y of the next knot does not overflow. -/
theorem C29_linear_at_points_partial (tabulate : CubicBezier → List F32) {ps l r : List PointF}
    {p b : PointF} (h : (Fn.linear ps).valid = true) (e : knots ps = l ++ p :: b :: r)
    (hp : p ∈ ps) (hlast : lt p.x b.x = true) (hov : (sub b.y p.y).isFinite = true) :
    ∃ y, (setUp tabulate (.linear ps)).getY p.x = some y ∧ feq y p.y = true := by
  obtain ⟨R, hok, hs⟩ := dedup_rel h
  have okp := hok p hp
  have hn := isNaN_of_isFinite okp.1
  obtain ⟨y, hy, h1, -, -⟩ := C29_linear tabulate h hn
  refine ⟨y, hy, ?_⟩
  have okb : b.x.isFinite = true ∧ key b.x ≤ key one ∧ b.y.isFinite = true := by
    have hb : b ∈ knots ps := by rw [e]; simp
    simp only [knots, List.mem_append, List.mem_cons] at hb
    rcases hb with (rfl | hb) | hb
    · exact ⟨rfl, by decide +kernel, rfl⟩
    · exact ⟨(hok b hb).1, (hok b hb).2.2⟩
    · rcases hb with rfl | hb
      · exact ⟨rfl, by decide +kernel, rfl⟩
      · simp at hb
  have hbk := (lt_key hn (isNaN_of_isFinite okb.1)).1 hlast
  have h0 : le zero p.x = true := le_of_key rfl hn (by rw [key_zero]; exact okp.2.1)
  have h1' : lt p.x one = true := (lt_key hn rfl).2 (by omega)
  obtain ⟨-, h2⟩ := h1 h0 h1'
  rw [h2 p b ⟨⟨l, r, e⟩, F32.le_refl hn, hlast⟩]
  unfold line
  by_cases hyy : feq p.y b.y = true
  · rw [if_pos hyy]
    rw [feq_key okp.2.2.2 okb.2.2] at hyy
    exact (feq_key okb.2.2 okp.2.2.2).2 hyy.symm
  · rw [if_neg hyy]
    have ov1 : (2 : ℚ) < ovf := by unfold ovf; norm_num
    have q0 : 0 ≤ toRat p.x := by have := (le_iff rfl okp.1).1 h0; rwa [toRat_zero] at this
    have q1 : toRat b.x ≤ 1 := by
      have := (le_iff okb.1 rfl).1 (le_of_key (isNaN_of_isFinite okb.1) (b := one) rfl okb.2.1)
      rwa [show toRat one = 1 from Verif.toRat_one] at this
    have hlt : toRat p.x < toRat b.x := (lt_iff okp.1 okb.1).1 hlast
    have hov1 : |toRat b.x - toRat p.x| < ovf := by rw [abs_of_pos (by linarith)]; linarith
    have hpos := sub_pos_of_lt okp.1 okb.1 hlt hov1
    have fs := isFinite_sub okb.1 okp.1 hov1
    have z1 : |toRat p.x - toRat p.x| < ovf := by rw [sub_self, abs_zero]; linarith
    have f0 := isFinite_sub okp.1 okp.1 z1
    have e0 : toRat (sub p.x p.x) = 0 := by rw [toRat_sub okp.1 okp.1 z1, sub_self, F32.rnd_zero]
    have z2 : |toRat (sub p.x p.x) / toRat (sub b.x p.x)| < ovf := by
      rw [e0, zero_div, abs_zero]; linarith
    have ft := isFinite_div f0 fs hpos.ne' z2
    have et : toRat (div (sub p.x p.x) (sub b.x p.x)) = 0 := by
      rw [toRat_div f0 fs hpos.ne' z2, e0, zero_div, F32.rnd_zero]
    have z3 : |toRat (sub b.y p.y) * toRat (div (sub p.x p.x) (sub b.x p.x))| < ovf := by
      rw [et, mul_zero, abs_zero]; linarith
    have fm := isFinite_mul hov ft z3
    have em : toRat (mul (sub b.y p.y) (div (sub p.x p.x) (sub b.x p.x))) = 0 := by
      rw [toRat_mul hov ft z3, et, mul_zero, F32.rnd_zero]
    have z4 : |toRat p.y + toRat (mul (sub b.y p.y) (div (sub p.x p.x) (sub b.x p.x)))| < ovf := by
      rw [em, add_zero]; exact (Repr.toRat p.y).lt_ovf
    have fa := isFinite_add okp.2.2.2 fm z4
    rw [feq_iff fa okp.2.2.2, toRat_add okp.2.2.2 fm z4, em, add_zero, rnd_toRat]

/-- 0.25, 0.5, 0.75 -/
def quarter : F32 := .fin false 0x3E800000 (by decide)
def threeQuarters : F32 := .fin false 0x3F400000 (by decide)

/-- The hypotheses are met: a function with a jump at 0.25 from 0 through 0.5 to 0.75, where the
implementation drops the middle point. -/
example : let ps : List PointF := [⟨quarter, zero⟩, ⟨quarter, RectF.half⟩, ⟨quarter, threeQuarters⟩]
    (Fn.linear ps).valid = true ∧ dedup ps = [⟨quarter, zero⟩, ⟨quarter, threeQuarters⟩] ∧
    linearY (dedup ps) quarter = threeQuarters ∧
    Between ps quarter ⟨quarter, threeQuarters⟩ ⟨one, one⟩ := by
  refine ⟨by decide +kernel, by decide +kernel, by decide +kernel, ⟨[⟨zero, zero⟩, ⟨quarter, zero⟩,
    ⟨quarter, RectF.half⟩], [], rfl⟩, by decide +kernel, by decide +kernel⟩

/-- C29, the missing part: a valid function which is NaN at one of its own points, because the
difference of two consecutive y overflows (the points are (0.25, max) and (0.75, -max)). -/
theorem C29_linear_counterexample (tabulate : CubicBezier → List F32) :
    ∃ ps : List PointF, (Fn.linear ps).valid = true ∧ ⟨quarter, maxFinite⟩ ∈ ps ∧
      (setUp tabulate (.linear ps)).getY quarter = some .nan := by
  refine ⟨[⟨quarter, maxFinite⟩, ⟨threeQuarters, neg maxFinite⟩], by decide +kernel, by simp, ?_⟩
  show some (linearY (dedup _) quarter) = some .nan
  decide +kernel

/-! ## Step functions -/

/-- A finite number below 1 is at most `1 - 2^-24`. -/
theorem le_pred_one {x : F32} (hf : x.isFinite = true) (h : toRat x < 1) :
    toRat x ≤ 1 - 1 / 2 ^ 24 := by
  have hv : toRat (.fin false 0x3F7FFFFF (by decide)) = 1 - 1 / 2 ^ 24 := by decide +kernel
  rw [← hv, ← le_iff hf rfl]
  have hk : key x < key one := by
    rw [key_lt_iff hf rfl, show toRat one = 1 from Verif.toRat_one]; exact h
  refine le_of_key (isNaN_of_isFinite hf) rfl ?_
  have h1 : key one = 0x3F800000 := by decide +kernel
  have h2 : key (.fin false 0x3F7FFFFF (by decide)) = 0x3F7FFFFF := by decide +kernel
  rw [h2]; rw [h1] at hk; omega

/-- The largest binary32 number below an integer is not further from it than rounding to it needs. -/
theorem rnd_mul_lt {c : ℕ} (h1 : 1 ≤ c) (h2 : c < 2 ^ 24) {x : ℚ} (hx : x ≤ 1 - 1 / 2 ^ 24) :
    rnd (c * x) < c := by
  have hc : (1 : ℚ) ≤ c := by exact_mod_cast h1
  have hq : (c : ℚ) * x ≤ c - c / 2 ^ 24 := by
    calc (c : ℚ) * x ≤ c * (1 - 1 / 2 ^ 24) := by
          apply mul_le_mul_of_nonneg_left hx; linarith
      _ = _ := by ring
  obtain ⟨e, he1, he2⟩ : ∃ e, 2 ^ e ≤ c ∧ c < 2 ^ (e + 1) :=
    ⟨Nat.log 2 c, Nat.pow_log_le_self 2 (by omega), Nat.lt_pow_succ_log_self (by norm_num) c⟩
  have he : e < 24 := by
    by_contra hcon
    have : 2 ^ 24 ≤ 2 ^ e := Nat.pow_le_pow_right (by norm_num) (by omega)
    omega
  rcases eq_or_lt_of_le he1 with heq | hlt
  · -- a power of two: the product is at most the predecessor
    have hr : F32.Repr ((c : ℚ) - c / 2 ^ 24) := by
      have hv : ((c : ℚ) - c / 2 ^ 24) * 2 ^ 149 = ((2 ^ 24 - 1 : ℤ) : ℚ) * 2 ^ (125 + e) := by
        rw [← heq]; push_cast; rw [pow_add]; norm_num; ring
      refine Repr.of_mul_pow (M := 2 ^ 24 - 1) (e := 125 + e) (by norm_num) hv ?_
      have h3 : (c : ℚ) / 2 ^ 24 ≤ c := div_le_self (by linarith) (by norm_num)
      have h4 : (c : ℚ) < 2 ^ 24 := by exact_mod_cast h2
      have h5 : (0 : ℚ) ≤ c / 2 ^ 24 := by positivity
      rw [abs_of_nonneg (by linarith)]
      linarith [show (2 : ℚ) ^ 24 < 2 ^ 128 by norm_num]
    have := rnd_le_of_le hr hq
    have : (0 : ℚ) < c / 2 ^ 24 := by positivity
    linarith
  · -- otherwise it is nearer to the predecessor
    obtain ⟨d, hd⟩ : ∃ d, e + d = 23 := ⟨23 - e, by omega⟩
    have p1 : (2 : ℚ) ^ 149 = 2 ^ d * 2 ^ (126 + e) := by
      rw [← pow_add]; congr 1; omega
    have p2 : (2 : ℚ) ^ 24 = 2 * (2 ^ e * 2 ^ d) := by rw [← pow_add, hd]; norm_num
    have hd0 : (0 : ℚ) < 2 ^ d := by positivity
    have hcd : c * 2 ^ d < 2 ^ 24 := by
      have : c * 2 ^ d < 2 ^ (e + 1) * 2 ^ d := Nat.mul_lt_mul_of_pos_right he2 (by positivity)
      rwa [← pow_add, show e + 1 + d = 24 by omega] at this
    have hcd1 : 1 ≤ c * 2 ^ d := Nat.mul_pos (by omega) (by positivity)
    have h4 : (c : ℚ) < 2 ^ 24 := by exact_mod_cast h2
    have h5 : 1 / (2 : ℚ) ^ d ≤ 1 := by
      rw [div_le_one hd0]; exact one_le_pow₀ (by norm_num)
    have h6 : 0 < 1 / (2 : ℚ) ^ d := by positivity
    have hr : F32.Repr ((c : ℚ) - 1 / 2 ^ d) := by
      refine Repr.of_mul_pow (M := c * 2 ^ d - 1) (e := 126 + e) ?_ ?_ ?_
      · have : ((c * 2 ^ d : ℕ) : ℤ) = (c : ℤ) * 2 ^ d := by push_cast; rfl
        rw [abs_of_nonneg (by omega)]; omega
      · rw [p1]; push_cast; field_simp
      · rw [abs_of_nonneg (by linarith)]
        linarith [show (2 : ℚ) ^ 24 < 2 ^ 128 by norm_num]
    have hhalf : 1 / (2 : ℚ) ^ d / 2 < c / 2 ^ 24 := by
      have : ((2 : ℚ)) ^ e < c := by exact_mod_cast hlt
      rw [p2, div_div, div_lt_div_iff₀ (by positivity) (by positivity)]
      nlinarith [mul_lt_mul_of_pos_right this hd0]
    by_contra hcon
    push Not at hcon
    rcases le_total ((c : ℚ) * x) (c - 1 / 2 ^ d) with hle | hle
    · have := rnd_le_of_le hr hle; linarith
    · have := rnd_nearest (q := (c : ℚ) * x) hr
      rw [abs_of_nonneg (by linarith), abs_of_nonpos (by linarith)] at this
      linarith

theorem rnd_err_add (q : ℚ) : |rnd q - q| ≤ |q| / 2 ^ 24 + 1 / 2 ^ 150 := by
  refine _root_.le_trans (rnd_err q) (max_le ?_ ?_)
  · have : (0 : ℚ) ≤ |q| / 2 ^ 24 := by positivity
    linarith
  · have : (0 : ℚ) < 1 / 2 ^ 150 := by positivity
    linarith

/-- The product and its floor in `GetY` for steps, and the segment lookup for cubic Béziers. -/
theorem floor_mul {n : ℕ} (h1 : 1 ≤ n) (h2 : n < 2 ^ 24) {x : F32} (hf : x.isFinite = true)
    (h0 : 0 ≤ toRat x) (hx : toRat x < 1) :
    (mul (ofInt n) x).isFinite = true ∧
    ∃ k : ℕ, k < n ∧ ⌊toRat (mul (ofInt n) x)⌋ = k ∧ toRat x < (k + 1) / n ∧
      (k : ℚ) / n ≤ toRat x + 1 / 2 ^ 23 := by
  have hn24 : |(n : ℤ)| ≤ 2 ^ 24 := by rw [abs_of_nonneg (by omega)]; omega
  have en : toRat (ofInt n) = n := by rw [toRat_ofInt hn24]; push_cast; rfl
  have fn := isFinite_ofInt hn24
  have hn1 : (1 : ℚ) ≤ n := by exact_mod_cast h1
  have hn2 : (n : ℚ) < 2 ^ 24 := by exact_mod_cast h2
  have hnn : (0 : ℚ) ≤ n * toRat x := mul_nonneg (by linarith) h0
  have hlt : (n : ℚ) * toRat x < n := by nlinarith
  have hov : |toRat (ofInt n) * toRat x| < ovf := by
    rw [en, abs_of_nonneg hnn]
    have : (2 : ℚ) ^ 24 < ovf := by unfold ovf; norm_num
    linarith
  refine ⟨isFinite_mul fn hf hov, ?_⟩
  have ev : toRat (mul (ofInt n) x) = rnd (n * toRat x) := by rw [toRat_mul fn hf hov, en]
  rw [ev]
  have hl := rnd_mul_lt h1 h2 (le_pred_one hf hx)
  have hg := rnd_nonneg hnn
  obtain ⟨k, hk⟩ := Int.eq_ofNat_of_zero_le (Int.floor_nonneg.2 hg)
  refine ⟨k, ?_, hk, ?_, ?_⟩
  · have : ⌊rnd (n * toRat x)⌋ < n := by rw [Int.floor_lt]; exact_mod_cast hl
    omega
  · rw [lt_div_iff₀ (by linarith)]
    by_contra hcon
    push Not at hcon
    have hr : F32.Repr ((k + 1 : ℤ) : ℚ) := Repr.ofInt (by
      have : ⌊rnd (n * toRat x)⌋ < n := by rw [Int.floor_lt]; exact_mod_cast hl
      rw [abs_of_nonneg (by omega)]; omega)
    have := le_rnd_of_le hr (q := n * toRat x) (by push_cast; linarith)
    have h3 := Int.lt_floor_add_one (rnd (n * toRat x))
    rw [hk] at h3
    push_cast at this h3
    linarith
  · have h3 := Int.floor_le (rnd (n * toRat x))
    rw [hk] at h3
    push_cast at h3
    have h4 := (abs_le.1 (rnd_err_add (n * toRat x))).2
    rw [abs_of_nonneg hnn] at h4
    rw [div_le_iff₀ (by linarith)]
    have h5 : (n : ℚ) * toRat x / 2 ^ 24 ≤ n / 2 ^ 24 := by
      apply div_le_div_of_nonneg_right hlt.le; positivity
    have h6 : (1 : ℚ) / 2 ^ 150 ≤ n / 2 ^ 24 := by
      have h8 : (1 : ℚ) / 2 ^ 150 ≤ 1 / 2 ^ 24 := by norm_num
      have h9 : (1 : ℚ) / 2 ^ 24 ≤ n / 2 ^ 24 := div_le_div_of_nonneg_right hn1 (by norm_num)
      linarith
    have h7 : (toRat x + 1 / 2 ^ 23) * n = n * toRat x + (n / 2 ^ 24 + n / 2 ^ 24) := by ring
    rw [h7]; linarith

/-- The positions as in the specification. -/
def StepPosition.kind : StepPosition → StepKind
  | .jumpEnd => .jumpEnd
  | .jumpStart => .jumpStart
  | .jumpBoth => .jumpBoth
  | .jumpNone => .jumpNone

/-- `start + (1/m) * k`, rounded at each operation, for `k ≤ m`. -/
theorem step_value {m k : ℕ} (h1 : 1 ≤ m) (h2 : m ≤ 2 ^ 24) (hk : k ≤ m) {M K s : F32} {σ : ℚ}
    (hM : M.isFinite = true) (eM : toRat M = m) (hK : K.isFinite = true) (eK : toRat K = k)
    (hs : (s = zero ∧ σ = 0) ∨ (s = div one M ∧ σ = 1)) :
    (add s (mul (div one M) K)).isFinite = true ∧
      |toRat (add s (mul (div one M) K)) - (k + σ) / m| ≤ 1 / 2 ^ 20 := by
  have hm1 : (1 : ℚ) ≤ m := by exact_mod_cast h1
  have ho : (100 : ℚ) < ovf := by unfold ovf; norm_num
  have e1 : toRat one = 1 := Verif.toRat_one
  have hi : 1 / (m : ℚ) ≤ 1 := by rw [div_le_one (by linarith)]; exact hm1
  have hi0 : 0 < 1 / (m : ℚ) := by positivity
  have ov1 : |toRat one / toRat M| < ovf := by
    rw [e1, eM, abs_of_pos hi0]; linarith
  have hM0 : toRat M ≠ 0 := by rw [eM]; linarith
  have fh := isFinite_div (a := one) rfl hM hM0 ov1
  have eh := toRat_div (a := one) rfl hM hM0 ov1
  rw [e1, eM] at eh
  have b1 := abs_le.1 (rnd_err_add (1 / (m : ℚ)))
  rw [abs_of_pos hi0] at b1
  have t150 : (1 : ℚ) / 2 ^ 150 ≤ 1 / 2 ^ 60 := by norm_num
  -- the height times k
  have hk0 : (0 : ℚ) ≤ k := by positivity
  have hkm : (k : ℚ) ≤ m := by exact_mod_cast hk
  have hm24 : (m : ℚ) ≤ 2 ^ 24 := by exact_mod_cast h2
  have hq : (k : ℚ) / m ≤ 1 := by rw [div_le_one (by linarith)]; exact hkm
  have hq0 : (0 : ℚ) ≤ k / m := by positivity
  generalize hH : rnd (1 / (m : ℚ)) = H at *
  have b2 : |H * k - k / m| ≤ (k : ℚ) / m / 2 ^ 24 + k / 2 ^ 150 := by
    have : H * k - k / m = (H - 1 / m) * k := by ring
    rw [this, abs_mul, abs_of_nonneg hk0]
    have h3 : |H - 1 / m| ≤ 1 / (m : ℚ) / 2 ^ 24 + 1 / 2 ^ 150 := abs_le.2 b1
    calc |H - 1 / m| * k ≤ (1 / (m : ℚ) / 2 ^ 24 + 1 / 2 ^ 150) * k :=
          mul_le_mul_of_nonneg_right h3 hk0
      _ = _ := by ring
  have b3 : (k : ℚ) / 2 ^ 150 ≤ 1 / 2 ^ 60 := by
    rw [div_le_div_iff₀ (by positivity) (by positivity)]
    have : (k : ℚ) ≤ 2 ^ 24 := by linarith
    nlinarith [show (2 : ℚ) ^ 24 * 2 ^ 60 ≤ 1 * 2 ^ 150 by norm_num, show (0 : ℚ) < 2 ^ 60 by norm_num]
  have b4 : (k : ℚ) / m / 2 ^ 24 ≤ 1 / 2 ^ 24 := div_le_div_of_nonneg_right hq (by norm_num)
  have b2' := abs_le.1 b2
  have t24 : (1 : ℚ) / 2 ^ 24 + 1 / 2 ^ 60 ≤ 1 := by norm_num
  have p1 : |H * k| ≤ 2 := by rw [abs_le]; constructor <;> linarith
  have ov2 : |toRat (div one M) * toRat K| < ovf := by rw [eh, eK]; linarith
  have fp := isFinite_mul fh hK ov2
  have ep := toRat_mul fh hK ov2
  rw [eh, eK] at ep
  have b5 := abs_le.1 (rnd_err_add (H * k))
  have b6 : |H * k| / 2 ^ 24 ≤ 2 / 2 ^ 24 := div_le_div_of_nonneg_right p1 (by norm_num)
  generalize hP : rnd (H * k) = P at *
  -- the sum
  have hσ : s.isFinite = true ∧ |toRat s - σ / m| ≤ 1 / 2 ^ 24 + 1 / 2 ^ 60 ∧ |σ / m| ≤ 1 := by
    rcases hs with ⟨rfl, rfl⟩ | ⟨rfl, rfl⟩
    · refine ⟨rfl, ?_, ?_⟩ <;> simp [toRat_zero]
      norm_num
    · refine ⟨fh, ?_, ?_⟩
      · rw [eh, abs_le]
        have : 1 / (m : ℚ) / 2 ^ 24 ≤ 1 / 2 ^ 24 := div_le_div_of_nonneg_right hi (by norm_num)
        constructor <;> linarith
      · rw [abs_of_pos hi0]; exact hi
  obtain ⟨fs, b7, b8⟩ := hσ
  have b7 := abs_le.1 b7
  have b8 := abs_le.1 b8
  have q2 : (2 : ℚ) / 2 ^ 24 + 1 / 2 ^ 60 ≤ 1 := by norm_num
  have p2 : |toRat s + P| ≤ 6 := by rw [abs_le]; constructor <;> linarith
  have ov3 : |toRat s + toRat (mul (div one M) K)| < ovf := by rw [ep]; linarith
  refine ⟨isFinite_add fs fp ov3, ?_⟩
  rw [toRat_add fs fp ov3, ep]
  have b9 := abs_le.1 (rnd_err_add (toRat s + P))
  have b10 : |toRat s + P| / 2 ^ 24 ≤ 6 / 2 ^ 24 := div_le_div_of_nonneg_right p2 (by norm_num)
  have : ((k : ℚ) + σ) / m = k / m + σ / m := by ring
  rw [this, abs_le]
  have : (1 : ℚ) / 2 ^ 24 + 1 / 2 ^ 60 + (2 / 2 ^ 24 + 1 / 2 ^ 60) + (1 / 2 ^ 24 + 1 / 2 ^ 60) + (6 / 2 ^ 24 + 1 / 2 ^ 60) ≤ 1 / 2 ^ 20 := by norm_num
  constructor <;> linarith

/-- `ofInt n ± 1` is exact. -/
theorem ofInt_exact {n : ℕ} (h : n ≤ 2 ^ 24) :
    (ofInt n).isFinite = true ∧ toRat (ofInt n) = n := by
  have hn24 : |(n : ℤ)| ≤ 2 ^ 24 := by rw [abs_of_nonneg (by omega)]; omega
  exact ⟨isFinite_ofInt hn24, by rw [toRat_ofInt hn24]; push_cast; rfl⟩

theorem succ_exact {n : ℕ} (h : n < 2 ^ 24) :
    (add (ofInt n) one).isFinite = true ∧ toRat (add (ofInt n) one) = (n + 1 : ℕ) := by
  obtain ⟨f, e⟩ := ofInt_exact h.le
  have e1 : toRat one = 1 := Verif.toRat_one
  have hr : F32.Repr ((n + 1 : ℤ) : ℚ) := Repr.ofInt (by rw [abs_of_nonneg (by omega)]; omega)
  have e2 : toRat (ofInt n) + toRat one = ((n + 1 : ℤ) : ℚ) := by rw [e, e1]; push_cast; rfl
  have ov : |toRat (ofInt n) + toRat one| < ovf := by rw [e2]; exact hr.lt_ovf
  exact ⟨isFinite_add f rfl ov, by rw [toRat_add f rfl ov, e2, hr.rnd_eq]; push_cast; rfl⟩

theorem pred_exact {n : ℕ} (h1 : 1 ≤ n) (h : n < 2 ^ 24) :
    (sub (ofInt n) one).isFinite = true ∧ toRat (sub (ofInt n) one) = (n - 1 : ℕ) := by
  obtain ⟨f, e⟩ := ofInt_exact h.le
  have e1 : toRat one = 1 := Verif.toRat_one
  have hr : F32.Repr ((n - 1 : ℤ) : ℚ) := Repr.ofInt (by rw [abs_of_nonneg (by omega)]; omega)
  have e2 : toRat (ofInt n) - toRat one = ((n - 1 : ℤ) : ℚ) := by rw [e, e1]; push_cast; rfl
  have ov : |toRat (ofInt n) - toRat one| < ovf := by rw [e2]; exact hr.lt_ovf
  exact ⟨isFinite_sub f rfl ov, by
    rw [toRat_sub f rfl ov, e2, hr.rnd_eq, Nat.cast_sub h1]; push_cast; rfl⟩

/-- C29. A valid step function with `n < 2^24` steps is 0 before 0 and 1 from 1 on. In between, `x`
lies on a step `k` of the `n` steps of equal width, up to a rounding error of `2^-23` in its left
boundary, and the value is the height of that step up to a rounding error of `2^-20`.

Missing for the full property: step counts from `2^24` on, which binary32 cannot represent exactly, and
exactness of the values (see `C29_steps_counterexample`). -/
theorem C29_steps_partial (tabulate : CubicBezier → List F32) {n : ℕ} {pos : StepPosition}
    (h : (Fn.steps n pos).valid = true) (hn : n < 2 ^ 24) {x : F32} (hx : x.isNaN = false) :
    ∃ y, (setUp tabulate (.steps n pos)).getY x = some y ∧
      (lt x zero = true → y = zero) ∧ (le one x = true → y = one) ∧
      (le zero x = true → lt x one = true → y.isFinite = true ∧
        ∃ k < n, (k : ℚ) / n - 1 / 2 ^ 23 ≤ toRat x ∧ toRat x < (k + 1) / n ∧
          |toRat y - stepHeight n k pos.kind| ≤ 1 / 2 ^ 20) := by
  have hn1 : 1 ≤ n := by
    simp only [Fn.valid, Bool.and_eq_true, Bool.not_eq_true', decide_eq_false_iff_not] at h
    have := h.2; omega
  have hnone : pos = .jumpNone → 2 ≤ n := by
    intro hp; subst hp
    simp only [Fn.valid, Bool.and_eq_true, Bool.not_eq_true', decide_true, Bool.true_and,
      decide_eq_false_iff_not] at h
    have := h.1; omega
  obtain ⟨M, s, hset⟩ : ∃ M s, setUp tabulate (.steps n pos) = .steps (ofInt n) (div one M) s ∧
      ((M = ofInt n ∧ s = zero ∧ pos = .jumpEnd) ∨ (M = ofInt n ∧ s = div one M ∧ pos = .jumpStart) ∨
       (M = sub (ofInt n) one ∧ s = zero ∧ pos = .jumpNone) ∨
       (M = add (ofInt n) one ∧ s = div one M ∧ pos = .jumpBoth)) := by
    cases pos
    · exact ⟨_, _, rfl, Or.inl ⟨rfl, rfl, rfl⟩⟩
    all_goals first
      | exact ⟨_, _, rfl, Or.inl ⟨rfl, rfl, rfl⟩⟩
      | exact ⟨_, _, rfl, Or.inr (Or.inl ⟨rfl, rfl, rfl⟩)⟩
      | exact ⟨_, _, rfl, Or.inr (Or.inr (Or.inl ⟨rfl, rfl, rfl⟩))⟩
      | exact ⟨_, _, rfl, Or.inr (Or.inr (Or.inr ⟨rfl, rfl, rfl⟩))⟩
  obtain ⟨hset, hc⟩ := hset
  refine ⟨stepsY (ofInt n) (div one M) s x, by rw [hset]; rfl, ?_, ?_, ?_⟩
  · intro h0; unfold stepsY; rw [if_pos h0]
  · intro h1
    have k1 := (le_key h1).2.2
    have : lt x zero = false := by
      rw [lt_key_false hx rfl, key_zero]
      have : key one = 0x3F800000 := by decide +kernel
      have h2 : key RectF.one = 0x3F800000 := by decide +kernel
      omega
    unfold stepsY
    rw [if_neg (by rw [this]; simp), if_pos (show le one x = true from h1)]
  · intro h0 h1
    have k0 := (le_key h0).2.2
    have k1 := (lt_key hx (b := one) rfl).1 h1
    have hf : x.isFinite = true := isFinite_of_between (a := zero) (c := one) rfl rfl h0
      (le_of_key hx rfl k1.le)
    have q0 : 0 ≤ toRat x := by have := (le_iff rfl hf).1 h0; rwa [toRat_zero] at this
    have q1 : toRat x < 1 := by
      have := (lt_iff hf (b := one) rfl).1 h1; rwa [show toRat one = 1 from Verif.toRat_one] at this
    obtain ⟨fm, k, hk, hfl, hl, hg⟩ := floor_mul hn1 hn hf q0 q1
    have fK := isFinite_ffloor fm
    have eK : toRat (ffloor (mul (ofInt n) x)) = k := by rw [toRat_ffloor fm, hfl]; push_cast; rfl
    have hy : stepsY (ofInt n) (div one M) s x
        = add s (mul (div one M) (ffloor (mul (ofInt n) x))) := by
      have g0 : lt x zero = false := (lt_key_false hx rfl).2 k0
      have g1 : le one x = false := by
        rw [← Bool.not_eq_true]; intro hh; have := (le_key hh).2.2; omega
      unfold stepsY
      rw [if_neg (by rw [g0]; simp), if_neg (by show ¬ le one x = true; rw [g1]; simp)]
    rw [hy]
    have key : (add s (mul (div one M) (ffloor (mul (ofInt n) x)))).isFinite = true ∧
        |toRat (add s (mul (div one M) (ffloor (mul (ofInt n) x)))) - stepHeight n k pos.kind|
          ≤ 1 / 2 ^ 20 := by
      rcases hc with ⟨rfl, rfl, rfl⟩ | ⟨rfl, rfl, rfl⟩ | ⟨rfl, rfl, rfl⟩ | ⟨rfl, rfl, rfl⟩
      · obtain ⟨f, e⟩ := ofInt_exact hn.le
        have := step_value hn1 hn.le hk.le f e fK eK (Or.inl ⟨rfl, rfl⟩)
        simpa [stepHeight, StepPosition.kind] using this
      · obtain ⟨f, e⟩ := ofInt_exact hn.le
        have := step_value hn1 hn.le hk.le f e fK eK (Or.inr ⟨rfl, rfl⟩)
        simpa [stepHeight, StepPosition.kind] using this
      · have h2 := hnone rfl
        obtain ⟨f, e⟩ := pred_exact hn1 hn
        have := step_value (m := n - 1) (by omega) (by omega) (by omega : k ≤ n - 1) f e fK eK
          (Or.inl ⟨rfl, rfl⟩)
        rw [Nat.cast_sub hn1] at this
        simpa [stepHeight, StepPosition.kind] using this
      · obtain ⟨f, e⟩ := succ_exact hn
        have := step_value (m := n + 1) (by omega) (by omega) (by omega : k ≤ n + 1) f e fK eK
          (Or.inr ⟨rfl, rfl⟩)
        push_cast at this
        simpa [stepHeight, StepPosition.kind] using this
    exact ⟨key.1, k, hk, by linarith, hl, key.2⟩

/-- The hypotheses are met by four steps with a jump at each end. -/
example : (Fn.steps (4 : ℕ) .jumpBoth).valid = true := by decide

/-- 1 - 2^-24, the largest number below 1. -/
def belowOne : F32 := .fin false 0x3F7FFFFF (by decide)

/-- C29, the missing part: with seven steps and the jump at the start, the value just before 1 is more
than 1, so that the function is not exactly the documented one and is not monotone. -/
theorem C29_steps_counterexample (tabulate : CubicBezier → List F32) :
    (Fn.steps (7 : ℕ) .jumpStart).valid = true ∧ lt belowOne one = true ∧
    ∃ y y1, (setUp tabulate (.steps (7 : ℕ) .jumpStart)).getY belowOne = some y ∧
      (setUp tabulate (.steps (7 : ℕ) .jumpStart)).getY one = some y1 ∧ lt y1 y = true := by
  refine ⟨by decide, by decide +kernel, stepsY (ofInt 7) (div one (ofInt 7)) (div one (ofInt 7)) belowOne,
    stepsY (ofInt 7) (div one (ofInt 7)) (div one (ofInt 7)) one, rfl, rfl, by decide +kernel⟩

/-! ## Cubic Béziers -/

theorem mul_comm' (a b : F32) : mul a b = mul b a := by
  cases a <;> cases b <;> simp only [F32.mul]
  all_goals first
    | rfl
    | (rename_i s t; cases s <;> cases t <;> rfl)
    | (rename_i s n h t; cases s <;> cases t <;> rfl)
    | (rename_i s t n h; cases s <;> cases t <;> rfl)
    | (rename_i s n h t m h'; rw [_root_.mul_comm, Bool.xor_comm])

/-- C29. Evaluating a cubic Bézier never reads outside its table of 14 values. It gives the first
value up to 0 and the last one from 1 on. In between, `x` lies in one of the 13 intervals of equal width,
up to a rounding error of `2^-23` in its left boundary, and the value is the linear interpolation
of the two table values at its ends. -/
theorem C29_bezier_in_bounds {table : List F32} (h : table.length = tableSize) {x : F32}
    (hx : x.isNaN = false) :
    ∃ y, (Impl.bezier table).getY x = some y ∧ (le x zero = true → table.head? = some y) ∧
      (le one x = true → table.getLast? = some y) ∧
      (lt zero x = true → lt x one = true →
        ∃ k : ℕ, k < 13 ∧ (k : ℚ) / 13 - 1 / 2 ^ 23 ≤ toRat x ∧ toRat x < (k + 1) / 13 ∧
          ∃ a b, table[k]? = some a ∧ table[k + 1]? = some b ∧
            y = add a (mul (sub b a) (sub (mul x (ofInt 13)) (ofInt k)))) := by
  have hl14 : table.length = 14 := h
  show ∃ y, bezierY table x = some y ∧ _
  unfold bezierY
  rw [if_neg (by rw [hx]; simp)]
  have kone : key one = 0x3F800000 := by decide +kernel
  by_cases h0 : le x zero = true
  · rw [if_pos h0]
    have hk := (le_key h0).2.2
    rw [key_zero] at hk
    refine ⟨table[0], by rw [List.getElem?_eq_getElem], ?_, ?_, ?_⟩
    · intro _; rw [List.head?_eq_getElem?, List.getElem?_eq_getElem]
    · intro h1; have := (le_key h1).2.2; omega
    · intro h1; have := (lt_key (a := zero) rfl hx).1 h1; rw [key_zero] at this; omega
  rw [if_neg h0]
  by_cases h1 : ge x one = true
  · rw [if_pos h1]
    refine ⟨table[13], by rw [List.getElem?_eq_getElem]; rfl, fun h => absurd h h0, ?_, ?_⟩
    · intro _
      have e : table.length - 1 = 13 := by omega
      rw [List.getLast?_eq_getElem?, e, List.getElem?_eq_getElem]
    · intro _ h2
      have := (lt_key (b := one) hx rfl).1 h2
      have := (le_key (a := one) h1).2.2
      omega
  rw [if_neg h1]
  have k0 : 0 < key x := by
    by_contra hcon; exact h0 (le_of_key hx rfl (by rw [key_zero]; omega))
  have k1 : key x < key one := by
    by_contra hcon; exact h1 (le_of_key (a := one) rfl hx (by omega))
  have hf : x.isFinite = true := isFinite_of_between (a := zero) (c := one) rfl rfl
    (le_of_key rfl hx (by rw [key_zero]; omega)) (le_of_key hx rfl k1.le)
  have q0 : 0 ≤ toRat x := by
    have := (le_iff (a := zero) rfl hf).1 (le_of_key rfl hx (by rw [key_zero]; omega))
    rwa [toRat_zero] at this
  have q1 : toRat x < 1 := by
    have := (lt_iff hf (b := one) rfl).1 ((lt_key hx rfl).2 k1)
    rwa [show toRat one = 1 from Verif.toRat_one] at this
  obtain ⟨-, k, hk, hfl, hl, hg⟩ := floor_mul (n := 13) (by norm_num) (by norm_num) hf q0 q1
  have hcomm : mul x (ofInt (tableSize - 1)) = mul (ofInt (13 : ℕ)) x := mul_comm' _ _
  have hcomm' : mul x (ofInt 13) = mul (ofInt (13 : ℕ)) x := mul_comm' _ _
  simp only [hcomm, hcomm']
  have hix : (toRat (mul (ofInt (13 : ℕ)) x)).floor.toNat = k := by
    show (⌊toRat (mul (ofInt (13 : ℕ)) x)⌋).toNat = k
    rw [hfl]; rfl
  rw [hix, List.getElem?_eq_getElem (by omega), List.getElem?_eq_getElem (by omega)]
  refine ⟨_, rfl, fun h => absurd h h0, fun h => absurd h h1, fun _ _ => ⟨k, hk, ?_, ?_, table[k],
    table[k + 1], List.getElem?_eq_getElem (by omega), List.getElem?_eq_getElem (by omega), rfl⟩⟩
  · push_cast at hg; linarith
  · push_cast at hl; exact hl

/-- The hypotheses are met: a table of 14 values at 0.5. -/
example : (List.replicate 14 quarter).length = tableSize ∧ RectF.half.isNaN = false ∧
    (Impl.bezier (List.replicate 14 quarter)).getY RectF.half = some quarter := by decide +kernel

/-! ## Predefined functions -/

/-- C29. The predefined functions that are not Béziers: `linear` is the identity, `stepEnd` jumps from
0 to 1 at 1, `stepStart` jumps from 0 to 1 at 0. -/
theorem C29_predefined (tabulate : CubicBezier → List F32) {x : F32} (hx : x.isNaN = false) :
    (setUp tabulate (.predefined .linear)).getY x = some x ∧
    (∃ y, (setUp tabulate (.predefined .stepEnd)).getY x = some y ∧
      feq y (if le one x then one else zero) = true) ∧
    (∃ y, (setUp tabulate (.predefined .stepStart)).getY x = some y ∧
      feq y (if le zero x then one else zero) = true) := by
  have kone : key one = 0x3F800000 := by decide +kernel
  have hd : div one (ofInt 1) = one := by decide +kernel
  have hn1 : ofInt 1 = one := by decide +kernel
  have hz : feq zero zero = true := by decide +kernel
  have ho : feq one one = true := by decide +kernel
  -- the value between 0 and 1
  have mid : le zero x = true → le one x = false → ∀ s : F32, s.isFinite = true →
      feq (add s (mul one (ffloor (mul one x)))) s = true := by
    intro h0 h1 s hs
    have k0 := (le_key h0).2.2
    have k1 : key x < key one := by
      by_contra hcon
      have : le one x = true := le_of_key (a := one) rfl hx (by omega)
      rw [h1] at this; cases this
    have hf : x.isFinite = true := isFinite_of_between (a := zero) (c := one) rfl rfl h0
      (le_of_key hx rfl k1.le)
    have q0 : 0 ≤ toRat x := by have := (le_iff rfl hf).1 h0; rwa [toRat_zero] at this
    have q1 : toRat x < 1 := by
      have := (lt_iff hf (b := one) rfl).1 ((lt_key hx rfl).2 k1)
      rwa [show toRat one = 1 from Verif.toRat_one] at this
    obtain ⟨fm, k, hk, hfl, -, -⟩ := floor_mul (n := 1) (by norm_num) (by norm_num) hf q0 q1
    have hk0 : k = 0 := by omega
    subst hk0
    have hm : mul (ofInt (1 : ℕ)) x = mul one x := by rw [← hn1]; rfl
    rw [hm] at fm hfl
    have fK := isFinite_ffloor fm
    have eK : toRat (ffloor (mul one x)) = 0 := by rw [toRat_ffloor fm, hfl]; norm_num
    have o1 : |toRat one * toRat (ffloor (mul one x))| < ovf := by
      rw [eK, mul_zero, abs_zero]; unfold ovf; norm_num
    have fP := isFinite_mul (a := one) rfl fK o1
    have eP : toRat (mul one (ffloor (mul one x))) = 0 := by
      rw [toRat_mul (a := one) rfl fK o1, eK, mul_zero, F32.rnd_zero]
    have o2 : |toRat s + toRat (mul one (ffloor (mul one x)))| < ovf := by
      rw [eP, add_zero]; exact (Repr.toRat s).lt_ovf
    rw [feq_iff (isFinite_add hs fP o2) hs, toRat_add hs fP o2, eP, add_zero, rnd_toRat]
  refine ⟨rfl, ⟨stepsY (ofInt 1) (div one (ofInt 1)) zero x, rfl, ?_⟩,
    ⟨stepsY (ofInt 1) (div one (ofInt 1)) (div one (ofInt 1)) x, rfl, ?_⟩⟩
  all_goals
    rw [hd, hn1]
    unfold stepsY
    by_cases h0 : lt x zero = true
    · rw [if_pos h0]
      have hk := (lt_key hx (b := zero) rfl).1 h0
      rw [key_zero] at hk
      have h1 : ¬ le one x = true := by intro hh; have := (le_key hh).2.2; omega
      have h2 : ¬ le zero x = true := by
        intro hh; have := (le_key hh).2.2; rw [key_zero] at this; omega
      first
        | rw [if_neg h1]; exact hz
        | rw [if_neg h2]; exact hz
    · have hk : le zero x = true := by
        rw [Bool.not_eq_true, lt_key_false hx rfl] at h0
        exact le_of_key rfl hx h0
      rw [if_neg h0]
      by_cases h1 : le one x = true
      · rw [if_pos (show ge x one = true from h1)]
        first
          | rw [if_pos h1]; exact ho
          | rw [if_pos hk]; exact ho
      · rw [if_neg (show ¬ ge x one = true from h1)]
        first
          | rw [if_neg h1]; exact mid hk (by simpa using h1) _ rfl
          | rw [if_pos hk]; exact mid hk (by simpa using h1) _ rfl

end Verif.Easing
