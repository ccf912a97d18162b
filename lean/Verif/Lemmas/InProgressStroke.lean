import Verif.Spec.InProgressStroke
import Verif.Lemmas.StrokeInputBatch
import Mathlib.Data.List.Chain

/-! # Lemmas for `InProgressStroke` -/

set_option autoImplicit false

namespace Verif.InProgress

open Verif Verif.Batch Verif.InProgress.Spec Verif.Batch.Spec

theorem feq_symm {a b : F32} (h : F32.feq a b = true) : F32.feq b a = true := by
  unfold F32.feq at *
  simp only [Bool.and_eq_true, Bool.not_eq_true', decide_eq_true_eq] at *
  exact ⟨⟨h.1.2, h.1.1⟩, h.2.symm⟩

theorem feq_trans {a b c : F32} (h : F32.feq a b = true) (h' : F32.feq b c = true) :
    F32.feq a c = true := by
  unfold F32.feq at *
  simp only [Bool.and_eq_true, Bool.not_eq_true', decide_eq_true_eq] at *
  exact ⟨⟨h.1.1, h'.1.2⟩, h.2.trans h'.2⟩

theorem feq_nonzero {a b : F32} (h : F32.feq a b = true) (h0 : F32.feq a F32.zero = false) :
    a = b := by
  unfold F32.feq at h h0
  simp only [Bool.and_eq_true, Bool.not_eq_true', decide_eq_true_eq] at h
  obtain ⟨⟨ha, hb⟩, hk⟩ := h
  have hz : F32.zero.isNaN = false := rfl
  rw [ha, hz] at h0
  simp only [Bool.not_false, Bool.true_and, decide_eq_false_iff_not] at h0
  have hkz : F32.key F32.zero = 0 := rfl
  rw [hkz] at h0
  cases a with
  | nan => simp [F32.isNaN] at ha
  | inf s =>
    cases b with
    | nan => simp [F32.isNaN] at hb
    | inf t =>
      cases s <;> cases t <;> simp [F32.key, infPat] at hk ⊢
    | fin t n hn =>
      have hn' : n < 2139095040 := hn
      have hi : (infPat : Int) = 2139095040 := rfl
      cases s <;> cases t <;> simp [F32.key, hi] at hk <;> omega
  | fin s m hm =>
    have hm' : m < 2139095040 := hm
    cases b with
    | nan => simp [F32.isNaN] at hb
    | inf t =>
      have hi : (infPat : Int) = 2139095040 := rfl
      cases s <;> cases t <;> simp [F32.key, hi] at hk <;> omega
    | fin t n hn =>
      cases s <;> cases t <;> simp [F32.key] at hk h0 ⊢ <;> omega

/-- Same up to the sign of a zero unit length. -/
def Eqv (a b : Input) : Prop := canon a = canon b

theorem canon_unit {x : Input} {u : F32} (h : F32.feq u x.unitLength = true) :
    canon { x with unitLength := u } = canon x := by
  unfold canon
  by_cases h0 : F32.feq x.unitLength F32.zero = true
  · rw [if_pos h0, if_pos (feq_trans h h0)]
  · have h0' : F32.feq x.unitLength F32.zero = false := by simpa using h0
    have := feq_nonzero (feq_symm h) h0'
    subst this; rfl

theorem Eqv.fields {a b : Input} (h : Eqv a b) :
    a.tool = b.tool ∧ a.x = b.x ∧ a.y = b.y ∧ a.time = b.time ∧ a.pressure = b.pressure ∧
    a.tilt = b.tilt ∧ a.orientation = b.orientation ∧
    (a.unitLength = b.unitLength ∨
      F32.feq a.unitLength F32.zero = true ∧ F32.feq b.unitLength F32.zero = true) := by
  unfold Eqv canon at h
  obtain ⟨t, x, y, ti, u, p, tl, o⟩ := a
  obtain ⟨t', x', y', ti', u', p', tl', o'⟩ := b
  split_ifs at h with h1 h2 h2 <;> simp only [Input.mk.injEq] at h <;>
    obtain ⟨rfl, rfl, rfl, rfl, e, rfl, rfl, rfl⟩ := h
  · exact ⟨rfl, rfl, rfl, rfl, rfl, rfl, rfl, Or.inr ⟨h1, h2⟩⟩
  · exact absurd (by rw [← e]; rfl) h2
  · exact absurd (by rw [e]; rfl) h1
  · exact ⟨rfl, rfl, rfl, rfl, rfl, rfl, rfl, Or.inl e⟩

theorem feq_congr {u u' v : F32}
    (h : u = u' ∨ F32.feq u F32.zero = true ∧ F32.feq u' F32.zero = true) :
    F32.feq u v = F32.feq u' v ∧ F32.feq v u = F32.feq v u' := by
  rcases h with rfl | ⟨h1, h2⟩
  · exact ⟨rfl, rfl⟩
  · have e := feq_trans h1 (feq_symm h2)
    constructor
    · rw [Bool.eq_iff_iff]
      exact ⟨fun h => feq_trans (feq_symm e) h, fun h => feq_trans e h⟩
    · rw [Bool.eq_iff_iff]
      exact ⟨fun h => feq_trans h e, fun h => feq_trans h (feq_symm e)⟩

theorem Eqv.sameFormat {a a' b b' : Input} (h : Eqv a a') (h' : Eqv b b') :
    SameFormat a b ↔ SameFormat a' b' := by
  obtain ⟨e1, -, -, -, e5, e6, e7, e8⟩ := h.fields
  obtain ⟨g1, -, -, -, g5, g6, g7, g8⟩ := h'.fields
  unfold SameFormat
  rw [e1, e5, e6, e7, g1, g5, g6, g7, (feq_congr e8).1, (feq_congr g8).2]

theorem Eqv.follows {a a' b b' : Input} (h : Eqv a a') (h' : Eqv b b') :
    Follows a b ↔ Follows a' b' := by
  obtain ⟨-, e2, e3, e4, -⟩ := h.fields
  obtain ⟨-, g2, g3, g4, -⟩ := h'.fields
  unfold Follows SameTriplet
  rw [h.sameFormat h', e2, e3, e4, g2, g3, g4]

theorem Eqv.validate {a a' b b' : Input} (h : Eqv a a') (h' : Eqv b b') :
    validateConsecutiveInputs a b = validateConsecutiveInputs a' b' := by
  rw [Bool.eq_iff_iff, validateConsecutive_iff, validateConsecutive_iff, h.follows h']

/-- Lists that agree up to the sign of zero unit lengths. -/
def LEqv (l L : List Input) : Prop := l.map canon = L.map canon

theorem LEqv.refl (l : List Input) : LEqv l l := rfl

theorem LEqv.length {l L : List Input} (h : LEqv l L) : l.length = L.length := by
  simpa using congrArg List.length h

theorem LEqv.nil_iff {l L : List Input} (h : LEqv l L) : l = [] ↔ L = [] := by
  rw [← List.length_eq_zero_iff, ← List.length_eq_zero_iff, h.length]

theorem LEqv.append {l L x X : List Input} (h : LEqv l L) (h' : LEqv x X) :
    LEqv (l ++ x) (L ++ X) := by
  unfold LEqv at *; rw [List.map_append, List.map_append, h, h']

theorem LEqv.getElem? {l L : List Input} (h : LEqv l L) {i : Nat} {x : Input} (hx : L[i]? = some x) :
    ∃ y, l[i]? = some y ∧ Eqv y x := by
  have := congrArg (fun m : List Input => m[i]?) h
  simp only [List.getElem?_map, hx, Option.map_some] at this
  rw [Option.map_eq_some_iff] at this
  exact this

theorem LEqv.symm {l L : List Input} (h : LEqv l L) : LEqv L l := Eq.symm h

theorem LEqv.head? {l L : List Input} (h : LEqv l L) {x : Input} (hx : x ∈ L.head?) :
    ∃ y ∈ l.head?, Eqv y x := by
  rw [List.head?_eq_getElem?] at *
  exact h.getElem? hx

theorem LEqv.getLast? {l L : List Input} (h : LEqv l L) {x : Input} (hx : x ∈ L.getLast?) :
    ∃ y ∈ l.getLast?, Eqv y x := by
  rw [List.getLast?_eq_getElem?] at *
  rw [h.length]
  exact h.getElem? hx

theorem Spec.Uniform.of_eqv {l L : List Input} (h : LEqv l L) (hu : Uniform L) : Uniform l := by
  intro x hx y hy
  obtain ⟨i, hi⟩ := List.mem_iff_getElem?.1 hx
  obtain ⟨j, hj⟩ := List.mem_iff_getElem?.1 hy
  obtain ⟨x', hx', ex⟩ := h.symm.getElem? hi
  obtain ⟨y', hy', ey⟩ := h.symm.getElem? hj
  exact (Eqv.sameFormat ex ey).1 (hu x' (List.mem_of_getElem? hx') y' (List.mem_of_getElem? hy'))

theorem Spec.Uniform.append_left {l x : List Input} (h : Uniform (l ++ x)) : Uniform l :=
  fun a ha b hb => h a (List.mem_append_left _ ha) b (List.mem_append_left _ hb)

theorem Spec.Uniform.append_right {l x : List Input} (h : Uniform (l ++ x)) : Uniform x :=
  fun a ha b hb => h a (List.mem_append_right _ ha) b (List.mem_append_right _ hb)

theorem sameFormat_symm {a b : Input} (h : SameFormat a b) : SameFormat b a :=
  ⟨h.1.symm, feq_symm h.2.1, h.2.2.1.symm, h.2.2.2.1.symm, h.2.2.2.2.symm⟩

theorem Spec.Uniform.append {l x : List Input} (hl : Uniform l) (hx : Uniform x) (hj : JoinOk l x) :
    Uniform (l ++ x) := by
  by_cases hl0 : l = []
  · subst hl0; simpa using hx
  by_cases hx0 : x = []
  · subst hx0; simpa using hl
  obtain ⟨a, ha⟩ : ∃ a, l.getLast? = some a :=
    ⟨_, List.getLast?_eq_some_getLast hl0⟩
  obtain ⟨b, hb⟩ : ∃ b, x.head? = some b := ⟨_, List.head?_eq_some_head hx0⟩
  have hf := (hj a ha b hb).1
  have ham := List.mem_of_getLast? ha
  have hbm := List.mem_of_head? hb
  have cross : ∀ p ∈ l, ∀ q ∈ x, SameFormat p q := fun p hp q hq =>
    ((hl p hp a ham).trans hf).trans (hx b hbm q hq)
  intro p hp q hq
  rcases List.mem_append.1 hp with hp | hp <;> rcases List.mem_append.1 hq with hq | hq
  · exact hl p hp q hq
  · exact cross p hp q hq
  · exact sameFormat_symm (cross q hq p hp)
  · exact hx p hp q hq

theorem joined_eqv {l x : List Input} (hu : Uniform (l ++ x)) : LEqv (joined l x) (l ++ x) := by
  unfold joined
  refine LEqv.append (LEqv.refl l) ?_
  unfold LEqv
  rw [List.map_map]
  apply List.map_congr_left
  intro y hy
  simp only [Function.comp]
  cases hL : l ++ x with
  | nil => rfl
  | cons a t =>
    exact canon_unit (hu a (by rw [hL]; simp) y (List.mem_append_right _ hy)).2.1

theorem appendBatch_ok {l L x X : List Input} (hl : LEqv l L) (hx : LEqv x X)
    (hj : JoinOk L X) (hu : Uniform (L ++ X)) :
    ∃ r, appendBatch l x = some r ∧ LEqv r (L ++ X) := by
  have hlx := hl.append hx
  have hu' := Uniform.of_eqv hlx hu
  unfold appendBatch
  cases hh : x.head? with
  | none =>
    have : x = [] := by simpa using hh
    have hX : X = [] := hx.nil_iff.1 this
    subst this hX
    exact ⟨l, rfl, by simpa using hl⟩
  | some b =>
    cases hla : l.getLast? with
    | none =>
      have : l = [] := by simpa using hla
      have hL : L = [] := hl.nil_iff.1 this
      subst this hL
      exact ⟨x, rfl, by simpa using hx⟩
    | some a =>
      obtain ⟨a', ha', ea⟩ := hl.symm.getLast? hla
      obtain ⟨b', hb', eb⟩ := hx.symm.head? hh
      have hv : validateConsecutiveInputs a b = true := by
        rw [validateConsecutive_iff, ← Eqv.follows ea eb]
        exact hj a' ha' b' hb'
      exact ⟨joined l x, by simp [hv], Eq.trans (joined_eqv hu') hlx⟩

/-- The model state represents the abstract state. -/
structure Rel {B : Type} (coats : B → Nat) (s : State B) (σ : Spec.State B) : Prop where
  brush : s.brush = σ.brush
  finished : s.finished = σ.finished
  time : s.time = σ.time
  count : s.realCount = σ.real.length
  queuedReal : LEqv s.queuedReal σ.waitingReal
  queuedPred : LEqv s.queuedPred σ.waitingPred
  processed : LEqv s.processed (σ.real ++ σ.pred)
  builders : coatCount coats s ≤ s.builders.length
  uniform : Uniform (σ.real ++ σ.waitingReal ++ σ.waitingPred)
  join1 : JoinOk σ.real σ.waitingReal
  join2 : JoinOk (σ.real ++ σ.waitingReal) σ.waitingPred

theorem joinOk_nil_left (x : List Input) : JoinOk [] x := by intro a ha; simp at ha
theorem joinOk_nil_right (x : List Input) : JoinOk x [] := by intro a _ b hb; simp at hb
theorem uniform_nil : Uniform [] := by intro a ha; simp at ha

theorem getLast?_append_ne {l x : List Input} (hx : x ≠ []) : (l ++ x).getLast? = x.getLast? := by
  rw [List.getLast?_append]
  cases h : x.getLast? with
  | none => simp at h; exact absurd h hx
  | some a => rfl

theorem head?_append_ne {l x : List Input} (hl : l ≠ []) : (l ++ x).head? = l.head? := by
  cases l with
  | nil => exact absurd rfl hl
  | cons a t => rfl

theorem joinOk_append_right {l r p : List Input} (h : JoinOk l (r ++ p)) : JoinOk l r := by
  by_cases hr : r = []
  · subst hr; exact joinOk_nil_right l
  · intro a ha b hb
    exact h a ha b (by rw [head?_append_ne hr]; exact hb)

open Classical in
/-- `ValidateNewInputs` decides the documented requirement. -/
theorem validateNewInputs_eq {B : Type} {coats : B → Nat} {s : State B} {σ : Spec.State B}
    (h : Rel coats s σ) (R P : List Input) :
    validateNewInputs s R P = some (decide (Continues σ R P)) := by
  unfold validateNewInputs
  by_cases h0 : R = [] ∧ P = []
  · obtain ⟨rfl, rfl⟩ := h0
    have : Continues σ [] [] := ⟨joinOk_nil_right _, joinOk_nil_right _⟩
    simp [this]
  have hne : R ++ P ≠ [] := by simpa using h0
  have e0 : (R.isEmpty && P.isEmpty) = false := by
    rw [Bool.and_eq_false_iff]
    by_contra hc
    simp at hc
    exact h0 hc
  rw [e0]
  simp only [Bool.false_eq_true, if_false]
  -- the first new input
  obtain ⟨f, hf⟩ : ∃ f, (R ++ P).head? = some f := ⟨_, List.head?_eq_some_head hne⟩
  have hfirst : (if R.isEmpty then P[0]? else R[0]?) = some f := by
    cases R with
    | nil => simpa [List.head?_eq_getElem?] using hf
    | cons r t => simpa using hf
  have hold : checkOldNew s R P = some (decide (JoinOk (σ.real ++ σ.waitingReal) (R ++ P))) := by
    unfold checkOldNew
    rw [hfirst]
    by_cases hq : σ.waitingReal = []
    · have hq' : s.queuedReal = [] := h.queuedReal.nil_iff.2 hq
      rw [hq', hq]
      by_cases hr : σ.real = []
      · have : s.realCount = 0 := by rw [h.count, hr]; rfl
        have hj : JoinOk σ.real (R ++ P) := by rw [hr]; exact joinOk_nil_left _
        simp [this, hj]
      · have hc : s.realCount ≠ 0 := by rw [h.count]; simpa using hr
        obtain ⟨a, ha⟩ : ∃ a, σ.real.getLast? = some a := ⟨_, List.getLast?_eq_some_getLast hr⟩
        have hg : (σ.real ++ σ.pred)[s.realCount - 1]? = some a := by
          rw [h.count, List.getElem?_append_left (by
            have := List.length_pos_iff.2 hr; omega), ← List.getLast?_eq_getElem?]
          exact ha
        obtain ⟨y, hy, ey⟩ := h.processed.getElem? hg
        have : JoinOk (σ.real ++ []) (R ++ P) ↔ Follows a f := by
          rw [List.append_nil]
          constructor
          · intro hj; exact hj a ha f hf
          · intro hfl a' ha' b' hb'
            rw [Option.mem_def, ha] at ha'; rw [Option.mem_def, hf] at hb'
            cases ha'; cases hb'; exact hfl
        simp only [List.isEmpty_nil, Bool.not_true, hc, ne_eq, not_false_eq_true, decide_true,
          Bool.or_true, if_true, hy, Option.bind_some]
        congr 1
        rw [Bool.eq_iff_iff, validateConsecutive_iff, ey.follows (rfl : Eqv f f), decide_eq_true_eq,
          this]
    · have hq' : s.queuedReal ≠ [] := fun hc => hq (h.queuedReal.nil_iff.1 hc)
      have hqe : s.queuedReal.isEmpty = false := by simpa using hq'
      obtain ⟨a, ha⟩ : ∃ a, σ.waitingReal.getLast? = some a := ⟨_, List.getLast?_eq_some_getLast hq⟩
      obtain ⟨y, hy, ey⟩ := h.queuedReal.getLast? ha
      rw [Option.mem_def, List.getLast?_eq_getElem?] at hy
      have : JoinOk (σ.real ++ σ.waitingReal) (R ++ P) ↔ Follows a f := by
        unfold JoinOk
        rw [getLast?_append_ne hq]
        constructor
        · intro hj; exact hj a ha f hf
        · intro hfl a' ha' b' hb'
          rw [Option.mem_def, ha] at ha'; rw [Option.mem_def, hf] at hb'
          cases ha'; cases hb'; exact hfl
      simp only [hqe, Bool.not_false, Bool.true_or, if_true, Bool.false_eq_true, if_false, hy,
        Option.bind_some]
      congr 1
      rw [Bool.eq_iff_iff, validateConsecutive_iff, ey.follows (rfl : Eqv f f), decide_eq_true_eq,
        this]
  have hrp : checkRealPred R P = some (decide (JoinOk R P)) := by
    unfold checkRealPred
    by_cases hR : R = []
    · subst hR; simp [joinOk_nil_left]
    by_cases hP : P = []
    · subst hP; simp [joinOk_nil_right]
    obtain ⟨a, ha⟩ : ∃ a, R.getLast? = some a := ⟨_, List.getLast?_eq_some_getLast hR⟩
    obtain ⟨b, hb⟩ : ∃ b, P.head? = some b := ⟨_, List.head?_eq_some_head hP⟩
    have ha' : R[R.length - 1]? = some a := by rw [← List.getLast?_eq_getElem?]; exact ha
    have hb' : P[0]? = some b := by rw [← List.head?_eq_getElem?]; exact hb
    have : JoinOk R P ↔ Follows a b := by
      constructor
      · intro hj; exact hj a ha b hb
      · intro hfl a' hx b' hy
        rw [Option.mem_def, ha] at hx; rw [Option.mem_def, hb] at hy
        cases hx; cases hy; exact hfl
    have e1 : R.isEmpty = false := by simpa using hR
    have e2 : P.isEmpty = false := by simpa using hP
    simp only [e1, e2, Bool.not_false, Bool.and_self, if_true, ha', hb', Option.bind_some]
    congr 1
    rw [Bool.eq_iff_iff, validateConsecutive_iff, decide_eq_true_eq, this]
  rw [hold, hrp]
  simp only [Option.bind_some]
  unfold Continues
  by_cases hj : JoinOk (σ.real ++ σ.waitingReal) (R ++ P) <;> simp [hj]

theorem startBuilders_length {B : Type} (b : B) (k : Nat) (bs : List (Builder B)) :
    (startBuilders b k bs).length = bs.length := by simp [startBuilders]

theorem extendBuilders_length {B : Type} (k : Nat) (e : Extend) (bs : List (Builder B)) :
    (extendBuilders k e bs).length = bs.length := by simp [extendBuilders]

theorem rel_init {B : Type} (coats : B → Nat) : Rel coats {} {} :=
  ⟨rfl, rfl, rfl, rfl, rfl, rfl, rfl, Nat.le_refl _, uniform_nil, joinOk_nil_left _,
    joinOk_nil_left _⟩

/-- One call keeps the relation, and returns the specified status. -/
theorem step_rel {B : Type} {coats : B → Nat} {s : State B} {σ : Spec.State B} {op : Op B}
    (h : Rel coats s σ) (hop : OpOk op) :
    ∃ s', step coats s op = some ((Spec.step σ op).1, s') ∧ Rel coats s' (Spec.step σ op).2 ∧
      ((Spec.step σ op).1 = false → s' = s) := by
  cases op with
  | clear =>
    refine ⟨_, rfl, ?_, by simp [Spec.step]⟩
    exact ⟨rfl, rfl, rfl, rfl, rfl, rfl, rfl, Nat.zero_le _, uniform_nil, joinOk_nil_left _,
      joinOk_nil_left _⟩
  | start b =>
    refine ⟨_, rfl, ?_, by simp [Spec.step]⟩
    refine ⟨?_, ?_, ?_, ?_, ?_, ?_, ?_, ?_, uniform_nil, joinOk_nil_left _, joinOk_nil_left _⟩
    all_goals unfold start clear; simp only []
    all_goals split_ifs <;> first | rfl | skip
    · simp [coatCount, startBuilders_length]; omega
    · simp [coatCount, startBuilders_length]; omega
  | finish =>
    refine ⟨_, rfl, ?_, by simp [Spec.step]⟩
    have hu := h.uniform.append_left
    exact ⟨h.brush, rfl, h.time, h.count, h.queuedReal, rfl, h.processed, h.builders,
      by simpa [Spec.step] using hu, h.join1, joinOk_nil_right _⟩
  | enqueue R P =>
    obtain ⟨hR, hP⟩ := hop
    simp only [step, enqueueInputs]
    by_cases hb : σ.brush.isSome
    swap
    · have hb' : s.brush.isNone = true := by rw [h.brush]; simpa using hb
      refine ⟨s, ?_, ?_, fun _ => rfl⟩ <;> simp [Spec.step, hb, hb', h]
    have hb' : s.brush.isNone = false := by
      rw [h.brush]
      cases hh : σ.brush with
      | none => rw [hh] at hb; simp at hb
      | some _ => rfl
    by_cases hf : σ.finished = false
    swap
    · have hf' : s.finished = true := by rw [h.finished]; simpa using hf
      refine ⟨s, ?_, ?_, fun _ => rfl⟩ <;> simp [Spec.step, hf, hb', hf', h]
    have hf' : s.finished = false := by rw [h.finished]; exact hf
    rw [validateNewInputs_eq h]
    by_cases hc : Continues σ R P
    swap
    · refine ⟨s, ?_, ?_, fun _ => rfl⟩ <;> simp [Spec.step, hf, hb', hf', h, hc]
    -- accepted
    have hU := h.uniform.append_left
    have hjR : JoinOk σ.waitingReal R := by
      by_cases hq : σ.waitingReal = []
      · rw [hq]; exact joinOk_nil_left _
      · have := joinOk_append_right hc.1
        unfold JoinOk at this
        rwa [getLast?_append_ne hq] at this
    have hRP : Uniform (R ++ P) := hR.append hP hc.2
    have hall : Uniform ((σ.real ++ σ.waitingReal) ++ (R ++ P)) := hU.append hRP hc.1
    have hq : Uniform (σ.waitingReal ++ R) := hU.append_right.append hR hjR
    obtain ⟨r, hr, er⟩ := appendBatch_ok h.queuedReal (LEqv.refl R) hjR hq
    have hs : Spec.step σ (.enqueue R P) = (true, { σ with
        waitingReal := σ.waitingReal ++ R, waitingPred := P }) := by
      simp only [Spec.step]; rw [if_pos ⟨hb, hf, hc⟩]
    rw [hs]
    refine ⟨{ s with queuedReal := r, queuedPred := P }, ?_, ?_, by simp⟩
    · simp [hb', hf', hc, hr]
    · refine ⟨h.brush, h.finished, h.time, h.count, er, rfl, h.processed, h.builders, ?_, ?_, ?_⟩
      · simpa [List.append_assoc] using hall
      · by_cases hq0 : σ.waitingReal = []
        · have := joinOk_append_right hc.1
          simpa [hq0] using this
        · intro a ha b hb2
          rw [head?_append_ne hq0] at hb2
          exact h.join1 a ha b hb2
      · by_cases hR0 : R = []
        · subst hR0
          simpa using hc.1
        · intro a ha b hb2
          rw [← List.append_assoc, getLast?_append_ne hR0] at ha
          exact hc.2 a ha b hb2
  | update t =>
    simp only [step, updateShape]
    by_cases hb : σ.brush.isSome
    swap
    · have hb' : s.brush.isNone = true := by rw [h.brush]; simpa using hb
      refine ⟨s, ?_, ?_, fun _ => rfl⟩ <;> simp [Spec.step, hb, hb', h]
    have hb' : s.brush.isNone = false := by
      rw [h.brush]
      cases hh : σ.brush with
      | none => rw [hh] at hb; simp at hb
      | some _ => rfl
    have ht : validateNewElapsedTime s t = true ↔ ¬ F32.lt t F32.zero ∧ ¬ F32.lt t σ.time := by
      unfold validateNewElapsedTime
      rw [h.time]
      split_ifs <;> simp_all
    by_cases hv : ¬ F32.lt t F32.zero ∧ ¬ F32.lt t σ.time
    swap
    · have hv' : validateNewElapsedTime s t = false := by
        simpa using mt ht.1 hv
      have hs : Spec.step σ (.update t) = (false, σ) := by
        simp only [Spec.step]; rw [if_neg]; exact fun hc => hv hc.2
      rw [hs]
      exact ⟨s, by simp [hb', hv'], h, fun _ => rfl⟩
    have hv' := ht.2 hv
    -- the erase condition
    have hcond : (s.finished || !s.queuedReal.isEmpty || !s.queuedPred.isEmpty) = true ↔
        (σ.finished ∨ σ.waitingReal ≠ [] ∨ σ.waitingPred ≠ []) := by
      rw [h.finished]
      simp [h.queuedReal.nil_iff, h.queuedPred.nil_iff, or_assoc]
    have hs : Spec.step σ (.update t) = (true, { σ with
        real := σ.real ++ σ.waitingReal,
        pred := if σ.finished ∨ σ.waitingReal ≠ [] ∨ σ.waitingPred ≠ [] then σ.waitingPred
          else σ.pred,
        waitingReal := [], waitingPred := [], time := t }) := by
      simp only [Spec.step]; rw [if_pos ⟨hb, hv⟩]
    rw [hs]
    have hlen : ¬ s.processed.length < s.realCount := by
      rw [h.processed.length, h.count, List.length_append]; omega
    -- the batch after erasing and appending
    have key : ∃ r1 r2 : List Input,
        appendBatch (if (s.finished || !s.queuedReal.isEmpty || !s.queuedPred.isEmpty) = true
          then s.processed.take s.realCount else s.processed) s.queuedReal = some r1 ∧
        appendBatch r1 s.queuedPred = some r2 ∧
        LEqv r2 (σ.real ++ σ.waitingReal ++
          (if σ.finished ∨ σ.waitingReal ≠ [] ∨ σ.waitingPred ≠ [] then σ.waitingPred
            else σ.pred)) := by
      by_cases hcn : σ.finished ∨ σ.waitingReal ≠ [] ∨ σ.waitingPred ≠ []
      · rw [if_pos (hcond.2 hcn), if_pos hcn]
        have e1 : LEqv (s.processed.take s.realCount) σ.real := by
          have := h.processed
          unfold LEqv at *
          rw [List.map_take, this, h.count, List.map_append, List.take_left' (by simp)]
        obtain ⟨r1, a1, q1⟩ := appendBatch_ok e1 h.queuedReal h.join1 h.uniform.append_left
        obtain ⟨r2, a2, q2⟩ := appendBatch_ok q1 h.queuedPred h.join2 h.uniform
        exact ⟨r1, r2, a1, a2, q2⟩
      · rw [if_neg (mt hcond.1 hcn), if_neg hcn]
        push Not at hcn
        obtain ⟨_, hw1, hw2⟩ := hcn
        have q1 : s.queuedReal = [] := h.queuedReal.nil_iff.2 hw1
        have q2 : s.queuedPred = [] := h.queuedPred.nil_iff.2 hw2
        rw [q1, q2, hw1]
        refine ⟨s.processed, s.processed, ?_, ?_, by simpa using h.processed⟩
        · unfold appendBatch; cases s.processed.getLast? <;> rfl
        · unfold appendBatch; cases s.processed.getLast? <;> rfl
    obtain ⟨r1, r2, a1, a2, e⟩ := key
    generalize hc' : (s.finished || !s.queuedReal.isEmpty || !s.queuedPred.isEmpty) = c at *
    refine ⟨{ s with
      processed := r2, realCount := s.realCount + s.queuedReal.length, time := t,
      builders := extendBuilders (coatCount coats s) ⟨s.queuedReal, s.queuedPred, t⟩ s.builders,
      queuedReal := [], queuedPred := [] }, ?_, ?_, by simp⟩
    · have hbl : ¬ s.builders.length < coatCount coats s := Nat.not_lt.2 h.builders
      cases c
      · simp only [Bool.false_eq_true, if_false] at a1
        simp only [hb', hv', Bool.false_and, Bool.false_eq_true, if_false, Bool.not_true, a1, a2]
        rw [if_neg]
        · rfl
        · exact hbl
      · simp only [if_true] at a1
        simp only [hb', hv', Bool.true_and, if_true, Bool.false_eq_true, if_false, Bool.not_true,
          hlen, decide_false, a1, a2]
        rw [if_neg]
        · rfl
        · exact hbl
    · refine ⟨h.brush, h.finished, rfl, ?_, rfl, rfl, e, ?_, ?_, joinOk_nil_right _,
        joinOk_nil_right _⟩
      · simp [h.count, h.queuedReal.length]
      · rw [extendBuilders_length]; exact h.builders
      · simpa using h.uniform.append_left

end Verif.InProgress
