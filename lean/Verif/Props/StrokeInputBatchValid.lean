import Verif.Props.StrokeInputBatch
import Mathlib.Data.List.Chain

/-!
# Property C03: what every reachable `StrokeInputBatch` guarantees
-/

set_option autoImplicit false

namespace Verif.Batch

open Verif F32 Spec

/-- `a` and `b` have the same format and `b` is not earlier. -/
def NotBefore (a b : Input) : Prop := SameFormat a b ∧ a.time.toRat ≤ b.time.toRat

/-- Everything `ValidInput` says except that the position is finite. -/
def ValidButPosition (x : Input) : Prop := ValidInput { x with x := F32.zero, y := F32.zero }

theorem ValidButPosition.of {x : Input} (h : ValidInput x) : ValidButPosition x :=
  ⟨h.1, ⟨rfl, rfl⟩, h.2.2⟩

/-- A kind of validity that is closed under the edits. -/
structure Kind (V : Input → Prop) (K : Input → Input → Prop) : Prop where
  ofValid : ∀ {x}, ValidInput x → V x
  weak : ∀ {x}, V x → ValidButPosition x
  unit : ∀ {x : Input} {u : F32}, u.isFinite = true → 0 ≤ u.toRat → V x →
    V { x with unitLength := u }
  ofFollows : ∀ {a b}, V a → V b → Follows a b → K a b
  same : ∀ {a b}, K a b → SameFormat a b
  units : ∀ {a b : Input} {u u' : F32}, F32.feq u u' → K a b →
    K { a with unitLength := u } { b with unitLength := u' }

def Seq (V : Input → Prop) (K : Input → Input → Prop) (l : List Input) : Prop :=
  (∀ x ∈ l, V x) ∧ l.IsChain K

theorem Seq.nil {V K} : Seq V K [] := ⟨by simp, by simp⟩

theorem sameFormat_units {a b : Input} {u u' : F32} (h : F32.feq u u') (h' : SameFormat a b) :
    SameFormat { a with unitLength := u } { b with unitLength := u' } :=
  ⟨h'.1, h, h'.2.2⟩

theorem kind_strong : Kind ValidInput Follows where
  ofValid h := h
  weak h := ValidButPosition.of h
  unit h1 h2 h := ⟨h.1, h.2.1, h.2.2.1, ⟨h1, h2⟩, h.2.2.2.2⟩
  ofFollows _ _ h := h
  same h := h.1
  units h h' := ⟨sameFormat_units h h'.1, h'.2.1, h'.2.2⟩

theorem notBefore_of {a b : Input} (ha : ValidButPosition a) (hb : ValidButPosition b)
    (h : Follows a b) : NotBefore a b := by
  refine ⟨h.1, ?_⟩
  have := h.2.2
  rw [lt_iff hb.2.2.1.1 ha.2.2.1.1] at this
  exact not_lt.1 this

theorem kind_mid : Kind ValidInput NotBefore where
  ofValid h := h
  weak h := ValidButPosition.of h
  unit h1 h2 h := ⟨h.1, h.2.1, h.2.2.1, ⟨h1, h2⟩, h.2.2.2.2⟩
  ofFollows ha hb h := notBefore_of (.of ha) (.of hb) h
  same h := h.1
  units h h' := ⟨sameFormat_units h h'.1, h'.2⟩

theorem kind_weak : Kind ValidButPosition NotBefore where
  ofValid h := .of h
  weak h := h
  unit h1 h2 h := ⟨h.1, h.2.1, h.2.2.1, ⟨h1, h2⟩, h.2.2.2.2⟩
  ofFollows ha hb h := notBefore_of ha hb h
  same h := h.1
  units h h' := ⟨sameFormat_units h h'.1, h'.2⟩

theorem Seq.ofValid {V K} (hk : Kind V K) {l : List Input} (h : ValidSeq l) : Seq V K l := by
  refine ⟨fun x hx => hk.ofValid (h.1 x hx), ?_⟩
  have := h.2
  rw [List.isChain_iff_getElem] at this ⊢
  exact fun i hi => hk.ofFollows (hk.ofValid (h.1 _ (List.getElem_mem _)))
    (hk.ofValid (h.1 _ (List.getElem_mem _))) (this i hi)

theorem Seq.sameHead {V K} (hk : Kind V K) {a : Input} {t : List Input} (h : Seq V K (a :: t)) :
    ∀ x ∈ a :: t, SameFormat a x := by
  obtain ⟨hv, hc⟩ := h
  have key : ∀ {t : List Input} {a : Input}, (a :: t).IsChain K → ∀ x ∈ t, SameFormat a x := by
    intro t
    induction t with
    | nil => simp
    | cons b t ih =>
      intro a h x hx
      rw [List.isChain_cons_cons] at h
      rcases List.mem_cons.1 hx with rfl | hx
      · exact hk.same h.1
      · exact (hk.same h.1).trans (ih h.2 x hx)
  intro x hx
  rcases List.mem_cons.1 hx with rfl | hx
  · have := sameFormat_refl (hk.weak (hv x (by simp)))
    exact ⟨rfl, this.2.1, Iff.rfl, Iff.rfl, Iff.rfl⟩
  · exact key hc x hx

theorem unit_ok {V K} (hk : Kind V K) {a : Input} (h : V a) :
    a.unitLength.isFinite = true ∧ 0 ≤ a.unitLength.toRat := (hk.weak h).2.2.2.1

theorem Seq.conformed {V K} (hk : Kind V K) {l : List Input} {L : List Input} {a : Input}
    {t : List Input} (hL : L = a :: t) (ha : V a) (h : Seq V K l) :
    Seq V K (l.map (conform L)) := by
  subst hL
  refine ⟨?_, ?_⟩
  · intro x hx
    obtain ⟨y, hy, rfl⟩ := List.mem_map.1 hx
    exact hk.unit (unit_ok hk ha).1 (unit_ok hk ha).2 (h.1 y hy)
  · exact List.isChain_map_of_isChain _
      (fun p q hpq => hk.units (feq_refl (isNaN_of_isFinite (unit_ok hk ha).1)) hpq) h.2

theorem Seq.joined {V K} (hk : Kind V K) {l xs : List Input} (hl : Seq V K l) (hx : Seq V K xs)
    (hf : ∀ a ∈ l.getLast?, ∀ b ∈ xs.head?, Follows a b) : Seq V K (joined l xs) := by
  unfold Spec.joined
  cases l with
  | nil =>
    cases xs with
    | nil => exact Seq.nil
    | cons b t => exact Seq.conformed hk rfl (hx.1 b (by simp)) hx
  | cons a t =>
    have hs := hl.sameHead hk
    have ha := hl.1 a (by simp)
    have hc := Seq.conformed hk (L := a :: t ++ xs) rfl ha hx
    refine ⟨?_, ?_⟩
    · intro x hx'
      rcases List.mem_append.1 hx' with h | h
      · exact hl.1 x h
      · exact hc.1 x h
    · rw [List.isChain_append]
      refine ⟨hl.2, hc.2, ?_⟩
      intro p hp q hq
      rw [List.head?_map] at hq
      cases xs with
      | nil => simp at hq
      | cons b s =>
        simp only [List.head?_cons, Option.map_some, Option.mem_def, Option.some.injEq] at hq
        subst hq
        have hpm : p ∈ a :: t := List.mem_of_getLast? hp
        have hfo := hf p hp b (by simp)
        have h1 := hk.ofFollows (hl.1 p hpm) (hx.1 b (by simp)) hfo
        have hsp := (hs p hpm).2.1
        have : F32.feq p.unitLength a.unitLength = true := by
          unfold F32.feq at hsp ⊢
          simp only [Bool.and_eq_true, Bool.not_eq_true', decide_eq_true_eq] at hsp ⊢
          exact ⟨⟨hsp.1.2, hsp.1.1⟩, hsp.2.symm⟩
        exact hk.units (a := p) (b := b) (u := p.unitLength) this h1

theorem Seq.set {V K} (hk : Kind V K) {l : List Input} {i : Nat} {x : Input} (hl : Seq V K l)
    (hi : i < l.length) (hc : CanSet l i x) :
    Seq V K (l.set i (if l.length = 1 then x else conform l x)) := by
  obtain ⟨hx, hc⟩ := hc
  split_ifs with h1
  · obtain ⟨a, rfl⟩ := List.length_eq_one_iff.1 h1
    have : i = 0 := by simpa using hi
    subst this
    exact ⟨by simpa using hk.ofValid hx, by simp⟩
  · rcases hc with h | ⟨hp, hn⟩
    · exact absurd h h1
    obtain ⟨a, t, rfl⟩ : ∃ a t, l = a :: t := by
      cases l with
      | nil => simp at hi
      | cons a t => exact ⟨a, t, rfl⟩
    generalize hL : a :: t = L at *
    have hs : ∀ y ∈ L, SameFormat a y := by subst hL; exact hl.sameHead hk
    have ha : V a := hl.1 a (by simp [← hL])
    have hxV := hk.ofValid hx
    have hu := unit_ok hk ha
    have hcx : conform L x = { x with unitLength := a.unitLength } := by rw [← hL]; rfl
    have hle : ∀ y ∈ L, F32.feq y.unitLength a.unitLength = true := by
      intro y hy
      have hsp := (hs y hy).2.1
      unfold F32.feq at hsp ⊢
      simp only [Bool.and_eq_true, Bool.not_eq_true', decide_eq_true_eq] at hsp ⊢
      exact ⟨⟨hsp.1.2, hsp.1.1⟩, hsp.2.symm⟩
    rw [hcx]
    refine ⟨?_, ?_⟩
    · intro y hy
      rcases List.mem_or_eq_of_mem_set hy with h | h
      · exact hl.1 y h
      · subst h; exact hk.unit hu.1 hu.2 hxV
    · have hch := hl.2
      rw [List.isChain_iff_getElem] at hch ⊢
      intro j hj
      simp only [List.length_set] at hj
      simp only [List.getElem_set]
      by_cases hij : i = j
      · subst hij
        rw [if_pos rfl, if_neg (by omega)]
        have hm : L[i + 1] ∈ L := List.getElem_mem _
        have h2 := hk.ofFollows hxV (hl.1 _ hm) (hn _ (List.getElem?_eq_getElem hj))
        exact hk.units (a := x) (b := L[i + 1]) (u' := L[i + 1].unitLength) (hs _ hm).2.1 h2
      · rw [if_neg hij]
        by_cases hij' : i = j + 1
        · subst hij'
          rw [if_pos rfl]
          have hm : L[j] ∈ L := List.getElem_mem _
          have h2 := hk.ofFollows (hl.1 _ hm) hxV
            (hp _ (by omega) (by simp))
          exact hk.units (a := L[j]) (b := x) (u := L[j].unitLength) (hle _ hm) h2
        · rw [if_neg hij']
          exact hch j hj

/-- All batches of a state satisfy `P`. -/
def All (P : List Input → Prop) (s : State) : Prop := ∀ l, some l ∈ s → P l

theorem All.set {P} {s : State} (h : All P s) (v : Nat) {c : Option (List Input)}
    (hc : ∀ l, c = some l → P l) : All P (s.set v c) := by
  intro l hl
  rcases List.mem_or_eq_of_mem_set hl with h' | h'
  · exact h l h'
  · exact hc l h'.symm

theorem All.push {P} {s : State} (h : All P s) {c : Option (List Input)}
    (hc : ∀ l, c = some l → P l) : All P (s ++ [c]) := by
  intro l hl
  rcases List.mem_append.1 hl with h' | h'
  · exact h l h'
  · exact hc l (by simpa [eq_comm] using h')

theorem mem_of_join {s : State} {v : Nat} {l : List Input} (h : (s[v]?).join = some l) :
    some l ∈ s := by
  cases hs : s[v]? with
  | none => rw [hs] at h; simp at h
  | some c =>
    rw [hs] at h
    have : c = some l := by simpa using h
    subst this
    exact List.mem_of_getElem? hs

theorem step_all {V K} (hk : Kind V K) {s s' : State} {op : Op} {b : Bool} (hs : All (Seq V K) s)
    (herase : ∀ v i k, op = .erase v i k → ∀ l, Seq V K l → (s[v]?).join = some l →
      Seq V K (l.take i ++ l.drop (i + k)))
    (htr : ∀ v t, op = .transform v t → ∀ l, Seq V K l → Seq V K (l.map (moved t)))
    (h : Spec.step s op = some (b, s')) : All (Seq V K) s' := by
  cases op with
  | new =>
    simp only [Spec.step, Option.some.injEq, Prod.mk.injEq] at h
    obtain ⟨rfl, rfl⟩ := h
    exact hs.push (by rintro l ⟨⟩; exact Seq.nil)
  | create xs =>
    simp only [Spec.step] at h
    split_ifs at h with hv
    · simp only [Option.some.injEq, Prod.mk.injEq] at h
      obtain ⟨rfl, rfl⟩ := h
      refine hs.push ?_
      rintro l ⟨⟩
      exact Seq.joined hk Seq.nil (Seq.ofValid hk hv) (by simp)
    · simp only [Option.some.injEq, Prod.mk.injEq] at h
      obtain ⟨rfl, rfl⟩ := h
      exact hs
  | copy u =>
    simp only [Spec.step, Option.map_eq_some_iff, Prod.mk.injEq] at h
    obtain ⟨c, hc, rfl, rfl⟩ := h
    exact hs.push (by rintro l rfl; exact hs l (List.mem_of_getElem? hc))
  | move u =>
    simp only [Spec.step, Option.map_eq_some_iff, Prod.mk.injEq] at h
    obtain ⟨c, hc, rfl, rfl⟩ := h
    have hcl : ∀ l, c = some l → Seq V K l := by
      rintro l rfl; exact hs l (List.mem_of_getElem? hc)
    refine (hs.set u ?_).push hcl
    intro l hl
    split_ifs at hl
    exact hcl l hl
  | copyAssign v u =>
    simp only [Spec.step] at h
    split_ifs at h with hv
    simp only [Option.map_eq_some_iff, Prod.mk.injEq] at h
    obtain ⟨c, hc, rfl, rfl⟩ := h
    exact hs.set v (by rintro l rfl; exact hs l (List.mem_of_getElem? hc))
  | moveAssign v u =>
    simp only [Spec.step] at h
    by_cases hv : v < s.length
    swap
    · rw [if_neg hv] at h; cases h
    rw [if_pos hv] at h
    simp only [Option.map_eq_some_iff, Prod.mk.injEq] at h
    obtain ⟨c, hc, rfl, rfl⟩ := h
    have hcl : ∀ l, c = some l → Seq V K l := by
      rintro l rfl; exact hs l (List.mem_of_getElem? hc)
    by_cases hvu : v = u
    · rw [if_pos hvu]; exact hs
    · rw [if_neg hvu]
      refine (hs.set v hcl).set u ?_
      intro l hl
      split_ifs at hl
      exact hcl l hl
  | deepCopy u =>
    simp only [Spec.step, Option.map_eq_some_iff, Prod.mk.injEq] at h
    obtain ⟨c, hc, rfl, rfl⟩ := h
    exact hs.push (by rintro l rfl; exact hs l (List.mem_of_getElem? hc))
  | clear v =>
    simp only [Spec.step] at h
    split_ifs at h with hv
    simp only [Option.some.injEq, Prod.mk.injEq] at h
    obtain ⟨rfl, rfl⟩ := h
    exact hs.set v (by rintro l ⟨⟩; exact Seq.nil)
  | set v k x =>
    simp only [Spec.step, Option.bind_eq_some_iff] at h
    obtain ⟨l, hl, h⟩ := h
    have hsl := hs l (mem_of_join hl)
    by_cases hkl : k < l.length
    swap
    · rw [if_neg hkl] at h; cases h
    rw [if_pos hkl] at h
    by_cases hcan : Spec.CanSet l k x
    · rw [if_pos hcan] at h
      simp only [Option.some.injEq, Prod.mk.injEq] at h
      obtain ⟨rfl, rfl⟩ := h
      refine hs.set v ?_
      rintro l' ⟨⟩
      exact hsl.set hk hkl hcan
    · rw [if_neg hcan] at h
      simp only [Option.some.injEq, Prod.mk.injEq] at h
      obtain ⟨rfl, rfl⟩ := h
      exact hs
  | append v x =>
    simp only [Spec.step, Option.map_eq_some_iff] at h
    obtain ⟨l, hl, h⟩ := h
    have hsl := hs l (mem_of_join hl)
    split_ifs at h with hcan <;> simp only [Prod.mk.injEq] at h <;> obtain ⟨rfl, rfl⟩ := h
    · refine hs.set v ?_
      rintro l' ⟨⟩
      exact Seq.joined hk hsl (Seq.ofValid hk hcan.1) hcan.2
    · exact hs
  | appendSpan v xs =>
    simp only [Spec.step, Option.map_eq_some_iff] at h
    obtain ⟨l, hl, h⟩ := h
    have hsl := hs l (mem_of_join hl)
    split_ifs at h with hcan <;> simp only [Prod.mk.injEq] at h <;> obtain ⟨rfl, rfl⟩ := h
    · refine hs.set v ?_
      rintro l' ⟨⟩
      exact Seq.joined hk hsl (Seq.ofValid hk hcan.1) hcan.2
    · exact hs
  | appendBatch v u =>
    simp only [Spec.step, Option.bind_eq_some_iff] at h
    obtain ⟨l, hl, xs, hx, h⟩ := h
    have hsl := hs l (mem_of_join hl)
    have hsx := hs xs (mem_of_join hx)
    by_cases hx0 : xs = []
    · rw [if_pos hx0] at h
      simp only [Option.some.injEq, Prod.mk.injEq] at h
      obtain ⟨rfl, rfl⟩ := h
      exact hs
    rw [if_neg hx0] at h
    by_cases hl0 : l = []
    · rw [if_pos hl0] at h
      simp only [Option.some.injEq, Prod.mk.injEq] at h
      obtain ⟨rfl, rfl⟩ := h
      exact hs.set v (by rintro l' ⟨⟩; exact hsx)
    rw [if_neg hl0] at h
    split_ifs at h with hf hvu <;> simp only [Option.some.injEq, Prod.mk.injEq] at h <;>
      obtain ⟨rfl, rfl⟩ := h
    · exact hs.set v (by rintro l' ⟨⟩; exact Seq.joined hk hsl hsx hf)
    · exact hs
  | erase v i k =>
    simp only [Spec.step, Option.bind_eq_some_iff] at h
    obtain ⟨l, hl, h⟩ := h
    split_ifs at h with hi
    simp only [Option.some.injEq, Prod.mk.injEq] at h
    obtain ⟨rfl, rfl⟩ := h
    exact hs.set v (by
      rintro l' ⟨⟩; exact herase v i k rfl l (hs l (mem_of_join hl)) hl)
  | transform v t =>
    simp only [Spec.step, Option.map_eq_some_iff, Prod.mk.injEq] at h
    obtain ⟨l, hl, rfl, rfl⟩ := h
    exact hs.set v (by rintro l' ⟨⟩; exact htr v t rfl l (hs l (mem_of_join hl)))

theorem notBefore_pairwise {l : List Input} (h : l.IsChain NotBefore) : l.Pairwise NotBefore := by
  let _ : Trans NotBefore NotBefore NotBefore :=
    ⟨fun h h' => ⟨h.1.trans h'.1, h.2.trans h'.2⟩⟩
  exact List.isChain_iff_pairwise.1 h

theorem seq_erase {V} {l : List Input} {i k : Nat} (h : Seq V NotBefore l) :
    Seq V NotBefore (l.take i ++ l.drop (i + k)) := by
  have hsub : (l.take i ++ l.drop (i + k)).Sublist l := by
    conv_rhs => rw [← List.take_append_drop i l]
    refine List.Sublist.append (List.Sublist.refl _) ?_
    rw [← List.drop_drop]
    exact List.drop_sublist _ _
  exact ⟨fun x hx => h.1 x (hsub.subset hx),
    ((notBefore_pairwise h.2).sublist hsub).isChain⟩

theorem seq_transform {l : List Input} {t : Affine} (h : Seq ValidButPosition NotBefore l) :
    Seq ValidButPosition NotBefore (l.map (moved t)) := by
  refine ⟨?_, List.isChain_map_of_isChain (moved t) (fun a b hab => hab) h.2⟩
  intro x hx
  obtain ⟨y, hy, rfl⟩ := List.mem_map.1 hx
  exact h.1 y hy

/-- Run a history keeping an invariant of all batches. -/
theorem run_all {P : List Input → Prop} {ok : State → Op → Prop}
    (hstep : ∀ {s op b s'}, All P s → ok s op → Spec.step s op = some (b, s') → All P s') :
    ∀ {ops : List Op} {s s' : State} {bs}, All P s →
      (∀ pre op post bs1 s1, ops = pre ++ op :: post → Spec.run s pre = some (bs1, s1) → ok s1 op) →
      Spec.run s ops = some (bs, s') → All P s' := by
  intro ops
  induction ops with
  | nil =>
    intro s s' bs hs _ h
    simp only [Spec.run, Option.some.injEq, Prod.mk.injEq] at h
    obtain ⟨rfl, rfl⟩ := h
    exact hs
  | cons op ops ih =>
    intro s s' bs hs hok h
    simp only [Spec.run, Option.bind_eq_bind, Option.bind_eq_some_iff, Option.some.injEq,
      Prod.mk.injEq, Prod.exists] at h
    obtain ⟨b, s1, h1, bs1, s2, h2, rfl, rfl⟩ := h
    have hs1 := hstep hs (hok [] op ops [] s rfl rfl) h1
    refine ih hs1 ?_ h2
    intro pre op' post bs' s' he hr
    refine hok (op :: pre) op' post (b :: bs') s' (by rw [he]; rfl) ?_
    simp [Spec.run, h1, hr]

theorem contents_mem {w : World} {v : Nat} (hv : v < w.n) {l} (h : contents w v = some l) :
    some l ∈ observe w := by
  rw [← h]
  exact List.mem_of_getElem? (observe_getElem? hv)

theorem all_empty {P} : All P ([] : State) := by intro l hl; simp at hl

/-- **C03, all histories.** After any history of calls that respects the contracts, including `Erase`
and `Transform`, every batch has one format, non-decreasing times, and inputs that satisfy every
documented rule except that `Transform` may have made the position non-finite. -/
theorem C03_all_histories_partial {ops : List Op} {bs : List Bool} {S : State}
    (h : Spec.run [] ops = some (bs, S)) :
    ∃ w, run World.init ops = some (bs, w) ∧ ∀ v < w.n, ∀ l, contents w v = some l →
      (∀ x ∈ l, ValidInput { x with x := F32.zero, y := F32.zero }) ∧
      l.Pairwise fun a b => SameFormat a b ∧ a.time.toRat ≤ b.time.toRat := by
  obtain ⟨w, e, _, o⟩ := C01_history_refines_lists h
  have hall : All (Seq ValidButPosition NotBefore) S :=
    run_all (ok := fun _ _ => True) (fun hs _ h => step_all kind_weak hs
      (fun _ _ _ _ _ hl _ => seq_erase hl) (fun _ _ _ _ hl => seq_transform hl) h)
      all_empty (fun _ _ _ _ _ _ _ => trivial) h
  refine ⟨w, e, fun v hv l hl => ?_⟩
  have := hall l (o ▸ contents_mem hv hl)
  exact ⟨this.1, notBefore_pairwise this.2⟩

/-- **C03, histories without `Transform`.** Every input satisfies every documented rule. -/
theorem C03_no_transform_partial {ops : List Op} {bs : List Bool} {S : State}
    (h : Spec.run [] ops = some (bs, S)) (hnt : ∀ v t, Op.transform v t ∉ ops) :
    ∃ w, run World.init ops = some (bs, w) ∧ ∀ v < w.n, ∀ l, contents w v = some l →
      (∀ x ∈ l, ValidInput x) ∧
      l.Pairwise fun a b => SameFormat a b ∧ a.time.toRat ≤ b.time.toRat := by
  obtain ⟨w, e, _, o⟩ := C01_history_refines_lists h
  have hall : All (Seq ValidInput NotBefore) S :=
    run_all (ok := fun _ op => ∀ v t, op ≠ .transform v t) (fun hs hok h => step_all kind_mid hs
      (fun _ _ _ _ _ hl _ => seq_erase hl) (fun v t ht => absurd ht (hok v t)) h)
      all_empty (fun pre op post _ _ he _ v t ht => hnt v t (by rw [he, ← ht]; simp)) h
  refine ⟨w, e, fun v hv l hl => ?_⟩
  have := hall l (o ▸ contents_mem hv hl)
  exact ⟨this.1, notBefore_pairwise this.2⟩

/-- An `Erase` that removes the front or the back of the batch it is applied to. -/
def ErasesEnd (s : State) : Op → Prop
  | .erase v i k => i = 0 ∨ ∀ l, (s[v]?).join = some l → l.length ≤ i + k
  | .transform _ _ => False
  | _ => True

/-- **C03, histories without `Transform` in which `Erase` only removes a prefix or a suffix.** Every
batch is a valid sequence: all documented rules hold, including the one that neighbours differ in
position or time. -/
theorem C03_valid_sequence_partial {ops : List Op} {bs : List Bool} {S : State}
    (h : Spec.run [] ops = some (bs, S))
    (hok : ∀ pre op post bs1 s1, ops = pre ++ op :: post → Spec.run [] pre = some (bs1, s1) →
      ErasesEnd s1 op) :
    ∃ w, run World.init ops = some (bs, w) ∧ ∀ v < w.n, ∀ l, contents w v = some l →
      ValidSeq l := by
  obtain ⟨w, e, _, o⟩ := C01_history_refines_lists h
  have hall : All (Seq ValidInput Follows) S :=
    run_all (ok := ErasesEnd) (fun {s op b s'} hs hok h => step_all kind_strong hs
      (by
        rintro v i k rfl l hl hlk
        rcases hok with rfl | hle
        · rw [List.take_zero, List.nil_append, Nat.zero_add]
          exact ⟨fun x hx => hl.1 x (List.mem_of_mem_drop hx), hl.2.drop _⟩
        · rw [List.drop_eq_nil_of_le (hle l hlk), List.append_nil]
          exact ⟨fun x hx => hl.1 x (List.mem_of_mem_take hx), hl.2.take _⟩)
      (by rintro v t rfl; exact absurd hok id) h)
      all_empty hok h
  exact ⟨w, e, fun v hv l hl => hall l (o ▸ contents_mem hv hl)⟩

/-- **C03 for one call**: `Create` and every kind of `Append` and `Set` on valid sequences give valid
sequences. -/
theorem C03_edits_keep_valid_sequence {w w' : World} {op : Op} {b : Bool} {S' : State} (hI : Inv w)
    (hs : Spec.step (observe w) op = some (b, S')) (h : step w op = some (b, w'))
    (hop : ErasesEnd (observe w) op)
    (hv : ∀ v < w.n, ∀ l, contents w v = some l → ValidSeq l) :
    ∀ v < w'.n, ∀ l, contents w' v = some l → ValidSeq l := by
  obtain ⟨w1, e, _, o⟩ := C01_call_refines_list hI hs
  rw [h] at e; cases e
  have hall : All (Seq ValidInput Follows) (observe w) := by
    intro l hl
    obtain ⟨v, hv', he⟩ := List.mem_map.1 hl
    exact hv v (List.mem_range.1 hv') l he
  have := step_all kind_strong hall
      (by
        rintro v i k rfl l hl hlk
        rcases hop with rfl | hle
        · rw [List.take_zero, List.nil_append, Nat.zero_add]
          exact ⟨fun x hx => hl.1 x (List.mem_of_mem_drop hx), hl.2.drop _⟩
        · rw [List.drop_eq_nil_of_le (hle l hlk), List.append_nil]
          exact ⟨fun x hx => hl.1 x (List.mem_of_mem_take hx), hl.2.take _⟩)
      (by rintro v t rfl; exact absurd hop id) hs
  intro v hv l hl
  exact this l (o ▸ contents_mem hv hl)

/-! ### Counterexamples: what the documented rules do not guarantee -/

/-- A default input, and one that differs in position. -/
def exA : Input := {}
def exB : Input := { x := kOne }
def exC : Input := { x := kOne, time := kOne }

/-- The header says a batch never holds repeated x-y-t triplets. `Erase` of the middle of a valid
batch makes two equal neighbours. -/
theorem C03_erase_makes_duplicates_counterexample :
    (run World.init [.create [exA, exB, exA], .erase 0 1 1]).map
      (fun r => (r.1, contents r.2 0)) = some ([true, true], some [exA, exA]) ∧
    ¬ ValidSeq [exA, exA] := by
  refine ⟨by decide +kernel, ?_⟩
  intro h
  have := h.2
  simp only [List.isChain_cons_cons] at this
  exact this.1.2.1 (by unfold SameTriplet; decide +kernel)

/-- `Append` of a non-adjacent duplicate is accepted: only neighbours are compared. -/
theorem C03_nonadjacent_duplicates_counterexample :
    (run World.init [.create [exA, exB, exA]]).map
      (fun r => (r.1, contents r.2 0)) = some ([true], some [exA, exB, exA]) := by
  decide +kernel

/-- `Transform` does not check its result: a position can become infinite. -/
theorem C03_transform_overflow_counterexample :
    (run World.init [.create [exB],
      .transform 0 ⟨F32.maxFinite, F32.zero, F32.maxFinite, F32.zero, F32.zero, F32.zero⟩]).map
      (fun r => (r.1, (contents r.2 0).map (List.map fun i => i.x.isFinite))) =
    some ([true, true], some [false]) := by
  decide +kernel

/-- The header says orientation is in `[0, 2π)`; the full turn itself is accepted. -/
theorem C03_orientation_full_turn_counterexample :
    (run World.init [.create [{ orientation := kFullTurn }]]).map
      (fun r => (r.1, contents r.2 0)) =
    some ([true], some [{ orientation := kFullTurn }]) := by
  decide +kernel

/-! ### The hypotheses are met -/

theorem exAB_valid : ValidSeq [exA, exB] := by
  rw [← validateInputSequence_iff]; decide +kernel

theorem exC_valid : CanAppend (joined [] [exA, exB]) [exC] := by
  refine ⟨by rw [← validateInputSequence_iff]; decide +kernel, ?_⟩
  intro a ha b hb
  have ha' : a = exB := by
    have : (joined [] [exA, exB]).getLast? = some exB := by decide +kernel
    rw [this] at ha; simpa [eq_comm] using ha
  have hb' : b = exC := by simpa [eq_comm] using hb
  subst ha' hb'
  rw [← validateConsecutive_iff]; decide +kernel

/-- A history with three calls that all succeed, covered by the theorems above. -/
theorem example_history : Spec.run [] [.create [exA, exB], .append 0 exC, .copy 0, .erase 1 1 5] =
    some ([true, true, true, true], [some [exA, exB, exC], some [exA]]) := by
  have hj : joined [] [exA, exB] = [exA, exB] := rfl
  have hj' : joined [exA, exB] [exC] = [exA, exB, exC] := rfl
  have hc := exC_valid
  rw [hj] at hc
  simp [Spec.run, Spec.step, exAB_valid, hj, hc, hj']

example : ∃ w, run World.init [.create [exA, exB], .append 0 exC, .copy 0, .erase 1 1 5] =
    some ([true, true, true, true], w) ∧ Inv w ∧
      observe w = [some [exA, exB, exC], some [exA]] :=
  C01_history_refines_lists example_history

/-- A rejected edit: `exA` may not follow `exC`, which is later. -/
example : (run World.init [.create [exC], .append 0 exA]).map (fun r => (r.1, contents r.2 0)) =
    some ([true, false], some [exC]) := by decide +kernel

/-- Appending a batch to itself, when the check of the neighbours passes, is undefined behaviour
in `vector::insert`: here the batch holds one input and times are equal, positions differ. -/
example : (run World.init [.create [exB, exA], .appendBatch 0 0]).isNone = true := by
  decide +kernel

/-- After a copy, both objects share their vector; editing one leaves the other alone. -/
example : (run World.init [.create [exA, exB], .copy 0, .append 1 exC, .clear 0]).map
    (fun r => (contents r.2 0, contents r.2 1)) =
    some (some [], some [exA, exB, exC]) := by decide +kernel

end Verif.Batch
