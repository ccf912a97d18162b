import Verif.Spec.PartialOutline
import Mathlib.Data.List.Perm.Basic
import Mathlib.Data.List.Nodup
import Mathlib.Data.List.Sort
import Mathlib.Tactic.Linarith
import Mathlib.Tactic.Ring

/-!
# Lemmas for C75: fans
-/

set_option autoImplicit false

namespace Verif.PartialOutline

open Geo Spec

variable {K : Type} [Field K] [LinearOrder K] [IsStrictOrderedRing K]

theorem not_clockwise_self (side : SideId) (c p : Pt K) : ¬Clockwise side c p p := by
  have : (p.sub c).det (p.sub c) = 0 := by simp only [Pt.det]; ring
  cases side <;> simp [Clockwise, this]

open Classical in
theorem fan_snoc (side : SideId) (c : Pt K) (xs : List (Pt K)) (b f : Pt K) :
    fan side c (xs ++ [b, f]) = if Clockwise side c b f then some (outer side b f) else fan side c (xs ++ [b]) := by
  unfold fan
  simp only [List.reverse_append, List.reverse_cons, List.reverse_nil, List.nil_append, List.cons_append]
  rw [fanLoop]
  by_cases h : b = f
  · rw [if_pos h, h, if_neg (not_clockwise_self _ _ _)]
  rw [if_neg h]
  have key : (if side = SideId.left then (⟨c, f, b⟩ : Triangle K) else ⟨c, b, f⟩).signedArea < 0 ↔ Clockwise side c b f := by
    cases side
    · rw [if_pos rfl]
      simp only [Clockwise, Triangle.signedArea]
      have : (f.sub c).det (b.sub f) = (f.sub c).det (b.sub c) := by simp only [Pt.det, Pt.sub]; ring
      rw [this]
      constructor <;> intro q <;> linarith
    · rw [if_neg (by simp)]
      simp only [Clockwise, Triangle.signedArea]
      have : (b.sub c).det (f.sub b) = (b.sub c).det (f.sub c) := by simp only [Pt.det, Pt.sub]; ring
      rw [this]
      constructor <;> intro q <;> linarith
  dsimp only
  by_cases hc : Clockwise side c b f
  · rw [if_pos hc, if_pos (key.2 hc)]
    cases side <;> simp [outer]
  · rw [if_neg hc, if_neg (fun q => hc (key.1 q))]

theorem fan_nil (side : SideId) (c : Pt K) : fan side c [] = none := rfl

theorem fan_one (side : SideId) (c p : Pt K) : fan side c [p] = none := rfl

/-- A fan in two parts with a common position. -/
theorem fan_split (side : SideId) (c : Pt K) (xs : List (Pt K)) (a : Pt K) (ys : List (Pt K)) :
    fan side c (xs ++ a :: ys) = (fan side c (a :: ys)).or (fan side c (xs ++ [a])) := by
  classical
  induction ys using List.reverseRecOn with
  | nil => rw [fan_one]; rfl
  | append_singleton ys f ih =>
    rcases List.eq_nil_or_concat ys with rfl | ⟨zs, b, rfl⟩
    · have e1 : xs ++ a :: ([] ++ [f]) = xs ++ [a, f] := rfl
      have e2 : a :: ([] ++ [f]) = [] ++ [a, f] := rfl
      rw [e1, e2, fan_snoc, fan_snoc]
      split_ifs
      · rfl
      · rw [List.nil_append, fan_one]; rfl
    · have e1 : xs ++ a :: (zs.concat b ++ [f]) = (xs ++ a :: zs) ++ [b, f] := by simp
      have e2 : a :: (zs.concat b ++ [f]) = (a :: zs) ++ [b, f] := by simp
      have e3 : (xs ++ a :: zs) ++ [b] = xs ++ a :: zs.concat b := by simp
      have e4 : (a :: zs) ++ [b] = a :: zs.concat b := by simp
      rw [e1, e2, fan_snoc, fan_snoc, e3, e4, ih]
      split_ifs <;> rfl

theorem fan_dup (side : SideId) (c : Pt K) (xs : List (Pt K)) (a : Pt K) (ys : List (Pt K)) :
    fan side c (xs ++ a :: a :: ys) = fan side c (xs ++ a :: ys) := by
  classical
  have e : fan side c (xs ++ [a, a]) = fan side c (xs ++ [a]) := by rw [fan_snoc, if_neg (not_clockwise_self _ _ _)]
  have e1 : xs ++ a :: a :: ys = (xs ++ [a]) ++ a :: ys := by simp
  rw [e1, fan_split, fan_split side c xs a ys]
  congr 1
  rw [List.append_assoc]
  exact e

omit [Field K] [LinearOrder K] [IsStrictOrderedRing K] in
theorem take_drop_eq (ps : List (Pt K)) (a : ℕ) : ∀ b, b < ps.length →
    (ps.take (b + 1)).drop a = ((List.range (b + 1)).filter (fun k => decide (a ≤ k))).filterMap (fun k => ps[k]?)
  | b, hb => by
    have base : ∀ m, m ≤ ps.length → (ps.take m).drop a = ((List.range m).filter (fun k => decide (a ≤ k))).filterMap (fun k => ps[k]?) := by
      intro m
      induction m with
      | zero => intro _; simp
      | succ m ih =>
        intro hm
        rw [List.range_succ, List.filter_append, List.filterMap_append, ← ih (by omega), List.take_add_one]
        have hl : (ps.take m).length = m := by rw [List.length_take]; omega
        have hg : ps[m]? = some ps[m] := List.getElem?_eq_getElem (by omega)
        by_cases h : a ≤ m
        · rw [List.drop_append_of_le_length (by omega)]
          simp [h, hg]
        · rw [hg, List.drop_eq_nil_of_le (by rw [List.length_append, hl]; simp; omega), List.drop_eq_nil_of_le (by omega)]
          simp [h]
    exact base (b + 1) hb

/-- Sorted lists with the same members are the same. -/
theorem sorted_ext {l m : List ℕ} (hl : l.Pairwise (· < ·)) (hm : m.Pairwise (· < ·)) (h : ∀ k, k ∈ l ↔ k ∈ m) : l = m := by
  have nl : l.Nodup := hl.imp (fun h => h.ne)
  have nm : m.Nodup := hm.imp (fun h => h.ne)
  exact List.Perm.eq_of_pairwise (fun a b _ _ h1 h2 => absurd (h1.trans h2) (lt_irrefl _)) hl hm ((List.perm_ext_iff_of_nodup nl nm).2 h)

theorem sorted_filter (n : ℕ) (p : ℕ → Bool) : ((List.range n).filter p).Pairwise (· < ·) := List.Pairwise.filter _ List.pairwise_lt_range

/-- The offsets up to `upper` of a range that are not inside of a discontinuity. -/
def sel (upper : ℕ) (ds : List Range) (range : Range) : List ℕ :=
  (List.range (upper + 1)).filter fun k => decide (range.first ≤ k ∧ k ≤ range.last ∧ ∀ d ∈ ds, ¬(d.first < k ∧ k < d.last))

theorem mem_sel {upper : ℕ} {ds : List Range} {range : Range} {k : ℕ} :
    k ∈ sel upper ds range ↔ k ≤ upper ∧ range.first ≤ k ∧ k ≤ range.last ∧ ∀ d ∈ ds, ¬(d.first < k ∧ k < d.last) := by
  unfold sel
  rw [List.mem_filter, List.mem_range, decide_eq_true_eq, Nat.lt_succ_iff]

/-- Offsets from `a` to `b` -/
def off (a b : ℕ) : List ℕ := (List.range (b + 1)).filter fun k => decide (a ≤ k)

theorem mem_off {a b k : ℕ} : k ∈ off a b ↔ a ≤ k ∧ k ≤ b := by
  unfold off
  rw [List.mem_filter, List.mem_range, decide_eq_true_eq]
  omega

theorem multi_spec (side : SideId) (c : Pt K) (ps : List (Pt K)) (range : Range) (hr : range.first < range.last) :
    ∀ (rs : List Range) (upper : ℕ), upper < ps.length → (∀ d ∈ rs, d.first ≤ d.last ∧ d.last ≤ upper) →
      rs.Pairwise (fun d e => e.last ≤ d.first) →
      multiLoop side c ps range upper rs = some (fan side c ((sel upper rs range).filterMap fun k => ps[k]?)) := by
  intro rs
  have span_eq : ∀ a b, b < ps.length → span ps a b = some ((off a b).filterMap fun k => ps[k]?) := fun a b hb => by
    unfold span
    rw [if_pos hb, take_drop_eq ps a b hb]
    rfl
  have offS : ∀ a b, (off a b).Pairwise (· < ·) := fun a b => sorted_filter _ _
  have selS : ∀ u ds, (sel u ds range).Pairwise (· < ·) := fun u ds => sorted_filter _ _
  induction rs with
  | nil =>
    intro upper hu _ _
    rw [multiLoop]
    have e : sel upper [] range = off range.first (min upper range.last) := sorted_ext (selS _ _) (offS _ _) fun k => by
      rw [mem_sel, mem_off]
      simp only [List.not_mem_nil, false_imp_iff, implies_true, and_true, le_min_iff]
      omega
    rw [e]
    by_cases h : min upper range.last ≤ range.first
    · rw [if_pos h]
      congr 1
      rcases lt_or_eq_of_le h with q | q
      · have : off range.first (min upper range.last) = [] := List.eq_nil_iff_forall_not_mem.2 fun k hk => by
          rw [mem_off] at hk
          omega
        rw [this]
        rfl
      · have : off range.first (min upper range.last) = [range.first] := sorted_ext (offS _ _) (by simp) fun k => by
          rw [mem_off, List.mem_singleton]
          omega
        rw [this]
        have hg : ps[range.first]? = some ps[range.first] := List.getElem?_eq_getElem (by omega)
        simp only [List.filterMap_cons, hg, List.filterMap_nil]
        rfl
    · rw [if_neg h, span_eq _ _ (lt_of_le_of_lt (min_le_left _ _) hu)]
      rfl
  | cons d rs ih =>
    intro upper hu hd hp
    obtain ⟨hd1, hd2⟩ := hd d (List.mem_cons_self ..)
    rw [List.pairwise_cons] at hp
    obtain ⟨hp1, hp2⟩ := hp
    have IH := ih d.first (by omega) (fun e he => ⟨(hd e (List.mem_cons_of_mem _ he)).1, hp1 e he⟩) hp2
    rw [multiLoop]
    dsimp only
    by_cases h1 : upper < range.first
    · rw [if_pos h1]
      have : sel upper (d :: rs) range = [] := List.eq_nil_iff_forall_not_mem.2 fun k hk => by
        rw [mem_sel] at hk
        omega
      rw [this]
      rfl
    rw [if_neg h1]
    -- what is kept after the discontinuity
    have memA : ∀ k, k ∈ sel d.first rs range ↔ k ∈ sel upper (d :: rs) range ∧ k ≤ d.first := fun k => by
      rw [mem_sel, mem_sel]
      simp only [List.forall_mem_cons]
      constructor
      · rintro ⟨a, b, e, g⟩
        exact ⟨⟨by omega, b, e, by omega, g⟩, a⟩
      · rintro ⟨⟨a, b, e, g, i⟩, j⟩
        exact ⟨j, b, e, i⟩
    have memB : ∀ k, k ∈ off (max d.last range.first) (min upper range.last) ↔ k ∈ sel upper (d :: rs) range ∧ d.last ≤ k := fun k => by
      rw [mem_off, mem_sel]
      simp only [List.forall_mem_cons]
      constructor
      · rintro ⟨a, b⟩
        refine ⟨⟨by omega, by omega, by omega, by omega, fun e he => ?_⟩, by omega⟩
        have := hp1 e he
        omega
      · rintro ⟨⟨a, b, e, g, i⟩, j⟩
        omega
    have memAll : ∀ k, k ∈ sel upper (d :: rs) range → k ≤ d.first ∨ d.last ≤ k := fun k hk => by
      rw [mem_sel] at hk
      have := hk.2.2.2 d (List.mem_cons_self ..)
      omega
    by_cases h2 : min upper range.last < max d.last range.first
    · rw [if_pos h2, IH]
      congr 3
      refine sorted_ext (selS _ _) (selS _ _) fun k => ?_
      rw [memA]
      refine ⟨fun h => h.1, fun h => ⟨h, ?_⟩⟩
      rcases memAll k h with q | q
      · exact q
      · have := (memB k).2 ⟨h, q⟩
        rw [mem_off] at this
        omega
    rw [if_neg h2, span_eq _ _ (lt_of_le_of_lt (min_le_left _ _) hu), Option.bind_some]
    push Not at h2
    by_cases h3 : range.first ≤ d.first
    · have m1 : max d.last range.first = d.last := max_eq_left (by omega)
      rw [m1] at h2 memB ⊢
      have gA : ps[d.first]? = some ps[d.first] := List.getElem?_eq_getElem (by omega)
      have gB : ps[d.last]? = some ps[d.last] := List.getElem?_eq_getElem (by omega)
      -- the lists around the discontinuity
      have eA : sel d.first rs range = (sel d.first rs range).filter (fun k => decide (k < d.first)) ++ [d.first] := by
        refine sorted_ext (selS _ _) ?_ fun k => ?_
        · rw [List.pairwise_append]
          refine ⟨List.Pairwise.filter _ (selS _ _), by simp, fun x hx y hy => ?_⟩
          rw [List.mem_filter, decide_eq_true_eq] at hx
          rw [List.mem_singleton] at hy
          omega
        · rw [List.mem_append, List.mem_filter, decide_eq_true_eq, List.mem_singleton]
          constructor
          · intro hk
            have := ((memA k).1 hk).2
            rcases lt_or_eq_of_le this with q | q
            · exact Or.inl ⟨hk, q⟩
            · exact Or.inr q
          · rintro (hk | rfl)
            · exact hk.1
            · rw [mem_sel]
              refine ⟨le_rfl, h3, by omega, fun e he => ?_⟩
              have := hp1 e he
              omega
      have eB : off d.last (min upper range.last) = d.last :: (off d.last (min upper range.last)).filter (fun k => decide (d.last < k)) := by
        refine sorted_ext (offS _ _) ?_ fun k => ?_
        · rw [List.pairwise_cons]
          refine ⟨fun x hx => ?_, List.Pairwise.filter _ (offS _ _)⟩
          rw [List.mem_filter, decide_eq_true_eq] at hx
          exact hx.2
        · rw [List.mem_cons, List.mem_filter, decide_eq_true_eq, mem_off]
          omega
      obtain ⟨A, hA⟩ : ∃ A, (sel d.first rs range).filter (fun k => decide (k < d.first)) = A := ⟨_, rfl⟩
      obtain ⟨B, hB⟩ : ∃ B, (off d.last (min upper range.last)).filter (fun k => decide (d.last < k)) = B := ⟨_, rfl⟩
      have memA' : ∀ k, k ∈ A ↔ k ∈ sel upper (d :: rs) range ∧ k < d.first := fun k => by
        rw [← hA, List.mem_filter, memA, decide_eq_true_eq]
        constructor
        · rintro ⟨⟨x, -⟩, z⟩; exact ⟨x, z⟩
        · rintro ⟨x, z⟩; exact ⟨⟨x, z.le⟩, z⟩
      have memB' : ∀ k, k ∈ B ↔ k ∈ sel upper (d :: rs) range ∧ d.last < k := fun k => by
        rw [← hB, List.mem_filter, memB, decide_eq_true_eq]
        constructor
        · rintro ⟨⟨x, -⟩, z⟩; exact ⟨x, z⟩
        · rintro ⟨x, z⟩; exact ⟨⟨x, z.le⟩, z⟩
      have sA : A.Pairwise (· < ·) := by rw [← hA]; exact List.Pairwise.filter _ (selS _ _)
      have sB : B.Pairwise (· < ·) := by rw [← hB]; exact List.Pairwise.filter _ (offS _ _)
      have dA : d.first ∈ sel upper (d :: rs) range := ((memA d.first).1 (by rw [eA]; simp)).1
      have dB : d.last ∈ sel upper (d :: rs) range := ((memB d.last).1 (by rw [mem_off]; omega)).1
      rw [hA] at eA
      rw [hB] at eB
      have all : fan side c ((sel upper (d :: rs) range).filterMap fun k => ps[k]?) =
          fan side c ((A.filterMap fun k => ps[k]?) ++ ps[d.first] :: ps[d.last] :: (B.filterMap fun k => ps[k]?)) := by
        rcases lt_or_eq_of_le hd1 with q | q
        · have : sel upper (d :: rs) range = A ++ d.first :: d.last :: B := by
            refine sorted_ext (selS _ _) ?_ fun k => ?_
            · rw [List.pairwise_append]
              refine ⟨sA, ?_, fun x hx y hy => ?_⟩
              · rw [List.pairwise_cons, List.pairwise_cons]
                refine ⟨fun x hx => ?_, fun x hx => ((memB' x).1 hx).2, sB⟩
                rcases List.mem_cons.1 hx with rfl | hx
                · exact q
                · exact q.trans ((memB' x).1 hx).2
              · have hx' := ((memA' x).1 hx).2
                rcases List.mem_cons.1 hy with rfl | hy
                · exact hx'
                rcases List.mem_cons.1 hy with rfl | hy
                · omega
                · have := ((memB' y).1 hy).2
                  omega
            · rw [List.mem_append, List.mem_cons, List.mem_cons, memA', memB']
              constructor
              · intro hk
                rcases memAll k hk with w | w
                · rcases lt_or_eq_of_le w with w | w
                  · exact Or.inl ⟨hk, w⟩
                  · exact Or.inr (Or.inl w)
                · rcases lt_or_eq_of_le w with w | w
                  · exact Or.inr (Or.inr (Or.inr ⟨hk, w⟩))
                  · exact Or.inr (Or.inr (Or.inl w.symm))
              · rintro (hk | rfl | rfl | hk)
                · exact hk.1
                · exact dA
                · exact dB
                · exact hk.1
          rw [this, List.filterMap_append, List.filterMap_cons, List.filterMap_cons, gA, gB]
        · have : sel upper (d :: rs) range = A ++ d.first :: B := by
            refine sorted_ext (selS _ _) ?_ fun k => ?_
            · rw [List.pairwise_append]
              refine ⟨sA, ?_, fun x hx y hy => ?_⟩
              · rw [List.pairwise_cons]
                exact ⟨fun x hx => by have := ((memB' x).1 hx).2; omega, sB⟩
              · have hx' := ((memA' x).1 hx).2
                rcases List.mem_cons.1 hy with rfl | hy
                · exact hx'
                · have := ((memB' y).1 hy).2
                  omega
            · rw [List.mem_append, List.mem_cons, memA', memB']
              constructor
              · intro hk
                rcases lt_trichotomy k d.first with w | w | w
                · exact Or.inl ⟨hk, w⟩
                · exact Or.inr (Or.inl w)
                · exact Or.inr (Or.inr ⟨hk, by omega⟩)
              · rintro (hk | rfl | hk)
                · exact hk.1
                · exact dA
                · exact hk.1
          rw [this, List.filterMap_append, List.filterMap_cons, gA]
          have e2 : ps[d.last] = ps[d.first] := by
            have : ps[d.last]? = ps[d.first]? := by rw [q]
            rw [gA, gB] at this
            exact Option.some.inj this
          rw [e2, fan_dup]
      have eBf : (off d.last (min upper range.last)).filterMap (fun k => ps[k]?) = ps[d.last] :: (B.filterMap fun k => ps[k]?) := by
        rw [eB, List.filterMap_cons, gB]
      have eAf : (sel d.first rs range).filterMap (fun k => ps[k]?) = (A.filterMap fun k => ps[k]?) ++ [ps[d.first]] := by
        rw [eA, List.filterMap_append, List.filterMap_cons, gA, List.filterMap_nil]
      rw [all, eBf]
      have s1 := fan_split side c ((A.filterMap fun k => ps[k]?) ++ [ps[d.first]]) ps[d.last] (B.filterMap fun k => ps[k]?)
      have s2 := fan_split side c (A.filterMap fun k => ps[k]?) ps[d.first] [ps[d.last]]
      have e1 : (A.filterMap fun k => ps[k]?) ++ [ps[d.first]] ++ ps[d.last] :: (B.filterMap fun k => ps[k]?) =
        (A.filterMap fun k => ps[k]?) ++ ps[d.first] :: ps[d.last] :: (B.filterMap fun k => ps[k]?) := by simp
      have e2 : (A.filterMap fun k => ps[k]?) ++ [ps[d.first]] ++ [ps[d.last]] = (A.filterMap fun k => ps[k]?) ++ ps[d.first] :: [ps[d.last]] := by simp
      rw [e1, e2, s2] at s1
      rw [s1, if_pos h3, gA, gB, Option.bind_some, Option.bind_some, IH, eAf]
      cases hF : fan side c (ps[d.last] :: (B.filterMap fun k => ps[k]?)) with
      | some s => rfl
      | none =>
        cases hG : fan side c [ps[d.first], ps[d.last]] with
        | some s => rfl
        | none => rfl
    · rw [if_neg h3]
      have eAll : sel upper (d :: rs) range = off (max d.last range.first) (min upper range.last) := by
        refine sorted_ext (selS _ _) (offS _ _) fun k => ?_
        rw [memB]
        refine ⟨fun h => ⟨h, ?_⟩, fun h => h.1⟩
        rcases memAll k h with q | q
        · rw [mem_sel] at h
          omega
        · exact q
      have eA : sel d.first rs range = [] := List.eq_nil_iff_forall_not_mem.2 fun k hk => by
        rw [mem_sel] at hk
        omega
      rw [IH, eA, eAll]
      cases hF : fan side c ((off (max d.last range.first) (min upper range.last)).filterMap fun k => ps[k]?) with
      | some s => rfl
      | none => rfl

end Verif.PartialOutline
