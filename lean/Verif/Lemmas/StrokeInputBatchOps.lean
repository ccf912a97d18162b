import Verif.Lemmas.StrokeInputBatch

/-!
# Each operation of the batch machine refines the list specification
-/

set_option autoImplicit false

namespace Verif.Batch

open Verif F32 Spec

theorem encode_conform (l : List Input) (x : Input) : encode (conform l x) = encode x := by
  unfold conform; cases l <;> rfl

theorem flatMap_conform (l xs : List Input) :
    (xs.map (conform l)).flatMap encode = xs.flatMap encode := by
  induction xs with
  | nil => rfl
  | cons a t ih => simp only [List.map_cons, List.flatMap_cons, ih, encode_conform]

theorem clear_upd {w : World} {v : Nat} (hf : Fresh w) (hv : v < w.n) :
    ∃ w' d, clear w v = some w' ∧ Upd w w' v {} d ∧ (d = none ∨ d = some []) := by
  unfold clear
  by_cases hs : w.isShared v = true
  · rw [if_pos hs]
    have h1 := upd_reset (v := v) hf
    have h2 := upd_setVar h1.fresh (h1.lt hv) { data := ((w.reset v).var v).data } rfl
    refine ⟨_, _, rfl, h1.trans h2, Or.inl h1.val⟩
  · rw [if_neg hs]
    by_cases hh : w.hasValue v = true
    · rw [if_pos hh]
      unfold World.hasValue at hh
      obtain ⟨l, hl⟩ := Option.isSome_iff_exists.1 hh
      obtain ⟨w1, e1, h1⟩ := upd_mutate hf hv (d := w.heap l) (by simp [World.value, hl])
        (fun _ => [])
      have h2 := upd_setVar h1.fresh (h1.lt hv) { data := (w1.var v).data } rfl
      rw [e1]
      exact ⟨_, _, rfl, h1.trans h2, Or.inr h1.val⟩
    · rw [if_neg hh]
      have h2 := upd_setVar hf hv { data := (w.var v).data } rfl
      refine ⟨_, _, rfl, h2, Or.inl ?_⟩
      unfold World.hasValue at hh
      rw [value_none]; simpa using hh

/-- The members of a batch of size `k` with the format of `x`. -/
def membersOf (x : Input) (k : Nat) : Batch :=
  { size := k, tool := x.tool, unitLength := x.unitLength, hasPressure := x.hasPressure,
    hasTilt := x.hasTilt, hasOrientation := x.hasOrientation }

theorem start_upd {w : World} {v : Nat} (hf : Fresh w) (hv : v < w.n)
    (hd : w.value v = none ∨ w.value v = some []) (hs : (w.var v).size = 0) (x : Input) :
    Upd w (setInlineFormatMetadata (ensureValue w v) v x) v (membersOf x 0) (some []) := by
  have h1 : Upd w (ensureValue w v) v (members (w.var v)) (some []) := by
    unfold ensureValue
    split_ifs with hh
    · have := Upd.refl hf v
      rcases hd with hd | hd
      · rw [value_none] at hd; simp [World.hasValue, hd] at hh
      · rw [hd] at this; exact this
    · exact upd_emplace hf []
  have h2 := upd_setVar h1.fresh (h1.lt hv) { (ensureValue w v).var v with
    tool := x.tool, unitLength := x.unitLength, hasPressure := x.hasPressure,
    hasTilt := x.hasTilt, hasOrientation := x.hasOrientation } rfl
  have hsize := h1.size
  have h3 := h1.trans h2
  rw [h1.val] at h3
  refine ⟨h3.frame, h3.fresh, h3.mem.trans ?_, h3.val⟩
  simp only [members, membersOf, hsize, hs]

theorem addSize_upd {w : World} {v : Nat} (hf : Fresh w) (hv : v < w.n) (k : Nat) :
    Upd w (addSize w v k) v { members (w.var v) with size := (w.var v).size + k } (w.value v) :=
  upd_setVar hf hv { w.var v with size := (w.var v).size + k } rfl

theorem feq_refl {a : F32} (h : a.isNaN = false) : F32.feq a a = true := by
  simp [F32.feq, h]

theorem chain_sameFormat : ∀ {t : List Input} {a : Input}, (a :: t).IsChain Follows →
    ∀ x ∈ t, SameFormat a x := by
  intro t
  induction t with
  | nil => simp
  | cons b t ih =>
    intro a h x hx
    rw [List.isChain_cons_cons] at h
    rcases List.mem_cons.1 hx with rfl | hx
    · exact h.1.1
    · exact h.1.1.trans (ih h.2 x hx)

theorem sameFormat_refl {a : Input} (h : ValidInput a) : SameFormat a a :=
  ⟨rfl, feq_refl (isNaN_of_isFinite h.2.2.2.1.1), Iff.rfl, Iff.rfl, Iff.rfl⟩

theorem Spec.ValidSeq.sameFormat {a : Input} {t : List Input} (h : ValidSeq (a :: t)) :
    ∀ x ∈ a :: t, SameFormat a x := by
  intro x hx
  rcases List.mem_cons.1 hx with rfl | hx
  · exact sameFormat_refl (h.1 _ (by simp))
  · exact chain_sameFormat h.2 x hx

theorem fmt_conform {b : Batch} {l : List Input} {y : Input} {x : Input}
    (hl : l.head?.map Input.unitLength = some b.unitLength) (hy : Fmt0 b y)
    (h : SameFormat y x) : Fmt b (conform l x) := by
  obtain ⟨h1, h2, h3, h4⟩ := h.flags
  cases l with
  | nil => simp at hl
  | cons a t =>
    simp at hl
    exact ⟨⟨h1 ▸ hy.tool, h2 ▸ hy.p, h3 ▸ hy.t, h4 ▸ hy.o⟩, hl⟩

/-! ### Append -/

theorem append_eq_span (w : World) (v : Nat) (x : Input) :
    append w v x = appendSpan w v [x] := by
  unfold append appendSpan validateInputSequence validateRest
  simp only [List.flatMap_cons, List.flatMap_nil, List.append_nil, List.length_singleton]
  by_cases h : validateSingleInput x = true <;> simp [h]

theorem appendSpan_spec {w : World} {v : Nat} {l : List Input} (hI : Inv w) (hv : v < w.n)
    (hl : Holds w v l) (xs : List Input) :
    (CanAppend l xs → ∃ w', appendSpan w v xs = some (true, w') ∧ Inv w' ∧ Frame w w' v ∧
      observe w' = (observe w).set v (some (joined l xs))) ∧
    (¬ CanAppend l xs → appendSpan w v xs = some (false, w)) := by
  cases xs with
  | nil =>
    refine ⟨fun _ => ⟨w, rfl, hI, ⟨rfl, fun _ _ _ => ⟨rfl, rfl⟩⟩, ?_⟩, fun h => ?_⟩
    · have : joined l [] = l := by simp [joined]
      rw [this]
      apply observe_set (v := v) (w := w) ⟨rfl, fun _ _ _ => ⟨rfl, rfl⟩⟩ hv hl.contents
    · exfalso; apply h
      exact ⟨⟨by simp, List.IsChain.nil⟩, by simp⟩
  | cons i is =>
    unfold appendSpan
    by_cases hval : ValidSeq (i :: is)
    swap
    · refine ⟨fun h => absurd h.1 hval, fun _ => ?_⟩
      have : validateInputSequence (i :: is) = false := by
        rw [← Bool.not_eq_true, validateInputSequence_iff]; exact hval
      simp [this]
    have hvs := validateInputSequence_iff.2 hval
    simp only [hvs, Bool.not_true, Bool.false_eq_true, if_false]
    by_cases hne : l = []
    · -- empty batch
      subst hne
      have hsz : (w.var v).size = 0 := hl.size
      have hcan : CanAppend [] (i :: is) := ⟨hval, by simp⟩
      refine ⟨fun _ => ?_, fun h => absurd hcan h⟩
      simp only [hsz, ne_eq, not_true_eq_false, if_false]
      have u1 := start_upd hI.1 hv hl.2.1 hsz i
      obtain ⟨w2, e2, u2⟩ := upd_mutate u1.fresh (u1.lt hv) u1.val
        (fun d => d ++ (i :: is).flatMap encode)
      have u3 := addSize_upd u2.fresh (u2.lt (u1.lt hv)) (i :: is).length
      rw [e2]
      simp only [Option.bind_eq_bind, Option.bind_some]
      have u := (u1.trans u2).trans u3
      rw [u2.val, u2.mem, u1.mem, u2.size] at u
      have hs1 : (members ((setInlineFormatMetadata (ensureValue w v) v i).var v)).size = 0 := by
        rw [u1.mem]; rfl
      rw [hs1] at u
      refine ⟨_, rfl, ?_⟩
      have hrep : Rep { membersOf i 0 with size := 0 + (i :: is).length }
          (some ([] ++ (i :: is).flatMap encode)) (joined [] (i :: is)) := by
        unfold joined
        rw [List.nil_append, List.nil_append]
        apply Rep.mk'
        · simp
        · simp
        · rw [flatMap_conform]
        · intro x hx
          obtain ⟨y, hy, rfl⟩ := List.mem_map.1 hx
          exact fmt_conform (y := i) rfl ⟨rfl, rfl, rfl, rfl⟩ (hval.sameFormat y hy)
      obtain ⟨a, b⟩ := finish_upd hI hv u hrep
      exact ⟨a, u.frame, b⟩
    · -- non-empty batch
      obtain ⟨last, hlast⟩ : ∃ a, l.getLast? = some a :=
        ⟨l.getLast hne, List.getLast?_eq_some_getLast hne⟩
      have hlen : 0 < l.length := List.length_pos_iff.2 hne
      have hsz : (w.var v).size ≠ 0 := by rw [hl.size]; omega
      have hget : get w v ((w.var v).size - 1) = some last := by
        apply hl.get
        rw [hl.size, ← List.getLast?_eq_getElem?]; exact hlast
      simp only [hsz, ne_eq, not_false_eq_true, if_true, hget, Option.bind_eq_bind,
        Option.bind_some]
      by_cases hc : Follows last i
      swap
      · have : validateConsecutiveInputs last i = false := by
          rw [← Bool.not_eq_true, validateConsecutive_iff]; exact hc
        simp only [this, Bool.not_false, if_true]
        refine ⟨fun h => absurd (h.2 last (by simp [hlast]) i (by simp)) hc, fun _ => trivial⟩
      have hcv := validateConsecutive_iff.2 hc
      have hcan : CanAppend l (i :: is) := ⟨hval, by
        intro a ha b hb
        simp only [hlast, Option.mem_def, Option.some.injEq, List.head?_cons] at ha hb
        rw [← ha, ← hb]; exact hc⟩
      refine ⟨fun _ => ?_, fun h => absurd hcan h⟩
      simp only [hcv, Bool.not_true, Bool.false_eq_true, if_false]
      obtain ⟨hd, hfmt⟩ := Rep.data hl hne
      obtain ⟨w2, e2, u2⟩ := upd_mutate hI.1 hv hd (fun d => d ++ (i :: is).flatMap encode)
      have u3 := addSize_upd u2.fresh (u2.lt hv) (i :: is).length
      rw [e2]
      simp only [Option.bind_some]
      have u := u2.trans u3
      rw [u2.val, u2.mem, u2.size] at u
      refine ⟨_, rfl, ?_⟩
      have hsz' : (members (w.var v)).size = l.length := hl.size
      rw [hsz'] at u
      have hrep : Rep { members (w.var v) with size := l.length + (i :: is).length }
          (some (l.flatMap encode ++ (i :: is).flatMap encode)) (joined l (i :: is)) := by
        unfold joined
        apply Rep.mk'
        · simp
        · simp
        · rw [List.flatMap_append, flatMap_conform]
        · intro x hx
          rcases List.mem_append.1 hx with hx | hx
          · have := hfmt x hx
            exact ⟨⟨this.tool, this.p, this.t, this.o⟩, this.unit⟩
          · obtain ⟨y, hy, rfl⟩ := List.mem_map.1 hx
            have hla := hfmt last (List.mem_of_getLast? hlast)
            refine fmt_conform (y := last) ?_ ⟨hla.tool, hla.p, hla.t, hla.o⟩
              (hc.1.trans (hval.sameFormat y hy))
            cases l with
            | nil => exact absurd rfl hne
            | cons h t => simp; exact (hfmt h (by simp)).unit
      obtain ⟨a, b⟩ := finish_upd hI hv u hrep
      exact ⟨a, u.frame, b⟩

theorem appendBatch_spec {w : World} {v u : Nat} {l xs : List Input} (hI : Inv w) (hv : v < w.n)
    (hu : u < w.n) (hl : Holds w v l) (hx : Holds w u xs) (hl0 : l ≠ []) (hx0 : xs ≠ []) :
    ((∀ a ∈ l.getLast?, ∀ b ∈ xs.head?, Follows a b) → v ≠ u →
      ∃ w', appendBatch w v u = some (true, w') ∧ Inv w' ∧
      observe w' = (observe w).set v (some (joined l xs))) ∧
    (¬ (∀ a ∈ l.getLast?, ∀ b ∈ xs.head?, Follows a b) → appendBatch w v u = some (false, w)) ∧
    ((∀ a ∈ l.getLast?, ∀ b ∈ xs.head?, Follows a b) → v = u → appendBatch w v u = none) := by
  obtain ⟨last, hlast⟩ : ∃ a, l.getLast? = some a :=
    ⟨l.getLast hl0, List.getLast?_eq_some_getLast hl0⟩
  obtain ⟨first, rest, rfl⟩ : ∃ a t, xs = a :: t := List.exists_cons_of_ne_nil hx0
  have hlen : 0 < l.length := List.length_pos_iff.2 hl0
  have hsz : (w.var v).size ≠ 0 := by rw [hl.size]; omega
  have hszu : (w.var u).size ≠ 0 := by rw [hx.size]; simp
  have hget : get w v ((w.var v).size - 1) = some last := by
    apply hl.get
    rw [hl.size, ← List.getLast?_eq_getElem?]; exact hlast
  have hget0 : get w u 0 = some first := hx.get (by simp)
  have hcond : (∀ a ∈ l.getLast?, ∀ b ∈ (first :: rest).head?, Follows a b) ↔
      Follows last first := by
    simp [hlast]
  rw [hcond]
  unfold appendBatch
  simp only [hsz, hszu, if_false, hget, hget0, Option.bind_eq_bind, Option.bind_some]
  by_cases hc : Follows last first
  swap
  · have : validateConsecutiveInputs last first = false := by
      rw [← Bool.not_eq_true, validateConsecutive_iff]; exact hc
    simp [this, hc]
  have hcv := validateConsecutive_iff.2 hc
  simp only [hcv, Bool.not_true, Bool.false_eq_true, if_false, hc, not_true_eq_false,
    false_implies, true_implies, true_and]
  refine ⟨fun hvu => ?_, fun hvu => by simp [hvu]⟩
  rw [if_neg hvu]
  obtain ⟨hd, hfmt⟩ := Rep.data hl hl0
  obtain ⟨hdu, hfmtu⟩ := Rep.data hx hx0
  obtain ⟨w1, e1, u1⟩ := upd_mutate hI.1 hv hd id
  rw [e1]
  simp only [Option.bind_some]
  have hfu := u1.frame.2 u hu (Ne.symm hvu)
  rw [hfu.2, hdu]
  simp only [Option.bind_some]
  obtain ⟨w2, e2, u2⟩ := upd_mutate u1.fresh (u1.lt hv) u1.val
    (fun d => d ++ (first :: rest).flatMap encode)
  rw [e2]
  simp only [Option.bind_some]
  have u12 := u1.trans u2
  have hfu2 := u12.frame.2 u hu (Ne.symm hvu)
  rw [hfu2.1, hx.size]
  have u3 := addSize_upd u12.fresh (u12.lt hv) (first :: rest).length
  have uu := u12.trans u3
  rw [u2.val, u2.mem, u1.mem, u2.size] at uu
  have hs1 : (members (w1.var v)).size = l.length := by rw [u1.mem]; exact hl.size
  rw [hs1] at uu
  refine ⟨_, rfl, ?_⟩
  have hrep : Rep { members (w.var v) with size := l.length + (first :: rest).length }
      (some (id (l.flatMap encode) ++ (first :: rest).flatMap encode))
      (joined l (first :: rest)) := by
    unfold joined
    apply Rep.mk'
    · simp
    · simp
    · rw [List.flatMap_append, flatMap_conform]; rfl
    · intro x hx'
      rcases List.mem_append.1 hx' with hx' | hx'
      · have := hfmt x hx'
        exact ⟨⟨this.tool, this.p, this.t, this.o⟩, this.unit⟩
      · obtain ⟨y, hy, rfl⟩ := List.mem_map.1 hx'
        have hla := hfmt last (List.mem_of_getLast? hlast)
        have hf := hfmtu first (by simp)
        have hy' := hfmtu y hy
        obtain ⟨f1, f2, f3, f4⟩ := hc.1.flags
        have hun : (conform (l ++ first :: rest) y).unitLength = (w.var v).unitLength := by
          cases l with
          | nil => exact absurd rfl hl0
          | cons h t => exact (hfmt h (by simp)).unit
        have hcf : ∀ m, (conform m y).tool = y.tool ∧ (conform m y).hasPressure = y.hasPressure ∧
            (conform m y).hasTilt = y.hasTilt ∧
            (conform m y).hasOrientation = y.hasOrientation := by
          intro m; cases m <;> exact ⟨rfl, rfl, rfl, rfl⟩
        obtain ⟨g1, g2, g3, g4⟩ := hcf (l ++ first :: rest)
        refine ⟨⟨?_, ?_, ?_, ?_⟩, hun⟩
        · rw [g1, hy'.tool, ← hf.tool, ← f1, hla.tool]
        · rw [g2, hy'.p, ← hf.p, ← f2, hla.p]
        · rw [g3, hy'.t, ← hf.t, ← f3, hla.t]
        · rw [g4, hy'.o, ← hf.o, ← f4, hla.o]
  exact finish_upd hI hv uu hrep

/-! ### Erase -/

theorem erase_spec {w : World} {v : Nat} {l : List Input} (hI : Inv w) (hv : v < w.n)
    (hl : Holds w v l) {start count : Nat} (hs : start ≤ l.length) :
    ∃ w', erase w v start count = some (true, w') ∧ Inv w' ∧
      observe w' = (observe w).set v (some (l.take start ++ l.drop (start + count))) := by
  unfold erase
  rw [if_neg (by rw [hl.size]; omega)]
  simp only [hl.size]
  by_cases h0 : min count (l.length - start) = 0
  · rw [if_pos h0]
    refine ⟨w, rfl, hI, ?_⟩
    have : l.take start ++ l.drop (start + count) = l := by
      rcases Nat.eq_zero_or_pos count with rfl | hc
      · simp
      · have : start = l.length := by omega
        subst this
        rw [List.take_length, List.drop_eq_nil_of_le (by omega), List.append_nil]
    rw [this]
    exact observe_set (v := v) (w := w) ⟨rfl, fun _ _ _ => ⟨rfl, rfl⟩⟩ hv hl.contents
  rw [if_neg h0]
  have hne : l ≠ [] := by rintro rfl; simp at h0
  by_cases hall : start = 0 ∧ min count (l.length - start) = l.length
  · rw [if_pos hall]
    obtain ⟨w', d, e, u, hd⟩ := clear_upd hI.1 hv
    rw [e]
    refine ⟨w', rfl, ?_⟩
    have : l.take start ++ l.drop (start + count) = [] := by
      rw [hall.1, List.drop_eq_nil_of_le (by omega)]; simp
    rw [this]
    exact finish_upd hI hv u ⟨rfl, hd, rfl⟩
  · rw [if_neg hall]
    obtain ⟨hd, hfmt⟩ := Rep.data hl hne
    obtain ⟨w1, e1, u1⟩ := upd_mutate hI.1 hv hd (fun d =>
      d.take (start * (w.var v).stride) ++
        d.drop ((start + min count (l.length - start)) * (w.var v).stride))
    simp only [e1, Option.bind_eq_bind, Option.bind_some]
    have u2 := upd_setVar u1.fresh (u1.lt hv)
      { w1.var v with size := (w1.var v).size - min count (l.length - start) } rfl
    have u := u1.trans u2
    rw [u1.val] at u
    refine ⟨_, rfl, ?_⟩
    have hff := fun x hx => (hl.fmt' x hx).toFmt0
    have hdrop : l.drop (start + min count (l.length - start)) = l.drop (start + count) := by
      rcases Nat.le_total count (l.length - start) with h | h
      · rw [Nat.min_eq_left h]
      · rw [Nat.min_eq_right h, List.drop_eq_nil_of_le (by omega),
          List.drop_eq_nil_of_le (by omega)]
    rw [take_flatMap start hff, drop_flatMap _ hff, hdrop] at u
    refine finish_upd hI hv u (Rep.mk' ?_ ?_ ?_ ?_)
    · intro e
      have hlen := congrArg List.length e
      simp only [List.length_append, List.length_take, List.length_drop, List.length_nil] at hlen
      have hl0 : 0 < l.length := List.length_pos_iff.2 hne
      have hst : start = 0 := by omega
      exact hall ⟨hst, by omega⟩
    · have hsz : (w1.var v).size = l.length := by
        rw [u1.size]; exact hl.size
      simp only [members, hsz, List.length_append, List.length_take, List.length_drop]
      omega
    · rw [List.flatMap_append]
    · intro x hx
      have hm : x ∈ l := by
        rcases List.mem_append.1 hx with h | h
        · exact List.mem_of_mem_take h
        · exact List.mem_of_mem_drop h
      have := hfmt x hm
      rw [← u1.mem] at this
      exact ⟨⟨this.tool, this.p, this.t, this.o⟩, this.unit⟩

/-! ### Transform -/

theorem encode_cons (x : Input) : ∃ r, encode x = x.x :: x.y :: r := ⟨_, rfl⟩

theorem transformData_flatMap {b : Batch} (t : Affine) : ∀ {l : List Input},
    (∀ x ∈ l, Fmt0 b x) →
    transformData t b.stride (l.flatMap encode) = (l.map (moved t)).flatMap encode := by
  intro l
  induction l with
  | nil => intro _; rw [List.flatMap_nil, transformData.eq_def]; rfl
  | cons a s ih =>
    intro h
    have hlen := encode_length (h a (by simp))
    have he : encode (moved t a) =
        (t.apply a.x a.y).1 :: (t.apply a.x a.y).2 :: (encode a).drop 2 := rfl
    obtain ⟨r, hr⟩ := encode_cons a
    rw [List.flatMap_cons, List.map_cons, List.flatMap_cons, he, hr]
    rw [hr] at hlen
    simp only [List.length_cons] at hlen
    rw [List.cons_append, List.cons_append, transformData.eq_def]
    have hrl : b.stride - 2 = r.length := by omega
    simp only [hrl, List.take_left, List.drop_left]
    rw [ih fun x hx => h x (by simp [hx])]
    simp

theorem transform_spec {w : World} {v : Nat} {l : List Input} (hI : Inv w) (hv : v < w.n)
    (hl : Holds w v l) (t : Affine) :
    ∃ w', transform w v t = some (true, w') ∧ Inv w' ∧
      observe w' = (observe w).set v (some (l.map (moved t))) := by
  unfold transform
  by_cases hne : l = []
  · subst hne
    rw [if_pos (by simpa using hl.size)]
    refine ⟨w, rfl, hI, ?_⟩
    exact observe_set (v := v) (w := w) ⟨rfl, fun _ _ _ => ⟨rfl, rfl⟩⟩ hv hl.contents
  · have hlen : 0 < l.length := List.length_pos_iff.2 hne
    rw [if_neg (by rw [hl.size]; omega)]
    obtain ⟨hd, hfmt⟩ := Rep.data hl hne
    obtain ⟨w1, e1, u1⟩ := upd_mutate hI.1 hv hd (transformData t (w.var v).stride)
    rw [e1]
    refine ⟨w1, rfl, ?_⟩
    rw [transformData_flatMap t fun x hx => (hl.fmt' x hx).toFmt0] at u1
    refine finish_upd hI hv u1 (Rep.mk' (by simpa using hne) ?_ rfl ?_)
    · rw [List.length_map]; exact hl.size
    · intro x hx
      obtain ⟨y, hy, rfl⟩ := List.mem_map.1 hx
      have := hfmt y hy
      exact ⟨⟨this.tool, this.p, this.t, this.o⟩, this.unit⟩

/-! ### Set -/

theorem set_flatMap {b : Batch} {l : List Input} (hf : ∀ x ∈ l, Fmt0 b x) {i : Nat}
    (hi : i < l.length) (x : Input) (hx : Fmt0 b x) :
    (l.flatMap encode).take (i * b.stride) ++ encode x ++
      (l.flatMap encode).drop (i * b.stride + (encode x).length) =
    (l.set i x).flatMap encode := by
  rw [encode_length hx, take_flatMap i hf, ← Nat.succ_mul, drop_flatMap _ hf,
    List.set_eq_take_append_cons_drop, if_pos hi, List.flatMap_append, List.flatMap_cons,
    List.append_assoc]

theorem set_spec {w : World} {v i : Nat} {l : List Input} (hI : Inv w) (hv : v < w.n)
    (hl : Holds w v l) (hi : i < l.length) (x : Input) :
    (CanSet l i x → ∃ w', Batch.set w v i x = some (true, w') ∧ Inv w' ∧
      observe w' = (observe w).set v
        (some (l.set i (if l.length = 1 then x else conform l x)))) ∧
    (¬ CanSet l i x → Batch.set w v i x = some (false, w)) := by
  unfold Batch.set
  have hset : ∀ y, l.length = 1 → l.set i y = [y] := by
    intro y h1
    have : i = 0 := by omega
    subst this
    obtain ⟨a, rfl⟩ := List.length_eq_one_iff.1 h1
    rfl
  have hsz := hl.size
  simp only [hsz, hi, decide_true, Bool.not_true, Bool.false_eq_true, if_false]
  by_cases hval : ValidInput x
  swap
  · have : validateSingleInput x = false := by
      rw [← Bool.not_eq_true, validateSingleInput_iff]; exact hval
    simp only [this, Bool.not_false, if_true]
    exact ⟨fun h => absurd h.1 hval, fun _ => trivial⟩
  have hvs := validateSingleInput_iff.2 hval
  simp only [hvs, Bool.not_true, Bool.false_eq_true, if_false]
  have hne : l ≠ [] := by rintro rfl; simp at hi
  by_cases h1 : l.length = 1
  · simp only [h1, if_true]
    have hcan : CanSet l i x := ⟨hval, Or.inl h1⟩
    refine ⟨fun _ => ?_, fun h => absurd hcan h⟩
    obtain ⟨w1, d, e1, u1, hd⟩ := clear_upd hI.1 hv
    rw [e1]
    simp only [Option.bind_eq_bind, Option.bind_some]
    have u2 := start_upd u1.fresh (u1.lt hv) (by rw [u1.val]; exact hd) u1.size x
    have u12 := u1.trans u2
    obtain ⟨w3, e3, u3⟩ := upd_mutate u12.fresh (u12.lt hv) u12.val (fun d => d ++ encode x)
    rw [e3]
    simp only [Option.bind_some]
    have u123 := u12.trans u3
    have u4 := upd_setVar u123.fresh (u123.lt hv) { w3.var v with size := 1 } rfl
    have u := u123.trans u4
    refine ⟨_, rfl, ?_⟩
    have hm : members { w3.var v with size := 1 } = membersOf x 1 := by
      have : members { w3.var v with size := 1 } = { members (w3.var v) with size := 1 } := rfl
      rw [this, u3.mem, u2.mem]; rfl
    rw [hm, u3.val] at u
    rw [hset x h1]
    refine finish_upd hI hv u (Rep.mk' (by simp) rfl (by simp) ?_)
    intro y hy
    rw [List.mem_singleton.1 hy]
    exact ⟨⟨rfl, rfl, rfl, rfl⟩, rfl⟩
  · simp only [h1, if_false]
    have hff := fun y hy => (hl.fmt' y hy).toFmt0
    obtain ⟨hd, hfmt⟩ := Rep.data hl hne
    -- first check
    have ok1 : ∃ b1, checkPrevious w v i x = some b1 ∧
        (b1 = true ↔ ∀ a, 0 < i → l[i - 1]? = some a → Follows a x) := by
      unfold checkPrevious
      by_cases h0 : 0 < i
      · obtain ⟨a, ha⟩ : ∃ a, l[i - 1]? = some a := ⟨_, List.getElem?_eq_getElem (by omega)⟩
        refine ⟨validateConsecutiveInputs a x, by rw [if_pos h0, hl.get ha]; rfl, ?_⟩
        rw [validateConsecutive_iff, ha]
        exact ⟨fun h b _ hb => by cases hb; exact h, fun h => h a h0 rfl⟩
      · exact ⟨true, by rw [if_neg h0], by simp [h0]⟩
    have ok2 : ∃ b2, checkNext w v i x = some b2 ∧
        (b2 = true ↔ ∀ b, l[i + 1]? = some b → Follows x b) := by
      unfold checkNext
      rw [hl.size]
      by_cases h0 : i + 1 < l.length
      · obtain ⟨a, ha⟩ : ∃ a, l[i + 1]? = some a := ⟨_, List.getElem?_eq_getElem h0⟩
        refine ⟨validateConsecutiveInputs x a, by rw [if_pos h0, hl.get ha]; rfl, ?_⟩
        rw [validateConsecutive_iff, ha]
        exact ⟨fun h b hb => by cases hb; exact h, fun h => h a rfl⟩
      · refine ⟨true, by rw [if_neg h0], ?_⟩
        rw [List.getElem?_eq_none (by omega)]; simp
    obtain ⟨b1, e1, hb1⟩ := ok1
    obtain ⟨b2, e2, hb2⟩ := ok2
    have hcan : CanSet l i x ↔ b1 = true ∧ b2 = true := by
      rw [hb1, hb2]; unfold CanSet; simp [hval, h1]
    rw [hcan]
    simp only [e1, Option.bind_eq_bind, Option.bind_some]
    cases b1 with
    | false => simp
    | true =>
      simp only [Bool.not_true, Bool.false_eq_true, if_false]
      cases b2 with
      | false => simp [e2]
      | true =>
        simp only [and_self, true_implies, not_true_eq_false, false_implies, and_true]
        rw [e2]
        simp only [Option.bind_some, Bool.not_true, Bool.false_eq_true, if_false, hd]
        -- the format of `x` is the format of the batch, through a neighbour
        have hfx : Fmt0 (w.var v) x := by
          by_cases h0 : 0 < i
          · obtain ⟨a, ha⟩ : ∃ a, l[i - 1]? = some a :=
              ⟨_, List.getElem?_eq_getElem (by omega)⟩
            have hfo := hb1.1 rfl a h0 ha
            have hfa := hff a (List.mem_of_getElem? ha)
            obtain ⟨f1, f2, f3, f4⟩ := hfo.1.flags
            exact ⟨f1 ▸ hfa.tool, f2 ▸ hfa.p, f3 ▸ hfa.t, f4 ▸ hfa.o⟩
          · obtain ⟨a, ha⟩ : ∃ a, l[i + 1]? = some a :=
              ⟨_, List.getElem?_eq_getElem (by omega)⟩
            have hfo := hb2.1 rfl a ha
            have hfa := hff a (List.mem_of_getElem? ha)
            obtain ⟨f1, f2, f3, f4⟩ := hfo.1.flags
            exact ⟨f1 ▸ hfa.tool, f2 ▸ hfa.p, f3 ▸ hfa.t, f4 ▸ hfa.o⟩
        rw [encodeAs_eq hfx]
        have hlen : ¬ (l.flatMap encode).length < i * (w.var v).stride + (encode x).length := by
          rw [flatMap_length hff, encode_length hfx, ← Nat.succ_mul, not_lt]
          exact Nat.mul_le_mul_right _ hi
        rw [if_neg hlen]
        obtain ⟨w1, e3, u1⟩ := upd_mutate hI.1 hv hd (fun d =>
          d.take (i * (w.var v).stride) ++ encode x ++
            d.drop (i * (w.var v).stride + (encode x).length))
        rw [set_flatMap hff hi x hfx] at u1
        rw [e3]
        refine ⟨w1, rfl, ?_⟩
        have hen : (l.set i x).flatMap encode = (l.set i (conform l x)).flatMap encode := by
          have : ∀ (m : List Input) (k : Nat), (m.set k x).flatMap encode =
              (m.set k (conform l x)).flatMap encode := by
            intro m
            induction m with
            | nil => intro k; rfl
            | cons a t ih =>
              intro k
              cases k with
              | zero => simp [List.flatMap_cons, encode_conform]
              | succ k => simp [List.flatMap_cons, ih]
          exact this l i
        rw [hen] at u1
        refine finish_upd hI hv u1 (Rep.mk' (by simpa using hne) ?_ rfl ?_)
        · rw [List.length_set]; exact hl.size
        · intro y hy
          rcases List.mem_or_eq_of_mem_set hy with h | rfl
          · exact hfmt y h
          · have hhead : l.head?.map Input.unitLength = some (w.var v).unitLength := by
              cases l with
              | nil => exact absurd rfl hne
              | cons a t => simp; exact (hfmt a (by simp)).unit
            have hcf : ∀ m, (conform m x).tool = x.tool ∧
                (conform m x).hasPressure = x.hasPressure ∧
                (conform m x).hasTilt = x.hasTilt ∧
                (conform m x).hasOrientation = x.hasOrientation := by
              intro m; cases m <;> exact ⟨rfl, rfl, rfl, rfl⟩
            obtain ⟨g1, g2, g3, g4⟩ := hcf l
            refine ⟨⟨?_, ?_, ?_, ?_⟩, ?_⟩
            · rw [g1]; exact hfx.tool
            · rw [g2]; exact hfx.p
            · rw [g3]; exact hfx.t
            · rw [g4]; exact hfx.o
            · cases l with
              | nil => exact absurd rfl hne
              | cons a t => exact (hfmt a (by simp)).unit

/-! ### Construction, copies and moves -/

/-- The state of an object is well formed: it holds a list, or has been moved from. -/
def Good (w : World) (v : Nat) : Prop := (∃ l, Holds w v l) ∨ MovedFrom w v

theorem construct_var {w : World} {b : Batch} {u : Nat} (hu : u < w.n) :
    (construct w b).var u = w.var u := by
  simp [construct, Function.update_of_ne (Nat.ne_of_lt hu)]

theorem construct_value {w : World} {b : Batch} {u : Nat} (hu : u < w.n) :
    (construct w b).value u = w.value u := by
  unfold World.value; rw [construct_var hu]; rfl

theorem construct_inv {w : World} {b : Batch} (hI : Inv w)
    (hb : ∀ l, b.data = some l → l < w.next) (hg : Good (construct w b) w.n) :
    Inv (construct w b) ∧ observe (construct w b) = observe w ++ [contents (construct w b) w.n] := by
  have hn : (construct w b).n = w.n + 1 := rfl
  refine ⟨⟨?_, ?_⟩, ?_⟩
  · intro u hu l hl
    rw [hn] at hu
    rcases Nat.lt_succ_iff_lt_or_eq.1 hu with h | rfl
    · rw [construct_var h] at hl; exact hI.1 u h l hl
    · simp [construct] at hl; exact hb l hl
  · intro u hu
    rw [hn] at hu
    rcases Nat.lt_succ_iff_lt_or_eq.1 hu with h | rfl
    · rcases hI.2 u h with ⟨l, hl⟩ | hm
      · left; refine ⟨l, ?_⟩
        unfold Holds; rw [construct_var h, construct_value h]; exact hl
      · right; unfold MovedFrom; rw [construct_var h, construct_value h]; exact hm
    · exact hg
  · unfold observe
    rw [hn, List.range_succ, List.map_append, List.map_singleton]
    congr 1
    apply List.map_congr_left
    intro u hu
    rw [List.mem_range] at hu
    unfold contents
    rw [construct_var hu, firstInputs_congr (construct_var hu) (construct_value hu)]

theorem good_congr {w w' : World} {v u : Nat} (h1 : w'.var v = w.var u)
    (h2 : w'.value v = w.value u) (h : Good w u) : Good w' v := by
  rcases h with ⟨l, hl⟩ | hm
  · left; refine ⟨l, ?_⟩; unfold Holds; rw [h1, h2]; exact hl
  · right; unfold MovedFrom; rw [h1, h2]; exact hm

theorem contents_congr {w w' : World} {v u : Nat} (h1 : w'.var v = w.var u)
    (h2 : w'.value v = w.value u) : contents w' v = contents w u := by
  have hg : ∀ i, get w' v i = get w u i := by intro i; unfold Batch.get; rw [h1, h2]
  have : ∀ k, firstInputs w' v k = firstInputs w u k := by
    intro k
    induction k with
    | zero => rfl
    | succ k ih => simp only [firstInputs, ih, hg]
  unfold contents; rw [h1, this]

theorem new_var {w : World} {b : Batch} : (construct w b).var w.n = b := by simp [construct]

theorem construct_copy {w : World} {u : Nat} (hI : Inv w) (hu : u < w.n) :
    Inv (construct w (w.var u)) ∧
      observe (construct w (w.var u)) = observe w ++ [contents w u] := by
  have h1 : (construct w (w.var u)).var w.n = w.var u := new_var
  have h2 : (construct w (w.var u)).value w.n = w.value u := by
    unfold World.value; rw [h1]; rfl
  have := construct_inv (b := w.var u) hI (hI.1 u hu) (good_congr h1 h2 (hI.2 u hu))
  rw [contents_congr h1 h2] at this
  exact this

theorem construct_new {w : World} (hI : Inv w) :
    Inv (construct w {}) ∧ observe (construct w {}) = observe w ++ [some []] ∧
      Holds (construct w {}) w.n [] := by
  have h1 : (construct w {}).var w.n = {} := new_var
  have h2 : (construct w {}).value w.n = none := by unfold World.value; rw [h1]; rfl
  have hh : Holds (construct w {}) w.n [] := by
    unfold Holds; rw [h1, h2]; exact ⟨rfl, Or.inl rfl, rfl⟩
  have := construct_inv (b := {}) hI (by simp) (Or.inl ⟨_, hh⟩)
  rw [hh.contents] at this
  exact ⟨this.1, this.2, hh⟩

theorem inv_of_upd_good {w w' : World} {v : Nat} {b d} (hI : Inv w) (h : Upd w w' v b d)
    (hg : Good w' v) : Inv w' := by
  refine ⟨h.fresh, fun u hu => ?_⟩
  rw [h.frame.1] at hu
  by_cases huv : u = v
  · subst huv; exact hg
  · rcases hI.2 u hu with ⟨l', hl⟩ | hm
    · exact Or.inl ⟨l', h.frame.holds hu huv hl⟩
    · exact Or.inr (h.frame.movedFrom hu huv hm)

theorem reset_inv {w : World} {u : Nat} (hI : Inv w) (hu : u < w.n) :
    Inv (w.reset u) ∧ observe (w.reset u) = (observe w).set u
      (if contents w u = some [] then contents w u else none) := by
  have h := upd_reset (v := u) hI.1
  have hsz : ((w.reset u).var u).size = (w.var u).size := by rw [h.size]; rfl
  have hg : Good (w.reset u) u ∧ contents (w.reset u) u =
      (if contents w u = some [] then contents w u else none) := by
    rcases hI.2 u hu with ⟨l, hl⟩ | hm
    · by_cases hne : l = []
      · subst hne
        have : Holds (w.reset u) u [] := by
          unfold Holds; rw [h.mem, h.val]
          exact ⟨hl.1, Or.inl rfl, hl.2.2⟩
        exact ⟨Or.inl ⟨_, this⟩, by rw [this.contents, hl.contents]; simp⟩
      · have : MovedFrom (w.reset u) u := by
          refine ⟨?_, h.val⟩
          rw [hsz, hl.size]; exact List.length_pos_iff.2 hne
        exact ⟨Or.inr this, by rw [this.contents, hl.contents]; simp [hne]⟩
    · have : MovedFrom (w.reset u) u := ⟨by rw [hsz]; exact hm.1, h.val⟩
      exact ⟨Or.inr this, by rw [this.contents, hm.contents]; simp⟩
  exact ⟨inv_of_upd_good hI h hg.1, observe_set h.frame hu hg.2⟩

theorem upd_assign {w : World} {v u : Nat} (hf : Fresh w) (hu : u < w.n) :
    Upd w (copyAssign w v u) v (members (w.var u)) (w.value u) := by
  refine ⟨⟨rfl, fun k hk hne => ?_⟩, ?_, ?_, ?_⟩
  · simp [copyAssign, World.setVar, World.value, Function.update_of_ne hne]
  · intro k hk l hl
    by_cases h : k = v
    · subst h; simp [copyAssign, World.setVar] at hl
      exact hf u hu l hl
    · simp [copyAssign, World.setVar, Function.update_of_ne h] at hl
      exact hf k hk l hl
  · simp [copyAssign, World.setVar]
  · simp [copyAssign, World.setVar, World.value]

theorem assign_inv {w : World} {v u : Nat} (hI : Inv w) (hv : v < w.n) (hu : u < w.n) :
    Inv (copyAssign w v u) ∧ observe (copyAssign w v u) = (observe w).set v (contents w u) := by
  have h := upd_assign (v := v) hI.1 hu
  have h1 : (copyAssign w v u).var v = w.var u := by simp [copyAssign, World.setVar]
  refine ⟨inv_of_upd_good hI h (good_congr h1 h.val (hI.2 u hu)),
    observe_set h.frame hv (contents_congr h1 h.val)⟩

theorem deepCopy_spec {w : World} {u : Nat} (hI : Inv w) (hu : u < w.n) :
    ∃ w', makeDeepCopy w u = some (true, w') ∧ Inv w' ∧
      observe w' = observe w ++ [contents w u] := by
  obtain ⟨hI1, ho1⟩ := construct_copy hI hu
  unfold makeDeepCopy
  have h1 : (construct w (w.var u)).var w.n = w.var u := new_var
  by_cases hh : (construct w (w.var u)).hasValue w.n = true
  · simp only [hh, if_true]
    obtain ⟨l, hl⟩ := Option.isSome_iff_exists.1 hh
    have hv : (construct w (w.var u)).value w.n = some ((construct w (w.var u)).heap l) := by
      unfold World.value; rw [hl]; rfl
    rw [hv]
    simp only [Option.bind_eq_bind, Option.bind_some]
    refine ⟨_, rfl, ?_⟩
    have he := upd_emplace (w := construct w (w.var u)) (v := w.n) hI1.1
      ((construct w (w.var u)).heap l)
    have hlt : w.n < (construct w (w.var u)).n := Nat.lt_succ_self _
    have hgd : Good ((construct w (w.var u)).emplace w.n ((construct w (w.var u)).heap l)) w.n := by
      rcases hI1.2 w.n hlt with ⟨l', hl'⟩ | hm
      · left; refine ⟨l', ?_⟩; unfold Holds; rw [he.mem, he.val, ← hv]; exact hl'
      · rw [hm.2] at hv; cases hv
    have hc : contents ((construct w (w.var u)).emplace w.n ((construct w (w.var u)).heap l)) w.n
        = contents (construct w (w.var u)) w.n := by
      rcases hI1.2 w.n hlt with ⟨l', hl'⟩ | hm
      · have : Holds ((construct w (w.var u)).emplace w.n ((construct w (w.var u)).heap l)) w.n l' := by
          unfold Holds; rw [he.mem, he.val, ← hv]; exact hl'
        rw [this.contents, hl'.contents]
      · rw [hm.2] at hv; cases hv
    refine ⟨inv_of_upd_good hI1 he hgd, ?_⟩
    rw [observe_set he.frame hlt hc, ho1]
    have : contents (construct w (w.var u)) w.n = contents w u :=
      contents_congr h1 (by unfold World.value; rw [h1]; rfl)
    rw [this, ← observe_length w, List.set_append_right _ _ (Nat.le_refl _)]
    simp
  · simp only [hh]
    exact ⟨_, rfl, hI1, ho1⟩

theorem create_spec {w : World} (hI : Inv w) (xs : List Input) :
    (ValidSeq xs → ∃ w', create w xs = some (true, w') ∧ Inv w' ∧
      observe w' = observe w ++ [some (joined [] xs)]) ∧
    (¬ ValidSeq xs → create w xs = some (false, w)) := by
  obtain ⟨hI1, ho1, hh1⟩ := construct_new hI
  unfold create
  cases xs with
  | nil =>
    refine ⟨fun _ => ⟨_, rfl, hI1, ?_⟩, fun h => absurd ⟨by simp, List.IsChain.nil⟩ h⟩
    rw [ho1]; rfl
  | cons i is =>
    have hlt : w.n < (construct w {}).n := Nat.lt_succ_self _
    have he := upd_emplace (w := construct w {}) (v := w.n) hI1.1 []
    have hv1 : (construct w {}).var w.n = {} := new_var
    have hrep : Rep (members ((construct w {}).var w.n)) (some []) [] := by
      rw [hv1]; exact ⟨rfl, Or.inr rfl, rfl⟩
    obtain ⟨hI2, hh2⟩ := hI1.upd he hrep
    have ho2 := observe_set he.frame hlt hh2.contents
    have hlt2 : w.n < ((construct w {}).emplace w.n []).n := hlt
    obtain ⟨a, b⟩ := appendSpan_spec hI2 hlt2 hh2 (i :: is)
    have hcan : CanAppend [] (i :: is) ↔ ValidSeq (i :: is) := by simp [CanAppend]
    rw [hcan] at a b
    simp only [List.isEmpty_cons, Bool.false_eq_true, if_false, Option.bind_eq_bind]
    constructor
    · intro h
      obtain ⟨w', e, hI', _, ho⟩ := a h
      rw [e]
      refine ⟨w', rfl, hI', ?_⟩
      rw [ho, ho2, ho1, ← observe_length w, List.set_append_right _ _ (Nat.le_refl _),
        List.set_append_right _ _ (Nat.le_refl _)]
      simp
    · intro h
      rw [b h]; rfl

end Verif.Batch
