import Verif.Spec.StrokeInputBatch
import Verif.F32.Ops
import Mathlib.Data.Finset.Card
import Mathlib.Data.List.Nodup
import Mathlib.Data.List.Dedup
import Mathlib.Data.List.Chain

/-!
# Lemmas about the batch machine
-/

set_option autoImplicit false

namespace Verif.Batch

open Verif F32

/-! ### Copy-on-write primitives -/

/-- The inline members. -/
def members (b : Batch) : Batch := { b with data := none }

/-- Every pointer points to an allocated vector. -/
def Fresh (w : World) : Prop := ∀ v < w.n, ∀ l, (w.var v).data = some l → l < w.next

/-- Objects other than `v` are untouched. -/
def Frame (w w' : World) (v : Nat) : Prop :=
  w'.n = w.n ∧ ∀ u < w.n, u ≠ v → w'.var u = w.var u ∧ w'.value u = w.value u

/-- `w'` is `w` with the members and the vector of `v` replaced. -/
structure Upd (w w' : World) (v : Nat) (b : Batch) (d : Option (List F32)) : Prop where
  frame : Frame w w' v
  fresh : Fresh w'
  mem : members (w'.var v) = b
  val : w'.value v = d

theorem Frame.trans {w w1 w2 : World} {v : Nat} (h : Frame w w1 v) (h' : Frame w1 w2 v) :
    Frame w w2 v := by
  refine ⟨h'.1.trans h.1, fun u hu hne => ?_⟩
  have a := h.2 u hu hne
  have b := h'.2 u (by rw [h.1]; exact hu) hne
  exact ⟨b.1.trans a.1, b.2.trans a.2⟩

theorem Upd.trans {w w1 w2 : World} {v : Nat} {b1 b2 d1 d2} (h : Upd w w1 v b1 d1)
    (h' : Upd w1 w2 v b2 d2) : Upd w w2 v b2 d2 :=
  ⟨h.frame.trans h'.frame, h'.fresh, h'.mem, h'.val⟩

theorem Upd.refl {w : World} (hf : Fresh w) (v : Nat) : Upd w w v (members (w.var v)) (w.value v) :=
  ⟨⟨rfl, fun _ _ _ => ⟨rfl, rfl⟩⟩, hf, rfl, rfl⟩

theorem Upd.size {w w' : World} {v : Nat} {b d} (h : Upd w w' v b d) :
    (w'.var v).size = b.size := by rw [← h.mem]; rfl

theorem Upd.lt {w w' : World} {v : Nat} {b d} (h : Upd w w' v b d) (hv : v < w.n) : v < w'.n := by
  rw [h.frame.1]; exact hv

theorem value_none {w : World} {v : Nat} : w.value v = none ↔ (w.var v).data = none := by
  unfold World.value; simp

theorem value_some {w : World} {v : Nat} {d} (h : w.value v = some d) :
    ∃ l, (w.var v).data = some l ∧ w.heap l = d := by
  unfold World.value at h; simpa using h

theorem not_shared {w : World} {v u l : Nat} (hv : v < w.n) (hu : u < w.n) (hne : u ≠ v)
    (hl : (w.var v).data = some l) (hs : w.isShared v = false) : (w.var u).data ≠ some l := by
  intro hul
  unfold World.isShared at hs
  rw [hl] at hs
  simp only [decide_eq_false_iff_not, gt_iff_lt, not_lt] at hs
  unfold World.useCount at hs
  rw [List.countP_eq_length_filter] at hs
  have hnd : ((List.range w.n).filter fun i => (w.var i).data == some l).Nodup :=
    List.nodup_range.filter _
  rw [← List.toFinset_card_of_nodup hnd] at hs
  have : 1 < (((List.range w.n).filter fun i => (w.var i).data == some l).toFinset).card := by
    rw [Finset.one_lt_card]
    refine ⟨u, ?_, v, ?_, hne⟩
    · simp [hu, hul]
    · simp [hv, hl]
  omega

theorem upd_setVar {w : World} {v : Nat} (hf : Fresh w) (hv : v < w.n) (b : Batch)
    (hb : b.data = (w.var v).data) : Upd w (w.setVar v b) v (members b) (w.value v) := by
  refine ⟨⟨rfl, fun u hu hne => ?_⟩, ?_, ?_, ?_⟩
  · simp [World.setVar, World.value, Function.update_of_ne hne]
  · intro u hu l hl
    by_cases h : u = v
    · subst h; simp [World.setVar] at hl
      exact hf u hu l (hb ▸ hl)
    · simp [World.setVar, Function.update_of_ne h] at hl
      exact hf u hu l hl
  · simp [World.setVar]
  · simp [World.setVar, World.value, hb]

theorem upd_reset {w : World} {v : Nat} (hf : Fresh w) :
    Upd w (w.reset v) v (members (w.var v)) none := by
  refine ⟨⟨rfl, fun u hu hne => ?_⟩, ?_, ?_, ?_⟩
  · simp [World.reset, World.setVar, World.value, Function.update_of_ne hne]
  · intro u hu l hl
    by_cases h : u = v
    · subst h; simp [World.reset, World.setVar] at hl
    · simp [World.reset, World.setVar, Function.update_of_ne h] at hl
      exact hf u hu l hl
  · simp [World.reset, World.setVar, members]
  · simp [World.reset, World.setVar, World.value]

theorem upd_emplace {w : World} {v : Nat} (hf : Fresh w) (d : List F32) :
    Upd w (w.emplace v d) v (members (w.var v)) (some d) := by
  refine ⟨⟨rfl, fun u hu hne => ?_⟩, ?_, ?_, ?_⟩
  · have hd : ∀ l, (w.var u).data = some l → l ≠ w.next := fun l hl =>
      Nat.ne_of_lt (hf u hu l hl)
    simp only [World.emplace, Function.update_of_ne hne, World.value, true_and]
    cases hl : (w.var u).data with
    | none => rfl
    | some l => simp [Function.update_of_ne (hd l hl)]
  · intro u hu l hl
    by_cases h : u = v
    · subst h; simp [World.emplace] at hl ⊢; omega
    · simp [World.emplace, Function.update_of_ne h] at hl ⊢
      have := hf u hu l hl; omega
  · simp [World.emplace, members]
  · simp [World.emplace, World.value]

theorem upd_mutate {w : World} {v : Nat} (hf : Fresh w) (hv : v < w.n) {d : List F32}
    (hd : w.value v = some d) (f : List F32 → List F32) :
    ∃ w', w.mutate v f = some w' ∧ Upd w w' v (members (w.var v)) (some (f d)) := by
  obtain ⟨l, hl, hld⟩ := value_some hd
  unfold World.mutate
  rw [hl]
  by_cases hs : w.isShared v = true
  · have hu := upd_emplace (v := v) hf (w.heap l)
    simp only [hs, if_true]
    have hdata : ((w.emplace v (w.heap l)).var v).data = some w.next := by simp [World.emplace]
    rw [hdata]
    refine ⟨_, rfl, ⟨rfl, ?_⟩, ?_, ?_, ?_⟩
    · intro u hu' hne
      have h1 := hu.frame.2 u hu' hne
      refine ⟨h1.1, ?_⟩
      rw [← h1.2]
      simp only [World.value]
      cases hul : ((w.emplace v (w.heap l)).var u).data with
      | none => rfl
      | some k =>
        have hk : k ≠ w.next := by
          rw [h1.1] at hul
          exact Nat.ne_of_lt (hf u hu' k hul)
        simp [Function.update_of_ne hk]
    · exact hu.fresh
    · exact hu.mem
    · simp [World.value, World.emplace, hld]
  · have hs' : w.isShared v = false := by simpa using hs
    simp only [hs', Bool.false_eq_true, if_false, hl]
    refine ⟨_, rfl, ⟨rfl, ?_⟩, ?_, rfl, ?_⟩
    · intro u hu hne
      refine ⟨rfl, ?_⟩
      simp only [World.value]
      cases hul : (w.var u).data with
      | none => rfl
      | some k =>
        have hk : k ≠ l := by
          rintro rfl
          exact not_shared hv hu hne hl hs' hul
        simp [Function.update_of_ne hk]
    · exact hf
    · simp [World.value, hl, hld]

/-! ### Encoding -/

theorem feq_kMinusOne {a : F32} : F32.feq a kMinusOne = true ↔ a = kMinusOne := by
  constructor
  · intro h
    have hk : kMinusOne = fin true 0x3F800000 (by decide) := by decide
    rw [hk] at h ⊢
    cases a with
    | nan => simp [F32.feq, isNaN] at h
    | inf s => revert h; cases s <;> decide
    | fin s n hn =>
      simp [F32.feq, isNaN, key] at h
      cases s
      · simp at h
      · simp at h
        have h' : n = 1065353216 := by omega
        subst h'; rfl
  · rintro rfl; decide

theorem hasPressure_iff {i : Input} : i.hasPressure = false ↔ i.pressure = kMinusOne := by
  unfold Input.hasPressure; rw [Bool.not_eq_false', feq_kMinusOne]
theorem hasTilt_iff {i : Input} : i.hasTilt = false ↔ i.tilt = kMinusOne := by
  unfold Input.hasTilt; rw [Bool.not_eq_false', feq_kMinusOne]
theorem hasOrientation_iff {i : Input} : i.hasOrientation = false ↔ i.orientation = kMinusOne := by
  unfold Input.hasOrientation; rw [Bool.not_eq_false', feq_kMinusOne]

/-- The inline members describe the input, except possibly its unit length. -/
structure Fmt0 (b : Batch) (x : Input) : Prop where
  tool : x.tool = b.tool
  p : x.hasPressure = b.hasPressure
  t : x.hasTilt = b.hasTilt
  o : x.hasOrientation = b.hasOrientation

/-- The inline members describe the input. -/
structure Fmt (b : Batch) (x : Input) : Prop extends Fmt0 b x where
  unit : x.unitLength = b.unitLength

theorem encode_length {b : Batch} {x : Input} (h : Fmt0 b x) : (encode x).length = b.stride := by
  unfold encode Batch.stride floatsPerInput
  rw [h.p, h.t, h.o]
  cases b.hasPressure <;> cases b.hasTilt <;> cases b.hasOrientation <;> rfl

theorem encodeAs_eq {b : Batch} {x : Input} (h : Fmt0 b x) : encodeAs b x = encode x := by
  unfold encode encodeAs; rw [h.p, h.t, h.o]

theorem stride_pos (b : Batch) : 3 ≤ b.stride := by
  unfold Batch.stride floatsPerInput; omega

theorem decode_encode {b : Batch} {x : Input} (h : Fmt b x) (rest : List F32) :
    decode b (encode x ++ rest) = some x := by
  have hp := hasPressure_iff (i := x)
  have ht := hasTilt_iff (i := x)
  have ho := hasOrientation_iff (i := x)
  unfold decode encode
  rw [h.p] at hp ⊢
  rw [h.t] at ht ⊢
  rw [h.o] at ho ⊢
  rw [← h.tool, ← h.unit]
  clear h
  obtain ⟨xt, xx, xy, xti, xu, xp, xtl, xo⟩ := x
  generalize b.hasPressure = P at *
  generalize b.hasTilt = T at *
  generalize b.hasOrientation = O at *
  cases P <;> cases T <;> cases O <;>
    simp_all [next, nextIf]

theorem flatMap_length {b : Batch} : ∀ {l : List Input}, (∀ x ∈ l, Fmt0 b x) →
    (l.flatMap encode).length = l.length * b.stride := by
  intro l
  induction l with
  | nil => intro _; simp
  | cons a t ih =>
    intro h
    simp only [List.flatMap_cons, List.length_append, List.length_cons]
    rw [ih fun x hx => h x (by simp [hx]), encode_length (h a (by simp))]
    rw [Nat.succ_mul]; omega

theorem drop_flatMap {b : Batch} : ∀ (i : Nat) {l : List Input}, (∀ x ∈ l, Fmt0 b x) →
    (l.flatMap encode).drop (i * b.stride) = (l.drop i).flatMap encode := by
  intro i
  induction i with
  | zero => intro l _; simp
  | succ i ih =>
    intro l h
    cases l with
    | nil => simp
    | cons a t =>
      rw [List.flatMap_cons, List.drop_succ_cons, Nat.succ_mul, Nat.add_comm,
        ← List.drop_drop, ← encode_length (h a (by simp)), List.drop_left,
        encode_length (h a (by simp)), ih fun x hx => h x (by simp [hx])]

theorem take_flatMap {b : Batch} : ∀ (i : Nat) {l : List Input}, (∀ x ∈ l, Fmt0 b x) →
    (l.flatMap encode).take (i * b.stride) = (l.take i).flatMap encode := by
  intro i
  induction i with
  | zero => intro l _; simp
  | succ i ih =>
    intro l h
    cases l with
    | nil => simp
    | cons a t =>
      rw [List.flatMap_cons, List.take_succ_cons, Nat.succ_mul, Nat.add_comm,
        ← encode_length (h a (by simp)), List.take_length_add_append,
        encode_length (h a (by simp)), ih fun x hx => h x (by simp [hx]), List.flatMap_cons]

/-! ### Representation invariant -/

/-- The members `b` and the vector `d` hold the list `l`. -/
def Rep (b : Batch) (d : Option (List F32)) (l : List Input) : Prop :=
  b.size = l.length ∧
  match l with
  | [] => (d = none ∨ d = some []) ∧ members b = {}
  | _ => d = some (l.flatMap encode) ∧ ∀ x ∈ l, Fmt b x

/-- Object `v` holds the list `l`. -/
def Holds (w : World) (v : Nat) (l : List Input) : Prop := Rep (members (w.var v)) (w.value v) l

theorem Rep.cons {b d a l} (h : Rep b d (a :: l)) :
    d = some ((a :: l).flatMap encode) ∧ ∀ x ∈ a :: l, Fmt b x := h.2

theorem Rep.data {b d l} (h : Rep b d l) (hl : l ≠ []) :
    d = some (l.flatMap encode) ∧ ∀ x ∈ l, Fmt b x := by
  cases l with
  | nil => exact absurd rfl hl
  | cons a t => exact h.2

theorem Rep.fmt {b d l} (h : Rep b d l) : ∀ x ∈ l, Fmt b x := by
  cases l with
  | nil => simp
  | cons a t => exact h.2.2

theorem Rep.mk' {b d l} (hl : l ≠ []) (hs : b.size = l.length) (hd : d = some (l.flatMap encode))
    (hf : ∀ x ∈ l, Fmt b x) : Rep b d l := by
  cases l with
  | nil => exact absurd rfl hl
  | cons a t => exact ⟨hs, hd, hf⟩

theorem Holds.size {w v l} (h : Holds w v l) : (w.var v).size = l.length := h.1

theorem Holds.fmt' {w v l} (h : Holds w v l) : ∀ x ∈ l, Fmt (w.var v) x := fun x hx =>
  have := Rep.fmt h x hx
  ⟨⟨this.tool, this.p, this.t, this.o⟩, this.unit⟩

theorem Holds.get {w v l} (h : Holds w v l) {i : Nat} {x : Input} (hx : l[i]? = some x) :
    get w v i = some x := by
  have hi : i < l.length := (List.getElem?_eq_some_iff.1 hx).1
  have hne : l ≠ [] := by rintro rfl; simp at hi
  obtain ⟨hd, _⟩ := Rep.data h hne
  have hf := h.fmt'
  unfold Batch.get
  simp only [h.size, hi, if_true, hd, Option.bind_some]
  rw [drop_flatMap i fun x hx => (hf x hx).toFmt0]
  have : l.drop i = x :: l.drop (i + 1) := by
    obtain ⟨h1, h2⟩ := List.getElem?_eq_some_iff.1 hx
    rw [← h2]; exact List.drop_eq_getElem_cons h1
  rw [this, List.flatMap_cons]
  exact decode_encode (hf x (List.mem_of_getElem? hx)) _

theorem Holds.contents {w v l} (h : Holds w v l) : contents w v = some l := by
  have : ∀ k ≤ l.length, firstInputs w v k = some (l.take k) := by
    intro k
    induction k with
    | zero => intro _; simp [firstInputs]
    | succ k ih =>
      intro hk
      have hk' : k < l.length := hk
      simp only [firstInputs, ih (Nat.le_of_lt hk'), Option.bind_eq_bind, Option.bind_some]
      rw [h.get (List.getElem?_eq_getElem hk')]
      simp [List.take_add_one]
  unfold Batch.contents
  rw [h.size, this _ (Nat.le_refl _), List.take_length]

/-- A moved-from object that was not empty. -/
def MovedFrom (w : World) (v : Nat) : Prop := 0 < (w.var v).size ∧ w.value v = none

theorem MovedFrom.contents {w v} (h : MovedFrom w v) : contents w v = none := by
  have h0 : ∀ i, get w v i = none := by
    intro i; unfold Batch.get; simp [h.2]
  unfold Batch.contents
  obtain ⟨k, hk⟩ := Nat.exists_eq_succ_of_ne_zero (Nat.pos_iff_ne_zero.1 h.1)
  rw [hk]
  simp [firstInputs, h0]

/-- The invariant of every history. -/
def Inv (w : World) : Prop :=
  Fresh w ∧ ∀ v < w.n, (∃ l, Holds w v l) ∨ MovedFrom w v

theorem Inv.holds {w : World} (h : Inv w) {v : Nat} (hv : v < w.n) {l}
    (hc : Batch.contents w v = some l) : Holds w v l := by
  rcases h.2 v hv with ⟨l', hl⟩ | hm
  · rw [hl.contents] at hc; cases hc; exact hl
  · rw [hm.contents] at hc; cases hc

theorem Frame.holds {w w' v u l} (h : Frame w w' v) (hu : u < w.n) (hne : u ≠ v)
    (hl : Holds w u l) : Holds w' u l := by
  obtain ⟨h1, h2⟩ := h.2 u hu hne
  unfold Holds; rw [h1, h2]; exact hl

theorem Frame.movedFrom {w w' v u} (h : Frame w w' v) (hu : u < w.n) (hne : u ≠ v)
    (hl : MovedFrom w u) : MovedFrom w' u := by
  obtain ⟨h1, h2⟩ := h.2 u hu hne
  unfold MovedFrom; rw [h1, h2]; exact hl

theorem firstInputs_congr {w w' : World} {u : Nat} (h1 : w'.var u = w.var u)
    (h2 : w'.value u = w.value u) (k : Nat) : firstInputs w' u k = firstInputs w u k := by
  have hg : ∀ i, get w' u i = get w u i := by intro i; unfold Batch.get; rw [h1, h2]
  induction k with
  | zero => rfl
  | succ k ih => simp only [firstInputs, ih, hg]

theorem Frame.contents {w w' v u} (h : Frame w w' v) (hu : u < w.n) (hne : u ≠ v) :
    contents w' u = contents w u := by
  obtain ⟨h1, h2⟩ := h.2 u hu hne
  unfold Batch.contents; rw [h1, firstInputs_congr h1 h2]

theorem observe_set {w w' : World} {v : Nat} (h : Frame w w' v) (hv : v < w.n) {c}
    (hc : contents w' v = c) : observe w' = (observe w).set v c := by
  apply List.ext_getElem
  · simp [observe, h.1]
  · intro i h1 h2
    simp only [observe, List.length_map, List.length_range] at h1
    rw [h.1] at h1
    by_cases hi : v = i
    · subst hi
      simp [observe, hc]
    · rw [List.getElem_set_ne hi]
      simp [observe, h.contents h1 (Ne.symm hi)]

theorem Inv.upd {w w' : World} {v : Nat} {b d l} (hI : Inv w) (h : Upd w w' v b d)
    (hr : Rep b d l) : Inv w' ∧ Holds w' v l := by
  have hh : Holds w' v l := by unfold Holds; rw [h.mem, h.val]; exact hr
  refine ⟨⟨h.fresh, fun u hu => ?_⟩, hh⟩
  rw [h.frame.1] at hu
  by_cases huv : u = v
  · subst huv; exact Or.inl ⟨l, hh⟩
  · rcases hI.2 u hu with ⟨l', hl⟩ | hm
    · exact Or.inl ⟨l', h.frame.holds hu huv hl⟩
    · exact Or.inr (h.frame.movedFrom hu huv hm)

/-- The usual end of a proof about one operation: the new object state represents `l`. -/
theorem finish_upd {w w' : World} {v : Nat} {b d l} (hI : Inv w) (hv : v < w.n) (h : Upd w w' v b d)
    (hr : Rep b d l) : Inv w' ∧ observe w' = (observe w).set v (some l) := by
  obtain ⟨h1, h2⟩ := hI.upd h hr
  exact ⟨h1, observe_set h.frame hv h2.contents⟩

theorem observe_getElem? {w : World} {v : Nat} (hv : v < w.n) :
    (observe w)[v]? = some (contents w v) := by simp [observe, hv]

theorem observe_length (w : World) : (observe w).length = w.n := by simp [observe]

/-! ### Validation -/

theorem toRat_kMinusOne : kMinusOne.toRat = -1 ∧ kMinusOne.isFinite = true := by
  refine ⟨?_, by decide⟩
  have : kMinusOne = fin true 0x3F800000 (by decide) := by decide
  rw [this]
  have h : mag 0x3F800000 = 2 ^ 149 := by decide +kernel
  simp only [toRat, h]; norm_num

theorem toRat_kOne : kOne.toRat = 1 ∧ kOne.isFinite = true := by
  refine ⟨?_, by decide⟩
  have : kOne = fin false 0x3F800000 (by decide) := by decide
  rw [this]
  have h : mag 0x3F800000 = 2 ^ 149 := by decide +kernel
  simp only [toRat, h]; norm_num

theorem minusOne_iff {a : F32} (h : a.isFinite = true) :
    F32.feq a kMinusOne = true ↔ a.toRat = -1 := by
  rw [F32.feq_iff h toRat_kMinusOne.2, toRat_kMinusOne.1]

theorem opt_range {a hi : F32} (hhi : hi.isFinite = true) :
    (!a.isFinite || (!F32.feq a kMinusOne && !(F32.ge a F32.zero && F32.le a hi))) = false ↔
    a.isFinite = true ∧ (a.toRat = -1 ∨ 0 ≤ a.toRat ∧ a.toRat ≤ hi.toRat) := by
  by_cases hf : a.isFinite = true
  · have h1 := F32.le_iff (a := F32.zero) (b := a) rfl hf
    have h2 := F32.le_iff hf hhi
    rw [toRat_zero] at h1
    simp only [hf, Bool.not_true, Bool.false_or, true_and, Bool.and_eq_false_iff,
      Bool.not_eq_false', minusOne_iff hf, Bool.and_eq_true, h1, h2]
  · simp [hf]

open Spec

theorem validateSingleInput_iff {i : Input} : validateSingleInput i = true ↔ ValidInput i := by
  unfold validateSingleInput ValidInput
  have hp := opt_range (a := i.pressure) (hi := kOne) toRat_kOne.2
  have ht := opt_range (a := i.tilt) (hi := kQuarterTurn) (by decide)
  have ho := opt_range (a := i.orientation) (hi := kFullTurn) (by decide)
  rw [toRat_kOne.1] at hp
  have htime : (!i.time.isFinite || F32.lt i.time F32.zero) = false ↔
      i.time.isFinite = true ∧ 0 ≤ i.time.toRat := by
    by_cases hf : i.time.isFinite = true
    · have := F32.lt_iff (b := F32.zero) hf rfl
      rw [toRat_zero] at this
      simp only [hf, Bool.not_true, Bool.false_or, true_and, ← Bool.not_eq_true, this, not_lt]
    · simp [hf]
  have hunit : (i.hasUnitLength && !(i.unitLength.isFinite && F32.gt i.unitLength F32.zero))
      = false ↔ i.unitLength.isFinite = true ∧ 0 ≤ i.unitLength.toRat := by
    unfold Input.hasUnitLength
    by_cases hf : i.unitLength.isFinite = true
    · have h1 := F32.lt_iff (a := F32.zero) rfl hf
      have h2 := F32.feq_iff (b := F32.zero) hf rfl
      rw [toRat_zero] at h1 h2
      simp only [hf, Bool.true_and, Bool.and_eq_false_iff, Bool.not_eq_false', h1, h2, true_and]
      constructor
      · rintro (h | h)
        · exact h.ge
        · exact h.le
      · intro h
        rcases h.lt_or_eq with h | h
        · exact Or.inr h
        · exact Or.inl h.symm
    · have : F32.feq i.unitLength F32.zero = false := by
        cases h : i.unitLength with
        | nan => rfl
        | inf s => cases s <;> rfl
        | fin s n hn => rw [h] at hf; simp at hf
      simp [hf, this]
  have htool : ¬ (i.tool ≠ .unknown ∧ i.tool ≠ .mouse ∧ i.tool ≠ .stylus ∧ i.tool ≠ .touch) ↔
      (i.tool = .unknown ∨ i.tool = .mouse ∨ i.tool = .touch ∨ i.tool = .stylus) := by
    cases i.tool <;> simp
  rw [← hp, ← ht, ← ho, ← htime, ← hunit, ← htool]
  unfold Input.hasPressure Input.hasTilt Input.hasOrientation
  constructor
  · intro h
    split_ifs at h with h1 h2 h3 h4 h5 h6 h7
    simp only [Bool.not_eq_true] at h2 h3 h4 h5 h6 h7
    refine ⟨h1, ?_, h3, h4, h5, h6, h7⟩
    simpa using h2
  · rintro ⟨h1, h2, h3, h4, h5, h6, h7⟩
    rw [if_neg h1, h3, h4, h5, h6, h7]
    simp [h2.1, h2.2]

theorem bool_ne_iff {a b : Bool} {p q : Prop} (ha : a = false ↔ p) (hb : b = false ↔ q) :
    ¬ a ≠ b ↔ (p ↔ q) := by
  rw [← ha, ← hb]; cases a <;> cases b <;> simp

theorem validateConsecutive_iff {a b : Input} :
    validateConsecutiveInputs a b = true ↔ Follows a b := by
  unfold validateConsecutiveInputs Follows SameFormat SameTriplet
  have hp := bool_ne_iff (hasPressure_iff (i := a)) (hasPressure_iff (i := b))
  have ht := bool_ne_iff (hasTilt_iff (i := a)) (hasTilt_iff (i := b))
  have ho := bool_ne_iff (hasOrientation_iff (i := a)) (hasOrientation_iff (i := b))
  rw [← hp, ← ht, ← ho]
  constructor
  · intro h
    split_ifs at h with h1 h2 h3 h4 h5 h6 h7
    refine ⟨⟨by simpa using h1, by simpa using h4, h5, h6, h7⟩, ?_, h3⟩
    rintro ⟨e1, e2, e3⟩
    apply h2; simp [e1, e2, e3]
  · rintro ⟨⟨h1, h4, h5, h6, h7⟩, h2, h3⟩
    rw [if_neg (by simpa using h1), if_neg, if_neg h3, if_neg (by simp [h4]), if_neg h5,
      if_neg h6, if_neg h7]
    intro h; apply h2
    simpa [and_assoc] using h

theorem validateRest_iff : ∀ {l : List Input} {a : Input},
    validateRest a l = true ↔ (∀ x ∈ l, ValidInput x) ∧ (a :: l).IsChain Follows := by
  intro l
  induction l with
  | nil => intro a; simp [validateRest]
  | cons b t ih =>
    intro a
    unfold validateRest
    rw [List.isChain_cons_cons]
    have hs := validateSingleInput_iff (i := b)
    have hc := validateConsecutive_iff (a := a) (b := b)
    by_cases h1 : validateSingleInput b = true
    · by_cases h2 : validateConsecutiveInputs a b = true
      · have h1' := hs.1 h1
        have h2' := hc.1 h2
        simp [h1, h2, ih, h1', h2']
      · have h2' : ¬ Follows a b := fun h => h2 (hc.2 h)
        simp [h1, h2, h2']
    · have h1' : ¬ ValidInput b := fun h => h1 (hs.2 h)
      simp [h1, h1']

theorem validateInputSequence_iff {l : List Input} :
    validateInputSequence l = true ↔ ValidSeq l := by
  unfold ValidSeq
  cases l with
  | nil => simp [validateInputSequence]
  | cons a t =>
    unfold validateInputSequence
    have hs := validateSingleInput_iff (i := a)
    by_cases h1 : validateSingleInput a = true
    · have h1' := hs.1 h1
      simp [h1, validateRest_iff, h1']
    · have h1' : ¬ ValidInput a := fun h => h1 (hs.2 h)
      simp [h1, h1']

theorem Spec.SameFormat.trans {a b c : Input} (h : SameFormat a b) (h' : SameFormat b c) :
    SameFormat a c := by
  obtain ⟨h1, h2, h3, h4, h5⟩ := h
  obtain ⟨g1, g2, g3, g4, g5⟩ := h'
  refine ⟨h1.trans g1, ?_, h3.trans g3, h4.trans g4, h5.trans g5⟩
  unfold F32.feq at *
  simp only [Bool.and_eq_true, Bool.not_eq_true', decide_eq_true_eq] at *
  exact ⟨⟨h2.1.1, g2.1.2⟩, h2.2.trans g2.2⟩

/-- Equal formats give equal inline flags. -/
theorem Spec.SameFormat.flags {a b : Input} (h : SameFormat a b) :
    a.tool = b.tool ∧ a.hasPressure = b.hasPressure ∧ a.hasTilt = b.hasTilt ∧
      a.hasOrientation = b.hasOrientation := by
  obtain ⟨h1, h2, h3, h4, h5⟩ := h
  have hp := bool_ne_iff (hasPressure_iff (i := a)) (hasPressure_iff (i := b))
  have ht := bool_ne_iff (hasTilt_iff (i := a)) (hasTilt_iff (i := b))
  have ho := bool_ne_iff (hasOrientation_iff (i := a)) (hasOrientation_iff (i := b))
  exact ⟨h1, by simpa using hp.2 h3, by simpa using ht.2 h4, by simpa using ho.2 h5⟩

end Verif.Batch
