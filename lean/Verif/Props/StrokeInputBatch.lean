import Verif.Lemmas.StrokeInputBatchOps
import Mathlib.Data.List.Pairwise

/-!
# Properties C01 - C04: `ink::StrokeInputBatch`
-/

set_option autoImplicit false

namespace Verif.Batch

open Verif F32

/-! ## C01: a batch behaves as a list of inputs -/

theorem inv_init : Inv World.init := ⟨fun v hv => absurd hv (Nat.not_lt_zero v),
  fun v hv => absurd hv (Nat.not_lt_zero v)⟩

theorem lt_of_join {w : World} {v : Nat} {l : List Input}
    (h : ((observe w)[v]?).join = some l) : v < w.n ∧ contents w v = some l := by
  have hv : v < w.n := by
    by_contra hc
    rw [List.getElem?_eq_none (by rw [observe_length]; omega)] at h
    simp at h
  rw [observe_getElem? hv] at h
  exact ⟨hv, by simpa using h⟩

theorem lt_of_some {w : World} {v : Nat} {c : Option (List Input)}
    (h : (observe w)[v]? = some c) : v < w.n ∧ contents w v = c := by
  have hv : v < w.n := by
    by_contra hc
    rw [List.getElem?_eq_none (by rw [observe_length]; omega)] at h
    simp at h
  rw [observe_getElem? hv] at h
  exact ⟨hv, by simpa using h⟩

/-- **C01, one call.** In every reachable program state, a call that respects its contract succeeds,
returns the status of the list specification and leaves every batch with the contents of the list
specification. -/
theorem C01_call_refines_list {w : World} {op : Op} {b : Bool} {S' : Spec.State} (hI : Inv w)
    (h : Spec.step (observe w) op = some (b, S')) :
    ∃ w', step w op = some (b, w') ∧ Inv w' ∧ observe w' = S' := by
  cases op with
  | new =>
    simp only [Spec.step, Option.some.injEq, Prod.mk.injEq] at h
    obtain ⟨rfl, rfl⟩ := h
    obtain ⟨a, c, _⟩ := construct_new hI
    exact ⟨_, by simp [step, Op.operands], a, c⟩
  | create xs =>
    simp only [Spec.step] at h
    obtain ⟨p, q⟩ := create_spec hI xs
    split_ifs at h with hv
    · simp only [Option.some.injEq, Prod.mk.injEq] at h
      obtain ⟨rfl, rfl⟩ := h
      obtain ⟨w', e, i, o⟩ := p hv
      exact ⟨w', by simp [step, Op.operands, e], i, o⟩
    · simp only [Option.some.injEq, Prod.mk.injEq] at h
      obtain ⟨rfl, rfl⟩ := h
      exact ⟨w, by simp [step, Op.operands, q hv], hI, rfl⟩
  | copy u =>
    simp only [Spec.step, Option.map_eq_some_iff, Prod.mk.injEq] at h
    obtain ⟨c, hc, rfl, rfl⟩ := h
    obtain ⟨hu, rfl⟩ := lt_of_some hc
    obtain ⟨i, o⟩ := construct_copy hI hu
    exact ⟨_, by simp [step, Op.operands, hu], i, o⟩
  | move u =>
    simp only [Spec.step, Option.map_eq_some_iff, Prod.mk.injEq] at h
    obtain ⟨c, hc, rfl, rfl⟩ := h
    obtain ⟨hu, rfl⟩ := lt_of_some hc
    obtain ⟨i, o⟩ := construct_copy hI hu
    have hne : u ≠ w.n := Nat.ne_of_lt hu
    have e : (construct w (w.var u)).setVar u { w.var u with data := none } =
        (construct w (w.var u)).reset u := by
      unfold World.reset; rw [construct_var hu]
    have hcont : contents (construct w (w.var u)) u = contents w u :=
      contents_congr (construct_var hu) (construct_value hu)
    obtain ⟨i', o'⟩ := reset_inv i (u := u) (Nat.lt_succ_of_lt hu)
    refine ⟨_, by simp [step, Op.operands, hu], e ▸ i', ?_⟩
    rw [e, o', o, hcont, List.set_append_left _ _ (by rw [observe_length]; exact hu)]
  | copyAssign v u =>
    simp only [Spec.step] at h
    split_ifs at h with hv
    rw [observe_length] at hv
    simp only [Option.map_eq_some_iff, Prod.mk.injEq] at h
    obtain ⟨c, hc, rfl, rfl⟩ := h
    obtain ⟨hu, rfl⟩ := lt_of_some hc
    obtain ⟨i, o⟩ := assign_inv hI hv hu
    exact ⟨_, by simp [step, Op.operands, hu, hv], i, o⟩
  | moveAssign v u =>
    simp only [Spec.step] at h
    by_cases hv : v < (observe w).length
    swap
    · rw [if_neg hv] at h; cases h
    rw [if_pos hv] at h
    rw [observe_length] at hv
    simp only [Option.map_eq_some_iff, Prod.mk.injEq] at h
    obtain ⟨c, hc, rfl, rfl⟩ := h
    obtain ⟨hu, rfl⟩ := lt_of_some hc
    by_cases hvu : v = u
    · subst hvu
      exact ⟨w, by simp [step, Op.operands, hu, moveAssign], hI, by simp⟩
    · obtain ⟨i, o⟩ := assign_inv hI hv hu
      have hvar : (copyAssign w v u).var u = w.var u := by
        simp [copyAssign, World.setVar, Function.update_of_ne (Ne.symm hvu)]
      have hval : (copyAssign w v u).value u = w.value u := by
        unfold World.value; rw [hvar]; rfl
      have e : moveAssign w v u = (copyAssign w v u).reset u := by
        unfold moveAssign World.reset
        rw [if_neg hvu, hvar]; rfl
      obtain ⟨i', o'⟩ := reset_inv i (u := u) hu
      refine ⟨_, by simp [step, Op.operands, hu, hv], e ▸ i', ?_⟩
      rw [e, o', o, contents_congr hvar hval, if_neg hvu]
  | deepCopy u =>
    simp only [Spec.step, Option.map_eq_some_iff, Prod.mk.injEq] at h
    obtain ⟨c, hc, rfl, rfl⟩ := h
    obtain ⟨hu, rfl⟩ := lt_of_some hc
    obtain ⟨w', e, i, o⟩ := deepCopy_spec hI hu
    exact ⟨w', by simp [step, Op.operands, hu, e], i, o⟩
  | clear v =>
    simp only [Spec.step] at h
    split_ifs at h with hv
    rw [observe_length] at hv
    simp only [Option.some.injEq, Prod.mk.injEq] at h
    obtain ⟨rfl, rfl⟩ := h
    obtain ⟨w', d, e, u, hd⟩ := clear_upd hI.1 hv
    obtain ⟨i, o⟩ := finish_upd hI hv u (l := []) ⟨rfl, hd, rfl⟩
    exact ⟨w', by simp [step, Op.operands, hv, e], i, o⟩
  | set v k x =>
    simp only [Spec.step, Option.bind_eq_some_iff] at h
    obtain ⟨l, hl, h⟩ := h
    obtain ⟨hv, hc⟩ := lt_of_join hl
    have hh := hI.holds hv hc
    by_cases hk : k < l.length
    swap
    · rw [if_neg hk] at h; cases h
    rw [if_pos hk] at h
    by_cases hcan : Spec.CanSet l k x
    · rw [if_pos hcan] at h
      simp only [Option.some.injEq, Prod.mk.injEq] at h
      obtain ⟨rfl, rfl⟩ := h
      obtain ⟨w', e, i, o⟩ := (set_spec hI hv hh hk x).1 hcan
      exact ⟨w', by simp [step, Op.operands, hv, e], i, o⟩
    · rw [if_neg hcan] at h
      simp only [Option.some.injEq, Prod.mk.injEq] at h
      obtain ⟨rfl, rfl⟩ := h
      exact ⟨w, by simp [step, Op.operands, hv, (set_spec hI hv hh hk x).2 hcan], hI, rfl⟩
  | append v x =>
    simp only [Spec.step, Option.map_eq_some_iff] at h
    obtain ⟨l, hl, h⟩ := h
    obtain ⟨hv, hc⟩ := lt_of_join hl
    have hh := hI.holds hv hc
    split_ifs at h with hcan
    · simp only [Prod.mk.injEq] at h
      obtain ⟨rfl, rfl⟩ := h
      obtain ⟨w', e, i, _, o⟩ := (appendSpan_spec hI hv hh [x]).1 hcan
      exact ⟨w', by simp [step, Op.operands, hv, append_eq_span, e], i, o⟩
    · simp only [Prod.mk.injEq] at h
      obtain ⟨rfl, rfl⟩ := h
      exact ⟨w, by simp [step, Op.operands, hv, append_eq_span,
        (appendSpan_spec hI hv hh [x]).2 hcan], hI, rfl⟩
  | appendSpan v xs =>
    simp only [Spec.step, Option.map_eq_some_iff] at h
    obtain ⟨l, hl, h⟩ := h
    obtain ⟨hv, hc⟩ := lt_of_join hl
    have hh := hI.holds hv hc
    split_ifs at h with hcan
    · simp only [Prod.mk.injEq] at h
      obtain ⟨rfl, rfl⟩ := h
      obtain ⟨w', e, i, _, o⟩ := (appendSpan_spec hI hv hh xs).1 hcan
      exact ⟨w', by simp [step, Op.operands, hv, e], i, o⟩
    · simp only [Prod.mk.injEq] at h
      obtain ⟨rfl, rfl⟩ := h
      exact ⟨w, by simp [step, Op.operands, hv, (appendSpan_spec hI hv hh xs).2 hcan], hI, rfl⟩
  | appendBatch v u =>
    simp only [Spec.step, Option.bind_eq_some_iff] at h
    obtain ⟨l, hl, xs, hx, h⟩ := h
    obtain ⟨hv, hc⟩ := lt_of_join hl
    obtain ⟨hu, hcu⟩ := lt_of_join hx
    have hh := hI.holds hv hc
    have hhu := hI.holds hu hcu
    have hst : step w (.appendBatch v u) = appendBatch w v u := by
      simp [step, Op.operands, hv, hu]
    rw [hst]
    by_cases hx0 : xs = []
    · subst hx0
      simp at h
      obtain ⟨rfl, rfl⟩ := h
      have : (w.var u).size = 0 := hhu.size
      exact ⟨w, by simp [appendBatch, this], hI, rfl⟩
    rw [if_neg hx0] at h
    have hsu : (w.var u).size ≠ 0 := by
      rw [hhu.size]; simpa using hx0
    by_cases hl0 : l = []
    · subst hl0
      simp at h
      obtain ⟨rfl, rfl⟩ := h
      have : (w.var v).size = 0 := hh.size
      obtain ⟨i, o⟩ := assign_inv hI hv hu
      refine ⟨_, by simp [appendBatch, this, hsu], i, ?_⟩
      rw [o, hcu]
    rw [if_neg hl0] at h
    obtain ⟨s1, s2, _⟩ := appendBatch_spec hI hv hu hh hhu hl0 hx0
    split_ifs at h with hf hvu
    · simp only [Option.some.injEq, Prod.mk.injEq] at h
      obtain ⟨rfl, rfl⟩ := h
      obtain ⟨w', e, i, o⟩ := s1 hf hvu
      exact ⟨w', e, i, o⟩
    · simp only [Option.some.injEq, Prod.mk.injEq] at h
      obtain ⟨rfl, rfl⟩ := h
      exact ⟨w, s2 hf, hI, rfl⟩
  | erase v s c =>
    simp only [Spec.step, Option.bind_eq_some_iff] at h
    obtain ⟨l, hl, h⟩ := h
    obtain ⟨hv, hc⟩ := lt_of_join hl
    have hh := hI.holds hv hc
    split_ifs at h with hs
    simp only [Option.some.injEq, Prod.mk.injEq] at h
    obtain ⟨rfl, rfl⟩ := h
    obtain ⟨w', e, i, o⟩ := erase_spec hI hv hh hs (count := c)
    exact ⟨w', by simp [step, Op.operands, hv, e], i, o⟩
  | transform v t =>
    simp only [Spec.step, Option.map_eq_some_iff, Prod.mk.injEq] at h
    obtain ⟨l, hl, rfl, rfl⟩ := h
    obtain ⟨hv, hc⟩ := lt_of_join hl
    have hh := hI.holds hv hc
    obtain ⟨w', e, i, o⟩ := transform_spec hI hv hh t
    exact ⟨w', by simp [step, Op.operands, hv, e], i, o⟩

theorem run_refines : ∀ {ops : List Op} {w : World} {bs : List Bool} {S' : Spec.State}, Inv w →
    Spec.run (observe w) ops = some (bs, S') →
    ∃ w', run w ops = some (bs, w') ∧ Inv w' ∧ observe w' = S' := by
  intro ops
  induction ops with
  | nil =>
    intro w bs S' hI h
    simp only [Spec.run, Option.some.injEq, Prod.mk.injEq] at h
    obtain ⟨rfl, rfl⟩ := h
    exact ⟨w, rfl, hI, rfl⟩
  | cons op ops ih =>
    intro w bs S' hI h
    simp only [Spec.run, Option.bind_eq_bind, Option.bind_eq_some_iff, Option.some.injEq,
      Prod.mk.injEq, Prod.exists] at h
    obtain ⟨b, S1, h1, bs1, S2, h2, rfl, rfl⟩ := h
    obtain ⟨w1, e1, i1, o1⟩ := C01_call_refines_list hI h1
    rw [← o1] at h2
    obtain ⟨w2, e2, i2, o2⟩ := ih i1 h2
    refine ⟨w2, ?_, i2, o2⟩
    simp [run, e1, e2]

/-- **C01, histories.** Any history of calls on any number of batches (constructed, copied, moved,
edited, transformed) that respects the contracts gives the statuses and the contents that the same
history gives on plain lists of inputs. -/
theorem C01_history_refines_lists {ops : List Op} {bs : List Bool} {S : Spec.State}
    (h : Spec.run [] ops = some (bs, S)) :
    ∃ w, run World.init ops = some (bs, w) ∧ Inv w ∧ observe w = S :=
  run_refines inv_init h

/-- **C01.** `Get` and `Size` agree: in every reachable state, a batch that has not been moved from
is a list `l` with `Size() = l.length` and `Get(i) = l[i]`. -/
theorem C01_size_get {w : World} {v : Nat} {l : List Input} (hI : Inv w) (hv : v < w.n)
    (h : contents w v = some l) :
    (w.var v).size = l.length ∧ ∀ i (hi : i < l.length), get w v i = some l[i] := by
  have hh := hI.holds hv h
  exact ⟨hh.size, fun i hi => hh.get (List.getElem?_eq_getElem hi)⟩

/-- **C01.** Indexing past the end is a check failure, never a wrong answer. -/
theorem C01_get_out_of_range {w : World} {v i : Nat} (h : (w.var v).size ≤ i) :
    get w v i = none := by
  unfold get; simp [Nat.not_lt.2 h]

/-- **C01.** The format accessors describe the stored inputs. -/
theorem C01_format_accessors {w : World} {v : Nat} {l : List Input} (hI : Inv w) (hv : v < w.n)
    (h : contents w v = some l) :
    (∀ x ∈ l, x.tool = (w.var v).tool ∧ x.unitLength = (w.var v).unitLength ∧
      (x.pressure = kMinusOne ↔ (w.var v).hasPressure = false) ∧
      (x.tilt = kMinusOne ↔ (w.var v).hasTilt = false) ∧
      (x.orientation = kMinusOne ↔ (w.var v).hasOrientation = false)) ∧
    (l = [] → (w.var v).tool = .unknown ∧ (w.var v).unitLength = F32.zero ∧
      (w.var v).hasPressure = false ∧ (w.var v).hasTilt = false ∧
      (w.var v).hasOrientation = false) := by
  have hh := hI.holds hv h
  constructor
  · intro x hx
    have hf := hh.fmt' x hx
    refine ⟨hf.tool, hf.unit, ?_, ?_, ?_⟩
    · rw [← hf.p, hasPressure_iff]
    · rw [← hf.t, hasTilt_iff]
    · rw [← hf.o, hasOrientation_iff]
  · rintro rfl
    have hm : members (w.var v) = {} := hh.2.2
    have := congrArg Batch.tool hm
    have h2 := congrArg Batch.unitLength hm
    have h3 := congrArg Batch.hasPressure hm
    have h4 := congrArg Batch.hasTilt hm
    have h5 := congrArg Batch.hasOrientation hm
    exact ⟨this, h2, h3, h4, h5⟩

/-- **C01.** `GetDuration` is the time of the last input minus the time of the first. -/
theorem C01_duration {w : World} {v : Nat} {l : List Input} (hI : Inv w) (hv : v < w.n)
    (h : contents w v = some l) :
    getDuration w v = some (match l with
      | [] => F32.zero
      | a :: t => F32.sub ((a :: t).getLast (by simp)).time a.time) := by
  have hh := hI.holds hv h
  unfold getDuration
  cases l with
  | nil => rw [if_pos (by simpa using hh.size)]
  | cons a t =>
    have h1 : get w v ((w.var v).size - 1) = some ((a :: t).getLast (by simp)) := by
      apply hh.get
      rw [hh.size, ← List.getLast?_eq_getElem?, List.getLast?_eq_some_getLast (by simp)]
    have h0 : get w v 0 = some a := hh.get (by simp)
    rw [if_neg (by rw [hh.size]; simp), h1, h0]
    rfl

/-- The iterator at position `i`. -/
def ItAt (l : List Input) (i : Nat) (it : Iter) : Prop :=
  it.sub = (l.drop i).flatMap encode ∧ ∀ x, l[i]? = some x → it.value = x

theorem iterate_from {b : Batch} {l : List Input} (hf : ∀ x ∈ l, Fmt b x) (last : Iter)
    (hlast : last.sub = []) : ∀ (k i : Nat) (it : Iter), ItAt l i it → i + k = l.length →
    iterate (k + 1) it last = some (l.drop i) := by
  intro k
  induction k with
  | zero =>
    intro i it hit hi
    have : l.drop i = [] := List.drop_eq_nil_of_le (by omega)
    have hs : it.sub = [] := by rw [hit.1, this]; rfl
    simp [iterate, hs, hlast, this]
  | succ k ih =>
    intro i it hit hi
    have hlt : i < l.length := by omega
    have hdrop : l.drop i = l[i] :: l.drop (i + 1) := List.drop_eq_getElem_cons hlt
    have hval : it.value = l[i] := hit.2 _ (List.getElem?_eq_getElem hlt)
    have hfi := hf l[i] (List.getElem_mem hlt)
    have hsub : it.sub = encode l[i] ++ (l.drop (i + 1)).flatMap encode := by
      rw [hit.1, hdrop, List.flatMap_cons]
    have hlen := encode_length hfi.toFmt0
    have h3 := stride_pos b
    have hpos : it.sub.length ≠ 0 := by rw [hsub, List.length_append, hlen]; omega
    have hne : it.sub.isEmpty = false := by
      cases hh : it.sub with
      | nil => rw [hh] at hpos; simp at hpos
      | cons => rfl
    have hk : floatsPerInput it.value.hasPressure it.value.hasTilt it.value.hasOrientation =
        b.stride := by rw [hval, hfi.p, hfi.t, hfi.o]; rfl
    -- one increment
    have hinc : ∃ nxt, it.incr = some nxt ∧ ItAt l (i + 1) nxt := by
      unfold Iter.incr
      simp only [hne, hk, Bool.false_eq_true, if_false]
      have hnl : ¬ it.sub.length < b.stride := by
        rw [hsub, List.length_append, hlen]; omega
      rw [if_neg hnl]
      have hd : it.sub.drop b.stride = (l.drop (i + 1)).flatMap encode := by
        rw [hsub, ← hlen, List.drop_left]
      rw [hd]
      cases hnx : l.drop (i + 1) with
      | nil =>
        refine ⟨_, rfl, ?_, ?_⟩
        · rw [hnx]
        · intro x hx
          have : l.length ≤ i + 1 := by simpa using hnx
          rw [List.getElem?_eq_none this] at hx; cases hx
      | cons y t =>
        have hy : l[i + 1]? = some y := by
          have := congrArg List.head? hnx
          simpa using this
        have hfy := hf y (List.mem_of_getElem? hy)
        rw [List.flatMap_cons]
        have hnonempty : (encode y ++ t.flatMap encode).isEmpty = false := by
          unfold encode; rfl
        simp only [hnonempty, Bool.false_eq_true, if_false]
        have hde := decode_encode hfy (t.flatMap encode)
        -- `decode` with the flags of the batch is the code of the increment
        unfold decode at hde
        simp only [Option.bind_eq_bind, Option.bind_eq_some_iff, Prod.exists,
          Option.some.injEq] at hde
        obtain ⟨a1, d1, e1, a2, d2, e2, a3, d3, e3, a4, d4, e4, a5, d5, e5, a6, d6, e6, hy'⟩ := hde
        have hp4 : nextIf it.value.hasPressure it.value.pressure d3 = some (a4, d4) := by
          rw [hval, hfi.p, ← e4]
          unfold nextIf
          split_ifs with hb
          · rfl
          · rw [hasPressure_iff.1 (by rw [hfi.p]; simpa using hb)]
        have hp5 : nextIf it.value.hasTilt it.value.tilt d4 = some (a5, d5) := by
          rw [hval, hfi.t, ← e5]
          unfold nextIf
          split_ifs with hb
          · rfl
          · rw [hasTilt_iff.1 (by rw [hfi.t]; simpa using hb)]
        have hp6 : nextIf it.value.hasOrientation it.value.orientation d5 = some (a6, d6) := by
          rw [hval, hfi.o, ← e6]
          unfold nextIf
          split_ifs with hb
          · rfl
          · rw [hasOrientation_iff.1 (by rw [hfi.o]; simpa using hb)]
        simp only [Option.bind_eq_bind, e1, Option.bind_some, e2, e3, hp4, hp5, hp6]
        refine ⟨_, rfl, ?_, ?_⟩
        · rw [hnx, List.flatMap_cons]
        · intro x hx
          rw [hy] at hx; cases hx
          rw [← hy', hval, hfi.tool, hfi.unit]
    obtain ⟨nxt, hn, hat⟩ := hinc
    unfold iterate
    rw [hlast]
    simp only [List.length_nil, hpos, if_false, hne, Bool.false_eq_true, hn, Option.bind_eq_bind,
      Option.bind_some]
    rw [ih (i + 1) nxt hat (by omega)]
    simp only [Option.bind_some, hval]
    rw [← hdrop]

/-- **C01.** A range-for loop over a batch (`begin()`, `end()`, `++`, `*`) visits exactly its inputs,
in order, and then stops. -/
theorem C01_iteration {w : World} {v : Nat} {l : List Input} (hI : Inv w) (hv : v < w.n)
    (h : contents w v = some l) :
    ∃ first last, mkIter w v 0 = some first ∧ mkIter w v (w.var v).size = some last ∧
      ∀ fuel > l.length, iterate fuel first last = some l := by
  have hh := hI.holds hv h
  have hmono : ∀ (f1 : Nat) (a b : Iter) (r : List Input), iterate f1 a b = some r →
      ∀ f2 ≥ f1, iterate f2 a b = some r := by
    intro f1
    induction f1 with
    | zero => intro a b r hr; simp [iterate] at hr
    | succ f1 ih =>
      intro a b r hr f2 hf2
      obtain ⟨f2, rfl⟩ : ∃ k, f2 = k + 1 := ⟨f2 - 1, by omega⟩
      unfold iterate at hr ⊢
      split_ifs at hr ⊢
      · exact hr
      · simp only [Option.bind_eq_bind, Option.bind_eq_some_iff, Option.some.injEq] at hr ⊢
        obtain ⟨n, hn, rest, hrest, rfl⟩ := hr
        exact ⟨n, hn, rest, ih _ _ _ hrest _ (by omega), rfl⟩
  by_cases hne : l = []
  · subst hne
    have hs : (w.var v).size = 0 := hh.size
    rcases hh.2.1 with hd | hd
    · refine ⟨⟨[], {}⟩, ⟨[], {}⟩, by simp [mkIter, hd], by simp [mkIter, hd], ?_⟩
      intro fuel hf
      refine hmono 1 _ _ _ ?_ fuel hf
      simp [iterate]
    · refine ⟨⟨[], {}⟩, ⟨[], {}⟩, by simp [mkIter, hd, hs], by simp [mkIter, hd, hs], ?_⟩
      intro fuel hf
      refine hmono 1 _ _ _ ?_ fuel hf
      simp [iterate]
  · obtain ⟨hd, _⟩ := Rep.data hh hne
    have hf := hh.fmt'
    have hpos : 0 < l.length := List.length_pos_iff.2 hne
    have hend : (l.flatMap encode).drop (l.length * (w.var v).stride) = [] := by
      apply List.drop_eq_nil_of_le
      rw [flatMap_length fun x hx => (hf x hx).toFmt0]
    have hg0 : get w v 0 = some l[0] := hh.get (List.getElem?_eq_getElem hpos)
    refine ⟨⟨l.flatMap encode, l[0]⟩, ⟨[], {}⟩, ?_, ?_, ?_⟩
    · unfold mkIter
      simp only [hd, Nat.zero_mul, Nat.not_lt_zero, if_false, hh.size, hpos, if_true, hg0]
      rfl
    · unfold mkIter
      simp only [hd, hh.size, Nat.lt_irrefl, if_false, hend]
      rw [if_neg]
      rw [flatMap_length fun x hx => (hf x hx).toFmt0]; omega
    · intro fuel hfuel
      refine hmono (l.length + 1) _ _ _ ?_ fuel hfuel
      have := iterate_from hf ⟨[], {}⟩ rfl l.length 0 ⟨l.flatMap encode, l[0]⟩
        ⟨by simp, fun x hx => by rw [List.getElem?_eq_getElem hpos] at hx; exact Option.some.inj hx⟩
        (by omega)
      simpa using this

/-! ## C02: failed edits change nothing -/

/-- **C02.** A call that returns an error leaves the whole program state exactly as it was (even the
internal one). No reachability hypothesis is needed. -/
theorem C02_error_changes_nothing {w w' : World} {op : Op} (h : step w op = some (false, w')) :
    w' = w := by
  unfold step at h
  split_ifs at h
  cases op with
  | new => simp at h
  | create xs =>
    simp only [create] at h
    split_ifs at h
    · simp at h
    · simp only [Option.bind_eq_bind, Option.bind_eq_some_iff, Prod.exists] at h
      obtain ⟨ok, w1, _, h⟩ := h
      split_ifs at h <;> simp at h
      exact h.symm
  | copy u => simp at h
  | move u => simp at h
  | copyAssign v u => simp at h
  | moveAssign v u => simp at h
  | deepCopy u =>
    simp only [makeDeepCopy] at h
    split_ifs at h
    · simp only [Option.bind_eq_bind, Option.bind_eq_some_iff] at h
      obtain ⟨d, _, h⟩ := h
      simp at h
    · simp at h
  | clear v => simp at h
  | set v k x =>
    simp only [set] at h
    split_ifs at h
    · simp at h; exact h.symm
    · simp only [Option.bind_eq_bind, Option.bind_eq_some_iff] at h
      obtain ⟨_, _, _, _, h⟩ := h
      simp at h
    · simp only [Option.bind_eq_bind, Option.bind_eq_some_iff] at h
      obtain ⟨ok1, _, h⟩ := h
      split_ifs at h
      · simp at h; exact h.symm
      · simp only [Option.bind_eq_some_iff] at h
        obtain ⟨ok2, _, h⟩ := h
        split_ifs at h
        · simp at h; exact h.symm
        · simp only [Option.bind_eq_some_iff] at h
          obtain ⟨d, _, h⟩ := h
          split_ifs at h
          simp only [Option.bind_eq_some_iff] at h
          obtain ⟨_, _, h⟩ := h
          simp at h
  | append v x =>
    simp only [append] at h
    split_ifs at h
    · simp at h; exact h.symm
    · simp only [Option.bind_eq_bind, Option.bind_eq_some_iff] at h
      obtain ⟨_, _, h⟩ := h
      split_ifs at h
      · simp at h; exact h.symm
      · simp only [Option.bind_eq_some_iff] at h
        obtain ⟨_, _, h⟩ := h
        simp at h
    · simp only [Option.bind_eq_bind, Option.bind_eq_some_iff] at h
      obtain ⟨_, _, h⟩ := h
      simp at h
  | appendSpan v xs =>
    cases xs with
    | nil => simp [appendSpan] at h
    | cons i is =>
      simp only [appendSpan] at h
      split_ifs at h
      · simp at h; exact h.symm
      · simp only [Option.bind_eq_bind, Option.bind_eq_some_iff] at h
        obtain ⟨_, _, h⟩ := h
        split_ifs at h
        · simp at h; exact h.symm
        · simp only [Option.bind_eq_some_iff] at h
          obtain ⟨_, _, h⟩ := h
          simp at h
      · simp only [Option.bind_eq_bind, Option.bind_eq_some_iff] at h
        obtain ⟨_, _, h⟩ := h
        simp at h
  | appendBatch v u =>
    simp only [appendBatch] at h
    by_cases h1 : (w.var u).size = 0
    · rw [if_pos h1] at h; simp at h
    rw [if_neg h1] at h
    by_cases h2 : (w.var v).size = 0
    · rw [if_pos h2] at h; simp at h
    rw [if_neg h2] at h
    simp only [Option.bind_eq_bind, Option.bind_eq_some_iff] at h
    obtain ⟨_, _, _, _, h⟩ := h
    split_ifs at h
    · simp at h; exact h.symm
    · simp only [Option.bind_eq_some_iff] at h
      obtain ⟨_, _, _, _, _, _, h⟩ := h
      simp at h
  | erase v s c =>
    simp only [erase] at h
    split_ifs at h
    · simp at h
    · simp at h
    · simp only [Option.bind_eq_bind, Option.bind_eq_some_iff] at h
      obtain ⟨_, _, h⟩ := h
      simp at h
  | transform v t =>
    simp only [transform] at h
    split_ifs at h <;> simp at h

/-- **C02.** `Append` succeeds exactly when the appended sequence is valid and may follow the last
held input; on success the new inputs are at the end, on failure nothing changes. -/
theorem C02_append_all_or_nothing {w : World} {v : Nat} {l xs : List Input} (hI : Inv w)
    (hv : v < w.n) (hl : contents w v = some l) :
    (Spec.CanAppend l xs ∧ ∃ w', step w (.appendSpan v xs) = some (true, w') ∧
        contents w' v = some (Spec.joined l xs)) ∨
    (¬ Spec.CanAppend l xs ∧ step w (.appendSpan v xs) = some (false, w)) := by
  have hh := hI.holds hv hl
  have hst : step w (.appendSpan v xs) = appendSpan w v xs := by simp [step, Op.operands, hv]
  rw [hst]
  by_cases hc : Spec.CanAppend l xs
  · left
    obtain ⟨w', e, _, fr, o⟩ := (appendSpan_spec hI hv hh xs).1 hc
    refine ⟨hc, w', e, ?_⟩
    have h1 : (observe w')[v]? = some (contents w' v) := observe_getElem? (by rw [fr.1]; exact hv)
    rw [o, List.getElem?_set_self (by rw [observe_length]; exact hv)] at h1
    exact (Option.some.inj h1).symm
  · right
    exact ⟨hc, (appendSpan_spec hI hv hh xs).2 hc⟩

/-! ## C04: copies are independent -/

/-- The objects that a call may change. -/
def Op.modified : Op → List Nat
  | .move u => [u]
  | .copyAssign v _ => [v]
  | .moveAssign v u => [v, u]
  | .clear v => [v]
  | .set v _ _ => [v]
  | .append v _ => [v]
  | .appendSpan v _ => [v]
  | .appendBatch v _ => [v]
  | .erase v _ _ => [v]
  | .transform v _ => [v]
  | _ => []

/-- Nothing but `v` changes, and pointers stay valid. -/
def FF (w w' : World) (v : Nat) : Prop := Frame w w' v ∧ Fresh w'

theorem FF.refl {w : World} (hf : Fresh w) (v : Nat) : FF w w v :=
  ⟨⟨rfl, fun _ _ _ => ⟨rfl, rfl⟩⟩, hf⟩

theorem FF.trans {w w1 w2 : World} {v : Nat} (h : FF w w1 v) (h' : FF w1 w2 v) : FF w w2 v :=
  ⟨h.1.trans h'.1, h'.2⟩

theorem Upd.ff {w w' : World} {v : Nat} {b d} (h : Upd w w' v b d) : FF w w' v :=
  ⟨h.frame, h.fresh⟩

theorem mutate_ff {w w' : World} {v : Nat} {f} (hf : Fresh w) (hv : v < w.n)
    (h : w.mutate v f = some w') : FF w w' v := by
  cases hd : w.value v with
  | none =>
    rw [value_none] at hd
    unfold World.mutate at h
    rw [hd] at h; cases h
  | some d =>
    obtain ⟨w1, e, u⟩ := upd_mutate hf hv hd f
    rw [h] at e; cases e
    exact u.ff

theorem clear_ff {w w' : World} {v : Nat} (hf : Fresh w) (hv : v < w.n)
    (h : clear w v = some w') : FF w w' v := by
  obtain ⟨w1, d, e, u, _⟩ := clear_upd hf hv
  rw [h] at e; cases e; exact u.ff

theorem ensure_ff {w : World} {v : Nat} (hf : Fresh w) : FF w (ensureValue w v) v := by
  unfold ensureValue
  split_ifs
  · exact FF.refl hf v
  · exact (upd_emplace hf []).ff

theorem meta_ff {w : World} {v : Nat} {x : Input} (hf : Fresh w) (hv : v < w.n) :
    FF w (setInlineFormatMetadata w v x) v :=
  (upd_setVar hf hv { w.var v with
    tool := x.tool, unitLength := x.unitLength, hasPressure := x.hasPressure,
    hasTilt := x.hasTilt, hasOrientation := x.hasOrientation } rfl).ff

theorem addSize_ff {w : World} {v k : Nat} (hf : Fresh w) (hv : v < w.n) :
    FF w (addSize w v k) v :=
  (upd_setVar hf hv { w.var v with size := (w.var v).size + k } rfl).ff

theorem FF.lt {w w' : World} {v u : Nat} (h : FF w w' v) (hu : u < w.n) : u < w'.n := by
  rw [h.1.1]; exact hu

theorem start_ff {w w' : World} {v k : Nat} {x : Input} {f} (hf : Fresh w) (hv : v < w.n)
    (h : (setInlineFormatMetadata (ensureValue w v) v x).mutate v f = some w') :
    FF w (addSize w' v k) v := by
  have h1 := ensure_ff (v := v) hf
  have h2 := h1.trans (meta_ff (x := x) h1.2 (h1.lt hv))
  have h3 := h2.trans (mutate_ff h2.2 (h2.lt hv) h)
  exact h3.trans (addSize_ff h3.2 (h3.lt hv))

theorem appendSpan_ff {w w' : World} {v : Nat} {b : Bool} {xs : List Input} (hf : Fresh w)
    (hv : v < w.n) (h : appendSpan w v xs = some (b, w')) : FF w w' v := by
  cases xs with
  | nil => simp [appendSpan] at h; obtain ⟨_, rfl⟩ := h; exact FF.refl hf v
  | cons i is =>
    simp only [appendSpan] at h
    split_ifs at h
    · simp at h; obtain ⟨_, rfl⟩ := h; exact FF.refl hf v
    · simp only [Option.bind_eq_bind, Option.bind_eq_some_iff] at h
      obtain ⟨_, _, h⟩ := h
      split_ifs at h
      · simp at h; obtain ⟨_, rfl⟩ := h; exact FF.refl hf v
      · simp only [Option.bind_eq_some_iff] at h
        obtain ⟨w1, e, h⟩ := h
        simp only [Option.some.injEq, Prod.mk.injEq] at h
        obtain ⟨_, rfl⟩ := h
        have h1 := mutate_ff hf hv e
        exact h1.trans (addSize_ff h1.2 (h1.lt hv))
    · simp only [Option.bind_eq_bind, Option.bind_eq_some_iff] at h
      obtain ⟨w1, e, h⟩ := h
      simp only [Option.some.injEq, Prod.mk.injEq] at h
      obtain ⟨_, rfl⟩ := h
      exact start_ff hf hv e

/-- Objects that are not named as a target keep their members and the vector they see. -/
theorem step_frame {w w' : World} {op : Op} {b : Bool} (hf : Fresh w)
    (h : step w op = some (b, w')) :
    Fresh w' ∧ w.n ≤ w'.n ∧ ∀ u < w.n, u ∉ op.modified →
      w'.var u = w.var u ∧ w'.value u = w.value u := by
  have wrap : ∀ {v : Nat}, FF w w' v → (∀ u, u ∉ op.modified → u ≠ v) →
      Fresh w' ∧ w.n ≤ w'.n ∧ ∀ u < w.n, u ∉ op.modified →
      w'.var u = w.var u ∧ w'.value u = w.value u := by
    intro v hv hne
    exact ⟨hv.2, by rw [hv.1.1], fun u hu hm => hv.1.2 u hu (hne u hm)⟩
  have hcons : ∀ {bb : Batch}, (∀ l, bb.data = some l → l < w.next) → w' = construct w bb →
      Fresh w' ∧ w.n ≤ w'.n ∧ ∀ u < w.n, u ∉ op.modified →
      w'.var u = w.var u ∧ w'.value u = w.value u := by
    rintro bb hbb rfl
    refine ⟨?_, Nat.le_succ _, fun u hu _ => ⟨construct_var hu, construct_value hu⟩⟩
    intro u hu l hl
    have hu' : u < w.n + 1 := hu
    rcases Nat.lt_succ_iff_lt_or_eq.1 hu' with h | rfl
    · rw [construct_var h] at hl; exact hf u h l hl
    · simp [construct] at hl; exact hbb l hl
  have hfc : ∀ {bb : Batch}, (∀ l, bb.data = some l → l < w.next) → Fresh (construct w bb) := by
    intro bb hbb u hu l hl
    have hu' : u < w.n + 1 := hu
    rcases Nat.lt_succ_iff_lt_or_eq.1 hu' with h | rfl
    · rw [construct_var h] at hl; exact hf u h l hl
    · simp [construct] at hl; exact hbb l hl
  unfold step at h
  split_ifs at h with hop
  cases op with
  | new =>
    simp at h
    exact hcons (bb := {}) (by simp) h.2.symm
  | create xs =>
    simp only [create] at h
    split_ifs at h
    · simp at h; exact hcons (bb := {}) (by simp) h.2.symm
    · simp only [Option.bind_eq_bind, Option.bind_eq_some_iff, Prod.exists] at h
      obtain ⟨ok, w1, e, h⟩ := h
      have h1 : FF (construct w {}) w1 w.n := by
        have h0 := (upd_emplace (v := w.n) (hfc (bb := {}) (by simp)) []).ff
        exact h0.trans (appendSpan_ff h0.2 (Nat.lt_succ_self _) e)
      split_ifs at h <;> simp at h
      · obtain ⟨_, rfl⟩ := h
        exact ⟨hf, Nat.le_refl _, fun u hu _ => ⟨rfl, rfl⟩⟩
      · obtain ⟨_, rfl⟩ := h
        refine ⟨h1.2, by rw [h1.1.1]; exact Nat.le_succ _, fun u hu _ => ?_⟩
        have := h1.1.2 u (Nat.lt_succ_of_lt hu) (Nat.ne_of_lt hu)
        rw [this.1, this.2, construct_var hu, construct_value hu]
        exact ⟨rfl, rfl⟩
  | copy u =>
    simp [Op.operands] at h hop
    exact hcons (hf u hop) h.2.symm
  | move u =>
    simp [Op.operands] at h hop
    have e : (construct w (w.var u)).setVar u { w.var u with data := none } =
        (construct w (w.var u)).reset u := by
      unfold World.reset; rw [construct_var hop]
    rw [e] at h
    obtain ⟨_, rfl⟩ := h
    have h1 := (upd_reset (v := u) (hfc (hf u hop))).ff
    refine ⟨h1.2, by rw [h1.1.1]; exact Nat.le_succ _, fun k hk hm => ?_⟩
    have := h1.1.2 k (Nat.lt_succ_of_lt hk) (by simpa [Op.modified] using hm)
    rw [this.1, this.2, construct_var hk, construct_value hk]
    exact ⟨rfl, rfl⟩
  | copyAssign v u =>
    simp [Op.operands] at h hop
    obtain ⟨_, rfl⟩ := h
    exact wrap (upd_assign hf hop.2).ff (by simp [Op.modified])
  | moveAssign v u =>
    simp [Op.operands] at h hop
    obtain ⟨_, rfl⟩ := h
    by_cases hvu : v = u
    · subst hvu
      simp only [moveAssign, if_true]
      exact ⟨hf, Nat.le_refl _, fun _ _ _ => ⟨trivial, trivial⟩⟩
    · have hvar : (copyAssign w v u).var u = w.var u := by
        simp [copyAssign, World.setVar, Function.update_of_ne (Ne.symm hvu)]
      have e : moveAssign w v u = (copyAssign w v u).reset u := by
        unfold moveAssign World.reset
        rw [if_neg hvu, hvar]; rfl
      rw [e]
      have h1 := (upd_assign (v := v) hf hop.2).ff
      have h2 := (upd_reset (v := u) h1.2).ff
      refine ⟨h2.2, by rw [h2.1.1, h1.1.1], fun k hk hm => ?_⟩
      simp [Op.modified] at hm
      have a := h1.1.2 k hk hm.1
      have c := h2.1.2 k (h1.lt hk) hm.2
      exact ⟨c.1.trans a.1, c.2.trans a.2⟩
  | deepCopy u =>
    simp [Op.operands] at hop
    simp only [makeDeepCopy] at h
    split_ifs at h
    · simp only [Option.bind_eq_bind, Option.bind_eq_some_iff] at h
      obtain ⟨d, _, h⟩ := h
      simp at h
      obtain ⟨_, rfl⟩ := h
      have h1 := (upd_emplace (v := w.n) (hfc (hf u hop)) d).ff
      refine ⟨h1.2, by rw [h1.1.1]; exact Nat.le_succ _, fun k hk hm => ?_⟩
      have := h1.1.2 k (Nat.lt_succ_of_lt hk) (Nat.ne_of_lt hk)
      rw [this.1, this.2, construct_var hk, construct_value hk]
      exact ⟨rfl, rfl⟩
    · simp at h
      exact hcons (hf u hop) h.2.symm
  | clear v =>
    simp [Op.operands] at h hop
    exact wrap (clear_ff hf hop h.1) (by simp [Op.modified])
  | set v k x =>
    simp [Op.operands] at hop
    refine wrap (v := v) ?_ (by simp [Op.modified])
    simp only [set] at h
    split_ifs at h
    · simp at h; obtain ⟨_, rfl⟩ := h; exact FF.refl hf v
    · simp only [Option.bind_eq_bind, Option.bind_eq_some_iff] at h
      obtain ⟨w1, e1, w2, e2, h⟩ := h
      simp at h
      obtain ⟨_, rfl⟩ := h
      have h1 := clear_ff hf hop e1
      have h2 := h1.trans (ensure_ff (v := v) h1.2)
      have h3 := h2.trans (meta_ff (x := x) h2.2 (h2.lt hop))
      have h4 := h3.trans (mutate_ff h3.2 (h3.lt hop) e2)
      exact h4.trans (upd_setVar h4.2 (h4.lt hop) { w2.var v with size := 1 } rfl).ff
    · simp only [Option.bind_eq_bind, Option.bind_eq_some_iff] at h
      obtain ⟨ok1, _, h⟩ := h
      split_ifs at h
      · simp at h; obtain ⟨_, rfl⟩ := h; exact FF.refl hf v
      · simp only [Option.bind_eq_some_iff] at h
        obtain ⟨ok2, _, h⟩ := h
        split_ifs at h
        · simp at h; obtain ⟨_, rfl⟩ := h; exact FF.refl hf v
        · simp only [Option.bind_eq_some_iff] at h
          obtain ⟨d, _, h⟩ := h
          split_ifs at h
          simp only [Option.bind_eq_some_iff] at h
          obtain ⟨w1, e, h⟩ := h
          simp at h; obtain ⟨_, rfl⟩ := h
          exact mutate_ff hf hop e
  | append v x =>
    simp [Op.operands] at hop
    have h' : append w v x = some (b, w') := h
    rw [append_eq_span] at h'
    exact wrap (appendSpan_ff hf hop h') (by simp [Op.modified])
  | appendSpan v xs =>
    simp [Op.operands] at hop
    exact wrap (appendSpan_ff hf hop h) (by simp [Op.modified])
  | appendBatch v u =>
    simp [Op.operands] at hop
    refine wrap (v := v) ?_ (by simp [Op.modified])
    simp only [appendBatch] at h
    by_cases h1 : (w.var u).size = 0
    · rw [if_pos h1] at h; simp at h; obtain ⟨_, rfl⟩ := h; exact FF.refl hf v
    rw [if_neg h1] at h
    by_cases h2 : (w.var v).size = 0
    · rw [if_pos h2] at h; simp at h; obtain ⟨_, rfl⟩ := h; exact (upd_assign hf hop.2).ff
    rw [if_neg h2] at h
    simp only [Option.bind_eq_bind, Option.bind_eq_some_iff] at h
    obtain ⟨_, _, _, _, h⟩ := h
    split_ifs at h
    · simp at h; obtain ⟨_, rfl⟩ := h; exact FF.refl hf v
    · simp only [Option.bind_eq_some_iff] at h
      obtain ⟨w1, e1, d, _, w2, e2, h⟩ := h
      simp at h; obtain ⟨_, rfl⟩ := h
      have h1 := mutate_ff hf hop.1 e1
      have h2 := h1.trans (mutate_ff h1.2 (h1.lt hop.1) e2)
      exact h2.trans (addSize_ff h2.2 (h2.lt hop.1))
  | erase v s c =>
    simp [Op.operands] at hop
    refine wrap (v := v) ?_ (by simp [Op.modified])
    simp only [erase] at h
    split_ifs at h
    · simp at h; obtain ⟨_, rfl⟩ := h; exact FF.refl hf v
    · simp at h
      exact clear_ff hf hop h.1
    · simp only [Option.bind_eq_bind, Option.bind_eq_some_iff] at h
      obtain ⟨w1, e, h⟩ := h
      simp at h; obtain ⟨_, rfl⟩ := h
      have h1 := mutate_ff hf hop e
      exact h1.trans (upd_setVar h1.2 (h1.lt hop) { w1.var v with
        size := (w1.var v).size - min c ((w.var v).size - s) } rfl).ff
  | transform v t =>
    simp [Op.operands] at hop
    refine wrap (v := v) ?_ (by simp [Op.modified])
    simp only [transform] at h
    split_ifs at h
    · simp at h; obtain ⟨_, rfl⟩ := h; exact FF.refl hf v
    · simp at h
      exact mutate_ff hf hop h.1

theorem run_fresh : ∀ {ops : List Op} {w w' : World} {bs : List Bool}, Fresh w →
    run w ops = some (bs, w') → Fresh w' ∧ w.n ≤ w'.n := by
  intro ops
  induction ops with
  | nil =>
    intro w w' bs hf h
    simp [run] at h; obtain ⟨_, rfl⟩ := h; exact ⟨hf, Nat.le_refl _⟩
  | cons op ops ih =>
    intro w w' bs hf h
    simp only [run, Option.bind_eq_bind, Option.bind_eq_some_iff, Option.some.injEq,
      Prod.mk.injEq, Prod.exists] at h
    obtain ⟨b, w1, h1, bs1, w2, h2, _, rfl⟩ := h
    obtain ⟨f1, n1, _⟩ := step_frame hf h1
    obtain ⟨f2, n2⟩ := ih f1 h2
    exact ⟨f2, Nat.le_trans n1 n2⟩

/-- **C04.** After any history, editing some batches does not change the contents (or size, or
format) of any batch that is not itself a target of the later calls, whether or not it shares
storage with them: a copy, or the original of a copy, is unaffected by all later edits of the other.
-/
theorem C04_copies_independent {ops ops' : List Op} {bs bs' : List Bool} {w w' : World} {u : Nat}
    (h : run World.init ops = some (bs, w)) (h' : run w ops' = some (bs', w')) (hu : u < w.n)
    (hm : ∀ op ∈ ops', u ∉ op.modified) :
    contents w' u = contents w u ∧ (w'.var u).size = (w.var u).size := by
  have hf : Fresh w := (run_fresh inv_init.1 h).1
  clear h
  induction ops' generalizing w bs' with
  | nil =>
    simp [run] at h'
    obtain ⟨_, rfl⟩ := h'
    exact ⟨rfl, rfl⟩
  | cons op ops' ih =>
    simp only [run, Option.bind_eq_bind, Option.bind_eq_some_iff, Option.some.injEq,
      Prod.mk.injEq, Prod.exists] at h'
    obtain ⟨b, w1, h1, bs1, w2, h2, _, rfl⟩ := h'
    obtain ⟨f1, n1, fr⟩ := step_frame hf h1
    obtain ⟨a, c⟩ := fr u hu (hm op (by simp))
    obtain ⟨p, q⟩ := ih h2 (Nat.lt_of_lt_of_le hu n1) (fun o ho => hm o (by simp [ho])) f1
    exact ⟨p.trans (contents_congr a c), q.trans (by rw [a])⟩

/-- **C04.** A copy, a copy-assigned batch and a deep copy start with the same contents as the
original. -/
theorem C04_copy_equal {w : World} {u : Nat} (hI : Inv w) (hu : u < w.n) :
    (∃ w', step w (.copy u) = some (true, w') ∧ contents w' w.n = contents w u) ∧
    (∃ w', step w (.deepCopy u) = some (true, w') ∧ contents w' w.n = contents w u) := by
  have key : ∀ w' : World, observe w' = observe w ++ [contents w u] →
      contents w' w.n = contents w u := by
    intro w' ho
    have hn : w'.n = w.n + 1 := by
      have := congrArg List.length ho
      simpa [observe_length] using this
    have h1 := observe_getElem? (w := w') (v := w.n) (by omega)
    rw [ho, List.getElem?_append_right (by rw [observe_length])] at h1
    simp [observe_length] at h1
    exact h1.symm
  obtain ⟨_, o1⟩ := construct_copy hI hu
  obtain ⟨w2, e2, _, o2⟩ := deepCopy_spec hI hu
  exact ⟨⟨_, by simp [step, Op.operands, hu], key _ o1⟩,
    ⟨w2, by simp [step, Op.operands, hu, e2], key _ o2⟩⟩

end Verif.Batch
