import Verif.Lemmas.StrokeInputModeler

/-!
# C35: modeled inputs
-/

set_option autoImplicit false

namespace Verif.InputModeler

open Verif F32 Spec

variable {I σ : Type} (hypot : F32 → F32 → F32) (lib : Library I σ)

/-! ## The invariant -/

/-- The modeled inputs of the real inputs `R` and the prediction `P`. -/
structure Core (s0 : σ) (epsilon : F32) (m : Modeler I σ) (R P : List Batch.Input) : Prop where
  lastReal : m.lastReal = R.getLast?
  data : ∃ st sre sal rst x y,
    feed lib s0 (script false R.dropLast) = some (st, rst) ∧
    feed lib s0 (script P.isEmpty R) = some (sre, rst ++ x) ∧
    feed lib s0 (script true (R ++ P)) = some (sal, rst ++ x ++ y) ∧
    m.stableCount = (thin hypot epsilon rst).length ∧
    m.realCount = (thin hypot epsilon (rst ++ x)).length ∧
    m.modeled = thin hypot epsilon (rst ++ x ++ y) ∧
    (R ≠ [] → m.library = st ∧ m.hasInput = !R.dropLast.isEmpty)

structure Inv (inputModel : I) (epsilon : F32) (m : Modeler I σ) (R P : List Batch.Input) : Prop where
  model : m.inputModel = inputModel
  eps : m.epsilon = epsilon
  core : Core hypot lib (lib.reset inputModel epsilon (unitLengthOf R)) epsilon m R P
  tool : m.toolType = toolTypeOf (R ++ P)
  unit : m.unitLength = unitLengthOf (R ++ P)

/-- The members for times and distances. -/
structure Times (m : Modeler I σ) (now : Duration32) : Prop where
  empty : m.modeled = [] → m.completeElapsedTime = now
  complete : ∀ l ∈ m.modeled.getLast?, m.completeElapsedTime = Tip.durMax l.elapsedTime now ∧
    m.completeTraveledDistance = l.traveledDistance
  real : ∀ r ∈ m.modeled[m.realCount - 1]?, m.realCount ≠ 0 →
    m.totalRealDistance = r.traveledDistance ∧ m.totalRealElapsedTime = r.elapsedTime

theorem updateTimes {m : Modeler I σ} (h : m.realCount ≤ m.modeled.length) (now : Duration32) :
    ∃ t d rt rd, m.updateTimeAndDistance now = some { m with
      completeElapsedTime := t, completeTraveledDistance := d, totalRealElapsedTime := rt, totalRealDistance := rd } ∧
      Times { m with
        completeElapsedTime := t, completeTraveledDistance := d, totalRealElapsedTime := rt, totalRealDistance := rd } now := by
  unfold Modeler.updateTimeAndDistance
  cases hl : m.modeled.getLast? with
  | none =>
    have hm : m.modeled = [] := List.getLast?_eq_none_iff.1 hl
    refine ⟨now, m.completeTraveledDistance, m.totalRealElapsedTime, m.totalRealDistance, rfl, fun _ => rfl, ?_, ?_⟩
    · intro l hl'
      rw [hm] at hl'
      cases hl'
    · intro r hr
      rw [hm] at hr
      cases hr
  | some l =>
    have hm : m.modeled ≠ [] := by intro e; rw [e] at hl; cases hl
    simp only
    by_cases h0 : m.realCount = 0
    · rw [if_pos h0]
      refine ⟨_, _, m.totalRealElapsedTime, m.totalRealDistance, rfl, fun e => absurd e hm, ?_, ?_⟩
      · intro l' hl'
        simp only [hl, Option.mem_some_iff] at hl'
        subst hl'
        exact ⟨rfl, rfl⟩
      · intro r _ hr
        exact absurd h0 hr
    · rw [if_neg h0]
      have hlt : m.realCount - 1 < m.modeled.length := by omega
      simp only [List.getElem?_eq_getElem hlt, Option.bind_eq_bind, Option.bind_some]
      refine ⟨_, _, _, _, rfl, fun e => absurd e hm, ?_, ?_⟩
      · intro l' hl'
        simp only [hl, Option.mem_some_iff] at hl'
        subst hl'
        exact ⟨rfl, rfl⟩
      · intro r hr _
        simp only [List.getElem?_eq_getElem hlt, Option.mem_some_iff] at hr
        subst hr
        exact ⟨rfl, rfl⟩

theorem getLast_append (a b : List Batch.Input) : (a ++ b).getLast? = b.getLast?.or a.getLast? := List.getLast?_append

theorem script_ended (l p : List Batch.Input) (hl : l ≠ []) : ∃ x, script true (l ++ p) = script false l.dropLast ++ x := by
  have e : l = l.dropLast ++ [l.getLast hl] := (List.dropLast_append_getLast hl).symm
  obtain ⟨x, hx⟩ := script_append true l.dropLast (l.getLast hl :: p) (by simp)
  refine ⟨x, ?_⟩
  rw [← hx]
  congr 1
  conv_lhs => rw [e]
  simp

theorem script_real (l p : List Batch.Input) : ∃ x, script true (l ++ p) = script p.isEmpty l ++ x := by
  by_cases hp : p = []
  · subst hp; exact ⟨[], by simp⟩
  · obtain ⟨x, hx⟩ := script_append true l p hp
    refine ⟨x, ?_⟩
    have : p.isEmpty = false := by cases p with | nil => exact absurd rfl hp | cons _ _ => rfl
    rw [this, hx]

theorem stable_fed {s0 : σ} {epsilon : F32} {m : Modeler I σ} (he : m.epsilon = epsilon) {R r : List Batch.Input}
    (hl : m.lastReal = R.getLast?) {rs : List LibResult}
    (F : Fed hypot lib { m with modeled := m.modeled.take m.stableCount } s0 false R.dropLast rs) :
    (∀ s' rs', feed lib s0 (script false (R ++ r).dropLast) = some (s', rs') →
      ∃ md hi, m.modelStable hypot lib r = some { m with library := s', hasInput := hi, modeled := md } ∧
        Fed hypot lib { m with library := s', hasInput := hi, modeled := md } s0 false (R ++ r).dropLast rs') ∧
    (feed lib s0 (script false (R ++ r).dropLast) = none → m.modelStable hypot lib r = none) := by
  obtain ⟨im, ep, lb, lr, md, hi, tt, ul, ce, ct, rt, rd, sc, rc⟩ := m
  simp only at hl F he
  subst hl
  unfold Modeler.modelStable
  simp only
  by_cases hr : r = []
  · subst hr
    simp only [List.append_nil, List.isEmpty_nil, if_true]
    constructor
    · intro s' rs' h
      rw [F.feed] at h
      cases h
      exact ⟨_, _, rfl, F⟩
    · intro h; rw [F.feed] at h; cases h
  · have hb : r.isEmpty = false := by cases r with | nil => exact absurd rfl hr | cons _ _ => rfl
    have hd : (R ++ r).dropLast = R ++ r.dropLast := List.dropLast_append_of_ne_nil hr
    rw [hd]
    simp only [hb, Bool.false_eq_true, if_false, Modeler.modelLastReal]
    cases hR : R.getLast? with
    | none =>
      rw [hR] at F
      have : R = [] := List.getLast?_eq_none_iff.1 hR
      subst this
      simp only [List.dropLast_nil] at F
      obtain ⟨h1, h2⟩ := modelMoves_fed hypot lib r.dropLast F
      constructor
      · intro s' rs' h
        obtain ⟨md, hi, g1, g2, -⟩ := h1 s' rs' h
        exact ⟨md, hi, g1, g2⟩
      · intro h
        exact h2 h
    | some l =>
      rw [hR] at F
      have hRe : R = R.dropLast ++ [l] := by
        obtain ⟨ne, e⟩ := List.getLast?_eq_some_iff.1 hR
        rw [e]; simp
      obtain ⟨h1, h2⟩ := modelInput_fed hypot lib F l false
      rw [← hRe] at h1 h2
      dsimp only
      constructor
      · intro s' rs' h
        obtain ⟨x, hx⟩ := script_false_append R r.dropLast
        have h' := h
        rw [hx] at h'
        obtain ⟨s1, r1, y, f1, f2, f3⟩ := feed_prefix lib h'
        obtain ⟨md, g1, g2, -⟩ := h1 s1 r1 f1
        obtain ⟨k1, -⟩ := modelMoves_fed hypot lib r.dropLast g2
        obtain ⟨md', hi', g3, g4, -⟩ := k1 s' rs' h
        refine ⟨md', hi', ?_, g4⟩
        rw [g1]
        simp only [Option.bind_some]
        exact g3
      · intro h
        cases hc : feed lib s0 (script false R) with
        | none => rw [h2 hc]; rfl
        | some q =>
          obtain ⟨md, g1, g2, -⟩ := h1 q.1 q.2 hc
          rw [g1]
          simp only [Option.bind_some]
          exact (modelMoves_fed hypot lib r.dropLast g2).2 h

theorem unstable_fed {s0 : σ} {m : Modeler I σ} {R r p : List Batch.Input} {rs : List LibResult}
    (hl : m.lastReal = R.getLast?) (F : Fed hypot lib m s0 false (R ++ r).dropLast rs) :
    (∀ q, feed lib s0 (script true (R ++ r ++ p)) = some q →
      ∃ md rc, m.modelUnstable hypot lib r p = some { m with
          modeled := md, stableCount := m.modeled.length, realCount := rc, lastReal := r.getLast?.or m.lastReal } ∧
        rc ≤ md.length ∧
        Core hypot lib s0 m.epsilon { m with
          modeled := md, stableCount := m.modeled.length, realCount := rc, lastReal := r.getLast?.or m.lastReal } (R ++ r) p) ∧
    (feed lib s0 (script true (R ++ r ++ p)) = none → m.modelUnstable hypot lib r p = none) := by
  have hlr : r.getLast?.or m.lastReal = (R ++ r).getLast? := by rw [hl, getLast_append]
  clear hl
  obtain ⟨im, ep, lb, lr, md, hi, tt, ul, ce, ct, rt, rd, sc, rc⟩ := m
  unfold Modeler.modelUnstable
  simp only at hlr F ⊢
  generalize hA : R ++ r = A at *
  rw [hlr]
  clear hlr
  let m : Modeler I σ := ⟨im, ep, lb, lr, md, hi, tt, ul, ce, ct, rt, rd, sc, rc⟩
  -- the last real input
  have key : (∀ q, feed lib s0 (script p.isEmpty A) = some q →
      ∃ md hi, ({ m with stableCount := m.modeled.length, lastReal := A.getLast? } : Modeler I σ).modelLastReal hypot lib p.isEmpty =
          some { m with stableCount := m.modeled.length, lastReal := A.getLast?, library := q.1, hasInput := hi, modeled := md } ∧
        Fed hypot lib { m with stableCount := m.modeled.length, lastReal := A.getLast?, library := q.1, hasInput := hi, modeled := md }
          s0 p.isEmpty A q.2 ∧ ∃ x, q.2 = rs ++ x) ∧
      (feed lib s0 (script p.isEmpty A) = none → ({ m with stableCount := m.modeled.length, lastReal := A.getLast? } : Modeler I σ).modelLastReal hypot lib p.isEmpty = none) := by
    simp only [Modeler.modelLastReal]
    cases hLast : A.getLast? with
    | none =>
      have : A = [] := List.getLast?_eq_none_iff.1 hLast
      subst this
      have hF := F.feed
      have hM := F.modeled
      have hH := F.hasInput
      simp only [List.dropLast_nil] at hF hM hH
      constructor
      · intro q hq
        have e : script p.isEmpty [] = script false [] := rfl
        rw [e, hF] at hq
        cases hq
        exact ⟨m.modeled, m.hasInput, rfl, ⟨hF, hM, hH⟩, [], by simp⟩
      · intro h
        have e : script p.isEmpty [] = script false [] := rfl
        rw [e, hF] at h
        cases h
    | some l =>
      have hAe : A = A.dropLast ++ [l] := by
        obtain ⟨ne, e⟩ := List.getLast?_eq_some_iff.1 hLast
        rw [e]; simp
      have F' : Fed hypot lib { m with stableCount := m.modeled.length, lastReal := some l } s0 false A.dropLast rs :=
        ⟨F.feed, F.modeled, F.hasInput⟩
      obtain ⟨h1, h2⟩ := modelInput_fed hypot lib F' l p.isEmpty
      rw [← hAe] at h1 h2
      constructor
      · intro q hq
        obtain ⟨md, g1, g2, g3⟩ := h1 q.1 q.2 hq
        exact ⟨md, true, g1, g2, g3⟩
      · exact h2
  obtain ⟨key1, key2⟩ := key
  obtain ⟨x, hx⟩ := script_real A p
  constructor
  · intro q hq
    have hq' := hq
    rw [hx] at hq'
    obtain ⟨s1, r1, y, f1, f2, f3⟩ := feed_prefix lib hq'
    obtain ⟨md, hi, g1, g2, z, hz⟩ := key1 (s1, r1) f1
    simp only at hz g2
    simp only [m] at g1
    rw [g1]
    simp only [Option.bind_eq_bind, Option.bind_some]
    by_cases hp : p = []
    · subst hp
      simp only [List.isEmpty_nil, List.append_nil] at *
      simp only [Modeler.modelPredicted, Option.bind_some]
      refine ⟨md, md.length, rfl, le_refl _, rfl, ?_⟩
      refine ⟨m.library, s1, s1, rs, z, [], F.feed, by rw [List.isEmpty_nil, f1, hz], by rw [List.append_nil, List.append_nil, f1, hz], congrArg List.length F.modeled, ?_, ?_, ?_⟩
      · have := g2.modeled
        simp only at this
        rw [this, hz]
      · have := g2.modeled
        simp only at this
        rw [List.append_nil, this, hz]
      · intro _
        exact ⟨rfl, F.hasInput⟩
    · have hb : p.isEmpty = false := by cases p with | nil => exact absurd rfl hp | cons _ _ => rfl
      rw [hb] at g2 f1
      have G : Fed hypot lib { m with
          stableCount := m.modeled.length, lastReal := A.getLast?, library := s1, hasInput := hi, modeled := md,
          realCount := md.length } s0 false A r1 := ⟨g2.feed, g2.modeled, g2.hasInput⟩
      obtain ⟨k1, -⟩ := modelPredicted_fed hypot lib p hp G
      obtain ⟨md', hi', k2, k3, w, hw⟩ := k1 q.1 q.2 hq
      have gm := g2.modeled
      simp only at gm k3
      refine ⟨md', md.length, ?_, ?_, rfl, ?_⟩
      · rw [k2]; rfl
      · rw [k3, gm, hw]; exact length_thin_le hypot _ _ _
      · refine ⟨m.library, s1, q.1, rs, z, w, F.feed, ?_, ?_, congrArg List.length F.modeled, ?_, ?_, fun _ => ⟨rfl, F.hasInput⟩⟩
        · rw [hb, f1, hz]
        · rw [hq, ← hz, ← hw]
        · simp only; rw [gm, hz]
        · simp only; rw [k3, hw, hz]
  · intro h
    cases hc : feed lib s0 (script p.isEmpty A) with
    | none =>
      have k := key2 hc
      simp only [m] at k
      rw [k]; rfl
    | some q =>
      obtain ⟨md, hi, g1, g2, -⟩ := key1 q hc
      simp only [m] at g1
      rw [g1]
      simp only [Option.bind_eq_bind, Option.bind_some]
      by_cases hp : p = []
      · subst hp
        rw [List.append_nil] at h
        rw [List.isEmpty_nil, h] at hc
        cases hc
      · have hb : p.isEmpty = false := by cases p with | nil => exact absurd rfl hp | cons _ _ => rfl
        rw [hb] at g2
        have G : Fed hypot lib { m with
            stableCount := m.modeled.length, lastReal := A.getLast?, library := q.1, hasInput := hi, modeled := md,
            realCount := md.length } s0 false A q.2 := ⟨g2.feed, g2.modeled, g2.hasInput⟩
        rw [(modelPredicted_fed hypot lib p hp G).2 h]
        rfl

/-! ## Histories -/

theorem toolTypeOf_append {a : List Batch.Input} (b : List Batch.Input) (h : a ≠ []) : toolTypeOf (a ++ b) = toolTypeOf a := by
  cases a with
  | nil => exact absurd rfl h
  | cons x a => rfl

theorem unitLengthOf_append {a : List Batch.Input} (b : List Batch.Input) (h : a ≠ []) : unitLengthOf (a ++ b) = unitLengthOf a := by
  cases a with
  | nil => exact absurd rfl h
  | cons x a => rfl

theorem isEmpty_false {α : Type} {l : List α} (h : l ≠ []) : l.isEmpty = false := by
  cases l with | nil => exact absurd rfl h | cons _ _ => rfl

theorem Core.counts {s0 : σ} {epsilon : F32} {m : Modeler I σ} {R P : List Batch.Input} (C : Core hypot lib s0 epsilon m R P) :
    m.stableCount ≤ m.realCount ∧ m.realCount ≤ m.modeled.length := by
  obtain ⟨st, sre, sal, rst, x, y, h1, h2, h3, h4, h5, h6, h7⟩ := C.data
  rw [h4, h5, h6]
  exact ⟨length_thin_le hypot _ _ _, length_thin_le hypot _ _ _⟩

/-- The state after `prepare`. -/
theorem prepare_fed {inputModel : I} {epsilon : F32} {m : Modeler I σ} {R P : List Batch.Input}
    (J : Inv hypot lib inputModel epsilon m R P) (r p : List Batch.Input) :
    ∃ l hi rs, m.prepare lib r p = { m with
        library := l, hasInput := hi, toolType := toolTypeOf (R ++ r ++ p), unitLength := unitLengthOf (R ++ r ++ p) } ∧
      Fed hypot lib { m with
        library := l, hasInput := hi, toolType := toolTypeOf (R ++ r ++ p), unitLength := unitLengthOf (R ++ r ++ p),
        modeled := m.modeled.take m.stableCount }
        (lib.reset inputModel epsilon (unitLengthOf (R ++ r))) false R.dropLast rs := by
  obtain ⟨st, sre, sal, rst, x, y, h1, h2, h3, h4, h5, h6, h7⟩ := J.core.data
  by_cases hR : R = []
  · subst hR
    refine ⟨lib.reset inputModel epsilon (unitLengthOf r), false, [], ?_, ?_⟩
    · unfold Modeler.prepare
      rw [if_neg (by rw [J.core.lastReal]; simp), J.model, J.eps]
      by_cases hr : r = []
      · subst hr; rfl
      · rw [isEmpty_false hr]
        simp only [Bool.false_eq_true, if_false, List.nil_append]
        rw [toolTypeOf_append p hr, unitLengthOf_append p hr]
    · have h0 : m.stableCount = 0 := by
        have e : feed lib (lib.reset inputModel epsilon (unitLengthOf [])) (script false ([] : List Batch.Input).dropLast) =
          some (lib.reset inputModel epsilon (unitLengthOf []), []) := rfl
        rw [e] at h1
        cases h1
        rw [h4]; rfl
      exact ⟨rfl, by simp only [h0, List.take_zero]; rfl, rfl⟩
  · obtain ⟨e1, e2⟩ := h7 hR
    refine ⟨m.library, m.hasInput, rst, ?_, ?_⟩
    · unfold Modeler.prepare
      have : m.lastReal.isSome = true := by
        rw [J.core.lastReal, Option.isSome_iff_ne_none]
        intro e
        exact hR (List.getLast?_eq_none_iff.1 e)
      rw [if_pos this, List.append_assoc, toolTypeOf_append _ hR, unitLengthOf_append _ hR, ← toolTypeOf_append P hR,
        ← unitLengthOf_append P hR, ← J.tool, ← J.unit]
    · refine ⟨?_, ?_, e2⟩
      · rw [unitLengthOf_append _ hR, h1, e1]
      · simp only
        rw [h6, h4, List.append_assoc, thin_prefix, J.eps]

theorem extend_inv {inputModel : I} {epsilon : F32} (hgt : gt epsilon zero = true) {m : Modeler I σ} {R P : List Batch.Input}
    (J : Inv hypot lib inputModel epsilon m R P) (r p : List Batch.Input) (now : Duration32)
    (hne : ¬ (r.isEmpty = true ∧ p.isEmpty = true ∧ m.realCount = m.modeled.length)) :
    (∀ q, feed lib (lib.reset inputModel epsilon (unitLengthOf (R ++ r))) (script true (R ++ r ++ p)) = some q →
      ∃ m', m.extendStroke hypot lib r p now = some m' ∧ Inv hypot lib inputModel epsilon m' (R ++ r) p ∧ Times m' now) ∧
    (feed lib (lib.reset inputModel epsilon (unitLengthOf (R ++ r))) (script true (R ++ r ++ p)) = none →
      m.extendStroke hypot lib r p now = none) := by
  have he := J.eps
  have hmod := J.model
  have hlr := J.core.lastReal
  obtain ⟨l, hi, rs, hp, F⟩ := prepare_fed hypot lib J r p
  unfold Modeler.extendStroke
  rw [he, if_pos hgt, if_neg hne]
  simp only [hp]
  generalize hs0 : lib.reset inputModel epsilon (unitLengthOf (R ++ r)) = s0 at *
  have S := stable_fed hypot lib (s0 := s0) (epsilon := epsilon) (m := { m with
      library := l, hasInput := hi, toolType := toolTypeOf (R ++ r ++ p), unitLength := unitLengthOf (R ++ r ++ p) })
      (R := R) (r := r) he hlr F
  obtain ⟨S1, S2⟩ := S
  constructor
  · intro q hq
    have : ∃ s1 r1, feed lib s0 (script false (R ++ r).dropLast) = some (s1, r1) := by
      by_cases hA : R ++ r = []
      · rw [hA]; exact ⟨s0, [], rfl⟩
      · obtain ⟨x, hx⟩ := script_ended (R ++ r) p hA
        rw [hx] at hq
        obtain ⟨s1, r1, y, f1, -⟩ := feed_prefix lib hq
        exact ⟨s1, r1, f1⟩
    obtain ⟨s1, r1, f1⟩ := this
    obtain ⟨md, hi', g1, g2⟩ := S1 s1 r1 f1
    have g2' : Fed hypot lib ({ m with
        library := s1, hasInput := hi', toolType := toolTypeOf (R ++ r ++ p), unitLength := unitLengthOf (R ++ r ++ p),
        modeled := md } : Modeler I σ) s0 false (R ++ r).dropLast r1 := g2
    obtain ⟨U1, -⟩ := unstable_fed hypot lib (m := { m with
        library := s1, hasInput := hi', toolType := toolTypeOf (R ++ r ++ p), unitLength := unitLengthOf (R ++ r ++ p),
        modeled := md }) (R := R) (r := r) (p := p) hlr g2'
    obtain ⟨md', rc, u1, u2, u3⟩ := U1 q hq
    rw [g1]
    simp only [Option.bind_eq_bind, Option.bind_some]
    rw [u1]
    simp only [Option.bind_some]
    obtain ⟨t, d, rt, rd, k1, k2⟩ := updateTimes (m := { m with
        library := s1, hasInput := hi', toolType := toolTypeOf (R ++ r ++ p), unitLength := unitLengthOf (R ++ r ++ p),
        modeled := md', stableCount := md.length, realCount := rc, lastReal := r.getLast?.or m.lastReal }) u2 now
    refine ⟨_, k1, ⟨hmod, he, ?_, rfl, rfl⟩, k2⟩
    rw [hs0]
    have hep : m.epsilon = epsilon := he
    simp only [hep] at u3 ⊢
    exact ⟨u3.lastReal, u3.data⟩
  · intro hq
    cases hc : feed lib s0 (script false (R ++ r).dropLast) with
    | none => rw [S2 hc]; rfl
    | some q =>
      obtain ⟨md, hi', g1, g2⟩ := S1 q.1 q.2 hc
      rw [g1]
      simp only [Option.bind_eq_bind, Option.bind_some]
      have g2' : Fed hypot lib ({ m with
        library := q.1, hasInput := hi', toolType := toolTypeOf (R ++ r ++ p), unitLength := unitLengthOf (R ++ r ++ p),
        modeled := md } : Modeler I σ) s0 false (R ++ r).dropLast q.2 := g2
      rw [(unstable_fed hypot lib (m := { m with
        library := q.1, hasInput := hi', toolType := toolTypeOf (R ++ r ++ p), unitLength := unitLengthOf (R ++ r ++ p),
        modeled := md }) (R := R) (r := r) (p := p) hlr g2').2 hq]
      rfl

/-- One call that succeeds. -/
theorem step_inv {inputModel : I} {epsilon : F32} (hgt : gt epsilon zero = true) {m m' : Modeler I σ} {R P : List Batch.Input}
    (J : Inv hypot lib inputModel epsilon m R P) (r p : List Batch.Input) (now : Duration32)
    (h : m.extendStroke hypot lib r p now = some m') :
    Times m' now ∧ (Inv hypot lib inputModel epsilon m' (R ++ r) p ∨
      (r = [] ∧ p = [] ∧ Inv hypot lib inputModel epsilon m' R P ∧ m'.realCount = m'.modeled.length)) := by
  by_cases hne : r.isEmpty = true ∧ p.isEmpty = true ∧ m.realCount = m.modeled.length
  · unfold Modeler.extendStroke at h
    rw [J.eps, if_pos hgt, if_pos hne] at h
    obtain ⟨t, d, rt, rd, k1, k2⟩ := updateTimes (m := m) (le_of_eq hne.2.2) now
    rw [k1] at h
    cases h
    exact ⟨k2, Or.inr ⟨List.isEmpty_iff.1 hne.1, List.isEmpty_iff.1 hne.2.1, ⟨J.model, J.eps, ⟨J.core.lastReal, J.core.data⟩, J.tool, J.unit⟩,
      hne.2.2⟩⟩
  · obtain ⟨E1, E2⟩ := extend_inv hypot lib hgt J r p now hne
    cases hc : feed lib (lib.reset inputModel epsilon (unitLengthOf (R ++ r))) (script true (R ++ r ++ p)) with
    | none => rw [E2 hc] at h; cases h
    | some q =>
      obtain ⟨m1, e1, e2, e3⟩ := E1 q hc
      rw [e1] at h
      cases h
      exact ⟨e3, Or.inl e2⟩

theorem run_inv {inputModel : I} {epsilon : F32} (hgt : gt epsilon zero = true) (cs : List Call) :
    ∀ {m m' : Modeler I σ} {R P : List Batch.Input}, Inv hypot lib inputModel epsilon m R P → m.run hypot lib cs = some m' →
    ∃ P', Inv hypot lib inputModel epsilon m' (R ++ reals cs) P' := by
  induction cs with
  | nil =>
    intro m m' R P J h
    cases h
    exact ⟨P, by simpa [reals] using J⟩
  | cons c cs ih =>
    intro m m' R P J h
    simp only [Modeler.run, Option.bind_eq_bind] at h
    cases h1 : m.extendStroke hypot lib c.real c.pred c.now with
    | none => rw [h1] at h; cases h
    | some m1 =>
      rw [h1, Option.bind_some] at h
      have e : R ++ reals (c :: cs) = (R ++ c.real) ++ reals cs := by simp [reals]
      rw [e]
      rcases (step_inv hypot lib hgt J c.real c.pred c.now h1).2 with J1 | ⟨hr, -, J1, -⟩
      · exact ih J1 h
      · rw [hr, List.append_nil]
        exact ih J1 h

theorem run_append (a b : List Call) : ∀ m : Modeler I σ, m.run hypot lib (a ++ b) = (m.run hypot lib a).bind fun m => m.run hypot lib b := by
  induction a with
  | nil => intro m; rfl
  | cons c a ih =>
    intro m
    simp only [List.cons_append, Modeler.run, Option.bind_eq_bind]
    cases m.extendStroke hypot lib c.real c.pred c.now with
    | none => rfl
    | some m1 => simp only [Option.bind_some]; exact ih m1

theorem start_inv {m m0 : Modeler I σ} {inputModel : I} {epsilon : F32} (h : m.start inputModel epsilon = some m0) :
    gt epsilon zero = true ∧ Inv hypot lib inputModel epsilon m0 [] [] := by
  unfold Modeler.start at h
  split at h
  · rename_i hg
    cases h
    exact ⟨hg, rfl, rfl, ⟨rfl, _, _, _, [], [], [], rfl, rfl, rfl, rfl, rfl, rfl, fun h => absurd rfl h⟩, rfl, rfl⟩
  · cases h

theorem inv_outcome {inputModel : I} {epsilon : F32} {m : Modeler I σ} {R P : List Batch.Input}
    (J : Inv hypot lib inputModel epsilon m R P) :
    outcome hypot lib inputModel epsilon R P =
      some ⟨m.modeled.take m.stableCount, m.modeled.take m.realCount, m.modeled⟩ ∧
    stableInputs hypot lib inputModel epsilon R = some (m.modeled.take m.stableCount) := by
  obtain ⟨st, sre, sal, rst, x, y, h1, h2, h3, h4, h5, h6, h7⟩ := J.core.data
  have e1 : stableInputs hypot lib inputModel epsilon R = some (m.modeled.take m.stableCount) := by
    unfold stableInputs model
    rw [h1, h6, h4, List.append_assoc, thin_prefix]
    simp only [Option.map_some, thin_eq]
  refine ⟨?_, e1⟩
  unfold outcome
  rw [e1]
  unfold model
  rw [h2, h3]
  simp only [Option.map_some, Option.bind_eq_bind, Option.bind_some, Option.some.injEq, Outcome.mk.injEq, true_and]
  refine ⟨?_, ?_⟩
  · rw [h6, h5, thin_prefix, thin_eq]
  · rw [h6, thin_eq]

theorem lt_irrefl (a : F32) : lt a a = false := by
  unfold lt; simp

theorem lt_asymm {a b : F32} (h : lt a b = true) : lt b a = false := by
  unfold lt at *
  simp only [Bool.and_eq_true, decide_eq_true_eq] at h
  have : ¬ key b < key a := not_lt.2 h.2.le
  simp [this]

theorem lt_durMax (a b : Duration32) : Duration32.lt (Tip.durMax a b) a = false ∧ Duration32.lt (Tip.durMax a b) b = false := by
  unfold Tip.durMax
  by_cases h : Duration32.lt a b = true
  · rw [if_pos h]
    exact ⟨lt_asymm h, lt_irrefl _⟩
  · rw [if_neg h]
    exact ⟨lt_irrefl _, by simpa using h⟩

/-! ## Theorems -/

/-- **C35.** Take any modeler, start a stroke, and extend it any number of times, with any real and predicted inputs; `R` is the
list of all real inputs. The modeled inputs are those of the specification for `R` and the prediction of the last call: the
stable ones, those of real inputs and all. The only exception is a last call without any inputs after a prediction `P` which
has added no modeled input: it leaves everything as it was (see `C35_withdrawn_counterexample`). -/
theorem C35_modeled {m m0 m' : Modeler I σ} {inputModel : I} {epsilon : F32} (h0 : m.start inputModel epsilon = some m0)
    (cs : List Call) (c : Call) (h : m0.run hypot lib (cs ++ [c]) = some m') :
    ∃ P, outcome hypot lib inputModel epsilon (reals (cs ++ [c])) P =
        some ⟨m'.modeled.take m'.stableCount, m'.modeled.take m'.realCount, m'.modeled⟩ ∧
      m'.stableCount ≤ m'.realCount ∧ m'.realCount ≤ m'.modeled.length ∧
      m'.toolType = toolTypeOf (reals (cs ++ [c]) ++ P) ∧ m'.unitLength = unitLengthOf (reals (cs ++ [c]) ++ P) ∧
      (P = c.pred ∨ (c.real = [] ∧ c.pred = [] ∧ m'.realCount = m'.modeled.length)) := by
  obtain ⟨hg, J0⟩ := start_inv hypot lib h0
  rw [run_append] at h
  cases h1 : m0.run hypot lib cs with
  | none => rw [h1] at h; cases h
  | some m1 =>
    rw [h1, Option.bind_some] at h
    obtain ⟨P1, J1⟩ := run_inv hypot lib hg cs J0 h1
    simp only [Modeler.run, Option.bind_eq_bind, List.nil_append] at h J1
    cases h2 : m1.extendStroke hypot lib c.real c.pred c.now with
    | none => rw [h2] at h; cases h
    | some m2 =>
      rw [h2] at h
      cases h
      have e : reals (cs ++ [c]) = reals cs ++ c.real := by simp [reals]
      rcases (step_inv hypot lib hg J1 c.real c.pred c.now h2).2 with J2 | ⟨hr, hp, J2, hc⟩
      · rw [← e] at J2
        exact ⟨c.pred, (inv_outcome hypot lib J2).1, (J2.core.counts).1, (J2.core.counts).2, J2.tool, J2.unit, Or.inl rfl⟩
      · rw [hr, List.append_nil] at e
        rw [← e] at J2
        exact ⟨P1, (inv_outcome hypot lib J2).1, (J2.core.counts).1, (J2.core.counts).2, J2.tool, J2.unit, Or.inr ⟨hr, hp, hc⟩⟩

/-- **C35.** The stable modeled inputs are a function of the list of all real inputs. -/
theorem C35_stable {m m0 m' : Modeler I σ} {inputModel : I} {epsilon : F32} (h0 : m.start inputModel epsilon = some m0)
    (cs : List Call) (h : m0.run hypot lib cs = some m') :
    stableInputs hypot lib inputModel epsilon (reals cs) = some (m'.modeled.take m'.stableCount) := by
  obtain ⟨hg, J0⟩ := start_inv hypot lib h0
  obtain ⟨P1, J1⟩ := run_inv hypot lib hg cs J0 h
  exact (inv_outcome hypot lib J1).2

/-- **C35.** They do not depend on how the inputs were split over calls, on the predictions and times in between, or on what
the modeler was used for before. -/
theorem C35_batching {m n m0 n0 m' n' : Modeler I σ} {inputModel : I} {epsilon : F32}
    (hm : m.start inputModel epsilon = some m0) (hn : n.start inputModel epsilon = some n0) (cs ds : List Call)
    (he : reals cs = reals ds) (h1 : m0.run hypot lib cs = some m') (h2 : n0.run hypot lib ds = some n') :
    m'.stableCount = n'.stableCount ∧ m'.modeled.take m'.stableCount = n'.modeled.take n'.stableCount := by
  have a := C35_stable hypot lib hm cs h1
  have b := C35_stable hypot lib hn ds h2
  rw [he, b] at a
  have e := (Option.some.inj a).symm
  refine ⟨?_, e⟩
  obtain ⟨hg, J0⟩ := start_inv hypot lib hm
  obtain ⟨P1, J1⟩ := run_inv hypot lib hg cs J0 h1
  obtain ⟨hg', K0⟩ := start_inv hypot lib hn
  obtain ⟨Q1, K1⟩ := run_inv hypot lib hg' ds K0 h2
  have e' := congrArg List.length e
  rw [List.length_take, List.length_take] at e'
  have := J1.core.counts
  have := K1.core.counts
  omega

/-- **C35.** Later calls do not change the inputs that are stable, and never decrease their number. -/
theorem C35_final {m m0 m1 m2 : Modeler I σ} {inputModel : I} {epsilon : F32} (h0 : m.start inputModel epsilon = some m0)
    (cs ds : List Call) (h1 : m0.run hypot lib cs = some m1) (h2 : m1.run hypot lib ds = some m2) :
    m1.stableCount ≤ m2.stableCount ∧ m2.modeled.take m1.stableCount = m1.modeled.take m1.stableCount := by
  obtain ⟨hg, J0⟩ := start_inv hypot lib h0
  obtain ⟨P1, J1⟩ := run_inv hypot lib hg cs J0 h1
  rw [List.nil_append] at J1
  obtain ⟨P2, J2⟩ := run_inv hypot lib hg ds J1 h2
  obtain ⟨st, sre, sal, rst, x, y, a1, a2, a3, a4, a5, a6, a7⟩ := J1.core.data
  obtain ⟨st', sre', sal', rst', x', y', b1, b2, b3, b4, b5, b6, b7⟩ := J2.core.data
  have hpre : ∃ z, rst' = rst ++ z := by
    by_cases hR : reals cs = []
    · rw [hR] at a1
      have e : feed lib (lib.reset inputModel epsilon (unitLengthOf [])) (script false ([] : List Batch.Input).dropLast) =
        some (lib.reset inputModel epsilon (unitLengthOf []), []) := rfl
      rw [e] at a1
      cases a1
      exact ⟨rst', rfl⟩
    · rw [unitLengthOf_append _ hR] at b1
      have : ∃ w, (reals cs ++ reals ds).dropLast = (reals cs).dropLast ++ w := by
        by_cases hd : reals ds = []
        · exact ⟨[], by simp [hd]⟩
        · rw [List.dropLast_append_of_ne_nil hd]
          conv => enter [1, w]; lhs; rw [← List.dropLast_append_getLast hR, List.append_assoc]
          exact ⟨_, rfl⟩
      obtain ⟨w, hw⟩ := this
      rw [hw] at b1
      obtain ⟨u, hu⟩ := script_false_append (reals cs).dropLast w
      rw [hu] at b1
      obtain ⟨s1, r1, z, f1, f2, f3⟩ := feed_prefix lib b1
      rw [a1] at f1
      cases f1
      exact ⟨z, f3⟩
  obtain ⟨z, rfl⟩ := hpre
  rw [a4, b4]
  refine ⟨length_thin_le hypot _ _ _, ?_⟩
  rw [a6, b6, List.append_assoc, List.append_assoc, List.append_assoc, thin_prefix, thin_prefix]

/-- **C35.** The calls succeed if the library accepts the inputs in the given order: for each call, all real inputs up to it
followed by its prediction. -/
theorem C35_accepted {m m0 : Modeler I σ} {inputModel : I} {epsilon : F32} (h0 : m.start inputModel epsilon = some m0)
    (cs : List Call) (h : ∀ a c b, cs = a ++ c :: b →
      (outcome hypot lib inputModel epsilon (reals (a ++ [c])) c.pred).isSome) :
    ∃ m', m0.run hypot lib cs = some m' := by
  obtain ⟨hg, J0⟩ := start_inv hypot lib h0
  induction cs using List.reverseRecOn with
  | nil => exact ⟨m0, rfl⟩
  | append_singleton cs c ih =>
    obtain ⟨m1, h1⟩ := ih (fun a d b e => h a d (b ++ [c]) (by rw [e]; simp))
    obtain ⟨P1, J1⟩ := run_inv hypot lib hg cs J0 h1
    rw [List.nil_append] at J1
    rw [run_append, h1]
    simp only [Option.bind_some, Modeler.run, Option.bind_eq_bind]
    by_cases hne : c.real.isEmpty = true ∧ c.pred.isEmpty = true ∧ m1.realCount = m1.modeled.length
    · obtain ⟨t, d, rt, rd, k1, k2⟩ := updateTimes (m := m1) (le_of_eq hne.2.2) c.now
      unfold Modeler.extendStroke
      rw [J1.eps, if_pos hg, if_pos hne, k1]
      exact ⟨_, rfl⟩
    · have ho := h cs c [] rfl
      have e : reals (cs ++ [c]) = reals cs ++ c.real := by simp [reals]
      rw [e] at ho
      unfold outcome at ho
      cases hc : feed lib (lib.reset inputModel epsilon (unitLengthOf (reals cs ++ c.real)))
          (script true (reals cs ++ c.real ++ c.pred)) with
      | none =>
        unfold model at ho
        rw [hc] at ho
        simp at ho
      | some q =>
        obtain ⟨m2, e1, -⟩ := (extend_inv hypot lib hg J1 c.real c.pred c.now hne).1 q hc
        rw [e1]
        exact ⟨m2, rfl⟩

/-- **C35.** After each call the elapsed time is that of the last modeled input or the given one, whichever is later, the
traveled distance is that of the last modeled input, and the real time and distance are those of the last real one. -/
theorem C35_times {m m0 m' : Modeler I σ} {inputModel : I} {epsilon : F32} (h0 : m.start inputModel epsilon = some m0)
    (cs : List Call) (c : Call) (h : m0.run hypot lib (cs ++ [c]) = some m') :
    (m'.modeled = [] → m'.completeElapsedTime = c.now) ∧
    (∀ l ∈ m'.modeled.getLast?, m'.completeElapsedTime = Tip.durMax l.elapsedTime c.now ∧
      Duration32.lt m'.completeElapsedTime l.elapsedTime = false ∧ Duration32.lt m'.completeElapsedTime c.now = false ∧
      m'.completeTraveledDistance = l.traveledDistance) ∧
    (∀ r ∈ (m'.modeled.take m'.realCount).getLast?,
      m'.totalRealDistance = r.traveledDistance ∧ m'.totalRealElapsedTime = r.elapsedTime) := by
  obtain ⟨hg, J0⟩ := start_inv hypot lib h0
  rw [run_append] at h
  cases h1 : m0.run hypot lib cs with
  | none => rw [h1] at h; cases h
  | some m1 =>
    rw [h1, Option.bind_some] at h
    obtain ⟨P1, J1⟩ := run_inv hypot lib hg cs J0 h1
    simp only [Modeler.run, Option.bind_eq_bind, List.nil_append] at h J1
    cases h2 : m1.extendStroke hypot lib c.real c.pred c.now with
    | none => rw [h2] at h; cases h
    | some m2 =>
      rw [h2] at h
      cases h
      obtain ⟨T, hc⟩ := step_inv hypot lib hg J1 c.real c.pred c.now h2
      have hcount : m'.realCount ≤ m'.modeled.length := by
        rcases hc with J2 | ⟨-, -, J2, -⟩
        · exact J2.core.counts.2
        · exact J2.core.counts.2
      refine ⟨T.empty, ?_, ?_⟩
      · intro l hl
        obtain ⟨a, b⟩ := T.complete l hl
        refine ⟨a, ?_, ?_, b⟩
        · rw [a]; exact (lt_durMax _ _).1
        · rw [a]; exact (lt_durMax _ _).2
      · intro r hr
        by_cases h0 : m'.realCount = 0
        · rw [h0] at hr; cases hr
        · refine T.real r ?_ h0
          rw [List.getLast?_eq_getElem?, List.length_take, Nat.min_eq_left hcount, List.getElem?_take, if_pos (by omega)] at hr
          exact hr

theorem spaced_after (epsilon : F32) (rs : List LibResult) : ∀ (x : Tip.Input) (k : Nat) (a b : Tip.Input),
    (x :: addResults hypot epsilon (some x.position) x.traveledDistance rs)[k]? = some a →
    (x :: addResults hypot epsilon (some x.position) x.traveledDistance rs)[k + 1]? = some b →
    lt (dist hypot a.position b.position) epsilon = false ∧
    b.traveledDistance = add a.traveledDistance (dist hypot a.position b.position) := by
  induction rs with
  | nil =>
    intro x k a b h1 h2
    simp [addResults] at h2
  | cons r rs ih =>
    intro x k a b h1 h2
    simp only [addResults] at h1 h2
    by_cases h : lt (hypot (sub r.position.x x.position.x) (sub r.position.y x.position.y)) epsilon = true
    · rw [if_pos h] at h1 h2
      exact ih x k a b h1 h2
    · rw [if_neg h] at h1 h2
      cases k with
      | zero =>
        simp only [List.getElem?_cons_zero, List.getElem?_cons_succ, Option.some.injEq] at h1 h2
        subst h1 h2
        exact ⟨Bool.eq_false_iff.2 h, rfl⟩
      | succ k =>
        rw [List.getElem?_cons_succ] at h1 h2
        exact ih ⟨r.position, r.velocity, r.acceleration, _, r.time, r.pressure, r.tilt, r.orientation⟩ k a b h1 h2

/-- **C35.** Consecutive modeled inputs are not closer than the epsilon of the brush, and the traveled distance is the sum of
the distances between them. -/
theorem C35_spacing {m m0 m' : Modeler I σ} {inputModel : I} {epsilon : F32} (h0 : m.start inputModel epsilon = some m0)
    (cs : List Call) (h : m0.run hypot lib cs = some m') :
    (∀ a ∈ m'.modeled.head?, a.traveledDistance = zero) ∧
    ∀ k a b, m'.modeled[k]? = some a → m'.modeled[k + 1]? = some b →
      lt (dist hypot a.position b.position) epsilon = false ∧
      b.traveledDistance = add a.traveledDistance (dist hypot a.position b.position) := by
  obtain ⟨hg, J0⟩ := start_inv hypot lib h0
  obtain ⟨P1, J1⟩ := run_inv hypot lib hg cs J0 h
  obtain ⟨st, sre, sal, rst, x, y, h1, h2, h3, h4, h5, h6, h7⟩ := J1.core.data
  rw [h6]
  generalize rst ++ x ++ y = rs
  cases rs with
  | nil => exact ⟨fun a ha => by simp [thin, addResults] at ha, fun k a b h1 => by simp [thin, addResults] at h1⟩
  | cons r rs =>
    constructor
    · intro a ha
      simp only [thin, addResults, List.head?_cons, Option.mem_def, Option.some.injEq] at ha
      subst ha
      rfl
    · exact fun k a b => spaced_after hypot epsilon rs
        ⟨r.position, r.velocity, r.acceleration, zero, r.time, r.pressure, r.tilt, r.orientation⟩ k a b

/-- **C35.** A modeler that was never started, and an epsilon that is not positive, are rejected. -/
theorem C35_rejected (m : Modeler I σ) (inputModel : I) (epsilon : F32) (h : gt epsilon zero = false) :
    m.start inputModel epsilon = none ∧
    ∀ r p now, ({ m with epsilon := epsilon } : Modeler I σ).extendStroke hypot lib r p now = none := by
  constructor
  · unfold Modeler.start
    rw [if_neg (by rw [h]; simp)]
  · intro r p now
    unfold Modeler.extendStroke
    rw [if_neg (by simp only; rw [h]; simp)]

/-! ## Concrete strokes, and where the code differs from its documentation -/

/-- A library that reports the positions of the first and the last input, and smooths away those in between. -/
def toy : Library Unit Bool where
  reset := fun _ _ _ => false
  update := fun s i =>
    match i.event, s with
    | .down, false => some (true, [⟨i.position, ⟨zero, zero⟩, ⟨zero, zero⟩, ⟨i.time⟩, i.pressure, i.tilt, i.orientation⟩])
    | .move, true => some (true, [])
    | .up, true => some (false, [⟨i.position, ⟨zero, zero⟩, ⟨zero, zero⟩, ⟨i.time⟩, i.pressure, i.tilt, i.orientation⟩])
    | _, _ => none

/-- Stands in for the length of a vector, which it is for those along an axis. -/
def toyHypot (x y : F32) : F32 := add (fabs x) (fabs y)

/-- An input at `(x, 0)` and the time `t`. -/
def at' (x t : Int) : Batch.Input :=
  { tool := .stylus, x := ofInt x, time := ofInt t, unitLength := ofInt 2 }

def toyStart : Modeler Unit Bool := { inputModel := (), library := false }

def call (r p : List Batch.Input) : Call := { real := r, pred := p, now := Duration32.zero }

/-- What is seen after some calls: the positions of the modeled inputs, the numbers of stable and real ones, and the distance. -/
def seen (cs : List Call) : Option (List F32 × Nat × Nat × F32) := do
  let m ← toyStart.start () (ofInt 1)
  let m ← m.run toyHypot toy cs
  some (m.modeled.map (·.position.x), m.stableCount, m.realCount, m.completeTraveledDistance)

/-- The hypotheses of the theorems are met: three calls with real and predicted inputs. -/
example : seen [call [at' 0 0] [at' 9 1], call [at' 2 1, at' 4 2] [], call [at' 8 3] [at' 12 4, at' 15 5]] =
    some ([ofInt 0, ofInt 15], 1, 1, ofInt 15) := by decide +kernel

/-- The same real inputs in one call: the stable ones are the same. -/
example : seen [call [at' 0 0, at' 2 1, at' 4 2, at' 8 3] []] = some ([ofInt 0, ofInt 8], 1, 2, ofInt 8) := by decide +kernel

/-- The hypothesis of `C35_accepted` is met. -/
example : (outcome toyHypot toy () (ofInt 1) [at' 0 0, at' 2 1, at' 4 2] [at' 9 3]).isSome := by decide +kernel

/-- **C35.** "This always clears any previously generated unstable modeled inputs" is not so: after the prediction of a pen
that comes back, which has added no modeled input, an update without inputs does nothing, and the last real input, 5, is not
among the modeled ones; it is if there was no such prediction. -/
theorem C35_withdrawn_counterexample :
    seen [call [at' 0 0, at' 5 1] [at' 0 2], call [] []] = some ([ofInt 0], 1, 1, zero) ∧
    seen [call [at' 0 0, at' 5 1] []] = some ([ofInt 0, ofInt 5], 1, 2, ofInt 5) ∧
    seen [call [at' 0 0, at' 5 1] [at' 9 2], call [] []] = some ([ofInt 0, ofInt 5], 1, 2, ofInt 5) := by
  decide +kernel

/-- **C35.** "This number will always be greater than the value of `stable_input_count`" is not so for real inputs at the same
place. -/
theorem C35_real_count_counterexample : seen [call [at' 0 0, at' 0 1] []] = some ([ofInt 0], 1, 1, zero) := by
  decide +kernel

/-- **C35.** The number of modeled inputs of real inputs "will be non-decreasing" is not so: the last real input was modeled as
the end of the stroke, and with a prediction no longer is. -/
theorem C35_real_count_decreases_counterexample :
    seen [call [at' 0 0, at' 5 1] []] = some ([ofInt 0, ofInt 5], 1, 2, ofInt 5) ∧
    seen [call [at' 0 0, at' 5 1] [], call [] [at' 9 2]] = some ([ofInt 0, ofInt 9], 1, 1, ofInt 9) := by
  decide +kernel

/-- **C35.** A prediction before the first real input, which is then withdrawn, leaves a traveled distance though there are
no modeled inputs. -/
theorem C35_distance_counterexample : seen [call [] [at' 0 0, at' 5 1], call [] []] = some ([], 0, 0, ofInt 5) := by
  decide +kernel

end Verif.InputModeler
