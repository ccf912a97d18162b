import Verif.Spec.StrokeInputModeler
import Mathlib.Tactic.Common
import Mathlib.Data.List.Induction

/-!
# Lemmas for C35
-/

set_option autoImplicit false

namespace Verif.InputModeler

open Verif F32 Spec

variable {I σ : Type} (hypot : F32 → F32 → F32) (lib : Library I σ)

/-! ## Results -/

/-- All results of a stroke so far, turned into modeled inputs. -/
abbrev thin (epsilon : F32) (rs : List LibResult) : List Tip.Input := addResults hypot epsilon none zero rs

theorem addResults_some (epsilon : F32) (rs : List LibResult) : ∀ (p : LibResult) (d : F32),
    addResults hypot epsilon (some p.position) d rs = measureAfter hypot p d (keptAfter hypot epsilon p rs) := by
  induction rs with
  | nil => intros; rfl
  | cons r rs ih =>
    intro p d
    simp only [addResults, keptAfter]
    have e : hypot (sub r.position.x p.position.x) (sub r.position.y p.position.y) = dist hypot p.position r.position := rfl
    rw [e]
    by_cases h : lt (dist hypot p.position r.position) epsilon = true
    · rw [if_pos h, if_pos h]
      exact ih p d
    · rw [if_neg h, if_neg h]
      simp only [measureAfter, toInput]
      rw [ih r]

theorem thin_eq (epsilon : F32) (rs : List LibResult) : thin hypot epsilon rs = measure hypot (kept hypot epsilon rs) := by
  cases rs with
  | nil => rfl
  | cons r rs => simp only [thin, addResults, kept, Spec.measure, toInput, addResults_some]

/-- Adding results in two parts. -/
theorem addResults_append (epsilon : F32) (a b : List LibResult) : ∀ (p : Option PointF) (d : F32),
    addResults hypot epsilon p d (a ++ b) = addResults hypot epsilon p d a ++
      addResults hypot epsilon (((addResults hypot epsilon p d a).getLast?.map (·.position)).or p)
        (((addResults hypot epsilon p d a).getLast?.map (·.traveledDistance)).getD d) b := by
  induction a with
  | nil => intro p d; cases p <;> rfl
  | cons r a ih =>
    intro p d
    cases p with
    | none =>
      simp only [List.cons_append, addResults]
      rw [ih]
      congr 1
      rw [List.getLast?_cons]
      cases (addResults hypot epsilon (some r.position) d a).getLast? <;> rfl
    | some p =>
      simp only [List.cons_append, addResults]
      split
      · exact ih _ _
      · rw [ih]
        simp only [List.cons_append]
        congr 1
        rw [List.getLast?_cons]
        cases (addResults hypot epsilon (some r.position) (add d (hypot (sub r.position.x p.x) (sub r.position.y p.y))) a).getLast? <;> rfl

theorem thin_append (epsilon : F32) (a b : List LibResult) :
    thin hypot epsilon (a ++ b) = thin hypot epsilon a ++
      addResults hypot epsilon ((thin hypot epsilon a).getLast?.map (·.position))
        (((thin hypot epsilon a).getLast?.map (·.traveledDistance)).getD zero) b := by
  rw [thin, addResults_append]
  simp only [Option.or_none]

theorem thin_prefix (epsilon : F32) (a b : List LibResult) :
    (thin hypot epsilon (a ++ b)).take (thin hypot epsilon a).length = thin hypot epsilon a := by
  rw [thin_append, List.take_left']
  rfl

theorem length_thin_le (epsilon : F32) (a b : List LibResult) :
    (thin hypot epsilon a).length ≤ (thin hypot epsilon (a ++ b)).length := by
  rw [thin_append, List.length_append]; omega

/-! ## Scripts -/

def libInput (e : Event) (i : Batch.Input) : LibInput := ⟨e, ⟨i.x, i.y⟩, i.time, i.pressure, i.tilt, i.orientation⟩

theorem script_nil (b : Bool) : script b [] = [] := rfl

theorem script_concat (b : Bool) (l : List Batch.Input) (i : Batch.Input) :
    script b (l ++ [i]) = script false l ++ [libInput (if l.isEmpty then .down else if b then .up else .move) i] := by
  unfold script
  rw [List.mapIdx_concat]
  congr 1
  · apply List.ext_getElem?
    intro n
    simp only [List.getElem?_mapIdx]
    by_cases hn : n < l.length
    · rw [List.getElem?_eq_getElem hn]
      simp only [Option.map_some, List.length_append, List.length_singleton]
      have : ¬ n = l.length := by omega
      simp [this]
    · rw [List.getElem?_eq_none (by omega)]; rfl
  · cases l with
    | nil => rfl
    | cons a l => simp [libInput]

theorem script_append (b : Bool) (a c : List Batch.Input) (hc : c ≠ []) : ∃ x, script b (a ++ c) = script false a ++ x := by
  induction c using List.reverseRecOn with
  | nil => exact absurd rfl hc
  | append_singleton c i ih =>
    rw [← List.append_assoc, script_concat]
    by_cases h : c = []
    · subst h
      rw [List.append_nil]
      exact ⟨_, rfl⟩
    · clear hc
      have : ∃ x, script false (a ++ c) = script false a ++ x := by
        clear ih h
        induction c using List.reverseRecOn with
        | nil => exact ⟨[], by simp⟩
        | append_singleton c j ih =>
          obtain ⟨x, hx⟩ := ih
          rw [← List.append_assoc, script_concat, hx, List.append_assoc]
          exact ⟨_, rfl⟩
      obtain ⟨x, hx⟩ := this
      rw [hx, List.append_assoc]
      exact ⟨_, rfl⟩

theorem script_false_append (a c : List Batch.Input) : ∃ x, script false (a ++ c) = script false a ++ x := by
  by_cases h : c = []
  · subst h; exact ⟨[], by simp⟩
  · exact script_append false a c h

/-! ## Feeding -/

theorem feed_append (a b : List LibInput) : ∀ s : σ, feed lib s (a ++ b) = (feed lib s a).bind fun r =>
    (feed lib r.1 b).map fun q => (q.1, r.2 ++ q.2) := by
  induction a with
  | nil =>
    intro s
    simp only [List.nil_append, feed, Option.bind_some]
    cases feed lib s b with
    | none => rfl
    | some q => rfl
  | cons i a ih =>
    intro s
    simp only [List.cons_append, feed, Option.bind_eq_bind]
    cases lib.update s i with
    | none => rfl
    | some r =>
      obtain ⟨s1, x⟩ := r
      simp only [Option.bind_some]
      rw [ih]
      cases feed lib s1 a with
      | none => rfl
      | some q =>
        obtain ⟨s2, y⟩ := q
        simp only [Option.bind_some]
        cases feed lib s2 b with
        | none => rfl
        | some q' => simp

theorem feed_prefix {a b : List LibInput} {s : σ} {q : σ × List LibResult} (h : feed lib s (a ++ b) = some q) :
    ∃ s1 r x, feed lib s a = some (s1, r) ∧ feed lib s1 b = some (q.1, x) ∧ q.2 = r ++ x := by
  rw [feed_append] at h
  cases h1 : feed lib s a with
  | none => rw [h1] at h; cases h
  | some r =>
    rw [h1, Option.bind_some] at h
    cases h2 : feed lib r.1 b with
    | none => rw [h2] at h; cases h
    | some y =>
      rw [h2] at h
      simp only [Option.map_some, Option.some.injEq] at h
      refine ⟨r.1, r.2, y.2, rfl, ?_, ?_⟩
      · rw [h2, ← h]
      · rw [← h]

theorem feed_single (s : σ) (i : LibInput) : feed lib s [i] = lib.update s i := by
  simp only [feed, Option.bind_eq_bind, Option.bind_some, List.append_nil]
  cases lib.update s i with
  | none => rfl
  | some r => rfl

/-! ## The modeler -/

/-- The library was reset to `s0` and has got the script of `l`; `b` says whether the stroke was ended. -/
structure Fed (m : Modeler I σ) (s0 : σ) (b : Bool) (l : List Batch.Input) (rs : List LibResult) : Prop where
  feed : feed lib s0 (script b l) = some (m.library, rs)
  modeled : m.modeled = thin hypot m.epsilon rs
  hasInput : m.hasInput = !l.isEmpty

theorem modelInput_fed {m : Modeler I σ} {s0 : σ} {l : List Batch.Input} {rs : List LibResult} (F : Fed hypot lib m s0 false l rs)
    (i : Batch.Input) (last : Bool) :
    (∀ s' rs', Spec.feed lib s0 (script last (l ++ [i])) = some (s', rs') →
      ∃ md, m.modelInput hypot lib i last = some { m with library := s', hasInput := true, modeled := md } ∧
        Fed hypot lib { m with library := s', hasInput := true, modeled := md } s0 last (l ++ [i]) rs' ∧
        ∃ x, rs' = rs ++ x) ∧
    (Spec.feed lib s0 (script last (l ++ [i])) = none → m.modelInput hypot lib i last = none) := by
  have he : m.event last = if l.isEmpty then Event.down else if last then .up else .move := by
    unfold Modeler.event
    rw [F.hasInput]
    cases l.isEmpty <;> simp
  have hf : Spec.feed lib s0 (script last (l ++ [i])) =
      (lib.update m.library (libInput (m.event last) i)).map fun q => (q.1, rs ++ q.2) := by
    rw [script_concat, feed_append, F.feed, Option.bind_some, feed_single, he]
  constructor
  · intro s' rs' h
    rw [hf] at h
    cases hu : lib.update m.library (libInput (m.event last) i) with
    | none => rw [hu] at h; cases h
    | some q =>
      rw [hu] at h
      simp only [Option.map_some, Option.some.injEq, Prod.mk.injEq] at h
      obtain ⟨rfl, rfl⟩ := h
      refine ⟨thin hypot m.epsilon (rs ++ q.2), ?_, ⟨?_, rfl, by simp⟩, q.2, rfl⟩
      · unfold Modeler.modelInput
        unfold libInput at hu
        rw [hu]
        simp only [Option.bind_eq_bind, Option.bind_some]
        rw [thin_append, ← F.modeled]
      · rw [hf, hu]; rfl
  · intro h
    rw [hf] at h
    unfold Modeler.modelInput
    unfold libInput at h
    rw [Option.map_eq_none_iff.1 h]
    rfl

theorem modelMoves_fed (is : List Batch.Input) : ∀ {m : Modeler I σ} {s0 : σ} {l : List Batch.Input} {rs : List LibResult},
    Fed hypot lib m s0 false l rs →
    (∀ s' rs', Spec.feed lib s0 (script false (l ++ is)) = some (s', rs') →
      ∃ md hi, m.modelMoves hypot lib is = some { m with library := s', hasInput := hi, modeled := md } ∧
        Fed hypot lib { m with library := s', hasInput := hi, modeled := md } s0 false (l ++ is) rs' ∧
        ∃ x, rs' = rs ++ x) ∧
    (Spec.feed lib s0 (script false (l ++ is)) = none → m.modelMoves hypot lib is = none) := by
  induction is with
  | nil =>
    intro m s0 l rs F
    rw [List.append_nil]
    constructor
    · intro s' rs' h
      rw [F.feed] at h
      cases h
      exact ⟨m.modeled, m.hasInput, rfl, ⟨F.feed, F.modeled, F.hasInput⟩, [], by simp⟩
    · intro h; rw [F.feed] at h; cases h
  | cons i is ih =>
    intro m s0 l rs F
    obtain ⟨h1, h2⟩ := modelInput_fed hypot lib F i false
    have e : l ++ i :: is = (l ++ [i]) ++ is := by simp
    constructor
    · intro s' rs' h
      obtain ⟨x, hx⟩ := script_false_append (l ++ [i]) is
      rw [e, hx] at h
      obtain ⟨s1, r1, y, f1, f2, f3⟩ := feed_prefix lib h
      obtain ⟨md, g1, g2, z, hz⟩ := h1 s1 r1 f1
      obtain ⟨k1, -⟩ := ih g2
      obtain ⟨md', hi', g3, g4, z', hz'⟩ := k1 s' rs' (by rw [hx]; exact h)
      refine ⟨md', hi', ?_, ?_, ?_⟩
      · simp only [Modeler.modelMoves, g1, Option.bind_eq_bind, Option.bind_some]
        exact g3
      · rw [e]; exact g4
      · exact ⟨z ++ z', by rw [hz', hz, List.append_assoc]⟩
    · intro h
      simp only [Modeler.modelMoves]
      cases hc : Spec.feed lib s0 (script false (l ++ [i])) with
      | none => rw [h2 hc]; rfl
      | some q =>
        obtain ⟨md, g1, g2, -⟩ := h1 q.1 q.2 hc
        rw [g1]
        simp only [Option.bind_eq_bind, Option.bind_some]
        exact (ih g2).2 (by rw [← e]; exact h)

theorem modelPredicted_fed (is : List Batch.Input) (hne : is ≠ []) :
    ∀ {m : Modeler I σ} {s0 : σ} {l : List Batch.Input} {rs : List LibResult},
    Fed hypot lib m s0 false l rs →
    (∀ s' rs', Spec.feed lib s0 (script true (l ++ is)) = some (s', rs') →
      ∃ md hi, m.modelPredicted hypot lib is = some { m with library := s', hasInput := hi, modeled := md } ∧
        md = thin hypot m.epsilon rs' ∧ ∃ x, rs' = rs ++ x) ∧
    (Spec.feed lib s0 (script true (l ++ is)) = none → m.modelPredicted hypot lib is = none) := by
  induction is with
  | nil => exact absurd rfl hne
  | cons i is ih =>
    intro m s0 l rs F
    have e : l ++ i :: is = (l ++ [i]) ++ is := by simp
    by_cases his : is = []
    · subst his
      obtain ⟨h1, h2⟩ := modelInput_fed hypot lib F i true
      constructor
      · intro s' rs' h
        obtain ⟨md, g1, g2, z⟩ := h1 s' rs' h
        refine ⟨md, true, ?_, g2.modeled, z⟩
        simp only [Modeler.modelPredicted, List.isEmpty_nil, g1, Option.bind_eq_bind, Option.bind_some]
      · intro h
        simp only [Modeler.modelPredicted, List.isEmpty_nil, h2 h]
        rfl
    · have hb : is.isEmpty = false := by cases is with | nil => exact absurd rfl his | cons _ _ => rfl
      obtain ⟨h1, h2⟩ := modelInput_fed hypot lib F i false
      constructor
      · intro s' rs' h
        obtain ⟨x, hx⟩ := script_append true (l ++ [i]) is his
        rw [e, hx] at h
        obtain ⟨s1, r1, y, f1, f2, f3⟩ := feed_prefix lib h
        obtain ⟨md, g1, g2, z, hz⟩ := h1 s1 r1 f1
        obtain ⟨k1, -⟩ := ih his g2
        obtain ⟨md', hi', g3, g4, z', hz'⟩ := k1 s' rs' (by rw [hx]; exact h)
        refine ⟨md', hi', ?_, g4, ?_⟩
        · simp only [Modeler.modelPredicted, hb, g1, Option.bind_eq_bind, Option.bind_some]
          exact g3
        · exact ⟨z ++ z', by rw [hz', hz, List.append_assoc]⟩
      · intro h
        simp only [Modeler.modelPredicted, hb]
        cases hc : Spec.feed lib s0 (script false (l ++ [i])) with
        | none => rw [h2 hc]; rfl
        | some q =>
          obtain ⟨md, g1, g2, -⟩ := h1 q.1 q.2 hc
          rw [g1]
          simp only [Option.bind_eq_bind, Option.bind_some]
          exact (ih his g2).2 (by rw [← e]; exact h)

end Verif.InputModeler
