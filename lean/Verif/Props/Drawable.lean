import Verif.Lemmas.Drawable

/-!
# C61: drawables are values

Drawables share buffers, and canvases share them too. Nevertheless a drawable is drawn with its last transform and colour, and what
was drawn does not change.
-/

set_option autoImplicit false

namespace Verif.Render

open F32 Spec

variable {R P : Type}

/-- **C61.** Any sequence of creating, copying, destroying, changing and drawing drawables succeeds if and only if it does
for drawables that are separate values, and then a canvas has recorded what it has for those: the matrix of the transform of the
drawable at the time of drawing, then each coat in its order, with the transform and the colour of that time in the buffer of the
mesh as it is at the end, and the colour of the paths multiplied with the opacity. -/
theorem C61_values (parts : R → List R) (ops : List (Op R P)) (hops : ∀ op ∈ ops, OpOk op) :
    (run parts start ops = none ∧ srun parts sstart ops = none) ∨
    ∃ st ss, run parts start ops = some st ∧ srun parts sstart ops = some ss ∧
      List.Forall₂ (Records st.cells) st.recorded ss.recorded := by
  rcases run_ok parts ops hops (st := start) (ss := sstart) ⟨.nil, .nil⟩ with h | ⟨st, ss, h1, h2, h3⟩
  · exact Or.inl h
  · exact Or.inr ⟨st, ss, h1, h2, h3.recorded⟩

/-- **C61.** Setting the transform and the colour never fails for a drawable that exists and has a coat; `HasBrushColor` says whether
it has one. -/
theorem C61_color (parts : R → List R) (ops : List (Op R P)) (hops : ∀ op ∈ ops, OpOk op) {st : State R P} {ss : SState R P}
    (h : run parts start ops = some st) (hs : srun parts sstart ops = some ss) {d : Nat} {dr : Drawable R P} {x : SDrawable R P}
    (hd : st.drawables[d]? = some (some dr)) (hx : ss.drawables[d]? = some (some x)) :
    dr.objectToCanvas = x.transform ∧ hasBrushColor dr = !x.coats.isEmpty ∧
      (∀ c, (setBrushColor st d c).isSome = hasBrushColor dr) ∧ ∀ t, (setObjectToCanvas st d t).isSome := by
  rcases run_ok parts ops hops (st := start) (ss := sstart) ⟨.nil, .nil⟩ with ⟨h1, _⟩ | ⟨st', ss', h1, h2, h3⟩
  · rw [h1] at h; cases h
  · rw [h] at h1
    obtain rfl := Option.some.inj h1
    rw [hs] at h2
    obtain rfl := Option.some.inj h2
    obtain ⟨y, hy, hr⟩ := forall₂_get h3.drawables (gOf_get hx)
    rw [hd] at hy
    obtain rfl := Option.some.inj hy
    have hc : hasBrushColor dr = !x.coats.isEmpty := by
      obtain ⟨_, hr⟩ := hr
      simp only at hr
      unfold hasBrushColor
      cases hco : x.coats with
      | nil =>
        rw [hco] at hr
        cases hi : dr.impls with
        | nil => rfl
        | cons i l => rw [hi] at hr; cases hr
      | cons c l =>
        rw [hco] at hr
        cases hi : dr.impls with
        | nil => rw [hi] at hr; cases hr
        | cons i is =>
          rw [hi] at hr
          cases hr with
          | cons hh _ =>
            cases i with
            | path p => simp
            | mesh m =>
              cases c with
              | path => exact hh.elim
              | mesh rest s u map mem =>
                obtain ⟨r1, r2, r3, _⟩ := hh
                obtain ⟨uc, huc, hic⟩ := r3.1.color
                have hf := findOffset_of r3.1 huc
                rw [hic] at hf
                have : m.uniforms.color = some uc.offset := by rw [r2]; exact hf
                simp [this]
    refine ⟨hr.1, hc, ?_, ?_⟩
    · intro c
      obtain ⟨st', k1, _⟩ := setBrushColor_ok h3 (gOf_get hx) c
      rw [k1, hc]
      simp only [List.map_eq_nil_iff]
      cases x.coats <;> simp
    · intro t
      obtain ⟨st', k1, _⟩ := setObjectToCanvas_ok h3 (gOf_get hx) t
      rw [k1]; rfl

/-- **C61.** A copy can be changed without any effect on what is drawn with the original, and the other way round: whatever is done,
without the original, between copying and drawing the original, the commands of the original are the same. -/
theorem C61_separate (parts : R → List R) (ss : SState R P) (d : Nat) (x : SDrawable R P) (h : ss.drawables[d]? = some (some x))
    (ops : List (Op R P))
    (hops : ∀ op ∈ ops, match op with
      | .destroy d' => d' ≠ d | .setObjectToCanvas d' _ => d' ≠ d | .setBrushColor d' _ => d' ≠ d | _ => True)
    {ss' : SState R P} (hr : srun parts ss ops = some ss') : ss'.drawables[d]? = some (some x) := by
  induction ops generalizing ss with
  | nil => obtain rfl := Option.some.inj hr; exact h
  | cons op ops ih =>
    unfold srun at hr
    rw [List.foldlM_cons] at hr
    obtain ⟨s1, h1, h2⟩ := Option.bind_eq_some_iff.1 hr
    refine ih s1 ?_ (fun op ho => hops op (List.mem_cons_of_mem _ ho)) h2
    have hlt := (List.getElem?_eq_some_iff.1 h).1
    have hop := hops op List.mem_cons_self
    cases op with
    | create coats color t =>
      obtain rfl := Option.some.inj h1
      simp only; rw [List.getElem?_append_left hlt]; exact h
    | copy d' =>
      simp only [sstep, Option.map_eq_some_iff] at h1
      obtain ⟨y, _, rfl⟩ := h1
      simp only; rw [List.getElem?_append_left hlt]; exact h
    | destroy d' =>
      simp only [sstep, Option.map_eq_some_iff] at h1
      obtain ⟨y, _, rfl⟩ := h1
      simp only; rw [List.getElem?_set_ne hop]; exact h
    | setObjectToCanvas d' t =>
      simp only [sstep, Option.map_eq_some_iff] at h1
      obtain ⟨y, _, rfl⟩ := h1
      simp only; rw [List.getElem?_set_ne hop]; exact h
    | setBrushColor d' c =>
      simp only [sstep] at h1
      obtain ⟨y, _, h3⟩ := Option.bind_eq_some_iff.1 h1
      by_cases hc : y.coats = []
      · rw [if_pos hc] at h3; cases h3
      · rw [if_neg hc] at h3
        obtain rfl := Option.some.inj h3
        simp only; rw [List.getElem?_set_ne hop]; exact h
    | draw d' =>
      simp only [sstep, Option.map_eq_some_iff] at h1
      obtain ⟨y, _, rfl⟩ := h1
      exact h
    | forget n =>
      obtain rfl := Option.some.inj h1
      exact h

/-! ## Cases -/

def c1 (x : Int) : Rgba := ⟨ofInt x, ofInt 0, ofInt 0, ofInt 1⟩

def t1 (x : Int) : Transform := ⟨ofInt x, ofInt 0, ofInt 0, ofInt 0, ofInt x, ofInt 0⟩

/-- A specification with a transform, a colour, a mapping and the unpacking of positions. -/
def spec1 : SkSpec :=
  ⟨[⟨.objectToCanvas, .float4, 0⟩, ⟨.brushColor, .float4, 16⟩, ⟨.textureMapping, .int, 32⟩, ⟨.position, .float4, 36⟩], 52⟩

def coats1 : List (Coat Unit Unit) :=
  [.mesh () spec1 [(.position, List.replicate 16 7), (.sideDerivative, List.replicate 16 8)] 1 (List.replicate 52 9),
   .path [(), ()] (ofInt 1)]

theorem spec1_ok : SpecOk spec1 := by
  refine ⟨?_, ?_, ?_, ?_, ?_⟩ <;> decide

def ops1 : List (Op Unit Unit) :=
  [.create coats1 (c1 3) (t1 2), .draw 0, .copy 0, .setBrushColor 1 (c1 4), .draw 0, .draw 1, .setObjectToCanvas 0 (t1 5), .draw 0,
    .destroy 0, .draw 1, .forget 4]

/-- The operations of the case are as the theorems ask for, and succeed: four drawings of four commands and one of a copy. -/
example : (∀ op ∈ ops1, OpOk op) ∧ (run (fun u => [u]) start ops1).isSome = true ∧
    ((run (fun u => [u]) start ops1).map fun st => st.recorded.length) = some 16 := by
  refine ⟨?_, by decide +kernel, by decide +kernel⟩
  intro op hop
  simp only [ops1, List.mem_cons, List.not_mem_nil, or_false] at hop
  rcases hop with h | h | h | h | h | h | h | h | h | h | h <;> subst h <;> try trivial
  intro c hc
  simp only [coats1, List.mem_cons, List.not_mem_nil, or_false] at hc
  rcases hc with rfl | rfl
  · refine ⟨spec1_ok, by decide, by decide, ?_⟩
    intro x hx
    simp only [List.mem_cons, List.not_mem_nil, or_false] at hx
    rcases hx with rfl | rfl
    · exact ⟨by decide, Or.inl rfl⟩
    · exact ⟨by decide, Or.inr (Or.inl rfl)⟩
  · trivial

/-- **C61, not as documented**: "All drawables created from an InProgressStroke or Stroke will have a brush-color". Those of strokes
that have not been started or are empty have none, and setting it fails a CHECK. -/
theorem C61_empty_counterexample (parts : R → List R) (t : Transform) (color : Rgba) :
    ∃ st, run parts start [(.create [] color t : Op R P)] = some st ∧
      (st.drawables[0]?.join).map hasBrushColor = some false ∧ ∀ c, step parts st (.setBrushColor 0 c) = none := by
  exact ⟨⟨[], [some ⟨t, []⟩], []⟩, rfl, rfl, fun _ => rfl⟩

end Verif.Render
