import Verif.Spec.Drawable
import Mathlib.Data.List.Basic
import Mathlib.Data.List.Forall2
import Mathlib.Data.Option.Basic
import Mathlib.Order.Basic

/-!
# Lemmas for C61
-/

set_option autoImplicit false

namespace Verif.Render

open F32 Spec

variable {R P : Type}

/-! ## Buffers -/

theorem memcpy_ok {dst src : Bytes} {o : Nat} (h : o + src.length ≤ dst.length) :
    ∃ b, memcpy dst o src = some b ∧ b.length = dst.length ∧ At b o src ∧
      ∀ (p : Nat) (v : Bytes), At dst p v → p + v.length ≤ dst.length → p + v.length ≤ o ∨ o + src.length ≤ p → At b p v := by
  refine ⟨_, if_pos h, ?_, ?_, ?_⟩
  · simp only [List.length_append, List.length_take, List.length_drop]; omega
  · unfold At
    rw [List.append_assoc, List.drop_append_of_le_length (by rw [List.length_take]; omega),
      List.drop_eq_nil_of_le (by rw [List.length_take]; omega), List.nil_append, List.take_left']
    rfl
  · intro p v hv hp hd
    unfold At at hv ⊢
    rw [← hv]
    have hl : ((dst.drop p).take v.length).length = v.length := by rw [hv]
    rw [hl]
    apply List.ext_getElem?
    intro i
    rw [List.getElem?_take, List.getElem?_take]
    by_cases hi : i < v.length
    · rw [if_pos hi, if_pos hi, List.getElem?_drop, List.getElem?_drop]
      rcases hd with hd | hd
      · rw [List.append_assoc, List.getElem?_append_left (by rw [List.length_take]; omega), List.getElem?_take,
          if_pos (by omega)]
      · have h1 : (dst.take o ++ src).length = o + src.length := by
          rw [List.length_append, List.length_take]; omega
        rw [List.getElem?_append_right (by rw [h1]; omega), List.getElem?_drop, h1]
        congr 1; omega
    · rw [if_neg hi, if_neg hi]

/-! ## References -/

theorem sum_one {α : Type} (g : α → Nat) {l : List α} {x : α} (hx : x ∈ l) : g x ≤ (l.map g).sum := by
  induction l with
  | nil => simp at hx
  | cons a l ih =>
    simp only [List.map_cons, List.sum_cons]
    rcases List.mem_cons.1 hx with rfl | h
    · omega
    · have := ih h; omega

theorem sum_two {α : Type} (g : α → Nat) {l : List α} {i j : Nat} {x y : α} (hi : l[i]? = some x) (hj : l[j]? = some y)
    (h : i < j) : g x + g y ≤ (l.map g).sum := by
  induction l generalizing i j with
  | nil => simp at hi
  | cons a l ih =>
    cases j with
    | zero => omega
    | succ j =>
      rw [List.getElem?_cons_succ] at hj
      cases i with
      | zero =>
        rw [List.getElem?_cons_zero] at hi
        obtain rfl := Option.some.inj hi
        have := sum_one g (List.mem_of_getElem? hj)
        simp only [List.map_cons, List.sum_cons]; omega
      | succ i =>
        rw [List.getElem?_cons_succ] at hi
        have := ih hi hj (by omega)
        simp only [List.map_cons, List.sum_cons]; omega

theorem sum_two' {α : Type} (g : α → Nat) {l : List α} {i j : Nat} {x y : α} (hi : l[i]? = some x) (hj : l[j]? = some y)
    (h : i ≠ j) : g x + g y ≤ (l.map g).sum := by
  rcases Nat.lt_or_ge i j with h' | h'
  · exact sum_two g hi hj h'
  · have := sum_two g hj hi (by omega); omega

theorem count_pos {l : List Nat} {c : Nat} (h : c ∈ l) : 1 ≤ l.count c := List.count_pos_iff.2 h

theorem count_drawable (dr : Drawable R P) (c : Nat) :
    (drawableCells (some dr)).count c = (dr.impls.map fun i => (implCells i).count c).sum := by
  simp only [drawableCells, List.count_flatMap, Function.comp_def]

/-- The only reference is the one of the implementation: no other one has it. -/
theorem unique_impl {st : State R P} {c d j d' j' : Nat} {dr dr' : Drawable R P} {i i' : Impl R P} (hu : st.unique c = true)
    (hd : st.drawables[d]? = some (some dr)) (hj : dr.impls[j]? = some i) (hc : c ∈ implCells i)
    (hd' : st.drawables[d']? = some (some dr')) (hj' : dr'.impls[j']? = some i') (hne : ¬(d' = d ∧ j' = j)) :
    c ∉ implCells i' := by
  intro hc'
  simp only [State.unique, State.holders, decide_eq_true_eq, List.count_append, List.count_flatMap] at hu
  have h1 := count_pos hc
  have h2 := count_pos hc'
  by_cases hdd : d = d'
  · subst hdd
    rw [hd] at hd'
    obtain rfl : dr = dr' := by simpa using hd'
    have h3 := sum_two' (fun i => (implCells i).count c) hj hj' (fun e => hne ⟨rfl, e.symm⟩)
    have h4 := sum_one (fun d => (drawableCells d).count c) (List.mem_of_getElem? hd)
    simp only [count_drawable] at h4
    simp only [Function.comp_def] at hu
    omega
  · have h3 := sum_two' (fun d => (drawableCells d).count c) hd hd' hdd
    have h4 := sum_one (fun i => (implCells i).count c) (List.mem_of_getElem? hj)
    have h5 := sum_one (fun i => (implCells i).count c) (List.mem_of_getElem? hj')
    simp only [count_drawable] at h3
    simp only [Function.comp_def] at hu
    omega

theorem unique_cmd {st : State R P} {c d j : Nat} {dr : Drawable R P} {i : Impl R P} {k : Cmd R P} (hu : st.unique c = true)
    (hd : st.drawables[d]? = some (some dr)) (hj : dr.impls[j]? = some i) (hc : c ∈ implCells i) (hk : k ∈ st.recorded) :
    c ∉ cmdCells k := by
  intro hc'
  simp only [State.unique, State.holders, decide_eq_true_eq, List.count_append, List.count_flatMap] at hu
  have h1 := count_pos hc
  have h2 := count_pos hc'
  have h3 := sum_one (fun d => (drawableCells d).count c) (List.mem_of_getElem? hd)
  have h4 := sum_one (fun i => (implCells i).count c) (List.mem_of_getElem? hj)
  have h5 := sum_one (fun i => (cmdCells i).count c) hk
  simp only [count_drawable] at h3
  simp only [Function.comp_def] at hu
  omega

/-! ## Uniforms -/

/-- What is at a uniform. -/
def Holds (s : SkSpec) (b : Bytes) (id : UniformId) (v : Bytes) : Prop := ∀ u ∈ s.uniforms, u.id = id → At b u.offset v

theorem findOffset_some {s : SkSpec} {id : UniformId} {o : Nat} (h : findOffset s id = some o) :
    ∃ u ∈ s.uniforms, u.id = id ∧ u.offset = o ∧ u.type = expectedType id := by
  unfold findOffset at h
  cases hf : s.uniforms.find? fun u => u.id = id with
  | none => rw [hf] at h; cases h
  | some u =>
    rw [hf, Option.bind_some] at h
    by_cases ht : u.type = expectedType id
    · rw [if_pos ht] at h
      exact ⟨u, List.mem_of_find?_eq_some hf, by simpa using List.find?_some hf, Option.some.inj h, ht⟩
    · rw [if_neg ht] at h; cases h

theorem findOffset_of {s : SkSpec} (ok : SpecOk s) {u : Uniform} (h : u ∈ s.uniforms) : findOffset s u.id = some u.offset := by
  unfold findOffset
  cases hf : s.uniforms.find? fun v => v.id = u.id with
  | none =>
    have := List.find?_eq_none.1 hf u h
    simp at this
  | some v =>
    have hv : v.id = u.id := by simpa using List.find?_some hf
    have hm := List.mem_of_find?_eq_some hf
    rcases ok.apart v hm u h with rfl | ⟨hne, _⟩
    · rw [Option.bind_some, if_pos (ok.types v h)]
    · exact absurd hv hne

theorem write_ok {s : SkSpec} (ok : SpecOk s) {b v : Bytes} {id : UniformId} {o : Nat} (hb : b.length = s.size)
    (hf : findOffset s id = some o) (hv : v.length = (expectedType id).bytes) :
    ∃ b', memcpy b o v = some b' ∧ b'.length = s.size ∧ Holds s b' id v ∧
      ∀ id' v', id' ≠ id → v'.length = (expectedType id').bytes → Holds s b id' v' → Holds s b' id' v' := by
  obtain ⟨u, hu, hid, rfl, ht⟩ := findOffset_some hf
  have hin := ok.inside u hu
  rw [ht] at hin
  obtain ⟨b', h1, h2, h3, h4⟩ := memcpy_ok (dst := b) (src := v) (o := u.offset) (by omega)
  refine ⟨b', h1, by omega, ?_, ?_⟩
  · intro w hw hwi
    rcases ok.apart w hw u hu with rfl | ⟨hne, _⟩
    · exact h3
    · exact absurd (hwi.trans hid.symm) hne
  · intro id' v' hne hv' hh w hw hwi
    have hin' := ok.inside w hw
    have ht' := ok.types w hw
    rw [hwi] at ht'
    rw [ht'] at hin'
    refine h4 _ _ (hh w hw hwi) (by omega) ?_
    rcases ok.apart w hw u hu with rfl | ⟨_, h⟩
    · exact absurd (hwi.symm.trans hid) hne
    · rw [ht, ht'] at h; omega

theorem floatBytes_length (l : List F32) : (floatBytes l).length = 4 * l.length := by
  induction l with
  | nil => rfl
  | cons x l ih =>
    have : floatBytes (x :: l) = le32 (toBits x) ++ floatBytes l := rfl
    rw [this, List.length_append, ih]
    simp only [le32, List.length_cons, List.length_nil]; omega

/-- As `Shows`, but the transform may not yet be set. -/
structure ShowsO (s : SkSpec) (unpacking : List (UniformId × Bytes)) (mapping : Nat) (t : Option Transform) (color : Rgba)
    (b : Bytes) : Prop where
  length : b.length = s.size
  transform : ∀ t', t = some t' → Holds s b .objectToCanvas (transformBytes t')
  color : Holds s b .brushColor (colorBytes color)
  mapping : Holds s b .textureMapping (mappingBytes mapping)
  unpacking : ∀ x ∈ unpacking, Holds s b x.1 x.2

theorem ShowsO.shows {s : SkSpec} {u : List (UniformId × Bytes)} {m : Nat} {t : Transform} {c : Rgba} {b : Bytes}
    (h : ShowsO s u m (some t) c b) : Shows s u m t c b :=
  ⟨h.length, h.transform t rfl, h.color, h.mapping, h.unpacking⟩

def UnpackOk (u : List (UniformId × Bytes)) : Prop :=
  ∀ x ∈ u, x.2.length = 16 ∧ (x.1 = .position ∨ x.1 = .sideDerivative ∨ x.1 = .forwardDerivative)

theorem ShowsO.setTransform {s : SkSpec} (ok : SpecOk s) {u : List (UniformId × Bytes)} (hu : UnpackOk u) {m : Nat}
    {t : Option Transform} {c : Rgba} {b : Bytes} (h : ShowsO s u m t c b) (t' : Transform) {o : Nat}
    (hf : findOffset s .objectToCanvas = some o) :
    ∃ b', memcpy b o (transformBytes t') = some b' ∧ ShowsO s u m (some t') c b' := by
  obtain ⟨b', h1, h2, h3, h4⟩ := write_ok ok h.length hf (v := transformBytes t') (floatBytes_length _)
  refine ⟨b', h1, h2, ?_, ?_, ?_, ?_⟩
  · rintro _ ⟨⟩; exact h3
  · exact h4 _ _ (by decide) (floatBytes_length _) h.color
  · exact h4 _ _ (by decide) rfl h.mapping
  · intro x hx
    obtain ⟨hl, hi⟩ := hu x hx
    refine h4 _ _ ?_ ?_ (h.unpacking x hx)
    · rcases hi with e | e | e <;> rw [e] <;> decide
    · rw [hl]; rcases hi with e | e | e <;> rw [e] <;> rfl

theorem ShowsO.noTransform {s : SkSpec} (ok : SpecOk s) {u : List (UniformId × Bytes)} {m : Nat}
    {t : Option Transform} {c : Rgba} {b : Bytes} (h : ShowsO s u m t c b) (t' : Transform)
    (hf : findOffset s .objectToCanvas = none) : ShowsO s u m (some t') c b := by
  refine ⟨h.length, ?_, h.color, h.mapping, h.unpacking⟩
  intro t'' _ w hw hid
  have := findOffset_of ok hw
  rw [hid, hf] at this; cases this

theorem ShowsO.setColor {s : SkSpec} (ok : SpecOk s) {u : List (UniformId × Bytes)} (hu : UnpackOk u) {m : Nat}
    {t : Option Transform} {c : Rgba} {b : Bytes} (h : ShowsO s u m t c b) (c' : Rgba) {o : Nat}
    (hf : findOffset s .brushColor = some o) :
    ∃ b', memcpy b o (colorBytes c') = some b' ∧ ShowsO s u m t c' b' := by
  obtain ⟨b', h1, h2, h3, h4⟩ := write_ok ok h.length hf (v := colorBytes c') (floatBytes_length _)
  refine ⟨b', h1, h2, ?_, h3, ?_, ?_⟩
  · intro t' ht
    exact h4 _ _ (by decide) (floatBytes_length _) (h.transform t' ht)
  · exact h4 _ _ (by decide) rfl h.mapping
  · intro x hx
    obtain ⟨hl, hi⟩ := hu x hx
    refine h4 _ _ ?_ ?_ (h.unpacking x hx)
    · rcases hi with e | e | e <;> rw [e] <;> decide
    · rw [hl]; rcases hi with e | e | e <;> rw [e] <;> rfl

theorem writeUnpacking_ok {s : SkSpec} (ok : SpecOk s) (u : List (UniformId × Bytes)) (hu : UnpackOk u)
    (hn : (u.map Prod.fst).Nodup) {b : Bytes} (hb : b.length = s.size) :
    ∃ b', writeUnpacking s u b = some b' ∧ b'.length = s.size ∧ (∀ x ∈ u, Holds s b' x.1 x.2) ∧
      ∀ id v, id ∉ u.map Prod.fst → v.length = (expectedType id).bytes → Holds s b id v → Holds s b' id v := by
  induction u generalizing b with
  | nil => exact ⟨b, rfl, hb, by simp, fun _ _ _ _ h => h⟩
  | cons x u ih =>
    obtain ⟨id, v⟩ := x
    have hu' : UnpackOk u := fun x hx => hu x (List.mem_cons_of_mem _ hx)
    rw [List.map_cons, List.nodup_cons] at hn
    obtain ⟨hl, hi⟩ := hu (id, v) List.mem_cons_self
    have hv : v.length = (expectedType id).bytes := by
      rw [hl]; rcases hi with e | e | e <;> (simp only at e; rw [e]; rfl)
    cases hf : findOffset s id with
    | none =>
      obtain ⟨b', h1, h2, h3, h4⟩ := ih hu' hn.2 hb
      refine ⟨b', ?_, h2, ?_, ?_⟩
      · simp only [writeUnpacking, hf]; exact h1
      · intro y hy
        rcases List.mem_cons.1 hy with rfl | hy
        · intro w hw hid
          have := findOffset_of ok hw
          rw [hid, hf] at this; cases this
        · exact h3 y hy
      · intro id' v' hni hv' hh
        exact h4 id' v' (fun h => hni (List.mem_cons_of_mem _ h)) hv' hh
    | some o =>
      obtain ⟨b1, g1, g2, g3, g4⟩ := write_ok ok hb hf hv
      obtain ⟨b', h1, h2, h3, h4⟩ := ih hu' hn.2 g2
      refine ⟨b', ?_, h2, ?_, ?_⟩
      · simp only [writeUnpacking, hf, g1, Option.bind_some]; exact h1
      · intro y hy
        rcases List.mem_cons.1 hy with rfl | hy
        · exact h4 _ _ hn.1 hv g3
        · exact h3 y hy
      · intro id' v' hni hv' hh
        simp only [List.map_cons, List.mem_cons, not_or] at hni
        exact h4 id' v' hni.2 hv' (g4 id' v' hni.1 hv' hh)

theorem newMesh_ok {s : SkSpec} (ok : SpecOk s) (u : List (UniformId × Bytes)) (hu : UnpackOk u)
    (hn : (u.map Prod.fst).Nodup) (color : Rgba) (m : Nat) {mem : Bytes} (hb : mem.length = s.size) :
    ∃ b, newMesh s u color m mem = some b ∧ ShowsO s u m none color b := by
  obtain ⟨uc, huc, hic⟩ := ok.color
  obtain ⟨um, hum, him⟩ := ok.mapping
  have hfc := findOffset_of ok huc
  have hfm := findOffset_of ok hum
  rw [hic] at hfc
  rw [him] at hfm
  have hs : s.size ≠ 0 := by
    have := ok.inside uc huc
    rw [ok.types uc huc, hic] at this
    change _ + 16 ≤ _ at this
    omega
  obtain ⟨b0, h1, h2, h3, _⟩ := writeUnpacking_ok ok u hu hn (b := mem.take s.size) (by rw [List.length_take]; omega)
  obtain ⟨b1, g1, g2, g3, g4⟩ := write_ok ok h2 hfc (v := colorBytes color) (floatBytes_length _)
  obtain ⟨b2, k1, k2, k3, k4⟩ := write_ok ok g2 hfm (v := mappingBytes m) rfl
  refine ⟨b2, ?_, k2, ?_, ?_, k3, ?_⟩
  · unfold newMesh
    rw [if_neg hs, h1, Option.bind_some, hfc, Option.bind_some, g1, Option.bind_some, hfm, Option.bind_some, k1]
  · intro t' ht; cases ht
  · exact k4 _ _ (by decide) (floatBytes_length _) g3
  · intro x hx
    obtain ⟨hl, hi⟩ := hu x hx
    have hv : x.2.length = (expectedType x.1).bytes := by
      rw [hl]; rcases hi with e | e | e <;> rw [e] <;> rfl
    refine k4 _ _ ?_ hv (g4 _ _ ?_ hv (h3 x hx))
    · rcases hi with e | e | e <;> rw [e] <;> decide
    · rcases hi with e | e | e <;> rw [e] <;> decide

/-! ## Coats with their transforms and colours -/

structure Slot (R P : Type) where
  coat : Coat R P
  t : Option Transform
  color : Rgba

structure GDrawable (R P : Type) where
  t : Transform
  slots : List (Slot R P)

structure GState (R P : Type) where
  drawables : List (Option (GDrawable R P))
  recorded : List (SCmd R P)

def RelSlot (cells : List Bytes) : Impl R P → Slot R P → Prop
  | .mesh m, ⟨.mesh rest s u map mem, t, color⟩ =>
    m.rest = rest ∧ m.uniforms = { newUniformData s with data := m.uniforms.data } ∧
      CoatOk (.mesh rest s u map mem : Coat R P) ∧
      ∃ c b, m.uniforms.data = some c ∧ cells[c]? = some b ∧ ShowsO s u map t color b
  | .path p, ⟨.path ps o, _, color⟩ => p.paths = ps ∧ p.opacityMultiplier = o ∧ p.paint = pathColor o color
  | _, _ => False

def RelD (cells : List Bytes) : Option (Drawable R P) → Option (GDrawable R P) → Prop
  | none, none => True
  | some d, some g => d.objectToCanvas = g.t ∧ List.Forall₂ (RelSlot cells) d.impls g.slots
  | _, _ => False

structure Rel (st : State R P) (gs : GState R P) : Prop where
  drawables : List.Forall₂ (RelD st.cells) st.drawables gs.drawables
  recorded : List.Forall₂ (Records st.cells) st.recorded gs.recorded

theorem RelSlot.frame {cells cells' : List Bytes} {i : Impl R P} {s : Slot R P} (h : RelSlot cells i s)
    (hf : ∀ c ∈ implCells i, cells'[c]? = cells[c]?) : RelSlot cells' i s := by
  obtain ⟨coat, t, color⟩ := s
  cases i with
  | mesh m =>
    cases coat with
    | mesh rest s u map mem =>
      obtain ⟨h1, h2, h3, c, b, h4, h5, h6⟩ := h
      exact ⟨h1, h2, h3, c, b, h4, by rw [hf c (by simp [implCells, h4]), h5], h6⟩
    | path ps o => exact h.elim
  | path p =>
    cases coat with
    | mesh rest s u map mem => exact h.elim
    | path ps o => exact h

theorem records_frame {cells cells' : List Bytes} {k : Cmd R P} {s : SCmd R P} (h : Records cells k s)
    (hf : ∀ c ∈ cmdCells k, cells'[c]? = cells[c]?) : Records cells' k s := by
  cases k with
  | setMatrix m => cases s <;> exact h
  | drawPath p x => cases s <;> exact h
  | drawMesh r c =>
    cases s with
    | matrix t => exact h
    | path p o color => exact h
    | mesh part coat t color =>
      cases coat with
      | path ps o => exact h
      | mesh rest s u m mem =>
        obtain ⟨h1, b, h2, h3⟩ := h
        refine ⟨h1, b, ?_, h3⟩
        cases c with
        | none => cases h2
        | some c =>
          rw [Option.bind_some] at h2 ⊢
          rw [hf c (by simp [cmdCells]), h2]

theorem RelSlot.lt {cells : List Bytes} {i : Impl R P} {s : Slot R P} (h : RelSlot cells i s) :
    ∀ c ∈ implCells i, c < cells.length := by
  obtain ⟨coat, t, color⟩ := s
  cases i with
  | mesh m =>
    cases coat with
    | mesh rest s u map mem =>
      obtain ⟨h1, h2, h3, c, b, h4, h5, h6⟩ := h
      intro c' hc
      simp only [implCells, h4, Option.toList_some, List.mem_singleton] at hc
      subst hc
      exact (List.getElem?_eq_some_iff.1 h5).1
    | path ps o => exact h.elim
  | path p => intro c hc; simp [implCells] at hc

theorem records_lt {cells : List Bytes} {k : Cmd R P} {s : SCmd R P} (h : Records cells k s) :
    ∀ c ∈ cmdCells k, c < cells.length := by
  intro c' hc
  cases k with
  | setMatrix m => simp [cmdCells] at hc
  | drawPath p x => simp [cmdCells] at hc
  | drawMesh r c =>
    cases s with
    | matrix t => exact h.elim
    | path p o color => exact h.elim
    | mesh part coat t color =>
      cases coat with
      | path ps o => exact h.elim
      | mesh rest s u m mem =>
        obtain ⟨h1, b, h2, h3⟩ := h
        cases c with
        | none => cases h2
        | some c =>
          simp only [cmdCells, Option.toList_some, List.mem_singleton] at hc
          subst hc
          exact (List.getElem?_eq_some_iff.1 h2).1

theorem forall₂_get {α β : Type} {r : α → β → Prop} {l : List α} {l' : List β} (h : List.Forall₂ r l l') {i : Nat} {y : β}
    (hy : l'[i]? = some y) : ∃ x, l[i]? = some x ∧ r x y := by
  induction h generalizing i with
  | nil => simp at hy
  | cons h1 h2 ih =>
    cases i with
    | zero => simp only [List.getElem?_cons_zero, Option.some.injEq] at hy ⊢; subst hy; exact ⟨_, rfl, h1⟩
    | succ i => simp only [List.getElem?_cons_succ] at hy ⊢; exact ih hy

theorem forall₂_get' {α β : Type} {r : α → β → Prop} {l : List α} {l' : List β} (h : List.Forall₂ r l l') {i : Nat} {x : α}
    (hx : l[i]? = some x) : ∃ y, l'[i]? = some y ∧ r x y := by
  induction h generalizing i with
  | nil => simp at hx
  | cons h1 h2 ih =>
    cases i with
    | zero => simp only [List.getElem?_cons_zero, Option.some.injEq] at hx ⊢; subst hx; exact ⟨_, rfl, h1⟩
    | succ i => simp only [List.getElem?_cons_succ] at hx ⊢; exact ih hx

/-- Changing an element of both lists, and the relation elsewhere. -/
theorem forall₂_modify {α β : Type} {r r' : α → β → Prop} {l : List α} {l' : List β} {f : α → α} {g : β → β} {k : Nat}
    (h : List.Forall₂ r l l') (hk : ∀ x y, l[k]? = some x → l'[k]? = some y → r x y → r' (f x) (g y))
    (ho : ∀ (i : Nat) x y, i ≠ k → l[i]? = some x → l'[i]? = some y → r x y → r' x y) :
    List.Forall₂ r' (l.modify k f) (l'.modify k g) := by
  induction h generalizing k with
  | nil => simp
  | @cons a b l l' h1 h2 ih =>
    cases k with
    | zero =>
      rw [List.modify_zero_cons, List.modify_zero_cons]
      refine List.Forall₂.cons (hk a b rfl rfl h1) ?_
      clear ih hk
      have ho' : ∀ (i : Nat) x y, l[i]? = some x → l'[i]? = some y → r x y → r' x y := fun i x y hx hy hr =>
        ho (i + 1) x y (by omega) hx hy hr
      clear ho
      induction h2 with
      | nil => exact .nil
      | cons h3 h4 ih => exact .cons (ho' 0 _ _ rfl rfl h3) (ih fun i x y hx hy hr => ho' (i + 1) x y hx hy hr)
    | succ k =>
      rw [List.modify_succ_cons, List.modify_succ_cons]
      refine List.Forall₂.cons (ho 0 a b (by omega) rfl rfl h1) (ih (fun x y hx hy hr => hk x y hx hy hr) ?_)
      intro i x y hi hx hy hr
      exact ho (i + 1) x y (by omega) hx hy hr

theorem forall₂_imp_mem {α β : Type} {r r' : α → β → Prop} {l : List α} {l' : List β} (h : List.Forall₂ r l l')
    (hi : ∀ (i : Nat) x y, l[i]? = some x → r x y → r' x y) : List.Forall₂ r' l l' := by
  induction h with
  | nil => exact .nil
  | cons h1 h2 ih => exact .cons (hi 0 _ _ rfl h1) (ih fun i x y hx hr => hi (i + 1) x y hx hr)

theorem RelD.frame {cells cells' : List Bytes} {d : Option (Drawable R P)} {g : Option (GDrawable R P)} (h : RelD cells d g)
    (hf : ∀ c ∈ drawableCells d, cells'[c]? = cells[c]?) : RelD cells' d g := by
  cases d with
  | none => cases g <;> exact h
  | some d =>
    cases g with
    | none => exact h
    | some g =>
      refine ⟨h.1, forall₂_imp_mem h.2 ?_⟩
      intro i x y hx hr
      exact hr.frame fun c hc => hf c (List.mem_flatMap.2 ⟨x, List.mem_of_getElem? hx, hc⟩)

def GState.modSlot (gs : GState R P) (d j : Nat) (f : Slot R P → Slot R P) : GState R P :=
  { gs with drawables := gs.drawables.modify d (Option.map fun g => { g with slots := g.slots.modify j f }) }

/-- One implementation changes, and no buffer that something else refers to. -/
theorem Rel.set {st : State R P} {gs : GState R P} (h : Rel st gs) {d j : Nat} {cells' : List Bytes} {i' : Impl R P}
    {f : Slot R P → Slot R P}
    (hi : ∀ dr i s, st.drawables[d]? = some (some dr) → dr.impls[j]? = some i → RelSlot st.cells i s → RelSlot cells' i' (f s))
    (ho : ∀ d' dr j' i, st.drawables[d']? = some (some dr) → dr.impls[j']? = some i → ¬(d' = d ∧ j' = j) →
      ∀ c ∈ implCells i, cells'[c]? = st.cells[c]?)
    (hr : ∀ k ∈ st.recorded, ∀ c ∈ cmdCells k, cells'[c]? = st.cells[c]?) :
    Rel (({ st with cells := cells' } : State R P).setImpl d j i') (gs.modSlot d j f) := by
  constructor
  · show List.Forall₂ (RelD cells') _ _
    refine forall₂_modify h.drawables ?_ ?_
    · intro x y hx hy hxy
      cases x with
      | none => cases y with
        | none => trivial
        | some y => exact hxy.elim
      | some dr =>
        cases y with
        | none => exact hxy.elim
        | some g =>
          refine ⟨hxy.1, ?_⟩
          show List.Forall₂ _ (dr.impls.set j i') (g.slots.modify j f)
          have : dr.impls.set j i' = dr.impls.modify j fun _ => i' := by
            apply List.ext_getElem?
            intro n
            rw [List.getElem?_set, List.getElem?_modify]
            by_cases hn : j = n
            · subst hn
              rw [if_pos rfl]
              by_cases hl : j < dr.impls.length
              · rw [if_pos hl]; simp [hl]
              · rw [if_neg hl, List.getElem?_eq_none (by omega)]; rfl
            · simp [hn]
          rw [this]
          refine forall₂_modify hxy.2 ?_ ?_
          · intro i s hi' hs hr'
            exact hi dr i s hx hi' hr'
          · intro j' i s hne hi' hs hr'
            exact hr'.frame (ho d dr j' i hx hi' fun e => hne e.2)
    · intro d' x y hne hx hy hxy
      refine hxy.frame ?_
      intro c hc
      cases x with
      | none => simp [drawableCells] at hc
      | some dr =>
        obtain ⟨i, hm, hc⟩ := List.mem_flatMap.1 hc
        obtain ⟨j', hj'⟩ := List.getElem?_of_mem hm
        exact ho d' dr j' i hx hj' (fun e => hne e.1) c hc
  · show List.Forall₂ (Records cells') _ _
    refine forall₂_imp_mem h.recorded ?_
    intro i x y hx hxy
    exact records_frame hxy (hr x (List.mem_of_getElem? hx))

theorem State.setImpl_self {st : State R P} {d j : Nat} {i : Impl R P} (h : st.impl d j = some i) : st.setImpl d j i = st := by
  obtain ⟨cells, drawables, recorded⟩ := st
  unfold State.setImpl
  congr 1
  apply List.ext_getElem?
  intro n
  rw [List.getElem?_modify]
  by_cases hn : d = n
  · subst hn
    unfold State.impl at h
    simp only at h
    cases hd : drawables[d]? with
    | none => rfl
    | some o =>
      cases o with
      | none => simp
      | some dr =>
        rw [hd] at h
        change dr.impls[j]? = some i at h
        rw [List.getElem?_eq_some_iff] at h
        obtain ⟨hl, rfl⟩ := h
        simp only [if_true]
        show some (some (Verif.Render.setImpl dr.impls[j] j dr)) = some (some dr)
        unfold Verif.Render.setImpl
        rw [List.set_getElem_self]
  · simp [hn]

theorem impl_eq {st : State R P} {d j : Nat} {dr : Drawable R P} {i : Impl R P} (hd : st.drawables[d]? = some (some dr))
    (hj : dr.impls[j]? = some i) : st.impl d j = some i := by
  unfold State.impl
  rw [hd]; exact hj

/-- Writing a uniform changes the implementation that it is of, and nothing else. -/
theorem setUniform_ok {st : State R P} {gs : GState R P} (h : Rel st gs) {d j : Nat} {dr : Drawable R P} {m : MeshDrawable R}
    {sel : UniformData → Option Nat} {src : Bytes} {o : Nat}
    {f : Slot R P → Slot R P}
    (hd : st.drawables[d]? = some (some dr)) (hj : dr.impls[j]? = some (.mesh m)) (hso : sel m.uniforms = some o)
    {c : Nat} {old new : Bytes} (hc : m.uniforms.data = some c) (hold : st.cells[c]? = some old)
    (hnew : memcpy old o src = some new)
    (hf : ∀ (cells' : List Bytes) c' s, cells'[c']? = some new → RelSlot st.cells (.mesh m) s →
      RelSlot cells' (.mesh { m with uniforms := { m.uniforms with data := some c' } }) (f s)) :
    ∃ st', setUniform st d j sel src = some st' ∧ Rel st' (gs.modSlot d j f) := by
  have himpl := impl_eq hd hj
  have hcl : c < st.cells.length := (List.getElem?_eq_some_iff.1 hold).1
  refine ⟨if st.unique c = true then { st with cells := st.cells.set c new }
      else ({ st with cells := st.cells ++ [new] } : State R P).setImpl d j
        (.mesh { m with uniforms := { m.uniforms with data := some st.cells.length } }), ?_, ?_⟩
  · unfold setUniform
    rw [himpl, Option.bind_some]
    simp only
    rw [hso, Option.bind_some, hc, Option.bind_some, hold, Option.bind_some, hnew, Option.map_some]
  · by_cases hu : st.unique c = true
    · rw [if_pos hu]
      have hm : (Impl.mesh { m with uniforms := { m.uniforms with data := some c } } : Impl R P) = .mesh m := by
        obtain ⟨rest, u⟩ := m
        simp only at hc
        obtain ⟨x1, x2, x3, x4⟩ := u
        simp only at hc
        rw [hc]
      have hs : ({ st with cells := st.cells.set c new } : State R P) =
          ({ st with cells := st.cells.set c new } : State R P).setImpl d j (.mesh m) :=
        (State.setImpl_self (st := { st with cells := st.cells.set c new }) (impl_eq hd hj)).symm
      rw [hs]
      refine h.set ?_ ?_ ?_
      · intro dr' i s hd' hi' hr
        rw [hd] at hd'
        obtain rfl : dr = dr' := by simpa using hd'
        rw [hj] at hi'
        obtain rfl := Option.some.inj hi'
        rw [← hm]
        exact hf _ c s (by simp [hcl]) hr
      · intro d' dr' j' i hd' hi' hne c' hc'
        have := unique_impl hu hd hj (by simp [implCells, hc]) hd' hi' hne
        rw [List.getElem?_set_ne]
        rintro rfl; exact this hc'
      · intro k hk c' hc'
        have := unique_cmd hu hd hj (by simp [implCells, hc]) hk
        rw [List.getElem?_set_ne]
        rintro rfl; exact this hc'
    · rw [if_neg hu]
      refine h.set ?_ ?_ ?_
      · intro dr' i s hd' hi' hr
        rw [hd] at hd'
        obtain rfl : dr = dr' := by simpa using hd'
        rw [hj] at hi'
        obtain rfl := Option.some.inj hi'
        exact hf _ _ s (by simp) hr
      · intro d' dr' j' i hd' hi' hne c' hc'
        obtain ⟨g, hg, hr⟩ := forall₂_get' h.drawables hd'
        cases g with
        | none => exact hr.elim
        | some g =>
          obtain ⟨s, _, hs⟩ := forall₂_get' hr.2 hi'
          exact List.getElem?_append_left (hs.lt c' hc')
      · intro k hk c' hc'
        obtain ⟨n, hn⟩ := List.getElem?_of_mem hk
        obtain ⟨s, _, hs⟩ := forall₂_get' h.recorded hn
        exact List.getElem?_append_left (records_lt hs c' hc')

/-! ## Setting transforms and colours -/

def Slot.setT (t : Transform) (s : Slot R P) : Slot R P := { s with t := some t }

def Slot.setC (c : Rgba) (s : Slot R P) : Slot R P := { s with color := c }

/-- There is such an implementation. -/
def GState.Has (gs : GState R P) (d j : Nat) : Prop := ∃ g s, gs.drawables[d]? = some (some g) ∧ g.slots[j]? = some s

theorem Rel.has {st : State R P} {gs : GState R P} (h : Rel st gs) {d j : Nat} (hh : gs.Has d j) :
    ∃ dr i s, st.drawables[d]? = some (some dr) ∧ dr.impls[j]? = some i ∧ RelSlot st.cells i s := by
  obtain ⟨g, s, hg, hs⟩ := hh
  obtain ⟨x, hx, hr⟩ := forall₂_get h.drawables hg
  cases x with
  | none => exact hr.elim
  | some dr =>
    obtain ⟨i, hi, hr'⟩ := forall₂_get hr.2 hs
    exact ⟨dr, i, s, hx, hi, hr'⟩

theorem GState.modSlot_has {gs : GState R P} {d j j' : Nat} {f : Slot R P → Slot R P} (h : gs.Has d j') :
    (gs.modSlot d j f).Has d j' := by
  obtain ⟨g, s, hg, hs⟩ := h
  refine ⟨{ g with slots := g.slots.modify j f }, if j = j' then f s else s, ?_, ?_⟩
  · simp [GState.modSlot, hg]
  · simp [List.getElem?_modify, hs]

/-- Nothing changes but what the implementation means. -/
theorem Rel.same {st : State R P} {gs : GState R P} (h : Rel st gs) {d j : Nat} {f : Slot R P → Slot R P} {dr : Drawable R P}
    {i : Impl R P} (hd : st.drawables[d]? = some (some dr)) (hj : dr.impls[j]? = some i)
    (hf : ∀ s, RelSlot st.cells i s → RelSlot st.cells i (f s)) : Rel st (gs.modSlot d j f) := by
  have hs : st = ({ st with cells := st.cells } : State R P).setImpl d j i := (State.setImpl_self (impl_eq hd hj)).symm
  rw [hs]
  refine h.set ?_ (fun _ _ _ _ _ _ _ _ _ => rfl) (fun _ _ _ _ => rfl)
  intro dr' i' s hd' hi' hr
  rw [hd] at hd'
  obtain rfl : dr = dr' := by simpa using hd'
  rw [hj] at hi'
  obtain rfl := Option.some.inj hi'
  exact hf s hr

theorem setTransformAt_ok {st : State R P} {gs : GState R P} (h : Rel st gs) {d j : Nat} (hh : gs.Has d j) (t : Transform) :
    ∃ st', setTransformAt t d st j = some st' ∧ Rel st' (gs.modSlot d j (Slot.setT t)) := by
  obtain ⟨dr, i, s, hd, hj, hr⟩ := h.has hh
  unfold setTransformAt
  rw [impl_eq hd hj, Option.bind_some]
  cases i with
  | path p =>
    refine ⟨st, rfl, h.same hd hj ?_⟩
    rintro ⟨coat, t', c⟩ hs
    cases coat with
    | mesh => exact hs.elim
    | path => exact hs
  | mesh m =>
    simp only
    obtain ⟨coat, t0, c0⟩ := s
    cases coat with
    | path => exact hr.elim
    | mesh rest s u map mem =>
      obtain ⟨r1, r2, r3, c, b, r4, r5, r6⟩ := hr
      have htr : m.uniforms.transform = findOffset s .objectToCanvas := by rw [r2]; rfl
      cases hf : findOffset s .objectToCanvas with
      | none =>
        rw [htr, hf]
        refine ⟨st, rfl, h.same hd hj ?_⟩
        rintro ⟨coat, t', c'⟩ hs
        cases coat with
        | path => exact hs
        | mesh rest' s' u' map' mem' =>
          obtain ⟨k1, k2, k3, c1, b1, k4, k5, k6⟩ := hs
          refine ⟨k1, k2, k3, c1, b1, k4, k5, k6.noTransform k3.1 t ?_⟩
          rw [← hf, ← htr, k2]; rfl
      | some o =>
        rw [htr, hf, Option.isSome_some, if_pos rfl]
        obtain ⟨new, hnew, _⟩ := r6.setTransform r3.1 r3.2.2.2 t hf
        refine setUniform_ok h hd hj (o := o) (by rw [htr, hf]) r4 r5 hnew ?_
        rintro cells' c' ⟨coat, t', color'⟩ hc' hs
        cases coat with
        | path => exact hs
        | mesh rest' s' u' map' mem' =>
          obtain ⟨k1, k2, k3, c1, b1, k4, k5, k6⟩ := hs
          rw [r4] at k4
          obtain rfl := Option.some.inj k4
          rw [r5] at k5
          obtain rfl := Option.some.inj k5
          have hf' : findOffset s' .objectToCanvas = some o := by
            rw [← hf, ← htr, k2]; rfl
          obtain ⟨new', hnew', hs'⟩ := k6.setTransform k3.1 k3.2.2.2 t hf'
          rw [hnew] at hnew'
          obtain rfl := Option.some.inj hnew'
          refine ⟨k1, ?_, k3, c', new, rfl, hc', hs'⟩
          simp only; rw [k2]

theorem setColorAt_ok {st : State R P} {gs : GState R P} (h : Rel st gs) {d j : Nat} (hh : gs.Has d j) (color : Rgba) (f : Bool) :
    ∃ st', setColorAt color d (st, f) j = some (st', true) ∧ Rel st' (gs.modSlot d j (Slot.setC color)) := by
  obtain ⟨dr, i, s, hd, hj, hr⟩ := h.has hh
  unfold setColorAt
  simp only
  rw [impl_eq hd hj, Option.bind_some]
  cases i with
  | path p =>
    refine ⟨_, rfl, ?_⟩
    refine h.set (cells' := st.cells) ?_ (fun _ _ _ _ _ _ _ _ _ => rfl) (fun _ _ _ _ => rfl)
    intro dr' i' s hd' hi' hr
    rw [hd] at hd'
    obtain rfl : dr = dr' := by simpa using hd'
    rw [hj] at hi'
    obtain rfl := Option.some.inj hi'
    obtain ⟨coat, t', c⟩ := s
    cases coat with
    | mesh => exact hr.elim
    | path ps o =>
      obtain ⟨h1, h2, h3⟩ := hr
      refine ⟨h1, h2, ?_⟩
      simp only; rw [h2]
  | mesh m =>
    simp only
    obtain ⟨coat, t0, c0⟩ := s
    cases coat with
    | path => exact hr.elim
    | mesh rest s u map mem =>
      obtain ⟨r1, r2, r3, c, b, r4, r5, r6⟩ := hr
      have htr : m.uniforms.color = findOffset s .brushColor := by rw [r2]; rfl
      obtain ⟨uc, huc, hic⟩ := r3.1.color
      have hf := findOffset_of r3.1 huc
      rw [hic] at hf
      rw [htr, hf, Option.isSome_some, if_pos rfl]
      obtain ⟨new, hnew, _⟩ := r6.setColor r3.1 r3.2.2.2 color hf
      have key : ∃ st', setUniform st d j UniformData.color (colorBytes color) = some st' ∧
          Rel st' (gs.modSlot d j (Slot.setC color)) := by
        refine setUniform_ok h hd hj (o := uc.offset) (by rw [htr, hf]) r4 r5 hnew ?_
        rintro cells' c' ⟨coat, t', color'⟩ hc' hs
        cases coat with
        | path => exact hs.elim
        | mesh rest' s' u' map' mem' =>
          obtain ⟨k1, k2, k3, c1, b1, k4, k5, k6⟩ := hs
          rw [r4] at k4
          obtain rfl := Option.some.inj k4
          rw [r5] at k5
          obtain rfl := Option.some.inj k5
          have hf' : findOffset s' .brushColor = some uc.offset := by
            rw [← hf, ← htr, k2]; rfl
          obtain ⟨new', hnew', hs'⟩ := k6.setColor k3.1 k3.2.2.2 color hf'
          rw [hnew] at hnew'
          obtain rfl := Option.some.inj hnew'
          refine ⟨k1, ?_, k3, c', new, rfl, hc', hs'⟩
          simp only; rw [k2]
      obtain ⟨st', hs, hrel⟩ := key
      exact ⟨st', by rw [hs]; rfl, hrel⟩

theorem foldTransform_ok (t : Transform) (d : Nat) (js : List Nat) {st : State R P} {gs : GState R P} (h : Rel st gs)
    (hh : ∀ j ∈ js, gs.Has d j) :
    ∃ st', js.foldlM (setTransformAt t d) st = some st' ∧ Rel st' (js.foldl (fun gs j => gs.modSlot d j (Slot.setT t)) gs) := by
  induction js generalizing st gs with
  | nil => exact ⟨st, rfl, h⟩
  | cons j js ih =>
    obtain ⟨st1, h1, r1⟩ := setTransformAt_ok h (hh j List.mem_cons_self) t
    obtain ⟨st2, h2, r2⟩ := ih r1 fun j' hj' => GState.modSlot_has (hh j' (List.mem_cons_of_mem _ hj'))
    exact ⟨st2, by rw [List.foldlM_cons, h1]; exact h2, r2⟩

theorem foldColor_ok (color : Rgba) (d : Nat) (js : List Nat) {st : State R P} {gs : GState R P} (h : Rel st gs)
    (hh : ∀ j ∈ js, gs.Has d j) (f : Bool) :
    ∃ st', js.foldlM (setColorAt color d) (st, f) = some (st', f || !js.isEmpty) ∧
      Rel st' (js.foldl (fun gs j => gs.modSlot d j (Slot.setC color)) gs) := by
  induction js generalizing st gs f with
  | nil => exact ⟨st, by simp, h⟩
  | cons j js ih =>
    obtain ⟨st1, h1, r1⟩ := setColorAt_ok h (hh j List.mem_cons_self) color f
    obtain ⟨st2, h2, r2⟩ := ih r1 (fun j' hj' => GState.modSlot_has (hh j' (List.mem_cons_of_mem _ hj'))) true
    refine ⟨st2, ?_, r2⟩
    rw [List.foldlM_cons, h1]
    refine Eq.trans h2 ?_
    simp

theorem foldl_modify {α : Type} (f : α → α) (l : List α) :
    (List.range l.length).foldl (fun l j => l.modify j f) l = l.map f := by
  have key : ∀ k (i : Nat), ((List.range k).foldl (fun l j => l.modify j f) l)[i]? = if i < k then l[i]?.map f else l[i]? := by
    intro k
    induction k with
    | zero => intro i; simp
    | succ k ih =>
      intro i
      rw [List.range_succ, List.foldl_append, List.foldl_cons, List.foldl_nil, List.getElem?_modify, ih]
      rcases Nat.lt_trichotomy i k with h | h | h
      · rw [if_pos h, if_pos (by omega)]; simp [show k ≠ i by omega]
      · subst h; simp
      · rw [if_neg (by omega), if_neg (by omega)]; simp [show k ≠ i by omega]
  apply List.ext_getElem?
  intro i
  rw [key, List.getElem?_map]
  by_cases h : i < l.length
  · rw [if_pos h]
  · rw [if_neg h, List.getElem?_eq_none (by omega)]; rfl

theorem foldl_modSlot (d : Nat) (f : Slot R P → Slot R P) (js : List Nat) (gs : GState R P) :
    js.foldl (fun gs j => gs.modSlot d j f) gs =
      { gs with drawables := gs.drawables.modify d (Option.map fun g =>
        { g with slots := js.foldl (fun l j => l.modify j f) g.slots }) } := by
  induction js generalizing gs with
  | nil =>
    simp only [List.foldl_nil]
    obtain ⟨ds, r⟩ := gs
    congr 1
    simp only
    have : (Option.map fun g : GDrawable R P => ({ t := g.t, slots := g.slots } : GDrawable R P)) = id := by
      funext o; cases o <;> rfl
    rw [this]; exact List.modify_id _ _ |>.symm
  | cons j js ih =>
    rw [List.foldl_cons, ih]
    unfold GState.modSlot
    simp only [List.modify_modify_eq]
    congr 2
    funext o
    cases o <;> rfl

theorem modify_eq_set {α : Type} {l : List α} {d : Nat} {x : α} (f : α → α) (h : l[d]? = some x) : l.modify d f = l.set d (f x) := by
  apply List.ext_getElem?
  intro n
  rw [List.getElem?_set, List.getElem?_modify]
  by_cases hn : d = n
  · subst hn
    have := (List.getElem?_eq_some_iff.1 h).1
    rw [if_pos rfl, if_pos this, h]; simp
  · simp [hn]

/-! ## Operations -/

def gOf (ss : SState R P) : GState R P where
  drawables := ss.drawables.map (Option.map fun x => ⟨x.transform, x.coats.map fun c => ⟨c, some x.transform, x.color⟩⟩)
  recorded := ss.recorded

theorem gOf_get {ss : SState R P} {d : Nat} {x : SDrawable R P} (h : ss.drawables[d]? = some (some x)) :
    (gOf ss).drawables[d]? = some (some ⟨x.transform, x.coats.map fun c => ⟨c, some x.transform, x.color⟩⟩) := by
  simp [gOf, h]

theorem join_some {α : Type} {o : Option (Option α)} {x : α} (h : o.join = some x) : o = some (some x) := by
  cases o with
  | none => cases h
  | some o => cases o with
    | none => cases h
    | some y => simpa using h

theorem join_rel {st : State R P} {ss : SState R P} (h : Rel st (gOf ss)) (d : Nat) :
    (st.drawables[d]?.join = none ∧ ss.drawables[d]?.join = none) ∨
    ∃ dr x, st.drawables[d]? = some (some dr) ∧ ss.drawables[d]? = some (some x) ∧ dr.objectToCanvas = x.transform ∧
      List.Forall₂ (RelSlot st.cells) dr.impls (x.coats.map fun c => ⟨c, some x.transform, x.color⟩) := by
  cases hd : st.drawables[d]? with
  | none =>
    left
    refine ⟨rfl, ?_⟩
    cases hs : ss.drawables[d]? with
    | none => rfl
    | some y =>
      obtain ⟨x, hx, _⟩ := forall₂_get h.drawables (i := d) (y := y.map fun x => ⟨x.transform, x.coats.map fun c => ⟨c, some x.transform, x.color⟩⟩)
        (by simp [gOf, hs])
      rw [hd] at hx; cases hx
  | some o =>
    obtain ⟨g, hg, hr⟩ := forall₂_get' h.drawables hd
    simp only [gOf, List.getElem?_map, Option.map_eq_some_iff] at hg
    obtain ⟨y, hy, rfl⟩ := hg
    cases o with
    | none =>
      cases y with
      | none => left; exact ⟨rfl, by rw [hy]; rfl⟩
      | some y => exact hr.elim
    | some dr =>
      cases y with
      | none => exact hr.elim
      | some x => exact Or.inr ⟨dr, x, rfl, hy, hr.1, hr.2⟩

theorem newImpls_ok (color : Rgba) (coats : List (Coat R P)) (hok : ∀ c ∈ coats, CoatOk c) (cells : List Bytes) :
    ∃ is new, newImpls color coats cells = some (is, cells ++ new) ∧
      List.Forall₂ (RelSlot (cells ++ new)) is (coats.map fun c => ⟨c, none, color⟩) := by
  induction coats generalizing cells with
  | nil => exact ⟨[], [], by simp [newImpls], .nil⟩
  | cons c l ih =>
    have hl : ∀ c ∈ l, CoatOk c := fun c hc => hok c (List.mem_cons_of_mem _ hc)
    cases c with
    | path ps o =>
      obtain ⟨is, new, h1, h2⟩ := ih hl cells
      refine ⟨.path ⟨ps, o, pathColor o color⟩ :: is, new, ?_, .cons ⟨rfl, rfl, rfl⟩ h2⟩
      simp only [newImpls, h1, Option.map_some]
    | mesh rest s u m mem =>
      have hc : CoatOk (.mesh rest s u m mem : Coat R P) := hok _ List.mem_cons_self
      obtain ⟨b, hb, hs⟩ := newMesh_ok hc.1 u hc.2.2.2 hc.2.2.1 color m hc.2.1
      obtain ⟨is, new, h1, h2⟩ := ih hl (cells ++ [b])
      refine ⟨.mesh ⟨rest, { newUniformData s with data := some cells.length }⟩ :: is, b :: new, ?_, ?_⟩
      · simp only [newImpls, hb, Option.bind_some, h1, Option.map_some, List.append_assoc, List.singleton_append]
      · rw [List.append_assoc, List.singleton_append] at h2
        refine .cons ⟨rfl, rfl, hc, cells.length, b, rfl, ?_, hs⟩ h2
        simp

theorem implCount_eq {st : State R P} {d : Nat} {dr : Drawable R P} (hd : st.drawables[d]? = some (some dr)) :
    st.implCount d = dr.impls.length := by
  unfold State.implCount; rw [hd]; rfl

theorem has_of {gs : GState R P} {d : Nat} {g : GDrawable R P} (hg : gs.drawables[d]? = some (some g)) :
    ∀ j ∈ List.range g.slots.length, gs.Has d j := by
  intro j hj
  rw [List.mem_range] at hj
  exact ⟨g, g.slots[j], hg, List.getElem?_eq_getElem hj⟩

/-- All transforms are set, whatever they were before. -/
theorem setObjectToCanvas_ok {st : State R P} {gs : GState R P} (h : Rel st gs) {d : Nat} {g : GDrawable R P}
    (hg : gs.drawables[d]? = some (some g)) (t : Transform) :
    ∃ st', setObjectToCanvas st d t = some st' ∧
      Rel st' { gs with drawables := gs.drawables.set d (some ⟨t, g.slots.map (Slot.setT t)⟩) } := by
  obtain ⟨x, hx, hr⟩ := forall₂_get h.drawables hg
  cases x with
  | none => exact hr.elim
  | some dr =>
    have hlen := hr.2.length_eq
    have h' : Rel { st with drawables := st.drawables.modify d (Option.map fun dr => { dr with objectToCanvas := t }) }
        { gs with drawables := gs.drawables.modify d (Option.map fun g => { g with t := t }) } := by
      refine ⟨forall₂_modify h.drawables ?_ (fun _ _ _ _ _ _ hh => hh), h.recorded⟩
      intro x y _ _ hh
      cases x with
      | none => cases y <;> exact hh
      | some x =>
        cases y with
        | none => exact hh
        | some y => exact ⟨rfl, hh.2⟩
    have hg' : ({ gs with drawables := gs.drawables.modify d (Option.map fun g => { g with t := t }) } : GState R P).drawables[d]? =
        some (some { g with t := t }) := by
      simp [hg]
    obtain ⟨st', h1, h2⟩ := foldTransform_ok t d (List.range g.slots.length) h' (has_of (g := { g with t := t }) hg')
    refine ⟨st', ?_, ?_⟩
    · unfold setObjectToCanvas
      rw [hx, Option.join_some, Option.bind_some, implCount_eq hx, hlen]
      exact h1
    · rw [foldl_modSlot] at h2
      simp only [List.modify_modify_eq] at h2
      rw [modify_eq_set _ hg] at h2
      simp only [Function.comp_apply, Option.map_some, foldl_modify] at h2
      exact h2

theorem setBrushColor_ok {st : State R P} {gs : GState R P} (h : Rel st gs) {d : Nat} {g : GDrawable R P}
    (hg : gs.drawables[d]? = some (some g)) (color : Rgba) :
    ∃ st', setBrushColor st d color = (if g.slots = [] then none else some st') ∧
      Rel st' { gs with drawables := gs.drawables.set d (some ⟨g.t, g.slots.map (Slot.setC color)⟩) } := by
  obtain ⟨x, hx, hr⟩ := forall₂_get h.drawables hg
  cases x with
  | none => exact hr.elim
  | some dr =>
    have hlen := hr.2.length_eq
    obtain ⟨st', h1, h2⟩ := foldColor_ok color d (List.range g.slots.length) h (has_of hg) false
    refine ⟨st', ?_, ?_⟩
    · unfold setBrushColor
      rw [hx, Option.join_some, Option.bind_some, implCount_eq hx, hlen, h1, Option.bind_some]
      cases hs : g.slots with
      | nil => rfl
      | cons a l => simp
    · rw [foldl_modSlot, modify_eq_set _ hg] at h2
      simp only [Option.map_some, foldl_modify] at h2
      exact h2

theorem drawImpl_ok (parts : R → List R) {cells : List Bytes} {is : List (Impl R P)} {coats : List (Coat R P)} {t : Transform}
    {color : Rgba} (h : List.Forall₂ (RelSlot cells) is (coats.map fun c => ⟨c, some t, color⟩)) :
    List.Forall₂ (Records cells) (is.flatMap (drawImpl parts)) (coats.flatMap (drawCoat parts t color)) := by
  induction coats generalizing is with
  | nil => cases h; exact .nil
  | cons c coats ih =>
    cases h with
    | @cons i _ is _ h1 h2 =>
      rw [List.flatMap_cons, List.flatMap_cons]
      refine List.rel_append ?_ (ih h2)
      cases i with
      | mesh m =>
        cases c with
        | path => exact h1.elim
        | mesh rest s u map mem =>
          obtain ⟨r1, r2, r3, c, b, r4, r5, r6⟩ := h1
          subst r1
          show List.Forall₂ _ ((parts m.rest).map _) ((parts m.rest).map _)
          induction parts m.rest with
          | nil => exact .nil
          | cons p ps ih => exact .cons ⟨rfl, b, by rw [r4]; exact r5, r6.shows⟩ ih
      | path p =>
        cases c with
        | mesh => exact h1.elim
        | path ps o =>
          obtain ⟨h1, h2, h3⟩ := h1
          subst h1
          show List.Forall₂ _ (p.paths.map _) (p.paths.map _)
          induction p.paths with
          | nil => exact .nil
          | cons q qs ih => exact .cons ⟨rfl, h3⟩ ih

theorem toSkiaM44_eq (t : Transform) : toSkiaM44 t =
    [t.a, t.b, zero, t.c, t.d, t.e, zero, t.f, zero, zero, ofInt 1, zero, zero, zero, zero, ofInt 1] := by
  have : ofInt 1 = fin false 0x3F800000 (by decide) := by decide +kernel
  rw [this]; rfl

theorem step_ok (parts : R → List R) {st : State R P} {ss : SState R P} (h : Rel st (gOf ss)) (op : Op R P) (hop : OpOk op) :
    (step parts st op = none ∧ sstep parts ss op = none) ∨
    ∃ st' ss', step parts st op = some st' ∧ sstep parts ss op = some ss' ∧ Rel st' (gOf ss') := by
  cases op with
  | create coats color t =>
    right
    obtain ⟨is, new, h1, h2⟩ := newImpls_ok color coats hop st.cells
    have hrel : Rel { st with cells := st.cells ++ new, drawables := st.drawables ++ [some ⟨t, is⟩] }
        { gOf ss with drawables := (gOf ss).drawables ++ [some ⟨t, coats.map fun c => ⟨c, none, color⟩⟩] } := by
      constructor
      · refine List.rel_append (forall₂_imp_mem h.drawables ?_) (.cons ⟨rfl, h2⟩ .nil)
        intro i x y hx hr
        refine hr.frame ?_
        intro c hc
        cases x with
        | none => simp [drawableCells] at hc
        | some dr =>
          cases y with
          | none => exact hr.elim
          | some y =>
            obtain ⟨i, hm, hc⟩ := List.mem_flatMap.1 hc
            obtain ⟨j', hj'⟩ := List.getElem?_of_mem hm
            obtain ⟨s, _, hs⟩ := forall₂_get' hr.2 hj'
            exact List.getElem?_append_left (hs.lt c hc)
      · refine forall₂_imp_mem h.recorded ?_
        intro i x y hx hr
        exact records_frame hr fun c hc => List.getElem?_append_left (records_lt hr c hc)
    have hlen := h.drawables.length_eq
    obtain ⟨st', h3, h4⟩ := setObjectToCanvas_ok hrel (d := st.drawables.length)
      (g := ⟨t, coats.map fun c => ⟨c, none, color⟩⟩) (by rw [hlen]; simp) t
    refine ⟨st', _, ?_, rfl, ?_⟩
    · simp only [step, create, h1, Option.bind_some]; exact h3
    · convert h4 using 1
      simp only [gOf, List.map_append, List.map_cons, List.map_nil, Option.map_some]
      congr 1
      have hl2 : st.drawables.length = (ss.drawables.map (Option.map fun x : SDrawable R P =>
        (⟨x.transform, x.coats.map fun c => ⟨c, some x.transform, x.color⟩⟩ : GDrawable R P))).length := hlen
      rw [hl2, List.set_append_right _ _ (Nat.le_refl _)]
      simp [Slot.setT, Function.comp_def]
  | copy d =>
    rcases join_rel h d with ⟨h1, h2⟩ | ⟨dr, x, h1, h2, h3, h4⟩
    · left; exact ⟨by simp [step, copy, h1], by simp [sstep, h2]⟩
    · right
      refine ⟨{ st with drawables := st.drawables ++ [some dr] }, { ss with drawables := ss.drawables ++ [some x] },
        by simp only [step, copy, h1, Option.join_some, Option.map_some],
        by simp only [sstep, h2, Option.join_some, Option.map_some], ?_, h.recorded⟩
      simp only [gOf, List.map_append, List.map_cons, List.map_nil, Option.map_some]
      exact List.rel_append h.drawables (.cons ⟨h3, h4⟩ .nil)
  | destroy d =>
    rcases join_rel h d with ⟨h1, h2⟩ | ⟨dr, x, h1, h2, h3, h4⟩
    · left; exact ⟨by simp [step, destroy, h1], by simp [sstep, h2]⟩
    · right
      refine ⟨{ st with drawables := st.drawables.set d none }, { ss with drawables := ss.drawables.set d none },
        by simp only [step, destroy, h1, Option.join_some, Option.map_some],
        by simp only [sstep, h2, Option.join_some, Option.map_some], ?_, h.recorded⟩
      simp only [gOf, List.map_set, Option.map_none]
      have e := modify_eq_set (fun _ => none) (gOf_get h2)
      unfold gOf at e
      rw [← modify_eq_set (fun _ => none) h1, ← e]
      exact forall₂_modify h.drawables (fun _ _ _ _ _ => trivial) (fun _ _ _ _ _ _ hh => hh)
  | setObjectToCanvas d t =>
    rcases join_rel h d with ⟨h1, h2⟩ | ⟨dr, x, h1, h2, h3, h4⟩
    · left; exact ⟨by simp [step, setObjectToCanvas, h1], by simp [sstep, h2]⟩
    · right
      obtain ⟨st', k1, k2⟩ := setObjectToCanvas_ok h (gOf_get h2) t
      refine ⟨st', { ss with drawables := ss.drawables.set d (some { x with transform := t }) }, k1,
        by simp only [sstep, h2, Option.join_some, Option.map_some], ?_⟩
      convert k2 using 1
      simp [gOf, List.map_set, Slot.setT, Function.comp_def]
  | setBrushColor d c =>
    rcases join_rel h d with ⟨h1, h2⟩ | ⟨dr, x, h1, h2, h3, h4⟩
    · left; exact ⟨by simp [step, setBrushColor, h1], by simp [sstep, h2]⟩
    · obtain ⟨st', k1, k2⟩ := setBrushColor_ok h (gOf_get h2) c
      simp only [List.map_eq_nil_iff] at k1
      by_cases hc : x.coats = []
      · left
        rw [if_pos hc] at k1
        exact ⟨k1, by simp only [sstep, h2, Option.join_some, Option.bind_some, if_pos hc]⟩
      · right
        rw [if_neg hc] at k1
        refine ⟨st', { ss with drawables := ss.drawables.set d (some { x with color := c }) }, k1,
          by simp only [sstep, h2, Option.join_some, Option.bind_some, if_neg hc], ?_⟩
        convert k2 using 1
        simp [gOf, List.map_set, Slot.setC, Function.comp_def]
  | draw d =>
    rcases join_rel h d with ⟨h1, h2⟩ | ⟨dr, x, h1, h2, h3, h4⟩
    · left; exact ⟨by simp [step, draw, h1], by simp [sstep, h2]⟩
    · right
      refine ⟨{ st with recorded := st.recorded ++ .setMatrix (toSkiaM44 dr.objectToCanvas) :: dr.impls.flatMap (drawImpl parts) },
        { ss with recorded := ss.recorded ++ .matrix x.transform :: x.coats.flatMap (drawCoat parts x.transform x.color) },
        by simp only [step, draw, h1, Option.join_some, Option.map_some],
        by simp only [sstep, h2, Option.join_some, Option.map_some], h.drawables, ?_⟩
      refine List.rel_append h.recorded (.cons ?_ (drawImpl_ok parts h4))
      show _ = _
      rw [toSkiaM44_eq, h3]
  | forget n =>
    right
    exact ⟨_, _, rfl, rfl, h.drawables, List.forall₂_drop n h.recorded⟩

theorem run_ok (parts : R → List R) (ops : List (Op R P)) (hops : ∀ op ∈ ops, OpOk op) {st : State R P} {ss : SState R P}
    (h : Rel st (gOf ss)) :
    (run parts st ops = none ∧ srun parts ss ops = none) ∨
    ∃ st' ss', run parts st ops = some st' ∧ srun parts ss ops = some ss' ∧ Rel st' (gOf ss') := by
  induction ops generalizing st ss with
  | nil => exact Or.inr ⟨st, ss, rfl, rfl, h⟩
  | cons op ops ih =>
    unfold run srun
    rw [List.foldlM_cons, List.foldlM_cons]
    rcases step_ok parts h op (hops op List.mem_cons_self) with ⟨h1, h2⟩ | ⟨st', ss', h1, h2, h3⟩
    · left; rw [h1, h2]; exact ⟨rfl, rfl⟩
    · rw [h1, h2]
      exact ih (fun op hop => hops op (List.mem_cons_of_mem _ hop)) h3

end Verif.Render
