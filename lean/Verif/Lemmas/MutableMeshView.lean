import Verif.Spec.MutableMeshView
import Verif.Props.MutableMesh

/-!
# Lemmas for C37
-/

set_option autoImplicit false

namespace Verif.View

open Verif Verif.Mesh Verif.Mesh.Spec Verif.View.Spec

/-! ## Marks -/

section Marks

variable {α : Type}

theorem firstMarked_le (l : List (α × Bool)) : firstMarked l ≤ l.length := List.findIdx_le_length

/-- `l'` has the same first `n` elements as `l`, and then ends or has a marked element. -/
structure Edit (l l' : List (α × Bool)) (n : Nat) : Prop where
  le : n ≤ l.length
  same : l'.take n = l.take n
  next : l'.length = n ∨ ∃ x, l'[n]? = some (x, true)

theorem Edit.first {l l' : List (α × Bool)} {n : Nat} (h : Edit l l' n) : firstMarked l' = min (firstMarked l) n := by
  have e : l' = l.take n ++ l'.drop n := by rw [← h.same, List.take_append_drop]
  have hl : (l.take n).length = n := by rw [List.length_take]; exact min_eq_left h.le
  have hd : (l'.drop n).findIdx (·.2) = 0 := by
    rcases h.next with hn | ⟨x, hx⟩
    · rw [List.drop_eq_nil_of_le (by omega)]; rfl
    · obtain ⟨h1, h2⟩ := List.getElem?_eq_some_iff.1 hx
      rw [List.drop_eq_getElem_cons h1, h2]
      rfl
  unfold firstMarked
  rw [e, List.findIdx_append, hl, hd, List.findIdx_take]
  have := firstMarked_le l
  unfold firstMarked at this
  split <;> omega

theorem Edit.keep {l l' : List (α × Bool)} {n : Nat} (h : Edit l l' n) {i : Nat} (hi : i < firstMarked l') :
    l'[i]? = l[i]? ∧ i < firstMarked l := by
  have := h.first
  have hn : i < n := by omega
  refine ⟨?_, by omega⟩
  rw [← List.getElem?_take_of_lt hn, h.same, List.getElem?_take_of_lt hn]

theorem Edit.refl (l : List (α × Bool)) : Edit l l l.length := ⟨le_refl _, rfl, Or.inl rfl⟩

theorem Edit.append (l : List (α × Bool)) (x : α) : Edit l (l ++ [(x, true)]) l.length :=
  ⟨le_refl _, by simp, Or.inr ⟨x, by simp⟩⟩

theorem Edit.insert (l : List (α × Bool)) (x : α) {i : Nat} (hi : i ≤ l.length) :
    Edit l (l.take i ++ (x, true) :: l.drop i) i := by
  have hl : (l.take i).length = i := by rw [List.length_take]; exact min_eq_left hi
  refine ⟨hi, ?_, Or.inr ⟨x, ?_⟩⟩
  · rw [List.take_append_of_le_length (by omega), List.take_of_length_le (by omega)]
  · rw [List.getElem?_append_right (by omega), hl, Nat.sub_self]; rfl

theorem Edit.set (l : List (α × Bool)) (x : α) {i : Nat} (hi : i < l.length) : Edit l (l.set i (x, true)) i :=
  ⟨by omega, by rw [List.take_set_of_le (le_refl _)], Or.inr ⟨x, by simp [hi]⟩⟩

theorem modify_eq_set (l : List α) (f : α → α) {i : Nat} (hi : i < l.length) : l.modify i f = l.set i (f l[i]) := by
  apply List.ext_getElem?
  intro n
  rw [List.getElem?_modify, List.getElem?_set]
  by_cases h : i = n
  · subst h
    simp [hi]
  · simp [h]

theorem Edit.modify (l : List (α × Bool)) (f : α × Bool → α) {i : Nat} (hi : i < l.length) :
    Edit l (l.modify i fun v => (f v, true)) i := by
  rw [modify_eq_set _ _ hi]
  exact Edit.set l _ hi

theorem Edit.pad (l : List (α × Bool)) (x : α) (n : Nat) : Edit l (pad n x l) (min n l.length) := by
  refine ⟨min_le_right _ _, ?_, ?_⟩
  · unfold Spec.pad
    rw [List.take_append_of_le_length (by rw [List.length_take]), List.take_take, min_eq_left (min_le_left _ _)]
  · unfold Spec.pad
    by_cases h : n ≤ l.length
    · left; simp; omega
    · right
      refine ⟨x, ?_⟩
      rw [List.getElem?_append_right (by rw [List.length_take]), List.length_take, Nat.sub_self, List.getElem?_replicate,
        if_pos (by omega)]

theorem firstMarked_pad (l : List (α × Bool)) (x : α) (n : Nat) : firstMarked (pad n x l) = min (firstMarked l) n := by
  rw [(Edit.pad l x n).first]
  have := firstMarked_le l
  omega

theorem firstMarked_reset (l : List (α × Bool)) : firstMarked (l.map fun v => (v.1, false)) = l.length := by
  unfold firstMarked
  rw [List.findIdx_map]
  have : ((fun x : α × Bool => x.2) ∘ fun v : α × Bool => (v.1, false)) = fun _ => false := rfl
  rw [this, List.findIdx_eq_length]
  intros; rfl

theorem length_pad (l : List (α × Bool)) (x : α) (n : Nat) : (pad n x l).length = n := by
  simp [pad]; omega

theorem map_pad {β : Type} (f : α × Bool → β) (l : List (α × Bool)) (x : α) (n : Nat) :
    (pad n x l).map f = padTo n (f (x, true)) (l.map f) := by
  simp [pad, padTo, List.map_take]

theorem map_modify {β : Type} (g : α × Bool → β) (h : α × Bool → α × Bool) (f : β → β)
    (e : ∀ v, f (g v) = g (h v)) (l : List (α × Bool)) (i : Nat) : (l.map g).modify i f = (l.modify i h).map g := by
  apply List.ext_getElem?
  intro n
  simp only [List.getElem?_modify, List.getElem?_map]
  cases l[n]? with
  | none => rfl
  | some v =>
    simp only [Option.map_some, Option.map_eq_map]
    split
    · rw [e]
    · rfl

end Marks

/-! ## Triangles in a vector of indices -/

def corners (t : Tri) : List Nat := [t.1, t.2.1, t.2.2]

def flat (ts : List Tri) : List Nat := ts.flatMap corners

theorem length_flat (ts : List Tri) : (flat ts).length = 3 * ts.length := by
  rw [flat, length_blocks (k := 3) ts (fun _ _ => rfl)]; ring

theorem flat_take (ts : List Tri) {n : Nat} (h : n ≤ ts.length) : (flat ts).take (3 * n) = flat (ts.take n) := by
  rw [Nat.mul_comm]; exact (take_drop_blocks (k := 3) ts (fun _ _ => rfl) n h).1

theorem flat_drop (ts : List Tri) {n : Nat} (h : n ≤ ts.length) : (flat ts).drop (3 * n) = flat (ts.drop n) := by
  rw [Nat.mul_comm]; exact (take_drop_blocks (k := 3) ts (fun _ _ => rfl) n h).2

theorem flat_get (ts : List Tri) (t k : Nat) (hk : k < 3) : (flat ts)[3 * t + k]? = ts[t]?.bind fun i => View.component i k := by
  by_cases h : t < ts.length
  · have e : (flat ts)[3 * t + k]? = ((flat ts).drop (3 * t))[k]? := by rw [List.getElem?_drop]
    rw [e, flat_drop ts (by omega), List.drop_eq_getElem_cons h, List.getElem?_eq_getElem h]
    simp only [flat, List.flatMap_cons, corners, List.cons_append, List.nil_append, Option.bind_some]
    obtain rfl | rfl | rfl : k = 0 ∨ k = 1 ∨ k = 2 := by omega
    · rfl
    · rfl
    · rfl
  · rw [List.getElem?_eq_none (by rw [length_flat]; omega), List.getElem?_eq_none (by omega)]
    rfl

theorem three_flat (ts : List Tri) (t : Nat) : three (flat ts) (3 * t) = ts[t]? := by
  unfold three
  have h0 := flat_get ts t 0 (by omega)
  rw [Nat.add_zero] at h0
  rw [h0, flat_get ts t 1 (by omega), flat_get ts t 2 (by omega)]
  cases ts[t]? <;> rfl

theorem flat_set (ts : List Tri) {i : Nat} (t : Tri) (h : i < ts.length) :
    (flat ts).take (3 * i) ++ [t.1, t.2.1, t.2.2] ++ (flat ts).drop (3 * i + 3) = flat (ts.set i t) := by
  rw [flat_take ts (by omega), show 3 * i + 3 = 3 * (i + 1) by ring, flat_drop ts (by omega),
    List.set_eq_take_append_cons_drop, if_pos h]
  simp [flat, corners]

theorem flat_insert (ts : List Tri) {i : Nat} (t : Tri) (h : i ≤ ts.length) :
    (flat ts).take (3 * i) ++ [t.1, t.2.1, t.2.2] ++ (flat ts).drop (3 * i) = flat (ts.take i ++ t :: ts.drop i) := by
  rw [flat_take ts h, flat_drop ts h]
  simp [flat, corners]

theorem flat_resize (ts : List Tri) (n : Nat) : resizeVec (3 * n) 0 (flat ts) = flat (padTo n (0, 0, 0) ts) := by
  have := resize_blocks (enc := corners) (k := 3) ts (0, 0, 0) (fun _ _ => rfl) rfl n
  rw [Nat.mul_comm] at this
  exact this

/-! ## Stroke vertices in a mesh -/

/-- The values of the attributes of a vertex. -/
def values (w : ExtrudedVertex) : Mesh.Spec.Vertex :=
  [[w.position.x, w.position.y], [w.attributes.opacity], [w.attributes.hue, w.attributes.saturation, w.attributes.luminosity],
   [w.attributes.sideDerivative.x, w.attributes.sideDerivative.y], [w.attributes.sideLabel.encoded],
   [w.attributes.forwardDerivative.x, w.attributes.forwardDerivative.y], [w.attributes.forwardLabel.encoded],
   [w.attributes.surfaceUv.x, w.attributes.surfaceUv.y]]

/-- The attributes have the numbers of components and the IDs of stroke vertices. -/
def Full (attrs : List (AttrType × AttrId)) : Prop :=
  attrs.map (fun a => (components a.1, a.2)) = [(2, 0), (1, 2), (3, 1), (2, 4), (1, 5), (2, 6), (1, 7), (2, 8)]

theorem Full.cases {attrs : List (AttrType × AttrId)} (h : Full attrs) : ∃ t0 t1 t2 t3 t4 t5 t6 t7,
    attrs = [(t0, 0), (t1, 2), (t2, 1), (t3, 4), (t4, 5), (t5, 6), (t6, 7), (t7, 8)] ∧ components t0 = 2 ∧
    components t1 = 1 ∧ components t2 = 3 ∧ components t3 = 2 ∧ components t4 = 1 ∧ components t5 = 2 ∧ components t6 = 1 ∧
    components t7 = 2 := by
  unfold Full at h
  have hl := congrArg List.length h
  simp only [List.length_map, List.length_cons, List.length_nil] at hl
  match attrs, hl with
  | [(t0, i0), (t1, i1), (t2, i2), (t3, i3), (t4, i4), (t5, i5), (t6, i6), (t7, i7)], _ =>
    simp only [List.map_cons, List.map_nil, List.cons.injEq, Prod.mk.injEq, and_true] at h
    obtain ⟨⟨h0, rfl⟩, ⟨h1, rfl⟩, ⟨h2, rfl⟩, ⟨h3, rfl⟩, ⟨h4, rfl⟩, ⟨h5, rfl⟩, ⟨h6, rfl⟩, h7, rfl⟩ := h
    exact ⟨t0, t1, t2, t3, t4, t5, t6, t7, rfl, h0, h1, h2, h3, h4, h5, h6, h7⟩

theorem full_of_equivalent {attrs : List (AttrType × AttrId)} {ixf : IndexFormat} {f g : MeshFormat}
    (hf : create attrs ixf = some f) (hg : fullFormat = some g) : isUnpackedEquivalent f g = true ↔ Full attrs := by
  rw [(C11_equivalences hf hg).2.1]
  rfl

theorem length_values (w : ExtrudedVertex) : (encVertex (values w)).length = 56 := by
  rw [length_encVertex]; rfl

theorem floats_values (w : ExtrudedVertex) : ∃ fs, encVertex (values w) = fs.flatMap bytesOfFloat ∧ fs.length = 14 ∧
    strokeVertexOfFloats fs = some ⟨w.position, w.attributes⟩ := by
  refine ⟨(values w).flatten, ?_, rfl, rfl⟩
  simp [encVertex, encValue, values]

theorem getFromMesh_rep {m : MutableMesh} {attrs : List (AttrType × AttrId)} {ixf : IndexFormat} {ws : List ExtrudedVertex}
    {ts : List Tri} (R : Rep m ⟨attrs, ixf, ws.map values, ts⟩) (i : Nat) (hi : i < ws.length) :
    getFromMesh m i = some ⟨ws[i].position, ws[i].attributes⟩ := by
  have e : m.vertexData = ws.flatMap fun w => encVertex (values w) := by rw [R.vd]; simp [List.flatMap_map]
  obtain ⟨h1, h2⟩ := take_drop_blocks (enc := fun w => encVertex (values w)) (k := 56) ws (fun w _ => length_values w) i (by omega)
  have hl : ((ws.take i).flatMap fun w => encVertex (values w)).length = i * 56 := by
    rw [length_blocks (k := 56) _ (fun w _ => length_values w), List.length_take, min_eq_left (by omega)]
  have hs : m.vertexData = ((ws.take i).flatMap fun w => encVertex (values w)) ++ encVertex (values ws[i]) ++
      ((ws.drop (i + 1)).flatMap fun w => encVertex (values w)) := by
    rw [e]
    nth_rw 1 [← List.take_append_drop i ws]
    rw [List.flatMap_append, List.drop_eq_getElem_cons hi, List.flatMap_cons, List.append_assoc]
  have hr : readBytes (i * 56) 56 m.vertexData = some (encVertex (values ws[i])) := by
    have := read_block ((ws.take i).flatMap fun w => encVertex (values w)) (encVertex (values ws[i]))
      ((ws.drop (i + 1)).flatMap fun w => encVertex (values w))
    rw [hl, length_values, ← hs] at this
    exact this
  obtain ⟨fs, f1, f2, f3⟩ := floats_values ws[i]
  have hf : floatsOfBytes 14 (encVertex (values ws[i])) = some fs := by
    have := floatsOfBytes_flatMap fs []
    rw [List.append_nil, f2] at this
    rw [f1]; exact this
  unfold getFromMesh
  rw [hr]
  simp only [Option.bind_eq_bind, Option.bind_some]
  rw [hf]
  exact f3

theorem positionOf_values {attrs : List (AttrType × AttrId)} (h : Full attrs) (w : ExtrudedVertex) :
    positionOf attrs (values w) = some (w.position.x, w.position.y) := by
  obtain ⟨t0, t1, t2, t3, t4, t5, t6, t7, rfl, -⟩ := h.cases
  rfl

theorem withPosition_values {attrs : List (AttrType × AttrId)} (h : Full attrs) (w : ExtrudedVertex) (x y : F32) :
    withPosition attrs (values w) x y = values { w with position := ⟨x, y⟩ } := by
  obtain ⟨t0, t1, t2, t3, t4, t5, t6, t7, rfl, -⟩ := h.cases
  rfl

theorem zero_values {attrs : List (AttrType × AttrId)} (h : Full attrs) : zeroVertex attrs = values {} := by
  obtain ⟨t0, t1, t2, t3, t4, t5, t6, t7, rfl, h0, h1, h2, h3, h4, h5, h6, h7⟩ := h.cases
  simp [zeroVertex, values, h0, h1, h2, h3, h4, h5, h6, h7, Vertex.interiorLabel, List.replicate]

theorem vertexOf_values (w : ExtrudedVertex) : vertexOf (values w) = { position := w.position, attributes := w.attributes } := rfl

theorem values_vertexOf {attrs : List (AttrType × AttrId)} (h : Full attrs) {v : Mesh.Spec.Vertex} (hv : Shaped attrs v) :
    values (vertexOf v) = v := by
  obtain ⟨t0, t1, t2, t3, t4, t5, t6, t7, rfl, h0, h1, h2, h3, h4, h5, h6, h7⟩ := h.cases
  unfold Shaped at hv
  simp only [List.map_cons, List.map_nil, h0, h1, h2, h3, h4, h5, h6, h7] at hv
  have hl := congrArg List.length hv
  simp only [List.length_map, List.length_cons, List.length_nil] at hl
  match v, hl with
  | [v0, v1, v2, v3, v4, v5, v6, v7], _ =>
    simp only [List.map_cons, List.map_nil, List.cons.injEq, and_true] at hv
    obtain ⟨e0, e1, e2, e3, e4, e5, e6, e7⟩ := hv
    obtain ⟨_, _, rfl⟩ := List.length_eq_two.1 e0
    obtain ⟨_, rfl⟩ := List.length_eq_one_iff.1 e1
    obtain ⟨_, _, _, rfl⟩ := List.length_eq_three.1 e2
    obtain ⟨_, _, rfl⟩ := List.length_eq_two.1 e3
    obtain ⟨_, rfl⟩ := List.length_eq_one_iff.1 e4
    obtain ⟨_, _, rfl⟩ := List.length_eq_two.1 e5
    obtain ⟨_, rfl⟩ := List.length_eq_one_iff.1 e6
    obtain ⟨_, _, rfl⟩ := List.length_eq_two.1 e7
    rfl

/-- One `SetFloatVertexAttribute`. -/
theorem set_rep {m : MutableMesh} {attrs : List (AttrType × AttrId)} {ixf : IndexFormat} {ws : List ExtrudedVertex}
    {ts : List Tri} (h : Full attrs) (R : Rep m ⟨attrs, ixf, ws.map values, ts⟩) {i j : Nat} (hi : i < ws.length)
    (value : List F32) (f : ExtrudedVertex → ExtrudedVertex)
    (hj : [2, 1, 3, 2, 1, 2, 1, 2][j]? = some value.length) (e : ∀ w, (values w).set j value = values (f w)) :
    ∃ m', m.setFloatVertexAttribute i j value = some m' ∧ Rep m' ⟨attrs, ixf, (ws.modify i f).map values, ts⟩ := by
  have hc : i < (ws.map values).length ∧ attrs[j]?.map (fun a => components a.1) = some value.length := by
    refine ⟨by simpa using hi, ?_⟩
    rw [← hj, ← List.getElem?_map]
    congr 1
    have := congrArg (List.map Prod.fst) h
    rw [List.map_map] at this
    exact this
  have hm : (ws.map values).modify i (fun v => v.set j value) = (ws.modify i f).map values := by
    apply List.ext_getElem?
    intro n
    simp only [List.getElem?_modify, List.getElem?_map]
    cases ws[n]? with
    | none => rfl
    | some v =>
      simp only [Option.map_some, Option.map_eq_map]
      split
      · rw [e]
      · rfl
  have := step_rep R (.setFloatVertexAttribute i j value) (by simp only [MeshState.step]; rw [if_pos hc])
  obtain ⟨m', h1, h2⟩ := this
  exact ⟨m', h1, by rw [← hm]; exact h2⟩

/-- The attributes that `SetNonPositionAttributes` stores. -/
def clampShifts (a : Attributes) : Attributes :=
  { a with
    opacity := Vertex.storedShift a.opacity
    hue := Vertex.storedShift a.hue
    saturation := Vertex.storedShift a.saturation
    luminosity := Vertex.storedShift a.luminosity }

theorem modify_modify {α : Type} (l : List α) (i : Nat) (f g : α → α) : (l.modify i f).modify i g = l.modify i (g ∘ f) := by
  apply List.ext_getElem?
  intro n
  simp only [List.getElem?_modify]
  cases l[n]? with
  | none => rfl
  | some v =>
    simp only [Option.map_some, Option.map_eq_map]
    split <;> rfl

theorem setNonPosition_rep {m : MutableMesh} {attrs : List (AttrType × AttrId)} {ixf : IndexFormat} {ws : List ExtrudedVertex}
    {ts : List Tri} (h : Full attrs) (R : Rep m ⟨attrs, ixf, ws.map values, ts⟩) {i : Nat} (hi : i < ws.length)
    (a : Attributes) :
    ∃ m', setNonPositionAttributes m i a = some m' ∧
      Rep m' ⟨attrs, ixf, (ws.modify i fun w => { w with attributes := clampShifts a }).map values, ts⟩ := by
  obtain ⟨m1, e1, R1⟩ := set_rep h R hi (j := 1) [Vertex.storedShift a.opacity]
    (fun w => { w with attributes := { w.attributes with opacity := Vertex.storedShift a.opacity } }) rfl (fun _ => rfl)
  obtain ⟨m2, e2, R2⟩ := set_rep h R1 (by simpa using hi) (j := 2) [Vertex.storedShift a.hue, Vertex.storedShift a.saturation,
    Vertex.storedShift a.luminosity]
    (fun w => { w with attributes := { w.attributes with
      hue := Vertex.storedShift a.hue, saturation := Vertex.storedShift a.saturation,
      luminosity := Vertex.storedShift a.luminosity } }) rfl (fun _ => rfl)
  obtain ⟨m3, e3, R3⟩ := set_rep h R2 (by simpa using hi) (j := 3) [a.sideDerivative.x, a.sideDerivative.y]
    (fun w => { w with attributes := { w.attributes with sideDerivative := a.sideDerivative } }) rfl (fun _ => rfl)
  obtain ⟨m4, e4, R4⟩ := set_rep h R3 (by simpa using hi) (j := 4) [a.sideLabel.encoded]
    (fun w => { w with attributes := { w.attributes with sideLabel := a.sideLabel } }) rfl (fun _ => rfl)
  obtain ⟨m5, e5, R5⟩ := set_rep h R4 (by simpa using hi) (j := 5) [a.forwardDerivative.x, a.forwardDerivative.y]
    (fun w => { w with attributes := { w.attributes with forwardDerivative := a.forwardDerivative } }) rfl (fun _ => rfl)
  obtain ⟨m6, e6, R6⟩ := set_rep h R5 (by simpa using hi) (j := 6) [a.forwardLabel.encoded]
    (fun w => { w with attributes := { w.attributes with forwardLabel := a.forwardLabel } }) rfl (fun _ => rfl)
  obtain ⟨m7, e7, R7⟩ := set_rep h R6 (by simpa using hi) (j := 7) [a.surfaceUv.x, a.surfaceUv.y]
    (fun w => { w with attributes := { w.attributes with surfaceUv := a.surfaceUv } }) rfl (fun _ => rfl)
  refine ⟨m7, ?_, ?_⟩
  · unfold setNonPositionAttributes
    simp only [e1, e2, e3, e4, e5, e6, e7, Option.bind_eq_bind, Option.bind_some]
  · simp only [modify_modify] at R7
    exact R7

theorem setInMesh_rep {m : MutableMesh} {attrs : List (AttrType × AttrId)} {ixf : IndexFormat} {ws : List ExtrudedVertex}
    {ts : List Tri} (h : Full attrs) (R : Rep m ⟨attrs, ixf, ws.map values, ts⟩) {i : Nat} (hi : i < ws.length)
    (v : StrokeVertex) :
    ∃ m', setInMesh m i v = some m' ∧
      Rep m' ⟨attrs, ixf, (ws.modify i fun w => { w with position := v.position, attributes := clampShifts v.attributes }).map
        values, ts⟩ := by
  have hm : (ws.map values).modify i (fun u => withPosition attrs u v.position.x v.position.y) =
      (ws.modify i fun w => { w with position := v.position }).map values := by
    apply List.ext_getElem?
    intro n
    simp only [List.getElem?_modify, List.getElem?_map]
    cases ws[n]? with
    | none => rfl
    | some v =>
      simp only [Option.map_some, Option.map_eq_map]
      split
      · rw [withPosition_values h]
      · rfl
  obtain ⟨m1, e1, R1⟩ := setPosition_rep R v.position.x v.position.y (i := i) (by simpa using hi)
  simp only [hm] at R1
  obtain ⟨m2, e2, R2⟩ := setNonPosition_rep h R1 (i := i) (by simpa using hi) v.attributes
  refine ⟨m2, ?_, ?_⟩
  · unfold setInMesh
    simp only [e1, Option.bind_eq_bind, Option.bind_some, e2]
  · simp only [modify_modify] at R2
    exact R2

theorem appendToMesh_rep {m : MutableMesh} {attrs : List (AttrType × AttrId)} {ixf : IndexFormat} {ws : List ExtrudedVertex}
    {ts : List Tri} (h : Full attrs) (R : Rep m ⟨attrs, ixf, ws.map values, ts⟩) (hn : ws.length + 1 < maxCount)
    (v : StrokeVertex) :
    ∃ m', appendToMesh m v = some m' ∧
      Rep m' ⟨attrs, ixf, (ws ++ [({ position := v.position, attributes := clampShifts v.attributes } : ExtrudedVertex)]).map values, ts⟩ := by
  have hs : (MeshState.mk attrs ixf (ws.map values) ts).step (.appendVertex v.position.x v.position.y) =
      some ⟨attrs, ixf, (ws ++ [({ position := v.position } : ExtrudedVertex)]).map values, ts⟩ := by
    simp only [MeshState.step]
    rw [if_pos (by simpa using hn), zero_values h, withPosition_values h]
    simp
  obtain ⟨m1, e1, R1⟩ := step_rep R (.appendVertex v.position.x v.position.y) hs
  have hc : u32 (m1.vertexCount + 4294967295) = ws.length := by
    rw [R1.vc]
    simp only [List.length_map, List.length_append, List.length_singleton]
    exact u32_pred hn
  obtain ⟨m2, e2, R2⟩ := setNonPosition_rep h R1 (i := ws.length) (by simp) v.attributes
  refine ⟨m2, ?_, ?_⟩
  · unfold appendToMesh
    change m.appendVertex v.position.x v.position.y = some m1 at e1
    simp only [e1, Option.bind_eq_bind, Option.bind_some, hc, e2]
  · have : (ws ++ [({ position := v.position } : ExtrudedVertex)]).modify ws.length
        (fun w => { w with attributes := clampShifts v.attributes }) =
        ws ++ [{ position := v.position, attributes := clampShifts v.attributes }] := by
      rw [modify_eq_set _ _ (by simp)]
      simp
    rw [this] at R2
    exact R2

end Verif.View
