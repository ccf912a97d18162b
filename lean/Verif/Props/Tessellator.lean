import Verif.Lemmas.Tessellator
import Verif.Props.Mesh
import Mathlib.Order.Interval.Finset.Nat

/-!
# C64: tessellating a polyline keeps the triangles of the tessellator

`C64_tessellate` is about the generic tessellation and `C64_positions` about the positions of its triangles.
`C64_refused` and `C64_mesh` say what `CreateMeshFromPolyline` returns. `C64_many_points_counterexample`: the documented list of
errors is not complete.
-/

set_option autoImplicit false

namespace Verif.Tess

open Verif Verif.Mesh Verif.Tess.Spec

variable {V : Type}

/-- Tessellating never reads out of bounds. Without vertices or if libtess2 fails the result is empty, otherwise it has
exactly the triangles of libtess2. -/
theorem C64_tessellate (lib : Lib) (hlib : Contract lib) (h : Helper V) (edges : List (List V)) (rule : WindingRule) :
    ((edges.headD []) = [] → tessellate lib h edges rule = some ⟨[], []⟩) ∧
    (lib (edges.map fun c => c.map fun v => (h.getX v, h.getY v)) rule = none →
      tessellate lib h edges rule = some ⟨[], []⟩) ∧
    ∀ t, edges.headD [] ≠ [] → lib (edges.map fun c => c.map fun v => (h.getX v, h.getY v)) rule = some t →
      ∃ r, tessellate lib h edges rule = some r ∧ Faithful h t edges.flatten r := by
  match edges with
  | [] => exact ⟨fun _ => rfl, fun _ => rfl, fun t ht => absurd rfl ht⟩
  | [] :: _ => exact ⟨fun _ => rfl, fun _ => rfl, fun t ht => absurd rfl ht⟩
  | (v :: c) :: l =>
    refine ⟨fun h => by simp at h, ?_, ?_⟩
    · intro hl
      simp only [tessellate, hl]
    · intro t _ hl
      simp only [tessellate, hl]
      exact populateResult_faithful h (hlib _ _ _ hl) _

theorem cornerAt_lt {t : Output} {ins : List (F32 × F32)} (w : WellFormed t ins) {c : Nat}
    (hc : c < 3 * t.elementCount) : ∃ o < t.vertices.length, cornerAt t c = some o :=
  w.corner (c / 3) (by omega) c

/-- Each corner of each triangle of the result has the position that libtess2 gave it. -/
theorem C64_positions (lib : Lib) (hlib : Contract lib) (h : Helper V) (hh : Lawful h) (edges : List (List V))
    (rule : WindingRule) (t : Output) (r : Result V)
    (ht : lib (edges.map fun c => c.map fun v => (h.getX v, h.getY v)) rule = some t)
    (hr : tessellate lib h edges rule = some r) (hne : edges.headD [] ≠ []) :
    r.indices.length = 3 * t.elementCount ∧
    ∀ c < 3 * t.elementCount, ∃ o i x, cornerAt t c = some o ∧ r.indices[c]? = some i ∧ r.vertices[i]? = some x ∧
      t.vertices[o]? = some (h.getX x, h.getY x) := by
  have w := hlib _ _ _ ht
  obtain ⟨r', h1, F⟩ := (C64_tessellate lib hlib h edges rule).2.2 t hne ht
  rw [hr] at h1; cases h1
  refine ⟨F.count, fun c hc => ?_⟩
  obtain ⟨o, ho, hco⟩ := cornerAt_lt w hc
  cases hj : inputOf t o with
  | some j =>
    obtain ⟨hjl, hjp⟩ := w.input o j hj
    have hflat : (edges.map fun c => c.map fun v => (h.getX v, h.getY v)).flatten =
        edges.flatten.map fun v => (h.getX v, h.getY v) := by rw [List.map_flatten]
    rw [hflat] at hjl hjp
    rw [List.length_map] at hjl
    have hx := List.getElem?_eq_getElem hjl
    refine ⟨o, j, edges.flatten[j], hco, F.old c o j hc hco hj, ?_, ?_⟩
    · rw [← hx]
      conv_rhs => rw [← F.keeps]
      rw [List.getElem?_take_of_lt hjl]
    · rw [← hjp, List.getElem?_map, hx]; rfl
  | none =>
    obtain ⟨i, i1, i2, i3⟩ := F.new c o hc hco hj
    obtain ⟨c', o', x, y, n, a1, a2, a3, a4, -, a6, -, a8⟩ := F.used i i1 i2
    have : o = o' := (F.shared c o c' o' hc a1 hco a2 hj a3).1 (by rw [i3, a4])
    subst this
    refine ⟨o, i, _, hco, i3, a8, ?_⟩
    rw [hh.populateX, hh.populateY, hh.createX, hh.createY]
    exact a6

theorem mem_newVertices {t : Output} {o : Nat} :
    o ∈ newVertices t ↔ inputOf t o = none ∧ ∃ c < 3 * t.elementCount, cornerAt t c = some o := by
  simp only [newVertices, List.mem_dedup, List.mem_filter, List.mem_filterMap, List.mem_range,
    Option.isNone_iff_eq_none]
  tauto

/-- The number of vertices of the result. -/
theorem vertices_length {h : Helper V} {t : Output} {inputs : List V} {r : Result V} (F : Faithful h t inputs r) :
    r.vertices.length = inputs.length + (newVertices t).length := by
  have hle : inputs.length ≤ r.vertices.length := by
    have := congrArg List.length F.keeps
    simp at this
    exact this
  have key : ∀ o, o ∈ (newVertices t).toFinset → ∃ i c, c < 3 * t.elementCount ∧ cornerAt t c = some o ∧
      inputOf t o = none ∧ inputs.length ≤ i ∧ i < r.vertices.length ∧ r.indices[c]? = some i := by
    intro o ho
    rw [List.mem_toFinset, mem_newVertices] at ho
    obtain ⟨h1, c, h2, h3⟩ := ho
    obtain ⟨i, i1, i2, i3⟩ := F.new c o h2 h3 h1
    exact ⟨i, c, h2, h3, h1, i1, i2, i3⟩
  choose f hf using key
  have hc : (newVertices t).toFinset.card = (Finset.Ico inputs.length r.vertices.length).card := by
    refine Finset.card_bij f ?_ ?_ ?_
    · intro o ho
      obtain ⟨c, -, -, -, h1, h2, -⟩ := hf o ho
      exact Finset.mem_Ico.2 ⟨h1, h2⟩
    · intro o ho o' ho' he
      obtain ⟨c, a1, a2, a3, -, -, a4⟩ := hf o ho
      obtain ⟨c', b1, b2, b3, -, -, b4⟩ := hf o' ho'
      exact (F.shared c o c' o' a1 b1 a2 b2 a3 b3).1 (by rw [a4, b4, he])
    · intro i hi
      obtain ⟨h1, h2⟩ := Finset.mem_Ico.1 hi
      obtain ⟨c, o, x, y, n, a1, a2, a3, a4, -⟩ := F.used i h1 h2
      have ho : o ∈ (newVertices t).toFinset := List.mem_toFinset.2 (mem_newVertices.2 ⟨a3, c, a1, a2⟩)
      refine ⟨o, ho, ?_⟩
      obtain ⟨c', b1, b2, b3, -, -, b4⟩ := hf o ho
      have := (F.shared c o c' o a1 b1 a2 b2 a3 b3).2 rfl
      rw [a4, b4] at this
      exact (Option.some.inj this).symm
  rw [List.toFinset_card_of_nodup (by unfold newVertices; exact List.nodup_dedup _), Nat.card_Ico] at hc
  omega

/-- Fewer than three points, and polylines for which libtess2 has no triangles, are refused. -/
theorem C64_refused (lib : Lib) (hlib : Contract lib) (points : List (F32 × F32)) :
    (points.length < 3 → createMeshFromPolyline lib points = some .tooFewPoints) ∧
    (3 ≤ points.length → lib [points] .nonzero = none → createMeshFromPolyline lib points = some .couldNotTessellate) ∧
    (3 ≤ points.length → ∀ t, lib [points] .nonzero = some t → t.elementCount = 0 →
      createMeshFromPolyline lib points = some .couldNotTessellate) := by
  have hm : ([points].map fun c => c.map fun v => (pointHelper.getX v, pointHelper.getY v)) = [points] := by
    simp [pointHelper]
  have T := C64_tessellate lib hlib pointHelper [points] .nonzero
  rw [hm] at T
  refine ⟨fun h => by simp [createMeshFromPolyline, h], ?_, ?_⟩
  · intro h3 hl
    have hne : points.isEmpty = false := by cases points <;> simp_all
    have := T.2.1 hl
    simp only [createMeshFromPolyline, tessellateContour, hne, this]
    simp [Nat.not_lt.2 h3]
  · intro h3 t hl h0
    have hne : points.isEmpty = false := by cases points <;> simp_all
    obtain ⟨r, h1, F⟩ := T.2.2 t (by cases points <;> simp_all) hl
    have : r.indices = [] := List.length_eq_zero_iff.1 (by rw [F.count, h0])
    simp only [createMeshFromPolyline, tessellateContour, hne, h1]
    simp [Nat.not_lt.2 h3, this]

theorem triples_length : ∀ (n : Nat) (l : List Nat), l.length = 3 * n → (Mesh.Spec.triples l).length = n ∧
    ∀ e < n, ∃ a b c, (Mesh.Spec.triples l)[e]? = some (a, b, c) ∧ l[3 * e]? = some a ∧ l[3 * e + 1]? = some b ∧
      l[3 * e + 2]? = some c
  | 0, l, h => by
    have : l = [] := List.length_eq_zero_iff.1 h
    subst this
    exact ⟨rfl, fun e he => absurd he (Nat.not_lt_zero _)⟩
  | n + 1, l, h => by
    match l, h with
    | a :: b :: c :: l, h =>
      obtain ⟨h1, h2⟩ := triples_length n l (by simp at h; omega)
      refine ⟨by simp [Mesh.Spec.triples, h1], ?_⟩
      intro e he
      cases e with
      | zero => exact ⟨a, b, c, rfl, rfl, rfl, rfl⟩
      | succ e =>
        obtain ⟨x, y, z, k1, k2, k3, k4⟩ := h2 e (by omega)
        refine ⟨x, y, z, by simpa [Mesh.Spec.triples] using k1, ?_, ?_, ?_⟩
        · rw [show 3 * (e + 1) = 3 * e + 3 by omega]; simpa using k2
        · rw [show 3 * (e + 1) + 1 = 3 * e + 1 + 3 by omega]; simpa using k3
        · rw [show 3 * (e + 1) + 2 = 3 * e + 2 + 3 by omega]; simpa using k4
    | [], h => simp at h
    | [a], h => simp at h; omega
    | [a, b], h => simp at h; omega

/-- If libtess2 has triangles, the result is a mesh with exactly those triangles, whose first vertices are the given points, or
an error if there are too many vertices or if one is not finite. -/
theorem C64_mesh (lib : Lib) (hlib : Contract lib) (points : List (F32 × F32)) (h3 : 3 ≤ points.length) (t : Output)
    (ht : lib [points] .nonzero = some t) (h0 : 0 < t.elementCount) :
    (∃ m, createMeshFromPolyline lib points = some (.mesh m) ∧
      points.length + (newVertices t).length ≤ 65536 ∧
      (∀ p ∈ points, p.1.isFinite = true ∧ p.2.isFinite = true) ∧
      (∀ o ∈ newVertices t, ∀ p, t.vertices[o]? = some p → p.1.isFinite = true ∧ p.2.isFinite = true) ∧
      some m.format = defaultFormat ∧
      m.vertexCount = points.length + (newVertices t).length ∧
      (∀ i < points.length, m.vertexPosition i = points[i]?) ∧
      m.triangleCount = t.elementCount ∧
      ∀ e < t.elementCount, ∃ a b c, vertexOf t e 0 = some a ∧ vertexOf t e 1 = some b ∧ vertexOf t e 2 = some c ∧
        ∃ p q r, t.vertices[a]? = some p ∧ t.vertices[b]? = some q ∧ t.vertices[c]? = some r ∧
          m.getTriangle e = some (p, q, r)) ∨
    (createMeshFromPolyline lib points = some .meshError ∧
      (65536 < points.length + (newVertices t).length ∨
       (∃ p ∈ points, ¬ (p.1.isFinite = true ∧ p.2.isFinite = true)) ∨
       ∃ o ∈ newVertices t, ∃ p, t.vertices[o]? = some p ∧ ¬ (p.1.isFinite = true ∧ p.2.isFinite = true))) := by
  have hm : ([points].map fun c => c.map fun v => (pointHelper.getX v, pointHelper.getY v)) = [points] := by
    simp [pointHelper]
  have T := C64_tessellate lib hlib pointHelper [points] .nonzero
  rw [hm] at T
  have hne : points.isEmpty = false := by cases points <;> simp_all
  have hne' : [points].headD [] ≠ [] := by cases points <;> simp_all
  obtain ⟨r, h1, F⟩ := T.2.2 t hne' ht
  have P := (C64_positions lib hlib pointHelper ⟨fun _ _ => rfl, fun _ _ => rfl, fun _ _ _ => rfl, fun _ _ _ => rfl⟩
    [points] .nonzero t r (by rw [hm]; exact ht) h1 hne').2
  have hflat : [points].flatten = points := by simp
  rw [hflat] at F
  have hvl := vertices_length F
  have w := hlib _ _ _ ht
  obtain ⟨f, hf⟩ : ∃ f, Verif.Mesh.create [(.f2Unpacked, kPosition)] .unpacked32 = some f :=
    Option.isSome_iff_exists.1 (by decide +kernel)
  have hpi : f.positionIndex = 0 := by
    have : (Verif.Mesh.create [(.f2Unpacked, kPosition)] .unpacked32).map (·.positionIndex) = some 0 := by decide +kernel
    rw [hf] at this
    exact Option.some.inj this
  have hri : r.indices.isEmpty = false := by
    cases hx : r.indices with
    | nil => have := F.count; rw [hx] at this; simp at this; omega
    | cons a l => rfl
  have hrun : createMeshFromPolyline lib points =
      (Verif.Mesh.Mesh.create f [r.vertices.map Prod.fst, r.vertices.map Prod.snd] r.indices []).bind fun x =>
        match x with | none => some .meshError | some m => some (.mesh m) := by
    simp only [createMeshFromPolyline, tessellateContour, hne, h1, defaultFormat, hf]
    simp only [Nat.not_lt.2 h3, if_false, hri, Option.bind_eq_bind, Option.bind_some, Bool.false_eq_true]
    rfl
  have hnum : Mesh.Spec.numVertices [r.vertices.map Prod.fst, r.vertices.map Prod.snd] = r.vertices.length := by
    simp [Mesh.Spec.numVertices]
  have hpt : ∀ i < points.length, r.vertices[i]? = points[i]? := by
    intro i hi
    conv_rhs => rw [← F.keeps]
    rw [List.getElem?_take_of_lt hi]
  have hfin : (∀ p ∈ r.vertices, p.1.isFinite = true ∧ p.2.isFinite = true) ↔
      (∀ p ∈ points, p.1.isFinite = true ∧ p.2.isFinite = true) ∧
      (∀ o ∈ newVertices t, ∀ p, t.vertices[o]? = some p → p.1.isFinite = true ∧ p.2.isFinite = true) := by
    constructor
    · intro hall
      refine ⟨fun p hp => ?_, fun o ho p hp => ?_⟩
      · rw [← F.keeps] at hp
        exact hall p (List.mem_of_mem_take hp)
      · obtain ⟨ho1, c, hc1, hc2⟩ := mem_newVertices.1 ho
        obtain ⟨o', i, x, a1, a2, a3, a4⟩ := P c hc1
        rw [hc2] at a1; cases a1
        rw [hp] at a4
        cases a4
        exact hall x (List.mem_of_getElem? a3)
    · rintro ⟨k1, k2⟩ p hp
      obtain ⟨i, hi⟩ := List.mem_iff_getElem?.1 hp
      by_cases hlt : i < points.length
      · rw [hpt i hlt] at hi
        exact k1 p (List.mem_of_getElem? hi)
      · obtain ⟨c, o, x, y, n, a1, a2, a3, a4, -, a6, -, a8⟩ :=
          F.used i (Nat.not_lt.1 hlt) (List.getElem?_eq_some_iff.1 hi).1
        rw [hi] at a8
        have : p = (x, y) := Option.some.inj a8
        rw [this]
        exact k2 o (mem_newVertices.2 ⟨a3, c, a1, a2⟩) (x, y) a6
  have hacc : Mesh.Spec.Acceptable [(.f2Unpacked, kPosition)] [r.vertices.map Prod.fst, r.vertices.map Prod.snd] r.indices ↔
      r.vertices.length ≤ 65536 ∧ ∀ p ∈ r.vertices, p.1.isFinite = true ∧ p.2.isFinite = true := by
    constructor
    · intro A
      refine ⟨by rw [← hnum]; exact A.max, fun p hp => ⟨?_, ?_⟩⟩
      · exact A.finite _ (by simp) _ (List.mem_map_of_mem hp)
      · exact A.finite (r.vertices.map Prod.snd) (by simp) _ (List.mem_map_of_mem hp)
    · rintro ⟨k1, k2⟩
      refine ⟨rfl, by rw [hnum]; exact k1, ?_, ?_, ⟨t.elementCount, F.count⟩, ?_⟩
      · intro s hs
        rw [hnum]
        simp only [List.mem_cons, List.not_mem_nil, or_false] at hs
        rcases hs with rfl | rfl <;> simp
      · intro s hs x hx
        simp only [List.mem_cons, List.not_mem_nil, or_false] at hs
        rcases hs with rfl | rfl
        · obtain ⟨p, hp, rfl⟩ := List.mem_map.1 hx
          exact (k2 p hp).1
        · obtain ⟨p, hp, rfl⟩ := List.mem_map.1 hx
          exact (k2 p hp).2
      · intro i hi
        rw [hnum]
        obtain ⟨c, hc⟩ := List.mem_iff_getElem?.1 hi
        have hlt : c < 3 * t.elementCount := by rw [← F.count]; exact (List.getElem?_eq_some_iff.1 hc).1
        obtain ⟨o, i', x, a1, a2, a3, a4⟩ := P c hlt
        rw [hc] at a2; cases a2
        exact (List.getElem?_eq_some_iff.1 a3).1
  have hup : ∀ (j : Nat) (a : AttrType × AttrId), [((.f2Unpacked : AttrType), kPosition)][j]? = some a →
      ¬ Mesh.Spec.IsPacked a.1 := by
    intro j a ha
    have := List.mem_of_getElem? ha
    simp only [List.mem_cons, List.not_mem_nil, or_false] at this
    subst this
    simp [Mesh.Spec.IsPacked, Mesh.Spec.bits]
  by_cases ha : Mesh.Spec.Acceptable [(.f2Unpacked, kPosition)] [r.vertices.map Prod.fst, r.vertices.map Prod.snd] r.indices
  · left
    obtain ⟨hmaxv, hall⟩ := hacc.1 ha
    obtain ⟨q1, q2⟩ := hfin.1 hall
    obtain ⟨u1, u2⟩ := triples_length t.elementCount r.indices F.count
    obtain ⟨m, e1, e2, e3, e4, e5, e6, -⟩ := C40_create_contents_partial hf _ r.indices [] ha
      (by rw [u1]; exact lt_trans w.isInt (by decide)) (Or.inr (Or.inl rfl)) (fun j a h1 h2 => absurd h2 (hup j a h1))
    have hvp : ∀ i, i < r.vertices.length → m.vertexPosition i = r.vertices[i]? := by
      intro i hi
      have := (e6 i 0 (.f2Unpacked, kPosition) (by rw [hnum]; exact hi) rfl).exactly (hup 0 _ rfl)
      unfold Verif.Mesh.Mesh.vertexPosition
      rw [e2, hpi, this]
      simp [Mesh.Spec.valueAt, Mesh.Spec.spansOf, Mesh.Spec.components, hi]
    refine ⟨m, by rw [hrun, e1]; rfl, by rw [← hvl]; exact hmaxv, q1, q2, by rw [e2]; exact hf.symm, by rw [e3, hnum, hvl],
      ?_, by rw [e4, u1], ?_⟩
    · intro i hi
      rw [hvp i (by omega), hpt i hi]
    · intro e he
      obtain ⟨a, b, c, x1, x2, x3, x4⟩ := u2 e he
      have hcorner : ∀ v < 3, ∀ i, r.indices[3 * e + v]? = some i → ∃ o p, vertexOf t e v = some o ∧
          t.vertices[o]? = some p ∧ m.vertexPosition i = some p := by
        intro v hv i hi
        obtain ⟨o, i', x, a1, a2, a3, a4⟩ := P (3 * e + v) (by omega)
        rw [hi] at a2; cases a2
        refine ⟨o, x, ?_, a4, ?_⟩
        · unfold cornerAt at a1
          rw [show (3 * e + v) / 3 = e by omega] at a1
          rw [← a1]; exact vertexOf_mod _ _ _ _ (by omega)
        · rw [hvp i (List.getElem?_eq_some_iff.1 a3).1, a3]
      obtain ⟨oa, pa, y1, y2, y3⟩ := hcorner 0 (by decide) a x2
      obtain ⟨ob, pb, z1, z2, z3⟩ := hcorner 1 (by decide) b x3
      obtain ⟨oc, pc, w1, w2, w3⟩ := hcorner 2 (by decide) c x4
      refine ⟨oa, ob, oc, y1, z1, w1, pa, pb, pc, y2, z2, w2, ?_⟩
      unfold Verif.Mesh.Mesh.getTriangle
      simp only [e5, x1, Option.bind_eq_bind, Option.bind_some, y3, z3, w3]
  · right
    have herr := (C40_create_error_iff hf _ r.indices []).2 (Or.inl ha)
    refine ⟨by rw [hrun, herr]; rfl, ?_⟩
    by_contra hcon
    push Not at hcon
    obtain ⟨k1, k2, k3⟩ := hcon
    exact ha (hacc.2 ⟨by rw [hvl]; exact k1, hfin.2 ⟨k2, k3⟩⟩)

theorem wellFormed_of {t : Output} {ins : List (F32 × F32)}
    (h1 : t.vertexIndices.length = t.vertices.length) (h2 : t.elements.length = 6 * t.elementCount)
    (h3 : t.elementCount < 2 ^ 31)
    (h4 : ∀ e < t.elementCount, ∀ v < 3, ∃ o < t.vertices.length, vertexOf t e v = some o)
    (h5 : ∀ e < t.elementCount, ∀ v < 3, ∀ w < 3, vertexOf t e v = vertexOf t e w → v = w)
    (h6 : ∀ e < t.elementCount, ∀ v < 3, ∀ k ∈ neighborOf t e v, k < t.elementCount ∧
      ∃ u < 3, vertexOf t k u = vertexOf t e (v + 1) ∧ vertexOf t k (u + 1) = vertexOf t e v)
    (h7 : ∀ o < t.vertexIndices.length, ∀ j ∈ inputOf t o, j < ins.length ∧ ins[j]? = t.vertices[o]?) :
    WellFormed t ins := by
  refine ⟨h1, h2, h3, fun e he v => ?_, h5, fun e he v k hk => ?_, fun o j hj => ?_⟩
  · obtain ⟨o, ho, h⟩ := h4 e he (v % 3) (Nat.mod_lt _ (by decide))
    exact ⟨o, ho, by rw [← h]; exact vertexOf_mod _ _ _ _ (by simp)⟩
  · have hk' : neighborOf t e (v % 3) = some k := by rw [← hk]; unfold neighborOf; simp
    obtain ⟨a, u, -, b, c⟩ := h6 e he (v % 3) (Nat.mod_lt _ (by decide)) k hk'
    refine ⟨a, u, b.trans (vertexOf_mod _ _ _ _ (by omega)), c.trans (vertexOf_mod _ _ _ _ (by omega))⟩
  · refine h7 o ?_ j hj
    by_contra hlt
    unfold inputOf at hj
    rw [List.getElem?_eq_none (Nat.not_lt.1 hlt)] at hj
    simp at hj

/-- The documentation (tessellator.h:35-36) gives two reasons for errors. There is a third one: more than 65536 points are
always refused, whatever libtess2 does, also if they are not collinear. -/
theorem C64_many_points_counterexample (points : List (F32 × F32)) (h : 65536 < points.length) (lib : Lib)
    (hlib : Contract lib) (m : Mesh) : createMeshFromPolyline lib points ≠ some (.mesh m) := by
  have R := C64_refused lib hlib points
  cases ht : lib [points] .nonzero with
  | none => rw [R.2.1 (by omega) ht]; simp
  | some t =>
    by_cases h0 : t.elementCount = 0
    · rw [R.2.2 (by omega) t ht h0]; simp
    · rcases C64_mesh lib hlib points (by omega) t ht (by omega) with ⟨_, -, hle, -⟩ | ⟨he, -⟩
      · omega
      · rw [he]; simp

/-! ## Examples -/

section Examples

/-- A polyline that crosses itself at (1, 1). -/
def bowTie : List (F32 × F32) :=
  [(F32.zero, F32.zero), (F32.ofInt 2, F32.ofInt 2), (F32.ofInt 2, F32.zero), (F32.zero, F32.ofInt 2)]

/-- Its two triangles, which share the new vertex. -/
def bowTieOutput : Output where
  vertices := bowTie ++ [(F32.ofInt 1, F32.ofInt 1)]
  vertexIndices := [some 0, some 1, some 2, some 3, none]
  elements := [some 0, some 4, some 3, none, none, none, some 4, some 2, some 1, none, none, none]
  elementCount := 2

/-- A square with a new vertex in the middle, and four triangles around it. -/
def fanOutput : Output where
  vertices := bowTie ++ [(F32.ofInt 1, F32.ofInt 1)]
  vertexIndices := [some 0, some 1, some 2, some 3, none]
  elements := [some 4, some 0, some 1, some 3, none, some 1,
    some 4, some 1, some 2, some 0, none, some 2,
    some 4, some 2, some 3, some 1, none, some 3,
    some 4, some 3, some 0, some 2, none, some 0]
  elementCount := 4

/-- A library that knows one polyline. -/
def oneLib (ps : List (F32 × F32)) (t : Output) : Lib :=
  fun contours _ => if contours = [ps] then some t else none

theorem oneLib_contract {ps : List (F32 × F32)} {t : Output} (w : WellFormed t ps) : Contract (oneLib ps t) := by
  intro contours rule t' h
  unfold oneLib at h
  by_cases hc : contours = [ps]
  · rw [if_pos hc] at h
    cases h
    rw [hc]; simpa using w
  · rw [if_neg hc] at h; simp at h

theorem bowTie_wellFormed : WellFormed bowTieOutput bowTie :=
  wellFormed_of (by decide) (by decide) (by decide) (by decide) (by decide) (by decide) (by decide +kernel)

/-- The hypotheses of `C64_mesh` hold for the bow tie, and its result is a mesh of five vertices and two triangles. -/
example : ∃ m, createMeshFromPolyline (oneLib bowTie bowTieOutput) bowTie = some (.mesh m) ∧ m.vertexCount = 5 ∧
    m.triangleCount = 2 := by
  have h := C64_mesh (oneLib bowTie bowTieOutput) (oneLib_contract bowTie_wellFormed) bowTie (by decide) bowTieOutput
    (by simp [oneLib]) (by decide)
  have hn : newVertices bowTieOutput = [4] := by decide
  rw [hn] at h
  rcases h with ⟨m, h1, -, -, -, -, h2, -, h3, -⟩ | ⟨-, h | ⟨p, hp, h⟩ | ⟨o, ho, p, hp, h⟩⟩
  · exact ⟨m, h1, h2, h3⟩
  · exact absurd h (by decide)
  · exact absurd ((by decide +kernel : ∀ p ∈ bowTie, p.1.isFinite = true ∧ p.2.isFinite = true) p hp) h
  · simp only [List.mem_cons, List.not_mem_nil, or_false] at ho
    subst ho
    have : p = (F32.ofInt 1, F32.ofInt 1) := by
      have h4 : bowTieOutput.vertices[4]? = some (F32.ofInt 1, F32.ofInt 1) := rfl
      rw [h4] at hp; exact (Option.some.inj hp).symm
    subst this
    exact absurd (by decide +kernel) h

theorem fan_wellFormed : WellFormed fanOutput bowTie :=
  wellFormed_of (by decide) (by decide) (by decide) (by decide) (by decide) (by decide) (by decide +kernel)

/-- The new vertex of the fan is between all four corners. -/
example : ∃ n, Around fanOutput 0 0 n ∧
    findNeighbors fanOutput 0 0 =
      some [some 0, some 1, some 2, some 3] := by
  obtain ⟨n, h1, h2⟩ := findNeighbors_around fan_wellFormed (e := 0) (by decide) (v := 0) (by decide)
  exact ⟨n, h2, by decide⟩

/-- More than 65536 points that are not collinear. -/
example : 65536 < (bowTie ++ List.replicate 65533 (F32.zero, F32.zero)).length := by
  rw [List.length_append, List.length_replicate]; decide

/-- Fewer than three points, and a library that never succeeds. -/
example : createMeshFromPolyline (fun _ _ => none) [(F32.zero, F32.zero)] = some .tooFewPoints :=
  (C64_refused (fun _ _ => none) (fun _ _ _ h => by simp at h) _).1 (by decide)

end Examples

end Verif.Tess
