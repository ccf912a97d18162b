import Verif.Lemmas.MutableMeshView

/-!
# C37: views of meshes and their mutation tracking
-/

set_option autoImplicit false

namespace Verif.View

open Verif Verif.Mesh Verif.Mesh.Spec Verif.View.Spec

/-! ## The relation between a view and the specification -/

/-- The fields of a vertex that are not stored are zero. -/
def Plain : Kind → ExtrudedVertex → Prop
  | .legacy, w => w.attributes = {}
  | .mesh _, w => w = { position := w.position, attributes := w.attributes }

def DataRep : Data → Kind → List ExtrudedVertex → List Tri → Prop
  | .legacy vs is, .legacy, ws, ts => vs = ws.map ExtrudedVertex.toLegacy ∧ is = flat ts
  | .mesh m, .mesh ixf, ws, ts => ∃ attrs, Full attrs ∧ Rep m ⟨attrs, ixf, ws.map values, ts⟩
  | _, _, _, _ => False

structure VRep (v : View) (s : State) : Prop where
  fv : v.firstMutatedVertex = firstMarked s.vertices
  ft : v.firstMutatedTriangle = firstMarked s.triangles
  vmax : s.vertices.length < 4294967296
  tmax : s.triangles.length < maxTriangles s.kind
  plain : ∀ w ∈ s.vertices, Plain s.kind w.1
  data : DataRep v.data s.kind (s.vertices.map (·.1)) (s.triangles.map (·.1))

theorem plain_kept (k : Kind) (w : ExtrudedVertex) : Plain k (kept k w) := by cases k <;> rfl

theorem plain_zero (k : Kind) : Plain k {} := by cases k <;> rfl

theorem fits_mesh (ixf : IndexFormat) (t : Tri) : View.Spec.Fits (.mesh ixf) t ↔ IndicesFit ixf t := by
  cases ixf <;> simp [View.Spec.Fits, IndicesFit, indexLimit, indexBytes]

theorem vertexCount_rep {v : View} {s : State} (R : VRep v s) : v.vertexCount = some s.vertices.length := by
  have hd := R.data
  unfold View.vertexCount
  match hv : v.data, hk : s.kind with
  | .legacy vs is, .legacy =>
    rw [hv, hk] at hd
    rw [hd.1]
    simp only [List.length_map]
    rw [u32_of_lt R.vmax]
  | .mesh m, .mesh ixf =>
    rw [hv, hk] at hd
    obtain ⟨attrs, -, hr⟩ := hd
    have := hr.vc
    simp only [List.length_map] at this
    simp only [this]
  | .none, _ | .legacy _ _, .mesh _ | .mesh _, .legacy => rw [hv, hk] at hd; exact hd.elim

theorem triangleCount_rep {v : View} {s : State} (R : VRep v s) : v.triangleCount = some s.triangles.length := by
  have hd := R.data
  have ht := R.tmax
  unfold View.triangleCount
  match hv : v.data, hk : s.kind with
  | .legacy vs is, .legacy =>
    rw [hv, hk] at hd
    rw [hk] at ht
    rw [hd.2]
    simp only [length_flat, List.length_map]
    rw [Nat.mul_div_cancel_left _ (by omega), u32_of_lt]
    simp only [maxTriangles] at ht
    simp only [maxCount]
    omega
  | .mesh m, .mesh ixf =>
    rw [hv, hk] at hd
    obtain ⟨attrs, -, hr⟩ := hd
    have := hr.tc
    simp only [List.length_map] at this
    simp only [this]
  | .none, _ | .legacy _ _, .mesh _ | .mesh _, .legacy => rw [hv, hk] at hd; exact hd.elim

theorem checkVertex_rep {v : View} {s : State} (R : VRep v s) (i : Nat) :
    v.checkVertex i = if i < s.vertices.length then some () else none := by
  unfold View.checkVertex
  rw [vertexCount_rep R]
  rfl

theorem checkTriangle_rep {v : View} {s : State} (R : VRep v s) (i : Nat) :
    v.checkTriangle i = if i < s.triangles.length then some () else none := by
  unfold View.checkTriangle
  rw [triangleCount_rep R]
  rfl

/-! ## Queries -/

theorem toLegacy_fromLegacy (w : ExtrudedVertex) (h : Plain .legacy w) : ExtrudedVertex.fromLegacy w.toLegacy = w := by
  cases w; simp only [Plain] at h; subst h; rfl

theorem shows_rep {v : View} {s : State} (R : VRep v s) : Shows v s := by
  have hd := R.data
  have cv := checkVertex_rep R
  have ct := checkTriangle_rep R
  have hp := R.plain
  have ht := R.tmax
  have hpos : ∀ i : Nat, v.getPosition i = s.vertices[i]?.map (·.1.position) := by
    intro i
    unfold View.getPosition
    rw [cv]
    by_cases hi : i < s.vertices.length
    · rw [if_pos hi, List.getElem?_eq_getElem hi]
      simp only [Option.bind_eq_bind, Option.bind_some, Option.map_some]
      match hv : v.data, hk : s.kind with
      | .legacy vs is, .legacy =>
        rw [hv, hk] at hd
        rw [hd.1]
        simp [hi, ExtrudedVertex.toLegacy]
      | .mesh m, .mesh ixf =>
        rw [hv, hk] at hd
        obtain ⟨attrs, hf, hr⟩ := hd
        simp only [vertexPosition_rep hr]
        simp [hi, positionOf_values hf]
      | .none, _ | .legacy _ _, .mesh _ | .mesh _, .legacy => rw [hv, hk] at hd; exact hd.elim
    · rw [if_neg hi, List.getElem?_eq_none (by omega)]; rfl
  have hind : ∀ t : Nat, v.getTriangleIndices t = s.triangles[t]?.map (·.1) := by
    intro t
    unfold View.getTriangleIndices
    rw [ct]
    by_cases hi : t < s.triangles.length
    · rw [if_pos hi]
      simp only [Option.bind_eq_bind, Option.bind_some]
      match hv : v.data, hk : s.kind with
      | .legacy vs is, .legacy =>
        rw [hv, hk] at hd
        rw [hk] at ht
        simp only [maxTriangles] at ht
        rw [hd.2]
        simp only
        rw [u32_of_lt (by unfold maxCount; omega), three_flat, List.getElem?_map]
      | .mesh m, .mesh ixf =>
        rw [hv, hk] at hd
        obtain ⟨attrs, hf, hr⟩ := hd
        simp only [triangleIndices_rep hr, List.getElem?_map]
      | .none, _ | .legacy _ _, .mesh _ | .mesh _, .legacy => rw [hv, hk] at hd; exact hd.elim
    · rw [if_neg hi, List.getElem?_eq_none (by omega)]; rfl
  have hvert : ∀ i : Nat, v.getVertex i = s.vertices[i]?.map (·.1) := by
    intro i
    unfold View.getVertex
    rw [cv]
    by_cases hi : i < s.vertices.length
    · rw [if_pos hi, List.getElem?_eq_getElem hi]
      simp only [Option.bind_eq_bind, Option.bind_some, Option.map_some]
      have hpi := hp _ (List.getElem_mem hi)
      match hv : v.data, hk : s.kind with
      | .legacy vs is, .legacy =>
        rw [hv, hk] at hd
        rw [hk] at hpi
        rw [hd.1]
        simp [hi, toLegacy_fromLegacy _ hpi]
      | .mesh m, .mesh ixf =>
        rw [hv, hk] at hd
        rw [hk] at hpi
        obtain ⟨attrs, hf, hr⟩ := hd
        simp only [getFromMesh_rep hr i (by simpa using hi), Option.map_some, List.getElem_map]
        exact congrArg some hpi.symm
      | .none, _ | .legacy _ _, .mesh _ | .mesh _, .legacy => rw [hv, hk] at hd; exact hd.elim
    · rw [if_neg hi, List.getElem?_eq_none (by omega)]; rfl
  refine ⟨vertexCount_rep R, triangleCount_rep R, hpos, hvert, ?_, ?_, ?_, ?_, hind, ?_, ?_, R.fv, R.ft⟩
  all_goals intro i
  iterate 4
    · simp only [View.getSideDerivative, View.getForwardDerivative, View.getSideLabel, View.getForwardLabel]
      rw [cv]
      by_cases hi : i < s.vertices.length
      · rw [if_pos hi, List.getElem?_eq_getElem hi]
        simp only [Option.bind_eq_bind, Option.bind_some, Option.map_some]
        have hpi := hp _ (List.getElem_mem hi)
        match hv : v.data, hk : s.kind with
        | .legacy vs is, .legacy =>
          rw [hk] at hpi
          simp only [Plain] at hpi
          simp only [hpi]
        | .mesh m, .mesh ixf =>
          rw [hv, hk] at hd
          obtain ⟨attrs, hf, hr⟩ := hd
          simp only [getFromMesh_rep hr i (by simpa using hi), Option.map_some, List.getElem_map]
        | .none, _ | .legacy _ _, .mesh _ | .mesh _, .legacy => rw [hv, hk] at hd; exact hd.elim
      · rw [if_neg hi, List.getElem?_eq_none (by omega)]; rfl
  · have gen : ∀ k, k < 3 → v.getVertexIndex i k = (s.triangles[i]?.map (·.1)).bind fun t => View.component t k := by
      intro k hk3
      unfold View.getVertexIndex
      rw [ct, if_pos hk3]
      by_cases hi : i < s.triangles.length
      · rw [if_pos hi]
        simp only [Option.bind_eq_bind, Option.bind_some]
        match hv : v.data, hk : s.kind with
        | .legacy vs is, .legacy =>
          rw [hv, hk] at hd
          rw [hk] at ht
          simp only [maxTriangles] at ht
          rw [hd.2]
          simp only
          rw [u32_of_lt (by unfold maxCount; omega), flat_get _ _ _ hk3, List.getElem?_map]
        | .mesh m, .mesh ixf =>
          rw [hv, hk] at hd
          obtain ⟨attrs, hf, hr⟩ := hd
          simp only [triangleIndices_rep hr, List.getElem?_map]
        | .none, _ | .legacy _ _, .mesh _ | .mesh _, .legacy => rw [hv, hk] at hd; exact hd.elim
      · rw [if_neg hi, List.getElem?_eq_none (by omega)]; rfl
    refine ⟨?_, ?_, ?_⟩
    · rw [gen 0 (by omega)]; cases s.triangles[i]? <;> rfl
    · rw [gen 1 (by omega)]; cases s.triangles[i]? <;> rfl
    · rw [gen 2 (by omega)]; cases s.triangles[i]? <;> rfl
  · unfold View.getTriangle
    rw [ct]
    by_cases hi : i < s.triangles.length
    · rw [if_pos hi]
      simp only [Option.bind_eq_bind, Option.bind_some]
      match hv : v.data, hk : s.kind with
      | .legacy vs is, .legacy =>
        simp only [hind, hpos, List.getElem?_eq_getElem hi, Option.map_some, Option.bind_some]
        cases s.vertices[s.triangles[i].1.1]? with
        | none => rfl
        | some a =>
          cases s.vertices[s.triangles[i].1.2.1]? with
          | none => rfl
          | some b =>
            cases s.vertices[s.triangles[i].1.2.2]? with
            | none => rfl
            | some c => rfl
      | .mesh m, .mesh ixf =>
        rw [hv, hk] at hd
        obtain ⟨attrs, hf, hr⟩ := hd
        have e : ∀ j : Nat, m.vertexPosition j = s.vertices[j]?.map fun w => (w.1.position.x, w.1.position.y) := by
          intro j
          rw [vertexPosition_rep hr]
          simp only [List.getElem?_map]
          cases s.vertices[j]? with
          | none => rfl
          | some w => simp [positionOf_values hf]
        simp only [MutableMesh.getTriangle, triangleIndices_rep hr, e, List.getElem?_map, List.getElem?_eq_getElem hi,
          Option.map_some, Option.bind_some, Option.bind_eq_bind]
        cases s.vertices[s.triangles[i].1.1]? with
        | none => rfl
        | some a =>
          cases s.vertices[s.triangles[i].1.2.1]? with
          | none => rfl
          | some b =>
            cases s.vertices[s.triangles[i].1.2.2]? with
            | none => rfl
            | some c => rfl
      | .none, _ | .legacy _ _, .mesh _ | .mesh _, .legacy => rw [hv, hk] at hd; exact hd.elim
    · rw [if_neg hi, List.getElem?_eq_none (by omega)]; rfl

/-! ## Calls -/

theorem mem_modify {α : Type} {l : List α} {i : Nat} {f : α → α} {x : α} (h : x ∈ l.modify i f) :
    x ∈ l ∨ ∃ y ∈ l, x = f y := by
  obtain ⟨n, hn⟩ := List.mem_iff_getElem?.1 h
  rw [List.getElem?_modify] at hn
  cases hl : l[n]? with
  | none => rw [hl] at hn; cases hn
  | some y =>
    rw [hl] at hn
    simp only [Option.map_eq_map, Option.map_some, Option.some.injEq] at hn
    have := List.mem_of_getElem? hl
    split at hn
    · exact Or.inr ⟨y, this, hn.symm⟩
    · exact Or.inl (hn ▸ this)

theorem modify_values (l : List (ExtrudedVertex × Bool)) (i : Nat) (f : ExtrudedVertex → ExtrudedVertex)
    (g : ExtrudedVertex × Bool → ExtrudedVertex × Bool) (h : ∀ v, values (f v.1) = values (g v).1) :
    ((l.map (·.1)).modify i f).map values = (l.modify i g).map fun v => values v.1 := by
  apply List.ext_getElem?
  intro n
  simp only [List.getElem?_modify, List.getElem?_map]
  cases l[n]? with
  | none => rfl
  | some v =>
    simp only [Option.map_some, Option.map_eq_map]
    split
    · rw [h]
    · rfl

/-- The setters of one attribute. -/
theorem update_rep {v : View} {s s' : State} (R : VRep v s) {i : Nat} (j : Nat) (value : List F32)
    (f : Attributes → Attributes) (hj : [2, 1, 3, 2, 1, 2, 1, 2][j]? = some value.length)
    (e : ∀ w : ExtrudedVertex, (values w).set j value = values { w with attributes := f w.attributes })
    (hs : s.update i f = some s') :
    ∃ v', (do
      v.checkVertex i
      match v.data with
      | .none => none
      | .legacy _ _ => some v
      | .mesh m => (m.setFloatVertexAttribute i j value).map fun m => v.touchVertex i (.mesh m)) = some v' ∧ VRep v' s' := by
  have hd := R.data
  unfold State.update at hs
  by_cases hi : i < s.vertices.length
  · rw [if_pos hi] at hs
    rw [checkVertex_rep R, if_pos hi]
    simp only [Option.bind_eq_bind, Option.bind_some]
    match hv : v.data, hk : s.kind with
    | .legacy vs is, .legacy =>
      rw [hk] at hs
      cases hs
      exact ⟨v, rfl, R⟩
    | .mesh m, .mesh ixf =>
      rw [hk] at hs
      cases hs
      rw [hv, hk] at hd
      have P := R.plain
      have T := R.tmax
      rw [hk] at P T
      obtain ⟨attrs, hf, hr⟩ := hd
      obtain ⟨m', h1, h2⟩ := set_rep hf hr (i := i) (by simpa using hi) value _ hj e
      refine ⟨v.touchVertex i (.mesh m'), by simp only [h1, Option.map_some], ?_, R.ft, by simpa using R.vmax,
        by simpa using T, ?_, ?_⟩
      · simp only [View.touchVertex]
        rw [(Edit.modify s.vertices (fun v => { v.1 with attributes := f v.1.attributes }) hi).first, R.fv]
      · intro w hw
        simp only at hw ⊢
        rcases mem_modify hw with hw | ⟨y, hy, rfl⟩
        · exact P w hw
        · have := P y hy
          simp only [Plain] at this ⊢
          rw [this]
      · simp only [View.touchVertex]
        refine ⟨attrs, hf, ?_⟩
        rw [modify_values s.vertices i _ (fun v => ({ v.1 with attributes := f v.1.attributes }, true)) (fun _ => rfl)] at h2
        rw [List.map_map]
        exact h2
    | .none, _ | .legacy _ _, .mesh _ | .mesh _, .legacy => rw [hv, hk] at hd; exact hd.elim
  · rw [if_neg hi] at hs; cases hs

theorem vstep_rep {v : View} {s s' : State} (R : VRep v s) (op : Op) (hs : s.step op = some s') :
    ∃ v', v.step op = some v' ∧ VRep v' s' := by
  have hd := R.data
  have ht := R.tmax
  cases op with
  | appendVertex w =>
    simp only [State.step] at hs
    split at hs
    · rename_i hn
      cases hs
      simp only [View.step, View.appendVertex]
      have hfv : firstMarked s.vertices = firstMarked (s.vertices ++ [(kept s.kind w, true)]) := by
        rw [(Edit.append s.vertices (kept s.kind w)).first, min_eq_left (firstMarked_le _)]
      have hpl : ∀ u ∈ s.vertices ++ [(kept s.kind w, true)], Plain s.kind u.1 := by
        intro u hu
        rcases List.mem_append.1 hu with hu | hu
        · exact R.plain u hu
        · rw [List.mem_singleton.1 hu]; exact plain_kept _ _
      match hv : v.data, hk : s.kind with
      | .legacy vs is, .legacy =>
        rw [hv, hk] at hd
        have P := R.plain
        have T := R.tmax
        rw [hk] at P T
        rw [hk] at hfv hpl
        refine ⟨_, rfl, R.fv.trans hfv, R.ft, by simpa using hn, by simpa using T, hpl, ?_⟩
        refine ⟨?_, hd.2⟩
        rw [hd.1]
        simp [kept, ExtrudedVertex.toLegacy]
      | .mesh m, .mesh ixf =>
        rw [hv, hk] at hd
        have P := R.plain
        have T := R.tmax
        rw [hk] at P T
        rw [hk] at hfv hpl
        obtain ⟨attrs, hf, hr⟩ := hd
        obtain ⟨m', h1, h2⟩ := appendToMesh_rep hf hr (by simpa [maxCount] using hn) ⟨w.position, w.attributes⟩
        refine ⟨{ v with data := .mesh m' }, by simp only [h1, Option.map_some], R.fv.trans hfv, R.ft, by simpa using hn,
          by simpa using T, hpl, ?_⟩
        refine ⟨attrs, hf, ?_⟩
        rw [List.map_append]
        exact h2
      | .none, _ | .legacy _ _, .mesh _ | .mesh _, .legacy => rw [hv, hk] at hd; exact hd.elim
    · cases hs
  | appendTriangleIndices t =>
    simp only [State.step] at hs
    split at hs
    · rename_i hn
      cases hs
      simp only [View.step, View.appendTriangleIndices]
      have hft : firstMarked s.triangles = firstMarked (s.triangles ++ [(t, true)]) := by
        rw [(Edit.append s.triangles t).first, min_eq_left (firstMarked_le _)]
      match hv : v.data, hk : s.kind with
      | .legacy vs is, .legacy =>
        rw [hv, hk] at hd
        have P := R.plain
        have T := R.tmax
        rw [hk] at P T
        rw [hk] at hn
        refine ⟨_, rfl, R.fv, R.ft.trans hft, R.vmax, by simpa using hn.1, P, ?_⟩
        refine ⟨hd.1, ?_⟩
        rw [hd.2]
        simp [flat, corners]
      | .mesh m, .mesh ixf =>
        rw [hv, hk] at hd
        have P := R.plain
        have T := R.tmax
        rw [hk] at P T
        obtain ⟨attrs, hf, hr⟩ := hd
        obtain ⟨h1, h2⟩ := hn
        rw [hk] at h1 h2
        obtain ⟨m', e1, e2⟩ := step_rep hr (.appendTriangleIndices t)
          (by simp only [MeshState.step]; rw [if_pos ⟨by simpa [maxCount, maxTriangles] using h1, (fits_mesh ixf t).1 h2⟩])
        change m.appendTriangleIndices t = some m' at e1
        refine ⟨{ v with data := .mesh m' }, by simp only [e1, Option.map_some], R.fv, R.ft.trans hft, R.vmax,
          by simpa using h1, P, ?_⟩
        refine ⟨attrs, hf, ?_⟩
        simpa using e2
      | .none, _ | .legacy _ _, .mesh _ | .mesh _, .legacy => rw [hv, hk] at hd; exact hd.elim
    · cases hs
  | setVertex i w =>
    simp only [State.step] at hs
    split at hs
    · rename_i hn
      cases hs
      simp only [View.step, View.setVertex]
      rw [checkVertex_rep R, if_pos hn]
      simp only [Option.bind_eq_bind, Option.bind_some]
      have hfv : min v.firstMutatedVertex i = firstMarked (s.vertices.set i (kept s.kind w, true)) := by
        rw [(Edit.set s.vertices (kept s.kind w) hn).first, R.fv]
      have hpl : ∀ u ∈ s.vertices.set i (kept s.kind w, true), Plain s.kind u.1 := by
        intro u hu
        rcases List.mem_or_eq_of_mem_set hu with hu | rfl
        · exact R.plain u hu
        · exact plain_kept _ _
      match hv : v.data, hk : s.kind with
      | .legacy vs is, .legacy =>
        rw [hv, hk] at hd
        have P := R.plain
        have T := R.tmax
        rw [hk] at P T
        rw [hk] at hfv hpl
        refine ⟨_, rfl, hfv, R.ft, by simpa using R.vmax, by simpa using T, hpl, ?_⟩
        simp only [View.touchVertex]
        refine ⟨?_, hd.2⟩
        rw [hd.1]
        simp [List.map_set, kept, ExtrudedVertex.toLegacy]
      | .mesh m, .mesh ixf =>
        rw [hv, hk] at hd
        have P := R.plain
        have T := R.tmax
        rw [hk] at P T
        rw [hk] at hfv hpl
        obtain ⟨attrs, hf, hr⟩ := hd
        obtain ⟨m', h1, h2⟩ := setInMesh_rep hf hr (i := i) (by simpa using hn) ⟨w.position, w.attributes⟩
        refine ⟨v.touchVertex i (.mesh m'), by simp only [h1, Option.map_some], hfv, R.ft, by simpa using R.vmax,
          by simpa using T, hpl, ?_⟩
        simp only [View.touchVertex]
        refine ⟨attrs, hf, ?_⟩
        rw [modify_values s.vertices i _ (fun _ => (kept (.mesh ixf) w, true)) (fun _ => rfl), modify_eq_set _ _ hn] at h2
        rw [List.map_map]
        exact h2
      | .none, _ | .legacy _ _, .mesh _ | .mesh _, .legacy => rw [hv, hk] at hd; exact hd.elim
    · cases hs
  | setSideDerivative i d => exact update_rep R 3 [d.x, d.y] (fun a => { a with sideDerivative := d }) rfl (fun _ => rfl) hs
  | setForwardDerivative i d => exact update_rep R 5 [d.x, d.y] (fun a => { a with forwardDerivative := d }) rfl (fun _ => rfl) hs
  | setSideLabel i l => exact update_rep R 4 [l.encoded] (fun a => { a with sideLabel := l }) rfl (fun _ => rfl) hs
  | setForwardLabel i l => exact update_rep R 6 [l.encoded] (fun a => { a with forwardLabel := l }) rfl (fun _ => rfl) hs
  | setTriangleIndices i t =>
    simp only [State.step] at hs
    split at hs
    · rename_i hn
      obtain ⟨hn, hfit⟩ := hn
      cases hs
      simp only [View.step, View.setTriangleIndices]
      rw [checkTriangle_rep R, if_pos hn]
      simp only [Option.bind_eq_bind, Option.bind_some]
      have hft : min v.firstMutatedTriangle i = firstMarked (s.triangles.set i (t, true)) := by
        rw [(Edit.set s.triangles t hn).first, R.ft]
      match hv : v.data, hk : s.kind with
      | .legacy vs is, .legacy =>
        rw [hv, hk] at hd
        have P := R.plain
        have T := R.tmax
        rw [hk] at P T
        have ht' := T
        simp only [maxTriangles] at ht'
        obtain ⟨d1, rfl⟩ := hd
        have hu : u32 (3 * i) = 3 * i := u32_of_lt (by unfold maxCount; omega)
        simp only [hu]
        rw [if_pos (by rw [length_flat, List.length_map]; omega)]
        refine ⟨_, rfl, R.fv, hft, R.vmax, by simpa using T, P, ?_⟩
        simp only [View.touchTriangle]
        refine ⟨d1, ?_⟩
        rw [flat_set _ _ (by simpa using hn), List.map_set]
      | .mesh m, .mesh ixf =>
        rw [hv, hk] at hd
        have P := R.plain
        have T := R.tmax
        rw [hk] at P T
        obtain ⟨attrs, hf, hr⟩ := hd
        rw [hk] at hfit
        obtain ⟨m', e1, e2⟩ := step_rep hr (.setTriangleIndices i t)
          (by simp only [MeshState.step]; rw [if_pos ⟨by simpa using hn, (fits_mesh ixf t).1 hfit⟩])
        change m.setTriangleIndices i t = some m' at e1
        refine ⟨v.touchTriangle i (.mesh m'), by simp only [e1, Option.map_some], R.fv, hft, R.vmax,
          by simpa using T, P, ?_⟩
        simp only [View.touchTriangle]
        refine ⟨attrs, hf, ?_⟩
        simpa [List.map_set] using e2
      | .none, _ | .legacy _ _, .mesh _ | .mesh _, .legacy => rw [hv, hk] at hd; exact hd.elim
    · cases hs
  | insertTriangleIndices i t =>
    simp only [State.step] at hs
    split at hs
    · rename_i hn
      obtain ⟨hn, hmax, hfit⟩ := hn
      cases hs
      simp only [View.step, View.insertTriangleIndices]
      rw [triangleCount_rep R]
      simp only [Option.bind_eq_bind, Option.bind_some]
      rw [if_pos hn]
      have hft : min v.firstMutatedTriangle i = firstMarked (s.triangles.take i ++ (t, true) :: s.triangles.drop i) := by
        rw [(Edit.insert s.triangles t hn).first, R.ft]
      have hl : (s.triangles.take i ++ (t, true) :: s.triangles.drop i).length = s.triangles.length + 1 := by
        simp; omega
      match hv : v.data, hk : s.kind with
      | .legacy vs is, .legacy =>
        rw [hv, hk] at hd
        have P := R.plain
        have T := R.tmax
        rw [hk] at P T
        have ht' := T
        simp only [maxTriangles] at ht'
        obtain ⟨d1, rfl⟩ := hd
        have hu : u32 (3 * i) = 3 * i := u32_of_lt (by unfold maxCount; omega)
        simp only [hu]
        rw [if_pos (by rw [length_flat, List.length_map]; omega)]
        refine ⟨_, rfl, R.fv, hft, R.vmax, by simp only [hl]; rw [hk] at hmax; exact hmax, P, ?_⟩
        simp only [View.touchTriangle]
        refine ⟨d1, ?_⟩
        rw [flat_insert _ _ (by simpa using hn)]
        simp [List.map_take, List.map_drop]
      | .mesh m, .mesh ixf =>
        rw [hv, hk] at hd
        have P := R.plain
        have T := R.tmax
        rw [hk] at P T
        obtain ⟨attrs, hf, hr⟩ := hd
        rw [hk] at hfit hmax
        obtain ⟨m', e1, e2⟩ := step_rep hr (.insertTriangleIndices i t)
          (by simp only [MeshState.step]; rw [if_pos ⟨by simpa using hn, by simpa [maxCount, maxTriangles] using hmax, (fits_mesh ixf t).1 hfit⟩])
        change m.insertTriangleIndices i t = some m' at e1
        refine ⟨v.touchTriangle i (.mesh m'), by simp only [e1, Option.map_some], R.fv, hft, R.vmax,
          by simp only [hl]; exact hmax, P, ?_⟩
        simp only [View.touchTriangle]
        refine ⟨attrs, hf, ?_⟩
        simpa [List.map_take, List.map_drop] using e2
      | .none, _ | .legacy _ _, .mesh _ | .mesh _, .legacy => rw [hv, hk] at hd; exact hd.elim
    · cases hs
  | resize nv nt =>
    simp only [State.step] at hs
    split at hs
    · rename_i hn
      obtain ⟨hnv, hnt⟩ := hn
      cases hs
      simp only [View.step, View.resize]
      have hfv : min v.firstMutatedVertex nv = firstMarked (pad nv {} s.vertices) := by rw [firstMarked_pad, R.fv]
      have hft : min v.firstMutatedTriangle nt = firstMarked (pad nt (0, 0, 0) s.triangles) := by rw [firstMarked_pad, R.ft]
      have hpl : ∀ u ∈ pad nv {} s.vertices, Plain s.kind u.1 := by
        intro u hu
        rcases List.mem_append.1 hu with hu | hu
        · exact R.plain u (List.mem_of_mem_take hu)
        · rw [(List.mem_replicate.1 hu).2]; exact plain_zero _
      match hv : v.data, hk : s.kind with
      | .legacy vs is, .legacy =>
        rw [hv, hk] at hd
        have P := R.plain
        have T := R.tmax
        rw [hk] at P T
        have hnt' := hnt
        rw [hk] at hnt' hpl
        have hu : u32 (3 * nt) = 3 * nt := u32_of_lt (by simp only [maxTriangles] at hnt'; unfold maxCount; omega)
        refine ⟨_, rfl, hfv, hft, by simp only [length_pad]; exact hnv, by simp only [length_pad]; exact hnt', hpl, ?_⟩
        simp only [map_pad]
        refine ⟨?_, ?_⟩
        · rw [hd.1]
          simp [resizeVec, padTo, List.map_take, ExtrudedVertex.toLegacy]
        · rw [hu, hd.2, flat_resize]
      | .mesh m, .mesh ixf =>
        rw [hv, hk] at hd
        have P := R.plain
        have T := R.tmax
        rw [hk] at P T
        obtain ⟨attrs, hf, hr⟩ := hd
        have hnt' := hnt
        rw [hk] at hnt' hpl
        obtain ⟨m', e1, e2⟩ := step_rep hr (.resize nv nt)
          (by simp only [MeshState.step]; rw [if_pos ⟨hnv, hnt'⟩])
        change some (m.resize nv nt) = some m' at e1
        cases e1
        refine ⟨_, rfl, hfv, hft, by simp only [length_pad]; exact hnv, by simp only [length_pad]; exact hnt', hpl, ?_⟩
        simp only [map_pad]
        refine ⟨attrs, hf, ?_⟩
        have e : (padTo nv ({} : ExtrudedVertex) (s.vertices.map (·.1))).map values =
            padTo nv (zeroVertex attrs) ((s.vertices.map (·.1)).map values) := by
          simp [padTo, List.map_take, zero_values hf]
        rw [e]
        exact e2
      | .none, _ | .legacy _ _, .mesh _ | .mesh _, .legacy => rw [hv, hk] at hd; exact hd.elim
    · cases hs
  | resetMutationTracking =>
    cases hs
    simp only [View.step, View.resetMutationTracking, vertexCount_rep R, triangleCount_rep R, Option.bind_eq_bind,
      Option.bind_some]
    refine ⟨_, rfl, (firstMarked_reset _).symm, (firstMarked_reset _).symm, by simpa using R.vmax, by simpa using R.tmax, ?_, ?_⟩
    · intro w hw
      obtain ⟨u, hu, rfl⟩ := List.mem_map.1 hw
      exact R.plain u hu
    · simp only [List.map_map]
      exact hd

theorem vrun_rep {v : View} {s s' : State} (R : VRep v s) (ops : List Op) (hs : s.run ops = some s') :
    ∃ v', v.run ops = some v' ∧ VRep v' s' := by
  induction ops generalizing v s with
  | nil => cases hs; exact ⟨v, rfl, R⟩
  | cons op ops ih =>
    simp only [State.run] at hs
    cases h1 : s.step op with
    | none => rw [h1] at hs; cases hs
    | some s1 =>
      rw [h1] at hs
      obtain ⟨v1, e1, R1⟩ := vstep_rep R op h1
      obtain ⟨v2, e2, R2⟩ := ih R1 hs
      exact ⟨v2, by simp only [View.run, e1, Option.bind_some, e2], R2⟩

/-! ## New views -/

theorem fullFormat_some : ∃ g, fullFormat = some g := by
  have : fullFormat.isSome = true := by decide +kernel
  exact Option.isSome_iff_exists.1 this

theorem ofMesh_rep {m : MutableMesh} {ms : MeshState} (R : Rep m ms) (hf : Full ms.attrs) :
    ∃ v, View.ofMesh m = some v ∧ VRep v (Spec.ofMesh ms) := by
  obtain ⟨g, hg⟩ := fullFormat_some
  have hd : DataRep (.mesh m) (.mesh ms.ixf) ((Spec.ofMesh ms).vertices.map (·.1)) ((Spec.ofMesh ms).triangles.map (·.1)) := by
    refine ⟨ms.attrs, hf, ?_⟩
    have e1 : ((Spec.ofMesh ms).vertices.map (·.1)).map values = ms.vertices := by
      simp only [Spec.ofMesh, List.map_map]
      conv_rhs => rw [← List.map_id ms.vertices]
      apply List.map_congr_left
      intro v hv
      exact values_vertexOf hf (R.shape v hv)
    have e2 : (Spec.ofMesh ms).triangles.map (·.1) = ms.triangles := by
      simp only [Spec.ofMesh, List.map_map]
      conv_rhs => rw [← List.map_id ms.triangles]
      rfl
    rw [e1, e2]
    exact R
  have hl := R.vc
  have hl2 := R.tc
  refine ⟨{ data := .mesh m, firstMutatedVertex := m.vertexCount, firstMutatedTriangle := m.triangleCount }, ?_, ?_, ?_, ?_, ?_, ?_, hd⟩
  · unfold View.ofMesh
    rw [hg]
    simp only [Option.bind_eq_bind, Option.bind_some, (full_of_equivalent R.fmt hg).2 hf, if_true]
    rfl
  · simp only [Spec.ofMesh]
    rw [hl]
    have := firstMarked_reset (ms.vertices.map fun v => (vertexOf v, true))
    rw [List.map_map, List.length_map] at this
    exact this.symm
  · simp only [Spec.ofMesh]
    rw [hl2]
    have := firstMarked_reset (ms.triangles.map fun v => (v, true))
    rw [List.map_map, List.length_map] at this
    exact this.symm
  · simpa [Spec.ofMesh, maxCount] using R.vmax
  · simpa [Spec.ofMesh, maxCount, maxTriangles] using R.tmax
  · intro w hw
    simp only [Spec.ofMesh] at hw ⊢
    obtain ⟨u, hu, rfl⟩ := List.mem_map.1 hw
    have := values_vertexOf hf (R.shape u hu)
    simp only
    rw [← this, vertexOf_values]
    rfl

theorem ofVectors_rep (vs : List LegacyVertex) (ts : List Tri) (h : vs.length < 4294967296)
    (ht : ts.length < maxTriangles .legacy) :
    ∃ v, View.ofVectors vs (flat ts) = some v ∧ VRep v (Spec.ofVectors vs ts) := by
  refine ⟨{ data := .legacy vs (flat ts), firstMutatedVertex := vs.length, firstMutatedTriangle := ts.length }, ?_, ?_, ?_, ?_, ?_, ?_,
    ?_, ?_⟩
  · simp only [View.ofVectors, View.resetMutationTracking, View.vertexCount, View.triangleCount, length_flat, Option.bind_eq_bind,
      Option.bind_some]
    rw [Nat.mul_div_cancel_left _ (by omega), u32_of_lt h, u32_of_lt]
    simp only [maxTriangles] at ht
    simp only [maxCount]
    omega
  · simp only [Spec.ofVectors]
    have := firstMarked_reset (vs.map fun v => (ExtrudedVertex.fromLegacy v, true))
    rw [List.map_map, List.length_map] at this
    exact this.symm
  · simp only [Spec.ofVectors]
    have := firstMarked_reset (ts.map fun v => (v, true))
    rw [List.map_map, List.length_map] at this
    exact this.symm
  · simpa [Spec.ofVectors] using h
  · simpa [Spec.ofVectors] using ht
  · intro w hw
    obtain ⟨u, hu, rfl⟩ := List.mem_map.1 hw
    rfl
  · simp only [Spec.ofVectors, List.map_map]
    conv_lhs => rw [← List.map_id vs]
    rfl
  · simp only [Spec.ofVectors, List.map_map]
    congr 1
    conv_lhs => rw [← List.map_id ts]
    rfl

theorem new_rep {v : View} {s : State} (h : New v s) : VRep v s := by
  cases h with
  | mesh hf hs hm hv =>
    rename_i attrs ixf f ops ms m
    obtain ⟨m0, hm0, R0⟩ := rep_new hf
    obtain ⟨m', hm', R⟩ := run_rep R0 ops hs
    rw [hm0, Option.bind_some, hm'] at hm
    cases hm
    obtain ⟨g, hg⟩ := fullFormat_some
    have hfull : Full ms.attrs := by
      rw [← full_of_equivalent R.fmt hg]
      by_contra hc
      unfold View.ofMesh at hv
      rw [hg] at hv
      simp only [Option.bind_eq_bind, Option.bind_some] at hv
      rw [if_neg hc] at hv
      cases hv
    obtain ⟨v', hv', Rv⟩ := ofMesh_rep R hfull
    rw [hv] at hv'
    cases hv'
    exact Rv
  | vectors h ht hv =>
    rename_i vs ts
    obtain ⟨v', hv', Rv⟩ := ofVectors_rep vs ts h ht
    have e : flat ts = ts.flatMap fun t => [t.1, t.2.1, t.2.2] := rfl
    rw [e, hv] at hv'
    cases hv'
    exact Rv

/-! ## Theorems -/

/-- **C37.** A view can be made of a mesh with any history if and only if the mesh has the attributes of stroke vertices: the same
numbers of components and the same IDs in the same order. Then the new view shows the vertices and triangles of the mesh and
nothing is marked as changed. -/
theorem C37_new_of_mesh {attrs : List (AttrType × AttrId)} {ixf : IndexFormat} {f : MeshFormat} (hf : create attrs ixf = some f)
    (ops : List MeshOp) (ms : MeshState) (hs : MeshState.run { attrs := attrs, ixf := ixf } ops = some ms) :
    ∃ m, (MutableMesh.new f).bind (·.run ops) = some m ∧
      ((∃ v, View.ofMesh m = some v ∧ Shows v (Spec.ofMesh ms) ∧ v.firstMutatedVertex = ms.vertices.length ∧
          v.firstMutatedTriangle = ms.triangles.length) ∨ View.ofMesh m = none) ∧
      ((View.ofMesh m).isSome ↔
        ms.attrs.map (fun a => (components a.1, a.2)) = [(2, 0), (1, 2), (3, 1), (2, 4), (1, 5), (2, 6), (1, 7), (2, 8)]) := by
  obtain ⟨m0, hm0, R0⟩ := rep_new hf
  obtain ⟨m, hm, R⟩ := run_rep R0 ops hs
  refine ⟨m, by rw [hm0]; exact hm, ?_⟩
  by_cases hfull : Full ms.attrs
  · obtain ⟨v, hv, Rv⟩ := ofMesh_rep R hfull
    have S := shows_rep Rv
    refine ⟨Or.inl ⟨v, hv, S, ?_, ?_⟩, by rw [hv]; exact ⟨fun _ => hfull, fun _ => rfl⟩⟩
    · rw [S.firstVertex]
      have := firstMarked_reset (ms.vertices.map fun v => (vertexOf v, true))
      rw [List.map_map, List.length_map] at this
      exact this
    · rw [S.firstTriangle]
      have := firstMarked_reset (ms.triangles.map fun v => (v, true))
      rw [List.map_map, List.length_map] at this
      exact this
  · obtain ⟨g, hg⟩ := fullFormat_some
    have hn : View.ofMesh m = none := by
      unfold View.ofMesh
      rw [hg]
      simp only [Option.bind_eq_bind, Option.bind_some]
      rw [if_neg (fun hc => hfull ((full_of_equivalent R.fmt hg).1 hc))]
    refine ⟨Or.inr hn, ?_⟩
    rw [hn]
    exact ⟨fun hc => (by cases hc), fun hc => absurd hc hfull⟩

/-- **C37.** A view can be made of any vectors; it shows their contents. -/
theorem C37_new_of_vectors (vs : List LegacyVertex) (ts : List Tri) (h : vs.length < 4294967296)
    (ht : ts.length < maxTriangles .legacy) :
    ∃ v, View.ofVectors vs (ts.flatMap fun t => [t.1, t.2.1, t.2.2]) = some v ∧ Shows v (Spec.ofVectors vs ts) ∧
      v.firstMutatedVertex = vs.length ∧ v.firstMutatedTriangle = ts.length := by
  obtain ⟨v, hv, Rv⟩ := ofVectors_rep vs ts h ht
  have S := shows_rep Rv
  refine ⟨v, hv, S, ?_, ?_⟩
  · rw [S.firstVertex]
    have := firstMarked_reset (vs.map fun v => (ExtrudedVertex.fromLegacy v, true))
    rw [List.map_map, List.length_map] at this
    exact this
  · rw [S.firstTriangle]
    have := firstMarked_reset (ts.map fun v => (v, true))
    rw [List.map_map, List.length_map] at this
    exact this

/-- **C37.** For any new view, of a mesh with any history or of vectors, and any history of calls that keeps to the documented
conditions: no call fails a check or accesses memory outside an array, and afterwards all queries return what the lists of
vertices and triangles of the specification say. In particular `FirstMutatedVertex` and `FirstMutatedTriangle` are the indices
of the first vertex and triangle which are new or were set since the last reset. -/
theorem C37_refines {v : View} {s s' : State} (h : New v s) (ops : List Op) (hs : s.run ops = some s') :
    ∃ v', v.run ops = some v' ∧ Shows v' s' := by
  obtain ⟨v', h1, h2⟩ := vrun_rep (new_rep h) ops hs
  exact ⟨v', h1, shows_rep h2⟩

theorem step_edit {s s' : State} {op : Op} (hop : op ≠ .resetMutationTracking) (hs : s.step op = some s') :
    (∃ n, Edit s.vertices s'.vertices n) ∧ ∃ n, Edit s.triangles s'.triangles n := by
  have upd : ∀ {i : Nat} {f : Attributes → Attributes}, s.update i f = some s' →
      (∃ n, Edit s.vertices s'.vertices n) ∧ ∃ n, Edit s.triangles s'.triangles n := by
    intro i f h
    unfold State.update at h
    split at h
    · rename_i hi
      split at h
      · cases h; exact ⟨⟨_, Edit.refl _⟩, _, Edit.refl _⟩
      · cases h; exact ⟨⟨_, Edit.modify _ _ hi⟩, _, Edit.refl _⟩
    · cases h
  cases op with
  | appendVertex w =>
    simp only [State.step] at hs
    split at hs
    · cases hs; exact ⟨⟨_, Edit.append _ _⟩, _, Edit.refl _⟩
    · cases hs
  | appendTriangleIndices t =>
    simp only [State.step] at hs
    split at hs
    · cases hs; exact ⟨⟨_, Edit.refl _⟩, _, Edit.append _ _⟩
    · cases hs
  | setVertex i w =>
    simp only [State.step] at hs
    split at hs
    · rename_i hi; cases hs; exact ⟨⟨_, Edit.set _ _ hi⟩, _, Edit.refl _⟩
    · cases hs
  | setSideDerivative i d => exact upd (by simpa only [State.step] using hs)
  | setForwardDerivative i d => exact upd (by simpa only [State.step] using hs)
  | setSideLabel i l => exact upd (by simpa only [State.step] using hs)
  | setForwardLabel i l => exact upd (by simpa only [State.step] using hs)
  | setTriangleIndices i t =>
    simp only [State.step] at hs
    split at hs
    · rename_i hi; cases hs; exact ⟨⟨_, Edit.refl _⟩, _, Edit.set _ _ hi.1⟩
    · cases hs
  | insertTriangleIndices i t =>
    simp only [State.step] at hs
    split at hs
    · rename_i hi; cases hs; exact ⟨⟨_, Edit.refl _⟩, _, Edit.insert _ _ hi.1⟩
    · cases hs
  | resize nv nt =>
    simp only [State.step] at hs
    split at hs
    · cases hs; exact ⟨⟨_, Edit.pad _ _ _⟩, _, Edit.pad _ _ _⟩
    · cases hs
  | resetMutationTracking => exact absurd rfl hop

theorem run_keep {s s' : State} (ops : List Op) (hop : ∀ op ∈ ops, op ≠ .resetMutationTracking) (hs : s.run ops = some s') :
    (∀ i, i < firstMarked s'.vertices → s'.vertices[i]? = s.vertices[i]? ∧ i < firstMarked s.vertices) ∧
    (∀ i, i < firstMarked s'.triangles → s'.triangles[i]? = s.triangles[i]? ∧ i < firstMarked s.triangles) := by
  induction ops generalizing s with
  | nil => cases hs; exact ⟨fun i hi => ⟨rfl, hi⟩, fun i hi => ⟨rfl, hi⟩⟩
  | cons op ops ih =>
    simp only [State.run] at hs
    cases h1 : s.step op with
    | none => rw [h1] at hs; cases hs
    | some s1 =>
      rw [h1] at hs
      obtain ⟨⟨n, e1⟩, k, e2⟩ := step_edit (hop op (List.mem_cons_self ..)) h1
      obtain ⟨i1, i2⟩ := ih (fun o ho => hop o (List.mem_cons_of_mem _ ho)) hs
      constructor
      · intro i hi
        obtain ⟨a, b⟩ := i1 i hi
        obtain ⟨c, d⟩ := e1.keep b
        exact ⟨a.trans c, d⟩
      · intro i hi
        obtain ⟨a, b⟩ := i2 i hi
        obtain ⟨c, d⟩ := e2.keep b
        exact ⟨a.trans c, d⟩

theorem run_append (s : State) (a b : List Op) : s.run (a ++ b) = (s.run a).bind (·.run b) := by
  induction a generalizing s with
  | nil => rfl
  | cons op a ih =>
    simp only [List.cons_append, State.run]
    cases s.step op with
    | none => rfl
    | some s1 => simp only [Option.bind_some]; exact ih s1

theorem vrun_append (v : View) (a b : List Op) : v.run (a ++ b) = (v.run a).bind (·.run b) := by
  induction a generalizing v with
  | nil => rfl
  | cons op a ih =>
    simp only [List.cons_append, View.run]
    cases v.step op with
    | none => rfl
    | some s1 => simp only [Option.bind_some]; exact ih s1

/-- **C37.** No change is missed: take any new view, any history of calls, a reset of the tracking, and any history of calls
after it without another reset, all within the documented conditions. Every vertex with an index below `FirstMutatedVertex`
existed at the reset and is the same as it was then, and likewise every triangle with an index below `FirstMutatedTriangle`. -/
theorem C37_unchanged {v : View} {s s' : State} (h : New v s) (before after : List Op)
    (hop : ∀ op ∈ after, op ≠ .resetMutationTracking) (hs : s.run (before ++ .resetMutationTracking :: after) = some s') :
    ∃ v0 v', v.run before = some v0 ∧ v0.run (.resetMutationTracking :: after) = some v' ∧
      (∀ i, i < v'.firstMutatedVertex → (v0.getVertex i).isSome ∧ v'.getVertex i = v0.getVertex i) ∧
      (∀ t, t < v'.firstMutatedTriangle → (v0.getTriangleIndices t).isSome ∧ v'.getTriangleIndices t = v0.getTriangleIndices t) := by
  rw [run_append] at hs
  cases h0 : s.run before with
  | none => rw [h0] at hs; cases hs
  | some s0 =>
    rw [h0, Option.bind_some] at hs
    obtain ⟨v0, e0, R0⟩ := vrun_rep (new_rep h) before h0
    obtain ⟨v', e', R'⟩ := vrun_rep R0 _ hs
    have S0 := shows_rep R0
    have S' := shows_rep R'
    simp only [State.run, State.step, Option.bind_some] at hs
    obtain ⟨k1, k2⟩ := run_keep after hop hs
    refine ⟨v0, v', e0, e', ?_, ?_⟩
    · intro i hi
      rw [S'.firstVertex] at hi
      obtain ⟨a, b⟩ := k1 i hi
      simp only [firstMarked_reset] at b
      rw [S0.vertex, S'.vertex, a]
      simp [b]
    · intro i hi
      rw [S'.firstTriangle] at hi
      obtain ⟨a, b⟩ := k2 i hi
      simp only [firstMarked_reset] at b
      rw [S0.indices, S'.indices, a]
      simp [b]

/-- **C37.** A history which shows that the theorems are not empty: in a mesh, then in vectors. -/
example : ∃ v s s', New v s ∧
    s.run [.appendVertex {}, .appendVertex {}, .appendVertex {}, .appendTriangleIndices (0, 1, 2), .resetMutationTracking,
      .setSideLabel 1 ⟨F32.ofInt 3⟩, .insertTriangleIndices 0 (2, 1, 0)] = some s' ∧
    firstMarked s'.vertices = 1 ∧ firstMarked s'.triangles = 0 ∧ s'.vertices.length = 3 := by
  obtain ⟨f, hf⟩ := fullFormat_some
  obtain ⟨m, hm, h1, h2⟩ := C37_new_of_mesh hf [] _ rfl
  rcases h1 with ⟨v, hv, -⟩ | h1
  · exact ⟨v, _, _, .mesh hf rfl hm hv, rfl, by decide +kernel, by decide +kernel, by decide +kernel⟩
  · rw [h1] at h2
    exact absurd (h2.2 (by decide +kernel)) (by simp)

example : ∃ v s s', New v s ∧
    s.run [.resize 3 1, .resetMutationTracking, .setVertex 2 {}, .setTriangleIndices 0 (0, 1, 2), .setSideLabel 0 ⟨F32.ofInt 3⟩] =
      some s' ∧ firstMarked s'.vertices = 2 ∧ firstMarked s'.triangles = 0 ∧ s'.vertices.length = 3 := by
  obtain ⟨v, hv, -⟩ := C37_new_of_vectors [{}] [] (by decide) (by decide)
  exact ⟨v, _, _, .vectors (by decide) (by decide) hv, rfl, by decide +kernel, by decide +kernel, by decide +kernel⟩

/-- **C37, the limit for vectors.** Beyond 1431655765 triangles, `3 * index` overflows: with indices for 1431655767
triangles, of which the first five are zero, setting triangle 1431655766 changes triangle 0, although the tracking says that
triangles below 1431655766 are unchanged. -/
theorem C37_legacy_overflow_counterexample (l : List Nat) (hll : l.length = 4294967296) :
    ∃ v v', View.ofVectors [] ([0, 0, 0, 0, 0] ++ l) = some v ∧ v.triangleCount = some 1431655767 ∧
      v.getTriangleIndices 0 = some (0, 0, 0) ∧ v.setTriangleIndices 1431655766 (7, 7, 7) = some v' ∧
      v'.firstMutatedTriangle = 1431655766 ∧ v'.getTriangleIndices 0 = some (0, 0, 7) := by
  have u1 : u32 1431655767 = 1431655767 := u32_of_lt (by unfold maxCount; omega)
  have u0 : u32 0 = 0 := u32_of_lt (by unfold maxCount; omega)
  have u2 : u32 4294967298 = 2 := by unfold u32; rfl
  have hc : ∀ (d : List Nat), d.length = 4294967301 → ∀ a b, (View.mk (.legacy [] d) a b).triangleCount = some 1431655767 := by
    intro d hd a b
    simp only [View.triangleCount, hd]
    rw [show 4294967301 / 3 = 1431655767 from rfl, u1]
  refine ⟨⟨.legacy [] ([0, 0, 0, 0, 0] ++ l), 1431655767, 0⟩, ⟨.legacy [] ([0, 0, 7, 7, 7] ++ l), 1431655766, 0⟩, ?_, ?_, ?_, ?_, ?_, ?_⟩
  · simp only [View.ofVectors, View.resetMutationTracking]
    rw [hc _ (by simp [hll])]
    simp [View.vertexCount, u0]
  · rw [hc _ (by simp [hll])]
  · simp only [View.getTriangleIndices, View.checkTriangle]
    rw [hc _ (by simp [hll])]
    simp [three, u0]
  · simp only [View.setTriangleIndices, View.checkTriangle]
    rw [hc _ (by simp [hll])]
    simp [u2, hll, View.touchTriangle]
  · rfl
  · simp only [View.getTriangleIndices, View.checkTriangle]
    rw [hc _ (by simp [hll])]
    simp [three, u0]

/-- **C37, the limit for vectors.** Resizing to 1431655766 triangles leaves none. -/
theorem C37_legacy_resize_counterexample :
    ∃ v v', View.ofVectors [] [] = some v ∧ v.resize 0 1431655766 = some v' ∧ v'.triangleCount = some 0 := by
  have u0 : u32 0 = 0 := u32_of_lt (by unfold maxCount; omega)
  have u2 : u32 4294967298 = 2 := by unfold u32; rfl
  refine ⟨⟨.legacy [] [], 0, 0⟩, ⟨.legacy [] [0, 0], 0, 0⟩, ?_, ?_, ?_⟩
  · simp [View.ofVectors, View.resetMutationTracking, View.vertexCount, View.triangleCount, u0]
  · simp [View.resize, resizeVec, u2]
  · simp [View.triangleCount, u0]

end Verif.View
