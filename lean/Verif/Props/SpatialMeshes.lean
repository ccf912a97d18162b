import Verif.Props.SpatialQuery
import Verif.Props.Mesh

/-!
# C47: shapes which can be searched, and bounds
-/

set_option autoImplicit false

namespace Verif.PMeshSpec

open Verif.Mesh Verif.PMesh F32 Verif.RTree Verif.Mesh.Spec

theorem notNaN_unpack {k s o : F32} (hk : k.isFinite = true) (hs : s.isFinite = true) (ho : o.isFinite = true) :
    (add (mul k s) o).isNaN = false := by
  have h := (key_mul hk hs).1
  rcases isFinite_or_inf h with h | ⟨b, h⟩
  · exact (key_add h ho).1
  · rw [h]
    obtain ⟨sg, n, hn, rfl⟩ := exists_of_isFinite ho
    rfl

theorem two_of_length {α : Type} {l : List α} (h : l.length = 2) : ∃ x y, l = [x, y] := by
  match l, h with
  | [x, y], _ => exact ⟨x, y, rfl⟩

theorem mem_of_triples : ∀ {l : List Nat} {t : Nat × Nat × Nat}, t ∈ triples l → t.1 ∈ l ∧ t.2.1 ∈ l ∧ t.2.2 ∈ l
  | a :: b :: c :: rest, t, h => by
    rw [triples, List.mem_cons] at h
    rcases h with rfl | h
    · simp
    · obtain ⟨h1, h2, h3⟩ := mem_of_triples h
      simp [h1, h2, h3]
  | [], _, h => by simp [triples] at h
  | [_], _, h => by simp [triples] at h
  | [_, _], _, h => by simp [triples] at h

/-- C47: the triangles of a mesh which `Mesh::Create` has made can be read, and have no NaN, so shapes made of such meshes
are `Searchable` (the hypotheses are those of `C40_create_contents_partial`). -/
theorem C47_created_readable_partial {attrs : List (AttrType × AttrId)} {ixf : IndexFormat} {f : MeshFormat}
    (hf : create attrs ixf = some f) (spans : List (List F32)) (tris : List Nat)
    (params : List (Option (List Coding))) (ha : Acceptable attrs spans tris) (ht : (triples tris).length < 4294967296)
    (hp : numVertices spans = 0 ∨ ParamsOk attrs spans params)
    (hq : ∀ (j : Nat) (a : AttrType × AttrId), attrs[j]? = some a → IsPacked a.1 →
      NotGiven params j → ∀ (k b : Nat) (s : List F32), (bits a.1)[k]? = some b →
      (spansOf attrs spans j)[k]? = some s → Quantisable b s) :
    ∃ m, Mesh.Mesh.create f spans tris params = some (some m) ∧ m.triangleCount = (triples tris).length ∧
      ∀ i < m.triangleCount, ∃ t, meshTriangle m i = some t ∧ NoNaN t := by
  obtain ⟨m, h1, h2, h3, h4, h5, h6, -, h8⟩ := C40_create_contents_partial hf spans tris params ha ht hp hq
  refine ⟨m, h1, h4, ?_⟩
  have pos : ∀ v, v < numVertices spans → ∃ x y, m.vertexPosition v = some (x, y) ∧ x.isNaN = false ∧ y.isNaN = false := by
    intro v hv
    obtain ⟨-, -, -, -, -, hc, -⟩ := create_eq hf
    obtain ⟨a, ha', hc'⟩ := Option.map_eq_some_iff.1 hc
    have K := h6 v _ a hv ha'
    have hls : (spansOf attrs spans f.positionIndex).length = 2 := by rw [length_spansOf ha.count ha', hc']
    have hlv : (valueAt attrs spans v f.positionIndex).length = 2 := by unfold valueAt; rw [List.length_map, hls]
    have fin : ∃ us, m.floatVertexAttribute v f.positionIndex = some us ∧ us.length = 2 ∧ ∀ u ∈ us, u.isNaN = false := by
      by_cases hpk : IsPacked a.1
      · have hlb : (bits a.1).length = 2 := by rw [length_bits _ hpk, hc']
        by_cases hg : NotGiven params f.positionIndex
        · obtain ⟨los, his, us, e1, e2, e3, e4⟩ := K.close hpk hg
          refine ⟨us, e2, by rw [e3, hc'], fun u hu => ?_⟩
          obtain ⟨k, hk, rfl⟩ := List.mem_iff_getElem.1 hu
          obtain ⟨los', his', f1, f2, f3, -⟩ := h8 (by omega) f.positionIndex (List.getElem?_eq_some_iff.1 ha').1
          rw [e1, Option.some.injEq, Option.some.injEq, Prod.mk.injEq] at f1
          obtain ⟨rfl, rfl⟩ := f1
          rw [e3, hc'] at hk
          exact isNaN_of_isFinite (e4 k _ _ _ _ _ (List.getElem?_eq_getElem (by omega)) (List.getElem?_eq_getElem (by omega))
            (List.getElem?_eq_getElem (by omega)) (List.getElem?_eq_getElem (by omega))
            (List.getElem?_eq_getElem (by omega))).fin
        · unfold NotGiven at hg
          push Not at hg
          obtain ⟨cs, hcs⟩ := hg
          obtain ⟨ks, -, g2, g3, -⟩ := K.given hpk cs hcs
          have P : ParamsFor attrs spans f.positionIndex a.1 cs := by
            rcases hp with hp | hp | ⟨-, hp⟩
            · omega
            · rw [hp] at hcs; simp at hcs
            · exact hp _ a cs ha' hcs
          have hlk : ks.length = 2 := by rw [g2.length_eq, hlb]
          refine ⟨_, g3, by simp [hlk, P.size, hc'], fun u hu => ?_⟩
          obtain ⟨k, hk, rfl⟩ := List.mem_iff_getElem.1 hu
          rw [List.getElem_zipWith]
          have hk' : k < 2 := by simpa [hlk, P.size, hc'] using hk
          obtain ⟨v1, v2, -⟩ := P.valid (cs[k]'(by rw [P.size, hc']; exact hk')) (List.getElem_mem _)
          refine notNaN_unpack (isFinite_ofInt ?_) v2 v1
          have h20 := (bits_le a.1 ((bits a.1)[k]'(by omega)) (List.getElem_mem _)).2
          have hlt : ks[k]'(by omega) < 2 ^ ((bits a.1)[k]'(by omega)) := by
            have := List.forall₂_iff_get.1 g2
            exact this.2 k (by omega) (by omega)
          have := Nat.pow_le_pow_right (show 0 < 2 by decide) h20
          have : ks[k]'(by omega) < 2 ^ 20 := by omega
          rw [abs_of_nonneg (by omega)]
          omega
      · refine ⟨_, K.exactly hpk, hlv, fun u hu => ?_⟩
        unfold valueAt at hu
        obtain ⟨s, hs, rfl⟩ := List.mem_map.1 hu
        have hs' : s ∈ spans := List.mem_of_mem_drop (List.mem_of_mem_take hs)
        have hl := ha.equal s hs'
        rw [List.getD_eq_getElem?_getD, List.getElem?_eq_getElem (by omega)]
        exact isNaN_of_isFinite (ha.finite s hs' _ (List.getElem_mem _))
    obtain ⟨us, e1, e2, e3⟩ := fin
    obtain ⟨x, y, rfl⟩ := two_of_length e2
    refine ⟨x, y, ?_, e3 x (by simp), e3 y (by simp)⟩
    unfold Mesh.Mesh.vertexPosition
    rw [h2, e1]
    rfl
  intro i hi
  obtain ⟨t, ht'⟩ : ∃ t, (triples tris)[i]? = some t := ⟨_, List.getElem?_eq_getElem (by omega)⟩
  obtain ⟨m1, m2, m3⟩ := mem_of_triples (List.mem_of_getElem? ht')
  obtain ⟨x1, y1, e1, n1, o1⟩ := pos _ (ha.inRange _ m1)
  obtain ⟨x2, y2, e2, n2, o2⟩ := pos _ (ha.inRange _ m2)
  obtain ⟨x3, y3, e3, n3, o3⟩ := pos _ (ha.inRange _ m3)
  refine ⟨(⟨x1, y1⟩, ⟨x2, y2⟩, ⟨x3, y3⟩), ?_, ⟨n1, o1⟩, ⟨n2, o2⟩, ⟨n3, o3⟩⟩
  unfold meshTriangle Mesh.Mesh.getTriangle
  rw [h5, ht']
  simp [e1, e2, e3]

/-- C47: a shape which `FromMeshGroups` has made, of meshes with fewer than 65536 triangles which can be read, is
`Searchable`. -/
theorem C47_searchable (gs : List MeshGroup) (s : PartitionedMesh) (h : PartitionedMesh.fromMeshGroups gs = some s)
    (hg : gs.length < 4294967296) (ho : totalOutlines gs < 4294967296) (hne : ∃ g ∈ gs, g.meshes ≠ [])
    (hm : ∀ g ∈ gs, ∀ m ∈ g.meshes, m.triangleCount < 65536 ∧
      ∀ i < m.triangleCount, ∃ t, meshTriangle m i = some t ∧ NoNaN t) : Searchable s := by
  have hb := (C16_build_iff_partial gs).1 ⟨s, h⟩
  have hs := (C16_contents gs s h hg ho).meshes
  refine ⟨Or.inr ?_, ?_, ?_, ?_, ?_⟩
  · obtain ⟨g, hg, hn⟩ := hne
    rw [hs]
    intro he
    rw [List.flatMap_eq_nil_iff] at he
    exact hn (he g hg)
  · rw [hs]; exact hb.1
  all_goals
    rw [hs]
    intro m h'
    obtain ⟨g, hg, hm'⟩ := List.mem_flatMap.1 h'
  · exact (hb.2 g hg).nonempty m hm'
  · exact (hm g hg m hm').1
  · exact (hm g hg m hm').2

/-! ## Bounds -/

/-- C47: the bounds of a shape are the smallest rectangle which contains the bounds of its meshes. -/
theorem C47_bounds (s : PartitionedMesh) (hm : ∀ m ∈ s.meshes, ∃ b : RectF, meshBounds m = some (some b) ∧ b.Valid)
    (hne : s.meshes ≠ []) :
    ∃ r, s.bounds = some (some r) ∧ r.Valid ∧ ∀ r' : RectF, r'.containsRect r = true ↔
      ∀ m ∈ s.meshes, ∀ b, meshBounds m = some (some b) → r'.containsRect b = true := by
  cases s with
  | none => exact absurd rfl hne
  | some d =>
    have hne : d.meshes ≠ [] := hne
    have hm : ∀ m ∈ d.meshes, ∃ b : RectF, meshBounds m = some (some b) ∧ b.Valid := hm
    have key : ∀ ms : List Mesh, (∀ m ∈ ms, ∃ b : RectF, meshBounds m = some (some b) ∧ b.Valid) →
        ∃ es : List RectF, ms.mapM meshBounds = some (es.map some) ∧
          ∀ r₀ : RectF, r₀.Valid → ∃ r, Envelope.addAll (some r₀) ((es.map some).map EnvObj.envelope) = some r ∧ r.Valid ∧
            ∀ r' : RectF, r'.containsRect r = true ↔ r'.containsRect r₀ = true ∧
              ∀ m ∈ ms, ∀ b, meshBounds m = some (some b) → r'.containsRect b = true := by
      intro ms
      induction ms with
      | nil => intro _; exact ⟨[], rfl, fun r₀ h₀ => ⟨r₀, rfl, h₀, fun r' => by simp⟩⟩
      | cons m ms ih =>
        intro h
        obtain ⟨es, e1, e2⟩ := ih fun x hx => h x (by simp [hx])
        obtain ⟨b, hb, hv⟩ := h m (by simp)
        refine ⟨b :: es, by simp [hb, e1], fun r₀ h₀ => ?_⟩
        obtain ⟨v, -, -, -⟩ := joinRect_spec h₀ hv
        obtain ⟨r, f1, f2, f3⟩ := e2 (r₀.joinRect b) v
        refine ⟨r, f1, f2, fun r' => ?_⟩
        rw [f3, (C21_smallest ⟨zero, zero⟩ ⟨zero, zero⟩ r₀ b ⟨rfl, rfl⟩ ⟨rfl, rfl⟩ h₀ hv).2.2, and_assoc]
        refine and_congr_right fun _ => ?_
        constructor
        · rintro ⟨h1, h2⟩ x hx b' hb'
          rcases List.mem_cons.1 hx with rfl | hx
          · rw [hb] at hb'
            cases hb'
            exact h1
          · exact h2 x hx b' hb'
        · intro h1
          exact ⟨h1 m (by simp) b hb, fun x hx => h1 x (by simp [hx])⟩
    match hms : d.meshes, hne with
    | m :: ms, _ =>
      obtain ⟨b, hb, hv⟩ := hm m (by rw [hms]; simp)
      obtain ⟨es, e1, e2⟩ := key ms fun x hx => hm x (by rw [hms]; simp [hx])
      obtain ⟨r, f1, f2, f3⟩ := e2 b hv
      refine ⟨r, ?_, f2, fun r' => ?_⟩
      · unfold PartitionedMesh.bounds
        simp only [hms, List.mapM_cons, hb, e1, Option.bind_eq_bind, Option.bind_some, Option.pure_def, Option.map_some]
        exact congrArg some f1
      · have : PartitionedMesh.meshes (some d) = m :: ms := hms
        rw [f3, this]
        constructor
        · rintro ⟨h1, h2⟩ x hx b' hb'
          rcases List.mem_cons.1 hx with rfl | hx
          · rw [hb] at hb'
            cases hb'
            exact h1
          · exact h2 x hx b' hb'
        · intro h1
          exact ⟨h1 m (by simp) b hb, fun x hx => h1 x (by simp [hx])⟩

/-- C47: the bounds of a mesh are the smallest rectangle that contains its positions. `xs` and `ys` are the coordinates of the positions;
the smallest and largest of them are the bounds of the attribute, which is what `C40_create_contents_partial` says of a mesh made from
them. -/
theorem C47_mesh_bounds (m : Mesh) (xs ys los his : List F32) (x0 y0 x1 y1 : F32)
    (hb : m.attributeBoundsOf m.format.positionIndex = some (some (los, his)))
    (h0 : los[0]? = some x0) (h1 : los[1]? = some y0) (h2 : his[0]? = some x1) (h3 : his[1]? = some y1)
    (hx : x0 ∈ xs ∧ x1 ∈ xs ∧ ∀ x ∈ xs, le x0 x = true ∧ le x x1 = true)
    (hy : y0 ∈ ys ∧ y1 ∈ ys ∧ ∀ y ∈ ys, le y0 y = true ∧ le y y1 = true) :
    ∃ b, meshBounds m = some (some b) ∧ b.Valid ∧ ∀ r : RectF, r.containsRect b = true ↔
      (∀ x ∈ xs, le r.xMin x = true ∧ le x r.xMax = true) ∧ ∀ y ∈ ys, le r.yMin y = true ∧ le y r.yMax = true := by
  obtain ⟨nx0, nx1, -⟩ := le_key (hx.2.2 x1 hx.2.1).1
  obtain ⟨ny0, ny1, -⟩ := le_key (hy.2.2 y1 hy.2.1).1
  have e : meshBounds m = some (Envelope.addAll none [.point ⟨x0, y0⟩, .point ⟨x1, y1⟩]) := by
    unfold meshBounds
    rw [hb]
    simp only [Option.bind_some, h0, h1, h2, h3, Option.map_some]
  have S := envSpec_addAll (os := [.point ⟨x0, y0⟩, .point ⟨x1, y1⟩]) (by
    intro o ho
    simp only [List.mem_cons, List.not_mem_nil, or_false] at ho
    rcases ho with rfl | rfl
    · intro p hp; rw [List.mem_singleton.1 hp]; exact ⟨nx0, ny0⟩
    · intro p hp; rw [List.mem_singleton.1 hp]; exact ⟨nx1, ny1⟩)
  rcases hE : Envelope.addAll none [.point ⟨x0, y0⟩, .point ⟨x1, y1⟩] with _ | b
  · rw [hE] at S
    exact absurd (show _ = [] from S) (by simp [EnvObj.points])
  · rw [hE] at S e
    refine ⟨b, e, S.2.1, fun r => ?_⟩
    rw [S.2.2 r]
    simp only [List.flatMap_cons, List.flatMap_nil, EnvObj.points, List.append_nil, List.cons_append, List.nil_append, List.mem_cons,
      List.not_mem_nil, or_false, forall_eq_or_imp, forall_eq, contains_iff]
    constructor
    · rintro ⟨⟨a1, a2, a3, a4⟩, b1, b2, b3, b4⟩
      exact ⟨fun x h => ⟨F32.le_trans a1 (hx.2.2 x h).1, F32.le_trans (hx.2.2 x h).2 b2⟩,
        fun y h => ⟨F32.le_trans a3 (hy.2.2 y h).1, F32.le_trans (hy.2.2 y h).2 b4⟩⟩
    · rintro ⟨p, q⟩
      exact ⟨⟨(p x0 hx.1).1, (p x0 hx.1).2, (q y0 hy.1).1, (q y0 hy.1).2⟩, (p x1 hx.2.1).1, (p x1 hx.2.1).2, (q y1 hy.2.1).1,
        (q y1 hy.2.1).2⟩

/-- C47: a shape without meshes has no bounds. -/
theorem C47_bounds_empty (s : PartitionedMesh) (h : s.meshes = []) : s.bounds = some none := by
  cases s with
  | none => rfl
  | some d =>
    have h : d.meshes = [] := h
    unfold PartitionedMesh.bounds
    simp only [h]
    rfl

namespace ExSpatial

/-- The `float` nearest to `n / 10`. -/
def tenths (n : Int) : F32 := div (ofInt n) (ofInt 10)

/-- A mesh of one triangle, with packed positions. -/
def outside : Option Mesh :=
  ((create [(.f2In3Bytes, kPosition)] .unpacked16).bind fun f => (Mesh.Mesh.create f
    [[tenths (-1), tenths 2, tenths (-1)], [zero, zero, ofInt 2]] [0, 1, 2] []).bind id)

/-- Is a vertex of the mesh to the right of the bounds of the mesh? -/
def toTheRight (m : Mesh) (i : Nat) : Bool :=
  match m.vertexPosition i, meshBounds m with
  | some p, some (some b) => lt b.xMax p.1
  | _, _ => false

end ExSpatial

/-- The hypotheses of `C47_mesh_bounds`. -/
example : (ExSpatial.outside.bind fun m => m.attributeBoundsOf m.format.positionIndex) =
    some (some ([ExSpatial.tenths (-1), zero], [ExSpatial.tenths 2, ofInt 2])) := by decide +kernel

/-- C47, bounds: vertices can be outside of the bounds of their mesh. The bounds are those of the values given to
`Mesh::Create`, and packing can move a vertex by rounding: for the triangle with corners `(-0.1, 0)`, `(0.2, 0)`,
`(-0.1, 2)`, the second corner is read back to the right of `0.2`. A query by this shape starts with its bounds, so it
does not find what it touches only there. -/
theorem C47_bounds_counterexample :
    ∃ m, ExSpatial.outside = some m ∧ ∃ p b, m.vertexPosition 1 = some p ∧ meshBounds m = some (some b) ∧
      b.Valid ∧ b.xMax = ExSpatial.tenths 2 ∧ lt b.xMax p.1 = true := by
  have h : (ExSpatial.outside.any fun m => ExSpatial.toTheRight m 1 && (match meshBounds m with
    | some (some b) => le b.xMin b.xMax && le b.yMin b.yMax && decide (b.xMax = ExSpatial.tenths 2)
    | _ => false)) = true := by decide +kernel
  rw [Option.any_eq_true] at h
  obtain ⟨m, hm, h⟩ := h
  refine ⟨m, hm, ?_⟩
  rw [Bool.and_eq_true] at h
  obtain ⟨h1, h2⟩ := h
  unfold ExSpatial.toTheRight at h1
  rcases hp : m.vertexPosition 1 with _ | p
  · rw [hp] at h1; cases h1
  rcases hb : meshBounds m with _ | _ | b
  · rw [hp, hb] at h1; cases h1
  · rw [hp, hb] at h1; cases h1
  · rw [hp, hb] at h1
    rw [hb] at h2
    simp only [Bool.and_eq_true, decide_eq_true_eq] at h2
    exact ⟨p, b, rfl, rfl, ⟨h2.1.1, h2.1.2⟩, h2.2, h1⟩

/-! ## Concrete cases -/

namespace ExSpatial

def attrs : List (AttrType × AttrId) := [(.f2Unpacked, kPosition)]

theorem fmt_some : (create attrs .unpacked16).isSome = true := by decide +kernel

def fmt : MeshFormat := (create attrs .unpacked16).get fmt_some

theorem fmt_eq : create attrs .unpacked16 = some fmt := (Option.some_get _).symm

/-- Two triangles, of area 5 (to the left) and 6 (to the right). -/
def spans : List (List F32) :=
  [[ofInt 0, ofInt 5, ofInt 0, ofInt 10, ofInt 16, ofInt 10], [ofInt 0, ofInt 0, ofInt 2, ofInt 0, ofInt 0, ofInt 2]]

theorem acceptable (tris : List Nat) (h1 : 3 ∣ tris.length) (h2 : ∀ i ∈ tris, i < 6) : Acceptable attrs spans tris :=
  ⟨by decide, by decide +kernel, by decide +kernel, by decide +kernel, h1, fun i hi => h2 i hi⟩

theorem readable (tris : List Nat) (h1 : 3 ∣ tris.length) (h2 : ∀ i ∈ tris, i < 6)
    (h3 : (triples tris).length < 4294967296) :
    ∃ m, Mesh.Mesh.create fmt spans tris [] = some (some m) ∧ m.triangleCount = (triples tris).length ∧
      ∀ i < m.triangleCount, ∃ t, meshTriangle m i = some t ∧ NoNaN t := by
  refine C47_created_readable_partial fmt_eq spans tris [] (acceptable tris h1 h2) h3 (Or.inr (Or.inl rfl)) ?_
  intro j a ha hp
  match j with
  | 0 =>
    obtain rfl : (AttrType.f2Unpacked, kPosition) = a := by simpa [attrs] using ha
    simp [IsPacked, bits] at hp
  | j + 1 => simp [attrs] at ha

/-- A query which hits every triangle. -/
def everything : Query := ⟨.rect ⟨ofInt (-100), ofInt (-100), ofInt 100, ofInt 100⟩, fun _ => some true⟩

theorem everything_for (s : PartitionedMesh) :
    QueryFor s everything ⟨ofInt (-100), ofInt (-100), ofInt 100, ofInt 100⟩ :=
  ⟨rfl, by unfold RectF.Valid; decide +kernel, fun _ _ _ => rfl⟩

/-- 65536 times the same triangle. -/
def manyTris : List Nat := (List.replicate 65536 [0, 1, 2]).flatten

theorem triples_replicate (n : Nat) : (triples (List.replicate n [0, 1, 2]).flatten).length = n := by
  induction n with
  | zero => rfl
  | succ n ih => rw [List.replicate_succ, List.flatten_cons]; simp [triples, ih]

theorem length_replicate (n : Nat) : 3 ∣ ((List.replicate n [0, 1, 2]).flatten).length := by
  induction n with
  | zero => simp
  | succ n ih =>
    rw [List.replicate_succ, List.flatten_cons, List.length_append]
    exact Nat.dvd_add (by decide) ih

theorem mem_many {i : Nat} (h : i ∈ manyTris) : i < 6 := by
  unfold manyTris at h
  obtain ⟨l, hl, hi⟩ := List.mem_flatten.1 h
  rw [List.eq_of_mem_replicate hl] at hi
  have : i = 0 ∨ i = 1 ∨ i = 2 := by simpa using hi
  omega

end ExSpatial

open ExSpatial in
/-- C47, wrapped indices: there is a shape of two meshes, the first of 65536 triangles and the second of two, and a query
which every triangle intersects; the triangles of the second mesh are not found. -/
theorem C47_wrap_counterexample (S : Sorts) (hx : ∀ f l, (S.x f l).Perm l) (hy : ∀ f l, (S.y f l).Perm l) :
    ∃ (m₁ m₂ : Mesh) (s : PartitionedMesh), Mesh.Mesh.create fmt spans manyTris [] = some (some m₁) ∧
      Mesh.Mesh.create fmt spans [0, 1, 2, 3, 4, 5] [] = some (some m₂) ∧
      PartitionedMesh.fromMeshGroups [⟨[m₁], []⟩, ⟨[m₂], []⟩] = some s ∧ s.meshes = [m₁, m₂] ∧
      (∃ t, IsTriangle s ⟨1, 0⟩ t ∧ everything.hits t = some true ∧
        BoxesMeet t ⟨ofInt (-100), ofInt (-100), ofInt 100, ofInt 100⟩) ∧
      ∃ l, s.visitTriangles S everything collect [] = some l ∧ ⟨1, 0⟩ ∉ l := by
  obtain ⟨m₁, a1, a2, a3⟩ := readable manyTris (length_replicate _) (fun _ h => mem_many h)
    (by unfold manyTris; rw [triples_replicate]; decide)
  obtain ⟨m₂, b1, b2, b3⟩ := readable [0, 1, 2, 3, 4, 5] (by decide) (by decide) (by decide)
  have a2 : m₁.triangleCount = 65536 := by rw [a2]; unfold manyTris; rw [triples_replicate]
  have b2 : m₂.triangleCount = 2 := b2
  have hok : ∀ m : Mesh, m.triangleCount ≠ 0 → GroupOk ⟨[m], []⟩ := by
    intro m h
    refine ⟨by simpa using h, ?_, by simp, by simp⟩
    intro m1 h1 m2 h2
    simp only [List.mem_singleton] at h1 h2
    rw [h1, h2]
    exact ⟨rfl, rfl⟩
  obtain ⟨s, hs⟩ := (C16_build_iff_partial [⟨[m₁], []⟩, ⟨[m₂], []⟩]).2 ⟨by simp [totalMeshes], by
    intro g hg
    rcases List.mem_cons.1 hg with rfl | hg
    · exact hok m₁ (by omega)
    · rw [List.mem_singleton.1 hg]; exact hok m₂ (by omega)⟩
  have hS := (C16_contents _ s hs (by simp [maxCount]) (by simp [totalOutlines, maxCount])).meshes
  have hS : s.meshes = [m₁, m₂] := hS
  refine ⟨m₁, m₂, s, a1, b1, hs, hS, ?_, ?_⟩
  · obtain ⟨t, ht, hn⟩ := b3 0 (by omega)
    have e : (meshTriangle m₂ 0).map (fun t => t.1) = some ⟨ofInt 0, ofInt 0⟩ := by
      have h : ((Mesh.Mesh.create fmt spans [0, 1, 2, 3, 4, 5] []).bind fun o => o.bind fun m =>
          (meshTriangle m 0).map (fun t => t.1)) = some ⟨ofInt 0, ofInt 0⟩ := by decide +kernel
      rw [b1] at h
      exact h
    rw [ht, Option.map_some, Option.some.injEq] at e
    refine ⟨t, ⟨m₂, by rw [hS]; rfl, by show 0 < _; omega, ht⟩, rfl, t.1, fun r h _ _ => h, ?_⟩
    rw [e]
    decide +kernel
  · cases s with
    | none => cases hS
    | some d =>
      have hS : d.meshes = [m₁, m₂] := hS
      obtain ⟨l, hl, h⟩ := C47_wrap S hx hy d m₁ (by rw [hS]; rfl) (by omega)
        (by rw [hS]; simp [a2, b2]) a3 everything _ (everything_for _)
      refine ⟨l, hl, fun hmem => ?_⟩
      have := (h _ hmem).1
      simp at this

end Verif.PMeshSpec
