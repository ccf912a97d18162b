import Verif.Lemmas.AsMeshesFinish

/-!
# C45: `MutableMesh::AsMeshes`
-/

set_option autoImplicit false

namespace Verif.Mesh

open Verif Verif.Mesh Verif.Mesh.Spec Verif.Flip Verif.FlipSpec

/-- C45: a mesh without triangles gives no meshes, whatever the parameters and the omitted attributes
are. -/
theorem C45_no_triangles {attrs : List (AttrType × AttrId)} {ixf : IndexFormat} {f : MeshFormat}
    (hf : create attrs ixf = some f) (ops : List MeshOp) (s : MeshState)
    (h : MeshState.run { attrs := attrs, ixf := ixf } ops = some s) (h0 : s.triangles = []) :
    ∃ m, (MutableMesh.new f).bind (·.run ops) = some m ∧
      ∀ (params : List (Option (List Coding))) (om : List AttrId),
        asMeshes m params om = some (some []) := by
  obtain ⟨m0, hm0, R0⟩ := rep_new hf
  obtain ⟨m, hm, R⟩ := run_rep R0 ops h
  refine ⟨m, by rw [hm0]; exact hm, fun params om => ?_⟩
  unfold asMeshes
  rw [if_pos (by rw [R.tc, h0]; rfl)]

/-- C45: for a mesh with triangles, an error is returned in exactly the cases of `Accepted`. -/
theorem C45_error_iff {attrs : List (AttrType × AttrId)} {ixf : IndexFormat} {f : MeshFormat}
    (hf : create attrs ixf = some f) (ops : List MeshOp) (s : MeshState)
    (h : MeshState.run { attrs := attrs, ixf := ixf } ops = some s) :
    ∃ m, (MutableMesh.new f).bind (·.run ops) = some m ∧
      ∀ (params : List (Option (List Coding))) (om : List AttrId),
        asMeshes m params om = some none ↔ s.triangles ≠ [] ∧ ¬ Accepted s params om := by
  obtain ⟨m0, hm0, R0⟩ := rep_new hf
  obtain ⟨m, hm, R⟩ := run_rep R0 ops h
  refine ⟨m, by rw [hm0]; exact hm, fun params om => ?_⟩
  by_cases h0 : s.triangles = []
  · unfold asMeshes
    rw [if_pos (by rw [R.tc, h0]; rfl)]
    simp [h0]
  · rcases asMeshes_cases R h0 params om with ⟨h1, h2⟩ | ⟨h1, g, ps, bss, total, css, -, -, -, -, -, -, -, h2⟩
    · exact ⟨fun _ => ⟨h0, h1⟩, fun _ => h2⟩
    · refine ⟨fun h3 => ?_, fun h3 => absurd h1 h3.2⟩
      rw [h2] at h3
      simp only [Option.bind_eq_some_iff] at h3
      obtain ⟨_, _, _, _, _, _, h3⟩ := h3
      cases h3

theorem filterMap_range {α : Type} (l : List α) {g : Nat → Option α} (h : ∀ i, g i = l[i]?) :
    (List.range l.length).filterMap g = l := by
  have : g = fun i => l[i]? := funext h
  subst this
  induction l with
  | nil => rfl
  | cons x l ih =>
    rw [List.length_cons, List.range_succ_eq_map, List.filterMap_cons]
    simp only [List.getElem?_cons_zero, List.filterMap_map]
    congr 1
    conv_rhs => rw [← ih (fun i => rfl)]
    apply List.filterMap_congr
    intro i _
    rfl

theorem zip_map_mem {α β γ : Type} {P : α → β → Prop} {g : α → γ} {l : List α} {r : List β}
    (h : List.Forall₂ P l r) {x : γ × β} (hx : x ∈ (l.map g).zip r) : ∃ a ∈ l, g a = x.1 ∧ P a x.2 := by
  induction h with
  | nil => simp at hx
  | cons hp _ ih =>
    simp only [List.map_cons, List.zip_cons_cons, List.mem_cons] at hx
    rcases hx with rfl | hx
    · exact ⟨_, by simp, rfl, hp⟩
    · obtain ⟨a, h1, h2⟩ := ih hx
      exact ⟨a, by simp [h1], h2⟩

theorem zip_map_flatMap {α β γ δ : Type} {P : α → β → Prop} {g : α → γ} {l : List α} {r : List β}
    (h : List.Forall₂ P l r) {F : γ × β → List δ} {G : α → List δ}
    (hFG : ∀ a b, P a b → F (g a, b) = G a) : ((l.map g).zip r).flatMap F = l.flatMap G := by
  induction h with
  | nil => rfl
  | cons hp _ ih =>
    simp only [List.map_cons, List.zip_cons_cons, List.flatMap_cons]
    rw [ih, hFG _ _ hp]

/-- What is known about the mesh of a partition. -/
def MeshFor (s : MeshState) (om : List AttrId) (g : MeshFormat) (css : List (List Coding))
    (moved : Nat → Option PointF) (pb : PartitionInfo × List (List F32 × List F32)) (M : Mesh) : Prop :=
  M.format = g ∧ M.unpackingParams = css ∧
  M.attributeBounds = some pb.2 ∧ M.vertexCount = pb.1.vertices.length ∧
  M.triangleCount = pb.1.triangles.length ∧ (∀ i, M.triangleIndices i = pb.1.triangles[i]?) ∧
  ∀ (i v : Nat), pb.1.vertices[i]? = some v → ∀ (j : Nat) (a : AttrType × AttrId) (cs : List Coding),
    (keptAttrs om s.attrs)[j]? = some a → css[j]? = some cs →
    ∃ val blk us, (mvert s om moved v)[j]? = some val ∧ packAttribute a.1 cs val = some blk ∧
      M.packedVertexAttribute i j = some blk ∧ M.floatVertexAttribute i j = some us ∧
      unpackAttribute a.1 cs blk = some us ∧
      (IsPacked a.1 → us = List.zipWith readBack cs val) ∧ (¬ IsPacked a.1 → us = val)

/-- `C45_contents_partial` for a mesh in memory, and which vertices the meshes have. -/
theorem asMeshes_contents {m : MutableMesh} {s : MeshState} (R : Rep m s)
    (params : List (Option (List Coding))) (om : List AttrId) (h0 : s.triangles ≠ [])
    (hA : Accepted s params om)
    (hq : ∀ (j : Nat) (a : AttrType × AttrId), (keptAttrs om s.attrs)[j]? = some a → IsPacked a.1 →
      NotGiven params j → ∀ (k b : Nat) (col : List F32), (bits a.1)[k]? = some b →
        (spansOf (keptAttrs om s.attrs) (usedSpans s om) j)[k]? = some col → Quantisable b col)
    (hfine : FinePositions s params om) :
    ∃ moved parts, asMeshes m params om = some (some (parts.map Prod.snd)) ∧
      (∃ ps, partitionTriangles m.indexData m.format.indexFormat 65536 = some ps ∧
        parts.map Prod.fst = ps.map fun p => p.vertices) ∧
      MeshesOf s params om moved parts := by
  rcases asMeshes_cases R h0 params om with ⟨h1, -⟩ |
    ⟨-, g, ps, bss, total, css, C, P, hpt, hbs, hbt, hcl, hce, heq⟩
  · exact absurd hA h1
  have K : Coded m s om g params ps total css := ⟨C, hA, P, hbt, hcl, hce, hq⟩
  obtain ⟨a, cx, cy, moved, ha, ha0, ha2, hcs, hcp, hcor, hmv, hun⟩ := K.moved hfine
  have hMO : MovedOk om s ps g.positionIndex css moved := by
    intro v q hvq
    obtain ⟨q1, q2, -, -, q5, q6, -, q8⟩ := hmv v q hvq
    exact ⟨a, _, ha, hcs, q1, q2, q5, q6, q8⟩
  obtain ⟨ms, hms, hP⟩ := mapM_some (f := fun pb => packPartition m om g css moved pb.1 pb.2)
    (P := MeshFor s om g css moved)
    (ps.zip bss) (fun pb hpb => K.mesh hMO (List.of_mem_zip hpb).1 pb.2)
  have hlen : ps.length = bss.length := hbs.length_eq
  have hzlen := hP.length_eq
  refine ⟨moved, ((ps.zip bss).map fun pb => pb.1.vertices).zip ms, ?_, ⟨ps, hpt, ?_⟩, ?_⟩
  rotate_left
  · rw [List.map_fst_zip (by rw [List.length_map, hzlen])]
    conv_rhs => rw [← List.map_fst_zip (l₁ := ps) (l₂ := bss) (by omega)]
    rw [List.map_map]
    rfl
  rotate_left
  · rw [heq, hcs, Option.bind_some, hcp, Option.bind_some, hms, Option.bind_some]
    rw [List.map_snd_zip (by rw [List.length_map, hzlen])]
  have hpart : ∀ x ∈ ((ps.zip bss).map fun pb => pb.1.vertices).zip ms,
      ∃ pb : PartitionInfo × List (List F32 × List F32), pb.1 ∈ ps ∧
      BoundsFor s om pb.1.vertices pb.2 ∧ pb.1.vertices = x.1 ∧ MeshFor s om g css moved pb x.2 := by
    intro x hx
    obtain ⟨pb, h1, h2, h3⟩ := zip_map_mem hP hx
    exact ⟨pb, (List.of_mem_zip h1).1, (List.forall₂_zip hbs h1), h2, h3⟩
  have hto : ∀ (M : Mesh) (p : PartitionInfo), M.triangleCount = p.triangles.length →
      (∀ i, M.triangleIndices i = p.triangles[i]?) → trianglesOf M = p.triangles := by
    intro M p h1 h2
    unfold trianglesOf
    rw [h1]
    exact filterMap_range p.triangles h2
  -- the positions
  have hpos : ∀ (M : Mesh) (i : Nat) (us : List F32) (x y : F32), M.format = g →
      M.floatVertexAttribute i g.positionIndex = some us → us = [x, y] →
      M.vertexPosition i = some (x, y) := by
    intro M i us x y h1 h2 h3
    simp [Mesh.vertexPosition, h1, h2, h3]
  have hpoint : ∀ v, v < s.vertices.length → (mvert s om moved v)[g.positionIndex]? =
      some [((moved v).getD (pointOf s v)).x, ((moved v).getD (pointOf s v)).y] := by
    intro v hv
    obtain ⟨g1, g2⟩ := C.mvert_get moved hv ha
    cases hmm : moved v with
    | none => rw [g1 (Or.inr hmm), (C.position hv).1]; rfl
    | some q => rw [g2 q rfl hmm]; rfl
  refine ⟨?_, ?_, ?_, ?_, ?_, ?_⟩
  · -- each part
    intro x hx
    obtain ⟨⟨p, b⟩, hp, hb, hx1, e1, e2, e3, e4, e5, e6, e7⟩ := hpart x hx
    simp only at hp hb hx1 e3 e4 e5 e6 e7
    have ht := hto x.2 p e5 e6
    rw [← hx1]
    constructor
    · rw [e1]; exact C.fmt
    · exact e4
    · exact P.small p hp
    · exact P.nodup p hp
    · exact P.lt p hp
    · rw [ht]; exact ⟨e5.symm, P.nonempty p hp⟩
    · rw [ht]; exact P.fits p hp
    · intro i hi
      rw [ht]
      have hv := List.getElem?_eq_getElem hi
      obtain ⟨t, ht', hr⟩ := P.refers p hp _ (List.getElem_mem hi)
      have inj : ∀ k : Nat, p.vertices[k]? = some (p.vertices[i]) → i = k := by
        intro k hk
        have hkl := (List.getElem?_eq_some_iff.1 hk).1
        exact (List.getElem?_inj hi (P.nodup p hp)).1 (hv.trans hk.symm)
      refine ⟨t, ht', ?_⟩
      rcases hr with hr | hr | hr
      · exact Or.inl (inj _ hr)
      · exact Or.inr (Or.inl (inj _ hr))
      · exact Or.inr (Or.inr (inj _ hr))
    · intro i v j a' hv hj hcond
      have hlt := P.lt p hp v (List.mem_of_getElem? hv)
      have hva : v ∈ allOf ps := List.mem_flatMap.2 ⟨p, hp, List.mem_of_getElem? hv⟩
      obtain ⟨bj, cs, -, hcs', D⟩ := K.bound_at hj
      obtain ⟨val, blk, us, q1, q2, q3, q4, q5, q6, q7⟩ := e7 i v hv j a' cs hj hcs'
      rw [(C.mvert_get moved hlt hj).1 hcond] at q1
      have hval : (keptAt s om v).getD j [] = val := by
        change (kvert s om v).getD j [] = val
        rw [List.getD_eq_getElem?_getD, q1]; rfl
      rw [hval]
      constructor
      · intro hnp; rw [q4, q7 hnp]
      · intro hpk cs' hg
        obtain ⟨ks, k1, k2, k3, -⟩ := K.ints hj hcs' hpk hva q1
        obtain ⟨k3a, k3b⟩ := k3 cs' hg
        obtain ⟨blk', l1, -, l3, -⟩ := packed_block hpk k1 k2
        rw [q2] at l1; cases l1
        refine ⟨ks, ?_, k2, by rw [q4, q6 hpk, k3a], k3b⟩
        obtain ⟨a'', w1, w2⟩ := at_attr (fmt_of C.fmt) hj
        simp only [Mesh.packedIntegers, q3, e1, w1, Option.bind_eq_bind, Option.bind_some, w2, l3]
      · intro hpk hn
        obtain ⟨ks, k1, k2, -, k4⟩ := K.ints hj hcs' hpk hva q1
        obtain ⟨k4a, k4b⟩ := k4 hn
        refine ⟨us, q4, by rw [q6 hpk]; exact k4a, ?_⟩
        intro k bb col lo hi w u c1 c2 c3 c4 c5 c6 c7
        rw [q6 hpk] at c7
        have := k4b k bb col lo hi w u c1 c2 c3 c4 c5 c6 c7
        exact ⟨this.fin, this.err⟩
    · intro i v q hv hq'
      have hlt := P.lt p hp v (List.mem_of_getElem? hv)
      obtain ⟨-, hpk, -, -, -, -, hr, -⟩ := hmv v q hq'
      obtain ⟨val, blk, us, q1, q2, q3, q4, q5, q6, q7⟩ := e7 i v hv _ a _ ha hcs
      rw [hpoint v hlt, hq'] at q1
      cases q1
      refine hpos x.2 i us _ _ e1 q4 ?_
      rw [q6 hpk]
      have hx' := congrArg PointF.x hr
      have hy' := congrArg PointF.y hr
      simp only [readPoint] at hx' hy'
      simp [hx', hy']
    · intro j a' hj
      have hlt := (List.getElem?_eq_some_iff.1 hj).1
      obtain ⟨bj, hbj⟩ : ∃ bj, b[j]? = some bj :=
        ⟨_, List.getElem?_eq_getElem (l := b) (i := j) (by rw [hb.1]; exact hlt)⟩
      have GB := hb.2 j a' _ hj hbj
      refine ⟨bj.1, bj.2, ?_, ?_, ?_, ?_⟩
      · unfold Mesh.attributeBoundsOf
        rw [e1, if_pos (by rw [(fmt_of C.fmt).len]; exact hlt), e3]
        simp only [hbj, Option.map_some]
      · rw [GB.len1]; simp [colsOf]
      · rw [GB.len2]; simp [colsOf]
      · intro k col lo hi c1 c2 c3
        have c1' : (colsOf (p.vertices.map (kvert s om)) j (components a'.1))[k]? = some col := by
          rw [← spansOf_columns _ _ hj]; exact c1
        have := GB.each k col lo hi c1' c2 c3
        exact ⟨this.lo_mem, this.hi_mem, fun v hv => ⟨this.lo_le v hv, this.le_hi v hv⟩⟩
  · -- the triangles
    rw [← P.tris]
    rw [zip_map_flatMap hP (G := fun pb => pb.1.triangles.map (lift pb.1.vertices))]
    · have : ps = (ps.zip bss).map Prod.fst := (List.map_fst_zip (by omega)).symm
      conv_rhs => rw [this, List.flatMap_map]
    · rintro ⟨p, b⟩ M ⟨-, -, -, -, e5, e6, -⟩
      simp only at e5 e6 ⊢
      rw [hto M p e5 e6]
  · -- shared
    intro x hx y hy
    obtain ⟨⟨p, b⟩, hp, hb, hx1, e1, e2, e3, e4, e5, e6, e7⟩ := hpart x hx
    obtain ⟨⟨p', b'⟩, hp', hb', hx1', e1', e2', e3', e4', e5', e6', e7'⟩ := hpart y hy
    simp only at hx1 hx1' e7 e7'
    refine ⟨by rw [e2, e2'], ?_⟩
    intro i k v j hv hv' hj
    rw [← hx1] at hv
    rw [← hx1'] at hv'
    have haj := List.getElem?_eq_getElem hj
    have hcj := List.getElem?_eq_getElem (l := css) (i := j) (by rw [hcl]; exact hj)
    obtain ⟨val, blk, us, q1, q2, q3, -⟩ := e7 i v hv j _ _ haj hcj
    obtain ⟨val', blk', us', q1', q2', q3', -⟩ := e7' k v hv' j _ _ haj hcj
    rw [q1] at q1'; cases q1'
    rw [q2] at q2'; cases q2'
    exact ⟨by rw [q3]; rfl, by rw [q3, q3']⟩
  · -- the correction
    intro x hx
    obtain ⟨⟨p, b⟩, hp, hb, hx1, e1, e2, -⟩ := hpart x hx
    exact ⟨a, cx, cy, by rw [e1]; exact ha, ha0, by rw [e1, e2]; exact hcs, hcor⟩
  · -- no negative triangle
    intro hex
    obtain ⟨hpk, hnn, hread⟩ := hun hex
    refine ⟨hnn, ?_⟩
    intro x hx t ht
    obtain ⟨⟨p, b⟩, hp, hb, hx1, e1, e2, e3, e4, e5, e6, e7⟩ := hpart x hx
    simp only at hp hb hx1 e3 e4 e5 e6 e7
    rw [hto x.2 p e5 e6] at ht
    have hl : lift p.vertices t ∈ s.triangles.map whole := by
      rw [← P.tris]
      exact List.mem_flatMap.2 ⟨p, hp, List.mem_map.2 ⟨t, ht, rfl⟩⟩
    obtain ⟨t', ht', hw⟩ := List.mem_map.1 hl
    unfold lift whole at hw
    simp only [Prod.mk.injEq] at hw
    obtain ⟨w1, w2, w3⟩ := hw
    have hat : ∀ (i v : Nat), some v = p.vertices[i]? → x.2.vertexPosition i =
        some ((readPoint cx cy ((moved v).getD (pointOf s v))).x,
          (readPoint cx cy ((moved v).getD (pointOf s v))).y) := by
      intro i v hv
      have hlt := P.lt p hp v (List.mem_of_getElem? hv.symm)
      obtain ⟨val, blk, us, q1, q2, q3, q4, q5, q6, q7⟩ := e7 i v hv.symm _ a _ ha hcs
      rw [hpoint v hlt] at q1
      cases q1
      exact hpos x.2 i us _ _ e1 q4 (by rw [q6 hpk]; rfl)
    exact ⟨_, _, _, hat _ _ w1, hat _ _ w2, hat _ _ w3, hread t' ht'⟩
  · -- the steps
    intro v q hvq
    obtain ⟨q1, -, q3, q4, -⟩ := hmv v q hvq
    refine ⟨(P.mem v).1 q1, ?_⟩
    intro x hx
    obtain ⟨⟨p, b⟩, hp, hb, hx1, e1, e2, -⟩ := hpart x hx
    exact ⟨cx, cy, by rw [e1, e2]; exact hcs, q3, q4⟩

/-- C45: the meshes that are returned. Each has at most 65536 vertices, all of them different vertices of
the original mesh, each of them a corner of a triangle; put together, the triangles of the meshes are the
triangles of the original mesh in the same order. All values of attributes that are not omitted are
stored: exactly or with a bounded error. If vertices are moved then no triangle of any mesh is negative.
The bounds are those of the original values. A vertex has the same packed value in all meshes.

Partial: the positions have to be precise enough (`FinePositions`), which the documentation does not ask
for (`C46_overflow_counterexample`), and so must be the values for which parameters are computed
(`Quantisable`, as for C12). -/
theorem C45_contents_partial {attrs : List (AttrType × AttrId)} {ixf : IndexFormat} {f : MeshFormat}
    (hf : create attrs ixf = some f) (ops : List MeshOp) (s : MeshState)
    (h : MeshState.run { attrs := attrs, ixf := ixf } ops = some s)
    (params : List (Option (List Coding))) (om : List AttrId) (h0 : s.triangles ≠ [])
    (hA : Accepted s params om)
    (hq : ∀ (j : Nat) (a : AttrType × AttrId), (keptAttrs om s.attrs)[j]? = some a → IsPacked a.1 →
      NotGiven params j → ∀ (k b : Nat) (col : List F32), (bits a.1)[k]? = some b →
        (spansOf (keptAttrs om s.attrs) (usedSpans s om) j)[k]? = some col → Quantisable b col)
    (hfine : FinePositions s params om) :
    ∃ m, (MutableMesh.new f).bind (·.run ops) = some m ∧
      ∃ moved parts, asMeshes m params om = some (some (parts.map Prod.snd)) ∧
        MeshesOf s params om moved parts := by
  obtain ⟨m0, hm0, R0⟩ := rep_new hf
  obtain ⟨m, hm, R⟩ := run_rep R0 ops h
  obtain ⟨moved, parts, h1, -, h2⟩ := asMeshes_contents R params om h0 hA hq hfine
  exact ⟨m, by rw [hm0]; exact hm, moved, parts, h1, h2⟩

/-! ## Concrete cases -/

namespace ExAs

/-- A packed position and an attribute that is omitted. -/
def attrs : List (AttrType × AttrId) := [(.f2In3Bytes, 0), (.f1Unpacked, 5)]

/-- Four vertices, one of which no triangle refers to. -/
def ops : List MeshOp :=
  [.appendVertex (F32.ofInt 0) (F32.ofInt 0), .appendVertex (F32.ofInt 9) (F32.ofInt 9),
   .appendVertex (F32.ofInt 4) (F32.ofInt 0), .appendVertex (F32.ofInt 0) (F32.ofInt 3),
   .setFloatVertexAttribute 2 1 [F32.inf false], .appendTriangleIndices (0, 2, 3)]

def state : MeshState :=
  { attrs := attrs, ixf := .unpacked16,
    vertices := [[[F32.ofInt 0, F32.ofInt 0], [F32.zero]], [[F32.ofInt 9, F32.ofInt 9], [F32.zero]],
      [[F32.ofInt 4, F32.ofInt 0], [F32.inf false]], [[F32.ofInt 0, F32.ofInt 3], [F32.zero]]],
    triangles := [(0, 2, 3)] }

theorem run : MeshState.run { attrs := attrs, ixf := .unpacked16 } ops = some state := by rfl

theorem kept : keptAttrs [5] state.attrs = [(.f2In3Bytes, 0)] := by decide

theorem used : usedSpans state [5] =
    [[F32.ofInt 0, F32.ofInt 4, F32.ofInt 0], [F32.ofInt 0, F32.ofInt 0, F32.ofInt 3]] := by
  decide +kernel

/-- The case meets the requirements of `C45_contents_partial`. -/
theorem accepted : Accepted state [] [5] := by
  refine ⟨by unfold TrianglesValid; decide, by decide, by decide, by decide +kernel, Or.inl rfl, ?_⟩
  rintro ⟨j, a, h1, h2, h3, c, hc, x, hx, y, hy, h⟩
  rw [kept] at h1 hc
  rw [used] at hc
  match j with
  | 0 =>
    have hc' : c = [F32.ofInt 0, F32.ofInt 4, F32.ofInt 0] ∨
        c = [F32.ofInt 0, F32.ofInt 0, F32.ofInt 3] := by
      simpa [spansOf, components] using hc
    have key : ∀ c ∈ [[F32.ofInt 0, F32.ofInt 4, F32.ofInt 0], [F32.ofInt 0, F32.ofInt 0, F32.ofInt 3]],
        ∀ x ∈ c, ∀ y ∈ c, ¬ F32.ovf ≤ F32.toRat y - F32.toRat x := by decide +kernel
    exact key c (by simpa using hc') x hx y hy h
  | j + 1 => simp at h1

theorem columns_eq {j : Nat} {a : AttrType × AttrId} (h1 : (keptAttrs [5] state.attrs)[j]? = some a)
    {k b : Nat} {col : List F32} (h2 : (bits a.1)[k]? = some b)
    (h3 : (spansOf (keptAttrs [5] state.attrs) (usedSpans state [5]) j)[k]? = some col) :
    b = 12 ∧ (col = [F32.ofInt 0, F32.ofInt 4, F32.ofInt 0] ∨
      col = [F32.ofInt 0, F32.ofInt 0, F32.ofInt 3]) := by
  rw [kept] at h1 h3
  rw [used] at h3
  match j with
  | 0 =>
    obtain rfl : (AttrType.f2In3Bytes, 0) = a := by simpa using h1
    match k with
    | 0 =>
      obtain rfl : 12 = b := by simpa [bits] using h2
      exact ⟨rfl, Or.inl (by simpa [spansOf, components] using h3.symm)⟩
    | 1 =>
      obtain rfl : 12 = b := by simpa [bits] using h2
      exact ⟨rfl, Or.inr (by simpa [spansOf, components] using h3.symm)⟩
    | k + 2 => simp [bits] at h2
  | j + 1 => simp at h1

theorem quantisable {j : Nat} {a : AttrType × AttrId} (h1 : (keptAttrs [5] state.attrs)[j]? = some a)
    {k b : Nat} {col : List F32} (h2 : (bits a.1)[k]? = some b)
    (h3 : (spansOf (keptAttrs [5] state.attrs) (usedSpans state [5]) j)[k]? = some col) :
    Quantisable b col := by
  obtain ⟨rfl, rfl | rfl⟩ := columns_eq h1 h2 h3
  · exact ⟨by decide +kernel, Or.inr ⟨F32.ofInt 0, by simp, F32.ofInt 4, by simp, by decide +kernel⟩⟩
  · exact ⟨by decide +kernel, Or.inr ⟨F32.ofInt 0, by simp, F32.ofInt 3, by simp, by decide +kernel⟩⟩

theorem fine : FinePositions state [] [5] := by
  intro j a h1 _ _ _
  refine ⟨by intro cs h; simp at h, ?_⟩
  intro _ k b col h2 h3
  obtain ⟨rfl, rfl | rfl⟩ := columns_eq h1 h2 h3
  · exact ⟨by decide +kernel, Or.inr ⟨F32.ofInt 0, by simp, F32.ofInt 4, by simp, by decide +kernel,
      by decide +kernel⟩⟩
  · exact ⟨by decide +kernel, Or.inr ⟨F32.ofInt 0, by simp, F32.ofInt 3, by simp, by decide +kernel,
      by decide +kernel⟩⟩

/-- The mesh that is returned. -/
def result : Option Mesh :=
  (create attrs .unpacked16).bind fun f => (MutableMesh.new f).bind fun m => (m.run ops).bind fun m =>
    (asMeshes m [] [5]).bind fun ms => ms.bind fun ms => match ms with
      | [M] => some M
      | _ => none

example : (result.map fun M => (M.vertexCount, trianglesOf M)) = some (3, [(0, 1, 2)]) ∧
    (result.bind fun M => M.getTriangle 0) = some ((F32.ofInt 0, F32.ofInt 0),
      (F32.ofInt 4, F32.ofInt 0), (F32.ofInt 0, F32.ofInt 3)) := by
  decide +kernel

example {f : MeshFormat} (hf : create attrs .unpacked16 = some f) :
    ∃ m, (MutableMesh.new f).bind (·.run ops) = some m ∧
      ∃ moved parts, asMeshes m [] [5] = some (some (parts.map Prod.snd)) ∧
        MeshesOf state [] [5] moved parts :=
  C45_contents_partial hf ops state run [] [5] (by decide) accepted
    (fun _ _ h1 _ _ _ _ _ h2 h3 => quantisable h1 h2 h3) fine

end ExAs

/-- The documentation says that the parameters correspond to the attributes of `Format()`
(mutable_mesh.h:255-258). If attributes are omitted then they have to correspond to the attributes that
are left: parameters for all attributes are an error. -/
theorem C45_params_format_counterexample :
    ∃ (f : MeshFormat) (m : MutableMesh) (ms : List Mesh), create ExAs.attrs .unpacked16 = some f ∧
      (MutableMesh.new f).bind (·.run ExAs.ops) = some m ∧
      asMeshes m [none, none] [5] = some none ∧ asMeshes m [none] [5] = some (some ms) := by
  have h : ((create ExAs.attrs .unpacked16).bind fun f => ((MutableMesh.new f).bind
      (·.run ExAs.ops)).bind fun m => ((asMeshes m [none, none] [5]).bind fun r => if r.isSome then none
        else (asMeshes m [none] [5]).bind fun ms => ms)).isSome := by decide +kernel
  obtain ⟨ms, h⟩ := Option.isSome_iff_exists.1 h
  obtain ⟨f, hf, h⟩ := Option.bind_eq_some_iff.1 h
  obtain ⟨m, hm, h⟩ := Option.bind_eq_some_iff.1 h
  obtain ⟨r, h1, h⟩ := Option.bind_eq_some_iff.1 h
  cases r with
  | some _ => cases h
  | none =>
    obtain ⟨r, h2, h⟩ := Option.bind_eq_some_iff.1 ((if_neg Bool.false_ne_true).symm.trans h)
    exact ⟨f, m, ms, hf, hm, h1, h2.trans (congrArg some h)⟩

end Verif.Mesh
