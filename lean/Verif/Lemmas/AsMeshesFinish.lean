import Verif.Lemmas.AsMeshesPack

/-!
# The meshes returned by `MutableMesh::AsMeshes`, one by one
-/

set_option autoImplicit false

namespace Verif.Mesh

open Verif Verif.Mesh Verif.Mesh.Spec Verif.Flip Verif.FlipSpec

/-! ## What depends on the members of a column only -/

theorem quantisable_congr {b : Nat} {s t : List F32} (h : ∀ x, x ∈ s ↔ x ∈ t) (hq : Quantisable b s) :
    Quantisable b t := by
  obtain ⟨h1, h2⟩ := hq
  refine ⟨fun x hx => h1 x ((h x).2 hx), ?_⟩
  rcases h2 with h2 | ⟨x, hx, y, hy, h2⟩
  · exact Or.inl fun x hx y hy => h2 x ((h x).2 hx) y ((h y).2 hy)
  · exact Or.inr ⟨x, (h x).1 hx, y, (h y).1 hy, h2⟩

theorem fine_congr {b : Nat} {s t : List F32} (h : ∀ x, x ∈ s ↔ x ∈ t) (hq : FineColumn b s) :
    FineColumn b t := by
  obtain ⟨h1, h2⟩ := hq
  refine ⟨fun x hx => h1 x ((h x).2 hx), ?_⟩
  rcases h2 with h2 | ⟨x, hx, y, hy, h2, h3⟩
  · exact Or.inl fun x hx y hy => h2 x ((h x).2 hx) y ((h y).2 hy)
  · exact Or.inr ⟨x, (h x).1 hx, y, (h y).1 hy, h2, fun z hz => h3 z ((h z).2 hz)⟩

section

variable {m : MutableMesh} {s : MeshState} {om : List AttrId} {f : MeshFormat}
  {params : List (Option (List Coding))} {ps : List PartitionInfo}
  {total : List (List F32 × List F32)} {css : List (List Coding)}

/-- All vertices of the partitions. -/
def allOf (ps : List PartitionInfo) : List Nat := ps.flatMap fun p => p.vertices

/-- The span of the vertices of all partitions. -/
theorem cols_used (P : PartsOk s ps) {j : Nat} {a : AttrType × AttrId}
    (ha : (keptAttrs om s.attrs)[j]? = some a) (k : Nat) :
    (∀ c, (spansOf (keptAttrs om s.attrs) (columns (keptAttrs om s.attrs) ((allOf ps).map (kvert s om)))
        j)[k]? = some c → ∃ c', (spansOf (keptAttrs om s.attrs) (usedSpans s om) j)[k]? = some c' ∧
          ∀ x, x ∈ c' ↔ x ∈ c) ∧
    (∀ c', (spansOf (keptAttrs om s.attrs) (usedSpans s om) j)[k]? = some c' →
      ∃ c, (spansOf (keptAttrs om s.attrs) (columns (keptAttrs om s.attrs)
        ((allOf ps).map (kvert s om))) j)[k]? = some c ∧ ∀ x, x ∈ c' ↔ x ∈ c) := by
  have hm := mem_used (om := om) P
  unfold usedSpans
  rw [spansOf_columns _ _ ha, spansOf_columns _ _ ha]
  have hx : ∀ x, x ∈ column (usedVertices s om) j k ↔ x ∈ column ((allOf ps).map (kvert s om)) j k :=
    fun x => ⟨column_mem fun v hv => (hm v).2 hv, column_mem fun v hv => (hm v).1 hv⟩
  constructor
  · intro c hc
    rw [colsOf_get] at hc
    obtain ⟨h1, rfl⟩ := hc
    exact ⟨_, (colsOf_get _ _ _ _ _).2 ⟨h1, rfl⟩, hx⟩
  · intro c hc
    rw [colsOf_get] at hc
    obtain ⟨h1, rfl⟩ := hc
    exact ⟨_, (colsOf_get _ _ _ _ _).2 ⟨h1, rfl⟩, hx⟩

/-- What is known about the parameters. -/
structure Coded (m : MutableMesh) (s : MeshState) (om : List AttrId) (f : MeshFormat)
    (params : List (Option (List Coding))) (ps : List PartitionInfo)
    (total : List (List F32 × List F32)) (css : List (List Coding)) : Prop where
  C : Ctx m s om f
  A : Accepted s params om
  P : PartsOk s ps
  B : BoundsFor s om (allOf ps) total
  len : css.length = (keptAttrs om s.attrs).length
  each : ∀ (j : Nat) (a : AttrType × AttrId) (bj : List F32 × List F32) (cs : List Coding),
    (keptAttrs om s.attrs)[j]? = some a → total[j]? = some bj → css[j]? = some cs →
    params[j]? = some (some cs) ∨
      NotGiven params j ∧ computeCodingParams a.1 bj.1 bj.2 = some (some cs)
  quant : ∀ (j : Nat) (a : AttrType × AttrId), (keptAttrs om s.attrs)[j]? = some a → IsPacked a.1 →
    NotGiven params j → ∀ (k b : Nat) (col : List F32), (bits a.1)[k]? = some b →
      (spansOf (keptAttrs om s.attrs) (usedSpans s om) j)[k]? = some col → Quantisable b col

variable (K : Coded m s om f params ps total css)

include K

theorem Coded.paramsFor {j : Nat} {a : AttrType × AttrId} {cs : List Coding}
    (ha : (keptAttrs om s.attrs)[j]? = some a) (hg : params[j]? = some (some cs)) :
    ParamsFor (keptAttrs om s.attrs) (usedSpans s om) j a.1 cs := by
  rcases K.A.coding with h | ⟨-, h⟩
  · rw [h] at hg; simp at hg
  · exact h j a cs ha hg

theorem Coded.bound_at {j : Nat} {a : AttrType × AttrId} (ha : (keptAttrs om s.attrs)[j]? = some a) :
    ∃ bj cs, total[j]? = some bj ∧ css[j]? = some cs ∧ AttrData a.1 (spansOf (keptAttrs om s.attrs)
      (columns (keptAttrs om s.attrs) ((allOf ps).map (kvert s om))) j) bj := by
  have hlt := (List.getElem?_eq_some_iff.1 ha).1
  have h1 := List.getElem?_eq_getElem (l := total) (i := j) (by rw [K.B.1]; exact hlt)
  have h2 := List.getElem?_eq_getElem (l := css) (i := j) (by rw [K.len]; exact hlt)
  refine ⟨_, _, h1, h2, K.C.attrData ?_ K.B j a _ ha h1⟩
  intro v hv
  obtain ⟨p, hp, hvp⟩ := List.mem_flatMap.1 hv
  exact K.P.lt p hp v hvp

theorem Coded.size {j : Nat} {a : AttrType × AttrId} {cs : List Coding}
    (ha : (keptAttrs om s.attrs)[j]? = some a) (hc : css[j]? = some cs) :
    cs.length = components a.1 := by
  obtain ⟨bj, cs', h1, h2, D⟩ := K.bound_at ha
  rcases K.each j a bj cs ha h1 hc with h | ⟨-, h⟩
  · exact (K.paramsFor ha h).size
  · exact length_computed D.named h

theorem Coded.same {j : Nat} {a : AttrType × AttrId} {cs cs' : List Coding}
    (ha : (keptAttrs om s.attrs)[j]? = some a) (hc : css[j]? = some cs)
    (hg : params[j]? = some (some cs')) : cs' = cs := by
  obtain ⟨bj, cs', h1, h2, D⟩ := K.bound_at ha
  rcases K.each j a bj cs ha h1 hc with h | ⟨h, -⟩
  · rw [hg] at h; simpa using h
  · exact absurd hg (h _)

theorem Coded.lt {v : Nat} (hv : v ∈ allOf ps) : v < s.vertices.length := by
  obtain ⟨p, hp, hvp⟩ := List.mem_flatMap.1 hv
  exact K.P.lt p hp v hvp

/-- The integers for a value of a vertex. -/
theorem Coded.ints {j : Nat} {a : AttrType × AttrId} {cs : List Coding}
    (ha : (keptAttrs om s.attrs)[j]? = some a) (hc : css[j]? = some cs) (hp : IsPacked a.1)
    {v : Nat} (hv : v ∈ allOf ps) {val : List F32} (hval : (kvert s om v)[j]? = some val) :
    ∃ ks, packComponents cs val = some ks ∧ Fits a.1 ks ∧
      (∀ cs', params[j]? = some (some cs') →
        List.zipWith readBack cs val = List.zipWith unpackSingleFloat cs' ks ∧
        ∀ (k : Nat) (c : Coding) (v : F32) (z : Nat), cs'[k]? = some c → val[k]? = some v →
          ks[k]? = some z → F32.toRat (F32.fround (F32.div (F32.sub v c.offset) c.scale)) = z) ∧
      (NotGiven params j → (List.zipWith readBack cs val).length = components a.1 ∧
        ∀ (k b : Nat) (col : List F32) (lo hi v u : F32), (bits a.1)[k]? = some b →
          (spansOf (keptAttrs om s.attrs) (usedSpans s om) j)[k]? = some col → lo ∈ col → hi ∈ col →
          (∀ x ∈ col, F32.toRat lo ≤ F32.toRat x ∧ F32.toRat x ≤ F32.toRat hi) → val[k]? = some v →
          (List.zipWith readBack cs val)[k]? = some u → Close b lo hi v u) := by
  obtain ⟨bj, cs', h1, h2, D⟩ := K.bound_at ha
  rw [hc] at h2; cases h2
  have hl : val.length = components a.1 := by
    obtain ⟨val', e1, e2⟩ := (K.C.kshape (K.lt hv)).get ha
    rw [hval] at e1; cases e1; exact e2
  have hmem : ∀ (k : Nat) (x : F32), val[k]? = some x → ∃ c, (spansOf (keptAttrs om s.attrs)
      (columns (keptAttrs om s.attrs) ((allOf ps).map (kvert s om))) j)[k]? = some c ∧ x ∈ c := by
    intro k x hx
    rw [spansOf_columns _ _ ha]
    have hk := (List.getElem?_eq_some_iff.1 hx).1
    refine ⟨_, (colsOf_get _ _ _ _ _).2 ⟨by omega, rfl⟩, ?_⟩
    rw [mem_column]
    refine ⟨kvert s om v, List.mem_map.2 ⟨v, hv, rfl⟩, ?_⟩
    simp [List.getD_eq_getElem?_getD, hval, hx]
  by_cases hg : params[j]? = some (some cs)
  · obtain ⟨ks, k1, k2, k3, -⟩ := ints_of hp D (given := True) (cs := cs)
      (Or.inl ⟨trivial, K.size ha hc, by
        intro k b c col w1 w2 w3 x hx
        obtain ⟨c', q1, q2⟩ := (cols_used K.P ha k).1 col w3
        exact (K.paramsFor ha hg).reach k b c c' w1 w2 q1 x ((q2 x).2 hx)⟩) hl hmem
    refine ⟨ks, k1, k2, ?_, fun h => absurd hg (h _)⟩
    intro cs' hcs'
    have := K.same ha hc hcs'
    subst this
    exact k3 trivial
  · have hE := K.each j a bj cs ha h1 hc
    rcases hE with h | ⟨hn, h⟩
    · exact absurd h hg
    · obtain ⟨ks, k1, k2, -, k4⟩ := ints_of hp D (given := False) (cs := cs)
        (Or.inr ⟨id, h, by
          intro k b col w1 w2
          obtain ⟨c', q1, q2⟩ := (cols_used K.P ha k).1 col w2
          exact quantisable_congr q2 (K.quant j a ha hp hn k b c' w1 q1)⟩) hl hmem
      refine ⟨ks, k1, k2, fun cs' h => absurd h (hn _), fun _ => ?_⟩
      obtain ⟨l1, l2⟩ := k4 id
      refine ⟨l1, ?_⟩
      intro k b col lo hi x u w1 w2 w3 w4 w5 w6 w7
      obtain ⟨c, q1, q2⟩ := (cols_used K.P ha k).2 col w2
      obtain ⟨lo', hi', m1, m2, m3⟩ := D.exists_bounds q1
      have hcm := List.mem_of_getElem? q1
      have key := l2 k b lo' hi' x u w1 m1 m2 w6 w7
      have f1 := D.fin _ hcm lo' m3.lo_mem
      have f2 := D.fin _ hcm hi' m3.hi_mem
      have e1 : F32.toRat lo = F32.toRat lo' := by
        have a1 := (w5 lo' ((q2 _).2 m3.lo_mem)).1
        have hlo := (q2 _).1 w3
        have a2 := (F32.le_iff f1 (D.fin _ hcm lo hlo)).1 (m3.lo_le lo hlo)
        linarith
      have e2 : F32.toRat hi = F32.toRat hi' := by
        have a1 := (w5 hi' ((q2 _).2 m3.hi_mem)).2
        have hhi := (q2 _).1 w4
        have a2 := (F32.le_iff (D.fin _ hcm hi hhi) f2).1 (m3.le_hi hi hhi)
        linarith
      exact ⟨key.fin, by rw [e1, e2]; exact key.err⟩

/-! ## The positions -/

omit K in
theorem pointAt_eq (R : Rep m s) : m.pointAt = pointOf s := by
  funext v
  unfold MutableMesh.pointAt pointOf
  rw [vertexPosition_rep R]
  rfl

omit K in
theorem Ctx.position (C : Ctx m s om f) {v : Nat} (hv : v < s.vertices.length) :
    (kvert s om v)[f.positionIndex]? = some [(pointOf s v).x, (pointOf s v).y] ∧
    (pointOf s v).x.isFinite = true ∧ (pointOf s v).y.isFinite = true := by
  have L := layout C.R.fmt
  have L' := layout C.fmt
  obtain ⟨x, y, h1, h2⟩ := positionOf_eq L (vert s v) (C.shape hv)
  have hp : pointOf s v = ⟨x, y⟩ := by unfold pointOf; rw [vert_get hv, Option.bind_some, h2]
  obtain ⟨a, ha⟩ : ∃ a, (keptAttrs om s.attrs)[f.positionIndex]? = some a := by
    have := L'.pos
    rw [Option.map_eq_some_iff] at this
    obtain ⟨a, h, -⟩ := this
    exact ⟨a, h⟩
  obtain ⟨b, j, q1, q2, q3, q4⟩ := C.kept_at ha
  have hj : j = m.format.positionIndex := (position_iff L q4).1 ((position_iff L' ha).2 rfl)
  have he : (kvert s om v)[f.positionIndex]? = some [x, y] := by
    rw [C.kvert_get hv q1, hj, h1]
  have hf := C.kfin hv _ (List.mem_of_getElem? he)
  rw [hp]
  exact ⟨he, hf x (by simp), hf y (by simp)⟩

omit K in
theorem Ctx.finitePoint (C : Ctx m s om f) (v : Nat) :
    (pointOf s v).x.isFinite = true ∧ (pointOf s v).y.isFinite = true := by
  by_cases hv : v < s.vertices.length
  · exact (C.position hv).2
  · unfold pointOf
    rw [List.getElem?_eq_none (by omega)]
    exact ⟨rfl, rfl⟩

omit K in
theorem bits_two {t : AttrType} (h : components t = 2) (hp : IsPacked t) :
    ∃ bx bY, bits t = [bx, bY] ∧ packedBits t = some (some [bx, bY]) := by
  have h1 := length_bits t hp
  rw [h] at h1
  match hb : bits t, h1 with
  | [bx, bY], _ => exact ⟨bx, bY, rfl, by rw [packedBits_eq t hp, hb]⟩

omit K in
theorem packedBits_none {t : AttrType} (hn : ∀ code, t ≠ .unnamed code) (hp : ¬ IsPacked t) :
    packedBits t = some none := by
  unfold IsPacked at hp
  cases t <;> simp_all [bits, packedBits]

omit K in
theorem finite_unpack {c : Coding} {b k : Nat} {A : ℚ} (X : Precise c b A) (hk : k ≤ maxValueForBits b) :
    (unpackSingleFloat c k).isFinite = true := by
  have hM := maxValueForBits_eq X.b1
  have pow20 : 2 ^ b ≤ 2 ^ 20 := Nat.pow_le_pow_right (by norm_num) X.b1
  have hk' : k ≤ 2 ^ 20 := by omega
  obtain ⟨o1, o2, o3⟩ := ovf_bounds
  have fk := isFinite_floatOfU32 (n := k) (by omega)
  have tk := toRat_floatOfU32 (n := k) (by omega)
  have hkq : (k : ℚ) ≤ 2 ^ 20 := by exact_mod_cast hk'
  have s0 : (0 : ℚ) ≤ F32.toRat c.scale := _root_.le_trans (by norm_num) X.s0
  have hprod : |F32.toRat (floatOfU32 k) * F32.toRat c.scale| ≤ 2 ^ 120 := by
    rw [tk, abs_of_nonneg (by positivity)]
    have := mul_le_mul hkq X.s1 s0 (by norm_num)
    have e : (2 : ℚ) ^ 20 * 2 ^ 100 = 2 ^ 120 := by norm_num
    linarith
  have hb1 : |F32.toRat (floatOfU32 k) * F32.toRat c.scale| < F32.ovf := by
    have : (2 : ℚ) ^ 120 < 2 ^ 127 := by norm_num
    linarith
  have fm := F32.isFinite_mul fk X.coding.scale hb1
  have tm := F32.toRat_mul fk X.coding.scale hb1
  have e := F32.rnd_err (F32.toRat (floatOfU32 k) * F32.toRat c.scale)
  have e2 : |F32.toRat (F32.mul (floatOfU32 k) c.scale)| ≤ 2 ^ 121 := by
    rw [tm]
    have t := abs_sub_abs_le_abs_sub (F32.rnd (F32.toRat (floatOfU32 k) * F32.toRat c.scale))
      (F32.toRat (floatOfU32 k) * F32.toRat c.scale)
    have : max (1 / 2 ^ 150 : ℚ) (|F32.toRat (floatOfU32 k) * F32.toRat c.scale| / 2 ^ 24) ≤ 2 ^ 120 := by
      apply max_le
      · norm_num
      · rw [div_le_iff₀ (by norm_num)]
        refine _root_.le_trans hprod (by norm_num)
    have e3 : (2 : ℚ) ^ 120 + 2 ^ 120 = 2 ^ 121 := by norm_num
    linarith
  have hoff : |F32.toRat c.offset| ≤ 2 ^ 121 := by
    refine _root_.le_trans X.off (_root_.le_trans X.As ?_)
    have := mul_le_mul_of_nonneg_left X.s1 (by norm_num : (0 : ℚ) ≤ 2 ^ 21)
    refine _root_.le_trans this (by norm_num)
  unfold unpackSingleFloat
  apply F32.isFinite_add fm X.coding.offset
  refine lt_of_le_of_lt (abs_add_le _ _) ?_
  have : (2 : ℚ) ^ 121 + 2 ^ 121 < 2 ^ 127 := by norm_num
  linarith

/-- The vertices that are moved. -/
theorem Coded.moved (hfine : FinePositions s params om) :
    ∃ a cx cy moved, (keptAttrs om s.attrs)[f.positionIndex]? = some a ∧ a.2 = 0 ∧ components a.1 = 2 ∧
      css[f.positionIndex]? = some [cx, cy] ∧ correctedPositions m [cx, cy] = some moved ∧
      corrected s.triangles (pointOf s) cx cy (if bits a.1 = [] then none else some (bits a.1)) =
        some moved ∧
      (∀ v q, moved v = some q → v ∈ allOf ps ∧ IsPacked a.1 ∧
        |F32.toRat q.x - F32.toRat (pointOf s v).x| ≤ 2 * F32.toRat cx.scale ∧
        |F32.toRat q.y - F32.toRat (pointOf s v).y| ≤ 2 * F32.toRat cy.scale ∧
        q.x.isFinite = true ∧ q.y.isFinite = true ∧ readPoint cx cy q = q ∧
        ∃ ks, packComponents [cx, cy] [q.x, q.y] = some ks ∧ Fits a.1 ks) ∧
      ((∃ v, (moved v).isSome) → IsPacked a.1 ∧ NoneNegative s.triangles (pointOf s) ∧
        NoneNegative s.triangles fun v => readPoint cx cy ((moved v).getD (pointOf s v))) := by
  have L := layout K.C.R.fmt
  have L' := layout K.C.fmt
  have hp1 := L'.pos
  have hp2 := L'.pos2
  rw [Option.map_eq_some_iff] at hp1
  obtain ⟨a, ha, ha0⟩ := hp1
  rw [ha] at hp2
  simp only [Option.map_some, Option.some.injEq] at hp2
  obtain ⟨bj, cs, hbj, hcs, D⟩ := K.bound_at ha
  have hsz := K.size ha hcs
  rw [hp2] at hsz
  obtain ⟨cx, cy, rfl⟩ : ∃ cx cy, cs = [cx, cy] := by
    match cs, hsz with
    | [cx, cy], _ => exact ⟨cx, cy, rfl⟩
  -- the type in the mutable mesh
  obtain ⟨b, j, q1, q2, q3, q4⟩ := K.C.kept_at ha
  have hj : j = m.format.positionIndex := (position_iff L q4).1 ((position_iff L' ha).2 rfl)
  have hb : b.type = a.1 := by rw [q2]
  have htris : readTris m.indexStride m.indexData m.triangleCount = some s.triangles := by
    have hw : indexBytes s.ixf = 2 ∨ indexBytes s.ixf = 4 := by cases s.ixf <;> simp [indexBytes]
    have hstr : m.indexStride = indexBytes s.ixf := indexStride_eq K.C.R
    rw [hstr, K.C.R.id, K.C.R.tc,
      readTris_eq _ hw _ (fun t ht => K.C.R.fits t ht) _ (le_refl _), List.take_length]
  have hcp : correctedPositions m [cx, cy] =
      (packedBits a.1).bind fun bits => corrected s.triangles (pointOf s) cx cy bits := by
    unfold correctedPositions
    rw [← hj, q3, htris, pointAt_eq K.C.R]
    simp [hb]
  by_cases hpk : IsPacked a.1
  swap
  · refine ⟨a, cx, cy, fun _ => none, ha, ha0, hp2, hcs, ?_, ?_, (by intro v q h; cases h), ?_⟩
    · rw [hcp, packedBits_none D.named hpk]; rfl
    · rw [if_pos (not_not.1 hpk)]; rfl
    · rintro ⟨v, h⟩; cases h
  obtain ⟨bx, bY, hbits, hpb⟩ := bits_two hp2 hpk
  have hsome := (C46_terminates s.triangles (pointOf s) cx cy bx bY).1
  obtain ⟨moved, hmv⟩ := Option.isSome_iff_exists.1 hsome
  have hcp' : correctedPositions m [cx, cy] = some moved := by rw [hcp, hpb]; exact hmv
  have hmv' : corrected s.triangles (pointOf s) cx cy (if bits a.1 = [] then none else some (bits a.1)) =
      some moved := by
    rw [if_neg hpk, hbits]; exact hmv
  by_cases hex : ∃ v, (moved v).isSome
  swap
  · refine ⟨a, cx, cy, moved, ha, ha0, hp2, hcs, hcp', hmv', ?_, fun h => absurd h hex⟩
    intro v q h
    exact absurd ⟨v, by rw [h]; rfl⟩ hex
  -- no triangle was negative
  have hnn : NoneNegative s.triangles (pointOf s) := by
    intro t ht
    by_contra hh
    rw [Bool.not_eq_false] at hh
    have := (C46_not_needed s.triangles (pointOf s) cx cy bx bY).1 (Or.inl ⟨t, ht, hh⟩)
    rw [hmv] at this
    obtain ⟨v, hv⟩ := hex
    rw [Option.some.inj this] at hv
    cases hv
  obtain ⟨fg, fc⟩ := hfine _ a ha ha0 hpk hnn
  -- the precision
  have hpr : ∀ (k b : Nat) (c : Coding), (bits a.1)[k]? = some b → [cx, cy][k]? = some c →
      12 ≤ b → Precise c b (2 ^ 21 * F32.toRat c.scale) := by
    intro k b c w1 w2 w3
    rcases K.each _ a bj _ ha hbj hcs with h | ⟨hn, h⟩
    · exact fg _ h k b c w1 w2
    · rw [computeCodingParams_packed hpk] at h
      obtain ⟨lo, hi, g1, g2, g3⟩ := codingLoop_get _ _ _ _ h k b c w1 w2
      obtain ⟨col, h1, h2, -⟩ := D.bound g1 g2
      obtain ⟨c', q1, q2⟩ := (cols_used K.P ha k).1 col h1
      exact precise_of_fine w3 (bits_bounds _ _ (List.mem_of_getElem? w1)).2 h2
        (fun x hx => D.fin _ (List.mem_of_getElem? h1) x hx)
        (fine_congr q2 (fc hn k b c' w1 q1)) g3
  have h12 : 12 ≤ bx ∧ 12 ≤ bY := by
    have : ∀ t : AttrType, components t = 2 → ∀ b ∈ bits t, 12 ≤ b := by
      intro t; cases t <;> simp [components, bits]
    have h := this a.1 hp2
    rw [hbits] at h
    exact ⟨h bx (by simp), h bY (by simp)⟩
  have X := hpr 0 bx cx (by rw [hbits]; rfl) rfl h12.1
  have Y := hpr 1 bY cy (by rw [hbits]; rfl) rfl h12.2
  have hall : ∀ t ∈ s.triangles, ∀ v, Corner t v → v ∈ allOf ps := by
    intro t ht v hv
    refine (K.P.mem v).2 (List.mem_flatMap.2 ⟨t, ht, ?_⟩)
    rcases hv with rfl | rfl | rfl <;> simp
  have hd : Distinct s.triangles := fun t ht => by
    obtain ⟨-, -, -, h⟩ := K.A.triangles t ht
    exact h
  have hin : ∀ t ∈ s.triangles, ∀ v, Corner t v →
      InRange cx bx (pointOf s v).x ∧ InRange cy bY (pointOf s v).y := by
    intro t ht v hv
    have hva := hall t ht v hv
    obtain ⟨ks, k1, k2, -⟩ := K.ints ha hcs hpk hva (K.C.position (K.lt hva)).1
    unfold Fits at k2
    rw [hbits] at k2
    simp only [packComponents] at k1
    cases hx : packSingleFloat cx (pointOf s v).x with
    | none => simp [hx] at k1
    | some kx =>
      cases hy : packSingleFloat cy (pointOf s v).y with
      | none => simp [hx, hy] at k1
      | some ky =>
        simp [hx, hy] at k1
        subst k1
        simp at k2
        have e1 := maxValueForBits_eq X.b1
        have e2 := maxValueForBits_eq Y.b1
        exact ⟨⟨kx, hx, by omega⟩, ⟨ky, hy, by omega⟩⟩
  obtain ⟨c1, c2⟩ := C46_corrected_partial s.triangles (pointOf s) cx cy bx bY _ _ X Y hd
    K.C.finitePoint hin moved hmv hex
  refine ⟨a, cx, cy, moved, ha, ha0, hp2, hcs, hcp', hmv', ?_, fun _ => ⟨hpk, hnn, c1⟩⟩
  intro v q hq
  obtain ⟨⟨t, ht, hv⟩, d1, d2, ⟨kx, i1, i2⟩, ⟨ky, j1, j2⟩, hr⟩ := c2 v q hq
  have e1 := maxValueForBits_eq X.b1
  have e2 := maxValueForBits_eq Y.b1
  have p1 : 0 < 2 ^ bx := Nat.two_pow_pos bx
  have p2 : 0 < 2 ^ bY := Nat.two_pow_pos bY
  have hqx : q.x = unpackSingleFloat cx kx := by
    have := congrArg PointF.x hr
    simp only [readPoint, readBack, i1] at this
    exact this.symm
  have hqy : q.y = unpackSingleFloat cy ky := by
    have := congrArg PointF.y hr
    simp only [readPoint, readBack, j1] at this
    exact this.symm
  refine ⟨hall t ht v hv, hpk, ?_, ?_, ?_, ?_, hr, [kx, ky], ?_, ?_⟩
  · have : F32.toRat cx.scale + 2 ^ 21 * F32.toRat cx.scale / 2 ^ 21 = 2 * F32.toRat cx.scale := by ring
    rw [this] at d1; exact d1
  · have : F32.toRat cy.scale + 2 ^ 21 * F32.toRat cy.scale / 2 ^ 21 = 2 * F32.toRat cy.scale := by ring
    rw [this] at d2; exact d2
  · rw [hqx]; exact finite_unpack X i2
  · rw [hqy]; exact finite_unpack Y j2
  · simp [packComponents, i1, j1]
  · unfold Fits
    rw [hbits]
    exact List.Forall₂.cons (by omega) (List.Forall₂.cons (by omega) List.Forall₂.nil)

/-- What is known about the vertices that are moved. -/
def MovedOk (om : List AttrId) (s : MeshState) (ps : List PartitionInfo) (pos : Nat)
    (css : List (List Coding)) (moved : Nat → Option PointF) : Prop :=
  ∀ v q, moved v = some q → ∃ a cs, (keptAttrs om s.attrs)[pos]? = some a ∧ css[pos]? = some cs ∧
    v ∈ allOf ps ∧ IsPacked a.1 ∧ q.x.isFinite = true ∧ q.y.isFinite = true ∧
    ∃ ks, packComponents cs [q.x, q.y] = some ks ∧ Fits a.1 ks

omit K in
theorem Ctx.mvert_get (C : Ctx m s om f) (moved : Nat → Option PointF) {v : Nat}
    (hv : v < s.vertices.length) {j : Nat} {a : AttrType × AttrId}
    (ha : (keptAttrs om s.attrs)[j]? = some a) :
    (a.2 ≠ 0 ∨ moved v = none → (mvert s om moved v)[j]? = (kvert s om v)[j]?) ∧
    ∀ q, j = f.positionIndex → moved v = some q → (mvert s om moved v)[j]? = some [q.x, q.y] := by
  have L' := layout C.fmt
  have hl := (List.getElem?_eq_some_iff.1 ha).1
  unfold mvert
  constructor
  · intro h
    cases hm : moved v with
    | none => rfl
    | some q =>
      simp only
      rw [withPosition_eq L' _ (C.kshape hv).length, List.getElem?_set]
      rcases h with h | h
      · rw [if_neg fun e => h ((position_iff L' ha).2 e.symm)]
      · rw [hm] at h; cases h
  · intro q hj hm
    rw [hm]
    simp only
    rw [withPosition_eq L' _ (C.kshape hv).length, List.getElem?_set, if_pos hj.symm,
      if_pos (by rw [← hj, (C.kshape hv).length]; exact hl)]

theorem Coded.pack {moved : Nat → Option PointF} (hm : MovedOk om s ps f.positionIndex css moved)
    {v : Nat} (hv : v ∈ allOf ps) {j : Nat} {a : AttrType × AttrId} {cs : List Coding}
    (ha : (keptAttrs om s.attrs)[j]? = some a) (hc : css[j]? = some cs) :
    ∃ val blk us, (mvert s om moved v)[j]? = some val ∧ packAttribute a.1 cs val = some blk ∧
      blk.length = packedBytes a.1 ∧ (∀ x ∈ val, x.isFinite = true) ∧
      unpackAttribute a.1 cs blk = some us ∧ (IsPacked a.1 → us = List.zipWith readBack cs val) ∧
      (¬ IsPacked a.1 → us = val) := by
  have hlt := K.lt hv
  obtain ⟨g1, g2⟩ := K.C.mvert_get moved hlt ha
  have hnamed := (create_eq K.C.fmt).1.namedType a (List.mem_of_getElem? ha)
  by_cases h : a.2 ≠ 0 ∨ moved v = none
  · obtain ⟨val, e1, e2⟩ := (K.C.kshape hlt).get ha
    have hfin := K.C.kfin hlt val (List.mem_of_getElem? e1)
    rw [g1 h]
    by_cases hp : IsPacked a.1
    · obtain ⟨ks, k1, k2, -⟩ := K.ints ha hc hp hv e1
      obtain ⟨blk, l1, l2, -, l4⟩ := packed_block hp k1 k2
      exact ⟨val, blk, _, e1, l1, l2, hfin, l4, fun _ => rfl, fun h => absurd hp h⟩
    · obtain ⟨blk, l1, l2, -, l4⟩ := C12_unpacked_exact a.1 cs val hp hnamed e2
      exact ⟨val, blk, _, e1, l1, l2, hfin, l4, fun h => absurd h hp, fun _ => rfl⟩
  · have h1 : a.2 = 0 := by by_contra hh; exact h (Or.inl hh)
    obtain ⟨q, hq⟩ := Option.ne_none_iff_exists'.1 (fun e => h (Or.inr e))
    have hj := (position_iff (layout K.C.fmt) ha).1 h1
    obtain ⟨a', cs', q1, q2, -, q3, q4, q5, ks, q6, q7⟩ := hm v q hq
    rw [← hj, ha] at q1; cases q1
    rw [← hj, hc] at q2; cases q2
    obtain ⟨blk, l1, l2, -, l4⟩ := packed_block q3 q6 q7
    refine ⟨[q.x, q.y], blk, _, g2 q hj hq, l1, l2, ?_, l4, fun _ => rfl, fun h => absurd q3 h⟩
    intro x hx
    simp only [List.mem_cons, List.not_mem_nil, or_false] at hx
    rcases hx with rfl | rfl
    · exact q4
    · exact q5

/-- The mesh of a partition. -/
theorem Coded.mesh {moved : Nat → Option PointF} (hm : MovedOk om s ps f.positionIndex css moved)
    {p : PartitionInfo} (hp : p ∈ ps) (b : List (List F32 × List F32)) :
    ∃ M, packPartition m om f css moved p b = some M ∧ M.format = f ∧ M.unpackingParams = css ∧
      M.attributeBounds = some b ∧ M.vertexCount = p.vertices.length ∧
      M.triangleCount = p.triangles.length ∧ (∀ i, M.triangleIndices i = p.triangles[i]?) ∧
      ∀ (i v : Nat), p.vertices[i]? = some v → ∀ (j : Nat) (a : AttrType × AttrId) (cs : List Coding),
        (keptAttrs om s.attrs)[j]? = some a → css[j]? = some cs →
        ∃ val blk us, (mvert s om moved v)[j]? = some val ∧ packAttribute a.1 cs val = some blk ∧
          M.packedVertexAttribute i j = some blk ∧ M.floatVertexAttribute i j = some us ∧
          unpackAttribute a.1 cs blk = some us ∧
          (IsPacked a.1 → us = List.zipWith readBack cs val) ∧ (¬ IsPacked a.1 → us = val) := by
  have hW := (create_eq K.C.fmt).1
  have F := fmt_of K.C.fmt
  have hall : ∀ v ∈ p.vertices, v ∈ allOf ps := fun v hv => List.mem_flatMap.2 ⟨p, hp, hv⟩
  have hn : numVertices (pspans s om moved p.vertices) = p.vertices.length := by
    unfold pspans; rw [numVertices_columns hW, List.length_map]
  have hWt : ∀ i v : Nat, p.vertices[i]? = some v →
      (p.vertices.map (mvert s om moved))[i]? = some (mvert s om moved v) := by
    intro i v hv; rw [List.getElem?_map, hv]; rfl
  have hacc : Acceptable (keptAttrs om s.attrs) (pspans s om moved p.vertices) (corners p.triangles) := by
    refine ⟨length_columns _ _, ?_, ?_, ?_, ?_, ?_⟩
    · rw [hn]; exact K.P.small p hp
    · intro c hc
      rw [hn, columns_mem_length hc, List.length_map]
    · intro c hc x hx
      unfold pspans columns at hc
      obtain ⟨aj, h1, h2⟩ := List.mem_flatMap.1 hc
      obtain ⟨k, hk, rfl⟩ := List.mem_map.1 h2
      rw [List.mem_zipIdx_iff_getElem?] at h1
      rw [mem_column] at hx
      obtain ⟨w, hw, rfl⟩ := hx
      obtain ⟨v, hv, rfl⟩ := List.mem_map.1 hw
      obtain ⟨bj, cs, -, hcs, -⟩ := K.bound_at h1
      obtain ⟨val, blk, us, e1, -, -, e4, -⟩ := K.pack hm (hall v hv) h1 hcs
      simp only [List.getD_eq_getElem?_getD, e1, Option.getD_some]
      cases hg : val[k]? with
      | none => rfl
      | some y => exact e4 y (List.mem_of_getElem? hg)
    · rw [length_corners]; exact Nat.dvd_mul_right 3 _
    · intro i hi
      rw [hn]
      obtain ⟨t, ht, hit⟩ := List.mem_flatMap.1 hi
      obtain ⟨f1, f2, f3⟩ := K.P.fits p hp t ht
      simp only [List.mem_cons, List.not_mem_nil, or_false] at hit
      rcases hit with rfl | rfl | rfl
      · exact f1
      · exact f2
      · exact f3
  have hcount : p.triangles.length < maxCount := by
    have h1 := List.le_sum_of_mem (List.mem_map.2 ⟨p, hp, rfl⟩ :
      p.triangles.length ∈ ps.map fun p => p.triangles.length)
    rw [K.P.count] at h1
    have := K.C.R.tmax
    omega
  have hval : ∀ i v : Nat, p.vertices[i]? = some v → ∀ (j : Nat) (a : AttrType × AttrId),
      (keptAttrs om s.attrs)[j]? = some a → (mvert s om moved v)[j]? =
        some (valueAt (keptAttrs om s.attrs) (pspans s om moved p.vertices) i j) := by
    intro i v hv j a ha
    exact valueAt_columns (hWt i v hv) (K.C.mshape moved (K.lt (hall v (List.mem_of_getElem? hv)))) ha
  obtain ⟨M, e1, e2, e3, e4, e5, e6, e7, e8⟩ := finish_eq K.C.fmt hacc (by rw [triples_corners]; exact hcount)
    (gs := (List.range (keptAttrs om s.attrs).length).map
        (spansOf (keptAttrs om s.attrs) (pspans s om moved p.vertices)))
    (by simp) (by intro j hj; rw [List.getElem?_map, List.getElem?_range hj]; rfl) (some b) K.len
    (by
      intro i hi j a cs ha hc
      rw [hn] at hi
      have hv := List.getElem?_eq_getElem hi
      obtain ⟨val, blk, us, q1, q2, q3, -⟩ := K.pack hm (hall _ (List.mem_of_getElem? hv)) ha hc
      rw [hval i _ hv j a ha] at q1
      cases q1
      exact ⟨blk, q2, q3⟩)
  rw [hn, ← K.C.packPartition_eq moved K.len (K.P.vne p hp) (K.P.lt p hp) b, Option.map_eq_some_iff] at e1
  obtain ⟨M', e1, hMM⟩ := e1
  cases hMM
  rw [triples_corners] at e6 e7
  refine ⟨M, e1, e2, e3, e4, by rw [e5, hn], e6, e7, ?_⟩
  intro i v hv j a cs ha hc
  obtain ⟨val, blk, us, q1, q2, q3, -, q5, q6, q7⟩ := K.pack hm (hall _ (List.mem_of_getElem? hv)) ha hc
  have q1' := q1
  rw [hval i _ hv j a ha] at q1'
  cases q1'
  have hpv := e8 i (by rw [hn]; exact (List.getElem?_eq_some_iff.1 hv).1) j a cs blk ha hc q2
  obtain ⟨a', w1, w2⟩ := at_attr F ha
  refine ⟨_, blk, us, q1, q2, hpv, ?_, q5, q6, q7⟩
  simp only [Mesh.floatVertexAttribute, hpv, e2, e3, w1, hc, Option.bind_eq_bind,
            Option.bind_some, w2, q5]

end

end Verif.Mesh
