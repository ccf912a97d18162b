import Verif.Spec.MutableMesh
import Verif.Props.Partition

/-!
# C13: a `MutableMesh` is a list of vertices and a list of triangles

See `/verif/properties.jsonl`.
-/

set_option autoImplicit false

namespace Verif.Mesh

open Verif Verif.Mesh.Spec

/-! ## Byte arrays made of equally sized blocks -/

section Blocks

variable {α : Type} {enc : α → List Nat} {k : Nat}

theorem length_blocks (l : List α) (h : ∀ x ∈ l, (enc x).length = k) :
    (l.flatMap enc).length = l.length * k := by
  induction l with
  | nil => simp
  | cons a l ih =>
    rw [List.flatMap_cons, List.length_append, ih (fun x hx => h x (by simp [hx])), h a (by simp),
      List.length_cons]
    ring

theorem take_drop_blocks (l : List α) (h : ∀ x ∈ l, (enc x).length = k) (n : Nat)
    (hn : n ≤ l.length) :
    (l.flatMap enc).take (n * k) = (l.take n).flatMap enc ∧
    (l.flatMap enc).drop (n * k) = (l.drop n).flatMap enc := by
  have e : l.flatMap enc = (l.take n).flatMap enc ++ (l.drop n).flatMap enc := by
    rw [← List.flatMap_append, List.take_append_drop]
  have hl : ((l.take n).flatMap enc).length = n * k := by
    rw [length_blocks _ (fun x hx => h x (List.mem_of_mem_take hx)), List.length_take,
      Nat.min_eq_left hn]
  rw [e]
  exact ⟨List.take_left' hl, List.drop_left' hl⟩

theorem resize_blocks (l : List α) (d : α) (h : ∀ x ∈ l, (enc x).length = k)
    (hd : enc d = List.replicate k 0) (n : Nat) :
    resizeBytes (n * k) (l.flatMap enc) = (padTo n d l).flatMap enc := by
  unfold resizeBytes padTo
  have hrep : ∀ m, (List.replicate m d).flatMap enc = List.replicate (m * k) 0 := by
    intro m
    induction m with
    | zero => simp
    | succ m ih =>
      rw [List.replicate_succ, List.flatMap_cons, ih, hd, List.replicate_append_replicate]
      congr 1; ring
  rw [List.flatMap_append, hrep, length_blocks l h, ← Nat.sub_mul]
  congr 1
  by_cases hn : n ≤ l.length
  · exact (take_drop_blocks l h n hn).1
  · have hn' : l.length ≤ n := by omega
    rw [List.take_of_length_le hn', List.take_of_length_le]
    rw [length_blocks l h]
    exact Nat.mul_le_mul_right _ hn'

theorem read_block (P B S : List Nat) : readBytes P.length B.length (P ++ B ++ S) = some B := by
  unfold readBytes
  rw [if_pos (by simp), List.append_assoc, List.drop_left, List.take_left]

theorem write_block (P B S B' : List Nat) (h : B'.length = B.length) :
    writeBytes P.length B' (P ++ B ++ S) = some (P ++ B' ++ S) := by
  unfold writeBytes
  rw [if_pos (by simp [h]), List.append_assoc P B S, List.take_left, ← List.drop_drop,
    List.drop_left, h, List.drop_left]

end Blocks

/-! ## Encoding of a vertex -/

def encValue (v : List F32) : List Nat := v.flatMap bytesOfFloat

def encVertex (v : Vertex) : List Nat := v.flatMap encValue

def encTri (w : Nat) (t : Tri) : List Nat :=
  [t.1, t.2.1, t.2.2].flatMap fun n => (List.range w).map fun k => n / 256 ^ k % 256

theorem indexBytesOf_blocks (w : Nat) (ts : List Tri) :
    indexBytesOf w ts = ts.flatMap (encTri w) := rfl

theorem length_encTri (w : Nat) (t : Tri) : (encTri w t).length = 3 * w := by
  simp [encTri]; ring

theorem encTri_zero (w : Nat) : encTri w (0, 0, 0) = List.replicate (3 * w) 0 := by
  rw [List.eq_replicate_iff]
  refine ⟨length_encTri _ _, ?_⟩
  intro b hb
  simp [encTri] at hb
  omega

theorem length_encValue (v : List F32) : (encValue v).length = 4 * v.length := by
  unfold encValue
  rw [length_blocks (k := 4) v (fun _ _ => rfl)]; ring

theorem length_encVertex (v : Vertex) : (encVertex v).length = ((v.map List.length).map (4 * ·)).sum := by
  induction v with
  | nil => rfl
  | cons a v ih =>
    simp only [encVertex, List.flatMap_cons, List.length_append, List.map_cons, List.sum_cons] at ih ⊢
    rw [ih, length_encValue]

/-- One value per attribute, each with one float per component. -/
def Shaped (attrs : List (AttrType × AttrId)) (v : Vertex) : Prop :=
  v.map List.length = attrs.map fun a => components a.1

theorem Shaped.length {attrs : List (AttrType × AttrId)} {v : Vertex} (h : Shaped attrs v) :
    v.length = attrs.length := by
  have := congrArg List.length h; simpa using this

theorem Shaped.get {attrs : List (AttrType × AttrId)} {v : Vertex} (h : Shaped attrs v) {j : Nat}
    {a : AttrType × AttrId} (ha : attrs[j]? = some a) :
    ∃ value, v[j]? = some value ∧ value.length = components a.1 := by
  have := congrArg (·[j]?) h
  simp only [List.getElem?_map, ha, Option.map_some, Option.map_eq_some_iff] at this
  exact this

theorem shaped_zero (attrs : List (AttrType × AttrId)) : Shaped attrs (zeroVertex attrs) := by
  simp [Shaped, zeroVertex]

theorem Shaped.set {attrs : List (AttrType × AttrId)} {v : Vertex} (h : Shaped attrs v) {j : Nat}
    {a : AttrType × AttrId} (ha : attrs[j]? = some a) {value : List F32}
    (hv : value.length = components a.1) : Shaped attrs (v.set j value) := by
  unfold Shaped at h ⊢
  rw [List.map_set, h, hv]
  apply List.ext_getElem?
  intro i
  rw [List.getElem?_set]
  split
  · rename_i e; subst e
    split
    · rw [List.getElem?_map, ha]; rfl
    · rename_i hlt
      rw [List.getElem?_eq_none (by omega)]
  · rfl

theorem bytesOfFloat_zero : bytesOfFloat F32.zero = List.replicate 4 0 := by decide +kernel

/-- The layout facts of a created format that matter here. -/
structure Layout (attrs : List (AttrType × AttrId)) (f : MeshFormat) : Prop where
  valid : Valid attrs
  stride : f.unpackedStride = (attrs.map fun a => 4 * components a.1).sum
  attr : ∀ j : Nat, f.attributes[j]?.map (fun a : Attribute => (a.type, a.id)) = attrs[j]?
  off : ∀ (j : Nat) (a : Attribute), f.attributes[j]? = some a →
    a.unpackedOffset = ((attrs.take j).map fun a => 4 * components a.1).sum
  pos : attrs[f.positionIndex]?.map Prod.snd = some 0
  pos2 : attrs[f.positionIndex]?.map (fun a => components a.1) = some 2

theorem layout {attrs : List (AttrType × AttrId)} {ixf : IndexFormat} {f : MeshFormat}
    (h : create attrs ixf = some f) : Layout attrs f := by
  obtain ⟨hv, e, -, -, hp, hp2, hw, ht, -⟩ := create_eq h
  have hmap : ∀ l : List Attribute, (∀ a ∈ l, a ∈ f.attributes) →
      (l.map fun a => (a.unpackedOffset, a.unpackedWidth)).map Prod.snd =
        (l.map fun a => (a.type, a.id)).map fun a => 4 * components a.1 := by
    intro l hl
    rw [List.map_map, List.map_map]
    exact List.map_congr_left fun a ha => (hw a (hl a ha)).1
  refine ⟨hv, ?_, ?_, ?_, hp, hp2⟩
  · rw [ht.2, hmap _ (fun a ha => ha), e]
  · intro j
    rw [← e, List.getElem?_map]
  · intro j a ha
    have := ht.1 j (a.unpackedOffset, a.unpackedWidth) (by rw [List.getElem?_map, ha]; rfl)
    simp only at this
    rw [this, ← List.map_take, hmap _ (fun a ha => List.mem_of_mem_take ha), List.map_take, e]

theorem Shaped.length_enc {attrs : List (AttrType × AttrId)} {v : Vertex} (h : Shaped attrs v) :
    (encVertex v).length = (attrs.map fun a => 4 * components a.1).sum := by
  rw [length_encVertex, h, List.map_map]; rfl

theorem Shaped.take {attrs : List (AttrType × AttrId)} {v : Vertex} (h : Shaped attrs v) (j : Nat) :
    Shaped (attrs.take j) (v.take j) := by
  unfold Shaped at h ⊢
  rw [List.map_take, h, List.map_take]

theorem enc_zeroVertex (attrs : List (AttrType × AttrId)) :
    encVertex (zeroVertex attrs) =
      List.replicate (attrs.map fun a => 4 * components a.1).sum 0 := by
  rw [List.eq_replicate_iff]
  refine ⟨(shaped_zero attrs).length_enc, ?_⟩
  intro b hb
  simp only [encVertex, encValue, zeroVertex, List.mem_flatMap, List.mem_map, exists_exists_and_eq_and]
    at hb
  obtain ⟨a, -, x, hx, hb⟩ := hb
  rw [(List.mem_replicate.1 hx).2, bytesOfFloat_zero] at hb
  exact (List.mem_replicate.1 hb).2

/-- Where the value of attribute `j` of vertex `i` is stored, and that replacing these bytes replaces
that value and nothing else. -/
theorem attribute_block {attrs : List (AttrType × AttrId)} {f : MeshFormat} (L : Layout attrs f)
    (vs : List Vertex) (hs : ∀ v ∈ vs, Shaped attrs v) (i j : Nat) (a : Attribute) (v : Vertex)
    (ha : f.attributes[j]? = some a) (hv : vs[i]? = some v) :
    ∃ P S, P.length = i * f.unpackedStride + a.unpackedOffset ∧
      ∀ value, (vs.modify i fun v => v.set j value).flatMap encVertex = P ++ encValue value ++ S := by
  have hi := (List.getElem?_eq_some_iff.1 hv).1
  have hvi := (List.getElem?_eq_some_iff.1 hv).2
  have hsv : Shaped attrs v := hs v (List.mem_of_getElem? hv)
  have haj : attrs[j]? = some (a.type, a.id) := by rw [← L.attr j, ha]; rfl
  have hj : j < v.length := by
    rw [hsv.length]; exact (List.getElem?_eq_some_iff.1 haj).1
  refine ⟨(vs.take i).flatMap encVertex ++ encVertex (v.take j),
    encVertex (v.drop (j + 1)) ++ (vs.drop (i + 1)).flatMap encVertex, ?_, ?_⟩
  · rw [List.length_append, length_blocks (k := f.unpackedStride), List.length_take,
      Nat.min_eq_left (Nat.le_of_lt hi), (hsv.take j).length_enc, L.off j a ha]
    intro u hu
    rw [(hs u (List.mem_of_mem_take hu)).length_enc, L.stride]
  · intro value
    have e1 : vs.modify i (fun v => v.set j value) = vs.take i ++ v.set j value :: vs.drop (i + 1) := by
      rw [List.modify_eq_take_cons_drop hi, hvi]
    have e2 : v.set j value = v.take j ++ value :: v.drop (j + 1) := by
      rw [List.set_eq_take_append_cons_drop, if_pos hj]
    rw [e1, List.flatMap_append, List.flatMap_cons, e2]
    simp only [encVertex, List.flatMap_append, List.flatMap_cons, List.append_assoc]

theorem modify_id (vs : List Vertex) (i j : Nat) (v : Vertex) (value : List F32)
    (hv : vs[i]? = some v) (hj : v[j]? = some value) :
    (vs.modify i fun v => v.set j value) = vs := by
  apply List.ext_getElem?
  intro n
  rw [List.getElem?_modify]
  by_cases h : i = n
  · subst h
    rw [hv]
    simp only [if_true, Option.map_eq_map, Option.map_some, Option.some.injEq]
    obtain ⟨h1, rfl⟩ := List.getElem?_eq_some_iff.1 hj
    exact List.set_getElem_self h1
  · simp [h]

/-- The position attribute is the one at the position index. -/
theorem withPosition_eq {attrs : List (AttrType × AttrId)} {f : MeshFormat} (L : Layout attrs f)
    (v : Vertex) (hv : v.length = attrs.length) (x y : F32) :
    withPosition attrs v x y = v.set f.positionIndex [x, y] := by
  have hp := L.pos
  cases hpa : attrs[f.positionIndex]? with
  | none => rw [hpa] at hp; simp at hp
  | some p =>
    rw [hpa] at hp
    have hp0 : p.2 = 0 := by simpa using hp
    apply List.ext_getElem?
    intro j
    rw [withPosition, List.getElem?_zipWith, List.getElem?_set]
    cases ha : attrs[j]? with
    | none =>
      have h1 : attrs.length ≤ j := by
        by_contra hh; rw [List.getElem?_eq_getElem (by omega)] at ha; cases ha
      have h2 : f.positionIndex < attrs.length := (List.getElem?_eq_some_iff.1 hpa).1
      rw [if_neg (by omega), List.getElem?_eq_none (by omega)]
    | some a =>
      have h1 : j < attrs.length := (List.getElem?_eq_some_iff.1 ha).1
      rw [List.getElem?_eq_getElem (l := v) (by omega)]
      simp only
      by_cases hj : f.positionIndex = j
      · subst hj
        rw [hpa] at ha
        cases ha
        rw [if_pos hp0, if_pos rfl, if_pos (by omega)]
      · rw [if_neg hj, if_neg]
        intro h0
        apply hj
        have hd := L.valid.distinct
        have g1 : (attrs.map Prod.snd)[j]? = some 0 := by
          rw [List.getElem?_map, ha]; simp [h0]
        have g2 : (attrs.map Prod.snd)[f.positionIndex]? = some 0 := by
          rw [List.getElem?_map, hpa]; simp [hp0]
        exact (List.getElem?_inj (List.getElem?_eq_some_iff.1 g2).1 hd).1 (g2.trans g1.symm)

theorem positionOf_eq {attrs : List (AttrType × AttrId)} {f : MeshFormat} (L : Layout attrs f)
    (v : Vertex) (hv : Shaped attrs v) :
    ∃ x y, v[f.positionIndex]? = some [x, y] ∧ positionOf attrs v = some (x, y) := by
  have hp := L.pos
  have hp2 := L.pos2
  cases hpa : attrs[f.positionIndex]? with
  | none => rw [hpa] at hp; simp at hp
  | some p =>
    rw [hpa] at hp hp2
    have hp0 : p.2 = 0 := by simpa using hp
    obtain ⟨value, h1, h2⟩ := hv.get hpa
    have hp2' : components p.1 = 2 := by simpa using hp2
    rw [hp2'] at h2
    obtain ⟨x, y, rfl⟩ := List.length_eq_two.1 h2
    refine ⟨x, y, h1, ?_⟩
    have hz : (attrs.zip v)[f.positionIndex]? = some (p, [x, y]) := by
      rw [List.getElem?_zip_eq_some]; exact ⟨hpa, h1⟩
    have hfind : (attrs.zip v).find? (fun p => decide (p.1.2 = 0)) = some (p, [x, y]) := by
      rw [List.find?_eq_some_iff_getElem]
      obtain ⟨hlt, he⟩ := List.getElem?_eq_some_iff.1 hz
      refine ⟨by simp [hp0], f.positionIndex, hlt, he, ?_⟩
      intro j hj
      simp only [List.getElem_zip, Bool.not_eq_eq_eq_not, Bool.not_true, decide_eq_false_iff_not]
      intro h0
      have hd := L.valid.distinct
      have hl2 : f.positionIndex < attrs.length := (List.getElem?_eq_some_iff.1 hpa).1
      have hlt' : j < attrs.length := by omega
      have g1 : (attrs.map Prod.snd)[j]? = some 0 := by
        rw [List.getElem?_map, List.getElem?_eq_getElem hlt']; simp [h0]
      have g2 : (attrs.map Prod.snd)[f.positionIndex]? = some 0 := by
        rw [List.getElem?_map, hpa]; simp [hp0]
      have := (List.getElem?_inj (List.getElem?_eq_some_iff.1 g1).1 hd).1 (g1.trans g2.symm)
      omega
    rw [positionOf, hfind]

/-! ## Representation -/

/-- The byte arrays hold the vertices and triangles of `s`. -/
structure Rep (m : MutableMesh) (s : MeshState) : Prop where
  fmt : create s.attrs s.ixf = some m.format
  vd : m.vertexData = s.vertices.flatMap encVertex
  id : m.indexData = indexBytesOf (indexBytes s.ixf) s.triangles
  vc : m.vertexCount = s.vertices.length
  tc : m.triangleCount = s.triangles.length
  vmax : s.vertices.length < maxCount
  tmax : s.triangles.length < maxCount
  shape : ∀ v ∈ s.vertices, Shaped s.attrs v
  fits : ∀ t ∈ s.triangles, IndicesFit s.ixf t

theorem u32_of_lt {n : Nat} (h : n < maxCount) : u32 n = n := by
  unfold u32; exact Nat.mod_eq_of_lt h

theorem u32_pred {n : Nat} (h : n + 1 < maxCount) : u32 (n + 1 + 4294967295) = n := by
  unfold u32 maxCount at *; omega

theorem indexStride_eq {m : MutableMesh} {s : MeshState} (R : Rep m s) :
    m.indexStride = indexBytes s.ixf := (create_eq R.fmt).2.2.2.1

theorem indexBytes_cases (ixf : IndexFormat) : indexBytes ixf = 2 ∨ indexBytes ixf = 4 := by
  cases ixf <;> simp [indexBytes]

theorem componentCount_of {attrs : List (AttrType × AttrId)} {f : MeshFormat} (L : Layout attrs f)
    {j : Nat} {a : Attribute} (ha : f.attributes[j]? = some a) :
    componentCount a.type = some (components a.type) := by
  have haj : attrs[j]? = some (a.type, a.id) := by rw [← L.attr j, ha]; rfl
  rw [componentCount_eq]
  exact ⟨L.valid.namedType _ (List.mem_of_getElem? haj), rfl⟩

/-- `SetFloatVertexAttribute` on the bytes. -/
theorem set_attribute {m : MutableMesh} {s : MeshState} (R : Rep m s) {i j : Nat} {a : Attribute}
    {v : Vertex} {value : List F32} (ha : m.format.attributes[j]? = some a)
    (hv : s.vertices[i]? = some v) (hl : value.length = components a.type) :
    writeBytes (i * m.vertexStride + a.unpackedOffset) (encValue value) m.vertexData =
      some ((s.vertices.modify i fun v => v.set j value).flatMap encVertex) := by
  have L := layout R.fmt
  obtain ⟨P, S, hP, hPS⟩ := attribute_block L s.vertices R.shape i j a v ha hv
  have haj : s.attrs[j]? = some (a.type, a.id) := by rw [← L.attr j, ha]; rfl
  obtain ⟨old, ho, hol⟩ := (R.shape v (List.mem_of_getElem? hv)).get haj
  have e := hPS old
  rw [modify_id _ i j v old hv ho] at e
  rw [R.vd, e, hPS value, MutableMesh.vertexStride, ← hP]
  exact write_block P (encValue old) S (encValue value) (by
    rw [length_encValue, length_encValue, hl, hol])

/-- `FloatVertexAttribute` on the bytes. -/
theorem read_attribute {m : MutableMesh} {s : MeshState} (R : Rep m s) {i j : Nat} {a : Attribute}
    {v : Vertex} {value : List F32} (ha : m.format.attributes[j]? = some a)
    (hv : s.vertices[i]? = some v) (hval : v[j]? = some value) :
    readBytes (i * m.vertexStride + a.unpackedOffset) (4 * value.length) m.vertexData =
      some (encValue value) := by
  have L := layout R.fmt
  obtain ⟨P, S, hP, hPS⟩ := attribute_block L s.vertices R.shape i j a v ha hv
  have e := hPS value
  rw [modify_id _ i j v value hv hval] at e
  rw [R.vd, e, MutableMesh.vertexStride, ← hP, ← length_encValue]
  exact read_block _ _ _

theorem posAttr {m : MutableMesh} {s : MeshState} (R : Rep m s) :
    ∃ a, m.format.attributes[m.format.positionIndex]? = some a ∧ components a.type = 2 := by
  have L := layout R.fmt
  have hp2 := L.pos2
  rw [← L.attr] at hp2
  cases h : m.format.attributes[m.format.positionIndex]? with
  | none => rw [h] at hp2; simp at hp2
  | some a => rw [h] at hp2; exact ⟨a, rfl, by simpa using hp2⟩

theorem setPosition_rep {m : MutableMesh} {s : MeshState} (R : Rep m s) {i : Nat} (x y : F32)
    (hi : i < s.vertices.length) :
    ∃ m', m.setVertexPosition i x y = some m' ∧
      Rep m' { s with vertices := s.vertices.modify i fun v => withPosition s.attrs v x y } := by
  have L := layout R.fmt
  obtain ⟨a, ha, ha2⟩ := posAttr R
  have hv := List.getElem?_eq_getElem hi
  have hw := set_attribute R ha hv (value := [x, y]) (by simp [ha2])
  have e : (s.vertices.modify i fun v => withPosition s.attrs v x y) =
      s.vertices.modify i fun v => v.set m.format.positionIndex [x, y] := by
    apply List.ext_getElem?
    intro n
    rw [List.getElem?_modify, List.getElem?_modify]
    cases hn : s.vertices[n]? with
    | none => rfl
    | some u =>
      have hu := (R.shape u (List.mem_of_getElem? hn)).length
      by_cases h : i = n
      · simp only [h, if_true, Option.map_eq_map, Option.map_some]
        rw [withPosition_eq L u hu]
      · simp [h]
  refine ⟨{ m with vertexData :=
    (s.vertices.modify i fun v => v.set m.format.positionIndex [x, y]).flatMap encVertex }, ?_, ?_⟩
  · unfold MutableMesh.setVertexPosition
    have he : bytesOfFloat x ++ bytesOfFloat y = encValue [x, y] := by simp [encValue]
    rw [ha, he]
    simp only [Option.bind_eq_bind, Option.bind_some, hw]
  · rw [e]
    have haj : s.attrs[m.format.positionIndex]? = some (a.type, a.id) := by rw [← L.attr, ha]; rfl
    refine ⟨R.fmt, rfl, R.id, by simp [R.vc], R.tc, by simpa using R.vmax, R.tmax, ?_, R.fits⟩
    intro u hu
    obtain ⟨n, hn⟩ := List.mem_iff_getElem?.1 hu
    simp only [List.getElem?_modify] at hn
    cases hsn : s.vertices[n]? with
    | none => rw [hsn] at hn; simp at hn
    | some w =>
      have hw := R.shape w (List.mem_of_getElem? hsn)
      rw [hsn] at hn
      by_cases h : i = n
      · simp only [h, if_true, Option.map_eq_map, Option.map_some, Option.some.injEq] at hn
        subst hn
        exact hw.set haj (by simp [ha2])
      · simp only [h, if_false, Option.map_eq_map, Option.map_some, Option.some.injEq] at hn
        subst hn; exact hw

theorem resize_vertices {m : MutableMesh} {s : MeshState} (R : Rep m s) (n : Nat) :
    resizeBytes (n * m.vertexStride) m.vertexData =
      (padTo n (zeroVertex s.attrs) s.vertices).flatMap encVertex := by
  have L := layout R.fmt
  rw [R.vd]
  apply resize_blocks
  · intro v hv; rw [(R.shape v hv).length_enc, MutableMesh.vertexStride, L.stride]
  · rw [enc_zeroVertex, MutableMesh.vertexStride, L.stride]

theorem resize_triangles {m : MutableMesh} {s : MeshState} (R : Rep m s) (n : Nat) :
    resizeBytes (n * (3 * m.indexStride)) m.indexData =
      indexBytesOf (indexBytes s.ixf) (padTo n (0, 0, 0) s.triangles) := by
  rw [R.id, indexBytesOf_blocks, indexBytesOf_blocks, indexStride_eq R]
  exact resize_blocks _ _ (fun t _ => length_encTri _ t) (encTri_zero _) n

theorem length_padTo {α : Type} (n : Nat) (d : α) (l : List α) : (padTo n d l).length = n := by
  simp [padTo]; omega

theorem mem_padTo {α : Type} {n : Nat} {d : α} {l : List α} {x : α} (h : x ∈ padTo n d l) :
    x ∈ l ∨ x = d := by
  rcases List.mem_append.1 h with h | h
  · exact Or.inl (List.mem_of_mem_take h)
  · exact Or.inr (List.mem_replicate.1 h).2

theorem fits_zero (ixf : IndexFormat) : IndicesFit ixf (0, 0, 0) := by
  cases ixf <;> decide

theorem padTo_succ {α : Type} (d : α) (l : List α) : padTo (l.length + 1) d l = l ++ [d] := by
  simp [padTo]

theorem setTriangle_rep {m : MutableMesh} {s : MeshState} (R : Rep m s) {i : Nat} {t : Tri}
    (hi : i < s.triangles.length) (ht : IndicesFit s.ixf t) :
    ∃ m', m.setTriangleIndices i t = some m' ∧
      Rep m' { s with triangles := s.triangles.set i t } := by
  have hw := indexBytes_cases s.ixf
  refine ⟨{ m with indexData := indexBytesOf (indexBytes s.ixf) (s.triangles.set i t) }, ?_, ?_⟩
  · unfold MutableMesh.setTriangleIndices
    rw [indexStride_eq R, R.id, C40_write_triangle _ hw _ t i hi]
    rfl
  · refine ⟨R.fmt, R.vd, rfl, R.vc, by simp [R.tc], R.vmax, by simpa using R.tmax, R.shape, ?_⟩
    intro u hu
    rcases List.mem_or_eq_of_mem_set hu with h | rfl
    · exact R.fits u h
    · exact ht

/-- Each call does on the byte arrays what the specification does on the lists. -/
theorem step_rep {m : MutableMesh} {s s' : MeshState} (R : Rep m s) (op : MeshOp)
    (h : s.step op = some s') : ∃ m', m.step op = some m' ∧ Rep m' s' := by
  have L := layout R.fmt
  cases op with
  | appendVertex x y =>
    simp only [MeshState.step] at h
    by_cases hc : s.vertices.length + 1 < maxCount
    swap
    · rw [if_neg hc] at h; cases h
    rw [if_pos hc] at h; cases h
    have R1 : Rep { m with
        vertexData := resizeBytes (m.vertexData.length + m.vertexStride) m.vertexData
        vertexCount := u32 (m.vertexCount + 1) }
        { s with vertices := s.vertices ++ [zeroVertex s.attrs] } := by
      have hlen : m.vertexData.length = s.vertices.length * m.vertexStride := by
        rw [R.vd]
        apply length_blocks
        intro v hv; rw [(R.shape v hv).length_enc, MutableMesh.vertexStride, L.stride]
      refine ⟨R.fmt, ?_, R.id, ?_, R.tc, by simpa using hc, R.tmax, ?_, R.fits⟩
      · simp only
        rw [hlen, show s.vertices.length * m.vertexStride + m.vertexStride =
          (s.vertices.length + 1) * m.vertexStride by ring, resize_vertices R, padTo_succ]
      · simp only [List.length_append, List.length_singleton]
        rw [R.vc, u32_of_lt hc]
      · intro v hv
        rcases List.mem_append.1 hv with hv | hv
        · exact R.shape v hv
        · rw [List.mem_singleton] at hv; subst hv; exact shaped_zero _
    obtain ⟨m', h1, h2⟩ := setPosition_rep R1 (i := s.vertices.length) x y (by simp)
    refine ⟨m', ?_, ?_⟩
    · simp only [MutableMesh.step, MutableMesh.appendVertex]
      rw [show u32 (u32 (m.vertexCount + 1) + 4294967295) = s.vertices.length by
        rw [R.vc, u32_of_lt hc, u32_pred hc]]
      exact h1
    · have e : ((s.vertices ++ [zeroVertex s.attrs]).modify s.vertices.length
          fun v => withPosition s.attrs v x y) =
          s.vertices ++ [withPosition s.attrs (zeroVertex s.attrs) x y] := by
        rw [List.modify_eq_take_cons_drop (by simp)]
        simp
      simp only [e] at h2
      exact h2
  | setVertexPosition i x y =>
    simp only [MeshState.step] at h
    by_cases hc : i < s.vertices.length
    · rw [if_pos hc] at h; cases h
      exact setPosition_rep R x y hc
    · rw [if_neg hc] at h; cases h
  | setFloatVertexAttribute i j value =>
    simp only [MeshState.step] at h
    by_cases hc : i < s.vertices.length ∧
        s.attrs[j]?.map (fun a => components a.1) = some value.length
    swap
    · rw [if_neg hc] at h; cases h
    rw [if_pos hc] at h; cases h
    obtain ⟨hi, hj⟩ := hc
    have hv := List.getElem?_eq_getElem hi
    have haj := L.attr j
    cases ha : m.format.attributes[j]? with
    | none => rw [ha] at haj; rw [← haj] at hj; simp at hj
    | some a =>
      rw [ha] at haj
      simp only [Option.map_some] at haj
      rw [← haj] at hj
      have hl : value.length = components a.type := by simpa using hj.symm
      have hcc := componentCount_of L ha
      have hw := set_attribute R ha hv hl
      refine ⟨{ m with vertexData :=
        (s.vertices.modify i fun v => v.set j value).flatMap encVertex }, ?_, ?_⟩
      · simp only [MutableMesh.step, MutableMesh.setFloatVertexAttribute]
        have e4 : (value ++ List.replicate 4 F32.zero).take (components a.type) = value := by
          rw [← hl]; exact List.take_left
        rw [ha]
        simp only [Option.bind_eq_bind, Option.bind_some, hcc, e4]
        have hw' : writeBytes (i * m.vertexStride + a.unpackedOffset)
          (value.flatMap bytesOfFloat) m.vertexData = _ := hw
        rw [hw']; rfl
      · refine ⟨R.fmt, rfl, R.id, by simp [R.vc], R.tc, by simpa using R.vmax, R.tmax, ?_, R.fits⟩
        intro u hu
        obtain ⟨n, hn⟩ := List.mem_iff_getElem?.1 hu
        simp only [List.getElem?_modify] at hn
        cases hsn : s.vertices[n]? with
        | none => rw [hsn] at hn; simp at hn
        | some w =>
          have hw := R.shape w (List.mem_of_getElem? hsn)
          rw [hsn] at hn
          by_cases h : i = n
          · simp only [h, if_true, Option.map_eq_map, Option.map_some, Option.some.injEq] at hn
            subst hn
            exact hw.set haj.symm hl
          · simp only [h, if_false, Option.map_eq_map, Option.map_some, Option.some.injEq] at hn
            subst hn; exact hw
  | appendTriangleIndices t =>
    simp only [MeshState.step] at h
    by_cases hc : s.triangles.length + 1 < maxCount ∧ IndicesFit s.ixf t
    swap
    · rw [if_neg hc] at h; cases h
    rw [if_pos hc] at h; cases h
    have R1 : Rep { m with
        indexData := resizeBytes (m.indexData.length + 3 * m.indexStride) m.indexData
        triangleCount := u32 (m.triangleCount + 1) }
        { s with triangles := s.triangles ++ [(0, 0, 0)] } := by
      have hlen : m.indexData.length = s.triangles.length * (3 * m.indexStride) := by
        rw [R.id, length_indexBytesOf, indexStride_eq R]
      refine ⟨R.fmt, R.vd, ?_, R.vc, ?_, R.vmax, by simpa using hc.1, R.shape, ?_⟩
      · simp only
        rw [hlen, show s.triangles.length * (3 * m.indexStride) + 3 * m.indexStride =
          (s.triangles.length + 1) * (3 * m.indexStride) by ring, resize_triangles R, padTo_succ]
      · simp only [List.length_append, List.length_singleton]
        rw [R.tc, u32_of_lt hc.1]
      · intro u hu
        rcases List.mem_append.1 hu with hu | hu
        · exact R.fits u hu
        · rw [List.mem_singleton] at hu; subst hu; exact fits_zero _
    obtain ⟨m', h1, h2⟩ := setTriangle_rep R1 (i := s.triangles.length) (by simp) hc.2
    refine ⟨m', ?_, ?_⟩
    · simp only [MutableMesh.step, MutableMesh.appendTriangleIndices]
      rw [show u32 (u32 (m.triangleCount + 1) + 4294967295) = s.triangles.length by
        rw [R.tc, u32_of_lt hc.1, u32_pred hc.1]]
      exact h1
    · have e : (s.triangles ++ [(0, 0, 0)]).set s.triangles.length t = s.triangles ++ [t] := by
        rw [List.set_append_right _ _ (Nat.le_refl _)]; simp
      simp only [e] at h2
      exact h2
  | setTriangleIndices i t =>
    simp only [MeshState.step] at h
    by_cases hc : i < s.triangles.length ∧ IndicesFit s.ixf t
    · rw [if_pos hc] at h; cases h
      exact setTriangle_rep R hc.1 hc.2
    · rw [if_neg hc] at h; cases h
  | insertTriangleIndices i t =>
    simp only [MeshState.step] at h
    by_cases hc : i ≤ s.triangles.length ∧ s.triangles.length + 1 < maxCount ∧ IndicesFit s.ixf t
    swap
    · rw [if_neg hc] at h; cases h
    rw [if_pos hc] at h; cases h
    obtain ⟨hi, hm, ht⟩ := hc
    have hp : 3 * m.indexStride * i = i * (3 * indexBytes s.ixf) := by rw [indexStride_eq R]; ring
    have htd := take_drop_blocks (enc := encTri (indexBytes s.ixf)) s.triangles
      (fun t _ => length_encTri _ t) i hi
    have R1 : Rep { m with
        indexData := m.indexData.take (3 * m.indexStride * i) ++
          List.replicate (3 * m.indexStride) 0 ++ m.indexData.drop (3 * m.indexStride * i)
        triangleCount := u32 (m.triangleCount + 1) }
        { s with triangles := s.triangles.take i ++ (0, 0, 0) :: s.triangles.drop i } := by
      refine ⟨R.fmt, R.vd, ?_, R.vc, ?_, R.vmax, ?_, R.shape, ?_⟩
      · simp only
        rw [hp, R.id, indexBytesOf_blocks, htd.1, htd.2, indexStride_eq R,
          ← encTri_zero, indexBytesOf_blocks, List.flatMap_append, List.flatMap_cons,
          List.append_assoc]
      · simp only [List.length_append, List.length_cons, List.length_take, List.length_drop]
        rw [R.tc, u32_of_lt hm]
        omega
      · simp only [List.length_append, List.length_cons, List.length_take, List.length_drop]
        omega
      · intro u hu
        rcases List.mem_append.1 hu with hu | hu
        · exact R.fits u (List.mem_of_mem_take hu)
        · rcases List.mem_cons.1 hu with rfl | hu
          · exact fits_zero _
          · exact R.fits u (List.mem_of_mem_drop hu)
    obtain ⟨m', h1, h2⟩ := setTriangle_rep R1 (i := i) (t := t) (by
      simp only [List.length_append, List.length_cons, List.length_take]; omega) ht
    refine ⟨m', ?_, ?_⟩
    · simp only [MutableMesh.step, MutableMesh.insertTriangleIndices]
      rw [if_pos]
      · exact h1
      · rw [hp, R.id, length_indexBytesOf]
        exact Nat.mul_le_mul_right _ hi
    · have e : (s.triangles.take i ++ (0, 0, 0) :: s.triangles.drop i).set i t =
          s.triangles.take i ++ t :: s.triangles.drop i := by
        rw [List.set_append_right _ _ (by simp)]
        rw [List.length_take, Nat.min_eq_left hi, Nat.sub_self]; rfl
      simp only [e] at h2
      exact h2
  | resize nv nt =>
    simp only [MeshState.step] at h
    by_cases hc : nv < maxCount ∧ nt < maxCount
    swap
    · rw [if_neg hc] at h; cases h
    rw [if_pos hc] at h; cases h
    refine ⟨_, rfl, ?_⟩
    refine ⟨R.fmt, resize_vertices R nv, ?_, ?_, ?_, ?_, ?_, ?_, ?_⟩
    · simp only [MutableMesh.resize]
      rw [Nat.mul_assoc, resize_triangles R]
    · simp [MutableMesh.resize, length_padTo]
    · simp [MutableMesh.resize, length_padTo]
    · simpa [length_padTo] using hc.1
    · simpa [length_padTo] using hc.2
    · intro v hv
      rcases mem_padTo hv with hv | rfl
      · exact R.shape v hv
      · exact shaped_zero _
    · intro t ht
      rcases mem_padTo ht with ht | rfl
      · exact R.fits t ht
      · exact fits_zero _
  | clear =>
    simp only [MeshState.step] at h
    cases h
    exact ⟨_, rfl, R.fmt, rfl, rfl, rfl, rfl, by simp [maxCount], by simp [maxCount], by simp, by simp⟩
  | reset attrs ixf =>
    simp only [MeshState.step] at h
    by_cases hc : (create attrs ixf).isSome
    swap
    · rw [if_neg hc] at h; cases h
    rw [if_pos hc] at h; cases h
    obtain ⟨f, hf⟩ := Option.isSome_iff_exists.1 hc
    have hst : f.indexStride = 2 ∨ f.indexStride = 4 := by
      rw [(create_eq hf).2.2.2.1]; exact indexBytes_cases ixf
    refine ⟨{ m.clear with format := f }, ?_, hf, rfl, rfl, rfl, rfl, by simp [maxCount], by simp [maxCount], by simp,
      by simp⟩
    simp only [MutableMesh.step, hf, Option.bind_some, MutableMesh.reset, if_pos hst]

theorem run_rep {m : MutableMesh} {s s' : MeshState} (R : Rep m s) (ops : List MeshOp)
    (h : s.run ops = some s') : ∃ m', m.run ops = some m' ∧ Rep m' s' := by
  induction ops generalizing m s with
  | nil => simp only [MeshState.run] at h; cases h; exact ⟨m, rfl, R⟩
  | cons op ops ih =>
    simp only [MeshState.run, Option.bind_eq_some_iff] at h
    obtain ⟨s1, h1, h2⟩ := h
    obtain ⟨m1, g1, R1⟩ := step_rep R op h1
    obtain ⟨m2, g2, R2⟩ := ih R1 h2
    exact ⟨m2, by simp only [MutableMesh.run, g1, Option.bind_some, g2], R2⟩

/-! ## What the accessors return -/

theorem readTri_none (w i : Nat) (hw : w = 2 ∨ w = 4) (data : List Nat)
    (h : data.length ≤ i * 3 * w) : readTri i w data = none := by
  unfold readTri
  simp only
  rw [List.drop_eq_nil_of_le h]
  rcases hw with rfl | rfl <;> rfl

theorem readBytes_none {off len : Nat} {d : List Nat} (h : d.length < off + len) :
    readBytes off len d = none := by
  unfold readBytes; rw [if_neg (by omega)]

theorem components_pos {attrs : List (AttrType × AttrId)} {f : MeshFormat} (L : Layout attrs f)
    {j : Nat} {a : Attribute} (ha : f.attributes[j]? = some a) : 0 < components a.type := by
  have haj : attrs[j]? = some (a.type, a.id) := by rw [← L.attr j, ha]; rfl
  have := L.valid.namedType _ (List.mem_of_getElem? haj)
  cases h : a.type <;> simp [components]
  rename_i code
  exact this code h

theorem length_vertexData {m : MutableMesh} {s : MeshState} (R : Rep m s) :
    m.vertexData.length = s.vertices.length * m.vertexStride := by
  rw [R.vd]
  apply length_blocks
  intro v hv; rw [(R.shape v hv).length_enc, MutableMesh.vertexStride, (layout R.fmt).stride]

theorem floatVertexAttribute_rep {m : MutableMesh} {s : MeshState} (R : Rep m s) (i j : Nat) :
    m.floatVertexAttribute i j = s.vertices[i]?.bind (·[j]?) := by
  have L := layout R.fmt
  simp only [MutableMesh.floatVertexAttribute, MutableMesh.readUnpackedFloatAttribute]
  have haj := L.attr j
  cases ha : m.format.attributes[j]? with
  | none =>
    rw [ha] at haj
    cases hv : s.vertices[i]? with
    | none => rfl
    | some v =>
      have hl := (R.shape v (List.mem_of_getElem? hv)).length
      have : s.attrs.length ≤ j := by
        by_contra hh; rw [List.getElem?_eq_getElem (by omega)] at haj; cases haj
      simp only [Option.bind_eq_bind, Option.bind_none, Option.bind_some]
      rw [List.getElem?_eq_none (by omega)]
  | some a =>
    rw [ha] at haj
    have haj' : s.attrs[j]? = some (a.type, a.id) := by rw [← haj]; rfl
    simp only [Option.bind_eq_bind, Option.bind_some, componentCount_of L ha]
    cases hv : s.vertices[i]? with
    | none =>
      have hi : s.vertices.length ≤ i := by
        by_contra hh; rw [List.getElem?_eq_getElem (by omega)] at hv; cases hv
      rw [readBytes_none]
      · rfl
      · rw [length_vertexData R, MutableMesh.vertexStride]
        have := Nat.mul_le_mul_right m.format.unpackedStride hi
        have := components_pos L ha
        omega
    | some v =>
      obtain ⟨value, h1, h2⟩ := (R.shape v (List.mem_of_getElem? hv)).get haj'
      have hr := read_attribute R ha hv h1
      rw [h2] at hr
      simp only [MutableMesh.vertexStride] at hr
      rw [hr]
      simp only [Option.bind_some, h1]
      have := floatsOfBytes_flatMap value []
      rw [List.append_nil, h2] at this
      exact this

theorem vertexPosition_rep {m : MutableMesh} {s : MeshState} (R : Rep m s) (i : Nat) :
    m.vertexPosition i = s.vertices[i]?.bind (positionOf s.attrs) := by
  have L := layout R.fmt
  obtain ⟨a, ha, ha2⟩ := posAttr R
  have haj : s.attrs[m.format.positionIndex]? = some (a.type, a.id) := by rw [← L.attr, ha]; rfl
  simp only [MutableMesh.vertexPosition, ha, Option.bind_eq_bind, Option.bind_some]
  cases hv : s.vertices[i]? with
  | none =>
    have hi : s.vertices.length ≤ i := by
      by_contra hh; rw [List.getElem?_eq_getElem (by omega)] at hv; cases hv
    rw [readBytes_none]
    · rfl
    · rw [length_vertexData R]
      have := Nat.mul_le_mul_right m.vertexStride hi
      omega
  | some v =>
    obtain ⟨x, y, h1, h2⟩ := positionOf_eq L v (R.shape v (List.mem_of_getElem? hv))
    have hr := read_attribute R ha hv h1
    simp only [List.length_cons, List.length_nil] at hr
    rw [hr]
    simp only [Option.bind_some, h2]
    have e : encValue [x, y] = bytesOfFloat x ++ bytesOfFloat y := by simp [encValue]
    rw [e, List.take_left' (by rfl), List.drop_left' (by rfl), floatOfBytes_bytesOfFloat,
      floatOfBytes_bytesOfFloat]
    rfl

theorem triangleIndices_rep {m : MutableMesh} {s : MeshState} (R : Rep m s) (i : Nat) :
    m.triangleIndices i = s.triangles[i]? := by
  have hw := indexBytes_cases s.ixf
  simp only [MutableMesh.triangleIndices, indexStride_eq R, R.id]
  by_cases hi : i < s.triangles.length
  · rw [C40_read_triangle _ hw _ R.fits i hi, List.getElem?_eq_getElem hi]
  · rw [List.getElem?_eq_none (by omega), readTri_none _ _ hw]
    rw [length_indexBytesOf, Nat.mul_assoc]
    exact Nat.mul_le_mul_right _ (by omega)

theorem validateFrom_rep {m : MutableMesh} {s : MeshState} (R : Rep m s) (k : Nat) :
    ∀ i, i + k = s.triangles.length → ∃ b, m.validateFrom i k = some b ∧
      (b = true ↔ ∀ t ∈ s.triangles.drop i, t.1 < s.vertices.length ∧ t.2.1 < s.vertices.length ∧
        t.2.2 < s.vertices.length ∧ t.1 ≠ t.2.1 ∧ t.1 ≠ t.2.2 ∧ t.2.1 ≠ t.2.2) := by
  induction k with
  | zero =>
    intro i hi
    refine ⟨true, rfl, ?_⟩
    rw [List.drop_eq_nil_of_le (by omega)]; simp
  | succ k ih =>
    intro i hi
    have hlt : i < s.triangles.length := by omega
    have ht : m.triangleIndices i = some s.triangles[i] := by
      rw [triangleIndices_rep R, List.getElem?_eq_getElem hlt]
    obtain ⟨b, h1, h2⟩ := ih (i + 1) (by omega)
    rw [List.drop_eq_getElem_cons hlt]
    generalize s.triangles[i] = t at *
    simp only [MutableMesh.validateFrom, ht, Option.bind_eq_bind, Option.bind_some, R.vc]
    by_cases c1 : (decide (t.1 ≥ s.vertices.length) || decide (t.2.1 ≥ s.vertices.length) ||
        decide (t.2.2 ≥ s.vertices.length)) = true
    · rw [if_pos c1]
      refine ⟨false, rfl, ?_⟩
      simp only [Bool.or_eq_true, decide_eq_true_eq] at c1
      simp only [Bool.false_eq_true, List.mem_cons, forall_eq_or_imp, false_iff]
      omega
    · rw [if_neg c1]
      by_cases c2 : (decide (t.1 = t.2.1) || decide (t.1 = t.2.2) || decide (t.2.1 = t.2.2)) = true
      · rw [if_pos c2]
        refine ⟨false, rfl, ?_⟩
        simp only [Bool.or_eq_true, decide_eq_true_eq] at c2
        simp only [Bool.false_eq_true, List.mem_cons, forall_eq_or_imp, false_iff]
        omega
      · rw [if_neg c2]
        refine ⟨b, h1, ?_⟩
        simp only [Bool.or_eq_true, decide_eq_true_eq] at c1 c2
        rw [h2]
        simp only [List.mem_cons, forall_eq_or_imp]
        constructor
        · intro h; exact ⟨by omega, h⟩
        · exact fun h => h.2

theorem rep_new {attrs : List (AttrType × AttrId)} {ixf : IndexFormat} {f : MeshFormat}
    (hf : create attrs ixf = some f) :
    ∃ m, MutableMesh.new f = some m ∧ Rep m { attrs := attrs, ixf := ixf } := by
  have hst : f.indexStride = 2 ∨ f.indexStride = 4 := by
    rw [(create_eq hf).2.2.2.1]; exact indexBytes_cases ixf
  refine ⟨{ format := f }, ?_, hf, rfl, rfl, rfl, rfl, by simp [maxCount], by simp [maxCount], by simp, by simp⟩
  simp only [MutableMesh.new, MutableMesh.reset, if_pos hst, MutableMesh.clear]

/-- **C13.** Take any format and any sequence of calls that keeps to the documented conditions
(`Spec.MeshState.run` is defined). Then no call of the sequence reads or writes outside the arrays or
fails a check, and afterwards every accessor returns what the lists of vertices and triangles of the
specification say. In particular an operation changes what it names and nothing else. -/
theorem C13_refines_lists {attrs : List (AttrType × AttrId)} {ixf : IndexFormat} {f : MeshFormat}
    (hf : create attrs ixf = some f) (ops : List MeshOp) (s : MeshState)
    (h : MeshState.run { attrs := attrs, ixf := ixf } ops = some s) :
    ∃ m, (MutableMesh.new f).bind (·.run ops) = some m ∧
      m.vertexCount = s.vertices.length ∧
      m.triangleCount = s.triangles.length ∧
      (∀ i j : Nat, m.floatVertexAttribute i j = s.vertices[i]?.bind (·[j]?)) ∧
      (∀ i : Nat, m.vertexPosition i = s.vertices[i]?.bind (positionOf s.attrs)) ∧
      (∀ i : Nat, m.triangleIndices i = s.triangles[i]?) ∧
      m.format.attributes.map (fun a => (a.type, a.id)) = s.attrs ∧ m.format.indexFormat = s.ixf := by
  obtain ⟨m0, hm0, R0⟩ := rep_new hf
  obtain ⟨m, hm, R⟩ := run_rep R0 ops h
  refine ⟨m, by rw [hm0]; exact hm, R.vc, R.tc, floatVertexAttribute_rep R, vertexPosition_rep R,
    triangleIndices_rep R, (create_eq R.fmt).2.1, (create_eq R.fmt).2.2.1⟩

/-- **C13.** After any such sequence, `ValidateTriangles` accepts exactly when every triangle refers
to three different existing vertices; then `GetTriangle(i)` is the triangle of the positions of these
vertices. -/
theorem C13_validate_triangles {attrs : List (AttrType × AttrId)} {ixf : IndexFormat}
    {f : MeshFormat} (hf : create attrs ixf = some f) (ops : List MeshOp) (s : MeshState)
    (h : MeshState.run { attrs := attrs, ixf := ixf } ops = some s) :
    ∃ m, (MutableMesh.new f).bind (·.run ops) = some m ∧
      (m.validateTriangles = some true ↔ TrianglesValid s) ∧
      (m.validateTriangles = some false ↔ ¬ TrianglesValid s) ∧
      (TrianglesValid s → ∀ (i a b c : Nat), s.triangles[i]? = some (a, b, c) →
        ∃ pa pb pc, m.getTriangle i = some (pa, pb, pc) ∧
          s.vertices[a]?.bind (positionOf s.attrs) = some pa ∧
          s.vertices[b]?.bind (positionOf s.attrs) = some pb ∧
          s.vertices[c]?.bind (positionOf s.attrs) = some pc) := by
  obtain ⟨m0, hm0, R0⟩ := rep_new hf
  obtain ⟨m, hm, R⟩ := run_rep R0 ops h
  have L := layout R.fmt
  obtain ⟨b, h1, h2⟩ := validateFrom_rep R s.triangles.length 0 (by simp)
  rw [List.drop_zero] at h2
  have h1' : m.validateTriangles = some b := by
    rw [MutableMesh.validateTriangles, R.tc]; exact h1
  refine ⟨m, by rw [hm0]; exact hm, ?_, ?_, ?_⟩
  · rw [h1', Option.some.injEq]; exact h2
  · rw [h1', Option.some.injEq, TrianglesValid, ← h2]; simp
  · intro hv i x y z ht
    have pos : ∀ n, n < s.vertices.length → ∃ p, m.vertexPosition n = some p ∧
        s.vertices[n]?.bind (positionOf s.attrs) = some p := by
      intro n hn
      have hsn := List.getElem?_eq_getElem hn
      obtain ⟨px, py, -, hp⟩ := positionOf_eq L _ (R.shape _ (List.mem_of_getElem? hsn))
      have e : s.vertices[n]?.bind (positionOf s.attrs) = some (px, py) := by rw [hsn]; exact hp
      exact ⟨(px, py), by rw [vertexPosition_rep R, e], e⟩
    obtain ⟨v1, v2, v3, -⟩ := hv _ (List.mem_of_getElem? ht)
    obtain ⟨pa, a1, a2⟩ := pos x v1
    obtain ⟨pb, b1, b2⟩ := pos y v2
    obtain ⟨pc, c1, c2⟩ := pos z v3
    refine ⟨pa, pb, pc, ?_, a2, b2, c2⟩
    simp only [MutableMesh.getTriangle, triangleIndices_rep R, ht, Option.bind_eq_bind,
      Option.bind_some, a1, b1, c1]

/-- A history that uses every operation and meets the documented conditions. -/
example : ((MeshState.run { attrs := [(.f2Unpacked, 0), (.f1In1Byte, 10)], ixf := .unpacked16 }
    [.appendVertex (F32.ofInt 1) (F32.ofInt 2), .resize 3 1, .setVertexPosition 1 (F32.ofInt 5) (F32.ofInt 6),
     .setFloatVertexAttribute 2 1 [F32.ofInt 7], .setTriangleIndices 0 (0, 1, 2),
     .insertTriangleIndices 0 (2, 1, 0), .appendTriangleIndices (1, 2, 0)]).map fun s =>
       (s.vertices, s.triangles)) =
    some ([[[F32.ofInt 1, F32.ofInt 2], [F32.zero]], [[F32.ofInt 5, F32.ofInt 6], [F32.zero]],
      [[F32.zero, F32.zero], [F32.ofInt 7]]], [(2, 1, 0), (0, 1, 2), (1, 2, 0)]) := by
  decide +kernel

end Verif.Mesh
