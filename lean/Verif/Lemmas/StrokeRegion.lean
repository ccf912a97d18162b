import Verif.Lemmas.StrokeStrip

/-! # Lemmas for C55: the updated region -/

set_option autoImplicit false

namespace Verif.StrokeGeom

open Verif.StrokeGeom.Spec

variable {V X P : Type}

/-! ## The geometry changes as it does without tracking -/

theorem setVertex_g {pos : V → P} {t t' : Tracked V X P} {i : Nat} {v : V} {b e : Bool} (h : t.setVertex pos i v b e = some t') :
    t.g.setVertex i v b = some t'.g := by
  obtain ⟨old, k, g, -, -, h3, rfl⟩ := setVertex_facts h
  exact h3

theorem labelLast_g {pos : V → P} {env : Env V X} {t t' : Tracked V X P} {s : Side V X} (h : t.labelLast pos env s = some t') :
    t.g.labelLast env s = some t'.g := by
  unfold Tracked.labelLast at h
  unfold Geometry.labelLast
  split at h
  · rw [if_pos ‹_›]; injection h with h; rw [h]
  · rw [if_neg ‹_›]
    obtain ⟨i, h1, h⟩ := bind_some h
    obtain ⟨v, h2, h⟩ := bind_some h
    simp only [h1, h2, Option.bind_eq_bind, Option.bind_some]
    exact setVertex_g h

theorem labelBoth_g {pos : V → P} {env : Env V X} {t t' : Tracked V X P} (h : t.labelBoth pos env = some t') :
    t.g.labelBoth env = some t'.g := by
  unfold Tracked.labelBoth at h
  unfold Geometry.labelBoth
  split at h
  · rw [if_pos ‹_›]
    obtain ⟨t1, h1, h⟩ := bind_some h
    simp only [labelLast_g h1, Option.bind_eq_bind, Option.bind_some]
    exact labelLast_g h
  · rw [if_neg ‹_›]; injection h with h; rw [h]

theorem updateVertices_g (us : List (Nat × (V → V))) : ∀ {t t' : Tracked V X P}, t.updateVertices us = some t' →
    t.g.updateVertices us = some t'.g := by
  induction us with
  | nil => intro t t' h; injection h with h; rw [h]; rfl
  | cons p us ih =>
    intro t t' h
    obtain ⟨i, f⟩ := p
    obtain ⟨v, h1, h⟩ := bind_some h
    obtain ⟨k, -, h⟩ := bind_some h
    have := ih h
    simp only [note_g] at this
    simp only [Geometry.updateVertices, h1, Option.bind_eq_bind, Option.bind_some]
    exact this

theorem step_g {pos : V → P} {env : Env V X} {t t' : Tracked V X P} {op : Op V X} (h : t.step pos env op = some t') :
    t.g.step env op = some t'.g := by
  by_cases hs : Silent op
  · obtain ⟨g, h1, rfl⟩ := step_silent h hs; exact h1
  cases op with
  | setVertex i v => exact setVertex_g h
  | setTriangle i tri =>
    obtain ⟨g, h1, h⟩ := bind_some h
    injection h with h; subst h; exact h1
  | unzip k f tri =>
    obtain ⟨g, h1, h⟩ := bind_some h
    injection h with h; subst h; exact h1
  | addBreak =>
    obtain ⟨t1, h1, h⟩ := bind_some h
    injection h with h; subst h
    show Option.bind _ _ = _
    rw [labelBoth_g h1]
    rfl
  | clear =>
    change t.clearSinceBreak pos env = some t' at h
    unfold Tracked.clearSinceBreak at h
    show t.g.clearSinceBreak env = some t'.g
    unfold Geometry.clearSinceBreak
    split at h
    · rw [if_pos ‹_›]; injection h with h; rw [h]
    · rw [if_neg ‹_›]
      obtain ⟨g, h1, h⟩ := bind_some h
      obtain ⟨ps, -, h⟩ := bind_some h
      injection h with h; subst h
      rw [h1]; rfl
  | derivatives us => exact updateVertices_g us h
  | resetTracking => injection h with h; subst h; rfl
  | _ => exact absurd trivial hs

theorem setVertices_g {pos : V → P} {n : Nat} (m : List (Nat × V)) : ∀ {t t' : Tracked V X P}, t.setVertices pos n m = some t' →
    t.g.setVertices m = some t'.g := by
  induction m with
  | nil => intro t t' h; injection h with h; rw [h]; rfl
  | cons p m ih =>
    intro t t' h
    obtain ⟨i, v⟩ := p
    obtain ⟨t1, h1, h⟩ := bind_some h
    simp only [Geometry.setVertices, setVertex_g h1, Option.bind_eq_bind, Option.bind_some]
    exact ih h

theorem setTriangles_g (m : List (Nat × Tri)) : ∀ {t t' : Tracked V X P}, t.setTriangles m = some t' →
    t.g.setTriangles m = some t'.g := by
  induction m with
  | nil => intro t t' h; injection h with h; rw [h]; rfl
  | cons p m ih =>
    intro t t' h
    obtain ⟨i, v⟩ := p
    obtain ⟨t1, h1, h⟩ := bind_some h
    obtain ⟨g, h2, h1⟩ := bind_some h1
    injection h1 with h1; subst h1
    simp only [Geometry.setTriangles, h2, Option.bind_eq_bind, Option.bind_some]
    exact ih h

/-- Parts of `revert`. -/
theorem revert_facts {pos : V → P} {env : Env V X} {order : {α : Type} → List α → List α} {t t' : Tracked V X P}
    (h : t.revert pos env order = some t') (ha : t.g.save.active = true) :
    ∃ ps t1 t2, positionsOf pos t.g.vertices (t.g.triangles.drop t.g.save.nTriangles) = some ps ∧
      ({ t with
          removed := t.removed ++ ps
          firstVertex := min t.firstVertex t.g.save.nVertices
          firstTriangle := min t.firstTriangle t.g.save.nTriangles
          g := { t.g with
            vertices := resize t.g.vertices t.g.save.nVertices env.blank
            triangles := resize t.g.triangles t.g.save.nTriangles (0, 0, 0)
            ids := resize t.g.ids t.g.save.nVertices .left
            offsets := resize t.g.offsets t.g.save.nVertices 0
            opposite := resize t.g.opposite t.g.save.nVertices 0 } } : Tracked V X P).setVertices pos t.g.vertices.length
        (order t.g.save.savedVertices) = some t1 ∧
      t1.setTriangles (order t.g.save.savedTriangles) = some t2 ∧
      t'.g.vertices = t2.g.vertices ∧ t'.g.triangles = t2.g.triangles ∧ copyToEnd t2.g.ids t.g.save.savedIds = some t'.g.ids ∧
      t' = { t2 with g := t'.g } ∧ t.g.revert env order = some t'.g := by
  unfold Tracked.revert at h
  rw [if_pos ha] at h
  obtain ⟨ps, h0, h⟩ := bind_some h
  obtain ⟨t1, h1, h⟩ := bind_some h
  obtain ⟨t2, h2, h⟩ := bind_some h
  obtain ⟨g, h3, h⟩ := bind_some h
  obtain ⟨ids, h4, h⟩ := bind_some h
  obtain ⟨offsets, h5, h⟩ := bind_some h
  obtain ⟨left, h6, h⟩ := bind_some h
  obtain ⟨right, h7, h⟩ := bind_some h
  injection h with h; subst h
  have f := geomSetOpposites _ h3
  refine ⟨ps, t1, t2, h0, h1, h2, f.2.1, f.1, by rw [← f.2.2.1]; exact h4, rfl, ?_⟩
  unfold Geometry.revert
  rw [if_pos ha]
  have e1 := setVertices_g _ h1
  have e2 := setTriangles_g _ h2
  dsimp only at e1
  simp only [e1, e2, h3, h4, h5, h6, h7, Option.bind_eq_bind, Option.bind_some]

/-! ## Save points -/

/-- How a save point and a strip fit together: the save point has all of its geometry from vertex `vC` and triangle `tC` on. -/
structure Sv (g : Geometry V X) (vC tC : Nat) : Prop where
  vle : vC ≤ g.save.nVertices
  tle : tC ≤ g.save.nTriangles
  vlen : vC ≤ g.vertices.length
  tlen : tC ≤ g.triangles.length
  low : ∀ (j : Nat) (t : Tri), g.triangles[j]? = some t → j < tC → t.2.2 < vC
  high : ∀ (j : Nat) (t : Tri), g.triangles[j]? = some t → tC ≤ j → j < g.save.nTriangles → vC ≤ t.1 ∧ vC ≤ t.2.1
  keysT : ∀ i, i ∈ keys g.save.savedTriangles ↔ tC ≤ i ∧ i < g.save.nTriangles
  keysV : ∀ i, vC ≤ i → i < g.save.nVertices → i ∈ keys g.save.savedVertices
  ids : vC ≤ g.save.nVertices - g.save.savedIds.length
  all : g.save.containsAll = true → vC ≤ g.lastBreak.vertexCount ∧ tC ≤ g.lastBreak.triangleCount
  none : g.save.containsAll = false → vC = g.save.nVertices ∧ tC = g.save.nTriangles ∧ g.save.savedIds = [] ∧
    (g.lastBreak.triangleCount ≤ g.save.nTriangles ∨
      (g.save.nVertices ≤ g.lastBreak.vertexCount ∧ g.save.nTriangles ≤ g.lastBreak.triangleCount))

def SaveInv (g : Geometry V X) : Prop := ∃ vC tC, Sv g vC tC

theorem sv_save {g : Geometry V X} (S : Strip g) : SaveInv g.setSavePoint := by
  refine ⟨g.vertices.length, g.triangles.length, Nat.le_refl _, Nat.le_refl _, Nat.le_refl _, Nat.le_refl _, ?_, ?_, ?_, ?_, ?_, ?_, ?_⟩
  · intro j t h _
    have := (S.tri j t h).c
    rw [S.len] at this; exact this
  · intro j t _ h h'
    exact absurd h' (Nat.not_lt.2 h)
  · intro i
    constructor
    · intro h; simp [keys, Geometry.setSavePoint] at h
    · rintro ⟨h, h'⟩; exact absurd h' (Nat.not_lt.2 h)
  · intro i h h'; exact absurd h' (Nat.not_lt.2 h)
  · simp [Geometry.setSavePoint]
  · intro h; simp [Geometry.setSavePoint] at h
  · intro _; exact ⟨rfl, rfl, rfl, Or.inl S.tle⟩

theorem sv_congr {g g' : Geometry V X} {vC tC : Nat} (S : Sv g vC tC) (h1 : g'.triangles = g.triangles)
    (h2 : g.vertices.length ≤ g'.vertices.length) (h3 : g'.lastBreak = g.lastBreak)
    (h4 : ∀ i, i ∈ keys g.save.savedVertices → i ∈ keys g'.save.savedVertices)
    (h5 : g'.save.savedTriangles = g.save.savedTriangles) (h6 : g'.save.savedIds = g.save.savedIds)
    (h7 : g'.save.nVertices = g.save.nVertices) (h8 : g'.save.nTriangles = g.save.nTriangles)
    (h9 : g'.save.containsAll = g.save.containsAll) : Sv g' vC tC where
  vle := by rw [h7]; exact S.vle
  tle := by rw [h8]; exact S.tle
  vlen := Nat.le_trans S.vlen h2
  tlen := by rw [h1]; exact S.tlen
  low := by rw [h1]; exact S.low
  high := by rw [h1, h8]; exact S.high
  keysT := by rw [h5, h8]; exact S.keysT
  keysV := by rw [h7]; exact fun i a b => h4 i (S.keysV i a b)
  ids := by rw [h6, h7]; exact S.ids
  all := by rw [h9, h3]; exact S.all
  none := by rw [h9, h3, h7, h8, h6]; exact S.none

theorem setVertex_save {g g' : Geometry V X} {i : Nat} {v : V} (h : g.setVertex i v true = some g') :
    (∀ i, i ∈ keys g.save.savedVertices → i ∈ keys g'.save.savedVertices) ∧ g'.save.savedTriangles = g.save.savedTriangles ∧
    g'.save.savedIds = g.save.savedIds ∧ g'.save.nVertices = g.save.nVertices ∧ g'.save.nTriangles = g.save.nTriangles ∧
    g'.save.containsAll = g.save.containsAll := by
  obtain ⟨old, -, h⟩ := bind_some h
  injection h with h
  subst h
  dsimp only
  split
  · exact ⟨fun i hi => keys_emplace.2 (Or.inr hi), rfl, rfl, rfl, rfl, rfl⟩
  · exact ⟨fun _ h => h, rfl, rfl, rfl, rfl, rfl⟩

theorem sv_setVertex {g g' : Geometry V X} {vC tC : Nat} {i : Nat} {v : V} (S : Sv g vC tC) (h : g.setVertex i v true = some g') :
    Sv g' vC tC := by
  obtain ⟨a1, a2, a3, a4, a5, a6⟩ := setVertex_save h
  have f := geomSetVertex h
  exact sv_congr S f.2.1 (by rw [f.1, List.length_set]; exact Nat.le_refl _) f.2.2.2.2.2 a1 a2 a3 a4 a5 a6

theorem sv_labelLast {env : Env V X} {g g' : Geometry V X} {vC tC : Nat} {s : Side V X} (S : Sv g vC tC)
    (h : g.labelLast env s = some g') : Sv g' vC tC := by
  unfold Geometry.labelLast at h
  split at h
  · injection h with h; subst h; exact S
  · obtain ⟨i, -, h⟩ := bind_some h
    obtain ⟨v, -, h⟩ := bind_some h
    exact sv_setVertex S h

theorem sv_addBreak {env : Env V X} {g g' : Geometry V X} {vC tC : Nat} (S : Sv g vC tC) (h : g.addBreak env = some g') : Sv g' vC tC := by
  obtain ⟨g1, h1, h⟩ := bind_some h
  have S1 : Sv g1 vC tC := by
    unfold Geometry.labelBoth at h1
    split at h1
    · obtain ⟨g2, h2, h1⟩ := bind_some h1
      exact sv_labelLast (sv_labelLast S h2) h1
    · injection h1 with h1; subst h1; exact S
  injection h with h; subst h
  refine ⟨S1.vle, S1.tle, S1.vlen, S1.tlen, S1.low, S1.high, S1.keysT, S1.keysV, S1.ids, fun _ => ⟨S1.vlen, S1.tlen⟩, ?_⟩
  intro hc
  obtain ⟨a, b, c, -⟩ := S1.none hc
  have h1 := S1.vlen
  have h2 := S1.tlen
  rw [a] at h1; rw [b] at h2
  exact ⟨a, b, c, Or.inr ⟨h1, h2⟩⟩

theorem keys_emplaceRange {α : Type} (l : List α) (n : Nat) : ∀ {m m' : List (Nat × α)} {i : Nat},
    Geometry.emplaceRange m l i n = some m' → ∀ j, j ∈ keys m' ↔ j ∈ keys m ∨ (i ≤ j ∧ j < i + n) := by
  induction n with
  | zero =>
    intro m m' i h j
    simp only [Geometry.emplaceRange] at h
    injection h with h; subst h
    constructor
    · exact Or.inl
    · rintro (h | ⟨h, h'⟩)
      · exact h
      · omega
  | succ n ih =>
    intro m m' i h j
    simp only [Geometry.emplaceRange] at h
    obtain ⟨a, -, h⟩ := bind_some h
    rw [ih h j, keys_emplace]
    constructor
    · rintro ((h | h) | h)
      · right; omega
      · exact Or.inl h
      · right; omega
    · rintro (h | h)
      · exact Or.inl (Or.inr h)
      · by_cases e : j = i
        · exact Or.inl (Or.inl e)
        · right; omega

theorem slice_length {α : Type} {l s : List α} {i j : Nat} (h : slice l i j = some s) : s.length = j - i ∧ i ≤ j := by
  unfold slice at h
  split at h
  · rename_i hc
    injection h with h; subst h
    rw [List.length_drop, List.length_take]
    omega
  · cases h

/-- What is captured. -/
theorem capture_facts {g g' : Geometry V X} (h : g.capture = some g') :
    g.lastBreak.vertexCount ≤ g.save.nVertices ∧ g.lastBreak.triangleCount ≤ g.save.nTriangles ∧
    g'.save.containsAll = true ∧ g'.save.nVertices = g.save.nVertices ∧ g'.save.nTriangles = g.save.nTriangles ∧
    g'.save.savedIds.length = g.save.savedIds.length + (g.save.nVertices - g.lastBreak.vertexCount) ∧
    (∀ j, j ∈ keys g'.save.savedTriangles ↔ j ∈ keys g.save.savedTriangles ∨ (g.lastBreak.triangleCount ≤ j ∧ j < g.save.nTriangles)) ∧
    (∀ j, g.lastBreak.vertexCount ≤ j → j < g.save.nVertices → j ∈ keys g'.save.savedVertices) := by
  unfold Geometry.capture at h
  dsimp only at h
  split at h
  · rename_i hb
    obtain ⟨ids, h1, h⟩ := bind_some h
    obtain ⟨_, -, h⟩ := bind_some h
    obtain ⟨ts, h2, h⟩ := bind_some h
    obtain ⟨vs, h3, h⟩ := bind_some h
    obtain ⟨_, -, h⟩ := bind_some h
    obtain ⟨_, -, h⟩ := bind_some h
    obtain ⟨_, -, h⟩ := bind_some h
    injection h with h
    subst h
    refine ⟨hb.1, hb.2, rfl, rfl, rfl, ?_, ?_, ?_⟩
    · show (g.save.savedIds ++ ids).length = _
      rw [List.length_append, (slice_length h1).1]
    · intro j
      show j ∈ keys ts ↔ _
      rw [keys_emplaceRange _ _ h2 j]
      constructor
      · rintro (h | h)
        · exact Or.inl h
        · right; omega
      · rintro (h | h)
        · exact Or.inl h
        · right; omega
    · intro j hj hj'
      show j ∈ keys vs
      rw [keys_emplaceRange _ _ h3 j]
      right; omega
  · cases h

theorem sv_truncate {env : Env V X} {g : Geometry V X} {vC tC : Nat} (St : Strip g) (S : Sv g vC tC)
    (hv : vC ≤ g.lastBreak.vertexCount) (ht : tC ≤ g.lastBreak.triangleCount) : Sv (g.truncateToBreak env) vC tC := by
  have et : (g.truncateToBreak env).triangles = g.triangles.take g.lastBreak.triangleCount := resize_of_le _ St.tle
  have hg : ∀ (j : Nat) (t : Tri), (g.truncateToBreak env).triangles[j]? = some t → g.triangles[j]? = some t := by
    intro j t h
    rw [et] at h
    have hj := getElem?_lt h
    rw [List.length_take] at hj
    rwa [List.getElem?_take_of_lt (by omega)] at h
  refine ⟨S.vle, S.tle, ?_, ?_, fun j t h => S.low j t (hg j t h), fun j t h => S.high j t (hg j t h), S.keysT, S.keysV, S.ids, S.all, S.none⟩
  · show vC ≤ (resize _ _ _).length; rw [resize_length]; exact hv
  · show tC ≤ (resize _ _ _).length; rw [resize_length]; exact ht

theorem sv_clear {env : Env V X} {g g' : Geometry V X} (St : Strip g) (S : SaveInv g) (ha : g.save.active = true)
    (h : g.clearSinceBreak env = some g') : SaveInv g' := by
  obtain ⟨vC, tC, S⟩ := S
  unfold Geometry.clearSinceBreak at h
  split at h
  · injection h with h; subst h; exact ⟨vC, tC, S⟩
  · obtain ⟨g1, h1, h⟩ := bind_some h
    injection h with h; subst h
    have e := captureIfNeeded_facts h1
    have St1 : Strip g1 := by rw [e]; exact strip_save St _
    unfold Geometry.captureIfNeeded at h1
    by_cases hc : g.save.containsAll = true
    · rw [if_neg (by rw [hc]; simp)] at h1
      injection h1 with h1; subst h1
      exact ⟨vC, tC, sv_truncate St S (S.all hc).1 (S.all hc).2⟩
    · have hc : g.save.containsAll = false := by simpa using hc
      obtain ⟨a, b, c, d⟩ := S.none hc
      by_cases hn : g.save.nTriangles ≥ g.lastBreak.triangleCount
      · rw [if_pos ⟨ha, by rw [hc]; simp, hn⟩] at h1
        obtain ⟨c1, c2, c3, c4, c5, c6, c7, c8⟩ := capture_facts h1
        have eb : g1.lastBreak = g.lastBreak := by rw [e]
        have et : g1.triangles = g.triangles := by rw [e]
        have ev : g1.vertices = g.vertices := by rw [e]
        refine ⟨g.lastBreak.vertexCount, g.lastBreak.triangleCount, sv_truncate St1 ?_ (by rw [eb]; exact Nat.le_refl _)
          (by rw [eb]; exact Nat.le_refl _)⟩
        refine ⟨by rw [c4]; exact c1, by rw [c5]; exact c2, by rw [ev]; exact St.vle, by rw [et]; exact St.tle, ?_, ?_, ?_, ?_, ?_, ?_, ?_⟩
        · rw [et]; exact St.low
        · rw [et]; exact fun j t h hj _ => St.high j t h hj
        · intro i
          rw [c7 i, S.keysT i, b, c5]
          constructor
          · rintro (h | h)
            · omega
            · exact h
          · exact Or.inr
        · rw [c4]; exact c8
        · rw [c6, c4, c]; simp only [List.length_nil]; omega
        · intro _; rw [eb]; exact ⟨Nat.le_refl _, Nat.le_refl _⟩
        · intro h; rw [c3] at h; cases h
      · rw [if_neg (fun h => hn h.2.2)] at h1
        injection h1 with h1; subst h1
        rcases d with d | d
        · exact absurd d hn
        · exact ⟨vC, tC, sv_truncate St S (by rw [a]; exact d.1) (by rw [b]; exact d.2)⟩

theorem sv_step {pos : V → P} {env : Env V X} {g g' : Geometry V X} {op : Op V X} (St : Strip g) (S : SaveInv g)
    (ha : g.save.active = true) (ho : OpOk pos g op) (h : g.step env op = some g') : SaveInv g' := by
  by_cases hcl : op = .clear
  · subst hcl; exact sv_clear St S ha h
  obtain ⟨vC, tC, S⟩ := S
  have side : ∀ (g : Geometry V X) (k : SideId) (s : Side V X), Sv g vC tC → Sv (g.setSide k s) vC tC := by
    intro g k s S
    obtain ⟨e1, e2, e3⟩ := setSide_more g k s
    exact sv_congr S (setSide_mesh g k s).2 (by rw [(setSide_mesh g k s).1]; exact Nat.le_refl _) e2 (by rw [e3]; exact fun _ h => h)
      (by rw [e3]) (by rw [e3]) (by rw [e3]) (by rw [e3]) (by rw [e3])
  have app : ∀ (g : Geometry V X) (k : SideId) (v : V), Sv g vC tC → Sv (g.appendVertexToMesh k v) vC tC := by
    intro g k v S
    obtain ⟨e1, e2, e3, e4⟩ := appendVertexToMesh_mesh g k v
    have e5 : (g.appendVertexToMesh k v).save = g.save := by cases k <;> rfl
    exact sv_congr S e2 (by rw [e1, List.length_append]; exact Nat.le_add_right _ _) e4 (by rw [e5]; exact fun _ h => h)
      (by rw [e5]) (by rw [e5]) (by rw [e5]) (by rw [e5]) (by rw [e5])
  refine ⟨vC, tC, ?_⟩
  cases op with
  | bufferVertex k v =>
    obtain ⟨st, -, rfl | ⟨w, rfl⟩⟩ := appendVertexToSide_cases h
    · exact side _ _ _ S
    · exact app _ _ _ (side _ _ _ S)
  | appendVertex k v => injection h with h; subst h; exact app _ _ _ S
  | setVertex i v => exact sv_setVertex S h
  | appendTriangle t =>
    injection h with h; subst h
    obtain ⟨C, -, h1, h2⟩ := ho
    refine ⟨S.vle, S.tle, S.vlen, ?_, ?_, ?_, S.keysT, S.keysV, S.ids, S.all, S.none⟩
    · show tC ≤ (g.triangles ++ [t]).length
      rw [List.length_append]; exact Nat.le_trans S.tlen (Nat.le_add_right _ _)
    · intro j s hj hlt
      rcases append_get.1 hj with hj | ⟨e, rfl⟩
      · exact S.low j s hj hlt
      · have := S.tlen; omega
    · intro j s hj hle hlt
      rcases append_get.1 hj with hj | ⟨e, rfl⟩
      · exact S.high j s hj hle hlt
      · by_cases hc : g.save.containsAll = true
        · have := (S.all hc).1
          exact ⟨Nat.le_trans this h1, Nat.le_trans this h2⟩
        · have hc : g.save.containsAll = false := by simpa using hc
          have := (S.none hc).2.1
          have := S.tlen
          dsimp only at hlt; omega
  | setTriangle i t => exact ho.elim
  | unzip k f t => exact ho.elim
  | setOpposite i o =>
    have f := geomSetOpposite h
    have e : g'.save.savedVertices = g.save.savedVertices ∧ g'.save.savedTriangles = g.save.savedTriangles ∧
        g'.save.savedIds = g.save.savedIds ∧ g'.save.nVertices = g.save.nVertices ∧ g'.save.nTriangles = g.save.nTriangles ∧
        g'.save.containsAll = g.save.containsAll := by
      obtain ⟨old, -, h⟩ := bind_some h
      split at h
      · injection h with h; subst h; simp
      · injection h with h
        subst h
        dsimp only
        split <;> simp
    exact sv_congr S f.1 (by rw [f.2.1]; exact Nat.le_refl _) f.2.2.2.2.2 (by rw [e.1]; exact fun _ h => h) e.2.1 e.2.2.1 e.2.2.2.1
      e.2.2.2.2.1 e.2.2.2.2.2
  | addDiscontinuity k r => injection h with h; subst h; exact side _ _ _ S
  | setState k s => injection h with h; subst h; exact side _ _ _ S
  | addBreak => exact sv_addBreak S h
  | clear => exact absurd rfl hcl
  | derivatives us =>
    obtain ⟨a, b⟩ := updateVertices_same us h
    rw [b]
    exact sv_congr S rfl (Nat.le_of_eq a.symm) rfl (fun _ h => h) rfl rfl rfl rfl rfl
  | resetTracking => exact ho.elim

end Verif.StrokeGeom
