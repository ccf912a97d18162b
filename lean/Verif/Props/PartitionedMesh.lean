import Verif.Spec.PartitionedMesh
import Verif.Lemmas.Mesh
import Verif.Props.MutableMesh

/-!
# C16: a `PartitionedMesh` keeps every group, mesh and outline it was built from
-/

set_option autoImplicit false

namespace Verif

open Mesh PMesh PMeshSpec Mesh.Spec

theorem formatEq_iff (f g : MeshFormat) : formatEq f g = true ↔ SameFormat f g := by
  unfold formatEq SameFormat
  have key : ∀ (as bs : List Attribute), (decide (as.length = bs.length) &&
      (as.zip bs).all (fun p => p.1.type = p.2.type && p.1.id = p.2.id)) = true ↔
      as.map (fun a => (a.type, a.id)) = bs.map (fun a => (a.type, a.id)) := by
    intro as
    induction as with
    | nil => intro bs; cases bs <;> simp
    | cons a as ih =>
      intro bs
      cases bs with
      | nil => simp
      | cons b bs =>
        have := ih bs
        simp only [Bool.and_eq_true, decide_eq_true_eq] at this
        simp only [List.length_cons, List.zip_cons_cons, List.all_cons, Bool.and_eq_true,
          decide_eq_true_eq, List.map_cons, List.cons.injEq, Prod.mk.injEq, ← this,
          Nat.add_right_cancel_iff]
        tauto
  rw [Bool.and_eq_true, key]
  simp

theorem _root_.Verif.PMeshSpec.SameFormat.symm {f g : MeshFormat} (h : SameFormat f g) : SameFormat g f :=
  ⟨h.1.symm, h.2.symm⟩

theorem _root_.Verif.PMeshSpec.SameFormat.trans {f g k : MeshFormat} (h : SameFormat f g) (h' : SameFormat g k) :
    SameFormat f k := ⟨h.1.trans h'.1, h.2.trans h'.2⟩

theorem groupFormat_iff (g : MeshGroup) : (∃ f, groupFormat g = some f) ↔
    ∀ m ∈ g.meshes, ∀ m' ∈ g.meshes, SameFormat m.format m'.format := by
  unfold groupFormat
  cases h : g.meshes with
  | nil => simp
  | cons m ms =>
    simp only
    constructor
    · rintro ⟨f, hf⟩
      by_cases hc : (ms.all fun m' => formatEq m'.format m.format) = true
      · rw [List.all_eq_true] at hc
        have key : ∀ x ∈ m :: ms, SameFormat x.format m.format := by
          intro x hx
          rcases List.mem_cons.1 hx with rfl | hx
          · exact ⟨rfl, rfl⟩
          · exact (formatEq_iff _ _).1 (hc x hx)
        exact fun x hx y hy => SameFormat.trans (key x hx) (SameFormat.symm (key y hy))
      · rw [if_neg hc] at hf; cases hf
    · intro hall
      refine ⟨m.format, if_pos ?_⟩
      rw [List.all_eq_true]
      exact fun x hx => (formatEq_iff _ _).2 (hall x (by simp [hx]) m (by simp))

theorem groupFormat_spec {g : MeshGroup} {f : MeshFormat} (h : groupFormat g = some f) :
    (∀ m ∈ g.meshes, SameFormat f m.format) ∧ (g.meshes = [] → f = MeshFormat.default) := by
  have hall := (groupFormat_iff g).1 ⟨f, h⟩
  unfold groupFormat at h
  cases hm : g.meshes with
  | nil => rw [hm] at h; simp only [Option.some.injEq] at h; simp [h]
  | cons m ms =>
    rw [hm] at h hall
    simp only at h
    split at h
    · cases h
      exact ⟨fun x hx => hall m (by simp) x hx, by simp⟩
    · cases h

theorem pointOk_iff (ms : List Mesh) (p : VertexIndexPair) : pointOk ms p = true ↔ Designates ms p := by
  unfold pointOk Designates
  cases h : ms[p.meshIndex]? <;> simp

theorem checkGroup_spec (g : MeshGroup) :
    ((∃ f, checkGroup g = some f) ↔ GroupOk g) ∧ ∀ f, checkGroup g = some f → groupFormat g = some f := by
  unfold checkGroup
  constructor
  · constructor
    · rintro ⟨f, hf⟩
      obtain ⟨f', h1, h2⟩ := Option.bind_eq_some_iff.1 hf
      split at h2
      · cases h2
      rename_i hn
      split at h2
      · cases h2
      rename_i ho
      simp only [List.any_eq_true, beq_iff_eq, not_exists, not_and] at hn
      simp only [Bool.not_eq_true', Bool.not_eq_false, List.all_eq_true, outlineOk, Bool.and_eq_true,
        Bool.not_eq_true', pointOk_iff, List.isEmpty_eq_false_iff] at ho
      exact ⟨fun m hm => hn m hm, (groupFormat_iff g).1 ⟨f', h1⟩, fun o h => (ho o h).1,
        fun o h => (ho o h).2⟩
    · rintro ⟨h1, h2, h3, h4⟩
      obtain ⟨f, hf⟩ := (groupFormat_iff g).2 h2
      refine ⟨f, ?_⟩
      rw [hf, Option.bind_some, if_neg, if_neg]
      · simp only [Bool.not_eq_true', Bool.not_eq_false, List.all_eq_true, outlineOk, Bool.and_eq_true,
          Bool.not_eq_true', pointOk_iff, List.isEmpty_eq_false_iff]
        exact fun o h => ⟨h3 o h, h4 o h⟩
      · simp only [List.any_eq_true, beq_iff_eq, not_exists, not_and]
        exact fun m hm => h1 m hm
  · intro f hf
    obtain ⟨f', h1, h2⟩ := Option.bind_eq_some_iff.1 hf
    split at h2
    · cases h2
    split at h2
    · cases h2
    rw [← h2]; exact h1

theorem totalMeshes_eq (gs : List MeshGroup) :
    (gs.map fun g => g.meshes.length).sum = totalMeshes gs := by
  unfold totalMeshes
  rw [List.length_flatMap]

/-- **C16.** A `PartitionedMesh` can be built exactly if the groups are as documented, with at most 65535
meshes. The documentation says 65536: see `C16_limit_counterexample`. -/
theorem C16_build_iff_partial (gs : List MeshGroup) :
    (∃ s, PartitionedMesh.fromMeshGroups gs = some s) ↔
      totalMeshes gs ≤ 65535 ∧ ∀ g ∈ gs, GroupOk g := by
  unfold PartitionedMesh.fromMeshGroups Data.fromMeshGroups
  rw [totalMeshes_eq]
  by_cases hn : totalMeshes gs > 65535
  · rw [if_pos hn]
    simp only [Option.map_none]
    constructor
    · rintro ⟨s, hs⟩; cases hs
    · rintro ⟨h, -⟩; omega
  · rw [if_neg hn]
    have key : ∀ gs : List MeshGroup, (∃ fs, gs.mapM checkGroup = some fs) ↔ ∀ g ∈ gs, GroupOk g := by
      intro gs
      induction gs with
      | nil => simp
      | cons g gs ih =>
        rw [List.forall_mem_cons, ← ih, ← (checkGroup_spec g).1]
        constructor
        · rintro ⟨fs, h⟩
          simp only [List.mapM_cons, Option.bind_eq_bind, Option.bind_eq_some_iff] at h
          obtain ⟨f, h1, fs', h2, -⟩ := h
          exact ⟨⟨f, h1⟩, fs', h2⟩
        · rintro ⟨⟨f, h1⟩, fs, h2⟩
          exact ⟨f :: fs, by simp [List.mapM_cons, h1, h2]⟩
    rw [← key gs]
    constructor
    · rintro ⟨s, h⟩
      obtain ⟨d, h1, -⟩ := Option.map_eq_some_iff.1 h
      obtain ⟨fs, h2, -⟩ := Option.map_eq_some_iff.1 h1
      exact ⟨by omega, fs, h2⟩
    · rintro ⟨-, fs, h⟩
      exact ⟨_, by rw [h]; rfl⟩

/-- The number of elements before group `i`. -/
def before {α β : Type} (f : α → List β) (gs : List α) (i : Nat) : Nat :=
  ((gs.take i).flatMap f).length

/-- What the loop over the groups has stored. -/
structure Stored (d : Data) (gs : List MeshGroup) (fs : List MeshFormat) : Prop where
  meshes : d.meshes = gs.flatMap fun g => g.meshes
  outlines : d.outlines = gs.flatMap fun g => g.outlines
  firstMesh : d.groupFirstMeshIndices =
    (List.range gs.length).map fun i => u16 (before (fun g => g.meshes) gs i)
  firstOutline : d.groupFirstOutlineIndices =
    (List.range gs.length).map fun i => u32 (before (fun g => g.outlines) gs i)
  formats : d.groupFormats = fs

theorem stored_fold (fs : List MeshFormat) : ∀ (more done : List MeshGroup) (d : Data),
    Stored d done fs → Stored (more.foldl addGroup d) (done ++ more) fs := by
  intro more
  induction more with
  | nil => intro done d h; simpa using h
  | cons g more ih =>
    intro done d h
    have : Stored (addGroup d g) (done ++ [g]) fs := by
      have e : ∀ {β : Type} (f : MeshGroup → List β), ∀ i ∈ List.range done.length,
          before f (done ++ [g]) i = before f done i := by
        intro β f i hi
        unfold before
        rw [List.take_append_of_le_length (by have := List.mem_range.1 hi; omega)]
      have e' : ∀ {β : Type} (f : MeshGroup → List β),
          before f (done ++ [g]) done.length = (done.flatMap f).length := by
        intro β f
        unfold before
        rw [List.take_append_of_le_length (by omega), List.take_length]
      refine ⟨?_, ?_, ?_, ?_, ?_⟩
      · simp [addGroup, h.meshes]
      · simp [addGroup, h.outlines]
      · simp only [addGroup, h.firstMesh, List.length_append, List.length_singleton,
          List.range_succ, List.map_append, List.map_cons, List.map_nil, e', h.meshes]
        congr 1
        exact List.map_congr_left fun i hi => by rw [e _ i hi]
      · simp only [addGroup, h.firstOutline, List.length_append, List.length_singleton,
          List.range_succ, List.map_append, List.map_cons, List.map_nil, e', h.outlines]
        congr 1
        exact List.map_congr_left fun i hi => by rw [e _ i hi]
      · exact h.formats
    have := ih (done ++ [g]) (addGroup d g) this
    rw [List.append_assoc, List.singleton_append] at this
    exact this

theorem before_le {α β : Type} (f : α → List β) (gs : List α) (i : Nat) :
    before f gs i ≤ (gs.flatMap f).length := by
  unfold before
  conv_rhs => rw [← List.take_append_drop i gs]
  rw [List.flatMap_append, List.length_append]
  omega

theorem before_succ {α β : Type} (f : α → List β) (gs : List α) (i : Nat) {g : α}
    (h : gs[i]? = some g) : before f gs (i + 1) = before f gs i + (f g).length := by
  unfold before
  have hl := (List.getElem?_eq_some_iff.1 h)
  rw [List.take_add_one, h]
  simp

/-- The part of the flattened list that belongs to group `i`. -/
theorem slice_flatMap {α β : Type} (f : α → List β) (gs : List α) (i : Nat) {g : α}
    (h : gs[i]? = some g) :
    ((gs.flatMap f).drop (before f gs i)).take (f g).length = f g := by
  obtain ⟨hl, hg⟩ := List.getElem?_eq_some_iff.1 h
  have e : gs = gs.take i ++ g :: gs.drop (i + 1) := by
    rw [← hg, List.getElem_cons_drop, List.take_append_drop]
  have e' : gs.flatMap f = (gs.take i).flatMap f ++ (f g ++ (gs.drop (i + 1)).flatMap f) := by
    conv_lhs => rw [e]
    rw [List.flatMap_append, List.flatMap_cons]
  rw [e']
  unfold before
  rw [List.drop_left, List.take_left']
  rfl

theorem slice_group {α β : Type} (f : α → List β) (gs : List α) (conv : Nat → Nat)
    (hconv : ∀ n, n ≤ (gs.flatMap f).length → conv n = n) (hlen : gs.length < maxCount)
    (hsize : (gs.flatMap f).length < 18446744073709551616) (i : Nat) {g : α} (h : gs[i]? = some g) :
    (((List.range gs.length).map fun k => conv (before f gs k))[i]?).bind (fun start =>
      subspan start (sizeSub (groupEnd ((List.range gs.length).map fun k => conv (before f gs k)) i
        (gs.flatMap f).length) start) (gs.flatMap f)) = some (f g) := by
  obtain ⟨hl, hg⟩ := List.getElem?_eq_some_iff.1 h
  have e1 : ∀ k, k < gs.length →
      ((List.range gs.length).map fun k => conv (before f gs k))[k]? = some (before f gs k) := by
    intro k hk
    rw [List.getElem?_map, List.getElem?_range hk, Option.map_some, hconv _ (before_le f gs k)]
  have hu : u32 (i + 1) = if i + 1 = maxCount then 0 else i + 1 := by
    unfold u32 maxCount
    unfold maxCount at hlen
    by_cases hh : i + 1 = 4294967296
    · omega
    · rw [if_neg hh]; omega
  have hu' : u32 (i + 1) = i + 1 := by rw [hu, if_neg (by omega)]
  have e2 : groupEnd ((List.range gs.length).map fun k => conv (before f gs k)) i
      (gs.flatMap f).length = before f gs (i + 1) := by
    unfold groupEnd
    rw [hu', List.length_map, List.length_range]
    by_cases hh : i + 1 < gs.length
    · rw [if_pos hh, List.getD_eq_getElem?_getD, e1 _ hh]; rfl
    · rw [if_neg hh]
      unfold before
      rw [List.take_of_length_le (by omega)]
  rw [e1 i hl, Option.bind_some, e2]
  have e3 := before_succ f gs i h
  have e4 := before_le f gs i
  have e5 := before_le f gs (i + 1)
  have e6 : sizeSub (before f gs (i + 1)) (before f gs i) = (f g).length := by
    unfold sizeSub; omega
  unfold subspan
  rw [if_pos e4, e6, slice_flatMap f gs i h]

theorem mapM_getElem? {α β : Type} {f : α → Option β} : ∀ {l : List α} {r : List β},
    l.mapM f = some r → ∀ i : Nat, (l[i]?).bind f = r[i]? := by
  intro l
  induction l with
  | nil => intro r h i; simp at h; subst h; simp
  | cons a l ih =>
    intro r h i
    simp only [List.mapM_cons, Option.bind_eq_bind, Option.bind_eq_some_iff] at h
    obtain ⟨b, h1, r', h2, h3⟩ := h
    cases h3
    cases i with
    | zero => simpa using h1
    | succ i => simpa using ih h2 i

theorem length_mapM {α β : Type} {f : α → Option β} : ∀ {l : List α} {r : List β},
    l.mapM f = some r → r.length = l.length := by
  intro l
  induction l with
  | nil => intro r h; simp at h; subst h; rfl
  | cons a l ih =>
    intro r h
    simp only [List.mapM_cons, Option.bind_eq_bind, Option.bind_eq_some_iff] at h
    obtain ⟨b, h1, r', h2, h3⟩ := h
    cases h3
    simp [ih h2]

/-- **C16.** A shape that is built shows the groups it was given: the meshes and outlines of each, in
order, with the positions of the points of the outlines. -/
theorem C16_contents (gs : List MeshGroup) (s : PartitionedMesh)
    (h : PartitionedMesh.fromMeshGroups gs = some s) (hg : gs.length < maxCount)
    (ho : totalOutlines gs < maxCount) : Shows s gs := by
  unfold PartitionedMesh.fromMeshGroups at h
  obtain ⟨d, h', rfl⟩ := Option.map_eq_some_iff.1 h
  clear h
  rename' h' => h
  rw [show Data.fromMeshGroups gs = if (gs.map fun g => g.meshes.length).sum > 65535 then none
    else (gs.mapM checkGroup).map fun formats => gs.foldl addGroup { groupFormats := formats } from rfl,
    totalMeshes_eq] at h
  by_cases hn : totalMeshes gs > 65535
  · rw [if_pos hn] at h; cases h
  rw [if_neg hn] at h
  obtain ⟨fs, hfs, hd⟩ := Option.map_eq_some_iff.1 h
  have S : Stored d gs fs := by
    have := stored_fold fs gs [] { groupFormats := fs } ⟨rfl, rfl, rfl, rfl, rfl⟩
    rw [List.nil_append, hd] at this
    exact this
  have hm : totalMeshes gs = (gs.flatMap fun g => g.meshes).length := rfl
  have hot : totalOutlines gs = (gs.flatMap fun g => g.outlines).length := rfl
  have hmax : maxCount = 4294967296 := rfl
  have hcount : d.renderGroupCount = gs.length := by
    unfold Data.renderGroupCount
    rw [S.firstMesh, List.length_map, List.length_range, u32_of_lt hg]
  have hgm : ∀ i, d.renderGroupMeshes i = (gs[i]?).map fun g => g.meshes := by
    intro i
    unfold Data.renderGroupMeshes
    rw [hcount]
    by_cases hi : i < gs.length
    · rw [if_pos hi, S.firstMesh, S.meshes, List.getElem?_eq_getElem hi, Option.map_some]
      exact slice_group (fun g : MeshGroup => g.meshes) gs u16
        (fun n hn' => by unfold u16; omega) hg (by omega) i (List.getElem?_eq_getElem hi)
    · rw [if_neg hi, List.getElem?_eq_none (by omega)]; rfl
  have hol : ∀ i, d.outlinesOf i = (gs[i]?).map fun g => g.outlines := by
    intro i
    unfold Data.outlinesOf
    rw [hcount]
    by_cases hi : i < gs.length
    · rw [if_pos hi, S.firstOutline, S.outlines, List.getElem?_eq_getElem hi, Option.map_some]
      exact slice_group (fun g : MeshGroup => g.outlines) gs u32
        (fun n hn' => u32_of_lt (by omega)) hg (by omega) i (List.getElem?_eq_getElem hi)
    · rw [if_neg hi, List.getElem?_eq_none (by omega)]; rfl
  have hfmt : ∀ i, d.renderGroupFormat i = (gs[i]?).bind checkGroup := by
    intro i
    unfold Data.renderGroupFormat
    rw [hcount, mapM_getElem? hfs i, S.formats]
    by_cases hi : i < gs.length
    · rw [if_pos hi]
    · rw [if_neg hi, ← mapM_getElem? hfs i, List.getElem?_eq_none (by omega)]; rfl
  have hlen : ∀ i (hi : i < gs.length), gs[i].outlines.length < maxCount := by
    intro i hi
    have := before_succ (fun g : MeshGroup => g.outlines) gs i (List.getElem?_eq_getElem hi)
    have := before_le (fun g : MeshGroup => g.outlines) gs (i + 1)
    omega
  have hoc : ∀ i, PartitionedMesh.outlineCount (some d) i =
      (gs[i]?).map fun g => g.outlines.length := by
    intro i
    unfold PartitionedMesh.outlineCount
    rw [Option.bind_some, hol i, Option.map_map]
    by_cases hi : i < gs.length
    · rw [List.getElem?_eq_getElem hi]
      simp only [Option.map_some, Function.comp_apply, Option.some.injEq]
      exact u32_of_lt (hlen i hi)
    · rw [List.getElem?_eq_none (by omega)]; rfl
  have hou : ∀ i o, PartitionedMesh.outline (some d) i o = (gs[i]?).bind fun g => g.outlines[o]? := by
    intro i o
    unfold PartitionedMesh.outline
    rw [hoc i, Option.bind_some, hol i]
    by_cases hi : i < gs.length
    · rw [List.getElem?_eq_getElem hi]
      simp only [Option.map_some, Option.bind_some]
      by_cases hh : o < gs[i].outlines.length
      · rw [if_pos hh]
      · rw [if_neg hh, List.getElem?_eq_none (by omega)]
    · rw [List.getElem?_eq_none (by omega)]; rfl
  have hfs' : ∀ g ∈ gs, ∃ f, checkGroup g = some f := by
    intro g hg'
    obtain ⟨i, hi⟩ := List.getElem?_of_mem hg'
    have e := mapM_getElem? hfs i
    rw [hi, Option.bind_some] at e
    have hl := (List.getElem?_eq_some_iff.1 hi).1
    have : fs.length = gs.length := by
      exact length_mapM hfs
    rw [List.getElem?_eq_getElem (by omega)] at e
    exact ⟨_, e⟩
  refine ⟨hcount, S.meshes, hgm, ?_, ?_, ?_, hoc, hou, ?_⟩
  · intro i g m hi hm'
    obtain ⟨f, hf⟩ := hfs' g (List.mem_of_getElem? hi)
    refine ⟨f, ?_, (groupFormat_spec ((checkGroup_spec g).2 f hf)).1 m hm'⟩
    unfold PartitionedMesh.renderGroupFormat
    rw [Option.bind_some, hfmt, hi, Option.bind_some, hf]
  · intro i hi
    unfold PartitionedMesh.renderGroupFormat
    rw [Option.bind_some, hfmt, hi]; rfl
  · intro i g hi he
    obtain ⟨f, hf⟩ := hfs' g (List.mem_of_getElem? hi)
    unfold PartitionedMesh.renderGroupFormat
    rw [Option.bind_some, hfmt, hi, Option.bind_some, hf,
      (groupFormat_spec ((checkGroup_spec g).2 f hf)).2 he]
  · intro i o v
    unfold PartitionedMesh.outlinePosition PartitionedMesh.renderGroupMeshes
    rw [hou i o, Option.bind_some, hgm i]
    by_cases hi : i < gs.length
    · rw [List.getElem?_eq_getElem hi]
      simp only [Option.map_some, Option.bind_some]
      cases hp : gs[i].outlines[o]? with
      | none => rfl
      | some pts =>
        simp only [Option.bind_some]
        by_cases hv : v < pts.length
        · rw [if_pos hv]
        · rw [if_neg hv, List.getElem?_eq_none (by omega)]; rfl
    · rw [List.getElem?_eq_none (by omega)]; rfl

/-- **C16.** A shape can be made with any number of empty groups, and each of them is empty. -/
theorem C16_empty_groups (n : Nat) (hn : n < maxCount) :
    ∃ s, PartitionedMesh.withEmptyGroups n = some s ∧ Shows s (List.replicate n ⟨[], []⟩) ∧
      s.renderGroupCount = n ∧ s.meshes = [] := by
  have h1 : totalMeshes (List.replicate n ⟨[], []⟩) = 0 := by
    unfold totalMeshes
    rw [List.length_eq_zero_iff, List.flatMap_eq_nil_iff]
    intro g hg
    rw [List.eq_of_mem_replicate hg]
  have h2 : totalOutlines (List.replicate n ⟨[], []⟩) = 0 := by
    unfold totalOutlines
    rw [List.length_eq_zero_iff, List.flatMap_eq_nil_iff]
    intro g hg
    rw [List.eq_of_mem_replicate hg]
  obtain ⟨s, hs⟩ := (C16_build_iff_partial (List.replicate n ⟨[], []⟩)).2 ⟨by omega, by
    intro g hg
    rw [List.eq_of_mem_replicate hg]
    exact ⟨by simp, by simp, by simp, by simp⟩⟩
  have S := C16_contents _ s hs (by simpa using hn) (by rw [h2]; decide)
  refine ⟨s, hs, S, by simpa using S.count, ?_⟩
  rw [S.meshes]
  exact List.length_eq_zero_iff.1 h1

/-- **C16.** The default shape is empty. -/
theorem C16_default : PartitionedMesh.renderGroupCount none = 0 ∧ PartitionedMesh.meshes none = [] ∧
    (∀ i, PartitionedMesh.renderGroupMeshes none i = none) ∧
    (∀ i, PartitionedMesh.renderGroupFormat none i = none) ∧
    (∀ i, PartitionedMesh.outlineCount none i = none) := ⟨rfl, rfl, fun _ => rfl, fun _ => rfl, fun _ => rfl⟩

namespace PMeshExample

/-- A mesh with one triangle. -/
def one : Option Mesh :=
  ((create [(.f2In3Bytes, kPosition)] .unpacked16).bind fun f => (Mesh.Mesh.create f
    [[F32.zero, F32.ofInt 1, F32.zero], [F32.zero, F32.zero, F32.ofInt 2]] [0, 1, 2] []).bind id)

theorem one_some : one.isSome = true := by decide +kernel

def mesh : Mesh := one.get one_some

theorem mesh_tris : mesh.triangleCount = 1 := by decide +kernel

theorem mesh_vertices : mesh.vertexCount = 3 := by decide +kernel

/-- Two groups, the first with two meshes and two outlines, between two empty groups. -/
def groups : List MeshGroup :=
  [⟨[], []⟩, ⟨[mesh, mesh], [[⟨1, 2⟩, ⟨0, 0⟩], [⟨0, 1⟩]]⟩, ⟨[], []⟩, ⟨[mesh], []⟩]

theorem designates (i v : Nat) (hi : i < 2) (hv : v < 3) : Designates [mesh, mesh] ⟨i, v⟩ := by
  refine ⟨mesh, ?_, by rw [mesh_vertices]; exact hv⟩
  match i, hi with
  | 0, _ => rfl
  | 1, _ => rfl

theorem groups_ok : totalMeshes groups ≤ 65535 ∧ ∀ g ∈ groups, GroupOk g := by
  refine ⟨by simp [totalMeshes, groups], ?_⟩
  intro g hg
  have hsame : SameFormat mesh.format mesh.format := ⟨rfl, rfl⟩
  simp only [groups, List.mem_cons, List.not_mem_nil, or_false] at hg
  rcases hg with rfl | rfl | rfl | rfl
  · exact ⟨by simp, by simp, by simp, by simp⟩
  · refine ⟨?_, ?_, by simp, ?_⟩
    · simp [mesh_tris]
    · simp [hsame]
    · intro o ho p hp
      simp only [List.mem_cons, List.not_mem_nil, or_false] at ho
      rcases ho with rfl | rfl <;> simp only [List.mem_cons, List.not_mem_nil, or_false] at hp
      · rcases hp with rfl | rfl
        · exact designates 1 2 (by omega) (by omega)
        · exact designates 0 0 (by omega) (by omega)
      · subst hp
        exact designates 0 1 (by omega) (by omega)
  · exact ⟨by simp, by simp, by simp, by simp⟩
  · exact ⟨by simp [mesh_tris], by simp [hsame], by simp, by simp⟩

/-- The hypotheses of `C16_contents` can be met, and what it says then. -/
example : ∃ s, PartitionedMesh.fromMeshGroups groups = some s ∧ Shows s groups ∧
    s.outline 1 0 = some [⟨1, 2⟩, ⟨0, 0⟩] ∧ s.renderGroupMeshes 3 = some [mesh] ∧
    s.outline 1 2 = none := by
  obtain ⟨s, hs⟩ := (C16_build_iff_partial groups).2 groups_ok
  have S := C16_contents groups s hs (by decide) (by simp [totalOutlines, groups, maxCount])
  exact ⟨s, hs, S, by rw [S.outline]; rfl, by rw [S.groupMeshes]; rfl, by rw [S.outline]; rfl⟩

end PMeshExample

/-- The documentation allows 65536 meshes, and so does the text of the error, but they are rejected. -/
theorem C16_limit_counterexample : ∃ gs : List MeshGroup, totalMeshes gs = 65536 ∧
    (∀ g ∈ gs, GroupOk g) ∧ PartitionedMesh.fromMeshGroups gs = none := by
  have hn : totalMeshes [⟨List.replicate 65536 PMeshExample.mesh, []⟩] = 65536 := by
    unfold totalMeshes
    simp only [List.flatMap_cons, List.flatMap_nil, List.append_nil, List.length_replicate]
  refine ⟨_, hn, ?_, ?_⟩
  · intro g hg
    rw [List.mem_singleton] at hg
    subst hg
    refine ⟨?_, ?_, fun o ho => absurd ho List.not_mem_nil, fun o ho => absurd ho List.not_mem_nil⟩
    · intro m hm
      rw [List.eq_of_mem_replicate hm, PMeshExample.mesh_tris]
      decide
    · intro m hm m' hm'
      rw [List.eq_of_mem_replicate hm, List.eq_of_mem_replicate hm']
      exact ⟨rfl, rfl⟩
  · cases h : PartitionedMesh.fromMeshGroups [⟨List.replicate 65536 PMeshExample.mesh, []⟩] with
    | none => rfl
    | some s =>
      have := ((C16_build_iff_partial _).1 ⟨s, h⟩).1
      omega

end Verif
