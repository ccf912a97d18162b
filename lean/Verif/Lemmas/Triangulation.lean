import Verif.Spec.Triangulation
import Mathlib.Data.List.Nodup
import Mathlib.Tactic.Linarith
import Mathlib.Tactic.Ring

/-!
# Lemmas for C76
-/

set_option autoImplicit false
set_option linter.unusedSectionVars false

namespace Verif.Triangulation

open Geo Spec
open PartialOutline (SideId)

variable {K : Type} [Field K] [LinearOrder K]

/-- The number of a vertex of the next partition is at least `b`, that of a triangle at least `n`. -/
structure Core (s : State K) (b n : ℕ) : Prop where
  len : s.sideOf.length = s.vertices.length
  ind : ∀ k, (s.side k).indices = verticesOf s k
  part : ∀ k, (s.side k).partition ≤ (s.side k).indices.length
  cur : ∀ k, ∀ i ∈ (s.side k).indices.drop (s.side k).partition, b ≤ i
  tri : ∀ t ∈ s.triangles, Connects s t
  inc : s.triangles.Pairwise fun t u => t.2.2 < u.2.2
  brk : b ≤ s.vertices.length ∧ n ≤ s.triangles.length
  new : ∀ t ∈ s.triangles.drop n, From b t

structure Ready (s : State K) (b n : ℕ) : Prop extends Core s b n where
  has : ∀ k, (s.side k).partition < (s.side k).indices.length

omit [Field K] [LinearOrder K] in
theorem side_setSide (s : State K) (k : SideId) (x : Side K) : (s.setSide k x).side k = x := by cases k <;> rfl

omit [Field K] [LinearOrder K] in
theorem side_setSide_ne (s : State K) {k k' : SideId} (x : Side K) (h : k' ≠ k) : (s.setSide k x).side k' = s.side k' := by
  cases k <;> cases k' <;> simp_all [State.setSide, State.side]

omit [Field K] [LinearOrder K] in
theorem setSide_vertices (s : State K) (k : SideId) (x : Side K) : (s.setSide k x).vertices = s.vertices := by cases k <;> rfl

omit [Field K] [LinearOrder K] in
theorem setSide_sideOf (s : State K) (k : SideId) (x : Side K) : (s.setSide k x).sideOf = s.sideOf := by cases k <;> rfl

omit [Field K] [LinearOrder K] in
theorem setSide_triangles (s : State K) (k : SideId) (x : Side K) : (s.setSide k x).triangles = s.triangles := by cases k <;> rfl

theorem Core.congr {s s' : State K} {b n : ℕ} (h : Core s b n) (hv : s'.vertices.length = s.vertices.length) (ho : s'.sideOf = s.sideOf)
    (ht : s'.triangles = s.triangles) (hi : ∀ k, (s'.side k).indices = (s.side k).indices) (hp : ∀ k, (s'.side k).partition = (s.side k).partition) :
    Core s' b n := by
  refine ⟨by rw [ho, hv, h.len], fun k => ?_, fun k => ?_, fun k => ?_, fun t ht' => ?_, by rw [ht]; exact h.inc, by rw [hv, ht]; exact h.brk, by rw [ht]; exact h.new⟩
  · rw [hi, h.ind]; unfold verticesOf; rw [hv, ho]
  · rw [hi, hp]; exact h.part k
  · rw [hi, hp]; exact h.cur k
  · rw [ht] at ht'
    have := h.tri t ht'
    unfold Connects at *
    rwa [ho, hv]

theorem Ready.congr {s s' : State K} {b n : ℕ} (h : Ready s b n) (hv : s'.vertices.length = s.vertices.length) (ho : s'.sideOf = s.sideOf)
    (ht : s'.triangles = s.triangles) (hi : ∀ k, (s'.side k).indices = (s.side k).indices) (hp : ∀ k, (s'.side k).partition = (s.side k).partition) :
    Ready s' b n := ⟨h.toCore.congr hv ho ht hi hp, fun k => by rw [hi, hp]; exact h.has k⟩

theorem Core.mem {s : State K} {b n : ℕ} (h : Core s b n) {k : SideId} {i : ℕ} (hi : i ∈ (s.side k).indices) :
    i < s.vertices.length ∧ s.sideOf[i]? = some k := by
  rw [h.ind] at hi
  unfold verticesOf at hi
  rw [List.mem_filter, List.mem_range, decide_eq_true_eq] at hi
  exact hi

/-- No vertex of a side comes after the last one. -/
theorem Core.after {s : State K} {b n : ℕ} (h : Core s b n) {k : SideId} {i j : ℕ} (hi : (s.side k).indices.getLast? = some i) (hij : i < j)
    (hj : j < s.vertices.length) : s.sideOf[j]? ≠ some k := fun e => by
  rw [h.ind] at hi
  have hm : j ∈ verticesOf s k := by
    unfold verticesOf
    rw [List.mem_filter, List.mem_range, decide_eq_true_eq]
    exact ⟨hj, e⟩
  have sorted : (verticesOf s k).Pairwise (· < ·) := List.pairwise_lt_range.filter _
  obtain ⟨p, hp, e'⟩ := List.getElem_of_mem hm
  rw [List.getLast?_eq_getElem?, List.getElem?_eq_some_iff] at hi
  obtain ⟨q, hq⟩ := hi
  rcases Nat.lt_or_ge p ((verticesOf s k).length - 1) with c | c
  · have := List.pairwise_iff_getElem.1 sorted _ _ hp q c
    omega
  · have : p = (verticesOf s k).length - 1 := by omega
    subst this
    omega

/-- Other changes of a side -/
theorem side_cases (P : SideId → Prop) (k : SideId) (h1 : P k) (h2 : ∀ k', k' ≠ k → P k') : ∀ k', P k' := fun k' => by
  by_cases h : k' = k
  · rw [h]; exact h1
  · exact h2 k' h

omit [Field K] [LinearOrder K] in
theorem append_side (s : State K) (k : SideId) (v : Vertex K) :
    (s.appendToMesh k v).side k = { s.side k with indices := (s.side k).indices ++ [s.vertices.length] } := by
  unfold State.appendToMesh
  rw [side_setSide]

omit [Field K] [LinearOrder K] in
theorem append_side_ne (s : State K) {k k' : SideId} (v : Vertex K) (h : k' ≠ k) : (s.appendToMesh k v).side k' = s.side k' := by
  unfold State.appendToMesh
  rw [side_setSide_ne _ _ h]
  cases k' <;> rfl

omit [Field K] [LinearOrder K] in
theorem append_vertices (s : State K) (k : SideId) (v : Vertex K) : (s.appendToMesh k v).vertices = s.vertices ++ [v] := by
  unfold State.appendToMesh
  rw [setSide_vertices]

omit [Field K] [LinearOrder K] in
theorem append_sideOf (s : State K) (k : SideId) (v : Vertex K) : (s.appendToMesh k v).sideOf = s.sideOf ++ [k] := by
  unfold State.appendToMesh
  rw [setSide_sideOf]

omit [Field K] [LinearOrder K] in
theorem append_triangles (s : State K) (k : SideId) (v : Vertex K) : (s.appendToMesh k v).triangles = s.triangles := by
  unfold State.appendToMesh
  rw [setSide_triangles]

theorem Core.append {s : State K} {b n : ℕ} (h : Core s b n) (k : SideId) (v : Vertex K) : Core (s.appendToMesh k v) b n := by
  have hv := append_vertices s k v
  have ho := append_sideOf s k v
  have ht := append_triangles s k v
  have hs := append_side s k v
  have hn : ∀ {k'}, k' ≠ k → (s.appendToMesh k v).side k' = s.side k' := fun h => append_side_ne s v h
  have low : ∀ i, i < s.vertices.length → (s.sideOf ++ [k])[i]? = s.sideOf[i]? := fun i hi => List.getElem?_append_left (by rw [h.len]; exact hi)
  have top : (s.sideOf ++ [k])[s.vertices.length]? = some k := by rw [← h.len]; simp
  have fl : ∀ k', (List.range s.vertices.length).filter (fun i => decide ((s.sideOf ++ [k])[i]? = some k')) = verticesOf s k' := fun k' => by
    unfold verticesOf
    refine List.filter_congr fun i hi => ?_
    rw [low i (List.mem_range.1 hi)]
  have vo : ∀ k', verticesOf (s.appendToMesh k v) k' = verticesOf s k' ++ (if k' = k then [s.vertices.length] else []) := fun k' => by
    conv_lhs => unfold verticesOf
    rw [hv, ho, List.length_append, List.length_singleton, List.range_succ, List.filter_append, fl k']
    congr 1
    by_cases e : k' = k
    · rw [if_pos e, e, List.filter_singleton, top]; simp
    · rw [if_neg e, List.filter_singleton, top]
      simp [Ne.symm e]
  refine ⟨by rw [ho, hv, List.length_append, List.length_append, h.len]; rfl, ?_, ?_, ?_, fun t ht' => ?_, by rw [ht]; exact h.inc, ?_, by rw [ht]; exact h.new⟩
  · refine side_cases _ k ?_ fun k' hk => ?_
    · rw [hs, vo, if_pos rfl, h.ind]
    · rw [hn hk, vo, if_neg hk, List.append_nil, h.ind]
  · refine side_cases _ k ?_ fun k' hk => ?_
    · rw [hs]
      dsimp only
      rw [List.length_append]
      exact (h.part k).trans (Nat.le_add_right _ _)
    · rw [hn hk]; exact h.part k'
  · refine side_cases _ k ?_ fun k' hk => ?_
    · rw [hs]
      dsimp only
      rw [List.drop_append_of_le_length (h.part k)]
      intro i hi
      rcases List.mem_append.1 hi with hi | hi
      · exact h.cur k i hi
      · rw [List.mem_singleton] at hi
        rw [hi]; exact h.brk.1
    · rw [hn hk]; exact h.cur k'
  · rw [ht] at ht'
    obtain ⟨h1, h2, h3, h4, h5, h6, h7⟩ := h.tri t ht'
    refine ⟨?_, ?_, h3, h4, ?_, fun i hi hj => by rw [ho, low _ (by omega)]; exact h6 i hi hj, fun i hi hj => by rw [ho, low _ (by omega)]; exact h7 i hi hj⟩
    · rw [ho, low _ (by omega)]; exact h1
    · rw [ho, low _ (by omega)]; exact h2
    · rw [hv, List.length_append]; omega
  · rw [hv, ht, List.length_append]
    exact ⟨h.brk.1.trans (Nat.le_add_right _ _), h.brk.2⟩

theorem Ready.append {s : State K} {b n : ℕ} (h : Ready s b n) (k : SideId) (v : Vertex K) : Ready (s.appendToMesh k v) b n :=
  ⟨h.toCore.append k v, side_cases _ k (by
      rw [append_side]
      dsimp only
      rw [List.length_append]
      exact (h.has k).trans_le (Nat.le_add_right _ _)) fun k' hk => by rw [append_side_ne s v hk]; exact h.has k'⟩

/-- Triangles are added, and the positions of vertices do not change. -/
structure Ext (s s' : State K) : Prop where
  tri : s.triangles <+: s'.triangles
  pos : ∀ i, i < s.vertices.length → positionOf s' i = positionOf s i
  len : s.vertices.length ≤ s'.vertices.length

omit [Field K] [LinearOrder K] in
theorem Ext.refl (s : State K) : Ext s s := ⟨List.prefix_rfl, fun _ _ => rfl, le_rfl⟩

omit [Field K] [LinearOrder K] in
theorem Ext.trans {s s' s'' : State K} (h : Ext s s') (g : Ext s' s'') : Ext s s'' :=
  ⟨h.tri.trans g.tri, fun i hi => (g.pos i (hi.trans_le h.len)).trans (h.pos i hi), h.len.trans g.len⟩

omit [Field K] [LinearOrder K] in
theorem Ext.of_eq {s s' : State K} (hv : s'.vertices = s.vertices) (ht : s'.triangles = s.triangles) : Ext s s' :=
  ⟨by rw [ht], fun i _ => by unfold positionOf; rw [hv], by rw [hv]⟩

omit [Field K] [LinearOrder K] in
theorem ext_append (s : State K) (k : SideId) (v : Vertex K) : Ext s (s.appendToMesh k v) :=
  ⟨by rw [append_triangles], fun i hi => by unfold positionOf; rw [append_vertices, List.getElem?_append_left hi], by
    rw [append_vertices, List.length_append]; omega⟩

/-- All triangles turn counter-clockwise. -/
def AllCcw (s : State K) : Prop := ∀ t ∈ s.triangles, Ccw s t

theorem ccw_ext {s s' : State K} (h : Ext s s') {t : ℕ × ℕ × ℕ} (hc : Connects s t) (hw : Ccw s t) : Ccw s' t := by
  obtain ⟨a, b, c, h1, h2, h3, h4⟩ := hw
  obtain ⟨-, -, g1, g2, g3, -⟩ := hc
  exact ⟨a, b, c, by rw [h.pos _ (by omega)]; exact h1, by rw [h.pos _ (by omega)]; exact h2, by rw [h.pos _ g3]; exact h3, h4⟩

theorem AllCcw.same {s s' : State K} {b n : ℕ} (hc : Core s b n) (h : Ext s s') (ht : s'.triangles = s.triangles) (hw : AllCcw s) : AllCcw s' :=
  fun t htt => by
    rw [ht] at htt
    exact ccw_ext h (hc.tri t htt) (hw t htt)

/-- The vertices `new` were added, with all their counter-clockwise triangles. -/
structure Grow (s s' : State K) (new : List (SideId × Vertex K)) : Prop where
  vertices : s'.vertices = s.vertices ++ new.map Prod.snd
  sideOf : s'.sideOf = s.sideOf ++ new.map Prod.fst
  triangles : s'.triangles = s.triangles ++ (List.range' s.vertices.length new.length).filterMap (triangleOf s')

theorem Grow.of_eq {s s' : State K} (h1 : s'.vertices = s.vertices) (h2 : s'.sideOf = s.sideOf) (h3 : s'.triangles = s.triangles) : Grow s s' [] :=
  ⟨by simp [h1], by simp [h2], by simp [h3]⟩

theorem triangleOf_congr {s s' : State K} {c : ℕ} (hp : ∀ i, i ≤ c → positionOf s' i = positionOf s i) (ho : ∀ i, i < c → s'.sideOf[i]? = s.sideOf[i]?) :
    triangleOf s' c = triangleOf s c := by
  have lb : ∀ k, lastBefore s' k c = lastBefore s k c := fun k => by
    unfold lastBefore
    congr 1
    refine List.filter_congr fun i hi => ?_
    rw [ho i (List.mem_range.1 hi)]
  have lt : ∀ k i, lastBefore s k c = some i → i < c := fun k i h => by
    unfold lastBefore at h
    have := List.mem_of_getLast? h
    rw [List.mem_filter, List.mem_range] at this
    exact this.1
  unfold triangleOf
  rw [lb, lb, hp c le_rfl]
  cases hl : lastBefore s .left c with
  | none => rfl
  | some l =>
    cases hr : lastBefore s .right c with
    | none => rfl
    | some r =>
      simp only [Option.bind_some]
      rw [hp l (lt _ _ hl).le, hp r (lt _ _ hr).le]

theorem Grow.trans {s s' s'' : State K} {new new' : List (SideId × Vertex K)} (hl : s.sideOf.length = s.vertices.length) (h : Grow s s' new)
    (g : Grow s' s'' new') : Grow s s'' (new ++ new') := by
  have l1 : s'.vertices.length = s.vertices.length + new.length := by rw [h.vertices, List.length_append, List.length_map]
  have l2 : s'.sideOf.length = s.vertices.length + new.length := by rw [h.sideOf, List.length_append, List.length_map, hl]
  refine ⟨by rw [g.vertices, h.vertices, List.map_append, List.append_assoc], by rw [g.sideOf, h.sideOf, List.map_append, List.append_assoc], ?_⟩
  rw [g.triangles, h.triangles, List.append_assoc, List.length_append, ← List.range'_append_1, List.filterMap_append, l1]
  congr 2
  refine List.filterMap_congr fun c hc => ?_
  rw [List.mem_range'_1] at hc
  refine (triangleOf_congr (fun i hi => ?_) fun i hi => ?_).symm
  · unfold positionOf
    rw [g.vertices, List.getElem?_append_left (by omega)]
  · rw [g.sideOf, List.getElem?_append_left (by omega)]

/-- Everything about the buffers of the sides is as before, up to the numbers of vertices that were taken. -/
def Taken (s s' : State K) (dl dr : ℕ) : Prop :=
  (∀ k, (s'.side k).buffer = (s.side k).buffer ∧ (s'.side k).partition = (s.side k).partition ∧ (s'.side k).simplified = (s.side k).simplified) ∧
    (s'.side .left).next = (s.side .left).next + dl ∧ (s'.side .right).next = (s.side .right).next + dr

theorem Ready.lasts {s : State K} {b n : ℕ} (h : Ready s b n) (k : SideId) :
    ∃ i v, (s.side k).indices.getLast? = some i ∧ s.vertices[i]? = some v ∧ s.last k = some v ∧ b ≤ i ∧ i < s.vertices.length ∧
      s.sideOf[i]? = some k ∧ lastBefore s k s.vertices.length = some i := by
  have ne : (s.side k).indices ≠ [] := fun e => by
    have := h.has k
    rw [e] at this
    simp at this
  have e : (s.side k).indices.getLast? = some ((s.side k).indices.getLast ne) := List.getLast?_eq_some_getLast ne
  obtain ⟨h1, h2⟩ := h.toCore.mem (List.getLast_mem ne)
  refine ⟨_, _, e, List.getElem?_eq_getElem h1, ?_, ?_, h1, h2, ?_⟩
  · unfold State.last
    rw [e, Option.bind_some, List.getElem?_eq_getElem h1]
  · apply h.cur k
    have ne' : (s.side k).indices.drop (s.side k).partition ≠ [] := fun q => by
      rw [List.drop_eq_nil_iff] at q
      have := h.has k
      omega
    have := List.getLast_mem ne'
    rwa [List.getLast_drop] at this
  · have := h.ind k
    unfold lastBefore
    unfold verticesOf at this
    rw [← this, e]

/-- `TryAppend` with a vertex -/
theorem tryAppend_spec [IsStrictOrderedRing K] {s : State K} {b n : ℕ} (h : Ready s b n) (k : SideId) (v : Vertex K)
    (hv : (s.side k).buffer[(s.side k).next]? = some v) :
    ∃ s', tryAppend none k s = some s' ∧ Ready s' b n ∧ Ext s s' ∧ (AllCcw s → AllCcw s') ∧ Grow s s' [(k, v)] ∧ Taken s s' 0 0 := by
  obtain ⟨l, vl, l1, l2, l3, l4, l5, l6, l7⟩ := h.lasts .left
  obtain ⟨r, vr, r1, r2, r3, r4, r5, r6, r7⟩ := h.lasts .right
  have ha : s.area v.position = some (Triangle.signedArea ⟨vl.position, vr.position, v.position⟩) := by
    unfold State.area
    rw [l3, r3]
    rfl
  have key : 0 < Triangle.signedArea ⟨vl.position, vr.position, v.position⟩ ↔ 0 < (vr.position.sub vl.position).det (v.position.sub vl.position) := by
    simp only [Triangle.signedArea]
    have : (vr.position.sub vl.position).det (v.position.sub vr.position) = (vr.position.sub vl.position).det (v.position.sub vl.position) := by
      simp only [Pt.det, Pt.sub]; ring
    rw [this]
    constructor <;> intro q <;> linarith
  have hn : (s.appendToMesh k v).vertices = s.vertices ++ [v] := append_vertices s k v
  have ho : (s.appendToMesh k v).sideOf = s.sideOf ++ [k] := append_sideOf s k v
  have taken : Taken s (s.appendToMesh k v) 0 0 := by
    refine ⟨side_cases _ k ?_ fun k' hk => ?_, ?_, ?_⟩
    · rw [append_side]; exact ⟨rfl, rfl, rfl⟩
    · rw [append_side_ne s v hk]; exact ⟨rfl, rfl, rfl⟩
    · cases k <;> rfl
    · cases k <;> rfl
  have hpos : ∀ (ts : List (ℕ × ℕ × ℕ)) i, i < s.vertices.length → positionOf { s.appendToMesh k v with triangles := ts } i = positionOf s i := fun ts i hi => by
    unfold positionOf
    show ((s.appendToMesh k v).vertices)[i]?.map _ = _
    rw [hn, List.getElem?_append_left hi]
  have hposc : ∀ (ts : List (ℕ × ℕ × ℕ)), positionOf { s.appendToMesh k v with triangles := ts } s.vertices.length = some v.position := fun ts => by
    unfold positionOf
    show ((s.appendToMesh k v).vertices)[s.vertices.length]?.map _ = _
    rw [hn]
    simp
  have hlb : ∀ (ts : List (ℕ × ℕ × ℕ)) k', lastBefore { s.appendToMesh k v with triangles := ts } k' s.vertices.length = lastBefore s k' s.vertices.length := fun ts k' => by
    unfold lastBefore
    congr 1
    refine List.filter_congr fun i hi => ?_
    show decide ((s.appendToMesh k v).sideOf[i]? = some k') = _
    rw [ho, List.getElem?_append_left (by rw [h.len]; exact List.mem_range.1 hi)]
  have hto : ∀ ts : List (ℕ × ℕ × ℕ), triangleOf { s.appendToMesh k v with triangles := ts } s.vertices.length =
      if 0 < Triangle.signedArea ⟨vl.position, vr.position, v.position⟩ then some (l, r, s.vertices.length) else none := fun ts => by
    have pl : positionOf s l = some vl.position := by unfold positionOf; rw [l2]; rfl
    have pr : positionOf s r = some vr.position := by unfold positionOf; rw [r2]; rfl
    unfold triangleOf
    rw [hlb, hlb, l7, r7, Option.bind_some, Option.bind_some, hpos ts l l5, hpos ts r r5, hposc, pl, pr]
    simp only [Option.bind_some]
    by_cases q : 0 < Triangle.signedArea ⟨vl.position, vr.position, v.position⟩
    · rw [if_pos q, if_pos (key.1 q)]
    · rw [if_neg q, if_neg (fun w => q (key.2 w))]
  unfold tryAppend
  rw [hv, Option.bind_some, ha, Option.bind_some]
  by_cases q : 0 < Triangle.signedArea ⟨vl.position, vr.position, v.position⟩
  · rw [if_pos q]
    have e1 : s.left.indices.getLast? = some l := l1
    have e2 : s.right.indices.getLast? = some r := r1
    rw [e1, e2, Option.bind_some, Option.map_some]
    dsimp only
    have ht : (s.appendToMesh k v).triangles ++ [(l, r, s.vertices.length)] = s.triangles ++ [(l, r, s.vertices.length)] := by rw [append_triangles]
    have ra := h.append k v
    have hx : Ext s { s.appendToMesh k v with triangles := (s.appendToMesh k v).triangles ++ [(l, r, s.vertices.length)] } :=
      ⟨by rw [ht]; exact List.prefix_append _ _, hpos _, (ext_append s k v).len⟩
    refine ⟨_, rfl, ?_, hx, ?_, ?_, taken⟩
    · refine ⟨⟨ra.len, ra.ind, ra.part, ra.cur, ?_, ?_, ?_, ?_⟩, ra.has⟩
      · intro t htt
        rw [ht] at htt
        rcases List.mem_append.1 htt with w | w
        · have := ra.tri t (by rw [append_triangles]; exact w)
          exact this
        · rw [List.mem_singleton] at w
          subst w
          have g : ∀ i k', i < s.vertices.length → s.sideOf[i]? = some k' → (s.appendToMesh k v).sideOf[i]? = some k' := fun i k' hi hk => by
            rw [ho, List.getElem?_append_left (by rw [h.len]; exact hi), hk]
          have no : ∀ k' i j, (s.side k').indices.getLast? = some i → i < j → j < s.vertices.length → (s.appendToMesh k v).sideOf[j]? ≠ some k' := fun k' i j hi hij hj => by
            rw [ho, List.getElem?_append_left (by rw [h.len]; exact hj)]
            exact h.toCore.after hi hij hj
          refine ⟨g _ _ l5 l6, g _ _ r5 r6, l5, r5, ?_, fun i hi hj => no .left l i l1 hi hj, fun i hi hj => no .right r i r1 hi hj⟩
          show s.vertices.length < (s.appendToMesh k v).vertices.length
          rw [hn]
          simp
      · rw [ht, List.pairwise_append]
        refine ⟨h.inc, by simp, fun t htt u hu => ?_⟩
        rw [List.mem_singleton] at hu
        rw [hu]
        exact (h.tri t htt).2.2.2.2.1
      · refine ⟨ra.brk.1, ?_⟩
        show n ≤ ((s.appendToMesh k v).triangles ++ _).length
        rw [ht, List.length_append]
        exact h.brk.2.trans (Nat.le_add_right _ _)
      · show ∀ t ∈ ((s.appendToMesh k v).triangles ++ _).drop n, _
        rw [ht, List.drop_append_of_le_length h.brk.2]
        intro t htt
        rcases List.mem_append.1 htt with w | w
        · exact h.new t w
        · rw [List.mem_singleton] at w
          subst w
          exact ⟨l4, r4, h.brk.1⟩
    · intro hw t htt
      rw [ht] at htt
      rcases List.mem_append.1 htt with w | w
      · exact ccw_ext hx (h.tri t w) (hw t w)
      · rw [List.mem_singleton] at w
        subst w
        have pl : positionOf s l = some vl.position := by unfold positionOf; rw [l2]; rfl
        have pr : positionOf s r = some vr.position := by unfold positionOf; rw [r2]; rfl
        exact ⟨vl.position, vr.position, v.position, by rw [hpos _ _ l5]; exact pl, by rw [hpos _ _ r5]; exact pr, hposc _, key.1 q⟩
    · refine ⟨hn, ho, ?_⟩
      rw [ht]
      simp only [List.length_singleton, List.range'_one, List.filterMap_cons, List.filterMap_nil]
      rw [← ht, hto, if_pos q]
      exact ht
  · rw [if_neg q]
    dsimp only
    have hto' := hto (s.appendToMesh k v).triangles
    rw [if_neg q] at hto'
    refine ⟨_, rfl, h.append k v, ext_append s k v, fun hw => hw.same h.toCore (ext_append s k v) (append_triangles s k v), ⟨hn, ho, ?_⟩, taken⟩
    rw [append_triangles]
    simp only [List.length_singleton, List.range'_one, List.filterMap_cons, List.filterMap_nil]
    have e : triangleOf (s.appendToMesh k v) s.vertices.length = none := hto'
    rw [e, List.append_nil]

/-- What holds after some vertices were added. -/
structure Safe (b n : ℕ) (s s' : State K) (dl dr : ℕ) : Prop where
  ready : Ready s' b n
  ext : Ext s s'
  ccw : AllCcw s → AllCcw s'
  taken : Taken s s' dl dr

theorem Safe.refl {b n : ℕ} {s : State K} (h : Ready s b n) : Safe b n s s 0 0 := ⟨h, Ext.refl s, id, fun _ => ⟨rfl, rfl, rfl⟩, rfl, rfl⟩

theorem Safe.trans {b n : ℕ} {s s' s'' : State K} {dl dr dl' dr' : ℕ} (h : Safe b n s s' dl dr) (g : Safe b n s' s'' dl' dr') :
    Safe b n s s'' (dl + dl') (dr + dr') :=
  ⟨g.ready, h.ext.trans g.ext, fun w => g.ccw (h.ccw w),
    fun k => ⟨(g.taken.1 k).1.trans (h.taken.1 k).1, (g.taken.1 k).2.1.trans (h.taken.1 k).2.1, (g.taken.1 k).2.2.trans (h.taken.1 k).2.2⟩, by
      rw [g.taken.2.1, h.taken.2.1, Nat.add_assoc], by rw [g.taken.2.2, h.taken.2.2, Nat.add_assoc]⟩

omit [Field K] [LinearOrder K] in
theorem advance_side (s : State K) (k : SideId) : (s.advance k).side k = { s.side k with next := (s.side k).next + 1 } := side_setSide _ _ _

omit [Field K] [LinearOrder K] in
theorem advance_side_ne (s : State K) {k k' : SideId} (h : k' ≠ k) : (s.advance k).side k' = s.side k' := side_setSide_ne _ _ h

theorem advance_safe {b n : ℕ} {s : State K} (h : Ready s b n) (k : SideId) :
    Safe b n s (s.advance k) (if k = .left then 1 else 0) (if k = .right then 1 else 0) ∧ Grow s (s.advance k) [] := by
  have hv : (s.advance k).vertices = s.vertices := setSide_vertices _ _ _
  have ho : (s.advance k).sideOf = s.sideOf := setSide_sideOf _ _ _
  have ht : (s.advance k).triangles = s.triangles := setSide_triangles _ _ _
  have hx : Ext s (s.advance k) := Ext.of_eq hv ht
  refine ⟨⟨?_, hx, fun w => w.same h.toCore hx ht, ?_, ?_, ?_⟩, Grow.of_eq hv ho ht⟩
  · refine h.congr (by rw [hv]) ho ht ?_ ?_ <;> intro k' <;> cases k <;> cases k' <;> rfl
  · intro k'; cases k <;> cases k' <;> exact ⟨rfl, rfl, rfl⟩
  · cases k <;> rfl
  · cases k <;> rfl

theorem quad_spec [IsStrictOrderedRing K] {s : State K} {b n : ℕ} (h : Ready s b n) {l r : Vertex K} (hl : s.left.buffer[s.left.next]? = some l)
    (hr : s.right.buffer[s.right.next]? = some r) :
    ∃ s', quad none s = some s' ∧ Safe b n s s' 1 1 ∧ Grow s s' [(.right, r), (.left, l)] := by
  obtain ⟨s1, e1, r1, x1, c1, g1, t1⟩ := tryAppend_spec h .right r hr
  have b1 : (s1.side .left).buffer[(s1.side .left).next]? = some l := by
    rw [(t1.1 .left).1, t1.2.1]
    exact hl
  obtain ⟨s2, e2, r2, x2, c2, g2, t2⟩ := tryAppend_spec r1 .left l b1
  obtain ⟨a1, k1⟩ := advance_safe r2 .right
  obtain ⟨a2, k2⟩ := advance_safe a1.ready .left
  have f := (((⟨r1, x1, c1, t1⟩ : Safe b n s s1 0 0).trans ⟨r2, x2, c2, t2⟩).trans a1).trans a2
  refine ⟨(s2.advance .right).advance .left, ?_, f, ?_⟩
  · unfold quad
    rw [e1, Option.bind_some, e2, Option.map_some]
  · exact ((g1.trans h.len g2).trans h.len k1).trans h.len k2

theorem pairs_cons {V : Type} (a b : V) (l r : List V) : pairs (a :: l) (b :: r) = (.right, b) :: (.left, a) :: pairs l r := by
  unfold pairs
  simp

theorem take_drop_succ {V : Type} {l : List V} {i : ℕ} {v : V} (h : l[i]? = some v) (m : ℕ) : (l.drop i).take (m + 1) = v :: (l.drop (i + 1)).take m := by
  obtain ⟨hi, rfl⟩ := List.getElem?_eq_some_iff.1 h
  rw [List.drop_eq_getElem_cons hi, List.take_succ_cons]

theorem quads_spec [IsStrictOrderedRing K] {b n : ℕ} : ∀ (m : ℕ) (s : State K), Ready s b n → s.left.next + m ≤ s.left.buffer.length →
    s.right.next + m ≤ s.right.buffer.length →
    ∃ s', times (quad none) m s = some s' ∧ Safe b n s s' m m ∧ Grow s s' (pairs ((s.left.buffer.drop s.left.next).take m) ((s.right.buffer.drop s.right.next).take m)) := by
  intro m
  induction m with
  | zero => exact fun s h _ _ => ⟨s, rfl, Safe.refl h, by simpa [pairs] using Grow.of_eq rfl rfl rfl⟩
  | succ m ih =>
    intro s h hl hr
    have el := List.getElem?_eq_getElem (show s.left.next < s.left.buffer.length by omega)
    have er := List.getElem?_eq_getElem (show s.right.next < s.right.buffer.length by omega)
    obtain ⟨s1, e1, f1, g1⟩ := quad_spec h el er
    have tl : s1.left.buffer = s.left.buffer := (f1.taken.1 .left).1
    have tr : s1.right.buffer = s.right.buffer := (f1.taken.1 .right).1
    have nl : s1.left.next = s.left.next + 1 := f1.taken.2.1
    have nr : s1.right.next = s.right.next + 1 := f1.taken.2.2
    obtain ⟨s2, e2, f2, g2⟩ := ih s1 f1.ready (by rw [tl, nl]; omega) (by rw [tr, nr]; omega)
    refine ⟨s2, ?_, ?_, ?_⟩
    · rw [times, e1, Option.bind_some, e2]
    · have := f1.trans f2
      rwa [Nat.add_comm 1 m] at this
    · rw [take_drop_succ el, take_drop_succ er, pairs_cons]
      rw [tl, tr, nl, nr] at g2
      exact g1.trans h.len g2

theorem fan_spec [IsStrictOrderedRing K] {b n : ℕ} (k : SideId) : ∀ (m : ℕ) (s : State K), Ready s b n → (s.side k).next + m ≤ (s.side k).buffer.length →
    ∃ s', times (fanStep none k) m s = some s' ∧ Safe b n s s' (if k = .left then m else 0) (if k = .right then m else 0) ∧
      Grow s s' ((((s.side k).buffer.drop (s.side k).next).take m).map (Prod.mk k)) := by
  intro m
  induction m with
  | zero => exact fun s h _ => ⟨s, rfl, by simpa using Safe.refl h, by simpa using Grow.of_eq rfl rfl rfl⟩
  | succ m ih =>
    intro s h hl
    have el := List.getElem?_eq_getElem (show (s.side k).next < (s.side k).buffer.length by omega)
    obtain ⟨s1, e1, r1, x1, c1, g1, t1⟩ := tryAppend_spec h k _ el
    obtain ⟨a1, k1⟩ := advance_safe r1 k
    have f1 := (⟨r1, x1, c1, t1⟩ : Safe b n s s1 0 0).trans a1
    have g1 := g1.trans h.len k1
    have tl : ((s1.advance k).side k).buffer = (s.side k).buffer := (f1.taken.1 k).1
    have nl : ((s1.advance k).side k).next = (s.side k).next + 1 := by
      cases k
      · simpa using f1.taken.2.1
      · simpa using f1.taken.2.2
    obtain ⟨s2, e2, f2, g2⟩ := ih (s1.advance k) f1.ready (by rw [tl, nl]; omega)
    refine ⟨s2, ?_, ?_, ?_⟩
    · rw [times, fanStep, e1, Option.map_some, Option.bind_some, e2]
    · have := f1.trans f2
      cases k
      · simpa [Nat.add_comm 1 m] using this
      · simpa [Nat.add_comm 1 m] using this
    · rw [take_drop_succ el, List.map_cons]
      rw [tl, nl] at g2
      exact g1.trans h.len g2

/-- A vertex is replaced by one at the same position. -/
theorem set_safe {b n : ℕ} {s : State K} (h : Ready s b n) {i : ℕ} {v w : Vertex K} (hv : s.vertices[i]? = some v) (hw : w.position = v.position) :
    Safe b n s { s with vertices := s.vertices.set i w } 0 0 := by
  have hx : Ext s { s with vertices := s.vertices.set i w } := by
    refine ⟨List.prefix_rfl, fun j hj => ?_, by simp⟩
    unfold positionOf
    show (s.vertices.set i w)[j]?.map _ = _
    by_cases e : i = j
    · subst e
      rw [List.getElem?_set_self hj, hv, Option.map_some, Option.map_some, hw]
    · rw [List.getElem?_set_ne e]
  refine ⟨h.congr (by simp) rfl rfl (fun k => by cases k <;> rfl) fun k => by cases k <;> rfl, hx, fun c => c.same h.toCore hx rfl, ?_, rfl, rfl⟩
  intro k; cases k <;> exact ⟨rfl, rfl, rfl⟩

theorem append_safe {b n : ℕ} {s : State K} (h : Ready s b n) (k : SideId) (v : Vertex K) : Safe b n s (s.appendToMesh k v) 0 0 := by
  refine ⟨h.append k v, ext_append s k v, fun hw => hw.same h.toCore (ext_append s k v) (append_triangles s k v), ?_, ?_, ?_⟩
  · refine side_cases _ k ?_ fun k' hk => ?_
    · rw [append_side]; exact ⟨rfl, rfl, rfl⟩
    · rw [append_side_ne s v hk]; exact ⟨rfl, rfl, rfl⟩
  · cases k <;> rfl
  · cases k <;> rfl

theorem beginPivot_safe {b n : ℕ} {s : State K} (h : Ready s b n) (k k' : SideId) : ∃ s', beginPivot k k' s = some s' ∧ Safe b n s s' 0 0 ∧
    2 ≤ (s'.side k).indices.length := by
  obtain ⟨i, v, h1, h2, h3, -⟩ := h.lasts k
  obtain ⟨j, o, -, -, g3, -⟩ := h.lasts k'
  unfold beginPivot
  rw [h1, Option.bind_some, h2, Option.bind_some, g3, Option.map_some]
  have f := set_safe h (w := { v with texture := ⟨o.texture.x, v.texture.y⟩ }) h2 rfl
  refine ⟨_, rfl, f.trans (append_safe f.ready _ _), ?_⟩
  rw [append_side]
  dsimp only
  rw [List.length_append, List.length_singleton]
  have := h.has k
  have e : ∀ q : State K, ({ s with vertices := q.vertices } : State K).side k = s.side k := fun q => by cases k <;> rfl
  have e := e { s with vertices := s.vertices.set i { v with texture := ⟨o.texture.x, v.texture.y⟩ } }
  rw [e]
  omega

theorem secondLast_ok {b n : ℕ} {s : State K} (h : Core s b n) {k : SideId} (hl : 2 ≤ (s.side k).indices.length) :
    ∃ i v, secondLast (s.side k).indices = some i ∧ s.vertices[i]? = some v := by
  have hi : (s.side k).indices.length - 2 < (s.side k).indices.length := by omega
  obtain ⟨h1, -⟩ := h.mem (List.getElem_mem hi)
  refine ⟨_, _, ?_, List.getElem?_eq_getElem h1⟩
  unfold secondLast
  rw [if_pos hl, List.getElem?_eq_getElem hi]

theorem endPivot_safe {b n : ℕ} {s : State K} (h : Ready s b n) (k k' : SideId) (hl : 2 ≤ (s.side k).indices.length) :
    ∃ s', endPivot k k' s = some s' ∧ Safe b n s s' 0 0 := by
  obtain ⟨i, v, h1, h2⟩ := secondLast_ok h.toCore hl
  obtain ⟨j, o, -, -, g3, -⟩ := h.lasts k'
  unfold endPivot
  rw [h1, Option.bind_some, h2, Option.bind_some, g3, Option.map_some]
  exact ⟨_, rfl, append_safe h _ _⟩

theorem endsInPivot_ok {b n : ℕ} {s : State K} (h : Core s b n) (w : Bool) : ∃ a, endsInPivot w s = some a := by
  unfold endsInPivot
  have e : ∀ k : SideId, ∃ a, (if 1 < (s.side k).indices.length then (secondLast (s.side k).indices).bind fun i => s.vertices[i]?.map fun v => decide (v.texture = sentinel)
    else some false) = some a := fun k => by
    by_cases q : 1 < (s.side k).indices.length
    · obtain ⟨i, v, h1, h2⟩ := secondLast_ok h q
      rw [if_pos q, h1, Option.bind_some, h2, Option.map_some]
      exact ⟨_, rfl⟩
    · rw [if_neg q]; exact ⟨_, rfl⟩
  obtain ⟨a, ha⟩ := e .left
  obtain ⟨c, hc⟩ := e .right
  dsimp only
  rw [ha, hc, Option.bind_some]
  cases w <;> cases a <;> simp

/-- The last vertex of a side belongs to one of the last two triangles, as the vertex that was added last. -/
def Recent (s : State K) (k : SideId) : Prop := ∃ i, (s.side k).indices.getLast? = some i ∧ ∃ t ∈ s.triangles.drop (s.triangles.length - 2), t.2.2 = i

/-- A side between calls, with vertices -/
structure BufOk (s : State K) (k : SideId) : Prop where
  has : (s.side k).partition < (s.side k).indices.length
  some : (s.side k).buffer ≠ []
  next : (s.side k).next ≤ (s.side k).buffer.length
  two : (s.side k).next = 1 ∨ (s.side k).next = 2 ∧ Recent s k

theorem BufOk.congr {s s' : State K} {k : SideId} (h : BufOk s k) (hs : s'.side k = s.side k) (ht : s'.triangles = s.triangles) : BufOk s' k := by
  obtain ⟨h1, h2, h3, h4⟩ := h
  unfold Recent at h4
  refine ⟨by rwa [hs], by rwa [hs], by rwa [hs], ?_⟩
  unfold Recent
  rwa [hs, ht]

theorem prepare_spec {b n : ℕ} {s : State K} (h : Ready s b n) (m : Bool) (k : SideId) :
    ∃ x : Side K, prepare m k s = some (s.setSide k x) ∧ x.indices = (s.side k).indices ∧ x.partition = (s.side k).partition ∧ x.simplified = (s.side k).simplified ∧
      BufOk (s.setSide k x) k := by
  obtain ⟨i, v, h1, h2, h3, -⟩ := h.lasts k
  unfold prepare
  dsimp only
  rw [h1]
  dsimp only
  rw [h2, Option.bind_some]
  split_ifs with q
  · obtain ⟨-, -, q⟩ := q
    have recent : ∃ t ∈ s.triangles.drop (s.triangles.length - 2), t.2.2 = i := by
      have f : ∀ j, s.triangles.length ≤ j + 2 → (∃ t ∈ s.triangles[j]?, t.2.2 = i) → ∃ t ∈ s.triangles.drop (s.triangles.length - 2), t.2.2 = i := by
        rintro j hj ⟨t, ht, e⟩
        refine ⟨t, ?_, e⟩
        rw [List.mem_iff_getElem?]
        refine ⟨j - (s.triangles.length - 2), ?_⟩
        rw [List.getElem?_drop, Nat.add_sub_of_le (by omega)]
        exact ht
      rcases q with ⟨-, q⟩ | ⟨-, q⟩
      · exact f _ (by omega) q
      · exact f _ (by omega) q
    have two : 2 ≤ (s.side k).indices.length := by
      obtain ⟨t, ht, e⟩ := recent
      obtain ⟨c1, c2, c3, c4, c5⟩ := h.tri t (List.mem_of_mem_drop ht)
      have hm : ∃ j, j < i ∧ j ∈ (s.side k).indices := by
        cases k
        · refine ⟨t.1, by omega, ?_⟩
          rw [h.ind]; unfold verticesOf
          rw [List.mem_filter, List.mem_range, decide_eq_true_eq]
          exact ⟨by omega, c1⟩
        · refine ⟨t.2.1, by omega, ?_⟩
          rw [h.ind]; unfold verticesOf
          rw [List.mem_filter, List.mem_range, decide_eq_true_eq]
          exact ⟨by omega, c2⟩
      obtain ⟨j, hj, hm⟩ := hm
      have hi := List.mem_of_getLast? h1
      by_contra c
      have : (s.side k).indices.length = 1 := by
        have := List.length_pos_of_mem hm
        omega
      obtain ⟨x, hx⟩ := List.length_eq_one_iff.1 this
      rw [hx, List.mem_singleton] at hm hi
      omega
    obtain ⟨j, w, g1, g2⟩ := secondLast_ok h.toCore two
    rw [g1, Option.bind_some, g2, Option.map_some]
    refine ⟨_, rfl, rfl, rfl, rfl, ?_, ?_, ?_, ?_⟩ <;> rw [side_setSide]
    · exact h.has k
    · simp
    · simp
    · refine Or.inr ⟨rfl, ?_⟩
      unfold Recent
      rw [side_setSide, setSide_triangles]
      exact ⟨i, h1, recent⟩
  · refine ⟨_, rfl, rfl, rfl, rfl, ?_, ?_, ?_, ?_⟩ <;> rw [side_setSide]
    · exact h.has k
    · simp
    · simp
    · exact Or.inl rfl

/-- A side keeps what concerns the mesh. -/
theorem setSide_ready {b n : ℕ} {s : State K} (h : Ready s b n) (k : SideId) (x : Side K) (hi : x.indices = (s.side k).indices) (hp : x.partition = (s.side k).partition) :
    Ready (s.setSide k x) b n := by
  refine h.congr (by rw [setSide_vertices]) (setSide_sideOf _ _ _) (setSide_triangles _ _ _) ?_ ?_
  · exact side_cases _ k (by rw [side_setSide, hi]) fun k' hk => by rw [side_setSide_ne _ _ hk]
  · exact side_cases _ k (by rw [side_setSide, hp]) fun k' hk => by rw [side_setSide_ne _ _ hk]

/-- Both sides are prepared for the next call. -/
theorem prepares_spec {b n : ℕ} {s : State K} (h : Ready s b n) (m : Bool) :
    ∃ s', (prepare m .left s).bind (prepare m .right) = some s' ∧ Ready s' b n ∧ s'.vertices = s.vertices ∧ s'.sideOf = s.sideOf ∧ s'.triangles = s.triangles ∧
      ∀ k, BufOk s' k ∧ (s'.side k).indices = (s.side k).indices ∧ (s'.side k).simplified = (s.side k).simplified := by
  obtain ⟨x, e1, i1, p1, m1, o1⟩ := prepare_spec h m .left
  have h' := setSide_ready h .left x i1 p1
  obtain ⟨y, e2, i2, p2, m2, o2⟩ := prepare_spec h' m .right
  have h'' := setSide_ready h' .right y i2 p2
  refine ⟨_, by rw [e1, Option.bind_some, e2], h'', ?_, ?_, ?_, ?_⟩
  · rw [setSide_vertices, setSide_vertices]
  · rw [setSide_sideOf, setSide_sideOf]
  · rw [setSide_triangles, setSide_triangles]
  · intro k
    cases k
    · exact ⟨o1.congr rfl rfl, i1, m1⟩
    · exact ⟨o2, i2, m2⟩

/-- `TriangulateBufferedVertices` -/
theorem triangulate_spec [IsStrictOrderedRing K] {b n : ℕ} {s : State K} (h : Ready s b n) (hb : ∀ k, BufOk s k) (w : Bool) :
    ∃ s', triangulate none w s = some s' ∧ Ready s' b n ∧ Ext s s' ∧ (AllCcw s → AllCcw s') ∧ (∀ k, BufOk s' k) ∧
      (w = false → Grow s s' (addingOrder (s.left.buffer.drop s.left.next) (s.right.buffer.drop s.right.next))) := by
  have bl : s.left.next ≤ s.left.buffer.length := (hb .left).next
  have br : s.right.next ≤ s.right.buffer.length := (hb .right).next
  unfold triangulate
  dsimp only
  generalize hnl : s.left.buffer.length - s.left.next + 1 = nl
  generalize hnr : s.right.buffer.length - s.right.next + 1 = nr
  by_cases q : nl < 2 ∧ nr < 2
  · rw [if_pos q]
    refine ⟨s, rfl, h, Ext.refl s, id, hb, fun _ => ?_⟩
    rw [List.drop_of_length_le (by omega), List.drop_of_length_le (by omega)]
    have e : addingOrder ([] : List (Vertex K)) [] = [] := by simp [addingOrder, pairs]
    rw [e]
    exact Grow.of_eq (s := s) (s' := s) rfl rfl rfl
  · rw [if_neg q]
    obtain ⟨s1, e1, f1, g1⟩ := quads_spec (min nl nr / 2) s h (by omega) (by omega)
    rw [e1, Option.bind_some]
    generalize hp : (if nr < nl then SideId.right else SideId.left) = pivot
    generalize ho : (if nr < nl then SideId.left else SideId.right) = outer
    generalize hm : max nl nr - min nl nr = m
    -- the fan
    have sideNext : ∀ s' dl dr, Safe b n s s' dl dr → (s'.side outer).next = (s.side outer).next + (if outer = .left then dl else dr) ∧
        (s'.side outer).buffer = (s.side outer).buffer := fun s' dl dr f => by
      refine ⟨?_, (f.taken.1 outer).1⟩
      cases outer
      · exact f.taken.2.1
      · exact f.taken.2.2
    have room : (s.side outer).next + min nl nr / 2 + m ≤ (s.side outer).buffer.length := by
      by_cases c : nr < nl
      · rw [if_pos c] at ho
        subst ho
        show s.left.next + _ + _ ≤ s.left.buffer.length
        omega
      · rw [if_neg c] at ho
        subst ho
        show s.right.next + _ + _ ≤ s.right.buffer.length
        omega
    have fan : ∃ s2, ((if 2 ≤ m ∧ w = true then beginPivot pivot outer s1 else some s1).bind fun s => (times (fanStep none outer) m s).bind fun s =>
        if 2 ≤ m ∧ w = true then endPivot pivot outer s else some s) = some s2 ∧
        Safe b n s1 s2 (if outer = .left then m else 0) (if outer = .right then m else 0) ∧
        (w = false → Grow s1 s2 ((((s1.side outer).buffer.drop (s1.side outer).next).take m).map (Prod.mk outer))) := by
      have hne : pivot ≠ outer := by
        rw [← hp, ← ho]
        by_cases c : nr < nl
        · rw [if_pos c, if_pos c]; decide
        · rw [if_neg c, if_neg c]; decide
      by_cases c : 2 ≤ m ∧ w = true
      · rw [if_pos c]
        obtain ⟨t1, a1, a2, a3⟩ := beginPivot_safe f1.ready pivot outer
        have f := f1.trans a2
        obtain ⟨n1, n2⟩ := sideNext _ _ _ f
        obtain ⟨t2, b1, b2, b3⟩ := fan_spec outer m t1 f.ready (by rw [n1, n2]; split_ifs <;> omega)
        have len2 : 2 ≤ (t2.side pivot).indices.length := by
          rw [b2.ready.ind]
          have i1 := a2.ready.ind pivot
          refine a3.trans ?_
          rw [i1]
          have lt := a2.ready.len
          unfold verticesOf
          rw [b3.vertices, b3.sideOf]
          rw [List.length_append, List.range_add, List.filter_append, List.length_append]
          refine le_trans (le_of_eq ?_) (Nat.le_add_right _ _)
          congr 1
          refine List.filter_congr fun j hj => ?_
          rw [List.getElem?_append_left (by rw [lt]; exact List.mem_range.1 hj)]
        obtain ⟨t3, c1, c2⟩ := endPivot_safe b2.ready pivot outer len2
        refine ⟨t3, ?_, ?_, fun e => by simp [e] at c⟩
        · rw [a1, Option.bind_some, b1, Option.bind_some, if_pos c, c1]
        · have := (a2.trans b2).trans c2
          simpa using this
      · rw [if_neg c, Option.bind_some]
        obtain ⟨n1, n2⟩ := sideNext _ _ _ f1
        obtain ⟨t2, b1, b2, b3⟩ := fan_spec outer m s1 f1.ready (by rw [n1, n2]; split_ifs <;> omega)
        refine ⟨t2, ?_, b2, fun _ => b3⟩
        rw [b1, Option.bind_some, if_neg c]
    obtain ⟨s2, e2, f2, g2⟩ := fan
    rw [e2, Option.bind_some]
    have f12 := f1.trans f2
    have bl2 : s2.left.buffer = s.left.buffer := (f12.taken.1 .left).1
    have br2 : s2.right.buffer = s.right.buffer := (f12.taken.1 .right).1
    have nl2 : s2.left.next = s.left.next + (min nl nr / 2 + (nl - min nl nr)) := by
      have := f12.taken.2.1
      rw [show s2.left.next = (s2.side .left).next from rfl, this]
      show s.left.next + _ = _
      congr 2
      by_cases c : nr < nl
      · rw [if_pos c] at ho
        rw [if_pos ho.symm]
        omega
      · rw [if_neg c] at ho
        rw [if_neg (by rw [← ho]; decide)]
        omega
    have nr2 : s2.right.next = s.right.next + (min nl nr / 2 + (nr - min nl nr)) := by
      have := f12.taken.2.2
      rw [show s2.right.next = (s2.side .right).next from rfl, this]
      show s.right.next + _ = _
      congr 2
      by_cases c : nr < nl
      · rw [if_pos c] at ho
        rw [if_neg (by rw [← ho]; decide)]
        omega
      · rw [if_neg c] at ho
        rw [if_pos ho.symm]
        omega
    obtain ⟨s3, e3, f3, g3⟩ := quads_spec ((min nl nr - 1) / 2) s2 f2.ready (by rw [bl2, nl2]; omega) (by rw [br2, nr2]; omega)
    rw [e3, Option.bind_some]
    have f := f12.trans f3
    obtain ⟨keep, ek⟩ := endsInPivot_ok f.ready.toCore w
    rw [ek, Option.bind_some]
    obtain ⟨s4, e4, r4, v4, o4, t4, k4⟩ := prepares_spec f.ready keep
    have x4 : Ext s3 s4 := Ext.of_eq v4 t4
    refine ⟨s4, e4, r4, f.ext.trans x4, fun c => (f.ccw c).same f.ready.toCore x4 t4, fun k => (k4 k).1, fun hw => ?_⟩
    have g := ((g1.trans h.len (g2 hw)).trans h.len g3).trans h.len (Grow.of_eq v4 o4 t4)
    rw [List.append_nil] at g
    convert g using 1
    unfold addingOrder
    have d1 : min (s.left.buffer.drop s.left.next).length (s.right.buffer.drop s.right.next).length = min nl nr - 1 := by
      rw [List.length_drop, List.length_drop]; omega
    have l1 : (s.left.buffer.drop s.left.next).length = nl - 1 := by rw [List.length_drop]; omega
    have l2 : (s.right.buffer.drop s.right.next).length = nr - 1 := by rw [List.length_drop]; omega
    dsimp only
    rw [d1, l1, l2, show (min nl nr - 1 + 1) / 2 = min nl nr / 2 by omega, bl2, br2, nl2, nr2]
    congr 1
    · congr 1
      obtain ⟨n1, n2⟩ := sideNext _ _ _ f1
      rw [n1, n2]
      by_cases c : nr < nl
      · rw [if_pos c] at ho
        subst ho
        rw [show nr - 1 - (min nl nr - 1) = 0 by omega, show nl - 1 - (min nl nr - 1) = m by omega, List.take_zero, List.map_nil, List.append_nil, if_pos rfl, ← List.drop_drop]
        rfl
      · rw [if_neg c] at ho
        subst ho
        rw [show nl - 1 - (min nl nr - 1) = 0 by omega, show nr - 1 - (min nl nr - 1) = m by omega, List.take_zero, List.map_nil, List.nil_append, if_neg (by decide), ← List.drop_drop]
        rfl
    · have hh : ∀ (l : List (Vertex K)) (i j : ℕ), j ≤ l.length → l.length - j = i → (l.drop j).take i = l.drop j := fun l i j hj hi => List.take_of_length_le (by rw [List.length_drop]; omega)
      rw [hh _ _ _ (by omega) (by omega), hh _ _ _ (by omega) (by omega), List.drop_drop, List.drop_drop]
      congr 2 <;> omega

theorem simplify_length {P D : Type} (pos : Vertex K → P) (dist : P → P → P → D) (gt : D → D → Bool) (zero epsilon : D) (l out : List (Vertex K)) (h : 2 ≤ l.length) :
    out.length + 2 ≤ (Simplify.simplify pos dist gt zero epsilon l out).length := by
  match l, h with
  | [a, c], _ => simp [Simplify.simplify]
  | a :: c :: d :: r, _ =>
    simp only [Simplify.simplify, List.length_append, List.length_singleton]
    omega

theorem keptOf_length (hypot : K → K → K) (threshold limit : K) (x : Side K) (h : 3 ≤ x.buffer.length) : 2 ≤ (keptOf hypot threshold limit x).length := by
  unfold keptOf
  dsimp only
  split
  · split_ifs
    · refine le_trans ?_ (simplify_length _ _ _ _ _ _ _ ?_)
      · simp
      · simp
    · have := simplify_length Vertex.position (fun a b p => distPS hypot p ⟨a, b⟩) (fun a b => decide (b < a)) 0 threshold x.buffer [] (by omega)
      exact le_trans (by simp) this
  · have := simplify_length Vertex.position (fun a b p => distPS hypot p ⟨a, b⟩) (fun a b => decide (b < a)) 0 threshold x.buffer [] (by omega)
    exact le_trans (by simp) this

/-- `SimplifyBufferedVertices` -/
theorem simplifySide_spec {b n : ℕ} {s : State K} (hypot : K → K → K) (threshold limit : K) (k : SideId) (h : Ready s b n) (hb : ∀ k, BufOk s k) :
    ∃ s', simplifySide hypot threshold limit k s = some s' ∧ Ready s' b n ∧ s'.triangles = s.triangles ∧ s'.vertices.length = s.vertices.length ∧
      (∀ k', BufOk s' k' ∧ (s'.side k').indices = (s.side k').indices ∧ (s'.side k').next = (s.side k').next) ∧
      (∀ i, positionOf s' i = positionOf s i ∨ (s.side k).next = 2 ∧ (s.side k).indices.getLast? = some i) ∧ (threshold ≤ 0 → s' = s) := by
  have same : ∃ s', some s = some s' ∧ Ready s' b n ∧ s'.triangles = s.triangles ∧ s'.vertices.length = s.vertices.length ∧
      (∀ k', BufOk s' k' ∧ (s'.side k').indices = (s.side k').indices ∧ (s'.side k').next = (s.side k').next) ∧
      (∀ i, positionOf s' i = positionOf s i ∨ (s.side k).next = 2 ∧ (s.side k).indices.getLast? = some i) ∧ (threshold ≤ 0 → s' = s) :=
    ⟨s, rfl, h, rfl, rfl, fun k' => ⟨hb k', rfl, rfl⟩, fun _ => Or.inl rfl, fun _ => rfl⟩
  unfold simplifySide
  dsimp only
  by_cases q : threshold ≤ 0 ∨ (s.side k).buffer.length < 3
  · rw [if_pos q]; exact same
  rw [if_neg q]
  have q1 : ¬ threshold ≤ 0 := fun c => q (Or.inl c)
  have q2 : 3 ≤ (s.side k).buffer.length := not_lt.1 fun c => q (Or.inr c)
  have kl := keptOf_length hypot threshold limit (s.side k) q2
  generalize keptOf hypot threshold limit (s.side k) = kept at kl ⊢
  by_cases ql : kept.length = (s.side k).buffer.length
  · rw [if_pos ql]; exact same
  rw [if_neg ql]
  have put : ∀ (t : State K) (x : Side K), Ready t b n → t.triangles = s.triangles → t.vertices.length = s.vertices.length → (∀ k', t.side k' = s.side k') →
      (∀ i, positionOf t i = positionOf s i ∨ (s.side k).next = 2 ∧ (s.side k).indices.getLast? = some i) →
      x.indices = (s.side k).indices → x.partition = (s.side k).partition → x.next = (s.side k).next → 2 ≤ x.buffer.length →
      ∃ s', some (t.setSide k x) = some s' ∧ Ready s' b n ∧ s'.triangles = s.triangles ∧ s'.vertices.length = s.vertices.length ∧
      (∀ k', BufOk s' k' ∧ (s'.side k').indices = (s.side k').indices ∧ (s'.side k').next = (s.side k').next) ∧
      (∀ i, positionOf s' i = positionOf s i ∨ (s.side k).next = 2 ∧ (s.side k).indices.getLast? = some i) ∧ (threshold ≤ 0 → s' = s) := by
    intro t x ht htt htl hts hpos xi xp xn xb
    refine ⟨_, rfl, setSide_ready ht k x (by rw [xi, hts]) (by rw [xp, hts]), by rw [setSide_triangles, htt], by rw [setSide_vertices, htl], ?_, ?_, fun c => absurd c q1⟩
    · refine side_cases _ k ?_ fun k' hk => ?_
      · refine ⟨⟨?_, ?_, ?_, ?_⟩, ?_, ?_⟩
        · rw [side_setSide, xi, xp]; exact h.has k
        · rw [side_setSide]; intro e; rw [e] at xb; simp at xb
        · rw [side_setSide, xn]
          rcases (hb k).two with e | ⟨e, -⟩ <;> omega
        · rw [side_setSide, xn]
          rcases (hb k).two with e | ⟨e, r⟩
          · exact Or.inl e
          · refine Or.inr ⟨e, ?_⟩
            unfold Recent at r ⊢
            rw [side_setSide, setSide_triangles, xi, htt]
            exact r
        · rw [side_setSide, xi]
        · rw [side_setSide, xn]
      · refine ⟨(hb k').congr (by rw [side_setSide_ne _ _ hk, hts]) (by rw [setSide_triangles, htt]), ?_, ?_⟩
        · rw [side_setSide_ne _ _ hk, hts]
        · rw [side_setSide_ne _ _ hk, hts]
    · intro i
      rcases hpos i with e | e
      · refine Or.inl ?_
        rw [← e]
        unfold positionOf
        rw [setSide_vertices]
      · exact Or.inr e
  by_cases qn : (s.side k).next = 2
  · rw [if_pos qn]
    obtain ⟨i, w, h1, h2, h3, -, hi, -⟩ := h.lasts k
    have hk := List.getElem?_eq_getElem (show 1 < kept.length by omega)
    rw [h1] at put
    rw [hk, Option.bind_some, h1, Option.bind_some, h2, Option.bind_some]
    by_cases qw : (kept[1]).position = w.position
    · rw [if_pos qw]
      exact put s { s.side k with buffer := kept } h rfl rfl (fun _ => rfl) (fun _ => Or.inl rfl) rfl rfl rfl kl
    · rw [if_neg qw]
      obtain ⟨l, vl, -, -, l3, -⟩ := h.lasts .left
      obtain ⟨r, vr, -, -, r3, -⟩ := h.lasts .right
      have ha : s.area (kept[1]).position = some (Triangle.signedArea ⟨vl.position, vr.position, (kept[1]).position⟩) := by
        unfold State.area
        rw [l3, r3]
        rfl
      rw [ha, Option.map_some]
      by_cases qa : (0 : K) < Triangle.signedArea ⟨vl.position, vr.position, (kept[1]).position⟩
      · rw [if_pos qa]
        refine put { s with vertices := s.vertices.set i kept[1] } { s.side k with buffer := kept, simplified := (s.side k).simplified ++ [w.position] } ?_ rfl (by simp) (fun k' => by cases k' <;> rfl) ?_ rfl rfl rfl kl
        · exact h.congr (by simp) rfl rfl (fun k => by cases k <;> rfl) fun k => by cases k <;> rfl
        · intro j
          by_cases e : i = j
          · subst e
            exact Or.inr ⟨qn, rfl⟩
          · refine Or.inl ?_
            unfold positionOf
            show (s.vertices.set i kept[1])[j]?.map _ = _
            rw [List.getElem?_set_ne e]
      · rw [if_neg qa]
        refine put s { s.side k with buffer := (s.side k).buffer.take 2 ++ kept.drop 1 } h rfl rfl (fun _ => rfl) (fun _ => Or.inl rfl) rfl rfl rfl ?_
        rw [List.length_append, List.length_take]
        omega
  · rw [if_neg qn]
    exact put s { s.side k with buffer := kept } h rfl rfl (fun _ => rfl) (fun _ => Or.inl rfl) rfl rfl rfl kl

/-- A side between calls, without vertices -/
def Empty (s : State K) (k : SideId) : Prop := (s.side k).buffer = [] ∧ (s.side k).next = 0 ∧ (s.side k).indices.length = (s.side k).partition

/-- What holds between calls. -/
structure Inv (s : State K) (b n : ℕ) : Prop extends Core s b n where
  buf : ∀ k, BufOk s k ∨ Empty s k

/-- What a call keeps. -/
structure Kept (s s' : State K) : Prop where
  tri : s.triangles <+: s'.triangles
  len : s.vertices.length ≤ s'.vertices.length
  pos : ∀ i, i < s.vertices.length → positionOf s' i = positionOf s i ∨ ∃ k, (s.side k).next = 2 ∧ (s.side k).indices.getLast? = some i

theorem Ext.kept {s s' : State K} (h : Ext s s') : Kept s s' := ⟨h.tri, h.len, fun i hi => Or.inl (h.pos i hi)⟩

theorem clear_spec {b n : ℕ} {s : State K} (m : ℕ) (k : SideId) (h : Ready s b n) (hb : ∀ k, BufOk s k) :
    Ready (clearSimplified m k s) b n ∧ (∀ k', BufOk (clearSimplified m k s) k') ∧ (clearSimplified m k s).vertices = s.vertices ∧
      (clearSimplified m k s).sideOf = s.sideOf ∧ (clearSimplified m k s).triangles = s.triangles := by
  unfold clearSimplified
  by_cases q : m = (s.side k).indices.length
  · rw [if_pos q]; exact ⟨h, hb, rfl, rfl, rfl⟩
  · rw [if_neg q]
    refine ⟨setSide_ready h k _ rfl rfl, ?_, setSide_vertices _ _ _, setSide_sideOf _ _ _, setSide_triangles _ _ _⟩
    refine side_cases _ k ?_ fun k' hk => (hb k').congr (side_setSide_ne _ _ hk) (setSide_triangles _ _ _)
    have o := hb k
    refine ⟨by rw [side_setSide]; exact o.has, by rw [side_setSide]; exact o.some, by rw [side_setSide]; exact o.next, ?_⟩
    rw [side_setSide]
    rcases o.two with e | ⟨e, r⟩
    · exact Or.inl e
    · refine Or.inr ⟨e, ?_⟩
      unfold Recent at r ⊢
      rw [side_setSide, setSide_triangles]
      exact r

theorem Inv.ready {s : State K} {b n : ℕ} (h : Inv s b n) (hl : s.left.buffer ≠ []) (hr : s.right.buffer ≠ []) : Ready s b n ∧ ∀ k, BufOk s k := by
  have hb : ∀ k, BufOk s k := fun k => by
    rcases h.buf k with c | c
    · exact c
    · cases k
      · exact absurd c.1 hl
      · exact absurd c.1 hr
  exact ⟨⟨h.toCore, fun k => (hb k).has⟩, hb⟩

/-- `ProcessNewVertices` -/
theorem process_spec [IsStrictOrderedRing K] {b n : ℕ} {s : State K} (hypot : K → K → K) (w : Bool) (threshold width height : K) (h : Inv s b n) :
    ∃ s', process hypot none w threshold width height s = some s' ∧ Inv s' b n ∧ Kept s s' ∧ (threshold ≤ 0 → Ext s s' ∧ (AllCcw s → AllCcw s')) ∧
      (threshold ≤ 0 → w = false → s.left.buffer ≠ [] → s.right.buffer ≠ [] →
        Grow s s' (addingOrder (s.left.buffer.drop s.left.next) (s.right.buffer.drop s.right.next))) := by
  unfold process
  by_cases q : s.left.buffer = [] ∨ s.right.buffer = []
  · rw [if_pos q]
    exact ⟨s, rfl, h, (Ext.refl s).kept, fun _ => ⟨Ext.refl s, id⟩, fun _ _ hl hr => absurd q (by simp [hl, hr])⟩
  rw [if_neg q]
  dsimp only
  obtain ⟨hr0, hb0⟩ := h.ready (fun c => q (Or.inl c)) (fun c => q (Or.inr c))
  obtain ⟨s1, e1, r1, t1, l1, b1, p1, z1⟩ := simplifySide_spec hypot threshold (8 * (1 / 2 * (width + height))) .left hr0 hb0
  obtain ⟨s2, e2, r2, t2, l2, b2, p2, z2⟩ := simplifySide_spec hypot threshold (8 * (1 / 2 * (width + height))) .right r1 fun k => (b1 k).1
  obtain ⟨s3, e3, r3, x3, c3, b3, g3⟩ := triangulate_spec r2 (fun k => (b2 k).1) w
  obtain ⟨r4, b4, v4, o4, t4⟩ := clear_spec s2.left.indices.length .left r3 b3
  obtain ⟨r5, b5, v5, o5, t5⟩ := clear_spec s2.right.indices.length .right r4 b4
  rw [e1, Option.bind_some, e2, Option.bind_some, e3, Option.map_some]
  have x5 : Ext s3 (clearSimplified s2.right.indices.length .right (clearSimplified s2.left.indices.length .left s3)) :=
    Ext.of_eq (v5.trans v4) (t5.trans t4)
  have x := x3.trans x5
  refine ⟨_, rfl, ⟨r5.toCore, fun k => Or.inl (b5 k)⟩, ⟨?_, ?_, fun i hi => ?_⟩, fun c => ?_, fun c hw hl hr => ?_⟩
  · rw [← t1, ← t2]; exact x.tri
  · rw [← l1, ← l2]; exact x.len
  · rw [x.pos i (by rw [l2, l1]; exact hi)]
    rcases p2 i with e | ⟨a, a'⟩
    · rw [e]
      rcases p1 i with e | e
      · exact Or.inl e
      · exact Or.inr ⟨_, e⟩
    · rw [(b1 .right).2.2] at a
      rw [(b1 .right).2.1] at a'
      exact Or.inr ⟨_, a, a'⟩
  · have y1 := z1 c
    have y2 := z2 c
    rw [y1] at y2
    rw [y2] at x3 x c3
    exact ⟨by rw [y2] at x5 ⊢; exact x3.trans x5, fun hc => by
      rw [y2] at x5 ⊢
      exact (c3 hc).same r3.toCore x5 ((by rw [y2] at t4 t5; exact t5.trans t4))⟩
  · have y1 := z1 c
    have y2 := z2 c
    rw [y1] at y2
    subst y2
    have := (g3 hw).trans h.len (Grow.of_eq (v5.trans v4) (o5.trans o4) (t5.trans t4))
    rwa [List.append_nil] at this

theorem labelLast_spec {b n : ℕ} {s : State K} (h : Core s b n) (k : SideId) :
    ∃ vs, labelLast k s = some { s with vertices := vs } ∧ vs.length = s.vertices.length ∧ ∀ i, positionOf { s with vertices := vs } i = positionOf s i := by
  unfold labelLast
  dsimp only
  by_cases q : (s.side k).indices.length ≤ (s.side k).partition
  · rw [if_pos q]; exact ⟨s.vertices, rfl, rfl, fun _ => rfl⟩
  · rw [if_neg q]
    have ne : (s.side k).indices ≠ [] := fun e => by rw [e] at q; simp at q
    rw [List.getLast?_eq_some_getLast ne, Option.bind_some]
    obtain ⟨h1, -⟩ := h.mem (List.getLast_mem ne)
    rw [List.getElem?_eq_getElem h1, Option.map_some]
    refine ⟨_, rfl, by simp, fun i => ?_⟩
    unfold positionOf
    show (s.vertices.set _ _)[i]?.map _ = _
    by_cases e : (s.side k).indices.getLast ne = i
    · subst e
      rw [List.getElem?_set_self h1, List.getElem?_eq_getElem h1]
      rfl
    · rw [List.getElem?_set_ne e]

/-- `AddExtrusionBreak` -/
theorem addBreak_spec {b n : ℕ} {s : State K} (h : Inv s b n) :
    ∃ s', addBreak s = some s' ∧ Inv s' b n ∧ Inv s' s.vertices.length s.triangles.length ∧ Ext s s' ∧ s'.triangles = s.triangles ∧ s'.vertices.length = s.vertices.length := by
  obtain ⟨vs, e1, l1, p1⟩ := labelLast_spec h.toCore .left
  have h1 : Core { s with vertices := vs } b n := h.toCore.congr l1 rfl rfl (fun k => by cases k <;> rfl) fun k => by cases k <;> rfl
  obtain ⟨ws, e2, l2, p2⟩ := labelLast_spec h1 .right
  have l2 : ws.length = s.vertices.length := l2.trans l1
  have pos : ∀ i, positionOf { s with vertices := ws } i = positionOf s i := fun i => (p2 i).trans (p1 i)
  have h2 : Core { s with vertices := ws } b n := h.toCore.congr l2 rfl rfl (fun k => by cases k <;> rfl) fun k => by cases k <;> rfl
  have core : ∀ b' n', b' ≤ s.vertices.length → n' ≤ s.triangles.length → (∀ t ∈ s.triangles.drop n', From b' t) →
      Inv { s with vertices := ws,
                   left := { s.left with partition := s.left.indices.length, buffer := [], next := 0, simplified := [] },
                   right := { s.right with partition := s.right.indices.length, buffer := [], next := 0, simplified := [] } } b' n' := by
    intro b' n' hb' hn' hnew
    refine ⟨⟨h2.len, ?_, ?_, ?_, h2.tri, h2.inc, ⟨by show b' ≤ ws.length; omega, hn'⟩, hnew⟩, ?_⟩
    · intro k
      have := h2.ind k
      cases k <;> exact this
    · intro k; cases k <;> exact le_rfl
    · intro k i hi
      cases k <;> simp [State.side] at hi
    · intro k
      refine Or.inr ?_
      cases k <;> exact ⟨rfl, rfl, rfl⟩
  refine ⟨_, ?_, core b n h.brk.1 h.brk.2 h.new, core _ _ le_rfl le_rfl (by simp), ⟨List.prefix_rfl, fun i _ => pos i, l2.ge⟩, rfl, l2⟩
  unfold addBreak
  rw [e1, Option.bind_some, e2, Option.map_some]

/-- `AppendVertexToSide` -/
theorem appendToSide_spec {b n : ℕ} {s : State K} (h : Inv s b n) (k : SideId) (v : Vertex K) :
    ∃ s', s.appendToSide k v = some s' ∧ Inv s' b n ∧ Ext s s' ∧ s'.triangles = s.triangles := by
  have base : Core (s.setSide k { s.side k with buffer := (s.side k).buffer ++ [v] }) b n := by
    refine h.toCore.congr (by rw [setSide_vertices]) (setSide_sideOf _ _ _) (setSide_triangles _ _ _) ?_ ?_
    · exact side_cases _ k (by rw [side_setSide]) fun k' hk => by rw [side_setSide_ne _ _ hk]
    · exact side_cases _ k (by rw [side_setSide]) fun k' hk => by rw [side_setSide_ne _ _ hk]
  have ext : Ext s (s.setSide k { s.side k with buffer := (s.side k).buffer ++ [v] }) := Ext.of_eq (setSide_vertices _ _ _) (setSide_triangles _ _ _)
  have others : ∀ k' (s' : State K), s'.side k' = s.side k' → s'.triangles = s.triangles → BufOk s' k' ∨ Empty s' k' := fun k' s' e t => by
    rcases h.buf k' with c | c
    · exact Or.inl (c.congr e t)
    · refine Or.inr ?_
      unfold Empty at c ⊢
      rw [e]; exact c
  unfold State.appendToSide
  dsimp only
  rw [side_setSide]
  dsimp only
  by_cases q : (s.side k).indices.length = (s.side k).partition
  · rw [if_pos q]
    have e : Empty s k := by
      rcases h.buf k with c | c
      · exact absurd c.has (by omega)
      · exact c
    have hget : ((s.side k).buffer ++ [v])[(s.side k).next]? = some v := by rw [e.1, e.2.1]; rfl
    rw [hget, Option.map_some]
    generalize hu : s.setSide k { s.side k with buffer := (s.side k).buffer ++ [v] } = u at base ext ⊢
    have us : u.side k = { s.side k with buffer := (s.side k).buffer ++ [v] } := by rw [← hu, side_setSide]
    have un : ∀ k', k' ≠ k → u.side k' = s.side k' := fun k' hk => by rw [← hu, side_setSide_ne _ _ hk]
    have ut : u.triangles = s.triangles := by rw [← hu, setSide_triangles]
    have c1 := base.append k { v with forward := .front }
    have as := append_side u k { v with forward := .front }
    refine ⟨_, rfl, ⟨?_, ?_⟩, ?_, ?_⟩
    · refine c1.congr (by rw [setSide_vertices]) (setSide_sideOf _ _ _) (setSide_triangles _ _ _) ?_ ?_
      · exact side_cases _ k (by rw [side_setSide]) fun k' hk => by rw [side_setSide_ne _ _ hk]
      · exact side_cases _ k (by rw [side_setSide]) fun k' hk => by rw [side_setSide_ne _ _ hk]
    · refine side_cases _ k (Or.inl ?_) fun k' hk => others k' _ ?_ ?_
      · refine ⟨?_, ?_, ?_, ?_⟩ <;> rw [side_setSide, as, us]
        · simp [q]
        · simp
        · simp [e.2.1]
        · simp [e.2.1]
      · rw [side_setSide_ne _ _ hk, append_side_ne u _ hk, un k' hk]
      · rw [setSide_triangles, append_triangles, ut]
    · exact ext.trans ((ext_append u k _).trans (Ext.of_eq (setSide_vertices _ _ _) (setSide_triangles _ _ _)))
    · rw [setSide_triangles, append_triangles, ut]
  · rw [if_neg q]
    refine ⟨_, rfl, ⟨base, side_cases _ k (Or.inl ?_) fun k' hk => others k' _ (side_setSide_ne _ _ hk) (setSide_triangles _ _ _)⟩, ext, setSide_triangles _ _ _⟩
    rcases h.buf k with c | c
    · refine ⟨?_, ?_, ?_, ?_⟩ <;> rw [side_setSide]
      · exact c.has
      · simp
      · have := c.next
        dsimp only
        rw [List.length_append]
        omega
      · rcases c.two with e | ⟨e, r⟩
        · exact Or.inl e
        · refine Or.inr ⟨e, ?_⟩
          unfold Recent at r ⊢
          rw [side_setSide, setSide_triangles]
          exact r
    · exact absurd c.2.2 q

/-- One call -/
theorem step_spec [IsStrictOrderedRing K] {b n : ℕ} {s : State K} (hypot : K → K → K) (h : Inv s b n) (o : Op K) :
    ∃ s', step hypot s o = some s' ∧ Inv s' b n ∧ Kept s s' ∧ (Plain o → AllCcw s → AllCcw s') := by
  cases o with
  | append k v =>
    obtain ⟨s', e, i, x, t⟩ := appendToSide_spec h k v
    exact ⟨s', e, i, x.kept, fun _ c => c.same h.toCore x t⟩
  | process w t a c =>
    obtain ⟨s', e, i, x, y, -⟩ := process_spec hypot w t a c h
    exact ⟨s', e, i, x, fun p => (y p).2⟩
  | «break» =>
    obtain ⟨s', e, i, -, x, t, -⟩ := addBreak_spec h
    exact ⟨s', e, i, x.kept, fun _ c => c.same h.toCore x t⟩

theorem run_spec [IsStrictOrderedRing K] {b n : ℕ} (hypot : K → K → K) : ∀ (os : List (Op K)) (s : State K), Inv s b n →
    ∃ s', run hypot s os = some s' ∧ Inv s' b n ∧ ((∀ o ∈ os, Plain o) → AllCcw s → AllCcw s') := by
  intro os
  induction os with
  | nil => exact fun s h => ⟨s, rfl, h, fun _ c => c⟩
  | cons o os ih =>
    intro s h
    obtain ⟨s1, e1, h1, -, c1⟩ := step_spec hypot h o
    obtain ⟨s2, e2, h2, c2⟩ := ih s1 h1
    refine ⟨s2, by rw [run, e1, Option.bind_some, e2], h2, fun p c => ?_⟩
    exact c2 (fun o' ho => p o' (List.mem_cons_of_mem _ ho)) (c1 (p o (List.mem_cons_self ..)) c)

/-- Nothing was added yet. -/
theorem inv_empty : Inv (K := K) ⟨[], [], [], ⟨[], 0, [], 0, []⟩, ⟨[], 0, [], 0, []⟩⟩ 0 0 := by
  refine ⟨⟨rfl, ?_, ?_, ?_, by simp, by simp, by simp, by simp⟩, ?_⟩
  · intro k; cases k <;> rfl
  · intro k; cases k <;> exact le_rfl
  · intro k i _; exact Nat.zero_le _
  · intro k; refine Or.inr ?_; cases k <;> exact ⟨rfl, rfl, rfl⟩

end Verif.Triangulation
