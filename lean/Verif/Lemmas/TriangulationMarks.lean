import Verif.Lemmas.Triangulation
import Mathlib.Data.List.Chain

/-!
# Lemmas for C79: labels of vertices, and what calls change
-/

set_option autoImplicit false
set_option linter.unusedSectionVars false

namespace Verif.Simplify

variable {V P D : Type} (pos : V → P) (dist : P → P → P → D) (gt : D → D → Bool) (zero : D)

theorem interior_sublist (epsilon : D) : ∀ (n : ℕ) (l : List V) (a b : P), l.length ≤ n → (interior pos dist gt zero epsilon a b l).Sublist l := by
  intro n
  induction n with
  | zero =>
    intro l a b h
    rw [interior, if_pos (by omega)]
    exact List.nil_sublist _
  | succ n ih =>
    intro l a b h
    have step : ∀ {i : ℕ} {v : V} {x y : List V}, l[i]? = some v → x.Sublist (l.take i) → y.Sublist (l.drop (i + 1)) → (x ++ v :: y).Sublist l := by
      intro i v x y hv hx hy
      obtain ⟨hi, rfl⟩ := List.getElem?_eq_some_iff.1 hv
      conv_rhs => rw [← List.take_append_drop i l, List.drop_eq_getElem_cons hi]
      exact List.Sublist.append hx (List.Sublist.cons_cons _ hy)
    rw [interior]
    split_ifs
    · exact List.nil_sublist _
    · split
      split_ifs
      · split
        · exact List.nil_sublist _
        · rename_i v hv
          have hi := (List.getElem?_eq_some_iff.1 hv).1
          refine step hv (ih _ _ _ ?_) (ih _ _ _ ?_)
          · rw [List.length_take]; omega
          · rw [List.length_drop]; omega
      · exact List.nil_sublist _

/-- The first vertex is kept, and some of the others, in their order. -/
theorem simplify_sublist (epsilon : D) (v : V) (l : List V) (output : List V) :
    ∃ r, simplify pos dist gt zero epsilon (v :: l) output = output ++ v :: r ∧ r.Sublist l := by
  match l with
  | [] => exact ⟨[], rfl, List.Sublist.refl _⟩
  | [x] => exact ⟨[x], rfl, List.Sublist.refl _⟩
  | x :: y :: rest =>
    refine ⟨interior pos dist gt zero epsilon (pos v) (pos ((y :: rest).getLast (by simp))) (x :: (y :: rest).dropLast) ++ [(y :: rest).getLast (by simp)], by
      rw [simplify]; simp only [List.append_assoc, List.cons_append, List.nil_append], ?_⟩
    have e : x :: y :: rest = (x :: (y :: rest).dropLast) ++ [(y :: rest).getLast (by simp)] := by
      simp only [List.cons_append]
      rw [List.dropLast_append_getLast]
    conv_rhs => rw [e]
    exact List.Sublist.append (interior_sublist pos dist gt zero epsilon _ _ _ _ (le_refl _)) (List.Sublist.refl _)

end Verif.Simplify

namespace Verif.Triangulation

open Geo Spec
open PartialOutline (SideId)

variable {K : Type} [Field K] [LinearOrder K]

theorem keptOf_sublist (hypot : K → K → K) (threshold limit : K) (x : Side K) (v : Vertex K) (l : List (Vertex K)) (h : x.buffer = v :: l) (hl : 2 ≤ l.length) :
    ∃ r, keptOf hypot threshold limit x = v :: r ∧ r.Sublist l := by
  unfold keptOf
  dsimp only
  match l, hl with
  | v1 :: v2 :: rest, _ =>
    rw [h]
    dsimp only
    split_ifs
    · obtain ⟨r, e, hr⟩ := Simplify.simplify_sublist Vertex.position (fun a b p => distPS hypot p ⟨a, b⟩) (fun a b => decide (b < a)) 0 threshold v1 (v2 :: rest) [v]
      exact ⟨v1 :: r, e, List.Sublist.cons_cons _ hr⟩
    · obtain ⟨r, e, hr⟩ := Simplify.simplify_sublist Vertex.position (fun a b p => distPS hypot p ⟨a, b⟩) (fun a b => decide (b < a)) 0 threshold v (v1 :: v2 :: rest) []
      exact ⟨r, e, hr⟩

/-- What a call leaves as it was. -/
structure Tail (s s' : State K) : Prop where
  len : s.vertices.length ≤ s'.vertices.length
  ids : s.sideOf <+: s'.sideOf
  tri : ∃ new, s'.triangles = s.triangles ++ new ∧ ∀ t ∈ new, s.vertices.length ≤ t.2.2
  idx : ∀ k, ∃ new, (s'.side k).indices = (s.side k).indices ++ new ∧ ∀ j ∈ new, s.vertices.length ≤ j
  same : ∀ i, i < s.vertices.length → (∀ k, (s.side k).indices.getLast? ≠ some i) → s'.vertices[i]? = s.vertices[i]?
  pos : ∀ i, i < s.vertices.length → (∀ t ∈ s.triangles, t.2.2 ≠ i) → positionOf s' i = positionOf s i

theorem Tail.refl (s : State K) : Tail s s :=
  ⟨le_rfl, List.prefix_rfl, ⟨[], by simp, by simp⟩, fun _ => ⟨[], by simp, by simp⟩, fun _ _ _ => rfl, fun _ _ _ => rfl⟩

theorem Tail.trans {s s' s'' : State K} (h : Tail s s') (g : Tail s' s'') : Tail s s'' := by
  refine ⟨h.len.trans g.len, h.ids.trans g.ids, ?_, fun k => ?_, fun i hi hk => ?_, fun i hi ht => ?_⟩
  · obtain ⟨a, e, ha⟩ := h.tri
    obtain ⟨b, e', hb⟩ := g.tri
    refine ⟨a ++ b, by rw [e', e, List.append_assoc], fun t ht => ?_⟩
    rcases List.mem_append.1 ht with c | c
    · exact ha t c
    · exact h.len.trans (hb t c)
  · obtain ⟨a, e, ha⟩ := h.idx k
    obtain ⟨b, e', hb⟩ := g.idx k
    refine ⟨a ++ b, by rw [e', e, List.append_assoc], fun t ht => ?_⟩
    rcases List.mem_append.1 ht with c | c
    · exact ha t c
    · exact h.len.trans (hb t c)
  · rw [g.same i (hi.trans_le h.len), h.same i hi hk]
    intro k e
    obtain ⟨a, e', ha⟩ := h.idx k
    rw [e'] at e
    rcases List.eq_nil_or_concat a with rfl | ⟨b, x, rfl⟩
    · rw [List.append_nil] at e
      exact hk k e
    · rw [List.concat_eq_append, ← List.append_assoc, List.getLast?_append] at e
      simp only [List.getLast?_singleton, Option.some_or, Option.some.injEq] at e
      have := ha x (by simp)
      omega
  · rw [g.pos i (hi.trans_le h.len), h.pos i hi ht]
    intro t ht'
    obtain ⟨a, e, ha⟩ := h.tri
    rw [e] at ht'
    rcases List.mem_append.1 ht' with c | c
    · exact ht t c
    · have := ha t c
      omega

theorem Tail.of_eq {s s' : State K} (hv : s'.vertices = s.vertices) (ho : s'.sideOf = s.sideOf) (ht : s'.triangles = s.triangles)
    (hi : ∀ k, (s'.side k).indices = (s.side k).indices) : Tail s s' :=
  ⟨by rw [hv], by rw [ho], ⟨[], by simp [ht], by simp⟩, fun k => ⟨[], by simp [hi], by simp⟩, fun _ _ _ => by rw [hv], fun i _ _ => by unfold positionOf; rw [hv]⟩

/-- The label of a vertex -/
def mark (s : State K) (i : ℕ) : Option Forward := s.vertices[i]?.map Vertex.forward

/-- The labels of the vertices of a side -/
def marks (s : State K) (k : SideId) : List (Option Forward) := (s.side k).indices.map (mark s)

/-- A front does not come after a vertex that is neither front nor back. -/
def Follows (a b : Option Forward) : Prop := b = some .front → a ≠ some .interior

structure Good (s : State K) : Prop where
  len : s.sideOf.length = s.vertices.length
  mem : ∀ k, ∀ i ∈ (s.side k).indices, s.sideOf[i]? = some k
  nodup : ∀ k, (s.side k).indices.Nodup
  good : ∀ k, (marks s k).IsChain Follows

theorem Good.lt {s : State K} (h : Good s) {k : SideId} {i : ℕ} (hi : i ∈ (s.side k).indices) : i < s.vertices.length := by
  have := h.mem k i hi
  rw [← h.len]
  exact (List.getElem?_eq_some_iff.1 this).1

theorem Good.congr {s s' : State K} (h : Good s) (hv : s'.vertices.length = s.vertices.length) (hm : ∀ i, mark s' i = mark s i) (ho : s'.sideOf = s.sideOf)
    (hi : ∀ k, (s'.side k).indices = (s.side k).indices) : Good s' := by
  refine ⟨by rw [ho, hv, h.len], fun k => by rw [hi, ho]; exact h.mem k, fun k => by rw [hi]; exact h.nodup k, fun k => ?_⟩
  unfold marks
  rw [hi, funext hm]
  exact h.good k

theorem Good.append {s : State K} (h : Good s) (k : SideId) (v : Vertex K) (hv : ∀ a ∈ (marks s k).getLast?, Follows a (some v.forward)) :
    Good (s.appendToMesh k v) := by
  have ev := append_vertices s k v
  have eo := append_sideOf s k v
  have es := append_side s k v
  have en : ∀ k', k' ≠ k → (s.appendToMesh k v).side k' = s.side k' := fun k' hk => append_side_ne s v hk
  have hm : ∀ k', (s.side k').indices.map (mark (s.appendToMesh k v)) = marks s k' := fun k' => by
    refine List.map_congr_left fun i hi => ?_
    unfold mark
    rw [ev, List.getElem?_append_left (h.lt hi)]
  refine ⟨by rw [eo, ev, List.length_append, List.length_append, h.len]; rfl, ?_, ?_, ?_⟩
  · refine side_cases _ k ?_ fun k' hk => ?_
    · rw [es, eo]
      intro i hi
      rcases List.mem_append.1 hi with c | c
      · rw [List.getElem?_append_left (by rw [h.len]; exact h.lt c)]; exact h.mem k i c
      · rw [List.mem_singleton.1 c, ← h.len]; simp
    · rw [en k' hk, eo]
      intro i hi
      rw [List.getElem?_append_left (by rw [h.len]; exact h.lt hi)]; exact h.mem k' i hi
  · refine side_cases _ k ?_ fun k' hk => by rw [en k' hk]; exact h.nodup k'
    rw [es]
    dsimp only
    rw [List.nodup_append]
    refine ⟨h.nodup k, List.nodup_singleton _, fun a ha b hb => ?_⟩
    rw [List.mem_singleton] at hb
    have := h.lt ha
    omega
  · refine side_cases _ k ?_ fun k' hk => ?_
    · unfold marks
      rw [es]
      dsimp only
      rw [List.map_append, hm k, List.isChain_append]
      refine ⟨h.good k, List.isChain_singleton _, fun a ha b hb => ?_⟩
      have : b = some v.forward := by
        simp only [List.map_cons, List.map_nil, List.head?_cons, Option.mem_def, Option.some.injEq] at hb
        rw [← hb]
        unfold mark
        rw [ev]
        simp
      rw [this]
      exact hv a ha
    · unfold marks
      rw [en k' hk, hm k']
      exact h.good k'

theorem Good.set {s : State K} (h : Good s) {k : SideId} {i : ℕ} (hi : (s.side k).indices.getLast? = some i) (v : Vertex K) (hv : v.forward ≠ .front) :
    Good { s with vertices := s.vertices.set i v } := by
  have es : ∀ k', ({ s with vertices := s.vertices.set i v } : State K).side k' = s.side k' := fun k' => by cases k' <;> rfl
  have hm : ∀ j, j ≠ i → mark { s with vertices := s.vertices.set i v } j = mark s j := fun j hj => by
    unfold mark
    show (s.vertices.set i v)[j]?.map _ = _
    rw [List.getElem?_set_ne (Ne.symm hj)]
  have mi : i ∈ (s.side k).indices := List.mem_of_getLast? hi
  have ti : mark { s with vertices := s.vertices.set i v } i = some v.forward := by
    unfold mark
    show (s.vertices.set i v)[i]?.map _ = _
    rw [List.getElem?_set_self (h.lt mi)]
    rfl
  refine ⟨by show _ = (s.vertices.set i v).length; rw [List.length_set]; exact h.len, fun k' => by rw [es]; exact h.mem k', fun k' => by rw [es]; exact h.nodup k', ?_⟩
  refine side_cases _ k ?_ fun k' hk => ?_
  · unfold marks
    rw [es]
    obtain ⟨init, e⟩ := List.getLast?_eq_some_iff.1 hi
    have nd := h.nodup k
    have hg := h.good k
    unfold marks at hg
    rw [e] at nd hg ⊢
    rw [List.nodup_append] at nd
    have e1 : init.map (mark { s with vertices := s.vertices.set i v }) = init.map (mark s) := List.map_congr_left fun j hj => hm j (nd.2.2 j hj i (by simp))
    rw [List.map_append, List.isChain_append] at hg ⊢
    refine ⟨by rw [e1]; exact hg.1, List.isChain_singleton _, fun a _ b hb => ?_⟩
    simp only [List.map_cons, List.map_nil, List.head?_cons, Option.mem_def, Option.some.injEq] at hb
    rw [← hb, ti]
    intro c
    rw [Option.some.injEq] at c
    exact absurd c hv
  · unfold marks
    rw [es]
    have : (s.side k').indices.map (mark { s with vertices := s.vertices.set i v }) = marks s k' := List.map_congr_left fun j hj => hm j fun c => by
      have a := h.mem k' j hj
      rw [c, h.mem k i mi, Option.some.injEq] at a
      exact hk a.symm
    rw [this]
    exact h.good k'

/-- What holds within `ProcessNewVertices` -/
structure Mid (s : State K) : Prop extends Good s where
  has : ∀ k, (s.side k).partition < (s.side k).indices.length
  clean : ∀ k, ∀ v ∈ (s.side k).buffer.drop (s.side k).next, v.forward ≠ .front

theorem Tail.append (s : State K) (k : SideId) (v : Vertex K) : Tail s (s.appendToMesh k v) := by
  have ev := append_vertices s k v
  refine ⟨by rw [ev]; simp, by rw [append_sideOf]; exact List.prefix_append _ _, ⟨[], by rw [append_triangles]; simp, by simp⟩, ?_, fun i hi _ => ?_, fun i hi _ => ?_⟩
  · refine side_cases _ k ?_ fun k' hk => ⟨[], by rw [append_side_ne s v hk]; simp, by simp⟩
    exact ⟨[s.vertices.length], by rw [append_side], by simp⟩
  · rw [ev, List.getElem?_append_left hi]
  · unfold positionOf
    rw [ev, List.getElem?_append_left hi]

theorem Mid.append {s : State K} (h : Mid s) (k : SideId) (v : Vertex K) (hv : ∀ a ∈ (marks s k).getLast?, Follows a (some v.forward)) :
    Mid (s.appendToMesh k v) := by
  refine ⟨h.toGood.append k v hv, ?_, ?_⟩
  · refine side_cases _ k ?_ fun k' hk => by rw [append_side_ne s v hk]; exact h.has k'
    rw [append_side]
    have := h.has k
    simp only [List.length_append, List.length_singleton]
    omega
  · refine side_cases _ k ?_ fun k' hk => by rw [append_side_ne s v hk]; exact h.clean k'
    rw [append_side]
    exact h.clean k

theorem tryAppend_mid {s s' : State K} (h : Mid s) (k : SideId) (e : tryAppend none k s = some s') :
    Mid s' ∧ Tail s s' ∧ (∀ k', (s'.side k').buffer = (s.side k').buffer ∧ (s'.side k').next = (s.side k').next ∧ (k' ≠ k → s'.side k' = s.side k')) ∧
      ∃ v, s'.vertices = s.vertices ++ [v] := by
  unfold tryAppend at e
  simp only [Option.bind_eq_some_iff] at e
  obtain ⟨v, hv, a, -, e⟩ := e
  have hf : v.forward ≠ .front := by
    refine h.clean k v ?_
    obtain ⟨hn, rfl⟩ := List.getElem?_eq_some_iff.1 hv
    rw [List.drop_eq_getElem_cons hn]
    exact List.mem_cons_self ..
  have m := h.append k v fun a _ c => absurd (Option.some.inj c) hf
  have t := Tail.append s k v
  have sides : ∀ k', ((s.appendToMesh k v).side k').buffer = (s.side k').buffer ∧ ((s.appendToMesh k v).side k').next = (s.side k').next ∧
      (k' ≠ k → (s.appendToMesh k v).side k' = s.side k') := by
    refine side_cases _ k ⟨by rw [append_side], by rw [append_side], fun c => absurd rfl c⟩ fun k' hk => ?_
    rw [append_side_ne s v hk]
    exact ⟨rfl, rfl, fun _ => rfl⟩
  split_ifs at e with q
  · simp only [Option.bind_eq_some_iff, Option.map_eq_some_iff] at e
    obtain ⟨l, -, r, -, rfl⟩ := e
    refine ⟨⟨⟨m.len, fun k => ?_, fun k => ?_, fun k => ?_⟩, fun k => ?_, fun k => ?_⟩, ⟨t.len, t.ids, ?_, fun k => ?_, t.same, t.pos⟩, fun k' => ?_, v, append_vertices s k v⟩
    · have := m.mem k; cases k <;> exact this
    · have := m.nodup k; cases k <;> exact this
    · have := m.good k; cases k <;> exact this
    · have := m.has k; cases k <;> exact this
    · have := m.clean k; cases k <;> exact this
    · exact ⟨[(l, r, s.vertices.length)], by show (s.appendToMesh _ v).triangles ++ _ = _; rw [append_triangles], by simp⟩
    · have := t.idx k; cases k <;> exact this
    · have := sides k'; cases k' <;> exact this
  · rw [Option.some.injEq] at e
    subst e
    exact ⟨m, t, sides, v, append_vertices s k v⟩

theorem setSide_mid {s : State K} (h : Mid s) (k : SideId) (x : Side K) (hi : x.indices = (s.side k).indices) (hp : x.partition = (s.side k).partition)
    (hc : ∀ v ∈ x.buffer.drop x.next, v.forward ≠ .front) : Mid (s.setSide k x) ∧ Tail s (s.setSide k x) := by
  have ei : ∀ k', ((s.setSide k x).side k').indices = (s.side k').indices := side_cases _ k (by rw [side_setSide, hi]) fun k' hk => by rw [side_setSide_ne _ _ hk]
  refine ⟨⟨h.toGood.congr (by rw [setSide_vertices]) (fun i => by unfold mark; rw [setSide_vertices]) (setSide_sideOf _ _ _) ei, ?_, ?_⟩,
    Tail.of_eq (setSide_vertices _ _ _) (setSide_sideOf _ _ _) (setSide_triangles _ _ _) ei⟩
  · exact side_cases _ k (by rw [side_setSide, hi, hp]; exact h.has k) fun k' hk => by rw [side_setSide_ne _ _ hk]; exact h.has k'
  · exact side_cases _ k (by rw [side_setSide]; exact hc) fun k' hk => by rw [side_setSide_ne _ _ hk]; exact h.clean k'

theorem advance_mid {s : State K} (h : Mid s) (k : SideId) : Mid (s.advance k) ∧ Tail s (s.advance k) := by
  refine setSide_mid h k _ rfl rfl fun v hv => h.clean k v ?_
  dsimp only at hv
  rw [← List.drop_drop] at hv
  exact List.mem_of_mem_drop hv

theorem quad_mid {s s' : State K} (h : Mid s) (e : quad none s = some s') : Mid s' ∧ Tail s s' := by
  unfold quad at e
  simp only [Option.bind_eq_some_iff, Option.map_eq_some_iff] at e
  obtain ⟨a, ea, b, eb, rfl⟩ := e
  obtain ⟨ma, ta, -, -⟩ := tryAppend_mid h .right ea
  obtain ⟨mb, tb, -, -⟩ := tryAppend_mid ma .left eb
  obtain ⟨mc, tc⟩ := advance_mid mb .right
  obtain ⟨md, td⟩ := advance_mid mc .left
  exact ⟨md, ((ta.trans tb).trans tc).trans td⟩

theorem times_mid {f : State K → Option (State K)} (P : State K → Prop) (hf : ∀ s s', P s → f s = some s' → P s' ∧ Tail s s') :
    ∀ (n : ℕ) (s s' : State K), P s → times f n s = some s' → P s' ∧ Tail s s' := by
  intro n
  induction n with
  | zero =>
    intro s s' h e
    rw [times, Option.some.injEq] at e
    subst e
    exact ⟨h, Tail.refl _⟩
  | succ n ih =>
    intro s s' h e
    rw [times, Option.bind_eq_some_iff] at e
    obtain ⟨a, ea, e⟩ := e
    obtain ⟨pa, ta⟩ := hf s a h ea
    obtain ⟨pb, tb⟩ := ih a s' pa e
    exact ⟨pb, ta.trans tb⟩

/-- The last two vertices of a side have the same label. -/
def Paired (s : State K) (k : SideId) : Prop := ∃ init a, marks s k = init ++ [a, a]

theorem marks_other {s : State K} (h : Good s) {k k' : SideId} (hk : k' ≠ k) {i : ℕ} (hi : i ∈ (s.side k).indices) (v : Vertex K) :
    marks { s with vertices := s.vertices.set i v } k' = marks s k' ∧ ∀ j ∈ (s.side k').indices, (s.vertices.set i v)[j]? = s.vertices[j]? := by
  have ne : ∀ j ∈ (s.side k').indices, i ≠ j := fun j hj c => by
    have a := h.mem k' j hj
    rw [← c, h.mem k i hi, Option.some.injEq] at a
    exact hk a.symm
  refine ⟨?_, fun j hj => List.getElem?_set_ne (ne j hj)⟩
  unfold marks
  rw [show ({ s with vertices := s.vertices.set i v } : State K).side k' = s.side k' by cases k' <;> rfl]
  refine List.map_congr_left fun j hj => ?_
  unfold mark
  show (s.vertices.set i v)[j]?.map _ = _
  rw [List.getElem?_set_ne (ne j hj)]

theorem marks_last {s : State K} {k : SideId} {i : ℕ} (hi : (s.side k).indices.getLast? = some i) : (marks s k).getLast? = some (mark s i) := by
  unfold marks
  rw [List.getLast?_map, hi]
  rfl

theorem Tail.set {s : State K} {k : SideId} {i : ℕ} (hi : (s.side k).indices.getLast? = some i) {v : Vertex K} (w : Vertex K) (hv : s.vertices[i]? = some v)
    (hp : w.position = v.position ∨ ∃ t ∈ s.triangles, t.2.2 = i) : Tail s { s with vertices := s.vertices.set i w } := by
  refine ⟨by show _ ≤ (s.vertices.set i w).length; rw [List.length_set], List.prefix_rfl, ⟨[], by simp, by simp⟩, fun k => ⟨[], by cases k <;> simp [State.side], by simp⟩, fun j hj hk => ?_, fun j hj ht => ?_⟩
  · exact List.getElem?_set_ne fun c => hk k (by rw [hi, c])
  · unfold positionOf
    show (s.vertices.set i w)[j]?.map _ = _
    by_cases c : i = j
    · subst c
      rcases hp with q | ⟨t, q, q'⟩
      · rw [List.getElem?_set_self hj, hv]
        exact congrArg some q
      · exact absurd q' (ht t q)
    · rw [List.getElem?_set_ne c]

theorem beginPivot_mid {s s' : State K} (h : Mid s) (k k' : SideId) (e : beginPivot k k' s = some s') : Mid s' ∧ Tail s s' ∧ Paired s' k := by
  unfold beginPivot at e
  simp only [Option.bind_eq_some_iff, Option.map_eq_some_iff] at e
  obtain ⟨i, hi, v, hv, o, -, rfl⟩ := e
  have tl := Tail.set hi { v with texture := ⟨o.texture.x, v.texture.y⟩ } hv (Or.inl rfl)
  have hm : ∀ j, mark { s with vertices := s.vertices.set i { v with texture := ⟨o.texture.x, v.texture.y⟩ } } j = mark s j := fun j => by
    unfold mark
    show (s.vertices.set i _)[j]?.map _ = _
    by_cases c : i = j
    · subst c
      rw [List.getElem?_set_self (List.getElem?_eq_some_iff.1 hv).1, hv]
      rfl
    · rw [List.getElem?_set_ne c]
  have m : Mid { s with vertices := s.vertices.set i { v with texture := ⟨o.texture.x, v.texture.y⟩ } } := by
    refine ⟨h.toGood.congr (List.length_set ..) hm rfl fun k => by cases k <;> rfl, fun k => ?_, fun k => ?_⟩
    · have := h.has k; cases k <;> exact this
    · have := h.clean k; cases k <;> exact this
  generalize hu : ({ s with vertices := s.vertices.set i { v with texture := ⟨o.texture.x, v.texture.y⟩ } } : State K) = u at hm m tl
  have hui : (u.side k).indices.getLast? = some i := by rw [← hu]; cases k <;> exact hi
  have hl : (marks u k).getLast? = some (some v.forward) := by
    rw [marks_last hui, hm]
    unfold mark
    rw [hv]
    rfl
  have hc : ∀ a ∈ (marks u k).getLast?, Follows a (some v.forward) := fun a ha c => by
    rw [hl, Option.mem_def, Option.some.injEq] at ha
    rw [← ha, c]
    simp
  refine ⟨m.append k _ hc, tl.trans (Tail.append u k _), ?_⟩
  obtain ⟨init, e⟩ := List.getLast?_eq_some_iff.1 hl
  refine ⟨init, some v.forward, ?_⟩
  have : marks (u.appendToMesh k { v with texture := sentinel }) k = marks u k ++ [some v.forward] := by
    unfold marks
    rw [append_side]
    dsimp only
    rw [List.map_append]
    congr 1
    · refine List.map_congr_left fun j hj => ?_
      unfold mark
      rw [append_vertices, List.getElem?_append_left (m.lt hj)]
    · simp [mark, append_vertices]
  show marks (u.appendToMesh k { v with texture := sentinel }) k = _
  rw [this, e, List.append_assoc]
  rfl

theorem endPivot_mid {s s' : State K} (h : Mid s) (k k' : SideId) (hp : Paired s k) (e : endPivot k k' s = some s') : Mid s' ∧ Tail s s' := by
  unfold endPivot at e
  simp only [Option.bind_eq_some_iff, Option.map_eq_some_iff] at e
  obtain ⟨i, hi, v, hv, o, -, rfl⟩ := e
  refine ⟨h.append k _ fun a ha c => ?_, Tail.append s k _⟩
  obtain ⟨init, b, eb⟩ := hp
  have hl : (s.side k).indices.length = init.length + 2 := by
    have := congrArg List.length eb
    unfold marks at this
    rw [List.length_map, List.length_append] at this
    exact this
  have hb : some v.forward = b := by
    unfold secondLast at hi
    split_ifs at hi
    have h1 : (marks s k)[(s.side k).indices.length - 2]? = some (some v.forward) := by
      unfold marks
      rw [List.getElem?_map, hi, Option.map_some]
      unfold mark
      rw [hv]
      rfl
    rw [hl, eb, Nat.add_sub_cancel, List.getElem?_append_right le_rfl, Nat.sub_self] at h1
    exact (Option.some.inj h1).symm
  rw [eb, List.getLast?_append] at ha
  simp only [List.getLast?_cons_cons, List.getLast?_singleton, Option.some_or, Option.mem_def, Option.some.injEq] at ha
  rw [← ha, ← hb, c]
  simp

theorem fanStep_mid {s s' : State K} (h : Mid s) (k k' : SideId) (hk : k' ≠ k) (e : fanStep none k s = some s') :
    Mid s' ∧ Tail s s' ∧ (Paired s k' → Paired s' k') := by
  unfold fanStep at e
  rw [Option.map_eq_some_iff] at e
  obtain ⟨a, ea, rfl⟩ := e
  obtain ⟨ma, ta, sa, v, va⟩ := tryAppend_mid h k ea
  obtain ⟨mb, tb⟩ := advance_mid ma k
  refine ⟨mb, ta.trans tb, fun ⟨init, x, e⟩ => ⟨init, x, ?_⟩⟩
  rw [← e]
  unfold marks
  rw [advance_side_ne _ hk, (sa k').2.2 hk]
  refine List.map_congr_left fun j hj => ?_
  unfold mark
  rw [show (a.advance k).vertices = a.vertices from setSide_vertices _ _ _, va, List.getElem?_append_left (h.lt hj)]

/-- What the buffer of a side has -/
def Buf (s : State K) (k : SideId) : Prop :=
  (s.side k).next = 1 ∨ (s.side k).next = 2 ∧ ∃ i, (s.side k).indices.getLast? = some i ∧ (s.side k).buffer[1]?.map Vertex.position = positionOf s i ∧ ∃ t ∈ s.triangles, t.2.2 = i

theorem prepare_mid {s s' : State K} (h : Mid s) (m : Bool) (k : SideId) (e : prepare m k s = some s') :
    Mid s' ∧ Tail s s' ∧ Buf s' k ∧ s'.vertices = s.vertices ∧ s'.triangles = s.triangles ∧ ∀ k', k' ≠ k → s'.side k' = s.side k' := by
  unfold prepare at e
  dsimp only at e
  cases hi : (s.side k).indices.getLast? with
  | none =>
    have := h.has k
    rw [List.getLast?_eq_none_iff] at hi
    rw [hi] at this
    simp at this
  | some i =>
    rw [hi] at e
    simp only [Option.bind_eq_some_iff] at e
    obtain ⟨v, hv, e⟩ := e
    split_ifs at e with q
    · simp only [Option.bind_eq_some_iff, Option.map_eq_some_iff] at e
      obtain ⟨j, -, w, -, rfl⟩ := e
      obtain ⟨a, b⟩ := setSide_mid h k { s.side k with buffer := [w, v], next := 2 } rfl rfl (by simp)
      refine ⟨a, b, Or.inr ⟨by rw [side_setSide], i, by rw [side_setSide]; exact hi, by unfold positionOf; rw [side_setSide, setSide_vertices, hv]; rfl, ?_⟩, setSide_vertices _ _ _, setSide_triangles _ _ _,
        fun k' hk => side_setSide_ne _ _ hk⟩
      rw [setSide_triangles]
      rcases q.2.2 with ⟨-, t, ht, e⟩ | ⟨-, t, ht, e⟩
      · exact ⟨t, List.mem_of_getElem? ht, e⟩
      · exact ⟨t, List.mem_of_getElem? ht, e⟩
    · rw [Option.some.injEq] at e
      subst e
      obtain ⟨a, b⟩ := setSide_mid h k { s.side k with buffer := [v], next := 1 } rfl rfl (by simp)
      exact ⟨a, b, Or.inl (by rw [side_setSide]), setSide_vertices _ _ _, setSide_triangles _ _ _, fun k' hk => side_setSide_ne _ _ hk⟩

theorem Buf.congr {s s' : State K} {k : SideId} (h : Buf s k) (hs : s'.side k = s.side k) (ht : s'.triangles = s.triangles)
    (hv : ∀ i ∈ (s.side k).indices, s'.vertices[i]? = s.vertices[i]?) : Buf s' k := by
  unfold Buf
  rw [hs, ht]
  rcases h with h | ⟨h, i, a, b, c⟩
  · exact Or.inl h
  · exact Or.inr ⟨h, i, a, by unfold positionOf at b ⊢; rw [hv i (List.mem_of_getLast? a)]; exact b, c⟩

theorem triangulate_mid {s s' : State K} (h : Mid s) (hb : ∀ k, Buf s k) (w : Bool) (e : triangulate none w s = some s') : Mid s' ∧ Tail s s' ∧ ∀ k, Buf s' k := by
  unfold triangulate at e
  dsimp only at e
  by_cases q : s.left.buffer.length - s.left.next + 1 < 2 ∧ s.right.buffer.length - s.right.next + 1 < 2
  · rw [if_pos q, Option.some.injEq] at e
    subst e
    exact ⟨h, Tail.refl _, hb⟩
  rw [if_neg q] at e
  simp only [Option.bind_eq_some_iff] at e
  obtain ⟨a, ea, b, ⟨c, ec, d, ed, eb⟩, f, ef, keep, -, g, eg, e⟩ := e
  generalize hp : (if s.right.buffer.length - s.right.next + 1 < s.left.buffer.length - s.left.next + 1 then SideId.right else SideId.left) = pivot at ec eb
  generalize ho : (if s.right.buffer.length - s.right.next + 1 < s.left.buffer.length - s.left.next + 1 then SideId.left else SideId.right) = outer at ec ed eb
  have hne : pivot ≠ outer := by
    rw [← hp, ← ho]
    split_ifs <;> simp
  obtain ⟨ma, ta⟩ := times_mid Mid (fun _ _ => quad_mid) _ _ _ h ea
  have mb : Mid b ∧ Tail a b := by
    split_ifs at ec eb with x
    · obtain ⟨mc, tc, pc⟩ := beginPivot_mid ma _ _ ec
      obtain ⟨⟨md, pd⟩, td⟩ := times_mid (fun s => Mid s ∧ Paired s pivot) (fun s s' p e => by
        obtain ⟨m, t, p'⟩ := fanStep_mid p.1 outer pivot hne e
        exact ⟨⟨m, p' p.2⟩, t⟩) _ _ _ ⟨mc, pc⟩ ed
      obtain ⟨me, te⟩ := endPivot_mid md _ _ pd eb
      exact ⟨me, (tc.trans td).trans te⟩
    · rw [Option.some.injEq] at ec eb
      subst ec eb
      exact times_mid Mid (fun s s' p e => by
        obtain ⟨m, t, -⟩ := fanStep_mid p outer pivot hne e
        exact ⟨m, t⟩) _ _ _ ma ed
  obtain ⟨mf, tf⟩ := times_mid Mid (fun _ _ => quad_mid) _ _ _ mb.1 ef
  obtain ⟨mg, tg, bg, -⟩ := prepare_mid mf keep .left eg
  obtain ⟨mh, th, bh, vh, trh, sh⟩ := prepare_mid mg keep .right e
  refine ⟨mh, (((ta.trans mb.2).trans tf).trans tg).trans th, fun k => ?_⟩
  cases k
  · exact bg.congr (sh .left (by simp)) trh fun i _ => by rw [vh]
  · exact bh

theorem simplifySide_mid (hypot : K → K → K) (threshold limit : K) (k : SideId) {s s' : State K} (h : Mid s) (hb : ∀ k, Buf s k)
    (e : simplifySide hypot threshold limit k s = some s') : Mid s' ∧ Tail s s' ∧ ∀ k', Buf s' k' := by
  unfold simplifySide at e
  dsimp only at e
  split_ifs at e with q1 q2 q3
  · rw [Option.some.injEq] at e; subst e; exact ⟨h, Tail.refl _, hb⟩
  · rw [Option.some.injEq] at e; subst e; exact ⟨h, Tail.refl _, hb⟩
  · obtain ⟨b0, b1, b2, rest, hbuf⟩ : ∃ b0 b1 b2 rest, (s.side k).buffer = b0 :: b1 :: b2 :: rest := by
      match hl : (s.side k).buffer with
      | [] => simp [hl] at q1
      | [_] => simp [hl] at q1
      | [_, _] => simp [hl] at q1
      | a :: b :: c :: d => exact ⟨a, b, c, d, rfl⟩
    obtain ⟨r, hr, sub⟩ := keptOf_sublist hypot threshold limit (s.side k) b0 (b1 :: b2 :: rest) hbuf (by simp)
    rw [hr] at e
    simp only [Option.bind_eq_some_iff] at e
    obtain ⟨v, hv, i, hi, w, hw, e⟩ := e
    have clean : ∀ x ∈ b2 :: rest, x.forward ≠ .front := fun x hx => h.clean k x (by rw [hbuf, q3]; exact hx)
    rcases hb k with c | ⟨-, i', hi', hbi, ht⟩
    · omega
    rw [hi, Option.some.injEq] at hi'
    subst hi'
    have hwb : b1.position = w.position := by
      unfold positionOf at hbi
      rw [hbuf, hw] at hbi
      exact Option.some.inj hbi
    match r, hv with
    | r0 :: r', hv =>
    have hv : r0 = v := Option.some.inj hv
    subst hv
    split_ifs at e with q4
    · rw [Option.some.injEq] at e
      subst e
      obtain ⟨a, b⟩ := setSide_mid h k { s.side k with buffer := b0 :: r0 :: r' } rfl rfl (by
        dsimp only
        rw [q3]
        exact fun x hx => clean x (sub.tail.subset hx))
      refine ⟨a, b, side_cases _ k (Or.inr ⟨by rw [side_setSide]; exact q3, i, by rw [side_setSide]; exact hi, ?_, by rw [setSide_triangles]; exact ht⟩) fun k' hk =>
        (hb k').congr (side_setSide_ne _ _ hk) (setSide_triangles _ _ _) fun i _ => by rw [setSide_vertices]⟩
      unfold positionOf
      rw [side_setSide, setSide_vertices, hw]
      exact congrArg some q4
    · have sub' : (r0 :: r').Sublist (b2 :: rest) := by
        cases sub with
        | cons _ x => exact x
        | cons_cons _ x => exact absurd hwb q4
      rw [Option.map_eq_some_iff] at e
      obtain ⟨a, -, e⟩ := e
      split_ifs at e with q5
      · subst e
        have m : Mid { s with vertices := s.vertices.set i r0 } := by
          refine ⟨h.toGood.set hi r0 (clean r0 (sub'.subset (by simp))), fun k => ?_, fun k => ?_⟩
          · have := h.has k; cases k <;> exact this
          · have := h.clean k; cases k <;> exact this
        have tl := Tail.set hi r0 hw (Or.inr ht)
        obtain ⟨a, b⟩ := setSide_mid m k { s.side k with buffer := b0 :: r0 :: r', simplified := (s.side k).simplified ++ [w.position] } (by cases k <;> rfl) (by cases k <;> rfl) (by
          dsimp only
          rw [q3]
          exact fun x hx => clean x (sub.tail.subset hx))
        refine ⟨a, tl.trans b, side_cases _ k (Or.inr ⟨by rw [side_setSide]; exact q3, i, by rw [side_setSide]; exact hi, ?_, by rw [setSide_triangles]; exact ht⟩) fun k' hk =>
          (hb k').congr ?_ (setSide_triangles _ _ _) fun j hj => ?_⟩
        · unfold positionOf
          rw [side_setSide, setSide_vertices]
          show _ = (s.vertices.set i r0)[i]?.map _
          rw [List.getElem?_set_self (List.getElem?_eq_some_iff.1 hw).1]
          rfl
        · rw [side_setSide_ne _ _ hk]; cases k' <;> rfl
        · rw [setSide_vertices]
          exact (marks_other h.toGood hk (List.mem_of_getLast? hi) r0).2 j hj
      · subst e
        obtain ⟨a, b⟩ := setSide_mid h k { s.side k with buffer := (s.side k).buffer.take 2 ++ (b0 :: r0 :: r').drop 1 } rfl rfl (by
          dsimp only
          rw [q3, hbuf]
          exact fun x hx => clean x (sub'.subset hx))
        refine ⟨a, b, side_cases _ k (Or.inr ⟨by rw [side_setSide]; exact q3, i, by rw [side_setSide]; exact hi, ?_, by rw [setSide_triangles]; exact ht⟩) fun k' hk =>
          (hb k').congr (side_setSide_ne _ _ hk) (setSide_triangles _ _ _) fun i _ => by rw [setSide_vertices]⟩
        unfold positionOf
        rw [side_setSide, setSide_vertices, hw]
        dsimp only
        rw [hbuf]
        exact congrArg some hwb
  · obtain ⟨b0, b1, b2, rest, hbuf⟩ : ∃ b0 b1 b2 rest, (s.side k).buffer = b0 :: b1 :: b2 :: rest := by
      match hl : (s.side k).buffer with
      | [] => simp [hl] at q1
      | [_] => simp [hl] at q1
      | [_, _] => simp [hl] at q1
      | a :: b :: c :: d => exact ⟨a, b, c, d, rfl⟩
    obtain ⟨r, hr, sub⟩ := keptOf_sublist hypot threshold limit (s.side k) b0 (b1 :: b2 :: rest) hbuf (by simp)
    have q : (s.side k).next = 1 := by
      rcases hb k with c | c
      · exact c
      · exact absurd c.1 q3
    rw [hr, Option.some.injEq] at e
    subst e
    obtain ⟨a, b⟩ := setSide_mid h k { s.side k with buffer := b0 :: r } rfl rfl (by
      dsimp only
      rw [q]
      exact fun x hx => h.clean k x (by rw [hbuf, q]; exact sub.subset hx))
    exact ⟨a, b, side_cases _ k (Or.inl (by rw [side_setSide]; exact q)) fun k' hk =>
      (hb k').congr (side_setSide_ne _ _ hk) (setSide_triangles _ _ _) fun i _ => by rw [setSide_vertices]⟩

theorem clear_mid {s : State K} (h : Mid s) (hb : ∀ k, Buf s k) (m : ℕ) (k : SideId) :
    Mid (clearSimplified m k s) ∧ Tail s (clearSimplified m k s) ∧ ∀ k', Buf (clearSimplified m k s) k' := by
  unfold clearSimplified
  split_ifs
  · exact ⟨h, Tail.refl _, hb⟩
  · obtain ⟨a, b⟩ := setSide_mid h k { s.side k with simplified := [] } rfl rfl (h.clean k)
    refine ⟨a, b, side_cases _ k ?_ fun k' hk => (hb k').congr (side_setSide_ne _ _ hk) (setSide_triangles _ _ _) fun i _ => by rw [setSide_vertices]⟩
    have := hb k
    unfold Buf positionOf at this ⊢
    rw [side_setSide, setSide_triangles, setSide_vertices]
    exact this

/-- What a side is like between calls: without vertices after a break, or with some. -/
def Resting (s : State K) (k : SideId) : Prop :=
  ((s.side k).buffer = [] ∧ (s.side k).next = 0 ∧ (s.side k).indices.length = (s.side k).partition ∧ ∀ a ∈ (marks s k).getLast?, a ≠ some .interior) ∨
    (s.side k).partition < (s.side k).indices.length ∧ Buf s k

/-- What holds between calls -/
structure Fine (s : State K) : Prop extends Good s where
  clean : ∀ k, ∀ v ∈ (s.side k).buffer.drop (s.side k).next, v.forward ≠ .front
  rest : ∀ k, Resting s k

theorem process_fine (hypot : K → K → K) (w : Bool) (threshold width height : K) {s s' : State K} (h : Fine s)
    (e : process hypot none w threshold width height s = some s') : Fine s' ∧ Tail s s' := by
  unfold process at e
  by_cases q : s.left.buffer = [] ∨ s.right.buffer = []
  · rw [if_pos q, Option.some.injEq] at e
    subst e
    exact ⟨h, Tail.refl _⟩
  rw [if_neg q] at e
  simp only [Option.bind_eq_some_iff, Option.map_eq_some_iff] at e
  obtain ⟨a, ea, b, eb, c, ec, rfl⟩ := e
  have hr : ∀ k, (s.side k).partition < (s.side k).indices.length ∧ Buf s k := fun k => by
    rcases h.rest k with r | r
    · cases k
      · exact absurd (Or.inl r.1) q
      · exact absurd (Or.inr r.1) q
    · exact r
  have m : Mid s := ⟨h.toGood, fun k => (hr k).1, h.clean⟩
  obtain ⟨ma, ta, ba⟩ := simplifySide_mid hypot _ _ .left m (fun k => (hr k).2) ea
  obtain ⟨mb, tb, bb⟩ := simplifySide_mid hypot _ _ .right ma ba eb
  obtain ⟨mc, tc, bc⟩ := triangulate_mid mb bb w ec
  obtain ⟨md, td, bd⟩ := clear_mid mc bc b.left.indices.length .left
  obtain ⟨me, te, be⟩ := clear_mid md bd b.right.indices.length .right
  exact ⟨⟨me.toGood, me.clean, fun k => Or.inr ⟨me.has k, be k⟩⟩, (((ta.trans tb).trans tc).trans td).trans te⟩

theorem labelLast_good {s s' : State K} (h : Good s) (k : SideId) (hr : (s.side k).indices.length ≤ (s.side k).partition → ∀ a ∈ (marks s k).getLast?, a ≠ some .interior)
    (e : labelLast k s = some s') : Good s' ∧ Tail s s' ∧ (∀ a ∈ (marks s' k).getLast?, a ≠ some .interior) ∧ (∀ k', k' ≠ k → marks s' k' = marks s k') ∧
      ∀ k', s'.side k' = s.side k' := by
  unfold labelLast at e
  dsimp only at e
  split_ifs at e with q
  · rw [Option.some.injEq] at e
    subst e
    exact ⟨h, Tail.refl _, hr q, fun _ _ => rfl, fun _ => rfl⟩
  · simp only [Option.bind_eq_some_iff, Option.map_eq_some_iff] at e
    obtain ⟨i, hi, v, hv, rfl⟩ := e
    have es : ∀ k', ({ s with vertices := s.vertices.set i { v with forward := .back } } : State K).side k' = s.side k' := fun k' => by cases k' <;> rfl
    refine ⟨h.set hi _ (by simp), Tail.set hi _ hv (Or.inl rfl), ?_, fun k' hk => (marks_other h hk (List.mem_of_getLast? hi) _).1, es⟩
    rw [marks_last (by rw [es]; exact hi)]
    intro a ha
    rw [Option.mem_def, Option.some.injEq] at ha
    rw [← ha]
    unfold mark
    show (s.vertices.set i _)[i]?.map _ ≠ _
    rw [List.getElem?_set_self (List.getElem?_eq_some_iff.1 hv).1]
    simp

theorem addBreak_fine {s s' : State K} (h : Fine s) (e : addBreak s = some s') : Fine s' ∧ Tail s s' := by
  unfold addBreak at e
  simp only [Option.bind_eq_some_iff, Option.map_eq_some_iff] at e
  obtain ⟨a, ea, b, eb, rfl⟩ := e
  have hr : ∀ k, (s.side k).indices.length ≤ (s.side k).partition → ∀ a ∈ (marks s k).getLast?, a ≠ some .interior := fun k c => by
    rcases h.rest k with r | r
    · exact r.2.2.2
    · omega
  obtain ⟨ga, ta, la, oa, sa⟩ := labelLast_good h.toGood .left (hr .left) ea
  obtain ⟨gb, tb, lb, ob, sb⟩ := labelLast_good ga .right (by rw [sa, oa .right (by simp)]; exact hr .right) eb
  have ei : ∀ k, (({ b with left := { b.left with partition := b.left.indices.length, buffer := [], next := 0, simplified := [] },
                            right := { b.right with partition := b.right.indices.length, buffer := [], next := 0, simplified := [] } } : State K).side k).indices = (b.side k).indices :=
    fun k => by cases k <;> rfl
  refine ⟨⟨gb.congr rfl (fun _ => rfl) rfl ei, fun k => ?_, fun k => Or.inl ?_⟩, (ta.trans tb).trans (Tail.of_eq rfl rfl rfl ei)⟩
  · cases k <;> simp [State.side]
  · cases k
    · refine ⟨rfl, rfl, rfl, ?_⟩
      show ∀ a ∈ (marks b .left).getLast?, a ≠ some .interior
      rw [ob .left (by simp)]
      exact la
    · exact ⟨rfl, rfl, rfl, lb⟩

theorem appendToSide_fine {s s' : State K} (h : Fine s) (k : SideId) (v : Vertex K) (hv : v.forward ≠ .front) (e : s.appendToSide k v = some s') :
    Fine s' ∧ Tail s s' := by
  unfold State.appendToSide at e
  dsimp only at e
  rw [side_setSide] at e
  dsimp only at e
  generalize hu : s.setSide k { s.side k with buffer := (s.side k).buffer ++ [v] } = u at e
  have us : u.side k = { s.side k with buffer := (s.side k).buffer ++ [v] } := by rw [← hu, side_setSide]
  have un : ∀ k', k' ≠ k → u.side k' = s.side k' := fun k' hk => by rw [← hu, side_setSide_ne _ _ hk]
  have uv : u.vertices = s.vertices := by rw [← hu, setSide_vertices]
  have ut : u.triangles = s.triangles := by rw [← hu, setSide_triangles]
  have ei : ∀ k', (u.side k').indices = (s.side k').indices := side_cases _ k (by rw [us]) fun k' hk => by rw [un k' hk]
  have em : ∀ k', marks u k' = marks s k' := fun k' => by
    unfold marks
    rw [ei]
    refine List.map_congr_left fun i _ => ?_
    unfold mark
    rw [uv]
  have uo : u.sideOf = s.sideOf := by rw [← hu, setSide_sideOf]
  have gu : Good u := h.toGood.congr (by rw [uv]) (fun i => by unfold mark; rw [uv]) uo ei
  have tu : Tail s u := Tail.of_eq uv uo ut ei
  split_ifs at e with q
  · obtain ⟨r1, r2, r3, r4⟩ : (s.side k).buffer = [] ∧ (s.side k).next = 0 ∧ (s.side k).indices.length = (s.side k).partition ∧ ∀ a ∈ (marks s k).getLast?, a ≠ some .interior := by
      rcases h.rest k with r | r
      · exact r
      · omega
    rw [r1, r2, List.nil_append, List.getElem?_cons_zero, Option.map_some, Option.some.injEq] at e
    subst e
    have ga := gu.append k { v with forward := .front } fun a ha _ => r4 a (by rw [← em]; exact ha)
    have as := append_side u k { v with forward := .front }
    have an : ∀ k', k' ≠ k → (u.appendToMesh k { v with forward := .front }).side k' = s.side k' := fun k' hk => by rw [append_side_ne u _ hk, un k' hk]
    have ta := tu.trans (Tail.append u k { v with forward := .front })
    have av := append_vertices u k { v with forward := .front }
    have at' := append_triangles u k { v with forward := .front }
    generalize u.appendToMesh k { v with forward := .front } = x at ga as an ta av at' ⊢
    have xi : ∀ k', ((x.setSide k { x.side k with next := (x.side k).next + 1 }).side k').indices = (x.side k').indices :=
      side_cases _ k (by rw [side_setSide]) fun k' hk => by rw [side_setSide_ne _ _ hk]
    refine ⟨⟨ga.congr (by rw [setSide_vertices]) (fun i => by unfold mark; rw [setSide_vertices]) (setSide_sideOf _ _ _) xi, ?_, ?_⟩,
      ta.trans (Tail.of_eq (setSide_vertices _ _ _) (setSide_sideOf _ _ _) (setSide_triangles _ _ _) xi)⟩
    · refine side_cases _ k ?_ fun k' hk => by rw [side_setSide_ne _ _ hk, an k' hk]; exact h.clean k'
      rw [side_setSide, as, us]
      simp [r1, r2]
    · refine side_cases _ k (Or.inr ⟨?_, Or.inl ?_⟩) fun k' hk => ?_
      · rw [side_setSide, as, us]
        simp [q]
      · rw [side_setSide, as, us]
        simp [r2]
      · have low : ∀ i ∈ (s.side k').indices, x.vertices[i]? = s.vertices[i]? := fun i hi => by
          rw [av, uv, List.getElem?_append_left (h.lt hi)]
        have e1 : ((x.setSide k { x.side k with next := (x.side k).next + 1 }).side k') = s.side k' := by rw [side_setSide_ne _ _ hk, an k' hk]
        rcases h.rest k' with ⟨c1, c2, c3, c4⟩ | ⟨c1, c2⟩
        · refine Or.inl ⟨by rw [e1]; exact c1, by rw [e1]; exact c2, by rw [e1]; exact c3, ?_⟩
          have : marks (x.setSide k { x.side k with next := (x.side k).next + 1 }) k' = marks s k' := by
            unfold marks
            rw [e1]
            refine List.map_congr_left fun i hi => ?_
            unfold mark
            rw [setSide_vertices, low i hi]
          rw [this]
          exact c4
        · exact Or.inr ⟨by rw [e1]; exact c1, c2.congr e1 (by rw [setSide_triangles, at', ut]) fun i hi => by rw [setSide_vertices, low i hi]⟩
  · rw [Option.some.injEq] at e
    subst e
    refine ⟨⟨gu, ?_, ?_⟩, tu⟩
    · refine side_cases _ k ?_ fun k' hk => by rw [un k' hk]; exact h.clean k'
      rw [us]
      intro x hx
      dsimp only at hx
      rw [List.drop_append] at hx
      rcases List.mem_append.1 hx with c | c
      · exact h.clean k x c
      · rw [List.mem_singleton.1 (List.mem_of_mem_drop c)]
        exact hv
    · refine side_cases _ k ?_ fun k' hk => ?_
      · rcases h.rest k with ⟨c1, c2, c3, c4⟩ | ⟨c1, c2⟩
        · exact absurd c3 q
        · refine Or.inr ⟨by rw [us]; exact c1, ?_⟩
          unfold Buf positionOf at c2 ⊢
          rw [us, uv, ut]
          rcases c2 with c | ⟨c, i, d1, d2, d3⟩
          · exact Or.inl c
          · refine Or.inr ⟨c, i, d1, ?_, d3⟩
            rw [← d2]
            have hl := h.lt (List.mem_of_getLast? d1)
            rw [List.getElem?_eq_getElem hl, Option.map_some, Option.map_eq_some_iff] at d2
            obtain ⟨y, hy, -⟩ := d2
            dsimp only
            rw [List.getElem?_append_left (List.getElem?_eq_some_iff.1 hy).1]
      · rcases h.rest k' with ⟨c1, c2, c3, c4⟩ | ⟨c1, c2⟩
        · exact Or.inl ⟨by rw [un k' hk]; exact c1, by rw [un k' hk]; exact c2, by rw [un k' hk]; exact c3, by rw [em]; exact c4⟩
        · exact Or.inr ⟨by rw [un k' hk]; exact c1, c2.congr (un k' hk) ut fun i _ => by rw [uv]⟩

theorem step_fine (hypot : K → K → K) {s s' : State K} (h : Fine s) (o : Op K) (ho : Unlabelled o) (e : step hypot s o = some s') : Fine s' ∧ Tail s s' := by
  cases o with
  | append k v => exact appendToSide_fine h k v (by rw [show v.forward = .interior from ho]; simp) e
  | process w t a c => exact process_fine hypot w t a c h e
  | «break» => exact addBreak_fine h e

theorem run_fine (hypot : K → K → K) : ∀ (os : List (Op K)) (s s' : State K), Fine s → (∀ o ∈ os, Unlabelled o) → run hypot s os = some s' → Fine s' ∧ Tail s s' := by
  intro os
  induction os with
  | nil =>
    intro s s' h _ e
    rw [run, Option.some.injEq] at e
    subst e
    exact ⟨h, Tail.refl _⟩
  | cons o os ih =>
    intro s s' h ho e
    rw [run, Option.bind_eq_some_iff] at e
    obtain ⟨a, ea, e⟩ := e
    obtain ⟨fa, ta⟩ := step_fine hypot h o (ho o (List.mem_cons_self ..)) ea
    obtain ⟨fb, tb⟩ := ih a s' fa (fun o' h' => ho o' (List.mem_cons_of_mem _ h')) e
    exact ⟨fb, ta.trans tb⟩

theorem fine_empty : Fine (K := K) ⟨[], [], [], ⟨[], 0, [], 0, []⟩, ⟨[], 0, [], 0, []⟩⟩ := by
  refine ⟨⟨rfl, ?_, ?_, ?_⟩, ?_, ?_⟩
  · intro k i hi; cases k <;> simp [State.side] at hi
  · intro k; cases k <;> simp [State.side]
  · intro k; cases k <;> simp [marks, State.side]
  · intro k v hv; cases k <;> simp [State.side] at hv
  · intro k; refine Or.inl ?_; cases k <;> simp [State.side, marks]

end Verif.Triangulation
