import Verif.Lemmas.StaticRTree
import Verif.Spec.StaticRTree
import Mathlib.Data.List.Flatten

/-!
# C15: queries of a `StaticRTree` visit exactly the intersecting elements
-/

set_option autoImplicit false

namespace Verif.RTree

open F32

/-- The sub-tree of height `h` at index `i` has the leaves `ls`, and the bounds of each of its nodes cover those of its
leaves. -/
def Sub (a : Nodes) (lb : ℕ → Option RectF) : ℕ → ℕ → List ℕ → Prop
  | 0, i, ls => ∃ b, a[i]? = some (some ⟨b, true, ls⟩) ∧ b.Valid ∧
      ∀ l ∈ ls, ∃ r, lb l = some r ∧ b.containsRect r = true
  | h + 1, i, ls => ∃ b cs f, a[i]? = some (some ⟨b, false, cs⟩) ∧ b.Valid ∧ ls = cs.flatMap f ∧
      (∀ c ∈ cs, i < c ∧ Sub a lb h c (f c)) ∧ ∀ l ∈ ls, ∃ r, lb l = some r ∧ b.containsRect r = true

theorem Sub.node {a : Nodes} {lb : ℕ → Option RectF} {h i : ℕ} {ls : List ℕ} (hs : Sub a lb h i ls) :
    ∃ nd, a[i]? = some (some nd) ∧ nd.bounds.Valid ∧
      ∀ l ∈ ls, ∃ r, lb l = some r ∧ nd.bounds.containsRect r = true := by
  cases h with
  | zero => obtain ⟨b, e, v, c⟩ := hs; exact ⟨_, e, v, c⟩
  | succ h => obtain ⟨b, cs, f, e, v, -, -, c⟩ := hs; exact ⟨_, e, v, c⟩

theorem Sub.congr {a a' : Nodes} {lb : ℕ → Option RectF} {h i : ℕ} {ls : List ℕ} (hs : Sub a lb h i ls)
    (ha : ∀ j, i ≤ j → a'[j]? = a[j]?) : Sub a' lb h i ls := by
  induction h generalizing i ls with
  | zero => obtain ⟨b, e, v⟩ := hs; exact ⟨b, by rw [ha i le_rfl, e], v⟩
  | succ h ih =>
    obtain ⟨b, cs, f, e, v, hl, hc, cov⟩ := hs
    exact ⟨b, cs, f, by rw [ha i le_rfl, e], v, hl,
      fun c hcs => ⟨(hc c hcs).1, ih (hc c hcs).2 (fun j hj => ha j (by have := (hc c hcs).1; omega))⟩, cov⟩

/-- A whole level: the leaves of its sub-trees are all leaves, each once. -/
def LevelOk (a : Nodes) (lb : ℕ → Option RectF) (n h off cnt : ℕ) : Prop :=
  ∃ f : ℕ → List ℕ, (∀ i, off ≤ i → i < off + cnt → Sub a lb h i (f i)) ∧
    ((List.range' off cnt).flatMap f).Perm (List.range n)

theorem range'_flatMap_nodes {ns : List Node} (off : ℕ) (g : Node → List ℕ) (f : ℕ → List ℕ)
    (hf : ∀ j (h : j < ns.length), f (off + j) = g ns[j]) :
    (List.range' off ns.length).flatMap f = ns.flatMap g := by
  induction ns generalizing off with
  | nil => rfl
  | cons nd ns ih =>
    rw [List.length_cons, List.range'_succ, List.flatMap_cons, List.flatMap_cons]
    have h0 := hf 0 (by simp)
    rw [Nat.add_zero] at h0
    rw [h0]
    congr 1
    apply ih (off + 1)
    intro j hj
    have := hf (j + 1) (by simpa using hj)
    rw [show off + 1 + j = off + (j + 1) by omega, this]
    rfl

theorem getNode {a a' : Nodes} {p : ℕ} {ns : List Node} (w : Written a a' p ns) {i : ℕ} (h1 : p ≤ i)
    (h2 : i < p + ns.length) : a'[i]? = some (some (ns[i - p]'(by omega))) := by
  have := w.2.1 (i - p) (by omega)
  rwa [show p + (i - p) = i by omega] at this

/-- The deepest level. -/
theorem leafLevel {a a' : Nodes} {lb : ℕ → Option RectF} {n off : ℕ} {ns : List Node} {L : Level}
    (hL : L.leaf = true) (hbnd : ∀ a, L.bnd a = lb) (w : Written a a' off ns) (ok : ∀ nd ∈ ns, NodeOk L a nd)
    (hp : (ns.flatMap Node.children).Perm (List.range n)) : LevelOk a' lb n 0 off ns.length := by
  refine ⟨fun i => if h : i - off < ns.length then (ns[i - off]).children else [], ?_, ?_⟩
  · intro i h1 h2
    have hi : i - off < ns.length := by omega
    simp only [hi, dif_pos]
    obtain ⟨l1, -, l3, l4⟩ := ok _ (List.getElem_mem hi)
    refine ⟨(ns[i - off]).bounds, ?_, l3, ?_⟩
    · rw [getNode w h1 h2, ← hL, ← l1]
    · rw [hbnd] at l4; exact l4
  · rw [range'_flatMap_nodes off Node.children]
    · exact hp
    · intro j hj
      simp [hj]

/-- One more level on top. -/
theorem branchLevel {a a' : Nodes} {lb : ℕ → Option RectF} {n h off off' cnt : ℕ} {ns : List Node} {L : Level}
    (hL : L.leaf = false) (hbnd : L.bnd = branchBounds) (w : Written a a' off' ns) (ok : ∀ nd ∈ ns, NodeOk L a nd)
    (hoff : off' + ns.length = off) (hp : (ns.flatMap Node.children).Perm (List.range' off cnt))
    (prev : LevelOk a lb n h off cnt) : LevelOk a' lb n (h + 1) off' ns.length := by
  obtain ⟨f, hf, pf⟩ := prev
  refine ⟨fun i => if hi : i - off' < ns.length then (ns[i - off']).children.flatMap f else [], ?_, ?_⟩
  · intro i h1 h2
    have hi : i - off' < ns.length := by omega
    simp only [hi, dif_pos]
    have hm := List.getElem_mem hi
    obtain ⟨l1, -, l3, l4⟩ := ok _ hm
    have hin : ∀ c ∈ (ns[i - off']).children, off ≤ c ∧ c < off + cnt := by
      intro c hc
      have := hp.mem_iff.1 (List.mem_flatMap.2 ⟨_, hm, hc⟩)
      rwa [List.mem_range'_1] at this
    refine ⟨(ns[i - off']).bounds, (ns[i - off']).children, f, ?_, l3, rfl, ?_, ?_⟩
    · rw [getNode w h1 h2, ← hL, ← l1]
    · intro c hc
      refine ⟨by have := hin c hc; omega, (hf c (hin c hc).1 (hin c hc).2).congr (fun j hj => ?_)⟩
      have := hin c hc
      exact w.2.2 j (Or.inr (by omega))
    · intro l hl
      obtain ⟨c, hc, hlc⟩ := List.mem_flatMap.1 hl
      obtain ⟨nd, e, -, cov⟩ := (hf c (hin c hc).1 (hin c hc).2).node
      obtain ⟨r, hr, cr⟩ := cov l hlc
      obtain ⟨r', hr', cr'⟩ := l4 c hc
      rw [hbnd, branchBounds, e] at hr'
      simp only [Option.join_some, Option.map_some, Option.some.injEq] at hr'
      rw [← hr'] at cr'
      exact ⟨r, hr, containsRect_trans cr' cr⟩
  · rw [range'_flatMap_nodes off' (fun nd => nd.children.flatMap f), ← List.flatMap_assoc]
    · exact (hp.flatMap_right f).trans pf
    · intro j hj
      simp [hj]

theorem LevelOk.bounds {a : Nodes} {lb : ℕ → Option RectF} {n h off cnt : ℕ} (hl : LevelOk a lb n h off cnt) (c : ℕ)
    (h1 : off ≤ c) (h2 : c < off + cnt) : ∃ r, branchBounds a c = some r ∧ r.Valid := by
  obtain ⟨f, hf, -⟩ := hl
  obtain ⟨nd, e, v, -⟩ := (hf c h1 h2).node
  exact ⟨nd.bounds, by simp [branchBounds, e], v⟩

/-! ## The levels -/

/-- The levels from below: each has the right count and ends where the one below begins. -/
def Chain (B : ℕ) : ℕ × ℕ → List (ℕ × ℕ) → Prop
  | p, [] => p = (0, 1)
  | p, l :: ls => 0 < p.2 ∧ l.2 = ceilDiv p.2 B ∧ l.1 + l.2 = p.1 ∧ Chain B l ls

theorem loadUp_spec {S : Sorts} (hx : ∀ f l, (S.x f l).Perm l) (hy : ∀ f l, (S.y f l).Perm l) {B : ℕ} (hB : 0 < B)
    {lb : ℕ → Option RectF} {n : ℕ} (ls : List (ℕ × ℕ)) :
    ∀ (a : Nodes) (p : ℕ × ℕ) (h : ℕ), Chain B p ls → p.1 + p.2 ≤ a.length → LevelOk a lb n h p.1 p.2 →
      ∃ a', loadUp S B a p ls = some a' ∧ a'.length = a.length ∧ LevelOk a' lb n (h + ls.length) 0 1 := by
  induction ls with
  | nil =>
    intro a p h hc hl ok
    obtain rfl : p = (0, 1) := hc
    exact ⟨a, rfl, rfl, ok⟩
  | cons l ls ih =>
    intro a p h hc hl ok
    obtain ⟨c1, c2, c3, c4⟩ := hc
    obtain ⟨a1, ns, e, w, nl, nok, fl⟩ :=
      load_spec (L := ⟨l.1, l.2, p.1, p.2, false, branchBounds, S.x, S.y, B⟩) (a := a)
        ⟨fun c h1 h2 => ok.bounds c h1 h2, fun a' _ ha c h1 _ => by
          show branchBounds a' c = branchBounds a c
          unfold branchBounds
          rw [ha c (by simp only at h1 ⊢; omega)]⟩ hB (by simp only; omega) c1 c2 hx hy
    simp only at nl fl w
    have lv := branchLevel (h := h) rfl rfl w nok (by rw [nl]; exact c3) fl ok
    rw [nl] at lv
    obtain ⟨a2, e2, l2, ok2⟩ := ih a1 l (h + 1) c4 (by rw [w.1]; omega) lv
    refine ⟨a2, ?_, l2.trans w.1, ?_⟩
    · simp only [loadUp, e, e2]
    · rw [List.length_cons, show h + (ls.length + 1) = h + 1 + ls.length by omega]
      exact ok2

theorem levelCounts_spec {B : ℕ} (hB : 2 ≤ B) (fuel : ℕ) : ∀ n, n ≤ fuel → 0 < n →
    ∃ l, levelCounts B fuel n = some l ∧ (1 < n → l ≠ []) := by
  induction fuel with
  | zero => intro n h1 h2; omega
  | succ fuel ih =>
    intro n h1 h2
    unfold levelCounts
    by_cases h : n > 1
    · have := ceilDiv_lt hB h
      obtain ⟨l, e, -⟩ := ih (ceilDiv n B) (by omega) (ceilDiv_pos (by omega) h2)
      rw [if_pos h, e]
      exact ⟨_, rfl, by simp⟩
    · rw [if_neg h]
      exact ⟨_, rfl, fun h' => absurd h' h⟩

theorem offsetsFrom_append (acc : ℕ) (l m : List ℕ) :
    offsetsFrom acc (l ++ m) = offsetsFrom acc l ++ offsetsFrom (acc + l.sum) m := by
  induction l generalizing acc with
  | nil => simp [offsetsFrom]
  | cons c cs ih => simp [offsetsFrom, ih, Nat.add_assoc]

theorem offsetsFrom_length (acc : ℕ) (l : List ℕ) : (offsetsFrom acc l).length = l.length := by
  induction l generalizing acc with
  | nil => rfl
  | cons c cs ih => simp [offsetsFrom, ih]

/-- The offset and count of the levels, from below, when the counts from below are `l`. -/
def pairs : List ℕ → List (ℕ × ℕ)
  | [] => []
  | c :: cs => (cs.sum, c) :: pairs cs

theorem zip_reverse (l : List ℕ) : ((offsetsFrom 0 l.reverse).zip l.reverse).reverse = pairs l := by
  induction l with
  | nil => rfl
  | cons c cs ih =>
    rw [List.reverse_cons, offsetsFrom_append, List.zip_append (by rw [offsetsFrom_length]), List.reverse_append, ih]
    simp [offsetsFrom, pairs]

/-- The counts of the levels above a level of `n` nodes form a chain ending at the root. -/
theorem chain_pairs {B : ℕ} (hB : 2 ≤ B) (fuel : ℕ) : ∀ n l, 0 < n → levelCounts B fuel n = some l →
    Chain B (l.sum, n) (pairs l) := by
  induction fuel with
  | zero =>
    intro n l hn e
    unfold levelCounts at e
    by_cases h : n > 1
    · rw [if_pos h] at e; exact absurd e (by simp)
    · rw [if_neg h] at e
      obtain rfl := Option.some.inj e
      obtain rfl : n = 1 := by omega
      rfl
  | succ fuel ih =>
    intro n l hn e
    unfold levelCounts at e
    by_cases h : n > 1
    · rw [if_pos h] at e
      obtain ⟨l', e', rfl⟩ := Option.map_eq_some_iff.1 e
      have := ih _ l' (ceilDiv_pos (by omega) hn) e'
      refine ⟨hn, rfl, ?_, this⟩
      simp [Nat.add_comm]
    · rw [if_neg h] at e
      obtain rfl := Option.some.inj e
      obtain rfl : n = 1 := by omega
      rfl

theorem chain_length {B : ℕ} (hB : 0 < B) (ls : List (ℕ × ℕ)) : ∀ p, Chain B p ls → ls.length ≤ p.1 := by
  induction ls with
  | nil => intro p _; exact Nat.zero_le _
  | cons l ls ih =>
    intro p ⟨c1, c2, c3, c4⟩
    have := ih l c4
    have := ceilDiv_pos hB c1
    rw [List.length_cons]
    omega

/-- The levels of a tree of `n` elements. -/
theorem counts_spec {n B : ℕ} (hB : 2 ≤ B) (hn : 0 < n) :
    ∃ counts leaf rest, countsAtDepth n B = some counts ∧
      ((offsetsFrom 0 counts).zip counts).reverse = leaf :: rest ∧ leaf.2 = ceilDiv n B ∧ Chain B leaf rest := by
  unfold countsAtDepth
  by_cases h : n ≤ B
  · rw [if_pos h]
    refine ⟨[1], (0, 1), [], rfl, rfl, ?_, rfl⟩
    have h1 := ceilDiv_pos (b := B) (by omega) hn
    have h2 := (ceilDiv_le_iff (n := n) (b := B) (m := 1) (by omega)).2 (by omega)
    simp only; omega
  · rw [if_neg h]
    obtain ⟨l, e, ne⟩ := levelCounts_spec hB n n le_rfl hn
    have ch := chain_pairs hB n n l hn e
    rw [e]
    cases l with
    | nil => exact absurd rfl (ne (by omega))
    | cons c cs =>
      obtain ⟨-, c2, -, c4⟩ := ch
      exact ⟨_, (cs.sum, c), pairs cs, rfl, zip_reverse _, c2, c4⟩

/-! ## Construction -/

theorem create_spec {T : Type} {S : Sorts} (hx : ∀ f l, (S.x f l).Perm l) (hy : ∀ f l, (S.y f l).Perm l) {B : ℕ}
    (hB : 2 ≤ B) (elements : List T) (bf : T → RectF) (hne : elements ≠ []) (hlt : elements.length < 4294967296)
    (hv : ∀ e ∈ elements, (bf e).Valid) :
    ∃ t h ls, create S B elements bf = some t ∧ t.elements = elements ∧ t.bf = bf ∧ h < t.nodes.length ∧
      Sub t.nodes (leafBounds elements bf) h 0 ls ∧ ls.Perm (List.range elements.length) := by
  have hpos : 0 < elements.length := List.length_pos_iff.2 hne
  obtain ⟨counts, leaf, rest, e1, e2, e3, ch⟩ := counts_spec (n := elements.length) hB hpos
  have hB0 : 0 < B := by omega
  obtain ⟨a1, ns, e, w, nl, nok, fl⟩ :=
    load_spec (L := ⟨leaf.1, leaf.2, 0, elements.length, true, fun _ => leafBounds elements bf, S.x, S.y, B⟩)
      (a := List.replicate (leaf.1 + leaf.2) none)
      ⟨fun c _ h2 => by
        have hc : c < elements.length := by simpa using h2
        exact ⟨bf elements[c], by simp [leafBounds, hc], hv _ (List.getElem_mem hc)⟩,
        fun _ _ _ _ _ _ => rfl⟩ hB0 (by simp) hpos e3 hx hy
  simp only at nl fl w
  rw [← List.range_eq_range'] at fl
  have lv := leafLevel (lb := leafBounds elements bf) rfl (fun _ => rfl) w nok fl
  rw [nl] at lv
  obtain ⟨a2, e4, l2, ⟨f, hf, pf⟩⟩ := loadUp_spec hx hy hB0 rest a1 leaf 0 ch (by rw [w.1]; simp) lv
  refine ⟨⟨a2, elements, bf⟩, 0 + rest.length, f 0, ?_, rfl, rfl, ?_, hf 0 le_rfl (by omega), by simpa using pf⟩
  · unfold create initTree
    rw [if_pos (by omega), if_neg (by simpa using hne), Nat.mod_eq_of_lt hlt]
    simp only [e1, e2, e, e4, Option.map_some]
  · have := chain_length hB0 rest leaf ch
    have := ceilDiv_pos hB0 hpos
    simp only [l2, w.1, List.length_replicate]
    omega

/-! ## Queries -/

/-- As `showUntilStop`, and whether the visitor wants to go on. -/
def runB {T σ : Type} (visitor : σ → T → σ × Bool) : List T → σ → σ × Bool
  | [], s => (s, true)
  | e :: es, s => if (visitor s e).2 then runB visitor es (visitor s e).1 else ((visitor s e).1, false)

theorem runB_fst {T σ : Type} (visitor : σ → T → σ × Bool) (l : List T) (s : σ) :
    (runB visitor l s).1 = showUntilStop visitor l s := by
  induction l generalizing s with
  | nil => rfl
  | cons e es ih =>
    unfold runB showUntilStop
    split
    · exact ih _
    · rfl

theorem runB_append {T σ : Type} (visitor : σ → T → σ × Bool) (l m : List T) (s : σ) :
    runB visitor (l ++ m) s =
      if (runB visitor l s).2 then runB visitor m (runB visitor l s).1 else ((runB visitor l s).1, false) := by
  induction l generalizing s with
  | nil => simp [runB]
  | cons e es ih =>
    rw [List.cons_append]
    simp only [runB]
    split
    · exact ih _
    · simp

/-- The elements of some leaves that meet the region. -/
def hits {T : Type} (t : Tree T) (q : RectF) (ls : List ℕ) : List T :=
  (ls.filterMap (fun l => t.elements[l]?)).filter (fun e => (t.bf e).intersects q)

theorem hits_append {T : Type} (t : Tree T) (q : RectF) (l m : List ℕ) :
    hits t q (l ++ m) = hits t q l ++ hits t q m := by simp [hits]

theorem visitLeaves_spec {T σ : Type} (t : Tree T) (q : RectF) (visitor : σ → T → σ × Bool) (ls : List ℕ)
    (h : ∀ l ∈ ls, ∃ r, leafBounds t.elements t.bf l = some r) (s : σ) :
    visitLeaves t q visitor ls s = some (runB visitor (hits t q ls) s) := by
  induction ls generalizing s with
  | nil => rfl
  | cons l ls ih =>
    obtain ⟨r, hr⟩ := h l (by simp)
    obtain ⟨e, he, -⟩ := Option.map_eq_some_iff.1 hr
    have ih := fun s => ih (fun x hx => h x (by simp [hx])) s
    unfold visitLeaves
    by_cases hi : (t.bf e).intersects q = true
    · have hh : hits t q (l :: ls) = e :: hits t q ls := by
        unfold hits; simp [he, hi]
      simp only [he, hi, if_true, hh, runB]
      split
      · exact ih _
      · rfl
    · have hh : hits t q (l :: ls) = hits t q ls := by
        unfold hits; simp [he, hi]
      simp only [he, hi, hh]
      exact ih s

/-- A sub-tree whose bounds do not meet the region has no hit. -/
theorem hits_pruned {T : Type} {t : Tree T} {q b : RectF} {ls : List ℕ} (hb : b.intersects q ≠ true)
    (h : ∀ l ∈ ls, ∃ r, leafBounds t.elements t.bf l = some r ∧ b.containsRect r = true) : hits t q ls = [] := by
  unfold hits
  rw [List.filter_eq_nil_iff]
  intro e he hi
  obtain ⟨l, hl, hle⟩ := List.mem_filterMap.1 he
  obtain ⟨r, hr, hc⟩ := h l hl
  simp only [leafBounds, hle, Option.map_some, Option.some.injEq] at hr
  rw [← hr] at hc
  exact hb (intersects_mono hc hi)

theorem visitSubTree_spec {T σ : Type} (t : Tree T) (q : RectF) (visitor : σ → T → σ × Bool) (h : ℕ) :
    ∀ (fuel i : ℕ) (ls : List ℕ) (s : σ), h < fuel → Sub t.nodes (leafBounds t.elements t.bf) h i ls →
      visitSubTree t q visitor fuel i s = some (runB visitor (hits t q ls) s) := by
  induction h with
  | zero =>
    intro fuel i ls s hf hs
    obtain ⟨b, e, v, cov⟩ := hs
    obtain ⟨fuel, rfl⟩ : ∃ k, fuel = k + 1 := ⟨fuel - 1, by omega⟩
    unfold visitSubTree
    simp only [e, Option.join_some, if_true]
    exact visitLeaves_spec t q visitor ls (fun l hl => (cov l hl).imp fun _ h => h.1) s
  | succ h ih =>
    intro fuel i ls s hf hs
    obtain ⟨b, cs, f, e, v, rfl, hc, cov⟩ := hs
    obtain ⟨fuel, rfl⟩ : ∃ k, fuel = k + 1 := ⟨fuel - 1, by omega⟩
    unfold visitSubTree
    simp only [e, Option.join_some, Bool.false_eq_true, if_false]
    clear e cov
    induction cs generalizing s with
    | nil => rfl
    | cons c cs ihc =>
      have ihc := fun s => ihc s (fun x hx => hc x (by simp [hx]))
      obtain ⟨nd, en, -, ncov⟩ := (hc c (by simp)).2.node
      rw [List.flatMap_cons, hits_append]
      unfold visitBranches
      simp only [en, Option.join_some]
      by_cases hi : nd.bounds.intersects q = true
      · rw [if_pos hi, ih fuel c (f c) s (by omega) (hc c (by simp)).2, runB_append]
        simp only
        split
        · exact ihc _
        · rfl
      · rw [if_neg hi, hits_pruned hi ncov, List.nil_append]
        exact ihc s

theorem range_filterMap {T : Type} (l : List T) : (List.range l.length).filterMap (fun i => l[i]?) = l := by
  induction l using List.reverseRecOn with
  | nil => rfl
  | append_singleton l x ih =>
    rw [List.length_append, List.length_singleton, List.range_succ, List.filterMap_append]
    have : (List.range l.length).filterMap (fun i => (l ++ [x])[i]?) = l := by
      conv_rhs => rw [← ih]
      apply List.filterMap_congr
      intro i hi
      rw [List.getElem?_append_left (List.mem_range.1 hi)]
    rw [this]
    simp

/-- C15: for any sorting routine, branching factor of at least 2 and non-empty list of fewer than 2^32 elements with
bounds without NaN, the construction succeeds (no `CHECK` or `DCHECK` fails, no access is out of range), and for
every region, a query shows each element whose bounds intersect the region exactly once, and no other one, to the
visitor, until the visitor asks to stop. -/
theorem C15_query_partial {T : Type} (S : Sorts) (hx : ∀ f l, (S.x f l).Perm l) (hy : ∀ f l, (S.y f l).Perm l) (B : ℕ)
    (hB : 2 ≤ B) (elements : List T) (bf : T → RectF) (hne : elements ≠ []) (hlt : elements.length < 2 ^ 32)
    (hv : ∀ e ∈ elements, (bf e).Valid) :
    ∃ t, create S B elements bf = some t ∧ ∀ q : RectF, QueryOk elements bf q t := by
  obtain ⟨t, h, ls, e, te, tb, hl, hs, hp⟩ := create_spec hx hy hB elements bf hne (by norm_num at hlt; exact hlt) hv
  refine ⟨t, e, fun q => ⟨hits t q ls, ?_, fun σ visitor s => ?_⟩⟩
  · unfold hits
    rw [te, tb]
    have h1 := (hp.filterMap (fun l => elements[l]?)).filter (fun e => (bf e).intersects q)
    refine h1.trans (List.Perm.of_eq ?_)
    congr 1
    exact range_filterMap elements
  · rw [← te, ← tb] at hs
    have hv := visitSubTree_spec t q visitor h t.nodes.length 0 ls s hl hs
    obtain ⟨nd, en, -, cov⟩ := hs.node
    unfold visit
    simp only [en, Option.join_some, hv, Option.map_some, runB_fst]
    by_cases hi : nd.bounds.intersects q = true
    · rw [if_pos hi]
    · rw [if_neg hi, hits_pruned hi cov]
      rfl

/-- The square of side 1/2 at `(k, k)`. -/
def exampleBounds (k : ℕ) : RectF :=
  ⟨ofInt k, ofInt k, add (ofInt k) RectF.half, add (ofInt k) RectF.half⟩

/-- The order of the elements is kept by the sorting. -/
def exampleSorts : Sorts := ⟨fun _ l => l, fun _ l => l⟩

/-- Five elements and a branching factor of 2 satisfy the hypotheses of `C15_query_partial`. -/
example : (2 : ℕ) ≤ 2 ∧ [0, 1, 2, 3, 4] ≠ [] ∧ [0, 1, 2, 3, 4].length < 2 ^ 32 ∧
    ∀ e ∈ [0, 1, 2, 3, 4], (exampleBounds e).Valid := by
  refine ⟨by decide, by decide, by decide, ?_⟩
  unfold RectF.Valid
  decide +kernel

/-- They make a tree of three levels; the query of a region visits three of them, and a visitor that asks to stop at
the second one sees two. -/
example : ((create exampleSorts 2 [0, 1, 2, 3, 4] exampleBounds).map fun t =>
    (t.nodes.length, visit t ⟨ofInt 1, ofInt 0, ofInt 3, ofInt 9⟩ (fun s e => (s ++ [e], true)) [],
      visit t ⟨ofInt 1, ofInt 0, ofInt 3, ofInt 9⟩ (fun s e => (s ++ [e], e != 2)) [])) =
    some (6, some [1, 2, 3], some [1, 2]) := by decide +kernel

/-- C15, the limit: the constructor accepts 2^32 elements (it `CHECK`-fails only above), but the number of elements is
then 0 as a `uint32_t`, which the loading of the first level excludes by a `DCHECK`; without it no element would be in
the tree. -/
theorem C15_limit_counterexample {T : Type} (S : Sorts) (B : ℕ) (hB : 2 ≤ B) (elements : List T) (bf : T → RectF)
    (h : elements.length = 2 ^ 32) : create S B elements bf = none := by
  have h' : elements.length = 4294967296 := by norm_num at h; exact h
  have hne : elements ≠ [] := by
    intro hn
    rw [hn] at h'
    simp at h'
  unfold create initTree
  rw [if_pos (by omega), if_neg (by simpa using hne), h', Nat.mod_self]
  have : countsAtDepth 0 B = some [1] := by unfold countsAtDepth; rw [if_pos (by omega)]
  simp only [this, offsetsFrom, List.zip_cons_cons, List.zip_nil_right, List.reverse_cons, List.reverse_nil,
    List.nil_append]
  unfold Level.load
  rw [if_neg (by simp)]

/-- C15, the empty tree: it can be constructed, but a query of it reads the first of no nodes. -/
theorem C15_empty_counterexample {T : Type} (S : Sorts) (B : ℕ) (bf : T → RectF) :
    create S B [] bf = some ⟨[], [], bf⟩ ∧
    ∀ (q : RectF) (σ : Type) (visitor : σ → T → σ × Bool) (s : σ), visit ⟨[], [], bf⟩ q visitor s = none :=
  ⟨by simp [create, initTree], fun _ _ _ _ => rfl⟩

end Verif.RTree
