import Verif.Model.StaticRTree
import Verif.Props.Rect
import Mathlib.Data.List.Perm.Basic
import Mathlib.Data.List.Range
import Mathlib.Data.Nat.Sqrt

/-!
# Lemmas on the construction of a `StaticRTree`
-/

set_option autoImplicit false

namespace Verif.RTree

open F32

/-! ## Arithmetic -/

theorem ceilDiv_le_iff {n b m : ℕ} (hb : 0 < b) : ceilDiv n b ≤ m ↔ n ≤ m * b := by
  unfold ceilDiv
  rw [Nat.div_le_iff_le_mul_add_pred hb, Nat.mul_comm]
  omega

theorem lt_ceilDiv_iff {n b m : ℕ} (hb : 0 < b) : m < ceilDiv n b ↔ m * b < n := by
  rw [← not_le, ceilDiv_le_iff hb, not_le]

theorem ceilDiv_mul_add {b : ℕ} (hb : 0 < b) (k n : ℕ) : ceilDiv (k * b + n) b = k + ceilDiv n b := by
  unfold ceilDiv
  rw [show k * b + n + b - 1 = (n + b - 1) + k * b by omega, Nat.add_mul_div_right _ _ hb, Nat.add_comm]

theorem ceilDiv_pos {n b : ℕ} (hb : 0 < b) (hn : 0 < n) : 0 < ceilDiv n b := by
  rw [lt_ceilDiv_iff hb]; omega

theorem ceilDiv_lt {n b : ℕ} (hb : 2 ≤ b) (hn : 1 < n) : ceilDiv n b < n := by
  have : ceilDiv n b ≤ n - 1 := by
    rw [ceilDiv_le_iff (by omega)]
    have : (n - 1) * 2 ≤ (n - 1) * b := Nat.mul_le_mul_left _ hb
    omega
  omega

theorem ceilSqrt_pos {n : ℕ} (h : 0 < n) : 0 < ceilSqrt n := by
  unfold ceilSqrt
  split
  · rcases Nat.eq_zero_or_pos n.sqrt with h0 | h0
    · simp_all
    · exact h0
  · omega

/-! ## Rectangles -/

theorem containsRect_trans {r s t : RectF} (h1 : r.containsRect s = true) (h2 : s.containsRect t = true) :
    r.containsRect t = true := by
  rw [containsRect_iff] at *
  exact ⟨F32.le_trans h1.1 h2.1, F32.le_trans h2.2.1 h1.2.1, F32.le_trans h1.2.2.1 h2.2.2.1,
    F32.le_trans h2.2.2.2 h1.2.2.2⟩

theorem containsRect_self {r : RectF} (h : r.Valid) : r.containsRect r = true := by
  obtain ⟨nx, nX, -⟩ := le_key h.1
  obtain ⟨ny, nY, -⟩ := le_key h.2
  exact containsRect_iff.2 ⟨F32.le_refl nx, F32.le_refl nX, F32.le_refl ny, F32.le_refl nY⟩

theorem intersects_mono {r s q : RectF} (h : r.containsRect s = true) (hs : s.intersects q = true) :
    r.intersects q = true := by
  rw [containsRect_iff] at h
  have up : ∀ {a b c : F32}, le a b = true → lt c a = true → lt c b = true := by
    intro a b c h1 h2
    simp only [F32.lt, F32.le, Bool.and_eq_true, Bool.not_eq_true', decide_eq_true_eq] at *
    exact ⟨⟨h2.1.1, h1.1.2⟩, by omega⟩
  have dn : ∀ {a b c : F32}, le a b = true → lt b c = true → lt a c = true := by
    intro a b c h1 h2
    simp only [F32.lt, F32.le, Bool.and_eq_true, Bool.not_eq_true', decide_eq_true_eq] at *
    exact ⟨⟨h1.1.1, h2.1.2⟩, by omega⟩
  unfold RectF.intersects F32.gt at *
  cases h1 : lt q.xMax r.xMin
  · cases h2 : lt r.xMax q.xMin
    · cases h3 : lt q.yMax r.yMin
      · cases h4 : lt r.yMax q.yMin
        · simp
        · simp [dn h.2.2.2 h4] at hs
      · simp [up h.2.2.1 h3] at hs
    · simp [dn h.2.1 h2] at hs
  · simp [up h.1 h1] at hs

theorem addAll_rects (rs : List RectF) (e : RectF) (he : e.Valid) (hr : ∀ r ∈ rs, r.Valid) :
    ∃ b, Envelope.addAll (some e) (rs.map EnvObj.rect) = some b ∧ b.Valid ∧ b.containsRect e = true ∧
      ∀ r ∈ rs, b.containsRect r = true := by
  induction rs generalizing e with
  | nil => exact ⟨e, rfl, he, containsRect_self he, by simp⟩
  | cons r rs ih =>
    obtain ⟨v, c1, c2, -⟩ := joinRect_spec he (hr r (by simp))
    obtain ⟨b, hb, bv, be, bc⟩ := ih (e.joinRect r) v (fun x hx => hr x (by simp [hx]))
    refine ⟨b, hb, bv, containsRect_trans be c2, fun x hx => ?_⟩
    rcases List.mem_cons.1 hx with rfl | hx
    · exact containsRect_trans be c1
    · exact bc x hx

theorem envelope_rects (rs : List RectF) (hne : rs ≠ []) (hr : ∀ r ∈ rs, r.Valid) :
    ∃ b, Envelope.addAll none (rs.map EnvObj.rect) = some b ∧ b.Valid ∧ ∀ r ∈ rs, b.containsRect r = true := by
  cases rs with
  | nil => exact absurd rfl hne
  | cons r rs =>
    obtain ⟨b, hb, bv, be, bc⟩ := addAll_rects rs r (hr r (by simp)) (fun x hx => hr x (by simp [hx]))
    refine ⟨b, hb, bv, fun x hx => ?_⟩
    rcases List.mem_cons.1 hx with rfl | hx
    · exact be
    · exact bc x hx

/-! ## Writing nodes -/

/-- `a'` is `a` with the nodes `ns` written from index `p` on. -/
def Written (a a' : Nodes) (p : ℕ) (ns : List Node) : Prop :=
  a'.length = a.length ∧ (∀ j (h : j < ns.length), a'[p + j]? = some (some ns[j])) ∧
    ∀ i, (i < p ∨ p + ns.length ≤ i) → a'[i]? = a[i]?

theorem Written.refl (a : Nodes) (p : ℕ) : Written a a p [] :=
  ⟨rfl, fun j h => absurd h (by simp), fun _ _ => rfl⟩

theorem Written.append {a a1 a2 : Nodes} {p : ℕ} {ns ms : List Node} (h1 : Written a a1 p ns)
    (h2 : Written a1 a2 (p + ns.length) ms) : Written a a2 p (ns ++ ms) := by
  refine ⟨h2.1.trans h1.1, fun j hj => ?_, fun i hi => ?_⟩
  · rw [List.length_append] at hj
    by_cases hjn : j < ns.length
    · rw [h2.2.2 _ (Or.inl (by omega)), h1.2.1 j hjn, List.getElem_append_left hjn]
    · rw [List.getElem_append_right (by omega)]
      have := h2.2.1 (j - ns.length) (by omega)
      rwa [show p + ns.length + (j - ns.length) = p + j by omega] at this
  · rw [List.length_append] at hi
    rw [h2.2.2 i (by omega), h1.2.2 i (by omega)]

theorem written_set {a : Nodes} {p : ℕ} {nd : Node} (h : p < a.length) : Written a (a.set p (some nd)) p [nd] := by
  refine ⟨by simp, fun j hj => ?_, fun i hi => ?_⟩
  · have : j = 0 := by simpa using hj
    subst this
    simp [h]
  · rw [List.getElem?_set_ne]
    simp at hi; omega

/-! ## One level -/

/-- The bounds of the children are valid rectangles, and do not depend on the nodes that are written. -/
def BndOk (L : Level) (a : Nodes) : Prop :=
  (∀ c, L.firstChild ≤ c → c < L.firstChild + L.nChildren → ∃ r, L.bnd a c = some r ∧ r.Valid) ∧
  ∀ a' : Nodes, a'.length = a.length → (∀ i, L.firstParent + L.nParents ≤ i → a'[i]? = a[i]?) →
    ∀ c, L.firstChild ≤ c → c < L.firstChild + L.nChildren → L.bnd a' c = L.bnd a c

/-- A node written by the loading of a level: the bounds cover those of the children. -/
def NodeOk (L : Level) (a : Nodes) (nd : Node) : Prop :=
  nd.leafParent = L.leaf ∧ nd.children.length ≤ L.B ∧ nd.bounds.Valid ∧
    ∀ c ∈ nd.children, ∃ r, L.bnd a c = some r ∧ nd.bounds.containsRect r = true

theorem mapM_some {α β : Type} {f : α → Option β} (l : List α) (h : ∀ x ∈ l, ∃ y, f x = some y) :
    ∃ ys, l.mapM f = some ys ∧ (∀ y ∈ ys, ∃ x ∈ l, f x = some y) ∧ (∀ x ∈ l, ∃ y ∈ ys, f x = some y) ∧
      (l ≠ [] → ys ≠ []) := by
  induction l with
  | nil => exact ⟨[], rfl, by simp, by simp, by simp⟩
  | cons x xs ih =>
    obtain ⟨y, hy⟩ := h x (by simp)
    obtain ⟨ys, hys, h1, h2, -⟩ := ih (fun z hz => h z (by simp [hz]))
    refine ⟨y :: ys, by simp [List.mapM_cons, hy, hys], ?_, ?_, by simp⟩
    · intro z hz
      rcases List.mem_cons.1 hz with rfl | hz
      · exact ⟨x, by simp, hy⟩
      · obtain ⟨w, hw, e⟩ := h1 z hz
        exact ⟨w, by simp [hw], e⟩
    · intro z hz
      rcases List.mem_cons.1 hz with rfl | hz
      · exact ⟨y, by simp, hy⟩
      · obtain ⟨w, hw, e⟩ := h2 z hz
        exact ⟨w, by simp [hw], e⟩

theorem tileBounds_spec {L : Level} {a a' : Nodes} (hb : BndOk L a) (hl : a'.length = a.length)
    (ha : ∀ i, L.firstParent + L.nParents ≤ i → a'[i]? = a[i]?) {tile : List ℕ} (hne : tile ≠ [])
    (ht : ∀ c ∈ tile, L.firstChild ≤ c ∧ c < L.firstChild + L.nChildren) :
    ∃ b, L.tileBounds a' tile = some b ∧ b.Valid ∧
      ∀ c ∈ tile, ∃ r, L.bnd a c = some r ∧ b.containsRect r = true := by
  have hv : ∀ c ∈ tile, ∃ r, L.bnd a' c = some r := by
    intro c hc
    obtain ⟨r, hr, -⟩ := hb.1 c (ht c hc).1 (ht c hc).2
    exact ⟨r, by rw [hb.2 a' hl ha c (ht c hc).1 (ht c hc).2, hr]⟩
  obtain ⟨rs, hrs, h1, h2, h3⟩ := mapM_some tile hv
  obtain ⟨b, e, bv, bc⟩ := envelope_rects rs (h3 hne) (by
    intro r hr
    obtain ⟨c, hc, e⟩ := h1 r hr
    obtain ⟨r', hr', v⟩ := hb.1 c (ht c hc).1 (ht c hc).2
    rw [hb.2 a' hl ha c (ht c hc).1 (ht c hc).2, hr'] at e
    rw [← Option.some.inj e]; exact v)
  refine ⟨b, by unfold Level.tileBounds; rw [hrs]; exact e, bv, fun c hc => ?_⟩
  obtain ⟨r, hr, e⟩ := h2 c hc
  exact ⟨r, by rw [← hb.2 a' hl ha c (ht c hc).1 (ht c hc).2, e], bc r hr⟩

theorem foldlM_range_succ {α : Type} (f : α → ℕ → Option α) (k : ℕ) (s : α) :
    (List.range (k + 1)).foldlM f s = ((List.range k).foldlM f s).bind (fun s => f s k) := by
  rw [List.range_succ, List.foldlM_append]
  simp [Option.bind_eq_bind]

/-- The first `k` tiles of a slice. -/
theorem loadTiles_spec {L : Level} {a : Nodes} (hb : BndOk L a) (hB : 0 < L.B)
    (hlen : L.firstParent + L.nParents ≤ a.length) {slice : List ℕ}
    (hs : ∀ c ∈ slice, L.firstChild ≤ c ∧ c < L.firstChild + L.nChildren) (hn : slice.length ≤ L.nChildren)
    {a1 : Nodes} {p : ℕ} (hp : p + ceilDiv slice.length L.B ≤ L.firstParent + L.nParents)
    (hl1 : a1.length = a.length) (ha1 : ∀ i, L.firstParent + L.nParents ≤ i → a1[i]? = a[i]?) (k : ℕ)
    (hk : k ≤ ceilDiv slice.length L.B) :
    ∃ a2 ns, (List.range k).foldlM (L.loadTile slice) (a1, p) = some (a2, p + k) ∧ Written a1 a2 p ns ∧
      ns.length = k ∧ (∀ nd ∈ ns, NodeOk L a nd) ∧ ns.flatMap Node.children = slice.take (k * L.B) := by
  induction k with
  | zero => exact ⟨a1, [], by simp, Written.refl _ _, rfl, by simp, by simp⟩
  | succ k ih =>
    obtain ⟨a2, ns, e, w, nl, nok, fl⟩ := ih (by omega)
    have hkb : k * L.B < slice.length := (lt_ceilDiv_iff hB).1 (by omega)
    set tile := (slice.drop (k * L.B)).take L.B with htile
    have hta : (slice.drop (k * L.B)).take (if k = L.nTiles - 1 then slice.length - k * L.B else L.B) = tile := by
      split
      · rename_i hk1
        have hnt : slice.length ≤ L.nTiles * L.B := by
          have := (ceilDiv_le_iff (n := L.nChildren) (m := L.nTiles) hB).1 le_rfl
          omega
        have hpos : 0 < L.nTiles := ceilDiv_pos hB (by omega)
        have hle : slice.length - k * L.B ≤ L.B := by
          have : L.nTiles * L.B = k * L.B + L.B := by
            rw [show L.nTiles = k + 1 by omega]; ring
          omega
        rw [htile, List.take_of_length_le (by simp), List.take_of_length_le (by simpa using hle)]
      · rfl
    have hne : tile ≠ [] := by
      intro h
      have : tile.length = 0 := by rw [h]; rfl
      rw [htile, List.length_take, List.length_drop] at this
      omega
    have hsub : ∀ c ∈ tile, c ∈ slice := fun c hc => List.mem_of_mem_drop (List.mem_of_mem_take hc)
    obtain ⟨b, eb, bv, bc⟩ := tileBounds_spec hb (w.1.trans hl1) (fun i hi => by
      rw [w.2.2 i (Or.inr (by omega)), ha1 i hi]) hne (fun c hc => hs c (hsub c hc))
    have hpi : p + k < a2.length := by rw [w.1, hl1]; omega
    have hbt : tile.length ≤ L.B := by rw [htile, List.length_take]; omega
    refine ⟨a2.set (p + k) (some ⟨b, L.leaf, tile⟩), ns ++ [⟨b, L.leaf, tile⟩], ?_, ?_, by simp [nl], ?_, ?_⟩
    · rw [foldlM_range_succ, e, Option.bind_some]
      unfold Level.loadTile Level.assign
      simp only [hta, eb]
      rw [if_pos (by omega), if_pos (by omega), if_pos ⟨hpi, hbt⟩]
      simp [Nat.add_assoc]
    · have := written_set (nd := ⟨b, L.leaf, tile⟩) hpi
      rw [← nl] at this
      have := w.append this
      rwa [nl] at this
    · intro nd hnd
      rcases List.mem_append.1 hnd with h | h
      · exact nok nd h
      · rw [List.mem_singleton.1 h]
        exact ⟨rfl, hbt, bv, bc⟩
    · rw [List.flatMap_append, fl]
      simp only [List.flatMap_cons, List.flatMap_nil, List.append_nil]
      rw [htile, show (k + 1) * L.B = k * L.B + L.B by ring, List.take_add]

/-- The first `k` slices. -/
theorem loadSlices_spec {L : Level} {a : Nodes} (hb : BndOk L a) (hB : 0 < L.B)
    (hlen : L.firstParent + L.nParents ≤ a.length) (hpos : 0 < L.nChildren)
    (hpar : L.nParents = ceilDiv L.nChildren L.B) (hy : ∀ f l, (L.sortY f l).Perm l) {sorted : List ℕ}
    (hs : sorted.Perm (List.range' L.firstChild L.nChildren)) (k : ℕ) (hk : k ≤ L.nSlices) :
    ∃ a2 ns, (List.range k).foldlM (L.loadSlice sorted) (a, L.firstParent) =
        some (a2, L.firstParent + ns.length) ∧ Written a a2 L.firstParent ns ∧
      ns.length = ceilDiv (min (k * L.baseSlice) L.nChildren) L.B ∧ (∀ nd ∈ ns, NodeOk L a nd) ∧
      (ns.flatMap Node.children).Perm (sorted.take (k * L.baseSlice)) := by
  have hsl : sorted.length = L.nChildren := by rw [hs.length_eq, List.length_range']
  have hnt : 0 < L.nTiles := ceilDiv_pos hB hpos
  have hbs : 0 < L.baseSlice := Nat.mul_pos (ceilSqrt_pos hnt) hB
  induction k with
  | zero =>
    refine ⟨a, [], by simp, Written.refl _ _, ?_, by simp, by simp⟩
    simp only [Nat.zero_mul, Nat.zero_min, List.length_nil]
    unfold ceilDiv
    rw [Nat.zero_add, Nat.div_eq_of_lt (by omega)]
  | succ k ih =>
    obtain ⟨a1, ns, e, w, nl, nok, fl⟩ := ih (by omega)
    have hkb : k * L.baseSlice < L.nChildren := (lt_ceilDiv_iff hbs).1 (by unfold Level.nSlices at hk; omega)
    set n := if k = L.nSlices - 1 then L.nChildren - k * L.baseSlice else L.baseSlice with hn
    have hn1 : n = min L.baseSlice (L.nChildren - k * L.baseSlice) := by
      rw [hn]
      split
      · rename_i h
        have := (ceilDiv_le_iff (n := L.nChildren) (m := L.nSlices) hbs).1 le_rfl
        have h2 : L.nSlices * L.baseSlice = k * L.baseSlice + L.baseSlice := by
          rw [show L.nSlices = k + 1 by omega]; ring
        omega
      · rename_i h
        have := (lt_ceilDiv_iff (n := L.nChildren) (m := k + 1) hbs).1 (by unfold Level.nSlices at h hk; omega)
        have h2 : (k + 1) * L.baseSlice = k * L.baseSlice + L.baseSlice := by ring
        omega
    have hmin : min ((k + 1) * L.baseSlice) L.nChildren = k * L.baseSlice + n := by
      have h2 : (k + 1) * L.baseSlice = k * L.baseSlice + L.baseSlice := by ring
      omega
    set part := (sorted.drop (k * L.baseSlice)).take n with hpart
    have hpl : part.length = n := by rw [hpart, List.length_take, List.length_drop]; omega
    have hperm := hy (L.bnd a1) part
    set slice := L.sortY (L.bnd a1) part with hslice
    have hsll : slice.length = n := by rw [hperm.length_eq, hpl]
    have hmem : ∀ c ∈ slice, L.firstChild ≤ c ∧ c < L.firstChild + L.nChildren := by
      intro c hc
      have : c ∈ sorted := List.mem_of_mem_drop (List.mem_of_mem_take (hperm.mem_iff.1 hc))
      have := hs.mem_iff.1 this
      rw [List.mem_range'_1] at this
      exact this
    have hcnt : ceilDiv (k * L.baseSlice + n) L.B = ns.length + ceilDiv n L.B := by
      rw [nl, Nat.min_eq_left (by omega)]
      have : k * L.baseSlice = (k * ceilSqrt L.nTiles) * L.B := by unfold Level.baseSlice; ring
      rw [this, ceilDiv_mul_add hB]
      have := ceilDiv_mul_add hB (k * ceilSqrt L.nTiles) 0
      have h0 : ceilDiv 0 L.B = 0 := by
        unfold ceilDiv; rw [Nat.zero_add, Nat.div_eq_of_lt (by omega)]
      rw [Nat.add_zero, h0] at this
      omega
    have hle : ns.length + ceilDiv n L.B ≤ L.nParents := by
      rw [← hcnt, hpar, ceilDiv_le_iff hB]
      have := (ceilDiv_le_iff (n := L.nChildren) (m := ceilDiv L.nChildren L.B) hB).1 le_rfl
      omega
    obtain ⟨a2, ms, e2, w2, ml, mok, fl2⟩ := loadTiles_spec (slice := slice) hb hB hlen hmem (by omega) (a1 := a1)
      (p := L.firstParent + ns.length) (by rw [hsll]; omega) w.1
      (fun i hi => w.2.2 i (Or.inr (by omega))) (ceilDiv slice.length L.B) le_rfl
    refine ⟨a2, ns ++ ms, ?_, w.append w2, ?_, ?_, ?_⟩
    · rw [foldlM_range_succ, e, Option.bind_some]
      unfold Level.loadSlice
      simp only [← hn, ← hpart, ← hslice]
      rw [if_pos ⟨by omega, by omega⟩, ← hsll, e2, List.length_append, ml, Nat.add_assoc]
    · rw [List.length_append, ml, hsll, hmin, hcnt]
    · intro nd hnd
      rcases List.mem_append.1 hnd with h | h
      · exact nok nd h
      · exact mok nd h
    · rw [List.flatMap_append, fl2, List.take_of_length_le
        (by exact (ceilDiv_le_iff (n := slice.length) hB).1 le_rfl)]
      have : sorted.take ((k + 1) * L.baseSlice) = sorted.take (k * L.baseSlice) ++ part := by
        rw [show (k + 1) * L.baseSlice = k * L.baseSlice + L.baseSlice by ring, List.take_add]
        congr 1
        rw [hpart]
        by_cases h : n = L.baseSlice
        · rw [h]
        · rw [List.take_of_length_le (by rw [List.length_drop]; omega),
            List.take_of_length_le (by rw [List.length_drop]; omega)]
      rw [this]
      exact fl.append hperm

/-- Loading one level succeeds; each child goes to exactly one parent. -/
theorem load_spec {L : Level} {a : Nodes} (hb : BndOk L a) (hB : 0 < L.B)
    (hlen : L.firstParent + L.nParents ≤ a.length) (hpos : 0 < L.nChildren)
    (hpar : L.nParents = ceilDiv L.nChildren L.B) (hx : ∀ f l, (L.sortX f l).Perm l)
    (hy : ∀ f l, (L.sortY f l).Perm l) :
    ∃ a' ns, L.load a = some a' ∧ Written a a' L.firstParent ns ∧ ns.length = L.nParents ∧
      (∀ nd ∈ ns, NodeOk L a nd) ∧
      (ns.flatMap Node.children).Perm (List.range' L.firstChild L.nChildren) := by
  have hp := hx (L.bnd a) (List.range' L.firstChild L.nChildren)
  have hbs : 0 < L.baseSlice := Nat.mul_pos (ceilSqrt_pos (ceilDiv_pos hB hpos)) hB
  obtain ⟨a2, ns, e, w, nl, nok, fl⟩ := loadSlices_spec hb hB hlen hpos hpar hy hp L.nSlices le_rfl
  have hge : L.nChildren ≤ L.nSlices * L.baseSlice := (ceilDiv_le_iff hbs).1 le_rfl
  refine ⟨a2, ns, ?_, w, ?_, nok, ?_⟩
  · unfold Level.load
    rw [if_pos ⟨hpos, hpar⟩]
    simp only [e, Option.map_some]
  · rw [nl, Nat.min_eq_right hge, hpar]
  · rw [List.take_of_length_le (by rw [hp.length_eq, List.length_range']; exact hge)] at fl
    exact fl.trans hp

end Verif.RTree
