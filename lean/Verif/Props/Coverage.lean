import Verif.Props.SpatialMeshes
import Verif.Lemmas.Requantise
import Mathlib.Algebra.Order.Ring.Pow

/-!
# C17: coverage
-/

set_option autoImplicit false

namespace Verif.PMeshSpec

open Verif.Mesh Verif.PMesh F32 Verif.RTree Verif.Mesh.Spec

/-! ## Sums of areas -/

theorem le_zero_fabs {a : F32} (h : (fabs a).isNaN = false) : le zero (fabs a) = true := by
  cases a with
  | nan => cases h
  | inf s => rfl
  | fin s n hn => exact le_of_key rfl rfl (by simp [fabs, key, zero])

theorem inf_of_nonneg {a : F32} (h : le zero a = true) : a.isFinite = true ∨ a = inf false := by
  obtain ⟨-, hn, hk⟩ := le_key h
  rcases isFinite_or_inf hn with h' | ⟨s, rfl⟩
  · exact Or.inl h'
  · cases s with
    | false => exact Or.inr rfl
    | true => exact absurd h (by decide)

/-- Adding something nonnegative does not make a `float` less. -/
theorem le_add {a b : F32} (ha : le zero a = true) (hb : le zero b = true) : le a (add a b) = true := by
  rcases inf_of_nonneg ha with fa | rfl
  · rcases inf_of_nonneg hb with fb | rfl
    · obtain ⟨hn, hk⟩ := key_add fa fb
      refine le_of_key (isNaN_of_isFinite fa) hn ?_
      rw [hk, ← keyR_toRat fa]
      apply keyR_mono
      have := (le_iff (a := zero) rfl fb).1 hb
      rw [toRat_zero] at this
      linarith
    · obtain ⟨s, n, hn, rfl⟩ := exists_of_isFinite fa
      exact le_pos_inf rfl
  · rcases inf_of_nonneg hb with fb | rfl
    · obtain ⟨s, n, hn, rfl⟩ := exists_of_isFinite fb
      exact F32.le_refl rfl
    · exact F32.le_refl rfl

theorem lt_of_lt_of_le' {a b c : F32} (h1 : lt a b = true) (h2 : le b c = true) : lt a c = true := by
  unfold lt le at *
  simp only [Bool.and_eq_true, Bool.not_eq_true', decide_eq_true_eq] at *
  exact ⟨⟨h1.1.1, h2.1.2⟩, by omega⟩

theorem le_foldl {as : List F32} (h : ∀ a ∈ as, le zero a = true) : ∀ {acc : F32}, le zero acc = true →
    le acc (as.foldl add acc) = true := by
  induction as with
  | nil => intro acc ha; exact F32.le_refl (le_key ha).2.1
  | cons a as ih =>
    intro acc ha
    have h1 := le_add ha (h a (by simp))
    exact F32.le_trans h1 (ih (fun x hx => h x (by simp [hx])) (F32.le_trans ha h1))

theorem show_sum (area : TriangleIndexPair → F32) (l : List TriangleIndexPair) (acc : F32) :
    showUntilStop (fun c i => (add c (area i), true)) l acc = (l.map area).foldl add acc := by
  induction l generalizing acc with
  | nil => rfl
  | cons p l ih => rw [showUntilStop]; simp only [if_true]; rw [ih]; rfl

/-- Stopping as soon as the threshold is passed gives the same answer, as no area is negative. -/
theorem show_greater (area : TriangleIndexPair → F32) (thr : F32) (l : List TriangleIndexPair)
    (h : ∀ p ∈ l, le zero (area p) = true) : ∀ acc : F32, le zero acc = true →
    gt (showUntilStop (fun c i => (add c (area i), !gt (add c (area i)) thr)) l acc) thr =
      gt ((l.map area).foldl add acc) thr := by
  induction l with
  | nil => intro acc _; rfl
  | cons p l ih =>
    intro acc ha
    have h1 := le_add ha (h p (by simp))
    have h2 := F32.le_trans ha h1
    rw [showUntilStop, List.map_cons, List.foldl_cons]
    simp only
    by_cases hg : gt (add acc (area p)) thr = true
    · rw [hg]
      simp only [Bool.not_true, Bool.false_eq_true, if_false]
      rw [hg]
      symm
      refine lt_of_lt_of_le' hg (le_foldl ?_ h2)
      intro a ha'
      obtain ⟨x, hx, rfl⟩ := List.mem_map.1 ha'
      exact h x (by simp [hx])
    · rw [Bool.not_eq_true] at hg
      rw [hg]
      simp only [Bool.not_false, if_true]
      exact ih (fun x hx => h x (by simp [hx])) _ h2

theorem addAreas_eq {m : Mesh} {ms : List Mesh} {i : Nat} (hm : ms[i]? = some m) :
    ∀ (k j : Nat) (acc : F32), (∀ t, j ≤ t → t < j + k → (meshTriangle m t).isSome = true) →
      addAreas m j k acc = some (((pairsFrom i j k).map (areaAt ms)).foldl add acc) := by
  intro k
  induction k with
  | zero => intro j acc _; rfl
  | succ k ih =>
    intro j acc h
    obtain ⟨t, ht⟩ := Option.isSome_iff_exists.1 (h j (by omega) (by omega))
    have ha : areaAt ms ⟨i, j⟩ = absoluteArea t := by
      unfold areaAt triangleAt
      rw [hm, Option.bind_some, ht]
    rw [addAreas, ht, Option.bind_some, ih (j + 1) _ (fun t h1 h2 => h t (by omega) (by omega))]
    show _ = some (((⟨i, j⟩ :: pairsFrom i (j + 1) k).map (areaAt ms)).foldl add acc)
    rw [List.map_cons, List.foldl_cons, ha]

theorem total_eq {d : Data} (hs : Searchable (some d)) :
    d.totalAbsoluteArea = some (floatSum ((pairs 0 d.meshes).map (areaAt d.meshes))) := by
  obtain ⟨hm, -⟩ := hs.elements
  have key : ∀ (rest done : List Mesh) (acc : F32), d.meshes = done ++ rest →
      rest.foldlM (fun acc m => addAreas m 0 m.triangleCount acc) acc =
        some (((pairs done.length rest).map (areaAt d.meshes)).foldl add acc) := by
    intro rest
    induction rest with
    | nil => intro done acc _; rfl
    | cons m rest ih =>
      intro done acc h
      have hget : d.meshes[done.length]? = some m := by rw [h]; simp
      have hmem : m ∈ d.meshes := by rw [h]; simp
      have h' := ih (done ++ [m]) (((pairsFrom done.length 0 m.triangleCount).map (areaAt d.meshes)).foldl add acc)
        (by rw [h]; simp)
      rw [List.length_append, List.length_singleton] at h'
      rw [List.foldlM_cons, addAreas_eq hget m.triangleCount 0 acc]
      · rw [pairs, List.map_append, List.foldl_append]
        exact h'
      · intro t _ ht
        obtain ⟨t', ht', -⟩ := hs.readable m hmem t (by omega)
        rw [ht']; rfl
  unfold Data.totalAbsoluteArea
  rw [if_neg (by simpa using hm)]
  exact key d.meshes [] zero rfl

theorem areaAt_eq {d : Data} {p : TriangleIndexPair} {t : TriangleF} (h : IsTriangle (some d) p t) :
    areaAt d.meshes p = fabs (Flip.signedArea t.1 t.2.1 t.2.2) := by
  unfold areaAt
  rw [(isTriangle_iff.1 h).2]
  rfl

theorem areasOf_map {d : Data} {ps : List TriangleIndexPair} (h : ∀ p ∈ ps, ∃ t, IsTriangle (some d) p t) :
    AreasOf (some d) ps (ps.map (areaAt d.meshes)) := by
  unfold AreasOf
  rw [List.forall₂_map_right_iff, List.forall₂_same]
  intro p hp
  obtain ⟨t, ht⟩ := h p hp
  exact ⟨t, ht, areaAt_eq ht⟩

/-- No area of a triangle of the shape is NaN (it is for some corners so far away that differences overflow). -/
def AreasOk (s : PartitionedMesh) : Prop :=
  ∀ p t, IsTriangle s p t → (fabs (Flip.signedArea t.1 t.2.1 t.2.2)).isNaN = false

/-- Coverage and the comparison with a threshold, for what a visit shows. -/
theorem coverage_of_visit {d : Data} (hs : Searchable (some d)) (ha : AreasOk (some d)) {order : List TriangleIndexPair}
    (ho : ∀ p ∈ order, ∃ t, IsTriangle (some d) p t)
    {visit : (F32 → TriangleIndexPair → F32 × Bool) → F32 → Option F32}
    (hv : ∀ visitor st, visit visitor st = some (showUntilStop visitor order st)) :
    ∃ areas all allAreas, AreasOf (some d) order areas ∧ AllTriangles (some d) all ∧ AreasOf (some d) all allAreas ∧
      computeCoverage d visit = some (div (floatSum areas) (floatSum allAreas)) ∧
      ∀ t, coverageIsGreaterThanHelper d visit t = some (lt (mul t (floatSum allAreas)) (floatSum areas)) := by
  have hall : ∀ p, p ∈ pairs 0 d.meshes ↔ ∃ t, IsTriangle (some d) p t := by
    intro p
    constructor
    · intro hp
      obtain ⟨t, ht, -⟩ := hs.elements.2.2.2.2 p hp
      exact ⟨t, isTriangle_iff.2 ⟨hp, ht⟩⟩
    · rintro ⟨t, ht⟩
      exact (isTriangle_iff.1 ht).1
  refine ⟨order.map (areaAt d.meshes), pairs 0 d.meshes, (pairs 0 d.meshes).map (areaAt d.meshes), areasOf_map ho,
    ⟨nodup_pairs _ _, hall⟩, areasOf_map fun p hp => (hall p).1 hp, ?_, fun t => ?_⟩
  · unfold computeCoverage
    rw [total_eq hs, Option.bind_some, hv, Option.map_some, show_sum]
    rfl
  · unfold coverageIsGreaterThanHelper
    rw [total_eq hs, Option.bind_some]
    simp only
    rw [hv, Option.map_some, show_greater (areaAt d.meshes)]
    · rfl
    · intro p hp
      obtain ⟨t, ht⟩ := ho p hp
      have h := ha p t ht
      rw [areaAt_eq ht]
      exact le_zero_fabs h
    · rfl

/-- C17: what the two functions compute. There is an order of the triangles which intersect the query (`Found`) and one of
all triangles, such that `Coverage` is the quotient of the two sums of their absolute areas, and
`CoverageIsGreaterThan` tells whether the first sum is greater than the second one times the threshold, although it
stops as soon as this is known. The sums, the product and the quotient are rounded to `float`. -/
theorem C17_meaning (S : Sorts) (hx : ∀ f l, (S.x f l).Perm l) (hy : ∀ f l, (S.y f l).Perm l) (s : PartitionedMesh)
    (hne : s ≠ none) (hs : Searchable s) (ha : AreasOk s) (q : Query) (r : RectF) (hq : QueryFor s q r) :
    ∃ order areas all allAreas, Found s q r order ∧ AreasOf s order areas ∧ AllTriangles s all ∧ AreasOf s all allAreas ∧
      s.coverage S q = some (div (floatSum areas) (floatSum allAreas)) ∧
      ∀ t, s.coverageIsGreaterThan S q t = some (lt (mul t (floatSum allAreas)) (floatSum areas)) := by
  cases s with
  | none => exact absurd rfl hne
  | some d =>
    obtain ⟨order, hf, hv⟩ := visit_found hx hy hs hq
    obtain ⟨areas, all, allAreas, h1, h2, h3, h4, h5⟩ := coverage_of_visit hs ha (order := order)
      (fun p hp => by obtain ⟨t, ht, -⟩ := (hf.2 p).1 hp; exact ⟨t, ht⟩)
      (visit := fun v st => PartitionedMesh.visitTriangles S (some d) q v st) (fun v st => hv F32 v st)
    exact ⟨order, areas, all, allAreas, hf, h1, h2, h3, h4, h5⟩

/-- C17: the same for the overloads which take another shape, with a transform which can be inverted. -/
theorem C17_meaning_shape (S : Sorts) (hx : ∀ f l, (S.x f l).Perm l) (hy : ∀ f l, (S.y f l).Perm l)
    (s query : PartitionedMesh) (hne' : s ≠ none) (hs : Searchable s) (ha : AreasOk s) (hs' : Searchable query)
    (A : ShapeTransform) (b r : RectF)
    (hA : A.invertible = true) (hb : query.bounds = some (some b)) (hr : Envelope.add none (A.quad b) = some r)
    (hv : r.Valid) (hq : ∀ p t, IsTriangle s p t → ∃ r', QueryFor query (A.back t) r') (hne : query.meshes ≠ []) :
    ∃ order areas all allAreas, order.Nodup ∧
      (∀ p, p ∈ order ↔ ∃ t, IsTriangle s p t ∧ MeetsShape query (A.back t) ∧ BoxesMeet t r) ∧
      AreasOf s order areas ∧ AllTriangles s all ∧ AreasOf s all allAreas ∧
      s.coverageShape S query A = some (div (floatSum areas) (floatSum allAreas)) ∧
      ∀ t, s.coverageShapeIsGreaterThan S query A t = some (lt (mul t (floatSum allAreas)) (floatSum areas)) := by
  cases s with
  | none => exact absurd rfl hne'
  | some d =>
    obtain ⟨order, h1, h2, h3⟩ := C47_visit_shape_partial S hx hy (some d) query hs hs' A b r hA hb hr hv hq hne
    obtain ⟨areas, all, allAreas, g1, g2, g3, g4, g5⟩ := coverage_of_visit hs ha (order := order)
      (fun p hp => by obtain ⟨t, ht, -⟩ := (h2 p).1 hp; exact ⟨t, ht⟩)
      (visit := fun v st => PartitionedMesh.visitShape S (some d) query A v st) (fun v st => h3 F32 v st)
    exact ⟨order, areas, all, allAreas, h1, h2, g1, g2, g3, g4, g5⟩

/-- C17: the default shape has coverage 0, and it is not greater than any threshold. (For the threshold -1 this is not the
comparison of 0 with it.) -/
theorem C17_default (S : Sorts) (q : Query) (query : PartitionedMesh) (A : ShapeTransform) (t : F32) :
    PartitionedMesh.coverage S none q = some zero ∧ PartitionedMesh.coverageIsGreaterThan S none q t = some false ∧
    PartitionedMesh.coverageShape S none query A = some zero ∧
    PartitionedMesh.coverageShapeIsGreaterThan S none query A t = some false := ⟨rfl, rfl, rfl, rfl⟩

/-! ## Agreement -/

theorem keyR_lt {q : ℚ} {c : F32} (hc : c.isFinite = true) (h : q < toRat c) (h1 : |q| / 2 ^ 24 < toRat c - q)
    (h2 : 1 / 2 ^ 150 < toRat c - q) : keyR q < key c := by
  by_cases hq : |q| < ovf
  · have hf := isFinite_ofRat_iff.2 hq
    have e : keyR q = key (ofRat q) := rfl
    rw [e, key_lt_iff hf hc, toRat_ofRat hq]
    have := rnd_err q
    rcases le_max_iff.1 this with h' | h'
    · have := (abs_le.1 h').2; linarith
    · have := (abs_le.1 h').2; linarith
  · have hm := (abs_le.1 (abs_toRat_le c)).2
    have hv := maxVal_lt_ovf
    rcases abs_cases q with ⟨e, -⟩ | ⟨e, h0⟩
    · rw [e] at hq; linarith
    · rw [e] at hq
      have : keyR q = -(infPat : Int) := by
        unfold keyR ofRat
        rw [if_pos h0, packRound_inf (by linarith) (by linarith)]
        rfl
      rw [this]
      exact ((isFinite_iff_key c).1 hc).2.1

theorem lt_keyR {q : ℚ} {c : F32} (hc : c.isFinite = true) (h : toRat c < q) (h1 : |q| / 2 ^ 24 < q - toRat c)
    (h2 : 1 / 2 ^ 150 < q - toRat c) : key c < keyR q := by
  have := keyR_lt (q := -q) (c := neg c) (by simpa using hc) (by simpa using h) (by rw [abs_neg, toRat_neg]; linarith)
    (by rw [toRat_neg]; linarith)
  rw [keyR_neg, key_neg] at this
  omega

/-- C17: `CoverageIsGreaterThan(t)` is `Coverage > t`, when the covered area `c` and the total area `a` are finite, `a` is
positive, the threshold is finite, and `c` is not too close to `t a`: further than `2^-23 |t| a + 2^-149 (a + 1)`, about one
unit in the last place. Closer than that, see `C17_greater_counterexample`. (The two sides are what `C17_meaning` gives
for the two functions.) -/
theorem C17_agree_partial (c a t : F32) (hc : c.isFinite = true) (ha : a.isFinite = true) (ht : t.isFinite = true)
    (hpos : 0 < toRat a)
    (hfar : |toRat t| * toRat a / 2 ^ 23 + (toRat a + 1) / 2 ^ 149 < |toRat c - toRat t * toRat a|) :
    lt (mul t a) c = lt t (div c a) := by
  obtain ⟨n1, k1⟩ := key_mul ht ha
  obtain ⟨n2, k2⟩ := key_div hc ha (by linarith)
  have nc := isNaN_of_isFinite hc
  have nt := isNaN_of_isFinite ht
  unfold lt
  rw [n1, n2, nc, nt, k1, k2]
  simp only [Bool.not_false, Bool.true_and, decide_eq_decide]
  set A := toRat a with hA
  set C := toRat c with hC
  set T := toRat t with hT
  have hTA : |T * A| = |T| * A := by rw [abs_mul, abs_of_pos hpos]
  have hpT : 0 ≤ |T| * A := by positivity
  have hdiv : C / A - T = (C - T * A) / A := by field_simp
  rcases le_total C (T * A) with hle | hle
  · have e1 : ¬ keyR (T * A) < key c := by
      have := keyR_mono hle
      rw [hC, keyR_toRat hc] at this
      omega
    have e2 : ¬ key t < keyR (C / A) := by
      have : C / A ≤ T := by rw [div_le_iff₀ hpos]; exact hle
      have := keyR_mono this
      rw [hT, keyR_toRat ht] at this
      omega
    simp [e1, e2]
  · rw [abs_of_nonneg (by linarith : 0 ≤ C - T * A)] at hfar
    have hA1 : (0 : ℚ) < (A + 1) / 2 ^ 149 := by positivity
    have e1 : keyR (T * A) < key c := by
      refine keyR_lt hc (by linarith) ?_ ?_
      · rw [hTA]
        have : |T| * A / 2 ^ 24 ≤ |T| * A / 2 ^ 23 := by
          apply div_le_div_of_nonneg_left hpT (by norm_num) (by norm_num)
        linarith
      · have h3 : (1 : ℚ) / 2 ^ 150 ≤ (A + 1) / 2 ^ 149 := by
          rw [div_le_div_iff₀ (by norm_num) (by norm_num)]
          have : (2 : ℚ) ^ 150 = 2 * 2 ^ 149 := by norm_num
          rw [this]
          have : (0 : ℚ) < 2 ^ 149 := by norm_num
          nlinarith
        have : 0 ≤ |T| * A / 2 ^ 23 := by positivity
        linarith
    have hx : |T| / 2 ^ 23 + 1 / 2 ^ 149 < C / A - T := by
      rw [hdiv, lt_div_iff₀ hpos]
      have : (A + 1) / 2 ^ 149 = 1 / 2 ^ 149 * A + 1 / 2 ^ 149 := by ring
      have h4 : (0 : ℚ) < 1 / 2 ^ 149 := by norm_num
      calc (|T| / 2 ^ 23 + 1 / 2 ^ 149) * A = |T| * A / 2 ^ 23 + 1 / 2 ^ 149 * A := by ring
        _ < _ := by linarith
    have e2 : key t < keyR (C / A) := by
      have h0 : (0 : ℚ) ≤ |T| / 2 ^ 23 := by positivity
      have h4 : (0 : ℚ) < 1 / 2 ^ 149 := by norm_num
      refine lt_keyR ht (by linarith) ?_ ?_
      · have h5 : |C / A| ≤ |T| + (C / A - T) := by
          have := abs_add_le T (C / A - T)
          rw [add_sub_cancel, abs_of_nonneg (by linarith : 0 ≤ C / A - T)] at this
          exact this
        have : (|T| + (C / A - T)) / 2 ^ 24 < C / A - T := by
          rw [div_lt_iff₀ (by norm_num)]
          have h6 : |T| < (C / A - T) * 2 ^ 23 := by
            have : |T| / 2 ^ 23 < C / A - T := by linarith
            rwa [div_lt_iff₀ (by norm_num)] at this
          have h7 : 0 < C / A - T := by linarith
          linarith
        have h8 : |C / A| / 2 ^ 24 ≤ (|T| + (C / A - T)) / 2 ^ 24 := by
          apply div_le_div_of_nonneg_right h5 (by norm_num)
        linarith
      · have : (1 : ℚ) / 2 ^ 150 ≤ 1 / 2 ^ 149 := by norm_num
        linarith
    simp [e1, e2]

/-! ## Range -/

/-- Rounding a sum of two `float`s has a small relative error, even in the subnormal range. -/
theorem add_rel {a b : F32} (ha : a.isFinite = true) (hb : b.isFinite = true) (ha0 : 0 ≤ toRat a) (hb0 : 0 ≤ toRat b) :
    |rnd (toRat a + toRat b) - (toRat a + toRat b)| ≤ (toRat a + toRat b) / 2 ^ 24 := by
  by_cases h : 1 / 2 ^ 126 ≤ toRat a + toRat b
  · have := rnd_err_normal (q := toRat a + toRat b) (by rw [abs_of_nonneg (by linarith)]; exact h)
    rwa [abs_of_nonneg (by linarith : 0 ≤ toRat a + toRat b)] at this
  · push Not at h
    have hz : ∀ {x : F32}, x.isFinite = true → ∃ z : ℤ, toRat x * 2 ^ 149 = z := by
      intro x hx
      obtain ⟨s, n, hn, rfl⟩ := exists_of_isFinite hx
      cases s with
      | false => exact ⟨mag n, by rw [toRat_fin_false]; field_simp; rfl⟩
      | true => exact ⟨-(mag n : ℤ), by rw [toRat_fin_true]; push_cast; field_simp⟩
    obtain ⟨x, hx⟩ := hz ha
    obtain ⟨y, hy⟩ := hz hb
    have e : (toRat a + toRat b) * 2 ^ 149 = ((x + y : ℤ) : ℚ) := by push_cast; rw [add_mul, hx, hy]
    have hlt : ((x + y : ℤ) : ℚ) < 2 ^ 23 := by
      rw [← e]
      calc (toRat a + toRat b) * 2 ^ 149 < 1 / 2 ^ 126 * 2 ^ 149 := mul_lt_mul_of_pos_right h (by norm_num)
        _ = 2 ^ 23 := by norm_num
    have h0 : (0 : ℚ) ≤ ((x + y : ℤ) : ℚ) := by rw [← e]; positivity
    have hlt' : x + y < 2 ^ 23 := by exact_mod_cast hlt
    have h0' : 0 ≤ x + y := by exact_mod_cast h0
    have hr : F32.Repr (toRat a + toRat b) := by
      refine Repr.of_mul_pow (M := x + y) (e := 0) ?_ (by rw [e, pow_zero, mul_one]) ?_
      · rw [abs_of_nonneg h0']; omega
      · rw [abs_of_nonneg (by linarith)]
        refine lt_trans h ?_
        norm_num
    rw [hr.rnd_eq, sub_self, abs_zero]
    positivity

theorem sum_upper (as : List F32) (h : ∀ a ∈ as, a.isFinite = true ∧ 0 ≤ toRat a) :
    ∀ acc : F32, acc.isFinite = true → 0 ≤ toRat acc →
      (toRat acc + (as.map toRat).sum) * (1 + 1 / 2 ^ 24) ^ as.length < ovf →
      (as.foldl add acc).isFinite = true ∧ 0 ≤ toRat (as.foldl add acc) ∧
        toRat (as.foldl add acc) ≤ (toRat acc + (as.map toRat).sum) * (1 + 1 / 2 ^ 24) ^ as.length := by
  induction as with
  | nil => intro acc ha h0 _; simpa using ⟨ha, h0⟩
  | cons a as ih =>
    intro acc hf h0 hlt
    obtain ⟨fa, a0⟩ := h a (by simp)
    have hs : 0 ≤ (as.map toRat).sum := List.sum_nonneg (by
      intro x hx
      obtain ⟨y, hy, rfl⟩ := List.mem_map.1 hx
      exact (h y (by simp [hy])).2)
    have hpow : (1 : ℚ) ≤ (1 + 1 / 2 ^ 24) ^ as.length := one_le_pow₀ (by norm_num)
    rw [List.map_cons, List.sum_cons, List.length_cons, pow_succ] at hlt ⊢
    set P := (1 + 1 / 2 ^ 24 : ℚ) ^ as.length with hP
    set R := (as.map toRat).sum with hR
    have hle : toRat acc + toRat a ≤ (toRat acc + (toRat a + R)) * (P * (1 + 1 / 2 ^ 24)) := by
      have h1 : toRat acc + toRat a ≤ toRat acc + (toRat a + R) := by linarith
      have h2 : (1 : ℚ) ≤ P * (1 + 1 / 2 ^ 24) := by nlinarith
      calc toRat acc + toRat a ≤ (toRat acc + (toRat a + R)) * 1 := by linarith
        _ ≤ _ := mul_le_mul_of_nonneg_left h2 (by linarith)
    have hov : |toRat acc + toRat a| < ovf := by rw [abs_of_nonneg (by linarith)]; linarith
    have hr := (abs_le.1 (add_rel hf fa h0 a0)).2
    have hadd := toRat_add hf fa hov
    have hnn : 0 ≤ toRat (add acc a) := by rw [hadd]; exact rnd_nonneg (by linarith)
    have hstep : (toRat (add acc a) + R) * P ≤ (toRat acc + (toRat a + R)) * (P * (1 + 1 / 2 ^ 24)) := by
      have : toRat (add acc a) + R ≤ (toRat acc + (toRat a + R)) * (1 + 1 / 2 ^ 24) := by
        rw [hadd]
        have : 0 ≤ R * (1 / 2 ^ 24) := by positivity
        nlinarith
      calc (toRat (add acc a) + R) * P ≤ ((toRat acc + (toRat a + R)) * (1 + 1 / 2 ^ 24)) * P :=
            mul_le_mul_of_nonneg_right this (by linarith)
        _ = _ := by ring
    obtain ⟨g1, g2, g3⟩ := ih (fun x hx => h x (by simp [hx])) (add acc a) (isFinite_add hf fa hov) hnn
      (lt_of_le_of_lt hstep hlt)
    exact ⟨g1, g2, _root_.le_trans g3 hstep⟩

theorem sum_lower (as : List F32) (h : ∀ a ∈ as, a.isFinite = true ∧ 0 ≤ toRat a) :
    ∀ acc : F32, acc.isFinite = true → 0 ≤ toRat acc → (as.foldl add acc).isFinite = true →
      (toRat acc + (as.map toRat).sum) * (1 - 1 / 2 ^ 24) ^ as.length ≤ toRat (as.foldl add acc) := by
  induction as with
  | nil => intro acc ha h0 _; simp
  | cons a as ih =>
    intro acc hf h0 hfin
    obtain ⟨fa, a0⟩ := h a (by simp)
    have hz : ∀ {x : F32}, x.isFinite = true → 0 ≤ toRat x → le zero x = true := by
      intro x hx h0
      rw [le_iff rfl hx, toRat_zero]
      exact h0
    have hge := le_add (hz hf h0) (hz fa a0)
    have hrest := le_foldl (as := as) (fun x hx => hz (h x (by simp [hx])).1 (h x (by simp [hx])).2)
      (acc := add acc a) (F32.le_trans (hz hf h0) hge)
    have hfin' : (add acc a).isFinite = true := isFinite_of_between hf hfin hge hrest
    have hov : |toRat acc + toRat a| < ovf := by
      by_contra hno
      have hno' : ovf ≤ toRat acc + toRat a := by
        rw [abs_of_nonneg (by linarith)] at hno; linarith
      obtain ⟨hn, hk⟩ := key_add hf fa
      have : keyR (toRat acc + toRat a) = (infPat : Int) := by
        unfold keyR ofRat
        rw [if_neg (by linarith), packRound_inf (by linarith) hno']
        rfl
      have h3 := ((isFinite_iff_key _).1 hfin').2.2
      omega
    have hadd := toRat_add hf fa hov
    have hnn : 0 ≤ toRat (add acc a) := by rw [hadd]; exact rnd_nonneg (by linarith)
    have g := ih (fun x hx => h x (by simp [hx])) (add acc a) hfin' hnn hfin
    have hs : 0 ≤ (as.map toRat).sum := List.sum_nonneg (by
      intro x hx
      obtain ⟨y, hy, rfl⟩ := List.mem_map.1 hx
      exact (h y (by simp [hy])).2)
    have hpow : (0 : ℚ) ≤ (1 - 1 / 2 ^ 24) ^ as.length := pow_nonneg (by norm_num) _
    have hr := (abs_le.1 (add_rel hf fa h0 a0)).1
    rw [List.map_cons, List.sum_cons, List.length_cons, pow_succ]
    rw [List.foldl_cons]
    refine _root_.le_trans ?_ g
    have : (toRat acc + (toRat a + (as.map toRat).sum)) * (1 - 1 / 2 ^ 24) ≤ toRat (add acc a) + (as.map toRat).sum := by
      rw [hadd]
      nlinarith
    calc _ = ((toRat acc + (toRat a + (as.map toRat).sum)) * (1 - 1 / 2 ^ 24)) * (1 - 1 / 2 ^ 24) ^ as.length := by ring
      _ ≤ _ := mul_le_mul_of_nonneg_right this hpow

theorem finite_sum_upper {as : List F32} (h : ∀ a ∈ as, a.isFinite = true ∧ 0 ≤ toRat a)
    (hlt : (as.map toRat).sum * (1 + 1 / 2 ^ 24) ^ as.length < ovf) :
    (floatSum as).isFinite = true ∧ 0 ≤ toRat (floatSum as) ∧
      toRat (floatSum as) ≤ (as.map toRat).sum * (1 + 1 / 2 ^ 24) ^ as.length := by
  have := sum_upper as h zero rfl (by rw [toRat_zero]) (by rw [toRat_zero, zero_add]; exact hlt)
  rwa [toRat_zero, zero_add] at this

theorem finite_sum_lower {as : List F32} (h : ∀ a ∈ as, a.isFinite = true ∧ 0 ≤ toRat a)
    (hf : (floatSum as).isFinite = true) :
    (as.map toRat).sum * (1 - 1 / 2 ^ 24) ^ as.length ≤ toRat (floatSum as) := by
  have := sum_lower as h zero rfl (by rw [toRat_zero]) hf
  rwa [toRat_zero, zero_add] at this

/-- The quotient of two computed sums is near the quotient of the exact ones. -/
theorem quotient_near {as bs : List F32} {n : Nat} (ha : ∀ a ∈ as, a.isFinite = true ∧ 0 ≤ toRat a)
    (hb : ∀ a ∈ bs, a.isFinite = true ∧ 0 ≤ toRat a) (hla : as.length ≤ n) (hlb : bs.length ≤ n) (hn : n ≤ 2 ^ 22)
    (hle : (as.map toRat).sum ≤ (bs.map toRat).sum) (hpos : 0 < (bs.map toRat).sum)
    (hbig : (bs.map toRat).sum ≤ 2 ^ 127) :
    (div (floatSum as) (floatSum bs)).isFinite = true ∧ 0 ≤ toRat (div (floatSum as) (floatSum bs)) ∧
      toRat (div (floatSum as) (floatSum bs)) ≤ 1 + n / 2 ^ 22 ∧
      |toRat (div (floatSum as) (floatSum bs)) - (as.map toRat).sum / (bs.map toRat).sum| ≤ n / 2 ^ 21 := by
  set x : ℚ := n / 2 ^ 24 with hx
  have hn1 : 1 ≤ n := by
    rcases bs with _ | ⟨b, bs⟩
    · simp at hpos
    · simp at hlb; omega
  have hx0 : 1 / 2 ^ 24 ≤ x := by
    rw [hx]; apply div_le_div_of_nonneg_right _ (by norm_num); exact_mod_cast hn1
  have hx1 : x ≤ 1 / 4 := by
    rw [hx, div_le_iff₀ (by norm_num)]
    have : (n : ℚ) ≤ 2 ^ 22 := by exact_mod_cast hn
    linarith
  have low : ∀ k, k ≤ n → 1 - x ≤ (1 - 1 / 2 ^ 24 : ℚ) ^ k := by
    intro k hk
    have := one_add_mul_le_pow (a := (-(1 / 2 ^ 24) : ℚ)) (by norm_num) k
    rw [← sub_eq_add_neg] at this
    refine _root_.le_trans ?_ this
    have : (k : ℚ) ≤ n := by exact_mod_cast hk
    rw [hx]
    linarith
  have up : ∀ k, k ≤ n → (1 + 1 / 2 ^ 24 : ℚ) ^ k * (1 - x) ≤ 1 := by
    intro k hk
    have h1 := low k hk
    have h2 : (1 + 1 / 2 ^ 24 : ℚ) ^ k * (1 - 1 / 2 ^ 24) ^ k ≤ 1 := by
      rw [← mul_pow]
      exact pow_le_one₀ (by norm_num) (by norm_num)
    have h3 : (0 : ℚ) ≤ (1 + 1 / 2 ^ 24) ^ k := by positivity
    exact _root_.le_trans (mul_le_mul_of_nonneg_left h1 h3) h2
  have up' : ∀ k, k ≤ n → (1 + 1 / 2 ^ 24 : ℚ) ^ k ≤ 3 / 2 := by
    intro k hk
    have := up k hk
    have h3 : (0 : ℚ) ≤ (1 + 1 / 2 ^ 24) ^ k := by positivity
    nlinarith
  have hovf : (2 : ℚ) ^ 127 * (3 / 2) < ovf := by unfold ovf; norm_num
  have nn : ∀ l : List F32, (∀ a ∈ l, a.isFinite = true ∧ 0 ≤ toRat a) → 0 ≤ (l.map toRat).sum := by
    intro l hl
    apply List.sum_nonneg
    intro y hy
    obtain ⟨z, hz, rfl⟩ := List.mem_map.1 hy
    exact (hl z hz).2
  have small : ∀ l : List F32, (∀ a ∈ l, a.isFinite = true ∧ 0 ≤ toRat a) → l.length ≤ n →
      (l.map toRat).sum ≤ 2 ^ 127 → (l.map toRat).sum * (1 + 1 / 2 ^ 24) ^ l.length < ovf := by
    intro l hl hk h
    refine lt_of_le_of_lt ?_ hovf
    exact mul_le_mul h (up' _ hk) (by positivity) (by norm_num)
  obtain ⟨fa, ga, ua⟩ := finite_sum_upper ha (small as ha hla (by linarith))
  obtain ⟨fb, gb, ub⟩ := finite_sum_upper hb (small bs hb hlb hbig)
  have la := finite_sum_lower ha fa
  have lb := finite_sum_lower hb fb
  set C := (as.map toRat).sum with hC
  set T := (bs.map toRat).sum with hT
  set c := toRat (floatSum as) with hc
  set t := toRat (floatSum bs) with ht
  have hC0 : 0 ≤ C := nn as ha
  -- in terms of `x`
  have la' : C * (1 - x) ≤ c := _root_.le_trans (mul_le_mul_of_nonneg_left (low _ hla) hC0) la
  have lb' : T * (1 - x) ≤ t := _root_.le_trans (mul_le_mul_of_nonneg_left (low _ hlb) hpos.le) lb
  have h1x : 0 < 1 - x := by linarith
  have ua' : c * (1 - x) ≤ C := by
    calc c * (1 - x) ≤ C * (1 + 1 / 2 ^ 24) ^ as.length * (1 - x) := mul_le_mul_of_nonneg_right ua h1x.le
      _ = C * ((1 + 1 / 2 ^ 24) ^ as.length * (1 - x)) := by ring
      _ ≤ C * 1 := mul_le_mul_of_nonneg_left (up _ hla) hC0
      _ = C := mul_one C
  have ub' : t * (1 - x) ≤ T := by
    calc t * (1 - x) ≤ T * (1 + 1 / 2 ^ 24) ^ bs.length * (1 - x) := mul_le_mul_of_nonneg_right ub h1x.le
      _ = T * ((1 + 1 / 2 ^ 24) ^ bs.length * (1 - x)) := by ring
      _ ≤ T * 1 := mul_le_mul_of_nonneg_left (up _ hlb) hpos.le
      _ = T := mul_one T
  have ht0 : 0 < t := lt_of_lt_of_le (mul_pos hpos h1x) lb'
  set R := C / T with hR
  have hR0 : 0 ≤ R := div_nonneg hC0 hpos.le
  have hR1 : R ≤ 1 := (div_le_one hpos).2 hle
  have hCR : C = R * T := by rw [hR]; field_simp
  have q0 : 0 ≤ c / t := div_nonneg ga ht0.le
  have qu : c / t ≤ R * (1 + 4 * x) := by
    rw [div_le_iff₀ ht0]
    have h1 : c * (1 - x) ^ 2 ≤ R * t := by
      calc c * (1 - x) ^ 2 = (c * (1 - x)) * (1 - x) := by ring
        _ ≤ C * (1 - x) := mul_le_mul_of_nonneg_right ua' h1x.le
        _ = R * (T * (1 - x)) := by rw [hCR]; ring
        _ ≤ R * t := mul_le_mul_of_nonneg_left lb' hR0
    have h2 : 1 ≤ (1 - x) ^ 2 * (1 + 4 * x) := by
      have hx00 : 0 ≤ x := _root_.le_trans (by norm_num) hx0
      nlinarith [mul_nonneg hx00 hx00, mul_nonneg (mul_nonneg hx00 hx00) hx00]
    calc c = c * 1 := (mul_one c).symm
      _ ≤ c * ((1 - x) ^ 2 * (1 + 4 * x)) := mul_le_mul_of_nonneg_left h2 ga
      _ = (c * (1 - x) ^ 2) * (1 + 4 * x) := by ring
      _ ≤ R * t * (1 + 4 * x) := mul_le_mul_of_nonneg_right h1 (by linarith)
      _ = _ := by ring
  have ql : R * (1 - 2 * x) ≤ c / t := by
    rw [le_div_iff₀ ht0]
    have h1 : R * t * (1 - x) ^ 2 ≤ c := by
      calc R * t * (1 - x) ^ 2 = R * (t * (1 - x)) * (1 - x) := by ring
        _ ≤ R * T * (1 - x) := mul_le_mul_of_nonneg_right (mul_le_mul_of_nonneg_left ub' hR0) h1x.le
        _ = C * (1 - x) := by rw [hCR]
        _ ≤ c := la'
    have h2 : 1 - 2 * x ≤ (1 - x) ^ 2 := by nlinarith [sq_nonneg x]
    calc R * (1 - 2 * x) * t = R * t * (1 - 2 * x) := by ring
      _ ≤ R * t * (1 - x) ^ 2 := mul_le_mul_of_nonneg_left h2 (mul_nonneg hR0 ht0.le)
      _ ≤ c := h1
  have q1 : c / t ≤ 1 + n / 2 ^ 22 := by
    have : 1 + (n : ℚ) / 2 ^ 22 = 1 + 4 * x := by rw [hx]; ring
    rw [this]
    refine _root_.le_trans qu ?_
    nlinarith
  have q2 : c / t ≤ 2 := by
    have : (n : ℚ) / 2 ^ 22 ≤ 1 := by
      rw [div_le_one (by norm_num)]; exact_mod_cast hn
    linarith
  have hov : |toRat (floatSum as) / toRat (floatSum bs)| < ovf := by
    rw [abs_of_nonneg q0]
    refine lt_of_le_of_lt q2 ?_
    unfold ovf; norm_num
  have ht0' : toRat (floatSum bs) ≠ 0 := ne_of_gt ht0
  have e := toRat_div fa fb ht0' hov
  refine ⟨isFinite_div fa fb ht0' hov, ?_, ?_, ?_⟩
  · rw [e]; exact rnd_nonneg q0
  · rw [e]
    refine rnd_le_of_le ?_ q1
    refine Repr.of_mul_pow (M := 2 ^ 22 + n) (e := 127) ?_ ?_ ?_
    · rw [abs_of_nonneg (by positivity)]
      have : (n : ℤ) ≤ 2 ^ 22 := by exact_mod_cast hn
      omega
    · push_cast
      ring
    · have : (n : ℚ) / 2 ^ 22 ≤ 1 := by
        rw [div_le_one (by norm_num)]; exact_mod_cast hn
      rw [abs_of_nonneg (by positivity)]
      have : (1 : ℚ) + 1 < 2 ^ 128 := by norm_num
      linarith
  · rw [e]
    have hr := rnd_err (c / t)
    rw [abs_of_nonneg q0] at hr
    have hr2 : |rnd (c / t) - c / t| ≤ 2 * x := by
      refine _root_.le_trans hr (max_le ?_ ?_)
      · have : (1 : ℚ) / 2 ^ 150 ≤ 1 / 2 ^ 24 := by norm_num
        linarith
      · have : c / t / 2 ^ 24 ≤ 2 / 2 ^ 24 := div_le_div_of_nonneg_right q2 (by norm_num)
        linarith
    have h3 : |c / t - R| ≤ 4 * x := by
      rw [abs_le]
      have hx00 : 0 ≤ x := _root_.le_trans (by norm_num) hx0
      constructor <;> nlinarith
    have h4 : (n : ℚ) / 2 ^ 21 = 8 * x := by rw [hx]; ring
    have h5 := abs_sub_le (rnd (c / t)) (c / t) R
    have hx00 : 0 ≤ x := _root_.le_trans (by norm_num) hx0
    rw [h4]
    show |rnd (c / t) - R| ≤ 8 * x
    linarith

/-- The areas of the triangles are finite. -/
def AreasFinite (s : PartitionedMesh) : Prop :=
  ∀ p t, IsTriangle s p t → (fabs (Flip.signedArea t.1 t.2.1 t.2.2)).isFinite = true

theorem AreasFinite.ok {s : PartitionedMesh} (h : AreasFinite s) : AreasOk s :=
  fun p t ht => isNaN_of_isFinite (h p t ht)

theorem areasOf_eq {d : Data} {ps : List TriangleIndexPair} {as : List F32} (h : AreasOf (some d) ps as) :
    as = ps.map (areaAt d.meshes) := by
  unfold AreasOf at h
  induction h with
  | nil => rfl
  | cons h _ ih =>
    obtain ⟨t, ht, rfl⟩ := h
    rw [List.map_cons, areaAt_eq ht, ← ih]

theorem AreasOf.nonneg {s : PartitionedMesh} {ps : List TriangleIndexPair} {as : List F32} (h : AreasOf s ps as)
    (hf : AreasFinite s) : ∀ a ∈ as, a.isFinite = true ∧ 0 ≤ toRat a := by
  unfold AreasOf at h
  induction h with
  | nil => simp
  | cons h _ ih =>
    obtain ⟨t, ht, rfl⟩ := h
    intro a ha
    rcases List.mem_cons.1 ha with rfl | ha
    · have hfin := hf _ _ ht
      refine ⟨hfin, ?_⟩
      have := (le_iff (a := zero) rfl hfin).1 (le_zero_fabs (isNaN_of_isFinite hfin))
      rwa [toRat_zero] at this
    · exact ih a ha

/-- C17: `Coverage` is near the exact fraction of the area. For a shape of at most `2^22` triangles, whose areas, as
`float`s, are finite and have a positive sum of at most `2^127`: if `C` is the exact sum of the areas of the triangles
which intersect the query, and `T` the one of all triangles, then the result is within `n / 2^21` of `C / T`, where `n` is
the number of triangles; it is not negative, and at most `1 + n / 2^22`. (It can be more than one:
`C17_above_one_counterexample`.) -/
theorem C17_accurate_partial (S : Sorts) (hx : ∀ f l, (S.x f l).Perm l) (hy : ∀ f l, (S.y f l).Perm l)
    (s : PartitionedMesh) (hne : s ≠ none) (hs : Searchable s) (ha : AreasFinite s) (q : Query) (r : RectF)
    (hq : QueryFor s q r) (all : List TriangleIndexPair) (allAreas : List F32) (hall : AllTriangles s all)
    (hareas : AreasOf s all allAreas) (hn : all.length ≤ 2 ^ 22) (hpos : 0 < (allAreas.map toRat).sum)
    (hbig : (allAreas.map toRat).sum ≤ 2 ^ 127) :
    ∃ order areas cov, Found s q r order ∧ AreasOf s order areas ∧ s.coverage S q = some cov ∧ cov.isFinite = true ∧
      |toRat cov - (areas.map toRat).sum / (allAreas.map toRat).sum| ≤ all.length / 2 ^ 21 ∧
      0 ≤ toRat cov ∧ toRat cov ≤ 1 + all.length / 2 ^ 22 := by
  obtain ⟨order, areas, all', allAreas', h1, h2, h3, h4, h5, -⟩ := C17_meaning S hx hy s hne hs ha.ok q r hq
  cases s with
  | none => exact absurd rfl hne
  | some d =>
    have hperm : all'.Perm all := (List.perm_ext_iff_of_nodup h3.1 hall.1).2 fun p => by rw [h3.2, hall.2]
    have hsub : order.Subperm all := List.subperm_of_subset h1.1 fun p hp => by
      obtain ⟨t, ht, -⟩ := (h1.2 p).1 hp
      exact (hall.2 p).2 ⟨t, ht⟩
    have e1 := areasOf_eq h2
    have e2 := areasOf_eq h4
    have e3 := areasOf_eq hareas
    have hsum : (allAreas'.map toRat).sum = (allAreas.map toRat).sum := by
      rw [e2, e3]
      exact ((hperm.map _).map _).sum_eq
    have hle : (areas.map toRat).sum ≤ (allAreas.map toRat).sum := by
      obtain ⟨l, hl1, hl2⟩ := hsub
      have hsl : ((l.map (areaAt d.meshes)).map toRat).Sublist (allAreas.map toRat) := by
        rw [e3]; exact (hl2.map _).map _
      have : (areas.map toRat).sum = ((l.map (areaAt d.meshes)).map toRat).sum := by
        rw [e1]; exact ((hl1.symm.map _).map _).sum_eq
      rw [this]
      refine hsl.sum_le_sum ?_
      intro y hy
      obtain ⟨z, hz, rfl⟩ := List.mem_map.1 hy
      exact (hareas.nonneg ha z hz).2
    have q := quotient_near (n := all.length) (h2.nonneg ha) (h4.nonneg ha) (by rw [e1, List.length_map]; exact hsub.length_le)
      (by rw [e2, List.length_map]; exact hperm.length_eq.le) hn (by rw [hsum]; exact hle) (by rw [hsum]; exact hpos)
      (by rw [hsum]; exact hbig)
    rw [hsum] at q
    exact ⟨order, areas, _, h1, h2, h5, q.1, q.2.2.2, q.2.1, q.2.2.1⟩

end Verif.PMeshSpec
