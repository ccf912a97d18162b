import Verif.F32.Mono
import Verif.Spec.Mesh
import Verif.Props.MutableMesh

/-!
# Lemmas about `Mesh::Create`
-/

set_option autoImplicit false

namespace Verif.Mesh

open Verif Verif.Mesh.Spec

/-! ## Lists -/

theorem mapM_some {α β : Type} {f : α → Option β} {P : α → β → Prop} :
    ∀ (l : List α), (∀ x ∈ l, ∃ y, f x = some y ∧ P x y) →
    ∃ r, l.mapM f = some r ∧ List.Forall₂ P l r
  | [], _ => ⟨[], rfl, List.Forall₂.nil⟩
  | x :: l, h => by
    obtain ⟨y, hy, hp⟩ := h x (by simp)
    obtain ⟨r, hr, hP⟩ := mapM_some l (fun z hz => h z (by simp [hz]))
    exact ⟨y :: r, by simp [hy, hr], List.Forall₂.cons hp hP⟩

theorem forall₂_left {α β : Type} {P : α → β → Prop} {l : List α} {r : List β}
    (h : List.Forall₂ P l r) {i : Nat} {x : α} (hx : l[i]? = some x) :
    ∃ y, r[i]? = some y ∧ P x y := by
  induction h generalizing i with
  | nil => simp at hx
  | cons hp _ ih =>
    cases i with
    | zero => simp at hx; subst hx; exact ⟨_, rfl, hp⟩
    | succ i => simp at hx; simpa using ih hx

theorem forall₂_right {α β : Type} {P : α → β → Prop} {l : List α} {r : List β}
    (h : List.Forall₂ P l r) {i : Nat} {y : β} (hy : r[i]? = some y) :
    ∃ x, l[i]? = some x ∧ P x y := by
  induction h generalizing i with
  | nil => simp at hy
  | cons hp _ ih =>
    cases i with
    | zero => simp at hy; subst hy; exact ⟨_, rfl, hp⟩
    | succ i => simp at hy; simpa using ih hy

/-! ## Smallest and largest -/

theorem foldl_min (xs : List F32) : ∀ m : F32, m.isFinite = true → (∀ x ∈ xs, x.isFinite = true) →
    ∀ r, r = xs.foldl (fun m y => if F32.lt y m then y else m) m →
    r ∈ m :: xs ∧ ∀ v ∈ m :: xs, F32.le r v = true := by
  induction xs with
  | nil =>
    intro m hm _ r hr
    simp at hr; subst hr
    exact ⟨by simp, by simp [F32.le_refl (F32.isNaN_of_isFinite hm)]⟩
  | cons x xs ih =>
    intro m hm hx r hr
    have hxf := hx x (by simp)
    rw [List.foldl_cons] at hr
    have hk : (if F32.lt x m then x else m).isFinite = true := by split_ifs <;> assumption
    obtain ⟨h1, h2⟩ := ih _ hk (fun y hy => hx y (by simp [hy])) r hr
    have nm := F32.isNaN_of_isFinite hm
    have nx := F32.isNaN_of_isFinite hxf
    have hb := h2 _ (List.mem_cons_self)
    have hkm : F32.le (if F32.lt x m then x else m) m = true ∧
        F32.le (if F32.lt x m then x else m) x = true := by
      by_cases hc : F32.lt x m = true
      · rw [if_pos hc]
        refine ⟨?_, F32.le_refl nx⟩
        simp [F32.lt] at hc
        exact F32.le_of_key nx nm (by omega)
      · rw [if_neg hc]
        exact ⟨F32.le_refl nm, (F32.not_lt_iff nx nm).1 (by simpa using hc)⟩
    refine ⟨?_, ?_⟩
    · rcases List.mem_cons.1 h1 with h | h
      · rw [h]; split_ifs <;> simp
      · simp [h]
    · intro v hv
      rcases List.mem_cons.1 hv with rfl | hv
      · exact F32.le_trans hb hkm.1
      · rcases List.mem_cons.1 hv with rfl | hv
        · exact F32.le_trans hb hkm.2
        · exact h2 v (by simp [hv])

theorem foldl_max (xs : List F32) : ∀ m : F32, m.isFinite = true → (∀ x ∈ xs, x.isFinite = true) →
    ∀ r, r = xs.foldl (fun m y => if F32.lt y m then m else y) m →
    r ∈ m :: xs ∧ ∀ v ∈ m :: xs, F32.le v r = true := by
  induction xs with
  | nil =>
    intro m hm _ r hr
    simp at hr; subst hr
    exact ⟨by simp, by simp [F32.le_refl (F32.isNaN_of_isFinite hm)]⟩
  | cons x xs ih =>
    intro m hm hx r hr
    have hxf := hx x (by simp)
    rw [List.foldl_cons] at hr
    have hk : (if F32.lt x m then m else x).isFinite = true := by split_ifs <;> assumption
    obtain ⟨h1, h2⟩ := ih _ hk (fun y hy => hx y (by simp [hy])) r hr
    have nm := F32.isNaN_of_isFinite hm
    have nx := F32.isNaN_of_isFinite hxf
    have hb := h2 _ (List.mem_cons_self)
    have hkm : F32.le m (if F32.lt x m then m else x) = true ∧
        F32.le x (if F32.lt x m then m else x) = true := by
      by_cases hc : F32.lt x m = true
      · rw [if_pos hc]
        refine ⟨F32.le_refl nm, ?_⟩
        simp [F32.lt] at hc
        exact F32.le_of_key nx nm (by omega)
      · rw [if_neg hc]
        exact ⟨(F32.not_lt_iff nx nm).1 (by simpa using hc), F32.le_refl nx⟩
    refine ⟨?_, ?_⟩
    · rcases List.mem_cons.1 h1 with h | h
      · rw [h]; split_ifs <;> simp
      · simp [h]
    · intro v hv
      rcases List.mem_cons.1 hv with rfl | hv
      · exact F32.le_trans hkm.1 hb
      · rcases List.mem_cons.1 hv with rfl | hv
        · exact F32.le_trans hkm.2 hb
        · exact h2 v (by simp [hv])

/-- `lo` and `hi` are the smallest and the largest element of `s`. -/
structure MinMax (s : List F32) (lo hi : F32) : Prop where
  lo_mem : lo ∈ s
  hi_mem : hi ∈ s
  lo_le : ∀ v ∈ s, F32.le lo v = true
  le_hi : ∀ v ∈ s, F32.le v hi = true

theorem minmax_eq (s : List F32) (h0 : s ≠ []) (hf : ∀ x ∈ s, x.isFinite = true) :
    ∃ p, minmaxElement s = some p ∧ MinMax s p.1 p.2 := by
  cases s with
  | nil => exact absurd rfl h0
  | cons x xs =>
    have hx := hf x (by simp)
    have hxs : ∀ y ∈ xs, y.isFinite = true := fun y hy => hf y (by simp [hy])
    obtain ⟨a1, a2⟩ := foldl_min xs x hx hxs _ rfl
    obtain ⟨b1, b2⟩ := foldl_max xs x hx hxs _ rfl
    exact ⟨_, rfl, a1, b1, a2, b2⟩

/-- The bounds of one attribute. -/
structure GroupBounds (g : List (List F32)) (b : List F32 × List F32) : Prop where
  len1 : b.1.length = g.length
  len2 : b.2.length = g.length
  each : ∀ (k : Nat) (s : List F32) (lo hi : F32), g[k]? = some s → b.1[k]? = some lo →
    b.2[k]? = some hi → MinMax s lo hi

theorem computeAttributeBounds_eq (gs : List (List (List F32)))
    (h0 : ∀ g ∈ gs, ∀ s ∈ g, s ≠ []) (hf : ∀ g ∈ gs, ∀ s ∈ g, ∀ x ∈ s, x.isFinite = true) :
    ∃ b, computeAttributeBounds gs = some b ∧ List.Forall₂ GroupBounds gs b := by
  apply mapM_some
  intro g hg
  obtain ⟨mm, h1, h2⟩ := mapM_some (P := fun s (p : F32 × F32) => MinMax s p.1 p.2) g
    (fun s hs => minmax_eq s (h0 g hg s hs) (hf g hg s hs))
  refine ⟨_, by rw [h1]; rfl, ?_⟩
  have hl := h2.length_eq
  refine ⟨by simp [hl], by simp [hl], ?_⟩
  intro k s lo hi hs hlo hhi
  obtain ⟨p, hp, hm⟩ := forall₂_left h2 hs
  simp [hp] at hlo hhi
  subst hlo hhi
  exact hm

/-! ## Spans -/

theorem spanGroups_eq (as : List Attribute) :
    ∀ spans : List (List F32), (∀ a ∈ as, componentCount a.type = some (components a.type)) →
    ∃ gs, spanGroups as spans = some gs ∧ gs.length = as.length ∧
      ∀ j, j < as.length → gs[j]? =
        some (spansOf (as.map fun a => (a.type, a.id)) spans j) := by
  induction as with
  | nil => intro spans _; exact ⟨[], rfl, rfl, by simp⟩
  | cons a as ih =>
    intro spans h
    obtain ⟨gs, h1, h2, h3⟩ := ih (spans.drop (components a.type)) (fun b hb => h b (by simp [hb]))
    refine ⟨spans.take (components a.type) :: gs, ?_, by simp [h2], ?_⟩
    · simp only [spanGroups, h a (by simp), Option.bind_eq_bind, Option.bind_some, h1]
    · intro j hj
      cases j with
      | zero => simp [spansOf]
      | succ j =>
        simp only [List.getElem?_cons_succ]
        rw [h3 j (by simpa using hj)]
        simp [spansOf]

/-! ## Monotonicity of packing -/

theorem representable_between {b : Nat} {c : Coding} {lo v hi : F32}
    (hc : c.offset.isFinite = true ∧ c.scale.isFinite = true ∧ F32.lt F32.zero c.scale = true)
    (flo : lo.isFinite = true) (fv : v.isFinite = true) (fhi : hi.isFinite = true)
    (h1 : F32.le lo v = true) (h2 : F32.le v hi = true)
    (r1 : Representable b c lo) (r2 : Representable b c hi) : Representable b c v := by
  have hs : 0 < F32.toRat c.scale := by
    have := (F32.lt_iff (by rfl) hc.2.1).1 hc.2.2
    rwa [F32.toRat_zero] at this
  have a1 := F32.fround_le_fround
    (F32.div_le_div_right hc.2.1 hs (F32.sub_le_sub_right flo fv hc.1 h1))
  have a2 := F32.fround_le_fround
    (F32.div_le_div_right hc.2.1 hs (F32.sub_le_sub_right fv fhi hc.1 h2))
  exact ⟨F32.le_trans r1.1 a1, F32.le_trans a2 r2.2⟩

theorem representable_pack {b : Nat} (hb : b ≤ 20) {c : Coding} {v : F32}
    (h : Representable b c v) : ∃ k : Nat, packSingleFloat c v = some k ∧ k < 2 ^ b ∧
      F32.toRat (F32.fround (F32.div (F32.sub v c.offset) c.scale)) = k := by
  obtain ⟨h1, h2⟩ := h
  have hpow : 2 ^ b ≤ 2 ^ 20 := Nat.pow_le_pow_right (by norm_num) hb
  have hpow0 : 1 ≤ 2 ^ b := Nat.one_le_two_pow
  have e : ((2 : Int) ^ b - 1) = ((2 ^ b - 1 : Nat) : Int) := by
    rw [Nat.cast_sub hpow0]; simp
  rw [e] at h2
  have fM : (floatOfU32 (2 ^ b - 1)).isFinite = true := isFinite_floatOfU32 (by omega)
  have tM : F32.toRat (floatOfU32 (2 ^ b - 1)) = ((2 ^ b - 1 : Nat) : ℚ) := toRat_floatOfU32 (by omega)
  set q := F32.div (F32.sub v c.offset) c.scale with hq
  have fp : (F32.fround q).isFinite = true := F32.isFinite_of_between (by rfl) fM h1 h2
  have fq : q.isFinite = true := by
    cases hq' : q with
    | nan => rw [hq'] at fp; simp [F32.fround, F32.isFinite] at fp
    | inf s => rw [hq'] at fp; simp [F32.fround, F32.isFinite] at fp
    | fin s n hn => rfl
  have t1 := (F32.le_iff (by rfl) fp).1 h1
  have t2 := (F32.le_iff fp fM).1 h2
  rw [F32.toRat_zero] at t1
  rw [tM] at t2
  obtain ⟨z, hz⟩ : ∃ z : ℤ, F32.toRat (F32.fround q) = z := by
    obtain ⟨s, n, hn, hqq⟩ := F32.exists_of_isFinite fq
    rw [hqq, F32.toRat_fround_abs]
    cases s
    · exact ⟨_, by simp; rfl⟩
    · exact ⟨-⌊(mag n : ℚ) / 2 ^ 149 + 1 / 2⌋, by simp⟩
  rw [hz] at t1 t2
  have z0 : 0 ≤ z := by exact_mod_cast t1
  have z1 : z ≤ ((2 ^ b - 1 : Nat) : Int) := by exact_mod_cast t2
  have hz' : F32.toRat (F32.fround q) = (z.toNat : ℕ) := by
    rw [hz]
    have : ((z.toNat : ℕ) : ℤ) = z := Int.toNat_of_nonneg z0
    exact_mod_cast congrArg (Int.cast (R := ℚ)) this.symm
  refine ⟨z.toNat, ?_, by omega, hz'⟩
  unfold packSingleFloat
  rw [← hq]
  exact u32OfFloat_of_toRat fp hz' (by omega)

/-- The check of the code, for a value that is not NaN after the division. -/
theorem representable_check {b : Nat} (hb : b ≤ 20) {c : Coding} {v : F32}
    (hc : c.offset.isFinite = true ∧ c.scale.isFinite = true ∧ F32.lt F32.zero c.scale = true)
    (fv : v.isFinite = true) :
    (F32.lt (F32.fround (F32.div (F32.sub v c.offset) c.scale)) F32.zero = false ∧
      F32.gt (F32.fround (F32.div (F32.sub v c.offset) c.scale)) (floatOfU32 (maxValueForBits b))
        = false) ↔ Representable b c v := by
  have hs : 0 < F32.toRat c.scale := by
    have := (F32.lt_iff (by rfl) hc.2.1).1 hc.2.2
    rwa [F32.toRat_zero] at this
  have a := F32.le_refl (F32.key_sub fv hc.1).1
  have a := (F32.le_key (F32.fround_le_fround (F32.div_le_div_right hc.2.1 hs a))).1
  have hpow : 2 ^ b ≤ 2 ^ 20 := Nat.pow_le_pow_right (by norm_num) hb
  have hpow0 : 1 ≤ 2 ^ b := Nat.one_le_two_pow
  have e : ((2 : Int) ^ b - 1) = ((2 ^ b - 1 : Nat) : Int) := by
    rw [Nat.cast_sub hpow0]; simp
  unfold Representable
  rw [e, maxValueForBits_eq hb]
  change _ ↔ _ ∧ F32.le _ (floatOfU32 (2 ^ b - 1)) = true
  rw [F32.not_lt_iff a (by rfl)]
  have fM : (floatOfU32 (2 ^ b - 1)).isFinite = true := isFinite_floatOfU32 (by omega)
  rw [F32.gt, F32.not_lt_iff (F32.isNaN_of_isFinite fM) a]

theorem representableLoop_iff : ∀ (bs : List Nat) (cs : List Coding) (vs : List F32),
    cs.length = bs.length → vs.length = bs.length → (∀ b ∈ bs, b ≤ 20) →
    (∀ c ∈ cs, c.offset.isFinite = true ∧ c.scale.isFinite = true ∧
      F32.lt F32.zero c.scale = true) → (∀ v ∈ vs, v.isFinite = true) →
    (representableLoop bs cs vs = true ↔ ∀ (k b : Nat) (c : Coding) (v : F32),
      bs[k]? = some b → cs[k]? = some c → vs[k]? = some v → Representable b c v) := by
  intro bs
  induction bs with
  | nil =>
    intro cs vs h1 h2 _ _ _
    simp [representableLoop]
  | cons b bs ih =>
    intro cs vs h1 h2 hb hc hv
    cases cs with
    | nil => simp at h1
    | cons c cs =>
    cases vs with
    | nil => simp at h2
    | cons v vs =>
    have ch := representable_check (hb b (by simp)) (hc c (by simp)) (hv v (by simp))
    have ih' := ih cs vs (by simpa using h1) (by simpa using h2) (fun b hb' => hb b (by simp [hb']))
      (fun c hc' => hc c (by simp [hc'])) (fun v hv' => hv v (by simp [hv']))
    rw [representableLoop]
    constructor
    · intro h k b' c' v' e1 e2 e3
      split_ifs at h with hh
      simp only [Bool.or_eq_true, not_or, Bool.not_eq_true] at hh
      cases k with
      | zero =>
        simp at e1 e2 e3; subst e1 e2 e3
        exact ch.1 hh
      | succ k => exact ih'.1 h k b' c' v' (by simpa using e1) (by simpa using e2) (by simpa using e3)
    · intro h
      have := ch.2 (h 0 b c v rfl rfl rfl)
      rw [if_neg (by simp [this.1, this.2])]
      exact ih'.2 fun k b' c' v' e1 e2 e3 => h (k + 1) b' c' v' (by simpa using e1) (by simpa using e2)
        (by simpa using e3)

/-! ## Packing the vertices -/

theorem write_at_end (P Z B : List Nat) (h : B.length ≤ Z.length) :
    writeBytes P.length B (P ++ Z) = some (P ++ B ++ Z.drop B.length) := by
  have := write_block P (Z.take B.length) (Z.drop B.length) B (by simp; omega)
  rwa [List.append_assoc P, List.take_append_drop] at this

theorem packVertexAttrs_eq (off v : Nat) : ∀ (as : List Attribute) (css : List (List Coding))
    (gs : List (List (List F32))) (blks : List (List Nat)) (P Z : List Nat),
    css.length = as.length → gs.length = as.length → blks.length = as.length →
    (∀ (j : Nat) (a : Attribute) (cs : List Coding) (g : List (List F32)) (blk : List Nat),
      as[j]? = some a → css[j]? = some cs → gs[j]? = some g → blks[j]? = some blk →
      (∃ value, g.mapM (·[v]?) = some value ∧ packAttribute a.type cs value = some blk) ∧
      off + a.packedOffset = P.length + ((blks.take j).map List.length).sum) →
    blks.flatten.length ≤ Z.length →
    packVertexAttrs off v as css gs (P ++ Z) =
      some (P ++ blks.flatten ++ Z.drop blks.flatten.length) := by
  intro as
  induction as with
  | nil =>
    intro css gs blks P Z h1 h2 h3 _ _
    have : blks = [] := List.length_eq_zero_iff.1 (by simpa using h3)
    subst this
    simp [packVertexAttrs]
  | cons a as ih =>
    intro css gs blks P Z h1 h2 h3 h hZ
    cases css with
    | nil => simp at h1
    | cons cs css =>
    cases gs with
    | nil => simp at h2
    | cons g gs =>
    cases blks with
    | nil => simp at h3
    | cons blk blks =>
    obtain ⟨⟨value, e1, e2⟩, e3⟩ := h 0 a cs g blk rfl rfl rfl rfl
    simp only [List.flatten_cons, List.length_append] at hZ
    have e3' : off + a.packedOffset = P.length := by simpa using e3
    simp only [packVertexAttrs, e1, e2, Option.bind_eq_bind, Option.bind_some, e3']
    rw [write_at_end P Z blk (by omega)]
    simp only [Option.bind_some]
    rw [ih css gs blks (P ++ blk) (Z.drop blk.length) (by simpa using h1) (by simpa using h2)
      (by simpa using h3)]
    · simp only [List.flatten_cons, List.append_assoc, List.drop_drop, List.length_append]
    · intro j a' cs' g' blk' q1 q2 q3 q4
      obtain ⟨r1, r2⟩ := h (j + 1) a' cs' g' blk' (by simpa using q1) (by simpa using q2)
        (by simpa using q3) (by simpa using q4)
      refine ⟨r1, ?_⟩
      rw [r2]; simp; omega
    · rw [List.length_drop]; omega

theorem packVertices_eq (f : MeshFormat) (css : List (List Coding)) (gs : List (List (List F32)))
    (B : Nat → List (List Nat)) (h1 : css.length = f.attributes.length)
    (h2 : gs.length = f.attributes.length) (n : Nat)
    (h : ∀ i, i < n → (B i).length = f.attributes.length ∧ (B i).flatten.length = f.packedStride ∧
      ∀ (j : Nat) (a : Attribute) (cs : List Coding) (g : List (List F32)) (blk : List Nat),
        f.attributes[j]? = some a → css[j]? = some cs → gs[j]? = some g → (B i)[j]? = some blk →
        (∃ value, g.mapM (·[i]?) = some value ∧ packAttribute a.type cs value = some blk) ∧
        a.packedOffset = (((B i).take j).map List.length).sum) :
    ∀ (k v : Nat) (P Z : List Nat), v + k = n → P.length = v * f.packedStride →
      Z.length = k * f.packedStride →
      packVertices f css gs v k (P ++ Z) =
        some (P ++ (List.range' v k).flatMap fun i => (B i).flatten) := by
  intro k
  induction k with
  | zero =>
    intro v P Z _ _ hZ
    have : Z = [] := List.length_eq_zero_iff.1 (by simpa using hZ)
    subst this
    simp [packVertices]
  | succ k ih =>
    intro v P Z hv hP hZ
    obtain ⟨b1, b2, b3⟩ := h v (by omega)
    have hZ' : Z.length = k * f.packedStride + f.packedStride := by rw [hZ]; ring
    simp only [packVertices, Option.bind_eq_bind]
    rw [packVertexAttrs_eq (v * f.packedStride) v f.attributes css gs (B v) P Z h1 h2 b1]
    · simp only [Option.bind_some]
      rw [ih (v + 1) (P ++ (B v).flatten) (Z.drop (B v).flatten.length) (by omega)]
      · simp [List.range'_succ]
      · rw [List.length_append, hP, b2]; ring
      · rw [List.length_drop, b2]; omega
    · intro j a cs g blk q1 q2 q3 q4
      obtain ⟨r1, r2⟩ := b3 j a cs g blk q1 q2 q3 q4
      exact ⟨r1, by rw [r2, hP]⟩
    · rw [b2]; omega

theorem read_packed {stride n : Nat} (B : Nat → List (List Nat))
    (h : ∀ i, i < n → (B i).flatten.length = stride) (i j : Nat) (hi : i < n) (blk : List Nat)
    (hb : (B i)[j]? = some blk) :
    readBytes (i * stride + (((B i).take j).map List.length).sum) blk.length
      ((List.range' 0 n).flatMap fun i => (B i).flatten) = some blk := by
  have e1 : List.range' 0 n = List.range' 0 i ++ i :: List.range' (i + 1) (n - i - 1) := by
    have : n = i + (1 + (n - i - 1)) := by omega
    conv_lhs => rw [this, ← List.range'_append_1 (s := 0) (m := i), ← List.range'_append_1]
    simp
  have hj := (List.getElem?_eq_some_iff.1 hb).1
  have hbj := (List.getElem?_eq_some_iff.1 hb).2
  have e2 : B i = (B i).take j ++ blk :: (B i).drop (j + 1) := by
    rw [← hbj]; simp
  have hl : ((List.range' 0 i).flatMap fun i => (B i).flatten).length = i * stride := by
    rw [length_blocks (k := stride)]
    · simp
    · intro x hx; apply h; have := List.mem_range'_1.1 hx; omega
  rw [e1, List.flatMap_append, List.flatMap_cons]
  have e3 : (B i).flatten = ((B i).take j).flatten ++ blk ++ ((B i).drop (j + 1)).flatten := by
    conv_lhs => rw [e2]
    simp
  rw [e3]
  have := read_block (((List.range' 0 i).flatMap fun i => (B i).flatten) ++ ((B i).take j).flatten)
    blk (((B i).drop (j + 1)).flatten ++
      (List.range' (i + 1) (n - i - 1)).flatMap fun i => (B i).flatten)
  rw [List.length_append, hl, List.length_flatten] at this
  simpa only [List.append_assoc] using this

/-! ## Writing the triangles -/

theorem length_triples : ∀ tris : List Nat, 3 ∣ tris.length → (triples tris).length * 3 = tris.length
  | [], _ => rfl
  | [_], h => by simp at h
  | [_, _], h => by simp at h
  | _ :: _ :: _ :: rest, h => by
    have := length_triples rest (by simp at h; omega)
    simp [triples]; omega

theorem writeTris_eq : ∀ (tris : List Nat) (i : Nat) (done rest : List Tri), 3 ∣ tris.length →
    i = done.length → rest.length = (triples tris).length →
    writeTris i tris (indexBytesOf 2 (done ++ rest)) =
      some (indexBytesOf 2 (done ++ triples tris))
  | [], i, done, rest, _, _, hr => by
    have : rest = [] := List.length_eq_zero_iff.1 (by simpa [triples] using hr)
    subst this; simp [writeTris, triples]
  | [_], _, _, _, h, _, _ => by simp at h
  | [_, _], _, _, _, h, _, _ => by simp at h
  | a :: b :: c :: tris, i, done, rest, h, hi, hr => by
    cases rest with
    | nil => simp [triples] at hr
    | cons r rest =>
    subst hi
    simp only [writeTris, kBytesPerIndex, Option.bind_eq_bind]
    rw [C40_write_triangle 2 (Or.inl rfl) _ _ _ (by simp)]
    simp only [Option.bind_some]
    have e : (done ++ r :: rest).set done.length (a, b, c) = (done ++ [(a, b, c)]) ++ rest := by
      simp
    rw [e, writeTris_eq tris (done.length + 1) (done ++ [(a, b, c)]) rest (by simp at h; omega)
      (by simp) (by simpa [triples] using hr)]
    simp [triples]

theorem writeTris_all (tris : List Nat) (h : 3 ∣ tris.length) :
    writeTris 0 tris (List.replicate (2 * tris.length) 0) = some (indexBytesOf 2 (triples tris)) := by
  have e : List.replicate (2 * tris.length) 0 =
      indexBytesOf 2 ([] ++ List.replicate (triples tris).length ((0, 0, 0) : Tri)) := by
    have hl := length_triples tris h
    rw [List.nil_append, indexBytesOf_blocks, List.flatMap_replicate, encTri_zero, eq_comm,
      List.eq_replicate_iff]
    constructor
    · simp; omega
    · intro b hb
      simp at hb; tauto
  rw [e, writeTris_eq tris 0 [] _ h rfl (by simp)]
  rfl

end Verif.Mesh
