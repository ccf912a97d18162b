import Verif.Spec.TipState
import Verif.Props.BrushBehavior
import Verif.Props.Angle
import Verif.Props.Duration

/-!
# C33, C34: the tip state made from modifiers
-/

set_option autoImplicit false

namespace Verif.Tip

open F32 TipSpec

/-! ## Modifiers combine property by property -/

section
variable {α : Type} [Zero α] [One α] [Add α] [Mul α]

omit [Zero α] [One α] [Add α] [Mul α] in
theorem valuesFor_concat (p : Target → Bool) (l : List (Target × α)) (tv : Target × α) :
    valuesFor p (l ++ [tv]) = valuesFor p l ++ if p tv.1 then [tv.2] else [] := by
  unfold valuesFor
  rw [List.filter_append, List.map_append]
  congr 1
  cases h : p tv.1 <;> simp [h]

omit [Zero α] [Add α] in
theorem product_concat (l : List α) (v : α) : product (l ++ [v]) = product l * v := by
  simp [product]

omit [One α] [Mul α] in
theorem sum_concat (l : List α) (v : α) : sum (l ++ [v]) = sum l + v := by
  simp [sum]

/-- C34. For any arithmetic, the accumulated modifiers are those of each property combined by itself:
modifiers for different properties do not interact. -/
theorem C34_combined (size : α) (fwd lat : Option (α × α)) (l : List (Target × α)) :
    accumulate size fwd lat l = combined size fwd lat l := by
  induction l using List.reverseRecOn with
  | nil => rfl
  | append_singleton l tv ih =>
    obtain ⟨t, v⟩ := tv
    unfold accumulate at ih ⊢
    rw [List.foldl_append, ih]
    simp only [List.foldl_cons, List.foldl_nil]
    cases t <;>
      simp [applyModifier, combined, valuesFor_concat, List.filterMap_append, shift, forWidth,
        forHeight, only, product_concat, sum_concat]
    · cases fwd <;> simp [sum_concat]
    · cases lat <;> simp [sum_concat]

/-- C34. Modifiers with the same subsequence for every property give the same accumulated modifiers,
in any arithmetic, binary32 included: modifiers of different properties may be exchanged. -/
theorem C34_interleaving {l l' : List (Target × α)} (size : α) (fwd lat : Option (α × α))
    (hw : l.filter (fun tv => forWidth tv.1) = l'.filter fun tv => forWidth tv.1)
    (hh : l.filter (fun tv => forHeight tv.1) = l'.filter fun tv => forHeight tv.1)
    (hx : l.filterMap (fun tv => (shift size fwd lat tv).1)
      = l'.filterMap fun tv => (shift size fwd lat tv).1)
    (hy : l.filterMap (fun tv => (shift size fwd lat tv).2)
      = l'.filterMap fun tv => (shift size fwd lat tv).2)
    (ho : ∀ t, l.filter (fun tv => only t tv.1) = l'.filter fun tv => only t tv.1) :
    accumulate size fwd lat l = accumulate size fwd lat l' := by
  rw [C34_combined, C34_combined]
  unfold combined valuesFor
  simp only [hw, hh, hx, hy, ho]

end

/-- C34. In exact arithmetic the order of the modifiers, and so of the behaviors, does not matter. -/
theorem C34_exact {α : Type} [CommSemiring α] (size : α) (fwd lat : Option (α × α))
    {l l' : List (Target × α)} (h : l.Perm l') :
    accumulate size fwd lat l = accumulate size fwd lat l' := by
  have hp : ∀ {a b : List α}, a.Perm b → product a = product b := by
    intro a b h
    exact h.foldl_eq' (fun x _ y _ z => by rw [mul_right_comm]) 1
  have hs : ∀ {a b : List α}, a.Perm b → sum a = sum b := by
    intro a b h
    exact h.foldl_eq' (fun x _ y _ z => by rw [add_right_comm]) 0
  have hv : ∀ p, (valuesFor p l).Perm (valuesFor p l') := fun p => (h.filter _).map _
  rw [C34_combined, C34_combined]
  unfold combined
  rw [hs (h.filterMap _), hs (h.filterMap (fun tv => (shift size fwd lat tv).2)),
    hp (hv _), hp (hv forHeight), hs (hv _), hs (hv (only .cornerRoundingOffset)),
    hs (hv (only .rotationOffset)), hs (hv (only .pinchOffset)), hs (hv (only .hueOffset)),
    hp (hv (only .saturationMultiplier)), hs (hv (only .luminosity)), hp (hv (only .opacityMultiplier))]

/-! ### binary32 -/

theorem add_comm' (a b : F32) : F32.add a b = F32.add b a := by
  cases a <;> cases b <;> simp only [F32.add]
  all_goals first
    | rfl
    | (rename_i s t; cases s <;> cases t <;> rfl)
    | skip
  rename_i s n h t m h'
  rw [_root_.add_comm, Bool.and_comm]

theorem one_mul' (a : F32) : F32.mul one a = a := by
  cases a with
  | nan => rfl
  | inf s => cases s <;> rfl
  | fin t m h =>
    have h1 : (mag 0x3F800000 : ℚ) / 2 ^ 149 = 1 := by decide +kernel
    show packRound (xor false t) ((mag 0x3F800000 : ℚ) / 2 ^ 149 * ((mag m : ℚ) / 2 ^ 149)) = _
    rw [h1, _root_.one_mul, Bool.false_xor]
    unfold packRound
    rw [div_mul_cancel₀ _ (by positivity), roundPat_mag, pack_of_lt h]

theorem ofRat_toRat_of_ne {t : Bool} {m : Nat} (h : m < infPat) (h0 : toRat (fin t m h) ≠ 0) :
    ofRat (toRat (fin t m h)) = fin t m h := by
  have hf := isFinite_ofRat_iff.2 (Repr.toRat (fin t m h)).lt_ovf
  obtain ⟨s, n, hn, e⟩ := exists_of_isFinite hf
  have hr : toRat (fin s n hn) = toRat (fin t m h) := by
    rw [← e, toRat_ofRat (Repr.toRat _).lt_ovf, rnd_toRat]
  rw [e]
  have ha : mag n = mag m := by
    have := congrArg abs hr
    rw [abs_toRat_fin, abs_toRat_fin, div_left_inj' (by positivity)] at this
    exact_mod_cast this
  have hnm := mag_inj.1 ha
  subst hnm
  have hn0 : (0 : ℚ) < mag n := by
    have : mag n ≠ 0 := by
      intro h'; apply h0; cases t <;> simp [toRat_fin_false, toRat_fin_true, h']
    positivity
  cases s <;> cases t <;> first
    | rfl
    | (exfalso
       rw [toRat_fin_false, toRat_fin_true] at hr
       have : (0 : ℚ) < mag n / 2 ^ 149 := by positivity
       linarith)

/-- Adding 0 first does not matter. -/
theorem zero_add_add (a b : F32) :
    F32.add (F32.add zero a) b = F32.add (F32.add zero b) a := by
  have hz : ∀ a : F32, F32.add zero a = a ∨
      (F32.add zero a = zero ∧ a = fin true 0 (by decide)) := by
    intro a
    cases a with
    | nan => left; rfl
    | inf s => left; rfl
    | fin t m h =>
      have e : F32.add zero (fin t m h) = if toRat zero + toRat (fin t m h) = 0 then szero (false && t)
          else ofRat (toRat zero + toRat (fin t m h)) := rfl
      rw [e, toRat_zero, _root_.zero_add]
      by_cases h0 : toRat (fin t m h) = 0
      · rw [if_pos h0]
        have hm : m = 0 := by
          have := abs_toRat_fin t m h
          rw [h0, abs_zero] at this
          have h2 : (mag m : ℚ) = 0 := by
            have := this.symm
            rwa [div_eq_zero_iff, or_iff_left (by positivity)] at this
          exact mag_eq_zero.1 (by exact_mod_cast h2)
        subst hm
        cases t
        · left; rfl
        · right; exact ⟨rfl, rfl⟩
      · left; rw [if_neg h0, ofRat_toRat_of_ne h h0]
  have main : ∀ b : F32, F32.add zero b = F32.add b (fin true 0 (by decide)) ∨
      b = fin true 0 (by decide) := by
    intro b
    cases b with
    | nan => left; rfl
    | inf s => left; rfl
    | fin t m h =>
      have hzz : toRat (fin true 0 (by decide)) = 0 := by decide +kernel
      have e1 : F32.add zero (fin t m h) = if toRat zero + toRat (fin t m h) = 0 then szero (false && t)
          else ofRat (toRat zero + toRat (fin t m h)) := rfl
      have e2 : F32.add (fin t m h) (fin true 0 (by decide)) =
          if toRat (fin t m h) + toRat (fin true 0 (by decide)) = 0 then szero (t && true)
          else ofRat (toRat (fin t m h) + toRat (fin true 0 (by decide))) := rfl
      rw [e1, e2, hzz, toRat_zero, _root_.zero_add, _root_.add_zero]
      by_cases h0 : toRat (fin t m h) = 0
      · rw [if_pos h0, if_pos h0]
        cases t
        · left; rfl
        · right
          have := abs_toRat_fin true m h
          rw [h0, abs_zero] at this
          have h2 : (mag m : ℚ) = 0 := by
            have := this.symm
            rwa [div_eq_zero_iff, or_iff_left (by positivity)] at this
          have := mag_eq_zero.1 (by exact_mod_cast h2 : mag m = 0)
          subst this; rfl
      · left; rw [if_neg h0, if_neg h0]
  rcases hz a with ha | ⟨ha, rfl⟩
  · rcases hz b with hb | ⟨hb, rfl⟩
    · rw [ha, hb, add_comm']
    · rw [ha, hb]
      rcases main a with h | rfl
      · exact h.symm
      · exact absurd (ha.symm.trans hb) (by decide)
  · rcases hz b with hb | ⟨hb, rfl⟩
    · rw [ha]
      conv_rhs => rw [hb]
      rcases main b with h | rfl
      · exact h
      · exact absurd (hb.symm.trans ha) (by decide)
    · rfl

theorem perm_two {f : List F32 → F32} (hf : ∀ a b, f [a, b] = f [b, a]) {l l' : List F32}
    (h : l.Perm l') (hl : l.length ≤ 2) : f l = f l' := by
  match l, hl with
  | [], _ => rw [h.nil_eq]
  | [a], _ => rw [List.singleton_perm.1 h]
  | [a, b], _ =>
    have hlen := h.length_eq
    match l', hlen with
    | [c, d], _ =>
      rcases List.mem_cons.1 (h.subset (List.mem_cons_self)) with hac | hac
      · subst hac
        have := (List.perm_cons a).1 h
        rw [List.singleton_perm.1 this]
      · have hac : a = d := by simpa using hac
        subst hac
        have h2 : [a, b].Perm [a, c] := h.trans (List.Perm.swap _ _ _)
        have := (List.perm_cons a).1 h2
        have hbc : b = c := by simpa using List.singleton_perm.1 this
        subst hbc
        exact hf a b

/-- C34. In binary32 the order does not matter as long as no property has more than two modifiers. -/
theorem C34_two_modifiers (size : F32) (fwd lat : Option (F32 × F32)) {l l' : List (Target × F32)}
    (h : l.Perm l')
    (hw : (valuesFor forWidth l).length ≤ 2) (hh : (valuesFor forHeight l).length ≤ 2)
    (hx : (l.filterMap fun tv => (shift size fwd lat tv).1).length ≤ 2)
    (hy : (l.filterMap fun tv => (shift size fwd lat tv).2).length ≤ 2)
    (ho : ∀ t, (valuesFor (only t) l).length ≤ 2) :
    accumulate size fwd lat l = accumulate size fwd lat l' := by
  have hp : ∀ a b : F32, product [a, b] = product [b, a] := by
    intro a b
    show F32.mul (F32.mul one a) b = F32.mul (F32.mul one b) a
    rw [one_mul', one_mul', Easing.mul_comm']
  have hs : ∀ a b : F32, sum [a, b] = sum [b, a] := fun a b => zero_add_add a b
  have hv : ∀ p, (valuesFor p l).Perm (valuesFor p l') := fun p => (h.filter _).map _
  rw [C34_combined, C34_combined]
  unfold combined
  rw [perm_two hs (h.filterMap _) hx, perm_two hs (h.filterMap _) hy, perm_two hp (hv _) hw,
    perm_two hp (hv _) hh, perm_two hs (hv _) (ho .slantOffset),
    perm_two hs (hv _) (ho .cornerRoundingOffset), perm_two hs (hv _) (ho .rotationOffset),
    perm_two hs (hv _) (ho .pinchOffset), perm_two hs (hv _) (ho .hueOffset),
    perm_two hp (hv _) (ho .saturationMultiplier), perm_two hs (hv _) (ho .luminosity),
    perm_two hp (hv _) (ho .opacityMultiplier)]

/-- 2^-25 -/
def tiny : F32 := .fin false 0x33000000 (by decide)

/-- C34, what binary32 does not give: three modifiers for one property in two orders give different
tip states. -/
theorem C34_binary32_counterexample (M : Libm) (position : PointF) :
    ∃ l l' : List (Target × F32), l.Perm l' ∧
      (createTipState M position none sampleTip one l).luminosity ≠
        (createTipState M position none sampleTip one l').luminosity := by
  refine ⟨[(.luminosity, half), (.luminosity, tiny), (.luminosity, tiny)],
    [(.luminosity, tiny), (.luminosity, tiny), (.luminosity, half)], ?_, ?_⟩
  · exact ((List.Perm.swap _ _ _).trans (List.Perm.cons _ (List.Perm.swap _ _ _)))
  · have e : ∀ l, (createTipState M position none sampleTip one l).luminosity =
        (applyModifiers (accumulate one none none l) (baseTipState position sampleTip one)).luminosity :=
      fun _ => rfl
    rw [e, e]
    show (if !(feq _ zero) then _ else zero) ≠ (if !(feq _ zero) then _ else zero)
    decide +kernel

/-- C34. Permuting the behaviors of a tip permutes the modifiers that its behaviors produce, whatever
the sequence of inputs. With `C34_exact`, `C34_interleaving` and `C34_two_modifiers` this says when the
tip states are the same. The behaviors are given as the trees of their nodes. -/
theorem C34_behaviors (M : Libm) (tabulate : Easing.CubicBezier → List F32)
    (htab : ∀ b, (tabulate b).length = 14) {tip tip' : BrushTip} {size : F32} {m m' : Modeler}
    (hs : start tabulate tip size = some m) (hs' : start tabulate tip' size = some m')
    {B B' : List (List BehaviorSpec.TargetTree)}
    (hB : tip.behaviors = B.map fun T => T.flatMap BehaviorSpec.TargetTree.nodes)
    (hB' : tip'.behaviors = B'.map fun T => T.flatMap BehaviorSpec.TargetTree.nodes)
    (hperm : B.Perm B')
    (hf : ∀ T ∈ B, ∀ x ∈ T, x.input.Fresh ∧ x.effect = initialModifier x.target)
    (cs : List Ctx) (hc : ∀ c ∈ cs.tail, c.prev.isSome = true) :
    ∃ e e', runNodes M m.nodes cs ⟨[], m.fixedDamped, m.fixedMods⟩ = some e ∧
      runNodes M m'.nodes cs ⟨[], m'.fixedDamped, m'.fixedMods⟩ = some e' ∧
      (m.targets.zip e.mods).Perm (m'.targets.zip e'.mods) := by
  have fl : ∀ B : List (List BehaviorSpec.TargetTree),
      (B.map fun T => T.flatMap BehaviorSpec.TargetTree.nodes).flatten
        = B.flatten.flatMap BehaviorSpec.TargetTree.nodes := by
    intro B
    induction B with
    | nil => rfl
    | cons T B ih => simp [ih]
  obtain ⟨t1, r1⟩ := C32_evaluation M tabulate htab hs (T := B.flatten) (by rw [hB, fl])
    (by
      intro x hx
      obtain ⟨T, hT, hx⟩ := List.mem_flatten.1 hx
      exact hf T hT x hx) cs hc
  obtain ⟨t2, r2⟩ := C32_evaluation M tabulate htab hs' (T := B'.flatten) (by rw [hB', fl])
    (by
      intro x hx
      obtain ⟨T, hT, hx⟩ := List.mem_flatten.1 hx
      exact hf T (hperm.mem_iff.2 hT) x hx) cs hc
  refine ⟨_, _, r1, r2, ?_⟩
  have hrun : ∀ (cs : List Ctx) (T : List BehaviorSpec.TargetTree),
      T.map (·.target) = (runTrees M tabulate cs T).map (·.target) := by
    intro cs
    induction cs with
    | nil => intro T; rfl
    | cons c cs ih =>
      intro T
      show _ = (runTrees M tabulate cs (T.map _)).map _
      rw [← ih, List.map_map]; rfl
  have hp : ∀ (cs : List Ctx) (T T' : List BehaviorSpec.TargetTree), T.Perm T' →
      (runTrees M tabulate cs T).Perm (runTrees M tabulate cs T') := by
    intro cs
    induction cs with
    | nil => intro T T' h; exact h
    | cons c cs ih => intro T T' h; exact ih _ _ (h.map _)
  have hzip : ∀ T : List BehaviorSpec.TargetTree,
      (T.map (·.target)).zip (T.map (·.effect)) = T.map fun x => (x.target, x.effect) := by
    intro T
    induction T with
    | nil => rfl
    | cons x T ih => simp [ih]
  rw [t1, t2, hrun cs, hrun cs B'.flatten]
  simp only [hzip]
  exact (hp cs _ _ hperm.flatten).map _

/-! ## Ranges -/

theorem clamp_range {x lo hi : F32} (hx : x.isNaN = false) (h : le lo hi = true) :
    InRange lo hi (F32.clamp x lo hi) := by
  obtain ⟨n1, n2, hk⟩ := le_key h
  unfold F32.clamp
  by_cases h1 : lt x lo = true
  · rw [if_pos h1]; exact ⟨F32.le_refl n1, h⟩
  · rw [if_neg h1]
    have h1' := (not_lt_iff hx n1).1 (by simpa using h1)
    by_cases h2 : lt hi x = true
    · rw [if_pos h2]; exact ⟨h, F32.le_refl n2⟩
    · rw [if_neg h2]
      exact ⟨h1', (not_lt_iff n2 hx).1 (by simpa using h2)⟩

/-- What `ValidateBrushTip` says about the fields. -/
theorem tip_fields {tip : BrushTip} (h : tip.valid = true) :
    tip.scaleX.isFinite = true ∧ tip.scaleY.isFinite = true ∧
    le zero tip.scaleX = true ∧ le zero tip.scaleY = true ∧
    InRange zero one tip.cornerRounding ∧ InRange (neg quarterTurn) quarterTurn tip.slant ∧
    InRange zero one tip.pinch ∧ tip.rotation.isFinite = true ∧
    InRange zero two tip.opacityMultiplier := by
  unfold BrushTip.valid at h
  simp only [Bool.and_eq_true, Bool.not_eq_true', Bool.or_eq_false_iff, Bool.not_eq_false',
    ge] at h
  obtain ⟨⟨⟨⟨⟨⟨⟨⟨h1, h2⟩, h3⟩, h4⟩, h5⟩, h6⟩, -⟩, -⟩, -⟩ := h
  obtain ⟨⟨⟨⟨fx, fy⟩, lx⟩, ly⟩, -⟩ := h1
  exact ⟨fx, fy, (not_lt_iff (isNaN_of_isFinite fx) rfl).1 lx, (not_lt_iff (isNaN_of_isFinite fy) rfl).1 ly,
    h2, h3.2, h4, h5, h6⟩

theorem size_nonneg {w c : F32} (hw : w.isFinite = true) (h0 : le zero w = true)
    (hc : InRange zero two c) : le zero (F32.mul w c) = true := by
  have fc : c.isFinite = true := isFinite_of_between (a := zero) (c := two) rfl rfl hc.1 hc.2
  obtain ⟨hn, hk⟩ := key_mul hw fc
  refine le_of_key rfl hn ?_
  rw [hk, Easing.key_zero]
  have h1 : 0 ≤ toRat w := by have := (le_iff rfl hw).1 h0; rwa [toRat_zero] at this
  have h2 : 0 ≤ toRat c := by have := (le_iff rfl fc).1 hc.1; rwa [toRat_zero] at this
  rw [← keyR_zero]
  exact keyR_mono (mul_nonneg h1 h2)

theorem add_finite_notNaN {a b : F32} (ha : a.isFinite = true) (hb : b.isNaN = false) :
    (F32.add a b).isNaN = false := isNaN_add ha hb

theorem range_finite {lo hi x : F32} (hl : lo.isFinite = true) (hh : hi.isFinite = true)
    (h : InRange lo hi x) : x.isFinite = true := isFinite_of_between hl hh h.1 h.2

/-- A hue in [0, 2π) is less than one turn. -/
theorem hue_range {a : F32} (ha : a.isFinite = true) :
    le zero (div (Angle.normalized a) Angle.twoPi) = true ∧
      lt (div (Angle.normalized a) Angle.twoPi) one = true := by
  obtain ⟨hf, h0, h1, -⟩ := Verif.C19_normalized a ha
  generalize Angle.normalized a = x at *
  have e2 := Verif.toRat_twoPi
  have f2 : Angle.twoPi.isFinite = true := Verif.finite_consts.2.2
  have q0 : 0 ≤ toRat x := by have := (le_iff rfl hf).1 h0; rwa [toRat_zero] at this
  have q1 : toRat x ≤ 13176794 / 2 ^ 21 := by
    have hv : toRat (.fin false 0x40C90FDA (by decide)) = 13176794 / 2 ^ 21 := by decide +kernel
    rw [← hv, ← le_iff hf rfl]
    have hk := (Easing.lt_key (isNaN_of_isFinite hf) (by rfl)).1 h1
    refine le_of_key (isNaN_of_isFinite hf) rfl ?_
    have h1 : key Angle.twoPi = 0x40C90FDB := by decide +kernel
    have h2 : key (.fin false 0x40C90FDA (by decide)) = 0x40C90FDA := by decide +kernel
    rw [h2]; rw [h1] at hk; omega
  have hne : toRat Angle.twoPi ≠ 0 := by rw [e2]; norm_num
  have b0 : 0 ≤ toRat x / toRat Angle.twoPi := by rw [e2]; positivity
  have b1 : toRat x / toRat Angle.twoPi ≤ 13176794 / 13176795 := by
    rw [e2, div_le_iff₀ (by norm_num)]
    calc toRat x ≤ 13176794 / 2 ^ 21 := q1
      _ = _ := by norm_num
  have ov : |toRat x / toRat Angle.twoPi| < ovf := by
    rw [abs_of_nonneg b0]
    have : (1 : ℚ) < ovf := by unfold ovf; norm_num
    linarith
  have fd := isFinite_div hf f2 hne ov
  have ed := toRat_div hf f2 hne ov
  constructor
  · rw [le_iff rfl fd, toRat_zero, ed]; exact rnd_nonneg b0
  · rw [lt_iff fd (b := one) rfl, ed, show toRat one = 1 from Verif.toRat_one]
    have hr : F32.Repr (1 - 1 / 2 ^ 24) := by
      have : toRat (.fin false 0x3F7FFFFF (by decide)) = 1 - 1 / 2 ^ 24 := by decide +kernel
      rw [← this]; exact Repr.toRat _
    have h2 : toRat x / toRat Angle.twoPi ≤ 1 - 1 / 2 ^ 24 :=
      _root_.le_trans b1 (by norm_num)
    have := rnd_le_of_le hr h2
    have h3 : (0 : ℚ) < 1 / 2 ^ 24 := by norm_num
    linarith

/-- C33. For a valid tip, a positive brush size, and any modifiers, every property of the tip state is
in its documented range, provided the modifiers of that property, combined in binary32, are not NaN
(finite for the two angles). For width and height the brush size times the scale must not overflow.

Missing for the full property: finite modifiers may combine to NaN (`C33_counterexample`). -/
theorem C33_ranges_partial (M : Libm) (position : PointF) (dir : Option F32) {tip : BrushTip}
    (hv : tip.valid = true) {size : F32} (hs : size.isFinite = true) (h0 : 0 < toRat size)
    (l : List (Target × F32)) :
    let s := createTipState M position dir tip size l
    ((product (valuesFor forWidth l)).isNaN = false →
      (F32.mul size tip.scaleX).isFinite = true → le zero s.width = true) ∧
    ((product (valuesFor forHeight l)).isNaN = false →
      (F32.mul size tip.scaleY).isFinite = true → le zero s.height = true) ∧
    ((sum (valuesFor (only .cornerRoundingOffset) l)).isNaN = false →
      InRange zero one s.percentRadius) ∧
    ((sum (valuesFor (only .slantOffset) l)).isNaN = false →
      InRange (neg quarterTurn) quarterTurn s.slant) ∧
    ((sum (valuesFor (only .pinchOffset) l)).isNaN = false → InRange zero one s.pinch) ∧
    ((sum (valuesFor (only .hueOffset) l)).isFinite = true →
      le zero s.hueOffset = true ∧ lt s.hueOffset one = true) ∧
    ((product (valuesFor (only .saturationMultiplier) l)).isNaN = false →
      InRange zero two s.saturation) ∧
    ((sum (valuesFor (only .luminosity) l)).isNaN = false → InRange negOne one s.luminosity) ∧
    ((F32.mul tip.opacityMultiplier (product (valuesFor (only .opacityMultiplier) l))).isNaN = false →
      InRange zero two s.opacity) ∧
    ((F32.add tip.rotation (sum (valuesFor (only .rotationOffset) l))).isFinite = true →
      s.rotation = tip.rotation ∨ (le zero s.rotation = true ∧ lt s.rotation Angle.twoPi = true)) := by
  obtain ⟨fx, fy, lx, ly, hc, hsl, hpi, frot, hop⟩ := tip_fields hv
  have hz : le zero size = true := by rw [le_iff rfl hs, toRat_zero]; exact h0.le
  have base : ∀ sc : F32, sc.isFinite = true → le zero sc = true → (F32.mul size sc).isFinite = true →
      le zero (F32.mul size sc) = true := by
    intro sc fs ls hf
    obtain ⟨hn, hk⟩ := key_mul hs fs
    refine le_of_key rfl hn ?_
    have h2 : 0 ≤ toRat sc := by have := (le_iff rfl fs).1 ls; rwa [toRat_zero] at this
    rw [hk, Easing.key_zero, ← keyR_zero]
    exact keyR_mono (mul_nonneg h0.le h2)
  have c02 : le zero two = true := by decide +kernel
  have c01 : le zero one = true := by decide +kernel
  have cq : le (neg quarterTurn) quarterTurn = true := by decide +kernel
  have cm : le negOne one = true := by decide +kernel
  intro s
  have es : s = applyModifiers (combined size (dir.map (unitVec M))
      (dir.map fun d => unitVec M (F32.add d quarterTurn)) l) (baseTipState position tip size) := by
    show createTipState M position dir tip size l = _
    unfold createTipState; rw [C34_combined]
  rw [es]
  refine ⟨?_, ?_, ?_, ?_, ?_, ?_, ?_, ?_, ?_, ?_⟩
  · intro hn hf
    show le zero (if _ then _ else _) = true
    split
    · exact size_nonneg hf (base _ fx lx hf) (clamp_range hn c02)
    · exact base _ fx lx hf
  · intro hn hf
    show le zero (if _ then _ else _) = true
    split
    · exact size_nonneg hf (base _ fy ly hf) (clamp_range hn c02)
    · exact base _ fy ly hf
  · intro hn
    show InRange zero one (if _ then _ else _)
    split
    · exact clamp_range (add_finite_notNaN (range_finite rfl rfl hc) hn) c01
    · exact hc
  · intro hn
    show InRange (neg quarterTurn) quarterTurn (if _ then _ else _)
    split
    · exact clamp_range (add_finite_notNaN (range_finite rfl rfl hsl) hn) cq
    · exact hsl
  · intro hn
    show InRange zero one (if _ then _ else _)
    split
    · exact clamp_range (add_finite_notNaN (range_finite rfl rfl hpi) hn) c01
    · exact hpi
  · intro hf
    show le zero (if _ then _ else _) = true ∧ lt (if _ then _ else _) one = true
    split
    · exact hue_range hf
    · exact ⟨show le zero zero = true by decide +kernel, show lt zero one = true by decide +kernel⟩
  · intro hn
    show InRange zero two (if _ then _ else _)
    split
    · exact clamp_range hn c02
    · exact ⟨show le zero one = true by decide +kernel, show le one two = true by decide +kernel⟩
  · intro hn
    show InRange negOne one (if _ then _ else _)
    split
    · exact clamp_range hn cm
    · exact ⟨show le negOne zero = true by decide +kernel, show le zero one = true by decide +kernel⟩
  · intro hn
    show InRange zero two (if _ then _ else _)
    split
    · exact clamp_range hn c02
    · exact hop
  · intro hf
    show (if _ then _ else _) = tip.rotation ∨ (le zero (if _ then _ else _) = true ∧
      lt (if _ then _ else _) Angle.twoPi = true)
    split
    · right
      obtain ⟨-, h1, h2, -⟩ := Verif.C19_normalized _ hf
      exact ⟨h1, h2⟩
    · left; rfl

/-- The hypotheses are met: the sample tip with a width of 1.5 times and an offset of the slant. -/
example : sampleTip.valid = true ∧ 0 < toRat one ∧
    (product (valuesFor forWidth [(Target.widthMultiplier, two), (.slantOffset, half)])).isNaN = false ∧
    (F32.mul one sampleTip.scaleX).isFinite = true := by decide +kernel

/-- A tip with three behaviors, which multiply the width by the largest number twice and by 0. -/
def overflowTip : BrushTip :=
  { sampleTip with
    behaviors := [[.constant one, .target .widthMultiplier zero maxFinite],
      [.constant one, .target .widthMultiplier zero maxFinite],
      [.constant zero, .target .widthMultiplier zero one]] }

/-- C33, the missing part: a valid tip whose first tip state has a NaN width, whatever the input. -/
theorem C33_counterexample (M : Libm) (tabulate : Easing.CubicBezier → List F32) (c : Ctx) :
    overflowTip.valid = true ∧ ∃ m e, start tabulate overflowTip one = some m ∧
      processNodes M c m.nodes ⟨[], m.fixedDamped, m.fixedMods⟩ = some e ∧
      (createTipState M c.input.position none overflowTip one (m.targets.zip e.mods)).width = .nan := by
  refine ⟨by decide +kernel, _, _, rfl, rfl, ?_⟩
  have hl : ∀ l : List (Target × F32), l = [(.widthMultiplier, lerpF zero maxFinite one),
      (.widthMultiplier, lerpF zero maxFinite one), (.widthMultiplier, lerpF zero one zero)] →
      (createTipState M c.input.position none overflowTip one l).width = .nan := by
    intro l hl
    unfold createTipState
    rw [C34_combined, hl]
    have h : F32.mul (F32.mul one one) (F32.clamp (product (valuesFor forWidth
      [(.widthMultiplier, lerpF zero maxFinite one), (.widthMultiplier, lerpF zero maxFinite one),
        (.widthMultiplier, lerpF zero one zero)])) zero two) = .nan := by decide +kernel
    have h1 : (!(feq (product (valuesFor forWidth
      [(.widthMultiplier, lerpF zero maxFinite one), (.widthMultiplier, lerpF zero maxFinite one),
        (.widthMultiplier, lerpF zero one zero)])) one)) = true := by decide +kernel
    show (if !(feq (product (valuesFor forWidth
      [(.widthMultiplier, lerpF zero maxFinite one), (.widthMultiplier, lerpF zero maxFinite one),
        (.widthMultiplier, lerpF zero one zero)])) one) then _ else _) = F32.nan
    rw [if_pos h1]
    exact h
  exact hl _ rfl

end Verif.Tip
