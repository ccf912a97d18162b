import Verif.Lemmas.Constrain

/-!
# C60: constraining the extrusion of a brush tip
-/

set_option autoImplicit false

namespace Verif.Constrain

open F32 Verif.Tip Spec

variable {S : Type}

theorem newExtrusion_of_valid (G : Shapes S) {s : TipState} (h : Valid s) : newExtrusion G s = some (ext G s) := by
  unfold newExtrusion; rw [if_pos (checked_of_valid h)]; rfl

/-- What holds after `i` iterations. -/
structure Inv (G : Shapes S) (last proposed : Extrusion S) (i : ℕ) (c : Search S) : Prop where
  lower : InUnit c.lower
  upper : InUnit c.upper
  le : toRat c.lower ≤ toRat c.upper
  best : c.best = ext G (lerpShape last.state proposed.state c.lower)
  good : GoodAt G last proposed c.lower
  bad : c.upper = one ∨ ¬ GoodAt G last proposed c.upper
  near : toRat c.upper - toRat c.lower ≤ 1 / 2 ^ min i 24
  exact : i ≤ 24 → ∃ k : ℕ, k < 2 ^ i ∧ toRat c.lower = (k : ℚ) / 2 ^ i ∧ toRat c.upper = ((k + 1 : ℕ) : ℚ) / 2 ^ i

theorem inv_step (debug : Bool) (G : Shapes S) {last proposed : Extrusion S} (hl : Valid last.state)
    (hp : Valid proposed.state) {i : ℕ} {c : Search S} (h : Inv G last proposed i c) :
    ∃ c', step debug G last proposed c = some c' ∧ Inv G last proposed (i + 1) c' := by
  have hle : le c.lower c.upper = true := (le_iff h.lower.1 h.upper.1).2 h.le
  have hq : G.quality last c.best = .good := by rw [h.best]; exact h.good
  obtain ⟨mu, ml, mh⟩ := mid_between h.lower h.upper h.le
  have hv := newExtrusion_of_valid G (valid_lerpShape hl hp mu)
  have hmid : i < 24 → ∃ k : ℕ, k < 2 ^ i ∧ toRat c.lower = (k : ℚ) / 2 ^ i ∧ toRat c.upper = ((k + 1 : ℕ) : ℚ) / 2 ^ i ∧
      toRat (lerpF c.lower c.upper half) = ((2 * k + 1 : ℕ) : ℚ) / 2 ^ (i + 1) := by
    intro hi
    obtain ⟨k, hk, e1, e2⟩ := h.exact hi.le
    exact ⟨k, hk, e1, e2, mid_exact h.lower.1 h.upper.1 hi hk e1 e2⟩
  have hstep : step debug G last proposed c =
      some (if G.quality last (ext G (lerpShape last.state proposed.state (lerpF c.lower c.upper half))) = .good
        then { c with lower := lerpF c.lower c.upper half,
                      best := ext G (lerpShape last.state proposed.state (lerpF c.lower c.upper half)) }
        else { c with upper := lerpF c.lower c.upper half }) := by
    unfold step
    rw [hq, hle]
    simp [hv]
  rw [hstep]
  refine ⟨_, rfl, ?_⟩
  have hnear : ∀ x y : F32, toRat c.lower ≤ toRat x → toRat x ≤ toRat y → toRat y ≤ toRat c.upper →
      (i < 24 → ∃ k : ℕ, k < 2 ^ (i + 1) ∧ toRat x = (k : ℚ) / 2 ^ (i + 1) ∧
        toRat y = ((k + 1 : ℕ) : ℚ) / 2 ^ (i + 1)) →
      toRat y - toRat x ≤ 1 / 2 ^ min (i + 1) 24 := by
    intro x y hx _ hy hex
    rcases Nat.lt_or_ge i 24 with hi | hi
    · obtain ⟨k, _, e1, e2⟩ := hex hi
      rw [min_eq_left (by omega), e1, e2]
      push_cast
      apply le_of_eq; ring
    · have := h.near
      rw [min_eq_right hi] at this
      rw [min_eq_right (by omega)]
      linarith
  by_cases hg : GoodAt G last proposed (lerpF c.lower c.upper half)
  · have hg' := hg
    unfold GoodAt at hg'
    rw [if_pos hg']
    have hex : i < 24 → ∃ k : ℕ, k < 2 ^ (i + 1) ∧ toRat (lerpF c.lower c.upper half) = (k : ℚ) / 2 ^ (i + 1) ∧
        toRat c.upper = ((k + 1 : ℕ) : ℚ) / 2 ^ (i + 1) := by
      intro hi
      obtain ⟨k, hk, e1, e2, e3⟩ := hmid hi
      refine ⟨2 * k + 1, by rw [pow_succ]; omega, e3, ?_⟩
      rw [e2, pow_succ]; push_cast; field_simp; ring
    exact ⟨mu, h.upper, mh, rfl, hg, h.bad, hnear _ _ ml mh le_rfl hex, fun hi => hex (by omega)⟩
  · have hg' := hg
    unfold GoodAt at hg'
    rw [if_neg hg']
    have hex : i < 24 → ∃ k : ℕ, k < 2 ^ (i + 1) ∧ toRat c.lower = (k : ℚ) / 2 ^ (i + 1) ∧
        toRat (lerpF c.lower c.upper half) = ((k + 1 : ℕ) : ℚ) / 2 ^ (i + 1) := by
      intro hi
      obtain ⟨k, hk, e1, e2, e3⟩ := hmid hi
      refine ⟨2 * k, by rw [pow_succ]; omega, ?_, e3⟩
      rw [e1, pow_succ]; push_cast; field_simp
    exact ⟨h.lower, mu, ml, h.best, h.good, Or.inr hg, hnear _ _ le_rfl ml mh hex, fun hi => hex (by omega)⟩

theorem inv_search (debug : Bool) (G : Shapes S) {last proposed : Extrusion S} (hl : Valid last.state)
    (hp : Valid proposed.state) (n : ℕ) : ∀ {i : ℕ} {c : Search S}, Inv G last proposed i c →
    ∃ c', search debug G last proposed n c = some c' ∧ Inv G last proposed (i + n) c' := by
  induction n with
  | zero => intro i c h; exact ⟨c, rfl, h⟩
  | succ n ih =>
    intro i c h
    obtain ⟨c1, e1, h1⟩ := inv_step debug G hl hp h
    obtain ⟨c2, e2, h2⟩ := ih h1
    refine ⟨c2, ?_, by rwa [show i + 1 + n = i + (n + 1) by omega] at h2⟩
    unfold search
    rw [e1, Option.bind_some, e2]

theorem unit_zero : InUnit zero := ⟨rfl, by rw [toRat_zero], by rw [toRat_zero]; norm_num⟩

theorem unit_one : InUnit one := ⟨rfl, by rw [toRat_one]; norm_num, by rw [toRat_one]⟩

theorem inv_start (G : Shapes S) {last proposed : Extrusion S} (hg : GoodAt G last proposed zero) :
    Inv G last proposed 0 ⟨zero, one, ext G (lerpShape last.state proposed.state zero)⟩ := by
  refine ⟨unit_zero, unit_one, ?_, rfl, hg, Or.inl rfl, ?_, fun _ => ⟨0, by norm_num, ?_, ?_⟩⟩ <;>
    simp [toRat_one, toRat_zero]

/-- What is returned when the proposed extrusion has bad tangents, the centres have moved, and the shape of the last one has good
tangents at the proposed place. -/
theorem constrain_found_eq (debug : Bool) (M : Libm) (G : Shapes S) (tol : F32) {last proposed : Extrusion S}
    (hl : Valid last.state) (hp : Valid proposed.state) (n : ℤ) (hb : G.quality last proposed = .bad)
    (hs : ¬ Stationary M tol last proposed) (hg : GoodAt G last proposed zero) :
    ∃ c, constrain debug M G tol last proposed n = some ⟨.constrainedFound, c.lower, some c.best⟩ ∧
      Inv G last proposed n.toNat c := by
  obtain ⟨c, e, hc⟩ := inv_search debug G hl hp n.toNat (inv_start G hg)
  refine ⟨c, ?_, by simpa using hc⟩
  have hv := newExtrusion_of_valid G (valid_lerpShape hl hp unit_zero)
  unfold constrain
  rw [hb, hv]
  simp only [Option.bind_some]
  unfold Stationary at hs
  unfold GoodAt at hg
  unfold distance
  rw [if_neg hs, if_neg (by simpa using hg), e]
  rfl

theorem constrain_cannot_eq (debug : Bool) (M : Libm) (G : Shapes S) (tol : F32) {last proposed : Extrusion S}
    (hl : Valid last.state) (hp : Valid proposed.state) (n : ℤ) (hb : G.quality last proposed = .bad)
    (hs : Stationary M tol last proposed ∨ ¬ GoodAt G last proposed zero) :
    constrain debug M G tol last proposed n = some ⟨.cannotFind, negOne, none⟩ := by
  have hv := newExtrusion_of_valid G (valid_lerpShape hl hp unit_zero)
  unfold constrain
  rw [hb, hv]
  simp only [Option.bind_some]
  unfold Stationary GoodAt at hs
  unfold distance
  by_cases h : lt (M.hypot (sub proposed.state.position.x last.state.position.x)
    (sub proposed.state.position.y last.state.position.y)) tol = true
  · rw [if_pos h]
  · rw [if_neg h, if_pos (by simpa using hs.resolve_left h)]

/-- C60. Each of the results says what it is documented to say, no check fails, and only a result with an extrusion has one: the
search never constructs a tip whose size, rounding or pinch is out of range. -/
theorem C60_result (debug : Bool) (M : Libm) (G : Shapes S) (tol : F32) {last proposed : Extrusion S}
    (hl : Valid last.state) (hp : Valid proposed.state) (n : ℤ) :
    ∃ r, constrain debug M G tol last proposed n = some r ∧
      (r.type = .proposedIsValid ↔ G.quality last proposed = .good) ∧
      (r.type = .lastContainsProposed ↔ G.quality last proposed = .firstContainsSecond) ∧
      (r.type = .proposedContainsLast ↔ G.quality last proposed = .secondContainsFirst) ∧
      (r.type = .cannotFind ↔ G.quality last proposed = .bad ∧
        (Stationary M tol last proposed ∨ ¬ GoodAt G last proposed zero)) ∧
      (r.type = .constrainedFound ↔ G.quality last proposed = .bad ∧
        ¬ Stationary M tol last proposed ∧ GoodAt G last proposed zero) ∧
      (r.type ≠ .constrainedFound → toRat r.lerpAmount = -1 ∧ r.extrusion = none) := by
  have hm : toRat negOne = -1 := by decide +kernel
  cases hq : G.quality last proposed with
  | firstContainsSecond =>
    refine ⟨⟨.lastContainsProposed, negOne, none⟩, by unfold constrain; rw [hq], ?_⟩
    simp [hm]
  | secondContainsFirst =>
    refine ⟨⟨.proposedContainsLast, negOne, none⟩, by unfold constrain; rw [hq], ?_⟩
    simp [hm]
  | good =>
    refine ⟨⟨.proposedIsValid, negOne, none⟩, by unfold constrain; rw [hq], ?_⟩
    simp [hm]
  | bad =>
    by_cases h : Stationary M tol last proposed ∨ ¬ GoodAt G last proposed zero
    · refine ⟨_, constrain_cannot_eq debug M G tol hl hp n hq h, ?_⟩
      have : ¬ (¬ Stationary M tol last proposed ∧ GoodAt G last proposed zero) := by tauto
      simp [hm, h, this]
    · push Not at h
      obtain ⟨c, e, _⟩ := constrain_found_eq debug M G tol hl hp n hq h.1 h.2
      refine ⟨_, e, ?_⟩
      simp [h]

/-- C60. An extrusion that is found is the one at the returned part of the way, that is from 0 to 1, and the last extrusion has good
tangents with it. Within `0.5 ^ maxIterations` (or `0.5 ^ 24`, if that is more) above it is a place that is the end or where
tangents are not good. For up to 24 iterations the returned part is a multiple of `0.5 ^ maxIterations` below 1. -/
theorem C60_found (debug : Bool) (M : Libm) (G : Shapes S) (tol : F32) {last proposed : Extrusion S}
    (hl : Valid last.state) (hp : Valid proposed.state) (n : ℤ) {r : Result S}
    (h : constrain debug M G tol last proposed n = some r) (hf : r.type = .constrainedFound) :
    InUnit r.lerpAmount ∧
    r.extrusion = some (ext G (lerpShape last.state proposed.state r.lerpAmount)) ∧
    Valid (lerpShape last.state proposed.state r.lerpAmount) ∧
    GoodAt G last proposed r.lerpAmount ∧
    (∃ u, InUnit u ∧ toRat r.lerpAmount ≤ toRat u ∧ toRat u - toRat r.lerpAmount ≤ 1 / 2 ^ min n.toNat 24 ∧
      (toRat u = 1 ∨ ¬ GoodAt G last proposed u)) ∧
    (n ≤ 24 → ∃ k : ℕ, k < 2 ^ n.toNat ∧ toRat r.lerpAmount = k / 2 ^ n.toNat) := by
  obtain ⟨r', e, _, _, _, _, h5, _⟩ := C60_result debug M G tol hl hp n
  rw [h] at e
  obtain rfl := Option.some.inj e
  obtain ⟨hb, hs, hg⟩ := h5.1 hf
  obtain ⟨c, e, hc⟩ := constrain_found_eq debug M G tol hl hp n hb hs hg
  rw [h] at e
  obtain rfl := Option.some.inj e
  refine ⟨hc.lower, by rw [hc.best], valid_lerpShape hl hp hc.lower, hc.good,
    ⟨c.upper, hc.upper, hc.le, hc.near, ?_⟩, ?_⟩
  · rcases hc.bad with h | h
    · left; rw [h, toRat_one]
    · exact Or.inr h
  · intro hn
    obtain ⟨k, hk, e1, _⟩ := hc.exact (by omega)
    exact ⟨k, hk, e1⟩

/-- C60. If tangents are good up to some part of the way only, what is found is as far as possible, up to the documented error (of
at least `0.5 ^ 24`). -/
theorem C60_error (debug : Bool) (M : Libm) (G : Shapes S) (tol : F32) {last proposed : Extrusion S}
    (hl : Valid last.state) (hp : Valid proposed.state) (n : ℤ) {r : Result S}
    (h : constrain debug M G tol last proposed n = some r) (hf : r.type = .constrainedFound)
    (ht : Threshold G last proposed) {t : F32} (hu : InUnit t) (hg : GoodAt G last proposed t) :
    toRat t ≤ toRat r.lerpAmount + 1 / 2 ^ min n.toNat 24 := by
  obtain ⟨_, _, _, _, ⟨u, hu1, _, hn, hb⟩, _⟩ := C60_found debug M G tol hl hp n h hf
  rcases hb with hb | hb
  · have := hu.2.2; linarith
  · by_contra hc
    exact hb (ht u t hu1 hu (by linarith) hg)

/-- C60. Interpolation of a tip state: the place and the colours are those of the second state; size, rounding and pinch stay in
their ranges. -/
theorem C60_interpolated {a b : TipState} {t : F32} (ha : Valid a) (hb : Valid b) (ht : InUnit t) :
    Valid (lerpShape a b t) ∧ checked (lerpShape a b t) = true ∧ (lerpShape a b t).position = b.position ∧
      (lerpShape a b t).hueOffset = b.hueOffset ∧ (lerpShape a b t).saturation = b.saturation ∧
      (lerpShape a b t).luminosity = b.luminosity ∧ (lerpShape a b t).opacity = b.opacity :=
  ⟨valid_lerpShape ha hb ht, checked_of_valid (valid_lerpShape ha hb ht), rfl, rfl, rfl, rfl, rfl⟩

/-- C60. Size, rounding and pinch are the given part of the way between those of the states, up to rounding; so is the slant, for
slants up to 4; the rotation is interpolated along the shortest way. -/
theorem C60_part {a b : TipState} {t : F32} (ha : Valid a) (hb : Valid b) (ht : InUnit t) :
    Part ((toRat a.width + toRat b.width) / 2 ^ 22 + 1 / 2 ^ 148) a.width b.width t (lerpShape a b t).width ∧
    Part ((toRat a.height + toRat b.height) / 2 ^ 22 + 1 / 2 ^ 148) a.height b.height t (lerpShape a b t).height ∧
    Part (1 / 2 ^ 20) a.percentRadius b.percentRadius t (lerpShape a b t).percentRadius ∧
    Part (1 / 2 ^ 20) a.pinch b.pinch t (lerpShape a b t).pinch ∧
    (a.slant.isFinite = true → b.slant.isFinite = true → |toRat a.slant| ≤ 4 → |toRat b.slant| ≤ 4 →
      Part (1 / 2 ^ 18) a.slant b.slant t (lerpShape a b t).slant) ∧
    (lerpShape a b t).rotation = normalizedAngleLerp a.rotation b.rotation t := by
  have h1 : (1 : ℚ) ≤ big := by unfold big; norm_num
  have hu : ∀ x y : F32, InUnit x → InUnit y → (toRat x + toRat y) / 2 ^ 22 + 1 / 2 ^ 148 ≤ 1 / 2 ^ 20 := by
    intro x y hx hy
    have := hx.2.2; have := hy.2.2
    norm_num
    linarith
  exact ⟨lerpF_part le_rfl ha.width hb.width ht, lerpF_part le_rfl ha.height hb.height ht,
    (lerpF_part h1 ha.percentRadius hb.percentRadius ht).trans (hu _ _ ha.percentRadius hb.percentRadius),
    (lerpF_part h1 ha.pinch hb.pinch ht).trans (hu _ _ ha.pinch hb.pinch),
    fun fa fb h4 h4' => lerpAngle_part fa fb h4 h4' ht, rfl⟩

/-- A tip state of the given width, with right angles, at a place. -/
def tipAt (x : F32) (w slant : F32) : TipState :=
  { position := ⟨x, zero⟩, width := w, height := one, percentRadius := zero, rotation := zero, slant := slant,
    pinch := zero, hueOffset := zero, saturation := one, luminosity := zero, opacity := one }

theorem upTo_one_126 : UpTo (2 ^ 126) one := ⟨rfl, by rw [toRat_one]; norm_num, by rw [toRat_one]; norm_num⟩

theorem valid_tipAt {x w s : F32} (h : UpTo (2 ^ 126) w) : Valid (tipAt x w s) := ⟨h, upTo_one_126, unit_zero, unit_zero⟩

/-- Shapes that are only widths: tangents are good with those less than 1.3 wide. -/
def widths : Shapes F32 where
  shape s := s.width
  quality _ b := if lt b.shape (ofRat (13 / 10)) then .good else .bad

def libm : Libm := ⟨fun _ => zero, fun _ => zero, fun _ => zero, fun _ => zero, fun _ => zero, fun _ _ => one, fun _ _ => zero⟩

/-- A case that is found: with seven iterations, at 38/128 = 0.296875 of the way from 1 to 2. -/
example : (constrain true libm widths zero (ext widths (tipAt zero one zero)) (ext widths (tipAt one two zero)) 7).map
    (fun r => (r.type, toRat r.lerpAmount)) = some (.constrainedFound, 38 / 128) := by decide +kernel

example : Valid (tipAt zero one zero) := valid_tipAt upTo_one_126

/-- Two widths between which tangents are good, apart from narrow shapes. -/
def twoRanges : Shapes F32 where
  shape s := s.width
  quality _ b :=
    if lt b.shape (ofRat (11 / 10)) || (lt (ofRat (16 / 10)) b.shape && lt b.shape (ofRat (18 / 10))) then .good else .bad

/-- Without a threshold, the part of the way that is found can be far from the greatest one with good tangents. -/
theorem C60_threshold_counterexample :
    (constrain true libm twoRanges zero (ext twoRanges (tipAt zero one zero)) (ext twoRanges (tipAt one two zero)) 7).map
      (fun r => toRat r.lerpAmount) = some (12 / 128) ∧
    GoodAt twoRanges (ext twoRanges (tipAt zero one zero)) (ext twoRanges (tipAt one two zero)) (ofRat (3 / 4)) := by
  refine ⟨by decide +kernel, ?_⟩
  unfold GoodAt
  decide +kernel

/-- The interpolation of the slant can leave its documented range, from -π/2 to π/2, though both slants are in it. -/
theorem C60_slant_counterexample :
    lt quarterTurn (lerpShape (tipAt zero one quarterTurn) (tipAt one one quarterTurn) (ofRat (26 / 128))).slant = true := by
  decide +kernel

/-- An interpolation of infinite widths is not a number, and fails a check. -/
theorem C60_infinite_counterexample :
    newExtrusion widths (lerpShape (tipAt zero (inf false) zero) (tipAt one (inf false) zero) half) = none := by
  decide +kernel

end Verif.Constrain
