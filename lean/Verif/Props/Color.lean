import Verif.Model.Color
import Verif.Props.Rect
import Verif.Props.Duration

/-!
# C27 no NaN channel, alpha in [0,1]; C28 8-bit colors survive
-/

set_option autoImplicit false
set_option exponentiation.threshold 400

namespace Verif
namespace Color

open F32

theorem toRat_one' : toRat one = 1 := Verif.toRat_one
theorem toRat_zero' : toRat zero = 0 := by simp [toRat, zero, mag]
theorem toRat_255 : toRat f255 = 255 := by
  unfold f255
  rw [toRat_fin_false]
  norm_num [mag]

/-! ## Specification -/

/-- What the documentation promises of a color: no NaN, and alpha in `[0, 1]`. -/
def Ok (c : Color) : Prop :=
  c.r.isNaN = false ∧ c.g.isNaN = false ∧ c.b.isNaN = false ∧
    c.a.isFinite = true ∧ 0 ≤ toRat c.a ∧ toRat c.a ≤ 1

/-- The gamma curves take numbers (infinities included) to numbers. -/
def _root_.Verif.ColorEnv.NoNaN (E : ColorEnv) : Prop :=
  ∀ x s, x.isNaN = false → (E.decode x s).isNaN = false ∧ (E.encode x s).isNaN = false

/-- No color channel is `+∞`. -/
def NoPosInf (c : Color) : Prop := c.r ≠ .inf false ∧ c.g ≠ .inf false ∧ c.b ≠ .inf false

/-- `ScaledToGamut` is never applied to a color with a `+∞` channel. -/
def _root_.Verif.ColorExpr.ScalesFinite (E : ColorEnv) : ColorExpr → Prop
  | .scaled e => e.ScalesFinite E ∧ ∀ c, e.eval E = some c → c.NoPosInf
  | .clamped e => e.ScalesFinite E
  | .inSpace e _ => e.ScalesFinite E
  | .withAlpha e _ => e.ScalesFinite E
  | _ => True

/-! ## C27 -/

theorem nanToZero_ok (x : F32) : (nanToZero x).isNaN = false := by
  unfold nanToZero; split
  · rfl
  · rename_i h; simpa using h

theorem nanToZero_of {x : F32} (h : x.isNaN = false) : nanToZero x = x := by
  unfold nanToZero; rw [h]; rfl

theorem clamp01 {x : F32} (h : x.isNaN = false) :
    (clamp x zero one).isFinite = true ∧ 0 ≤ toRat (clamp x zero one) ∧ toRat (clamp x zero one) ≤ 1 := by
  unfold clamp
  split
  · exact ⟨rfl, by rw [toRat_zero'], by rw [toRat_zero']; norm_num⟩
  · rename_i h0
    split
    · exact ⟨rfl, by rw [toRat_one']; norm_num, by rw [toRat_one']⟩
    · rename_i h1
      have a := (not_lt_iff h (b := zero) rfl).1 (by simpa using h0)
      have b := (not_lt_iff (a := one) rfl h).1 (by simpa using h1)
      have f : x.isFinite = true := isFinite_of_between (a := zero) (c := one) rfl rfl a b
      have a' := (le_iff (a := zero) rfl f).1 a
      have b' := (le_iff (b := one) f rfl).1 b
      rw [toRat_zero'] at a'; rw [toRat_one'] at b'
      exact ⟨f, a', b'⟩

theorem clamp01_id {x : F32} (f : x.isFinite = true) (h0 : 0 ≤ toRat x) (h1 : toRat x ≤ 1) :
    clamp x zero one = x := by
  have hn := isNaN_of_isFinite f
  have a : lt x zero = false :=
    (not_lt_iff hn rfl).2 ((le_iff (a := zero) rfl f).2 (by rw [toRat_zero']; exact h0))
  have b : lt one x = false :=
    (not_lt_iff rfl hn).2 ((le_iff (b := one) f rfl).2 (by rw [toRat_one']; exact h1))
  unfold clamp; rw [a, b]; rfl

theorem div_noNaN {x a : F32} (hx : x.isNaN = false) (ha : a.isFinite = true) (h0 : toRat a ≠ 0) :
    (div x a).isNaN = false := by
  cases hf : x.isFinite with
  | true => exact (key_div hf ha h0).1
  | false =>
    obtain ⟨s, n, hn, rfl⟩ := exists_of_isFinite ha
    cases x with
    | nan => cases hx
    | fin => cases hf
    | inf t => rfl

theorem fromFloat_ok {E : ColorEnv} (hE : E.NoNaN) {r g b a : F32} {f : ColorFormat} {s : ColorSpace}
    {c : Color} (h : fromFloat E r g b a f s = some c) : c.Ok := by
  have hr := nanToZero_ok r
  have hg := nanToZero_ok g
  have hb := nanToZero_ok b
  obtain ⟨a1, a2, a3⟩ := clamp01 (nanToZero_ok a)
  unfold fromFloat at h
  cases f with
  | linear =>
    simp only [Option.some.injEq] at h; subst h; exact ⟨hr, hg, hb, a1, a2, a3⟩
  | gammaEncoded =>
    simp only [Option.some.injEq] at h; subst h
    exact ⟨(hE _ _ hr).1, (hE _ _ hg).1, (hE _ _ hb).1, a1, a2, a3⟩
  | premultipliedAlpha =>
    simp only at h
    split at h
    · split at h
      · cases h
      · simp only [Option.some.injEq] at h; subst h; exact ⟨hr, hg, hb, a1, a2, a3⟩
    · rename_i hz
      simp only [Option.some.injEq] at h; subst h
      have h0 : toRat (clamp (nanToZero a) zero one) ≠ 0 := fun e =>
        hz ((feq_zero_iff (isNaN_of_isFinite a1)).2 ⟨a1, e⟩)
      exact ⟨div_noNaN hr a1 h0, div_noNaN hg a1 h0, div_noNaN hb a1 h0, a1, a2, a3⟩

theorem smax_zero {x : F32} (h : x.isNaN = false) (hi : x ≠ inf false) :
    (smax zero x).isFinite = true ∧ toRat (smax zero x) = max 0 (toRat x) := by
  unfold smax
  rcases isFinite_or_inf h with f | ⟨s, rfl⟩
  · by_cases hl : lt zero x = true
    · have := (lt_iff (a := zero) rfl f).1 hl
      rw [toRat_zero'] at this
      rw [if_pos hl, max_eq_right this.le]; exact ⟨f, rfl⟩
    · have := (lt_iff (a := zero) rfl f).not.1 hl
      rw [toRat_zero'] at this
      rw [if_neg hl, max_eq_left (not_lt.1 this)]; exact ⟨rfl, toRat_zero'⟩
  · cases s
    · exact absurd rfl hi
    · have : lt zero (inf true) = false := by decide +kernel
      rw [this]
      refine ⟨rfl, ?_⟩
      have e : toRat (inf true) = 0 := by simp [toRat]
      rw [e]; simp

theorem smax_fin {x y : F32} (hx : x.isFinite = true) (hy : y.isFinite = true) :
    (smax x y).isFinite = true ∧ toRat (smax x y) = max (toRat x) (toRat y) := by
  unfold smax
  by_cases hl : lt x y = true
  · have := (lt_iff hx hy).1 hl
    rw [if_pos hl, max_eq_right this.le]; exact ⟨hy, rfl⟩
  · have := (lt_iff hx hy).not.1 hl
    rw [if_neg hl, max_eq_left (not_lt.1 this)]; exact ⟨hx, rfl⟩

/-- The value a channel is first clamped up to: `max(0, c)` (`0` for `-∞`). -/
def up (x : F32) : ℚ := max 0 (toRat x)

theorem up_nonneg (x : F32) : 0 ≤ up x := le_max_left _ _

theorem div_unit {x m : F32} (hx : x.isFinite = true) (hm : m.isFinite = true) (h0 : 0 ≤ toRat x)
    (hxm : toRat x ≤ toRat m) (h1 : 1 < toRat m) :
    (div x m).isFinite = true ∧ toRat (div x m) = rnd (toRat x / toRat m) ∧
      0 ≤ toRat (div x m) ∧ toRat (div x m) ≤ 1 := by
  have hp : 0 < toRat m := by linarith
  have a0 : 0 ≤ toRat x / toRat m := by positivity
  have a1 : toRat x / toRat m ≤ 1 := (div_le_one hp).2 hxm
  have ho : |toRat x / toRat m| < ovf := by
    rw [abs_of_nonneg a0]; refine lt_of_le_of_lt a1 ?_; unfold ovf; norm_num
  rw [toRat_div hx hm hp.ne' ho]
  exact ⟨isFinite_div hx hm hp.ne' ho, rfl, rnd_nonneg a0, rnd_le_of_le repr_one a1⟩

/-- **C27, `ScaledToGamut`.** For a color without NaN: the result has a NaN channel exactly when some
channel of the color is `+∞`. Otherwise every channel of the result is in `[0, 1]`; when no channel exceeds
1 the result is the color with negative channels replaced by zero, and otherwise every channel is the
binary32 nearest to its value divided by the largest one. Alpha and the color space never change. -/
theorem C27_scaled (c : Color) (hc : c.Ok) :
    (((scaledToGamut c).r.isNaN = true ∨ (scaledToGamut c).g.isNaN = true ∨ (scaledToGamut c).b.isNaN = true)
      ↔ ¬ c.NoPosInf) ∧
    toRat (scaledToGamut c).a = toRat c.a ∧ (scaledToGamut c).a.isFinite = true ∧
    (scaledToGamut c).space = c.space ∧
    (c.NoPosInf → ∀ M, M = max (up c.r) (max (up c.g) (up c.b)) →
      (∀ x ∈ [(scaledToGamut c).r, (scaledToGamut c).g, (scaledToGamut c).b],
        x.isFinite = true ∧ 0 ≤ toRat x ∧ toRat x ≤ 1) ∧
      (M ≤ 1 → toRat (scaledToGamut c).r = up c.r ∧ toRat (scaledToGamut c).g = up c.g ∧
        toRat (scaledToGamut c).b = up c.b) ∧
      (1 < M → toRat (scaledToGamut c).r = rnd (up c.r / M) ∧ toRat (scaledToGamut c).g = rnd (up c.g / M) ∧
        toRat (scaledToGamut c).b = rnd (up c.b / M))) := by
  obtain ⟨nr, ng, nb, fa, a0, a1⟩ := hc
  -- alpha
  have ha : (scaledToGamut c).a = smin one (smax zero c.a) := by
    unfold scaledToGamut; simp only; split <;> rfl
  have hs : (scaledToGamut c).space = c.space := by
    unfold scaledToGamut; simp only; split <;> rfl
  have hal : toRat (smin one (smax zero c.a)) = toRat c.a ∧ (smin one (smax zero c.a)).isFinite = true := by
    have hi : c.a ≠ inf false := by intro e; rw [e] at fa; cases fa
    obtain ⟨f1, e1⟩ := smax_zero (isNaN_of_isFinite fa) hi
    rw [max_eq_right a0] at e1
    unfold smin
    by_cases hl : lt (smax zero c.a) one = true
    · rw [if_pos hl]; exact ⟨e1, f1⟩
    · rw [if_neg hl]
      have := (lt_iff (b := one) f1 rfl).not.1 hl
      rw [toRat_one', e1] at this
      rw [toRat_one']; exact ⟨by linarith, rfl⟩
  -- the finite case
  have key : c.NoPosInf → ∀ M, M = max (up c.r) (max (up c.g) (up c.b)) →
      (∀ x ∈ [(scaledToGamut c).r, (scaledToGamut c).g, (scaledToGamut c).b],
        x.isFinite = true ∧ 0 ≤ toRat x ∧ toRat x ≤ 1) ∧
      (M ≤ 1 → toRat (scaledToGamut c).r = up c.r ∧ toRat (scaledToGamut c).g = up c.g ∧
        toRat (scaledToGamut c).b = up c.b) ∧
      (1 < M → toRat (scaledToGamut c).r = rnd (up c.r / M) ∧ toRat (scaledToGamut c).g = rnd (up c.g / M) ∧
        toRat (scaledToGamut c).b = rnd (up c.b / M)) := by
    rintro ⟨ir, ig, ib⟩ M hM
    obtain ⟨fr, er⟩ := smax_zero nr ir
    obtain ⟨fg, eg⟩ := smax_zero ng ig
    obtain ⟨fb, eb⟩ := smax_zero nb ib
    obtain ⟨f1, e1⟩ := smax_fin fg fb
    obtain ⟨fm, em⟩ := smax_fin fr f1
    have em' : toRat (smax (smax zero c.r) (smax (smax zero c.g) (smax zero c.b))) = M := by
      rw [em, e1, er, eg, eb, hM]; rfl
    have mr : up c.r ≤ M := by rw [hM]; exact le_max_left _ _
    have mg : up c.g ≤ M := by rw [hM]; exact _root_.le_trans (le_max_left _ _) (le_max_right _ _)
    have mb : up c.b ≤ M := by rw [hM]; exact _root_.le_trans (le_max_right _ _) (le_max_right _ _)
    change toRat (smax zero c.r) = up c.r at er
    change toRat (smax zero c.g) = up c.g at eg
    change toRat (smax zero c.b) = up c.b at eb
    by_cases hg : gt (smax (smax zero c.r) (smax (smax zero c.g) (smax zero c.b))) one = true
    · have h1 : 1 < M := by
        have := (lt_iff (a := one) rfl fm).1 hg
        rwa [toRat_one', em'] at this
      have es : scaledToGamut c = ⟨div (smax zero c.r) (smax (smax zero c.r) (smax (smax zero c.g) (smax zero c.b))),
          div (smax zero c.g) (smax (smax zero c.r) (smax (smax zero c.g) (smax zero c.b))),
          div (smax zero c.b) (smax (smax zero c.r) (smax (smax zero c.g) (smax zero c.b))),
          smin one (smax zero c.a), c.space⟩ := by
        unfold scaledToGamut; simp only; rw [if_pos hg]
      have d : ∀ x : F32, ∀ v : ℚ, x.isFinite = true → toRat x = v → 0 ≤ v → v ≤ M →
          (div x (smax (smax zero c.r) (smax (smax zero c.g) (smax zero c.b)))).isFinite = true ∧
          toRat (div x (smax (smax zero c.r) (smax (smax zero c.g) (smax zero c.b)))) = rnd (v / M) ∧
          0 ≤ toRat (div x (smax (smax zero c.r) (smax (smax zero c.g) (smax zero c.b)))) ∧
          toRat (div x (smax (smax zero c.r) (smax (smax zero c.g) (smax zero c.b)))) ≤ 1 := by
        intro x v hx hv h0 hm
        have := div_unit hx fm (by rw [hv]; exact h0) (by rw [hv, em']; exact hm) (by rw [em']; exact h1)
        rwa [hv, em'] at this
      have dr := d _ _ fr er (up_nonneg _) mr
      have dg := d _ _ fg eg (up_nonneg _) mg
      have db := d _ _ fb eb (up_nonneg _) mb
      rw [es]
      refine ⟨?_, fun h => absurd h1 (not_lt.2 h), fun _ => ⟨dr.2.1, dg.2.1, db.2.1⟩⟩
      intro x hx
      simp only [List.mem_cons, List.not_mem_nil, or_false] at hx
      rcases hx with rfl | rfl | rfl
      · exact ⟨dr.1, dr.2.2⟩
      · exact ⟨dg.1, dg.2.2⟩
      · exact ⟨db.1, db.2.2⟩
    · have h1 : M ≤ 1 := by
        have := (lt_iff (a := one) rfl fm).not.1 hg
        rw [toRat_one', em'] at this; exact not_lt.1 this
      have es : scaledToGamut c = ⟨smax zero c.r, smax zero c.g, smax zero c.b,
          smin one (smax zero c.a), c.space⟩ := by
        unfold scaledToGamut; simp only; rw [if_neg hg]
      rw [es]
      refine ⟨?_, fun _ => ⟨er, eg, eb⟩, fun h => absurd h1 (not_le.2 h)⟩
      intro x hx
      simp only [List.mem_cons, List.not_mem_nil, or_false] at hx
      rcases hx with rfl | rfl | rfl
      · exact ⟨fr, by rw [er]; exact up_nonneg _, by rw [er]; linarith⟩
      · exact ⟨fg, by rw [eg]; exact up_nonneg _, by rw [eg]; linarith⟩
      · exact ⟨fb, by rw [eb]; exact up_nonneg _, by rw [eb]; linarith⟩
  refine ⟨⟨?_, ?_⟩, by rw [ha]; exact hal.1, by rw [ha]; exact hal.2, hs, key⟩
  · intro h hn
    have k := (key hn _ rfl).1
    rcases h with h | h | h
    · have := isNaN_of_isFinite (k (scaledToGamut c).r (by simp)).1; rw [h] at this; cases this
    · have := isNaN_of_isFinite (k (scaledToGamut c).g (by simp)).1; rw [h] at this; cases this
    · have := isNaN_of_isFinite (k (scaledToGamut c).b (by simp)).1; rw [h] at this; cases this
  · intro hn
    have nz : ∀ x : F32, x.isNaN = false → (smax zero x).isNaN = false := by
      intro x hx; unfold smax; split
      · exact hx
      · rfl
    have nm : ∀ x y : F32, x.isNaN = false → y.isNaN = false → (smax x y).isNaN = false := by
      intro x y hx hy; unfold smax; split
      · exact hy
      · exact hx
    have zi : smax zero (inf false) = inf false := by decide +kernel
    have top : ∀ x : F32, le (inf false) x = true → x = inf false := by
      intro x hx
      obtain ⟨-, n, k⟩ := le_key hx
      rcases isFinite_or_inf n with f | ⟨s, rfl⟩
      · have := (isFinite_iff_key x).1 f; rw [key_inf_false] at k; omega
      · cases s
        · rfl
        · rw [key_inf_false, key_inf_true] at k; norm_num [infPat] at k
    obtain ⟨l1, l2, -⟩ := Verif.le_smax (nz _ nr) (nm _ _ (nz _ ng) (nz _ nb))
    obtain ⟨l3, l4, -⟩ := Verif.le_smax (nz _ ng) (nz _ nb)
    have hm : smax (smax zero c.r) (smax (smax zero c.g) (smax zero c.b)) = inf false := by
      apply top
      by_cases h1 : c.r = inf false
      · rw [h1, zi] at l1; rw [h1, zi]; exact l1
      by_cases h2 : c.g = inf false
      · rw [h2, zi] at l3 l2; rw [h2, zi]; exact F32.le_trans l3 l2
      by_cases h3 : c.b = inf false
      · rw [h3, zi] at l4 l2; rw [h3, zi]; exact F32.le_trans l4 l2
      exact absurd ⟨h1, h2, h3⟩ hn
    have hg : gt (inf false) one = true := by decide +kernel
    have es : scaledToGamut c = ⟨div (smax zero c.r) (inf false), div (smax zero c.g) (inf false),
        div (smax zero c.b) (inf false), smin one (smax zero c.a), c.space⟩ := by
      unfold scaledToGamut; simp only; rw [hm, if_pos hg]
    rw [es]
    by_cases h1 : c.r = inf false
    · left; rw [h1, zi]; rfl
    by_cases h2 : c.g = inf false
    · right; left; rw [h2, zi]; rfl
    by_cases h3 : c.b = inf false
    · right; right; rw [h3, zi]; rfl
    exact absurd ⟨h1, h2, h3⟩ hn

theorem clamped_ok {c : Color} (hc : c.Ok) : (clampedToGamut c).Ok := by
  obtain ⟨nr, ng, nb, fa, -⟩ := hc
  exact ⟨isNaN_of_isFinite (clamp01 nr).1, isNaN_of_isFinite (clamp01 ng).1, isNaN_of_isFinite (clamp01 nb).1,
    clamp01 (isNaN_of_isFinite fa)⟩

theorem fromUint8_ok {E : ColorEnv} (hE : E.NoNaN) {r g b a : Nat} {f : ColorFormat} {s : ColorSpace}
    {c : Color} (h : fromUint8 E r g b a f s = some c) : c.Ok := by
  unfold fromUint8 at h
  split at h
  · cases h
  · exact fromFloat_ok hE h

/-- **C27.** Every history of factories and conversions that does not apply `ScaledToGamut` to a color with
a `+∞` channel yields a color without NaN and with alpha in `[0, 1]`. Missing from the full property: that
one exception, see `C27_scaled` and `C27_counterexample`. -/
theorem C27_no_nan_partial (E : ColorEnv) (hE : E.NoNaN) (e : ColorExpr) (he : e.ScalesFinite E) (c : Color)
    (h : e.eval E = some c) : c.Ok := by
  induction e generalizing c with
  | dflt =>
    simp only [ColorExpr.eval, Option.some.injEq] at h; subst h
    exact ⟨rfl, rfl, rfl, rfl, by simp [dflt, toRat_one'], by simp [dflt, toRat_one']⟩
  | fromFloat r g b a f s => exact fromFloat_ok hE h
  | fromUint8 r g b a f s => exact fromUint8_ok hE h
  | fromPacked n f s => exact fromUint8_ok hE h
  | clamped e ih =>
    simp only [ColorExpr.eval, Option.map_eq_some_iff] at h
    obtain ⟨d, hd, rfl⟩ := h
    exact clamped_ok (ih he d hd)
  | scaled e ih =>
    simp only [ColorExpr.eval, Option.map_eq_some_iff] at h
    obtain ⟨d, hd, rfl⟩ := h
    have ho := ih he.1 d hd
    obtain ⟨-, ea, fa, -, k⟩ := C27_scaled d ho
    have k := (k (he.2 d hd) _ rfl).1
    refine ⟨isNaN_of_isFinite (k _ (by simp)).1, isNaN_of_isFinite (k _ (by simp)).1,
      isNaN_of_isFinite (k _ (by simp)).1, fa, ?_⟩
    rw [ea]; exact ho.2.2.2.2
  | inSpace e s ih =>
    simp only [ColorExpr.eval, Option.bind_eq_some_iff] at h
    obtain ⟨d, hd, h⟩ := h
    unfold inColorSpace at h
    exact fromFloat_ok hE h
  | withAlpha e a ih =>
    simp only [ColorExpr.eval, Option.bind_eq_some_iff] at h
    obtain ⟨d, hd, h⟩ := h
    exact fromFloat_ok hE h

/-- Gamma curves that do nothing: an environment meeting `NoNaN`. -/
def idEnv : ColorEnv := ⟨fun x _ => x, fun x _ => x, fun _ _ v => v⟩

theorem idEnv_noNaN : idEnv.NoNaN := fun _ _ h => ⟨h, h⟩

/-- **C27, the exception.** `ScaledToGamut` of a color with an infinite channel (which the documentation of
`FromFloat` permits) has a NaN channel. -/
theorem C27_counterexample : ∀ E : ColorEnv, ∃ c, (ColorExpr.scaled
    (.fromFloat (.inf false) zero zero one .linear .srgb)).eval E = some c ∧ c.r.isNaN = true := by
  intro E
  exact ⟨_, rfl, by decide +kernel⟩

/-- An instance of `C27_no_nan_partial` that uses every kind of step. -/
example : ∃ c, (ColorExpr.scaled (.clamped (.withAlpha (.inSpace (.fromFloat (.inf false) .nan (.inf true) .nan
    .gammaEncoded .srgb) .displayP3) (.inf false)))).eval idEnv = some c ∧ c.Ok := by
  refine ⟨_, rfl, ?_⟩
  refine C27_no_nan_partial idEnv idEnv_noNaN (.scaled (.clamped (.withAlpha (.inSpace (.fromFloat (.inf false) .nan
    (.inf true) .nan .gammaEncoded .srgb) .displayP3) (.inf false)))) ⟨trivial, ?_⟩ _ rfl
  intro c hc
  simp only [ColorExpr.eval] at hc
  have : c = _ := (Option.some.inj hc).symm
  subst this
  unfold NoPosInf
  decide +kernel

/-- **C27, crashes.** `FromFloat` ends the program exactly when the format is premultiplied, the alpha (NaN
counted as 0, clamped to `[0, 1]`) is zero and some color channel (NaN counted as 0) is not zero. -/
theorem C27_crash (E : ColorEnv) (r g b a : F32) (f : ColorFormat) (s : ColorSpace) :
    fromFloat E r g b a f s = none ↔
      f = .premultipliedAlpha ∧ (a.isNaN = true ∨ le a zero = true) ∧
      ∃ x ∈ [r, g, b], x.isNaN = false ∧ ¬ (x.isFinite = true ∧ toRat x = 0) := by
  have ha : feq (clamp (nanToZero a) zero one) zero = true ↔ (a.isNaN = true ∨ le a zero = true) := by
    cases hn : a.isNaN with
    | true =>
      have : nanToZero a = zero := by unfold nanToZero; rw [hn]; rfl
      rw [this]; simp; decide +kernel
    | false =>
      rw [nanToZero_of hn]
      simp only [Bool.false_eq_true, false_or]
      unfold clamp
      by_cases h1 : lt a zero = true
      · rw [if_pos h1]
        have : le a zero = true := by
          rcases le_total hn (b := zero) rfl with h | h
          · exact h
          · have := (not_lt_iff hn (b := zero) rfl).2 h; rw [h1] at this; cases this
        rw [this]; decide +kernel
      · rw [if_neg h1]
        have h1' := (not_lt_iff hn (b := zero) rfl).1 (by simpa using h1)
        by_cases h2 : lt one a = true
        · rw [if_pos h2]
          have z : feq one zero = false := by decide +kernel
          have : le a zero = false := by
            by_contra hc
            have hc : le a zero = true := by simpa using hc
            have : le a one = true := F32.le_trans hc (by decide +kernel)
            have := (not_lt_iff (a := one) rfl hn).2 this
            rw [h2] at this; cases this
          rw [z, this]
        · rw [if_neg h2, feq_zero_iff hn]
          constructor
          · rintro ⟨f, e⟩; exact (le_iff (b := zero) f rfl).2 (by rw [e, toRat_zero'])
          · intro hl
            have f : a.isFinite = true := isFinite_of_between (a := zero) (c := zero) rfl rfl h1' hl
            have x1 := (le_iff (b := zero) f rfl).1 hl
            have x2 := (le_iff (a := zero) rfl f).1 h1'
            rw [toRat_zero'] at x1 x2
            exact ⟨f, _root_.le_antisymm x1 x2⟩
  have hx : ∀ x : F32, feq (nanToZero x) zero = false ↔
      x.isNaN = false ∧ ¬ (x.isFinite = true ∧ toRat x = 0) := by
    intro x
    cases hn : x.isNaN with
    | true =>
      have : nanToZero x = zero := by unfold nanToZero; rw [hn]; rfl
      rw [this]; simp; decide +kernel
    | false =>
      rw [nanToZero_of hn, ← feq_zero_iff hn]; simp
  unfold fromFloat
  cases f with
  | linear => simp
  | gammaEncoded => simp
  | premultipliedAlpha =>
    simp only [true_and]
    rw [← ha]
    by_cases hz : feq (clamp (nanToZero a) zero one) zero = true
    · rw [if_pos hz]
      simp only [hz, true_and, List.mem_cons, List.not_mem_nil, or_false, exists_eq_or_imp, exists_eq_left]
      rw [← hx, ← hx, ← hx]
      cases feq (nanToZero r) zero <;> cases feq (nanToZero g) zero <;> cases feq (nanToZero b) zero <;> simp
    · rw [if_neg hz]; simp [hz]

/-- The float a byte is read as. -/
theorem byte_float {k : Nat} (hk : k ≤ 255) :
    (div (ofInt k) f255).isFinite = true ∧ toRat (div (ofInt k) f255) = rnd (k / 255) ∧
    |toRat (div (ofInt k) f255) - k / 255| ≤ 1 / 2 ^ 24 ∧
    0 ≤ toRat (div (ofInt k) f255) ∧ toRat (div (ofInt k) f255) ≤ 1 := by
  have hk' : (k : ℚ) ≤ 255 := by exact_mod_cast hk
  have hz : |(k : ℤ)| ≤ 2 ^ 24 := by rw [abs_of_nonneg (by omega)]; omega
  have e := toRat_ofInt hz
  have f := isFinite_ofInt hz
  rw [Int.cast_natCast] at e
  have q0 : (0 : ℚ) ≤ k / 255 := by positivity
  have q1 : (k : ℚ) / 255 ≤ 1 := by rw [div_le_one (by norm_num)]; exact hk'
  have ho : |toRat (ofInt k) / toRat f255| < ovf := by
    rw [e, toRat_255, abs_of_nonneg q0]; refine lt_of_le_of_lt q1 ?_; unfold ovf; norm_num
  have h255 : toRat f255 ≠ 0 := by rw [toRat_255]; norm_num
  have hd := toRat_div f (b := f255) rfl h255 ho
  rw [e, toRat_255] at hd
  refine ⟨isFinite_div f rfl h255 ho, hd, ?_, ?_, ?_⟩
  · rw [hd]
    refine _root_.le_trans (rnd_err _) (max_le (by norm_num) ?_)
    rw [abs_of_nonneg q0]; gcongr
  · rw [hd]; exact rnd_nonneg q0
  · rw [hd]; exact rnd_le_of_le repr_one q1

/-- Rounding to a byte is right whenever the value is within a quarter of a step of it. -/
theorem floatToUint8_near {x : F32} {k : Nat} (hk : k ≤ 255) (hf : x.isFinite = true)
    (h : |255 * toRat x - k| ≤ 1 / 4) : floatToUint8 x = some k := by
  have hk' : (k : ℚ) ≤ 255 := by exact_mod_cast hk
  have hk0 : (0 : ℚ) ≤ k := by positivity
  rw [abs_le] at h
  have hb : |255 * toRat x| ≤ 256 := by rw [abs_le]; constructor <;> linarith
  have ho : |toRat f255 * toRat x| < ovf := by
    rw [toRat_255]; refine lt_of_le_of_lt hb ?_; unfold ovf; norm_num
  have hy := toRat_mul (a := f255) rfl hf ho
  have fy := isFinite_mul (a := f255) rfl hf ho
  rw [toRat_255] at hy
  have err : |rnd (255 * toRat x) - 255 * toRat x| ≤ 1 / 2 ^ 16 := by
    refine _root_.le_trans (rnd_err _) (max_le (by norm_num) ?_)
    refine _root_.le_trans (div_le_div_of_nonneg_right hb (by norm_num)) (by norm_num)
  rw [abs_le] at err
  have y1 : (k : ℚ) - 1 / 2 < toRat (mul f255 x) := by rw [hy]; norm_num at err ⊢; linarith
  have y2 : toRat (mul f255 x) < (k : ℚ) + 1 / 2 := by rw [hy]; norm_num at err ⊢; linarith
  obtain ⟨s, n, hn, e⟩ := exists_of_isFinite fy
  have hr : toRat (fround (mul f255 x)) = k ∧ (fround (mul f255 x)).isFinite = true := by
    refine ⟨?_, isFinite_fround fy⟩
    rw [e] at y1 y2 ⊢
    rw [toRat_fround_abs]
    cases s
    · rw [toRat_fin_false] at y1 y2
      have : ⌊(mag n : ℚ) / 2 ^ 149 + 1 / 2⌋ = k := by
        rw [Int.floor_eq_iff]; push_cast; constructor <;> linarith
      rw [this]; simp
    · rw [toRat_fin_true] at y1 y2
      have hp : (0 : ℚ) ≤ (mag n : ℚ) / 2 ^ 149 := by positivity
      have hk1 : (k : ℚ) < 1 := by linarith
      have hk1 : k < 1 := by exact_mod_cast hk1
      have hk1 : k = 0 := by omega
      subst hk1
      have : ⌊(mag n : ℚ) / 2 ^ 149 + 1 / 2⌋ = 0 := by
        rw [Int.floor_eq_iff]; push_cast at *; constructor <;> linarith
      rw [this]; simp
  obtain ⟨hr, fr⟩ := hr
  unfold floatToUint8
  have nr := isNaN_of_isFinite fr
  have c1 : lt (fround (mul f255 x)) zero = false :=
    (not_lt_iff nr rfl).2 ((le_iff (a := zero) rfl fr).2 (by rw [toRat_zero', hr]; exact hk0))
  have c2 : lt f255 (fround (mul f255 x)) = false :=
    (not_lt_iff rfl nr).2 ((le_iff (b := f255) fr rfl).2 (by rw [toRat_255, hr]; exact hk'))
  unfold clamp
  rw [c1, c2]
  simp only [Bool.false_eq_true, if_false]
  obtain ⟨s, n, hn, e⟩ := exists_of_isFinite fr
  rw [e] at hr ⊢
  unfold castUint8
  simp only
  cases s
  · rw [toRat_fin_false] at hr
    rw [hr]
    have : ⌊(k : ℚ)⌋.toNat = k := by simp
    rw [this]
    simp; omega
  · rw [toRat_fin_true] at hr
    have hp : (0 : ℚ) ≤ (mag n : ℚ) / 2 ^ 149 := by positivity
    have hz : (mag n : ℚ) / 2 ^ 149 = 0 := by linarith
    have hk1 : (k : ℚ) = 0 := by linarith
    have hk1 : k = 0 := by exact_mod_cast hk1
    subst hk1
    rw [hz]; simp

/-- The cast to a byte is never undefined, whatever the float (NaN excepted). -/
theorem floatToUint8_total {x : F32} (h : x.isNaN = false) : ∃ k, k ≤ 255 ∧ floatToUint8 x = some k := by
  have hm : (mul f255 x).isNaN = false := by
    by_contra hc
    have hc : (mul f255 x).isNaN = true := by simpa using hc
    rcases (isNaN_mul (a := f255) rfl h).1 hc with ⟨-, h0, -⟩ | ⟨-, -, h0⟩
    · rw [toRat_255] at h0; norm_num at h0
    · cases h0
  have hr : (fround (mul f255 x)).isNaN = false := by
    rcases isFinite_or_inf hm with f | ⟨s, e⟩
    · exact isNaN_of_isFinite (isFinite_fround f)
    · rw [e]; rfl
  have hc : ∃ y, clamp (fround (mul f255 x)) zero f255 = y ∧ y.isFinite = true ∧ 0 ≤ toRat y ∧ toRat y ≤ 255 := by
    refine ⟨_, rfl, ?_⟩
    unfold clamp
    split
    · exact ⟨rfl, by rw [toRat_zero'], by rw [toRat_zero']; norm_num⟩
    · rename_i h0
      split
      · exact ⟨rfl, by rw [toRat_255]; norm_num, by rw [toRat_255]⟩
      · rename_i h1
        have a := (not_lt_iff hr (b := zero) rfl).1 (by simpa using h0)
        have b := (not_lt_iff (a := f255) rfl hr).1 (by simpa using h1)
        have f := isFinite_of_between (a := zero) (c := f255) rfl rfl a b
        have a' := (le_iff (a := zero) rfl f).1 a
        have b' := (le_iff (b := f255) f rfl).1 b
        rw [toRat_zero'] at a'; rw [toRat_255] at b'
        exact ⟨f, a', b'⟩
  obtain ⟨y, ey, fy, y0, y1⟩ := hc
  unfold floatToUint8
  rw [ey]
  obtain ⟨s, n, hn, rfl⟩ := exists_of_isFinite fy
  have hp : (0 : ℚ) ≤ (mag n : ℚ) / 2 ^ 149 := by positivity
  have hb : (mag n : ℚ) / 2 ^ 149 ≤ 255 := by
    cases s
    · rw [toRat_fin_false] at y1; exact y1
    · rw [toRat_fin_true] at y0; linarith
  have fl : ⌊(mag n : ℚ) / 2 ^ 149⌋.toNat ≤ 255 := by
    have := Int.floor_le_floor hb
    have e : ⌊(255 : ℚ)⌋ = 255 := by norm_num
    rw [e] at this; omega
  have hs : (s && decide (⌊(mag n : ℚ) / 2 ^ 149⌋.toNat ≠ 0)) = false := by
    cases s
    · rfl
    · rw [toRat_fin_true] at y0
      have : (mag n : ℚ) / 2 ^ 149 = 0 := by linarith
      rw [this]; simp
  refine ⟨⌊(mag n : ℚ) / 2 ^ 149⌋.toNat, fl, ?_⟩
  unfold castUint8
  simp only
  rw [if_neg (by rw [hs]; simp), if_neg (by omega)]

/-- **C27, outputs.** The floats and bytes read back from a color without NaN: they always exist (no
undefined cast, no failed DCHECK), no float is NaN, and alpha is the color's alpha. -/
theorem C27_outputs (E : ColorEnv) (hE : E.NoNaN) (c : Color) (hc : c.Ok) (f : ColorFormat) :
    (∃ v, asFloat E c f = some v ∧ v.r.isNaN = false ∧ v.g.isNaN = false ∧ v.b.isNaN = false ∧ v.a = c.a) ∧
    (∃ u, asUint8 E c f = some u ∧ u.r ≤ 255 ∧ u.g ≤ 255 ∧ u.b ≤ 255 ∧ u.a ≤ 255) := by
  obtain ⟨nr, ng, nb, fa, a0, a1⟩ := hc
  have na := isNaN_of_isFinite fa
  have key : ∃ v, asFloat E c f = some v ∧ v.r.isNaN = false ∧ v.g.isNaN = false ∧ v.b.isNaN = false ∧
      v.a = c.a := by
    unfold asFloat
    cases f with
    | linear => exact ⟨_, rfl, nr, ng, nb, rfl⟩
    | gammaEncoded => exact ⟨_, rfl, (hE _ _ nr).2, (hE _ _ ng).2, (hE _ _ nb).2, rfl⟩
    | premultipliedAlpha =>
      have d : (ge c.a zero && le c.a one) = true := by
        have h1 : le zero c.a = true := (le_iff (a := zero) rfl fa).2 (by rw [toRat_zero']; exact a0)
        have h2 : le c.a one = true := (le_iff (b := one) fa rfl).2 (by rw [toRat_one']; exact a1)
        unfold F32.ge; rw [h1, h2]; rfl
      simp only
      rw [if_pos d]
      by_cases hz : feq c.a zero = true
      · rw [if_pos hz]; exact ⟨_, rfl, rfl, rfl, rfl, rfl⟩
      · rw [if_neg hz]
        have h0 : toRat c.a ≠ 0 := fun e => hz ((feq_zero_iff na).2 ⟨fa, e⟩)
        have m : ∀ x : F32, x.isNaN = false → (mul x c.a).isNaN = false := by
          intro x hx
          by_contra hc
          have hc : (mul x c.a).isNaN = true := by simpa using hc
          rcases (isNaN_mul hx na).1 hc with ⟨-, -, h⟩ | ⟨-, h, -⟩
          · obtain ⟨s, n, hn, e⟩ := exists_of_isFinite fa; rw [e] at h; cases h
          · exact h0 h
        exact ⟨_, rfl, m _ nr, m _ ng, m _ nb, rfl⟩
  refine ⟨key, ?_⟩
  obtain ⟨v, hv, vr, vg, vb, va⟩ := key
  obtain ⟨r, hr, er⟩ := floatToUint8_total vr
  obtain ⟨g, hg, eg⟩ := floatToUint8_total vg
  obtain ⟨b, hb, eb⟩ := floatToUint8_total vb
  obtain ⟨a, ha, ea⟩ := floatToUint8_total (by rw [va]; exact na : v.a.isNaN = false)
  refine ⟨⟨r, g, b, a⟩, ?_, hr, hg, hb, ha⟩
  unfold asUint8
  rw [hv]; simp only [Option.bind_eq_bind, Option.bind_some, er, eg, eb, ea]

/-- **C27, `ClampedToGamut` and `IsInGamut`.** For a color without NaN: `IsInGamut` says whether every color
channel is in `[0, 1]`; the clamped color is in gamut, is unchanged if the color was, and each of its
channels is the point of `[0, 1]` nearest to the original channel. -/
theorem C27_clamped (c : Color) (hc : c.Ok) :
    (isInGamut c = true ↔ ∀ x ∈ [c.r, c.g, c.b], x.isFinite = true ∧ 0 ≤ toRat x ∧ toRat x ≤ 1) ∧
    isInGamut (clampedToGamut c) = true ∧
    (isInGamut c = true → clampedToGamut c = c) ∧
    (clampedToGamut c).a = c.a ∧
    (∀ p ∈ [(c.r, (clampedToGamut c).r), (c.g, (clampedToGamut c).g), (c.b, (clampedToGamut c).b)],
      (p.1 = .inf false → p.2 = one) ∧ (p.1 = .inf true → p.2 = zero) ∧
      (p.1.isFinite = true → toRat p.2 = max 0 (min 1 (toRat p.1)))) := by
  obtain ⟨nr, ng, nb, fa, a0, a1⟩ := hc
  have ch : ∀ x : F32, x.isNaN = false → ((!(lt x zero || gt x one)) = true ↔
      x.isFinite = true ∧ 0 ≤ toRat x ∧ toRat x ≤ 1) := by
    intro x hx
    have e : (!(lt x zero || gt x one)) = true ↔ lt x zero = false ∧ lt one x = false := by
      unfold gt; cases lt x zero <;> cases lt one x <;> simp
    rw [e, not_lt_iff hx rfl, not_lt_iff rfl hx]
    constructor
    · rintro ⟨h1, h2⟩
      have f := isFinite_of_between (a := zero) (c := one) rfl rfl h1 h2
      have h1 := (le_iff (a := zero) rfl f).1 h1
      have h2 := (le_iff (b := one) f rfl).1 h2
      rw [toRat_zero'] at h1; rw [toRat_one'] at h2
      exact ⟨f, h1, h2⟩
    · rintro ⟨f, h1, h2⟩
      exact ⟨(le_iff (a := zero) rfl f).2 (by rw [toRat_zero']; exact h1),
        (le_iff (b := one) f rfl).2 (by rw [toRat_one']; exact h2)⟩
  have gam : ∀ d : Color, d.r.isNaN = false → d.g.isNaN = false → d.b.isNaN = false →
      (isInGamut d = true ↔ ∀ x ∈ [d.r, d.g, d.b], x.isFinite = true ∧ 0 ≤ toRat x ∧ toRat x ≤ 1) := by
    intro d h1 h2 h3
    unfold isInGamut
    rw [Bool.and_eq_true, Bool.and_eq_true, ch _ h1, ch _ h2, ch _ h3]
    simp only [List.mem_cons, List.not_mem_nil, or_false, forall_eq_or_imp, forall_eq]
    tauto
  refine ⟨gam c nr ng nb, ?_, ?_, clamp01_id fa a0 a1, ?_⟩
  · rw [gam _ (isNaN_of_isFinite (clamp01 nr).1) (isNaN_of_isFinite (clamp01 ng).1)
      (isNaN_of_isFinite (clamp01 nb).1)]
    intro x hx
    simp only [List.mem_cons, List.not_mem_nil, or_false] at hx
    rcases hx with rfl | rfl | rfl
    exacts [clamp01 nr, clamp01 ng, clamp01 nb]
  · intro h
    have h := (gam c nr ng nb).1 h
    have hr := h c.r (by simp)
    have hg := h c.g (by simp)
    have hb := h c.b (by simp)
    unfold clampedToGamut
    rw [clamp01_id hr.1 hr.2.1 hr.2.2, clamp01_id hg.1 hg.2.1 hg.2.2, clamp01_id hb.1 hb.2.1 hb.2.2,
      clamp01_id fa a0 a1]
  · have k : ∀ x : F32, (x = .inf false → clamp x zero one = one) ∧ (x = .inf true → clamp x zero one = zero) ∧
        (x.isFinite = true → toRat (clamp x zero one) = max 0 (min 1 (toRat x))) := by
      intro x
      refine ⟨by rintro rfl; decide +kernel, by rintro rfl; decide +kernel, ?_⟩
      intro f
      unfold clamp
      by_cases h1 : lt x zero = true
      · rw [if_pos h1]
        have := (lt_iff (b := zero) f rfl).1 h1
        rw [toRat_zero'] at this ⊢
        rw [max_eq_left]; exact _root_.le_trans (min_le_right _ _) this.le
      · rw [if_neg h1]
        have h1 := (lt_iff (b := zero) f rfl).not.1 h1
        rw [toRat_zero'] at h1
        by_cases h2 : lt one x = true
        · rw [if_pos h2]
          have := (lt_iff (a := one) rfl f).1 h2
          rw [toRat_one'] at this ⊢
          rw [min_eq_left this.le]; norm_num
        · rw [if_neg h2]
          have h2 := (lt_iff (a := one) rfl f).not.1 h2
          rw [toRat_one'] at h2
          rw [min_eq_right (not_lt.1 h2), max_eq_right (not_lt.1 h1)]
    intro p hp
    simp only [List.mem_cons, List.not_mem_nil, or_false] at hp
    rcases hp with rfl | rfl | rfl
    exacts [k c.r, k c.g, k c.b]

/-- **C27, conversions.** For a color without NaN: converting to its own color space changes nothing;
converting to any space keeps alpha and never fails; `WithAlphaFloat` keeps the color channels and the color
space and sets alpha to the given one clamped to `[0, 1]`, NaN counted as 0; the linear floats given to
`FromFloat` are read back unchanged; and every color, infinite channels included, nearly equals itself. -/
theorem C27_conversions (E : ColorEnv) (c : Color) (hc : c.Ok) :
    inColorSpace E c c.space = some c ∧
    (∀ t, ∃ d, inColorSpace E c t = some d ∧ d.a = c.a ∧ d.space = t) ∧
    (∀ x, ∃ d, withAlpha E c x = some d ∧ d.r = c.r ∧ d.g = c.g ∧ d.b = c.b ∧ d.space = c.space ∧
      (x.isNaN = true → toRat d.a = 0) ∧ (x = .inf false → toRat d.a = 1) ∧ (x = .inf true → toRat d.a = 0) ∧
      (x.isFinite = true → toRat d.a = max 0 (min 1 (toRat x)))) ∧
    fromFloat E c.r c.g c.b c.a .linear c.space = some c ∧
    asFloat E c .linear = some ⟨c.r, c.g, c.b, c.a⟩ ∧
    nearlyEquals E c c = some true := by
  obtain ⟨nr, ng, nb, fa, a0, a1⟩ := hc
  have na := isNaN_of_isFinite fa
  have hself : fromFloat E c.r c.g c.b c.a .linear c.space = some c := by
    unfold fromFloat
    rw [nanToZero_of nr, nanToZero_of ng, nanToZero_of nb, nanToZero_of na, clamp01_id fa a0 a1]
  have hin : inColorSpace E c c.space = some c := by
    unfold inColorSpace convert
    rw [if_pos rfl]; exact hself
  refine ⟨hin, ?_, ?_, hself, rfl, ?_⟩
  · intro t
    have ea : (convert E c t).2.2.2 = c.a := by unfold convert; split <;> rfl
    refine ⟨_, rfl, ?_, rfl⟩
    simp only
    rw [ea, nanToZero_of na, clamp01_id fa a0 a1]
  · intro x
    refine ⟨_, rfl, nanToZero_of nr, nanToZero_of ng, nanToZero_of nb, rfl, ?_⟩
    simp only
    refine ⟨?_, by rintro rfl; rw [show clamp (nanToZero (inf false)) zero one = one by decide +kernel, toRat_one'],
      by rintro rfl; rw [show clamp (nanToZero (inf true)) zero one = zero by decide +kernel, toRat_zero'], ?_⟩
    · intro h
      have : nanToZero x = zero := by unfold nanToZero; rw [h]; rfl
      rw [this, show clamp zero zero one = zero by decide +kernel, toRat_zero']
    · intro f
      rw [nanToZero_of (isNaN_of_isFinite f)]
      have := (C27_clamped ⟨x, zero, zero, one, .srgb⟩ ⟨isNaN_of_isFinite f, rfl, rfl, rfl,
        by simp [toRat_one'], by simp [toRat_one']⟩).2.2.2.2 (x, clamp x zero one) (by simp [clampedToGamut])
      exact this.2.2 f
  · unfold nearlyEquals
    rw [hin]
    have k : ∀ x : F32, x.isNaN = false → gt (fabs (sub x x)) kNearlyZero = false := by
      intro x hx
      rcases isFinite_or_inf hx with f | ⟨s, rfl⟩
      · have ho : |toRat x - toRat x| < ovf := by rw [sub_self, abs_zero]; unfold ovf; norm_num
        have e := toRat_sub f f ho
        have f' := isFinite_sub f f ho
        rw [sub_self, rnd_zero] at e
        have : sub x x = .fin false 0 (by decide) ∨ sub x x = .fin true 0 (by decide) := by
          obtain ⟨s, n, hn, e'⟩ := exists_of_isFinite f'
          rw [e'] at e ⊢
          have : n = 0 := by
            have : (mag n : ℚ) / 2 ^ 149 = 0 := by
              cases s
              · rw [toRat_fin_false] at e; exact e
              · rw [toRat_fin_true] at e; linarith
            have : (mag n : ℚ) = 0 := by
              rcases div_eq_zero_iff.1 this with h | h
              · exact h
              · norm_num at h
            exact mag_eq_zero.1 (by exact_mod_cast this)
          subst this
          cases s
          · exact Or.inl rfl
          · exact Or.inr rfl
        rcases this with h | h <;> rw [h] <;> decide +kernel
      · cases s <;> decide +kernel
    simp only [Option.bind_eq_bind, Option.bind_some, k _ nr, k _ ng, k _ nb, k _ na]
    rfl

/-! ## C28 -/

/-- The gamma curves undo each other on the 256 values `k/255`, up to a thousandth. -/
def _root_.Verif.ColorEnv.Accurate (E : ColorEnv) : Prop :=
  ∀ k : Nat, k ≤ 255 → ∀ s x, x.isFinite = true → toRat x = rnd (k / 255) →
    (E.encode (E.decode x s) s).isFinite = true ∧
    |toRat (E.encode (E.decode x s) s) - k / 255| ≤ 1 / 1024

/-- What the API documents as legal: premultiplied bytes with alpha 0 must be all zero. -/
def Legal (f : ColorFormat) (u : RgbaUint8) : Prop :=
  f = .premultipliedAlpha → u.a = 0 → u.r = 0 ∧ u.g = 0 ∧ u.b = 0

/-- `u` holds bytes. -/
def Bytes (u : RgbaUint8) : Prop := u.r ≤ 255 ∧ u.g ≤ 255 ∧ u.b ≤ 255 ∧ u.a ≤ 255

theorem byte_back {k : Nat} (hk : k ≤ 255) : floatToUint8 (div (ofInt k) f255) = some k := by
  obtain ⟨f, -, e, -⟩ := byte_float hk
  refine floatToUint8_near hk f ?_
  rw [abs_le] at e ⊢
  norm_num at e ⊢
  constructor <;> linarith

theorem premul_back {k a : Nat} (hk : k ≤ 255) (ha : a ≤ 255) (h0 : 0 < a) :
    floatToUint8 (mul (div (div (ofInt k) f255) (div (ofInt a) f255)) (div (ofInt a) f255)) = some k := by
  obtain ⟨fk, -, ek, k0, k1⟩ := byte_float hk
  obtain ⟨fa, -, ea, a0, a1⟩ := byte_float ha
  generalize div (ofInt k) f255 = x at *
  generalize div (ofInt a) f255 = y at *
  have ha1 : (1 : ℚ) ≤ a := by exact_mod_cast h0
  have y1 : 1 / 256 ≤ toRat y := by
    rw [abs_le] at ea; norm_num at ea ⊢; linarith
  have yp : 0 < toRat y := by linarith
  have q0 : 0 ≤ toRat x / toRat y := by positivity
  have q1 : toRat x / toRat y ≤ 256 := by rw [div_le_iff₀ yp]; linarith
  have o1 : |toRat x / toRat y| < ovf := by
    rw [abs_of_nonneg q0]; refine lt_of_le_of_lt q1 ?_; unfold ovf; norm_num
  have fd := isFinite_div fk fa yp.ne' o1
  have ed := toRat_div fk fa yp.ne' o1
  have e1 : |rnd (toRat x / toRat y) - toRat x / toRat y| ≤ 1 / 2 ^ 16 := by
    refine _root_.le_trans (rnd_err _) (max_le (by norm_num) ?_)
    rw [abs_of_nonneg q0]
    refine _root_.le_trans (div_le_div_of_nonneg_right q1 (by norm_num)) (by norm_num)
  -- the product before its own rounding
  have e2 : |rnd (toRat x / toRat y) * toRat y - toRat x| ≤ 1 / 2 ^ 16 := by
    have : rnd (toRat x / toRat y) * toRat y - toRat x =
        (rnd (toRat x / toRat y) - toRat x / toRat y) * toRat y := by field_simp
    rw [this, abs_mul, abs_of_pos yp]
    have := mul_le_mul e1 a1 yp.le (by norm_num)
    rwa [mul_one] at this
  have b2 : |rnd (toRat x / toRat y) * toRat y| ≤ 2 := by
    rw [abs_le] at e2 ⊢; norm_num at e2 ⊢; constructor <;> linarith
  have o2 : |toRat (div x y) * toRat y| < ovf := by
    rw [ed]; refine lt_of_le_of_lt b2 ?_; unfold ovf; norm_num
  have fm := isFinite_mul fd fa o2
  have em := toRat_mul fd fa o2
  rw [ed] at em
  have e3 : |rnd (rnd (toRat x / toRat y) * toRat y) - rnd (toRat x / toRat y) * toRat y| ≤ 1 / 2 ^ 23 := by
    refine _root_.le_trans (rnd_err _) (max_le (by norm_num) ?_)
    refine _root_.le_trans (div_le_div_of_nonneg_right b2 (by norm_num)) (by norm_num)
  refine floatToUint8_near hk fm ?_
  rw [em]
  rw [abs_le] at e2 e3 ek ⊢
  norm_num at e2 e3 ek ⊢
  constructor <;> linarith

/-- **C28.** In all three formats and every color space, the bytes of any color that `FromUint8` accepts are
given back by `AsUint8`; `FromUint8` accepts all bytes except premultiplied ones with alpha 0 and a non-zero
channel. For the gamma-encoded format this needs the curves of color_space.cc to undo each other up to a
thousandth on the 256 values (`ColorEnv.Accurate`). -/
theorem C28_uint8_round_trip (E : ColorEnv) (f : ColorFormat) (hE : f = .gammaEncoded → E.Accurate)
    (s : ColorSpace) (u : RgbaUint8) (hu : Bytes u) :
    (fromUint8 E u.r u.g u.b u.a f s = none ↔ ¬ Legal f u) ∧
    (Legal f u → (fromUint8 E u.r u.g u.b u.a f s).bind (fun c => asUint8 E c f) = some u) := by
  obtain ⟨h1, h2, h3, h4⟩ := hu
  obtain ⟨r, g, b, a⟩ := u
  simp only at h1 h2 h3 h4
  have fl : ¬ Legal f ⟨r, g, b, a⟩ ↔ (f = .premultipliedAlpha ∧ a = 0 ∧ (r ≠ 0 ∨ g ≠ 0 ∨ b ≠ 0)) := by
    unfold Legal; simp only; tauto
  have hn : ∀ k : Nat, k ≤ 255 → nanToZero (div (ofInt k) f255) = div (ofInt k) f255 := fun k hk =>
    nanToZero_of (isNaN_of_isFinite (byte_float hk).1)
  have hc : clamp (div (ofInt a) f255) zero one = div (ofInt a) f255 := by
    obtain ⟨x, -, -, y, z⟩ := byte_float h4
    exact clamp01_id x y z
  suffices hs : Legal f ⟨r, g, b, a⟩ →
      (fromUint8 E r g b a f s).bind (fun c => asUint8 E c f) = some ⟨r, g, b, a⟩ by
    refine ⟨⟨?_, ?_⟩, hs⟩
    · intro hnone hl
      have := hs hl
      simp only at hnone
      rw [hnone] at this; cases this
    · intro hl
      rw [fl] at hl
      simp only
      unfold fromUint8; rw [if_pos hl]
  intro hl
  have hl' := hl
  unfold fromUint8
  rw [if_neg (fun h => (fl.2 h) hl)]
  unfold fromFloat
  rw [hn r h1, hn g h2, hn b h3, hn a h4, hc]
  cases f with
  | linear =>
    simp only [Option.bind_some, asUint8, asFloat, Option.bind_eq_bind, byte_back h1, byte_back h2, byte_back h3,
      byte_back h4]
  | gammaEncoded =>
    have acc := hE rfl
    have k : ∀ k : Nat, k ≤ 255 → floatToUint8 (E.encode (E.decode (div (ofInt k) f255) s) s) = some k := by
      intro k hk
      obtain ⟨x, y, -⟩ := byte_float hk
      obtain ⟨p, q⟩ := acc k hk s _ x y
      refine floatToUint8_near hk p ?_
      rw [abs_le] at q ⊢
      norm_num at q ⊢
      constructor <;> linarith
    simp only [Option.bind_some, asUint8, asFloat, Option.bind_eq_bind, k r h1, k g h2, k b h3, byte_back h4]
  | premultipliedAlpha =>
    by_cases h0 : a = 0
    · obtain ⟨rfl, rfl, rfl⟩ := hl' rfl h0
      subst h0
      have z : div (ofInt ((0 : ℕ) : ℤ)) f255 = zero := by decide +kernel
      have z1 : feq zero zero = true := by decide +kernel
      have z2 : (ge zero zero && le zero one) = true := by decide +kernel
      have z3 : floatToUint8 zero = some 0 := by decide +kernel
      simp only [z, z1, z2, z3, asUint8, asFloat, if_true, Bool.not_true, Bool.or_false, Bool.false_eq_true,
        if_false, Option.bind_some, Option.bind_eq_bind]
    · obtain ⟨fa, -, ea, a0, a1⟩ := byte_float h4
      have ha1 : (1 : ℚ) ≤ a := by exact_mod_cast Nat.pos_of_ne_zero h0
      have y1 : 1 / 256 ≤ toRat (div (ofInt a) f255) := by
        rw [abs_le] at ea; norm_num at ea ⊢; linarith
      have hz : feq (div (ofInt a) f255) zero = false := by
        by_contra hc
        have hc : feq (div (ofInt a) f255) zero = true := by simpa using hc
        have := (feq_zero_iff (isNaN_of_isFinite fa)).1 hc
        linarith [this.2]
      have d : (ge (div (ofInt a) f255) zero && le (div (ofInt a) f255) one) = true := by
        have h1 : le zero (div (ofInt a) f255) = true := (le_iff (a := zero) rfl fa).2 (by rw [toRat_zero']; exact a0)
        have h2 : le (div (ofInt a) f255) one = true := (le_iff (b := one) fa rfl).2 (by rw [toRat_one']; exact a1)
        unfold F32.ge; rw [h1, h2]; rfl
      have hp := Nat.pos_of_ne_zero h0
      simp only [hz, Bool.false_eq_true, if_false, Option.bind_some, asUint8, asFloat, d, if_true,
        Option.bind_eq_bind, premul_back h1 h4 hp, premul_back h2 h4 hp, premul_back h3 h4 hp, byte_back h4]

/-- Packing four bytes. -/
theorem or_bytes {r g b a : Nat} (hr : r ≤ 255) (hg : g ≤ 255) (hb : b ≤ 255) (ha : a ≤ 255) :
    (r <<< 24 % 2 ^ 32) ||| (g <<< 16 % 2 ^ 32) ||| (b <<< 8 % 2 ^ 32) ||| a =
      r * 2 ^ 24 + g * 2 ^ 16 + b * 2 ^ 8 + a := by
  rw [Nat.mod_eq_of_lt (by rw [Nat.shiftLeft_eq]; omega), Nat.mod_eq_of_lt (by rw [Nat.shiftLeft_eq]; omega),
    Nat.mod_eq_of_lt (by rw [Nat.shiftLeft_eq]; omega)]
  have e1 : r <<< 24 ||| g <<< 16 = (r * 256 + g) <<< 16 := by
    rw [← Nat.shiftLeft_add_eq_or_of_lt (i := 24) (by rw [Nat.shiftLeft_eq]; omega)]
    simp only [Nat.shiftLeft_eq]; omega
  have e2 : (r * 256 + g) <<< 16 ||| b <<< 8 = ((r * 256 + g) * 256 + b) <<< 8 := by
    rw [← Nat.shiftLeft_add_eq_or_of_lt (i := 16) (by rw [Nat.shiftLeft_eq]; omega)]
    simp only [Nat.shiftLeft_eq]; omega
  rw [e1, e2, ← Nat.shiftLeft_add_eq_or_of_lt (i := 8) (by omega)]
  simp only [Nat.shiftLeft_eq]; omega

theorem and_ff (n : Nat) : n &&& 0xff = n % 256 := Nat.and_two_pow_sub_one_eq_mod n 8

/-- **C28, packed.** The same for the four bytes packed in 32 bits, red first. -/
theorem C28_packed_round_trip (E : ColorEnv) (f : ColorFormat) (hE : f = .gammaEncoded → E.Accurate)
    (s : ColorSpace) (r g b a : Nat) (hu : Bytes ⟨r, g, b, a⟩) (hl : Legal f ⟨r, g, b, a⟩) :
    fromPacked E (r * 2 ^ 24 + g * 2 ^ 16 + b * 2 ^ 8 + a) f s = fromUint8 E r g b a f s ∧
    (fromPacked E (r * 2 ^ 24 + g * 2 ^ 16 + b * 2 ^ 8 + a) f s).bind (fun c => asPacked E c f) =
      some (r * 2 ^ 24 + g * 2 ^ 16 + b * 2 ^ 8 + a) := by
  obtain ⟨h1, h2, h3, h4⟩ := hu
  simp only at h1 h2 h3 h4
  have e : fromPacked E (r * 2 ^ 24 + g * 2 ^ 16 + b * 2 ^ 8 + a) f s = fromUint8 E r g b a f s := by
    unfold fromPacked
    rw [and_ff, and_ff, and_ff]
    simp only [Nat.shiftRight_eq_div_pow]
    congr 1 <;> omega
  refine ⟨e, ?_⟩
  rw [e]
  have := (C28_uint8_round_trip E f hE s ⟨r, g, b, a⟩ ⟨h1, h2, h3, h4⟩).2 hl
  simp only [Option.bind_eq_some_iff] at this ⊢
  obtain ⟨c, hc, hu⟩ := this
  refine ⟨c, hc, ?_⟩
  unfold asPacked
  rw [hu]
  simp only [Option.bind_eq_bind, Option.bind_some]
  rw [or_bytes h1 h2 h3 h4]

/-- Every 32-bit number is one of those of `C28_packed_round_trip`. -/
theorem C28_packed_all (n : Nat) (hn : n < 2 ^ 32) :
    ∃ r g b a, Bytes ⟨r, g, b, a⟩ ∧ n = r * 2 ^ 24 + g * 2 ^ 16 + b * 2 ^ 8 + a := by
  refine ⟨n / 2 ^ 24, n / 2 ^ 16 % 256, n / 2 ^ 8 % 256, n % 256, ⟨?_, ?_, ?_, ?_⟩, ?_⟩ <;> (try simp only) <;> omega

/-- **C28, ARGB helpers.** Packing as alpha, red, green, blue and unpacking are inverse to each other, and
the packed value has alpha in the top byte. -/
theorem C28_argb :
    (∀ u, Bytes u → packARGB u = u.a * 2 ^ 24 + u.r * 2 ^ 16 + u.g * 2 ^ 8 + u.b ∧ unpackARGB (packARGB u) = u) ∧
    (∀ n, n < 2 ^ 32 → Bytes (unpackARGB n) ∧ packARGB (unpackARGB n) = n) := by
  have p : ∀ u, Bytes u → packARGB u = u.a * 2 ^ 24 + u.r * 2 ^ 16 + u.g * 2 ^ 8 + u.b := by
    rintro u ⟨h1, h2, h3, h4⟩
    unfold packARGB; rw [or_bytes h4 h1 h2 h3]
  have ue : ∀ n, unpackARGB n = ⟨n / 2 ^ 16 % 256, n / 2 ^ 8 % 256, n % 256, n / 2 ^ 24 % 256⟩ := by
    intro n; unfold unpackARGB; rw [and_ff, and_ff, and_ff]; simp only [Nat.shiftRight_eq_div_pow]
  refine ⟨fun u hu => ⟨p u hu, ?_⟩, fun n hn => ?_⟩
  · rw [p u hu, ue]
    obtain ⟨h1, h2, h3, h4⟩ := hu
    obtain ⟨r, g, b, a⟩ := u
    simp only at *
    simp only [RgbaUint8.mk.injEq]
    refine ⟨?_, ?_, ?_, ?_⟩ <;> omega
  · have hb : Bytes (unpackARGB n) := by
      rw [ue]; refine ⟨?_, ?_, ?_, ?_⟩ <;> simp only <;> omega
    refine ⟨hb, ?_⟩
    rw [p _ hb, ue]; simp only; omega

/-- The hypotheses of C28 hold for `idEnv` (curves that do nothing). -/
theorem idEnv_accurate : idEnv.Accurate := by
  intro k hk s x hf hx
  refine ⟨hf, ?_⟩
  obtain ⟨-, e, h, -⟩ := byte_float hk
  change |toRat x - k / 255| ≤ _
  rw [hx, ← e]
  exact _root_.le_trans h (by norm_num)

example : (fromUint8 idEnv 200 3 255 7 .premultipliedAlpha .displayP3).bind
    (fun c => asUint8 idEnv c .premultipliedAlpha) = some ⟨200, 3, 255, 7⟩ :=
  (C28_uint8_round_trip idEnv _ (fun _ => idEnv_accurate) _ ⟨200, 3, 255, 7⟩
    (by unfold Bytes; decide)).2 (by unfold Legal; decide)

end Color
end Verif
