import Verif.Model.StrokeVertex
import Verif.Lemmas.StrokeVertex
import Verif.Lemmas.MeshPacking
import Verif.F32.Int
import Verif.F32.Mono
import Verif.Props.TipState

/-!
# C39: labels of stroke vertices
-/

set_option autoImplicit false

namespace Verif.Vertex

open F32 Verif.Tip

/-- The label of a vertex with a whole number of at most 127 in it. -/
def Encodable (l : Label) : Prop := ∃ z : ℤ, -127 ≤ z ∧ z ≤ 127 ∧ l.encoded = ofInt z

/-- A margin, limited to what can be encoded. -/
def clipped : F32 → ℚ
  | .inf negative => if negative then 0 else 4
  | m => max 0 (min 4 (toRat m))

theorem eq_ofInt {a : F32} {z : ℤ} (hz : |z| ≤ 2 ^ 24) (h0 : z ≠ 0) (ha : a.isFinite = true)
    (h : toRat a = z) : a = ofInt z := by
  have e := toRat_ofInt hz
  have hf := isFinite_ofInt hz
  generalize ofInt z = b at *
  have hk : key a = key b := (key_eq_iff ha hf).2 (by rw [h, e])
  obtain ⟨s, n, hn, rfl⟩ := exists_of_isFinite ha
  obtain ⟨s', n', hn', rfl⟩ := exists_of_isFinite hf
  have hn0 : n ≠ 0 := by
    rintro rfl
    apply h0
    have : toRat (fin s 0 hn) = 0 := by
      cases s
      · exact toRat_zero
      · rw [toRat_fin_true, ← toRat_fin_false _ hn]
        show -toRat zero = 0
        rw [toRat_zero, neg_zero]
    rw [this] at h
    exact_mod_cast h.symm
  cases s <;> cases s' <;> simp [key] at hk <;> first | (subst hk; rfl) | (exfalso; omega)

/-- The whole number that encodes a margin. -/
def enc (q : ℚ) : ℤ := ⌊rnd (1 + rnd (126 * rnd (q / 4)))⌋

theorem enc_mono {p q : ℚ} (h : p ≤ q) : enc p ≤ enc q := by
  unfold enc
  apply Int.floor_le_floor
  apply rnd_mono
  have := rnd_mono (show 126 * rnd (p / 4) ≤ 126 * rnd (q / 4) by
    have := rnd_mono (show p / 4 ≤ q / 4 by linarith)
    linarith)
  linarith

theorem rnd_int (z : ℤ) (h : |z| ≤ 2 ^ 24) : rnd (z : ℚ) = z := (Repr.ofInt h).rnd_eq

theorem rnd_one : rnd 1 = 1 := by simpa using rnd_int 1 (by norm_num)

theorem enc_zero : enc 0 = 1 := by
  unfold enc
  rw [zero_div, rnd_zero, mul_zero, rnd_zero, add_zero, rnd_one]
  norm_num

theorem enc_four : enc 4 = 127 := by
  unfold enc
  rw [show (4 : ℚ) / 4 = 1 by norm_num, rnd_one, mul_one,
    show rnd 126 = 126 by simpa using rnd_int 126 (by norm_num),
    show (1 : ℚ) + 126 = 127 by norm_num,
    show rnd 127 = 127 by simpa using rnd_int 127 (by norm_num)]
  norm_num

theorem one_le_enc {q : ℚ} (h : 0 ≤ q) : 1 ≤ enc q := by rw [← enc_zero]; exact enc_mono h

theorem enc_le {q : ℚ} (h : q ≤ 4) : enc q ≤ 127 := by rw [← enc_four]; exact enc_mono h

/-- How far an encoded margin is from the margin. -/
theorem enc_err {q : ℚ} (h0 : 0 ≤ q) (h4 : q ≤ 4) :
    126 * (q / 4) - 1 / 2 ^ 15 < enc q ∧ enc q ≤ 1 + 126 * (q / 4) + 1 / 2 ^ 15 := by
  have e1 := rnd_err (q / 4)
  have r1 : 0 ≤ rnd (q / 4) := rnd_nonneg (by positivity)
  have r1' : rnd (q / 4) ≤ 1 := by
    have := rnd_mono (show q / 4 ≤ 1 by linarith); rwa [rnd_one] at this
  generalize ht : rnd (q / 4) = t at *
  have e2 := rnd_err (126 * t)
  have r2 : 0 ≤ rnd (126 * t) := rnd_nonneg (by positivity)
  have r2' : rnd (126 * t) ≤ 126 := by
    have := rnd_mono (show 126 * t ≤ 126 by linarith)
    rwa [show rnd 126 = 126 by simpa using rnd_int 126 (by norm_num)] at this
  have hu : enc q = ⌊rnd (1 + rnd (126 * t))⌋ := by unfold enc; rw [ht]
  generalize rnd (126 * t) = u at *
  have e3 := rnd_err (1 + u)
  have b1 : |q / 4| ≤ 1 := by rw [abs_of_nonneg (by positivity)]; linarith
  have b2 : |126 * t| ≤ 126 := by rw [abs_of_nonneg (by positivity)]; linarith
  have b3 : |1 + u| ≤ 127 := by rw [abs_of_nonneg (by linarith)]; linarith
  have m1 : max (1 / 2 ^ 150) (|q / 4| / 2 ^ 24) ≤ 1 / 2 ^ 24 :=
    max_le (by norm_num) (by linarith [div_le_div_of_nonneg_right b1 (show (0 : ℚ) ≤ 2 ^ 24 by norm_num)])
  have m2 : max (1 / 2 ^ 150) (|126 * t| / 2 ^ 24) ≤ 126 / 2 ^ 24 :=
    max_le (by norm_num) (by linarith [div_le_div_of_nonneg_right b2 (show (0 : ℚ) ≤ 2 ^ 24 by norm_num)])
  have m3 : max (1 / 2 ^ 150) (|1 + u| / 2 ^ 24) ≤ 127 / 2 ^ 24 :=
    max_le (by norm_num) (by linarith [div_le_div_of_nonneg_right b3 (show (0 : ℚ) ≤ 2 ^ 24 by norm_num)])
  have f1 := abs_le.1 (_root_.le_trans e1 m1)
  have f2 := abs_le.1 (_root_.le_trans e2 m2)
  have f3 := abs_le.1 (_root_.le_trans e3 m3)
  have g1 := Int.floor_le (rnd (1 + u))
  have g2 := Int.lt_floor_add_one (rnd (1 + u))
  rw [hu]
  norm_num at f1 f2 f3 ⊢
  constructor <;> linarith [f1.1, f1.2, f2.1, f2.2, f3.1, f3.2]

theorem clipped_range (m : F32) : 0 ≤ clipped m ∧ clipped m ≤ 4 := by
  unfold clipped
  split
  · split <;> norm_num
  · exact ⟨le_max_left _ _, max_le (by norm_num) (min_le_left _ _)⟩

theorem clipped_mono {m m' : F32} (h : le m m' = true) : clipped m ≤ clipped m' := by
  obtain ⟨n, n', hk⟩ := le_key h
  have fin_eq : ∀ x : F32, x.isFinite = true → clipped x = max 0 (min 4 (toRat x)) := by
    intro x hx
    obtain ⟨s, k, hk, rfl⟩ := exists_of_isFinite hx
    rfl
  rcases isFinite_or_inf n with f | ⟨s, rfl⟩
  · rcases isFinite_or_inf n' with f' | ⟨s', rfl⟩
    · rw [fin_eq _ f, fin_eq _ f']
      have := (key_le_iff f f').1 hk
      exact max_le_max (_root_.le_refl _) (min_le_min (_root_.le_refl _) this)
    · cases s'
      · exact (clipped_range m).2
      · exfalso
        rw [key_inf_true] at hk
        have := (isFinite_iff_key m).1 f
        omega
  · cases s
    · rcases isFinite_or_inf n' with f' | ⟨s', rfl⟩
      · exfalso
        rw [key_inf_false] at hk
        have := (isFinite_iff_key m').1 f'
        omega
      · cases s'
        · exact _root_.le_refl _
        · exact absurd h (by decide)
    · exact (clipped_range m').1

theorem clamp_toRat {m : F32} (hm : m.isNaN = false) :
    (clamp m zero maximumMargin).isFinite = true ∧
      toRat (clamp m zero maximumMargin) = clipped m := by
  have h4 : toRat maximumMargin = 4 := by
    unfold maximumMargin; simpa using toRat_ofInt (z := 4) (by norm_num)
  have f4 : maximumMargin.isFinite = true := isFinite_ofInt (by norm_num)
  have f0 : zero.isFinite = true := rfl
  rcases isFinite_or_inf hm with hm | ⟨s, rfl⟩
  · have hc : clipped m = max 0 (min 4 (toRat m)) := by
      obtain ⟨s, k, hk, rfl⟩ := exists_of_isFinite hm
      rfl
    rw [hc]
    unfold clamp
    by_cases h1 : lt m zero = true
    · rw [if_pos h1]
      rw [lt_iff hm f0, toRat_zero] at h1
      exact ⟨rfl, by rw [toRat_zero, max_eq_left]; exact _root_.le_trans (min_le_right _ _) h1.le⟩
    · rw [if_neg h1]
      rw [lt_iff hm f0, toRat_zero] at h1
      by_cases h2 : lt maximumMargin m = true
      · rw [if_pos h2]
        rw [lt_iff f4 hm, h4] at h2
        exact ⟨f4, by rw [h4, min_eq_left h2.le, max_eq_right (by norm_num)]⟩
      · rw [if_neg h2]
        rw [lt_iff f4 hm, h4] at h2
        exact ⟨hm, by rw [min_eq_right (by linarith), max_eq_right (by linarith)]⟩
  · cases s
    · refine ⟨?_, ?_⟩ <;> rw [show clamp (inf false) zero maximumMargin = maximumMargin by decide +kernel]
      · exact f4
      · rw [h4]; rfl
    · refine ⟨?_, ?_⟩ <;> rw [show clamp (inf true) zero maximumMargin = zero by decide +kernel]
      · rfl
      · rw [toRat_zero]; rfl

theorem small_lt_ovf {q : ℚ} (h : |q| ≤ 1000) : |q| < ovf := by
  unfold ovf; norm_num; linarith

/-- The value before rounding down. -/
theorem encode_floor {x : F32} (hx : x.isFinite = true) (h0 : 0 ≤ toRat x) (h4 : toRat x ≤ 4) :
    (ffloor (linearMapF x zero maximumMargin encodedLo encodedHi)).isFinite = true ∧
      toRat (ffloor (linearMapF x zero maximumMargin encodedLo encodedHi)) = enc (toRat x) := by
  unfold linearMapF lerpF inverseLerpF
  have c1 : sub maximumMargin zero = maximumMargin := by decide +kernel
  have c2 : feq maximumMargin zero = false := by decide +kernel
  have c3 : sub encodedHi encodedLo = ofInt 126 := by decide +kernel
  rw [c1, c2, c3]
  simp only [Bool.false_eq_true, if_false]
  have k4 : toRat maximumMargin = 4 := by
    unfold maximumMargin; simpa using toRat_ofInt (z := 4) (by norm_num)
  have f4 : maximumMargin.isFinite = true := isFinite_ofInt (by norm_num)
  have f0 : zero.isFinite = true := rfl
  have hs : (sub x zero).isFinite = true :=
    isFinite_sub hx f0 (by rw [toRat_zero, sub_zero]; exact (Repr.toRat x).lt_ovf)
  have es : toRat (sub x zero) = toRat x := by
    rw [toRat_sub hx f0 (by rw [toRat_zero, sub_zero]; exact (Repr.toRat x).lt_ovf), toRat_zero,
      sub_zero, rnd_toRat]
  have b1 : |toRat (sub x zero) / toRat maximumMargin| ≤ 1000 := by
    rw [es, k4, abs_of_nonneg (by positivity)]; linarith
  have n4 : toRat maximumMargin ≠ 0 := by rw [k4]; norm_num
  have hd := isFinite_div hs f4 n4 (small_lt_ovf b1)
  have ed := toRat_div hs f4 n4 (small_lt_ovf b1)
  rw [es, k4] at ed
  generalize div (sub x zero) maximumMargin = t at *
  have t0 : 0 ≤ toRat t := by rw [ed]; exact rnd_nonneg (by positivity)
  have t1 : toRat t ≤ 1 := by
    rw [ed]
    have := rnd_mono (show toRat x / 4 ≤ 1 by linarith); rwa [rnd_one] at this
  have k126 : toRat (ofInt 126) = 126 := by simpa using toRat_ofInt (z := 126) (by norm_num)
  have f126 : (ofInt 126).isFinite = true := isFinite_ofInt (by norm_num)
  have b2 : |toRat (ofInt 126) * toRat t| ≤ 1000 := by
    rw [k126, abs_of_nonneg (by positivity)]; linarith
  have hm := isFinite_mul f126 hd (small_lt_ovf b2)
  have em := toRat_mul f126 hd (small_lt_ovf b2)
  rw [k126] at em
  have u0 : 0 ≤ rnd (126 * toRat t) := rnd_nonneg (by positivity)
  have u1 : rnd (126 * toRat t) ≤ 126 := by
    have := rnd_mono (show 126 * toRat t ≤ 126 by linarith)
    rwa [show rnd 126 = 126 by simpa using rnd_int 126 (by norm_num)] at this
  generalize mul (ofInt 126) t = u at *
  have k1 : toRat encodedLo = 1 := by
    unfold encodedLo; simpa using toRat_ofInt (z := 1) (by norm_num)
  have f1 : encodedLo.isFinite = true := isFinite_ofInt (by norm_num)
  have b3 : |toRat encodedLo + toRat u| ≤ 1000 := by
    rw [k1, em, abs_of_nonneg (by linarith)]; linarith
  have ha := isFinite_add f1 hm (small_lt_ovf b3)
  have ea := toRat_add f1 hm (small_lt_ovf b3)
  rw [k1, em, ed] at ea
  refine ⟨isFinite_ffloor ha, ?_⟩
  rw [toRat_ffloor ha, ea]
  rfl

/-- The sign of a label. -/
def sgn (l : Label) : ℤ := if lt l.encoded zero then -1 else 1

/-- What `WithMargin` makes of an exterior label. -/
theorem withMargin_eq {l : Label} {m : F32} (hl : l.encoded.isNaN = false)
    (h0 : feq l.encoded zero = false) (hm : m.isNaN = false) :
    (l.withMargin m).encoded = ofInt (sgn l * enc (clipped m)) := by
  obtain ⟨fc, ec⟩ := clamp_toRat hm
  obtain ⟨c0, c4⟩ := clipped_range m
  obtain ⟨ff, ef⟩ := encode_floor fc (by rw [ec]; exact c0) (by rw [ec]; exact c4)
  rw [ec] at ef
  unfold Label.withMargin
  rw [if_neg (by simp [h0])]
  simp only
  have hs : l.sign = ofInt (sgn l) := by
    unfold Label.sign sgn
    congr 1
    have hk := Easing.key_zero
    simp only [F32.gt, F32.lt, F32.feq, hl, hk] at h0 ⊢
    have hz : isNaN zero = false := rfl
    simp only [hz, Bool.not_false, Bool.true_and, decide_eq_true_eq,
      decide_eq_false_iff_not] at h0 ⊢
    split <;> split <;> first | rfl | (exfalso; omega)
  rw [hs]
  have e1 := one_le_enc c0
  have e2 := enc_le c4
  generalize enc (clipped m) = k at *
  generalize ffloor _ = f at *
  have hsg : sgn l = 1 ∨ sgn l = -1 := by unfold sgn; split <;> simp
  have sk : |sgn l| ≤ 2 ^ 24 := by rcases hsg with h | h <;> rw [h] <;> norm_num
  have b : |toRat (ofInt (sgn l)) * toRat f| ≤ 1000 := by
    rw [toRat_ofInt sk, ef, ← Int.cast_mul, ← Int.cast_abs, abs_mul]
    have : |sgn l| = 1 := by rcases hsg with h | h <;> rw [h] <;> norm_num
    rw [this, one_mul, abs_of_nonneg (by omega)]
    have : (k : ℚ) ≤ 127 := by exact_mod_cast e2
    linarith
  have hk : |sgn l * k| ≤ 2 ^ 24 := by
    rcases hsg with h | h <;> rw [h] <;> rw [abs_le] <;> constructor <;> omega
  apply eq_ofInt hk (by rcases hsg with h | h <;> rw [h] <;> omega)
    (isFinite_mul (isFinite_ofInt sk) ff (small_lt_ovf b))
  rw [toRat_mul (isFinite_ofInt sk) ff (small_lt_ovf b), toRat_ofInt sk, ef, ← Int.cast_mul,
    rnd_int _ hk]

/-! ## The theorems about labels -/

/-- A label on the outside of the stroke. -/
def Exterior (l : Label) : Prop := l.encoded.isNaN = false ∧ feq l.encoded zero = false

theorem category_ofInt {z : ℤ} (hz : |z| ≤ 2 ^ 24) (l : Label) (h : l.encoded = ofInt z) :
    l.sideCategory = (if z < 0 then .leftOrFront else if z = 0 then .interior else .rightOrBack) ∧
    l.forwardCategory = (if z < 0 then .leftOrFront else if z = 0 then .interior else .rightOrBack) := by
  have e := toRat_ofInt hz
  have f := isFinite_ofInt hz
  have h1 : lt (ofInt z) zero = decide (z < 0) := by
    rw [Bool.eq_iff_iff, lt_iff f rfl, e, toRat_zero, decide_eq_true_eq]
    exact_mod_cast Iff.rfl
  have h2 : feq (ofInt z) zero = decide (z = 0) := by
    rw [Bool.eq_iff_iff, feq_iff f rfl, e, toRat_zero, decide_eq_true_eq]
    exact_mod_cast Iff.rfl
  unfold Label.sideCategory Label.forwardCategory
  rw [h, h1, h2]
  simp only [decide_eq_true_eq, and_self]

theorem sgn_cases (l : Label) : sgn l = 1 ∨ sgn l = -1 := by unfold sgn; split <;> simp

/-- C39. A new margin does not change the category of a label. -/
theorem C39_category (l : Label) (m : F32) (hl : l.encoded.isNaN = false) (hm : m.isNaN = false) :
    (l.withMargin m).sideCategory = l.sideCategory ∧
      (l.withMargin m).forwardCategory = l.forwardCategory := by
  by_cases h0 : feq l.encoded zero = true
  · unfold Label.withMargin
    rw [if_pos h0]
    exact ⟨rfl, rfl⟩
  · have h0' : feq l.encoded zero = false := by simpa using h0
    have e := withMargin_eq hl h0' hm
    obtain ⟨c0, c4⟩ := clipped_range m
    have e1 := one_le_enc c0
    have e2 := enc_le c4
    have hb : |sgn l * enc (clipped m)| ≤ 2 ^ 24 := by
      rcases sgn_cases l with h | h <;> rw [h] <;> rw [abs_le] <;> constructor <;> omega
    obtain ⟨g1, g2⟩ := category_ofInt hb _ e
    rw [g1, g2]
    unfold Label.sideCategory Label.forwardCategory
    rw [h0']
    unfold sgn
    by_cases hlt : lt l.encoded zero = true
    · rw [if_pos hlt, if_pos hlt, if_pos (by omega)]
      exact ⟨rfl, rfl⟩
    · rw [if_neg hlt, if_neg hlt, if_neg (by omega), if_neg (by omega)]
      exact ⟨rfl, rfl⟩

theorem withMargin_cases {l : Label} {m : F32} (hl : Exterior l) (hm : m.isNaN = false) :
    ∃ n : ℕ, n < 127 ∧ ∃ s ∈ [(1 : ℤ), -1], l.withMargin m = ⟨ofInt (s * (n + 1 : ℕ))⟩ ∧
      ((n + 1 : ℕ) : ℤ) = enc (clipped m) := by
  have e := withMargin_eq hl.1 hl.2 hm
  obtain ⟨c0, c4⟩ := clipped_range m
  have e1 := one_le_enc c0
  have e2 := enc_le c4
  refine ⟨(enc (clipped m)).toNat - 1, by omega, sgn l, ?_, ?_, by omega⟩
  · rcases sgn_cases l with h | h <;> rw [h] <;> simp
  · have : (((enc (clipped m)).toNat - 1 + 1 : ℕ) : ℤ) = enc (clipped m) := by omega
    rw [this, ← e]

/-- C39. A margin keeps an exterior label in the range that fits a byte. -/
theorem C39_encodable (l : Label) (m : F32) (hl : Exterior l) (hm : m.isNaN = false) :
    Encodable (l.withMargin m) := by
  obtain ⟨n, hn, s, hs, e, -⟩ := withMargin_cases hl hm
  refine ⟨s * (n + 1 : ℕ), ?_, ?_, by rw [e]⟩ <;>
    · simp only [List.mem_cons, List.not_mem_nil, or_false] at hs
      rcases hs with rfl | rfl <;> omega

/-- C39. The decoded margin is the margin limited to `[0, 4]`, up to one step of the encoding
(`4 / 126`): it is at most a rounding error more, and at most a step less. -/
theorem C39_margin (l : Label) (m : F32) (hl : Exterior l) (hm : m.isNaN = false) :
    (l.withMargin m).decodeMargin.isFinite = true ∧
      clipped m - (4 / 126 + 1 / 2 ^ 18) < toRat (l.withMargin m).decodeMargin ∧
      toRat (l.withMargin m).decodeMargin ≤ clipped m + 1 / 2 ^ 18 := by
  obtain ⟨n, hn, s, hs, e, en⟩ := withMargin_cases hl hm
  obtain ⟨c0, c4⟩ := clipped_range m
  obtain ⟨b1, b2⟩ := enc_err c0 c4
  obtain ⟨t1, t2, -⟩ := decode_table n hn s hs
  rw [e]
  refine ⟨t1, ?_⟩
  have := abs_le.1 t2
  rw [← en] at b1 b2
  push_cast at b1 b2
  norm_num at b1 b2 this ⊢
  constructor <;> linarith [this.1, this.2]

theorem decode_mono {n n' : ℕ} (hn : n ≤ n') (hn' : n' < 127) {s s' : ℤ} (hs : s ∈ [(1 : ℤ), -1])
    (hs' : s' ∈ [(1 : ℤ), -1]) :
    toRat (Label.decodeMargin ⟨ofInt (s * (n + 1 : ℕ))⟩) ≤
      toRat (Label.decodeMargin ⟨ofInt (s' * (n' + 1 : ℕ))⟩) := by
  induction n' generalizing s' with
  | zero =>
    obtain rfl : n = 0 := by omega
    exact decode_zero_table s hs s' hs'
  | succ k ih =>
    rcases Nat.lt_or_ge n (k + 1) with h | h
    · have i := ih (by omega) (by omega) hs'
      exact _root_.le_trans i (decode_mono_table k (by omega) s' hs').le
    · obtain rfl : n = k + 1 := by omega
      have : toRat (Label.decodeMargin ⟨ofInt (s * (k + 1 + 1 : ℕ))⟩) =
          toRat (Label.decodeMargin ⟨ofInt (s' * (k + 1 + 1 : ℕ))⟩) := by
        simp only [List.mem_cons, List.not_mem_nil, or_false] at hs hs'
        rcases hs with rfl | rfl <;> rcases hs' with rfl | rfl
        · rfl
        · exact decode_sign_table _ hn'
        · exact (decode_sign_table _ hn').symm
        · rfl
      exact this.le

/-- C39. A larger margin never decodes to a smaller one, for labels on any sides. -/
theorem C39_margin_mono (l l' : Label) (m m' : F32) (hl : Exterior l) (hl' : Exterior l')
    (h : le m m' = true) :
    toRat (l.withMargin m).decodeMargin ≤ toRat (l'.withMargin m').decodeMargin := by
  obtain ⟨hm, hm', -⟩ := le_key h
  obtain ⟨n, hn, s, hs, e, en⟩ := withMargin_cases hl hm
  obtain ⟨n', hn', s', hs', e', en'⟩ := withMargin_cases hl' hm'
  rw [e, e']
  have := enc_mono (clipped_mono h)
  exact decode_mono (by omega) hn' hs hs'

/-- C39. The ends of the range are exact: a margin of 4 or more gives the largest exterior label, which
decodes to 4; a margin of 0 or less decodes to 0. -/
theorem C39_margin_ends (l : Label) (m : F32) (hl : Exterior l) :
    (le maximumMargin m = true → (l.withMargin m = leftLabel ∨ l.withMargin m = rightLabel) ∧
      toRat (l.withMargin m).decodeMargin = 4) ∧
    (le m zero = true → toRat (l.withMargin m).decodeMargin = 0) := by
  constructor
  · intro h
    obtain ⟨-, hm, -⟩ := le_key h
    obtain ⟨n, hn, s, hs, e, en⟩ := withMargin_cases hl hm
    have c : clipped m = 4 := by
      have := clipped_mono h
      have h4 : clipped maximumMargin = 4 := by decide +kernel
      linarith [(clipped_range m).2]
    rw [c, enc_four] at en
    obtain rfl : n = 126 := by omega
    rw [e]
    simp only [List.mem_cons, List.not_mem_nil, or_false] at hs
    rcases hs with rfl | rfl
    · exact ⟨Or.inr (by decide +kernel), by decide +kernel⟩
    · exact ⟨Or.inl (by decide +kernel), by decide +kernel⟩
  · intro h
    obtain ⟨hm, -, -⟩ := le_key h
    obtain ⟨n, hn, s, hs, e, en⟩ := withMargin_cases hl hm
    have c : clipped m = 0 := by
      have := clipped_mono h
      have h0 : clipped zero = 0 := by decide +kernel
      linarith [(clipped_range m).1]
    rw [c, enc_zero] at en
    obtain rfl : n = 0 := by omega
    rw [e]
    simp only [List.mem_cons, List.not_mem_nil, or_false] at hs
    rcases hs with rfl | rfl <;> decide +kernel

/-- C39. Decoding the margin of a label and encoding it again gives the label. -/
theorem C39_roundtrip (l : Label) (hl : Encodable l) : l.withMargin l.decodeMargin = l := by
  obtain ⟨z, h1, h2, e⟩ := hl
  obtain ⟨x⟩ := l
  simp only at e
  subst e
  rcases lt_trichotomy z 0 with h | rfl | h
  · obtain ⟨n, rfl⟩ : ∃ n : ℕ, z = -1 * (n + 1 : ℕ) := ⟨(-z).toNat - 1, by omega⟩
    exact (decode_table n (by omega) (-1) (by simp)).2.2
  · decide +kernel
  · obtain ⟨n, rfl⟩ : ∃ n : ℕ, z = 1 * (n + 1 : ℕ) := ⟨z.toNat - 1, by omega⟩
    exact (decode_table n (by omega) 1 (by simp)).2.2

/-- C39. Packing a label into the mesh loses nothing: the byte it is packed in unpacks to the label. -/
theorem C39_packing (l : Label) (hl : Encodable l) :
    ∃ b : ℕ, b < 256 ∧ Mesh.packAttribute .f1In1Byte [labelCoding] [l.encoded] = some [b] ∧
      Mesh.unpackAttribute .f1In1Byte [labelCoding] [b] = some [l.encoded] := by
  obtain ⟨z, h1, h2, e⟩ := hl
  obtain ⟨n, rfl⟩ : ∃ n : ℕ, z = (n : ℤ) - 127 := ⟨(z + 127).toNat, by omega⟩
  obtain ⟨p1, p2⟩ := pack_table n (by omega)
  exact ⟨n + 1, by omega, by rw [e]; exact p1, by rw [e]; exact p2⟩

/-- The category of an interpolated label: that of the end the ratio is at or beyond, and in between
the common category, or interior if there is none. -/
def betweenCategory (a b : Category) (t : F32) : Category :=
  if le t zero then a else if le (ofInt 1) t then b else if a = b then a else .interior

/-- A label at full margin, or the interior label. -/
def Full (l : Label) : Prop := feq l.encoded zero = true ∨ l = leftLabel ∨ l = rightLabel

theorem withMargin_full {l : Label} (hl : l.encoded.isNaN = false) :
    (l.sideCategory = .interior ∧ l.withMargin maximumMargin = l ∧ feq l.encoded zero = true) ∨
    (l.sideCategory = .leftOrFront ∧ l.withMargin maximumMargin = leftLabel) ∨
    (l.sideCategory = .rightOrBack ∧ l.withMargin maximumMargin = rightLabel) := by
  by_cases h0 : feq l.encoded zero = true
  · left
    refine ⟨?_, by unfold Label.withMargin; rw [if_pos h0], h0⟩
    unfold Label.sideCategory
    have : lt l.encoded zero = false := by
      unfold F32.feq at h0
      unfold F32.lt
      simp only [Bool.and_eq_true, decide_eq_true_eq] at h0
      simp [h0.2]
    rw [this, h0]
    rfl
  · right
    have h0' : feq l.encoded zero = false := by simpa using h0
    have e := withMargin_eq (m := maximumMargin) hl h0' (by decide +kernel)
    rw [show clipped maximumMargin = 4 by decide +kernel, enc_four] at e
    have hw : ∀ y : F32, (l.withMargin maximumMargin).encoded = y →
      l.withMargin maximumMargin = ⟨y⟩ := by rintro y rfl; rfl
    have e' := hw _ e
    unfold sgn at e'
    unfold Label.sideCategory
    by_cases hlt : lt l.encoded zero = true
    · left
      rw [if_pos hlt] at e' ⊢
      exact ⟨rfl, e'⟩
    · right
      rw [if_neg hlt] at e' ⊢
      rw [if_neg h0]
      exact ⟨rfl, e'⟩

/-- C39. Interpolating between two labels gives full margin and the category expected. -/
theorem C39_lerp (a b : Label) (t : F32) (ha : a.encoded.isNaN = false)
    (hb : b.encoded.isNaN = false) :
    (lerpLabel a b t).sideCategory = betweenCategory a.sideCategory b.sideCategory t ∧
      Full (lerpLabel a b t) := by
  have z0 : feq interiorLabel.encoded zero = true := by decide +kernel
  have main : ∀ x y : Label, x.sideCategory = a.sideCategory → y.sideCategory = b.sideCategory →
      Full x → Full y → (feq x.encoded y.encoded = true ↔ a.sideCategory = b.sideCategory) →
      (if feq x.encoded y.encoded || le t zero then x
        else if ge t (ofInt 1) then y else interiorLabel).sideCategory =
          betweenCategory a.sideCategory b.sideCategory t ∧
      Full (if feq x.encoded y.encoded || le t zero then x
        else if ge t (ofInt 1) then y else interiorLabel) := by
    intro x y hx hy fx fy hxy
    unfold betweenCategory
    by_cases h1 : feq x.encoded y.encoded = true
    · have := hxy.1 h1
      rw [if_pos (by rw [h1]; rfl), hx]
      refine ⟨?_, fx⟩
      rw [← this]
      simp
    · have hne : a.sideCategory ≠ b.sideCategory := fun h => h1 (hxy.2 h)
      have h1' : feq x.encoded y.encoded = false := by simpa using h1
      rw [h1', Bool.false_or]
      by_cases h2 : le t zero = true
      · rw [if_pos h2, if_pos h2]; exact ⟨hx, fx⟩
      · rw [if_neg h2, if_neg h2]
        by_cases h3 : le (ofInt 1) t = true
        · rw [if_pos h3, if_pos (show ge t (ofInt 1) = true from h3)]; exact ⟨hy, fy⟩
        · rw [if_neg h3, if_neg (show ¬ ge t (ofInt 1) = true from h3), if_neg hne]
          exact ⟨by decide +kernel, Or.inl z0⟩
  unfold lerpLabel
  have cl : leftLabel.sideCategory = .leftOrFront := by decide +kernel
  have cr : rightLabel.sideCategory = .rightOrBack := by decide +kernel
  have fzz : ∀ x y : F32, feq x zero = true → feq y zero = true → feq x y = true := by
    intro x y hx hy
    unfold F32.feq at *
    simp only [Bool.and_eq_true, decide_eq_true_eq] at *
    exact ⟨⟨hx.1.1, hy.1.1⟩, by rw [hx.2, hy.2]⟩
  have fzn : ∀ x : F32, feq x zero = true → feq x leftLabel.encoded = false ∧
      feq x rightLabel.encoded = false ∧ feq leftLabel.encoded x = false ∧
      feq rightLabel.encoded x = false := by
    intro x hx
    have k1 : key leftLabel.encoded ≠ key zero := by decide +kernel
    have k2 : key rightLabel.encoded ≠ key zero := by decide +kernel
    unfold F32.feq at *
    simp only [Bool.and_eq_true, decide_eq_true_eq] at hx
    rw [hx.2]
    simp [k1, k2, Ne.symm k1, Ne.symm k2]
  rcases withMargin_full ha with ⟨ca, ea, za⟩ | ⟨ca, ea⟩ | ⟨ca, ea⟩ <;>
    rcases withMargin_full hb with ⟨cb, eb, zb⟩ | ⟨cb, eb⟩ | ⟨cb, eb⟩ <;>
    rw [ea, eb] <;>
    refine main _ _ (by first | rfl | rw [ca, cl] | rw [ca, cr]) (by first | rfl | rw [cb, cl] | rw [cb, cr])
      ?_ ?_ ?_
  all_goals first
    | exact Or.inl za
    | exact Or.inl zb
    | exact Or.inr (Or.inl rfl)
    | exact Or.inr (Or.inr rfl)
    | (rw [ca, cb]; simp [fzz _ _ za zb])
    | (rw [ca, cb]; simp [fzn _ za])
    | (rw [ca, cb]; simp [fzn _ zb])
    | (rw [ca, cb]; decide +kernel)

/-- C39. Interpolating in a triangle: inside it the label is interior; at a corner it has the category of
that corner; on an edge it is as between the two ends of the edge. -/
theorem C39_barycentric (a b c : Label) (u v w : F32) (ha : a.encoded.isNaN = false)
    (hb : b.encoded.isNaN = false) (hc : c.encoded.isNaN = false) :
    (feq u zero = false → feq v zero = false → feq w zero = false →
      (barycentricLerpLabel a b c u v w).sideCategory = .interior) ∧
    (feq u zero = false → feq v zero = true → feq w zero = true →
      (barycentricLerpLabel a b c u v w).sideCategory = a.sideCategory) ∧
    (feq u zero = true → feq v zero = false → feq w zero = true →
      (barycentricLerpLabel a b c u v w).sideCategory = b.sideCategory) ∧
    (feq u zero = true → feq v zero = true → w = ofInt 1 →
      (barycentricLerpLabel a b c u v w).sideCategory = c.sideCategory) ∧
    (feq u zero = true → feq v zero = false → feq w zero = false →
      (barycentricLerpLabel a b c u v w).sideCategory =
        betweenCategory b.sideCategory c.sideCategory w) ∧
    (feq u zero = false → feq v zero = true → feq w zero = false →
      (barycentricLerpLabel a b c u v w).sideCategory =
        betweenCategory a.sideCategory c.sideCategory w) ∧
    (feq u zero = false → feq v zero = false → feq w zero = true →
      (barycentricLerpLabel a b c u v w).sideCategory =
        betweenCategory a.sideCategory b.sideCategory v) := by
  have le0 : ∀ x : F32, feq x zero = true → le x zero = true := by
    intro x hx
    unfold F32.feq at hx
    unfold F32.le
    simp only [Bool.and_eq_true, decide_eq_true_eq] at hx ⊢
    exact ⟨hx.1, hx.2.le⟩
  unfold barycentricLerpLabel
  refine ⟨fun h1 h2 h3 => ?_, fun h1 h2 h3 => ?_, fun h1 h2 h3 => ?_, fun h1 h2 h3 => ?_,
    fun h1 h2 h3 => ?_, fun h1 h2 h3 => ?_, fun h1 h2 h3 => ?_⟩
  · simp only [h1, h2, h3, Bool.false_eq_true, if_false]; decide +kernel
  · simp only [h1, h2, Bool.false_eq_true, if_false, if_true]
    rw [(C39_lerp a c w ha hc).1, betweenCategory, if_pos (le0 _ h3)]
  · simp only [h1, if_true]
    rw [(C39_lerp b c w hb hc).1, betweenCategory, if_pos (le0 _ h3)]
  · simp only [h1, if_true]
    rw [(C39_lerp b c w hb hc).1, betweenCategory, h3, if_neg (by decide +kernel),
      if_pos (by decide +kernel)]
  · simp only [h1, if_true]
    exact (C39_lerp b c w hb hc).1
  · simp only [h1, h2, Bool.false_eq_true, if_false, if_true]
    exact (C39_lerp a c w ha hc).1
  · simp only [h1, h2, h3, Bool.false_eq_true, if_false, if_true]
    exact (C39_lerp a b v ha hb).1

/-! ## The other custom packing -/

set_option maxHeartbeats 1000000 in
theorem fixed_coding {o s v : F32} {A N : ℕ} (hA : A ≤ 1) (hN : 1 ≤ N) (hN' : N ≤ 1048575)
    (ho : o.isFinite = true) (eo : toRat o = -A) (hs : s.isFinite = true)
    (hS0 : 0 < toRat s) (hSN : toRat s ≤ (A + 1) / N + 1 / 2 ^ 24 / N)
    (hSN' : (A + 1) / toRat s ≤ N + 1 / 4) (hv : v.isFinite = true) (v0 : -A ≤ toRat v) (v1 : toRat v ≤ 1) :
    ∃ k ≤ N, Mesh.packSingleFloat ⟨o, s⟩ v = some k ∧
      (Mesh.unpackSingleFloat ⟨o, s⟩ k).isFinite = true ∧
      |toRat (Mesh.unpackSingleFloat ⟨o, s⟩ k) - toRat v| ≤ (A + 1) / (2 * N) + 1 / 2 ^ 20 := by
  have qA : (A : ℚ) ≤ 1 := by exact_mod_cast hA
  have qA0 : (0 : ℚ) ≤ A := by positivity
  have qN : (1 : ℚ) ≤ N := by exact_mod_cast hN
  have qN' : (N : ℚ) ≤ 1048575 := by exact_mod_cast hN'
  have ovf' : ∀ q : ℚ, |q| ≤ 2000000 → |q| < ovf := by
    intro q h; unfold ovf; norm_num; linarith
  generalize hS : toRat s = S at *
  generalize hV : toRat v = V at *
  -- the difference
  have b1 : |toRat v - toRat o| ≤ 2000000 := by
    rw [hV, eo, abs_le]; constructor <;> linarith
  have fw := isFinite_sub hv ho (ovf' _ b1)
  have ew := toRat_sub hv ho (ovf' _ b1)
  rw [hV, eo, sub_neg_eq_add] at ew
  have w0 : 0 ≤ rnd (V + A) := rnd_nonneg (by linarith)
  have w1 : rnd (V + A) ≤ A + 1 := by
    have h := rnd_mono (show V + A ≤ ((A + 1 : ℕ) : ℤ) by push_cast; linarith)
    rw [rnd_int _ (by rw [abs_le]; constructor <;> omega)] at h
    push_cast at h
    exact h
  have we := rnd_err (V + A)
  rw [← ew] at w0 w1 we
  generalize hw : sub v o = w at *
  generalize hW : toRat w = W at *
  -- the quotient
  have q0 : 0 ≤ W / S := by positivity
  have q1 : W / S ≤ N + 1 / 4 := _root_.le_trans (by gcongr) hSN'
  have b2 : |toRat w / toRat s| ≤ 2000000 := by
    rw [hW, hS, abs_of_nonneg q0]; linarith
  have sne : toRat s ≠ 0 := by rw [hS]; exact hS0.ne'
  have fp := isFinite_div fw hs sne (ovf' _ b2)
  have ep := toRat_div fw hs sne (ovf' _ b2)
  rw [hW, hS] at ep
  have p0 : 0 ≤ rnd (W / S) := rnd_nonneg q0
  have pe := rnd_err (W / S)
  rw [← ep] at p0 pe
  generalize hp : div w s = p at *
  have er := toRat_fround_of_nonneg fp p0
  have fr := isFinite_fround fp
  generalize hP : toRat p = P at *
  have m1 : max (1 / 2 ^ 150) (|W / S| / 2 ^ 24) ≤ ((N : ℚ) + 1 / 4) / 2 ^ 24 := by
    apply max_le
    · have : (1 : ℚ) / 2 ^ 24 ≤ ((N : ℚ) + 1 / 4) / 2 ^ 24 :=
        div_le_div_of_nonneg_right (by linarith) (by norm_num)
      exact _root_.le_trans (by norm_num) this
    · rw [abs_of_nonneg q0]
      exact div_le_div_of_nonneg_right q1 (by norm_num)
  have pe' := abs_le.1 (_root_.le_trans pe m1)
  have pN : P < N + 1 / 2 := by
    have : (N + 1 / 4 : ℚ) / 2 ^ 24 < 1 / 4 := by rw [div_lt_iff₀ (by norm_num)]; norm_num; linarith
    linarith [pe'.2]
  -- the integer
  have k0 : 0 ≤ ⌊P + 1 / 2⌋ := Int.floor_nonneg.2 (by linarith)
  have kN : ⌊P + 1 / 2⌋ ≤ N := by
    have : ⌊P + 1 / 2⌋ < (N : ℤ) + 1 := by
      rw [Int.floor_lt]; push_cast; linarith
    omega
  obtain ⟨k, hk⟩ : ∃ k : ℕ, ⌊P + 1 / 2⌋ = k := ⟨_, (Int.toNat_of_nonneg k0).symm⟩
  have g1 := Int.floor_le (P + 1 / 2)
  have g2 := Int.lt_floor_add_one (P + 1 / 2)
  rw [hk] at er kN g1 g2
  have kN' : k ≤ N := by exact_mod_cast kN
  push_cast at er g1 g2
  refine ⟨k, kN', ?_, ?_⟩
  · unfold Mesh.packSingleFloat
    simp only [hw, hp]
    exact Mesh.u32OfFloat_of_toRat fr er (by omega)
  have qk : (k : ℚ) ≤ N := by exact_mod_cast kN'
  have qk0 : (0 : ℚ) ≤ k := by positivity
  have fk := Mesh.isFinite_floatOfU32 (n := k) (by omega)
  have ek := Mesh.toRat_floatOfU32 (n := k) (by omega)
  have NS : N * S ≤ A + 1 + 1 / 2 ^ 24 := by
    have : N * S ≤ N * ((A + 1) / N + 1 / 2 ^ 24 / N) := by gcongr
    have e : (N : ℚ) * ((A + 1) / N + 1 / 2 ^ 24 / N) = A + 1 + 1 / 2 ^ 24 := by field_simp
    linarith
  have kS : k * S ≤ A + 1 + 1 / 2 ^ 24 := _root_.le_trans (by gcongr) NS
  have kS0 : 0 ≤ k * S := by positivity
  have b3 : |toRat (Mesh.floatOfU32 k) * toRat s| ≤ 2000000 := by
    rw [ek, hS, abs_of_nonneg kS0]; norm_num at kS; linarith
  have fm := isFinite_mul fk hs (ovf' _ b3)
  have em := toRat_mul fk hs (ovf' _ b3)
  rw [ek, hS] at em
  have me := rnd_err (k * S)
  rw [← em] at me
  have m2 : max (1 / 2 ^ 150) (|k * S| / 2 ^ 24) ≤ 3 / 2 ^ 24 := by
    apply max_le (by norm_num)
    rw [abs_of_nonneg kS0]
    apply div_le_div_of_nonneg_right _ (by norm_num)
    norm_num at kS; linarith
  have me' := abs_le.1 (_root_.le_trans me m2)
  generalize hm : mul (Mesh.floatOfU32 k) s = m at *
  generalize hM : toRat m = M at *
  have b4 : |toRat m + toRat o| ≤ 2000000 := by
    rw [hM, eo, abs_le]
    norm_num at me' kS
    constructor <;> linarith [me'.1, me'.2]
  have fu := isFinite_add fm ho (ovf' _ b4)
  have eu := toRat_add fm ho (ovf' _ b4)
  rw [hM, eo] at eu
  have ue := rnd_err (M + -A)
  rw [← eu] at ue
  -- how far the multiple is from the value
  have d : |k * S - W| ≤ S / 2 + 3 / 2 ^ 24 := by
    have e1 : k * S - W = (k - W / S) * S := by field_simp
    have e2 : |(k : ℚ) - W / S| ≤ 1 / 2 + (N + 1 / 4) / 2 ^ 24 := by
      rw [abs_le]; constructor <;> linarith [pe'.1, pe'.2]
    rw [e1, abs_mul, abs_of_pos hS0]
    have e3 : |(k : ℚ) - W / S| * S ≤ (1 / 2 + (N + 1 / 4) / 2 ^ 24) * S := by gcongr
    have e4 : S ≤ N * S := by nlinarith
    have e5 : (1 / 2 + ((N : ℚ) + 1 / 4) / 2 ^ 24) * S = S / 2 + (N * S + S / 4) / 2 ^ 24 := by ring
    rw [e5] at e3
    have e6 : (N * S + S / 4) / 2 ^ 24 ≤ 3 / 2 ^ 24 := by
      apply div_le_div_of_nonneg_right _ (by norm_num)
      norm_num at NS
      linarith
    linarith
  have d' := abs_le.1 d
  have m3 : max (1 / 2 ^ 150) (|V + A| / 2 ^ 24) ≤ 2 / 2 ^ 24 := by
    apply max_le (by norm_num)
    rw [abs_of_nonneg (by linarith)]
    apply div_le_div_of_nonneg_right _ (by norm_num)
    linarith
  have we' := abs_le.1 (_root_.le_trans we m3)
  have hS2 : S / 2 ≤ (A + 1) / (2 * N) + 1 / 2 ^ 25 := by
    have e : ((A : ℚ) + 1) / (2 * N) = (A + 1) / N / 2 := by field_simp
    have : (1 : ℚ) / 2 ^ 24 / N ≤ 1 / 2 ^ 24 := div_le_self (by norm_num) qN
    rw [e]
    norm_num at this hSN ⊢
    linarith
  have T : S ≤ A + 1 + 1 := by
    have h1 : ((A : ℚ) + 1) / N ≤ A + 1 := div_le_self (by linarith) qN
    have : (1 : ℚ) / 2 ^ 24 / N ≤ 1 / 2 ^ 24 := div_le_self (by norm_num) qN
    norm_num at this hSN
    linarith
  have m4 : max (1 / 2 ^ 150) (|M + -A| / 2 ^ 24) ≤ 4 / 2 ^ 24 := by
    apply max_le (by norm_num)
    apply div_le_div_of_nonneg_right _ (by norm_num)
    rw [abs_le]
    norm_num at me' kS
    constructor <;> linarith [me'.1, me'.2]
  have ue' := abs_le.1 (_root_.le_trans ue m4)
  refine ⟨by unfold Mesh.unpackSingleFloat; simp only [hm]; exact fu, ?_⟩
  unfold Mesh.unpackSingleFloat
  simp only [hm]
  generalize toRat (add m o) = U at *
  rw [abs_le]
  norm_num at ue' we' d' me' hS2 ⊢
  constructor <;> linarith [ue'.1, ue'.2, we'.1, we'.2, d'.1, d'.2, me'.1, me'.2]

/-- What is stored for a shift is in `[-1, 1]`, and is the shift if that is. -/
theorem storedShift_range {x : F32} (hx : x.isNaN = false) :
    (storedShift x).isFinite = true ∧ -1 ≤ toRat (storedShift x) ∧ toRat (storedShift x) ≤ 1 := by
  obtain ⟨h1, h2⟩ := clamp_range (lo := ofInt (-1)) (hi := ofInt 1) hx (by decide +kernel)
  have f1 : (ofInt (-1)).isFinite = true := by decide +kernel
  have f2 : (ofInt 1).isFinite = true := by decide +kernel
  obtain ⟨n1, n2, k1⟩ := le_key h1
  obtain ⟨-, -, k2⟩ := le_key h2
  have f := isFinite_of_between f1 f2 h1 h2
  have e1 : toRat (ofInt (-1)) = -1 := by decide +kernel
  have e2 : toRat (ofInt 1) = 1 := by decide +kernel
  refine ⟨f, ?_, ?_⟩
  · rw [← e1]; exact (key_le_iff f1 f).1 k1
  · rw [← e2]; exact (key_le_iff f f2).1 k2

/-- C39. The opacity and colour shifts fit their 8 and 10 bits whatever their values, and are recovered
up to half a step. -/
theorem C39_shifts (x : F32) (hx : x.isNaN = false) :
    (∃ k ≤ 254, Mesh.packSingleFloat opacityCoding (storedShift x) = some k ∧
      (Mesh.unpackSingleFloat opacityCoding k).isFinite = true ∧
      |toRat (Mesh.unpackSingleFloat opacityCoding k) - toRat (storedShift x)| ≤
        1 / 254 + 1 / 2 ^ 20) ∧
    (∃ k ≤ 1022, Mesh.packSingleFloat hslCoding (storedShift x) = some k ∧
      (Mesh.unpackSingleFloat hslCoding k).isFinite = true ∧
      |toRat (Mesh.unpackSingleFloat hslCoding k) - toRat (storedShift x)| ≤
        1 / 1022 + 1 / 2 ^ 20) := by
  obtain ⟨f, h1, h2⟩ := storedShift_range hx
  constructor
  · obtain ⟨k, a, b, c, d⟩ := fixed_coding (A := 1) (N := 254) (o := ofInt (-1))
      (s := div (ofInt 2) (ofInt 254)) (by omega) (by omega) (by omega) (by decide +kernel)
      (by decide +kernel) (by decide +kernel) (by decide +kernel) (by decide +kernel)
      (by decide +kernel) f (by push_cast; linarith) h2
    exact ⟨k, a, b, c, by norm_num at d ⊢; exact d⟩
  · obtain ⟨k, a, b, c, d⟩ := fixed_coding (A := 1) (N := 1022) (o := ofInt (-1))
      (s := div (ofInt 2) (ofInt 1022)) (by omega) (by omega) (by omega) (by decide +kernel)
      (by decide +kernel) (by decide +kernel) (by decide +kernel) (by decide +kernel)
      (by decide +kernel) f (by push_cast; linarith) h2
    exact ⟨k, a, b, c, by norm_num at d ⊢; exact d⟩

/-- C39. No shift, and the largest ones, are recovered exactly. -/
theorem C39_shift_zero :
    ((Mesh.packSingleFloat opacityCoding zero).map (Mesh.unpackSingleFloat opacityCoding) = some zero ∧
      (Mesh.packSingleFloat hslCoding zero).map (Mesh.unpackSingleFloat hslCoding) = some zero) ∧
    ∀ s ∈ [(1 : ℤ), -1],
      (Mesh.packSingleFloat opacityCoding (ofInt s)).map (Mesh.unpackSingleFloat opacityCoding) =
        some (ofInt s) ∧
      (Mesh.packSingleFloat hslCoding (ofInt s)).map (Mesh.unpackSingleFloat hslCoding) =
        some (ofInt s) := by
  decide +kernel

/-- C39. Texture coordinates in `[0, 1]` fit their 12 and 20 bits, and are recovered up to half a step
and a rounding error. -/
theorem C39_surface_uv (x : F32) (hx : x.isFinite = true) (h0 : 0 ≤ toRat x) (h1 : toRat x ≤ 1) :
    (∃ k < 2 ^ 12, Mesh.packSingleFloat surfaceUCoding x = some k ∧
      |toRat (Mesh.unpackSingleFloat surfaceUCoding k) - toRat x| ≤ 1 / 8190 + 1 / 2 ^ 20) ∧
    (∃ k < 2 ^ 20, Mesh.packSingleFloat surfaceVCoding x = some k ∧
      |toRat (Mesh.unpackSingleFloat surfaceVCoding k) - toRat x| ≤ 1 / 2097150 + 1 / 2 ^ 20) := by
  constructor
  · obtain ⟨k, a, b, c, d⟩ := fixed_coding (A := 0) (N := 4095) (o := zero)
      (s := div (ofInt 1) (ofInt 4095)) (by omega) (by omega) (by omega) (by decide +kernel)
      (by decide +kernel) (by decide +kernel) (by decide +kernel) (by decide +kernel)
      (by decide +kernel) hx (by push_cast; linarith) h1
    exact ⟨k, by omega, b, by norm_num at d ⊢; exact d⟩
  · obtain ⟨k, a, b, c, d⟩ := fixed_coding (A := 0) (N := 1048575) (o := zero)
      (s := div (ofInt 1) (ofInt 1048575)) (by omega) (by omega) (by omega) (by decide +kernel)
      (by decide +kernel) (by decide +kernel) (by decide +kernel) (by decide +kernel)
      (by decide +kernel) hx (by push_cast; linarith) h1
    exact ⟨k, by omega, b, by norm_num at d ⊢; exact d⟩

/-- A label of the left side with a margin of one and a half. -/
example : Exterior leftLabel ∧ (ofRat (3 / 2)).isNaN = false ∧
    leftLabel.withMargin (ofRat (3 / 2)) = ⟨ofInt (-48)⟩ ∧ Encodable ⟨ofInt (-48)⟩ :=
  ⟨⟨by decide +kernel, by decide +kernel⟩, by decide +kernel, by decide +kernel,
    ⟨-48, by norm_num, by norm_num, rfl⟩⟩

end Verif.Vertex
