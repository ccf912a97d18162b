import Verif.Model.Rect
import Verif.F32.NotLt

/-!
# C20, C21, C23: `Rect`, `Segment::Lerp` and `Envelope` in binary32
-/

set_option autoImplicit false
set_option exponentiation.threshold 400

namespace Verif

open F32 RectF

/-! ## The bounds are never inverted -/

/-- Neither pair of bounds is inverted. -/
def RectF.Ok (r : RectF) : Prop := NLt r.xMin r.xMax ∧ NLt r.yMin r.yMax

theorem toRat_two : toRat two = 2 := by
  unfold two
  rw [toRat_fin_false, show mag 0x40000000 = 2 * 2 ^ 149 by decide +kernel]
  norm_num

theorem toRat_half : toRat half = 1 / 2 := by
  unfold half
  rw [toRat_fin_false, show mag 0x3F000000 = 2 ^ 148 by decide +kernel]
  norm_num

theorem toRat_one : toRat one = 1 := by
  unfold one
  rw [toRat_fin_false, show mag 0x3F800000 = 2 ^ 149 by decide +kernel]
  norm_num

theorem nlt_half_width {w : F32} (h : le zero w = true) : NLt (F32.neg (div w two)) (div w two) := by
  have : NLt (F32.neg (div w two)) (div w two) := by
    have h1 : NLt (div zero two) (div w two) :=
      NLt.div_pos rfl (by rw [toRat_two]; norm_num) (NLt.of_le h)
    rw [nlt_iff] at *
    intro _ n
    have h2 := h1 (by decide +kernel) n
    have h3 : key (div zero two) = 0 := by decide +kernel
    rw [key_neg]
    omega
  exact this

theorem fromCenter_ok {c : PointF} {w h : F32} {r : RectF} (hr : fromCenterAndDimensions c w h = some r) :
    r.Ok := by
  unfold fromCenterAndDimensions at hr
  split at hr
  · next hc =>
    rw [Bool.and_eq_true] at hc
    cases hr
    exact ⟨nlt_sub_add _ (nlt_half_width hc.1), nlt_sub_add _ (nlt_half_width hc.2)⟩
  · cases hr

theorem setWidth_ok {r s : RectF} {w : F32} (h : NLt r.yMin r.yMax) (hs : r.setWidth w = some s) : s.Ok := by
  unfold setWidth at hs
  split at hs
  · next hc => cases hs; exact ⟨nlt_sub_add _ (nlt_half_width hc), h⟩
  · cases hs

theorem setHeight_ok {r s : RectF} {w : F32} (h : NLt r.xMin r.xMax) (hs : r.setHeight w = some s) : s.Ok := by
  unfold setHeight at hs
  split at hs
  · next hc => cases hs; exact ⟨h, nlt_sub_add _ (nlt_half_width hc)⟩
  · cases hs

theorem nlt_of_width {a b : F32} (h : ¬ lt (sub b a) zero = true) : NLt a b := by
  unfold NLt
  rw [← Bool.not_eq_true]
  intro hc
  exact h (sub_neg_of_lt hc)

theorem offset_ok {r s : RectF} {a b : F32} (hs : r.offset a b = some s) : s.Ok := by
  unfold offset at hs
  simp only [Option.bind_eq_some_iff] at hs
  obtain ⟨t, ht, hs⟩ := hs
  have htx : NLt t.xMin t.xMax := by
    split at ht
    · unfold setWidth at ht
      rw [if_pos (by decide)] at ht
      cases ht
      exact nlt_sub_add _ (nlt_half_width (by decide))
    · next h => cases ht; exact nlt_of_width h
  split at hs
  · exact setHeight_ok htx hs
  · next h => cases hs; exact ⟨htx, nlt_of_width h⟩

theorem nlt_semi {a b : F32} (h : NLt a b) :
    NLt (F32.neg (sub (mul half b) (mul half a))) (sub (mul half b) (mul half a)) :=
  nlt_sub_self (h.mul_pos rfl (by rw [toRat_half]; norm_num))

/-- C21: whatever history of factories and setters built a rectangle, and whatever numbers were given,
infinities and NaN included, XMax is never less than XMin and YMax is never less than YMin. So
XMin ≤ XMax and YMin ≤ YMax unless one of the bounds is NaN. -/
theorem C21_never_inverted (e : RectExpr) (r : RectF) (h : e.eval = some r) :
    lt r.xMax r.xMin = false ∧ lt r.yMax r.yMin = false ∧
    (r.xMin.isNaN = false → r.xMax.isNaN = false → le r.xMin r.xMax = true) ∧
    (r.yMin.isNaN = false → r.yMax.isNaN = false → le r.yMin r.yMax = true) := by
  suffices ∀ (e : RectExpr) (r : RectF), e.eval = some r → r.Ok by
    obtain ⟨h1, h2⟩ := this e r h
    exact ⟨h1, h2, h1.le, h2.le⟩
  have tr : ∀ (r : RectF) (v : PointF), r.Ok → (r.translate v).Ok := fun r v h =>
    ⟨h.1.add (NLt.refl _), h.2.add (NLt.refl _)⟩
  intro e
  induction e with
  | dflt => intro r h; cases h; exact ⟨NLt.refl _, NLt.refl _⟩
  | fromCenterAndDimensions c w h => intro r hr; exact fromCenter_ok hr
  | fromTwoPoints a b => intro r h; cases h; exact ⟨nlt_smin_smax _ _, nlt_smin_smax _ _⟩
  | setCenter e c ih =>
    intro r h
    simp only [RectExpr.eval, Option.map_eq_some_iff] at h
    obtain ⟨s, hs, rfl⟩ := h
    have := ih s hs
    exact ⟨nlt_sub_add _ (nlt_semi this.1), nlt_sub_add _ (nlt_semi this.2)⟩
  | setWidth e w ih =>
    intro r h
    simp only [RectExpr.eval, Option.bind_eq_some_iff] at h
    obtain ⟨s, hs, h⟩ := h
    exact setWidth_ok (ih s hs).2 h
  | setHeight e w ih =>
    intro r h
    simp only [RectExpr.eval, Option.bind_eq_some_iff] at h
    obtain ⟨s, hs, h⟩ := h
    exact setHeight_ok (ih s hs).1 h
  | offset e a b ih =>
    intro r h
    simp only [RectExpr.eval, Option.bind_eq_some_iff] at h
    obtain ⟨s, hs, h⟩ := h
    exact offset_ok h
  | scale e a b ih =>
    intro r h
    simp only [RectExpr.eval, Option.bind_eq_some_iff] at h
    obtain ⟨s, hs, h⟩ := h
    unfold RectF.scale at h
    split at h
    · exact offset_ok h
    · cases h
  | translate e v ih =>
    intro r h
    simp only [RectExpr.eval, Option.map_eq_some_iff] at h
    obtain ⟨s, hs, rfl⟩ := h
    exact tr s v (ih s hs)
  | join e p ih =>
    intro r h
    simp only [RectExpr.eval, Option.map_eq_some_iff] at h
    obtain ⟨s, hs, rfl⟩ := h
    have := ih s hs
    exact ⟨this.1.join (NLt.refl _), this.2.join (NLt.refl _)⟩
  | joinRect e f ih1 ih2 =>
    intro r h
    simp only [RectExpr.eval, Option.bind_eq_some_iff, Option.map_eq_some_iff] at h
    obtain ⟨s, hs, t, ht, rfl⟩ := h
    exact ⟨(ih1 s hs).1.join (ih2 t ht).1, (ih1 s hs).2.join (ih2 t ht).2⟩
  | containing e a ih =>
    intro r h
    simp only [RectExpr.eval, Option.bind_eq_some_iff] at h
    obtain ⟨s, hs, h⟩ := h
    unfold containingRectWithAspectRatio at h
    split at h
    · simp only [Option.bind_eq_some_iff] at h
      obtain ⟨q, -, h⟩ := h
      split at h <;> exact fromCenter_ok h
    · cases h
  | interior e a ih =>
    intro r h
    simp only [RectExpr.eval, Option.bind_eq_some_iff] at h
    obtain ⟨s, hs, h⟩ := h
    unfold interiorRectWithAspectRatio at h
    split at h
    · simp only [Option.bind_eq_some_iff] at h
      obtain ⟨q, -, h⟩ := h
      split at h <;> exact fromCenter_ok h
    · cases h
  | resizeXMin e v ih =>
    intro r h
    simp only [RectExpr.eval, Option.map_eq_some_iff] at h
    obtain ⟨s, hs, rfl⟩ := h
    refine ⟨?_, (ih s hs).2⟩
    unfold RectF.resizeXMin
    by_cases hc : lt s.xMax v = true
    · simp only [hc, if_true]; exact NLt.refl _
    · unfold NLt; simp only [hc]; simpa using hc
  | resizeYMin e v ih =>
    intro r h
    simp only [RectExpr.eval, Option.map_eq_some_iff] at h
    obtain ⟨s, hs, rfl⟩ := h
    refine ⟨(ih s hs).1, ?_⟩
    unfold RectF.resizeYMin
    by_cases hc : lt s.yMax v = true
    · simp only [hc, if_true]; exact NLt.refl _
    · unfold NLt; simp only [hc]; simpa using hc
  | resizeXMax e v ih =>
    intro r h
    simp only [RectExpr.eval, Option.map_eq_some_iff] at h
    obtain ⟨s, hs, rfl⟩ := h
    refine ⟨?_, (ih s hs).2⟩
    unfold RectF.resizeXMax
    by_cases hc : lt v s.xMin = true
    · simp only [F32.gt, hc, if_true]; exact NLt.refl _
    · unfold NLt; simp only [F32.gt, hc]; simpa using hc
  | resizeYMax e v ih =>
    intro r h
    simp only [RectExpr.eval, Option.map_eq_some_iff] at h
    obtain ⟨s, hs, rfl⟩ := h
    refine ⟨(ih s hs).1, ?_⟩
    unfold RectF.resizeYMax
    by_cases hc : lt v s.yMin = true
    · simp only [F32.gt, hc, if_true]; exact NLt.refl _
    · unfold NLt; simp only [F32.gt, hc]; simpa using hc
  | translateXMin e v ih =>
    intro r h
    simp only [RectExpr.eval, Option.map_eq_some_iff] at h
    obtain ⟨s, hs, rfl⟩ := h
    exact tr s _ (ih s hs)
  | translateYMin e v ih =>
    intro r h
    simp only [RectExpr.eval, Option.map_eq_some_iff] at h
    obtain ⟨s, hs, rfl⟩ := h
    exact tr s _ (ih s hs)
  | translateXMax e v ih =>
    intro r h
    simp only [RectExpr.eval, Option.map_eq_some_iff] at h
    obtain ⟨s, hs, rfl⟩ := h
    exact tr s _ (ih s hs)
  | translateYMax e v ih =>
    intro r h
    simp only [RectExpr.eval, Option.map_eq_some_iff] at h
    obtain ⟨s, hs, rfl⟩ := h
    exact tr s _ (ih s hs)

/-- A history with an overflow, an inset and a NaN that passes every CHECK. -/
example : ((RectExpr.join (.offset (.setCenter (.setWidth (.fromTwoPoints ⟨one, two⟩ ⟨negHalf, zero⟩) two)
    ⟨maxFinite, nan⟩) negHalf (inf true)) ⟨two, two⟩).eval.map fun r => le r.xMin r.xMax) = some true := by
  decide +kernel

/-! ## What the setters do -/

/-- C21: `Offset` never fails a CHECK; the factories and the other setters fail exactly on a negative (or
NaN) size. -/
theorem C21_checks (r : RectF) (c : PointF) (a b : F32) :
    (r.offset a b).isSome = true ∧
    ((fromCenterAndDimensions c a b).isSome = true ↔ le zero a = true ∧ le zero b = true) ∧
    ((r.setWidth a).isSome = true ↔ le zero a = true) ∧
    ((r.setHeight a).isSome = true ↔ le zero a = true) ∧
    ((r.scale a b).isSome = true ↔ le zero a = true ∧ le zero b = true) := by
  have sw : ∀ s : RectF, (s.setWidth zero).isSome = true := fun s => by
    unfold RectF.setWidth; rw [if_pos (by decide)]; rfl
  have sh : ∀ s : RectF, (s.setHeight zero).isSome = true := fun s => by
    unfold RectF.setHeight; rw [if_pos (by decide)]; rfl
  have off : ∀ (r : RectF) (a b : F32), (r.offset a b).isSome = true := by
    intro r a b
    unfold RectF.offset
    simp only
    split
    · obtain ⟨t, ht⟩ := Option.isSome_iff_exists.1 (sw ⟨sub r.xMin a, sub r.yMin b, add r.xMax a, add r.yMax b⟩)
      rw [ht, Option.bind_some]
      split
      · exact sh _
      · rfl
    · rw [Option.bind_some]
      split
      · exact sh _
      · rfl
  refine ⟨off r a b, ?_, ?_, ?_, ?_⟩
  · unfold fromCenterAndDimensions
    rw [← Bool.and_eq_true]
    split <;> simp_all
  · unfold RectF.setWidth; split <;> simp_all
  · unfold RectF.setHeight; split <;> simp_all
  · unfold RectF.scale
    rw [← Bool.and_eq_true]
    split
    · simp_all
    · simp_all

theorem smin_le {a b : F32} (ha : a.isNaN = false) (hb : b.isNaN = false) :
    le (smin a b) a = true ∧ le (smin a b) b = true ∧
    ∀ c, le c a = true → le c b = true → le c (smin a b) = true := by
  unfold smin
  by_cases h : lt b a = true
  · rw [if_pos h]
    have : key b < key a := by simpa [lt, ha, hb] using h
    exact ⟨le_of_key hb ha (by omega), F32.le_refl hb, fun c _ h => h⟩
  · rw [if_neg h]
    rw [Bool.not_eq_true] at h
    exact ⟨F32.le_refl ha, (not_lt_iff hb ha).1 h, fun c h _ => h⟩

theorem le_smax {a b : F32} (ha : a.isNaN = false) (hb : b.isNaN = false) :
    le a (smax a b) = true ∧ le b (smax a b) = true ∧
    ∀ c, le a c = true → le b c = true → le (smax a b) c = true := by
  unfold smax
  by_cases h : lt a b = true
  · rw [if_pos h]
    have : key a < key b := by simpa [lt, ha, hb] using h
    exact ⟨le_of_key ha hb (by omega), F32.le_refl hb, fun c _ h => h⟩
  · rw [if_neg h]
    rw [Bool.not_eq_true] at h
    exact ⟨F32.le_refl ha, (not_lt_iff ha hb).1 h, fun c h _ => h⟩

/-- No bound is NaN and the bounds are in order: what `C21_never_inverted` gives for every rectangle without
NaN. -/
def RectF.Valid (r : RectF) : Prop := le r.xMin r.xMax = true ∧ le r.yMin r.yMax = true

/-- No coordinate is NaN. -/
def PointF.Valid (p : PointF) : Prop := p.x.isNaN = false ∧ p.y.isNaN = false

theorem contains_iff {r : RectF} {p : PointF} : r.contains p = true ↔
    le r.xMin p.x = true ∧ le p.x r.xMax = true ∧ le r.yMin p.y = true ∧ le p.y r.yMax = true := by
  simp [RectF.contains, and_assoc, F32.ge]

theorem containsRect_iff {r s : RectF} : r.containsRect s = true ↔
    le r.xMin s.xMin = true ∧ le s.xMax r.xMax = true ∧ le r.yMin s.yMin = true ∧ le s.yMax r.yMax = true := by
  simp [RectF.containsRect, and_assoc, F32.ge]

/-- C21: `Contains(Rect)` is the inclusion of sets of points, for rectangles without NaN. -/
theorem C21_contains_rect (r s : RectF) (hs : s.Valid) :
    r.containsRect s = true ↔ ∀ p, s.contains p = true → r.contains p = true := by
  rw [containsRect_iff]
  obtain ⟨nx, nX, -⟩ := le_key hs.1
  obtain ⟨ny, nY, -⟩ := le_key hs.2
  constructor
  · rintro ⟨h1, h2, h3, h4⟩ p hp
    rw [contains_iff] at *
    exact ⟨F32.le_trans h1 hp.1, F32.le_trans hp.2.1 h2, F32.le_trans h3 hp.2.2.1, F32.le_trans hp.2.2.2 h4⟩
  · intro h
    have h1 := contains_iff.1 (h ⟨s.xMin, s.yMin⟩ (contains_iff.2 ⟨F32.le_refl nx, hs.1, F32.le_refl ny, hs.2⟩))
    have h2 := contains_iff.1 (h ⟨s.xMax, s.yMax⟩ (contains_iff.2 ⟨hs.1, F32.le_refl nX, hs.2, F32.le_refl nY⟩))
    exact ⟨h1.1, h2.2.1, h1.2.2.1, h2.2.2.2⟩

theorem fromTwoPoints_spec {a b : PointF} (ha : a.Valid) (hb : b.Valid) :
    (fromTwoPoints a b).Valid ∧ (fromTwoPoints a b).contains a = true ∧ (fromTwoPoints a b).contains b = true ∧
    ∀ s : RectF, s.contains a = true → s.contains b = true → s.containsRect (fromTwoPoints a b) = true := by
  obtain ⟨a1, a2, a3⟩ := smin_le ha.1 hb.1
  obtain ⟨b1, b2, b3⟩ := smin_le ha.2 hb.2
  obtain ⟨c1, c2, c3⟩ := le_smax ha.1 hb.1
  obtain ⟨d1, d2, d3⟩ := le_smax ha.2 hb.2
  refine ⟨⟨F32.le_trans a1 c1, F32.le_trans b1 d1⟩, contains_iff.2 ⟨a1, c1, b1, d1⟩,
    contains_iff.2 ⟨a2, c2, b2, d2⟩, ?_⟩
  intro s h1 h2
  rw [contains_iff] at h1 h2
  exact containsRect_iff.2 ⟨a3 _ h1.1 h2.1, c3 _ h1.2.1 h2.2.1, b3 _ h1.2.2.1 h2.2.2.1, d3 _ h1.2.2.2 h2.2.2.2⟩

theorem join_spec {r : RectF} {p : PointF} (hr : r.Valid) (hp : p.Valid) :
    (r.join p).Valid ∧ (r.join p).contains p = true ∧ (r.join p).containsRect r = true ∧
    ∀ s : RectF, s.contains p = true → s.containsRect r = true → s.containsRect (r.join p) = true := by
  obtain ⟨nx, nX, -⟩ := le_key hr.1
  obtain ⟨ny, nY, -⟩ := le_key hr.2
  obtain ⟨a1, a2, a3⟩ := smin_le nx hp.1
  obtain ⟨b1, b2, b3⟩ := smin_le ny hp.2
  obtain ⟨c1, c2, c3⟩ := le_smax nX hp.1
  obtain ⟨d1, d2, d3⟩ := le_smax nY hp.2
  refine ⟨⟨F32.le_trans a2 c2, F32.le_trans b2 d2⟩, contains_iff.2 ⟨a2, c2, b2, d2⟩,
    containsRect_iff.2 ⟨a1, c1, b1, d1⟩, ?_⟩
  intro s h1 h2
  rw [contains_iff] at h1
  rw [containsRect_iff] at h2
  exact containsRect_iff.2 ⟨a3 _ h2.1 h1.1, c3 _ h2.2.1 h1.2.1, b3 _ h2.2.2.1 h1.2.2.1, d3 _ h2.2.2.2 h1.2.2.2⟩

theorem joinRect_spec {r t : RectF} (hr : r.Valid) (ht : t.Valid) :
    (r.joinRect t).Valid ∧ (r.joinRect t).containsRect t = true ∧ (r.joinRect t).containsRect r = true ∧
    ∀ s : RectF, s.containsRect t = true → s.containsRect r = true → s.containsRect (r.joinRect t) = true := by
  obtain ⟨nx, nX, -⟩ := le_key hr.1
  obtain ⟨ny, nY, -⟩ := le_key hr.2
  obtain ⟨mx, mX, -⟩ := le_key ht.1
  obtain ⟨my, mY, -⟩ := le_key ht.2
  obtain ⟨a1, a2, a3⟩ := smin_le nx mx
  obtain ⟨b1, b2, b3⟩ := smin_le ny my
  obtain ⟨c1, c2, c3⟩ := le_smax nX mX
  obtain ⟨d1, d2, d3⟩ := le_smax nY mY
  refine ⟨⟨F32.le_trans a1 (F32.le_trans hr.1 c1), F32.le_trans b1 (F32.le_trans hr.2 d1)⟩,
    containsRect_iff.2 ⟨a2, c2, b2, d2⟩, containsRect_iff.2 ⟨a1, c1, b1, d1⟩, ?_⟩
  intro s h1 h2
  rw [containsRect_iff] at h1 h2
  exact containsRect_iff.2 ⟨a3 _ h2.1 h1.1, c3 _ h2.2.1 h1.2.1, b3 _ h2.2.2.1 h1.2.2.1, d3 _ h2.2.2.2 h1.2.2.2⟩

/-- C21: `FromTwoPoints` is the smallest rectangle containing both points, and `Join` the smallest one
containing the old rectangle and the point or rectangle. -/
theorem C21_smallest (a b : PointF) (r t : RectF) (ha : a.Valid) (hb : b.Valid) (hr : r.Valid) (ht : t.Valid) :
    (∀ s : RectF, s.containsRect (fromTwoPoints a b) = true ↔ s.contains a = true ∧ s.contains b = true) ∧
    (∀ s : RectF, s.containsRect (r.join a) = true ↔ s.containsRect r = true ∧ s.contains a = true) ∧
    (∀ s : RectF, s.containsRect (r.joinRect t) = true ↔ s.containsRect r = true ∧ s.containsRect t = true) := by
  have tr : ∀ {s t u : RectF}, s.containsRect t = true → t.containsRect u = true → s.containsRect u = true := by
    intro s t u h1 h2
    rw [containsRect_iff] at *
    exact ⟨F32.le_trans h1.1 h2.1, F32.le_trans h2.2.1 h1.2.1, F32.le_trans h1.2.2.1 h2.2.2.1,
      F32.le_trans h2.2.2.2 h1.2.2.2⟩
  have pt : ∀ {s t : RectF} {p : PointF}, s.containsRect t = true → t.contains p = true → s.contains p = true := by
    intro s t p h1 h2
    rw [containsRect_iff] at h1
    rw [contains_iff] at *
    exact ⟨F32.le_trans h1.1 h2.1, F32.le_trans h2.2.1 h1.2.1, F32.le_trans h1.2.2.1 h2.2.2.1,
      F32.le_trans h2.2.2.2 h1.2.2.2⟩
  obtain ⟨-, f1, f2, f3⟩ := fromTwoPoints_spec ha hb
  obtain ⟨-, j1, j2, j3⟩ := join_spec hr ha
  obtain ⟨-, k1, k2, k3⟩ := joinRect_spec hr ht
  exact ⟨fun s => ⟨fun h => ⟨pt h f1, pt h f2⟩, fun h => f3 s h.1 h.2⟩,
    fun s => ⟨fun h => ⟨tr h j2, pt h j1⟩, fun h => j3 s h.2 h.1⟩,
    fun s => ⟨fun h => ⟨tr h k2, tr h k1⟩, fun h => k3 s h.2 h.1⟩⟩

/-- C21: the resizing setters set the bound they name, move the opposite bound to the same value exactly when
it would be crossed, leave the other two alone, and keep the rectangle valid. -/
theorem C21_resize (r : RectF) (v : F32) (hr : r.Valid) (hv : v.isNaN = false) :
    ((r.resizeXMin v).Valid ∧ (r.resizeXMin v).xMin = v ∧
      (le v r.xMax = true → (r.resizeXMin v).xMax = r.xMax) ∧ (lt r.xMax v = true → (r.resizeXMin v).xMax = v) ∧
      (r.resizeXMin v).yMin = r.yMin ∧ (r.resizeXMin v).yMax = r.yMax) ∧
    ((r.resizeYMin v).Valid ∧ (r.resizeYMin v).yMin = v ∧
      (le v r.yMax = true → (r.resizeYMin v).yMax = r.yMax) ∧ (lt r.yMax v = true → (r.resizeYMin v).yMax = v) ∧
      (r.resizeYMin v).xMin = r.xMin ∧ (r.resizeYMin v).xMax = r.xMax) ∧
    ((r.resizeXMax v).Valid ∧ (r.resizeXMax v).xMax = v ∧
      (le r.xMin v = true → (r.resizeXMax v).xMin = r.xMin) ∧ (lt v r.xMin = true → (r.resizeXMax v).xMin = v) ∧
      (r.resizeXMax v).yMin = r.yMin ∧ (r.resizeXMax v).yMax = r.yMax) ∧
    ((r.resizeYMax v).Valid ∧ (r.resizeYMax v).yMax = v ∧
      (le r.yMin v = true → (r.resizeYMax v).yMin = r.yMin) ∧ (lt v r.yMin = true → (r.resizeYMax v).yMin = v) ∧
      (r.resizeYMax v).xMin = r.xMin ∧ (r.resizeYMax v).xMax = r.xMax) := by
  obtain ⟨nx, nX, -⟩ := le_key hr.1
  obtain ⟨ny, nY, -⟩ := le_key hr.2
  have up : ∀ {a : F32}, a.isNaN = false → le v (if lt a v then v else a) = true ∧
      (le v a = true → (if lt a v then v else a) = a) ∧ (lt a v = true → (if lt a v then v else a) = v) := by
    intro a ha
    by_cases h : lt a v = true
    · rw [if_pos h]
      refine ⟨F32.le_refl hv, fun h2 => ?_, fun _ => rfl⟩
      rw [(not_lt_iff ha hv).2 h2] at h; cases h
    · rw [if_neg h]
      exact ⟨(not_lt_iff ha hv).1 (by simpa using h), fun _ => rfl, fun h2 => absurd h2 h⟩
  have dn : ∀ {a : F32}, a.isNaN = false → le (if lt v a then v else a) v = true ∧
      (le a v = true → (if lt v a then v else a) = a) ∧ (lt v a = true → (if lt v a then v else a) = v) := by
    intro a ha
    by_cases h : lt v a = true
    · rw [if_pos h]
      refine ⟨F32.le_refl hv, fun h2 => ?_, fun _ => rfl⟩
      rw [(not_lt_iff hv ha).2 h2] at h; cases h
    · rw [if_neg h]
      exact ⟨(not_lt_iff hv ha).1 (by simpa using h), fun _ => rfl, fun h2 => absurd h2 h⟩
  exact ⟨⟨⟨(up nX).1, hr.2⟩, rfl, (up nX).2.1, (up nX).2.2, rfl, rfl⟩,
    ⟨⟨hr.1, (up nY).1⟩, rfl, (up nY).2.1, (up nY).2.2, rfl, rfl⟩,
    ⟨⟨(dn nx).1, hr.2⟩, rfl, (dn nx).2.1, (dn nx).2.2, rfl, rfl⟩,
    ⟨⟨hr.1, (dn ny).1⟩, rfl, (dn ny).2.1, (dn ny).2.2, rfl, rfl⟩⟩

/-- C21, documentation that does not hold in binary32: `TranslateSettingXMinTo(v)` need not set XMin to `v`,
it is off by the rounding of the difference: moving a rectangle from 2^25 to 1 puts it at 0. And `SetWidth`
on a finite rectangle need not preserve the center: the sum of the bounds overflows although `Center()` is
finite. -/
theorem C21_setters_counterexample :
    (∃ (r : RectF) (v : F32), r.Valid ∧ r.xMin.isFinite = true ∧ r.xMax.isFinite = true ∧ v.isFinite = true ∧
      feq (r.translateXMin v).xMin v = false) ∧
    (∃ r s : RectF, r.Valid ∧ r.xMin.isFinite = true ∧ r.xMax.isFinite = true ∧
      r.setWidth one = some s ∧ r.center.x.isFinite = true ∧ s.center.x.isFinite = false) := by
  constructor
  · refine ⟨⟨.fin false 0x4C000000 (by decide), zero, .fin false 0x4C000000 (by decide), zero⟩, one, ?_⟩
    unfold RectF.Valid
    decide +kernel
  · refine ⟨⟨maxFinite, zero, maxFinite, zero⟩, ⟨inf false, zero, inf false, zero⟩, ?_⟩
    unfold RectF.Valid
    decide +kernel

/-! ## Finite results -/

theorem half_spec {a : F32} (ha : a.isFinite = true) :
    (mul half a).isFinite = true ∧ toRat (mul half a) = rnd (toRat a / 2) ∧ |toRat (mul half a)| ≤ maxVal / 2 := by
  have hb := abs_toRat_le a
  have e : toRat half * toRat a = toRat a / 2 := by rw [toRat_half]; ring
  have hov : |toRat half * toRat a| < ovf := by
    rw [e, abs_div, abs_of_pos (by norm_num : (0 : ℚ) < 2)]
    have := maxVal_lt_ovf
    have : (0 : ℚ) ≤ maxVal := _root_.le_trans (abs_nonneg _) hb
    linarith
  have h2 : toRat (mul half a) = rnd (toRat a / 2) := by rw [toRat_mul rfl ha hov, e]
  refine ⟨isFinite_mul rfl ha hov, h2, ?_⟩
  have hr : F32.Repr (maxVal / 2) := by
    apply Repr.of_mul_pow (M := 2 ^ 24 - 1) (e := 252)
    · norm_num
    · unfold maxVal; norm_num
    · unfold maxVal; rw [abs_of_pos] <;> norm_num
  rw [h2, rnd_abs]
  apply rnd_le_of_le hr
  rw [abs_div, abs_of_pos (by norm_num : (0 : ℚ) < 2)]
  linarith

theorem mid_finite {a b : F32} (ha : a.isFinite = true) (hb : b.isFinite = true) :
    (add (mul half a) (mul half b)).isFinite = true ∧ (sub (mul half a) (mul half b)).isFinite = true := by
  obtain ⟨f1, -, b1⟩ := half_spec ha
  obtain ⟨f2, -, b2⟩ := half_spec hb
  have := maxVal_lt_ovf
  constructor
  · apply isFinite_add f1 f2
    calc _ ≤ |toRat (mul half a)| + |toRat (mul half b)| := abs_add_le _ _
      _ < ovf := by linarith
  · apply isFinite_sub f1 f2
    calc _ ≤ |toRat (mul half a)| + |toRat (mul half b)| := abs_sub _ _
      _ < ovf := by linarith

/-- All four bounds are finite. -/
def RectF.Finite (r : RectF) : Prop :=
  r.xMin.isFinite = true ∧ r.yMin.isFinite = true ∧ r.xMax.isFinite = true ∧ r.yMax.isFinite = true

/-- C21: for finite bounds `Center`, `SemiWidth` and `SemiHeight` are finite, however large the bounds are,
and the semi-dimensions are not negative. -/
theorem C21_center_finite (r : RectF) (hf : r.Finite) (hr : r.Valid) :
    r.center.x.isFinite = true ∧ r.center.y.isFinite = true ∧
    r.semiWidth.isFinite = true ∧ r.semiHeight.isFinite = true ∧
    le zero r.semiWidth = true ∧ le zero r.semiHeight = true := by
  obtain ⟨f1, f2, f3, f4⟩ := hf
  have sem : ∀ {a b : F32}, a.isFinite = true → b.isFinite = true → le a b = true →
      le zero (sub (mul half b) (mul half a)) = true := by
    intro a b ha hb h
    have hf := (mid_finite hb ha).2
    have := nlt_iff.1 (nlt_semi (NLt.of_le h)) (by rw [isNaN_neg]; exact isNaN_of_isFinite hf)
      (isNaN_of_isFinite hf)
    apply le_of_key rfl (isNaN_of_isFinite hf)
    rw [key_neg] at this
    have : key zero = 0 := rfl
    omega
  have c1 := (mid_finite f1 f3).1
  have c2 := (mid_finite f2 f4).1
  refine ⟨?_, ?_, (mid_finite f3 f1).2, (mid_finite f4 f2).2, sem f1 f3 hr.1, sem f2 f4 hr.2⟩
  · unfold RectF.center
    simp only [isNaN_of_isFinite c1]
    exact c1
  · unfold RectF.center
    simp only [isNaN_of_isFinite c2]
    exact c2

/-- The largest finite rectangle, whose width is infinite. -/
example : RectF.Finite ⟨neg maxFinite, zero, maxFinite, one⟩ ∧ RectF.Valid ⟨neg maxFinite, zero, maxFinite, one⟩ ∧
    RectF.width ⟨neg maxFinite, zero, maxFinite, one⟩ = inf false := by
  unfold RectF.Finite RectF.Valid
  decide +kernel

/-- Zero, or at least 2^-125 in magnitude: half of it is a float. -/
def NotTiny (a : F32) : Prop := toRat a = 0 ∨ 1 / 2 ^ 125 ≤ |toRat a|

theorem half_exact {a : F32} (ha : a.isFinite = true) (h : NotTiny a) : toRat (mul half a) = toRat a / 2 := by
  rw [(half_spec ha).2.1]
  apply Repr.rnd_eq
  rcases h with h | h
  · rw [h, zero_div]; exact ⟨zero, rfl, toRat_zero⟩
  · obtain ⟨s, n, hn, rfl⟩ := exists_of_isFinite ha
    obtain ⟨M, hM, he, -⟩ := mag_eq n
    have habs := abs_toRat_fin s n hn
    rw [habs] at h
    have hg : 1 ≤ gapE n := by
      by_contra hc
      have h0 : gapE n = 0 := by omega
      rw [h0, pow_zero, mul_one] at he
      rw [he] at h
      have : ((M : ℕ) : ℚ) < 2 ^ 24 := by exact_mod_cast hM
      rw [le_div_iff₀ (by positivity)] at h
      norm_num at h this
      linarith
    obtain ⟨g, hg'⟩ : ∃ g, gapE n = g + 1 := ⟨gapE n - 1, by omega⟩
    rw [hg'] at he
    have hbd := abs_toRat_le (fin s n hn)
    apply Repr.of_mul_pow (M := (if s then -1 else 1) * (M : ℤ)) (e := g)
    · cases s
      · simp; exact_mod_cast hM
      · simp; exact_mod_cast hM
    · rw [toRat_fin, he]
      cases s <;> (push_cast; norm_num; ring)
    · rw [abs_div, abs_of_pos (by norm_num : (0 : ℚ) < 2)]
      have : maxVal < 2 ^ 128 := by unfold maxVal; norm_num
      have := abs_nonneg (toRat (fin s n hn))
      linarith

/-- C21: when no bound is tiny, the center is the correctly rounded midpoint and belongs to the rectangle.
Missing: bounds below 2^-125, where it need not (`C21_center_counterexample`). -/
theorem C21_center_contained_partial (r : RectF) (hf : r.Finite) (hr : r.Valid)
    (h1 : NotTiny r.xMin) (h2 : NotTiny r.yMin) (h3 : NotTiny r.xMax) (h4 : NotTiny r.yMax) :
    toRat r.center.x = rnd ((toRat r.xMin + toRat r.xMax) / 2) ∧
    toRat r.center.y = rnd ((toRat r.yMin + toRat r.yMax) / 2) ∧ r.contains r.center = true := by
  obtain ⟨f1, f2, f3, f4⟩ := hf
  have main : ∀ {a b : F32}, a.isFinite = true → b.isFinite = true → NotTiny a → NotTiny b → le a b = true →
      let c := add (mul half a) (mul half b)
      toRat c = rnd ((toRat a + toRat b) / 2) ∧ le a c = true ∧ le c b = true := by
    intro a b fa fb ta tb hab c
    have hfin := (mid_finite fa fb).1
    obtain ⟨ga, -, ba⟩ := half_spec fa
    obtain ⟨gb, -, bb⟩ := half_spec fb
    have hc : toRat c = rnd ((toRat a + toRat b) / 2) := by
      have : |toRat (mul half a) + toRat (mul half b)| < ovf := by
        have := maxVal_lt_ovf
        calc _ ≤ |toRat (mul half a)| + |toRat (mul half b)| := abs_add_le _ _
          _ < ovf := by linarith
      rw [toRat_add ga gb this, half_exact fa ta, half_exact fb tb]
      congr 1; ring
    have hab' := (le_iff fa fb).1 hab
    refine ⟨hc, ?_, ?_⟩
    · rw [le_iff fa hfin]
      show toRat a ≤ toRat c
      rw [hc]
      exact le_rnd_of_le (Repr.toRat a) (by linarith)
    · rw [le_iff hfin fb]
      show toRat c ≤ toRat b
      rw [hc]
      exact rnd_le_of_le (Repr.toRat b) (by linarith)
  obtain ⟨x1, x2, x3⟩ := main f1 f3 h1 h3 hr.1
  obtain ⟨y1, y2, y3⟩ := main f2 f4 h2 h4 hr.2
  have e1 : r.center.x = add (mul half r.xMin) (mul half r.xMax) := by
    unfold RectF.center
    simp only [isNaN_of_isFinite (mid_finite f1 f3).1]
    rfl
  have e2 : r.center.y = add (mul half r.yMin) (mul half r.yMax) := by
    unfold RectF.center
    simp only [isNaN_of_isFinite (mid_finite f2 f4).1]
    rfl
  rw [contains_iff, e1, e2]
  exact ⟨x1, y1, x2, x3, y2, y3⟩

/-- C21: the center of a point-like rectangle at the smallest positive float is not in the rectangle. -/
theorem C21_center_counterexample : ∃ r : RectF, r.Finite ∧ r.Valid ∧ r.contains r.center = false := by
  refine ⟨⟨.fin false 1 (by decide), zero, .fin false 1 (by decide), zero⟩, ?_⟩
  unfold RectF.Finite RectF.Valid
  decide +kernel

example : NotTiny maxFinite ∧ NotTiny zero := by
  constructor
  · right
    unfold maxFinite
    rw [abs_toRat_fin, show mag 0x7F7FFFFF = 2 ^ 277 - 2 ^ 253 by decide +kernel]
    norm_num
  · left; exact toRat_zero

/-! ## `Segment::Lerp` -/

theorem maxVal_eq : maxVal = (2 ^ 24 - 1) * 2 ^ 104 := by unfold maxVal; norm_num

theorem repr_one : F32.Repr 1 := ⟨one, rfl, toRat_one⟩

/-- A float in [1/2, 1] is a multiple of 2^-24. -/
theorem exists_mul_of_half_le {x : ℚ} (hx : F32.Repr x) (h1 : 1 / 2 ≤ x) (h2 : x ≤ 1) :
    ∃ k : ℤ, x = k / 2 ^ 24 ∧ 2 ^ 23 ≤ k ∧ k ≤ 2 ^ 24 := by
  obtain ⟨a, ha, rfl⟩ := hx
  obtain ⟨z, hz⟩ := toRat_dvd (a := a) (j := 125) (by
    rw [abs_of_nonneg (by linarith)]
    refine _root_.le_trans (le_of_eq ?_) h1
    norm_num)
  have e : toRat a = z / 2 ^ 24 := by rw [hz]; ring
  refine ⟨z, e, ?_, ?_⟩
  · rw [e, le_div_iff₀ (by norm_num)] at h1
    have : (2 ^ 23 : ℚ) ≤ z := by linarith
    exact_mod_cast this
  · rw [e, div_le_iff₀ (by norm_num)] at h2
    have : (z : ℚ) ≤ 2 ^ 24 := by linarith
    exact_mod_cast this

/-- The largest float times a ratio of at least 1/2. -/
theorem rnd_max_mul {k : ℤ} (h1 : 2 ^ 23 ≤ k) (h2 : k ≤ 2 ^ 24) :
    rnd (maxVal * (k / 2 ^ 24)) ≤ k * 2 ^ 104 - 2 ^ 103 ∧
    (2 ^ 23 < k → rnd (maxVal * (k / 2 ^ 24)) ≤ (k - 1) * 2 ^ 104) := by
  have hq : maxVal * (k / 2 ^ 24) = k * 2 ^ 104 - k * 2 ^ 80 := by rw [maxVal_eq]; ring
  have hlow : (2 : ℚ) ^ 23 ≤ k := by exact_mod_cast h1
  have hhi : (k : ℚ) ≤ 2 ^ 24 := by exact_mod_cast h2
  have strict : 2 ^ 23 < k → rnd (maxVal * (k / 2 ^ 24)) ≤ (k - 1) * 2 ^ 104 := by
    intro hk
    have hkq : (2 : ℚ) ^ 23 < k := by exact_mod_cast hk
    have hr : F32.Repr ((k - 1 : ℚ) * 2 ^ 104) := by
      apply Repr.of_mul_pow (M := k - 1) (e := 253)
      · rw [abs_of_nonneg (by omega)]; omega
      · push_cast; ring
      · rw [abs_of_nonneg (by norm_num at *; linarith)]
        norm_num at *; linarith
    have hn := rnd_nearest (q := maxVal * (k / 2 ^ 24)) hr
    rw [hq] at hn ⊢
    set q : ℚ := k * 2 ^ 104 - k * 2 ^ 80 with hqd
    have hd : |((k : ℚ) - 1) * 2 ^ 104 - q| = 2 ^ 104 - (k : ℚ) * 2 ^ 80 := by
      rw [abs_of_nonpos]
      · rw [hqd]; ring
      · rw [hqd]; norm_num at hhi ⊢; linarith
    rw [hd] at hn
    have hup : rnd q < k * 2 ^ 104 := by
      have := le_of_abs_le hn
      rw [hqd] at this ⊢
      norm_num at *; linarith
    have hov : |q| < ovf := by
      rw [abs_of_nonneg (by rw [hqd]; norm_num at *; linarith), hqd]
      unfold ovf
      norm_num at *; linarith
    by_cases hbig : (2 : ℚ) ^ 127 ≤ rnd q
    · obtain ⟨z, hz⟩ := toRat_dvd (a := ofRat q) (j := 253) (by
        rw [toRat_ofRat hov]
        refine _root_.le_trans (le_of_eq ?_) (_root_.le_trans hbig (le_abs_self _))
        norm_num)
      rw [toRat_ofRat hov] at hz
      have hz' : rnd q = z * 2 ^ 104 := by rw [hz]; ring
      rw [hz'] at hup ⊢
      have : (z : ℚ) < k := lt_of_mul_lt_mul_right hup (by norm_num)
      have : z ≤ k - 1 := by
        have : z < k := by exact_mod_cast this
        omega
      have : (z : ℚ) ≤ k - 1 := by exact_mod_cast this
      exact mul_le_mul_of_nonneg_right this (by norm_num)
    · have hk1 : (2 : ℚ) ^ 23 ≤ k - 1 := by
        have : (2 : ℤ) ^ 23 ≤ k - 1 := by omega
        exact_mod_cast this
      norm_num at *
      linarith
  refine ⟨?_, strict⟩
  rcases eq_or_lt_of_le h1 with h | h
  · have h3 : (k : ℚ) = 2 ^ 23 := by rw [← h]; norm_num
    rw [h3]
    have hr : F32.Repr (maxVal * (2 ^ 23 / 2 ^ 24)) := by
      apply Repr.of_mul_pow (M := 2 ^ 24 - 1) (e := 252)
      · norm_num
      · rw [maxVal_eq]; norm_num
      · rw [maxVal_eq, abs_of_pos] <;> norm_num
    rw [hr.rnd_eq, maxVal_eq]
    norm_num
  · have := strict h
    norm_num at *
    linarith

/-- The largest float times a positive ratio is strictly less than 2^128 times it. -/
theorem rnd_max_mul_lt {t : ℚ} (ht : F32.Repr t) (h0 : 0 < t) : rnd (maxVal * t) < 2 ^ 128 * t := by
  have hmin : 1 / 2 ^ 149 ≤ t := by
    obtain ⟨a, -, rfl⟩ := ht
    obtain ⟨z, hz⟩ := toRat_unit a
    rw [hz] at h0 ⊢
    have : (0 : ℚ) < z := by
      by_contra hc
      push Not at hc
      have := div_nonpos_of_nonpos_of_nonneg hc (by norm_num : (0 : ℚ) ≤ 2 ^ 149)
      linarith
    have : (1 : ℤ) ≤ z := by
      have : (0 : ℤ) < z := by exact_mod_cast this
      omega
    have : (1 : ℚ) ≤ z := by exact_mod_cast this
    exact div_le_div_of_nonneg_right this (by norm_num)
  have hM : maxVal = 2 ^ 128 * (1 - 1 / 2 ^ 24) := by unfold maxVal; norm_num
  have hpos : 0 < maxVal * t := by
    apply mul_pos _ h0
    rw [hM]; norm_num
  have hnorm : 1 / 2 ^ 126 ≤ |maxVal * t| := by
    rw [abs_of_pos hpos]
    have : maxVal * (1 / 2 ^ 149) ≤ maxVal * t := by
      apply mul_le_mul_of_nonneg_left hmin
      rw [hM]; norm_num
    refine _root_.le_trans ?_ this
    rw [hM]; norm_num
  have := le_of_abs_le (rnd_err_normal hnorm)
  rw [abs_of_pos hpos] at this
  have h3 : maxVal * t + maxVal * t / 2 ^ 24 = 2 ^ 128 * t * (1 - 1 / 2 ^ 48) := by rw [hM]; ring
  have h4 : 2 ^ 128 * t * (1 - 1 / 2 ^ 48) < 2 ^ 128 * t := by
    have : 0 < 2 ^ 128 * t := by positivity
    nlinarith
  linarith

theorem rnd_zero : rnd 0 = 0 := by
  have := rnd_toRat zero
  rwa [toRat_zero] at this

theorem rnd_max_mul_le {t : ℚ} (ht : F32.Repr t) (h0 : 0 ≤ t) : rnd (maxVal * t) ≤ 2 ^ 128 * t := by
  rcases eq_or_lt_of_le h0 with h | h
  · rw [← h, mul_zero, rnd_zero, mul_zero]
  · exact (rnd_max_mul_lt ht h).le

/-- The nearest multiple of 2^-24 is a float for numbers in [1/2, 1]. -/
theorem rnd_err_unit {x : ℚ} (h1 : 1 / 2 ≤ x) (h2 : x ≤ 1) : |rnd x - x| ≤ 1 / 2 ^ 25 := by
  obtain ⟨z, hz⟩ : ∃ z : ℤ, |(z : ℚ) - x * 2 ^ 24| ≤ 1 / 2 := by
    refine ⟨round (x * 2 ^ 24), ?_⟩
    rw [abs_sub_comm]
    exact abs_sub_round _
  have hz1 := abs_le.1 hz
  have hzl : (0 : ℚ) ≤ z := by
    have := hz1.1
    have h5 : (2 : ℚ) ^ 23 ≤ x * 2 ^ 24 := by linarith
    have h6 : (1 : ℚ) ≤ 2 ^ 23 := by norm_num
    linarith
  have hzu : z ≤ 2 ^ 24 := by
    have : (z : ℚ) < 2 ^ 24 + 1 := by norm_num at *; linarith
    have : z < 2 ^ 24 + 1 := by exact_mod_cast this
    omega
  have hz0 : 0 ≤ z := by exact_mod_cast hzl
  have hr : F32.Repr ((z : ℚ) / 2 ^ 24) := by
    rcases eq_or_lt_of_le hzu with h | h
    · have h3 : (z : ℚ) = 2 ^ 24 := by rw [h]; norm_num
      rw [h3, div_self (by norm_num)]; exact repr_one
    · apply Repr.of_mul_pow (M := z) (e := 125)
      · rw [abs_of_nonneg hz0]; exact h
      · ring
      · rw [abs_of_nonneg (by positivity), div_lt_iff₀ (by norm_num)]
        have : (z : ℚ) < 2 ^ 24 := by exact_mod_cast h
        norm_num at *
        linarith
  refine _root_.le_trans (rnd_nearest hr) ?_
  have : (z : ℚ) / 2 ^ 24 - x = (z - x * 2 ^ 24) / 2 ^ 24 := by field_simp
  rw [this, abs_div, abs_of_pos (by norm_num : (0 : ℚ) < 2 ^ 24), div_le_iff₀ (by norm_num)]
  refine _root_.le_trans hz (le_of_eq ?_)
  norm_num

/-- The bound that makes `Lerp` safe. -/
theorem lerp_bound {t : ℚ} (ht : F32.Repr t) (h0 : 0 ≤ t) (h1 : t ≤ 1) :
    rnd (maxVal * rnd (1 - t)) + rnd (maxVal * t) < ovf := by
  have hovf : ovf = 2 ^ 128 - 2 ^ 103 := by unfold ovf; norm_num
  have rep : ∀ q : ℚ, |q| < ovf → F32.Repr (rnd q) := fun q hq => ⟨ofRat q, isFinite_ofRat_iff.2 hq, toRat_ofRat hq⟩
  by_cases hh : 1 / 2 ≤ t
  · obtain ⟨k, hk, hk1, hk2⟩ := exists_mul_of_half_le ht hh h1
    have hkq : (k : ℚ) ≤ 2 ^ 24 := by exact_mod_cast hk2
    have hrev : F32.Repr (1 - t) := by
      apply Repr.of_mul_pow (M := 2 ^ 24 - k) (e := 125)
      · rw [abs_of_nonneg (by omega)]; omega
      · rw [hk]; push_cast; ring
      · rw [abs_of_nonneg (by linarith)]
        refine lt_of_le_of_lt (by linarith : 1 - t ≤ 1) (by norm_num)
    rw [hrev.rnd_eq]
    obtain ⟨hA, hA'⟩ := rnd_max_mul hk1 hk2
    rw [← hk] at hA hA'
    rcases eq_or_lt_of_le hk1 with h | h
    · have hB := rnd_max_mul_lt hrev (by rw [hk, ← h]; norm_num)
      rw [hovf]
      have : 2 ^ 128 * (1 - t) = 2 ^ 128 - k * 2 ^ 104 := by rw [hk]; ring
      linarith
    · have hB := rnd_max_mul_le hrev (by linarith)
      have hA2 := hA' h
      rw [hovf]
      have : 2 ^ 128 * (1 - t) = 2 ^ 128 - k * 2 ^ 104 := by rw [hk]; ring
      norm_num at *
      linarith
  · push Not at hh
    have e1 : (1 : ℚ) / 2 ≤ 1 - t := by linarith
    have herr := abs_le.1 (rnd_err_unit e1 (by linarith))
    have hrl : 1 / 2 ≤ rnd (1 - t) := le_rnd_of_le ⟨half, rfl, toRat_half⟩ e1
    have hru : rnd (1 - t) ≤ 1 := rnd_le_of_le repr_one (by linarith)
    have hrr : F32.Repr (rnd (1 - t)) := by
      apply rep
      rw [abs_of_nonneg (by linarith), hovf]
      refine lt_of_le_of_lt (by linarith : 1 - t ≤ 1) (by norm_num)
    obtain ⟨k, hk, hk1, hk2⟩ := exists_mul_of_half_le hrr hrl hru
    rw [hk] at herr ⊢
    obtain ⟨hA, hA'⟩ := rnd_max_mul hk1 hk2
    have hB := rnd_max_mul_le ht h0
    rcases eq_or_lt_of_le hk1 with h | h
    · rw [hovf]
      have h3 : (k : ℚ) = 2 ^ 23 := by rw [← h]; norm_num
      rw [h3] at hA ⊢
      have : 2 ^ 128 * t < 2 ^ 127 := by norm_num at *; linarith
      norm_num at *
      linarith
    · have hA2 := hA' h
      have ht2 : t ≤ 1 + 1 / 2 ^ 25 - k / 2 ^ 24 := by linarith
      rcases eq_or_lt_of_le h0 with hz | hz
      · have hkq : (k : ℚ) ≤ 2 ^ 24 := by exact_mod_cast hk2
        rw [← hz, mul_zero, rnd_zero, hovf]
        norm_num at *
        linarith
      · have hB := rnd_max_mul_lt ht hz
        rw [hovf]
        have h5 : 2 ^ 128 * t ≤ 2 ^ 128 * (1 + 1 / 2 ^ 25 - k / 2 ^ 24) :=
          mul_le_mul_of_nonneg_left ht2 (by norm_num)
        have h6 : (2 : ℚ) ^ 128 * (1 + 1 / 2 ^ 25 - k / 2 ^ 24) = 2 ^ 128 + 2 ^ 103 - k * 2 ^ 104 := by ring
        norm_num at *
        linarith

theorem lerp_coord_finite {a b t : F32} (ha : a.isFinite = true) (hb : b.isFinite = true)
    (h0 : le zero t = true) (h1 : le t one = true) :
    (add (mul a (sub one t)) (mul b t)).isFinite = true := by
  have hft : t.isFinite = true := isFinite_of_between rfl rfl h0 h1
  have q0 : 0 ≤ toRat t := by have := (le_iff rfl hft).1 h0; rwa [toRat_zero] at this
  have q1 : toRat t ≤ 1 := by have := (le_iff hft rfl).1 h1; rwa [toRat_one] at this
  have hov1 : (1 : ℚ) < ovf := by unfold ovf; norm_num
  have hs : |toRat one - toRat t| < ovf := by
    rw [toRat_one, abs_of_nonneg (by linarith)]; linarith
  have hfr : (sub one t).isFinite = true := isFinite_sub rfl hft hs
  have hr : toRat (sub one t) = rnd (1 - toRat t) := by rw [toRat_sub rfl hft hs, toRat_one]
  have r0 : 0 ≤ rnd (1 - toRat t) := rnd_nonneg (by linarith)
  have r1 : rnd (1 - toRat t) ≤ 1 := rnd_le_of_le repr_one (by linarith)
  have prod : ∀ {x y : F32}, x.isFinite = true → y.isFinite = true → 0 ≤ toRat y → toRat y ≤ 1 →
      (mul x y).isFinite = true ∧ |toRat (mul x y)| ≤ rnd (maxVal * toRat y) := by
    intro x y hx hy y0 y1
    have hb := abs_toRat_le x
    have hp : |toRat x * toRat y| ≤ maxVal * toRat y := by
      rw [abs_mul, abs_of_nonneg y0]; exact mul_le_mul_of_nonneg_right hb y0
    have hM : 0 ≤ maxVal := _root_.le_trans (abs_nonneg _) hb
    have hlt : |toRat x * toRat y| < ovf := by
      have : maxVal * toRat y ≤ maxVal * 1 := mul_le_mul_of_nonneg_left y1 hM
      have := maxVal_lt_ovf
      linarith
    refine ⟨isFinite_mul hx hy hlt, ?_⟩
    rw [toRat_mul hx hy hlt, rnd_abs]
    exact rnd_mono hp
  obtain ⟨f1, b1⟩ := prod ha hfr (by rw [hr]; exact r0) (by rw [hr]; exact r1)
  obtain ⟨f2, b2⟩ := prod hb hft q0 q1
  rw [hr] at b1
  apply isFinite_add f1 f2
  calc _ ≤ |toRat (mul a (sub one t))| + |toRat (mul b t)| := abs_add_le _ _
    _ < ovf := by
      have := lerp_bound (Repr.toRat t) q0 q1
      linarith

/-- Both coordinates are finite. -/
def PointF.Finite (p : PointF) : Prop := p.x.isFinite = true ∧ p.y.isFinite = true

/-- C21: `Lerp` with a ratio in [0, 1] and `Midpoint` never overflow for finite end points, as documented. -/
theorem C21_lerp_finite (s : SegmentF) (hs : s.start.Finite) (he : s.fin.Finite) :
    (∀ t : F32, le zero t = true → le t one = true → (s.lerp t).Finite) ∧ s.midpoint.Finite := by
  have h : ∀ t : F32, le zero t = true → le t one = true → (s.lerp t).Finite := fun t h0 h1 =>
    ⟨lerp_coord_finite hs.1 he.1 h0 h1, lerp_coord_finite hs.2 he.2 h0 h1⟩
  exact ⟨h, h _ (by decide +kernel) (by decide +kernel)⟩

/-- C21: `Lerp` starts and ends exactly at the end points. -/
theorem C21_lerp_ends (s : SegmentF) (hs : s.start.Finite) (he : s.fin.Finite) :
    (feq (s.lerp zero).x s.start.x = true ∧ feq (s.lerp zero).y s.start.y = true) ∧
    (feq (s.lerp one).x s.fin.x = true ∧ feq (s.lerp one).y s.fin.y = true) := by
  have z0 : ∀ {x : F32}, x.isFinite = true → ∀ {y : F32}, y.isFinite = true → toRat y = 0 →
      (mul x y).isFinite = true ∧ toRat (mul x y) = 0 := by
    intro x hx y hy h0
    have hov : |toRat x * toRat y| < ovf := by rw [h0]; simp; unfold ovf; norm_num
    exact ⟨isFinite_mul hx hy hov, by rw [toRat_mul hx hy hov, h0, mul_zero, rnd_zero]⟩
  have o1 : ∀ {x : F32}, x.isFinite = true → ∀ {y : F32}, y.isFinite = true → toRat y = 1 →
      (mul x y).isFinite = true ∧ toRat (mul x y) = toRat x := by
    intro x hx y hy h0
    have hov : |toRat x * toRat y| < ovf := by
      rw [h0, mul_one]; exact lt_of_le_of_lt (abs_toRat_le x) maxVal_lt_ovf
    exact ⟨isFinite_mul hx hy hov, by rw [toRat_mul hx hy hov, h0, mul_one, rnd_toRat]⟩
  have m0 : (sub one zero).isFinite = true ∧ toRat (sub one zero) = 1 := by
    rw [show sub one zero = one by decide +kernel]; exact ⟨rfl, toRat_one⟩
  have m1 : (sub one one).isFinite = true ∧ toRat (sub one one) = 0 := by
    rw [show sub one one = zero by decide +kernel]; exact ⟨rfl, toRat_zero⟩
  have sum : ∀ {x y z : F32}, x.isFinite = true → y.isFinite = true → z.isFinite = true →
      toRat x + toRat y = toRat z → feq (add x y) z = true := by
    intro x y z hx hy hz h
    have hov : |toRat x + toRat y| < ovf := by
      rw [h]; exact lt_of_le_of_lt (abs_toRat_le z) maxVal_lt_ovf
    rw [feq_iff (isFinite_add hx hy hov) hz, toRat_add hx hy hov, h, rnd_toRat]
  have k0 : ∀ {a b : F32}, a.isFinite = true → b.isFinite = true →
      feq (add (mul a (sub one zero)) (mul b zero)) a = true := by
    intro a b ha hb
    obtain ⟨f1, e1⟩ := o1 ha m0.1 m0.2
    obtain ⟨f2, e2⟩ := z0 hb (y := zero) rfl toRat_zero
    exact sum f1 f2 ha (by rw [e1, e2, add_zero])
  have k1 : ∀ {a b : F32}, a.isFinite = true → b.isFinite = true →
      feq (add (mul a (sub one one)) (mul b one)) b = true := by
    intro a b ha hb
    obtain ⟨f1, e1⟩ := z0 ha m1.1 m1.2
    obtain ⟨f2, e2⟩ := o1 hb (y := one) rfl toRat_one
    exact sum f1 f2 hb (by rw [e1, e2, zero_add])
  exact ⟨⟨k0 hs.1 he.1, k0 hs.2 he.2⟩, ⟨k1 hs.1 he.1, k1 hs.2 he.2⟩⟩

/-- The extreme case: both end points at the largest float and a ratio that rounds. -/
example : (SegmentF.lerp ⟨⟨maxFinite, zero⟩, ⟨maxFinite, one⟩⟩ (.fin false 0x3E99999A (by decide))).x.isFinite =
    true := by decide +kernel

/-! ## C23: rectangles and points under binary32 comparison -/

/-- C23: for rectangles without NaN, infinite ones included, `Intersects(Rect, Rect)` is true exactly when some
binary32 point is in both, `Intersects(Point, Rect)` exactly when the point is in the rectangle, and both are
symmetric. -/
theorem C23_rect_binary32 (a b : RectF) (ha : a.Valid) (hb : b.Valid) :
    (a.intersects b = true ↔ ∃ p, a.contains p = true ∧ b.contains p = true) ∧
    a.intersects b = b.intersects a ∧
    (∀ p, RectF.rectIntersectsPoint a p = RectF.intersectsPoint p a) ∧
    (∀ p, RectF.intersectsPoint p a = true ↔
      le a.xMin p.x = true ∧ le p.x a.xMax = true ∧ le a.yMin p.y = true ∧ le p.y a.yMax = true) := by
  obtain ⟨nx, nX, kx⟩ := le_key ha.1
  obtain ⟨ny, nY, ky⟩ := le_key ha.2
  obtain ⟨mx, mX, jx⟩ := le_key hb.1
  obtain ⟨my, mY, jy⟩ := le_key hb.2
  have char : ∀ {a b : RectF}, a.Valid → b.Valid → (a.intersects b = true ↔
      le a.xMin b.xMax = true ∧ le b.xMin a.xMax = true ∧ le a.yMin b.yMax = true ∧ le b.yMin a.yMax = true) := by
    intro a b ha hb
    obtain ⟨nx, nX, -⟩ := le_key ha.1
    obtain ⟨ny, nY, -⟩ := le_key ha.2
    obtain ⟨mx, mX, -⟩ := le_key hb.1
    obtain ⟨my, mY, -⟩ := le_key hb.2
    unfold RectF.intersects F32.gt
    rw [← not_lt_iff mX nx, ← not_lt_iff nX mx, ← not_lt_iff mY ny, ← not_lt_iff nY my]
    cases lt b.xMax a.xMin <;> cases lt a.xMax b.xMin <;> cases lt b.yMax a.yMin <;> cases lt a.yMax b.yMin <;>
      simp
  refine ⟨?_, ?_, fun _ => rfl, fun p => contains_iff⟩
  · rw [char ha hb]
    constructor
    · rintro ⟨h1, h2, h3, h4⟩
      obtain ⟨c1, c2, c3⟩ := le_smax nx mx
      obtain ⟨d1, d2, d3⟩ := le_smax ny my
      refine ⟨⟨smax a.xMin b.xMin, smax a.yMin b.yMin⟩, contains_iff.2 ⟨c1, c3 _ ha.1 h2, d1, d3 _ ha.2 h4⟩,
        contains_iff.2 ⟨c2, c3 _ h1 hb.1, d2, d3 _ h3 hb.2⟩⟩
    · rintro ⟨p, hp, hq⟩
      rw [contains_iff] at hp hq
      exact ⟨F32.le_trans hp.1 hq.2.1, F32.le_trans hq.1 hp.2.1, F32.le_trans hp.2.2.1 hq.2.2.2,
        F32.le_trans hq.2.2.1 hp.2.2.2⟩
  · rw [Bool.eq_iff_iff, char ha hb, char hb ha]
    tauto

/-- C23, beyond the documented domain: a rectangle with a NaN bound contains no point and yet "intersects". -/
theorem C23_nan_counterexample : ∃ a b : RectF, b.Valid ∧ a.intersects b = true ∧
    ∀ p, a.contains p = false := by
  refine ⟨⟨nan, zero, nan, zero⟩, ⟨zero, zero, one, one⟩, by unfold RectF.Valid; decide +kernel,
    by decide +kernel, fun p => ?_⟩
  simp [RectF.contains, le, isNaN]

example : RectF.Valid ⟨inf true, zero, inf false, one⟩ ∧
    RectF.intersects ⟨inf true, zero, inf false, one⟩ ⟨one, one, two, two⟩ = true := by
  unfold RectF.Valid; decide +kernel

/-! ## C20: `Envelope` -/

/-- The points that an object puts under the envelope: all of a rectangle is the hull of its corners. -/
def EnvObj.points : EnvObj → List PointF
  | .point p => [p]
  | .segment s => [s.start, s.fin]
  | .triangle a b c => [a, b, c]
  | .rect r => r.corners
  | .quad a b c d => [a, b, c, d]
  | .envelope none => []
  | .envelope (some r) => r.corners

/-- No NaN, and rectangles are in order. -/
def EnvObj.Valid : EnvObj → Prop
  | .rect r => r.Valid
  | .envelope (some r) => r.Valid
  | o => ∀ p ∈ o.points, p.Valid

/-- `e` is exactly what the points `l` require. -/
def EnvSpec (l : List PointF) : Envelope → Prop
  | none => l = []
  | some r => l ≠ [] ∧ r.Valid ∧ ∀ s : RectF, s.containsRect r = true ↔ ∀ p ∈ l, s.contains p = true

theorem containsRect_iff_corners {s r : RectF} (hr : r.Valid) :
    s.containsRect r = true ↔ ∀ p ∈ r.corners, s.contains p = true := by
  obtain ⟨nx, nX, -⟩ := le_key hr.1
  obtain ⟨ny, nY, -⟩ := le_key hr.2
  constructor
  · intro h p hp
    have := (C21_contains_rect s r hr).1 h p
    apply this
    simp only [RectF.corners, List.mem_cons, List.not_mem_nil, or_false] at hp
    rw [contains_iff]
    rcases hp with rfl | rfl | rfl | rfl <;>
      simp only [F32.le_refl nx, F32.le_refl nX, F32.le_refl ny, F32.le_refl nY, hr.1, hr.2, and_self]
  · intro h
    have h1 := contains_iff.1 (h ⟨r.xMin, r.yMin⟩ (by simp [RectF.corners]))
    have h2 := contains_iff.1 (h ⟨r.xMax, r.yMax⟩ (by simp [RectF.corners]))
    exact containsRect_iff.2 ⟨h1.1, h2.2.1, h1.2.2.1, h2.2.2.2⟩

theorem envSpec_join {l : List PointF} {r : RectF} {p : PointF} (h : EnvSpec l (some r)) (hp : p.Valid) :
    EnvSpec (l ++ [p]) (some (r.join p)) := by
  obtain ⟨h1, h2, h3⟩ := h
  refine ⟨by simp, (join_spec h2 hp).1, fun s => ?_⟩
  rw [((C21_smallest p p r r hp hp h2 h2).2.1 s), h3 s]
  simp only [List.mem_append, List.mem_singleton]
  constructor
  · rintro ⟨a, b⟩ q (hq | rfl)
    · exact a q hq
    · exact b
  · intro a
    exact ⟨fun q hq => a q (Or.inl hq), a p (Or.inr rfl)⟩

theorem envSpec_joinRect {l : List PointF} {r t : RectF} (h : EnvSpec l (some r)) (ht : t.Valid) :
    EnvSpec (l ++ t.corners) (some (r.joinRect t)) := by
  obtain ⟨h1, h2, h3⟩ := h
  refine ⟨by simp [h1], (joinRect_spec h2 ht).1, fun s => ?_⟩
  have dummy : PointF.Valid ⟨zero, zero⟩ := ⟨rfl, rfl⟩
  rw [((C21_smallest _ _ r t dummy dummy h2 ht).2.2 s), h3 s, containsRect_iff_corners ht]
  simp only [List.mem_append]
  constructor
  · rintro ⟨a, b⟩ q (hq | hq)
    · exact a q hq
    · exact b q hq
  · intro a
    exact ⟨fun q hq => a q (Or.inl hq), fun q hq => a q (Or.inr hq)⟩

theorem envSpec_two {a b : PointF} (ha : a.Valid) (hb : b.Valid) : EnvSpec [a, b] (some (fromTwoPoints a b)) := by
  have hd := (fromTwoPoints_spec ha hb).1
  refine ⟨by simp, hd, fun s => ?_⟩
  rw [((C21_smallest a b _ _ ha hb hd hd).1 s)]
  simp

theorem key_add_zero {a : F32} (ha : a.isNaN = false) (z : F32) (hz : z.isFinite = true) (h0 : toRat z = 0) :
    (add a z).isNaN = false ∧ key (add a z) = key a := by
  rcases isFinite_or_inf ha with hf | ⟨s, rfl⟩
  · obtain ⟨n, k⟩ := key_add hf hz
    rw [h0, add_zero, keyR_toRat hf] at k
    exact ⟨n, k⟩
  · obtain ⟨t, n, hn, rfl⟩ := exists_of_isFinite hz
    exact ⟨rfl, rfl⟩

theorem envSpec_point {p : PointF} (hp : p.Valid) : EnvSpec [p] (fromCenterAndDimensions p zero zero) := by
  have hz : div zero two = zero := by decide +kernel
  have e : fromCenterAndDimensions p zero zero =
      some ⟨sub p.x zero, sub p.y zero, add p.x zero, add p.y zero⟩ := by
    unfold fromCenterAndDimensions
    rw [if_pos (by decide +kernel), hz]
  rw [e]
  obtain ⟨nx, kx⟩ := key_add_zero hp.1 zero rfl toRat_zero
  obtain ⟨ny, ky⟩ := key_add_zero hp.2 zero rfl toRat_zero
  obtain ⟨mx, jx⟩ := key_add_zero hp.1 (neg zero) rfl (by rw [toRat_neg, toRat_zero, neg_zero])
  obtain ⟨my, jy⟩ := key_add_zero hp.2 (neg zero) rfl (by rw [toRat_neg, toRat_zero, neg_zero])
  change EnvSpec [p] (some ⟨add p.x (neg zero), add p.y (neg zero), add p.x zero, add p.y zero⟩)
  refine ⟨by simp, ⟨le_of_key mx nx (by simp only; omega), le_of_key my ny (by simp only; omega)⟩, fun s => ?_⟩
  rw [containsRect_iff]
  simp only [List.mem_singleton, forall_eq]
  rw [contains_iff]
  unfold le
  simp only [kx, ky, jx, jy, nx, ny, mx, my, hp.1, hp.2]

theorem envSpec_add {l : List PointF} {e : Envelope} {o : EnvObj} (h : EnvSpec l e) (ho : o.Valid) :
    EnvSpec (l ++ o.points) (e.add o) := by
  have app : ∀ {x y : List PointF} {e : Envelope}, x = y → EnvSpec x e → EnvSpec y e := fun h h2 => h ▸ h2
  cases o with
  | point p =>
    have hp : p.Valid := ho p (by simp [EnvObj.points])
    cases e with
    | none => rw [show l = [] from h]; exact envSpec_point hp
    | some r => exact envSpec_join h hp
  | segment s =>
    have h1 : s.start.Valid := ho _ (by simp [EnvObj.points])
    have h2 : s.fin.Valid := ho _ (by simp [EnvObj.points])
    cases e with
    | none => rw [show l = [] from h]; exact envSpec_two h1 h2
    | some r => exact app (by simp [EnvObj.points]) (envSpec_join (envSpec_join h h1) h2)
  | triangle a b c =>
    have h1 : a.Valid := ho _ (by simp [EnvObj.points])
    have h2 : b.Valid := ho _ (by simp [EnvObj.points])
    have h3 : c.Valid := ho _ (by simp [EnvObj.points])
    cases e with
    | none => rw [show l = [] from h]; exact envSpec_join (envSpec_two h1 h2) h3
    | some r => exact app (by simp [EnvObj.points]) (envSpec_join (envSpec_join (envSpec_join h h1) h2) h3)
  | rect t =>
    cases e with
    | none =>
      rw [show l = [] from h]
      exact ⟨by simp [EnvObj.points, RectF.corners], ho, fun s => containsRect_iff_corners ho⟩
    | some r => exact envSpec_joinRect h ho
  | quad a b c d =>
    have h1 : a.Valid := ho _ (by simp [EnvObj.points])
    have h2 : b.Valid := ho _ (by simp [EnvObj.points])
    have h3 : c.Valid := ho _ (by simp [EnvObj.points])
    have h4 : d.Valid := ho _ (by simp [EnvObj.points])
    cases e with
    | none => rw [show l = [] from h]; exact envSpec_join (envSpec_join (envSpec_two h1 h2) h3) h4
    | some r =>
      exact app (by simp [EnvObj.points])
        (envSpec_join (envSpec_join (envSpec_join (envSpec_join h h1) h2) h3) h4)
  | envelope f =>
    cases f with
    | none => simpa [EnvObj.points, Envelope.add] using h
    | some t =>
      have ht : t.Valid := ho
      cases e with
      | none =>
        rw [show l = [] from h]
        exact ⟨by simp [EnvObj.points, RectF.corners], ht, fun s => containsRect_iff_corners ht⟩
      | some r => exact envSpec_joinRect h ht

theorem envSpec_addAll {os : List EnvObj} (ho : ∀ o ∈ os, o.Valid) :
    EnvSpec (os.flatMap EnvObj.points) (Envelope.addAll none os) := by
  have : ∀ (os : List EnvObj) (l : List PointF) (e : Envelope), EnvSpec l e → (∀ o ∈ os, o.Valid) →
      EnvSpec (l ++ os.flatMap EnvObj.points) (Envelope.addAll e os) := by
    intro os
    induction os with
    | nil => intro l e h _; simpa [Envelope.addAll] using h
    | cons o os ih =>
      intro l e h ho
      have := ih _ _ (envSpec_add h (ho o (by simp))) fun o' h' => ho o' (by simp [h'])
      simpa [Envelope.addAll, List.append_assoc] using this
  have := this os [] none rfl ho
  simpa using this

/-- C20: after any sequence of `Add` calls on an empty (or reset) envelope, with no NaN coordinate: it is empty
exactly when nothing was added; otherwise its rectangle contains every point added (and so every added
rectangle), and every rectangle that contains them contains it. -/
theorem C20_smallest (os : List EnvObj) (ho : ∀ o ∈ os, o.Valid) :
    ((Envelope.addAll none os).isEmpty = true ↔ ∀ o ∈ os, o.points = []) ∧
    ∀ r, Envelope.addAll none os = some r →
      r.Valid ∧ (∀ o ∈ os, ∀ p ∈ o.points, r.contains p = true) ∧
      (∀ t, EnvObj.rect t ∈ os → r.containsRect t = true) ∧
      ∀ s : RectF, (∀ o ∈ os, ∀ p ∈ o.points, s.contains p = true) → s.containsRect r = true := by
  have h := envSpec_addAll ho
  constructor
  · cases he : Envelope.addAll none os with
    | none =>
      rw [he] at h
      simp only [EnvSpec, List.flatMap_eq_nil_iff] at h
      simpa [Envelope.isEmpty] using h
    | some r =>
      rw [he] at h
      have h1 := h.1
      simp only [ne_eq, List.flatMap_eq_nil_iff] at h1
      simp only [Envelope.isEmpty, Option.isNone_some, Bool.false_eq_true, false_iff]
      exact h1
  · intro r hr
    rw [hr] at h
    obtain ⟨-, h2, h3⟩ := h
    obtain ⟨nx, nX, -⟩ := le_key h2.1
    obtain ⟨ny, nY, -⟩ := le_key h2.2
    have hself : r.containsRect r = true :=
      containsRect_iff.2 ⟨F32.le_refl nx, F32.le_refl nX, F32.le_refl ny, F32.le_refl nY⟩
    have hall := (h3 r).1 hself
    refine ⟨h2, ?_, ?_, ?_⟩
    · intro o ho' p hp
      exact hall p (List.mem_flatMap.2 ⟨o, ho', hp⟩)
    · intro t ht
      rw [containsRect_iff_corners (ho _ ht)]
      intro p hp
      exact hall p (List.mem_flatMap.2 ⟨_, ht, hp⟩)
    · intro s hs
      rw [h3 s]
      intro p hp
      obtain ⟨o, ho', hp'⟩ := List.mem_flatMap.1 hp
      exact hs o ho' p hp'

/-- C20: the result does not depend on the order, nor on repetitions: two sequences that add the same objects
give the same envelope (`==` on all four bounds). -/
theorem C20_order_independent (os os' : List EnvObj) (ho : ∀ o ∈ os, o.Valid) (h : ∀ o, o ∈ os ↔ o ∈ os') :
    (Envelope.addAll none os = none ∧ Envelope.addAll none os' = none) ∨
    ∃ r r', Envelope.addAll none os = some r ∧ Envelope.addAll none os' = some r' ∧
      feq r.xMin r'.xMin = true ∧ feq r.yMin r'.yMin = true ∧
      feq r.xMax r'.xMax = true ∧ feq r.yMax r'.yMax = true := by
  have ho' : ∀ o ∈ os', o.Valid := fun o h' => ho o ((h o).2 h')
  obtain ⟨e1, s1⟩ := C20_smallest os ho
  obtain ⟨e2, s2⟩ := C20_smallest os' ho'
  have e : (Envelope.addAll none os).isEmpty = true ↔ (Envelope.addAll none os').isEmpty = true := by
    rw [e1, e2]
    exact ⟨fun a o h' => a o ((h o).2 h'), fun a o h' => a o ((h o).1 h')⟩
  cases h1 : Envelope.addAll none os with
  | none =>
    cases h2 : Envelope.addAll none os' with
    | none => left; exact ⟨rfl, rfl⟩
    | some r => rw [h1, h2] at e; simp [Envelope.isEmpty] at e
  | some r =>
    cases h2 : Envelope.addAll none os' with
    | none => rw [h1, h2] at e; simp [Envelope.isEmpty] at e
    | some r' =>
      right
      obtain ⟨-, a2, -, a4⟩ := s1 r h1
      obtain ⟨-, b2, -, b4⟩ := s2 r' h2
      have c1 := containsRect_iff.1 (b4 r fun o h' p hp => a2 o ((h o).2 h') p hp)
      have c2 := containsRect_iff.1 (a4 r' fun o h' p hp => b2 o ((h o).1 h') p hp)
      have q : ∀ {x y : F32}, le x y = true → le y x = true → feq x y = true := by
        intro x y h1 h2
        obtain ⟨n1, n2, k1⟩ := le_key h1
        obtain ⟨-, -, k2⟩ := le_key h2
        simp [feq, n1, n2]; omega
      exact ⟨r, r', rfl, rfl, q c1.1 c2.1, q c1.2.2.1 c2.2.2.1, q c2.2.1 c1.2.1, q c2.2.2.2 c1.2.2.2⟩

/-- Objects of every kind that meet the hypotheses, with an infinite coordinate. -/
example : ∀ o ∈ [EnvObj.point ⟨one, inf true⟩, .segment ⟨⟨zero, one⟩, ⟨two, negHalf⟩⟩,
    .rect ⟨zero, zero, one, one⟩, .envelope none, .envelope (some ⟨negHalf, zero, two, two⟩),
    .triangle ⟨zero, zero⟩ ⟨one, two⟩ ⟨two, zero⟩], o.Valid := by
  simp [EnvObj.Valid, EnvObj.points, RectF.Valid, PointF.Valid]
  decide +kernel

/-! ## Aspect ratios -/

theorem width_cmp {w h a : F32} (fw : w.isFinite = true) (fh : h.isFinite = true) (fa : a.isFinite = true)
    (hh : 0 < toRat h) (ha : 0 < toRat a) :
    (lt (div w h) a = true → le w (mul h a) = true ∧ le (div w a) h = true) ∧
    (lt a (div w h) = true → le h (div w a) = true ∧ le (mul h a) w = true) := by
  obtain ⟨n1, k1⟩ := key_div fw fh hh.ne'
  obtain ⟨n2, k2⟩ := key_mul fh fa
  obtain ⟨n3, k3⟩ := key_div fw fa ha.ne'
  have kw := keyR_toRat fw
  have kh := keyR_toRat fh
  have ka := keyR_toRat fa
  constructor
  · intro hl
    have hl : key (div w h) < key a := by simp [lt] at hl; exact hl.2
    have hq : toRat w / toRat h ≤ toRat a := by
      by_contra hc
      have := keyR_mono (not_le.1 hc).le
      omega
    have h1 : toRat w ≤ toRat h * toRat a := by rw [div_le_iff₀ hh] at hq; linarith
    have h2 : toRat w / toRat a ≤ toRat h := by rw [div_le_iff₀ ha]; exact h1
    exact ⟨le_of_key (isNaN_of_isFinite fw) n2 (by rw [k2, ← kw]; exact keyR_mono h1),
      le_of_key n3 (isNaN_of_isFinite fh) (by rw [k3, ← kh]; exact keyR_mono h2)⟩
  · intro hl
    have hl : key a < key (div w h) := by simp [lt] at hl; exact hl.2
    have hq : toRat a ≤ toRat w / toRat h := by
      by_contra hc
      have := keyR_mono (not_le.1 hc).le
      omega
    have h1 : toRat h * toRat a ≤ toRat w := by rw [le_div_iff₀ hh] at hq; linarith
    have h2 : toRat h ≤ toRat w / toRat a := by rw [le_div_iff₀ ha]; linarith
    exact ⟨le_of_key (isNaN_of_isFinite fh) n3 (by rw [k3, ← kh]; exact keyR_mono h2),
      le_of_key n2 (isNaN_of_isFinite fw) (by rw [k2, ← kw]; exact keyR_mono h1)⟩

/-- **C21, aspect ratios.** For a rectangle whose width and height are finite, the height positive, and a finite positive
ratio different from the rectangle's own: `ContainingRectWithAspectRatio` gives the rectangle around the same
center with one dimension kept and the other at least as large, `InteriorRectWithAspectRatio` the one with one
dimension kept and the other at most as large; and in both, the new dimension is the kept one times or over the
ratio, rounded. Missing: a ratio equal to the rectangle's own, where rounding can make the containing rectangle too
small (`C21_containing_counterexample`), and the rounding of the corners around the center. -/
theorem C21_aspect_ratio_partial (r : RectF) (a : F32) (fw : r.width.isFinite = true) (fh : r.height.isFinite = true)
    (fa : a.isFinite = true) (hh : 0 < toRat r.height) (ha : 0 < toRat a)
    (hne : ∀ q, r.aspectRatio = some q → toRat q ≠ toRat a ∨ q.isFinite = false) :
    (∃ W H, r.containingRectWithAspectRatio a = fromCenterAndDimensions r.center W H ∧
      ((H = r.height ∧ W = mul H a ∧ le r.width W = true) ∨
       (W = r.width ∧ H = div W a ∧ le r.height H = true))) ∧
    (∃ W H, r.interiorRectWithAspectRatio a = fromCenterAndDimensions r.center W H ∧
      ((H = r.height ∧ W = mul H a ∧ le W r.width = true) ∨
       (W = r.width ∧ H = div W a ∧ le H r.height = true))) := by
  have hz : feq r.height zero = false := by
    by_contra hc
    have hc : feq r.height zero = true := by simpa using hc
    have := (feq_iff (b := zero) fh rfl).1 hc
    rw [show toRat zero = 0 by simp [toRat, zero, mag]] at this
    linarith
  have hq : r.aspectRatio = some (div r.width r.height) := by
    unfold aspectRatio; rw [hz]; rfl
  have hne := hne _ hq
  obtain ⟨n1, k1⟩ := key_div fw fh hh.ne'
  have zl : toRat zero = 0 := by simp [toRat, zero, mag]
  have hpos : gt a zero = true := (lt_iff (a := zero) rfl fa).2 (by rw [zl]; exact ha)
  have hpos' : ge a zero = true := (le_iff (a := zero) rfl fa).2 (by rw [zl]; exact ha.le)
  obtain ⟨c1, c2⟩ := width_cmp fw fh fa hh ha
  by_cases hl : gt a (div r.width r.height) = true
  · have e1 : r.containingRectWithAspectRatio a = fromCenterAndDimensions r.center (mul r.height a) r.height := by
      unfold containingRectWithAspectRatio; rw [if_pos hpos, hq, Option.bind_some, if_pos hl]
    have e2 : r.interiorRectWithAspectRatio a = fromCenterAndDimensions r.center r.width (div r.width a) := by
      unfold interiorRectWithAspectRatio; rw [if_pos hpos', hq, Option.bind_some, if_pos hl]
    exact ⟨⟨_, _, e1, Or.inl ⟨rfl, rfl, (c1 hl).1⟩⟩, ⟨_, _, e2, Or.inr ⟨rfl, rfl, (c1 hl).2⟩⟩⟩
  · have e1 : r.containingRectWithAspectRatio a = fromCenterAndDimensions r.center r.width (div r.width a) := by
      unfold containingRectWithAspectRatio; rw [if_pos hpos, hq, Option.bind_some, if_neg hl]
    have e2 : r.interiorRectWithAspectRatio a = fromCenterAndDimensions r.center (mul r.height a) r.height := by
      unfold interiorRectWithAspectRatio; rw [if_pos hpos', hq, Option.bind_some, if_neg hl]
    have hlt : lt a (div r.width r.height) = true := by
      have hle := (not_lt_iff n1 (isNaN_of_isFinite fa)).1 (by simpa using hl)
      rcases hne with h | h
      · have hk := (le_key hle).2.2
        have : key a ≠ key (div r.width r.height) := by
          intro he
          apply h
          have f : (div r.width r.height).isFinite = true := by
            rw [isFinite_iff_key, ← he]; exact ⟨n1, ((isFinite_iff_key a).1 fa).2⟩
          exact ((key_eq_iff fa f).1 he).symm
        simp [lt, n1, isNaN_of_isFinite fa]; omega
      · have hk := (le_key hle).2.2
        have : key a ≠ key (div r.width r.height) := by
          intro he
          have f : (div r.width r.height).isFinite = true := by
            rw [isFinite_iff_key, ← he]; exact ⟨n1, ((isFinite_iff_key a).1 fa).2⟩
          rw [h] at f; cases f
        simp [lt, n1, isNaN_of_isFinite fa]; omega
    exact ⟨⟨_, _, e1, Or.inr ⟨rfl, rfl, (c2 hlt).1⟩⟩, ⟨_, _, e2, Or.inl ⟨rfl, rfl, (c2 hlt).2⟩⟩⟩

/-- **C21, a rectangle with its own aspect ratio.** The rectangle `[-1, 1] × [-7, 7]`: asked for a containing
rectangle with this very rectangle's `AspectRatio()`, the code returns one that does not contain it; and for
`[-7, 7] × [-13, 13]` the interior rectangle with its own aspect ratio is not contained in it. -/
theorem C21_containing_counterexample :
    (∃ r s : RectF, ∃ a, r = ⟨ofInt (-1), ofInt (-7), ofInt 1, ofInt 7⟩ ∧ r.aspectRatio = some a ∧
      r.containingRectWithAspectRatio a = some s ∧ s.containsRect r = false) ∧
    (∃ r s : RectF, ∃ a, r = ⟨ofInt (-7), ofInt (-13), ofInt 7, ofInt 13⟩ ∧ r.aspectRatio = some a ∧
      r.interiorRectWithAspectRatio a = some s ∧ r.containsRect s = false) := by
  constructor
  · have h : ((⟨ofInt (-1), ofInt (-7), ofInt 1, ofInt 7⟩ : RectF).aspectRatio.bind fun a =>
        ((⟨ofInt (-1), ofInt (-7), ofInt 1, ofInt 7⟩ : RectF).containingRectWithAspectRatio a).map fun s =>
          s.containsRect ⟨ofInt (-1), ofInt (-7), ofInt 1, ofInt 7⟩) = some false := by decide +kernel
    simp only [Option.bind_eq_some_iff, Option.map_eq_some_iff] at h
    obtain ⟨a, ha, s, hs, h⟩ := h
    exact ⟨_, s, a, rfl, ha, hs, h⟩
  · have h : ((⟨ofInt (-7), ofInt (-13), ofInt 7, ofInt 13⟩ : RectF).aspectRatio.bind fun a =>
        ((⟨ofInt (-7), ofInt (-13), ofInt 7, ofInt 13⟩ : RectF).interiorRectWithAspectRatio a).map fun s =>
          (⟨ofInt (-7), ofInt (-13), ofInt 7, ofInt 13⟩ : RectF).containsRect s) = some false := by decide +kernel
    simp only [Option.bind_eq_some_iff, Option.map_eq_some_iff] at h
    obtain ⟨a, ha, s, hs, h⟩ := h
    exact ⟨_, s, a, rfl, ha, hs, h⟩

/-- The hypotheses of `C21_aspect_ratio_partial` are met by `[0, 2] × [0, 1]` with ratio 1. -/
example : ∃ W H, (⟨zero, zero, two, one⟩ : RectF).containingRectWithAspectRatio one =
    fromCenterAndDimensions (⟨zero, zero, two, one⟩ : RectF).center W H ∧
      ((H = (⟨zero, zero, two, one⟩ : RectF).height ∧ W = mul H one ∧ le (⟨zero, zero, two, one⟩ : RectF).width W = true) ∨
       (W = (⟨zero, zero, two, one⟩ : RectF).width ∧ H = div W one ∧
         le (⟨zero, zero, two, one⟩ : RectF).height H = true)) := by
  have hwd : (⟨zero, zero, two, one⟩ : RectF).width = two := by decide +kernel
  have hht : (⟨zero, zero, two, one⟩ : RectF).height = one := by decide +kernel
  have hq : (⟨zero, zero, two, one⟩ : RectF).aspectRatio = some two := by decide +kernel
  refine (C21_aspect_ratio_partial _ one (by rw [hwd]; rfl) (by rw [hht]; rfl) rfl ?_ ?_ ?_).1
  · rw [hht, toRat_one]; norm_num
  · rw [toRat_one]; norm_num
  · intro q h
    rw [hq] at h
    obtain rfl := Option.some.inj h
    left; rw [toRat_two, toRat_one]; norm_num

end Verif
