import Verif.Lemmas.ShaderCache
import Mathlib.Tactic.NormNum
import Mathlib.Tactic.Linarith

/-!
# C62: textured paints look as documented, whatever was drawn before
-/

set_option autoImplicit false

namespace Verif.Textures

open Geo Spec

variable {U E W : Type} [DecidableEq U]

/-- **C62.** However many paints were asked for before, and whatever the store returns each time: a paint fails with the
first error of its textures, or it has the shader of its layers. The store is asked exactly for textures of which it has not
yet returned a valid bitmap; each texture is the first valid bitmap that it returned. Each texel of a layer is where its size, offset
and origin say, and the colours are combined by the blend modes as documented. -/
theorem C62_paints (env : Option (Env U E W)) (w : W) (qs : List (Request U)) :
    (serve env qs (newCache w) = none ∧ serveAll env qs ⟨fun _ => none, w⟩ = none) ∨
    ∃ rs ts c k, serve env qs (newCache w) = some (rs, c) ∧ serveAll env qs ⟨fun _ => none, w⟩ = some (ts, k) ∧
      c.world = k.world ∧ ts.length = qs.length ∧
      List.Forall₂ (fun r (x : Request U × Except (Err E) (List Bitmap)) => ResultOk r x.1 x.2) rs (qs.zip ts) := by
  rcases serve_ok qs (inv_new env w) with h | ⟨rs, ts, c, k, h1, h2, h3, h4, h5⟩
  · exact Or.inl h
  · exact Or.inr ⟨rs, ts, c, k, h1, h2, h3.world, h5, h4⟩

/-! ## What is known stays, and the store is not asked for it again -/

theorem obtain_stable {env : Option (Env U E W)} {k k' : Known U W} {u u' : U} {r : Except (Err E) Bitmap} {b : Bitmap}
    (h : obtain_ env k u = some (r, k')) (hb : k.bitmaps u' = some b) : k'.bitmaps u' = some b := by
  unfold obtain_ at h
  cases env with
  | none => obtain ⟨rfl, rfl⟩ := Prod.mk.inj (Option.some.inj h); exact hb
  | some env =>
    simp only at h
    cases hk : k.bitmaps u with
    | some x => rw [hk] at h; obtain ⟨rfl, rfl⟩ := Prod.mk.inj (Option.some.inj h); exact hb
    | none =>
      rw [hk] at h
      simp only at h
      have hne : u' ≠ u := by rintro rfl; rw [hk] at hb; cases hb
      rcases hg : env.getBitmap k.world u with ⟨r', w⟩
      rw [hg] at h
      cases r' with
      | error e => obtain ⟨rfl, rfl⟩ := Prod.mk.inj (Option.some.inj h); exact hb
      | ok x =>
        simp only at h
        cases hv : validateBitmap x with
        | none => rw [hv] at h; cases h
        | some st =>
          rw [hv] at h
          cases st with
          | error e => obtain ⟨rfl, rfl⟩ := Prod.mk.inj (Option.some.inj h); exact hb
          | ok y =>
            simp only at h
            by_cases hc : x.colorFormat ≤ 2 ∧ x.colorSpace ≤ 1 ∧ x.pixels.length = env.minByteSize x.width x.height
            · rw [if_pos hc] at h
              by_cases ha : env.tryAlloc x.width x.height = true
              · rw [if_pos ha] at h
                obtain ⟨rfl, rfl⟩ := Prod.mk.inj (Option.some.inj h)
                simp only [Function.update_of_ne hne]; exact hb
              · rw [if_neg ha] at h
                obtain ⟨rfl, rfl⟩ := Prod.mk.inj (Option.some.inj h); exact hb
            · rw [if_neg hc] at h; cases h

theorem obtainAll_stable {env : Option (Env U E W)} (ls : List (Layer U)) {k k' : Known U W} {u : U}
    {r : Except (Err E) (List Bitmap)} {b : Bitmap} (h : obtainAll env ls k = some (r, k')) (hb : k.bitmaps u = some b) :
    k'.bitmaps u = some b := by
  induction ls generalizing k r with
  | nil => obtain ⟨rfl, rfl⟩ := Prod.mk.inj (Option.some.inj h); exact hb
  | cons l ls ih =>
    simp only [obtainAll] at h
    obtain ⟨⟨r1, k1⟩, h1, h2⟩ := Option.bind_eq_some_iff.1 h
    have hb1 := obtain_stable h1 hb
    cases r1 with
    | error e => obtain ⟨rfl, rfl⟩ := Prod.mk.inj (Option.some.inj h2); exact hb1
    | ok x =>
      simp only [Option.map_eq_some_iff] at h2
      obtain ⟨⟨r2, k2⟩, h3, h4⟩ := h2
      cases r2 with
      | error e => obtain ⟨rfl, rfl⟩ := Prod.mk.inj h4; exact ih h3 hb1
      | ok y => obtain ⟨rfl, rfl⟩ := Prod.mk.inj h4; exact ih h3 hb1

/-- **C62.** A texture never changes: if a bitmap was used for it, this one is used in all later paints. -/
theorem C62_stable {env : Option (Env U E W)} (qs : List (Request U)) {k k' : Known U W} {u : U}
    {r : List (Except (Err E) (List Bitmap))} {b : Bitmap} (h : serveAll env qs k = some (r, k')) (hb : k.bitmaps u = some b) :
    k'.bitmaps u = some b := by
  induction qs generalizing k r with
  | nil => obtain ⟨rfl, rfl⟩ := Prod.mk.inj (Option.some.inj h); exact hb
  | cons q qs ih =>
    simp only [serveAll] at h
    obtain ⟨⟨r1, k1⟩, h1, h2⟩ := Option.bind_eq_some_iff.1 h
    simp only [Option.map_eq_some_iff] at h2
    obtain ⟨⟨r2, k2⟩, h3, h4⟩ := h2
    obtain ⟨rfl, rfl⟩ := Prod.mk.inj h4
    exact ih h3 (obtainAll_stable q.layers h1 hb)

/-! ## Bitmaps -/

/-- **C62.** A bitmap is accepted exactly if its width and height are positive, its pixel format is valid and its data has the right
size; the product does not wrap around. -/
theorem C62_bitmap (b : Bitmap) (hs : IntSize b) : validateBitmap b ≠ none ∧ (validateBitmap b = some (.ok ()) ↔ ValidBitmap b) :=
  validate_ok b hs

theorem obtain_no_crash (env : Env U E W)
    (hb : ∀ w u b w', env.getBitmap w u = (.ok b, w') → IntSize b ∧ ValidColors b)
    (hm : ∀ w h : Int, 0 < w → 0 < h → (env.minByteSize w h : Int) = 4 * w * h) (k : Known U W) (u : U) :
    obtain_ (some env) k u ≠ none := by
  unfold obtain_
  simp only
  cases k.bitmaps u with
  | some b => simp
  | none =>
    simp only
    rcases hg : env.getBitmap k.world u with ⟨r', w⟩
    cases r' with
    | error e => simp
    | ok x =>
      simp only
      obtain ⟨hx, hc⟩ := hb _ _ _ _ hg
      obtain ⟨h1, h2⟩ := validate_ok x hx
      cases hv : validateBitmap x with
      | none => exact absurd hv h1
      | some st =>
        cases st with
        | error e => simp
        | ok y =>
          obtain ⟨v1, v2, v3, v4⟩ := h2.1 hv
          have := hm x.width x.height v1 v2
          have hall : x.colorFormat ≤ 2 ∧ x.colorSpace ≤ 1 ∧ x.pixels.length = env.minByteSize x.width x.height :=
            ⟨hc.1, hc.2, by omega⟩
          simp only [if_pos hall]
          by_cases ha : env.tryAlloc x.width x.height = true
          · rw [if_pos ha]; simp
          · rw [if_neg ha]; simp

theorem serveAll_no_crash {env : Option (Env U E W)} (ho : ∀ (k : Known U W) (u : U), obtain_ env k u ≠ none)
    (qs : List (Request U)) (k : Known U W) : serveAll env qs k ≠ none := by
  have hl : ∀ (ls : List (Layer U)) (k : Known U W), obtainAll env ls k ≠ none := by
    intro ls
    induction ls with
    | nil => intro k h; cases h
    | cons l ls ih =>
      intro k h
      simp only [obtainAll] at h
      cases hx : obtain_ env k l.uri with
      | none => exact ho k l.uri hx
      | some r =>
        obtain ⟨r, k1⟩ := r
        rw [hx, Option.bind_some] at h
        cases r with
        | error e => cases h
        | ok b =>
          simp only [Option.map_eq_none_iff] at h
          exact ih k1 h
  induction qs generalizing k with
  | nil => intro h; cases h
  | cons q qs ih =>
    intro h
    simp only [serveAll] at h
    cases hx : obtainAll env q.layers k with
    | none => exact hl _ _ hx
    | some r =>
      rw [hx, Option.bind_some] at h
      simp only [Option.map_eq_none_iff] at h
      exact ih _ h

/-- **C62.** If the store returns bitmaps with valid enumerations of colours only, nothing crashes; without a store neither. (Skia
must compute the size of an image as four bytes for each pixel.) -/
theorem C62_no_crash (env : Option (Env U E W))
    (hb : ∀ v, env = some v → ∀ w u b w', v.getBitmap w u = (.ok b, w') → IntSize b ∧ ValidColors b)
    (hm : ∀ v, env = some v → ∀ w h : Int, 0 < w → 0 < h → (v.minByteSize w h : Int) = 4 * w * h) (w : W) (qs : List (Request U)) :
    serve env qs (newCache w) ≠ none := by
  intro hn
  rcases C62_paints env w qs with ⟨_, h⟩ | ⟨rs, ts, c, k, h, _⟩
  · refine serveAll_no_crash ?_ qs _ h
    intro k u
    cases env with
    | none => simp [obtain_]
    | some v => exact obtain_no_crash v (hb v rfl) (hm v rfl) k u
  · rw [h] at hn; cases hn

/-- **C62.** With the first five blend modes, the alpha of the result is a multiple of that of the destination, so that the edges of
a stroke stay smooth; with the others, apart from `kDst`, it is not. -/
theorem C62_alpha (m : Blend) : (∃ f : Premul → ℚ, ∀ s d, (skBlend (toSkBlendMode m) s d).alpha = f s * d.alpha) ↔
    m = .modulate ∨ m = .dstIn ∨ m = .dstOut ∨ m = .srcAtop ∨ m = .srcIn ∨ m = .dst := by
  constructor
  · intro ⟨f, hf⟩
    have h0 := hf ⟨1, 1⟩ ⟨0, 0⟩
    cases m <;> simp [skBlend_doc, docBlend] at h0 ⊢
  · intro h
    rcases h with rfl | rfl | rfl | rfl | rfl | rfl
    · exact ⟨fun s => s.alpha, fun s d => by rw [skBlend_doc]; rfl⟩
    · exact ⟨fun s => s.alpha, fun s d => by rw [skBlend_doc]; rfl⟩
    · exact ⟨fun s => 1 - s.alpha, fun s d => by rw [skBlend_doc]; rfl⟩
    · exact ⟨fun _ => 1, fun s d => by rw [skBlend_doc]; simp [docBlend]⟩
    · exact ⟨fun s => s.alpha, fun s d => by rw [skBlend_doc]; rfl⟩
    · exact ⟨fun _ => 1, fun s d => by rw [skBlend_doc]; simp [docBlend]⟩

/-! ## Not as documented -/

/-- A bitmap of two by one pixels. -/
def bitmap1 (colorFormat : Nat) : Bitmap := ⟨2, 1, 0, colorFormat, 0, [1, 2, 3, 4, 5, 6, 7, 8]⟩

def layer1 : Layer Nat where
  uri := 7
  winding := false
  origin := .firstInput
  sizeUnit := .brushSize
  wrapX := .repeat
  wrapY := .mirror
  size := ⟨3, 2⟩
  offset := ⟨1 / 2, 1 / 4⟩
  rotation := 0
  sizeJitter := ⟨0, 0⟩
  offsetJitter := ⟨0, 0⟩
  rotationJitter := 0
  opacity := 1
  keyframes := []
  blend := .srcOver

/-- A store that fails the first time and then returns other bitmaps each time. -/
def store1 : Env Nat Unit Nat :=
  ⟨fun n _ => if n = 0 then (.error (), 1) else (.ok { bitmap1 0 with pixels := List.replicate 8 n }, n + 1),
    fun w h => 4 * w.toNat * h.toNat, fun _ _ => true⟩

def request1 : Request Nat := ⟨[layer1, { layer1 with uri := 8, blend := .modulate }, { layer1 with origin := .lastInput }], 10, [⟨1, 2⟩, ⟨3, 4⟩]⟩

/-- The hypotheses of `C62_no_crash` hold for this store. Three equal requests: the first fails, the second asks the store for two
textures, the third for none. -/
example : (∀ w u b w', store1.getBitmap w u = (.ok b, w') → IntSize b ∧ ValidColors b) ∧
    (∀ w h : Int, 0 < w → 0 < h → (store1.minByteSize w h : Int) = 4 * w * h) ∧
    ((serveAll (some store1) [request1, request1, request1] ⟨fun _ => none, 0⟩).map fun x =>
      (x.1.map fun r => match r with | .ok l => some (l.map fun b => b.pixels.head?) | .error _ => none, x.2.world)) =
      some ([none, some [some 1, some 2, some 1], some [some 1, some 2, some 1]], 3) := by
  refine ⟨?_, ?_, by decide +kernel⟩
  · intro w u b w' h
    unfold store1 at h
    simp only at h
    by_cases hw : w = 0
    · rw [if_pos hw] at h; cases (Prod.mk.inj h).1
    · rw [if_neg hw] at h
      obtain ⟨h1, _⟩ := Prod.mk.inj h
      obtain rfl := Except.ok.inj h1
      exact ⟨⟨show (2 : Int) < 2 ^ 31 by decide, show (1 : Int) < 2 ^ 31 by decide⟩, show 0 ≤ 2 by decide, show 0 ≤ 1 by decide⟩
  · intro w h hw hh
    have e1 : (w.toNat : Int) = w := by omega
    have e2 : (h.toNat : Int) = h := by omega
    simp only [store1]
    push_cast
    rw [e1, e2]

/-- **C62, not as documented** (bitmap.h:30-37): the enumerations of colours must be valid, but `ValidateBitmap` does not look at
them. The bitmap is accepted, and using it as a texture crashes. -/
theorem C62_format_counterexample : validateBitmap (bitmap1 3) = some (.ok ()) ∧ ¬ValidColors (bitmap1 3) ∧
    serve (some (⟨fun n _ => (.ok (bitmap1 3), n), fun w h => 4 * w.toNat * h.toNat, fun _ _ => true⟩ : Env Nat Unit Nat))
      [request1] (newCache 0) = none := by
  refine ⟨by decide, by unfold ValidColors bitmap1; decide, ?_⟩
  rcases C62_paints (some (⟨fun n _ => (.ok (bitmap1 3), n), fun w h => 4 * w.toNat * h.toNat, fun _ _ => true⟩ :
    Env Nat Unit Nat)) 0 [request1] with ⟨h, _⟩ | ⟨rs, ts, c, k, _, h, _⟩
  · exact h
  · have : serveAll (some (⟨fun n _ => (.ok (bitmap1 3), n), fun w h => 4 * w.toNat * h.toNat, fun _ _ => true⟩ :
      Env Nat Unit Nat)) [request1] ⟨fun _ => none, 0⟩ = none := rfl
    rw [this] at h; cases h

/-- **C62, not as documented** (brush_paint.h:236-251): the rotation, the opacity, the jitters and the keyframes of a layer have no
effect on its shader. -/
theorem C62_rotation_counterexample (env : Option (Env U E W)) (w : W) (l : Layer U) (brushSize : ℚ) (inputs : List (Pt ℚ))
    (rotation rotationJitter opacity : ℚ) (sizeJitter offsetJitter : Pt ℚ) (keyframes : List Keyframe) :
    (getPaintShader env (newCache w) [l] brushSize inputs).map Prod.fst =
      (getPaintShader env (newCache w) [{ l with rotation, rotationJitter, opacity, sizeJitter, offsetJitter, keyframes }]
        brushSize inputs).map Prod.fst := by
  unfold getPaintShader
  rw [if_neg (by simp), if_neg (by simp)]
  unfold paintLoop getLayerShader createBaseShader
  simp only [newCache]
  cases getImage env (⟨fun _ => none, fun _ => none, fun _ => none, w⟩ : Cache U W) l.uri with
  | none => rfl
  | some r =>
    obtain ⟨r, c⟩ := r
    cases r with
    | error e => rfl
    | ok i => rfl

omit [DecidableEq U] in
/-- **C62, not as documented** (brush_paint.h:71-82): a texture size in multiples of the size of the stroke is taken for one in
stroke coordinates. -/
theorem C62_strokeSize_counterexample (l : Layer U) (brushSize : ℚ) (inputs : List (Pt ℚ)) :
    sizeUnitToStroke { l with sizeUnit := .strokeSize } brushSize inputs =
      sizeUnitToStroke { l with sizeUnit := .strokeCoordinates } brushSize inputs := rfl

end Verif.Textures
