import Verif.Spec.ShaderCache
import Mathlib.Tactic.Ring

/-!
# Lemmas for C62
-/

set_option autoImplicit false

namespace Verif.Textures

open Geo Spec

variable {U E W : Type} [DecidableEq U]

theorem skBlend_doc (m : Blend) (s d : Premul) : skBlend (toSkBlendMode m) s d = docBlend m s d := by
  cases m <;> simp only [toSkBlendMode, skBlend, docBlend, Premul.mk.injEq] <;> constructor <;> ring

/-! ## Bitmaps -/

theorem validate_ok (b : Bitmap) (hs : IntSize b) : validateBitmap b ≠ none ∧ (validateBitmap b = some (.ok ()) ↔ ValidBitmap b) := by
  unfold validateBitmap ValidBitmap
  by_cases hw : b.width ≤ 0
  · rw [if_pos hw]; refine ⟨by simp, ⟨fun h => by simp at h, fun h => by omega⟩⟩
  rw [if_neg hw]
  by_cases hh : b.height ≤ 0
  · rw [if_pos hh]; refine ⟨by simp, ⟨fun h => by simp at h, fun h => by omega⟩⟩
  rw [if_neg hh]
  by_cases hp : b.pixelFormat = 0
  · rw [if_neg (by simp [isValidPixelFormat, hp])]
    simp only [bytesPerPixel, if_pos hp, Option.map_some]
    obtain ⟨h1, h2⟩ := hs
    have ew : (b.width.toNat : Int) = b.width := by omega
    have eh : (b.height.toNat : Int) = b.height := by omega
    have hb : b.width.toNat * b.height.toNat ≤ (2 ^ 31 - 1) * (2 ^ 31 - 1) := Nat.mul_le_mul (by omega) (by omega)
    have hprod : ((b.width.toNat * b.height.toNat : Nat) : Int) = b.width * b.height := by
      rw [Nat.cast_mul, ew, eh]
    have hm : 4 * b.width * b.height = ((b.width.toNat * b.height.toNat : Nat) : Int) * 4 := by rw [hprod]; ring
    rw [hm]
    generalize b.width.toNat * b.height.toNat = n at *
    have e1 : n % 2 ^ 64 * 4 % 2 ^ 64 = n * 4 := by omega
    rw [e1]
    by_cases hl : b.pixels.length ≠ n * 4
    · rw [if_pos hl]
      refine ⟨by simp, ⟨fun h => by simp at h, fun h => absurd h.2.2.2 (by omega)⟩⟩
    · rw [if_neg hl]
      refine ⟨by simp, ⟨fun _ => ⟨by omega, by omega, hp, by omega⟩, fun _ => rfl⟩⟩
  · rw [if_pos (by simp [isValidPixelFormat, hp])]
    exact ⟨by simp, ⟨fun h => by simp at h, fun h => absurd h.2.2.1 hp⟩⟩

/-! ## The caches -/

/-- What is cached is what is known. -/
structure Inv (env : Option (Env U E W)) (c : Cache U W) (k : Known U W) : Prop where
  world : c.world = k.world
  spaces : ∀ s f x, c.colorSpaces (s, f) = some x → createColorSpace s f = some x
  images : ∀ u, (c.images u = none ∧ k.bitmaps u = none) ∨ ∃ i b, c.images u = some i ∧ k.bitmaps u = some b ∧ Shows i b
  shaders : ∀ l s, c.shaders l = some s → ∃ i b, k.bitmaps l.uri = some b ∧ Shows i b ∧
    s = .image i (toSkTileMode l.wrapX) (toSkTileMode l.wrapY) (texelToSizeUnit l i.width i.height)
  noStore : env = none → ∀ u, k.bitmaps u = none

omit [DecidableEq U] in
theorem getColorSpace_ok {env : Option (Env U E W)} {c : Cache U W} {k : Known U W} (h : Inv env c k) (s f : Nat) :
    (getColorSpace c s f = none ∧ createColorSpace s f = none) ∨
    ∃ x c', getColorSpace c s f = some (x, c') ∧ createColorSpace s f = some x ∧ Inv env c' k := by
  unfold getColorSpace
  cases hc : c.colorSpaces (s, f) with
  | some x => exact Or.inr ⟨x, c, rfl, h.spaces s f x hc, h⟩
  | none =>
    cases hx : createColorSpace s f with
    | none => left; simp
    | some x =>
      refine Or.inr ⟨x, _, rfl, rfl, h.world, ?_, h.images, h.shaders, h.noStore⟩
      intro s' f' y hy
      by_cases he : (s', f') = (s, f)
      · obtain ⟨rfl, rfl⟩ := Prod.mk.inj he
        simp only [Function.update_self, Option.some.injEq] at hy
        rw [hx, hy]
      · simp only [Function.update_of_ne he] at hy
        exact h.spaces s' f' y hy

theorem getAlphaType_some {n : Nat} (h : n ≤ 2) : ∃ a, getAlphaType n = some a ∧ (a = .premul ↔ n = 2) := by
  rcases n with _ | _ | _ | n
  · exact ⟨_, rfl, by simp⟩
  · exact ⟨_, rfl, by simp⟩
  · exact ⟨_, rfl, by simp⟩
  · omega

theorem getAlphaType_none {n : Nat} (h : ¬n ≤ 2) : getAlphaType n = none := by
  rcases n with _ | _ | _ | n
  · omega
  · omega
  · omega
  · rfl

theorem createColorSpace_some {s f : Nat} (h : s ≤ 1) : ∃ x, createColorSpace s f = some x ∧ (x.linear = false ↔ f = 1) ∧
    (x.displayP3 = true ↔ s = 1) := by
  rcases s with _ | _ | s
  · exact ⟨_, rfl, by simp, by simp⟩
  · exact ⟨_, rfl, by simp, by simp⟩
  · omega

theorem createColorSpace_none {s f : Nat} (h : ¬s ≤ 1) : createColorSpace s f = none := by
  rcases s with _ | _ | s
  · omega
  · omega
  · rfl

theorem getImage_ok {env : Option (Env U E W)} {c : Cache U W} {k : Known U W} (h : Inv env c k) (u : U) :
    (getImage env c u = none ∧ obtain_ env k u = none) ∨
    (∃ e c' k', getImage env c u = some (.error e, c') ∧ obtain_ env k u = some (.error e, k') ∧ Inv env c' k') ∨
    ∃ i b c' k', getImage env c u = some (.ok i, c') ∧ obtain_ env k u = some (.ok b, k') ∧ Inv env c' k' ∧ Shows i b ∧
      k'.bitmaps u = some b := by
  cases env with
  | none => exact Or.inr (Or.inl ⟨_, c, k, rfl, rfl, h⟩)
  | some env =>
    unfold getImage obtain_
    simp only
    rcases h.images u with ⟨h1, h2⟩ | ⟨i, b, h1, h2, h3⟩
    · rw [h1, h2]
      simp only
      rw [h.world]
      rcases hg : env.getBitmap k.world u with ⟨r, w⟩
      have hw : Inv (some env) { c with world := w } { k with world := w } :=
        ⟨rfl, h.spaces, h.images, h.shaders, h.noStore⟩
      cases r with
      | error e => exact Or.inr (Or.inl ⟨_, _, _, rfl, rfl, hw⟩)
      | ok b =>
        simp only
        unfold createImage
        cases hv : validateBitmap b with
        | none => exact Or.inl ⟨rfl, rfl⟩
        | some st =>
          cases st with
          | error e => exact Or.inr (Or.inl ⟨_, _, _, rfl, rfl, hw⟩)
          | ok x =>
            simp only [Option.bind_some]
            by_cases hf : b.colorFormat ≤ 2
            · obtain ⟨a, ha, ha'⟩ := getAlphaType_some hf
              rw [ha, Option.bind_some]
              by_cases hsp : b.colorSpace ≤ 1
              · obtain ⟨x, hx, hx1, hx2⟩ := createColorSpace_some (f := b.colorFormat) hsp
                rcases getColorSpace_ok hw b.colorSpace b.colorFormat with ⟨_, hn⟩ | ⟨x', c', hc, hx', hi⟩
                · rw [hx] at hn; cases hn
                · rw [hx] at hx'
                  obtain rfl := Option.some.inj hx'
                  rw [hc, Option.bind_some]
                  simp only
                  by_cases hl : b.pixels.length = env.minByteSize b.width b.height
                  · have hl' : ¬(b.pixels.length ≠ env.minByteSize b.width b.height) := fun h => h hl
                    have hall : b.colorFormat ≤ 2 ∧ b.colorSpace ≤ 1 ∧ b.pixels.length = env.minByteSize b.width b.height :=
                      ⟨hf, hsp, hl⟩
                    rw [if_neg hl', if_pos hall]
                    by_cases hal : env.tryAlloc b.width b.height = true
                    · have hal' : ¬((!env.tryAlloc b.width b.height) = true) := by simp [hal]
                      rw [if_neg hal', if_pos hal]
                      have hsh : Shows ⟨b.width, b.height, a, x, b.pixels⟩ b := ⟨rfl, rfl, rfl, ha', hx1, hx2⟩
                      refine Or.inr (Or.inr ⟨_, _, _, _, rfl, rfl, ?_, hsh, by simp⟩)
                      refine ⟨hi.world, hi.spaces, ?_, ?_, by intro he; cases he⟩
                      · intro u'
                        by_cases hu : u' = u
                        · subst hu
                          right
                          exact ⟨_, b, by simp, by simp, hsh⟩
                        · simp only [Function.update_of_ne hu]
                          exact hi.images u'
                      · intro l s hs
                        obtain ⟨i', b', k1, k2, k3⟩ := hi.shaders l s hs
                        refine ⟨i', b', ?_, k2, k3⟩
                        have : l.uri ≠ u := by
                          intro e
                          rw [e] at k1
                          simp only at k1
                          rw [h2] at k1; cases k1
                        simp only [Function.update_of_ne this]
                        exact k1
                    · have hal' : (!env.tryAlloc b.width b.height) = true := by simpa using hal
                      rw [if_pos hal', if_neg hal]
                      exact Or.inr (Or.inl ⟨_, _, _, rfl, rfl, hi⟩)
                  · have hall : ¬(b.colorFormat ≤ 2 ∧ b.colorSpace ≤ 1 ∧ b.pixels.length = env.minByteSize b.width b.height) :=
                      fun h => hl h.2.2
                    rw [if_pos hl, if_neg hall]
                    exact Or.inl ⟨rfl, rfl⟩
              · rcases getColorSpace_ok hw b.colorSpace b.colorFormat with ⟨hn, _⟩ | ⟨x', c', hc, hx', hi⟩
                · have hall : ¬(b.colorFormat ≤ 2 ∧ b.colorSpace ≤ 1 ∧ b.pixels.length = env.minByteSize b.width b.height) :=
                    fun h => hsp h.2.1
                  rw [hn, if_neg hall]
                  exact Or.inl ⟨rfl, rfl⟩
                · rw [createColorSpace_none hsp] at hx'; cases hx'
            · have hall : ¬(b.colorFormat ≤ 2 ∧ b.colorSpace ≤ 1 ∧ b.pixels.length = env.minByteSize b.width b.height) :=
                fun h => hf h.1
              rw [getAlphaType_none hf, if_neg hall]
              exact Or.inl ⟨rfl, rfl⟩
    · rw [h1, h2]
      exact Or.inr (Or.inr ⟨i, b, c, k, rfl, rfl, h, h3, h2⟩)

/-! ## Places -/

omit [DecidableEq U] in
theorem place_ok (l : Layer U) (brushSize : ℚ) (inputs : List (Pt ℚ)) (w h : Int) (p : Pt ℚ) :
    (sizeUnitToStroke l brushSize inputs).apply ((texelToSizeUnit l w h).apply p) =
      texelPlace l brushSize inputs w h p := by
  have e1 : (texelToSizeUnit l w h).apply p = ⟨l.size.x * (p.x / w + l.offset.x), l.size.y * (p.y / h + l.offset.y)⟩ := by
    unfold texelToSizeUnit Affine.apply Affine.mul Affine.scale Affine.translate
    ext <;> simp only <;> ring
  rw [e1]
  have e2 : ∀ q : Pt ℚ, (sizeUnitToStroke l brushSize inputs).apply q =
      ⟨(originOf l inputs).x + unitOf l brushSize * q.x, (originOf l inputs).y + unitOf l brushSize * q.y⟩ := by
    intro q
    unfold sizeUnitToStroke originOf unitOf
    cases l.sizeUnit <;> cases l.origin <;> (try cases inputs.head?) <;> (try cases inputs.getLast?) <;>
      simp [Affine.apply, Affine.mul, Affine.scale, Affine.translate, Affine.identity] <;> first | done | (constructor <;> ring)
  rw [e2]
  unfold texelPlace
  ext <;> simp only <;> ring

theorem tile_ok (w : Wrap) (n k : Int) (hn : 0 < n) : ∃ t, skTile (toSkTileMode w) n k = some t ∧ Wrapped w n k t := by
  cases w with
  | «repeat» =>
    refine ⟨_, rfl, Int.emod_nonneg _ hn.ne', Int.emod_lt_of_pos _ hn, ?_⟩
    show n ∣ k - k % n
    exact Int.dvd_self_sub_emod
  | mirror =>
    have h0 := Int.emod_nonneg k (b := 2 * n) (by omega)
    have h1 := Int.emod_lt_of_pos k (b := 2 * n) (by omega)
    have hd : 2 * n ∣ k - k % (2 * n) := Int.dvd_self_sub_emod
    refine ⟨_, rfl, ?_⟩
    generalize k % (2 * n) = r at *
    by_cases h : r < n
    · rw [if_pos h]
      exact ⟨h0, h, Or.inl hd⟩
    · rw [if_neg h]
      refine ⟨by omega, by omega, Or.inr ?_⟩
      rw [show k + (2 * n - 1 - r) + 1 = (k - r) + 2 * n by ring]
      exact Int.dvd_add hd (Int.dvd_refl _)
  | clamp =>
    refine ⟨_, rfl, ?_⟩
    by_cases h : k < 0
    · rw [if_pos h]
      refine ⟨le_refl _, hn, ?_⟩
      intro t h1 h2
      rw [abs_of_neg (by omega), abs_of_neg (by omega)]; omega
    · rw [if_neg h]
      by_cases h' : n ≤ k
      · rw [if_pos h']
        refine ⟨by omega, by omega, ?_⟩
        intro t h1 h2
        rw [abs_of_nonneg (by omega), abs_of_nonneg (by omega)]; omega
      · rw [if_neg h']
        refine ⟨by omega, by omega, ?_⟩
        intro t h1 h2
        rw [sub_self, abs_zero]; exact abs_nonneg _

omit [DecidableEq U] in
theorem layerShader_ok (l : Layer U) (i : Image) (b : Bitmap) (hs : Shows i b) (brushSize : ℚ) (inputs : List (Pt ℚ)) :
    LayerShader (.withLocalMatrix (sizeUnitToStroke l brushSize inputs)
      (.image i (toSkTileMode l.wrapX) (toSkTileMode l.wrapY) (texelToSizeUnit l i.width i.height))) l b brushSize inputs := by
  refine ⟨i, _, _, _, _, rfl, hs, tile_ok _, tile_ok _, ?_⟩
  intro p
  simp only [place, Option.map_some, Option.some.injEq]
  rw [place_ok, hs.1, hs.2.1]

theorem getLayerShader_ok {env : Option (Env U E W)} {c : Cache U W} {k : Known U W} (h : Inv env c k) (l : Layer U) (brushSize : ℚ)
    (inputs : List (Pt ℚ)) :
    (getLayerShader env c l brushSize inputs = none ∧ obtain_ env k l.uri = none) ∨
    (∃ e c' k', getLayerShader env c l brushSize inputs = some (.error e, c') ∧ obtain_ env k l.uri = some (.error e, k') ∧
      Inv env c' k') ∨
    ∃ s b c' k', getLayerShader env c l brushSize inputs = some (.ok s, c') ∧ obtain_ env k l.uri = some (.ok b, k') ∧
      Inv env c' k' ∧ LayerShader s l b brushSize inputs := by
  unfold getLayerShader
  cases hs : c.shaders l with
  | some s =>
    obtain ⟨i, b, h1, h2, rfl⟩ := h.shaders l s hs
    right; right
    refine ⟨_, b, c, k, rfl, ?_, h, layerShader_ok l i b h2 brushSize inputs⟩
    cases env with
    | none => rw [h.noStore rfl] at h1; cases h1
    | some env => unfold obtain_; simp only; rw [h1]
  | none =>
    simp only
    unfold createBaseShader
    rcases getImage_ok h l.uri with ⟨h1, h2⟩ | ⟨e, c', k', h1, h2, h3⟩ | ⟨i, b, c', k', h1, h2, h3, h4, h5⟩
    · left; rw [h1, h2]; exact ⟨rfl, rfl⟩
    · right; left; rw [h1, h2]; exact ⟨e, c', k', rfl, rfl, h3⟩
    · right; right
      rw [h1, h2]
      refine ⟨_, b, _, k', rfl, rfl, ?_, layerShader_ok l i b h4 brushSize inputs⟩
      refine ⟨h3.world, h3.spaces, h3.images, ?_, h3.noStore⟩
      intro l' s' hs'
      by_cases hl : l' = l
      · subst hl
        simp only [Function.update_self, Option.some.injEq] at hs'
        exact ⟨i, b, h5, h4, hs'.symm⟩
      · simp only [Function.update_of_ne hl] at hs'
        exact h3.shaders l' s' hs'

omit [DecidableEq U] in
theorem colorOf_layer {s : Shader} {l : Layer U} {b : Bitmap} {brushSize : ℚ} {inputs : List (Pt ℚ)}
    (h : LayerShader s l b brushSize inputs) (tex : Shader → Premul) : colorOf tex s = tex s := by
  obtain ⟨i, x, y, m, m', rfl, _⟩ := h
  rfl

omit [DecidableEq U] in
theorem getLast_map (l : Layer U) (ls : List (Layer U)) :
    getPaintBlender (l :: ls) = some (toSkBlendMode ((l :: ls).getLast (by simp)).blend) := by
  unfold getPaintBlender
  rw [List.getLast?_eq_getLast_of_ne_nil (by simp)]; rfl

/-- The rest of the loop, from a combination of layers on. -/
theorem paintLoop_ok {env : Option (Env U E W)} (brushSize : ℚ) (inputs : List (Pt ℚ)) (ls : List (Layer U)) (p : Shader)
    (mode : Blend) {c : Cache U W} {k : Known U W} (h : Inv env c k) :
    (paintLoop env brushSize inputs ls (some (p, toSkBlendMode mode)) c = none ∧ obtainAll env ls k = none) ∨
    (∃ e c' k', paintLoop env brushSize inputs ls (some (p, toSkBlendMode mode)) c = some (.error e, c') ∧
      obtainAll env ls k = some (.error e, k') ∧ Inv env c' k') ∨
    ∃ s bs c' k', paintLoop env brushSize inputs ls (some (p, toSkBlendMode mode)) c = some (.ok (some s), c') ∧
      obtainAll env ls k = some (.ok bs, k') ∧ Inv env c' k' ∧ bs.length = ls.length ∧
      ∃ shaders : List Shader,
        List.Forall₂ (fun x (y : Layer U × Bitmap) => LayerShader x y.1 y.2 brushSize inputs) shaders (ls.zip bs) ∧
        ∀ tex brush, docBlend (ls.getLast?.elim mode fun l => l.blend) (colorOf tex s) brush =
          docCombine (colorOf tex p) mode ((shaders.map tex).zip (ls.map fun l => l.blend)) brush := by
  induction ls generalizing p mode c k with
  | nil =>
    right; right
    exact ⟨p, [], c, k, rfl, rfl, h, rfl, [], .nil, fun _ _ => rfl⟩
  | cons l ls ih =>
    simp only [paintLoop, obtainAll]
    rcases getLayerShader_ok h l brushSize inputs with ⟨h1, h2⟩ | ⟨e, c', k', h1, h2, h3⟩ | ⟨s, b, c', k', h1, h2, h3, h4⟩
    · left; rw [h1, h2]; exact ⟨rfl, rfl⟩
    · right; left; rw [h1, h2]; exact ⟨e, c', k', rfl, rfl, h3⟩
    · rw [h1, h2, Option.bind_some, Option.bind_some]
      simp only
      rcases ih (.blend (toSkBlendMode mode) s p) l.blend h3 with ⟨g1, g2⟩ | ⟨e, c2, k2, g1, g2, g3⟩ |
        ⟨s', bs, c2, k2, g1, g2, g3, g4, shaders, g5, g6⟩
      · left; rw [g1, g2]; exact ⟨rfl, rfl⟩
      · right; left; rw [g1, g2]; exact ⟨e, c2, k2, rfl, rfl, g3⟩
      · right; right
        rw [g1, g2]
        refine ⟨s', b :: bs, c2, k2, rfl, rfl, g3, by simp [g4], s :: shaders, .cons h4 g5, ?_⟩
        intro tex brush
        have := g6 tex brush
        simp only [List.map_cons, List.zip_cons_cons, docCombine]
        rw [show colorOf tex (.blend (toSkBlendMode mode) s p) = docBlend mode (colorOf tex p) (tex s) by
          rw [← skBlend_doc, ← colorOf_layer h4 tex]; rfl] at this
        rw [← this]
        congr 1
        cases ls with
        | nil => rfl
        | cons l' ls =>
          rw [List.getLast?_cons_cons, List.getLast?_eq_getLast_of_ne_nil (by simp)]
          rfl

theorem getPaintShader_ok {env : Option (Env U E W)} (q : Request U) {c : Cache U W} {k : Known U W} (h : Inv env c k) :
    (getPaintShader env c q.layers q.brushSize q.inputs = none ∧ obtainAll env q.layers k = none) ∨
    ∃ r t c' k', getPaintShader env c q.layers q.brushSize q.inputs = some (r, c') ∧ obtainAll env q.layers k = some (t, k') ∧
      Inv env c' k' ∧ ResultOk r q t := by
  unfold getPaintShader
  obtain ⟨layers, brushSize, inputs⟩ := q
  simp only
  cases layers with
  | nil =>
    right
    exact ⟨_, _, c, k, rfl, rfl, h, rfl, rfl⟩
  | cons l ls =>
    rw [if_neg (by simp)]
    simp only [paintLoop, obtainAll]
    rcases getLayerShader_ok h l brushSize inputs with ⟨h1, h2⟩ | ⟨e, c', k', h1, h2, h3⟩ | ⟨s, b, c', k', h1, h2, h3, h4⟩
    · left; rw [h1, h2]; exact ⟨rfl, rfl⟩
    · right; rw [h1, h2]; exact ⟨_, _, c', k', rfl, rfl, h3, rfl⟩
    · rw [h1, h2, Option.bind_some, Option.bind_some]
      simp only
      rcases paintLoop_ok brushSize inputs ls s l.blend h3 with ⟨g1, g2⟩ | ⟨e, c2, k2, g1, g2, g3⟩ |
        ⟨s', bs, c2, k2, g1, g2, g3, g4, shaders, g5, g6⟩
      · left; rw [g1, g2]; exact ⟨rfl, rfl⟩
      · right; rw [g1, g2]; exact ⟨_, _, c2, k2, rfl, rfl, g3, rfl⟩
      · right
        rw [g1, g2]
        refine ⟨_, _, c2, k2, rfl, rfl, g3, s :: shaders, .cons h4 g5, by simp [g4], _, getLast_map l ls, ?_⟩
        intro tex brush
        rw [skBlend_doc]
        simp only [List.map_cons, List.zip_cons_cons, docAll]
        rw [← colorOf_layer h4 tex, ← g6 tex brush]
        congr 1
        cases ls with
        | nil => rfl
        | cons l' ls =>
          rw [List.getLast?_eq_getLast_of_ne_nil (by simp)]
          simp

theorem serve_ok {env : Option (Env U E W)} (qs : List (Request U)) {c : Cache U W} {k : Known U W} (h : Inv env c k) :
    (serve env qs c = none ∧ serveAll env qs k = none) ∨
    ∃ rs ts c' k', serve env qs c = some (rs, c') ∧ serveAll env qs k = some (ts, k') ∧ Inv env c' k' ∧
      List.Forall₂ (fun r (x : Request U × Except (Err E) (List Bitmap)) => ResultOk r x.1 x.2) rs (qs.zip ts) ∧
      ts.length = qs.length := by
  induction qs generalizing c k with
  | nil => exact Or.inr ⟨[], [], c, k, rfl, rfl, h, .nil, rfl⟩
  | cons q qs ih =>
    simp only [serve, serveAll]
    rcases getPaintShader_ok q h with ⟨h1, h2⟩ | ⟨r, t, c1, k1, h1, h2, h3, h4⟩
    · left; rw [h1, h2]; exact ⟨rfl, rfl⟩
    · rw [h1, h2, Option.bind_some, Option.bind_some]
      simp only
      rcases ih h3 with ⟨g1, g2⟩ | ⟨rs, ts, c2, k2, g1, g2, g3, g4, g5⟩
      · left; rw [g1, g2]; exact ⟨rfl, rfl⟩
      · right
        rw [g1, g2]
        exact ⟨r :: rs, t :: ts, c2, k2, rfl, rfl, g3, .cons h4 g4, by simp [g5]⟩

omit [DecidableEq U] in
theorem inv_new (env : Option (Env U E W)) (w : W) : Inv env (newCache w : Cache U W) ⟨fun _ => none, w⟩ :=
  ⟨rfl, fun _ _ _ h => (by simp [newCache] at h), fun _ => Or.inl ⟨rfl, rfl⟩, fun _ _ h => (by simp [newCache] at h),
    fun _ _ => rfl⟩

end Verif.Textures
