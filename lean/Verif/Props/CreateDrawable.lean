import Verif.Lemmas.CreateDrawable
import Verif.Props.Drawable
import Verif.Props.ShaderCache

/-!
# C63: A stroke is drawn as its coats, or fails as documented, whatever was drawn before
-/

set_option autoImplicit false

namespace Verif.Render

open Verif.Textures (Request Bitmap Inv)
open Verif.Textures.Spec (Known serveAll obtainAll IntSize ValidColors)
open Spec

variable {U E W F D SE Q B : Type} [DecidableEq U] [DecidableEq F]

theorem createAll_ok {env : RenderEnv U E W F D SE B} (hT : ∀ ls k, obtainAll env.textures ls k ≠ none)
    (hc : ∀ d, env.compile d ≠ none) (calls : List (Bool × Call U F Q B)) (hok : ∀ x ∈ calls, CallOk x.2) {r : Renderer U W F}
    {k : Known U W} (hi : Inv env.textures r.shaders k) (hs : SpecInv env r) :
    ∃ rs r' k', createAll env calls r = some (rs, r') ∧ Served env calls rs k k' := by
  induction calls generalizing r k with
  | nil => exact ⟨[], r, k, rfl, rfl⟩
  | cons x calls ih =>
    obtain ⟨gpu, c⟩ := x
    have hok' : ∀ x ∈ calls, CallOk x.2 := fun x hx => hok x (List.mem_cons_of_mem _ hx)
    have hcall := hok _ List.mem_cons_self
    simp only [createAll]
    cases gpu with
    | false =>
      have : ∃ res, createCoats env false r c = some (res, r) ∧ CpuOutcome c res := by
        cases c with
        | wet brush ms =>
          cases brush with
          | none => exact ⟨.ok [], rfl, [], rfl, .nil⟩
          | some b =>
            obtain ⟨b, cs⟩ := b
            obtain ⟨h1, h2, h3⟩ := hcall
            obtain ⟨coats, g1, g2⟩ := wetLoop_cpu env b cs ms h1 h2 h3 r
            exact ⟨.ok coats, g1, coats, rfl, g2⟩
        | dry b cs gs =>
          obtain ⟨h1, h2, h3⟩ := hcall
          cases gs with
          | nil => exact ⟨.ok [], rfl, [], rfl, by simp [visible]⟩
          | cons g gs =>
            have hl : cs.length ≤ (g :: gs).length := by
              rcases h1 with h1 | h1
              · cases h1
              · omega
            obtain ⟨coats, g1, g2⟩ := dryLoop_cpu env b cs (g :: gs) hl h2 h3 r
            exact ⟨.ok coats, g1, coats, rfl, g2⟩
      obtain ⟨res, h1, h2⟩ := this
      obtain ⟨rs, r', k', h3, h4⟩ := ih hok' hi hs
      exact ⟨res :: rs, r', k', by rw [h1, Option.bind_some]; simp only; rw [h3]; rfl, h2, h4⟩
    | true =>
      have : LoopOk env c (visible c) k (createCoats env true r c) := by
        cases c with
        | wet brush ms =>
          cases brush with
          | none => exact ⟨.ok [], r, [], k, rfl, rfl, hi, hs, gpuGen_nil env _⟩
          | some b =>
            obtain ⟨b, cs⟩ := b
            obtain ⟨h1, h2, h3⟩ := hcall
            exact wetLoop_gpu hT hc _ b (fun _ => rfl) cs ms h1 h3 hi hs
        | dry b cs gs =>
          obtain ⟨h1, h2, h3⟩ := hcall
          cases gs with
          | nil =>
            have : visible (.dry b cs [] : Call U F Q B) = [] := by simp [visible]
            rw [this]
            exact ⟨.ok [], r, [], k, rfl, rfl, hi, hs, gpuGen_nil env _⟩
          | cons g gs =>
            have hl : cs.length ≤ (g :: gs).length := by
              rcases h1 with h1 | h1
              · cases h1
              · omega
            exact dryLoop_gpu hT hc _ b (fun _ => rfl) cs (g :: gs) hl h3 hi hs
      obtain ⟨res, r1, asked, k1, h1, h2, h3, h4, h5⟩ := this
      obtain ⟨rs, r', k', h6, h7⟩ := ih hok' h3 h4
      exact ⟨res :: rs, r', k', by rw [h1, Option.bind_some]; simp only; rw [h6]; rfl, asked, k1, h2, h5, h7⟩

theorem obtainAll_no_crash (env : Option (Textures.Env U E W))
    (hb : ∀ v, env = some v → ∀ w u b w', v.getBitmap w u = (.ok b, w') → IntSize b ∧ ValidColors b)
    (hm : ∀ v, env = some v → ∀ w h : Int, 0 < w → 0 < h → (v.minByteSize w h : Int) = 4 * w * h)
    (ls : List (Textures.Layer U)) (k : Known U W) : obtainAll env ls k ≠ none := by
  have ho : ∀ (k : Known U W) (u : U), Textures.Spec.obtain_ env k u ≠ none := by
    intro k u
    cases env with
    | none => simp [Textures.Spec.obtain_]
    | some v => exact Textures.obtain_no_crash v (hb v rfl) (hm v rfl) k u
  intro h
  have := Textures.serveAll_no_crash ho [⟨ls, 0, []⟩] k
  simp only [serveAll, h, Option.bind_none, ne_eq, not_true_eq_false] at this

/-- **C63.** Whatever was drawn before, with or without a context, and whatever the texture store does: creating a drawable does not
crash, and its result is as `Served` says. Without a context, the coats that have something to draw are drawn, in order, as the
polygons of their outlines. With a context they are drawn as their meshes, with the vertices and indices as they are, with the
texture mapping of the first layer, and with a shader and a blend mode that give the colours that C62 describes; or the result is an
error, for the reason of the first coat that cannot be drawn. What was drawn before matters only for what bitmaps of textures are
known. -/
theorem C63_create (env : RenderEnv U E W F D SE B)
    (hb : ∀ v, env.textures = some v → ∀ w u b w', v.getBitmap w u = (.ok b, w') → IntSize b ∧ ValidColors b)
    (hm : ∀ v, env.textures = some v → ∀ w h : Int, 0 < w → 0 < h → (v.minByteSize w h : Int) = 4 * w * h)
    (hc : ∀ d, env.compile d ≠ none) (calls : List (Bool × Call U F Q B)) (hok : ∀ x ∈ calls, CallOk x.2) (w : W) :
    ∃ rs r' k', createAll env calls (newRenderer w) = some (rs, r') ∧ Served env calls rs ⟨fun _ => none, w⟩ k' :=
  createAll_ok (obtainAll_no_crash env.textures hb hm) hc calls hok (Textures.inv_new env.textures w)
    ⟨fun _ h => by simp [newRenderer] at h, fun _ _ h => by simp [newRenderer] at h⟩

/-- **C63.** A stroke that was not started, or is empty, gives an empty drawable. -/
theorem C63_empty (env : RenderEnv U E W F D SE B) (gpu : Bool) (r : Renderer U W F) (brush : BrushInfo) (coats : List (BrushCoat U))
    (ms : List (WetCoat Q B)) :
    createCoats env gpu r (.wet none ms : Call U F Q B) = some (.ok [], r) ∧
      createCoats env gpu r (.dry brush coats [] : Call U F Q B) = some (.ok [], r) := ⟨rfl, rfl⟩

omit [DecidableEq U] [DecidableEq F] in
/-- **C63.** The coats are such as C61 requires, so that drawing them shows the transform and the colour that were set; if the
specifications are, and the parameters of meshes are those of different attributes. -/
theorem C63_coats (env : RenderEnv U E W F D SE B) (hs : ∀ d s, env.compile d = some s → SpecOk s ∧ (env.memory s).length = s.size)
    (call : Call U F Q B)
    (hu : ∀ b cs gs, call = .dry b cs gs → ∀ g ∈ gs, ∀ m ∈ g.meshes, (m.unpacking.map Prod.fst).Nodup ∧
      ∀ x ∈ m.unpacking, x.2.length = 16 ∧ (x.1 = .position ∨ x.1 = .sideDerivative ∨ x.1 = .forwardDerivative))
    (asked : List (Except (Textures.Err E) (List Bitmap))) (coats : List (Coat (MeshRest B) (List Q)))
    (h : GpuOutcome env call asked (.ok coats) ∨ CpuOutcome call (.ok coats : Result E SE Q B)) (color : Rgba) (t : Transform) :
    OpOk (.create coats color t) := by
  intro x hx
  rcases h with (⟨coats', he, _, h⟩ | ⟨_, _, _, _, he, _⟩) | ⟨coats', he, h⟩
  · obtain rfl := Except.ok.inj he
    obtain ⟨v, hv, rest, u, m, rfl, h1, h2, h3, h4, h5, h6, h7⟩ := forall₂_mem_left h hx
    have hspec : ∃ d, env.compile d = some rest.spec := by
      cases hg : v.1.2 with
      | wet w => rw [hg] at h1; exact ⟨_, h1⟩
      | dry g => rw [hg] at h1; obtain ⟨d, _, h1⟩ := h1; exact ⟨d, h1⟩
    obtain ⟨d, hd⟩ := hspec
    obtain ⟨hs1, hs2⟩ := hs d _ hd
    refine ⟨hs1, hs2, ?_⟩
    cases hg : v.1.2 with
    | wet w =>
      rw [hg] at h6
      obtain rfl := h6
      exact ⟨List.nodup_nil, fun x hx => by cases hx⟩
    | dry g =>
      rw [hg] at h6
      obtain ⟨mesh, hm1, rfl⟩ := h6
      have hvis : v.1 ∈ visible call := (List.of_mem_zip (show (v.1, v.2) ∈ _ from hv)).1
      cases call with
      | wet brush ms =>
        cases brush with
        | none => cases hvis
        | some b =>
          obtain ⟨b, cs⟩ := b
          have := (List.mem_filter.1 hvis).1
          have := (List.of_mem_zip (show (v.1.1, v.1.2) ∈ _ from this)).2
          rw [hg] at this
          obtain ⟨_, _, h⟩ := List.mem_map.1 this
          cases h
      | dry b cs gs =>
        have := (List.mem_filter.1 hvis).1
        have := (List.of_mem_zip (show (v.1.1, v.1.2) ∈ _ from this)).2
        rw [hg] at this
        obtain ⟨g', hg', h⟩ := List.mem_map.1 this
        cases h
        exact hu b cs gs rfl g hg' mesh (List.mem_of_mem_head? (by simpa using hm1))
  · cases he
  · obtain rfl := Except.ok.inj he
    obtain ⟨v, _, paths, o, rfl, _⟩ := forall₂_mem_left h hx
    trivial

/-! ## Not as documented -/

/-- The same coats without texture layers. -/
def untextured : Call U F Q B → Call U F Q B
  | .wet none ms => .wet none ms
  | .wet (some (b, cs)) ms => .wet (some (b, cs.map fun c => { c with layers := [] })) ms
  | .dry b cs gs => .dry b (cs.map fun c => { c with layers := [] }) gs

/-- **C63, not as documented** (skia_renderer.h:76-84): without a context, textures are ignored, also those that do not exist. The
list of differences and limitations does not mention it. -/
theorem C63_cpu_textures_counterexample (env : RenderEnv U E W F D SE B) (r : Renderer U W F) (call : Call U F Q B) :
    createCoats env false r call = createCoats env false r (untextured call) := by
  cases call with
  | wet brush ms =>
    cases brush with
    | none => rfl
    | some b =>
      obtain ⟨b, cs⟩ := b
      simp only [createCoats, untextured]
      induction cs generalizing ms with
      | nil => rfl
      | cons c cs ih =>
        cases ms with
        | nil => rfl
        | cons m ms =>
          simp only [List.map_cons, wetLoop]
          rw [ih]
          cases m.bounds <;> rfl
  | dry b cs gs =>
    simp only [createCoats, untextured]
    congr 1
    induction cs generalizing gs with
    | nil => rfl
    | cons c cs ih =>
      cases gs with
      | nil => rfl
      | cons g gs =>
        simp only [List.map_cons, dryLoop]
        rw [ih]
        cases g.meshes <;> rfl

/-! ## A case -/

/-- Skia and the specifications: formats below 2 are supported. -/
def env1 : RenderEnv Nat Unit Nat Nat Nat String (Nat × Nat) where
  textures := some Textures.store1
  specData f := if f < 2 then .ok f else .error "unsupported"
  wetSpecData := 5
  compile _ := some ⟨[⟨.brushColor, .float4, 0⟩, ⟨.textureMapping, .int, 16⟩], 20⟩
  makeIndexed _ p := p.indexCount ≠ 0
  memory s := List.replicate s.size 0

def brush1 : BrushInfo := ⟨⟨.zero, .zero, .zero, .zero⟩, 10, [⟨1, 2⟩, ⟨3, 4⟩]⟩

def coat1 (layers : List (Textures.Layer Nat)) : BrushCoat Nat := ⟨[.zero], layers⟩

def mesh1 : DryMesh Nat (Nat × Nat) := ⟨[1, 2, 3], [0, 0, 1, 0, 2, 0], 1, [11, 12, 13], some (1, 3), []⟩

def call1 (format : Nat) : Call Nat Nat Nat (Nat × Nat) :=
  .dry brush1 [coat1 [], coat1 [], coat1 [Textures.layer1]]
    [⟨0, [mesh1], [[(0, 0), (0, 1), (0, 2)], []]⟩, ⟨1, [], []⟩, ⟨format, [mesh1, mesh1], [[(1, 2), (0, 1)]]⟩]

def call2 (n : Nat) : Call Nat Nat Nat (Nat × Nat) :=
  .wet (some (brush1, [coat1 [Textures.layer1]])) [⟨[7, 8], List.replicate n 20, [[2, 0, 1]], [[0, 2, 1]], some (2, 4)⟩]

/-- Calls that meet the hypotheses of `C63_create`. The first fails because the store does, the second gives two coats for three of
which one is empty, the third has an unsupported format, the fourth is a stroke in progress; then too many vertices, and two without
a context. -/
example : (∀ x ∈ [(true, call1 1), (true, call1 1), (true, call1 2), (true, call2 3), (true, call2 65535), (false, call1 2),
      (false, call2 65535)], CallOk x.2) ∧ (∀ d, env1.compile d ≠ none) ∧
    ((createAll env1 [(true, call1 1), (true, call1 1), (true, call1 2), (true, call2 3), (false, call1 2)]
      (newRenderer 0)).map fun x => x.1.map fun r =>
        match r with
        | .error (.texture _) => ("texture", [])
        | .error (.spec e) => (e, [])
        | .error .tooManyVertices => ("vertices", [])
        | .error .skia => ("skia", [])
        | .ok l => ("ok", l.map fun c => match c with
          | .path ps _ => ps
          | .mesh rest _ _ _ _ => rest.partitions.map fun p => p.indexBuffer)) =
      some [("texture", []), ("ok", [[[0, 0, 1, 0, 2, 0]], [[0, 0, 1, 0, 2, 0], [0, 0, 1, 0, 2, 0]]]), ("unsupported", []),
        ("ok", [[[2, 0, 0, 0, 1, 0]]]), ("ok", [[[11, 12, 13]], [[13, 12]]])] := by
  have h1 : ∀ f, CallOk (call1 f) := by
    intro f
    refine ⟨Or.inr rfl, by simp [coat1], ?_⟩
    intro g hg
    simp only [List.mem_cons, List.not_mem_nil, or_false] at hg
    rcases hg with rfl | rfl | rfl
    · refine ⟨by simp [mesh1], ?_⟩
      rintro o ho ⟨a, b⟩ hi
      simp only [List.mem_cons, List.not_mem_nil, or_false] at ho
      rcases ho with rfl | rfl
      · simp only [List.mem_cons, Prod.mk.injEq, List.not_mem_nil, or_false] at hi
        rcases hi with ⟨rfl, rfl⟩ | ⟨rfl, rfl⟩ | ⟨rfl, rfl⟩ <;> exact ⟨mesh1, rfl, by decide⟩
      · cases hi
    · exact ⟨by simp, by simp⟩
    · refine ⟨by simp [mesh1], ?_⟩
      rintro o ho ⟨a, b⟩ hi
      simp only [List.mem_cons, List.not_mem_nil, or_false] at ho
      subst ho
      simp only [List.mem_cons, Prod.mk.injEq, List.not_mem_nil, or_false] at hi
      rcases hi with ⟨rfl, rfl⟩ | ⟨rfl, rfl⟩ <;> exact ⟨mesh1, rfl, by decide⟩
  have h2 : ∀ n, 3 ≤ n → CallOk (call2 n) := by
    intro n hn
    refine ⟨by simp, by simp [coat1], ?_⟩
    intro m hm
    simp only [List.mem_cons, List.not_mem_nil, or_false] at hm
    subst hm
    refine ⟨?_, ?_⟩ <;> simp <;> omega
  refine ⟨?_, fun d => by simp [env1], by decide +kernel⟩
  intro x hx
  simp only [List.mem_cons, List.not_mem_nil, or_false] at hx
  rcases hx with rfl | rfl | rfl | rfl | rfl | rfl | rfl
  · exact h1 1
  · exact h1 1
  · exact h1 2
  · exact h2 3 (by omega)
  · exact h2 65535 (by omega)
  · exact h1 2
  · exact h2 65535 (by omega)

def call3 (n : Nat) : Call Nat Nat Nat (Nat × Nat) :=
  .wet (some (brush1, [coat1 []])) [⟨[7, 8], List.replicate n 20, [[2, 0, 1]], [[0, 2, 1]], some (2, 4)⟩]

theorem call3_ok (n : Nat) (hn : 65535 ≤ n) : CallOk (call3 n) ∧
    ∃ r, createCoats env1 true (newRenderer 0) (call3 n) = some (.error .tooManyVertices, r) := by
  refine ⟨⟨by simp, by simp [coat1], ?_⟩, ?_⟩
  · intro m hm
    simp only [List.mem_cons, List.not_mem_nil, or_false] at hm
    subst hm
    refine ⟨?_, ?_⟩ <;> simp <;> omega
  · have hlen : (List.replicate n 20).length ≥ 65535 := by rw [List.length_replicate]; exact hn
    simp only [createCoats, call3, wetLoop]
    refine ⟨{ (newRenderer 0 : Renderer Nat Nat Nat) with wetSpec := env1.compile 5 }, ?_⟩
    simp only [Bool.not_true, Bool.false_eq_true, if_false, coat1, Textures.getPaintShader, if_true, Option.bind_some, newRenderer,
      getWetSpec, env1, Option.map_some]
    rw [if_pos hlen]

/-- **C63, not as documented** (the message of skia_renderer.cc:155-157): "strokes requiring at least 2^16 indices are not supported",
but one with 65535 vertices, whose indices are less than that, is refused. -/
theorem C63_limit_counterexample : CallOk (call3 65535) ∧
    (∃ r, createCoats env1 true (newRenderer 0) (call3 65535) = some (.error .tooManyVertices, r)) ∧
    ∀ t ∈ [[2, 0, 1]], ∀ i ∈ t, i < 65535 :=
  ⟨(call3_ok 65535 le_rfl).1, (call3_ok 65535 le_rfl).2, by decide⟩

end Verif.Render
