import Verif.Spec.CreateDrawable
import Verif.Lemmas.ShaderCache

/-!
# Lemmas about the creation of drawables
-/

set_option autoImplicit false
set_option linter.unusedSectionVars false

namespace Verif.Render

open Verif.Textures (Request Bitmap Inv getPaintShader getPaintBlender getPaintShader_ok)
open Verif.Textures.Spec (Known serveAll obtainAll ResultOk)
open Spec

variable {U E W F D SE Q B : Type} [DecidableEq U] [DecidableEq F]

/-! ## Paths -/

omit [DecidableEq U] [DecidableEq F] in
theorem mapM_some {A C : Type} {f : A → Option C} (l : List A) (h : ∀ a ∈ l, f a ≠ none) :
    ∃ r, l.mapM f = some r ∧ r.map some = l.map f := by
  induction l with
  | nil => exact ⟨[], rfl, rfl⟩
  | cons a l ih =>
    obtain ⟨r, h1, h2⟩ := ih fun x hx => h x (List.mem_cons_of_mem _ hx)
    cases hf : f a with
    | none => exact absurd hf (h a List.mem_cons_self)
    | some c => exact ⟨c :: r, by simp [List.mapM_cons, hf, h1], by simp [h2, hf]⟩

omit [DecidableEq U] [DecidableEq F] in
theorem makePaths_ok {I : Type} [DecidableEq I] {position : I → Option Q} (os : List (List I))
    (h : ∀ o ∈ os, ∀ i ∈ o, position i ≠ none) :
    ∃ ps, makePaths position os = some ps ∧
      ps.map (fun p => p.map some) = (os.filter (· ≠ [])).map fun o => o.map position := by
  unfold makePaths
  have he : (os.filter fun o => !o.isEmpty) = os.filter (· ≠ []) := by
    congr 1; funext o; cases o <;> rfl
  rw [he]
  have hos : ∀ o ∈ os.filter (· ≠ []), ∀ i ∈ o, position i ≠ none := fun o ho => h o (List.mem_filter.1 ho).1
  generalize os.filter (· ≠ []) = l at hos
  induction l with
  | nil => exact ⟨[], rfl, rfl⟩
  | cons o l ih =>
    obtain ⟨ps, h1, h2⟩ := ih fun x hx => hos x (List.mem_cons_of_mem _ hx)
    obtain ⟨p, g1, g2⟩ := mapM_some o (hos o List.mem_cons_self)
    exact ⟨p :: ps, by simp [List.mapM_cons, makePolygonPath, g1, h1], by simp [h2, g2]⟩

/-! ## Indices -/

omit [DecidableEq U] [DecidableEq F] in
theorem words_fill (ts : List (List Nat)) (n : Nat) (hn : n < 65535) (h : ∀ t ∈ ts, ∀ i ∈ t, i < n) :
    words (fillIndices ts) = ts.flatten := by
  have hl : ∀ (t : List Nat) (rest : Bytes), (∀ i ∈ t, i < n) →
      words ((t.flatMap fun i => [i % 2 ^ 16 % 256, i % 2 ^ 16 / 256]) ++ rest) = t ++ words rest := by
    intro t
    induction t with
    | nil => intro rest _; rfl
    | cons i t ih =>
      intro rest ht
      have hi := ht i List.mem_cons_self
      simp only [List.flatMap_cons, List.cons_append, List.nil_append, words]
      rw [ih rest fun j hj => ht j (List.mem_cons_of_mem _ hj)]
      have : i % 2 ^ 16 = i := Nat.mod_eq_of_lt (by omega)
      rw [this]
      congr 1
      omega
  induction ts with
  | nil => rfl
  | cons t ts ih =>
    unfold fillIndices
    rw [List.flatMap_cons, hl t _ (h t List.mem_cons_self), List.flatten_cons]
    congr 1
    exact ih fun x hx => h x (List.mem_cons_of_mem _ hx)

omit [DecidableEq U] [DecidableEq F] in
theorem flatten_three (ts : List (List Nat)) (h : ∀ t ∈ ts, t.length = 3) : ts.flatten.length = 3 * ts.length := by
  induction ts with
  | nil => rfl
  | cons t ts ih =>
    rw [List.flatten_cons, List.length_append, h t List.mem_cons_self, ih fun x hx => h x (List.mem_cons_of_mem _ hx),
      List.length_cons]
    omega

omit [DecidableEq U] in
theorem mapping_ok (layers : List (Textures.Layer U)) : MappingOf (paintMapping layers) layers := by
  cases layers with
  | nil => rfl
  | cons l ls =>
    unfold MappingOf paintMapping
    cases h : l.winding <;> simp [h]

/-! ## Specifications -/

/-- The caches of specifications hold those that are meant. -/
structure SpecInv (env : RenderEnv U E W F D SE B) (r : Renderer U W F) : Prop where
  wet : ∀ s, r.wetSpec = some s → env.compile env.wetSpecData = some s
  dry : ∀ f s, r.specs f = some s → ∃ d, env.specData f = .ok d ∧ env.compile d = some s

omit [DecidableEq U] [DecidableEq F] in
theorem SpecInv.shaders {env : RenderEnv U E W F D SE B} {r : Renderer U W F} (h : SpecInv env r) (c : Textures.Cache U W) :
    SpecInv env { r with shaders := c } := ⟨h.wet, h.dry⟩

omit [DecidableEq U] [DecidableEq F] in
theorem getWetSpec_ok {env : RenderEnv U E W F D SE B} (hc : ∀ d, env.compile d ≠ none) {r : Renderer U W F} (h : SpecInv env r) :
    ∃ s r', getWetSpec env r = some (s, r') ∧ env.compile env.wetSpecData = some s ∧ SpecInv env r' ∧ r'.shaders = r.shaders := by
  unfold getWetSpec
  cases hw : r.wetSpec with
  | some s => exact ⟨s, r, rfl, h.wet s hw, h, rfl⟩
  | none =>
    cases hd : env.compile env.wetSpecData with
    | none => exact absurd hd (hc _)
    | some s =>
      exact ⟨s, { r with wetSpec := some s }, rfl, rfl, ⟨fun s' hs => by rw [hd]; exact hs, h.dry⟩, rfl⟩

omit [DecidableEq U] in
theorem getSpec_ok {env : RenderEnv U E W F D SE B} (hc : ∀ d, env.compile d ≠ none) {r : Renderer U W F} (h : SpecInv env r)
    (f : F) : ∃ x r', getSpec env r f = some (x, r') ∧ SpecInv env r' ∧ r'.shaders = r.shaders ∧
      match x with
      | .error e => env.specData f = .error e
      | .ok s => ∃ d, env.specData f = .ok d ∧ env.compile d = some s := by
  unfold getSpec
  cases hw : r.specs f with
  | some s => exact ⟨.ok s, r, rfl, h, rfl, h.dry f s hw⟩
  | none =>
    simp only
    cases hd : env.specData f with
    | error e => exact ⟨.error e, r, rfl, h, rfl, rfl⟩
    | ok d =>
      cases hs : env.compile d with
      | none => exact absurd hs (hc _)
      | some s =>
        refine ⟨.ok s, { r with specs := Function.update r.specs f (some s) }, by simp [hs], ⟨h.wet, ?_⟩, rfl, d, rfl, hs⟩
        intro f' s' h'
        by_cases hf : f' = f
        · subst hf
          simp only [Function.update_self, Option.some.injEq] at h'
          exact ⟨d, hd, h' ▸ hs⟩
        · simp only [Function.update_of_ne hf] at h'
          exact h.dry f' s' h'

/-! ## Outcomes -/

/-- `GpuOutcome` for a list of coats. -/
def GpuGen (env : RenderEnv U E W F D SE B) (call : Call U F Q B) (vis : List (BrushCoat U × Geometry F Q B))
    (asked : List (Except (Textures.Err E) (List Bitmap))) (r : Result E SE Q B) : Prop :=
  (∃ coats, r = .ok coats ∧ asked.length = vis.length ∧ List.Forall₂ (MeshOf env call) coats (vis.zip asked)) ∨
    ∃ n e v t, r = .error e ∧ asked.length = n + 1 ∧ vis[n]? = some v ∧ asked[n]? = some t ∧ Fails env v t e ∧
      ∃ coats, List.Forall₂ (MeshOf env call) coats ((vis.take n).zip asked)

omit [DecidableEq F] in
theorem gpuGen_nil (env : RenderEnv U E W F D SE B) (call : Call U F Q B) : GpuGen env call [] [] (.ok []) :=
  Or.inl ⟨[], rfl, rfl, .nil⟩

omit [DecidableEq F] in
theorem gpuGen_fail {env : RenderEnv U E W F D SE B} {call : Call U F Q B} {v : BrushCoat U × Geometry F Q B}
    {vis : List (BrushCoat U × Geometry F Q B)} {t : Except (Textures.Err E) (List Bitmap)} {e : CreateErr E SE}
    (h : Fails env v t e) : GpuGen env call (v :: vis) [t] (.error e) :=
  Or.inr ⟨0, e, v, t, rfl, rfl, rfl, rfl, h, [], .nil⟩

/-- What `pushCoat` does to a result. -/
def pushResult (x : Coat (MeshRest B) (List Q)) : Result E SE Q B → Result E SE Q B
  | .error e => .error e
  | .ok l => .ok (x :: l)

omit [DecidableEq U] [DecidableEq F] in
theorem pushCoat_some (x : Coat (MeshRest B) (List Q)) (res : Result E SE Q B) (r : Renderer U W F) :
    pushCoat x (some (res, r)) = some (pushResult x res, r) := by cases res <;> rfl

omit [DecidableEq F] in
theorem gpuGen_cons {env : RenderEnv U E W F D SE B} {call : Call U F Q B} {v : BrushCoat U × Geometry F Q B}
    {vis : List (BrushCoat U × Geometry F Q B)} {t : Except (Textures.Err E) (List Bitmap)} {x : Coat (MeshRest B) (List Q)}
    {asked : List (Except (Textures.Err E) (List Bitmap))} {res : Result E SE Q B}
    (hx : MeshOf env call x (v, t)) (h : GpuGen env call vis asked res) :
    GpuGen env call (v :: vis) (t :: asked) (pushResult x res) := by
  rcases h with ⟨coats, rfl, h1, h2⟩ | ⟨n, e, v', t', rfl, h1, h2, h3, h4, coats, h5⟩
  · exact Or.inl ⟨x :: coats, rfl, by simp [h1], .cons hx h2⟩
  · exact Or.inr ⟨n + 1, e, v', t', rfl, by simp [h1], by simpa using h2, by simpa using h3, h4, x :: coats, .cons hx h5⟩

/-! ## Textures of a coat -/

omit [DecidableEq F] in
theorem shader_ok {env : RenderEnv U E W F D SE B} (hT : ∀ ls k, obtainAll env.textures ls k ≠ none) (q : Request U)
    {c : Textures.Cache U W} {k : Known U W} (h : Inv env.textures c k) :
    ∃ r t c' k', getPaintShader env.textures c q.layers q.brushSize q.inputs = some (r, c') ∧
      obtainAll env.textures q.layers k = some (t, k') ∧ Inv env.textures c' k' ∧ ResultOk r q t := by
  rcases getPaintShader_ok q h with ⟨_, h2⟩ | h
  · exact absurd h2 (hT _ _)
  · exact h

theorem serveAll_cons {env : Option (Textures.Env U E W)} {q : Request U} {qs : List (Request U)} {k k1 k2 : Known U W}
    {t : Except (Textures.Err E) (List Bitmap)} {ts : List (Except (Textures.Err E) (List Bitmap))}
    (h1 : obtainAll env q.layers k = some (t, k1)) (h2 : serveAll env qs k1 = some (ts, k2)) :
    serveAll env (q :: qs) k = some (t :: ts, k2) := by
  simp only [serveAll, h1, Option.bind_some, h2, Option.map_some]

/-- What the loops say. -/
def LoopOk (env : RenderEnv U E W F D SE B) (call : Call U F Q B) (vis : List (BrushCoat U × Geometry F Q B)) (k : Known U W)
    (o : Option (Created U E W F SE Q B)) : Prop :=
  ∃ res r' asked k', o = some (res, r') ∧
    serveAll env.textures ((vis.take asked.length).map fun v => request call v.1) k = some (asked, k') ∧
    Inv env.textures r'.shaders k' ∧ SpecInv env r' ∧ GpuGen env call vis asked res

omit [DecidableEq F] in
theorem loopOk_push {env : RenderEnv U E W F D SE B} {call : Call U F Q B} {v : BrushCoat U × Geometry F Q B}
    {vis : List (BrushCoat U × Geometry F Q B)} {k k1 : Known U W} {t : Except (Textures.Err E) (List Bitmap)}
    {x : Coat (MeshRest B) (List Q)} {o : Option (Created U E W F SE Q B)}
    (h1 : obtainAll env.textures (request call v.1).layers k = some (t, k1)) (hx : MeshOf env call x (v, t))
    (h : LoopOk env call vis k1 o) : LoopOk env call (v :: vis) k (pushCoat x o) := by
  obtain ⟨res, r', asked, k', rfl, h2, h3, h4, h5⟩ := h
  exact ⟨pushResult x res, r', t :: asked, k', pushCoat_some x res r', serveAll_cons h1 h2, h3, h4, gpuGen_cons hx h5⟩

omit [DecidableEq F] in
theorem loopOk_fail {env : RenderEnv U E W F D SE B} {call : Call U F Q B} {v : BrushCoat U × Geometry F Q B}
    {vis : List (BrushCoat U × Geometry F Q B)} {k k1 : Known U W} {t : Except (Textures.Err E) (List Bitmap)} {e : CreateErr E SE}
    {r' : Renderer U W F} (h1 : obtainAll env.textures (request call v.1).layers k = some (t, k1)) (hf : Fails env v t e)
    (hi : Inv env.textures r'.shaders k1) (hs : SpecInv env r') :
    LoopOk env call (v :: vis) k (some (.error e, r')) :=
  ⟨.error e, r', [t], k1, rfl, serveAll_cons h1 rfl, hi, hs, gpuGen_fail hf⟩

theorem resultOk_ok {r : Option Textures.Shader} {q : Request U} {t : Except (Textures.Err E) (List Bitmap)}
    (h : ResultOk (.ok r) q t) : ∃ b, t = .ok b := by
  cases t with
  | ok b => exact ⟨b, rfl⟩
  | error e => cases r <;> exact h.elim

theorem resultOk_error {e : Textures.Err E} {q : Request U} {t : Except (Textures.Err E) (List Bitmap)}
    (h : ResultOk (.error e) q t) : t = .error e := by
  cases t with
  | ok b => exact h.elim
  | error e' => exact congrArg _ (Eq.symm h)

/-! ## The loops -/

theorem wetLoop_gpu {env : RenderEnv U E W F D SE B} (hT : ∀ ls k, obtainAll env.textures ls k ≠ none)
    (hc : ∀ d, env.compile d ≠ none) (call : Call U F Q B) (brush : BrushInfo)
    (hq : ∀ c, request call c = ⟨c.layers, brush.size, brush.inputs⟩) (cs : List (BrushCoat U)) (ms : List (WetCoat Q B))
    (hl : cs.length ≤ ms.length) (hm : ∀ m ∈ ms, WetOk m) {r : Renderer U W F} {k : Known U W}
    (hi : Inv env.textures r.shaders k) (hs : SpecInv env r) :
    LoopOk env call ((cs.zip (ms.map Geometry.wet)).filter fun x => x.2.hasContent) k (wetLoop env true brush cs ms r) := by
  induction cs generalizing ms r k with
  | nil => exact ⟨.ok [], r, [], k, rfl, rfl, hi, hs, gpuGen_nil env call⟩
  | cons c cs ih =>
    cases ms with
    | nil => simp at hl
    | cons m ms =>
      have hl' : cs.length ≤ ms.length := by simpa using hl
      have hm' : ∀ m ∈ ms, WetOk m := fun x hx => hm x (List.mem_cons_of_mem _ hx)
      simp only [List.map_cons, List.zip_cons_cons, wetLoop]
      cases hb : m.bounds with
      | none =>
        rw [List.filter_cons_of_neg (by simp [Geometry.hasContent, hb])]
        exact ih ms hl' hm' hi hs
      | some bounds =>
        rw [List.filter_cons_of_pos (by simp [Geometry.hasContent, hb])]
        simp only [Bool.not_true, Bool.false_eq_true, if_false]
        obtain ⟨x, t, c', k', h1, h2, h3, h4⟩ := shader_ok hT ⟨c.layers, brush.size, brush.inputs⟩ hi
        simp only at h1 h2
        rw [h1, Option.bind_some]
        have hob : obtainAll env.textures (request call c).layers k = some (t, k') := by rw [hq]; exact h2
        simp only
        cases x with
        | error e =>
          have := resultOk_error h4
          subst this
          exact loopOk_fail (v := (c, Geometry.wet m)) hob rfl h3 (hs.shaders c')
        | ok shader =>
          obtain ⟨bs, rfl⟩ := resultOk_ok h4
          obtain ⟨s, r', g1, g2, g3, g4⟩ := getWetSpec_ok hc (hs.shaders c')
          have g4' : Inv env.textures r'.shaders k' := by rw [g4]; exact h3
          simp only
          rw [g1, Option.bind_some]
          simp only
          by_cases hv : m.positions.length ≥ 65535
          · rw [if_pos hv]
            exact loopOk_fail (v := (c, Geometry.wet m)) hob (Or.inl ⟨rfl, hv⟩) g4' g3
          · rw [if_neg hv]
            have hm0 := hm m List.mem_cons_self
            have hp : WetPart (⟨m.vertexData, fillIndices m.triangles, m.positions.length, 3 * m.triangles.length, bounds⟩ :
                Partition B) m :=
              ⟨rfl, words_fill _ _ (by omega) fun t ht => (hm0.2 t ht).2, rfl,
                (flatten_three _ fun t ht => (hm0.2 t ht).1).symm, hb⟩
            unfold createMesh
            cases hmk : env.makeIndexed s ⟨m.vertexData, fillIndices m.triangles, m.positions.length, 3 * m.triangles.length, bounds⟩ with
            | false =>
              rw [if_neg (by simp [hmk])]
              exact loopOk_fail (v := (c, Geometry.wet m)) hob (Or.inr ⟨rfl, by omega, s, _, g2, hp, hmk⟩) g4' g3
            | true =>
              rw [if_pos (by simp [hmk])]
              refine loopOk_push (v := (c, Geometry.wet m)) hob ?_ (ih ms hl' hm' g4' g3)
              refine ⟨_, _, _, rfl, g2, ?_, rfl, ⟨_, rfl, hp⟩, ?_, rfl, mapping_ok _⟩
              · simp only; rw [hq]; exact h4
              · intro p hp; rw [List.mem_singleton] at hp; subst hp; exact hmk

omit [DecidableEq U] [DecidableEq F] in
theorem dryParts_ok (ms : List (DryMesh Q B)) (h : ∀ m ∈ ms, m.bounds ≠ none) :
    ∃ ps, ms.mapM dryPartition = some ps ∧ List.Forall₂ DryPart ps ms := by
  induction ms with
  | nil => exact ⟨[], rfl, .nil⟩
  | cons m ms ih =>
    obtain ⟨ps, h1, h2⟩ := ih fun x hx => h x (List.mem_cons_of_mem _ hx)
    cases hb : m.bounds with
    | none => exact absurd hb (h m List.mem_cons_self)
    | some b =>
      refine ⟨⟨m.vertexData, m.indexData, m.positions.length, 3 * m.triangleCount, b⟩ :: ps, ?_, .cons ⟨rfl, rfl, rfl, rfl, hb⟩ h2⟩
      simp [List.mapM_cons, dryPartition, hb, h1]

omit [DecidableEq U] [DecidableEq F] in
theorem forall₂_mem_left {A C : Type} {R : A → C → Prop} {l : List A} {l' : List C} (h : List.Forall₂ R l l') {a : A} (ha : a ∈ l) :
    ∃ c ∈ l', R a c := by
  induction h with
  | nil => cases ha
  | cons h1 _ ih =>
    rcases List.mem_cons.1 ha with rfl | ha
    · exact ⟨_, List.mem_cons_self, h1⟩
    · obtain ⟨c, h2, h3⟩ := ih ha
      exact ⟨c, List.mem_cons_of_mem _ h2, h3⟩

theorem dryLoop_gpu {env : RenderEnv U E W F D SE B} (hT : ∀ ls k, obtainAll env.textures ls k ≠ none)
    (hc : ∀ d, env.compile d ≠ none) (call : Call U F Q B) (brush : BrushInfo)
    (hq : ∀ c, request call c = ⟨c.layers, brush.size, brush.inputs⟩) (cs : List (BrushCoat U)) (gs : List (Group F Q B))
    (hl : cs.length ≤ gs.length) (hm : ∀ g ∈ gs, GroupOk g) {r : Renderer U W F} {k : Known U W}
    (hi : Inv env.textures r.shaders k) (hs : SpecInv env r) :
    LoopOk env call ((cs.zip (gs.map Geometry.dry)).filter fun x => x.2.hasContent) k (dryLoop env true brush cs gs r) := by
  induction cs generalizing gs r k with
  | nil => exact ⟨.ok [], r, [], k, rfl, rfl, hi, hs, gpuGen_nil env call⟩
  | cons c cs ih =>
    cases gs with
    | nil => simp at hl
    | cons g gs =>
      have hl' : cs.length ≤ gs.length := by simpa using hl
      have hm' : ∀ g ∈ gs, GroupOk g := fun x hx => hm x (List.mem_cons_of_mem _ hx)
      simp only [List.map_cons, List.zip_cons_cons, dryLoop]
      cases hb : g.meshes with
      | nil =>
        rw [List.filter_cons_of_neg (by simp [Geometry.hasContent, hb])]
        exact ih gs hl' hm' hi hs
      | cons first others =>
        rw [List.filter_cons_of_pos (by simp [Geometry.hasContent, hb])]
        simp only [Bool.not_true, Bool.false_eq_true, if_false]
        obtain ⟨x, t, c', k', h1, h2, h3, h4⟩ := shader_ok hT ⟨c.layers, brush.size, brush.inputs⟩ hi
        simp only at h1 h2
        rw [h1, Option.bind_some]
        have hob : obtainAll env.textures (request call c).layers k = some (t, k') := by rw [hq]; exact h2
        simp only
        cases x with
        | error e =>
          have := resultOk_error h4
          subst this
          exact loopOk_fail (v := (c, Geometry.dry g)) hob rfl h3 (hs.shaders c')
        | ok shader =>
          obtain ⟨bs, rfl⟩ := resultOk_ok h4
          obtain ⟨s, r', g1, g3, g4, g2⟩ := getSpec_ok hc (hs.shaders c') g.format
          have g4' : Inv env.textures r'.shaders k' := by rw [g4]; exact h3
          simp only
          rw [g1, Option.bind_some]
          simp only
          cases s with
          | error e => exact loopOk_fail (v := (c, Geometry.dry g)) hob (Or.inl ⟨e, rfl, g2⟩) g4' g3
          | ok s =>
            simp only
            rw [← hb]
            obtain ⟨ps, p1, p2⟩ := dryParts_ok g.meshes (hm g List.mem_cons_self).1
            rw [p1, Option.bind_some]
            unfold createMesh
            by_cases hall : ps.all (env.makeIndexed s) = true
            · rw [if_pos hall]
              refine loopOk_push (v := (c, Geometry.dry g)) hob ?_ (ih gs hl' hm' g4' g3)
              refine ⟨_, _, _, rfl, g2, ?_, rfl, p2, ?_, ⟨first, by rw [hb]; rfl, rfl⟩, mapping_ok _⟩
              · simp only; rw [hq]; exact h4
              · exact List.all_eq_true.1 hall
            · rw [if_neg hall]
              have : ∃ p ∈ ps, env.makeIndexed s p = false := by
                simpa [List.all_eq_true] using hall
              obtain ⟨p, hp, hf⟩ := this
              obtain ⟨m, hmem, hd⟩ := forall₂_mem_left p2 hp
              exact loopOk_fail (v := (c, Geometry.dry g)) hob (Or.inr ⟨rfl, s, p, m, g2, hmem, hd, hf⟩) g4' g3

theorem wetLoop_cpu (env : RenderEnv U E W F D SE B) (brush : BrushInfo) (cs : List (BrushCoat U)) (ms : List (WetCoat Q B))
    (hl : cs.length ≤ ms.length) (ht : ∀ c ∈ cs, c.tips ≠ []) (hm : ∀ m ∈ ms, WetOk m) (r : Renderer U W F) :
    ∃ coats, wetLoop env false brush cs ms r = some (.ok coats, r) ∧
      List.Forall₂ PathOf coats ((cs.zip (ms.map (Geometry.wet (F := F)))).filter fun x => x.2.hasContent) := by
  induction cs generalizing ms with
  | nil => exact ⟨[], rfl, .nil⟩
  | cons c cs ih =>
    cases ms with
    | nil => simp at hl
    | cons m ms =>
      obtain ⟨coats, h1, h2⟩ := ih ms (by simpa using hl) (fun x hx => ht x (List.mem_cons_of_mem _ hx))
        (fun x hx => hm x (List.mem_cons_of_mem _ hx))
      simp only [List.map_cons, List.zip_cons_cons, wetLoop]
      cases hb : m.bounds with
      | none =>
        rw [List.filter_cons_of_neg (by simp [Geometry.hasContent, hb])]
        exact ⟨coats, h1, h2⟩
      | some bounds =>
        rw [List.filter_cons_of_pos (by simp [Geometry.hasContent, hb])]
        simp only [Bool.not_false, if_true]
        obtain ⟨ps, p1, p2⟩ := makePaths_ok (position := fun i => m.positions[i]?) m.outlines
          (by
            intro o ho i hi
            have := (hm m List.mem_cons_self).1 o ho i hi
            simp [this])
        cases htip : c.tips with
        | nil => exact absurd htip (ht c List.mem_cons_self)
        | cons o os =>
          refine ⟨.path ps o :: coats, ?_, .cons ⟨ps, o, rfl, by simp [htip], p2⟩ h2⟩
          simp [pathOpacity, htip, p1, h1, pushCoat]

theorem dryLoop_cpu (env : RenderEnv U E W F D SE B) (brush : BrushInfo) (cs : List (BrushCoat U)) (gs : List (Group F Q B))
    (hl : cs.length ≤ gs.length) (ht : ∀ c ∈ cs, c.tips ≠ []) (hm : ∀ g ∈ gs, GroupOk g) (r : Renderer U W F) :
    ∃ coats, dryLoop env false brush cs gs r = some (.ok coats, r) ∧
      List.Forall₂ PathOf coats ((cs.zip (gs.map Geometry.dry)).filter fun x => x.2.hasContent) := by
  induction cs generalizing gs with
  | nil => exact ⟨[], rfl, .nil⟩
  | cons c cs ih =>
    cases gs with
    | nil => simp at hl
    | cons g gs =>
      obtain ⟨coats, h1, h2⟩ := ih gs (by simpa using hl) (fun x hx => ht x (List.mem_cons_of_mem _ hx))
        (fun x hx => hm x (List.mem_cons_of_mem _ hx))
      simp only [List.map_cons, List.zip_cons_cons, dryLoop]
      cases hb : g.meshes with
      | nil =>
        rw [List.filter_cons_of_neg (by simp [Geometry.hasContent, hb])]
        exact ⟨coats, h1, h2⟩
      | cons first others =>
        rw [List.filter_cons_of_pos (by simp [Geometry.hasContent, hb])]
        simp only [Bool.not_false, if_true]
        obtain ⟨ps, p1, p2⟩ := makePaths_ok (position := fun (i : Nat × Nat) => (g.meshes[i.1]?).bind fun m => m.positions[i.2]?)
          g.outlines
          (by
            intro o ho i hi
            obtain ⟨m, e1, e2⟩ := (hm g List.mem_cons_self).2 o ho i hi
            simp [e1, e2])
        rw [hb] at p1
        cases htip : c.tips with
        | nil => exact absurd htip (ht c List.mem_cons_self)
        | cons o os =>
          refine ⟨.path ps o :: coats, ?_, .cons ⟨ps, o, rfl, by simp [htip], p2⟩ h2⟩
          simp [pathOpacity, htip, p1, h1, pushCoat]

end Verif.Render
