import Verif.Props.Shader

/-!
# C54: examples and counterexamples
-/

set_option autoImplicit false

namespace Verif.Shader

open Verif Verif.F32 Verif.Mesh Verif.Mesh.Spec Verif.Shader.Spec

/-- A format without hue, saturation, luminosity and texture coordinates. -/
def smallAttrs : List (AttrType × AttrId) :=
  [(.f2In3Bytes, 0), (.f1In1Byte, 2), (.f2In3Bytes, 4), (.f1In1Byte, 5), (.f2In3Bytes, 6), (.f1In1Byte, 7)]

/-- Three vertices at (0, 0), (n, n) and (1, 0). -/
def spansFor (n : Int) : List (List F32) :=
  [[zero, ofInt n, ofInt 1], [zero, ofInt n, zero], [zero, zero, ofInt 1], [zero, zero, zero],
    [ofInt 1, ofInt 1, ofInt 1], [ofInt 1, ofInt 2, ofInt 3], [ofInt 1, ofInt 1, ofInt 1],
    [zero, zero, zero], [zero, zero, zero]]

theorem small_supported : Supported smallAttrs :=
  ⟨⟨0, _, _, rfl, rfl, by simp⟩, ⟨2, _, _, rfl, rfl, by simp⟩, ⟨4, _, _, rfl, rfl, by simp⟩,
    by intro t ht; simp [smallAttrs] at ht, by intro t ht; simp [smallAttrs] at ht⟩

/-- A mesh of the format `smallAttrs`. -/
def smallMesh (n : Int) (custom : Bool) : Option (MeshFormat × Mesh) := do
  let f ← create smallAttrs .unpacked16
  let m ← Mesh.Mesh.create f (spansFor n) [0, 1, 2] (if custom then customPackingArray f [] else [])
  let m ← m
  some (f, m)

theorem smallMesh_eq {n : Int} {custom : Bool} {f : MeshFormat} {m : Mesh}
    (h : smallMesh n custom = some (f, m)) : create smallAttrs .unpacked16 = some f ∧
      Mesh.Mesh.create f (spansFor n) [0, 1, 2] (if custom then customPackingArray f [] else []) =
        some (some m) := by
  unfold smallMesh at h
  simp only [Option.bind_eq_bind, Option.bind_eq_some_iff, Option.some.injEq, Prod.mk.injEq] at h
  obtain ⟨f', h1, r, h2, m', rfl, rfl, rfl⟩ := h
  exact ⟨h1, h2⟩

/-- The hypotheses of `C54_drawn_partial` and `C54_created_partial` hold for a mesh with three different
vertices. -/
example : ∃ (f : MeshFormat) (m : Mesh), create smallAttrs .unpacked16 = some f ∧ Supported smallAttrs ∧
    Mesh.Mesh.create f (spansFor 4095) [0, 1, 2] (customPackingArray f []) = some (some m) ∧
    m.format = f ∧ Drawable m ∧ SameParams m m ∧ m.vertexCount = 3 := by
  have h : (smallMesh 4095 true).map (fun r => r.2.vertexCount) = some 3 := by decide +kernel
  obtain ⟨⟨f, m⟩, h1, h2⟩ := Option.map_eq_some_iff.1 h
  obtain ⟨h3, h4⟩ := smallMesh_eq h1
  obtain ⟨h5, h6⟩ := created_drawable h3 small_supported (by decide) h4 (by decide)
  exact ⟨f, m, h3, small_supported, h4, h5, h6, fun _ _ _ _ => rfl, h2⟩

/-- The hypotheses of `C54_stroke_partial` and `C54_in_progress` hold, and there is a mesh to draw: a
stroke with a triangle, drawn without hue, saturation and luminosity. -/
def strokeOps : List MeshOp :=
  [.appendVertex (ofInt 1) (ofInt 2), .appendVertex (ofInt 5) (ofInt 3), .appendVertex (ofInt 2) (ofInt 8),
    .appendTriangleIndices (0, 1, 2), .setFloatVertexAttribute 1 4 [ofInt (-4)]]

example : ∃ (s : MeshState) (f : MeshFormat) (m : MutableMesh) (meshes : List Mesh),
    create fullAttrs .unpacked32 = some f ∧
    MeshState.run { attrs := fullAttrs, ixf := .unpacked32 } strokeOps = some s ∧
    s.attrs = fullAttrs ∧ s.ixf = .unpacked32 ∧ s.vertices.length = 3 ∧
    Supported (keptAttrs [1] s.attrs) ∧ (AttrType.f2In1Float, (0 : AttrId)) ∉ s.attrs ∧
    (MutableMesh.new f).bind (·.run strokeOps) = some m ∧
    asMeshes m (customPackingArray m.format [1]) [1] = some (some meshes) ∧
    meshes.map (·.vertexCount) = [3] := by
  have h1 : ((create fullAttrs .unpacked32).bind fun f => ((MutableMesh.new f).bind (·.run strokeOps)).bind
      fun m => (asMeshes m (customPackingArray m.format [1]) [1]).bind fun r => r.bind fun ms =>
        some (ms.map (·.vertexCount))) = some [3] := by decide +kernel
  have h2 : (MeshState.run { attrs := fullAttrs, ixf := .unpacked32 } strokeOps).map
      (fun s => (s.attrs, s.ixf, s.vertices.length)) = some (fullAttrs, .unpacked32, 3) := by decide +kernel
  simp only [Option.bind_eq_some_iff, Option.some.injEq] at h1
  obtain ⟨f, hf, m, hm, r, hr, ms, rfl, hms⟩ := h1
  obtain ⟨s, hs, e⟩ := Option.map_eq_some_iff.1 h2
  simp only [Prod.mk.injEq] at e
  refine ⟨s, f, m, ms, hf, hs, e.1, e.2.1, e.2.2, ?_, ?_, Option.bind_eq_some_iff.2 hm, hr, hms⟩
  · rw [e.1]
    exact C54_full_format [1] (by simp)
  · rw [e.1]
    decide

/-! ## Counterexamples -/

/-- C54: the parameters for positions are those of the first mesh of the group. If a second mesh has been
packed with other parameters, as `Mesh::Create` does on its own accord, its vertices are drawn in the wrong
place: here (8190, 8190) at (4095, 4095). Nothing rejects such a group. -/
theorem C54_group_params_counterexample : ∃ (f : MeshFormat) (m m' : Mesh) (d : Decoded),
    create smallAttrs .unpacked16 = some f ∧
    Mesh.Mesh.create f (spansFor 4095) [0, 1, 2] (customPackingArray f []) = some (some m) ∧
    Mesh.Mesh.create f (spansFor 8190) [0, 1, 2] (customPackingArray f []) = some (some m') ∧
    drawGroup unorm32 [m, m'] 1 1 = some d ∧ valueOf m' 1 0 = some [ofInt 8190, ofInt 8190] ∧
    d.position = (ofInt 4095, ofInt 4095) ∧ ¬ Shows m' 1 d := by
  have h : ((smallMesh 4095 true).bind fun r => (smallMesh 8190 true).bind fun r' =>
      (drawGroup unorm32 [r.2, r'.2] 1 1).bind fun d => some (valueOf r'.2 1 0, d.position)) =
      some (some [ofInt 8190, ofInt 8190], ofInt 4095, ofInt 4095) := by decide +kernel
  simp only [Option.bind_eq_some_iff, Option.some.injEq, Prod.mk.injEq] at h
  obtain ⟨⟨f, m⟩, h1, ⟨f', m'⟩, h2, d, h3, h4, h5⟩ := h
  obtain ⟨a1, a2⟩ := smallMesh_eq h1
  obtain ⟨b1, b2⟩ := smallMesh_eq h2
  rw [a1] at b1
  cases b1
  refine ⟨f, m, m', d, a1, a2, b2, h3, h4, h5, fun hs => ?_⟩
  have := hs.position
  rw [h4, h5] at this
  revert this
  decide +kernel

/-- C54: the format is checked, the parameters of labels and shifts are not. A mesh that has been created
without parameters of one's own is accepted, and its labels are drawn as other labels: here 3 as 127. -/
theorem C54_default_params_counterexample : ∃ (f : MeshFormat) (m : Mesh) (d : Decoded),
    create smallAttrs .unpacked16 = some f ∧
    Mesh.Mesh.create f (spansFor 4095) [0, 1, 2] [] = some (some m) ∧
    drawGroup unorm32 [m] 0 2 = some d ∧ valueOf m 2 5 = some [ofInt 3] ∧ d.sideLabel = ofInt 127 ∧
    ¬ Shows m 2 d := by
  have h : ((smallMesh 4095 false).bind fun r =>
      (drawGroup unorm32 [r.2] 0 2).bind fun d => some (valueOf r.2 2 5, d.sideLabel)) =
      some (some [ofInt 3], ofInt 127) := by decide +kernel
  simp only [Option.bind_eq_some_iff, Option.some.injEq, Prod.mk.injEq] at h
  obtain ⟨⟨f, m⟩, h1, d, h3, h4, h5⟩ := h
  obtain ⟨a1, a2⟩ := smallMesh_eq h1
  refine ⟨f, m, d, a1, a2, h3, h4, h5, fun hs => ?_⟩
  have := hs.sideLabel
  rw [h4, h5] at this
  revert this
  decide +kernel

/-- `unorm16` is what its description says: eleven bits, and no multiple of the last of them is nearer. -/
theorem unorm16_nearest : ∀ b, 0 < b → b < 256 → 1024 ≤ unormDigits b ∧ unormDigits b ≤ 2048 ∧
    2 * (unormDigits b * 255 - b * 2 ^ (10 + unormExponent b)) < 255 ∧
    2 * (b * 2 ^ (10 + unormExponent b) - unormDigits b * 255) < 255 := by
  have h : ∀ b : Fin 256, 0 < b.val → 1024 ≤ unormDigits b ∧ unormDigits b ≤ 2048 ∧
    2 * (unormDigits b * 255 - b * 2 ^ (10 + unormExponent b)) < 255 ∧
    2 * (b * 2 ^ (10 + unormExponent b) - unormDigits b * 255) < 255 := by decide +kernel
  intro b h0 h1
  exact h ⟨b, h1⟩ h0

/-- C54: with the 16-bit floats that the comments in the shader describe (sksl_vertex_shader_helper_functions.h:
238-244), positions are drawn in the wrong place: here (1, 0) at (0, 4095.9). -/
theorem C54_half_precision_counterexample : ∃ (f : MeshFormat) (m : Mesh) (d : Decoded),
    create smallAttrs .unpacked16 = some f ∧
    Mesh.Mesh.create f (spansFor 4095) [0, 1, 2] (customPackingArray f []) = some (some m) ∧
    drawGroup unorm16 [m] 0 2 = some d ∧ valueOf m 2 0 = some [ofInt 1, zero] ∧
    d.position.1 = zero ∧ 4095 < toRat d.position.2 := by
  have h : ((smallMesh 4095 true).bind fun r =>
      (drawGroup unorm16 [r.2] 0 2).bind fun d =>
        some (valueOf r.2 2 0, d.position.1, decide (4095 < toRat d.position.2))) =
      some (some [ofInt 1, zero], zero, true) := by decide +kernel
  simp only [Option.bind_eq_some_iff, Option.some.injEq, Prod.mk.injEq, decide_eq_true_eq] at h
  obtain ⟨⟨f, m⟩, h1, d, h3, h4, h5, h6⟩ := h
  obtain ⟨a1, a2⟩ := smallMesh_eq h1
  exact ⟨f, m, d, a1, a2, h3, h4, h5, h6⟩

end Verif.Shader
