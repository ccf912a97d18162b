import Verif.Lemmas.FlipCorrection

/-!
# C46: the correction of triangles that quantisation flips

See `/verif/properties.jsonl`.
-/

set_option autoImplicit false

namespace Verif

open F32 Mesh Flip FlipSpec

/-- C46: the search for a correction ends, for every mesh and all parameters: the number of triangles is
enough as a limit for the number of steps of the loop. -/
theorem C46_terminates (tris : List Tri) (original : Nat → PointF) (cx cy : Coding) (bx bY : Nat) :
    (corrected tris original cx cy (some [bx, bY])).isSome ∧
    (corrected tris original cx cy none).isSome := by
  constructor
  · unfold corrected
    simp only
    split
    · rfl
    split
    · rfl
    · rw [Option.isSome_map]
      exact loop_some _ _ _ (measure_init _)
  · rfl

/-- C46: no vertex is moved if there was a triangle with a negative area before, if there is none after
quantisation, or if the positions are not packed. -/
theorem C46_not_needed (tris : List Tri) (original : Nat → PointF) (cx cy : Coding) (bx bY : Nat) :
    ((∃ t ∈ tris, lt (signedArea (original t.1) (original t.2.1) (original t.2.2)) zero = true) ∨
      NoneNegative tris (fun v => quantizePoint cx cy (original v)) →
      corrected tris original cx cy (some [bx, bY]) = some fun _ => none) ∧
    corrected tris original cx cy none = some fun _ => none := by
  refine ⟨?_, rfl⟩
  intro h
  unfold corrected
  simp only
  by_cases ha : (tris.any fun t => flippedAt original t) = true
  · rw [if_pos ha]
  · rw [if_neg ha]
    rcases h with ⟨t, ht, hn⟩ | h
    · exact absurd (List.any_eq_true.2 ⟨t, ht, hn⟩) ha
    · rw [if_pos]
      unfold Env.init
      simp only
      rw [List.isEmpty_iff, List.filter_eq_nil_iff]
      intro i hi
      have hi' := List.mem_range.1 hi
      have := h _ (tri_mem (E := ⟨tris, original, cx, cy, quantizationBounds cx cy bx bY⟩) hi')
      simp only [Bool.not_eq_true]
      exact this

/-- What has to be known about the mesh and the parameters. -/
theorem envOk {tris : List Tri} {original : Nat → PointF} {cx cy : Coding} {bx bY : Nat} {A B : ℚ}
    (X : Precise cx bx A) (Y : Precise cy bY B) (hd : Distinct tris)
    (hfin : ∀ v, (original v).x.isFinite = true ∧ (original v).y.isFinite = true)
    (hin : ∀ t ∈ tris, ∀ v, Corner t v → InRange cx bx (original v).x ∧ InRange cy bY (original v).y) :
    EnvOk ⟨tris, original, cx, cy, quantizationBounds cx cy bx bY⟩ ∧
    quantizationBounds cx cy bx bY = ⟨cx.offset, cy.offset, unpackSingleFloat cx (maxValueForBits bx),
      unpackSingleFloat cy (maxValueForBits bY)⟩ := by
  have hb : quantizationBounds cx cy bx bY = ⟨cx.offset, cy.offset, unpackSingleFloat cx (maxValueForBits bx),
      unpackSingleFloat cy (maxValueForBits bY)⟩ := by
    unfold quantizationBounds RectF.fromTwoPoints
    simp only [top_eq, (minmax_eq X).1, (minmax_eq X).2, (minmax_eq Y).1, (minmax_eq Y).2]
  refine ⟨⟨hd, X.coding, Y.coding, ?_, ?_, ?_, ?_⟩, hb⟩
  · intro v; exact ⟨isNaN_of_isFinite (hfin v).1, isNaN_of_isFinite (hfin v).2⟩
  · rw [hb]; exact stable_of_precise X
  · rw [hb]; exact stable_of_precise Y
  · intro t ht v hv
    rw [hb, contains_iff]
    obtain ⟨h1, h2⟩ := hin t ht v hv
    have a := inRange_bounds X h1
    have b := inRange_bounds Y h2
    exact ⟨a.1, a.2, b.1, b.2⟩

/-- C46: if any vertex is moved, then afterwards no triangle has a negative area, for the positions that
are read back. The moved vertices are corners of triangles, each component is moved by at most about
one step (the scale) from its original value, can be represented in the available bits, and is
represented exactly. Partial: the parameters have to be precise enough for the distance to the
origin (see `Precise`). -/
theorem C46_corrected_partial (tris : List Tri) (original : Nat → PointF) (cx cy : Coding) (bx bY : Nat)
    (A B : ℚ) (X : Precise cx bx A) (Y : Precise cy bY B) (hd : Distinct tris)
    (hfin : ∀ v, (original v).x.isFinite = true ∧ (original v).y.isFinite = true)
    (hin : ∀ t ∈ tris, ∀ v, Corner t v → InRange cx bx (original v).x ∧ InRange cy bY (original v).y)
    (f : Nat → Option PointF) (hf : corrected tris original cx cy (some [bx, bY]) = some f)
    (hne : ∃ v, (f v).isSome) :
    NoneNegative tris (fun v => readPoint cx cy ((f v).getD (original v))) ∧
    (∀ v p, f v = some p →
      (∃ t ∈ tris, Corner t v) ∧
      |toRat p.x - toRat (original v).x| ≤ toRat cx.scale + A / 2 ^ 21 ∧
      |toRat p.y - toRat (original v).y| ≤ toRat cy.scale + B / 2 ^ 21 ∧
      InRange cx bx p.x ∧ InRange cy bY p.y ∧ readPoint cx cy p = p) := by
  obtain ⟨ok, hb⟩ := envOk X Y hd hfin hin
  -- the state at the end of the loop
  have hloop : ∃ d, Inv ⟨tris, original, cx, cy, quantizationBounds cx cy bx bY⟩ d ∧ d.queue = [] ∧
      d.corrected = f := by
    unfold corrected at hf
    simp only at hf
    obtain ⟨v, hv⟩ := hne
    split at hf
    · cases hf; cases hv
    split at hf
    · cases hf; cases hv
    · rw [Option.map_eq_some_iff] at hf
      obtain ⟨r, hr, hrf⟩ := hf
      cases r with
      | none => rw [← hrf] at hv; cases hv
      | some g =>
        simp only [Option.getD_some] at hrf
        subst hrf
        exact loop_inv ok _ _ (init_inv ok) _ hr
  obtain ⟨d, I, hq, rfl⟩ := hloop
  have rb : ∀ (c : Coding) (b : Nat) (C : ℚ) (Z : Precise c b C) (q : F32),
      le c.offset (quantize c q) = true →
      le (quantize c q) (unpackSingleFloat c (maxValueForBits b)) = true →
      InRange c b (quantize c q) ∧ readBack c (quantize c q) = quantize c q := by
    intro c b C Z q h1 h2
    obtain ⟨k, hk, hkM, hu⟩ := represented Z h1 h2
    refine ⟨⟨k, hk, hkM⟩, ?_⟩
    unfold readBack
    rw [hk]
    exact hu
  have ro : ∀ (c : Coding) (b : Nat) (C : ℚ) (Z : Precise c b C) (q : F32), InRange c b q →
      readBack c q = quantize c q := by
    intro c b C Z q h
    obtain ⟨k, hk, hkM⟩ := h
    unfold readBack
    rw [hk]
    have := (Precise.pow Z).2.2.2
    exact (readBack_eq Z.coding (by omega) hk).symm
  -- moved vertices
  have hmoved : ∀ v p, d.corrected v = some p →
      (∃ t ∈ tris, Corner t v) ∧
      |toRat p.x - toRat (original v).x| ≤ toRat cx.scale + A / 2 ^ 21 ∧
      |toRat p.y - toRat (original v).y| ≤ toRat cy.scale + B / 2 ^ 21 ∧
      InRange cx bx p.x ∧ InRange cy bY p.y ∧ readPoint cx cy p = p := by
    intro v p h
    obtain ⟨hp, M, t, ht, hc⟩ := I.cor v p h
    have hbd := M.bounds
    obtain ⟨q, -, hqp⟩ := I.quant v
    rw [hp] at hqp
    rw [hb, contains_iff] at hbd
    obtain ⟨i1, i2⟩ := hin t ht v hc
    have qx := inRange_bounds X i1
    have qy := inRange_bounds Y i2
    obtain ⟨x1, x2, x3, -⟩ := within X qx.1 qx.2
    obtain ⟨y1, y2, y3, -⟩ := within Y qy.1 qy.2
    obtain ⟨px1, px2, px3, -⟩ := within X hbd.1 hbd.2.1
    obtain ⟨py1, py2, py3, -⟩ := within Y hbd.2.2.1 hbd.2.2.2
    refine ⟨⟨t, ht, hc⟩, step_err X.coding (near_of X).1 (hfin v).1 x1 x2 x3 M.x px1 px2 px3,
      step_err Y.coding (near_of Y).1 (hfin v).2 y1 y2 y3 M.y py1 py2 py3, ?_⟩
    subst hqp
    have r1 := rb cx bx A X _ hbd.1 hbd.2.1
    have r2 := rb cy bY B Y _ hbd.2.2.1 hbd.2.2.2
    refine ⟨r1.1, r2.1, ?_⟩
    unfold readPoint quantizePoint
    rw [r1.2, r2.2]
  refine ⟨?_, hmoved⟩
  -- the positions at the end
  have hpos : ∀ t ∈ tris, ∀ v, Corner t v →
      readPoint cx cy ((d.corrected v).getD (original v)) = d.pos v := by
    intro t ht v hv
    cases hc : d.corrected v with
    | some p =>
      rw [(I.cor v p hc).1]
      exact (hmoved v p hc).2.2.2.2.2
    | none =>
      rw [I.unc v hc]
      obtain ⟨i1, i2⟩ := hin t ht v hv
      show readPoint cx cy (original v) = quantizePoint cx cy (original v)
      unfold readPoint quantizePoint
      rw [ro cx bx A X _ i1, ro cy bY B Y _ i2]
  intro t ht
  simp only
  rw [hpos t ht _ (Or.inl rfl), hpos t ht _ (Or.inr (Or.inl rfl)), hpos t ht _ (Or.inr (Or.inr rfl))]
  obtain ⟨j, hj, rfl⟩ := List.getElem_of_mem ht
  have hs : d.state j ≠ .flipped := by
    intro hs
    have := I.flippedQ j hj hs
    rw [hq] at this
    cases this
  have := I.good j hj hs
  have ht' : Env.tri ⟨tris, original, cx, cy, quantizationBounds cx cy bx bY⟩ j = tris[j] := by
    unfold Env.tri
    rw [List.getD_eq_getElem?_getD, List.getElem?_eq_getElem hj]
    rfl
  rw [ht'] at this
  exact this

/-! ## A mesh -/

namespace FlipExample

/-- A step of 1, from 0. -/
def c : Coding := ⟨zero, ofInt 1⟩

def r (n d : Int) : F32 := ofRat (n / d)

/-- (0, 0), (10, 9.6) and (20, 19.4): a thin triangle. -/
def original : Nat → PointF
  | 0 => ⟨zero, zero⟩
  | 1 => ⟨r 10 1, r 96 10⟩
  | 2 => ⟨r 20 1, r 194 10⟩
  | _ => ⟨zero, zero⟩

def tris : List Tri := [(0, 1, 2)]

theorem precise : Precise c 12 4095 where
  coding := ⟨rfl, by decide +kernel, by decide +kernel, by decide +kernel⟩
  b0 := by norm_num
  b1 := by norm_num
  off := by
    have : toRat c.offset = 0 := by decide +kernel
    rw [this]; norm_num
  top := by
    have : toRat (unpackSingleFloat c (maxValueForBits 12)) = 4095 := by decide +kernel
    rw [this]; norm_num
  As := by
    have : toRat c.scale = 1 := by decide +kernel
    rw [this]; norm_num
  s0 := by
    have : toRat c.scale = 1 := by decide +kernel
    rw [this]; norm_num
  s1 := by
    have : toRat c.scale = 1 := by decide +kernel
    rw [this]; norm_num

/-- Quantisation flips the triangle: (0, 0), (10, 10), (20, 19). -/
example : lt (signedArea (original 0) (original 1) (original 2)) zero = false ∧
    lt (signedArea (quantizePoint c c (original 0)) (quantizePoint c c (original 1))
      (quantizePoint c c (original 2))) zero = true := by decide +kernel

/-- One of the vertices is moved. -/
theorem moves : ((corrected tris original c c (some [12, 12])).map fun f =>
    ((List.range 3).map fun v => f v)) = some [none, none, some ⟨r 20 1, r 20 1⟩] := by decide +kernel

theorem finite (v : Nat) : (original v).x.isFinite = true ∧ (original v).y.isFinite = true := by
  unfold original
  split <;> decide +kernel

theorem inRange : ∀ t ∈ tris, ∀ v, Corner t v → InRange c 12 (original v).x ∧ InRange c 12 (original v).y := by
  intro t ht v hv
  unfold tris at ht
  simp only [List.mem_singleton] at ht
  subst ht
  unfold InRange
  rcases hv with rfl | rfl | rfl
  · exact ⟨⟨0, by decide +kernel, by decide⟩, ⟨0, by decide +kernel, by decide⟩⟩
  · exact ⟨⟨10, by decide +kernel, by decide⟩, ⟨10, by decide +kernel, by decide⟩⟩
  · exact ⟨⟨20, by decide +kernel, by decide⟩, ⟨19, by decide +kernel, by decide⟩⟩

/-- The hypotheses of `C46_corrected_partial` hold for it. -/
example : ∃ f, corrected tris original c c (some [12, 12]) = some f ∧ (∃ v, (f v).isSome) ∧
    NoneNegative tris (fun v => readPoint c c ((f v).getD (original v))) := by
  have h := moves
  cases hf : corrected tris original c c (some [12, 12]) with
  | none => rw [hf] at h; cases h
  | some f =>
    rw [hf] at h
    simp only [Option.map_some, Option.some.injEq] at h
    have h2 : f 2 = some ⟨r 20 1, r 20 1⟩ := by
      have := congrArg (fun l => l.getD 2 none) h
      simpa using this
    have hne : ∃ v, (f v).isSome := ⟨2, by rw [h2]; rfl⟩
    exact ⟨f, rfl, hne, (C46_corrected_partial tris original c c 12 12 4095 4095 precise precise
      (by unfold Distinct tris; decide) finite inRange f hf hne).1⟩

end FlipExample

/-! ## Far from the origin -/

namespace FlipOverflow

/-- From 8388608 in steps of 0.6402. -/
def cx : Coding := ⟨ofInt 8388608, ofRat (6402 / 10000)⟩

/-- From 0 in steps of 1. -/
def cy : Coding := ⟨zero, ofInt 1⟩

/-- Coordinates from 8388608 + 2619. -/
def original : Nat → PointF
  | 0 => ⟨ofInt (8388608 + 2619), ofRat (104 / 10)⟩
  | 1 => ⟨ofInt (8388608 + 2620), ofRat (66 / 10)⟩
  | _ => ⟨ofInt (8388608 + 2621), ofRat (285 / 100)⟩

def tris : List Tri := [(0, 1, 2)]

/-- What becomes of the vertex 2. -/
theorem moves : ((corrected tris original cx cy (some [12, 12])).map fun f => f 2) =
    some (some ⟨ofInt (8388608 + 2622), ofInt 3⟩) := by decide +kernel

end FlipOverflow

/-- C46: far from the origin this does not hold. The parameters are valid and every coordinate of the
triangle can be represented in 12 bits, but one of them is moved to a value that would need 13 bits
(4096): the limit that is checked is rounded up. The packed position which is then stored in 3 bytes is
read back as the offset, 2621 units from the original position, although the step is 0.64. -/
theorem C46_overflow_counterexample :
    ∃ (tris : List Tri) (original : Nat → PointF) (cx cy : Coding) (f : Nat → Option PointF) (p : PointF)
      (bytes : List Nat) (x y : F32),
      CodingOk cx ∧ CodingOk cy ∧ Distinct tris ∧
      (∀ v, (original v).x.isFinite = true ∧ (original v).y.isFinite = true) ∧
      (∀ t ∈ tris, ∀ v, Corner t v → InRange cx 12 (original v).x ∧ InRange cy 12 (original v).y) ∧
      corrected tris original cx cy (some [12, 12]) = some f ∧ f 2 = some p ∧
      packSingleFloat cx p.x = some 4096 ∧
      packAttribute .f2In3Bytes [cx, cy] [p.x, p.y] = some bytes ∧
      unpackAttribute .f2In3Bytes [cx, cy] bytes = some [x, y] ∧
      toRat (original 2).x - toRat x = 2621 ∧ toRat cx.scale < 1 := by
  have h := FlipOverflow.moves
  cases hf : corrected FlipOverflow.tris FlipOverflow.original FlipOverflow.cx FlipOverflow.cy
      (some [12, 12]) with
  | none => rw [hf] at h; cases h
  | some f =>
    rw [hf] at h
    simp only [Option.map_some, Option.some.injEq] at h
    refine ⟨FlipOverflow.tris, FlipOverflow.original, FlipOverflow.cx, FlipOverflow.cy, f, _,
      [0, 0, 3], ofInt 8388608, ofInt 3, ?_, ?_, ?_, ?_, ?_, hf, h, ?_, ?_, ?_, ?_, ?_⟩
    · exact ⟨by decide +kernel, by decide +kernel, by decide +kernel, by decide +kernel⟩
    · exact ⟨by decide +kernel, by decide +kernel, by decide +kernel, by decide +kernel⟩
    · unfold Distinct FlipOverflow.tris; decide
    · intro v
      unfold FlipOverflow.original
      split <;> decide +kernel
    · intro t ht v hv
      unfold FlipOverflow.tris at ht
      simp only [List.mem_singleton] at ht
      subst ht
      unfold InRange
      rcases hv with rfl | rfl | rfl
      · exact ⟨⟨4091, by decide +kernel, by decide⟩, ⟨10, by decide +kernel, by decide⟩⟩
      · exact ⟨⟨4092, by decide +kernel, by decide⟩, ⟨7, by decide +kernel, by decide⟩⟩
      · exact ⟨⟨4094, by decide +kernel, by decide⟩, ⟨3, by decide +kernel, by decide⟩⟩
    · decide +kernel
    · decide +kernel
    · decide +kernel
    · decide +kernel
    · decide +kernel

end Verif
