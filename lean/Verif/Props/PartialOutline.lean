import Verif.Lemmas.PartialOutline
import Verif.Lemmas.ClockwiseFan

/-!
# C75: Partial outlines and fans

An outline lists one side backwards and then, if it connects them, the other side forwards; the search along it finds the first point on a
segment within its budget; and the search in a fan finds the last triangle that turns clockwise.
-/

set_option autoImplicit false

namespace Verif.PartialOutline

open Geo Geo.Spec Legacy Legacy.Spec Spec

theorem last_eq (s : Side) (first : ℕ) (h1 : first ≤ count s) (h2 : count s ≤ s.indices.length) (h3 : s.indices.length < 2 ^ 32) :
    wrap (lastOutlineIndexOffset s - first + 1) = count s - first := by
  unfold count lastOutlineIndexOffset wrap at *
  cases hi : s.intersection with
  | none =>
    simp only [hi] at h1 h2 ⊢
    omega
  | some x =>
    simp only [hi] at h1 h2 ⊢
    by_cases hr : x.retriangulationStarted = true
    · simp only [hr, if_true] at h1 h2 ⊢
      omega
    · simp only [hr, Bool.false_eq_true, if_false] at h1 h2 ⊢
      omega

/-- The outline of two sides, with less than 2³² indices: those of the starting side from its first one, from the last to the first, followed
by those of the ending side from its first one if the starting side connects them. -/
theorem C75_outline (starting ending : Side) (h1 : starting.partitionStart.adjacentFirst ≤ count starting)
    (h2 : count starting ≤ starting.indices.length) (h3 : starting.partitionStart.oppositeFirst ≤ count ending)
    (h4 : count ending ≤ ending.indices.length) (h5 : starting.indices.length + ending.indices.length < 2 ^ 32) :
    let o := constructPartialOutline starting ending
    let all := (part starting starting.partitionStart.adjacentFirst).reverse ++
      (if starting.partitionStart.connectsSides = true then part ending starting.partitionStart.oppositeFirst else [])
    o.size = all.length ∧ ∀ i, i < o.size → o.get i = all[i]? := by
  intro o all
  have n1 := last_eq starting _ h1 h2 (by omega)
  have n2 := last_eq ending _ h3 h4 (by omega)
  have l1 : (part starting starting.partitionStart.adjacentFirst).length = count starting - starting.partitionStart.adjacentFirst := by
    unfold part
    rw [List.length_drop, List.length_take]
    omega
  have l2 : (part ending starting.partitionStart.oppositeFirst).length = count ending - starting.partitionStart.oppositeFirst := by
    unfold part
    rw [List.length_drop, List.length_take]
    omega
  have hn1 : o.nStarting = count starting - starting.partitionStart.adjacentFirst := n1
  have hs1 : o.startingStart = starting.partitionStart.adjacentFirst := rfl
  have hs2 : o.endingStart = starting.partitionStart.oppositeFirst := rfl
  have hl1 : o.starting = starting.indices := rfl
  have hl2 : o.ending = ending.indices := rfl
  have hn2 : o.nEnding = if starting.partitionStart.connectsSides = true then count ending - starting.partitionStart.oppositeFirst else 0 := by
    have : o.nEnding = if starting.partitionStart.connectsSides = true then
      wrap (lastOutlineIndexOffset ending - starting.partitionStart.oppositeFirst + 1) else 0 := rfl
    rw [this, n2]
  have hle : o.nEnding ≤ ending.indices.length := by rw [hn2]; split_ifs <;> omega
  have hsz : o.size = o.nStarting + o.nEnding := by
    unfold Outline.size wrap
    omega
  have hall : all.length = o.nStarting + o.nEnding := by
    simp only [all, List.length_append, List.length_reverse, l1]
    rw [hn1, hn2]
    split_ifs
    · rw [l2]
    · rfl
  refine ⟨hsz.trans hall.symm, fun i hi => ?_⟩
  unfold Outline.get
  rw [hl1, hl2, hs1, hs2]
  by_cases h : i < o.nStarting
  · rw [if_pos h]
    simp only [all]
    rw [List.getElem?_append_left (by rw [List.length_reverse, l1]; omega), List.getElem?_reverse (by rw [l1]; omega), l1]
    unfold part
    rw [List.getElem?_drop, List.getElem?_take_of_lt (by omega)]
    congr 1
    unfold wrap
    omega
  · rw [if_neg h]
    simp only [all]
    rw [List.getElem?_append_right (by rw [List.length_reverse, l1]; omega), List.length_reverse, l1]
    by_cases hc : starting.partitionStart.connectsSides = true
    · rw [if_pos hc]
      rw [if_pos hc] at hn2
      unfold part
      rw [List.getElem?_drop, List.getElem?_take_of_lt (by omega)]
      congr 1
      unfold wrap
      omega
    · rw [if_neg hc] at hn2
      omega

/-- The positions of the outline are those of its indices, in the same order. -/
theorem C75_positions (starting ending : Side) (mesh : ℕ → Option (Pt ℝ)) (h1 : starting.partitionStart.adjacentFirst ≤ count starting)
    (h2 : count starting ≤ starting.indices.length) (h3 : starting.partitionStart.oppositeFirst ≤ count ending)
    (h4 : count ending ≤ ending.indices.length) (h5 : starting.indices.length + ending.indices.length < 2 ^ 32) :
    (constructPartialOutline starting ending).positions mesh = (((part starting starting.partitionStart.adjacentFirst).reverse ++
      (if starting.partitionStart.connectsSides = true then part ending starting.partitionStart.oppositeFirst else [])).map mesh).mapM id := by
  obtain ⟨g1, g2⟩ := C75_outline starting ending h1 h2 h3 h4 h5
  unfold Outline.positions
  congr 1
  apply List.ext_getElem?
  intro i
  rw [List.getElem?_map, List.getElem?_map]
  by_cases h : i < (constructPartialOutline starting ending).size
  · rw [List.getElem?_range h, Option.map_some, g2 i h, List.getElem?_eq_getElem (by rw [← g1]; exact h)]
    rfl
  · rw [List.getElem?_eq_none (by rw [List.length_range]; omega), List.getElem?_eq_none (by rw [← g1]; omega)]
    rfl

/-- An intersection that is found is the first point of the outline on the segment, and the pieces before it end in the triangle; only if all
positions are the same one is it that position. -/
theorem C75_found {f : Format ℝ} (hf : Exact f) {o : Outline} {segment : Segment ℝ} {mesh : ℕ → Option (Pt ℝ)} {budget : ℝ}
    {triangle : Option (Triangle ℝ)} {h : Hit} {left : ℝ} {ps : List (Pt ℝ)} (hp : o.positions mesh = some ps)
    (e : findOutlineIntersection f o segment mesh budget triangle = some (some h, left)) :
    (h.endingIndex = h.startingIndex + 1 ∧ OnPiece segment triangle ps budget h.startingIndex h left) ∨
      (h.startingIndex + 1 = ps.length ∧ h.endingIndex = h.startingIndex ∧ OnPoint segment ps budget h left) := by
  unfold findOutlineIntersection at e
  rw [hp, Option.map_some, Option.some.injEq] at e
  rcases (search_spec hf segment triangle ps 0 budget).1 h left e with ⟨-, a, b⟩ | ⟨a, b, c⟩
  · exact Or.inl ⟨a, b⟩
  · exact Or.inr ⟨by omega, b, c⟩

/-- If none is found, no piece of the outline that begins within the budget, with those before it ending in the triangle, has a point on the
segment. -/
theorem C75_none {f : Format ℝ} (hf : Exact f) {o : Outline} {segment : Segment ℝ} {mesh : ℕ → Option (Pt ℝ)} {budget : ℝ}
    {triangle : Option (Triangle ℝ)} {left : ℝ} {ps : List (Pt ℝ)} (hp : o.positions mesh = some ps)
    (e : findOutlineIntersection f o segment mesh budget triangle = some (none, left)) :
    (∀ j, way ps j < budget → (∀ k, k < j → Kept triangle ps k) → Untouched segment ps j) ∧
      (0 < budget → ∀ p ∈ ps, (∀ x ∈ ps, x = p) → ¬OnSegment p segment) ∧ Remaining triangle ps budget left := by
  unfold findOutlineIntersection at e
  rw [hp, Option.map_some, Option.some.injEq] at e
  exact (search_spec hf segment triangle ps 0 budget).2 left e

/-- There is an answer if all indices are those of vertices. -/
theorem C75_answer (f : Format ℝ) (o : Outline) (segment : Segment ℝ) (mesh : ℕ → Option (Pt ℝ)) (budget : ℝ) (triangle : Option (Triangle ℝ)) :
    (findOutlineIntersection f o segment mesh budget triangle).isSome = (o.positions mesh).isSome := by
  unfold findOutlineIntersection
  rw [Option.isSome_map]

/-- An outline of one index. -/
def single : Outline := ⟨[0], 0, 1, [], 0, 0⟩

theorem single_positions (p : Pt ℝ) : single.positions (fun _ => some p) = some [p] := rfl

/-- Where all positions are the same one, the position of the result is not set: it is the origin. -/
theorem C75_position_counterexample {f : Format ℝ} (hf : Exact f) :
    ∃ (p : Pt ℝ) (segment : Segment ℝ) (h : Hit), findOutlineIntersection f single segment (fun _ => some p) 1 none = some (some h, 1) ∧
      OnSegment p segment ∧ h.position ≠ p ∧ ¬OnSegment h.position segment := by
  have on : OnSegment (⟨1, 1⟩ : Pt ℝ) ⟨⟨0, 1⟩, ⟨2, 1⟩⟩ := onSegment_iff.2 ⟨1 / 2, by norm_num, by norm_num, by ext <;> norm_num [along]⟩
  have g := (C74_found hf (⟨⟨1, 1⟩, ⟨1, 1⟩⟩ : Segment ℝ) ⟨⟨0, 1⟩, ⟨2, 1⟩⟩).2 ⟨⟨1, 1⟩, on_stop _ _, on⟩
  obtain ⟨r, hr⟩ := Option.isSome_iff_exists.1 g
  refine ⟨⟨1, 1⟩, ⟨⟨0, 1⟩, ⟨2, 1⟩⟩, ⟨⟨0, 0⟩, 0, 0, r.s0, r.t0⟩, ?_, on, ?_, ?_⟩
  · unfold findOutlineIntersection
    rw [single_positions, Option.map_some, search, if_pos one_pos, hr]
    norm_num
  · intro e
    have := congrArg Pt.x e
    norm_num at this
  · intro e
    obtain ⟨t, -, -, e⟩ := onSegment_iff.1 e
    have := congrArg Pt.y e
    norm_num [along] at this

/-- The first position of an outline is not compared with the triangle, although all positions up to the intersection must be in it. -/
theorem C75_triangle_counterexample {f : Format ℝ} (hf : Exact f) :
    ∃ (p : Pt ℝ) (segment : Segment ℝ) (t : Triangle ℝ) (h : Hit),
      findOutlineIntersection f single segment (fun _ => some p) 1 (some t) = some (some h, 1) ∧ OnSegment p segment ∧ ¬InTriangle p t := by
  have on : OnSegment (⟨1, 1⟩ : Pt ℝ) ⟨⟨0, 1⟩, ⟨2, 1⟩⟩ := onSegment_iff.2 ⟨1 / 2, by norm_num, by norm_num, by ext <;> norm_num [along]⟩
  have g := (C74_found hf (⟨⟨1, 1⟩, ⟨1, 1⟩⟩ : Segment ℝ) ⟨⟨0, 1⟩, ⟨2, 1⟩⟩).2 ⟨⟨1, 1⟩, on_stop _ _, on⟩
  obtain ⟨r, hr⟩ := Option.isSome_iff_exists.1 g
  refine ⟨⟨1, 1⟩, ⟨⟨0, 1⟩, ⟨2, 1⟩⟩, ⟨⟨5, 5⟩, ⟨6, 5⟩, ⟨5, 6⟩⟩, ⟨⟨0, 0⟩, 0, 0, r.s0, r.t0⟩, ?_, on, ?_⟩
  · unfold findOutlineIntersection
    rw [single_positions, Option.map_some, search, if_pos one_pos, hr]
    norm_num
  · rintro ⟨a, b, c, ha, hb, hc, hs, e⟩
    have ex := e.1
    dsimp only at ex
    linarith

section Fans

variable {K : Type} [Field K] [LinearOrder K] [IsStrictOrderedRing K]

/-- The search in a fan finds nothing if and only if no triangle turns clockwise; otherwise it finds the last one that does. -/
theorem C75_fan (side : SideId) (center : Pt K) (ps : List (Pt K)) :
    (fan side center ps = none ↔ ∀ i back front, ps[i]? = some back → ps[i + 1]? = some front → ¬Clockwise side center back front) ∧
      ∀ s, fan side center ps = some s → ∃ i back front, ps[i]? = some back ∧ ps[i + 1]? = some front ∧ Clockwise side center back front ∧
        s = outer side back front ∧ ∀ j b f, i < j → ps[j]? = some b → ps[j + 1]? = some f → ¬Clockwise side center b f := by
  classical
  induction ps using List.reverseRecOn with
  | nil =>
    rw [fan_nil]
    exact ⟨⟨fun _ i b f h => by simp at h, fun _ => rfl⟩, fun s h => by simp at h⟩
  | append_singleton ys f ih =>
    rcases List.eq_nil_or_concat ys with rfl | ⟨zs, b, rfl⟩
    · rw [List.nil_append, fan_one]
      exact ⟨⟨fun _ i b f _ h => by simp at h, fun _ => rfl⟩, fun s h => by simp at h⟩
    · have e1 : zs.concat b ++ [f] = zs ++ [b, f] := by simp
      have e2 : zs.concat b = zs ++ [b] := by simp
      rw [e2] at ih
      rw [e1, fan_snoc]
      -- the entries of the lists
      have low : ∀ k, k ≤ zs.length → (zs ++ [b, f])[k]? = (zs ++ [b])[k]? := fun k hk => by
        rcases lt_or_eq_of_le hk with h | h
        · rw [List.getElem?_append_left h, List.getElem?_append_left h]
        · rw [List.getElem?_append_right h.ge, List.getElem?_append_right h.ge, h]
          simp
      have atb : (zs ++ [b, f])[zs.length]? = some b := by simp
      have atf : (zs ++ [b, f])[zs.length + 1]? = some f := by
        rw [List.getElem?_append_right (by omega)]
        simp
      have high : ∀ k x, (zs ++ [b, f])[k]? = some x → k < zs.length + 2 := fun k x h => by
        have := (List.getElem?_eq_some_iff.1 h).1
        simpa using this
      have high' : ∀ k x, (zs ++ [b])[k]? = some x → k < zs.length + 1 := fun k x h => by
        have := (List.getElem?_eq_some_iff.1 h).1
        simpa using this
      by_cases hc : Clockwise side center b f
      · rw [if_pos hc]
        refine ⟨⟨fun h => by simp at h, fun h => absurd hc (h _ _ _ atb atf)⟩, fun s h => ?_⟩
        obtain rfl := Option.some.inj h
        refine ⟨zs.length, b, f, atb, atf, hc, rfl, fun j x y hj _ hy => ?_⟩
        have := high _ _ hy
        omega
      · rw [if_neg hc]
        obtain ⟨i1, i2⟩ := ih
        have pair : ∀ j x y, (zs ++ [b, f])[j]? = some x → (zs ++ [b, f])[j + 1]? = some y →
            (j = zs.length ∧ x = b ∧ y = f) ∨ ((zs ++ [b])[j]? = some x ∧ (zs ++ [b])[j + 1]? = some y) := fun j x y hx hy => by
          have := high _ _ hy
          rcases lt_or_eq_of_le (show j ≤ zs.length by omega) with h | h
          · right
            rw [low _ h.le] at hx
            rw [low _ (by omega)] at hy
            exact ⟨hx, hy⟩
          · left
            subst h
            rw [atb] at hx
            rw [atf] at hy
            exact ⟨rfl, (Option.some.inj hx).symm, (Option.some.inj hy).symm⟩
        constructor
        · rw [i1]
          constructor
          · intro h j x y hx hy
            rcases pair j x y hx hy with ⟨-, rfl, rfl⟩ | ⟨h1, h2⟩
            · exact hc
            · exact h j x y h1 h2
          · intro h j x y hx hy
            have := high' _ _ hy
            exact h j x y (by rw [low _ (by omega)]; exact hx) (by rw [low _ (by omega)]; exact hy)
        · intro s hs
          obtain ⟨i, x, y, hx, hy, h1, h2, h3⟩ := i2 s hs
          have := high' _ _ hy
          refine ⟨i, x, y, by rw [low _ (by omega)]; exact hx, by rw [low _ (by omega)]; exact hy, h1, h2, fun j x' y' hj hx' hy' => ?_⟩
          rcases pair j x' y' hx' hy' with ⟨-, rfl, rfl⟩ | ⟨g1, g2⟩
          · exact hc
          · exact h3 j x' y' hj g1 g2

/-- With discontinuities the search is that in the fan of the positions that are not inside of one. -/
theorem C75_multi (side : SideId) (center : Pt K) (ps : List (Pt K)) (ds : List Range) (range : Range) (h : Ordered ps.length ds) :
    multiFan side center ps ds range = some (fan side center ((outside ps.length ds range).filterMap fun k => ps[k]?)) := by
  unfold multiFan
  by_cases h0 : ps = [] ∨ range.last ≤ range.first
  · rw [if_pos h0]
    congr 1
    rcases h0 with rfl | h0
    · rfl
    · have : outside ps.length ds range = [] ∨ outside ps.length ds range = [range.first] := by
        by_cases m : range.first ∈ outside ps.length ds range
        · right
          refine sorted_ext (sorted_filter _ _) (by simp) fun k => ?_
          rw [List.mem_singleton]
          refine ⟨fun hk => ?_, fun hk => hk ▸ m⟩
          unfold outside at hk
          rw [List.mem_filter, decide_eq_true_eq] at hk
          omega
        · left
          refine List.eq_nil_iff_forall_not_mem.2 fun k hk => ?_
          have hk' := hk
          unfold outside at hk
          rw [List.mem_filter, decide_eq_true_eq] at hk
          obtain rfl : k = range.first := by omega
          exact m hk'
      rcases this with e | e
      · rw [e]; rfl
      · rw [e]
        simp only [List.filterMap_cons, List.filterMap_nil]
        cases ps[range.first]? <;> rfl
  · rw [if_neg h0]
    push Not at h0
    have hl : 0 < ps.length := List.length_pos_iff.2 h0.1
    rw [multi_spec side center ps range h0.2 ds.reverse (ps.length - 1) (by omega)
      (fun d hd => by have := h.1 d (List.mem_reverse.1 hd); omega) (List.pairwise_reverse.2 h.2)]
    congr 3
    unfold sel outside
    rw [show ps.length - 1 + 1 = ps.length by omega]
    congr 1
    funext k
    simp only [List.mem_reverse]

end Fans

/-- The right side has a partition in it, and an intersection of which the retriangulation has begun. -/
def exampleSide : Side := ⟨.right, [4, 6, 8, 10, 12], [], ⟨1, 0, true⟩, some ⟨3, true⟩⟩

example : let o := constructPartialOutline exampleSide ⟨.left, [5, 7], [], ⟨0, 0, true⟩, none⟩
    (List.range o.size).map o.get = [some 10, some 8, some 6, some 5, some 7] := by decide +kernel

example : exampleSide.partitionStart.adjacentFirst ≤ count exampleSide ∧ count exampleSide ≤ exampleSide.indices.length := by decide

example : Exact (⟨1 / 8388608, id, id, fun _ _ => -3⟩ : Format ℝ) := ⟨fun _ => rfl, fun _ => rfl⟩

/-- A fan with a triangle in it that turns clockwise. -/
example : fan SideId.right (⟨0, 0⟩ : Pt ℚ) [⟨2, -1⟩, ⟨2, 1⟩, ⟨2, 1⟩, ⟨2, 0⟩, ⟨1, 2⟩] = some ⟨⟨2, 1⟩, ⟨2, 0⟩⟩ := by decide +kernel

example : fan SideId.left (⟨0, 0⟩ : Pt ℚ) [⟨2, 1⟩, ⟨2, -1⟩, ⟨1, -2⟩] = none := by decide +kernel

/-- A discontinuity takes it out. -/
example : Ordered 5 [⟨1, 4⟩] := by
  refine ⟨by decide, by decide⟩

example : multiFan SideId.right (⟨0, 0⟩ : Pt ℚ) [⟨2, -1⟩, ⟨2, 1⟩, ⟨2, 1⟩, ⟨2, 0⟩, ⟨1, 2⟩] [⟨1, 4⟩] ⟨0, 4⟩ = some none := by decide +kernel

end Verif.PartialOutline
