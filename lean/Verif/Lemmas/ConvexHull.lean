import Mathlib.Tactic.Linarith
import Mathlib.Tactic.Ring
import Mathlib.Tactic.LinearCombination
import Mathlib.Tactic.Positivity
import Verif.Model.ConvexHull
import Verif.Spec.ConvexHull
import Verif.Props.Geometry

/-!
# The scan of `ConvexHull`
-/

set_option autoImplicit false
set_option linter.unusedSectionVars false

namespace Verif.Geo.Hull

open Verif.Geo Verif.Geo.Spec

variable {K : Type} [Field K] [LinearOrder K] [IsStrictOrderedRing K]

theorem pos_right {a b : K} (h : 0 < a * b) (ha : 0 ≤ a) : 0 < b := by
  by_contra hb
  have := mul_nonneg ha (neg_nonneg.2 (not_lt.1 hb))
  linarith

/-- Twice the signed area. -/
def turn (a b c : Pt K) : K := (b.x - a.x) * (c.y - a.y) - (b.y - a.y) * (c.x - a.x)

/-- `p` is above `s`, or at the same height to the right of it. -/
def After (s p : Pt K) : Prop := s.y < p.y ∨ s.y = p.y ∧ s.x < p.x

theorem corner_eq (a b p : Pt K) : corner a b p = turn a b p := by
  simp only [corner, turn, Pt.det]; ring

theorem turn_swap (a b c : Pt K) : turn a c b = -turn a b c := by simp only [turn]; ring

theorem turn_self (a b : Pt K) : turn a b b = 0 := by simp only [turn]; ring

/-! ## Order by angle -/

theorem turn_trans {s a b c : Pt K} (ha : After s a) (hb : After s b) (hc : After s c) (h1 : 0 ≤ turn s a b)
    (h2 : 0 ≤ turn s b c) :
    0 ≤ turn s a c ∧ (0 < turn s a b ∨ 0 < turn s b c → 0 < turn s a c) := by
  have i1 : (b.y - s.y) * turn s a c = (a.y - s.y) * turn s b c + (c.y - s.y) * turn s a b := by
    simp only [turn]; ring
  have key : ∀ p : Pt K, After s p → 0 ≤ p.y - s.y := by
    rintro p (h | ⟨h, _⟩)
    · exact (sub_pos.2 h).le
    · rw [h]; simp
  have na := key a ha
  have nb := key b hb
  have nc := key c hc
  rcases hb with hb | ⟨hb, hb'⟩
  · have pb : 0 < b.y - s.y := sub_pos.2 hb
    refine ⟨?_, fun h => ?_⟩
    · exact nonneg_of_mul_nonneg_right (i1 ▸ add_nonneg (mul_nonneg na h2) (mul_nonneg nc h1)) pb
    · refine pos_right ?_ nb
      rw [i1]
      rcases h with h | h
      · rcases nc.eq_or_lt with e | e
        · exfalso
          rcases hc with hc | ⟨-, hc⟩
          · exact absurd e (ne_of_lt (sub_pos.2 hc))
          · have : turn s b c = -((b.y - s.y) * (c.x - s.x)) := by
              simp only [turn]; linear_combination (s.x - b.x) * e
            have := mul_pos pb (sub_pos.2 hc)
            linarith
        · exact add_pos_of_nonneg_of_pos (mul_nonneg na h2) (mul_pos e h)
      · rcases na.eq_or_lt with e | e
        · rcases nc.eq_or_lt with e' | e'
          · exfalso
            rcases hc with hc | ⟨-, hc⟩
            · exact absurd e' (ne_of_lt (sub_pos.2 hc))
            · have : turn s b c = -((b.y - s.y) * (c.x - s.x)) := by
                simp only [turn]; linear_combination (s.x - b.x) * e'
              have := mul_pos pb (sub_pos.2 hc)
              linarith
          · rw [← e, zero_mul, zero_add]
            refine mul_pos e' ?_
            rcases ha with ha | ⟨-, ha⟩
            · exact absurd e (ne_of_lt (sub_pos.2 ha))
            · have : turn s a b = (a.x - s.x) * (b.y - s.y) := by
                simp only [turn]; linear_combination (b.x - s.x) * e
              rw [this]; exact mul_pos (sub_pos.2 ha) pb
        · exact add_pos_of_pos_of_nonneg (mul_pos e h) (mul_nonneg nc h1)
  · have t1 : turn s a b = -((a.y - s.y) * (b.x - s.x)) := by
      simp only [turn]; linear_combination (s.x - a.x) * hb
    have pb : 0 < b.x - s.x := sub_pos.2 hb'
    have ea : a.y - s.y = 0 := by
      rcases na.eq_or_lt with e | e
      · exact e.symm
      · have := mul_pos e pb; linarith
    have pa : 0 < a.x - s.x := by
      rcases ha with ha | ⟨-, ha⟩
      · exact absurd ea (ne_of_gt (sub_pos.2 ha))
      · exact sub_pos.2 ha
    have t2 : turn s a c = (a.x - s.x) * (c.y - s.y) := by
      simp only [turn]; linear_combination (s.x - c.x) * ea
    have t3 : turn s b c = (b.x - s.x) * (c.y - s.y) := by
      simp only [turn]; linear_combination (c.x - s.x) * hb
    refine ⟨t2 ▸ mul_nonneg pa.le nc, fun h => t2 ▸ mul_pos pa ?_⟩
    rcases h with h | h
    · rw [t1, ea] at h; simp at h
    · rw [t3] at h; exact pos_right h pb.le

theorem before_iff (s a b : Pt K) :
    before s a b = true ↔ 0 < turn s a b ∨ turn s a b = 0 ∧ |a.x - s.x| < |b.x - s.x| := by
  simp only [before, Bool.or_eq_true, Bool.and_eq_true, decide_eq_true_eq, gt_iff_lt]
  rfl

theorem not_before_iff (s a b : Pt K) :
    before s a b = false ↔ turn s a b ≤ 0 ∧ (turn s a b = 0 → |b.x - s.x| ≤ |a.x - s.x|) := by
  rw [← Bool.not_eq_true, before_iff]
  push Not
  rfl

theorem strictWeak (s : Pt K) (l : List (Pt K)) (hl : ∀ p ∈ l, After s p) : StrictWeak (before s) l := by
  refine ⟨?_, ?_, ?_⟩
  · intro a _
    rw [not_before_iff, turn_self]
    exact ⟨le_refl _, fun _ => le_refl _⟩
  · intro a ha b hb c hc h1 h2
    rw [before_iff] at *
    have hab : 0 ≤ turn s a b := by rcases h1 with h | h; exacts [h.le, h.1.ge]
    have hbc : 0 ≤ turn s b c := by rcases h2 with h | h; exacts [h.le, h.1.ge]
    obtain ⟨w, st⟩ := turn_trans (hl a ha) (hl b hb) (hl c hc) hab hbc
    rcases h1 with h1 | ⟨h1, h1'⟩
    · exact Or.inl (st (Or.inl h1))
    rcases h2 with h2 | ⟨h2, h2'⟩
    · exact Or.inl (st (Or.inr h2))
    refine Or.inr ⟨le_antisymm ?_ w, h1'.trans h2'⟩
    have := (turn_trans (hl c hc) (hl b hb) (hl a ha) (by rw [turn_swap, h2]; simp) (by rw [turn_swap, h1]; simp)).1
    rw [turn_swap] at this
    linarith
  · have key : ∀ a b : Pt K, before s a b = false → before s b a = false →
        turn s a b = 0 ∧ |a.x - s.x| = |b.x - s.x| := by
      intro a b h1 h2
      rw [not_before_iff] at h1 h2
      rw [turn_swap s a b] at h2
      have e : turn s a b = 0 := le_antisymm h1.1 (by linarith [h2.1])
      exact ⟨e, le_antisymm (h2.2 (by rw [e]; simp)) (h1.2 e)⟩
    intro a ha b hb c hc h1 h2 h3 h4
    obtain ⟨e1, x1⟩ := key a b h1 h2
    obtain ⟨e2, x2⟩ := key b c h3 h4
    have w1 := (turn_trans (hl a ha) (hl b hb) (hl c hc) e1.ge e2.ge).1
    have w2 := (turn_trans (hl c hc) (hl b hb) (hl a ha) (by rw [turn_swap, e2]; simp) (by rw [turn_swap, e1]; simp)).1
    rw [turn_swap] at w2
    have e : turn s a c = 0 := le_antisymm (by linarith) w1
    rw [not_before_iff, not_before_iff, turn_swap s a c, e]
    refine ⟨⟨le_refl _, fun _ => ?_⟩, by simp, fun _ => ?_⟩
    · rw [x1, x2]
    · rw [x1, x2]

/-! ## Convex combinations -/

theorem InHull.trans {l l' : List (Pt K)} (h : ∀ p ∈ l, InHull l' p) {p : Pt K} (hp : InHull l p) : InHull l' p := by
  induction hp with
  | point p hp => exact h p hp
  | between a b p _ _ h iha ihb => exact .between a b p iha ihb h

theorem InHull.mono {l l' : List (Pt K)} (h : ∀ p ∈ l, p ∈ l') {p : Pt K} (hp : InHull l p) : InHull l' p :=
  InHull.trans (fun p hp => .point p (h p hp)) hp

/-- A triangle is contained in the hull of its corners. -/
theorem inHull_triangle {l : List (Pt K)} {a b c p : Pt K} (ha : InHull l a) (hb : InHull l b) (hc : InHull l c)
    (u v w : K) (hu : 0 ≤ u) (hv : 0 ≤ v) (hw : 0 < w) (hs : 0 < u + v + w)
    (hx : (u + v + w) * p.x = u * a.x + v * b.x + w * c.x) (hy : (u + v + w) * p.y = u * a.y + v * b.y + w * c.y) :
    InHull l p := by
  have ne : u + v + w ≠ 0 := ne_of_gt hs
  have vw : 0 < v + w := by linarith
  have ne' : v + w ≠ 0 := ne_of_gt vw
  refine .between a ⟨(v * b.x + w * c.x) / (v + w), (v * b.y + w * c.y) / (v + w)⟩ p ha
    (.between b c _ hb hc ⟨w / (v + w), div_nonneg hw.le vw.le, ?_, ?_, ?_⟩)
    ⟨(v + w) / (u + v + w), div_nonneg vw.le hs.le, ?_, ?_, ?_⟩
  · rw [div_le_one vw]; linarith
  · dsimp only; field_simp; ring
  · dsimp only; field_simp; ring
  · rw [div_le_one hs]; linarith
  · dsimp only
    apply mul_left_cancel₀ ne
    rw [hx]; field_simp; ring
  · dsimp only
    apply mul_left_cancel₀ ne
    rw [hy]; field_simp; ring

/-! ## The stack -/

/-- All triples of the reversed list turn left. -/
def RTri : List (Pt K) → Prop
  | [] => True
  | c :: l => l.Pairwise (fun b a => 0 < turn a b c) ∧ RTri l

theorem RTri.bottom {s : Pt K} : ∀ {l : List (Pt K)}, RTri (l ++ [s]) → l.Pairwise fun b a => 0 < turn s a b
  | [], _ => .nil
  | b :: l, h => by
    refine List.pairwise_cons.2 ⟨fun a ha => ?_, RTri.bottom h.2⟩
    exact (List.pairwise_append.1 h.1).2.2 a ha s (by simp)

theorem RTri.suffix : ∀ {l l' : List (Pt K)}, RTri (l' ++ l) → RTri l
  | _, [], h => h
  | _, _ :: _, h => RTri.suffix h.2

theorem RTri.get : ∀ {l : List (Pt K)}, RTri l → ∀ i j k (_ : i < j) (_ : j < k) (hk : k < l.length),
    0 < turn l[k] l[j] l[i]
  | [], _, i, j, k, _, _, hk => by simp at hk
  | c :: l, h, 0, j + 1, k + 1, hij, hjk, hk => by
    simp only [List.getElem_cons_succ, List.getElem_cons_zero]
    exact List.pairwise_iff_getElem.1 h.1 j k _ _ (by omega)
  | c :: l, h, i + 1, j + 1, k + 1, hij, hjk, hk => by
    simp only [List.getElem_cons_succ]
    exact RTri.get h.2 i j k (by omega) (by omega) (by simpa using hk)

/-- What a sorted list provides about an earlier point `h` and a later one `p`. -/
def Behind (s p h : Pt K) : Prop := 0 ≤ turn s h p ∧ (turn s h p = 0 → OnSegment h ⟨s, p⟩)

theorem popConcave_spec (s p : Pt K) : ∀ up : List (Pt K), (∀ h ∈ up, After s h) → RTri (up ++ [s]) →
    (∀ h ∈ up, Behind s p h) →
    ∃ gone up', up = gone ++ up' ∧ popConcave p (up ++ [s]) = up' ++ [s] ∧
      (∀ h ∈ up, InHull (p :: (up' ++ [s])) h) ∧
      ∀ b a rest, up' ++ [s] = b :: a :: rest → 0 < turn a b p
  | [], _, _, _ => by
    refine ⟨[], [], rfl, rfl, by simp, fun b a rest h => ?_⟩
    simp at h
  | [b], hA, T, B => by
    rw [show [b] ++ [s] = b :: s :: [] from rfl, popConcave, corner_eq]
    split
    · rename_i hle
      have e : turn s b p = 0 := le_antisymm hle (B b (by simp)).1
      refine ⟨[b], [], rfl, rfl, ?_, fun b a rest h => by simp at h⟩
      intro h hh
      rw [List.mem_singleton.1 hh]
      exact .between s p b (.point _ (by simp)) (.point _ (by simp)) ((B b (by simp)).2 e)
    · rename_i hlt
      refine ⟨[], [b], rfl, rfl, fun h hh => .point _ (by simp at hh; simp [hh]), ?_⟩
      intro b' a rest h
      simp only [List.cons_append, List.nil_append, List.cons.injEq] at h
      rw [← h.1, ← h.2.1]
      exact not_le.1 hlt
  | b :: a :: up, hA, T, B => by
    rw [show (b :: a :: up) ++ [s] = b :: a :: (up ++ [s]) from rfl, popConcave, corner_eq]
    split
    · rename_i hle
      obtain ⟨gone, up', e, hp, hc, ht⟩ := popConcave_spec s p (a :: up) (fun h hh => hA h (by simp [hh])) T.2
        (fun h hh => B h (by simp [hh]))
      refine ⟨b :: gone, up', by rw [e]; rfl, hp, ?_, ht⟩
      intro h hh
      rcases List.mem_cons.1 hh with hh | hh
      · rw [hh]
        have w : 0 < turn s a b := (List.pairwise_append.1 T.1).2.2 a (by simp) s (by simp)
        have v := (B b (by simp)).1
        refine inHull_triangle (a := s) (b := a) (c := p) (.point _ (by simp)) (hc a (by simp)) (.point _ (by simp))
          (-turn a b p) (turn s b p) (turn s a b) (by linarith) v w (by linarith) ?_ ?_
        · simp only [turn]; ring
        · simp only [turn]; ring
      · exact hc h hh
    · rename_i hlt
      refine ⟨[], b :: a :: up, rfl, rfl, fun h hh => .point _ (List.mem_cons_of_mem _ (List.mem_append_left _ hh)), ?_⟩
      intro b' a' rest h
      simp only [List.cons_append, List.cons.injEq] at h
      rw [← h.1, ← h.2.1]
      exact not_le.1 hlt

theorem RTri.push {s p : Pt K} : ∀ {up : List (Pt K)}, (∀ h ∈ up, After s h) → After s p → RTri (up ++ [s]) →
    (∀ h ∈ up, Behind s p h) → (∀ b a rest, up ++ [s] = b :: a :: rest → 0 < turn a b p) →
    RTri (p :: (up ++ [s]))
  | [], _, _, T, _, _ => ⟨by simp, T⟩
  | b :: rest, hA, hp, T, B, top => by
    -- the last point of the stack is strictly before `p`
    have sb : 0 < turn s b p := by
      rcases (B b (by simp)).1.eq_or_lt with e | e
      · exfalso
        rcases rest with _ | ⟨a, r⟩
        · have := top b s [] rfl
          linarith
        · have t1 := top b a (r ++ [s]) rfl
          have t2 : 0 < turn s a b := (List.pairwise_append.1 T.1).2.2 a (by simp) s (by simp)
          obtain ⟨t, h0, h1, hx, hy⟩ := (B b (by simp)).2 e.symm
          dsimp only at hx hy
          have e1 : turn s a b = t * turn s a p := by simp only [turn, hx, hy]; ring
          have e2 : turn a b p = -((1 - t) * turn s a p) := by simp only [turn, hx, hy]; ring
          have : 0 < turn s a p := pos_right (e1 ▸ t2) h0
          have := mul_nonneg (sub_nonneg.2 h1) this.le
          linarith
      · exact e
    have P1 := List.pairwise_append.1 T.1
    have P2 := RTri.bottom T.2
    have sx : ∀ x ∈ rest, 0 < turn s x b := fun x hx => P1.2.2 x hx s (by simp)
    -- turns over the last point
    have over : ∀ x ∈ rest, 0 < turn x b p := by
      intro x hx
      rcases rest with _ | ⟨a, r⟩
      · simp at hx
      · have t1 := top b a (r ++ [s]) rfl
        rcases List.mem_cons.1 hx with hx | hx
        · rw [hx]; exact t1
        · have id : turn s a b * turn x b p = turn x a b * turn s b p + turn s x b * turn a b p := by
            simp only [turn]; ring
          have q1 : 0 < turn x a b := (List.pairwise_cons.1 P1.1).1 x hx
          have q2 := sx a (by simp)
          have q3 := sx x (by simp [hx])
          refine pos_right ?_ q2.le
          rw [id]
          positivity
    have sxp : ∀ x ∈ rest, 0 < turn s x p := fun x hx =>
      (turn_trans (hA x (by simp [hx])) (hA b (by simp)) hp (sx x hx).le sb.le).2 (Or.inr sb)
    refine ⟨?_, T⟩
    rw [show (b :: rest) ++ [s] = b :: (rest ++ [s]) from rfl, List.pairwise_cons]
    refine ⟨?_, List.pairwise_append.2 ⟨?_, by simp, ?_⟩⟩
    · intro x hx
      rcases List.mem_append.1 hx with hx | hx
      · exact over x hx
      · rw [List.mem_singleton.1 hx]; exact sb
    · refine (P1.1.and P2).imp_of_mem ?_
      rintro y x hy hx ⟨h1, h2⟩
      have id : turn s y b * turn x y p = turn s x y * turn y b p + turn s y p * turn x y b := by
        simp only [turn]; ring
      have q1 := sx y hy
      have q2 := over y hy
      have q3 := sxp y hy
      refine pos_right ?_ q1.le
      rw [id]
      positivity
    · intro x hx y hy
      rw [List.mem_singleton.1 hy]
      exact sxp x hx

/-- The scan so far. -/
structure Scan (s : Pt K) (seen : List (Pt K)) (st : List (Pt K)) : Prop where
  ex : ∃ up, st = up ++ [s] ∧ ∀ h ∈ up, h ∈ seen
  tri : RTri st
  covers : ∀ q ∈ seen, InHull st q

theorem Scan.add {s p : Pt K} {seen st : List (Pt K)} (S : Scan s seen st) (hA : ∀ q ∈ seen, After s q) (hp : After s p)
    (B : ∀ q ∈ seen, Behind s p q) : Scan s (seen ++ [p]) (addPoint st p) := by
  obtain ⟨⟨up, e, hup⟩, T, C⟩ := S
  subst e
  obtain ⟨gone, up', e, hpop, hin, top⟩ := popConcave_spec s p up (fun h hh => hA h (hup h hh)) T
    (fun h hh => B h (hup h hh))
  unfold addPoint
  rw [hpop]
  have sub : ∀ h ∈ up', h ∈ seen := fun h hh => hup h (by rw [e]; exact List.mem_append_right _ hh)
  refine ⟨⟨p :: up', rfl, ?_⟩, ?_, ?_⟩
  · intro h hh
    rcases List.mem_cons.1 hh with hh | hh
    · rw [hh]; simp
    · exact List.mem_append_left _ (sub h hh)
  · refine RTri.push (fun h hh => hA h (sub h hh)) hp ?_ (fun h hh => B h (sub h hh)) top
    rw [e, List.append_assoc] at T
    exact RTri.suffix T
  · intro q hq
    rcases List.mem_append.1 hq with hq | hq
    · refine InHull.trans ?_ (C q hq)
      intro h hh
      rcases List.mem_append.1 hh with hh | hh
      · exact hin h hh
      · exact .point _ (by rw [List.mem_singleton.1 hh]; simp)
    · rw [List.mem_singleton.1 hq]
      exact .point _ (by simp)

theorem Scan.fold {s : Pt K} : ∀ (l seen st : List (Pt K)), Scan s seen st → (∀ q ∈ seen ++ l, After s q) →
    (seen ++ l).Pairwise (fun q p => Behind s p q) → Scan s (seen ++ l) (l.foldl addPoint st)
  | [], seen, st, S, _, _ => by simpa using S
  | p :: l, seen, st, S, hA, P => by
    have e : seen ++ p :: l = (seen ++ [p]) ++ l := by simp
    have B : ∀ q ∈ seen, Behind s p q := fun q hq => (List.pairwise_append.1 P).2.2 q hq p (by simp)
    rw [e] at hA P ⊢
    exact Scan.fold l (seen ++ [p]) _ (S.add (fun q hq => hA q (by simp [hq])) (hA p (by simp)) B) hA P

/-- The scan of points sorted by angle, where of points in the same direction the closest comes first. -/
theorem scan_spec {s : Pt K} {l : List (Pt K)} (hA : ∀ q ∈ l, After s q) (P : l.Pairwise fun q p => Behind s p q) :
    (∀ v ∈ scan s l, v = s ∨ v ∈ l) ∧ (∀ q, q = s ∨ q ∈ l → InHull (scan s l) q) ∧ (scan s l).Nodup ∧
      (∀ i j k (_ : i < j) (_ : j < k) (hk : k < (scan s l).length),
        LeftTurn (scan s l)[i] (scan s l)[j] (scan s l)[k]) ∧ (scan s l).head? = some s := by
  have S : Scan s ([] ++ l) (l.foldl addPoint [s]) :=
    Scan.fold l [] [s] ⟨⟨[], rfl, by simp⟩, ⟨by simp, trivial⟩, by simp⟩ (by simpa using hA) (by simpa using P)
  rw [List.nil_append] at S
  obtain ⟨⟨up, e, hup⟩, T, C⟩ := S
  have eq : scan s l = s :: up.reverse := by rw [scan, e]; simp
  have mem : ∀ v, v ∈ scan s l ↔ v ∈ up ++ [s] := by intro v; rw [scan, e]; simp only [List.mem_reverse]
  refine ⟨?_, ?_, ?_, ?_, ?_⟩
  · intro v hv
    rw [eq] at hv
    rcases List.mem_cons.1 hv with hv | hv
    · exact Or.inl hv
    · exact Or.inr (hup v (by simpa using hv))
  · rintro q (hq | hq)
    · exact .point _ (by rw [eq, hq]; simp)
    · refine InHull.mono (fun v hv => (mem v).2 hv) (e ▸ C q hq)
  · rw [scan, List.nodup_reverse, e]
    refine List.nodup_append.2 ⟨?_, by simp, ?_⟩
    · refine (RTri.bottom (e ▸ T)).imp ?_
      intro a b h hab
      rw [hab, turn_self] at h
      exact absurd h (lt_irrefl _)
    · intro a ha b hb
      rw [List.mem_singleton.1 hb]
      rintro rfl
      rcases hA a (hup a ha) with h | h
      · exact absurd h (lt_irrefl _)
      · exact absurd h.2 (lt_irrefl _)
  · intro i j k hij hjk hk
    rw [show scan s l = (l.foldl addPoint [s]).reverse from rfl] at hk
    simp only [scan, List.getElem_reverse]
    rw [List.length_reverse] at hk
    have := RTri.get T (List.length (l.foldl addPoint [s]) - 1 - k) (List.length (l.foldl addPoint [s]) - 1 - j)
      (List.length (l.foldl addPoint [s]) - 1 - i) (by omega) (by omega) (by omega)
    exact this
  · rw [eq]; rfl

end Verif.Geo.Hull
