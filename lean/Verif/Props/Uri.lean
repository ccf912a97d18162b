import Verif.Model.Uri
import Mathlib.Tactic.Linarith

/-!
# Properties C09, C10: `ink::Uri`

The specification is the grammar of uri.h:28-53, written as a predicate on strings that does not
mention positions, delimiters or the parser.
-/

namespace Verif.Uri

/-! ## Specification -/

/-- A non-empty word of lower case letters and hyphens. -/
def IsName (s : List Char) : Prop := s ≠ [] ∧ ∀ c ∈ s, ('a' ≤ c ∧ c ≤ 'z') ∨ c = '-'

/-- A positive base-10 integer with no leading zero and at most nine digits. -/
def IsRevision (s : List Char) : Prop :=
  s ≠ [] ∧ (∀ c ∈ s, '0' ≤ c ∧ c ≤ '9') ∧ s.head? ≠ some '0' ∧ s.length ≤ 9

/-- The number written by a string of decimal digits. -/
def decimalValue (s : List Char) : Nat :=
  s.foldl (fun a c => 10 * a + (c.toNat - '0'.toNat)) 0

/-- `s` is a scheme part: absent, or `ink:` in any mixture of cases. -/
def IsScheme (s : List Char) : Prop :=
  s = [] ∨ ∃ a b c, s = [a, b, c, ':'] ∧ (a = 'i' ∨ a = 'I') ∧ (b = 'n' ∨ b = 'N') ∧
    (c = 'k' ∨ c = 'K')

/-- `s` matches `[<scheme>:][//<reg-name>]/<asset-type>:<asset-name>[:<revision>]`, and `x` holds
its parts, with the documented defaults for the absent ones. -/
def Denotes (s : List Char) (x : Uri) : Prop :=
  ∃ scheme reg ty rev,
    s = scheme ++ reg ++ ['/'] ++ ty ++ [':'] ++ x.assetName ++ rev ∧
    IsScheme scheme ∧
    ((reg = [] ∧ x.regName = "ink".toList) ∨ (IsName x.regName ∧ reg = ['/', '/'] ++ x.regName)) ∧
    ((ty = "brush-family".toList ∧ x.assetType = .brushFamily) ∨
      (ty = "texture".toList ∧ x.assetType = .texture)) ∧
    IsName x.assetName ∧
    ((rev = [] ∧ x.revision = 1) ∨
      ∃ d, IsRevision d ∧ rev = [':'] ++ d ∧ x.revision = decimalValue d)

/-! ## Lemmas -/

theorem char_toNat_inj {a b : Char} (h : a.toNat = b.toNat) : a = b :=
  Char.ext (UInt32.toNat_inj.1 h)

theorem toNat_ofNat {n : Nat} (h : n < 0xd800) : (Char.ofNat n).toNat = n := by
  unfold Char.ofNat
  rw [dif_pos (Or.inl h)]
  rfl

theorem char_le_iff {a b : Char} : a ≤ b ↔ a.toNat ≤ b.toNat := by
  rw [Char.le_def]; exact UInt32.le_iff_toNat_le

theorem isLowerOrHyphen_iff {s : List Char} :
    isLowerOrHyphen s = true ↔ ∀ c ∈ s, ('a' ≤ c ∧ c ≤ 'z') ∨ c = '-' := by
  simp [isLowerOrHyphen, isLower, char_le_iff]

theorem isDigit_iff {s : List Char} :
    isDigit s = true ↔ ∀ c ∈ s, '0' ≤ c ∧ c ≤ '9' := by
  simp [isDigit, isDigitC, char_le_iff]

/-- Names contain no delimiter. -/
theorem name_no_delim {s : List Char} (h : isLowerOrHyphen s = true) (d : List Char)
    (hd : ∀ c ∈ d, c ∈ ['/', ':', '?', '#']) : ∀ c ∈ s, (!d.contains c) = true := by
  intro c hc
  rw [isLowerOrHyphen_iff] at h
  simp only [List.contains_eq_mem, Bool.not_eq_true', decide_eq_false_iff_not]
  intro hcd
  have := hd c hcd
  simp only [List.mem_cons, List.not_mem_nil, or_false] at this
  rcases h c hc with ⟨h1, h2⟩ | h1
  · rw [char_le_iff] at h1 h2
    rcases this with rfl | rfl | rfl | rfl <;> revert h1 h2 <;> decide
  · rcases this with rfl | rfl | rfl | rfl <;> revert h1 <;> decide

theorem digit_no_delim {s : List Char} (h : isDigit s = true) (d : List Char)
    (hd : ∀ c ∈ d, c ∈ ['/', ':', '?', '#']) : ∀ c ∈ s, (!d.contains c) = true := by
  intro c hc
  rw [isDigit_iff] at h
  simp only [List.contains_eq_mem, Bool.not_eq_true', decide_eq_false_iff_not]
  intro hcd
  have := hd c hcd
  simp only [List.mem_cons, List.not_mem_nil, or_false] at this
  obtain ⟨h1, h2⟩ := h c hc
  rw [char_le_iff] at h1 h2
  rcases this with rfl | rfl | rfl | rfl <;> revert h1 h2 <;> decide

theorem takeWhile_append_stop {p : Char → Bool} {a b : List Char} (ha : ∀ c ∈ a, p c = true)
    (hb : ∀ c, b.head? = some c → p c = false) : (a ++ b).takeWhile p = a := by
  induction a with
  | nil =>
    cases b with
    | nil => rfl
    | cons c t => simp [hb c rfl]
  | cons x t ih =>
    simp only [List.cons_append, List.takeWhile]
    rw [ha x (by simp)]
    simp only
    rw [ih fun c hc => ha c (by simp [hc])]

theorem dist_eq {pre a b : List Char} {d : List Char}
    (ha : ∀ c ∈ a, (!d.contains c) = true) (hb : ∀ c, b.head? = some c → d.contains c = true) :
    distanceToNextDelimiterOrEnd (pre ++ (a ++ b)) pre.length d = a.length := by
  unfold distanceToNextDelimiterOrEnd
  rw [List.drop_left, takeWhile_append_stop ha]
  intro c hc; simp only [hb c hc, Bool.not_true]

theorem substr_append (pre a b : List Char) :
    substr (pre ++ (a ++ b)) pre.length a.length = a := by
  unfold substr; rw [List.drop_left, List.take_left]

/-- Splitting the string at `position`: the word up to the delimiter. -/
theorem split_at (u : List Char) (p : Nat) (d : List Char) :
    u.drop p = substr u p (distanceToNextDelimiterOrEnd u p d) ++
      u.drop (p + distanceToNextDelimiterOrEnd u p d) := by
  rw [← List.drop_drop]
  unfold substr
  exact (List.take_append_drop _ _).symm

theorem foldl_digits_lt : ∀ (s : List Char) (a : Nat), isDigit s = true →
    s.foldl (fun a c => 10 * a + (c.toNat - '0'.toNat)) a < (a + 1) * 10 ^ s.length := by
  intro s
  induction s with
  | nil => intro a _; simp
  | cons c t ih =>
    intro a h
    rw [isDigit_iff] at h
    have hc := h c (by simp)
    rw [char_le_iff, char_le_iff] at hc
    have : c.toNat - '0'.toNat ≤ 9 := by
      have : c.toNat ≤ 57 := hc.2
      have : '0'.toNat = 48 := rfl
      omega
    simp only [List.foldl_cons, List.length_cons]
    refine lt_of_lt_of_le (ih _ (isDigit_iff.2 fun x hx => h x (by simp [hx]))) ?_
    rw [pow_succ]
    calc (10 * a + (c.toNat - '0'.toNat) + 1) * 10 ^ t.length
        ≤ ((a + 1) * 10) * 10 ^ t.length := Nat.mul_le_mul_right _ (by omega)
      _ = (a + 1) * (10 ^ t.length * 10) := by ring

theorem simpleAtoi_of_revision {d : List Char} (h : IsRevision d) :
    simpleAtoi d = some (decimalValue d) := by
  obtain ⟨h1, h2, h3, h4⟩ := h
  have hd := isDigit_iff.2 h2
  have hlt := foldl_digits_lt d 0 hd
  have : 10 ^ d.length ≤ 10 ^ 9 := Nat.pow_le_pow_right (by norm_num) h4
  unfold simpleAtoi
  have he : d.isEmpty = false := by cases d <;> simp_all
  simp only [he, hd, Bool.not_true, Bool.or_self, Bool.false_eq_true, if_false]
  unfold decimalValue
  rw [if_pos]
  have : (0 + 1) * 10 ^ d.length ≤ 1000000000 := by omega
  omega

theorem toLower_eq_iff (c l u : Char) (hl : 'a'.toNat ≤ l.toNat ∧ l.toNat ≤ 'z'.toNat)
    (hu : u.toNat + 32 = l.toNat) : toLower c = l ↔ c = l ∨ c = u := by
  have ea : 'a'.toNat = 97 := rfl
  have ez : 'z'.toNat = 122 := rfl
  have eA : 'A'.toNat = 65 := rfl
  have eZ : 'Z'.toNat = 90 := rfl
  unfold toLower
  split_ifs with h
  · simp only [Bool.and_eq_true, decide_eq_true_eq] at h
    have hv : (Char.ofNat (c.toNat + 32)).toNat = c.toNat + 32 := by
      rw [toNat_ofNat (by omega)]
    constructor
    · intro e
      right; apply char_toNat_inj
      have := congrArg Char.toNat e
      omega
    · rintro (rfl | rfl)
      · omega
      · apply char_toNat_inj; omega
  · simp only [Bool.and_eq_true, decide_eq_true_eq, not_and_or] at h
    constructor
    · intro e; exact Or.inl e
    · rintro (rfl | rfl)
      · rfl
      · omega

theorem toLower_colon (c : Char) : toLower c = ':' ↔ c = ':' := by
  have eA : 'A'.toNat = 65 := rfl
  have eZ : 'Z'.toNat = 90 := rfl
  have ec : ':'.toNat = 58 := rfl
  unfold toLower
  split_ifs with h
  · simp only [Bool.and_eq_true, decide_eq_true_eq] at h
    have hv : (Char.ofNat (c.toNat + 32)).toNat = c.toNat + 32 := by
      rw [toNat_ofNat (by omega)]
    constructor
    · intro e; have := congrArg Char.toNat e; omega
    · rintro rfl; omega
  · rfl

theorem scheme_cases (u : List Char) :
    (firstPositionAfterScheme u = 4 ∧ ∃ sch rest, u = sch ++ rest ∧ sch.length = 4 ∧ IsScheme sch) ∨
    (firstPositionAfterScheme u = 0 ∧ ∀ sch rest, u = sch ++ rest → IsScheme sch → sch = []) := by
  have hi := fun c => toLower_eq_iff c 'i' 'I' (by decide) rfl
  have hn := fun c => toLower_eq_iff c 'n' 'N' (by decide) rfl
  have hk := fun c => toLower_eq_iff c 'k' 'K' (by decide) rfl
  unfold firstPositionAfterScheme
  by_cases h : ((u.take 4).map toLower == ['i', 'n', 'k', ':']) = true
  · left
    refine ⟨by rw [if_pos h], ?_⟩
    rw [beq_iff_eq] at h
    match u, h with
    | [], h => simp at h
    | [_], h => simp at h
    | [_, _], h => simp at h
    | [_, _, _], h => simp at h
    | a :: b :: c :: d :: rest, h =>
      simp only [List.take_succ_cons, List.take_zero, List.map_cons, List.map_nil, List.cons.injEq,
        and_true] at h
      rw [hi, hn, hk, toLower_colon] at h
      obtain ⟨h1, h2, h3, rfl⟩ := h
      exact ⟨[a, b, c, ':'], rest, rfl, rfl, Or.inr ⟨a, b, c, rfl, h1, h2, h3⟩⟩
  · right
    refine ⟨by rw [if_neg h], ?_⟩
    rintro sch rest rfl (rfl | ⟨a, b, c, rfl, h1, h2, h3⟩)
    · rfl
    · exfalso; apply h
      rw [beq_iff_eq]
      simp only [List.cons_append, List.nil_append, List.take_succ_cons, List.take_zero,
        List.map_cons, List.map_nil]
      rw [(hi a).2 h1, (hn b).2 h2, (hk c).2 h3, (toLower_colon _).2 rfl]

theorem isEmpty_iff_false {s : List Char} : s.isEmpty = false ↔ s ≠ [] := by
  cases s <;> simp

/-- One "leading delimiter, word" step succeeds on an explicitly split string. -/
theorem parseAssetType_append {pre ty rest : List Char} (h : IsName ty)
    (hr : ∀ c, rest.head? = some c → ['/', ':', '?', '#'].contains c = true) :
    parseAssetType (pre ++ (['/'] ++ (ty ++ rest))) pre.length =
      some (⟨pre.length + 1, ty.length⟩, pre.length + 1 + ty.length) := by
  have hn := isLowerOrHyphen_iff.2 h.2
  have hlen : (pre ++ ['/']).length = pre.length + 1 := by simp
  have e : pre ++ (['/'] ++ (ty ++ rest)) = (pre ++ ['/']) ++ (ty ++ rest) := by simp
  have hd := dist_eq (pre := pre ++ ['/']) (a := ty) (b := rest) (d := ['/', ':', '?', '#'])
    (name_no_delim hn _ fun c hc => hc) hr
  rw [← e, hlen] at hd
  have hs := substr_append (pre ++ ['/']) ty rest
  rw [← e, hlen] at hs
  unfold parseAssetType
  rw [List.drop_left]
  simp only [hd, hs, isEmpty_iff_false.2 h.1, hn]
  simp [List.isPrefixOf]

theorem parseAssetName_append {pre ty rest : List Char} (h : IsName ty)
    (hr : ∀ c, rest.head? = some c → ['/', ':', '?', '#'].contains c = true) :
    parseAssetName (pre ++ ([':'] ++ (ty ++ rest))) pre.length =
      some (⟨pre.length + 1, ty.length⟩, pre.length + 1 + ty.length) := by
  have hn := isLowerOrHyphen_iff.2 h.2
  have hlen : (pre ++ [':']).length = pre.length + 1 := by simp
  have e : pre ++ ([':'] ++ (ty ++ rest)) = (pre ++ [':']) ++ (ty ++ rest) := by simp
  have hd := dist_eq (pre := pre ++ [':']) (a := ty) (b := rest) (d := ['/', ':', '?', '#'])
    (name_no_delim hn _ fun c hc => hc) hr
  rw [← e, hlen] at hd
  have hs := substr_append (pre ++ [':']) ty rest
  rw [← e, hlen] at hs
  unfold parseAssetName
  rw [List.drop_left]
  simp only [hd, hs, isEmpty_iff_false.2 h.1, hn]
  simp [List.isPrefixOf]

theorem parseRevision_append {pre d : List Char} (h : IsRevision d) :
    parseRevisionIfPresent (pre ++ ([':'] ++ (d ++ []))) pre.length =
      some (⟨pre.length + 1, d.length⟩, pre.length + 1 + d.length) := by
  have hn := isDigit_iff.2 h.2.1
  have hlen : (pre ++ [':']).length = pre.length + 1 := by simp
  have e : pre ++ ([':'] ++ (d ++ [])) = (pre ++ [':']) ++ (d ++ []) := by simp
  have hd := dist_eq (pre := pre ++ [':']) (a := d) (b := []) (d := ['/', ':', '?', '#'])
    (digit_no_delim hn _ fun c hc => hc) (by simp)
  rw [← e, hlen] at hd
  have hs := substr_append (pre ++ [':']) d []
  rw [← e, hlen] at hs
  unfold parseRevisionIfPresent
  rw [List.drop_left]
  have h0 : (d.head? == some '0') = false := by simpa using h.2.2.1
  have h9 : ¬ d.length > 9 := by have := h.2.2.2; omega
  simp only [hd, hs, isEmpty_iff_false.2 h.1, hn, h0, h9]
  simp [List.isPrefixOf]

theorem parseRegName_append {pre r rest : List Char} (h : IsName r)
    (hr : ∀ c, rest.head? = some c → ['/', '?', '#'].contains c = true) :
    parseRegNameIfPresent (pre ++ (['/', '/'] ++ (r ++ rest))) pre.length =
      some (⟨pre.length + 2, r.length⟩, pre.length + 2 + r.length) := by
  have hn := isLowerOrHyphen_iff.2 h.2
  have hlen : (pre ++ ['/', '/']).length = pre.length + 2 := by simp
  have e : pre ++ (['/', '/'] ++ (r ++ rest)) = (pre ++ ['/', '/']) ++ (r ++ rest) := by simp
  have hd := dist_eq (pre := pre ++ ['/', '/']) (a := r) (b := rest) (d := ['/', '?', '#'])
    (name_no_delim hn _ (by intro c hc; simp at hc ⊢; tauto)) hr
  rw [← e, hlen] at hd
  have hs := substr_append (pre ++ ['/', '/']) r rest
  rw [← e, hlen] at hs
  unfold parseRegNameIfPresent
  rw [List.drop_left]
  simp only [hd, hs, isEmpty_iff_false.2 h.1, hn]
  simp [List.isPrefixOf]

theorem name_slash_absent {ty rest : List Char} (h : IsName ty) :
    ['/', '/'].isPrefixOf (['/'] ++ (ty ++ rest)) = false := by
  cases ty with
  | nil => exact absurd rfl h.1
  | cons c t =>
    have := h.2 c (by simp)
    have hc : ('/' == c) = false := by
      rw [beq_eq_false_iff_ne]
      rintro rfl
      rcases this with ⟨h1, _⟩ | h1
      · rw [char_le_iff] at h1; revert h1; decide
      · revert h1; decide
    simp [List.isPrefixOf, hc]

theorem isName_type {ty : List Char} {t : AssetType}
    (h : (ty = "brush-family".toList ∧ t = .brushFamily) ∨
      (ty = "texture".toList ∧ t = .texture)) : IsName ty := by
  have hb : isLowerOrHyphen "brush-family".toList = true := by decide
  have ht : isLowerOrHyphen "texture".toList = true := by decide
  rcases h with ⟨rfl, _⟩ | ⟨rfl, _⟩
  · exact ⟨by decide, isLowerOrHyphen_iff.1 hb⟩
  · exact ⟨by decide, isLowerOrHyphen_iff.1 ht⟩

theorem substr_mid (a b c : List Char) (n m : Nat) (hn : n = a.length) (hm : m = b.length) :
    substr (a ++ (b ++ c)) n m = b := by subst hn hm; exact substr_append a b c

/-- The grammar is accepted. -/
theorem parse_of_denotes {s : List Char} {x : Uri} (h : Denotes s x) : parse s = some x := by
  obtain ⟨scheme, reg, ty, rev, hs, hsch, hreg, hty, hname, hrev⟩ := h
  have htyn := isName_type hty
  -- position after the scheme
  have hpos : firstPositionAfterScheme s = scheme.length := by
    rcases scheme_cases s with ⟨h4, _, _, _, _, _⟩ | ⟨h0, hall⟩
    · rw [h4]
      rcases hsch with rfl | ⟨a, b, c, rfl, _⟩
      · exfalso
        -- without scheme the string starts with '/'
        have : s.head? = some '/' := by
          rw [hs]; rcases hreg with ⟨rfl, _⟩ | ⟨_, rfl⟩ <;> simp
        unfold firstPositionAfterScheme at h4
        split at h4
        · rename_i hh
          rw [beq_iff_eq] at hh
          cases s with
          | nil => simp at this
          | cons c t =>
            simp at this; subst this
            simp at hh
            exact absurd hh.1 (by decide)
        · omega
      · rfl
    · rw [h0, hall scheme _ (by rw [hs]; simp only [List.append_assoc]; rfl) hsch]; rfl
  -- the tail after the asset name starts with a delimiter
  have hrevd : ∀ c, rev.head? = some c → ['/', ':', '?', '#'].contains c = true := by
    intro c hc
    rcases hrev with ⟨rfl, _⟩ | ⟨d, _, rfl, _⟩
    · simp at hc
    · simp at hc; subst hc; decide
  have hcolon : ∀ c, ([':'] ++ (x.assetName ++ rev)).head? = some c →
      ['/', ':', '?', '#'].contains c = true := by
    intro c hc; simp at hc; subst hc; decide
  -- canonical associations of the string
  let A := scheme
  let B := scheme ++ reg
  let C := scheme ++ reg ++ ['/'] ++ ty
  let D := scheme ++ reg ++ ['/'] ++ ty ++ [':'] ++ x.assetName
  have eB : s = B ++ (['/'] ++ (ty ++ ([':'] ++ (x.assetName ++ rev)))) := by rw [hs]; simp [B]
  have eC : s = C ++ ([':'] ++ (x.assetName ++ rev)) := by rw [hs]; simp [C]
  have eD : s = D ++ rev := by rw [hs]
  have lC : C.length = B.length + 1 + ty.length := by simp [B, C]; omega
  have lD : D.length = C.length + 1 + x.assetName.length := by simp [C, D]; omega
  have pT : parseAssetType s B.length = some (⟨B.length + 1, ty.length⟩, C.length) := by
    rw [eB, parseAssetType_append htyn hcolon, lC]
  have pN : parseAssetName s C.length =
      some (⟨C.length + 1, x.assetName.length⟩, D.length) := by
    rw [eC, parseAssetName_append hname hrevd, lD]
  have sT : substr s (B.length + 1) ty.length = ty := by
    have e : s = (B ++ ['/']) ++ (ty ++ ([':'] ++ (x.assetName ++ rev))) := by rw [hs]; simp [B]
    rw [e]; exact substr_mid _ _ _ _ _ (by simp) rfl
  have sN : substr s (C.length + 1) x.assetName.length = x.assetName := by
    have e : s = (C ++ [':']) ++ (x.assetName ++ rev) := by rw [hs]; simp [C]
    rw [e]; exact substr_mid _ _ _ _ _ (by simp) rfl
  -- the optional reg-name
  have pR : ∃ r, parseRegNameIfPresent s A.length = some (r, B.length) ∧
      (if (substr s r.start r.length).isEmpty then ['i', 'n', 'k']
        else substr s r.start r.length) = x.regName := by
    rcases hreg with ⟨hr, hx⟩ | ⟨hn, hr⟩
    · refine ⟨{}, ?_, ?_⟩
      · subst hr
        have e : s = A ++ (['/'] ++ (ty ++ ([':'] ++ (x.assetName ++ rev)))) := by
          rw [hs]; simp [A]
        unfold parseRegNameIfPresent
        rw [e, List.drop_left, name_slash_absent htyn]
        simp [A, B]
      · rw [hx]; simp [substr]
    · refine ⟨⟨A.length + 2, x.regName.length⟩, ?_, ?_⟩
      · have e : s = A ++ (['/', '/'] ++ (x.regName ++ (['/'] ++ (ty ++ ([':'] ++
            (x.assetName ++ rev)))))) := by rw [hs, hr]; simp [A]
        rw [e, parseRegName_append hn (by intro c hc; simp at hc; subst hc; decide)]
        simp [A, B, hr]; omega
      · have e : s = (A ++ ['/', '/']) ++ (x.regName ++ (['/'] ++ (ty ++ ([':'] ++
            (x.assetName ++ rev))))) := by rw [hs, hr]; simp [A]
        have : substr s (A.length + 2) x.regName.length = x.regName := by
          rw [e]; exact substr_mid _ _ _ _ _ (by simp) rfl
        rw [this, isEmpty_iff_false.2 hn.1]; simp
  -- the optional revision
  have pV : ∃ r, parseRevisionIfPresent s D.length = some (r, s.length) ∧
      (simpleAtoi (substr s r.start r.length)).getD kDefaultRevisionNumber = x.revision := by
    rcases hrev with ⟨hr, hx⟩ | ⟨d, hd, hr, hx⟩
    · refine ⟨{}, ?_, ?_⟩
      · unfold parseRevisionIfPresent
        have : s = D := by rw [eD, hr, List.append_nil]
        rw [this, List.drop_length]; simp [List.isPrefixOf]
      · rw [hx]; simp [substr, simpleAtoi, kDefaultRevisionNumber]
    · refine ⟨⟨D.length + 1, d.length⟩, ?_, ?_⟩
      · have e : s = D ++ ([':'] ++ (d ++ [])) := by rw [eD, hr]; simp
        rw [e, parseRevision_append hd]
        simp; omega
      · have e : s = (D ++ [':']) ++ (d ++ []) := by rw [eD, hr]; simp
        have : substr s (D.length + 1) d.length = d := by
          rw [e]; exact substr_mid _ _ _ _ _ (by simp) rfl
        rw [this, simpleAtoi_of_revision hd, hx]; rfl
  obtain ⟨r1, pR1, pR2⟩ := pR
  obtain ⟨r2, pV1, pV2⟩ := pV
  have hne : s ≠ [] := by rw [eB]; simp
  have htail : s.drop scheme.length = reg ++ ['/'] ++ (ty ++ [':'] ++ x.assetName ++ rev) := by
    rw [hs]; simp
  have hhead : (s.drop scheme.length).head? = some '/' := by
    rw [htail]; rcases hreg with ⟨rfl, _⟩ | ⟨_, rfl⟩ <;> simp
  have htne : (s.drop scheme.length).isEmpty = false := by
    rw [isEmpty_iff_false]; intro e; rw [e] at hhead; simp at hhead
  unfold parse
  rw [isEmpty_iff_false.2 hne, hpos]
  simp only [htne, hhead, bne_self_eq_false, Bool.false_eq_true, if_false]
  have pR1' : parseRegNameIfPresent s scheme.length = some (r1, B.length) := pR1
  rw [pR1']
  simp only [Option.bind_eq_bind, Option.bind_some]
  rw [pT]
  simp only [Option.bind_some]
  rw [pN]
  simp only [Option.bind_some]
  rw [pV1]
  simp only [Option.bind_some, bne_self_eq_false, Bool.false_eq_true, if_false, sT, sN, pR2, pV2]
  rcases hty with ⟨rfl, hx⟩ | ⟨rfl, hx⟩
  · simp [← hx]
  · rw [if_neg (by decide)]; simp [← hx]

theorem isPrefixOf_iff_append {a b : List Char} : a.isPrefixOf b = true ↔ ∃ t, b = a ++ t := by
  rw [List.isPrefixOf_iff_prefix]
  exact ⟨fun ⟨t, h⟩ => ⟨t, h.symm⟩, fun ⟨t, h⟩ => ⟨t, h.symm⟩⟩

theorem drop_of_prefix {u : List Char} {p : Nat} {a : List Char}
    (h : a.isPrefixOf (u.drop p) = true) : u.drop p = a ++ u.drop (p + a.length) := by
  obtain ⟨t, ht⟩ := isPrefixOf_iff_append.1 h
  rw [← List.drop_drop, ht, List.drop_left]

theorem parseAssetType_some {u : List Char} {p : Nat} {r q} (h : parseAssetType u p = some (r, q)) :
    u.drop p = ['/'] ++ (substr u r.start r.length ++ u.drop q) ∧
      IsName (substr u r.start r.length) := by
  unfold parseAssetType at h
  split at h
  · simp at h
  · rename_i h1
    simp only [Bool.not_eq_true, Bool.not_eq_false'] at h1
    dsimp only at h
    split at h
    · simp at h
    · rename_i h2
      split at h
      · simp at h
      · rename_i h3
        simp only [Option.some.injEq, Prod.mk.injEq] at h
        obtain ⟨rfl, rfl⟩ := h
        refine ⟨?_, by simpa using h2, isLowerOrHyphen_iff.1 (by simpa using h3)⟩
        rw [drop_of_prefix h1]
        congr 1
        exact split_at u (p + 1) _

theorem parseAssetName_some {u : List Char} {p : Nat} {r q} (h : parseAssetName u p = some (r, q)) :
    u.drop p = [':'] ++ (substr u r.start r.length ++ u.drop q) ∧
      IsName (substr u r.start r.length) := by
  unfold parseAssetName at h
  split at h
  · simp at h
  split at h
  · simp at h
  · rename_i h1
    simp only [Bool.not_eq_true, Bool.not_eq_false'] at h1
    dsimp only at h
    split at h
    · simp at h
    · rename_i h2
      split at h
      · simp at h
      · rename_i h3
        simp only [Option.some.injEq, Prod.mk.injEq] at h
        obtain ⟨rfl, rfl⟩ := h
        refine ⟨?_, by simpa using h2, isLowerOrHyphen_iff.1 (by simpa using h3)⟩
        rw [drop_of_prefix h1]
        congr 1
        exact split_at u (p + 1) _

theorem parseRegName_some {u : List Char} {p : Nat} {r q}
    (h : parseRegNameIfPresent u p = some (r, q)) :
    (q = p ∧ r.start = 0 ∧ r.length = 0) ∨
    (u.drop p = ['/', '/'] ++ (substr u r.start r.length ++ u.drop q) ∧
      IsName (substr u r.start r.length)) := by
  unfold parseRegNameIfPresent at h
  split at h
  · simp only [Option.some.injEq, Prod.mk.injEq] at h
    obtain ⟨rfl, rfl⟩ := h
    exact Or.inl ⟨rfl, rfl, rfl⟩
  · rename_i h1
    simp only [Bool.not_eq_true, Bool.not_eq_false'] at h1
    dsimp only at h
    split at h
    · simp at h
    · rename_i h2
      split at h
      · simp at h
      · rename_i h3
        simp only [Option.some.injEq, Prod.mk.injEq] at h
        obtain ⟨rfl, rfl⟩ := h
        refine Or.inr ⟨?_, by simpa using h2, isLowerOrHyphen_iff.1 (by simpa using h3)⟩
        rw [drop_of_prefix h1]
        congr 1
        exact split_at u (p + 2) _

theorem parseRevision_some {u : List Char} {p : Nat} {r q}
    (h : parseRevisionIfPresent u p = some (r, q)) :
    (q = p ∧ r.start = 0 ∧ r.length = 0) ∨
    (u.drop p = [':'] ++ (substr u r.start r.length ++ u.drop q) ∧
      IsRevision (substr u r.start r.length)) := by
  unfold parseRevisionIfPresent at h
  split at h
  · simp only [Option.some.injEq, Prod.mk.injEq] at h
    obtain ⟨rfl, rfl⟩ := h
    exact Or.inl ⟨rfl, rfl, rfl⟩
  · rename_i h1
    simp only [Bool.not_eq_true, Bool.not_eq_false'] at h1
    dsimp only at h
    split at h
    · simp at h
    rename_i h2
    split at h
    · simp at h
    rename_i h3
    split at h
    · simp at h
    rename_i h4
    split at h
    · simp at h
    rename_i h5
    simp only [Option.some.injEq, Prod.mk.injEq] at h
    obtain ⟨rfl, rfl⟩ := h
    refine Or.inr ⟨?_, by simpa using h2, isDigit_iff.1 (by simpa using h3), by simpa using h4,
      not_lt.1 h5⟩
    rw [drop_of_prefix h1]
    congr 1
    exact split_at u (p + 1) _

/-- Only the grammar is accepted (non-empty strings). -/
theorem denotes_of_parse {s : List Char} {x : Uri} (hs : s ≠ []) (h : parse s = some x) :
    Denotes s x := by
  unfold parse at h
  rw [isEmpty_iff_false.2 hs] at h
  simp only [Bool.false_eq_true, if_false] at h
  split at h
  · simp at h
  split at h
  · simp at h
  simp only [Option.bind_eq_bind, Option.bind_eq_some_iff] at h
  obtain ⟨⟨r1, p1⟩, e1, ⟨r2, p2⟩, e2, ⟨r3, p3⟩, e3, ⟨r4, p4⟩, e4, h⟩ := h
  dsimp only at e1 e2 e3 e4 h
  split at h
  · simp at h
  rename_i hend
  have hend : p4 = s.length := by simpa using hend
  obtain ⟨d2, n2⟩ := parseAssetType_some e2
  obtain ⟨d3, n3⟩ := parseAssetName_some e3
  have hsch : ∃ scheme, s = scheme ++ s.drop (firstPositionAfterScheme s) ∧ IsScheme scheme := by
    rcases scheme_cases s with ⟨h4, sch, rest, e, hl, hi⟩ | ⟨h0, _⟩
    · refine ⟨sch, ?_, hi⟩
      rw [h4]; conv_lhs => rw [e]
      congr 1
      rw [e, ← hl, List.drop_left]
    · exact ⟨[], by rw [h0]; rfl, Or.inl rfl⟩
  obtain ⟨scheme, es, hi⟩ := hsch
  have key : ∀ t, x = ⟨if (substr s r1.start r1.length).isEmpty then ['i', 'n', 'k']
        else substr s r1.start r1.length, substr s r3.start r3.length,
        (simpleAtoi (substr s r4.start r4.length)).getD kDefaultRevisionNumber, t⟩ →
      ((substr s r2.start r2.length = "brush-family".toList ∧ t = .brushFamily) ∨
      (substr s r2.start r2.length = "texture".toList ∧ t = .texture)) → Denotes s x := by
    intro t hx hty
    subst hx
    have hrev : ∃ rev, s.drop p3 = rev ∧ ((rev = [] ∧
        (simpleAtoi (substr s r4.start r4.length)).getD kDefaultRevisionNumber = 1) ∨
        ∃ d, IsRevision d ∧ rev = [':'] ++ d ∧
        (simpleAtoi (substr s r4.start r4.length)).getD kDefaultRevisionNumber =
          decimalValue d) := by
      rcases parseRevision_some e4 with ⟨hq, h0, h1⟩ | ⟨d4, n4⟩
      · refine ⟨_, rfl, Or.inl ⟨?_, ?_⟩⟩
        · rw [← hq, hend, List.drop_length]
        · rw [h0, h1]; simp [substr, simpleAtoi, kDefaultRevisionNumber]
      · refine ⟨_, rfl, Or.inr ⟨_, n4, ?_, ?_⟩⟩
        · rw [d4, hend, List.drop_length, List.append_nil]
        · rw [simpleAtoi_of_revision n4]; rfl
    obtain ⟨rev, erev, hrev⟩ := hrev
    rw [erev] at d3
    rw [d3] at d2
    rcases parseRegName_some e1 with ⟨hq, h0, h1⟩ | ⟨d1, n1⟩
    · refine ⟨scheme, [], substr s r2.start r2.length, rev, ?_, hi, Or.inl ⟨rfl, ?_⟩, hty, n3, hrev⟩
      · conv_lhs => rw [es]
        rw [← hq, d2]; simp
      · rw [h0, h1]; simp [substr]
    · rw [d2] at d1
      refine ⟨scheme, _, substr s r2.start r2.length, rev, ?_, hi, Or.inr ⟨?_, rfl⟩, hty, n3, hrev⟩
      · conv_lhs => rw [es]
        rw [d1]
        simp [isEmpty_iff_false.2 n1.1]
      · rw [isEmpty_iff_false.2 n1.1]; simpa using n1
  split at h
  · rename_i ht
    exact key .brushFamily (by simpa using h.symm) (Or.inl ⟨by simpa using ht, rfl⟩)
  · split at h
    · rename_i ht
      exact key .texture (by simpa using h.symm) (Or.inr ⟨by simpa using ht, rfl⟩)
    · simp at h

/-! ## Property theorems -/

/-- **C10.** `Uri::Parse` accepts exactly the empty string (giving the default-constructed `Uri`)
and the strings of the documented grammar, and returns exactly the parts the grammar assigns. -/
theorem C10_parse_accepts_exactly_grammar (s : List Char) (x : Uri) :
    parse s = some x ↔ (s = [] ∧ x = {}) ∨ Denotes s x := by
  constructor
  · intro h
    by_cases hs : s = []
    · subst hs; left; refine ⟨rfl, ?_⟩
      simp [parse] at h; exact h.symm
    · exact Or.inr (denotes_of_parse hs h)
  · rintro (⟨rfl, rfl⟩ | h)
    · rfl
    · exact parse_of_denotes h

/-- A string has at most one meaning in the grammar. -/
theorem C10_grammar_unambiguous {s : List Char} {x y : Uri} (hx : Denotes s x) (hy : Denotes s y) :
    x = y := by
  have a := parse_of_denotes hx
  have b := parse_of_denotes hy
  rw [a] at b; exact Option.some.inj b

theorem decimalValue_foldr (l : List Nat) (hl : ∀ d ∈ l, d < 10) :
    (l.reverse.map fun d => Char.ofNat (d + '0'.toNat)).foldl
      (fun a c => 10 * a + (c.toNat - '0'.toNat)) 0 = Nat.ofDigits 10 l := by
  induction l with
  | nil => rfl
  | cons d t ih =>
    have hd := hl d (by simp)
    have hv : (Char.ofNat (d + '0'.toNat)).toNat = d + '0'.toNat := by
      have e0 : '0'.toNat = 48 := rfl
      rw [toNat_ofNat (by omega)]
    rw [List.reverse_cons, List.map_append, List.foldl_append, ih fun x hx => hl x (by simp [hx])]
    simp only [List.map_cons, List.map_nil, List.foldl_cons, List.foldl_nil, hv,
      Nat.add_sub_cancel, Nat.ofDigits_cons]
    omega

theorem printNat_spec {n : Nat} (h0 : n ≠ 0) (h9 : n < 10 ^ 9) :
    IsRevision (printNat n) ∧ decimalValue (printNat n) = n := by
  have e0 : '0'.toNat = 48 := rfl
  have e9 : '9'.toNat = 57 := rfl
  unfold printNat
  rw [if_neg h0]
  have hlt : ∀ d ∈ Nat.digits 10 n, d < 10 := fun d hd => Nat.digits_lt_base (by norm_num) hd
  have hval : ∀ d, d < 10 → (Char.ofNat (d + '0'.toNat)).toNat = d + 48 := by
    intro d hd
    rw [toNat_ofNat (by omega), e0]
  have hne : Nat.digits 10 n ≠ [] := Nat.digits_ne_nil_iff_ne_zero.2 h0
  refine ⟨⟨by simpa using hne, ?_, ?_, ?_⟩, ?_⟩
  · intro c hc
    simp only [List.mem_map, List.mem_reverse] at hc
    obtain ⟨d, hd, rfl⟩ := hc
    have := hlt d hd
    rw [char_le_iff, char_le_iff, hval d this]
    omega
  · rw [List.head?_map, List.head?_reverse, List.getLast?_eq_getLast_of_ne_nil hne]
    simp only [Option.map_some, ne_eq, Option.some.injEq]
    intro e
    have hl := hlt _ (List.getLast_mem hne)
    have h1 := congrArg Char.toNat e
    rw [hval _ hl] at h1
    have := Nat.getLast_digit_ne_zero 10 h0
    have h2 : '0'.toNat = 48 := rfl
    omega
  · rw [List.length_map, List.length_reverse, Nat.digits_length_le_iff (by norm_num)]
    exact h9
  · unfold decimalValue
    rw [decimalValue_foldr _ hlt, Nat.ofDigits_digits]

/-- The value of a revision is a positive number below `10^9`. -/
theorem revision_bounds {d : List Char} (h : IsRevision d) :
    decimalValue d ≠ 0 ∧ decimalValue d < 10 ^ 9 := by
  obtain ⟨h1, h2, h3, h4⟩ := h
  constructor
  · cases d with
    | nil => exact absurd rfl h1
    | cons c t =>
      have hc := h2 c (by simp)
      rw [char_le_iff, char_le_iff] at hc
      have e0 : '0'.toNat = 48 := rfl
      have hne : c.toNat ≠ 48 := by
        intro e; apply h3; simp; exact char_toNat_inj e
      have mono : ∀ (t : List Char) (a : Nat), a ≠ 0 →
          t.foldl (fun a c => 10 * a + (c.toNat - '0'.toNat)) a ≠ 0 := by
        intro t; induction t with
        | nil => intro a ha; exact ha
        | cons c t ih => intro a ha; exact ih _ (by show 10 * a + _ ≠ 0; omega)
      refine mono t _ ?_
      have := hc.1
      show 10 * 0 + (c.toNat - '0'.toNat) ≠ 0
      omega
  · have := foldl_digits_lt d 0 (isDigit_iff.2 h2)
    have h5 : 10 ^ d.length ≤ 10 ^ 9 := Nat.pow_le_pow_right (by norm_num) h4
    unfold decimalValue
    omega

theorem denotes_normalized {s : List Char} {x : Uri} (h : Denotes s x) :
    Denotes (toNormalizedString x) x := by
  obtain ⟨scheme, reg, ty, rev, hs, hsch, hreg, hty, hname, hrev⟩ := h
  have htype : ty = assetTypeString x.assetType ∧ x.assetType ≠ .uninitialized := by
    rcases hty with ⟨rfl, h⟩ | ⟨rfl, h⟩ <;> rw [h] <;> exact ⟨rfl, by decide⟩
  refine ⟨[], if x.regName ≠ ['i', 'n', 'k'] then ['/', '/'] ++ x.regName else [], ty,
    if x.revision ≠ kDefaultRevisionNumber then [':'] ++ printNat x.revision else [],
    ?_, Or.inl rfl, ?_, hty, hname, ?_⟩
  · unfold toNormalizedString
    rw [if_neg htype.2, ← htype.1]
    simp
  · split_ifs with h1
    · right
      refine ⟨?_, rfl⟩
      rcases hreg with ⟨_, h2⟩ | ⟨h2, _⟩
      · exact absurd h2 h1
      · exact h2
    · left; exact ⟨rfl, by simpa using h1⟩
  · split_ifs with h1
    · right
      have hb : x.revision ≠ 0 ∧ x.revision < 10 ^ 9 := by
        rcases hrev with ⟨_, h2⟩ | ⟨d, h2, _, h3⟩
        · exact absurd h2 h1
        · rw [h3]; exact revision_bounds h2
      have ⟨a, b⟩ := printNat_spec hb.1 hb.2
      exact ⟨_, a, rfl, b.symm⟩
    · left; exact ⟨rfl, by simpa [kDefaultRevisionNumber] using h1⟩

/-- **C09.** For every `Uri` obtained from a successful `Parse`, parsing its normalized string gives
back the same `Uri`. -/
theorem C09_parse_normalized_roundtrip {s : List Char} {x : Uri} (h : parse s = some x) :
    parse (toNormalizedString x) = some x := by
  rcases (C10_parse_accepts_exactly_grammar s x).1 h with ⟨_, rfl⟩ | hd
  · rfl
  · exact parse_of_denotes (denotes_normalized hd)

/-- **C09.** Two parsed `Uri`s are equal exactly when their normalized strings are. -/
theorem C09_equal_iff_same_normalized_string {s t : List Char} {x y : Uri}
    (hx : parse s = some x) (hy : parse t = some y) :
    x = y ↔ toNormalizedString x = toNormalizedString y := by
  constructor
  · rintro rfl; rfl
  · intro h
    have a := C09_parse_normalized_roundtrip hx
    have b := C09_parse_normalized_roundtrip hy
    rw [h, b] at a
    exact (Option.some.inj a).symm

/-- **C09.** Normalisation is idempotent. -/
theorem C09_normalization_idempotent {s : List Char} {x y : Uri} (hx : parse s = some x)
    (hy : parse (toNormalizedString x) = some y) :
    toNormalizedString y = toNormalizedString x := by
  rw [C09_parse_normalized_roundtrip hx] at hy
  rw [Option.some.inj hy]

/-- **C09.** The normalized string is at most as long as any other string with the same meaning. -/
theorem C09_normalized_is_shortest {s : List Char} {x : Uri} (h : parse s = some x) :
    (toNormalizedString x).length ≤ s.length := by
  rcases (C10_parse_accepts_exactly_grammar s x).1 h with ⟨_, rfl⟩ | hd
  · simp [toNormalizedString]
  · obtain ⟨scheme, reg, ty, rev, hs, hsch, hreg, hty, hname, hrev⟩ := hd
    have htype : ty = assetTypeString x.assetType ∧ x.assetType ≠ .uninitialized := by
      rcases hty with ⟨rfl, h⟩ | ⟨rfl, h⟩ <;> rw [h] <;> exact ⟨rfl, by decide⟩
    have h1 : (if x.regName ≠ ['i', 'n', 'k'] then ['/', '/'] ++ x.regName else []).length
        ≤ reg.length := by
      rcases hreg with ⟨_, h2⟩ | ⟨_, rfl⟩
      · rw [if_neg (by simp [h2])]; simp
      · split_ifs <;> simp
    have h2 : (if x.revision ≠ kDefaultRevisionNumber then [':'] ++ printNat x.revision
        else []).length ≤ rev.length := by
      rcases hrev with ⟨_, h2⟩ | ⟨d, h2, rfl, h3⟩
      · rw [if_neg (by simp [h2, kDefaultRevisionNumber])]; simp
      · split_ifs with hne
        · have hb := revision_bounds h2
          rw [← h3] at hb
          simp only [List.length_append, List.length_singleton, Nat.add_le_add_iff_left]
          unfold printNat
          rw [if_neg hb.1, List.length_map, List.length_reverse,
            Nat.digits_length_le_iff (by norm_num), h3]
          have := foldl_digits_lt d 0 (isDigit_iff.2 h2.2.1)
          unfold decimalValue; omega
        · simp
    unfold toNormalizedString
    rw [if_neg htype.2, ← htype.1, hs]
    simp only [List.length_append] at h1 h2 ⊢
    omega

/-- Every parsed `Uri` meets the documented constraints on its fields. -/
theorem C10_parsed_fields {s : List Char} {x : Uri} (h : parse s = some x) (hs : s ≠ []) :
    IsName x.regName ∧ IsName x.assetName ∧ x.assetType ≠ .uninitialized ∧
      1 ≤ x.revision ∧ x.revision ≤ 999999999 := by
  obtain ⟨scheme, reg, ty, rev, _, hsch, hreg, hty, hname, hrev⟩ := denotes_of_parse hs h
  refine ⟨?_, hname, ?_, ?_⟩
  · rcases hreg with ⟨_, h⟩ | ⟨h, _⟩
    · rw [h]; exact ⟨by decide, isLowerOrHyphen_iff.1 (by decide)⟩
    · exact h
  · rcases hty with ⟨_, h⟩ | ⟨_, h⟩ <;> rw [h] <;> decide
  · rcases hrev with ⟨_, h⟩ | ⟨d, hd, _, h⟩
    · omega
    · have := revision_bounds hd; omega

/-! ## Non-vacuity -/

/-- A non-trivial string in the grammar, with every optional part present. -/
example : parse "INK://my-app/brush-family:foo-bar:42".toList =
    some ⟨"my-app".toList, "foo-bar".toList, 42, .brushFamily⟩ := by decide
example : toNormalizedString ⟨"my-app".toList, "foo-bar".toList, 42, .brushFamily⟩ =
    "//my-app/brush-family:foo-bar:42".toList := by decide
example : parse "ink://ink/texture:x:1".toList = parse "/texture:x".toList := by decide
example : parse "/texture:x:01".toList = none := by decide
example : parse "/texture:x:1234567890".toList = none := by decide
example : parse "ink:texture:x".toList = none := by decide

end Verif.Uri
