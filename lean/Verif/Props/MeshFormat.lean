import Verif.Spec.MeshFormat
import Mathlib.Data.List.Nodup
import Mathlib.Tactic.Common

/-!
# Property C11: `MeshFormat`
-/

set_option autoImplicit false

namespace Verif.Mesh

open Verif.Mesh.Spec

theorem componentCount_eq (t : AttrType) (c : Nat) :
    componentCount t = some c ↔ (∀ code, t ≠ .unnamed code) ∧ components t = c := by
  cases t <;> simp [componentCount, components]

theorem unpackedSize_eq {t : AttrType} (h : ∀ code, t ≠ .unnamed code) :
    unpackedAttributeSize t = some (unpackedBytes t) := by
  cases t <;> simp_all [unpackedAttributeSize, componentCount, unpackedBytes, components]

theorem packedSize_eq {t : AttrType} (h : ∀ code, t ≠ .unnamed code) :
    packedAttributeSize t = some (packedBytes t) := by
  cases t <;> simp_all [packedAttributeSize, packedBytes]

theorem unpackedBytes_le (t : AttrType) : unpackedBytes t ≤ 16 := by
  cases t <;> simp [unpackedBytes, components]

theorem packedBytes_le (t : AttrType) : packedBytes t ≤ 16 := by
  cases t <;> simp [packedBytes]

theorem isValidType_iff (t : AttrType) : isValidType t = true ↔ ∀ code, t ≠ .unnamed code := by
  cases t <;> simp [isValidType]

/-- The loop of `Create`. -/
theorem checkAttributes_spec : ∀ (attrs : List (AttrType × AttrId)) (i : Nat) (seen : List AttrId)
    (pos r : Option Nat), checkAttributes i seen pos attrs = some r ↔
      (∀ a ∈ attrs, (∀ code, a.1 ≠ .unnamed code) ∧ a.2 ≤ 18 ∧ a.2 ∉ seen) ∧
      (attrs.map Prod.snd).Nodup ∧
      r = (match (attrs.map Prod.snd).idxOf? 0 with | some j => some (i + j) | none => pos) := by
  intro attrs
  induction attrs with
  | nil => intro i seen pos r; simp [checkAttributes, eq_comm]
  | cons a rest ih =>
    intro i seen pos r
    obtain ⟨t, id⟩ := a
    unfold checkAttributes
    by_cases h1 : isValidType t = true
    swap
    · have : ¬ ∀ code, t ≠ .unnamed code := fun h => h1 ((isValidType_iff t).2 h)
      simp only [h1]
      simp only [Bool.not_false, if_true, List.mem_cons, forall_eq_or_imp]
      tauto
    by_cases h2 : isValidId id = true
    swap
    · have : ¬ id ≤ 18 := by simpa [isValidId, Nat.lt_succ_iff] using h2
      simp only [h1, h2, Bool.not_true, Bool.not_false, if_true, Bool.false_eq_true, if_false,
        List.mem_cons, forall_eq_or_imp]
      tauto
    have h2' : id ≤ 18 := by simpa [isValidId, Nat.lt_succ_iff] using h2
    by_cases h3 : seen.contains id = true
    · have : id ∈ seen := by simpa using h3
      simp only [h1, h2, h3, Bool.not_true, if_true, Bool.false_eq_true, if_false,
        List.mem_cons, forall_eq_or_imp]
      tauto
    have h3' : id ∉ seen := by simpa using h3
    simp only [h1, h2, h3, Bool.not_true, Bool.false_eq_true, if_false]
    rw [ih]
    have ht := (isValidType_iff t).1 h1
    have hcongr : (∀ a ∈ rest, (∀ code, a.1 ≠ .unnamed code) ∧ a.2 ≤ 18 ∧ a.2 ∉ id :: seen) ∧
        (rest.map Prod.snd).Nodup ↔
        (∀ a ∈ (t, id) :: rest, (∀ code, a.1 ≠ .unnamed code) ∧ a.2 ≤ 18 ∧ a.2 ∉ seen) ∧
        (((t, id) :: rest).map Prod.snd).Nodup := by
      constructor
      · rintro ⟨ha, hn⟩
        refine ⟨?_, ?_⟩
        · intro a ha'
          rcases List.mem_cons.1 ha' with rfl | ha'
          · exact ⟨ht, h2', h3'⟩
          · obtain ⟨q1, q2, q3⟩ := ha a ha'
            exact ⟨q1, q2, fun h => q3 (List.mem_cons_of_mem _ h)⟩
        · rw [List.map_cons, List.nodup_cons]
          refine ⟨?_, hn⟩
          intro hm
          obtain ⟨a, ham, hae⟩ := List.mem_map.1 hm
          exact (ha a ham).2.2 (by simp only at hae; rw [hae]; exact List.mem_cons_self)
      · rintro ⟨ha, hn⟩
        rw [List.map_cons, List.nodup_cons] at hn
        refine ⟨?_, hn.2⟩
        intro a ha'
        obtain ⟨q1, q2, q3⟩ := ha a (List.mem_cons_of_mem _ ha')
        refine ⟨q1, q2, ?_⟩
        intro hm
        rcases List.mem_cons.1 hm with he | hm
        · exact hn.1 (List.mem_map.2 ⟨a, ha', he⟩)
        · exact q3 hm
    rw [← and_assoc, hcongr, and_assoc]
    refine and_congr_right fun hall => and_congr_right fun hn => ?_
    rw [List.map_cons, List.idxOf?_cons]
    by_cases h0 : id = kPosition
    · have h0' : id = 0 := h0
      have hno : (rest.map Prod.snd).idxOf? 0 = none := by
        rw [List.idxOf?_eq_none_iff]
        rw [List.map_cons, List.nodup_cons] at hn
        simpa [h0'] using hn.1
      rw [hno]
      simp [h0', kPosition]
    · have h0' : ¬ id = 0 := h0
      rw [if_neg h0]
      simp only [beq_iff_eq, h0', if_false]
      cases (rest.map Prod.snd).idxOf? 0 with
      | none => rfl
      | some j => simp only [Option.map_some]; rw [show i + 1 + j = i + (j + 1) by omega]

theorem sum_le_of_le {l : List Nat} {b : Nat} (h : ∀ x ∈ l, x ≤ b) : l.sum ≤ b * l.length := by
  induction l with
  | nil => simp
  | cons a l ih =>
    have := ih (fun x hx => h x (by simp [hx]))
    have := h a (by simp)
    simp only [List.sum_cons, List.length_cons, Nat.mul_add]
    omega

/-- The loop of `PopulateOffsetWidthAndStride`, without the wrap-around. -/
theorem layoutFrom_spec : ∀ (attrs : List (AttrType × AttrId)) (u p : Nat),
    (∀ a ∈ attrs, ∀ code, a.1 ≠ .unnamed code) →
    u + 16 * attrs.length < 65536 → p + 16 * attrs.length < 65536 →
    ∃ as, layoutFrom u p attrs = some (as, u + (attrs.map fun a => unpackedBytes a.1).sum,
        p + (attrs.map fun a => packedBytes a.1).sum) ∧
      as.map (fun a => (a.type, a.id)) = attrs ∧
      (∀ a ∈ as, a.unpackedWidth = unpackedBytes a.type ∧ a.packedWidth = packedBytes a.type) ∧
      (∀ i a, as[i]? = some a →
        a.unpackedOffset = u + ((attrs.take i).map fun a => unpackedBytes a.1).sum ∧
        a.packedOffset = p + ((attrs.take i).map fun a => packedBytes a.1).sum) := by
  intro attrs
  induction attrs with
  | nil => intro u p _ _ _; exact ⟨[], by simp [layoutFrom], rfl, by simp, by simp⟩
  | cons a rest ih =>
    intro u p hn hu hp
    obtain ⟨t, id⟩ := a
    have ht := hn (t, id) (by simp)
    have e1 := unpackedBytes_le t
    have e2 := packedBytes_le t
    simp only [List.length_cons, Nat.mul_add] at hu hp
    obtain ⟨as, q1, q2, q3, q4⟩ := ih (u + unpackedBytes t) (p + packedBytes t)
      (fun a ha => hn a (by simp [ha])) (by omega) (by omega)
    refine ⟨⟨t, id, u, p, unpackedBytes t, packedBytes t⟩ :: as, ?_, ?_, ?_, ?_⟩
    · unfold layoutFrom
      rw [unpackedSize_eq ht, packedSize_eq ht, ]
      simp only [Option.bind_eq_bind, Option.bind_some]
      rw [Nat.mod_eq_of_lt (by omega), Nat.mod_eq_of_lt (by omega), q1]
      simp only [Option.bind_some, List.map_cons, List.sum_cons]
      rw [Nat.add_assoc, Nat.add_assoc]
    · simp [q2]
    · intro a ha
      rcases List.mem_cons.1 ha with rfl | ha
      · exact ⟨rfl, rfl⟩
      · exact q3 a ha
    · intro i a hi
      cases i with
      | zero =>
        simp only [List.getElem?_cons_zero, Option.some.injEq] at hi
        subst hi
        simp
      | succ i =>
        rw [List.getElem?_cons_succ] at hi
        obtain ⟨r1, r2⟩ := q4 i a hi
        rw [List.take_succ_cons, List.map_cons, List.sum_cons, List.map_cons, List.sum_cons]
        exact ⟨by rw [r1]; simp only; omega, by rw [r2]; simp only; omega⟩

/-- `Create` in one equation. -/
theorem create_eq {attrs : List (AttrType × AttrId)} {ixf : IndexFormat} {f : MeshFormat} :
    create attrs ixf = some f →
    Valid attrs ∧ f.attributes.map (fun a => (a.type, a.id)) = attrs ∧
      f.indexFormat = ixf ∧ f.indexStride = indexBytes ixf ∧
      (attrs[f.positionIndex]?).map Prod.snd = some 0 ∧
      (attrs[f.positionIndex]?).map (fun a => components a.1) = some 2 ∧
      (∀ a ∈ f.attributes,
        a.unpackedWidth = unpackedBytes a.type ∧ a.packedWidth = packedBytes a.type) ∧
      Tiles (f.attributes.map fun a => (a.unpackedOffset, a.unpackedWidth)) f.unpackedStride ∧
      Tiles (f.attributes.map fun a => (a.packedOffset, a.packedWidth)) f.packedStride := by
  intro h
  unfold create at h
  by_cases h1 : attrs.isEmpty = true
  · rw [if_pos h1] at h; simp at h
  by_cases h2 : attrs.length > kMaxVertexAttributes
  · rw [if_neg h1, if_pos h2] at h; simp at h
  rw [if_neg h1, if_neg h2] at h
  simp only [Option.bind_eq_bind, Option.bind_eq_some_iff] at h
  obtain ⟨posO, hp, pos, hp', a, ha, c, hc, h⟩ := h
  by_cases hc2 : c ≠ 2
  · rw [if_pos hc2] at h; simp at h
  rw [if_neg hc2] at h
  simp only [Option.bind_eq_some_iff, Option.some.injEq, Prod.exists] at h
  obtain ⟨as, u, p, hl, rfl⟩ := h
  obtain ⟨g1, g2, g3⟩ := (checkAttributes_spec _ _ _ _ _).1 hp
  have hlen : attrs.length ≤ 16 := by unfold kMaxVertexAttributes at h2; omega
  have hpos : attrs.length > pos := by
    rcases List.getElem?_eq_some_iff.1 ha with ⟨h, _⟩; exact h
  have hmod : pos % 256 = pos := Nat.mod_eq_of_lt (by omega)
  have hc3 : c = 2 := by simpa using hc2
  have hcomp := (componentCount_eq _ _).1 hc
  have hid : a.2 = 0 := by
    rw [hp'] at g3
    cases hi : (attrs.map Prod.snd).idxOf? 0 with
    | none => rw [hi] at g3; simp at g3
    | some j =>
      rw [hi] at g3
      simp only [Nat.zero_add, Option.some.injEq] at g3
      subst g3
      rw [List.idxOf?_eq_some_iff] at hi
      obtain ⟨hj, e, _⟩ := hi
      rw [List.getElem_map] at e
      rcases List.getElem?_eq_some_iff.1 ha with ⟨_, e'⟩
      rw [← e']; simpa using e
  obtain ⟨as', e1, e2, e3, e4⟩ := layoutFrom_spec attrs 0 0 (fun a ha => (g1 a ha).1)
    (by omega) (by omega)
  rw [hl] at e1
  simp only [Option.some.injEq, Prod.mk.injEq, Nat.zero_add] at e1
  obtain ⟨rfl, rfl, rfl⟩ := e1
  refine ⟨⟨?_, hlen, fun a ha => (g1 a ha).1, fun a ha => (g1 a ha).2.1, g2, ?_⟩, e2, rfl, ?_, ?_,
    ?_, e3, ?_, ?_⟩
  · intro he; apply h1; rw [he]; rfl
  · exact ⟨a, List.mem_of_getElem? ha, hid, by rw [hcomp.2, hc3]⟩
  · cases ixf <;> rfl
  · simp only [hmod, ha, Option.map_some, hid]
  · simp only [hmod, ha, Option.map_some, hcomp.2, hc3]
  · have hw : ∀ l : List Attribute, (∀ a ∈ l, a ∈ as) →
        ((l.map fun a => (a.unpackedOffset, a.unpackedWidth)).map Prod.snd) =
        (l.map (fun a => (a.type, a.id))).map fun a => unpackedBytes a.1 := by
      intro l hl
      rw [List.map_map, List.map_map]
      exact List.map_congr_left fun a ha => (e3 a (hl a ha)).1
    refine ⟨?_, ?_⟩
    · intro i r hr
      rw [List.getElem?_map, Option.map_eq_some_iff] at hr
      obtain ⟨b, hb, rfl⟩ := hr
      rw [← List.map_take, hw _ (fun a ha => List.mem_of_mem_take ha), List.map_take, e2,
        (e4 i b hb).1, Nat.zero_add]
    · rw [hw _ (fun a ha => ha), e2]
  · have hw : ∀ l : List Attribute, (∀ a ∈ l, a ∈ as) →
        ((l.map fun a => (a.packedOffset, a.packedWidth)).map Prod.snd) =
        (l.map (fun a => (a.type, a.id))).map fun a => packedBytes a.1 := by
      intro l hl
      rw [List.map_map, List.map_map]
      exact List.map_congr_left fun a ha => (e3 a (hl a ha)).2
    refine ⟨?_, ?_⟩
    · intro i r hr
      rw [List.getElem?_map, Option.map_eq_some_iff] at hr
      obtain ⟨b, hb, rfl⟩ := hr
      rw [← List.map_take, hw _ (fun a ha => List.mem_of_mem_take ha), List.map_take, e2,
        (e4 i b hb).2, Nat.zero_add]
    · rw [hw _ (fun a ha => ha), e2]

/-- **C11.** `Create` succeeds exactly for valid attribute lists. -/
theorem C11_create_accepts_iff (attrs : List (AttrType × AttrId)) (ixf : IndexFormat) :
    (create attrs ixf).isSome ↔ Valid attrs := by
  constructor
  · intro h
    obtain ⟨f, hf⟩ := Option.isSome_iff_exists.1 h
    exact (create_eq hf).1
  · intro hv
    obtain ⟨a, ha, hid, hcomp⟩ := hv.position
    have hck := (checkAttributes_spec attrs 0 [] none
      (match (attrs.map Prod.snd).idxOf? 0 with | some j => some (0 + j) | none => none)).2
      ⟨fun a ha => ⟨hv.namedType a ha, hv.namedId a ha, by simp⟩, hv.distinct, rfl⟩
    have hm : (0 : Nat) ∈ attrs.map Prod.snd := List.mem_map.2 ⟨a, ha, hid⟩
    cases hi : (attrs.map Prod.snd).idxOf? 0 with
    | none => exact absurd hm (List.idxOf?_eq_none_iff.1 hi)
    | some j =>
      rw [hi] at hck
      simp only [Nat.zero_add] at hck
      rw [List.idxOf?_eq_some_iff] at hi
      obtain ⟨hj, e, _⟩ := hi
      rw [List.getElem_map] at e
      have hj' : j < attrs.length := by simpa using hj
      -- the position attribute is unique
      have hb : attrs[j] = a := by
        have hinj := List.inj_on_of_nodup_map hv.distinct
        exact hinj (List.getElem_mem hj') ha (by rw [hid]; simpa using e)
      have hbj : attrs[j]? = some a := by rw [List.getElem?_eq_getElem hj', hb]
      have hcc : componentCount a.1 = some 2 :=
        (componentCount_eq _ _).2 ⟨hv.namedType a ha, hcomp⟩
      have hmax := hv.max
      obtain ⟨as, e1, _⟩ := layoutFrom_spec attrs 0 0 hv.namedType (by omega) (by omega)
      have h1 : ¬ attrs.isEmpty = true := by simpa using hv.nonempty
      have h2 : ¬ attrs.length > kMaxVertexAttributes := by unfold kMaxVertexAttributes; omega
      unfold create
      rw [if_neg h1, if_neg h2, hck]
      simp only [Option.bind_eq_bind, Option.bind_some, hbj, hcc, e1]
      simp

/-- **C11.** In a created format the attributes are the requested ones in order; each has four bytes
per component unpacked and the documented number of bytes packed; their byte ranges lie one after the
other from offset 0 and fill the stride, packed and unpacked (so they are disjoint and no offset has
wrapped around); the position attribute is the one with ID `kPosition` and has two components. -/
theorem C11_create_layout {attrs : List (AttrType × AttrId)} {ixf : IndexFormat} {f : MeshFormat}
    (h : create attrs ixf = some f) :
    f.attributes.map (fun a => (a.type, a.id)) = attrs ∧
      f.indexFormat = ixf ∧ f.indexStride = indexBytes ixf ∧
      (attrs[f.positionIndex]?).map Prod.snd = some 0 ∧
      (attrs[f.positionIndex]?).map (fun a => components a.1) = some 2 ∧
      (∀ a ∈ f.attributes,
        a.unpackedWidth = unpackedBytes a.type ∧ a.packedWidth = packedBytes a.type) ∧
      Tiles (f.attributes.map fun a => (a.unpackedOffset, a.unpackedWidth)) f.unpackedStride ∧
      Tiles (f.attributes.map fun a => (a.packedOffset, a.packedWidth)) f.packedStride :=
  (create_eq h).2

theorem sum_take_le (l : List Nat) (i : Nat) : (l.take i).sum ≤ l.sum := by
  conv_rhs => rw [← List.take_append_drop i l, List.sum_append]
  omega

/-- Consecutive tiles are disjoint and inside the stride. -/
theorem C11_tiles_disjoint {ranges : List (Nat × Nat)} {stride : Nat} (h : Tiles ranges stride) :
    (∀ r ∈ ranges, r.1 + r.2 ≤ stride) ∧
    ∀ (i j : Nat) (ri rj : Nat × Nat), ranges[i]? = some ri → ranges[j]? = some rj → i < j → ri.1 + ri.2 ≤ rj.1 := by
  have hsum : ∀ i r, ranges[i]? = some r →
      r.1 + r.2 = ((ranges.take (i + 1)).map Prod.snd).sum := by
    intro i r hr
    rw [List.take_add_one, hr, List.map_append, List.sum_append, ← h.1 i r hr]
    simp
  constructor
  · intro r hr
    obtain ⟨i, hi, e⟩ := List.getElem_of_mem hr
    have hi' : ranges[i]? = some r := by rw [List.getElem?_eq_getElem hi, e]
    rw [hsum i r hi', h.2, List.map_take]
    exact sum_take_le _ _
  · intro i j ri rj hi hj hij
    rw [hsum i ri hi, h.1 j rj hj]
    have : ranges.take (i + 1) = (ranges.take j).take (i + 1) := by
      rw [List.take_take, Nat.min_eq_left (by omega)]
    rw [this, List.map_take]
    exact sum_take_le _ _

theorem removeLoop_spec : ∀ (as : List Attribute) (left : List AttrId),
    (as.map Attribute.id).Nodup →
    (removeLoop left as).1 =
      (as.map (fun a => (a.type, a.id))).filter (fun a => !left.contains a.2) ∧
    (removeLoop left as).2 = left.filter (fun id => !(as.map Attribute.id).contains id) := by
  intro as
  induction as with
  | nil => intro left _; simp [removeLoop]
  | cons a rest ih =>
    intro left hn
    rw [List.map_cons, List.nodup_cons] at hn
    unfold removeLoop
    by_cases hc : left.contains a.id = true
    · rw [if_pos hc]
      obtain ⟨h1, h2⟩ := ih (left.filter (· ≠ a.id)) hn.2
      rw [h1, h2]
      constructor
      · rw [List.map_cons, List.filter_cons]
        simp only [hc, Bool.not_true, Bool.false_eq_true, if_false]
        apply List.filter_congr
        intro b hb
        obtain ⟨b', hb', rfl⟩ := List.mem_map.1 hb
        have hne : b'.id ≠ a.id := fun he => hn.1 (by rw [← he]; exact List.mem_map_of_mem hb')
        rw [Bool.eq_iff_iff]
        simp [hne]
      · rw [List.filter_filter]
        apply List.filter_congr
        intro id _
        rw [Bool.eq_iff_iff]
        simp only [List.map_cons, List.contains_cons, decide_not, Bool.and_eq_true,
          Bool.not_eq_true', decide_eq_false_iff_not, Bool.or_eq_false_iff, beq_eq_false_iff_ne,
          ne_eq]
        tauto
    · rw [if_neg hc]
      obtain ⟨h1, h2⟩ := ih left hn.2
      have hc' : left.contains a.id = false := by simpa using hc
      constructor
      · rw [List.map_cons, List.filter_cons]
        simp only [hc', Bool.not_false, if_true, h1]
      · rw [h2]
        apply List.filter_congr
        intro id hid
        have hne : id ≠ a.id := by rintro rfl; exact hc (by simpa using hid)
        rw [Bool.eq_iff_iff]
        simp [hne]

/-- **C11.** `WithoutAttributes` fails exactly when `kPosition` or an ID that the format does not have
is to be removed; otherwise it is the format created from the remaining attributes, in order. -/
theorem C11_without_attributes {attrs : List (AttrType × AttrId)} {ixf : IndexFormat} {f : MeshFormat}
    (h : create attrs ixf = some f) (remove : List AttrId) :
    ((withoutAttributes f remove).isSome ↔
      (0 ∉ remove ∧ ∀ id ∈ remove, id ∈ attrs.map Prod.snd)) ∧
    ∀ g, withoutAttributes f remove = some g →
      create (attrs.filter fun a => !remove.contains a.2) ixf = some g := by
  obtain ⟨hv, hat, hix, _⟩ := create_eq h
  have hids : f.attributes.map Attribute.id = attrs.map Prod.snd := by
    rw [← hat, List.map_map]; rfl
  have hloop := removeLoop_spec f.attributes remove (by rw [hids]; exact hv.distinct)
  rw [hat, hids] at hloop
  have heq : withoutAttributes f remove =
      if 0 ∉ remove ∧ ∀ id ∈ remove, id ∈ attrs.map Prod.snd then
        create (attrs.filter fun a => !remove.contains a.2) ixf else none := by
    unfold withoutAttributes
    simp only [hloop.1, hloop.2, hix]
    by_cases h0 : 0 ∈ remove
    · rw [if_pos (by simpa [kPosition] using h0), if_neg (by tauto)]
    rw [if_neg (by simpa [kPosition] using h0)]
    by_cases hall : ∀ id ∈ remove, id ∈ attrs.map Prod.snd
    · have he : remove.filter (fun id => !(attrs.map Prod.snd).contains id) = [] := by
        rw [List.filter_eq_nil_iff]
        intro id hid
        simpa using hall id hid
      rw [he, if_pos (c := 0 ∉ remove ∧ _) ⟨h0, hall⟩]
      simp
    · have he : remove.filter (fun id => !(attrs.map Prod.snd).contains id) ≠ [] := by
        intro he
        rw [List.filter_eq_nil_iff] at he
        apply hall
        intro id hid
        simpa using he id hid
      rw [if_neg (c := 0 ∉ remove ∧ _) (by tauto)]
      rw [if_pos]
      simpa using he
  have hvalid : 0 ∉ remove → Valid (attrs.filter fun a => !remove.contains a.2) := by
    intro h0
    obtain ⟨a, ha, hid, hcomp⟩ := hv.position
    have ham : a ∈ attrs.filter fun a => !remove.contains a.2 := by
      rw [List.mem_filter]; exact ⟨ha, by simpa [hid] using h0⟩
    exact ⟨List.ne_nil_of_mem ham, Nat.le_trans (List.length_filter_le _ _) hv.max,
      fun b hb => hv.namedType b (List.mem_of_mem_filter hb),
      fun b hb => hv.namedId b (List.mem_of_mem_filter hb),
      hv.distinct.sublist (List.filter_sublist.map _), ⟨a, ham, hid, hcomp⟩⟩
  rw [heq]
  constructor
  · by_cases hc : 0 ∉ remove ∧ ∀ id ∈ remove, id ∈ attrs.map Prod.snd
    · rw [if_pos hc, C11_create_accepts_iff]
      exact ⟨fun _ => hc, fun _ => hvalid hc.1⟩
    · rw [if_neg hc]; simp only [Option.isSome_none, Bool.false_eq_true, false_iff]; exact hc
  · intro g hg
    split_ifs at hg
    exact hg

theorem packedEquivLoop_iff : ∀ (as bs : List Attribute), as.length = bs.length →
    (packedEquivLoop as bs = true ↔
      as.map (fun a => (a.type, a.id)) = bs.map (fun a => (a.type, a.id))) := by
  intro as
  induction as with
  | nil => intro bs h; cases bs with
    | nil => simp [packedEquivLoop]
    | cons b bs => simp at h
  | cons a as ih =>
    intro bs h
    cases bs with
    | nil => simp at h
    | cons b bs =>
      have := ih bs (by simpa using h)
      unfold packedEquivLoop
      simp only [List.map_cons, List.cons.injEq, Prod.mk.injEq]
      rw [← this]
      split_ifs with hc
      · simp only [ne_eq, Bool.or_eq_true, decide_eq_true_eq] at hc
        simp only [Bool.false_eq_true, false_iff]
        tauto
      · simp only [ne_eq, Bool.or_eq_true, decide_eq_true_eq, not_or, not_not] at hc
        tauto

theorem unpackedEquivLoop_iff : ∀ (as bs : List Attribute), as.length = bs.length →
    (∀ a ∈ as ++ bs, a.unpackedWidth = unpackedBytes a.type ∧ ∀ code, a.type ≠ .unnamed code) →
    (unpackedEquivLoop as bs = true ↔
      as.map (fun a => (components a.type, a.id)) = bs.map (fun a => (components a.type, a.id))) := by
  intro as
  induction as with
  | nil => intro bs h _; cases bs with
    | nil => simp [unpackedEquivLoop]
    | cons b bs => simp at h
  | cons a as ih =>
    intro bs h hw
    cases bs with
    | nil => simp at h
    | cons b bs =>
      have := ih bs (by simpa using h) (fun x hx => hw x (by simp at hx ⊢; tauto))
      have hwa := hw a (by simp)
      have hwb := hw b (by simp)
      have hca : componentCount a.type = some (components a.type) :=
        (componentCount_eq _ _).2 ⟨hwa.2, rfl⟩
      have hcb : componentCount b.type = some (components b.type) :=
        (componentCount_eq _ _).2 ⟨hwb.2, rfl⟩
      unfold unpackedEquivLoop
      simp only [List.map_cons, List.cons.injEq, Prod.mk.injEq]
      rw [← this, hca, hcb, hwa.1, hwb.1]
      unfold unpackedBytes
      split_ifs with hc
      · simp only [ne_eq, Bool.or_eq_true, decide_eq_true_eq, Option.some.injEq] at hc
        simp only [Bool.false_eq_true, false_iff]
        rintro ⟨⟨h1, h2⟩, _⟩
        rw [h1, h2] at hc
        simp at hc
      · simp only [ne_eq, Bool.or_eq_true, decide_eq_true_eq, not_or, not_not,
          Option.some.injEq] at hc
        tauto

theorem created_position {attrs : List (AttrType × AttrId)} {ixf : IndexFormat} {f : MeshFormat}
    (h : create attrs ixf = some f) : f.positionIndex = (attrs.map Prod.snd).idxOf 0 := by
  obtain ⟨hv, _, _, _, hp, _⟩ := create_eq h
  have hp' : (attrs.map Prod.snd)[f.positionIndex]? = some 0 := by rw [List.getElem?_map]; exact hp
  obtain ⟨hlt, e⟩ := List.getElem?_eq_some_iff.1 hp'
  have := hv.distinct.idxOf_getElem _ hlt
  rw [e] at this
  exact this.symm

/-- **C11.** Packed equivalence of created formats is equality of the attribute lists; unpacked
equivalence is equality of the component counts and IDs; `==` is equality of the arguments of
`Create`. -/
theorem C11_equivalences {as bs : List (AttrType × AttrId)} {i j : IndexFormat} {f g : MeshFormat}
    (hf : create as i = some f) (hg : create bs j = some g) :
    (isPackedEquivalent f g = true ↔ as = bs) ∧
    (isUnpackedEquivalent f g = true ↔
      as.map (fun a => (components a.1, a.2)) = bs.map (fun a => (components a.1, a.2))) ∧
    (formatEq f g = true ↔ as = bs ∧ i = j) := by
  obtain ⟨hv, ha, hi, _, _, _, hw, _⟩ := create_eq hf
  obtain ⟨hv', hb, hj, _, _, _, hw', _⟩ := create_eq hg
  have la : f.attributes.length = as.length := by rw [← ha]; simp
  have lb : g.attributes.length = bs.length := by rw [← hb]; simp
  have hpf := created_position hf
  have hpg := created_position hg
  have hfg : f.attributes.length = g.attributes.length → packedEquivLoop f.attributes g.attributes =
      true → as = bs := by
    intro h1 h2
    rw [← ha, ← hb]; exact (packedEquivLoop_iff _ _ h1).1 h2
  have nA : ∀ a ∈ f.attributes ++ g.attributes,
      a.unpackedWidth = unpackedBytes a.type ∧ ∀ code, a.type ≠ .unnamed code := by
    intro a ha'
    rcases List.mem_append.1 ha' with h | h
    · exact ⟨(hw a h).1, hv.namedType (a.type, a.id)
        (by rw [← ha]; exact List.mem_map_of_mem (f := fun a => (a.type, a.id)) h)⟩
    · exact ⟨(hw' a h).1, hv'.namedType (a.type, a.id)
        (by rw [← hb]; exact List.mem_map_of_mem (f := fun a => (a.type, a.id)) h)⟩
  have mA : f.attributes.map (fun a => (components a.type, a.id)) =
      as.map (fun a => (components a.1, a.2)) := by rw [← ha, List.map_map]; rfl
  have mB : g.attributes.map (fun a => (components a.type, a.id)) =
      bs.map (fun a => (components a.1, a.2)) := by rw [← hb, List.map_map]; rfl
  refine ⟨?_, ?_, ?_⟩
  · unfold isPackedEquivalent
    constructor
    · intro h
      split_ifs at h with h1 h2
      exact hfg (by simpa using h2) h
    · rintro rfl
      rw [if_neg (by rw [hpf, hpg]; simp), if_neg (by rw [la, lb]; simp)]
      exact (packedEquivLoop_iff _ _ (by rw [la, lb])).2 (by rw [ha, hb])
  · unfold isUnpackedEquivalent
    constructor
    · intro h
      split_ifs at h with h1 h2
      have := (unpackedEquivLoop_iff _ _ (by simpa using h2) nA).1 h
      rw [mA, mB] at this
      exact this
    · intro h
      have hl : as.length = bs.length := by simpa using congrArg List.length h
      have hids : as.map Prod.snd = bs.map Prod.snd := by
        have := congrArg (List.map Prod.snd) h
        rw [List.map_map, List.map_map] at this
        exact this
      rw [if_neg (by rw [hpf, hpg, hids]; simp), if_neg (by rw [la, lb, hl]; simp)]
      exact (unpackedEquivLoop_iff _ _ (by rw [la, lb, hl]) nA).2 (by rw [mA, mB]; exact h)
  · unfold formatEq
    have key : ∀ (xs ys : List Attribute), xs.length = ys.length →
        ((xs.zip ys).all (fun p => p.1.type = p.2.type && p.1.id = p.2.id) = true ↔
        xs.map (fun a => (a.type, a.id)) = ys.map (fun a => (a.type, a.id))) := by
      intro xs
      induction xs with
      | nil => intro ys h; cases ys with
        | nil => simp
        | cons b bs => simp at h
      | cons a as ih =>
        intro ys h
        cases ys with
        | nil => simp at h
        | cons b bs =>
          have := ih bs (by simpa using h)
          simp only [List.zip_cons_cons, List.all_cons, Bool.and_eq_true, decide_eq_true_eq, this,
            List.map_cons, List.cons.injEq, Prod.mk.injEq]
    rw [Bool.and_eq_true, Bool.and_eq_true, decide_eq_true_eq, decide_eq_true_eq, hi, hj]
    constructor
    · rintro ⟨⟨h1, h2⟩, h3⟩
      exact ⟨by rw [← ha, ← hb]; exact (key _ _ h1).1 h2, h3⟩
    · rintro ⟨rfl, rfl⟩
      exact ⟨⟨by rw [la, lb], (key _ _ (by rw [la, lb])).2 (by rw [ha, hb])⟩, rfl⟩

/-- The default constructor is the documented format. -/
theorem C11_default : create [(.f2Unpacked, 0)] .unpacked32 = some MeshFormat.default := by decide

/-- The packed sizes have room for all components: the bits of the components fit in the bytes (for
types packed in bytes) or in 24 bits per float (for types packed in floats), and no type uses more
bits than it has. -/
theorem C11_packed_bits_fit (t : AttrType) (bits : List Nat) (h : packedBits t = some (some bits)) :
    bits.length = components t ∧
    (isPackedAsFloat t = some false → bits.sum ≤ 8 * packedBytes t) ∧
    (isPackedAsFloat t = some true → 4 * bits.sum ≤ 24 * packedBytes t) := by
  cases t <;> simp [packedBits] at h <;> subst h <;>
    simp [components, isPackedAsFloat, packedBytes]

/-- mesh_format.h:223 documents that an ID that is not a named value is allowed from 128. No such ID
is accepted. -/
theorem C11_ids_from_128_counterexample (id : AttrId) (h : 128 ≤ id) (ixf : IndexFormat) :
    create [(.f2Unpacked, 0), (.f1Unpacked, id)] ixf = none := by
  by_contra hc
  have := (C11_create_accepts_iff _ _).1 (Option.isSome_iff_ne_none.2 hc)
  have := this.namedId (.f1Unpacked, id) (by simp)
  exact absurd (Nat.le_trans h this) (by decide)

/-! ### The hypotheses are met -/

def exFormat : List (AttrType × AttrId) :=
  [(.f1In1Byte, 2), (.f2In3Bytes, 0), (.f4In3Floats, 9), (.f3Unpacked, 1)]

example : (create exFormat .unpacked16).map (fun f =>
    (f.attributes.map fun a => (a.unpackedOffset, a.packedOffset), f.positionIndex,
      f.unpackedStride, f.packedStride)) =
    some ([(0, 0), (4, 1), (12, 4), (28, 16)], 1, 40, 28) := by decide

example : ((create exFormat .unpacked16).bind fun f => withoutAttributes f [9, 2]) =
    create [(.f2In3Bytes, 0), (.f3Unpacked, 1)] .unpacked16 := by decide

example : create [(.f1In1Byte, 0)] .unpacked16 = none := by decide
example : create [(.f2Unpacked, 0), (.f1In1Byte, 3), (.f1In1Byte, 3)] .unpacked16 = none := by decide

end Verif.Mesh
