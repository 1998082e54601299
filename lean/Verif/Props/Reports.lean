import Verif.Lemmas.BrokenMessage
import Verif.Props.Safety
import Verif.Props.Messages

/-! # C60: which input is accepted, which is rejected, and what is reported -/

set_option autoImplicit false

namespace Nrbf
open Spec
open Tests (header)

variable [Platform]

/-- **C60** An input is accepted exactly if it is `Accepted`, and with that content. -/
theorem C60_accepted (w : Bytes) (c : RemotingMessage) : deserialize w = .ok c ↔ Accepted w c :=
  deserialize_accepted w c

/-- **C60** An input is rejected exactly if it is `Rejected`, with that reason and at that position. -/
theorem C60_rejected (w : Bytes) (e : Error) : deserialize w = .err e ↔ Rejected w e := deserialize_rejected w e

/-- **C60** What is neither panics, and nothing else does. -/
theorem C60_neither (w : Bytes) :
    deserialize w = .panic ↔ (¬ ∃ c, Accepted w c) ∧ ¬ ∃ e, Rejected w e := by
  simp only [← C60_accepted, ← C60_rejected]
  have := C01_terminates w
  cases h : deserialize w with
  | hang => exact absurd h this
  | _ => simp

/-- **C60** The two judgements exclude each other, and determine the content and the error. -/
theorem C60_determined {w : Bytes} :
    (∀ c e, Accepted w c → ¬ Rejected w e) ∧ (∀ c c', Accepted w c → Accepted w c' → c = c') ∧
      ∀ e e', Rejected w e → Rejected w e' → e = e' := by
  simp only [← C60_accepted, ← C60_rejected]
  refine ⟨fun c e h h' => ?_, fun c c' h h' => ?_, fun e e' h h' => ?_⟩ <;> rw [h] at h'
  · cases h'
  · exact ApiResult.ok.inj h'
  · exact ApiResult.err.inj h'

/-! ## What follows at once -/

/-- A fatal error in the first record that cannot be read is what the caller sees. -/
theorem C60_first_bad {root : Nat} {h i i1 : Bytes} {E E' : Env} {e : Error} (hh : IsHeader root h)
    (hr : Records Env.empty i E i1) (hb : BadRecord E i1 (some e) E') : deserialize (h ++ i) = .err e :=
  (C60_rejected _ _).mpr (.record hh ⟨_, _, _, hr, hb⟩)

/-- A byte that is no record type, or the type of a record that cannot stand on its own, is reported as a
missing MessageEnd, at its position. -/
theorem C60_unknown_record {root : Nat} {h i i1 : Bytes} {E : Env} (hh : IsHeader root h)
    (hr : Records Env.empty i E i1)
    (hb : ∀ tag ∈ [1, 2, 3, 4, 5, 6, 7, 11, 12, 15, 16, 17, 21, 22], i1.head? ≠ some tag) :
    deserialize (h ++ i) = .err ⟨i1, .expectedRecordType .messageEnd⟩ := by
  have hrec : ∀ E, BadRecord E i1 none E := fun E => .tag fun tag ht => hb tag (by
    simp only [List.mem_cons, List.not_mem_nil, or_false] at ht ⊢
    rcases ht with rfl | rfl | rfl | rfl | rfl | rfl | rfl | rfl | rfl | rfl | rfl <;> decide)
  refine (C60_rejected _ _).mpr (.noEnd (root := root) (m := none) (E := E)
    ⟨h, i, E, i1, E, i1, hh, rfl, ⟨E, hr, hrec E⟩, ?_, ⟨E, .nil, hrec E⟩⟩ (hb 11 (by simp)))
  exact .none (.inl ⟨hb 21 (by simp), rfl⟩) (.inl ⟨hb 22 (by simp), rfl⟩)

/-- A mismatch, even after another attempt with what the first one left behind in the tables, is reported as a
missing MessageEnd at the start of the record. -/
theorem C60_mismatch {root : Nat} {h i i1 : Bytes} {E E1 E2 : Env} (hh : IsHeader root h)
    (hr : Records Env.empty i E i1) (h1 : BadRecord E i1 none E1) (h2 : BadRecord E1 i1 none E2)
    (hb : ∀ tag ∈ [11, 21, 22], i1.head? ≠ some tag) :
    deserialize (h ++ i) = .err ⟨i1, .expectedRecordType .messageEnd⟩ := by
  refine (C60_rejected _ _).mpr (.noEnd (root := root) (m := none) (E := E2)
    ⟨h, i, E1, i1, E1, i1, hh, rfl, ⟨E, hr, h1⟩, ?_, ⟨E1, .nil, h2⟩⟩ (hb 11 (by simp)))
  exact .none (.inl ⟨hb 21 (by simp), rfl⟩) (.inl ⟨hb 22 (by simp), rfl⟩)

/-- A decimal that is no number, as an element of an array of decimals, is reported at its position. -/
theorem C60_bad_decimal {root id len : Nat} {h i b b1 t rest : Bytes} {E : Env} {vs : List Value} {s : Str}
    (hh : IsHeader root h) (hr : Records Env.empty i E (b ++ (b1 ++ (t ++ rest))))
    (hb : IsPrimitiveArrayHead id len .decimal b) (hvs : IsSeq (IsPrimitive .decimal) vs b1) (hl : vs.length < len)
    (ht : IsString s t) (hs : Platform.decimalFromStr s = none) :
    deserialize (h ++ i) = .err ⟨t ++ rest, .expectedPrimitive .decimal⟩ :=
  C60_first_bad hh hr (E' := E) (.primitiveArrayElements hb ⟨vs, b1, t ++ rest, hl, hvs, rfl,
    .inr ⟨s, t, rest, ht, rfl, hs, rfl⟩⟩)

/-- A byte that is neither 0 nor 1, as an element of an array of booleans, is reported at its position. -/
theorem C60_bad_boolean {root id len : Nat} {h i b b1 rest : Bytes} {E : Env} {vs : List Value}
    (hh : IsHeader root h) (hr : Records Env.empty i E (b ++ (b1 ++ rest)))
    (hb : IsPrimitiveArrayHead id len .boolean b) (hvs : IsSeq (IsPrimitive .boolean) vs b1) (hl : vs.length < len)
    (h0 : rest.head? ≠ some 0) (h1 : rest.head? ≠ some 1) :
    deserialize (h ++ i) = .err ⟨rest, .expectedPrimitive .boolean⟩ :=
  C60_first_bad hh hr (E' := E) (.primitiveArrayElements hb ⟨vs, b1, rest, hl, hvs, rfl, h0, h1, rfl⟩)

/-- An array of a type of fixed size that ends too soon is reported where the first incomplete element starts. -/
theorem C60_truncated {root id len : Nat} {h i b b1 rest : Bytes} {E : Env} {vs : List Value} {t : PrimitiveType}
    (hh : IsHeader root h) (hr : Records Env.empty i E (b ++ (b1 ++ rest))) (hb : IsPrimitiveArrayHead id len t b)
    (hvs : IsSeq (IsPrimitive t) vs b1) (hl : vs.length < len) (hw : rest.length < width t)
    (ht : t ≠ .boolean) :
    deserialize (h ++ i) = .err ⟨rest, .expectedPrimitive t⟩ := by
  refine C60_first_bad hh hr (E' := E) (.primitiveArrayElements hb ⟨vs, b1, rest, hl, hvs, rfl, ?_⟩)
  cases t <;> first | exact absurd rfl ht | exact ⟨hw, rfl⟩ | exact absurd hw (by simp [width])

/-- Neither Null nor String is a type of the elements of an ArraySinglePrimitive record. -/
theorem C60_element_type {root id len : Nat} {h i b rest : Bytes} {E : Env} {t : PrimitiveType}
    (hh : IsHeader root h) (hr : Records Env.empty i E (b ++ rest)) (hb : IsPrimitiveArrayHead id len t b)
    (hl : 0 < len) (ht : t = .null ∨ t = .string) : deserialize (h ++ i) = .err ⟨rest, .other⟩ := by
  refine C60_first_bad hh hr (E' := E) (.primitiveArrayElements hb ⟨[], [], rest, hl, rfl, rfl, ?_⟩)
  rcases ht with rfl | rfl <;> rfl

/-! ## Concrete cases -/

/-- An object with a string, then an array of two decimals of which the second is no number. -/
def badDecimal : Bytes :=
  [4, 1,0,0,0, 1,65, 1,0,0,0, 1,109, 1, 6, 3,0,0,0, 1,120] ++
  ([15, 2,0,0,0, 2,0,0,0, 5] ++ ([2,49,50] ++ ([1,120] ++ [11])))

theorem badDecimal_prefix : ∃ E, Records Env.empty badDecimal E
    ([15, 2,0,0,0, 2,0,0,0, 5] ++ ([2,49,50] ++ ([1,120] ++ [11]))) := by
  have hp : ∃ id, (parseReferenceable St.init badDecimal).1 =
      .ok ([15, 2,0,0,0, 2,0,0,0, 5] ++ ([2,49,50] ++ ([1,120] ++ [11]))) id := ⟨1, by kernel_decide⟩
  obtain ⟨id, hp⟩ := hp
  obtain ⟨v, E1, hr, _⟩ := (C32_record_iff (s := St.init) rfl badDecimal id _ _).mp ⟨_, Prod.ext hp rfl, rfl⟩
  exact ⟨_, .cons hr .nil⟩

example (d : Dec) (h1 : Platform.decimalFromStr [49,50] = some d) (h2 : Platform.decimalFromStr [120] = none) :
    deserialize (header 1 ++ badDecimal) = .err ⟨[1,120,11], .expectedPrimitive .decimal⟩ := by
  obtain ⟨E, hr⟩ := badDecimal_prefix
  refine C60_bad_decimal (isHeader_header 1 (by decide)) (id := 2) (len := 2) (vs := [.decimal d]) (s := [120]) hr
    ⟨_, ⟨le 4 2, le 4 2, ⟨by decide, by decide, rfl⟩, ⟨by decide, rfl⟩, rfl⟩, rfl⟩ ?_ (by simp)
    (short_string 120 (by decide)) h2
  refine ⟨[2,49,50], [], ⟨[49,50], ?_, h1⟩, rfl, rfl⟩
  exact ⟨[2], ⟨[], 2, by simp, by decide, by simp, by simp, rfl, rfl⟩, (utf8Valid_iff _).mp (by decide), rfl⟩

example : deserialize (header 1 ++ [15, 1,0,0,0, 3,0,0,0, 1, 0, 1, 2, 11]) = .err ⟨[2, 11], .expectedPrimitive .boolean⟩ :=
  C60_bad_boolean (isHeader_header 1 (by decide)) (id := 1) (len := 3) (b := [15, 1,0,0,0, 3,0,0,0, 1]) (b1 := [0, 1])
    (vs := [.boolean false, .boolean true]) .nil
    ⟨_, ⟨le 4 1, le 4 3, ⟨by decide, by decide, rfl⟩, ⟨by decide, rfl⟩, rfl⟩, rfl⟩
    ⟨[0], [1], rfl, ⟨[1], [], rfl, rfl, rfl⟩, rfl⟩ (by decide) (by decide) (by decide)

/-- An object of class `A` with a member of class `B` of the system library, which has a boolean member with the value 7. -/
def swallowed : Bytes :=
  [4, 1,0,0,0, 1,65, 1,0,0,0, 1,109, 3, 1,66] ++ [4, 2,0,0,0, 1,66, 1,0,0,0, 1,110, 0, 1, 7] ++ [11]

/-- The bad boolean is not what is reported: an error in a member of a declared class is taken as a mismatch. -/
theorem C60_swallowed : deserialize (header 1 ++ swallowed) = .err ⟨swallowed, .expectedRecordType .messageEnd⟩ := by
  kernel_decide

/-- The same object on its own. -/
example : deserialize (header 2 ++ ([4, 2,0,0,0, 1,66, 1,0,0,0, 1,110, 0, 1, 7] ++ [11])) =
    .err ⟨[7, 11], .expectedPrimitive .boolean⟩ := by kernel_decide

/-- After a string record, a byte that is no record type. -/
example : deserialize (header 1 ++ ([6, 1,0,0,0, 1,120] ++ [99, 11])) =
    .err ⟨[99, 11], .expectedRecordType .messageEnd⟩ := by
  refine C60_unknown_record (isHeader_header 1 (by decide)) (i1 := [99, 11]) (E := Env.empty.add 1 (.string [120])) ?_
    (by decide)
  exact .cons (.string ⟨le 4 1, [1,120], ⟨by decide, by decide, rfl⟩, short_string 120 (by decide), rfl⟩) .nil

/-- An array of two 32-bit numbers, of which the second has three bytes. -/
example : deserialize (header 1 ++ [15, 1,0,0,0, 2,0,0,0, 8, 5,0,0,0, 1,2,11]) =
    .err ⟨[1,2,11], .expectedPrimitive .int32⟩ :=
  C60_truncated (isHeader_header 1 (by decide)) (id := 1) (len := 2) (b := [15, 1,0,0,0, 2,0,0,0, 8]) (b1 := [5,0,0,0])
    (vs := [.int32 5]) .nil ⟨_, ⟨le 4 1, le 4 2, ⟨by decide, by decide, rfl⟩, ⟨by decide, rfl⟩, rfl⟩, rfl⟩
    ⟨[5,0,0,0], [], ⟨⟨by decide, by decide⟩, rfl⟩, rfl, rfl⟩ (by simp) (by decide) (by decide)

/-- An array of one element of type Null. -/
example : deserialize (header 1 ++ [15, 1,0,0,0, 1,0,0,0, 17, 11]) = .err ⟨[11], .other⟩ :=
  C60_element_type (isHeader_header 1 (by decide)) (id := 1) (len := 1) (b := [15, 1,0,0,0, 1,0,0,0, 17]) .nil
    ⟨_, ⟨le 4 1, le 4 1, ⟨by decide, by decide, rfl⟩, ⟨by decide, rfl⟩, rfl⟩, rfl⟩ (by decide) (.inl rfl)

/-- What C29 shows to be no message of the grammar is accepted all the same. -/
example : Accepted (header 2 ++ ([16, 1,0,0,0, 1,0,0,0, 9, 2,0,0,0] ++ [2, 2,0,0,0, 1,65, 1,0,0,0, 1,97, 9, 1,0,0,0] ++
    [6, 2,0,0,0, 1,120] ++ [11])) (.value (.string [120])) :=
  (C60_accepted _ _).mp (by kernel_decide)

/-- The end of the second record is missing. -/
example : Rejected (header 1 ++ [17, 1,0,0,0, 2,0,0,0, 10]) ⟨[17, 1,0,0,0, 2,0,0,0, 10], .expectedRecordType .messageEnd⟩ :=
  (C60_rejected _ _).mp (by kernel_decide)

end Nrbf
