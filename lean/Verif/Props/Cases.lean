import Verif.Props.DataTypes
import Verif.Props.Scalars
import Verif.Props.Size
import Verif.Props.Unfold
import Verif.Props.Trace
import Verif.Props.Work
import Verif.Props.Width
import Verif.Props.Panics
import Verif.Props.Write
import Verif.Props.SerdeMessages
import Verif.Props.SerdeTextCases
import Verif.Props.Equality
import Verif.Props.SerdeBorrow
import Verif.Props.SerdeAny

/-! # Concrete cases

Every theorem of the manifest that has hypotheses and no example next to it is applied here to a concrete input,
so its hypotheses can be met. -/

set_option autoImplicit false

namespace Nrbf

open Spec Tests

section Parser

variable [Platform]

/-! ## Whole messages -/

/-- What `/repo/tests/list_of_customers.rs` reads. -/
def customersValue : Value := .object listClass none
  [(ascii "_items", .array [.string (ascii "Bob"), .string (ascii "Rob"), .null, .null]),
    (ascii "_size", .int32 2), (ascii "_version", .int32 2)]

/-- The message of `/repo/tests/list_of_customers.rs` is accepted. -/
theorem customers_ok : deserialize Input.listOfCustomers = .ok (.value customersValue) := by platform_decide

/-- The size of the list is a value of the message, and so is its first item. -/
theorem customers_size : ValueIn (.int32 2) (.value customersValue) :=
  ⟨customersValue, by simp [topValues], .member (k := ascii "_size") (.tail _ (.head _)) (.refl _)⟩

theorem customers_bob : ValueIn (.string (ascii "Bob")) (.value customersValue) :=
  ⟨customersValue, by simp [topValues], .member (k := ascii "_items") (.head _) (.item (.head _) (.refl _))⟩

theorem customers_whole : ValueIn customersValue (.value customersValue) :=
  ⟨_, by simp [topValues], .refl _⟩

/-- C03. -/
example : ∃ header body, header.length = 17 ∧ Input.listOfCustomers = header ++ body ++ [11] :=
  C03_complete_message customers_ok

/-- C04. -/
example : ∃ (root : Nat) (headerId rest : Bytes), root < 2 ^ 31 ∧ headerId.length = 4 ∧
    Input.listOfCustomers = [0] ++ le 4 root ++ headerId ++ le 4 1 ++ le 4 0 ++ rest :=
  C04_header_valid customers_ok

/-- C04: the header ids -1 and 7. -/
example : deserialize ([0] ++ le 4 1 ++ [255,255,255,255] ++ le 4 1 ++ le 4 0 ++ [6, 1,0,0,0, 1,120, 11]) =
    deserialize ([0] ++ le 4 1 ++ [7,0,0,0] ++ le 4 1 ++ le 4 0 ++ [6, 1,0,0,0, 1,120, 11]) :=
  C04_header_id_ignored 1 (by decide) _ _ _ rfl rfl

/-- C04: the first byte is wrong. -/
example : deserialize [6, 1,0,0,0, 1,120, 11] =
    .err ⟨[6, 1,0,0,0, 1,120, 11], .expectedRecordType .serializedStreamHeader⟩ :=
  C04_record_type (by decide)

/-- C04: sixteen bytes of a header. -/
example : ∃ e, deserialize [0, 1,0,0,0, 255,255,255,255, 1,0,0,0, 0,0,0] = .err e := C04_truncated (by decide)

/-- C05. -/
example : IsUtf8 (ascii "Bob") :=
  C05_strings_utf8 customers_ok (.inr ⟨_, customers_bob, by simp [ownStrings]⟩)

/-- C06. -/
example : ∃ before after, Input.listOfCustomers = before ++ ascii "Bob" ++ after :=
  C06_strings_borrowed customers_ok (.inr ⟨_, customers_bob, by simp [ownStrings]⟩)

/-- C07, C38, C43 (malformed): the root object is missing. -/
theorem missing_root : deserialize (header 1 ++ [6, 2,0,0,0, 1,120, 11]) = .err ⟨[], .missingRootObject⟩ := by
  kernel_decide

example : ∃ consumed, header 1 ++ [6, 2,0,0,0, 1,120, 11] = consumed ++ [] := C07_error_position missing_root

example : ErrorInner.missingRootObject ≠ .eof := (C38_unreachable_errors missing_root).1

/-- C10. -/
example : FitsType (.int32 2) := C10_numbers_in_range customers_ok customers_size

/-- C39. -/
example : NamesDistinct customersValue := C39_names_distinct customers_ok customers_whole

/-- C46, C47. -/
example : ∀ v ∈ messageValues (.value customersValue), depth v ≤ 2 * Input.listOfCustomers.length := C46_depth customers_ok

example : contentsItems (messageValues (.value customersValue)) ≤ 2 * Input.listOfCustomers.length := C47_contents customers_ok

/-- C57. -/
example : FitsType (.int32 2) ∧ NamesDistinct (.int32 2) ∧ Latin1 (.int32 2) :=
  (C57_accepted customers_ok).2.2 _ customers_size

/-- C62. -/
example (κ : Bytes → Nat) : Input.listOfCustomers.length ≤ work κ Input.listOfCustomers := C62_reads κ customers_ok

/-- C62: an oracle that charges every attempt for the whole rest of the input. -/
example (w : Bytes) : work (fun i => i.length + 1) w ≤ 100 * ((w.length + 1) * (w.length + 1)) :=
  C62_work (fun _ => Nat.le_refl _) w

/-- C32. -/
example : Message Input.listOfCustomers (.value customersValue) ∨ Retried Input.listOfCustomers (.value customersValue) :=
  C32_message_sound customers_ok

/-! ## Panics -/

/-- A 2 x 2 array of objects, whose first element is a run of two nulls. -/
def nullMatrix : Bytes := header 1 ++ [7, 1,0,0,0, 2, 2,0,0,0, 2,0,0,0, 2,0,0,0, 2, 13,2, 10, 10, 10, 11]

theorem nullMatrix_result : deserialize nullMatrix = .panic := by platform_decide

example : ∃ E before i, nullMatrix = before ++ i ∧ BadArray E i := C02_cause nullMatrix_result

/-- ... and such an array has two dimensions, and so on. -/
example : ∃ E before i, nullMatrix = before ++ i ∧ ∃ id kind d1 d2 dims T b i1 slots E2 i2 k, i = b ++ i1 ∧
    IsBinaryArrayHead id kind (d1 :: d2 :: dims) T b ∧
    Members (List.replicate (d1 * (d2 * dims.prod)) (some T)) E i1 slots E2 i2 ∧ Slot.nulls k ∈ slots ∧ 2 ≤ k :=
  let ⟨E, before, i, h1, h2⟩ := C02_cause nullMatrix_result
  ⟨E, before, i, h1, C02_bad_array h2⟩

/-- C02: no multi-dimensional array record. -/
example : deserialize (header 1 ++ [6, 1,0,0,0, 1,120, 11]) ≠ .panic := C02_no_panic _ (.inl (by decide))

/-! ## Single parsers -/

/-- C08. -/
example : deserialize (header 1 ++ (6 :: le 4 1 ++ string (ascii "Bob")) ++ [11]) = .ok (.value (.string (ascii "Bob"))) :=
  C08_message (isHeader_header 1 (by decide)) (by decide) (by decide) ((utf8Valid_iff _).mp (by decide)) (by decide)

/-- C11: a float. -/
example : deserialize (header 1 ++ primitiveArrayRecord 1 1 11 ([1].flatMap (leInt 4)) ++ [11]) =
    .ok (.value (.array [.single 1])) :=
  C11_message (type := 11) (w := 4) (ok := fun z => 0 ≤ z ∧ z < 2 ^ 32) (mk := fun z => .single z.toNat) (zs := [1]) (by simp [bitKinds]) (isHeader_header 1 (by decide)) (by decide) (by decide)
    (by decide) (by simp)

/-- C12. -/
example : deserialize (header 1 ++ primitiveArrayRecord 1 2 1 [1, 0] ++ [11]) = .ok (.value (.array [.boolean true, .boolean false])) :=
  C12_message (xs := [true, false]) (isHeader_header 1 (by decide)) (by decide) (by decide) (by decide)

/-- C13: `A` and `é`. -/
example : Char.parse (String.utf8EncodeChar 'A' ++ [11]) = .ok [11] 65 := C13_ascii 'A' (by decide) _
example : Char.parse (String.utf8EncodeChar 'é' ++ [11]) ≠ .ok [11] 233 := C13_non_ascii 'é' (by decide) _

/-- C16, C17: the number -1. -/
example : objectId (leInt 4 (-1) ++ [11]) = .failure ⟨leInt 4 (-1) ++ [11], .invalidObjectId⟩ :=
  (C16_ids (-1) (by decide) [11]).1

example : MemberReference.parse (9 :: leInt 4 7 ++ [11]) = .ok [11] 7 := C16_reference 7 (by decide) [11]

example : parseNullObject (14 :: leInt 4 7 ++ [11]) = .ok [11] (.null 7) := (C17_null_runs 7 (by decide) 0 [11]).2.1

/-- C09: the length 300. -/
example : IsLengthPrefix 300 [0xAC, 0x02] ∧ 300 < 2 ^ 31 := by
  have h : IsLengthPrefix 300 [0xAC, 0x02] := ⟨[44], 2, by simp, by decide, by simp, by simp, rfl, rfl⟩
  exact ⟨h, C09_length_bound h⟩

/-- C09: five bytes, the last of which has too many bits. -/
example : ∃ pos, lengthPrefixedString [0xFF, 0xFF, 0xFF, 0xFF, 0x08] = .error ⟨pos, .expectedPrimitive .string⟩ := by
  refine C09_rejected _ ?_
  rintro ⟨s, b, rest, hb, e⟩
  have : lengthPrefixedString [0xFF, 0xFF, 0xFF, 0xFF, 0x08] = .ok rest s := (lps_exact _ _ _).mpr ⟨b, hb, e⟩
  revert this
  rw [show lengthPrefixedString [0xFF, 0xFF, 0xFF, 0xFF, 0x08] = .error ⟨[0x08], .expectedPrimitive .string⟩ from by kernel_decide]
  simp

/-- C16: the metadata id 0. -/
example : deserialize (header 1 ++ [1, 2,0,0,0, 0,0,0,0, 11]) = .err ⟨[0,0,0,0, 11], .invalidObjectId⟩ :=
  C16_metadata (id := 2) (z := 0) (rest := [11]) (isHeader_header 1 (by decide)) (by decide) (by decide) (by decide) .nil

/-- The class info of a class `A` without members. -/
theorem emptyInfo : IsClassInfo 0 [3,0,0,0, 1,65, 0,0,0,0] :=
  ⟨3, [65], [], [3,0,0,0], [1,65], [0,0,0,0], [], smallId 3 (by decide) (by decide), short_string 65 (by decide),
    ⟨by decide, rfl⟩, ⟨rfl, rfl⟩, rfl⟩

/-- C16: the library id 0. -/
example : deserialize (header 1 ++ (3 :: ([3,0,0,0, 1,65, 0,0,0,0] ++ (leInt 4 0 ++ [11])))) =
    .err ⟨leInt 4 0 ++ [11], .invalidLibraryId⟩ :=
  C16_class_library (isHeader_header 1 (by decide)) (by decide) emptyInfo .nil

example : deserialize (header 1 ++ (5 :: ([3,0,0,0, 1,65, 0,0,0,0] ++ ([] ++ (leInt 4 0 ++ [11]))))) =
    .err ⟨leInt 4 0 ++ [11], .invalidLibraryId⟩ :=
  C16_typed_class_library (Ts := []) (isHeader_header 1 (by decide)) (by decide) emptyInfo ⟨[], rfl, rfl⟩ .nil

/-! ## Arrays and records -/

/-- C19: an array of one element that is a run of two nulls. -/
example : ∃ vs, Value.array [.null, .null] = .array vs ∧ (vs.length = 1 ∨ ∃ n before, 1 < vs.length ∧
    vs.length = before + n ∧ before < 1 ∧ vs.drop before = List.replicate n .null) :=
  C19_excess .init (.inl rfl) (id := 1) (b := [16, 1,0,0,0, 1,0,0,0]) (i := [13,2, 11]) (r := [11])
    ⟨_, _, ⟨by decide, by decide, rfl⟩, ⟨by decide, rfl⟩, rfl⟩ (accepts_of_run (by kernel_decide) (by kernel_decide))

/-- C20: a 2 x 0 array. -/
theorem emptyHead : IsBinaryArrayHead 1 .rectangular [2, 0] (.primitive .byte)
    [7, 1,0,0,0, 2, 2,0,0,0, 2,0,0,0, 0,0,0,0, 0, 2] :=
  ⟨[1,0,0,0], [2,0,0,0], [2,0,0,0, 0,0,0,0], [], [2], ⟨by decide, by decide, rfl⟩, ⟨by decide, rfl⟩,
    ⟨[2,0,0,0], [0,0,0,0], ⟨by decide, rfl⟩, ⟨[0,0,0,0], [], ⟨by decide, rfl⟩, rfl, rfl⟩, rfl⟩,
    fun h => h.elim, fun _ => rfl, rfl, rfl⟩

example : Value.array [] = .array [] ∧ [11] = ([11] : Bytes) :=
  C20_empty .init emptyHead (i := [11]) (v := .array []) (r := [11]) (accepts_of_run (by platform_decide) (by platform_decide)) rfl

/-- C21: a 2 x 3 array of bytes. -/
example : (∀ k, product ([2, 3].take k) < 2 ^ usizeBits) ∧ ∃ slots E i' leaves E', slots.length = product [2, 3] ∧
    Members (List.replicate slots.length (some (.primitive .byte))) (abs St.init) [21, 22, 23, 24, 25, 26, 11] slots E i' ∧
    Resolve slots E i' leaves E' [11] :=
  C21_count .init matrixHead matrix_accepted

/-- C22: lower bounds are ignored, in messages. -/
example : deserialize (header 1 ++ [7, 1,0,0,0, 5, 2,0,0,0, 2,0,0,0, 3,0,0,0, 5,0,0,0, 6,0,0,0, 0, 2] ++
    [21, 22, 23, 24, 25, 26, 11]) = .ok (.value matrix) := by
  refine C22_message (isHeader_header 1 (by decide)) matrixHead offsetHead ?_
  obtain ⟨E, h⟩ := (accepts_iff rfl).mp matrix_accepted
  rw [abs_init] at h
  rw [List.append_assoc]
  exact .mk (isHeader_header 1 (by decide)) (.cons h .nil) (.value (.inr ⟨by decide, by simp [Env.add]⟩))

/-- C22: the same behind another record. -/
example : deserialize (header 1 ++ ([6, 2,0,0,0, 1,120] ++ ([7, 1,0,0,0, 5, 2,0,0,0, 2,0,0,0, 3,0,0,0, 5,0,0,0, 6,0,0,0, 0, 2] ++
    [21, 22, 23, 24, 25, 26, 11]))) = .ok (.value matrix) := by
  have hE : abs ⟨[], [], [(2, .string [120])]⟩ = Env.empty.add 2 (.string [120]) := by
    simp only [abs, Env.add, Env.empty, AMap.get?, Env.mk.injEq, true_and]
    funext k
    by_cases h : k = 2
    · subst h; rfl
    · rw [if_neg (fun e => h e.symm), if_neg h]
  have hacc : Accepts ⟨[], [], [(2, .string [120])]⟩ ([7, 1,0,0,0, 2, 2,0,0,0, 2,0,0,0, 3,0,0,0, 0, 2] ++ [21, 22, 23, 24, 25, 26, 11]) 1 matrix [11] :=
    ⟨_, Prod.ext (show (parseReferenceable _ _).1 = _ by platform_decide) rfl, by platform_decide⟩
  obtain ⟨E, h⟩ := (accepts_iff rfl).mp hacc
  rw [hE] at h
  exact (C22_later (isHeader_header 1 (by decide)) (fun rest => .cons (.string ⟨[2,0,0,0], [1,120], ⟨by decide, by decide, rfl⟩,
    short_string 120 (by decide), rfl⟩) .nil) matrixHead offsetHead h .nil
    (.value (.inr ⟨by decide, by simp [Env.add]⟩))).2

/-- C23: at the start. -/
example : ¬ ∃ id v r, Accepts St.init (1 :: [4,0,0,0, 3,0,0,0, 11]) id v r := fun ⟨_, _, _, h⟩ => (C23_never .init).1 h

/-- C29. -/
example : ∀ l, ((St.init).libs.get? l).isSome → ((parseReferenceable St.init [6, 1,0,0,0, 1,120, 11]).2.libs.get? l).isSome :=
  (C29_left_behind (i := [6, 1,0,0,0, 1,120, 11]) (o := (parseReferenceable St.init [6, 1,0,0,0, 1,120, 11]).1) rfl).2

/-- C01: at the start. -/
example (i : Bytes) : parseClasses St.init i = classesBody parseClasses parseReferenceable St.init i :=
  (C01_recursion .init i).1

example (i : Bytes) : arrayLoop (memberReferenceNone parseClasses) 9 7 [] St.init i =
    arrayLoop (memberReferenceNone parseClasses) 7 7 [] St.init i := (C01_array_loops .init i 7 9 (by decide)).1

/-- C46: at the start. -/
example : (parseReferenceable St.init Input.listOfCustomers).1 ≠ .diverge :=
  (C46_recursion .init Input.listOfCustomers _ (Nat.lt_succ_self _)).2.2.2

/-- A message with a string. -/
theorem string_message : Message (header 1 ++ ([6, 1,0,0,0, 1,120] ++ [11])) (.value (.string [120])) :=
  .mk (isHeader_header 1 (by decide))
    (.cons (.string (smallString 1 120 (by decide) (by decide) (by decide))) .nil)
    (.value (.inr ⟨by decide, by simp [Env.add]⟩))

/-- C31, C46. -/
example : deserialize (header 1 ++ ([6, 1,0,0,0, 1,120] ++ [11])) = .ok (.value (.string [120])) := C31_complete string_message

example (m : RemotingMessage) (h : Message (header 1 ++ ([6, 1,0,0,0, 1,120] ++ [11])) m) : m = .value (.string [120]) :=
  C31_content_unique h string_message

example : ∀ v ∈ messageValues (.value (.string [120])), depth v ≤ 25 := C46_depth_message string_message

/-- C63 (up): on 32 bits. -/
example (P : Platform) : @deserialize (P.on .bits64) (header 1 ++ ([6, 1,0,0,0, 1,120] ++ [11])) = .ok (.value (.string [120])) :=
  (C63_up (@string_message (P.on .bits32))).2

/-- C32: a string record. -/
example : ∃ s', parseReferenceable St.init ([6, 1,0,0,0, 1,120] ++ [11]) = (.ok [11] 1, s') ∧
    abs s' = (abs St.init).add 1 (.string [120]) :=
  (C32_record_iff rfl _ _ _ _).mpr ⟨_, _, .string (smallString 1 120 (by decide) (by decide) (by decide)), rfl⟩

/-- C37: an object that is not the root, and the root. -/
example : deserialize (header 0 ++ ([6, 1,0,0,0, 1,120] ++ [11])) = .ok (.value .null) :=
  C37_null_root (isHeader_header 0 (by decide)) (.cons (.string (smallString 1 120 (by decide) (by decide) (by decide))) .nil)

example : deserialize (header 1 ++ ([6, 1,0,0,0, 1,120] ++ [11])) = .ok (.value (.string [120])) :=
  C37_root (isHeader_header 1 (by decide)) (by decide)
    (.cons (.string (smallString 1 120 (by decide) (by decide) (by decide))) .nil) (by simp [Env.add])

/-- C49. -/
example : deserialize (header 1 ++ [6, 1,0,0,0, 1,120] ++ [11]) = .ok (.value (.string [120])) :=
  C49_string (isHeader_header 1 (by decide)) (smallString 1 120 (by decide) (by decide) (by decide))

example : deserialize (header 0 ++ [11]) = .ok (.value .null) := C49_null (isHeader_header 0 (by decide))

example : deserialize (header 1 ++ [15, 1,0,0,0, 2,0,0,0, 2] ++ [7, 8] ++ [11]) = .ok (.value (.array [.byte 7, .byte 8])) :=
  C49_primitive_array (t := .byte) (isHeader_header 1 (by decide))
    ⟨_, ⟨_, _, ⟨by decide, by decide, rfl⟩, ⟨by decide, rfl⟩, rfl⟩, rfl⟩
    ⟨[7], [8], ⟨by decide, rfl⟩, ⟨[8], [], ⟨by decide, rfl⟩, rfl, rfl⟩, rfl⟩

/-- C60: the three judgements on that message. -/
example (e : Error) : ¬ Rejected (header 1 ++ ([6, 1,0,0,0, 1,120] ++ [11])) e :=
  C60_determined.1 _ e ((C60_accepted _ _).mp (C31_complete string_message))

/-- C61. -/
example : ¬ Panics (header 1 ++ ([6, 1,0,0,0, 1,120] ++ [11])) :=
  (C61_exclusive _).1 ⟨_, (C60_accepted _ _).mp (C31_complete string_message)⟩

/-- C39: the member of class `A` that is a `B`. -/
theorem memberB : Accepts St.init ([4, 1,0,0,0, 1,65, 1,0,0,0, 1,97, 3, 1,66] ++ ([2, 3,0,0,0, 1,66, 0,0,0,0] ++ [11])) 1
    (.object [65] none [([97], .object [66] none [])]) [11] := accepts_of_run (by kernel_decide) (by kernel_decide)

example : ∃ library members slots values E1 i1 E2,
    Value.object [65] none [([97], .object [66] none [])] = .object [65] library members ∧
    (members.map Prod.fst).Nodup ∧ (∀ e ∈ members, e.1 ∈ [[97]]) ∧
    Members [some (.systemClass [66])] (abs St.init) ([2, 3,0,0,0, 1,66, 0,0,0,0] ++ [11]) slots E1 i1 ∧
    Resolve slots E1 i1 values E2 [11] ∧ members = bindNames [[97]] values :=
  C39_members .init hasClass memberB

/-- C39, C50: no null runs. -/
example : ∃ library values slots E1 i1,
    Value.object [65] none [([97], .object [66] none [])] = .object [65] library ([[97]].zip values) ∧
    values.length = 1 ∧ slots.length = 1 ∧
    Members [some (.systemClass [66])] (abs St.init) ([2, 3,0,0,0, 1,66, 0,0,0,0] ++ [11]) slots E1 i1 ∧
    ∀ (k : Nat) (u : Value), values[k]? = some u → ∃ slot, slots[k]? = some slot ∧ SlotValue slot u :=
  C39_aligned .init hasClass memberB ⟨by decide, by decide⟩ (by decide)

example : ∃ (library : Option Str) (members : List (Str × Value)) (E : Env),
    Value.object [65] none [([97], .object [66] none [])] = .object [65] library members ∧
      ∀ (k : Nat) (n : Str) (u : Value), [[97]][k]? = some n → (n, u) ∈ members →
        (∀ name, [MemberType.systemClass [66]][k]? = some (.systemClass name) → u = .null ∨ ∃ ms, u = .object name none ms) ∧
        (∀ name l, [MemberType.systemClass [66]][k]? = some (.class name l) → ∃ lib, E.libs l = some lib ∧
          (u = .null ∨ ∃ ms, u = .object name (some lib) ms)) :=
  C50_member_class .init hasClass rfl memberB ⟨by decide, by decide⟩ (by decide)

/-- A class `A` with the members `a` and `b`, both of the class `B`. -/
theorem hasTwo : IsClassHead ⟨1, [65], [[97], [98]], some [.systemClass [66], .systemClass [66]], none⟩
    [4, 1,0,0,0, 1,65, 2,0,0,0, 1,97, 1,98, 3, 3, 1,66, 1,66] :=
  ⟨[1,0,0,0], [1,65], [2,0,0,0], [1,97, 1,98], [3, 3, 1,66, 1,66], [], smallId 1 (by decide) (by decide),
    short_string 65 (by decide), ⟨by decide, rfl⟩,
    ⟨[1,97], [1,98], short_string 97 (by decide), ⟨[1,98], [], short_string 98 (by decide), rfl, rfl⟩, rfl⟩,
    ⟨rfl, [1,66, 1,66], ⟨[1,66], [1,66], short_string 66 (by decide), ⟨[1,66], [], short_string 66 (by decide), rfl, rfl⟩, rfl⟩,
      rfl⟩, rfl, rfl⟩

/-- C39, C50: the first member record is a run of two nulls, the second one an object.  The object stands third, and no name
is left for it. -/
theorem twoRun : Accepts St.init ([4, 1,0,0,0, 1,65, 2,0,0,0, 1,97, 1,98, 3, 3, 1,66, 1,66] ++
    ([13, 2, 2, 3,0,0,0, 1,66, 0,0,0,0] ++ [11])) 1
    (.object [65] none [([97], .null), ([98], .null)]) [11] := accepts_of_run (by kernel_decide) (by kernel_decide)

example : ∃ library slots values E1 i1,
    Value.object [65] none [([97], .null), ([98], .null)] = .object [65] library (bindNames [[97], [98]] values) ∧
      Members [some (.systemClass [66]), some (.systemClass [66])] (abs St.init) ([13, 2, 2, 3,0,0,0, 1,66, 0,0,0,0] ++ [11])
        slots E1 i1 ∧ slots.length = 2 ∧ values.length = (slots.map Slot.size).sum ∧
      ∀ (k j : Nat) (slot : Slot), slots[k]? = some slot → j < slot.size →
        ∃ u, values[((slots.take k).map Slot.size).sum + j]? = some u ∧ SlotValue slot u :=
  C39_positions .init hasTwo twoRun

example : ∃ (library : Option Str) (slots : List Slot) (values : List Value) (E : Env) (i1 : Bytes),
    Value.object [65] none [([97], .null), ([98], .null)] = .object [65] library (bindNames [[97], [98]] values) ∧
      Members [some (.systemClass [66]), some (.systemClass [66])] (abs St.init)
        ([13, 2, 2, 3,0,0,0, 1,66, 0,0,0,0] ++ [11]) slots E i1 ∧
      ∀ (k j : Nat) (slot : Slot), slots[k]? = some slot → j < slot.size →
        ∃ u, values[((slots.take k).map Slot.size).sum + j]? = some u ∧
          (∀ name, [MemberType.systemClass [66], .systemClass [66]][k]? = some (.systemClass name) →
            u = .null ∨ ∃ ms, u = .object name none ms) ∧
          (∀ name l, [MemberType.systemClass [66], .systemClass [66]][k]? = some (.class name l) →
            ∃ lib, E.libs l = some lib ∧ (u = .null ∨ ∃ ms, u = .object name (some lib) ms)) :=
  C50_positions .init hasTwo rfl twoRun

/-- C25: a member of the class `B` of the library 9, which is not there. -/
example : deserialize (header 1 ++ ([] ++ ([4, 1,0,0,0, 1,65, 1,0,0,0, 1,97, 4, 1,66, 9,0,0,0] ++ [10, 11]))) =
    .err ⟨[10, 11], .missingLibraryId⟩ := by
  refine C25_missing_member (Ts1 := []) (Ts2 := []) (name := [66]) (l := 9) (i1 := [10, 11])
    (c := ⟨1, [65], [[97]], some [.class [66] 9], none⟩) (isHeader_header 1 (by decide)) .nil ?_ rfl rfl .nil
    (.none (.inl (by decide))) rfl
  exact ⟨[1,0,0,0], [1,65], [1,0,0,0], [1,97], [4, 1,66, 9,0,0,0], [], smallId 1 (by decide) (by decide),
    short_string 65 (by decide), ⟨by decide, rfl⟩, ⟨[1,97], [], short_string 97 (by decide), rfl, rfl⟩,
    ⟨rfl, [1,66, 9,0,0,0], ⟨[1,66, 9,0,0,0], [], ⟨_, _, short_string 66 (by decide), smallId 9 (by decide) (by decide), rfl⟩, rfl, rfl⟩, rfl⟩, rfl, rfl⟩

/-- C27: a class with one untyped member, a reference to the string that follows. -/
example : Accepts St.init ([2, 1,0,0,0, 1,65, 1,0,0,0, 1,97] ++ ([9, 2,0,0,0] ++ [6, 2,0,0,0, 1,120, 11])) 1
    (.object [65] none [([97], .string [120])]) [11] :=
  (C27_member .init (c := ⟨1, [65], [[97]], none, none⟩)
    ⟨[1,0,0,0], [1,65], [1,0,0,0], [1,97], [], [], smallId 1 (by decide) (by decide), short_string 65 (by decide),
      ⟨by decide, rfl⟩, ⟨[1,97], [], short_string 97 (by decide), rfl, rfl⟩, rfl, rfl, rfl⟩ rfl rfl
    (smallReference 2 (by decide) (by decide))).mpr
    ⟨none, _, rfl, rfl, .inr ⟨rfl, (accepts_iff rfl).mpr
      ⟨_, .string (b := [6, 2,0,0,0, 1,120]) (smallString 2 120 (by decide) (by decide) (by decide))⟩⟩⟩

/-- C57: what was read, written and read again. -/
example : deserialize (write (.value (.string [120]))) = .ok (.value (.string [120])) := by
  have only : ∀ u, ValueIn u (.value (.string [120])) → u = .string [120] := by
    rintro u ⟨v, hv, hu⟩
    simp only [topValues, List.mem_cons, List.not_mem_nil, or_false] at hv
    subst hv
    cases hu
    rfl
  refine C57_again (C31_complete string_message) (by decide) (by decide) ?_ ?_ ?_
  · intro vs h; cases only _ h
  · intro c l ms h; cases only _ h
  · intro d h; cases only _ h

/-- C27: two references to the strings that follow. -/
example : Accepts St.init ([16, 1,0,0,0, 2,0,0,0] ++ (([9, 2,0,0,0] ++ ([9, 3,0,0,0] ++ [])) ++
      ([6, 2,0,0,0, 1,120] ++ ([6, 3,0,0,0, 1,121] ++ [11])))) 1 (.array [.string [120], .string [121]]) [11] := by
  have key : ∃ E', Resolve [.ref 2, .ref 3] (abs St.init) ([6, 2,0,0,0, 1,120] ++ ([6, 3,0,0,0, 1,121] ++ [11]))
      [.string [120], .string [121]] E' [11] :=
    ⟨_, .next rfl (.string (smallString 2 120 (by decide) (by decide) (by decide)))
      (.next rfl (.string (smallString 3 121 (by decide) (by decide) (by decide))) .nil)⟩
  obtain ⟨E', hE⟩ := key
  exact (C27_references .init (ids := [2, 3]) ⟨_, _, smallId 1 (by decide) (by decide), ⟨by decide, rfl⟩, rfl⟩
    ⟨_, _, smallReference 2 (by decide) (by decide), ⟨_, _, smallReference 3 (by decide) (by decide), rfl, rfl⟩, rfl⟩).mpr
    ⟨_, E', rfl, hE⟩

end Parser

section Serde

variable [Platform] [FloatLib]

/-! ## serde -/

/-- C40: a list of two with room for one more. -/
example (d : Dyn) : decode (listObject [.int32 1, .int32 2, .null] 2) (.vec .i32) = .ok d ↔
    (0 : Int) ≤ 2 ∧ (2 : Int) ≤ 3 + 1 ∧ ∃ ds, d = .seq ds ∧ AllDecode .i32 [.int32 1, .int32 2] ds :=
  C40_vec _ _ 2 _ _ (isList_listObject _ _) ⟨by decide, by decide⟩ (by platform_decide)

example (d : Dyn) : decode (listObject [.int32 1, .int32 2, .null] 2) (.tuple [.i32, .i32]) = .ok d ↔
    (2 : Int) = 2 ∧ (2 : Int) ≤ 3 ∧ ∃ ds, d = .tuple ds ∧ Pointwise [.int32 1, .int32 2] [.i32, .i32] ds :=
  C40_tuple _ _ 2 _ _ (isList_listObject _ _) ⟨by decide, by decide⟩ (by platform_decide)

example (d : Dyn) : decode (listObject ([.int32 1, .int32 2] ++ [.null]) 2) (.vec .i32) = .ok d ↔
    decode (.array [.int32 1, .int32 2]) (.vec .i32) = .ok d :=
  C40_prefix _ _ _ _ _ (isList_listObject _ _) (by decide) (by platform_decide)

example : ∃ e, decode (listObject [.int32 1] 3) (.vec .i32) = .error e :=
  C40_bounds _ [.int32 1] 3 _ (isList_listObject _ _) ⟨by decide, by decide⟩ (by platform_decide) (.inr (by decide))

/-- C41: a boxed `Int32` at the type `u8`. -/
example : decode (.object (lit "System.Int32") none [(lit "m_value", .int32 7)]) .u8 = decode (.int32 7) .u8 :=
  C41_boxed _ _ _ _ (.int32 7 ⟨by decide, by decide⟩) _ trivial (by decide)

/-- C42: at the root, and inside. -/
example : decode (.int32 7) (.option .u8) = (decode (.int32 7) .u8).map .some := C42_some _ _ (by simp)

example : fromSlice (.option .string) Input.listOfCustomers ≠ .ok .none :=
  ((C42_root _ _ _ customers_ok).2 (by simp [customersValue])).1

/-- C43. -/
example : fromSlice .i32 (header 1 ++ [6, 2,0,0,0, 1,120, 11]) = .err (.parsing ⟨[], .missingRootObject⟩) :=
  C43_malformed _ _ _ missing_root

example : fromSlice (.vec .str) Input.listOfCustomers = .of (decode customersValue (.vec .str)) :=
  C43_value _ _ _ customers_ok (by simp)

/-- C44: the second element is no number. -/
example : ∃ e, decode (.array [.int32 1, .null]) (.vec .i32) = .error e :=
  C44_element_error _ _ .null (by simp) (.serde) (by kernel_decide)

/-- C53: a field is missing. -/
example : ∃ e, decode (.object (lit "A") none [(lit "a", .int32 1)]) (.struct [(lit "a", .i32), (lit "b", .i32)]) = .error e :=
  C53_missing _ _ _ _ (lit "b") .i32 (by decide) (by decide) (by simp) (by simp [Ty.i32]) (by decide)

/-- C54: a boxed integer at a scalar type. -/
example : ∃ name P x s w, BoxedPrim name P x s ∧ (lit "System.Int32").takeWhile (· ≠ 96) = name ∧
    [(lit "m_value", Value.int32 7)] = [(lit "m_value", w)] ∧ decode w P = .ok x ∧ decode s .i64 = .ok (.int 7) :=
  (C54_object (lit "System.Int32") none [(lit "m_value", .int32 7)] .i64 (.int _ _) (.int 7) (by kernel_decide)).2

/-- C55. -/
example : fromSlice .str (header 1 ++ ([6, 1,0,0,0, 1,120] ++ [11])) = .of (decode (.string [120]) .str) :=
  C55 string_message _ (by simp)

example : fromSlice .str (header 1 ++ [6, 1,0,0,0, 1,120] ++ [11]) = .ok (.str [120]) :=
  C55_str (isHeader_header 1 (by decide)) (smallString 1 120 (by decide) (by decide) (by decide))

example : fromSlice (.vec .i32) (header 1 ++ [15, 1,0,0,0, 1,0,0,0, 8] ++ [7,0,0,0] ++ [11]) = .ok (.seq [.int 7]) :=
  C55_ints (ns := [7]) (isHeader_header 1 (by decide))
    ⟨_, ⟨_, _, ⟨by decide, by decide, rfl⟩, ⟨by decide, rfl⟩, rfl⟩, rfl⟩
    ⟨[7,0,0,0], [], ⟨⟨by decide, by decide⟩, by decide⟩, rfl, rfl⟩

/-- C58: a struct. -/
theorem pair_sane : Sane (.object (lit "A") (some (lit "L")) [(lit "a", .string (lit "x")), (lit "b", .string (lit "y"))]) := by
  refine sane_object (by simp) (by decide) ?_
  intro m hm
  simp only [List.mem_cons, List.not_mem_nil, or_false] at hm
  rcases hm with rfl | rfl
  · exact sane_string (by decide)
  · exact sane_string (by decide)

example (d : Dyn) : decode (.object (lit "A") (some (lit "L")) [(lit "a", .string (lit "x")), (lit "b", .string (lit "y"))])
      (.map .string) = .ok d ↔
    Decodes (.object (lit "A") (some (lit "L")) [(lit "a", .string (lit "x")), (lit "b", .string (lit "y"))]) (.map .string) d :=
  C58 _ pair_sane _ (.map .string) d

/-- C64: that object at a struct without a field `b`, and with a field `c`. -/
example [TextLib] : ∃ r, decodeR (.object (lit "A") (some (lit "L")) [(lit "a", .string (lit "x")), (lit "b", .string (lit "y"))])
      (.struct (lit "S") ([(lit "a", .string)] ++ (lit "c", .int .i32) :: [])) = .error r ∧
    r.text = lit "missing field `" ++ lit "c" ++ lit "`" := by
  refine C64_missing _ _ _ _ _ _ _ _ pair_sane ?_ ?_ ?_ (by simp) (by decide) (by simp)
  · simp only [List.cons_append, List.nil_append, RTy.erase, RTy.eraseFields]
    refine .struct (by simp [lit]) ?_
    intro f hf
    simp only [List.mem_cons, List.not_mem_nil, or_false] at hf
    rcases hf with rfl | rfl
    · exact .string
    · exact .int _ _
  · intro m hm f hf he
    simp only [List.cons_append, List.nil_append, List.mem_cons, List.not_mem_nil, or_false] at hm hf
    rcases hm with rfl | rfl <;> rcases hf with rfl | rfl
    · exact ⟨_, .string _⟩
    · exact absurd he (by decide)
    · exact absurd he (by decide)
    · exact absurd he (by decide)
  · intro m hm _
    simp only [List.mem_cons, List.not_mem_nil, or_false] at hm
    rcases hm with rfl | rfl <;> exact ⟨_, .ignoredLeaf trivial⟩

/-- C64: from bytes. -/
example (T : RTy) (hT : T.erase.Proper) (hopt : ∀ T', T ≠ .option T') (hdec : ∀ x : Dec, IsUtf8 (Platform.decimalToStr x)) :
    (∃ d, fromSliceR T (header 1 ++ ([6, 1,0,0,0, 1,120] ++ [11])) = .ok d ∧ Decodes (.string [120]) T.erase d) ∨
      ∃ r, fromSliceR T (header 1 ++ ([6, 1,0,0,0, 1,120] ++ [11])) = .err r ∧ Fails (.string [120]) T r := by
  refine C64_from_slice (C31_complete string_message) hdec ?_ T hT hopt
  intro _ u items size hu hl
  cases hu
  obtain ⟨_, _, _, he, _⟩ := hl
  cases he

example : fromSliceR (.option (.int .u8)) (header 1 ++ ([6, 1,0,0,0, 1,120] ++ [11])) =
    .err (.invalidType (.str [120]) (lit "option")) :=
  (C64_root_option (C31_complete string_message) _).2 (by simp) (.inl trivial)

/-- A call without context and arguments. -/
def call : MethodCall := ⟨[77], [84], none, none⟩

omit [FloatLib] in
theorem call_ok : deserialize (header 0 ++ [21, 17,0,0,0, 18,1,77, 18,1,84, 11]) = .ok (.methodCall call) := by kernel_decide

omit [FloatLib] in
/-- A return of the number 42. -/
theorem return_ok : deserialize (header 0 ++ [22, 17,8,0,0, 8, 42,0,0,0, 11]) =
    .ok (.methodReturn ⟨some (.int32 42), none, none⟩) := by kernel_decide

/-- C43, C64. -/
example : fromSlice .i32 (header 0 ++ [21, 17,0,0,0, 18,1,77, 18,1,84, 11]) = .err .methodCall := C43_call _ _ _ call_ok

example : fromSlice .i32 (header 0 ++ [22, 17,8,0,0, 8, 42,0,0,0, 11]) = .err .methodReturn := C43_return _ _ _ return_ok

example [TextLib] : ∃ r, fromSliceR (.int .i32) (header 0 ++ [21, 17,0,0,0, 18,1,77, 18,1,84, 11]) = .err r ∧
    r.text = lit "invalid type: method call, expected " ++ lit "i32" := C64_call _ _ _ call_ok

example [TextLib] : ∃ r, fromSliceR (.int .i32) (header 0 ++ [22, 17,8,0,0, 8, 42,0,0,0, 11]) = .err r ∧
    r.text = lit "invalid type: method return, expected " ++ lit "i32" := C64_return _ _ _ return_ok

/-- C66: a borrowed string, from the bytes of a string record. -/
example (hdec : ∀ x : Dec, IsUtf8 (Platform.decimalToStr x)) :
    ∃ d, fromSlice .str (header 1 ++ ([6, 1,0,0,0, 1,120] ++ [11])) = .ok d ∧
      ReadFrom (header 1 ++ ([6, 1,0,0,0, 1,120] ++ [11])) .str d := by
  have hbig : usizeBits = 32 → ∀ v u items size, deserialize (header 1 ++ ([6, 1,0,0,0, 1,120] ++ [11])) = .ok (.value v) → SubValue u v →
      IsList u items size → items.length < 2 ^ 30 := by
    intro _ v u items size hv hu hl
    rw [C31_complete string_message] at hv
    cases hv
    cases hu
    obtain ⟨_, _, _, he, _⟩ := hl
    cases he
  have h := (C58_from_slice (C31_complete string_message) hdec (fun h32 u items size => hbig h32 _ u items size (C31_complete string_message))
    .str .str (by simp) (.str [120])).mpr (.str _)
  exact ⟨_, h, C66 .str hdec hbig h⟩

/-- The only list in the message of `/repo/tests/list_of_customers.rs` has four items. -/
theorem customers_small : usizeBits = 32 → ∀ u items size, SubValue u customersValue → IsList u items size →
    items.length < 2 ^ 30 := by
  intro _ u items size hu hl
  have h4 : 4 < 2 ^ 30 := by decide
  obtain ⟨cls, ms, version, rfl, -, -, -, hm, -⟩ := hl
  unfold customersValue at hu
  generalize listClass = c, ascii "_items" = a1, ascii "_size" = a2, ascii "_version" = a3, ascii "Bob" = s1, ascii "Rob" = s2 at hu
  cases hu with
  | refl =>
    simp only [List.mem_cons, Prod.mk.injEq, Value.array.injEq, reduceCtorEq, and_false, List.not_mem_nil, or_false] at hm
    rw [hm.2]; exact h4
  | member h hu =>
    simp only [List.mem_cons, Prod.mk.injEq, List.not_mem_nil, or_false] at h
    rcases h with ⟨-, rfl⟩ | ⟨-, rfl⟩ | ⟨-, rfl⟩
    · cases hu with
      | item h hu =>
        simp only [List.mem_cons, List.not_mem_nil, or_false] at h
        rcases h with rfl | rfl | rfl | rfl <;> cases hu
    · cases hu
    · cases hu

/-- The image of the list of `/repo/tests/list_of_customers.rs`: the two names, without the spare capacity. -/
theorem customers_image : Image customersValue (.seq [.str (ascii "Bob"), .str (ascii "Rob")]) := by
  refine .sequence (vs := [.string (ascii "Bob"), .string (ascii "Rob")])
    (.list (slack := 1) (items := [.string (ascii "Bob"), .string (ascii "Rob"), .null, .null]) (size := 2)
      ⟨_, _, 2, rfl, by kernel_decide, rfl, by kernel_decide, ?_, ?_, ?_⟩ (by decide)) rfl ?_
  · exact .head _
  · exact .tail _ (.head _)
  · exact .tail _ (.tail _ (.head _))
  · intro p hp
    simp only [List.zip_cons_cons, List.zip_nil_left, List.mem_cons, List.not_mem_nil, or_false] at hp
    rcases hp with rfl | rfl <;> exact .leaf rfl

/-- C69: the list, and that it can be ignored. -/
example (hdec : ∀ x : Dec, IsUtf8 (Platform.decimalToStr x)) :
    fromSlice .any Input.listOfCustomers = .ok (.seq [.str (ascii "Bob"), .str (ascii "Rob")]) ∧
      fromSlice .ignored Input.listOfCustomers = .ok .ignored := by
  have h := (C69 customers_ok hdec customers_small _).mpr customers_image
  exact ⟨h, (C69_ignored customers_ok hdec customers_small).mp ⟨_, h⟩⟩

end Serde

section Equality

variable [Platform] [DecimalEq]

/-! ## Equality -/

omit [DecimalEq] in
/-- A return of a NaN. -/
theorem nan_return : deserialize (header 0 ++ [22, 17,8,0,0, 11, 0,0,0xC0,0x7F, 11]) =
    .ok (.methodReturn ⟨some (.single 0x7FC00000), none, none⟩) := by kernel_decide

/-- C65: it is not equal to itself, the return of 42 is. -/
example : ¬ messageEq (.methodReturn ⟨some (.single 0x7FC00000), none, none⟩)
    (.methodReturn ⟨some (.single 0x7FC00000), none, none⟩) = true := by
  rw [C65_parsed nan_return]
  intro h
  exact h (.single 0x7FC00000) ⟨_, by simp [topValues], .refl _⟩ rfl

example : messageEq (.methodReturn ⟨some (.int32 42), none, none⟩) (.methodReturn ⟨some (.int32 42), none, none⟩) = true := by
  rw [C65_parsed return_ok]
  rintro u ⟨v, hv, hu⟩
  simp only [topValues, Option.toList, Option.getD, List.append_nil, List.mem_cons, List.not_mem_nil, or_false] at hv
  subst hv
  cases hu
  exact fun h => h

example : messageEq (.methodReturn ⟨some (.int32 42), none, none⟩) (.methodCall call) =
    messageEq (.methodCall call) (.methodReturn ⟨some (.int32 42), none, none⟩) := C65_parsed_symmetric return_ok call_ok

omit [Platform] [DecimalEq] in
theorem int_typed : WellTyped (.int32 1) := typed_leaf ⟨by decide, by decide⟩ (by simp) (by simp)

omit [Platform] [DecimalEq] in
theorem null_typed : WellTyped .null := typed_leaf trivial (by simp) (by simp)

omit [Platform] [DecimalEq] in
/-- An object with its members in two orders. -/
theorem pair_typed : WellTyped (.object [65] none [([97], .int32 1), ([98], .null)]) := by
  refine typed_object (by decide) fun m hm => ?_
  simp only [List.mem_cons, List.not_mem_nil, or_false] at hm
  rcases hm with rfl | rfl
  · exact int_typed
  · exact null_typed

omit [Platform] [DecimalEq] in
theorem pair_same : Same (.object [65] none [([97], .int32 1), ([98], .null)]) (.object [65] none [([98], .null), ([97], .int32 1)]) := by
  refine .object (by decide) (by decide) (fun k => ?_) fun k v v' h h' => ?_
  · simp [or_comm]
  · simp only [List.mem_cons, List.not_mem_nil, or_false, Prod.mk.injEq] at h h'
    rcases h with ⟨rfl, rfl⟩ | ⟨rfl, rfl⟩ <;> rcases h' with ⟨h1, rfl⟩ | ⟨h1, rfl⟩
    · exact absurd h1 (by decide)
    · exact .refl _
    · exact .refl _
    · exact absurd h1 (by decide)

/-- C65: neither order is visible. -/
example (w : Value) (hw : WellTyped w) : valueEq (.object [65] none [([97], .int32 1), ([98], .null)]) w =
    valueEq (.object [65] none [([98], .null), ([97], .int32 1)]) w := C65_order pair_typed hw pair_same

/-- C65: what is equal to this object has the same members. -/
example (w : Value) (hw : WellTyped w) (h : valueEq (.object [65] none [([97], .int32 1), ([98], .null)]) w = true) :
    Same (.object [65] none [([97], .int32 1), ([98], .null)]) w := by
  refine C65_identify pair_typed hw ?_ h
  intro u hu
  cases hu with
  | refl => exact fun h => h
  | member hm hs =>
    simp only [List.mem_cons, List.not_mem_nil, or_false, Prod.mk.injEq] at hm
    rcases hm with ⟨-, rfl⟩ | ⟨-, rfl⟩ <;> cases hs <;> exact fun h => h

/-- C65: the zeros are equal, so that they cannot be told apart by a third value. -/
example (w : Value) (hw : WellTyped w) (h : valueEq (.single 0x80000000) w = true) : valueEq (.single 0) w = true :=
  C65_transitive (typed_leaf (show 0 < 2 ^ 32 by decide) (by simp) (by simp))
    (typed_leaf (v := .single 0x80000000) (show 0x80000000 < 2 ^ 32 by decide) (by simp) (by simp)) hw rfl h

end Equality

end Nrbf
