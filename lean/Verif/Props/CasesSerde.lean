import Verif.Props.Cases
import Verif.Props.Widen
import Verif.Props.Evolve
import Verif.Props.EqualResults
import Verif.Props.RootOption
import Verif.Props.Reports
import Verif.Props.SerdeOrder
import Verif.Props.Encodings
import Verif.Props.Independent
import Verif.Props.Truncated

/-! # More concrete cases

Like `Props/Cases.lean`, for theorems about `from_slice` and some others: each is applied to a concrete input. -/

set_option autoImplicit false

namespace Nrbf

open Spec Tests

section Parser

variable [Platform]

/-- C01: one step of the loop over the records, after a string has been read. -/
example (i : Bytes) : parseReferenceables (parseReferenceable St.init [6, 1,0,0,0, 1,120]).2 i =
    match parseReferenceable (parseReferenceable St.init [6, 1,0,0,0, 1,120]).2 i with
      | (.ok r _, s) => parseReferenceables s r
      | (.error _, s) => (.ok i (), s)
      | (.failure e, s) => (.failure e, s)
      | (.panic, s) => (.panic, s)
      | (.diverge, s) => (.diverge, s) :=
  C01_record_loop (.record _ .init) i

/-- C60: after a string, an array of booleans of which the second is none. -/
example : deserialize (header 1 ++ ([6, 1,0,0,0, 1,120] ++ ([15, 2,0,0,0, 2,0,0,0, 1] ++ ([1] ++ [9, 11])))) =
    .err ⟨[9, 11], .expectedPrimitive .boolean⟩ := by
  refine C60_first_bad (isHeader_header 1 (by decide)) (E := Env.empty.add 1 (.string [120]))
    (E' := Env.empty.add 1 (.string [120])) (i1 := [15, 2,0,0,0, 2,0,0,0, 1] ++ ([1] ++ [9, 11])) ?_ ?_
  · exact .cons (.string ⟨le 4 1, [1,120], ⟨by decide, by decide, rfl⟩, short_string 120 (by decide), rfl⟩) .nil
  · exact .primitiveArrayElements (id := 2) (len := 2) (t := .boolean)
      ⟨_, ⟨le 4 2, le 4 2, ⟨by decide, by decide, rfl⟩, ⟨by decide, rfl⟩, rfl⟩, rfl⟩
      ⟨[.boolean true], [1], [9, 11], by decide, ⟨[1], [], rfl, rfl, rfl⟩, rfl, by decide, by decide, rfl⟩

/-- C60: after a string, a byte that starts no record. -/
example : deserialize (header 1 ++ ([6, 1,0,0,0, 1,120] ++ [99, 11])) = .err ⟨[99, 11], .expectedRecordType .messageEnd⟩ := by
  refine C60_mismatch (isHeader_header 1 (by decide)) (E := Env.empty.add 1 (.string [120]))
    (E1 := Env.empty.add 1 (.string [120])) (E2 := Env.empty.add 1 (.string [120])) (i1 := [99, 11]) ?_
    (.tag (by decide)) (.tag (by decide)) (by decide)
  exact .cons (.string ⟨le 4 1, [1,120], ⟨by decide, by decide, rfl⟩, short_string 120 (by decide), rfl⟩) .nil

/-- C68: without a root, nothing of the object, the string and the array is returned. -/
example : deserialize (header 0 ++ (objectRecord ++ (Segment.all [aString, anArray] ++ [11]))) = .ok (.value .null) :=
  C68_null_root (isHeader_header 0 (by decide)) objectRecord_read pair_alone unrelated_pair

/-- C67: what is left of an array of three bytes is no message. -/
example : ¬ ∃ m', Message (threeBytes.take 29) m' := by
  refine C67_truncated (t := threeBytes.drop 29) (m := .value (.array [.byte 1, .byte 11, .byte 3])) ?_ (by decide)
    (not_completesLibrary (by decide) _)
  rw [List.take_append_drop]
  exact threeBytes_ok

/-- C71: whatever else these bytes could be said to be, it is that object. -/
example (m : RemotingMessage) (h : Written m (header 1 ++ written tokens_one ++ [11])) : m = .value written71 :=
  C71_unique h (.value (isHeader_header 1 (by decide)) written_one ⟨rfl, rfl, trivial⟩)

/-- C71: no type tells the two encodings apart. -/
example [FloatLib] (T : Ty) :
    fromSlice T (header 1 ++ written tokens_one ++ [11]) = fromSlice T (header 2 ++ written tokens_two ++ [11]) :=
  C71_from_slice (.value (isHeader_header 1 (by decide)) written_one ⟨rfl, rfl, trivial⟩)
    (.value (isHeader_header 2 (by decide)) written_two ⟨rfl, rfl, trivial⟩) T

/-- C47: the bound for a list of customers. -/
example : leavesItems (messageValues (.value customersValue)) ≤ 2 * ((2 ^ 31 - 1) * Input.listOfCustomers.length) :=
  C47_all customers_ok

end Parser

section Equality

variable [DecimalEq]

omit [DecimalEq] in
theorem pair_typed' : WellTyped (.object [65] none [([98], .null), ([97], .int32 1)]) := by
  refine typed_object (by decide) fun m hm => ?_
  simp only [List.mem_cons, List.not_mem_nil, or_false] at hm
  rcases hm with rfl | rfl
  · exact null_typed
  · exact int_typed

/-- C65: the two orders denote the same. -/
example : Equal (.object [65] none [([97], .int32 1), ([98], .null)]) (.object [65] none [([98], .null), ([97], .int32 1)]) :=
  (C65_equal pair_typed pair_typed').mp rfl

example : valueEq (.object [65] none [([97], .int32 1), ([98], .null)]) (.object [65] none [([98], .null), ([97], .int32 1)]) =
    valueEq (.object [65] none [([98], .null), ([97], .int32 1)]) (.object [65] none [([97], .int32 1), ([98], .null)]) :=
  C65_symmetric pair_typed pair_typed'

omit [DecimalEq] in
theorem value_typed {v : Value} (h : WellTyped v) : MessageTyped (.value v) := by
  rintro u ⟨w, hw, hu⟩
  simp only [topValues, List.mem_cons, List.not_mem_nil, or_false] at hw
  subst hw
  exact h _ hu

/-- C65: and so for messages. -/
example : MessageEqual (.value (.object [65] none [([97], .int32 1), ([98], .null)]))
    (.value (.object [65] none [([98], .null), ([97], .int32 1)])) :=
  (C65_message (value_typed pair_typed) (value_typed pair_typed')).mp rfl

end Equality

section Serde

variable [Platform] [FloatLib]

/-! ## C41, C48, C54 -/

/-- C41: a boxed number as any type but a struct. -/
example (T : Ty) (hT : NoStruct T) : decode (.object (lit "System.Int32") none [(lit "m_value", .int32 (-1))]) T =
    decode (.int32 (-1)) T :=
  C41 (lit "System.Int32") (lit "System.Int32") .i32 (.int (-1)) (.int32 (-1)) (.int32 (-1)) (.int32 (-1) ⟨by decide, by decide⟩) (by kernel_decide) rfl T hT

/-- C48: the order of members matters to no type. -/
example : SameResult true (decode (.object [65] none [([97], .int32 1), ([98], .null)]) (.map (.option .i32)))
    (decode (.object [65] none [([98], .null), ([97], .int32 1)]) (.map (.option .i32))) :=
  C48 _ _ pair_same _ (.map rfl (.option (.int _ _)))

example (d : Dyn) : decode (.object [65] none [([97], .int32 1), ([98], .null)]) (.struct [([98], .unit), ([97], .u8)]) = .ok d ↔
    decode (.object [65] none [([98], .null), ([97], .int32 1)]) (.struct [([98], .unit), ([97], .u8)]) = .ok d := by
  refine C48_eq _ _ pair_same _ (.struct (by decide) ?_) d
  intro f hf
  simp only [List.mem_cons, List.not_mem_nil, or_false] at hf
  rcases hf with rfl | rfl
  · exact .unit
  · exact .int _ _

/-- C54: a few instances. -/
example (d : Dyn) : decode (.int32 1) .bool = .ok d ↔ ∃ b, Value.int32 1 = .boolean b ∧ d = .bool b := C54_bool _ d (by simp)
example (d : Dyn) (h : decode (.int64 300) .u8 = .ok d) : False := by
  obtain ⟨n, hn, _, hi, _⟩ := (C54_int (.int64 300) d 0 255 (by simp)).mp h
  cases hn
  exact absurd hi (by decide)
example (d : Dyn) (h : decode (.char 65) .str = .ok d) : False := by
  obtain ⟨s, hs, _⟩ := (C54_str (.char 65) d (by simp)).mp h
  cases hs
example : decode (.char 65) .string = .ok (.str [65]) := (C54_string (.char 65) _ (by simp)).mpr (.inr (.inr ⟨65, rfl, by kernel_decide⟩))
example : decode .null .unit = .ok .unit := (C54_unit .null _ (by simp)).mpr ⟨rfl, rfl⟩
example (n : Int) : decode (.int64 n) .f64 = .ok (.f64 (FloatLib.f64OfInt n)) :=
  (C54_f64 (.int64 n) _ (by simp)).mpr (.inr (.inr ⟨n, rfl, rfl⟩))
example (b : Nat) : decode (.single b) .f32 = .ok (.f32 b) := (C54_f32 (.single b) _ (by simp)).mpr (.inl ⟨b, rfl, rfl⟩)
example : decode (.string [65]) .char = .ok (.char 65) :=
  (C54_char (.string [65]) _ (by simp) (by rintro s h; cases h; exact (utf8Valid_iff _).mp (by decide)) (by simp)).mpr
    (.inr (.inl ⟨'A', by kernel_decide, rfl⟩))

/-! ## Exactly one result -/

theorem person_sane (hdec : ∀ x : Dec, IsUtf8 (Platform.decimalToStr x)) : Sane personOld :=
  parsed_sane person_old_ok hdec fun _ u items size hu hl => absurd hl (person_no_list u hu _ _)

/-- C58: a person is read in one way. -/
example (hdec : ∀ x : Dec, IsUtf8 (Platform.decimalToStr x)) (d : Dyn) (h : Decodes personOld personType d) : d = personRead :=
  C58_unique (person_sane hdec) personType_proper h person_decodes

/-- C58: at the root, an optional person is no person. -/
example (hdec : ∀ x : Dec, IsUtf8 (Platform.decimalToStr x)) (d : Dyn) :
    fromSlice (.option personType) (write (.value personOld)) ≠ .ok d := by
  rw [Ne, C58_root person_old_ok hdec (fun _ u items size hu hl => absurd hl (person_no_list u hu _ _)) _ (.option personType_proper)]
  rintro ⟨_, h⟩
  exact absurd (h ⟨_, rfl⟩) (by simp [personOld])

/-- C64: and why. -/
example (hdec : ∀ x : Dec, IsUtf8 (Platform.decimalToStr x)) (T : RTy) :
    ∃ r, fromSliceR (.option T) (write (.value personOld)) = .err r := by
  rcases C64_root_option_total person_old_ok hdec (fun _ u items size hu hl => absurd hl (person_no_list u hu _ _)) T with
    ⟨h, _⟩ | ⟨r, _, h, _⟩
  · simp [personOld] at h
  · exact ⟨r, h⟩

/-- C64: a person is either read as an array or there is a report. -/
example (hdec : ∀ x : Dec, IsUtf8 (Platform.decimalToStr x)) :
    match decodeR personOld (.vec .unit) with
    | .ok d => Decodes personOld (.vec .unit) d ∧ ∀ r, ¬ Fails personOld (.vec .unit) r
    | .error r => Fails personOld (.vec .unit) r ∧ ∀ d, ¬ Decodes personOld (.vec .unit) d :=
  C64_total personOld (person_sane hdec) (.vec .unit) (.vec .unit)

/-- C64: an array that is too short and one that is too long. -/
example [TextLib] : ∃ r, decodeR (.array [.int32 1]) (.array 2 (.int .i32)) = .error r ∧
    r.text = lit "invalid length 1, expected an array of length 2" := by
  obtain ⟨r, h, ht⟩ := (C64_array_length [.int32 1] 2 (.int .i32) (by
    intro u hu
    simp only [List.take_succ_cons, List.take_nil, List.mem_cons, List.not_mem_nil, or_false] at hu
    subst hu
    exact ⟨.int 1, .int rfl (show (-2147483648 : Int) ≤ 1 by decide) (show (1 : Int) ≤ 2147483647 by decide)⟩) (by
    intro u hu
    simp only [List.mem_cons, List.not_mem_nil, or_false] at hu
    subst hu
    rintro u hu
    cases hu
    exact ⟨⟨by decide, by decide⟩, trivial, by simp, by simp, fun items size hl => absurd hl (not_list_leaf (v := .int32 1) trivial _ (.refl _) _ _)⟩)
    (.int _ _)).1 (by decide)
  exact ⟨r, h, ht⟩

/-- C64: what is reported for a truncated message. -/
example [TextLib] (T : RTy) : fromSliceR T (header 1 ++ swallowed) = .err (.parsing ⟨swallowed, .expectedRecordType .messageEnd⟩) :=
  (C64_malformed T _ _ C60_swallowed).1

/-- C64: the kinds of report, for null as a number. -/
example (r : SerdeError) (h : Fails .null (.int .i32) r) : ∀ n e, r ≠ .parsing e ∨ r ≠ .invalidLength n [] := by
  intro n e
  rcases C64_kinds _ _ _ h with ⟨u, x, rfl, _⟩ | ⟨u, x, rfl⟩ | ⟨k, x, rfl⟩ | ⟨k, rfl⟩ | rfl <;> exact .inl (by simp)

/-! ## C66, C69, C70, C72, C73 -/

/-- C69: what a person is as anything. -/
def personImage : Dyn := .map [(lit "Name", .str (lit "Bob")), (lit "Tags", .seq [.map [(lit "Id", .int 7)]])]

example (hdec : ∀ x : Dec, IsUtf8 (Platform.decimalToStr x)) (d d' : Dyn) (h : Image personOld d) (h' : Image personOld d') :
    d = d' :=
  C69_unique person_old_ok hdec (fun _ u items size hu hl => absurd hl (person_no_list u hu _ _)) h h'

/-- C69: a person that can be read as a map can be read as anything. -/
example (hdec : ∀ x : Dec, IsUtf8 (Platform.decimalToStr x)) (d : Dyn)
    (hd : fromSlice (.map .any) (write (.value personOld)) = .ok d) :
    ∃ d', fromSlice .any (write (.value personOld)) = .ok d' :=
  C69_least person_old_ok hdec (fun _ u items size hu hl => absurd hl (person_no_list u hu _ _)) (.map .any) (.map .any)
    (.map .any) d hd

/-- C70: a person with an optional address, which is not there. -/
example (d e : Dyn) : Decodes personOld (.struct ([(lit "Name", .str)] ++ (lit "Address", .option .string) :: [(lit "Tags", .ignored)]))
      (.struct ([(lit "Name", d)] ++ (lit "Address", .none) :: [(lit "Tags", e)])) ↔
    Decodes personOld (.struct ([(lit "Name", .str)] ++ [(lit "Tags", .ignored)])) (.struct ([(lit "Name", d)] ++ [(lit "Tags", e)])) :=
  C70_new_field (by
    intro m hm
    simp only [List.mem_cons, List.not_mem_nil, or_false] at hm
    rcases hm with rfl | rfl <;> kernel_decide) rfl

/-- C70: a person whose name is no longer asked for. -/
example : Decodes personOld (.struct [(lit "Tags", .vec (.struct [(lit "Id", .i32)]))])
    (.struct [(lit "Tags", .seq [.struct [(lit "Id", .int 7)]])]) :=
  C70_lost_field (fs := []) (ds := []) (k := lit "Name") (T := .str) (d := .str (lit "Bob")) rfl (by kernel_decide) (.inl .str) person_decodes

/-- C73: a person read at a wider type. -/
example : ∃ e, Decodes personOld personWide e ∧ Corresponds personRead e := C73_value person_decodes person_wider

/-- C66: a string that is the whole message. -/
example (hdec : ∀ x : Dec, IsUtf8 (Platform.decimalToStr x)) (d : Dyn)
    (h : fromSlice .str (write (.value (.string (lit "Bob")))) = .ok d) :
    ∃ before s after, d = .str s ∧ write (.value (.string (lit "Bob"))) = before ++ s ++ after ∧ IsUtf8 s := by
  refine C66_borrowed hdec ?_ h
  intro _ v u items size hv hu hl
  have : deserialize (write (.value (.string (lit "Bob")))) = .ok (.value (.string (lit "Bob"))) := by platform_decide
  rw [this] at hv
  cases hv
  exact absurd hl (not_list_leaf (v := .string (lit "Bob")) trivial _ hu _ _)

/-- It is read. -/
example : fromSlice .str (write (.value (.string (lit "Bob")))) = .ok (.str (lit "Bob")) := by each_platform <;> kernel_decide

end Serde

section EqualResults

variable [Platform] [FloatLib] [DecimalEq]

theorem point_typed : WellTyped pointPlus ∧ WellTyped pointMinus := by
  have h1 : MessageTyped (.value pointPlus) := parsed_typed pointPlus_ok
  have h2 : MessageTyped (.value pointMinus) := parsed_typed pointMinus_ok
  exact ⟨fun u hu => h1 u ⟨_, by simp [topValues], hu⟩, fun u hu => h2 u ⟨_, by simp [topValues], hu⟩⟩

/-- C72: the two points, as values. -/
example (hf : CastsRespectEquality) : ∃ d', Decodes pointMinus (.map .f64) d' ∧
    DynEqual (.map [(lit "x", .f64 (FloatLib.f64OfF32 0)), (lit "y", .f64 (FloatLib.f64OfInt 1))]) d' := by
  refine C72_value hf point_typed.1 point_typed.2 rfl ?_
    (.map (.inr (by kernel_decide)) (.cons (.f64OfSingle 0) (.cons (.f64OfInteger rfl) (.nil _))))
  exact fun a b _ h => absurd rfl ((point_parts (.inl rfl) ⟨_, by simp [topValues], h⟩).1 a)

/-- C72: they can be read at the same types. -/
example (hf : CastsRespectEquality) (hdec : ∀ x : Dec, IsUtf8 (Platform.decimalToStr x)) {T : Ty} (hT : T.Proper) :
    (∃ d, fromSlice T (write (.value pointPlus)) = .ok d) ↔ ∃ d', fromSlice T (write (.value pointMinus)) = .ok d' := by
  refine C72_success hf pointPlus_ok pointMinus_ok point_equal ?_ hdec ?_ hT
  · exact fun a b _ h => absurd rfl ((point_parts (.inl rfl) h).1 a)
  · rintro - u items size (h | h) hl
    · exact absurd hl ((point_parts (.inl rfl) h).2 _ _)
    · exact absurd hl ((point_parts (.inr rfl) h).2 _ _)

end EqualResults

end Nrbf
