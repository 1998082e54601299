import Verif.Spec.Reasons
import Verif.Props.Reports
import Verif.Props.ReportText
import Verif.Tactic.PlatformDecide

/-! # C86: which reasons errors have -/

set_option autoImplicit false

namespace Nrbf
open Spec
open Tests (header)

variable [Platform]

/-- What is reported can occur. -/
def Occurring (o : Report) : Prop := ∀ e, o = some e → CanOccur e.inner

theorem fine_none : Occurring none := fun _ h => by cases h

theorem fine_fatal {i : Bytes} {x : ErrorInner} (h : CanOccur x) : Occurring (fatal i x) := fun e he => by cases he; exact h

theorem fine_number {ok : Int → Prop} {x : ErrorInner} {i : Bytes} {o : Report} (h : BadNumber ok x i o)
    (hx : CanOccur x) : Occurring o := by
  rcases h with ⟨_, rfl⟩ | ⟨_, _, _, _, _, _, rfl⟩
  · exact fine_fatal trivial
  · exact fine_fatal hx

theorem fine_id {i : Bytes} {o : Report} (h : BadId i o) : Occurring o := fine_number h trivial
theorem fine_libraryId {i : Bytes} {o : Report} (h : BadLibraryId i o) : Occurring o := fine_number h trivial
theorem fine_length {i : Bytes} {o : Report} (h : BadLength i o) : Occurring o := fine_number h trivial
theorem fine_string {i : Bytes} {o : Report} (h : BadString i o) : Occurring o := by obtain ⟨_, rfl⟩ := h; exact fine_none

theorem fine_byte {α : Type} {f : α → UInt8} {x : ErrorInner} {i : Bytes} {o : Report} (h : BadByte f x i o)
    (hx : CanOccur x) : Occurring o := by
  obtain ⟨_, rfl⟩ := h; exact fine_fatal hx

theorem fine_primitiveType {i : Bytes} {o : Report} (h : BadPrimitiveType i o) : Occurring o := fine_byte h trivial
theorem fine_type {i : Bytes} {o : Report} (h : BadType i o) : Occurring o := fine_byte h trivial

theorem fine_after {α : Type} {R : α → Bytes → Prop} {P : α → Bytes → Prop} {i : Bytes} {o : Report} (h : After R P i)
    (hP : ∀ a i, P a i → Occurring o) : Occurring o := by
  obtain ⟨a, _, r, _, _, h⟩ := h
  exact hP a r h

theorem fine_many {α : Type} {R : α → Bytes → Prop} {B : Bytes → Report → Prop} {n : Nat} {i : Bytes} {o : Report}
    (h : BadMany R B n i o) (hB : ∀ i, B i o → Occurring o) : Occurring o := by
  obtain ⟨_, _, _, _, _, _, h⟩ := h
  exact hB _ h

theorem fine_primitive {t : PrimitiveType} {i : Bytes} {o : Report} (h : BadPrimitive t i o) : Occurring o := by
  cases t <;> simp only [BadPrimitive] at h
  case boolean => obtain ⟨_, _, rfl⟩ := h; exact fine_fatal trivial
  case decimal =>
    rcases h with h | ⟨s, b, _, hs, _, hd, rfl⟩
    · exact fine_string h
    · exact fine_fatal ⟨s, b, hs, hd⟩
  case null => subst h; exact fine_fatal trivial
  case string => subst h; exact fine_fatal trivial
  all_goals (obtain ⟨_, rfl⟩ := h; exact fine_fatal trivial)

theorem fine_classInfo {i : Bytes} {o : Report} (h : BadClassInfo i o) : Occurring o := by
  obtain ⟨o', _, rfl⟩ := h
  intro e he
  cases o' with
  | none => cases he
  | some e' => cases he; trivial

theorem fine_typeInfo {t : BinaryType} {i : Bytes} {o : Report} (h : BadTypeInfo t i o) : Occurring o := by
  cases t <;> simp only [BadTypeInfo] at h
  case primitive => exact fine_primitiveType h
  case primitiveArray => exact fine_primitiveType h
  case systemClass => exact fine_string h
  case «class» =>
    rcases h with h | h
    · exact fine_string h
    · exact fine_after h fun _ _ => fine_libraryId

theorem fine_memberTypes {n : Nat} {i : Bytes} {o : Report} (h : BadMemberTypes n i o) : Occurring o := by
  rcases h with h | h
  · exact fine_many h fun _ => fine_type
  · exact fine_after h fun _ _ ⟨_, _, _, _, _, _, _, _, h⟩ => fine_typeInfo h

theorem fine_classRest {tag : UInt8} {i : Bytes} {o : Report} (h : BadClassRest tag i o) : Occurring o := by
  rcases h with h | h
  · exact fine_classInfo h
  · refine fine_after h fun n i h => ?_
    rcases h with ⟨_, h⟩ | ⟨_, h⟩ | ⟨_, h | h⟩
    · exact fine_libraryId h
    · exact fine_memberTypes h
    · exact fine_memberTypes h
    · exact fine_after h fun _ _ => fine_libraryId

theorem fine_classHead {i : Bytes} {o : Report} (h : BadClassHead i o) : Occurring o := by
  rcases h with ⟨_, rfl⟩ | ⟨r, _, h | h⟩ | ⟨_, _, _, _, h⟩
  · exact fine_none
  · exact fine_id h
  · refine fine_after h fun _ _ h => ?_
    rcases h with h | h
    · exact fine_id h
    · refine fine_after h fun _ _ h => ?_
      rcases h with ⟨_, rfl⟩ | ⟨_, rfl⟩ <;> exact fine_fatal trivial
  · exact fine_classRest h

theorem fine_arrayInfo {i : Bytes} {o : Report} (h : BadArrayInfo i o) : Occurring o := by
  rcases h with h | h
  · exact fine_id h
  · exact fine_after h fun _ _ => fine_length

theorem fine_binaryArrayHead {i : Bytes} {o : Report} (h : BadBinaryArrayHead i o) : Occurring o := by
  rcases h with h | h
  · exact fine_id h
  refine fine_after h fun _ _ h => ?_
  rcases h with h | h
  · exact fine_byte h trivial
  refine fine_after h fun _ _ h => ?_
  rcases h with h | h
  · exact fine_length h
  refine fine_after h fun _ _ h => ?_
  rcases h with h | h
  · exact fine_many h fun _ => fine_length
  refine fine_after h fun _ _ h => ?_
  rcases h with ⟨_, h⟩ | h
  · exact fine_many h fun _ => fine_length
  refine fine_after h fun _ _ h => ?_
  rcases h with h | h
  · exact fine_type h
  · exact fine_after h fun _ _ => fine_typeInfo

theorem fine_tagged {tag : UInt8} {B : Bytes → Report → Prop} {i : Bytes} {o : Report} (h : BadTagged tag B i o)
    (hB : ∀ i, B i o → Occurring o) : Occurring o := by
  rcases h with ⟨_, rfl⟩ | ⟨_, _, h⟩
  · exact fine_none
  · exact hB _ h

theorem fine_objectString {i : Bytes} {o : Report} (h : BadObjectString i o) : Occurring o :=
  fine_tagged h fun _ h => h.elim fine_id fun h => fine_after h fun _ _ => fine_string

theorem fine_reference {i : Bytes} {o : Report} (h : BadReference i o) : Occurring o := fine_tagged h fun _ => fine_id

theorem fine_typedPrimitive {i : Bytes} {o : Report} (h : BadTypedPrimitive i o) : Occurring o :=
  fine_tagged h fun _ h => h.elim fine_primitiveType fun h => fine_after h fun _ _ => fine_primitive

theorem fine_nulls {i : Bytes} {o : Report} (h : BadNulls i o) : Occurring o := by
  rcases h with ⟨_, rfl⟩ | ⟨_, _, ⟨_, rfl⟩ | ⟨_, rfl⟩⟩ | ⟨_, _, h⟩
  · exact fine_none
  · exact fine_fatal trivial
  · exact fine_fatal trivial
  · exact fine_number h trivial

theorem fine_library {E : Env} {i : Bytes} {o : Report} {E' : Env} (h : BadLibrary E i o E') : Occurring o := by
  rcases h with ⟨_, _, h, _⟩ | ⟨_, _, _, _, _, _, _, rfl, _⟩
  · exact fine_libraryId h
  · exact fine_fatal trivial

theorem fine_plain {i : Bytes} {o : Report} (h : BadPlain i o) : Occurring o := by
  rcases h with ⟨_, h⟩ | ⟨_, h⟩ | ⟨_, h⟩ | ⟨_, h⟩
  · exact fine_objectString h
  · exact fine_typedPrimitive h
  · exact fine_reference h
  · exact fine_nulls h

theorem fine_stringElement {i : Bytes} {o : Report} (h : BadStringElement i o) : Occurring o := by
  rcases h with ⟨_, h⟩ | ⟨_, h⟩ | ⟨_, _, h⟩
  · exact fine_objectString h
  · exact fine_reference h
  · exact fine_nulls h

mutual

theorem fine_member : ∀ {T : Option MemberType} {E : Env} {i : Bytes} {o : Report} {E' : Env}, BadMember T E i o E' → Occurring o
  | _, _, _, _, _, .library h => fine_library h
  | _, _, _, _, _, .plain _ h => fine_plain h
  | _, _, _, _, _, .object _ _ h => fine_class h
  | _, _, _, _, _, .typedPrimitive _ h => fine_primitive h
  | _, _, _, _, _, .typedString _ h => fine_objectString h
  | _, _, _, _, _, .typedObject _ h => fine_member h
  | _, _, _, _, _, .typedObjectArray _ h => fine_member h
  | _, _, _, _, _, .otherSystemClass _ _ _ => fine_fatal trivial
  | _, _, _, _, _, .noSystemClass _ _ h => fine_nulls h
  | _, _, _, _, _, .unknownLibrary _ _ => fine_fatal trivial
  | _, _, _, _, _, .otherClass _ _ _ _ => fine_fatal trivial
  | _, _, _, _, _, .noClass _ _ _ h => fine_nulls h
  | _, _, _, _, _, .stringArray _ h => fine_stringElement h
  | _, _, _, _, _, .primitiveArray _ h => fine_reference h
termination_by structural x0 x1 x2 x3 x4 h => h

theorem fine_members : ∀ {Ts : List (Option MemberType)} {E : Env} {i : Bytes} {o : Report} {E' : Env}, BadMembers Ts E i o E' → Occurring o
  | _, _, _, _, _, .here h => fine_member h
  | _, _, _, _, _, .later _ h => fine_members h
termination_by structural x0 x1 x2 x3 x4 h => h

theorem fine_fill : ∀ {T : Option MemberType} {len : Nat} {E : Env} {i : Bytes} {o : Report} {E' : Env}, BadFill T len E i o E' → Occurring o
  | _, _, _, _, _, _, .here _ h => fine_member h
  | _, _, _, _, _, _, .later _ _ h => fine_fill h
termination_by structural x0 x1 x2 x3 x4 x5 h => h

theorem fine_resolve : ∀ {slots : List Slot} {E : Env} {i : Bytes} {o : Report} {E' : Env}, BadResolve slots E i o E' → Occurring o
  | _, _, _, _, _, .value h => fine_resolve h
  | _, _, _, _, _, .nulls h => fine_resolve h
  | _, _, _, _, _, .known _ h => fine_resolve h
  | _, _, _, _, _, .next _ _ h => fine_resolve h
  | _, _, _, _, _, .record _ h => fine_record h
  | _, _, _, _, _, .other _ _ _ => fine_none
termination_by structural x0 x1 x2 x3 x4 h => h

theorem fine_class : ∀ {E : Env} {i : Bytes} {o : Report} {E' : Env}, BadClass E i o E' → Occurring o
  | _, _, _, _, .library h => fine_library h
  | _, _, _, _, .head _ h => fine_classHead h
  | _, _, _, _, .unknownLibrary _ _ _ _ => fine_fatal trivial
  | _, _, _, _, .members _ _ _ h => fine_members h
  | _, _, _, _, .references _ _ _ _ h => fine_resolve h
termination_by structural x0 x1 x2 x3 h => h

theorem fine_record : ∀ {E : Env} {i : Bytes} {o : Report} {E' : Env}, BadRecord E i o E' → Occurring o
  | _, _, _, _, .tag _ => fine_none
  | _, _, _, _, .object _ h => fine_class h
  | _, _, _, _, .libraryObject _ h => fine_class h
  | _, _, _, _, .library _ _ => fine_fatal trivial
  | _, _, _, _, .noLibrary _ _ => fine_none
  | _, _, _, _, .objectArrayHead h => fine_arrayInfo h
  | _, _, _, _, .objectArrayElements _ h => fine_fill h
  | _, _, _, _, .objectArrayReferences _ _ h => fine_resolve h
  | _, _, _, _, .stringArrayHead h => fine_arrayInfo h
  | _, _, _, _, .stringArrayElements _ h => fine_fill h
  | _, _, _, _, .stringArrayReferences _ _ h => fine_resolve h
  | _, _, _, _, .primitiveArrayHead h => fine_arrayInfo h
  | _, _, _, _, .primitiveArrayType _ h => fine_primitiveType h
  | _, _, _, _, .primitiveArrayElements _ h => fine_many h fun _ => fine_primitive
  | _, _, _, _, .arrayHead h => fine_binaryArrayHead h
  | _, _, _, _, .arraySize _ _ => fine_fatal trivial
  | _, _, _, _, .arrayElements _ _ h => fine_members h
  | _, _, _, _, .arrayReferences _ _ _ h => fine_resolve h
  | _, _, _, _, .string _ h => fine_objectString h
termination_by structural x0 x1 x2 x3 h => h

end

theorem fine_flags {i : Bytes} {o : Report} (h : BadFlags i o) : Occurring o := by
  rcases h with ⟨_, rfl⟩ | ⟨_, _, _, _, _, _, rfl⟩ <;> exact fine_fatal trivial

theorem fine_codedString {i : Bytes} {o : Report} (h : BadCodedString i o) : Occurring o := by
  rcases h with ⟨_, rfl⟩ | ⟨_, _, h⟩
  · exact fine_fatal trivial
  · exact fine_string h

theorem fine_codedValue {i : Bytes} {o : Report} (h : BadCodedValue i o) : Occurring o := by
  rcases h with h | ⟨_, _, h⟩ | ⟨_, _, _, _, _, h⟩
  · exact fine_primitiveType h
  · exact fine_string h
  · exact fine_primitive h

theorem fine_codedValues {i : Bytes} {o : Report} (h : BadCodedValues i o) : Occurring o :=
  h.elim fine_length fun h => fine_after h fun _ _ h => fine_many h fun _ => fine_codedValue

theorem fine_methodCall {i : Bytes} {o : Report} (h : BadMethodCall i o) : Occurring o := by
  refine fine_tagged h fun _ h => ?_
  rcases h with h | h
  · exact fine_flags h
  refine fine_after h fun _ _ h => ?_
  rcases h with h | h
  · exact fine_codedString h
  refine fine_after h fun _ _ h => ?_
  rcases h with h | h
  · exact fine_codedString h
  refine fine_after h fun _ _ h => ?_
  rcases h with ⟨_, h⟩ | h
  · exact fine_codedString h
  exact fine_after h fun _ _ h => fine_codedValues h.2

theorem fine_methodReturn {i : Bytes} {o : Report} (h : BadMethodReturn i o) : Occurring o := by
  refine fine_tagged h fun _ h => ?_
  rcases h with h | h
  · exact fine_flags h
  refine fine_after h fun _ _ h => ?_
  rcases h with ⟨_, h⟩ | h
  · exact fine_codedValue h
  refine fine_after h fun _ _ h => ?_
  rcases h with ⟨_, h⟩ | h
  · exact fine_codedString h
  exact fine_after h fun _ _ h => fine_codedValues h.2

theorem fine_callArray {root : Nat} {E : Env} {i : Bytes} {o : Report} {E' : Env} (h : BadCallArray root E i o E') : Occurring o := by
  cases h with
  | library h => exact fine_library h
  | head _ h => exact fine_tagged h fun _ => fine_arrayInfo
  | elements _ _ h => exact fine_fill h
  | references _ _ _ h => exact fine_resolve h
  | other => exact fine_fatal trivial

theorem occurring_rejected {w : Bytes} {e : Error} (h : Rejected w e) : CanOccur e.inner := by
  have header : ∀ {i : Bytes}, BadHeader i e → CanOccur e.inner := by
    intro i h
    have some_fine : Occurring (some e) → CanOccur e.inner := fun h => h e rfl
    rcases h with ⟨_, rfl⟩ | ⟨_, _, h | h⟩
    · exact .inl rfl
    · exact some_fine (fine_number h trivial)
    refine some_fine (fine_after h fun _ _ h => ?_)
    rcases h with h | h
    · obtain ⟨_, h⟩ := h
      rw [h]
      exact fine_fatal trivial
    refine fine_after h fun _ _ h => ?_
    rcases h with h | h
    · exact fine_number h trivial
    · exact fine_after h fun _ _ h => fine_number h trivial
  cases h with
  | header h => exact header h
  | record _ h => obtain ⟨_, _, _, _, h⟩ := h; exact fine_record h e rfl
  | method _ _ h =>
    cases h with
    | call h => exact fine_methodCall h e rfl
    | «return» h => exact fine_methodReturn h e rfl
    | callArray _ h => exact fine_callArray h e rfl
    | args => trivial
  | laterRecord _ _ _ h => obtain ⟨_, _, _, _, h⟩ := h; exact fine_record h e rfl
  | noEnd => exact .inr rfl
  | trailing => trivial
  | noRoot => trivial

/-- An input for which the parser returns an error with that reason. -/
def inputFor : ErrorInner → Bytes
  | .trailingData => header 0 ++ [11, 0]
  | .invalidCallArrayId => header 1 ++ [21, 20,0,0,0, 18,0, 18,0, 16, 2,0,0,0, 0,0,0,0, 11]
  | .missingRootObject => header 1 ++ [11]
  | .invalidNullCount => header 1 ++ [16, 1,0,0,0, 1,0,0,0, 13,0]
  | .invalidObjectId => header 1 ++ [6, 0,0,0,0]
  | .invalidLength => header 1 ++ [16, 1,0,0,0, 255,255,255,255]
  | .invalidMajorVersion => [0, 1,0,0,0, 255,255,255,255, 2,0,0,0, 0,0,0,0]
  | .invalidMinorVersion => [0, 1,0,0,0, 255,255,255,255, 1,0,0,0, 1,0,0,0]
  | .invalidRootId => [0, 255,255,255,255, 255,255,255,255, 1,0,0,0, 0,0,0,0]
  | .missingMetadataId => header 1 ++ [1, 1,0,0,0, 2,0,0,0]
  | .invalidMetadataId => header 1 ++ [1, 1,0,0,0, 1,0,0,0]
  | .invalidArgs => header 1 ++ [21, 20,0,0,0, 18,0, 18,0, 11]
  | .unexpectedClass => header 1 ++ [4, 1,0,0,0, 1,80, 1,0,0,0, 1,97, 3, 1,81, 2, 2,0,0,0, 1,82, 0,0,0,0, 11]
  | .expectedBinaryType => header 1 ++ [4, 1,0,0,0, 1,80, 1,0,0,0, 1,97, 8]
  | .expectedBinaryArrayType => header 1 ++ [7, 1,0,0,0, 6]
  | .missingLibraryId => header 1 ++ [3, 1,0,0,0, 1,80, 0,0,0,0, 5,0,0,0]
  | .invalidLibraryId => header 1 ++ [12, 0,0,0,0]
  | .duplicateLibraryId => header 1 ++ [12, 2,0,0,0, 1,76, 11]
  | .expectedClassInfo => header 1 ++ [2, 0,0,0,0]
  | .expectedMessageFlags => header 1 ++ [21]
  | .invalidMessageFlags => header 1 ++ [21, 3,0,0,0]
  | .expectedPrimitiveType => header 1 ++ [15, 1,0,0,0, 0,0,0,0, 4]
  | .other => header 1 ++ [15, 1,0,0,0, 1,0,0,0, 17]
  | .expectedRecordType .serializedStreamHeader => []
  | .expectedRecordType .messageEnd => header 1
  | .expectedPrimitive .string => header 1 ++ [21, 17,0,0,0, 17]
  | .expectedPrimitive .boolean => header 1 ++ [15, 1,0,0,0, 1,0,0,0, 1]
  | .expectedPrimitive .byte => header 1 ++ [15, 1,0,0,0, 1,0,0,0, 2]
  | .expectedPrimitive .char => header 1 ++ [15, 1,0,0,0, 1,0,0,0, 3]
  | .expectedPrimitive .double => header 1 ++ [15, 1,0,0,0, 1,0,0,0, 6]
  | .expectedPrimitive .int16 => header 1 ++ [15, 1,0,0,0, 1,0,0,0, 7]
  | .expectedPrimitive .int32 => header 1 ++ [15, 1,0,0,0, 1,0,0,0, 8]
  | .expectedPrimitive .int64 => header 1 ++ [15, 1,0,0,0, 1,0,0,0, 9]
  | .expectedPrimitive .sbyte => header 1 ++ [15, 1,0,0,0, 1,0,0,0, 10]
  | .expectedPrimitive .single => header 1 ++ [15, 1,0,0,0, 1,0,0,0, 11]
  | .expectedPrimitive .timeSpan => header 1 ++ [15, 1,0,0,0, 1,0,0,0, 12]
  | .expectedPrimitive .dateTime => header 1 ++ [15, 1,0,0,0, 1,0,0,0, 13]
  | .expectedPrimitive .uint16 => header 1 ++ [15, 1,0,0,0, 1,0,0,0, 14]
  | .expectedPrimitive .uint32 => header 1 ++ [15, 1,0,0,0, 1,0,0,0, 15]
  | .expectedPrimitive .uint64 => header 1 ++ [15, 1,0,0,0, 1,0,0,0, 16]
  | _ => []

/-- The reasons of `inputFor`. -/
def witnessed : List ErrorInner :=
  [.trailingData, .invalidCallArrayId, .missingRootObject, .invalidNullCount, .invalidObjectId, .invalidLength, .invalidMajorVersion, .invalidMinorVersion, .invalidRootId, .missingMetadataId, .invalidMetadataId, .invalidArgs, .unexpectedClass, .expectedBinaryType, .expectedBinaryArrayType, .missingLibraryId, .invalidLibraryId, .duplicateLibraryId, .expectedClassInfo, .expectedMessageFlags, .invalidMessageFlags, .expectedPrimitiveType, .other, .expectedRecordType .serializedStreamHeader, .expectedRecordType .messageEnd, .expectedPrimitive .string, .expectedPrimitive .boolean, .expectedPrimitive .byte, .expectedPrimitive .char, .expectedPrimitive .double, .expectedPrimitive .int16, .expectedPrimitive .int32, .expectedPrimitive .int64, .expectedPrimitive .sbyte, .expectedPrimitive .single, .expectedPrimitive .timeSpan, .expectedPrimitive .dateTime, .expectedPrimitive .uint16, .expectedPrimitive .uint32, .expectedPrimitive .uint64]

theorem inputFor_fails : ∀ x ∈ witnessed, ∃ e, deserialize (inputFor x) = .err e ∧ e.inner = x := by
  have key : ∀ x ∈ witnessed, (match deserialize (inputFor x) with | .err e => some e.inner | _ => none) = some x := by
    platform_decide
  intro x hx
  have h := key x hx
  generalize deserialize (inputFor x) = r at h
  cases r with
  | err e => exact ⟨e, rfl, by simpa using h⟩
  | ok => cases h
  | panic => cases h
  | hang => cases h

theorem canOccur_cases {x : ErrorInner} (h : CanOccur x) : x ∈ witnessed ∨ x = .expectedPrimitive .decimal := by
  cases x with
  | expectedRecordType t => rcases h with rfl | rfl <;> exact .inl (by decide)
  | expectedPrimitive t =>
    cases t with
    | null => exact h.elim
    | decimal => exact .inr rfl
    | _ => exact .inl (by decide)
  | eof => exact h.elim
  | duplicateObjectId => exact h.elim
  | unresolvableMemberReference => exact h.elim
  | _ => exact .inl (by decide)

/-- **C86** The reasons of the errors that the parser returns are exactly those of `CanOccur`: each of them is the reason of
the error for some input, and no error has another reason. -/
theorem C86 (x : ErrorInner) : (∃ w e, deserialize w = .err e ∧ e.inner = x) ↔ CanOccur x := by
  constructor
  · rintro ⟨w, e, h, rfl⟩
    exact occurring_rejected ((C60_rejected w e).mp h)
  · intro h
    rcases canOccur_cases h with hw | rfl
    · obtain ⟨e, he, hx⟩ := inputFor_fails x hw
      exact ⟨_, e, he, hx⟩
    · obtain ⟨s, b, hs, hd⟩ := h
      have hb : IsPrimitiveArrayHead 1 1 .decimal [15, 1,0,0,0, 1,0,0,0, 5] :=
        ⟨_, ⟨_, _, ⟨by decide, by decide, rfl⟩, ⟨by decide, rfl⟩, rfl⟩, rfl⟩
      have hr : Records Env.empty ([15, 1,0,0,0, 1,0,0,0, 5] ++ ([] ++ (b ++ []))) Env.empty
          ([15, 1,0,0,0, 1,0,0,0, 5] ++ ([] ++ (b ++ []))) := .nil
      exact ⟨_, _, C60_bad_decimal (isHeader_header 1 (by decide)) hr hb (vs := []) (b1 := []) rfl (by decide) hs hd, rfl⟩

/-- **C86** The texts of the errors that the parser returns are exactly those that are listed for a reason of `CanOccur`. -/
theorem C86_texts (s : String) :
    (∃ w e, deserialize w = .err e ∧ e.display = s) ↔ ∃ x, CanOccur x ∧ (x, s) ∈ errorTexts := by
  constructor
  · rintro ⟨w, e, h, hs⟩
    exact ⟨e.inner, (C86 e.inner).mp ⟨w, e, h, rfl⟩, (C85_display e s).mp hs⟩
  · rintro ⟨x, hx, hs⟩
    obtain ⟨w, e, h, rfl⟩ := (C86 x).mpr hx
    exact ⟨w, e, h, (C85_display e s).mpr hs⟩

/-- Arguments can be invalid, and no input makes the parser report the end of the input, or a duplicate object id, as the
reason of the failure. -/
example : (∃ w e, deserialize w = .err e ∧ e.inner = .invalidArgs) ∧ (∀ w e, deserialize w = .err e → e.inner ≠ .eof)
    ∧ ∀ w e, deserialize w = .err e → e.inner ≠ .duplicateObjectId :=
  ⟨(C86 .invalidArgs).mpr trivial, fun w e h he => (C86 .eof).mp ⟨w, e, h, he⟩,
    fun w e h he => (C86 .duplicateObjectId).mp ⟨w, e, h, he⟩⟩

/-- If the platform rejects the text `x` as a decimal, some input fails because a decimal was expected. -/
example (h : Platform.decimalFromStr [120] = none) :
    ∃ w e, deserialize w = .err e ∧ e.inner = .expectedPrimitive .decimal :=
  (C86 _).mpr ⟨[120], [1, 120], short_string 120 (by decide), h⟩

/-- Some input is rejected with the text `invalid method arguments`, and none with `unexpected end of input`. -/
example : (∃ w e, deserialize w = .err e ∧ e.display = "invalid method arguments")
    ∧ ∀ w e, deserialize w = .err e → e.display ≠ "unexpected end of input" := by
  refine ⟨(C86_texts _).mpr ⟨.invalidArgs, trivial, by decide⟩, fun w e h hs => ?_⟩
  obtain ⟨x, hx, ht⟩ := (C86_texts _).mp ⟨w, e, h, hs⟩
  have hx' : x = .eof := by
    have key : ∀ y ∈ errorTexts, y.2 = "unexpected end of input" → y.1 = .eof := by decide
    exact key _ ht rfl
  subst hx'
  exact hx

end Nrbf
