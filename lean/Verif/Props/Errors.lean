import Verif.Model.Enumeration
import Verif.Tactic.PlatformDecide

/-! # C56: error texts -/

set_option autoImplicit false

namespace Nrbf

/-- Every error reason. -/
def allErrors : List ErrorInner :=
  [.eof, .trailingData, .unresolvableMemberReference, .invalidCallArrayId, .missingRootObject,
   .invalidNullCount, .invalidObjectId, .duplicateObjectId, .invalidLength, .invalidMajorVersion,
   .invalidMinorVersion, .invalidRootId, .missingMetadataId, .invalidMetadataId, .invalidArgs,
   .unexpectedClass, .expectedBinaryType, .expectedBinaryArrayType, .missingLibraryId,
   .invalidLibraryId, .duplicateLibraryId, .expectedClassInfo, .expectedMessageFlags,
   .invalidMessageFlags, .expectedPrimitiveType, .other] ++
  ([.serializedStreamHeader, .classWithId, .systemClassWithMembers, .classWithMembers,
    .systemClassWithMembersAndTypes, .classWithMembersAndTypes, .binaryObjectString, .binaryArray,
    .memberPrimitiveTyped, .memberReference, .objectNull, .messageEnd, .binaryLibrary,
    .objectNullMultiple256, .objectNullMultiple, .arraySinglePrimitive, .arraySingleObject,
    .arraySingleString, .methodCall, .methodReturn] : List RecordType).map .expectedRecordType ++
  ([.boolean, .byte, .char, .decimal, .double, .int16, .int32, .int64, .sbyte, .single, .timeSpan,
    .dateTime, .uint16, .uint32, .uint64, .null, .string] : List PrimitiveType).map .expectedPrimitive

theorem allErrors_complete (e : ErrorInner) : e ∈ allErrors := by
  cases e with
  | expectedRecordType t => cases t <;> simp [allErrors]
  | expectedPrimitive t => cases t <;> simp [allErrors]
  | _ => simp [allErrors]

theorem allErrors_distinct : (allErrors.map ErrorInner.display).Nodup := by decide +kernel

theorem inj_of_nodup {α β : Type} {f : α → β} {l : List α} (h : (l.map f).Nodup) {a b : α} (ha : a ∈ l)
    (hb : b ∈ l) (he : f a = f b) : a = b := by
  induction l with
  | nil => cases ha
  | cons x l ih =>
    simp only [List.map_cons, List.nodup_cons, List.mem_map, not_exists, not_and] at h
    cases ha with
    | head => cases hb with
      | head => rfl
      | tail _ hb => exact absurd he.symm (h.1 b hb)
    | tail _ ha => cases hb with
      | head => exact absurd he (h.1 a ha)
      | tail _ hb => exact ih h.2 ha hb

/-- **C56** The text of an error determines its reason: two errors with the same text differ at most in
the position. -/
theorem C56_text (e1 e2 : Error) : e1.display = e2.display ↔ e1.inner = e2.inner :=
  ⟨inj_of_nodup allErrors_distinct (allErrors_complete _) (allErrors_complete _),
    fun h => by rw [Error.display, h, Error.display]⟩

/-- **C56** No error text is empty. -/
theorem C56_nonempty (e : Error) : e.display ≠ "" := by
  have h : ∀ x ∈ allErrors, x.display ≠ "" := by decide +kernel
  exact h _ (allErrors_complete _)

/-- The texts for a missing class record and a missing typed class record differ. -/
example : (Error.mk [1] (.expectedRecordType .classWithMembers)).display ≠
    (Error.mk [1] (.expectedRecordType .classWithMembersAndTypes)).display := by
  rw [Ne, C56_text]
  decide

end Nrbf
