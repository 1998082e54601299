import Verif.Spec.Encode

/-! # Method records: flag words and the stateless part of method calls and returns -/

namespace Nrbf.Spec

/-- At most one of the listed bits is set. -/
def AtMostOne (f : BitVec 32) (bits : List Nat) : Prop :=
  ∀ j ∈ bits, ∀ k ∈ bits, f.getLsbD j = true → f.getLsbD k = true → j = k

/-- None of the listed bits is set. -/
def NoneOf (f : BitVec 32) (bits : List Nat) : Prop := ∀ k ∈ bits, f.getLsbD k = false

/-- NoArgs, ArgsInline, ArgsIsArray, ArgsInArray. -/
def argsBits : List Nat := [0, 1, 2, 3]
/-- NoContext, ContextInline, ContextInArray. -/
def contextBits : List Nat := [4, 5, 6]
/-- MethodSignatureInArray. -/
def signatureBit : Nat := 7
/-- NoReturnValue, ReturnValueVoid, ReturnValueInArray.  (ReturnValueInline, bit 11, is the fourth
member of this category in MS-NRBF 2.2.1.1.) -/
def returnBits : List Nat := [9, 10, 12]
/-- ReturnValueInline. -/
def returnInlineBit : Nat := 11
/-- ExceptionInArray. -/
def exceptionBit : Nat := 13

/-- The flag words the crate accepts, in words: see C15. -/
def FlagsOk (f : BitVec 32) : Prop :=
  AtMostOne f argsBits ∧ AtMostOne f contextBits ∧ AtMostOne f returnBits ∧
  (f.getLsbD exceptionBit = true → NoneOf f (argsBits ++ returnBits ++ [signatureBit])) ∧
  (f.getLsbD signatureBit = true → NoneOf f returnBits)

/-- The flag words MS-NRBF 2.2.1.1 allows as far as the return category is concerned. -/
def ReturnCategoryOk (f : BitVec 32) : Prop := AtMostOne f (returnInlineBit :: returnBits)

/-- A flag word on the wire. -/
def IsFlags (f : BitVec 32) (b : Bytes) : Prop := b = le 4 f.toNat

/-- StringValueWithCode. -/
def IsCodedString (s : Str) (b : Bytes) : Prop := ∃ b', IsString s b' ∧ b = 18 :: b'

/-- ValueWithCode: a type byte and a primitive value, a null or a string. -/
def IsCodedValue [Platform] (v : Value) (b : Bytes) : Prop :=
  (∃ t b', IsPrimitive t v b' ∧ b = primitiveTypeByte t :: b') ∨
  (v = .null ∧ b = [17]) ∨
  (∃ s, v = .string s ∧ IsCodedString s b)

/-- ArrayOfValueWithCode. -/
def IsCodedValues [Platform] (vs : List Value) (b : Bytes) : Prop :=
  ∃ b1 b2, IsLength vs.length b1 ∧ IsSeq IsCodedValue vs b2 ∧ b = b1 ++ b2

/-- A field that is present exactly if the flag bit is set. -/
def IsOptional {α : Type} (present : Bool) (R : α → Bytes → Prop) (o : Option α) (b : Bytes) : Prop :=
  (present = true ∧ ∃ a, o = some a ∧ R a b) ∨ (present = false ∧ o = none ∧ b = [])

/-- BinaryMethodCall (MS-NRBF 2.2.3.1). -/
def IsMethodCall [Platform] (f : BitVec 32) (name type : Str) (context : Option Str)
    (args : Option (List Value)) (b : Bytes) : Prop :=
  ∃ bf bn bt bc ba, IsFlags f bf ∧ IsCodedString name bn ∧ IsCodedString type bt ∧
    IsOptional (f.getLsbD 5) IsCodedString context bc ∧
    IsOptional (f.getLsbD 1) IsCodedValues args ba ∧
    b = 21 :: bf ++ bn ++ bt ++ bc ++ ba

/-- BinaryMethodReturn (MS-NRBF 2.2.3.3). -/
def IsMethodReturn [Platform] (f : BitVec 32) (value : Option Value) (context : Option Str)
    (args : Option (List Value)) (b : Bytes) : Prop :=
  ∃ bf bv bc ba, IsFlags f bf ∧
    IsOptional (f.getLsbD 11) IsCodedValue value bv ∧
    IsOptional (f.getLsbD 5) IsCodedString context bc ∧
    IsOptional (f.getLsbD 1) IsCodedValues args ba ∧
    b = 22 :: bf ++ bv ++ bc ++ ba

end Nrbf.Spec
