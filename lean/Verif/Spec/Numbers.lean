import Verif.Spec.Message

/-! # Messages that differ in their numbers only

The primitive values a message contains (booleans, characters, numbers, decimals, time spans, dates) are replaced by others of the
same type. -/

set_option autoImplicit false

namespace Nrbf.Spec

/-- A translation of primitive values respects the types: what can be stored as a value of some type is translated to something that
can be stored as one, and where the first byte was not 12 it is not 12 afterwards, either. -/
def KeepsTypes [Platform] (f : Value → Value) : Prop :=
  ∀ (t : PrimitiveType) (v : Value) (b : Bytes), IsPrimitive t v b →
    ∃ b', IsPrimitive t (f v) b' ∧ (b.head? ≠ some 12 → b'.head? ≠ some 12)

variable (f : Value → Value)

mutual
/-- A value with all primitive values in it translated.  Strings and names are left alone. -/
def renumber : Value → Value
  | .object name library members => .object name library (renumberMembers members)
  | .array vs => .array (renumberAll vs)
  | .string s => .string s
  | .null => .null
  | .boolean x => f (.boolean x)
  | .byte n => f (.byte n)
  | .char n => f (.char n)
  | .decimal d => f (.decimal d)
  | .double n => f (.double n)
  | .int16 n => f (.int16 n)
  | .int32 n => f (.int32 n)
  | .int64 n => f (.int64 n)
  | .sbyte n => f (.sbyte n)
  | .single n => f (.single n)
  | .timeSpan n => f (.timeSpan n)
  | .dateTime n => f (.dateTime n)
  | .uint16 n => f (.uint16 n)
  | .uint32 n => f (.uint32 n)
  | .uint64 n => f (.uint64 n)
/-- Likewise for the items of an array. -/
def renumberAll : List Value → List Value
  | [] => []
  | v :: vs => renumber v :: renumberAll vs
/-- Likewise for the members of an object. -/
def renumberMembers : List (Str × Value) → List (Str × Value)
  | [] => []
  | (k, v) :: ms => (k, renumber v) :: renumberMembers ms
end

/-- A message with all primitive values in it translated. -/
def renumberMessage : RemotingMessage → RemotingMessage
  | .value v => .value (renumber f v)
  | .methodCall c => .methodCall { c with args := c.args.map (List.map (renumber f)) }
  | .methodReturn r => .methodReturn
      { r with returnValue := r.returnValue.map (renumber f), args := r.args.map (List.map (renumber f)) }

/-- `w'` is `w` with some of the encodings of primitive values in it replaced by encodings, of the same type, of their translation, and
otherwise the same. -/
inductive NumbersReplaced [Platform] : Bytes → Bytes → Prop
  | nil : NumbersReplaced [] []
  | byte {w w' : Bytes} (x : UInt8) : NumbersReplaced w w' → NumbersReplaced (x :: w) (x :: w')
  | number {w w' b b' : Bytes} {t : PrimitiveType} {v : Value} : IsPrimitive t v b → IsPrimitive t (f v) b' →
      NumbersReplaced w w' → NumbersReplaced (b ++ w) (b' ++ w')

end Nrbf.Spec
