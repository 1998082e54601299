import Verif.Model.Value

/-! # What occurs in a message -/

namespace Nrbf.Spec

/-- `SubValue u v`: the value `u` occurs in `v` (as `v` itself, an array element or a member, at any
depth). -/
inductive SubValue : Value → Value → Prop
  | refl (v : Value) : SubValue v v
  | item {u v : Value} {vs : List Value} : v ∈ vs → SubValue u v → SubValue u (.array vs)
  | member {u v : Value} {c : Str} {l : Option Str} {k : Str} {ms : List (Str × Value)} :
      (k, v) ∈ ms → SubValue u v → SubValue u (.object c l ms)

/-- Objects, arrays and strings: the values of records, which have ids. -/
def hasId : Value → Bool
  | .object .. | .array _ | .string _ => true
  | _ => false

/-- The strings a value holds itself (not through its elements or members). -/
def ownStrings : Value → List Str
  | .object c l ms => c :: l.toList ++ ms.map Prod.fst
  | .string s => [s]
  | _ => []

/-- The values a message holds. -/
def topValues : RemotingMessage → List Value
  | .methodCall c => c.args.getD []
  | .methodReturn r => r.returnValue.toList ++ r.args.getD []
  | .value v => [v]

/-- The strings a message holds besides its values. -/
def topStrings : RemotingMessage → List Str
  | .methodCall c => [c.methodName, c.typeName] ++ c.callContext.toList
  | .methodReturn r => r.callContext.toList
  | .value _ => []

/-- The value `u` is reachable from the message. -/
def ValueIn (u : Value) (m : RemotingMessage) : Prop := ∃ v ∈ topValues m, SubValue u v

/-- The string `s` is reachable from the message. -/
def StringIn (s : Str) (m : RemotingMessage) : Prop :=
  s ∈ topStrings m ∨ ∃ u, ValueIn u m ∧ s ∈ ownStrings u

/-- A leaf holds a number its Rust type can hold (`char`: a Unicode scalar value). -/
def FitsType : Value → Prop
  | .byte n => n < 2 ^ 8
  | .char n => n < 0xD800 ∨ (0xDFFF < n ∧ n < 0x110000)
  | .double n => n < 2 ^ 64
  | .int16 n => -2 ^ 15 ≤ n ∧ n < 2 ^ 15
  | .int32 n => -2 ^ 31 ≤ n ∧ n < 2 ^ 31
  | .int64 n => -2 ^ 63 ≤ n ∧ n < 2 ^ 63
  | .sbyte n => -2 ^ 7 ≤ n ∧ n < 2 ^ 7
  | .single n => n < 2 ^ 32
  | .timeSpan n => -2 ^ 63 ≤ n ∧ n < 2 ^ 63
  | .dateTime n => -2 ^ 63 ≤ n ∧ n < 2 ^ 63
  | .uint16 n => n < 2 ^ 16
  | .uint32 n => n < 2 ^ 32
  | .uint64 n => n < 2 ^ 64
  | _ => True

/-- A character is a Latin-1 character (see C13). -/
def Latin1 : Value → Prop
  | .char n => n < 256
  | _ => True

/-- The members of an object have distinct names. -/
def NamesDistinct : Value → Prop
  | .object _ _ ms => (ms.map Prod.fst).Nodup
  | _ => True

end Nrbf.Spec
