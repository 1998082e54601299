import Verif.Spec.Message

/-! # Messages that differ in their texts only

The four kinds of text a message contains (contents of strings, names of classes, names of members, names of libraries) are
replaced by other texts, kind by kind. -/

set_option autoImplicit false

namespace Nrbf.Spec

/-- A translation of texts: strings, class names, member names and library names. -/
structure Translation where
  text : Str → Str
  name : Str → Str
  member : Str → Str
  library : Str → Str

namespace Translation

/-- A translation of one kind of text makes UTF-8 of UTF-8, and does not exceed the length that can be stored. -/
def Keeps (f : Str → Str) : Prop := ∀ s, IsUtf8 s → s.length < 2 ^ 31 → IsUtf8 (f s) ∧ (f s).length < 2 ^ 31

/-- All texts remain texts, and different member names remain different.  (Strings, classes and libraries may fall together.) -/
structure Good (τ : Translation) : Prop where
  text : Keeps τ.text
  name : Keeps τ.name
  member : Keeps τ.member
  library : Keeps τ.library
  member_inj : ∀ a b, τ.member a = τ.member b → a = b

variable (τ : Translation)

mutual
/-- A value with all of its texts translated.  Numbers, decimals among them, are left alone. -/
def value : Value → Value
  | .object name library members => .object (τ.name name) (library.map τ.library) (members' members)
  | .array vs => .array (values vs)
  | .string s => .string (τ.text s)
  | .boolean x => .boolean x
  | .byte n => .byte n
  | .char n => .char n
  | .decimal d => .decimal d
  | .double n => .double n
  | .int16 n => .int16 n
  | .int32 n => .int32 n
  | .int64 n => .int64 n
  | .sbyte n => .sbyte n
  | .single n => .single n
  | .timeSpan n => .timeSpan n
  | .dateTime n => .dateTime n
  | .uint16 n => .uint16 n
  | .uint32 n => .uint32 n
  | .uint64 n => .uint64 n
  | .null => .null
/-- Likewise for the items of an array. -/
def values : List Value → List Value
  | [] => []
  | v :: vs => value v :: values vs
/-- Likewise for the members of an object. -/
def members' : List (Str × Value) → List (Str × Value)
  | [] => []
  | (k, v) :: ms => (τ.member k, value v) :: members' ms
end

/-- A message with all of its texts translated. -/
def message : RemotingMessage → RemotingMessage
  | .value v => .value (τ.value v)
  | .methodCall c => .methodCall
      ⟨τ.text c.methodName, τ.text c.typeName, c.callContext.map τ.text, c.args.map (List.map τ.value)⟩
  | .methodReturn r => .methodReturn ⟨r.returnValue.map τ.value, r.callContext.map τ.text, r.args.map (List.map τ.value)⟩

end Translation

/-- `w'` is `w` with some of the length-prefixed texts in it replaced by their translation, and otherwise the same. -/
inductive TextsReplaced (τ : Translation) : Bytes → Bytes → Prop
  | nil : TextsReplaced τ [] []
  | byte {w w' : Bytes} (x : UInt8) : TextsReplaced τ w w' → TextsReplaced τ (x :: w) (x :: w')
  | text {w w' b b' : Bytes} {s : Str} : IsString s b → IsString (τ.text s) b' → TextsReplaced τ w w' →
      TextsReplaced τ (b ++ w) (b' ++ w')
  | name {w w' b b' : Bytes} {s : Str} : IsString s b → IsString (τ.name s) b' → TextsReplaced τ w w' →
      TextsReplaced τ (b ++ w) (b' ++ w')
  | member {w w' b b' : Bytes} {s : Str} : IsString s b → IsString (τ.member s) b' → TextsReplaced τ w w' →
      TextsReplaced τ (b ++ w) (b' ++ w')
  | library {w w' b b' : Bytes} {s : Str} : IsString s b → IsString (τ.library s) b' → TextsReplaced τ w w' →
      TextsReplaced τ (b ++ w) (b' ++ w')

end Nrbf.Spec
