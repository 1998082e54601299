import Verif.Model.SerdeText
import Verif.Spec.Decode

/-! # What is reported when a value is not a value of a Rust type

`Fails v T r` says that `r` is reported when the value `v` is read at the Rust type `T`.  Members of objects
are enumerated by a hash map, in any order; if several cannot be read, the report is about one of them.
The relation uses the vocabulary of types and reports (`RTy`, `SerdeError`, `RTy.expecting`) and nothing
else of the model. -/

set_option autoImplicit false

namespace Nrbf

open Spec

variable [Platform] [FloatLib]

/-- The value is a value of the type. -/
def Reads (v : Value) (T : RTy) : Prop := ∃ d, Decodes v T.erase d

/-- The values are values of the types, one each. -/
def ReadsEach (vs : List Value) (Ts : List RTy) : Prop :=
  vs.length = Ts.length ∧ ∀ p ∈ vs.zip Ts, Reads p.1 p.2

/-- What a value is called in a report. -/
def Value.called : Value → Unexpected
  | .boolean b => .bool b
  | .sbyte n | .int16 n | .int32 n | .int64 n | .timeSpan n | .dateTime n => .int n
  | .byte n | .uint16 n | .uint32 n | .uint64 n => .int n
  | .single b => .float (FloatLib.f64OfF32 b)
  | .double b => .float b
  | .char c => .str (String.utf8EncodeChar (Char.ofNat c))
  | .decimal d => .str (Platform.decimalToStr d)
  | .string s => .str s
  | .null => .unit
  | .array _ => .seq
  | .object .. => .map

/-- The text of a string or a decimal number. -/
def Value.text? : Value → Option Str
  | .string s => some s
  | .decimal d => some (Platform.decimalToStr d)
  | _ => none

/-- The kinds of simple values that types accept. -/
def Takes : RTy → Value → Prop
  | .bool, .boolean _ => True
  | .int _, v => v.integer? ≠ none
  | .f32, .single _ | .f32, .double _ => True
  | .f32, v => v.integer? ≠ none
  | .f64, .single _ | .f64, .double _ => True
  | .f64, v => v.integer? ≠ none
  | .char, .char _ | .char, .string _ | .char, .decimal _ => True
  | .str, .string _ => True
  | .string, .char _ | .string, .string _ | .string, .decimal _ => True
  | .unit, .null => True
  | .ignored, _ | .any, _ => True
  | _, _ => False

/-- Types that are read from sequences. -/
def TakesSequence : RTy → Prop
  | .vec _ | .array _ _ | .tuple _ | .newtype _ _ | .struct _ _ | .ignored | .any | .option _ => True
  | _ => False

/-- Types that are read from maps. -/
def TakesMap : RTy → Prop
  | .map _ | .struct _ _ | .ignored | .any | .option _ => True
  | _ => False

/-- Structs and options are read from objects in their own way. -/
def ByItself : RTy → Prop
  | .struct _ _ | .option _ => True
  | _ => False

/-- Types of a fixed number of elements: the types of the elements, and what is expected of a sequence that is
too short. -/
inductive Slots : RTy → List RTy → Str → Prop
  | array (n : Nat) (T : RTy) : Slots (.array n T) (List.replicate n T) (RTy.array n T).expecting
  | tuple (Ts : List RTy) : Slots (.tuple Ts) Ts (RTy.tuple Ts).expecting
  | newtype (name : Str) (T : RTy) : Slots (.newtype name T) [T] (lit "tuple struct " ++ name ++ lit " with 1 element")

/-- Types of any number of elements. -/
inductive Repeats : RTy → RTy → Prop
  | vec (T : RTy) : Repeats (.vec T) T
  | ignored : Repeats .ignored .ignored
  | any : Repeats .any .any

/-- The `_size` of a list, as `usize`. -/
def unsignedSize (size : Int) : Nat := if 0 ≤ size then size.toNat else (2 ^ usizeBits + size).toNat

/-- The values of a sequence that are looked at: those of an array, or the first `_size` items of a list. -/
inductive Sequence : Value → List Value → Prop
  | array (vs : List Value) : Sequence (.array vs) vs
  | list {v : Value} {items : List Value} {size : Int} : IsList v items size →
      Sequence v (items.take (unsignedSize size))

/-- The classes of boxed primitives: their name, what they are called in reports, and the primitive. -/
def boxClasses : List (Str × Str × RTy) :=
  [(lit "System.Boolean", lit "Boolean", .bool), (lit "System.Byte", lit "Byte", .int .u8),
   (lit "System.SByte", lit "Int8", .int .i8), (lit "System.Char", lit "Char", .char),
   (lit "System.Double", lit "Double", .f64), (lit "System.Single", lit "Single", .f32),
   (lit "System.Int32", lit "Int32", .int .i32), (lit "System.UInt32", lit "UInt32", .int .u32),
   (lit "System.Int64", lit "Int64", .int .i64), (lit "System.UInt64", lit "UInt64", .int .u64),
   (lit "System.Int16", lit "Int16", .int .i16), (lit "System.UInt16", lit "UInt16", .int .u16)]

/-- The field is there, or may be absent. -/
def Settled (ms : List (Str × Value)) (f : Str × RTy) : Prop := f.1 ∈ ms.map Prod.fst ∨ ∃ T, f.2 = .option T

/-- `r` is reported when `v` is read at the type `T`. -/
inductive Fails : Value → RTy → SerdeError → Prop
  /-- A simple value of another kind. -/
  | kind {v : Value} {T : RTy} : IsLeaf v → (∀ T', T ≠ .option T') → ¬ Takes T v →
      Fails v T (.invalidType v.called T.expecting)
  /-- A number that does not fit. -/
  | range {v : Value} {n : Int} {t : IntTy} : v.integer? = some n → ¬ (t.min ≤ n ∧ n ≤ t.max) →
      Fails v (.int t) (.invalidValue (.int n) t.name)
  /-- A text that is not one character. -/
  | character {v : Value} {s : Str} : v.text? = some s → (∀ c : Char, s ≠ String.utf8EncodeChar c) →
      Fails v .char (.invalidValue (.str s) (lit "a character"))
  | some {v : Value} {T : RTy} {r : SerdeError} : v ≠ .null → Fails v T r → Fails v (.option T) r
  /-- A sequence at a type without elements. -/
  | sequence {v : Value} {vs : List Value} {T : RTy} : Sequence v vs → ¬ TakesSequence T →
      Fails v T (.invalidType .seq T.expecting)
  /-- The first bad element. -/
  | element {v w : Value} {before after : List Value} {T S : RTy} {r : SerdeError} :
      Sequence v (before ++ w :: after) → Repeats T S → (∀ u ∈ before, Reads u S) → Fails w S r → Fails v T r
  /-- A list with less items than `_size` says.  One missing item is not noticed. -/
  | listShort {v : Value} {items : List Value} {size : Int} {T S : RTy} : IsList v items size → Repeats T S →
      (∀ u ∈ items, Reads u S) → items.length + 1 < unsignedSize size →
      Fails v T (.invalidLength (unsignedSize size) (elements (items.length + 1) ++ lit " in list"))
  /-- The first element that is bad at its type. -/
  | slot {v w : Value} {before after : List Value} {T S : RTy} {Ss Ss' : List RTy} {e : Str} {r : SerdeError} :
      Sequence v (before ++ w :: after) → Slots T (Ss ++ S :: Ss') e → ReadsEach before Ss → Fails w S r → Fails v T r
  /-- Too few elements. -/
  | short {v : Value} {vs : List Value} {T : RTy} {Ss Ss' : List RTy} {e : Str} : Sequence v vs →
      Slots T (Ss ++ Ss') e → Ss' ≠ [] → ReadsEach vs Ss → Fails v T (.invalidLength vs.length e)
  /-- Too many elements in an array. -/
  | long {vs more : List Value} {T : RTy} {Ss : List RTy} {e : Str} : Slots T Ss e → ReadsEach vs Ss → more ≠ [] →
      Fails (.array (vs ++ more)) T
        (.invalidLength (vs.length + more.length) (elements vs.length ++ lit " in array"))
  /-- Too many elements in a list, whether or not they are there. -/
  | longList {v : Value} {vs more : List Value} {size : Int} {T : RTy} {Ss : List RTy} {e : Str} :
      IsList v (vs ++ more) size → Slots T Ss e → ReadsEach vs Ss → vs.length < unsignedSize size →
      Fails v T (.invalidLength (unsignedSize size) (elements vs.length ++ lit " in list"))
  /-- An array as a struct: the same rules. -/
  | structSlot {w : Value} {before after : List Value} {name : Str} {fs fs' : List (Str × RTy)} {k : Str} {S : RTy}
      {r : SerdeError} : ReadsEach before (fs.map Prod.snd) → Fails w S r →
      Fails (.array (before ++ w :: after)) (.struct name (fs ++ (k, S) :: fs')) r
  | structShort {vs : List Value} {name : Str} {fs fs' : List (Str × RTy)} : ReadsEach vs (fs.map Prod.snd) →
      fs' ≠ [] → Fails (.array vs) (.struct name (fs ++ fs'))
        (.invalidLength vs.length (lit "struct " ++ name ++ lit " with " ++ elements (fs ++ fs').length))
  | structLong {vs more : List Value} {name : Str} {fs : List (Str × RTy)} : ReadsEach vs (fs.map Prod.snd) →
      more ≠ [] → Fails (.array (vs ++ more)) (.struct name fs)
        (.invalidLength (vs.length + more.length) (elements vs.length ++ lit " in array"))
  /-- An object at a type without members. -/
  | object {cls : Str} {lib : Option Str} {ms : List (Str × Value)} {T : RTy} : PlainObject cls lib → ¬ TakesMap T →
      Fails (.object cls lib ms) T (.invalidType .map T.expecting)
  /-- A bad member. -/
  | entry {cls : Str} {lib : Option Str} {ms : List (Str × Value)} {k : Str} {w : Value} {T : RTy} {r : SerdeError} :
      PlainObject cls lib → (k, w) ∈ ms → Fails w T r → Fails (.object cls lib ms) (.map T) r
  | ignoredEntry {cls : Str} {lib : Option Str} {ms : List (Str × Value)} {k : Str} {w : Value} {r : SerdeError} :
      PlainObject cls lib → (k, w) ∈ ms → Fails w .ignored r → Fails (.object cls lib ms) .ignored r
  | anyEntry {cls : Str} {lib : Option Str} {ms : List (Str × Value)} {k : Str} {w : Value} {r : SerdeError} :
      PlainObject cls lib → (k, w) ∈ ms → Fails w .any r → Fails (.object cls lib ms) .any r
  /-- A member that is bad at the type of its field. -/
  | field {cls name : Str} {lib : Option Str} {ms : List (Str × Value)} {fs : List (Str × RTy)} {k : Str} {w : Value}
      {T : RTy} {r : SerdeError} : (k, w) ∈ ms → (k, T) ∈ fs → Fails w T r →
      Fails (.object cls lib ms) (.struct name fs) r
  /-- A member without a field that cannot even be ignored. -/
  | unknown {cls name : Str} {lib : Option Str} {ms : List (Str × Value)} {fs : List (Str × RTy)} {k : Str} {w : Value}
      {r : SerdeError} : (k, w) ∈ ms → k ∉ fs.map Prod.fst → Fails w .ignored r →
      Fails (.object cls lib ms) (.struct name fs) r
  /-- The first field without a member, if all members are fine. -/
  | missing {cls name : Str} {lib : Option Str} {ms : List (Str × Value)} {fs fs' : List (Str × RTy)} {k : Str} {T : RTy} :
      (∀ m ∈ ms, ∀ f ∈ fs ++ (k, T) :: fs', f.1 = m.1 → Reads m.2 f.2) →
      (∀ m ∈ ms, m.1 ∉ (fs ++ (k, T) :: fs').map Prod.fst → Reads m.2 .ignored) →
      (∀ f ∈ fs, Settled ms f) → ¬ Settled ms (k, T) →
      Fails (.object cls lib ms) (.struct name (fs ++ (k, T) :: fs')) (.missingField k)
  /-- A boxed primitive that does not have exactly one member. -/
  | boxMembers {cls c e : Str} {P T : RTy} {ms : List (Str × Value)} : cls.takeWhile (· ≠ 96) = c →
      (c, e, P) ∈ boxClasses → ¬ ByItself T → ms.length ≠ 1 → Fails (.object cls none ms) T (.invalidType .map e)
  /-- Its member is not the primitive. -/
  | boxContent {cls c e k : Str} {P T : RTy} {w : Value} {r : SerdeError} : cls.takeWhile (· ≠ 96) = c →
      (c, e, P) ∈ boxClasses → ¬ ByItself T → Fails w P r → Fails (.object cls none [(k, w)]) T r
  /-- Its member has another name than `m_value`. -/
  | boxName {cls c e k : Str} {P T : RTy} {w : Value} : cls.takeWhile (· ≠ 96) = c → (c, e, P) ∈ boxClasses →
      ¬ ByItself T → Reads w P → k ≠ lit "m_value" → Fails (.object cls none [(k, w)]) T (.invalidType .map e)
  /-- The primitive is not of the type. -/
  | boxed {cls c e : Str} {P T : RTy} {w s : Value} {x : Dyn} {r : SerdeError} : cls.takeWhile (· ≠ 96) = c →
      (c, e, P) ∈ boxClasses → ¬ ByItself T → Decodes w P.erase x → BoxedPrim c P.erase x s → Fails s T r →
      Fails (.object cls none [(lit "m_value", w)]) T r
  /-- A generic list without the members of one. -/
  | listClass {cls : Str} {ms : List (Str × Value)} {T : RTy} :
      cls.takeWhile (· ≠ 96) = lit "System.Collections.Generic.List" → ¬ ByItself T →
      (∀ items size, ¬ IsList (.object cls none ms) items size) →
      Fails (.object cls none ms) T (.systemClass (lit "System.Collections.Generic.List"))

end Nrbf
