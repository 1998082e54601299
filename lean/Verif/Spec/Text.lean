import Verif.Spec.Size
import Verif.Model.Serde

/-! # How much text there is in a value, and in what it is read as -/

set_option autoImplicit false

namespace Nrbf.Spec

mutual
/-- The bytes of all strings, class names and member names in a value. -/
def text : Value → Nat
  | .object c _ ms => c.length + textMembers ms
  | .array vs => textItems vs
  | .string s => s.length
  | _ => 0
/-- The sum over a list of values. -/
def textItems : List Value → Nat
  | [] => 0
  | v :: vs => text v + textItems vs
/-- The sum over the members of an object, with their names. -/
def textMembers : List (Str × Value) → Nat
  | [] => 0
  | (k, v) :: ms => k.length + text v + textMembers ms
end

mutual
/-- The bytes of the library names of all objects in a value. -/
def libraryText : Value → Nat
  | .object _ l ms => (l.getD []).length + libraryTextMembers ms
  | .array vs => libraryTextItems vs
  | _ => 0
/-- The sum over a list of values. -/
def libraryTextItems : List Value → Nat
  | [] => 0
  | v :: vs => libraryText v + libraryTextItems vs
/-- The sum over the members of an object. -/
def libraryTextMembers : List (Str × Value) → Nat
  | [] => 0
  | (_, v) :: ms => libraryText v + libraryTextMembers ms
end

mutual
/-- The bytes of all strings, characters (in UTF-8) and map keys in a Rust value. -/
def dynText : Dyn → Nat
  | .str s => s.length
  | .char c => (String.utf8EncodeChar (Char.ofNat c)).length
  | .some d => dynText d
  | .newtype d => dynText d
  | .seq ds => dynTexts ds
  | .tuple ds => dynTexts ds
  | .map ds => dynTextMap ds
  | .struct ds => dynTextStruct ds
  | _ => 0
/-- The sum over a list. -/
def dynTexts : List Dyn → Nat
  | [] => 0
  | d :: ds => dynText d + dynTexts ds
/-- The sum over a map, with its keys. -/
def dynTextMap : List (Str × Dyn) → Nat
  | [] => 0
  | (k, d) :: ds => k.length + dynText d + dynTextMap ds
/-- The sum over the fields of a struct (their names are part of the type). -/
def dynTextStruct : List (Str × Dyn) → Nat
  | [] => 0
  | (_, d) :: ds => dynText d + dynTextStruct ds
end

/-- The library of decimals prints hardly more than it reads: one character more (`.5` is printed as `0.5`). -/
def PrintsShort [Platform] : Prop :=
  ∀ s d, Platform.decimalFromStr s = some d → (Platform.decimalToStr d).length ≤ s.length + 1

end Nrbf.Spec
