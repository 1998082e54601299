import Verif.Model.Enumeration

/-! # Values (`/repo/src/value`, `/repo/src/remoting_message.rs`) -/

namespace Nrbf

/-- `&'i str`: the bytes of the slice.  That they are valid UTF-8 is a theorem, not a typing
invariant of the model. -/
abbrev Str := Bytes

/-- `rust_decimal::Decimal`: sign, 96-bit mantissa and scale.  Its parser and printer belong to an
external crate, see `Platform`. -/
structure Dec where
  neg : Bool
  mantissa : Nat
  scale : Nat
  deriving Repr, DecidableEq

/-- The width of `usize` on the targets the crate is built for. -/
inductive PointerWidth where
  | bits32 | bits64
  deriving Repr, DecidableEq

/-- What the crate gets from outside: the width of `usize`, and the two functions of the external crate
`rust_decimal` that are called, `Decimal::from_str` (`/repo/src/data_type/decimal.rs:21`) and `to_string`
(`/repo/src/value/mod.rs:210`).  Nothing is assumed about them: every theorem holds for every instance. -/
class Platform where
  pointerWidth : PointerWidth
  decimalFromStr : Str → Option Dec
  decimalToStr : Dec → Str

/-- The number of bits of a `usize`. -/
def usizeBits [Platform] : Nat :=
  match Platform.pointerWidth with
  | .bits32 => 32
  | .bits64 => 64

theorem usizeBits_cases [Platform] : usizeBits = 32 ∨ usizeBits = 64 := by
  unfold usizeBits
  cases Platform.pointerWidth <;> simp

/-- `/repo/src/value/mod.rs:26-65` `Value`, with `/repo/src/value/object.rs:20-27` `Object` inlined.

* Integers are mathematical integers; that they fit their Rust type is a theorem.
* `char` is its code point, `f32`/`f64` are their bit patterns.
* `Object::members` is a `HashMap`; it is modelled by an association list with distinct keys.  The
  order of the list is the insertion order, which Rust does not expose. -/
inductive Value where
  | object (cls : Str) (library : Option Str) (members : List (Str × Value))
  | array (items : List Value)
  | boolean (b : Bool)
  | byte (n : Nat)
  | char (codePoint : Nat)
  | decimal (d : Dec)
  | double (bits : Nat)
  | int16 (n : Int)
  | int32 (n : Int)
  | int64 (n : Int)
  | sbyte (n : Int)
  | single (bits : Nat)
  | timeSpan (n : Int)
  | dateTime (raw : Int)
  | uint16 (n : Nat)
  | uint32 (n : Nat)
  | uint64 (n : Nat)
  | string (s : Str)
  | null
  deriving Repr

/-- `/repo/src/value/object.rs:20-27` `Object`. -/
structure Object where
  cls : Str
  library : Option Str
  members : List (Str × Value)
  deriving Repr

/-- `Value::Object(object)`. -/
def Object.toValue (o : Object) : Value := .object o.cls o.library o.members

/-- `/repo/src/value/date_time.rs:4-9` `DateTimeKind`. -/
inductive DateTimeKind where
  | utc | local
  deriving Repr, DecidableEq

/-- `/repo/src/value/date_time.rs:19-21` `DateTime::ticks`: arithmetic shift right by two of an
`i64`. -/
def DateTime.ticks (raw : Int) : Int := raw >>> 2

/-- `/repo/src/value/date_time.rs:24-30` `DateTime::kind`: the two low bits of the two's complement
representation. -/
def DateTime.kind (raw : Int) : Option DateTimeKind :=
  match raw % 4 with
  | 1 => some .utc
  | 2 => some .local
  | _ => none

/-- `/repo/src/value/time_span.rs:10-12` `TimeSpan::value`. -/
def TimeSpan.value (raw : Int) : Int := raw

/-- `/repo/src/remoting_message.rs:13-22` `MethodCall`. -/
structure MethodCall where
  methodName : Str
  typeName : Str
  callContext : Option Str
  args : Option (List Value)
  deriving Repr

/-- `/repo/src/remoting_message.rs:26-33` `MethodReturn`. -/
structure MethodReturn where
  returnValue : Option Value
  callContext : Option Str
  args : Option (List Value)
  deriving Repr

/-- `/repo/src/remoting_message.rs:64-71` `RemotingMessage`. -/
inductive RemotingMessage where
  | methodCall (c : MethodCall)
  | methodReturn (r : MethodReturn)
  | value (v : Value)
  deriving Repr

end Nrbf
