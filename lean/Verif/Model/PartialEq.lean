import Verif.Model.Value

/-! # `==` on values and messages (the derived `PartialEq` of `/repo/src/value` and `/repo/src/remoting_message.rs`) -/

set_option autoImplicit false

namespace Nrbf

/-- `PartialEq` of `rust_decimal::Decimal`, reached through the derived instances of
`/repo/src/data_type/decimal.rs:12` and `/repo/src/value/decimal.rs:4`.  It belongs to the external crate; what is
assumed of it is what its documentation promises by implementing `Eq`: it is an equivalence. -/
class DecimalEq where
  eq : Dec → Dec → Bool
  refl : ∀ a, eq a a = true
  symm : ∀ a b, eq a b = true → eq b a = true
  trans : ∀ a b c, eq a b = true → eq b c = true → eq a c = true

/-- A bit pattern with `f` fraction bits and `e` exponent bits is not a number: the exponent is all ones and the
fraction is not zero (`f64`: 52 and 11, `f32`: 23 and 8). -/
def nanBits (f e bits : Nat) : Bool := bits / 2 ^ f % 2 ^ e == 2 ^ e - 1 && bits % 2 ^ f != 0

/-- `==` of `f32` and `f64` on bit patterns: nothing is equal to a NaN, the two zeros are equal, other numbers are
equal to themselves only. -/
def floatEq (f e a b : Nat) : Bool :=
  !nanBits f e a && !nanBits f e b && (a == b || (a % 2 ^ (f + e) == 0 && b % 2 ^ (f + e) == 0))

/-- `HashMap::get`, on an association list. -/
def getMember (k : Str) : List (Str × Value) → Option Value
  | [] => none
  | (k', v) :: ms => if k' = k then some v else getMember k ms

variable [DecimalEq]

mutual
/-- `/repo/src/value/mod.rs:25` derived `PartialEq` of `Value`, with the one of `Object` (`/repo/src/value/object.rs:19`),
`TimeSpan` (`/repo/src/value/time_span.rs:4`) and `DateTime` (`/repo/src/value/date_time.rs:12`) inlined: equal variants
with equal fields. -/
def valueEq : Value → Value → Bool
  | .object c l ms, .object c' l' ms' => c == c' && (l == l' && (ms.length == ms'.length && membersEq ms ms'))
  | .array vs, .array vs' => itemsEq vs vs'
  | .boolean a, .boolean b => a == b
  | .byte a, .byte b => a == b
  | .char a, .char b => a == b
  | .decimal a, .decimal b => DecimalEq.eq a b
  | .double a, .double b => floatEq 52 11 a b
  | .int16 a, .int16 b => a == b
  | .int32 a, .int32 b => a == b
  | .int64 a, .int64 b => a == b
  | .sbyte a, .sbyte b => a == b
  | .single a, .single b => floatEq 23 8 a b
  | .timeSpan a, .timeSpan b => a == b
  | .dateTime a, .dateTime b => a == b
  | .uint16 a, .uint16 b => a == b
  | .uint32 a, .uint32 b => a == b
  | .uint64 a, .uint64 b => a == b
  | .string a, .string b => a == b
  | .null, .null => true
  | _, _ => false
/-- `PartialEq` of `Vec<Value>` (`/repo/src/value/mod.rs:30`). -/
def itemsEq : List Value → List Value → Bool
  | [], [] => true
  | v :: vs, v' :: vs' => valueEq v v' && itemsEq vs vs'
  | _, _ => false
/-- `PartialEq` of `HashMap<&str, Value>` (`/repo/src/value/object.rs:26`), after the comparison of the lengths: every
entry of the left map has an equal entry in the right one. -/
def membersEq : List (Str × Value) → List (Str × Value) → Bool
  | [], _ => true
  | (k, v) :: ms, ms' =>
    (match getMember k ms' with
      | some v' => valueEq v v'
      | none => false) && membersEq ms ms'
end

/-- `PartialEq` of `Option<Vec<Value>>`. -/
def argsEq : Option (List Value) → Option (List Value) → Bool
  | none, none => true
  | some vs, some vs' => itemsEq vs vs'
  | _, _ => false

/-- `PartialEq` of `Option<Value>`. -/
def optionEq : Option Value → Option Value → Bool
  | none, none => true
  | some v, some v' => valueEq v v'
  | _, _ => false

/-- `/repo/src/remoting_message.rs:12,25,63` derived `PartialEq` of `RemotingMessage`, `MethodCall` and `MethodReturn`. -/
def messageEq : RemotingMessage → RemotingMessage → Bool
  | .methodCall c, .methodCall c' =>
    c.methodName == c'.methodName && (c.typeName == c'.typeName && (c.callContext == c'.callContext && argsEq c.args c'.args))
  | .methodReturn r, .methodReturn r' =>
    optionEq r.returnValue r'.returnValue && (r.callContext == r'.callContext && argsEq r.args r'.args)
  | .value v, .value v' => valueEq v v'
  | _, _ => false

end Nrbf
