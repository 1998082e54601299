import Verif.Model.Visitor

/-! # `Deserialize` for the crate's `Decimal` (`/repo/src/data_type/decimal.rs:30-100`)

The type is private and nothing calls this implementation.  It is modelled as an implementation of `Deserialize` in the
sense of `Visitor`. -/

set_option autoImplicit false

namespace Nrbf.Visitors

/-- The types involved: `Decimal`, the keys `&str`, and the enum `Value` of the values (`/repo/src/data_type/decimal.rs:54-59`). -/
inductive DecimalGoal where
  | decimal
  | key
  | part

/-- `/repo/src/data_type/decimal.rs:54-59`, `enum Value`. -/
inductive Part where
  | flags (v : Int)
  | hi32 (v : Nat)
  | lo64 (v : Nat)
  deriving DecidableEq

/-- What these types deserialise to. -/
inductive DecimalAnswer where
  /-- `rust_decimal::Decimal::from_i128_with_scale(n, scale)`: the model keeps the arguments (the function is external, and
  panics if the scale is larger than 28). -/
  | scaled (n : Int) (scale : Nat)
  | key (s : Str)
  | part (p : Part)
  deriving DecidableEq

/-- `/repo/src/data_type/decimal.rs:61-64`: the local variables of `visit_map`. -/
structure Parts where
  flags : Option Int
  hi32 : Option Nat
  lo64 : Option Nat
  values : Nat

/-- Before the loop. -/
def Parts.none : Parts := ⟨.none, .none, .none, 0⟩

/-- `/repo/src/data_type/decimal.rs:67-80`: the body of the loop; `none` is `break`. -/
def Parts.step (p : Parts) (key : Str) : Part → Option Parts
  | .flags v => if key = lit "_flags" ∧ p.flags.isNone then some { p with flags := some v, values := p.values + 1 } else .none
  | .hi32 v => if key = lit "_hi32" ∧ p.hi32.isNone then some { p with hi32 := some v, values := p.values + 1 } else .none
  | .lo64 v => if key = lit "_lo32" ∧ p.lo64.isNone then some { p with lo64 := some v, values := p.values + 1 } else .none

/-- `Err(Error::invalid_type(…, &self))`. -/
def refuseAs {α : Type} [TextLib] (u : Unexpected) (expected : Str) : Res α := .error (SerdeError.invalidType u expected).text

/-- `/repo/src/data_type/decimal.rs:86-93`: `(i128::from(hi32) << 64) | i128::from(lo64)`, `(flags >> 16) as u8`, and the sign
bit of `flags`, which is an `i32`. -/
def Parts.number (flags : Int) (hi32 lo64 : Nat) : DecimalAnswer :=
  let n := (hi32 <<< 64) ||| lo64
  .scaled (if flags < 0 then -(n : Int) else n) ((flags / 2 ^ 16) % 2 ^ 8).toNat

/-- `/repo/src/data_type/decimal.rs:84-96`: after the loop. -/
def Parts.result [TextLib] (p : Parts) : Res DecimalAnswer :=
  if p.values = 3 then
    match p.flags, p.hi32, p.lo64 with
    | some f, some h, some l => .ok (Parts.number f h l)
    | _, _, _ => refuseAs .map (lit "Decimal")
  else refuseAs .map (lit "Decimal")

/-- `/repo/src/data_type/decimal.rs:66-96` `visit_map`: `map.next_entry::<&str, Value>()?` is a key and its value. -/
def decimalMap [TextLib] : Parts → List (Res (Option DecimalAnswer)) → MapAction DecimalGoal DecimalAnswer
  | _, [] => .key .key
  | _, .error e :: _ => .finish (.error e)
  | p, .ok .none :: _ => .finish p.result
  | p, .ok (some k) :: h =>
    match h with
    | [] => .value .part
    | .error e :: _ => .finish (.error e)
    | .ok (some (.part x)) :: h =>
      match k with
      | .key k =>
        match p.step k x with
        | some p => decimalMap p h
        | .none => .finish p.result
      | _ => .finish (refuseAs .map (lit "Decimal"))
    | .ok _ :: _ => .finish (refuseAs .map (lit "Decimal"))

/-- What a visitor method for a value is called with, in error texts. -/
def Scalar.unexpected [FloatLib] : Scalar → Unexpected
  | .bool b => .bool b
  | .i8 n | .i16 n | .i32 n | .i64 n => .int n
  | .u8 n | .u16 n | .u32 n | .u64 n => .int n
  | .f32 b => .float (FloatLib.f64OfF32 b)
  | .f64 b => .float b
  | .char c => .str (String.utf8EncodeChar (Char.ofNat c))
  | .str s | .borrowedStr s | .string s => .str s
  | .unit => .unit
  | .none => .option

/-- A visitor whose methods are the provided ones, which refuse. -/
def refusing [FloatLib] [TextLib] (expected : Str) : Visitor DecimalGoal DecimalAnswer where
  expecting := expected
  scalar s := refuseAs s.unexpected expected
  some := .finish (refuseAs .option expected)
  seq _ := .finish (refuseAs .seq expected)
  map _ _ := .finish (refuseAs .map expected)
  enum _ := refuseAs .unit expected

/-- `/repo/src/data_type/decimal.rs:30-100`: `Decimal`; serde's `&str`; and the derived implementation of the enum `Value`,
which calls `deserialize_enum` and accepts nothing but `visit_enum`.  The crate calls `visit_enum` only for keys (`Visitor.enum`),
and no key is asked for as this enum, so it is left out. -/
def decimalImpls [FloatLib] [TextLib] : DecimalGoal → Impl DecimalGoal DecimalAnswer
  | .decimal => .call .map { refusing (lit "Decimal") with map := fun _ => decimalMap Parts.none } id
  | .key => .call .str
      { refusing (lit "a borrowed string") with
        scalar := fun s => match s with
          | .borrowedStr s => .ok (.key s)
          | s => refuseAs s.unexpected (lit "a borrowed string") } id
  | .part => .call .enum (refusing (lit "enum Value")) id

end Nrbf.Visitors
