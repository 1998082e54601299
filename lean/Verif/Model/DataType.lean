import Verif.Model.Value

/-! # Common data types (`/repo/src/data_type`, `/repo/src/combinator.rs`) -/

namespace Nrbf

/-- `core::str::from_utf8` (continuation byte: `(b as i8) < -64`). -/
def isCont (b : UInt8) : Bool := 0x80 ≤ b.toNat && b.toNat ≤ 0xBF

/-- `core::str::from_utf8(bytes).is_ok()`: the decision procedure of the standard library's
`run_utf8_validation` (external; the fast path over ASCII blocks is left out). -/
def utf8Valid : Bytes → Bool
  | [] => true
  | b0 :: r =>
    if b0.toNat < 0x80 then utf8Valid r
    else if 0xC2 ≤ b0.toNat && b0.toNat ≤ 0xDF then
      match r with
      | b1 :: r1 => isCont b1 && utf8Valid r1
      | _ => false
    else if 0xE0 ≤ b0.toNat && b0.toNat ≤ 0xEF then
      match r with
      | b1 :: b2 :: r2 =>
        ((b0.toNat == 0xE0 && (0xA0 ≤ b1.toNat && b1.toNat ≤ 0xBF)) ||
         (0xE1 ≤ b0.toNat && b0.toNat ≤ 0xEC && isCont b1) ||
         (b0.toNat == 0xED && (0x80 ≤ b1.toNat && b1.toNat ≤ 0x9F)) ||
         (0xEE ≤ b0.toNat && b0.toNat ≤ 0xEF && isCont b1)) &&
        isCont b2 && utf8Valid r2
      | _ => false
    else if 0xF0 ≤ b0.toNat && b0.toNat ≤ 0xF4 then
      match r with
      | b1 :: b2 :: b3 :: r3 =>
        ((b0.toNat == 0xF0 && (0x90 ≤ b1.toNat && b1.toNat ≤ 0xBF)) ||
         (0xF1 ≤ b0.toNat && b0.toNat ≤ 0xF3 && isCont b1) ||
         (b0.toNat == 0xF4 && (0x80 ≤ b1.toNat && b1.toNat ≤ 0x8F))) &&
        isCont b2 && isCont b3 && utf8Valid r3
      | _ => false
    else false

/-- `/repo/src/data_type/length_prefixed_string.rs:27`: `pair(bool, take(7usize))` at a byte
boundary of a bit stream: the top bit and the low seven bits of the next byte. -/
def lenPart : PureParser NomError (Bool × Nat) := fun i =>
  match i with
  | [] => .error ⟨i, .eof⟩
  | b :: r => .ok r (128 ≤ b.toNat, b.toNat % 128)

/-- `/repo/src/data_type/length_prefixed_string.rs:43`: `preceded(tag(0b00000, 5), take(3))`. -/
def lenLast : PureParser NomError Nat := fun i =>
  match i with
  | [] => .error ⟨i, .eof⟩
  | b :: r => if b.toNat / 8 = 0 then .ok r (b.toNat % 8) else .error ⟨i, .tagBits⟩

/-- `/repo/src/data_type/length_prefixed_string.rs:20-58` `LengthPrefixedString::parse_len`.
The five reads leave the bit offset at 0, so the arm at line 55 is never taken. -/
def parseLen : PureParser NomError Nat := fun i =>
  (lenPart i).bind fun (next, part) i =>
    let len := part
    if next then
      (lenPart i).bind (fun (next, part) i =>
        let len := len ||| part <<< 7
        if next then
          (lenPart i).bind (fun (next, part) i =>
            let len := len ||| part <<< 14
            if next then
              (lenPart i).bind (fun (next, part) i =>
                let len := len ||| part <<< 21
                if next then
                  (lenLast i).bind (fun part i => .ok i (len ||| part <<< 28)) 
                else .ok i len) 
            else .ok i len) 
        else .ok i len) 
    else .ok i len

/-- `/repo/src/data_type/length_prefixed_string.rs:60-64` `LengthPrefixedString::parse`.
Its errors are recoverable (`nom::Err::Error`). -/
def lengthPrefixedString : Parser Str := fun i =>
  ((parseLen i).bind (fun len =>
    mapOpt (take len) (fun s => if utf8Valid s then some s else none) .mapRes)).at
    (.expectedPrimitive .string)

/-- `/repo/src/data_type/boolean.rs:15-28` `Boolean::parse`. -/
def Boolean.parse : Parser Bool := fun i =>
  ((mapOpt (leUnsigned 1) (fun b =>
      match b with
      | 0 => some false
      | 1 => some true
      | _ => none) .mapRes i).intoFailure).at (.expectedPrimitive .boolean)

/-- `/repo/src/data_type/byte.rs:15-20` `Byte::parse`. -/
def Byte.parse : Parser Nat := fun i =>
  ((leUnsigned 1 i).intoFailure).at (.expectedPrimitive .byte)

/-- `char::from_u32(n)`: scalar values only (external: `core::char`). -/
def charFromU32 (n : Nat) : Option Nat :=
  if n < 0xD800 || (0xE000 ≤ n && n < 0x110000) then some n else none

/-- `/repo/src/data_type/char.rs:20-35` `Char::parse`. -/
def Char.parse : Parser Nat := fun i =>
  ((alt (mapOpt (leUnsigned 1) charFromU32 .mapOpt)
    [mapOpt (leUnsigned 2) charFromU32 .mapOpt,
     mapOpt (leUnsigned 3) charFromU32 .mapOpt,
     mapOpt (leUnsigned 4) charFromU32 .mapOpt] i).intoFailure).at (.expectedPrimitive .char)

/-- `/repo/src/data_type/decimal.rs:16-26` `Decimal::parse`. -/
def Decimal.parse [Platform] : Parser Dec := fun i =>
  (lengthPrefixedString i).bind fun s r =>
    match Platform.decimalFromStr s with
    | some d => .ok r d
    | none => .failure ⟨i, .expectedPrimitive .decimal⟩

/-- `/repo/src/data_type/double.rs:15-20` `Double::parse` (bit pattern). -/
def Double.parse : Parser Nat := fun i =>
  ((leUnsigned 8 i).intoFailure).at (.expectedPrimitive .double)

/-- `/repo/src/data_type/single.rs:15-20` `Single::parse` (bit pattern). -/
def Single.parse : Parser Nat := fun i =>
  ((leUnsigned 4 i).intoFailure).at (.expectedPrimitive .single)

/-- `/repo/src/data_type/int8.rs:15-20` `Int8::parse`. -/
def Int8.parse : Parser Int := fun i =>
  ((leSigned 1 i).intoFailure).at (.expectedPrimitive .sbyte)

/-- `/repo/src/data_type/int16.rs:15-20` `Int16::parse`. -/
def Int16.parse : Parser Int := fun i =>
  ((leSigned 2 i).intoFailure).at (.expectedPrimitive .int16)

/-- `/repo/src/data_type/int32.rs:17-22` `Int32::parse`. -/
def Int32.parse : Parser Int := fun i =>
  ((leSigned 4 i).intoFailure).at (.expectedPrimitive .int32)

/-- `/repo/src/data_type/int64.rs:15-20` `Int64::parse`. -/
def Int64.parse : Parser Int := fun i =>
  ((leSigned 8 i).intoFailure).at (.expectedPrimitive .int64)

/-- `/repo/src/data_type/uint16.rs:15-20` `UInt16::parse`. -/
def UInt16.parse : Parser Nat := fun i =>
  ((leUnsigned 2 i).intoFailure).at (.expectedPrimitive .uint16)

/-- `/repo/src/data_type/uint32.rs:15-20` `UInt32::parse`. -/
def UInt32.parse : Parser Nat := fun i =>
  ((leUnsigned 4 i).intoFailure).at (.expectedPrimitive .uint32)

/-- `/repo/src/data_type/uint64.rs:15-20` `UInt64::parse`. -/
def UInt64.parse : Parser Nat := fun i =>
  ((leUnsigned 8 i).intoFailure).at (.expectedPrimitive .uint64)

/-- `/repo/src/data_type/timespan.rs:14-19` `TimeSpan::parse`. -/
def TimeSpan.parse : Parser Int := fun i =>
  ((leSigned 8 i).intoFailure).at (.expectedPrimitive .timeSpan)

/-- `/repo/src/data_type/datetime.rs:15-19` `DateTime::parse`. -/
def DateTime.parse : Parser Int := fun i =>
  ((Int64.parse i).intoFailure).relabel (.expectedPrimitive .dateTime)

/-- `/repo/src/combinator.rs:17-30` `library_id`. -/
def libraryId : Parser Nat := fun i =>
  (Int32.parse i).bind fun n r =>
    if 0 < n then .ok r n.toNat else .failure ⟨i, .invalidLibraryId⟩

/-- `/repo/src/combinator.rs:32-45` `object_id`. -/
def objectId : Parser Nat := fun i =>
  (Int32.parse i).bind fun n r =>
    if 0 < n then .ok r n.toNat else .failure ⟨i, .invalidObjectId⟩

/-- `/repo/src/combinator.rs:47-60` `length`. -/
def length : Parser Nat := fun i =>
  (Int32.parse i).bind fun n r =>
    if 0 ≤ n then .ok r n.toNat else .failure ⟨i, .invalidLength⟩

/-- `/repo/src/data_type/mod.rs:43-46` `ClassTypeInfo`. -/
structure ClassTypeInfo where
  typeName : Str
  libraryId : Nat
  deriving Repr, DecidableEq

/-- `/repo/src/data_type/mod.rs:49-54` `ClassTypeInfo::parse`. -/
def ClassTypeInfo.parse : Parser ClassTypeInfo := fun i =>
  (lengthPrefixedString i).bind fun typeName i =>
  (Nrbf.libraryId i).bind fun libraryId i =>
    .ok i ⟨typeName, libraryId⟩

end Nrbf
