import Verif.Spec.Fails

/-! # The texts of errors, word for word

The texts users see, written out: of parse errors, and of the errors of `from_slice`.  Numbers are written
in decimal, by a grammar of decimal numerals.  Only the printing of a `str` with `{:?}` and of a float is a
parameter (`TextLib`), as in the model.  The functions of the model that print are not mentioned here. -/

set_option autoImplicit false

namespace Nrbf

/-- `Numeral s n`: `s` is the decimal numeral of `n`, without leading zeros.  `48` is the character `0`. -/
inductive Numeral : Str → Nat → Prop
  | digit {d : Nat} : d < 10 → Numeral [UInt8.ofNat (48 + d)] d
  | more {s : Str} {n d : Nat} : Numeral s n → 0 < n → d < 10 → Numeral (s ++ [UInt8.ofNat (48 + d)]) (10 * n + d)

/-- The same for signed numbers, with `-` before the numerals of negative ones. -/
inductive SignedNumeral : Str → Int → Prop
  | plain {s : Str} {n : Nat} : Numeral s n → SignedNumeral s n
  | minus {s : Str} {n : Nat} : Numeral s n → 0 < n → SignedNumeral (lit "-" ++ s) (-n)

/-- What is met, in words. -/
inductive CalledAs [TextLib] : Unexpected → Str → Prop
  | yes : CalledAs (.bool true) (lit "boolean `true`")
  | no : CalledAs (.bool false) (lit "boolean `false`")
  | int {n : Int} {s : Str} : SignedNumeral s n → CalledAs (.int n) (lit "integer `" ++ s ++ lit "`")
  | float (bits : Nat) : CalledAs (.float bits) (lit "floating point `" ++ TextLib.floatText bits ++ lit "`")
  | str (s : Str) : CalledAs (.str s) (lit "string " ++ TextLib.strDebug s)
  | unit : CalledAs .unit (lit "unit value")
  | option : CalledAs .option (lit "Option value")
  | seq : CalledAs .seq (lit "sequence")
  | map : CalledAs .map (lit "map")
  | methodCall : CalledAs .methodCall (lit "method call")
  | methodReturn : CalledAs .methodReturn (lit "method return")

/-- What is expected, in words, by each type. -/
inductive TypeName : RTy → Str → Prop
  | bool : TypeName .bool (lit "a boolean")
  | i8 : TypeName (.int .i8) (lit "i8")
  | i16 : TypeName (.int .i16) (lit "i16")
  | i32 : TypeName (.int .i32) (lit "i32")
  | i64 : TypeName (.int .i64) (lit "i64")
  | i128 : TypeName (.int .i128) (lit "i128")
  | isize : TypeName (.int .isize) (lit "isize")
  | u8 : TypeName (.int .u8) (lit "u8")
  | u16 : TypeName (.int .u16) (lit "u16")
  | u32 : TypeName (.int .u32) (lit "u32")
  | u64 : TypeName (.int .u64) (lit "u64")
  | u128 : TypeName (.int .u128) (lit "u128")
  | usize : TypeName (.int .usize) (lit "usize")
  | f32 : TypeName .f32 (lit "f32")
  | f64 : TypeName .f64 (lit "f64")
  | char : TypeName .char (lit "a character")
  | str : TypeName .str (lit "a borrowed string")
  | string : TypeName .string (lit "a string")
  | unit : TypeName .unit (lit "unit")
  | option (T : RTy) : TypeName (.option T) (lit "option")
  | vec (T : RTy) : TypeName (.vec T) (lit "a sequence")
  | noArray (T : RTy) : TypeName (.array 0 T) (lit "an empty array")
  | array {n : Nat} {s : Str} (T : RTy) : 0 < n → Numeral s n → TypeName (.array n T) (lit "an array of length " ++ s)
  | tuple {Ts : List RTy} {s : Str} : Numeral s Ts.length → TypeName (.tuple Ts) (lit "a tuple of size " ++ s)
  | map (T : RTy) : TypeName (.map T) (lit "a map")
  | struct (name : Str) (fields : List (Str × RTy)) : TypeName (.struct name fields) (lit "struct " ++ name)
  | newtype (name : Str) (T : RTy) : TypeName (.newtype name T) (lit "tuple struct " ++ name)
  | enum (name : Str) : TypeName (.enum name) (lit "enum " ++ name)
  | ignored : TypeName .ignored (lit "anything at all")
  | any : TypeName .any (lit "any value")

/-- The numbers of the integer types, from and to. -/
inductive NumberRange [Platform] : IntTy → Int → Int → Prop
  | i8 : NumberRange .i8 (-128) 127
  | i16 : NumberRange .i16 (-32768) 32767
  | i32 : NumberRange .i32 (-2147483648) 2147483647
  | i64 : NumberRange .i64 (-9223372036854775808) 9223372036854775807
  | i128 : NumberRange .i128 (-170141183460469231731687303715884105728) 170141183460469231731687303715884105727
  | u8 : NumberRange .u8 0 255
  | u16 : NumberRange .u16 0 65535
  | u32 : NumberRange .u32 0 4294967295
  | u64 : NumberRange .u64 0 18446744073709551615
  | u128 : NumberRange .u128 0 340282366920938463463374607431768211455
  | isize32 : Platform.pointerWidth = .bits32 → NumberRange .isize (-2147483648) 2147483647
  | isize64 : Platform.pointerWidth = .bits64 → NumberRange .isize (-9223372036854775808) 9223372036854775807
  | usize32 : Platform.pointerWidth = .bits32 → NumberRange .usize 0 4294967295
  | usize64 : Platform.pointerWidth = .bits64 → NumberRange .usize 0 18446744073709551615

/-- How many elements, in words. -/
inductive Amount : Nat → Str → Prop
  | one : Amount 1 (lit "1 element")
  | many {n : Nat} {s : Str} : n ≠ 1 → Numeral s n → Amount n (s ++ lit " elements")

/-- The texts of parse errors. -/
def errorTexts : List (ErrorInner × String) :=
  [(.eof, "unexpected end of input"), (.trailingData, "unexpected trailing data"),
   (.unresolvableMemberReference, "unresolvable member reference"), (.invalidCallArrayId, "invalid call array ID"),
   (.missingRootObject, "missing root object"), (.invalidNullCount, "invalid NULL count"),
   (.invalidObjectId, "invalid object ID"), (.duplicateObjectId, "duplicate object ID"),
   (.invalidLength, "invalid length"), (.invalidMajorVersion, "invalid major version"),
   (.invalidMinorVersion, "invalid minor version"), (.invalidRootId, "invalid root ID"),
   (.missingMetadataId, "missing metadata ID"), (.invalidMetadataId, "invalid metadata ID"),
   (.invalidArgs, "invalid method arguments"), (.unexpectedClass, "unexpected class"),
   (.expectedBinaryType, "expected BinaryType"), (.expectedBinaryArrayType, "expected BinaryArrayType"),
   (.missingLibraryId, "missing library ID"), (.invalidLibraryId, "invalid library ID"),
   (.duplicateLibraryId, "duplicate library ID"), (.expectedClassInfo, "expected ClassInfo"),
   (.expectedMessageFlags, "expected MessageFlags"), (.invalidMessageFlags, "invalid MessageFlags"),
   (.expectedPrimitiveType, "expected PrimitiveType"), (.other, "other error"),
   (.expectedRecordType .serializedStreamHeader, "expected a SerializedStreamHeader"),
   (.expectedRecordType .classWithId, "expected a ClassWithId"),
   (.expectedRecordType .systemClassWithMembers, "expected a SystemClassWithMembers"),
   (.expectedRecordType .classWithMembers, "expected a ClassWithMembers"),
   (.expectedRecordType .systemClassWithMembersAndTypes, "expected a SystemClassWithMembersAndTypes"),
   (.expectedRecordType .classWithMembersAndTypes, "expected a ClassWithMembersAndTypes"),
   (.expectedRecordType .binaryObjectString, "expected a BinaryObjectString"),
   (.expectedRecordType .binaryArray, "expected a BinaryArray"),
   (.expectedRecordType .memberPrimitiveTyped, "expected a MemberPrimitiveTyped"),
   (.expectedRecordType .memberReference, "expected a MemberReference"),
   (.expectedRecordType .objectNull, "expected an ObjectNull"),
   (.expectedRecordType .messageEnd, "expected a MessageEnd"),
   (.expectedRecordType .binaryLibrary, "expected a BinaryLibrary"),
   (.expectedRecordType .objectNullMultiple256, "expected an ObjectNullMultiple256"),
   (.expectedRecordType .objectNullMultiple, "expected an ObjectNullMultiple"),
   (.expectedRecordType .arraySinglePrimitive, "expected an ArraySinglePrimitive"),
   (.expectedRecordType .arraySingleObject, "expected an ArraySingleObject"),
   (.expectedRecordType .arraySingleString, "expected an ArraySingleString"),
   (.expectedRecordType .methodCall, "expected a MethodCall"),
   (.expectedRecordType .methodReturn, "expected a MethodReturn"),
   (.expectedPrimitive .boolean, "expected a BOOLEAN"), (.expectedPrimitive .byte, "expected a BYTE"),
   (.expectedPrimitive .char, "expected a CHAR"), (.expectedPrimitive .decimal, "expected a Decimal"),
   (.expectedPrimitive .double, "expected a DOUBLE"), (.expectedPrimitive .int16, "expected an INT16"),
   (.expectedPrimitive .int32, "expected an INT32"), (.expectedPrimitive .int64, "expected an INT64"),
   (.expectedPrimitive .sbyte, "expected an INT8"), (.expectedPrimitive .single, "expected a SINGLE"),
   (.expectedPrimitive .timeSpan, "expected a TimeSpan"), (.expectedPrimitive .dateTime, "expected a DateTime"),
   (.expectedPrimitive .uint16, "expected a UINT16"), (.expectedPrimitive .uint32, "expected a UINT32"),
   (.expectedPrimitive .uint64, "expected a UINT64"), (.expectedPrimitive .null, "expected a NULL"),
   (.expectedPrimitive .string, "expected a LengthPrefixedString")]

/-- The text of an error of `from_slice`. -/
inductive TextOf [TextLib] : SerdeError → Str → Prop
  | parsing {e : Error} {s : String} : (e.inner, s) ∈ errorTexts → TextOf (.parsing e) (lit "parsing error: " ++ lit s)
  | invalidType {u : Unexpected} {s : Str} (expected : Str) : CalledAs u s →
      TextOf (.invalidType u expected) (lit "invalid type: " ++ s ++ lit ", expected " ++ expected)
  | invalidValue {u : Unexpected} {s : Str} (expected : Str) : CalledAs u s →
      TextOf (.invalidValue u expected) (lit "invalid value: " ++ s ++ lit ", expected " ++ expected)
  | invalidLength {n : Nat} {s : Str} (expected : Str) : Numeral s n →
      TextOf (.invalidLength n expected) (lit "invalid length " ++ s ++ lit ", expected " ++ expected)
  | missingField (name : Str) : TextOf (.missingField name) (lit "missing field `" ++ name ++ lit "`")
  | duplicateField (name : Str) : TextOf (.duplicateField name) (lit "duplicate field `" ++ name ++ lit "`")
  | systemClass (name : Str) : TextOf (.systemClass name) (lit "invalid system class: " ++ name)

end Nrbf
