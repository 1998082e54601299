import Verif.Model.Nom

/-! # Enumerations and the error type (`/repo/src/enumeration.rs`, `/repo/src/error.rs`) -/

namespace Nrbf

/-- `/repo/src/record/mod.rs:59-82` `RecordType`. -/
inductive RecordType where
  | serializedStreamHeader | classWithId | systemClassWithMembers | classWithMembers
  | systemClassWithMembersAndTypes | classWithMembersAndTypes | binaryObjectString | binaryArray
  | memberPrimitiveTyped | memberReference | objectNull | messageEnd | binaryLibrary
  | objectNullMultiple256 | objectNullMultiple | arraySinglePrimitive | arraySingleObject
  | arraySingleString | methodCall | methodReturn
  deriving Repr, DecidableEq

/-- `/repo/src/record/mod.rs:62-81`: the discriminants, `self as u8`. -/
def RecordType.code : RecordType → UInt8
  | .serializedStreamHeader => 0
  | .classWithId => 1
  | .systemClassWithMembers => 2
  | .classWithMembers => 3
  | .systemClassWithMembersAndTypes => 4
  | .classWithMembersAndTypes => 5
  | .binaryObjectString => 6
  | .binaryArray => 7
  | .memberPrimitiveTyped => 8
  | .memberReference => 9
  | .objectNull => 10
  | .messageEnd => 11
  | .binaryLibrary => 12
  | .objectNullMultiple256 => 13
  | .objectNullMultiple => 14
  | .arraySinglePrimitive => 15
  | .arraySingleObject => 16
  | .arraySingleString => 17
  | .methodCall => 21
  | .methodReturn => 22

/-- `/repo/src/record/mod.rs:91-114` `RecordType::description`. -/
def RecordType.description : RecordType → String
  | .serializedStreamHeader => "a SerializedStreamHeader"
  | .classWithId => "a ClassWithId"
  | .systemClassWithMembers => "a SystemClassWithMembers"
  | .classWithMembers => "a ClassWithMembers"
  | .systemClassWithMembersAndTypes => "a SystemClassWithMembersAndTypes"
  | .classWithMembersAndTypes => "a ClassWithMembersAndTypes"
  | .binaryObjectString => "a BinaryObjectString"
  | .binaryArray => "a BinaryArray"
  | .memberPrimitiveTyped => "a MemberPrimitiveTyped"
  | .memberReference => "a MemberReference"
  | .objectNull => "an ObjectNull"
  | .messageEnd => "a MessageEnd"
  | .binaryLibrary => "a BinaryLibrary"
  | .objectNullMultiple256 => "an ObjectNullMultiple256"
  | .objectNullMultiple => "an ObjectNullMultiple"
  | .arraySinglePrimitive => "an ArraySinglePrimitive"
  | .arraySingleObject => "an ArraySingleObject"
  | .arraySingleString => "an ArraySingleString"
  | .methodCall => "a MethodCall"
  | .methodReturn => "a MethodReturn"

/-- `/repo/src/enumeration.rs:11-22` `BinaryType`. -/
inductive BinaryType where
  | primitive | string | object | systemClass | class | objectArray | stringArray | primitiveArray
  deriving Repr, DecidableEq

/-- `/repo/src/enumeration.rs:14-21`: discriminants. -/
def BinaryType.code : BinaryType → UInt8
  | .primitive => 0
  | .string => 1
  | .object => 2
  | .systemClass => 3
  | .class => 4
  | .objectArray => 5
  | .stringArray => 6
  | .primitiveArray => 7

/-- `/repo/src/enumeration.rs:58-76` `PrimitiveType`. -/
inductive PrimitiveType where
  | boolean | byte | char | decimal | double | int16 | int32 | int64 | sbyte | single | timeSpan
  | dateTime | uint16 | uint32 | uint64 | null | string
  deriving Repr, DecidableEq

/-- `/repo/src/enumeration.rs:59-75`: discriminants. -/
def PrimitiveType.code : PrimitiveType → UInt8
  | .boolean => 1
  | .byte => 2
  | .char => 3
  | .decimal => 5
  | .double => 6
  | .int16 => 7
  | .int32 => 8
  | .int64 => 9
  | .sbyte => 10
  | .single => 11
  | .timeSpan => 12
  | .dateTime => 13
  | .uint16 => 14
  | .uint32 => 15
  | .uint64 => 16
  | .null => 17
  | .string => 18

/-- `/repo/src/enumeration.rs:105-125` `PrimitiveType::description`. -/
def PrimitiveType.description : PrimitiveType → String
  | .boolean => "a BOOLEAN"
  | .byte => "a BYTE"
  | .char => "a CHAR"
  | .decimal => "a Decimal"
  | .double => "a DOUBLE"
  | .int16 => "an INT16"
  | .int32 => "an INT32"
  | .int64 => "an INT64"
  | .sbyte => "an INT8"
  | .single => "a SINGLE"
  | .timeSpan => "a TimeSpan"
  | .dateTime => "a DateTime"
  | .uint16 => "a UINT16"
  | .uint32 => "a UINT32"
  | .uint64 => "a UINT64"
  | .null => "a NULL"
  | .string => "a LengthPrefixedString"

/-- `/repo/src/enumeration.rs:141-150` `BinaryArrayType`. -/
inductive BinaryArrayType where
  | single | jagged | rectangular | singleOffset | jaggedOffset | rectangularOffset
  deriving Repr, DecidableEq

/-- `/repo/src/enumeration.rs:144-149`: discriminants. -/
def BinaryArrayType.code : BinaryArrayType → UInt8
  | .single => 0
  | .jagged => 1
  | .rectangular => 2
  | .singleOffset => 3
  | .jaggedOffset => 4
  | .rectangularOffset => 5

/-- `/repo/src/error.rs:40-70` `ErrorInner`. -/
inductive ErrorInner where
  | eof | trailingData | unresolvableMemberReference | invalidCallArrayId | missingRootObject
  | invalidNullCount | invalidObjectId | duplicateObjectId | invalidLength | invalidMajorVersion
  | invalidMinorVersion | invalidRootId | missingMetadataId | invalidMetadataId | invalidArgs
  | unexpectedClass | expectedBinaryType | expectedBinaryArrayType | missingLibraryId
  | invalidLibraryId | duplicateLibraryId | expectedRecordType (t : RecordType)
  | expectedClassInfo | expectedMessageFlags | invalidMessageFlags | expectedPrimitiveType
  | other | expectedPrimitive (t : PrimitiveType)
  deriving Repr, DecidableEq

/-- `/repo/src/error.rs:72-105` `Display for ErrorInner`. -/
def ErrorInner.display : ErrorInner → String
  | .eof => "unexpected end of input"
  | .trailingData => "unexpected trailing data"
  | .unresolvableMemberReference => "unresolvable member reference"
  | .invalidCallArrayId => "invalid call array ID"
  | .missingRootObject => "missing root object"
  | .invalidNullCount => "invalid NULL count"
  | .invalidObjectId => "invalid object ID"
  | .duplicateObjectId => "duplicate object ID"
  | .invalidLength => "invalid length"
  | .invalidMajorVersion => "invalid major version"
  | .invalidMinorVersion => "invalid minor version"
  | .invalidRootId => "invalid root ID"
  | .missingMetadataId => "missing metadata ID"
  | .invalidMetadataId => "invalid metadata ID"
  | .invalidArgs => "invalid method arguments"
  | .unexpectedClass => "unexpected class"
  | .expectedBinaryType => "expected BinaryType"
  | .expectedBinaryArrayType => "expected BinaryArrayType"
  | .missingLibraryId => "missing library ID"
  | .invalidLibraryId => "invalid library ID"
  | .duplicateLibraryId => "duplicate library ID"
  | .expectedRecordType t => "expected " ++ t.description
  | .expectedClassInfo => "expected ClassInfo"
  | .expectedMessageFlags => "expected MessageFlags"
  | .invalidMessageFlags => "invalid MessageFlags"
  | .expectedPrimitiveType => "expected PrimitiveType"
  | .other => "other error"
  | .expectedPrimitive t => "expected " ++ t.description

/-- `/repo/src/error.rs:7-10` `Error`. -/
structure Error where
  input : Bytes
  inner : ErrorInner
  deriving Repr, DecidableEq

/-- `/repo/src/error.rs:12-16` `Display for Error`. -/
def Error.display (e : Error) : String := e.inner.display

/-- `/repo/src/error.rs:18-32` `ParseError::from_error_kind for Error`. -/
def Error.fromErrorKind (i : Bytes) (k : ErrorKind) : Error :=
  ⟨i, match k with
    | .eof => .eof
    | _ => .other⟩

/-- The crate's stateless parsers: `fn parse(input: &[u8]) -> IResult<&[u8], T, Error>`. -/
abbrev Parser (α : Type) := PureParser Error α

/-- `.map_err(|err| err.map(|err| error_position!(err.input, inner)))` from a `nom` error. -/
def Outcome.at {α : Type} (x : Outcome NomError α) (inner : ErrorInner) : Outcome Error α :=
  x.mapErr fun e => ⟨e.input, inner⟩

/-- `.map_err(|err| err.map(|err| error_position!(err.input, inner)))` from the crate's own error. -/
def Outcome.relabel {α : Type} (x : Outcome Error α) (inner : ErrorInner) : Outcome Error α :=
  x.mapErr fun e => ⟨e.input, inner⟩

/-- `/repo/src/record/mod.rs:85-89` `RecordType::parse` (a recoverable `Error` on mismatch). -/
def RecordType.parse (t : RecordType) : Parser RecordType := fun i =>
  (tagByte t t.code i).at (.expectedRecordType t)

/-- `/repo/src/enumeration.rs:25-40` `BinaryType::parse`. -/
def BinaryType.parse : Parser BinaryType := fun i =>
  ((alt (tagByte .primitive BinaryType.primitive.code)
    [tagByte .string BinaryType.string.code,
     tagByte .object BinaryType.object.code,
     tagByte .systemClass BinaryType.systemClass.code,
     tagByte .class BinaryType.class.code,
     tagByte .objectArray BinaryType.objectArray.code,
     tagByte .stringArray BinaryType.stringArray.code,
     tagByte .primitiveArray BinaryType.primitiveArray.code] i).intoFailure).at .expectedBinaryType

/-- `/repo/src/enumeration.rs:79-103` `PrimitiveType::parse`. -/
def PrimitiveType.parse : Parser PrimitiveType := fun i =>
  ((alt (tagByte .boolean PrimitiveType.boolean.code)
    [tagByte .byte PrimitiveType.byte.code,
     tagByte .char PrimitiveType.char.code,
     tagByte .decimal PrimitiveType.decimal.code,
     tagByte .double PrimitiveType.double.code,
     tagByte .int16 PrimitiveType.int16.code,
     tagByte .int32 PrimitiveType.int32.code,
     tagByte .int64 PrimitiveType.int64.code,
     tagByte .sbyte PrimitiveType.sbyte.code,
     tagByte .single PrimitiveType.single.code,
     tagByte .timeSpan PrimitiveType.timeSpan.code,
     tagByte .dateTime PrimitiveType.dateTime.code,
     tagByte .uint16 PrimitiveType.uint16.code,
     tagByte .uint32 PrimitiveType.uint32.code,
     tagByte .uint64 PrimitiveType.uint64.code,
     tagByte .null PrimitiveType.null.code,
     tagByte .string PrimitiveType.string.code] i).intoFailure).at .expectedPrimitiveType

/-- `/repo/src/enumeration.rs:153-167` `BinaryArrayType::parse`. -/
def BinaryArrayType.parse : Parser BinaryArrayType := fun i =>
  ((alt (tagByte .single BinaryArrayType.single.code)
    [tagByte .jagged BinaryArrayType.jagged.code,
     tagByte .rectangular BinaryArrayType.rectangular.code,
     tagByte .singleOffset BinaryArrayType.singleOffset.code,
     tagByte .jaggedOffset BinaryArrayType.jaggedOffset.code,
     tagByte .rectangularOffset BinaryArrayType.rectangularOffset.code] i).intoFailure).at
    .expectedBinaryArrayType

end Nrbf
