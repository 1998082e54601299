import Verif.Model.DataType

/-! # Records (`/repo/src/record`, `/repo/src/common`) -/

namespace Nrbf

/-! ## Common structures -/

/-- `/repo/src/common/array_info.rs:12-15` `ArrayInfo`. -/
structure ArrayInfo where
  objectId : Nat
  length : Nat
  deriving Repr, DecidableEq

/-- `/repo/src/common/array_info.rs:18-23` `ArrayInfo::parse`. -/
def ArrayInfo.parse : Parser ArrayInfo := fun i =>
  (Nrbf.objectId i).bind fun objectId i =>
  (Nrbf.length i).bind fun length i =>
    .ok i ⟨objectId, length⟩

/-- `/repo/src/common/class_info.rs:13-17` `ClassInfo`. -/
structure ClassInfo where
  objectId : Nat
  name : Str
  memberNames : List Str
  deriving Repr, DecidableEq

/-- `/repo/src/common/class_info.rs:20-26` `ClassInfo::parse`. -/
def ClassInfo.parse : Parser ClassInfo := fun i =>
  (Nrbf.objectId i).bind fun objectId i =>
  (lengthPrefixedString i).bind fun name i =>
  (lengthCount Nrbf.length lengthPrefixedString i).bind fun memberNames i =>
    .ok i ⟨objectId, name, memberNames⟩

/-- `/repo/src/common/additional_type_info.rs:10-14` `AdditionalTypeInfo`. -/
inductive AdditionalTypeInfo where
  | primitive (t : PrimitiveType)
  | systemClass (name : Str)
  | class (info : ClassTypeInfo)
  deriving Repr, DecidableEq

/-- `/repo/src/common/additional_type_info.rs:17-46` `AdditionalTypeInfo::parse`. -/
def AdditionalTypeInfo.parse (t : BinaryType) : Parser (Option AdditionalTypeInfo) := fun i =>
  match t with
  | .primitive => (PrimitiveType.parse i).map (some ∘ .primitive)
  | .string => .ok i none
  | .object => .ok i none
  | .systemClass => (lengthPrefixedString i).map (some ∘ .systemClass)
  | .class => (ClassTypeInfo.parse i).map (some ∘ .class)
  | .objectArray => .ok i none
  | .stringArray => .ok i none
  | .primitiveArray => (PrimitiveType.parse i).map (some ∘ .primitive)

/-- `/repo/src/common/member_type_info.rs:11-14` `MemberTypeInfo`. -/
structure MemberTypeInfo where
  binaryTypeEnums : List BinaryType
  additionalInfos : List (Option AdditionalTypeInfo)
  deriving Repr, DecidableEq

/-- `/repo/src/common/member_type_info.rs:20-25`: the loop over the binary types. -/
def additionalInfosParse : List BinaryType → Parser (List (Option AdditionalTypeInfo))
  | [] => fun i => .ok i []
  | t :: ts => fun i =>
    (AdditionalTypeInfo.parse t i).bind fun info i => (additionalInfosParse ts i).map (info :: ·)

/-- `/repo/src/common/member_type_info.rs:17-28` `MemberTypeInfo::parse`. -/
def MemberTypeInfo.parse (classInfo : ClassInfo) : Parser MemberTypeInfo := fun i =>
  (count BinaryType.parse classInfo.memberNames.length i).bind fun binaryTypeEnums i =>
  (additionalInfosParse binaryTypeEnums i).bind fun additionalInfos i =>
    .ok i ⟨binaryTypeEnums, additionalInfos⟩

/-! ## Primitive records -/

/-- `/repo/src/record/member_primitive_untyped.rs:19-35` `MemberPrimitiveUnTyped` and
`/repo/src/record/member_primitive_typed.rs:16-32` `MemberPrimitiveTyped`.  The two enums have the
same fifteen variants and `member_primitive_typed.rs:41-57` converts one to the other variant by
variant; the model uses one type. -/
inductive Prim where
  | boolean (b : Bool) | byte (n : Nat) | char (n : Nat) | decimal (d : Dec) | double (bits : Nat)
  | int16 (n : Int) | int32 (n : Int) | int64 (n : Int) | sbyte (n : Int) | single (bits : Nat)
  | timeSpan (n : Int) | dateTime (n : Int) | uint16 (n : Nat) | uint32 (n : Nat) | uint64 (n : Nat)
  deriving Repr, DecidableEq

/-- `/repo/src/record/member_primitive_untyped.rs:38-58` `MemberPrimitiveUnTyped::parse`. -/
def memberPrimitiveUnTyped [Platform] (t : PrimitiveType) : Parser Prim := fun i =>
  match t with
  | .boolean => (Boolean.parse i).map .boolean
  | .byte => (Byte.parse i).map .byte
  | .char => (Char.parse i).map .char
  | .decimal => (Decimal.parse i).map .decimal
  | .double => (Double.parse i).map .double
  | .int16 => (Int16.parse i).map .int16
  | .int32 => (Int32.parse i).map .int32
  | .int64 => (Int64.parse i).map .int64
  | .sbyte => (Int8.parse i).map .sbyte
  | .single => (Single.parse i).map .single
  | .timeSpan => (TimeSpan.parse i).map .timeSpan
  | .dateTime => (DateTime.parse i).map .dateTime
  | .uint16 => (UInt16.parse i).map .uint16
  | .uint32 => (UInt32.parse i).map .uint32
  | .uint64 => (UInt64.parse i).map .uint64
  | .null => .failure (Error.fromErrorKind i .fail)
  | .string => .failure (Error.fromErrorKind i .fail)

/-- `/repo/src/record/member_primitive_untyped.rs:61-79` and
`/repo/src/record/member_primitive_typed.rs:63-81` `into_value`. -/
def Prim.intoValue : Prim → Value
  | .boolean b => .boolean b
  | .byte n => .byte n
  | .char n => .char n
  | .decimal d => .decimal d
  | .double n => .double n
  | .int16 n => .int16 n
  | .int32 n => .int32 n
  | .int64 n => .int64 n
  | .sbyte n => .sbyte n
  | .single n => .single n
  | .timeSpan n => .timeSpan n
  | .dateTime n => .dateTime n
  | .uint16 n => .uint16 n
  | .uint32 n => .uint32 n
  | .uint64 n => .uint64 n

/-- `/repo/src/record/member_primitive_typed.rs:35-60` `MemberPrimitiveTyped::parse`. -/
def memberPrimitiveTyped [Platform] : Parser Prim := fun i =>
  (RecordType.memberPrimitiveTyped.parse i).bind fun _ i =>
  (PrimitiveType.parse i).bind fun t i =>
    memberPrimitiveUnTyped t i

/-- `/repo/src/record/value_with_code.rs:16-34` `ValueWithCode` (the fifteen primitive variants are
shared with `Prim`). -/
inductive ValueWithCode where
  | prim (p : Prim)
  | null
  | string (s : Str)
  deriving Repr, DecidableEq

/-- `/repo/src/record/value_with_code.rs:37-59` `ValueWithCode::parse`. -/
def ValueWithCode.parse [Platform] : Parser ValueWithCode := fun i =>
  (PrimitiveType.parse i).bind fun t i =>
    match t with
    | .boolean => (Boolean.parse i).map (.prim ∘ .boolean)
    | .byte => (Byte.parse i).map (.prim ∘ .byte)
    | .char => (Char.parse i).map (.prim ∘ .char)
    | .decimal => (Decimal.parse i).map (.prim ∘ .decimal)
    | .double => (Double.parse i).map (.prim ∘ .double)
    | .int16 => (Int16.parse i).map (.prim ∘ .int16)
    | .int32 => (Int32.parse i).map (.prim ∘ .int32)
    | .int64 => (Int64.parse i).map (.prim ∘ .int64)
    | .sbyte => (Int8.parse i).map (.prim ∘ .sbyte)
    | .single => (Single.parse i).map (.prim ∘ .single)
    | .timeSpan => (TimeSpan.parse i).map (.prim ∘ .timeSpan)
    | .dateTime => (DateTime.parse i).map (.prim ∘ .dateTime)
    | .uint16 => (UInt16.parse i).map (.prim ∘ .uint16)
    | .uint32 => (UInt32.parse i).map (.prim ∘ .uint32)
    | .uint64 => (UInt64.parse i).map (.prim ∘ .uint64)
    | .null => .ok i .null
    | .string => (lengthPrefixedString i).map .string

/-- `/repo/src/record/value_with_code.rs:62-82` `ValueWithCode::into_value`. -/
def ValueWithCode.intoValue : ValueWithCode → Value
  | .prim p => p.intoValue
  | .null => .null
  | .string s => .string s

/-- `/repo/src/record/string_value_with_code.rs:15-21` `StringValueWithCode::parse`. -/
def StringValueWithCode.parse : Parser Str := fun i =>
  (((tagByte PrimitiveType.string PrimitiveType.string.code i).intoFailure).at
    (.expectedPrimitive .string)).bind fun _ i =>
  lengthPrefixedString i

/-- `/repo/src/record/array_of_value_with_code.rs:10-12` `ArrayOfValueWithCode::parse`. -/
def ArrayOfValueWithCode.parse [Platform] : Parser (List ValueWithCode) :=
  lengthCount Nrbf.length ValueWithCode.parse

/-- `/repo/src/record/array_of_value_with_code.rs:15-17` `into_values`. -/
def ArrayOfValueWithCode.intoValues (vs : List ValueWithCode) : List Value :=
  vs.map ValueWithCode.intoValue

/-! ## Other member records -/

/-- `/repo/src/record/member_reference.rs:14-20` `MemberReference::parse`. -/
def MemberReference.parse : Parser Nat := fun i =>
  (RecordType.memberReference.parse i).bind fun _ i =>
  objectId i

/-- `/repo/src/record/binary_object_string.rs:9-12` `BinaryObjectString`. -/
structure BinaryObjectString where
  objectId : Nat
  value : Str
  deriving Repr, DecidableEq

/-- `/repo/src/record/binary_object_string.rs:15-22` `BinaryObjectString::parse`. -/
def BinaryObjectString.parse : Parser BinaryObjectString := fun i =>
  (RecordType.binaryObjectString.parse i).bind fun _ i =>
  (Nrbf.objectId i).bind fun objectId i =>
  (lengthPrefixedString i).bind fun value i =>
    .ok i ⟨objectId, value⟩

/-- `/repo/src/record/object_null.rs:10-19` `ObjectNull::parse`, returning `null_count()`. -/
def ObjectNull.parse : Parser Nat := fun i =>
  (RecordType.objectNull.parse i).map fun _ => 1

/-- `/repo/src/record/object_null_multiple.rs:16-29` `ObjectNullMultiple::parse`, returning
`null_count()`. -/
def ObjectNullMultiple.parse : Parser Nat := fun i =>
  (RecordType.objectNullMultiple.parse i).bind fun _ i =>
  (Int32.parse i).bind fun n r =>
    if 0 < n then .ok r n.toNat else .failure ⟨i, .invalidNullCount⟩

/-- `/repo/src/record/object_null_multiple_256.rs:16-29` `ObjectNullMultiple256::parse`, returning
`null_count()`. -/
def ObjectNullMultiple256.parse : Parser Nat := fun i =>
  (RecordType.objectNullMultiple256.parse i).bind fun _ i =>
  (Byte.parse i).bind fun n r =>
    if 0 < n then .ok r n else .failure ⟨i, .invalidNullCount⟩

/-! ## Array headers -/

/-- `/repo/src/record/array_single_object.rs:14-20` `ArraySingleObject::parse`. -/
def ArraySingleObject.parse : Parser ArrayInfo := fun i =>
  (RecordType.arraySingleObject.parse i).bind fun _ i => ArrayInfo.parse i

/-- `/repo/src/record/array_single_string.rs:14-20` `ArraySingleString::parse`. -/
def ArraySingleString.parse : Parser ArrayInfo := fun i =>
  (RecordType.arraySingleString.parse i).bind fun _ i => ArrayInfo.parse i

/-- `/repo/src/record/array_single_primitive.rs:15-22` `ArraySinglePrimitive::parse`. -/
def ArraySinglePrimitive.parse : Parser (ArrayInfo × PrimitiveType) := fun i =>
  (RecordType.arraySinglePrimitive.parse i).bind fun _ i =>
  (ArrayInfo.parse i).bind fun info i =>
  (PrimitiveType.parse i).bind fun t i =>
    .ok i (info, t)

/-- `/repo/src/record/binary_array.rs:15-22` `BinaryArray`. -/
structure BinaryArray where
  objectId : Nat
  binaryArrayTypeEnum : BinaryArrayType
  lengths : List Nat
  lowerBounds : Option (List Nat)
  typeEnum : BinaryType
  additionalTypeInfo : Option AdditionalTypeInfo
  deriving Repr, DecidableEq

/-- `/repo/src/record/binary_array.rs:34-37`: the array types that carry lower bounds. -/
def BinaryArrayType.hasLowerBounds : BinaryArrayType → Bool
  | .singleOffset | .jaggedOffset | .rectangularOffset => true
  | _ => false

/-- `/repo/src/record/binary_array.rs:25-45` `BinaryArray::parse`. -/
def BinaryArray.parse : Parser BinaryArray := fun i =>
  (RecordType.binaryArray.parse i).bind fun _ i =>
  (Nrbf.objectId i).bind fun objectId i =>
  (BinaryArrayType.parse i).bind fun arrayType i =>
  (Nrbf.length i).bind fun rank i =>
  (count Nrbf.length rank i).bind fun lengths i =>
  (cond arrayType.hasLowerBounds (count Nrbf.length rank) i).bind fun lowerBounds i =>
  (BinaryType.parse i).bind fun typeEnum i =>
  (AdditionalTypeInfo.parse typeEnum i).bind fun additionalTypeInfo i =>
    .ok i ⟨objectId, arrayType, lengths, lowerBounds, typeEnum, additionalTypeInfo⟩

/-! ## Library and class headers -/

/-- `/repo/src/record/binary_library.rs:11-14` `BinaryLibrary`. -/
structure BinaryLibrary where
  libraryId : Nat
  libraryName : Str
  deriving Repr, DecidableEq

/-- `/repo/src/record/binary_library.rs:17-24` `BinaryLibrary::parse`. -/
def BinaryLibrary.parse : Parser BinaryLibrary := fun i =>
  (RecordType.binaryLibrary.parse i).bind fun _ i =>
  (Nrbf.libraryId i).bind fun libraryId i =>
  (lengthPrefixedString i).bind fun name i =>
    .ok i ⟨libraryId, name⟩

/-- `/repo/src/record/class_with_id.rs:13-16` `ClassWithId`. -/
structure ClassWithId where
  objectId : Nat
  metadataId : Nat
  deriving Repr, DecidableEq

/-- `/repo/src/record/class_with_id.rs:19-31` `ClassWithId::parse`. -/
def ClassWithId.parse : Parser ClassWithId := fun i =>
  (RecordType.classWithId.parse i).bind fun _ i =>
  (Nrbf.objectId i).bind fun objectId i =>
  (Nrbf.objectId i).bind fun metadataId r =>
    if metadataId = objectId then .failure ⟨i, .invalidMetadataId⟩
    else .ok r ⟨objectId, metadataId⟩

/-- `/repo/src/binary_parser/mod.rs:41-46` `Class` with the four record types it wraps:
`/repo/src/record/class_with_members.rs:14-17`, `class_with_members_and_types.rs:14-18`,
`system_class_with_members.rs:13-15`, `system_class_with_members_and_types.rs:13-16`. -/
inductive Class where
  | classWithMembers (info : ClassInfo) (libraryId : Nat)
  | classWithMembersAndTypes (info : ClassInfo) (types : MemberTypeInfo) (libraryId : Nat)
  | systemClassWithMembers (info : ClassInfo)
  | systemClassWithMembersAndTypes (info : ClassInfo) (types : MemberTypeInfo)
  deriving Repr, DecidableEq

/-- The `class_info()` accessors of the four class records. -/
def Class.classInfo : Class → ClassInfo
  | .classWithMembers info _ => info
  | .classWithMembersAndTypes info _ _ => info
  | .systemClassWithMembers info => info
  | .systemClassWithMembersAndTypes info _ => info

/-- The `object_id()` accessors of the four class records. -/
def Class.objectId (c : Class) : Nat := c.classInfo.objectId

/-- `/repo/src/record/class_with_members.rs:20-28` `ClassWithMembers::parse`. -/
def ClassWithMembers.parse : Parser Class := fun i =>
  (RecordType.classWithMembers.parse i).bind fun _ i =>
  ((ClassInfo.parse i).relabel .expectedClassInfo).bind fun info i =>
  (libraryId i).bind fun lib i =>
    .ok i (.classWithMembers info lib)

/-- `/repo/src/record/class_with_members_and_types.rs:21-30` `ClassWithMembersAndTypes::parse`. -/
def ClassWithMembersAndTypes.parse : Parser Class := fun i =>
  (RecordType.classWithMembersAndTypes.parse i).bind fun _ i =>
  ((ClassInfo.parse i).relabel .expectedClassInfo).bind fun info i =>
  (MemberTypeInfo.parse info i).bind fun types i =>
  (libraryId i).bind fun lib i =>
    .ok i (.classWithMembersAndTypes info types lib)

/-- `/repo/src/record/system_class_with_members.rs:18-25` `SystemClassWithMembers::parse`. -/
def SystemClassWithMembers.parse : Parser Class := fun i =>
  (RecordType.systemClassWithMembers.parse i).bind fun _ i =>
  ((ClassInfo.parse i).relabel .expectedClassInfo).bind fun info i =>
    .ok i (.systemClassWithMembers info)

/-- `/repo/src/record/system_class_with_members_and_types.rs:19-27`
`SystemClassWithMembersAndTypes::parse`. -/
def SystemClassWithMembersAndTypes.parse : Parser Class := fun i =>
  (RecordType.systemClassWithMembersAndTypes.parse i).bind fun _ i =>
  ((ClassInfo.parse i).relabel .expectedClassInfo).bind fun info i =>
  (MemberTypeInfo.parse info i).bind fun types i =>
    .ok i (.systemClassWithMembersAndTypes info types)

/-! ## Header, end and method records -/

/-- `/repo/src/record/serialization_header.rs:13-18` `SerializationHeader` (the two version fields,
always 1 and 0 after a successful parse, are left out: nothing reads them). -/
structure SerializationHeader where
  rootId : Option Nat
  headerId : Int
  deriving Repr, DecidableEq

/-- `/repo/src/record/serialization_header.rs:21-63` `SerializationHeader::parse`. -/
def SerializationHeader.parse : Parser SerializationHeader := fun i =>
  (RecordType.serializedStreamHeader.parse i).bind fun _ i =>
  ((Int32.parse i).bind fun n r =>
    if 0 ≤ n then .ok r (if n.toNat = 0 then none else some n.toNat)
    else .failure ⟨i, .invalidRootId⟩).bind fun rootId i =>
  (Int32.parse i).bind fun headerId i =>
  ((Int32.parse i).bind fun n r =>
    if n = 1 then .ok r n else .failure ⟨i, .invalidMajorVersion⟩).bind fun _ i =>
  ((Int32.parse i).bind fun n r =>
    if n = 0 then .ok r n else .failure ⟨i, .invalidMinorVersion⟩).bind fun _ i =>
    .ok i ⟨rootId, headerId⟩

/-- `/repo/src/record/message_end.rs:10-14` `MessageEnd::parse`. -/
def MessageEnd.parse : Parser Unit := fun i =>
  (RecordType.messageEnd.parse i).map fun _ => ()

/-! `/repo/src/record/message_flags.rs:12-65`: the flag bits of `MessageFlags: i32`. -/

namespace MessageFlags
/-- `message_flags.rs:15` -/ def NO_ARGS : BitVec 32 := 0x00000001#32
/-- `message_flags.rs:18` -/ def ARGS_INLINE : BitVec 32 := 0x00000002#32
/-- `message_flags.rs:21` -/ def ARGS_IS_ARRAY : BitVec 32 := 0x00000004#32
/-- `message_flags.rs:24` -/ def ARGS_IN_ARRAY : BitVec 32 := 0x00000008#32
/-- `message_flags.rs:28` -/ def NO_CONTEXT : BitVec 32 := 0x00000010#32
/-- `message_flags.rs:32` -/ def CONTEXT_INLINE : BitVec 32 := 0x00000020#32
/-- `message_flags.rs:35` -/ def CONTEXT_IN_ARRAY : BitVec 32 := 0x00000040#32
/-- `message_flags.rs:39` -/ def METHOD_SIGNATURE_IN_ARRAY : BitVec 32 := 0x00000080#32
/-- `message_flags.rs:43` -/ def PROPERTIES_IN_ARRAY : BitVec 32 := 0x00000100#32
/-- `message_flags.rs:47` -/ def NO_RETURN_VALUE : BitVec 32 := 0x00000200#32
/-- `message_flags.rs:50` -/ def RETURN_VALUE_VOID : BitVec 32 := 0x00000400#32
/-- `message_flags.rs:53` -/ def RETURN_VALUE_INLINE : BitVec 32 := 0x00000800#32
/-- `message_flags.rs:56` -/ def RETURN_VALUE_IN_ARRAY : BitVec 32 := 0x00001000#32
/-- `message_flags.rs:60` -/ def EXCEPTION_IN_ARRAY : BitVec 32 := 0x00002000#32
/-- `message_flags.rs:65` -/ def GENERIC_METHOD : BitVec 32 := 0x00008000#32

/-- `bitflags`' `intersects`: some bit in common. -/
def intersects (flags mask : BitVec 32) : Bool := flags &&& mask != 0#32

/-- `i32::count_ones`. -/
def countOnes (x : BitVec 32) : Nat := ((List.range 32).filter fun k => x.getLsbD k).length

/-- `/repo/src/record/message_flags.rs:77-121`: the checks after the flag word has been read. -/
def check (flags : BitVec 32) : Bool :=
  let args := flags &&& (NO_ARGS ||| ARGS_INLINE ||| ARGS_IS_ARRAY ||| ARGS_IN_ARRAY)
  let context := flags &&& (NO_CONTEXT ||| CONTEXT_INLINE ||| CONTEXT_IN_ARRAY)
  let ret := flags &&&
    (NO_RETURN_VALUE ||| RETURN_VALUE_VOID ||| RETURN_VALUE_IN_ARRAY ||| RETURN_VALUE_IN_ARRAY)
  let signature := flags &&& METHOD_SIGNATURE_IN_ARRAY
  let exception := flags &&& EXCEPTION_IN_ARRAY
  if countOnes args > 1 || countOnes context > 1 || countOnes ret > 1 then false
  else if args != 0#32 && exception != 0#32 then false
  else if ret != 0#32 && exception != 0#32 then false
  else if ret != 0#32 && signature != 0#32 then false
  else if exception != 0#32 && signature != 0#32 then false
  else true

/-- `/repo/src/record/message_flags.rs:70-124` `MessageFlags::parse`. -/
def parse : Parser (BitVec 32) := fun i =>
  ((Int32.parse i).relabel .expectedMessageFlags).bind fun n r =>
    let flags := BitVec.ofInt 32 n
    if check flags then .ok r flags else .failure ⟨i, .invalidMessageFlags⟩

end MessageFlags

/-- `/repo/src/record/binary_method_call.rs:10-16` `BinaryMethodCall`. -/
structure BinaryMethodCall where
  messageEnum : BitVec 32
  methodName : Str
  typeName : Str
  callContext : Option Str
  args : Option (List ValueWithCode)
  deriving Repr, DecidableEq

/-- `/repo/src/record/binary_method_call.rs:19-31` `BinaryMethodCall::parse`. -/
def BinaryMethodCall.parse [Platform] : Parser BinaryMethodCall := fun i =>
  (RecordType.methodCall.parse i).bind fun _ i =>
  (MessageFlags.parse i).bind fun flags i =>
  (StringValueWithCode.parse i).bind fun methodName i =>
  (StringValueWithCode.parse i).bind fun typeName i =>
  (cond (MessageFlags.intersects flags MessageFlags.CONTEXT_INLINE) StringValueWithCode.parse i).bind
    fun callContext i =>
  (cond (MessageFlags.intersects flags MessageFlags.ARGS_INLINE) ArrayOfValueWithCode.parse i).bind
    fun args i =>
    .ok i ⟨flags, methodName, typeName, callContext, args⟩

/-- `/repo/src/record/binary_method_return.rs:10-15` `BinaryMethodReturn`. -/
structure BinaryMethodReturn where
  messageEnum : BitVec 32
  returnValue : Option ValueWithCode
  callContext : Option Str
  args : Option (List ValueWithCode)
  deriving Repr, DecidableEq

/-- `/repo/src/record/binary_method_return.rs:18-30` `BinaryMethodReturn::parse`. -/
def BinaryMethodReturn.parse [Platform] : Parser BinaryMethodReturn := fun i =>
  (RecordType.methodReturn.parse i).bind fun _ i =>
  (MessageFlags.parse i).bind fun flags i =>
  (cond (MessageFlags.intersects flags MessageFlags.RETURN_VALUE_INLINE) ValueWithCode.parse i).bind
    fun returnValue i =>
  (cond (MessageFlags.intersects flags MessageFlags.CONTEXT_INLINE) StringValueWithCode.parse i).bind
    fun callContext i =>
  (cond (MessageFlags.intersects flags MessageFlags.ARGS_INLINE) ArrayOfValueWithCode.parse i).bind
    fun args i =>
    .ok i ⟨flags, returnValue, callContext, args⟩

end Nrbf
