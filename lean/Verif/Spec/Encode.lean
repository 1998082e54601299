import Verif.Spec.Utf8
import Verif.Model.Enumeration

/-! # The wire format of the stateless parts, written as encoders and as "these bytes denote this"

Nothing here refers to the model's parsers. -/

namespace Nrbf.Spec

/-- The `width` low bytes of `n`, least significant first. -/
def le : (width n : Nat) → Bytes
  | 0, _ => []
  | width + 1, n => UInt8.ofNat (n % 256) :: le width (n / 256)

/-- A signed number in two's complement, least significant byte first. -/
def leInt (width : Nat) (z : Int) : Bytes := le width (z % 2 ^ (8 * width)).toNat

/-- The range of a signed number of that many bytes. -/
def InSigned (width : Nat) (z : Int) : Prop :=
  -2 ^ (8 * width - 1) ≤ z ∧ z < 2 ^ (8 * width - 1)

/-- The number denoted by groups of seven bits, least significant group first. -/
def base128 : List Nat → Nat
  | [] => 0
  | g :: gs => g + 128 * base128 gs

/-- `b` is a length prefix denoting `n`: at most four groups with the continuation bit set, then one
group without it; a fifth group has only its three low bits. -/
def IsLengthPrefix (n : Nat) (b : Bytes) : Prop :=
  ∃ (gs : List Nat) (last : Nat), (∀ g ∈ gs, g < 128) ∧ last < 128 ∧ gs.length ≤ 4 ∧
    (gs.length = 4 → last < 8) ∧
    b = gs.map (fun g => UInt8.ofNat (128 + g)) ++ [UInt8.ofNat last] ∧
    n = base128 (gs ++ [last])

/-- `b` is a length-prefixed string with content `s`. -/
def IsString (s : Str) (b : Bytes) : Prop :=
  ∃ p, IsLengthPrefix s.length p ∧ IsUtf8 s ∧ b = p ++ s

/-- The shortest length prefix (what writers produce). -/
def lengthPrefix (n : Nat) : Bytes :=
  if n < 128 then [UInt8.ofNat n] else UInt8.ofNat (128 + n % 128) :: lengthPrefix (n / 128)

/-- A length-prefixed string as writers produce it. -/
def string (s : Str) : Bytes := lengthPrefix s.length ++ s

/-- `b` is an encoding of the primitive value `v` of type `t`.  A `Char` is one byte, read as
Latin-1: this is what the crate does, see C13. -/
def IsPrimitive [Platform] : PrimitiveType → Value → Bytes → Prop
  | .boolean, .boolean x, b => b = [if x then 1 else 0]
  | .byte, .byte n, b => n < 2 ^ 8 ∧ b = le 1 n
  | .char, .char n, b => n < 2 ^ 8 ∧ b = le 1 n
  | .decimal, .decimal d, b => ∃ s, IsString s b ∧ Platform.decimalFromStr s = some d
  | .double, .double n, b => n < 2 ^ 64 ∧ b = le 8 n
  | .int16, .int16 z, b => InSigned 2 z ∧ b = leInt 2 z
  | .int32, .int32 z, b => InSigned 4 z ∧ b = leInt 4 z
  | .int64, .int64 z, b => InSigned 8 z ∧ b = leInt 8 z
  | .sbyte, .sbyte z, b => InSigned 1 z ∧ b = leInt 1 z
  | .single, .single n, b => n < 2 ^ 32 ∧ b = le 4 n
  | .timeSpan, .timeSpan z, b => InSigned 8 z ∧ b = leInt 8 z
  | .dateTime, .dateTime z, b => InSigned 8 z ∧ b = leInt 8 z
  | .uint16, .uint16 n, b => n < 2 ^ 16 ∧ b = le 2 n
  | .uint32, .uint32 n, b => n < 2 ^ 32 ∧ b = le 4 n
  | .uint64, .uint64 n, b => n < 2 ^ 64 ∧ b = le 8 n
  | _, _, _ => False

/-- An id (object, library, metadata or reference id): a positive 32-bit number. -/
def IsId (id : Nat) (b : Bytes) : Prop := 0 < id ∧ id < 2 ^ 31 ∧ b = le 4 id

/-- A length or count: a non-negative 32-bit number. -/
def IsLength (n : Nat) (b : Bytes) : Prop := n < 2 ^ 31 ∧ b = le 4 n

end Nrbf.Spec

namespace Nrbf.Spec

/-! ## Enumerations (MS-NRBF 2.1.2) -/

/-- PrimitiveTypeEnumeration. -/
def primitiveTypeByte : PrimitiveType → UInt8
  | .boolean => 1 | .byte => 2 | .char => 3 | .decimal => 5 | .double => 6 | .int16 => 7
  | .int32 => 8 | .int64 => 9 | .sbyte => 10 | .single => 11 | .timeSpan => 12 | .dateTime => 13
  | .uint16 => 14 | .uint32 => 15 | .uint64 => 16 | .null => 17 | .string => 18

/-- BinaryArrayTypeEnumeration. -/
def arrayKindByte : BinaryArrayType → UInt8
  | .single => 0 | .jagged => 1 | .rectangular => 2 | .singleOffset => 3 | .jaggedOffset => 4
  | .rectangularOffset => 5

/-- The array kinds that carry lower bounds. -/
def hasLowerBounds : BinaryArrayType → Prop
  | .singleOffset | .jaggedOffset | .rectangularOffset => True
  | .single | .jagged | .rectangular => False

/-- The declared type of a member or of the elements of an array. -/
inductive MemberType where
  | primitive (t : PrimitiveType)
  | string
  | object
  | systemClass (name : Str)
  | class (name : Str) (library : Nat)
  | objectArray
  | stringArray
  | primitiveArray (t : PrimitiveType)

/-- BinaryTypeEnumeration. -/
def memberTypeByte : MemberType → UInt8
  | .primitive _ => 0 | .string => 1 | .object => 2 | .systemClass _ => 3 | .class _ _ => 4
  | .objectArray => 5 | .stringArray => 6 | .primitiveArray _ => 7

/-- The additional type information that goes with a member type. -/
def IsTypeInfo : MemberType → Bytes → Prop
  | .primitive t, b | .primitiveArray t, b => b = [primitiveTypeByte t]
  | .systemClass name, b => IsString name b
  | .class name library, b => ∃ b1 b2, IsString name b1 ∧ IsId library b2 ∧ b = b1 ++ b2
  | .string, b | .object, b | .objectArray, b | .stringArray, b => b = []

/-- `b` is the concatenation of encodings of the elements. -/
def IsSeq {α : Type} (R : α → Bytes → Prop) : List α → Bytes → Prop
  | [], b => b = []
  | a :: as, b => ∃ b1 b2, R a b1 ∧ IsSeq R as b2 ∧ b = b1 ++ b2

/-- The types of all members: all type bytes first, then the additional information of each. -/
def IsMemberTypes (ts : List MemberType) (b : Bytes) : Prop :=
  ∃ infos, IsSeq IsTypeInfo ts infos ∧ b = ts.map memberTypeByte ++ infos

/-! ## Records (MS-NRBF 2.3 - 2.6) -/

/-- MemberPrimitiveTyped. -/
def IsTypedPrimitive [Platform] (v : Value) (b : Bytes) : Prop :=
  ∃ t b', IsPrimitive t v b' ∧ b = 8 :: primitiveTypeByte t :: b'

/-- MemberReference. -/
def IsReference (id : Nat) (b : Bytes) : Prop := ∃ b', IsId id b' ∧ b = 9 :: b'

/-- BinaryObjectString. -/
def IsObjectString (id : Nat) (s : Str) (b : Bytes) : Prop :=
  ∃ b1 b2, IsId id b1 ∧ IsString s b2 ∧ b = 6 :: b1 ++ b2

/-- ObjectNull, ObjectNullMultiple, ObjectNullMultiple256: a run of `n` nulls. -/
def IsNulls (n : Nat) (b : Bytes) : Prop :=
  (n = 1 ∧ b = [10]) ∨ (0 < n ∧ n < 2 ^ 31 ∧ b = 14 :: le 4 n) ∨ (0 < n ∧ n < 2 ^ 8 ∧ b = 13 :: le 1 n)

/-- BinaryLibrary. -/
def IsLibrary (id : Nat) (name : Str) (b : Bytes) : Prop :=
  ∃ b1 b2, IsId id b1 ∧ IsString name b2 ∧ b = 12 :: b1 ++ b2

/-- What the four class records declare. -/
structure ClassHead where
  id : Nat
  name : Str
  memberNames : List Str
  types : Option (List MemberType)
  library : Option Nat

/-- The record type of a class record. -/
def ClassHead.tag (h : ClassHead) : UInt8 :=
  match h.types, h.library with
  | none, none => 2
  | none, some _ => 3
  | some _, none => 4
  | some _, some _ => 5

/-- SystemClassWithMembers, ClassWithMembers, SystemClassWithMembersAndTypes and
ClassWithMembersAndTypes (up to the members). -/
def IsClassHead (h : ClassHead) (b : Bytes) : Prop :=
  ∃ bid bname bcount bnames btypes blib,
    IsId h.id bid ∧ IsString h.name bname ∧ IsLength h.memberNames.length bcount ∧
    IsSeq IsString h.memberNames bnames ∧
    (match h.types with
      | none => btypes = []
      | some ts => ts.length = h.memberNames.length ∧ IsMemberTypes ts btypes) ∧
    (match h.library with
      | none => blib = []
      | some l => IsId l blib) ∧
    b = h.tag :: bid ++ bname ++ bcount ++ bnames ++ btypes ++ blib

/-- The start of ArraySingleObject (16) and ArraySingleString (17). -/
def IsArrayHead (tag : UInt8) (id len : Nat) (b : Bytes) : Prop :=
  ∃ b1 b2, IsId id b1 ∧ IsLength len b2 ∧ b = tag :: b1 ++ b2

/-- The start of ArraySinglePrimitive. -/
def IsPrimitiveArrayHead (id len : Nat) (t : PrimitiveType) (b : Bytes) : Prop :=
  ∃ b', IsArrayHead 15 id len b' ∧ b = b' ++ [primitiveTypeByte t]

/-- The start of BinaryArray. -/
def IsBinaryArrayHead (id : Nat) (kind : BinaryArrayType) (lengths : List Nat) (t : MemberType)
    (b : Bytes) : Prop :=
  ∃ bid brank blens bbounds binfo,
    IsId id bid ∧ IsLength lengths.length brank ∧ IsSeq IsLength lengths blens ∧
    (hasLowerBounds kind →
      ∃ bounds, bounds.length = lengths.length ∧ IsSeq IsLength bounds bbounds) ∧
    (¬ hasLowerBounds kind → bbounds = []) ∧
    IsTypeInfo t binfo ∧
    b = 7 :: bid ++ [arrayKindByte kind] ++ brank ++ blens ++ bbounds ++ [memberTypeByte t] ++ binfo

/-- The 17 bytes of the SerializationHeaderRecord with that root id (0: none). -/
def IsHeader (root : Nat) (b : Bytes) : Prop :=
  ∃ broot bhead, IsLength root broot ∧ bhead.length = 4 ∧
    b = 0 :: broot ++ bhead ++ le 4 1 ++ le 4 0

end Nrbf.Spec
