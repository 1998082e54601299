import Verif.Spec.Message

/-! # Broken records, declaratively

What is reported about input that is not a record of the grammar.  `Bad… i o` reads: the input `i` does not
start with a …, and `o` is what is reported.  A *fatal* report (`some e`) is the error the caller of the
crate sees; a *mismatch* (`none`) lets the caller try another kind of record at the same place.  Nothing
here refers to the model's parsers. -/

set_option autoImplicit false

namespace Nrbf.Spec

/-- A fatal error (position and reason), or a mismatch. -/
abbrev Report := Option Error

/-- A fatal error at the beginning of `i`. -/
def fatal (i : Bytes) (reason : ErrorInner) : Report := some ⟨i, reason⟩

/-- The input starts with an encoding of some `a`, and `P a` holds of the rest. -/
def After {α : Type} (R : α → Bytes → Prop) (P : α → Bytes → Prop) (i : Bytes) : Prop :=
  ∃ a b r, R a b ∧ i = b ++ r ∧ P a r

/-- Exactly `n` encodings. -/
def Many {α : Type} (R : α → Bytes → Prop) (n : Nat) (as : List α) (b : Bytes) : Prop := as.length = n ∧ IsSeq R as b

/-- Less than `n` encodings, and then a bad one. -/
def BadMany {α : Type} (R : α → Bytes → Prop) (B : Bytes → Report → Prop) (n : Nat) (i : Bytes) (o : Report) : Prop :=
  ∃ as b r, as.length < n ∧ IsSeq R as b ∧ i = b ++ r ∧ B r o

/-! ## Fields -/

/-- Not a 32-bit number. -/
def BadInt32 (i : Bytes) (o : Report) : Prop := i.length < 4 ∧ o = fatal i (.expectedPrimitive .int32)

/-- A 32-bit number. -/
def IsInt32 (z : Int) (b : Bytes) : Prop := InSigned 4 z ∧ b = leInt 4 z

/-- Not a 32-bit number with that property. -/
def BadNumber (ok : Int → Prop) (reason : ErrorInner) (i : Bytes) (o : Report) : Prop :=
  BadInt32 i o ∨ After IsInt32 (fun z _ => ¬ ok z ∧ o = fatal i reason) i

/-- Not an object id. -/
def BadId : Bytes → Report → Prop := BadNumber (0 < ·) .invalidObjectId
/-- Not a library id. -/
def BadLibraryId : Bytes → Report → Prop := BadNumber (0 < ·) .invalidLibraryId
/-- Not a length. -/
def BadLength : Bytes → Report → Prop := BadNumber (0 ≤ ·) .invalidLength

/-- Not a length-prefixed string. -/
def BadString (i : Bytes) (o : Report) : Prop := (¬ ∃ s b r, IsString s b ∧ i = b ++ r) ∧ o = none

/-- Not one of the bytes `f a`. -/
def BadByte {α : Type} (f : α → UInt8) (reason : ErrorInner) (i : Bytes) (o : Report) : Prop :=
  (∀ a, i.head? ≠ some (f a)) ∧ o = fatal i reason

/-- Not a primitive type. -/
def BadPrimitiveType : Bytes → Report → Prop := BadByte primitiveTypeByte .expectedPrimitiveType

/-- The number of bytes of the primitive types of fixed size. -/
def width : PrimitiveType → Nat
  | .boolean | .byte | .char | .sbyte => 1
  | .int16 | .uint16 => 2
  | .int32 | .uint32 | .single => 4
  | .int64 | .uint64 | .double | .timeSpan | .dateTime => 8
  | .decimal | .null | .string => 0

/-- Not a primitive value of that type. -/
def BadPrimitive [Platform] (t : PrimitiveType) (i : Bytes) (o : Report) : Prop :=
  match t with
  | .boolean => i.head? ≠ some 0 ∧ i.head? ≠ some 1 ∧ o = fatal i (.expectedPrimitive .boolean)
  | .decimal => BadString i o ∨
      After IsString (fun s _ => Platform.decimalFromStr s = none ∧ o = fatal i (.expectedPrimitive .decimal)) i
  | .null | .string => o = fatal i .other
  | t => i.length < width t ∧ o = fatal i (.expectedPrimitive t)

/-! ## Class and array headers -/

/-- An id, a name and member names. -/
def IsClassInfo (count : Nat) (b : Bytes) : Prop :=
  ∃ id name names bid bname bcount bnames, IsId id bid ∧ IsString name bname ∧ IsLength count bcount ∧
    Many IsString count names bnames ∧ b = bid ++ bname ++ bcount ++ bnames

/-- Not an id, a name and member names.  The reason is always the same. -/
def BadClassInfo (i : Bytes) (o : Report) : Prop :=
  ∃ o', (BadId i o' ∨ After IsId (fun _ i => BadString i o' ∨ After IsString (fun _ i => BadLength i o' ∨
      After IsLength (fun n i => BadMany IsString BadString n i o') i) i) i) ∧
    o = o'.map fun e => ⟨e.input, .expectedClassInfo⟩

/-- The byte of a kind of type (BinaryTypeEnumeration). -/
def typeByte : BinaryType → UInt8
  | .primitive => 0 | .string => 1 | .object => 2 | .systemClass => 3 | .class => 4
  | .objectArray => 5 | .stringArray => 6 | .primitiveArray => 7

/-- Not a kind of type. -/
def BadType : Bytes → Report → Prop := BadByte typeByte .expectedBinaryType

/-- Not the additional information of that kind of type. -/
def BadTypeInfo (t : BinaryType) (i : Bytes) (o : Report) : Prop :=
  match t with
  | .primitive | .primitiveArray => BadPrimitiveType i o
  | .systemClass => BadString i o
  | .class => BadString i o ∨ After IsString (fun _ i => BadLibraryId i o) i
  | .string | .object | .objectArray | .stringArray => False

/-- The kinds of `n` types. -/
def IsTypes (n : Nat) (ts : List BinaryType) (b : Bytes) : Prop := ts.length = n ∧ b = ts.map typeByte

/-- Not the types of `n` members: a bad kind, or bad additional information after that of the types in front
of it. -/
def BadMemberTypes (n : Nat) (i : Bytes) (o : Report) : Prop :=
  BadMany (fun t b => b = [typeByte t]) BadType n i o ∨
  After (IsTypes n) (fun ts i => ∃ (Ts : List MemberType) (t : BinaryType) (ts' : List BinaryType) (b r : Bytes),
    ts.map typeByte = Ts.map memberTypeByte ++ typeByte t :: ts'.map typeByte ∧
    IsSeq IsTypeInfo Ts b ∧ i = b ++ r ∧ BadTypeInfo t r o) i

/-- Not the rest of a class record with that tag (2 to 5). -/
def BadClassRest (tag : UInt8) (i : Bytes) (o : Report) : Prop :=
  BadClassInfo i o ∨ After IsClassInfo (fun n i =>
    (tag = 3 ∧ BadLibraryId i o) ∨
    (tag = 4 ∧ BadMemberTypes n i o) ∨
    (tag = 5 ∧ (BadMemberTypes n i o ∨
      After (fun Ts b => Ts.length = n ∧ IsMemberTypes Ts b) (fun _ i => BadLibraryId i o) i))) i

/-- Not a class record.  A ClassWithId record is always an error (see C23). -/
def BadClassHead (i : Bytes) (o : Report) : Prop :=
  ((∀ tag ∈ [1, 2, 3, 4, 5], i.head? ≠ some tag) ∧ o = none) ∨
  (∃ r, i = 1 :: r ∧ (BadId r o ∨ After IsId (fun id r => BadId r o ∨ After IsId (fun metadata _ =>
    (metadata = id ∧ o = fatal r .invalidMetadataId) ∨ (metadata ≠ id ∧ o = fatal i .missingMetadataId)) r) r)) ∨
  (∃ tag ∈ [2, 3, 4, 5], ∃ r, i = tag :: r ∧ BadClassRest tag r o)

/-- Not an id and a length. -/
def BadArrayInfo (i : Bytes) (o : Report) : Prop := BadId i o ∨ After IsId (fun _ i => BadLength i o) i

/-- Lower bounds, if this kind of array has them. -/
def IsBounds (kind : BinaryArrayType) (rank : Nat) (_ : Unit) (b : Bytes) : Prop :=
  (hasLowerBounds kind → ∃ bounds, Many IsLength rank bounds b) ∧ (¬ hasLowerBounds kind → b = [])

/-- Not the start of a BinaryArray record, after its tag. -/
def BadBinaryArrayHead (i : Bytes) (o : Report) : Prop :=
  BadId i o ∨ After IsId (fun _ i =>
  BadByte arrayKindByte .expectedBinaryArrayType i o ∨ After (fun kind b => b = [arrayKindByte kind]) (fun kind i =>
  BadLength i o ∨ After IsLength (fun rank i =>
  BadMany IsLength BadLength rank i o ∨ After (Many IsLength rank) (fun _ i =>
  (hasLowerBounds kind ∧ BadMany IsLength BadLength rank i o) ∨ After (IsBounds kind rank) (fun _ i =>
  BadType i o ∨ After (fun t b => b = [typeByte t]) (fun t i => BadTypeInfo t i o) i) i) i) i) i) i

/-! ## Members -/

/-- Not a record with that tag. -/
def BadTagged (tag : UInt8) (B : Bytes → Report → Prop) (i : Bytes) (o : Report) : Prop :=
  (i.head? ≠ some tag ∧ o = none) ∨ ∃ r, i = tag :: r ∧ B r o

/-- Not a BinaryObjectString. -/
def BadObjectString : Bytes → Report → Prop :=
  BadTagged 6 fun i o => BadId i o ∨ After IsId (fun _ i => BadString i o) i

/-- Not a MemberReference. -/
def BadReference : Bytes → Report → Prop := BadTagged 9 BadId

/-- Not a MemberPrimitiveTyped. -/
def BadTypedPrimitive [Platform] : Bytes → Report → Prop :=
  BadTagged 8 fun i o => BadPrimitiveType i o ∨ After (fun t b => b = [primitiveTypeByte t]) (fun t i => BadPrimitive t i o) i

/-- Not a run of nulls. -/
def BadNulls (i : Bytes) (o : Report) : Prop :=
  ((∀ tag ∈ [10, 13, 14], i.head? ≠ some tag) ∧ o = none) ∨
  (∃ r, i = 13 :: r ∧ ((r = [] ∧ o = fatal r (.expectedPrimitive .byte)) ∨
    (r.head? = some 0 ∧ o = fatal r .invalidNullCount))) ∨
  (∃ r, i = 14 :: r ∧ BadNumber (0 < ·) .invalidNullCount r o)

/-- A BinaryLibrary record that is an error: its id is invalid, or already in use (then it is renamed all the
same).  `E'` are the tables it leaves behind. -/
def BadLibrary (E : Env) (i : Bytes) (o : Report) (E' : Env) : Prop :=
  (∃ r, i = 12 :: r ∧ BadLibraryId r o ∧ E' = E) ∨
  (∃ id name b r, IsLibrary id name b ∧ i = b ++ r ∧ E.libs id ≠ none ∧ o = fatal r .duplicateLibraryId ∧
    E' = E.addLib id name)

/-- The tags of the members that are neither objects nor arrays. -/
def plainTags : List UInt8 := [6, 8, 9, 10, 13, 14]

/-- Not such a member. -/
def BadPlain [Platform] (i : Bytes) (o : Report) : Prop :=
  (i.head? = some 6 ∧ BadObjectString i o) ∨ (i.head? = some 8 ∧ BadTypedPrimitive i o) ∨
  (i.head? = some 9 ∧ BadReference i o) ∨ ((i.head? = some 13 ∨ i.head? = some 14) ∧ BadNulls i o)

/-- Not an element of a string array. -/
def BadStringElement (i : Bytes) (o : Report) : Prop :=
  (i.head? = some 6 ∧ BadObjectString i o) ∨ (i.head? = some 9 ∧ BadReference i o) ∨
  (i.head? ≠ some 6 ∧ i.head? ≠ some 9 ∧ BadNulls i o)

/-! ## Records

The last argument of these judgements are the tables that the rejected input leaves behind: whatever was
registered in front of the error stays registered (see C29). -/

mutual

/-- Not a member of that type. -/
inductive BadMember [Platform] : Option MemberType → Env → Bytes → Report → Env → Prop
  | library {T : Option MemberType} {E : Env} {i : Bytes} {o : Report} {E' : Env} : BadLibrary E i o E' →
      BadMember T E i o E'
  | plain {E E1 : Env} {i i1 : Bytes} {o : Report} : OptLib E i E1 i1 → BadPlain i1 o → BadMember none E i o E1
  | object {E E1 : Env} {i i1 : Bytes} {o : Report} {E' : Env} : OptLib E i E1 i1 →
      (∀ tag ∈ plainTags, i1.head? ≠ some tag) → BadClass E1 i1 o E' → BadMember none E i o E'
  | typedPrimitive {t : PrimitiveType} {E E1 : Env} {i i1 : Bytes} {o : Report} : OptLib E i E1 i1 →
      BadPrimitive t i1 o → BadMember (some (.primitive t)) E i o E1
  | typedString {E E1 : Env} {i i1 : Bytes} {o : Report} : OptLib E i E1 i1 → BadObjectString i1 o →
      BadMember (some .string) E i o E1
  | typedObject {E E1 : Env} {i i1 : Bytes} {o : Report} {E' : Env} : OptLib E i E1 i1 →
      BadMember none E1 i1 o E' → BadMember (some .object) E i o E'
  | typedObjectArray {E E1 : Env} {i i1 : Bytes} {o : Report} {E' : Env} : OptLib E i E1 i1 →
      BadMember none E1 i1 o E' → BadMember (some .objectArray) E i o E'
  -- a different class
  | otherSystemClass {name : Str} {E E1 : Env} {i i1 : Bytes} {id : Nat} {name' : Str} {library : Option Str}
      {members : List (Str × Value)} {E2 : Env} {i2 : Bytes} : OptLib E i E1 i1 →
      Class E1 i1 id name' library members E2 i2 → name' ≠ name ∨ library ≠ none →
      BadMember (some (.systemClass name)) E i (fatal i2 .unexpectedClass) E2
  -- neither a class (whatever is wrong with it) nor nulls
  | noSystemClass {name : Str} {E E1 : Env} {i i1 : Bytes} {o' o : Report} {E' : Env} : OptLib E i E1 i1 →
      BadClass E1 i1 o' E' → BadNulls i1 o → BadMember (some (.systemClass name)) E i o E'
  | unknownLibrary {name : Str} {l : Nat} {E E1 : Env} {i i1 : Bytes} : OptLib E i E1 i1 → E1.libs l = none →
      BadMember (some (.class name l)) E i (fatal i1 .missingLibraryId) E1
  | otherClass {name : Str} {l : Nat} {E E1 : Env} {i i1 : Bytes} {library : Str} {id : Nat} {name' : Str}
      {library' : Option Str} {members : List (Str × Value)} {E2 : Env} {i2 : Bytes} : OptLib E i E1 i1 →
      E1.libs l = some library → Class E1 i1 id name' library' members E2 i2 →
      name' ≠ name ∨ library' ≠ some library →
      BadMember (some (.class name l)) E i (fatal i2 .unexpectedClass) E2
  | noClass {name : Str} {l : Nat} {E E1 : Env} {i i1 : Bytes} {library : Str} {o' o : Report} {E' : Env} :
      OptLib E i E1 i1 → E1.libs l = some library → BadClass E1 i1 o' E' → BadNulls i1 o →
      BadMember (some (.class name l)) E i o E'
  | stringArray {E E1 : Env} {i i1 : Bytes} {o : Report} : OptLib E i E1 i1 → BadStringElement i1 o →
      BadMember (some .stringArray) E i o E1
  | primitiveArray {t : PrimitiveType} {E E1 : Env} {i i1 : Bytes} {o : Report} : OptLib E i E1 i1 →
      BadReference i1 o → BadMember (some (.primitiveArray t)) E i o E1

/-- One of the members is bad. -/
inductive BadMembers [Platform] : List (Option MemberType) → Env → Bytes → Report → Env → Prop
  | here {T : Option MemberType} {Ts : List (Option MemberType)} {E : Env} {i : Bytes} {o : Report} {E' : Env} :
      BadMember T E i o E' → BadMembers (T :: Ts) E i o E'
  | later {T : Option MemberType} {Ts : List (Option MemberType)} {E : Env} {i : Bytes} {slot : Slot} {E1 : Env}
      {i1 : Bytes} {o : Report} {E' : Env} : Member T E i slot E1 i1 → BadMembers Ts E1 i1 o E' →
      BadMembers (T :: Ts) E i o E'

/-- One of the elements is bad. -/
inductive BadFill [Platform] : Option MemberType → Nat → Env → Bytes → Report → Env → Prop
  | here {T : Option MemberType} {len : Nat} {E : Env} {i : Bytes} {o : Report} {E' : Env} : 0 < len →
      BadMember T E i o E' → BadFill T len E i o E'
  | later {T : Option MemberType} {len : Nat} {E : Env} {i : Bytes} {slot : Slot} {E1 : Env} {i1 : Bytes}
      {o : Report} {E' : Env} : 0 < len → Member T E i slot E1 i1 → BadFill T (len - slot.size) E1 i1 o E' →
      BadFill T len E i o E'

/-- One of the references cannot be resolved: the next record is bad, or has another id (it is registered under
that id all the same). -/
inductive BadResolve [Platform] : List Slot → Env → Bytes → Report → Env → Prop
  | value {v : Value} {slots : List Slot} {E : Env} {i : Bytes} {o : Report} {E' : Env} :
      BadResolve slots E i o E' → BadResolve (.value v :: slots) E i o E'
  | nulls {n : Nat} {slots : List Slot} {E : Env} {i : Bytes} {o : Report} {E' : Env} :
      BadResolve slots E i o E' → BadResolve (.nulls n :: slots) E i o E'
  | known {id : Nat} {slots : List Slot} {E : Env} {i : Bytes} {v : Value} {o : Report} {E' : Env} :
      E.objs id = some v → BadResolve slots (E.drop id) i o E' → BadResolve (.ref id :: slots) E i o E'
  | next {id : Nat} {slots : List Slot} {E : Env} {i : Bytes} {v : Value} {E1 : Env} {i1 : Bytes} {o : Report}
      {E' : Env} : E.objs id = none → Record E i id v E1 i1 → BadResolve slots (E1.drop id) i1 o E' →
      BadResolve (.ref id :: slots) E i o E'
  | record {id : Nat} {slots : List Slot} {E : Env} {i : Bytes} {o : Report} {E' : Env} : E.objs id = none →
      BadRecord E i o E' → BadResolve (.ref id :: slots) E i o E'
  | other {id : Nat} {slots : List Slot} {E : Env} {i : Bytes} {id' : Nat} {v : Value} {E1 : Env} {i1 : Bytes} :
      E.objs id = none → Record E i id' v E1 i1 → id' ≠ id → BadResolve (.ref id :: slots) E i none (E1.add id' v)

/-- Not a class record with its members. -/
inductive BadClass [Platform] : Env → Bytes → Report → Env → Prop
  | library {E : Env} {i : Bytes} {o : Report} {E' : Env} : BadLibrary E i o E' → BadClass E i o E'
  | head {E E1 : Env} {i i1 : Bytes} {o : Report} : OptLib E i E1 i1 → BadClassHead i1 o → BadClass E i o E1
  | unknownLibrary {E E1 : Env} {i : Bytes} {h : ClassHead} {b i1 : Bytes} {l : Nat} : OptLib E i E1 (b ++ i1) →
      IsClassHead h b → h.library = some l → E1.libs l = none → BadClass E i (fatal (b ++ i1) .missingLibraryId) E1
  | members {E E1 : Env} {i : Bytes} {h : ClassHead} {b i1 : Bytes} {library : Option Str} {o : Report} {E' : Env} :
      OptLib E i E1 (b ++ i1) → IsClassHead h b → h.HasLibrary E1 library → BadMembers h.memberTypes E1 i1 o E' →
      BadClass E i o E'
  | references {E E1 : Env} {i : Bytes} {h : ClassHead} {b i1 : Bytes} {library : Option Str} {slots : List Slot}
      {E2 : Env} {i2 : Bytes} {o : Report} {E' : Env} : OptLib E i E1 (b ++ i1) → IsClassHead h b →
      h.HasLibrary E1 library → Members h.memberTypes E1 i1 slots E2 i2 → BadResolve slots E2 i2 o E' →
      BadClass E i o E'

/-- Not a referenceable record. -/
inductive BadRecord [Platform] : Env → Bytes → Report → Env → Prop
  -- no record type that is referenceable
  | tag {E : Env} {i : Bytes} : (∀ tag ∈ [1, 2, 3, 4, 5, 6, 7, 12, 15, 16, 17], i.head? ≠ some tag) →
      BadRecord E i none E
  | object {E : Env} {i : Bytes} {o : Report} {E' : Env} : (∃ tag ∈ [1, 2, 3, 4, 5], i.head? = some tag) →
      BadClass E i o E' → BadRecord E i o E'
  -- after a library: if the class is a mismatch, the library is read a second time
  | libraryObject {E : Env} {i : Bytes} {e : Error} {E' : Env} : i.head? = some 12 → BadClass E i (some e) E' →
      BadRecord E i (some e) E'
  | library {E : Env} {id : Nat} {name : Str} {b i : Bytes} {E' : Env} : IsLibrary id name b →
      BadClass E (b ++ i) none E' → BadRecord E (b ++ i) (fatal i .duplicateLibraryId) (E'.addLib id name)
  | noLibrary {E : Env} {i : Bytes} : i.head? = some 12 → NoLibrary i → BadRecord E i none E
  | objectArrayHead {E : Env} {i : Bytes} {o : Report} : BadArrayInfo i o → BadRecord E (16 :: i) o E
  | objectArrayElements {E : Env} {id len : Nat} {b i : Bytes} {o : Report} {E' : Env} : IsArrayHead 16 id len b →
      BadFill none len E i o E' → BadRecord E (b ++ i) o E'
  | objectArrayReferences {E : Env} {id len : Nat} {b i : Bytes} {slots : List Slot} {E1 : Env} {i1 : Bytes}
      {o : Report} {E' : Env} : IsArrayHead 16 id len b → Fill none len E i slots E1 i1 →
      BadResolve slots E1 i1 o E' → BadRecord E (b ++ i) o E'
  | stringArrayHead {E : Env} {i : Bytes} {o : Report} : BadArrayInfo i o → BadRecord E (17 :: i) o E
  | stringArrayElements {E : Env} {id len : Nat} {b i : Bytes} {o : Report} {E' : Env} : IsArrayHead 17 id len b →
      BadFill (some .stringArray) len E i o E' → BadRecord E (b ++ i) o E'
  | stringArrayReferences {E : Env} {id len : Nat} {b i : Bytes} {slots : List Slot} {E1 : Env} {i1 : Bytes}
      {o : Report} {E' : Env} : IsArrayHead 17 id len b → Fill (some .stringArray) len E i slots E1 i1 →
      BadResolve slots E1 i1 o E' → BadRecord E (b ++ i) o E'
  | primitiveArrayHead {E : Env} {i : Bytes} {o : Report} : BadArrayInfo i o → BadRecord E (15 :: i) o E
  | primitiveArrayType {E : Env} {id len : Nat} {b i : Bytes} {o : Report} : IsArrayHead 15 id len b →
      BadPrimitiveType i o → BadRecord E (b ++ i) o E
  | primitiveArrayElements {E : Env} {id len : Nat} {t : PrimitiveType} {b i : Bytes} {o : Report} :
      IsPrimitiveArrayHead id len t b → BadMany (IsPrimitive t) (BadPrimitive t) len i o → BadRecord E (b ++ i) o E
  | arrayHead {E : Env} {i : Bytes} {o : Report} : BadBinaryArrayHead i o → BadRecord E (7 :: i) o E
  | arraySize {E : Env} {id : Nat} {kind : BinaryArrayType} {lengths : List Nat} {T : MemberType} {b i : Bytes} :
      IsBinaryArrayHead id kind lengths T b → productUsize 1 lengths = none →
      BadRecord E (b ++ i) (fatal (b ++ i) .invalidLength) E
  | arrayElements {E : Env} {id : Nat} {kind : BinaryArrayType} {lengths : List Nat} {T : MemberType} {b : Bytes}
      {n : Nat} {i : Bytes} {o : Report} {E' : Env} : IsBinaryArrayHead id kind lengths T b →
      productUsize 1 lengths = some n → BadMembers (List.replicate n (some T)) E i o E' → BadRecord E (b ++ i) o E'
  | arrayReferences {E : Env} {id : Nat} {kind : BinaryArrayType} {lengths : List Nat} {T : MemberType} {b : Bytes}
      {n : Nat} {i : Bytes} {slots : List Slot} {E1 : Env} {i1 : Bytes} {o : Report} {E' : Env} :
      IsBinaryArrayHead id kind lengths T b → productUsize 1 lengths = some n →
      Members (List.replicate n (some T)) E i slots E1 i1 → BadResolve slots E1 i1 o E' → BadRecord E (b ++ i) o E'
  | string {E : Env} {i : Bytes} {o : Report} : i.head? = some 6 → BadObjectString i o → BadRecord E i o E

end

end Nrbf.Spec
