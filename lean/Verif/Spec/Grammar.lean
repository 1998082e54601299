import Verif.Spec.Encode

/-! # The record grammar, declaratively

`Record E i id v E' i'` reads: in front of the remaining input `i`, with the tables `E`, there is a
record with object id `id` and value `v`; after it the remaining input is `i'` and the tables are `E'`.
The other judgements are analogous.  Nothing here refers to the model's parsers; the rules describe
the language the crate accepts, including the places where it differs from MS-NRBF (each is pointed
out). -/

namespace Nrbf.Spec

/-- The library table and the table of registered objects. -/
structure Env where
  libs : Nat → Option Str
  objs : Nat → Option Value

namespace Env
/-- No libraries, no objects. -/
def empty : Env := ⟨fun _ => none, fun _ => none⟩
/-- Registers a library. -/
def addLib (E : Env) (id : Nat) (name : Str) : Env :=
  { E with libs := fun k => if k = id then some name else E.libs k }
/-- Registers an object; an earlier one with that id is replaced. -/
def add (E : Env) (id : Nat) (v : Value) : Env :=
  { E with objs := fun k => if k = id then some v else E.objs k }
/-- Forgets an object. -/
def drop (E : Env) (id : Nat) : Env :=
  { E with objs := fun k => if k = id then none else E.objs k }
end Env

/-- What a member or array element is before references are resolved. -/
inductive Slot where
  | value (v : Value)
  | nulls (n : Nat)
  | ref (id : Nat)

/-- The number of array elements a slot stands for. -/
def Slot.size : Slot → Nat
  | .nulls n => n
  | .value _ | .ref _ => 1

/-- No BinaryLibrary record starts here: another record type, or a library record whose name is not a
length-prefixed string.  (An invalid library id is neither a library nor its absence.) -/
def NoLibrary (i : Bytes) : Prop :=
  i.head? ≠ some 12 ∨
  ∃ id bid rest, IsId id bid ∧ i = 12 :: bid ++ rest ∧
    ¬ ∃ name bname rest', IsString name bname ∧ rest = bname ++ rest'

/-- An optional BinaryLibrary record with a new id. -/
inductive OptLib : Env → Bytes → Env → Bytes → Prop
  | none {E i} : NoLibrary i → OptLib E i E i
  | some {E id name b i} : IsLibrary id name b → E.libs id = Option.none →
      OptLib E (b ++ i) (E.addLib id name) i

/-- The last value paired with a name. -/
def lastValue (name : Str) : List (Str × Value) → Option Value
  | [] => none
  | (k, v) :: l => (lastValue name l).or (if k = name then some v else none)

/-- Names paired with values: superfluous names or values are dropped; a repeated name stands at its
first position with its last value. -/
def bindNames (names : List Str) (values : List Value) : List (Str × Value) :=
  ((names.zip values).map Prod.fst).eraseDups.map fun k =>
    (k, (lastValue k (names.zip values)).getD .null)

/-- The declared types of the members of a class. -/
def ClassHead.memberTypes (h : ClassHead) : List (Option MemberType) :=
  match h.types with
  | none => List.replicate h.memberNames.length none
  | some ts => ts.map some

/-- The library a class head names. -/
def ClassHead.HasLibrary (h : ClassHead) (E : Env) (library : Option Str) : Prop :=
  match h.library with
  | none => library = none
  | some l => ∃ name, E.libs l = some name ∧ library = some name

/-- The product of the dimensions, if no partial product (from the left) exceeds the range of a `usize`. -/
def productUsize [Platform] : (acc : Nat) → List Nat → Option Nat
  | acc, [] => some acc
  | acc, d :: ds => if acc * d < 2 ^ usizeBits then productUsize (acc * d) ds else none

mutual
/-- `v` is a nested array whose dimensions, from the outside in, are `dims`, and whose leaves in order
are `leaves`. -/
inductive Shaped : (dims : List Nat) → (v : Value) → (leaves : List Value) → Prop
  | leaf {v} : Shaped [] v [v]
  | array {d ds vs leaves} : vs.length = d → ShapedAll ds vs leaves →
      Shaped (d :: ds) (.array vs) leaves
/-- A list of such nested arrays. -/
inductive ShapedAll : (dims : List Nat) → (vs : List Value) → (leaves : List Value) → Prop
  | nil {ds} : ShapedAll ds [] []
  | cons {ds v vs l1 l2} : Shaped ds v l1 → ShapedAll ds vs l2 → ShapedAll ds (v :: vs) (l1 ++ l2)
end

/-- The elements of a multi-dimensional array with these inner dimensions: nested arrays whose leaves are
`values` in order.  An array without any element is empty, whatever its outer length (MS-NRBF: it has
as many empty rows as the outer length says). -/
def Rows (inner : List Nat) (values rows : List Value) : Prop :=
  if values = [] then rows = [] else ShapedAll inner rows values

mutual

/-- A member of a class or an element of an array.  The first argument is its declared type. -/
inductive Member [Platform] : Option MemberType → Env → Bytes → Slot → Env → Bytes → Prop
  -- no declared type
  | primitive {E i E1 b v i'} : OptLib E i E1 (b ++ i') → IsTypedPrimitive v b →
      Member none E i (.value v) E1 i'
  | reference {E i E1 b id i'} : OptLib E i E1 (b ++ i') → IsReference id b →
      Member none E i (.ref id) E1 i'
  | string {E i E1 b id s i'} : OptLib E i E1 (b ++ i') → IsObjectString id s b →
      Member none E i (.value (.string s)) E1 i'
  | nulls {E i E1 b n i'} : OptLib E i E1 (b ++ i') → IsNulls n b →
      Member none E i (.nulls n) E1 i'
  | object {E i E1 i1 id name library members E2 i2} : OptLib E i E1 i1 →
      Class E1 i1 id name library members E2 i2 →
      Member none E i (.value (.object name library members)) E2 i2
  -- a primitive type: the bare value
  | typedPrimitive {t E i E1 b v i'} : OptLib E i E1 (b ++ i') → IsPrimitive t v b →
      Member (some (.primitive t)) E i (.value v) E1 i'
  -- String: a string record, nothing else (MS-NRBF also allows nulls and references)
  | typedString {E i E1 b id s i'} : OptLib E i E1 (b ++ i') → IsObjectString id s b →
      Member (some .string) E i (.value (.string s)) E1 i'
  -- Object and ObjectArray: anything
  | typedObject {E i E1 i1 slot E2 i2} : OptLib E i E1 i1 → Member none E1 i1 slot E2 i2 →
      Member (some .object) E i slot E2 i2
  | typedObjectArray {E i E1 i1 slot E2 i2} : OptLib E i E1 i1 → Member none E1 i1 slot E2 i2 →
      Member (some .objectArray) E i slot E2 i2
  -- SystemClass: an inline object of that class, or nulls (MS-NRBF also allows references)
  | systemClass {name E i E1 i1 id members E2 i2} : OptLib E i E1 i1 →
      Class E1 i1 id name none members E2 i2 →
      Member (some (.systemClass name)) E i (.value (.object name none members)) E2 i2
  | systemClassNulls {name E i E1 b n i'} : OptLib E i E1 (b ++ i') → IsNulls n b →
      Member (some (.systemClass name)) E i (.nulls n) E1 i'
  -- Class: likewise, with the library known at this point
  | class {name l E i E1 i1 library id members E2 i2} : OptLib E i E1 i1 →
      E1.libs l = some library → Class E1 i1 id name (some library) members E2 i2 →
      Member (some (.class name l)) E i (.value (.object name (some library) members)) E2 i2
  | classNulls {name l E i E1 library b n i'} : OptLib E i E1 (b ++ i') →
      E1.libs l = some library → IsNulls n b →
      Member (some (.class name l)) E i (.nulls n) E1 i'
  -- StringArray: also the element type of string arrays
  | stringArrayString {E i E1 b id s i'} : OptLib E i E1 (b ++ i') → IsObjectString id s b →
      Member (some .stringArray) E i (.value (.string s)) E1 i'
  | stringArrayReference {E i E1 b id i'} : OptLib E i E1 (b ++ i') → IsReference id b →
      Member (some .stringArray) E i (.ref id) E1 i'
  | stringArrayNulls {E i E1 b n i'} : OptLib E i E1 (b ++ i') → IsNulls n b →
      Member (some .stringArray) E i (.nulls n) E1 i'
  -- PrimitiveArray: a reference (MS-NRBF also allows nulls)
  | primitiveArray {t E i E1 b id i'} : OptLib E i E1 (b ++ i') → IsReference id b →
      Member (some (.primitiveArray t)) E i (.ref id) E1 i'

/-- One member after the other, one per declared type. -/
inductive Members [Platform] :
    List (Option MemberType) → Env → Bytes → List Slot → Env → Bytes → Prop
  | nil {E i} : Members [] E i [] E i
  | cons {T Ts E i slot E1 i1 slots E2 i2} : Member T E i slot E1 i1 →
      Members Ts E1 i1 slots E2 i2 → Members (T :: Ts) E i (slot :: slots) E2 i2

/-- Array elements until at least `len` of them are there; the last null run may overshoot. -/
inductive Fill [Platform] : Option MemberType → (len : Nat) → Env → Bytes → List Slot → Env →
    Bytes → Prop
  | done {T E i} : Fill T 0 E i [] E i
  | step {T len E i slot E1 i1 slots E2 i2} : 0 < len → Member T E i slot E1 i1 →
      Fill T (len - slot.size) E1 i1 slots E2 i2 → Fill T len E i (slot :: slots) E2 i2

/-- The values of a list of slots.  A reference takes a registered object out of the table, or else
consumes the next record, which must have that id. -/
inductive Resolve [Platform] : List Slot → Env → Bytes → List Value → Env → Bytes → Prop
  | nil {E i} : Resolve [] E i [] E i
  | value {v slots E i vs E' i'} : Resolve slots E i vs E' i' →
      Resolve (.value v :: slots) E i (v :: vs) E' i'
  | nulls {n slots E i vs E' i'} : Resolve slots E i vs E' i' →
      Resolve (.nulls n :: slots) E i (List.replicate n .null ++ vs) E' i'
  | known {id slots E i v vs E' i'} : E.objs id = some v → Resolve slots (E.drop id) i vs E' i' →
      Resolve (.ref id :: slots) E i (v :: vs) E' i'
  | next {id slots E i v E1 i1 vs E' i'} : E.objs id = none → Record E i id v E1 i1 →
      Resolve slots (E1.drop id) i1 vs E' i' →
      Resolve (.ref id :: slots) E i (v :: vs) E' i'

/-- A class record with its members, and the records its members refer to. -/
inductive Class [Platform] : Env → Bytes → (id : Nat) → (name : Str) → (library : Option Str) →
    (members : List (Str × Value)) → Env → Bytes → Prop
  | mk {E i E1 h b i1 library E2 i2 slots values E3 i3} : OptLib E i E1 (b ++ i1) →
      IsClassHead h b → h.HasLibrary E1 library →
      Members h.memberTypes E1 i1 slots E2 i2 → Resolve slots E2 i2 values E3 i3 →
      Class E i h.id h.name library (bindNames h.memberNames values) E3 i3

/-- A referenceable record.  There is no rule for ClassWithId (see C23). -/
inductive Record [Platform] : Env → Bytes → (id : Nat) → (v : Value) → Env → Bytes → Prop
  | object {E i id name library members E' i'} : Class E i id name library members E' i' →
      Record E i id (.object name library members) E' i'
  | objectArray {E id len b i1 slots E2 i2 vs E3 i3} : IsArrayHead 16 id len b →
      Fill none len E i1 slots E2 i2 → Resolve slots E2 i2 vs E3 i3 →
      Record E (b ++ i1) id (.array vs) E3 i3
  | primitiveArray {E id t b vs b2 i'} : IsPrimitiveArrayHead id vs.length t b →
      IsSeq (IsPrimitive t) vs b2 → Record E (b ++ b2 ++ i') id (.array vs) E i'
  | stringArray {E id len b i1 slots E2 i2 vs E3 i3} : IsArrayHead 17 id len b →
      Fill (some .stringArray) len E i1 slots E2 i2 → Resolve slots E2 i2 vs E3 i3 →
      Record E (b ++ i1) id (.array vs) E3 i3
  | array {E id kind lengths T b n i1 slots E2 i2 vs rows E3 i3} :
      IsBinaryArrayHead id kind lengths T b → productUsize 1 lengths = some n →
      Members (List.replicate n (some T)) E i1 slots E2 i2 → Resolve slots E2 i2 vs E3 i3 →
      Rows lengths.tail vs rows → Record E (b ++ i1) id (.array rows) E3 i3
  | string {E id s b i'} : IsObjectString id s b → Record E (b ++ i') id (.string s) E i'

end

/-- A sequence of records, each registered under its id. -/
inductive Records [Platform] : Env → Bytes → Env → Bytes → Prop
  | nil {E i} : Records E i E i
  | cons {E i id v E1 i1 E2 i2} : Record E i id v E1 i1 → Records (E1.add id v) i1 E2 i2 →
      Records E i E2 i2

end Nrbf.Spec
