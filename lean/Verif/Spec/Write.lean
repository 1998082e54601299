import Verif.Spec.Encode
import Verif.Spec.Contents

/-! # A writer

The crate only reads.  This is a writer for the same format: it follows MS-NRBF, numbers all objects,
arrays and strings with different ids, stores nested objects and arrays as references, and writes a
referenced record directly after the record that refers to it.  Libraries are declared in front of the
first class that needs them.  Nothing here refers to the model's parsers. -/

set_option autoImplicit false

namespace Nrbf.Spec

/-- What the writer keeps track of: the next object id, and the libraries declared so far (the first
has id 1, and so on). -/
structure Ctx where
  next : Nat
  libs : List Str

/-- Strings are stored in place. -/
def isString : Value → Bool
  | .string _ => true
  | _ => false

/-- A type byte and a primitive value, a string or a null (ValueWithCode). -/
def coded [Platform] : Value → Bytes
  | .boolean x => [1, if x then 1 else 0]
  | .byte n => 2 :: le 1 n
  | .char n => 3 :: le 1 n
  | .decimal d => 5 :: string (Platform.decimalToStr d)
  | .double n => 6 :: le 8 n
  | .int16 z => 7 :: leInt 2 z
  | .int32 z => 8 :: leInt 4 z
  | .int64 z => 9 :: leInt 8 z
  | .sbyte z => 10 :: leInt 1 z
  | .single n => 11 :: le 4 n
  | .timeSpan z => 12 :: leInt 8 z
  | .dateTime z => 13 :: leInt 8 z
  | .uint16 n => 14 :: le 2 n
  | .uint32 n => 15 :: le 4 n
  | .uint64 n => 16 :: le 8 n
  | .null => [17]
  | .string s => 18 :: string s
  | .object .. | .array _ => []

/-- A member of an object or an element of an array; `id` is used if the value has an id. -/
def slot [Platform] (id : Nat) : Value → Bytes
  | .object .. | .array _ => 9 :: le 4 id
  | .string s => 6 :: le 4 id ++ string s
  | .null => [10]
  | v => 8 :: coded v

/-- Members or elements, numbered from `id`. -/
def slots [Platform] : (id : Nat) → List Value → Bytes
  | _, [] => []
  | id, v :: vs => slot id v ++ slots (if hasId v then id + 1 else id) vs

/-- How many of the values have ids. -/
def countIds : List Value → Nat
  | [] => 0
  | v :: vs => (if hasId v then 1 else 0) + countIds vs

/-- Declares a library unless it is declared: the BinaryLibrary record, the id of the library, and what
is declared afterwards. -/
def declare : Option Str → Ctx → Bytes × Option Nat × Ctx
  | none, c => ([], none, c)
  | some l, c =>
    if l ∈ c.libs then ([], some (c.libs.idxOf l + 1), c)
    else (12 :: le 4 (c.libs.length + 1) ++ string l, some (c.libs.length + 1), { c with libs := c.libs ++ [l] })

/-- SystemClassWithMembersAndTypes or ClassWithMembersAndTypes, all members of type Object. -/
def classRecord (id : Nat) (cls : Str) (library : Option Nat) (names : List Str) : Bytes :=
  (if library.isSome then 5 else 4) :: le 4 id ++ string cls ++ le 4 names.length ++
    names.flatMap string ++ names.map (fun _ => 2) ++ library.elim [] (le 4)

mutual
/-- An object, array or string as a record, and the records it refers to. -/
def record [Platform] (id : Nat) : Value → Ctx → Bytes × Ctx
  | .object cls library ms, c =>
    let d := declare library c
    let first := d.2.2.next
    let rest := memberRecords first ms { d.2.2 with next := first + countIds (ms.map Prod.snd) }
    (d.1 ++ classRecord id cls d.2.1 (ms.map Prod.fst) ++ slots first (ms.map Prod.snd) ++ rest.1, rest.2)
  | .array vs, c =>
    let rest := itemRecords c.next vs { c with next := c.next + countIds vs }
    (16 :: le 4 id ++ le 4 vs.length ++ slots c.next vs ++ rest.1, rest.2)
  | .string s, c => (6 :: le 4 id ++ string s, c)
  | _, c => ([], c)
/-- The records the elements of an array refer to; the elements are numbered from `id`. -/
def itemRecords [Platform] : (id : Nat) → List Value → Ctx → Bytes × Ctx
  | _, [], c => ([], c)
  | id, v :: vs, c =>
    let one := if isString v then ([], c) else record id v c
    let rest := itemRecords (if hasId v then id + 1 else id) vs one.2
    (one.1 ++ rest.1, rest.2)
/-- The records the members of an object refer to; the members are numbered from `id`. -/
def memberRecords [Platform] : (id : Nat) → List (Str × Value) → Ctx → Bytes × Ctx
  | _, [], c => ([], c)
  | id, (_, v) :: ms, c =>
    let one := if isString v then ([], c) else record id v c
    let rest := memberRecords (if hasId v then id + 1 else id) ms one.2
    (one.1 ++ rest.1, rest.2)
end

/-- SerializationHeaderRecord with that root id. -/
def headerRecord (root : Nat) : Bytes := 0 :: le 4 root ++ le 4 (2 ^ 32 - 1) ++ le 4 1 ++ le 4 0

/-- A value that can be stored inline in a method record. -/
def isInline : Value → Bool
  | .object .. | .array _ => false
  | _ => true

/-- The flag bits for the arguments: NoArgs, ArgsInline or ArgsIsArray. -/
def argsFlag : Option (List Value) → BitVec 32
  | none => 1
  | some vs => if vs.all isInline then 2 else 4

/-- The flag bits for the call context: NoContext or ContextInline. -/
def contextFlag : Option Str → BitVec 32
  | none => 16
  | some _ => 32

/-- The flag bits for the return value: ReturnValueVoid or ReturnValueInline. -/
def returnFlag : Option Value → BitVec 32
  | none => 1024
  | some _ => 2048

/-- A call context. -/
def contextBytes : Option Str → Bytes
  | none => []
  | some s => 18 :: string s

/-- Inline arguments. -/
def argsBytes [Platform] : Option (List Value) → Bytes
  | none => []
  | some vs => if vs.all isInline then le 4 vs.length ++ vs.flatMap coded else []

/-- Arguments in a call array. -/
def callArrayBytes [Platform] : Option (List Value) → Bytes
  | none => []
  | some vs => if vs.all isInline then [] else (record 1 (.array vs) ⟨2, []⟩).1

/-- The root id of a method message: 1 if there is a call array. -/
def methodRoot : Option (List Value) → Nat
  | none => 0
  | some vs => if vs.all isInline then 0 else 1

/-- A whole message. -/
def write [Platform] : RemotingMessage → Bytes
  | .value .null => headerRecord 0 ++ [11]
  | .value v => headerRecord 1 ++ (record 1 v ⟨2, []⟩).1 ++ [11]
  | .methodCall m =>
    headerRecord (methodRoot m.args) ++
    (21 :: le 4 (argsFlag m.args ||| contextFlag m.callContext).toNat ++ (18 :: string m.methodName) ++
      (18 :: string m.typeName) ++ contextBytes m.callContext ++ argsBytes m.args) ++
    callArrayBytes m.args ++ [11]
  | .methodReturn m =>
    headerRecord (methodRoot m.args) ++
    (22 :: le 4 (argsFlag m.args ||| contextFlag m.callContext ||| returnFlag m.returnValue).toNat ++
      m.returnValue.elim [] coded ++ contextBytes m.callContext ++ argsBytes m.args) ++
    callArrayBytes m.args ++ [11]

/-! ## What can be written -/

mutual
/-- The number of objects, arrays and strings in a value, itself included. -/
def entities : Value → Nat
  | .object _ _ ms => 1 + memberEntities ms
  | .array vs => 1 + itemEntities vs
  | .string _ => 1
  | _ => 0
/-- The sum over a list of values. -/
def itemEntities : List Value → Nat
  | [] => 0
  | v :: vs => entities v + itemEntities vs
/-- The sum over the members of an object. -/
def memberEntities : List (Str × Value) → Nat
  | [] => 0
  | (_, v) :: ms => entities v + memberEntities ms
end

/-- A string a Rust program can hold and the format can store. -/
def StorableString (s : Str) : Prop := IsUtf8 s ∧ s.length < 2 ^ 31

/-- One value (not looking at its elements or members) that the format can store: numbers fit their
type, characters are Latin-1 (C13), the decimal's text is read back, names are distinct, and lengths are
below 2³¹. -/
def Storable [Platform] (v : Value) : Prop :=
  FitsType v ∧ NamesDistinct v ∧ (∀ s ∈ ownStrings v, StorableString s) ∧
  match v with
  | .char n => n < 256
  | .decimal d => StorableString (Platform.decimalToStr d) ∧ Platform.decimalFromStr (Platform.decimalToStr d) = some d
  | .array vs => vs.length < 2 ^ 31
  | .object _ _ ms => ms.length < 2 ^ 31
  | _ => True

/-- Where values can stand in a message: the root of a message is an object, an array, a string or null;
a return value is not an object or array. -/
def PlacesOk : RemotingMessage → Prop
  | .value v => hasId v = true ∨ v = .null
  | .methodCall _ => True
  | .methodReturn r => ∀ v, r.returnValue = some v → isInline v = true

/-- A message that can be written. -/
def Writable [Platform] (m : RemotingMessage) : Prop :=
  PlacesOk m ∧ (∀ u, ValueIn u m → Storable u) ∧ (∀ s ∈ topStrings m, StorableString s) ∧
  (topValues m).length < 2 ^ 31 ∧ 1 + itemEntities (topValues m) < 2 ^ 31

end Nrbf.Spec
