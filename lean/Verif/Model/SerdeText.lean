import Verif.Model.Serde

/-! # The serde layer with its error messages

The same code as `Serde` (`/repo/src/value/mod.rs:67-245`, `/repo/src/value/object.rs:29-271`,
`/repo/src/data_type/mod.rs:62-123`, `/repo/src/remoting_message.rs:81-120`, `/repo/src/lib.rs:47-55`), with
the errors it creates: `de::value::Error` is a wrapper of the text of the error, so two errors are
distinguished exactly by their texts.

Rust types carry the names that the texts mention.  What serde (external, version 1.0.197 and later)
writes is modelled as in its sources; how Rust prints a `str` with `{:?}` and a float is a parameter
(`TextLib`). -/

set_option autoImplicit false

namespace Nrbf

/-! ## Errors -/

/-- `serde::de::Unexpected`, the cases that occur. -/
inductive Unexpected where
  | bool (b : Bool)
  /-- `Signed` and `Unsigned`, which are printed alike. -/
  | int (n : Int)
  | float (bits : Nat)
  | str (s : Str)
  | unit
  | option
  | seq
  | map
  /-- `Other("method call")`, `/repo/src/remoting_message.rs:85`. -/
  | methodCall
  /-- `Other("method return")`, `/repo/src/remoting_message.rs:86`. -/
  | methodReturn
  deriving Repr, DecidableEq

/-- The constructors of `serde::de::Error` that are used, with their arguments; what was expected is given
as text. -/
inductive SerdeError where
  /-- `custom(format!("parsing error: {}", err))`, `/repo/src/lib.rs:53`. -/
  | parsing (e : Error)
  | invalidType (unexpected : Unexpected) (expected : Str)
  | invalidValue (unexpected : Unexpected) (expected : Str)
  | invalidLength (n : Nat) (expected : Str)
  | missingField (name : Str)
  | duplicateField (name : Str)
  /-- `custom(format!("invalid system class: {}", class_name))`, `/repo/src/value/object.rs:148`. -/
  | systemClass (name : Str)
  /-- Not an error: the model ran out of fuel (proved impossible). -/
  | hang
  deriving Repr, DecidableEq

/-- How Rust prints a `str` with `{:?}` and how serde prints a float.  Nothing is assumed about them. -/
class TextLib where
  strDebug : Str → Str
  floatText : Nat → Str

/-- A number in decimal digits. -/
def digits (n : Nat) : Str := lit (toString n)

/-- A signed number in decimal digits. -/
def signedDigits (n : Int) : Str := lit (toString n)

/-- serde, `Display for Unexpected`. -/
def Unexpected.text [TextLib] : Unexpected → Str
  | .bool b => lit "boolean `" ++ lit (toString b) ++ lit "`"
  | .int n => lit "integer `" ++ signedDigits n ++ lit "`"
  | .float b => lit "floating point `" ++ TextLib.floatText b ++ lit "`"
  | .str s => lit "string " ++ TextLib.strDebug s
  | .unit => lit "unit value"
  | .option => lit "Option value"
  | .seq => lit "sequence"
  | .map => lit "map"
  | .methodCall => lit "method call"
  | .methodReturn => lit "method return"

/-- serde, the provided methods of `de::Error`: the text of the error. -/
def SerdeError.text [TextLib] : SerdeError → Str
  | .parsing e => lit "parsing error: " ++ lit e.display
  | .invalidType u e => lit "invalid type: " ++ u.text ++ lit ", expected " ++ e
  | .invalidValue u e => lit "invalid value: " ++ u.text ++ lit ", expected " ++ e
  | .invalidLength n e => lit "invalid length " ++ digits n ++ lit ", expected " ++ e
  | .missingField k => lit "missing field `" ++ k ++ lit "`"
  | .duplicateField k => lit "duplicate field `" ++ k ++ lit "`"
  | .systemClass c => lit "invalid system class: " ++ c
  | .hang => []

/-! ## Types -/

/-- The integer types. -/
inductive IntTy where
  | i8 | i16 | i32 | i64 | i128 | isize | u8 | u16 | u32 | u64 | u128 | usize
  deriving Repr, DecidableEq

/-- The name of an integer type, which is what serde expects. -/
def IntTy.name : IntTy → Str
  | .i8 => lit "i8" | .i16 => lit "i16" | .i32 => lit "i32" | .i64 => lit "i64" | .i128 => lit "i128"
  | .isize => lit "isize" | .u8 => lit "u8" | .u16 => lit "u16" | .u32 => lit "u32" | .u64 => lit "u64"
  | .u128 => lit "u128" | .usize => lit "usize"

/-- The least number of an integer type. -/
def IntTy.min [Platform] : IntTy → Int
  | .i8 => -2 ^ 7 | .i16 => -2 ^ 15 | .i32 => -2 ^ 31 | .i64 => -2 ^ 63 | .i128 => -2 ^ 127
  | .isize => -2 ^ (usizeBits - 1)
  | _ => 0

/-- The greatest number of an integer type. -/
def IntTy.max [Platform] : IntTy → Int
  | .i8 => 2 ^ 7 - 1 | .i16 => 2 ^ 15 - 1 | .i32 => 2 ^ 31 - 1 | .i64 => 2 ^ 63 - 1 | .i128 => 2 ^ 127 - 1
  | .isize => 2 ^ (usizeBits - 1) - 1
  | .u8 => 2 ^ 8 - 1 | .u16 => 2 ^ 16 - 1 | .u32 => 2 ^ 32 - 1 | .u64 => 2 ^ 64 - 1 | .u128 => 2 ^ 128 - 1
  | .usize => 2 ^ usizeBits - 1

/-- Rust types, as `Ty`, with the names that error messages mention. -/
inductive RTy where
  | bool
  | int (t : IntTy)
  | f32
  | f64
  | char
  | str
  | string
  | unit
  | option (t : RTy)
  | vec (t : RTy)
  /-- `[T; n]` (serde has these up to 32) -/
  | array (n : Nat) (t : RTy)
  /-- Tuples (serde has those of 1 to 16 elements). -/
  | tuple (ts : List RTy)
  | map (t : RTy)
  | struct (name : Str) (fields : List (Str × RTy))
  | newtype (name : Str) (t : RTy)
  | enum (name : Str)
  | ignored
  | any

mutual
/-- The type without names. -/
def RTy.erase [Platform] : RTy → Ty
  | .bool => .bool
  | .int t => .int t.min t.max
  | .f32 => .f32
  | .f64 => .f64
  | .char => .char
  | .str => .str
  | .string => .string
  | .unit => .unit
  | .option t => .option t.erase
  | .vec t => .vec t.erase
  | .array n t => .tuple (List.replicate n t.erase)
  | .tuple ts => .tuple (RTy.eraseAll ts)
  | .map t => .map t.erase
  | .struct _ fields => .struct (RTy.eraseFields fields)
  | .newtype _ t => .newtype t.erase
  | .enum _ => .enum
  | .ignored => .ignored
  | .any => .any
/-- The types without names. -/
def RTy.eraseAll [Platform] : List RTy → List Ty
  | [] => []
  | t :: ts => t.erase :: RTy.eraseAll ts
/-- The types of the fields without names. -/
def RTy.eraseFields [Platform] : List (Str × RTy) → List (Str × Ty)
  | [] => []
  | (k, t) :: fs => (k, t.erase) :: RTy.eraseFields fs
end

/-- serde, `Visitor::expecting` of the types. -/
def RTy.expecting : RTy → Str
  | .bool => lit "a boolean"
  | .int t => t.name
  | .f32 => lit "f32"
  | .f64 => lit "f64"
  | .char => lit "a character"
  | .str => lit "a borrowed string"
  | .string => lit "a string"
  | .unit => lit "unit"
  | .option _ => lit "option"
  | .vec _ => lit "a sequence"
  | .array n _ => if n = 0 then lit "an empty array" else lit "an array of length " ++ digits n
  | .tuple ts => lit "a tuple of size " ++ digits ts.length
  | .map _ => lit "a map"
  | .struct name _ => lit "struct " ++ name
  | .newtype name _ => lit "tuple struct " ++ name
  | .enum name => lit "enum " ++ name
  | .ignored => lit "anything at all"
  | .any => lit "any value"

/-- `1 element` or `n elements`. -/
def elements (n : Nat) : Str := if n = 1 then lit "1 element" else digits n ++ lit " elements"

/-- serde derive: what `visit_seq` of a struct expects when the sequence is too short. -/
def withElements (expecting : Str) (n : Nat) : Str := expecting ++ lit " with " ++ elements n

abbrev TextResult := Except SerdeError

/-- An element of a sequence or map: `seed.deserialize(…)` as a function of the type. -/
abbrev RChild := RTy → TextResult Dyn

/-! ## Sequences and maps -/

/-- `next_element` of a `SeqAccess` in state `σ`. -/
abbrev NextR (σ : Type) := σ → RTy → TextResult (Option Dyn × σ)

/-- `/repo/src/value/mod.rs:84-87` `ArrayDeserializer`: the rest of the iterator and the number of elements
read. -/
structure ArrayAccess where
  rest : List RChild
  count : Nat

/-- `/repo/src/value/mod.rs:151-162` `ArrayDeserializer::next_element_seed`. -/
def arrayNextR : NextR ArrayAccess := fun a T =>
  match a.rest with
  | [] => .ok (none, a)
  | c :: cs =>
    match c T with
    | .ok d => .ok (some d, ⟨cs, a.count + 1⟩)
    | .error e => .error e

/-- `/repo/src/value/mod.rs:69-80` `ExpectedInArray`. -/
def expectedInArray (n : Nat) : Str :=
  if n = 1 then lit "1 element in array" else digits n ++ lit " elements in array"

/-- `/repo/src/value/mod.rs:107-116` `ArrayDeserializer::end`. -/
def arrayEndR (a : ArrayAccess) : TextResult Unit :=
  if a.rest.length = 0 then .ok () else .error (.invalidLength (a.count + a.rest.length) (expectedInArray a.count))

/-- `/repo/src/value/object.rs:192-196` `ListDeserializer`. -/
structure ListAccessR where
  array : ArrayAccess
  count : Nat
  size : Nat

/-- `/repo/src/value/object.rs:259-270` `ListDeserializer::next_element_seed`. -/
def listNextR : NextR ListAccessR := fun a T =>
  if a.count < a.size then
    match arrayNextR a.array T with
    | .ok (d, array) => .ok (d, { a with array := array, count := a.count + 1 })
    | .error e => .error e
  else .ok (none, a)

/-- `/repo/src/value/object.rs:177-188` `ExpectedInList`. -/
def expectedInList (n : Nat) : Str :=
  if n = 1 then lit "1 element in list" else digits n ++ lit " elements in list"

/-- `/repo/src/value/object.rs:216-224` `ListDeserializer::end`. -/
def listEndR (a : ListAccessR) : TextResult Unit :=
  if a.count = a.size then .ok () else .error (.invalidLength a.size (expectedInList a.count))

/-- serde, `Vec<T>`: `while let Some(value) = seq.next_element()? { … }`. -/
def readAllR {σ : Type} (next : NextR σ) (T : RTy) : (fuel : Nat) → σ → TextResult (List Dyn × σ)
  | 0, _ => .error .hang
  | fuel + 1, s =>
    match next s T with
    | .ok (some d, s) =>
      match readAllR next T fuel s with
      | .ok (ds, s) => .ok (d :: ds, s)
      | .error e => .error e
    | .ok (none, s) => .ok ([], s)
    | .error e => .error e

/-- serde, arrays, tuples and structs: one `next_element` per field; without an element,
`Err(Error::invalid_length(index, …))`. -/
def readEachR {σ : Type} (next : NextR σ) (expected : Str) : (index : Nat) → List RTy → σ → TextResult (List Dyn × σ)
  | _, [], s => .ok ([], s)
  | index, T :: Ts, s =>
    match next s T with
    | .ok (some d, s) =>
      match readEachR next expected (index + 1) Ts s with
      | .ok (ds, s) => .ok (d :: ds, s)
      | .error e => .error e
    | .ok (none, _) => .error (.invalidLength index expected)
    | .error e => .error e

/-- What a visitor does with a sequence: read all elements, or one per type. -/
inductive SeqPlanR where
  | all (T : RTy)
  | each (expected : Str) (Ts : List RTy)

/-- A visitor running over a sequence. -/
def SeqPlanR.run {σ : Type} (next : NextR σ) (fuel : Nat) : SeqPlanR → σ → TextResult (List Dyn × σ)
  | .all T => readAllR next T fuel
  | .each expected Ts => readEachR next expected 0 Ts

/-- `/repo/src/value/mod.rs:127-134` `ArrayDeserializer::deserialize_any`. -/
def visitArraySeqR (plan : SeqPlanR) (cs : List RChild) : TextResult (List Dyn) :=
  match plan.run arrayNextR (cs.length + 1) ⟨cs, 0⟩ with
  | .ok (ds, a) =>
    match arrayEndR a with
    | .ok () => .ok ds
    | .error e => .error e
  | .error e => .error e

/-- `/repo/src/value/object.rs:235-242` `ListDeserializer::deserialize_any`. -/
def visitListSeqR (plan : SeqPlanR) (cs : List RChild) (size : Nat) : TextResult (List Dyn) :=
  match plan.run listNextR (cs.length + 1) ⟨⟨cs, 0⟩, 0, size⟩ with
  | .ok (ds, a) =>
    match listEndR a with
    | .ok () => .ok ds
    | .error e => .error e
  | .error e => .error e

/-- serde, `HashMap<String, T>`: every entry (the keys of the members are distinct). -/
def readMapR (T : RTy) : List (Str × RChild) → TextResult (List (Str × Dyn))
  | [] => .ok []
  | (k, c) :: es =>
    match c T with
    | .ok d =>
      match readMapR T es with
      | .ok ds => .ok ((k, d) :: ds)
      | .error e => .error e
    | .error e => .error e

/-- The type of a field. -/
def fieldTypeR (fields : List (Str × RTy)) (k : Str) : Option RTy := (fields.find? fun f => f.1 = k).map Prod.snd

/-- serde derive, `visit_map`: the entries one after the other; an unknown one is read as `IgnoredAny`,
a repeated one is an error. -/
def readFieldsR (fields : List (Str × RTy)) : List (Str × RChild) → List (Str × Dyn) → TextResult (List (Str × Dyn))
  | [], acc => .ok acc
  | (k, c) :: es, acc =>
    match fieldTypeR fields k with
    | some T =>
      if acc.any fun e => e.1 = k then .error (.duplicateField k)
      else
        match c T with
        | .ok d => readFieldsR fields es (acc ++ [(k, d)])
        | .error e => .error e
    | none =>
      match c .ignored with
      | .ok _ => readFieldsR fields es acc
      | .error e => .error e

/-- serde derive: the fields in their order; a missing one is `None` if it is an option and otherwise
an error. -/
def finishFieldsR (found : List (Str × Dyn)) : List (Str × RTy) → TextResult (List (Str × Dyn))
  | [] => .ok []
  | (k, T) :: fs =>
    match found.find? (fun e => e.1 = k) with
    | some (_, d) =>
      match finishFieldsR found fs with
      | .ok ds => .ok ((k, d) :: ds)
      | .error e => .error e
    | none =>
      match T with
      | .option _ =>
        match finishFieldsR found fs with
        | .ok ds => .ok ((k, .none) :: ds)
        | .error e => .error e
      | _ => .error (.missingField k)

/-- serde derive, a struct with named fields from a map. -/
def visitFieldsR (fields : List (Str × RTy)) (entries : List (Str × RChild)) : TextResult (List (Str × Dyn)) :=
  match readFieldsR fields entries [] with
  | .ok found => finishFieldsR found fields
  | .error e => .error e

/-! ## Visitors -/

/-- serde: how the provided methods of `Visitor` describe their argument in `Error::invalid_type`.
`visit_f32` goes through `visit_f64`, and `visit_char` through `visit_str`. -/
def VCall.unexpected {ρ ε : Type} [FloatLib] : VCall ρ ε → Unexpected
  | .visitBool b => .bool b
  | .visitInt n => .int n
  | .visitF32 b => .float (FloatLib.f64OfF32 b)
  | .visitF64 b => .float b
  | .visitChar c => .str (String.utf8EncodeChar (Char.ofNat c))
  | .visitString s => .str s
  | .visitBorrowedStr s => .str s
  | .visitUnit => .unit
  | .visitNone => .option
  | .visitSome => .option
  | .visitArray _ => .seq
  | .visitList _ _ => .seq
  | .visitMap _ => .map
  | .fail _ => .unit

/-- serde, `char` from a string. -/
def charOfStrR (s : Str) : TextResult Dyn :=
  match singleChar s with
  | some c => .ok (.char c)
  | none => .error (.invalidValue (.str s) RTy.char.expecting)

/-- The visitors: what the type makes of the visitor method that was called.  Methods that a visitor does
not have are the provided ones of serde: `Err(Error::invalid_type(…, &self))`. -/
def acceptR [Platform] [FloatLib] : RTy → VCall RChild SerdeError → TextResult Dyn
  | _, .fail e => .error e
  | .bool, .visitBool b => .ok (.bool b)
  | .int t, .visitInt n => if t.min ≤ n ∧ n ≤ t.max then .ok (.int n) else .error (.invalidValue (.int n) t.name)
  | .f32, .visitF32 b => .ok (.f32 b)
  | .f32, .visitF64 b => .ok (.f32 (FloatLib.f32OfF64 b))
  | .f32, .visitInt n => .ok (.f32 (FloatLib.f32OfInt n))
  | .f64, .visitF64 b => .ok (.f64 b)
  | .f64, .visitF32 b => .ok (.f64 (FloatLib.f64OfF32 b))
  | .f64, .visitInt n => .ok (.f64 (FloatLib.f64OfInt n))
  | .char, .visitChar c => .ok (.char c)
  | .char, .visitString s => charOfStrR s
  | .char, .visitBorrowedStr s => charOfStrR s
  | .str, .visitBorrowedStr s => .ok (.str s)
  | .string, .visitBorrowedStr s => .ok (.str s)
  | .string, .visitString s => .ok (.str s)
  | .string, .visitChar c => .ok (.str (String.utf8EncodeChar (Char.ofNat c)))
  | .unit, .visitUnit => .ok .unit
  | .vec T, .visitArray cs => (visitArraySeqR (.all T) cs).map .seq
  | .vec T, .visitList cs n => (visitListSeqR (.all T) cs n).map .seq
  | .array n T, .visitArray cs =>
    (visitArraySeqR (.each (RTy.array n T).expecting (List.replicate n T)) cs).map .tuple
  | .array n T, .visitList cs m =>
    (visitListSeqR (.each (RTy.array n T).expecting (List.replicate n T)) cs m).map .tuple
  | .tuple Ts, .visitArray cs => (visitArraySeqR (.each (RTy.tuple Ts).expecting Ts) cs).map .tuple
  | .tuple Ts, .visitList cs n => (visitListSeqR (.each (RTy.tuple Ts).expecting Ts) cs n).map .tuple
  | .map T, .visitMap es => (readMapR T es).map .map
  | .struct _ fs, .visitMap es => (visitFieldsR fs es).map .struct
  | .struct name fs, .visitArray cs =>
    (visitArraySeqR (.each (withElements (RTy.struct name fs).expecting fs.length) (fs.map Prod.snd)) cs).map
      fun ds => .struct ((fs.map Prod.fst).zip ds)
  | .struct name fs, .visitList cs n =>
    (visitListSeqR (.each (withElements (RTy.struct name fs).expecting fs.length) (fs.map Prod.snd)) cs n).map
      fun ds => .struct ((fs.map Prod.fst).zip ds)
  | .newtype name T, .visitArray cs =>
    (visitArraySeqR (.each (withElements (RTy.newtype name T).expecting 1) [T]) cs).map newtypeOf
  | .newtype name T, .visitList cs n =>
    (visitListSeqR (.each (withElements (RTy.newtype name T).expecting 1) [T]) cs n).map newtypeOf
  | .ignored, .visitArray cs => (visitArraySeqR (.all .ignored) cs).map fun _ => .ignored
  | .ignored, .visitList cs n => (visitListSeqR (.all .ignored) cs n).map fun _ => .ignored
  | .ignored, .visitMap es => (readMapR .ignored es).map fun _ => .ignored
  | .ignored, _ => .ok .ignored
  | .any, .visitBool b => .ok (.bool b)
  | .any, .visitInt n => .ok (.int n)
  | .any, .visitF32 b => .ok (.f32 b)
  | .any, .visitF64 b => .ok (.f64 b)
  | .any, .visitChar c => .ok (.char c)
  | .any, .visitString s => .ok (.str s)
  | .any, .visitBorrowedStr s => .ok (.str s)
  | .any, .visitUnit => .ok .unit
  | .any, .visitNone => .ok .none
  | .any, .visitArray cs => (visitArraySeqR (.all .any) cs).map .seq
  | .any, .visitList cs n => (visitListSeqR (.all .any) cs n).map .seq
  | .any, .visitMap es => (readMapR .any es).map .map
  | T, c => .error (.invalidType c.unexpected T.expecting)

/-- `T::deserialize(deserializer)`. -/
def Deser.runR [Platform] [FloatLib] (d : Deser RChild SerdeError) : RTy → TextResult Dyn
  | .option T =>
    match d.option with
    | .fail e => .error e
    | .visitUnit | .visitNone => .ok .none
    | .visitSome => (d.runR T).map .some
    | c => .error (.invalidType c.unexpected (RTy.option T).expecting)
  | .struct name fs => acceptR (.struct name fs) d.struct
  | T => acceptR T d.any

/-! ## The deserializers of the crate -/

/-- The deserializer of a value, and the elements of an array. -/
structure NodeR where
  value : Value
  deser : RChild
  items : List RChild

/-- `/repo/src/data_type/mod.rs:79-120`: `Deserialize` of a boxed primitive.  `expected` is
`stringify!($ty)`, `T` is the type of the primitive. -/
def unboxR (expected : Str) (T : RTy) (entries : List (Str × RChild)) : TextResult Dyn :=
  if entries.length = 1 then
    match entries with
    | [(k, c)] =>
      match c T with
      | .ok d => if k = lit "m_value" then .ok d else .error (.invalidType .map expected)
      | .error e => .error e
    | _ => .error (.invalidType .map expected)
  else .error (.invalidType .map expected)

/-- `let v = …::deserialize(map_deserializer)?; return visitor.visit_…(v.into())`. -/
def unboxedR (expected : Str) (T : RTy) (visit : Dyn → VCall RChild SerdeError) (entries : List (Str × RChild)) :
    VCall RChild SerdeError :=
  match unboxR expected T entries with
  | .ok d => visit d
  | .error e => .fail e

/-- `visit_i8` to `visit_u64` of a decoded integer (nothing else is decoded from an integer type; likewise
below). -/
def visitIntR (d : Dyn) : VCall RChild SerdeError := match d with | .int n => .visitInt n | _ => .fail (.invalidType .unit [])
/-- `visit_bool` of a decoded boolean. -/
def visitBoolR (d : Dyn) : VCall RChild SerdeError := match d with | .bool b => .visitBool b | _ => .fail (.invalidType .unit [])
/-- `visit_char` of a decoded character. -/
def visitCharR (d : Dyn) : VCall RChild SerdeError := match d with | .char c => .visitChar c | _ => .fail (.invalidType .unit [])
/-- `visit_f32` of a decoded float. -/
def visitF32R (d : Dyn) : VCall RChild SerdeError := match d with | .f32 b => .visitF32 b | _ => .fail (.invalidType .unit [])
/-- `visit_f64` of a decoded float. -/
def visitF64R (d : Dyn) : VCall RChild SerdeError := match d with | .f64 b => .visitF64 b | _ => .fail (.invalidType .unit [])

/-- `/repo/src/value/object.rs:137-144`: the members of a generic list. -/
def listMembersR (members : List (Str × NodeR)) : Option (List RChild × Int) :=
  if members.length = 3 then
    match AMap.get? members (lit "_items"), AMap.get? members (lit "_size"), AMap.get? members (lit "_version") with
    | some ⟨.array _, _, items⟩, some ⟨.int32 size, _, _⟩, some ⟨.int32 _, _, _⟩ => some (items, size)
    | _, _, _ => none
  else none

/-- `/repo/src/value/object.rs:64-149` `ObjectDeserializer::deserialize_any`.  The order of `members` is
the order in which the hash map enumerates them. -/
def objectAnyR [Platform] (cls : Str) (library : Option Str) (members : List (Str × NodeR)) :
    VCall RChild SerdeError :=
  let entries := members.map fun m => (m.1, m.2.deser)
  if library.isSome then .visitMap entries
  else
    let name := classBase cls
    if name = lit "System.Boolean" then unboxedR (lit "Boolean") .bool visitBoolR entries
    else if name = lit "System.Byte" then unboxedR (lit "Byte") (.int .u8) visitIntR entries
    else if name = lit "System.SByte" then unboxedR (lit "Int8") (.int .i8) visitIntR entries
    else if name = lit "System.Char" then unboxedR (lit "Char") .char visitCharR entries
    else if name = lit "System.Double" then unboxedR (lit "Double") .f64 visitF64R entries
    else if name = lit "System.Single" then unboxedR (lit "Single") .f32 visitF32R entries
    else if name = lit "System.Int32" then unboxedR (lit "Int32") (.int .i32) visitIntR entries
    else if name = lit "System.UInt32" then unboxedR (lit "UInt32") (.int .u32) visitIntR entries
    else if name = lit "System.Int64" then unboxedR (lit "Int64") (.int .i64) visitIntR entries
    else if name = lit "System.UInt64" then unboxedR (lit "UInt64") (.int .u64) visitIntR entries
    else if name = lit "System.Int16" then unboxedR (lit "Int16") (.int .i16) visitIntR entries
    else if name = lit "System.UInt16" then unboxedR (lit "UInt16") (.int .u16) visitIntR entries
    else if name = lit "System.Collections.Generic.List" then
      match listMembersR members with
      | some (items, size) => .visitList items (asUsize size)
      | none => .fail (.systemClass name)
    else .visitMap entries

/-- `ObjectDeserializer` inside a `ValueDeserializer`: `/repo/src/value/object.rs:151-166`
`deserialize_struct` always visits a map. -/
def objectDeserR [Platform] (cls : Str) (library : Option Str) (members : List (Str × NodeR)) :
    Deser RChild SerdeError :=
  ⟨objectAnyR cls library members, .visitSome, .visitMap (members.map fun m => (m.1, m.2.deser))⟩

mutual
/-- `/repo/src/value/mod.rs:187-245` `ValueDeserializer`. -/
def valueDeserR [Platform] [FloatLib] : Value → Deser RChild SerdeError
  | .object cls library members => objectDeserR cls library (memberNodesR members)
  | .array items => plainDeser (.visitArray (itemDesersR items))
  | .boolean b => plainDeser (.visitBool b)
  | .sbyte n => plainDeser (.visitInt n)
  | .int16 n => plainDeser (.visitInt n)
  | .int32 n => plainDeser (.visitInt n)
  | .int64 n => plainDeser (.visitInt n)
  | .byte n => plainDeser (.visitInt n)
  | .uint16 n => plainDeser (.visitInt n)
  | .uint32 n => plainDeser (.visitInt n)
  | .uint64 n => plainDeser (.visitInt n)
  | .single b => plainDeser (.visitF32 b)
  | .double b => plainDeser (.visitF64 b)
  | .char c => plainDeser (.visitChar c)
  | .decimal d => plainDeser (.visitString (Platform.decimalToStr d))
  | .timeSpan n => plainDeser (.visitInt n)
  | .dateTime n => plainDeser (.visitInt n)
  | .string s => plainDeser (.visitBorrowedStr s)
  | .null => ⟨.visitUnit, .visitNone, .visitUnit⟩
/-- The deserializers of the elements of an array. -/
def itemDesersR [Platform] [FloatLib] : List Value → List RChild
  | [] => []
  | v :: vs => (valueDeserR v).runR :: itemDesersR vs
/-- The members of an object. -/
def memberNodesR [Platform] [FloatLib] : List (Str × Value) → List (Str × NodeR)
  | [] => []
  | (k, v) :: ms => (k, ⟨v, (valueDeserR v).runR, itemsOfR v⟩) :: memberNodesR ms
/-- The elements, if the value is an array. -/
def itemsOfR [Platform] [FloatLib] : Value → List RChild
  | .array items => itemDesersR items
  | _ => []
end

/-- `T::deserialize(ValueDeserializer::new(value))`. -/
def decodeR [Platform] [FloatLib] (v : Value) (T : RTy) : TextResult Dyn := (valueDeserR v).runR T

/-- `/repo/src/remoting_message.rs:81-120`: `T::deserialize(message)`.  Options are forwarded to
`deserialize_any`. -/
def messageR [Platform] [FloatLib] (m : RemotingMessage) (T : RTy) : TextResult Dyn :=
  match m with
  | .methodCall _ => .error (.invalidType .methodCall T.expecting)
  | .methodReturn _ => .error (.invalidType .methodReturn T.expecting)
  | .value v =>
    let d := valueDeserR v
    Deser.runR ⟨d.any, d.any, d.struct⟩ T

/-- What a call of `from_slice` does, with the error. -/
inductive TextSlice where
  | ok (d : Dyn)
  | err (e : SerdeError)
  | panic
  | hang
  deriving DecidableEq

/-- `/repo/src/lib.rs:48-55` `from_slice`. -/
def fromSliceR [Platform] [FloatLib] (T : RTy) (bytes : Bytes) : TextSlice :=
  match deserialize bytes with
  | .ok m =>
    match messageR m T with
    | .ok d => .ok d
    | .error .hang => .hang
    | .error e => .err e
  | .err e => .err (.parsing e)
  | .panic => .panic
  | .hang => .hang

end Nrbf
