import Verif.Model.Visitor

/-! # The types of `SerdeText` as implementations of `Deserialize`

`SerdeText` models how the standard and derived types run over sequences and maps directly.  Here the same types (serde,
external, version 1.0.197 and later; and the crate's boxed primitives, `/repo/src/data_type/mod.rs:79-120`) are
implementations of `Deserialize` in the sense of `Visitor`: which method they call, and what each visitor method does,
request by request. -/

set_option autoImplicit false

namespace Nrbf.Visitors

/-- The types. -/
inductive Goal where
  | ty (T : RTy)
  /-- serde derive: the identifiers of the fields of a struct, or `__ignore`. -/
  | field (fields : List (Str × RTy))
  /-- `/repo/src/data_type/mod.rs:79-120`, the boxed primitives. -/
  | boxed (expected : Str) (T : RTy)

/-- An error is its text. -/
def asText {α : Type} [TextLib] : TextResult α → Res α
  | .ok a => .ok a
  | .error e => .error e.text

/-- The call of a visitor method in the terms of `SerdeText`, which has no transient strings: no type of its universe is
given one, except for the identifiers of fields. -/
def Scalar.call : Scalar → VCall RChild SerdeError
  | .bool b => .visitBool b
  | .i8 n | .i16 n | .i32 n | .i64 n => .visitInt n
  | .u8 n | .u16 n | .u32 n | .u64 n => .visitInt n
  | .f32 b => .visitF32 b
  | .f64 b => .visitF64 b
  | .char c => .visitChar c
  | .str s => .visitString s
  | .borrowedStr s => .visitBorrowedStr s
  | .string s => .visitString s
  | .unit => .visitUnit
  | .none => .visitNone

/-- The elements in the answers so far. -/
def gathered {α : Type} (h : List (Res (Option α))) : List α := h.filterMap fun a => match a with | .ok x => x | .error _ => none

/-- serde, `Vec<T>`: `while let Some(value) = seq.next_element()? { values.push(value) }`. -/
def seqAll (T : RTy) (done : List Dyn → Dyn) (h : List (Res (Option Dyn))) : SeqAction Goal Dyn :=
  match h.getLast? with
  | none => .next (.ty T)
  | some (.ok (some _)) => .next (.ty T)
  | some (.ok none) => .finish (.ok (done (gathered h)))
  | some (.error e) => .finish (.error e)

/-- serde, arrays, tuples and structs: one `next_element()?` per element; without one, `Err(Error::invalid_length(index, …))`. -/
def seqEach [TextLib] (expected : Str) (Ts : List RTy) (done : List Dyn → Dyn) (h : List (Res (Option Dyn))) : SeqAction Goal Dyn :=
  let more := match Ts[h.length]? with
    | some T => .next (.ty T)
    | none => .finish (.ok (done (gathered h)))
  match h.getLast? with
  | none => more
  | some (.ok (some _)) => more
  | some (.ok none) => .finish (.error (SerdeError.invalidLength (h.length - 1) expected).text)
  | some (.error e) => .finish (.error e)

/-- The keys and values in the answers so far. -/
def entriesOf : List Dyn → List (Dyn × Dyn)
  | k :: d :: ds => (k, d) :: entriesOf ds
  | _ => []

/-- The string in a key. -/
def keyOf : Dyn → Str
  | .str s => s
  | _ => []

/-- serde, `HashMap<K, T>`: `while let Some((key, value)) = map.next_entry()? { … }`. -/
def mapAll (K T : RTy) (done : List (Dyn × Dyn) → Dyn) (h : List (Res (Option Dyn))) : MapAction Goal Dyn :=
  let more := if h.length % 2 = 0 then .key (.ty K) else .value (.ty T)
  match h.getLast? with
  | none => more
  | some (.ok (some _)) => more
  | some (.ok none) => .finish (.ok (done (entriesOf (gathered h))))
  | some (.error e) => .finish (.error e)

/-- The fields that have a value so far: entries with a known key. -/
def fieldsFound (es : List (Dyn × Dyn)) : List (Str × Dyn) :=
  es.filterMap fun e => match e.1 with | .str k => some (k, e.2) | _ => none

/-- serde derive, `visit_map`: `while let Some(key) = map.next_key()? { match key { … } }`. -/
def mapFields [TextLib] (fields : List (Str × RTy)) (h : List (Res (Option Dyn))) : MapAction Goal Dyn :=
  match h.getLast? with
  | none => .key (.field fields)
  | some (.ok (some x)) =>
    if h.length % 2 = 0 then .key (.field fields)
    else match x with
      | .str k =>
        if (fieldsFound (entriesOf (gathered h))).any fun e => e.1 = k then .finish (.error (SerdeError.duplicateField k).text)
        else match fieldTypeR fields k with
          | some T => .value (.ty T)
          | none => .value (.ty .ignored)
      | _ => .value (.ty .ignored)
  | some (.ok none) => .finish (asText ((finishFieldsR (fieldsFound (entriesOf (gathered h))) fields).map .struct))
  | some (.error e) => .finish (.error e)

/-- `/repo/src/data_type/mod.rs:102-117`, `visit_map` of a boxed primitive; the size hint is the number of members. -/
def mapBoxed [TextLib] (expected : Str) (T : RTy) (size : Nat) (h : List (Res (Option Dyn))) : MapAction Goal Dyn :=
  let wrong : MapAction Goal Dyn := .finish (.error (SerdeError.invalidType .map expected).text)
  if size = 1 then
    match h with
    | [] => .key (.ty .str)
    | [.ok (some _)] => .value (.ty T)
    -- the first entry; is it the only one?
    | [.ok (some k), .ok (some _)] => if k = .str (lit "m_value") then .key (.ty .str) else wrong
    | [.ok (some _), .ok (some n), .ok none] => .finish (.ok n)
    | [.ok (some k), .ok (some _), .ok (some _)] => if k = .str (lit "m_value") then .value (.ty T) else wrong
    | _ => match h.getLast? with
      | some (.error e) => .finish (.error e)
      | _ => wrong
  else wrong

/-- The method of the deserializer that a type calls. -/
def methodOf : RTy → Method
  | .bool => .bool
  | .int .i8 => .i8 | .int .i16 => .i16 | .int .i32 => .i32 | .int .i64 => .i64 | .int .i128 => .i128 | .int .isize => .i64
  | .int .u8 => .u8 | .int .u16 => .u16 | .int .u32 => .u32 | .int .u64 => .u64 | .int .u128 => .u128 | .int .usize => .u64
  | .f32 => .f32
  | .f64 => .f64
  | .char => .char
  | .str => .str
  | .string => .string
  | .unit => .unit
  | .option _ => .option
  | .vec _ => .seq
  | .array _ _ => .tuple
  | .tuple _ => .tuple
  | .map _ => .map
  | .struct _ _ => .struct
  | .newtype _ _ => .newtypeStruct
  | .enum _ => .enum
  | .ignored => .ignoredAny
  | .any => .any

/-- The provided methods of `Visitor`: `Err(Error::invalid_type(…, &self))`. -/
def refuse [TextLib] (u : Unexpected) (expected : Str) : Res Dyn := .error (SerdeError.invalidType u expected).text

/-- `visit_seq` of a type. -/
def seqOf [TextLib] : RTy → List (Res (Option Dyn)) → SeqAction Goal Dyn
  | .vec T => seqAll T .seq
  | .array n T => seqEach (RTy.array n T).expecting (List.replicate n T) .tuple
  | .tuple Ts => seqEach (RTy.tuple Ts).expecting Ts .tuple
  | .struct name fs => seqEach (withElements (RTy.struct name fs).expecting fs.length) (fs.map Prod.snd)
      fun ds => .struct ((fs.map Prod.fst).zip ds)
  | .newtype name T => seqEach (withElements (RTy.newtype name T).expecting 1) [T] newtypeOf
  | .ignored => seqAll .ignored fun _ => .ignored
  | .any => seqAll .any .seq
  | T => fun _ => .finish (refuse .seq T.expecting)

/-- `visit_map` of a type. -/
def mapOf [TextLib] : RTy → List (Res (Option Dyn)) → MapAction Goal Dyn
  | .map T => mapAll .string T fun es => .map (es.map fun e => (keyOf e.1, e.2))
  | .struct _ fs => mapFields fs
  | .ignored => mapAll .ignored .ignored fun _ => .ignored
  | .any => mapAll .any .any fun es => .map (es.map fun e => (keyOf e.1, e.2))
  | T => fun _ => .finish (refuse .map T.expecting)

/-- The methods of the visitor of a type that take a value. -/
def takeScalar [Platform] [FloatLib] [TextLib] : RTy → Scalar → Res Dyn
  | .option T, s =>
    match s with
    | .unit | .none => .ok .none
    | s => refuse s.call.unexpected (RTy.option T).expecting
  | T, s => asText (acceptR T s.call)

/-- The visitor of a type. -/
def visitorOf [Platform] [FloatLib] [TextLib] (T : RTy) : Visitor Goal Dyn where
  expecting := T.expecting
  scalar := takeScalar T
  some := match T with
    | .option T => .deserialize (.ty T) fun r => r.map .some
    | T => .finish (refuse .option T.expecting)
  seq := seqOf T
  map := fun _ => mapOf T
  enum := fun _ => refuse .unit T.expecting

/-- The visitor of the identifiers of fields. -/
def fieldVisitor [TextLib] (fields : List (Str × RTy)) : Visitor Goal Dyn where
  expecting := lit "field identifier"
  scalar := fun s => match s with
    | .str k => .ok (if (fieldTypeR fields k).isSome then .str k else .ignored)
    | _ => refuse .unit (lit "field identifier")
  some := .finish (refuse .option (lit "field identifier"))
  seq := fun _ => .finish (refuse .seq (lit "field identifier"))
  map := fun _ _ => .finish (refuse .map (lit "field identifier"))
  enum := fun _ => refuse .unit (lit "field identifier")

/-- The visitor of a boxed primitive, which is only given maps. -/
def boxedVisitor [TextLib] (expected : Str) (T : RTy) : Visitor Goal Dyn where
  expecting := expected
  scalar := fun _ => refuse .unit expected
  some := .finish (refuse .option expected)
  seq := fun _ => .finish (refuse .seq expected)
  map := mapBoxed expected T
  enum := fun _ => refuse .unit expected

/-- The implementations. -/
def rust [Platform] [FloatLib] [TextLib] : Goal → Impl Goal Dyn
  | .ty T => .call (methodOf T) (visitorOf T) id
  | .field fields => .call .identifier (fieldVisitor fields) id
  | .boxed expected T => .call (methodOf T) (boxedVisitor expected T) id

end Nrbf.Visitors
