import Verif.Model.SerdeText

/-! # The serde layer for every `Deserialize` implementation

`Serde` and `SerdeText` model the crate's deserializers together with the visitors of a fixed universe of Rust types.
The crate itself is generic: it works with every `Deserialize` type and every `Visitor` a user writes.  This is that
generic code (`/repo/src/value/mod.rs:67-245`, `/repo/src/value/object.rs:29-271`,
`/repo/src/remoting_message.rs:81-120`, `/repo/src/lib.rs:47-55`).

A type is any implementation of `Deserialize`: which method of the deserializer it calls, and a visitor, which is what
it does in each `visit_…` method.  A visitor that is given a sequence or a map is a strategy: depending on all answers
it has had so far, it asks for the next element, key or value as some type, or it returns.  It may go on after an
error or after the end, and it may return early.

The types are indexed by `ι` (so they can be recursive), their values are in `α`; both are arbitrary.  Whether a
strategy ever returns is up to the visitor, so running it is a relation, with one rule per path through the Rust
function; it is proved to be a partial function.  `de::value::Error` is its text. -/

set_option autoImplicit false

namespace Nrbf.Visitors

/-- `Result<_, de::value::Error>`. -/
abbrev Res (α : Type) := Except Str α

/-- The visitor methods that take a value. -/
inductive Scalar where
  | bool (b : Bool)
  | i8 (n : Int) | i16 (n : Int) | i32 (n : Int) | i64 (n : Int)
  | u8 (n : Nat) | u16 (n : Nat) | u32 (n : Nat) | u64 (n : Nat)
  | f32 (bits : Nat)
  | f64 (bits : Nat)
  | char (codePoint : Nat)
  /-- `visit_str`, only for the keys of structs. -/
  | str (s : Str)
  | borrowedStr (s : Str)
  | string (s : Str)
  | unit
  | none

/-- The methods of `Deserializer`. -/
inductive Method where
  | any | bool | i8 | i16 | i32 | i64 | i128 | u8 | u16 | u32 | u64 | u128 | f32 | f64 | char | str | string | bytes
  | byteBuf | option | unit | unitStruct | newtypeStruct | seq | tuple | tupleStruct | map | struct | enum | identifier
  | ignoredAny
  deriving DecidableEq

/-- What a visitor does next with a `SeqAccess`. -/
inductive SeqAction (ι α : Type) where
  /-- `next_element::<i>()` -/
  | next (i : ι)
  | finish (r : Res α)

/-- What a visitor does next with a `MapAccess`. -/
inductive MapAction (ι α : Type) where
  /-- `next_key::<i>()` -/
  | key (i : ι)
  /-- `next_value::<i>()` -/
  | value (i : ι)
  | finish (r : Res α)

/-- What a visitor does with `visit_some(deserializer)`. -/
inductive SomeAction (ι α : Type) where
  /-- `i::deserialize(deserializer)` and then something with the result. -/
  | deserialize (i : ι) (after : Res α → Res α)
  | finish (r : Res α)

/-- A `Visitor`.  The methods not listed here are never called by the crate. -/
structure Visitor (ι α : Type) where
  /-- `expecting`, for errors about method messages. -/
  expecting : Str
  scalar : Scalar → Res α
  some : SomeAction ι α
  /-- `visit_seq`: a strategy, from the answers so far. -/
  seq : List (Res (Option α)) → SeqAction ι α
  /-- `visit_map`: the same, from the size hint and the answers so far (those of values are never `None`). -/
  map : Nat → List (Res (Option α)) → MapAction ι α
  /-- `visit_enum` of a key, which is a string. -/
  enum : Str → Res α

/-- An implementation of `Deserialize`. -/
inductive Impl (ι α : Type) where
  /-- `deserializer.deserialize_…(visitor)` and then something with the result. -/
  | call (method : Method) (visitor : Visitor ι α) (after : Res α → Res α)
  /-- The deserializer is not asked. -/
  | ignore (r : Res α)

/-- What an implementation makes of a result. -/
def conclude {α : Type} (after : Res α → Res α) (r : Res α) : Res α := after r

/-- `BorrowedStrDeserializer` (`/repo/src/value/object.rs:45-58`) for the keys of maps, and serde's `StrDeserializer`
for those of structs (`/repo/src/value/object.rs:163`): every method is `visit_borrowed_str` or `visit_str`, except for
enums. -/
def deserializeKey {ι α : Type} (scalar : Str → Scalar) (k : Str) : Impl ι α → Res α
  | .ignore r => r
  | .call .enum V after => after (V.enum k)
  | .call _ V after => after (V.scalar (scalar k))

/-- `/repo/src/value/mod.rs:195-214` `ValueDeserializer::deserialize_any`, the values that are neither objects nor arrays. -/
def scalarOf [Platform] : Value → Option Scalar
  | .object _ _ _ | .array _ => .none
  | .boolean b => some (.bool b)
  | .sbyte n => some (.i8 n)
  | .int16 n => some (.i16 n)
  | .int32 n => some (.i32 n)
  | .int64 n => some (.i64 n)
  | .byte n => some (.u8 n)
  | .uint16 n => some (.u16 n)
  | .uint32 n => some (.u32 n)
  | .uint64 n => some (.u64 n)
  | .single b => some (.f32 b)
  | .double b => some (.f64 b)
  | .char c => some (.char c)
  | .decimal d => some (.string (Platform.decimalToStr d))
  | .timeSpan n => some (.i64 n)
  | .dateTime n => some (.i64 n)
  | .string s => some (.borrowedStr s)
  | .null => some .unit

/-- What `ObjectDeserializer::deserialize_any` does with an object. -/
inductive ObjectCall where
  /-- `map_deserializer.deserialize_map(visitor)` -/
  | map
  /-- `visitor.visit_…(v.into())` of a boxed primitive -/
  | boxed (s : Scalar)
  /-- `ListDeserializer::new(items.iter(), size)` -/
  | list (items : List Value) (size : Nat)
  | fail (text : Str)

/-- `/repo/src/value/object.rs:86-134`: `let v = …::deserialize(map_deserializer)?; return visitor.visit_…(v.into())`, with
the `Deserialize` of the boxed primitives (`/repo/src/data_type/mod.rs:79-120`), whose types are in the universe of `SerdeText`. -/
def boxedCall [Platform] [FloatLib] [TextLib] (expected : Str) (T : RTy) (visit : Dyn → Option Scalar)
    (members : List (Str × Value)) : ObjectCall :=
  match unboxR expected T (members.map fun m => (m.1, decodeR m.2)) with
  | .ok d => match visit d with | some s => .boxed s | none => .fail (SerdeError.invalidType .unit []).text
  | .error e => .fail e.text

/-- `/repo/src/value/object.rs:137-144`: the members of a generic list. -/
def listOf (members : List (Str × Value)) : Option (List Value × Int) :=
  if members.length = 3 then
    match AMap.get? members (lit "_items"), AMap.get? members (lit "_size"), AMap.get? members (lit "_version") with
    | some (.array items), some (.int32 size), some (.int32 _) => some (items, size)
    | _, _, _ => none
  else none

/-- The visitor method for a decoded boolean, and so on (nothing else is decoded from these types). -/
def ofBool : Dyn → Option Scalar | .bool b => some (.bool b) | _ => none
def ofInt (f : Int → Scalar) : Dyn → Option Scalar | .int n => some (f n) | _ => none
def ofNat (f : Nat → Scalar) : Dyn → Option Scalar | .int n => some (f n.toNat) | _ => none
def ofChar : Dyn → Option Scalar | .char c => some (.char c) | _ => none
def ofF32 : Dyn → Option Scalar | .f32 b => some (.f32 b) | _ => none
def ofF64 : Dyn → Option Scalar | .f64 b => some (.f64 b) | _ => none

/-- `/repo/src/value/object.rs:64-149` `ObjectDeserializer::deserialize_any`. -/
def objectCall [Platform] [FloatLib] [TextLib] (cls : Str) (library : Option Str) (members : List (Str × Value)) : ObjectCall :=
  if library.isSome then .map
  else
    let name := classBase cls
    if name = lit "System.Boolean" then boxedCall (lit "Boolean") .bool ofBool members
    else if name = lit "System.Byte" then boxedCall (lit "Byte") (.int .u8) (ofNat .u8) members
    else if name = lit "System.SByte" then boxedCall (lit "Int8") (.int .i8) (ofInt .i8) members
    else if name = lit "System.Char" then boxedCall (lit "Char") .char ofChar members
    else if name = lit "System.Double" then boxedCall (lit "Double") .f64 ofF64 members
    else if name = lit "System.Single" then boxedCall (lit "Single") .f32 ofF32 members
    else if name = lit "System.Int32" then boxedCall (lit "Int32") (.int .i32) (ofInt .i32) members
    else if name = lit "System.UInt32" then boxedCall (lit "UInt32") (.int .u32) (ofNat .u32) members
    else if name = lit "System.Int64" then boxedCall (lit "Int64") (.int .i64) (ofInt .i64) members
    else if name = lit "System.UInt64" then boxedCall (lit "UInt64") (.int .u64) (ofNat .u64) members
    else if name = lit "System.Int16" then boxedCall (lit "Int16") (.int .i16) (ofInt .i16) members
    else if name = lit "System.UInt16" then boxedCall (lit "UInt16") (.int .u16) (ofNat .u16) members
    else if name = lit "System.Collections.Generic.List" then
      match listOf members with
      | some (items, size) => .list items (asUsize size)
      | none => .fail (lit "invalid system class: " ++ name)
    else .map

/-- `/repo/src/value/mod.rs:107-116` `ArrayDeserializer::end` after the visitor has returned `r`; `rest` elements are left, `count`
were handed out. -/
def arrayEnd {α : Type} [TextLib] (r : Res α) (rest count : Nat) : Res α :=
  match r with
  | .error e => .error e
  | .ok a => if rest = 0 then .ok a else .error (SerdeError.invalidLength (count + rest) (expectedInArray count)).text

/-- `/repo/src/value/object.rs:216-224` `ListDeserializer::end`. -/
def listEnd {α : Type} [TextLib] (r : Res α) (count size : Nat) : Res α :=
  match r with
  | .error e => .error e
  | .ok a => if count = size then .ok a else .error (SerdeError.invalidLength size (expectedInList count)).text

/-- serde, `ExpectedInMap`. -/
def expectedInMap (n : Nat) : Str :=
  if n = 1 then lit "1 element in map" else digits n ++ lit " elements in map"

/-- serde, `MapDeserializer::end`. -/
def mapEnd {α : Type} [TextLib] (r : Res α) (rest count : Nat) : Res α :=
  match r with
  | .error e => .error e
  | .ok a => if rest = 0 then .ok a else .error (SerdeError.invalidLength (count + rest) (expectedInMap count)).text

section
variable {ι α : Type} [Platform] [FloatLib] [TextLib]

mutual

/-- `i::deserialize(ValueDeserializer::new(v))`. -/
inductive Deserialize (impls : ι → Impl ι α) : Value → ι → Res α → Prop
  | ignore {v i r} : impls i = .ignore r → Deserialize impls v i r
  | call {v i m V after r} : impls i = .call m V after → Visit impls v m V r → Deserialize impls v i (conclude after r)

/-- `ValueDeserializer::new(v).deserialize_m(V)`, `/repo/src/value/mod.rs:187-245`. -/
inductive Visit (impls : ι → Impl ι α) : Value → Method → Visitor ι α → Res α → Prop
  -- `deserialize_option`, `/repo/src/value/mod.rs:218-223`
  | none {V} : Visit impls .null .option V (V.scalar .none)
  | some {v V r} : v ≠ .null → VisitSome impls v V.some r → Visit impls v .option V r
  -- `deserialize_struct`, `/repo/src/value/mod.rs:225-238`
  | structObject {c l ms V r} : VisitMap impls .str ms V r → Visit impls (.object c l ms) .struct V r
  | struct {v V r} : (∀ c l ms, v ≠ .object c l ms) → VisitAny impls v V r → Visit impls v .struct V r
  -- `deserialize_any` and `forward_to_deserialize_any!`
  | any {v m V r} : m ≠ .option → m ≠ .struct → VisitAny impls v V r → Visit impls v m V r

/-- `ValueDeserializer::new(v).deserialize_any(V)`, `/repo/src/value/mod.rs:190-216`. -/
inductive VisitAny (impls : ι → Impl ι α) : Value → Visitor ι α → Res α → Prop
  | scalar {v V s} : scalarOf v = .some s → VisitAny impls v V (V.scalar s)
  -- `ArrayDeserializer::deserialize_any`, `/repo/src/value/mod.rs:127-134`
  | array {vs V r rest count} : ArrayRun impls V.seq vs 0 [] r rest count →
      VisitAny impls (.array vs) V (arrayEnd r rest.length count)
  -- `ObjectDeserializer::deserialize_any`
  | object {c l ms V r} : objectCall c l ms = .map → VisitMap impls .borrowedStr ms V r → VisitAny impls (.object c l ms) V r
  | boxed {c l ms V s} : objectCall c l ms = .boxed s → VisitAny impls (.object c l ms) V (V.scalar s)
  | fail {c l ms V e} : objectCall c l ms = .fail e → VisitAny impls (.object c l ms) V (.error e)
  -- `ListDeserializer::deserialize_any`, `/repo/src/value/object.rs:235-242`
  | list {c l ms V vs size r count} : objectCall c l ms = .list vs size → ListRun impls size V.seq vs 0 [] r count →
      VisitAny impls (.object c l ms) V (listEnd r count size)

/-- `visit_some`. -/
inductive VisitSome (impls : ι → Impl ι α) : Value → SomeAction ι α → Res α → Prop
  | deserialize {v i after r} : Deserialize impls v i r → VisitSome impls v (.deserialize i after) (conclude after r)
  | finish {v r} : VisitSome impls v (.finish r) r

/-- `visit_map` with serde's `MapDeserializer` over the members, and `end`. -/
inductive VisitMap (impls : ι → Impl ι α) : (Str → Scalar) → List (Str × Value) → Visitor ι α → Res α → Prop
  | mk {scalar ms V r rest count} : MapRun impls scalar (V.map ms.length) ms .none 0 [] r rest count →
      VisitMap impls scalar ms V (mapEnd r rest.length count)

/-- A visitor running over an `ArrayDeserializer` with the elements `vs` left, `count` handed out and the answers `h` so
far: what it returns, and what is left and was handed out then.  `next_element_seed`: `/repo/src/value/mod.rs:151-162`. -/
inductive ArrayRun (impls : ι → Impl ι α) : (seq : List (Res (Option α)) → SeqAction ι α) →
    List Value → Nat → List (Res (Option α)) → Res α → List Value → Nat → Prop
  | finish {seq vs n h r} : seq h = .finish r → ArrayRun impls seq vs n h r vs n
  | element {seq v vs n h i a r rest count} : seq h = .next i → Deserialize impls v i a →
      ArrayRun impls seq vs (n + 1) (h ++ [a.map .some]) r rest count → ArrayRun impls seq (v :: vs) n h r rest count
  | exhausted {seq n h i r rest count} : seq h = .next i → ArrayRun impls seq [] n (h ++ [.ok .none]) r rest count →
      ArrayRun impls seq [] n h r rest count

/-- The same for a `ListDeserializer`; `n` is its own count.  `next_element_seed`: `/repo/src/value/object.rs:259-270`. -/
inductive ListRun (impls : ι → Impl ι α) : (size : Nat) → (seq : List (Res (Option α)) → SeqAction ι α) →
    List Value → Nat → List (Res (Option α)) → Res α → Nat → Prop
  | finish {size seq vs n h r} : seq h = .finish r → ListRun impls size seq vs n h r n
  | element {size seq v vs n h i a r count} : seq h = .next i → n < size → Deserialize impls v i (.ok a) →
      ListRun impls size seq vs (n + 1) (h ++ [.ok (.some a)]) r count → ListRun impls size seq (v :: vs) n h r count
  -- the error is passed on before `count` is increased
  | error {size seq v vs n h i e r count} : seq h = .next i → n < size → Deserialize impls v i (.error e) →
      ListRun impls size seq vs n (h ++ [.error e]) r count → ListRun impls size seq (v :: vs) n h r count
  | exhausted {size seq n h i r count} : seq h = .next i → n < size →
      ListRun impls size seq [] (n + 1) (h ++ [.ok .none]) r count → ListRun impls size seq [] n h r count
  | full {size seq vs n h i r count} : seq h = .next i → ¬ n < size → ListRun impls size seq vs n (h ++ [.ok .none]) r count →
      ListRun impls size seq vs n h r count

/-- The same for serde's `MapDeserializer`; the `Option Value` is the value whose key was handed out last, unless it was
handed out itself.  Asking for a value without that is a panic in serde ("MapAccess::next_value called before
next_key"), and not covered here. -/
inductive MapRun (impls : ι → Impl ι α) : (scalar : Str → Scalar) → (map : List (Res (Option α)) → MapAction ι α) →
    List (Str × Value) → Option Value → Nat → List (Res (Option α)) → Res α → List (Str × Value) → Nat → Prop
  | finish {scalar map ms p n h r} : map h = .finish r → MapRun impls scalar map ms p n h r ms n
  | key {scalar map k v ms p n h i r rest count} : map h = .key i →
      MapRun impls scalar map ms (.some v) (n + 1) (h ++ [(deserializeKey scalar k (impls i)).map .some]) r rest count →
      MapRun impls scalar map ((k, v) :: ms) p n h r rest count
  | exhausted {scalar map p n h i r rest count} : map h = .key i → MapRun impls scalar map [] p n (h ++ [.ok .none]) r rest count →
      MapRun impls scalar map [] p n h r rest count
  | value {scalar map v ms n h i a r rest count} : map h = .value i → Deserialize impls v i a →
      MapRun impls scalar map ms .none n (h ++ [a.map .some]) r rest count → MapRun impls scalar map ms (.some v) n h r rest count

end

/-- `i::deserialize(message)`, `/repo/src/remoting_message.rs:81-120`.  Options are forwarded to `deserialize_any`. -/
inductive DeserializeMessage (impls : ι → Impl ι α) : RemotingMessage → ι → Res α → Prop
  | ignore {m i r} : impls i = .ignore r → DeserializeMessage impls m i r
  | methodCall {c i m V after} : impls i = .call m V after →
      DeserializeMessage impls (.methodCall c) i (conclude after (.error (SerdeError.invalidType .methodCall V.expecting).text))
  | methodReturn {c i m V after} : impls i = .call m V after →
      DeserializeMessage impls (.methodReturn c) i (conclude after (.error (SerdeError.invalidType .methodReturn V.expecting).text))
  | struct {v i V after r} : impls i = .call .struct V after → Visit impls v .struct V r →
      DeserializeMessage impls (.value v) i (conclude after r)
  | any {v i m V after r} : impls i = .call m V after → m ≠ .struct → VisitAny impls v V r →
      DeserializeMessage impls (.value v) i (conclude after r)

/-- `/repo/src/lib.rs:48-55` `from_slice`. -/
inductive FromSlice (impls : ι → Impl ι α) : Bytes → ι → Res α → Prop
  | ok {w m i r} : deserialize w = .ok m → DeserializeMessage impls m i r → FromSlice impls w i r
  | parsing {w e i} : deserialize w = .err e → FromSlice impls w i (.error (SerdeError.parsing e).text)

end

end Nrbf.Visitors
