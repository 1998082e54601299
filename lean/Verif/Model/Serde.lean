import Verif.Model.ValueEq

/-! # The serde layer (`/repo/src/value/mod.rs:67-245`, `/repo/src/value/object.rs:29-271`,
`/repo/src/data_type/mod.rs:62-123`, `/repo/src/remoting_message.rs:81-120`, `/repo/src/lib.rs:47-55`)

In serde a `Deserialize` type calls one method `deserialize_…` of a `Deserializer` and hands over a
`Visitor`; the deserializer answers by calling one method `visit_…` of the visitor.  Here

* `VCall` is the visitor method a deserializer calls, with its arguments;
* `Deser` is a deserializer: the answer to `deserialize_any`, to `deserialize_option` and to
  `deserialize_struct`.  All other methods are forwarded to `deserialize_any` by
  `forward_to_deserialize_any!`;
* `Ty` is a universe of `Deserialize` types, and `accept` is what their visitors do.  This part models
  serde (external, version 1.0.197 and later), not the crate: the standard library types and the
  types that `#[derive(Deserialize)]` produces without attributes.

Texts of error messages are not modelled here: `SerdeText` is the same code with them, and C64 relates the
two. -/

set_option autoImplicit false

namespace Nrbf

/-- The bytes of an ASCII string literal. -/
def lit (s : String) : Str := s.toList.map fun c => UInt8.ofNat c.toNat

/-- `de::value::Error`, without its text, except for what `from_slice` itself reports. -/
inductive DeError where
  /-- `"parsing error: …"`, `/repo/src/lib.rs:53`. -/
  | parsing (e : Error)
  /-- `/repo/src/remoting_message.rs:85`. -/
  | methodCall
  /-- `/repo/src/remoting_message.rs:86`. -/
  | methodReturn
  /-- Any other error of a deserializer or visitor. -/
  | serde
  /-- Not an error: the model ran out of fuel (proved impossible). -/
  | hang
  deriving Repr, DecidableEq

abbrev DeResult := Except DeError

/-- Conversions between numbers that the standard library does (`as`).  Nothing is assumed about
them. -/
class FloatLib where
  f32OfF64 : Nat → Nat
  f64OfF32 : Nat → Nat
  f32OfInt : Int → Nat
  f64OfInt : Int → Nat

/-- The visitor method that is called.  Elements and entries are of type `ρ`, errors of type `ε`. -/
inductive VCall (ρ : Type) (ε : Type := DeError) where
  | visitBool (b : Bool)
  /-- `visit_i8` to `visit_u64`. -/
  | visitInt (n : Int)
  | visitF32 (bits : Nat)
  | visitF64 (bits : Nat)
  | visitChar (codePoint : Nat)
  | visitString (s : Str)
  | visitBorrowedStr (s : Str)
  | visitUnit
  | visitNone
  /-- `visit_some` with the deserializer itself. -/
  | visitSome
  /-- `visit_seq` with an `ArrayDeserializer` over these elements, and `end` afterwards. -/
  | visitArray (elements : List ρ)
  /-- `visit_seq` with a `ListDeserializer` of that size, and `end` afterwards. -/
  | visitList (elements : List ρ) (size : Nat)
  /-- `visit_map` with a `MapDeserializer` over these entries, and `end` afterwards. -/
  | visitMap (entries : List (Str × ρ))
  /-- No visitor method: the deserializer returns an error. -/
  | fail (e : ε)

/-- A deserializer.  The elements of sequences and maps are of type `ρ`. -/
structure Deser (ρ : Type) (ε : Type := DeError) where
  any : VCall ρ ε
  option : VCall ρ ε
  struct : VCall ρ ε

/-! ## `Deserialize` types -/

/-- A universe of `Deserialize` types. -/
inductive Ty where
  | bool
  /-- `i8`, …, `i128`, `u8`, …, `u128`, by their range. -/
  | int (min max : Int)
  | f32
  | f64
  | char
  /-- `&'de str` -/
  | str
  | string
  | unit
  | option (t : Ty)
  /-- `Vec<T>` -/
  | vec (t : Ty)
  /-- Tuples and, with `n` equal types, `[T; n]`. -/
  | tuple (ts : List Ty)
  /-- `HashMap<String, T>` -/
  | map (t : Ty)
  /-- `#[derive(Deserialize)] struct` with named fields. -/
  | struct (fields : List (Str × Ty))
  /-- `#[derive(Deserialize)] struct N(T);` -/
  | newtype (t : Ty)
  /-- `#[derive(Deserialize)] enum` -/
  | enum
  /-- `IgnoredAny` -/
  | ignored
  /-- A self-describing type, which asks for `deserialize_any` and keeps whatever comes (as serde's buffer `Content`
  for untagged enums and flattened structs does). -/
  | any

def Ty.i8 : Ty := .int (-2 ^ 7) (2 ^ 7 - 1)
def Ty.i16 : Ty := .int (-2 ^ 15) (2 ^ 15 - 1)
def Ty.i32 : Ty := .int (-2 ^ 31) (2 ^ 31 - 1)
def Ty.i64 : Ty := .int (-2 ^ 63) (2 ^ 63 - 1)
def Ty.u8 : Ty := .int 0 (2 ^ 8 - 1)
def Ty.u16 : Ty := .int 0 (2 ^ 16 - 1)
def Ty.u32 : Ty := .int 0 (2 ^ 32 - 1)
def Ty.u64 : Ty := .int 0 (2 ^ 64 - 1)

/-- A value of a `Ty`. -/
inductive Dyn where
  | bool (b : Bool)
  | int (n : Int)
  | f32 (bits : Nat)
  | f64 (bits : Nat)
  | char (codePoint : Nat)
  | str (s : Str)
  | unit
  | none
  | some (d : Dyn)
  | seq (ds : List Dyn)
  | tuple (ds : List Dyn)
  | map (ds : List (Str × Dyn))
  | struct (ds : List (Str × Dyn))
  | newtype (d : Dyn)
  | ignored
  deriving Repr

mutual
/-- Structural equality test (for tests; floats by bit pattern). -/
def Dyn.beq : Dyn → Dyn → Bool
  | .bool a, .bool b => a == b
  | .int a, .int b => a == b
  | .f32 a, .f32 b => a == b
  | .f64 a, .f64 b => a == b
  | .char a, .char b => a == b
  | .str a, .str b => a == b
  | .unit, .unit => true
  | .none, .none => true
  | .some a, .some b => Dyn.beq a b
  | .seq a, .seq b => Dyn.beqL a b
  | .tuple a, .tuple b => Dyn.beqL a b
  | .map a, .map b => Dyn.beqM a b
  | .struct a, .struct b => Dyn.beqM a b
  | .newtype a, .newtype b => Dyn.beq a b
  | .ignored, .ignored => true
  | _, _ => false
/-- Structural equality test on lists. -/
def Dyn.beqL : List Dyn → List Dyn → Bool
  | [], [] => true
  | v :: vs, v' :: vs' => Dyn.beq v v' && Dyn.beqL vs vs'
  | _, _ => false
/-- Structural equality test on entries. -/
def Dyn.beqM : List (Str × Dyn) → List (Str × Dyn) → Bool
  | [], [] => true
  | (n, v) :: ms, (n', v') :: ms' => n == n' && (Dyn.beq v v' && Dyn.beqM ms ms')
  | _, _ => false
end

mutual
theorem Dyn.beq_iff : ∀ a b : Dyn, Dyn.beq a b = true ↔ a = b
  | .bool _, b => by cases b <;> simp [Dyn.beq]
  | .int _, b => by cases b <;> simp [Dyn.beq]
  | .f32 _, b => by cases b <;> simp [Dyn.beq]
  | .f64 _, b => by cases b <;> simp [Dyn.beq]
  | .char _, b => by cases b <;> simp [Dyn.beq]
  | .str _, b => by cases b <;> simp [Dyn.beq]
  | .unit, b => by cases b <;> simp [Dyn.beq]
  | .none, b => by cases b <;> simp [Dyn.beq]
  | .some a, b => by cases b <;> simp [Dyn.beq, Dyn.beq_iff a]
  | .seq a, b => by cases b <;> simp [Dyn.beq, Dyn.beqL_iff a]
  | .tuple a, b => by cases b <;> simp [Dyn.beq, Dyn.beqL_iff a]
  | .map a, b => by cases b <;> simp [Dyn.beq, Dyn.beqM_iff a]
  | .struct a, b => by cases b <;> simp [Dyn.beq, Dyn.beqM_iff a]
  | .newtype a, b => by cases b <;> simp [Dyn.beq, Dyn.beq_iff a]
  | .ignored, b => by cases b <;> simp [Dyn.beq]
theorem Dyn.beqL_iff : ∀ a b : List Dyn, Dyn.beqL a b = true ↔ a = b
  | [], b => by cases b <;> simp [Dyn.beqL]
  | v :: vs, b => by cases b <;> simp [Dyn.beqL, Dyn.beq_iff v, Dyn.beqL_iff vs]
theorem Dyn.beqM_iff : ∀ a b : List (Str × Dyn), Dyn.beqM a b = true ↔ a = b
  | [], b => by cases b <;> simp [Dyn.beqM]
  | (n, v) :: vs, b => by
    cases b with
    | nil => simp [Dyn.beqM]
    | cons h t =>
      obtain ⟨n', v'⟩ := h
      simp [Dyn.beqM, Dyn.beq_iff v, Dyn.beqM_iff vs, and_assoc]
end

instance : DecidableEq Dyn := fun a b => decidable_of_iff _ (Dyn.beq_iff a b)

/-- Equality of results is decidable (for tests). -/
instance : DecidableEq (DeResult Dyn)
  | .ok a, .ok b => decidable_of_iff (a = b) (by simp)
  | .error a, .error b => decidable_of_iff (a = b) (by simp)
  | .ok _, .error _ => isFalse (by simp)
  | .error _, .ok _ => isFalse (by simp)

/-- An element of a sequence or map: `seed.deserialize(…)` as a function of the type. -/
abbrev Child := Ty → DeResult Dyn

/-- `next_element` of a `SeqAccess` in state `σ`. -/
abbrev Next (σ : Type) := σ → Ty → DeResult (Option Dyn × σ)

/-- `/repo/src/value/mod.rs:151-162` `ArrayDeserializer::next_element_seed`.  The state is the rest of the
iterator; `count` is only used for the text of errors. -/
def arrayNext : Next (List Child)
  | [], _ => .ok (none, [])
  | c :: cs, T =>
    match c T with
    | .ok d => .ok (some d, cs)
    | .error e => .error e

/-- `/repo/src/value/mod.rs:107-116` `ArrayDeserializer::end`. -/
def arrayEnd (cs : List Child) : DeResult Unit := if cs.length = 0 then .ok () else .error .serde

/-- The state of a `ListDeserializer`, `/repo/src/value/object.rs:192-196`. -/
structure ListAccess where
  rest : List Child
  count : Nat
  size : Nat

/-- `/repo/src/value/object.rs:259-270` `ListDeserializer::next_element_seed`. -/
def listNext : Next ListAccess := fun a T =>
  if a.count < a.size then
    match arrayNext a.rest T with
    | .ok (d, rest) => .ok (d, { a with rest := rest, count := a.count + 1 })
    | .error e => .error e
  else .ok (none, a)

/-- `/repo/src/value/object.rs:216-224` `ListDeserializer::end`. -/
def listEnd (a : ListAccess) : DeResult Unit := if a.count = a.size then .ok () else .error .serde

/-- serde, `Vec<T>`: `while let Some(value) = seq.next_element()? { … }`. -/
def readAll {σ : Type} (next : Next σ) (T : Ty) : (fuel : Nat) → σ → DeResult (List Dyn × σ)
  | 0, _ => .error .hang
  | fuel + 1, s =>
    match next s T with
    | .ok (some d, s) =>
      match readAll next T fuel s with
      | .ok (ds, s) => .ok (d :: ds, s)
      | .error e => .error e
    | .ok (none, s) => .ok ([], s)
    | .error e => .error e

/-- serde, arrays, tuples and structs: one `next_element` per field, and an error if there is none. -/
def readEach {σ : Type} (next : Next σ) : List Ty → σ → DeResult (List Dyn × σ)
  | [], s => .ok ([], s)
  | T :: Ts, s =>
    match next s T with
    | .ok (some d, s) =>
      match readEach next Ts s with
      | .ok (ds, s) => .ok (d :: ds, s)
      | .error e => .error e
    | .ok (none, _) => .error .serde
    | .error e => .error e

/-- What a visitor does with a sequence: read all elements, or one per type. -/
inductive SeqPlan where
  | all (T : Ty)
  | each (Ts : List Ty)

/-- A visitor running over a sequence. -/
def SeqPlan.run {σ : Type} (next : Next σ) (fuel : Nat) : SeqPlan → σ → DeResult (List Dyn × σ)
  | .all T => readAll next T fuel
  | .each Ts => readEach next Ts

/-- `/repo/src/value/mod.rs:127-134` `ArrayDeserializer::deserialize_any`. -/
def visitArraySeq (plan : SeqPlan) (cs : List Child) : DeResult (List Dyn) :=
  match plan.run arrayNext (cs.length + 1) cs with
  | .ok (ds, rest) =>
    match arrayEnd rest with
    | .ok () => .ok ds
    | .error e => .error e
  | .error e => .error e

/-- `/repo/src/value/object.rs:235-242` `ListDeserializer::deserialize_any`. -/
def visitListSeq (plan : SeqPlan) (cs : List Child) (size : Nat) : DeResult (List Dyn) :=
  match plan.run listNext (cs.length + 1) ⟨cs, 0, size⟩ with
  | .ok (ds, a) =>
    match listEnd a with
    | .ok () => .ok ds
    | .error e => .error e
  | .error e => .error e

/-- serde, `HashMap<String, T>`: every entry (the keys of the members are distinct). -/
def readMap (T : Ty) : List (Str × Child) → DeResult (List (Str × Dyn))
  | [] => .ok []
  | (k, c) :: es =>
    match c T with
    | .ok d =>
      match readMap T es with
      | .ok ds => .ok ((k, d) :: ds)
      | .error e => .error e
    | .error e => .error e

/-- The type of a field. -/
def fieldType (fields : List (Str × Ty)) (k : Str) : Option Ty := (fields.find? fun f => f.1 = k).map Prod.snd

/-- serde derive, `visit_map`: the entries one after the other; an unknown one is read as `IgnoredAny`,
a repeated one is an error.  The result are the fields that have a value. -/
def readFields (fields : List (Str × Ty)) : List (Str × Child) → List (Str × Dyn) → DeResult (List (Str × Dyn))
  | [], acc => .ok acc
  | (k, c) :: es, acc =>
    match fieldType fields k with
    | some T =>
      if acc.any fun e => e.1 = k then .error .serde
      else
        match c T with
        | .ok d => readFields fields es (acc ++ [(k, d)])
        | .error e => .error e
    | none =>
      match c .ignored with
      | .ok _ => readFields fields es acc
      | .error e => .error e

/-- serde derive: the fields in their order; a missing one is `None` if it is an option and otherwise
an error. -/
def finishFields (found : List (Str × Dyn)) : List (Str × Ty) → DeResult (List (Str × Dyn))
  | [] => .ok []
  | (k, T) :: fs =>
    match found.find? (fun e => e.1 = k) with
    | some (_, d) =>
      match finishFields found fs with
      | .ok ds => .ok ((k, d) :: ds)
      | .error e => .error e
    | none =>
      match T with
      | .option _ =>
        match finishFields found fs with
        | .ok ds => .ok ((k, .none) :: ds)
        | .error e => .error e
      | _ => .error .serde

/-- serde derive, a struct with named fields from a map. -/
def visitFields (fields : List (Str × Ty)) (entries : List (Str × Child)) : DeResult (List (Str × Dyn)) :=
  match readFields fields entries [] with
  | .ok found => finishFields found fields
  | .error e => .error e

/-- `char` from a string (serde): the code point, if the string is a single character.  The string is
valid UTF-8. -/
def singleChar : Str → Option Nat
  | [b0] => if b0.toNat < 0x80 then some b0.toNat else none
  | [b0, b1] =>
    if 0xC0 ≤ b0.toNat ∧ b0.toNat < 0xE0 then some (b0.toNat % 32 * 64 + b1.toNat % 64) else none
  | [b0, b1, b2] =>
    if 0xE0 ≤ b0.toNat ∧ b0.toNat < 0xF0 then
      some (b0.toNat % 16 * 4096 + b1.toNat % 64 * 64 + b2.toNat % 64) else none
  | [b0, b1, b2, b3] =>
    if 0xF0 ≤ b0.toNat then
      some (b0.toNat % 8 * 262144 + b1.toNat % 64 * 4096 + b2.toNat % 64 * 64 + b3.toNat % 64) else none
  | _ => none

/-- A string as a `char`. -/
def charOfStr (s : Str) : DeResult Dyn :=
  match singleChar s with
  | some c => .ok (.char c)
  | none => .error .serde

/-- A newtype struct from its only element. -/
def newtypeOf : List Dyn → Dyn
  | d :: _ => .newtype d
  | [] => .newtype .unit

/-- The visitors: what the type makes of the visitor method that was called.  Options are not among
them, see `Deser.run`.  Methods that a visitor does not have are errors. -/
def accept [FloatLib] : Ty → VCall Child → DeResult Dyn
  | _, .fail e => .error e
  | .bool, .visitBool b => .ok (.bool b)
  | .int min max, .visitInt n => if min ≤ n ∧ n ≤ max then .ok (.int n) else .error .serde
  | .f32, .visitF32 b => .ok (.f32 b)
  | .f32, .visitF64 b => .ok (.f32 (FloatLib.f32OfF64 b))
  | .f32, .visitInt n => .ok (.f32 (FloatLib.f32OfInt n))
  | .f64, .visitF64 b => .ok (.f64 b)
  | .f64, .visitF32 b => .ok (.f64 (FloatLib.f64OfF32 b))
  | .f64, .visitInt n => .ok (.f64 (FloatLib.f64OfInt n))
  | .char, .visitChar c => .ok (.char c)
  | .char, .visitString s => charOfStr s
  | .char, .visitBorrowedStr s => charOfStr s
  | .str, .visitBorrowedStr s => .ok (.str s)
  | .string, .visitBorrowedStr s => .ok (.str s)
  | .string, .visitString s => .ok (.str s)
  | .string, .visitChar c => .ok (.str (String.utf8EncodeChar (Char.ofNat c)))
  | .unit, .visitUnit => .ok .unit
  | .vec T, .visitArray cs => (visitArraySeq (.all T) cs).map .seq
  | .vec T, .visitList cs n => (visitListSeq (.all T) cs n).map .seq
  | .tuple Ts, .visitArray cs => (visitArraySeq (.each Ts) cs).map .tuple
  | .tuple Ts, .visitList cs n => (visitListSeq (.each Ts) cs n).map .tuple
  | .map T, .visitMap es => (readMap T es).map .map
  | .struct fs, .visitMap es => (visitFields fs es).map .struct
  | .struct fs, .visitArray cs => (visitArraySeq (.each (fs.map Prod.snd)) cs).map fun ds => .struct ((fs.map Prod.fst).zip ds)
  | .struct fs, .visitList cs n => (visitListSeq (.each (fs.map Prod.snd)) cs n).map fun ds => .struct ((fs.map Prod.fst).zip ds)
  | .newtype T, .visitArray cs => (visitArraySeq (.each [T]) cs).map newtypeOf
  | .newtype T, .visitList cs n => (visitListSeq (.each [T]) cs n).map newtypeOf
  | .ignored, .visitArray cs => (visitArraySeq (.all .ignored) cs).map fun _ => .ignored
  | .ignored, .visitList cs n => (visitListSeq (.all .ignored) cs n).map fun _ => .ignored
  | .ignored, .visitMap es => (readMap .ignored es).map fun _ => .ignored
  | .ignored, _ => .ok .ignored
  | .any, .visitBool b => .ok (.bool b)
  | .any, .visitInt n => .ok (.int n)
  | .any, .visitF32 b => .ok (.f32 b)
  | .any, .visitF64 b => .ok (.f64 b)
  | .any, .visitChar c => .ok (.char c)
  | .any, .visitString s => .ok (.str s)
  | .any, .visitBorrowedStr s => .ok (.str s)
  | .any, .visitUnit => .ok .unit
  | .any, .visitNone => .ok .none
  | .any, .visitArray cs => (visitArraySeq (.all .any) cs).map .seq
  | .any, .visitList cs n => (visitListSeq (.all .any) cs n).map .seq
  | .any, .visitMap es => (readMap .any es).map .map
  | _, _ => .error .serde

/-- `T::deserialize(deserializer)`. -/
def Deser.run [FloatLib] (d : Deser Child) : Ty → DeResult Dyn
  | .option T =>
    match d.option with
    | .fail e => .error e
    | .visitUnit | .visitNone => .ok .none
    | .visitSome => (d.run T).map .some
    | _ => .error .serde
  | .struct fs => accept (.struct fs) d.struct
  | T => accept T d.any

/-! ## The deserializers of the crate -/

/-- `/repo/src/value/mod.rs:218-223` `ValueDeserializer::deserialize_option` of a value that is not null,
and `/repo/src/value/mod.rs:225-238` `deserialize_struct` of a value that is not an object. -/
def plainDeser {ρ ε : Type} (any : VCall ρ ε) : Deser ρ ε := ⟨any, .visitSome, any⟩

/-- The deserializer of a value, and the elements of an array. -/
structure Node where
  value : Value
  deser : Child
  items : List Child

/-- `/repo/src/data_type/mod.rs:102-115`: `visit_map` of a boxed primitive, called by `MapDeserializer`
(which has all entries consumed afterwards).  `T` is the type of the primitive. -/
def unbox (T : Ty) (entries : List (Str × Child)) : DeResult Dyn :=
  if entries.length = 1 then
    match entries with
    | [(k, c)] =>
      match c T with
      | .ok d => if k = lit "m_value" then .ok d else .error .serde
      | .error e => .error e
    | _ => .error .serde
  else .error .serde

/-- `let v = …::deserialize(map_deserializer)?; return visitor.visit_…(v.into())`. -/
def unboxed (T : Ty) (visit : Dyn → VCall Child) (entries : List (Str × Child)) : VCall Child :=
  match unbox T entries with
  | .ok d => visit d
  | .error e => .fail e

/-- `visit_i8` to `visit_u64` of a decoded integer. -/
def visitInt (d : Dyn) : VCall Child := match d with | .int n => .visitInt n | _ => .fail .serde
/-- `visit_bool` of a decoded boolean. -/
def visitBool (d : Dyn) : VCall Child := match d with | .bool b => .visitBool b | _ => .fail .serde
/-- `visit_char` of a decoded character. -/
def visitChar (d : Dyn) : VCall Child := match d with | .char c => .visitChar c | _ => .fail .serde
/-- `visit_f32` of a decoded float. -/
def visitF32 (d : Dyn) : VCall Child := match d with | .f32 b => .visitF32 b | _ => .fail .serde
/-- `visit_f64` of a decoded float. -/
def visitF64 (d : Dyn) : VCall Child := match d with | .f64 b => .visitF64 b | _ => .fail .serde

/-- `class.split_once('`').map(|(s, _)| s).unwrap_or(*class)`. -/
def classBase (cls : Str) : Str := cls.takeWhile (· ≠ 96)

/-- `(*size) as usize` for an `i32`. -/
def asUsize [Platform] (n : Int) : Nat := (n % 2 ^ usizeBits).toNat

/-- `/repo/src/value/object.rs:137-144`: the members of a generic list. -/
def listMembers (members : List (Str × Node)) : Option (List Child × Int) :=
  if members.length = 3 then
    match AMap.get? members (lit "_items"), AMap.get? members (lit "_size"), AMap.get? members (lit "_version") with
    | some ⟨.array _, _, items⟩, some ⟨.int32 size, _, _⟩, some ⟨.int32 _, _, _⟩ => some (items, size)
    | _, _, _ => none
  else none

/-- `/repo/src/value/object.rs:64-149` `ObjectDeserializer::deserialize_any`.  The order of `members` is
the order in which the hash map enumerates them. -/
def objectAny [Platform] (cls : Str) (library : Option Str) (members : List (Str × Node)) : VCall Child :=
  let entries := members.map fun m => (m.1, m.2.deser)
  if library.isSome then .visitMap entries
  else
    let name := classBase cls
    if name = lit "System.Boolean" then unboxed .bool visitBool entries
    else if name = lit "System.Byte" then unboxed .u8 visitInt entries
    else if name = lit "System.SByte" then unboxed .i8 visitInt entries
    else if name = lit "System.Char" then unboxed .char visitChar entries
    else if name = lit "System.Double" then unboxed .f64 visitF64 entries
    else if name = lit "System.Single" then unboxed .f32 visitF32 entries
    else if name = lit "System.Int32" then unboxed .i32 visitInt entries
    else if name = lit "System.UInt32" then unboxed .u32 visitInt entries
    else if name = lit "System.Int64" then unboxed .i64 visitInt entries
    else if name = lit "System.UInt64" then unboxed .u64 visitInt entries
    else if name = lit "System.Int16" then unboxed .i16 visitInt entries
    else if name = lit "System.UInt16" then unboxed .u16 visitInt entries
    else if name = lit "System.Collections.Generic.List" then
      match listMembers members with
      | some (items, size) => .visitList items (asUsize size)
      | none => .fail .serde
    else .visitMap entries

/-- `ObjectDeserializer` inside a `ValueDeserializer`: `/repo/src/value/object.rs:151-166`
`deserialize_struct` always visits a map. -/
def objectDeser [Platform] (cls : Str) (library : Option Str) (members : List (Str × Node)) : Deser Child :=
  ⟨objectAny cls library members, .visitSome, .visitMap (members.map fun m => (m.1, m.2.deser))⟩

mutual
/-- `/repo/src/value/mod.rs:187-245` `ValueDeserializer`. -/
def valueDeser [Platform] [FloatLib] : Value → Deser Child
  | .object cls library members => objectDeser cls library (memberNodes members)
  | .array items => plainDeser (.visitArray (itemDesers items))
  | .boolean b => plainDeser (.visitBool b)
  | .sbyte n => plainDeser (.visitInt n)
  | .int16 n => plainDeser (.visitInt n)
  | .int32 n => plainDeser (.visitInt n)
  | .int64 n => plainDeser (.visitInt n)
  | .byte n => plainDeser (.visitInt n)
  | .uint16 n => plainDeser (.visitInt n)
  | .uint32 n => plainDeser (.visitInt n)
  | .uint64 n => plainDeser (.visitInt n)
  | .single b => plainDeser (.visitF32 b)
  | .double b => plainDeser (.visitF64 b)
  | .char c => plainDeser (.visitChar c)
  | .decimal d => plainDeser (.visitString (Platform.decimalToStr d))
  | .timeSpan n => plainDeser (.visitInt n)
  | .dateTime n => plainDeser (.visitInt n)
  | .string s => plainDeser (.visitBorrowedStr s)
  | .null => ⟨.visitUnit, .visitNone, .visitUnit⟩
/-- The deserializers of the elements of an array. -/
def itemDesers [Platform] [FloatLib] : List Value → List Child
  | [] => []
  | v :: vs => (valueDeser v).run :: itemDesers vs
/-- The members of an object. -/
def memberNodes [Platform] [FloatLib] : List (Str × Value) → List (Str × Node)
  | [] => []
  | (k, v) :: ms => (k, ⟨v, (valueDeser v).run, itemsOf v⟩) :: memberNodes ms
/-- The elements, if the value is an array. -/
def itemsOf [Platform] [FloatLib] : Value → List Child
  | .array items => itemDesers items
  | _ => []
end

/-- `T::deserialize(ValueDeserializer::new(value))`. -/
def decode [Platform] [FloatLib] (v : Value) (T : Ty) : DeResult Dyn := (valueDeser v).run T

/-- `/repo/src/remoting_message.rs:93-120`: `RemotingMessage` as a deserializer.  Options are forwarded
to `deserialize_any`. -/
def messageDeser [Platform] [FloatLib] : RemotingMessage → Deser Child
  | .methodCall _ => ⟨.fail .methodCall, .fail .methodCall, .fail .methodCall⟩
  | .methodReturn _ => ⟨.fail .methodReturn, .fail .methodReturn, .fail .methodReturn⟩
  | .value v => ⟨(valueDeser v).any, (valueDeser v).any, (valueDeser v).struct⟩

/-- What a call of `from_slice` does. -/
inductive SliceResult where
  | ok (d : Dyn)
  | err (e : DeError)
  | panic
  | hang
  deriving DecidableEq

/-- `/repo/src/lib.rs:48-55` `from_slice`. -/
def fromSlice [Platform] [FloatLib] (T : Ty) (bytes : Bytes) : SliceResult :=
  match deserialize bytes with
  | .ok m =>
    match (messageDeser m).run T with
    | .ok d => .ok d
    | .error .hang => .hang
    | .error e => .err e
  | .err e => .err (.parsing e)
  | .panic => .panic
  | .hang => .hang

end Nrbf
