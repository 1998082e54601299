import Verif.Model.Serde
import Verif.Spec.Encode
import Verif.Spec.Contents
import Verif.Spec.Utf8

/-! # What a value is as a value of a Rust type

A declarative account of the serde layer: `Decodes v T d` says that the NRBF value `v` is read as the value
`d` of the Rust type `T`.  It uses the universe of types (`Ty`, `Dyn`) and nothing else of the model. -/

set_option autoImplicit false

namespace Nrbf

open Spec

/-- The number an integer value stands for.  Time spans and dates are their raw 64-bit integers. -/
def Value.integer? : Value → Option Int
  | .sbyte n | .int16 n | .int32 n | .int64 n | .timeSpan n | .dateTime n => some n
  | .byte n | .uint16 n | .uint32 n | .uint64 n => some (n : Int)
  | _ => none

/-- A class of boxed primitives, the Rust type of the primitive, and a value of it as a Rust value and as an
NRBF value. -/
inductive BoxedPrim : Str → Ty → Dyn → Value → Prop
  | boolean (b : Bool) : BoxedPrim (lit "System.Boolean") .bool (.bool b) (.boolean b)
  | byte (n : Nat) : n < 2 ^ 8 → BoxedPrim (lit "System.Byte") .u8 (.int n) (.byte n)
  | sbyte (n : Int) : InSigned 1 n → BoxedPrim (lit "System.SByte") .i8 (.int n) (.sbyte n)
  | char (c : Nat) : BoxedPrim (lit "System.Char") .char (.char c) (.char c)
  | double (b : Nat) : BoxedPrim (lit "System.Double") .f64 (.f64 b) (.double b)
  | single (b : Nat) : BoxedPrim (lit "System.Single") .f32 (.f32 b) (.single b)
  | int32 (n : Int) : InSigned 4 n → BoxedPrim (lit "System.Int32") .i32 (.int n) (.int32 n)
  | uint32 (n : Nat) : n < 2 ^ 32 → BoxedPrim (lit "System.UInt32") .u32 (.int n) (.uint32 n)
  | int64 (n : Int) : InSigned 8 n → BoxedPrim (lit "System.Int64") .i64 (.int n) (.int64 n)
  | uint64 (n : Nat) : n < 2 ^ 64 → BoxedPrim (lit "System.UInt64") .u64 (.int n) (.uint64 n)
  | int16 (n : Int) : InSigned 2 n → BoxedPrim (lit "System.Int16") .i16 (.int n) (.int16 n)
  | uint16 (n : Nat) : n < 2 ^ 16 → BoxedPrim (lit "System.UInt16") .u16 (.int n) (.uint16 n)

/-- `v` is a `List<T>` with those items and that size: the part of the class name before the first
backtick is `System.Collections.Generic.List`, and it has the three members `_items`, `_size` and
`_version`. -/
def IsList (v : Value) (items : List Value) (size : Int) : Prop :=
  ∃ cls members version, v = .object cls none members ∧
    cls.takeWhile (· ≠ 96) = lit "System.Collections.Generic.List" ∧
    members.length = 3 ∧ (members.map Prod.fst).Nodup ∧
    (lit "_items", Value.array items) ∈ members ∧ (lit "_size", Value.int32 size) ∈ members ∧
    (lit "_version", Value.int32 version) ∈ members

/-- The system classes that are not read as maps. -/
def systemClasses : List Str :=
  [lit "System.Boolean", lit "System.Byte", lit "System.SByte", lit "System.Char", lit "System.Double",
   lit "System.Single", lit "System.Int32", lit "System.UInt32", lit "System.Int64", lit "System.UInt64",
   lit "System.Int16", lit "System.UInt16", lit "System.Collections.Generic.List"]

/-- An object that is read as a map: its class has a library, or is not (an instance of) one of these. -/
def PlainObject (cls : Str) (lib : Option Str) : Prop := lib ≠ none ∨ cls.takeWhile (· ≠ 96) ∉ systemClasses

/-- The elements of a sequence: those of an array, or the first `_size` items of a list.  `slack` is the
number by which `_size` may exceed the number of items. -/
inductive Elements (slack : Nat) : Value → List Value → Prop
  | array (vs : List Value) : Elements slack (.array vs) vs
  | list {v : Value} {items : List Value} {size : Nat} : IsList v items size → size ≤ items.length + slack →
      Elements slack v (items.take size)

/-- What a value without parts is for a type that takes everything as it comes. -/
def Value.asIs [Platform] : Value → Option Dyn
  | .boolean b => some (.bool b)
  | .single b => some (.f32 b)
  | .double b => some (.f64 b)
  | .char c => some (.char c)
  | .string s => some (.str s)
  | .decimal d => some (.str (Platform.decimalToStr d))
  | .null => some .unit
  | v => v.integer?.map .int

/-- Values without parts. -/
def IsLeaf : Value → Prop
  | .object .. | .array _ => False
  | _ => True

mutual
/-- The value `v` is read as `d` at the type `T`. -/
inductive Decodes [Platform] [FloatLib] : Value → Ty → Dyn → Prop
  | bool (b : Bool) : Decodes (.boolean b) .bool (.bool b)
  | int {v : Value} {n lo hi : Int} : v.integer? = some n → lo ≤ n → n ≤ hi → Decodes v (.int lo hi) (.int n)
  | f32 (b : Nat) : Decodes (.single b) .f32 (.f32 b)
  | f32OfDouble (b : Nat) : Decodes (.double b) .f32 (.f32 (FloatLib.f32OfF64 b))
  | f32OfInteger {v : Value} {n : Int} : v.integer? = some n → Decodes v .f32 (.f32 (FloatLib.f32OfInt n))
  | f64 (b : Nat) : Decodes (.double b) .f64 (.f64 b)
  | f64OfSingle (b : Nat) : Decodes (.single b) .f64 (.f64 (FloatLib.f64OfF32 b))
  | f64OfInteger {v : Value} {n : Int} : v.integer? = some n → Decodes v .f64 (.f64 (FloatLib.f64OfInt n))
  | char (c : Nat) : Decodes (.char c) .char (.char c)
  | charOfString (c : Char) : Decodes (.string (String.utf8EncodeChar c)) .char (.char c.toNat)
  | charOfDecimal (d : Dec) (c : Char) : Platform.decimalToStr d = String.utf8EncodeChar c →
      Decodes (.decimal d) .char (.char c.toNat)
  | str (s : Str) : Decodes (.string s) .str (.str s)
  | string (s : Str) : Decodes (.string s) .string (.str s)
  | stringOfDecimal (d : Dec) : Decodes (.decimal d) .string (.str (Platform.decimalToStr d))
  | stringOfChar (c : Nat) : Decodes (.char c) .string (.str (String.utf8EncodeChar (Char.ofNat c)))
  | unit : Decodes .null .unit .unit
  | none (T : Ty) : Decodes .null (.option T) .none
  | some {v : Value} {T : Ty} {d : Dyn} : v ≠ .null → Decodes v T d → Decodes v (.option T) (.some d)
  | vec {v : Value} {vs : List Value} {T : Ty} {ds : List Dyn} : Elements 1 v vs → DecodesAll vs T ds →
      Decodes v (.vec T) (.seq ds)
  | tuple {v : Value} {vs : List Value} {Ts : List Ty} {ds : List Dyn} : Elements 0 v vs → DecodesEach vs Ts ds →
      Decodes v (.tuple Ts) (.tuple ds)
  | newtype {v w : Value} {T : Ty} {d : Dyn} : Elements 0 v [w] → Decodes w T d → Decodes v (.newtype T) (.newtype d)
  | map {cls : Str} {lib : Option Str} {ms : List (Str × Value)} {T : Ty} {ds : List (Str × Dyn)} :
      PlainObject cls lib → EntriesDecode ms T ds → Decodes (.object cls lib ms) (.map T) (.map ds)
  | struct {cls : Str} {lib : Option Str} {ms : List (Str × Value)} {fs : List (Str × Ty)} {ds : List (Str × Dyn)} :
      FieldsDecode ms fs ds → (∀ m ∈ ms, m.1 ∉ fs.map Prod.fst → Decodes m.2 .ignored .ignored) →
      Decodes (.object cls lib ms) (.struct fs) (.struct ds)
  | structOfArray {vs : List Value} {fs : List (Str × Ty)} {ds : List Dyn} : DecodesEach vs (fs.map Prod.snd) ds →
      Decodes (.array vs) (.struct fs) (.struct ((fs.map Prod.fst).zip ds))
  /-- A boxed primitive is read like the primitive. -/
  | boxed {cls name : Str} {w s : Value} {P T : Ty} {x d : Dyn} : cls.takeWhile (· ≠ 96) = name →
      BoxedPrim name P x s → Decodes w P x → (∀ fs, T ≠ .struct fs) → (∀ T', T ≠ .option T') →
      Decodes s T d →
      Decodes (.object cls .none [(lit "m_value", w)]) T d
  | ignoredLeaf {v : Value} : IsLeaf v → Decodes v .ignored .ignored
  | ignoredElements {v : Value} {vs : List Value} {ds : List Dyn} : Elements 1 v vs → DecodesAll vs .ignored ds →
      Decodes v .ignored .ignored
  | ignoredMap {cls : Str} {lib : Option Str} {ms : List (Str × Value)} {ds : List (Str × Dyn)} :
      PlainObject cls lib → EntriesDecode ms .ignored ds → Decodes (.object cls lib ms) .ignored .ignored
  | anyLeaf {v : Value} {d : Dyn} : v.asIs = some d → Decodes v .any d
  | anyElements {v : Value} {vs : List Value} {ds : List Dyn} : Elements 1 v vs → DecodesAll vs .any ds →
      Decodes v .any (.seq ds)
  | anyMap {cls : Str} {lib : Option Str} {ms : List (Str × Value)} {ds : List (Str × Dyn)} :
      PlainObject cls lib → EntriesDecode ms .any ds → Decodes (.object cls lib ms) .any (.map ds)
/-- All values are read at one type. -/
inductive DecodesAll [Platform] [FloatLib] : List Value → Ty → List Dyn → Prop
  | nil (T : Ty) : DecodesAll [] T []
  | cons {v : Value} {vs : List Value} {T : Ty} {d : Dyn} {ds : List Dyn} : Decodes v T d → DecodesAll vs T ds →
      DecodesAll (v :: vs) T (d :: ds)
/-- Every value is read at its type. -/
inductive DecodesEach [Platform] [FloatLib] : List Value → List Ty → List Dyn → Prop
  | nil : DecodesEach [] [] []
  | cons {v : Value} {vs : List Value} {T : Ty} {Ts : List Ty} {d : Dyn} {ds : List Dyn} : Decodes v T d →
      DecodesEach vs Ts ds → DecodesEach (v :: vs) (T :: Ts) (d :: ds)
/-- The members of an object, all read at one type. -/
inductive EntriesDecode [Platform] [FloatLib] : List (Str × Value) → Ty → List (Str × Dyn) → Prop
  | nil (T : Ty) : EntriesDecode [] T []
  | cons {k : Str} {v : Value} {ms : List (Str × Value)} {T : Ty} {d : Dyn} {ds : List (Str × Dyn)} :
      Decodes v T d → EntriesDecode ms T ds → EntriesDecode ((k, v) :: ms) T ((k, d) :: ds)
/-- The fields of a struct: every one has its value from the member of the same name; without such a
member, an option is `None`. -/
inductive FieldsDecode [Platform] [FloatLib] : List (Str × Value) → List (Str × Ty) → List (Str × Dyn) → Prop
  | nil (ms : List (Str × Value)) : FieldsDecode ms [] []
  | found {ms : List (Str × Value)} {k : Str} {v : Value} {T : Ty} {d : Dyn} {fs : List (Str × Ty)}
      {ds : List (Str × Dyn)} : (k, v) ∈ ms → Decodes v T d → FieldsDecode ms fs ds →
      FieldsDecode ms ((k, T) :: fs) ((k, d) :: ds)
  | missing {ms : List (Str × Value)} {k : Str} {T : Ty} {fs : List (Str × Ty)} {ds : List (Str × Dyn)} :
      (∀ m ∈ ms, m.1 ≠ k) → FieldsDecode ms fs ds → FieldsDecode ms ((k, .option T) :: fs) ((k, .none) :: ds)
end

/-- Types whose structs have distinct fields. -/
inductive Ty.Proper : Ty → Prop
  | bool : Proper .bool
  | int (lo hi : Int) : Proper (.int lo hi)
  | f32 : Proper .f32
  | f64 : Proper .f64
  | char : Proper .char
  | str : Proper .str
  | string : Proper .string
  | unit : Proper .unit
  | enum : Proper .enum
  | ignored : Proper .ignored
  | any : Proper .any
  | option {T : Ty} : Proper T → Proper (.option T)
  | vec {T : Ty} : Proper T → Proper (.vec T)
  | newtype {T : Ty} : Proper T → Proper (.newtype T)
  | map {T : Ty} : Proper T → Proper (.map T)
  | tuple {Ts : List Ty} : (∀ T ∈ Ts, Proper T) → Proper (.tuple Ts)
  | struct {fs : List (Str × Ty)} : (fs.map Prod.fst).Nodup → (∀ f ∈ fs, Proper f.2) → Proper (.struct fs)

/-- A value the parser can produce (see C05, C10, C39), in which no generic list has a quarter of `usize::MAX` items. -/
def Sane [Platform] (v : Value) : Prop :=
  ∀ u, SubValue u v → FitsType u ∧ NamesDistinct u ∧ (∀ s, u = .string s → IsUtf8 s) ∧
    (∀ d, u = .decimal d → IsUtf8 (Platform.decimalToStr d)) ∧ 
    ∀ items size, IsList u items size → items.length < 2 ^ (usizeBits - 2)

end Nrbf
