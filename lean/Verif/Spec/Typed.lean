import Verif.Spec.Write
import Verif.Spec.Decode

/-! # Rust values of a type, and a way to store them as NRBF values -/

set_option autoImplicit false

namespace Nrbf

open Spec

/-- A Rust value that is stored as null. -/
def IsNullish : Dyn → Prop
  | .unit | .none | .ignored => True
  | _ => False

/-- `d` is a value of the type `T` that NRBF can store: integers of at most 64 bits, Latin-1 characters,
less than 2³¹ elements or members, and `Some(x)` only if `x` is not itself stored as null. -/
inductive HasType : Ty → Dyn → Prop
  | bool (b : Bool) : HasType .bool (.bool b)
  | int {lo hi n : Int} : lo ≤ n → n ≤ hi → -2 ^ 63 ≤ n → n < 2 ^ 64 → HasType (.int lo hi) (.int n)
  | f32 {b : Nat} : b < 2 ^ 32 → HasType .f32 (.f32 b)
  | f64 {b : Nat} : b < 2 ^ 64 → HasType .f64 (.f64 b)
  | char {c : Nat} : c < 256 → HasType .char (.char c)
  | str {s : Str} : StorableString s → HasType .str (.str s)
  | string {s : Str} : StorableString s → HasType .string (.str s)
  | unit : HasType .unit .unit
  | none (T : Ty) : HasType (.option T) .none
  | some {T : Ty} {d : Dyn} : HasType T d → ¬ IsNullish d → HasType (.option T) (.some d)
  | vec {T : Ty} {ds : List Dyn} : ds.length < 2 ^ 31 → (∀ d ∈ ds, HasType T d) → HasType (.vec T) (.seq ds)
  | tuple {Ts : List Ty} {ds : List Dyn} : ds.length < 2 ^ 31 → Ts.length = ds.length →
      (∀ p ∈ Ts.zip ds, HasType p.1 p.2) → HasType (.tuple Ts) (.tuple ds)
  | map {T : Ty} {ds : List (Str × Dyn)} : ds.length < 2 ^ 31 → (ds.map Prod.fst).Nodup →
      (∀ k ∈ ds.map Prod.fst, StorableString k) → (∀ e ∈ ds, HasType T e.2) → HasType (.map T) (.map ds)
  | struct {fs : List (Str × Ty)} {ds : List (Str × Dyn)} : ds.length < 2 ^ 31 → (ds.map Prod.fst).Nodup →
      (∀ k ∈ ds.map Prod.fst, StorableString k) → fs.map Prod.fst = ds.map Prod.fst →
      (∀ p ∈ fs.zip ds, HasType p.1.2 p.2.2) → HasType (.struct fs) (.struct ds)
  | newtype {T : Ty} {d : Dyn} : HasType T d → HasType (.newtype T) (.newtype d)
  | ignored : HasType .ignored .ignored
  | anyBool (b : Bool) : HasType .any (.bool b)
  | anyInt {n : Int} : -2 ^ 63 ≤ n → n < 2 ^ 64 → HasType .any (.int n)
  | anyF32 {b : Nat} : b < 2 ^ 32 → HasType .any (.f32 b)
  | anyF64 {b : Nat} : b < 2 ^ 64 → HasType .any (.f64 b)
  | anyChar {c : Nat} : c < 256 → HasType .any (.char c)
  | anyStr {s : Str} : StorableString s → HasType .any (.str s)
  | anyUnit : HasType .any .unit
  | anySeq {ds : List Dyn} : ds.length < 2 ^ 31 → (∀ d ∈ ds, HasType .any d) → HasType .any (.seq ds)
  | anyMap {ds : List (Str × Dyn)} : ds.length < 2 ^ 31 → (ds.map Prod.fst).Nodup →
      (∀ k ∈ ds.map Prod.fst, StorableString k) → (∀ e ∈ ds, HasType .any e.2) → HasType .any (.map ds)

mutual
/-- A Rust value as an NRBF value.  Maps and structs are objects of the class `cls` of the library `lib`,
sequences, tuples and newtypes are arrays. -/
def store (cls lib : Str) : Dyn → Value
  | .bool b => .boolean b
  | .int n => if n < 2 ^ 63 then .int64 n else .uint64 n.toNat
  | .f32 b => .single b
  | .f64 b => .double b
  | .char c => .char c
  | .str s => .string s
  | .unit | .none | .ignored => .null
  | .some d => store cls lib d
  | .seq ds | .tuple ds => .array (storeAll cls lib ds)
  | .map es | .struct es => .object cls (some lib) (storeEntries cls lib es)
  | .newtype d => .array [store cls lib d]
/-- Elements. -/
def storeAll (cls lib : Str) : List Dyn → List Value
  | [] => []
  | d :: ds => store cls lib d :: storeAll cls lib ds
/-- Members. -/
def storeEntries (cls lib : Str) : List (Str × Dyn) → List (Str × Value)
  | [] => []
  | (k, d) :: es => (k, store cls lib d) :: storeEntries cls lib es
end

end Nrbf
