import Verif.Spec.Decode

/-! # Rust values of a type whose text comes from an input -/

set_option autoImplicit false

namespace Nrbf.Spec

/-- A Unicode scalar value, what a Rust `char` holds. -/
def IsScalar (n : Nat) : Prop := n < 0xD800 ∨ (0xDFFF < n ∧ n < 0x110000)

/-- `d` is a value of the Rust type `T`, and all its text was in the input `w`: a borrowed string is a slice of `w`; an
owned one is a copy of a slice, one character, or a printed decimal.  The keys of maps are distinct copies of slices; a
struct has exactly the fields of its type. -/
inductive ReadFrom [Platform] (w : Bytes) : Ty → Dyn → Prop
  | bool (b : Bool) : ReadFrom w .bool (.bool b)
  | int {lo hi n : Int} : lo ≤ n → n ≤ hi → ReadFrom w (.int lo hi) (.int n)
  | f32 (b : Nat) : ReadFrom w .f32 (.f32 b)
  | f64 (b : Nat) : ReadFrom w .f64 (.f64 b)
  | char {c : Nat} : IsScalar c → ReadFrom w .char (.char c)
  | borrowed {s : Str} : s <:+: w → IsUtf8 s → ReadFrom w .str (.str s)
  | owned {s : Str} : s <:+: w → IsUtf8 s → ReadFrom w .string (.str s)
  | ofChar (c : Char) : ReadFrom w .string (.str (String.utf8EncodeChar c))
  | ofDecimal (d : Dec) : ReadFrom w .string (.str (Platform.decimalToStr d))
  | unit : ReadFrom w .unit .unit
  | none (T : Ty) : ReadFrom w (.option T) .none
  | some {T : Ty} {d : Dyn} : ReadFrom w T d → ReadFrom w (.option T) (.some d)
  | vec {T : Ty} {ds : List Dyn} : (∀ d ∈ ds, ReadFrom w T d) → ReadFrom w (.vec T) (.seq ds)
  | tuple {Ts : List Ty} {ds : List Dyn} : Ts.length = ds.length → (∀ p ∈ Ts.zip ds, ReadFrom w p.1 p.2) →
      ReadFrom w (.tuple Ts) (.tuple ds)
  | map {T : Ty} {ds : List (Str × Dyn)} : (ds.map Prod.fst).Nodup →
      (∀ k ∈ ds.map Prod.fst, k <:+: w ∧ IsUtf8 k) → (∀ e ∈ ds, ReadFrom w T e.2) → ReadFrom w (.map T) (.map ds)
  | struct {fs : List (Str × Ty)} {ds : List (Str × Dyn)} : fs.map Prod.fst = ds.map Prod.fst →
      (∀ p ∈ fs.zip ds, ReadFrom w p.1.2 p.2.2) → ReadFrom w (.struct fs) (.struct ds)
  | newtype {T : Ty} {d : Dyn} : ReadFrom w T d → ReadFrom w (.newtype T) (.newtype d)
  | ignored : ReadFrom w .ignored .ignored
  | anyBool (b : Bool) : ReadFrom w .any (.bool b)
  | anyInt {n : Int} : -2 ^ 63 ≤ n → n < 2 ^ 64 → ReadFrom w .any (.int n)
  | anyF32 (b : Nat) : ReadFrom w .any (.f32 b)
  | anyF64 (b : Nat) : ReadFrom w .any (.f64 b)
  | anyChar {c : Nat} : IsScalar c → ReadFrom w .any (.char c)
  | anyStr {s : Str} : s <:+: w → IsUtf8 s → ReadFrom w .any (.str s)
  | anyDecimal (d : Dec) : ReadFrom w .any (.str (Platform.decimalToStr d))
  | anyUnit : ReadFrom w .any .unit
  | anySeq {ds : List Dyn} : (∀ d ∈ ds, ReadFrom w .any d) → ReadFrom w .any (.seq ds)
  | anyMap {ds : List (Str × Dyn)} : (ds.map Prod.fst).Nodup →
      (∀ k ∈ ds.map Prod.fst, k <:+: w ∧ IsUtf8 k) → (∀ e ∈ ds, ReadFrom w .any e.2) → ReadFrom w .any (.map ds)

end Nrbf.Spec
