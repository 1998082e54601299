import Verif.Spec.Texts
import Verif.Spec.Decode

/-! # Translated Rust types and values

For messages that differ in their texts only (`Translation`): the type with its field names translated, and the value with its texts
translated. -/

set_option autoImplicit false

namespace Nrbf.Spec

/-- The member names the serde layer knows. -/
def specialMembers : List Str := [lit "m_value", lit "_items", lit "_size", lit "_version"]

namespace Translation

/-- What a translation has to leave alone.  Texts of one character (which can become a `char`) and no others remain texts of that
character; a class that is (an instance of) a system class the serde layer knows remains one, and no other class becomes one; the
member names the serde layer knows remain; different member names remain different. -/
structure Transparent (τ : Translation) : Prop where
  text : ∀ (s : Str) (c : Char), τ.text s = String.utf8EncodeChar c ↔ s = String.utf8EncodeChar c
  name : ∀ s : Str, (τ.name s).takeWhile (· ≠ 96) = s.takeWhile (· ≠ 96) ∨
    (s.takeWhile (· ≠ 96) ∉ systemClasses ∧ (τ.name s).takeWhile (· ≠ 96) ∉ systemClasses)
  special : ∀ k ∈ specialMembers, τ.member k = k
  member_inj : ∀ a b, τ.member a = τ.member b → a = b

variable (τ : Translation)

mutual
/-- A type with the names of its fields translated. -/
def ty : Ty → Ty
  | .option T => .option (ty T)
  | .vec T => .vec (ty T)
  | .tuple Ts => .tuple (tys Ts)
  | .map T => .map (ty T)
  | .struct fs => .struct (fields fs)
  | .newtype T => .newtype (ty T)
  | .bool => .bool
  | .int lo hi => .int lo hi
  | .f32 => .f32
  | .f64 => .f64
  | .char => .char
  | .str => .str
  | .string => .string
  | .unit => .unit
  | .enum => .enum
  | .ignored => .ignored
  | .any => .any
/-- Likewise for the components of a tuple. -/
def tys : List Ty → List Ty
  | [] => []
  | T :: Ts => ty T :: tys Ts
/-- Likewise for the fields of a struct. -/
def fields : List (Str × Ty) → List (Str × Ty)
  | [] => []
  | (k, T) :: fs => (τ.member k, ty T) :: fields fs
end

mutual
/-- A Rust value with its texts, its keys and the names of its fields translated. -/
def dyn : Dyn → Dyn
  | .str s => .str (τ.text s)
  | .some d => .some (dyn d)
  | .seq ds => .seq (dyns ds)
  | .tuple ds => .tuple (dyns ds)
  | .map ds => .map (entries ds)
  | .struct ds => .struct (entries ds)
  | .newtype d => .newtype (dyn d)
  | .bool b => .bool b
  | .int n => .int n
  | .f32 b => .f32 b
  | .f64 b => .f64 b
  | .char c => .char c
  | .unit => .unit
  | .none => .none
  | .ignored => .ignored
/-- Likewise for the items of a sequence. -/
def dyns : List Dyn → List Dyn
  | [] => []
  | d :: ds => dyn d :: dyns ds
/-- Likewise for the entries of a map and the fields of a struct. -/
def entries : List (Str × Dyn) → List (Str × Dyn)
  | [] => []
  | (k, d) :: ds => (τ.member k, dyn d) :: entries ds
end

end Translation

end Nrbf.Spec
