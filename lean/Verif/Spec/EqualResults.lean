import Verif.Spec.Decode
import Verif.Spec.Equal

/-! # When two Rust values are equal -/

set_option autoImplicit false

namespace Nrbf.Spec

/-- The same bits, or bits that stand for the same number (`f` fraction and `e` exponent bits). -/
def SameNumber (f e a b : Nat) : Prop := a = b ∨ ∃ x, denotes f e a = some x ∧ denotes f e b = some x

/-- Equal Rust values: floats by the number they stand for (or by their bits), maps without order. -/
inductive DynEqual : Dyn → Dyn → Prop
  | bool (b : Bool) : DynEqual (.bool b) (.bool b)
  | int (n : Int) : DynEqual (.int n) (.int n)
  | f32 {a b : Nat} : SameNumber 23 8 a b → DynEqual (.f32 a) (.f32 b)
  | f64 {a b : Nat} : SameNumber 52 11 a b → DynEqual (.f64 a) (.f64 b)
  | char (c : Nat) : DynEqual (.char c) (.char c)
  | str (s : Str) : DynEqual (.str s) (.str s)
  | unit : DynEqual .unit .unit
  | none : DynEqual .none .none
  | some {d d' : Dyn} : DynEqual d d' → DynEqual (.some d) (.some d')
  | newtype {d d' : Dyn} : DynEqual d d' → DynEqual (.newtype d) (.newtype d')
  | seq {ds ds' : List Dyn} : ds.length = ds'.length → (∀ p ∈ ds.zip ds', DynEqual p.1 p.2) →
      DynEqual (.seq ds) (.seq ds')
  | tuple {ds ds' : List Dyn} : ds.length = ds'.length → (∀ p ∈ ds.zip ds', DynEqual p.1 p.2) →
      DynEqual (.tuple ds) (.tuple ds')
  | map {ds ds' : List (Str × Dyn)} : (∀ k, k ∈ ds.map Prod.fst ↔ k ∈ ds'.map Prod.fst) →
      (∀ k d d', (k, d) ∈ ds → (k, d') ∈ ds' → DynEqual d d') → DynEqual (.map ds) (.map ds')
  | struct {ds ds' : List (Str × Dyn)} : ds.map Prod.fst = ds'.map Prod.fst →
      (∀ p ∈ ds.zip ds', DynEqual p.1.2 p.2.2) → DynEqual (.struct ds) (.struct ds')
  | ignored : DynEqual .ignored .ignored

/-- Casts between `f32` and `f64` take equal numbers to equal numbers. -/
def CastsRespectEquality [FloatLib] : Prop :=
  (∀ a b, SameNumber 52 11 a b → SameNumber 23 8 (FloatLib.f32OfF64 a) (FloatLib.f32OfF64 b)) ∧
  (∀ a b, SameNumber 23 8 a b → SameNumber 52 11 (FloatLib.f64OfF32 a) (FloatLib.f64OfF32 b))

end Nrbf.Spec
