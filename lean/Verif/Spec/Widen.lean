import Verif.Spec.Decode

/-! # Wider types -/

set_option autoImplicit false

namespace Nrbf.Spec

/-- Types without a value for null. -/
def NonNull : Ty → Prop
  | .unit | .option _ | .ignored | .any => False
  | _ => True

mutual
/-- The second type takes everything the first one takes. -/
inductive Wider : Ty → Ty → Prop
  | same {T U : Ty} : Convertible T U → Wider T U
  /-- `T` becomes `Option<T>`. -/
  | optional {T U : Ty} : NonNull T → Convertible T U → Wider T (.option U)
/-- As `Wider`, without the step to an option. -/
inductive Convertible : Ty → Ty → Prop
  | refl (T : Ty) : Convertible T T
  /-- An integer type with a greater range. -/
  | int {lo hi lo' hi' : Int} : lo' ≤ lo → hi ≤ hi' → Convertible (.int lo hi) (.int lo' hi')
  | intToF32 {lo hi : Int} : Convertible (.int lo hi) .f32
  | intToF64 {lo hi : Int} : Convertible (.int lo hi) .f64
  | f32ToF64 : Convertible .f32 .f64
  | f64ToF32 : Convertible .f64 .f32
  | strToString : Convertible .str .string
  | charToString : Convertible .char .string
  | option {T U : Ty} : Wider T U → Convertible (.option T) (.option U)
  | vec {T U : Ty} : Wider T U → Convertible (.vec T) (.vec U)
  | map {T U : Ty} : Wider T U → Convertible (.map T) (.map U)
  | newtype {T U : Ty} : Wider T U → Convertible (.newtype T) (.newtype U)
  | newtypeToTuple {T U : Ty} : Wider T U → Convertible (.newtype T) (.tuple [U])
  | newtypeToVec {T U : Ty} : Wider T U → Convertible (.newtype T) (.vec U)
  | tuple {Ts Us : List Ty} : Ts.length = Us.length → (∀ p ∈ Ts.zip Us, Wider p.1 p.2) → Convertible (.tuple Ts) (.tuple Us)
  | tupleToVec {Ts : List Ty} {U : Ty} : (∀ T ∈ Ts, Wider T U) → Convertible (.tuple Ts) (.vec U)
  | struct {fs gs : List (Str × Ty)} : fs.map Prod.fst = gs.map Prod.fst → (∀ p ∈ fs.zip gs, Wider p.1.2 p.2.2) →
      Convertible (.struct fs) (.struct gs)
end

/-- The value of the wider type for a value of the narrower one. -/
inductive Corresponds [FloatLib] : Dyn → Dyn → Prop
  | refl (d : Dyn) : Corresponds d d
  | intToF32 (n : Int) : Corresponds (.int n) (.f32 (FloatLib.f32OfInt n))
  | intToF64 (n : Int) : Corresponds (.int n) (.f64 (FloatLib.f64OfInt n))
  /-- Both are casts of the same number, or one is a cast of the other. -/
  | f32ToF64 {a b : Nat} : a = FloatLib.f32OfF64 b ∨ b = FloatLib.f64OfF32 a ∨
      (∃ n, a = FloatLib.f32OfInt n ∧ b = FloatLib.f64OfInt n) → Corresponds (.f32 a) (.f64 b)
  | f64ToF32 {a b : Nat} : a = FloatLib.f32OfF64 b ∨ b = FloatLib.f64OfF32 a ∨
      (∃ n, a = FloatLib.f32OfInt n ∧ b = FloatLib.f64OfInt n) → Corresponds (.f64 b) (.f32 a)
  | charToString (c : Nat) : Corresponds (.char c) (.str (String.utf8EncodeChar (Char.ofNat c)))
  | toSome {d e : Dyn} : Corresponds d e → Corresponds d (.some e)
  | some {d e : Dyn} : Corresponds d e → Corresponds (.some d) (.some e)
  | seq {ds es : List Dyn} : ds.length = es.length → (∀ p ∈ ds.zip es, Corresponds p.1 p.2) →
      Corresponds (.seq ds) (.seq es)
  | map {ds es : List (Str × Dyn)} : ds.map Prod.fst = es.map Prod.fst → (∀ p ∈ ds.zip es, Corresponds p.1.2 p.2.2) →
      Corresponds (.map ds) (.map es)
  | newtype {d e : Dyn} : Corresponds d e → Corresponds (.newtype d) (.newtype e)
  | newtypeToTuple {d e : Dyn} : Corresponds d e → Corresponds (.newtype d) (.tuple [e])
  | newtypeToSeq {d e : Dyn} : Corresponds d e → Corresponds (.newtype d) (.seq [e])
  | tuple {ds es : List Dyn} : ds.length = es.length → (∀ p ∈ ds.zip es, Corresponds p.1 p.2) →
      Corresponds (.tuple ds) (.tuple es)
  | tupleToSeq {ds es : List Dyn} : ds.length = es.length → (∀ p ∈ ds.zip es, Corresponds p.1 p.2) →
      Corresponds (.tuple ds) (.seq es)
  | struct {ds es : List (Str × Dyn)} : ds.map Prod.fst = es.map Prod.fst → (∀ p ∈ ds.zip es, Corresponds p.1.2 p.2.2) →
      Corresponds (.struct ds) (.struct es)

end Nrbf.Spec
