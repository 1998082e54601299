import Verif.Spec.Decode

/-! # Data that has more members than a type asks for -/

set_option autoImplicit false

namespace Nrbf.Spec

/-- The two values differ at most in the order of members and in members whose name is in `N`, which either may have more or
fewer of (anywhere inside; not in boxed primitives and lists), and which can be ignored (see C69 for what that
means). -/
inductive Alike [Platform] [FloatLib] (N : Str → Prop) : Value → Value → Prop
  | leaf {v : Value} : IsLeaf v → Alike N v v
  | array {vs vs' : List Value} : vs.length = vs'.length → (∀ p ∈ vs.zip vs', Alike N p.1 p.2) →
      Alike N (.array vs) (.array vs')
  | object {cls : Str} {lib : Option Str} {ms ms' common common' extra extra' : List (Str × Value)} :
      ms.Perm (common ++ extra) → ms'.Perm (common' ++ extra') →
      common.map Prod.fst = common'.map Prod.fst → (∀ p ∈ common.zip common', Alike N p.1.2 p.2.2) →
      (∀ m ∈ extra, N m.1 ∧ Decodes m.2 .ignored .ignored) → (∀ m ∈ extra', N m.1 ∧ Decodes m.2 .ignored .ignored) →
      PlainObject cls lib ∨ extra = [] ∧ extra' = [] →
      Alike N (.object cls lib ms) (.object cls lib ms')

/-- Types whose structs (at any depth) have no field named in `N`, and that keep no members they do not name. -/
inductive Avoids (N : Str → Prop) : Ty → Prop
  | bool : Avoids N .bool
  | int (lo hi : Int) : Avoids N (.int lo hi)
  | f32 : Avoids N .f32
  | f64 : Avoids N .f64
  | char : Avoids N .char
  | str : Avoids N .str
  | string : Avoids N .string
  | unit : Avoids N .unit
  | enum : Avoids N .enum
  | ignored : Avoids N .ignored
  | option {T : Ty} : Avoids N T → Avoids N (.option T)
  | vec {T : Ty} : Avoids N T → Avoids N (.vec T)
  | newtype {T : Ty} : Avoids N T → Avoids N (.newtype T)
  | tuple {Ts : List Ty} : (∀ T ∈ Ts, Avoids N T) → Avoids N (.tuple Ts)
  | struct {fs : List (Str × Ty)} : (∀ f ∈ fs, ¬ N f.1) → (∀ f ∈ fs, Avoids N f.2) → Avoids N (.struct fs)

end Nrbf.Spec
