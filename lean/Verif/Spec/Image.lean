import Verif.Spec.Decode

/-! # What a self-describing type makes of a value

A type that asks for `deserialize_any` and keeps what it is given (serde's buffer for untagged enums and for
flattened structs, or a JSON value, for example) is not told the shape of the value: the shape comes from the
value alone.  `Image v d` says that `d` is what arrives. -/

set_option autoImplicit false

namespace Nrbf.Spec

/-- The value `v` presents itself as `d`: numbers, characters and strings as they are, decimals as text, null as
the unit value, arrays and generic lists as sequences, boxed primitives as the primitive and all other objects as
maps from the names of their members. -/
inductive Image [Platform] [FloatLib] : Value → Dyn → Prop
  | leaf {v : Value} {d : Dyn} : v.asIs = some d → Image v d
  | sequence {v : Value} {vs : List Value} {ds : List Dyn} : Elements 1 v vs → vs.length = ds.length →
      (∀ p ∈ vs.zip ds, Image p.1 p.2) → Image v (.seq ds)
  | map {cls : Str} {lib : Option Str} {ms : List (Str × Value)} {ds : List (Str × Dyn)} : PlainObject cls lib →
      ms.map Prod.fst = ds.map Prod.fst → (∀ p ∈ ms.zip ds, Image p.1.2 p.2.2) →
      Image (.object cls lib ms) (.map ds)
  | boxed {cls name : Str} {w s : Value} {P : Ty} {x : Dyn} : cls.takeWhile (· ≠ 96) = name →
      BoxedPrim name P x s → Decodes w P x → Image (.object cls none [(lit "m_value", w)]) x

/-- Types without structs. -/
inductive Structless : Ty → Prop
  | bool : Structless .bool
  | int (lo hi : Int) : Structless (.int lo hi)
  | f32 : Structless .f32
  | f64 : Structless .f64
  | char : Structless .char
  | str : Structless .str
  | string : Structless .string
  | unit : Structless .unit
  | ignored : Structless .ignored
  | any : Structless .any
  | option {T : Ty} : Structless T → Structless (.option T)
  | vec {T : Ty} : Structless T → Structless (.vec T)
  | newtype {T : Ty} : Structless T → Structless (.newtype T)
  | map {T : Ty} : Structless T → Structless (.map T)
  | tuple {Ts : List Ty} : (∀ T ∈ Ts, Structless T) → Structless (.tuple Ts)

end Nrbf.Spec
