import Verif.Spec.Fails

/-! # What a thorough type is handed -/

set_option autoImplicit false

namespace Nrbf.Visitors

variable [Platform] [FloatLib]

open Spec

mutual
/-- `Handed v l`: a type that leaves nothing out is handed the values `l`, in this order, of the value `v`.  Objects of the
classes of boxed primitives and of generic lists are handed over as such: the number alone, or the first `_size` items
alone; or else, when a struct asks for them, with all their members, like other objects. -/
inductive Handed : Value → List Value → Prop
  | leaf {v : Value} : IsLeaf v → Handed v [v]
  | array {vs l : List Value} : HandedItems vs l → Handed (.array vs) (.array vs :: l)
  | object {cls : Str} {lib : Option Str} {ms : List (Str × Value)} {l : List Value} : HandedItems (ms.map Prod.snd) l →
      Handed (.object cls lib ms) (.object cls lib ms :: l)
  | boxed {cls c e : Str} {P : RTy} {w : Value} : cls.takeWhile (· ≠ 96) = c → (c, e, P) ∈ boxClasses →
      Handed (.object cls none [(lit "m_value", w)]) [.object cls none [(lit "m_value", w)]]
  | list {v : Value} {items l : List Value} {size : Int} : IsList v items size →
      HandedItems (items.take (unsignedSize size)) l → Handed v (v :: l)
/-- The same for several values. -/
inductive HandedItems : List Value → List Value → Prop
  | nil : HandedItems [] []
  | cons {v : Value} {vs l l' : List Value} : Handed v l → HandedItems vs l' → HandedItems (v :: vs) (l ++ l')
end

end Nrbf.Visitors
