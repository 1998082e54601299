import Verif.Spec.Visitor
import Verif.Spec.Fails

/-! # Values that no type can tell apart -/

set_option autoImplicit false

namespace Nrbf.Visitors

open Spec

/-- Classes that make no difference: both are plain classes (see `PlainObject`), whatever their names and libraries, or both are
classes without library whose names are the same up to the first backtick. -/
def SameClass (cls : Str) (lib : Option Str) (cls' : Str) (lib' : Option Str) : Prop :=
  PlainObject cls lib ∧ PlainObject cls' lib' ∨ lib = none ∧ lib' = none ∧ cls.takeWhile (· ≠ 96) = cls'.takeWhile (· ≠ 96)

section
variable [Platform]

/-- The values look the same: scalars that are told in the same way (so an `Int64`, a `TimeSpan` and a `DateTime` with the same
number look the same, and decimals with the same text), arrays of the same length with elements that look the same, and objects
with the same member names in the same order, whose values look the same, of classes that make no difference. -/
inductive LookSame : Value → Value → Prop
  | scalar {v v' : Value} {s : Scalar} : Says v s → Says v' s → LookSame v v'
  | array {vs vs' : List Value} : vs.length = vs'.length → (∀ p ∈ vs.zip vs', LookSame p.1 p.2) →
      LookSame (.array vs) (.array vs')
  | object {cls cls' : Str} {lib lib' : Option Str} {ms ms' : List (Str × Value)} : SameClass cls lib cls' lib' →
      ms.map Prod.fst = ms'.map Prod.fst → (∀ p ∈ ms.zip ms', LookSame p.1.2 p.2.2) →
      LookSame (.object cls lib ms) (.object cls' lib' ms')

/-- Messages: values that look the same, two calls, or two returns (of which only that is told). -/
inductive MessagesLookSame : RemotingMessage → RemotingMessage → Prop
  | value {v v' : Value} : LookSame v v' → MessagesLookSame (.value v) (.value v')
  | call {c c' : MethodCall} : MessagesLookSame (.methodCall c) (.methodCall c')
  | return {r r' : MethodReturn} : MessagesLookSame (.methodReturn r) (.methodReturn r')

variable [FloatLib] [TextLib]

/-- Every object of the class of a boxed primitive, anywhere in the value, holds a primitive of this type. -/
def BoxesHold (v : Value) : Prop :=
  ∀ cls ms, SubValue (.object cls none ms) v → ∀ c e P, cls.takeWhile (· ≠ 96) = c → (c, e, P) ∈ boxClasses →
    ∃ w x, ms = [(lit "m_value", w)] ∧ decodeR w P = .ok x

end

/-- The same object graph with other names for plain classes and their libraries. -/
inductive ClassesRenamed : Value → Value → Prop
  | leaf {v : Value} : IsLeaf v → ClassesRenamed v v
  | array {vs vs' : List Value} : vs.length = vs'.length → (∀ p ∈ vs.zip vs', ClassesRenamed p.1 p.2) →
      ClassesRenamed (.array vs) (.array vs')
  | system {cls : Str} {lib : Option Str} {ms ms' : List (Str × Value)} : ms.map Prod.fst = ms'.map Prod.fst →
      (∀ p ∈ ms.zip ms', ClassesRenamed p.1.2 p.2.2) → ClassesRenamed (.object cls lib ms) (.object cls lib ms')
  | plain {cls cls' : Str} {lib lib' : Option Str} {ms ms' : List (Str × Value)} : PlainObject cls lib → PlainObject cls' lib' →
      ms.map Prod.fst = ms'.map Prod.fst → (∀ p ∈ ms.zip ms', ClassesRenamed p.1.2 p.2.2) →
      ClassesRenamed (.object cls lib ms) (.object cls' lib' ms')

end Nrbf.Visitors
