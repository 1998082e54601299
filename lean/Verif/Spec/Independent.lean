import Verif.Spec.Message

/-! # References to an object, and records that stand on their own -/

set_option autoImplicit false

namespace Nrbf.Spec

/-- Somewhere in the bytes `c` stands a MemberReference record (byte 9 and four bytes) to the object
`k`. -/
def Mentions (k : Nat) (c : Bytes) : Prop := ∃ b, IsReference k b ∧ b <:+: c

/-- The tables differ at most in the objects whose ids are in `K`. -/
def SameExcept (K : Nat → Prop) (E F : Env) : Prop :=
  E.libs = F.libs ∧ ∀ k, ¬ K k → E.objs k = F.objs k

/-- A record on its own: its bytes, its object id and its value. -/
structure Segment where
  bytes : Bytes
  id : Nat
  value : Value

/-- Whatever follows these bytes: with the libraries of `E`, they are a record with this id and this
value, which leaves the tables as they are. -/
def Segment.StandsAlone [Platform] (E : Env) (s : Segment) : Prop :=
  ∀ rest, Record E (s.bytes ++ rest) s.id s.value E rest

/-- The records one after the other. -/
def Segment.all (l : List Segment) : Bytes := l.flatMap Segment.bytes

/-- No record of the list refers to a record of the list. -/
def Segment.Unrelated (l : List Segment) : Prop :=
  ∀ s ∈ l, ∀ t ∈ l, ¬ Mentions t.id s.bytes

/-- The value of the last record with this id. -/
def Segment.last (id : Nat) : List Segment → Option Value
  | [] => none
  | s :: l => (Segment.last id l).or (if s.id = id then some s.value else none)

end Nrbf.Spec
