import Verif.Model.PartialEq
import Verif.Spec.Contents

/-! # When two values are equal -/

set_option autoImplicit false

namespace Nrbf.Spec

/-- What a floating point number that is not NaN stands for.  Finite numbers are counted in units of the smallest
positive number of the format. -/
inductive Extended where
  | finite (n : Int)
  | infinite (negative : Bool)

/-- The IEEE 754 reading of a bit pattern with `f` fraction and `e` exponent bits: `none` is NaN. -/
def denotes (f e bits : Nat) : Option Extended :=
  let negative : Bool := bits / 2 ^ (f + e) % 2 == 1
  let exponent := bits / 2 ^ f % 2 ^ e
  let fraction := bits % 2 ^ f
  if exponent = 2 ^ e - 1 then
    if fraction = 0 then some (.infinite negative) else none
  else
    let magnitude := if exponent = 0 then fraction else (2 ^ f + fraction) * 2 ^ (exponent - 1)
    some (.finite (if negative then -magnitude else magnitude))

/-- A value that is not a number. -/
def IsNaN : Value → Prop
  | .double b => denotes 52 11 b = none
  | .single b => denotes 23 8 b = none
  | _ => False

/-- Values that are compared by their bits: not containers, floats or decimals. -/
def IsDiscrete : Value → Prop
  | .object .. | .array _ | .double _ | .single _ | .decimal _ => False
  | _ => True

/-- Equal values: same shape, members by name and without order, floats by the number they stand for, decimals as
their crate compares them. -/
inductive Equal [DecimalEq] : Value → Value → Prop
  | discrete {v : Value} : IsDiscrete v → Equal v v
  | double {a b : Nat} {x : Extended} : denotes 52 11 a = some x → denotes 52 11 b = some x → Equal (.double a) (.double b)
  | single {a b : Nat} {x : Extended} : denotes 23 8 a = some x → denotes 23 8 b = some x → Equal (.single a) (.single b)
  | decimal {a b : Dec} : DecimalEq.eq a b = true → Equal (.decimal a) (.decimal b)
  | array {vs vs' : List Value} : vs.length = vs'.length →
      (∀ (i : Nat) v v', vs[i]? = some v → vs'[i]? = some v' → Equal v v') → Equal (.array vs) (.array vs')
  | object {cls : Str} {lib : Option Str} {ms ms' : List (Str × Value)} :
      (∀ k, k ∈ ms.map Prod.fst ↔ k ∈ ms'.map Prod.fst) →
      (∀ k v v', (k, v) ∈ ms → (k, v') ∈ ms' → Equal v v') → Equal (.object cls lib ms) (.object cls lib ms')

/-- A value Rust can hold: numbers fit their types and members have distinct names. -/
def WellTyped (v : Value) : Prop := ∀ u, SubValue u v → FitsType u ∧ NamesDistinct u

/-- All values of a message are ones Rust can hold. -/
def MessageTyped (m : RemotingMessage) : Prop := ∀ u, ValueIn u m → FitsType u ∧ NamesDistinct u

/-- Both or neither are there, and are equal. -/
inductive OptionEqual {α : Type} (R : α → α → Prop) : Option α → Option α → Prop
  | none : OptionEqual R none none
  | some {a b : α} : R a b → OptionEqual R (some a) (some b)

/-- Equal lists of values. -/
def ItemsEqual [DecimalEq] (vs vs' : List Value) : Prop :=
  vs.length = vs'.length ∧ ∀ (i : Nat) v v', vs[i]? = some v → vs'[i]? = some v' → Equal v v'

/-- Equal messages. -/
inductive MessageEqual [DecimalEq] : RemotingMessage → RemotingMessage → Prop
  | value {v v' : Value} : Equal v v' → MessageEqual (.value v) (.value v')
  | methodCall {method type : Str} {context : Option Str} {args args' : Option (List Value)} :
      OptionEqual ItemsEqual args args' →
      MessageEqual (.methodCall ⟨method, type, context, args⟩) (.methodCall ⟨method, type, context, args'⟩)
  | methodReturn {value value' : Option Value} {context : Option Str} {args args' : Option (List Value)} :
      OptionEqual Equal value value' → OptionEqual ItemsEqual args args' →
      MessageEqual (.methodReturn ⟨value, context, args⟩) (.methodReturn ⟨value', context, args'⟩)

end Nrbf.Spec
