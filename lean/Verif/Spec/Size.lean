import Verif.Model.Value

/-! # Size and depth of values -/

set_option autoImplicit false

namespace Nrbf.Spec

mutual
/-- How deeply objects and arrays are nested: 0 for null, primitive values and strings. -/
def depth : Value → Nat
  | .object _ _ ms => 1 + depthMembers ms
  | .array vs => 1 + depthItems vs
  | _ => 0
/-- The largest depth in a list of values. -/
def depthItems : List Value → Nat
  | [] => 0
  | v :: vs => max (depth v) (depthItems vs)
/-- The largest depth among the members of an object. -/
def depthMembers : List (Str × Value) → Nat
  | [] => 0
  | (_, v) :: ms => max (depth v) (depthMembers ms)
end

mutual
/-- How many objects, strings and primitive values there are in a value, itself included (nulls and
arrays are not counted, elements of arrays are). -/
def contents : Value → Nat
  | .object _ _ ms => 1 + contentsMembers ms
  | .array vs => contentsItems vs
  | .null => 0
  | _ => 1
/-- The sum over a list of values. -/
def contentsItems : List Value → Nat
  | [] => 0
  | v :: vs => contents v + contentsItems vs
/-- The sum over the members of an object. -/
def contentsMembers : List (Str × Value) → Nat
  | [] => 0
  | (_, v) :: ms => contents v + contentsMembers ms
end

mutual
/-- How many objects, strings, primitive values and nulls there are in a value, itself included (arrays are not
counted, their elements are). -/
def leaves : Value → Nat
  | .object _ _ ms => 1 + leavesMembers ms
  | .array vs => leavesItems vs
  | _ => 1
/-- The sum over a list of values. -/
def leavesItems : List Value → Nat
  | [] => 0
  | v :: vs => leaves v + leavesItems vs
/-- The sum over the members of an object. -/
def leavesMembers : List (Str × Value) → Nat
  | [] => 0
  | (_, v) :: ms => leaves v + leavesMembers ms
end

/-- The values in a message. -/
def messageValues : RemotingMessage → List Value
  | .methodCall c => c.args.getD []
  | .methodReturn r => r.returnValue.toList ++ r.args.getD []
  | .value v => [v]

/-- The names in a message: method, type and call context. -/
def messageNames : RemotingMessage → List Str
  | .methodCall c => c.methodName :: c.typeName :: c.callContext.toList
  | .methodReturn r => r.callContext.toList
  | .value _ => []

end Nrbf.Spec
