import Verif.Spec.Panic
import Verif.Spec.Rejected

/-! # Which input makes the deserializer panic

`Panics w`: the message `w` is neither accepted nor rejected, because reading it comes upon an array that
cannot be reshaped (`BadArray`).  The judgements follow the order in which a message is read: everything in
front of that array is in order, or is a mismatch that is stepped over.  Nothing here refers to the model's
parsers. -/

set_option autoImplicit false

namespace Nrbf.Spec

mutual

/-- A member that is an object in which such an array is met. -/
inductive PanicMember [Platform] : Option MemberType → Env → Bytes → Prop
  | object {E E1 : Env} {i i1 : Bytes} : OptLib E i E1 i1 → PanicClass E1 i1 → PanicMember none E i
  | typedObject {E E1 : Env} {i i1 : Bytes} : OptLib E i E1 i1 → PanicMember none E1 i1 →
      PanicMember (some .object) E i
  | typedObjectArray {E E1 : Env} {i i1 : Bytes} : OptLib E i E1 i1 → PanicMember none E1 i1 →
      PanicMember (some .objectArray) E i
  | systemClass {name : Str} {E E1 : Env} {i i1 : Bytes} : OptLib E i E1 i1 → PanicClass E1 i1 →
      PanicMember (some (.systemClass name)) E i
  | class {name : Str} {l : Nat} {E E1 : Env} {i i1 : Bytes} : OptLib E i E1 i1 → E1.libs l ≠ none →
      PanicClass E1 i1 → PanicMember (some (.class name l)) E i

/-- One of the members. -/
inductive PanicMembers [Platform] : List (Option MemberType) → Env → Bytes → Prop
  | here {T : Option MemberType} {Ts : List (Option MemberType)} {E : Env} {i : Bytes} :
      PanicMember T E i → PanicMembers (T :: Ts) E i
  | later {T : Option MemberType} {Ts : List (Option MemberType)} {E : Env} {i : Bytes} {slot : Slot} {E1 : Env}
      {i1 : Bytes} : Member T E i slot E1 i1 → PanicMembers Ts E1 i1 → PanicMembers (T :: Ts) E i

/-- One of the elements. -/
inductive PanicFill [Platform] : Option MemberType → Nat → Env → Bytes → Prop
  | here {T : Option MemberType} {len : Nat} {E : Env} {i : Bytes} : 0 < len → PanicMember T E i → PanicFill T len E i
  | later {T : Option MemberType} {len : Nat} {E : Env} {i : Bytes} {slot : Slot} {E1 : Env} {i1 : Bytes} : 0 < len →
      Member T E i slot E1 i1 → PanicFill T (len - slot.size) E1 i1 → PanicFill T len E i

/-- One of the records read to resolve references. -/
inductive PanicResolve [Platform] : List Slot → Env → Bytes → Prop
  | value {v : Value} {slots : List Slot} {E : Env} {i : Bytes} : PanicResolve slots E i →
      PanicResolve (.value v :: slots) E i
  | nulls {n : Nat} {slots : List Slot} {E : Env} {i : Bytes} : PanicResolve slots E i →
      PanicResolve (.nulls n :: slots) E i
  | known {id : Nat} {slots : List Slot} {E : Env} {i : Bytes} {v : Value} : E.objs id = some v →
      PanicResolve slots (E.drop id) i → PanicResolve (.ref id :: slots) E i
  | next {id : Nat} {slots : List Slot} {E : Env} {i : Bytes} {v : Value} {E1 : Env} {i1 : Bytes} :
      E.objs id = none → Record E i id v E1 i1 → PanicResolve slots (E1.drop id) i1 →
      PanicResolve (.ref id :: slots) E i
  | record {id : Nat} {slots : List Slot} {E : Env} {i : Bytes} : E.objs id = none → PanicRecord E i →
      PanicResolve (.ref id :: slots) E i

/-- A class record with its members. -/
inductive PanicClass [Platform] : Env → Bytes → Prop
  | members {E E1 : Env} {i : Bytes} {h : ClassHead} {b i1 : Bytes} {library : Option Str} :
      OptLib E i E1 (b ++ i1) → IsClassHead h b → h.HasLibrary E1 library → PanicMembers h.memberTypes E1 i1 →
      PanicClass E i
  | references {E E1 : Env} {i : Bytes} {h : ClassHead} {b i1 : Bytes} {library : Option Str} {slots : List Slot}
      {E2 : Env} {i2 : Bytes} : OptLib E i E1 (b ++ i1) → IsClassHead h b → h.HasLibrary E1 library →
      Members h.memberTypes E1 i1 slots E2 i2 → PanicResolve slots E2 i2 → PanicClass E i

/-- A referenceable record. -/
inductive PanicRecord [Platform] : Env → Bytes → Prop
  | object {E : Env} {i : Bytes} : PanicClass E i → PanicRecord E i
  | objectArrayElements {E : Env} {id len : Nat} {b i : Bytes} : IsArrayHead 16 id len b → PanicFill none len E i →
      PanicRecord E (b ++ i)
  | objectArrayReferences {E : Env} {id len : Nat} {b i : Bytes} {slots : List Slot} {E1 : Env} {i1 : Bytes} :
      IsArrayHead 16 id len b → Fill none len E i slots E1 i1 → PanicResolve slots E1 i1 → PanicRecord E (b ++ i)
  | stringArrayReferences {E : Env} {id len : Nat} {b i : Bytes} {slots : List Slot} {E1 : Env} {i1 : Bytes} :
      IsArrayHead 17 id len b → Fill (some .stringArray) len E i slots E1 i1 → PanicResolve slots E1 i1 →
      PanicRecord E (b ++ i)
  | arrayElements {E : Env} {id : Nat} {kind : BinaryArrayType} {lengths : List Nat} {T : MemberType} {b : Bytes}
      {n : Nat} {i : Bytes} : IsBinaryArrayHead id kind lengths T b → productUsize 1 lengths = some n →
      PanicMembers (List.replicate n (some T)) E i → PanicRecord E (b ++ i)
  | arrayReferences {E : Env} {id : Nat} {kind : BinaryArrayType} {lengths : List Nat} {T : MemberType} {b : Bytes}
      {n : Nat} {i : Bytes} {slots : List Slot} {E1 : Env} {i1 : Bytes} : IsBinaryArrayHead id kind lengths T b →
      productUsize 1 lengths = some n → Members (List.replicate n (some T)) E i slots E1 i1 →
      PanicResolve slots E1 i1 → PanicRecord E (b ++ i)
  -- the array itself
  | shape {E : Env} {i : Bytes} : BadArray E i → PanicRecord E i

end

/-- The records up to one in which such an array is met. -/
def PanicPass [Platform] (E : Env) (i : Bytes) : Prop := ∃ E0 i', Records E i E0 i' ∧ PanicRecord E0 i'

/-- A call array. -/
inductive PanicCallArray [Platform] : Env → Bytes → Prop
  | elements {E E1 : Env} {i : Bytes} {id len : Nat} {b i1 : Bytes} : OptLib E i E1 (b ++ i1) →
      IsArrayHead 16 id len b → PanicFill none len E1 i1 → PanicCallArray E i
  | references {E E1 : Env} {i : Bytes} {id len : Nat} {b i1 : Bytes} {slots : List Slot} {E2 : Env} {i2 : Bytes} :
      OptLib E i E1 (b ++ i1) → IsArrayHead 16 id len b → Fill none len E1 i1 slots E2 i2 →
      PanicResolve slots E2 i2 → PanicCallArray E i

/-- A method record. -/
def PanicMethod [Platform] (E : Env) (i : Bytes) : Prop :=
  ∃ f inline method b i', IsMethodHead f inline method b ∧ i = b ++ i' ∧ PanicCallArray E i'

/-- What makes the deserializer panic. -/
inductive Panics [Platform] : Bytes → Prop
  | record {root : Nat} {h i : Bytes} : IsHeader root h → PanicPass Env.empty i → Panics (h ++ i)
  | method {root : Nat} {h i : Bytes} {E : Env} {i1 : Bytes} : IsHeader root h → Pass Env.empty i E i1 →
      PanicMethod E i1 → Panics (h ++ i)
  | laterRecord {root : Nat} {h i : Bytes} {E : Env} {i1 : Bytes} {m : Option (MethodCall ⊕ MethodReturn)} {E2 : Env}
      {i2 : Bytes} : IsHeader root h → Pass Env.empty i E i1 → OptMethod root E i1 m E2 i2 → PanicPass E2 i2 →
      Panics (h ++ i)

end Nrbf.Spec
