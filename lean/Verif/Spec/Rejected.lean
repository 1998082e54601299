import Verif.Spec.Errors

/-! # Which input is accepted, which is rejected, and what is reported

`Accepted w m` and `Rejected w e`, following the order in which a message is read: the header, records, at most
one method record with its call array, further records, the end of the message.  Nothing here refers to the
model's parsers. -/

set_option autoImplicit false

namespace Nrbf.Spec

/-! ## The header and the method records -/

/-- Not a header. -/
def BadHeader (i : Bytes) (e : Error) : Prop :=
  (i.head? ≠ some 0 ∧ e = ⟨i, .expectedRecordType .serializedStreamHeader⟩) ∨
  ∃ r, i = 0 :: r ∧ (BadNumber (0 ≤ ·) .invalidRootId r (some e) ∨ After IsLength (fun _ i =>
    BadInt32 i (some e) ∨ After IsInt32 (fun _ i =>
    BadNumber (· = 1) .invalidMajorVersion i (some e) ∨ After (fun _ b => b = le 4 1) (fun (_ : Unit) i =>
    BadNumber (· = 0) .invalidMinorVersion i (some e)) i) i) r)

/-- Not an admissible flag word. -/
def BadFlags (i : Bytes) (o : Report) : Prop :=
  (i.length < 4 ∧ o = fatal i .expectedMessageFlags) ∨
  After IsFlags (fun f _ => ¬ FlagsOk f ∧ o = fatal i .invalidMessageFlags) i

/-- Not a string with its type. -/
def BadCodedString (i : Bytes) (o : Report) : Prop :=
  (i.head? ≠ some 18 ∧ o = fatal i (.expectedPrimitive .string)) ∨ ∃ r, i = 18 :: r ∧ BadString r o

/-- Not a value with its type. -/
def BadCodedValue [Platform] (i : Bytes) (o : Report) : Prop :=
  BadPrimitiveType i o ∨
  (∃ r, i = 18 :: r ∧ BadString r o) ∨
  ∃ t r, t ≠ .null ∧ t ≠ .string ∧ i = primitiveTypeByte t :: r ∧ BadPrimitive t r o

/-- Not a sequence of values with their types. -/
def BadCodedValues [Platform] (i : Bytes) (o : Report) : Prop :=
  BadLength i o ∨ After IsLength (fun n i => BadMany IsCodedValue BadCodedValue n i o) i

/-- Not a method call. -/
def BadMethodCall [Platform] : Bytes → Report → Prop :=
  BadTagged 21 fun i o => BadFlags i o ∨ After (fun f b => FlagsOk f ∧ IsFlags f b) (fun f i =>
    BadCodedString i o ∨ After IsCodedString (fun _ i =>
    BadCodedString i o ∨ After IsCodedString (fun _ i =>
    (f.getLsbD 5 = true ∧ BadCodedString i o) ∨ After (IsOptional (f.getLsbD 5) IsCodedString) (fun _ i =>
    f.getLsbD 1 = true ∧ BadCodedValues i o) i) i) i) i

/-- Not a method return. -/
def BadMethodReturn [Platform] : Bytes → Report → Prop :=
  BadTagged 22 fun i o => BadFlags i o ∨ After (fun f b => FlagsOk f ∧ IsFlags f b) (fun f i =>
    (f.getLsbD 11 = true ∧ BadCodedValue i o) ∨ After (IsOptional (f.getLsbD 11) IsCodedValue) (fun _ i =>
    (f.getLsbD 5 = true ∧ BadCodedString i o) ∨ After (IsOptional (f.getLsbD 5) IsCodedString) (fun _ i =>
    f.getLsbD 1 = true ∧ BadCodedValues i o) i) i) i

/-- The part of a method record in front of its call array: its flags, its inline arguments, and the method as
a function of its arguments. -/
def IsMethodHead [Platform] (f : BitVec 32) (inline : Option (List Value))
    (method : Option (List Value) → MethodCall ⊕ MethodReturn) (b : Bytes) : Prop :=
  FlagsOk f ∧
  ((∃ name type context, IsMethodCall f name type context inline b ∧
      method = fun args => .inl ⟨name, type, context, args⟩) ∨
   (∃ value context, IsMethodReturn f value context inline b ∧ method = fun args => .inr ⟨value, context, args⟩))

/-! ## The call array -/

/-- Not a call array. -/
inductive BadCallArray [Platform] (root : Nat) : Env → Bytes → Report → Env → Prop
  | library {E : Env} {i : Bytes} {o : Report} {E' : Env} : BadLibrary E i o E' → BadCallArray root E i o E'
  | head {E E1 : Env} {i i1 : Bytes} {o : Report} : OptLib E i E1 i1 → BadTagged 16 BadArrayInfo i1 o →
      BadCallArray root E i o E1
  | elements {E E1 : Env} {i : Bytes} {id len : Nat} {b i1 : Bytes} {o : Report} {E' : Env} :
      OptLib E i E1 (b ++ i1) → IsArrayHead 16 id len b → BadFill none len E1 i1 o E' → BadCallArray root E i o E'
  | references {E E1 : Env} {i : Bytes} {id len : Nat} {b i1 : Bytes} {slots : List Slot} {E2 : Env} {i2 : Bytes}
      {o : Report} {E' : Env} : OptLib E i E1 (b ++ i1) → IsArrayHead 16 id len b → Fill none len E1 i1 slots E2 i2 →
      BadResolve slots E2 i2 o E' → BadCallArray root E i o E'
  -- an array with another id than the root
  | other {E E1 : Env} {i : Bytes} {id len : Nat} {b i1 : Bytes} {slots : List Slot} {E2 : Env} {i2 : Bytes}
      {vs : List Value} {E3 : Env} {i3 : Bytes} : OptLib E i E1 (b ++ i1) → IsArrayHead 16 id len b → id ≠ root →
      Fill none len E1 i1 slots E2 i2 → Resolve slots E2 i2 vs E3 i3 →
      BadCallArray root E i (fatal i3 .invalidCallArrayId) E3

/-- The call array, if it is there.  What is no call array is left alone, but the tables are not restored. -/
inductive OptCallArray [Platform] (root : Nat) : Env → Bytes → Option (List Value) → Env → Bytes → Prop
  | some {E E1 : Env} {i : Bytes} {len : Nat} {b i1 : Bytes} {slots : List Slot} {E2 : Env} {i2 : Bytes}
      {vs : List Value} {E3 : Env} {i3 : Bytes} : OptLib E i E1 (b ++ i1) → IsArrayHead 16 root len b →
      Fill none len E1 i1 slots E2 i2 → Resolve slots E2 i2 vs E3 i3 → OptCallArray root E i (some vs) E3 i3
  | none {E : Env} {i : Bytes} {E' : Env} : BadCallArray root E i none E' → OptCallArray root E i none E' i

/-! ## Messages -/

/-- The records up to the first thing that is none, and the tables after the attempt to read a record there. -/
def Pass [Platform] (E : Env) (i : Bytes) (E' : Env) (i' : Bytes) : Prop :=
  ∃ E0, Records E i E0 i' ∧ BadRecord E0 i' none E'

/-- An error among the records. -/
def BadPass [Platform] (E : Env) (i : Bytes) (e : Error) : Prop :=
  ∃ E0 i' E', Records E i E0 i' ∧ BadRecord E0 i' (some e) E'

/-- A method record, if there is one. -/
inductive OptMethod [Platform] (root : Nat) : Env → Bytes → Option (MethodCall ⊕ MethodReturn) → Env → Bytes → Prop
  | some {E : Env} {f : BitVec 32} {inline : Option (List Value)}
      {method : Option (List Value) → MethodCall ⊕ MethodReturn} {b i : Bytes} {callArray : Option (List Value)}
      {E' : Env} {i' : Bytes} {args : Option (List Value)} : IsMethodHead f inline method b →
      OptCallArray root E i callArray E' i' → ArgsFrom f callArray inline args →
      OptMethod root E (b ++ i) (some (method args)) E' i'
  | none {E : Env} {i : Bytes} : BadMethodCall i none → BadMethodReturn i none → OptMethod root E i none E i

/-- An error in a method record. -/
inductive BadMethod [Platform] (root : Nat) : Env → Bytes → Error → Prop
  | call {E : Env} {i : Bytes} {e : Error} : BadMethodCall i (some e) → BadMethod root E i e
  | return {E : Env} {i : Bytes} {e : Error} : BadMethodReturn i (some e) → BadMethod root E i e
  | callArray {E : Env} {f : BitVec 32} {inline : Option (List Value)}
      {method : Option (List Value) → MethodCall ⊕ MethodReturn} {b i : Bytes} {e : Error} {E' : Env} :
      IsMethodHead f inline method b → BadCallArray root E i (some e) E' → BadMethod root E (b ++ i) e
  | args {E : Env} {f : BitVec 32} {inline : Option (List Value)}
      {method : Option (List Value) → MethodCall ⊕ MethodReturn} {b i : Bytes} {callArray : Option (List Value)}
      {E' : Env} {i' : Bytes} : IsMethodHead f inline method b → OptCallArray root E i callArray E' i' →
      (¬ ∃ args, ArgsFrom f callArray inline args) → BadMethod root E (b ++ i) ⟨i', .invalidArgs⟩

/-- The content of a message: the method record if there is one, else the root object. -/
def HasContent (root : Nat) (m : Option (MethodCall ⊕ MethodReturn)) (E : Env) (c : RemotingMessage) : Prop :=
  match m with
  | some m => c = methodMessage m
  | none => ∃ v, RootValue root E v ∧ c = .value v

/-- A message as far as the end of its records. -/
def ReadsTo [Platform] (w : Bytes) (root : Nat) (m : Option (MethodCall ⊕ MethodReturn)) (E : Env) (i : Bytes) :
    Prop :=
  ∃ h i0 E1 i1 E2 i2, IsHeader root h ∧ w = h ++ i0 ∧ Pass Env.empty i0 E1 i1 ∧ OptMethod root E1 i1 m E2 i2 ∧
    Pass E2 i2 E i

/-- What is accepted, and as what. -/
def Accepted [Platform] (w : Bytes) (c : RemotingMessage) : Prop :=
  ∃ root m E, ReadsTo w root m E [11] ∧ HasContent root m E c

/-- What is rejected, and with which error. -/
inductive Rejected [Platform] : Bytes → Error → Prop
  | header {w : Bytes} {e : Error} : BadHeader w e → Rejected w e
  | record {root : Nat} {h i : Bytes} {e : Error} : IsHeader root h → BadPass Env.empty i e → Rejected (h ++ i) e
  | method {root : Nat} {h i : Bytes} {E : Env} {i1 : Bytes} {e : Error} : IsHeader root h → Pass Env.empty i E i1 →
      BadMethod root E i1 e → Rejected (h ++ i) e
  | laterRecord {root : Nat} {h i : Bytes} {E : Env} {i1 : Bytes} {m : Option (MethodCall ⊕ MethodReturn)} {E2 : Env}
      {i2 : Bytes} {e : Error} : IsHeader root h → Pass Env.empty i E i1 → OptMethod root E i1 m E2 i2 →
      BadPass E2 i2 e → Rejected (h ++ i) e
  | noEnd {w : Bytes} {root : Nat} {m : Option (MethodCall ⊕ MethodReturn)} {E : Env} {i : Bytes} :
      ReadsTo w root m E i → i.head? ≠ some 11 → Rejected w ⟨i, .expectedRecordType .messageEnd⟩
  | trailing {w : Bytes} {root : Nat} {m : Option (MethodCall ⊕ MethodReturn)} {E : Env} {t : Bytes} :
      ReadsTo w root m E (11 :: t) → t ≠ [] → Rejected w ⟨t, .trailingData⟩
  | noRoot {w : Bytes} {root : Nat} {E : Env} : ReadsTo w root none E [11] → root ≠ 0 → E.objs root = none →
      Rejected w ⟨[], .missingRootObject⟩

end Nrbf.Spec
