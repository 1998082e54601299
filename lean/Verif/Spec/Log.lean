import Verif.Spec.Message

/-! # The record grammar with a log of objects and references

The judgements of `Spec/Grammar.lean` and `Spec/Message.lean` again, rule by rule, with one more index: the log of what happens
while a message is read.  `opened id` stands where the record of an object, array or string with that id begins (in place or
on its own), `closed id` where this record and everything it refers to has been read, `refers id` where a MemberReference to
that id gets its value.  That these are the same judgements is a theorem (`C87_log`). -/

set_option autoImplicit false

namespace Nrbf.Spec

/-- What happens to the object with that id. -/
inductive Event where
  | opened (id : Nat)
  | closed (id : Nat)
  | refers (id : Nat)
  deriving DecidableEq, Repr

mutual

/-- `Member` with a log. -/
inductive LMember [Platform] : Option MemberType → Env → Bytes → Slot → Env → Bytes → List Event → Prop
  | primitive {E : Env} {i : Bytes} {E1 : Env} {b : Bytes} {v : Value} {i' : Bytes} : OptLib E i E1 (b ++ i') → IsTypedPrimitive v b →
      LMember none E i (.value v) E1 i' []
  | reference {E : Env} {i : Bytes} {E1 : Env} {b : Bytes} {id : Nat} {i' : Bytes} : OptLib E i E1 (b ++ i') → IsReference id b →
      LMember none E i (.ref id) E1 i' []
  | string {E : Env} {i : Bytes} {E1 : Env} {b : Bytes} {id : Nat} {s : Str} {i' : Bytes} : OptLib E i E1 (b ++ i') →
      IsObjectString id s b → LMember none E i (.value (.string s)) E1 i' [.opened id, .closed id]
  | nulls {E : Env} {i : Bytes} {E1 : Env} {b : Bytes} {n : Nat} {i' : Bytes} : OptLib E i E1 (b ++ i') → IsNulls n b →
      LMember none E i (.nulls n) E1 i' []
  | object {E : Env} {i : Bytes} {E1 : Env} {i1 : Bytes} {id : Nat} {name : Str} {library : Option Str}
      {members : List (Str × Value)} {E2 : Env} {i2 : Bytes} {L : List Event} : OptLib E i E1 i1 →
      LClass E1 i1 id name library members E2 i2 L →
      LMember none E i (.value (.object name library members)) E2 i2 L
  | typedPrimitive {t : PrimitiveType} {E : Env} {i : Bytes} {E1 : Env} {b : Bytes} {v : Value} {i' : Bytes} :
      OptLib E i E1 (b ++ i') → IsPrimitive t v b → LMember (some (.primitive t)) E i (.value v) E1 i' []
  | typedString {E : Env} {i : Bytes} {E1 : Env} {b : Bytes} {id : Nat} {s : Str} {i' : Bytes} : OptLib E i E1 (b ++ i') →
      IsObjectString id s b → LMember (some .string) E i (.value (.string s)) E1 i' [.opened id, .closed id]
  | typedObject {E : Env} {i : Bytes} {E1 : Env} {i1 : Bytes} {slot : Slot} {E2 : Env} {i2 : Bytes} {L : List Event} :
      OptLib E i E1 i1 → LMember none E1 i1 slot E2 i2 L → LMember (some .object) E i slot E2 i2 L
  | typedObjectArray {E : Env} {i : Bytes} {E1 : Env} {i1 : Bytes} {slot : Slot} {E2 : Env} {i2 : Bytes} {L : List Event} :
      OptLib E i E1 i1 → LMember none E1 i1 slot E2 i2 L → LMember (some .objectArray) E i slot E2 i2 L
  | systemClass {name : Str} {E : Env} {i : Bytes} {E1 : Env} {i1 : Bytes} {id : Nat} {members : List (Str × Value)} {E2 : Env}
      {i2 : Bytes} {L : List Event} : OptLib E i E1 i1 → LClass E1 i1 id name none members E2 i2 L →
      LMember (some (.systemClass name)) E i (.value (.object name none members)) E2 i2 L
  | systemClassNulls {name : Str} {E : Env} {i : Bytes} {E1 : Env} {b : Bytes} {n : Nat} {i' : Bytes} : OptLib E i E1 (b ++ i') →
      IsNulls n b → LMember (some (.systemClass name)) E i (.nulls n) E1 i' []
  | class {name : Str} {l : Nat} {E : Env} {i : Bytes} {E1 : Env} {i1 : Bytes} {library : Str} {id : Nat}
      {members : List (Str × Value)} {E2 : Env} {i2 : Bytes} {L : List Event} : OptLib E i E1 i1 →
      E1.libs l = some library → LClass E1 i1 id name (some library) members E2 i2 L →
      LMember (some (.class name l)) E i (.value (.object name (some library) members)) E2 i2 L
  | classNulls {name : Str} {l : Nat} {E : Env} {i : Bytes} {E1 : Env} {library : Str} {b : Bytes} {n : Nat} {i' : Bytes} :
      OptLib E i E1 (b ++ i') → E1.libs l = some library → IsNulls n b →
      LMember (some (.class name l)) E i (.nulls n) E1 i' []
  | stringArrayString {E : Env} {i : Bytes} {E1 : Env} {b : Bytes} {id : Nat} {s : Str} {i' : Bytes} : OptLib E i E1 (b ++ i') →
      IsObjectString id s b → LMember (some .stringArray) E i (.value (.string s)) E1 i' [.opened id, .closed id]
  | stringArrayReference {E : Env} {i : Bytes} {E1 : Env} {b : Bytes} {id : Nat} {i' : Bytes} : OptLib E i E1 (b ++ i') →
      IsReference id b → LMember (some .stringArray) E i (.ref id) E1 i' []
  | stringArrayNulls {E : Env} {i : Bytes} {E1 : Env} {b : Bytes} {n : Nat} {i' : Bytes} : OptLib E i E1 (b ++ i') → IsNulls n b →
      LMember (some .stringArray) E i (.nulls n) E1 i' []
  | primitiveArray {t : PrimitiveType} {E : Env} {i : Bytes} {E1 : Env} {b : Bytes} {id : Nat} {i' : Bytes} :
      OptLib E i E1 (b ++ i') → IsReference id b → LMember (some (.primitiveArray t)) E i (.ref id) E1 i' []

/-- `Members` with a log. -/
inductive LMembers [Platform] : List (Option MemberType) → Env → Bytes → List Slot → Env → Bytes → List Event → Prop
  | nil {E : Env} {i : Bytes} : LMembers [] E i [] E i []
  | cons {T : Option MemberType} {Ts : List (Option MemberType)} {E : Env} {i : Bytes} {slot : Slot} {E1 : Env} {i1 : Bytes}
      {slots : List Slot} {E2 : Env} {i2 : Bytes} {L L' : List Event} : LMember T E i slot E1 i1 L →
      LMembers Ts E1 i1 slots E2 i2 L' → LMembers (T :: Ts) E i (slot :: slots) E2 i2 (L ++ L')

/-- `Fill` with a log. -/
inductive LFill [Platform] : Option MemberType → (len : Nat) → Env → Bytes → List Slot → Env → Bytes → List Event → Prop
  | done {T : Option MemberType} {E : Env} {i : Bytes} : LFill T 0 E i [] E i []
  | step {T : Option MemberType} {len : Nat} {E : Env} {i : Bytes} {slot : Slot} {E1 : Env} {i1 : Bytes} {slots : List Slot}
      {E2 : Env} {i2 : Bytes} {L L' : List Event} : 0 < len → LMember T E i slot E1 i1 L →
      LFill T (len - slot.size) E1 i1 slots E2 i2 L' → LFill T len E i (slot :: slots) E2 i2 (L ++ L')

/-- `Resolve` with a log. -/
inductive LResolve [Platform] : List Slot → Env → Bytes → List Value → Env → Bytes → List Event → Prop
  | nil {E : Env} {i : Bytes} : LResolve [] E i [] E i []
  | value {v : Value} {slots : List Slot} {E : Env} {i : Bytes} {vs : List Value} {E' : Env} {i' : Bytes} {L : List Event} :
      LResolve slots E i vs E' i' L → LResolve (.value v :: slots) E i (v :: vs) E' i' L
  | nulls {n : Nat} {slots : List Slot} {E : Env} {i : Bytes} {vs : List Value} {E' : Env} {i' : Bytes} {L : List Event} :
      LResolve slots E i vs E' i' L → LResolve (.nulls n :: slots) E i (List.replicate n .null ++ vs) E' i' L
  | known {id : Nat} {slots : List Slot} {E : Env} {i : Bytes} {v : Value} {vs : List Value} {E' : Env} {i' : Bytes}
      {L : List Event} : E.objs id = some v → LResolve slots (E.drop id) i vs E' i' L →
      LResolve (.ref id :: slots) E i (v :: vs) E' i' ([.refers id] ++ L)
  | next {id : Nat} {slots : List Slot} {E : Env} {i : Bytes} {v : Value} {E1 : Env} {i1 : Bytes} {vs : List Value} {E' : Env}
      {i' : Bytes} {L L' : List Event} : E.objs id = none → LRecord E i id v E1 i1 L →
      LResolve slots (E1.drop id) i1 vs E' i' L' →
      LResolve (.ref id :: slots) E i (v :: vs) E' i' (L ++ [.refers id] ++ L')

/-- `Class` with a log. -/
inductive LClass [Platform] : Env → Bytes → (id : Nat) → (name : Str) → (library : Option Str) →
    (members : List (Str × Value)) → Env → Bytes → List Event → Prop
  | mk {E : Env} {i : Bytes} {E1 : Env} {h : ClassHead} {b i1 : Bytes} {library : Option Str} {E2 : Env} {i2 : Bytes}
      {slots : List Slot} {values : List Value} {E3 : Env} {i3 : Bytes} {L L' : List Event} : OptLib E i E1 (b ++ i1) →
      IsClassHead h b → h.HasLibrary E1 library →
      LMembers h.memberTypes E1 i1 slots E2 i2 L → LResolve slots E2 i2 values E3 i3 L' →
      LClass E i h.id h.name library (bindNames h.memberNames values) E3 i3 ([.opened h.id] ++ L ++ L' ++ [.closed h.id])

/-- `Record` with a log. -/
inductive LRecord [Platform] : Env → Bytes → (id : Nat) → (v : Value) → Env → Bytes → List Event → Prop
  | object {E : Env} {i : Bytes} {id : Nat} {name : Str} {library : Option Str} {members : List (Str × Value)} {E' : Env}
      {i' : Bytes} {L : List Event} : LClass E i id name library members E' i' L →
      LRecord E i id (.object name library members) E' i' L
  | objectArray {E : Env} {id len : Nat} {b i1 : Bytes} {slots : List Slot} {E2 : Env} {i2 : Bytes} {vs : List Value} {E3 : Env}
      {i3 : Bytes} {L L' : List Event} : IsArrayHead 16 id len b →
      LFill none len E i1 slots E2 i2 L → LResolve slots E2 i2 vs E3 i3 L' →
      LRecord E (b ++ i1) id (.array vs) E3 i3 ([.opened id] ++ L ++ L' ++ [.closed id])
  | primitiveArray {E : Env} {id : Nat} {t : PrimitiveType} {b : Bytes} {vs : List Value} {b2 i' : Bytes} :
      IsPrimitiveArrayHead id vs.length t b → IsSeq (IsPrimitive t) vs b2 →
      LRecord E (b ++ b2 ++ i') id (.array vs) E i' [.opened id, .closed id]
  | stringArray {E : Env} {id len : Nat} {b i1 : Bytes} {slots : List Slot} {E2 : Env} {i2 : Bytes} {vs : List Value} {E3 : Env}
      {i3 : Bytes} {L L' : List Event} : IsArrayHead 17 id len b →
      LFill (some .stringArray) len E i1 slots E2 i2 L → LResolve slots E2 i2 vs E3 i3 L' →
      LRecord E (b ++ i1) id (.array vs) E3 i3 ([.opened id] ++ L ++ L' ++ [.closed id])
  | array {E : Env} {id : Nat} {kind : BinaryArrayType} {lengths : List Nat} {T : MemberType} {b : Bytes} {n : Nat} {i1 : Bytes}
      {slots : List Slot} {E2 : Env} {i2 : Bytes} {vs rows : List Value} {E3 : Env} {i3 : Bytes} {L L' : List Event} :
      IsBinaryArrayHead id kind lengths T b → productUsize 1 lengths = some n →
      LMembers (List.replicate n (some T)) E i1 slots E2 i2 L → LResolve slots E2 i2 vs E3 i3 L' →
      Rows lengths.tail vs rows → LRecord E (b ++ i1) id (.array rows) E3 i3 ([.opened id] ++ L ++ L' ++ [.closed id])
  | string {E : Env} {id : Nat} {s : Str} {b i' : Bytes} : IsObjectString id s b →
      LRecord E (b ++ i') id (.string s) E i' [.opened id, .closed id]

end

/-- `Records` with a log. -/
inductive LRecords [Platform] : Env → Bytes → Env → Bytes → List Event → Prop
  | nil {E : Env} {i : Bytes} : LRecords E i E i []
  | cons {E : Env} {i : Bytes} {id : Nat} {v : Value} {E1 : Env} {i1 : Bytes} {E2 : Env} {i2 : Bytes} {L L' : List Event} :
      LRecord E i id v E1 i1 L → LRecords (E1.add id v) i1 E2 i2 L' → LRecords E i E2 i2 (L ++ L')

/-- `CallArray` with a log. -/
inductive LCallArray [Platform] (root : Nat) : Env → Bytes → Option (List Value) → Env → Bytes → List Event → Prop
  | some {E : Env} {i : Bytes} {E1 : Env} {b i1 : Bytes} {len : Nat} {slots : List Slot} {E2 : Env} {i2 : Bytes}
      {vs : List Value} {E3 : Env} {i3 : Bytes} {L L' : List Event} : OptLib E i E1 (b ++ i1) →
      IsArrayHead 16 root len b → LFill none len E1 i1 slots E2 i2 L → LResolve slots E2 i2 vs E3 i3 L' →
      LCallArray root E i (some vs) E3 i3 ([.opened root] ++ L ++ L' ++ [.closed root])
  | none {E : Env} {i : Bytes} : i.head? ≠ Option.some 16 → i.head? ≠ Option.some 12 → LCallArray root E i none E i []

/-- `Method` with a log. -/
inductive LMethod [Platform] (root : Nat) : Env → Bytes → (MethodCall ⊕ MethodReturn) → Env → Bytes → List Event → Prop
  | call {E : Env} {f : BitVec 32} {name type : Str} {context : Option Str} {inline : Option (List Value)} {b i1 : Bytes}
      {callArray args : Option (List Value)} {E' : Env} {i' : Bytes} {L : List Event} : FlagsOk f →
      IsMethodCall f name type context inline b → LCallArray root E i1 callArray E' i' L →
      ArgsFrom f callArray inline args →
      LMethod root E (b ++ i1) (.inl ⟨name, type, context, args⟩) E' i' L
  | return {E : Env} {f : BitVec 32} {value : Option Value} {context : Option Str} {inline : Option (List Value)} {b i1 : Bytes}
      {callArray args : Option (List Value)} {E' : Env} {i' : Bytes} {L : List Event} : FlagsOk f →
      IsMethodReturn f value context inline b → LCallArray root E i1 callArray E' i' L →
      ArgsFrom f callArray inline args →
      LMethod root E (b ++ i1) (.inr ⟨value, context, args⟩) E' i' L

/-- `Tail` with a log. -/
inductive LTail [Platform] (root : Nat) : Env → Bytes → RemotingMessage → Bytes → List Event → Prop
  | value {E : Env} {v : Value} {i' : Bytes} : RootValue root E v → LTail root E (11 :: i') (.value v) i' []
  | method {E : Env} {i : Bytes} {m : MethodCall ⊕ MethodReturn} {E1 : Env} {i1 : Bytes} {E2 : Env} {i' : Bytes}
      {L L' : List Event} : LMethod root E i m E1 i1 L → LRecords E1 i1 E2 (11 :: i') L' →
      LTail root E i (methodMessage m) i' (L ++ L')

/-- `w` is a message with content `m`, and reading it gives the log `L`. -/
inductive LMessage [Platform] : Bytes → RemotingMessage → List Event → Prop
  | mk {root : Nat} {h i : Bytes} {E : Env} {i1 : Bytes} {m : RemotingMessage} {L L' : List Event} : IsHeader root h →
      LRecords Env.empty i E i1 L → LTail root E i1 m [] L' → LMessage (h ++ i) m (L ++ L')

/-- The objects of the log are nested in one another: each ends after what it contains. -/
inductive Nested : List Event → Prop
  | nil : Nested []
  | refers (id : Nat) : Nested [.refers id]
  | append {L L' : List Event} : Nested L → Nested L' → Nested (L ++ L')
  | object {L : List Event} (id : Nat) : Nested L → Nested ([.opened id] ++ L ++ [.closed id])

/-- No two records of the log have the same id. -/
def DistinctIds (L : List Event) : Prop := ∀ id, L.count (.closed id) ≤ 1

/-- The object with the id `x`, or an object that is read while `x` is read (because it is written in place inside `x` or because
`x` refers to it), refers to the one with the id `y`: the reference gets its value between the beginning and the end of `x`. -/
def RefersTo (L : List Event) (x y : Nat) : Prop :=
  ∃ a b c, L = a ++ .opened x :: b ++ .closed x :: c ∧ .refers y ∈ b

end Nrbf.Spec
