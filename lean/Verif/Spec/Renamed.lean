import Verif.Spec.Message

/-! # Messages that differ in their ids only

The judgements of `Spec/Grammar.lean` and `Spec/Message.lean` again, rule by rule, for two byte strings that are read side by
side: `i` with the ids of objects and libraries as they are, and `j` with these ids renamed.  (Besides, `i` and `j` may encode
the length of a string differently.)  That the first of the two is a message and that every message arises this way is a theorem
(`C89_left`, `C89_every`). -/

set_option autoImplicit false

namespace Nrbf.Spec

/-- A renaming of object ids and of library ids. -/
structure Renaming where
  obj : Nat → Nat
  lib : Nat → Nat

namespace Renaming

/-- Different ids get different names, ids remain ids, and 0 (no root object) is kept. -/
structure Good (σ : Renaming) : Prop where
  obj_inj : ∀ a b, σ.obj a = σ.obj b → a = b
  lib_inj : ∀ a b, σ.lib a = σ.lib b → a = b
  obj_zero : σ.obj 0 = 0
  lib_zero : σ.lib 0 = 0
  obj_lt : ∀ a, a < 2 ^ 31 → σ.obj a < 2 ^ 31
  lib_lt : ∀ a, a < 2 ^ 31 → σ.lib a < 2 ^ 31

/-- Nothing is renamed. -/
def same : Renaming := ⟨id, id⟩

/-- A member type with its library renamed. -/
def type (σ : Renaming) : MemberType → MemberType
  | .class name l => .class name (σ.lib l)
  | T => T

/-- A class head with its ids renamed. -/
def head (σ : Renaming) (h : ClassHead) : ClassHead :=
  { h with id := σ.obj h.id, types := h.types.map (List.map σ.type), library := h.library.map σ.lib }

end Renaming

/-- `OptLib`, twice.  In `strict` messages, byte 12 stands only where a library record does: there is no library record because
the byte is another one. -/
inductive ROptLib (σ : Renaming) (strict : Bool) : Env → Bytes → Bytes → Env → Bytes → Bytes → Prop
  | none {E : Env} {i j : Bytes} : NoLibrary i → NoLibrary j → (strict = true → i.head? ≠ Option.some 12) →
      ROptLib σ strict E i j E i j
  | some {E : Env} {id : Nat} {name : Str} {b b' i j : Bytes} : IsLibrary id name b → IsLibrary (σ.lib id) name b' →
      E.libs id = Option.none → ROptLib σ strict E (b ++ i) (b' ++ j) (E.addLib id name) i j

mutual

/-- `Member`, twice. -/
inductive RMember [Platform] (σ : Renaming) (strict : Bool) :
    Option MemberType → Env → Bytes → Bytes → Slot → Env → Bytes → Bytes → Prop
  | primitive {E : Env} {i j : Bytes} {E1 : Env} {b : Bytes} {v : Value} {i' j' : Bytes} :
      ROptLib σ strict E i j E1 (b ++ i') (b ++ j') → IsTypedPrimitive v b → RMember σ strict none E i j (.value v) E1 i' j'
  | reference {E : Env} {i j : Bytes} {E1 : Env} {b b' : Bytes} {id : Nat} {i' j' : Bytes} :
      ROptLib σ strict E i j E1 (b ++ i') (b' ++ j') → IsReference id b → IsReference (σ.obj id) b' →
      RMember σ strict none E i j (.ref id) E1 i' j'
  | string {E : Env} {i j : Bytes} {E1 : Env} {b b' : Bytes} {id : Nat} {s : Str} {i' j' : Bytes} :
      ROptLib σ strict E i j E1 (b ++ i') (b' ++ j') → IsObjectString id s b → IsObjectString (σ.obj id) s b' →
      RMember σ strict none E i j (.value (.string s)) E1 i' j'
  | nulls {E : Env} {i j : Bytes} {E1 : Env} {b : Bytes} {n : Nat} {i' j' : Bytes} :
      ROptLib σ strict E i j E1 (b ++ i') (b ++ j') → IsNulls n b → RMember σ strict none E i j (.nulls n) E1 i' j'
  | object {E : Env} {i j : Bytes} {E1 : Env} {i1 j1 : Bytes} {id : Nat} {name : Str} {library : Option Str}
      {members : List (Str × Value)} {E2 : Env} {i2 j2 : Bytes} : ROptLib σ strict E i j E1 i1 j1 →
      RClass σ strict E1 i1 j1 id name library members E2 i2 j2 →
      RMember σ strict none E i j (.value (.object name library members)) E2 i2 j2
  | typedPrimitive {t : PrimitiveType} {E : Env} {i j : Bytes} {E1 : Env} {b : Bytes} {v : Value} {i' j' : Bytes} :
      ROptLib σ strict E i j E1 (b ++ i') (b ++ j') → IsPrimitive t v b →
      RMember σ strict (some (.primitive t)) E i j (.value v) E1 i' j'
  | typedString {E : Env} {i j : Bytes} {E1 : Env} {b b' : Bytes} {id : Nat} {s : Str} {i' j' : Bytes} :
      ROptLib σ strict E i j E1 (b ++ i') (b' ++ j') → IsObjectString id s b → IsObjectString (σ.obj id) s b' →
      RMember σ strict (some .string) E i j (.value (.string s)) E1 i' j'
  | typedObject {E : Env} {i j : Bytes} {E1 : Env} {i1 j1 : Bytes} {slot : Slot} {E2 : Env} {i2 j2 : Bytes} :
      ROptLib σ strict E i j E1 i1 j1 → RMember σ strict none E1 i1 j1 slot E2 i2 j2 →
      RMember σ strict (some .object) E i j slot E2 i2 j2
  | typedObjectArray {E : Env} {i j : Bytes} {E1 : Env} {i1 j1 : Bytes} {slot : Slot} {E2 : Env} {i2 j2 : Bytes} :
      ROptLib σ strict E i j E1 i1 j1 → RMember σ strict none E1 i1 j1 slot E2 i2 j2 →
      RMember σ strict (some .objectArray) E i j slot E2 i2 j2
  | systemClass {name : Str} {E : Env} {i j : Bytes} {E1 : Env} {i1 j1 : Bytes} {id : Nat} {members : List (Str × Value)}
      {E2 : Env} {i2 j2 : Bytes} : ROptLib σ strict E i j E1 i1 j1 → RClass σ strict E1 i1 j1 id name none members E2 i2 j2 →
      RMember σ strict (some (.systemClass name)) E i j (.value (.object name none members)) E2 i2 j2
  | systemClassNulls {name : Str} {E : Env} {i j : Bytes} {E1 : Env} {b : Bytes} {n : Nat} {i' j' : Bytes} :
      ROptLib σ strict E i j E1 (b ++ i') (b ++ j') → IsNulls n b →
      RMember σ strict (some (.systemClass name)) E i j (.nulls n) E1 i' j'
  | class {name : Str} {l : Nat} {E : Env} {i j : Bytes} {E1 : Env} {i1 j1 : Bytes} {library : Str} {id : Nat}
      {members : List (Str × Value)} {E2 : Env} {i2 j2 : Bytes} : ROptLib σ strict E i j E1 i1 j1 →
      E1.libs l = some library → RClass σ strict E1 i1 j1 id name (some library) members E2 i2 j2 →
      RMember σ strict (some (.class name l)) E i j (.value (.object name (some library) members)) E2 i2 j2
  | classNulls {name : Str} {l : Nat} {E : Env} {i j : Bytes} {E1 : Env} {library : Str} {b : Bytes} {n : Nat} {i' j' : Bytes} :
      ROptLib σ strict E i j E1 (b ++ i') (b ++ j') → E1.libs l = some library → IsNulls n b →
      RMember σ strict (some (.class name l)) E i j (.nulls n) E1 i' j'
  | stringArrayString {E : Env} {i j : Bytes} {E1 : Env} {b b' : Bytes} {id : Nat} {s : Str} {i' j' : Bytes} :
      ROptLib σ strict E i j E1 (b ++ i') (b' ++ j') → IsObjectString id s b → IsObjectString (σ.obj id) s b' →
      RMember σ strict (some .stringArray) E i j (.value (.string s)) E1 i' j'
  | stringArrayReference {E : Env} {i j : Bytes} {E1 : Env} {b b' : Bytes} {id : Nat} {i' j' : Bytes} :
      ROptLib σ strict E i j E1 (b ++ i') (b' ++ j') → IsReference id b → IsReference (σ.obj id) b' →
      RMember σ strict (some .stringArray) E i j (.ref id) E1 i' j'
  | stringArrayNulls {E : Env} {i j : Bytes} {E1 : Env} {b : Bytes} {n : Nat} {i' j' : Bytes} :
      ROptLib σ strict E i j E1 (b ++ i') (b ++ j') → IsNulls n b →
      RMember σ strict (some .stringArray) E i j (.nulls n) E1 i' j'
  | primitiveArray {t : PrimitiveType} {E : Env} {i j : Bytes} {E1 : Env} {b b' : Bytes} {id : Nat} {i' j' : Bytes} :
      ROptLib σ strict E i j E1 (b ++ i') (b' ++ j') → IsReference id b → IsReference (σ.obj id) b' →
      RMember σ strict (some (.primitiveArray t)) E i j (.ref id) E1 i' j'

/-- `Members`, twice. -/
inductive RMembers [Platform] (σ : Renaming) (strict : Bool) :
    List (Option MemberType) → Env → Bytes → Bytes → List Slot → Env → Bytes → Bytes → Prop
  | nil {E : Env} {i j : Bytes} : RMembers σ strict [] E i j [] E i j
  | cons {T : Option MemberType} {Ts : List (Option MemberType)} {E : Env} {i j : Bytes} {slot : Slot} {E1 : Env}
      {i1 j1 : Bytes} {slots : List Slot} {E2 : Env} {i2 j2 : Bytes} : RMember σ strict T E i j slot E1 i1 j1 →
      RMembers σ strict Ts E1 i1 j1 slots E2 i2 j2 → RMembers σ strict (T :: Ts) E i j (slot :: slots) E2 i2 j2

/-- `Fill`, twice. -/
inductive RFill [Platform] (σ : Renaming) (strict : Bool) :
    Option MemberType → (len : Nat) → Env → Bytes → Bytes → List Slot → Env → Bytes → Bytes → Prop
  | done {T : Option MemberType} {E : Env} {i j : Bytes} : RFill σ strict T 0 E i j [] E i j
  | step {T : Option MemberType} {len : Nat} {E : Env} {i j : Bytes} {slot : Slot} {E1 : Env} {i1 j1 : Bytes}
      {slots : List Slot} {E2 : Env} {i2 j2 : Bytes} : 0 < len → RMember σ strict T E i j slot E1 i1 j1 →
      RFill σ strict T (len - slot.size) E1 i1 j1 slots E2 i2 j2 → RFill σ strict T len E i j (slot :: slots) E2 i2 j2

/-- `Resolve`, twice. -/
inductive RResolve [Platform] (σ : Renaming) (strict : Bool) :
    List Slot → Env → Bytes → Bytes → List Value → Env → Bytes → Bytes → Prop
  | nil {E : Env} {i j : Bytes} : RResolve σ strict [] E i j [] E i j
  | value {v : Value} {slots : List Slot} {E : Env} {i j : Bytes} {vs : List Value} {E' : Env} {i' j' : Bytes} :
      RResolve σ strict slots E i j vs E' i' j' → RResolve σ strict (.value v :: slots) E i j (v :: vs) E' i' j'
  | nulls {n : Nat} {slots : List Slot} {E : Env} {i j : Bytes} {vs : List Value} {E' : Env} {i' j' : Bytes} :
      RResolve σ strict slots E i j vs E' i' j' →
      RResolve σ strict (.nulls n :: slots) E i j (List.replicate n .null ++ vs) E' i' j'
  | known {id : Nat} {slots : List Slot} {E : Env} {i j : Bytes} {v : Value} {vs : List Value} {E' : Env} {i' j' : Bytes} :
      E.objs id = some v → RResolve σ strict slots (E.drop id) i j vs E' i' j' →
      RResolve σ strict (.ref id :: slots) E i j (v :: vs) E' i' j'
  | next {id : Nat} {slots : List Slot} {E : Env} {i j : Bytes} {v : Value} {E1 : Env} {i1 j1 : Bytes} {vs : List Value}
      {E' : Env} {i' j' : Bytes} : E.objs id = none → RRecord σ strict E i j id v E1 i1 j1 →
      RResolve σ strict slots (E1.drop id) i1 j1 vs E' i' j' →
      RResolve σ strict (.ref id :: slots) E i j (v :: vs) E' i' j'

/-- `Class`, twice. -/
inductive RClass [Platform] (σ : Renaming) (strict : Bool) : Env → Bytes → Bytes → (id : Nat) → (name : Str) →
    (library : Option Str) → (members : List (Str × Value)) → Env → Bytes → Bytes → Prop
  | mk {E : Env} {i j : Bytes} {E1 : Env} {h : ClassHead} {b b' i1 j1 : Bytes} {library : Option Str} {E2 : Env}
      {i2 j2 : Bytes} {slots : List Slot} {values : List Value} {E3 : Env} {i3 j3 : Bytes} :
      ROptLib σ strict E i j E1 (b ++ i1) (b' ++ j1) → IsClassHead h b → IsClassHead (σ.head h) b' → h.HasLibrary E1 library →
      RMembers σ strict h.memberTypes E1 i1 j1 slots E2 i2 j2 → RResolve σ strict slots E2 i2 j2 values E3 i3 j3 →
      RClass σ strict E i j h.id h.name library (bindNames h.memberNames values) E3 i3 j3

/-- `Record`, twice. -/
inductive RRecord [Platform] (σ : Renaming) (strict : Bool) :
    Env → Bytes → Bytes → (id : Nat) → (v : Value) → Env → Bytes → Bytes → Prop
  | object {E : Env} {i j : Bytes} {id : Nat} {name : Str} {library : Option Str} {members : List (Str × Value)} {E' : Env}
      {i' j' : Bytes} : RClass σ strict E i j id name library members E' i' j' →
      RRecord σ strict E i j id (.object name library members) E' i' j'
  | objectArray {E : Env} {id len : Nat} {b b' i1 j1 : Bytes} {slots : List Slot} {E2 : Env} {i2 j2 : Bytes}
      {vs : List Value} {E3 : Env} {i3 j3 : Bytes} : IsArrayHead 16 id len b → IsArrayHead 16 (σ.obj id) len b' →
      RFill σ strict none len E i1 j1 slots E2 i2 j2 → RResolve σ strict slots E2 i2 j2 vs E3 i3 j3 →
      RRecord σ strict E (b ++ i1) (b' ++ j1) id (.array vs) E3 i3 j3
  | primitiveArray {E : Env} {id : Nat} {t : PrimitiveType} {b b' : Bytes} {vs : List Value} {b2 i' j' : Bytes} :
      IsPrimitiveArrayHead id vs.length t b → IsPrimitiveArrayHead (σ.obj id) vs.length t b' → IsSeq (IsPrimitive t) vs b2 →
      RRecord σ strict E (b ++ b2 ++ i') (b' ++ b2 ++ j') id (.array vs) E i' j'
  | stringArray {E : Env} {id len : Nat} {b b' i1 j1 : Bytes} {slots : List Slot} {E2 : Env} {i2 j2 : Bytes}
      {vs : List Value} {E3 : Env} {i3 j3 : Bytes} : IsArrayHead 17 id len b → IsArrayHead 17 (σ.obj id) len b' →
      RFill σ strict (some .stringArray) len E i1 j1 slots E2 i2 j2 → RResolve σ strict slots E2 i2 j2 vs E3 i3 j3 →
      RRecord σ strict E (b ++ i1) (b' ++ j1) id (.array vs) E3 i3 j3
  | array {E : Env} {id : Nat} {kind : BinaryArrayType} {lengths : List Nat} {T : MemberType} {b b' : Bytes} {n : Nat}
      {i1 j1 : Bytes} {slots : List Slot} {E2 : Env} {i2 j2 : Bytes} {vs rows : List Value} {E3 : Env} {i3 j3 : Bytes} :
      IsBinaryArrayHead id kind lengths T b → IsBinaryArrayHead (σ.obj id) kind lengths (σ.type T) b' →
      productUsize 1 lengths = some n →
      RMembers σ strict (List.replicate n (some T)) E i1 j1 slots E2 i2 j2 → RResolve σ strict slots E2 i2 j2 vs E3 i3 j3 →
      Rows lengths.tail vs rows → RRecord σ strict E (b ++ i1) (b' ++ j1) id (.array rows) E3 i3 j3
  | string {E : Env} {id : Nat} {s : Str} {b b' i' j' : Bytes} : IsObjectString id s b → IsObjectString (σ.obj id) s b' →
      RRecord σ strict E (b ++ i') (b' ++ j') id (.string s) E i' j'

end

/-- `Records`, twice. -/
inductive RRecords [Platform] (σ : Renaming) (strict : Bool) : Env → Bytes → Bytes → Env → Bytes → Bytes → Prop
  | nil {E : Env} {i j : Bytes} : RRecords σ strict E i j E i j
  | cons {E : Env} {i j : Bytes} {id : Nat} {v : Value} {E1 : Env} {i1 j1 : Bytes} {E2 : Env} {i2 j2 : Bytes} :
      RRecord σ strict E i j id v E1 i1 j1 → RRecords σ strict (E1.add id v) i1 j1 E2 i2 j2 →
      RRecords σ strict E i j E2 i2 j2

/-- `CallArray`, twice. -/
inductive RCallArray [Platform] (σ : Renaming) (strict : Bool) (root : Nat) :
    Env → Bytes → Bytes → Option (List Value) → Env → Bytes → Bytes → Prop
  | some {E : Env} {i j : Bytes} {E1 : Env} {b b' i1 j1 : Bytes} {len : Nat} {slots : List Slot} {E2 : Env} {i2 j2 : Bytes}
      {vs : List Value} {E3 : Env} {i3 j3 : Bytes} : ROptLib σ strict E i j E1 (b ++ i1) (b' ++ j1) →
      IsArrayHead 16 root len b → IsArrayHead 16 (σ.obj root) len b' → RFill σ strict none len E1 i1 j1 slots E2 i2 j2 →
      RResolve σ strict slots E2 i2 j2 vs E3 i3 j3 → RCallArray σ strict root E i j (some vs) E3 i3 j3
  | none {E : Env} {i j : Bytes} : i.head? ≠ Option.some 16 → i.head? ≠ Option.some 12 → j.head? ≠ Option.some 16 →
      j.head? ≠ Option.some 12 → RCallArray σ strict root E i j none E i j

/-- `Method`, twice. -/
inductive RMethod [Platform] (σ : Renaming) (strict : Bool) (root : Nat) :
    Env → Bytes → Bytes → (MethodCall ⊕ MethodReturn) → Env → Bytes → Bytes → Prop
  | call {E : Env} {f : BitVec 32} {name type : Str} {context : Option Str} {inline : Option (List Value)} {b i1 j1 : Bytes}
      {callArray args : Option (List Value)} {E' : Env} {i' j' : Bytes} : FlagsOk f →
      IsMethodCall f name type context inline b → RCallArray σ strict root E i1 j1 callArray E' i' j' →
      ArgsFrom f callArray inline args →
      RMethod σ strict root E (b ++ i1) (b ++ j1) (.inl ⟨name, type, context, args⟩) E' i' j'
  | return {E : Env} {f : BitVec 32} {value : Option Value} {context : Option Str} {inline : Option (List Value)}
      {b i1 j1 : Bytes} {callArray args : Option (List Value)} {E' : Env} {i' j' : Bytes} : FlagsOk f →
      IsMethodReturn f value context inline b → RCallArray σ strict root E i1 j1 callArray E' i' j' →
      ArgsFrom f callArray inline args →
      RMethod σ strict root E (b ++ i1) (b ++ j1) (.inr ⟨value, context, args⟩) E' i' j'

/-- `Tail`, twice. -/
inductive RTail [Platform] (σ : Renaming) (strict : Bool) (root : Nat) : Env → Bytes → Bytes → RemotingMessage → Prop
  | value {E : Env} {v : Value} : RootValue root E v → RTail σ strict root E [11] [11] (.value v)
  | method {E : Env} {i j : Bytes} {m : MethodCall ⊕ MethodReturn} {E1 : Env} {i1 j1 : Bytes} {E2 : Env} :
      RMethod σ strict root E i j m E1 i1 j1 → RRecords σ strict E1 i1 j1 E2 [11] [11] →
      RTail σ strict root E i j (methodMessage m)

/-- `w` and `w'` are messages with the content `m`, which differ in the ids: `w'` has the ids of `w` renamed. -/
inductive Renamed [Platform] (σ : Renaming) (strict : Bool) : Bytes → Bytes → RemotingMessage → Prop
  | mk {root : Nat} {h h' i j : Bytes} {E : Env} {i1 j1 : Bytes} {m : RemotingMessage} : IsHeader root h →
      IsHeader (σ.obj root) h' → RRecords σ strict Env.empty i j E i1 j1 → RTail σ strict root E i1 j1 m →
      Renamed σ strict (h ++ i) (h' ++ j) m

/-- If asked for: wherever byte 12 stands, a library record begins. -/
def Clear (c : Bool) (i : Bytes) : Prop := c = true → ∀ q, q <:+ i → q.head? = some 12 → ¬ NoLibrary q

/-- `w'` is `w` with some ids (four bytes each) replaced by the renamed ones, and otherwise the same. -/
inductive IdsReplaced (σ : Renaming) : Bytes → Bytes → Prop
  | nil : IdsReplaced σ [] []
  | byte {w w' : Bytes} (x : UInt8) : IdsReplaced σ w w' → IdsReplaced σ (x :: w) (x :: w')
  | obj {w w' b b' : Bytes} {id : Nat} : IsId id b → IsId (σ.obj id) b' → IdsReplaced σ w w' → IdsReplaced σ (b ++ w) (b' ++ w')
  | lib {w w' b b' : Bytes} {id : Nat} : IsId id b → IsId (σ.lib id) b' → IdsReplaced σ w w' → IdsReplaced σ (b ++ w) (b' ++ w')

end Nrbf.Spec
