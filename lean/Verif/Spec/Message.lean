import Verif.Spec.Grammar
import Verif.Spec.Method
import Verif.Spec.Contents

/-! # Messages, declaratively

`Message w m`: the bytes `w` are a message with content `m`.  Nothing here refers to the model's
parsers. -/

namespace Nrbf.Spec

/-- The call array after a method record: an object array with the root id, possibly after a library.
If it is absent, neither an object array nor a library follows. -/
inductive CallArray [Platform] (root : Nat) :
    Env → Bytes → Option (List Value) → Env → Bytes → Prop
  | some {E i E1 b i1 len slots E2 i2 vs E3 i3} : OptLib E i E1 (b ++ i1) →
      IsArrayHead 16 root len b → Fill none len E1 i1 slots E2 i2 → Resolve slots E2 i2 vs E3 i3 →
      CallArray root E i (some vs) E3 i3
  | none {E i} : i.head? ≠ Option.some 16 → i.head? ≠ Option.some 12 → CallArray root E i none E i

/-- Where the arguments come from: the flag bits 2 (ArgsIsArray), 3 (ArgsInArray), or inline. -/
def ArgsFrom (f : BitVec 32) (callArray inline args : Option (List Value)) : Prop :=
  (f.getLsbD 2 = true ∧ ∃ vs, callArray = some vs ∧ args = some vs) ∨
  (f.getLsbD 2 = false ∧ f.getLsbD 3 = true ∧
    ∃ vs rest, callArray = some (.array vs :: rest) ∧ args = some vs) ∨
  (f.getLsbD 2 = false ∧ f.getLsbD 3 = false ∧ args = inline)

/-- The value of a message without method record: null for root id 0, else the object with the root
id. -/
def RootValue (root : Nat) (E : Env) (v : Value) : Prop :=
  (root = 0 ∧ v = .null) ∨ (root ≠ 0 ∧ E.objs root = some v)

/-- A method record (call or return) with its call array.  Any `IsMethodCall` flag word must be
admissible. -/
inductive Method [Platform] (root : Nat) :
    Env → Bytes → (MethodCall ⊕ MethodReturn) → Env → Bytes → Prop
  | call {E f name type context inline b i1 callArray args E' i'} : FlagsOk f →
      IsMethodCall f name type context inline b → CallArray root E i1 callArray E' i' →
      ArgsFrom f callArray inline args →
      Method root E (b ++ i1) (.inl ⟨name, type, context, args⟩) E' i'
  | return {E f value context inline b i1 callArray args E' i'} : FlagsOk f →
      IsMethodReturn f value context inline b → CallArray root E i1 callArray E' i' →
      ArgsFrom f callArray inline args →
      Method root E (b ++ i1) (.inr ⟨value, context, args⟩) E' i'

/-- The content of a message whose method record is this one. -/
def methodMessage : MethodCall ⊕ MethodReturn → RemotingMessage
  | .inl c => .methodCall c
  | .inr r => .methodReturn r

/-- What follows the records in front of the method record: the end of the message, or the method
record, further records and the end of the message.  `i'` is what trails the message. -/
inductive Tail [Platform] (root : Nat) : Env → Bytes → RemotingMessage → Bytes → Prop
  | value {E v i'} : RootValue root E v → Tail root E (11 :: i') (.value v) i'
  | method {E i m E1 i1 E2 i'} : Method root E i m E1 i1 → Records E1 i1 E2 (11 :: i') →
      Tail root E i (methodMessage m) i'

/-- A message followed by `i'`. -/
inductive MessageThen [Platform] : Bytes → RemotingMessage → Bytes → Prop
  | mk {root h i E i1 m i'} : IsHeader root h → Records Env.empty i E i1 → Tail root E i1 m i' →
      MessageThen (h ++ i) m i'

/-- A message. -/
def Message [Platform] (w : Bytes) (m : RemotingMessage) : Prop := MessageThen w m []

/-- No MemberReference record occurs anywhere: no byte 9 with the four bytes of a positive id after it. -/
def NoReference (w : Bytes) : Prop := ∀ id b, IsReference id b → ¬ b <:+: w

/-- What a rejected record leaves behind: objects may be gone, at most one is new or replaced (by an
object, an array or a string), and no library is forgotten. -/
def Residue (E E1 : Env) : Prop :=
  (∃ id, ∀ k v, E1.objs k = some v → E.objs k = some v ∨ (k = id ∧ hasId v = true)) ∧
  ∀ l, (E.libs l).isSome → (E1.libs l).isSome

/-- How the crate also accepts input that is not a message: a record attempt at `i1` fails, and the
second pass of the record loop starts at the same place with the tables `E1` that the failed attempt
left behind (see C29). -/
inductive Retried [Platform] : Bytes → RemotingMessage → Prop
  | value {root h i E i1 E1 E2 v} : IsHeader root h → Records Env.empty i E i1 →
      (¬ ∃ id v E' r, Record E i1 id v E' r) →
      (∃ tag ∈ [2, 3, 4, 5, 7, 16, 17], i1.head? = some tag) → Residue E E1 →
      Records E1 i1 E2 [11] → RootValue root E2 v → Retried (h ++ i) (.value v)
  | call {root h i E b i1 f name type context inline args E1 E2} : IsHeader root h →
      Records Env.empty i E (b ++ i1) → FlagsOk f → IsMethodCall f name type context inline b →
      (¬ ∃ callArray E' r, CallArray root E i1 callArray E' r) → i1.head? = some 16 → Residue E E1 →
      ArgsFrom f none inline args → Records E1 i1 E2 [11] →
      Retried (h ++ i) (.methodCall ⟨name, type, context, args⟩)
  | return {root h i E b i1 f value context inline args E1 E2} : IsHeader root h →
      Records Env.empty i E (b ++ i1) → FlagsOk f → IsMethodReturn f value context inline b →
      (¬ ∃ callArray E' r, CallArray root E i1 callArray E' r) → i1.head? = some 16 → Residue E E1 →
      ArgsFrom f none inline args → Records E1 i1 E2 [11] →
      Retried (h ++ i) (.methodReturn ⟨value, context, args⟩)

/-- Appending `t` completes a BinaryLibrary record that was incomplete in `w`. -/
def CompletesLibrary (w t : Bytes) : Prop :=
  ∃ q, q <:+ w ∧ q ≠ [] ∧ NoLibrary q ∧ ¬ NoLibrary (q ++ t)

end Nrbf.Spec
