import Verif.Lemmas.Encodings
import Verif.Props.Renamed
import Verif.Props.Encodings

/-! # Whatever a writer writes is a strict message (C89)

The judgements for two messages with both the same, under the names of the judgements for one message, so that the proofs of
`Lemmas/Encodings.lean` can be repeated for them. -/

set_option autoImplicit false

namespace Nrbf.Spec.Strict

open Nrbf

def OptLib (E : Env) (i : Bytes) (E' : Env) (r : Bytes) : Prop := ROptLib .same true E i i E' r r

theorem OptLib.none {E : Env} {i : Bytes} (h : Starts i) : OptLib E i E i := ROptLib.none (.inl h) (.inl h) fun _ => h

theorem OptLib.some {E : Env} {id : Nat} {name : Str} {b i : Bytes} (h : IsLibrary id name b) (hn : E.libs id = Option.none) :
    OptLib E (b ++ i) (E.addLib id name) i := ROptLib.some h h hn

section
variable [Platform]

def Member (T : Option MemberType) (E : Env) (i : Bytes) (slot : Slot) (E' : Env) (r : Bytes) : Prop :=
  RMember .same true T E i i slot E' r r
def Members (Ts : List (Option MemberType)) (E : Env) (i : Bytes) (slots : List Slot) (E' : Env) (r : Bytes) : Prop :=
  RMembers .same true Ts E i i slots E' r r
def Fill (T : Option MemberType) (len : Nat) (E : Env) (i : Bytes) (slots : List Slot) (E' : Env) (r : Bytes) : Prop :=
  RFill .same true T len E i i slots E' r r
def Resolve (slots : List Slot) (E : Env) (i : Bytes) (vs : List Value) (E' : Env) (r : Bytes) : Prop :=
  RResolve .same true slots E i i vs E' r r
def Class (E : Env) (i : Bytes) (id : Nat) (name : Str) (library : Option Str) (ms : List (Str × Value)) (E' : Env) (r : Bytes) :
    Prop := RClass .same true E i i id name library ms E' r r
def Record (E : Env) (i : Bytes) (id : Nat) (v : Value) (E' : Env) (r : Bytes) : Prop := RRecord .same true E i i id v E' r r
def Records (E : Env) (i : Bytes) (E' : Env) (r : Bytes) : Prop := RRecords .same true E i i E' r r
def CallArray (root : Nat) (E : Env) (i : Bytes) (o : Option (List Value)) (E' : Env) (r : Bytes) : Prop :=
  RCallArray .same true root E i i o E' r r

variable {E E1 E2 E3 E' : Env}
  {i i1 i2 i3 i' b b2 : Bytes}
  {id n len l : Nat}
  {v : Value}
  {s name library : Str}
  {lib : Option Str}
  {ms : List (Str × Value)} {slot : Slot} {slots : List Slot} {vs rows values : List Value} {t : PrimitiveType} {T : Option MemberType} {M : MemberType} {Ts : List (Option MemberType)} {h : ClassHead} {kind : BinaryArrayType} {lengths : List Nat}

theorem Member.primitive (a : OptLib E i E1 (b ++ i')) (h : IsTypedPrimitive v b) :
    Member none E i (.value v) E1 i' := RMember.primitive a h

theorem Member.reference (a : OptLib E i E1 (b ++ i')) (h : IsReference id b) :
    Member none E i (.ref id) E1 i' := RMember.reference a h h

theorem Member.string (a : OptLib E i E1 (b ++ i')) (h : IsObjectString id s b) :
    Member none E i (.value (.string s)) E1 i' := RMember.string a h h

theorem Member.nulls (a : OptLib E i E1 (b ++ i')) (h : IsNulls n b) :
    Member none E i (.nulls n) E1 i' := RMember.nulls a h

theorem Member.object (a : OptLib E i E1 i1) (h : Class E1 i1 id name lib ms E2 i2) :
    Member none E i (.value (.object name lib ms)) E2 i2 := RMember.object a h

theorem Member.typedPrimitive (a : OptLib E i E1 (b ++ i')) (h : IsPrimitive t v b) :
    Member (some (.primitive t)) E i (.value v) E1 i' := RMember.typedPrimitive a h

theorem Member.typedString (a : OptLib E i E1 (b ++ i')) (h : IsObjectString id s b) :
    Member (some .string) E i (.value (.string s)) E1 i' := RMember.typedString a h h

theorem Member.typedObject (a : OptLib E i E1 i1) (h : Member none E1 i1 slot E2 i2) :
    Member (some .object) E i slot E2 i2 := RMember.typedObject a h

theorem Member.typedObjectArray (a : OptLib E i E1 i1) (h : Member none E1 i1 slot E2 i2) :
    Member (some .objectArray) E i slot E2 i2 := RMember.typedObjectArray a h

theorem Member.systemClass (a : OptLib E i E1 i1) (h : Class E1 i1 id name none ms E2 i2) :
    Member (some (.systemClass name)) E i (.value (.object name none ms)) E2 i2 := RMember.systemClass a h

theorem Member.systemClassNulls (a : OptLib E i E1 (b ++ i')) (h : IsNulls n b) :
    Member (some (.systemClass name)) E i (.nulls n) E1 i' := RMember.systemClassNulls a h

theorem Member.class (a : OptLib E i E1 i1) (k : E1.libs l = some library) (h : Class E1 i1 id name (some library) ms E2 i2) :
    Member (some (.class name l)) E i (.value (.object name (some library) ms)) E2 i2 := RMember.class a k h

theorem Member.classNulls (a : OptLib E i E1 (b ++ i')) (k : E1.libs l = some library) (h : IsNulls n b) :
    Member (some (.class name l)) E i (.nulls n) E1 i' := RMember.classNulls a k h

theorem Member.stringArrayString (a : OptLib E i E1 (b ++ i')) (h : IsObjectString id s b) :
    Member (some .stringArray) E i (.value (.string s)) E1 i' := RMember.stringArrayString a h h

theorem Member.stringArrayReference (a : OptLib E i E1 (b ++ i')) (h : IsReference id b) :
    Member (some .stringArray) E i (.ref id) E1 i' := RMember.stringArrayReference a h h

theorem Member.stringArrayNulls (a : OptLib E i E1 (b ++ i')) (h : IsNulls n b) :
    Member (some .stringArray) E i (.nulls n) E1 i' := RMember.stringArrayNulls a h

theorem Member.primitiveArray (a : OptLib E i E1 (b ++ i')) (h : IsReference id b) :
    Member (some (.primitiveArray t)) E i (.ref id) E1 i' := RMember.primitiveArray a h h

theorem Members.nil  :
    Members [] E i [] E i := RMembers.nil

theorem Members.cons (a : Member T E i slot E1 i1) (h : Members Ts E1 i1 slots E2 i2) :
    Members (T :: Ts) E i (slot :: slots) E2 i2 := RMembers.cons a h

theorem Fill.done  :
    Fill T 0 E i [] E i := RFill.done

theorem Fill.step (hl : 0 < len) (a : Member T E i slot E1 i1) (h : Fill T (len - slot.size) E1 i1 slots E2 i2) :
    Fill T len E i (slot :: slots) E2 i2 := RFill.step hl a h

theorem Resolve.nil  :
    Resolve [] E i [] E i := RResolve.nil

theorem Resolve.value (h : Resolve slots E i vs E' i') :
    Resolve (.value v :: slots) E i (v :: vs) E' i' := RResolve.value h

theorem Resolve.nulls (h : Resolve slots E i vs E' i') :
    Resolve (.nulls n :: slots) E i (List.replicate n .null ++ vs) E' i' := RResolve.nulls h

theorem Resolve.next (e : E.objs id = none) (a : Record E i id v E1 i1) (h : Resolve slots (E1.drop id) i1 vs E' i') :
    Resolve (.ref id :: slots) E i (v :: vs) E' i' := RResolve.next e a h

theorem Class.mk (a : OptLib E i E1 (b ++ i1)) (c : IsClassHead h b) (k : h.HasLibrary E1 lib)
    (x : Members h.memberTypes E1 i1 slots E2 i2) (y : Resolve slots E2 i2 values E3 i3) :
    Class E i h.id h.name lib (bindNames h.memberNames values) E3 i3 := RClass.mk a c (by rw [head_twice]; exact c) k x y

theorem Record.object (h : Class E i id name lib ms E' i') :
    Record E i id (.object name lib ms) E' i' := RRecord.object h

theorem Record.objectArray (c : IsArrayHead 16 id len b) (x : Fill none len E i1 slots E2 i2) (y : Resolve slots E2 i2 vs E3 i3) :
    Record E (b ++ i1) id (.array vs) E3 i3 := RRecord.objectArray c c x y

theorem Record.stringArray (c : IsArrayHead 17 id len b) (x : Fill (some .stringArray) len E i1 slots E2 i2) (y : Resolve slots E2 i2 vs E3 i3) :
    Record E (b ++ i1) id (.array vs) E3 i3 := RRecord.stringArray c c x y

theorem Record.primitiveArray (c : IsPrimitiveArrayHead id vs.length t b) (x : IsSeq (IsPrimitive t) vs b2) :
    Record E (b ++ b2 ++ i') id (.array vs) E i' := RRecord.primitiveArray c c x

theorem Record.array (c : IsBinaryArrayHead id kind lengths M b) (p : productUsize 1 lengths = some n)
    (x : Members (List.replicate n (some M)) E i1 slots E2 i2) (y : Resolve slots E2 i2 vs E3 i3) (z : Rows lengths.tail vs rows) :
    Record E (b ++ i1) id (.array rows) E3 i3 := RRecord.array c (by rw [type_twice]; exact c) p x y z

theorem Record.string (h : IsObjectString id s b) :
    Record E (b ++ i') id (.string s) E i' := RRecord.string h h

end

theorem library_step {L : Nat → Option Str} {id : Nat} {name : Str} {b : Bytes} (hb : IsLibrary id name b)
    (h : L id = none) (i : Bytes) :
    OptLib (env L) (b ++ i) (env fun k => if k = id then some name else L k) i :=
  OptLib.some (E := env L) hb h

theorem libraries_one {f : List Token} (h : Libraries 1 f) {L : Nat → Option Str} (hd : Declared L f) {i : Bytes}
    (hi : Starts i) : OptLib (env L) (written f ++ i) (env (after L f)) i := by
  obtain ⟨hl, hf⟩ := h
  match f, hl, hf, hd with
  | [], _, _, _ => exact .none hi
  | [t], _, hf, hd =>
    obtain ⟨id, name, b, hb, rfl⟩ := hf t (.head _)
    have := library_step hb hd.1 i
    simpa [written, Token.write, after] using this

theorem libraries_two {f : List Token} (h : Libraries 2 f) {L : Nat → Option Str} (hd : Declared L f) {i : Bytes}
    (hi : Starts i) : ∃ L1 i1, OptLib (env L) (written f ++ i) (env L1) i1 ∧ OptLib (env L1) i1 (env (after L f)) i := by
  obtain ⟨hl, hf⟩ := h
  match f, hl, hf, hd with
  | [], _, _, _ => exact ⟨_, _, .none hi, .none hi⟩
  | t :: f, hl, hf, hd =>
    obtain ⟨id, name, b, hb, rfl⟩ := hf t (.head _)
    refine ⟨_, written f ++ i, ?_, libraries_one ⟨by simpa using hl, fun t ht => hf t (.tail _ ht)⟩ hd.2 hi⟩
    have := library_step hb hd.1 (written f ++ i)
    simpa [written_cons, Token.write] using this

theorem libraries_three {f : List Token} (h : Libraries 3 f) {L : Nat → Option Str} (hd : Declared L f) {i : Bytes}
    (hi : Starts i) : ∃ L1 i1 L2 i2, OptLib (env L) (written f ++ i) (env L1) i1 ∧ OptLib (env L1) i1 (env L2) i2 ∧
      OptLib (env L2) i2 (env (after L f)) i := by
  obtain ⟨hl, hf⟩ := h
  match f, hl, hf, hd with
  | [], _, _, _ => exact ⟨_, _, _, _, .none hi, .none hi, .none hi⟩
  | t :: f, hl, hf, hd =>
    obtain ⟨id, name, b, hb, rfl⟩ := hf t (.head _)
    obtain ⟨L2, i2, h2, h3⟩ := libraries_two ⟨by simpa using hl, fun t ht => hf t (.tail _ ht)⟩ hd.2 hi
    refine ⟨_, _, L2, i2, ?_, h2, h3⟩
    have := library_step hb hd.1 (written f ++ i)
    simpa [written_cons, Token.write] using this

section
variable [Platform]

/-- What has to come later for the slot to become the value. -/
def Later (slot : Slot) (v : Value) (l : List Token) : Prop :=
  ∀ {L : Nat → Option Str} {slots : List Slot} {vs : List Value} {i : Bytes} {E' : Env} {i' : Bytes}, Declared L l →
    Resolve slots (env (after L l)) i vs E' i' → Resolve (slot :: slots) (env L) (written l ++ i) (v :: vs) E' i'

/-- The same for several. -/
def LaterAll (slots : List Slot) (vs : List Value) (l : List Token) : Prop :=
  ∀ {L : Nat → Option Str} {slots' : List Slot} {vs' : List Value} {i : Bytes} {E' : Env} {i' : Bytes}, Declared L l →
    Resolve slots' (env (after L l)) i vs' E' i' →
    Resolve (slots ++ slots') (env L) (written l ++ i) (vs ++ vs') E' i'

theorem later_value (v : Value) : Later (.value v) v [] := fun _ h => .value h

theorem later_null : Later (.nulls 1) .null [] := fun _ h => .nulls (n := 1) h

theorem later_ref {id : Nat} {v : Value} {ts : List Token}
    (h : ∀ (L : Nat → Option Str) (i : Bytes), Declared L ts → Record (env L) (written ts ++ i) id v (env (after L ts)) i) :
    Later (.ref id) v ts := fun hd hr => .next rfl (h _ _ hd) (by rwa [env_drop])

theorem laterAll_nil : LaterAll [] [] [] := fun _ h => h

theorem laterAll_cons {slot : Slot} {v : Value} {l : List Token} {slots : List Slot} {vs : List Value} {ls : List Token}
    (h1 : Later slot v l) (h2 : LaterAll slots vs ls) : LaterAll (slot :: slots) (v :: vs) (l ++ ls) := by
  intro L slots' vs' i E' i' hd hr
  rw [declared_append] at hd
  rw [after_append] at hr
  rw [written_append, List.append_assoc]
  exact h1 hd.1 (h2 hd.2 hr)

theorem laterAll_nulls {n : Nat} {slots : List Slot} {vs : List Value} {ls : List Token} (h : LaterAll slots vs ls) :
    LaterAll (.nulls n :: slots) (List.replicate n .null ++ vs) ls := by
  intro L slots' vs' i E' i' hd hr
  rw [List.append_assoc]
  exact .nulls (h hd hr)

theorem laterAll_resolve {slots : List Slot} {vs : List Value} {ls : List Token} (h : LaterAll slots vs ls)
    {L : Nat → Option Str} (hd : Declared L ls) (i : Bytes) :
    Resolve slots (env L) (written ls ++ i) vs (env (after L ls)) i := by
  have := h hd (.nil (E := env (after L ls)) (i := i))
  simpa using this

/-- The one declared type or element: its slot. -/
def ElemOk (T : Option MemberType) (v : Value) (n l : List Token) : Prop :=
  ∃ slot : Slot, slot.size = 1 ∧
    (∀ {L : Nat → Option Str} {i : Bytes}, Declared L n → Member T (env L) (written n ++ i) slot (env (after L n)) i) ∧
    Later slot v l

/-- Member or element after at most one library. -/
theorem elem_one {T : Option MemberType} {v : Value} {f : List Token} {b : Bytes} {l : List Token} {slot : Slot}
    (hf : Libraries 1 f) (hb : ∀ i, Starts (b ++ i)) (hs : slot.size = 1)
    (hm : ∀ {E : Env} {i : Bytes} {E1 : Env} {i' : Bytes}, OptLib E i E1 (b ++ i') → Member T E i slot E1 i')
    (hl : Later slot v l) : ElemOk T v (f ++ [.bytes b]) l := by
  refine ⟨slot, hs, ?_, hl⟩
  intro L i hd
  rw [declared_append] at hd
  have h := libraries_one hf hd.1 (hb i)
  rw [written_append, after_append, List.append_assoc]
  have e : written [.bytes b] = b := by simp [written, Token.write]
  rw [e]
  exact hm h

mutual
theorem inPlace_ok {v : Value} {b : Bytes} {l : List Token} : InPlace v b l →
    ∃ slot : Slot, slot.size = 1 ∧ (∀ i, Starts (b ++ i)) ∧
      (∀ {E : Env} {i : Bytes} {E1 : Env} {i' : Bytes}, OptLib E i E1 (b ++ i') → Member none E i slot E1 i') ∧
      Later slot v l
  | .primitive h => ⟨.value _, rfl, starts_primitive h, (fun ho => .primitive ho h), later_value _⟩
  | .string h => ⟨.value _, rfl, starts_string h, (fun ho => .string ho h), later_value _⟩
  | .null h => ⟨.nulls 1, rfl, starts_nulls h, (fun ho => .nulls ho h), later_null⟩
  | .reference h hr => ⟨.ref _, rfl, starts_reference h, (fun ho => .reference ho h), later_ref (rec_ok hr)⟩

theorem elem_ok {T : Option MemberType} {v : Value} {n l : List Token} : Elem T v n l → ElemOk T v n l
  | .any hf h => by
    obtain ⟨slot, hs, hb, hm, hl⟩ := inPlace_ok h
    exact elem_one hf hb hs hm hl
  | .anyObject (f := f) (ts := ts) hf h => by
    obtain ⟨name, lib, ms, rfl, hb, hc⟩ := obj_ok h
    refine ⟨.value _, rfl, ?_, later_value _⟩
    intro L i hd
    rw [declared_append] at hd
    obtain ⟨L1, i1, h1, h2⟩ := libraries_two hf hd.1 (hb i)
    rw [written_append, after_append, List.append_assoc]
    exact .object h1 (hc hd.2 h2)
  | .object (f := f) (b := b) hT hf h => by
    obtain ⟨slot, hs, hb, hm, hl⟩ := inPlace_ok h
    refine ⟨slot, hs, ?_, hl⟩
    intro L i hd
    rw [declared_append] at hd
    obtain ⟨L1, i1, h1, h2⟩ := libraries_two hf hd.1 (hb i)
    rw [written_append, after_append, List.append_assoc]
    have e : written [.bytes b] = b := by simp [written, Token.write]
    rw [e]
    rcases hT with rfl | rfl
    · exact .typedObject h1 (hm h2)
    · exact .typedObjectArray h1 (hm h2)
  | .objectObject hT hf h => by
    obtain ⟨name, lib, ms, rfl, hb, hc⟩ := obj_ok h
    refine ⟨.value _, rfl, ?_, later_value _⟩
    intro L i hd
    rw [declared_append] at hd
    obtain ⟨L1, i1, L2, i2, h1, h2, h3⟩ := libraries_three hf hd.1 (hb i)
    rw [written_append, after_append, List.append_assoc]
    rcases hT with rfl | rfl
    · exact .typedObject h1 (.object h2 (hc hd.2 h3))
    · exact .typedObjectArray h1 (.object h2 (hc hd.2 h3))
  | .primitive hf h h12 => elem_one (slot := .value _) hf (starts_bare h h12) rfl (fun ho => .typedPrimitive ho h) (later_value _)
  | .string hf h => elem_one (slot := .value _) hf (starts_string h) rfl (fun ho => .typedString ho h) (later_value _)
  | .systemClass hf h => by
    obtain ⟨name, lib, ms, e, hb, hc⟩ := obj_ok h
    cases e
    refine ⟨.value _, rfl, ?_, later_value _⟩
    intro L i hd
    rw [declared_append] at hd
    obtain ⟨L1, i1, h1, h2⟩ := libraries_two hf hd.1 (hb i)
    rw [written_append, after_append, List.append_assoc]
    exact .systemClass h1 (hc hd.2 h2)
  | .systemClassNull hf h => elem_one (slot := .nulls 1) hf (starts_nulls h) rfl (fun ho => .systemClassNulls ho h) later_null
  | .class (k := k) (library := library) (f := f) (g := g) (ts := ts) hf hg hfg h => by
    obtain ⟨name, lib, ms, e, hb, hc⟩ := obj_ok h
    cases e
    refine ⟨.value _, rfl, ?_, later_value _⟩
    intro L i hd
    rw [declared_append] at hd
    obtain ⟨hd1, hk, hd2⟩ := hd
    rw [declared_append] at hd2
    have h2 := libraries_one hg hd2.1 (hb i)
    have h1 : OptLib (env L) (written f ++ (written g ++ (written ts ++ i))) (env (after L f)) (written g ++ (written ts ++ i)) := by
      by_cases h0 : f = []
      · subst h0
        rw [hfg rfl]
        exact .none (hb i)
      · obtain ⟨hl, hm⟩ := hf
        match f, h0, hl, hm, hd1 with
        | [t], _, _, hm, hd1 =>
          obtain ⟨id, nm, b, hb', rfl⟩ := hm t (.head _)
          have := library_step hb' hd1.1 (written g ++ (written ts ++ i))
          simpa [written, Token.write, after] using this
    have := Member.class h1 hk (hc hd2.2 h2)
    rw [after_append]
    simp only [after, after_append]
    have e : written (f ++ Token.needs k library :: (g ++ ts)) ++ i = written f ++ (written g ++ (written ts ++ i)) := by
      simp [written, Token.write]
    rw [e]
    exact this
  | .classNull (k := k) (library := library) (f := f) (b := b) hf h => by
    refine ⟨.nulls 1, rfl, ?_, later_null⟩
    intro L i hd
    rw [declared_append] at hd
    have h1 := libraries_one hf hd.1 (starts_nulls h i)
    rw [after_append]
    have e : written (f ++ [.needs k library, .bytes b]) ++ i = written f ++ (b ++ i) := by
      simp [written, Token.write]
    rw [e]
    exact .classNulls h1 hd.2.1 h
  | .stringArrayString hf h =>
    elem_one (slot := .value _) hf (starts_string h) rfl (fun ho => .stringArrayString ho h) (later_value _)
  | .stringArrayReference hf h hr =>
    elem_one (slot := .ref _) hf (starts_reference h) rfl (fun ho => .stringArrayReference ho h)
      (later_ref (rec_ok hr))
  | .stringArrayNull hf h =>
    elem_one (slot := .nulls 1) hf (starts_nulls h) rfl (fun ho => .stringArrayNulls ho h) later_null
  | .primitiveArray hf h hr =>
    elem_one (slot := .ref _) hf (starts_reference h) rfl (fun ho => .primitiveArray ho h) (later_ref (rec_ok hr))

theorem each_ok {Ts : List (Option MemberType)} {vs : List Value} {n l : List Token} : Each Ts vs n l →
    ∃ slots : List Slot,
      (∀ {L : Nat → Option Str} {i : Bytes}, Declared L n → Members Ts (env L) (written n ++ i) slots (env (after L n)) i) ∧
      LaterAll slots vs l
  | .nil => ⟨[], (fun _ => .nil), laterAll_nil⟩
  | .cons h hs => by
    obtain ⟨slot, _, hm, hl⟩ := elem_ok h
    obtain ⟨slots, hms, hls⟩ := each_ok hs
    refine ⟨slot :: slots, ?_, laterAll_cons hl hls⟩
    intro L i hd
    rw [declared_append] at hd
    rw [written_append, after_append, List.append_assoc]
    exact .cons (hm hd.1) (hms hd.2)

theorem elems_ok {T : Option MemberType} {vs : List Value} {n l : List Token} (hT : T = none ∨ T = some .stringArray) :
    Elems T vs n l →
    ∃ slots : List Slot,
      (∀ {L : Nat → Option Str} {i : Bytes}, Declared L n →
        Fill T vs.length (env L) (written n ++ i) slots (env (after L n)) i) ∧
      LaterAll slots vs l
  | .nil => ⟨[], (fun _ => .done), laterAll_nil⟩
  | .cons h hs => by
    obtain ⟨slot, h1, hm, hl⟩ := elem_ok h
    obtain ⟨slots, hms, hls⟩ := elems_ok hT hs
    refine ⟨slot :: slots, ?_, laterAll_cons hl hls⟩
    intro L i hd
    rw [declared_append] at hd
    rw [written_append, after_append, List.append_assoc]
    refine .step (by simp) (hm hd.1) ?_
    rw [h1]
    simpa using hms hd.2
  | .nulls (n := k) (f := f) (b := b) (vs := vs) (ns := ns) hf h hs => by
    obtain ⟨slots, hms, hls⟩ := elems_ok hT hs
    refine ⟨.nulls k :: slots, ?_, laterAll_nulls hls⟩
    intro L i hd
    rw [declared_append] at hd
    have h1 := libraries_one hf hd.1 (starts_nulls h (written ns ++ i))
    rw [after_append]
    have e : written (f ++ .bytes b :: ns) ++ i = written f ++ (b ++ (written ns ++ i)) := by
      simp [written, Token.write]
    rw [e]
    have hk : 0 < k := by rcases h with ⟨rfl, _⟩ | ⟨h, _⟩ | ⟨h, _⟩ <;> omega
    refine .step (by simp; omega) (slot := .nulls k) (E1 := env (after L f)) (i1 := written ns ++ i) ?_ ?_
    · rcases hT with rfl | rfl
      · exact .nulls h1 h
      · exact .stringArrayNulls h1 h
    · have := hms (i := i) hd.2
      simpa [Slot.size, after] using this

theorem obj_ok {id : Nat} {v : Value} {ts : List Token} : Obj id v ts →
    ∃ name lib ms, v = .object name lib ms ∧ (∀ i, Starts (written ts ++ i)) ∧
      ∀ {L : Nat → Option Str} {i : Bytes} {E : Env} {i0 : Bytes}, Declared L ts → OptLib E i0 (env L) (written ts ++ i) →
        Class E i0 id name lib ms (env (after L ts)) i
  | .system (h := c) (b := b) (vs := vs) (n := n) (l := l) hc hl hn he => by
    obtain ⟨slots, hms, hls⟩ := each_ok he
    have ew : ∀ i, written (.bytes b :: (n ++ l)) ++ i = b ++ (written n ++ (written l ++ i)) := by
      intro i; simp [written, Token.write]
    refine ⟨_, _, _, rfl, (fun i => by rw [ew]; exact starts_class hc _), ?_⟩
    intro L i E i0 hd ho
    rw [ew] at ho
    have hd : Declared L (n ++ l) := hd
    rw [declared_append] at hd
    have := Class.mk ho hc (lib := none) (by unfold ClassHead.HasLibrary; rw [hl]) (hms hd.1) (laterAll_resolve hls hd.2 i)
    have el : c.memberNames.length = vs.length := by rw [← memberTypes_length hc, each_length he]
    rw [bindNames_nodup hn] at this
    show Class E i0 _ _ _ _ (env (after L (n ++ l))) i
    rw [after_append]
    exact this
  | .library (h := c) (b := b) (k := k) (library := library) (vs := vs) (n := n) (l := l) hc hl hn he => by
    obtain ⟨slots, hms, hls⟩ := each_ok he
    have ew : ∀ i, written (.bytes b :: .needs k library :: (n ++ l)) ++ i = b ++ (written n ++ (written l ++ i)) := by
      intro i; simp [written, Token.write]
    refine ⟨_, _, _, rfl, (fun i => by rw [ew]; exact starts_class hc _), ?_⟩
    intro L i E i0 hd ho
    rw [ew] at ho
    have hd : L k = some library ∧ Declared L (n ++ l) := hd
    rw [declared_append] at hd
    have := Class.mk ho hc (lib := some library) (by unfold ClassHead.HasLibrary; rw [hl]; exact ⟨_, hd.1, rfl⟩)
      (hms hd.2.1) (laterAll_resolve hls hd.2.2 i)
    rw [bindNames_nodup hn] at this
    show Class E i0 _ _ _ _ (env (after L (n ++ l))) i
    rw [after_append]
    exact this

theorem rec_ok {id : Nat} {v : Value} {ts : List Token} : RecordOf id v ts →
    ∀ (L : Nat → Option Str) (i : Bytes), Declared L ts → Record (env L) (written ts ++ i) id v (env (after L ts)) i
  | .object hf h => by
    obtain ⟨name, lib, ms, rfl, hb, hc⟩ := obj_ok h
    intro L i hd
    rw [declared_append] at hd
    rw [written_append, after_append, List.append_assoc]
    exact .object (hc hd.2 (libraries_one hf hd.1 (hb i)))
  | .string h => by
    intro L i _
    have := Record.string (E := env L) (i' := i) h
    simpa [written, Token.write, after] using this
  | .primitiveArray h hs => by
    intro L i _
    have := Record.primitiveArray (E := env L) (i' := i) h hs
    simpa [written, Token.write, after] using this
  | .objectArray (n := n) (l := l) h hs => by
    obtain ⟨slots, hms, hls⟩ := elems_ok (.inl rfl) hs
    intro L i hd
    have hd : Declared L (n ++ l) := hd
    rw [declared_append] at hd
    have := Record.objectArray (E := env L) h (hms hd.1) (laterAll_resolve hls hd.2 i)
    show Record _ _ _ _ (env (after L (n ++ l))) i
    rw [after_append]
    simpa [written, Token.write] using this
  | .stringArray (n := n) (l := l) h hs => by
    obtain ⟨slots, hms, hls⟩ := elems_ok (.inr rfl) hs
    intro L i hd
    have hd : Declared L (n ++ l) := hd
    rw [declared_append] at hd
    have := Record.stringArray (E := env L) h (hms hd.1) (laterAll_resolve hls hd.2 i)
    show Record _ _ _ _ (env (after L (n ++ l))) i
    rw [after_append]
    simpa [written, Token.write] using this
  | .array (lengths := lengths) (v := v) (vs := vs) (n := n) (l := l) h h0 hp hsh he hs => by
    obtain ⟨slots, hms, hls⟩ := each_ok hs
    intro L i hd
    have hd : Declared L (n ++ l) := hd
    rw [declared_append] at hd
    cases hsh with
    | leaf => exact absurd rfl h0
    | @array d ds rows _ hd' hall =>
      have hrows : Rows ds vs rows := by
        unfold Rows
        split
        · rename_i h; have := he h; cases this; rfl
        · exact hall
      have := Record.array (E := env L) h hp (hms hd.1) (laterAll_resolve hls hd.2 i) hrows
      show Record _ _ _ _ (env (after L (n ++ l))) i
      rw [after_append]
      simpa [written, Token.write] using this
end

theorem arguments_ok {root : Nat} {callArray : Option (List Value)} {ts : List Token} (h : Arguments root callArray ts)
    (hd : Declared (fun _ => none) ts) : ∃ E, CallArray root Env.empty (written ts ++ [11]) callArray E [11] := by
  cases h with
  | none => exact ⟨_, RCallArray.none (by simp [written]) (by simp [written]) (by simp [written]) (by simp [written])⟩
  | @some f vs b n l hf hb hs =>
    rw [declared_append] at hd
    obtain ⟨hd1, hd2⟩ := hd
    have hd2 : Declared (after (fun _ => none) f) (n ++ l) := hd2
    rw [declared_append] at hd2
    obtain ⟨slots, hms, hls⟩ := elems_ok (.inl rfl) hs
    have h1 := libraries_one hf hd1 (i := b ++ (written n ++ (written l ++ [11])))
      (by obtain ⟨_, _, _, _, rfl⟩ := hb; simp [Starts])
    have e : written (f ++ .bytes b :: (n ++ l)) ++ [11] = written f ++ (b ++ (written n ++ (written l ++ [11]))) := by
      simp [written, Token.write]
    rw [e]
    exact ⟨_, RCallArray.some h1 hb hb (hms hd2.1) (laterAll_resolve hls hd2.2 _)⟩


/-- Whatever a writer writes is a strict message. -/
theorem written_strict {m : RemotingMessage} {w : Bytes} (h : Written m w) : Renamed .same true w w m := by
  cases h with
  | null hh => exact .mk hh hh .nil (.value (.inl ⟨rfl, rfl⟩))
  | value hh hr hd =>
    rw [List.append_assoc]
    exact .mk hh hh (.cons (rec_ok hr _ _ hd) .nil) (.value (.inr ⟨rec_id hr, by simp [Env.add]⟩))
  | call hh hf hb ha hd hargs =>
    obtain ⟨E, hc⟩ := arguments_ok ha hd
    rw [List.append_assoc, List.append_assoc]
    exact .mk hh hh .nil (.method (m := .inl _) (.call hf hb hc hargs) .nil)
  | «return» hh hf hb ha hd hargs =>
    obtain ⟨E, hc⟩ := arguments_ok ha hd
    rw [List.append_assoc, List.append_assoc]
    exact .mk hh hh .nil (.method (m := .inr _) (.return hf hb hc hargs) .nil)

end

end Nrbf.Spec.Strict
