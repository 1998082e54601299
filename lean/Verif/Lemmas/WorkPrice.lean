import Verif.Lemmas.WorkKnot

/-! # Work with different prices -/

set_option autoImplicit false

namespace Nrbf
open Spec

variable {α β : Type} {P Q : Price} {K L : Nat}

/-- On inputs of at most `L` bytes, `P` is at most `K` times as expensive as `Q`. -/
structure Cheaper (P Q : Price) (K L : Nat) : Prop where
  pos : 1 ≤ K
  miss : ∀ i : Bytes, i.length ≤ L → P.miss i ≤ K * Q.miss i

/-- The same result, at most `K` times the work, and at most `L` bytes are left. -/
def Dom (K L : Nat) (x y : Timed α) : Prop :=
  x.1 = y.1 ∧ x.2 ≤ K * y.2 ∧ ∀ r a, x.1.1 = .ok r a → r.length ≤ L

/-- The same for parsers, on inputs of at most `L` bytes. -/
def DomP (K L : Nat) (t u : TP α) : Prop := ∀ s i, i.length ≤ L → Dom K L (t s i) (u s i)

theorem Dom.bind {x y : Timed α} {f g : α → St → Bytes → Timed β} (h : Dom K L x y)
    (hf : ∀ a s r, r.length ≤ L → Dom K L (f a s r) (g a s r)) : Dom K L (x.bind f) (y.bind g) := by
  obtain ⟨⟨o, s⟩, n⟩ := x
  obtain ⟨⟨o', s'⟩, n'⟩ := y
  obtain ⟨h1, h2, h3⟩ := h
  cases h1
  cases o with
  | ok r a =>
    obtain ⟨h4, h5, h6⟩ := hf a s r (h3 r a rfl)
    refine ⟨h4, ?_, h6⟩
    simp only [Timed.bind, Nat.mul_add] at h2 ⊢
    omega
  | _ => exact ⟨rfl, h2, (by intro r a e; cases e)⟩

theorem Dom.map {x y : Timed α} (f : α → β) (h : Dom K L x y) : Dom K L (x.map f) (y.map f) := by
  obtain ⟨⟨o, s⟩, n⟩ := x
  obtain ⟨⟨o', s'⟩, n'⟩ := y
  obtain ⟨h1, h2, h3⟩ := h
  cases h1
  cases o with
  | ok r a => exact ⟨rfl, h2, (by intro r' a' e; cases e; exact h3 r a rfl)⟩
  | _ => exact ⟨rfl, h2, (by intro r a e; cases e)⟩

theorem Dom.free {x : Res α} (h : ∀ r a, x.1 = .ok r a → r.length ≤ L) : Dom K L (free x) (free x) :=
  ⟨rfl, Nat.zero_le _, h⟩

theorem Dom.ret {i : Bytes} {a : α} {s : St} (h : i.length ≤ L) : Dom K L (Nrbf.free (.ok i a, s)) (Nrbf.free (.ok i a, s)) :=
  .free (by intro r a e; cases e; exact h)

theorem leaf_dom (hk : Cheaper P Q K L) {i : Bytes} (hi : i.length ≤ L) (o : Outcome Error α) :
    @leafWork α P i o ≤ K * @leafWork α Q i o := by
  cases o with
  | error e => exact hk.miss i hi
  | _ => exact Nat.le_mul_of_pos_left _ hk.pos

theorem altWork_dom (hk : Cheaper P Q K L) {i : Bytes} (hi : i.length ≤ L) (p : Parser α) (ps : List (Parser α)) :
    @altWork α P p ps i ≤ K * @altWork α Q p ps i := by
  induction ps generalizing p with
  | nil => exact leaf_dom hk hi _
  | cons q qs ih =>
    unfold altWork
    have h1 := ih q
    have h2 := hk.miss i hi
    split
    · rw [Nat.mul_add]; omega
    · exact leaf_dom hk hi _

/-- A parser without state that does not lengthen its input. -/
def Shrinks (p : Parser α) : Prop := ∀ i, Eats p i

theorem read_dom (hk : Cheaper P Q K L) {p : Parser α} (hp : Shrinks p) : DomP K L (@readT α P p) (@readT α Q p) :=
  fun _ i hi => ⟨rfl, leaf_dom hk hi _, fun r a e => by have := hp i r a e; omega⟩

theorem readAlt_dom (hk : Cheaper P Q K L) {p : Parser α} {ps : List (Parser α)} (hp : ∀ q ∈ p :: ps, Shrinks q) :
    DomP K L (@readAltT α P p ps) (@readAltT α Q p ps) :=
  fun _ i hi => ⟨rfl, altWork_dom hk hi _ _, fun r a e => by have := alt_eats (fun q hq => hp q hq i) r a e; omega⟩

theorem count_dom {t u : TP α} (h : DomP K L t u) (n : Nat) : DomP K L (countT t n) (countT u n) := by
  induction n with
  | zero => exact fun s i hi => .ret hi
  | succ n ih => exact fun s i hi => Dom.bind (h s i hi) fun a s r hr => (ih s r hr).map _

theorem opt_dom {t u : TP α} (h : DomP K L t u) : DomP K L (optT t) (optT u) := by
  intro s i hi
  have := h s i hi
  unfold optT
  generalize t s i = x at this
  generalize u s i = y at this
  obtain ⟨⟨o, s⟩, n⟩ := x
  obtain ⟨⟨o', s'⟩, n'⟩ := y
  obtain ⟨h1, h2, h3⟩ := this
  cases h1
  cases o with
  | error e => exact ⟨rfl, h2, (by intro r a e; cases e; exact hi)⟩
  | ok r a => exact ⟨rfl, h2, (by intro r' a' e; cases e; exact h3 r a rfl)⟩
  | _ => exact ⟨rfl, h2, (by intro r a e; cases e)⟩

theorem altMut_nil_dom : DomP K L (altMutT ([] : List (TP α))) (altMutT []) :=
  fun _ _ _ => .free (by intro r a e; cases e)

theorem altMut_dom {t u : TP α} {ts us : List (TP α)} (h : DomP K L t u) (hs : DomP K L (altMutT ts) (altMutT us)) :
    DomP K L (altMutT (t :: ts)) (altMutT (u :: us)) := by
  intro s i hi
  have := h s i hi
  unfold altMutT
  generalize t s i = x at this
  generalize u s i = y at this
  obtain ⟨⟨o, s⟩, n⟩ := x
  obtain ⟨⟨o', s'⟩, n'⟩ := y
  obtain ⟨h1, h2, h3⟩ := this
  cases h1
  cases o with
  | error e =>
    obtain ⟨h4, h5, h6⟩ := hs s i hi
    refine ⟨h4, ?_, h6⟩
    simp only [Nat.mul_add] at h2 ⊢
    omega
  | _ => exact ⟨rfl, h2, h3⟩

theorem library_dom (hk : Cheaper P Q K L) : DomP K L (@binaryLibraryT P) (@binaryLibraryT Q) := by
  intro s i hi
  refine ⟨rfl, leaf_dom hk hi _, fun r a e => ?_⟩
  rcases library_ok (s := s) (i := i) (r := r) (u := a) (s' := (parseBinaryLibrary s i).2) (Prod.ext e rfl) with h | h
  · rw [h.1]; exact hi
  · have := h.1; omega

section
variable [Platform] {tc uc : TP (Nat × Object)} {tr ur : TP Nat}

theorem memberNone_dom (hk : Cheaper P Q K L) (h : DomP K L tc uc) :
    DomP K L (@memberReferenceNoneT P _ tc) (@memberReferenceNoneT Q _ uc) := by
  intro s i hi
  refine Dom.bind (library_dom hk s i hi) fun _ s i hi => ?_
  have := readAlt_dom hk (p := fun i => (memberPrimitiveTyped i).map fun p => ValueOrRef.value p.intoValue)
    (ps := [refMember, stringMember, parseNullObject]) (by
      intro q hq i
      simp only [List.mem_cons, List.not_mem_nil, or_false] at hq
      rcases hq with rfl | rfl | rfl | rfl
      · exact typedMember_eats i
      · exact refMember_eats i
      · exact stringMember_eats i
      · exact nullMember_eats i) s i hi
  simp only [readAltT] at this ⊢
  generalize alt _ _ i = o at this ⊢
  cases o with
  | error e =>
    obtain ⟨h4, h5, h6⟩ := (h s i hi).map fun o => ValueOrRef.value o.2.toValue
    refine ⟨h4, ?_, h6⟩
    have := this.2.1
    simp only [Nat.mul_add] at h5 ⊢
    simp only [Timed.map] at *
    omega
  | _ => exact this

omit [Platform] in
theorem expectedClass_dom (hk : Cheaper P Q K L) (h : DomP K L tc uc) (name : Str) (library : Option Str) :
    DomP K L (@expectedClassT P tc name library) (@expectedClassT Q uc name library) := by
  intro s i hi
  have := h s i hi
  have h0 := altWork_dom hk hi ObjectNull.parse [ObjectNullMultiple.parse, ObjectNullMultiple256.parse]
  have hn := nullMember_eats i
  unfold expectedClassT
  generalize tc s i = x at this
  generalize uc s i = y at this
  obtain ⟨⟨o, s⟩, n⟩ := x
  obtain ⟨⟨o', s'⟩, n'⟩ := y
  obtain ⟨h1, h2, h3⟩ := this
  cases h1
  cases o with
  | ok r a =>
    simp only
    split
    · exact ⟨rfl, h2, (by intro r a e; cases e)⟩
    · exact ⟨rfl, h2, (by intro r' a' e; cases e; exact h3 r a rfl)⟩
  | error e | failure e =>
    refine ⟨rfl, ?_, fun r a e => ?_⟩
    · simp only [Nat.mul_add] at h2 ⊢; omega
    · have := hn r a e; omega
  | _ => exact ⟨rfl, h2, (by intro r a e; cases e)⟩

theorem member_dom (hk : Cheaper P Q K L) (h : DomP K L tc uc) (t : BinaryType) (info : Option AdditionalTypeInfo) :
    DomP K L (@memberReferenceT P _ tc t info) (@memberReferenceT Q _ uc t info) := by
  intro s i hi
  refine Dom.bind (library_dom hk s i hi) fun _ s i hi => ?_
  split
  · rename_i p
    exact read_dom hk (fun i => eats (V := fun _ => True) (w := i)
      ((untyped_good p (List.suffix_refl i)).map fun _ _ => trivial)) s i hi
  · exact read_dom hk stringMember_eats s i hi
  · exact memberNone_dom hk h s i hi
  · exact expectedClass_dom hk h _ _ s i hi
  · split
    · exact expectedClass_dom hk h _ _ s i hi
    · exact .free (by intro r a e; cases e)
  · exact memberNone_dom hk h s i hi
  · exact readAlt_dom hk (by
      intro q hq i
      simp only [List.mem_cons, List.not_mem_nil, or_false] at hq
      rcases hq with rfl | rfl | rfl
      · exact stringMember_eats i
      · exact refMember_eats i
      · exact nullMember_eats i) s i hi
  · exact read_dom hk refMember_eats s i hi
  · exact .free (by intro r a e; cases e)

theorem members_dom (hk : Cheaper P Q K L) (h : DomP K L tc uc) (ts : List (BinaryType × Option AdditionalTypeInfo)) :
    DomP K L (@membersWithTypeInfoT P _ tc ts) (@membersWithTypeInfoT Q _ uc ts) := by
  induction ts with
  | nil => exact fun s i hi => .ret hi
  | cons t ts ih =>
    exact fun s i hi => Dom.bind (member_dom hk h _ _ s i hi) fun a s r hr => (ih s r hr).map _

omit [Platform] in
theorem resolveRef_dom (hk : 1 ≤ K) (h : DomP K L tr ur) (id : Nat) : DomP K L (resolveRefT tr id) (resolveRefT ur id) := by
  intro s i hi
  have := h s i hi
  unfold resolveRefT
  cases s.objects.get? id with
  | some v => exact ⟨rfl, by simp only; omega, (by intro r a e; cases e; exact hi)⟩
  | none =>
    simp only
    generalize tr s i = x at this
    generalize ur s i = y at this
    obtain ⟨⟨o, s⟩, n⟩ := x
    obtain ⟨⟨o', s'⟩, n'⟩ := y
    obtain ⟨h1, h2, h3⟩ := this
    cases h1
    have hw : 1 + n ≤ K * (1 + n') := by rw [Nat.mul_add]; simp only at h2; omega
    cases o with
    | ok r a =>
      simp only
      by_cases e : a = id
      · rw [if_pos e, if_pos e]
        cases s.objects.get? a with
        | none => exact ⟨rfl, hw, (by intro r a e; cases e)⟩
        | some v => exact ⟨rfl, hw, (by intro r' a' e; cases e; exact h3 r a rfl)⟩
      · rw [if_neg e, if_neg e]
        exact ⟨rfl, hw, (by intro r a e; cases e)⟩
    | _ => exact ⟨rfl, hw, (by intro r a e; cases e)⟩

omit [Platform] in
theorem resolve_dom (hk : 1 ≤ K) (h : DomP K L tr ur) (ms : List ValueOrRef) :
    DomP K L (resolveMembersT tr ms) (resolveMembersT ur ms) := by
  induction ms with
  | nil => exact fun s i hi => .ret hi
  | cons m ms ih =>
    cases m with
    | value v => exact fun s i hi => (ih s i hi).map _
    | null n => exact fun s i hi => (ih s i hi).map _
    | ref id => exact fun s i hi => Dom.bind (resolveRef_dom hk h id s i hi) fun a s r hr => (ih s r hr).map _

omit [Platform] in
theorem classHeader_dom (hk : Cheaper P Q K L) : DomP K L (@classHeaderT P) (@classHeaderT Q) := by
  intro s i hi
  refine ⟨rfl, ?_, fun r a e => ?_⟩
  · unfold classHeaderT
    simp only
    have h1 := altWork_dom hk hi ClassWithMembers.parse
      [ClassWithMembersAndTypes.parse, SystemClassWithMembers.parse, SystemClassWithMembersAndTypes.parse]
    have h2 := hk.miss i hi
    cases ClassWithId.parse i with
    | error e => simp only [Nat.mul_add]; omega
    | _ => exact leaf_dom hk hi _
  · have := (classHeader_spent s i).ok (Prod.ext e rfl)
    omega

theorem classMembers_dom (hk : Cheaper P Q K L) (h : DomP K L tc uc) (e : Bytes) (c : Class) :
    DomP K L (@classMembersT P _ tc e c) (@classMembersT Q _ uc e c) := by
  intro s i hi
  unfold classMembersT
  cases c with
  | classWithMembers info lib =>
    simp only
    cases s.libs.get? lib with
    | none => exact .free (by intro r a e; cases e)
    | some l => exact (count_dom (memberNone_dom hk h) _ s i hi).map _
  | classWithMembersAndTypes info types lib =>
    simp only
    cases s.libs.get? lib with
    | none => exact .free (by intro r a e; cases e)
    | some l => exact (members_dom hk h _ s i hi).map _
  | systemClassWithMembers info => exact (count_dom (memberNone_dom hk h) _ s i hi).map _
  | systemClassWithMembersAndTypes info types => exact (members_dom hk h _ s i hi).map _

theorem classesBody_dom (hk : Cheaper P Q K L) (h : DomP K L tc uc) (hr : DomP K L tr ur) :
    DomP K L (@classesBodyT P _ tc tr) (@classesBodyT Q _ uc ur) := by
  intro s i hi
  refine Dom.bind (library_dom hk s i hi) fun _ s e he => ?_
  refine Dom.bind (classHeader_dom hk s e he) fun ⟨id, c⟩ s i hi => ?_
  simp only
  split
  · exact .free (by intro r a e; cases e)
  · refine Dom.bind (classMembers_dom hk h e c s i hi) fun ⟨l, ms⟩ s i hi => ?_
    exact Dom.bind (resolve_dom hk.pos hr ms s i hi) fun vs s i hi => .ret hi

omit [Platform] in
theorem arrayLoop_dom {te ue : TP ValueOrRef} (h : DomP K L te ue) (fuel len : Nat)
    (acc : List ValueOrRef) : DomP K L (arrayLoopT te fuel len acc) (arrayLoopT ue fuel len acc) := by
  induction fuel generalizing acc with
  | zero =>
    intro s i hi
    unfold arrayLoopT
    split
    · exact .free (by intro r a e; cases e)
    · exact .ret hi
  | succ fuel ih =>
    intro s i hi
    unfold arrayLoopT
    split
    · refine Dom.bind (h s i hi) fun m s i hi => ?_
      cases m <;> exact ih _ s i hi
    · exact .ret hi

theorem arraySingleObject_dom (hk : Cheaper P Q K L) (h : DomP K L tc uc) (hr : DomP K L tr ur) :
    DomP K L (@arraySingleObjectT P _ tc tr) (@arraySingleObjectT Q _ uc ur) := by
  intro s i hi
  refine Dom.bind (read_dom hk (fun i => eats (arraySingleObjectRec_good (List.suffix_refl i))) s i hi) fun info s i hi => ?_
  refine Dom.bind (arrayLoop_dom (memberNone_dom hk h) _ _ _ s i hi) fun ms s i hi => ?_
  exact (resolve_dom hk.pos hr ms s i hi).map _

theorem arraySingleString_dom (hk : Cheaper P Q K L) (h : DomP K L tc uc) (hr : DomP K L tr ur) :
    DomP K L (@arraySingleStringT P _ tc tr) (@arraySingleStringT Q _ uc ur) := by
  intro s i hi
  refine Dom.bind (read_dom hk (fun i => eats (arraySingleStringRec_good (List.suffix_refl i))) s i hi) fun info s i hi => ?_
  refine Dom.bind (arrayLoop_dom (member_dom hk h _ _) _ _ _ s i hi) fun ms s i hi => ?_
  exact (resolve_dom hk.pos hr ms s i hi).map _

theorem binaryArray_dom (hk : Cheaper P Q K L) (h : DomP K L tc uc) (hr : DomP K L tr ur) :
    DomP K L (@binaryArrayT P _ tc tr) (@binaryArrayT Q _ uc ur) := by
  intro s i hi
  refine Dom.bind (read_dom hk (fun i => eats (binaryArrayRec_good (List.suffix_refl i))) s i hi) fun a s i hi => ?_
  cases checkedProduct 1 a.lengths with
  | none => exact .free (by intro r a e; cases e)
  | some n =>
    refine Dom.bind (count_dom (member_dom hk h _ _) _ s i hi) fun ms s i hi => ?_
    refine Dom.bind (resolve_dom hk.pos hr ms s i hi) fun vs s i hi => ?_
    cases reshape (a.lengths.drop 1).reverse vs with
    | done => exact .ret hi
    | _ => exact .free (by intro r a e; cases e)

theorem arraySinglePrimitive_dom (hk : Cheaper P Q K L) :
    DomP K L (@arraySinglePrimitiveT P _) (@arraySinglePrimitiveT Q _) := by
  intro s i hi
  refine ⟨rfl, leaf_dom hk hi _, fun r a e => ?_⟩
  have := (arraySinglePrimitive_spent s i).ok (Prod.ext e rfl)
  omega

theorem arraysBody_dom (hk : Cheaper P Q K L) (h : DomP K L tc uc) (hr : DomP K L tr ur) :
    DomP K L (@arraysBodyT P _ tc tr) (@arraysBodyT Q _ uc ur) := by
  intro s i hi
  refine Dom.bind (library_dom hk s i hi) fun _ s i hi => ?_
  exact altMut_dom (arraySingleObject_dom hk h hr) (altMut_dom (arraySinglePrimitive_dom hk)
    (altMut_dom (arraySingleString_dom hk h hr) (altMut_dom (binaryArray_dom hk h hr) altMut_nil_dom))) s i hi

omit [Platform] in
theorem referenceableBody_dom (hk : Cheaper P Q K L) {ta ua : TP (Nat × List Value)} (h : DomP K L tc uc)
    (ha : DomP K L ta ua) : DomP K L (@referenceableBodyT P tc ta) (@referenceableBodyT Q uc ua) := by
  intro s i hi
  refine Dom.bind ?_ fun a s i hi => .ret hi
  exact altMut_dom (fun s i hi => (h s i hi).map _) (altMut_dom (fun s i hi => (ha s i hi).map _)
    (altMut_dom (read_dom hk fun i => eats (V := fun _ => True) (w := i)
      ((bos_good (List.suffix_refl i)).map fun _ _ => trivial)) altMut_nil_dom)) s i hi

theorem recAt_dom (hk : Cheaper P Q K L) (n : Nat) : DomP K L (@recAtT P _ n).classes (@recAtT Q _ n).classes ∧
    DomP K L (@recAtT P _ n).referenceable (@recAtT Q _ n).referenceable := by
  induction n with
  | zero => exact ⟨fun _ _ _ => .free (by intro r a e; cases e), fun _ _ _ => .free (by intro r a e; cases e)⟩
  | succ n ih =>
    exact ⟨classesBody_dom hk ih.1 ih.2, referenceableBody_dom hk (classesBody_dom hk ih.1 ih.2)
      (arraysBody_dom hk ih.1 ih.2)⟩

theorem parseClasses_dom (hk : Cheaper P Q K L) : DomP K L (@parseClassesT P _) (@parseClassesT Q _) :=
  fun s i hi => (recAt_dom hk _).1 s i hi

theorem parseReferenceable_dom (hk : Cheaper P Q K L) : DomP K L (@parseReferenceableT P _) (@parseReferenceableT Q _) :=
  fun s i hi => (recAt_dom hk _).2 s i hi

theorem callArray_dom (hk : Cheaper P Q K L) (root : Option Nat) :
    DomP K L (@parseCallArrayT P _ root) (@parseCallArrayT Q _ root) := by
  intro s i hi
  refine Dom.bind (library_dom hk s i hi) fun _ s i hi => ?_
  refine Dom.bind (arraySingleObject_dom hk (parseClasses_dom hk) (parseReferenceable_dom hk) s i hi) fun ⟨_, _⟩ s i hi => ?_
  simp only
  split
  · exact .free (by intro r a e; cases e)
  · exact .ret hi

theorem methodCall_dom (hk : Cheaper P Q K L) (root : Option Nat) :
    DomP K L (@parseMethodCallT P _ root) (@parseMethodCallT Q _ root) := by
  intro s i hi
  refine Dom.bind (library_dom hk s i hi) fun _ s i hi => ?_
  refine Dom.bind (read_dom hk (fun i => eats (binaryMethodCall_good (List.suffix_refl i))) s i hi) fun c s i hi => ?_
  refine Dom.bind (opt_dom (callArray_dom hk root) s i hi) fun a s i hi => ?_
  cases parseArgs c.messageEnum a c.args with
  | none => exact .free (by intro r a e; cases e)
  | some _ => exact .ret hi

theorem methodReturn_dom (hk : Cheaper P Q K L) (root : Option Nat) :
    DomP K L (@parseMethodReturnT P _ root) (@parseMethodReturnT Q _ root) := by
  intro s i hi
  refine Dom.bind (library_dom hk s i hi) fun _ s i hi => ?_
  refine Dom.bind (read_dom hk (fun i => eats (binaryMethodReturn_good (List.suffix_refl i))) s i hi) fun c s i hi => ?_
  refine Dom.bind (opt_dom (callArray_dom hk root) s i hi) fun a s i hi => ?_
  cases parseArgs c.messageEnum a c.args with
  | none => exact .free (by intro r a e; cases e)
  | some _ => exact .ret hi

theorem method_dom (hk : Cheaper P Q K L) (root : Option Nat) :
    DomP K L (@parseMethodCallOrReturnT P _ root) (@parseMethodCallOrReturnT Q _ root) :=
  altMut_dom (fun s i hi => (methodCall_dom hk root s i hi).map _)
    (altMut_dom (fun s i hi => (methodReturn_dom hk root s i hi).map _) altMut_nil_dom)

theorem loop_dom (hk : Cheaper P Q K L) (fuel : Nat) :
    DomP K L (@referenceablesLoopT P _ fuel) (@referenceablesLoopT Q _ fuel) := by
  induction fuel with
  | zero => exact fun _ _ _ => .free (by intro r a e; cases e)
  | succ fuel ih =>
    intro s i hi
    have := parseReferenceable_dom hk s i hi
    unfold referenceablesLoopT
    generalize @parseReferenceableT P _ s i = x at this
    generalize @parseReferenceableT Q _ s i = y at this
    obtain ⟨⟨o, s⟩, n⟩ := x
    obtain ⟨⟨o', s'⟩, n'⟩ := y
    obtain ⟨h1, h2, h3⟩ := this
    cases h1
    cases o with
    | ok r a =>
      obtain ⟨h4, h5, h6⟩ := ih s r (h3 r a rfl)
      refine ⟨h4, ?_, h6⟩
      simp only [Nat.mul_add] at h2 ⊢
      omega
    | error e => exact ⟨rfl, h2, (by intro r a e; cases e; exact hi)⟩
    | _ => exact ⟨rfl, h2, (by intro r a e; cases e)⟩

theorem message_dom (hk : Cheaper P Q K L) : DomP K L (@parseRemotingMessageT P _) (@parseRemotingMessageT Q _) := by
  intro s i hi
  refine Dom.bind (read_dom hk (fun i => eats (header_good (List.suffix_refl i))) s i hi) fun h s i hi => ?_
  refine Dom.bind (loop_dom hk _ s i hi) fun _ s i hi => ?_
  refine Dom.bind (opt_dom (method_dom hk _) s i hi) fun m s i hi => ?_
  refine Dom.bind (loop_dom hk _ s i hi) fun _ s i hi => ?_
  refine Dom.bind (read_dom hk (fun i => eats (messageEnd_good (List.suffix_refl i))) s i hi) fun _ s i hi => ?_
  split
  · refine ⟨rfl, ?_, fun r a e => ?_⟩
    · have := hk.pos; simp only; omega
    · revert e
      unfold selectRoot
      repeat' split
      all_goals (intro e; cases e)
      all_goals exact hi
  · exact .free (by intro r a e; cases e)

/-- The work with the price `κ`, if that is at most `K` on inputs that are not longer than `w`. -/
theorem work_price {κ : Bytes → Nat} {K : Nat} {w : Bytes} (hK : 1 ≤ K) (h : ∀ i, i.length ≤ w.length → κ i ≤ K) :
    work κ w ≤ K * work (fun _ => 1) w :=
  (message_dom (P := ⟨κ⟩) (Q := ⟨fun _ => 1⟩) (L := w.length) ⟨hK, fun i hi => by simpa using h i hi⟩ St.init w
    (Nat.le_refl _)).2.1

end

end Nrbf
