import Verif.Model.Work

/-! # The counting parser gives the same results -/

set_option autoImplicit false

namespace Nrbf

variable {α β : Type} [Price]

/-- The counting parser `t` gives the results of `p`. -/
def SameRes (t : TP α) (p : SP α) : Prop := ∀ s i, (t s i).1 = p s i

theorem Timed.bind_fst (x : Timed α) (f : α → St → Bytes → Timed β) :
    (x.bind f).1 = x.1.bind fun a s r => (f a s r).1 := by
  obtain ⟨⟨o, s⟩, n⟩ := x
  cases o <;> rfl

theorem Timed.bind_same {x : Timed α} {y : Res α} {f : α → St → Bytes → Timed β} {g : α → St → Bytes → Res β}
    (h : x.1 = y) (hf : ∀ a s r, (f a s r).1 = g a s r) : (x.bind f).1 = y.bind g := by
  rw [Timed.bind_fst, h]
  congr 1
  funext a s r
  exact hf a s r

theorem Timed.map_same {x : Timed α} {y : Res α} (f : α → β) (h : x.1 = y) : (x.map f).1 = y.map f := by
  unfold Timed.map
  rw [h]

theorem countT_same {t : TP α} {p : SP α} (h : SameRes t p) (n : Nat) : SameRes (countT t n) (countS p n) := by
  induction n with
  | zero => exact fun _ _ => rfl
  | succ n ih => exact fun s i => Timed.bind_same (h s i) fun a s r => Timed.map_same _ (ih s r)

theorem optT_same {t : TP α} {p : SP α} (h : SameRes t p) : SameRes (optT t) (optS p) := by
  intro s i
  unfold optT optS
  rw [← h s i]
  generalize t s i = x
  obtain ⟨⟨o, s⟩, n⟩ := x
  cases o <;> rfl

theorem altMutT_cons {t : TP α} {ts : List (TP α)} {p : SP α} {ps : List (SP α)} (h : SameRes t p)
    (hs : SameRes (altMutT ts) (altMut ps)) : SameRes (altMutT (t :: ts)) (altMut (p :: ps)) := by
  intro s i
  unfold altMutT altMut
  rw [← h s i]
  generalize t s i = x
  obtain ⟨⟨o, s⟩, n⟩ := x
  cases o <;> first | rfl | exact hs _ _

theorem altMutT_nil : SameRes (altMutT ([] : List (TP α))) (altMut []) := fun _ _ => rfl

theorem library_same : SameRes binaryLibraryT parseBinaryLibrary := fun _ _ => rfl

variable [Platform] {tc : TP (Nat × Object)} {classes : SP (Nat × Object)} {tr : TP Nat} {referenceable : SP Nat}

theorem memberNone_same (h : SameRes tc classes) : SameRes (memberReferenceNoneT tc) (memberReferenceNone classes) := by
  intro s i
  refine Timed.bind_same (library_same s i) fun _ s i => ?_
  simp only [readAltT]
  generalize alt _ _ i = x
  cases x <;> first | rfl | exact Timed.map_same _ (h s i)

omit [Platform] in
theorem expectedClass_same (h : SameRes tc classes) (name : Str) (library : Option Str) :
    SameRes (expectedClassT tc name library) (expectedClass classes name library) := by
  intro s i
  unfold expectedClassT expectedClass
  rw [← h s i]
  generalize tc s i = x
  obtain ⟨⟨o, s⟩, n⟩ := x
  cases o with
  | ok r a => simp only; split <;> rfl
  | _ => rfl

theorem member_same (h : SameRes tc classes) (t : BinaryType) (info : Option AdditionalTypeInfo) :
    SameRes (memberReferenceT tc t info) (memberReference classes t info) := by
  intro s i
  refine Timed.bind_same (library_same s i) fun _ s i => ?_
  split
  · rfl
  · rfl
  · exact memberNone_same h s i
  · exact expectedClass_same h _ _ s i
  · simp only
    cases s.libs.get? _ with
    | none => rfl
    | some l => exact expectedClass_same h _ _ s i
  · exact memberNone_same h s i
  · rfl
  · rfl
  · rename_i h1 h2 h3 h4 h5 h6 h7 h8
    split <;> first | rfl | (exfalso; simp_all; done)

theorem members_same (h : SameRes tc classes) (ts : List (BinaryType × Option AdditionalTypeInfo)) :
    SameRes (membersWithTypeInfoT tc ts) (membersWithTypeInfo classes ts) := by
  induction ts with
  | nil => exact fun _ _ => rfl
  | cons t ts ih =>
    exact fun s i => Timed.bind_same (member_same h _ _ s i) fun a s r => Timed.map_same _ (ih s r)

omit [Platform] in
theorem resolveRef_same (h : SameRes tr referenceable) (id : Nat) :
    SameRes (resolveRefT tr id) (resolveRef referenceable id) := by
  intro s i
  unfold resolveRefT resolveRef
  rw [← h s i]
  cases s.objects.get? id with
  | some v => rfl
  | none =>
    generalize tr s i = x
    obtain ⟨⟨o, s⟩, n⟩ := x
    cases o with
    | ok r a =>
      simp only
      by_cases e : a = id
      · rw [if_pos e, if_pos e]
        cases s.objects.get? a <;> rfl
      · rw [if_neg e, if_neg e]
    | _ => rfl

omit [Platform] in
theorem resolve_same (h : SameRes tr referenceable) (ms : List ValueOrRef) :
    SameRes (resolveMembersT tr ms) (resolveMembers referenceable ms) := by
  induction ms with
  | nil => exact fun _ _ => rfl
  | cons m ms ih =>
    cases m with
    | value v => exact fun s i => Timed.map_same _ (ih s i)
    | null n => exact fun s i => Timed.map_same _ (ih s i)
    | ref id =>
      exact fun s i => Timed.bind_same (resolveRef_same h id s i) fun a s r => Timed.map_same _ (ih s r)

theorem classMembers_same (h : SameRes tc classes) (e : Bytes) (c : Class) :
    SameRes (classMembersT tc e c) (classMembers classes e c) := by
  intro s i
  unfold classMembersT classMembers
  cases c with
  | classWithMembers info lib =>
    simp only
    cases s.libs.get? lib with
    | none => rfl
    | some l => exact Timed.map_same _ (countT_same (memberNone_same h) _ s i)
  | classWithMembersAndTypes info types lib =>
    simp only
    cases s.libs.get? lib with
    | none => rfl
    | some l => exact Timed.map_same _ (members_same h _ s i)
  | systemClassWithMembers info => exact Timed.map_same _ (countT_same (memberNone_same h) _ s i)
  | systemClassWithMembersAndTypes info types => exact Timed.map_same _ (members_same h _ s i)

theorem classesBody_same (h : SameRes tc classes) (hr : SameRes tr referenceable) :
    SameRes (classesBodyT tc tr) (classesBody classes referenceable) := by
  intro s i
  refine Timed.bind_same (library_same s i) fun _ s e => ?_
  refine Timed.bind_same rfl fun ⟨id, c⟩ s i => ?_
  simp only
  split
  · rfl
  · refine Timed.bind_same (classMembers_same h e c s i) fun ⟨l, ms⟩ s i => ?_
    exact Timed.bind_same (resolve_same hr ms s i) fun vs s i => rfl

omit [Platform] in
theorem arrayLoop_same {te : TP ValueOrRef} {element : SP ValueOrRef} (h : SameRes te element) (fuel len : Nat)
    (acc : List ValueOrRef) : SameRes (arrayLoopT te fuel len acc) (arrayLoop element fuel len acc) := by
  induction fuel generalizing acc with
  | zero => exact fun _ _ => rfl
  | succ fuel ih =>
    intro s i
    unfold arrayLoopT arrayLoop
    split
    · refine Timed.bind_same (h s i) fun m s i => ?_
      cases m <;> exact ih _ s i
    · rfl

theorem arraySingleObject_same (h : SameRes tc classes) (hr : SameRes tr referenceable) :
    SameRes (arraySingleObjectT tc tr) (arraySingleObject classes referenceable) := by
  intro s i
  refine Timed.bind_same rfl fun info s i => ?_
  refine Timed.bind_same (arrayLoop_same (memberNone_same h) _ _ _ s i) fun ms s i => ?_
  exact Timed.map_same _ (resolve_same hr ms s i)

theorem arraySingleString_same (h : SameRes tc classes) (hr : SameRes tr referenceable) :
    SameRes (arraySingleStringT tc tr) (arraySingleString classes referenceable) := by
  intro s i
  refine Timed.bind_same rfl fun info s i => ?_
  refine Timed.bind_same (arrayLoop_same (member_same h _ _) _ _ _ s i) fun ms s i => ?_
  exact Timed.map_same _ (resolve_same hr ms s i)

theorem binaryArray_same (h : SameRes tc classes) (hr : SameRes tr referenceable) :
    SameRes (binaryArrayT tc tr) (binaryArray classes referenceable) := by
  intro s i
  refine Timed.bind_same rfl fun a s i => ?_
  cases checkedProduct 1 a.lengths with
  | none => rfl
  | some n =>
    refine Timed.bind_same (countT_same (member_same h _ _) _ s i) fun ms s i => ?_
    refine Timed.bind_same (resolve_same hr ms s i) fun vs s i => ?_
    cases reshape (a.lengths.drop 1).reverse vs <;> rfl

theorem arraysBody_same (h : SameRes tc classes) (hr : SameRes tr referenceable) :
    SameRes (arraysBodyT tc tr) (arraysBody classes referenceable) := by
  intro s i
  refine Timed.bind_same (library_same s i) fun _ s i => ?_
  exact altMutT_cons (arraySingleObject_same h hr) (altMutT_cons (fun _ _ => rfl)
    (altMutT_cons (arraySingleString_same h hr) (altMutT_cons (binaryArray_same h hr) altMutT_nil))) s i

omit [Platform] in
theorem referenceableBody_same {ta : TP (Nat × List Value)} {arrays : SP (Nat × List Value)}
    (h : SameRes tc classes) (ha : SameRes ta arrays) :
    SameRes (referenceableBodyT tc ta) (referenceableBody classes arrays) := by
  intro s i
  refine Timed.bind_same ?_ fun a s i => rfl
  exact altMutT_cons (fun s i => Timed.map_same _ (h s i)) (altMutT_cons (fun s i => Timed.map_same _ (ha s i))
    (altMutT_cons (fun _ _ => rfl) altMutT_nil)) s i

theorem recAt_same (n : Nat) : SameRes (recAtT n).classes (recAt n).classes ∧
    SameRes (recAtT n).referenceable (recAt n).referenceable := by
  induction n with
  | zero => exact ⟨fun _ _ => rfl, fun _ _ => rfl⟩
  | succ n ih =>
    exact ⟨classesBody_same ih.1 ih.2, referenceableBody_same (classesBody_same ih.1 ih.2)
      (arraysBody_same ih.1 ih.2)⟩

theorem parseClasses_same : SameRes parseClassesT parseClasses := fun s i => (recAt_same _).1 s i

theorem parseReferenceable_same : SameRes parseReferenceableT parseReferenceable := fun s i => (recAt_same _).2 s i

theorem callArray_same (root : Option Nat) : SameRes (parseCallArrayT root) (parseCallArray root) := by
  intro s i
  refine Timed.bind_same (library_same s i) fun _ s i => ?_
  exact Timed.bind_same (arraySingleObject_same parseClasses_same parseReferenceable_same s i) fun ⟨_, _⟩ s i => rfl

theorem methodCall_same (root : Option Nat) : SameRes (parseMethodCallT root) (parseMethodCall root) := by
  intro s i
  refine Timed.bind_same (library_same s i) fun _ s i => ?_
  refine Timed.bind_same rfl fun c s i => ?_
  refine Timed.bind_same (optT_same (callArray_same root) s i) fun a s i => ?_
  cases parseArgs c.messageEnum a c.args <;> rfl

theorem methodReturn_same (root : Option Nat) : SameRes (parseMethodReturnT root) (parseMethodReturn root) := by
  intro s i
  refine Timed.bind_same (library_same s i) fun _ s i => ?_
  refine Timed.bind_same rfl fun c s i => ?_
  refine Timed.bind_same (optT_same (callArray_same root) s i) fun a s i => ?_
  cases parseArgs c.messageEnum a c.args <;> rfl

theorem method_same (root : Option Nat) : SameRes (parseMethodCallOrReturnT root) (parseMethodCallOrReturn root) :=
  altMutT_cons (fun s i => Timed.map_same _ (methodCall_same root s i))
    (altMutT_cons (fun s i => Timed.map_same _ (methodReturn_same root s i)) altMutT_nil)

theorem loop_same (fuel : Nat) : SameRes (referenceablesLoopT fuel) (referenceablesLoop fuel) := by
  induction fuel with
  | zero => exact fun _ _ => rfl
  | succ fuel ih =>
    intro s i
    unfold referenceablesLoopT referenceablesLoop
    rw [← parseReferenceable_same s i]
    generalize parseReferenceableT s i = x
    obtain ⟨⟨o, s⟩, n⟩ := x
    cases o <;> first | rfl | exact ih _ _

theorem message_same : SameRes parseRemotingMessageT parseRemotingMessage := by
  intro s i
  refine Timed.bind_same rfl fun h s i => ?_
  refine Timed.bind_same (loop_same _ s i) fun _ s i => ?_
  refine Timed.bind_same (optT_same (method_same _) s i) fun m s i => ?_
  refine Timed.bind_same (loop_same _ s i) fun _ s i => ?_
  refine Timed.bind_same rfl fun _ s i => ?_
  cases i.isEmpty <;> rfl

end Nrbf
