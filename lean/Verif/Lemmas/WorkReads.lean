import Verif.Lemmas.WorkKnot

/-! # What is consumed is counted -/

set_option autoImplicit false

namespace Nrbf
open Spec

variable {α β : Type} [Price]

/-- Of `n` bytes, those that are consumed are counted. -/
def Counts (n : Nat) (x : Timed α) : Prop := ∀ r a, x.1.1 = .ok r a → n ≤ x.2 + r.length

/-- The same for a parser. -/
def CountsP (t : TP α) : Prop := ∀ s i, Counts i.length (t s i)

omit [Price] in
theorem Counts.bind {n : Nat} {x : Timed α} {f : α → St → Bytes → Timed β} (h : Counts n x)
    (hf : ∀ a s r, Counts r.length (f a s r)) : Counts n (x.bind f) := by
  obtain ⟨⟨o, s⟩, k⟩ := x
  cases o with
  | ok r a =>
    intro r' b e
    have h1 := h r a rfl
    have h2 := hf a s r r' b e
    simp only [Timed.bind] at h1 ⊢
    omega
  | _ => intro r b e; cases e

omit [Price] in
theorem Counts.map {n : Nat} {x : Timed α} (f : α → β) (h : Counts n x) : Counts n (x.map f) := by
  obtain ⟨⟨o, s⟩, k⟩ := x
  cases o with
  | ok r a => intro r' b e; cases e; exact h r a rfl
  | _ => intro r b e; cases e

omit [Price] in
theorem Counts.ret {i : Bytes} {a : α} {s : St} : Counts i.length (free (.ok i a, s)) := by
  intro r a e
  cases e
  exact Nat.le_add_left _ _

omit [Price] in
theorem Counts.no {n : Nat} {x : Timed α} (h : ∀ r a, x.1.1 ≠ .ok r a) : Counts n x :=
  fun r a e => absurd e (h r a)

theorem leaf_counts (i : Bytes) (o : Outcome Error α) {r : Bytes} {a : α} (h : o = .ok r a) :
    i.length ≤ leafWork i o + r.length := by
  subst h
  simp only [leafWork]
  omega

theorem altWork_counts (p : Parser α) (ps : List (Parser α)) (i : Bytes) {r : Bytes} {a : α} (h : alt p ps i = .ok r a) :
    i.length ≤ altWork p ps i + r.length := by
  induction ps generalizing p with
  | nil => exact leaf_counts i _ h
  | cons q qs ih =>
    unfold altWork
    simp only [alt] at h
    cases hpi : p i with
    | error e =>
      rw [hpi] at h
      have := ih q h
      simp only
      omega
    | ok r' a' =>
      rw [hpi] at h
      exact leaf_counts i _ h
    | _ => rw [hpi] at h; cases h

theorem read_counts (p : Parser α) : CountsP (readT p) := fun _ i _ _ e => leaf_counts i _ e

theorem readAlt_counts (p : Parser α) (ps : List (Parser α)) : CountsP (readAltT p ps) :=
  fun _ i _ _ e => altWork_counts p ps i e

omit [Price] in
theorem count_counts {t : TP α} (h : CountsP t) (n : Nat) : CountsP (countT t n) := by
  induction n with
  | zero => exact fun s i => .ret
  | succ n ih => exact fun s i => Counts.bind (h s i) fun a s r => (ih s r).map _

omit [Price] in
theorem opt_counts {t : TP α} (h : CountsP t) : CountsP (optT t) := by
  intro s i
  have := h s i
  unfold optT
  generalize t s i = x at this
  obtain ⟨⟨o, s⟩, n⟩ := x
  cases o with
  | error e => intro r a e; cases e; exact Nat.le_add_left _ _
  | ok r a => intro r' a' e; cases e; exact this r a rfl
  | _ => intro r a e; cases e

omit [Price] in
theorem altMut_nil_counts : CountsP (altMutT ([] : List (TP α))) := fun _ _ => .no nofun

omit [Price] in
theorem altMut_counts {t : TP α} {ts : List (TP α)} (h : CountsP t) (hs : CountsP (altMutT ts)) :
    CountsP (altMutT (t :: ts)) := by
  intro s i
  have := h s i
  unfold altMutT
  generalize t s i = x at this
  obtain ⟨⟨o, s⟩, n⟩ := x
  cases o with
  | error e =>
    intro r a e
    have := hs s i r a e
    simp only
    omega
  | _ => exact this

theorem library_counts : CountsP binaryLibraryT := by
  intro s i r u e
  have e1 : (parseBinaryLibrary s i).1 = .ok r u := e
  unfold parseBinaryLibrary lift opt at e1
  show i.length ≤ leafWork i (BinaryLibrary.parse i) + r.length
  cases h : BinaryLibrary.parse i with
  | ok r' l =>
    rw [h] at e1
    simp only [Outcome.map, Res.bind] at e1
    split at e1
    · cases e1
    · cases e1; exact leaf_counts i _ rfl
  | error e' => rw [h] at e1; cases e1; exact Nat.le_add_left _ _
  | _ => rw [h] at e1; cases e1

section
variable [Platform] {tc : TP (Nat × Object)} {tr : TP Nat}

theorem memberNone_counts (h : CountsP tc) : CountsP (memberReferenceNoneT tc) := by
  intro s i
  refine Counts.bind (library_counts s i) fun _ s i => ?_
  have := readAlt_counts (fun i => (memberPrimitiveTyped i).map fun p => ValueOrRef.value p.intoValue)
    [refMember, stringMember, parseNullObject] s i
  simp only [readAltT] at this ⊢
  generalize alt _ _ i = o at this ⊢
  cases o with
  | error e =>
    intro r a e
    have := (h s i).map (fun o => ValueOrRef.value o.2.toValue) r a e
    simp only [Timed.map] at this ⊢
    omega
  | _ => exact this

omit [Platform] in
theorem expectedClass_counts (h : CountsP tc) (name : Str) (library : Option Str) :
    CountsP (expectedClassT tc name library) := by
  intro s i
  have := h s i
  have h0 := @altWork_counts _ _ ObjectNull.parse [ObjectNullMultiple.parse, ObjectNullMultiple256.parse] i
  unfold expectedClassT
  generalize tc s i = x at this
  obtain ⟨⟨o, s⟩, n⟩ := x
  cases o with
  | ok r a =>
    simp only
    split
    · exact .no nofun
    · intro r' a' e; cases e; exact this r a rfl
  | error e | failure e =>
    intro r a e
    have e1 : parseNullObject i = .ok r a := e
    unfold parseNullObject at e1
    revert e1
    cases hal : alt ObjectNull.parse [ObjectNullMultiple.parse, ObjectNullMultiple256.parse] i with
    | ok r' n =>
      intro e1
      have := h0 hal
      cases e1
      simp only
      omega
    | _ => intro e1; cases e1
  | _ => exact .no nofun

theorem member_counts (h : CountsP tc) (t : BinaryType) (info : Option AdditionalTypeInfo) :
    CountsP (memberReferenceT tc t info) := by
  intro s i
  refine Counts.bind (library_counts s i) fun _ s i => ?_
  split
  · exact read_counts _ s i
  · exact read_counts _ s i
  · exact memberNone_counts h s i
  · exact expectedClass_counts h _ _ s i
  · split
    · exact expectedClass_counts h _ _ s i
    · exact .no nofun
  · exact memberNone_counts h s i
  · exact readAlt_counts _ _ s i
  · exact read_counts _ s i
  · exact .no nofun

theorem members_counts (h : CountsP tc) (ts : List (BinaryType × Option AdditionalTypeInfo)) :
    CountsP (membersWithTypeInfoT tc ts) := by
  induction ts with
  | nil => exact fun s i => .ret
  | cons t ts ih => exact fun s i => Counts.bind (member_counts h _ _ s i) fun a s r => (ih s r).map _

omit [Platform] [Price] in
theorem resolveRef_counts (h : CountsP tr) (id : Nat) : CountsP (resolveRefT tr id) := by
  intro s i
  have := h s i
  unfold resolveRefT
  cases s.objects.get? id with
  | some v => intro r a e; cases e; exact Nat.le_add_left _ _
  | none =>
    simp only
    generalize tr s i = x at this
    obtain ⟨⟨o, s⟩, n⟩ := x
    cases o with
    | ok r a =>
      simp only
      by_cases e : a = id
      · rw [if_pos e]
        cases s.objects.get? a with
        | none => exact .no nofun
        | some v =>
          intro r' a' e
          cases e
          have := this r a rfl
          simp only at this ⊢
          omega
      · rw [if_neg e]
        exact .no nofun
    | _ => exact .no nofun

omit [Platform] [Price] in
theorem resolve_counts (h : CountsP tr) (ms : List ValueOrRef) : CountsP (resolveMembersT tr ms) := by
  induction ms with
  | nil => exact fun s i => .ret
  | cons m ms ih =>
    cases m with
    | value v => exact fun s i => (ih s i).map _
    | null n => exact fun s i => (ih s i).map _
    | ref id => exact fun s i => Counts.bind (resolveRef_counts h id s i) fun a s r => (ih s r).map _

omit [Platform] in
theorem classHeader_counts : CountsP classHeaderT := by
  intro s i r a e
  have e1 : (classHeader s i).1 = .ok r a := e
  show i.length ≤ (match ClassWithId.parse i with
    | .error _ => Price.miss i + altWork ClassWithMembers.parse
        [ClassWithMembersAndTypes.parse, SystemClassWithMembers.parse, SystemClassWithMembersAndTypes.parse] i
    | r => leafWork i r) + r.length
  unfold classHeader at e1
  cases h : ClassWithId.parse i with
  | error e' =>
    rw [h] at e1
    simp only at e1
    have h1 : ∃ c, alt ClassWithMembers.parse
        [ClassWithMembersAndTypes.parse, SystemClassWithMembers.parse, SystemClassWithMembersAndTypes.parse] i = .ok r c := by
      revert e1
      generalize alt ClassWithMembers.parse _ i = x
      cases x <;> simp [Outcome.map]
      exact fun h _ => h
    obtain ⟨c, h1⟩ := h1
    have := altWork_counts _ _ i h1
    simp only
    omega
  | ok r' c =>
    rw [h] at e1
    simp only at e1
    have hr : r = r' := by
      revert e1
      repeat' split
      all_goals first
        | (intro e1; cases e1; rfl)
        | (intro e1; cases e1)
    subst hr
    exact leaf_counts i _ rfl
  | _ => rw [h] at e1; cases e1

theorem classMembers_counts (h : CountsP tc) (e : Bytes) (c : Class) : CountsP (classMembersT tc e c) := by
  intro s i
  unfold classMembersT
  cases c with
  | classWithMembers info lib =>
    simp only
    cases s.libs.get? lib with
    | none => exact .no nofun
    | some l => exact (count_counts (memberNone_counts h) _ s i).map _
  | classWithMembersAndTypes info types lib =>
    simp only
    cases s.libs.get? lib with
    | none => exact .no nofun
    | some l => exact (members_counts h _ s i).map _
  | systemClassWithMembers info => exact (count_counts (memberNone_counts h) _ s i).map _
  | systemClassWithMembersAndTypes info types => exact (members_counts h _ s i).map _

theorem classesBody_counts (h : CountsP tc) (hr : CountsP tr) : CountsP (classesBodyT tc tr) := by
  intro s i
  refine Counts.bind (library_counts s i) fun _ s e => ?_
  refine Counts.bind (classHeader_counts s e) fun ⟨id, c⟩ s i => ?_
  simp only
  split
  · exact .no nofun
  · refine Counts.bind (classMembers_counts h e c s i) fun ⟨l, ms⟩ s i => ?_
    exact Counts.bind (resolve_counts hr ms s i) fun vs s i => .ret

omit [Platform] [Price] in
theorem arrayLoop_counts {te : TP ValueOrRef} (h : CountsP te) (fuel len : Nat) (acc : List ValueOrRef) :
    CountsP (arrayLoopT te fuel len acc) := by
  induction fuel generalizing acc with
  | zero =>
    intro s i
    unfold arrayLoopT
    split
    · exact .no nofun
    · exact .ret
  | succ fuel ih =>
    intro s i
    unfold arrayLoopT
    split
    · refine Counts.bind (h s i) fun m s i => ?_
      cases m <;> exact ih _ s i
    · exact .ret

theorem arraySingleObject_counts (h : CountsP tc) (hr : CountsP tr) : CountsP (arraySingleObjectT tc tr) := by
  intro s i
  refine Counts.bind (read_counts _ s i) fun info s i => ?_
  refine Counts.bind (arrayLoop_counts (memberNone_counts h) _ _ _ s i) fun ms s i => ?_
  exact (resolve_counts hr ms s i).map _

theorem arraySingleString_counts (h : CountsP tc) (hr : CountsP tr) : CountsP (arraySingleStringT tc tr) := by
  intro s i
  refine Counts.bind (read_counts _ s i) fun info s i => ?_
  refine Counts.bind (arrayLoop_counts (member_counts h _ _) _ _ _ s i) fun ms s i => ?_
  exact (resolve_counts hr ms s i).map _

theorem binaryArray_counts (h : CountsP tc) (hr : CountsP tr) : CountsP (binaryArrayT tc tr) := by
  intro s i
  refine Counts.bind (read_counts _ s i) fun a s i => ?_
  cases checkedProduct 1 a.lengths with
  | none => exact .no nofun
  | some n =>
    refine Counts.bind (count_counts (member_counts h _ _) _ s i) fun ms s i => ?_
    refine Counts.bind (resolve_counts hr ms s i) fun vs s i => ?_
    cases reshape (a.lengths.drop 1).reverse vs with
    | done => exact .ret
    | _ => exact .no nofun

theorem arraysBody_counts (h : CountsP tc) (hr : CountsP tr) : CountsP (arraysBodyT tc tr) := by
  intro s i
  refine Counts.bind (library_counts s i) fun _ s i => ?_
  exact altMut_counts (arraySingleObject_counts h hr) (altMut_counts (fun _ i _ _ e => leaf_counts i _ e)
    (altMut_counts (arraySingleString_counts h hr) (altMut_counts (binaryArray_counts h hr) altMut_nil_counts))) s i

omit [Platform] in
theorem referenceableBody_counts {ta : TP (Nat × List Value)} (h : CountsP tc) (ha : CountsP ta) :
    CountsP (referenceableBodyT tc ta) := by
  intro s i
  refine Counts.bind ?_ fun a s i => .ret
  exact altMut_counts (fun s i => (h s i).map _) (altMut_counts (fun s i => (ha s i).map _)
    (altMut_counts (read_counts _) altMut_nil_counts)) s i

theorem recAt_counts (n : Nat) : CountsP (recAtT n).classes ∧ CountsP (recAtT n).referenceable := by
  induction n with
  | zero => exact ⟨fun _ _ => .no nofun, fun _ _ => .no nofun⟩
  | succ n ih =>
    exact ⟨classesBody_counts ih.1 ih.2, referenceableBody_counts (classesBody_counts ih.1 ih.2)
      (arraysBody_counts ih.1 ih.2)⟩

theorem parseClasses_counts : CountsP parseClassesT := fun s i => (recAt_counts _).1 s i

theorem parseReferenceable_counts : CountsP parseReferenceableT := fun s i => (recAt_counts _).2 s i

theorem callArray_counts (root : Option Nat) : CountsP (parseCallArrayT root) := by
  intro s i
  refine Counts.bind (library_counts s i) fun _ s i => ?_
  refine Counts.bind (arraySingleObject_counts parseClasses_counts parseReferenceable_counts s i) fun ⟨_, _⟩ s i => ?_
  simp only
  split
  · exact .no nofun
  · exact .ret

theorem methodCall_counts (root : Option Nat) : CountsP (parseMethodCallT root) := by
  intro s i
  refine Counts.bind (library_counts s i) fun _ s i => ?_
  refine Counts.bind (read_counts _ s i) fun c s i => ?_
  refine Counts.bind (opt_counts (callArray_counts root) s i) fun a s i => ?_
  cases parseArgs c.messageEnum a c.args with
  | none => exact .no nofun
  | some _ => exact .ret

theorem methodReturn_counts (root : Option Nat) : CountsP (parseMethodReturnT root) := by
  intro s i
  refine Counts.bind (library_counts s i) fun _ s i => ?_
  refine Counts.bind (read_counts _ s i) fun c s i => ?_
  refine Counts.bind (opt_counts (callArray_counts root) s i) fun a s i => ?_
  cases parseArgs c.messageEnum a c.args with
  | none => exact .no nofun
  | some _ => exact .ret

theorem method_counts (root : Option Nat) : CountsP (parseMethodCallOrReturnT root) :=
  altMut_counts (fun s i => (methodCall_counts root s i).map _)
    (altMut_counts (fun s i => (methodReturn_counts root s i).map _) altMut_nil_counts)

theorem loop_counts (fuel : Nat) : CountsP (referenceablesLoopT fuel) := by
  induction fuel with
  | zero => exact fun _ _ => .no nofun
  | succ fuel ih =>
    intro s i
    have := parseReferenceable_counts s i
    unfold referenceablesLoopT
    generalize parseReferenceableT s i = x at this
    obtain ⟨⟨o, s⟩, n⟩ := x
    cases o with
    | ok r a =>
      intro r' b e
      have h1 := this r a rfl
      have h2 := ih s r r' b e
      simp only at h1 ⊢
      omega
    | error e => intro r a e; cases e; exact Nat.le_add_left _ _
    | _ => exact .no nofun

omit [Platform] [Price] in
theorem Counts.bind_all {n : Nat} {x : Timed α} {f : α → St → Bytes → Timed β} (h : Counts n x)
    (hf : ∀ a s r r' b, (f a s r).1.1 = .ok r' b → r.length ≤ (f a s r).2) :
    ∀ r b, (x.bind f).1.1 = .ok r b → n ≤ (x.bind f).2 := by
  obtain ⟨⟨o, s⟩, k⟩ := x
  cases o with
  | ok r a =>
    intro r' b e
    have h1 := h r a rfl
    have h2 := hf a s r r' b e
    simp only [Timed.bind] at h1 ⊢
    omega
  | _ => intro r b e; cases e

theorem message_counts (s : St) (i : Bytes) : ∀ r m, (parseRemotingMessageT s i).1.1 = .ok r m →
    i.length ≤ (parseRemotingMessageT s i).2 := by
  refine Counts.bind_all (read_counts _ s i) fun h s i => ?_
  refine Counts.bind_all (loop_counts _ s i) fun _ s i => ?_
  refine Counts.bind_all (opt_counts (method_counts _) s i) fun m s i => ?_
  refine Counts.bind_all (loop_counts _ s i) fun _ s i => ?_
  refine Counts.bind_all (read_counts _ s i) fun _ s i => ?_
  split
  · rename_i hi
    intro r a e
    rw [List.isEmpty_iff] at hi
    subst hi
    exact Nat.zero_le _
  · exact nofun

end

end Nrbf
