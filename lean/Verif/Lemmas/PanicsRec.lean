import Verif.Lemmas.BrokenKnot
import Verif.Lemmas.Panic
import Verif.Spec.Panics

/-! # When exactly the stateful parsers panic -/

set_option autoImplicit false

namespace Nrbf
open Spec

variable {α β : Type}

/-- The result is a panic exactly if `P`. -/
def PMatch (x : Res α) (P : Prop) : Prop := x.1 = .panic ↔ P

namespace PMatch

theorem congr {x : Res α} {P Q : Prop} (h : PMatch x P) (e : P ↔ Q) : PMatch x Q := Iff.trans h e

theorem map {x : Res α} {P : Prop} (f : α → β) (h : PMatch x P) : PMatch (x.map f) P := by
  obtain ⟨o, s⟩ := x
  refine Iff.trans ?_ h
  cases o <;> simp [Res.map, Outcome.map]

theorem bind {x : Res α} {f : α → St → Bytes → Res β} {n k : Nat} {J : α → Env → Bytes → Prop}
    {P : Prop} {C : α → Env → Bytes → Prop} (h : Match x n k J) (hp : PMatch x P)
    (hf : ∀ a s r, s.classes = [] → J a (abs s) r → r.length + k ≤ n → PMatch (f a s r) (C a (abs s) r)) :
    PMatch (x.bind f) (P ∨ ∃ a E r, J a E r ∧ C a E r) := by
  obtain ⟨x, s⟩ := x
  cases x with
  | ok r a =>
    obtain ⟨hj, hs, hl⟩ := h.1 r a s rfl
    refine (hf a s r hs hj hl).congr ?_
    constructor
    · intro hc; exact .inr ⟨a, _, r, hj, hc⟩
    · rintro (hP | ⟨a', E, r', hj', hc⟩)
      · have := hp.mpr hP; simp at this
      · obtain ⟨s', h', rfl⟩ := h.2 a' E r' hj'
        cases h'
        exact hc
  | _ =>
    have hno : ¬ ∃ a E r, J a E r ∧ C a E r := by
      rintro ⟨a', E, r', hj', _⟩
      obtain ⟨s', h', rfl⟩ := h.2 a' E r' hj'
      cases h'
    refine Iff.trans ?_ (hp.congr ⟨.inl, fun h => h.resolve_right hno⟩)
    simp [Res.bind]

theorem never {x : Res α} (h : x.1 ≠ .panic) : PMatch x False := ⟨h, False.elim⟩

theorem stateless {i : Bytes} {x : Outcome Error α} {V : α → Prop} {n k : Nat} (h : PG i V n k x)
    {s : St} : PMatch (x, s) False := by
  refine never fun e => ?_
  simp only at e
  rw [e] at h
  exact h.elim

end PMatch

theorem library_pmatch (s : St) (i : Bytes) : PMatch (parseBinaryLibrary s i) False := by
  refine .never fun h => ?_
  unfold parseBinaryLibrary lift opt at h
  have ht := (library_total i).1
  cases hp : BinaryLibrary.parse i with
  | panic => exact ht hp
  | ok r l =>
    rw [hp] at h
    simp only [Outcome.map, Res.bind] at h
    split at h <;> cases h
  | _ => rw [hp] at h; simp [Outcome.map, Res.bind] at h

variable [Platform] {L : Nat} {classes : SP (Nat × Object)} {referenceable : SP Nat}

/-- When `parse_classes` and `parse_referenceable` panic on inputs shorter than `L`. -/
structure RecPanic (L : Nat) (classes : SP (Nat × Object)) (referenceable : SP Nat) : Prop where
  cls : ∀ s i, s.classes = [] → i.length < L → PMatch (classes s i) (PanicClass (abs s) i)
  ref : ∀ s i, s.classes = [] → i.length < L → PMatch (referenceable s i) (PanicRecord (abs s) i)

/-! ## Members -/

theorem panicClass_head {E : Env} {i : Bytes} (h : PanicClass E i) : ClassByte i := by
  have key : ∀ {E1 b i1} {hd : ClassHead}, OptLib E i E1 (b ++ i1) → IsClassHead hd b → ClassByte i := by
    intro E1 b i1 hd hlib hb
    generalize hi : b ++ i1 = i2 at hlib
    cases hlib with
    | none => subst hi; exact .inr (classHead_byte hb)
    | some hb' _ =>
      obtain ⟨b1, b2, _, _, rfl⟩ := hb'
      exact .inl rfl
  cases h with
  | members h1 h2 => exact key h1 h2
  | references h1 h2 => exact key h1 h2

theorem plain_good (i : Bytes) : PG i (ValueOrRef.Ok i (polTop i).val) i.length 1 (plainAlt i) := by
  have hi := List.suffix_refl i
  refine alt_good ?_ fun q hq => ?_
  · exact (typed_good hi).map fun p h => (polTop i).prim p h
  · simp only [List.mem_cons, List.not_mem_nil, or_false] at hq
    rcases hq with rfl | rfl | rfl
    · exact refMember_good hi
    · exact stringMember_good hi
    · exact nullObject_good hi

theorem memberNone_pmatch (hpan : RecPanic L classes referenceable)
    {s : St} (hs : s.classes = []) {i : Bytes} (hl : i.length < L) :
    PMatch (memberReferenceNone classes s i) (PanicMember none (abs s) i) := by
  unfold memberReferenceNone
  refine (PMatch.bind (library_match hs i) (library_pmatch s i) (C := fun _ E i => PanicClass E i)
    fun _ s i hs _ hli => ?_).congr ?_
  · have key : ∀ x : Res ValueOrRef, (match plainAlt i with
        | .error _ => (classes s i).map fun (o : Nat × Object) => ValueOrRef.value o.2.toValue
        | r => (r, s)) = x → PMatch x (PanicClass (abs s) i) := by
      rintro x rfl
      have no : (∃ tag ∈ plainTags, i.head? = some tag) → ¬ PanicClass (abs s) i := by
        rintro ⟨tag, ht, h⟩ hp
        have hc := panicClass_head hp
        unfold ClassByte at hc
        simp only [plainTags, List.mem_cons, List.not_mem_nil, or_false] at ht
        rcases ht with rfl | rfl | rfl | rfl | rfl | rfl <;> rw [h] at hc <;> simp at hc
      have hg := plain_good i
      cases hx : plainAlt i with
      | error e => exact (hpan.cls s i hs (by omega)).map _
      | panic => rw [hx] at hg; exact hg.elim
      | diverge => rw [hx] at hg; exact hg.elim
      | _ =>
        have hp : ∃ tag ∈ plainTags, i.head? = some tag := by
          refine Classical.byContradiction fun hp => ?_
          obtain ⟨e, he⟩ := plain_other (i := i) fun tag ht h => hp ⟨tag, ht, h⟩
          rw [he] at hx; cases hx
        exact (PMatch.never (by simp)).congr ⟨False.elim, no hp⟩
    exact key _ rfl
  · constructor
    · rintro (h | ⟨_, E1, i1, hlib, h⟩)
      · exact h.elim
      · exact .object hlib h
    · intro h
      cases h with
      | object hlib h => exact .inr ⟨(), _, _, hlib, h⟩

theorem expectedClass_pmatch (hpan : RecPanic L classes referenceable)
    {s : St} (hs : s.classes = []) {i : Bytes} (hl : i.length < L) (name : Str) (library : Option Str) :
    PMatch (expectedClass classes name library s i) (PanicClass (abs s) i) := by
  have h := hpan.cls s i hs hl
  refine Iff.trans ?_ h
  have hg := nullObject_good (val := (polTop i).val) (List.suffix_refl i)
  unfold expectedClass
  cases hc : classes s i with
  | mk x s1 =>
    cases x with
    | ok r a => simp only; split <;> simp
    | error e =>
      cases hx : parseNullObject i with
      | panic => rw [hx] at hg; exact hg.elim
      | _ => simp
    | failure e =>
      cases hx : parseNullObject i with
      | panic => rw [hx] at hg; exact hg.elim
      | _ => simp
    | _ => simp

theorem member_pmatch (hpan : RecPanic L classes referenceable)
    {s : St} (hs : s.classes = []) {i : Bytes} (hl : i.length < L) (T : MemberType) :
    PMatch (memberReference classes (binaryType T) (typeInfo T) s i) (PanicMember (some T) (abs s) i) := by
  have go : ∀ {P : Prop} (C : Env → Bytes → Prop) (f : St → Bytes → Res ValueOrRef),
      (∀ s i, s.classes = [] → i.length < L → PMatch (f s i) (C (abs s) i)) →
      ((∃ E1 i1, OptLib (abs s) i E1 i1 ∧ C E1 i1) ↔ P) →
      PMatch ((parseBinaryLibrary s i).bind fun _ s i => f s i) P := by
    intro P C f hf hP
    refine (PMatch.bind (library_match hs i) (library_pmatch s i) (C := fun _ E i => C E i)
      fun _ s i hs _ hli => hf s i hs (by omega)).congr (Iff.trans ?_ hP)
    constructor
    · rintro (h | ⟨_, E1, i1, h⟩)
      · exact h.elim
      · exact ⟨E1, i1, h⟩
    · rintro ⟨E1, i1, h⟩; exact .inr ⟨(), E1, i1, h⟩
  have hstr : ∀ i, PG i (ValueOrRef.Ok i (polTop i).val) i.length 1 (stringMember i) :=
    fun i => stringMember_good (List.suffix_refl i)
  unfold memberReference
  cases T with
  | primitive t =>
    refine go (fun _ _ => False) _ (fun s i hs hl => PMatch.stateless
      ((untyped_good _ (List.suffix_refl i)).map (W := fun _ => True) fun p h => trivial)) ?_
    exact ⟨fun ⟨_, _, _, h⟩ => h.elim, (fun h => by cases h)⟩
  | string =>
    refine go (fun _ _ => False) _ (fun s i hs hl => PMatch.stateless (hstr i)) ?_
    exact ⟨fun ⟨_, _, _, h⟩ => h.elim, (fun h => by cases h)⟩
  | object =>
    refine go (fun E i => PanicMember none E i) _ (fun s i hs hl => memberNone_pmatch hpan hs hl) ?_
    exact ⟨fun ⟨_, _, h1, h2⟩ => .typedObject h1 h2, (fun h => by cases h with | typedObject h1 h2 => exact ⟨_, _, h1, h2⟩)⟩
  | objectArray =>
    refine go (fun E i => PanicMember none E i) _ (fun s i hs hl => memberNone_pmatch hpan hs hl) ?_
    exact ⟨fun ⟨_, _, h1, h2⟩ => .typedObjectArray h1 h2,
      (fun h => by cases h with | typedObjectArray h1 h2 => exact ⟨_, _, h1, h2⟩)⟩
  | systemClass name =>
    refine go (fun E i => PanicClass E i) _ (fun s i hs hl => expectedClass_pmatch hpan hs hl name none) ?_
    exact ⟨fun ⟨_, _, h1, h2⟩ => .systemClass h1 h2, (fun h => by cases h with | systemClass h1 h2 => exact ⟨_, _, h1, h2⟩)⟩
  | «class» name l =>
    refine go (fun E i => E.libs l ≠ none ∧ PanicClass E i) _ (fun s i hs hl => ?_) ?_
    · simp only [binaryType, typeInfo]
      have e : (abs s).libs l = s.libs.get? l := rfl
      rw [e]
      cases hlib : s.libs.get? l with
      | none => exact (PMatch.never (by simp)).congr (by simp)
      | some library =>
        exact (expectedClass_pmatch hpan hs hl name (some library)).congr ⟨fun h => ⟨by simp, h⟩, fun h => h.2⟩
    · exact ⟨fun ⟨_, _, h1, h2, h3⟩ => .class h1 h2 h3, (fun h => by cases h with | «class» h1 h2 h3 => exact ⟨_, _, h1, h2, h3⟩)⟩
  | stringArray =>
    refine go (fun _ _ => False) _ (fun s i hs hl => PMatch.stateless (alt_good (hstr i) fun q hq => ?_)) ?_
    · simp only [List.mem_cons, List.not_mem_nil, or_false] at hq
      rcases hq with rfl | rfl
      · exact refMember_good (List.suffix_refl i)
      · exact nullObject_good (List.suffix_refl i)
    · exact ⟨fun ⟨_, _, _, h⟩ => h.elim, (fun h => by cases h)⟩
  | primitiveArray t =>
    refine go (fun _ _ => False) _ (fun s i hs hl => PMatch.stateless
      (refMember_good (pol := polTop i) (List.suffix_refl i))) ?_
    exact ⟨fun ⟨_, _, _, h⟩ => h.elim, (fun h => by cases h)⟩

theorem memberOf_pmatch (hpan : RecPanic L classes referenceable)
    {s : St} (hs : s.classes = []) {i : Bytes} (hl : i.length < L) (T : Option MemberType) :
    PMatch (memberOf classes T s i) (PanicMember T (abs s) i) := by
  cases T with
  | none => exact memberNone_pmatch hpan hs hl
  | some T => exact member_pmatch hpan hs hl T

theorem untypedMembers_pmatch (hsem : RecSem L classes referenceable) (hpan : RecPanic L classes referenceable)
    {s : St} (hs : s.classes = []) {i : Bytes} (hl : i.length < L) (T : Option MemberType) (n : Nat) :
    PMatch (countS (memberOf classes T) n s i) (PanicMembers (List.replicate n T) (abs s) i) := by
  induction n generalizing s i with
  | zero => exact (PMatch.never (by simp [countS])).congr ⟨False.elim, (fun h => by cases h)⟩
  | succ n ih =>
    refine (PMatch.bind (memberOf_match hsem hs hl T) (memberOf_pmatch hpan hs hl T)
      (C := fun _ E1 i1 => PanicMembers (List.replicate n T) E1 i1)
      fun m s1 i1 hs1 _ hl1 => (ih hs1 (by omega)).map _).congr ?_
    rw [List.replicate_succ]
    constructor
    · rintro (h | ⟨m, E1, i1, h1, h2⟩)
      · exact .here h
      · exact .later h1 h2
    · intro h
      cases h with
      | here h => exact .inl h
      | @later _ _ _ _ slot _ _ h1 h2 =>
        refine .inr ⟨ofSlot slot, _, _, ?_, h2⟩
        cases slot <;> exact h1

theorem typedMembers_pmatch (hsem : RecSem L classes referenceable) (hpan : RecPanic L classes referenceable)
    {s : St} (hs : s.classes = []) {i : Bytes} (hl : i.length < L) (Ts : List MemberType) :
    PMatch (membersWithTypeInfo classes ((Ts.map binaryType).zip (Ts.map typeInfo)) s i)
      (PanicMembers (Ts.map some) (abs s) i) := by
  induction Ts generalizing s i with
  | nil => exact (PMatch.never (by simp [membersWithTypeInfo])).congr ⟨False.elim, (fun h => by cases h)⟩
  | cons T Ts ih =>
    refine (PMatch.bind (member_match hsem hs hl T) (member_pmatch hpan hs hl T)
      (C := fun _ E1 i1 => PanicMembers (Ts.map some) E1 i1)
      fun m s1 i1 hs1 _ hl1 => (ih hs1 (by omega)).map _).congr ?_
    constructor
    · rintro (h | ⟨m, E1, i1, h1, h2⟩)
      · exact .here h
      · exact .later h1 h2
    · intro h
      cases h with
      | here h => exact .inl h
      | @later _ _ _ _ slot _ _ h1 h2 =>
        refine .inr ⟨ofSlot slot, _, _, ?_, h2⟩
        cases slot <;> exact h1

/-! ## Resolution -/

theorem resolveRef_pmatch (hsem : RecSem L classes referenceable) (hpan : RecPanic L classes referenceable)
    {s : St} (hs : s.classes = []) {i : Bytes} (hl : i.length < L) (id : Nat) :
    PMatch (resolveRef referenceable id s i) ((abs s).objs id = none ∧ PanicRecord (abs s) i) := by
  have h := hpan.ref s i hs hl
  unfold resolveRef
  have e : (abs s).objs id = s.objects.get? id := rfl
  rw [e]
  cases hg : s.objects.get? id with
  | some v => exact (PMatch.never (by simp)).congr (by simp)
  | none =>
    simp only [true_and]
    refine Iff.trans ?_ h
    cases hc : referenceable s i with
    | mk x s1 =>
      cases x with
      | ok r id2 =>
        simp only
        split
        · split <;> simp
        · simp
      | _ => simp

theorem resolve_pmatch (hsem : RecSem L classes referenceable) (hpan : RecPanic L classes referenceable)
    {s : St} (hs : s.classes = []) {i : Bytes} (hl : i.length < L) (ms : List ValueOrRef) :
    PMatch (resolveMembers referenceable ms s i) (PanicResolve (ms.map slotOf) (abs s) i) := by
  induction ms generalizing s i with
  | nil => exact (PMatch.never (by simp [resolveMembers])).congr ⟨False.elim, (fun h => by cases h)⟩
  | cons m ms ih =>
    cases m with
    | value v =>
      refine ((ih hs hl).map (v :: ·)).congr ?_
      exact ⟨.value, (fun h => by cases h with | value h => exact h)⟩
    | null n =>
      refine ((ih hs hl).map (List.replicate n .null ++ ·)).congr ?_
      exact ⟨.nulls, (fun h => by cases h with | nulls h => exact h)⟩
    | ref id =>
      refine (PMatch.bind (resolveRef_match hsem hs hl id) (resolveRef_pmatch hsem hpan hs hl id)
        (C := fun _ E1 i1 => PanicResolve (ms.map slotOf) E1 i1)
        fun v s1 i1 hs1 _ hl1 => (ih hs1 (by omega)).map _).congr ?_
      constructor
      · rintro (⟨h0, h⟩ | ⟨v, E1, i1, ⟨h1, rfl, rfl⟩ | ⟨h1, E2, hrec, rfl⟩, h2⟩)
        · exact .record h0 h
        · exact .known h1 h2
        · exact .next h1 hrec h2
      · intro h
        cases h with
        | known h1 h2 => exact .inr ⟨_, _, _, .inl ⟨h1, rfl, rfl⟩, h2⟩
        | next h1 hrec h2 => exact .inr ⟨_, _, _, .inr ⟨h1, _, hrec, rfl⟩, h2⟩
        | record h0 h => exact .inl ⟨h0, h⟩

theorem panicResolve_nulls (n : Nat) (slots : List Slot) {E : Env} {i : Bytes} :
    PanicResolve (List.replicate n (.value .null) ++ slots) E i ↔ PanicResolve slots E i := by
  induction n with
  | zero => simp
  | succ n ih =>
    rw [List.replicate_succ, List.cons_append]
    constructor
    · intro h; cases h with | value h => exact ih.mp h
    · intro h; exact .value (ih.mpr h)

theorem panicResolve_expand (ms : List ValueOrRef) {E : Env} {i : Bytes} :
    PanicResolve ((expand ms).map slotOf) E i ↔ PanicResolve (ms.map slotOf) E i := by
  induction ms generalizing E i with
  | nil => rfl
  | cons m ms ih =>
    cases m with
    | value v =>
      simp only [expand, List.map_cons, slotOf]
      constructor
      · intro h; cases h with | value h => exact .value (ih.mp h)
      · intro h; cases h with | value h => exact .value (ih.mpr h)
    | null n =>
      simp only [expand, List.map_append, List.map_replicate, List.map_cons, slotOf]
      rw [panicResolve_nulls, ih]
      constructor
      · exact .nulls
      · intro h; cases h with | nulls h => exact h
    | ref id =>
      simp only [expand, List.map_cons, slotOf]
      constructor
      · intro h
        cases h with
        | known h1 h => exact .known h1 (ih.mp h)
        | next h1 h2 h => exact .next h1 h2 (ih.mp h)
        | record h1 h => exact .record h1 h
      · intro h
        cases h with
        | known h1 h => exact .known h1 (ih.mpr h)
        | next h1 h2 h => exact .next h1 h2 (ih.mpr h)
        | record h1 h => exact .record h1 h

/-! ## Classes -/

theorem classHeader_pmatch {s : St} (hs : s.classes = []) (i : Bytes) : PMatch (classHeader s i) False := by
  refine .never fun e => ?_
  unfold classHeader at e
  have hid := classWithId_good (w := i) (List.suffix_refl i)
  split at e
  · rw [hs] at e
    simp [AMap.get?] at e
  · have hc := classes_good (w := i) (List.suffix_refl i)
    simp only at e
    generalize alt ClassWithMembers.parse _ i = y at e hc
    cases y with
    | panic => exact hc
    | _ => simp [Outcome.map] at e
  · simp at e
  · rename_i heq; rw [heq] at hid; exact hid
  · simp at e

theorem classMembers_pmatch (hsem : RecSem L classes referenceable) (hpan : RecPanic L classes referenceable)
    {s : St} (hs : s.classes = []) {i : Bytes} (hl : i.length < L) (e : Bytes) (h : ClassHead) :
    PMatch (classMembers classes e (classOf h) s i)
      (∃ library, h.HasLibrary (abs s) library ∧ PanicMembers h.memberTypes (abs s) i) := by
  obtain ⟨id, name, names, types, library⟩ := h
  have fin : ∀ (x : Res (List ValueOrRef)) (ts : List (Option MemberType)), PMatch x (PanicMembers ts (abs s) i) →
      ∀ lib : Option Str, ClassHead.HasLibrary ⟨id, name, names, types, library⟩ (abs s) lib →
      ClassHead.memberTypes ⟨id, name, names, types, library⟩ = ts →
      PMatch (x.map (lib, ·)) (∃ lib, ClassHead.HasLibrary ⟨id, name, names, types, library⟩ (abs s) lib ∧
          PanicMembers (ClassHead.memberTypes ⟨id, name, names, types, library⟩) (abs s) i) := by
    intro x ts hx lib hlib hts
    refine (hx.map _).congr ?_
    rw [hts]
    exact ⟨fun h => ⟨lib, hlib, h⟩, fun ⟨_, _, h⟩ => h⟩
  have nolib : ∀ l, library = some l → s.libs.get? l = none →
      PMatch ((.failure ⟨e, .missingLibraryId⟩, s) : Res (Option Str × List ValueOrRef))
        (∃ lib, ClassHead.HasLibrary ⟨id, name, names, types, library⟩ (abs s) lib ∧
          PanicMembers (ClassHead.memberTypes ⟨id, name, names, types, library⟩) (abs s) i) := by
    rintro l rfl h
    have h' : (abs s).libs l = none := h
    refine (PMatch.never (by simp)).congr ⟨False.elim, ?_⟩
    rintro ⟨lib, ⟨name, h'', _⟩, _⟩
    rw [h'] at h''; cases h''
  cases types with
  | none =>
    have hm := untypedMembers_pmatch hsem hpan hs hl none names.length
    cases library with
    | none => exact fin _ _ hm none rfl rfl
    | some l =>
      simp only [classOf, classMembers]
      cases hlib : s.libs.get? l with
      | none => exact nolib l rfl hlib
      | some library => exact fin _ _ hm (some library) ⟨library, hlib, rfl⟩ rfl
  | some ts =>
    have hm := typedMembers_pmatch hsem hpan hs hl ts
    cases library with
    | none => exact fin _ _ hm none rfl rfl
    | some l =>
      simp only [classOf, classMembers]
      cases hlib : s.libs.get? l with
      | none => exact nolib l rfl hlib
      | some library => exact fin _ _ hm (some library) ⟨library, hlib, rfl⟩ rfl

theorem classesBody_pmatch (hsem : RecSem L classes referenceable) (hpan : RecPanic L classes referenceable)
    {s : St} (hs : s.classes = []) {i : Bytes} (hl : i.length < L + 1) :
    PMatch (classesBody classes referenceable s i) (PanicClass (abs s) i) := by
  unfold classesBody
  refine (PMatch.bind (library_match hs i) (library_pmatch s i) (C := fun _ E1 i1 =>
    ∃ h b i2, IsClassHead h b ∧ i1 = b ++ i2 ∧
      ((∃ library, h.HasLibrary E1 library ∧ PanicMembers h.memberTypes E1 i2) ∨
      ∃ library slots E2 i3, h.HasLibrary E1 library ∧ Members h.memberTypes E1 i2 slots E2 i3 ∧
        PanicResolve slots E2 i3)) fun _ s i hs _ hli => ?_).congr ?_
  · refine (PMatch.bind (classHeader_match hs i) (classHeader_pmatch hs i) (C := fun c E1 i2 =>
      ∃ h, c = (h.id, classOf h) ∧
      ((∃ library, h.HasLibrary E1 library ∧ PanicMembers h.memberTypes E1 i2) ∨
      ∃ library slots E2 i3, h.HasLibrary E1 library ∧ Members h.memberTypes E1 i2 slots E2 i3 ∧
        PanicResolve slots E2 i3)) fun c s1 i1 hs1 hc hl1 => ?_).congr ?_
    · obtain ⟨hE, h, b, rfl, hb, rfl⟩ := hc
      simp only
      rw [hs1]
      simp only [AMap.get?, Option.isSome_none, Bool.false_eq_true, ↓reduceIte]
      refine (PMatch.bind (classMembers_match hsem hs1 (i := i1) (by omega) _ h)
        (classMembers_pmatch hsem hpan hs1 (i := i1) (by omega) _ h)
        (C := fun x E2 i3 => PanicResolve (x.2.map slotOf) E2 i3)
        fun x s2 i2 hs2 hx hl2 => ?_).congr ?_
      · obtain ⟨library, ms⟩ := x
        refine (PMatch.bind (resolve_match hsem hs2 (i := i2) (by omega) ms)
          (resolve_pmatch hsem hpan hs2 (i := i2) (by omega) ms) (C := fun _ _ _ => False)
          fun values s3 i3 hs3 _ hl3 => PMatch.never (by simp)).congr ?_
        exact ⟨fun h => h.elim id fun ⟨_, _, _, _, h⟩ => h.elim, .inl⟩
      · constructor
        · rintro (h1 | ⟨⟨library, ms⟩, E2, i3, ⟨h1, h2⟩, h3⟩)
          · exact ⟨h, rfl, .inl h1⟩
          · exact ⟨h, rfl, .inr ⟨library, _, E2, i3, h1, h2, h3⟩⟩
        · rintro ⟨h', heq, h1 | ⟨library, slots, E2, i3, h1, h2, h3⟩⟩
          · simp only [Prod.mk.injEq] at heq
            obtain rfl := classOf_inj heq.2
            exact .inl h1
          · simp only [Prod.mk.injEq] at heq
            obtain rfl := classOf_inj heq.2
            rw [← map_ofSlot slots] at h2 h3
            exact .inr ⟨(library, _), E2, i3, ⟨h1, h2⟩, h3⟩
    · constructor
      · rintro (h | ⟨c, E1, i1, ⟨rfl, h, b, rfl, hb, rfl⟩, h', heq, h1⟩)
        · exact h.elim
        · simp only [Prod.mk.injEq] at heq
          obtain rfl := classOf_inj heq.2
          exact ⟨h, b, i1, hb, rfl, h1⟩
      · rintro ⟨h, b, i2, hb, rfl, h1⟩
        exact .inr ⟨_, _, _, ⟨rfl, h, b, rfl, hb, rfl⟩, h, rfl, h1⟩
  · constructor
    · rintro (h | ⟨_, E1, i1, hlib, h, b, i2, hb, rfl, ⟨library, h1, h2⟩ | ⟨library, slots, E2, i3, h1, h2, h3⟩⟩)
      · exact h.elim
      · exact .members hlib hb h1 h2
      · exact .references hlib hb h1 h2 h3
    · intro h
      cases h with
      | members hlib hb h1 h2 => exact .inr ⟨(), _, _, hlib, _, _, _, hb, rfl, .inl ⟨_, h1, h2⟩⟩
      | references hlib hb h1 h2 h3 => exact .inr ⟨(), _, _, hlib, _, _, _, hb, rfl, .inr ⟨_, _, _, _, h1, h2, h3⟩⟩

/-! ## Arrays -/

theorem arrayLoop_pmatch (hsem : RecSem L classes referenceable) (hpan : RecPanic L classes referenceable)
    (T : Option MemberType) (fuel len : Nat) (acc : List ValueOrRef) (hf : len - acc.length ≤ fuel) {s : St}
    (hs : s.classes = []) {i : Bytes} (hl : i.length < L) :
    PMatch (arrayLoop (memberOf classes T) fuel len acc s i) (PanicFill T (len - acc.length) (abs s) i) := by
  have done : len - acc.length = 0 → (False ↔ PanicFill T (len - acc.length) (abs s) i) := by
    intro h
    constructor
    · exact False.elim
    · intro h'
      cases h' with
      | here h0 => omega
      | later h0 => omega
  induction fuel generalizing acc s i with
  | zero =>
    unfold arrayLoop
    rw [if_neg (by omega)]
    exact (PMatch.never (by simp)).congr (done (by omega))
  | succ fuel ih =>
    unfold arrayLoop
    split
    · rename_i hlt
      refine (PMatch.bind (memberOf_match hsem hs hl T) (memberOf_pmatch hpan hs hl T)
        (C := fun m E1 i1 => PanicFill T (len - acc.length - (slotOf m).size) E1 i1)
        fun m s1 i1 hs1 hm hl1 => ?_).congr ?_
      · have hsz := member_size hm
        have go : ∀ (x : List ValueOrRef), x.length = (slotOf m).size →
            PMatch (arrayLoop (memberOf classes T) fuel len (acc ++ x) s1 i1)
              (PanicFill T (len - acc.length - (slotOf m).size) (abs s1) i1) := by
          intro x hx
          have e : len - acc.length - (slotOf m).size = len - (acc ++ x).length := by
            rw [List.length_append, hx]; omega
          rw [e]
          refine ih (acc ++ x) (by rw [← e]; omega) hs1 (by omega) fun h => ?_
          constructor
          · exact False.elim
          · intro h'
            cases h' with
            | here h0 => omega
            | later h0 => omega
        cases m with
        | null n => exact go (List.replicate n (.value .null)) (by simp [slotOf, Slot.size])
        | value v => exact go [.value v] rfl
        | ref id => exact go [.ref id] rfl
      · constructor
        · rintro (h | ⟨m, E1, i1, h1, h2⟩)
          · exact .here (by omega) h
          · exact .later (by omega) h1 h2
        · intro h
          cases h with
          | here h0 h => exact .inl h
          | @later _ _ _ _ slot _ _ h0 h1 h2 =>
            have e : slotOf (ofSlot slot) = slot := by cases slot <;> rfl
            exact .inr ⟨ofSlot slot, _, _, e.symm ▸ h1, e.symm ▸ h2⟩
    · exact (PMatch.never (by simp)).congr (done (by omega))

theorem arrayOf_pmatch (hsem : RecSem L classes referenceable) (hpan : RecPanic L classes referenceable)
    (T : Option MemberType) {tag : UInt8} {p : Parser ArrayInfo}
    (hp : Exact p (fun a b => IsArrayHead tag a.objectId a.length b)) {s : St} (hs : s.classes = []) {i : Bytes}
    (hb : p i ≠ .panic) (hl : i.length < L + 1) :
    PMatch ((lift p s i).bind fun info s i =>
        (arrayLoop (memberOf classes T) info.length info.length [] s i).bind fun members s i =>
        (resolveMembers referenceable members s i).map fun vs => (info.objectId, vs))
      (∃ id len b i1, IsArrayHead tag id len b ∧ i = b ++ i1 ∧ (PanicFill T len (abs s) i1 ∨
          ∃ slots E2 i2, Fill T len (abs s) i1 slots E2 i2 ∧ PanicResolve slots E2 i2)) := by
  refine (PMatch.bind (Match.stateless hp (k := 1) (fun _ _ h => arrayHead_length h) hs i) (.never hb)
    (C := fun info E1 i1 => PanicFill T info.length E1 i1 ∨ ∃ slots E2 i2, Fill T info.length E1 i1 slots E2 i2 ∧
      PanicResolve slots E2 i2) fun info s1 i1 hs1 _ hl1 => ?_).congr ?_
  · refine (PMatch.bind (arrayLoop_match hsem T info.length info.length [] (by simp) hs1 (i := i1) (by omega))
      (arrayLoop_pmatch hsem hpan T info.length info.length [] (by simp) hs1 (i := i1) (by omega))
      (C := fun ms E2 i2 => PanicResolve (ms.map slotOf) E2 i2)
      fun ms s2 i2 hs2 _ hl2 => (resolve_pmatch hsem hpan hs2 (i := i2) (by omega) ms).map _).congr ?_
    constructor
    · rintro (h | ⟨_, E2, i2, ⟨ms, rfl, h1⟩, h2⟩)
      · exact .inl h
      · simp only [List.nil_append, panicResolve_expand] at h2
        exact .inr ⟨_, E2, i2, h1, h2⟩
    · rintro (h | ⟨slots, E2, i2, h1, h2⟩)
      · exact .inl h
      · rw [← map_ofSlot slots] at h1 h2
        refine .inr ⟨_, E2, i2, ⟨_, rfl, h1⟩, ?_⟩
        simp only [List.nil_append, panicResolve_expand]
        exact h2
  · constructor
    · rintro (h | ⟨info, E1, i1, ⟨rfl, b, hq, rfl⟩, h⟩)
      · exact h.elim
      · exact ⟨info.objectId, info.length, b, i1, hq, rfl, h⟩
    · rintro ⟨id, len, b, i1, hq, rfl, h⟩
      exact .inr ⟨⟨id, len⟩, _, i1, ⟨rfl, b, hq, rfl⟩, h⟩

theorem binaryArray_pmatch (hsem : RecSem L classes referenceable) (hpan : RecPanic L classes referenceable)
    {s : St} (hs : s.classes = []) {i : Bytes} (hl : i.length < L + 1) :
    PMatch (binaryArray classes referenceable s i)
      (∃ id kind lengths T b i1, IsBinaryArrayHead id kind lengths T b ∧ i = b ++ i1 ∧
        ∃ n, productUsize 1 lengths = some n ∧ (PanicMembers (List.replicate n (some T)) (abs s) i1 ∨
          ∃ slots E2 i2, Members (List.replicate n (some T)) (abs s) i1 slots E2 i2 ∧
            (PanicResolve slots E2 i2 ∨ ∃ vs E3 i3, Resolve slots E2 i2 vs E3 i3 ∧
              ¬ lengths.tail.prod ∣ vs.length))) := by
  have hnp : BinaryArray.parse i ≠ .panic := by
    intro h
    have := binaryArrayRec_good (List.suffix_refl i)
    rw [h] at this; exact this
  unfold binaryArray
  refine (PMatch.bind (Match.stateless binaryArray_exact (k := 1) ?_ hs i) (.never hnp)
    (C := fun a E1 i1 => ∃ T, a.typeEnum = binaryType T ∧ a.additionalTypeInfo = typeInfo T ∧
         ∃ n, productUsize 1 a.lengths = some n ∧ (PanicMembers (List.replicate n (some T)) E1 i1 ∨
          ∃ slots E2 i2, Members (List.replicate n (some T)) E1 i1 slots E2 i2 ∧
            (PanicResolve slots E2 i2 ∨ ∃ vs E3 i3, Resolve slots E2 i2 vs E3 i3 ∧
              ¬ a.lengths.tail.prod ∣ vs.length)))
    fun a s1 i1 hs1 ha hl1 => ?_).congr ?_
  · rintro a b ⟨T, _, _, _, _, _, _, _, _, _, _, _, _, _, rfl⟩; simp
  · obtain ⟨_, _, ⟨T, hT, hI, _⟩, _⟩ := ha
    have hTT : ∀ T', a.typeEnum = binaryType T' → a.additionalTypeInfo = typeInfo T' → T' = T := by
      intro T' h1 h2
      exact memberType_inj (h1.symm.trans hT) (h2.symm.trans hI)
    rw [checkedProduct_spec]
    cases hn : productUsize 1 a.lengths with
    | none =>
      refine (PMatch.never (by simp)).congr ⟨False.elim, ?_⟩
      rintro ⟨_, _, _, n, h, _⟩
      cases h
    | some n =>
      have hm := untypedMembers_match hsem hs1 (i := i1) (by omega) (some T) n
      have hb := untypedMembers_pmatch hsem hpan hs1 (i := i1) (by omega) (some T) n
      simp only [memberOf, ← hT, ← hI] at hm hb
      refine (PMatch.bind hm hb (C := fun ms E2 i2 => PanicResolve (ms.map slotOf) E2 i2 ∨
          ∃ vs E3 i3, Resolve (ms.map slotOf) E2 i2 vs E3 i3 ∧ ¬ a.lengths.tail.prod ∣ vs.length)
        fun ms s2 i2 hs2 hms hl2 => ?_).congr ?_
      · refine PMatch.bind (resolve_match hsem hs2 (i := i2) (by omega) ms)
          (resolve_pmatch hsem hpan hs2 (i := i2) (by omega) ms) (C := fun vs _ _ => ¬ a.lengths.tail.prod ∣ vs.length)
          fun vs s3 i3 hs3 hv hl3 => ?_
        cases hre : reshape (a.lengths.drop 1).reverse vs with
        | done rows =>
          refine (PMatch.never (by simp)).congr ⟨False.elim, fun hd => hd ?_⟩
          exact rows_exist.mp ⟨rows, rows_iff.mp hre⟩
        | panic =>
          refine ⟨fun _ hd => ?_, fun _ => rfl⟩
          obtain ⟨rows, hrows⟩ := rows_exist.mpr hd
          have := rows_iff.mpr hrows
          rw [hre] at this
          cases this
        | diverge =>
          exfalso
          have hn' := productUsize_prod hn
          have hpos : ∀ l ∈ (a.lengths.drop 1).reverse, 0 < l := by
            intro l hl
            rcases Nat.eq_zero_or_pos l with rfl | h
            · exfalso
              have hz : a.lengths.tail.prod = 0 := prod_zero (by simpa using hl)
              have hz' : a.lengths.prod = 0 := by
                cases hle : a.lengths with
                | nil => rw [hle] at hl; simp at hl
                | cons d ds => rw [hle] at hz; simp only [List.tail_cons] at hz; simp [hz]
              have hn0 : n = 0 := by rw [hn', hz']
              subst hn0
              have hl0 := members_length hms
              simp at hl0
              subst hl0
              have hvs : vs = [] := by
                generalize abs s3 = E3 at hv
                generalize abs s2 = E2 at hv
                simp only [List.map_nil] at hv
                cases hv
                rfl
              subst hvs
              rw [reshape_nil] at hre
              cases hre
            · exact h
          rcases (reshape_spec (pol := polTop []) hpos (fun _ _ _ _ _ => trivial) vs fun _ _ => trivial).2 with ⟨cs, h, _⟩ | h <;>
            rw [hre] at h <;> cases h
      · constructor
        · rintro (h | ⟨ms, E2, i2, h1, h2⟩)
          · exact ⟨T, hT, hI, n, rfl, .inl h⟩
          · exact ⟨T, hT, hI, n, rfl, .inr ⟨_, E2, i2, h1, h2⟩⟩
        · rintro ⟨T', h1, h2, n', hn', h | ⟨slots, E2, i2, h3, h4⟩⟩
          · obtain rfl := hTT T' h1 h2
            cases hn'
            exact .inl h
          · obtain rfl := hTT T' h1 h2
            cases hn'
            rw [← map_ofSlot slots] at h3 h4
            exact .inr ⟨_, E2, i2, h3, h4⟩
  · constructor
    · rintro (h | ⟨a, E1, i1, ⟨rfl, b, ⟨T', hT', hI', bid, brank, blens, bbounds, binfo, g1, g2, g3, g4, g5, g6, rfl⟩, rfl⟩,
        T, hT, hI, h⟩)
      · exact h.elim
      obtain rfl := memberType_inj (hT.symm.trans hT') (hI.symm.trans hI')
      refine ⟨a.objectId, a.binaryArrayTypeEnum, a.lengths, T, _, i1,
        ⟨bid, brank, blens, bbounds, binfo, g1, g2, g3, fun h => ?_,
          fun h => (g5 h).2, g6, rfl⟩, rfl, h⟩
      obtain ⟨bounds, _, h6, h7⟩ := g4 h
      exact ⟨bounds, h6, h7⟩
    · rintro ⟨id, kind, lengths, T, b, i1, ⟨bid, brank, blens, bbounds, binfo, g1, g2, g3, g4, g5, g6, rfl⟩, rfl, h⟩
      right
      by_cases hk : hasLowerBounds kind
      · obtain ⟨bounds, h6, h7⟩ := g4 hk
        exact ⟨⟨id, kind, lengths, some bounds, binaryType T, typeInfo T⟩, _, i1,
          ⟨rfl, _, ⟨T, rfl, rfl, bid, brank, blens, bbounds, binfo, g1, g2, g3,
            fun _ => ⟨bounds, rfl, h6, h7⟩, fun h => absurd hk h, g6, rfl⟩, rfl⟩,
          T, rfl, rfl, h⟩
      · exact ⟨⟨id, kind, lengths, none, binaryType T, typeInfo T⟩, _, i1,
          ⟨rfl, _, ⟨T, rfl, rfl, bid, brank, blens, bbounds, binfo, g1, g2, g3,
            fun h => absurd h hk, fun h => ⟨rfl, g5 h⟩, g6, rfl⟩, rfl⟩,
          T, rfl, rfl, h⟩

end Nrbf
