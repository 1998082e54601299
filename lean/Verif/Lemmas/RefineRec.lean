import Verif.Lemmas.Refine

/-! # The stateful parsers against the declarative grammar: members, classes, arrays -/

namespace Nrbf
open Spec

variable {α β : Type} [Platform] {L : Nat} {classes : SP (Nat × Object)} {referenceable : SP Nat}

theorem plain_not_classByte {m : ValueOrRef} {b r : Bytes} (h : PlainMember m b) :
    ¬ ClassByte (b ++ r) := by
  have key : ∀ c : UInt8, (b ++ r).head? = some c → c ≠ 12 → c ≠ 2 → c ≠ 3 → c ≠ 4 → c ≠ 5 →
      ¬ ClassByte (b ++ r) := by
    intro c hc h1 h2 h3 h4 h5 h
    unfold ClassByte at h
    simp only [hc, Option.some.injEq] at h
    rcases h with h | h | h | h | h <;> contradiction
  rcases h with ⟨_, _, h⟩ | ⟨_, _, h⟩ | ⟨_, _, _, h⟩ | ⟨_, _, h⟩
  · exact key 8 (typedPrimitive_head h) (by decide) (by decide) (by decide) (by decide) (by decide)
  · exact key 9 (reference_head h) (by decide) (by decide) (by decide) (by decide) (by decide)
  · exact key 6 (string_head h) (by decide) (by decide) (by decide) (by decide) (by decide)
  · rcases nulls_head (r := r) h with h | h | h
    · exact key 10 h (by decide) (by decide) (by decide) (by decide) (by decide)
    · exact key 14 h (by decide) (by decide) (by decide) (by decide) (by decide)
    · exact key 13 h (by decide) (by decide) (by decide) (by decide) (by decide)

theorem plain_error {i : Bytes} (h : ClassByte i) :
    ∃ e, alt (fun i => (memberPrimitiveTyped i).map fun p => ValueOrRef.value p.intoValue)
        [refMember, stringMember, parseNullObject] i = .error e := by
  have ne : ∀ c : UInt8, c ≠ 12 → c ≠ 2 → c ≠ 3 → c ≠ 4 → c ≠ 5 → i.head? ≠ some c := by
    intro c h1 h2 h3 h4 h5 hc
    unfold ClassByte at h
    simp only [hc, Option.some.injEq] at h
    rcases h with h | h | h | h | h <;> contradiction
  obtain ⟨e1, h1⟩ := typedMember_mismatch (ne 8 (by decide) (by decide) (by decide) (by decide) (by decide))
  obtain ⟨e2, h2⟩ := refMember_mismatch (ne 9 (by decide) (by decide) (by decide) (by decide) (by decide))
  obtain ⟨e3, h3⟩ := stringMember_mismatch (ne 6 (by decide) (by decide) (by decide) (by decide) (by decide))
  obtain ⟨e4, h4⟩ := nullMember_mismatch (ne 10 (by decide) (by decide) (by decide) (by decide) (by decide))
    (ne 14 (by decide) (by decide) (by decide) (by decide) (by decide))
    (ne 13 (by decide) (by decide) (by decide) (by decide) (by decide))
  simp only [alt, h1, h2, h3]
  exact ⟨e4, h4⟩

/-- A member without declared type, after the optional library. -/
theorem memberNone_match (hsem : RecSem L classes referenceable) {s : St} (hs : s.classes = [])
    {i : Bytes} (hl : i.length < L) :
    Match (memberReferenceNone classes s i) i.length 1
      (fun m E' r => Member none (abs s) i (slotOf m) E' r) := by
  unfold memberReferenceNone
  refine ((library_match hs i).bind (k2 := 1) (k := 1) (by omega) (K := fun _ E1 i1 m E' r =>
    (E' = E1 ∧ ∃ b, PlainMember m b ∧ i1 = b ++ r) ∨
    (∃ o : Nat × Object, m = .value o.2.toValue ∧
      Spec.Class E1 i1 o.1 o.2.cls o.2.library o.2.members E' r))
    fun _ s i hs _ hli => ?_).congr fun m E' r => ?_
  · have hc := hsem.cls s i hs (by omega)
    constructor
    · intro r m s' h
      split at h
      · obtain ⟨⟨o, ho, rfl⟩, hs', hl'⟩ := (hc.map _).1 r m s' h
        exact ⟨.inr ⟨o, rfl, ho⟩, hs', hl'⟩
      · simp only [Prod.mk.injEq] at h
        obtain ⟨h, rfl⟩ := h
        obtain ⟨b, hb, rfl⟩ := (plain_exact _ _ _).mp h
        have := plain_length hb
        exact ⟨.inl ⟨rfl, b, hb, rfl⟩, hs, by simp; omega⟩
    · rintro m E' r (⟨rfl, h⟩ | ⟨o, rfl, ho⟩)
      · have := (plain_exact i r m).mpr h
        rw [this]
        exact ⟨s, rfl, rfl⟩
      · obtain ⟨e, he⟩ := plain_error (class_byte ho)
        rw [he]
        exact (hc.map _).2 _ E' r ⟨o, ho, rfl⟩
  · constructor
    · rintro ⟨_, E1, i1, hlib, ⟨rfl, b, hb, rfl⟩ | ⟨o, rfl, ho⟩⟩
      · rcases hb with ⟨v, rfl, h⟩ | ⟨id, rfl, h⟩ | ⟨id, x, rfl, h⟩ | ⟨n, rfl, h⟩
        · exact .primitive hlib h
        · exact .reference hlib h
        · exact .string hlib h
        · exact .nulls hlib h
      · exact .object hlib ho
    · intro h
      generalize hm : slotOf m = slot at h
      cases h with
      | primitive hlib h => cases m <;> cases hm; exact ⟨(), _, _, hlib, .inl ⟨rfl, _, .inl ⟨_, rfl, h⟩, rfl⟩⟩
      | reference hlib h => cases m <;> cases hm; exact ⟨(), _, _, hlib, .inl ⟨rfl, _, .inr (.inl ⟨_, rfl, h⟩), rfl⟩⟩
      | string hlib h => cases m <;> cases hm; exact ⟨(), _, _, hlib, .inl ⟨rfl, _, .inr (.inr (.inl ⟨_, _, rfl, h⟩)), rfl⟩⟩
      | nulls hlib h => cases m <;> cases hm; exact ⟨(), _, _, hlib, .inl ⟨rfl, _, .inr (.inr (.inr ⟨_, rfl, h⟩)), rfl⟩⟩
      | @object _ _ _ _ id name library members _ _ hlib h =>
        cases m <;> cases hm
        exact ⟨(), _, _, hlib, .inr ⟨(id, ⟨name, library, members⟩), rfl, h⟩⟩

omit [Platform] in
theorem nulls_length {n : Nat} {b : Bytes} (h : IsNulls n b) : 1 ≤ b.length := by
  rcases h with ⟨_, rfl⟩ | ⟨_, _, rfl⟩ | ⟨_, _, rfl⟩ <;> simp

theorem expectedClass_match (hsem : RecSem L classes referenceable) {s : St} (hs : s.classes = [])
    {i : Bytes} (hl : i.length < L) (name : Str) (library : Option Str) :
    Match (expectedClass classes name library s i) i.length 1 (fun m E' r =>
      (∃ id members, m = .value (.object name library members) ∧
        Spec.Class (abs s) i id name library members E' r) ∨
      (E' = abs s ∧ ∃ n b, m = .null n ∧ IsNulls n b ∧ i = b ++ r)) := by
  have hc := hsem.cls s i hs hl
  have hnull : ∀ n b r, IsNulls n b → i = b ++ r → ∃ e, classes s i = (.error e, s) := by
    rintro n b r hn rfl
    have hp : PlainMember (.null n) b := .inr (.inr (.inr ⟨n, rfl, hn⟩))
    refine hsem.other s _ hl (plain_not_classByte hp) ?_
    rcases nulls_head (r := r) hn with h | h | h <;> rw [h] <;> decide
  have nullok : ∀ r m s1, (parseNullObject i, s1) = ((.ok r m, s1) : Res ValueOrRef) →
      ∃ n b, m = .null n ∧ IsNulls n b ∧ i = b ++ r := by
    intro r m s1 h
    simp only [Prod.mk.injEq, and_true] at h
    obtain ⟨b, ⟨n, rfl, hn⟩, rfl⟩ := (nullMember_exact _ _ _).mp h
    exact ⟨n, b, rfl, hn, rfl⟩
  constructor
  · intro r m s' h
    unfold expectedClass at h
    split at h
    · rename_i r1 o s1 heq
      obtain ⟨hj, hs1, hl1⟩ := hc.1 _ _ _ heq
      split at h
      · cases h
      · rename_i hne
        cases h
        simp only [not_or, ne_eq, Decidable.not_not] at hne
        obtain ⟨id, cls, lib, ms⟩ := o
        simp only at hne
        obtain ⟨rfl, rfl⟩ := hne
        exact ⟨.inl ⟨id, ms, rfl, hj⟩, hs1, hl1⟩
    · rename_i e s1 heq
      have h2 := h
      simp only [Prod.mk.injEq] at h
      obtain ⟨_, rfl⟩ := h
      obtain ⟨n, b, rfl, hn, rfl⟩ := nullok _ _ _ h2
      obtain ⟨e', he'⟩ := hnull n b r hn rfl
      rw [he'] at heq
      cases heq
      have := nulls_length hn
      exact ⟨.inr ⟨rfl, n, b, rfl, hn, rfl⟩, hs, by simp; omega⟩
    · rename_i e s1 heq
      have h2 := h
      simp only [Prod.mk.injEq] at h
      obtain ⟨_, rfl⟩ := h
      obtain ⟨n, b, rfl, hn, rfl⟩ := nullok _ _ _ h2
      obtain ⟨e', he'⟩ := hnull n b r hn rfl
      rw [he'] at heq
      cases heq
    · cases h
    · cases h
  · rintro m E' r (⟨id, members, rfl, hj⟩ | ⟨rfl, n, b, rfl, hn, rfl⟩)
    · obtain ⟨s1, h1, rfl⟩ := hc.2 (id, ⟨name, library, members⟩) E' r hj
      refine ⟨s1, ?_, rfl⟩
      unfold expectedClass
      rw [h1]
      simp [Object.toValue]
    · obtain ⟨e', he'⟩ := hnull n b r hn rfl
      refine ⟨s, ?_, rfl⟩
      unfold expectedClass
      rw [he']
      simp only [Prod.mk.injEq, and_true]
      exact (nullMember_exact _ _ _).mpr ⟨b, ⟨n, rfl, hn⟩, rfl⟩

omit [Platform] in
theorem slot_value {m : ValueOrRef} {v : Value} (h : slotOf m = .value v) : m = .value v := by
  cases m <;> cases h; rfl
omit [Platform] in
theorem slot_nulls {m : ValueOrRef} {n : Nat} (h : slotOf m = .nulls n) : m = .null n := by
  cases m <;> cases h; rfl
omit [Platform] in
theorem slot_ref {m : ValueOrRef} {n : Nat} (h : slotOf m = .ref n) : m = .ref n := by
  cases m <;> cases h; rfl

/-- A member with a declared type. -/
theorem member_match (hsem : RecSem L classes referenceable) {s : St} (hs : s.classes = [])
    {i : Bytes} (hl : i.length < L) (T : MemberType) :
    Match (memberReference classes (binaryType T) (typeInfo T) s i) i.length 1
      (fun m E' r => Member (some T) (abs s) i (slotOf m) E' r) := by
  unfold memberReference
  have str : ∀ (m : ValueOrRef) (b : Bytes),
      (∃ id s, m = .value (.string s) ∧ IsObjectString id s b) → 1 ≤ b.length := by
    rintro _ _ ⟨_, _, _, _, _, _, _, rfl⟩; simp
  have rf : ∀ (m : ValueOrRef) (b : Bytes), (∃ id, m = .ref id ∧ IsReference id b) →
      1 ≤ b.length := by
    rintro _ _ ⟨_, _, _, _, rfl⟩; simp
  cases T with
  | primitive t =>
    simp only [binaryType, typeInfo]
    refine ((library_match hs i).bind (k2 := 1) (k := 1) (by omega)
      (K := fun _ E1 i1 m E' r => E' = E1 ∧ ∃ b, (∃ v, m = .value v ∧ IsPrimitive t v b) ∧ i1 = b ++ r) fun _ s i hs _ hli =>
      Match.stateless (untypedMember_exact t) (by rintro _ _ ⟨_, _, h⟩; exact prim_length h) hs i).congr
      fun m E' r => ?_
    constructor
    · rintro ⟨_, E1, i1, hlib, rfl, b, ⟨v, rfl, h⟩, rfl⟩; exact .typedPrimitive hlib h
    · intro h
      generalize hm : slotOf m = slot at h
      cases h with
      | typedPrimitive hlib h =>
        obtain rfl := slot_value hm
        exact ⟨(), _, _, hlib, rfl, _, ⟨_, rfl, h⟩, rfl⟩
  | string =>
    simp only [binaryType, typeInfo]
    refine ((library_match hs i).bind (k2 := 1) (k := 1) (by omega)
      (K := fun _ E1 i1 m E' r => E' = E1 ∧ ∃ b, (∃ id s, m = .value (.string s) ∧ IsObjectString id s b) ∧ i1 = b ++ r) fun _ s i hs _ hli =>
      Match.stateless stringMember_exact str hs i).congr fun m E' r => ?_
    constructor
    · rintro ⟨_, E1, i1, hlib, rfl, b, ⟨id, v, rfl, h⟩, rfl⟩; exact .typedString hlib h
    · intro h
      generalize hm : slotOf m = slot at h
      cases h with
      | typedString hlib h =>
        obtain rfl := slot_value hm
        exact ⟨(), _, _, hlib, rfl, _, ⟨_, _, rfl, h⟩, rfl⟩
  | object =>
    simp only [binaryType, typeInfo]
    refine ((library_match hs i).bind (k2 := 1) (k := 1) (by omega)
      (K := fun _ E1 i1 m E' r => Member none E1 i1 (slotOf m) E' r) fun _ s i hs _ hli =>
      memberNone_match hsem hs (by omega)).congr fun m E' r => ?_
    constructor
    · rintro ⟨_, E1, i1, hlib, h⟩; exact .typedObject hlib h
    · intro h
      generalize hm : slotOf m = slot at h
      cases h with
      | typedObject hlib h => subst hm; exact ⟨(), _, _, hlib, h⟩
  | objectArray =>
    simp only [binaryType, typeInfo]
    refine ((library_match hs i).bind (k2 := 1) (k := 1) (by omega)
      (K := fun _ E1 i1 m E' r => Member none E1 i1 (slotOf m) E' r) fun _ s i hs _ hli =>
      memberNone_match hsem hs (by omega)).congr fun m E' r => ?_
    constructor
    · rintro ⟨_, E1, i1, hlib, h⟩; exact .typedObjectArray hlib h
    · intro h
      generalize hm : slotOf m = slot at h
      cases h with
      | typedObjectArray hlib h => subst hm; exact ⟨(), _, _, hlib, h⟩
  | systemClass name =>
    simp only [binaryType, typeInfo]
    refine ((library_match hs i).bind (k2 := 1) (k := 1) (by omega)
      (K := fun _ E1 i1 m E' r => (∃ id members, m = .value (.object name none members) ∧
        Spec.Class E1 i1 id name none members E' r) ∨
      (E' = E1 ∧ ∃ n b, m = .null n ∧ IsNulls n b ∧ i1 = b ++ r)) fun _ s i hs _ hli =>
      expectedClass_match hsem hs (by omega) name none).congr fun m E' r => ?_
    constructor
    · rintro ⟨_, E1, i1, hlib, ⟨id, members, rfl, h⟩ | ⟨rfl, n, b, rfl, h, rfl⟩⟩
      · exact .systemClass hlib h
      · exact .systemClassNulls hlib h
    · intro h
      generalize hm : slotOf m = slot at h
      cases h with
      | systemClass hlib h =>
        obtain rfl := slot_value hm
        exact ⟨(), _, _, hlib, .inl ⟨_, _, rfl, h⟩⟩
      | systemClassNulls hlib h =>
        obtain rfl := slot_nulls hm
        exact ⟨(), _, _, hlib, .inr ⟨rfl, _, _, rfl, h, rfl⟩⟩
  | «class» name l =>
    refine ((library_match hs i).bind (k2 := 1) (k := 1) (by omega) (K := fun _ E1 i1 m E' r =>
      ∃ library, E1.libs l = some library ∧ ((∃ id members,
        m = .value (.object name (some library) members) ∧
          Spec.Class E1 i1 id name (some library) members E' r) ∨
        (E' = E1 ∧ ∃ n b, m = .null n ∧ IsNulls n b ∧ i1 = b ++ r))) fun _ s i hs _ hli => ?_).congr
      fun m E' r => ?_
    · simp only [binaryType, typeInfo]
      cases hlib : s.libs.get? l with
      | none =>
        refine .never (by simp) ?_
        rintro m E r ⟨library, h, _⟩
        simp only [abs] at h
        rw [hlib] at h
        cases h
      | some library =>
        refine (expectedClass_match hsem hs (by omega) name (some library)).congr fun m E' r => ?_
        constructor
        · intro h; exact ⟨library, hlib, h⟩
        · rintro ⟨library', h1, h⟩
          simp only [abs] at h1
          rw [hlib] at h1
          cases h1
          exact h
    · constructor
      · rintro ⟨_, E1, i1, hlib, library, hl, ⟨id, members, rfl, h⟩ | ⟨rfl, n, b, rfl, h, rfl⟩⟩
        · exact .class hlib hl h
        · exact .classNulls hlib hl h
      · intro h
        generalize hm : slotOf m = slot at h
        cases h with
        | «class» hlib hl h =>
          obtain rfl := slot_value hm
          exact ⟨(), _, _, hlib, _, hl, .inl ⟨_, _, rfl, h⟩⟩
        | classNulls hlib hl h =>
          obtain rfl := slot_nulls hm
          exact ⟨(), _, _, hlib, _, hl, .inr ⟨rfl, _, _, rfl, h, rfl⟩⟩
  | stringArray =>
    simp only [binaryType, typeInfo]
    refine ((library_match hs i).bind (k2 := 1) (k := 1) (by omega)
      (K := fun _ E1 i1 m E' r => E' = E1 ∧ ∃ b, ((∃ id s, m = .value (.string s) ∧ IsObjectString id s b) ∨
      (∃ id, m = .ref id ∧ IsReference id b) ∨ ∃ n, m = .null n ∧ IsNulls n b) ∧ i1 = b ++ r) fun _ s i hs _ hli =>
      Match.stateless stringElement_exact ?_ hs i).congr fun m E' r => ?_
    · rintro m b (h | h | ⟨n, _, h⟩)
      · exact str m b h
      · exact rf m b h
      · exact nulls_length h
    constructor
    · rintro ⟨_, E1, i1, hlib, rfl, b, ⟨id, v, rfl, h⟩ | ⟨id, rfl, h⟩ | ⟨n, rfl, h⟩, rfl⟩
      · exact .stringArrayString hlib h
      · exact .stringArrayReference hlib h
      · exact .stringArrayNulls hlib h
    · intro h
      generalize hm : slotOf m = slot at h
      cases h with
      | stringArrayString hlib h =>
        obtain rfl := slot_value hm
        exact ⟨(), _, _, hlib, rfl, _, .inl ⟨_, _, rfl, h⟩, rfl⟩
      | stringArrayReference hlib h =>
        obtain rfl := slot_ref hm
        exact ⟨(), _, _, hlib, rfl, _, .inr (.inl ⟨_, rfl, h⟩), rfl⟩
      | stringArrayNulls hlib h =>
        obtain rfl := slot_nulls hm
        exact ⟨(), _, _, hlib, rfl, _, .inr (.inr ⟨_, rfl, h⟩), rfl⟩
  | primitiveArray t =>
    simp only [binaryType, typeInfo]
    refine ((library_match hs i).bind (k2 := 1) (k := 1) (by omega)
      (K := fun _ E1 i1 m E' r => E' = E1 ∧ ∃ b, (∃ id, m = .ref id ∧ IsReference id b) ∧ i1 = b ++ r) fun _ s i hs _ hli =>
      Match.stateless refMember_exact rf hs i).congr fun m E' r => ?_
    constructor
    · rintro ⟨_, E1, i1, hlib, rfl, b, ⟨id, rfl, h⟩, rfl⟩; exact .primitiveArray hlib h
    · intro h
      generalize hm : slotOf m = slot at h
      cases h with
      | primitiveArray hlib h =>
        obtain rfl := slot_ref hm
        exact ⟨(), _, _, hlib, rfl, _, ⟨_, rfl, h⟩, rfl⟩

/-- The parser of a member with or without declared type. -/
def memberOf (classes : SP (Nat × Object)) : Option MemberType → SP ValueOrRef
  | none => memberReferenceNone classes
  | some T => memberReference classes (binaryType T) (typeInfo T)

theorem memberOf_match (hsem : RecSem L classes referenceable) {s : St} (hs : s.classes = [])
    {i : Bytes} (hl : i.length < L) (T : Option MemberType) :
    Match (memberOf classes T s i) i.length 1
      (fun m E' r => Member T (abs s) i (slotOf m) E' r) := by
  cases T with
  | none => exact memberNone_match hsem hs hl
  | some T => exact member_match hsem hs hl T

omit [Platform] in
theorem map_slot_nil {ms : List ValueOrRef} : ms.map slotOf = [] ↔ ms = [] := List.map_eq_nil_iff

theorem untypedMembers_match (hsem : RecSem L classes referenceable) {s : St} (hs : s.classes = [])
    {i : Bytes} (hl : i.length < L) (T : Option MemberType) (n : Nat) :
    Match (countS (memberOf classes T) n s i) i.length 0
      (fun ms E' r => Members (List.replicate n T) (abs s) i (ms.map slotOf) E' r) := by
  induction n generalizing s i with
  | zero =>
    refine (Match.ret hs).congr fun ms E' r => ?_
    constructor
    · rintro ⟨rfl, rfl, rfl⟩; exact .nil
    · intro h
      generalize hm : ms.map slotOf = slots at h
      cases h
      exact ⟨map_slot_nil.mp hm, rfl, rfl⟩
  | succ n ih =>
    refine ((memberOf_match hsem hs hl T).bind (k2 := 0) (k := 0) (by omega)
      (K := fun m E1 i1 ms E' r =>
        ∃ ms', Members (List.replicate n T) E1 i1 (ms'.map slotOf) E' r ∧ m :: ms' = ms)
      fun m s1 i1 hs1 _ hl1 => (ih hs1 (by omega)).map _).congr fun ms E' r => ?_
    constructor
    · rintro ⟨m, E1, i1, h1, ms', h2, rfl⟩
      exact .cons h1 h2
    · intro h
      generalize hm : ms.map slotOf = slots at h
      cases h with
      | cons h1 h2 =>
        obtain ⟨m, ms', rfl, rfl, rfl⟩ := List.map_eq_cons_iff.mp hm
        exact ⟨m, _, _, h1, ms', h2, rfl⟩

theorem typedMembers_match (hsem : RecSem L classes referenceable) {s : St} (hs : s.classes = [])
    {i : Bytes} (hl : i.length < L) (Ts : List MemberType) :
    Match (membersWithTypeInfo classes ((Ts.map binaryType).zip (Ts.map typeInfo)) s i) i.length 0
      (fun ms E' r => Members (Ts.map some) (abs s) i (ms.map slotOf) E' r) := by
  induction Ts generalizing s i with
  | nil =>
    refine (Match.ret hs).congr fun ms E' r => ?_
    constructor
    · rintro ⟨rfl, rfl, rfl⟩; exact .nil
    · intro h
      generalize hm : ms.map slotOf = slots at h
      cases h
      exact ⟨map_slot_nil.mp hm, rfl, rfl⟩
  | cons T Ts ih =>
    refine ((member_match hsem hs hl T).bind (k2 := 0) (k := 0) (by omega)
      (K := fun m E1 i1 ms E' r =>
        ∃ ms', Members (Ts.map some) E1 i1 (ms'.map slotOf) E' r ∧ m :: ms' = ms)
      fun m s1 i1 hs1 _ hl1 => (ih hs1 (by omega)).map _).congr fun ms E' r => ?_
    constructor
    · rintro ⟨m, E1, i1, h1, ms', h2, rfl⟩
      exact .cons h1 h2
    · intro h
      generalize hm : ms.map slotOf = slots at h
      cases h with
      | cons h1 h2 =>
        obtain ⟨m, ms', rfl, rfl, rfl⟩ := List.map_eq_cons_iff.mp hm
        exact ⟨m, _, _, h1, ms', h2, rfl⟩

/-! ## Resolution -/

theorem resolveRef_match (hsem : RecSem L classes referenceable) {s : St} (hs : s.classes = [])
    {i : Bytes} (hl : i.length < L) (id : Nat) :
    Match (resolveRef referenceable id s i) i.length 0 (fun v E' r =>
      ((abs s).objs id = some v ∧ E' = (abs s).drop id ∧ r = i) ∨
      ((abs s).objs id = none ∧ ∃ E1, Record (abs s) i id v E1 r ∧ E' = E1.drop id)) := by
  have add_drop : ∀ (E : Env) v, (E.add id v).drop id = E.drop id := by
    intro E v
    unfold Env.add Env.drop
    congr 1
    funext k
    simp only
    split <;> rfl
  have hr := hsem.ref s i hs hl
  cases hg : s.objects.get? id with
  | some v =>
    unfold resolveRef
    rw [hg]
    simp only
    refine (Match.ret (i := i) (a := v) (s := { s with objects := s.objects.erase id }) hs).congr
      fun v' E' r => ?_
    rw [abs_erase]
    constructor
    · rintro ⟨rfl, rfl, rfl⟩; exact .inl ⟨hg, rfl, rfl⟩
    · rintro (⟨h1, rfl, rfl⟩ | ⟨h1, _⟩)
      · simp only [abs] at h1; rw [hg] at h1; cases h1; exact ⟨rfl, rfl, rfl⟩
      · simp only [abs] at h1; rw [hg] at h1; cases h1
  | none =>
    constructor
    · intro r v s' h
      unfold resolveRef at h
      rw [hg] at h
      simp only at h
      split at h
      · rename_i r1 id2 s1 heq
        obtain ⟨⟨v1, E1, hrec, hE⟩, hs1, hl1⟩ := hr.1 _ _ _ heq
        split at h
        · rename_i hid
          subst hid
          split at h
          · rename_i v2 hv2
            cases h
            have : (abs s1).objs id2 = some v := hv2
            rw [hE] at this
            simp only [Env.add, ↓reduceIte, Option.some.injEq] at this
            subst this
            refine ⟨.inr ⟨hg, E1, hrec, ?_⟩, hs1, by omega⟩
            rw [abs_erase, hE, add_drop]
          · cases h
        · cases h
      all_goals cases h
    · rintro v E' r (⟨h1, _⟩ | ⟨_, E1, hrec, rfl⟩)
      · simp only [abs] at h1; rw [hg] at h1; cases h1
      · obtain ⟨s1, h1, hE⟩ := hr.2 id _ r ⟨v, E1, hrec, rfl⟩
        refine ⟨{ s1 with objects := s1.objects.erase id }, ?_, ?_⟩
        · unfold resolveRef
          rw [hg, h1]
          simp only [↓reduceIte]
          have : s1.objects.get? id = some v := by
            have : (abs s1).objs id = some v := by rw [hE]; simp [Env.add]
            exact this
          rw [this]
        · rw [abs_erase, hE, add_drop]

theorem resolve_match (hsem : RecSem L classes referenceable) {s : St} (hs : s.classes = [])
    {i : Bytes} (hl : i.length < L) (ms : List ValueOrRef) :
    Match (resolveMembers referenceable ms s i) i.length 0
      (fun vs E' r => Resolve (ms.map slotOf) (abs s) i vs E' r) := by
  induction ms generalizing s i with
  | nil =>
    refine (Match.ret hs).congr fun ms E' r => ?_
    constructor
    · rintro ⟨rfl, rfl, rfl⟩; exact .nil
    · intro h
      cases h
      exact ⟨rfl, rfl, rfl⟩
  | cons m ms ih =>
    cases m with
    | value v =>
      refine ((ih hs hl).map (v :: ·)).congr fun vs E' r => ?_
      constructor
      · rintro ⟨vs', h, rfl⟩; exact .value h
      · intro h
        cases h with
        | value h => exact ⟨_, h, rfl⟩
    | null n =>
      refine ((ih hs hl).map (List.replicate n .null ++ ·)).congr fun vs E' r => ?_
      constructor
      · rintro ⟨vs', h, rfl⟩; exact .nulls h
      · intro h
        cases h with
        | nulls h => exact ⟨_, h, rfl⟩
    | ref id =>
      refine ((resolveRef_match hsem hs hl id).bind (k2 := 0) (k := 0) (by omega)
        (K := fun v E1 i1 vs E' r => ∃ vs', Resolve (ms.map slotOf) E1 i1 vs' E' r ∧ v :: vs' = vs)
        fun v s1 i1 hs1 _ hl1 => (ih hs1 (by omega)).map _).congr fun vs E' r => ?_
      constructor
      · rintro ⟨v, E1, i1, ⟨h1, rfl, rfl⟩ | ⟨h1, E2, hrec, rfl⟩, vs', h2, rfl⟩
        · exact .known h1 h2
        · exact .next h1 hrec h2
      · intro h
        cases h with
        | known h1 h2 => exact ⟨_, _, _, .inl ⟨h1, rfl, rfl⟩, _, h2, rfl⟩
        | next h1 hrec h2 => exact ⟨_, _, _, .inr ⟨h1, _, hrec, rfl⟩, _, h2, rfl⟩

end Nrbf
