import Verif.Lemmas.WorkSame
import Verif.Lemmas.Cost

/-! # Bounds for the work -/

set_option autoImplicit false

namespace Nrbf
open Spec

variable {α β : Type}

/-- Every attempt costs one. -/
local instance flat : Price := ⟨fun _ => 1⟩

theorem miss_flat (i : Bytes) : Price.miss i = 1 := rfl

/-- The budget `n` suffices: on success it also covers the remaining bytes (32 each) and `c`; otherwise it may
be exceeded by `d`. -/
def Spent (n d : Nat) (c : α → Nat) (x : Timed α) : Prop :=
  match x.1.1 with
  | .ok r a => x.2 + 32 * r.length + c a ≤ n
  | _ => x.2 ≤ n + d

namespace Spent
variable {n d n' d' : Nat} {c c' : α → Nat}

theorem ok {x : Timed α} (h : Spent n d c x) {r : Bytes} {a : α} {s : St} (e : x.1 = (.ok r a, s)) :
    x.2 + 32 * r.length + c a ≤ n := by
  unfold Spent at h
  rw [e] at h
  exact h

theorem le {x : Timed α} (h : Spent n d c x) : x.2 ≤ n + d := by
  unfold Spent at h
  split at h <;> omega

theorem of {x : Timed α} (hok : ∀ r a s, x.1 = (.ok r a, s) → x.2 + 32 * r.length + c a ≤ n) (hle : x.2 ≤ n + d) :
    Spent n d c x := by
  obtain ⟨⟨o, s⟩, k⟩ := x
  cases o with
  | ok r a => exact hok r a s rfl
  | _ => exact hle

theorem weaken {x : Timed α} (h : Spent n d c x) (hd : n + d ≤ n' + d') (hc : ∀ a, c' a + n ≤ c a + n') :
    Spent n' d' c' x := by
  refine of (fun r a s e => ?_) (by have := h.le; omega)
  have := h.ok e
  have := hc a
  omega

theorem bind {x : Timed α} {c' : β → Nat} {f : α → St → Bytes → Timed β} (h : Spent n d c x)
    (hf : ∀ a s r, x.1 = (.ok r a, s) → Spent (32 * r.length + c a) d c' (f a s r)) : Spent n d c' (x.bind f) := by
  obtain ⟨⟨o, s⟩, k⟩ := x
  cases o with
  | ok r a =>
    have h1 := h.ok rfl
    have h2 := hf a s r rfl
    simp only at h1
    refine of (fun r' b s' e => ?_) ?_
    · have := h2.ok e
      simp only [Timed.bind]
      omega
    · have := h2.le
      simp only [Timed.bind]
      omega
  | _ => exact of (fun r a s e => by cases e) h.le

theorem map {x : Timed α} {c' : β → Nat} {f : α → β} (h : Spent n d c x) (hf : ∀ a, c' (f a) ≤ c a) :
    Spent n d c' (x.map f) := by
  obtain ⟨⟨o, s⟩, k⟩ := x
  cases o with
  | ok r a =>
    have h1 := h.ok rfl
    have := hf a
    simp only at h1
    show k + 32 * r.length + c' (f a) ≤ n
    omega
  | _ => exact h.le

theorem ret {i : Bytes} {a : α} {s : St} (h : 32 * i.length + c a ≤ n) : Spent n d c (free (.ok i a, s)) := by
  show 0 + 32 * i.length + c a ≤ n
  omega

theorem other {o : Outcome Error α} {s : St} (h : ∀ r a, o ≠ .ok r a) : Spent n d c (free (o, s)) :=
  of (fun r a s e => absurd (congrArg Prod.fst e) (h r a)) (Nat.zero_le _)

end Spent

/-- On success at least one byte is consumed. -/
def Eats (p : Parser α) (i : Bytes) : Prop := ∀ r a, p i = .ok r a → r.length + 1 ≤ i.length

theorem eats {w : Bytes} {p : Parser α} {V : α → Prop} {i : Bytes} (h : PG w V i.length 1 (p i)) : Eats p i := by
  intro r a e
  rw [e] at h
  exact h.2.1

theorem leaf_ok {p : Parser α} {i : Bytes} (h : Eats p i) {r : Bytes} {a : α} (e : p i = .ok r a) :
    leafWork i (p i) + 32 * r.length + 30 ≤ 32 * i.length := by
  have := h r a e
  rw [e]
  simp only [leafWork]
  omega

theorem leaf_le (i : Bytes) (o : Outcome Error α) : leafWork i o ≤ i.length + 1 := by
  cases o <;> simp only [leafWork] <;> (have := miss_flat i; omega)

theorem readT_spent {p : Parser α} {s : St} {i : Bytes} (h : Eats p i) :
    Spent (32 * i.length) 1 (fun _ => 30) (readT p s i) := by
  refine .of (fun r a s' e => ?_) ?_
  · exact leaf_ok h (congrArg Prod.fst e)
  · have := leaf_le i (p i)
    simp only [readT]
    omega

theorem altWork_le (p : Parser α) (ps : List (Parser α)) (i : Bytes) :
    altWork p ps i ≤ i.length + 1 + ps.length := by
  induction ps generalizing p with
  | nil => have := leaf_le i (p i); simp only [altWork, List.length_nil]; omega
  | cons q qs ih =>
    have h := ih q
    have h2 := leaf_le i (p i)
    unfold altWork
    split
    · simp only [List.length_cons]; (have := miss_flat i; omega)
    · simp only [List.length_cons]; omega

theorem altWork_ok {p : Parser α} {ps : List (Parser α)} {i : Bytes} {r : Bytes} {a : α}
    (e : alt p ps i = .ok r a) (hr : r.length + 1 ≤ i.length) :
    altWork p ps i + 32 * r.length + 30 ≤ 32 * i.length + ps.length := by
  induction ps generalizing p with
  | nil =>
    simp only [alt] at e
    simp only [altWork, e, leafWork]
    omega
  | cons q qs ih =>
    unfold altWork
    simp only [alt] at e
    cases hpi : p i with
    | error e' =>
      rw [hpi] at e
      have := ih e
      simp only [List.length_cons]
      have := miss_flat i; omega
    | ok r' a' =>
      rw [hpi] at e
      cases e
      simp only [leafWork]
      omega
    | _ => rw [hpi] at e; cases e

theorem alt_eats {p : Parser α} {ps : List (Parser α)} {i : Bytes} (h : ∀ q ∈ p :: ps, Eats q i) : Eats (alt p ps) i := by
  induction ps generalizing p with
  | nil => exact h p (by simp)
  | cons q qs ih =>
    intro r a e
    simp only [alt] at e
    cases hpi : p i with
    | error e' =>
      rw [hpi] at e
      exact ih (fun q hq => h q (by simp [List.mem_cons.mp hq])) r a e
    | ok r' a' =>
      rw [hpi] at e
      cases e
      exact h p (by simp) _ _ hpi
    | _ => rw [hpi] at e; cases e

theorem altWork_error {p : Parser α} {ps : List (Parser α)} {i : Bytes} {e' : Error}
    (e : alt p ps i = .error e') : altWork p ps i = ps.length + 1 := by
  induction ps generalizing p with
  | nil =>
    simp only [alt] at e
    simp [altWork, e, leafWork, miss_flat]
  | cons q qs ih =>
    unfold altWork
    simp only [alt] at e
    cases hpi : p i with
    | error e' =>
      rw [hpi] at e
      have := ih e
      simp only [List.length_cons]
      have := miss_flat i; omega
    | _ => rw [hpi] at e; cases e

theorem readAltT_spent {p : Parser α} {ps : List (Parser α)} {s : St} {i : Bytes} (h : ∀ q ∈ p :: ps, Eats q i)
    {c : Nat} (hc : c + ps.length ≤ 30) : Spent (32 * i.length) (ps.length + 1) (fun _ => c) (readAltT p ps s i) := by
  refine .of (fun r a s' e => ?_) ?_
  · have e1 : alt p ps i = .ok r a := congrArg Prod.fst e
    have := altWork_ok e1 (alt_eats h r a e1)
    simp only [readAltT]
    omega
  · have := altWork_le p ps i
    simp only [readAltT]
    omega

/-- The references of a list of members. -/
def refs : List ValueOrRef → Nat
  | [] => 0
  | .ref _ :: ms => refs ms + 1
  | .value _ :: ms | .null _ :: ms => refs ms

theorem refs_append (a b : List ValueOrRef) : refs (a ++ b) = refs a + refs b := by
  induction a with
  | nil => simp [refs]
  | cons m a ih => cases m <;> simp only [List.cons_append, refs, ih] <;> omega

theorem refs_cons (m : ValueOrRef) (ms : List ValueOrRef) : refs (m :: ms) = refs [m] + refs ms :=
  refs_append [m] ms

theorem refs_one (m : ValueOrRef) : refs [m] ≤ 1 := by cases m <;> simp [refs]

theorem refs_nulls (n : Nat) : refs (List.replicate n (.value .null)) = 0 := by
  induction n with
  | zero => rfl
  | succ n ih => rw [List.replicate_succ]; exact ih

theorem countT_spent {p : TP ValueOrRef} {d : Nat} (hp : ∀ s i, Spent (32 * i.length) d (fun m => refs [m]) (p s i))
    (n : Nat) (s : St) (i : Bytes) : Spent (32 * i.length) d refs (countT p n s i) := by
  induction n generalizing s i with
  | zero => exact .ret (by simp [refs])
  | succ n ih =>
    unfold countT
    refine (hp s i).bind fun a s r _ => ?_
    refine Spent.map (c := fun ms => refs [a] + refs ms) ?_ fun ms => by rw [refs_cons a ms]; exact Nat.le_refl _
    exact (ih s r).weaken (by omega) fun _ => by omega

/-! ## Libraries -/

theorem library_ok {s s' : St} {i r : Bytes} {u : Unit} (e : parseBinaryLibrary s i = (.ok r u, s')) :
    (r = i ∧ leafWork i (BinaryLibrary.parse i) = 1) ∨
    (r.length + 1 ≤ i.length ∧ leafWork i (BinaryLibrary.parse i) = i.length - r.length + 1) := by
  have hg := binaryLibrary_good (List.suffix_refl i)
  unfold parseBinaryLibrary lift opt at e
  cases h : BinaryLibrary.parse i with
  | ok r' l =>
    rw [h] at e hg
    simp only [Outcome.map, Res.bind] at e
    split at e
    · cases e
    · cases e
      exact .inr ⟨hg.2.1, rfl⟩
  | error e' =>
    rw [h] at e
    cases e
    exact .inl ⟨rfl, rfl⟩
  | _ => rw [h] at e; cases e

theorem library_spent (s : St) (i : Bytes) : Spent (32 * i.length + 1) 0 (fun _ => 0) (binaryLibraryT s i) := by
  refine .of (fun r a s' e => ?_) ?_
  · rcases library_ok e with ⟨rfl, h⟩ | ⟨h1, h⟩
    · simp only [binaryLibraryT, h]; omega
    · simp only [binaryLibraryT, h]; omega
  · have := leaf_le i (BinaryLibrary.parse i)
    simp only [binaryLibraryT]
    omega

/-- A parser after an optional library. -/
theorem library_bind_spent {s : St} {i : Bytes} {d : Nat} {c c' : β → Nat} {f : Unit → St → Bytes → Timed β}
    (hc : ∀ b, c' b + 1 ≤ c b) (hf : ∀ u s r, Spent (32 * r.length) d c (f u s r)) :
    Spent (32 * i.length) (d + 1) c' ((binaryLibraryT s i).bind f) := by
  refine Spent.weaken (n := 32 * i.length + 1) (d := d) (c := c) ?_ (by omega) (by intro a; have := hc a; omega)
  refine Spent.bind ((library_spent s i).weaken (c' := fun _ => 0) (by omega) (by intro; omega)) fun u s r _ => ?_
  exact (hf u s r).weaken (by omega) (by intro; omega)

/-- What is not a library costs one attempt. -/
theorem libraryT_none {i : Bytes} (h : i.head? ≠ some 12) (s : St) : binaryLibraryT s i = ((.ok i (), s), 1) := by
  unfold binaryLibraryT
  rw [lib_none h, show BinaryLibrary.parse i = _ from tagged_mismatch h]
  rfl

/-! ## Members -/

variable [Platform]

/-- What is needed of the recursive call of `parse_classes`. -/
structure WorkC (tc : TP (Nat × Object)) : Prop where
  spent : ∀ s i, Spent (32 * i.length) 6 (fun _ => 25) (tc s i)
  quiet : ∀ s i, ¬ ClassByte i → i.head? ≠ some 1 → (tc s i).2 ≤ 6

/-- What is needed of the recursive call of `parse_referenceable`. -/
def WorkR (tr : TP Nat) : Prop := ∀ s i, Spent (32 * i.length) 12 (fun _ => 1) (tr s i)

section
variable {tc : TP (Nat × Object)} {tr : TP Nat}

omit [Platform] in
theorem refMember_eats (i : Bytes) : Eats refMember i :=
  eats ((memberRef_good (List.suffix_refl i)).map (W := fun _ => True) fun _ _ => trivial)
omit [Platform] in
theorem stringMember_eats (i : Bytes) : Eats stringMember i :=
  eats ((bos_good (List.suffix_refl i)).map (W := fun _ => True) fun _ _ => trivial)
omit [Platform] in
theorem nullMember_eats (i : Bytes) : Eats parseNullObject i :=
  eats ((nullObject_good (val := fun _ => True) (List.suffix_refl i)).imp (V' := fun _ => True) fun _ _ => trivial)

theorem typedMember_eats (i : Bytes) :
    Eats (fun i => (memberPrimitiveTyped i).map fun p => ValueOrRef.value p.intoValue) i :=
  eats (V := fun _ => True) (w := i) ((typed_good (List.suffix_refl i)).map fun _ _ => trivial)

theorem memberNone_spent (hc : WorkC tc) (s : St) (i : Bytes) :
    Spent (32 * i.length) 12 (fun m => refs [m] + 1) (memberReferenceNoneT tc s i) := by
  refine library_bind_spent (c := fun m => refs [m] + 2) (d := 11) (by intro; omega) fun _ s i => ?_
  have halt : ∀ q ∈ (fun i => (memberPrimitiveTyped i).map fun p => ValueOrRef.value p.intoValue) ::
      [refMember, stringMember, parseNullObject], Eats q i := by
    intro q hq
    simp only [List.mem_cons, List.not_mem_nil, or_false] at hq
    rcases hq with rfl | rfl | rfl | rfl
    · exact typedMember_eats i
    · exact refMember_eats i
    · exact stringMember_eats i
    · exact nullMember_eats i
  have hr := readAltT_spent (s := s) halt (c := 27) (by simp)
  split
  · rename_i e s' n heq
    simp only [readAltT, Prod.mk.injEq] at heq
    obtain ⟨⟨h1, rfl⟩, rfl⟩ := heq
    rw [altWork_error h1]
    have h2 := hc.spent s i
    simp only [List.length_cons, List.length_nil]
    refine .of (fun r a s' e => ?_) (by have := h2.le; simp only; omega)
    revert e h2
    generalize tc s i = x
    obtain ⟨⟨o, s⟩, k⟩ := x
    intro h2 e
    cases o with
    | ok r' a' =>
      have := h2.ok rfl
      simp only [Timed.map, Res.map, Outcome.map, Prod.mk.injEq, Outcome.ok.injEq] at e
      obtain ⟨⟨rfl, rfl⟩, rfl⟩ := e
      simp only [refs] at this ⊢
      omega
    | _ => simp [Timed.map, Res.map, Outcome.map] at e
  · exact hr.weaken (by simp) fun a => by have := refs_one a; omega

omit [Platform] in
theorem expectedClass_spent (hc : WorkC tc) (name : Str) (library : Option Str) (s : St) (i : Bytes) :
    Spent (32 * i.length) 10 (fun m => refs [m] + 1) (expectedClassT tc name library s i) := by
  have h := hc.spent s i
  have hq := hc.quiet s i
  have key : ∀ s' n, n = (tc s i).2 → Spent (32 * i.length) 10 (fun m => refs [m] + 1)
      ((parseNullObject i, s'),
        n + altWork ObjectNull.parse [ObjectNullMultiple.parse, ObjectNullMultiple256.parse] i) := by
    rintro s' n rfl
    by_cases hb : ClassByte i ∨ i.head? = some 1
    · obtain ⟨e, he⟩ := nullMember_mismatch (i := i)
        (by rcases hb with (h | h | h | h | h) | h <;> rw [h] <;> decide)
        (by rcases hb with (h | h | h | h | h) | h <;> rw [h] <;> decide)
        (by rcases hb with (h | h | h | h | h) | h <;> rw [h] <;> decide)
      rw [he]
      unfold parseNullObject at he
      have h1 : ∃ e, alt ObjectNull.parse [ObjectNullMultiple.parse, ObjectNullMultiple256.parse] i = .error e := by
        revert he
        generalize alt ObjectNull.parse [ObjectNullMultiple.parse, ObjectNullMultiple256.parse] i = x
        cases x <;> simp [Outcome.map]
      obtain ⟨e1, h1⟩ := h1
      rw [altWork_error h1]
      refine .of (fun _ _ _ e => by cases e) ?_
      have := h.le
      simp only [List.length_cons, List.length_nil]
      omega
    · simp only [not_or] at hb
      have := hq hb.1 hb.2
      refine .of (fun r a s' e => ?_) ?_
      · have e1 : parseNullObject i = .ok r a := congrArg Prod.fst e
        unfold parseNullObject at e1
        have h1 : ∃ k, alt ObjectNull.parse [ObjectNullMultiple.parse, ObjectNullMultiple256.parse] i = .ok r k ∧
            a = .null k := by
          revert e1
          generalize alt ObjectNull.parse [ObjectNullMultiple.parse, ObjectNullMultiple256.parse] i = x
          cases x <;> simp [Outcome.map]
          exact fun h1 h2 => ⟨_, ⟨h1, rfl⟩, h2.symm⟩
        obtain ⟨k, h1, rfl⟩ := h1
        have h2 := altWork_ok h1 (nullMember_eats i _ _ (congrArg Prod.fst e))
        simp only [List.length_cons, List.length_nil, refs] at h2 ⊢
        omega
      · have h2 := altWork_le ObjectNull.parse [ObjectNullMultiple.parse, ObjectNullMultiple256.parse] i
        simp only [List.length_cons, List.length_nil] at h2 ⊢
        omega
  unfold expectedClassT
  split
  · rename_i r o s' n heq
    rw [heq] at h
    split
    · exact .of (fun _ _ _ e => by cases e) (by have := h.le; omega)
    · refine .of (fun _ _ _ e => ?_) (by have := h.le; omega)
      cases e
      have := h.ok rfl
      simp only [refs] at this ⊢
      omega
  · rename_i heq; exact key _ _ (by rw [heq])
  · rename_i heq; exact key _ _ (by rw [heq])
  · rename_i heq; rw [heq] at h; exact .of (fun _ _ _ e => by cases e) (by have := h.le; omega)
  · rename_i heq; rw [heq] at h; exact .of (fun _ _ _ e => by cases e) (by have := h.le; omega)

theorem member_spent (hc : WorkC tc) (t : BinaryType) (info : Option AdditionalTypeInfo) (s : St) (i : Bytes) :
    Spent (32 * i.length) 13 (fun m => refs [m]) (memberReferenceT tc t info s i) := by
  refine library_bind_spent (c := fun m => refs [m] + 1) (d := 12) (by intro; omega) fun _ s i => ?_
  have leaf : ∀ {p : Parser ValueOrRef}, Eats p i → Spent (32 * i.length) 12 (fun m => refs [m] + 1) (readT p s i) :=
    fun h => (readT_spent h).weaken (by omega) fun a => by have := refs_one a; omega
  split
  · rename_i t
    exact leaf (eats (V := fun _ => True) (w := i) ((untyped_good t (List.suffix_refl i)).map fun _ _ => trivial))
  · exact leaf (stringMember_eats i)
  · exact memberNone_spent hc s i
  · exact (expectedClass_spent hc _ _ s i).weaken (by omega) (by intro; omega)
  · split
    · exact (expectedClass_spent hc _ _ s i).weaken (by omega) (by intro; omega)
    · exact .other (by intro _ _ e; cases e)
  · exact memberNone_spent hc s i
  · refine (readAltT_spent (c := 28) (fun q hq => ?_) (by simp)).weaken (by simp)
      fun a => by have := refs_one a; omega
    simp only [List.mem_cons, List.not_mem_nil, or_false] at hq
    rcases hq with rfl | rfl | rfl
    · exact stringMember_eats i
    · exact refMember_eats i
    · exact nullMember_eats i
  · exact leaf (refMember_eats i)
  · exact .other (by intro _ _ e; cases e)

theorem members_spent (hc : WorkC tc) (ts : List (BinaryType × Option AdditionalTypeInfo)) (s : St) (i : Bytes) :
    Spent (32 * i.length) 13 refs (membersWithTypeInfoT tc ts s i) := by
  induction ts generalizing s i with
  | nil => exact .ret (by simp [refs])
  | cons e ts ih =>
    obtain ⟨t, info⟩ := e
    unfold membersWithTypeInfoT
    refine (member_spent hc t info s i).bind fun a s r _ => ?_
    refine Spent.map (c := fun ms => refs [a] + refs ms) ?_ fun ms => by rw [refs_cons a ms]; exact Nat.le_refl _
    exact (ih s r).weaken (by omega) fun _ => by omega

theorem membersNone_spent (hc : WorkC tc) (n : Nat) (s : St) (i : Bytes) :
    Spent (32 * i.length) 13 refs (countT (memberReferenceNoneT tc) n s i) :=
  countT_spent (fun s i => (memberNone_spent hc s i).weaken (by omega) fun _ => by omega) n s i

omit [Platform] in
theorem resolveRef_spent (hr : WorkR tr) (id : Nat) (s : St) (i : Bytes) :
    Spent (32 * i.length + 1) 12 (fun _ => 0) (resolveRefT tr id s i) := by
  unfold resolveRefT
  split
  · refine .of (fun _ _ _ e => ?_) (by simp only; omega)
    cases e
    simp only
    omega
  · have h := hr s i
    have hle := h.le
    split
    · rename_i r id2 s' n heq
      have h1 := h.ok (by rw [heq])
      rw [heq] at h1 hle
      simp only at h1 hle
      split
      · split
        · refine .of (fun _ _ _ e => ?_) (by simp only; omega)
          cases e
          simp only
          omega
        · exact .of (fun _ _ _ e => by cases e) (by simp only; omega)
      · exact .of (fun _ _ _ e => by cases e) (by simp only; omega)
    all_goals
      rename_i heq
      rw [heq] at hle
      exact .of (fun _ _ _ e => by cases e) (by simp only at hle ⊢; omega)

omit [Platform] in
theorem resolve_spent (hr : WorkR tr) (ms : List ValueOrRef) (s : St) (i : Bytes) :
    Spent (32 * i.length + refs ms) 12 (fun _ => 0) (resolveMembersT tr ms s i) := by
  induction ms generalizing s i with
  | nil => exact .ret (by simp [refs])
  | cons m ms ih =>
    cases m with
    | value v => exact Spent.map (c := fun _ => 0) (ih s i) fun _ => Nat.le_refl _
    | null n => exact Spent.map (c := fun _ => 0) (ih s i) fun _ => Nat.le_refl _
    | ref id =>
      unfold resolveMembersT
      refine Spent.bind (c := fun _ => refs ms) ((resolveRef_spent hr id s i).weaken
        (by simp only [refs]; omega) (by intro; simp only [refs]; omega)) fun a s r _ => ?_
      exact Spent.map (c := fun _ => 0) (ih s r) fun _ => Nat.le_refl _

/-! ## Classes -/

omit [Platform] in
theorem classHeader_spent (s : St) (i : Bytes) : Spent (32 * i.length) 5 (fun _ => 26) (classHeaderT s i) := by
  have hid := eats (classWithId_good (List.suffix_refl i))
  have hlen := (classHeader_cost s i).2
  cases h : ClassWithId.parse i with
  | error e =>
    have h4 : altWork ClassWithMembers.parse
        [ClassWithMembersAndTypes.parse, SystemClassWithMembers.parse, SystemClassWithMembersAndTypes.parse] i ≤ _ :=
      altWork_le ..
    refine .of (fun r a s' e => ?_) ?_
    · have hr := hlen r a (congrArg Prod.fst e)
      have e1 : (classHeader s i).1 = .ok r a := congrArg Prod.fst e
      unfold classHeader at e1
      rw [h] at e1
      simp only at e1
      have h1 : ∃ c, alt ClassWithMembers.parse
        [ClassWithMembersAndTypes.parse, SystemClassWithMembers.parse, SystemClassWithMembersAndTypes.parse] i = .ok r c := by
        revert e1
        generalize alt ClassWithMembers.parse _ i = x
        cases x <;> simp [Outcome.map]
        exact fun h _ => h
      obtain ⟨c, h1⟩ := h1
      have := altWork_ok h1 hr
      simp only [classHeaderT, h, List.length_cons, List.length_nil] at this ⊢
      have := miss_flat i; omega
    · simp only [classHeaderT, h, List.length_cons, List.length_nil] at h4 ⊢
      have := miss_flat i; omega
  | ok r' c =>
    refine .of (fun r a s' e => ?_) ?_
    · have hr := hid _ _ h
      have e1 : (classHeader s i).1 = .ok r a := congrArg Prod.fst e
      unfold classHeader at e1
      rw [h] at e1
      simp only at e1
      simp only [classHeaderT, h, leafWork]
      split at e1
      · cases e1; omega
      · cases e1
    · have := leaf_le i (Outcome.ok (ε := Error) r' c)
      simp only [classHeaderT, h]
      omega
  | _ =>
    refine .of (fun r a s' e => ?_) ?_
    · have e1 : (classHeader s i).1 = .ok r a := congrArg Prod.fst e
      unfold classHeader at e1
      rw [h] at e1
      cases e1
    · simp only [classHeaderT, h, leafWork]
      omega

theorem classMembers_spent (hc : WorkC tc) (e : Bytes) (c : Class) (s : St) (i : Bytes) :
    Spent (32 * i.length) 13 (fun x => refs x.2) (classMembersT tc e c s i) := by
  unfold classMembersT
  split
  · split
    · exact Spent.map (membersNone_spent hc _ s i) fun _ => Nat.le_refl _
    · exact .other (by intro _ _ e; cases e)
  · split
    · exact Spent.map (members_spent hc _ s i) fun _ => Nat.le_refl _
    · exact .other (by intro _ _ e; cases e)
  · exact Spent.map (membersNone_spent hc _ s i) fun _ => Nat.le_refl _
  · exact Spent.map (members_spent hc _ s i) fun _ => Nat.le_refl _

theorem afterLibrary_spent (hc : WorkC tc) (hr : WorkR tr) (s : St) (i : Bytes) :
    Spent (32 * i.length) 5 (fun _ => 26) (afterLibraryT tc tr s i) := by
  refine (classHeader_spent s i).bind fun ⟨id, c⟩ s r _ => ?_
  simp only
  split
  · exact .other (by intro _ _ e; cases e)
  · refine Spent.bind (c := fun x => refs x.2 + 26) ((classMembers_spent hc i c s r).weaken (by omega)
      (by intro; omega)) fun ⟨l, ms⟩ s r _ => ?_
    simp only
    refine Spent.bind (c := fun _ => 26) ((resolve_spent hr ms s r).weaken (by omega) (by intro; omega))
      fun vs s r _ => ?_
    exact .ret (Nat.le_refl _)

theorem classesBody_spent (hc : WorkC tc) (hr : WorkR tr) (s : St) (i : Bytes) :
    Spent (32 * i.length) 6 (fun _ => 25) (classesBodyT tc tr s i) :=
  library_bind_spent (by intro; exact Nat.le_refl _) fun _ s i => afterLibrary_spent hc hr s i

omit [Platform] in
theorem classHeaderT_other {s : St} {i : Bytes} (h : ¬ ClassByte i) (h1 : i.head? ≠ some 1) :
    ∃ e, classHeaderT s i = ((.error e, s), 5) := by
  unfold ClassByte at h
  simp only [not_or] at h
  unfold classHeaderT classHeader
  obtain ⟨e1, he1⟩ := classWithId_mismatch h1
  obtain ⟨e2, he2⟩ := classHead_mismatch h.2.1 h.2.2.1 h.2.2.2.1 h.2.2.2.2
  have := altWork_error he2
  rw [he1]
  simp only [he2, this]
  exact ⟨_, rfl⟩

/-- What does not start a class costs six attempts. -/
theorem classesBodyT_other {s : St} {i : Bytes} (h : ¬ ClassByte i) (h1 : i.head? ≠ some 1) :
    ∃ e, classesBodyT tc tr s i = ((.error e, s), 6) := by
  have h12 : i.head? ≠ some 12 := fun e => h (.inl e)
  unfold classesBodyT
  rw [libraryT_none h12]
  simp only [Timed.bind]
  unfold afterLibraryT
  obtain ⟨e, he⟩ := classHeaderT_other (s := s) h h1
  rw [he]
  exact ⟨e, rfl⟩

/-! ## Arrays -/

omit [Platform] in
theorem arrayLoop_spent {te : TP ValueOrRef} {d : Nat}
    (hp : ∀ s i, Spent (32 * i.length) d (fun m => refs [m]) (te s i)) (fuel len : Nat) (acc : List ValueOrRef) (s : St)
    (i : Bytes) : Spent (32 * i.length + refs acc) d refs (arrayLoopT te fuel len acc s i) := by
  induction fuel generalizing acc s i with
  | zero =>
    unfold arrayLoopT
    split
    · exact .other (by intro _ _ e; cases e)
    · exact .ret (Nat.le_refl _)
  | succ fuel ih =>
    unfold arrayLoopT
    split
    · refine Spent.bind (c := fun m => refs [m] + refs acc) ((hp s i).weaken (by omega) (by intro; omega))
        fun m s r _ => ?_
      split
      · refine (ih _ s r).weaken ?_ ?_
        · rw [refs_append, refs_nulls]; omega
        · intro a; rw [refs_append, refs_nulls]; omega
      · refine (ih _ s r).weaken ?_ ?_
        · rw [refs_append]; omega
        · intro a; rw [refs_append]; omega
    · exact .ret (Nat.le_refl _)

theorem arraySingleObject_spent (hc : WorkC tc) (hr : WorkR tr) (s : St) (i : Bytes) :
    Spent (32 * i.length) 1 (fun _ => 30) (arraySingleObjectT tc tr s i) := by
  refine Spent.bind (readT_spent (eats (arraySingleObjectRec_good (List.suffix_refl i)))) fun info s r _ => ?_
  have h1 := arrayLoop_spent (d := 12) (fun s i => (memberNone_spent hc s i).weaken
    (c' := fun m => refs [m]) (by omega) (by intro; omega)) info.length info.length [] s r
  refine Spent.bind (c := fun ms => refs ms + 30) (h1.weaken (by simp only [refs]; omega) (by intro; simp only [refs]; omega))
    fun ms s r _ => ?_
  exact Spent.map ((resolve_spent hr ms s r).weaken (c' := fun _ => 30) (by omega) (by intro; omega)) fun _ => Nat.le_refl _

theorem arraySingleString_spent (hc : WorkC tc) (hr : WorkR tr) (s : St) (i : Bytes) :
    Spent (32 * i.length) 1 (fun _ => 30) (arraySingleStringT tc tr s i) := by
  refine Spent.bind (readT_spent (eats (arraySingleStringRec_good (List.suffix_refl i)))) fun info s r _ => ?_
  have h1 := arrayLoop_spent (member_spent hc .stringArray none) info.length info.length [] s r
  refine Spent.bind (c := fun ms => refs ms + 30) (h1.weaken (by simp only [refs]; omega) (by intro; simp only [refs]; omega))
    fun ms s r _ => ?_
  exact Spent.map ((resolve_spent hr ms s r).weaken (c' := fun _ => 30) (by omega) (by intro; omega)) fun _ => Nat.le_refl _

theorem arraySinglePrimitive_spent (s : St) (i : Bytes) :
    Spent (32 * i.length) 1 (fun _ => 30) (arraySinglePrimitiveT s i) := by
  have hg := arraySinglePrimitiveRec_good (List.suffix_refl i)
  have hlen : ∀ r a, (arraySinglePrimitive s i).1 = .ok r a → r.length + 1 ≤ i.length := by
    intro r a e
    unfold arraySinglePrimitive lift at e
    simp only at e
    cases hp : ArraySinglePrimitive.parse i with
    | ok r' x =>
      obtain ⟨info, t⟩ := x
      rw [hp] at e hg
      simp only [Outcome.bind] at e
      have h1 := count_good (w := r') (pan := False) (E := fun _ => True) (V := fun _ => True)
        (p := fun i => (memberPrimitiveUnTyped t i).map Prim.intoValue) (fun i hi =>
          ((untyped_good t hi).weaken (V' := fun _ => True) (pan' := False) (E' := fun _ => True) id (fun _ _ => trivial)
            (fun _ _ => trivial) (n' := i.length) (k' := 0) (by omega)).map fun _ _ => trivial) info.length
        (List.suffix_refl r')
      cases hc : count (fun i => (memberPrimitiveUnTyped t i).map Prim.intoValue) info.length r' with
      | ok r'' vs =>
        rw [hc] at e h1
        simp only [Outcome.map, Outcome.ok.injEq] at e
        obtain ⟨rfl, rfl⟩ := e
        have := hg.2.1
        have := h1.2.1
        omega
      | _ => rw [hc] at e; simp [Outcome.map] at e
    | _ => rw [hp] at e; simp [Outcome.bind] at e
  refine .of (fun r a s' e => ?_) ?_
  · have e1 : (arraySinglePrimitive s i).1 = .ok r a := congrArg Prod.fst e
    have := hlen r a e1
    simp only [arraySinglePrimitiveT, e1, leafWork]
    omega
  · have := leaf_le i (arraySinglePrimitive s i).1
    simp only [arraySinglePrimitiveT]
    omega

theorem binaryArray_spent (hc : WorkC tc) (hr : WorkR tr) (s : St) (i : Bytes) :
    Spent (32 * i.length) 1 (fun _ => 30) (binaryArrayT tc tr s i) := by
  refine Spent.bind (readT_spent (eats (binaryArrayRec_good (List.suffix_refl i)))) fun a s r _ => ?_
  split
  · exact .other (by intro _ _ e; cases e)
  · refine Spent.bind (c := fun ms => refs ms + 30) ((countT_spent (member_spent hc _ _) _ s r).weaken (by omega)
      (by intro; omega)) fun ms s r _ => ?_
    refine Spent.bind (c := fun _ => 30) ((resolve_spent hr ms s r).weaken (by omega) (by intro; omega))
      fun vs s r _ => ?_
    split
    · exact .ret (Nat.le_refl _)
    · exact .other (by intro _ _ e; cases e)
    · exact .other (by intro _ _ e; cases e)

end
end Nrbf
