import Verif.Lemmas.Cost

/-! # What an attempt leaves in the table of objects -/

set_option autoImplicit false

namespace Nrbf
open Spec

variable {α β : Type}

/-- Apart from the entry `id`, the table of `s'` has only entries of the table of `s`. -/
def St.Off (id : Nat) (s s' : St) : Prop :=
  ∀ k v, s'.objects.get? k = some v → s.objects.get? k = some v ∨ (k = id ∧ hasId v = true)

/-- The table of `s'` has only entries of the table of `s`. -/
def St.Sub (s s' : St) : Prop := ∀ k v, s'.objects.get? k = some v → s.objects.get? k = some v

/-- At most one entry is new. -/
def St.Left (s s' : St) : Prop := ∃ id, s.Off id s'

theorem St.Sub.refl (s : St) : s.Sub s := fun _ _ h => h

theorem St.Sub.of_eq {s s' : St} (h : s'.objects = s.objects) : s.Sub s' := fun k v hk => by rw [← h]; exact hk

theorem St.Sub.trans {a b c : St} (h1 : a.Sub b) (h2 : b.Sub c) : a.Sub c :=
  fun k v h => h1 k v (h2 k v h)

theorem St.Sub.left {s s' : St} (h : s.Sub s') : s.Left s' := ⟨0, fun k v hk => .inl (h k v hk)⟩

theorem St.Off.left {s s' : St} {id : Nat} (h : s.Off id s') : s.Left s' := ⟨id, h⟩

theorem St.Sub.trans_off {a b c : St} {id : Nat} (h1 : a.Sub b) (h2 : b.Off id c) : a.Off id c :=
  fun k v h => (h2 k v h).imp (h1 k v) (fun e => e)

theorem St.Sub.trans_left {a b c : St} (h1 : a.Sub b) (h2 : b.Left c) : a.Left c := by
  obtain ⟨id, h2⟩ := h2
  exact ⟨id, h1.trans_off h2⟩

theorem St.Left.of_eq {s s' s2 : St} (h : s.Left s') (he : s2.objects = s'.objects) : s.Left s2 := by
  obtain ⟨id, h⟩ := h
  exact ⟨id, fun k v hv => h k v (by rw [← he]; exact hv)⟩

theorem St.sub_erase (s : St) (id : Nat) : s.Sub { s with objects := s.objects.erase id } := by
  intro k v h
  simp only [AMap.get?_erase] at h
  split at h
  · cases h
  · exact h

/-- At most one entry is new, none after success. -/
def Tidy (s : St) (x : Res α) : Prop := s.Left x.2 ∧ ∀ r a, x.1 = .ok r a → s.Sub x.2

namespace Tidy

theorem sub {s : St} {x : Res α} (h : s.Sub x.2) : Tidy s x := ⟨h.left, fun _ _ _ => h⟩

theorem same {s : St} {o : Outcome Error α} : Tidy s (o, s) := sub (.refl s)

theorem other {s : St} {x : Res α} (h : s.Left x.2) (ho : ∀ r a, x.1 ≠ .ok r a) : Tidy s x :=
  ⟨h, fun r a e => absurd e (ho r a)⟩

theorem map {s : St} {x : Res α} {f : α → β} (h : Tidy s x) : Tidy s (x.map f) := by
  obtain ⟨o, s'⟩ := x
  refine ⟨h.1, fun r b e => ?_⟩
  cases o with
  | ok r' a => exact h.2 r' a rfl
  | _ => simp [Res.map, Outcome.map] at e

theorem bind {s : St} {x : Res α} {f : α → St → Bytes → Res β} (h : Tidy s x)
    (hf : ∀ a s' r, x = (.ok r a, s') → Tidy s' (f a s' r)) : Tidy s (x.bind f) := by
  obtain ⟨o, s'⟩ := x
  cases o with
  | ok r a =>
    have h1 := h.2 r a rfl
    have h2 := hf a s' r rfl
    exact ⟨h1.trans_left h2.1, fun r' b e => h1.trans (h2.2 r' b e)⟩
  | _ => exact other h.1 (fun _ _ e => (by simp [Res.bind] at e))

end Tidy

/-- For all inputs. -/
def TidyP (p : SP α) : Prop := ∀ s i, Tidy s (p s i)

theorem lift_tidy (p : Parser α) : TidyP (lift p) := fun _ _ => .same

theorem countS_tidy {p : SP α} (hp : TidyP p) (n : Nat) : TidyP (countS p n) := by
  induction n with
  | zero => exact fun s i => .same
  | succ n ih => exact fun s i => (hp s i).bind fun a s r _ => (ih s r).map

theorem library_tidy : TidyP parseBinaryLibrary := fun s i => .sub (.of_eq (library_cost s i).1)

variable [Platform]

/-- What is needed of the recursive call of `parse_classes`. -/
structure TidyC (classes : SP (Nat × Object)) : Prop where
  tidy : TidyP classes
  quiet : ∀ s i, ¬ ClassByte i → i.head? ≠ some 1 → (classes s i).2 = s

/-- What is needed of the recursive call of `parse_referenceable`. -/
def TidyR (referenceable : SP Nat) : Prop := ∀ s i, s.Left (referenceable s i).2 ∧
  ∀ r id, (referenceable s i).1 = .ok r id → s.Off id (referenceable s i).2

section
variable {classes : SP (Nat × Object)} {referenceable : SP Nat}

theorem memberNone_tidy (hc : TidyC classes) : TidyP (memberReferenceNone classes) := by
  intro s i
  unfold memberReferenceNone
  refine (library_tidy s i).bind fun _ s i _ => ?_
  split
  · exact (hc.tidy s i).map
  · exact .same

theorem expectedClass_tidy (hc : TidyC classes) (name : Str) (library : Option Str) :
    TidyP (expectedClass classes name library) := by
  intro s i
  have h := hc.tidy s i
  have hq := hc.quiet s i
  have key : ∀ s', (classes s i).2 = s' → Tidy s (parseNullObject i, s') := by
    rintro s' rfl
    by_cases hb : ClassByte i ∨ i.head? = some 1
    · obtain ⟨e, he⟩ := nullMember_mismatch (i := i)
        (by rcases hb with (h | h | h | h | h) | h <;> rw [h] <;> decide)
        (by rcases hb with (h | h | h | h | h) | h <;> rw [h] <;> decide)
        (by rcases hb with (h | h | h | h | h) | h <;> rw [h] <;> decide)
      rw [he]
      exact .other h.1 (by intro _ _ e; cases e)
    · simp only [not_or] at hb
      rw [hq hb.1 hb.2]
      exact .same
  unfold expectedClass
  split
  · rename_i r o s' heq
    rw [heq] at h
    split
    · exact .other h.1 (by intro _ _ e; cases e)
    · exact .sub (h.2 _ _ rfl)
  · rename_i heq; exact key _ (by rw [heq])
  · rename_i heq; exact key _ (by rw [heq])
  · rename_i heq; rw [heq] at h; exact .other h.1 (by intro _ _ e; cases e)
  · rename_i heq; rw [heq] at h; exact .other h.1 (by intro _ _ e; cases e)

theorem member_tidy (hc : TidyC classes) (t : BinaryType) (info : Option AdditionalTypeInfo) :
    TidyP (memberReference classes t info) := by
  intro s i
  unfold memberReference
  refine (library_tidy s i).bind fun _ s i _ => ?_
  split
  · exact .same
  · exact .same
  · exact memberNone_tidy hc s i
  · exact expectedClass_tidy hc _ _ s i
  · split
    · exact expectedClass_tidy hc _ _ s i
    · exact .same
  · exact memberNone_tidy hc s i
  · exact .same
  · exact .same
  · exact .same

theorem members_tidy (hc : TidyC classes) (ts : List (BinaryType × Option AdditionalTypeInfo)) :
    TidyP (membersWithTypeInfo classes ts) := by
  induction ts with
  | nil => exact fun s i => .same
  | cons e ts ih => exact fun s i => (member_tidy hc e.1 e.2 s i).bind fun a s r _ => (ih s r).map

omit [Platform] in
theorem resolveRef_tidy (hr : TidyR referenceable) (id : Nat) : TidyP (resolveRef referenceable id) := by
  intro s i
  unfold resolveRef
  split
  · exact .sub (s.sub_erase id)
  · rename_i hnone
    have h := hr s i
    split
    · rename_i r id2 s' heq
      rw [heq] at h
      split
      · rename_i hid
        subst hid
        split
        · refine .sub fun k v hk => ?_
          simp only [AMap.get?_erase] at hk
          split at hk
          · cases hk
          · rename_i hne
            exact (h.2 _ _ rfl k v hk).resolve_right fun e => hne e.1
        · exact .other h.1 (by intro _ _ e; cases e)
      · exact .other h.1 (by intro _ _ e; cases e)
    all_goals rename_i heq; rw [heq] at h; exact .other h.1 (by intro _ _ e; cases e)

omit [Platform] in
theorem resolve_tidy (hr : TidyR referenceable) (ms : List ValueOrRef) :
    TidyP (resolveMembers referenceable ms) := by
  induction ms with
  | nil => exact fun s i => .same
  | cons m ms ih =>
    intro s i
    cases m with
    | value v => exact (ih s i).map
    | null n => exact (ih s i).map
    | ref id => exact (resolveRef_tidy hr id s i).bind fun v s r _ => (ih s r).map

theorem classMembers_tidy (hc : TidyC classes) (errInput : Bytes) (c : Class) :
    TidyP (classMembers classes errInput c) := by
  intro s i
  unfold classMembers
  split
  · split
    · exact (countS_tidy (memberNone_tidy hc) _ s i).map
    · exact .same
  · split
    · exact (members_tidy hc _ s i).map
    · exact .same
  · exact (countS_tidy (memberNone_tidy hc) _ s i).map
  · exact (members_tidy hc _ s i).map

theorem classesBody_tidy (hc : TidyC classes) (hr : TidyR referenceable) :
    TidyP (classesBody classes referenceable) := by
  intro s i
  unfold classesBody
  refine (library_tidy s i).bind fun _ s e _ => ?_
  have hh := classHeader_cost s e
  refine Tidy.bind (.sub (by rw [hh.1]; exact .refl s)) fun ⟨id, c⟩ s i _ => ?_
  simp only
  split
  · exact .same
  · refine (classMembers_tidy hc e c s i).bind fun ⟨lib, ms⟩ s i _ => ?_
    exact (resolve_tidy hr ms s i).bind fun vs s i _ => .same

omit [Platform] in
theorem arrayLoop_tidy {element : SP ValueOrRef} (he : TidyP element) (fuel len : Nat)
    (acc : List ValueOrRef) : TidyP (arrayLoop element fuel len acc) := by
  induction fuel generalizing acc with
  | zero =>
    intro s i
    unfold arrayLoop
    split <;> exact .same
  | succ fuel ih =>
    intro s i
    unfold arrayLoop
    split
    · refine (he s i).bind fun m s r _ => ?_
      split
      · exact ih _ s r
      · exact ih _ s r
    · exact .same

theorem arraySingleObject_tidy (hc : TidyC classes) (hr : TidyR referenceable) :
    TidyP (arraySingleObject classes referenceable) := by
  intro s i
  unfold arraySingleObject
  refine (lift_tidy _ s i).bind fun info s i _ => ?_
  refine (arrayLoop_tidy (memberNone_tidy hc) _ _ _ s i).bind fun ms s i _ => ?_
  exact (resolve_tidy hr ms s i).map

theorem arraySingleString_tidy (hc : TidyC classes) (hr : TidyR referenceable) :
    TidyP (arraySingleString classes referenceable) := by
  intro s i
  unfold arraySingleString
  refine (lift_tidy _ s i).bind fun info s i _ => ?_
  refine (arrayLoop_tidy (member_tidy hc _ _) _ _ _ s i).bind fun ms s i _ => ?_
  exact (resolve_tidy hr ms s i).map

theorem binaryArray_tidy (hc : TidyC classes) (hr : TidyR referenceable) :
    TidyP (binaryArray classes referenceable) := by
  intro s i
  unfold binaryArray
  refine (lift_tidy _ s i).bind fun a s i _ => ?_
  split
  · exact .same
  · refine (countS_tidy (member_tidy hc _ _) _ s i).bind fun ms s i _ => ?_
    refine (resolve_tidy hr ms s i).bind fun vs s i _ => ?_
    split <;> exact .same

omit [Platform] in
/-- A result of alternatives is a result of one of them. -/
theorem altMut_from {V : α → Prop} {i : Bytes} : ∀ {ps : List (SP α)},
    (∀ p ∈ ps, ∀ s r a, (p s i).1 = .ok r a → V a) → ∀ s r a, (altMut ps s i).1 = .ok r a → V a
  | [], _, _, _, _, h => by cases h
  | p :: ps, hp, s, r, a, h => by
    unfold altMut at h
    split at h
    · exact altMut_from (fun q hq => hp q (by simp [hq])) _ r a h
    · exact hp p (by simp) s r a h

omit [Platform] in
/-- Of several alternatives at most one does anything. -/
theorem altMut_tidy {p : SP α} {ps : List (SP α)} {s : St} {i : Bytes} (hp : Tidy s (p s i))
    (hps : ∀ e s', p s i = (.error e, s') → (∀ r a, (altMut ps s' i).1 ≠ .ok r a) ∧
      (altMut ps s' i).2.objects = s'.objects) : Tidy s (altMut (p :: ps) s i) := by
  unfold altMut
  split
  · rename_i e s' heq
    obtain ⟨h1, h2⟩ := hps e s' heq
    rw [heq] at hp
    exact .other (hp.1.of_eq h2) h1
  · exact hp

theorem arrays_tidy (hc : TidyC classes) (hr : TidyR referenceable) (s : St) (i : Bytes) :
    Tidy s (altMut [arraySingleObject classes referenceable, arraySinglePrimitive,
        arraySingleString classes referenceable, binaryArray classes referenceable] s i) := by
  by_cases h16 : i.head? = some 16
  · refine altMut_tidy (arraySingleObject_tidy hc hr s i) fun e s' _ => altMut_none ?_ s'
    intro p hp s
    simp only [List.mem_cons, List.not_mem_nil, or_false] at hp
    rcases hp with rfl | rfl | rfl
    · exact arraySinglePrimitive_mismatch (by rw [h16]; decide) s
    · exact arraySingleString_mismatch (by rw [h16]; decide) s
    · exact binaryArray_mismatch (by rw [h16]; decide) s
  rw [altMut_skip (arraySingleObject_mismatch h16 s)]
  by_cases h15 : i.head? = some 15
  · refine altMut_tidy .same fun e s' _ => altMut_none ?_ s'
    intro p hp s
    simp only [List.mem_cons, List.not_mem_nil, or_false] at hp
    rcases hp with rfl | rfl
    · exact arraySingleString_mismatch (by rw [h15]; decide) s
    · exact binaryArray_mismatch (by rw [h15]; decide) s
  rw [altMut_skip (arraySinglePrimitive_mismatch h15 s)]
  by_cases h17 : i.head? = some 17
  · refine altMut_tidy (arraySingleString_tidy hc hr s i) fun e s' _ => altMut_none ?_ s'
    intro p hp s
    simp only [List.mem_cons, List.not_mem_nil, or_false] at hp
    rcases hp with rfl
    exact binaryArray_mismatch (by rw [h17]; decide) s
  rw [altMut_skip (arraySingleString_mismatch h17 s)]
  exact altMut_tidy (binaryArray_tidy hc hr s i) fun e s' _ => altMut_none (by simp) s'

theorem arraysBody_tidy (hc : TidyC classes) (hr : TidyR referenceable) :
    TidyP (arraysBody classes referenceable) := by
  intro s i
  unfold arraysBody
  exact (library_tidy s i).bind fun _ s i _ => arrays_tidy hc hr s i

theorem referenceableBody_tidy (hc : TidyC classes) (hr : TidyR referenceable)
    (hm : LibMono classes) (hmr : LibMono referenceable) :
    TidyR (referenceableBody (classesBody classes referenceable)
      (arraysBody classes referenceable)) := by
  intro s i
  unfold referenceableBody
  have key : Tidy s (altMut
      [fun s i => (classesBody classes referenceable s i).map fun o => (o.1, o.2.toValue),
       fun s i => (arraysBody classes referenceable s i).map fun a => (a.1, Value.array a.2),
       lift fun i => (BinaryObjectString.parse i).map fun b => (b.objectId, Value.string b.value)]
      s i) := by
    by_cases hb : ClassByte i ∨ i.head? = some 1
    · have nostr : i.head? ≠ some 6 := by
        rcases hb with (h | h | h | h | h) | h <;> rw [h] <;> decide
      refine altMut_tidy (classesBody_tidy hc hr s i).map fun e s1 he => ?_
      have he' : classesBody classes referenceable s i = (.error e, s1) := by
        revert he
        generalize classesBody classes referenceable s i = x
        obtain ⟨o, s0⟩ := x
        cases o <;> simp [Res.map, Outcome.map]
      rcases no_retry hm hmr hb he' with ⟨e2, h2⟩ | ⟨e2, s3, h2, h3, _⟩
      · rw [altMut_skip ⟨e2, by simp only [h2]; rfl⟩]
        exact altMut_none (by
          intro p hp s
          simp only [List.mem_cons, List.not_mem_nil, or_false] at hp
          subst hp
          exact objectString_mismatch nostr s) s1
      · simp only [altMut, h2, Res.map, Outcome.map]
        exact ⟨(by intro _ _ e; cases e), h3⟩
    · simp only [not_or] at hb
      obtain ⟨e, he⟩ := classesBody_other (classes := classes) (referenceable := referenceable) (s := s)
        hb.1 hb.2
      rw [altMut_skip ⟨e, by simp only [he]; rfl⟩]
      by_cases h6 : i.head? = some 6
      · have ha : ∃ e, arraysBody classes referenceable s i = (.error e, s) := by
          unfold arraysBody
          rw [lib_none (by rw [h6]; decide)]
          exact arrays_other (by rintro (h | h | h | h) <;> rw [h6] at h <;> cases h)
        obtain ⟨e, ha⟩ := ha
        rw [altMut_skip ⟨e, by simp only [ha]; rfl⟩]
        exact altMut_tidy .same fun e s' _ => altMut_none (by simp) s'
      · refine altMut_tidy (arraysBody_tidy hc hr s i).map fun e s1 _ => altMut_none ?_ s1
        intro p hp s
        simp only [List.mem_cons, List.not_mem_nil, or_false] at hp
        subst hp
        exact objectString_mismatch h6 s
  have hval : ∀ (r : Bytes) (a : Nat × Value), (altMut
      [fun s i => (classesBody classes referenceable s i).map fun (o : Nat × Object) => (o.1, o.2.toValue),
       fun s i => (arraysBody classes referenceable s i).map fun (a : Nat × List Value) => (a.1, Value.array a.2),
       lift fun i => (BinaryObjectString.parse i).map fun b => (b.objectId, Value.string b.value)]
      s i).1 = .ok r a → hasId a.2 = true := by
    refine altMut_from (V := fun (a : Nat × Value) => hasId a.2 = true) ?_ s
    intro p hp s r a h
    simp only [List.mem_cons, List.not_mem_nil, or_false] at hp
    rcases hp with rfl | rfl | rfl
    · simp only [Res.map] at h
      cases ho : (classesBody classes referenceable s i).1 <;> rw [ho] at h <;> simp only [Outcome.map] at h <;> cases h
      rfl
    · simp only [Res.map] at h
      cases ho : (arraysBody classes referenceable s i).1 <;> rw [ho] at h <;> simp only [Outcome.map] at h <;> cases h
      rfl
    · simp only [lift] at h
      cases ho : BinaryObjectString.parse i <;> rw [ho] at h <;> simp only [Outcome.map] at h <;> cases h
      rfl
  revert key hval
  generalize altMut _ s i = x
  obtain ⟨o, s'⟩ := x
  intro key hval
  cases o with
  | ok r a =>
    obtain ⟨id, v⟩ := a
    have hsub := key.2 _ _ rfl
    have hoff : s.Off id { s' with objects := s'.objects.insert id v } := by
      intro k u h
      simp only [AMap.get?_insert] at h
      split at h
      · rename_i e
        cases h
        exact .inr ⟨(by first | exact e | exact e.symm), hval r (id, v) rfl⟩
      · exact .inl (hsub k u h)
    exact ⟨hoff.left, (fun _ _ e => by cases e; exact hoff)⟩
  | _ => exact ⟨key.1, (fun _ _ e => by cases e)⟩

end

theorem recAt_tidy (n : Nat) : TidyC (recAt n).classes ∧ TidyR (recAt n).referenceable := by
  induction n with
  | zero =>
    exact ⟨⟨fun s i => .same, fun _ _ _ _ => rfl⟩, fun s i => ⟨(St.Sub.refl s).left, (fun _ _ e => by cases e)⟩⟩
  | succ n ih =>
    refine ⟨⟨classesBody_tidy ih.1 ih.2, fun s i h h1 => ?_⟩,
      referenceableBody_tidy ih.1 ih.2 (recAt_mono n).1 (recAt_mono n).2⟩
    obtain ⟨e, he⟩ := classesBody_other (classes := (recAt n).classes)
      (referenceable := (recAt n).referenceable) (s := s) h h1
    unfold recAt
    simp only [he]

theorem parseReferenceable_tidy : TidyR parseReferenceable :=
  fun s i => (recAt_tidy (i.length + 1)).2 s i

end Nrbf
