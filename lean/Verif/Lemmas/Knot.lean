import Verif.Lemmas.RefineKnot

/-! # The stateful parsers against the declarative grammar: arrays, referenceables, the knot -/

namespace Nrbf
open Spec

variable {α β : Type} [Platform] {L : Nat} {classes : SP (Nat × Object)} {referenceable : SP Nat}

omit [Platform] in
theorem altMut_skip {p : SP α} {ps : List (SP α)} {s : St} {i : Bytes}
    (h : ∃ e, p s i = (.error e, s)) : altMut (p :: ps) s i = altMut ps s i := by
  obtain ⟨e, h⟩ := h
  simp only [altMut, h]

omit [Platform] in
theorem altMut_only {p : SP α} {ps : List (SP α)} {s : St} {i : Bytes} {n k : Nat}
    {J : α → Env → Bytes → Prop} (hp : Match (p s i) n k J)
    (hps : ∀ e s', p s i = (.error e, s') → ∀ r a s'', altMut ps s' i ≠ (.ok r a, s'')) :
    Match (altMut (p :: ps) s i) n k J := by
  constructor
  · intro r a s' h
    simp only [altMut] at h
    split at h
    · rename_i e s1 heq
      exact absurd h (hps e s1 heq _ _ _)
    · exact hp.1 r a s' h
  · intro a E' r hJ
    obtain ⟨s', h, hE⟩ := hp.2 a E' r hJ
    refine ⟨s', ?_, hE⟩
    simp only [altMut, h]

/-! ## Record types that do not match -/

theorem arraySingleObject_mismatch {i : Bytes} (h : i.head? ≠ some 16) (s : St) :
    ∃ e, arraySingleObject classes referenceable s i = (.error e, s) := by
  unfold arraySingleObject lift ArraySingleObject.parse
  rw [tagged_mismatch h]
  exact ⟨_, rfl⟩

theorem arraySinglePrimitive_mismatch {i : Bytes} (h : i.head? ≠ some 15) (s : St) :
    ∃ e, arraySinglePrimitive s i = (.error e, s) := by
  unfold arraySinglePrimitive lift ArraySinglePrimitive.parse
  simp only
  rw [tagged_mismatch h]
  exact ⟨_, rfl⟩

theorem arraySingleString_mismatch {i : Bytes} (h : i.head? ≠ some 17) (s : St) :
    ∃ e, arraySingleString classes referenceable s i = (.error e, s) := by
  unfold arraySingleString lift ArraySingleString.parse
  rw [tagged_mismatch h]
  exact ⟨_, rfl⟩

theorem binaryArray_mismatch {i : Bytes} (h : i.head? ≠ some 7) (s : St) :
    ∃ e, binaryArray classes referenceable s i = (.error e, s) := by
  unfold binaryArray lift BinaryArray.parse
  rw [tagged_mismatch h]
  exact ⟨_, rfl⟩

omit [Platform] in
theorem objectString_mismatch {i : Bytes} (h : i.head? ≠ some 6) (s : St) :
    ∃ e, lift (fun i => (BinaryObjectString.parse i).map fun b => (b.objectId, Value.string b.value))
      s i = (.error e, s) := by
  unfold lift BinaryObjectString.parse
  simp only
  rw [tagged_mismatch h]
  exact ⟨_, rfl⟩

omit [Platform] in
theorem classHead_mismatch {i : Bytes} (h2 : i.head? ≠ some 2) (h3 : i.head? ≠ some 3)
    (h4 : i.head? ≠ some 4) (h5 : i.head? ≠ some 5) :
    ∃ e, alt ClassWithMembers.parse
      [ClassWithMembersAndTypes.parse, SystemClassWithMembers.parse,
       SystemClassWithMembersAndTypes.parse] i = .error e := by
  simp only [alt]
  unfold ClassWithMembers.parse ClassWithMembersAndTypes.parse SystemClassWithMembers.parse
    SystemClassWithMembersAndTypes.parse
  rw [tagged_mismatch h3, tagged_mismatch h5, tagged_mismatch h2, tagged_mismatch h4]
  exact ⟨_, rfl⟩

theorem classesBody_other {s : St} {i : Bytes} (h : ¬ ClassByte i) (h1 : i.head? ≠ some 1) :
    ∃ e, classesBody classes referenceable s i = (.error e, s) := by
  unfold ClassByte at h
  simp only [not_or] at h
  unfold classesBody
  rw [lib_none h.1]
  simp only [Res.bind]
  unfold classHeader
  obtain ⟨e1, he1⟩ := classWithId_mismatch h1
  obtain ⟨e2, he2⟩ := classHead_mismatch h.2.1 h.2.2.1 h.2.2.2.1 h.2.2.2.2
  rw [he1]
  simp only [he2]
  exact ⟨_, rfl⟩

/-! ## Arrays -/

/-- A record that starts an array. -/
def ArrayByte (i : Bytes) : Prop :=
  i.head? = some 16 ∨ i.head? = some 15 ∨ i.head? = some 17 ∨ i.head? = some 7

theorem arrays_other {s : St} {i : Bytes} (h : ¬ ArrayByte i) :
    ∃ e, altMut [arraySingleObject classes referenceable, arraySinglePrimitive,
      arraySingleString classes referenceable, binaryArray classes referenceable] s i =
      (.error e, s) := by
  unfold ArrayByte at h
  simp only [not_or] at h
  rw [altMut_skip (arraySingleObject_mismatch h.1 s), altMut_skip (arraySinglePrimitive_mismatch h.2.1 s),
    altMut_skip (arraySingleString_mismatch h.2.2.1 s), altMut_skip (binaryArray_mismatch h.2.2.2 s)]
  exact ⟨_, rfl⟩

omit [Platform] in
theorem arrayHead_head {tag : UInt8} {id len : Nat} {b r : Bytes} (h : IsArrayHead tag id len b) :
    (b ++ r).head? = some tag := by
  obtain ⟨_, _, _, _, rfl⟩ := h; rfl

omit [Platform] in
theorem primitiveArrayHead_head {id len : Nat} {t : PrimitiveType} {b r : Bytes}
    (h : IsPrimitiveArrayHead id len t b) : (b ++ r).head? = some 15 := by
  obtain ⟨_, ⟨_, _, _, _, rfl⟩, rfl⟩ := h; rfl

omit [Platform] in
theorem binaryArrayHead_head {id : Nat} {kind : BinaryArrayType} {lengths : List Nat} {T : MemberType}
    {b r : Bytes} (h : IsBinaryArrayHead id kind lengths T b) : (b ++ r).head? = some 7 := by
  obtain ⟨_, _, _, _, _, _, _, _, _, _, _, rfl⟩ := h; rfl

/-- The record type of an array record. -/
theorem record_array_byte {E : Env} {i : Bytes} {id : Nat} {vs : List Value} {E' : Env} {r : Bytes}
    (h : Record E i id (.array vs) E' r) : ArrayByte i := by
  generalize hv : Value.array vs = v at h
  cases h with
  | object => cases hv
  | objectArray h => exact .inl (arrayHead_head h)
  | primitiveArray h => rw [List.append_assoc]; exact .inr (.inl (primitiveArrayHead_head h))
  | stringArray h => exact .inr (.inr (.inl (arrayHead_head h)))
  | array h => exact .inr (.inr (.inr (binaryArrayHead_head h)))
  | string => cases hv

theorem arrays_match (hsem : RecSem L classes referenceable) {s : St} (hs : s.classes = [])
    {i : Bytes} (hl : i.length < L + 1) :
    Match (altMut [arraySingleObject classes referenceable, arraySinglePrimitive,
      arraySingleString classes referenceable, binaryArray classes referenceable] s i) i.length 1
      (fun x E' r => Record (abs s) i x.1 (.array x.2) E' r) := by
  have last : ∀ s' r (a : Nat × List Value) s'', altMut [] s' i ≠ (.ok r a, s'') := by
    intro s' r a s'' h; cases h
  by_cases h16 : i.head? = some 16
  · refine altMut_only ((arrayOf_match hsem none arraySingleObject_exact hs hl).congr
      fun x E' r => ?_) ?_
    · constructor
      · rintro ⟨len, b, i1, slots, E2, i2, hb, rfl, h1, h2⟩
        exact .objectArray hb h1 h2
      · intro h
        generalize hv : Value.array x.2 = v at h
        cases h with
        | object => cases hv
        | objectArray hb h1 h2 => cases hv; exact ⟨_, _, _, _, _, _, hb, rfl, h1, h2⟩
        | primitiveArray h =>
          rw [List.append_assoc, primitiveArrayHead_head h] at h16; cases h16
        | stringArray h => rw [arrayHead_head h] at h16; cases h16
        | array h => rw [binaryArrayHead_head h] at h16; cases h16
        | string => cases hv
    · intro e s' _ r a s''
      rw [altMut_skip (arraySinglePrimitive_mismatch (by rw [h16]; decide) s'),
        altMut_skip (arraySingleString_mismatch (by rw [h16]; decide) s'),
        altMut_skip (binaryArray_mismatch (by rw [h16]; decide) s')]
      exact last _ _ _ _
  rw [altMut_skip (arraySingleObject_mismatch h16 s)]
  by_cases h15 : i.head? = some 15
  · refine altMut_only ((arraySinglePrimitive_match hs i).congr fun x E' r => ?_) ?_
    · constructor
      · rintro ⟨rfl, _, ⟨t, b1, b2, hb, h1, rfl⟩, rfl⟩
        exact .primitiveArray hb h1
      · intro h
        generalize hv : Value.array x.2 = v at h
        cases h with
        | object => cases hv
        | objectArray h => rw [arrayHead_head h] at h15; cases h15
        | primitiveArray h h1 => cases hv; exact ⟨rfl, _, ⟨_, _, _, h, h1, rfl⟩, rfl⟩
        | stringArray h => rw [arrayHead_head h] at h15; cases h15
        | array h => rw [binaryArrayHead_head h] at h15; cases h15
        | string => cases hv
    · intro e s' _ r a s''
      rw [altMut_skip (arraySingleString_mismatch (by rw [h15]; decide) s'),
        altMut_skip (binaryArray_mismatch (by rw [h15]; decide) s')]
      exact last _ _ _ _
  rw [altMut_skip (arraySinglePrimitive_mismatch h15 s)]
  by_cases h17 : i.head? = some 17
  · refine altMut_only ((arrayOf_match hsem (some .stringArray) arraySingleString_exact hs hl).congr
      fun x E' r => ?_) ?_
    · constructor
      · rintro ⟨len, b, i1, slots, E2, i2, hb, rfl, h1, h2⟩
        exact .stringArray hb h1 h2
      · intro h
        generalize hv : Value.array x.2 = v at h
        cases h with
        | object => cases hv
        | objectArray h => rw [arrayHead_head h] at h17; cases h17
        | primitiveArray h =>
          rw [List.append_assoc, primitiveArrayHead_head h] at h17; cases h17
        | stringArray hb h1 h2 => cases hv; exact ⟨_, _, _, _, _, _, hb, rfl, h1, h2⟩
        | array h => rw [binaryArrayHead_head h] at h17; cases h17
        | string => cases hv
    · intro e s' _ r a s''
      rw [altMut_skip (binaryArray_mismatch (by rw [h17]; decide) s')]
      exact last _ _ _ _
  rw [altMut_skip (arraySingleString_mismatch h17 s)]
  by_cases h7 : i.head? = some 7
  · refine altMut_only ((binaryArray_match hsem hs hl).congr fun x E' r => ?_) ?_
    · constructor
      · rintro ⟨kind, lengths, T, b, n, i1, slots, E2, i2, vs, hb, rfl, h1, h2, h3, h4⟩
        exact .array hb h1 h2 h3 h4
      · intro h
        generalize hv : Value.array x.2 = v at h
        cases h with
        | object => cases hv
        | objectArray h => rw [arrayHead_head h] at h7; cases h7
        | primitiveArray h =>
          rw [List.append_assoc, primitiveArrayHead_head h] at h7; cases h7
        | stringArray h => rw [arrayHead_head h] at h7; cases h7
        | array hb h1 h2 h3 h4 =>
          cases hv; exact ⟨_, _, _, _, _, _, _, _, _, _, hb, rfl, h1, h2, h3, h4⟩
        | string => cases hv
    · intro e s' _ r a s''
      exact last _ _ _ _
  rw [altMut_skip (binaryArray_mismatch h7 s)]
  refine .never (by intro r a s h; cases h) ?_
  intro x E r h
  rcases record_array_byte h with h | h | h | h <;> contradiction

/-! ## Referenceables -/

/-- After a failed attempt to read a class after a library, the library is read a second time. -/
theorem library_twice {s s1 : St} {i : Bytes} {e : Error} (hm : LibMono classes)
    (hmr : LibMono referenceable) {r : Bytes} {l : BinaryLibrary} (hp : BinaryLibrary.parse i = .ok r l)
    (h : classesBody classes referenceable s i = (.error e, s1)) :
    ∃ s2, arraysBody classes referenceable s1 i = (.failure ⟨r, .duplicateLibraryId⟩, s2) ∧
      s2.objects = s1.objects ∧ s2.LibsLe s1 ∧
      s2 = { s1 with libs := s1.libs.insert l.libraryId l.libraryName } := by
  have hlib : (s1.libs.get? l.libraryId).isSome := by
    unfold classesBody at h
    revert h
    generalize hf : (fun (_ : Unit) (s : St) errInput => _) = f
    intro h
    have hx : (parseBinaryLibrary s i).2.libs.get? l.libraryId = some l.libraryName := by
      unfold parseBinaryLibrary lift opt
      rw [hp]
      simp only [Outcome.map, Res.bind]
      split <;> simp [AMap.get?_insert]
    have hmono : (parseBinaryLibrary s i).2.LibsLe s1 := by
      have h2 : s1 = ((parseBinaryLibrary s i).bind f).2 := by rw [h]
      rw [h2]
      subst hf
      refine Res.bind_mono (.refl _) fun _ s1 r1 h1 => ?_
      refine Res.bind_mono (h1.trans (classHeader_mono s1 r1)) fun ⟨id, c⟩ s2 r2 h2 => ?_
      simp only
      split
      · exact h2
      · refine Res.bind_mono (h2.trans (classMembers_mono hm r1 c s2 r2)) fun ⟨l, ms⟩ s3 r3 h3 => ?_
        exact Res.bind_mono (h3.trans (resolveMembers_mono hmr ms s3 r3)) fun vs s4 r4 h4 => h4
    exact hmono _ (by rw [hx]; rfl)
  unfold arraysBody parseBinaryLibrary lift opt
  rw [hp]
  simp only [Outcome.map, Res.bind, hlib, if_true]
  refine ⟨_, rfl, rfl, fun k hk => ?_, rfl⟩
  simp only [AMap.get?_insert] at hk
  split at hk
  · rename_i e; subst e; exact hlib
  · exact hk

/-- After a failed attempt to read a class on an input that starts with a class record or a library,
nothing else succeeds. -/
theorem no_retry {s s1 : St} {i : Bytes} {e : Error} (hm : LibMono classes)
    (hmr : LibMono referenceable) (hb : ClassByte i ∨ i.head? = some 1)
    (h : classesBody classes referenceable s i = (.error e, s1)) :
    (∃ e, arraysBody classes referenceable s1 i = (.error e, s1)) ∨
    (∃ e s2, arraysBody classes referenceable s1 i = (.failure e, s2) ∧ s2.objects = s1.objects ∧ s2.LibsLe s1) := by
  have na : ∀ {i}, ClassByte i ∨ i.head? = some 1 → ¬ ArrayByte i := by
    rintro i ((h | h | h | h | h) | h) (h' | h' | h' | h') <;> rw [h] at h' <;> cases h'
  by_cases h12 : i.head? = some 12
  · cases hp : BinaryLibrary.parse i with
    | error e' =>
      unfold arraysBody
      rw [opt_lib_none hp]
      obtain ⟨e2, h2⟩ := arrays_other (classes := classes) (referenceable := referenceable)
        (s := s1) (na hb)
      simp only [Res.bind, h2]
      exact .inl ⟨_, rfl⟩
    | ok r l =>
      right
      obtain ⟨s2, h2, h3, h4, _⟩ := library_twice hm hmr hp h
      exact ⟨_, s2, h2, h3, h4⟩
    | _ =>
      exfalso
      unfold classesBody parseBinaryLibrary lift opt at h
      rw [hp] at h
      simp [Outcome.map, Res.bind] at h
  · unfold arraysBody
    rw [lib_none h12]
    obtain ⟨e2, h2⟩ := arrays_other (classes := classes) (referenceable := referenceable)
      (s := s1) (na hb)
    simp only [Res.bind, h2]
    exact .inl ⟨_, rfl⟩

/-- The record type of an object record. -/
theorem record_object_byte {E : Env} {i : Bytes} {id : Nat} {n : Str} {l : Option Str}
    {ms : List (Str × Value)} {E' : Env} {r : Bytes}
    (h : Record E i id (.object n l ms) E' r) : ClassByte i := by
  generalize hv : Value.object n l ms = v at h
  cases h with
  | object h => exact class_byte h
  | _ => cases hv

theorem referenceable_alt_match (hsem : RecSem L classes referenceable) (hm : LibMono classes)
    (hmr : LibMono referenceable) {s : St} (hs : s.classes = []) {i : Bytes} (hl : i.length < L + 1) :
    Match (altMut
      [fun s i => (classesBody classes referenceable s i).map fun o => (o.1, o.2.toValue),
       fun s i => (arraysBody classes referenceable s i).map fun a => (a.1, Value.array a.2),
       lift fun i => (BinaryObjectString.parse i).map fun b => (b.objectId, Value.string b.value)]
      s i) i.length 1 (fun x E' r => Record (abs s) i x.1 x.2 E' r) := by
  by_cases hc : ClassByte i ∨ i.head? = some 1
  · have nostr : i.head? ≠ some 6 := by
      rcases hc with (h | h | h | h | h) | h <;> rw [h] <;> decide
    have noarr : ¬ ArrayByte i := by
      rcases hc with (h | h | h | h | h) | h <;> rintro (h' | h' | h' | h') <;> rw [h] at h' <;> cases h'
    refine altMut_only (((classesBody_match hsem hs hl).map _).congr fun x E' r => ?_) ?_
    · constructor
      · rintro ⟨o, h, rfl⟩; exact .object h
      · intro h
        obtain ⟨id, v⟩ := x
        cases h with
        | @object _ _ id name library members _ _ h => exact ⟨(id, ⟨name, library, members⟩), h, rfl⟩
        | objectArray h => exact absurd (.inl (arrayHead_head h)) noarr
        | primitiveArray h =>
          rw [List.append_assoc] at noarr
          exact absurd (.inr (.inl (primitiveArrayHead_head h))) noarr
        | stringArray h => exact absurd (.inr (.inr (.inl (arrayHead_head h)))) noarr
        | array h => exact absurd (.inr (.inr (.inr (binaryArrayHead_head h)))) noarr
        | string h => exact absurd (string_head h) nostr
    · intro e s1 he r a s2
      have he' : classesBody classes referenceable s i = (.error e, s1) := by
        revert he
        generalize classesBody classes referenceable s i = x
        obtain ⟨o, s0⟩ := x
        cases o <;> simp [Res.map, Outcome.map]
      rcases no_retry hm hmr hc he' with ⟨e2, h2⟩ | ⟨e2, s3, h2, _⟩
      · rw [altMut_skip ⟨e2, by simp only [h2]; rfl⟩, altMut_skip (objectString_mismatch nostr s1)]
        intro h; cases h
      · intro h
        simp only [altMut, h2, Res.map, Outcome.map] at h
        cases h
  · simp only [not_or] at hc
    have h12 : i.head? ≠ some 12 := fun h => hc.1 (.inl h)
    obtain ⟨e, he⟩ := classesBody_other (classes := classes) (referenceable := referenceable) (s := s)
      hc.1 hc.2
    rw [altMut_skip ⟨e, by simp only [he]; rfl⟩]
    have ha : arraysBody classes referenceable s i =
      altMut [arraySingleObject classes referenceable, arraySinglePrimitive,
        arraySingleString classes referenceable, binaryArray classes referenceable] s i := by
      unfold arraysBody
      rw [lib_none h12]
      rfl
    by_cases hab : ArrayByte i
    · have nostr : i.head? ≠ some 6 := by
        rcases hab with h | h | h | h <;> rw [h] <;> decide
      refine altMut_only ?_ ?_
      · rw [ha]
        refine ((arrays_match hsem hs hl).map _).congr fun x E' r => ?_
        constructor
        · rintro ⟨o, h, rfl⟩; exact h
        · intro h
          obtain ⟨id, v⟩ := x
          cases v with
          | array vs => exact ⟨(id, vs), h, rfl⟩
          | object n l ms => exact absurd (record_object_byte h) hc.1
          | _ =>
            exfalso
            cases h
            all_goals exact nostr (string_head ‹_›)
      · intro e s1 _ r a s2
        rw [altMut_skip (objectString_mismatch nostr s1)]
        intro h; cases h
    · obtain ⟨e, he⟩ := arrays_other (classes := classes) (referenceable := referenceable) (s := s) hab
      rw [altMut_skip ⟨e, by simp only [ha, he]; rfl⟩]
      refine altMut_only ((Match.stateless (bos_exact.map fun b => (b.objectId, Value.string b.value))
        (k := 1) ?_ hs i).congr fun x E' r => ?_) (by intro e s' _ r a s'' h; cases h)
      · rintro _ _ ⟨_, ⟨_, _, _, _, rfl⟩, _⟩; simp
      · constructor
        · rintro ⟨rfl, b, ⟨o, h, rfl⟩, rfl⟩; exact .string h
        · intro h
          obtain ⟨id, v⟩ := x
          cases h with
          | object h => exact absurd (class_byte h) hc.1
          | objectArray h => exact absurd (.inl (arrayHead_head h)) hab
          | primitiveArray h =>
            rw [List.append_assoc] at hab
            exact absurd (.inr (.inl (primitiveArrayHead_head h))) hab
          | stringArray h => exact absurd (.inr (.inr (.inl (arrayHead_head h)))) hab
          | array h => exact absurd (.inr (.inr (.inr (binaryArrayHead_head h)))) hab
          | string h => exact ⟨rfl, _, ⟨⟨id, _⟩, h, rfl⟩, rfl⟩

theorem referenceableBody_match (hsem : RecSem L classes referenceable) (hm : LibMono classes)
    (hmr : LibMono referenceable) {s : St} (hs : s.classes = []) {i : Bytes} (hl : i.length < L + 1) :
    Match (referenceableBody (classesBody classes referenceable) (arraysBody classes referenceable) s i)
      i.length 1 (fun id E' r => ∃ v E1, Record (abs s) i id v E1 r ∧ E' = E1.add id v) := by
  unfold referenceableBody
  refine ((referenceable_alt_match hsem hm hmr hs hl).bind (k2 := 0) (k := 1) (by omega)
    (K := fun x E1 i1 id E' r => id = x.1 ∧ E' = E1.add x.1 x.2 ∧ r = i1)
    fun x s1 i1 hs1 _ _ => ?_).congr fun id E' r => ?_
  · obtain ⟨id, v⟩ := x
    refine (Match.ret (s := { s1 with objects := s1.objects.insert id v }) hs1).congr fun id' E' r => ?_
    rw [abs_insert]
  · constructor
    · rintro ⟨⟨_, v⟩, E1, i1, h, rfl, rfl, rfl⟩; exact ⟨v, E1, h, rfl⟩
    · rintro ⟨v, E1, h, rfl⟩; exact ⟨(id, v), E1, r, h, rfl, rfl, rfl⟩

/-- The parser functions implement the grammar, on inputs shorter than the recursion depth. -/
theorem recSem (n : Nat) : RecSem n (recAt n).classes (recAt n).referenceable := by
  induction n with
  | zero => exact ⟨fun _ _ _ h => by omega, fun _ _ h => by omega, fun _ _ _ h => by omega⟩
  | succ n ih =>
    have hm := recAt_mono n
    exact ⟨fun s i hs hl => classesBody_match ih hs hl, fun s i _ h h1 => classesBody_other h h1,
      fun s i hs hl => referenceableBody_match ih hm.1 hm.2 hs hl⟩

/-- `parse_referenceable` reads one record. -/
theorem parseReferenceable_match {s : St} (hs : s.classes = []) (i : Bytes) :
    Match (parseReferenceable s i) i.length 1
      (fun id E' r => ∃ v E1, Record (abs s) i id v E1 r ∧ E' = E1.add id v) :=
  (recSem (i.length + 1)).ref s i hs (by omega)

end Nrbf
