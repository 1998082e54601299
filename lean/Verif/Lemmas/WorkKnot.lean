import Verif.Lemmas.Work

/-! # Bounds for the work: alternatives, the recursion, messages -/

set_option autoImplicit false

namespace Nrbf
open Spec

attribute [local instance] flat

variable {α β : Type}

/-! ## Alternatives -/

/-- An attempt that costs `n` and leaves the state alone. -/
def Miss (n : Nat) (x : Timed α) (s : St) : Prop := ∃ e, x = ((.error e, s), n)

theorem altMutT_skip {p : TP α} {ps : List (TP α)} {s : St} {i : Bytes} {n k d : Nat} {c c' : α → Nat}
    (h : Miss k (p s i) s) (hs : Spent n d c' (altMutT ps s i)) (hc : ∀ a, c a + k ≤ c' a) :
    Spent n (d + k) c (altMutT (p :: ps) s i) := by
  obtain ⟨e, h⟩ := h
  unfold altMutT
  rw [h]
  simp only
  refine .of (fun r a s' e => ?_) ?_
  · have := hs.ok e
    have := hc a
    simp only
    omega
  · have := hs.le
    simp only
    omega

theorem altMutT_only {p : TP α} {ps : List (TP α)} {s : St} {i : Bytes} {n k d : Nat} {c : α → Nat}
    (h : Spent n d c (p s i))
    (hs : ∀ e s', (p s i).1 = (.error e, s') → (∀ r a, (altMutT ps s' i).1.1 ≠ .ok r a) ∧
      (p s i).2 + (altMutT ps s' i).2 ≤ n + d + k) : Spent n (d + k) c (altMutT (p :: ps) s i) := by
  unfold altMutT
  revert h hs
  generalize p s i = x
  obtain ⟨⟨o, s'⟩, m⟩ := x
  intro h hs
  cases o with
  | error e =>
    obtain ⟨h1, h2⟩ := hs e s' rfl
    refine .of (fun r a s'' e => absurd (congrArg Prod.fst e) (h1 r a)) (by simp only at h2 ⊢; omega)
  | ok r a => exact h.weaken (by omega) (by intro; omega)
  | _ => exact h.weaken (by omega) (by intro; omega)

theorem altMutT_none {ps : List (TP α)} {i : Bytes} (h : ∀ p ∈ ps, ∀ s, Miss 1 (p s i) s) (s : St) :
    Miss ps.length (altMutT ps s i) s := by
  induction ps with
  | nil => exact ⟨_, rfl⟩
  | cons p ps ih =>
    obtain ⟨e, he⟩ := h p (by simp) s
    obtain ⟨e2, h2⟩ := ih fun q hq => h q (by simp [hq])
    unfold altMutT
    rw [he]
    simp only [h2]
    exact ⟨e2, by rw [List.length_cons, Nat.add_comm]⟩

theorem Miss.not_ok {n : Nat} {x : Timed α} {s : St} (h : Miss n x s) : ∀ r a, x.1.1 ≠ .ok r a := by
  obtain ⟨e, rfl⟩ := h
  intro r a h
  cases h

theorem Miss.work {n : Nat} {x : Timed α} {s : St} (h : Miss n x s) : x.2 = n := by
  obtain ⟨e, rfl⟩ := h
  rfl

theorem Miss.map {n : Nat} {x : Timed α} {s : St} (h : Miss n x s) (f : α → β) : Miss n (x.map f) s := by
  obtain ⟨e, rfl⟩ := h
  exact ⟨e, rfl⟩

variable [Platform] {tc : TP (Nat × Object)} {tr : TP Nat} {classes : SP (Nat × Object)} {referenceable : SP Nat}

theorem arraySingleObjectT_miss {i : Bytes} (h : i.head? ≠ some 16) (s : St) :
    Miss 1 (arraySingleObjectT tc tr s i) s := by
  unfold arraySingleObjectT readT ArraySingleObject.parse
  rw [tagged_mismatch h]
  exact ⟨_, rfl⟩

theorem arraySinglePrimitiveT_miss {i : Bytes} (h : i.head? ≠ some 15) (s : St) :
    Miss 1 (arraySinglePrimitiveT s i) s := by
  obtain ⟨e, he⟩ := arraySinglePrimitive_mismatch h s
  unfold arraySinglePrimitiveT
  rw [he]
  exact ⟨_, rfl⟩

theorem arraySingleStringT_miss {i : Bytes} (h : i.head? ≠ some 17) (s : St) :
    Miss 1 (arraySingleStringT tc tr s i) s := by
  unfold arraySingleStringT readT ArraySingleString.parse
  rw [tagged_mismatch h]
  exact ⟨_, rfl⟩

theorem binaryArrayT_miss {i : Bytes} (h : i.head? ≠ some 7) (s : St) : Miss 1 (binaryArrayT tc tr s i) s := by
  unfold binaryArrayT readT BinaryArray.parse
  rw [tagged_mismatch h]
  exact ⟨_, rfl⟩

omit [Platform] in
theorem stringRecordT_miss {i : Bytes} (h : i.head? ≠ some 6) (s : St) : Miss 1 (stringRecordT s i) s := by
  unfold stringRecordT readT BinaryObjectString.parse
  simp only
  rw [tagged_mismatch h]
  exact ⟨_, rfl⟩

omit [Platform] in
theorem stringRecord_spent (s : St) (i : Bytes) : Spent (32 * i.length) 1 (fun _ => 30) (stringRecordT s i) :=
  readT_spent (eats (V := fun _ => True) (w := i) ((bos_good (List.suffix_refl i)).map fun _ _ => trivial))

omit [Platform] in
/-- If the alternatives after `p` all miss. -/
theorem altMutT_misses {p : TP α} {ps : List (TP α)} {s : St} {i : Bytes} {n d : Nat} {c : α → Nat}
    (h : Spent n d c (p s i)) (hs : ∀ q ∈ ps, ∀ s, Miss 1 (q s i) s) :
    Spent n (d + ps.length) c (altMutT (p :: ps) s i) := by
  refine altMutT_only h fun e s' _ => ?_
  have h1 := altMutT_none hs s'
  refine ⟨h1.not_ok, ?_⟩
  rw [h1.work]
  have := h.le
  omega

theorem arrayAlt_spent (hc : WorkC tc) (hr : WorkR tr) (s : St) (i : Bytes) :
    Spent (32 * i.length) 4 (fun _ => 27) (arrayAltT tc tr s i) := by
  unfold arrayAltT
  by_cases h16 : i.head? = some 16
  · refine Spent.weaken (altMutT_misses (arraySingleObject_spent hc hr s i) ?_) (by simp) (by intro; omega)
    intro p hp s
    simp only [List.mem_cons, List.not_mem_nil, or_false] at hp
    rcases hp with rfl | rfl | rfl
    · exact arraySinglePrimitiveT_miss (by rw [h16]; decide) s
    · exact arraySingleStringT_miss (by rw [h16]; decide) s
    · exact binaryArrayT_miss (by rw [h16]; decide) s
  refine altMutT_skip (d := 3) (k := 1) (c' := fun _ => 28) (arraySingleObjectT_miss h16 s) ?_ (by intro; omega)
  by_cases h15 : i.head? = some 15
  · refine Spent.weaken (altMutT_misses (arraySinglePrimitive_spent s i) ?_) (by simp) (by intro; omega)
    intro p hp s
    simp only [List.mem_cons, List.not_mem_nil, or_false] at hp
    rcases hp with rfl | rfl
    · exact arraySingleStringT_miss (by rw [h15]; decide) s
    · exact binaryArrayT_miss (by rw [h15]; decide) s
  refine altMutT_skip (d := 2) (k := 1) (c' := fun _ => 29) (arraySinglePrimitiveT_miss h15 s) ?_ (by intro; omega)
  by_cases h17 : i.head? = some 17
  · refine Spent.weaken (altMutT_misses (arraySingleString_spent hc hr s i) ?_) (by simp) (by intro; omega)
    intro p hp s
    simp only [List.mem_cons, List.not_mem_nil, or_false] at hp
    rcases hp with rfl
    exact binaryArrayT_miss (by rw [h17]; decide) s
  refine altMutT_skip (d := 1) (k := 1) (c' := fun _ => 30) (arraySingleStringT_miss h17 s) ?_ (by intro; omega)
  exact Spent.weaken (altMutT_misses (binaryArray_spent hc hr s i) (by simp)) (by simp) (by intro; omega)

theorem arraysBody_spent (hc : WorkC tc) (hr : WorkR tr) (s : St) (i : Bytes) :
    Spent (32 * i.length) 5 (fun _ => 26) (arraysBodyT tc tr s i) :=
  library_bind_spent (by intro; exact Nat.le_refl _) fun _ s i => arrayAlt_spent hc hr s i

/-- What does not start an array costs five attempts. -/
theorem arraysBodyT_miss {i : Bytes} (h12 : i.head? ≠ some 12) (h : ¬ ArrayByte i) (s : St) :
    Miss 5 (arraysBodyT tc tr s i) s := by
  unfold ArrayByte at h
  simp only [not_or] at h
  have h1 : Miss 4 (arrayAltT tc tr s i) s := by
    refine altMutT_none (fun p hp s => ?_) s
    simp only [List.mem_cons, List.not_mem_nil, or_false] at hp
    rcases hp with rfl | rfl | rfl | rfl
    · exact arraySingleObjectT_miss h.1 s
    · exact arraySinglePrimitiveT_miss h.2.1 s
    · exact arraySingleStringT_miss h.2.2.1 s
    · exact binaryArrayT_miss h.2.2.2 s
  obtain ⟨e, h1⟩ := h1
  unfold arraysBodyT
  rw [libraryT_none h12]
  simp only [Timed.bind, h1]
  exact ⟨e, rfl⟩

/-! ## Referenceables -/

/-- After a class that could not be read, nothing else is read: the attempt is not repeated. -/
theorem noRetry_spent (hc : WorkC tc) (hr : WorkR tr) (hs : SameRes tc classes) (hsr : SameRes tr referenceable)
    (hm : LibMono classes) (hmr : LibMono referenceable) {s : St} {i : Bytes}
    (hb : ClassByte i ∨ i.head? = some 1) {e : Error} {s1 : St} (he : (classesBodyT tc tr s i).1 = (.error e, s1)) :
    (∀ r a, (arraysBodyT tc tr s1 i).1.1 ≠ .ok r a) ∧
    ((∃ e, (arraysBodyT tc tr s1 i).1.1 = .error e) → (arraysBodyT tc tr s1 i).2 = 5) ∧
    (classesBodyT tc tr s i).2 + (arraysBodyT tc tr s1 i).2 ≤ 32 * i.length + 11 := by
  have he' : classesBody classes referenceable s i = (.error e, s1) := by
    rw [← classesBody_same hs hsr]; exact he
  have na : ¬ ArrayByte i := by
    rcases hb with (h | h | h | h | h) | h <;> rintro (h' | h' | h' | h') <;> rw [h] at h' <;> cases h'
  have hle := (classesBody_spent hc hr s i).le
  by_cases h12 : i.head? = some 12
  · cases hp : BinaryLibrary.parse i with
    | ok r l =>
      obtain ⟨s2, h2, h3, h4, h5⟩ := library_twice hm hmr hp he'
      have hlib : (s1.libs.get? l.libraryId).isSome := by
        refine h4 _ ?_
        rw [h5]
        simp [AMap.get?_insert]
      have ha : binaryLibraryT s1 i = ((.failure ⟨r, .duplicateLibraryId⟩,
          { s1 with libs := s1.libs.insert l.libraryId l.libraryName }), i.length - r.length + 1) := by
        unfold binaryLibraryT parseBinaryLibrary lift opt
        rw [hp]
        simp only [Outcome.map, Res.bind, hlib, if_true, leafWork]
      have hg := binaryLibrary_good (List.suffix_refl i)
      rw [hp] at hg
      have hlen := hg.2.1
      have h0 : (arraysBodyT tc tr s1 i).1.1 = .failure ⟨r, .duplicateLibraryId⟩ ∧
          (arraysBodyT tc tr s1 i).2 = i.length - r.length + 1 := by
        unfold arraysBodyT
        rw [ha]
        exact ⟨rfl, rfl⟩
      refine ⟨fun r a h => (by rw [h0.1] at h; cases h), (fun ⟨e, h⟩ => by rw [h0.1] at h; cases h), ?_⟩
      rw [h0.2]
      -- the library is part of what the class attempt was charged for
      have hcls : (classesBodyT tc tr s i).2 ≤ (i.length - r.length + 1) + (32 * r.length + 5) := by
        unfold classesBodyT
        have hw : (binaryLibraryT s i).2 = i.length - r.length + 1 := by
          unfold binaryLibraryT; rw [hp]; rfl
        have hok : ∀ r' u s', (binaryLibraryT s i).1 = (.ok r' u, s') → r' = r := by
          intro r' u s' h
          unfold binaryLibraryT parseBinaryLibrary lift opt at h
          rw [hp] at h
          simp only [Outcome.map, Res.bind] at h
          split at h <;> cases h
          rfl
        generalize binaryLibraryT s i = x at hw hok
        obtain ⟨⟨o, s'⟩, m⟩ := x
        simp only at hw
        subst hw
        cases o with
        | ok r' u =>
          obtain rfl := hok r' u s' rfl
          have := (afterLibrary_spent hc hr s' r').le
          simp only [Timed.bind]
          omega
        | _ => simp only [Timed.bind]; omega
      omega
    | error e' =>
      have ha : binaryLibraryT s1 i = ((.ok i (), s1), 1) := by
        unfold binaryLibraryT
        rw [opt_lib_none hp, hp]
        rfl
      unfold ArrayByte at na
      simp only [not_or] at na
      have h1 : Miss 4 (arrayAltT tc tr s1 i) s1 := by
        refine altMutT_none (fun p hp s => ?_) s1
        simp only [List.mem_cons, List.not_mem_nil, or_false] at hp
        rcases hp with rfl | rfl | rfl | rfl
        · exact arraySingleObjectT_miss na.1 s
        · exact arraySinglePrimitiveT_miss na.2.1 s
        · exact arraySingleStringT_miss na.2.2.1 s
        · exact binaryArrayT_miss na.2.2.2 s
      have h0 : Miss 5 (arraysBodyT tc tr s1 i) s1 := by
        obtain ⟨e, h1⟩ := h1
        unfold arraysBodyT
        rw [ha]
        simp only [Timed.bind, h1]
        exact ⟨e, rfl⟩
      refine ⟨h0.not_ok, fun _ => h0.work, ?_⟩
      rw [h0.work]
      omega
    | _ =>
      exfalso
      unfold classesBody parseBinaryLibrary lift opt at he'
      rw [hp] at he'
      simp [Outcome.map, Res.bind] at he'
  · have h0 := arraysBodyT_miss (tc := tc) (tr := tr) h12 na s1
    refine ⟨h0.not_ok, fun _ => h0.work, ?_⟩
    rw [h0.work]
    omega

omit [Platform] in
theorem Timed.map_error {x : Timed α} {f : α → β} {e : Error} {s : St} (h : (x.map f).1 = (.error e, s)) :
    x.1 = (.error e, s) := by
  obtain ⟨⟨o, s'⟩, n⟩ := x
  cases o <;> simp_all [Timed.map, Res.map, Outcome.map]

omit [Platform] in
theorem Timed.map_ok {x : Timed α} {f : α → β} (h : ∀ r a, x.1.1 ≠ .ok r a) : ∀ r b, (x.map f).1.1 ≠ .ok r b := by
  obtain ⟨⟨o, s'⟩, n⟩ := x
  intro r b e
  cases o with
  | ok r a => exact h r a rfl
  | _ => simp [Timed.map, Res.map, Outcome.map] at e

theorem referenceableBody_spent (hc : WorkC tc) (hr : WorkR tr) (hs : SameRes tc classes) (hsr : SameRes tr referenceable)
    (hm : LibMono classes) (hmr : LibMono referenceable) :
    WorkR (referenceableBodyT (classesBodyT tc tr) (arraysBodyT tc tr)) := by
  intro s i
  refine Spent.bind (c := fun _ => 1) ?_ fun ⟨id, v⟩ s r _ => .ret (Nat.le_refl _)
  have hcls := (classesBody_spent hc hr s i).map (f := fun o => (o.1, o.2.toValue)) (c' := fun _ => 1)
    fun _ => by omega
  have harr : ∀ s, Spent (32 * i.length) 5 (fun _ => 26)
      ((arraysBodyT tc tr s i).map fun a => (a.1, Value.array a.2)) := fun s =>
    (arraysBody_spent hc hr s i).map fun _ => Nat.le_refl _
  by_cases hb : ClassByte i ∨ i.head? = some 1
  · have nostr : i.head? ≠ some 6 := by
      rcases hb with (h | h | h | h | h) | h <;> rw [h] <;> decide
    refine altMutT_only (d := 6) (k := 6) hcls fun e s1 he => ?_
    obtain ⟨h1, h2, h3⟩ := noRetry_spent hc hr hs hsr hm hmr hb (Timed.map_error he)
    show _ ∧ (classesBodyT tc tr s i).2 + _ ≤ _
    unfold altMutT
    simp only [Timed.map]
    generalize arraysBodyT tc tr s1 i = y at h1 h2 h3
    obtain ⟨⟨o, s2⟩, m⟩ := y
    cases o with
    | ok r a => exact absurd rfl (h1 r a)
    | error e2 =>
      have h4 := altMutT_none (ps := [stringRecordT]) (i := i) (by
        intro p hp s
        simp only [List.mem_cons, List.not_mem_nil, or_false] at hp
        subst hp
        exact stringRecordT_miss nostr s) s2
      simp only [Res.map, Outcome.map]
      refine ⟨h4.not_ok, ?_⟩
      rw [h4.work]
      simp only [List.length_cons, List.length_nil] at h3 ⊢
      omega
    | _ =>
      simp only [Res.map, Outcome.map] at h3 ⊢
      exact ⟨(by intro _ _ e; cases e), (by omega)⟩
  · simp only [not_or] at hb
    have h0 : Miss 6 ((classesBodyT tc tr s i).map fun o => (o.1, o.2.toValue)) s :=
      Miss.map (classesBodyT_other hb.1 hb.2) _
    refine altMutT_skip (d := 6) (k := 6) (c' := fun _ => 7) h0 ?_ (by intro; omega)
    by_cases h6 : i.head? = some 6
    · have ha : Miss 5 ((arraysBodyT tc tr s i).map fun a => (a.1, Value.array a.2)) s :=
        Miss.map (arraysBodyT_miss (by rw [h6]; decide)
          (by rintro (h | h | h | h) <;> rw [h6] at h <;> cases h) s) _
      refine altMutT_skip (d := 1) (k := 5) (c' := fun _ => 12) ha ?_ (by intro; omega)
      exact Spent.weaken (altMutT_misses (stringRecord_spent s i) (by simp)) (by simp) (by intro; omega)
    · refine Spent.weaken (altMutT_misses (harr s) ?_) (by simp) (by intro; omega)
      intro p hp s
      simp only [List.mem_cons, List.not_mem_nil, or_false] at hp
      subst hp
      exact stringRecordT_miss h6 s

/-! ## The recursion -/

theorem recAt_spent (n : Nat) : WorkC (recAtT n).classes ∧ WorkR (recAtT n).referenceable := by
  induction n with
  | zero =>
    exact ⟨⟨fun s i => .other (by intro _ _ e; cases e), fun _ _ _ _ => Nat.zero_le _⟩,
      fun s i => .other (by intro _ _ e; cases e)⟩
  | succ n ih =>
    refine ⟨⟨classesBody_spent ih.1 ih.2, fun s i h h1 => ?_⟩,
      referenceableBody_spent ih.1 ih.2 (recAt_same n).1 (recAt_same n).2 (recAt_mono n).1 (recAt_mono n).2⟩
    have h0 : Miss 6 (classesBodyT (recAtT n).classes (recAtT n).referenceable s i) s := classesBodyT_other h h1
    show (classesBodyT (recAtT n).classes (recAtT n).referenceable s i).2 ≤ 6
    rw [h0.work]
    exact Nat.le_refl _

theorem parseClasses_spent : WorkC parseClassesT :=
  ⟨fun s i => (recAt_spent (i.length + 1)).1.spent s i, fun s i => (recAt_spent (i.length + 1)).1.quiet s i⟩

theorem parseReferenceable_spent : WorkR parseReferenceableT := fun s i => (recAt_spent (i.length + 1)).2 s i

/-! ## Messages -/

theorem loop_spent (fuel : Nat) (s : St) (i : Bytes) :
    (referenceablesLoopT fuel s i).2 ≤ 32 * i.length + 12 ∧
    ∀ r a, (referenceablesLoopT fuel s i).1.1 = .ok r a → r.length ≤ i.length := by
  induction fuel generalizing s i with
  | zero => exact ⟨Nat.zero_le _, (by intro r a e; cases e)⟩
  | succ fuel ih =>
    have h := parseReferenceable_spent s i
    have hle := h.le
    unfold referenceablesLoopT
    split
    · rename_i r _ s' n heq
      have h1 := h.ok (by rw [heq])
      rw [heq] at h1
      obtain ⟨h2, h3⟩ := ih s' r
      simp only at h1 ⊢
      exact ⟨by omega, fun r' a e => by have := h3 r' a e; omega⟩
    all_goals
      rename_i heq
      rw [heq] at hle
      simp only at hle ⊢
      refine ⟨by omega, ?_⟩
      intro r a e
      cases e
    exact Nat.le_refl _

theorem callArray_spent (root : Option Nat) (s : St) (i : Bytes) :
    Spent (32 * i.length) 2 (fun _ => 29) (parseCallArrayT root s i) := by
  refine library_bind_spent (c := fun _ => 30) (d := 1) (by intro; exact Nat.le_refl _) fun _ s i => ?_
  refine (arraySingleObject_spent parseClasses_spent parseReferenceable_spent s i).bind fun ⟨id, vs⟩ s r _ => ?_
  simp only
  split
  · exact .other (by intro _ _ e; cases e)
  · exact .ret (Nat.le_refl _)

omit [Platform] in
theorem optT_le {p : TP α} {s : St} {i : Bytes} {n : Nat} (h : (p s i).2 ≤ n)
    (hr : ∀ r a, (p s i).1.1 = .ok r a → r.length ≤ i.length) :
    (optT p s i).2 ≤ n ∧ ∀ r a, (optT p s i).1.1 = .ok r a → r.length ≤ i.length := by
  unfold optT
  revert h hr
  generalize p s i = x
  obtain ⟨⟨o, s'⟩, m⟩ := x
  intro h hr
  cases o with
  | ok r a =>
    refine ⟨h, fun r' a' e => ?_⟩
    simp only [Timed.map, Res.map, Outcome.map, Outcome.ok.injEq] at e
    rw [← e.1]
    exact hr r a rfl
  | error e => exact ⟨h, (by intro r a e; cases e; exact Nat.le_refl _)⟩
  | _ => exact ⟨h, (by intro r a e; cases e)⟩

omit [Platform] in
theorem Timed.bind_ok {r : Bytes} {a : α} {s : St} {n : Nat} {f : α → St → Bytes → Timed β} :
    Timed.bind ((.ok r a, s), n) f = ((f a s r).1, n + (f a s r).2) := rfl

omit [Platform] in
/-- The work of a sequence, with lengths. -/
theorem bind_le {x : Timed α} {f : α → St → Bytes → Timed β} {n : Nat} {m : Nat → Nat} {L : Nat}
    (hx : x.2 ≤ n) (hl : ∀ r a, x.1.1 = .ok r a → r.length ≤ L)
    (hf : ∀ a s r, r.length ≤ L → (f a s r).2 ≤ m L ∧ ∀ r' b, (f a s r).1.1 = .ok r' b → r'.length ≤ L) :
    (x.bind f).2 ≤ n + m L ∧ ∀ r b, (x.bind f).1.1 = .ok r b → r.length ≤ L := by
  obtain ⟨⟨o, s⟩, k⟩ := x
  cases o with
  | ok r a =>
    have h1 := hl r a rfl
    obtain ⟨h2, h3⟩ := hf a s r h1
    simp only at hx
    exact ⟨by simp only [Timed.bind]; omega, h3⟩
  | _ => exact ⟨by simp only [Timed.bind] at hx ⊢; omega, (by intro r a e; cases e)⟩

/-- The tail of a method record: the call array and the arguments. -/
theorem tail_le (root : Option Nat) {f : Option (List Value) → St → Bytes → Timed β} (s : St) (i : Bytes)
    (hf : ∀ a s r, (f a s r).2 = 0 ∧ ∀ r' b, (f a s r).1.1 = .ok r' b → r' = r) :
    ((optT (parseCallArrayT root) s i).bind f).2 ≤ 32 * i.length + 2 ∧
    ∀ r b, ((optT (parseCallArrayT root) s i).bind f).1.1 = .ok r b → r.length ≤ i.length := by
  have h := callArray_spent root s i
  have h1 := optT_le (p := parseCallArrayT root) (s := s) (i := i) h.le (fun r a e => by
    have := h.ok (show _ = (_, (parseCallArrayT root s i).1.2) from Prod.ext e rfl)
    omega)
  have h2 := bind_le (m := fun _ => 0) h1.1 h1.2 (f := f) fun a s r hr =>
    ⟨by rw [(hf a s r).1]; exact Nat.zero_le _, fun r' b e => by rw [(hf a s r).2 r' b e]; exact hr⟩
  exact ⟨by have := h2.1; omega, h2.2⟩

/-- A library and a method record whose type byte does not match, or the whole record. -/
theorem record_le {p : Parser α} (root : Option Nat) {f : α → Option (List Value) → St → Bytes → Timed β} (s : St)
    (i : Bytes) (hp : ∀ i, Eats p i) (hf : ∀ c a s r, (f c a s r).2 = 0 ∧ ∀ r' b, (f c a s r).1.1 = .ok r' b → r' = r) :
    ((binaryLibraryT s i).bind fun _ s i => (readT p s i).bind fun c s i =>
      (optT (parseCallArrayT root) s i).bind (f c)).2 ≤ 32 * i.length + 3 ∧
    (∀ r b, ((binaryLibraryT s i).bind fun _ s i => (readT p s i).bind fun c s i =>
      (optT (parseCallArrayT root) s i).bind (f c)).1.1 = .ok r b → r.length ≤ i.length) ∧
    ∀ e, ((binaryLibraryT s i).bind fun _ s i => (readT p s i).bind fun c s i =>
      (optT (parseCallArrayT root) s i).bind (f c)).1.1 = .error e →
      (∀ c a s r e, (f c a s r).1.1 ≠ .error e) →
      ((binaryLibraryT s i).bind fun _ s i => (readT p s i).bind fun c s i =>
        (optT (parseCallArrayT root) s i).bind (f c)).2 ≤ i.length + 2 := by
  have hl := library_spent s i
  have hlle := leaf_le i (BinaryLibrary.parse i)
  have hlok : ∀ r u s', (binaryLibraryT s i).1 = (.ok r u, s') → (r = i ∧ (binaryLibraryT s i).2 = 1) ∨
      (r.length + 1 ≤ i.length ∧ (binaryLibraryT s i).2 = i.length - r.length + 1) := fun r u s' e => library_ok e
  have hl2 : (binaryLibraryT s i).2 ≤ i.length + 1 := hlle
  have hlne : ∀ e, (binaryLibraryT s i).1.1 ≠ .error e := by
    intro e h
    unfold binaryLibraryT parseBinaryLibrary lift opt at h
    revert h
    cases BinaryLibrary.parse i with
    | ok r l => simp only [Outcome.map, Res.bind]; split <;> (intro h; cases h)
    | error e' => intro h; cases h
    | _ => intro h; cases h
  generalize binaryLibraryT s i = x at hl hlok hl2 hlne
  obtain ⟨⟨o, s1⟩, k⟩ := x
  cases o with
  | ok r u =>
    have hk := hlok r u s1 rfl
    simp only at hk
    have hkr : k + 32 * r.length ≤ 32 * i.length + 1 := by have := hl.ok rfl; simp only at this; omega
    have hri : r.length ≤ i.length ∧ k + r.length ≤ i.length + 1 := by
      rcases hk with ⟨rfl, _⟩ | ⟨_, _⟩ <;> omega
    have hr := readT_spent (s := s1) (hp r)
    simp only [Timed.bind_ok]
    cases hpr : p r with
    | ok r2 c =>
      have h2 := tail_le root (f := f c) s1 r2 (hf c)
      have hw := hr.ok (show _ = (Outcome.ok r2 c, s1) from by simp only [readT, hpr])
      simp only [readT, hpr, Timed.bind_ok] at hw ⊢
      refine ⟨by omega, fun r3 b e => ?_, fun e he hne => ?_⟩
      · have := h2.2 r3 b e; omega
      · exfalso
        revert he
        have hopt : ∀ e, (optT (parseCallArrayT root) s1 r2).1.1 ≠ .error e := by
          intro e h
          unfold optT at h
          revert h
          generalize parseCallArrayT root s1 r2 = y
          obtain ⟨⟨o, s'⟩, m⟩ := y
          cases o <;> (intro h; cases h)
        generalize optT (parseCallArrayT root) s1 r2 = y at hopt
        obtain ⟨⟨o, s'⟩, m⟩ := y
        cases o with
        | ok r3 a => exact hne c a s' r3 e
        | error e' => exact absurd rfl (hopt e')
        | _ => intro h; cases h
    | error e =>
      simp only [readT, hpr, leafWork, Timed.bind, miss_flat]
      exact ⟨by omega, (by intro _ _ e; cases e), fun _ _ _ => by omega⟩
    | _ =>
      simp only [readT, hpr, leafWork, Timed.bind]
      exact ⟨by omega, (by intro _ _ e; cases e), (by intro _ e; cases e)⟩
  | error e => exact absurd rfl (hlne e)
  | _ =>
    simp only [Timed.bind]
    simp only at hl2
    exact ⟨by omega, (by intro _ _ e; cases e), (by intro _ e; cases e)⟩

theorem methodCall_le (root : Option Nat) (s : St) (i : Bytes) :
    (parseMethodCallT root s i).2 ≤ 32 * i.length + 3 ∧
    (∀ r b, (parseMethodCallT root s i).1.1 = .ok r b → r.length ≤ i.length) ∧
    ∀ e, (parseMethodCallT root s i).1.1 = .error e → (parseMethodCallT root s i).2 ≤ i.length + 2 := by
  have h := record_le root (p := BinaryMethodCall.parse) (f := fun call callArray s i =>
    match parseArgs call.messageEnum callArray call.args with
    | some args => free (.ok i (⟨call.methodName, call.typeName, call.callContext, args⟩ : MethodCall), s)
    | none => free (.failure ⟨i, .invalidArgs⟩, s)) s i
    (fun i => eats (binaryMethodCall_good (List.suffix_refl i)))
    (fun c a s r => by
      split
      · exact ⟨rfl, (by intro r' b e; cases e; rfl)⟩
      · exact ⟨rfl, (by intro r' b e; cases e)⟩)
  exact ⟨h.1, h.2.1, fun e he => h.2.2 e he (by
    intro c a s r e
    split <;> (intro h; cases h))⟩

theorem methodReturn_le (root : Option Nat) (s : St) (i : Bytes) :
    (parseMethodReturnT root s i).2 ≤ 32 * i.length + 3 ∧
    (∀ r b, (parseMethodReturnT root s i).1.1 = .ok r b → r.length ≤ i.length) := by
  have h := record_le root (p := BinaryMethodReturn.parse) (f := fun ret callArray s i =>
    match parseArgs ret.messageEnum callArray ret.args with
    | some args =>
      free (.ok i (⟨ret.returnValue.map ValueWithCode.intoValue, ret.callContext, args⟩ : MethodReturn), s)
    | none => free (.failure ⟨i, .invalidArgs⟩, s)) s i
    (fun i => eats (binaryMethodReturn_good (List.suffix_refl i)))
    (fun c a s r => by
      split
      · exact ⟨rfl, (by intro r' b e; cases e; rfl)⟩
      · exact ⟨rfl, (by intro r' b e; cases e)⟩)
  exact ⟨h.1, h.2.1⟩

omit [Platform] in
theorem Timed.map_rest {x : Timed α} {f : α → β} {n : Nat} (h : ∀ r a, x.1.1 = .ok r a → r.length ≤ n) :
    ∀ r b, (x.map f).1.1 = .ok r b → r.length ≤ n := by
  obtain ⟨⟨o, s'⟩, k⟩ := x
  intro r b e
  cases o with
  | ok r' a =>
    simp only [Timed.map, Res.map, Outcome.map, Outcome.ok.injEq] at e
    rw [← e.1]
    exact h r' a rfl
  | _ => simp [Timed.map, Res.map, Outcome.map] at e

theorem method_le (root : Option Nat) (s : St) (i : Bytes) :
    (parseMethodCallOrReturnT root s i).2 ≤ 33 * i.length + 5 ∧
    ∀ r b, (parseMethodCallOrReturnT root s i).1.1 = .ok r b → r.length ≤ i.length := by
  obtain ⟨h1, h2, h3⟩ := methodCall_le root s i
  unfold parseMethodCallOrReturnT altMutT
  have h2' := Timed.map_rest (f := (Sum.inl : MethodCall → MethodCall ⊕ MethodReturn)) h2
  have h3' : ∀ e s', ((parseMethodCallT root s i).map (Sum.inl : MethodCall → MethodCall ⊕ MethodReturn)).1 = (.error e, s') →
      ((parseMethodCallT root s i).map (Sum.inl : MethodCall → MethodCall ⊕ MethodReturn)).2 ≤ i.length + 2 :=
    fun e s' he => h3 e (by rw [Timed.map_error he])
  have h1' : ((parseMethodCallT root s i).map (Sum.inl : MethodCall → MethodCall ⊕ MethodReturn)).2 ≤ 32 * i.length + 3 := h1
  simp only
  generalize (parseMethodCallT root s i).map (Sum.inl : MethodCall → MethodCall ⊕ MethodReturn) = x at h1' h2' h3'
  obtain ⟨⟨o, s1⟩, k⟩ := x
  cases o with
  | error e =>
    have hk := h3' e s1 rfl
    obtain ⟨g1, g2⟩ := methodReturn_le root s1 i
    have g2' := Timed.map_rest (f := (Sum.inr : MethodReturn → MethodCall ⊕ MethodReturn)) g2
    have g1' : ((parseMethodReturnT root s1 i).map (Sum.inr : MethodReturn → MethodCall ⊕ MethodReturn)).2 ≤ 32 * i.length + 3 := g1
    simp only [altMutT] at hk ⊢
    generalize (parseMethodReturnT root s1 i).map (Sum.inr : MethodReturn → MethodCall ⊕ MethodReturn) = y at g1' g2'
    obtain ⟨⟨o, s2⟩, k2⟩ := y
    simp only at g1'
    cases o with
    | ok r a => exact ⟨by simp only; omega, g2'⟩
    | error e => exact ⟨by simp only [free]; omega, (by intro _ _ e; cases e)⟩
    | _ => exact ⟨by simp only; omega, (by intro _ _ e; cases e)⟩
  | ok r a => exact ⟨by simp only at h1' ⊢; omega, h2'⟩
  | _ => exact ⟨by simp only at h1' ⊢; omega, (by intro _ _ e; cases e)⟩

theorem work_le (w : Bytes) : work (fun _ => 1) w ≤ 100 * (w.length + 1) := by
  have hpost : ∀ (hd : SerializationHeader) (s : St) (i : Bytes), i.length + 1 ≤ w.length →
      ((parseReferenceablesT s i).bind fun _ s i =>
        (optT (parseMethodCallOrReturnT hd.rootId) s i).bind fun m s i =>
        (parseReferenceablesT s i).bind fun _ s i =>
        (readT MessageEnd.parse s i).bind fun _ s i =>
          if i.isEmpty then (selectRoot hd.rootId m s i, 1)
          else free (.error ⟨i, .trailingData⟩, s)).2 ≤ 98 * i.length + 31 := by
    intro hd s i hi
    have loop : ∀ (s : St) (r : Bytes), r.length ≤ i.length → (parseReferenceablesT s r).2 ≤ 32 * i.length + 12 ∧
        ∀ r' a, (parseReferenceablesT s r).1.1 = .ok r' a → r'.length ≤ i.length := by
      intro s r hr
      have h := loop_spent (r.length + 1) s r
      unfold parseReferenceablesT
      exact ⟨by omega, fun r' a e => by have := h.2 r' a e; omega⟩
    have hend : ∀ (m : Option (MethodCall ⊕ MethodReturn)) (s : St) (r : Bytes), r.length ≤ i.length →
        ((readT MessageEnd.parse s r).bind fun _ s i =>
          if i.isEmpty then (selectRoot hd.rootId m s i, 1)
          else free (.error ⟨i, .trailingData⟩, s)).2 ≤ i.length + 2 := by
      intro m s r hr
      have h1 := leaf_le r (MessageEnd.parse r)
      have h0 : (readT MessageEnd.parse s r).2 ≤ r.length + 1 := h1
      generalize readT MessageEnd.parse s r = x at h0
      obtain ⟨⟨o, s'⟩, k⟩ := x
      simp only at h0
      cases o with
      | ok r' u =>
        simp only [Timed.bind]
        split
        · simp only; omega
        · simp only [free]; omega
      | _ => simp only [Timed.bind]; omega
    have step2 : ∀ (m : Option (MethodCall ⊕ MethodReturn)) (s : St) (r : Bytes), r.length ≤ i.length →
        ((parseReferenceablesT s r).bind fun _ s i => (readT MessageEnd.parse s i).bind fun _ s i =>
          if i.isEmpty then (selectRoot hd.rootId m s i, 1)
          else free (.error ⟨i, .trailingData⟩, s)).2 ≤ 33 * i.length + 14 := by
      intro m s r hr
      obtain ⟨h1, h2⟩ := loop s r hr
      generalize parseReferenceablesT s r = x at h1 h2
      obtain ⟨⟨o, s'⟩, k⟩ := x
      simp only at h1
      cases o with
      | ok r' u =>
        have := hend m s' r' (h2 r' u rfl)
        simp only [Timed.bind] at this ⊢
        omega
      | _ => simp only [Timed.bind]; omega
    obtain ⟨h1, h2⟩ := loop s i (Nat.le_refl _)
    generalize parseReferenceablesT s i = x at h1 h2
    obtain ⟨⟨o, s1⟩, k1⟩ := x
    simp only at h1
    cases o with
    | ok r1 u =>
      have hr1 := h2 r1 u rfl
      have hm := method_le hd.rootId s1 r1
      have ho := optT_le (p := parseMethodCallOrReturnT hd.rootId) (s := s1) (i := r1) hm.1 hm.2
      simp only [Timed.bind]
      generalize optT (parseMethodCallOrReturnT hd.rootId) s1 r1 = y at ho
      obtain ⟨⟨o, s2⟩, k2⟩ := y
      obtain ⟨ho1, ho2⟩ := ho
      simp only at ho1
      cases o with
      | ok r2 m =>
        have := ho2 r2 m rfl
        have := step2 m s2 r2 (by omega)
        simp only [Timed.bind] at this ⊢
        omega
      | _ => simp only; omega
    | _ => simp only [Timed.bind]; omega
  unfold work parseRemotingMessageT
  have hg := eats (header_good (List.suffix_refl w))
  have h0 := leaf_le w (SerializationHeader.parse w)
  cases hh : SerializationHeader.parse w with
  | ok r hd =>
    have hr := hg r hd hh
    have := hpost hd St.init r hr
    simp only [readT, hh, leafWork]
    rw [Timed.bind_ok]
    show _ + _ ≤ _
    refine Nat.le_trans (Nat.add_le_add_left this _) ?_
    omega
  | _ =>
    simp only [readT, hh, leafWork, Timed.bind]
    omega

end Nrbf
