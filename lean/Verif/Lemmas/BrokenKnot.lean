import Verif.Lemmas.BrokenRec

/-! # What the stateful parsers report: classes, arrays, the knot -/

set_option autoImplicit false

namespace Nrbf
open Spec

variable {α β : Type} [Platform] {L : Nat} {classes : SP (Nat × Object)} {referenceable : SP Nat}

/-! ## Classes -/

omit [Platform] in
theorem objectId_report {i : Bytes} : (∃ r id, objectId i = .ok r id) ∨ ∃ e, objectId i = .failure e := by
  unfold objectId Int32.parse
  cases h : leSigned 4 i with
  | ok r z =>
    simp only [Outcome.at, Outcome.mapErr, Outcome.intoFailure, Outcome.bind]
    split
    · exact .inl ⟨_, _, rfl⟩
    · exact .inr ⟨_, rfl⟩
  | error e => exact .inr ⟨_, rfl⟩
  | failure e => exact .inr ⟨_, rfl⟩
  | panic =>
    exfalso
    unfold leSigned leUnsigned at h
    rcases takeN_cases 4 i with ⟨_, _, h', _⟩ | ⟨h', _⟩ <;> rw [h'] at h <;> cases h
  | diverge =>
    exfalso
    unfold leSigned leUnsigned at h
    rcases takeN_cases 4 i with ⟨_, _, h', _⟩ | ⟨h', _⟩ <;> rw [h'] at h <;> cases h

omit [Platform] in
theorem classHeader_state (s : St) (i : Bytes) : (classHeader s i).2 = s := by
  unfold classHeader
  split
  · split <;> rfl
  all_goals rfl

omit [Platform] in
/-- ClassWithId is never accepted. -/
theorem classWithId_bmatch {s : St} (hs : s.classes = []) (i : Bytes) :
    BMatch (classHeader s (1 :: i)) (fun o E' => (BadId i o ∨ After IsId (fun id r => BadId r o ∨
      After IsId (fun metadata _ => (metadata = id ∧ o = fatal r .invalidMetadataId) ∨
        (metadata ≠ id ∧ o = fatal (1 :: i) .missingMetadataId)) r) i) ∧ E' = abs s) := by
  have key : verdict (classHeader s (1 :: i)).1 = verdict ((objectId i).bind fun id r =>
      (objectId r).bind fun metadata _ => if metadata = id then (.failure ⟨r, .invalidMetadataId⟩ : Outcome Error Unit)
        else .failure ⟨1 :: i, .missingMetadataId⟩) := by
    have hrt : RecordType.classWithId.parse (1 :: i) = .ok i .classWithId := rfl
    unfold classHeader ClassWithId.parse
    rw [hrt]
    simp only [Outcome.bind]
    rcases objectId_report (i := i) with ⟨r, id, h⟩ | ⟨e, h⟩
    · simp only [h]
      rcases objectId_report (i := r) with ⟨r2, id2, h2⟩ | ⟨e, h2⟩
      · simp only [h2]
        by_cases he : id2 = id
        · simp only [if_pos he]; rfl
        · simp only [if_neg he, hs, AMap.get?]; rfl
      · simp only [h2]; rfl
    · simp only [h]; rfl
  refine BMatch.still hs (classHeader_state s _) fun o => ?_
  rw [key]
  have := Broken.bind objectId_exact objectId_broken (q := fun id r =>
      (objectId r).bind fun metadata _ => if metadata = id then (.failure ⟨r, .invalidMetadataId⟩ : Outcome Error Unit)
        else .failure ⟨1 :: i, .missingMetadataId⟩) (C := fun id r o => BadId r o ∨
      After IsId (fun metadata _ => (metadata = id ∧ o = fatal r .invalidMetadataId) ∨
        (metadata ≠ id ∧ o = fatal (1 :: i) .missingMetadataId)) r) (fun id r o => ?_) i o
  · exact this
  · have := Broken.bind objectId_exact objectId_broken (q := fun metadata _ => if metadata = id then
        (.failure ⟨r, .invalidMetadataId⟩ : Outcome Error Unit) else .failure ⟨1 :: i, .missingMetadataId⟩)
      (C := fun metadata _ o => (metadata = id ∧ o = fatal r .invalidMetadataId) ∨
        (metadata ≠ id ∧ o = fatal (1 :: i) .missingMetadataId)) (fun metadata r' o => ?_) r o
    · exact this
    · simp only
      split
      · rename_i h
        simp only [h, verdict, fatal, Option.some.injEq, true_and, ne_eq, not_true_eq_false, false_and, or_false]
        exact eq_comm
      · rename_i h
        simp only [h, verdict, fatal, Option.some.injEq, false_and, ne_eq, not_false_eq_true, true_and, false_or]
        exact eq_comm

omit [Platform] in
theorem classHeader_bmatch {s : St} (hs : s.classes = []) (i : Bytes) :
    BMatch (classHeader s i) (fun o E' => BadClassHead i o ∧ E' = abs s) := by
  by_cases h1 : i.head? = some 1
  · cases i with
    | nil => cases h1
    | cons x i =>
      cases h1
      refine (classWithId_bmatch hs i).congr fun o E' => and_congr ?_ Iff.rfl
      constructor
      · intro h; exact .inr (.inl ⟨i, rfl, h⟩)
      · rintro (⟨h, _⟩ | ⟨r, e, h⟩ | ⟨tag, ht, r, e, h⟩)
        · exact absurd rfl (h 1 (by simp))
        · cases e; exact h
        · cases e; simp at ht
  · obtain ⟨e, he⟩ := classWithId_mismatch h1
    have hx : (classHeader s i).1 = (alt ClassWithMembers.parse
      [ClassWithMembersAndTypes.parse, SystemClassWithMembers.parse,
       SystemClassWithMembersAndTypes.parse] i).map fun c => (c.objectId, c) := by
      unfold classHeader
      rw [he]
    have m3 : i.head? ≠ some 3 → ∃ e, ClassWithMembers.parse i = .error e := fun h => by
      unfold ClassWithMembers.parse; rw [tagged_mismatch h]; exact ⟨_, rfl⟩
    have m5 : i.head? ≠ some 5 → ∃ e, ClassWithMembersAndTypes.parse i = .error e := fun h => by
      unfold ClassWithMembersAndTypes.parse; rw [tagged_mismatch h]; exact ⟨_, rfl⟩
    have m2 : i.head? ≠ some 2 → ∃ e, SystemClassWithMembers.parse i = .error e := fun h => by
      unfold SystemClassWithMembers.parse; rw [tagged_mismatch h]; exact ⟨_, rfl⟩
    have m4 : i.head? ≠ some 4 → ∃ e, SystemClassWithMembersAndTypes.parse i = .error e := fun h => by
      unfold SystemClassWithMembersAndTypes.parse; rw [tagged_mismatch h]; exact ⟨_, rfl⟩
    have one : ∀ (tag : UInt8) o, tag ∈ [2, 3, 4, 5] → i.head? = some tag →
        (BadTagged tag (BadClassRest tag) i o ↔ BadClassHead i o) := by
      intro tag o ht h
      constructor
      · rintro (⟨hn, _⟩ | ⟨r, rfl, h'⟩)
        · exact absurd h hn
        · exact .inr (.inr ⟨tag, ht, r, rfl, h'⟩)
      · rintro (⟨hn, _⟩ | ⟨r, rfl, _⟩ | ⟨tag', ht', r, rfl, h'⟩)
        · exact absurd h (hn tag (List.mem_cons_of_mem _ ht))
        · exact absurd rfl h1
        · cases h; exact .inr ⟨r, rfl, h'⟩
    refine BMatch.still hs (classHeader_state s _) fun o => ?_
    rw [hx, verdict_map]
    by_cases h3 : i.head? = some 3
    · rw [alt_first, classWithMembers_broken i o]
      · exact one 3 o (by simp) h3
      · rw [alt_error (m5 (by rw [h3]; decide)), alt_error (m2 (by rw [h3]; decide))]
        exact m4 (by rw [h3]; decide)
    rw [alt_error (m3 h3)]
    by_cases h5 : i.head? = some 5
    · rw [alt_first, classWithMembersAndTypes_broken i o]
      · exact one 5 o (by simp) h5
      · rw [alt_error (m2 (by rw [h5]; decide))]
        exact m4 (by rw [h5]; decide)
    rw [alt_error (m5 h5)]
    by_cases h2 : i.head? = some 2
    · rw [alt_first, systemClassWithMembers_broken i o]
      · exact one 2 o (by simp) h2
      · exact m4 (by rw [h2]; decide)
    rw [alt_error (m2 h2)]
    show verdict (SystemClassWithMembersAndTypes.parse i) = some o ↔ _
    by_cases h4 : i.head? = some 4
    · rw [systemClassWithMembersAndTypes_broken i o]
      exact one 4 o (by simp) h4
    obtain ⟨e4, he4⟩ := m4 h4
    rw [he4]
    simp only [verdict, Option.some.injEq]
    constructor
    · rintro rfl
      refine .inl ⟨?_, rfl⟩
      intro tag ht
      simp only [List.mem_cons, List.not_mem_nil, or_false] at ht
      rcases ht with rfl | rfl | rfl | rfl | rfl <;> assumption
    · rintro (⟨_, rfl⟩ | ⟨r, rfl, _⟩ | ⟨tag', ht', r, rfl, h'⟩)
      · rfl
      · exact absurd rfl h1
      · exfalso
        simp only [List.mem_cons, List.not_mem_nil, or_false] at ht'
        rcases ht' with rfl | rfl | rfl | rfl
        · exact h2 rfl
        · exact h3 rfl
        · exact h4 rfl
        · exact h5 rfl

theorem classMembers_bmatch (hsem : RecSem L classes referenceable) (hbad : RecBad L classes referenceable)
    {s : St} (hs : s.classes = []) {i : Bytes} (hl : i.length < L) (e : Bytes) (h : ClassHead) :
    BMatch (classMembers classes e (classOf h) s i) (fun o E' =>
      (∃ l, h.library = some l ∧ (abs s).libs l = none ∧ o = fatal e .missingLibraryId ∧ E' = abs s) ∨
      ∃ library, h.HasLibrary (abs s) library ∧ BadMembers h.memberTypes (abs s) i o E') := by
  obtain ⟨id, name, names, types, library⟩ := h
  have fin : ∀ (x : Res (List ValueOrRef)) (ts : List (Option MemberType)), BMatch x (BadMembers ts (abs s) i) →
      ∀ lib : Option Str, ClassHead.HasLibrary ⟨id, name, names, types, library⟩ (abs s) lib →
      ClassHead.memberTypes ⟨id, name, names, types, library⟩ = ts →
      BMatch (x.map (lib, ·)) (fun o E' =>
        (∃ l, library = some l ∧ (abs s).libs l = none ∧ o = fatal e .missingLibraryId ∧ E' = abs s) ∨
        ∃ lib, ClassHead.HasLibrary ⟨id, name, names, types, library⟩ (abs s) lib ∧
          BadMembers (ClassHead.memberTypes ⟨id, name, names, types, library⟩) (abs s) i o E') := by
    intro x ts hx lib hlib hts
    refine (hx.map _).congr fun o E' => ?_
    rw [hts]
    constructor
    · intro h; exact .inr ⟨lib, hlib, h⟩
    · rintro (⟨l, rfl, h, _⟩ | ⟨_, _, h⟩)
      · obtain ⟨name, h', _⟩ := hlib
        rw [h] at h'; cases h'
      · exact h
  have nolib : ∀ l, library = some l → s.libs.get? l = none →
      BMatch ((.failure ⟨e, .missingLibraryId⟩, s) : Res (Option Str × List ValueOrRef)) (fun o E' =>
        (∃ l, library = some l ∧ (abs s).libs l = none ∧ o = fatal e .missingLibraryId ∧ E' = abs s) ∨
        ∃ lib, ClassHead.HasLibrary ⟨id, name, names, types, library⟩ (abs s) lib ∧
          BadMembers (ClassHead.memberTypes ⟨id, name, names, types, library⟩) (abs s) i o E') := by
    rintro l rfl h
    have h' : (abs s).libs l = none := h
    refine (BMatch.failure hs).congr fun o E' => ?_
    constructor
    · rintro ⟨rfl, rfl⟩; exact .inl ⟨l, rfl, h', rfl, rfl⟩
    · rintro (⟨_, _, _, rfl, rfl⟩ | ⟨lib, ⟨name, h'', _⟩, _⟩)
      · exact ⟨rfl, rfl⟩
      · rw [h'] at h''; cases h''
  cases types with
  | none =>
    have hm := untypedMembers_bmatch hsem hbad hs hl none names.length
    cases library with
    | none => exact fin _ _ hm none rfl rfl
    | some l =>
      simp only [classOf, classMembers]
      cases hlib : s.libs.get? l with
      | none => exact nolib l rfl hlib
      | some library => exact fin _ _ hm (some library) ⟨library, hlib, rfl⟩ rfl
  | some ts =>
    have hm := typedMembers_bmatch hsem hbad hs hl ts
    cases library with
    | none => exact fin _ _ hm none rfl rfl
    | some l =>
      simp only [classOf, classMembers]
      cases hlib : s.libs.get? l with
      | none => exact nolib l rfl hlib
      | some library => exact fin _ _ hm (some library) ⟨library, hlib, rfl⟩ rfl

theorem classesBody_bmatch (hsem : RecSem L classes referenceable) (hbad : RecBad L classes referenceable)
    {s : St} (hs : s.classes = []) {i : Bytes} (hl : i.length < L + 1) :
    BMatch (classesBody classes referenceable s i) (BadClass (abs s) i) := by
  unfold classesBody
  refine (BMatch.bind (library_match hs i) (library_bmatch hs i) (C := fun _ E1 i1 o E' => (BadClassHead i1 o ∧ E' = E1) ∨
    ∃ h b i2, IsClassHead h b ∧ i1 = b ++ i2 ∧
      (((∃ l, h.library = some l ∧ E1.libs l = none ∧ o = fatal i1 .missingLibraryId ∧ E' = E1) ∨
        ∃ library, h.HasLibrary E1 library ∧ BadMembers h.memberTypes E1 i2 o E') ∨
      ∃ library slots E2 i3, h.HasLibrary E1 library ∧ Members h.memberTypes E1 i2 slots E2 i3 ∧
        BadResolve slots E2 i3 o E')) fun _ s i hs _ hli => ?_).congr fun o E' => ?_
  · refine (BMatch.bind (classHeader_match hs i) (classHeader_bmatch hs i) (C := fun c E1 i2 o E' =>
      ∃ h, c = (h.id, classOf h) ∧
      (((∃ l, h.library = some l ∧ E1.libs l = none ∧ o = fatal i .missingLibraryId ∧ E' = E1) ∨
        ∃ library, h.HasLibrary E1 library ∧ BadMembers h.memberTypes E1 i2 o E') ∨
      ∃ library slots E2 i3, h.HasLibrary E1 library ∧ Members h.memberTypes E1 i2 slots E2 i3 ∧
        BadResolve slots E2 i3 o E')) fun c s1 i1 hs1 hc hl1 => ?_).congr fun o E' => ?_
    · obtain ⟨hE, h, b, rfl, hb, rfl⟩ := hc
      simp only
      rw [hs1]
      simp only [AMap.get?, Option.isSome_none, Bool.false_eq_true, ↓reduceIte]
      refine (BMatch.bind (classMembers_match hsem hs1 (i := i1) (by omega) _ h)
        (classMembers_bmatch hsem hbad hs1 (i := i1) (by omega) _ h)
        (C := fun x E2 i3 o E' => BadResolve (x.2.map slotOf) E2 i3 o E')
        fun x s2 i2 hs2 hx hl2 => ?_).congr fun o E' => ?_
      · obtain ⟨library, ms⟩ := x
        refine (BMatch.bind (resolve_match hsem hs2 (i := i2) (by omega) ms)
          (resolve_bmatch hsem hbad hs2 (i := i2) (by omega) ms) (C := fun _ _ _ _ _ => False)
          fun values s3 i3 hs3 _ hl3 => BMatch.ret).congr fun o E' => ?_
        constructor
        · rintro (h | ⟨_, _, _, _, h⟩)
          · exact h
          · exact h.elim
        · exact .inl
      · constructor
        · rintro (h1 | ⟨⟨library, ms⟩, E2, i3, ⟨h1, h2⟩, h3⟩)
          · exact ⟨h, rfl, .inl h1⟩
          · exact ⟨h, rfl, .inr ⟨library, _, E2, i3, h1, h2, h3⟩⟩
        · rintro ⟨h', heq, h1 | ⟨library, slots, E2, i3, h1, h2, h3⟩⟩
          · simp only [Prod.mk.injEq] at heq
            obtain rfl := classOf_inj heq.2
            exact .inl h1
          · simp only [Prod.mk.injEq] at heq
            obtain rfl := classOf_inj heq.2
            rw [← map_ofSlot slots] at h2 h3
            exact .inr ⟨(library, _), E2, i3, ⟨h1, h2⟩, h3⟩
    · constructor
      · rintro (h | ⟨c, E1, i1, ⟨rfl, h, b, rfl, hb, rfl⟩, h', heq, h1⟩)
        · exact .inl h
        · simp only [Prod.mk.injEq] at heq
          obtain rfl := classOf_inj heq.2
          exact .inr ⟨h, b, i1, hb, rfl, h1⟩
      · rintro (h | ⟨h, b, i2, hb, rfl, h1⟩)
        · exact .inl h
        · exact .inr ⟨_, _, _, ⟨rfl, h, b, rfl, hb, rfl⟩, h, rfl, h1⟩
  · constructor
    · rintro (h | ⟨_, E1, i1, hlib, ⟨h, rfl⟩ | ⟨h, b, i2, hb, rfl, (⟨l, h1, h2, rfl, rfl⟩ | ⟨library, h1, h2⟩) |
        ⟨library, slots, E2, i3, h1, h2, h3⟩⟩⟩)
      · exact .library h
      · exact .head hlib h
      · exact .unknownLibrary hlib hb h1 h2
      · exact .members hlib hb h1 h2
      · exact .references hlib hb h1 h2 h3
    · intro h
      cases h with
      | library h => exact .inl h
      | head hlib h => exact .inr ⟨(), _, _, hlib, .inl ⟨h, rfl⟩⟩
      | unknownLibrary hlib hb h1 h2 =>
        exact .inr ⟨(), _, _, hlib, .inr ⟨_, _, _, hb, rfl, .inl (.inl ⟨_, h1, h2, rfl, rfl⟩)⟩⟩
      | members hlib hb h1 h2 =>
        exact .inr ⟨(), _, _, hlib, .inr ⟨_, _, _, hb, rfl, .inl (.inr ⟨_, h1, h2⟩)⟩⟩
      | references hlib hb h1 h2 h3 =>
        exact .inr ⟨(), _, _, hlib, .inr ⟨_, _, _, hb, rfl, .inr ⟨_, _, _, _, h1, h2, h3⟩⟩⟩

/-! ## Arrays -/

theorem arrayLoop_bmatch (hsem : RecSem L classes referenceable) (hbad : RecBad L classes referenceable)
    (T : Option MemberType) (fuel len : Nat) (acc : List ValueOrRef) (hf : len - acc.length ≤ fuel) {s : St}
    (hs : s.classes = []) {i : Bytes} (hl : i.length < L) :
    BMatch (arrayLoop (memberOf classes T) fuel len acc s i) (BadFill T (len - acc.length) (abs s) i) := by
  have done : len - acc.length = 0 → ∀ o E', False ↔ BadFill T (len - acc.length) (abs s) i o E' := by
    intro h o E'
    constructor
    · exact False.elim
    · intro h'
      cases h' with
      | here h0 => omega
      | later h0 => omega
  induction fuel generalizing acc s i with
  | zero =>
    unfold arrayLoop
    rw [if_neg (by omega)]
    exact BMatch.ret.congr (done (by omega))
  | succ fuel ih =>
    unfold arrayLoop
    split
    · rename_i hlt
      refine (BMatch.bind (memberOf_match hsem hs hl T) (memberOf_bmatch hsem hbad hs hl T)
        (C := fun m E1 i1 o E' => BadFill T (len - acc.length - (slotOf m).size) E1 i1 o E')
        fun m s1 i1 hs1 hm hl1 => ?_).congr fun o E' => ?_
      · have hsz := member_size hm
        have go : ∀ (x : List ValueOrRef), x.length = (slotOf m).size →
            BMatch (arrayLoop (memberOf classes T) fuel len (acc ++ x) s1 i1)
              (BadFill T (len - acc.length - (slotOf m).size) (abs s1) i1) := by
          intro x hx
          have e : len - acc.length - (slotOf m).size = len - (acc ++ x).length := by
            rw [List.length_append, hx]; omega
          rw [e]
          refine ih (acc ++ x) (by rw [← e]; omega) hs1 (by omega) fun h o E' => ?_
          constructor
          · exact False.elim
          · intro h'
            cases h' with
            | here h0 => omega
            | later h0 => omega
        cases m with
        | null n => exact go (List.replicate n (.value .null)) (by simp [slotOf, Slot.size])
        | value v => exact go [.value v] rfl
        | ref id => exact go [.ref id] rfl
      · constructor
        · rintro (h | ⟨m, E1, i1, h1, h2⟩)
          · exact .here (by omega) h
          · exact .later (by omega) h1 h2
        · intro h
          cases h with
          | here h0 h => exact .inl h
          | @later _ _ _ _ slot _ _ _ _ h0 h1 h2 =>
            have e : slotOf (ofSlot slot) = slot := by cases slot <;> rfl
            exact .inr ⟨ofSlot slot, _, _, e.symm ▸ h1, e.symm ▸ h2⟩
    · exact BMatch.ret.congr (done (by omega))

theorem arrayOf_bmatch (hsem : RecSem L classes referenceable) (hbad : RecBad L classes referenceable)
    (T : Option MemberType) {tag : UInt8} {p : Parser ArrayInfo}
    (hp : Exact p (fun a b => IsArrayHead tag a.objectId a.length b)) (hb : Broken p (BadTagged tag BadArrayInfo))
    {s : St} (hs : s.classes = []) {i : Bytes} (hl : i.length < L + 1) :
    BMatch ((lift p s i).bind fun info s i =>
        (arrayLoop (memberOf classes T) info.length info.length [] s i).bind fun members s i =>
        (resolveMembers referenceable members s i).map fun vs => (info.objectId, vs))
      (fun o E' => (BadTagged tag BadArrayInfo i o ∧ E' = abs s) ∨
        ∃ id len b i1, IsArrayHead tag id len b ∧ i = b ++ i1 ∧ (BadFill T len (abs s) i1 o E' ∨
          ∃ slots E2 i2, Fill T len (abs s) i1 slots E2 i2 ∧ BadResolve slots E2 i2 o E')) := by
  refine (BMatch.bind (Match.stateless hp (k := 1) (fun _ _ h => arrayHead_length h) hs i) (.lift hb hs i)
    (C := fun info E1 i1 o E' => BadFill T info.length E1 i1 o E' ∨ ∃ slots E2 i2, Fill T info.length E1 i1 slots E2 i2 ∧
      BadResolve slots E2 i2 o E') fun info s1 i1 hs1 _ hl1 => ?_).congr fun o E' => ?_
  · refine (BMatch.bind (arrayLoop_match hsem T info.length info.length [] (by simp) hs1 (i := i1) (by omega))
      (arrayLoop_bmatch hsem hbad T info.length info.length [] (by simp) hs1 (i := i1) (by omega))
      (C := fun ms E2 i2 o E' => BadResolve (ms.map slotOf) E2 i2 o E')
      fun ms s2 i2 hs2 _ hl2 => (resolve_bmatch hsem hbad hs2 (i := i2) (by omega) ms).map _).congr fun o E' => ?_
    constructor
    · rintro (h | ⟨_, E2, i2, ⟨ms, rfl, h1⟩, h2⟩)
      · exact .inl h
      · simp only [List.nil_append, badResolve_expand] at h2
        exact .inr ⟨_, E2, i2, h1, h2⟩
    · rintro (h | ⟨slots, E2, i2, h1, h2⟩)
      · exact .inl h
      · rw [← map_ofSlot slots] at h1 h2
        refine .inr ⟨_, E2, i2, ⟨_, rfl, h1⟩, ?_⟩
        simp only [List.nil_append, badResolve_expand]
        exact h2
  · constructor
    · rintro (h | ⟨info, E1, i1, ⟨rfl, b, hb, rfl⟩, h⟩)
      · exact .inl h
      · exact .inr ⟨info.objectId, info.length, b, i1, hb, rfl, h⟩
    · rintro (h | ⟨id, len, b, i1, hb, rfl, h⟩)
      · exact .inl h
      · exact .inr ⟨⟨id, len⟩, _, i1, ⟨rfl, b, hb, rfl⟩, h⟩

theorem arraySinglePrimitive_bmatch {s : St} (hs : s.classes = []) (i : Bytes) :
    BMatch (arraySinglePrimitive s i) (fun o E' => (
      BadTagged 15 (fun i o => BadArrayInfo i o ∨ After (fun (_ : Unit) b => ∃ id len bid blen,
        IsId id bid ∧ IsLength len blen ∧ b = bid ++ blen) (fun _ i => BadPrimitiveType i o) i) i o ∨
      ∃ id len t b i1, IsPrimitiveArrayHead id len t b ∧ i = b ++ i1 ∧
        BadMany (IsPrimitive t) (BadPrimitive t) len i1 o) ∧ E' = abs s) := by
  have hb : Broken ArraySinglePrimitive.parse (BadTagged 15 (fun i o => BadArrayInfo i o ∨
      After (fun (_ : Unit) b => ∃ id len bid blen, IsId id bid ∧ IsLength len blen ∧ b = bid ++ blen)
        (fun _ i => BadPrimitiveType i o) i)) := by
    refine tagged_broken (t := .arraySinglePrimitive) ((Broken.bind arrayInfo_exact arrayInfo_broken fun info =>
      primitiveType_broken.bind_pure fun t => (info, t)).congr fun i o => or_congr Iff.rfl ?_)
    constructor
    · rintro ⟨⟨id, len⟩, b, r, ⟨bid, blen, h1, h2, rfl⟩, rfl, h⟩
      exact ⟨(), _, r, ⟨id, len, bid, blen, h1, h2, rfl⟩, rfl, h⟩
    · rintro ⟨_, b, r, ⟨id, len, bid, blen, h1, h2, rfl⟩, rfl, h⟩
      exact ⟨⟨id, len⟩, _, r, ⟨bid, blen, h1, h2, rfl⟩, rfl, h⟩
  unfold arraySinglePrimitive
  refine (BMatch.lift (Broken.bind arraySinglePrimitive_exact hb fun x =>
    (Broken.count (untyped_exact x.2) ((untyped_broken x.2).map _) x.1.length).map
      fun vs => (x.1.objectId, vs)) hs i).congr fun o E' => and_congr (or_congr Iff.rfl ?_) Iff.rfl
  constructor
  · rintro ⟨⟨info, t⟩, b, r, h, rfl, h'⟩; exact ⟨_, _, _, b, r, h, rfl, h'⟩
  · rintro ⟨id, len, t, b, r, h, rfl, h'⟩; exact ⟨(⟨id, len⟩, t), b, r, h, rfl, h'⟩

theorem binaryArray_bmatch (hsem : RecSem L classes referenceable) (hbad : RecBad L classes referenceable)
    {s : St} (hs : s.classes = []) {i : Bytes} (hl : i.length < L + 1) :
    BMatch (binaryArray classes referenceable s i) (fun o E' => (BadTagged 7 BadBinaryArrayHead i o ∧ E' = abs s) ∨
      ∃ id kind lengths T b i1, IsBinaryArrayHead id kind lengths T b ∧ i = b ++ i1 ∧
        ((productUsize 1 lengths = none ∧ o = fatal i .invalidLength ∧ E' = abs s) ∨
         ∃ n, productUsize 1 lengths = some n ∧ (BadMembers (List.replicate n (some T)) (abs s) i1 o E' ∨
          ∃ slots E2 i2, Members (List.replicate n (some T)) (abs s) i1 slots E2 i2 ∧
            BadResolve slots E2 i2 o E'))) := by
  unfold binaryArray
  refine (BMatch.bind (Match.stateless binaryArray_exact (k := 1) ?_ hs i) (.lift binaryArray_broken hs i)
    (C := fun a E1 i1 o E' => ∃ T, a.typeEnum = binaryType T ∧ a.additionalTypeInfo = typeInfo T ∧
      ((productUsize 1 a.lengths = none ∧ o = fatal i .invalidLength ∧ E' = E1) ∨
         ∃ n, productUsize 1 a.lengths = some n ∧ (BadMembers (List.replicate n (some T)) E1 i1 o E' ∨
          ∃ slots E2 i2, Members (List.replicate n (some T)) E1 i1 slots E2 i2 ∧
            BadResolve slots E2 i2 o E')))
    fun a s1 i1 hs1 ha hl1 => ?_).congr fun o E' => or_congr Iff.rfl ?_
  · rintro a b ⟨T, _, _, _, _, _, _, _, _, _, _, _, _, _, rfl⟩; simp
  · obtain ⟨_, _, ⟨T, hT, hI, _⟩, _⟩ := ha
    have hTT : ∀ T', a.typeEnum = binaryType T' → a.additionalTypeInfo = typeInfo T' → T' = T := by
      intro T' h1 h2
      exact memberType_inj (h1.symm.trans hT) (h2.symm.trans hI)
    rw [checkedProduct_spec]
    cases hn : productUsize 1 a.lengths with
    | none =>
      refine (BMatch.failure hs1).congr fun o E' => ?_
      constructor
      · rintro ⟨rfl, rfl⟩; exact ⟨T, hT, hI, .inl ⟨rfl, rfl, rfl⟩⟩
      · rintro ⟨_, _, _, ⟨_, rfl, rfl⟩ | ⟨n, h, _⟩⟩
        · exact ⟨rfl, rfl⟩
        · cases h
    | some n =>
      have hm := untypedMembers_match hsem hs1 (i := i1) (by omega) (some T) n
      have hb := untypedMembers_bmatch hsem hbad hs1 (i := i1) (by omega) (some T) n
      simp only [memberOf, ← hT, ← hI] at hm hb
      refine (BMatch.bind hm hb (C := fun ms E2 i2 o E' => BadResolve (ms.map slotOf) E2 i2 o E')
        fun ms s2 i2 hs2 _ hl2 => ?_).congr fun o E' => ?_
      · refine (BMatch.bind (resolve_match hsem hs2 (i := i2) (by omega) ms)
          (resolve_bmatch hsem hbad hs2 (i := i2) (by omega) ms) (C := fun _ _ _ _ _ => False)
          fun vs s3 i3 hs3 _ hl3 => ?_).congr fun o E' => ?_
        · cases hre : reshape (a.lengths.drop 1).reverse vs <;> exact (BMatch.silent rfl).mpr fun _ _ => id
        · constructor
          · rintro (h | ⟨_, _, _, _, h⟩)
            · exact h
            · exact h.elim
          · exact .inl
      · constructor
        · rintro (h | ⟨ms, E2, i2, h1, h2⟩)
          · exact ⟨T, hT, hI, .inr ⟨n, rfl, .inl h⟩⟩
          · exact ⟨T, hT, hI, .inr ⟨n, rfl, .inr ⟨_, E2, i2, h1, h2⟩⟩⟩
        · rintro ⟨T', h1, h2, ⟨h, _⟩ | ⟨n', hn', h | ⟨slots, E2, i2, h3, h4⟩⟩⟩
          · cases h
          · obtain rfl := hTT T' h1 h2
            cases hn'
            exact .inl h
          · obtain rfl := hTT T' h1 h2
            cases hn'
            rw [← map_ofSlot slots] at h3 h4
            exact .inr ⟨_, E2, i2, h3, h4⟩
  · constructor
    · rintro ⟨a, E1, i1, ⟨rfl, b, ⟨T', hT', hI', bid, brank, blens, bbounds, binfo, g1, g2, g3, g4, g5, g6, rfl⟩, rfl⟩,
        T, hT, hI, h⟩
      obtain rfl := memberType_inj (hT.symm.trans hT') (hI.symm.trans hI')
      refine ⟨a.objectId, a.binaryArrayTypeEnum, a.lengths, T, _, i1,
        ⟨bid, brank, blens, bbounds, binfo, g1, g2, g3, fun h => ?_,
          fun h => (g5 h).2, g6, rfl⟩, rfl, h⟩
      obtain ⟨bounds, _, h6, h7⟩ := g4 h
      exact ⟨bounds, h6, h7⟩
    · rintro ⟨id, kind, lengths, T, b, i1, ⟨bid, brank, blens, bbounds, binfo, g1, g2, g3, g4, g5, g6, rfl⟩, rfl, h⟩
      by_cases hk : hasLowerBounds kind
      · obtain ⟨bounds, h6, h7⟩ := g4 hk
        exact ⟨⟨id, kind, lengths, some bounds, binaryType T, typeInfo T⟩, _, i1,
          ⟨rfl, _, ⟨T, rfl, rfl, bid, brank, blens, bbounds, binfo, g1, g2, g3,
            fun _ => ⟨bounds, rfl, h6, h7⟩, fun h => absurd hk h, g6, rfl⟩, rfl⟩,
          T, rfl, rfl, h⟩
      · exact ⟨⟨id, kind, lengths, none, binaryType T, typeInfo T⟩, _, i1,
          ⟨rfl, _, ⟨T, rfl, rfl, bid, brank, blens, bbounds, binfo, g1, g2, g3,
            fun h => absurd h hk, fun h => ⟨rfl, g5 h⟩, g6, rfl⟩, rfl⟩,
          T, rfl, rfl, h⟩

/-! ## Referenceables -/

omit [Platform] in
/-- The first alternative, when the others are a mismatch. -/
theorem altMut_bfirst {p : SP α} {ps : List (SP α)} {s : St} {i : Bytes} {B : Report → Env → Prop}
    (hp : BMatch (p s i) B) (h : ∀ s', ∃ e, altMut ps s' i = (.error e, s')) :
    BMatch (altMut (p :: ps) s i) B := by
  simp only [altMut]
  cases hx : p s i with
  | mk x s1 =>
    rw [hx] at hp
    cases x with
    | error e =>
      obtain ⟨e', h'⟩ := h s1
      simp only [h']
      exact hp
    | _ => exact hp

theorem badRecord_tag {E : Env} {i : Bytes} {o : Report} {E' : Env} (h : BadRecord E i o E') :
    (o = none ∧ E' = E ∧ ∀ tag ∈ [1, 2, 3, 4, 5, 6, 7, 12, 15, 16, 17], i.head? ≠ some tag) ∨
    ((∃ tag ∈ [1, 2, 3, 4, 5], i.head? = some tag) ∧ BadClass E i o E') ∨
    (i.head? = some 12 ∧ ((∃ e, o = some e ∧ BadClass E i o E') ∨ (o = none ∧ E' = E ∧ NoLibrary i) ∨
      ∃ id name b r E1, i = b ++ r ∧ IsLibrary id name b ∧ BadClass E i none E1 ∧ o = fatal r .duplicateLibraryId ∧
        E' = E1.addLib id name)) ∨
    (i.head? = some 16 ∧ ((BadTagged 16 BadArrayInfo i o ∧ E' = E) ∨ ∃ id len b i1, IsArrayHead 16 id len b ∧
        i = b ++ i1 ∧ (BadFill none len E i1 o E' ∨ ∃ slots E2 i2, Fill none len E i1 slots E2 i2 ∧
          BadResolve slots E2 i2 o E'))) ∨
    (i.head? = some 17 ∧ ((BadTagged 17 BadArrayInfo i o ∧ E' = E) ∨ ∃ id len b i1, IsArrayHead 17 id len b ∧
        i = b ++ i1 ∧ (BadFill (some .stringArray) len E i1 o E' ∨
          ∃ slots E2 i2, Fill (some .stringArray) len E i1 slots E2 i2 ∧ BadResolve slots E2 i2 o E'))) ∨
    (i.head? = some 15 ∧ (BadTagged 15 (fun i o => BadArrayInfo i o ∨ After (fun (_ : Unit) b => ∃ id len bid blen,
        IsId id bid ∧ IsLength len blen ∧ b = bid ++ blen) (fun _ i => BadPrimitiveType i o) i) i o ∨
      ∃ id len t b i1, IsPrimitiveArrayHead id len t b ∧ i = b ++ i1 ∧
        BadMany (IsPrimitive t) (BadPrimitive t) len i1 o) ∧ E' = E) ∨
    (i.head? = some 7 ∧ ((BadTagged 7 BadBinaryArrayHead i o ∧ E' = E) ∨
      ∃ id kind lengths T b i1, IsBinaryArrayHead id kind lengths T b ∧ i = b ++ i1 ∧
        ((productUsize 1 lengths = none ∧ o = fatal i .invalidLength ∧ E' = E) ∨
         ∃ n, productUsize 1 lengths = some n ∧ (BadMembers (List.replicate n (some T)) E i1 o E' ∨
          ∃ slots E2 i2, Members (List.replicate n (some T)) E i1 slots E2 i2 ∧
            BadResolve slots E2 i2 o E')))) ∨
    (i.head? = some 6 ∧ BadObjectString i o ∧ E' = E) := by
  cases h with
  | tag h => exact .inl ⟨rfl, rfl, h⟩
  | object h1 h2 => exact .inr (.inl ⟨h1, h2⟩)
  | libraryObject h1 h2 => exact .inr (.inr (.inl ⟨h1, .inl ⟨_, rfl, h2⟩⟩))
  | library h1 h2 => exact .inr (.inr (.inl ⟨(by obtain ⟨_, _, _, _, rfl⟩ := h1; rfl), .inr (.inr ⟨_, _, _, _, _, rfl, h1, h2, rfl, rfl⟩)⟩))
  | noLibrary h1 h2 => exact .inr (.inr (.inl ⟨h1, .inr (.inl ⟨rfl, rfl, h2⟩)⟩))
  | objectArrayHead h => exact .inr (.inr (.inr (.inl ⟨rfl, .inl ⟨.inr ⟨_, rfl, h⟩, rfl⟩⟩)))
  | objectArrayElements h1 h2 =>
    exact .inr (.inr (.inr (.inl ⟨arrayHead_head h1, .inr ⟨_, _, _, _, h1, rfl, .inl h2⟩⟩)))
  | objectArrayReferences h1 h2 h3 =>
    exact .inr (.inr (.inr (.inl ⟨arrayHead_head h1, .inr ⟨_, _, _, _, h1, rfl, .inr ⟨_, _, _, h2, h3⟩⟩⟩)))
  | stringArrayHead h => exact .inr (.inr (.inr (.inr (.inl ⟨rfl, .inl ⟨.inr ⟨_, rfl, h⟩, rfl⟩⟩))))
  | stringArrayElements h1 h2 =>
    exact .inr (.inr (.inr (.inr (.inl ⟨arrayHead_head h1, .inr ⟨_, _, _, _, h1, rfl, .inl h2⟩⟩))))
  | stringArrayReferences h1 h2 h3 =>
    exact .inr (.inr (.inr (.inr (.inl ⟨arrayHead_head h1, .inr ⟨_, _, _, _, h1, rfl, .inr ⟨_, _, _, h2, h3⟩⟩⟩))))
  | primitiveArrayHead h => exact .inr (.inr (.inr (.inr (.inr (.inl ⟨rfl, .inl (.inr ⟨_, rfl, .inl h⟩), rfl⟩)))))
  | primitiveArrayType h1 h2 =>
    obtain ⟨bid, blen, g1, g2, rfl⟩ := h1
    exact .inr (.inr (.inr (.inr (.inr (.inl ⟨rfl, .inl (.inr ⟨_, rfl, .inr
      ⟨(), _, _, ⟨_, _, bid, blen, g1, g2, rfl⟩, rfl, h2⟩⟩), rfl⟩)))))
  | primitiveArrayElements h1 h2 =>
    exact .inr (.inr (.inr (.inr (.inr (.inl ⟨primitiveArrayHead_head h1, .inr ⟨_, _, _, _, _, h1, rfl, h2⟩, rfl⟩)))))
  | arrayHead h => exact .inr (.inr (.inr (.inr (.inr (.inr (.inl ⟨rfl, .inl ⟨.inr ⟨_, rfl, h⟩, rfl⟩⟩))))))
  | arraySize h1 h2 =>
    exact .inr (.inr (.inr (.inr (.inr (.inr (.inl ⟨binaryArrayHead_head h1,
      .inr ⟨_, _, _, _, _, _, h1, rfl, .inl ⟨h2, rfl, rfl⟩⟩⟩))))))
  | arrayElements h1 h2 h3 =>
    exact .inr (.inr (.inr (.inr (.inr (.inr (.inl ⟨binaryArrayHead_head h1,
      .inr ⟨_, _, _, _, _, _, h1, rfl, .inr ⟨_, h2, .inl h3⟩⟩⟩))))))
  | arrayReferences h1 h2 h3 h4 =>
    exact .inr (.inr (.inr (.inr (.inr (.inr (.inl ⟨binaryArrayHead_head h1,
      .inr ⟨_, _, _, _, _, _, h1, rfl, .inr ⟨_, h2, .inr ⟨_, _, _, h3, h4⟩⟩⟩⟩))))))
  | string h1 h2 => exact .inr (.inr (.inr (.inr (.inr (.inr (.inr ⟨h1, h2, rfl⟩))))))

theorem arraysBody_plain {s : St} {i : Bytes} (h : i.head? ≠ some 12) :
    arraysBody classes referenceable s i = altMut [arraySingleObject classes referenceable, arraySinglePrimitive,
        arraySingleString classes referenceable, binaryArray classes referenceable] s i := by
  unfold arraysBody
  rw [lib_none h]
  rfl

theorem arraysBody_mismatch {s : St} {i : Bytes} (h : i.head? ≠ some 12) (ha : ¬ ArrayByte i) :
    ∃ e, arraysBody classes referenceable s i = (.error e, s) := by
  rw [arraysBody_plain h]
  exact arrays_other ha

theorem arrays_bmatch (hsem : RecSem L classes referenceable) (hbad : RecBad L classes referenceable)
    {s : St} (hs : s.classes = []) {i : Bytes} (hl : i.length < L + 1) (ha : ArrayByte i) :
    BMatch (altMut [arraySingleObject classes referenceable, arraySinglePrimitive,
        arraySingleString classes referenceable, binaryArray classes referenceable] s i) (BadRecord (abs s) i) := by
  have last : ∀ s', ∃ e, altMut (α := Nat × List Value) [] s' i = (.error e, s') := fun s' => ⟨_, rfl⟩
  have skip : ∀ {p : SP (Nat × List Value)} {ps : List (SP (Nat × List Value))},
      (∀ s', ∃ e, p s' i = (.error e, s')) → (∀ s', ∃ e, altMut ps s' i = (.error e, s')) →
      ∀ s', ∃ e, altMut (p :: ps) s' i = (.error e, s') := by
    intro p ps h1 h2 s'
    rw [altMut_skip (h1 s')]
    exact h2 s'
  by_cases h16 : i.head? = some 16
  · refine altMut_bfirst ((arrayOf_bmatch hsem hbad none arraySingleObject_exact
      (tagged_broken arrayInfo_broken) hs hl).congr fun o E' => ?_)
      (skip (arraySinglePrimitive_mismatch (by rw [h16]; decide))
        (skip (arraySingleString_mismatch (by rw [h16]; decide))
          (skip (binaryArray_mismatch (by rw [h16]; decide)) last)))
    constructor
    · rintro (⟨⟨h, _⟩ | ⟨r, rfl, h⟩, rfl⟩ | ⟨id, len, b, i1, hb, rfl, h | ⟨slots, E2, i2, h1, h2⟩⟩)
      · exact absurd h16 h
      · exact .objectArrayHead h
      · exact .objectArrayElements hb h
      · exact .objectArrayReferences hb h1 h2
    · intro h
      rcases badRecord_tag h with ⟨_, _, h'⟩ | ⟨⟨tag, ht, h'⟩, _⟩ | ⟨h', _⟩ | ⟨_, h⟩ | ⟨h', _⟩ | ⟨h', _⟩ | ⟨h', _⟩ | ⟨h', _⟩
      · exact absurd h16 (h' 16 (by simp))
      · rw [h16] at h'; cases h'; simp at ht
      · rw [h16] at h'; cases h'
      · exact h
      all_goals rw [h16] at h'; cases h'
  rw [altMut_skip (arraySingleObject_mismatch h16 s)]
  by_cases h15 : i.head? = some 15
  · refine altMut_bfirst ((arraySinglePrimitive_bmatch hs i).congr fun o E' => ?_)
        (skip (arraySingleString_mismatch (by rw [h15]; decide))
          (skip (binaryArray_mismatch (by rw [h15]; decide)) last))
    constructor
    · rintro ⟨(⟨h, _⟩ | ⟨r, rfl, h | ⟨_, b, r', ⟨id, len, bid, blen, h1, h2, rfl⟩, rfl, h⟩⟩) |
        ⟨id, len, t, b, i1, hb, rfl, h⟩, rfl⟩
      · exact absurd h15 h
      · exact .primitiveArrayHead h
      · exact .primitiveArrayType (b := 15 :: (bid ++ blen)) ⟨bid, blen, h1, h2, rfl⟩ h
      · exact .primitiveArrayElements hb h
    · intro h
      rcases badRecord_tag h with ⟨_, _, h'⟩ | ⟨⟨tag, ht, h'⟩, _⟩ | ⟨h', _⟩ | ⟨h', _⟩ | ⟨h', _⟩ | ⟨_, h⟩ | ⟨h', _⟩ | ⟨h', _⟩
      · exact absurd h15 (h' 15 (by simp))
      · rw [h15] at h'; cases h'; simp at ht
      · rw [h15] at h'; cases h'
      · rw [h15] at h'; cases h'
      · rw [h15] at h'; cases h'
      · exact h
      all_goals rw [h15] at h'; cases h'
  rw [altMut_skip (arraySinglePrimitive_mismatch h15 s)]
  by_cases h17 : i.head? = some 17
  · refine altMut_bfirst ((arrayOf_bmatch hsem hbad (some .stringArray) arraySingleString_exact
      (tagged_broken arrayInfo_broken) hs hl).congr fun o E' => ?_)
          (skip (binaryArray_mismatch (by rw [h17]; decide)) last)
    constructor
    · rintro (⟨⟨h, _⟩ | ⟨r, rfl, h⟩, rfl⟩ | ⟨id, len, b, i1, hb, rfl, h | ⟨slots, E2, i2, h1, h2⟩⟩)
      · exact absurd h17 h
      · exact .stringArrayHead h
      · exact .stringArrayElements hb h
      · exact .stringArrayReferences hb h1 h2
    · intro h
      rcases badRecord_tag h with ⟨_, _, h'⟩ | ⟨⟨tag, ht, h'⟩, _⟩ | ⟨h', _⟩ | ⟨h', _⟩ | ⟨_, h⟩ | ⟨h', _⟩ | ⟨h', _⟩ | ⟨h', _⟩
      · exact absurd h17 (h' 17 (by simp))
      · rw [h17] at h'; cases h'; simp at ht
      · rw [h17] at h'; cases h'
      · rw [h17] at h'; cases h'
      · exact h
      all_goals rw [h17] at h'; cases h'
  rw [altMut_skip (arraySingleString_mismatch h17 s)]
  have h7 : i.head? = some 7 := by
    rcases ha with h | h | h | h
    · exact absurd h h16
    · exact absurd h h15
    · exact absurd h h17
    · exact h
  refine altMut_bfirst ((binaryArray_bmatch hsem hbad hs hl).congr fun o E' => ?_) last
  constructor
  · rintro (⟨⟨h, _⟩ | ⟨r, rfl, h⟩, rfl⟩ | ⟨id, kind, lengths, T, b, i1, hb, rfl, ⟨h, rfl, rfl⟩ | ⟨n, hn, h | ⟨slots, E2, i2, h1, h2⟩⟩⟩)
    · exact absurd h7 h
    · exact .arrayHead h
    · exact .arraySize hb h
    · exact .arrayElements hb hn h
    · exact .arrayReferences hb hn h1 h2
  · intro h
    rcases badRecord_tag h with ⟨_, _, h'⟩ | ⟨⟨tag, ht, h'⟩, _⟩ | ⟨h', _⟩ | ⟨h', _⟩ | ⟨h', _⟩ | ⟨h', _⟩ | ⟨_, h⟩ | ⟨h', _⟩
    · exact absurd h7 (h' 7 (by simp))
    · rw [h7] at h'; cases h'; simp at ht
    · rw [h7] at h'; cases h'
    · rw [h7] at h'; cases h'
    · rw [h7] at h'; cases h'
    · rw [h7] at h'; cases h'
    · exact h
    · rw [h7] at h'; cases h'

/-- The three alternatives of `parse_referenceable`. -/
abbrev refAlts (classes : SP (Nat × Object)) (referenceable : SP Nat) : List (SP (Nat × Value)) :=
  [fun s i => (classesBody classes referenceable s i).map fun o => (o.1, o.2.toValue),
   fun s i => (arraysBody classes referenceable s i).map fun a => (a.1, Value.array a.2),
   lift fun i => (BinaryObjectString.parse i).map fun b => (b.objectId, Value.string b.value)]

theorem alternatives_bmatch (hsem : RecSem L classes referenceable) (hbad : RecBad L classes referenceable)
    (hm : LibMono classes) (hmr : LibMono referenceable) {s : St} (hs : s.classes = []) {i : Bytes}
    (hl : i.length < L + 1) : BMatch (altMut (refAlts classes referenceable) s i) (BadRecord (abs s) i) := by
  have hcls := classesBody_bmatch hsem hbad hs hl
  have last : ∀ s', ∃ e, altMut (α := Nat × Value) [] s' i = (.error e, s') := fun s' => ⟨_, rfl⟩
  have noArr : i.head? ≠ some 12 → ¬ ArrayByte i → i.head? ≠ some 6 → ∀ s', ∃ e,
      altMut (refAlts classes referenceable).tail s' i = (.error e, s') := by
    intro h12 ha h6 s'
    obtain ⟨e, he⟩ := arraysBody_mismatch (classes := classes) (referenceable := referenceable) (s := s') h12 ha
    simp only [refAlts, List.tail_cons]
    rw [altMut_skip ⟨e, by simp only [he]; rfl⟩, altMut_skip (objectString_mismatch h6 s')]
    exact last _
  by_cases hc : ∃ tag ∈ [1, 2, 3, 4, 5], i.head? = some tag
  · have ne : ∀ tag' : UInt8, tag' ∉ [1, 2, 3, 4, 5] → i.head? ≠ some tag' := by
      rintro tag' hn h
      obtain ⟨tag, ht, h'⟩ := hc
      rw [h] at h'
      cases h'
      exact hn ht
    refine altMut_bfirst ((hcls.map _).congr fun o E' => ?_) (noArr (ne 12 (by decide)) ?_ (ne 6 (by decide)))
    · constructor
      · exact .object hc
      · intro h
        rcases badRecord_tag h with ⟨_, _, h'⟩ | ⟨_, h⟩ | ⟨h', _⟩ | ⟨h', _⟩ | ⟨h', _⟩ | ⟨h', _⟩ | ⟨h', _⟩ | ⟨h', _⟩
        · obtain ⟨tag, ht, h''⟩ := hc
          refine absurd h'' (h' tag ?_)
          simp only [List.mem_cons, List.not_mem_nil, or_false] at ht ⊢
          rcases ht with rfl | rfl | rfl | rfl | rfl <;> simp
        · exact h
        all_goals exact absurd h' (ne _ (by decide))
    · rintro (h | h | h | h)
      · exact ne 16 (by decide) h
      · exact ne 15 (by decide) h
      · exact ne 17 (by decide) h
      · exact ne 7 (by decide) h
  have h1 : i.head? ≠ some 1 := fun h => hc ⟨1, by simp, h⟩
  by_cases h12 : i.head? = some 12
  · have only12 : ∀ {o E'}, BadRecord (abs s) i o E' → ((∃ e, o = some e ∧ BadClass (abs s) i o E') ∨
        (o = none ∧ E' = abs s ∧ NoLibrary i) ∨
        ∃ id name b r E1, i = b ++ r ∧ IsLibrary id name b ∧ BadClass (abs s) i none E1 ∧
          o = fatal r .duplicateLibraryId ∧ E' = E1.addLib id name) := by
      intro o E' h
      rcases badRecord_tag h with ⟨_, _, h'⟩ | ⟨⟨tag, ht, h'⟩, _⟩ | ⟨_, h⟩ | ⟨h', _⟩ | ⟨h', _⟩ | ⟨h', _⟩ | ⟨h', _⟩ | ⟨h', _⟩
      · exact absurd h12 (h' 12 (by simp))
      · exact absurd ⟨tag, ht, h'⟩ hc
      · exact h
      all_goals rw [h12] at h'; cases h'
    have na : ¬ ArrayByte i := by
      rintro (h | h | h | h) <;> rw [h12] at h <;> cases h
    have noLib : NoLibrary i → BadClass (abs s) i none (abs s) := fun hq =>
      .head (.none hq) (.inl ⟨fun tag ht h' => hc ⟨tag, ht, h'⟩, rfl⟩)
    cases hx : classesBody classes referenceable s i with
    | mk x s1 =>
      rw [hx] at hcls
      have quiet : (∀ o, verdict x ≠ some o) → ∀ y : Res (Nat × Value), verdict y.1 = none →
          BMatch y (BadRecord (abs s) i) := by
        intro hv y hy
        have hnc : ∀ o E', ¬ BadClass (abs s) i o E' := fun o E' h => hv o (hcls.2 o E' h).1
        refine (BMatch.silent hy).mpr fun o E' h => ?_
        rcases only12 h with ⟨e', rfl, hq⟩ | ⟨rfl, rfl, hq⟩ | ⟨id, name, b', r', E1, e', hb', hq, rfl, rfl⟩
        · exact hnc _ _ hq
        · exact hnc _ _ (noLib hq)
        · exact hnc _ _ hq
      cases x with
      | error e =>
        obtain ⟨hs1, hv⟩ := (BMatch.single (x := (.error e, s1)) (o := none) rfl).mp hcls
        have hnc : ∀ e E', ¬ BadClass (abs s) i (some e) E' := fun e E' h => by
          have := ((hv _ _).mp h).1; cases this
        have hbc : BadClass (abs s) i none (abs s1) := (hv _ _).mpr ⟨rfl, rfl⟩
        cases hp : BinaryLibrary.parse i with
        | ok r l =>
          obtain ⟨s2, h2, _, _, rfl⟩ := library_twice hm hmr hp hx
          obtain ⟨b, hb, rfl⟩ := (library_exact _ _ _).mp hp
          simp only [altMut, hx, h2, Res.map, Outcome.map]
          refine (BMatch.failure (by exact hs1)).congr fun o E' => ?_
          have hE : abs { s1 with libs := s1.libs.insert l.libraryId l.libraryName } =
              (abs s1).addLib l.libraryId l.libraryName := abs_lib ..
          rw [hE]
          constructor
          · rintro ⟨rfl, rfl⟩; exact .library hb hbc
          · intro h
            rcases only12 h with ⟨e, rfl, h⟩ | ⟨rfl, rfl, hno⟩ | ⟨id, name, b', r', E1, e, hb', hq, rfl, rfl⟩
            · exact absurd h (hnc e _)
            · obtain ⟨e, he⟩ := library_error_iff.mpr hno
              rw [he] at hp; cases hp
            · rw [(library_exact _ _ ⟨id, name⟩).mpr ⟨b', hb', e⟩] at hp
              cases hp
              rw [((hv _ _).mp hq).2]
              exact ⟨rfl, rfl⟩
        | error e' =>
          have hno : NoLibrary i := library_error_iff.mp ⟨e', hp⟩
          have ha : ∃ e, arraysBody classes referenceable s1 i = (.error e, s1) := by
            unfold arraysBody
            rw [opt_lib_none hp]
            exact arrays_other na
          obtain ⟨e2, h2⟩ := ha
          obtain ⟨e3, h3⟩ := objectString_mismatch (i := i) (by rw [h12]; decide) s1
          have hres : altMut (refAlts classes referenceable) s i = (.error (Error.fromErrorKind i ErrorKind.alt), s1) := by
            rw [refAlts, altMut]
            simp only [hx]
            show altMut _ s1 i = _
            rw [altMut_skip ⟨e2, by simp only [h2]; rfl⟩, altMut_skip ⟨e3, h3⟩]
            rfl
          rw [hres]
          have hE : abs s = abs s1 := ((hv _ _).mp (noLib hno)).2
          refine (BMatch.single (x := (.error (Error.fromErrorKind i ErrorKind.alt), s1)) (o := none) rfl).mpr
            ⟨hs1, fun o E' => ?_⟩
          constructor
          · intro h
            rcases only12 h with ⟨e, rfl, h⟩ | ⟨rfl, rfl, h⟩ | ⟨id, name, b', r', E1, e, hb', _, rfl, rfl⟩
            · exact absurd h (hnc e _)
            · exact ⟨rfl, hE⟩
            · rw [(library_exact _ _ ⟨id, name⟩).mpr ⟨b', hb', e⟩] at hp
              cases hp
          · rintro ⟨rfl, rfl⟩
            have := BadRecord.noLibrary (E := abs s) h12 hno
            rw [hE] at this ⊢
            exact this
        | failure e' =>
          obtain ⟨r, rfl, h⟩ := library_failure.mp hp
          exact absurd (.library (.inl ⟨r, rfl, h, rfl⟩)) (hnc e' (abs s))
        | panic => exact absurd hp (library_total i).1
        | diverge => exact absurd hp (library_total i).2
      | failure e =>
        obtain ⟨hs1, hv⟩ := (BMatch.single (x := (.failure e, s1)) (o := some e) rfl).mp hcls
        have hnc : ∀ E', ¬ BadClass (abs s) i none E' := fun E' h => by
          have := ((hv _ _).mp h).1; cases this
        simp only [altMut, hx, Res.map, Outcome.map]
        refine (BMatch.failure hs1).congr fun o E' => ?_
        constructor
        · rintro ⟨rfl, rfl⟩; exact .libraryObject h12 ((hv _ _).mpr ⟨rfl, rfl⟩)
        · intro h
          rcases only12 h with ⟨e', rfl, hq⟩ | ⟨rfl, rfl, hq⟩ | ⟨id, name, b', r', E1, e', hb', hq, rfl, rfl⟩
          · exact (hv _ _).mp hq
          · exact absurd (noLib hq) (hnc _)
          · exact absurd hq (hnc _)
      | ok r a =>
        simp only [altMut, hx, Res.map, Outcome.map]
        exact quiet (by simp [verdict]) _ rfl
      | panic =>
        simp only [altMut, hx, Res.map, Outcome.map]
        exact quiet (by simp [verdict]) _ rfl
      | diverge =>
        simp only [altMut, hx, Res.map, Outcome.map]
        exact quiet (by simp [verdict]) _ rfl
  have hcb : ¬ ClassByte i := by
    rintro (h | h | h | h | h)
    · exact h12 h
    all_goals exact hc ⟨_, by simp, h⟩
  obtain ⟨e, he⟩ := classesBody_other (classes := classes) (referenceable := referenceable) (s := s) hcb h1
  rw [refAlts, altMut_skip ⟨e, by simp only [he]; rfl⟩]
  by_cases ha : ArrayByte i
  · have h6 : i.head? ≠ some 6 := by
      rcases ha with h | h | h | h <;> rw [h] <;> decide
    refine altMut_bfirst ?_ (fun s' => ?_)
    · simp only [arraysBody_plain h12]
      exact (arrays_bmatch hsem hbad hs hl ha).map _
    · rw [altMut_skip (objectString_mismatch h6 s')]
      exact last _
  · obtain ⟨e, he⟩ := arraysBody_mismatch (classes := classes) (referenceable := referenceable) (s := s) h12 ha
    rw [altMut_skip ⟨e, by simp only [he]; rfl⟩]
    refine altMut_bfirst ((BMatch.lift (objectString_broken.map _) hs i).congr fun o E' => ?_) last
    unfold ArrayByte at ha
    simp only [not_or] at ha
    constructor
    · rintro ⟨h, rfl⟩
      by_cases h6 : i.head? = some 6
      · exact .string h6 h
      · rcases h with ⟨_, rfl⟩ | ⟨r, rfl, _⟩
        · refine .tag fun tag ht => ?_
          simp only [List.mem_cons, List.not_mem_nil, or_false] at ht
          rcases ht with rfl | rfl | rfl | rfl | rfl | rfl | rfl | rfl | rfl | rfl | rfl
          · exact h1
          · exact fun h => hc ⟨2, by simp, h⟩
          · exact fun h => hc ⟨3, by simp, h⟩
          · exact fun h => hc ⟨4, by simp, h⟩
          · exact fun h => hc ⟨5, by simp, h⟩
          · exact h6
          · exact ha.2.2.2
          · exact h12
          · exact ha.2.1
          · exact ha.1
          · exact ha.2.2.1
        · exact absurd rfl h6
    · intro h
      rcases badRecord_tag h with ⟨rfl, rfl, h'⟩ | ⟨⟨tag, ht, h'⟩, _⟩ | ⟨h', _⟩ | ⟨h', _⟩ | ⟨h', _⟩ | ⟨h', _⟩ | ⟨h', _⟩ | ⟨_, h⟩
      · exact ⟨.inl ⟨h' 6 (by simp), rfl⟩, rfl⟩
      · exact absurd ⟨tag, ht, h'⟩ hc
      · exact absurd h' h12
      · exact absurd h' ha.1
      · exact absurd h' ha.2.2.1
      · exact absurd h' ha.2.1
      · exact absurd h' ha.2.2.2
      · exact h

theorem referenceableBody_bmatch (hsem : RecSem L classes referenceable) (hbad : RecBad L classes referenceable)
    (hm : LibMono classes) (hmr : LibMono referenceable) {s : St} (hs : s.classes = []) {i : Bytes}
    (hl : i.length < L + 1) :
    BMatch (referenceableBody (classesBody classes referenceable) (arraysBody classes referenceable) s i)
      (BadRecord (abs s) i) := by
  unfold referenceableBody
  refine (BMatch.bind (referenceable_alt_match hsem hm hmr hs hl) (alternatives_bmatch hsem hbad hm hmr hs hl)
    (C := fun _ _ _ _ _ => False) fun x s1 i1 hs1 _ _ => ?_).congr fun o E' => ?_
  · exact BMatch.ret
  · constructor
    · rintro (h | ⟨_, _, _, _, h⟩)
      · exact h
      · exact h.elim
    · exact .inl

/-- What the parser functions report, on inputs shorter than the recursion depth. -/
theorem recBad (n : Nat) : RecBad n (recAt n).classes (recAt n).referenceable := by
  induction n with
  | zero => exact ⟨fun _ _ _ h => by omega, fun _ _ _ h => by omega⟩
  | succ n ih =>
    have hm := recAt_mono n
    exact ⟨fun s i hs hl => classesBody_bmatch (recSem n) ih hs hl,
      fun s i hs hl => referenceableBody_bmatch (recSem n) ih hm.1 hm.2 hs hl⟩

/-- What `parse_referenceable` reports. -/
theorem parseReferenceable_bmatch {s : St} (hs : s.classes = []) (i : Bytes) :
    BMatch (parseReferenceable s i) (BadRecord (abs s) i) :=
  (recBad (i.length + 1)).ref s i hs (by omega)

end Nrbf
