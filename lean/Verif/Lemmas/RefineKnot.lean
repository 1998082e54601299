import Verif.Lemmas.RefineRec

/-! # The stateful parsers against the declarative grammar: classes, arrays, the knot -/

namespace Nrbf
open Spec

variable {α β : Type} [Platform] {L : Nat} {classes : SP (Nat × Object)} {referenceable : SP Nat}

/-! ## Classes -/

omit [Platform] in
theorem classHead_length {h : ClassHead} {b : Bytes} (hb : IsClassHead h b) : 1 ≤ b.length := by
  obtain ⟨_, _, _, _, _, _, _, _, _, _, _, _, rfl⟩ := hb
  simp

omit [Platform] in
theorem classOf_id (h : ClassHead) : (classOf h).objectId = h.id ∧
    (classOf h).classInfo.name = h.name ∧ (classOf h).classInfo.memberNames = h.memberNames := by
  unfold classOf
  cases h.types <;> cases h.library <;> exact ⟨rfl, rfl, rfl⟩

omit [Platform] in
theorem classWithId_mismatch {i : Bytes} (h : i.head? ≠ some 1) :
    ∃ e, ClassWithId.parse i = .error e := by
  unfold ClassWithId.parse
  rw [tagged_mismatch h]
  exact ⟨_, rfl⟩

omit [Platform] in
theorem classHeader_match {s : St} (hs : s.classes = []) (i : Bytes) :
    Match (classHeader s i) i.length 1 (fun c E' r => E' = abs s ∧ ∃ h b, c = (h.id, classOf h) ∧
      IsClassHead h b ∧ i = b ++ r) := by
  by_cases h1 : i.head? = some 1
  · refine .never ?_ ?_
    · intro r a s'
      unfold classHeader
      split
      · rw [hs]; simp [AMap.get?]
      · rename_i e heq
        exfalso
        cases i with
        | nil => simp at h1
        | cons x i =>
          simp only [List.head?_cons, Option.some.injEq] at h1
          subst h1
          have hrt : RecordType.classWithId.parse (1 :: i) = .ok i .classWithId := rfl
          have nid : ∀ i e, objectId i ≠ .error e := by
            intro i e hid
            unfold objectId Int32.parse at hid
            revert hid
            cases leSigned 4 i <;>
              simp [Outcome.intoFailure, Outcome.at, Outcome.mapErr, Outcome.bind]
            split <;> simp
          unfold ClassWithId.parse at heq
          rw [hrt] at heq
          simp only [Outcome.bind] at heq
          cases h2 : objectId i with
          | error e => exact nid _ _ h2
          | ok r id =>
            rw [h2] at heq
            simp only at heq
            cases h3 : objectId r with
            | error e => exact nid _ _ h3
            | ok r id => rw [h3] at heq; simp only at heq; split at heq <;> cases heq
            | _ => rw [h3] at heq; cases heq
          | _ => rw [h2] at heq; cases heq
      all_goals simp
    · rintro c E r ⟨_, h, b, _, hb, rfl⟩
      rcases classHead_byte (r := r) hb with h | h | h | h <;> rw [h] at h1 <;> cases h1
  · obtain ⟨e, he⟩ := classWithId_mismatch h1
    have : classHeader s i = lift (fun i => (alt ClassWithMembers.parse
      [ClassWithMembersAndTypes.parse, SystemClassWithMembers.parse,
       SystemClassWithMembersAndTypes.parse] i).map fun c => (c.objectId, c)) s i := by
      unfold classHeader
      rw [he]
      rfl
    rw [this]
    refine (Match.stateless (classHead_exact.map fun c => (c.objectId, c)) (k := 1) ?_ hs i).congr
      fun c E' r => ?_
    · rintro c b ⟨_, ⟨h, _, hb⟩, _⟩
      exact classHead_length hb
    · constructor
      · rintro ⟨rfl, b, ⟨_, ⟨h, rfl, hb⟩, rfl⟩, rfl⟩
        exact ⟨rfl, h, b, by rw [(classOf_id h).1], hb, rfl⟩
      · rintro ⟨rfl, h, b, rfl, hb, rfl⟩
        exact ⟨rfl, b, ⟨_, ⟨h, rfl, hb⟩, by rw [(classOf_id h).1]⟩, rfl⟩

theorem classMembers_match (hsem : RecSem L classes referenceable) {s : St} (hs : s.classes = [])
    {i : Bytes} (hl : i.length < L) (e : Bytes) (h : ClassHead) :
    Match (classMembers classes e (classOf h) s i) i.length 0 (fun x E' r =>
      h.HasLibrary (abs s) x.1 ∧ Members h.memberTypes (abs s) i (x.2.map slotOf) E' r) := by
  obtain ⟨id, name, names, types, library⟩ := h
  have pair : ∀ (lib : Option Str) (ts : List (Option MemberType)) (x : Res (List ValueOrRef)),
      Match x i.length 0 (fun ms E' r => Members ts (abs s) i (ms.map slotOf) E' r) →
      Match (x.map (lib, ·)) i.length 0 (fun x E' r => x.1 = lib ∧
        Members ts (abs s) i (x.2.map slotOf) E' r) := by
    intro lib ts x hx
    refine (hx.map _).congr fun y E' r => ?_
    constructor
    · rintro ⟨ms, h, rfl⟩; exact ⟨rfl, h⟩
    · rintro ⟨rfl, h⟩; exact ⟨y.2, h, rfl⟩
  have noLib : ∀ (l : Nat) (ts : List (Option MemberType)), s.libs.get? l = none →
      Match ((.failure ⟨e, .missingLibraryId⟩, s) : Res (Option Str × List ValueOrRef)) i.length 0
        (fun x E' r => (∃ name, (abs s).libs l = some name ∧ x.1 = some name) ∧
          Members ts (abs s) i (x.2.map slotOf) E' r) := by
    intro l ts hl
    refine .never (by simp) ?_
    rintro x E r ⟨⟨name, h, _⟩, _⟩
    simp only [abs] at h
    rw [hl] at h
    cases h
  have withLib : ∀ (l : Nat) (library : Str) (ts : List (Option MemberType)) (x : Res (List ValueOrRef)),
      s.libs.get? l = some library →
      Match x i.length 0 (fun ms E' r => Members ts (abs s) i (ms.map slotOf) E' r) →
      Match (x.map (some library, ·)) i.length 0
        (fun x E' r => (∃ name, (abs s).libs l = some name ∧ x.1 = some name) ∧
          Members ts (abs s) i (x.2.map slotOf) E' r) := by
    intro l library ts x hl hx
    refine (pair (some library) ts x hx).congr fun y E' r => ?_
    have hl' : (abs s).libs l = some library := hl
    rw [hl']
    simp
  cases types with
  | none =>
    have hm := untypedMembers_match hsem hs hl none names.length
    cases library with
    | none => exact pair none _ _ hm
    | some l =>
      simp only [classOf, classMembers]
      cases hlib : s.libs.get? l with
      | none => exact noLib l _ hlib
      | some library => exact withLib l library _ _ hlib hm
  | some ts =>
    have hm := typedMembers_match hsem hs hl ts
    cases library with
    | none => exact pair none _ _ hm
    | some l =>
      simp only [classOf, classMembers]
      cases hlib : s.libs.get? l with
      | none => exact noLib l _ hlib
      | some library => exact withLib l library _ _ hlib hm

omit [Platform] in
theorem memberType_inj {T T' : MemberType} (h1 : binaryType T = binaryType T')
    (h2 : typeInfo T = typeInfo T') : T = T' := by
  cases T <;> cases T' <;> simp_all [binaryType, typeInfo]

omit [Platform] in
theorem memberTypes_inj {Ts Ts' : List MemberType} (h1 : Ts.map binaryType = Ts'.map binaryType)
    (h2 : Ts.map typeInfo = Ts'.map typeInfo) : Ts = Ts' := by
  induction Ts generalizing Ts' with
  | nil => cases Ts' <;> simp_all
  | cons T Ts ih =>
    cases Ts' with
    | nil => simp at h1
    | cons T' Ts' =>
      simp only [List.map_cons, List.cons.injEq] at h1 h2
      rw [memberType_inj h1.1 h2.1, ih h1.2 h2.2]

omit [Platform] in
theorem classOf_inj {h h' : ClassHead} (e : classOf h = classOf h') : h = h' := by
  obtain ⟨id, name, names, types, lib⟩ := h
  obtain ⟨id', name', names', types', lib'⟩ := h'
  cases types <;> cases lib <;> cases types' <;> cases lib' <;> simp [classOf] at e
  all_goals simp_all
  · exact memberTypes_inj e.2.1 e.2.2
  · exact memberTypes_inj e.2.1.1 e.2.1.2

/-- The model's view of a slot. -/
def ofSlot : Slot → ValueOrRef
  | .value v => .value v
  | .nulls n => .null n
  | .ref id => .ref id

omit [Platform] in
theorem map_ofSlot (slots : List Slot) : (slots.map ofSlot).map slotOf = slots := by
  rw [List.map_map]
  conv => rhs; rw [← List.map_id slots]
  apply List.map_congr_left
  intro x _
  cases x <;> rfl

theorem classesBody_match (hsem : RecSem L classes referenceable) {s : St} (hs : s.classes = [])
    {i : Bytes} (hl : i.length < L + 1) :
    Match (classesBody classes referenceable s i) i.length 1 (fun o E' r =>
      Spec.Class (abs s) i o.1 o.2.cls o.2.library o.2.members E' r) := by
  unfold classesBody
  refine ((library_match hs i).bind (k2 := 1) (k := 1) (by omega)
    (K := fun _ E1 i1 o E' r => ∃ h b i2 library E2 i3 slots values,
      IsClassHead h b ∧ i1 = b ++ i2 ∧ h.HasLibrary E1 library ∧
      Members h.memberTypes E1 i2 slots E2 i3 ∧ Resolve slots E2 i3 values E' r ∧
      o = (h.id, ⟨h.name, library, bindNames h.memberNames values⟩))
    fun _ s i hs _ hli => ?_).congr fun o E' r => ?_
  · refine ((classHeader_match hs i).bind (k2 := 0) (k := 1) (by omega)
      (K := fun c E1 i1 o E' r => ∃ h, c = (h.id, classOf h) ∧ ∃ library E2 i3 slots values,
        h.HasLibrary E1 library ∧
        Members h.memberTypes E1 i1 slots E2 i3 ∧ Resolve slots E2 i3 values E' r ∧
        o = (h.id, ⟨h.name, library, bindNames h.memberNames values⟩))
      fun c s1 i1 hs1 hc hl1 => ?_).congr fun o E' r => ?_
    · obtain ⟨hE, h, b, rfl, hb, rfl⟩ := hc
      simp only
      rw [hs1]
      simp only [AMap.get?, Option.isSome_none, Bool.false_eq_true, ↓reduceIte]
      refine ((classMembers_match hsem hs1 (i := i1) (by omega) _ h).bind (k2 := 0) (k := 0) (by omega)
        (K := fun x E2 i3 o E' r => ∃ values, Resolve (x.2.map slotOf) E2 i3 values E' r ∧
          o = (h.id, ⟨h.name, x.1, bindNames h.memberNames values⟩))
        fun x s2 i2 hs2 hx hl2 => ?_).congr fun o E' r => ?_
      · obtain ⟨library, ms⟩ := x
        refine ((resolve_match hsem hs2 (i := i2) (by omega) ms).bind (k2 := 0) (k := 0) (by omega)
          (K := fun values E3 i4 o E' r =>
            o = (h.id, ⟨h.name, library, bindNames h.memberNames values⟩) ∧ E' = E3 ∧ r = i4)
          fun values s3 i3 hs3 _ hl3 => ?_).congr fun o E' r => ?_
        · rw [(classOf_id h).2.1, (classOf_id h).2.2, fromIter_eq]
          exact Match.ret hs3
        · constructor
          · rintro ⟨values, E3, i4, h1, rfl, rfl, rfl⟩; exact ⟨values, h1, rfl⟩
          · rintro ⟨values, h1, rfl⟩; exact ⟨values, _, _, h1, rfl, rfl, rfl⟩
      · constructor
        · rintro ⟨⟨library, ms⟩, E2, i3, ⟨h1, h2⟩, values, h3, rfl⟩
          exact ⟨h, rfl, library, E2, i3, _, values, h1, h2, h3, rfl⟩
        · rintro ⟨h', heq, library, E2, i3, slots, values, h1, h2, h3, rfl⟩
          simp only [Prod.mk.injEq] at heq
          obtain rfl := classOf_inj heq.2
          rw [← map_ofSlot slots] at h2 h3
          exact ⟨(library, _), E2, i3, ⟨h1, h2⟩, values, h3, rfl⟩
    · constructor
      · rintro ⟨c, E1, i1, ⟨rfl, h, b, rfl, hb, rfl⟩, h', heq, library, E2, i3, slots, values, h1, h2, h3, rfl⟩
        simp only [Prod.mk.injEq] at heq
        obtain rfl := classOf_inj heq.2
        exact ⟨h, b, i1, library, E2, i3, slots, values, hb, rfl, h1, h2, h3, rfl⟩
      · rintro ⟨h, b, i2, library, E2, i3, slots, values, hb, rfl, h1, h2, h3, rfl⟩
        exact ⟨_, _, _, ⟨rfl, h, b, rfl, hb, rfl⟩, h, rfl, library, E2, i3, slots, values, h1, h2, h3, rfl⟩
  · constructor
    · rintro ⟨_, E1, i1, hlib, h, b, i2, library, E2, i3, slots, values, hb, rfl, h1, h2, h3, rfl⟩
      exact .mk hlib hb h1 h2 h3
    · intro h
      obtain ⟨id, name, library, members⟩ := o
      cases h with
      | mk hlib hb h1 h2 h3 =>
        exact ⟨(), _, _, hlib, _, _, _, _, _, _, _, _, hb, rfl, h1, h2, h3, rfl⟩

/-! ## Arrays -/

/-- The elements of an array with the null runs expanded. -/
def expand : List ValueOrRef → List ValueOrRef
  | [] => []
  | .null n :: ms => List.replicate n (.value .null) ++ expand ms
  | m :: ms => m :: expand ms

theorem resolve_nulls (n : Nat) (slots : List Slot) {E : Env} {i : Bytes} {vs : List Value}
    {E' : Env} {r : Bytes} :
    Resolve (List.replicate n (.value .null) ++ slots) E i vs E' r ↔
      ∃ vs', Resolve slots E i vs' E' r ∧ vs = List.replicate n .null ++ vs' := by
  induction n generalizing vs with
  | zero => simp
  | succ n ih =>
    rw [List.replicate_succ, List.cons_append]
    constructor
    · intro h
      cases h with
      | value h =>
        obtain ⟨vs', h', rfl⟩ := ih.mp h
        exact ⟨vs', h', by rw [List.replicate_succ]; rfl⟩
    · rintro ⟨vs', h, rfl⟩
      rw [List.replicate_succ, List.cons_append]
      exact .value (ih.mpr ⟨vs', h, rfl⟩)

theorem resolve_expand (ms : List ValueOrRef) {E : Env} {i : Bytes} {vs : List Value}
    {E' : Env} {r : Bytes} :
    Resolve ((expand ms).map slotOf) E i vs E' r ↔ Resolve (ms.map slotOf) E i vs E' r := by
  induction ms generalizing E i vs with
  | nil => rfl
  | cons m ms ih =>
    cases m with
    | value v =>
      simp only [expand, List.map_cons, slotOf]
      constructor
      · intro h; cases h with | value h => exact .value (ih.mp h)
      · intro h; cases h with | value h => exact .value (ih.mpr h)
    | null n =>
      simp only [expand, List.map_append, List.map_replicate, List.map_cons, slotOf]
      rw [resolve_nulls]
      constructor
      · rintro ⟨vs', h, rfl⟩; exact .nulls (ih.mp h)
      · intro h; cases h with | nulls h => exact ⟨_, ih.mpr h, rfl⟩
    | ref id =>
      simp only [expand, List.map_cons, slotOf]
      constructor
      · intro h
        cases h with
        | known h1 h => exact .known h1 (ih.mp h)
        | next h1 h2 h => exact .next h1 h2 (ih.mp h)
      · intro h
        cases h with
        | known h1 h => exact .known h1 (ih.mpr h)
        | next h1 h2 h => exact .next h1 h2 (ih.mpr h)

theorem member_size {T : Option MemberType} {E : Env} {i : Bytes} {slot : Slot} {E' : Env}
    {r : Bytes} (h : Member T E i slot E' r) : 1 ≤ slot.size := by
  have hn : ∀ {n b}, IsNulls n b → 1 ≤ n := by
    rintro n b (⟨rfl, _⟩ | ⟨h, _⟩ | ⟨h, _⟩) <;> omega
  cases h with
  | nulls _ h => exact hn h
  | systemClassNulls _ h => exact hn h
  | classNulls _ _ h => exact hn h
  | stringArrayNulls _ h => exact hn h
  | typedObject _ h =>
    cases h with
    | nulls _ h => exact hn h
    | _ => exact Nat.le_refl 1
  | typedObjectArray _ h =>
    cases h with
    | nulls _ h => exact hn h
    | _ => exact Nat.le_refl 1
  | _ => exact Nat.le_refl 1

theorem arrayLoop_match (hsem : RecSem L classes referenceable) (T : Option MemberType)
    (fuel len : Nat) (acc : List ValueOrRef) (hf : len - acc.length ≤ fuel) {s : St}
    (hs : s.classes = []) {i : Bytes} (hl : i.length < L) :
    Match (arrayLoop (memberOf classes T) fuel len acc s i) i.length 0 (fun out E' r =>
      ∃ ms, out = acc ++ expand ms ∧ Fill T (len - acc.length) (abs s) i (ms.map slotOf) E' r) := by
  induction fuel generalizing acc s i with
  | zero =>
    unfold arrayLoop
    rw [if_neg (by omega), show len - acc.length = 0 by omega]
    refine (Match.ret hs).congr fun out E' r => ?_
    constructor
    · rintro ⟨rfl, rfl, rfl⟩; exact ⟨[], by simp [expand], .done⟩
    · rintro ⟨ms, rfl, h⟩
      generalize hm : ms.map slotOf = slots at h
      cases h with
      | done => obtain rfl := map_slot_nil.mp hm; exact ⟨by simp [expand], rfl, rfl⟩
      | step h0 => omega
  | succ fuel ih =>
    unfold arrayLoop
    split
    · rename_i hlt
      refine ((memberOf_match hsem hs hl T).bind (k2 := 0) (k := 0) (by omega)
        (K := fun m E1 i1 out E' r => ∃ ms, out = acc ++ expand (m :: ms) ∧
          Fill T (len - acc.length - (slotOf m).size) E1 i1 (ms.map slotOf) E' r)
        fun m s1 i1 hs1 hm hl1 => ?_).congr fun out E' r => ?_
      · have hsz := member_size hm
        have go : ∀ (x : List ValueOrRef), x.length = (slotOf m).size →
            (∀ ms, expand (m :: ms) = x ++ expand ms) →
            Match (arrayLoop (memberOf classes T) fuel len (acc ++ x) s1 i1) i1.length 0
              (fun out E' r => ∃ ms, out = acc ++ expand (m :: ms) ∧
                Fill T (len - acc.length - (slotOf m).size) (abs s1) i1 (ms.map slotOf) E' r) := by
          intro x hx hexp
          refine (ih (acc ++ x) (by simp; omega) hs1 (by omega)).congr fun out E' r => ?_
          simp only [hexp, List.append_assoc, List.length_append, hx, Nat.sub_add_eq]
        cases m with
        | null n => exact go (List.replicate n (.value .null)) (by simp [slotOf, Slot.size]) (fun _ => rfl)
        | value v => exact go [.value v] rfl (fun _ => rfl)
        | ref id => exact go [.ref id] rfl (fun _ => rfl)
      · constructor
        · rintro ⟨m, E1, i1, h1, ms, rfl, h2⟩
          exact ⟨m :: ms, rfl, .step (by omega) h1 h2⟩
        · rintro ⟨ms, rfl, h⟩
          generalize hn : len - acc.length = n at h
          generalize hm : ms.map slotOf = slots at h
          cases h with
          | done => omega
          | step h0 h1 h2 =>
            obtain ⟨m, ms', rfl, rfl, rfl⟩ := List.map_eq_cons_iff.mp hm
            exact ⟨m, _, _, h1, ms', rfl, hn ▸ h2⟩
    · rw [show len - acc.length = 0 by omega]
      refine (Match.ret hs).congr fun out E' r => ?_
      constructor
      · rintro ⟨rfl, rfl, rfl⟩; exact ⟨[], by simp [expand], .done⟩
      · rintro ⟨ms, rfl, h⟩
        generalize hm : ms.map slotOf = slots at h
        cases h with
        | done => obtain rfl := map_slot_nil.mp hm; exact ⟨by simp [expand], rfl, rfl⟩
        | step h0 => omega

omit [Platform] in
theorem arrayHead_length {tag : UInt8} {id len : Nat} {b : Bytes} (h : IsArrayHead tag id len b) :
    1 ≤ b.length := by
  obtain ⟨_, _, _, _, rfl⟩ := h; simp

/-- Both kinds of one-dimensional arrays whose elements are members. -/
theorem arrayOf_match (hsem : RecSem L classes referenceable) (T : Option MemberType)
    {tag : UInt8} {p : Parser ArrayInfo}
    (hp : Exact p (fun a b => IsArrayHead tag a.objectId a.length b)) {s : St}
    (hs : s.classes = []) {i : Bytes} (hl : i.length < L + 1) :
    Match ((lift p s i).bind fun info s i =>
        (arrayLoop (memberOf classes T) info.length info.length [] s i).bind fun members s i =>
        (resolveMembers referenceable members s i).map fun vs => (info.objectId, vs)) i.length 1
      (fun x E' r => ∃ len b i1 slots E2 i2, IsArrayHead tag x.1 len b ∧ i = b ++ i1 ∧
        Fill T len (abs s) i1 slots E2 i2 ∧ Resolve slots E2 i2 x.2 E' r) := by
  refine ((Match.stateless hp (k := 1) (fun _ _ h => arrayHead_length h) hs i).bind (k2 := 0) (k := 1)
    (by omega) (K := fun info E1 i1 x E' r => x.1 = info.objectId ∧ ∃ slots E2 i2,
      Fill T info.length E1 i1 slots E2 i2 ∧ Resolve slots E2 i2 x.2 E' r)
    fun info s1 i1 hs1 _ hl1 => ?_).congr fun x E' r => ?_
  · refine ((arrayLoop_match hsem T info.length info.length [] (by simp) hs1 (i := i1)
      (by omega)).bind (k2 := 0) (k := 0) (by omega) (K := fun ms E2 i2 x E' r =>
        x.1 = info.objectId ∧ Resolve (ms.map slotOf) E2 i2 x.2 E' r)
      fun ms s2 i2 hs2 _ hl2 => ?_).congr fun x E' r => ?_
    · refine ((resolve_match hsem hs2 (i := i2) (by omega) ms).map _).congr fun x E' r => ?_
      constructor
      · rintro ⟨vs, h, rfl⟩; exact ⟨rfl, h⟩
      · rintro ⟨h1, h⟩; exact ⟨x.2, h, by rw [← h1]⟩
    · constructor
      · rintro ⟨_, E2, i2, ⟨ms, rfl, h1⟩, h2, h3⟩
        simp only [List.nil_append, List.length_nil, Nat.sub_zero, resolve_expand] at h1 h3
        exact ⟨h2, _, E2, i2, h1, h3⟩
      · rintro ⟨h2, slots, E2, i2, h1, h3⟩
        rw [← map_ofSlot slots] at h1 h3
        refine ⟨_, E2, i2, ⟨_, rfl, h1⟩, h2, ?_⟩
        simp only [List.nil_append, resolve_expand]
        exact h3
  · constructor
    · rintro ⟨info, E1, i1, ⟨rfl, b, hb, rfl⟩, h1, slots, E2, i2, h2, h3⟩
      exact ⟨info.length, b, i1, slots, E2, i2, by rw [h1]; exact hb, rfl, h2, h3⟩
    · rintro ⟨len, b, i1, slots, E2, i2, hb, rfl, h2, h3⟩
      exact ⟨⟨x.1, len⟩, _, i1, ⟨rfl, b, hb, rfl⟩, rfl, slots, E2, i2, h2, h3⟩

theorem arraySinglePrimitive_match {s : St} (hs : s.classes = []) (i : Bytes) :
    Match (arraySinglePrimitive s i) i.length 1 (fun x E' r => E' = abs s ∧ ∃ b,
      (∃ t b1 b2, IsPrimitiveArrayHead x.1 x.2.length t b1 ∧ IsSeq (IsPrimitive t) x.2 b2 ∧
        b = b1 ++ b2) ∧ i = b ++ r) := by
  unfold arraySinglePrimitive
  have hex : Exact (fun i => (ArraySinglePrimitive.parse i).bind fun x i =>
      (count (fun i => (memberPrimitiveUnTyped x.2 i).map Prim.intoValue) x.1.length i).map
        fun vs => (x.1.objectId, vs)) (fun x b => ∃ t b1 b2,
        IsPrimitiveArrayHead x.1 x.2.length t b1 ∧ IsSeq (IsPrimitive t) x.2 b2 ∧
        b = b1 ++ b2) := by
    refine (Exact.bind arraySinglePrimitive_exact fun x =>
      (count_exact (untyped_exact x.2) x.1.length).map fun vs => (x.1.objectId, vs)).congr
      fun x b => ?_
    constructor
    · rintro ⟨⟨info, t⟩, b1, b2, h1, ⟨vs, ⟨hlen, h2⟩, rfl⟩, rfl⟩
      exact ⟨t, b1, b2, by rw [hlen]; exact h1, h2, rfl⟩
    · rintro ⟨t, b1, b2, h1, h2, rfl⟩
      exact ⟨(⟨x.1, x.2.length⟩, t), b1, b2, h1, ⟨x.2, ⟨rfl, h2⟩, rfl⟩, rfl⟩
  refine Match.stateless hex (k := 1) ?_ hs i
  rintro x b ⟨t, _, b2, ⟨_, ⟨_, _, _, _, rfl⟩, rfl⟩, _, rfl⟩
  simp

theorem binaryArray_match (hsem : RecSem L classes referenceable) {s : St} (hs : s.classes = [])
    {i : Bytes} (hl : i.length < L + 1) :
    Match (binaryArray classes referenceable s i) i.length 1 (fun x E' r =>
      ∃ kind lengths T b n i1 slots E2 i2 vs, IsBinaryArrayHead x.1 kind lengths T b ∧ i = b ++ i1 ∧
        productUsize 1 lengths = some n ∧ Members (List.replicate n (some T)) (abs s) i1 slots E2 i2 ∧
        Resolve slots E2 i2 vs E' r ∧ Rows lengths.tail vs x.2) := by
  unfold binaryArray
  refine ((Match.stateless binaryArray_exact (k := 1) ?_ hs i).bind (k2 := 0) (k := 1)
    (by omega) (K := fun a E1 i1 x E' r => ∃ T n slots E2 i2 vs,
      a.typeEnum = binaryType T ∧ a.additionalTypeInfo = typeInfo T ∧ x.1 = a.objectId ∧
      productUsize 1 a.lengths = some n ∧ Members (List.replicate n (some T)) E1 i1 slots E2 i2 ∧
        Resolve slots E2 i2 vs E' r ∧ Rows a.lengths.tail vs x.2)
    fun a s1 i1 hs1 ha hl1 => ?_).congr fun x E' r => ?_
  · rintro a b ⟨T, _, _, _, _, _, _, _, _, _, _, _, _, _, rfl⟩; simp
  · obtain ⟨_, _, ⟨T, hT, hI, _⟩, _⟩ := ha
    rw [checkedProduct_spec]
    cases hn : productUsize 1 a.lengths with
    | none =>
      refine .never (by simp) ?_
      rintro x E r ⟨_, _, _, _, _, _, _, _, _, h, _⟩
      cases h
    | some n =>
      rw [hT, hI]
      refine ((untypedMembers_match hsem hs1 (i := i1) (by omega) (some T) n).bind (k2 := 0) (k := 0)
        (by omega) (K := fun ms E2 i2 x E' r => ∃ vs, x.1 = a.objectId ∧
          Resolve (ms.map slotOf) E2 i2 vs E' r ∧ Rows a.lengths.tail vs x.2)
        fun ms s2 i2 hs2 _ hl2 => ?_).congr fun x E' r => ?_
      · refine ((resolve_match hsem hs2 (i := i2) (by omega) ms).bind (k2 := 0) (k := 0) (by omega)
          (K := fun vs E3 i3 x E' r => E' = E3 ∧ r = i3 ∧ x.1 = a.objectId ∧
            Rows a.lengths.tail vs x.2)
          fun vs s3 i3 hs3 _ hl3 => ?_).congr fun x E' r => ?_
        · cases hre : reshape (a.lengths.drop 1).reverse vs with
          | done rows =>
            refine (Match.ret hs3).congr fun x E' r => ?_
            constructor
            · rintro ⟨rfl, rfl, rfl⟩; exact ⟨rfl, rfl, rfl, rows_iff.mp hre⟩
            · rintro ⟨rfl, rfl, h1, h2⟩
              have := rows_iff.mpr h2
              rw [hre] at this
              cases this
              exact ⟨by rw [← h1], rfl, rfl⟩
          | panic =>
            refine .never (by simp) ?_
            rintro x E r ⟨_, _, _, h2⟩
            have := rows_iff.mpr h2
            rw [hre] at this
            cases this
          | diverge =>
            refine .never (by simp) ?_
            rintro x E r ⟨_, _, _, h2⟩
            have := rows_iff.mpr h2
            rw [hre] at this
            cases this
        · constructor
          · rintro ⟨vs, E3, i3, h1, rfl, rfl, h2, h3⟩; exact ⟨vs, h2, h1, h3⟩
          · rintro ⟨vs, h2, h1, h3⟩; exact ⟨vs, _, _, h1, rfl, rfl, h2, h3⟩
      · constructor
        · rintro ⟨ms, E2, i2, h1, vs, h2, h3, h4⟩
          exact ⟨T, n, _, E2, i2, vs, rfl, rfl, h2, rfl, h1, h3, h4⟩
        · rintro ⟨T', n', slots, E2, i2, vs, hT', hI', h2, hn', h1, h3, h4⟩
          cases hn'
          obtain rfl := memberType_inj hT' hI'
          rw [← map_ofSlot slots] at h1 h3
          exact ⟨_, E2, i2, h1, vs, h2, h3, h4⟩
  · constructor
    · rintro ⟨a, E1, i1, ⟨rfl, b, ⟨T', hT', hI', bid, brank, blens, bbounds, binfo, g1, g2, g3, g4, g5, g6, rfl⟩, rfl⟩,
        T, n, slots, E2, i2, vs, hT, hI, h1, h2, h3, h4, h5⟩
      obtain rfl := memberType_inj (hT.symm.trans hT') (hI.symm.trans hI')
      refine ⟨a.binaryArrayTypeEnum, a.lengths, T, _, n, i1, slots, E2, i2, vs,
        ⟨bid, brank, blens, bbounds, binfo, by rw [h1]; exact g1, g2, g3, fun h => ?_,
          fun h => (g5 h).2, g6, rfl⟩, rfl, h2, h3, h4, h5⟩
      obtain ⟨bounds, _, h6, h7⟩ := g4 h
      exact ⟨bounds, h6, h7⟩
    · rintro ⟨kind, lengths, T, b, n, i1, slots, E2, i2, vs,
        ⟨bid, brank, blens, bbounds, binfo, g1, g2, g3, g4, g5, g6, rfl⟩, rfl, h2, h3, h4, h5⟩
      by_cases hk : hasLowerBounds kind
      · obtain ⟨bounds, h6, h7⟩ := g4 hk
        exact ⟨⟨x.1, kind, lengths, some bounds, binaryType T, typeInfo T⟩, _, i1,
          ⟨rfl, _, ⟨T, rfl, rfl, bid, brank, blens, bbounds, binfo, g1, g2, g3,
            fun _ => ⟨bounds, rfl, h6, h7⟩, fun h => absurd hk h, g6, rfl⟩, rfl⟩,
          T, n, slots, E2, i2, vs, rfl, rfl, rfl, h2, h3, h4, h5⟩
      · exact ⟨⟨x.1, kind, lengths, none, binaryType T, typeInfo T⟩, _, i1,
          ⟨rfl, _, ⟨T, rfl, rfl, bid, brank, blens, bbounds, binfo, g1, g2, g3,
            fun h => absurd h hk, fun h => ⟨rfl, g5 h⟩, g6, rfl⟩, rfl⟩,
          T, n, slots, E2, i2, vs, rfl, rfl, rfl, h2, h3, h4, h5⟩

end Nrbf
