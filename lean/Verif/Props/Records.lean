import Verif.Lemmas.Fails
import Verif.Props.Arrays

/-! # C23 - C28: class metadata, ids, libraries and references -/

set_option autoImplicit false

namespace Nrbf
open Spec

variable [Platform]

/-- `parse_referenceable` fails if `parse_classes` fails. -/
theorem referenceable_class {s s' : St} {i : Bytes} {e : Error}
    (h : classesBody (recAt i.length).classes (recAt i.length).referenceable s i = (.failure e, s')) :
    parseReferenceable s i = (.failure e, s') := by
  unfold parseReferenceable
  simp only [recAt]
  unfold referenceableBody
  simp only [altMut, h, Res.map, Outcome.map, Res.bind]

/-- A record that starts with a library is a class. -/
theorem record_library {E : Env} {lid : Nat} {name : Str} {bl i : Bytes} (hl : IsLibrary lid name bl)
    {id : Nat} {v : Value} {E' : Env} {r : Bytes} :
    Record E (bl ++ i) id v E' r ↔ E.libs lid = none ∧ ∃ c b i', i = b ++ i' ∧ IsClassHead c b ∧
      Record (E.addLib lid name) i id v E' r := by
  have h12 : (bl ++ i).head? = some 12 := by
    obtain ⟨_, _, _, _, rfl⟩ := hl
    rfl
  constructor
  · intro h
    generalize hj : bl ++ i = j at h h12
    cases h with
    | object hcls =>
      cases hcls with
      | @mk _ _ _ c b i1 _ _ _ _ _ _ _ hl' hc hlib hm hr =>
        have htag := tag_cases c
        cases hl' with
        | none hn =>
          rw [classHead_head hc] at h12
          rcases htag with h | h | h | h <;> rw [h] at h12 <;> cases h12
        | some hb' hnew =>
          obtain ⟨rfl, rfl, rfl, rfl⟩ := libraryHead_unique hl hb' hj
          exact ⟨hnew, c, b, i1, rfl, hc, (record_class hc).mpr ⟨rfl, _, _, _, _, _, hlib, hm, hr, rfl⟩⟩
    | primitiveArray h => rw [List.append_assoc, primitiveArrayHead_head h] at h12; cases h12
    | objectArray h => rw [arrayHead_head h] at h12; cases h12
    | stringArray h => rw [arrayHead_head h] at h12; cases h12
    | array h => rw [binaryArrayHead_head h] at h12; cases h12
    | string h => rw [string_head h] at h12; cases h12
  · rintro ⟨hnew, c, b, i', rfl, hc, h⟩
    obtain ⟨rfl, library, slots, E2, i2, values, hlib, hm, hr, rfl⟩ := (record_class hc).mp h
    exact .object (.mk (.some hl hnew) hc hlib hm hr)

/-! ## C23: ClassWithId -/

omit [Platform] in
theorem ids_parse {id metadata : Nat} {b1 b2 i : Bytes} (h1 : IsId id b1) (h2 : IsId metadata b2)
    (hne : metadata ≠ id) : ClassWithId.parse (1 :: (b1 ++ (b2 ++ i))) = .ok i ⟨id, metadata⟩ := by
  unfold ClassWithId.parse
  simp only [show RecordType.classWithId.parse (1 :: (b1 ++ (b2 ++ i))) = .ok (b1 ++ (b2 ++ i)) .classWithId from rfl,
    Outcome.bind, (objectId_exact _ _ _).mpr ⟨b1, h1, rfl⟩, (objectId_exact _ _ _).mpr ⟨b2, h2, rfl⟩]
  rw [if_neg hne]

/-- **C23** A ClassWithId record (record type 1) is accepted in no state that a run can reach, neither by
itself nor after a library record. -/
theorem C23_never {s : St} (hs : Reached s) {i : Bytes} {id : Nat} {v : Value} {r : Bytes} :
    ¬ Accepts s (1 :: i) id v r ∧
    ∀ {lid name b}, IsLibrary lid name b → ¬ Accepts s (b ++ 1 :: i) id v r := by
  constructor
  · intro h
    obtain ⟨E, h⟩ := (accepts_iff hs.classes).mp h
    rcases record_byte h with (h | h | h | h | h) | (h | h | h | h) | h <;> cases h
  · intro lid name b hb h
    obtain ⟨E, h⟩ := (accepts_iff hs.classes).mp h
    obtain ⟨_, hd, bc, i', hi, hc, _⟩ := (record_library hb).mp h
    have h1 := congrArg List.head? hi
    rw [classHead_head hc] at h1
    rcases tag_cases hd with h | h | h | h <;> rw [h] at h1 <;> cases h1

/-- **C23** (error) Whatever precedes it - in particular whatever classes - a ClassWithId record makes
the message fail with MissingMetadataId. -/
theorem C23_error {root id metadata : Nat} {h pre b1 b2 i : Bytes} {E : Env} (hh : IsHeader root h)
    (hpre : Records Env.empty (pre ++ 1 :: (b1 ++ (b2 ++ i))) E (1 :: (b1 ++ (b2 ++ i))))
    (h1 : IsId id b1) (h2 : IsId metadata b2) (hne : metadata ≠ id) :
    deserialize (h ++ (pre ++ 1 :: (b1 ++ (b2 ++ i)))) =
      .err ⟨1 :: (b1 ++ (b2 ++ i)), .missingMetadataId⟩ := by
  refine records_failure hh hpre fun s hs _ => ⟨s, referenceable_class ?_⟩
  unfold classesBody
  rw [lib_none (by simp)]
  simp only [Res.bind]
  unfold classHeader
  rw [ids_parse h1 h2 hne, hs]
  rfl

/-- **C23** (the error) A ClassWithId record that names its own id as the metadata id fails with InvalidMetadataId. -/
theorem C23_own_id {root id : Nat} {h pre b i : Bytes} {E : Env} (hh : IsHeader root h)
    (hpre : Records Env.empty (pre ++ 1 :: (b ++ (b ++ i))) E (1 :: (b ++ (b ++ i)))) (hb : IsId id b) :
    deserialize (h ++ (pre ++ 1 :: (b ++ (b ++ i)))) = .err ⟨b ++ i, .invalidMetadataId⟩ := by
  refine records_failure hh hpre fun s hs _ => ⟨s, referenceable_class ?_⟩
  unfold classesBody
  rw [lib_none (by simp)]
  simp only [Res.bind]
  unfold classHeader
  have hp : ClassWithId.parse (1 :: (b ++ (b ++ i))) = .failure ⟨b ++ i, .invalidMetadataId⟩ := by
    unfold ClassWithId.parse
    have e1 : RecordType.classWithId.parse (1 :: (b ++ (b ++ i))) = .ok (b ++ (b ++ i)) .classWithId := rfl
    have e2 : ∀ r, objectId (b ++ r) = .ok r id := fun r => (objectId_exact _ _ _).mpr ⟨b, hb, rfl⟩
    simp only [e1, e2, Outcome.bind, if_true]
  rw [hp]

/-- C23: `metadata = id = 1`. -/
example : deserialize (Tests.header 1 ++ ([] ++ 1 :: ([1,0,0,0] ++ ([1,0,0,0] ++ [11])))) = .err ⟨[1,0,0,0, 11], .invalidMetadataId⟩ :=
  C23_own_id (id := 1) (isHeader_header 1 (by decide)) .nil ⟨by decide, by decide, rfl⟩

/-! ## C24: duplicate object ids -/

/-- **C24** The last record with the root id is the content of the message, whether or not another
record had that id before. -/
theorem C24_last_wins {root : Nat} {h i i1 : Bytes} {E E1 : Env} {v : Value} (hh : IsHeader root h)
    (hr : root ≠ 0) (hpre : Records Env.empty i E i1) (hlast : Record E i1 root v E1 [11]) :
    deserialize (h ++ i) = .ok (.value v) := by
  have : ∀ {E0 E' E2 : Env} {i i1 r : Bytes}, Records E0 i E' i1 → Records E' i1 E2 r → Records E0 i E2 r := by
    intro E0 E' E2 i i1 r h1 h2
    induction h1 with
    | nil => exact h2
    | cons h _ ih => exact .cons h (ih h2)
  exact C37_root hh hr (this hpre (.cons hlast .nil)) (by simp [Env.add])

/-! ## C25: libraries -/

omit [Platform] in
theorem library_parse {id : Nat} {name : Str} {b i : Bytes} (hb : IsLibrary id name b) :
    BinaryLibrary.parse (b ++ i) = .ok i ⟨id, name⟩ := (library_exact _ _ ⟨id, name⟩).mpr ⟨b, hb, rfl⟩

/-- **C25** (duplicate) A library record whose id is already taken makes the message fail. -/
theorem C25_duplicate {root id : Nat} {h pre b i : Bytes} {E : Env} {name : Str} (hh : IsHeader root h)
    (hpre : Records Env.empty (pre ++ (b ++ i)) E (b ++ i)) (hb : IsLibrary id name b)
    (hdup : (E.libs id).isSome) :
    deserialize (h ++ (pre ++ (b ++ i))) = .err ⟨i, .duplicateLibraryId⟩ := by
  refine records_failure hh hpre fun s hs hE => ⟨{ s with libs := s.libs.insert id name }, referenceable_class ?_⟩
  subst hE
  have : (s.libs.get? id).isSome := hdup
  unfold classesBody parseBinaryLibrary lift opt
  simp only [library_parse hb, Outcome.map, Res.bind, this, if_true]

omit [Platform] in
theorem classHeader_ok {s : St} {h : ClassHead} {b i : Bytes} (hb : IsClassHead h b) :
    classHeader s (b ++ i) = (.ok i (h.id, classOf h), s) := by
  obtain ⟨e1, he1⟩ := classWithId_mismatch (i := b ++ i)
    (by rw [classHead_head hb]; rcases tag_cases h with h | h | h | h <;> rw [h] <;> decide)
  have := (classHead_exact (b ++ i) i (classOf h)).mpr ⟨b, ⟨h, rfl, hb⟩, rfl⟩
  unfold classHeader
  rw [he1]
  simp only [this, Outcome.map, (classOf_id h).1]

/-- **C25** (missing) A class that names an unknown library makes the message fail. -/
theorem C25_missing {root l : Nat} {h pre b i : Bytes} {E : Env} {c : ClassHead} (hh : IsHeader root h)
    (hpre : Records Env.empty (pre ++ (b ++ i)) E (b ++ i)) (hb : IsClassHead c b)
    (hl : c.library = some l) (hmiss : E.libs l = none) :
    deserialize (h ++ (pre ++ (b ++ i))) = .err ⟨b ++ i, .missingLibraryId⟩ := by
  refine records_failure hh hpre fun s hs hE => ⟨s, referenceable_class ?_⟩
  subst hE
  have hm : s.libs.get? l = none := hmiss
  unfold classesBody
  rw [lib_none (by rw [classHead_head hb]; rcases tag_cases c with h | h | h | h <;> rw [h] <;> decide)]
  simp only [Res.bind, classHeader_ok hb, hs, AMap.get?, Option.isSome_none, Bool.false_eq_true, if_false]
  obtain ⟨id, name, names, types, lib⟩ := c
  subst hl
  cases types <;> simp only [classOf, classMembers, hm]

/-! ## C26: libraries in front of records -/

/-- **C26** (classes) A library record with a new id directly in front of a class record is
registered, and the class is read as if it had been known before. -/
theorem C26_class {s : St} (hs : Reached s) {id lid : Nat} {name : Str} {c : ClassHead} {bl b i : Bytes}
    (hl : IsLibrary lid name bl) (hnew : s.libs.get? lid = none) (hb : IsClassHead c b) {v : Value}
    {r : Bytes} :
    Accepts s (bl ++ (b ++ i)) id v r ↔
      Accepts { s with libs := s.libs.insert lid name } (b ++ i) id v r := by
  rw [accepts_iff hs.classes, accepts_iff (s := { s with libs := s.libs.insert lid name }) hs.classes, abs_lib]
  refine exists_congr fun E => ?_
  rw [record_library hl]
  constructor
  · rintro ⟨_, _, _, _, _, _, h⟩
    exact h
  · intro h
    exact ⟨hnew, c, b, i, rfl, hb, h⟩

/-- **C26** (everything else) A library record in front of anything that is not a class record - an
array, a string, a method record, another library, the end of the message - makes the message fail
with DuplicateLibraryId, although its id occurs only once. -/
theorem C26_other {root lid : Nat} {h pre bl i : Bytes} {E : Env} {name : Str} (hh : IsHeader root h)
    (hpre : Records Env.empty (pre ++ (bl ++ i)) E (bl ++ i)) (hl : IsLibrary lid name bl)
    (hi : ∀ tag ∈ [1, 2, 3, 4, 5], i.head? ≠ some tag) :
    deserialize (h ++ (pre ++ (bl ++ i))) = .err ⟨i, .duplicateLibraryId⟩ := by
  by_cases hdup : (E.libs lid).isSome
  · exact C25_duplicate hh hpre hl hdup
  refine records_failure hh hpre fun s hs hE => ?_
  subst hE
  have hnew : (s.libs.get? lid).isSome = false := by
    have : ¬ (s.libs.get? lid).isSome := hdup
    simpa using this
  have hlib : ∀ s : St, (s.libs.get? lid).isSome = false → parseBinaryLibrary s (bl ++ i) =
      (.ok i (), { s with libs := s.libs.insert lid name }) := by
    intro s hnew
    unfold parseBinaryLibrary lift opt
    simp [library_parse hl, Outcome.map, Res.bind, hnew]
  obtain ⟨e1, he1⟩ := classWithId_mismatch (hi 1 (by simp))
  obtain ⟨e2, he2⟩ := classHead_mismatch (hi 2 (by simp)) (hi 3 (by simp)) (hi 4 (by simp)) (hi 5 (by simp))
  have hc : classesBody (recAt (bl ++ i).length).classes (recAt (bl ++ i).length).referenceable s (bl ++ i) =
      (.error e2, { s with libs := s.libs.insert lid name }) := by
    unfold classesBody
    rw [hlib s hnew]
    simp only [Res.bind]
    unfold classHeader
    rw [he1]
    simp only [he2, Outcome.map]
  have ha : ∃ s', arraysBody (recAt (bl ++ i).length).classes (recAt (bl ++ i).length).referenceable
      { s with libs := s.libs.insert lid name } (bl ++ i) = (.failure ⟨i, .duplicateLibraryId⟩, s') := by
    unfold arraysBody parseBinaryLibrary lift opt
    simp only [library_parse hl, Outcome.map, Res.bind, AMap.get?_insert, if_true, Option.isSome_some]
    exact ⟨_, rfl⟩
  obtain ⟨s', ha⟩ := ha
  refine ⟨s', ?_⟩
  unfold parseReferenceable
  simp only [recAt]
  unfold referenceableBody
  simp only [altMut, hc, ha, Res.map, Outcome.map, Res.bind]

/-! ## C27, C28: references -/

/-- An untyped member that starts like a reference is one. -/
theorem member_reference {E : Env} {id : Nat} {b i : Bytes} (hb : IsReference id b) {slot : Slot} {E' : Env}
    {r : Bytes} : Member none E (b ++ i) slot E' r ↔ slot = .ref id ∧ E' = E ∧ r = i := by
  have h9 : (b ++ i).head? = some 9 := by
    obtain ⟨_, _, rfl⟩ := hb
    rfl
  have h12 : (b ++ i).head? ≠ some 12 := by rw [h9]; decide
  constructor
  · intro h
    generalize hj : b ++ i = j at h h9 h12
    cases h with
    | primitive hl hp =>
      obtain ⟨rfl, hr⟩ := optLib_none h12 hl
      obtain ⟨_, _, _, rfl⟩ := hp
      rw [← hr] at h9
      cases h9
    | reference hl hp =>
      obtain ⟨rfl, hr⟩ := optLib_none h12 hl
      obtain ⟨rfl, _, rfl⟩ := reference_unique hb hp (hj.trans hr.symm)
      exact ⟨rfl, rfl, rfl⟩
    | string hl hp =>
      obtain ⟨rfl, hr⟩ := optLib_none h12 hl
      rw [← hr, string_head hp] at h9
      cases h9
    | nulls hl hp =>
      obtain ⟨rfl, hr⟩ := optLib_none h12 hl
      rw [← hr] at h9
      rcases hp with ⟨_, rfl⟩ | ⟨_, _, rfl⟩ | ⟨_, _, rfl⟩ <;> cases h9
    | object hl hp =>
      obtain ⟨rfl, hr⟩ := optLib_none h12 hl
      subst hr
      rcases class_byte hp with h | h | h | h | h <;> rw [h] at h9 <;> cases h9
  · rintro ⟨rfl, rfl, rfl⟩
    exact .reference (.none (.inl h12)) hb

/-- An array of references. -/
theorem fill_references {E : Env} {ids : List Nat} {b i : Bytes} (hb : IsSeq IsReference ids b)
    {slots : List Slot} {E' : Env} {r : Bytes} :
    Fill none ids.length E (b ++ i) slots E' r ↔ slots = ids.map .ref ∧ E' = E ∧ r = i := by
  induction ids generalizing b slots with
  | nil =>
    cases hb
    constructor
    · intro h
      cases h with
      | done => exact ⟨rfl, rfl, rfl⟩
      | step h => simp at h
    · rintro ⟨rfl, rfl, rfl⟩
      exact .done
  | cons id ids ih =>
    obtain ⟨b1, b2, h1, h2, rfl⟩ := hb
    rw [List.append_assoc]
    constructor
    · intro h
      generalize hj : b1 ++ (b2 ++ i) = j at h
      generalize hn : (id :: ids).length = n at h
      cases h with
      | done => cases hn
      | step _ hm hf =>
        subst hj hn
        obtain ⟨rfl, rfl, rfl⟩ := (member_reference h1).mp hm
        obtain ⟨rfl, rfl, rfl⟩ := (ih h2).mp hf
        exact ⟨rfl, rfl, rfl⟩
    · rintro ⟨rfl, rfl, rfl⟩
      exact .step (by simp) ((member_reference h1).mpr ⟨rfl, rfl, rfl⟩) ((ih h2).mpr ⟨rfl, rfl, rfl⟩)

omit [Platform] in
theorem eraseDups_nodup {l : List Str} (h : l.Nodup) : l.eraseDups = l := by
  induction l with
  | nil => rfl
  | cons a l ih =>
    rw [List.nodup_cons] at h
    rw [List.eraseDups_cons]
    have : l.filter (fun b => !b == a) = l := by
      rw [List.filter_eq_self]
      intro b hb
      have : b ≠ a := fun e => h.1 (e ▸ hb)
      simp [this]
    rw [this, ih h.2]

omit [Platform] in
theorem lastValue_nodup {l : List (Str × Value)} (h : (l.map Prod.fst).Nodup) :
    (l.map Prod.fst).map (fun k => (k, (lastValue k l).getD .null)) = l := by
  have key : ∀ (e : Str × Value), e ∈ l → (lastValue e.1 l).getD .null = e.2 := by
    intro e he
    induction l with
    | nil => simp at he
    | cons a l ih =>
      rw [List.map_cons, List.nodup_cons] at h
      have hnone : ∀ {k : Str} {l : List (Str × Value)}, k ∉ l.map Prod.fst → lastValue k l = none := by
        intro k l hk
        induction l with
        | nil => rfl
        | cons a l ih =>
          simp only [List.map_cons, List.mem_cons, not_or] at hk
          simp only [lastValue, ih hk.2, Option.none_or]
          rw [if_neg (fun e => hk.1 e.symm)]
      obtain ⟨k, v⟩ := a
      simp only [lastValue]
      rcases List.mem_cons.mp he with rfl | he
      · rw [hnone h.1]
        simp
      · have hne : k ≠ e.1 := fun hk => h.1 (by simp only [hk]; exact List.mem_map_of_mem he)
        rw [if_neg hne, Option.or_none]
        exact ih h.2 he
  rw [List.map_map]
  have : l.map ((fun k => (k, (lastValue k l).getD .null)) ∘ Prod.fst) = l.map id := by
    refine List.map_congr_left fun e he => ?_
    simp only [Function.comp, id, key e he]
  rw [this, List.map_id]

omit [Platform] in
/-- Distinct names are bound one by one. -/
theorem bindNames_nodup {names : List Str} {values : List Value} (h : names.Nodup) :
    bindNames names values = names.zip values := by
  have hz : ((names.zip values).map Prod.fst).Nodup := by
    have : ((names.zip values).map Prod.fst).Sublist names := by
      induction names generalizing values with
      | nil => simp
      | cons n names ih =>
        cases values with
        | nil => simp
        | cons v values => simpa using ih (List.nodup_cons.mp h).2
    exact this.nodup h
  unfold bindNames
  rw [eraseDups_nodup hz]
  exact lastValue_nodup hz

/-- What a reference to `id` stands for in the state `s`, in front of `i`: a registered object, or the
next record, which has to have that id. -/
def Resolves (s : St) (id : Nat) (i : Bytes) (u : Value) (r : Bytes) : Prop :=
  (s.objects.get? id = some u ∧ r = i) ∨ (s.objects.get? id = none ∧ Accepts s i id u r)

theorem resolve_single {s : St} (hs : s.classes = []) {ref : Nat} {i : Bytes} {vs : List Value} {r : Bytes} :
    (∃ E', Resolve [.ref ref] (abs s) i vs E' r) ↔ ∃ u, vs = [u] ∧ Resolves s ref i u r := by
  constructor
  · rintro ⟨E', h⟩
    cases h with
    | known h1 h2 =>
      cases h2
      exact ⟨_, rfl, .inl ⟨h1, rfl⟩⟩
    | next h1 h2 h3 =>
      cases h3
      exact ⟨_, rfl, .inr ⟨h1, (accepts_iff hs).mpr ⟨_, h2⟩⟩⟩
  · rintro ⟨u, rfl, h | ⟨h, ha⟩⟩
    · obtain ⟨h, rfl⟩ := h
      exact ⟨_, Resolve.known h .nil⟩
    · obtain ⟨E, ha⟩ := (accepts_iff hs).mp ha
      exact ⟨_, .next h ha .nil⟩

/-- **C27** (array element) An array whose only element is a reference is accepted exactly if the
reference resolves; its element is what it resolves to. -/
theorem C27_array {s : St} (hs : Reached s) {id ref : Nat} {b bref i : Bytes} (hb : IsArrayHead 16 id 1 b)
    (href : IsReference ref bref) {v : Value} {r : Bytes} :
    Accepts s (b ++ (bref ++ i)) id v r ↔ ∃ u, v = .array [u] ∧ Resolves s ref i u r := by
  have hseq : IsSeq IsReference [ref] bref := ⟨bref, [], href, rfl, by simp⟩
  rw [accepts_iff hs.classes]
  constructor
  · rintro ⟨E, h⟩
    obtain ⟨_, slots, E2, i2, vs, rfl, hf, hr⟩ := (record_objectArray hb).mp h
    obtain ⟨rfl, rfl, rfl⟩ := (fill_references hseq).mp hf
    obtain ⟨u, rfl, hu⟩ := (resolve_single hs.classes).mp ⟨E, hr⟩
    exact ⟨u, rfl, hu⟩
  · rintro ⟨u, rfl, h⟩
    obtain ⟨E, h⟩ := (resolve_single hs.classes).mpr ⟨u, rfl, h⟩
    exact ⟨E, (record_objectArray hb).mpr ⟨rfl, _, _, _, _, rfl, (fill_references hseq).mpr ⟨rfl, rfl, rfl⟩, h⟩⟩

/-- **C27** (class member) Likewise for an object whose only member is a reference. -/
theorem C27_member {s : St} (hs : Reached s) {ref : Nat} {c : ClassHead} {n : Str} {b bref i : Bytes}
    (hb : IsClassHead c b) (hn : c.memberNames = [n]) (ht : c.types = none) (href : IsReference ref bref)
    {v : Value} {r : Bytes} :
    Accepts s (b ++ (bref ++ i)) c.id v r ↔ ∃ library u, c.HasLibrary (abs s) library ∧
      v = .object c.name library [(n, u)] ∧ Resolves s ref i u r := by
  have htypes : c.memberTypes = [none] := by
    unfold ClassHead.memberTypes
    rw [ht, hn]
    rfl
  have hbind : ∀ u : Value, bindNames [n] [u] = [(n, u)] := by
    intro u
    exact bindNames_nodup (by simp)
  rw [accepts_iff hs.classes]
  constructor
  · rintro ⟨E, h⟩
    obtain ⟨_, library, slots, E2, i2, vs, hlib, hm, hr, rfl⟩ := (record_class hb).mp h
    rw [htypes] at hm
    cases hm with
    | cons hm hms =>
      cases hms
      obtain ⟨rfl, rfl, rfl⟩ := (member_reference href).mp hm
      obtain ⟨u, rfl, hu⟩ := (resolve_single hs.classes).mp ⟨E, hr⟩
      exact ⟨library, u, hlib, by rw [hn, hbind], hu⟩
  · rintro ⟨library, u, hlib, rfl, h⟩
    obtain ⟨E, h⟩ := (resolve_single hs.classes).mpr ⟨u, rfl, h⟩
    refine ⟨E, (record_class hb).mpr ⟨rfl, library, _, _, _, _, hlib, ?_, h, by rw [hn, hbind]⟩⟩
    rw [htypes]
    exact .cons ((member_reference href).mpr ⟨rfl, rfl, rfl⟩) .nil

/-- **C27** (several references) The elements of an array of references are resolved one after the
other, each one with the tables and the input the previous one left. -/
theorem C27_references {s : St} (hs : Reached s) {id : Nat} {ids : List Nat} {b brefs i : Bytes}
    (hb : IsArrayHead 16 id ids.length b) (hrefs : IsSeq IsReference ids brefs) {v : Value} {r : Bytes} :
    Accepts s (b ++ (brefs ++ i)) id v r ↔ ∃ vs E', v = .array vs ∧
      Resolve (ids.map .ref) (abs s) i vs E' r := by
  rw [accepts_iff hs.classes]
  constructor
  · rintro ⟨E, h⟩
    obtain ⟨_, slots, E2, i2, vs, rfl, hf, hr⟩ := (record_objectArray hb).mp h
    obtain ⟨rfl, rfl, rfl⟩ := (fill_references hrefs).mp hf
    exact ⟨vs, E, rfl, hr⟩
  · rintro ⟨vs, E, rfl, h⟩
    exact ⟨E, (record_objectArray hb).mpr ⟨rfl, _, _, _, _, rfl, (fill_references hrefs).mpr ⟨rfl, rfl, rfl⟩, h⟩⟩

/-- **C28** Two references to the same object: the second one never sees the object the first one
resolved to.  The object is gone from the table, and another record with that id has to follow. -/
theorem C28_second {s : St} (hs : Reached s) {id ref : Nat} {b bref i : Bytes} (hb : IsArrayHead 16 id 2 b)
    (href : IsReference ref bref) {v : Value} {r : Bytes} :
    Accepts s (b ++ (bref ++ bref ++ i)) id v r ↔ ∃ u u2 i1 E1 E2, v = .array [u, u2] ∧
      ((s.objects.get? ref = some u ∧ E1 = abs s ∧ i1 = i) ∨
        (s.objects.get? ref = none ∧ Record (abs s) i ref u E1 i1)) ∧
      Record (E1.drop ref) i1 ref u2 E2 r := by
  have hseq : IsSeq IsReference [ref, ref] (bref ++ bref) :=
    ⟨bref, bref, href, ⟨bref, [], href, rfl, by simp⟩, rfl⟩
  rw [C27_references hs (ids := [ref, ref]) hb hseq]
  have hgone : ∀ E : Env, (E.drop ref).objs ref = none := by simp [Env.drop]
  constructor
  · rintro ⟨vs, E', rfl, h⟩
    cases h with
    | known h1 h2 =>
      cases h2 with
      | known h3 _ => rw [hgone] at h3; cases h3
      | next h3 h4 h5 =>
        cases h5
        exact ⟨_, _, _, _, _, rfl, .inl ⟨h1, rfl, rfl⟩, h4⟩
    | next h1 h1' h2 =>
      cases h2 with
      | known h3 _ => rw [hgone] at h3; cases h3
      | next h3 h4 h5 =>
        cases h5
        exact ⟨_, _, _, _, _, rfl, .inr ⟨h1, h1'⟩, h4⟩
  · rintro ⟨u, u2, i1, E1, E2, rfl, ⟨h1, rfl, rfl⟩ | ⟨h1, h2⟩, h3⟩
    · exact ⟨_, _, rfl, .known h1 (.next (hgone _) h3 .nil)⟩
    · exact ⟨_, _, rfl, .next h1 h2 (.next (hgone _) h3 .nil)⟩

/-! ## Concrete cases -/

open Tests

omit [Platform] in
theorem smallId (n : UInt8) (h : 0 < n.toNat) (h2 : n.toNat < 128) : IsId n.toNat [n, 0, 0, 0] := by
  refine ⟨h, by omega, ?_⟩
  have : ∀ k < 128, [UInt8.ofNat k, 0, 0, 0] = le 4 k := by decide +kernel
  simpa using this n.toNat h2

omit [Platform] in
theorem smallString (id c : UInt8) (h : 0 < id.toNat) (h2 : id.toNat < 128) (hc : c.toNat < 128) :
    IsObjectString id.toNat [c] [6, id,0,0,0, 1,c] :=
  ⟨[id, 0, 0, 0], [1, c], smallId id h h2, short_string c hc, rfl⟩

/-- The class `A {}` with id 3. -/
theorem emptyClass : IsClassHead ⟨3, [65], [], none, none⟩ [2, 3,0,0,0, 1,65, 0,0,0,0] :=
  ⟨[3,0,0,0], [1,65], [0,0,0,0], [], [], [], smallId 3 (by decide) (by decide), short_string 65 (by decide),
    ⟨by decide, rfl⟩, rfl, rfl, rfl, rfl⟩

/-- C23: an object with id 3, then one with id 4 that wants to share its metadata. -/
example : deserialize (header 1 ++ ([2, 3,0,0,0, 1,65, 0,0,0,0] ++ 1 :: ([4,0,0,0] ++ ([3,0,0,0] ++ [11])))) =
    .err ⟨1 :: ([4,0,0,0] ++ ([3,0,0,0] ++ [11])), .missingMetadataId⟩ :=
  C23_error (isHeader_header 1 (by decide))
    (.cons ((record_class emptyClass).mpr ⟨rfl, _, _, _, _, _, rfl, .nil, .nil, rfl⟩) .nil)
    (smallId 4 (by decide) (by decide)) (smallId 3 (by decide) (by decide)) (by decide)

/-- C24: two strings with id 1. -/
example : deserialize (header 1 ++ ([6, 1,0,0,0, 1,120] ++ ([6, 1,0,0,0, 1,121] ++ [11]))) =
    .ok (.value (.string [121])) :=
  C24_last_wins (isHeader_header 1 (by decide)) (by decide)
    (.cons (id := 1) (.string (smallString 1 120 (by decide) (by decide) (by decide))) .nil)
    (.string (smallString 1 121 (by decide) (by decide) (by decide)))

/-- **C24** The error DuplicateObjectId does not occur: two records with the same id are accepted. -/
theorem C24_duplicate_accepted : ∃ w m, deserialize w = .ok m ∧
    w = header 1 ++ ([6, 1,0,0,0, 1,120] ++ ([6, 1,0,0,0, 1,121] ++ [11])) :=
  ⟨_, .value (.string [121]), by kernel_decide, rfl⟩

omit [Platform] in
theorem smallLibrary (id c : UInt8) (h : 0 < id.toNat) (h2 : id.toNat < 128) (hc : c.toNat < 128) :
    IsLibrary id.toNat [c] [12, id,0,0,0, 1,c] :=
  ⟨[id, 0, 0, 0], [1, c], smallId id h h2, short_string c hc, rfl⟩

/-- The class `A {}` with id 3 of the library 9. -/
theorem libraryClass : IsClassHead ⟨3, [65], [], none, some 9⟩ [3, 3,0,0,0, 1,65, 0,0,0,0, 9,0,0,0] :=
  ⟨[3,0,0,0], [1,65], [0,0,0,0], [], [], [9,0,0,0], smallId 3 (by decide) (by decide), short_string 65 (by decide),
    ⟨by decide, rfl⟩, rfl, rfl, smallId 9 (by decide) (by decide), rfl⟩

/-- The class after its library. -/
theorem libraryClass_record (i : Bytes) : Record Env.empty
    ([12, 9,0,0,0, 1,76] ++ ([3, 3,0,0,0, 1,65, 0,0,0,0, 9,0,0,0] ++ i)) 3
    (.object [65] (some [76]) []) (Env.empty.addLib 9 [76]) i :=
  (record_library (smallLibrary 9 76 (by decide) (by decide) (by decide))).mpr ⟨rfl, _, _, _, rfl, libraryClass,
    (record_class libraryClass).mpr ⟨rfl, _, _, _, _, _, ⟨[76], by simp [Env.addLib], rfl⟩, .nil, .nil, rfl⟩⟩

/-- C25: the same library again. -/
example : deserialize (header 3 ++ ([12, 9,0,0,0, 1,76] ++ ([3, 3,0,0,0, 1,65, 0,0,0,0, 9,0,0,0] ++
    ([12, 9,0,0,0, 1,77] ++ [11])))) = .err ⟨[11], .duplicateLibraryId⟩ :=
  C25_duplicate (pre := [12, 9,0,0,0, 1,76] ++ [3, 3,0,0,0, 1,65, 0,0,0,0, 9,0,0,0])
    (isHeader_header 3 (by decide)) (.cons (libraryClass_record _) .nil)
    (smallLibrary 9 77 (by decide) (by decide) (by decide)) (by simp [Env.addLib, Env.add])

/-- C25: no library at all. -/
example : deserialize (header 3 ++ ([] ++ ([3, 3,0,0,0, 1,65, 0,0,0,0, 9,0,0,0] ++ [11]))) =
    .err ⟨[3, 3,0,0,0, 1,65, 0,0,0,0, 9,0,0,0] ++ [11], .missingLibraryId⟩ :=
  C25_missing (isHeader_header 3 (by decide)) .nil libraryClass rfl rfl

/-- C26: a library in front of a string. -/
example : deserialize (header 1 ++ ([] ++ ([12, 9,0,0,0, 1,76] ++ [6, 1,0,0,0, 1,120, 11]))) =
    .err ⟨[6, 1,0,0,0, 1,120, 11], .duplicateLibraryId⟩ :=
  C26_other (isHeader_header 1 (by decide)) .nil (smallLibrary 9 76 (by decide) (by decide) (by decide)) (by decide)

/-- C26: a library in front of a class. -/
example : Accepts St.init ([12, 9,0,0,0, 1,76] ++ ([3, 3,0,0,0, 1,65, 0,0,0,0, 9,0,0,0] ++ [11])) 3
    (.object [65] (some [76]) []) [11] :=
  (C26_class .init (smallLibrary 9 76 (by decide) (by decide) (by decide)) rfl libraryClass).mpr
    ((accepts_iff rfl).mpr ⟨_, (record_class libraryClass).mpr ⟨rfl, _, _, _, _, _, ⟨[76], by rw [abs_lib]; simp [Env.addLib], rfl⟩,
      .nil, .nil, rfl⟩⟩)

omit [Platform] in
theorem smallReference (id : UInt8) (h : 0 < id.toNat) (h2 : id.toNat < 128) :
    IsReference id.toNat [9, id,0,0,0] := ⟨_, smallId id h h2, rfl⟩

/-- C27: a reference to the string that follows. -/
example : deserialize (header 1 ++ ([16, 1,0,0,0, 1,0,0,0] ++ ([9, 2,0,0,0] ++ [6, 2,0,0,0, 1,120, 11]))) =
    .ok (.value (.array [.string [120]])) :=
  deserialize_one ((C27_array .init (id := 1) ⟨_, _, smallId 1 (by decide) (by decide), ⟨by decide, rfl⟩, rfl⟩
    (smallReference 2 (by decide) (by decide))).mpr ⟨_, rfl, .inr ⟨rfl, (accepts_iff rfl).mpr
      ⟨_, .string (b := [6, 2,0,0,0, 1,120]) (smallString 2 120 (by decide) (by decide) (by decide))⟩⟩⟩)

/-- **C28** is false: one record with id 2 is not enough for two references to it. -/
theorem C28_shared_false :
    deserialize (header 1 ++ ([16, 1,0,0,0, 2,0,0,0] ++ ([9, 2,0,0,0] ++ [9, 2,0,0,0] ++ [6, 2,0,0,0, 1,120, 11]))) =
      .err ⟨[16, 1,0,0,0, 2,0,0,0, 9, 2,0,0,0, 9, 2,0,0,0, 6, 2,0,0,0, 1,120, 11], .expectedRecordType .messageEnd⟩ := by
  kernel_decide

/-- C28: two records with id 2 are. -/
example : deserialize (header 1 ++ ([16, 1,0,0,0, 2,0,0,0] ++ ([9, 2,0,0,0] ++ [9, 2,0,0,0] ++
    [6, 2,0,0,0, 1,120, 6, 2,0,0,0, 1,121, 11]))) = .ok (.value (.array [.string [120], .string [121]])) :=
  deserialize_one ((C28_second .init (id := 1) ⟨_, _, smallId 1 (by decide) (by decide), ⟨by decide, rfl⟩, rfl⟩
    (smallReference 2 (by decide) (by decide))).mpr ⟨_, _, _, _, _, rfl, .inr ⟨rfl,
      .string (b := [6, 2,0,0,0, 1,120]) (smallString 2 120 (by decide) (by decide) (by decide))⟩,
      .string (b := [6, 2,0,0,0, 1,121]) (smallString 2 121 (by decide) (by decide) (by decide))⟩)

end Nrbf
