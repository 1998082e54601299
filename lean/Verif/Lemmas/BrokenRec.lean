import Verif.Lemmas.Broken
import Verif.Lemmas.Knot

/-! # What the stateful parsers report about input they reject -/

set_option autoImplicit false

namespace Nrbf
open Spec

variable {α β : Type}

/-- The reports of a result, and the tables it leaves behind, are exactly those of `B`. -/
def BMatch (x : Res α) (B : Report → Env → Prop) : Prop :=
  (∀ o, verdict x.1 = some o → B o (abs x.2) ∧ x.2.classes = []) ∧
  (∀ o E, B o E → verdict x.1 = some o ∧ abs x.2 = E)

namespace BMatch

theorem congr {x : Res α} {B C : Report → Env → Prop} (h : BMatch x B) (e : ∀ o E, B o E ↔ C o E) : BMatch x C :=
  ⟨fun o ho => ⟨(e _ _).mp (h.1 o ho).1, (h.1 o ho).2⟩, fun o E hc => h.2 o E ((e _ _).mpr hc)⟩

theorem map {x : Res α} {B : Report → Env → Prop} (f : α → β) (h : BMatch x B) : BMatch (x.map f) B := by
  obtain ⟨o, s⟩ := x
  cases o <;> exact h

theorem bind {x : Res α} {f : α → St → Bytes → Res β} {n k : Nat} {J : α → Env → Bytes → Prop}
    {B : Report → Env → Prop} {C : α → Env → Bytes → Report → Env → Prop} (h : Match x n k J) (hb : BMatch x B)
    (hf : ∀ a s r, s.classes = [] → J a (abs s) r → r.length + k ≤ n → BMatch (f a s r) (C a (abs s) r)) :
    BMatch (x.bind f) (fun o E' => B o E' ∨ ∃ a E r, J a E r ∧ C a E r o E') := by
  obtain ⟨x, s⟩ := x
  cases x with
  | ok r a =>
    obtain ⟨hj, hs, hl⟩ := h.1 r a s rfl
    have hfa := hf a s r hs hj hl
    constructor
    · intro o ho
      exact ⟨.inr ⟨a, _, r, hj, (hfa.1 o ho).1⟩, (hfa.1 o ho).2⟩
    · rintro o E' (e | ⟨a', E, r', hj', hc⟩)
      · have := (hb.2 o E' e).1; cases this
      · obtain ⟨s', h', rfl⟩ := h.2 a' E r' hj'
        cases h'
        exact hfa.2 o E' hc
  | error e =>
    constructor
    · intro o ho; exact ⟨.inl (hb.1 o ho).1, (hb.1 o ho).2⟩
    · rintro o E' (e | ⟨a', E, r', hj', hc⟩)
      · exact hb.2 o E' e
      · obtain ⟨s', h', rfl⟩ := h.2 a' E r' hj'; cases h'
  | failure e =>
    constructor
    · intro o ho; exact ⟨.inl (hb.1 o ho).1, (hb.1 o ho).2⟩
    · rintro o E' (e | ⟨a', E, r', hj', hc⟩)
      · exact hb.2 o E' e
      · obtain ⟨s', h', rfl⟩ := h.2 a' E r' hj'; cases h'
  | panic =>
    constructor
    · intro o ho; cases ho
    · rintro o E' (e | ⟨a', E, r', hj', hc⟩)
      · exact hb.2 o E' e
      · obtain ⟨s', h', rfl⟩ := h.2 a' E r' hj'; cases h'
  | diverge =>
    constructor
    · intro o ho; cases ho
    · rintro o E' (e | ⟨a', E, r', hj', hc⟩)
      · exact hb.2 o E' e
      · obtain ⟨s', h', rfl⟩ := h.2 a' E r' hj'; cases h'

/-- No report. -/
theorem silent {x : Res α} {B : Report → Env → Prop} (hx : verdict x.1 = none) : BMatch x B ↔ ∀ o E, ¬ B o E := by
  constructor
  · intro h o E hb
    have := (h.2 o E hb).1
    rw [hx] at this
    cases this
  · intro h
    exact ⟨fun o ho => (by rw [hx] at ho; cases ho), fun o E hb => absurd hb (h o E)⟩

/-- One report. -/
theorem single {x : Res α} {B : Report → Env → Prop} {o : Report} (hx : verdict x.1 = some o) :
    BMatch x B ↔ x.2.classes = [] ∧ ∀ o' E, B o' E ↔ o' = o ∧ E = abs x.2 := by
  constructor
  · intro h
    refine ⟨(h.1 o hx).2, fun o' E => ⟨fun hb => ?_, ?_⟩⟩
    · obtain ⟨h1, h2⟩ := h.2 o' E hb
      rw [hx] at h1
      cases h1
      exact ⟨rfl, h2.symm⟩
    · rintro ⟨rfl, rfl⟩; exact (h.1 _ hx).1
  · rintro ⟨hs, h⟩
    refine ⟨fun o' ho => ?_, fun o' E hb => ?_⟩
    · rw [hx] at ho
      cases ho
      exact ⟨(h _ _).mpr ⟨rfl, rfl⟩, hs⟩
    · obtain ⟨rfl, rfl⟩ := (h _ _).mp hb
      exact ⟨hx, rfl⟩

theorem ret {s : St} {i : Bytes} {a : α} : BMatch (.ok i a, s) (fun _ _ => False) :=
  (silent rfl).mpr fun _ _ => id

theorem failure {s : St} (hs : s.classes = []) {e : Error} :
    BMatch ((.failure e, s) : Res α) (fun o E => o = some e ∧ E = abs s) :=
  (single rfl).mpr ⟨hs, fun _ _ => Iff.rfl⟩

/-- A report of which the tables are no part. -/
theorem still {x : Res α} {s : St} (hs : s.classes = []) (hx : x.2 = s) {B : Report → Prop}
    (h : ∀ o, verdict x.1 = some o ↔ B o) : BMatch x (fun o E => B o ∧ E = abs s) := by
  subst hx
  exact ⟨fun o ho => ⟨⟨(h o).mp ho, rfl⟩, hs⟩, fun o E hb => ⟨(h o).mpr hb.1, hb.2.symm⟩⟩

theorem lift {p : Parser α} {B : Bytes → Report → Prop} (h : Broken p B) {s : St} (hs : s.classes = []) (i : Bytes) :
    BMatch (Nrbf.lift p s i) (fun o E => B i o ∧ E = abs s) := still hs rfl fun o => h i o

end BMatch

/-! ## Libraries -/

theorem badNumber_fatal {ok : Int → Prop} {reason : ErrorInner} {i : Bytes} {o : Report}
    (h : BadNumber ok reason i o) : ∃ e, o = some e := by
  rcases h with ⟨_, rfl⟩ | ⟨_, _, _, _, _, _, rfl⟩ <;> exact ⟨_, rfl⟩

theorem library_broken : Broken BinaryLibrary.parse (BadTagged 12 fun i o =>
    BadLibraryId i o ∨ After IsId (fun _ i => BadString i o) i) :=
  tagged_broken (t := .binaryLibrary)
    (Broken.bind libraryId_exact libraryId_broken fun _ => string_broken.bind_pure _)

theorem library_failure {i : Bytes} {e : Error} :
    BinaryLibrary.parse i = .failure e ↔ ∃ r, i = 12 :: r ∧ BadLibraryId r (some e) := by
  rw [← verdict_failure, library_broken i (some e)]
  constructor
  · rintro (⟨_, h⟩ | ⟨r, rfl, h | ⟨_, _, _, _, _, _, h⟩⟩)
    · cases h
    · exact ⟨r, rfl, h⟩
    · cases h
  · rintro ⟨r, rfl, h⟩; exact .inr ⟨r, rfl, .inl h⟩

theorem library_total (i : Bytes) : BinaryLibrary.parse i ≠ .panic ∧ BinaryLibrary.parse i ≠ .diverge := by
  have := binaryLibrary_good (List.suffix_refl i)
  constructor <;> intro h <;> rw [h] at this <;> exact this

theorem library_bmatch {s : St} (hs : s.classes = []) (i : Bytes) :
    BMatch (parseBinaryLibrary s i) (BadLibrary (abs s) i) := by
  cases hp : BinaryLibrary.parse i with
  | error e =>
    rw [opt_lib_none hp]
    refine (BMatch.silent rfl).mpr ?_
    rintro o E (⟨r, rfl, h, _⟩ | ⟨id, name, b, r, hb, rfl, _⟩)
    · obtain ⟨e', rfl⟩ := badNumber_fatal h
      rw [library_failure.mpr ⟨r, rfl, h⟩] at hp
      cases hp
    · rw [(library_exact _ _ ⟨id, name⟩).mpr ⟨b, hb, rfl⟩] at hp
      cases hp
  | failure e =>
    have : parseBinaryLibrary s i = (.failure e, s) := by
      unfold parseBinaryLibrary lift opt
      rw [hp]
      rfl
    rw [this]
    refine (BMatch.failure hs).congr fun o E => ?_
    constructor
    · rintro ⟨rfl, rfl⟩
      obtain ⟨r, rfl, h⟩ := library_failure.mp hp
      exact .inl ⟨r, rfl, h, rfl⟩
    · rintro (⟨r, rfl, h, rfl⟩ | ⟨id, name, b, r, hb, rfl, _⟩)
      · obtain ⟨e', rfl⟩ := badNumber_fatal h
        rw [library_failure.mpr ⟨r, rfl, h⟩] at hp
        cases hp
        exact ⟨rfl, rfl⟩
      · rw [(library_exact _ _ ⟨id, name⟩).mpr ⟨b, hb, rfl⟩] at hp
        cases hp
  | ok r l =>
    obtain ⟨b, hb, rfl⟩ := (library_exact _ _ _).mp hp
    have hx : ∀ o E, BadLibrary (abs s) (b ++ r) o E ↔ s.libs.get? l.libraryId ≠ none ∧
        o = fatal r .duplicateLibraryId ∧ E = (abs s).addLib l.libraryId l.libraryName := by
      intro o E
      constructor
      · rintro (⟨r', e', h, _⟩ | ⟨id, name, b', r', hb', e', h, rfl, rfl⟩)
        · obtain ⟨e'', rfl⟩ := badNumber_fatal h
          rw [library_failure.mpr ⟨r', e', h⟩] at hp
          cases hp
        · rw [(library_exact _ _ ⟨id, name⟩).mpr ⟨b', hb', e'⟩] at hp
          cases hp
          exact ⟨h, rfl, rfl⟩
      · rintro ⟨h, rfl, rfl⟩
        exact .inr ⟨_, _, b, r, hb, rfl, h, rfl, rfl⟩
    unfold parseBinaryLibrary lift opt
    rw [hp]
    simp only [Outcome.map, Res.bind]
    split
    · rename_i hl
      refine (BMatch.failure (by exact hs)).congr fun o E => ?_
      rw [hx, abs_lib]
      rw [Option.isSome_iff_ne_none] at hl
      simp only [ne_eq, hl, not_false_eq_true, true_and, fatal]
    · rename_i hl
      refine (BMatch.silent rfl).mpr fun o E h => ?_
      rw [hx] at h
      exact hl (by rw [Option.isSome_iff_ne_none]; exact h.1)
  | panic => exact absurd hp (library_total i).1
  | diverge => exact absurd hp (library_total i).2

variable [Platform] {L : Nat} {classes : SP (Nat × Object)} {referenceable : SP Nat}

/-- What `parse_classes` and `parse_referenceable` report on inputs shorter than `L`. -/
structure RecBad (L : Nat) (classes : SP (Nat × Object)) (referenceable : SP Nat) : Prop where
  cls : ∀ s i, s.classes = [] → i.length < L → BMatch (classes s i) (BadClass (abs s) i)
  ref : ∀ s i, s.classes = [] → i.length < L → BMatch (referenceable s i) (BadRecord (abs s) i)

/-! ## Members -/

/-- The alternatives of a member without declared type, except objects. -/
abbrev plainAlt : Parser ValueOrRef :=
  alt (fun i => (memberPrimitiveTyped i).map fun p => ValueOrRef.value p.intoValue)
    [refMember, stringMember, parseNullObject]

theorem plain_verdict {i : Bytes} (h : ∃ tag ∈ plainTags, i.head? = some tag) (o : Report) :
    verdict (plainAlt i) = some o ↔ BadPlain i o := by
  obtain ⟨tag, ht, h⟩ := h
  unfold plainAlt BadPlain
  simp only [h, Option.some.injEq]
  simp only [plainTags, List.mem_cons, List.not_mem_nil, or_false] at ht
  rcases ht with rfl | rfl | rfl | rfl | rfl | rfl
  · rw [alt_error (typedMember_mismatch (by rw [h]; decide)),
      alt_error (refMember_mismatch (by rw [h]; decide)),
      alt_first (q := parseNullObject) (qs := []) (nullMember_mismatch (by rw [h]; decide) (by rw [h]; decide) (by rw [h]; decide)),
      stringMember_broken i o]
    simp
  · rw [alt_first, typedMember_broken i o]
    · simp
    · rw [alt_error (refMember_mismatch (by rw [h]; decide)),
        alt_error (stringMember_mismatch (by rw [h]; decide))]
      exact nullMember_mismatch (by rw [h]; decide) (by rw [h]; decide) (by rw [h]; decide)
  · rw [alt_error (typedMember_mismatch (by rw [h]; decide)), alt_first, refMember_broken i o]
    · simp
    · rw [alt_error (stringMember_mismatch (by rw [h]; decide))]
      exact nullMember_mismatch (by rw [h]; decide) (by rw [h]; decide) (by rw [h]; decide)
  all_goals
    rw [alt_error (typedMember_mismatch (by rw [h]; decide)),
      alt_error (refMember_mismatch (by rw [h]; decide)),
      alt_error (stringMember_mismatch (by rw [h]; decide)), alt_nil, nullObject_broken i o]
    try simp
  · unfold BadNulls
    rintro (⟨h', _⟩ | ⟨r, rfl, _⟩ | ⟨r, rfl, _⟩)
    · exact h' 10 (by simp) h
    · cases h
    · cases h

theorem plain_other {i : Bytes} (h : ∀ tag ∈ plainTags, i.head? ≠ some tag) : ∃ e, plainAlt i = .error e := by
  unfold plainAlt
  rw [alt_error (typedMember_mismatch (h 8 (by simp [plainTags]))),
      alt_error (refMember_mismatch (h 9 (by simp [plainTags]))),
      alt_error (stringMember_mismatch (h 6 (by simp [plainTags])))]
  exact nullMember_mismatch (h 10 (by simp [plainTags])) (h 14 (by simp [plainTags])) (h 13 (by simp [plainTags]))

theorem memberNone_bmatch (hsem : RecSem L classes referenceable) (hbad : RecBad L classes referenceable)
    {s : St} (hs : s.classes = []) {i : Bytes} (hl : i.length < L) :
    BMatch (memberReferenceNone classes s i) (BadMember none (abs s) i) := by
  unfold memberReferenceNone
  refine (BMatch.bind (library_match hs i) (library_bmatch hs i) (C := fun _ E i o E' => (BadPlain i o ∧ E' = E) ∨
    ((∀ tag ∈ plainTags, i.head? ≠ some tag) ∧ BadClass E i o E')) fun _ s i hs _ hli => ?_).congr fun o E' => ?_
  · have key : ∀ x : Res ValueOrRef, (match plainAlt i with
        | .error _ => (classes s i).map fun (o : Nat × Object) => ValueOrRef.value o.2.toValue
        | r => (r, s)) = x → BMatch x (fun o E' => (BadPlain i o ∧ E' = abs s) ∨
          ((∀ tag ∈ plainTags, i.head? ≠ some tag) ∧ BadClass (abs s) i o E')) := by
      rintro x rfl
      by_cases hp : ∃ tag ∈ plainTags, i.head? = some tag
      · have hst : BMatch ((plainAlt i, s) : Res ValueOrRef) (fun o E' => BadPlain i o ∧ E' = abs s) :=
          BMatch.still hs rfl (plain_verdict hp)
        have hst' := hst.congr (C := fun o E' => (BadPlain i o ∧ E' = abs s) ∨
          ((∀ tag ∈ plainTags, i.head? ≠ some tag) ∧ BadClass (abs s) i o E')) fun o E' => ⟨.inl, by
            rintro (h | ⟨h, _⟩)
            · exact h
            · obtain ⟨tag, ht, h'⟩ := hp; exact absurd h' (h tag ht)⟩
        cases hx : plainAlt i with
        | error e =>
          obtain ⟨tag, ht, h⟩ := hp
          have hc : ¬ ClassByte i := by
            intro hc
            unfold ClassByte at hc
            simp only [plainTags, List.mem_cons, List.not_mem_nil, or_false] at ht
            rcases ht with rfl | rfl | rfl | rfl | rfl | rfl <;> rw [h] at hc <;> simp at hc
          obtain ⟨e', he⟩ := hsem.other s i (by omega) hc (by
            rw [h]
            simp only [plainTags, List.mem_cons, List.not_mem_nil, or_false] at ht
            rcases ht with rfl | rfl | rfl | rfl | rfl | rfl <;> decide)
          simp only [he]
          rw [hx] at hst'
          exact hst'
        | _ => rw [hx] at hst'; exact hst'
      · have hno : ∀ tag ∈ plainTags, i.head? ≠ some tag := fun tag ht h => hp ⟨tag, ht, h⟩
        obtain ⟨e, he⟩ := plain_other hno
        have h1 : ∀ o, ¬ BadPlain i o := by
          rintro o (⟨h, _⟩ | ⟨h, _⟩ | ⟨h, _⟩ | ⟨h | h, _⟩) <;> exact hno _ (by simp [plainTags]) h
        rw [he]
        refine ((hbad.cls s i hs (by omega)).map _).congr fun o E' => ?_
        simp only [h1, false_and, false_or]
        exact ⟨fun h => ⟨hno, h⟩, fun h => h.2⟩
    exact key _ rfl
  · constructor
    · rintro (h | ⟨_, E1, i1, hlib, ⟨h, rfl⟩ | ⟨h1, h2⟩⟩)
      · exact .library h
      · exact .plain hlib h
      · exact .object hlib h1 h2
    · intro h
      cases h with
      | library h => exact .inl h
      | plain hlib h => exact .inr ⟨(), _, _, hlib, .inl ⟨h, rfl⟩⟩
      | object hlib h1 h2 => exact .inr ⟨(), _, _, hlib, .inr ⟨h1, h2⟩⟩

theorem expectedClass_bmatch (hsem : RecSem L classes referenceable) (hbad : RecBad L classes referenceable)
    {s : St} (hs : s.classes = []) {i : Bytes} (hl : i.length < L) (name : Str) (library : Option Str) :
    BMatch (expectedClass classes name library s i) (fun o E' =>
      (∃ id name' library' members i2, Spec.Class (abs s) i id name' library' members E' i2 ∧
        (name' ≠ name ∨ library' ≠ library) ∧ o = fatal i2 .unexpectedClass) ∨
      (∃ o', BadClass (abs s) i o' E' ∧ BadNulls i o)) := by
  have hm := hsem.cls s i hs hl
  have hb := hbad.cls s i hs hl
  unfold expectedClass
  cases hc : classes s i with
  | mk x s1 =>
    rw [hc] at hb
    have noClass : (∀ r a, x ≠ .ok r a) → ∀ {id name' library' members E2 i2},
        ¬ Spec.Class (abs s) i id name' library' members E2 i2 := by
      intro hx id name' library' members E2 i2 h
      obtain ⟨s', h', _⟩ := hm.2 (id, ⟨name', library', members⟩) E2 i2 h
      rw [hc] at h'
      cases h'
      exact hx _ _ rfl
    have nulls : ∀ o', verdict x = some o' → (∀ r a, x ≠ .ok r a) →
        BMatch ((parseNullObject i, s1) : Res ValueOrRef) (fun o E' =>
          (∃ id name' library' members i2, Spec.Class (abs s) i id name' library' members E' i2 ∧
            (name' ≠ name ∨ library' ≠ library) ∧ o = fatal i2 .unexpectedClass) ∨
          (∃ o', BadClass (abs s) i o' E' ∧ BadNulls i o)) := by
      intro o' ho hx
      obtain ⟨hs1, hb1⟩ := (BMatch.single (x := (x, s1)) ho).mp hb
      refine (BMatch.still (x := ((parseNullObject i, s1) : Res ValueOrRef)) (s := s1) hs1 rfl
        (fun o => nullObject_broken i o)).congr fun o E' => ?_
      constructor
      · rintro ⟨h, rfl⟩; exact .inr ⟨o', (hb1 _ _).mpr ⟨rfl, rfl⟩, h⟩
      · rintro (⟨_, _, _, _, _, h, _⟩ | ⟨o'', h1, h2⟩)
        · exact absurd h (noClass hx)
        · exact ⟨h2, ((hb1 _ _).mp h1).2⟩
    have stuck : verdict x = none → (∀ r a, x ≠ .ok r a) → ∀ y : Res ValueOrRef, verdict y.1 = none →
        BMatch y (fun o E' =>
          (∃ id name' library' members i2, Spec.Class (abs s) i id name' library' members E' i2 ∧
            (name' ≠ name ∨ library' ≠ library) ∧ o = fatal i2 .unexpectedClass) ∨
          (∃ o', BadClass (abs s) i o' E' ∧ BadNulls i o)) := by
      intro ho hx y hy
      refine (BMatch.silent hy).mpr ?_
      rintro o E' (⟨_, _, _, _, _, h, _⟩ | ⟨o'', h1, h2⟩)
      · exact absurd h (noClass hx)
      · exact (BMatch.silent (x := (x, s1)) ho).mp hb _ _ h1
    cases x with
    | ok r a =>
      obtain ⟨hj, hs1, _⟩ := hm.1 _ _ _ hc
      have nob := (BMatch.silent (x := (.ok r a, s1)) rfl).mp hb
      have one : ∀ {id name' library' members E2 i2}, Spec.Class (abs s) i id name' library' members E2 i2 →
          name' = a.2.cls ∧ library' = a.2.library ∧ i2 = r ∧ E2 = abs s1 := by
        intro id name' library' members E2 i2 h
        obtain ⟨s', h', hE⟩ := hm.2 (id, ⟨name', library', members⟩) E2 i2 h
        rw [hc] at h'
        cases h'
        exact ⟨rfl, rfl, rfl, hE.symm⟩
      simp only
      split
      · rename_i hne
        refine (BMatch.failure hs1).congr fun o E' => ?_
        constructor
        · rintro ⟨rfl, rfl⟩; exact .inl ⟨_, _, _, _, _, hj, hne, rfl⟩
        · rintro (⟨_, _, _, _, _, h, _, rfl⟩ | ⟨_, h, _⟩)
          · obtain ⟨_, _, rfl, rfl⟩ := one h
            exact ⟨rfl, rfl⟩
          · exact absurd h (nob _ _)
      · rename_i hne
        refine (BMatch.silent rfl).mpr ?_
        rintro o E' (⟨_, _, _, _, _, h, h', _⟩ | ⟨_, h, _⟩)
        · obtain ⟨rfl, rfl, _⟩ := one h
          exact hne h'
        · exact absurd h (nob _ _)
    | error e => exact nulls none rfl (by simp)
    | failure e => exact nulls _ rfl (by simp)
    | panic => exact stuck rfl (by simp) _ rfl
    | diverge => exact stuck rfl (by simp) _ rfl

theorem stringElement_broken : Broken (alt stringMember [refMember, parseNullObject]) BadStringElement := by
  intro i o
  unfold BadStringElement
  by_cases h6 : i.head? = some 6
  · rw [alt_first, stringMember_broken i o]
    · simp [h6]
    · rw [alt_error (refMember_mismatch (by rw [h6]; decide))]
      exact nullMember_mismatch (by rw [h6]; decide) (by rw [h6]; decide) (by rw [h6]; decide)
  · rw [alt_error (stringMember_mismatch h6)]
    by_cases h9 : i.head? = some 9
    · rw [alt_first, refMember_broken i o]
      · simp [h9]
      · exact nullMember_mismatch (by rw [h9]; decide) (by rw [h9]; decide) (by rw [h9]; decide)
    · rw [alt_error (refMember_mismatch h9), alt_nil, nullObject_broken i o]
      simp [h6, h9]

theorem member_bmatch (hsem : RecSem L classes referenceable) (hbad : RecBad L classes referenceable)
    {s : St} (hs : s.classes = []) {i : Bytes} (hl : i.length < L) (T : MemberType) :
    BMatch (memberReference classes (binaryType T) (typeInfo T) s i) (BadMember (some T) (abs s) i) := by
  unfold memberReference
  cases T with
  | primitive t =>
    simp only [binaryType, typeInfo]
    refine (BMatch.bind (library_match hs i) (library_bmatch hs i) (C := fun _ E i o E' => BadPrimitive t i o ∧ E' = E)
      fun _ s i hs _ hli => BMatch.lift (untypedMember_broken t) hs i).congr fun o E' => ?_
    constructor
    · rintro (h | ⟨_, E1, i1, hlib, h, rfl⟩)
      · exact .library h
      · exact .typedPrimitive hlib h
    · intro h
      cases h with
      | library h => exact .inl h
      | typedPrimitive hlib h => exact .inr ⟨(), _, _, hlib, h, rfl⟩
  | string =>
    simp only [binaryType, typeInfo]
    refine (BMatch.bind (library_match hs i) (library_bmatch hs i) (C := fun _ E i o E' => BadObjectString i o ∧ E' = E)
      fun _ s i hs _ hli => BMatch.lift stringMember_broken hs i).congr fun o E' => ?_
    constructor
    · rintro (h | ⟨_, E1, i1, hlib, h, rfl⟩)
      · exact .library h
      · exact .typedString hlib h
    · intro h
      cases h with
      | library h => exact .inl h
      | typedString hlib h => exact .inr ⟨(), _, _, hlib, h, rfl⟩
  | object =>
    simp only [binaryType, typeInfo]
    refine (BMatch.bind (library_match hs i) (library_bmatch hs i) (C := fun _ E i o E' => BadMember none E i o E')
      fun _ s i hs _ hli => memberNone_bmatch hsem hbad hs (by omega)).congr fun o E' => ?_
    constructor
    · rintro (h | ⟨_, E1, i1, hlib, h⟩)
      · exact .library h
      · exact .typedObject hlib h
    · intro h
      cases h with
      | library h => exact .inl h
      | typedObject hlib h => exact .inr ⟨(), _, _, hlib, h⟩
  | objectArray =>
    simp only [binaryType, typeInfo]
    refine (BMatch.bind (library_match hs i) (library_bmatch hs i) (C := fun _ E i o E' => BadMember none E i o E')
      fun _ s i hs _ hli => memberNone_bmatch hsem hbad hs (by omega)).congr fun o E' => ?_
    constructor
    · rintro (h | ⟨_, E1, i1, hlib, h⟩)
      · exact .library h
      · exact .typedObjectArray hlib h
    · intro h
      cases h with
      | library h => exact .inl h
      | typedObjectArray hlib h => exact .inr ⟨(), _, _, hlib, h⟩
  | systemClass name =>
    simp only [binaryType, typeInfo]
    refine (BMatch.bind (library_match hs i) (library_bmatch hs i) (C := fun _ E i o E' =>
      (∃ id name' library' members i2, Spec.Class E i id name' library' members E' i2 ∧
        (name' ≠ name ∨ library' ≠ none) ∧ o = fatal i2 .unexpectedClass) ∨
      (∃ o', BadClass E i o' E' ∧ BadNulls i o))
      fun _ s i hs _ hli => expectedClass_bmatch hsem hbad hs (by omega) name none).congr fun o E' => ?_
    constructor
    · rintro (h | ⟨_, E1, i1, hlib, ⟨_, _, _, _, _, h1, h2, rfl⟩ | ⟨o', h1, h2⟩⟩)
      · exact .library h
      · exact .otherSystemClass hlib h1 h2
      · exact .noSystemClass hlib h1 h2
    · intro h
      cases h with
      | library h => exact .inl h
      | otherSystemClass hlib h1 h2 => exact .inr ⟨(), _, _, hlib, .inl ⟨_, _, _, _, _, h1, h2, rfl⟩⟩
      | noSystemClass hlib h1 h2 => exact .inr ⟨(), _, _, hlib, .inr ⟨_, h1, h2⟩⟩
  | «class» name l =>
    refine (BMatch.bind (library_match hs i) (library_bmatch hs i) (C := fun _ E i o E' =>
      (E.libs l = none ∧ o = fatal i .missingLibraryId ∧ E' = E) ∨ ∃ library, E.libs l = some library ∧
      ((∃ id name' library' members i2, Spec.Class E i id name' library' members E' i2 ∧
        (name' ≠ name ∨ library' ≠ some library) ∧ o = fatal i2 .unexpectedClass) ∨
      (∃ o', BadClass E i o' E' ∧ BadNulls i o)))
      fun _ s i hs _ hli => ?_).congr fun o E' => ?_
    · simp only [binaryType, typeInfo]
      cases hlib : s.libs.get? l with
      | none =>
        refine (BMatch.failure hs).congr fun o E' => ?_
        constructor
        · rintro ⟨rfl, rfl⟩; exact .inl ⟨hlib, rfl, rfl⟩
        · rintro (⟨_, rfl, rfl⟩ | ⟨library, h, _⟩)
          · exact ⟨rfl, rfl⟩
          · simp only [abs] at h; rw [hlib] at h; cases h
      | some library =>
        refine (expectedClass_bmatch hsem hbad hs (by omega) name (some library)).congr fun o E' => ?_
        constructor
        · intro h; exact .inr ⟨library, hlib, h⟩
        · rintro (⟨h, _⟩ | ⟨library', h1, h⟩)
          · simp only [abs] at h; rw [hlib] at h; cases h
          · simp only [abs] at h1
            rw [hlib] at h1
            cases h1
            exact h
    · constructor
      · rintro (h | ⟨_, E1, i1, hlib, ⟨h0, rfl, rfl⟩ | ⟨library, h0, ⟨_, _, _, _, _, h1, h2, rfl⟩ | ⟨o', h1, h2⟩⟩⟩)
        · exact .library h
        · exact .unknownLibrary hlib h0
        · exact .otherClass hlib h0 h1 h2
        · exact .noClass hlib h0 h1 h2
      · intro h
        cases h with
        | library h => exact .inl h
        | unknownLibrary hlib h0 => exact .inr ⟨(), _, _, hlib, .inl ⟨h0, rfl, rfl⟩⟩
        | otherClass hlib h0 h1 h2 =>
          exact .inr ⟨(), _, _, hlib, .inr ⟨_, h0, .inl ⟨_, _, _, _, _, h1, h2, rfl⟩⟩⟩
        | noClass hlib h0 h1 h2 => exact .inr ⟨(), _, _, hlib, .inr ⟨_, h0, .inr ⟨_, h1, h2⟩⟩⟩
  | stringArray =>
    simp only [binaryType, typeInfo]
    refine (BMatch.bind (library_match hs i) (library_bmatch hs i) (C := fun _ E i o E' => BadStringElement i o ∧ E' = E)
      fun _ s i hs _ hli => BMatch.lift stringElement_broken hs i).congr fun o E' => ?_
    constructor
    · rintro (h | ⟨_, E1, i1, hlib, h, rfl⟩)
      · exact .library h
      · exact .stringArray hlib h
    · intro h
      cases h with
      | library h => exact .inl h
      | stringArray hlib h => exact .inr ⟨(), _, _, hlib, h, rfl⟩
  | primitiveArray t =>
    simp only [binaryType, typeInfo]
    refine (BMatch.bind (library_match hs i) (library_bmatch hs i) (C := fun _ E i o E' => BadReference i o ∧ E' = E)
      fun _ s i hs _ hli => BMatch.lift refMember_broken hs i).congr fun o E' => ?_
    constructor
    · rintro (h | ⟨_, E1, i1, hlib, h, rfl⟩)
      · exact .library h
      · exact .primitiveArray hlib h
    · intro h
      cases h with
      | library h => exact .inl h
      | primitiveArray hlib h => exact .inr ⟨(), _, _, hlib, h, rfl⟩

theorem memberOf_bmatch (hsem : RecSem L classes referenceable) (hbad : RecBad L classes referenceable)
    {s : St} (hs : s.classes = []) {i : Bytes} (hl : i.length < L) (T : Option MemberType) :
    BMatch (memberOf classes T s i) (BadMember T (abs s) i) := by
  cases T with
  | none => exact memberNone_bmatch hsem hbad hs hl
  | some T => exact member_bmatch hsem hbad hs hl T

theorem untypedMembers_bmatch (hsem : RecSem L classes referenceable) (hbad : RecBad L classes referenceable)
    {s : St} (hs : s.classes = []) {i : Bytes} (hl : i.length < L) (T : Option MemberType) (n : Nat) :
    BMatch (countS (memberOf classes T) n s i) (BadMembers (List.replicate n T) (abs s) i) := by
  induction n generalizing s i with
  | zero =>
    refine BMatch.ret.congr fun o E' => ?_
    constructor
    · exact False.elim
    · intro h; cases h
  | succ n ih =>
    refine (BMatch.bind (memberOf_match hsem hs hl T) (memberOf_bmatch hsem hbad hs hl T)
      (C := fun _ E1 i1 o E' => BadMembers (List.replicate n T) E1 i1 o E')
      fun m s1 i1 hs1 _ hl1 => (ih hs1 (by omega)).map _).congr fun o E' => ?_
    rw [List.replicate_succ]
    constructor
    · rintro (h | ⟨m, E1, i1, h1, h2⟩)
      · exact .here h
      · exact .later h1 h2
    · intro h
      cases h with
      | here h => exact .inl h
      | @later _ _ _ _ slot _ _ _ _ h1 h2 =>
        refine .inr ⟨ofSlot slot, _, _, ?_, h2⟩
        cases slot <;> exact h1

theorem typedMembers_bmatch (hsem : RecSem L classes referenceable) (hbad : RecBad L classes referenceable)
    {s : St} (hs : s.classes = []) {i : Bytes} (hl : i.length < L) (Ts : List MemberType) :
    BMatch (membersWithTypeInfo classes ((Ts.map binaryType).zip (Ts.map typeInfo)) s i)
      (BadMembers (Ts.map some) (abs s) i) := by
  induction Ts generalizing s i with
  | nil =>
    refine BMatch.ret.congr fun o E' => ?_
    constructor
    · exact False.elim
    · intro h; cases h
  | cons T Ts ih =>
    refine (BMatch.bind (member_match hsem hs hl T) (member_bmatch hsem hbad hs hl T)
      (C := fun _ E1 i1 o E' => BadMembers (Ts.map some) E1 i1 o E')
      fun m s1 i1 hs1 _ hl1 => (ih hs1 (by omega)).map _).congr fun o E' => ?_
    constructor
    · rintro (h | ⟨m, E1, i1, h1, h2⟩)
      · exact .here h
      · exact .later h1 h2
    · intro h
      cases h with
      | here h => exact .inl h
      | @later _ _ _ _ slot _ _ _ _ h1 h2 =>
        refine .inr ⟨ofSlot slot, _, _, ?_, h2⟩
        cases slot <;> exact h1

/-! ## Resolution -/

theorem resolveRef_bmatch (hsem : RecSem L classes referenceable) (hbad : RecBad L classes referenceable)
    {s : St} (hs : s.classes = []) {i : Bytes} (hl : i.length < L) (id : Nat) :
    BMatch (resolveRef referenceable id s i) (fun o E' => (abs s).objs id = none ∧ (BadRecord (abs s) i o E' ∨
      ∃ id' v E1 i1, Record (abs s) i id' v E1 i1 ∧ id' ≠ id ∧ o = none ∧ E' = E1.add id' v)) := by
  have hm := hsem.ref s i hs hl
  have hb := hbad.ref s i hs hl
  unfold resolveRef
  cases hg : s.objects.get? id with
  | some v =>
    refine (BMatch.silent rfl).mpr fun o E' h => ?_
    have h := h.1
    simp only [abs] at h; rw [hg] at h; cases h
  | none =>
    have hn : (abs s).objs id = none := hg
    simp only [hn, true_and]
    cases hc : referenceable s i with
    | mk x s1 =>
      rw [hc] at hb
      have noRec : (∀ r a, x ≠ .ok r a) → ∀ {id' v E1 i1}, ¬ Record (abs s) i id' v E1 i1 := by
        intro hx id' v E1 i1 h
        obtain ⟨s', h', _⟩ := hm.2 id' _ i1 ⟨v, E1, h, rfl⟩
        rw [hc] at h'
        cases h'
        exact hx _ _ rfl
      have same : (∀ r a, x ≠ .ok r a) → ∀ o E', BadRecord (abs s) i o E' ↔ BadRecord (abs s) i o E' ∨
          ∃ id' v E1 i1, Record (abs s) i id' v E1 i1 ∧ id' ≠ id ∧ o = none ∧ E' = E1.add id' v := by
        intro hx o E'
        constructor
        · exact .inl
        · rintro (h | ⟨_, _, _, _, h, _⟩)
          · exact h
          · exact absurd h (noRec hx)
      cases x with
      | ok r id2 =>
        obtain ⟨⟨v, E1, hrec, hE⟩, hs1, hl1⟩ := hm.1 _ _ _ hc
        have nb := (BMatch.silent (x := (.ok r id2, s1)) rfl).mp hb
        have one : ∀ {id' v' E1' i1}, Record (abs s) i id' v' E1' i1 → id' = id2 ∧ E1'.add id' v' = abs s1 := by
          intro id' v' E1' i1 h
          obtain ⟨s', h', hE'⟩ := hm.2 id' _ i1 ⟨v', E1', h, rfl⟩
          rw [hc] at h'
          cases h'
          exact ⟨rfl, hE'.symm⟩
        simp only [nb, false_or]
        split
        · rename_i hid
          have hobj : s1.objects.get? id2 = some v := by
            have : (abs s1).objs id2 = some v := by rw [hE]; simp [Env.add]
            exact this
          rw [hobj]
          refine (BMatch.silent rfl).mpr ?_
          rintro o E' ⟨id', _, _, _, h, hne, _⟩
          exact hne ((one h).1.trans hid)
        · rename_i hid
          refine (BMatch.single (o := none) rfl).mpr ⟨hs1, fun o E' => ?_⟩
          constructor
          · rintro ⟨_, _, _, _, h, _, rfl, rfl⟩; exact ⟨rfl, (one h).2⟩
          · rintro ⟨rfl, rfl⟩; exact ⟨id2, v, E1, r, hrec, hid, rfl, hE⟩
      | error e => exact BMatch.congr ((BMatch.single (o := none) rfl).mpr ((BMatch.single (o := none) rfl).mp hb)) (same (by simp))
      | failure e => exact BMatch.congr ((BMatch.single (o := some e) rfl).mpr ((BMatch.single (o := some e) rfl).mp hb)) (same (by simp))
      | panic => exact BMatch.congr ((BMatch.silent rfl).mpr ((BMatch.silent rfl).mp hb)) (same (by simp))
      | diverge => exact BMatch.congr ((BMatch.silent rfl).mpr ((BMatch.silent rfl).mp hb)) (same (by simp))

theorem resolve_bmatch (hsem : RecSem L classes referenceable) (hbad : RecBad L classes referenceable)
    {s : St} (hs : s.classes = []) {i : Bytes} (hl : i.length < L) (ms : List ValueOrRef) :
    BMatch (resolveMembers referenceable ms s i) (BadResolve (ms.map slotOf) (abs s) i) := by
  induction ms generalizing s i with
  | nil =>
    refine BMatch.ret.congr fun o E' => ?_
    constructor
    · exact False.elim
    · intro h; cases h
  | cons m ms ih =>
    cases m with
    | value v =>
      refine ((ih hs hl).map (v :: ·)).congr fun o E' => ?_
      constructor
      · exact .value
      · intro h; cases h with | value h => exact h
    | null n =>
      refine ((ih hs hl).map (List.replicate n .null ++ ·)).congr fun o E' => ?_
      constructor
      · exact .nulls
      · intro h; cases h with | nulls h => exact h
    | ref id =>
      refine (BMatch.bind (resolveRef_match hsem hs hl id) (resolveRef_bmatch hsem hbad hs hl id)
        (C := fun _ E1 i1 o E' => BadResolve (ms.map slotOf) E1 i1 o E')
        fun v s1 i1 hs1 _ hl1 => (ih hs1 (by omega)).map _).congr fun o E' => ?_
      constructor
      · rintro (⟨h0, h | ⟨id', v, E1, i1, h1, h2, rfl, rfl⟩⟩ | ⟨v, E1, i1, ⟨h1, rfl, rfl⟩ | ⟨h1, E2, hrec, rfl⟩, h2⟩)
        · exact .record h0 h
        · exact .other h0 h1 h2
        · exact .known h1 h2
        · exact .next h1 hrec h2
      · intro h
        cases h with
        | known h1 h2 => exact .inr ⟨_, _, _, .inl ⟨h1, rfl, rfl⟩, h2⟩
        | next h1 hrec h2 => exact .inr ⟨_, _, _, .inr ⟨h1, _, hrec, rfl⟩, h2⟩
        | record h0 h => exact .inl ⟨h0, .inl h⟩
        | other h0 h1 h2 => exact .inl ⟨h0, .inr ⟨_, _, _, _, h1, h2, rfl, rfl⟩⟩

theorem badResolve_nulls (n : Nat) (slots : List Slot) {E : Env} {i : Bytes} {o : Report} {E' : Env} :
    BadResolve (List.replicate n (.value .null) ++ slots) E i o E' ↔ BadResolve slots E i o E' := by
  induction n with
  | zero => simp
  | succ n ih =>
    rw [List.replicate_succ, List.cons_append]
    constructor
    · intro h; cases h with | value h => exact ih.mp h
    · intro h; exact .value (ih.mpr h)

theorem badResolve_expand (ms : List ValueOrRef) {E : Env} {i : Bytes} {o : Report} {E' : Env} :
    BadResolve ((expand ms).map slotOf) E i o E' ↔ BadResolve (ms.map slotOf) E i o E' := by
  induction ms generalizing E i with
  | nil => rfl
  | cons m ms ih =>
    cases m with
    | value v =>
      simp only [expand, List.map_cons, slotOf]
      constructor
      · intro h; cases h with | value h => exact .value (ih.mp h)
      · intro h; cases h with | value h => exact .value (ih.mpr h)
    | null n =>
      simp only [expand, List.map_append, List.map_replicate, List.map_cons, slotOf]
      rw [badResolve_nulls, ih]
      constructor
      · exact .nulls
      · intro h; cases h with | nulls h => exact h
    | ref id =>
      simp only [expand, List.map_cons, slotOf]
      constructor
      · intro h
        cases h with
        | known h1 h => exact .known h1 (ih.mp h)
        | next h1 h2 h => exact .next h1 h2 (ih.mp h)
        | record h1 h => exact .record h1 h
        | other h0 h1 h2 => exact .other h0 h1 h2
      · intro h
        cases h with
        | known h1 h => exact .known h1 (ih.mpr h)
        | next h1 h2 h => exact .next h1 h2 (ih.mpr h)
        | record h1 h => exact .record h1 h
        | other h0 h1 h2 => exact .other h0 h1 h2

end Nrbf
