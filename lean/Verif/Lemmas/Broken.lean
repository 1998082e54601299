import Verif.Spec.Errors
import Verif.Lemmas.Refine

/-! # What the stateless parsers report about input they reject -/

set_option autoImplicit false

namespace Nrbf
open Spec

variable {α β : Type}

/-- What is visible of a result that is an error. -/
def verdict : Outcome Error α → Option Report
  | .error _ => some none
  | .failure e => some (some e)
  | .ok _ _ | .panic | .diverge => none

/-- `p` reports exactly what `B` says. -/
def Broken (p : Parser α) (B : Bytes → Report → Prop) : Prop := ∀ i o, verdict (p i) = some o ↔ B i o

theorem verdict_map (x : Outcome Error α) (f : α → β) : verdict (x.map f) = verdict x := by
  cases x <;> rfl

theorem verdict_bind (x : Outcome Error α) (f : α → Parser β) (o : Report) :
    verdict (x.bind f) = some o ↔ verdict x = some o ∨ ∃ r a, x = .ok r a ∧ verdict (f a r) = some o := by
  cases x with
  | ok r a =>
    simp only [Outcome.bind, verdict]
    constructor
    · intro h; exact .inr ⟨r, a, rfl, h⟩
    · rintro (h | ⟨r', a', h, h'⟩)
      · cases h
      · cases h; exact h'
  | _ => simp [Outcome.bind, verdict]

namespace Broken

theorem congr {p : Parser α} {B C : Bytes → Report → Prop} (h : Broken p B) (e : ∀ i o, B i o ↔ C i o) :
    Broken p C := fun i o => (h i o).trans (e i o)

theorem map {p : Parser α} {B : Bytes → Report → Prop} (f : α → β) (h : Broken p B) :
    Broken (fun i => (p i).map f) B := fun i o => by rw [verdict_map]; exact h i o

theorem bind {p : Parser α} {q : α → Parser β} {R : α → Bytes → Prop} {B : Bytes → Report → Prop}
    {C : α → Bytes → Report → Prop} (hp : Exact p R) (hb : Broken p B) (hq : ∀ a, Broken (q a) (C a)) :
    Broken (fun i => (p i).bind q) (fun i o => B i o ∨ After R (fun a r => C a r o) i) := by
  intro i o
  rw [verdict_bind, hb i o]
  refine or_congr Iff.rfl ?_
  constructor
  · rintro ⟨r, a, h, h'⟩
    obtain ⟨b, hb, rfl⟩ := (hp _ _ _).mp h
    exact ⟨a, b, r, hb, rfl, (hq a r o).mp h'⟩
  · rintro ⟨a, b, r, hr, rfl, h⟩
    exact ⟨r, a, (hp _ _ _).mpr ⟨b, hr, rfl⟩, (hq a r o).mpr h⟩

theorem pure (f : Bytes → α) : Broken (fun i => .ok i (f i)) (fun _ _ => False) := by
  intro i o; simp [verdict]

/-- A bind whose continuation does not fail. -/
theorem bind_pure {p : Parser α} {B : Bytes → Report → Prop} (f : α → β) (h : Broken p B) :
    Broken (fun i => (p i).bind fun a i => .ok i (f a)) B := h.map f

/-- A parser with one kind of report. -/
theorem total {p : Parser α} {R : α → Bytes → Prop} {f : Bytes → Report} (hp : Exact p R)
    (h : ∀ i, (∃ r a, p i = .ok r a) ∨ verdict (p i) = some (f i)) :
    Broken p (fun i o => (¬ ∃ a b r, R a b ∧ i = b ++ r) ∧ o = f i) := by
  intro i o
  rcases h i with ⟨r, a, h⟩ | h
  · obtain ⟨b, hb, rfl⟩ := (hp _ _ _).mp h
    rw [h]
    simp only [verdict, reduceCtorEq, false_iff]
    rintro ⟨hn, _⟩
    exact hn ⟨a, b, r, hb, rfl⟩
  · rw [h]
    constructor
    · rintro e
      refine ⟨?_, by cases e; rfl⟩
      rintro ⟨a, b, r, hr, rfl⟩
      rw [(hp _ _ _).mpr ⟨b, hr, rfl⟩] at h
      cases h
    · rintro ⟨_, rfl⟩; rfl

theorem count {p : Parser α} {R : α → Bytes → Prop} {B : Bytes → Report → Prop} (hp : Exact p R)
    (hb : Broken p B) (n : Nat) : Broken (Nrbf.count p n) (BadMany R B n) := by
  induction n with
  | zero =>
    intro i o
    simp only [Nrbf.count, verdict, reduceCtorEq, false_iff]
    rintro ⟨_, _, _, h, _⟩
    omega
  | succ n ih =>
    refine (Broken.bind hp hb fun a => ih.map (a :: ·)).congr fun i o => ?_
    constructor
    · rintro (h | ⟨a, b, r, hr, rfl, as, b', r', hl, hs, rfl, h⟩)
      · exact ⟨[], [], i, by simp, rfl, rfl, h⟩
      · exact ⟨a :: as, b ++ b', r', by simp; omega, ⟨b, b', hr, hs, rfl⟩, by simp, h⟩
    · rintro ⟨as, b, r, hl, hs, rfl, h⟩
      cases as with
      | nil => cases hs; exact .inl h
      | cons a as =>
        obtain ⟨b1, b2, h1, h2, rfl⟩ := hs
        exact .inr ⟨a, b1, b2 ++ r, h1, by simp, as, b2, r, by simpa using hl, h2, rfl, h⟩

end Broken

theorem recordType_head {t : RecordType} {i : Bytes} (h : i.head? = some t.code) :
    ∃ r, i = t.code :: r ∧ t.parse i = .ok r t := by
  cases i with
  | nil => cases h
  | cons x r =>
    simp only [List.head?_cons, Option.some.injEq] at h
    subst h
    exact ⟨r, rfl, (recordType_exact t _ _ _).mpr ⟨_, ⟨rfl, rfl⟩, rfl⟩⟩

theorem tagged_broken {t : RecordType} {p : Parser α} {B : Bytes → Report → Prop} (hp : Broken p B) :
    Broken (fun i => (t.parse i).bind fun _ i => p i) (BadTagged t.code B) := by
  intro i o
  by_cases h : i.head? = some t.code
  · obtain ⟨r, rfl, e⟩ := recordType_head h
    simp only [e, Outcome.bind]
    rw [hp r o]
    constructor
    · intro h; exact .inr ⟨r, rfl, h⟩
    · rintro (⟨hn, _⟩ | ⟨r', e', h'⟩)
      · exact absurd rfl hn
      · cases e'; exact h'
  · simp only [tagged_mismatch h, verdict, Option.some.injEq]
    constructor
    · rintro rfl; exact .inl ⟨h, rfl⟩
    · rintro (⟨_, rfl⟩ | ⟨r, rfl, _⟩)
      · rfl
      · exact absurd rfl h

/-! ## Fields -/

theorem takeN_cases (w : Nat) (i : Bytes) : (∃ a r, takeN w i = some (a, r) ∧ w ≤ i.length) ∨
    (takeN w i = none ∧ i.length < w) := by
  unfold takeN
  split
  · exact .inl ⟨_, _, rfl, by assumption⟩
  · exact .inr ⟨rfl, by omega⟩

theorem leUnsigned_broken (w : Nat) (inner : ErrorInner) :
    Broken (fun i => (leUnsigned w i).intoFailure.at inner) (fun i o => i.length < w ∧ o = fatal i inner) := by
  intro i o
  unfold leUnsigned
  simp only
  rcases takeN_cases w i with ⟨a, r, h, hl⟩ | ⟨h, hl⟩
  · rw [h]
    simp only [Outcome.intoFailure, Outcome.at, Outcome.mapErr, verdict, reduceCtorEq, false_iff]
    omega
  · rw [h]
    simp only [Outcome.intoFailure, Outcome.at, Outcome.mapErr, verdict, Option.some.injEq, fatal]
    exact ⟨fun h => ⟨hl, h.symm⟩, fun h => h.2.symm⟩

theorem leSigned_broken (w : Nat) (inner : ErrorInner) :
    Broken (fun i => (leSigned w i).intoFailure.at inner) (fun i o => i.length < w ∧ o = fatal i inner) := by
  intro i o
  refine Iff.trans ?_ (leUnsigned_broken w inner i o)
  unfold leSigned
  simp only
  cases leUnsigned w i <;> rfl

theorem int32_broken : Broken Int32.parse BadInt32 := leSigned_broken 4 _

theorem natId_broken {p : Parser Nat} {c : Int → Prop} [DecidablePred c] {reason : ErrorInner}
    (hp : p = fun i => (Int32.parse i).bind fun n r =>
      if c n then .ok r n.toNat else .failure ⟨i, reason⟩) :
    Broken p (BadNumber c reason) := by
  subst hp
  intro i o
  simp only [verdict_bind]
  rw [int32_broken i o]
  refine or_congr Iff.rfl ?_
  constructor
  · rintro ⟨r, n, h, h'⟩
    obtain ⟨b, hb, rfl⟩ := (int32_exact _ _ _).mp h
    split at h'
    · cases h'
    · rename_i hc
      simp only [verdict, Option.some.injEq] at h'
      exact ⟨n, b, r, hb, rfl, hc, h'.symm⟩
  · rintro ⟨n, b, r, hb, rfl, hc, rfl⟩
    refine ⟨r, n, (int32_exact _ _ _).mpr ⟨b, hb, rfl⟩, ?_⟩
    rw [if_neg hc]
    rfl

theorem libraryId_broken : Broken libraryId BadLibraryId := natId_broken rfl
theorem objectId_broken : Broken objectId BadId := natId_broken rfl
theorem length_broken : Broken length BadLength := natId_broken rfl

theorem string_broken : Broken lengthPrefixedString BadString :=
  Broken.total (f := fun _ => none) lps_exact fun i => by
    rcases lps_total i with h | ⟨e, h⟩
    · exact .inl h
    · exact .inr (by rw [h]; rfl)

theorem alt_tags_total {ι : Type} (f : ι → UInt8) (t : ι) (ts : List ι) (i : Bytes) :
    (∃ r a, alt (tagByte t (f t)) (ts.map fun t => tagByte t (f t)) i = .ok r a) ∨
    alt (tagByte t (f t)) (ts.map fun t => tagByte t (f t)) i = .error ⟨i, .tag⟩ := by
  have one : ∀ t : ι, (∃ r a, tagByte t (f t) i = .ok r a) ∨ tagByte t (f t) i = .error ⟨i, .tag⟩ := by
    intro t
    unfold tagByte
    split
    · exact .inr rfl
    · split
      · exact .inl ⟨_, _, rfl⟩
      · exact .inr rfl
  induction ts generalizing t with
  | nil => exact one t
  | cons t' ts ih =>
    simp only [List.map_cons, alt]
    rcases one t with ⟨r, a, h⟩ | h
    · rw [h]; exact .inl ⟨_, _, rfl⟩
    · rw [h]; exact ih t'

/-- An enumeration. -/
theorem enum_broken {ι : Type} {p : Parser ι} {f : ι → UInt8} {reason : ErrorInner}
    (hp : Exact p (fun t b => b = [f t]))
    (h : ∀ i, (∃ r a, p i = .ok r a) ∨ p i = .failure ⟨i, reason⟩) : Broken p (BadByte f reason) := by
  refine (Broken.total hp (f := fun i => fatal i reason) fun i => ?_).congr fun i o => ?_
  · rcases h i with h | h
    · exact .inl h
    · exact .inr (by rw [h]; rfl)
  · refine and_congr ?_ Iff.rfl
    constructor
    · intro h a ha
      cases i with
      | nil => cases ha
      | cons x r =>
        simp only [List.head?_cons, Option.some.injEq] at ha
        exact h ⟨a, _, r, rfl, by rw [ha]; rfl⟩
    · rintro h ⟨a, _, r, rfl, rfl⟩
      exact h a rfl

theorem fail_total {ι : Type} {x : Outcome NomError ι} {i : Bytes} {inner : ErrorInner}
    (h : (∃ r a, x = .ok r a) ∨ x = .error ⟨i, .tag⟩) :
    (∃ r a, x.intoFailure.at inner = .ok r a) ∨ x.intoFailure.at inner = .failure ⟨i, inner⟩ := by
  rcases h with ⟨r, a, rfl⟩ | rfl
  · exact .inl ⟨_, _, rfl⟩
  · exact .inr rfl

theorem primitiveType_broken : Broken PrimitiveType.parse BadPrimitiveType :=
  enum_broken primitiveType_exact fun i => fail_total (alt_tags_total PrimitiveType.code .boolean
    [.byte, .char, .decimal, .double, .int16, .int32, .int64, .sbyte, .single, .timeSpan, .dateTime,
      .uint16, .uint32, .uint64, .null, .string] i)

theorem binaryType_broken : Broken BinaryType.parse BadType :=
  enum_broken binaryType_exact fun i => fail_total (alt_tags_total BinaryType.code .primitive
    [.string, .object, .systemClass, .class, .objectArray, .stringArray, .primitiveArray] i)

theorem arrayKind_broken : Broken BinaryArrayType.parse (BadByte arrayKindByte .expectedBinaryArrayType) :=
  enum_broken binaryArrayType_exact fun i => fail_total (alt_tags_total BinaryArrayType.code .single
    [.jagged, .rectangular, .singleOffset, .jaggedOffset, .rectangularOffset] i)

/-! ## Primitives -/

theorem boolean_broken : Broken Boolean.parse (fun i o => i.head? ≠ some 0 ∧ i.head? ≠ some 1 ∧
    o = fatal i (.expectedPrimitive .boolean)) := by
  refine (Broken.total boolean_exact (f := fun i => fatal i (.expectedPrimitive .boolean)) fun i => ?_).congr
    fun i o => ?_
  · unfold Boolean.parse mapOpt leUnsigned
    rcases takeN_cases 1 i with ⟨a, r, h, hl⟩ | ⟨h, hl⟩
    · rw [h]
      simp only
      split
      · exact .inl ⟨_, _, rfl⟩
      · exact .inr rfl
      all_goals rename_i h'; first | cases h' | skip
    · rw [h]; exact .inr rfl
  · rw [← and_assoc]
    refine and_congr ?_ Iff.rfl
    constructor
    · intro h
      cases i with
      | nil => exact ⟨by simp, by simp⟩
      | cons x r =>
        simp only [List.head?_cons, ne_eq, Option.some.injEq]
        constructor
        · rintro rfl; exact h ⟨false, _, r, rfl, rfl⟩
        · rintro rfl; exact h ⟨true, _, r, rfl, rfl⟩
    · rintro ⟨h0, h1⟩ ⟨a, _, r, rfl, rfl⟩
      cases a
      · exact h0 rfl
      · exact h1 rfl

variable [Platform]

theorem decimal_broken : Broken Decimal.parse (BadPrimitive .decimal) := by
  intro i o
  unfold Decimal.parse
  rw [verdict_bind, string_broken i o]
  refine or_congr Iff.rfl ?_
  constructor
  · rintro ⟨r, s, h, h'⟩
    obtain ⟨b, hb, rfl⟩ := (lps_exact _ _ _).mp h
    split at h'
    · cases h'
    · rename_i hd
      simp only [verdict, Option.some.injEq] at h'
      exact ⟨s, b, r, hb, rfl, hd, h'.symm⟩
  · rintro ⟨s, b, r, hb, rfl, hd, rfl⟩
    refine ⟨r, s, (lps_exact _ _ _).mpr ⟨b, hb, rfl⟩, ?_⟩
    rw [hd]
    rfl

theorem untyped_broken (t : PrimitiveType) : Broken (memberPrimitiveUnTyped t) (BadPrimitive t) := by
  cases t <;> unfold memberPrimitiveUnTyped BadPrimitive <;> simp only
  case boolean => exact boolean_broken.map _
  case decimal => exact decimal_broken.map _
  case char => exact Broken.map _ (fun i o => by rw [char_eq]; exact leUnsigned_broken 1 _ i o)
  case dateTime =>
    refine Broken.map _ (fun i o => ?_)
    unfold DateTime.parse Int64.parse
    refine Iff.trans ?_ (leSigned_broken 8 (.expectedPrimitive .dateTime) i o)
    simp only
    cases leSigned 8 i <;> rfl
  case null => intro i o; simp [verdict, fatal, Error.fromErrorKind, eq_comm]
  case string => intro i o; simp [verdict, fatal, Error.fromErrorKind, eq_comm]
  all_goals first
    | exact (leUnsigned_broken _ _).map _
    | exact (leSigned_broken _ _).map _

theorem untypedMember_broken (t : PrimitiveType) :
    Broken (fun i => (memberPrimitiveUnTyped t i).map fun p => ValueOrRef.value p.intoValue) (BadPrimitive t) :=
  (untyped_broken t).map _

theorem typedMember_broken :
    Broken (fun i => (memberPrimitiveTyped i).map fun p => ValueOrRef.value p.intoValue) BadTypedPrimitive :=
  Broken.map _ (tagged_broken (t := .memberPrimitiveTyped)
    (Broken.bind primitiveType_exact primitiveType_broken untyped_broken))

omit [Platform]

theorem reference_broken : Broken MemberReference.parse BadReference := tagged_broken objectId_broken

theorem refMember_broken : Broken refMember BadReference := reference_broken.map _

theorem objectString_broken : Broken BinaryObjectString.parse BadObjectString :=
  tagged_broken (t := .binaryObjectString)
    (Broken.bind objectId_exact objectId_broken fun _ => string_broken.bind_pure _)

theorem stringMember_broken : Broken stringMember BadObjectString := objectString_broken.map _

/-! ## Alternatives -/

theorem alt_error {ε : Type} {p q : PureParser ε α} {qs : List (PureParser ε α)} {i : Bytes} (h : ∃ e, p i = .error e) :
    alt p (q :: qs) i = alt q qs i := by
  obtain ⟨e, h⟩ := h
  simp only [alt, h]

theorem verdict_alt (p q : Parser α) (qs : List (Parser α)) (i : Bytes) (o : Report) :
    verdict (alt p (q :: qs) i) = some o ↔
      (∃ e, verdict (p i) = some (some e) ∧ o = some e) ∨ (verdict (p i) = some none ∧ verdict (alt q qs i) = some o) := by
  simp only [alt]
  cases p i <;> simp [verdict, eq_comm]

/-- The first alternative, when the others are a mismatch. -/
theorem alt_first {p q : Parser α} {qs : List (Parser α)} {i : Bytes} (h : ∃ e, alt q qs i = .error e) :
    verdict (alt p (q :: qs) i) = verdict (p i) := by
  obtain ⟨e, h⟩ := h
  simp only [alt]
  cases p i <;> simp [verdict, h]

theorem verdict_error {x : Outcome Error α} : verdict x = some none ↔ ∃ e, x = .error e := by
  cases x <;> simp [verdict]

theorem verdict_failure {x : Outcome Error α} {e : Error} : verdict x = some (some e) ↔ x = .failure e := by
  cases x <;> simp [verdict]

/-! ## Nulls -/

theorem nullMultiple_broken :
    Broken ObjectNullMultiple.parse (BadTagged 14 (BadNumber (0 < ·) .invalidNullCount)) :=
  tagged_broken (t := .objectNullMultiple) (natId_broken rfl)

theorem head_byte {x : UInt8} {r : Bytes} : Byte.parse (x :: r) = .ok r x.toNat := by
  simp [Byte.parse, leUnsigned, takeN, leNat, Outcome.intoFailure, Outcome.at, Outcome.mapErr]

theorem nullMultiple256_broken : Broken ObjectNullMultiple256.parse (BadTagged 13 fun r o =>
    (r = [] ∧ o = fatal r (.expectedPrimitive .byte)) ∨ (r.head? = some 0 ∧ o = fatal r .invalidNullCount)) := by
  refine tagged_broken (t := .objectNullMultiple256) (p := fun i => (Byte.parse i).bind fun n r =>
    if 0 < n then .ok r n else .failure ⟨i, .invalidNullCount⟩) fun i o => ?_
  cases i with
  | nil =>
    have h : Byte.parse [] = .failure ⟨[], .expectedPrimitive .byte⟩ := rfl
    simp [h, Outcome.bind, verdict, fatal, eq_comm]
  | cons x r =>
    simp only [head_byte, Outcome.bind]
    by_cases h : x = 0
    · subst h
      rw [if_neg (by decide)]
      simp only [verdict, Option.some.injEq, List.head?_cons, reduceCtorEq, false_and, true_and, false_or]
      exact eq_comm
    · have : 0 < x.toNat := by
        rcases Nat.eq_zero_or_pos x.toNat with h' | h'
        · exact absurd (UInt8.toNat_inj.mp h') h
        · exact h'
      rw [if_pos this]
      simp [verdict, h]

theorem nullObject_broken : Broken parseNullObject BadNulls := by
  refine Broken.map _ fun i o => ?_
  by_cases h10 : i.head? = some 10
  · have ok : ∃ r a, ObjectNull.parse i = .ok r a := by
      obtain ⟨r, rfl, h⟩ := recordType_head (t := .objectNull) h10
      exact ⟨r, 1, by unfold ObjectNull.parse; rw [h]; rfl⟩
    obtain ⟨r, a, ok⟩ := ok
    have : alt ObjectNull.parse [ObjectNullMultiple.parse, ObjectNullMultiple256.parse] i = .ok r a := by
      simp only [alt, ok]
    rw [this]
    simp only [verdict, reduceCtorEq, false_iff]
    rintro (⟨h, _⟩ | ⟨r, rfl, _⟩ | ⟨r, rfl, _⟩)
    · exact h 10 (by simp) h10
    · cases h10
    · cases h10
  · have e10 : ∃ e, ObjectNull.parse i = .error e := by
      unfold ObjectNull.parse
      rw [recordType_mismatch h10]
      exact ⟨_, rfl⟩
    rw [alt_error e10]
    by_cases h14 : i.head? = some 14
    · have e13 : ∃ e, alt ObjectNullMultiple256.parse [] i = .error e :=
        ⟨_, tagged_mismatch (by rw [h14]; decide)⟩
      rw [alt_first e13, nullMultiple_broken i o]
      constructor
      · rintro (⟨h, _⟩ | h)
        · exact absurd h14 h
        · exact .inr (.inr h)
      · rintro (⟨h, _⟩ | ⟨r, rfl, _⟩ | h)
        · exact absurd h14 (h 14 (by simp))
        · cases h14
        · exact .inr h
    · have e14 : ∃ e, ObjectNullMultiple.parse i = .error e := ⟨_, tagged_mismatch h14⟩
      rw [alt_error e14, alt_nil, nullMultiple256_broken i o]
      constructor
      · rintro (⟨h, rfl⟩ | h)
        · refine .inl ⟨?_, rfl⟩
          intro tag ht
          simp only [List.mem_cons, List.not_mem_nil, or_false] at ht
          rcases ht with rfl | rfl | rfl <;> assumption
        · exact .inr (.inl h)
      · rintro (⟨h, rfl⟩ | h | ⟨r, rfl, _⟩)
        · exact .inl ⟨h 13 (by simp), rfl⟩
        · exact .inr h
        · exact absurd rfl h14

/-! ## Types and class headers -/

theorem classTypeInfo_broken : Broken ClassTypeInfo.parse
    (fun i o => BadString i o ∨ After IsString (fun _ i => BadLibraryId i o) i) :=
  Broken.bind lps_exact string_broken fun _ => libraryId_broken.bind_pure _

theorem typeInfo_broken (t : BinaryType) : Broken (AdditionalTypeInfo.parse t) (BadTypeInfo t) := by
  cases t <;> unfold AdditionalTypeInfo.parse BadTypeInfo <;> simp only
  case primitive => exact primitiveType_broken.map _
  case primitiveArray => exact primitiveType_broken.map _
  case systemClass => exact string_broken.map _
  case «class» => exact classTypeInfo_broken.map _
  all_goals exact Broken.pure fun _ => none

theorem typeByte_eq (t : BinaryType) : binaryTypeByte t = typeByte t := by cases t <;> rfl

theorem typeByte_inj {t t' : BinaryType} (h : typeByte t = typeByte t') : t = t' := by
  cases t <;> cases t' <;> first | rfl | (exact absurd h (by decide))

theorem additionalInfos_broken (ts : List BinaryType) : Broken (additionalInfosParse ts) (fun i o =>
    ∃ (Ts : List MemberType) (t : BinaryType) (ts' : List BinaryType) (b r : Bytes),
      ts.map typeByte = Ts.map memberTypeByte ++ typeByte t :: ts'.map typeByte ∧
      IsSeq IsTypeInfo Ts b ∧ i = b ++ r ∧ BadTypeInfo t r o) := by
  induction ts with
  | nil =>
    refine (Broken.pure fun _ => []).congr fun i o => ?_
    constructor
    · exact False.elim
    · rintro ⟨Ts, t, ts', b, r, h, _⟩
      simp at h
  | cons t ts ih =>
    refine (Broken.bind (typeInfo_exact t) (typeInfo_broken t) fun info => ih.map (info :: ·)).congr fun i o => ?_
    constructor
    · rintro (h | ⟨info, b, r, ⟨T, rfl, rfl, hT⟩, rfl, Ts, t', ts', b', r', h1, h2, rfl, h3⟩)
      · exact ⟨[], t, ts, [], i, rfl, rfl, rfl, h⟩
      · exact ⟨T :: Ts, t', ts', b ++ b', r', by simp [h1, ← binaryTypeByte_eq, typeByte_eq], ⟨b, b', hT, h2, rfl⟩,
          by simp, h3⟩
    · rintro ⟨Ts, t', ts', b, r, h1, h2, rfl, h3⟩
      cases Ts with
      | nil =>
        simp only [List.map_cons, List.map_nil, List.nil_append, List.cons.injEq] at h1
        obtain rfl := typeByte_inj h1.1
        cases h2
        exact .inl h3
      | cons T Ts =>
        simp only [List.map_cons, List.cons_append, List.cons.injEq] at h1
        obtain ⟨b1, b2, g1, g2, rfl⟩ := h2
        rw [← binaryTypeByte_eq, typeByte_eq] at h1
        obtain rfl := typeByte_inj h1.1
        exact .inr ⟨typeInfo T, b1, b2 ++ r, ⟨T, rfl, rfl, g1⟩, by simp, Ts, t', ts', b2, r, h1.2, g2, rfl, h3⟩

theorem memberTypeInfo_broken (c : ClassInfo) :
    Broken (MemberTypeInfo.parse c) (BadMemberTypes c.memberNames.length) := by
  have e : (fun (t : BinaryType) b => b = [binaryTypeByte t]) = (fun t b => b = [typeByte t]) := by
    funext t b; rw [typeByte_eq]
  have hx : Exact BinaryType.parse (fun t b => b = [typeByte t]) := e ▸ binaryType_exact
  refine (Broken.bind (count_exact hx c.memberNames.length)
    (Broken.count hx binaryType_broken c.memberNames.length) fun ts =>
    (additionalInfos_broken ts).bind_pure fun infos => MemberTypeInfo.mk ts infos).congr fun i o => ?_
  refine or_congr Iff.rfl ?_
  constructor
  · rintro ⟨ts, b, r, ⟨hl, hs⟩, rfl, h⟩
    exact ⟨ts, b, r, ⟨hl, isSeq_singletons.mp hs⟩, rfl, h⟩
  · rintro ⟨ts, b, r, ⟨hl, hs⟩, rfl, h⟩
    exact ⟨ts, b, r, ⟨hl, isSeq_singletons.mpr hs⟩, rfl, h⟩

theorem verdict_relabel (x : Outcome Error α) (inner : ErrorInner) (o : Report) :
    verdict (x.relabel inner) = some o ↔ ∃ o', verdict x = some o' ∧ o = o'.map fun e => ⟨e.input, inner⟩ := by
  cases x <;> simp [Outcome.relabel, Outcome.mapErr, verdict, eq_comm]

theorem classInfo_broken : Broken (fun i => (ClassInfo.parse i).relabel .expectedClassInfo) BadClassInfo := by
  have h : Broken ClassInfo.parse (fun i o' => BadId i o' ∨ After IsId (fun _ i => BadString i o' ∨
      After IsString (fun _ i => BadLength i o' ∨ After IsLength (fun n i => BadMany IsString BadString n i o') i) i) i) :=
    Broken.bind objectId_exact objectId_broken fun id => Broken.bind lps_exact string_broken fun name =>
      (Broken.bind length_exact length_broken fun n => Broken.count lps_exact string_broken n).bind_pure _
  intro i o
  simp only [verdict_relabel]
  constructor
  · rintro ⟨o', h', rfl⟩; exact ⟨o', (h i o').mp h', rfl⟩
  · rintro ⟨o', h', rfl⟩; exact ⟨o', (h i o').mpr h', rfl⟩

/-- After a ClassInfo. -/
theorem after_classInfo {P : Nat → Bytes → Prop} {i : Bytes} :
    After (fun (c : ClassInfo) b => ∃ bid bname bcount bnames,
      IsId c.objectId bid ∧ IsString c.name bname ∧ IsLength c.memberNames.length bcount ∧
      IsSeq IsString c.memberNames bnames ∧ b = bid ++ bname ++ bcount ++ bnames)
      (fun c r => P c.memberNames.length r) i ↔ After IsClassInfo P i := by
  constructor
  · rintro ⟨c, b, r, ⟨b1, b2, b3, b4, h1, h2, h3, h4, rfl⟩, rfl, h⟩
    exact ⟨_, _, r, ⟨_, _, _, b1, b2, b3, b4, h1, h2, h3, ⟨rfl, h4⟩, rfl⟩, rfl, h⟩
  · rintro ⟨n, b, r, ⟨id, name, names, b1, b2, b3, b4, h1, h2, h3, ⟨rfl, h4⟩, rfl⟩, rfl, h⟩
    exact ⟨⟨id, name, names⟩, _, r, ⟨b1, b2, b3, b4, h1, h2, h3, h4, rfl⟩, rfl, h⟩

theorem after_congr {R : α → Bytes → Prop} {P Q : α → Bytes → Prop} {i : Bytes} (h : ∀ a r, P a r ↔ Q a r) :
    After R P i ↔ After R Q i := by
  unfold After; simp only [h]

theorem after_false {R : α → Bytes → Prop} {i : Bytes} : ¬ After R (fun _ _ => False) i := by
  rintro ⟨_, _, _, _, _, h⟩; exact h

theorem classWithMembers_broken : Broken ClassWithMembers.parse (BadTagged 3 (BadClassRest 3)) := by
  refine tagged_broken (t := .classWithMembers) ((Broken.bind (classInfo_exact.relabel _) classInfo_broken
    fun info => libraryId_broken.bind_pure fun l => Class.classWithMembers info l).congr fun i o => ?_)
  refine or_congr Iff.rfl ((after_classInfo (P := fun _ i => BadLibraryId i o)).trans (after_congr fun n r => ?_))
  simp

theorem systemClassWithMembers_broken : Broken SystemClassWithMembers.parse (BadTagged 2 (BadClassRest 2)) := by
  refine tagged_broken (t := .systemClassWithMembers) ((classInfo_broken.bind_pure
    fun info => Class.systemClassWithMembers info).congr fun i o => ?_)
  unfold BadClassRest
  simp [after_false]

theorem systemClassWithMembersAndTypes_broken :
    Broken SystemClassWithMembersAndTypes.parse (BadTagged 4 (BadClassRest 4)) := by
  refine tagged_broken (t := .systemClassWithMembersAndTypes) ((Broken.bind (classInfo_exact.relabel _)
    classInfo_broken fun info => (memberTypeInfo_broken info).bind_pure fun l =>
      Class.systemClassWithMembersAndTypes info l).congr fun i o => ?_)
  refine or_congr Iff.rfl ((after_classInfo (P := fun n i => BadMemberTypes n i o)).trans (after_congr fun n r => ?_))
  simp

theorem classWithMembersAndTypes_broken :
    Broken ClassWithMembersAndTypes.parse (BadTagged 5 (BadClassRest 5)) := by
  refine tagged_broken (t := .classWithMembersAndTypes) ((Broken.bind (classInfo_exact.relabel _)
    classInfo_broken fun info => Broken.bind (memberTypeInfo_exact info) (memberTypeInfo_broken info) fun types =>
      libraryId_broken.bind_pure fun l => Class.classWithMembersAndTypes info types l).congr fun i o => ?_)
  refine or_congr Iff.rfl (Iff.trans (after_congr fun c r => ?_)
    ((after_classInfo (P := fun n i => BadMemberTypes n i o ∨
      After (fun (Ts : List MemberType) b => Ts.length = n ∧ IsMemberTypes Ts b)
        (fun _ i => BadLibraryId i o) i)).trans (after_congr fun n r => ?_)))
  · refine or_congr Iff.rfl ?_
    constructor
    · rintro ⟨m, b, r', ⟨Ts, hl, rfl, h⟩, rfl, h'⟩; exact ⟨Ts, b, r', ⟨hl, h⟩, rfl, h'⟩
    · rintro ⟨Ts, b, r', ⟨hl, h⟩, rfl, h'⟩; exact ⟨_, b, r', ⟨Ts, hl, rfl, h⟩, rfl, h'⟩
  · simp

/-! ## Array headers -/

theorem arrayInfo_broken : Broken ArrayInfo.parse BadArrayInfo :=
  Broken.bind objectId_exact objectId_broken fun _ => length_broken.bind_pure _

theorem binaryArray_broken : Broken BinaryArray.parse (BadTagged 7 BadBinaryArrayHead) := by
  have e : (fun (t : BinaryType) b => b = [binaryTypeByte t]) = (fun t b => b = [typeByte t]) := by
    funext t b; rw [typeByte_eq]
  have hx : Exact BinaryType.parse (fun t b => b = [typeByte t]) := e ▸ binaryType_exact
  have hc : ∀ (kind : BinaryArrayType) (rank : Nat), Broken (cond kind.hasLowerBounds (count length rank))
      (fun i o => hasLowerBounds kind ∧ BadMany IsLength BadLength rank i o) := by
    intro kind rank i o
    unfold cond
    by_cases hk : hasLowerBounds kind
    · rw [if_pos ((hasLowerBounds_iff kind).mpr hk), verdict_map]
      rw [Broken.count length_exact length_broken rank i o]
      simp [hk]
    · rw [if_neg (fun h => hk ((hasLowerBounds_iff kind).mp h))]
      simp [verdict, hk]
  have hcx : ∀ (kind : BinaryArrayType) (rank : Nat) (P : Bytes → Prop) (i : Bytes),
      After (fun (o : Option (List Nat)) b => (kind.hasLowerBounds = true → ∃ a, o = some a ∧ a.length = rank ∧
          IsSeq IsLength a b) ∧ (kind.hasLowerBounds = false → o = none ∧ b = [])) (fun _ i => P i) i ↔
        After (IsBounds kind rank) (fun _ i => P i) i := by
    intro kind rank P i
    have hn : kind.hasLowerBounds = false ↔ ¬ hasLowerBounds kind := by
      rw [← Bool.not_eq_true, hasLowerBounds_iff]
    simp only [hasLowerBounds_iff, hn]
    constructor
    · rintro ⟨o, b, r, ⟨h1, h2⟩, rfl, h⟩
      refine ⟨(), b, r, ⟨fun hk => ?_, fun hk => (h2 hk).2⟩, rfl, h⟩
      obtain ⟨a, _, h3⟩ := h1 hk
      exact ⟨a, h3⟩
    · rintro ⟨_, b, r, ⟨h1, h2⟩, rfl, h⟩
      by_cases hk : hasLowerBounds kind
      · obtain ⟨a, h3⟩ := h1 hk
        exact ⟨some a, b, r, ⟨fun _ => ⟨a, rfl, h3⟩, fun h' => absurd hk h'⟩, rfl, h⟩
      · exact ⟨none, b, r, ⟨fun h' => absurd h' hk, fun _ => ⟨rfl, h2 hk⟩⟩, rfl, h⟩
  refine tagged_broken (t := .binaryArray) ((Broken.bind objectId_exact objectId_broken fun id =>
    Broken.bind binaryArrayType_exact arrayKind_broken fun kind =>
    Broken.bind length_exact length_broken fun rank =>
    Broken.bind (count_exact length_exact rank) (Broken.count length_exact length_broken rank) fun lengths =>
    Broken.bind (cond_exact (count_exact length_exact rank) kind.hasLowerBounds) (hc kind rank) fun bounds =>
    Broken.bind hx binaryType_broken fun t =>
    (typeInfo_broken t).bind_pure fun info =>
      BinaryArray.mk id kind lengths bounds t info).congr fun i o => ?_)
  unfold BadBinaryArrayHead
  refine or_congr Iff.rfl (after_congr fun id i => or_congr Iff.rfl (after_congr fun kind i =>
    or_congr Iff.rfl (after_congr fun rank i => or_congr Iff.rfl (after_congr fun lengths i =>
    or_congr Iff.rfl ?_))))
  exact hcx kind rank _ i

end Nrbf
