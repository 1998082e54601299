import Verif.Lemmas.ExactString

/-! # Exact characterisation of the record parsers -/

namespace Nrbf
open Spec

variable {ε α β : Type}

/-! ## Tags and alternatives -/

theorem tagByte_exact (v : α) (c : UInt8) : Exact (tagByte v c) (fun a b => a = v ∧ b = [c]) := by
  refine .intro ?_ ?_
  · rintro _ r a ⟨rfl, rfl⟩; simp [tagByte]
  · intro i r a h
    unfold tagByte at h
    split at h
    · cases h
    · split at h
      · rename_i hx; cases h; exact ⟨[c], ⟨rfl, rfl⟩, by rw [hx]; rfl⟩
      · cases h

theorem recordType_exact (t : RecordType) : Exact t.parse (fun a b => a = t ∧ b = [t.code]) :=
  (tagByte_exact t t.code).at' _

theorem recordType_mismatch {t : RecordType} {i : Bytes} (h : i.head? ≠ some t.code) :
    t.parse i = .error ⟨i, .expectedRecordType t⟩ := by
  unfold RecordType.parse tagByte
  cases i with
  | nil => rfl
  | cons x r =>
    have hx : x ≠ t.code := by simpa using h
    simp [hx, Outcome.at, Outcome.mapErr]

theorem alt_cons_ok {p q : PureParser ε α} {qs : List (PureParser ε α)} {i r : Bytes} {a : α} :
    alt p (q :: qs) i = .ok r a ↔
      p i = .ok r a ∨ (∃ e, p i = .error e) ∧ alt q qs i = .ok r a := by
  show (match p i with
    | .error _ => alt q qs i
    | r => r) = _ ↔ _
  generalize p i = x
  cases x <;> simp

theorem alt_nil (p : PureParser ε α) : alt p [] = p := rfl

theorem alt_tags (f : α → UInt8) (t : α) (ts : List α) {i r : Bytes} {a : α}
    (h : alt (tagByte t (f t)) (ts.map fun t => tagByte t (f t)) i = .ok r a) : i = f a :: r := by
  induction ts generalizing t with
  | nil =>
    obtain ⟨b, ⟨rfl, rfl⟩, rfl⟩ := (tagByte_exact _ _ _ _ _).mp h
    rfl
  | cons t' ts ih =>
    rw [List.map_cons, alt_cons_ok] at h
    rcases h with h | ⟨_, h⟩
    · obtain ⟨b, ⟨rfl, rfl⟩, rfl⟩ := (tagByte_exact _ _ _ _ _).mp h
      rfl
    · exact ih _ h

theorem alt_cons_exact {p q : PureParser ε α} {qs : List (PureParser ε α)} {R S : α → Bytes → Prop}
    (hp : Exact p R) (hq : Exact (alt q qs) S)
    (hne : ∀ a b r, S a b → ∃ e, p (b ++ r) = .error e) :
    Exact (alt p (q :: qs)) (fun a b => R a b ∨ S a b) := by
  intro i r a
  rw [alt_cons_ok]
  constructor
  · rintro (h | ⟨_, h⟩)
    · obtain ⟨b, hb, rfl⟩ := (hp _ _ _).mp h
      exact ⟨b, .inl hb, rfl⟩
    · obtain ⟨b, hb, rfl⟩ := (hq _ _ _).mp h
      exact ⟨b, .inr hb, rfl⟩
  · rintro ⟨b, hb | hb, rfl⟩
    · exact .inl ((hp _ _ _).mpr ⟨b, hb, rfl⟩)
    · exact .inr ⟨hne a b r hb, (hq _ _ _).mpr ⟨b, hb, rfl⟩⟩

/-- `preceded(record type, p)`. -/
theorem tagged_exact {t : RecordType} {p : Parser α} {R : α → Bytes → Prop} (hp : Exact p R) :
    Exact (fun i => (t.parse i).bind fun _ i => p i) (fun a b => ∃ b', R a b' ∧ b = t.code :: b') :=
  (Exact.bind (recordType_exact t) (S := fun _ a b => R a b) fun _ => hp).congr fun a b => by
    constructor
    · rintro ⟨_, _, b2, ⟨rfl, rfl⟩, h, rfl⟩; exact ⟨b2, h, rfl⟩
    · rintro ⟨b', h, rfl⟩; exact ⟨t, [t.code], b', ⟨rfl, rfl⟩, h, rfl⟩

theorem tagged_mismatch {t : RecordType} {f : RecordType → Parser α} {i : Bytes}
    (h : i.head? ≠ some t.code) :
    (t.parse i).bind f = .error ⟨i, .expectedRecordType t⟩ := by
  rw [recordType_mismatch h]; rfl

theorem primitiveType_exact :
    Exact PrimitiveType.parse (fun t b => b = [primitiveTypeByte t]) := by
  refine .intro ?_ ?_
  · rintro _ r t rfl
    cases t <;> rfl
  · intro i r t h
    unfold PrimitiveType.parse at h
    rw [Outcome.at_ok, Outcome.intoFailure_ok] at h
    have := alt_tags PrimitiveType.code .boolean
      [.byte, .char, .decimal, .double, .int16, .int32, .int64, .sbyte, .single, .timeSpan, .dateTime, .uint16, .uint32, .uint64, .null, .string] h
    exact ⟨_, rfl, by rw [this]; cases t <;> rfl⟩

theorem binaryArrayType_exact :
    Exact BinaryArrayType.parse (fun t b => b = [arrayKindByte t]) := by
  refine .intro ?_ ?_
  · rintro _ r t rfl
    cases t <;> rfl
  · intro i r t h
    unfold BinaryArrayType.parse at h
    rw [Outcome.at_ok, Outcome.intoFailure_ok] at h
    have := alt_tags BinaryArrayType.code .single
      [.jagged, .rectangular, .singleOffset, .jaggedOffset, .rectangularOffset] h
    exact ⟨_, rfl, by rw [this]; cases t <;> rfl⟩

/-- The model's view of a member type. -/
def binaryType : MemberType → BinaryType
  | .primitive _ => .primitive | .string => .string | .object => .object
  | .systemClass _ => .systemClass | .class _ _ => .class | .objectArray => .objectArray
  | .stringArray => .stringArray | .primitiveArray _ => .primitiveArray

/-- The model's view of the additional information of a member type. -/
def typeInfo : MemberType → Option AdditionalTypeInfo
  | .primitive t => some (.primitive t) | .primitiveArray t => some (.primitive t)
  | .systemClass name => some (.systemClass name)
  | .class name library => some (.class ⟨name, library⟩)
  | .string | .object | .objectArray | .stringArray => none

/-- The byte of a binary type. -/
def binaryTypeByte : BinaryType → UInt8
  | .primitive => 0 | .string => 1 | .object => 2 | .systemClass => 3 | .class => 4
  | .objectArray => 5 | .stringArray => 6 | .primitiveArray => 7

theorem binaryTypeByte_eq (t : MemberType) : binaryTypeByte (binaryType t) = memberTypeByte t := by
  cases t <;> rfl

theorem binaryType_exact : Exact BinaryType.parse (fun t b => b = [binaryTypeByte t]) := by
  refine .intro ?_ ?_
  · rintro _ r t rfl
    cases t <;> rfl
  · intro i r t h
    unfold BinaryType.parse at h
    rw [Outcome.at_ok, Outcome.intoFailure_ok] at h
    have := alt_tags BinaryType.code .primitive
      [.string, .object, .systemClass, .class, .objectArray, .stringArray, .primitiveArray] h
    exact ⟨_, rfl, by rw [this]; cases t <;> rfl⟩

/-! ## Repetition -/

theorem count_exact {p : PureParser ε α} {R : α → Bytes → Prop} (hp : Exact p R) (n : Nat) :
    Exact (count p n) (fun l b => l.length = n ∧ IsSeq R l b) := by
  induction n with
  | zero =>
    refine (Exact.pure []).congr fun l b => ?_
    constructor
    · rintro ⟨rfl, rfl⟩; exact ⟨rfl, rfl⟩
    · rintro ⟨h, hb⟩
      obtain rfl := List.length_eq_zero_iff.mp h
      exact ⟨rfl, hb⟩
  | succ n ih =>
    refine (Exact.bind hp fun a => Exact.map (a :: ·) ih).congr fun l b => ?_
    constructor
    · rintro ⟨a, b1, b2, h1, ⟨l', ⟨rfl, h2⟩, rfl⟩, rfl⟩
      exact ⟨rfl, b1, b2, h1, h2, rfl⟩
    · rintro ⟨h, hb⟩
      cases l with
      | nil => cases h
      | cons a l =>
        obtain ⟨b1, b2, h1, h2, rfl⟩ := hb
        exact ⟨a, b1, b2, h1, ⟨l, ⟨by simpa using h, h2⟩, rfl⟩, rfl⟩

/-! ## Primitives -/

theorem byte_exact : Exact Byte.parse (fun n b => n < 2 ^ 8 ∧ b = le 1 n) :=
  (leUnsigned_exact 1).fail' _

theorem boolean_exact : Exact Boolean.parse (fun x b => b = [if x then 1 else 0]) := by
  refine ((mapOpt_exact (leUnsigned_exact 1) (fun b =>
      match b with
      | 0 => some false
      | 1 => some true
      | _ => none) .mapRes).fail' _).congr fun x b => ?_
  constructor
  · rintro ⟨n, ⟨hn, rfl⟩, h⟩
    split at h <;> first | cases h; rfl | cases h
  · rintro rfl
    cases x
    · exact ⟨0, ⟨by omega, rfl⟩, rfl⟩
    · exact ⟨1, ⟨by omega, rfl⟩, rfl⟩

theorem charFromU32_small {n : Nat} (h : n < 256) : charFromU32 n = some n := by
  unfold charFromU32
  rw [if_pos]
  simp; omega

/-- `Char::parse` reads one byte; the wider alternatives are only tried on the empty input, on which
they fail too. -/
theorem char_eq (i : Bytes) : Char.parse i = ((leUnsigned 1 i).intoFailure).at (.expectedPrimitive .char) := by
  cases i with
  | nil => rfl
  | cons b r =>
    have hb := b.toNat_lt
    have : leUnsigned 1 (b :: r) = .ok r b.toNat := by simp [leUnsigned, takeN, leNat]
    unfold Char.parse
    rw [this]
    simp only [alt, mapOpt, this, charFromU32_small hb]

theorem char_exact : Exact Char.parse (fun n b => n < 2 ^ 8 ∧ b = le 1 n) := by
  intro i r a
  rw [char_eq]
  exact (leUnsigned_exact 1).fail' _ i r a

theorem decimal_exact [Platform] :
    Exact Decimal.parse (fun d b => ∃ s, IsString s b ∧ Platform.decimalFromStr s = some d) := by
  intro i r d
  unfold Decimal.parse
  simp only [Outcome.bind_ok, lps_exact i]
  constructor
  · rintro ⟨r', s, ⟨b, hb, rfl⟩, h⟩
    split at h
    · rename_i hd
      cases h
      exact ⟨b, ⟨s, hb, hd⟩, rfl⟩
    · cases h
  · rintro ⟨b, ⟨s, hb, hd⟩, rfl⟩
    exact ⟨r, s, ⟨b, hb, rfl⟩, by rw [hd]⟩

theorem int64_exact : Exact Int64.parse (fun z b => InSigned 8 z ∧ b = leInt 8 z) :=
  (leSigned_exact 8 (by omega)).fail' _

theorem dateTime_exact : Exact DateTime.parse (fun z b => InSigned 8 z ∧ b = leInt 8 z) := by
  intro i r a
  unfold DateTime.parse
  rw [Outcome.relabel_ok, Outcome.intoFailure_ok]
  exact int64_exact i r a

theorem Exact.map_iff {p : PureParser ε α} {R : α → Bytes → Prop} {f : α → β} (hp : Exact p R)
    {S : β → Bytes → Prop} (h : ∀ c b, S c b ↔ ∃ a, R a b ∧ f a = c) :
    Exact (fun i => (p i).map f) S := (hp.map f).congr fun c b => (h c b).symm

/-- The value of a primitive determines it. -/
theorem intoValue_inj {p q : Prim} (h : p.intoValue = q.intoValue) : p = q := by
  cases p <;> cases q <;> simp_all [Prim.intoValue]

theorem untyped_exact [Platform] (t : PrimitiveType) :
    Exact (fun i => (memberPrimitiveUnTyped t i).map Prim.intoValue) (IsPrimitive t) := by
  have mm : ∀ {γ : Type} (x : Outcome Error γ) (g : γ → Prim),
      (x.map g).map Prim.intoValue = x.map (fun a => (g a).intoValue) := by
    intro γ x g; cases x <;> rfl
  cases t <;> simp only [memberPrimitiveUnTyped, mm, Prim.intoValue]
  case boolean => exact boolean_exact.map_iff fun c b => by cases c <;> simp [IsPrimitive]
  case byte => exact byte_exact.map_iff fun c b => by cases c <;> simp [IsPrimitive]
  case char => exact char_exact.map_iff fun c b => by cases c <;> simp [IsPrimitive]
  case decimal => exact decimal_exact.map_iff fun c b => by cases c <;> simp [IsPrimitive]
  case double =>
    exact ((leUnsigned_exact 8).fail' _).map_iff fun c b => by cases c <;> simp [IsPrimitive]
  case int16 =>
    exact ((leSigned_exact 2 (by omega)).fail' _).map_iff fun c b => by
      cases c <;> simp [IsPrimitive]
  case int32 => exact int32_exact.map_iff fun c b => by cases c <;> simp [IsPrimitive]
  case int64 => exact int64_exact.map_iff fun c b => by cases c <;> simp [IsPrimitive]
  case sbyte =>
    exact ((leSigned_exact 1 (by omega)).fail' _).map_iff fun c b => by
      cases c <;> simp [IsPrimitive]
  case single =>
    exact ((leUnsigned_exact 4).fail' _).map_iff fun c b => by cases c <;> simp [IsPrimitive]
  case timeSpan =>
    exact ((leSigned_exact 8 (by omega)).fail' _).map_iff fun c b => by
      cases c <;> simp [IsPrimitive]
  case dateTime => exact dateTime_exact.map_iff fun c b => by cases c <;> simp [IsPrimitive]
  case uint16 =>
    exact ((leUnsigned_exact 2).fail' _).map_iff fun c b => by cases c <;> simp [IsPrimitive]
  case uint32 =>
    exact ((leUnsigned_exact 4).fail' _).map_iff fun c b => by cases c <;> simp [IsPrimitive]
  case uint64 =>
    exact ((leUnsigned_exact 8).fail' _).map_iff fun c b => by cases c <;> simp [IsPrimitive]
  all_goals
    intro i r a
    simp [Outcome.map, IsPrimitive]

/-! ## Member records -/

theorem typed_exact [Platform] :
    Exact (fun i => (memberPrimitiveTyped i).map Prim.intoValue) IsTypedPrimitive := by
  have e : (fun i => (memberPrimitiveTyped i).map Prim.intoValue) = fun i =>
      (RecordType.memberPrimitiveTyped.parse i).bind fun _ i =>
        (PrimitiveType.parse i).bind fun t i =>
          (memberPrimitiveUnTyped t i).map Prim.intoValue := by
    funext i
    unfold memberPrimitiveTyped
    cases RecordType.memberPrimitiveTyped.parse i <;> try rfl
    rename_i r _
    simp only [Outcome.bind]
    cases PrimitiveType.parse r <;> rfl
  rw [e]
  refine (tagged_exact (Exact.bind primitiveType_exact untyped_exact)).congr fun v b => ?_
  constructor
  · rintro ⟨_, ⟨t, _, b2, rfl, h, rfl⟩, rfl⟩; exact ⟨t, b2, h, rfl⟩
  · rintro ⟨t, b', h, rfl⟩; exact ⟨_, ⟨t, _, b', rfl, h, rfl⟩, rfl⟩

theorem reference_exact : Exact MemberReference.parse IsReference :=
  tagged_exact objectId_exact

theorem Exact.bind_pure {p : PureParser ε α} {R : α → Bytes → Prop} (f : α → β) (hp : Exact p R) :
    Exact (fun i => (p i).bind fun a i => .ok i (f a)) (fun c b => ∃ a, R a b ∧ f a = c) :=
  hp.map f

theorem bos_exact :
    Exact BinaryObjectString.parse (fun x b => IsObjectString x.objectId x.value b) := by
  refine (tagged_exact (Exact.bind objectId_exact fun id =>
    lps_exact.bind_pure fun s => BinaryObjectString.mk id s)).congr fun x b => ?_
  constructor
  · rintro ⟨_, ⟨id, b1, b2, h1, ⟨s, h2, rfl⟩, rfl⟩, rfl⟩; exact ⟨b1, b2, h1, h2, rfl⟩
  · rintro ⟨b1, b2, h1, h2, rfl⟩; exact ⟨_, ⟨_, b1, b2, h1, ⟨_, h2, rfl⟩, rfl⟩, rfl⟩

theorem library_exact :
    Exact BinaryLibrary.parse (fun x b => IsLibrary x.libraryId x.libraryName b) := by
  refine (tagged_exact (Exact.bind libraryId_exact fun id =>
    lps_exact.bind_pure fun s => BinaryLibrary.mk id s)).congr fun x b => ?_
  constructor
  · rintro ⟨_, ⟨id, b1, b2, h1, ⟨s, h2, rfl⟩, rfl⟩, rfl⟩; exact ⟨b1, b2, h1, h2, rfl⟩
  · rintro ⟨b1, b2, h1, h2, rfl⟩; exact ⟨_, ⟨_, b1, b2, h1, ⟨_, h2, rfl⟩, rfl⟩, rfl⟩

theorem objectNull_exact : Exact ObjectNull.parse (fun n b => n = 1 ∧ b = [10]) :=
  ((recordType_exact .objectNull).map _).congr fun n b => by
    constructor
    · rintro ⟨_, ⟨rfl, rfl⟩, rfl⟩; exact ⟨rfl, rfl⟩
    · rintro ⟨rfl, rfl⟩; exact ⟨_, ⟨rfl, rfl⟩, rfl⟩

theorem objectNullMultiple_exact :
    Exact ObjectNullMultiple.parse (fun n b => 0 < n ∧ n < 2 ^ 31 ∧ b = 14 :: le 4 n) :=
  (tagged_exact (natId_exact (P := fun n => 0 < n) rfl (fun n _ h => by omega)
    (fun n _ h => by omega))).congr fun n b => by
    constructor
    · rintro ⟨_, ⟨h1, h2, rfl⟩, rfl⟩; exact ⟨h2, h1, rfl⟩
    · rintro ⟨h1, h2, rfl⟩; exact ⟨_, ⟨h2, h1, rfl⟩, rfl⟩

theorem objectNullMultiple256_exact :
    Exact ObjectNullMultiple256.parse (fun n b => 0 < n ∧ n < 2 ^ 8 ∧ b = 13 :: le 1 n) := by
  have h : Exact (fun i => (Byte.parse i).bind fun n r =>
      if 0 < n then .ok r n else .failure ⟨i, .invalidNullCount⟩)
      (fun n b => 0 < n ∧ n < 2 ^ 8 ∧ b = le 1 n) := by
    intro i r n
    simp only [Outcome.bind_ok, byte_exact i]
    constructor
    · rintro ⟨r', m, ⟨b, ⟨hm, rfl⟩, rfl⟩, h⟩
      split at h
      · cases h; exact ⟨_, ⟨by assumption, hm, rfl⟩, rfl⟩
      · cases h
    · rintro ⟨b, ⟨h0, hm, rfl⟩, rfl⟩
      exact ⟨r, n, ⟨_, ⟨hm, rfl⟩, rfl⟩, by rw [if_pos h0]⟩
  refine (tagged_exact h).congr fun n b => ?_
  constructor
  · rintro ⟨_, ⟨h1, h2, rfl⟩, rfl⟩; exact ⟨h1, h2, rfl⟩
  · rintro ⟨h1, h2, rfl⟩; exact ⟨_, ⟨h1, h2, rfl⟩, rfl⟩

theorem nulls_exact :
    Exact (alt ObjectNull.parse [ObjectNullMultiple.parse, ObjectNullMultiple256.parse]) IsNulls := by
  refine alt_cons_exact objectNull_exact
    (alt_cons_exact (q := ObjectNullMultiple256.parse) (qs := [])
      objectNullMultiple_exact objectNullMultiple256_exact ?_) ?_
  · rintro a _ r ⟨_, _, rfl⟩
    exact ⟨_, tagged_mismatch (by simp [RecordType.code])⟩
  · rintro a _ r (⟨_, _, rfl⟩ | ⟨_, _, rfl⟩)
    · unfold ObjectNull.parse; rw [recordType_mismatch (by simp [RecordType.code])]; exact ⟨_, rfl⟩
    · unfold ObjectNull.parse; rw [recordType_mismatch (by simp [RecordType.code])]; exact ⟨_, rfl⟩

/-! ## Array headers -/

theorem arrayInfo_exact : Exact ArrayInfo.parse
    (fun a b => ∃ b1 b2, IsId a.objectId b1 ∧ IsLength a.length b2 ∧ b = b1 ++ b2) := by
  refine (Exact.bind objectId_exact fun id =>
    length_exact.bind_pure fun n => ArrayInfo.mk id n).congr fun x b => ?_
  constructor
  · rintro ⟨id, b1, b2, h1, ⟨s, h2, rfl⟩, rfl⟩; exact ⟨b1, b2, h1, h2, rfl⟩
  · rintro ⟨b1, b2, h1, h2, rfl⟩; exact ⟨_, b1, b2, h1, ⟨_, h2, rfl⟩, rfl⟩

theorem arrayHead_exact (t : RecordType) :
    Exact (fun i => (t.parse i).bind fun _ i => ArrayInfo.parse i)
      (fun a b => IsArrayHead t.code a.objectId a.length b) :=
  (tagged_exact arrayInfo_exact).congr fun x b => by
    constructor
    · rintro ⟨_, ⟨b1, b2, h1, h2, rfl⟩, rfl⟩; exact ⟨b1, b2, h1, h2, rfl⟩
    · rintro ⟨b1, b2, h1, h2, rfl⟩; exact ⟨_, ⟨b1, b2, h1, h2, rfl⟩, rfl⟩

theorem arraySingleObject_exact : Exact ArraySingleObject.parse
    (fun a b => IsArrayHead 16 a.objectId a.length b) := arrayHead_exact .arraySingleObject

theorem arraySingleString_exact : Exact ArraySingleString.parse
    (fun a b => IsArrayHead 17 a.objectId a.length b) := arrayHead_exact .arraySingleString

theorem arraySinglePrimitive_exact : Exact ArraySinglePrimitive.parse
    (fun a b => IsPrimitiveArrayHead a.1.objectId a.1.length a.2 b) := by
  refine (tagged_exact (Exact.bind arrayInfo_exact fun info =>
    primitiveType_exact.bind_pure fun t => (info, t))).congr fun x b => ?_
  constructor
  · rintro ⟨_, ⟨info, _, _, ⟨b1, b2, h1, h2, rfl⟩, ⟨t, rfl, rfl⟩, rfl⟩, rfl⟩
    exact ⟨_, ⟨b1, b2, h1, h2, rfl⟩, rfl⟩
  · rintro ⟨_, ⟨b1, b2, h1, h2, rfl⟩, rfl⟩
    exact ⟨_, ⟨_, _, _, ⟨b1, b2, h1, h2, rfl⟩, ⟨_, rfl, rfl⟩, rfl⟩, rfl⟩

theorem typeInfo_exact (t : BinaryType) : Exact (AdditionalTypeInfo.parse t)
    (fun info b => ∃ T, binaryType T = t ∧ typeInfo T = info ∧ IsTypeInfo T b) := by
  have hnone : ∀ T0 : MemberType, typeInfo T0 = none → (∀ b, IsTypeInfo T0 b ↔ b = []) →
      (∀ T, binaryType T = binaryType T0 → T = T0) →
      Exact (fun i => (Outcome.ok i none : Outcome Error (Option AdditionalTypeInfo)))
        (fun info b => ∃ T, binaryType T = binaryType T0 ∧ typeInfo T = info ∧ IsTypeInfo T b) := by
    intro T0 h1 h2 h3
    refine (Exact.pure none).congr fun info b => ?_
    constructor
    · rintro ⟨rfl, rfl⟩; exact ⟨T0, rfl, h1, (h2 _).mpr rfl⟩
    · rintro ⟨T, hT, rfl, hb⟩
      obtain rfl := h3 T hT
      exact ⟨h1, (h2 b).mp hb⟩
  cases t
  · refine (primitiveType_exact.map (fun x => some (AdditionalTypeInfo.primitive x))).congr fun info b => ?_
    constructor
    · rintro ⟨p, rfl, rfl⟩; exact ⟨.primitive p, rfl, rfl, rfl⟩
    · rintro ⟨T, hT, rfl, hb⟩
      cases T <;> first | (cases hT; done) | skip
      exact ⟨_, hb, rfl⟩
  · exact hnone .string rfl (fun _ => Iff.rfl) (fun T h => by cases T <;> first | rfl | cases h)
  · exact hnone .object rfl (fun _ => Iff.rfl) (fun T h => by cases T <;> first | rfl | cases h)
  · refine (lps_exact.map (fun x => some (AdditionalTypeInfo.systemClass x))).congr fun info b => ?_
    constructor
    · rintro ⟨s, h, rfl⟩; exact ⟨.systemClass s, rfl, rfl, h⟩
    · rintro ⟨T, hT, rfl, hb⟩
      cases T <;> first | (cases hT; done) | skip
      exact ⟨_, hb, rfl⟩
  · refine ((Exact.bind lps_exact fun s =>
      libraryId_exact.bind_pure fun l => ClassTypeInfo.mk s l).map
        (fun x => some (AdditionalTypeInfo.class x))).congr fun info b => ?_
    constructor
    · rintro ⟨_, ⟨s, b1, b2, h1, ⟨l, h2, rfl⟩, rfl⟩, rfl⟩
      exact ⟨.class s l, rfl, rfl, b1, b2, h1, h2, rfl⟩
    · rintro ⟨T, hT, rfl, hb⟩
      cases T <;> first | (cases hT; done) | skip
      obtain ⟨b1, b2, h1, h2, rfl⟩ := hb
      exact ⟨_, ⟨_, b1, b2, h1, ⟨_, h2, rfl⟩, rfl⟩, rfl⟩
  · exact hnone .objectArray rfl (fun _ => Iff.rfl) (fun T h => by cases T <;> first | rfl | cases h)
  · exact hnone .stringArray rfl (fun _ => Iff.rfl) (fun T h => by cases T <;> first | rfl | cases h)
  · refine (primitiveType_exact.map (fun x => some (AdditionalTypeInfo.primitive x))).congr fun info b => ?_
    constructor
    · rintro ⟨p, rfl, rfl⟩; exact ⟨.primitiveArray p, rfl, rfl, rfl⟩
    · rintro ⟨T, hT, rfl, hb⟩
      cases T <;> first | (cases hT; done) | skip
      exact ⟨_, hb, rfl⟩

/-- The model's pair of lists for a list of member types. -/
theorem additionalInfos_exact (ts : List BinaryType) : Exact (additionalInfosParse ts)
    (fun infos b => ∃ Ts : List MemberType, Ts.map binaryType = ts ∧ Ts.map typeInfo = infos ∧
      IsSeq IsTypeInfo Ts b) := by
  induction ts with
  | nil =>
    refine (Exact.pure []).congr fun infos b => ?_
    constructor
    · rintro ⟨rfl, rfl⟩; exact ⟨[], rfl, rfl, rfl⟩
    · rintro ⟨Ts, h, rfl, hb⟩
      obtain rfl := List.map_eq_nil_iff.mp h
      exact ⟨rfl, hb⟩
  | cons t ts ih =>
    refine (Exact.bind (typeInfo_exact t) fun info => ih.map (info :: ·)).congr fun infos b => ?_
    constructor
    · rintro ⟨info, b1, b2, ⟨T, hT, rfl, h1⟩, ⟨infos', ⟨Ts, hTs, rfl, h2⟩, rfl⟩, rfl⟩
      exact ⟨T :: Ts, by simp [hT, hTs], rfl, b1, b2, h1, h2, rfl⟩
    · rintro ⟨Ts, h, rfl, hb⟩
      cases Ts with
      | nil => cases h
      | cons T Ts =>
        simp only [List.map_cons, List.cons.injEq] at h
        obtain ⟨b1, b2, h1, h2, rfl⟩ := hb
        exact ⟨_, b1, b2, ⟨T, h.1, rfl, h1⟩, ⟨_, ⟨Ts, h.2, rfl, h2⟩, rfl⟩, rfl⟩

theorem isSeq_singletons {f : α → UInt8} {l : List α} {b : Bytes} :
    IsSeq (fun a b => b = [f a]) l b ↔ b = l.map f := by
  induction l generalizing b with
  | nil => rfl
  | cons a l ih =>
    constructor
    · rintro ⟨b1, b2, rfl, h, rfl⟩; rw [ih.mp h]; rfl
    · rintro rfl; exact ⟨[f a], l.map f, rfl, ih.mpr rfl, rfl⟩

theorem memberTypeInfo_exact (c : ClassInfo) : Exact (MemberTypeInfo.parse c)
    (fun m b => ∃ Ts : List MemberType, Ts.length = c.memberNames.length ∧
      m = ⟨Ts.map binaryType, Ts.map typeInfo⟩ ∧ IsMemberTypes Ts b) := by
  refine (Exact.bind (count_exact binaryType_exact c.memberNames.length) fun ts =>
    (additionalInfos_exact ts).bind_pure fun infos => MemberTypeInfo.mk ts infos).congr
    fun m b => ?_
  constructor
  · rintro ⟨ts, b1, b2, ⟨hl, h1⟩, ⟨infos, ⟨Ts, rfl, rfl, h2⟩, rfl⟩, rfl⟩
    rw [isSeq_singletons] at h1
    subst h1
    refine ⟨Ts, by simpa using hl, rfl, b2, h2, ?_⟩
    simp [binaryTypeByte_eq, Function.comp_def]
  · rintro ⟨Ts, hl, rfl, infos, h, rfl⟩
    refine ⟨Ts.map binaryType, Ts.map memberTypeByte, infos, ⟨by simpa using hl, ?_⟩,
      ⟨_, ⟨Ts, rfl, rfl, h⟩, rfl⟩, rfl⟩
    rw [isSeq_singletons]
    simp [binaryTypeByte_eq, Function.comp_def]

/-! ## Class headers -/

theorem classInfo_exact : Exact ClassInfo.parse (fun c b => ∃ bid bname bcount bnames,
    IsId c.objectId bid ∧ IsString c.name bname ∧ IsLength c.memberNames.length bcount ∧
    IsSeq IsString c.memberNames bnames ∧ b = bid ++ bname ++ bcount ++ bnames) := by
  refine (Exact.bind objectId_exact fun id => Exact.bind lps_exact fun name =>
    (Exact.bind length_exact fun n => count_exact lps_exact n).bind_pure fun ns =>
      ClassInfo.mk id name ns).congr fun c b => ?_
  constructor
  · rintro ⟨id, b1, _, h1, ⟨name, b2, _, h2, ⟨ns, ⟨n, b3, b4, h3, ⟨rfl, h4⟩, rfl⟩, rfl⟩, rfl⟩, rfl⟩
    exact ⟨b1, b2, b3, b4, h1, h2, h3, h4, by simp⟩
  · rintro ⟨b1, b2, b3, b4, h1, h2, h3, h4, rfl⟩
    exact ⟨_, b1, _, h1, ⟨_, b2, _, h2, ⟨_, ⟨_, b3, b4, h3, ⟨rfl, h4⟩, rfl⟩, rfl⟩, rfl⟩, by simp⟩

/-- The model's class for a class header. -/
def classOf (h : ClassHead) : Class :=
  let info : ClassInfo := ⟨h.id, h.name, h.memberNames⟩
  match h.types, h.library with
  | none, none => .systemClassWithMembers info
  | none, some l => .classWithMembers info l
  | some ts, none => .systemClassWithMembersAndTypes info ⟨ts.map binaryType, ts.map typeInfo⟩
  | some ts, some l => .classWithMembersAndTypes info ⟨ts.map binaryType, ts.map typeInfo⟩ l

theorem classWithMembers_exact : Exact ClassWithMembers.parse
    (fun c b => ∃ h, h.tag = 3 ∧ classOf h = c ∧ IsClassHead h b) := by
  refine (tagged_exact (t := .classWithMembers) (Exact.bind (classInfo_exact.relabel _)
    fun info => libraryId_exact.bind_pure fun l => Class.classWithMembers info l)).congr
    fun c b => ?_
  constructor
  · rintro ⟨_, ⟨info, _, b5, ⟨b1, b2, b3, b4, h1, h2, h3, h4, rfl⟩, ⟨l, h5, rfl⟩, rfl⟩, rfl⟩
    exact ⟨⟨info.objectId, info.name, info.memberNames, none, some l⟩, rfl, rfl,
      b1, b2, b3, b4, [], b5, h1, h2, h3, h4, rfl, h5, by simp [ClassHead.tag, RecordType.code]⟩
  · rintro ⟨⟨id, name, ns, types, library⟩, ht, rfl, b1, b2, b3, b4, b5, b6, h1, h2, h3, h4, h5, h6, rfl⟩
    cases types <;> cases library <;> simp [ClassHead.tag] at ht
    obtain rfl := h5
    exact ⟨_, ⟨⟨id, name, ns⟩, _, b6, ⟨b1, b2, b3, b4, h1, h2, h3, h4, rfl⟩, ⟨_, h6, rfl⟩, rfl⟩,
      by simp [ClassHead.tag, RecordType.code]⟩

theorem systemClassWithMembers_exact : Exact SystemClassWithMembers.parse
    (fun c b => ∃ h, h.tag = 2 ∧ classOf h = c ∧ IsClassHead h b) := by
  refine (tagged_exact (t := .systemClassWithMembers) ((classInfo_exact.relabel _).bind_pure
    fun info => Class.systemClassWithMembers info)).congr fun c b => ?_
  constructor
  · rintro ⟨_, ⟨info, ⟨b1, b2, b3, b4, h1, h2, h3, h4, rfl⟩, rfl⟩, rfl⟩
    exact ⟨⟨info.objectId, info.name, info.memberNames, none, none⟩, rfl, rfl,
      b1, b2, b3, b4, [], [], h1, h2, h3, h4, rfl, rfl, by simp [ClassHead.tag, RecordType.code]⟩
  · rintro ⟨⟨id, name, ns, types, library⟩, ht, rfl, b1, b2, b3, b4, b5, b6, h1, h2, h3, h4, h5, h6, rfl⟩
    cases types <;> cases library <;> simp [ClassHead.tag] at ht
    obtain rfl := h5
    obtain rfl := h6
    exact ⟨_, ⟨⟨id, name, ns⟩, ⟨b1, b2, b3, b4, h1, h2, h3, h4, rfl⟩, rfl⟩,
      by simp [ClassHead.tag, RecordType.code]⟩

theorem classWithMembersAndTypes_exact : Exact ClassWithMembersAndTypes.parse
    (fun c b => ∃ h, h.tag = 5 ∧ classOf h = c ∧ IsClassHead h b) := by
  refine (tagged_exact (t := .classWithMembersAndTypes) (Exact.bind (classInfo_exact.relabel _)
    fun info => Exact.bind (memberTypeInfo_exact info) fun types =>
    libraryId_exact.bind_pure fun l => Class.classWithMembersAndTypes info types l)).congr
    fun c b => ?_
  constructor
  · rintro ⟨_, ⟨info, _, _, ⟨b1, b2, b3, b4, h1, h2, h3, h4, rfl⟩, ⟨types, b5, b6,
      ⟨Ts, hT, rfl, h5⟩, ⟨l, h6, rfl⟩, rfl⟩, rfl⟩, rfl⟩
    exact ⟨⟨info.objectId, info.name, info.memberNames, some Ts, some l⟩, rfl, rfl,
      b1, b2, b3, b4, b5, b6, h1, h2, h3, h4, ⟨hT, h5⟩, h6, by simp [ClassHead.tag, RecordType.code]⟩
  · rintro ⟨⟨id, name, ns, types, library⟩, ht, rfl, b1, b2, b3, b4, b5, b6, h1, h2, h3, h4, h5, h6, rfl⟩
    cases types <;> cases library <;> simp [ClassHead.tag] at ht
    exact ⟨_, ⟨⟨id, name, ns⟩, _, _, ⟨b1, b2, b3, b4, h1, h2, h3, h4, rfl⟩,
      ⟨_, b5, b6, ⟨_, h5.1, rfl, h5.2⟩, ⟨_, h6, rfl⟩, rfl⟩, rfl⟩,
      by simp [ClassHead.tag, RecordType.code]⟩

theorem systemClassWithMembersAndTypes_exact : Exact SystemClassWithMembersAndTypes.parse
    (fun c b => ∃ h, h.tag = 4 ∧ classOf h = c ∧ IsClassHead h b) := by
  refine (tagged_exact (t := .systemClassWithMembersAndTypes) (Exact.bind (classInfo_exact.relabel _)
    fun info => (memberTypeInfo_exact info).bind_pure fun types =>
    Class.systemClassWithMembersAndTypes info types)).congr fun c b => ?_
  constructor
  · rintro ⟨_, ⟨info, _, b5, ⟨b1, b2, b3, b4, h1, h2, h3, h4, rfl⟩, ⟨types,
      ⟨Ts, hT, rfl, h5⟩, rfl⟩, rfl⟩, rfl⟩
    exact ⟨⟨info.objectId, info.name, info.memberNames, some Ts, none⟩, rfl, rfl,
      b1, b2, b3, b4, b5, [], h1, h2, h3, h4, ⟨hT, h5⟩, rfl, by simp [ClassHead.tag, RecordType.code]⟩
  · rintro ⟨⟨id, name, ns, types, library⟩, ht, rfl, b1, b2, b3, b4, b5, b6, h1, h2, h3, h4, h5, h6, rfl⟩
    cases types <;> cases library <;> simp [ClassHead.tag] at ht
    obtain rfl := h6
    exact ⟨_, ⟨⟨id, name, ns⟩, _, _, ⟨b1, b2, b3, b4, h1, h2, h3, h4, rfl⟩,
      ⟨_, ⟨_, h5.1, rfl, h5.2⟩, rfl⟩, rfl⟩,
      by simp [ClassHead.tag, RecordType.code]⟩

theorem classHead_head {h : ClassHead} {b r : Bytes} (hb : IsClassHead h b) :
    (b ++ r).head? = some h.tag := by
  obtain ⟨_, _, _, _, _, _, _, _, _, _, _, _, rfl⟩ := hb
  rfl

theorem tag_cases (h : ClassHead) : h.tag = 2 ∨ h.tag = 3 ∨ h.tag = 4 ∨ h.tag = 5 := by
  unfold ClassHead.tag; split <;> simp

theorem classHead_exact : Exact (alt ClassWithMembers.parse
      [ClassWithMembersAndTypes.parse, SystemClassWithMembers.parse,
       SystemClassWithMembersAndTypes.parse])
    (fun c b => ∃ h, classOf h = c ∧ IsClassHead h b) := by
  refine (alt_cons_exact classWithMembers_exact (alt_cons_exact classWithMembersAndTypes_exact
    (alt_cons_exact (q := SystemClassWithMembersAndTypes.parse) (qs := [])
      systemClassWithMembers_exact systemClassWithMembersAndTypes_exact
      ?_) ?_) ?_).congr fun c b => ?_
  · rintro a b r ⟨h, ht, _, hb⟩
    exact ⟨_, tagged_mismatch (by rw [classHead_head hb, ht]; decide)⟩
  · rintro a b r (⟨h, ht, _, hb⟩ | ⟨h, ht, _, hb⟩) <;>
    exact ⟨_, tagged_mismatch (by rw [classHead_head hb, ht]; decide)⟩
  · rintro a b r (⟨h, ht, _, hb⟩ | ⟨h, ht, _, hb⟩ | ⟨h, ht, _, hb⟩) <;>
    exact ⟨_, tagged_mismatch (by rw [classHead_head hb, ht]; decide)⟩
  · constructor
    · rintro (⟨h, _, h2⟩ | ⟨h, _, h2⟩ | ⟨h, _, h2⟩ | ⟨h, _, h2⟩) <;> exact ⟨h, h2⟩
    · rintro ⟨h, h2⟩
      rcases tag_cases h with ht | ht | ht | ht
      · exact .inr (.inr (.inl ⟨h, ht, h2⟩))
      · exact .inl ⟨h, ht, h2⟩
      · exact .inr (.inr (.inr ⟨h, ht, h2⟩))
      · exact .inr (.inl ⟨h, ht, h2⟩)

/-! ## BinaryArray -/

theorem hasLowerBounds_iff (k : BinaryArrayType) : k.hasLowerBounds = true ↔ hasLowerBounds k := by
  cases k <;> simp [BinaryArrayType.hasLowerBounds, hasLowerBounds]

theorem cond_exact {p : PureParser ε α} {R : α → Bytes → Prop} (hp : Exact p R) (c : Bool) :
    Exact (cond c p) (fun o b => (c = true → ∃ a, o = some a ∧ R a b) ∧
      (c = false → o = none ∧ b = [])) := by
  cases c with
  | false =>
    refine (Exact.pure none).congr fun o b => ?_
    simp
  | true =>
    refine (hp.map some).congr fun o b => ?_
    constructor
    · rintro ⟨a, h, rfl⟩; exact ⟨fun _ => ⟨a, rfl, h⟩, by simp⟩
    · rintro ⟨h, _⟩
      obtain ⟨a, rfl, h⟩ := h rfl
      exact ⟨a, by assumption, rfl⟩

theorem binaryArray_exact : Exact BinaryArray.parse (fun a b =>
    ∃ T, a.typeEnum = binaryType T ∧ a.additionalTypeInfo = typeInfo T ∧
    ∃ bid brank blens bbounds binfo,
      IsId a.objectId bid ∧ IsLength a.lengths.length brank ∧ IsSeq IsLength a.lengths blens ∧
      (hasLowerBounds a.binaryArrayTypeEnum → ∃ bounds, a.lowerBounds = some bounds ∧
        bounds.length = a.lengths.length ∧ IsSeq IsLength bounds bbounds) ∧
      (¬ hasLowerBounds a.binaryArrayTypeEnum → a.lowerBounds = none ∧ bbounds = []) ∧
      IsTypeInfo T binfo ∧
      b = 7 :: bid ++ [arrayKindByte a.binaryArrayTypeEnum] ++ brank ++ blens ++ bbounds ++
        [memberTypeByte T] ++ binfo) := by
  refine (tagged_exact (t := .binaryArray) (Exact.bind objectId_exact fun id =>
    Exact.bind binaryArrayType_exact fun kind =>
    Exact.bind length_exact fun rank =>
    Exact.bind (count_exact length_exact rank) fun lengths =>
    Exact.bind (cond_exact (count_exact length_exact rank) kind.hasLowerBounds) fun bounds =>
    Exact.bind binaryType_exact fun t =>
    (typeInfo_exact t).bind_pure fun info =>
      BinaryArray.mk id kind lengths bounds t info)).congr fun a b => ?_
  constructor
  · rintro ⟨_, ⟨id, b1, _, h1, ⟨kind, b2, _, rfl, ⟨rank, b3, _, h3, ⟨lengths, b4, _, ⟨rfl, h4⟩,
      ⟨bounds, b5, _, ⟨h5, h5'⟩, ⟨t, b6, b7, rfl, ⟨info, ⟨T, rfl, rfl, h7⟩, rfl⟩, rfl⟩, rfl⟩, rfl⟩,
      rfl⟩, rfl⟩, rfl⟩, rfl⟩
    refine ⟨T, rfl, rfl, b1, b3, b4, b5, b7, h1, h3, h4, ?_, ?_, h7, ?_⟩
    · intro h
      obtain ⟨bs, rfl, h6, h8⟩ := h5 ((hasLowerBounds_iff kind).mpr h)
      exact ⟨bs, rfl, h6, h8⟩
    · intro h
      exact h5' (by rw [← Bool.not_eq_true, hasLowerBounds_iff]; exact h)
    · simp [binaryTypeByte_eq, RecordType.code]
  · rintro ⟨T, hT, hI, b1, b3, b4, b5, b7, h1, h3, h4, h5, h5', h7, rfl⟩
    obtain ⟨id, kind, lengths, bounds, t, info⟩ := a
    simp only at *
    subst hT hI
    refine ⟨_, ⟨id, b1, _, h1, ⟨kind, _, _, rfl, ⟨_, b3, _, h3, ⟨lengths, b4, _, ⟨rfl, h4⟩,
      ⟨bounds, b5, _, ⟨?_, ?_⟩, ⟨_, _, b7, rfl, ⟨_, ⟨T, rfl, rfl, h7⟩, rfl⟩, rfl⟩, rfl⟩, rfl⟩,
      rfl⟩, rfl⟩, rfl⟩, ?_⟩
    · intro h
      obtain ⟨bs, rfl, h6, h8⟩ := h5 ((hasLowerBounds_iff kind).mp h)
      exact ⟨bs, rfl, h6, h8⟩
    · intro h
      exact h5' (by rw [← hasLowerBounds_iff, h]; simp)
    · simp [binaryTypeByte_eq, RecordType.code]

end Nrbf
