import Verif.Spec.Rejected
import Verif.Lemmas.Broken

/-! # What the parsers of the header and the method records report -/

set_option autoImplicit false

namespace Nrbf
open Spec

variable {α β γ : Type}

/-! ## Combinators -/

/-- A bind whose first parser is described up to `g`. -/
theorem Broken.bind_map {p : Parser α} {g : α → γ} {q : α → Parser β} {R : γ → Bytes → Prop}
    {B : Bytes → Report → Prop} {C : γ → Bytes → Report → Prop} (hp : Exact (fun i => (p i).map g) R)
    (hb : Broken p B) (hq : ∀ a, Broken (q a) (C (g a))) :
    Broken (fun i => (p i).bind q) (fun i o => B i o ∨ After R (fun a r => C a r o) i) := by
  intro i o
  rw [verdict_bind, hb i o]
  refine or_congr Iff.rfl ?_
  constructor
  · rintro ⟨r, a, h, h'⟩
    obtain ⟨b, hb, rfl⟩ := (hp i r (g a)).mp (by simp only [h]; rfl)
    exact ⟨g a, b, r, hb, rfl, (hq a r o).mp h'⟩
  · rintro ⟨c, b, r, hr, rfl, h⟩
    have h1 := (hp (b ++ r) r c).mpr ⟨b, hr, rfl⟩
    simp only [Outcome.map_ok] at h1
    obtain ⟨a, h1, rfl⟩ := h1
    exact ⟨r, a, h1, (hq a r o).mpr h⟩

theorem Broken.cond {p : Parser α} {B : Bytes → Report → Prop} (hb : Broken p B) (c : Bool) :
    Broken (Nrbf.cond c p) (fun i o => c = true ∧ B i o) := by
  intro i o
  unfold Nrbf.cond
  cases c
  · simp [verdict]
  · simp only [if_true, verdict_map, true_and]
    exact hb i o

theorem Broken.count_map {p : Parser α} {g : α → γ} {R : γ → Bytes → Prop} {B : Bytes → Report → Prop}
    (hp : Exact (fun i => (p i).map g) R) (hb : Broken p B) (n : Nat) : Broken (Nrbf.count p n) (BadMany R B n) := by
  intro i o
  rw [← verdict_map (Nrbf.count p n i) (List.map g), map_count]
  exact Broken.count hp (hb.map g) n i o

theorem number_broken {c : Int → Prop} [DecidablePred c] {reason : ErrorInner} (g : Int → α) :
    Broken (fun i => (Int32.parse i).bind fun n r => if c n then .ok r (g n) else .failure ⟨i, reason⟩)
      (BadNumber c reason) := by
  intro i o
  simp only [verdict_bind]
  rw [int32_broken i o]
  refine or_congr Iff.rfl ?_
  constructor
  · rintro ⟨r, n, h, h'⟩
    obtain ⟨b, hb, rfl⟩ := (int32_exact _ _ _).mp h
    split at h'
    · cases h'
    · rename_i hc
      simp only [verdict, Option.some.injEq] at h'
      exact ⟨n, b, r, hb, rfl, hc, h'.symm⟩
  · rintro ⟨n, b, r, hb, rfl, hc, rfl⟩
    refine ⟨r, n, (int32_exact _ _ _).mpr ⟨b, hb, rfl⟩, ?_⟩
    rw [if_neg hc]
    rfl

theorem number_exact {c : Int → Prop} [DecidablePred c] {reason : ErrorInner} (g : Int → α) :
    Exact (fun i => (Int32.parse i).bind fun n r => if c n then (.ok r (g n) : Outcome Error α) else .failure ⟨i, reason⟩)
      (fun a b => ∃ z, c z ∧ a = g z ∧ IsInt32 z b) := by
  intro i r a
  simp only [Outcome.bind_ok]
  constructor
  · rintro ⟨r', n, h, h'⟩
    obtain ⟨b, hb, rfl⟩ := (int32_exact _ _ _).mp h
    split at h'
    · rename_i hc
      cases h'
      exact ⟨b, ⟨n, hc, rfl, hb⟩, rfl⟩
    · cases h'
  · rintro ⟨b, ⟨n, hc, rfl, hb⟩, rfl⟩
    refine ⟨r, n, (int32_exact _ _ _).mpr ⟨b, hb, rfl⟩, ?_⟩
    rw [if_pos hc]

/-- Only the extent of the first field matters. -/
theorem after_extent {R : α → Bytes → Prop} {S : β → Bytes → Prop} {P : Bytes → Prop}
    (h : ∀ b, (∃ a, R a b) ↔ ∃ a, S a b) {i : Bytes} : After R (fun _ r => P r) i ↔ After S (fun _ r => P r) i := by
  constructor
  · rintro ⟨a, b, r, hr, rfl, hp⟩
    obtain ⟨a', h'⟩ := (h b).mp ⟨a, hr⟩
    exact ⟨a', b, r, h', rfl, hp⟩
  · rintro ⟨a, b, r, hr, rfl, hp⟩
    obtain ⟨a', h'⟩ := (h b).mpr ⟨a, hr⟩
    exact ⟨a', b, r, h', rfl, hp⟩

theorem nonneg_length (b : Bytes) : (∃ z, 0 ≤ z ∧ IsInt32 z b) ↔ ∃ n, IsLength n b := by
  constructor
  · rintro ⟨z, h0, hz, rfl⟩
    have h2 := hz.2
    simp at h2
    have hlt : z.toNat < 2 ^ 31 := by omega
    refine ⟨z.toNat, hlt, ?_⟩
    rw [← leInt_nonneg hlt]; congr 1; omega
  · rintro ⟨n, hn, rfl⟩
    refine ⟨n, by omega, ⟨?_, ?_⟩, (leInt_nonneg hn).symm⟩ <;> simp <;> omega

/-! ## The header -/

theorem header_broken : Broken SerializationHeader.parse (BadTagged 0 fun r o =>
    BadNumber (0 ≤ ·) .invalidRootId r o ∨ After IsLength (fun _ i =>
    BadInt32 i o ∨ After IsInt32 (fun _ i =>
    BadNumber (· = 1) .invalidMajorVersion i o ∨ After (fun _ b => b = le 4 1) (fun (_ : Unit) i =>
    BadNumber (· = 0) .invalidMinorVersion i o) i) i) r) := by
  have minor : ∀ (f : Int → SerializationHeader), Broken (fun i => ((Int32.parse i).bind fun n r =>
      if n = 0 then .ok r n else .failure ⟨i, .invalidMinorVersion⟩).bind fun n i => .ok i (f n))
      (BadNumber (· = 0) .invalidMinorVersion) := fun f => (number_broken (fun n => n)).bind_pure f
  refine tagged_broken (t := .serializedStreamHeader) ((Broken.bind
    (number_exact (fun n => if n.toNat = 0 then none else some n.toNat)) (number_broken _) fun root =>
    Broken.bind int32_exact int32_broken fun head =>
    Broken.bind (number_exact (fun n => n)) (number_broken (fun n => n)) fun major =>
    minor fun _ => ⟨root, head⟩).congr fun i o => or_congr Iff.rfl ?_)
  refine (after_congr fun _ i => or_congr Iff.rfl (after_congr fun _ i => or_congr Iff.rfl
    (after_extent (S := fun (_ : Unit) b => b = le 4 1) fun b => ?_))).trans (after_extent fun b => ?_)
  · constructor
    · rintro ⟨a, z, rfl, rfl, _, rfl⟩; exact ⟨(), by decide⟩
    · rintro ⟨_, rfl⟩; exact ⟨1, 1, rfl, rfl, ⟨by decide, by decide⟩, by decide⟩
  · rw [← nonneg_length]
    constructor
    · rintro ⟨_, z, h, _, h'⟩; exact ⟨z, h, h'⟩
    · rintro ⟨z, h, h'⟩; exact ⟨_, z, h, rfl, h'⟩

/-- What the header reports. -/
theorem header_err (i : Bytes) (e : Error) :
    (SerializationHeader.parse i = .error e ∨ SerializationHeader.parse i = .failure e) ↔ BadHeader i e := by
  have hb := header_broken i
  constructor
  · rintro (h | h)
    · have h1 := (hb none).mp (by rw [h]; rfl)
      rcases h1 with ⟨h0, _⟩ | ⟨r, rfl, h1⟩
      · unfold SerializationHeader.parse at h
        rw [tagged_mismatch (t := .serializedStreamHeader) h0] at h
        cases h
        exact .inl ⟨h0, rfl⟩
      · exfalso
        rcases h1 with h1 | ⟨_, _, _, _, _, h1 | ⟨_, _, _, _, _, h1 | ⟨_, _, _, _, _, h1⟩⟩⟩
        · rcases h1 with ⟨_, h1⟩ | ⟨_, _, _, _, _, _, h1⟩ <;> cases h1
        · cases h1.2
        · rcases h1 with ⟨_, h1⟩ | ⟨_, _, _, _, _, _, h1⟩ <;> cases h1
        · rcases h1 with ⟨_, h1⟩ | ⟨_, _, _, _, _, _, h1⟩ <;> cases h1
    · rcases (hb (some e)).mp (by rw [h]; rfl) with ⟨_, h1⟩ | ⟨r, rfl, h1⟩
      · cases h1
      · exact .inr ⟨r, rfl, h1⟩
  · rintro (⟨h0, rfl⟩ | ⟨r, rfl, h⟩)
    · left
      unfold SerializationHeader.parse
      rw [tagged_mismatch (t := .serializedStreamHeader) h0]
    · right
      exact verdict_failure.mp ((hb (some e)).mpr (.inr ⟨r, rfl, h⟩))

/-! ## Method records -/

theorem flags_broken : Broken MessageFlags.parse BadFlags := by
  intro i o
  unfold MessageFlags.parse BadFlags
  rw [verdict_bind]
  refine or_congr ?_ ?_
  · simp only [verdict_relabel]
    constructor
    · rintro ⟨o', h, rfl⟩
      obtain ⟨h1, rfl⟩ := (int32_broken i o').mp h
      exact ⟨h1, rfl⟩
    · rintro ⟨h, rfl⟩; exact ⟨_, (int32_broken i _).mpr ⟨h, rfl⟩, rfl⟩
  · simp only [Outcome.relabel_ok]
    constructor
    · rintro ⟨r, z, h, h'⟩
      obtain ⟨b, ⟨hz, rfl⟩, rfl⟩ := (int32_exact _ _ _).mp h
      split at h'
      · cases h'
      · rename_i hc
        simp only [verdict, Option.some.injEq] at h'
        refine ⟨BitVec.ofInt 32 z, _, r, ?_, rfl, fun hf => hc ((flags_check _).mpr hf), h'.symm⟩
        unfold IsFlags leInt
        simp [BitVec.toNat_ofInt]
    · rintro ⟨f, b, r, rfl, rfl, hf, rfl⟩
      refine ⟨r, f.toInt, (int32_exact _ _ _).mpr ⟨_, ⟨⟨?_, ?_⟩, ?_⟩, rfl⟩, ?_⟩
      · have := BitVec.le_toInt f; simpa using this
      · have := BitVec.toInt_lt (x := f); simp at this ⊢; omega
      · unfold leInt
        congr 1
        have h := BitVec.toInt_eq_toNat_cond f
        have hl := f.isLt
        simp only [Nat.reducePow, Nat.reduceMul] at *
        split at h <;> rw [h] <;> omega
      · have : BitVec.ofInt 32 f.toInt = f := BitVec.ofInt_toInt
        simp only [this]
        rw [if_neg (fun h => hf ((flags_check f).mp h))]
        rfl

theorem codedString_broken : Broken StringValueWithCode.parse BadCodedString := by
  intro i o
  unfold StringValueWithCode.parse BadCodedString
  by_cases h : i.head? = some 18
  · cases i with
    | nil => cases h
    | cons x r =>
      cases h
      have : ((tagByte PrimitiveType.string PrimitiveType.string.code (18 :: r)).intoFailure).at
        (.expectedPrimitive .string) = .ok r PrimitiveType.string := rfl
      rw [this]
      simp only [Outcome.bind]
      rw [string_broken r o]
      simp
  · have : ((tagByte PrimitiveType.string PrimitiveType.string.code i).intoFailure).at
        (.expectedPrimitive .string) = .failure ⟨i, .expectedPrimitive .string⟩ := by
      cases i with
      | nil => rfl
      | cons x r =>
        have hx : ¬ x = PrimitiveType.string.code := fun e => h (by rw [e]; rfl)
        unfold tagByte
        simp only [if_neg hx]
        rfl
    rw [this]
    simp only [Outcome.bind, verdict, Option.some.injEq, h, ne_eq, not_false_eq_true, true_and]
    constructor
    · rintro rfl; exact .inl rfl
    · rintro (rfl | ⟨r, rfl, _⟩)
      · rfl
      · exact absurd rfl h

theorem codedValue_broken [Platform] : Broken ValueWithCode.parse BadCodedValue := by
  have body : ∀ t : PrimitiveType, Broken (fun i => (match t with
    | .boolean => (Boolean.parse i).map (.prim ∘ .boolean)
    | .byte => (Byte.parse i).map (.prim ∘ .byte)
    | .char => (Char.parse i).map (.prim ∘ .char)
    | .decimal => (Decimal.parse i).map (.prim ∘ .decimal)
    | .double => (Double.parse i).map (.prim ∘ .double)
    | .int16 => (Int16.parse i).map (.prim ∘ .int16)
    | .int32 => (Int32.parse i).map (.prim ∘ .int32)
    | .int64 => (Int64.parse i).map (.prim ∘ .int64)
    | .sbyte => (Int8.parse i).map (.prim ∘ .sbyte)
    | .single => (Single.parse i).map (.prim ∘ .single)
    | .timeSpan => (TimeSpan.parse i).map (.prim ∘ .timeSpan)
    | .dateTime => (DateTime.parse i).map (.prim ∘ .dateTime)
    | .uint16 => (UInt16.parse i).map (.prim ∘ .uint16)
    | .uint32 => (UInt32.parse i).map (.prim ∘ .uint32)
    | .uint64 => (UInt64.parse i).map (.prim ∘ .uint64)
    | .null => .ok i .null
    | .string => (lengthPrefixedString i).map .string : Outcome Error ValueWithCode))
      (fun i o => (t = .string ∧ BadString i o) ∨ (t ≠ .null ∧ t ≠ .string ∧ BadPrimitive t i o)) := by
    intro t
    cases t
    case null => exact (Broken.pure fun _ => ValueWithCode.null).congr fun i o => by simp
    case string => exact (string_broken.map _).congr fun i o => by simp
    all_goals
      intro i o
      rw [verdict_map]
      simp only [reduceCtorEq, false_and, false_or, ne_eq, not_false_eq_true, true_and]
      rw [← untyped_broken _ i o]
      simp only [memberPrimitiveUnTyped, verdict_map]
  refine (Broken.bind primitiveType_exact primitiveType_broken body).congr fun i o => or_congr Iff.rfl ?_
  constructor
  · rintro ⟨t, b, r, rfl, rfl, ⟨rfl, h⟩ | ⟨h1, h2, h3⟩⟩
    · exact .inl ⟨r, rfl, h⟩
    · exact .inr ⟨t, r, h1, h2, rfl, h3⟩
  · rintro (⟨r, rfl, h⟩ | ⟨t, r, h1, h2, rfl, h3⟩)
    · exact ⟨.string, _, r, rfl, rfl, .inl ⟨rfl, h⟩⟩
    · exact ⟨t, _, r, rfl, rfl, .inr ⟨h1, h2, h3⟩⟩

theorem codedValues_broken [Platform] : Broken ArrayOfValueWithCode.parse BadCodedValues :=
  Broken.bind length_exact length_broken fun n => Broken.count_map codedValue_exact codedValue_broken n

theorem methodCall_broken [Platform] : Broken BinaryMethodCall.parse BadMethodCall := by
  refine tagged_broken (t := .methodCall) (Broken.bind flags_exact flags_broken fun f => ?_)
  rw [bit_context, bit_args]
  exact Broken.bind codedString_exact codedString_broken fun name =>
    Broken.bind codedString_exact codedString_broken fun type =>
    Broken.bind (optional_exact codedString_exact _) (codedString_broken.cond _) fun ctx =>
    (codedValues_broken.cond _).bind_pure _

theorem methodReturn_broken [Platform] : Broken BinaryMethodReturn.parse BadMethodReturn := by
  refine tagged_broken (t := .methodReturn) (Broken.bind flags_exact flags_broken fun f => ?_)
  rw [bit_context, bit_args, bit_return]
  exact Broken.bind_map (optional_exact_map codedValue_exact _) (codedValue_broken.cond _) fun v =>
    Broken.bind (optional_exact codedString_exact _) (codedString_broken.cond _) fun ctx =>
    (codedValues_broken.cond _).bind_pure _

end Nrbf
