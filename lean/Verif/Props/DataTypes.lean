import Verif.Lemmas.ExactMethod
import Verif.Model.ValueEq
import Verif.Tactic.PlatformDecide

/-! # C08 – C17: data types, ids, flags

`p (b ++ rest) = .ok rest v` says that parsing succeeds, yields `v`, and leaves exactly `rest`.
`.failure ⟨i, e⟩` is an unrecoverable error at position `i`, `.error ⟨i, e⟩` a recoverable one. -/

namespace Nrbf
open Spec

/-! ## C08, C09: strings -/

/-- **C08** A string of any length below 2^31, written with its length prefix, is read back exactly. -/
theorem C08_string_round_trip (s : Str) (rest : Bytes) (hs : IsUtf8 s) (hl : s.length < 2 ^ 31) :
    lengthPrefixedString (string s ++ rest) = .ok rest s :=
  (lps_exact _ _ _).mpr ⟨_, string_ok hl hs, rfl⟩

example : IsUtf8 [0xC3, 0xA9] := ⟨['é'], by decide +kernel⟩

/-- **C09** The parser accepts exactly the well-formed length-prefixed strings (at most five groups of
seven bits, the fifth below 8; that many bytes of UTF-8 follow). -/
theorem C09_accepted_iff (i rest : Bytes) (s : Str) :
    lengthPrefixedString i = .ok rest s ↔ ∃ b, IsString s b ∧ i = b ++ rest := lps_exact i rest s

/-- **C09** Whatever is not accepted is a recoverable error naming the string type. -/
theorem C09_rejected (i : Bytes) (h : ¬ ∃ s b rest, IsString s b ∧ i = b ++ rest) :
    ∃ pos, lengthPrefixedString i = .error ⟨pos, .expectedPrimitive .string⟩ := by
  rcases lps_total i with ⟨r, s, hok⟩ | h'
  · obtain ⟨b, hb, rfl⟩ := (lps_exact _ _ _).mp hok
    exact absurd ⟨s, b, r, hb, rfl⟩ h
  · exact h'

theorem base128_lt {gs : List Nat} (h : ∀ g ∈ gs, g < 128) : base128 gs < 128 ^ gs.length := by
  induction gs with
  | nil => simp [base128]
  | cons g gs ih =>
    have h1 := h g (by simp)
    have h2 := ih fun g hg => h g (by simp [hg])
    rw [base128, List.length_cons, Nat.pow_succ]
    omega

theorem base128_append (gs : List Nat) (l : Nat) :
    base128 (gs ++ [l]) = base128 gs + 128 ^ gs.length * l := by
  induction gs with
  | nil => simp [base128]
  | cons g gs ih =>
    rw [List.cons_append, base128, ih, base128, List.length_cons, Nat.pow_succ, Nat.mul_add,
      Nat.mul_comm (128 ^ gs.length) 128, Nat.mul_assoc]
    omega

/-- **C09** Accepted prefixes denote lengths below 2^31. -/
theorem C09_length_bound {n : Nat} {b : Bytes} (h : IsLengthPrefix n b) : n < 2 ^ 31 := by
  obtain ⟨gs, last, hg, hl, hlen, h4, -, rfl⟩ := h
  have := base128_lt hg
  rw [base128_append]
  have hc : gs.length = 0 ∨ gs.length = 1 ∨ gs.length = 2 ∨ gs.length = 3 ∨ gs.length = 4 := by omega
  rcases hc with hc | hc | hc | hc | hc <;> rw [hc] at this ⊢ <;> first | omega | (have := h4 hc; omega)

/-- **C09** An over-long prefix (one with superfluous zero groups) reads as the same string as the
minimal one. -/
theorem C09_overlong (s : Str) (p rest : Bytes) (hs : IsUtf8 s) (hp : IsLengthPrefix s.length p) :
    lengthPrefixedString (p ++ s ++ rest) = lengthPrefixedString (string s ++ rest) := by
  rw [C08_string_round_trip s rest hs (C09_length_bound hp)]
  exact (lps_exact _ _ _).mpr ⟨p ++ s, ⟨p, hp, hs, rfl⟩, rfl⟩

/-- `81 80 00` is an over-long prefix for the length 1. -/
example : IsLengthPrefix 1 [0x81, 0x80, 0x00] :=
  ⟨[1, 0], 0, by decide, by decide, by decide, by decide, by decide +kernel, by decide⟩

/-- A sixth group is never read: five continuation bits are an error. -/
example : lengthPrefixedString [0x80, 0x80, 0x80, 0x80, 0x80, 0x00] =
    .error ⟨[0x80, 0x00], .expectedPrimitive .string⟩ := by decide +kernel

/-! ## C10, C11: numbers -/

/-- A fixed-width number parser: it accepts exactly the encodings of numbers in range, and an input
that is too short is an unrecoverable error, at that input, naming the type. -/
def FixedWidth {α : Type} (p : Parser α) (t : PrimitiveType) (width : Nat) (inRange : α → Prop)
    (encode : α → Bytes) : Prop :=
  (∀ n rest, inRange n → p (encode n ++ rest) = .ok rest n) ∧
  (∀ i rest n, p i = .ok rest n → inRange n ∧ (encode n).length = width ∧ i = encode n ++ rest) ∧
  (∀ i, i.length < width → p i = .failure ⟨i, .expectedPrimitive t⟩) ∧
  (∀ i, width ≤ i.length → ∃ n, p i = .ok (i.drop width) n)

theorem fixedWidth_of {α : Type} {q : PureParser NomError α} {p : Parser α} {t : PrimitiveType}
    {width : Nat} {inRange : α → Prop} {encode : α → Bytes}
    (hp : p = fun i => (q i).intoFailure.at (.expectedPrimitive t))
    (hq : Exact q (fun n b => inRange n ∧ b = encode n)) (hlen : ∀ n, (encode n).length = width)
    (hshort : ∀ i, i.length < width → q i = .error ⟨i, .eof⟩)
    (hlong : ∀ i, width ≤ i.length → ∃ n, q i = .ok (i.drop width) n) :
    FixedWidth p t width inRange encode := by
  subst hp
  have hp := hq.fail' (.expectedPrimitive t)
  refine ⟨fun n rest h => (hp _ _ _).mpr ⟨_, ⟨h, rfl⟩, rfl⟩, ?_, ?_, ?_⟩
  · intro i rest n h
    obtain ⟨_, ⟨h1, rfl⟩, rfl⟩ := (hp _ _ _).mp h
    exact ⟨h1, hlen n, rfl⟩
  · intro i hi; simp only [hshort i hi]; rfl
  · intro i hi
    obtain ⟨n, hn⟩ := hlong i hi
    exact ⟨n, by simp only [hn]; rfl⟩

theorem fixedWidth_unsigned (t : PrimitiveType) (width : Nat) {p : Parser Nat}
    (hp : p = fun i => (leUnsigned width i).intoFailure.at (.expectedPrimitive t)) :
    FixedWidth p t width (fun n => n < 256 ^ width) (le width) :=
  fixedWidth_of hp (leUnsigned_exact width) (fun _ => le_length ..)
    (fun i hi => by simp [leUnsigned, takeN, Nat.not_le.mpr hi])
    (fun i hi => by simp [leUnsigned, takeN, hi])

theorem fixedWidth_signed (t : PrimitiveType) (width : Nat) (hw : 1 ≤ width) {p : Parser Int}
    (hp : p = fun i => (leSigned width i).intoFailure.at (.expectedPrimitive t)) :
    FixedWidth p t width (InSigned width) (leInt width) :=
  fixedWidth_of hp (leSigned_exact width hw) (fun _ => le_length ..)
    (fun i hi => by simp [leSigned, leUnsigned, takeN, Nat.not_le.mpr hi, Outcome.map])
    (fun i hi => by simp [leSigned, leUnsigned, takeN, hi, Outcome.map])

/-- **C10** Unsigned integers. -/
theorem C10_unsigned :
    FixedWidth Byte.parse .byte 1 (fun n => n < 2 ^ 8) (le 1) ∧
    FixedWidth UInt16.parse .uint16 2 (fun n => n < 2 ^ 16) (le 2) ∧
    FixedWidth UInt32.parse .uint32 4 (fun n => n < 2 ^ 32) (le 4) ∧
    FixedWidth UInt64.parse .uint64 8 (fun n => n < 2 ^ 64) (le 8) :=
  ⟨fixedWidth_unsigned .byte 1 rfl, fixedWidth_unsigned .uint16 2 rfl,
    fixedWidth_unsigned .uint32 4 rfl, fixedWidth_unsigned .uint64 8 rfl⟩

/-- **C10** Signed integers, two's complement. -/
theorem C10_signed :
    FixedWidth Int8.parse .sbyte 1 (fun z => -2 ^ 7 ≤ z ∧ z < 2 ^ 7) (leInt 1) ∧
    FixedWidth Int16.parse .int16 2 (fun z => -2 ^ 15 ≤ z ∧ z < 2 ^ 15) (leInt 2) ∧
    FixedWidth Int32.parse .int32 4 (fun z => -2 ^ 31 ≤ z ∧ z < 2 ^ 31) (leInt 4) ∧
    FixedWidth Int64.parse .int64 8 (fun z => -2 ^ 63 ≤ z ∧ z < 2 ^ 63) (leInt 8) :=
  ⟨fixedWidth_signed .sbyte 1 (by omega) rfl, fixedWidth_signed .int16 2 (by omega) rfl,
    fixedWidth_signed .int32 4 (by omega) rfl, fixedWidth_signed .int64 8 (by omega) rfl⟩

example : leInt 2 (-2) = [0xFE, 0xFF] ∧ le 4 258 = [2, 1, 0, 0] := by decide +kernel

/-- **C11** Floats keep their bit pattern (`n` is the bit pattern), time spans and dates their 64 raw
bits. -/
theorem C11_bits_preserved :
    FixedWidth Single.parse .single 4 (fun n => n < 2 ^ 32) (le 4) ∧
    FixedWidth Double.parse .double 8 (fun n => n < 2 ^ 64) (le 8) ∧
    FixedWidth TimeSpan.parse .timeSpan 8 (fun z => -2 ^ 63 ≤ z ∧ z < 2 ^ 63) (leInt 8) ∧
    FixedWidth DateTime.parse .dateTime 8 (fun z => -2 ^ 63 ≤ z ∧ z < 2 ^ 63) (leInt 8) := by
  refine ⟨fixedWidth_unsigned .single 4 rfl, fixedWidth_unsigned .double 8 rfl,
    fixedWidth_signed .timeSpan 8 (by omega) rfl, fixedWidth_signed .dateTime 8 (by omega) ?_⟩
  funext i
  unfold DateTime.parse Int64.parse
  cases leSigned 8 i <;> rfl

/-! ## C12, C13: booleans and characters -/

/-- **C12** Byte 0 is false, byte 1 is true, every other byte and the empty input are unrecoverable
errors. -/
theorem C12_boolean (b : UInt8) (rest : Bytes) :
    Boolean.parse (0 :: rest) = .ok rest false ∧ Boolean.parse (1 :: rest) = .ok rest true ∧
    (b ≠ 0 → b ≠ 1 → Boolean.parse (b :: rest) = .failure ⟨b :: rest, .expectedPrimitive .boolean⟩) ∧
    Boolean.parse [] = .failure ⟨[], .expectedPrimitive .boolean⟩ := by
  refine ⟨rfl, rfl, fun h0 h1 => ?_, rfl⟩
  have h0' : b.toNat ≠ 0 := fun h => h0 (toNat_ext (by simpa using h))
  have h1' : b.toNat ≠ 1 := fun h => h1 (toNat_ext (by simpa using h))
  unfold Boolean.parse mapOpt
  have : leUnsigned 1 (b :: rest) = .ok rest b.toNat := by simp [leUnsigned, takeN, leNat]
  rw [this]
  simp only
  rfl

/-- **C13** (ASCII) An ASCII character is read back. -/
theorem C13_ascii (c : Char) (hc : c.toNat < 128) (rest : Bytes) :
    Char.parse (String.utf8EncodeChar c ++ rest) = .ok rest c.toNat := by
  have hc' : c.val.toNat ≤ 127 := by have : c.val.toNat < 128 := hc; omega
  have he : String.utf8EncodeChar c = le 1 c.toNat := by
    have : c.toNat ≤ 127 := hc'
    simp [String.utf8EncodeChar, this, le, Nat.mod_eq_of_lt (show c.toNat < 256 by omega)]
  rw [he]
  exact (char_exact _ _ _).mpr ⟨_, ⟨by omega, rfl⟩, rfl⟩

/-- **C13** (others) No non-ASCII character is ever read from its UTF-8 encoding. -/
theorem C13_non_ascii (c : Char) (hc : 128 ≤ c.toNat) (rest : Bytes) :
    Char.parse (String.utf8EncodeChar c ++ rest) ≠ .ok rest c.toNat := by
  intro h
  obtain ⟨_, ⟨_, rfl⟩, hb⟩ := (char_exact _ _ _).mp h
  have hl : (String.utf8EncodeChar c).length = 1 := by
    rw [List.append_cancel_right hb, le_length]
  rw [String.length_utf8EncodeChar] at hl
  have := Char.utf8Size_eq_one_iff.mp hl
  have h2 : c.toNat ≤ 127 := this
  omega

/-- **C13**, the exact behaviour: one byte, read as the code point with that number (Latin-1). -/
theorem C13_latin1 (b : UInt8) (rest : Bytes) : Char.parse (b :: rest) = .ok rest b.toNat :=
  (char_exact _ _ _).mpr ⟨[b], ⟨b.toNat_lt, by simp [le]⟩, rfl⟩

example : Char.parse (String.utf8EncodeChar 'é' ++ [7]) = .ok [0xA9, 7] 0xC3 := by decide +kernel

/-! ## C14: dates -/

/-- **C14** For every 64-bit word: `ticks` is the signed number in the upper 62 bits, `kind` is given by
the lower two bits. -/
theorem C14_ticks_kind (b : BitVec 64) :
    DateTime.ticks b.toInt = (b.extractLsb 63 2).toInt ∧
    DateTime.kind b.toInt =
      (if b.extractLsb 1 0 = 1#2 then some .utc
       else if b.extractLsb 1 0 = 2#2 then some .local else none) := by
  have hb := b.isLt
  constructor
  · have h1 : (b.extractLsb 63 2).toNat = b.toNat / 4 := by
      rw [BitVec.extractLsb_toNat]
      simp [Nat.shiftRight_eq_div_pow]
      omega
    unfold DateTime.ticks
    rw [Int.shiftRight_eq_div_pow, BitVec.toInt_eq_toNat_cond, BitVec.toInt_eq_toNat_cond, h1]
    simp only [Nat.reduceSub, Nat.reduceAdd, Nat.reducePow, Int.reducePow]
    split <;> split <;> omega
  · have h1 : (b.extractLsb 1 0).toNat = b.toNat % 4 := by
      rw [BitVec.extractLsb_toNat]
      simp
    have h2 : b.toInt % 4 = ((b.toNat % 4 : Nat) : Int) := by
      rw [BitVec.toInt_eq_toNat_cond]
      split <;> omega
    have e : ∀ k : BitVec 2, b.extractLsb 1 0 = k ↔ b.toNat % 4 = k.toNat := by
      intro k
      rw [← h1]
      exact ⟨fun h => by rw [h], fun h => BitVec.eq_of_toNat_eq h⟩
    unfold DateTime.kind
    rw [h2]
    simp only [e]
    have : b.toNat % 4 = 0 ∨ b.toNat % 4 = 1 ∨ b.toNat % 4 = 2 ∨ b.toNat % 4 = 3 := by omega
    rcases this with h | h | h | h <;> rw [h] <;> rfl

/-- **C14** Ticks and a UTC or local kind determine the raw value. -/
theorem C14_determined (raw : Int) (k : DateTimeKind) (h : DateTime.kind raw = some k) :
    raw = 4 * DateTime.ticks raw + (match k with | .utc => 1 | .local => 2) := by
  unfold DateTime.ticks
  rw [Int.shiftRight_eq_div_pow]
  unfold DateTime.kind at h
  split at h <;> cases h <;> simp <;> omega

example : DateTime.kind (-3) = some .utc ∧ DateTime.ticks (-3) = -1 := by decide

/-! ## C15: flags -/

/-- **C15** A flag word is accepted iff the categories exclude each other as described. -/
theorem C15_flags_iff (f : BitVec 32) (rest : Bytes) :
    (FlagsOk f → MessageFlags.parse (le 4 f.toNat ++ rest) = .ok rest f) ∧
    (¬ FlagsOk f → MessageFlags.parse (le 4 f.toNat ++ rest) =
      .failure ⟨le 4 f.toNat ++ rest, .invalidMessageFlags⟩) := by
  constructor
  · intro h
    exact (flags_exact _ _ _).mpr ⟨_, ⟨h, rfl⟩, rfl⟩
  · intro h
    have e : Int32.parse (le 4 f.toNat ++ rest) = .ok rest f.toInt := by
      rw [int32_total (le_length ..), leNat_le]
      have hf := f.isLt
      rw [Nat.mod_eq_of_lt (by omega), BitVec.toInt_eq_toNat_cond]
      unfold toSigned
      congr 1
      split <;> split <;> first | rfl | omega | (simp; done)
    unfold MessageFlags.parse
    rw [e]
    have hc : MessageFlags.check f = false := by
      rw [← Bool.not_eq_true, flags_check]; exact h
    simp [Outcome.relabel, Outcome.mapErr, Outcome.bind, hc]

/-- **C15**, the deviation from MS-NRBF: a word with two return-category bits (ReturnValueInline and
ReturnValueInArray) is accepted. -/
theorem C15_return_category_false :
    ∃ f : BitVec 32, ¬ ReturnCategoryOk f ∧
      ∀ rest, MessageFlags.parse (le 4 f.toNat ++ rest) = .ok rest f := by
  refine ⟨0x1811#32, ?_, fun rest => (C15_flags_iff _ rest).1 ?_⟩
  · intro h
    exact absurd (h 11 (by decide) 12 (by decide) (by decide) (by decide)) (by decide)
  · exact (flags_check _).mp (by decide +kernel)

/-- Words of both kinds exist. -/
example : FlagsOk 0x811#32 ∧ ¬ FlagsOk 0x3#32 := by
  rw [← flags_check, ← flags_check]
  decide +kernel

/-! ## C16, C17: ids and null runs -/

theorem int32_leInt {z : Int} (h : InSigned 4 z) (rest : Bytes) :
    Int32.parse (leInt 4 z ++ rest) = .ok rest z := (int32_exact _ _ _).mpr ⟨_, ⟨h, rfl⟩, rfl⟩

/-- **C16** Object (also metadata and reference) ids and library ids are accepted iff positive; a zero
or negative id is an unrecoverable error at the id. -/
theorem C16_ids (z : Int) (hz : -2 ^ 31 ≤ z ∧ z < 2 ^ 31) (rest : Bytes) :
    objectId (leInt 4 z ++ rest) =
      (if 0 < z then .ok rest z.toNat else .failure ⟨leInt 4 z ++ rest, .invalidObjectId⟩) ∧
    libraryId (leInt 4 z ++ rest) =
      (if 0 < z then .ok rest z.toNat else .failure ⟨leInt 4 z ++ rest, .invalidLibraryId⟩) := by
  have h : InSigned 4 z := by simpa [InSigned] using hz
  constructor
  · unfold objectId; rw [int32_leInt h]; rfl
  · unfold libraryId; rw [int32_leInt h]; rfl

/-- **C16** A reference record and a metadata id go through the same check. -/
theorem C16_reference (z : Int) (hz : -2 ^ 31 ≤ z ∧ z < 2 ^ 31) (rest : Bytes) :
    MemberReference.parse (9 :: leInt 4 z ++ rest) =
      (if 0 < z then .ok rest z.toNat else .failure ⟨leInt 4 z ++ rest, .invalidObjectId⟩) := by
  have : MemberReference.parse (9 :: leInt 4 z ++ rest) = objectId (leInt 4 z ++ rest) := rfl
  rw [this, (C16_ids z hz rest).1]

/-- **C17** A null-run record is accepted iff its count is positive, and stands for that many nulls;
zero or negative counts are the unrecoverable error InvalidNullCount. -/
theorem C17_null_runs (z : Int) (hz : -2 ^ 31 ≤ z ∧ z < 2 ^ 31) (b : UInt8) (rest : Bytes) :
    parseNullObject (10 :: rest) = .ok rest (.null 1) ∧
    parseNullObject (14 :: leInt 4 z ++ rest) =
      (if 0 < z then .ok rest (.null z.toNat) else .failure ⟨leInt 4 z ++ rest, .invalidNullCount⟩) ∧
    parseNullObject (13 :: b :: rest) =
      (if 0 < b then .ok rest (.null b.toNat) else .failure ⟨b :: rest, .invalidNullCount⟩) := by
  have h : InSigned 4 z := by simpa [InSigned] using hz
  refine ⟨rfl, ?_, ?_⟩
  · show parseNullObject (14 :: (leInt 4 z ++ rest)) = _
    have e0 : ObjectNull.parse (14 :: (leInt 4 z ++ rest)) =
        .error ⟨14 :: (leInt 4 z ++ rest), .expectedRecordType .objectNull⟩ := rfl
    have e1 : ObjectNullMultiple.parse (14 :: (leInt 4 z ++ rest)) =
        (if 0 < z then .ok rest z.toNat else .failure ⟨leInt 4 z ++ rest, .invalidNullCount⟩) := by
      have : ObjectNullMultiple.parse (14 :: (leInt 4 z ++ rest)) =
        ((Int32.parse (leInt 4 z ++ rest)).bind fun n r =>
          if 0 < n then .ok r n.toNat else .failure ⟨leInt 4 z ++ rest, .invalidNullCount⟩) := rfl
      rw [this, int32_leInt h]
      rfl
    unfold parseNullObject
    simp only [alt, e0, e1]
    by_cases hz0 : 0 < z <;> simp only [hz0, if_true, if_false] <;> rfl
  · have : parseNullObject (13 :: b :: rest) =
        ((Byte.parse (b :: rest)).bind fun n r =>
          if 0 < n then .ok r n else .failure ⟨b :: rest, .invalidNullCount⟩).map .null := rfl
    rw [this]
    have hb : Byte.parse (b :: rest) = .ok rest b.toNat := by
      simp [Byte.parse, leUnsigned, takeN, leNat, Outcome.intoFailure, Outcome.at, Outcome.mapErr]
    rw [hb]
    simp only [Outcome.bind, UInt8.lt_iff_toNat_lt]
    split
    · rw [if_pos (by assumption)]; rfl
    · rw [if_neg (by assumption)]; rfl

end Nrbf
