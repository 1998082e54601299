import Verif.Spec.Utf8
import Verif.Model.DataType

/-! # `utf8Valid` decides `IsUtf8` -/

namespace Nrbf
open Spec

theorem utf8Valid_one {b0 : UInt8} {r : Bytes} (h : b0.toNat < 128) :
    utf8Valid (b0 :: r) = utf8Valid r := by
  rw [utf8Valid.eq_def]; simp only [if_pos h]

theorem utf8Valid_two {b0 b1 : UInt8} {r : Bytes} (h : 0xC2 ≤ b0.toNat ∧ b0.toNat ≤ 0xDF) :
    utf8Valid (b0 :: b1 :: r) = (isCont b1 && utf8Valid r) := by
  rw [utf8Valid.eq_def]
  simp only [if_neg (show ¬ b0.toNat < 0x80 by omega),
    if_pos (show (decide (0xC2 ≤ b0.toNat) && decide (b0.toNat ≤ 0xDF)) = true by simp; omega)]

/-- The condition on the second byte of a three-byte form. -/
def second3 (b0 b1 : UInt8) : Prop :=
  (b0.toNat = 0xE0 ∧ 0xA0 ≤ b1.toNat ∧ b1.toNat ≤ 0xBF) ∨
  (0xE1 ≤ b0.toNat ∧ b0.toNat ≤ 0xEC ∧ 0x80 ≤ b1.toNat ∧ b1.toNat ≤ 0xBF) ∨
  (b0.toNat = 0xED ∧ 0x80 ≤ b1.toNat ∧ b1.toNat ≤ 0x9F) ∨
  (0xEE ≤ b0.toNat ∧ b0.toNat ≤ 0xEF ∧ 0x80 ≤ b1.toNat ∧ b1.toNat ≤ 0xBF)

/-- The condition on the second byte of a four-byte form. -/
def second4 (b0 b1 : UInt8) : Prop :=
  (b0.toNat = 0xF0 ∧ 0x90 ≤ b1.toNat ∧ b1.toNat ≤ 0xBF) ∨
  (0xF1 ≤ b0.toNat ∧ b0.toNat ≤ 0xF3 ∧ 0x80 ≤ b1.toNat ∧ b1.toNat ≤ 0xBF) ∨
  (b0.toNat = 0xF4 ∧ 0x80 ≤ b1.toNat ∧ b1.toNat ≤ 0x8F)

theorem isCont_iff {b : UInt8} : isCont b = true ↔ 0x80 ≤ b.toNat ∧ b.toNat ≤ 0xBF := by
  simp [isCont]

theorem utf8Valid_three {b0 b1 b2 : UInt8} {r : Bytes}
    (h : 0xE0 ≤ b0.toNat ∧ b0.toNat ≤ 0xEF) :
    utf8Valid (b0 :: b1 :: b2 :: r) = true ↔
      second3 b0 b1 ∧ isCont b2 = true ∧ utf8Valid r = true := by
  rw [utf8Valid.eq_def]
  simp only [if_neg (show ¬ b0.toNat < 0x80 by omega),
    if_neg (show ¬ (decide (0xC2 ≤ b0.toNat) && decide (b0.toNat ≤ 0xDF)) = true by simp; omega),
    if_pos (show (decide (0xE0 ≤ b0.toNat) && decide (b0.toNat ≤ 0xEF)) = true by simp; omega)]
  simp only [Bool.and_eq_true, Bool.or_eq_true, beq_iff_eq, decide_eq_true_eq, isCont_iff, second3,
    and_assoc, or_assoc]

theorem utf8Valid_four {b0 b1 b2 b3 : UInt8} {r : Bytes}
    (h : 0xF0 ≤ b0.toNat ∧ b0.toNat ≤ 0xF4) :
    utf8Valid (b0 :: b1 :: b2 :: b3 :: r) = true ↔
      second4 b0 b1 ∧ isCont b2 = true ∧ isCont b3 = true ∧ utf8Valid r = true := by
  rw [utf8Valid.eq_def]
  simp only [if_neg (show ¬ b0.toNat < 0x80 by omega),
    if_neg (show ¬ (decide (0xC2 ≤ b0.toNat) && decide (b0.toNat ≤ 0xDF)) = true by simp; omega),
    if_neg (show ¬ (decide (0xE0 ≤ b0.toNat) && decide (b0.toNat ≤ 0xEF)) = true by simp; omega),
    if_pos (show (decide (0xF0 ≤ b0.toNat) && decide (b0.toNat ≤ 0xF4)) = true by simp; omega)]
  simp only [Bool.and_eq_true, Bool.or_eq_true, beq_iff_eq, decide_eq_true_eq, isCont_iff, second4,
    and_assoc, or_assoc]

theorem ofNat_toNat {n m : Nat} (h : n = m) (hm : m < 256) : (UInt8.ofNat n).toNat = m := by
  subst h; simp; omega

theorem utf8_append_char (c : Char) (r : Bytes) :
    utf8Valid (String.utf8EncodeChar c ++ r) = utf8Valid r := by
  have hv : c.val.toNat < 0xD800 ∨ (0xDFFF < c.val.toNat ∧ c.val.toNat < 0x110000) := c.valid
  unfold String.utf8EncodeChar
  simp only
  generalize c.val.toNat = v at hv
  rw [Bool.eq_iff_iff]
  split
  · rw [List.singleton_append, utf8Valid_one (by rw [ofNat_toNat (m := v) rfl (by omega)]; omega)]
  · split
    · have h0 := ofNat_toNat (n := v / 64 % 32 + 192) (m := v / 64 + 192) (by omega) (by omega)
      have h1 := ofNat_toNat (n := v % 64 + 128) rfl (by omega)
      simp only [List.cons_append, List.nil_append]
      rw [utf8Valid_two (by rw [h0]; omega), Bool.and_eq_true, isCont_iff, h1]
      exact ⟨fun h => h.2, fun h => ⟨by omega, h⟩⟩
    · split
      · have h0 := ofNat_toNat (n := v / 4096 % 16 + 224) (m := v / 4096 + 224) (by omega) (by omega)
        have h1 := ofNat_toNat (n := v / 64 % 64 + 128) rfl (by omega)
        have h2 := ofNat_toNat (n := v % 64 + 128) rfl (by omega)
        simp only [List.cons_append, List.nil_append]
        rw [utf8Valid_three (by rw [h0]; omega), isCont_iff, second3, h0, h1, h2]
        exact ⟨fun h => h.2.2, fun h => ⟨by omega, by omega, h⟩⟩
      · have h0 := ofNat_toNat (n := v / 262144 % 8 + 240) (m := v / 262144 + 240) (by omega)
          (by omega)
        have h1 := ofNat_toNat (n := v / 4096 % 64 + 128) rfl (by omega)
        have h2 := ofNat_toNat (n := v / 64 % 64 + 128) rfl (by omega)
        have h3 := ofNat_toNat (n := v % 64 + 128) rfl (by omega)
        simp only [List.cons_append, List.nil_append]
        rw [utf8Valid_four (by rw [h0]; omega), isCont_iff, isCont_iff, second4, h0, h1, h2, h3]
        exact ⟨fun h => h.2.2.2, fun h => ⟨by omega, by omega, by omega, h⟩⟩

theorem utf8Valid_of_isUtf8 {s : Bytes} (h : IsUtf8 s) : utf8Valid s = true := by
  obtain ⟨cs, rfl⟩ := h
  induction cs with
  | nil => rfl
  | cons c cs ih => rw [List.flatMap_cons, utf8_append_char, ih]

theorem isUtf8_cons {v : Nat} {s : Bytes} (h : IsUtf8 s)
    (hv : v < 0xD800 ∨ (0xDFFF < v ∧ v < 0x110000)) {e : Bytes}
    (he : e = if v ≤ 0x7f then [UInt8.ofNat v]
      else if v ≤ 0x7ff then [UInt8.ofNat (v / 64 % 0x20 + 0xc0), UInt8.ofNat (v % 0x40 + 0x80)]
      else if v ≤ 0xffff then [UInt8.ofNat (v / 4096 % 0x10 + 0xe0),
        UInt8.ofNat (v / 64 % 0x40 + 0x80), UInt8.ofNat (v % 0x40 + 0x80)]
      else [UInt8.ofNat (v / 262144 % 0x08 + 0xf0), UInt8.ofNat (v / 4096 % 0x40 + 0x80),
        UInt8.ofNat (v / 64 % 0x40 + 0x80), UInt8.ofNat (v % 0x40 + 0x80)]) :
    IsUtf8 (e ++ s) := by
  obtain ⟨cs, rfl⟩ := h
  refine ⟨Char.ofNatAux v hv :: cs, ?_⟩
  rw [List.flatMap_cons, he]
  congr 1

theorem toNat_ext {b : UInt8} {n : Nat} (h : b.toNat = n) : b = UInt8.ofNat n := by
  subst h; simp

theorem isUtf8_of_utf8Valid (n : Nat) (s : Bytes) (hn : s.length ≤ n) (h : utf8Valid s = true) :
    IsUtf8 s := by
  induction n generalizing s with
  | zero =>
    have : s = [] := List.length_eq_zero_iff.mp (by omega)
    subst this
    exact ⟨[], rfl⟩
  | succ n ih =>
    cases s with
    | nil => exact ⟨[], rfl⟩
    | cons b0 r =>
      have hb0 := b0.toNat_lt
      simp only [List.length_cons] at hn
      by_cases h1 : b0.toNat < 128
      · rw [utf8Valid_one h1] at h
        refine isUtf8_cons (ih r (by omega) h) (v := b0.toNat) (by omega) (e := [b0]) ?_
        rw [if_pos (by omega)]; simp
      by_cases h2 : 0xC2 ≤ b0.toNat ∧ b0.toNat ≤ 0xDF
      · match r, hn, h with
        | [], _, h =>
          rw [utf8Valid.eq_def] at h
          simp only [if_neg h1, if_pos (show (decide (0xC2 ≤ b0.toNat) &&
            decide (b0.toNat ≤ 0xDF)) = true by simp; omega)] at h
          cases h
        | b1 :: r, hn, h =>
          rw [utf8Valid_two h2, Bool.and_eq_true, isCont_iff] at h
          simp only [List.length_cons] at hn
          refine isUtf8_cons (ih r (by omega) h.2) (v := (b0.toNat - 192) * 64 + (b1.toNat - 128))
            (by omega) (e := [b0, b1]) ?_
          rw [if_neg (by omega), if_pos (by omega)]
          exact congr (congrArg _ (toNat_ext (by omega)))
            (congr (congrArg _ (toNat_ext (by omega))) rfl)
      by_cases h3 : 0xE0 ≤ b0.toNat ∧ b0.toNat ≤ 0xEF
      · match r, hn, h with
        | [], _, h | [_], _, h =>
          rw [utf8Valid.eq_def] at h
          simp only [if_neg h1, if_neg (show ¬ (decide (0xC2 ≤ b0.toNat) &&
            decide (b0.toNat ≤ 0xDF)) = true by simp; omega), if_pos (show (decide (0xE0 ≤ b0.toNat)
            && decide (b0.toNat ≤ 0xEF)) = true by simp; omega)] at h
          cases h
        | b1 :: b2 :: r, hn, h =>
          rw [utf8Valid_three h3, isCont_iff, second3] at h
          simp only [List.length_cons] at hn
          refine isUtf8_cons (ih r (by omega) h.2.2)
            (v := (b0.toNat - 224) * 4096 + (b1.toNat - 128) * 64 + (b2.toNat - 128))
            (by omega) (e := [b0, b1, b2]) ?_
          rw [if_neg (by omega), if_neg (by omega), if_pos (by omega)]
          exact congr (congrArg _ (toNat_ext (by omega)))
            (congr (congrArg _ (toNat_ext (by omega)))
              (congr (congrArg _ (toNat_ext (by omega))) rfl))
      by_cases h4 : 0xF0 ≤ b0.toNat ∧ b0.toNat ≤ 0xF4
      · match r, hn, h with
        | [], _, h | [_], _, h | [_, _], _, h =>
          rw [utf8Valid.eq_def] at h
          simp only [if_neg h1, if_neg (show ¬ (decide (0xC2 ≤ b0.toNat) &&
            decide (b0.toNat ≤ 0xDF)) = true by simp; omega), if_neg (show ¬ (decide (0xE0 ≤ b0.toNat)
            && decide (b0.toNat ≤ 0xEF)) = true by simp; omega), if_pos (show (decide (0xF0 ≤
            b0.toNat) && decide (b0.toNat ≤ 0xF4)) = true by simp; omega)] at h
          cases h
        | b1 :: b2 :: b3 :: r, hn, h =>
          rw [utf8Valid_four h4, isCont_iff, isCont_iff, second4] at h
          simp only [List.length_cons] at hn
          refine isUtf8_cons (ih r (by omega) h.2.2.2)
            (v := (b0.toNat - 240) * 262144 + (b1.toNat - 128) * 4096 + (b2.toNat - 128) * 64 +
              (b3.toNat - 128))
            (by omega) (e := [b0, b1, b2, b3]) ?_
          rw [if_neg (by omega), if_neg (by omega), if_neg (by omega)]
          exact congr (congrArg _ (toNat_ext (by omega)))
            (congr (congrArg _ (toNat_ext (by omega)))
              (congr (congrArg _ (toNat_ext (by omega)))
                (congr (congrArg _ (toNat_ext (by omega))) rfl)))
      · rw [utf8Valid.eq_def] at h
        simp only [if_neg h1, if_neg (show ¬ (decide (0xC2 ≤ b0.toNat) &&
          decide (b0.toNat ≤ 0xDF)) = true by simp; omega), if_neg (show ¬ (decide (0xE0 ≤ b0.toNat)
          && decide (b0.toNat ≤ 0xEF)) = true by simp; omega), if_neg (show ¬ (decide (0xF0 ≤
          b0.toNat) && decide (b0.toNat ≤ 0xF4)) = true by simp; omega)] at h
        cases h

/-- The standard library's validation accepts exactly the UTF-8 encodings of scalar values. -/
theorem utf8Valid_iff (s : Bytes) : utf8Valid s = true ↔ IsUtf8 s :=
  ⟨isUtf8_of_utf8Valid _ s (Nat.le_refl _), utf8Valid_of_isUtf8⟩

end Nrbf
