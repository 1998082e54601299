import Verif.Props.Rounding
import Verif.Props.EqualResults

/-! # C78: numbers become floats by correct rounding -/

set_option autoImplicit false

namespace Nrbf
open Spec

/-! ## Patterns -/

/-- What a pattern with its sign bit stands for. -/
theorem denotes_withSign {f e bits : Nat} (negative : Bool) (h : bits < 2 ^ (f + e)) :
    denotes f e (withSign f e negative bits) =
      if bits < infinity f e then some (.finite (if negative then -(magnitude f bits : Int) else magnitude f bits))
      else if bits = infinity f e then some (.infinite negative) else none := by
  have hp : 0 < 2 ^ f := Nat.two_pow_pos _
  have he : 0 < 2 ^ e := Nat.two_pow_pos _
  have hfe : 2 ^ (f + e) = 2 ^ e * 2 ^ f := by rw [Nat.pow_add, Nat.mul_comm]
  have hq : bits / 2 ^ f < 2 ^ e := by
    rw [Nat.div_lt_iff_lt_mul hp, ← hfe]; exact h
  have h1 : withSign f e negative bits / 2 ^ (f + e) % 2 = if negative then 1 else 0 := by
    cases negative
    · simp only [withSign, Bool.false_eq_true, if_false, Nat.zero_add]
      rw [Nat.div_eq_of_lt h]
    · simp only [withSign, if_true]
      rw [Nat.add_comm, Nat.add_div_right _ (Nat.two_pow_pos _), Nat.div_eq_of_lt h]
  have h2 : withSign f e negative bits / 2 ^ f % 2 ^ e = bits / 2 ^ f := by
    cases negative
    · simp only [withSign, Bool.false_eq_true, if_false, Nat.zero_add]
      exact Nat.mod_eq_of_lt hq
    · simp only [withSign, if_true]
      rw [hfe, Nat.add_comm, Nat.add_mul_div_right _ _ hp, Nat.add_mod_right, Nat.mod_eq_of_lt hq]
  have h3 : withSign f e negative bits % 2 ^ f = bits % 2 ^ f := by
    cases negative
    · simp only [withSign, Bool.false_eq_true, if_false, Nat.zero_add]
    · simp only [withSign, if_true]
      rw [hfe, Nat.add_comm, Nat.add_mul_mod_self_right]
  have hd := Nat.div_add_mod bits (2 ^ f)
  have hm := Nat.mod_lt bits hp
  unfold denotes
  rw [h1, h2, h3]
  have hneg : ((if negative = true then 1 else 0) == 1) = negative := by cases negative <;> rfl
  simp only [hneg]
  by_cases hE : bits / 2 ^ f = 2 ^ e - 1
  · rw [if_pos hE]
    have hb : bits = infinity f e + bits % 2 ^ f := by
      rw [infinity, ← hE, Nat.mul_comm]; omega
    have hn : ¬ bits < infinity f e := by omega
    by_cases hF : bits % 2 ^ f = 0
    · have hi : bits = infinity f e := by omega
      rw [if_pos hF, if_neg hn, if_pos hi]
    · have hi : ¬ bits = infinity f e := by omega
      rw [if_neg hF, if_neg hn, if_neg hi]
  · rw [if_neg hE]
    have hb : bits < infinity f e := by
      rw [infinity, ← Nat.div_lt_iff_lt_mul hp]
      omega
    rw [if_pos hb, magnitude]

theorem infinity_lt (f e : Nat) : infinity f e < 2 ^ (f + e) := by
  have he : 0 < 2 ^ e := Nat.two_pow_pos _
  rw [infinity, Nat.pow_add, Nat.mul_comm]
  exact Nat.mul_lt_mul_of_pos_left (by omega) (Nat.two_pow_pos _)

/-- Every pattern is one with a sign. -/
theorem withSign_of {f e a : Nat} (h : a < 2 ^ (f + e + 1)) :
    a = withSign f e (decide (a / 2 ^ (f + e) % 2 = 1)) (a % 2 ^ (f + e)) := by
  have hp : 0 < 2 ^ (f + e) := Nat.two_pow_pos _
  have hq : a / 2 ^ (f + e) < 2 := by
    rw [Nat.div_lt_iff_lt_mul hp, ← Nat.pow_succ']; exact h
  have hd := Nat.div_add_mod a (2 ^ (f + e))
  rcases (show a / 2 ^ (f + e) = 0 ∨ a / 2 ^ (f + e) = 1 by
    generalize a / 2 ^ (f + e) = q at hq; omega) with h0 | h0
  · rw [h0, Nat.mul_zero, Nat.zero_add] at hd
    simp only [withSign, decide_eq_true_eq, h0]
    rw [if_neg (by decide), Nat.zero_add, hd]
  · rw [h0, Nat.mul_one] at hd
    simp only [withSign, decide_eq_true_eq, h0]
    rw [if_pos trivial, hd]

/-- Numbers with few significant bits are in the format. -/
theorem representable {f e n u : Nat} (hn : n ≤ 2 ^ (f + 1)) (hu : f ≤ u) (hK : u + 3 ≤ 2 ^ e - 1) :
    ∃ b, b < infinity f e ∧ magnitude f b = n * 2 ^ u := by
  have hp : 0 < 2 ^ f := Nat.two_pow_pos _
  have hs : 2 ^ (f + 1) = 2 * 2 ^ f := Nat.pow_succ'
  have hbound : ∀ k m, k ≤ u + 1 → m < 2 ^ (f + 1) → k * 2 ^ f + m < infinity f e := by
    intro k m hk hm
    have h1 : (k + 2) * 2 ^ f ≤ infinity f e := Nat.mul_le_mul_right _ (by omega)
    rw [Nat.add_mul] at h1
    omega
  by_cases h0 : n = 0
  · subst h0
    refine ⟨0, by have := hbound 0 0 (by omega) (Nat.two_pow_pos _); omega, ?_⟩
    simp [magnitude]
  · by_cases h1 : n = 2 ^ (f + 1)
    · subst h1
      refine ⟨(u + 1) * 2 ^ f + 2 ^ f, hbound _ _ (by omega) (by omega), ?_⟩
      rw [magnitude_at (.inr (Nat.le_refl _)) (by omega), ← Nat.pow_add, ← Nat.pow_add]
      congr 1; omega
    · have hl : n.log2 ≤ f := by
        have := (Nat.log2_lt h0 (k := f + 1)).mpr (by omega)
        omega
      have hlo := Nat.log2_self_le h0
      have hhi := @Nat.lt_log2_self n
      have hm1 : 2 ^ f ≤ n * 2 ^ (f - n.log2) := by
        calc 2 ^ f = 2 ^ n.log2 * 2 ^ (f - n.log2) := by rw [← Nat.pow_add]; congr 1; omega
          _ ≤ _ := Nat.mul_le_mul_right _ hlo
      have hm2 : n * 2 ^ (f - n.log2) < 2 ^ (f + 1) := by
        calc n * 2 ^ (f - n.log2) < 2 ^ (n.log2 + 1) * 2 ^ (f - n.log2) :=
              Nat.mul_lt_mul_of_pos_right hhi (Nat.two_pow_pos _)
          _ = 2 ^ (f + 1) := by rw [← Nat.pow_add]; congr 1; omega
      refine ⟨(u + n.log2 - f) * 2 ^ f + n * 2 ^ (f - n.log2), hbound _ _ (by omega) hm2, ?_⟩
      rw [magnitude_at (.inr hm1) (by omega), Nat.mul_assoc, ← Nat.pow_add]
      congr 2; omega

/-! ## The casts -/

theorem floatOfInt_eq (f e : Nat) (n : Int) : floatOfInt f e n =
    withSign f e (decide (n < 0)) (roundBits f e (n.natAbs * unitsInOne f e) 0) := by
  simp only [floatOfInt, withSign, unitsInOne, decide_eq_true_eq]

theorem floatOfInt_nearest {f e : Nat} (hf : 0 < f) (n : Int) :
    ∃ bits, floatOfInt f e n = withSign f e (decide (n < 0)) bits ∧ Nearest f e (n.natAbs * unitsInOne f e) 1 bits := by
  refine ⟨_, floatOfInt_eq f e n, ?_⟩
  have := @roundBits_nearest f e hf (n.natAbs * unitsInOne f e) 0
  rwa [Nat.pow_zero] at this

/-- An integer that fits the significand is unchanged. -/
theorem floatOfInt_exact {f e : Nat} (hf : 0 < f) (hK : 2 ^ (e - 1) - 2 + f + 3 ≤ 2 ^ e - 1) (n : Int)
    (hn : n.natAbs ≤ 2 ^ (f + 1)) : denotes f e (floatOfInt f e n) = some (.finite (n * unitsInOne f e)) := by
  obtain ⟨bits, h1, h2⟩ := floatOfInt_nearest (e := e) hf n
  obtain ⟨b, hb, hm⟩ := representable (e := e) hn (Nat.le_add_left f (2 ^ (e - 1) - 2)) hK
  have hm' : magnitude f b = n.natAbs * unitsInOne f e := hm
  have : bits = b := nearest_exact (by decide) h2 (Nat.le_of_lt hb) (by rw [Nat.mul_one]; exact hm')
  subst this
  rw [h1, denotes_withSign _ (Nat.lt_trans hb (infinity_lt f e)), if_pos hb, hm']
  congr 2
  by_cases h : n < 0
  · simp only [h, decide_true, if_true, Int.natCast_mul]
    rw [← Int.neg_mul]; congr 1; omega
  · simp only [h, decide_false, Bool.false_eq_true, if_false, Int.natCast_mul]
    congr 1; omega

/-- Integers of 64 bits are far from infinity, and larger ones become larger numbers. -/
theorem floatOfInt_order {f e : Nat} (hf : 0 < f) (hK : 2 ^ (e - 1) - 2 + f + 67 ≤ 2 ^ e - 1) {n n' : Int}
    (hn : n.natAbs ≤ 2 ^ 64) (hn' : n'.natAbs ≤ 2 ^ 64) (h : n ≤ n') :
    ∃ x x', denotes f e (floatOfInt f e n) = some (.finite x) ∧ denotes f e (floatOfInt f e n') = some (.finite x') ∧ x ≤ x' := by
  have bound : ∀ {k : Int} {bits : Nat}, k.natAbs ≤ 2 ^ 64 → Nearest f e (k.natAbs * unitsInOne f e) 1 bits → bits < infinity f e := by
    intro k bits hk hb
    obtain ⟨b, h1, h2⟩ := @representable f e 1 (64 + (2 ^ (e - 1) - 2 + f)) (Nat.one_le_two_pow) (by omega) (by omega)
    have h3 := @roundBits_nearest f e hf (2 ^ 64 * unitsInOne f e) 0
    rw [Nat.pow_zero] at h3
    have h4 := nearest_exact (by decide) h3 (Nat.le_of_lt h1)
      (by rw [Nat.mul_one, h2, Nat.one_mul, unitsInOne, Nat.pow_add])
    have h5 := nearest_monotone (by decide) hb h3 (Nat.mul_le_mul_right _ hk)
    omega
  obtain ⟨b, h1, h2⟩ := floatOfInt_nearest (e := e) hf n
  obtain ⟨b', h1', h2'⟩ := floatOfInt_nearest (e := e) hf n'
  have hb := bound hn h2
  have hb' := bound hn' h2'
  rw [h1, h1', denotes_withSign _ (Nat.lt_trans hb (infinity_lt f e)), denotes_withSign _ (Nat.lt_trans hb' (infinity_lt f e)),
    if_pos hb, if_pos hb']
  refine ⟨_, _, rfl, rfl, ?_⟩
  simp only [decide_eq_true_eq]
  by_cases c : n < 0
  · rw [if_pos c]
    by_cases c' : n' < 0
    · rw [if_pos c']
      have := magnitude_le (f := f) (nearest_monotone (by decide) h2' h2 (Nat.mul_le_mul_right _ (show n'.natAbs ≤ n.natAbs by omega)))
      omega
    · rw [if_neg c']; omega
  · rw [if_neg c, if_neg (by omega)]
    have := magnitude_le (f := f) (nearest_monotone (by decide) h2 h2' (Nat.mul_le_mul_right _ (show n.natAbs ≤ n'.natAbs by omega)))
    omega

section
variable [NaNLib]

theorem f32OfF64_eq (a : Nat) : ∃ bits, f32OfF64 a = withSign 23 8 (decide (a / 2 ^ 63 % 2 = 1)) bits ∧
    (a % 2 ^ 63 < infinity 52 11 → Nearest 23 8 (magnitude 52 (a % 2 ^ 63)) (2 ^ 925) bits) ∧
    (a % 2 ^ 63 = infinity 52 11 → bits = infinity 23 8) ∧
    (infinity 52 11 < a % 2 ^ 63 → infinity 23 8 < bits ∧ bits < 2 ^ 31) := by
  have hinf : infinity 52 11 = 2047 * 2 ^ 52 := rfl
  have hinf' : infinity 23 8 = 255 * 2 ^ 23 := rfl
  refine ⟨if a % 2 ^ 63 < 2047 * 2 ^ 52 then roundBits 23 8 (unitsOf 52 (a % 2 ^ 63)) 925
     else if a % 2 ^ 63 = 2047 * 2 ^ 52 then 255 * 2 ^ 23
     else 255 * 2 ^ 23 + NaNLib.fraction32 (a % 2 ^ 64), ?_, ?_, ?_, ?_⟩
  · simp only [f32OfF64, withSign, decide_eq_true_eq]
  · intro h
    rw [if_pos (by omega)]
    exact roundBits_nearest (by omega) _ _
  · intro h
    rw [if_neg (by omega), if_pos (by omega)]
    exact hinf'.symm
  · intro h
    rw [if_neg (by omega), if_neg (by omega)]
    have := NaNLib.range32 (a % 2 ^ 64)
    omega

theorem f64OfF32_eq (a : Nat) : ∃ bits, f64OfF32 a = withSign 52 11 (decide (a / 2 ^ 31 % 2 = 1)) bits ∧
    (a % 2 ^ 31 < infinity 23 8 → bits < infinity 52 11 ∧ magnitude 52 bits = magnitude 23 (a % 2 ^ 31) * 2 ^ 925) ∧
    (a % 2 ^ 31 = infinity 23 8 → bits = infinity 52 11) ∧
    (infinity 23 8 < a % 2 ^ 31 → infinity 52 11 < bits ∧ bits < 2 ^ 63) := by
  have hinf : infinity 52 11 = 2047 * 2 ^ 52 := rfl
  have hinf' : infinity 23 8 = 255 * 2 ^ 23 := rfl
  refine ⟨if a % 2 ^ 31 < 255 * 2 ^ 23 then roundBits 52 11 (unitsOf 23 (a % 2 ^ 31) * 2 ^ 925) 0
     else if a % 2 ^ 31 = 255 * 2 ^ 23 then 2047 * 2 ^ 52
     else 2047 * 2 ^ 52 + NaNLib.fraction64 (a % 2 ^ 32), ?_, ?_, ?_, ?_⟩
  · simp only [f64OfF32, withSign, decide_eq_true_eq]
  · intro h
    rw [if_pos (by omega)]
    have hn := @roundBits_nearest 52 11 (by omega) (unitsOf 23 (a % 2 ^ 31) * 2 ^ 925) 0
    rw [Nat.pow_zero] at hn
    have hu : unitsOf 23 (a % 2 ^ 31) = magnitude 23 (a % 2 ^ 31) := rfl
    obtain ⟨k, m, hkm, h1, h2⟩ := pattern_form 23 (a % 2 ^ 31)
    have hk : k ≤ 254 := by omega
    have hmag : magnitude 23 (a % 2 ^ 31) = m * 2 ^ k := by rw [hkm]; exact magnitude_at h1 (by omega)
    obtain ⟨b, hb, hm⟩ := @representable 52 11 m (k + 925) (by omega) (by omega) (by omega)
    have hval : magnitude 52 b = unitsOf 23 (a % 2 ^ 31) * 2 ^ 925 := by
      rw [hm, hu, hmag, Nat.mul_assoc, ← Nat.pow_add]
    have hbits := nearest_exact (by decide) hn (Nat.le_of_lt hb) (by rw [Nat.mul_one]; exact hval)
    rw [hbits]
    exact ⟨hb, by rw [hval, hu]⟩
  · intro h
    rw [if_neg (by omega), if_pos (by omega)]
    exact hinf.symm
  · intro h
    rw [if_neg (by omega), if_neg (by omega)]
    have := NaNLib.range64 (a % 2 ^ 32)
    omega

/-- What any pattern stands for. -/
theorem denotes_split (f e a : Nat) : denotes f e a =
    if a % 2 ^ (f + e) < infinity f e then
      some (.finite (if a / 2 ^ (f + e) % 2 = 1 then -(magnitude f (a % 2 ^ (f + e)) : Int) else magnitude f (a % 2 ^ (f + e))))
    else if a % 2 ^ (f + e) = infinity f e then some (.infinite (decide (a / 2 ^ (f + e) % 2 = 1))) else none := by
  have hp : 0 < 2 ^ (f + e) := Nat.two_pow_pos _
  have h1 : a % 2 ^ (f + e + 1) / 2 ^ (f + e) % 2 = a / 2 ^ (f + e) % 2 := by
    rw [Nat.pow_succ, Nat.mod_mul_right_div_self, Nat.mod_mod]
  have h2 : a % 2 ^ (f + e + 1) % 2 ^ (f + e) = a % 2 ^ (f + e) :=
    Nat.mod_mod_of_dvd _ (Nat.pow_dvd_pow 2 (by omega))
  rw [← denotes_mod, withSign_of (Nat.mod_lt a (Nat.two_pow_pos (f + e + 1))), h1, h2,
    denotes_withSign _ (Nat.mod_lt _ hp)]
  simp only [decide_eq_true_eq]

theorem withSign_sign {f e bits : Nat} (negative : Bool) (h : bits < 2 ^ (f + e)) :
    withSign f e negative bits / 2 ^ (f + e) = if negative then 1 else 0 := by
  cases negative
  · simp only [withSign, Bool.false_eq_true, if_false, Nat.zero_add]
    rw [Nat.div_eq_of_lt h]
  · simp only [withSign, if_true]
    rw [Nat.add_comm, Nat.add_div_right _ (Nat.two_pow_pos _), Nat.div_eq_of_lt h]

end

/-! ## What `from_slice` does -/

section
variable [Platform] [NaNLib]

attribute [local instance] rustFloats

/-- **C78** (integers) An integer of any type becomes the nearest `f64` or `f32`, ties to even. -/
theorem C78_int (v : Value) (n : Int) (h : v.integer? = some n) :
    (∃ b, decode v .f64 = .ok (.f64 b) ∧ RoundedInt 52 11 n b) ∧
    ∃ b, decode v .f32 = .ok (.f32 b) ∧ RoundedInt 23 8 n b := by
  have hv : ∀ c l m, v ≠ .object c l m := by rintro c l m rfl; simp [Value.integer?] at h
  exact ⟨⟨_, (C54_f64 v _ hv).mpr (.inr (.inr ⟨n, h, rfl⟩)), floatOfInt_nearest (by decide) n⟩,
    ⟨_, (C54_f32 v _ hv).mpr (.inr (.inr ⟨n, h, rfl⟩)), floatOfInt_nearest (by decide) n⟩⟩

/-- **C78** (exact integers) Up to `2 ^ 53` (`f64`) and `2 ^ 24` (`f32`) that is the same number. -/
theorem C78_int_exact (v : Value) (n : Int) (h : v.integer? = some n) :
    (n.natAbs ≤ 2 ^ 53 → ∃ b, decode v .f64 = .ok (.f64 b) ∧ denotes 52 11 b = some (.finite (n * unitsInOne 52 11))) ∧
    (n.natAbs ≤ 2 ^ 24 → ∃ b, decode v .f32 = .ok (.f32 b) ∧ denotes 23 8 b = some (.finite (n * unitsInOne 23 8))) := by
  have hv : ∀ c l m, v ≠ .object c l m := by rintro c l m rfl; simp [Value.integer?] at h
  exact ⟨fun hn => ⟨_, (C54_f64 v _ hv).mpr (.inr (.inr ⟨n, h, rfl⟩)), floatOfInt_exact (by decide) (by decide) n hn⟩,
    fun hn => ⟨_, (C54_f32 v _ hv).mpr (.inr (.inr ⟨n, h, rfl⟩)), floatOfInt_exact (by decide) (by decide) n hn⟩⟩

/-- **C78** (order) Larger integers never become smaller floats; none of 64 bits becomes infinite. -/
theorem C78_order (v v' : Value) (n n' : Int) (h : v.integer? = some n) (h' : v'.integer? = some n') (ht : FitsType v)
    (ht' : FitsType v') (hle : n ≤ n') :
    (∃ b b' x x', decode v .f64 = .ok (.f64 b) ∧ decode v' .f64 = .ok (.f64 b') ∧
      denotes 52 11 b = some (.finite x) ∧ denotes 52 11 b' = some (.finite x') ∧ x ≤ x') ∧
    ∃ b b' x x', decode v .f32 = .ok (.f32 b) ∧ decode v' .f32 = .ok (.f32 b') ∧
      denotes 23 8 b = some (.finite x) ∧ denotes 23 8 b' = some (.finite x') ∧ x ≤ x' := by
  have hv : ∀ c l m, v ≠ .object c l m := by rintro c l m rfl; simp [Value.integer?] at h
  have hv' : ∀ c l m, v' ≠ .object c l m := by rintro c l m rfl; simp [Value.integer?] at h'
  have range : ∀ {v : Value} {n : Int}, v.integer? = some n → FitsType v → n.natAbs ≤ 2 ^ 64 := by
    intro v n h ht
    cases v <;> simp only [Value.integer?, Option.some.injEq, reduceCtorEq] at h <;> subst h <;> simp only [FitsType] at ht <;> omega
  constructor
  · obtain ⟨x, x', h1, h2, h3⟩ := @floatOfInt_order 52 11 (by decide) (by decide) n n' (range h ht) (range h' ht') hle
    exact ⟨_, _, x, x', (C54_f64 v _ hv).mpr (.inr (.inr ⟨n, h, rfl⟩)), (C54_f64 v' _ hv').mpr (.inr (.inr ⟨n', h', rfl⟩)), h1, h2, h3⟩
  · obtain ⟨x, x', h1, h2, h3⟩ := @floatOfInt_order 23 8 (by decide) (by decide) n n' (range h ht) (range h' ht') hle
    exact ⟨_, _, x, x', (C54_f32 v _ hv).mpr (.inr (.inr ⟨n, h, rfl⟩)), (C54_f32 v' _ hv').mpr (.inr (.inr ⟨n', h', rfl⟩)), h1, h2, h3⟩

/-- **C78** (`Single` as `f64`) The same number (in the smaller unit), the same infinity, or a NaN; with the same sign. -/
theorem C78_single (a : Nat) : ∃ b, decode (.single a) .f64 = .ok (.f64 b) ∧
    (b / 2 ^ 63 = a / 2 ^ 31 % 2) ∧
    denotes 52 11 b = match denotes 23 8 a with
      | some (.finite n) => some (.finite (n * 2 ^ 925))
      | some (.infinite negative) => some (.infinite negative)
      | none => none := by
  refine ⟨_, (C54_f64 _ _ (by rintro c l m ⟨⟩)).mpr (.inr (.inl ⟨a, rfl, rfl⟩)), ?_⟩
  show f64OfF32 a / 2 ^ 63 = _ ∧ denotes 52 11 (f64OfF32 a) = _
  obtain ⟨bits, h1, h2, h3, h4⟩ := f64OfF32_eq a
  have hi := infinity_lt 52 11
  have hlt : bits < 2 ^ (52 + 11) := by
    rcases Nat.lt_trichotomy (a % 2 ^ 31) (infinity 23 8) with c | c | c
    · have := (h2 c).1; omega
    · rw [h3 c]; exact hi
    · exact (h4 c).2
  rw [h1]
  constructor
  · rw [show (2 : Nat) ^ 63 = 2 ^ (52 + 11) from rfl, withSign_sign _ hlt]
    simp only [decide_eq_true_eq]
    split <;> omega
  · rw [denotes_withSign _ hlt, denotes_split 23 8 a]
    show (_ : Option Extended) = match (if a % 2 ^ 31 < infinity 23 8 then
      some (Extended.finite (if a / 2 ^ 31 % 2 = 1 then -(magnitude 23 (a % 2 ^ 31) : Int) else magnitude 23 (a % 2 ^ 31)))
      else if a % 2 ^ 31 = infinity 23 8 then some (.infinite (decide (a / 2 ^ 31 % 2 = 1))) else none) with
      | some (Extended.finite n) => some (Extended.finite (n * 2 ^ 925))
      | some (.infinite negative) => some (.infinite negative)
      | none => none
    rcases Nat.lt_trichotomy (a % 2 ^ 31) (infinity 23 8) with c | c | c
    · obtain ⟨h5, h6⟩ := h2 c
      rw [if_pos h5, if_pos c, h6]
      simp only [decide_eq_true_eq]
      congr 2
      split
      · rw [Int.neg_mul, Int.natCast_mul, Int.natCast_pow]; rfl
      · rw [Int.natCast_mul, Int.natCast_pow]; rfl
    · rw [h3 c, if_neg (Nat.lt_irrefl _), if_pos rfl, if_neg (by omega), if_pos c]
    · obtain ⟨h5, -⟩ := h4 c
      rw [if_neg (by omega), if_neg (by omega), if_neg (by omega), if_neg (by omega)]

/-- **C78** (`Double` as `f32`) The nearest number, ties to even, infinity if it is too large; infinities and NaNs stay
such.  The sign is kept, also that of a zero or NaN. -/
theorem C78_double (a : Nat) : ∃ bits, decode (.double a) .f32 = .ok (.f32 (withSign 23 8 (decide (a / 2 ^ 63 % 2 = 1)) bits)) ∧
    (∀ n, denotes 52 11 a = some (.finite n) → Nearest 23 8 n.natAbs (2 ^ 925) bits) ∧
    (∀ negative, denotes 52 11 a = some (.infinite negative) → bits = infinity 23 8) ∧
    (denotes 52 11 a = none → infinity 23 8 < bits ∧ bits < 2 ^ 31) := by
  obtain ⟨bits, h1, h2, h3, h4⟩ := f32OfF64_eq a
  refine ⟨bits, (C54_f32 _ _ (by rintro c l m ⟨⟩)).mpr (.inr (.inl ⟨a, rfl, by rw [← h1]; rfl⟩)), ?_⟩
  have hd : denotes 52 11 a = if a % 2 ^ 63 < infinity 52 11 then
      some (Extended.finite (if a / 2 ^ 63 % 2 = 1 then -(magnitude 52 (a % 2 ^ 63) : Int) else magnitude 52 (a % 2 ^ 63)))
      else if a % 2 ^ 63 = infinity 52 11 then some (.infinite (decide (a / 2 ^ 63 % 2 = 1))) else none := denotes_split 52 11 a
  rw [hd]
  rcases Nat.lt_trichotomy (a % 2 ^ 63) (infinity 52 11) with c | c | c
  · rw [if_pos c]
    refine ⟨?_, by rintro s ⟨⟩, by rintro ⟨⟩⟩
    intro n hn
    injection hn with hn
    injection hn with hn
    have := h2 c
    rwa [show n.natAbs = magnitude 52 (a % 2 ^ 63) by rw [← hn]; split <;> omega]
  · rw [if_neg (by omega), if_pos c]
    exact ⟨by rintro n ⟨⟩, fun _ _ => h3 c, by rintro ⟨⟩⟩
  · rw [if_neg (by omega), if_neg (by omega)]
    exact ⟨by rintro n ⟨⟩, by rintro s ⟨⟩, fun _ => h4 c⟩

/-- **C78** (exact doubles) A double that is a number of `f32` stays that number: so a `Single` that was widened comes
back. -/
theorem C78_double_exact (a b : Nat) (n : Int) (hb : denotes 23 8 b = some (.finite n))
    (ha : denotes 52 11 a = some (.finite (n * 2 ^ 925))) :
    ∃ c, decode (.double a) .f32 = .ok (.f32 c) ∧ denotes 23 8 c = some (.finite n) := by
  obtain ⟨bits, h1, h2, -⟩ := C78_double a
  refine ⟨_, h1, ?_⟩
  have hn := h2 _ ha
  have hs : denotes 23 8 b = if b % 2 ^ 31 < infinity 23 8 then
      some (Extended.finite (if b / 2 ^ 31 % 2 = 1 then -(magnitude 23 (b % 2 ^ 31) : Int) else magnitude 23 (b % 2 ^ 31)))
      else if b % 2 ^ 31 = infinity 23 8 then some (.infinite (decide (b / 2 ^ 31 % 2 = 1))) else none := denotes_split 23 8 b
  have hd : denotes 52 11 a = if a % 2 ^ 63 < infinity 52 11 then
      some (Extended.finite (if a / 2 ^ 63 % 2 = 1 then -(magnitude 52 (a % 2 ^ 63) : Int) else magnitude 52 (a % 2 ^ 63)))
      else if a % 2 ^ 63 = infinity 52 11 then some (.infinite (decide (a / 2 ^ 63 % 2 = 1))) else none := denotes_split 52 11 a
  rw [hs] at hb
  rw [hd] at ha
  have hb' : b % 2 ^ 31 < infinity 23 8 := by
    apply Classical.byContradiction
    intro hc
    rw [if_neg hc] at hb
    split at hb <;> cases hb
  rw [if_pos hb'] at hb
  injection hb with hb
  injection hb with hb
  have hp : (0 : Int) < 2 ^ 925 := Int.pow_pos (by decide)
  have hna : (n * 2 ^ 925).natAbs = magnitude 23 (b % 2 ^ 31) * 2 ^ 925 := by
    rw [Int.natAbs_mul]
    congr 1
    rw [← hb]; split <;> omega
  have hbits : bits = b % 2 ^ 31 := nearest_exact (Nat.two_pow_pos _) hn (Nat.le_of_lt hb') hna.symm
  rw [hbits, denotes_withSign _ (Nat.lt_trans hb' (infinity_lt 23 8)), if_pos hb']
  congr 2
  -- the signs agree
  have ha' : (if a / 2 ^ 63 % 2 = 1 then -(magnitude 52 (a % 2 ^ 63) : Int) else magnitude 52 (a % 2 ^ 63)) = n * 2 ^ 925 := by
    split at ha
    · injection ha with ha
      injection ha
    · split at ha <;> cases ha
  simp only [decide_eq_true_eq]
  rcases Int.lt_trichotomy n 0 with hneg | rfl | hpos
  · have hm : n * 2 ^ 925 < 0 := Int.mul_neg_of_neg_of_pos hneg hp
    rw [← ha'] at hm
    split at hm
    · rename_i hs; rw [if_pos hs]; rw [← hb] at hneg ⊢; split <;> omega
    · omega
  · have : magnitude 23 (b % 2 ^ 31) = 0 := by split at hb <;> omega
    rw [this]; split <;> rfl
  · have hm : 0 < n * 2 ^ 925 := Int.mul_pos hpos hp
    rw [← ha'] at hm
    split at hm
    · omega
    · rename_i hs; rw [if_neg hs]; rw [← hb] at hpos ⊢; split <;> omega

omit [Platform] in
/-- **C78** (equality) Equal numbers become equal numbers: what C72 assumes of the casts holds. -/
theorem C78_casts : CastsRespectEquality := by
  refine casts_respect (fun a => ?_) (fun a => ?_) ?_ ?_
  · show f32OfF64 a = f32OfF64 (a % 2 ^ 64)
    simp only [f32OfF64, Nat.mod_mod]
    rw [Nat.mod_mod_of_dvd a (show 2 ^ 63 ∣ 2 ^ 64 from Nat.pow_dvd_pow 2 (by decide)),
      show a % 2 ^ 64 / 2 ^ 63 % 2 = a / 2 ^ 63 % 2 by omega]
  · show f64OfF32 a = f64OfF32 (a % 2 ^ 32)
    simp only [f64OfF32, Nat.mod_mod]
    rw [Nat.mod_mod_of_dvd a (show 2 ^ 31 ∣ 2 ^ 32 from Nat.pow_dvd_pow 2 (by decide)),
      show a % 2 ^ 32 / 2 ^ 31 % 2 = a / 2 ^ 31 % 2 by omega]
  · intro a ha
    show denotes 23 8 (f32OfF64 a) = _
    have h0 : a % 2 ^ 63 = 0 := by omega
    obtain ⟨bits, h1, h2, -⟩ := f32OfF64_eq a
    have hm : magnitude 52 (a % 2 ^ 63) = 0 := by rw [h0]; rfl
    have hb : bits = 0 := nearest_exact (Nat.two_pow_pos _) (h2 (by rw [h0]; decide)) (Nat.zero_le _)
      (by rw [hm, show magnitude 23 0 = 0 from rfl, Nat.zero_mul])
    rw [h1, hb, denotes_withSign _ (by decide), if_pos (by decide)]
    split <;> rfl
  · intro a ha
    show denotes 52 11 (f64OfF32 a) = _
    have h0 : a % 2 ^ 31 = 0 := by omega
    obtain ⟨bits, h1, h2, -⟩ := f64OfF32_eq a
    have hm : magnitude 23 (a % 2 ^ 31) = 0 := by rw [h0]; rfl
    obtain ⟨h3, h4⟩ := h2 (by rw [h0]; decide)
    rw [hm, Nat.zero_mul] at h4
    rw [h1, denotes_withSign _ (Nat.lt_trans h3 (infinity_lt 52 11)), if_pos h3, h4]
    split <;> rfl

/-- **C78** (C72 with the casts of Rust) Equal messages are deserialised equally. -/
theorem C78_equal [DecimalEq] {w w' : Bytes} {m m' : RemotingMessage} (h : deserialize w = .ok m)
    (h' : deserialize w' = .ok m') (he : messageEq m m' = true)
    (htext : ∀ a b, DecimalEq.eq a b = true → ValueIn (.decimal a) m → ValueIn (.decimal b) m' →
      Platform.decimalToStr a = Platform.decimalToStr b)
    (hdec : ∀ x : Dec, IsUtf8 (Platform.decimalToStr x))
    (hbig : usizeBits = 32 → ∀ u items size, ValueIn u m ∨ ValueIn u m' → IsList u items size → items.length < 2 ^ 30)
    {T : Ty} (hT : T.Proper) {d : Dyn} (hd : fromSlice T w = .ok d) :
    ∃ d', fromSlice T w' = .ok d' ∧ DynEqual d d' := C72 C78_casts h h' he htext hdec hbig hT hd

/-- **C78** (messages) `from_slice::<Vec<f64>>` on an array of integers of any types. -/
theorem C78_from_slice {w : Bytes} {vs : List Value} {ns : List Int} (h : deserialize w = .ok (.value (.array vs)))
    (hns : vs.map Value.integer? = ns.map some) :
    ∃ bs, fromSlice (.vec .f64) w = .ok (.seq (bs.map .f64)) ∧ bs.length = ns.length ∧
      ∀ p ∈ ns.zip bs, RoundedInt 52 11 p.1 p.2 := by
  refine ⟨ns.map (floatOfInt 52 11), ?_, by simp, ?_⟩
  · rw [C43_value _ _ _ h (by rintro T ⟨⟩)]
    have hdec : AllDecode .f64 vs ((ns.map (floatOfInt 52 11)).map Dyn.f64) := by
      clear h
      rw [AllDecode]
      induction vs generalizing ns with
      | nil =>
        cases ns with
        | nil => exact .nil
        | cons n ns => simp at hns
      | cons v vs ih =>
        cases ns with
        | nil => simp at hns
        | cons n ns =>
          simp only [List.map_cons, List.cons.injEq] at hns
          have hv : ∀ c l m, v ≠ .object c l m := by rintro c l m rfl; simp [Value.integer?] at hns
          exact .cons ((C54_f64 v _ hv).mpr (.inr (.inr ⟨n, hns.1, rfl⟩))) (ih hns.2)
    rw [(C44_vec vs .f64 _).mpr ⟨_, rfl, ?_, hdec⟩]
    · rfl
    · have := congrArg List.length hns
      simpa using this.symm
  · intro p hp
    obtain ⟨i, hi, rfl⟩ := List.mem_iff_getElem.mp hp
    simp only [List.getElem_zip, List.getElem_map]
    exact floatOfInt_nearest (by decide) _

end

/-! ## Concrete cases -/

/-- An array of the `Int32`s 5 and -1. -/
def bothInts : Bytes := Tests.header 1 ++ [15, 1,0,0,0, 2,0,0,0, 8, 5,0,0,0, 255,255,255,255, 11]

theorem bothInts_ok [Platform] : deserialize bothInts = .ok (.value (.array [.int32 5, .int32 (-1)])) := by platform_decide

example [Platform] [NaNLib] : ∃ bs, @fromSlice _ rustFloats (.vec .f64) bothInts = .ok (.seq (bs.map .f64)) ∧ bs.length = 2 ∧
    ∀ p ∈ [5, -1].zip bs, RoundedInt 52 11 p.1 p.2 := C78_from_slice (ns := [5, -1]) bothInts_ok rfl

/-- NaNs as x86 makes them. -/
def quietNaNs : NaNLib where
  fraction32 a := 2 ^ 22 + a % 2 ^ 52 / 2 ^ 29 % 2 ^ 22
  fraction64 a := 2 ^ 51 + a % 2 ^ 22 * 2 ^ 29
  range32 a := by omega
  range64 a := by omega

/-- 5, -1 and 2 ^ 53 + 1 (a tie) as `f64`; 2 ^ 24 + 1 (a tie) and 2 ^ 24 + 3 as `f32`. -/
example : floatOfInt 52 11 5 = 0x4014000000000000 ∧ floatOfInt 52 11 (-1) = 0xBFF0000000000000 ∧
    floatOfInt 52 11 (2 ^ 53 + 1) = floatOfInt 52 11 (2 ^ 53) ∧
    floatOfInt 23 8 (2 ^ 24 + 1) = 0x4B800000 ∧ floatOfInt 23 8 (2 ^ 24 + 3) = 0x4B800002 := by decide +kernel

/-- 0.1 as `f32`, 1e300 as `f32` (infinity), the smallest double (zero), half the smallest `f32` (a tie, zero) and a little more;
0.1f32 as `f64`; signs of zeros and NaNs. -/
example : @f32OfF64 quietNaNs 0x3FB999999999999A = 0x3DCCCCCD ∧ @f32OfF64 quietNaNs 0x7E37E43C8800759C = 0x7F800000 ∧
    @f32OfF64 quietNaNs 1 = 0 ∧ @f32OfF64 quietNaNs 0x3690000000000000 = 0 ∧ @f32OfF64 quietNaNs 0x3690000000000001 = 1 ∧
    @f64OfF32 quietNaNs 0x3DCCCCCD = 0x3FB99999A0000000 ∧ @f32OfF64 quietNaNs 0x8000000000000000 = 0x80000000 ∧
    @f32OfF64 quietNaNs 0xFFF8000000000000 = 0xFFC00000 := by decide +kernel

end Nrbf
