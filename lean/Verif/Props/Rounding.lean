import Verif.Spec.Rounding
import Verif.Model.Floats

/-! # The casts of Rust round correctly -/

set_option autoImplicit false

namespace Nrbf
open Spec

/-- A pattern and the number it stands for. -/
theorem magnitude_at {f k m : Nat} (h : k = 0 ∨ 2 ^ f ≤ m) (hm : m ≤ 2 ^ (f + 1)) :
    magnitude f (k * 2 ^ f + m) = m * 2 ^ k := by
  have hp : 0 < 2 ^ f := Nat.two_pow_pos _
  have hs : 2 ^ (f + 1) = 2 * 2 ^ f := Nat.pow_succ'
  have h1 : (k * 2 ^ f + m) / 2 ^ f = k + m / 2 ^ f := by
    rw [Nat.add_comm, Nat.add_mul_div_right _ _ hp, Nat.add_comm]
  have h2 : (k * 2 ^ f + m) % 2 ^ f = m % 2 ^ f := by
    rw [Nat.add_comm, Nat.add_mul_mod_self_right]
  rw [magnitude, h1, h2]
  by_cases c0 : m < 2 ^ f
  · have hk : k = 0 := by omega
    subst hk
    rw [Nat.div_eq_of_lt c0, Nat.mod_eq_of_lt c0]
    simp
  · by_cases c1 : m = 2 ^ (f + 1)
    · subst c1
      rw [hs, Nat.mul_div_cancel _ hp, Nat.mul_mod_left]
      rw [if_neg (by omega), show k + 2 - 1 = k + 1 from rfl, Nat.add_zero, Nat.pow_succ, ← Nat.mul_assoc, Nat.mul_right_comm,
        Nat.mul_comm 2]
    · have h3 : m / 2 ^ f = 1 := by
        apply Nat.div_eq_of_lt_le <;> omega
      have h4 : m % 2 ^ f = m - 2 ^ f := by
        rw [Nat.mod_eq_sub_mod (by omega), Nat.mod_eq_of_lt (by omega)]
      rw [h3, h4, if_neg (by omega)]
      congr 1
      omega

/-- Every pattern is of that form. -/
theorem pattern_form (f b : Nat) : ∃ k m, b = k * 2 ^ f + m ∧ (k = 0 ∨ 2 ^ f ≤ m) ∧ m < 2 ^ (f + 1) := by
  have hp : 0 < 2 ^ f := Nat.two_pow_pos _
  have hs : 2 ^ (f + 1) = 2 * 2 ^ f := Nat.pow_succ'
  have hm := Nat.mod_lt b hp
  have hd := Nat.div_add_mod b (2 ^ f)
  rcases hE : b / 2 ^ f with _ | k
  · exact ⟨0, b % 2 ^ f, by rw [hE] at hd; simp at hd; omega, .inl rfl, by omega⟩
  · refine ⟨k, 2 ^ f + b % 2 ^ f, ?_, .inr (by omega), by omega⟩
    rw [hE, Nat.mul_comm, Nat.succ_mul] at hd
    omega

theorem magnitude_succ (f b : Nat) : magnitude f b < magnitude f (b + 1) := by
  obtain ⟨k, m, rfl, h1, h2⟩ := pattern_form f b
  rw [magnitude_at h1 (by omega), Nat.add_assoc, magnitude_at (by omega) (by omega)]
  exact Nat.mul_lt_mul_of_pos_right (by omega) (Nat.two_pow_pos _)

theorem magnitude_lt {f a b : Nat} (h : a < b) : magnitude f a < magnitude f b := by
  induction b with
  | zero => omega
  | succ b ih =>
    rcases Nat.lt_succ_iff_lt_or_eq.mp h with h | rfl
    · exact Nat.lt_trans (ih h) (magnitude_succ f b)
    · exact magnitude_succ f a

theorem magnitude_le {f a b : Nat} (h : a ≤ b) : magnitude f a ≤ magnitude f b := by
  rcases Nat.eq_or_lt_of_le h with rfl | h
  · exact Nat.le_refl _
  · exact Nat.le_of_lt (magnitude_lt h)

/-- Between two patterns. -/
theorem roundBits_between {f num shift : Nat} :
    ∃ k m, (num / 2 ^ shift).log2 - f = k ∧ num / 2 ^ (shift + k) = m ∧ (k = 0 ∨ 2 ^ f ≤ m) ∧ m < 2 ^ (f + 1) := by
  refine ⟨_, _, rfl, rfl, ?_⟩
  generalize hk : (num / 2 ^ shift).log2 - f = k
  have hq : num / 2 ^ (shift + k) = num / 2 ^ shift / 2 ^ k := by rw [Nat.pow_add, Nat.div_div_eq_div_mul]
  rw [hq]
  generalize num / 2 ^ shift = q at hk ⊢
  have hlt : q < 2 ^ (q.log2 + 1) := Nat.lt_log2_self
  constructor
  · by_cases h0 : k = 0
    · exact .inl h0
    · right
      have hq0 : q ≠ 0 := by rintro rfl; simp at hk; omega
      rw [Nat.le_div_iff_mul_le (Nat.two_pow_pos _), ← Nat.pow_add]
      refine Nat.le_trans (Nat.pow_le_pow_right (by omega) ?_) (Nat.log2_self_le hq0)
      omega
  · rw [Nat.div_lt_iff_lt_mul (Nat.two_pow_pos _), ← Nat.pow_add]
    refine Nat.lt_of_lt_of_le hlt (Nat.pow_le_pow_right (by omega) ?_)
    omega

theorem distance_below {a b : Nat} (h : a ≤ b) : distance a b = b - a := by simp only [distance]; omega
theorem distance_above {a b : Nat} (h : b ≤ a) : distance a b = a - b := by simp only [distance]; omega

/-- `roundBits` rounds correctly. -/
theorem roundBits_nearest {f e : Nat} (hf : 0 < f) (num shift : Nat) :
    Nearest f e num (2 ^ shift) (roundBits f e num shift) := by
  obtain ⟨k, m, hk, hm, h1, h2⟩ := @roundBits_between f num shift
  have hS : 0 < 2 ^ shift := Nat.two_pow_pos _
  have hD : 2 ^ (shift + k) = 2 ^ k * 2 ^ shift := by rw [Nat.pow_add, Nat.mul_comm]
  have hD0 : 0 < 2 ^ (shift + k) := Nat.two_pow_pos _
  have hr := Nat.mod_lt num hD0
  have hdm := Nat.div_add_mod num (2 ^ (shift + k))
  rw [hm] at hdm
  -- the neighbours
  have v0 : magnitude f (k * 2 ^ f + m) * 2 ^ shift = m * 2 ^ (shift + k) := by
    rw [magnitude_at h1 (by omega), hD, Nat.mul_assoc]
  have v1 : magnitude f (k * 2 ^ f + m + 1) * 2 ^ shift = (m + 1) * 2 ^ (shift + k) := by
    rw [Nat.add_assoc, magnitude_at (by omega) (by omega), hD, Nat.mul_assoc]
  rw [Nat.succ_mul] at v1
  rw [Nat.mul_comm] at hdm
  generalize hb0 : k * 2 ^ f + m = b0 at v0 v1
  generalize hX : m * 2 ^ (shift + k) = X at v0 v1 hdm
  generalize hr' : num % 2 ^ (shift + k) = r at hr hdm
  generalize hDD : 2 ^ (shift + k) = D at hr v1 hD0
  have d0 : distance (magnitude f b0 * 2 ^ shift) num = r := by rw [v0, distance_below (by omega)]; omega
  have d1 : distance (magnitude f (b0 + 1) * 2 ^ shift) num = D - r := by rw [v1, distance_above (by omega)]; omega
  have dlt : ∀ b, b < b0 → r < distance (magnitude f b * 2 ^ shift) num := by
    intro b hb
    have := Nat.mul_lt_mul_of_pos_right (magnitude_lt (f := f) hb) hS
    rw [distance_below (by omega)]
    omega
  have dgt : ∀ b, b0 + 1 < b → D - r < distance (magnitude f b * 2 ^ shift) num := by
    intro b hb
    have := Nat.mul_lt_mul_of_pos_right (magnitude_lt (f := f) hb) hS
    rw [distance_above (by omega)]
    omega
  -- the choice between them
  have hraw : ∃ R, k * 2 ^ f + roundDiv num (2 ^ (shift + k)) = R ∧
      ((R = b0 ∧ 2 * r < D) ∨ (R = b0 + 1 ∧ D < 2 * r) ∨ (2 * r = D ∧ R % 2 = 0 ∧ (R = b0 ∨ R = b0 + 1))) := by
    refine ⟨_, rfl, ?_⟩
    rw [roundDiv, hm, hr', hDD]
    split
    · exact .inl ⟨hb0, by assumption⟩
    · split
      · exact .inr (.inl ⟨by omega, by assumption⟩)
      · refine .inr (.inr ⟨by omega, ?_, ?_⟩)
        · obtain ⟨g, rfl⟩ : ∃ g, f = g + 1 := ⟨f - 1, by omega⟩
          rw [Nat.pow_succ, ← Nat.mul_assoc]
          omega
        · omega
  obtain ⟨R, hR, hcase⟩ := hraw
  have hfin : roundBits f e num shift = min (infinity f e) R := by
    simp only [roundBits, hk]
    rw [hR]
    rfl
  rw [hfin]
  refine ⟨Nat.min_le_left _ _, ?_⟩
  intro b hb hne
  by_cases hc : R ≤ infinity f e
  · rw [Nat.min_eq_right hc] at hne ⊢
    have hcmp : b < b0 ∨ b = b0 ∨ b = b0 + 1 ∨ b0 + 1 < b := by omega
    rcases hcase with ⟨rfl, h⟩ | ⟨rfl, h⟩ | ⟨h, heven, hRR⟩
    · rw [d0]
      rcases hcmp with c | rfl | rfl | c
      · exact .inl (dlt b c)
      · exact absurd rfl hne
      · rw [d1]; left; omega
      · have := dgt b c; left; omega
    · rw [d1]
      rcases hcmp with c | rfl | rfl | c
      · have := dlt b c; left; omega
      · rw [d0]; left; omega
      · exact absurd rfl hne
      · exact .inl (dgt b c)
    · have hdR : distance (magnitude f R * 2 ^ shift) num = r := by
        rcases hRR with rfl | rfl
        · exact d0
        · rw [d1]; omega
      rw [hdR]
      rcases hcmp with c | rfl | rfl | c
      · exact .inl (dlt b c)
      · rw [d0]; exact .inr ⟨rfl, heven⟩
      · rw [d1]; exact .inr ⟨by omega, heven⟩
      · have := dgt b c; left; omega
  · rw [Nat.min_eq_left (by omega)] at hne ⊢
    have hge : infinity f e ≤ b0 := by
      rcases hcase with ⟨rfl, _⟩ | ⟨rfl, _⟩ | ⟨_, _, rfl | rfl⟩ <;> omega
    have hbl : b < infinity f e := by omega
    have q1 := Nat.mul_lt_mul_of_pos_right (magnitude_lt (f := f) hbl) hS
    have q2 := Nat.mul_le_mul_right (2 ^ shift) (magnitude_le (f := f) hge)
    left
    rw [distance_below (by omega), distance_below (by omega)]
    omega

/-- The specification leaves no choice. -/
theorem nearest_unique {f e num den a b : Nat} (hd : 0 < den) (ha : Nearest f e num den a) (hb : Nearest f e num den b) :
    a = b := by
  have key : ∀ {a b}, Nearest f e num den a → Nearest f e num den b → ¬ a < b := by
    intro a b ha hb hlt
    have hab := ha.2 b hb.1 (by omega)
    have hba := hb.2 a ha.1 (by omega)
    have heq : distance (magnitude f a * den) num = distance (magnitude f b * den) num ∧ a % 2 = 0 ∧ b % 2 = 0 := by
      rcases hab with h | h <;> rcases hba with h' | h' <;> first | omega | exact ⟨h.1, h.2, h'.2⟩
    have hc : a + 1 < b := by omega
    have h1 := Nat.mul_lt_mul_of_pos_right (magnitude_lt (f := f) (show a < a + 1 by omega)) hd
    have h2 := Nat.mul_lt_mul_of_pos_right (magnitude_lt (f := f) hc) hd
    have h3 := ha.2 (a + 1) (by have := hb.1; omega) (by omega)
    have h4 := heq.1
    simp only [distance] at h3 h4
    rcases h3 with h3 | ⟨h3, _⟩ <;> omega
  have h1 := key ha hb
  have h2 := key hb ha
  omega

/-- A number of the format is its own rounding. -/
theorem nearest_exact {f e num den a b : Nat} (hd : 0 < den) (ha : Nearest f e num den a) (hb : b ≤ infinity f e)
    (h : magnitude f b * den = num) : a = b := by
  apply Classical.byContradiction
  intro hne
  have h0 : distance (magnitude f b * den) num = 0 := by simp only [distance]; omega
  have h1 : distance (magnitude f a * den) num ≠ 0 := by
    have hlt : a < b ∨ b < a := by omega
    have : magnitude f a * den ≠ magnitude f b * den := by
      rcases hlt with h | h
      · have := Nat.mul_lt_mul_of_pos_right (magnitude_lt (f := f) h) hd; omega
      · have := Nat.mul_lt_mul_of_pos_right (magnitude_lt (f := f) h) hd; omega
    simp only [distance]; omega
  rcases ha.2 b hb (by omega) with h | h <;> omega

/-- Rounding respects order. -/
theorem nearest_monotone {f e den n n' a a' : Nat} (hd : 0 < den) (ha : Nearest f e n den a) (ha' : Nearest f e n' den a')
    (h : n ≤ n') : a ≤ a' := by
  apply Classical.byContradiction
  intro hlt
  have hlt : a' < a := by omega
  have h1 := Nat.mul_lt_mul_of_pos_right (magnitude_lt (f := f) hlt) hd
  have h2 := ha.2 a' ha'.1 (by omega)
  have h3 := ha'.2 a ha.1 (by omega)
  by_cases he : n = n'
  · subst he
    have := nearest_unique hd ha ha'
    omega
  · simp only [distance] at h2 h3
    rcases h2 with h2 | ⟨h2, _⟩ <;> rcases h3 with h3 | ⟨h3, _⟩ <;> omega

end Nrbf
