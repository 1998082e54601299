import Verif.Model.Decimals
import Verif.Spec.Decimals
import Verif.Props.Write
import Verif.Model.Serde
set_option autoImplicit false

/-! # C79: decimals -/

namespace Nrbf
open Spec

section
variable [Platform]

/-- **C79** Every decimal in a parsed message was read by `Decimal::from_str` from a text that is valid UTF-8 and a
contiguous slice of the input. -/
theorem C79 {w : Bytes} {m : RemotingMessage} (h : deserialize w = .ok m) {d : Dec} (hd : ValueIn (.decimal d) m) :
    ∃ before text after, w = before ++ text ++ after ∧ IsUtf8 text ∧ Platform.decimalFromStr text = some d := by
  obtain ⟨-, -, -, -, h5⟩ := (message_wf h).2 _ hd
  obtain ⟨s, ⟨⟨a, b, hab⟩, hu⟩, hs⟩ := h5.1 d rfl
  exact ⟨a, s, b, hab.symm, (utf8Valid_iff s).mp hu, hs⟩

/-- **C79** If the library reads back what it prints, every accepted message can be written and is read again as the
same; nothing has to be known about the decimals in it. -/
theorem C79_again (hlib : ReadsBack) {w : Bytes} {m : RemotingMessage} (h : deserialize w = .ok m)
    (hw : w.length < 2 ^ 31)
    (hsize : (topValues m).length < 2 ^ 31 ∧ 1 + itemEntities (topValues m) < 2 ^ 31)
    (harrays : ∀ vs, ValueIn (.array vs) m → vs.length < 2 ^ 31)
    (hobjects : ∀ c l ms, ValueIn (.object c l ms) m → ms.length < 2 ^ 31) :
    deserialize (write m) = .ok m :=
  C57_again h hw hsize harrays hobjects fun _ hd =>
    let ⟨_, s, _, _, hu, hs⟩ := C79 h hd
    hlib s _ hu hs

end

/-! ## A library that does -/

theorem lastDigits_length (k n : Nat) : (lastDigits k n).length = k := by
  induction k generalizing n with
  | zero => rfl
  | succ k ih => simp [lastDigits, ih]

/-- The digits as numbers. -/
def lastNumbers : Nat → Nat → List Nat
  | 0, _ => []
  | k + 1, n => lastNumbers k (n / 10) ++ [n % 10]

theorem lastDigits_chars (k n : Nat) : lastDigits k n = digitChars (lastNumbers k n) := by
  induction k generalizing n with
  | zero => rfl
  | succ k ih => simp [lastDigits, lastNumbers, digitChars, ih]

theorem lastNumbers_lt (k n : Nat) : ∀ x ∈ lastNumbers k n, x < 10 := by
  induction k generalizing n with
  | zero => simp [lastNumbers]
  | succ k ih =>
    intro x hx
    simp only [lastNumbers, List.mem_append, List.mem_singleton] at hx
    rcases hx with hx | rfl
    · exact ih _ x hx
    · omega

theorem lastNumbers_value (k n : Nat) (h : n < 10 ^ k) : digitsValue (lastNumbers k n) = n := by
  induction k generalizing n with
  | zero => simp at h; subst h; rfl
  | succ k ih =>
    have h1 := ih (n / 10) (by rw [Nat.pow_succ] at h; omega)
    unfold digitsValue at *
    simp only [lastNumbers, List.foldl_append, h1, List.foldl_cons, List.foldl_nil]
    omega

theorem digitCount_spec (fuel n : Nat) (h : n ≤ fuel) : n < 10 ^ digitCount fuel n := by
  induction fuel generalizing n with
  | zero => simp [digitCount]; omega
  | succ f ih =>
    unfold digitCount
    split
    · omega
    · have := ih (n / 10) (by omega)
      rw [Nat.pow_succ]
      omega

/-- A number has no more digits than needed. -/
theorem digitCount_le (fuel n k : Nat) (hk : 0 < k) (h : n < 10 ^ k) : digitCount fuel n ≤ k := by
  induction fuel generalizing n k with
  | zero => simp [digitCount]; omega
  | succ f ih =>
    unfold digitCount
    split
    · omega
    · cases k with
      | zero => omega
      | succ k =>
        cases k with
        | zero => simp at h; omega
        | succ k =>
          have := ih (n / 10) (k + 1) (by omega) (by rw [Nat.pow_succ] at h; omega)
          omega

theorem digitChars_append (a b : List Nat) : digitChars (a ++ b) = digitChars a ++ digitChars b := by
  simp [digitChars]

theorem digitChars_length (a : List Nat) : (digitChars a).length = a.length := by simp [digitChars]

theorem char_toNat {x : Nat} (hx : x < 10) : (UInt8.ofNat (48 + x)).toNat = 48 + x := by
  simp only [UInt8.toNat_ofNat']
  omega

theorem readDigits_iff (s : List UInt8) (acc m : Nat) :
    readDigits s acc = some m ↔ ∃ ds : List Nat, (∀ x ∈ ds, x < 10) ∧ s = digitChars ds ∧
      m = ds.foldl (fun n d => n * 10 + d) acc := by
  induction s generalizing acc with
  | nil =>
    simp only [readDigits, Option.some.injEq]
    constructor
    · rintro rfl; exact ⟨[], by simp, rfl, rfl⟩
    · rintro ⟨ds, -, hs, rfl⟩
      cases ds with
      | nil => rfl
      | cons x ds => simp [digitChars] at hs
  | cons b s ih =>
    unfold readDigits
    constructor
    · intro h
      split at h
      · rename_i hb
        obtain ⟨ds, h1, h2, h3⟩ := (ih _).mp h
        have e1 : 48 ≤ b.toNat := hb.1
        have e2 : b.toNat ≤ 57 := hb.2
        refine ⟨(b.toNat - 48) :: ds, ?_, ?_, h3⟩
        · intro x hx
          rcases List.mem_cons.mp hx with rfl | hx
          · omega
          · exact h1 x hx
        · simp only [digitChars, List.map_cons] at *
          rw [h2]
          congr 1
          rw [show 48 + (b.toNat - 48) = b.toNat by omega]
          exact (UInt8.ofNat_toNat).symm
      · cases h
    · rintro ⟨ds, h1, h2, h3⟩
      cases ds with
      | nil => simp [digitChars] at h2
      | cons x ds =>
        simp only [digitChars, List.map_cons, List.cons.injEq] at h2
        have hx := h1 x List.mem_cons_self
        have hn : b.toNat = 48 + x := by rw [h2.1]; exact char_toNat hx
        rw [if_pos ⟨show 48 ≤ b.toNat by omega, show b.toNat ≤ 57 by omega⟩, ih]
        refine ⟨ds, fun y hy => h1 y (List.mem_cons_of_mem _ hy), h2.2, ?_⟩
        rw [h3, List.foldl_cons, hn, show 48 + x - 48 = x by omega]

theorem no_point {ds : List Nat} (h : ∀ x ∈ ds, x < 10) : ∀ b ∈ digitChars ds, (b != (46 : UInt8)) = true := by
  intro b hb
  obtain ⟨x, hx, rfl⟩ := List.mem_map.mp hb
  have := char_toNat (h x hx)
  simp only [bne_iff_ne, ne_eq]
  intro e
  rw [e] at this
  simp at this
  omega

theorem split_point {a : List UInt8} (ha : ∀ b ∈ a, (b != (46 : UInt8)) = true) (f : List UInt8) :
    (a ++ 46 :: f).takeWhile (· != 46) = a ∧ (a ++ 46 :: f).dropWhile (· != 46) = 46 :: f := by
  induction a with
  | nil => simp
  | cons b a ih =>
    have := ih fun x hx => ha x (List.mem_cons_of_mem _ hx)
    have hb := ha b List.mem_cons_self
    simp only [List.cons_append, List.takeWhile_cons, List.dropWhile_cons, hb, if_true, this, and_self]

theorem no_split {a : List UInt8} (ha : ∀ b ∈ a, (b != (46 : UInt8)) = true) :
    a.takeWhile (· != 46) = a ∧ a.dropWhile (· != 46) = [] := by
  induction a with
  | nil => simp
  | cons b a ih =>
    have := ih fun x hx => ha x (List.mem_cons_of_mem _ hx)
    have hb := ha b List.mem_cons_self
    simp only [List.takeWhile_cons, List.dropWhile_cons, hb, if_true, this, and_self]

/-- A text is its part before the first point, and the rest. -/
theorem point_cases (s : List UInt8) :
    s = s.takeWhile (· != 46) ++ 46 :: (s.dropWhile (· != 46)).drop 1 ∨
    (s.dropWhile (· != 46)).drop 1 = [] ∧ s = s.takeWhile (· != 46) := by
  induction s with
  | nil => right; simp
  | cons b s ih =>
    by_cases hb : (b != (46 : UInt8)) = true
    · simp only [List.takeWhile_cons, List.dropWhile_cons, hb, if_true, List.cons_append, List.cons.injEq, true_and]
      exact ih
    · left
      simp only [List.takeWhile_cons, List.dropWhile_cons, hb]
      have : b = 46 := by simpa using hb
      subst this
      simp

theorem digitChars_split {a f : List UInt8} {ds : List Nat} (h : a ++ f = digitChars ds) :
    ∃ x y, ds = x ++ y ∧ a = digitChars x ∧ f = digitChars y := by
  refine ⟨ds.take a.length, ds.drop a.length, (List.take_append_drop _ _).symm, ?_, ?_⟩
  · have := congrArg (List.take a.length) h
    simpa [digitChars, List.map_take] using this
  · have := congrArg (List.drop a.length) h
    simpa [digitChars, List.map_drop] using this

/-- Unsigned numbers are read exactly when they are decimal notation and fit. -/
theorem readUnsigned_iff (neg : Bool) (s : Str) (d : Dec) :
    readUnsigned neg s = some d ↔ d.neg = neg ∧ FitsDecimal d ∧
      ∃ whole frac : List Nat, (∀ x ∈ whole ++ frac, x < 10) ∧ whole ++ frac ≠ [] ∧
        d.mantissa = digitsValue (whole ++ frac) ∧ d.scale = frac.length ∧
        (s = digitChars whole ++ 46 :: digitChars frac ∨ frac = [] ∧ s = digitChars whole) := by
  unfold readUnsigned
  simp only
  constructor
  · intro h
    split at h
    · cases h
    · rename_i hne
      split at h
      · rename_i m hm
        split at h
        · rename_i hb
          cases h
          obtain ⟨ds, h1, h2, h3⟩ := (readDigits_iff _ _ _).mp hm
          obtain ⟨x, y, rfl, hx, hy⟩ := digitChars_split h2
          have hlen : ((s.dropWhile (· != 46)).drop 1).length = y.length := by rw [hy, digitChars_length]
          refine ⟨rfl, ⟨hb.1, hb.2⟩, x, y, h1, ?_, h3, hlen, ?_⟩
          · intro e
            apply hne
            rw [h2, e]
            rfl
          · rcases point_cases s with h | ⟨hnil, h⟩
            · left; rw [hx, hy] at h; exact h
            · right
              rw [hnil] at hy
              refine ⟨?_, by rw [hx] at h; exact h⟩
              cases y with
              | nil => rfl
              | cons => simp [digitChars] at hy
        · cases h
      · cases h
  · rintro ⟨rfl, ⟨hb1, hb2⟩, x, y, h1, h2, h3, h4, h5⟩
    have hx : ∀ b ∈ digitChars x, (b != (46 : UInt8)) = true :=
      no_point fun a ha => h1 a (List.mem_append_left _ ha)
    have hsplit : s.takeWhile (· != 46) = digitChars x ∧ (s.dropWhile (· != 46)).drop 1 = digitChars y := by
      rcases h5 with rfl | ⟨rfl, rfl⟩
      · rw [(split_point hx _).1, (split_point hx _).2]; exact ⟨rfl, rfl⟩
      · rw [(no_split hx).1, (no_split hx).2]; exact ⟨rfl, rfl⟩
    rw [hsplit.1, hsplit.2, ← digitChars_append]
    have hne : digitChars (x ++ y) ≠ [] := by
      intro e
      apply h2
      cases hxy : x ++ y with
      | nil => rfl
      | cons => rw [hxy] at e; simp [digitChars] at e
    rw [if_neg hne, (readDigits_iff _ 0 d.mantissa).mpr ⟨x ++ y, h1, rfl, h3⟩]
    simp only [digitChars_length, ← h4]
    rw [if_pos ⟨hb1, hb2⟩]

theorem readDecimal_cons (b : UInt8) (s : Str) :
    readDecimal (b :: s) = if b = 45 then readUnsigned true s else readUnsigned false (b :: s) := rfl

theorem not_minus {ds : List Nat} (h : ∀ x ∈ ds, x < 10) : ∀ b ∈ digitChars ds, b ≠ (45 : UInt8) := by
  intro b hb
  obtain ⟨x, hx, rfl⟩ := List.mem_map.mp hb
  have := char_toNat (h x hx)
  intro e
  rw [e] at this
  simp at this
  omega

/-- **C79** The stand-in reads a text as a number exactly when the text is decimal notation for it and it fits. -/
theorem C79_reads (s : Str) (d : Dec) : readDecimal s = some d ↔ Notation s d ∧ FitsDecimal d := by
  constructor
  · intro h
    cases s with
    | nil => cases h
    | cons b s =>
      rw [readDecimal_cons] at h
      split at h
      · rename_i hb
        subst hb
        obtain ⟨h0, h1, x, y, h2, h3, h4, h5, h6⟩ := (readUnsigned_iff _ _ _).mp h
        refine ⟨⟨x, y, h2, h3, h4, h5, ?_⟩, h1⟩
        rw [h0]
        simp only [if_true, List.cons_append, List.nil_append, List.cons.injEq, true_and]
        exact h6
      · obtain ⟨h0, h1, x, y, h2, h3, h4, h5, h6⟩ := (readUnsigned_iff _ _ _).mp h
        refine ⟨⟨x, y, h2, h3, h4, h5, ?_⟩, h1⟩
        rw [h0]
        simpa using h6
  · rintro ⟨⟨x, y, h2, h3, h4, h5, h6⟩, h1⟩
    cases hneg : d.neg with
    | true =>
      rw [hneg] at h6
      simp only [if_true, List.cons_append, List.nil_append] at h6
      cases s with
      | nil => rcases h6 with h6 | ⟨-, h6⟩ <;> cases h6
      | cons b s =>
        have hs : b = 45 ∧ (s = digitChars x ++ 46 :: digitChars y ∨ y = [] ∧ s = digitChars x) := by
          rcases h6 with h6 | ⟨hy, h6⟩
          · cases h6; exact ⟨rfl, .inl rfl⟩
          · cases h6; exact ⟨rfl, .inr ⟨hy, rfl⟩⟩
        rw [readDecimal_cons, if_pos hs.1]
        exact (readUnsigned_iff _ _ _).mpr ⟨hneg, h1, x, y, h2, h3, h4, h5, hs.2⟩
    | false =>
      rw [hneg] at h6
      simp only [Bool.false_eq_true, if_false, List.nil_append] at h6
      have hr := (readUnsigned_iff false s d).mpr ⟨hneg, h1, x, y, h2, h3, h4, h5, h6⟩
      cases s with
      | nil =>
        exfalso
        rcases h6 with h6 | ⟨rfl, h6⟩
        · simp at h6
        · apply h3
          cases x with
          | nil => rfl
          | cons => simp [digitChars] at h6
      | cons b s =>
        rw [readDecimal_cons, if_neg]
        · exact hr
        · rintro rfl
          cases x with
          | nil =>
            rcases h6 with h6 | ⟨rfl, h6⟩
            · simp [digitChars] at h6
            · exact h3 rfl
          | cons a x =>
            have : (45 : UInt8) ∈ digitChars (a :: x) := by
              rcases h6 with h6 | ⟨-, h6⟩
              · simp only [digitChars, List.map_cons, List.cons_append, List.cons.injEq] at h6 ⊢
                rw [← h6.1]; exact List.mem_cons_self
              · rw [← h6]; exact List.mem_cons_self
            exact not_minus (fun a ha => h2 a (List.mem_append_left _ ha)) _ this rfl

/-- **C79** What the stand-in prints is decimal notation for the number, whatever the number. -/
theorem C79_prints (d : Dec) : Notation (printDecimal d) d := by
  unfold printDecimal
  simp only
  generalize hk : max (d.scale + 1) (digitCount d.mantissa d.mantissa) = k
  have hk1 : d.scale + 1 ≤ k := by omega
  have hv : d.mantissa < 10 ^ k :=
    Nat.lt_of_lt_of_le (digitCount_spec _ _ (Nat.le_refl _)) (Nat.pow_le_pow_right (by omega) (by omega))
  have hl : (lastNumbers k d.mantissa).length = k := by
    rw [← digitChars_length, ← lastDigits_chars, lastDigits_length]
  refine ⟨(lastNumbers k d.mantissa).take (k - d.scale), (lastNumbers k d.mantissa).drop (k - d.scale), ?_, ?_, ?_, ?_, ?_⟩
  · rw [List.take_append_drop]; exact lastNumbers_lt _ _
  · rw [List.take_append_drop]
    intro e
    rw [e] at hl
    simp at hl
    omega
  · rw [List.take_append_drop, lastNumbers_value _ _ hv]
  · rw [List.length_drop, hl]; omega
  · have e1 : (lastDigits k d.mantissa).take (k - d.scale) = digitChars ((lastNumbers k d.mantissa).take (k - d.scale)) := by
      rw [lastDigits_chars]; simp [digitChars, List.map_take]
    have e2 : (lastDigits k d.mantissa).drop (k - d.scale) = digitChars ((lastNumbers k d.mantissa).drop (k - d.scale)) := by
      rw [lastDigits_chars]; simp [digitChars, List.map_drop]
    rw [e1, e2]
    by_cases h0 : d.scale = 0
    · right
      rw [if_pos h0, List.append_nil]
      exact ⟨List.drop_eq_nil_of_le (by omega), rfl⟩
    · left
      rw [if_neg h0]

theorem ascii_utf8 {s : Str} (h : ∀ b ∈ s, b < 128) : IsUtf8 s := by
  induction s with
  | nil => exact ⟨[], rfl⟩
  | cons b s ih =>
    obtain ⟨cs, hcs⟩ := ih fun x hx => h x (List.mem_cons_of_mem _ hx)
    have hb : b.toNat < 128 := h b List.mem_cons_self
    refine ⟨Char.ofNat b.toNat :: cs, ?_⟩
    rw [List.flatMap_cons, ← hcs]
    have : String.utf8EncodeChar (Char.ofNat b.toNat) = [b] := by
      have hv : (Char.ofNat b.toNat).toNat = b.toNat := by
        have hvalid : b.toNat.isValidChar := .inl (by omega)
        rw [Char.ofNat, dif_pos hvalid]
        rfl
      unfold String.utf8EncodeChar
      have hv' : (Char.ofNat b.toNat).val.toNat = b.toNat := hv
      simp only [hv']
      rw [if_pos (by omega)]
      simp
    rw [this]
    rfl

theorem notation_ascii {s : Str} {d : Dec} (h : Notation s d) : ∀ b ∈ s, b < 128 := by
  obtain ⟨x, y, h1, -, -, -, h5⟩ := h
  have hd : ∀ ds : List Nat, (∀ a ∈ ds, a < 10) → ∀ b ∈ digitChars ds, b < 128 := by
    intro ds h b hb
    obtain ⟨x, hx, rfl⟩ := List.mem_map.mp hb
    have := char_toNat (h x hx)
    have := h x hx
    show (UInt8.ofNat (48 + x)).toNat < 128
    omega
  have hx := hd x fun a ha => h1 a (List.mem_append_left _ ha)
  have hy := hd y fun a ha => h1 a (List.mem_append_right _ ha)
  have hs : ∀ b ∈ (if d.neg then [45] else [] : List UInt8), b < 128 := by
    cases d.neg <;> simp
  intro b hb
  rcases h5 with rfl | ⟨-, rfl⟩
  · simp only [List.mem_append, List.mem_cons] at hb
    rcases hb with (hb | hb) | rfl | hb
    · exact hs b hb
    · exact hx b hb
    · decide
    · exact hy b hb
  · simp only [List.mem_append] at hb
    rcases hb with hb | hb
    · exact hs b hb
    · exact hx b hb

/-- What is printed for a number that fits is short. -/
theorem printDecimal_length {d : Dec} (h : FitsDecimal d) : (printDecimal d).length ≤ 31 := by
  have hc : digitCount d.mantissa d.mantissa ≤ 29 :=
    digitCount_le _ _ 29 (by omega) (Nat.lt_of_lt_of_le h.1 (by decide))
  have hs := h.2
  unfold printDecimal
  simp only
  generalize hk : max (d.scale + 1) (digitCount d.mantissa d.mantissa) = k
  have hl := lastDigits_length k d.mantissa
  have hk' : k ≤ 29 := by omega
  have h1 : (if d.neg then [45] else [] : List UInt8).length ≤ 1 := by cases d.neg <;> simp
  by_cases h0 : d.scale = 0
  · rw [if_pos h0]
    simp only [List.length_append, List.length_take, List.length_nil]
    omega
  · rw [if_neg h0]
    simp only [List.length_append, List.length_take, List.length_cons, List.length_drop]
    omega

/-- **C79** The stand-in reads back what it prints. -/
theorem C79_reads_back (width : PointerWidth) : @ReadsBack (exactDecimals width) := by
  intro s d _ h
  have hf := ((C79_reads s d).mp h).2
  refine ⟨⟨ascii_utf8 (notation_ascii (C79_prints d)), ?_⟩, (C79_reads _ _).mpr ⟨C79_prints d, hf⟩⟩
  have := printDecimal_length hf
  show (printDecimal d).length < 2 ^ 31
  omega

/-- **C79** The other demand made of the library, that what it prints is valid UTF-8, is met by the stand-in. -/
theorem C79_utf8 (width : PointerWidth) (d : Dec) : IsUtf8 ((exactDecimals width).decimalToStr d) :=
  ascii_utf8 (notation_ascii (C79_prints d))

/-! ## Concrete cases -/

example : printDecimal ⟨true, 12345, 2⟩ = lit "-123.45" := by decide +kernel
example : printDecimal ⟨false, 5, 3⟩ = lit "0.005" := by decide +kernel
example : printDecimal ⟨false, 2 ^ 96 - 1, 28⟩ = lit "7.9228162514264337593543950335" := by decide +kernel
example : readDecimal (lit "-123.45") = some ⟨true, 12345, 2⟩ := by decide +kernel
example : readDecimal (lit "1.0") = some ⟨false, 10, 1⟩ := by decide +kernel
example : readDecimal (lit "1.2.3") = none := by decide +kernel
example : readDecimal (lit "-") = none := by decide +kernel

/-- A message whose value is an array with a decimal. -/
def decimalArray : RemotingMessage := .value (.array [.decimal ⟨true, 12345, 2⟩, .null])

/-- With the stand-in it is read from its bytes, and again from what is written for it. -/
example (width : PointerWidth) : @deserialize (exactDecimals width) (@write (exactDecimals width) decimalArray) = .ok decimalArray := by
  cases width <;> decide +kernel

/-- And `C79_again` applies to it. -/
example (width : PointerWidth) (w : Bytes) (hw : w.length < 2 ^ 31)
    (h : @deserialize (exactDecimals width) w = .ok decimalArray) :
    @deserialize (exactDecimals width) (@write (exactDecimals width) decimalArray) = .ok decimalArray := by
  have items : ∀ u, ValueIn u decimalArray →
      u = .array [.decimal ⟨true, 12345, 2⟩, .null] ∨ u = .decimal ⟨true, 12345, 2⟩ ∨ u = .null := by
    rintro u ⟨v, hv, hu⟩
    simp only [decimalArray, topValues, List.mem_singleton] at hv
    subst hv
    cases hu with
    | refl => exact .inl rfl
    | item hm hs =>
      simp only [List.mem_cons, List.not_mem_nil, or_false] at hm
      rcases hm with rfl | rfl <;> cases hs
      · exact .inr (.inl rfl)
      · exact .inr (.inr rfl)
  refine @C79_again (exactDecimals width) (C79_reads_back width) w _ h hw ⟨by decide, by decide⟩ ?_ ?_
  · intro vs hv
    rcases items _ hv with e | e | e <;> cases e
    decide
  · intro c l ms hv
    rcases items _ hv with e | e | e <;> cases e

end Nrbf
