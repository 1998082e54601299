import Verif.Spec.ReportText
import Verif.Props.SerdeText
import Verif.Props.Errors

/-! # C85: the texts of errors, word for word -/

set_option autoImplicit false

namespace Nrbf

open Spec

/-! ## Numerals -/

theorem lit_digit {d : Nat} (h : d < 10) : UInt8.ofNat (Nat.digitChar d).toNat = UInt8.ofNat (48 + d) := by
  rw [Nat.toNat_digitChar_of_lt_ten h]

theorem digits_eq (n : Nat) : digits n = (Nat.toDigits 10 n).map fun c => UInt8.ofNat c.toNat := by
  simp [digits, lit, Nat.repr]

theorem digits_small {d : Nat} (h : d < 10) : digits d = [UInt8.ofNat (48 + d)] := by
  rw [digits_eq, Nat.toDigits_of_lt_base h, List.map_singleton, lit_digit h]

theorem digits_more {n d : Nat} (hn : 0 < n) (hd : d < 10) : digits (10 * n + d) = digits n ++ [UInt8.ofNat (48 + d)] := by
  rw [digits_eq, Nat.toDigits_of_base_le (by decide) (by omega), List.map_append, List.map_singleton,
    show (10 * n + d) / 10 = n by omega, show (10 * n + d) % 10 = d by omega, lit_digit hd, ← digits_eq]

theorem numeral_digits (n : Nat) : Numeral (digits n) n := by
  induction n using Nat.strongRecOn with
  | _ n ih =>
    by_cases h : n < 10
    · rw [digits_small h]; exact .digit h
    · have e : n = 10 * (n / 10) + n % 10 := by omega
      have hp : 0 < n / 10 := by omega
      have hd : n % 10 < 10 := by omega
      have := Numeral.more (ih (n / 10) (by omega)) hp hd
      rw [← digits_more hp hd, ← e] at this
      exact this

theorem Numeral.eq {s : Str} {n : Nat} (h : Numeral s n) : s = digits n := by
  induction h with
  | digit h => exact (digits_small h).symm
  | more _ hn hd ih => rw [digits_more hn hd, ih]

theorem numeral_iff (s : Str) (n : Nat) : Numeral s n ↔ s = digits n :=
  ⟨Numeral.eq, fun h => h ▸ numeral_digits n⟩

/-- The number that a text of digits denotes. -/
def numeralValue (s : Str) : Nat := s.foldl (fun n b => 10 * n + (b.toNat - 48)) 0

theorem digit_toNat {d : Nat} (h : d < 10) : (UInt8.ofNat (48 + d)).toNat - 48 = d := by
  rw [UInt8.toNat_ofNat_of_lt' (by show _ < 256; omega)]; omega

theorem Numeral.read {s : Str} {n : Nat} (h : Numeral s n) : numeralValue s = n := by
  induction h with
  | digit h => simp only [numeralValue, List.foldl_cons, List.foldl_nil, digit_toNat h]; omega
  | more _ hn hd ih =>
    simp only [numeralValue] at ih
    simp only [numeralValue, List.foldl_append, List.foldl_cons, List.foldl_nil, digit_toNat hd, ih]

theorem digits_inj {m n : Nat} (h : digits m = digits n) : m = n := by
  rw [← (numeral_digits m).read, ← (numeral_digits n).read, h]

theorem digits_bytes {n : Nat} : ∀ b ∈ digits n, 48 ≤ b ∧ b ≤ 57 := by
  intro b hb
  have h := numeral_digits n
  generalize digits n = s at *
  have digit : ∀ d : Nat, d < 10 → 48 ≤ UInt8.ofNat (48 + d) ∧ UInt8.ofNat (48 + d) ≤ 57 := by
    intro d hd
    constructor
    · rw [UInt8.le_iff_toNat_le, UInt8.toNat_ofNat_of_lt' (by show _ < 256; omega)]; show 48 ≤ _; omega
    · rw [UInt8.le_iff_toNat_le, UInt8.toNat_ofNat_of_lt' (by show _ < 256; omega)]; show _ ≤ 57; omega
  induction h with
  | digit h => rw [List.mem_singleton] at hb; exact hb ▸ digit _ h
  | more _ hn hd ih =>
    rcases List.mem_append.1 hb with hb | hb
    · exact ih hb
    · rw [List.mem_singleton] at hb; exact hb ▸ digit _ hd

theorem signedDigits_nat (n : Nat) : signedDigits n = digits n := by
  simp [signedDigits, digits, Int.repr_eq_if]

theorem signedDigits_neg {n : Nat} (h : 0 < n) : signedDigits (-n) = lit "-" ++ digits n := by
  have : ¬ (0 : Int) ≤ -(n : Int) := by omega
  simp only [signedDigits, digits, Int.toString_eq_repr, Int.repr_eq_if, if_neg this, Int.neg_neg, Int.toNat_natCast,
    Nat.toString_eq_repr, lit, String.toList_append, List.map_append]

theorem signedNumeral_iff (s : Str) (n : Int) : SignedNumeral s n ↔ s = signedDigits n := by
  constructor
  · intro h
    cases h with
    | plain h => rw [signedDigits_nat, h.eq]
    | minus h hn => rw [signedDigits_neg hn, h.eq]
  · rintro rfl
    by_cases h : 0 ≤ n
    · obtain ⟨m, rfl⟩ := Int.eq_ofNat_of_zero_le h
      rw [signedDigits_nat]
      exact .plain (numeral_digits m)
    · have e : n = -((-n).toNat : Int) := by omega
      have hp : 0 < (-n).toNat := by omega
      rw [e, signedDigits_neg hp]
      exact .minus (numeral_digits _) hp

/-- **C85** Every number has exactly one decimal numeral, and a numeral stands for one number. -/
theorem C85_numeral (n : Int) : (∃ s, SignedNumeral s n ∧ ∀ s', SignedNumeral s' n → s' = s) ∧
    ∀ s m, SignedNumeral s n → SignedNumeral s m → m = n := by
  refine ⟨⟨signedDigits n, (signedNumeral_iff _ _).2 rfl, fun s' h => (signedNumeral_iff _ _).1 h⟩, fun s m h h' => ?_⟩
  have minus : ∀ {a : Nat} {s : Str}, digits a ≠ lit "-" ++ s := by
    intro a s h
    have := digits_bytes (n := a) 45 (h ▸ List.mem_cons_self)
    exact absurd this (by decide)
  cases h with
  | plain h => cases h' with
    | plain h' => rw [← h.read, h'.read]
    | minus h' _ => exact absurd h.eq.symm minus
  | minus h _ => cases h' with
    | plain h' => exact absurd h'.eq.symm minus
    | minus h' _ => rw [← h.read, h'.read]

/-! ## The words -/

/-- **C85** The texts of parse errors are those of the table. -/
theorem C85_display (e : Error) (s : String) : e.display = s ↔ (e.inner, s) ∈ errorTexts := by
  have h1 : ∀ p ∈ errorTexts, p.1.display = p.2 := by decide +kernel
  have h2 : ∀ i ∈ allErrors, (i, i.display) ∈ errorTexts := by decide +kernel
  exact ⟨fun h => h ▸ h2 _ (allErrors_complete _), fun h => h1 _ h⟩

/-- **C85** What values are called in errors. -/
theorem C85_called [TextLib] (u : Unexpected) (s : Str) : s = u.text ↔ CalledAs u s := by
  constructor
  · rintro rfl
    cases u with
    | bool b => cases b <;> constructor
    | int n => exact .int ((signedNumeral_iff _ _).2 rfl)
    | _ => constructor
  · intro h
    cases h with
    | int h => rw [(signedNumeral_iff _ _).1 h, Unexpected.text]
    | _ => rfl

/-- **C85** What types are called in errors. -/
theorem C85_type (T : RTy) (s : Str) : s = T.expecting ↔ TypeName T s := by
  constructor
  · rintro rfl
    cases T with
    | int t => cases t <;> constructor
    | array n T =>
      by_cases h : n = 0
      · subst h; exact .noArray T
      · rw [RTy.expecting, if_neg h]; exact .array T (by omega) (numeral_digits n)
    | tuple Ts => exact .tuple (numeral_digits _)
    | _ => constructor
  · intro h
    cases h with
    | array T hn h => rw [RTy.expecting, if_neg (by omega), h.eq]
    | tuple h => rw [RTy.expecting, h.eq]
    | _ => rfl

/-- **C85** How many elements were expected. -/
theorem C85_amount (n : Nat) (s : Str) : s = elements n ↔ Amount n s := by
  constructor
  · rintro rfl
    by_cases h : n = 1
    · subst h; exact .one
    · rw [elements, if_neg h]; exact .many h (numeral_digits n)
  · intro h
    cases h with
    | one => rfl
    | many hn h => rw [elements, if_neg hn, h.eq]

/-- **C85** The numbers of the integer types. -/
theorem C85_range [Platform] (t : IntTy) (lo hi : Int) : (lo = t.min ∧ hi = t.max) ↔ NumberRange t lo hi := by
  constructor
  · rintro ⟨rfl, rfl⟩
    cases t
    case isize =>
      cases h : (Platform.pointerWidth : PointerWidth) with
      | bits32 => simp only [IntTy.min, IntTy.max, usizeBits, h]; exact .isize32 h
      | bits64 => simp only [IntTy.min, IntTy.max, usizeBits, h]; exact .isize64 h
    case usize =>
      cases h : (Platform.pointerWidth : PointerWidth) with
      | bits32 => simp only [IntTy.min, IntTy.max, usizeBits, h]; exact .usize32 h
      | bits64 => simp only [IntTy.min, IntTy.max, usizeBits, h]; exact .usize64 h
    all_goals constructor
  · intro h
    cases h with
    | isize32 h | isize64 h | usize32 h | usize64 h => simp only [IntTy.min, IntTy.max, usizeBits, h]; decide
    | _ => constructor <;> rfl

/-- **C85** The text of every error of `from_slice`, word for word. -/
theorem C85_text [TextLib] (r : SerdeError) (hr : r ≠ .hang) (s : Str) : s = r.text ↔ TextOf r s := by
  constructor
  · rintro rfl
    cases r with
    | hang => exact absurd rfl hr
    | parsing e => exact .parsing ((C85_display e _).1 rfl)
    | invalidType u e => exact .invalidType e ((C85_called u _).1 rfl)
    | invalidValue u e => exact .invalidValue e ((C85_called u _).1 rfl)
    | invalidLength n e => exact .invalidLength e (numeral_digits n)
    | _ => constructor
  · intro h
    cases h with
    | parsing h => rw [SerdeError.text, (C85_display _ _).2 h]
    | invalidType e h => rw [SerdeError.text, (C85_called _ _).2 h]
    | invalidValue e h => rw [SerdeError.text, (C85_called _ _).2 h]
    | invalidLength e h => rw [SerdeError.text, h.eq]
    | _ => rfl

section

variable [Platform] [FloatLib] [TextLib]

/-- **C85** So every error of `from_slice` has one text, given by the specification. -/
theorem C85_from_slice (T : RTy) (w : Bytes) (r : SerdeError) (h : fromSliceR T w = .err r) (s : Str) :
    s = r.text ↔ TextOf r s := by
  refine C85_text r ?_ s
  rintro rfl
  unfold fromSliceR at h
  split at h
  · split at h <;> cases h; contradiction
  · cases h
  · cases h
  · cases h

/-- **C85** Which numbers an integer type takes, and what is said of the others. -/
theorem C85_integers {v : Value} {n : Int} {t : IntTy} {lo hi : Int} (hs : Sane v) (h : v.integer? = some n)
    (ht : NumberRange t lo hi) :
    (lo ≤ n ∧ n ≤ hi → decodeR v (.int t) = .ok (.int n)) ∧
    (¬ (lo ≤ n ∧ n ≤ hi) → ∃ r s name, decodeR v (.int t) = .error r ∧ SignedNumeral s n ∧ TypeName (.int t) name ∧
      r.text = lit "invalid value: integer `" ++ s ++ lit "`, expected " ++ name) := by
  obtain ⟨rfl, rfl⟩ := (C85_range t lo hi).2 ht
  have total := C64_total v hs (.int t) (by rw [RTy.erase]; exact .int _ _)
  constructor
  · rintro ⟨h1, h2⟩
    have hd : Decodes v (RTy.int t).erase (.int n) := by rw [RTy.erase]; exact .int h h1 h2
    cases e : decodeR v (.int t) with
    | error r => rw [e] at total; exact absurd hd (total.2 _)
    | ok d =>
      rw [e] at total
      have := total.1
      rw [RTy.erase] at this
      generalize hT : Ty.int t.min t.max = T at this
      cases this <;> cases hT <;> simp_all [Value.integer?]
  · intro hn
    have hf : Fails v (.int t) (.invalidValue (.int n) t.name) := .range h hn
    cases e : decodeR v (.int t) with
    | ok d => rw [e] at total; exact absurd hf (total.2 _)
    | error r =>
      rw [e] at total
      have hr : r = .invalidValue (.int n) t.name := by
        have hl := total.1
        have noList : ∀ items size, ¬ IsList v items size := by
          rintro items size ⟨cls, ms, _, rfl, _⟩; cases h
        have noSequence : ∀ vs, ¬ Sequence v vs := by
          intro vs hq
          cases hq with
          | array => cases h
          | list hq => exact noList _ _ hq
        generalize hT : RTy.int t = T at hl
        cases hl with
        | range h' _ => cases hT; rw [h] at h'; cases h'; rfl
        | kind _ _ hk => subst hT; exact absurd (by rw [Takes.eq_def]; simp [h]) hk
        | sequence hq | element hq | slot hq | short hq => exact absurd hq (noSequence _)
        | listShort hq | longList hq => exact absurd hq (noList _ _)
        | some => cases hT
        | character => cases hT
        | _ => cases h
      refine ⟨r, signedDigits n, t.name, rfl, (signedNumeral_iff _ _).2 rfl, (C85_type _ _).1 rfl, ?_⟩
      rw [hr, SerdeError.text, Unexpected.text, show lit "`, expected " = lit "`" ++ lit ", expected " from rfl,
        show lit "invalid value: integer `" = lit "invalid value: " ++ lit "integer `" from rfl]
      simp only [List.append_assoc]

omit [Platform] [FloatLib] in
/-- **C85** Texts tell the kinds of errors apart, and most of what they are about: the reason of a parse error,
the length, the name of the field or class. -/
theorem C85_identifies (r r' : SerdeError) (hr' : r' ≠ .hang) (h : r.text = r'.text) :
    (∀ e, r = .parsing e → ∃ e', r' = .parsing e' ∧ e'.inner = e.inner) ∧
    (∀ u x, r = .invalidType u x → ∃ u' x', r' = .invalidType u' x') ∧
    (∀ u x, r = .invalidValue u x → ∃ u' x', r' = .invalidValue u' x') ∧
    (∀ n x, r = .invalidLength n x → r' = .invalidLength n x) ∧
    (∀ k, r = .missingField k → r' = .missingField k) ∧
    (∀ k, r = .duplicateField k → r' = .duplicateField k) ∧
    (∀ c, r = .systemClass c → r' = .systemClass c) := by
  have key : ∀ {a b x y : Str}, a ++ x = b ++ y → ∀ i : Nat, i < a.length → i < b.length → a[i]? = b[i]? := by
    intro a b x y h i hi hj
    rw [← List.getElem?_append_left (l₂ := x) hi, h, List.getElem?_append_left hj]
  have comma : ∀ {m n : Nat} {x y : Str}, digits m ++ lit ", expected " ++ x = digits n ++ lit ", expected " ++ y →
      m = n ∧ x = y := by
    intro m n x y h
    have e : ∀ {n : Nat} {x : Str}, (digits n ++ lit ", expected " ++ x).takeWhile (· ≠ 44) = digits n := by
      intro n x
      rw [List.append_assoc, List.takeWhile_append_of_pos (fun b hb => by
        have := digits_bytes b hb
        simp only [ne_eq, decide_eq_true_eq]
        rintro rfl
        exact absurd this (by decide))]
      show _ ++ List.takeWhile _ (44 :: _) = _
      rw [List.takeWhile_cons_of_neg (by decide), List.append_nil]
    have : digits m = digits n := by rw [← e (n := m) (x := x), h, e]
    refine ⟨digits_inj this, ?_⟩
    rw [this, List.append_assoc, List.append_assoc] at h
    exact List.append_cancel_left (List.append_cancel_left h)
  refine ⟨?_, ?_, ?_, ?_, ?_, ?_, ?_⟩
  all_goals
    intros
    subst r
    cases r'
    case hang => exact absurd rfl hr'
    all_goals
      simp only [SerdeError.text, List.append_assoc] at h
      first
      | exact ⟨_, _, rfl⟩
      | exact absurd (key h 0 (by decide) (by decide)) (by decide)
      | exact absurd (key h 8 (by decide) (by decide)) (by decide)
      | exact absurd (key h 9 (by decide) (by decide)) (by decide)
      | exact absurd (key h 10 (by decide) (by decide)) (by decide)
      | skip
  case parsing =>
    have h := List.append_cancel_left h
    have inj : ((allErrors.map ErrorInner.display).map lit).Nodup := by decide +kernel
    rw [List.map_map] at inj
    exact ⟨_, rfl, inj_of_nodup inj (allErrors_complete _) (allErrors_complete _) h.symm⟩
  case invalidLength =>
    have h := List.append_cancel_left h
    rw [← List.append_assoc, ← List.append_assoc] at h
    rw [(comma h).1, (comma h).2]
  case missingField => rw [List.append_cancel_right (List.append_cancel_left h)]
  case duplicateField => rw [List.append_cancel_right (List.append_cancel_left h)]
  case systemClass => rw [List.append_cancel_left h]

/-- `300` for an `i8`, in words. -/
example : ∃ r, decodeR (.int32 300) (.int .i8) = .error r ∧
    r.text = lit "invalid value: integer `300`, expected i8" := by
  have hs : Sane (.int32 300) := by
    intro u hu
    cases hu
    exact ⟨⟨by decide, by decide⟩, trivial, (by rintro s e; cases e), (by rintro s e; cases e),
      (by rintro items size ⟨_, _, _, e, _⟩; cases e)⟩
  obtain ⟨r, s, name, h, hn, ht, e⟩ := (C85_integers (n := 300) hs rfl .i8).2 (by decide)
  refine ⟨r, h, ?_⟩
  rw [e, (signedNumeral_iff _ _).1 hn, (C85_type _ _).2 ht]
  rfl

/-- A negative number, in words. -/
example : TextOf (.invalidValue (.int (-70000)) (lit "u16")) (lit "invalid value: integer `-70000`, expected u16") := by
  have : Numeral (lit "70000") 70000 :=
    .more (n := 7000) (d := 0) (.more (n := 700) (d := 0) (.more (n := 70) (d := 0) (.more (n := 7) (d := 0)
      (.digit (d := 7) (by decide)) (by decide) (by decide)) (by decide) (by decide)) (by decide) (by decide))
      (by decide) (by decide)
  exact .invalidValue (s := lit "integer `-70000`") (lit "u16") (.int (s := lit "-70000") (.minus this (by decide)))

/-- Null where a struct is expected, in words. -/
example : (SerdeError.invalidType .unit (RTy.struct (lit "Person") []).expecting).text =
    lit "invalid type: unit value, expected struct Person" := rfl

end

end Nrbf
