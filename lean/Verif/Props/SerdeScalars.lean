import Verif.Props.SerdeValues

/-! # C52, C54: conversions of scalars -/

set_option autoImplicit false

namespace Nrbf

open Spec (InSigned)

variable [Platform] [FloatLib]

/-! ## Specification -/

/-- Scalar types. -/
inductive Ty.Scalar : Ty → Prop
  | bool : Scalar .bool
  | int (lo hi : Int) : Scalar (.int lo hi)
  | f32 : Scalar .f32
  | f64 : Scalar .f64
  | char : Scalar .char
  | str : Scalar .str
  | string : Scalar .string
  | unit : Scalar .unit

/-! ## C52: integers -/

/-- **C52** An integer of any width becomes an integer of any type exactly if it is in the range of that
type, and it is unchanged then: no wrapping, no truncation. -/
theorem C52 (v : Value) (n : Int) (h : v.integer? = some n) (lo hi : Int) :
    decode v (.int lo hi) = if lo ≤ n ∧ n ≤ hi then .ok (.int n) else .error .serde := by
  cases v <;> simp only [Value.integer?, reduceCtorEq, Option.some.injEq] at h
  all_goals
    subst h
    rw [decode_plain (by rw [valueDeser]) (by simp)]
    rfl

/-- `u8` from an `Int32` of 255 and of 256. -/
example : decode (.int32 255) .u8 = .ok (.int 255) := by kernel_decide
example : decode (.int32 256) .u8 = .error .serde := by kernel_decide
example : decode (.int64 (-1)) .u64 = .error .serde := by kernel_decide

/-! ## C54: what becomes what -/

/-- **C54** Which values that are no objects become which scalars. -/
theorem C54_bool (v : Value) (d : Dyn) (hv : ∀ c l m, v ≠ .object c l m) :
    decode v .bool = .ok d ↔ ∃ b, v = .boolean b ∧ d = .bool b := by
  cases v
  case object c l m => exact absurd rfl (hv c l m)
  case null => rw [decode, valueDeser]; simp [Deser.run, accept]
  all_goals (rw [decode_plain (by rw [valueDeser]) (by simp)]; simp [accept, eq_comm])

theorem C54_int (v : Value) (d : Dyn) (lo hi : Int) (hv : ∀ c l m, v ≠ .object c l m) :
    decode v (.int lo hi) = .ok d ↔ ∃ n, v.integer? = some n ∧ lo ≤ n ∧ n ≤ hi ∧ d = .int n := by
  by_cases h : ∃ n, v.integer? = some n
  · obtain ⟨n, hn⟩ := h
    rw [C52 v n hn, hn]
    by_cases hr : lo ≤ n ∧ n ≤ hi
    · rw [if_pos hr]
      constructor
      · intro h; cases h; exact ⟨n, rfl, hr.1, hr.2, rfl⟩
      · rintro ⟨m, hm, _, _, rfl⟩; cases hm; rfl
    · rw [if_neg hr]
      constructor
      · intro h; cases h
      · rintro ⟨m, hm, h1, h2, rfl⟩; cases hm; exact absurd ⟨h1, h2⟩ hr
  · have hno : ∀ n, v.integer? ≠ some n := fun n hn => h ⟨n, hn⟩
    constructor
    · intro hd
      exfalso
      cases v
      case object c l m => exact hv c l m rfl
      case null => rw [decode, valueDeser] at hd; cases hd
      all_goals first
        | exact hno _ rfl
        | (rw [decode_plain (by rw [valueDeser]) (by simp)] at hd; cases hd)
    · rintro ⟨n, hn, _⟩; exact absurd hn (hno n)

/-- **C54** `&str` only from strings. -/
theorem C54_str (v : Value) (d : Dyn) (hv : ∀ c l m, v ≠ .object c l m) :
    decode v .str = .ok d ↔ ∃ s, v = .string s ∧ d = .str s := by
  cases v
  case object c l m => exact absurd rfl (hv c l m)
  case null => rw [decode, valueDeser]; simp [Deser.run, accept]
  all_goals (rw [decode_plain (by rw [valueDeser]) (by simp)]; simp [accept, eq_comm])

/-- **C54** `String` from strings, decimals (as text) and characters. -/
theorem C54_string (v : Value) (d : Dyn) (hv : ∀ c l m, v ≠ .object c l m) :
    decode v .string = .ok d ↔ (∃ s, v = .string s ∧ d = .str s) ∨ (∃ x, v = .decimal x ∧ d = .str (Platform.decimalToStr x)) ∨
      ∃ c, v = .char c ∧ d = .str (String.utf8EncodeChar (Char.ofNat c)) := by
  cases v
  case object c l m => exact absurd rfl (hv c l m)
  case null => rw [decode, valueDeser]; simp [Deser.run, accept]
  all_goals (rw [decode_plain (by rw [valueDeser]) (by simp)]; simp [accept, eq_comm])

/-- **C54** `()` only from null. -/
theorem C54_unit (v : Value) (d : Dyn) (hv : ∀ c l m, v ≠ .object c l m) :
    decode v .unit = .ok d ↔ v = .null ∧ d = .unit := by
  cases v
  case object c l m => exact absurd rfl (hv c l m)
  case null => rw [decode, valueDeser]; simp [Deser.run, accept, eq_comm]
  all_goals (rw [decode_plain (by rw [valueDeser]) (by simp)]; simp [accept])

/-- **C54** `f64` from doubles (unchanged), singles and integers; never from strings or decimals. -/
theorem C54_f64 (v : Value) (d : Dyn) (hv : ∀ c l m, v ≠ .object c l m) :
    decode v .f64 = .ok d ↔ (∃ b, v = .double b ∧ d = .f64 b) ∨ (∃ b, v = .single b ∧ d = .f64 (FloatLib.f64OfF32 b)) ∨
      ∃ n, v.integer? = some n ∧ d = .f64 (FloatLib.f64OfInt n) := by
  cases v
  case object c l m => exact absurd rfl (hv c l m)
  case null => rw [decode, valueDeser]; simp [Deser.run, accept, Value.integer?]
  all_goals (rw [decode_plain (by rw [valueDeser]) (by simp)]; simp [accept, eq_comm, Value.integer?])

/-- **C54** `f32` from singles (unchanged), doubles and integers. -/
theorem C54_f32 (v : Value) (d : Dyn) (hv : ∀ c l m, v ≠ .object c l m) :
    decode v .f32 = .ok d ↔ (∃ b, v = .single b ∧ d = .f32 b) ∨ (∃ b, v = .double b ∧ d = .f32 (FloatLib.f32OfF64 b)) ∨
      ∃ n, v.integer? = some n ∧ d = .f32 (FloatLib.f32OfInt n) := by
  cases v
  case object c l m => exact absurd rfl (hv c l m)
  case null => rw [decode, valueDeser]; simp [Deser.run, accept, Value.integer?]
  all_goals (rw [decode_plain (by rw [valueDeser]) (by simp)]; simp [accept, eq_comm, Value.integer?])

/-- A result at a type of `boxTable` is of that type. -/
theorem decode_int_range {w : Value} {lo hi : Int} {x : Dyn} (h : decode w (.int lo hi) = .ok x) :
    ∃ n, x = .int n ∧ lo ≤ n ∧ n ≤ hi := by
  rw [show decode w (.int lo hi) = accept (.int lo hi) (valueDeser w).any from rfl] at h
  cases hc : (valueDeser w).any <;> rw [hc] at h <;> simp only [accept, reduceCtorEq] at h
  split at h
  · cases h; exact ⟨_, rfl, ‹_›⟩
  · cases h

theorem decode_bool_form {w : Value} {x : Dyn} (h : decode w .bool = .ok x) : ∃ b, x = .bool b := by
  rw [show decode w .bool = accept .bool (valueDeser w).any from rfl] at h
  cases hc : (valueDeser w).any <;> rw [hc] at h <;> simp only [accept, reduceCtorEq] at h
  cases h; exact ⟨_, rfl⟩

theorem decode_char_form {w : Value} {x : Dyn} (h : decode w .char = .ok x) : ∃ b, x = .char b := by
  rw [show decode w .char = accept .char (valueDeser w).any from rfl] at h
  cases hc : (valueDeser w).any <;> rw [hc] at h <;> simp only [accept, reduceCtorEq] at h
  · cases h; exact ⟨_, rfl⟩
  · unfold charOfStr at h; split at h <;> cases h; exact ⟨_, rfl⟩
  · unfold charOfStr at h; split at h <;> cases h; exact ⟨_, rfl⟩

theorem decode_f64_form {w : Value} {x : Dyn} (h : decode w .f64 = .ok x) : ∃ b, x = .f64 b := by
  rw [show decode w .f64 = accept .f64 (valueDeser w).any from rfl] at h
  cases hc : (valueDeser w).any <;> rw [hc] at h <;> simp only [accept, reduceCtorEq] at h <;>
    (cases h; exact ⟨_, rfl⟩)

theorem decode_f32_form {w : Value} {x : Dyn} (h : decode w .f32 = .ok x) : ∃ b, x = .f32 b := by
  rw [show decode w .f32 = accept .f32 (valueDeser w).any from rfl] at h
  cases hc : (valueDeser w).any <;> rw [hc] at h <;> simp only [accept, reduceCtorEq] at h <;>
    (cases h; exact ⟨_, rfl⟩)

/-- Everything a member of a boxed primitive can decode to is a primitive. -/
theorem boxedPrim_of_decode {name : Str} {P : Ty} {visit : Dyn → VCall Child} (ht : (name, P, visit) ∈ boxTable)
    {w : Value} {x : Dyn} (h : decode w P = .ok x) : ∃ s, BoxedPrim name P x s := by
  simp only [boxTable, List.mem_cons, Prod.mk.injEq, List.not_mem_nil, or_false] at ht
  rcases ht with ⟨rfl, rfl, rfl⟩ | ⟨rfl, rfl, rfl⟩ | ⟨rfl, rfl, rfl⟩ | ⟨rfl, rfl, rfl⟩ | ⟨rfl, rfl, rfl⟩ |
    ⟨rfl, rfl, rfl⟩ | ⟨rfl, rfl, rfl⟩ | ⟨rfl, rfl, rfl⟩ | ⟨rfl, rfl, rfl⟩ | ⟨rfl, rfl, rfl⟩ | ⟨rfl, rfl, rfl⟩ |
    ⟨rfl, rfl, rfl⟩
  · obtain ⟨b, rfl⟩ := decode_bool_form h; exact ⟨_, .boolean b⟩
  · obtain ⟨n, rfl, h1, h2⟩ := decode_int_range h
    obtain ⟨m, rfl⟩ := Int.eq_ofNat_of_zero_le h1
    exact ⟨_, .byte m (by omega)⟩
  · obtain ⟨n, rfl, h1, h2⟩ := decode_int_range h
    exact ⟨_, .sbyte n ⟨by omega, by omega⟩⟩
  · obtain ⟨c, rfl⟩ := decode_char_form h; exact ⟨_, .char c⟩
  · obtain ⟨b, rfl⟩ := decode_f64_form h; exact ⟨_, .double b⟩
  · obtain ⟨b, rfl⟩ := decode_f32_form h; exact ⟨_, .single b⟩
  · obtain ⟨n, rfl, h1, h2⟩ := decode_int_range h
    exact ⟨_, .int32 n ⟨by omega, by omega⟩⟩
  · obtain ⟨n, rfl, h1, h2⟩ := decode_int_range h
    obtain ⟨m, rfl⟩ := Int.eq_ofNat_of_zero_le h1
    exact ⟨_, .uint32 m (by omega)⟩
  · obtain ⟨n, rfl, h1, h2⟩ := decode_int_range h
    exact ⟨_, .int64 n ⟨by omega, by omega⟩⟩
  · obtain ⟨n, rfl, h1, h2⟩ := decode_int_range h
    obtain ⟨m, rfl⟩ := Int.eq_ofNat_of_zero_le h1
    exact ⟨_, .uint64 m (by omega)⟩
  · obtain ⟨n, rfl, h1, h2⟩ := decode_int_range h
    exact ⟨_, .int16 n ⟨by omega, by omega⟩⟩
  · obtain ⟨n, rfl, h1, h2⟩ := decode_int_range h
    obtain ⟨m, rfl⟩ := Int.eq_ofNat_of_zero_le h1
    exact ⟨_, .uint16 m (by omega)⟩

theorem unbox_ok {P : Ty} {ms : List (Str × Value)} {x : Dyn} (h : unbox P (entriesOf ms) = .ok x) :
    ∃ w, ms = [(lit "m_value", w)] ∧ decode w P = .ok x := by
  match ms with
  | [] => cases h
  | [(k, w)] =>
    rw [show entriesOf [(k, w)] = [(k, decode w)] from rfl] at h
    simp only [unbox, List.length_singleton, if_true] at h
    cases hw : decode w P with
    | error e => rw [hw] at h; cases h
    | ok d =>
      rw [hw] at h
      simp only at h
      split at h
      · rename_i hk; cases h; exact ⟨w, by rw [hk], hw⟩
      · cases h
  | m1 :: m2 :: ms => cases h

/-- **C54** An object becomes a scalar only if it is a boxed primitive, and then it becomes what that
primitive becomes (`C41` is the converse). -/
theorem C54_object (cls : Str) (lib : Option Str) (ms : List (Str × Value)) (T : Ty) (hT : T.Scalar) (d : Dyn)
    (h : decode (.object cls lib ms) T = .ok d) :
    lib = none ∧ ∃ name P x s w, BoxedPrim name P x s ∧ cls.takeWhile (· ≠ 96) = name ∧ ms = [(lit "m_value", w)] ∧
      decode w P = .ok x ∧ decode s T = .ok d := by
  have h1 : ∀ T', T ≠ .option T' := by cases hT <;> simp
  have h2 : ∀ fs, T ≠ .struct fs := by cases hT <;> simp
  rw [decode_object _ _ _ _ h1 h2] at h
  revert h
  refine objectAny_cases (fun c => accept T c = .ok d → _) cls lib (memberNodes ms) ?_ ?_ ?_
  · intro h; cases hT <;> cases h
  · intro name P visit ht hl hc h
    rw [entries_memberNodes] at h
    unfold unboxed at h
    cases hu : unbox P (entriesOf ms) with
    | error e => rw [hu] at h; simp only [accept_fail] at h; cases h
    | ok x =>
      rw [hu] at h
      simp only at h
      obtain ⟨w, rfl, hw⟩ := unbox_ok hu
      obtain ⟨s, hs⟩ := boxedPrim_of_decode ht hw
      refine ⟨hl, name, P, x, s, w, hs, hc, rfl, hw, ?_⟩
      obtain ⟨visit', ht', hv⟩ := hs.table
      have : visit' = visit := by
        rcases boxTable_visit ht with ⟨rfl, rfl⟩ | ⟨⟨a, b, rfl⟩, rfl⟩ | ⟨rfl, rfl⟩ | ⟨rfl, rfl⟩ | ⟨rfl, rfl⟩ <;>
          rcases boxTable_visit ht' with ⟨h, rfl⟩ | ⟨⟨a, b, h⟩, rfl⟩ | ⟨h, rfl⟩ | ⟨h, rfl⟩ | ⟨h, rfl⟩ <;>
            first | rfl | cases h
      subst this
      show (valueDeser s).run T = _
      rw [run_plain _ _ h1 h2, hv]
      exact h
  · intro hl hc h
    exfalso
    cases hm : listMembers (memberNodes ms) with
    | none => rw [hm] at h; simp only [accept_fail] at h; cases h
    | some p => rw [hm] at h; cases hT <;> cases h

/-- Enums cannot be deserialised from anything. -/
theorem C54_enum (v : Value) : ∃ e, decode v .enum = .error e := by
  show ∃ e, accept .enum (valueDeser v).any = .error e
  cases (valueDeser v).any <;> exact ⟨_, rfl⟩

end Nrbf
