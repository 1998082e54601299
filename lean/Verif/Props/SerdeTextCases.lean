import Verif.Props.SerdeText
import Verif.TestsSerde

/-! # C64: concrete cases -/

set_option autoImplicit false

namespace Nrbf

open Spec Tests

variable [Platform] [FloatLib]

omit [FloatLib] in
/-- A string is sane. -/
theorem sane_string {s : Str} (h : utf8Valid s = true) : Sane (.string s) := by
  intro u hu
  cases hu
  refine ⟨trivial, trivial, ?_, ?_, ?_⟩
  · intro s' he; cases he; exact (utf8Valid_iff _).mp h
  · intro d he; cases he
  · rintro items size ⟨_, _, _, he, _⟩; cases he

omit [FloatLib] in
/-- An object with sane members is sane, if it is not a list. -/
theorem sane_object {c : Str} {l : Option Str} {ms : List (Str × Value)} (hl : l ≠ none) (hn : (ms.map Prod.fst).Nodup)
    (h : ∀ m ∈ ms, Sane m.2) : Sane (.object c l ms) := by
  intro u hu
  generalize hv : Value.object c l ms = v at hu
  cases hu with
  | refl =>
    cases hv
    refine ⟨trivial, hn, (fun _ he => Value.noConfusion he), (fun _ he => Value.noConfusion he), ?_⟩
    rintro items size ⟨_, _, _, he, _⟩
    cases he
    exact absurd rfl hl
  | item => cases hv
  | member hm hu => cases hv; exact h _ hm u hu

/-- An object of a class `P` with the members `a` and `b`, both strings. -/
def twoBad : Value := .object (lit "P") (some (lit "Lib")) [(lit "a", .string (lit "x")), (lit "b", .string (lit "y"))]

/-- `struct P { a: i32, b: i32 }` -/
def intPair : RTy := .struct (lit "P") [(lit "a", .int .i32), (lit "b", .int .i32)]

/-- The value and the type meet the hypotheses of `C64` and `C64_total`. -/
theorem twoBad_case : Sane twoBad ∧ intPair.erase.Proper := by
  refine ⟨sane_object (by simp) (by decide) ?_, ?_⟩
  · intro m hm
    simp only [List.mem_cons, List.not_mem_nil, or_false] at hm
    rcases hm with rfl | rfl
    · exact sane_string (by decide)
    · exact sane_string (by decide)
  · simp only [intPair, RTy.erase, RTy.eraseFields]
    refine .struct (by simp [lit]) ?_
    intro f hf
    simp only [List.mem_cons, List.not_mem_nil, or_false] at hf
    rcases hf with rfl | rfl <;> exact .int _ _

/-- Two members are bad: each of the two reports occurs for some order of the members. -/
example (k s : Str) (h : (k, Value.string s) ∈ [(lit "a", Value.string (lit "x")), (lit "b", .string (lit "y"))]) :
    ∃ v', Same twoBad v' ∧ decodeR v' intPair = .error (.invalidType (.str s) (lit "i32")) := by
  refine (C64 twoBad twoBad_case.1 intPair twoBad_case.2 _).mp (.field (k := k) (T := .int .i32) h ?_ ?_)
  · simp only [List.mem_cons, List.not_mem_nil, or_false, Prod.mk.injEq] at h
    rcases h with ⟨rfl, -⟩ | ⟨rfl, -⟩ <;> simp
  · exact .kind (v := .string s) trivial (by simp) (fun h => h rfl)

/-- In the order in which they are given, the first one is reported. -/
example [TextLib] : ∃ r, decodeR twoBad intPair = .error r ∧
    r.text = lit "invalid type: string " ++ TextLib.strDebug (lit "x") ++ lit ", expected i32" := by
  refine ⟨.invalidType (.str (lit "x")) (lit "i32"), ?_, ?_⟩
  · each_platform <;> rfl
  · show lit "invalid type: " ++ (lit "string " ++ TextLib.strDebug (lit "x")) ++ lit ", expected " ++ lit "i32" = _
    simp only [List.append_assoc]
    rfl

/-- `/repo/tests/array_single_primitive.rs:33-36`: the text of the error. -/
example [TextLib] : ∃ r, fromSliceR (.array 1 (.int .i64)) Input.arraySinglePrimitive = .err r ∧
    r.text = lit "invalid length 2, expected 1 element in array" :=
  ⟨.invalidLength 2 (lit "1 element in array"), by each_platform <;> kernel_decide, rfl⟩

/-- `/repo/tests/array_single_primitive.rs:38-41`: the text of the error. -/
example [TextLib] : ∃ r, fromSliceR (.array 3 (.int .i64)) Input.arraySinglePrimitive = .err r ∧
    r.text = lit "invalid length 2, expected an array of length 3" :=
  ⟨.invalidLength 2 (lit "an array of length 3"), by each_platform <;> kernel_decide, rfl⟩

/-- A case of `C64_array_length`: two numbers that are read as `[i64; 3]`. -/
example : ∀ u ∈ [Value.int64 67, .int64 42].take 3, Reads u (.int .i64) := by
  intro u hu
  simp only [List.take_succ_cons, List.take_nil, List.mem_cons, List.not_mem_nil, or_false] at hu
  rcases hu with rfl | rfl
  · exact ⟨_, .int rfl (by simp [IntTy.min]) (by simp [IntTy.max])⟩
  · exact ⟨_, .int rfl (by simp [IntTy.min]) (by simp [IntTy.max])⟩

/-- A missing field. -/
example : fromSliceR (.struct (lit "Int") [(ascii "m_value", .int .i32), (lit "other", .int .u8)]) Input.int32 =
    .err (.missingField (lit "other")) := by each_platform <;> kernel_decide

/-- A number that does not fit. -/
example [TextLib] : ∃ r, fromSliceR (.int .u8) Input.int32 = .err r ∧
    r.text = lit "invalid value: integer `-1`, expected u8" :=
  ⟨.invalidValue (.int (-1)) (lit "u8"), by each_platform <;> kernel_decide, rfl⟩

/-- Empty data. -/
example : fromSliceR (.int .u8) [] = .err (.parsing ⟨[], .expectedRecordType .serializedStreamHeader⟩) := by rfl

end Nrbf
