import Verif.Model.BinaryParser

/-! # Decidable equality of values

Not part of the crate's code (it derives `PartialEq`); used to let the kernel evaluate concrete
examples.  Floats are compared by bit pattern here, unlike `PartialEq`. -/

namespace Nrbf

mutual
/-- Structural equality test. -/
def Value.beq : Value → Value → Bool
  | .object c l ms, .object c' l' ms' => c == c' && (l == l' && Value.beqM ms ms')
  | .array vs, .array vs' => Value.beqL vs vs'
  | .boolean a, .boolean b => a == b
  | .byte a, .byte b => a == b
  | .char a, .char b => a == b
  | .decimal a, .decimal b => decide (a = b)
  | .double a, .double b => a == b
  | .int16 a, .int16 b => a == b
  | .int32 a, .int32 b => a == b
  | .int64 a, .int64 b => a == b
  | .sbyte a, .sbyte b => a == b
  | .single a, .single b => a == b
  | .timeSpan a, .timeSpan b => a == b
  | .dateTime a, .dateTime b => a == b
  | .uint16 a, .uint16 b => a == b
  | .uint32 a, .uint32 b => a == b
  | .uint64 a, .uint64 b => a == b
  | .string a, .string b => a == b
  | .null, .null => true
  | _, _ => false
/-- Structural equality test on lists of values. -/
def Value.beqL : List Value → List Value → Bool
  | [], [] => true
  | v :: vs, v' :: vs' => Value.beq v v' && Value.beqL vs vs'
  | _, _ => false
/-- Structural equality test on members. -/
def Value.beqM : List (Str × Value) → List (Str × Value) → Bool
  | [], [] => true
  | (n, v) :: ms, (n', v') :: ms' => n == n' && (Value.beq v v' && Value.beqM ms ms')
  | _, _ => false
end

mutual
theorem Value.beq_iff : ∀ a b : Value, Value.beq a b = true ↔ a = b
  | .object c l ms, b => by
    cases b <;> simp [Value.beq, Value.beqM_iff ms]
  | .array vs, b => by cases b <;> simp [Value.beq, Value.beqL_iff vs]
  | .boolean _, b => by cases b <;> simp [Value.beq]
  | .byte _, b => by cases b <;> simp [Value.beq]
  | .char _, b => by cases b <;> simp [Value.beq]
  | .decimal _, b => by cases b <;> simp [Value.beq]
  | .double _, b => by cases b <;> simp [Value.beq]
  | .int16 _, b => by cases b <;> simp [Value.beq]
  | .int32 _, b => by cases b <;> simp [Value.beq]
  | .int64 _, b => by cases b <;> simp [Value.beq]
  | .sbyte _, b => by cases b <;> simp [Value.beq]
  | .single _, b => by cases b <;> simp [Value.beq]
  | .timeSpan _, b => by cases b <;> simp [Value.beq]
  | .dateTime _, b => by cases b <;> simp [Value.beq]
  | .uint16 _, b => by cases b <;> simp [Value.beq]
  | .uint32 _, b => by cases b <;> simp [Value.beq]
  | .uint64 _, b => by cases b <;> simp [Value.beq]
  | .string _, b => by cases b <;> simp [Value.beq]
  | .null, b => by cases b <;> simp [Value.beq]
theorem Value.beqL_iff : ∀ a b : List Value, Value.beqL a b = true ↔ a = b
  | [], b => by cases b <;> simp [Value.beqL]
  | v :: vs, b => by cases b <;> simp [Value.beqL, Value.beq_iff v, Value.beqL_iff vs]
theorem Value.beqM_iff : ∀ a b : List (Str × Value), Value.beqM a b = true ↔ a = b
  | [], b => by cases b <;> simp [Value.beqM]
  | (n, v) :: vs, b => by
    cases b with
    | nil => simp [Value.beqM]
    | cons h t =>
      obtain ⟨n', v'⟩ := h
      simp [Value.beqM, Value.beq_iff v, Value.beqM_iff vs, and_assoc]
end

instance : DecidableEq Value := fun a b => decidable_of_iff _ (Value.beq_iff a b)

deriving instance DecidableEq for Object, MethodCall, MethodReturn, RemotingMessage, ValueOrRef, St,
  Loop, ApiResult

end Nrbf
