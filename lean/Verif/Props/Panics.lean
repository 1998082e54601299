import Verif.Lemmas.PanicsKnot
import Verif.Props.Panic
import Verif.Props.Reports
import Verif.Props.SerdeValues

/-! # C61: exactly which input makes the parser panic -/

set_option autoImplicit false

namespace Nrbf
open Spec
open Tests (header)

variable [Platform]

/-- **C61** The parser panics exactly on the inputs that are `Panics`: reading comes upon an array that
cannot be reshaped, at whatever depth. -/
theorem C61_panics (w : Bytes) : deserialize w = .panic ↔ Panics w := deserialize_panics w

/-- **C61** Every input is accepted, or rejected, or makes the parser panic. -/
theorem C61_complete (w : Bytes) : (∃ c, Accepted w c) ∨ (∃ e, Rejected w e) ∨ Panics w := by
  simp only [← C60_accepted, ← C60_rejected, ← C61_panics]
  have := C01_terminates w
  cases h : deserialize w with
  | hang => exact absurd h this
  | _ => simp

/-- **C61** No two of these at once. -/
theorem C61_exclusive (w : Bytes) :
    ((∃ c, Accepted w c) → ¬ Panics w) ∧ ((∃ e, Rejected w e) → ¬ Panics w) := by
  simp only [← C60_accepted, ← C60_rejected, ← C61_panics]
  constructor <;> rintro ⟨_, h⟩ h' <;> rw [h] at h' <;> cases h'

/-- **C61** `from_slice` panics exactly on the same inputs, whatever the type. -/
theorem C61_from_slice [FloatLib] (T : Ty) (w : Bytes) : fromSlice T w = .panic ↔ Panics w := by
  rw [← C61_panics]
  unfold fromSlice
  cases h : deserialize w with
  | ok m =>
    simp only
    refine ⟨fun h' => ?_, nofun⟩
    split at h' <;> cases h'
  | _ => simp

/-! ## Concrete cases -/

theorem panicking_record : PanicRecord Env.empty [7, 1,0,0,0, 2, 2,0,0,0, 2,0,0,0, 2,0,0,0, 2,
    13, 2, 10, 10, 10, 11] := .shape panicking_bad

/-- At the top level. -/
example : Panics panicking :=
  .record (isHeader_header 1 (by decide)) ⟨Env.empty, _, .nil, panicking_record⟩

/-- An array of one element that refers to the bad array. -/
def nestedPanic : Bytes := header 2 ++ ([16, 2,0,0,0, 1,0,0,0] ++ [9, 1,0,0,0, 7, 1,0,0,0, 2, 2,0,0,0, 2,0,0,0, 2,0,0,0, 2,
    13, 2, 10, 10, 10, 11])

theorem C61_nested : Panics nestedPanic := by
  refine .record (isHeader_header 2 (by decide)) ⟨Env.empty, _, .nil, ?_⟩
  refine .objectArrayReferences (b := [16, 2,0,0,0, 1,0,0,0]) (id := 2) (len := 1) (slots := [.ref 1]) (E1 := Env.empty)
    ?_ ?_ (.record rfl panicking_record)
  · exact ⟨[2,0,0,0], [1,0,0,0], ⟨by decide, by decide, rfl⟩, ⟨by decide, rfl⟩, rfl⟩
  · exact .step (by decide) (.reference (b := [9, 1,0,0,0]) (.none (noLibrary_of (by decide)))
      ⟨[1,0,0,0], ⟨by decide, by decide, rfl⟩, rfl⟩) .done

example : deserialize nestedPanic = .panic := (C61_panics _).mpr C61_nested

/-- The model computes the same. -/
example : deserialize nestedPanic = .panic := by platform_decide

/-- The array is met inside an untyped class member that refers to it. -/
example : Panics (header 5 ++ ([4, 5,0,0,0, 1,65, 1,0,0,0, 1,120, 2,
    9, 1,0,0,0, 7, 1,0,0,0, 2, 2,0,0,0, 2,0,0,0, 2,0,0,0, 2, 13, 2, 10, 10, 10, 11])) :=
  (C61_panics _).mp (by platform_decide)

/-- An array of the same shape whose nulls are counted right is accepted, hence is not in the judgement. -/
example : ¬ Panics (header 1 ++ [7, 1,0,0,0, 2, 2,0,0,0, 2,0,0,0, 2,0,0,0, 2, 10, 10, 10, 10, 11]) := by
  rw [← C61_panics]
  platform_decide

end Nrbf
