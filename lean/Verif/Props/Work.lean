import Verif.Lemmas.WorkSlow
import Verif.Lemmas.WorkReads
import Verif.Tactic.PlatformDecide

/-! # C62: how much work the parser does -/

set_option autoImplicit false

namespace Nrbf
open Spec
open Tests (header)

variable [Platform]

/-- **C62** The parser that counts its work gives the same results. -/
theorem C62_same (κ : Bytes → Nat) (w : Bytes) :
    (@parseRemotingMessageT ⟨κ⟩ _ St.init w).1 = parseRemotingMessage St.init w :=
  @message_same ⟨κ⟩ _ St.init w

/-- **C62** The number of attempts to read a record, the number of references that are looked up, and the number of
bytes that are consumed, taken together, are linear in the length of the input.  In particular nothing is read again and again when
records are nested. -/
theorem C62_attempts (w : Bytes) : work (fun _ => 1) w ≤ 100 * (w.length + 1) := work_le w

/-- **C62** If an attempt that fails looks at each of the remaining bytes at most once, the work is at most quadratic. -/
theorem C62_work {κ : Bytes → Nat} (h : ∀ i, κ i ≤ i.length + 1) (w : Bytes) :
    work κ w ≤ 100 * ((w.length + 1) * (w.length + 1)) := by
  have h1 := work_price (κ := κ) (K := w.length + 1) (w := w) (by omega) fun i hi => Nat.le_trans (h i) (by omega)
  refine Nat.le_trans h1 (Nat.le_trans (Nat.mul_le_mul_left _ (C62_attempts w)) ?_)
  rw [Nat.mul_left_comm]
  exact Nat.le_refl _

/-- **C62** (the count is not too small) Reading a message takes at least one step per byte. -/
theorem C62_reads (κ : Bytes → Nat) {w : Bytes} {m : RemotingMessage} (h : deserialize w = .ok m) : w.length ≤ work κ w := by
  unfold deserialize at h
  rw [← C62_same κ w] at h
  have h1 := @message_counts ⟨κ⟩ _ St.init w
  unfold work
  revert h h1
  generalize @parseRemotingMessageT ⟨κ⟩ _ St.init w = x
  obtain ⟨⟨o, s⟩, n⟩ := x
  cases o with
  | ok r a => exact fun _ h => h r a rfl
  | _ => intro h; cases h

/-- **C62** And it is quadratic: for every `k` (up to 13 millions) there is a message of at most `20 k` bytes and a
constant that is accepted, and on which validating names of libraries that are not there, alone, looks at `5 k (k - 1)`
bytes. -/
theorem C62_quadratic {κ : Bytes → Nat} (hκ : Validates κ) (k : Nat) (hk : k ≤ 13000000) :
    ∃ (w data : Bytes), deserialize w = .ok (.value (.array (data.map fun x => Value.byte x.toNat))) ∧
      w.length ≤ 20 * k + 3178610 ∧ 5 * (k * k) ≤ work κ w + 5 * k := by
  obtain ⟨d, hd⟩ : ∃ d, d = 10 * k / 2097152 + 1 := ⟨_, rfl⟩
  have hd64 : d < 64 := by omega
  have hL : blockLength d = 1081410 + 2097152 * d := rfl
  have hkL : 10 * k ≤ blockLength d := by omega
  have hlen : (blocks d k ++ 255 :: List.replicate (blockLength d) 0).length = 10 * k + (blockLength d + 1) := by
    simp only [List.length_append, List.length_cons, List.length_replicate, blocks_length]
  have hclear : Clear (blocks d k ++ 255 :: List.replicate (blockLength d) 0) [11] := by
    refine clear_append (blocks_clear hd64 hkL _) (clear_plain fun x hx => ?_)
    simp only [List.mem_cons, List.mem_replicate] at hx
    rcases hx with rfl | ⟨_, rfl⟩ <;> decide
  have hl : (blocks d k ++ 255 :: List.replicate (blockLength d) 0).length < 2 ^ 31 := by rw [hlen]; omega
  refine ⟨_, _, clear_accepted hclear hl, ?_, ?_⟩
  · simp only [List.length_append, hlen, byteArray, header, List.length_cons, List.length_nil, le_length]
    omega
  · refine Nat.le_trans ?_ (Nat.add_le_add_right (work_ge κ hclear hl) _)
    rw [misses_append]
    have := blocks_misses hκ hd64 hkL (t := List.replicate (blockLength d) 0 ++ [11]) (by simp)
    refine Nat.le_trans this ?_
    simp only [List.cons_append]
    omega

/-! ## Concrete cases -/

/-- There are such prices. -/
example : Validates List.length := by
  intro id bid n bn s t _ _ _ _ _
  simp
  omega

example : ∀ i : Bytes, i.length ≤ i.length + 1 := fun i => by omega

/-- Both bounds at once: with one million blocks, 23 MB, between 5·10¹² and 6·10¹⁶ steps. -/
example : ∃ w : Bytes, w.length ≤ 23178610 ∧ 4999995000000 ≤ work List.length w := by
  obtain ⟨w, _, _, h1, h2⟩ := C62_quadratic (κ := List.length) (by intro id bid n bn s t _ _ _ _ _; simp; omega) 1000000 (by decide)
  exact ⟨w, h1, by omega⟩

/-- A string: 27 bytes are consumed in three records and one root is looked up (31), after 39 attempts to read something else. -/
example : work (fun _ => 1) (header 1 ++ [6, 1,0,0,0, 3, 97, 98, 99] ++ [11]) = 70 := by kernel_decide

example : work (fun _ => 0) (header 1 ++ [6, 1,0,0,0, 3, 97, 98, 99] ++ [11]) = 31 := by kernel_decide

/-- A class with a reference to a string: the records take 18, 14, 6, 8 and 2 steps (bytes and one for each record), the
reference and the root are looked up; 45 attempts fail: 4 before the class, 2 before the reference, 11 before the string,
12 for each end of the list of records, 4 for a method. -/
example : work (fun _ => 0) (header 1 ++ [2, 1,0,0,0, 1,80, 1,0,0,0, 1,97, 9, 2,0,0,0, 6, 2,0,0,0, 1,120, 11]) = 50 := by platform_decide

example : work (fun _ => 1) (header 1 ++ [2, 1,0,0,0, 1,80, 1,0,0,0, 1,97, 9, 2,0,0,0, 6, 2,0,0,0, 1,120, 11]) = 95 := by platform_decide

/-- A class with a null, a string and a number as its members, with types: 5 attempts fail before it, 1 before each member, 6
more before the null, which is tried as a class. -/
example : work (fun _ => 0) (header 1 ++ [4, 1,0,0,0, 1,80, 3,0,0,0, 1,97, 1,98, 1,99, 3,1,0, 1,81, 8, 10, 6, 2,0,0,0, 1,120,
    5,0,0,0, 11]) = 60 := by platform_decide

example : work (fun _ => 1) (header 1 ++ [4, 1,0,0,0, 1,80, 3,0,0,0, 1,97, 1,98, 1,99, 3,1,0, 1,81, 8, 10, 6, 2,0,0,0, 1,120,
    5,0,0,0, 11]) = 102 := by platform_decide

/-- An array of two bytes: 10 attempts fail before it, 1 before each element. -/
example : work (fun _ => 0) (header 1 ++ [7, 1,0,0,0, 0, 1,0,0,0, 2,0,0,0, 0, 2, 5, 6, 11]) = 42 := by platform_decide

example : work (fun _ => 1) (header 1 ++ [7, 1,0,0,0, 0, 1,0,0,0, 2,0,0,0, 0, 2, 5, 6, 11]) = 82 := by platform_decide

/-- A method call without arguments: 1 attempt fails before it, and 2 for the call array. -/
example : work (fun _ => 0) (header 0 ++ [21, 17,0,0,0, 18,1,109, 18,1,116, 11]) = 33 := by platform_decide

example : work (fun _ => 1) (header 0 ++ [21, 17,0,0,0, 18,1,109, 18,1,116, 11]) = 60 := by platform_decide

end Nrbf
