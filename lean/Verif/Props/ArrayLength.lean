import Verif.Props.Size
import Verif.Props.Safety

/-! # C81: how long an array can get -/

set_option autoImplicit false

namespace Nrbf
open Spec Tests
variable [Platform]

/-- **C81** No array in an accepted input has more than (2^31 - 1)² elements. -/
theorem C81 {w : Bytes} {m : RemotingMessage} (h : deserialize w = .ok m) {vs : List Value}
    (hv : ValueIn (.array vs) m) : vs.length ≤ (2 ^ 31 - 1) * (2 ^ 31 - 1) :=
  ((message_wf h).2 _ hv).2.2.2.2.2 vs rfl

/-- **C81** Nor has a method call, or a method return, more arguments than that. -/
theorem C81_args {w : Bytes} {m : RemotingMessage} (h : deserialize w = .ok m) {vs : List Value}
    (hv : (∃ c, m = .methodCall c ∧ c.args = some vs) ∨ ∃ r, m = .methodReturn r ∧ r.args = some vs) :
    vs.length ≤ (2 ^ 31 - 1) * (2 ^ 31 - 1) := by
  have hg := deserialize_good (polWF w) (polWF_arrayInv w)
  rw [h] at hg
  rcases hv with ⟨c, rfl, ha⟩ | ⟨r, rfl, ha⟩
  · exact (hg.2.2.2 vs ha).1 (polWF_short w)
  · exact (hg.2.2 vs ha).1 (polWF_short w)

/-- The bytes of `k` runs of `n` nulls. -/
def nullRuns (n : Nat) : Nat → Bytes
  | 0 => []
  | k + 1 => 14 :: le 4 n ++ nullRuns n k

omit [Platform] in
theorem nullRuns_length (n k : Nat) : (nullRuns n k).length = 5 * k := by
  induction k with
  | zero => rfl
  | succ k ih => simp [nullRuns, le_length, ih]; omega

theorem nullRuns_members {n : Nat} (h0 : 0 < n) (h : n < 2 ^ 31) (E : Env) (k : Nat) (r : Bytes) :
    Members (List.replicate k (some .stringArray)) E (nullRuns n k ++ r) (List.replicate k (.nulls n)) E r := by
  induction k with
  | zero => exact .nil
  | succ k ih =>
    rw [List.replicate_succ, List.replicate_succ]
    refine .cons (.stringArrayNulls (b := 14 :: le 4 n) (.none (.inl (by simp [nullRuns]))) (.inr (.inl ⟨h0, h, rfl⟩))) ?_
    exact ih

theorem nullRuns_resolve (n : Nat) (E : Env) (k : Nat) (i : Bytes) :
    Resolve (List.replicate k (.nulls n)) E i (List.replicate (k * n) .null) E i := by
  induction k with
  | zero => simp only [List.replicate_zero, Nat.zero_mul]; exact .nil
  | succ k ih =>
    rw [List.replicate_succ, Nat.succ_mul, Nat.add_comm, ← List.replicate_append_replicate]
    exact .nulls ih

omit [Platform] in
theorem shapedAll_flat (vs : List Value) : ShapedAll [] vs vs := by
  induction vs with
  | nil => exact .nil
  | cons v vs ih => exact ShapedAll.cons (l1 := [v]) .leaf ih

/-- The start of an array of `k` records. -/
def longHead (k : Nat) : Bytes := 7 :: [1,0,0,0] ++ [0] ++ [1,0,0,0] ++ le 4 k ++ [] ++ [6] ++ []

omit [Platform] in
theorem longHead_ok {k : Nat} (h : k < 2 ^ 31) : IsBinaryArrayHead 1 .single [k] .stringArray (longHead k) :=
  ⟨[1,0,0,0], [1,0,0,0], le 4 k, [], [], ⟨by decide, by decide, rfl⟩, ⟨show 1 < 2 ^ 31 by decide, show [1,0,0,0] = le 4 1 by decide⟩,
    ⟨le 4 k, [], ⟨h, rfl⟩, rfl, by simp⟩, fun h => h.elim, fun _ => rfl, rfl, rfl⟩

theorem long_message {k n : Nat} (hn0 : 0 < n) (hk : k < 2 ^ 31) (hn : n < 2 ^ 31) :
    Message (header 1 ++ (longHead k ++ (nullRuns n k ++ [11]))) (.value (.array (List.replicate (k * n) .null))) := by
  have hr : Record Env.empty (longHead k ++ (nullRuns n k ++ [11])) 1 (.array (List.replicate (k * n) .null))
      Env.empty [11] := by
    refine .array (longHead_ok hk) (n := k) ?_ (nullRuns_members hn0 hn _ k [11]) (nullRuns_resolve n _ k _) ?_
    · simp only [productUsize, Nat.one_mul]
      rw [if_pos]
      rcases usizeBits_cases with h | h <;> rw [h] <;> omega
    · unfold Rows
      split
      · assumption
      · exact shapedAll_flat _
  exact .mk (root := 1) (isHeader_header 1 (by decide)) (.cons hr .nil) (.value (.inr ⟨by decide, by simp [Env.add]⟩))

/-- **C81** Every such length is reached: `k` records of five bytes are read as `k * n` nulls, for any `k` and `n`
below 2^31. -/
theorem C81_reached (k n : Nat) (hn0 : 0 < n) (hk : k < 2 ^ 31) (hn : n < 2 ^ 31) :
    ∃ w : Bytes, w.length = 5 * k + 33 ∧ deserialize w = .ok (.value (.array (List.replicate (k * n) .null))) := by
  refine ⟨_, ?_, deserialize_complete (long_message hn0 hk hn)⟩
  simp only [List.length_append, nullRuns_length, longHead, header, List.length_cons, List.length_nil, le_length]
  omega

/-- **C81** The bound is exact. -/
theorem C81_exact : ∃ w vs, deserialize w = .ok (.value (.array vs)) ∧ vs.length = (2 ^ 31 - 1) * (2 ^ 31 - 1) := by
  obtain ⟨w, -, h⟩ := C81_reached (2 ^ 31 - 1) (2 ^ 31 - 1) (by omega) (by omega) (by omega)
  exact ⟨w, _, h, List.length_replicate ..⟩

/-- 48 bytes, three million nulls. -/
example : ∃ w : Bytes, w.length = 48 ∧
    deserialize w = .ok (.value (.array (List.replicate 3000000 .null))) ∧
    (List.replicate 3000000 Value.null).length ≤ (2 ^ 31 - 1) * (2 ^ 31 - 1) := by
  obtain ⟨w, h1, h2⟩ := C81_reached 3 1000000 (by decide) (by decide) (by decide)
  exact ⟨w, h1, h2, C81 h2 ⟨_, List.mem_cons_self, .refl _⟩⟩

end Nrbf
