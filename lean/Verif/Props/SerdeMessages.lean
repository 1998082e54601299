import Verif.Props.SerdeOrder

/-! # C55: from the bytes of a message to a Rust value -/

set_option autoImplicit false

namespace Nrbf

open Spec

variable [Platform] [FloatLib]

/-- **C55** A message of the grammar with the value `v` becomes what `v` becomes, for every type that is not
an option. -/
theorem C55 {w : Bytes} {v : Value} (h : Message w (.value v)) (T : Ty) (hT : ∀ T', T ≠ .option T') :
    fromSlice T w = .of (decode v T) :=
  C43_value T w v (C31_complete h) hT

/-- **C55** (string) `from_slice::<&str>` of a string message is the string. -/
theorem C55_str {id : Nat} {h b : Bytes} {s : Str} (hh : IsHeader id h) (hb : IsObjectString id s b) :
    fromSlice .str (h ++ b ++ [11]) = .ok (.str s) := by
  rw [C43_value .str _ _ (C49_string hh hb) (by simp), decode_plain (by rw [valueDeser]) (by simp)]
  rfl

/-- The elements of an array of `Int32`. -/
theorem allDecode_int32 (ns : List Int) (h : ∀ n ∈ ns, InSigned 4 n) :
    AllDecode .i32 (ns.map .int32) (ns.map .int) := by
  induction ns with
  | nil => exact .nil
  | cons n ns ih =>
    refine .cons ?_ (ih fun n hn => h n (by simp [hn]))
    have := h n (by simp)
    unfold InSigned at this
    rw [show Ty.i32 = .int (-2 ^ 31) (2 ^ 31 - 1) from rfl, C52 (.int32 n) n rfl, if_pos (by omega)]

theorem isSeq_range {ns : List Int} {b : Bytes} (h : IsSeq (IsPrimitive .int32) (ns.map .int32) b) :
    ∀ n ∈ ns, InSigned 4 n := by
  induction ns generalizing b with
  | nil => simp
  | cons n ns ih =>
    obtain ⟨b1, b2, h1, h2, _⟩ := h
    intro m hm
    rcases List.mem_cons.mp hm with rfl | hm
    · exact h1.1
    · exact ih h2 m hm

/-- **C55** (integers) `from_slice::<Vec<i32>>` of a message with an array of `Int32` are these numbers, in
order, whatever they are. -/
theorem C55_ints {id : Nat} {h b b2 : Bytes} {ns : List Int} (hh : IsHeader id h)
    (hb : IsPrimitiveArrayHead id ns.length .int32 b) (hns : IsSeq (IsPrimitive .int32) (ns.map .int32) b2) :
    fromSlice (.vec .i32) (h ++ b ++ b2 ++ [11]) = .ok (.seq (ns.map .int)) := by
  have hm := C49_primitive_array (vs := ns.map .int32) hh (by simpa using hb) hns
  rw [C43_value _ _ _ hm (by simp), (C44_vec _ _ _).mpr ⟨_, rfl, by simp, allDecode_int32 ns (isSeq_range hns)⟩]
  rfl

/-- **C55** (null) `from_slice::<Option<T>>` of a message without root object is `None`, and `()` is `()`. -/
theorem C55_null {h : Bytes} (hh : IsHeader 0 h) (T : Ty) :
    fromSlice (.option T) (h ++ [11]) = .ok .none ∧ fromSlice .unit (h ++ [11]) = .ok .unit := by
  refine ⟨(C42_root T _ _ (C49_null hh)).1 rfl, ?_⟩
  rw [C43_value _ _ _ (C49_null hh) (by simp)]
  show SliceResult.of ((valueDeser .null).run .unit) = _
  rw [valueDeser]; rfl

/-- The hypotheses of `C55_ints` are met, by the numbers -1 and 2. -/
example : ∃ h b b2 : Bytes, IsHeader 1 h ∧ IsPrimitiveArrayHead 1 [(-1 : Int), 2].length .int32 b ∧
    IsSeq (IsPrimitive .int32) ([(-1 : Int), 2].map .int32) b2 :=
  ⟨_, _, _, ⟨_, [255, 255, 255, 255], ⟨by decide, rfl⟩, rfl, rfl⟩, ⟨_, ⟨_, _, ⟨by decide, by decide, rfl⟩, ⟨by decide, rfl⟩, rfl⟩, rfl⟩,
    ⟨_, _, ⟨⟨by decide, by decide⟩, rfl⟩, ⟨_, _, ⟨⟨by decide, by decide⟩, rfl⟩, rfl, rfl⟩, rfl⟩⟩

end Nrbf
