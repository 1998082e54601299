import Verif.Lemmas.WidthGrammar
import Verif.Props.SerdeExact
import Verif.Props.Trace
import Verif.Props.Arrays
import Verif.Tactic.PlatformDecide

/-! # C63: 32-bit and 64-bit targets

All other theorems hold for both widths of `usize`.  Here the two are compared. -/

set_option autoImplicit false

namespace Nrbf

open Spec Tests

/-! ## Parsing -/

/-- **C63** On input without a BinaryArray head whose lengths multiply to between 32 and 64 bits, a 32-bit build and a
64-bit build do exactly the same: the same content, the same error at the same place, or the same panic. -/
theorem C63_same {P : Platform} {w : Bytes} (h : ¬ WidthMatters w) :
    @deserialize (P.on .bits32) w = @deserialize (P.on .bits64) w :=
  deserialize_on (sameLengths h)

/-- **C63** (up) A message that a 32-bit build reads is read by a 64-bit build, as the same content. -/
theorem C63_up {P : Platform} {w : Bytes} {m : RemotingMessage} (h : @Message (P.on .bits32) w m) :
    @deserialize (P.on .bits32) w = .ok m ∧ @deserialize (P.on .bits64) w = .ok m :=
  ⟨@C31_complete (P.on .bits32) _ _ h, @C31_complete (P.on .bits64) _ _ (@Message.on (P.on .bits32) _ _ _ carries_up h)⟩

/-- **C63** (down) A message of less than 4 GiB that a 64-bit build reads is read by a 32-bit build, as the same content,
unless an array in it has a length zero. -/
theorem C63_down {P : Platform} {w : Bytes} {m : RemotingMessage} (hw : w.length < 2 ^ 32) (hz : ¬ HasZeroLength w)
    (h : @Message (P.on .bits64) w m) :
    @deserialize (P.on .bits64) w = .ok m ∧ @deserialize (P.on .bits32) w = .ok m :=
  ⟨@C31_complete (P.on .bits64) _ _ h,
    @C31_complete (P.on .bits32) _ _ (@Message.on (P.on .bits64) _ _ _ (carries_down hw hz) h)⟩

/-- **C63** (without references) On input without references and less than 4 GiB, acceptance does not depend on the width
unless an array has a length zero. -/
theorem C63_accept {P : Platform} {w : Bytes} (hn : NoReference w) (hw : w.length < 2 ^ 32) (hz : ¬ HasZeroLength w)
    (m : RemotingMessage) : @deserialize (P.on .bits32) w = .ok m ↔ @deserialize (P.on .bits64) w = .ok m :=
  ⟨fun h => (C63_up ((@C29_no_references (P.on .bits32) _ hn m).mp h)).2,
    fun h => (C63_down hw hz ((@C29_no_references (P.on .bits64) _ hn m).mp h)).2⟩

/-- A byte array of 131072 x 131072 x 0 elements. -/
def wideArray : Bytes :=
  header 1 ++ ([7, 1,0,0,0, 2, 3,0,0,0, 0,0,2,0, 0,0,2,0, 0,0,0,0, 0, 2] ++ [11])

/-- **C63** (the exception is real) There is input that a 64-bit build accepts and a 32-bit build rejects. -/
theorem C63_differ (P : Platform) :
    @deserialize (P.on .bits64) wideArray = .ok (.value (.array [])) ∧
    @deserialize (P.on .bits32) wideArray =
      .err ⟨[7, 1,0,0,0, 2, 3,0,0,0, 0,0,2,0, 0,0,2,0, 0,0,0,0, 0, 2, 11], .invalidLength⟩ :=
  ⟨by kernel_decide, by kernel_decide⟩

/-! ## Deserialising -/

section
variable [A : Platform] [FloatLib] {v : PointerWidth}

omit [FloatLib] in
theorem asIs_on {x : Value} {d : Dyn} (h : x.asIs = some d) : @Value.asIs (A.on v) x = some d := by
  cases x <;> exact h

mutual
theorem Decodes.on {x : Value} {T : Ty} {d : Dyn} : Decodes x T d → @Decodes (A.on v) _ x T d
  | .bool b => @Decodes.bool (A.on v) _ b
  | .int h h1 h2 => @Decodes.int (A.on v) _ _ _ _ _ h h1 h2
  | .f32 b => @Decodes.f32 (A.on v) _ b
  | .f32OfDouble b => @Decodes.f32OfDouble (A.on v) _ b
  | .f32OfInteger h => @Decodes.f32OfInteger (A.on v) _ _ _ h
  | .f64 b => @Decodes.f64 (A.on v) _ b
  | .f64OfSingle b => @Decodes.f64OfSingle (A.on v) _ b
  | .f64OfInteger h => @Decodes.f64OfInteger (A.on v) _ _ _ h
  | .char c => @Decodes.char (A.on v) _ c
  | .charOfString c => @Decodes.charOfString (A.on v) _ c
  | .charOfDecimal d c h => @Decodes.charOfDecimal (A.on v) _ d c h
  | .str s => @Decodes.str (A.on v) _ s
  | .string s => @Decodes.string (A.on v) _ s
  | .stringOfDecimal d => @Decodes.stringOfDecimal (A.on v) _ d
  | .stringOfChar c => @Decodes.stringOfChar (A.on v) _ c
  | .unit => @Decodes.unit (A.on v) _
  | .none T => @Decodes.none (A.on v) _ T
  | .some h h1 => @Decodes.some (A.on v) _ _ _ _ h (Decodes.on h1)
  | .vec h h1 => @Decodes.vec (A.on v) _ _ _ _ _ h (DecodesAll.on h1)
  | .tuple h h1 => @Decodes.tuple (A.on v) _ _ _ _ _ h (DecodesEach.on h1)
  | .newtype h h1 => @Decodes.newtype (A.on v) _ _ _ _ _ h (Decodes.on h1)
  | .map h h1 => @Decodes.map (A.on v) _ _ _ _ _ _ h (EntriesDecode.on h1)
  | .struct h h1 => @Decodes.struct (A.on v) _ _ _ _ _ _ (FieldsDecode.on h) fun m hm hn => Decodes.on (h1 m hm hn)
  | .structOfArray h => @Decodes.structOfArray (A.on v) _ _ _ _ (DecodesEach.on h)
  | .boxed h h1 h2 h3 h4 h5 => @Decodes.boxed (A.on v) _ _ _ _ _ _ _ _ _ h h1 (Decodes.on h2) h3 h4 (Decodes.on h5)
  | .ignoredLeaf h => @Decodes.ignoredLeaf (A.on v) _ _ h
  | .ignoredElements h h1 => @Decodes.ignoredElements (A.on v) _ _ _ _ h (DecodesAll.on h1)
  | .ignoredMap h h1 => @Decodes.ignoredMap (A.on v) _ _ _ _ _ h (EntriesDecode.on h1)
  | .anyLeaf h => @Decodes.anyLeaf (A.on v) _ _ _ (asIs_on h)
  | .anyElements h h1 => @Decodes.anyElements (A.on v) _ _ _ _ h (DecodesAll.on h1)
  | .anyMap h h1 => @Decodes.anyMap (A.on v) _ _ _ _ _ h (EntriesDecode.on h1)
theorem DecodesAll.on {xs : List Value} {T : Ty} {ds : List Dyn} : DecodesAll xs T ds → @DecodesAll (A.on v) _ xs T ds
  | .nil T => @DecodesAll.nil (A.on v) _ T
  | .cons h h1 => @DecodesAll.cons (A.on v) _ _ _ _ _ _ (Decodes.on h) (DecodesAll.on h1)
theorem DecodesEach.on {xs : List Value} {Ts : List Ty} {ds : List Dyn} :
    DecodesEach xs Ts ds → @DecodesEach (A.on v) _ xs Ts ds
  | .nil => @DecodesEach.nil (A.on v) _
  | .cons h h1 => @DecodesEach.cons (A.on v) _ _ _ _ _ _ _ (Decodes.on h) (DecodesEach.on h1)
theorem EntriesDecode.on {ms : List (Str × Value)} {T : Ty} {ds : List (Str × Dyn)} :
    EntriesDecode ms T ds → @EntriesDecode (A.on v) _ ms T ds
  | .nil T => @EntriesDecode.nil (A.on v) _ T
  | .cons h h1 => @EntriesDecode.cons (A.on v) _ _ _ _ _ _ _ (Decodes.on h) (EntriesDecode.on h1)
theorem FieldsDecode.on {ms : List (Str × Value)} {fs : List (Str × Ty)} {ds : List (Str × Dyn)} :
    FieldsDecode ms fs ds → @FieldsDecode (A.on v) _ ms fs ds
  | .nil ms => @FieldsDecode.nil (A.on v) _ ms
  | .found h h1 h2 => @FieldsDecode.found (A.on v) _ _ _ _ _ _ _ _ h (Decodes.on h1) (FieldsDecode.on h2)
  | .missing h h1 => @FieldsDecode.missing (A.on v) _ _ _ _ _ _ h (FieldsDecode.on h1)
end

end

theorem decodes_on {P : Platform} [FloatLib] {u v : PointerWidth} {x : Value} {T : Ty} {d : Dyn} :
    @Decodes (P.on u) _ x T d ↔ @Decodes (P.on v) _ x T d :=
  ⟨fun h => @Decodes.on (P.on u) _ v _ _ _ h, fun h => @Decodes.on (P.on v) _ u _ _ _ h⟩

/-- **C63** (serde) Where parsing does not depend on the width, neither does what `from_slice` returns, for values
whose generic lists fit the memory of a 32-bit build. -/
theorem C63_from_slice {P : Platform} [FloatLib] {w : Bytes} (h : ¬ WidthMatters w)
    (hdec : ∀ x : Dec, IsUtf8 (P.decimalToStr x))
    (hbig : ∀ x, @deserialize (P.on .bits32) w = .ok (.value x) → ∀ u items size, SubValue u x → IsList u items size →
      items.length < 2 ^ 30)
    (T : Ty) (hT : T.Proper) (d : Dyn) :
    @fromSlice (P.on .bits32) _ T w = .ok d ↔ @fromSlice (P.on .bits64) _ T w = .ok d := by
  have he := C63_same (P := P) h
  cases h32 : @deserialize (P.on .bits32) w with
  | ok m =>
    rw [h32] at he
    cases m with
    | value x =>
      have hb := hbig x h32
      rw [@C58_root (P.on .bits32) _ w x h32 hdec (fun _ => hb) T hT d,
        @C58_root (P.on .bits64) _ w x he.symm hdec
          (fun h => absurd h (show ¬ (64 = 32) by decide)) T hT d]
      exact and_congr decodes_on Iff.rfl
    | methodCall c => simp [@C43_call (P.on .bits32) _ T w c h32, @C43_call (P.on .bits64) _ T w c he.symm]
    | methodReturn c => simp [@C43_return (P.on .bits32) _ T w c h32, @C43_return (P.on .bits64) _ T w c he.symm]
  | err e =>
    rw [h32] at he
    simp [@C43_malformed (P.on .bits32) _ T w e h32, @C43_malformed (P.on .bits64) _ T w e he.symm]
  | panic =>
    rw [h32] at he
    unfold fromSlice; rw [h32, ← he]
  | hang =>
    rw [h32] at he
    unfold fromSlice; rw [h32, ← he]

/-! ## Concrete cases -/

/-- A BinaryArray head somewhere in the input is found by parsing at every place. -/
theorem head_parsed {w : Bytes} {id : Nat} {kind : BinaryArrayType} {lengths : List Nat} {T : MemberType}
    {b : Bytes} (hb : IsBinaryArrayHead id kind lengths T b) (hi : b <:+: w) :
    ∃ k ∈ List.range (w.length + 1), ∃ r a, BinaryArray.parse (w.drop k) = .ok r a ∧ a.lengths = lengths := by
  obtain ⟨p, q, rfl⟩ := hi
  obtain ⟨bid, brank, blens, bbounds, binfo, h1, h2, h3, h4, h5, h6, rfl⟩ := hb
  refine ⟨p.length, by simp; omega, q, ?_⟩
  rw [List.append_assoc p, List.drop_left]
  by_cases hk : hasLowerBounds kind
  · obtain ⟨bounds, h7, h8⟩ := h4 hk
    exact ⟨⟨id, kind, lengths, some bounds, binaryType T, typeInfo T⟩, (binaryArray_exact _ _ _).mpr
      ⟨_, ⟨T, rfl, rfl, bid, brank, blens, bbounds, binfo, h1, h2, h3, fun _ => ⟨bounds, rfl, h7, h8⟩,
        fun h => absurd hk h, h6, rfl⟩, rfl⟩, rfl⟩
  · exact ⟨⟨id, kind, lengths, none, binaryType T, typeInfo T⟩, (binaryArray_exact _ _ _).mpr
      ⟨_, ⟨T, rfl, rfl, bid, brank, blens, bbounds, binfo, h1, h2, h3, fun h => absurd h hk,
        fun h => ⟨rfl, h5 h⟩, h6, rfl⟩, rfl⟩, rfl⟩

/-- All lengths of all BinaryArray heads satisfy a test. -/
def allHeads (test : List Nat → Bool) (w : Bytes) : Bool :=
  (List.range (w.length + 1)).all fun k => match BinaryArray.parse (w.drop k) with
    | .ok _ a => test a.lengths
    | _ => true

theorem allHeads_spec {test : List Nat → Bool} {w : Bytes} (h : allHeads test w = true) {id : Nat}
    {kind : BinaryArrayType} {lengths : List Nat} {T : MemberType} {b : Bytes}
    (hb : IsBinaryArrayHead id kind lengths T b) (hi : b <:+: w) : test lengths = true := by
  obtain ⟨k, hm, r, a, hp, rfl⟩ := head_parsed hb hi
  have := List.all_eq_true.mp h k hm
  rw [hp] at this
  exact this

/-- The message with the 2 x 3 array of bytes. -/
def matrixMessage : Bytes :=
  header 1 ++ ([7, 1,0,0,0, 2, 2,0,0,0, 2,0,0,0, 3,0,0,0, 0, 2] ++ [21, 22, 23, 24, 25, 26, 11])

theorem matrix_width : ¬ WidthMatters matrixMessage := by
  rintro ⟨id, kind, lengths, T, b, hb, hi, ⟨k, hk⟩, _⟩
  have h := allHeads_spec (test := fun ls => ls = [2, 3]) (by kernel_decide) hb hi
  simp only [decide_eq_true_eq] at h
  subst h
  match k with
  | 0 => exact absurd hk (by decide)
  | 1 => exact absurd hk (by decide)
  | k + 2 => exact absurd hk (by simp [product])

theorem matrix_nonzero : ¬ HasZeroLength matrixMessage := by
  rintro ⟨id, kind, lengths, T, b, hb, hi, h0⟩
  have h := allHeads_spec (test := fun ls => ls = [2, 3]) (by kernel_decide) hb hi
  simp only [decide_eq_true_eq] at h
  subst h
  exact absurd h0 (by decide)

/-- The hypotheses of `C63_same`, `C63_up`, `C63_down` and `C63_from_slice` are met by a 2 x 3 array of bytes. -/
example (P : Platform) : @deserialize (P.on .bits32) matrixMessage = .ok (.value matrix) ∧
    @deserialize (P.on .bits64) matrixMessage = .ok (.value matrix) := by
  have h : @deserialize (P.on .bits32) matrixMessage = .ok (.value matrix) :=
    @deserialize_one (P.on .bits32) _ _ (@matrix_accepted (P.on .bits32))
  exact ⟨h, C63_same matrix_width ▸ h⟩

example (P : Platform) : @deserialize (P.on .bits32) matrixMessage = .ok (.value matrix) := by
  obtain ⟨E, h⟩ := (@accepts_iff (P.on .bits64) _ rfl _ _ _ _).mp (@matrix_accepted (P.on .bits64))
  rw [abs_init] at h
  refine (C63_down (by decide) matrix_nonzero ?_).2
  exact @MessageThen.mk (P.on .bits64) 1 _ _ _ _ _ _ (isHeader_header 1 (by decide))
    (@Records.cons (P.on .bits64) _ _ _ _ _ _ _ _ h (@Records.nil (P.on .bits64) _ _))
    (@Tail.value (P.on .bits64) _ _ _ _ (.inr ⟨by decide, by simp [Env.add]⟩))

/-- ... and it is a `Vec<Vec<u8>>` on both. -/
example (P : Platform) [FloatLib] (hdec : ∀ x : Dec, IsUtf8 (P.decimalToStr x)) (d : Dyn) :
    @fromSlice (P.on .bits32) _ (.vec (.vec .u8)) matrixMessage = .ok d ↔
      @fromSlice (P.on .bits64) _ (.vec (.vec .u8)) matrixMessage = .ok d := by
  have h : @deserialize (P.on .bits32) matrixMessage = .ok (.value matrix) :=
    @deserialize_one (P.on .bits32) _ _ (@matrix_accepted (P.on .bits32))
  refine C63_from_slice matrix_width hdec ?_ _ (.vec (.vec (.int _ _))) d
  intro x hx u items size hu hl
  rw [h] at hx
  cases hx
  obtain ⟨cls, ms, _, rfl, _⟩ := hl
  cases hu with
  | item hm hu =>
    simp only [List.mem_cons, List.not_mem_nil, or_false] at hm
    rcases hm with rfl | rfl <;> cases hu with
    | item hm hu =>
      simp only [List.mem_cons, List.not_mem_nil, or_false] at hm
      rcases hm with rfl | rfl | rfl <;> cases hu

end Nrbf
