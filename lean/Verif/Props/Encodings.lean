import Verif.Lemmas.Encodings
import Verif.Props.SerdeExact
import Verif.Tests

/-! # C71: it does not matter how a message is written -/

set_option autoImplicit false

namespace Nrbf

open Spec

variable [Platform]

theorem obj_id {id : Nat} {v : Value} {ts : List Token} (h : Obj id v ts) : id ≠ 0 := by
  cases h with
  | system h => obtain ⟨_, _, _, _, _, _, ⟨h, _⟩, _⟩ := h; omega
  | library h => obtain ⟨_, _, _, _, _, _, ⟨h, _⟩, _⟩ := h; omega

theorem rec_id {id : Nat} {v : Value} {ts : List Token} (h : RecordOf id v ts) : id ≠ 0 := by
  cases h with
  | object _ h => exact obj_id h
  | string h => obtain ⟨_, _, ⟨h, _⟩, _⟩ := h; omega
  | primitiveArray h => obtain ⟨_, ⟨_, _, ⟨h, _⟩, _⟩, _⟩ := h; omega
  | objectArray h => obtain ⟨_, _, ⟨h, _⟩, _⟩ := h; omega
  | stringArray h => obtain ⟨_, _, ⟨h, _⟩, _⟩ := h; omega
  | array h => obtain ⟨_, _, _, _, _, ⟨h, _⟩, _⟩ := h; omega

theorem arguments_ok {root : Nat} {callArray : Option (List Value)} {ts : List Token} (h : Arguments root callArray ts)
    (hd : Declared (fun _ => none) ts) : ∃ E, CallArray root Env.empty (written ts ++ [11]) callArray E [11] := by
  cases h with
  | none => exact ⟨_, .none (by simp [written]) (by simp [written])⟩
  | @some f vs b n l hf hb hs =>
    rw [declared_append] at hd
    obtain ⟨hd1, hd2⟩ := hd
    have hd2 : Declared (after (fun _ => none) f) (n ++ l) := hd2
    rw [declared_append] at hd2
    obtain ⟨slots, hms, hls⟩ := elems_ok (.inl rfl) hs
    have h1 := libraries_one hf hd1 (i := b ++ (written n ++ (written l ++ [11])))
      (by obtain ⟨_, _, _, _, rfl⟩ := hb; simp [Starts])
    have e : written (f ++ .bytes b :: (n ++ l)) ++ [11] = written f ++ (b ++ (written n ++ (written l ++ [11]))) := by
      simp [written, Token.write]
    rw [e]
    exact ⟨_, .some h1 hb (hms hd2.1) (laterAll_resolve hls hd2.2 _)⟩

/-- **C71** Whatever choices a writer makes - object ids, values in place or by reference, kinds of class records and
declared member types, grouping of nulls, places of library records -, the message that is read is the one that was
written. -/
theorem C71 {m : RemotingMessage} {w : Bytes} (h : Written m w) : deserialize w = .ok m := by
  cases h with
  | null hh => exact C37_null_root hh .nil
  | value hh hr hd =>
    rw [List.append_assoc]
    exact single_record hh (rec_id hr) (rec_ok hr _ _ hd)
  | call hh hf hb ha hd hargs =>
    obtain ⟨E, hc⟩ := arguments_ok ha hd
    rw [List.append_assoc, List.append_assoc]
    exact C31_complete (.mk hh .nil (.method (m := .inl _) (.call hf hb hc hargs) .nil))
  | «return» hh hf hb ha hd hargs =>
    obtain ⟨E, hc⟩ := arguments_ok ha hd
    rw [List.append_assoc, List.append_assoc]
    exact C31_complete (.mk hh .nil (.method (m := .inr _) (.return hf hb hc hargs) .nil))

/-- **C71** (no ambiguity) No bytes are a way to write two different messages. -/
theorem C71_unique {m m' : RemotingMessage} {w : Bytes} (h : Written m w) (h' : Written m' w) : m = m' := by
  have := (C71 h).symm.trans (C71 h')
  cases this
  rfl

/-- **C71** (from_slice) Two ways to write the same message deserialise into the same value of any type, or fail with
the same error. -/
theorem C71_from_slice [FloatLib] {m : RemotingMessage} {w w' : Bytes} (h : Written m w) (h' : Written m w') (T : Ty) :
    fromSlice T w = fromSlice T w' := by
  unfold fromSlice
  rw [C71 h, C71 h']

/-! ## Concrete cases -/

open Tests

/-- `A { a: "x", b: [null, null, null, "y"], c: B { n: 5 } }` of the library `L`. -/
def written71 : Value :=
  .object [65] (some [76]) [([97], .string [120]), ([98], .array [.null, .null, .null, .string [121]]),
    ([99], .object [66] none [([110], .byte 5)])]

omit [Platform] in
theorem noLibraries (n : Nat) : Libraries n [] := ⟨Nat.zero_le _, fun _ h => by cases h⟩

/-- The class `A` with member types. -/
theorem typedHead : IsClassHead ⟨1, [65], [[97], [98], [99]], some [.string, .stringArray, .object], some 9⟩
    [5, 1,0,0,0, 1,65, 3,0,0,0, 1,97, 1,98, 1,99, 1,6,2, 9,0,0,0] :=
  ⟨[1,0,0,0], [1,65], [3,0,0,0], [1,97, 1,98, 1,99], [1,6,2], [9,0,0,0], smallId 1 (by decide) (by decide),
    short_string 65 (by decide), ⟨by decide, rfl⟩,
    ⟨[1,97], [1,98, 1,99], short_string 97 (by decide), ⟨[1,98], [1,99], short_string 98 (by decide),
      ⟨[1,99], [], short_string 99 (by decide), rfl, rfl⟩, rfl⟩, rfl⟩,
    ⟨rfl, [], ⟨[], [], rfl, ⟨[], [], rfl, ⟨[], [], rfl, rfl, rfl⟩, rfl⟩, rfl⟩, rfl⟩, smallId 9 (by decide) (by decide), rfl⟩

/-- The class `B` with member types. -/
theorem typedInner : IsClassHead ⟨4, [66], [[110]], some [.primitive .byte], none⟩
    [4, 4,0,0,0, 1,66, 1,0,0,0, 1,110, 0, 2] :=
  ⟨[4,0,0,0], [1,66], [1,0,0,0], [1,110], [0,2], [], smallId 4 (by decide) (by decide), short_string 66 (by decide),
    ⟨by decide, rfl⟩, ⟨[1,110], [], short_string 110 (by decide), rfl, rfl⟩, ⟨rfl, [2], ⟨[2], [], rfl, rfl, rfl⟩, rfl⟩, rfl, rfl⟩

/-- The class `A` without member types, with another id. -/
theorem untypedHead : IsClassHead ⟨2, [65], [[97], [98], [99]], none, some 8⟩
    [3, 2,0,0,0, 1,65, 3,0,0,0, 1,97, 1,98, 1,99, 8,0,0,0] :=
  ⟨[2,0,0,0], [1,65], [3,0,0,0], [1,97, 1,98, 1,99], [], [8,0,0,0], smallId 2 (by decide) (by decide),
    short_string 65 (by decide), ⟨by decide, rfl⟩,
    ⟨[1,97], [1,98, 1,99], short_string 97 (by decide), ⟨[1,98], [1,99], short_string 98 (by decide),
      ⟨[1,99], [], short_string 99 (by decide), rfl, rfl⟩, rfl⟩, rfl⟩,
    rfl, smallId 8 (by decide) (by decide), rfl⟩

/-- The class `B` without member types. -/
theorem untypedInner : IsClassHead ⟨7, [66], [[110]], none, none⟩ [2, 7,0,0,0, 1,66, 1,0,0,0, 1,110] :=
  ⟨[7,0,0,0], [1,66], [1,0,0,0], [1,110], [], [], smallId 7 (by decide) (by decide), short_string 66 (by decide),
    ⟨by decide, rfl⟩, ⟨[1,110], [], short_string 110 (by decide), rfl, rfl⟩, rfl, rfl, rfl⟩

theorem five : IsPrimitive .byte (.byte 5) [5] := ⟨by decide, rfl⟩

/-- The pieces of one way to write it. -/
def tokens_one : List Token :=
    ([.library 9 [76] [12, 9,0,0,0, 1,76]] ++
      (.bytes [5, 1,0,0,0, 1,65, 3,0,0,0, 1,97, 1,98, 1,99, 1,6,2, 9,0,0,0] :: .needs 9 [76] ::
        (([] ++ [.bytes [6, 2,0,0,0, 1,120]] ++ (([] ++ [.bytes [9, 3,0,0,0]]) ++
          (([] ++ .bytes [4, 4,0,0,0, 1,66, 1,0,0,0, 1,110, 0, 2] :: (([] ++ [.bytes [5]] ++ []) ++ ([] ++ []))) ++ []))) ++
        ([] ++ ((.bytes [17, 3,0,0,0, 4,0,0,0] :: (([] ++ .bytes [13, 3] :: (([] ++ [.bytes [6, 5,0,0,0, 1,121]]) ++ [])) ++
          ([] ++ []))) ++ ([] ++ []))))))

/-- One way: with types, string and object in place, the nulls as one run. -/
theorem written_one : RecordOf 1 written71 tokens_one := by
  refine .object ⟨by simp, ?_⟩ (.library typedHead rfl (by decide) (.cons (.string (noLibraries _)
    (smallString 2 120 (by decide) (by decide) (by decide)))
    (.cons (.stringArrayReference (noLibraries _) (smallReference 3 (by decide) (by decide)) ?_)
      (.cons (.objectObject (.inl rfl) (noLibraries _) (.system typedInner rfl (by decide)
        (.cons (.primitive (v := .byte 5) (b := [5]) (noLibraries _) five (by decide)) .nil))) .nil))))
  · intro t ht
    rw [List.mem_singleton.mp ht]
    exact ⟨_, _, _, smallLibrary 9 76 (by decide) (by decide) (by decide), rfl⟩
  · exact .stringArray (vs := List.replicate 3 .null ++ [.string [121]]) ⟨_, _, smallId 3 (by decide) (by decide), ⟨by decide, rfl⟩, rfl⟩
      (.nulls (n := 3) (noLibraries _) (.inr (.inr ⟨by decide, by decide, rfl⟩))
        (.cons (.stringArrayString (noLibraries _) (smallString 5 121 (by decide) (by decide) (by decide))) .nil))

/-- The pieces of another way to write it. -/
def tokens_two : List Token :=
    ([.library 8 [76] [12, 8,0,0,0, 1,76]] ++
      (.bytes [3, 2,0,0,0, 1,65, 3,0,0,0, 1,97, 1,98, 1,99, 8,0,0,0] :: .needs 8 [76] ::
        ((([] ++ [.bytes [9, 5,0,0,0]]) ++ (([] ++ [.bytes [9, 6,0,0,0]]) ++ (([] ++ [.bytes [9, 7,0,0,0]]) ++ []))) ++
        ([.bytes [6, 5,0,0,0, 1,120]] ++
          ((.bytes [16, 6,0,0,0, 4,0,0,0] :: ((([] ++ [.bytes [10]]) ++ ([] ++ .bytes [14, 2,0,0,0] ::
            (([] ++ [.bytes [9, 8,0,0,0]]) ++ []))) ++ ([] ++ ([.bytes [6, 8,0,0,0, 1,121]] ++ [])))) ++
            (([] ++ .bytes [2, 7,0,0,0, 1,66, 1,0,0,0, 1,110] :: ((([] ++ [.bytes [8, 2, 5]]) ++ []) ++ ([] ++ []))) ++ []))))))

/-- Another way: without types, everything by reference, the nulls one by one and as a run. -/
theorem written_two : RecordOf 2 written71 tokens_two := by
  refine .object ⟨by simp, ?_⟩ (.library untypedHead rfl (by decide)
    (.cons (.any (noLibraries _) (.reference (smallReference 5 (by decide) (by decide))
      (.string (smallString 5 120 (by decide) (by decide) (by decide)))))
    (.cons (.any (noLibraries _) (.reference (smallReference 6 (by decide) (by decide)) ?_))
    (.cons (.any (noLibraries _) (.reference (smallReference 7 (by decide) (by decide))
      (.object (noLibraries _) (.system untypedInner rfl (by decide)
        (.cons (.any (noLibraries _) (.primitive (v := .byte 5) ⟨.byte, [5], five, rfl⟩)) .nil))))) .nil))))
  · intro t ht
    rw [List.mem_singleton.mp ht]
    exact ⟨_, _, _, smallLibrary 8 76 (by decide) (by decide) (by decide), rfl⟩
  · exact .objectArray (vs := .null :: (List.replicate 2 .null ++ [.string [121]]))
      ⟨_, _, smallId 6 (by decide) (by decide), ⟨by decide, rfl⟩, rfl⟩
      (.cons (.any (noLibraries _) (.null (.inl ⟨rfl, rfl⟩)))
        (.nulls (n := 2) (noLibraries _) (.inr (.inl ⟨by decide, by decide, rfl⟩))
          (.cons (.any (noLibraries _) (.reference (smallReference 8 (by decide) (by decide))
            (.string (smallString 8 121 (by decide) (by decide) (by decide))))) .nil)))

/-- C71: both are read as that object, and they are different. -/
example : deserialize (header 1 ++ written tokens_one ++ [11]) = .ok (.value written71) ∧
    deserialize (header 2 ++ written tokens_two ++ [11]) = .ok (.value written71) ∧ written tokens_one ≠ written tokens_two :=
  ⟨C71 (.value (isHeader_header 1 (by decide)) written_one ⟨rfl, rfl, trivial⟩),
    C71 (.value (isHeader_header 2 (by decide)) written_two ⟨rfl, rfl, trivial⟩), by decide⟩

/-- A method call whose arguments are written as a call array, with the second one by reference. -/
def tokens_call : List Token :=
    ([] ++ .bytes [16, 1,0,0,0, 2,0,0,0] :: ((([] ++ [.bytes [8, 2, 5]]) ++ (([] ++ [.bytes [9, 3,0,0,0]]) ++ [])) ++
      ([] ++ ([.bytes [6, 3,0,0,0, 1,120]] ++ []))))

theorem written_call : Arguments 1 (some [.byte 5, .string [120]]) tokens_call :=
  .some (vs := [.byte 5, .string [120]]) (noLibraries _) ⟨_, _, smallId 1 (by decide) (by decide), ⟨by decide, rfl⟩, rfl⟩
    (.cons (.any (noLibraries _) (.primitive (v := .byte 5) ⟨.byte, [5], five, rfl⟩))
      (.cons (.any (noLibraries _) (.reference (smallReference 3 (by decide) (by decide))
        (.string (smallString 3 120 (by decide) (by decide) (by decide))))) .nil))

/-- C71: the call `M(5, "x")` of `T`. -/
example : deserialize (header 1 ++ [21, 20,0,0,0, 18,1,77, 18,1,84] ++ written tokens_call ++ [11]) =
    .ok (.methodCall ⟨[77], [84], none, some [.byte 5, .string [120]]⟩) := by
  refine C71 (.call (f := 20#32) (inline := none) (isHeader_header 1 (by decide)) (by rw [← flags_check]; decide) ?_ written_call
    trivial (.inl ⟨by decide, _, rfl, rfl⟩))
  exact ⟨_, [18,1,77], [18,1,84], [], [], rfl,
    ⟨_, short_string 77 (by decide), rfl⟩, ⟨_, short_string 84 (by decide), rfl⟩,
    .inr ⟨by decide, rfl, rfl⟩, .inr ⟨by decide, rfl, rfl⟩, by decide⟩

end Nrbf
