import Verif.Props.Messages
import Verif.Props.Trace

/-! # C67: truncated messages

If something is cut off the end of an accepted message, what is left is not accepted. -/

set_option autoImplicit false

namespace Nrbf

open Spec

variable [Platform]

/-- **C67** No proper beginning of an accepted input is a message of the grammar, unless it ends in an unfinished
BinaryLibrary record that the rest completes. -/
theorem C67_truncated {w t : Bytes} {m : RemotingMessage} (h : deserialize (w ++ t) = .ok m) (ht : t ≠ [])
    (hq : ¬ CompletesLibrary w t) : ¬ ∃ m', Message w m' := by
  rintro ⟨m', hm⟩
  rw [C45_trailing hm ht hq] at h
  cases h

/-- **C67** An accepted input whose end is cut off is not accepted, if there are no references in what is left, nor a
BinaryLibrary record that the rest completes. -/
theorem C67_rejected {w t : Bytes} {m : RemotingMessage} (h : deserialize (w ++ t) = .ok m) (ht : t ≠ [])
    (hq : ¬ CompletesLibrary w t) (hr : NoReference w) (m' : RemotingMessage) : deserialize w ≠ .ok m' := by
  intro hm
  exact C67_truncated h ht hq ⟨m', (C29_no_references hr m').mp hm⟩

/-! ## Concrete cases -/

open Tests (header ascii)

/-- An array of three bytes. -/
def threeBytes : Bytes := header 1 ++ [15, 1,0,0,0, 3,0,0,0, 2, 1,11,3, 11]

theorem threeBytes_ok : deserialize threeBytes = .ok (.value (.array [.byte 1, .byte 11, .byte 3])) := by
  platform_decide

/-- Cut off after the byte 11 in the middle, which looks like the end of a message. -/
example (m' : RemotingMessage) : deserialize (threeBytes.take 29) ≠ .ok m' := by
  refine C67_rejected (t := threeBytes.drop 29) (m := .value (.array [.byte 1, .byte 11, .byte 3])) ?_ (by decide)
    (not_completesLibrary (by decide) _) (noReference_of (by decide)) m'
  rw [List.take_append_drop]
  exact threeBytes_ok

/-- **C67** (the exception occurs) Both `incompleteLibrary` and a continuation of it are accepted: the bytes 12, 5, 0, 0,
0, 11 are the two members and the end of the message in the one, the beginning of a library record with a name of
eleven letters in the other. -/
theorem C67_exception : ∃ w t m m', t ≠ [] ∧ deserialize w = .ok m ∧ deserialize (w ++ t) = .ok m' := by
  refine ⟨incompleteLibrary, ascii "abcdefghijk" ++ [1, 7,0,0,0, 11],
    .value (.object [65] none [([97], .byte 12), ([98], .int32 5)]),
    .value (.object [65] none [([97], .byte 1), ([98], .int32 7)]), by decide, ?_, ?_⟩
  · platform_decide
  · platform_decide

/-- The string 2, and `D { a : object, b : int64, c : string }` with `a = C { a = reference to 2 }`.  At the first
attempt `b` starts directly after `a`, as the string 2 is known; then `c` is a string of 100 bytes, which are not
there.  At the second attempt the string 2 is gone, and the bytes after `a` are another string 2. -/
def reinterpreted : Bytes :=
  header 1 ++ [6, 2,0,0,0, 1,120,
    4, 1,0,0,0, 1,68, 3,0,0,0, 1,97, 1,98, 1,99, 2,0,1, 9, 2, 3,0,0,0, 1,67, 1,0,0,0, 1,97, 9, 2,0,0,0,
    6, 2,0,0,0, 8,97, 97,6,7,0,0,0,100, 1,0,0,0,0,0,0,0, 6, 8,0,0,0, 1,121, 11]

/-- **C67** (references matter) Without the byte 12, but with references, both an input and a continuation of it can be
accepted: the continuation provides the bytes for lack of which the first attempt to read a record fails, so that there
is no second one. -/
theorem C67_reinterpreted : ∃ w t m m', t ≠ [] ∧ (12 : UInt8) ∉ w ∧ deserialize w = .ok m ∧ deserialize (w ++ t) = .ok m' ∧
    m = .value (.object [68] none [([97], .object [67] none [([97], .string [97,97,6,7,0,0,0,100])]), ([98], .int64 1),
      ([99], .string [121])]) ∧
    m' = .value (.object [68] none [([97], .object [67] none [([97], .string [120])]),
      ([98], .int64 7016898490512966150),
      ([99], .string ([1,0,0,0,0,0,0,0, 6, 8,0,0,0, 1,121, 11] ++ List.replicate 84 97))]) := by
  refine ⟨reinterpreted, List.replicate 84 97 ++ [11], _, _, by decide, by decide, ?_, ?_, rfl, rfl⟩
  · platform_decide
  · platform_decide

end Nrbf
