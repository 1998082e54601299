import Verif.Props.Members
import Verif.Lemmas.Again

/-! # C29: what a failed attempt leaves behind -/

set_option autoImplicit false

namespace Nrbf
open Spec Tests

variable [Platform]

/-- An array with id 1 whose element is a reference to 2, an object with id 2 whose member is a reference
to 1, and a string with id 2. -/
def tracedBody : Bytes :=
  [16, 1,0,0,0, 1,0,0,0, 9, 2,0,0,0] ++ [2, 2,0,0,0, 1,65, 1,0,0,0, 1,97, 9, 1,0,0,0] ++ [6, 2,0,0,0, 1,120]

/-- **C29**: it does leave a trace.  The message is accepted, although no reading of it as a sequence of records
exists: the first attempt at the array fails at the string, but leaves the string behind, and with it
the second attempt succeeds. -/
theorem C29_trace : deserialize (header 2 ++ (tracedBody ++ [11])) = .ok (.value (.string [120])) ∧
    ¬ ∃ m, Message (header 2 ++ (tracedBody ++ [11])) m := by
  refine ⟨by kernel_decide, ?_⟩
  rintro ⟨m, h⟩
  unfold Message at h
  generalize hw : header 2 ++ (tracedBody ++ [11]) = w at h
  cases h with
  | @mk root hd i E i1 _ _ hh hrec htail =>
    have hi : i = tracedBody ++ [11] := by
      have h1 : hd.length = 17 := by
        obtain ⟨b1, b2, ⟨_, rfl⟩, hb2, rfl⟩ := hh
        simp [le, hb2]
      exact (List.append_inj_right hw.symm (h1.trans rfl))
    clear hw
    cases hrec with
    | nil =>
      have h16 : i.head? = some 16 := by rw [hi]; rfl
      cases htail with
      | value => cases h16
      | method hm =>
        cases hm with
        | call _ hb => rw [methodCall_head hb] at h16; cases h16
        | «return» _ hb => rw [methodReturn_head hb] at h16; cases h16
    | @cons _ _ id v E1 i2 _ _ h1 _ =>
      have := (accepts_iff (s := St.init) rfl).mpr ⟨_, h1⟩
      subst hi
      obtain ⟨s', h', _⟩ := this
      have hk : (match (parseReferenceable St.init (tracedBody ++ [11])).1 with
          | .ok _ _ => false
          | _ => true) = true := by kernel_decide
      rw [h'] at hk
      cases hk

/-- What the failed attempt at the array leaves behind: the string. -/
example : (parseReferenceable St.init (tracedBody ++ [11])).2.objects = [(2, .string [120])] ∧
    (match (parseReferenceable St.init (tracedBody ++ [11])).1 with
      | .error _ => true
      | _ => false) = true := by
  constructor <;> kernel_decide

/-- **C29**: whatever the outcome of reading a record, the table of objects has at most one new or replaced
entry afterwards (the others are gone or unchanged), an object, an array or a string, and no library is
forgotten. -/
theorem C29_left_behind {s s' : St} {i : Bytes} {o : Outcome Error Nat} (h : parseReferenceable s i = (o, s')) :
    (∃ id, ∀ k v, s'.objects.get? k = some v → s.objects.get? k = some v ∨ (k = id ∧ hasId v = true)) ∧
    ∀ l, (s.libs.get? l).isSome → (s'.libs.get? l).isSome :=
  referenceable_residue h

/-- **C29**: what is accepted is a message, or a second attempt with what the first one left behind. -/
theorem C29_second_attempt {w : Bytes} {m : RemotingMessage} (h : deserialize w = .ok m) (hn : ¬ Message w m) :
    Retried w m :=
  (message_sound h).resolve_left hn

/-- Both hypotheses hold of the message above. -/
example : Retried (header 2 ++ (tracedBody ++ [11])) (.value (.string [120])) :=
  C29_second_attempt C29_trace.1 fun h => C29_trace.2 ⟨_, h⟩

/-- **C29**: without references, failed attempts are without influence: exactly the messages are
accepted. -/
theorem C29_no_references {w : Bytes} (h : NoReference w) (m : RemotingMessage) :
    deserialize w = .ok m ↔ Message w m :=
  ⟨fun hd => (message_states hd).resolve_right (no_retried h), deserialize_complete⟩

omit [Platform] in
theorem noReference_of {w : Bytes} (h : (9 : UInt8) ∉ w) : NoReference w := by
  rintro id b ⟨b', _, rfl⟩ hb
  exact h (hb.subset (by simp))

/-- A message without references: an object with two strings, an array. -/
example : ∃ w m, NoReference w ∧ deserialize w = .ok m ∧ Message w m := by
  have h9 : NoReference (header 1 ++ ([2, 1,0,0,0, 1,65, 2,0,0,0, 1,97, 1,98, 6, 2,0,0,0, 1,120,
      6, 3,0,0,0, 1,121] ++ [16, 4,0,0,0, 1,0,0,0, 10] ++ [11])) := noReference_of (by decide)
  have hd : deserialize (header 1 ++ ([2, 1,0,0,0, 1,65, 2,0,0,0, 1,97, 1,98, 6, 2,0,0,0, 1,120,
      6, 3,0,0,0, 1,121] ++ [16, 4,0,0,0, 1,0,0,0, 10] ++ [11])) =
      .ok (.value (.object [65] none [([97], .string [120]), ([98], .string [121])])) := by kernel_decide
  exact ⟨_, _, h9, hd, (C29_no_references h9 _).mp hd⟩

end Nrbf
