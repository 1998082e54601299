import Verif.Lemmas.Lock
import Verif.Lemmas.Grammar

/-! # Messages: what a failed attempt does to the rest -/

set_option autoImplicit false

namespace Nrbf
open Spec

variable [Platform]

theorem residue_of {s s' : St} (h : s.Left s') (hl : s.LibsLe s') : Residue (abs s) (abs s') :=
  ⟨h, hl⟩

theorem referenceable_residue {s s' : St} {i : Bytes} {o : Outcome Error Nat}
    (h : parseReferenceable s i = (o, s')) : Residue (abs s) (abs s') := by
  have h1 := (parseReferenceable_tidy s i).1
  have h2 := parsers_mono.2 s i
  rw [h] at h1 h2
  exact residue_of h1 h2

theorem parseClasses_tidy : TidyC parseClasses :=
  ⟨fun s i => (recAt_tidy (i.length + 1)).1.tidy s i, fun s i => (recAt_tidy (i.length + 1)).1.quiet s i⟩

theorem callArray_residue {root : Option Nat} {s s' : St} {i : Bytes} {o : Outcome Error (List Value)}
    (h : parseCallArray root s i = (o, s')) : Residue (abs s) (abs s') := by
  have h1 : s.Left (parseCallArray root s i).2 := by
    unfold parseCallArray
    refine ((library_tidy s i).bind fun _ s1 i _ => ?_).1
    refine (arraySingleObject_tidy parseClasses_tidy parseReferenceable_tidy s1 i).bind fun ⟨id, vs⟩ s2 i _ => ?_
    simp only
    split <;> exact .same
  have h2 : s.LibsLe (parseCallArray root s i).2 := by
    unfold parseCallArray
    refine Res.bind_mono (parseBinaryLibrary_mono s i) fun _ s r h => ?_
    refine Res.bind_mono (h.trans (arraySingleObject_mono parsers_mono.1 parsers_mono.2 s r))
      fun ⟨id, vs⟩ s r h => ?_
    simp only
    split <;> exact h
  rw [h] at h1 h2
  exact residue_of h1 h2

theorem RetriedS.toRetried {w : Bytes} {m : RemotingMessage} (h : RetriedS w m) : Retried w m := by
  cases h with
  | value h1 h2 h3 _ h4 h5 h6 h7 =>
    exact .value h1 h2 (referenceable_no_record h3 h4) h5 (referenceable_residue h4) h6 h7
  | call h1 h2 _ _ h3 h4 h5 h6 h7 h8 h9 => exact .call h1 h2 h3 h4 h5 h6 (callArray_residue h7) h8 h9
  | «return» h1 h2 _ _ h3 h4 h5 h6 h7 h8 h9 => exact .return h1 h2 h3 h4 h5 h6 (callArray_residue h7) h8 h9

theorem message_sound {w : Bytes} {m : RemotingMessage} (h : deserialize w = .ok m) :
    Message w m ∨ Retried w m :=
  (message_states h).imp id RetriedS.toRetried

/-- Without references there is no second attempt. -/
theorem no_retried {w : Bytes} {m : RemotingMessage} (h9 : NoReference w) : ¬ RetriedS w m := by
  intro h
  have first : ∀ {s' : St} {i1 : Bytes} {E2 : Env}, i1.head? ≠ some 11 → s'.classes = [] →
      Records (abs s') i1 E2 [11] → ∃ r id s2, parseReferenceable s' i1 = (.ok r id, s2) := by
    intro s' i1 E2 h11 hs' h
    cases h with
    | nil => simp at h11
    | cons hr _ =>
      obtain ⟨s2, h2, _⟩ := (parseReferenceable_match hs' i1).2 _ _ _ ⟨_, _, hr, rfl⟩
      exact ⟨_, _, s2, h2⟩
  cases h with
  | value _ h2 hs hs' h4 h5 h6 _ =>
    obtain ⟨tag, ht, hh⟩ := h5
    obtain ⟨r, id, s2, h7⟩ := first (by rw [hh]; rintro ⟨⟩; simp at ht) hs' h6
    exact parseReferenceable_again h9 hs ((Records.suffix h2).trans (List.suffix_append _ _)) h4 r id s2 h7
  | call _ h2 hs hs' _ _ _ h16 h4 _ h6 =>
    obtain ⟨r, id, s2, h7⟩ := first (by rw [h16]; decide) hs' h6
    exact parseCallArray_again h9 hs (((List.suffix_append _ _).trans (Records.suffix h2)).trans
      (List.suffix_append _ _)) h16 h4 r id s2 h7
  | «return» _ h2 hs hs' _ _ _ h16 h4 _ h6 =>
    obtain ⟨r, id, s2, h7⟩ := first (by rw [h16]; decide) hs' h6
    exact parseCallArray_again h9 hs (((List.suffix_append _ _).trans (Records.suffix h2)).trans
      (List.suffix_append _ _)) h16 h4 r id s2 h7

end Nrbf
