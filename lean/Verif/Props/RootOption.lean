import Verif.Props.SerdeText

/-! # C64: an option at the root, for every value -/

set_option autoImplicit false

namespace Nrbf

open Spec

variable [Platform] [FloatLib]

/-- The call is about a value, not about null or an option. -/
def OfValue (c : VCall RChild SerdeError) : Prop := c ≠ .visitUnit ∧ c ≠ .visitNone ∧ c ≠ .visitSome

omit [Platform] in
theorem visitOf_value (P : RTy) (x : Dyn) : OfValue (visitOf P x) := by
  unfold visitOf OfValue
  split <;> cases x <;> simp [visitIntR, visitBoolR, visitCharR, visitF32R, visitF64R]

theorem valueDeserR_any {v : Value} (hs : Sane v) (hn : v ≠ .null) : OfValue (valueDeserR v).any := by
  cases v with
  | null => exact absurd rfl hn
  | object c l ms =>
    rw [valueDeserR]
    simp only [objectDeserR]
    rcases object_kinds c l ms with hk | ⟨rfl, c', e, P, hc, hm⟩ | ⟨items, n, hk⟩ | ⟨rfl, hc, hk⟩
    · rw [objectAnyR_plain hk]; simp [OfValue]
    · rw [objectAnyR_box hm hc]
      unfold unboxedR
      split
      · exact visitOf_value _ _
      · simp [OfValue]
    · obtain ⟨cls, ms', e, hk'⟩ := objectAnyR_list hk
      cases e
      rw [hk']; simp [OfValue]
    · rw [objectAnyR_listClass ms hc (hs _ (.refl _)).2.1 hk]; simp [OfValue]
  | _ => rw [valueDeserR]; simp [OfValue, plainDeser]

/-- **C64** An option at the root takes null and nothing else.  What is reported otherwise is what is reported for a type
that takes no value at all (an enum, say), but for the name of the type. -/
theorem C64_root_option_total {w : Bytes} {v : Value} (h : deserialize w = .ok (.value v))
    (hdec : ∀ x : Dec, IsUtf8 (Platform.decimalToStr x))
    (hbig : usizeBits = 32 → ∀ u items size, SubValue u v → IsList u items size → items.length < 2 ^ 30) (T : RTy) :
    (v = .null ∧ fromSliceR (.option T) w = .ok .none) ∨
    ∃ r, v ≠ .null ∧ fromSliceR (.option T) w = .err r ∧
      ((∃ u, r = .invalidType u (lit "option") ∧ ∀ name, Fails v (.enum name) (.invalidType u (lit "enum " ++ name))) ∨
        ∀ name, Fails v (.enum name) r) := by
  by_cases hn : v = .null
  · exact .inl ⟨hn, (C64_root_option h T).1 hn⟩
  · refine .inr ?_
    have hs := parsed_sane h hdec hbig
    have hv := valueDeserR_any hs hn
    have he : ∀ name, decodeR v (.enum name) = acceptR (.enum name) (valueDeserR v).any := fun _ => rfl
    have ht : ∀ name, Fails v (.enum name) (match (valueDeserR v).any with
        | .fail e => e | c => .invalidType c.unexpected (lit "enum " ++ name)) := by
      intro name
      have ht := C64_total v hs (.enum name) (by rw [RTy.erase]; exact .enum)
      rw [he name] at ht
      cases hc : (valueDeserR v).any <;> rw [hc] at ht <;> exact ht.1
    have hm : messageR (.value v) (.option T) = .error (match (valueDeserR v).any with
        | .fail e => e | c => .invalidType c.unexpected (lit "option")) := by
      show Deser.runR ⟨_, _, _⟩ _ = _
      rw [Deser.runR]
      cases hc : (valueDeserR v).any
      case visitUnit => exact absurd hc hv.1
      case visitNone => exact absurd hc hv.2.1
      case visitSome => exact absurd hc hv.2.2
      all_goals rfl
    cases hc : (valueDeserR v).any with
    | fail e =>
      rw [hc] at hm
      simp only [hc] at ht
      refine ⟨e, hn, ?_, .inr ht⟩
      unfold fromSliceR
      simp only [h, hm]
      cases e with
      | hang => rcases C64_kinds v _ _ (ht []) with ⟨_, _, h, _⟩ | ⟨_, _, h⟩ | ⟨_, _, h⟩ | ⟨_, h⟩ | h <;> cases h
      | _ => rfl
    | _ =>
      rw [hc] at hm
      simp only [hc] at ht
      exact ⟨_, hn, by unfold fromSliceR; simp only [h, hm], .inl ⟨_, rfl, ht⟩⟩

end Nrbf
