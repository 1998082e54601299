import Verif.Lemmas.Again

/-! # Only objects, arrays and strings are registered -/

set_option autoImplicit false

namespace Nrbf.Spec

variable [Platform]

/-- Nothing new is registered. -/
def ObjsSub (E E' : Env) : Prop := ∀ k v, E'.objs k = some v → E.objs k = some v

omit [Platform] in
theorem ObjsSub.trans {a b c : Env} (h1 : ObjsSub a b) (h2 : ObjsSub b c) : ObjsSub a c :=
  fun k v h => h1 k v (h2 k v h)

omit [Platform] in
theorem objsSub_drop (E : Env) (id : Nat) : ObjsSub E (E.drop id) := by
  intro k v h
  simp only [Env.drop] at h
  split at h
  · cases h
  · exact h

omit [Platform] in
theorem OptLib.objs {E : Env} {i : Bytes} {E' : Env} {r : Bytes} (h : OptLib E i E' r) : ObjsSub E E' := by
  cases h with
  | none => exact fun _ _ h => h
  | some => exact fun _ _ h => h

mutual
theorem Member.objs {T : Option MemberType} {E : Env} {i : Bytes} {slot : Slot} {E' : Env} {r : Bytes} :
    Member T E i slot E' r → ObjsSub E E'
  | .primitive h _ | .reference h _ | .string h _ | .nulls h _ => h.objs
  | .object h h1 => h.objs.trans h1.objs
  | .typedPrimitive h _ => h.objs
  | .typedString h _ => h.objs
  | .typedObject h h1 => h.objs.trans h1.objs
  | .typedObjectArray h h1 => h.objs.trans h1.objs
  | .systemClass h h1 => h.objs.trans h1.objs
  | .systemClassNulls h _ => h.objs
  | .class h _ h1 => h.objs.trans h1.objs
  | .classNulls h _ _ => h.objs
  | .stringArrayString h _ => h.objs
  | .stringArrayReference h _ => h.objs
  | .stringArrayNulls h _ => h.objs
  | .primitiveArray h _ => h.objs
theorem Members.objs {T : List (Option MemberType)} {E : Env} {i : Bytes} {slot : List Slot} {E' : Env} {r : Bytes} :
    Members T E i slot E' r → ObjsSub E E'
  | .nil => fun _ _ h => h
  | .cons h h1 => h.objs.trans h1.objs
theorem Class.objs {E : Env} {i : Bytes} {id : Nat} {n : Str} {l : Option Str}
    {ms : List (Str × Value)} {E' : Env} {r : Bytes} :
    Class E i id n l ms E' r → ObjsSub E E'
  | .mk h _ _ h1 h2 => (h.objs.trans h1.objs).trans h2.objs
theorem Fill.objs {T : Option MemberType} {n : Nat} {E : Env} {i : Bytes} {slot : List Slot} {E' : Env} {r : Bytes} :
    Fill T n E i slot E' r → ObjsSub E E'
  | .done => fun _ _ h => h
  | .step _ h h1 => h.objs.trans h1.objs
theorem Resolve.objs {E : Env} {i : Bytes} {slot : List Slot} {vs : List Value} {E' : Env} {r : Bytes} :
    Resolve slot E i vs E' r → ObjsSub E E'
  | .nil => fun _ _ h => h
  | .value h => h.objs
  | .nulls h => h.objs
  | .known _ h => (objsSub_drop _ _).trans h.objs
  | .next _ h h1 => (h.objs.trans (objsSub_drop _ _)).trans h1.objs
theorem Record.objs {E : Env} {i : Bytes} {id : Nat} {v : Value} {E' : Env} {r : Bytes} :
    Record E i id v E' r → ObjsSub E E'
  | .object h => h.objs
  | .objectArray _ h h1 => h.objs.trans h1.objs
  | .primitiveArray _ _ => fun _ _ h => h
  | .stringArray _ h h1 => h.objs.trans h1.objs
  | .array _ _ h h1 _ => h.objs.trans h1.objs
  | .string _ => fun _ _ h => h
end

/-- Only objects, arrays and strings are registered. -/
def HasIds (E : Env) : Prop := ∀ k v, E.objs k = some v → hasId v = true

theorem Record.hasId {E : Env} {i : Bytes} {id : Nat} {v : Value} {E' : Env} {r : Bytes}
    (h : Record E i id v E' r) : hasId v = true := by cases h <;> rfl

theorem Records.hasIds {E : Env} {i : Bytes} {E' : Env} {r : Bytes} (h : Records E i E' r) (hE : HasIds E) :
    HasIds E' := by
  induction h with
  | nil => exact hE
  | @cons E i id v E1 _ _ _ hr _ ih =>
    refine ih fun k u hu => ?_
    simp only [Env.add] at hu
    split at hu
    · cases hu; exact hr.hasId
    · exact hE k u (hr.objs k u hu)

omit [Platform] in
theorem Residue.hasIds {E E' : Env} (h : Residue E E') (hE : HasIds E) : HasIds E' := by
  obtain ⟨⟨id, h⟩, _⟩ := h
  exact fun k v hv => (h k v hv).elim (hE k v) fun e => e.2

omit [Platform] in
theorem hasIds_empty : HasIds Env.empty := fun _ _ h => by cases h

end Nrbf.Spec

namespace Nrbf
open Spec
variable [Platform]

/-- The value of a message is null, an object, an array or a string. -/
theorem value_place {w : Bytes} {v : Value} (h : deserialize w = .ok (.value v)) : hasId v = true ∨ v = .null := by
  have key : ∀ {root : Nat} {E : Env}, HasIds E → RootValue root E v → hasId v = true ∨ v = .null := by
    rintro root E hE (⟨_, rfl⟩ | ⟨_, hv⟩)
    · exact .inr rfl
    · exact .inl (hE _ _ hv)
  rcases message_sound h with h | h
  · unfold Message at h
    generalize hm : RemotingMessage.value v = m at h
    cases h with
    | mk hh hrec ht =>
      cases ht with
      | value hr => cases hm; exact key (hrec.hasIds hasIds_empty) hr
      | method hM => cases hM <;> cases hm
  · generalize hm : RemotingMessage.value v = m at h
    cases h with
    | value _ h1 _ _ h2 h3 h4 => cases hm; exact key (h3.hasIds (h2.hasIds (h1.hasIds hasIds_empty))) h4
    | call => cases hm
    | «return» => cases hm

theorem codedValue_inline {v : Value} {b : Bytes} (h : IsCodedValue v b) : ∀ ms, (∀ c l, v ≠ .object c l ms) ∧
    (∀ vs, v ≠ .array vs) := by
  intro ms
  rcases h with ⟨t, b', h, _⟩ | ⟨rfl, _⟩ | ⟨s, rfl, _⟩
  · constructor
    · rintro c l rfl; cases t <;> exact h
    · rintro vs rfl; cases t <;> exact h
  · simp
  · simp

/-- A return value is not an object or array. -/
theorem return_place {w : Bytes} {r : MethodReturn} (h : deserialize w = .ok (.methodReturn r)) {v : Value}
    (hv : r.returnValue = some v) : (∀ c l ms, v ≠ .object c l ms) ∧ ∀ vs, v ≠ .array vs := by
  have key : ∀ {f : BitVec 32} {context : Option Str} {args : Option (List Value)} {b : Bytes},
      IsMethodReturn f r.returnValue context args b → (∀ c l ms, v ≠ .object c l ms) ∧ ∀ vs, v ≠ .array vs := by
    rintro f context args b ⟨_, bv, _, _, _, h, _⟩
    rcases h with ⟨_, a, ha, hc⟩ | ⟨_, ha, _⟩
    · rw [hv] at ha
      cases ha
      exact ⟨fun c l ms => (codedValue_inline hc ms).1 c l, (codedValue_inline hc []).2⟩
    · rw [hv] at ha; cases ha
  rcases message_sound h with h | h
  · unfold Message at h
    generalize hm : RemotingMessage.methodReturn r = m at h
    cases h with
    | mk hh hrec ht =>
      cases ht with
      | value hr => cases hm
      | method hM =>
        cases hM with
        | call => cases hm
        | «return» _ hb => cases hm; exact key hb
  · generalize hm : RemotingMessage.methodReturn r = m at h
    cases h with
    | value => cases hm
    | call => cases hm
    | «return» _ _ _ hb => cases hm; exact key hb

end Nrbf
