import Verif.Spec.Log
import Verif.Props.Messages
import Verif.Props.Arrays
import Verif.Props.Write

/-! # C87: shared objects and cycles -/

set_option autoImplicit false

namespace Nrbf
open Spec

variable [Platform]

/-! ## The log does not change the judgements -/

mutual
theorem member_log : ∀ {T : Option MemberType} {E : Env} {i : Bytes} {slot : Slot} {E' : Env} {r : Bytes},
    Member T E i slot E' r → ∃ L, LMember T E i slot E' r L
  | _, _, _, _, _, _, .primitive a b => ⟨_, .primitive a b⟩
  | _, _, _, _, _, _, .reference a b => ⟨_, .reference a b⟩
  | _, _, _, _, _, _, .string a b => ⟨_, .string a b⟩
  | _, _, _, _, _, _, .nulls a b => ⟨_, .nulls a b⟩
  | _, _, _, _, _, _, .object a b => let ⟨_, h⟩ := class_log b; ⟨_, .object a h⟩
  | _, _, _, _, _, _, .typedPrimitive a b => ⟨_, .typedPrimitive a b⟩
  | _, _, _, _, _, _, .typedString a b => ⟨_, .typedString a b⟩
  | _, _, _, _, _, _, .typedObject a b => let ⟨_, h⟩ := member_log b; ⟨_, .typedObject a h⟩
  | _, _, _, _, _, _, .typedObjectArray a b => let ⟨_, h⟩ := member_log b; ⟨_, .typedObjectArray a h⟩
  | _, _, _, _, _, _, .systemClass a b => let ⟨_, h⟩ := class_log b; ⟨_, .systemClass a h⟩
  | _, _, _, _, _, _, .systemClassNulls a b => ⟨_, .systemClassNulls a b⟩
  | _, _, _, _, _, _, .class a l b => let ⟨_, h⟩ := class_log b; ⟨_, .class a l h⟩
  | _, _, _, _, _, _, .classNulls a l b => ⟨_, .classNulls a l b⟩
  | _, _, _, _, _, _, .stringArrayString a b => ⟨_, .stringArrayString a b⟩
  | _, _, _, _, _, _, .stringArrayReference a b => ⟨_, .stringArrayReference a b⟩
  | _, _, _, _, _, _, .stringArrayNulls a b => ⟨_, .stringArrayNulls a b⟩
  | _, _, _, _, _, _, .primitiveArray a b => ⟨_, .primitiveArray a b⟩
termination_by structural _ _ _ _ _ _ h => h
theorem members_log : ∀ {Ts : List (Option MemberType)} {E : Env} {i : Bytes} {slots : List Slot} {E' : Env} {r : Bytes},
    Members Ts E i slots E' r → ∃ L, LMembers Ts E i slots E' r L
  | _, _, _, _, _, _, .nil => ⟨_, .nil⟩
  | _, _, _, _, _, _, .cons a b => let ⟨_, h⟩ := member_log a; let ⟨_, h'⟩ := members_log b; ⟨_, .cons h h'⟩
termination_by structural _ _ _ _ _ _ h => h
theorem fill_log : ∀ {T : Option MemberType} {len : Nat} {E : Env} {i : Bytes} {slots : List Slot} {E' : Env} {r : Bytes},
    Fill T len E i slots E' r → ∃ L, LFill T len E i slots E' r L
  | _, _, _, _, _, _, _, .done => ⟨_, .done⟩
  | _, _, _, _, _, _, _, .step l a b => let ⟨_, h⟩ := member_log a; let ⟨_, h'⟩ := fill_log b; ⟨_, .step l h h'⟩
termination_by structural _ _ _ _ _ _ _ h => h
theorem resolve_log : ∀ {slots : List Slot} {E : Env} {i : Bytes} {vs : List Value} {E' : Env} {r : Bytes},
    Resolve slots E i vs E' r → ∃ L, LResolve slots E i vs E' r L
  | _, _, _, _, _, _, .nil => ⟨_, .nil⟩
  | _, _, _, _, _, _, .value a => let ⟨_, h⟩ := resolve_log a; ⟨_, .value h⟩
  | _, _, _, _, _, _, .nulls a => let ⟨_, h⟩ := resolve_log a; ⟨_, .nulls h⟩
  | _, _, _, _, _, _, .known k a => let ⟨_, h⟩ := resolve_log a; ⟨_, .known k h⟩
  | _, _, _, _, _, _, .next k a b => let ⟨_, h⟩ := record_log a; let ⟨_, h'⟩ := resolve_log b; ⟨_, .next k h h'⟩
termination_by structural _ _ _ _ _ _ h => h
theorem class_log : ∀ {E : Env} {i : Bytes} {id : Nat} {name : Str} {library : Option Str} {ms : List (Str × Value)} {E' : Env}
    {r : Bytes}, Spec.Class E i id name library ms E' r → ∃ L, LClass E i id name library ms E' r L
  | _, _, _, _, _, _, _, _, .mk a b c d e => let ⟨_, h⟩ := members_log d; let ⟨_, h'⟩ := resolve_log e; ⟨_, .mk a b c h h'⟩
termination_by structural _ _ _ _ _ _ _ _ h => h
theorem record_log : ∀ {E : Env} {i : Bytes} {id : Nat} {v : Value} {E' : Env} {r : Bytes},
    Record E i id v E' r → ∃ L, LRecord E i id v E' r L
  | _, _, _, _, _, _, .object a => let ⟨_, h⟩ := class_log a; ⟨_, .object h⟩
  | _, _, _, _, _, _, .objectArray a b c => let ⟨_, h⟩ := fill_log b; let ⟨_, h'⟩ := resolve_log c; ⟨_, .objectArray a h h'⟩
  | _, _, _, _, _, _, .primitiveArray a b => ⟨_, .primitiveArray a b⟩
  | _, _, _, _, _, _, .stringArray a b c => let ⟨_, h⟩ := fill_log b; let ⟨_, h'⟩ := resolve_log c; ⟨_, .stringArray a h h'⟩
  | _, _, _, _, _, _, .array a p b c d => let ⟨_, h⟩ := members_log b; let ⟨_, h'⟩ := resolve_log c; ⟨_, .array a p h h' d⟩
  | _, _, _, _, _, _, .string a => ⟨_, .string a⟩
termination_by structural _ _ _ _ _ _ h => h
end

mutual
theorem member_unlog : ∀ {T : Option MemberType} {E : Env} {i : Bytes} {slot : Slot} {E' : Env} {r : Bytes} {L : List Event},
    LMember T E i slot E' r L → Member T E i slot E' r
  | _, _, _, _, _, _, _, .primitive a b => .primitive a b
  | _, _, _, _, _, _, _, .reference a b => .reference a b
  | _, _, _, _, _, _, _, .string a b => .string a b
  | _, _, _, _, _, _, _, .nulls a b => .nulls a b
  | _, _, _, _, _, _, _, .object a b => .object a (class_unlog b)
  | _, _, _, _, _, _, _, .typedPrimitive a b => .typedPrimitive a b
  | _, _, _, _, _, _, _, .typedString a b => .typedString a b
  | _, _, _, _, _, _, _, .typedObject a b => .typedObject a (member_unlog b)
  | _, _, _, _, _, _, _, .typedObjectArray a b => .typedObjectArray a (member_unlog b)
  | _, _, _, _, _, _, _, .systemClass a b => .systemClass a (class_unlog b)
  | _, _, _, _, _, _, _, .systemClassNulls a b => .systemClassNulls a b
  | _, _, _, _, _, _, _, .class a l b => .class a l (class_unlog b)
  | _, _, _, _, _, _, _, .classNulls a l b => .classNulls a l b
  | _, _, _, _, _, _, _, .stringArrayString a b => .stringArrayString a b
  | _, _, _, _, _, _, _, .stringArrayReference a b => .stringArrayReference a b
  | _, _, _, _, _, _, _, .stringArrayNulls a b => .stringArrayNulls a b
  | _, _, _, _, _, _, _, .primitiveArray a b => .primitiveArray a b
termination_by structural _ _ _ _ _ _ _ h => h
theorem members_unlog : ∀ {Ts : List (Option MemberType)} {E : Env} {i : Bytes} {slots : List Slot} {E' : Env} {r : Bytes}
    {L : List Event}, LMembers Ts E i slots E' r L → Members Ts E i slots E' r
  | _, _, _, _, _, _, _, .nil => .nil
  | _, _, _, _, _, _, _, .cons a b => .cons (member_unlog a) (members_unlog b)
termination_by structural _ _ _ _ _ _ _ h => h
theorem fill_unlog : ∀ {T : Option MemberType} {len : Nat} {E : Env} {i : Bytes} {slots : List Slot} {E' : Env} {r : Bytes}
    {L : List Event}, LFill T len E i slots E' r L → Fill T len E i slots E' r
  | _, _, _, _, _, _, _, _, .done => .done
  | _, _, _, _, _, _, _, _, .step l a b => .step l (member_unlog a) (fill_unlog b)
termination_by structural _ _ _ _ _ _ _ _ h => h
theorem resolve_unlog : ∀ {slots : List Slot} {E : Env} {i : Bytes} {vs : List Value} {E' : Env} {r : Bytes} {L : List Event},
    LResolve slots E i vs E' r L → Resolve slots E i vs E' r
  | _, _, _, _, _, _, _, .nil => .nil
  | _, _, _, _, _, _, _, .value a => .value (resolve_unlog a)
  | _, _, _, _, _, _, _, .nulls a => .nulls (resolve_unlog a)
  | _, _, _, _, _, _, _, .known k a => .known k (resolve_unlog a)
  | _, _, _, _, _, _, _, .next k a b => .next k (record_unlog a) (resolve_unlog b)
termination_by structural _ _ _ _ _ _ _ h => h
theorem class_unlog : ∀ {E : Env} {i : Bytes} {id : Nat} {name : Str} {library : Option Str} {ms : List (Str × Value)} {E' : Env}
    {r : Bytes} {L : List Event}, LClass E i id name library ms E' r L → Spec.Class E i id name library ms E' r
  | _, _, _, _, _, _, _, _, _, .mk a b c d e => .mk a b c (members_unlog d) (resolve_unlog e)
termination_by structural _ _ _ _ _ _ _ _ _ h => h
theorem record_unlog : ∀ {E : Env} {i : Bytes} {id : Nat} {v : Value} {E' : Env} {r : Bytes} {L : List Event},
    LRecord E i id v E' r L → Record E i id v E' r
  | _, _, _, _, _, _, _, .object a => .object (class_unlog a)
  | _, _, _, _, _, _, _, .objectArray a b c => .objectArray a (fill_unlog b) (resolve_unlog c)
  | _, _, _, _, _, _, _, .primitiveArray a b => .primitiveArray a b
  | _, _, _, _, _, _, _, .stringArray a b c => .stringArray a (fill_unlog b) (resolve_unlog c)
  | _, _, _, _, _, _, _, .array a p b c d => .array a p (members_unlog b) (resolve_unlog c) d
  | _, _, _, _, _, _, _, .string a => .string a
termination_by structural _ _ _ _ _ _ _ h => h
end

theorem records_log {E : Env} {i : Bytes} {E' : Env} {r : Bytes} (h : Records E i E' r) : ∃ L, LRecords E i E' r L := by
  induction h with
  | nil => exact ⟨_, .nil⟩
  | cons h _ ih =>
    obtain ⟨_, h1⟩ := record_log h
    obtain ⟨_, h2⟩ := ih
    exact ⟨_, .cons h1 h2⟩

theorem records_unlog {E : Env} {i : Bytes} {E' : Env} {r : Bytes} {L : List Event} (h : LRecords E i E' r L) :
    Records E i E' r := by
  induction h with
  | nil => exact .nil
  | cons h _ ih => exact .cons (record_unlog h) ih

theorem callArray_log {root : Nat} {E : Env} {i : Bytes} {o : Option (List Value)} {E' : Env} {r : Bytes}
    (h : CallArray root E i o E' r) : ∃ L, LCallArray root E i o E' r L := by
  cases h with
  | some a b c d =>
    obtain ⟨_, h1⟩ := fill_log c
    obtain ⟨_, h2⟩ := resolve_log d
    exact ⟨_, .some a b h1 h2⟩
  | none a b => exact ⟨_, .none a b⟩

theorem callArray_unlog {root : Nat} {E : Env} {i : Bytes} {o : Option (List Value)} {E' : Env} {r : Bytes} {L : List Event}
    (h : LCallArray root E i o E' r L) : CallArray root E i o E' r := by
  cases h with
  | some a b c d => exact .some a b (fill_unlog c) (resolve_unlog d)
  | none a b => exact .none a b

theorem tail_log {root : Nat} {E : Env} {i : Bytes} {m : RemotingMessage} {r : Bytes} (h : Tail root E i m r) :
    ∃ L, LTail root E i m r L := by
  cases h with
  | value h => exact ⟨_, .value h⟩
  | method h h' =>
    obtain ⟨_, h2⟩ := records_log h'
    cases h with
    | call a b c d => obtain ⟨_, h1⟩ := callArray_log c; exact ⟨_, .method (.call a b h1 d) h2⟩
    | «return» a b c d => obtain ⟨_, h1⟩ := callArray_log c; exact ⟨_, .method (.return a b h1 d) h2⟩

theorem tail_unlog {root : Nat} {E : Env} {i : Bytes} {m : RemotingMessage} {r : Bytes} {L : List Event}
    (h : LTail root E i m r L) : Tail root E i m r := by
  cases h with
  | value h => exact .value h
  | method h h' =>
    have h2 := records_unlog h'
    cases h with
    | call a b c d => exact .method (.call a b (callArray_unlog c) d) h2
    | «return» a b c d => exact .method (.return a b (callArray_unlog c) d) h2

/-- **C87** The judgement with a log is the one without: exactly the messages have a log. -/
theorem C87_log (w : Bytes) (m : RemotingMessage) : Message w m ↔ ∃ L, LMessage w m L := by
  constructor
  · intro h
    unfold Message at h
    generalize hr : ([] : Bytes) = r at h
    cases h with
    | mk a b c =>
      subst hr
      obtain ⟨_, h1⟩ := records_log b
      obtain ⟨_, h2⟩ := tail_log c
      exact ⟨_, .mk a h1 h2⟩
  · rintro ⟨L, h⟩
    cases h with
    | mk a b c => exact .mk a (records_unlog b) (tail_unlog c)

/-! ## References come after what they refer to -/

/-- How often an object with the id `k` is in the table. -/
def held (E : Env) (k : Nat) : Nat := if (E.objs k).isSome then 1 else 0

/-- Starting with `a` objects with the id `k` in the table, at each point of `L` at most as many references as objects have
been seen, and `b` are left at the end. -/
structure Balanced (k a b : Nat) (L : List Event) : Prop where
  before : ∀ p, p <+: L → p.count (.refers k) ≤ p.count (.closed k) + a
  total : L.count (.refers k) + b ≤ L.count (.closed k) + a

section
omit [Platform]

theorem Balanced.nil (k a : Nat) : Balanced k a a [] :=
  ⟨fun p hp => by rw [List.prefix_nil.mp hp]; simp, by simp⟩

theorem Balanced.weaken {k a b a' b' : Nat} {L : List Event} (h : Balanced k a b L) (ha : a ≤ a') (hb : b' ≤ b) :
    Balanced k a' b' L :=
  ⟨fun p hp => Nat.le_trans (h.before p hp) (by omega), by have := h.total; omega⟩

theorem prefix_append_cases {α : Type} {p L L' : List α} (h : p <+: L ++ L') : p <+: L ∨ ∃ q, q <+: L' ∧ p = L ++ q := by
  obtain ⟨t, ht⟩ := h
  rcases List.append_eq_append_iff.mp ht with ⟨q, h1, h2⟩ | ⟨q, h1, h2⟩
  · exact .inl ⟨q, h1.symm⟩
  · exact .inr ⟨q, ⟨t, h2.symm⟩, h1⟩

theorem Balanced.append {k a b c : Nat} {L L' : List Event} (h : Balanced k a b L) (h' : Balanced k b c L') :
    Balanced k a c (L ++ L') := by
  have ht := h.total
  constructor
  · intro p hp
    rcases prefix_append_cases hp with h1 | ⟨q, hq, rfl⟩
    · exact h.before p h1
    · have := h'.before q hq
      rw [List.count_append, List.count_append]
      omega
  · have := h'.total
    rw [List.count_append, List.count_append]
    omega

theorem Balanced.single {k a b : Nat} {e : Event}
    (h : (if e = .refers k then 1 else 0) + b ≤ (if e = .closed k then 1 else 0) + a) : Balanced k a b [e] := by
  have key : ([e].count (.refers k) = if e = .refers k then 1 else 0) ∧ ([e].count (.closed k) = if e = .closed k then 1 else 0) := by
    simp [List.count_cons]
  constructor
  · intro p hp
    rcases List.prefix_cons_iff.mp hp with rfl | ⟨q, rfl, hq⟩
    · simp
    · rw [List.prefix_nil.mp hq, key.1, key.2]; omega
  · rw [key.1, key.2]; exact h

theorem Balanced.opened (k a id : Nat) : Balanced k a a [.opened id] := .single (by simp)

theorem Balanced.closed (k a id : Nat) : Balanced k a (a + if id = k then 1 else 0) [.closed id] :=
  .single (by simp [Nat.add_comm])

theorem Spec.OptLib.held {E : Env} {i : Bytes} {E1 : Env} {r : Bytes} (h : OptLib E i E1 r) (k : Nat) : Nrbf.held E1 k = Nrbf.held E k := by
  cases h <;> rfl

/-- Something in place, or a record without members. -/
theorem Balanced.leaf (k a id : Nat) : Balanced k a (a + if id = k then 1 else 0) [.opened id, .closed id] :=
  Balanced.append (L := [.opened id]) (.opened k a id) (.closed k a id)

/-- A record with its members. -/
theorem Balanced.record {k a b c id : Nat} {L L' : List Event} (h : Balanced k a b L) (h' : Balanced k b c L') :
    Balanced k a (c + if id = k then 1 else 0) ([.opened id] ++ L ++ L' ++ [.closed id]) :=
  (((Balanced.opened k a id).append h).append h').append (.closed k c id)

theorem held_drop (E : Env) (id k : Nat) : held (E.drop id) k = if k = id then 0 else held E k := by
  unfold held Env.drop
  by_cases h : k = id
  · simp [h]
  · simp [h]

theorem held_add (E : Env) (id k : Nat) (v : Value) : held (E.add id v) k = if k = id then 1 else held E k := by
  unfold held Env.add
  by_cases h : k = id
  · simp [h]
  · simp [h]

theorem held_le (E : Env) (k : Nat) : held E k ≤ 1 := by unfold held; split <;> omega

end

mutual
theorem member_balanced (k : Nat) : ∀ {T : Option MemberType} {E : Env} {i : Bytes} {slot : Slot} {E' : Env} {r : Bytes}
    {L : List Event}, LMember T E i slot E' r L → Balanced k (held E k) (held E' k) L
  | _, _, _, _, _, _, _, .primitive a b => by rw [a.held]; exact .nil ..
  | _, _, _, _, _, _, _, .reference a b => by rw [a.held]; exact .nil ..
  | _, _, _, _, _, _, _, .string a b => by rw [a.held]; exact (Balanced.leaf ..).weaken (Nat.le_refl _) (by omega)
  | _, _, _, _, _, _, _, .nulls a b => by rw [a.held]; exact .nil ..
  | _, _, _, _, _, _, _, .object a b => by
    have ih := class_balanced k b
    rw [a.held] at ih; exact ih.weaken (Nat.le_refl _) (by omega)
  | _, _, _, _, _, _, _, .typedPrimitive a b => by rw [a.held]; exact .nil ..
  | _, _, _, _, _, _, _, .typedString a b => by rw [a.held]; exact (Balanced.leaf ..).weaken (Nat.le_refl _) (by omega)
  | _, _, _, _, _, _, _, .typedObject a b => by
    have ih := member_balanced k b
    rw [a.held] at ih; exact ih
  | _, _, _, _, _, _, _, .typedObjectArray a b => by
    have ih := member_balanced k b
    rw [a.held] at ih; exact ih
  | _, _, _, _, _, _, _, .systemClass a b => by
    have ih := class_balanced k b
    rw [a.held] at ih; exact ih.weaken (Nat.le_refl _) (by omega)
  | _, _, _, _, _, _, _, .systemClassNulls a b => by rw [a.held]; exact .nil ..
  | _, _, _, _, _, _, _, .class a l b => by
    have ih := class_balanced k b
    rw [a.held] at ih; exact ih.weaken (Nat.le_refl _) (by omega)
  | _, _, _, _, _, _, _, .classNulls a l b => by rw [a.held]; exact .nil ..
  | _, _, _, _, _, _, _, .stringArrayString a b => by rw [a.held]; exact (Balanced.leaf ..).weaken (Nat.le_refl _) (by omega)
  | _, _, _, _, _, _, _, .stringArrayReference a b => by rw [a.held]; exact .nil ..
  | _, _, _, _, _, _, _, .stringArrayNulls a b => by rw [a.held]; exact .nil ..
  | _, _, _, _, _, _, _, .primitiveArray a b => by rw [a.held]; exact .nil ..
termination_by structural _ _ _ _ _ _ _ h => h
theorem members_balanced (k : Nat) : ∀ {Ts : List (Option MemberType)} {E : Env} {i : Bytes} {slots : List Slot} {E' : Env}
    {r : Bytes} {L : List Event}, LMembers Ts E i slots E' r L → Balanced k (held E k) (held E' k) L
  | _, _, _, _, _, _, _, .nil => .nil ..
  | _, _, _, _, _, _, _, .cons a b => (member_balanced k a).append (members_balanced k b)
termination_by structural _ _ _ _ _ _ _ h => h
theorem fill_balanced (k : Nat) : ∀ {T : Option MemberType} {len : Nat} {E : Env} {i : Bytes} {slots : List Slot} {E' : Env}
    {r : Bytes} {L : List Event}, LFill T len E i slots E' r L → Balanced k (held E k) (held E' k) L
  | _, _, _, _, _, _, _, _, .done => .nil ..
  | _, _, _, _, _, _, _, _, .step l a b => (member_balanced k a).append (fill_balanced k b)
termination_by structural _ _ _ _ _ _ _ _ h => h
theorem resolve_balanced (k : Nat) : ∀ {slots : List Slot} {E : Env} {i : Bytes} {vs : List Value} {E' : Env} {r : Bytes}
    {L : List Event}, LResolve slots E i vs E' r L → Balanced k (held E k) (held E' k) L
  | _, _, _, _, _, _, _, .nil => .nil ..
  | _, _, _, _, _, _, _, .value a => resolve_balanced k a
  | _, _, _, _, _, _, _, .nulls a => resolve_balanced k a
  | _, _, _, _, _, _, _, @LResolve.known _ id _ E _ _ _ _ _ _ hk a => by
    have ih := resolve_balanced k a
    refine Balanced.append (.single ?_) ih
    rw [held_drop]
    by_cases h : k = id
    · subst h
      simp [held, hk]
    · have : id ≠ k := fun e => h e.symm
      simp [h, this]
  | _, _, _, _, _, _, _, @LResolve.next _ id _ _ _ _ _ _ _ _ _ _ _ _ a b => by
    have ih := record_balanced k a
    have ih' := resolve_balanced k b
    refine (ih.append (.single ?_)).append ih'
    rw [held_drop]
    by_cases h : k = id
    · subst h
      simp
    · have : id ≠ k := fun e => h e.symm
      simp [h, this]
termination_by structural _ _ _ _ _ _ _ h => h
theorem class_balanced (k : Nat) : ∀ {E : Env} {i : Bytes} {id : Nat} {name : Str} {library : Option Str}
    {ms : List (Str × Value)} {E' : Env} {r : Bytes} {L : List Event}, LClass E i id name library ms E' r L →
    Balanced k (held E k) (held E' k + if id = k then 1 else 0) L
  | _, _, _, _, _, _, _, _, _, .mk a b c d e => by
    have ih := members_balanced k d
    rw [a.held] at ih
    exact ih.record (resolve_balanced k e)
termination_by structural _ _ _ _ _ _ _ _ _ h => h
theorem record_balanced (k : Nat) : ∀ {E : Env} {i : Bytes} {id : Nat} {v : Value} {E' : Env} {r : Bytes} {L : List Event},
    LRecord E i id v E' r L → Balanced k (held E k) (held E' k + if id = k then 1 else 0) L
  | _, _, _, _, _, _, _, .object a => class_balanced k a
  | _, _, _, _, _, _, _, .objectArray a b c => (fill_balanced k b).record (resolve_balanced k c)
  | _, _, _, _, _, _, _, .primitiveArray a b => .leaf ..
  | _, _, _, _, _, _, _, .stringArray a b c => (fill_balanced k b).record (resolve_balanced k c)
  | _, _, _, _, _, _, _, .array a p b c d => (members_balanced k b).record (resolve_balanced k c)
  | _, _, _, _, _, _, _, .string a => .leaf ..
termination_by structural _ _ _ _ _ _ _ h => h
end

theorem records_balanced (k : Nat) {E : Env} {i : Bytes} {E' : Env} {r : Bytes} {L : List Event} (h : LRecords E i E' r L) :
    Balanced k (held E k) (held E' k) L := by
  induction h with
  | nil => exact .nil ..
  | @cons E i id v E1 _ _ _ _ _ h _ ih =>
    refine (record_balanced k h).append (ih.weaken ?_ (Nat.le_refl _))
    rw [held_add]
    by_cases e : k = id
    · subst e; simp
    · have : id ≠ k := fun h => e h.symm
      simp [e, this]

theorem tail_balanced (k : Nat) {root : Nat} {E : Env} {i : Bytes} {m : RemotingMessage} {r : Bytes} {L : List Event}
    (h : LTail root E i m r L) : ∃ b, Balanced k (held E k) b L := by
  have hca : ∀ {root : Nat} {E : Env} {i : Bytes} {o : Option (List Value)} {E' : Env} {r : Bytes} {L : List Event},
      LCallArray root E i o E' r L → Balanced k (held E k) (held E' k) L := by
    intro root E i o E' r L h
    cases h with
    | some a b c d =>
      have ih := fill_balanced k c
      rw [a.held] at ih
      exact (ih.record (resolve_balanced k d)).weaken (Nat.le_refl _) (by omega)
    | none => exact .nil ..
  cases h with
  | value => exact ⟨_, .nil ..⟩
  | method h h' =>
    have h2 := records_balanced k h'
    cases h with
    | call _ _ c _ => exact ⟨_, (hca c).append h2⟩
    | «return» _ _ c _ => exact ⟨_, (hca c).append h2⟩

theorem message_balanced (k : Nat) {w : Bytes} {m : RemotingMessage} {L : List Event} (h : LMessage w m L) :
    ∃ b, Balanced k 0 b L := by
  cases h with
  | mk _ b c =>
    have h1 := records_balanced k b
    obtain ⟨_, h2⟩ := tail_balanced k c
    have h0 : held Env.empty k = 0 := rfl
    rw [h0] at h1
    exact ⟨_, h1.append h2⟩

/-- **C87** At every point of a message, no more references to an id have got their value than objects with this id have been
read completely. -/
theorem C87_before {w : Bytes} {m : RemotingMessage} {L : List Event} (h : LMessage w m L) (k : Nat) {p q : List Event}
    (hL : L = p ++ q) : p.count (.refers k) ≤ p.count (.closed k) := by
  obtain ⟨_, hb⟩ := message_balanced k h
  exact hb.before p ⟨q, hL.symm⟩

/-- **C87** If no two records have the same id, no two references are to the same object. -/
theorem C87_shared {w : Bytes} {m : RemotingMessage} {L : List Event} (h : LMessage w m L) (hd : DistinctIds L) (k : Nat) :
    L.count (.refers k) ≤ 1 :=
  Nat.le_trans (C87_before h k (q := []) (by simp)) (hd k)

/-- If the ids are distinct, what an object refers to is complete before the object is. -/
theorem refers_earlier {w : Bytes} {m : RemotingMessage} {L : List Event} (h : LMessage w m L) (hd : DistinctIds L) {x y : Nat}
    (hxy : RefersTo L x y) : L.idxOf (.closed y) < L.idxOf (.closed x) := by
  obtain ⟨a, b, c, hL, hb⟩ := hxy
  obtain ⟨b1, b2, rfl⟩ := List.append_of_mem hb
  have hq := C87_before h y (p := a ++ .opened x :: (b1 ++ [.refers y])) (q := b2 ++ .closed x :: c) (by simp [hL])
  have hy : Event.closed y ∈ a ++ Event.opened x :: b1 := by
    have : 0 < (a ++ Event.opened x :: (b1 ++ [Event.refers y])).count (.closed y) := by
      refine Nat.lt_of_lt_of_le ?_ hq
      exact List.count_pos_iff.mpr (by simp)
    have := List.count_pos_iff.mp this
    simpa using this
  have hx : Event.closed x ∉ a ++ Event.opened x :: (b1 ++ Event.refers y :: b2) := by
    intro hm
    have h2 := hd x
    have h3 : 0 < (a ++ Event.opened x :: (b1 ++ Event.refers y :: b2)).count (.closed x) := List.count_pos_iff.mpr hm
    have h4 : L = (a ++ Event.opened x :: (b1 ++ Event.refers y :: b2)) ++ Event.closed x :: c := by simp [hL]
    rw [h4, List.count_append, List.count_cons_self] at h2
    omega
  have h5 : L = (a ++ Event.opened x :: b1) ++ (Event.refers y :: b2 ++ Event.closed x :: c) := by simp [hL]
  have h6 : L = (a ++ Event.opened x :: (b1 ++ Event.refers y :: b2)) ++ Event.closed x :: c := by simp [hL]
  have h7 : L.idxOf (.closed y) < (a ++ Event.opened x :: b1).length := by
    rw [h5, List.idxOf_append, if_pos hy]
    exact List.idxOf_lt_length_of_mem hy
  have h8 : (a ++ Event.opened x :: b1).length ≤ L.idxOf (.closed x) := by
    rw [h6, List.idxOf_append, if_neg hx]
    simp only [List.length_append, List.length_cons]
    omega
  omega

/-- **C87** If no two records have the same id, the objects do not refer to each other in a circle. -/
theorem C87_acyclic {w : Bytes} {m : RemotingMessage} {L : List Event} (h : LMessage w m L) (hd : DistinctIds L) (x : Nat) :
    ¬ Relation.TransGen (RefersTo L) x x := by
  have key : ∀ y, Relation.TransGen (RefersTo L) x y → L.idxOf (.closed y) < L.idxOf (.closed x) := by
    intro y hy
    induction hy with
    | single h1 => exact refers_earlier h hd h1
    | tail _ h1 ih => exact Nat.lt_trans (refers_earlier h hd h1) ih
  exact fun hx => Nat.lt_irrefl _ (key x hx)

/-! ## The log is nested -/

section
omit [Platform]

theorem Spec.Nested.leaf (id : Nat) : Nested [.opened id, .closed id] := Nested.object id .nil

theorem Spec.Nested.record {id : Nat} {L L' : List Event} (h : Nested L) (h' : Nested L') :
    Nested ([.opened id] ++ L ++ L' ++ [.closed id]) := by
  have := Nested.object id (h.append h')
  rwa [← List.append_assoc] at this

end

mutual
theorem member_nested : ∀ {T : Option MemberType} {E : Env} {i : Bytes} {slot : Slot} {E' : Env} {r : Bytes}
    {L : List Event}, LMember T E i slot E' r L → Nested L
  | _, _, _, _, _, _, _, .primitive a b => .nil
  | _, _, _, _, _, _, _, .reference a b => .nil
  | _, _, _, _, _, _, _, .string a b => .leaf _
  | _, _, _, _, _, _, _, .nulls a b => .nil
  | _, _, _, _, _, _, _, .object a b => class_nested b
  | _, _, _, _, _, _, _, .typedPrimitive a b => .nil
  | _, _, _, _, _, _, _, .typedString a b => .leaf _
  | _, _, _, _, _, _, _, .typedObject a b => member_nested b
  | _, _, _, _, _, _, _, .typedObjectArray a b => member_nested b
  | _, _, _, _, _, _, _, .systemClass a b => class_nested b
  | _, _, _, _, _, _, _, .systemClassNulls a b => .nil
  | _, _, _, _, _, _, _, .class a l b => class_nested b
  | _, _, _, _, _, _, _, .classNulls a l b => .nil
  | _, _, _, _, _, _, _, .stringArrayString a b => .leaf _
  | _, _, _, _, _, _, _, .stringArrayReference a b => .nil
  | _, _, _, _, _, _, _, .stringArrayNulls a b => .nil
  | _, _, _, _, _, _, _, .primitiveArray a b => .nil
termination_by structural _ _ _ _ _ _ _ h => h
theorem members_nested : ∀ {Ts : List (Option MemberType)} {E : Env} {i : Bytes} {slots : List Slot} {E' : Env}
    {r : Bytes} {L : List Event}, LMembers Ts E i slots E' r L → Nested L
  | _, _, _, _, _, _, _, .nil => .nil
  | _, _, _, _, _, _, _, .cons a b => (member_nested a).append (members_nested b)
termination_by structural _ _ _ _ _ _ _ h => h
theorem fill_nested : ∀ {T : Option MemberType} {len : Nat} {E : Env} {i : Bytes} {slots : List Slot} {E' : Env}
    {r : Bytes} {L : List Event}, LFill T len E i slots E' r L → Nested L
  | _, _, _, _, _, _, _, _, .done => .nil
  | _, _, _, _, _, _, _, _, .step l a b => (member_nested a).append (fill_nested b)
termination_by structural _ _ _ _ _ _ _ _ h => h
theorem resolve_nested : ∀ {slots : List Slot} {E : Env} {i : Bytes} {vs : List Value} {E' : Env} {r : Bytes}
    {L : List Event}, LResolve slots E i vs E' r L → Nested L
  | _, _, _, _, _, _, _, .nil => .nil
  | _, _, _, _, _, _, _, .value a => resolve_nested a
  | _, _, _, _, _, _, _, .nulls a => resolve_nested a
  | _, _, _, _, _, _, _, .known _ a => (Nested.refers _).append (resolve_nested a)
  | _, _, _, _, _, _, _, .next _ a b => ((record_nested a).append (.refers _)).append (resolve_nested b)
termination_by structural _ _ _ _ _ _ _ h => h
theorem class_nested : ∀ {E : Env} {i : Bytes} {id : Nat} {name : Str} {library : Option Str}
    {ms : List (Str × Value)} {E' : Env} {r : Bytes} {L : List Event}, LClass E i id name library ms E' r L → Nested L
  | _, _, _, _, _, _, _, _, _, .mk a b c d e => (members_nested d).record (resolve_nested e)
termination_by structural _ _ _ _ _ _ _ _ _ h => h
theorem record_nested : ∀ {E : Env} {i : Bytes} {id : Nat} {v : Value} {E' : Env} {r : Bytes} {L : List Event},
    LRecord E i id v E' r L → Nested L
  | _, _, _, _, _, _, _, .object a => class_nested a
  | _, _, _, _, _, _, _, .objectArray a b c => (fill_nested b).record (resolve_nested c)
  | _, _, _, _, _, _, _, .primitiveArray a b => .leaf _
  | _, _, _, _, _, _, _, .stringArray a b c => (fill_nested b).record (resolve_nested c)
  | _, _, _, _, _, _, _, .array a p b c d => (members_nested b).record (resolve_nested c)
  | _, _, _, _, _, _, _, .string a => .leaf _
termination_by structural _ _ _ _ _ _ _ h => h
end

theorem records_nested {E : Env} {i : Bytes} {E' : Env} {r : Bytes} {L : List Event} (h : LRecords E i E' r L) : Nested L := by
  induction h with
  | nil => exact .nil
  | cons h _ ih => exact (record_nested h).append ih

/-- **C87** In the log of a message the objects are nested in one another. -/
theorem C87_nested {w : Bytes} {m : RemotingMessage} {L : List Event} (h : LMessage w m L) : Nested L := by
  cases h with
  | mk _ b c =>
    refine (records_nested b).append ?_
    have hca : ∀ {root : Nat} {E : Env} {i : Bytes} {o : Option (List Value)} {E' : Env} {r : Bytes} {L : List Event},
        LCallArray root E i o E' r L → Nested L := by
      intro root E i o E' r L h
      cases h with
      | some _ _ c d => exact (fill_nested c).record (resolve_nested d)
      | none => exact .nil
    cases c with
    | value => exact .nil
    | method h h' =>
      have h2 := records_nested h'
      cases h with
      | call _ _ c _ => exact (hca c).append h2
      | «return» _ _ c _ => exact (hca c).append h2

omit [Platform] in
theorem Spec.Nested.count {L : List Event} (h : Nested L) (id : Nat) : L.count (.opened id) = L.count (.closed id) := by
  induction h with
  | nil => rfl
  | refers => simp
  | append _ _ ih ih' => rw [List.count_append, List.count_append, ih, ih']
  | object k _ ih =>
    simp only [List.count_append, List.count_cons, List.count_nil, ih]
    by_cases e : k = id
    · subst e; simp; omega
    · simp [e]

/-- **C87** An accepted input, unless it is accepted by a second attempt (C29), has a log; in it the objects are nested, no
reference comes before its object, and if the ids are distinct, no object is shared and there is no circle. -/
theorem C87_accepted {w : Bytes} {m : RemotingMessage} (h : deserialize w = .ok m) :
    Retried w m ∨ ∃ L, LMessage w m L ∧ Nested L ∧
      (∀ k p q, L = p ++ q → p.count (.refers k) ≤ p.count (.closed k)) ∧
      (DistinctIds L → (∀ k, L.count (.refers k) ≤ 1) ∧ ∀ x, ¬ Relation.TransGen (RefersTo L) x x) := by
  rcases C32_message_sound h with hm | hr
  · obtain ⟨L, hL⟩ := (C87_log w m).mp hm
    exact .inr ⟨L, hL, C87_nested hL, fun k _ _ => C87_before hL k, fun hd => ⟨C87_shared hL hd, C87_acyclic hL hd⟩⟩
  · exact .inl hr

/-! ## Examples -/

open Tests (header)

/-- The array 1 refers to the array 2 and the string 3, the array 2 to the string 4. -/
def chained : Bytes := header 1 ++ (orderRoot ++ (order2 ++ (order4 ++ (order3 ++ [11]))))

def chainedLog : List Event :=
  [.opened 1, .opened 2, .opened 4, .closed 4, .refers 4, .closed 2, .refers 2, .opened 3, .closed 3, .refers 3, .closed 1]

theorem chained_log : LMessage chained (.value (.array [.array [.string [52]], .string [51]])) chainedLog := by
  have head : ∀ (c n : UInt8) (x y : Nat), IsId x [c,0,0,0] → IsLength y [n,0,0,0] →
      IsArrayHead 16 x y [16, c,0,0,0, n,0,0,0] := fun c n _ _ h h' => ⟨_, _, h, h', rfl⟩
  have ref : ∀ (c : UInt8) (x : Nat) (E : Env) (i : Bytes), IsId x [c,0,0,0] →
      LMember none E ([9, c,0,0,0] ++ i) (.ref x) E i [] := fun c _ E i h =>
    .reference (.none (.inl (by simp))) ⟨_, h, rfl⟩
  have str : ∀ (c d : UInt8) (x : Nat) (E : Env) (i : Bytes), IsId x [c,0,0,0] → d.toNat < 128 →
      LRecord E ([6, c,0,0,0, 1,d] ++ i) x (.string [d]) E i [.opened x, .closed x] := fun c d _ E i h h' =>
    .string ⟨_, _, h, short_string d h', rfl⟩
  have id1 : IsId 1 [1,0,0,0] := ⟨by decide, by decide, rfl⟩
  have id2 : IsId 2 [2,0,0,0] := ⟨by decide, by decide, rfl⟩
  have id3 : IsId 3 [3,0,0,0] := ⟨by decide, by decide, rfl⟩
  have id4 : IsId 4 [4,0,0,0] := ⟨by decide, by decide, rfl⟩
  have r2 : LRecord Env.empty (order2 ++ (order4 ++ (order3 ++ [11]))) 2 (.array [.string [52]]) (Env.empty.drop 4) (order3 ++ [11])
      [.opened 2, .opened 4, .closed 4, .refers 4, .closed 2] :=
    .objectArray (L := []) (L' := [.opened 4, .closed 4] ++ [.refers 4] ++ []) (head 2 1 2 1 id2 ⟨by decide, rfl⟩)
      (.step (by decide) (ref 4 4 _ _ id4) .done) (.next rfl (str 4 52 4 _ _ id4 (by decide)) .nil)
  have r1 : LRecord Env.empty (orderRoot ++ (order2 ++ (order4 ++ (order3 ++ [11])))) 1 (.array [.array [.string [52]], .string [51]])
      (((Env.empty.drop 4).drop 2).drop 3) [11] chainedLog :=
    .objectArray (L := []) (L' := [.opened 2, .opened 4, .closed 4, .refers 4, .closed 2] ++ [.refers 2] ++
        ([.opened 3, .closed 3] ++ [.refers 3] ++ [])) (head 1 2 1 2 id1 ⟨by decide, rfl⟩)
      (.step (by decide) (ref 2 2 _ _ id2) (.step (by decide) (ref 3 3 _ _ id3) .done))
      (.next rfl r2 (.next rfl (str 3 51 3 _ _ id3 (by decide)) .nil))
  exact .mk (L' := []) (isHeader_header 1 (by decide)) (.cons r1 .nil) (.value (.inr ⟨by decide, rfl⟩))

omit [Platform] in
theorem chained_distinct : DistinctIds chainedLog := by
  intro id
  by_cases h : id = 1 ∨ id = 2 ∨ id = 3 ∨ id = 4
  · rcases h with rfl | rfl | rfl | rfl <;> decide
  · have h0 : Event.closed id ∉ chainedLog := by
      simp only [chainedLog, List.mem_cons, List.not_mem_nil, Event.closed.injEq, reduceCtorEq, or_false, false_or]
      omega
    rw [List.count_eq_zero_of_not_mem h0]
    omega

/-- C87: what refers to what in the example. -/
example : RefersTo chainedLog 1 2 ∧ RefersTo chainedLog 1 3 ∧ RefersTo chainedLog 2 4 :=
  ⟨⟨[], [.opened 2, .opened 4, .closed 4, .refers 4, .closed 2, .refers 2, .opened 3, .closed 3, .refers 3], [], rfl, by decide⟩,
    ⟨[], [.opened 2, .opened 4, .closed 4, .refers 4, .closed 2, .refers 2, .opened 3, .closed 3, .refers 3], [], rfl, by decide⟩,
    ⟨[.opened 1], [.opened 4, .closed 4, .refers 4], [.refers 2, .opened 3, .closed 3, .refers 3, .closed 1], rfl, by decide⟩⟩

/-- C87 for the example. -/
example : Message chained (.value (.array [.array [.string [52]], .string [51]])) := (C87_log _ _).mpr ⟨_, chained_log⟩
example : Nested chainedLog := C87_nested chained_log
example : chainedLog.count (.refers 2) ≤ 1 := C87_shared chained_log chained_distinct 2
example : ¬ Relation.TransGen (RefersTo chainedLog) 1 1 := C87_acyclic chained_log chained_distinct 1
example : [Event.opened 1, .opened 2, .opened 4, .closed 4, .refers 4].count (.refers 4) ≤
    [Event.opened 1, .opened 2, .opened 4, .closed 4, .refers 4].count (.closed 4) :=
  C87_before chained_log 4 (q := [.closed 2, .refers 2, .opened 3, .closed 3, .refers 3, .closed 1]) rfl

example : Retried chained (.value (.array [.array [.string [52]], .string [51]])) ∨ ∃ L,
    LMessage chained (.value (.array [.array [.string [52]], .string [51]])) L ∧ Nested L :=
  (C87_accepted (C31_complete ((C87_log _ _).mpr ⟨_, chained_log⟩))).imp_right fun ⟨L, h, hn, _⟩ => ⟨L, h, hn⟩

/-- C87: an array which refers to the string 2 twice, and an array which refers to itself, are rejected; with the string 2
repeated, the first one is accepted. -/
theorem C87_rejected :
    (∃ e, deserialize (header 1 ++ [16, 1,0,0,0, 2,0,0,0, 9, 2,0,0,0, 9, 2,0,0,0, 6, 2,0,0,0, 1,50, 11]) = .err e) ∧
    (∃ e, deserialize (header 1 ++ [16, 1,0,0,0, 1,0,0,0, 9, 1,0,0,0, 11]) = .err e) ∧
    deserialize (header 1 ++ [16, 1,0,0,0, 2,0,0,0, 9, 2,0,0,0, 9, 2,0,0,0, 6, 2,0,0,0, 1,50, 6, 2,0,0,0, 1,50, 11]) =
      .ok (.value (.array [.string [50], .string [50]])) := by
  have key : ∀ o : ApiResult RemotingMessage, (match o with
      | .err _ => true
      | _ => false) = true → ∃ e, o = .err e := by
    intro o h
    cases o with
    | err e => exact ⟨e, rfl⟩
    | _ => cases h
  exact ⟨key _ (by kernel_decide), key _ (by kernel_decide), by kernel_decide⟩

end Nrbf
