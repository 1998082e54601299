import Verif.Spec.Independent
import Verif.Lemmas.Grammar

/-! # The record grammar does not look at objects that are not referred to -/

set_option autoImplicit false

namespace Nrbf.Spec

variable [Platform]

/-- No reference to an object in `K` occurs between `i` and its suffix `r`. -/
def Unseen (K : Nat → Prop) (i r : Bytes) : Prop :=
  ∀ k p b s, K k → IsReference k b → i = p ++ (b ++ s) → ¬ r <:+ s

omit [Platform] in
theorem Unseen.sub {K : Nat → Prop} {i r i1 r1 : Bytes} (h : Unseen K i r) (hi : i1 <:+ i) (hr : r <:+ r1) :
    Unseen K i1 r1 := by
  intro k p b s hk hb he hs
  obtain ⟨q, rfl⟩ := hi
  exact h k (q ++ p) b s hk hb (by rw [he, List.append_assoc]) (hr.trans hs)

omit [Platform] in
theorem SameExcept.addLib {K : Nat → Prop} {E F : Env} (h : SameExcept K E F) (l : Nat) (n : Str) :
    SameExcept K (E.addLib l n) (F.addLib l n) := by
  refine ⟨?_, fun k hk => h.2 k hk⟩
  simp only [Env.addLib, h.1]

omit [Platform] in
theorem SameExcept.drop {K : Nat → Prop} {E F : Env} (h : SameExcept K E F) (id : Nat) :
    SameExcept K (E.drop id) (F.drop id) := by
  refine ⟨h.1, fun k hk => ?_⟩
  simp only [Env.drop, h.2 k hk]

omit [Platform] in
theorem SameExcept.add {K : Nat → Prop} {E F : Env} (h : SameExcept K E F) (id : Nat) (v : Value) :
    SameExcept K (E.add id v) (F.add id v) := by
  refine ⟨h.1, fun k hk => ?_⟩
  simp only [Env.add, h.2 k hk]

omit [Platform] in
theorem SameExcept.symm {K : Nat → Prop} {E F : Env} (h : SameExcept K E F) : SameExcept K F E :=
  ⟨h.1.symm, fun k hk => (h.2 k hk).symm⟩

omit [Platform] in
theorem SameExcept.refl (K : Nat → Prop) (E : Env) : SameExcept K E E := ⟨rfl, fun _ _ => rfl⟩

omit [Platform] in
theorem SameExcept.trans {K : Nat → Prop} {E F G : Env} (h : SameExcept K E F) (h' : SameExcept K F G) :
    SameExcept K E G :=
  ⟨h.1.trans h'.1, fun k hk => (h.2 k hk).trans (h'.2 k hk)⟩

omit [Platform] in
theorem OptLib.frame {K : Nat → Prop} {E F : Env} {i : Bytes} {E' : Env} {r : Bytes} (hs : SameExcept K E F)
    (h : OptLib E i E' r) : ∃ F', OptLib F i F' r ∧ SameExcept K E' F' := by
  cases h with
  | none hn => exact ⟨F, .none hn, hs⟩
  | some hl hn => exact ⟨_, .some hl (by rw [← hs.1]; exact hn), hs.addLib _ _⟩

/-- No slot refers to an object in `K`. -/
def Apart (K : Nat → Prop) (slots : List Slot) : Prop := ∀ k, .ref k ∈ slots → ¬ K k

omit [Platform] in
theorem OptLib.apart {K : Nat → Prop} {E : Env} {i : Bytes} {k : Nat} {E' : Env} {b r : Bytes}
    (h : OptLib E i E' (b ++ r)) (hb : IsReference k b) (hu : Unseen K i r) : ¬ K k := by
  intro hk
  obtain ⟨p, rfl⟩ := h.suffix
  exact hu k p _ _ hk hb rfl (List.suffix_refl _)

theorem Member.apart {K : Nat → Prop} {T : Option MemberType} {E : Env} {i : Bytes} {slot : Slot} {E' : Env}
    {r : Bytes} : Member T E i slot E' r → Unseen K i r → ∀ k, slot = .ref k → ¬ K k
  | .primitive .., _, _, he => by cases he
  | .reference h hb, hu, _, he => by cases he; exact h.apart hb hu
  | .string .., _, _, he => by cases he
  | .nulls .., _, _, he => by cases he
  | .object .., _, _, he => by cases he
  | .typedPrimitive .., _, _, he => by cases he
  | .typedString .., _, _, he => by cases he
  | .typedObject h h1, hu, _, he => Member.apart h1 (hu.sub h.suffix (List.suffix_refl _)) _ he
  | .typedObjectArray h h1, hu, _, he => Member.apart h1 (hu.sub h.suffix (List.suffix_refl _)) _ he
  | .systemClass .., _, _, he => by cases he
  | .systemClassNulls .., _, _, he => by cases he
  | .class .., _, _, he => by cases he
  | .classNulls .., _, _, he => by cases he
  | .stringArrayString .., _, _, he => by cases he
  | .stringArrayReference h hb, hu, _, he => by cases he; exact h.apart hb hu
  | .stringArrayNulls .., _, _, he => by cases he
  | .primitiveArray h hb, hu, _, he => by cases he; exact h.apart hb hu

omit [Platform] in
theorem apart_cons {K : Nat → Prop} {slot : Slot} {slots : List Slot} (h : ∀ k, slot = .ref k → ¬ K k)
    (h' : Apart K slots) : Apart K (slot :: slots) := by
  intro k hk
  rcases List.mem_cons.mp hk with he | he
  · exact h k he.symm
  · exact h' k he

theorem Members.apart {K : Nat → Prop} {Ts : List (Option MemberType)} {E : Env} {i : Bytes} {slots : List Slot}
    {E' : Env} {r : Bytes} : Members Ts E i slots E' r → Unseen K i r → Apart K slots
  | .nil, _ => fun _ h => by cases h
  | .cons h h1, hu => apart_cons (h.apart (hu.sub (List.suffix_refl _) h1.suffix))
      (Members.apart h1 (hu.sub h.suffix (List.suffix_refl _)))

theorem Fill.apart {K : Nat → Prop} {T : Option MemberType} {n : Nat} {E : Env} {i : Bytes} {slots : List Slot}
    {E' : Env} {r : Bytes} : Fill T n E i slots E' r → Unseen K i r → Apart K slots
  | .done, _ => fun _ h => by cases h
  | .step _ h h1, hu => apart_cons (h.apart (hu.sub (List.suffix_refl _) h1.suffix))
      (Fill.apart h1 (hu.sub h.suffix (List.suffix_refl _)))

omit [Platform] in
theorem ClassHead.HasLibrary.frame {K : Nat → Prop} {h : ClassHead} {E F : Env} {l : Option Str}
    (hs : SameExcept K E F) (hl : h.HasLibrary E l) : h.HasLibrary F l := by
  unfold ClassHead.HasLibrary at hl ⊢
  rw [← hs.1]
  exact hl

mutual
theorem Member.frame {K : Nat → Prop} {T : Option MemberType} {E F : Env} {i : Bytes} {slot : Slot} {E' : Env}
    {r : Bytes} (hs : SameExcept K E F) (hu : Unseen K i r) :
    Member T E i slot E' r → ∃ F', Member T F i slot F' r ∧ SameExcept K E' F'
  | .primitive h h' => (h.frame hs).imp fun _ g => ⟨.primitive g.1 h', g.2⟩
  | .reference h h' => (h.frame hs).imp fun _ g => ⟨.reference g.1 h', g.2⟩
  | .string h h' => (h.frame hs).imp fun _ g => ⟨.string g.1 h', g.2⟩
  | .nulls h h' => (h.frame hs).imp fun _ g => ⟨.nulls g.1 h', g.2⟩
  | .object h h1 =>
    have ⟨_, g, gs⟩ := h.frame hs
    (Class.frame gs (hu.sub h.suffix (List.suffix_refl _)) h1).imp fun _ g1 => ⟨.object g g1.1, g1.2⟩
  | .typedPrimitive h h' => (h.frame hs).imp fun _ g => ⟨.typedPrimitive g.1 h', g.2⟩
  | .typedString h h' => (h.frame hs).imp fun _ g => ⟨.typedString g.1 h', g.2⟩
  | .typedObject h h1 =>
    have ⟨_, g, gs⟩ := h.frame hs
    (Member.frame gs (hu.sub h.suffix (List.suffix_refl _)) h1).imp fun _ g1 => ⟨.typedObject g g1.1, g1.2⟩
  | .typedObjectArray h h1 =>
    have ⟨_, g, gs⟩ := h.frame hs
    (Member.frame gs (hu.sub h.suffix (List.suffix_refl _)) h1).imp fun _ g1 => ⟨.typedObjectArray g g1.1, g1.2⟩
  | .systemClass h h1 =>
    have ⟨_, g, gs⟩ := h.frame hs
    (Class.frame gs (hu.sub h.suffix (List.suffix_refl _)) h1).imp fun _ g1 => ⟨.systemClass g g1.1, g1.2⟩
  | .systemClassNulls h h' => (h.frame hs).imp fun _ g => ⟨.systemClassNulls g.1 h', g.2⟩
  | .class h h' h1 =>
    have ⟨_, g, gs⟩ := h.frame hs
    (Class.frame gs (hu.sub h.suffix (List.suffix_refl _)) h1).imp fun _ g1 =>
      ⟨.class g (by rw [← gs.1]; exact h') g1.1, g1.2⟩
  | .classNulls h h' h'' =>
    (h.frame hs).imp fun _ g => ⟨.classNulls g.1 (by rw [← g.2.1]; exact h') h'', g.2⟩
  | .stringArrayString h h' => (h.frame hs).imp fun _ g => ⟨.stringArrayString g.1 h', g.2⟩
  | .stringArrayReference h h' => (h.frame hs).imp fun _ g => ⟨.stringArrayReference g.1 h', g.2⟩
  | .stringArrayNulls h h' => (h.frame hs).imp fun _ g => ⟨.stringArrayNulls g.1 h', g.2⟩
  | .primitiveArray h h' => (h.frame hs).imp fun _ g => ⟨.primitiveArray g.1 h', g.2⟩
theorem Members.frame {K : Nat → Prop} {Ts : List (Option MemberType)} {E F : Env} {i : Bytes}
    {slots : List Slot} {E' : Env} {r : Bytes} (hs : SameExcept K E F) (hu : Unseen K i r) :
    Members Ts E i slots E' r → ∃ F', Members Ts F i slots F' r ∧ SameExcept K E' F'
  | .nil => ⟨F, .nil, hs⟩
  | .cons h h1 =>
    have ⟨_, g, gs⟩ := Member.frame hs (hu.sub (List.suffix_refl _) h1.suffix) h
    (Members.frame gs (hu.sub h.suffix (List.suffix_refl _)) h1).imp fun _ g1 => ⟨.cons g g1.1, g1.2⟩
theorem Class.frame {K : Nat → Prop} {E F : Env} {i : Bytes} {id : Nat} {n : Str} {l : Option Str}
    {ms : List (Str × Value)} {E' : Env} {r : Bytes} (hs : SameExcept K E F) (hu : Unseen K i r) :
    Class E i id n l ms E' r → ∃ F', Class F i id n l ms F' r ∧ SameExcept K E' F'
  | .mk h h' h'' h1 h2 =>
    have hi := suffix_drop h.suffix
    have hm := hu.sub hi h2.suffix
    have ⟨_, g, gs⟩ := h.frame hs
    have ⟨_, g1, gs1⟩ := Members.frame gs hm h1
    (Resolve.frame gs1 (hu.sub (h1.suffix.trans hi) (List.suffix_refl _)) (h1.apart hm) h2).imp fun _ g2 =>
      ⟨.mk g h' (h''.frame gs) g1 g2.1, g2.2⟩
theorem Fill.frame {K : Nat → Prop} {T : Option MemberType} {n : Nat} {E F : Env} {i : Bytes}
    {slots : List Slot} {E' : Env} {r : Bytes} (hs : SameExcept K E F) (hu : Unseen K i r) :
    Fill T n E i slots E' r → ∃ F', Fill T n F i slots F' r ∧ SameExcept K E' F'
  | .done => ⟨F, .done, hs⟩
  | .step h' h h1 =>
    have ⟨_, g, gs⟩ := Member.frame hs (hu.sub (List.suffix_refl _) h1.suffix) h
    (Fill.frame gs (hu.sub h.suffix (List.suffix_refl _)) h1).imp fun _ g1 => ⟨.step h' g g1.1, g1.2⟩
theorem Resolve.frame {K : Nat → Prop} {E F : Env} {i : Bytes} {slots : List Slot} {vs : List Value}
    {E' : Env} {r : Bytes} (hs : SameExcept K E F) (hu : Unseen K i r) (ha : Apart K slots) :
    Resolve slots E i vs E' r → ∃ F', Resolve slots F i vs F' r ∧ SameExcept K E' F'
  | .nil => ⟨F, .nil, hs⟩
  | .value h => (Resolve.frame hs hu (fun k hk => ha k (List.mem_cons_of_mem _ hk)) h).imp
      fun _ g => ⟨.value g.1, g.2⟩
  | .nulls h => (Resolve.frame hs hu (fun k hk => ha k (List.mem_cons_of_mem _ hk)) h).imp
      fun _ g => ⟨.nulls g.1, g.2⟩
  | .known h' h =>
    (Resolve.frame (hs.drop _) hu (fun k hk => ha k (List.mem_cons_of_mem _ hk)) h).imp fun _ g =>
      ⟨.known (by rw [← hs.2 _ (ha _ List.mem_cons_self)]; exact h') g.1, g.2⟩
  | .next h' h h1 =>
    have ⟨_, g, gs⟩ := Record.frame hs (hu.sub (List.suffix_refl _) h1.suffix) h
    (Resolve.frame (gs.drop _) (hu.sub h.suffix (List.suffix_refl _))
      (fun k hk => ha k (List.mem_cons_of_mem _ hk)) h1).imp fun _ g1 =>
      ⟨.next (by rw [← hs.2 _ (ha _ List.mem_cons_self)]; exact h') g g1.1, g1.2⟩
theorem Record.frame {K : Nat → Prop} {E F : Env} {i : Bytes} {id : Nat} {v : Value} {E' : Env} {r : Bytes}
    (hs : SameExcept K E F) (hu : Unseen K i r) :
    Record E i id v E' r → ∃ F', Record F i id v F' r ∧ SameExcept K E' F'
  | .object h => (Class.frame hs hu h).imp fun _ g => ⟨.object g.1, g.2⟩
  | .objectArray h' h h1 =>
    have hi := List.suffix_append _ _
    have hm := hu.sub hi h1.suffix
    have ⟨_, g, gs⟩ := Fill.frame hs hm h
    (Resolve.frame gs (hu.sub (h.suffix.trans hi) (List.suffix_refl _)) (h.apart hm) h1).imp fun _ g1 =>
      ⟨.objectArray h' g g1.1, g1.2⟩
  | .primitiveArray h h' => ⟨F, .primitiveArray h h', hs⟩
  | .stringArray h' h h1 =>
    have hi := List.suffix_append _ _
    have hm := hu.sub hi h1.suffix
    have ⟨_, g, gs⟩ := Fill.frame hs hm h
    (Resolve.frame gs (hu.sub (h.suffix.trans hi) (List.suffix_refl _)) (h.apart hm) h1).imp fun _ g1 =>
      ⟨.stringArray h' g g1.1, g1.2⟩
  | .array h' h'' h h1 h2 =>
    have hi := List.suffix_append _ _
    have hm := hu.sub hi h1.suffix
    have ⟨_, g, gs⟩ := Members.frame hs hm h
    (Resolve.frame gs (hu.sub (h.suffix.trans hi) (List.suffix_refl _)) (h.apart hm) h1).imp fun _ g1 =>
      ⟨.array h' h'' g g1.1 h2, g1.2⟩
  | .string h => ⟨F, .string h, hs⟩
end

/-- The tables hold the same objects for the ids in `K`. -/
def Keeps (K : Nat → Prop) (E E' : Env) : Prop := ∀ k, K k → E'.objs k = E.objs k

omit [Platform] in
theorem Keeps.trans {K : Nat → Prop} {E F G : Env} (h : Keeps K E F) (h' : Keeps K F G) : Keeps K E G :=
  fun k hk => (h' k hk).trans (h k hk)

omit [Platform] in
theorem OptLib.keeps {K : Nat → Prop} {E : Env} {i : Bytes} {E' : Env} {r : Bytes} (h : OptLib E i E' r) :
    Keeps K E E' := by
  cases h <;> exact fun _ _ => rfl

omit [Platform] in
theorem keeps_drop {K : Nat → Prop} {E : Env} {id : Nat} (h : ¬ K id) : Keeps K E (E.drop id) := by
  intro k hk
  simp only [Env.drop]
  rw [if_neg]
  rintro rfl
  exact h hk

mutual
theorem Member.keeps {K : Nat → Prop} {T : Option MemberType} {E : Env} {i : Bytes} {slot : Slot} {E' : Env}
    {r : Bytes} (hu : Unseen K i r) : Member T E i slot E' r → Keeps K E E'
  | .primitive h _ => h.keeps
  | .reference h _ => h.keeps
  | .string h _ => h.keeps
  | .nulls h _ => h.keeps
  | .object h h1 => h.keeps.trans (Class.keeps (hu.sub h.suffix (List.suffix_refl _)) h1)
  | .typedPrimitive h _ => h.keeps
  | .typedString h _ => h.keeps
  | .typedObject h h1 => h.keeps.trans (Member.keeps (hu.sub h.suffix (List.suffix_refl _)) h1)
  | .typedObjectArray h h1 => h.keeps.trans (Member.keeps (hu.sub h.suffix (List.suffix_refl _)) h1)
  | .systemClass h h1 => h.keeps.trans (Class.keeps (hu.sub h.suffix (List.suffix_refl _)) h1)
  | .systemClassNulls h _ => h.keeps
  | .class h _ h1 => h.keeps.trans (Class.keeps (hu.sub h.suffix (List.suffix_refl _)) h1)
  | .classNulls h _ _ => h.keeps
  | .stringArrayString h _ => h.keeps
  | .stringArrayReference h _ => h.keeps
  | .stringArrayNulls h _ => h.keeps
  | .primitiveArray h _ => h.keeps
theorem Members.keeps {K : Nat → Prop} {Ts : List (Option MemberType)} {E : Env} {i : Bytes}
    {slots : List Slot} {E' : Env} {r : Bytes} (hu : Unseen K i r) : Members Ts E i slots E' r → Keeps K E E'
  | .nil => fun _ _ => rfl
  | .cons h h1 => (Member.keeps (hu.sub (List.suffix_refl _) h1.suffix) h).trans
      (Members.keeps (hu.sub h.suffix (List.suffix_refl _)) h1)
theorem Class.keeps {K : Nat → Prop} {E : Env} {i : Bytes} {id : Nat} {n : Str} {l : Option Str}
    {ms : List (Str × Value)} {E' : Env} {r : Bytes} (hu : Unseen K i r) :
    Class E i id n l ms E' r → Keeps K E E'
  | .mk h _ _ h1 h2 =>
    have hi := suffix_drop h.suffix
    have hm := hu.sub hi h2.suffix
    h.keeps.trans ((Members.keeps hm h1).trans
      (Resolve.keeps (hu.sub (h1.suffix.trans hi) (List.suffix_refl _)) (h1.apart hm) h2))
theorem Fill.keeps {K : Nat → Prop} {T : Option MemberType} {n : Nat} {E : Env} {i : Bytes}
    {slots : List Slot} {E' : Env} {r : Bytes} (hu : Unseen K i r) : Fill T n E i slots E' r → Keeps K E E'
  | .done => fun _ _ => rfl
  | .step _ h h1 => (Member.keeps (hu.sub (List.suffix_refl _) h1.suffix) h).trans
      (Fill.keeps (hu.sub h.suffix (List.suffix_refl _)) h1)
theorem Resolve.keeps {K : Nat → Prop} {E : Env} {i : Bytes} {slots : List Slot} {vs : List Value}
    {E' : Env} {r : Bytes} (hu : Unseen K i r) (ha : Apart K slots) : Resolve slots E i vs E' r → Keeps K E E'
  | .nil => fun _ _ => rfl
  | .value h => Resolve.keeps hu (fun k hk => ha k (List.mem_cons_of_mem _ hk)) h
  | .nulls h => Resolve.keeps hu (fun k hk => ha k (List.mem_cons_of_mem _ hk)) h
  | .known _ h => (keeps_drop (ha _ List.mem_cons_self)).trans
      (Resolve.keeps hu (fun k hk => ha k (List.mem_cons_of_mem _ hk)) h)
  | .next _ h h1 => (Record.keeps (hu.sub (List.suffix_refl _) h1.suffix) h).trans
      ((keeps_drop (ha _ List.mem_cons_self)).trans
        (Resolve.keeps (hu.sub h.suffix (List.suffix_refl _)) (fun k hk => ha k (List.mem_cons_of_mem _ hk)) h1))
theorem Record.keeps {K : Nat → Prop} {E : Env} {i : Bytes} {id : Nat} {v : Value} {E' : Env} {r : Bytes}
    (hu : Unseen K i r) : Record E i id v E' r → Keeps K E E'
  | .object h => Class.keeps hu h
  | .objectArray _ h h1 =>
    have hi := List.suffix_append _ _
    have hm := hu.sub hi h1.suffix
    (Fill.keeps hm h).trans (Resolve.keeps (hu.sub (h.suffix.trans hi) (List.suffix_refl _)) (h.apart hm) h1)
  | .primitiveArray _ _ => fun _ _ => rfl
  | .stringArray _ h h1 =>
    have hi := List.suffix_append _ _
    have hm := hu.sub hi h1.suffix
    (Fill.keeps hm h).trans (Resolve.keeps (hu.sub (h.suffix.trans hi) (List.suffix_refl _)) (h.apart hm) h1)
  | .array _ _ h h1 _ =>
    have hi := List.suffix_append _ _
    have hm := hu.sub hi h1.suffix
    (Members.keeps hm h).trans (Resolve.keeps (hu.sub (h.suffix.trans hi) (List.suffix_refl _)) (h.apart hm) h1)
  | .string _ => fun _ _ => rfl
end

theorem Records.frame {K : Nat → Prop} {E F : Env} {i : Bytes} {E' : Env} {r : Bytes}
    (hs : SameExcept K E F) (hu : Unseen K i r) :
    Records E i E' r → ∃ F', Records F i F' r ∧ SameExcept K E' F'
  | .nil => ⟨F, .nil, hs⟩
  | .cons h h1 =>
    have ⟨_, g, gs⟩ := Record.frame hs (hu.sub (List.suffix_refl _) h1.suffix) h
    (Records.frame (gs.add _ _) (hu.sub h.suffix (List.suffix_refl _)) h1).imp fun _ g1 => ⟨.cons g g1.1, g1.2⟩

theorem CallArray.frame {K : Nat → Prop} {root : Nat} {E F : Env} {i : Bytes} {ca : Option (List Value)}
    {E' : Env} {r : Bytes} (hs : SameExcept K E F) (hu : Unseen K i r) :
    CallArray root E i ca E' r → ∃ F', CallArray root F i ca F' r ∧ SameExcept K E' F'
  | .some h h' h1 h2 =>
    have hi := suffix_drop h.suffix
    have hm := hu.sub hi h2.suffix
    have ⟨_, g, gs⟩ := h.frame hs
    have ⟨_, g1, gs1⟩ := Fill.frame gs hm h1
    (Resolve.frame gs1 (hu.sub (h1.suffix.trans hi) (List.suffix_refl _)) (h1.apart hm) h2).imp fun _ g2 =>
      ⟨.some g h' g1 g2.1, g2.2⟩
  | .none h h' => ⟨F, .none h h', hs⟩

theorem Method.frame {K : Nat → Prop} {root : Nat} {E F : Env} {i : Bytes} {m : MethodCall ⊕ MethodReturn}
    {E' : Env} {r : Bytes} (hs : SameExcept K E F) (hu : Unseen K i r) :
    Method root E i m E' r → ∃ F', Method root F i m F' r ∧ SameExcept K E' F'
  | .call h h' h1 h2 =>
    (CallArray.frame hs (hu.sub (List.suffix_append _ _) (List.suffix_refl _)) h1).imp fun _ g =>
      ⟨.call h h' g.1 h2, g.2⟩
  | .return h h' h1 h2 =>
    (CallArray.frame hs (hu.sub (List.suffix_append _ _) (List.suffix_refl _)) h1).imp fun _ g =>
      ⟨.return h h' g.1 h2, g.2⟩

theorem Tail.frame {K : Nat → Prop} {root : Nat} {E F : Env} {i : Bytes} {m : RemotingMessage} {r : Bytes}
    (hs : SameExcept K E F) (hu : Unseen K i r) (hr : ¬ K root) : Tail root E i m r → Tail root F i m r
  | .value h => .value (by
      unfold RootValue at h ⊢
      rw [← hs.2 _ hr]
      exact h)
  | .method h h1 =>
    have hi : r <:+ _ := (List.suffix_cons 11 r).trans h1.suffix
    have ⟨_, g, gs⟩ := Method.frame hs (hu.sub (List.suffix_refl _) hi) h
    have ⟨_, g1, _⟩ := Records.frame gs (hu.sub h.suffix (List.suffix_cons 11 r)) h1
    .method g g1

end Nrbf.Spec
