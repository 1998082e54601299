import Verif.Spec.Handed
import Verif.Props.Calls
import Verif.Props.Safety

/-! # C83, with boxed primitives and lists -/

set_option autoImplicit false

namespace Nrbf.Visitors

open Spec

section
variable {ι α : Type} [Platform] [FloatLib] [TextLib] {impls : ι → Impl ι α}

/-- The names of members are distinct in all objects, and numbers fit their types. -/
def Tidy (v : Value) : Prop := ∀ u, SubValue u v → FitsType u ∧ NamesDistinct u

omit [Platform] [FloatLib] [TextLib] in
theorem Tidy.item {v : Value} {vs : List Value} (h : Tidy (.array vs)) (hv : v ∈ vs) : Tidy v :=
  fun _ hu => h _ (.item hv hu)

omit [Platform] [FloatLib] [TextLib] in
theorem Tidy.member {c : Str} {l : Option Str} {ms : List (Str × Value)} (h : Tidy (.object c l ms)) {m : Str × Value}
    (hm : m ∈ ms) : Tidy m.2 :=
  fun _ hu => h _ (.member (k := m.1) hm hu)

theorem objectCall_list_iff {c : Str} {l : Option Str} {ms : List (Str × Value)} {vs : List Value} {size : Nat}
    (ht : Tidy (.object c l ms)) (h : objectCall c l ms = .list vs size) :
    ∃ n, IsList (.object c l ms) vs n ∧ size = unsignedSize n := by
  rcases object_kinds c l ms with hk | ⟨rfl, c', e, P, hc, hm⟩ | ⟨items, n, hk⟩ | ⟨rfl, hc, hk⟩
  · rw [objectCall_plain _ hk] at h; cases h
  · obtain ⟨f, hf⟩ := objectCall_box hc hm ms
    rw [hf.1] at h
    unfold boxedCall at h
    split at h
    · split at h <;> cases h
    · cases h
  · obtain ⟨cls, ms', e, hk'⟩ := objectCall_isList hk
    cases e
    rw [h] at hk'
    cases hk'
    obtain ⟨_, _, _, e, _, _, _, _, hs, _⟩ := id hk
    cases e
    exact ⟨n, hk, asUsize_unsigned (ht _ (.member hs (.refl _))).1⟩
  · rw [objectCall_listClass hc (ht _ (.refl _)).2 hk] at h; cases h

theorem listEnd_ok {r : Res α} {count size : Nat} {x : α} (h : listEnd r count size = .ok x) : r = .ok x ∧ count = size := by
  unfold listEnd at h
  cases r with
  | error e => cases h
  | ok a => rcases ite_cases h with ⟨hr, e⟩ | ⟨_, e⟩ <;> cases e; exact ⟨rfl, hr⟩

theorem listRun_error {size : Nat} {seq : List (Res (Option α)) → SeqAction ι α} (hs : SeqStrict seq) {vs n h e r count t}
    (g : LListRun impls size seq vs n (h ++ [.error e]) r count t) : ∃ e', r = .error e' := by
  obtain ⟨e', hr⟩ := hs h e
  generalize h ++ [.error e] = h' at g hr
  cases g with
  | finish h2 => rw [hr] at h2; cases h2; exact ⟨_, rfl⟩
  | element h2 | error h2 | exhausted h2 | full h2 => rw [hr] at h2; cases h2

/-- What is pending in a map, with the rest. -/
def dueMembers (p : Option Value) (ms : List (Str × Value)) : List Value := p.toList ++ ms.map Prod.snd

mutual
theorem handed_deserialize (ht : Thorough impls) : ∀ {v i r t}, LDeserialize impls v i r t → ∀ x, r = .ok x → Tidy v →
    Handed v (visits t)
  | _, _, _, _, .ignore h, x, hr, hp => absurd h (ht.calls _ _)
  | _, _, _, _, .call h g, x, hr, hp => by
    obtain ⟨y, hy⟩ := after_ok (ht.after h) hr
    exact handed_visit ht h g y hy hp
termination_by structural x0 x1 x2 x3 h => h
theorem handed_visit (ht : Thorough impls) : ∀ {v i m V f r t}, impls i = .call m V f → LVisit impls v m V r t → ∀ x, r = .ok x →
    Tidy v → Handed v (visits t)
  | _, _, _, _, _, _, _, hi, .none, x, hr, hp => .leaf trivial
  | _, _, _, _, _, _, _, hi, .some hn g, x, hr, hp => handed_visitSome ht (ht.option hi) g x hr hp
  | _, _, _, _, _, _, _, hi, .structObject g, x, hr, hp => by
    have ih := handed_visitMap ht ⟨ht.map hi _, ht.value hi _⟩ g x hr fun m hm => hp.member hm
    rw [visits, visits_append, visits, visits, List.append_nil]
    exact .object ih
  | _, _, _, _, _, _, _, hi, .struct hn g, x, hr, hp => handed_visitAny ht hi g x hr hp
  | _, _, _, _, _, _, _, hi, .any h1 h2 g, x, hr, hp => handed_visitAny ht hi g x hr hp
termination_by structural x0 x1 x2 x3 x4 x5 x6 x7 h => h
theorem handed_visitAny (ht : Thorough impls) : ∀ {v i m V f r t}, impls i = .call m V f → LVisitAny impls v V r t → ∀ x, r = .ok x →
    Tidy v → Handed v (visits t)
  | v, _, _, _, _, _, _, hi, .scalar h, x, hr, hp => .leaf (by cases v <;> first | (cases h; done) | trivial)
  | _, _, _, _, _, _, _, hi, .array g, x, hr, hp => by
    obtain ⟨h1, h2⟩ := arrayEnd_ok hr
    obtain ⟨vs, e, ih⟩ := handed_arrayRun ht (ht.seq hi) g x h1 fun u hu => hp.item hu
    rw [List.eq_nil_of_length_eq_zero h2, List.append_nil] at e
    rw [visits, visits_append, visits, visits, List.append_nil, e]
    exact .array ih
  | _, _, _, _, _, _, _, hi, .object h g, x, hr, hp => by
    have ih := handed_visitMap ht ⟨ht.map hi _, ht.value hi _⟩ g x hr fun m hm => hp.member hm
    rw [visits, visits_append, visits, visits, List.append_nil]
    exact .object ih
  | _, _, _, _, _, _, _, hi, .boxed h, x, hr, hp => by
    obtain ⟨c, e, P, w, _, _, rfl, hc, hm, rfl, -⟩ := objectCall_boxed h
    exact .boxed hc hm
  | _, _, _, _, _, _, _, hi, .fail h, x, hr, hp => by cases hr
  | _, _, _, _, _, _, _, hi, .list h g, x, hr, hp => by
    obtain ⟨n, hl, hs⟩ := objectCall_list_iff hp h
    obtain ⟨h1, h2⟩ := listEnd_ok hr
    have hitems := (listOf_items (objectCall_list h).choose_spec.1).1
    have ih := (handed_listRun ht (ht.seq hi) g x h1 fun u hu => (hp.member hitems).item hu).2
    rw [visits, visits_append, visits, visits, List.append_nil]
    rw [h2, hs, Nat.sub_zero] at ih
    exact .list hl ih
termination_by structural x0 x1 x2 x3 x4 x5 x6 x7 h => h
theorem handed_visitSome (ht : Thorough impls) : ∀ {v s r t},
    ((∃ j g, s = .deserialize j g ∧ ∀ e, ∃ e', g (.error e) = .error e') ∨ ∃ e, s = .finish (.error e)) →
    LVisitSome impls v s r t → ∀ x, r = .ok x → Tidy v → Handed v (visits t)
  | _, _, _, _, hs, .deserialize g, x, hr, hp => by
    have ih := handed_deserialize ht g
    rcases hs with ⟨j, f, hs, hf⟩ | ⟨e, hs⟩
    · cases hs
      obtain ⟨y, hy⟩ := after_ok hf hr
      exact ih y hy hp
    · cases hs
  | _, _, _, _, hs, .finish, x, hr, hp => by
    rcases hs with ⟨j, f, hs, hf⟩ | ⟨e, hs⟩
    · cases hs
    · cases hs; cases hr
termination_by structural x0 x1 x2 x3 x4 h => h
theorem handed_visitMap (ht : Thorough impls) : ∀ {s ms V r t}, MapStrict (V.map ms.length) → LVisitMap impls s ms V r t → ∀ x, r = .ok x →
    (∀ m ∈ ms, Tidy m.2) → HandedItems (ms.map Prod.snd) (visits t)
  | _, _, _, _, _, hs, .mk g, x, hr, hp => by
    obtain ⟨h1, h2⟩ := mapEnd_ok hr
    obtain ⟨ms, e, ih⟩ := handed_mapRun ht hs (.inl rfl) g x h1 (fun v hv => by
      obtain ⟨m, hm, rfl⟩ := List.mem_map.mp hv
      exact hp m hm)
    rw [List.eq_nil_of_length_eq_zero h2, List.map_nil, List.append_nil, dueMembers, Option.toList_none, List.nil_append] at e
    rw [e]; exact ih
termination_by structural x0 x1 x2 x3 x4 x5 h => h
theorem handed_arrayRun (ht : Thorough impls) : ∀ {seq vs n h r rest count t}, SeqStrict seq →
    LArrayRun impls seq vs n h r rest count t → ∀ x, r = .ok x → (∀ v ∈ vs, Tidy v) →
    ∃ us, vs = us ++ rest ∧ HandedItems us (visits t)
  | _, _, _, _, _, _, _, _, hs, .finish h, x, hr, hp => ⟨[], rfl, .nil⟩
  | _, _, _, _, _, _, _, _, hs, @LArrayRun.element _ _ _ _ _ _ _ v _ _ _ _ a _ _ _ _ _ h d g, x, hr, hp => by
    have ihd := handed_deserialize ht d
    obtain ⟨us, e, ih⟩ := handed_arrayRun ht hs g x hr fun v hv => hp v (List.mem_cons_of_mem _ hv)
    cases a with
    | error e => obtain ⟨e', he⟩ := arrayRun_error hs g; rw [hr] at he; cases he
    | ok y =>
      refine ⟨v :: us, by rw [e, List.cons_append], ?_⟩
      rw [visits, visits_append]
      exact .cons (ihd y rfl (hp _ List.mem_cons_self)) ih
  | _, _, _, _, _, _, _, _, hs, .exhausted h g, x, hr, hp => by
    have ih := handed_arrayRun ht hs g x hr hp
    rw [visits]; exact ih
termination_by structural x0 x1 x2 x3 x4 x5 x6 x7 x8 h => h
theorem handed_listRun (ht : Thorough impls) : ∀ {size seq vs n h r count t}, SeqStrict seq →
    LListRun impls size seq vs n h r count t → ∀ x, r = .ok x → (∀ v ∈ vs, Tidy v) →
    n ≤ count ∧ HandedItems (vs.take (count - n)) (visits t)
  | _, _, vs, n, _, _, _, _, hs, .finish h, x, hr, hp => ⟨Nat.le_refl _, by rw [Nat.sub_self]; exact .nil⟩
  | _, _, _, n, _, _, count, _, hs, @LListRun.element _ _ _ _ _ _ _ _ v vs _ _ _ a _ _ _ _ h hl d g, x, hr, hp => by
    have ihd := handed_deserialize ht d a rfl (hp _ List.mem_cons_self)
    have ih := handed_listRun ht hs g x hr fun v hv => hp v (List.mem_cons_of_mem _ hv)
    refine ⟨by have := ih.1; omega, ?_⟩
    have e : count - n = (count - (n + 1)) + 1 := by have := ih.1; omega
    rw [visits, visits_append, e, List.take_succ_cons]
    exact .cons ihd ih.2
  | _, _, _, _, _, _, _, _, hs, .error h hl d g, x, hr, hp => by
    obtain ⟨e', he⟩ := listRun_error hs g; rw [hr] at he; cases he
  | _, _, _, _, _, _, _, _, hs, .exhausted h hl g, x, hr, hp => by
    have ih := handed_listRun ht hs g x hr hp
    rw [visits, List.take_nil]
    rw [List.take_nil] at ih
    exact ⟨by have := ih.1; omega, ih.2⟩
  | _, _, _, _, _, _, _, _, hs, .full h hl g, x, hr, hp => by
    have ih := handed_listRun ht hs g x hr hp
    rw [visits]; exact ih
termination_by structural x0 x1 x2 x3 x4 x5 x6 x7 x8 h => h
theorem handed_mapRun (ht : Thorough impls) : ∀ {s map ms p n h r rest count t}, MapStrict map → Due map h p →
    LMapRun impls s map ms p n h r rest count t → ∀ x, r = .ok x → (∀ v ∈ dueMembers p ms, Tidy v) →
    ∃ us, dueMembers p ms = us ++ rest.map Prod.snd ∧ HandedItems us (visits t)
  | _, _, _, _, _, _, _, _, _, _, hs, hd, .finish h, x, hr, hp => by
    rcases hd with hd | ⟨k, hd⟩ | ⟨e, hd⟩
    · subst hd; exact ⟨[], rfl, .nil⟩
    · rw [h] at hd; cases hd
    · rw [h, hr] at hd; cases hd
  | _, map, _, _, _, h', _, _, _, _, hs, hd, @LMapRun.key _ _ _ _ _ _ s _ k v _ _ _ _ i _ _ _ _ h g, x, hr, hp => by
    have due : Due map (h' ++ [(deserializeKey s k (impls i)).map .some]) (.some v) := by
      cases (deserializeKey s k (impls i)) with
      | ok a => exact .inr (hs.value _ _ a h)
      | error e => exact .inr (.inr (hs.error _ e))
    have ih := handed_mapRun ht hs due g x hr
    rcases hd with hd | ⟨k, hd⟩ | ⟨e, hd⟩
    · subst hd
      rw [visits]
      exact ih hp
    · rw [h] at hd; cases hd
    · rw [h] at hd; cases hd
  | _, _, _, _, _, _, _, _, _, _, hs, hd, .exhausted h g, x, hr, hp => by
    have ih := fun hd => handed_mapRun ht hs hd g x hr hp
    rcases hd with hd | ⟨k, hd⟩ | ⟨e, hd⟩
    · rw [visits]
      exact ih (.inl hd)
    · rw [h] at hd; cases hd
    · rw [h] at hd; cases hd
  | _, _, _, _, _, _, _, _, _, _, hs, hd, @LMapRun.value _ _ _ _ _ _ _ _ _ _ _ _ _ a _ _ _ _ _ h d g, x, hr, hp => by
    have ihd := handed_deserialize ht d
    have ih := handed_mapRun ht hs (.inl rfl) g x hr
    cases a with
    | error e => obtain ⟨e', he⟩ := mapRun_error hs g; rw [hr] at he; cases he
    | ok y =>
      obtain ⟨us, e, ih⟩ := ih fun u hu => hp u (List.mem_cons_of_mem _ hu)
      refine ⟨_ :: us, by rw [List.cons_append, ← e]; rfl, ?_⟩
      rw [visits, visits_append]
      exact .cons (ihd y rfl (hp _ List.mem_cons_self)) ih
termination_by structural x0 x1 x2 x3 x4 x5 x6 x7 x8 x9 x10 x11 h => h
end

/-- **C83** If a type passes on every error and leaves no value out, then a result means that it has been handed the whole
message, boxed primitives and lists as such. -/
theorem C83_handed (ht : Thorough impls) {w : Bytes} {i : ι} {x : α} {t : List Call} (h : LFromSlice impls w i (.ok x) t)
    {v : Value} (hw : deserialize w = .ok (.value v)) : Handed v (visits t) := by
  have hp : Tidy v := fun u hu => by
    have := (message_wf hw).2 u ⟨v, List.mem_singleton_self _, hu⟩
    exact ⟨this.2.1, this.2.2.1⟩
  generalize hr : (.ok x : Res α) = r at h
  cases h with
  | ignore _ h => exact absurd h (ht.calls _ _)
  | methodCall h => rw [hw] at h; cases h
  | methodReturn h => rw [hw] at h; cases h
  | parsing h => rw [hw] at h; cases h
  | struct hw' hi g =>
    rw [hw] at hw'; cases hw'
    obtain ⟨y, hy⟩ := after_ok (ht.after hi) hr.symm
    exact handed_visit ht hi g y hy hp
  | any hw' hi _ g =>
    rw [hw] at hw'; cases hw'
    obtain ⟨y, hy⟩ := after_ok (ht.after hi) hr.symm
    exact handed_visitAny ht hi g y hy hp

omit [Platform] [FloatLib] [TextLib] in
theorem preorderMembers_eq (ms : List (Str × Value)) : preorderMembers ms = preorderItems (ms.map Prod.snd) := by
  induction ms with
  | nil => rfl
  | cons m ms ih => rw [preorderMembers, List.map_cons, preorderItems, ih]

omit [Platform] [FloatLib] [TextLib] in
theorem preorderItems_take (n : Nat) (vs : List Value) : (preorderItems (vs.take n)).Sublist (preorderItems vs) := by
  induction vs generalizing n with
  | nil => rw [List.take_nil]; exact List.Sublist.refl _
  | cons v vs ih =>
    cases n with
    | zero => exact List.nil_sublist _
    | succ n => rw [List.take_succ_cons, preorderItems, preorderItems]; exact (List.Sublist.refl _).append (ih n)

mutual
/-- What is handed out is in the value, in its order. -/
theorem Handed.sublist : ∀ {v l}, Handed v l → l.Sublist (preorder v)
  | v, _, .leaf h => by cases v <;> first | (rw [preorder] <;> simp; done) | exact h.elim
  | _, _, .array h => by
    have ih := h.sublist
    rw [preorder]; exact ih.cons_cons _
  | _, _, .object h => by
    have ih := h.sublist
    rw [preorder, preorderMembers_eq]; exact ih.cons_cons _
  | _, _, .boxed _ _ => by rw [preorder]; exact (List.nil_sublist _).cons_cons _
  | v, _, @Handed.list _ _ items l size hl h => by
    have ih := h.sublist
    obtain ⟨_, _, _, rfl, _, _, _, hm, _⟩ := hl
    rw [preorder]
    refine List.Sublist.cons_cons _ (ih.trans (.trans ?_ (preorder_member hm)))
    rw [preorder]
    exact (preorderItems_take _ _).trans (List.sublist_cons_self _ _)
termination_by structural x0 x1 h => h
theorem HandedItems.sublist : ∀ {vs l}, HandedItems vs l → l.Sublist (preorderItems vs)
  | _, _, .nil => List.nil_sublist _
  | _, _, .cons h hs => by
    have ih := h.sublist
    have ihs := hs.sublist
    rw [preorderItems]; exact ih.append ihs
termination_by structural x0 x1 h => h
end

/-- A list of one string, with room for two. -/
def shortList : Value :=
  .object (lit "System.Collections.Generic.List`1") none
    [(lit "_items", .array [.string (lit "a"), .null]), (lit "_size", .int32 1), (lit "_version", .int32 1)]

theorem shortList_ok : deserialize (Spec.write (.value shortList)) = .ok (.value shortList) := by platform_decide

/-- Its string is handed out, its free place is not. -/
example : Handed shortList [shortList, .string (lit "a")] :=
  .list (items := [.string (lit "a"), .null]) (size := 1)
    ⟨_, _, 1, rfl, by decide, rfl, by decide, List.mem_cons_self, List.mem_cons_of_mem _ List.mem_cons_self,
      List.mem_cons_of_mem _ (List.mem_cons_of_mem _ List.mem_cons_self)⟩
    (.cons (l := [.string (lit "a")]) (.leaf trivial) .nil)

/-- Whatever the type, if it has a result it has been handed the string or the members; in any case not more than is there. -/
example {T : RTy} {x : Dyn} {t : List Call} (h : LFromSlice rust (Spec.write (.value shortList)) (.ty T) (.ok x) t) :
    Handed shortList (visits t) ∧ (visits t).Sublist (preorder shortList) :=
  ⟨C83_handed rust_thorough h shortList_ok, (C83_handed rust_thorough h shortList_ok).sublist⟩

/-- And there is such a type: a vector of strings. -/
example : ∃ t, LFromSlice rust (Spec.write (.value shortList)) (.ty (.vec .string)) (.ok (.seq [.str (lit "a")])) t := by
  refine C83_log.mp ((C76_from_slice _ _ _).mpr (.inl ⟨_, ?_, rfl⟩))
  each_platform <;> kernel_decide

end
end Nrbf.Visitors
