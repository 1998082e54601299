import Verif.Props.Calls
import Verif.Spec.Size
import Verif.Props.Size

/-! # C84: how deeply visitors nest -/

set_option autoImplicit false

namespace Nrbf.Visitors

open Spec (depth depthItems depthMembers)

theorem level_append (t t' : List Call) (n : Nat) : level n (t ++ t') = level (level n t) t' := by
  induction t generalizing n with
  | nil => rfl
  | cons c t ih => cases c <;> exact ih _

theorem level_le_deepest (t : List Call) (n : Nat) : n ≤ deepest n t := by
  induction t generalizing n with
  | nil => exact Nat.le_refl _
  | cons c t ih => cases c <;> first | exact Nat.le_max_left _ _ | exact ih _

theorem deepest_append (t t' : List Call) (n : Nat) : deepest n (t ++ t') = max (deepest n t) (deepest (level n t) t') := by
  induction t generalizing n with
  | nil => exact (Nat.max_eq_right (level_le_deepest t' n)).symm
  | cons c t ih =>
    cases c
    · show max n (deepest (n + 1) (t ++ t')) = max (max n (deepest (n + 1) t)) (deepest (level (n + 1) t) t')
      rw [ih, Nat.max_assoc]
    · exact ih _
    · show max n (deepest (n - 1) (t ++ t')) = max (max n (deepest (n - 1) t)) (deepest (level (n - 1) t) t')
      rw [ih, Nat.max_assoc]

/-- Every visitor returns, and at most `d` of them are nested. -/
def Nested (t : List Call) (d : Nat) : Prop := ∀ n, level n t = n ∧ deepest n t ≤ n + d

theorem Nested.mono {t : List Call} {d d' : Nat} (h : Nested t d) (hd : d ≤ d') : Nested t d' :=
  fun n => ⟨(h n).1, Nat.le_trans (h n).2 (by omega)⟩

theorem nested_nil (d : Nat) : Nested [] d := fun n => ⟨rfl, by show n ≤ _; omega⟩

theorem Nested.request {t : List Call} {d : Nat} (h : Nested t d) : Nested (.request :: t) d := fun n => h n

theorem Nested.append {t t' : List Call} {d : Nat} (h : Nested t d) (h' : Nested t' d) : Nested (t ++ t') d := by
  intro n
  rw [level_append, deepest_append, (h n).1, (h' n).1]
  exact ⟨rfl, Nat.max_le.mpr ⟨(h n).2, (h' n).2⟩⟩

theorem Nested.visit {t : List Call} {d : Nat} (h : Nested t d) (v : Value) : Nested (.visit v :: (t ++ [.done])) (d + 1) := by
  intro n
  show level (n + 1) (t ++ [.done]) = n ∧ max n (deepest (n + 1) (t ++ [.done])) ≤ _
  rw [level_append, deepest_append, (h _).1]
  have := (h (n + 1)).2
  refine ⟨rfl, ?_⟩
  show max n (max _ (max (n + 1) n)) ≤ _
  omega

theorem nested_leaf (v : Value) (d : Nat) : Nested [.visit v, .done] (d + 1) := (nested_nil d).visit v

section
variable {ι α : Type} [Platform] [FloatLib] [TextLib] {impls : ι → Impl ι α}

omit [Platform] [FloatLib] [TextLib] in
theorem depth_member {k : Str} {v : Value} {ms : List (Str × Value)} (h : (k, v) ∈ ms) : depth v ≤ depthMembers ms := by
  induction ms with
  | nil => cases h
  | cons e ms ih =>
    obtain ⟨k', v'⟩ := e
    rw [depthMembers]
    rcases List.mem_cons.mp h with h | h
    · cases h; omega
    · have := ih h; omega

theorem depth_list {c : Str} {l : Option Str} {ms : List (Str × Value)} {vs : List Value} {size : Nat}
    (h : objectCall c l ms = .list vs size) : depthItems vs + 1 ≤ depthMembers ms := by
  obtain ⟨n, hl, -⟩ := objectCall_list h
  have := depth_member (listOf_items hl).1
  rw [depth] at this
  omega

/-- The depth of what is pending in a map. -/
def depthPending : Option Value → Nat
  | .none => 0
  | .some v => depth v

mutual
theorem nested_deserialize : ∀ {v i r t}, LDeserialize impls v i r t → Nested t (depth v + 1)
  | _, _, _, _, .ignore h => nested_nil _
  | _, _, _, _, .call h g => nested_visit g
termination_by structural x0 x1 x2 x3 h => h
theorem nested_visit : ∀ {v m V r t}, LVisit impls v m V r t → Nested t (depth v + 1)
  | _, _, _, _, _, .none => nested_leaf _ _
  | _, _, _, _, _, .some hn g => nested_visitSome g
  | _, _, _, _, _, .structObject g => by
    have ih := nested_visitMap g
    rw [depth]; exact (ih.visit _).mono (by omega)
  | _, _, _, _, _, .struct hn g => nested_visitAny g
  | _, _, _, _, _, .any h1 h2 g => nested_visitAny g
termination_by structural x0 x1 x2 x3 x4 h => h
theorem nested_visitAny : ∀ {v V r t}, LVisitAny impls v V r t → Nested t (depth v + 1)
  | _, _, _, _, .scalar h => nested_leaf _ _
  | _, _, _, _, .array g => by
    have ih := nested_arrayRun g
    rw [depth]; exact (ih.visit _).mono (by omega)
  | _, _, _, _, .object h g => by
    have ih := nested_visitMap g
    rw [depth]; exact (ih.visit _).mono (by omega)
  | _, _, _, _, .boxed h => nested_leaf _ _
  | _, _, _, _, .fail h => nested_leaf _ _
  | _, _, _, _, .list h g => by
    have ih := nested_listRun g
    have := depth_list h
    rw [depth]; exact (ih.visit _).mono (by omega)
termination_by structural x0 x1 x2 x3 h => h
theorem nested_visitSome : ∀ {v s r t}, LVisitSome impls v s r t → Nested t (depth v + 1)
  | _, _, _, _, .deserialize g => nested_deserialize g
  | _, _, _, _, .finish => nested_nil _
termination_by structural x0 x1 x2 x3 h => h
theorem nested_visitMap : ∀ {s ms V r t}, LVisitMap impls s ms V r t → Nested t (depthMembers ms + 1)
  | _, _, _, _, _, .mk g => by
    have ih := nested_mapRun g
    exact ih.mono (by simp [depthPending])
termination_by structural x0 x1 x2 x3 x4 h => h
theorem nested_arrayRun : ∀ {seq vs n h r rest count t}, LArrayRun impls seq vs n h r rest count t → Nested t (depthItems vs + 1)
  | _, _, _, _, _, _, _, _, .finish h => nested_nil _
  | _, _, _, _, _, _, _, _, .element h d g => by
    have ihd := nested_deserialize d
    have ih := nested_arrayRun g
    rw [depthItems]
    exact ((ihd.mono (by omega)).append (ih.mono (by omega))).request
  | _, _, _, _, _, _, _, _, .exhausted h g => (nested_arrayRun g).request
termination_by structural x0 x1 x2 x3 x4 x5 x6 x7 h => h
theorem nested_listRun : ∀ {size seq vs n h r count t}, LListRun impls size seq vs n h r count t → Nested t (depthItems vs + 1)
  | _, _, _, _, _, _, _, _, .finish h => nested_nil _
  | _, _, _, _, _, _, _, _, .element h hl d g => by
    have ihd := nested_deserialize d
    have ih := nested_listRun g
    rw [depthItems]
    exact ((ihd.mono (by omega)).append (ih.mono (by omega))).request
  | _, _, _, _, _, _, _, _, .error h hl d g => by
    have ihd := nested_deserialize d
    have ih := nested_listRun g
    rw [depthItems]
    exact ((ihd.mono (by omega)).append (ih.mono (by omega))).request
  | _, _, _, _, _, _, _, _, .exhausted h hl g => (nested_listRun g).request
  | _, _, _, _, _, _, _, _, .full h hl g => (nested_listRun g).request
termination_by structural x0 x1 x2 x3 x4 x5 x6 x7 h => h
theorem nested_mapRun : ∀ {s map ms p n h r rest count t}, LMapRun impls s map ms p n h r rest count t →
    Nested t (max (depthPending p) (depthMembers ms) + 1)
  | _, _, _, _, _, _, _, _, _, _, .finish h => nested_nil _
  | _, _, _, _, _, _, _, _, _, _, .key h g => by
    have ih := nested_mapRun g
    rw [depthMembers]
    simp only [depthPending] at ih
    exact (ih.mono (by omega)).request
  | _, _, _, _, _, _, _, _, _, _, .exhausted h g => (nested_mapRun g).request
  | _, _, _, _, _, _, _, _, _, _, .value h d g => by
    have ihd := nested_deserialize d
    have ih := nested_mapRun g
    simp only [depthPending] at ih ⊢
    exact ((ihd.mono (by omega)).append (ih.mono (by omega))).request
termination_by structural x0 x1 x2 x3 x4 x5 x6 x7 x8 x9 h => h
end

/-- **C84** While `from_slice` runs, at no time are more visitors at work, one inside the other, than the message is nested
deep, plus one for what is innermost; whatever the type. -/
theorem C84_depth {w : Bytes} {i : ι} {r : Res α} {t : List Call} (h : LFromSlice impls w i r t) {v : Value}
    (hw : deserialize w = .ok (.value v)) : deepest 0 t ≤ depth v + 1 := by
  have : Nested t (depth v + 1) := by
    cases h with
    | ignore | methodCall | methodReturn | parsing => exact nested_nil _
    | struct hw' _ g => rw [hw] at hw'; cases hw'; exact nested_visit g
    | any hw' _ _ g => rw [hw] at hw'; cases hw'; exact nested_visitAny g
  have := (this 0).2
  omega

/-- **C84** Each of them returns. -/
theorem C84_return {w : Bytes} {i : ι} {r : Res α} {t : List Call} (h : LFromSlice impls w i r t) : level 0 t = 0 := by
  cases h with
  | ignore | methodCall | methodReturn | parsing => rfl
  | struct _ _ g => exact (nested_visit g 0).1
  | any _ _ _ g => exact (nested_visitAny g 0).1

/-- **C84** So the depth is bounded by the length of the input, whatever the type (C46). -/
theorem C84_length {w : Bytes} {i : ι} {r : Res α} {t : List Call} (h : LFromSlice impls w i r t) :
    deepest 0 t ≤ 2 * w.length + 1 := by
  cases e : deserialize w with
  | ok m =>
    cases m with
    | value v =>
      have h1 := C84_depth h e
      have h2 := C46_depth e v (by simp [Spec.messageValues])
      omega
    | _ => rw [C83_nothing h (by rw [e]; exact fun v hv => by cases hv)]; exact Nat.zero_le _
  | _ => rw [C83_nothing h (by rw [e]; exact fun v hv => by cases hv)]; exact Nat.zero_le _

/-! ## The bound is reached -/

/-- What is inside is at least this deep. -/
def Reaching (t : List Call) (d : Nat) : Prop := ∀ n, n + d ≤ deepest n t

theorem Reaching.request {t : List Call} {d : Nat} (h : Reaching t d) : Reaching (.request :: t) d := fun n => h n

omit [Platform] [FloatLib] [TextLib] in
theorem reaching_zero (t : List Call) : Reaching t 0 := fun n => level_le_deepest t n

theorem Reaching.visit {t : List Call} {d : Nat} (h : Reaching t d) (v : Value) : Reaching (.visit v :: (t ++ [.done])) (d + 1) := by
  intro n
  show _ ≤ max n (deepest (n + 1) (t ++ [.done]))
  rw [deepest_append]
  have := h (n + 1)
  omega

theorem Reaching.append {t t' : List Call} {d d' m : Nat} (hb : Nested t m) (h : Reaching t d) (h' : Reaching t' d') :
    Reaching (t ++ t') (max d d') := by
  intro n
  rw [deepest_append, (hb n).1]
  have := h n
  have := h' n
  omega

mutual
theorem reach_deserialize (ht : Thorough impls) : ∀ {v i r t}, LDeserialize impls v i r t → ∀ x, r = .ok x → AllPlain (preorder v) →
    Reaching t (depth v)
  | _, _, _, _, .ignore h, x, hr, hp => absurd h (ht.calls _ _)
  | _, _, _, _, .call h g, x, hr, hp => by
    obtain ⟨y, hy⟩ := after_ok (ht.after h) hr
    exact reach_visit ht h g y hy hp
termination_by structural x0 x1 x2 x3 h => h
theorem reach_visit (ht : Thorough impls) : ∀ {v i m V f r t}, impls i = .call m V f → LVisit impls v m V r t → ∀ x, r = .ok x →
    AllPlain (preorder v) → Reaching t (depth v)
  | _, _, _, _, _, _, _, hi, .none, x, hr, hp => reaching_zero _
  | _, _, _, _, _, _, _, hi, .some hn g, x, hr, hp => reach_visitSome ht (ht.option hi) g x hr hp
  | _, _, _, _, _, _, _, hi, .structObject g, x, hr, hp => by
    have ih := reach_visitMap ht ⟨ht.map hi _, ht.value hi _⟩ g x hr
    rw [preorder] at hp
    rw [depth, Nat.add_comm]
    exact (ih hp.tail).visit _
  | _, _, _, _, _, _, _, hi, .struct hn g, x, hr, hp => reach_visitAny ht hi g x hr hp
  | _, _, _, _, _, _, _, hi, .any h1 h2 g, x, hr, hp => reach_visitAny ht hi g x hr hp
termination_by structural x0 x1 x2 x3 x4 x5 x6 x7 h => h
theorem reach_visitAny (ht : Thorough impls) : ∀ {v i m V f r t}, impls i = .call m V f → LVisitAny impls v V r t → ∀ x, r = .ok x →
    AllPlain (preorder v) → Reaching t (depth v)
  | v, _, _, _, _, _, _, hi, .scalar h, x, hr, hp => by
    cases v <;> first | (cases h; done) | exact reaching_zero _
  | _, _, _, _, _, _, _, hi, .array g, x, hr, hp => by
    obtain ⟨h1, h2⟩ := arrayEnd_ok hr
    have ih := reach_arrayRun ht (ht.seq hi) g x h1
    rw [preorder] at hp
    rw [depth, Nat.add_comm]
    exact (ih (List.eq_nil_of_length_eq_zero h2) hp.tail).visit _
  | _, _, _, _, _, _, _, hi, .object h g, x, hr, hp => by
    have ih := reach_visitMap ht ⟨ht.map hi _, ht.value hi _⟩ g x hr
    rw [preorder] at hp
    rw [depth, Nat.add_comm]
    exact (ih hp.tail).visit _
  | _, _, _, _, _, _, _, hi, .boxed h, x, hr, hp => by
    rw [preorder] at hp
    rw [objectCall_plain _ (hp _ _ _ List.mem_cons_self)] at h
    cases h
  | _, _, _, _, _, _, _, hi, .fail h, x, hr, hp => by cases hr
  | _, _, _, _, _, _, _, hi, .list h g, x, hr, hp => by
    rw [preorder] at hp
    rw [objectCall_plain _ (hp _ _ _ List.mem_cons_self)] at h
    cases h
termination_by structural x0 x1 x2 x3 x4 x5 x6 x7 h => h
theorem reach_visitSome (ht : Thorough impls) : ∀ {v s r t},
    ((∃ j g, s = .deserialize j g ∧ ∀ e, ∃ e', g (.error e) = .error e') ∨ ∃ e, s = .finish (.error e)) →
    LVisitSome impls v s r t → ∀ x, r = .ok x → AllPlain (preorder v) → Reaching t (depth v)
  | _, _, _, _, hs, .deserialize g, x, hr, hp => by
    have ih := reach_deserialize ht g
    rcases hs with ⟨j, f, hs, hf⟩ | ⟨e, hs⟩
    · cases hs
      obtain ⟨y, hy⟩ := after_ok hf hr
      exact ih y hy hp
    · cases hs
  | _, _, _, _, hs, .finish, x, hr, hp => by
    rcases hs with ⟨j, f, hs, hf⟩ | ⟨e, hs⟩
    · cases hs
    · cases hs; cases hr
termination_by structural x0 x1 x2 x3 x4 h => h
theorem reach_visitMap (ht : Thorough impls) : ∀ {s ms V r t}, MapStrict (V.map ms.length) → LVisitMap impls s ms V r t → ∀ x, r = .ok x →
    AllPlain (preorderMembers ms) → Reaching t (depthMembers ms)
  | _, _, _, _, _, hs, .mk g, x, hr, hp => by
    obtain ⟨h1, h2⟩ := mapEnd_ok hr
    have ih := reach_mapRun ht hs (.inl rfl) g x h1 (List.eq_nil_of_length_eq_zero h2) hp
    simpa [depthPending] using ih
termination_by structural x0 x1 x2 x3 x4 x5 h => h
theorem reach_arrayRun (ht : Thorough impls) : ∀ {seq vs n h r rest count t}, SeqStrict seq →
    LArrayRun impls seq vs n h r rest count t → ∀ x, r = .ok x → rest = [] → AllPlain (preorderItems vs) → Reaching t (depthItems vs)
  | _, _, _, _, _, _, _, _, hs, .finish h, x, hr, he, hp => by subst he; exact reaching_zero _
  | _, _, _, _, _, _, _, _, hs, @LArrayRun.element _ _ _ _ _ _ _ _ _ _ _ _ a _ _ _ _ _ h d g, x, hr, he, hp => by
    have ihd := reach_deserialize ht d
    have ih := reach_arrayRun ht hs g x hr he
    cases a with
    | error e => obtain ⟨e', he⟩ := arrayRun_error hs g; rw [hr] at he; cases he
    | ok y =>
      rw [preorderItems] at hp
      rw [depthItems]
      exact (Reaching.append (nested_deserialize d) (ihd y rfl hp.left) (ih hp.right)).request
  | _, _, _, _, _, _, _, _, hs, .exhausted h g, x, hr, he, hp => (reach_arrayRun ht hs g x hr he hp).request
termination_by structural x0 x1 x2 x3 x4 x5 x6 x7 x8 h => h
theorem reach_mapRun (ht : Thorough impls) : ∀ {s map ms p n h r rest count t}, MapStrict map → Due map h p →
    LMapRun impls s map ms p n h r rest count t → ∀ x, r = .ok x → rest = [] → AllPlain (preorderPending p ++ preorderMembers ms) →
    Reaching t (max (depthPending p) (depthMembers ms))
  | _, _, _, _, _, _, _, _, _, _, hs, hd, .finish h, x, hr, he, hp => by
    rcases hd with hd | ⟨k, hd⟩ | ⟨e, hd⟩
    · subst hd; subst he; exact reaching_zero _
    · rw [h] at hd; cases hd
    · rw [h, hr] at hd; cases hd
  | _, map, _, _, _, h', _, _, _, _, hs, hd, @LMapRun.key _ _ _ _ _ _ s _ k v _ _ _ _ i _ _ _ _ h g, x, hr, he, hp => by
    have due : Due map (h' ++ [(deserializeKey s k (impls i)).map .some]) (.some v) := by
      cases (deserializeKey s k (impls i)) with
      | ok a => exact .inr (hs.value _ _ a h)
      | error e => exact .inr (.inr (hs.error _ e))
    have ih := reach_mapRun ht hs due g x hr he
    rcases hd with hd | ⟨k, hd⟩ | ⟨e, hd⟩
    · subst hd
      rw [preorderMembers] at hp
      rw [depthMembers]
      have := (ih hp).request
      simpa [depthPending] using this
    · rw [h] at hd; cases hd
    · rw [h] at hd; cases hd
  | _, _, _, _, _, _, _, _, _, _, hs, hd, .exhausted h g, x, hr, he, hp => by
    have ih := fun hd => reach_mapRun ht hs hd g x hr he hp
    rcases hd with hd | ⟨k, hd⟩ | ⟨e, hd⟩
    · exact (ih (.inl hd)).request
    · rw [h] at hd; cases hd
    · rw [h] at hd; cases hd
  | _, _, _, _, _, _, _, _, _, _, hs, hd, @LMapRun.value _ _ _ _ _ _ _ _ _ _ _ _ _ a _ _ _ _ _ h d g, x, hr, he, hp => by
    have ihd := reach_deserialize ht d
    have ih := reach_mapRun ht hs (.inl rfl) g x hr he
    cases a with
    | error e => obtain ⟨e', he⟩ := mapRun_error hs g; rw [hr] at he; cases he
    | ok y =>
      rw [preorderPending] at hp
      have ih := ih hp.right
      simp only [depthPending, Nat.zero_max] at ih
      exact (Reaching.append (nested_deserialize d) (ihd y rfl hp.left) ih).request
termination_by structural x0 x1 x2 x3 x4 x5 x6 x7 x8 x9 x10 x11 h => h
end

/-- **C84** The depth of the message is reached by every type that passes on every error and leaves nothing out, as all
standard and derived types do, if it has a result (and there are no boxed primitives or generic lists in the message). -/
theorem C84_reached (ht : Thorough impls) {w : Bytes} {i : ι} {x : α} {t : List Call} (h : LFromSlice impls w i (.ok x) t)
    {v : Value} (hw : deserialize w = .ok (.value v)) (hp : ∀ c l ms, .object c l ms ∈ preorder v → PlainObject c l) :
    depth v ≤ deepest 0 t := by
  generalize hr : (.ok x : Res α) = r at h
  have : Reaching t (depth v) := by
    cases h with
    | ignore _ h => exact absurd h (ht.calls _ _)
    | methodCall h => rw [hw] at h; cases h
    | methodReturn h => rw [hw] at h; cases h
    | parsing h => rw [hw] at h; cases h
    | struct hw' hi g =>
      rw [hw] at hw'; cases hw'
      obtain ⟨y, hy⟩ := after_ok (ht.after hi) hr.symm
      exact reach_visit ht hi g y hy hp
    | any hw' hi _ g =>
      rw [hw] at hw'; cases hw'
      obtain ⟨y, hy⟩ := after_ok (ht.after hi) hr.symm
      exact reach_visitAny ht hi g y hy hp
  have := this 0
  omega

/-! ## It is not bounded by a constant -/

omit [Platform] [FloatLib] [TextLib] in
theorem nested_plain (n : Nat) : AllPlain (preorder (nested n)) := by
  induction n with
  | zero => intro c l ms h; simp [nested, preorder] at h
  | succ n ih =>
    intro c l ms h
    rw [nested, preorder, preorderMembers, preorderMembers, List.append_nil] at h
    rcases List.mem_cons.mp h with h | h
    · cases h; exact .inr (by decide)
    · exact ih c l ms h

theorem nested_ignored (n : Nat) : VisitAny rust (nested n) (visitorOf .ignored) (.ok .ignored) := by
  induction n with
  | zero => exact VisitAny.scalar (V := visitorOf .ignored) (s := .unit) rfl
  | succ n ih =>
    have hd : Deserialize rust (nested n) (.ty .ignored) (.ok .ignored) :=
      .call (m := .ignoredAny) (V := visitorOf .ignored) (after := id) rfl (.any (by decide) (by decide) ih)
    have hk : deserializeKey .borrowedStr [97] (rust (.ty .ignored)) = .ok .ignored := by
      simp [rust, methodOf, deserializeKey, visitorOf, takeScalar, Scalar.call, acceptR, asText]
    have run : MapRun rust .borrowedStr ((visitorOf .ignored).map 1) [([97], nested n)] none 0 [] (.ok .ignored) [] 1 :=
      .key (i := .ty .ignored) rfl (by
        rw [hk]
        exact .value (i := .ty .ignored) rfl hd (.exhausted (i := .ty .ignored) rfl (.finish rfl)))
    have hm : VisitMap rust .borrowedStr [([97], nested n)] (visitorOf .ignored) (mapEnd (.ok .ignored) ([] : List (Str × Value)).length 1) :=
      .mk run
    exact .object (objectCall_plain _ (.inr (by decide))) hm

/-- **C84** There is no bound that does not depend on the input: even if the value is ignored (`IgnoredAny`), for every `n`
there is an accepted input of `13 * n + 19` bytes for which `n` visitors are at work, one inside the other. -/
theorem C84_unbounded (n : Nat) (h : 0 < n) : ∃ w t, w.length = 13 * n + 19 ∧ LFromSlice rust w (.ty .ignored) (.ok .ignored) t ∧
    n ≤ deepest 0 t := by
  obtain ⟨k, rfl⟩ : ∃ k, n = k + 1 := ⟨n - 1, by omega⟩
  have hw := deserialize_complete (nested_message k)
  have hf : FromSlice rust _ (.ty .ignored) (.ok .ignored) :=
    .ok hw (.any (m := .ignoredAny) (V := visitorOf .ignored) (after := id) rfl (by decide) (nested_ignored (k + 1)))
  obtain ⟨t, ht⟩ := C83_log.mp hf
  refine ⟨_, t, ?_, ht, ?_⟩
  · simp [nested_length, Tests.header]
  · have := C84_reached rust_thorough ht hw (nested_plain _)
    rw [nested_depth] at this
    exact this

/-- The hypotheses are met: an object with an array with an object with a number. -/
example {T : RTy} {r : Res Dyn} {t : List Call} (h : LFromSlice rust (Spec.write (.value personOld)) (.ty T) r t) : deepest 0 t ≤ 4 := by
  have := C84_depth h person_old_ok
  simpa [personOld, depth, depthItems, depthMembers] using this

end
end Nrbf.Visitors
