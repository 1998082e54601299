import Verif.Lemmas.BrokenKnot
import Verif.Lemmas.BrokenMethod
import Verif.Lemmas.MessageSem

/-! # Messages: what `deserialize` reports -/

set_option autoImplicit false

namespace Nrbf
open Spec

variable {α β : Type}

/-- The errors of a result are exactly those of `F`. -/
def EMatch (x : Res α) (F : Error → Prop) : Prop := ∀ e, (x.1 = .error e ∨ x.1 = .failure e) ↔ F e

namespace EMatch

theorem congr {x : Res α} {F G : Error → Prop} (h : EMatch x F) (e : ∀ o, F o ↔ G o) : EMatch x G :=
  fun o => (h o).trans (e o)

theorem map {x : Res α} {F : Error → Prop} (f : α → β) (h : EMatch x F) : EMatch (x.map f) F := by
  obtain ⟨o, s⟩ := x
  intro e
  refine Iff.trans ?_ (h e)
  cases o <;> simp [Res.map, Outcome.map]

theorem bind {x : Res α} {f : α → St → Bytes → Res β} {n k : Nat} {J : α → Env → Bytes → Prop}
    {F : Error → Prop} {G : α → Env → Bytes → Error → Prop} (h : Match x n k J) (hb : EMatch x F)
    (hf : ∀ a s r, s.classes = [] → J a (abs s) r → r.length + k ≤ n → EMatch (f a s r) (G a (abs s) r)) :
    EMatch (x.bind f) (fun e => F e ∨ ∃ a E r, J a E r ∧ G a E r e) := by
  obtain ⟨x, s⟩ := x
  intro e
  cases x with
  | ok r a =>
    obtain ⟨hj, hs, hl⟩ := h.1 r a s rfl
    simp only [Res.bind]
    rw [hf a s r hs hj hl e]
    constructor
    · intro hg; exact .inr ⟨a, _, r, hj, hg⟩
    · rintro (hF | ⟨a', E, r', hj', hg⟩)
      · have := (hb e).mpr hF; simp at this
      · obtain ⟨s', h', rfl⟩ := h.2 a' E r' hj'
        cases h'
        exact hg
  | _ =>
    have hno : ¬ ∃ a E r, J a E r ∧ G a E r e := by
      rintro ⟨a', E, r', hj', _⟩
      obtain ⟨s', h', rfl⟩ := h.2 a' E r' hj'
      cases h'
    simp only [hno, or_false, Res.bind]
    refine Iff.trans ?_ (hb e)
    simp

theorem ret {s : St} {i : Bytes} {a : α} : EMatch (.ok i a, s) (fun _ => False) := by
  intro e; simp

end EMatch

variable [Platform]

/-! ## Optional parts -/

theorem optS_match {p : SP α} {s : St} {i : Bytes} {J : α → Env → Bytes → Prop} {B : Report → Env → Prop}
    (h : Match (p s i) i.length 0 J) (hb : BMatch (p s i) B) :
    Match (optS p s i) i.length 0 (fun o E' r => (∃ a, o = some a ∧ J a E' r) ∨ (o = none ∧ r = i ∧ B none E')) := by
  constructor
  · intro r o s' ho
    rcases optS_ok ho with ⟨a, rfl, h1⟩ | ⟨e, rfl, rfl, h1⟩
    · obtain ⟨hj, hs, hl⟩ := h.1 _ _ _ h1
      exact ⟨.inl ⟨a, rfl, hj⟩, hs, hl⟩
    · have := hb.1 none (by rw [h1]; rfl)
      rw [h1] at this
      exact ⟨.inr ⟨rfl, rfl, this.1⟩, this.2, by simp⟩
  · rintro o E' r (⟨a, rfl, hj⟩ | ⟨rfl, rfl, hB⟩)
    · obtain ⟨s', h1, h2⟩ := h.2 _ _ _ hj
      exact ⟨s', by unfold optS; rw [h1]; rfl, h2⟩
    · obtain ⟨h1, h2⟩ := hb.2 _ _ hB
      obtain ⟨e, he⟩ : ∃ e, (p s r).1 = .error e := by
        cases hx : (p s r).1 <;> rw [hx] at h1 <;> simp [verdict] at h1
        exact ⟨_, rfl⟩
      refine ⟨(p s r).2, ?_, h2⟩
      unfold optS
      cases hx : p s r with
      | mk o s1 =>
        rw [hx] at he
        simp only at he
        subst he
        rfl

omit [Platform] in
theorem optS_ematch {p : SP α} {s : St} {i : Bytes} {B : Report → Env → Prop} (hb : BMatch (p s i) B) :
    EMatch (optS p s i) (fun e => ∃ E', B (some e) E') := by
  intro e
  have h1 : (∃ E', B (some e) E') ↔ (p s i).1 = .failure e := by
    rw [← verdict_failure]
    exact ⟨fun ⟨E', h⟩ => (hb.2 _ _ h).1, fun h => ⟨_, (hb.1 _ h).1⟩⟩
  refine Iff.trans ?_ h1.symm
  unfold optS
  cases hx : p s i with
  | mk o s1 => cases o <;> simp [Res.map, Outcome.map]

/-! ## The call array -/

theorem parsersBad (L : Nat) : RecBad L parseClasses parseReferenceable :=
  ⟨fun s i hs _ => (recBad (i.length + 1)).cls s i hs (by omega),
    fun s i hs _ => (recBad (i.length + 1)).ref s i hs (by omega)⟩

theorem rootOf_eq {id root : Nat} (hid : 0 < id) : some id = rootOf root ↔ id = root := by
  unfold rootOf
  split
  · constructor
    · intro h; cases h
    · intro h; omega
  · simp

theorem callArray_bmatch {s : St} (hs : s.classes = []) (i : Bytes) (root : Nat) :
    BMatch (parseCallArray (rootOf root) s i) (BadCallArray root (abs s) i) := by
  unfold parseCallArray
  refine (BMatch.bind (library_match hs i) (library_bmatch hs i) (C := fun _ E1 i1 o E' =>
    ((BadTagged 16 BadArrayInfo i1 o ∧ E' = E1) ∨ ∃ id len b i2, IsArrayHead 16 id len b ∧ i1 = b ++ i2 ∧
      (BadFill none len E1 i2 o E' ∨ ∃ slots E2 i3, Fill none len E1 i2 slots E2 i3 ∧ BadResolve slots E2 i3 o E')) ∨
    ∃ id len b i2 slots E2 i3 vs i4, IsArrayHead 16 id len b ∧ i1 = b ++ i2 ∧ id ≠ root ∧
      Fill none len E1 i2 slots E2 i3 ∧ Resolve slots E2 i3 vs E' i4 ∧ o = fatal i4 .invalidCallArrayId)
    fun _ s i hs _ hl => ?_).congr fun o E' => ?_
  · have hm := arrayOf_match (parsersSem (i.length + 1)) none arraySingleObject_exact hs (i := i) (by omega)
    refine (BMatch.bind hm
      (arrayOf_bmatch (parsersSem (i.length + 1)) (parsersBad (i.length + 1)) none arraySingleObject_exact
        (tagged_broken (t := .arraySingleObject) arrayInfo_broken) hs (i := i) (by omega))
      (C := fun x E1 i1 o E' => x.1 ≠ root ∧ o = fatal i1 .invalidCallArrayId ∧ E' = E1)
      fun x s1 i1 hs1 hx _ => ?_).congr fun o E' => or_congr Iff.rfl ?_
    · obtain ⟨id, vs⟩ := x
      obtain ⟨len, b, _, _, _, _, ⟨_, _, ⟨hid, _⟩, _⟩, _⟩ := hx
      simp only at hid ⊢
      by_cases hr : some id = rootOf root
      · rw [if_neg (by simpa using hr)]
        have : id = root := (rootOf_eq hid).mp hr
        exact BMatch.ret.congr fun o E' => by simp [this]
      · rw [if_pos hr]
        refine (BMatch.failure hs1).congr fun o E' => ?_
        have : id ≠ root := fun h => hr ((rootOf_eq hid).mpr h)
        simp [this, fatal]
    · constructor
      · rintro ⟨⟨id, vs⟩, E1, i1, ⟨len, b, i2, slots, E2, i3, h1, rfl, h2, h3⟩, hne, rfl, rfl⟩
        exact ⟨id, len, b, i2, slots, E2, i3, vs, i1, h1, rfl, hne, h2, h3, rfl⟩
      · rintro ⟨id, len, b, i2, slots, E2, i3, vs, i4, h1, rfl, hne, h2, h3, rfl⟩
        exact ⟨(id, vs), _, _, ⟨len, b, i2, slots, E2, i3, h1, rfl, h2, h3⟩, hne, rfl, rfl⟩
  · constructor
    · rintro (h | ⟨_, E1, i1, hlib, (⟨h, rfl⟩ | ⟨id, len, b, i2, h1, rfl, h2 | ⟨slots, E2, i3, h2, h3⟩⟩) |
        ⟨id, len, b, i2, slots, E2, i3, vs, i4, h1, rfl, hne, h2, h3, rfl⟩⟩)
      · exact .library h
      · exact .head hlib h
      · exact .elements hlib h1 h2
      · exact .references hlib h1 h2 h3
      · exact .other hlib h1 hne h2 h3
    · intro h
      cases h with
      | library h => exact .inl h
      | head hlib h => exact .inr ⟨(), _, _, hlib, .inl (.inl ⟨h, rfl⟩)⟩
      | elements hlib h1 h2 => exact .inr ⟨(), _, _, hlib, .inl (.inr ⟨_, _, _, _, h1, rfl, .inl h2⟩)⟩
      | references hlib h1 h2 h3 =>
        exact .inr ⟨(), _, _, hlib, .inl (.inr ⟨_, _, _, _, h1, rfl, .inr ⟨_, _, _, h2, h3⟩⟩)⟩
      | other hlib h1 hne h2 h3 =>
        exact .inr ⟨(), _, _, hlib, .inr ⟨_, _, _, _, _, _, _, _, _, h1, rfl, hne, h2, h3, rfl⟩⟩

theorem optCallArray_match {s : St} (hs : s.classes = []) (i : Bytes) (root : Nat) :
    Match (optS (parseCallArray (rootOf root)) s i) i.length 0 (fun o E' r => OptCallArray root (abs s) i o E' r) := by
  refine (optS_match ((callArray_match hs i root).weaken (by omega)) (callArray_bmatch hs i root)).congr
    fun o E' r => ?_
  constructor
  · rintro (⟨vs, rfl, E1, b, i1, len, slots, E2, i2, h1, h2, h3, h4⟩ | ⟨rfl, rfl, h⟩)
    · exact .some h1 h2 h3 h4
    · exact .none h
  · intro h
    cases h with
    | some h1 h2 h3 h4 => exact .inl ⟨_, rfl, _, _, _, _, _, _, _, h1, h2, h3, h4⟩
    | none h => exact .inr ⟨rfl, rfl, h⟩

/-! ## Passes over the records -/

theorem loop_length (fuel : Nat) {s : St} (hs : s.classes = []) {i r : Bytes} {s' : St}
    (h : referenceablesLoop fuel s i = (.ok r (), s')) : r.length ≤ i.length := by
  induction fuel generalizing s i with
  | zero => cases h
  | succ fuel ih =>
    simp only [referenceablesLoop] at h
    split at h
    · rename_i r1 id s1 he
      obtain ⟨_, hs1, hl⟩ := (parseReferenceable_match hs i).1 _ _ _ he
      have := ih hs1 h
      omega
    · cases h; exact Nat.le_refl _
    all_goals cases h

theorem pass_match (fuel : Nat) {s : St} (hs : s.classes = []) {i : Bytes} (hl : i.length < fuel) :
    Match (referenceablesLoop fuel s i) i.length 0 (fun _ E' r => Pass (abs s) i E' r) := by
  constructor
  · intro r a s' h
    obtain ⟨s1, e, hrec, hs1, he, hs'⟩ := loop_sound fuel hs h
    have := ((parseReferenceable_bmatch hs1 r).1 none (by rw [he]; rfl)).1
    rw [he] at this
    refine ⟨⟨_, hrec, this⟩, hs', ?_⟩
    simpa using loop_length fuel hs h
  · rintro ⟨⟩ E' r ⟨E0, hrec, hbad⟩
    generalize hE : abs s = E at hrec
    induction hrec generalizing s fuel with
    | nil =>
      subst hE
      cases fuel with
      | zero => omega
      | succ fuel =>
        obtain ⟨h1, h2⟩ := (parseReferenceable_bmatch hs _).2 _ _ hbad
        rename_i i
        cases hx : parseReferenceable s i with
        | mk o s1 =>
          rw [hx] at h1 h2
          cases o <;> simp [verdict] at h1
          exact ⟨s1, by simp only [referenceablesLoop, hx], h2⟩
    | @cons E i id v E1 i1 E2 i2 h1 _ ih =>
      subst hE
      cases fuel with
      | zero => omega
      | succ fuel =>
        have hm := parseReferenceable_match hs i
        obtain ⟨s1, he, hE1⟩ := hm.2 id _ i1 ⟨v, E1, h1, rfl⟩
        obtain ⟨_, hs1, hl1⟩ := hm.1 _ _ _ he
        obtain ⟨s', h'⟩ := ih (fuel := fuel) hs1 (by omega) hbad hE1
        exact ⟨s', by simp only [referenceablesLoop, he]; exact h'.1, h'.2⟩

theorem pass_ematch (fuel : Nat) {s : St} (hs : s.classes = []) {i : Bytes} (hl : i.length < fuel) :
    EMatch (referenceablesLoop fuel s i) (BadPass (abs s) i) := by
  intro e
  constructor
  · intro h
    induction fuel generalizing s i with
    | zero => omega
    | succ fuel ih =>
      simp only [referenceablesLoop] at h
      split at h
      · rename_i r id s1 he
        obtain ⟨⟨v, E1, hrec, hE⟩, hs1, hl1⟩ := (parseReferenceable_match hs i).1 _ _ _ he
        obtain ⟨E0, i', E', h1, h2⟩ := ih hs1 (by omega) h
        rw [hE] at h1
        exact ⟨E0, i', E', .cons hrec h1, h2⟩
      · simp at h
      · rename_i e' s1 he
        simp only [reduceCtorEq, false_or, Outcome.failure.injEq] at h
        subst h
        have := ((parseReferenceable_bmatch hs i).1 (some e') (by rw [he]; rfl)).1
        exact ⟨_, _, _, .nil, this⟩
      all_goals simp at h
  · rintro ⟨E0, r, E', hrec, hbad⟩
    generalize hE : abs s = E at hrec
    induction hrec generalizing s fuel with
    | nil =>
      subst hE
      cases fuel with
      | zero => omega
      | succ fuel =>
        have h1 := ((parseReferenceable_bmatch hs _).2 _ _ hbad).1
        rename_i i
        cases hx : parseReferenceable s i with
        | mk o s1 =>
          rw [hx] at h1
          cases o <;> simp [verdict] at h1
          subst h1
          exact .inr (by simp only [referenceablesLoop, hx])
    | @cons E i id v E1 i1 E2 i2 h1 _ ih =>
      subst hE
      cases fuel with
      | zero => omega
      | succ fuel =>
        have hm := parseReferenceable_match hs i
        obtain ⟨s1, he, hE1⟩ := hm.2 id _ i1 ⟨v, E1, h1, rfl⟩
        obtain ⟨_, hs1, hl1⟩ := hm.1 _ _ _ he
        have h' := ih (fuel := fuel) hs1 (by omega) hbad hE1
        simp only [referenceablesLoop, he]
        exact h'

theorem badRecord_noLibrary {E : Env} {i : Bytes} {E' : Env} (h : BadRecord E i none E') : NoLibrary i := by
  rcases badRecord_tag h with ⟨_, _, h'⟩ | ⟨⟨tag, ht, h'⟩, _⟩ | ⟨_, ⟨_, h, _⟩ | ⟨_, _, h⟩ | ⟨_, _, _, _, _, _, _, _, h, _⟩⟩ |
    ⟨h', _⟩ | ⟨h', _⟩ | ⟨h', _⟩ | ⟨h', _⟩ | ⟨h', _⟩
  · exact .inl (h' 12 (by simp))
  · simp only [List.mem_cons, List.not_mem_nil, or_false] at ht
    left
    rw [h']
    rcases ht with rfl | rfl | rfl | rfl | rfl <;> decide
  · cases h
  · exact h
  · cases h
  all_goals exact .inl (by rw [h']; decide)

/-! ## Method records -/

/-- The arguments of a method. -/
def argsOf (f : BitVec 32) (callArray inline : Option (List Value)) : Option (Option (List Value)) :=
  if MessageFlags.intersects f MessageFlags.ARGS_IS_ARRAY then
    match callArray with
    | some vs => some (some vs)
    | none => none
  else if MessageFlags.intersects f MessageFlags.ARGS_IN_ARRAY then
    match callArray with
    | some (.array args :: _) => some (some args)
    | _ => none
  else some inline

/-- The part of a method record in front of its call array. -/
abbrev MethodHead := BitVec 32 × Option (List Value) × (Option (List Value) → MethodCall ⊕ MethodReturn)

def callHead (c : BinaryMethodCall) : MethodHead :=
  (c.messageEnum, c.args.map ArrayOfValueWithCode.intoValues,
    fun args => .inl ⟨c.methodName, c.typeName, c.callContext, args⟩)

def returnHead (c : BinaryMethodReturn) : MethodHead :=
  (c.messageEnum, c.args.map ArrayOfValueWithCode.intoValues,
    fun args => .inr ⟨c.returnValue.map ValueWithCode.intoValue, c.callContext, args⟩)

def methodHead : Parser MethodHead := fun i =>
  match BinaryMethodCall.parse i with
  | .error _ => (BinaryMethodReturn.parse i).map returnHead
  | r => r.map callHead

/-- The part of a method record from its call array on. -/
def methodTail (root : Nat) (h : MethodHead) : SP (MethodCall ⊕ MethodReturn) := fun s i =>
  (optS (parseCallArray (rootOf root)) s i).bind fun ca s i =>
    match argsOf h.1 ca h.2.1 with
    | some args => (.ok i (h.2.2 args), s)
    | none => (.failure ⟨i, .invalidArgs⟩, s)

theorem methodTail_call (root : Nat) (c : BinaryMethodCall) (s : St) (i : Bytes) :
    ((optS (parseCallArray (rootOf root)) s i).bind fun callArray s i =>
      match parseArgs c.messageEnum callArray c.args with
      | some args => (.ok i ⟨c.methodName, c.typeName, c.callContext, args⟩, s)
      | none => (.failure ⟨i, .invalidArgs⟩, s)).map .inl = methodTail root (callHead c) s i := by
  unfold methodTail
  cases optS (parseCallArray (rootOf root)) s i with
  | mk o s1 =>
    cases o with
    | ok r ca =>
      have e : argsOf (callHead c).1 ca (callHead c).2.1 = parseArgs c.messageEnum ca c.args := rfl
      simp only [Res.bind, e]
      cases parseArgs c.messageEnum ca c.args <;> rfl
    | _ => rfl

theorem methodTail_return (root : Nat) (c : BinaryMethodReturn) (s : St) (i : Bytes) :
    ((optS (parseCallArray (rootOf root)) s i).bind fun callArray s i =>
      match parseArgs c.messageEnum callArray c.args with
      | some args => (.ok i ⟨c.returnValue.map ValueWithCode.intoValue, c.callContext, args⟩, s)
      | none => (.failure ⟨i, .invalidArgs⟩, s)).map .inr = methodTail root (returnHead c) s i := by
  unfold methodTail
  cases optS (parseCallArray (rootOf root)) s i with
  | mk o s1 =>
    cases o with
    | ok r ca =>
      have e : argsOf (returnHead c).1 ca (returnHead c).2.1 = parseArgs c.messageEnum ca c.args := rfl
      simp only [Res.bind, e]
      cases parseArgs c.messageEnum ca c.args <;> rfl
    | _ => rfl

theorem methodTail_error (root : Nat) (h : MethodHead) (s : St) (i : Bytes) (e : Error) (s' : St) :
    methodTail root h s i ≠ (.error e, s') := by
  unfold methodTail
  cases hx : optS (parseCallArray (rootOf root)) s i with
  | mk o s1 =>
    cases o with
    | ok r ca =>
      simp only [Res.bind]
      split <;> simp
    | error e =>
      exfalso
      unfold optS at hx
      split at hx
      · cases hx
      · rename_i h'
        cases hy : parseCallArray (rootOf root) s i with
        | mk o s2 =>
          rw [hy] at hx h'
          cases o <;> simp [Res.map, Outcome.map] at hx
          exact h' _ _ rfl
    | _ => simp [Res.bind]

omit [Platform] in
theorem altMut_hit {p : SP α} {ps : List (SP α)} {s : St} {i : Bytes} (h : ∀ e s', p s i ≠ (.error e, s')) :
    altMut (p :: ps) s i = p s i := by
  simp only [altMut]

omit [Platform] in
theorem optS_hit {p : SP α} {s : St} {i : Bytes} (h : ∀ e s', p s i ≠ (.error e, s')) :
    optS p s i = (p s i).map some := by
  unfold optS
  split
  · rename_i he; exact absurd he (h _ _)
  · rfl

/-- A method record, where no library is. -/
theorem method_unfold {i : Bytes} (hn : NoLibrary i) (root : Nat) (s : St) :
    optS (parseMethodCallOrReturn (rootOf root)) s i =
      (lift (opt methodHead) s i).bind fun h s i =>
        match h with
        | some h => (methodTail root h s i).map some
        | none => (.ok i none, s) := by
  obtain ⟨e, he⟩ := library_error_iff.mpr hn
  have hcall : (parseMethodCall (rootOf root) s i).map Sum.inl =
      (lift BinaryMethodCall.parse s i).bind fun c s i => methodTail root (callHead c) s i := by
    unfold parseMethodCall
    rw [opt_lib_none he]
    simp only [Res.bind, lift]
    cases BinaryMethodCall.parse i with
    | ok r c => exact methodTail_call root c s r
    | _ => rfl
  have hret : (parseMethodReturn (rootOf root) s i).map Sum.inr =
      (lift BinaryMethodReturn.parse s i).bind fun c s i => methodTail root (returnHead c) s i := by
    unfold parseMethodReturn
    rw [opt_lib_none he]
    simp only [Res.bind, lift]
    cases BinaryMethodReturn.parse i with
    | ok r c => exact methodTail_return root c s r
    | _ => rfl
  unfold parseMethodCallOrReturn
  cases hc : BinaryMethodCall.parse i with
  | ok r c =>
    have h1 : (parseMethodCall (rootOf root) s i).map Sum.inl = methodTail root (callHead c) s r := by
      rw [hcall]; simp only [lift, hc, Res.bind]
    rw [optS_hit (by rw [altMut_hit (by rw [h1]; exact methodTail_error _ _ _ _), h1]; exact methodTail_error _ _ _ _),
      altMut_hit (by rw [h1]; exact methodTail_error _ _ _ _), h1]
    simp only [lift, opt, methodHead, hc, Outcome.map, Res.bind]
  | error e =>
    have h1 : (parseMethodCall (rootOf root) s i).map Sum.inl = ((.error e, s) : Res (MethodCall ⊕ MethodReturn)) := by
      rw [hcall]; simp only [lift, hc, Res.bind]
    cases hr : BinaryMethodReturn.parse i with
    | ok r c =>
      have h2 : (parseMethodReturn (rootOf root) s i).map Sum.inr = methodTail root (returnHead c) s r := by
        rw [hret]; simp only [lift, hr, Res.bind]
      rw [optS_hit (by rw [altMut_skip ⟨e, h1⟩, altMut_hit (by rw [h2]; exact methodTail_error _ _ _ _), h2]
                       exact methodTail_error _ _ _ _),
        altMut_skip ⟨e, h1⟩, altMut_hit (by rw [h2]; exact methodTail_error _ _ _ _), h2]
      simp only [lift, opt, methodHead, hc, hr, Outcome.map, Res.bind]
    | error e2 =>
      have h2 : (parseMethodReturn (rootOf root) s i).map Sum.inr = ((.error e2, s) : Res (MethodCall ⊕ MethodReturn)) := by
        rw [hret]; simp only [lift, hr, Res.bind]
      unfold optS
      rw [altMut_skip ⟨e, h1⟩, altMut_skip ⟨e2, h2⟩]
      simp only [altMut, lift, opt, methodHead, hc, hr, Outcome.map, Res.bind]
    | _ =>
      have h2 := hret
      simp only [lift, hr, Res.bind] at h2
      rw [optS_hit (by rw [altMut_skip ⟨e, h1⟩, altMut_hit (by rw [h2]; simp), h2]; simp),
        altMut_skip ⟨e, h1⟩, altMut_hit (by rw [h2]; simp), h2]
      simp only [lift, opt, methodHead, hc, hr, Outcome.map, Res.bind, Res.map]
  | _ =>
    have h1 := hcall
    simp only [lift, hc, Res.bind] at h1
    rw [optS_hit (by rw [altMut_hit (by rw [h1]; simp), h1]; simp), altMut_hit (by rw [h1]; simp), h1]
    simp only [lift, opt, methodHead, hc, Outcome.map, Res.bind, Res.map]

theorem argsOf_iff {f : BitVec 32} {ca inline args : Option (List Value)} :
    argsOf f ca inline = some args ↔ ArgsFrom f ca inline args := by
  unfold argsOf ArgsFrom
  rw [bit_isArray, bit_inArray]
  cases h2 : f.getLsbD 2 with
  | true =>
    cases ca with
    | none => simp
    | some l => simp; exact eq_comm
  | false =>
    cases h3 : f.getLsbD 3 with
    | true =>
      cases ca with
      | none => simp
      | some l =>
        cases l with
        | nil => simp
        | cons v vs =>
          cases v <;> simp
          exact eq_comm
    | false => simp; exact eq_comm

theorem argsOf_none {f : BitVec 32} {ca inline : Option (List Value)} :
    argsOf f ca inline = none ↔ ¬ ∃ args, ArgsFrom f ca inline args := by
  simp only [← argsOf_iff]
  cases argsOf f ca inline <;> simp

theorem call_total (i : Bytes) : BinaryMethodCall.parse i ≠ .panic ∧ BinaryMethodCall.parse i ≠ .diverge := by
  have := binaryMethodCall_good (List.suffix_refl i)
  constructor <;> intro h <;> rw [h] at this <;> exact this

theorem return_total (i : Bytes) : BinaryMethodReturn.parse i ≠ .panic ∧ BinaryMethodReturn.parse i ≠ .diverge := by
  have := binaryMethodReturn_good (List.suffix_refl i)
  constructor <;> intro h <;> rw [h] at this <;> exact this

theorem badMethodCall_head {i : Bytes} (h : i.head? ≠ some 21) : BadMethodCall i none := .inl ⟨h, rfl⟩

theorem badMethodReturn_head {i : Bytes} (h : i.head? ≠ some 22) : BadMethodReturn i none := .inl ⟨h, rfl⟩

theorem badMethodReturn_fatal {i : Bytes} {e : Error} (h : BadMethodReturn i (some e)) : i.head? = some 22 := by
  rcases h with ⟨_, h⟩ | ⟨r, rfl, _⟩
  · cases h
  · rfl

/-- What is in front of the call array. -/
theorem methodHead_ok {i r : Bytes} {h : MethodHead} :
    methodHead i = .ok r h ↔ ∃ b, IsMethodHead h.1 h.2.1 h.2.2 b ∧ i = b ++ r := by
  obtain ⟨f, inline, method⟩ := h
  constructor
  · intro hh
    unfold methodHead at hh
    split at hh
    · obtain ⟨c, hc, hv⟩ := map_ok hh
      obtain ⟨b, ⟨hf, hb⟩, rfl⟩ := (methodReturn_exact i r (returnView c)).mp (by simp only [hc]; rfl)
      cases hv
      exact ⟨b, ⟨hf, .inr ⟨_, _, hb, rfl⟩⟩, rfl⟩
    · obtain ⟨c, hc, hv⟩ := map_ok hh
      obtain ⟨b, ⟨hf, hb⟩, rfl⟩ := (methodCall_exact i r (callView c)).mp (by simp only [hc]; rfl)
      cases hv
      exact ⟨b, ⟨hf, .inl ⟨_, _, _, hb, rfl⟩⟩, rfl⟩
  · rintro ⟨b, ⟨hf, ⟨name, type, context, hb, hm⟩ | ⟨value, context, hb, hm⟩⟩, rfl⟩
    · obtain ⟨c, hc, hv⟩ := map_ok ((methodCall_exact (b ++ r) r (f, name, type, context, inline)).mpr ⟨b, ⟨hf, hb⟩, rfl⟩)
      simp only [callView, Prod.mk.injEq] at hv
      obtain ⟨rfl, rfl, rfl, rfl, rfl⟩ := hv
      simp only at hm
      subst hm
      unfold methodHead
      rw [hc]
      rfl
    · obtain ⟨c, hc, hv⟩ := map_ok ((methodReturn_exact (b ++ r) r (f, value, context, inline)).mpr ⟨b, ⟨hf, hb⟩, rfl⟩)
      simp only [returnView, Prod.mk.injEq] at hv
      obtain ⟨rfl, rfl, rfl, rfl⟩ := hv
      simp only at hm
      subst hm
      obtain ⟨e, he⟩ := methodCall_mismatch (i := b ++ r) (by rw [methodReturn_head hb]; decide)
      unfold methodHead
      rw [he, hc]
      rfl

theorem methodHead_none {i : Bytes} :
    (∃ e, methodHead i = .error e) ↔ BadMethodCall i none ∧ BadMethodReturn i none := by
  have h1 := verdict_error (x := BinaryMethodCall.parse i)
  have h2 := verdict_error (x := BinaryMethodReturn.parse i)
  rw [methodCall_broken i none] at h1
  rw [methodReturn_broken i none] at h2
  rw [h1, h2]
  unfold methodHead
  cases BinaryMethodCall.parse i with
  | error e => cases BinaryMethodReturn.parse i <;> simp [Outcome.map]
  | _ => simp [Outcome.map]

theorem methodHead_failure {i : Bytes} {e : Error} :
    methodHead i = .failure e ↔ BadMethodCall i (some e) ∨ BadMethodReturn i (some e) := by
  have h1 := verdict_failure (x := BinaryMethodCall.parse i) (e := e)
  have h2 := verdict_failure (x := BinaryMethodReturn.parse i) (e := e)
  rw [methodCall_broken i (some e)] at h1
  rw [methodReturn_broken i (some e)] at h2
  rw [h1, h2]
  unfold methodHead
  by_cases h22 : i.head? = some 22
  · obtain ⟨e', he⟩ := methodCall_mismatch (i := i) (by rw [h22]; decide)
    rw [he]
    cases BinaryMethodReturn.parse i <;> simp [Outcome.map]
  · obtain ⟨e', he⟩ := methodReturn_mismatch h22
    rw [he]
    cases BinaryMethodCall.parse i <;> simp [Outcome.map]

theorem methodHead_total (i : Bytes) : methodHead i ≠ .panic ∧ methodHead i ≠ .diverge := by
  have h1 := call_total i
  have h2 := return_total i
  unfold methodHead
  cases hc : BinaryMethodCall.parse i with
  | error e => cases hr : BinaryMethodReturn.parse i <;> simp_all [Outcome.map]
  | _ => simp_all [Outcome.map]

theorem optHead_match {s : St} (hs : s.classes = []) (i : Bytes) :
    Match (lift (opt methodHead) s i) i.length 0 (fun h E' r => E' = abs s ∧
      ((∃ h' b, h = some h' ∧ IsMethodHead h'.1 h'.2.1 h'.2.2 b ∧ i = b ++ r) ∨
        (h = none ∧ r = i ∧ BadMethodCall i none ∧ BadMethodReturn i none))) := by
  constructor
  · intro r h s' hx
    simp only [lift, opt, Prod.mk.injEq] at hx
    obtain ⟨hx, rfl⟩ := hx
    split at hx
    · rename_i e he
      cases hx
      exact ⟨⟨rfl, .inr ⟨rfl, rfl, methodHead_none.mp ⟨e, he⟩⟩⟩, hs, by simp⟩
    · obtain ⟨h', h1, rfl⟩ := map_ok hx
      obtain ⟨b, hb, rfl⟩ := methodHead_ok.mp h1
      exact ⟨⟨rfl, .inl ⟨h', b, rfl, hb, rfl⟩⟩, hs, by simp⟩
  · rintro h E' r ⟨rfl, ⟨h', b, rfl, hb, rfl⟩ | ⟨rfl, rfl, hb⟩⟩
    · exact ⟨s, by simp only [lift, opt, methodHead_ok.mpr ⟨b, hb, rfl⟩]; rfl, rfl⟩
    · obtain ⟨e, he⟩ := methodHead_none.mpr hb
      exact ⟨s, by simp only [lift, opt, he], rfl⟩

theorem optHead_ematch {s : St} (i : Bytes) :
    EMatch (lift (opt methodHead) s i) (fun e => BadMethodCall i (some e) ∨ BadMethodReturn i (some e)) := by
  intro e
  refine Iff.trans ?_ methodHead_failure
  simp only [lift, opt]
  cases methodHead i <;> simp [Outcome.map]

theorem tail_match {s : St} (hs : s.classes = []) (i : Bytes) (root : Nat) (h : MethodHead) :
    Match (methodTail root h s i) i.length 0 (fun m E' r => ∃ ca args, OptCallArray root (abs s) i ca E' r ∧
      ArgsFrom h.1 ca h.2.1 args ∧ m = h.2.2 args) := by
  unfold methodTail
  refine ((optCallArray_match hs i root).bind (k2 := 0) (k := 0) (by omega) (K := fun ca E1 i1 m E' r =>
    ∃ args, ArgsFrom h.1 ca h.2.1 args ∧ m = h.2.2 args ∧ E' = E1 ∧ r = i1) fun ca s1 i1 hs1 _ _ => ?_).congr
    fun m E' r => ?_
  · cases hx : argsOf h.1 ca h.2.1 with
    | some args =>
      have ha := argsOf_iff.mp hx
      refine (Match.ret hs1).congr fun m E' r => ?_
      constructor
      · rintro ⟨rfl, rfl, rfl⟩; exact ⟨args, ha, rfl, rfl, rfl⟩
      · rintro ⟨args', ha', rfl, rfl, rfl⟩
        rw [argsOf_iff.mpr ha'] at hx
        cases hx
        exact ⟨rfl, rfl, rfl⟩
    | none =>
      refine .never (by simp) ?_
      rintro m E r ⟨args, ha, _⟩
      exact argsOf_none.mp hx ⟨args, ha⟩
  · constructor
    · rintro ⟨ca, E1, i1, h1, args, h2, rfl, rfl, rfl⟩; exact ⟨ca, args, h1, h2, rfl⟩
    · rintro ⟨ca, args, h1, h2, rfl⟩; exact ⟨ca, _, _, h1, args, h2, rfl, rfl, rfl⟩

theorem tail_ematch {s : St} (hs : s.classes = []) (i : Bytes) (root : Nat) (h : MethodHead) :
    EMatch (methodTail root h s i) (fun e => (∃ E', BadCallArray root (abs s) i (some e) E') ∨
      ∃ ca E' i', OptCallArray root (abs s) i ca E' i' ∧ (¬ ∃ args, ArgsFrom h.1 ca h.2.1 args) ∧
        e = ⟨i', .invalidArgs⟩) := by
  unfold methodTail
  refine (EMatch.bind (optCallArray_match hs i root) (optS_ematch (callArray_bmatch hs i root)) (G := fun ca _ i' e =>
    (¬ ∃ args, ArgsFrom h.1 ca h.2.1 args) ∧ e = ⟨i', .invalidArgs⟩) fun ca s1 i1 hs1 _ _ => ?_)
  cases hx : argsOf h.1 ca h.2.1 with
  | some args =>
    refine EMatch.ret.congr fun e => ?_
    simp only [false_iff]
    rintro ⟨ha, _⟩
    exact ha ⟨args, argsOf_iff.mp hx⟩
  | none =>
    have ha := argsOf_none.mp hx
    intro e
    simp only [reduceCtorEq, Outcome.failure.injEq, false_or]
    exact ⟨fun h => ⟨ha, h.symm⟩, fun h => h.2.symm⟩

theorem method_match {s : St} (hs : s.classes = []) {i : Bytes} (hn : NoLibrary i) (root : Nat) :
    Match (optS (parseMethodCallOrReturn (rootOf root)) s i) i.length 0 (fun m E' r => OptMethod root (abs s) i m E' r) := by
  rw [method_unfold hn]
  refine ((optHead_match hs i).bind (k2 := 0) (k := 0) (by omega) (K := fun h E1 i1 m E' r =>
    (∃ h' ca args, h = some h' ∧ OptCallArray root E1 i1 ca E' r ∧ ArgsFrom h'.1 ca h'.2.1 args ∧ m = some (h'.2.2 args)) ∨
    (h = none ∧ m = none ∧ E' = E1 ∧ r = i1)) fun h s1 i1 hs1 _ _ => ?_).congr fun m E' r => ?_
  · cases h with
    | some h =>
      refine ((tail_match hs1 i1 root h).map some).congr fun m E' r => ?_
      constructor
      · rintro ⟨m, ⟨ca, args, h1, h2, rfl⟩, rfl⟩; exact .inl ⟨h, ca, args, rfl, h1, h2, rfl⟩
      · rintro (⟨h', ca, args, e, h1, h2, rfl⟩ | ⟨e, _⟩)
        · cases e; exact ⟨_, ⟨ca, args, h1, h2, rfl⟩, rfl⟩
        · cases e
    | none => exact (Match.ret hs1).congr fun m E' r => by simp
  · constructor
    · rintro ⟨h, E1, i1, ⟨rfl, ⟨h', b, rfl, hb, rfl⟩ | ⟨rfl, rfl, h1, h2⟩⟩, ⟨h'', ca, args, e, h3, h4, rfl⟩ | ⟨e, rfl, rfl, rfl⟩⟩
      · cases e; exact .some hb h3 h4
      · cases e
      · cases e
      · exact .none h1 h2
    · intro h
      cases h with
      | @some f inline method b i1 ca _ _ args hb h1 h2 =>
        exact ⟨some (f, inline, method), _, i1, ⟨rfl, .inl ⟨_, b, rfl, hb, rfl⟩⟩, .inl ⟨_, ca, args, rfl, h1, h2, rfl⟩⟩
      | none h1 h2 => exact ⟨none, _, _, ⟨rfl, .inr ⟨rfl, rfl, h1, h2⟩⟩, .inr ⟨rfl, rfl, rfl, rfl⟩⟩

theorem method_ematch {s : St} (hs : s.classes = []) {i : Bytes} (hn : NoLibrary i) (root : Nat) :
    EMatch (optS (parseMethodCallOrReturn (rootOf root)) s i) (BadMethod root (abs s) i) := by
  rw [method_unfold hn]
  refine (EMatch.bind (optHead_match hs i) (optHead_ematch i) (G := fun h E1 i1 e => ∃ h', h = some h' ∧
    ((∃ E', BadCallArray root E1 i1 (some e) E') ∨ ∃ ca E' i', OptCallArray root E1 i1 ca E' i' ∧
      (¬ ∃ args, ArgsFrom h'.1 ca h'.2.1 args) ∧ e = ⟨i', .invalidArgs⟩)) fun h s1 i1 hs1 _ _ => ?_).congr fun e => ?_
  · cases h with
    | some h =>
      refine ((tail_ematch hs1 i1 root h).map some).congr fun e => ?_
      constructor
      · intro h1; exact ⟨h, rfl, h1⟩
      · rintro ⟨h', e, h1⟩; cases e; exact h1
    | none => exact EMatch.ret.congr fun e => by simp
  · constructor
    · rintro ((h | h) | ⟨h, E1, i1, ⟨rfl, ⟨h', b, rfl, hb, rfl⟩ | ⟨rfl, rfl, _⟩⟩, h'', e, h1⟩)
      · exact .call h
      · exact .return h
      · cases e
        rcases h1 with ⟨E', h1⟩ | ⟨ca, E', i', h1, h2, rfl⟩
        · exact .callArray hb h1
        · exact .args hb h1 h2
      · cases e
    · intro h
      cases h with
      | call h => exact .inl (.inl h)
      | «return» h => exact .inl (.inr h)
      | @callArray f inline method b i1 _ E' hb h =>
        exact .inr ⟨some (f, inline, method), _, i1, ⟨rfl, .inl ⟨_, b, rfl, hb, rfl⟩⟩, _, rfl, .inl ⟨E', h⟩⟩
      | @args f inline method b i1 ca E' i' hb h1 h2 =>
        exact .inr ⟨some (f, inline, method), _, i1, ⟨rfl, .inl ⟨_, b, rfl, hb, rfl⟩⟩, _, rfl,
          .inr ⟨ca, E', i', h1, h2, rfl⟩⟩

/-! ## Messages -/

theorem passes_match {s : St} (hs : s.classes = []) (i : Bytes) :
    Match (parseReferenceables s i) i.length 0 (fun _ E' r => Pass (abs s) i E' r) := pass_match _ hs (by omega)

theorem passes_ematch {s : St} (hs : s.classes = []) (i : Bytes) :
    EMatch (parseReferenceables s i) (BadPass (abs s) i) := pass_ematch _ hs (by omega)

/-- The end of a message, and its content. -/
def ending (root : Nat) (m : Option (MethodCall ⊕ MethodReturn)) : SP RemotingMessage := fun s i =>
  (lift MessageEnd.parse s i).bind fun _ s i =>
    if i.isEmpty then selectRoot (rootOf root) m s i
    else (.error ⟨i, .trailingData⟩, s)

theorem messageEnd_mismatch {i : Bytes} (h : i.head? ≠ some 11) :
    MessageEnd.parse i = .error ⟨i, .expectedRecordType .messageEnd⟩ := by
  unfold MessageEnd.parse
  rw [recordType_mismatch (t := .messageEnd) h]
  rfl

theorem ending_none {i : Bytes} (h : i.head? ≠ some 11) (root : Nat) (m : Option (MethodCall ⊕ MethodReturn)) (s : St) :
    ending root m s i = (.error ⟨i, .expectedRecordType .messageEnd⟩, s) := by
  unfold ending
  simp only [lift, messageEnd_mismatch h, Res.bind]

theorem ending_trailing {t : Bytes} (h : t ≠ []) (root : Nat) (m : Option (MethodCall ⊕ MethodReturn)) (s : St) :
    ending root m s (11 :: t) = (.error ⟨t, .trailingData⟩, s) := by
  unfold ending
  simp only [lift, messageEnd_ok, Res.bind]
  rw [if_neg (by simpa using h)]

theorem ending_root (root : Nat) (m : Option (MethodCall ⊕ MethodReturn)) (s : St) :
    ending root m s [11] = selectRoot (rootOf root) m s [] := by
  unfold ending
  simp only [lift, messageEnd_ok, Res.bind]
  rw [if_pos (by rfl)]

theorem input_cases (i : Bytes) : i.head? ≠ some 11 ∨ (∃ t, t ≠ [] ∧ i = 11 :: t) ∨ i = [11] := by
  cases i with
  | nil => exact .inl (by simp)
  | cons c t =>
    by_cases h : c = 11
    · subst h
      cases t with
      | nil => exact .inr (.inr rfl)
      | cons d t => exact .inr (.inl ⟨d :: t, by simp, rfl⟩)
    · exact .inl (by simpa using h)

/-- The content is `c`. -/
theorem ending_ok (root : Nat) (m : Option (MethodCall ⊕ MethodReturn)) (s : St) (i : Bytes) (c : RemotingMessage) :
    (∃ r s', ending root m s i = (.ok r c, s')) ↔ i = [11] ∧ HasContent root m (abs s) c := by
  rcases input_cases i with h | ⟨t, ht, rfl⟩ | rfl
  · rw [ending_none h]
    constructor
    · rintro ⟨_, _, h'⟩; cases h'
    · rintro ⟨rfl, _⟩; exact absurd rfl h
  · rw [ending_trailing ht]
    constructor
    · rintro ⟨_, _, h'⟩; cases h'
    · rintro ⟨e, _⟩; cases e; exact absurd rfl ht
  · rw [ending_root]
    simp only [true_and]
    unfold selectRoot HasContent RootValue rootOf
    cases m with
    | some m =>
      cases m <;> simp only [methodMessage]
      all_goals
        constructor
        · rintro ⟨_, _, h⟩; cases h; rfl
        · rintro rfl; exact ⟨_, _, rfl⟩
    | none =>
      by_cases h0 : root = 0
      · simp only [h0, if_true]
        constructor
        · rintro ⟨_, _, h⟩; cases h; exact ⟨_, .inl ⟨trivial, rfl⟩, rfl⟩
        · rintro ⟨v, ⟨_, rfl⟩ | ⟨h, _⟩, rfl⟩
          · exact ⟨_, _, rfl⟩
          · exact absurd rfl h
      · simp only [h0, if_false]
        have e : (abs s).objs root = s.objects.get? root := rfl
        rw [e]
        cases s.objects.get? root with
        | some v =>
          constructor
          · rintro ⟨_, _, h⟩; cases h; exact ⟨_, .inr ⟨by simpa using h0, rfl⟩, rfl⟩
          · rintro ⟨v, ⟨h, _⟩ | ⟨_, h⟩, rfl⟩
            · exact h.elim
            · cases h; exact ⟨_, _, rfl⟩
        | none =>
          constructor
          · rintro ⟨_, _, h⟩; cases h
          · rintro ⟨v, ⟨h, _⟩ | ⟨_, h⟩, rfl⟩
            · exact h.elim
            · cases h

theorem ending_ematch (root : Nat) (m : Option (MethodCall ⊕ MethodReturn)) (s : St) (i : Bytes) :
    EMatch (ending root m s i) (fun e => (i.head? ≠ some 11 ∧ e = ⟨i, .expectedRecordType .messageEnd⟩) ∨
      (∃ t, i = 11 :: t ∧ t ≠ [] ∧ e = ⟨t, .trailingData⟩) ∨
      (i = [11] ∧ m = none ∧ root ≠ 0 ∧ (abs s).objs root = none ∧ e = ⟨[], .missingRootObject⟩)) := by
  intro e
  rcases input_cases i with h | ⟨t, ht, rfl⟩ | rfl
  · rw [ending_none h]
    constructor
    · rintro (h' | h') <;> cases h'
      exact .inl ⟨h, rfl⟩
    · rintro (⟨_, rfl⟩ | ⟨t, rfl, _⟩ | ⟨rfl, _⟩)
      · exact .inl rfl
      · exact absurd rfl h
      · exact absurd rfl h
  · rw [ending_trailing ht]
    constructor
    · rintro (h' | h') <;> cases h'
      exact .inr (.inl ⟨t, rfl, ht, rfl⟩)
    · rintro (⟨h, _⟩ | ⟨t, h, _, rfl⟩ | ⟨h, _⟩)
      · exact absurd rfl h
      · cases h; exact .inl rfl
      · cases h; exact absurd rfl ht
  · rw [ending_root]
    have e1 : (abs s).objs root = s.objects.get? root := rfl
    constructor
    · intro h
      refine .inr (.inr ⟨rfl, ?_⟩)
      unfold selectRoot rootOf at h
      cases m with
      | some m => cases m <;> simp at h
      | none =>
        by_cases h0 : root = 0
        · simp [h0] at h
        · simp only [h0, if_false] at h
          rw [e1]
          cases hx : s.objects.get? root with
          | some v => simp [hx] at h
          | none =>
            simp only [hx, Outcome.error.injEq, reduceCtorEq, or_false] at h
            exact ⟨rfl, h0, rfl, h.symm⟩
    · rintro (⟨h, _⟩ | ⟨t, h, ht, rfl⟩ | ⟨_, rfl, h0, hn, rfl⟩)
      · exact absurd rfl h
      · cases h; exact absurd rfl ht
      · unfold selectRoot rootOf
        rw [e1] at hn
        simp only [h0, if_false, hn]
        exact .inl trivial

/-- The values of a result are exactly those of `G`. -/
def AMatch (x : Res α) (G : α → Prop) : Prop := ∀ a, (∃ r s', x = (.ok r a, s')) ↔ G a

omit [Platform] in
theorem AMatch.bind {x : Res α} {f : α → St → Bytes → Res β} {n k : Nat} {J : α → Env → Bytes → Prop}
    {G : α → Env → Bytes → β → Prop} (h : Match x n k J)
    (hf : ∀ a s r, s.classes = [] → J a (abs s) r → r.length + k ≤ n → AMatch (f a s r) (G a (abs s) r)) :
    AMatch (x.bind f) (fun b => ∃ a E r, J a E r ∧ G a E r b) := by
  intro b
  constructor
  · rintro ⟨r, s', hx⟩
    obtain ⟨o, s⟩ := x
    cases o with
    | ok r1 a =>
      obtain ⟨hj, hs, hl⟩ := h.1 r1 a s rfl
      exact ⟨a, _, _, hj, (hf a s r1 hs hj hl b).mp ⟨r, s', hx⟩⟩
    | _ => simp [Res.bind] at hx
  · rintro ⟨a, E, r, hj, hg⟩
    obtain ⟨s1, rfl, rfl⟩ := h.2 a E r hj
    obtain ⟨_, hs, hl⟩ := h.1 r a s1 rfl
    exact (hf a s1 r hs hj hl b).mpr hg

theorem pass_noLibrary {E : Env} {i : Bytes} {E' : Env} {i' : Bytes} (h : Pass E i E' i') : NoLibrary i' :=
  let ⟨_, _, h⟩ := h; badRecord_noLibrary h

theorem parse_ending {root : Nat} {h : Bytes} (hh : IsHeader root h) (s : St) (i : Bytes) :
    parseRemotingMessage s (h ++ i) =
      (parseReferenceables s i).bind fun _ s i =>
      (optS (parseMethodCallOrReturn (rootOf root)) s i).bind fun m s i =>
      (parseReferenceables s i).bind fun _ s i => ending root m s i := parse_unfold hh s i

theorem isHeader_unique {root root' : Nat} {h h' i i' : Bytes} (h1 : IsHeader root h) (h2 : IsHeader root' h')
    (e : h ++ i = h' ++ i') : root = root' ∧ i = i' := by
  obtain ⟨hd, e1, r1⟩ := header_ok h1 i
  obtain ⟨hd', e2, r2⟩ := header_ok h2 i'
  rw [e] at e1
  rw [e2] at e1
  cases e1
  rw [r1] at r2
  refine ⟨?_, rfl⟩
  unfold rootOf at r2
  split at r2 <;> split at r2 <;> simp at r2 <;> omega

/-- What is behind the header is accepted. -/
theorem body_accepted {root : Nat} {h : Bytes} (hh : IsHeader root h) (i : Bytes) :
    AMatch (parseRemotingMessage St.init (h ++ i)) (fun c => ∃ E1 i1 m E2 i2 E, Pass Env.empty i E1 i1 ∧
      OptMethod root E1 i1 m E2 i2 ∧ Pass E2 i2 E [11] ∧ HasContent root m E c) := by
  rw [parse_ending hh]
  have := AMatch.bind (passes_match (s := St.init) rfl i) (f := fun _ s i =>
      (optS (parseMethodCallOrReturn (rootOf root)) s i).bind fun m s i =>
      (parseReferenceables s i).bind fun _ s i => ending root m s i)
    (G := fun _ E1 i1 c => ∃ m E2 i2, OptMethod root E1 i1 m E2 i2 ∧ ∃ (_ : Unit) (E : Env) (i3 : Bytes), Pass E2 i2 E i3 ∧ i3 = [11] ∧
      HasContent root m E c) fun _ s1 i1 hs1 hp _ => by
    refine AMatch.bind (method_match hs1 (pass_noLibrary hp) root)
      (G := fun m E2 i2 c => ∃ (_ : Unit) (E : Env) (i3 : Bytes), Pass E2 i2 E i3 ∧ i3 = [11] ∧ HasContent root m E c) fun m s2 i2 hs2 _ _ => ?_
    refine AMatch.bind (passes_match hs2 i2) (G := fun _ E i3 c => i3 = [11] ∧ HasContent root m E c) fun _ s3 i3 _ _ _ => ?_
    exact ending_ok root m s3 i3
  intro c
  refine (this c).trans ?_
  rw [abs_init]
  constructor
  · rintro ⟨_, E1, i1, h1, m, E2, i2, h2, _, E, _, h3, rfl, h4⟩
    exact ⟨E1, i1, m, E2, i2, E, h1, h2, h3, h4⟩
  · rintro ⟨E1, i1, m, E2, i2, E, h1, h2, h3, h4⟩
    exact ⟨(), E1, i1, h1, m, E2, i2, h2, (), E, _, h3, rfl, h4⟩

/-- What is behind the header is rejected. -/
theorem body_rejected {root : Nat} {h : Bytes} (hh : IsHeader root h) (i : Bytes) :
    EMatch (parseRemotingMessage St.init (h ++ i)) (fun e => BadPass Env.empty i e ∨ ∃ E1 i1, Pass Env.empty i E1 i1 ∧
      (BadMethod root E1 i1 e ∨ ∃ m E2 i2, OptMethod root E1 i1 m E2 i2 ∧ (BadPass E2 i2 e ∨ ∃ E i3, Pass E2 i2 E i3 ∧
        ((i3.head? ≠ some 11 ∧ e = ⟨i3, .expectedRecordType .messageEnd⟩) ∨
          (∃ t, i3 = 11 :: t ∧ t ≠ [] ∧ e = ⟨t, .trailingData⟩) ∨
          (i3 = [11] ∧ m = none ∧ root ≠ 0 ∧ E.objs root = none ∧ e = ⟨[], .missingRootObject⟩))))) := by
  rw [parse_ending hh]
  let Q := fun (m : Option (MethodCall ⊕ MethodReturn)) (E : Env) (i3 : Bytes) (e : Error) =>
    (i3.head? ≠ some 11 ∧ e = ⟨i3, .expectedRecordType .messageEnd⟩) ∨
          (∃ t, i3 = 11 :: t ∧ t ≠ [] ∧ e = ⟨t, .trailingData⟩) ∨
          (i3 = [11] ∧ m = none ∧ root ≠ 0 ∧ E.objs root = none ∧ e = ⟨[], .missingRootObject⟩)
  have := EMatch.bind (passes_match (s := St.init) rfl i) (passes_ematch (s := St.init) rfl i) (f := fun _ s i =>
      (optS (parseMethodCallOrReturn (rootOf root)) s i).bind fun m s i =>
      (parseReferenceables s i).bind fun _ s i => ending root m s i)
    (G := fun _ E1 i1 e => BadMethod root E1 i1 e ∨ ∃ m E2 i2, OptMethod root E1 i1 m E2 i2 ∧
      (BadPass E2 i2 e ∨ ∃ (_ : Unit) (E : Env) (i3 : Bytes), Pass E2 i2 E i3 ∧ Q m E i3 e)) fun _ s1 i1 hs1 hp _ => by
    refine EMatch.bind (method_match hs1 (pass_noLibrary hp) root) (method_ematch hs1 (pass_noLibrary hp) root)
      (G := fun m E2 i2 e => BadPass E2 i2 e ∨ ∃ (_ : Unit) (E : Env) (i3 : Bytes), Pass E2 i2 E i3 ∧ Q m E i3 e) fun m s2 i2 hs2 _ _ => ?_
    refine EMatch.bind (passes_match hs2 i2) (passes_ematch hs2 i2) (G := fun _ E i3 e => Q m E i3 e) fun _ s3 i3 _ _ _ => ?_
    exact ending_ematch root m s3 i3
  refine this.congr fun e => ?_
  rw [abs_init]
  refine or_congr Iff.rfl ?_
  constructor
  · rintro ⟨_, E1, i1, h1, h2 | ⟨m, E2, i2, h2, h3 | ⟨_, E, i3, h3, h4⟩⟩⟩
    · exact ⟨E1, i1, h1, .inl h2⟩
    · exact ⟨E1, i1, h1, .inr ⟨m, E2, i2, h2, .inl h3⟩⟩
    · exact ⟨E1, i1, h1, .inr ⟨m, E2, i2, h2, .inr ⟨E, i3, h3, h4⟩⟩⟩
  · rintro ⟨E1, i1, h1, h2 | ⟨m, E2, i2, h2, h3 | ⟨E, i3, h3, h4⟩⟩⟩
    · exact ⟨(), E1, i1, h1, .inl h2⟩
    · exact ⟨(), E1, i1, h1, .inr ⟨m, E2, i2, h2, .inl h3⟩⟩
    · exact ⟨(), E1, i1, h1, .inr ⟨m, E2, i2, h2, .inr ⟨(), E, i3, h3, h4⟩⟩⟩

theorem deserialize_ok {w : Bytes} {c : RemotingMessage} :
    deserialize w = .ok c ↔ ∃ r s', parseRemotingMessage St.init w = (.ok r c, s') := by
  unfold deserialize
  cases parseRemotingMessage St.init w with
  | mk o s => cases o <;> simp

theorem deserialize_err {w : Bytes} {e : Error} :
    deserialize w = .err e ↔ ((parseRemotingMessage St.init w).1 = .error e ∨ (parseRemotingMessage St.init w).1 = .failure e) := by
  unfold deserialize
  cases parseRemotingMessage St.init w with
  | mk o s => cases o <;> simp

/-- A message is accepted exactly when the judgement says so. -/
theorem deserialize_accepted (w : Bytes) (c : RemotingMessage) : deserialize w = .ok c ↔ Accepted w c := by
  rw [deserialize_ok]
  constructor
  · rintro ⟨r, s', h⟩
    cases hh : SerializationHeader.parse w with
    | ok i hd =>
      obtain ⟨root, b, hb, rfl, _⟩ := header_sound hh
      obtain ⟨E1, i1, m, E2, i2, E, h1, h2, h3, h4⟩ := (body_accepted hb i c).mp ⟨r, s', h⟩
      exact ⟨root, m, E, ⟨b, i, E1, i1, E2, i2, hb, rfl, h1, h2, h3⟩, h4⟩
    | _ =>
      unfold parseRemotingMessage at h
      simp [lift, hh, Res.bind] at h
  · rintro ⟨root, m, E, ⟨b, i, E1, i1, E2, i2, hb, rfl, h1, h2, h3⟩, h4⟩
    exact (body_accepted hb i c).mpr ⟨E1, i1, m, E2, i2, E, h1, h2, h3, h4⟩

/-- A message is rejected exactly when the judgement says so, and with the error it says. -/
theorem deserialize_rejected (w : Bytes) (e : Error) : deserialize w = .err e ↔ Rejected w e := by
  rw [deserialize_err]
  constructor
  · intro h
    cases hh : SerializationHeader.parse w with
    | ok i hd =>
      obtain ⟨root, b, hb, rfl, _⟩ := header_sound hh
      rcases (body_rejected hb i e).mp h with h1 | ⟨E1, i1, h1, h2 | ⟨m, E2, i2, h2, h3 | ⟨E, i3, h3, h4⟩⟩⟩
      · exact .record hb h1
      · exact .method hb h1 h2
      · exact .laterRecord hb h1 h2 h3
      · rcases h4 with ⟨h4, rfl⟩ | ⟨t, rfl, h4, rfl⟩ | ⟨rfl, rfl, h4, h5, rfl⟩
        · exact .noEnd ⟨b, i, E1, i1, E2, i2, hb, rfl, h1, h2, h3⟩ h4
        · exact .trailing ⟨b, i, E1, i1, E2, i2, hb, rfl, h1, h2, h3⟩ h4
        · exact .noRoot ⟨b, i, E1, i1, E2, i2, hb, rfl, h1, h2, h3⟩ h4 h5
    | _ =>
      refine .header ((header_err w e).mp ?_)
      unfold parseRemotingMessage at h
      simpa [lift, hh, Res.bind] using h
  · intro h
    cases h with
    | header h =>
      unfold parseRemotingMessage
      rcases (header_err w e).mpr h with h | h <;> simp [lift, h, Res.bind]
    | record hb h => exact (body_rejected hb _ e).mpr (.inl h)
    | method hb h1 h2 => exact (body_rejected hb _ e).mpr (.inr ⟨_, _, h1, .inl h2⟩)
    | laterRecord hb h1 h2 h3 => exact (body_rejected hb _ e).mpr (.inr ⟨_, _, h1, .inr ⟨_, _, _, h2, .inl h3⟩⟩)
    | noEnd h h4 =>
      obtain ⟨b, i, E1, i1, E2, i2, hb, rfl, h1, h2, h3⟩ := h
      exact (body_rejected hb _ _).mpr (.inr ⟨_, _, h1, .inr ⟨_, _, _, h2, .inr ⟨_, _, h3, .inl ⟨h4, rfl⟩⟩⟩⟩)
    | trailing h h4 =>
      obtain ⟨b, i, E1, i1, E2, i2, hb, rfl, h1, h2, h3⟩ := h
      exact (body_rejected hb _ _).mpr (.inr ⟨_, _, h1, .inr ⟨_, _, _, h2, .inr ⟨_, _, h3, .inr (.inl ⟨_, rfl, h4, rfl⟩)⟩⟩⟩)
    | noRoot h h4 h5 =>
      obtain ⟨b, i, E1, i1, E2, i2, hb, rfl, h1, h2, h3⟩ := h
      exact (body_rejected hb _ _).mpr
        (.inr ⟨_, _, h1, .inr ⟨_, _, _, h2, .inr ⟨_, _, h3, .inr (.inr ⟨rfl, rfl, h4, h5, rfl⟩)⟩⟩⟩)

end Nrbf
