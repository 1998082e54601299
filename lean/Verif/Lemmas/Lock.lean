import Verif.Lemmas.Residue
import Verif.Lemmas.MessageSem

/-! # Two attempts at the same record

Without references the table of objects plays no role.  A second attempt, with the libraries of a first
one, then cannot succeed where the first failed: either both take the same steps, or the first has
registered a library that the second one stumbles over. -/

set_option autoImplicit false

namespace Nrbf
open Spec

variable {α β : Type}

/-- The libraries of `s` are libraries of `s'` (perhaps under other names); there are no classes. -/
structure Sim (s s' : St) : Prop where
  left : s.classes = []
  right : s'.classes = []
  libs : s.LibsLe s'

/-- The result `x` in `s` and the result `x'` in `s'` of the same parser on the same suffix of `w`: if
the latter is a success, then the former is a similar one and neither has changed the libraries, or the
former registered a library unknown in `s'`, or it failed with libraries different from those of `s'`. -/
def LockR (w : Bytes) (s s' : St) (V : α → α → Prop) (x x' : Res α) : Prop :=
  ∀ r a' t', x' = (.ok r a', t') →
    (∃ a t, x = (.ok r a, t) ∧ t.libs = s.libs ∧ t'.libs = s'.libs ∧ t.classes = [] ∧ t'.classes = [] ∧
      V a a' ∧ r <:+ w) ∨
    (∃ k, (x.2.libs.get? k).isSome ∧ s'.libs.get? k = none) ∨
    ((∀ r a, x.1 ≠ .ok r a) ∧ ∃ k, x.2.libs.get? k ≠ s'.libs.get? k)

/-- Equal results. -/
abbrev Any {α : Type} : α → α → Prop := fun _ _ => True

/-- For all inputs. -/
def Lock (w : Bytes) (V : AMap Nat Str → AMap Nat Str → α → α → Prop) (p : SP α) : Prop :=
  ∀ s s' i, Sim s s' → i <:+ w → LockR w s s' (V s.libs s'.libs) (p s i) (p s' i)

namespace LockR
variable {w : Bytes} {s s' : St} {V : α → α → Prop} {W : β → β → Prop}

theorem same {o : Outcome Error α} (hs : Sim s s') (h : ∀ r a, o = .ok r a → V a a ∧ r <:+ w) :
    LockR w s s' V (o, s) (o, s') := by
  intro r a t' e
  cases e
  obtain ⟨h1, h2⟩ := h r a rfl
  exact .inl ⟨a, s, rfl, rfl, rfl, hs.left, hs.right, h1, h2⟩

theorem vain {x x' : Res α} (h : ∀ r a, x'.1 ≠ .ok r a) : LockR w s s' V x x' := by
  rintro r a t' rfl
  exact absurd rfl (h r a)

theorem map {x x' : Res α} {f f' : α → β} (h : LockR w s s' V x x') (hf : ∀ a a', V a a' → W (f a) (f' a')) :
    LockR w s s' W (x.map f) (x'.map f') := by
  intro r b t' e
  obtain ⟨o', u'⟩ := x'
  cases o' with
  | ok r' a =>
    simp only [Res.map, Outcome.map, Prod.mk.injEq, Outcome.ok.injEq] at e
    obtain ⟨⟨rfl, rfl⟩, rfl⟩ := e
    rcases h _ _ _ rfl with ⟨a0, t, rfl, h2, h3, h4, h5, h6, h7⟩ | h | ⟨h1, h2⟩
    · exact .inl ⟨f a0, t, rfl, h2, h3, h4, h5, hf _ _ h6, h7⟩
    · exact .inr (.inl h)
    · refine .inr (.inr ⟨fun r b e => ?_, h2⟩)
      obtain ⟨o, u⟩ := x
      cases o with
      | ok r a => exact h1 r a rfl
      | _ => simp [Res.map, Outcome.map] at e
  | _ => simp [Res.map, Outcome.map] at e

theorem bind {x x' : Res α} {f f' : α → St → Bytes → Res β} (hs : Sim s s') (h : LockR w s s' V x x')
    (hm : ∀ a (s : St) r, s.LibsLe (f a s r).2)
    (hf : ∀ a a' t t' r, t.libs = s.libs → t'.libs = s'.libs → Sim t t' → V a a' → r <:+ w →
      LockR w t t' W (f a t r) (f' a' t' r)) : LockR w s s' W (x.bind f) (x'.bind f') := by
  intro r b u' e
  obtain ⟨o', t'⟩ := x'
  cases o' with
  | ok r1 a' =>
    rcases h _ _ _ rfl with ⟨a, t, rfl, h2, h3, h4, h5, h6, h7⟩ | ⟨k, hk, hk'⟩ | ⟨h1, h2⟩
    · have hs' : Sim t t' := ⟨h4, h5, fun k hk => by rw [h3]; exact hs.libs k (by rw [← h2]; exact hk)⟩
      rcases hf a a' t t' r1 h2 h3 hs' h6 h7 r b u' e with ⟨b0, u, g1, g2, g3, g4, g5, g6, g7⟩ | ⟨k, hk, hk'⟩ |
        ⟨g1, g2⟩
      · exact .inl ⟨b0, u, g1, g2.trans h2, g3.trans h3, g4, g5, g6, g7⟩
      · exact .inr (.inl ⟨k, hk, by rw [← h3]; exact hk'⟩)
      · exact .inr (.inr ⟨g1, by rw [← h3]; exact g2⟩)
    · refine .inr (.inl ⟨k, ?_, hk'⟩)
      obtain ⟨o, t⟩ := x
      cases o with
      | ok r a => exact hm a t r k hk
      | _ => exact hk
    · refine .inr (.inr ?_)
      obtain ⟨o, t⟩ := x
      cases o with
      | ok r a => exact absurd rfl (h1 r a)
      | _ => exact ⟨(fun _ _ e => by simp [Res.bind] at e), h2⟩
  | _ => simp [Res.bind] at e

/-- Different libraries. -/
theorem differ {x' : Res α} {e : Error} {l : Nat} (h : s.libs.get? l ≠ s'.libs.get? l) :
    LockR w s s' V (.failure e, s) x' :=
  fun _ _ _ _ => .inr (.inr ⟨(by intro _ _ e; cases e), l, h⟩)

end LockR

/-- A stateless parser. -/
theorem lift_lock {w : Bytes} {p : Parser α} (h : ∀ i r a, i <:+ w → p i = .ok r a → r <:+ w) :
    Lock w (fun _ _ => Eq) (lift p) :=
  fun _ _ i hs hi => LockR.same hs fun r a e => ⟨rfl, h i r a hi e⟩

theorem PG.suffix {w : Bytes} {V : α → Prop} {n k : Nat} {x : Outcome Error α} (h : PG w V n k x) {r : Bytes}
    {a : α} (e : x = .ok r a) : r <:+ w := by
  subst e; exact h.1

theorem library_lock {w : Bytes} : Lock w (fun _ _ => Any) parseBinaryLibrary := by
  intro s s' i hs hi
  unfold parseBinaryLibrary lift
  have hg := opt_good hi (binaryLibrary_good hi)
  generalize opt BinaryLibrary.parse i = x at hg
  cases x with
  | ok r l =>
    have hr := PG.suffix hg rfl
    simp only [Res.bind]
    cases l with
    | none => exact LockR.same hs (by rintro _ _ ⟨⟩; exact ⟨trivial, hr⟩)
    | some l =>
      simp only
      by_cases h' : (s'.libs.get? l.libraryId).isSome
      · simp only [h', if_true]
        exact LockR.vain (by intro _ _ e; cases e)
      · have h'' : s'.libs.get? l.libraryId = none := by simpa using h'
        have h : ¬ (s.libs.get? l.libraryId).isSome := fun h => h' (hs.libs _ h)
        simp only [h', h]
        intro _ _ _ _
        exact .inr (.inl ⟨l.libraryId, by simp [AMap.get?_insert], h''⟩)
  | _ => exact LockR.vain (by intro _ _ e; cases e)

/-- Two values, or the same run of nulls. -/
inductive MemLike : ValueOrRef → ValueOrRef → Prop
  | value (v v' : Value) : MemLike (.value v) (.value v')
  | null (n : Nat) : MemLike (.null n) (.null n)

/-- Elementwise. -/
inductive MemsLike : List ValueOrRef → List ValueOrRef → Prop
  | nil : MemsLike [] []
  | cons {m m' ms ms'} : MemLike m m' → MemsLike ms ms' → MemsLike (m :: ms) (m' :: ms')

theorem MemsLike.length {ms ms' : List ValueOrRef} (h : MemsLike ms ms') : ms.length = ms'.length := by
  induction h with
  | nil => rfl
  | cons _ _ ih => simp [ih]

theorem MemsLike.append {ms ms' ns ns' : List ValueOrRef} (h : MemsLike ms ms') (h2 : MemsLike ns ns') :
    MemsLike (ms ++ ns) (ms' ++ ns') := by
  induction h with
  | nil => exact h2
  | cons h _ ih => exact .cons h ih

theorem MemsLike.replicate (n : Nat) (v : Value) :
    MemsLike (List.replicate n (.value v)) (List.replicate n (.value v)) := by
  induction n with
  | zero => exact .nil
  | succ n ih => rw [List.replicate_succ]; exact .cons (.value _ _) ih

theorem countS_lock {w : Bytes} {p : SP ValueOrRef} (hp : Lock w (fun _ _ => MemLike) p) (hm : LibMono p) (n : Nat) :
    Lock w (fun _ _ => MemsLike) (countS p n) := by
  induction n with
  | zero => exact fun s s' i hs hi => LockR.same hs (by rintro _ _ ⟨⟩; exact ⟨.nil, hi⟩)
  | succ n ih =>
    intro s s' i hs hi
    refine LockR.bind hs (hp s s' i hs hi) (fun a s r => Res.map_mono (countS_mono hm n s r))
      fun a a' t t' r _ _ ht ha hr => ?_
    exact (ih t t' r ht hr).map fun ms ms' hms => .cons ha hms

theorem resolve_like (referenceable : SP Nat) {ms ms' : List ValueOrRef} (h : MemsLike ms ms') (i : Bytes) :
    ∃ vs vs', vs.length = vs'.length ∧ (∀ s, resolveMembers referenceable ms s i = (.ok i vs, s)) ∧
      ∀ s, resolveMembers referenceable ms' s i = (.ok i vs', s) := by
  induction h with
  | nil => exact ⟨[], [], rfl, fun s => rfl, fun s => rfl⟩
  | cons h _ ih =>
    obtain ⟨vs, vs', hl, h1, h2⟩ := ih
    cases h with
    | value v v' =>
      exact ⟨v :: vs, v' :: vs', by simp [hl], fun s => by simp only [resolveMembers, h1]; rfl,
        fun s => by simp only [resolveMembers, h2]; rfl⟩
    | null n =>
      exact ⟨List.replicate n .null ++ vs, List.replicate n .null ++ vs', by simp [hl],
        fun s => by simp only [resolveMembers, h1]; rfl, fun s => by simp only [resolveMembers, h2]; rfl⟩

/-- As many. -/
abbrev SameLength {α : Type} (a b : List α) : Prop := a.length = b.length

theorem resolve_lock {w : Bytes} (referenceable : SP Nat) {ms ms' : List ValueOrRef} (h : MemsLike ms ms')
    {s s' : St} {i : Bytes} (hs : Sim s s') (hi : i <:+ w) :
    LockR w s s' SameLength (resolveMembers referenceable ms s i) (resolveMembers referenceable ms' s' i) := by
  obtain ⟨vs, vs', hl, h1, h2⟩ := resolve_like referenceable h i
  rw [h1, h2]
  rintro _ _ _ ⟨⟩
  exact .inl ⟨vs, s, rfl, rfl, rfl, hs.left, hs.right, hl, hi⟩

variable [Platform]

omit [Platform] in
theorem alt_ok {ε : Type} {p : PureParser ε α} {ps : List (PureParser ε α)} {i r : Bytes} {a : α}
    (h : alt p ps i = .ok r a) : ∃ q ∈ p :: ps, q i = .ok r a := by
  induction ps generalizing p with
  | nil => exact ⟨p, by simp, h⟩
  | cons q ps ih =>
    unfold alt at h
    split at h
    · obtain ⟨q', hq, h⟩ := ih h
      exact ⟨q', by simp only [List.mem_cons] at hq ⊢; exact .inr hq, h⟩
    · exact ⟨p, by simp, h⟩

omit [Platform] in
theorem refMember_none {w i r : Bytes} {m : ValueOrRef} (h9 : NoReference w) (hi : i <:+ w) :
    refMember i ≠ .ok r m := by
  intro h
  obtain ⟨b, ⟨id, _, hb⟩, rfl⟩ := (refMember_exact _ _ _).mp h
  exact h9 id b hb ((List.prefix_append b r).isInfix.trans hi.isInfix)

omit [Platform] in
theorem stringMember_like {w i r : Bytes} {m : ValueOrRef} (hi : i <:+ w) (h : stringMember i = .ok r m) :
    MemLike m m ∧ r <:+ w := by
  have hg := bos_good hi
  unfold stringMember at h
  generalize BinaryObjectString.parse i = x at h hg
  cases x with
  | ok r' b => cases h; exact ⟨.value _ _, hg.1⟩
  | _ => cases h

omit [Platform] in
theorem nullMember_like {w i r : Bytes} {m : ValueOrRef} (hi : i <:+ w) (h : parseNullObject i = .ok r m) :
    MemLike m m ∧ r <:+ w := by
  have hg := nullObject_good (val := fun _ => True) hi
  refine ⟨?_, PG.suffix hg h⟩
  unfold parseNullObject at h
  generalize alt ObjectNull.parse [ObjectNullMultiple.parse, ObjectNullMultiple256.parse] i = x at h
  cases x with
  | ok r' b => cases h; exact .null _
  | _ => cases h

theorem typedMember_like {w i r : Bytes} {m : ValueOrRef} (hi : i <:+ w)
    (h : (memberPrimitiveTyped i).map (fun p => ValueOrRef.value p.intoValue) = .ok r m) : MemLike m m ∧ r <:+ w := by
  have hg := typed_good hi
  generalize memberPrimitiveTyped i = x at h hg
  cases x with
  | ok r' b => cases h; exact ⟨.value _ _, hg.1⟩
  | _ => cases h

theorem untypedMember_like {w i r : Bytes} {m : ValueOrRef} (t : PrimitiveType) (hi : i <:+ w)
    (h : (memberPrimitiveUnTyped t i).map (fun p => ValueOrRef.value p.intoValue) = .ok r m) :
    MemLike m m ∧ r <:+ w := by
  have hg := untyped_good t hi
  generalize memberPrimitiveUnTyped t i = x at h hg
  cases x with
  | ok r' b => cases h; exact ⟨.value _ _, hg.1⟩
  | _ => cases h

/-- The names of the same library in two tables, or none. -/
def NameLike (L L' : AMap Nat Str) (o o' : Option Str) : Prop :=
  (o = none ∧ o' = none) ∨ ∃ k n n', L.get? k = some n ∧ L'.get? k = some n' ∧ o = some n ∧ o' = some n'

/-- Objects of the same class. -/
def ObjLike (L L' : AMap Nat Str) (o o' : Nat × Object) : Prop :=
  o.1 = o'.1 ∧ o.2.cls = o'.2.cls ∧ NameLike L L' o.2.library o'.2.library

/-- What is needed of the recursive call of `parse_classes`. -/
structure LockC (w : Bytes) (classes : SP (Nat × Object)) : Prop where
  lock : Lock w ObjLike classes
  mono : LibMono classes
  quiet : ∀ i, ¬ ClassByte i → i.head? ≠ some 1 →
    (∀ s, ∃ e, classes s i = (.error e, s)) ∨ ∀ s, classes s i = (.diverge, s)

section
variable {classes : SP (Nat × Object)} {referenceable : SP Nat} {w : Bytes}

theorem memberNone_lock (h9 : NoReference w) (hc : LockC w classes) :
    Lock w (fun _ _ => MemLike) (memberReferenceNone classes) := by
  intro s s' i hs hi
  unfold memberReferenceNone
  refine LockR.bind hs (library_lock s s' i hs hi) ?_ fun _ _ s s' i _ _ hs _ hi => ?_
  · intro _ s i
    split
    · exact Res.map_mono (hc.mono s i)
    · exact .refl s
  · split
    · exact (hc.lock s s' i hs hi).map fun o o' _ => .value _ _
    · refine LockR.same hs fun r m h => ?_
      obtain ⟨q, hq, h⟩ := alt_ok h
      simp only [List.mem_cons, List.not_mem_nil, or_false] at hq
      rcases hq with rfl | rfl | rfl | rfl
      · exact typedMember_like hi h
      · exact absurd h (refMember_none h9 hi)
      · exact stringMember_like hi h
      · exact nullMember_like hi h

omit [Platform] in
theorem nullMember_class {i : Bytes} (hb : ClassByte i ∨ i.head? = some 1) : ∃ e, parseNullObject i = .error e :=
  nullMember_mismatch (i := i)
    (by rcases hb with (h | h | h | h | h) | h <;> rw [h] <;> decide)
    (by rcases hb with (h | h | h | h | h) | h <;> rw [h] <;> decide)
    (by rcases hb with (h | h | h | h | h) | h <;> rw [h] <;> decide)

theorem NameLike.differ {L L' : AMap Nat Str} {a a' b b' : Option Str} (ha : NameLike L L' a a')
    (hb : NameLike L L' b b') (h : a ≠ b) (h' : a' = b') : ∃ k, L.get? k ≠ L'.get? k := by
  rcases ha with ⟨rfl, rfl⟩ | ⟨k, n, n', h1, h2, rfl, rfl⟩ <;>
    rcases hb with ⟨rfl, rfl⟩ | ⟨l, m, m', h3, h4, rfl, rfl⟩
  · exact absurd rfl h
  · cases h'
  · cases h'
  · cases h'
    by_cases hk : L.get? k = L'.get? k
    · refine ⟨l, fun hl => h ?_⟩
      rw [← h1, ← h3, hk, hl, h2, h4]
    · exact ⟨k, hk⟩

theorem expectedClass_lock (hc : LockC w classes) (name : Str) {library library' : Option Str} {s s' : St}
    {i : Bytes} (hs : Sim s s') (hi : i <:+ w) (hn : NameLike s.libs s'.libs library library') :
    LockR w s s' MemLike (expectedClass classes name library s i) (expectedClass classes name library' s' i) := by
  by_cases hb : ClassByte i ∨ i.head? = some 1
  · obtain ⟨e0, he0⟩ := nullMember_class hb
    have h := hc.lock s s' i hs hi
    intro r m t' e
    unfold expectedClass at e
    generalize hx' : classes s' i = x' at h e
    obtain ⟨o', u'⟩ := x'
    cases o' with
    | ok r' o' =>
      simp only at e
      split at e
      · cases e
      · rename_i hcls
        cases e
        simp only [not_or, Classical.not_not] at hcls
        rcases h _ _ _ rfl with ⟨o, t, h1, h2, h3, h4, h5, ⟨_, h6, h6'⟩, h7⟩ | ⟨k, hk, hk'⟩ | ⟨h1, h2⟩
        · by_cases hl : o.2.library = library
          · refine .inl ⟨.value o.2.toValue, t, ?_, h2, h3, h4, h5, .value _ _, h7⟩
            unfold expectedClass
            rw [h1]
            simp only [h6, hcls.1, hl, ne_eq, not_true_eq_false, or_self, if_false]
          · refine .inr (.inr ?_)
            unfold expectedClass
            rw [h1]
            simp only [hl, ne_eq, not_false_eq_true, or_true, if_true]
            refine ⟨(by intro _ _ e; cases e), ?_⟩
            rw [h2]
            exact h6'.differ hn hl hcls.2
        · refine .inr (.inl ⟨k, ?_, hk'⟩)
          unfold expectedClass
          generalize classes s i = x at hk
          obtain ⟨o1, u⟩ := x
          cases o1 with
          | ok r1 o1 => simp only; split <;> exact hk
          | _ => exact hk
        · refine .inr (.inr ⟨?_, ?_⟩)
          · intro r m e
            unfold expectedClass at e
            generalize classes s i = x at h1 e
            obtain ⟨o1, u⟩ := x
            cases o1 with
            | ok r1 o1 => exact h1 _ _ rfl
            | _ => first | (simp only [he0] at e; cases e) | cases e
          · unfold expectedClass
            generalize classes s i = x at h1 h2
            obtain ⟨o1, u⟩ := x
            cases o1 with
            | ok r1 o1 => exact absurd rfl (h1 _ _)
            | _ => exact h2
    | error => simp only [he0] at e; cases e
    | failure => simp only [he0] at e; cases e
    | panic => cases e
    | diverge => cases e
  · simp only [not_or] at hb
    unfold expectedClass
    rcases hc.quiet i hb.1 hb.2 with hq | hq
    · obtain ⟨e, h1⟩ := hq s
      obtain ⟨e', h2⟩ := hq s'
      rw [h1, h2]
      exact LockR.same hs fun r m e => nullMember_like hi e
    · rw [hq, hq]
      exact LockR.vain (by intro _ _ e; cases e)

theorem member_lock (h9 : NoReference w) (hc : LockC w classes) (t : BinaryType)
    (info : Option AdditionalTypeInfo) : Lock w (fun _ _ => MemLike) (memberReference classes t info) := by
  intro s s' i hs hi
  unfold memberReference
  refine LockR.bind hs (library_lock s s' i hs hi) ?_ fun _ _ s s' i _ _ hs _ hi => ?_
  · intro _ s i
    split
    · exact .refl s
    · exact .refl s
    · exact memberReferenceNone_mono hc.mono s i
    · exact expectedClass_mono hc.mono _ _ s i
    · split
      · exact expectedClass_mono hc.mono _ _ s i
      · exact .refl s
    · exact memberReferenceNone_mono hc.mono s i
    · exact .refl s
    · exact .refl s
    · exact .refl s
  · split
    · exact LockR.same hs fun r m e => untypedMember_like _ hi e
    · exact LockR.same hs fun r m e => stringMember_like hi e
    · exact memberNone_lock h9 hc s s' i hs hi
    · exact expectedClass_lock hc _ hs hi (.inl ⟨rfl, rfl⟩)
    · rename_i c
      cases h : s.libs.get? c.libraryId with
      | some l =>
        cases h' : s'.libs.get? c.libraryId with
        | none => exact LockR.vain (by intro _ _ e; cases e)
        | some l' => exact expectedClass_lock hc _ hs hi (.inr ⟨_, _, _, h, h', rfl, rfl⟩)
      | none =>
        cases h' : s'.libs.get? c.libraryId with
        | none => exact LockR.vain (by intro _ _ e; cases e)
        | some l => exact LockR.differ (by rw [h, h']; exact nofun)
    · exact memberNone_lock h9 hc s s' i hs hi
    · refine LockR.same hs fun r m e => ?_
      obtain ⟨q, hq, h⟩ := alt_ok e
      simp only [List.mem_cons, List.not_mem_nil, or_false] at hq
      rcases hq with rfl | rfl | rfl
      · exact stringMember_like hi h
      · exact absurd h (refMember_none h9 hi)
      · exact nullMember_like hi h
    · exact LockR.same hs fun r m e => absurd e (refMember_none h9 hi)
    · exact LockR.vain (by intro _ _ e; cases e)

theorem members_lock (h9 : NoReference w) (hc : LockC w classes)
    (ts : List (BinaryType × Option AdditionalTypeInfo)) :
    Lock w (fun _ _ => MemsLike) (membersWithTypeInfo classes ts) := by
  induction ts with
  | nil => exact fun s s' i hs hi => LockR.same hs (by rintro _ _ ⟨⟩; exact ⟨.nil, hi⟩)
  | cons e ts ih =>
    intro s s' i hs hi
    refine LockR.bind hs (member_lock h9 hc e.1 e.2 s s' i hs hi)
      (fun a s r => Res.map_mono (membersWithTypeInfo_mono hc.mono ts s r)) fun a a' t t' r _ _ ht ha hr => ?_
    exact (ih t t' r ht hr).map fun ms ms' hms => .cons ha hms

omit [Platform] in
theorem classHeader_lock : Lock w (fun _ _ => Eq) classHeader := by
  intro s s' i hs hi
  have hcg := classes_good hi
  unfold classHeader
  rw [hs.left, hs.right]
  split
  · exact LockR.vain (by intro _ _ e; cases e)
  · refine LockR.same hs fun r a e => ⟨rfl, ?_⟩
    revert e hcg
    generalize alt ClassWithMembers.parse _ i = y
    intro hcg e
    cases y with
    | ok r' c => cases e; exact hcg.1
    | _ => cases e
  all_goals exact LockR.vain (by intro _ _ e; cases e)

theorem classMembers_lock (h9 : NoReference w) (hc : LockC w classes) (errInput : Bytes) (c : Class) :
    Lock w (fun L L' x x' => NameLike L L' x.1 x'.1 ∧ MemsLike x.2 x'.2) (classMembers classes errInput c) := by
  intro s s' i hs hi
  have hcount := fun n => countS_lock (memberNone_lock h9 hc) (memberReferenceNone_mono hc.mono) n s s' i hs hi
  have hmem := fun ts => members_lock h9 hc ts s s' i hs hi
  unfold classMembers
  split
  · rename_i info lib
    cases h : s.libs.get? lib with
    | some l =>
      cases h' : s'.libs.get? lib with
      | none => exact LockR.vain (by intro _ _ e; cases e)
      | some l' => exact (hcount _).map fun _ _ hm => ⟨.inr ⟨_, _, _, h, h', rfl, rfl⟩, hm⟩
    | none =>
      cases h' : s'.libs.get? lib with
      | none => exact LockR.vain (by intro _ _ e; cases e)
      | some l => exact LockR.differ (by rw [h, h']; exact nofun)
  · rename_i info types lib
    cases h : s.libs.get? lib with
    | some l =>
      cases h' : s'.libs.get? lib with
      | none => exact LockR.vain (by intro _ _ e; cases e)
      | some l' => exact (hmem _).map fun _ _ hm => ⟨.inr ⟨_, _, _, h, h', rfl, rfl⟩, hm⟩
    | none =>
      cases h' : s'.libs.get? lib with
      | none => exact LockR.vain (by intro _ _ e; cases e)
      | some l => exact LockR.differ (by rw [h, h']; exact nofun)
  · exact (hcount _).map fun _ _ h => ⟨.inl ⟨rfl, rfl⟩, h⟩
  · exact (hmem _).map fun _ _ h => ⟨.inl ⟨rfl, rfl⟩, h⟩

theorem classesBody_lock (h9 : NoReference w) (hc : LockC w classes) (hmr : LibMono referenceable) :
    Lock w ObjLike (classesBody classes referenceable) := by
  intro s s' i hs hi
  unfold classesBody
  have mono2 : ∀ (id : Nat) (c : Class) (e : Bytes) (s : St) (i : Bytes), s.LibsLe
      (if (s.classes.get? id).isSome then ((.failure ⟨i, .duplicateObjectId⟩, s) : Res (Nat × Object))
      else (classMembers classes e c s i).bind fun (library, members) s i =>
        (resolveMembers referenceable members s i).bind fun values s i =>
          (.ok i (id, { cls := c.classInfo.name, library := library,
                        members := AMap.fromIter (c.classInfo.memberNames.zip values) }), s)).2 := by
    intro id c e s i
    split
    · exact .refl s
    · refine Res.bind_mono (classMembers_mono hc.mono e c s i) fun ⟨l, ms⟩ s3 r3 h3 => ?_
      exact Res.bind_mono (h3.trans (resolveMembers_mono hmr ms s3 r3)) fun vs s4 r4 h4 => h4
  refine LockR.bind hs (library_lock s s' i hs hi) ?_ fun _ _ s1 s1' e hl1 hl1' hs _ he => ?_
  · intro _ s e
    refine Res.bind_mono (classHeader_mono s e) fun ⟨id, c⟩ s2 r2 h2 => ?_
    exact h2.trans (mono2 id c e s2 r2)
  refine LockR.bind hs (classHeader_lock s1 s1' e hs he) ?_ fun x x' s2 s2' i hl2 hl2' hs hx hi => ?_
  · rintro ⟨id, c⟩ s i
    exact mono2 id c e s i
  subst hx
  obtain ⟨id, c⟩ := x
  simp only [hs.left, hs.right, AMap.get?]
  refine LockR.bind hs (classMembers_lock h9 hc e c s2 s2' i hs hi) ?_
    fun x x' s3 s3' i hl3 hl3' hs hx hi => ?_
  · rintro ⟨l, ms⟩ s i
    refine Res.bind_mono (resolveMembers_mono hmr ms s i) fun vs s4 r4 h4 => ?_
    exact h4
  obtain ⟨l, ms⟩ := x
  obtain ⟨l', ms'⟩ := x'
  obtain ⟨hn, hms⟩ := hx
  simp only at hn hms
  rw [hl2, hl2', hl1, hl1'] at hn
  refine LockR.bind hs (resolve_lock referenceable hms hs hi) (fun _ s _ => .refl s)
    fun vs vs' s s' i _ _ hs _ hi => ?_
  rintro _ _ _ ⟨⟩
  exact .inl ⟨_, _, rfl, rfl, rfl, hs.left, hs.right, ⟨rfl, rfl, hn⟩, hi⟩

omit [Platform] in
theorem arrayLoop_lock {element : SP ValueOrRef} (he : Lock w (fun _ _ => MemLike) element)
    (hm : LibMono element) (fuel len : Nat) {acc acc' : List ValueOrRef} (hacc : MemsLike acc acc') {s s' : St}
    {i : Bytes} (hs : Sim s s') (hi : i <:+ w) :
    LockR w s s' MemsLike (arrayLoop element fuel len acc s i) (arrayLoop element fuel len acc' s' i) := by
  induction fuel generalizing acc acc' s s' i with
  | zero =>
    unfold arrayLoop
    rw [hacc.length]
    split
    · exact LockR.vain (by intro _ _ e; cases e)
    · rintro _ _ _ ⟨⟩
      exact .inl ⟨_, _, rfl, rfl, rfl, hs.left, hs.right, hacc, hi⟩
  | succ fuel ih =>
    unfold arrayLoop
    rw [hacc.length]
    split
    · refine LockR.bind hs (he s s' i hs hi) ?_ fun m m' t t' r _ _ ht hm hr => ?_
      · intro m s r
        cases m <;> exact arrayLoop_mono hm _ _ _ s r
      · cases hm with
        | value v v' => exact ih (hacc.append (.cons (.value _ _) .nil)) ht hr
        | null n => exact ih (hacc.append (.replicate n _)) ht hr
    · rintro _ _ _ ⟨⟩
      exact .inl ⟨_, _, rfl, rfl, rfl, hs.left, hs.right, hacc, hi⟩

/-- The same id. -/
abbrev SameId (x x' : Nat × List Value) : Prop := x.1 = x'.1

theorem arraySingleObject_lock (h9 : NoReference w) (hc : LockC w classes) (hmr : LibMono referenceable) :
    Lock w (fun _ _ => SameId) (arraySingleObject classes referenceable) := by
  intro s s' i hs hi
  unfold arraySingleObject
  have hm2 : ∀ (ms : List ValueOrRef) (s : St) (i : Bytes) (id : Nat), s.LibsLe
      ((resolveMembers referenceable ms s i).map fun vs => (id, vs)).2 :=
    fun ms s i id => Res.map_mono (resolveMembers_mono hmr ms s i)
  refine LockR.bind hs (lift_lock
    (fun i r a hi e => PG.suffix (arraySingleObjectRec_good hi) e) s s' i hs hi) ?_
    fun info info' s s' i _ _ hs hx hi => ?_
  · intro info s i
    exact Res.bind_mono (arrayLoop_mono (memberReferenceNone_mono hc.mono) _ _ _ s i)
      fun ms s r h => h.trans (hm2 ms s r _)
  subst hx
  refine LockR.bind hs (arrayLoop_lock (memberNone_lock h9 hc) (memberReferenceNone_mono hc.mono) _ _
    .nil hs hi) (fun ms s i => hm2 ms s i _) fun ms ms' s s' i _ _ hs hms hi => ?_
  exact (resolve_lock referenceable hms hs hi).map fun _ _ _ => rfl

theorem arraySingleString_lock (h9 : NoReference w) (hc : LockC w classes) (hmr : LibMono referenceable) :
    Lock w (fun _ _ => SameId) (arraySingleString classes referenceable) := by
  intro s s' i hs hi
  unfold arraySingleString
  have hm2 : ∀ (ms : List ValueOrRef) (s : St) (i : Bytes) (id : Nat), s.LibsLe
      ((resolveMembers referenceable ms s i).map fun vs => (id, vs)).2 :=
    fun ms s i id => Res.map_mono (resolveMembers_mono hmr ms s i)
  refine LockR.bind hs (lift_lock
    (fun i r a hi e => PG.suffix (arraySingleStringRec_good hi) e) s s' i hs hi) ?_
    fun info info' s s' i _ _ hs hx hi => ?_
  · intro info s i
    exact Res.bind_mono (arrayLoop_mono (memberReference_mono hc.mono _ _) _ _ _ s i)
      fun ms s r h => h.trans (hm2 ms s r _)
  subst hx
  refine LockR.bind hs (arrayLoop_lock (member_lock h9 hc _ _) (memberReference_mono hc.mono _ _) _ _
    .nil hs hi) (fun ms s i => hm2 ms s i _) fun ms ms' s s' i _ _ hs hms hi => ?_
  exact (resolve_lock referenceable hms hs hi).map fun _ _ _ => rfl

omit [Platform] in
theorem chunks_length {l fuel : Nat} {ms ms' cs' : List Value} (hl : ms.length = ms'.length)
    (h : chunks l fuel ms' = .done cs') : ∃ cs, chunks l fuel ms = .done cs ∧ cs.length = cs'.length := by
  induction fuel generalizing ms ms' cs' with
  | zero =>
    cases ms' with
    | nil =>
      have : ms = [] := by simpa using hl
      subst this
      exact ⟨cs', h, rfl⟩
    | cons m ms' => cases h
  | succ fuel ih =>
    cases ms' with
    | nil =>
      have : ms = [] := by simpa using hl
      subst this
      exact ⟨cs', h, rfl⟩
    | cons m' ms' =>
      cases ms with
      | nil => simp at hl
      | cons m ms =>
        unfold chunks at h ⊢
        rw [hl]
        split at h
        · cases h
        · split at h
          · rename_i hlt _ cs1' h1'
            cases h
            obtain ⟨cs1, h1, hl1⟩ := ih (ms := (m :: ms).drop l) (by simp only [List.length_drop, hl]) h1'
            refine ⟨.array ((m :: ms).take l) :: cs1, ?_, ?_⟩
            · rw [if_neg hlt, h1]
            · simp [hl1]
          · rename_i hne
            exact absurd h (hne _)

omit [Platform] in
theorem reshape_length {ls : List Nat} {vs vs' us' : List Value} (hl : vs.length = vs'.length)
    (h : reshape ls vs' = .done us') : ∃ us, reshape ls vs = .done us := by
  induction ls generalizing vs vs' with
  | nil => exact ⟨vs, rfl⟩
  | cons l ls ih =>
    unfold reshape at h ⊢
    split at h
    · rename_i cs' h1'
      obtain ⟨cs, h1, hl1⟩ := chunks_length hl h1'
      rw [hl, h1]
      exact ih hl1 h
    · rename_i hne
      exact absurd h (hne _)

theorem binaryArray_lock (h9 : NoReference w) (hc : LockC w classes) (hmr : LibMono referenceable) :
    Lock w (fun _ _ => SameId) (binaryArray classes referenceable) := by
  intro s s' e hs hi
  unfold binaryArray
  refine LockR.bind hs (lift_lock
    (fun i r a hi e => PG.suffix (binaryArrayRec_good hi) e) s s' e hs hi) ?_
    fun a a' s s' i _ _ hs hx hi => ?_
  · intro a s i
    split
    · exact .refl s
    · refine Res.bind_mono (countS_mono (memberReference_mono hc.mono _ _) _ s i) fun ms s2 r2 h2 => ?_
      refine Res.bind_mono (h2.trans (resolveMembers_mono hmr ms s2 r2)) fun vs s3 r3 h3 => ?_
      split <;> exact h3
  subst hx
  split
  · exact LockR.vain (by intro _ _ e; cases e)
  · refine LockR.bind hs (countS_lock (member_lock h9 hc _ _) (memberReference_mono hc.mono _ _) _ s s' i hs hi)
      ?_ fun ms ms' s s' i _ _ hs hms hi => ?_
    · intro ms s i
      refine Res.bind_mono (resolveMembers_mono hmr ms s i) fun vs s3 r3 h3 => ?_
      split <;> exact h3
    refine LockR.bind hs (resolve_lock referenceable hms hs hi) ?_ fun vs vs' s s' i _ _ hs hl hi => ?_
    · intro vs s i
      split <;> exact .refl s
    cases h' : reshape (a.lengths.drop 1).reverse vs' with
    | done us' =>
      obtain ⟨us, h⟩ := reshape_length hl h'
      rw [h]
      rintro _ _ _ ⟨⟩
      exact .inl ⟨_, _, rfl, rfl, rfl, hs.left, hs.right, rfl, hi⟩
    | _ => exact LockR.vain (by intro _ _ e; cases e)

theorem arraySinglePrimitive_lock : Lock w (fun _ _ => Eq) arraySinglePrimitive := by
  refine lift_lock fun i r a hi e => ?_
  have hg := arraySinglePrimitiveRec_good hi
  cases hp : ArraySinglePrimitive.parse i with
  | ok r' x =>
    rw [hp] at e hg
    simp only [Outcome.bind] at e
    have hcg := count_good (w := w) (V := fun _ => True)
      (fun i hi => ((untyped_good x.2 hi).map (f := Prim.intoValue) (W := fun _ => True) fun _ _ => trivial).k0)
      x.1.length hg.1
    generalize count _ x.1.length r' = y at e hcg
    cases y with
    | ok r'' vs => cases e; exact hcg.1
    | _ => cases e
  | _ => rw [hp] at e; simp [Outcome.bind] at e

theorem LockR.eq_id {s s' : St} {x x' : Res (Nat × List Value)} (h : LockR w s s' Eq x x') :
    LockR w s s' SameId x x' := by
  intro r a' t' e
  rcases h r a' t' e with ⟨a, t, h1, h2, h3, h4, h5, h6, h7⟩ | h | h
  · exact .inl ⟨a, t, h1, h2, h3, h4, h5, by rw [h6], h7⟩
  · exact .inr (.inl h)
  · exact .inr (.inr h)

omit [Platform] in
theorem altMut_none' {ps : List (SP α)} {i : Bytes} (h : ∀ p ∈ ps, ∀ s, ∃ e, p s i = (.error e, s)) (s : St) :
    ∃ e, altMut ps s i = (.error e, s) := by
  induction ps with
  | nil => exact ⟨_, rfl⟩
  | cons p ps ih =>
    rw [altMut_skip (h p (by simp) s)]
    exact ih fun q hq => h q (by simp [hq])

omit [Platform] in
/-- Of several alternatives at most one does anything. -/
theorem altMut_lock {V : α → α → Prop} {p : SP α} {ps : List (SP α)} {s s' : St} {i : Bytes}
    (hp : LockR w s s' V (p s i) (p s' i)) (h : ∀ p ∈ ps, ∀ s, ∃ e, p s i = (.error e, s)) :
    LockR w s s' V (altMut (p :: ps) s i) (altMut (p :: ps) s' i) := by
  intro r a t' e
  simp only [altMut] at e
  split at e
  · rename_i e1 s1 _
    obtain ⟨e2, h2⟩ := altMut_none' h s1
    rw [h2] at e
    cases e
  · rcases hp _ _ _ e with ⟨a0, t, h1, hrest⟩ | ⟨k, hk, hk'⟩ | ⟨h1, h2⟩
    · exact .inl ⟨a0, t, by simp only [altMut, h1], hrest⟩
    · refine .inr (.inl ⟨k, ?_, hk'⟩)
      simp only [altMut]
      split
      · rename_i e1 s1 heq
        obtain ⟨e2, h2⟩ := altMut_none' h s1
        rw [heq] at hk
        rw [h2]; exact hk
      · exact hk
    · refine .inr (.inr ⟨?_, ?_⟩)
      · intro r a e
        simp only [altMut] at e
        split at e
        · rename_i e1 s1 heq
          obtain ⟨e2, h2⟩ := altMut_none' h s1
          rw [h2] at e; cases e
        · exact h1 _ _ e
      · simp only [altMut]
        split
        · rename_i e1 s1 heq
          obtain ⟨e2, h4⟩ := altMut_none' h s1
          rw [heq] at h2
          rw [h4]; exact h2
        · exact h2

theorem arrays_lock (h9 : NoReference w) (hc : LockC w classes) (hmr : LibMono referenceable) :
    Lock w (fun _ _ => SameId) (altMut [arraySingleObject classes referenceable, arraySinglePrimitive,
        arraySingleString classes referenceable, binaryArray classes referenceable]) := by
  intro s s' i hs hi
  by_cases h16 : i.head? = some 16
  · refine altMut_lock (arraySingleObject_lock h9 hc hmr s s' i hs hi) ?_
    intro p hp s
    simp only [List.mem_cons, List.not_mem_nil, or_false] at hp
    rcases hp with rfl | rfl | rfl
    · exact arraySinglePrimitive_mismatch (by rw [h16]; decide) s
    · exact arraySingleString_mismatch (by rw [h16]; decide) s
    · exact binaryArray_mismatch (by rw [h16]; decide) s
  rw [altMut_skip (arraySingleObject_mismatch h16 s), altMut_skip (arraySingleObject_mismatch h16 s')]
  by_cases h15 : i.head? = some 15
  · refine altMut_lock (arraySinglePrimitive_lock s s' i hs hi).eq_id ?_
    intro p hp s
    simp only [List.mem_cons, List.not_mem_nil, or_false] at hp
    rcases hp with rfl | rfl
    · exact arraySingleString_mismatch (by rw [h15]; decide) s
    · exact binaryArray_mismatch (by rw [h15]; decide) s
  rw [altMut_skip (arraySinglePrimitive_mismatch h15 s), altMut_skip (arraySinglePrimitive_mismatch h15 s')]
  by_cases h17 : i.head? = some 17
  · refine altMut_lock (arraySingleString_lock h9 hc hmr s s' i hs hi) ?_
    intro p hp s
    simp only [List.mem_cons, List.not_mem_nil, or_false] at hp
    rcases hp with rfl
    exact binaryArray_mismatch (by rw [h17]; decide) s
  rw [altMut_skip (arraySingleString_mismatch h17 s), altMut_skip (arraySingleString_mismatch h17 s')]
  exact altMut_lock (binaryArray_lock h9 hc hmr s s' i hs hi) (by simp)

theorem arraysBody_lock (h9 : NoReference w) (hc : LockC w classes) (hmr : LibMono referenceable) :
    Lock w (fun _ _ => SameId) (arraysBody classes referenceable) := by
  intro s s' i hs hi
  unfold arraysBody
  refine LockR.bind hs (library_lock s s' i hs hi) ?_ fun _ _ s s' i _ _ hs _ hi => arrays_lock h9 hc hmr s s' i hs hi
  intro _ s i
  refine altMut_mono ?_ s i
  intro p hp
  simp only [List.mem_cons, List.not_mem_nil, or_false] at hp
  rcases hp with rfl | rfl | rfl | rfl
  · exact arraySingleObject_mono hc.mono hmr
  · exact lift_mono _
  · exact arraySingleString_mono hc.mono hmr
  · exact binaryArray_mono hc.mono hmr

/-- What is read: the same id. -/
abbrev SameRef (x x' : Nat × Value) : Prop := x.1 = x'.1

theorem referenceable_alt_lock (h9 : NoReference w) (hc : LockC w classes) (hmr : LibMono referenceable) :
    Lock w (fun _ _ => SameRef) (altMut
      [fun s i => (classesBody classes referenceable s i).map fun o => (o.1, o.2.toValue),
       fun s i => (arraysBody classes referenceable s i).map fun a => (a.1, Value.array a.2),
       lift fun i => (BinaryObjectString.parse i).map fun b => (b.objectId, Value.string b.value)]) := by
  intro s s' i hs hi
  by_cases hb : ClassByte i ∨ i.head? = some 1
  · have nostr : i.head? ≠ some 6 := by
      rcases hb with (h | h | h | h | h) | h <;> rw [h] <;> decide
    have noarr : ¬ ArrayByte i := by
      rcases hb with (h | h | h | h | h) | h <;> rintro (h' | h' | h' | h') <;> rw [h] at h' <;> cases h'
    by_cases hl : ∀ s, parseBinaryLibrary s i = (.ok i (), s)
    · -- no library: nothing else is attempted
      refine altMut_lock ((classesBody_lock h9 hc hmr s s' i hs hi).map fun o o' h => h.1) ?_
      intro p hp s
      simp only [List.mem_cons, List.not_mem_nil, or_false] at hp
      rcases hp with rfl | rfl
      · obtain ⟨e, he⟩ := arrays_other (classes := classes) (referenceable := referenceable) (s := s) noarr
        refine ⟨e, ?_⟩
        simp only [arraysBody, hl, Res.bind, he]
        rfl
      · exact objectString_mismatch nostr s
    · cases hp : BinaryLibrary.parse i with
      | error e => exact absurd (fun s => opt_lib_none hp s) hl
      | ok r l =>
        have hx : ∀ s : St, (parseBinaryLibrary s i).2.libs.get? l.libraryId = some l.libraryName := by
          intro s
          unfold parseBinaryLibrary lift opt
          rw [hp]
          simp only [Outcome.map, Res.bind]
          split <;> simp [AMap.get?_insert]
        have hmono : (parseBinaryLibrary s i).2.LibsLe (classesBody classes referenceable s i).2 :=
          classesBody_lib hc.mono hmr s i
        intro r a t' e
        refine .inr (.inl ⟨l.libraryId, ?_, ?_⟩)
        · have h1 := hmono l.libraryId (by rw [hx]; rfl)
          simp only [altMut]
          split
          · rename_i e1 s1 heq
            generalize classesBody classes referenceable s i = x at h1 heq
            obtain ⟨o, s2⟩ := x
            simp only [Res.map, Prod.mk.injEq] at heq
            rw [heq.2] at h1
            have h2 := arraysBody_mono (classes := classes) (referenceable := referenceable) hc.mono hmr s1 i
            generalize arraysBody classes referenceable s1 i = y at h2
            obtain ⟨o2, s3⟩ := y
            split
            · rename_i e3 s4 heq4
              simp only [Res.map, Prod.mk.injEq] at heq4
              rw [heq4.2] at h2
              simp only [lift]
              split
              · rename_i heq5
                simp only [Prod.mk.injEq] at heq5
                rw [← heq5.2]; exact h2 _ h1
              · exact h2 _ h1
            · exact h2 _ h1
          · exact h1
        · cases hd : s'.libs.get? l.libraryId with
          | none => rfl
          | some n =>
            exfalso
            have hf : ∃ e s1, parseBinaryLibrary s' i = (.failure e, s1) := by
              unfold parseBinaryLibrary lift opt
              rw [hp]
              simp only [Outcome.map, Res.bind, hd, Option.isSome, if_true]
              exact ⟨_, _, rfl⟩
            obtain ⟨e1, s1, hf⟩ := hf
            have : classesBody classes referenceable s' i = (.failure e1, s1) := by
              unfold classesBody; rw [hf]; rfl
            simp only [altMut, this] at e
            cases e
      | _ =>
        refine LockR.vain ?_
        simp only [altMut, classesBody, parseBinaryLibrary, lift, opt, hp, Outcome.map, Res.bind, Res.map]
        intro _ _ e; cases e
  · simp only [not_or] at hb
    obtain ⟨e1, he1⟩ := classesBody_other (classes := classes) (referenceable := referenceable) (s := s) hb.1 hb.2
    obtain ⟨e2, he2⟩ := classesBody_other (classes := classes) (referenceable := referenceable) (s := s') hb.1 hb.2
    rw [altMut_skip ⟨e1, by simp only [he1]; rfl⟩, altMut_skip (s := s') ⟨e2, by simp only [he2]; rfl⟩]
    by_cases h6 : i.head? = some 6
    · have noarr : ¬ ArrayByte i := by
        rintro (h' | h' | h' | h') <;> rw [h6] at h' <;> cases h'
      have ha : ∀ s, ∃ e, arraysBody classes referenceable s i = (.error e, s) := by
        intro s
        obtain ⟨e, he⟩ := arrays_other (classes := classes) (referenceable := referenceable) (s := s) noarr
        refine ⟨e, ?_⟩
        unfold arraysBody
        rw [lib_none (by rw [h6]; decide)]
        simp only [Res.bind, he]
      obtain ⟨e3, he3⟩ := ha s
      obtain ⟨e4, he4⟩ := ha s'
      rw [altMut_skip (s := s) ⟨e3, by simp only [he3]; rfl⟩, altMut_skip (s := s') ⟨e4, by simp only [he4]; rfl⟩]
      refine altMut_lock (V := SameRef) ?_ (by simp)
      unfold lift
      refine LockR.same hs fun r a e => ⟨rfl, ?_⟩
      have hg := bos_good hi
      obtain ⟨b, hb, _⟩ := map_ok e
      rw [hb] at hg
      exact hg.1
    · refine altMut_lock (V := SameRef)
        ((arraysBody_lock h9 hc hmr s s' i hs hi).map (W := SameRef) (f := fun a => (a.1, Value.array a.2))
          (f' := fun a => (a.1, Value.array a.2)) fun a a' h => h) ?_
      intro p hp s
      simp only [List.mem_cons, List.not_mem_nil, or_false] at hp
      rcases hp with rfl
      exact objectString_mismatch h6 s

theorem referenceableBody_lock (h9 : NoReference w) (hc : LockC w classes) (hmr : LibMono referenceable) :
    Lock w (fun _ _ => Eq)
      (referenceableBody (classesBody classes referenceable) (arraysBody classes referenceable)) := by
  intro s s' i hs hi
  unfold referenceableBody
  refine LockR.bind hs (referenceable_alt_lock h9 hc hmr s s' i hs hi) (fun ⟨id, v⟩ s _ => .refl s)
    fun ⟨id, v⟩ ⟨id', v'⟩ s s' i _ _ hs hx hi => ?_
  rintro _ _ _ ⟨⟩
  exact .inl ⟨_, _, rfl, rfl, rfl, hs.left, hs.right, hx, hi⟩

end

theorem recAt_lock {w : Bytes} (h9 : NoReference w) (n : Nat) :
    LockC w (recAt n).classes ∧ Lock w (fun _ _ => Eq) (recAt n).referenceable := by
  induction n with
  | zero =>
    exact ⟨⟨fun _ _ _ _ _ => LockR.vain (by intro _ _ e; cases e), fun s _ => .refl s, fun _ _ _ => .inr fun _ => rfl⟩,
      fun _ _ _ _ _ => LockR.vain (by intro _ _ e; cases e)⟩
  | succ n ih =>
    have hm := recAt_mono n
    exact ⟨⟨classesBody_lock h9 ih.1 hm.2, (recAt_mono (n + 1)).1, fun i h h1 => .inl fun s => classesBody_other h h1⟩,
      referenceableBody_lock h9 ih.1 hm.2⟩

/-- A second attempt at a record does not succeed where the first failed. -/
theorem parseReferenceable_again {w : Bytes} (h9 : NoReference w) {s s1 : St} (hs : s.classes = [])
    {i : Bytes} (hi : i <:+ w) {e : Error} (h : parseReferenceable s i = (.error e, s1)) (r : Bytes) (id : Nat)
    (s2 : St) : parseReferenceable s1 i ≠ (.ok r id, s2) := by
  intro h2
  have hc := classes_nil hs i
  have hl := parsers_mono.2 s i
  rw [h] at hc hl
  have hlock := (recAt_lock h9 (i.length + 1)).2 s s1 i ⟨hs, hc, hl⟩ hi
  unfold parseReferenceable at h h2
  rw [h, h2] at hlock
  rcases hlock _ _ _ rfl with ⟨_, _, h, _⟩ | ⟨k, h1, h2⟩ | ⟨_, k, h⟩
  · cases h
  · rw [h2] at h1; cases h1
  · exact h rfl

theorem parseClasses_lock {w : Bytes} (h9 : NoReference w) : LockC w parseClasses :=
  ⟨fun s s' i hs hi => (recAt_lock h9 (i.length + 1)).1.lock s s' i hs hi, parsers_mono.1,
    fun i h h1 => (recAt_lock h9 (i.length + 1)).1.quiet i h h1⟩

/-- A record that starts with an object array does not succeed after a failed attempt at a call array. -/
theorem parseCallArray_again {w : Bytes} (h9 : NoReference w) {root : Option Nat} {s s1 : St} (hs : s.classes = [])
    {i : Bytes} (hi : i <:+ w) (h16 : i.head? = some 16) {e : Error}
    (h : parseCallArray root s i = (.error e, s1)) (r : Bytes) (id : Nat) (s2 : St) :
    parseReferenceable s1 i ≠ (.ok r id, s2) := by
  intro h2
  have hc := callArray_classes hs i root
  have h12 : i.head? ≠ some 12 := by rw [h16]; decide
  have ha : arraySingleObject parseClasses parseReferenceable s i = (.error e, s1) := by
    unfold parseCallArray at h
    rw [lib_none h12] at h
    simp only [Res.bind, parseArraySingleObject] at h
    generalize arraySingleObject parseClasses parseReferenceable s i = x at h
    obtain ⟨o, t⟩ := x
    cases o with
    | ok r a => simp only at h; split at h <;> cases h
    | _ => cases h <;> rfl
  have hl := arraySingleObject_mono parsers_mono.1 parsers_mono.2 s i
  rw [ha] at hl
  rw [h] at hc
  have hs' : Sim s s1 := ⟨hs, hc, hl⟩
  have hrec : ∃ vs E', Record (abs s1) i id (.array vs) E' r := by
    obtain ⟨⟨v, E1, hv, _⟩, _⟩ := (parseReferenceable_match hc i).1 _ _ _ h2
    have hv' := hv
    cases hv' with
    | object hb => rcases class_byte hb with h | h | h | h | h <;> rw [h16] at h <;> cases h
    | string hb => rw [string_head hb] at h16; cases h16
    | _ => exact ⟨_, _, hv⟩
  obtain ⟨vs, E', hrec⟩ := hrec
  have hok : ∃ s3, arraySingleObject parseClasses parseReferenceable s1 i = (.ok r (id, vs), s3) := by
    generalize hv : Value.array vs = v at hrec
    cases hrec with
    | object => cases hv
    | objectArray hb h1 h2 =>
      cases hv
      obtain ⟨s3, h3, _⟩ := (arrayOf_match (parsersSem (_ + 1)) none arraySingleObject_exact hc
        (Nat.lt_succ_of_lt (Nat.lt_succ_self _))).2 (id, vs) E' r ⟨_, _, _, _, _, _, hb, rfl, h1, h2⟩
      exact ⟨s3, h3⟩
    | primitiveArray hb => rw [List.append_assoc, primitiveArrayHead_head hb] at h16; cases h16
    | stringArray hb => rw [arrayHead_head hb] at h16; cases h16
    | array hb => rw [binaryArrayHead_head hb] at h16; cases h16
    | string => cases hv
  obtain ⟨s3, hok⟩ := hok
  have hlock := arraySingleObject_lock h9 (parseClasses_lock h9) parsers_mono.2 s s1 i hs' hi
  rw [ha, hok] at hlock
  rcases hlock _ _ _ rfl with ⟨_, _, h, _⟩ | ⟨k, h1, h2⟩ | ⟨_, k, h⟩
  · cases h
  · rw [h2] at h1; cases h1
  · exact h rfl

end Nrbf
