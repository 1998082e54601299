import Verif.Lemmas.Rows
import Verif.Lemmas.Mono
import Verif.Lemmas.ExactMethod

/-! # The stateful parsers against the declarative grammar

`Match x n k J`: the result `x` of a parser is `ok` exactly when the judgement `J` holds of the value,
the tables and the remaining input; at least `k` of `n` bytes are consumed. -/

namespace Nrbf
open Spec

variable {α β : Type}

/-- The tables of a parser state. -/
def abs (s : St) : Env := ⟨s.libs.get?, s.objects.get?⟩

/-- See above. -/
def Match (x : Res α) (n k : Nat) (J : α → Env → Bytes → Prop) : Prop :=
  (∀ r a s', x = (.ok r a, s') → J a (abs s') r ∧ s'.classes = [] ∧ r.length + k ≤ n) ∧
  (∀ a E' r, J a E' r → ∃ s', x = (.ok r a, s') ∧ abs s' = E')

theorem AMap.get?_erase {κ ν : Type} [DecidableEq κ] (m : AMap κ ν) (k k' : κ) :
    (m.erase k).get? k' = if k' = k then none else m.get? k' := by
  induction m with
  | nil => simp [AMap.erase, AMap.get?]
  | cons e m ih =>
    obtain ⟨a, v⟩ := e
    unfold AMap.erase at ih ⊢
    rw [List.filter_cons]
    by_cases h : a = k
    · subst h
      simp only [ne_eq, not_true_eq_false, decide_false, Bool.false_eq_true, ↓reduceIte, ih]
      by_cases h2 : k' = a
      · subst h2; simp
      · rw [if_neg h2, if_neg h2]; simp only [AMap.get?]; rw [if_neg (fun e => h2 e.symm)]
    · simp only [ne_eq, h, not_false_eq_true, decide_true, ↓reduceIte]
      simp only [AMap.get?]
      by_cases h2 : a = k'
      · subst h2; rw [if_pos rfl, if_pos rfl, if_neg h]
      · rw [if_neg h2, if_neg h2]; exact ih

theorem abs_erase (s : St) (id : Nat) :
    abs { s with objects := s.objects.erase id } = (abs s).drop id := by
  simp only [abs, Env.drop]
  congr 1
  funext k
  exact AMap.get?_erase _ _ _

theorem abs_insert (s : St) (id : Nat) (v : Value) :
    abs { s with objects := s.objects.insert id v } = (abs s).add id v := by
  simp only [abs, Env.add]
  congr 1
  funext k
  exact AMap.get?_insert _ _ _ _

theorem abs_lib (s : St) (id : Nat) (v : Str) :
    abs { s with libs := s.libs.insert id v } = (abs s).addLib id v := by
  simp only [abs, Env.addLib]
  congr 1
  funext k
  exact AMap.get?_insert _ _ _ _

theorem abs_init : abs St.init = Env.empty := rfl

namespace Match

variable {n k k1 k2 : Nat} {J : α → Env → Bytes → Prop}

theorem congr {x : Res α} {J' : α → Env → Bytes → Prop} (h : Match x n k J)
    (hJ : ∀ a E r, J a E r ↔ J' a E r) : Match x n k J' :=
  ⟨fun r a s' e => ⟨(hJ _ _ _).mp (h.1 r a s' e).1, (h.1 r a s' e).2⟩,
    fun a E' r hj => h.2 a E' r ((hJ _ _ _).mpr hj)⟩

theorem weaken {x : Res α} {n' k' : Nat} (h : Match x n k J) (hn : n + k' ≤ n' + k) :
    Match x n' k' J :=
  ⟨fun r a s' e => ⟨(h.1 r a s' e).1, (h.1 r a s' e).2.1, by have := (h.1 r a s' e).2.2; omega⟩, h.2⟩

theorem bind {x : Res α} {f : α → St → Bytes → Res β} {K : α → Env → Bytes → β → Env → Bytes → Prop}
    (h : Match x n k1 J) (hk : k ≤ k1 + k2)
    (hf : ∀ a s r, s.classes = [] → J a (abs s) r → r.length + k1 ≤ n →
      Match (f a s r) r.length k2 (K a (abs s) r)) :
    Match (x.bind f) n k (fun b E' r' => ∃ a E1 r1, J a E1 r1 ∧ K a E1 r1 b E' r') := by
  constructor
  · intro r b s' e
    obtain ⟨o, s⟩ := x
    cases o with
    | ok r1 a =>
      obtain ⟨hj, hs, hl⟩ := h.1 r1 a s rfl
      obtain ⟨hK, hs', hl'⟩ := (hf a s r1 hs hj hl).1 r b s' e
      exact ⟨⟨a, _, _, hj, hK⟩, hs', by omega⟩
    | _ => simp [Res.bind] at e
  · rintro b E' r' ⟨a, E1, r1, hj, hK⟩
    obtain ⟨s1, rfl, rfl⟩ := h.2 a E1 r1 hj
    obtain ⟨_, hs, hl⟩ := h.1 r1 a s1 rfl
    exact (hf a s1 r1 hs hj hl).2 b E' r' hK

theorem map {x : Res α} (f : α → β) (h : Match x n k J) :
    Match (x.map f) n k (fun b E' r => ∃ a, J a E' r ∧ f a = b) := by
  constructor
  · intro r b s' e
    obtain ⟨o, s⟩ := x
    cases o with
    | ok r1 a =>
      simp only [Res.map, Outcome.map, Prod.mk.injEq, Outcome.ok.injEq] at e
      obtain ⟨⟨rfl, rfl⟩, rfl⟩ := e
      obtain ⟨hj, hs, hl⟩ := h.1 r1 a s rfl
      exact ⟨⟨a, hj, rfl⟩, hs, hl⟩
    | _ => simp [Res.map, Outcome.map] at e
  · rintro b E' r ⟨a, hj, rfl⟩
    obtain ⟨s1, rfl, rfl⟩ := h.2 a E' r hj
    exact ⟨s1, rfl, rfl⟩

theorem ret {s : St} {i : Bytes} {a : α} (hs : s.classes = []) :
    Match (.ok i a, s) i.length 0 (fun c E' r => c = a ∧ E' = abs s ∧ r = i) := by
  constructor
  · intro r b s' e
    cases e
    exact ⟨⟨rfl, rfl, rfl⟩, hs, by simp⟩
  · rintro b E' r ⟨rfl, rfl, rfl⟩
    exact ⟨s, rfl, rfl⟩

theorem stateless {p : Parser α} {R : α → Bytes → Prop} (hp : Exact p R)
    (hR : ∀ a b, R a b → k ≤ b.length) {s : St} (hs : s.classes = []) (i : Bytes) :
    Match (lift p s i) i.length k (fun a E' r => E' = abs s ∧ ∃ b, R a b ∧ i = b ++ r) := by
  constructor
  · intro r a s' e
    simp only [lift, Prod.mk.injEq] at e
    obtain ⟨e, rfl⟩ := e
    obtain ⟨b, hb, rfl⟩ := (hp _ _ _).mp e
    have := hR a b hb
    exact ⟨⟨rfl, b, hb, rfl⟩, hs, by simp; omega⟩
  · rintro a E' r ⟨rfl, h⟩
    exact ⟨s, by simp only [lift, Prod.mk.injEq, and_true]; exact (hp _ _ _).mpr h, rfl⟩

/-- A result that is not `ok`, where the judgement has no instance. -/
theorem never {x : Res α} (hx : ∀ r a s, x ≠ (.ok r a, s)) (hJ : ∀ a E r, ¬ J a E r) :
    Match x n k J :=
  ⟨fun r a s e => absurd e (hx r a s), fun a E r h => absurd h (hJ a E r)⟩

end Match

/-! ## Libraries -/

theorem opt_lib_none {i : Bytes} {e : Error} (h : BinaryLibrary.parse i = .error e) (s : St) :
    parseBinaryLibrary s i = (.ok i (), s) := by
  unfold parseBinaryLibrary lift opt
  rw [h]
  rfl

theorem lib_none {i : Bytes} (h : i.head? ≠ some 12) (s : St) :
    parseBinaryLibrary s i = (.ok i (), s) :=
  opt_lib_none (tagged_mismatch h) s

theorem isId_length {id : Nat} {b : Bytes} (h : IsId id b) : b.length = 4 := by
  rw [h.2.2, le_length]

theorem library_error_iff {i : Bytes} : (∃ e, BinaryLibrary.parse i = .error e) ↔ NoLibrary i := by
  constructor
  · rintro ⟨e, h⟩
    by_cases h0 : i.head? = some 12
    · right
      cases i with
      | nil => simp at h0
      | cons x i =>
        simp only [List.head?_cons, Option.some.injEq] at h0
        subst h0
        have hrt : RecordType.binaryLibrary.parse (12 :: i) = .ok i .binaryLibrary := rfl
        unfold BinaryLibrary.parse at h
        rw [hrt] at h
        simp only [Outcome.bind] at h
        cases hid : libraryId i with
        | ok r id =>
          rw [hid] at h
          obtain ⟨b, hb, rfl⟩ := (libraryId_exact _ _ _).mp hid
          refine ⟨id, b, r, hb, by simp, ?_⟩
          rintro ⟨name, bname, rest', hn, rfl⟩
          simp only [(lps_exact (bname ++ rest') rest' name).mpr ⟨bname, hn, rfl⟩] at h
          cases h
        | error e' =>
          exfalso
          unfold libraryId Int32.parse at hid
          revert hid
          cases leSigned 4 i <;> simp [Outcome.intoFailure, Outcome.at, Outcome.mapErr, Outcome.bind]
          split <;> simp
        | _ => rw [hid] at h; simp at h
    · exact .inl h0
  · rintro (h | ⟨id, bid, rest, hid, rfl, hn⟩)
    · exact ⟨_, tagged_mismatch h⟩
    · have hrt : RecordType.binaryLibrary.parse (12 :: (bid ++ rest)) =
        .ok (bid ++ rest) .binaryLibrary := rfl
      unfold BinaryLibrary.parse
      rw [List.cons_append, hrt]
      simp only [Outcome.bind]
      rw [(libraryId_exact _ _ _).mpr ⟨bid, hid, rfl⟩]
      simp only
      rcases lps_total rest with ⟨r, s, h⟩ | ⟨e, h⟩
      · obtain ⟨b, hb, rfl⟩ := (lps_exact _ _ _).mp h
        exact absurd ⟨s, b, r, hb, rfl⟩ hn
      · rw [h]; exact ⟨_, rfl⟩

theorem library_match {s : St} (hs : s.classes = []) (i : Bytes) :
    Match (parseBinaryLibrary s i) i.length 0 (fun _ E' r => OptLib (abs s) i E' r) := by
  constructor
  · intro r a s' h
    cases hp : BinaryLibrary.parse i with
    | error e =>
      rw [opt_lib_none hp] at h
      cases h
      exact ⟨.none (library_error_iff.mp ⟨e, hp⟩), hs, by simp⟩
    | ok r1 l =>
      unfold parseBinaryLibrary lift opt at h
      rw [hp] at h
      simp only [Outcome.map, Res.bind] at h
      split at h
      · cases h
      · rename_i hl
        cases h
        obtain ⟨b, hb, rfl⟩ := (library_exact _ _ _).mp hp
        rw [abs_lib]
        exact ⟨.some hb (by simpa [abs] using hl), hs, by simp⟩
    | _ =>
      unfold parseBinaryLibrary lift opt at h
      rw [hp] at h
      simp [Outcome.map, Res.bind] at h
  · intro a E' r h
    cases h with
    | none hn =>
      obtain ⟨e, he⟩ := library_error_iff.mpr hn
      exact ⟨s, opt_lib_none he s, rfl⟩
    | @some id name b _ hb hl =>
      have hp := (library_exact (b ++ r) r ⟨id, name⟩).mpr ⟨b, hb, rfl⟩
      refine ⟨{ s with libs := s.libs.insert id name }, ?_, abs_lib _ _ _⟩
      unfold parseBinaryLibrary lift opt
      rw [hp]
      simp only [Outcome.map, Res.bind]
      have : s.libs.get? id = Option.none := hl
      rw [this]
      rfl

/-! ## Members -/

/-- The specification's view of a member. -/
def slotOf : ValueOrRef → Slot
  | .value v => .value v
  | .null n => .nulls n
  | .ref id => .ref id

variable [Platform]

/-- The members that are not objects. -/
def PlainMember (m : ValueOrRef) (b : Bytes) : Prop :=
  (∃ v, m = .value v ∧ IsTypedPrimitive v b) ∨ (∃ id, m = .ref id ∧ IsReference id b) ∨
  (∃ id s, m = .value (.string s) ∧ IsObjectString id s b) ∨ (∃ n, m = .null n ∧ IsNulls n b)

omit [Platform] in
theorem nullMember_exact : Exact parseNullObject (fun m b => ∃ n, m = .null n ∧ IsNulls n b) := by
  refine (nulls_exact.map ValueOrRef.null).congr fun m b => ?_
  constructor
  · rintro ⟨n, h, rfl⟩; exact ⟨n, rfl, h⟩
  · rintro ⟨n, rfl, h⟩; exact ⟨n, h, rfl⟩

omit [Platform] in
theorem refMember_exact : Exact refMember (fun m b => ∃ id, m = .ref id ∧ IsReference id b) := by
  refine (reference_exact.map ValueOrRef.ref).congr fun m b => ?_
  constructor
  · rintro ⟨n, h, rfl⟩; exact ⟨n, rfl, h⟩
  · rintro ⟨n, rfl, h⟩; exact ⟨n, h, rfl⟩

omit [Platform] in
theorem stringMember_exact : Exact stringMember
    (fun m b => ∃ id s, m = .value (.string s) ∧ IsObjectString id s b) := by
  refine (bos_exact.map fun s => ValueOrRef.value (.string s.value)).congr fun m b => ?_
  constructor
  · rintro ⟨n, h, rfl⟩; exact ⟨_, _, rfl, h⟩
  · rintro ⟨id, s, rfl, h⟩; exact ⟨⟨id, s⟩, h, rfl⟩

theorem typedMember_exact :
    Exact (fun i => (memberPrimitiveTyped i).map fun p => ValueOrRef.value p.intoValue)
      (fun m b => ∃ v, m = .value v ∧ IsTypedPrimitive v b) := by
  have e : (fun i => (memberPrimitiveTyped i).map fun p => ValueOrRef.value p.intoValue) =
      fun i => ((memberPrimitiveTyped i).map Prim.intoValue).map ValueOrRef.value := by
    funext i; cases memberPrimitiveTyped i <;> rfl
  rw [e]
  refine (typed_exact.map ValueOrRef.value).congr fun m b => ?_
  constructor
  · rintro ⟨n, h, rfl⟩; exact ⟨n, rfl, h⟩
  · rintro ⟨n, rfl, h⟩; exact ⟨n, h, rfl⟩

theorem untypedMember_exact (t : PrimitiveType) :
    Exact (fun i => (memberPrimitiveUnTyped t i).map fun p => ValueOrRef.value p.intoValue)
      (fun m b => ∃ v, m = .value v ∧ IsPrimitive t v b) := by
  have e : (fun i => (memberPrimitiveUnTyped t i).map fun p => ValueOrRef.value p.intoValue) =
      fun i => ((memberPrimitiveUnTyped t i).map Prim.intoValue).map ValueOrRef.value := by
    funext i; cases memberPrimitiveUnTyped t i <;> rfl
  rw [e]
  refine ((untyped_exact t).map ValueOrRef.value).congr fun m b => ?_
  constructor
  · rintro ⟨n, h, rfl⟩; exact ⟨n, rfl, h⟩
  · rintro ⟨n, rfl, h⟩; exact ⟨n, h, rfl⟩

omit [Platform] in
theorem nulls_head {n : Nat} {b r : Bytes} (h : IsNulls n b) :
    (b ++ r).head? = some 10 ∨ (b ++ r).head? = some 14 ∨ (b ++ r).head? = some 13 := by
  rcases h with ⟨_, rfl⟩ | ⟨_, _, rfl⟩ | ⟨_, _, rfl⟩ <;> simp

omit [Platform] in
theorem reference_head {n : Nat} {b r : Bytes} (h : IsReference n b) :
    (b ++ r).head? = some 9 := by
  obtain ⟨b', _, rfl⟩ := h; rfl

omit [Platform] in
theorem string_head {n : Nat} {s : Str} {b r : Bytes} (h : IsObjectString n s b) :
    (b ++ r).head? = some 6 := by
  obtain ⟨b1, b2, _, _, rfl⟩ := h; rfl

theorem typedPrimitive_head {v : Value} {b r : Bytes} (h : IsTypedPrimitive v b) :
    (b ++ r).head? = some 8 := by
  obtain ⟨b1, b2, _, rfl⟩ := h; rfl

omit [Platform] in
theorem refMember_mismatch {i : Bytes} (h : i.head? ≠ some 9) : ∃ e, refMember i = .error e := by
  unfold refMember MemberReference.parse
  rw [tagged_mismatch h]
  exact ⟨_, rfl⟩

omit [Platform] in
theorem stringMember_mismatch {i : Bytes} (h : i.head? ≠ some 6) :
    ∃ e, stringMember i = .error e := by
  unfold stringMember BinaryObjectString.parse
  rw [tagged_mismatch h]
  exact ⟨_, rfl⟩

theorem typedMember_mismatch {i : Bytes} (h : i.head? ≠ some 8) :
    ∃ e, ((memberPrimitiveTyped i).map fun p => ValueOrRef.value p.intoValue) = .error e := by
  unfold memberPrimitiveTyped
  rw [tagged_mismatch h]
  exact ⟨_, rfl⟩

omit [Platform] in
theorem nullMember_mismatch {i : Bytes} (h : i.head? ≠ some 10) (h' : i.head? ≠ some 14)
    (h'' : i.head? ≠ some 13) : ∃ e, parseNullObject i = .error e := by
  unfold parseNullObject ObjectNull.parse ObjectNullMultiple.parse ObjectNullMultiple256.parse
  simp only [alt]
  rw [recordType_mismatch h]
  simp only [Outcome.map]
  rw [tagged_mismatch h', tagged_mismatch h'']
  exact ⟨_, rfl⟩

theorem plain_exact :
    Exact (alt (fun i => (memberPrimitiveTyped i).map fun p => ValueOrRef.value p.intoValue)
        [refMember, stringMember, parseNullObject]) PlainMember := by
  refine alt_cons_exact typedMember_exact (alt_cons_exact refMember_exact
    (alt_cons_exact (q := parseNullObject) (qs := []) stringMember_exact nullMember_exact ?_) ?_) ?_
  · rintro a b r ⟨n, rfl, h⟩
    apply stringMember_mismatch
    rcases nulls_head (r := r) h with h | h | h <;> rw [h] <;> decide
  · rintro a b r (⟨id, s, rfl, h⟩ | ⟨n, rfl, h⟩) <;> apply refMember_mismatch
    · rw [string_head h]; decide
    · rcases nulls_head (r := r) h with h | h | h <;> rw [h] <;> decide
  · rintro a b r (⟨id, rfl, h⟩ | ⟨id, s, rfl, h⟩ | ⟨n, rfl, h⟩) <;> apply typedMember_mismatch
    · rw [reference_head h]; decide
    · rw [string_head h]; decide
    · rcases nulls_head (r := r) h with h | h | h <;> rw [h] <;> decide

theorem stringElement_exact : Exact (alt stringMember [refMember, parseNullObject])
    (fun m b => (∃ id s, m = .value (.string s) ∧ IsObjectString id s b) ∨
      (∃ id, m = .ref id ∧ IsReference id b) ∨ ∃ n, m = .null n ∧ IsNulls n b) := by
  refine alt_cons_exact stringMember_exact
    (alt_cons_exact (q := parseNullObject) (qs := []) refMember_exact nullMember_exact ?_) ?_
  · rintro a b r ⟨n, rfl, h⟩
    apply refMember_mismatch
    rcases nulls_head (r := r) h with h | h | h <;> rw [h] <;> decide
  · rintro a b r (⟨id, rfl, h⟩ | ⟨n, rfl, h⟩) <;> apply stringMember_mismatch
    · rw [reference_head h]; decide
    · rcases nulls_head (r := r) h with h | h | h <;> rw [h] <;> decide

/-- The bytes a class record, possibly after a library, starts with. -/
def ClassByte (i : Bytes) : Prop :=
  i.head? = some 12 ∨ i.head? = some 2 ∨ i.head? = some 3 ∨ i.head? = some 4 ∨ i.head? = some 5

omit [Platform] in
theorem classHead_byte {h : ClassHead} {b r : Bytes} (hb : IsClassHead h b) :
    (b ++ r).head? = some 2 ∨ (b ++ r).head? = some 3 ∨ (b ++ r).head? = some 4 ∨
      (b ++ r).head? = some 5 := by
  rw [classHead_head hb]
  rcases tag_cases h with e | e | e | e <;> rw [e] <;> simp

theorem class_byte {E : Env} {i : Bytes} {id : Nat} {name : Str} {library : Option Str}
    {members : List (Str × Value)} {E' : Env} {i' : Bytes}
    (h : Spec.Class E i id name library members E' i') : ClassByte i := by
  cases h with
  | mk hl hh _ _ _ =>
    cases hl with
    | none => exact .inr (classHead_byte hh)
    | some hb _ =>
      obtain ⟨b1, b2, _, _, rfl⟩ := hb
      exact .inl rfl

/-- What is known about `parse_classes` and `parse_referenceable` on inputs shorter than `L`. -/
structure RecSem (L : Nat) (classes : SP (Nat × Object)) (referenceable : SP Nat) : Prop where
  cls : ∀ s i, s.classes = [] → i.length < L → Match (classes s i) i.length 1 (fun o E' r =>
    Spec.Class (abs s) i o.1 o.2.cls o.2.library o.2.members E' r)
  other : ∀ s i, i.length < L → ¬ ClassByte i → i.head? ≠ some 1 → ∃ e, classes s i = (.error e, s)
  ref : ∀ s i, s.classes = [] → i.length < L → Match (referenceable s i) i.length 1
    (fun id E' r => ∃ v E1, Record (abs s) i id v E1 r ∧ E' = E1.add id v)

theorem prim_length {t : PrimitiveType} {v : Value} {b : Bytes} (h : IsPrimitive t v b) :
    1 ≤ b.length := by
  unfold IsPrimitive at h
  split at h <;> first
    | (rw [h]; simp; done)
    | (obtain ⟨_, rfl⟩ := h; simp [leInt]; done)
    | (obtain ⟨s, ⟨p, ⟨gs, last, _, _, _, _, rfl, _⟩, _, rfl⟩, _⟩ := h; simp; omega)
    | exact h.elim

theorem plain_length {m : ValueOrRef} {b : Bytes} (h : PlainMember m b) : 1 ≤ b.length := by
  rcases h with ⟨_, _, _, _, _, rfl⟩ | ⟨_, _, _, _, rfl⟩ | ⟨_, _, _, _, _, _, _, rfl⟩ |
    ⟨_, _, h⟩
  · simp
  · simp
  · simp
  · rcases h with ⟨_, rfl⟩ | ⟨_, _, rfl⟩ | ⟨_, _, rfl⟩ <;> simp

end Nrbf
