import Verif.Lemmas.MessageSem
import Verif.Lemmas.Grammar

/-! # What the first bytes of a record say about its derivation -/

namespace Nrbf
open Spec

variable {ε α : Type}

/-- Encodings can be told apart. -/
theorem Exact.unique {p : PureParser ε α} {R : α → Bytes → Prop} (hp : Exact p R) {a a' : α}
    {b b' r r' : Bytes} (h : R a b) (h' : R a' b') (e : b ++ r = b' ++ r') :
    a = a' ∧ b = b' ∧ r = r' := by
  have h1 := (hp (b ++ r) r a).mpr ⟨b, h, rfl⟩
  have h2 := (hp (b ++ r) r' a').mpr ⟨b', h', e⟩
  rw [h1] at h2
  cases h2
  exact ⟨rfl, List.append_cancel_right e, rfl⟩

theorem arrayHead_unique {tag : UInt8} (ht : tag = 16 ∨ tag = 17) {id id' len len' : Nat}
    {b b' r r' : Bytes} (h : IsArrayHead tag id len b) (h' : IsArrayHead tag id' len' b')
    (e : b ++ r = b' ++ r') : id = id' ∧ len = len' ∧ b = b' ∧ r = r' := by
  rcases ht with rfl | rfl
  · obtain ⟨h1, h2⟩ := arraySingleObject_exact.unique (a := ⟨id, len⟩) (a' := ⟨id', len'⟩) h h' e
    cases h1
    exact ⟨rfl, rfl, h2⟩
  · obtain ⟨h1, h2⟩ := arraySingleString_exact.unique (a := ⟨id, len⟩) (a' := ⟨id', len'⟩) h h' e
    cases h1
    exact ⟨rfl, rfl, h2⟩

theorem primitiveArrayHead_unique {id id' len len' : Nat} {t t' : PrimitiveType}
    {b b' r r' : Bytes} (h : IsPrimitiveArrayHead id len t b) (h' : IsPrimitiveArrayHead id' len' t' b')
    (e : b ++ r = b' ++ r') : id = id' ∧ len = len' ∧ t = t' ∧ b = b' ∧ r = r' := by
  obtain ⟨h1, h2⟩ := arraySinglePrimitive_exact.unique (a := (⟨id, len⟩, t)) (a' := (⟨id', len'⟩, t')) h h' e
  cases h1
  exact ⟨rfl, rfl, rfl, h2⟩

theorem classHead_unique {h h' : ClassHead} {b b' r r' : Bytes} (hb : IsClassHead h b)
    (hb' : IsClassHead h' b') (e : b ++ r = b' ++ r') : h = h' ∧ b = b' ∧ r = r' := by
  obtain ⟨h1, h2⟩ := classHead_exact.unique ⟨h, rfl, hb⟩ ⟨h', rfl, hb'⟩ e
  exact ⟨classOf_inj h1, h2⟩

theorem binaryArrayHead_unique {id id' : Nat} {kind kind' : BinaryArrayType} {lengths lengths' : List Nat}
    {T T' : MemberType} {b b' r r' : Bytes} (h : IsBinaryArrayHead id kind lengths T b)
    (h' : IsBinaryArrayHead id' kind' lengths' T' b') (e : b ++ r = b' ++ r') :
    id = id' ∧ kind = kind' ∧ lengths = lengths' ∧ T = T' ∧ b = b' ∧ r = r' := by
  obtain ⟨bid, brank, blens, bbounds, binfo, h1, h2, h3, h4, h5, h6, rfl⟩ := h
  obtain ⟨bid', brank', blens', bbounds', binfo', h1', h2', h3', h4', h5', h6', rfl⟩ := h'
  have key : ∀ {kind : BinaryArrayType} {lengths : List Nat} {bbounds : Bytes},
      (hasLowerBounds kind → ∃ bounds, bounds.length = lengths.length ∧ IsSeq IsLength bounds bbounds) →
      (¬ hasLowerBounds kind → bbounds = []) →
      ∃ lb : Option (List Nat), (hasLowerBounds kind → ∃ bounds, lb = some bounds ∧
        bounds.length = lengths.length ∧ IsSeq IsLength bounds bbounds) ∧
        (¬ hasLowerBounds kind → lb = none ∧ bbounds = []) := by
    intro kind lengths bbounds g1 g2
    by_cases hk : hasLowerBounds kind
    · obtain ⟨bs, g⟩ := g1 hk
      exact ⟨some bs, fun _ => ⟨bs, rfl, g⟩, fun h => absurd hk h⟩
    · exact ⟨none, fun h => absurd h hk, fun _ => ⟨rfl, g2 hk⟩⟩
  obtain ⟨lb, g1, g2⟩ := key h4 h5
  obtain ⟨lb', g1', g2'⟩ := key h4' h5'
  obtain ⟨q1, q2⟩ := binaryArray_exact.unique
    (a := ⟨id, kind, lengths, lb, binaryType T, typeInfo T⟩)
    (a' := ⟨id', kind', lengths', lb', binaryType T', typeInfo T'⟩)
    ⟨T, rfl, rfl, bid, brank, blens, bbounds, binfo, h1, h2, h3, g1, g2, h6, rfl⟩
    ⟨T', rfl, rfl, bid', brank', blens', bbounds', binfo', h1', h2', h3', g1', g2', h6', rfl⟩ e
  simp only [BinaryArray.mk.injEq] at q1
  obtain ⟨rfl, rfl, rfl, _, q3, q4⟩ := q1
  exact ⟨rfl, rfl, rfl, memberType_inj q3 q4, q2⟩

theorem libraryHead_unique {id id' : Nat} {name name' : Str} {b b' r r' : Bytes}
    (h : IsLibrary id name b) (h' : IsLibrary id' name' b') (e : b ++ r = b' ++ r') :
    id = id' ∧ name = name' ∧ b = b' ∧ r = r' := by
  obtain ⟨h1, h2⟩ := library_exact.unique (a := ⟨id, name⟩) (a' := ⟨id', name'⟩) h h' e
  cases h1
  exact ⟨rfl, rfl, h2⟩

theorem objectString_unique {id id' : Nat} {s s' : Str} {b b' r r' : Bytes}
    (h : IsObjectString id s b) (h' : IsObjectString id' s' b') (e : b ++ r = b' ++ r') :
    id = id' ∧ s = s' ∧ b = b' ∧ r = r' := by
  obtain ⟨h1, h2⟩ := bos_exact.unique (a := ⟨id, s⟩) (a' := ⟨id', s'⟩) h h' e
  cases h1
  exact ⟨rfl, rfl, h2⟩

theorem reference_unique {id id' : Nat} {b b' r r' : Bytes} (h : IsReference id b)
    (h' : IsReference id' b') (e : b ++ r = b' ++ r') : id = id' ∧ b = b' ∧ r = r' :=
  reference_exact.unique h h' e

/-- No library: the tables and the input are unchanged. -/
theorem optLib_none {E E' : Env} {i r : Bytes} (h12 : i.head? ≠ some 12) (h : OptLib E i E' r) :
    E' = E ∧ r = i := by
  cases h with
  | none => exact ⟨rfl, rfl⟩
  | some h =>
    obtain ⟨_, _, _, _, rfl⟩ := h
    exact absurd rfl h12

variable [Platform]

/-- A record that starts like an ArraySingleObject is one. -/
theorem record_objectArray {E : Env} {id len : Nat} {b i : Bytes} (hb : IsArrayHead 16 id len b)
    {id' : Nat} {v : Value} {E' : Env} {r : Bytes} :
    Record E (b ++ i) id' v E' r ↔ id' = id ∧ ∃ slots E2 i2 vs, v = .array vs ∧
      Fill none len E i slots E2 i2 ∧ Resolve slots E2 i2 vs E' r := by
  constructor
  · intro h
    generalize hi : b ++ i = i0 at h
    have h16 := arrayHead_head (r := i) hb
    rw [hi] at h16
    cases h with
    | object h => rcases class_byte h with h | h | h | h | h <;> rw [h] at h16 <;> cases h16
    | objectArray h h1 h2 =>
      obtain ⟨rfl, rfl, rfl, rfl⟩ := arrayHead_unique (.inl rfl) hb h hi
      exact ⟨rfl, _, _, _, _, rfl, h1, h2⟩
    | primitiveArray h => rw [List.append_assoc, primitiveArrayHead_head h] at h16; cases h16
    | stringArray h => rw [arrayHead_head h] at h16; cases h16
    | array h => rw [binaryArrayHead_head h] at h16; cases h16
    | string h => rw [string_head h] at h16; cases h16
  · rintro ⟨rfl, slots, E2, i2, vs, rfl, h1, h2⟩
    exact .objectArray hb h1 h2

/-- A record that starts like an ArraySingleString is one. -/
theorem record_stringArray {E : Env} {id len : Nat} {b i : Bytes} (hb : IsArrayHead 17 id len b)
    {id' : Nat} {v : Value} {E' : Env} {r : Bytes} :
    Record E (b ++ i) id' v E' r ↔ id' = id ∧ ∃ slots E2 i2 vs, v = .array vs ∧
      Fill (some .stringArray) len E i slots E2 i2 ∧ Resolve slots E2 i2 vs E' r := by
  constructor
  · intro h
    generalize hi : b ++ i = i0 at h
    have h16 := arrayHead_head (r := i) hb
    rw [hi] at h16
    cases h with
    | object h => rcases class_byte h with h | h | h | h | h <;> rw [h] at h16 <;> cases h16
    | stringArray h h1 h2 =>
      obtain ⟨rfl, rfl, rfl, rfl⟩ := arrayHead_unique (.inr rfl) hb h hi
      exact ⟨rfl, _, _, _, _, rfl, h1, h2⟩
    | primitiveArray h => rw [List.append_assoc, primitiveArrayHead_head h] at h16; cases h16
    | objectArray h => rw [arrayHead_head h] at h16; cases h16
    | array h => rw [binaryArrayHead_head h] at h16; cases h16
    | string h => rw [string_head h] at h16; cases h16
  · rintro ⟨rfl, slots, E2, i2, vs, rfl, h1, h2⟩
    exact .stringArray hb h1 h2

/-- A record that starts like an ArraySinglePrimitive is one. -/
theorem record_primitiveArray {E : Env} {id len : Nat} {t : PrimitiveType} {b i : Bytes}
    (hb : IsPrimitiveArrayHead id len t b) {id' : Nat} {v : Value} {E' : Env} {r : Bytes} :
    Record E (b ++ i) id' v E' r ↔ id' = id ∧ E' = E ∧ ∃ vs b2, v = .array vs ∧ vs.length = len ∧
      IsSeq (IsPrimitive t) vs b2 ∧ i = b2 ++ r := by
  constructor
  · intro h
    generalize hi : b ++ i = i0 at h
    have h16 := primitiveArrayHead_head (r := i) hb
    rw [hi] at h16
    cases h with
    | object h => rcases class_byte h with h | h | h | h | h <;> rw [h] at h16 <;> cases h16
    | primitiveArray h h1 =>
      rw [List.append_assoc] at hi
      obtain ⟨rfl, rfl, rfl, rfl, rfl⟩ := primitiveArrayHead_unique hb h hi
      exact ⟨rfl, rfl, _, _, rfl, rfl, h1, rfl⟩
    | objectArray h => rw [arrayHead_head h] at h16; cases h16
    | stringArray h => rw [arrayHead_head h] at h16; cases h16
    | array h => rw [binaryArrayHead_head h] at h16; cases h16
    | string h => rw [string_head h] at h16; cases h16
  · rintro ⟨rfl, rfl, vs, b2, rfl, rfl, h2, rfl⟩
    rw [← List.append_assoc]
    exact .primitiveArray hb h2

/-- A record that starts like a BinaryArray is one. -/
theorem record_binaryArray {E : Env} {id : Nat} {kind : BinaryArrayType} {lengths : List Nat}
    {T : MemberType} {b i : Bytes} (hb : IsBinaryArrayHead id kind lengths T b) {id' : Nat} {v : Value}
    {E' : Env} {r : Bytes} :
    Record E (b ++ i) id' v E' r ↔ id' = id ∧ ∃ n slots E2 i2 vs rows, v = .array rows ∧
      productUsize 1 lengths = some n ∧ Members (List.replicate n (some T)) E i slots E2 i2 ∧
      Resolve slots E2 i2 vs E' r ∧ Rows lengths.tail vs rows := by
  constructor
  · intro h
    generalize hi : b ++ i = i0 at h
    have h16 := binaryArrayHead_head (r := i) hb
    rw [hi] at h16
    cases h with
    | object h => rcases class_byte h with h | h | h | h | h <;> rw [h] at h16 <;> cases h16
    | primitiveArray h => rw [List.append_assoc, primitiveArrayHead_head h] at h16; cases h16
    | objectArray h => rw [arrayHead_head h] at h16; cases h16
    | stringArray h => rw [arrayHead_head h] at h16; cases h16
    | array h h1 h2 h3 h4 =>
      obtain ⟨rfl, rfl, rfl, rfl, rfl, rfl⟩ := binaryArrayHead_unique hb h hi
      exact ⟨rfl, _, _, _, _, _, _, rfl, h1, h2, h3, h4⟩
    | string h => rw [string_head h] at h16; cases h16
  · rintro ⟨rfl, n, slots, E2, i2, vs, rows, rfl, h1, h2, h3, h4⟩
    exact .array hb h1 h2 h3 h4

/-- A record that starts like a BinaryObjectString is one. -/
theorem record_string {E : Env} {id : Nat} {s : Str} {b i : Bytes} (hb : IsObjectString id s b)
    {id' : Nat} {v : Value} {E' : Env} {r : Bytes} :
    Record E (b ++ i) id' v E' r ↔ id' = id ∧ v = .string s ∧ E' = E ∧ r = i := by
  constructor
  · intro h
    generalize hi : b ++ i = i0 at h
    have h16 := string_head (r := i) hb
    rw [hi] at h16
    cases h with
    | object h => rcases class_byte h with h | h | h | h | h <;> rw [h] at h16 <;> cases h16
    | primitiveArray h => rw [List.append_assoc, primitiveArrayHead_head h] at h16; cases h16
    | objectArray h => rw [arrayHead_head h] at h16; cases h16
    | stringArray h => rw [arrayHead_head h] at h16; cases h16
    | array h => rw [binaryArrayHead_head h] at h16; cases h16
    | string h =>
      obtain ⟨rfl, rfl, rfl, rfl⟩ := objectString_unique hb h hi
      exact ⟨rfl, rfl, rfl, rfl⟩
  · rintro ⟨rfl, rfl, rfl, rfl⟩
    exact .string hb

/-- A record that starts with a class header is that class. -/
theorem record_class {E : Env} {h : ClassHead} {b i : Bytes} (hb : IsClassHead h b) {id' : Nat}
    {v : Value} {E' : Env} {r : Bytes} :
    Record E (b ++ i) id' v E' r ↔ id' = h.id ∧ ∃ library slots E2 i2 values,
      h.HasLibrary E library ∧ Members h.memberTypes E i slots E2 i2 ∧
      Resolve slots E2 i2 values E' r ∧
      v = .object h.name library (bindNames h.memberNames values) := by
  have h12 : (b ++ i).head? ≠ some 12 := by
    rw [classHead_head hb]
    rcases tag_cases h with h | h | h | h <;> rw [h] <;> decide
  constructor
  · intro hr
    generalize hi : b ++ i = i0 at hr h12
    have hcb := classHead_head (r := i) hb
    have htag := tag_cases h
    rw [hi] at hcb
    cases hr with
    | object hr =>
      cases hr with
      | mk hl hb' hlib hm hres =>
        obtain ⟨rfl, h2⟩ := optLib_none h12 hl
        obtain ⟨rfl, rfl, rfl⟩ := classHead_unique hb hb' (hi.trans h2.symm)
        exact ⟨rfl, _, _, _, _, _, hlib, hm, hres, rfl⟩
    | primitiveArray h =>
      rw [List.append_assoc, primitiveArrayHead_head h] at hcb
      rcases htag with h | h | h | h <;> rw [h] at hcb <;> cases hcb
    | objectArray h =>
      rw [arrayHead_head h] at hcb
      rcases htag with h | h | h | h <;> rw [h] at hcb <;> cases hcb
    | stringArray h =>
      rw [arrayHead_head h] at hcb
      rcases htag with h | h | h | h <;> rw [h] at hcb <;> cases hcb
    | array h =>
      rw [binaryArrayHead_head h] at hcb
      rcases htag with h | h | h | h <;> rw [h] at hcb <;> cases hcb
    | string h =>
      rw [string_head h] at hcb
      rcases htag with h | h | h | h <;> rw [h] at hcb <;> cases hcb
  · rintro ⟨rfl, library, slots, E2, i2, values, hlib, hm, hres, rfl⟩
    exact .object (.mk (.none (.inl h12)) hb hlib hm hres)

/-! ## Accepted records -/

/-- In the state `s`, the record parser accepts a record with id `id` and value `v` in front of `i`
and leaves `r`. -/
def Accepts (s : St) (i : Bytes) (id : Nat) (v : Value) (r : Bytes) : Prop :=
  ∃ s', parseReferenceable s i = (.ok r id, s') ∧ s'.objects.get? id = some v

theorem accepts_iff {s : St} (hs : s.classes = []) {i : Bytes} {id : Nat} {v : Value} {r : Bytes} :
    Accepts s i id v r ↔ ∃ E, Record (abs s) i id v E r := by
  have hm := parseReferenceable_match hs i
  constructor
  · rintro ⟨s', h, hv⟩
    obtain ⟨v', E1, hr, hE⟩ := (hm.1 _ _ _ h).1
    have : (abs s').objs id = some v := hv
    rw [hE] at this
    simp [Env.add] at this
    subst this
    exact ⟨E1, hr⟩
  · rintro ⟨E, hr⟩
    obtain ⟨s', h, hE⟩ := hm.2 _ _ _ ⟨v, E, hr, rfl⟩
    refine ⟨s', h, ?_⟩
    have : (abs s').objs id = some v := by rw [hE]; simp [Env.add]
    exact this

/-- The states a run can be in: the initial one, and what the stateful parsers make of it. -/
inductive Reached [Platform] : St → Prop
  | init : Reached St.init
  | record {s} (i : Bytes) : Reached s → Reached (parseReferenceable s i).2
  | class {s} (i : Bytes) : Reached s → Reached (parseClasses s i).2
  | method {s} (root : Option Nat) (i : Bytes) : Reached s →
      Reached (parseMethodCallOrReturn root s i).2

theorem Reached.classes {s : St} (h : Reached s) : s.classes = [] := by
  induction h with
  | init => rfl
  | record i _ ih => exact classes_nil ih i
  | «class» i _ ih =>
    exact ((parseClasses_good (pol := polTrue i) (i.length + 1) _ i
      ⟨ih, fun _ _ => trivial, fun _ _ => trivial⟩ (List.suffix_refl _) (by omega)).1).1
  | method root i _ ih =>
    exact ((parseMethodCallOrReturn_good (pol := polTrue i) (fun _ _ _ _ => trivial) root
      (i.length + 1) _ i ⟨ih, fun _ _ => trivial, fun _ _ => trivial⟩ (List.suffix_refl _)
      (by omega)).1).1

/-! ## Sizes -/

/-- No null-run record types occur. -/
def NoRuns (i : Bytes) : Prop := (13 : UInt8) ∉ i ∧ (14 : UInt8) ∉ i

omit [Platform] in
theorem NoRuns.suffix {r i : Bytes} (h : NoRuns i) (hr : r <:+ i) : NoRuns r :=
  ⟨fun h' => h.1 (hr.subset h'), fun h' => h.2 (hr.subset h')⟩

omit [Platform] in
theorem nulls_one {n : Nat} {b r : Bytes} (h : IsNulls n b) (hi : NoRuns (b ++ r)) : n = 1 := by
  rcases h with ⟨h, _⟩ | ⟨_, _, rfl⟩ | ⟨_, _, rfl⟩
  · exact h
  · exact absurd (by simp) hi.2
  · exact absurd (by simp) hi.1

theorem member_size_one : ∀ {T : Option MemberType} {E : Env} {i : Bytes} {slot : Slot} {E' : Env}
    {r : Bytes}, Member T E i slot E' r → NoRuns i → slot.size = 1
  | _, _, _, _, _, _, .primitive _ _, _ | _, _, _, _, _, _, .reference _ _, _
  | _, _, _, _, _, _, .string _ _, _ | _, _, _, _, _, _, .object _ _, _
  | _, _, _, _, _, _, .typedPrimitive _ _, _ | _, _, _, _, _, _, .typedString _ _, _
  | _, _, _, _, _, _, .systemClass _ _, _ | _, _, _, _, _, _, .class _ _ _, _
  | _, _, _, _, _, _, .stringArrayString _ _, _ | _, _, _, _, _, _, .stringArrayReference _ _, _
  | _, _, _, _, _, _, .primitiveArray _ _, _ => rfl
  | _, _, _, _, _, _, .nulls h h1, hi => nulls_one h1 (hi.suffix h.suffix)
  | _, _, _, _, _, _, .systemClassNulls h h1, hi => nulls_one h1 (hi.suffix h.suffix)
  | _, _, _, _, _, _, .classNulls h _ h1, hi => nulls_one h1 (hi.suffix h.suffix)
  | _, _, _, _, _, _, .stringArrayNulls h h1, hi => nulls_one h1 (hi.suffix h.suffix)
  | _, _, _, _, _, _, .typedObject h h1, hi => member_size_one h1 (hi.suffix h.suffix)
  | _, _, _, _, _, _, .typedObjectArray h h1, hi => member_size_one h1 (hi.suffix h.suffix)

/-- The number of values a list of slots stands for. -/
def slotsSize (slots : List Slot) : Nat := (slots.map Slot.size).sum

omit [Platform] in
theorem slotsSize_ones {slots : List Slot} (h : ∀ s ∈ slots, s.size = 1) :
    slotsSize slots = slots.length := by
  induction slots with
  | nil => rfl
  | cons s slots ih =>
    simp only [List.mem_cons, forall_eq_or_imp] at h
    have := ih h.2
    simp only [slotsSize, List.map_cons, List.sum_cons, h.1, List.length_cons] at this ⊢
    omega

theorem resolve_length : ∀ {slots : List Slot} {E : Env} {i : Bytes} {vs : List Value} {E' : Env}
    {r : Bytes}, Resolve slots E i vs E' r → vs.length = slotsSize slots
  | _, _, _, _, _, _, .nil => rfl
  | _, _, _, _, _, _, .value h => by
    have := resolve_length h
    simp only [slotsSize, List.length_cons, List.map_cons, List.sum_cons, Slot.size] at this ⊢; omega
  | _, _, _, _, _, _, .nulls h => by
    have := resolve_length h
    simp only [slotsSize, List.length_append, List.length_replicate, List.map_cons, List.sum_cons,
      Slot.size] at this ⊢; omega
  | _, _, _, _, _, _, .known _ h => by
    have := resolve_length h
    simp only [slotsSize, List.length_cons, List.map_cons, List.sum_cons, Slot.size] at this ⊢; omega
  | _, _, _, _, _, _, .next _ _ h => by
    have := resolve_length h
    simp only [slotsSize, List.length_cons, List.map_cons, List.sum_cons, Slot.size] at this ⊢; omega

theorem members_length : ∀ {Ts : List (Option MemberType)} {E : Env} {i : Bytes} {slots : List Slot}
    {E' : Env} {r : Bytes}, Members Ts E i slots E' r → slots.length = Ts.length
  | _, _, _, _, _, _, .nil => rfl
  | _, _, _, _, _, _, .cons _ h => by simp [members_length h]

theorem members_size : ∀ {Ts : List (Option MemberType)} {E : Env} {i : Bytes} {slots : List Slot}
    {E' : Env} {r : Bytes}, Members Ts E i slots E' r → ∀ s ∈ slots, 1 ≤ s.size
  | _, _, _, _, _, _, .nil => by simp
  | _, _, _, _, _, _, .cons h h1 => by
    simp only [List.mem_cons, forall_eq_or_imp]
    exact ⟨member_size h, members_size h1⟩

theorem members_ones : ∀ {Ts : List (Option MemberType)} {E : Env} {i : Bytes} {slots : List Slot}
    {E' : Env} {r : Bytes}, Members Ts E i slots E' r → NoRuns i → ∀ s ∈ slots, s.size = 1
  | _, _, _, _, _, _, .nil, _ => by simp
  | _, _, _, _, _, _, .cons h h1, hi => by
    simp only [List.mem_cons, forall_eq_or_imp]
    exact ⟨member_size_one h hi, members_ones h1 (hi.suffix h.suffix)⟩

theorem fill_size : ∀ {T : Option MemberType} {len : Nat} {E : Env} {i : Bytes} {slots : List Slot}
    {E' : Env} {r : Bytes}, Fill T len E i slots E' r →
    len ≤ slotsSize slots ∧ ((∀ s ∈ slots, s.size = 1) → slotsSize slots = len)
  | _, _, _, _, _, _, _, .done => ⟨Nat.zero_le _, fun _ => rfl⟩
  | _, _, _, _, _, _, _, .step h0 h h1 => by
    obtain ⟨h2, h3⟩ := fill_size h1
    simp only [slotsSize, List.map_cons, List.sum_cons, List.mem_cons, forall_eq_or_imp] at h2 h3 ⊢
    refine ⟨by omega, fun ⟨h4, h5⟩ => ?_⟩
    have := h3 h5
    rw [h4] at this ⊢
    omega

/-- All but the last slot together fall short of the length. -/
theorem fill_last : ∀ {T : Option MemberType} {len : Nat} {E : Env} {i : Bytes} {slots : List Slot}
    {E' : Env} {r : Bytes}, Fill T len E i slots E' r → slots ≠ [] →
    slotsSize slots.dropLast < len
  | _, _, _, _, _, _, _, .done, h => absurd rfl h
  | _, _, _, _, _, _, _, @Fill.step _ _ _ _ _ _ _ _ slots _ _ h0 h h1, _ => by
    cases slots with
    | nil => simpa [slotsSize] using h0
    | cons s slots =>
      have := fill_last h1 (by simp)
      simp only [slotsSize, List.dropLast_cons₂, List.map_cons, List.sum_cons] at this ⊢
      omega

theorem fill_ones : ∀ {T : Option MemberType} {len : Nat} {E : Env} {i : Bytes} {slots : List Slot}
    {E' : Env} {r : Bytes}, Fill T len E i slots E' r → NoRuns i → ∀ s ∈ slots, s.size = 1
  | _, _, _, _, _, _, _, .done, _ => by simp
  | _, _, _, _, _, _, _, .step _ h h1, hi => by
    simp only [List.mem_cons, forall_eq_or_imp]
    exact ⟨member_size_one h hi, fill_ones h1 (hi.suffix h.suffix)⟩

end Nrbf
