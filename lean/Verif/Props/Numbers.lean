import Verif.Spec.Numbers
import Verif.Props.Texts

/-! # C91: the parser does not look into numbers -/

set_option autoImplicit false

namespace Nrbf
open Spec

variable {f : Value → Value}

/-! ## Values -/

theorem nr_values (vs : List Value) : renumberAll f vs = vs.map (renumber f) := by
  induction vs with
  | nil => rfl
  | cons v vs ih => rw [renumberAll, ih]; rfl

theorem nr_members (ms : List (Str × Value)) : renumberMembers f ms = ms.map fun m => (m.1, renumber f m.2) := by
  induction ms with
  | nil => rfl
  | cons v vs ih => obtain ⟨k, v⟩ := v; rw [renumberMembers, ih]; rfl

theorem nr_array (vs : List Value) : renumber f (.array vs) = .array (vs.map (renumber f)) := by rw [renumber, nr_values]

theorem nr_lastValue (k : Str) (l : List (Str × Value)) :
    lastValue k (l.map fun m => (m.1, renumber f m.2)) = (lastValue k l).map (renumber f) := by
  induction l with
  | nil => rfl
  | cons m l ih =>
    obtain ⟨k', v⟩ := m
    simp only [List.map_cons, lastValue, ih]
    by_cases h : k' = k
    · subst h
      cases lastValue k' l <;> simp
    · rw [if_neg h, if_neg h]
      cases lastValue k l <;> simp

theorem nr_bindNames (ns : List Str) (vs : List Value) :
    bindNames ns (vs.map (renumber f)) = renumberMembers f (bindNames ns vs) := by
  have hz := tr_zip id (renumber f) ns vs
  simp only [List.map_id, id] at hz
  rw [nr_members, bindNames, bindNames, hz, List.map_map, List.map_map]
  refine List.map_congr_left fun k _ => ?_
  simp only [Function.comp]
  rw [nr_lastValue]
  cases lastValue k (ns.zip vs) <;> simp [renumber]

/-! ## Tables, slots -/

/-- The tables with all primitive values translated. -/
def nrEnv (f : Value → Value) (E : Env) : Env := ⟨E.libs, fun k => (E.objs k).map (renumber f)⟩

/-- A slot with all primitive values translated. -/
def nrSlot (f : Value → Value) : Slot → Slot
  | .value v => .value (renumber f v)
  | s => s

theorem nr_addLib (E : Env) (id : Nat) (name : Str) : nrEnv f (E.addLib id name) = (nrEnv f E).addLib id name := rfl

theorem nr_add (E : Env) (id : Nat) (v : Value) : nrEnv f (E.add id v) = (nrEnv f E).add id (renumber f v) := by
  simp only [nrEnv, Env.add, Env.mk.injEq, true_and]
  funext k; split <;> rfl

theorem nr_drop (E : Env) (id : Nat) : nrEnv f (E.drop id) = (nrEnv f E).drop id := by
  simp only [nrEnv, Env.drop, Env.mk.injEq, true_and]
  funext k; split <;> rfl

theorem nr_size (s : Slot) : (nrSlot f s).size = s.size := by cases s <;> rfl

theorem nr_hasLibrary {h : ClassHead} {E : Env} {l : Option Str} (hl : h.HasLibrary E l) : h.HasLibrary (nrEnv f E) l := by
  obtain ⟨id, name, names, types, lib⟩ := h
  cases lib with
  | none => exact hl
  | some k => exact hl

mutual
theorem nr_shaped : ∀ {ds : List Nat} {v : Value} {ls : List Value}, Spec.Shaped ds v ls →
    Spec.Shaped ds (renumber f v) (ls.map (renumber f))
  | _, _, _, .leaf => .leaf
  | _, _, _, .array h a => by rw [nr_array]; exact .array (by rw [List.length_map]; exact h) (nr_shapedAll a)
theorem nr_shapedAll : ∀ {ds : List Nat} {vs ls : List Value}, ShapedAll ds vs ls →
    ShapedAll ds (vs.map (renumber f)) (ls.map (renumber f))
  | _, _, _, .nil => .nil
  | _, _, _, .cons a b => by rw [List.map_append]; exact .cons (nr_shaped a) (nr_shapedAll b)
end

theorem nr_rows {ds : List Nat} {vs rows : List Value} (h : Rows ds vs rows) :
    Rows ds (vs.map (renumber f)) (rows.map (renumber f)) := by
  unfold Rows at h ⊢
  by_cases hv : vs = []
  · rw [if_pos hv] at h; subst hv; subst h; rfl
  · rw [if_neg hv] at h
    rw [if_neg (by simpa using hv)]
    exact nr_shapedAll h

variable [Platform]

theorem nr_primitive {t : PrimitiveType} {v : Value} {b : Bytes} (h : IsPrimitive t v b) : renumber f v = f v := by
  cases t <;> cases v <;> first | rfl | exact h.elim

/-! ## Bytes -/

theorem numbers_refl (b : Bytes) : NumbersReplaced f b b := by
  induction b with
  | nil => exact .nil
  | cons x b ih => exact .byte x ih

theorem numbers_append {a a' b b' : Bytes} (h : NumbersReplaced f a a') (h' : NumbersReplaced f b b') :
    NumbersReplaced f (a ++ b) (a' ++ b') := by
  induction h with
  | nil => exact h'
  | byte x _ ih => exact .byte x ih
  | number x y _ ih => rw [List.append_assoc, List.append_assoc]; exact .number x y ih

/-- What remains: numbers are replaced, and byte 12 does not become the first one. -/
structure Left (f : Value → Value) (i k : Bytes) : Prop where
  numbers : NumbersReplaced f i k
  first : i.head? ≠ some 12 → k.head? ≠ some 12

/-- What remains: numbers are replaced, and the first byte, if there is one, is kept. -/
structure LeftAlike (f : Value → Value) (i k : Bytes) : Prop where
  numbers : NumbersReplaced f i k
  first : k.head? = i.head?

theorem LeftAlike.left {i k : Bytes} (h : LeftAlike f i k) : Left f i k := ⟨h.numbers, fun e => by rw [h.first]; exact e⟩

theorem left_same {b i k : Bytes} (h : b ≠ []) (h' : NumbersReplaced f i k) : LeftAlike f (b ++ i) (b ++ k) := by
  cases b with
  | nil => exact absurd rfl h
  | cons x b => exact ⟨numbers_append (numbers_refl _) h', rfl⟩

variable (hf : KeepsTypes f)

theorem optLib_left_number {σ : Renaming} {E : Env} {i j : Bytes} {E' : Env} {r s k' : Bytes}
    (h : ROptLib σ true E i j E' r s) (hk : Left f r k') : ∃ k, OptLib (nrEnv f E) k (nrEnv f E') k' ∧ Left f i k := by
  cases h with
  | none a b c => exact ⟨k', .none (.inl (hk.first (c rfl))), hk⟩
  | some a b c =>
    exact ⟨_, .some a c, (left_same (by obtain ⟨_, _, _, _, rfl⟩ := a; simp) hk.numbers).left⟩

theorem optLib_alike_number {σ : Renaming} {E : Env} {i j : Bytes} {E' : Env} {r s k' : Bytes}
    (h : ROptLib σ true E i j E' r s) (hk : LeftAlike f r k') : ∃ k, OptLib (nrEnv f E) k (nrEnv f E') k' ∧ LeftAlike f i k := by
  cases h with
  | none a b c => exact ⟨k', .none (.inl (hk.left.first (c rfl))), hk⟩
  | some a b c => exact ⟨_, .some a c, left_same (by obtain ⟨_, _, _, _, rfl⟩ := a; simp) hk.numbers⟩

include hf

theorem primitive_number {t : PrimitiveType} {v : Value} {b : Bytes} (h : IsPrimitive t v b) :
    ∃ b', IsPrimitive t (renumber f v) b' ∧ NumbersReplaced f b b' ∧ (b.head? ≠ some 12 → b'.head? ≠ some 12) := by
  obtain ⟨b', h1, h2⟩ := hf t v b h
  refine ⟨b', by rw [nr_primitive h]; exact h1, ?_, h2⟩
  have := NumbersReplaced.number h h1 .nil
  rwa [List.append_nil, List.append_nil] at this

theorem typedPrimitive_number {v : Value} {b : Bytes} (h : IsTypedPrimitive v b) :
    ∃ b', IsTypedPrimitive (renumber f v) b' ∧ ∀ {i k : Bytes}, NumbersReplaced f i k → LeftAlike f (b ++ i) (b' ++ k) := by
  obtain ⟨t, b1, h, rfl⟩ := h
  obtain ⟨b', h1, h2, -⟩ := primitive_number hf h
  exact ⟨_, ⟨t, b', h1, rfl⟩, fun h' => ⟨.byte _ (.byte _ (numbers_append h2 h')), rfl⟩⟩

theorem primitives_number {t : PrimitiveType} {vs : List Value} : ∀ {b : Bytes}, IsSeq (IsPrimitive t) vs b →
    ∃ b', IsSeq (IsPrimitive t) (vs.map (renumber f)) b' ∧ NumbersReplaced f b b' := by
  induction vs with
  | nil => exact fun h => ⟨_, h, numbers_refl _⟩
  | cons t ts ih =>
    intro b h
    obtain ⟨b1, b2, h1, h2, rfl⟩ := h
    obtain ⟨b3, h3, h4, -⟩ := primitive_number hf h1
    obtain ⟨b5, h5, h6⟩ := ih h2
    exact ⟨_, ⟨b3, b5, h3, h5, rfl⟩, numbers_append h4 h6⟩

theorem primitive_left {t : PrimitiveType} {v : Value} {b : Bytes} (h : IsPrimitive t v b) :
    ∃ b', IsPrimitive t (renumber f v) b' ∧ ∀ {i k : Bytes}, NumbersReplaced f i k → Left f (b ++ i) (b' ++ k) := by
  obtain ⟨b', h1, h2, h3⟩ := primitive_number hf h
  refine ⟨b', h1, fun h' => ⟨numbers_append h2 h', ?_⟩⟩
  have hb := primitive_ne_nil h
  have hb' := primitive_ne_nil h1
  cases b with
  | nil => exact absurd rfl hb
  | cons x b => cases b' with
    | nil => exact absurd rfl hb'
    | cons y b' => exact h3

mutual
theorem member_number {σ : Renaming} : ∀ {T : Option MemberType} {E : Env} {i j : Bytes} {slot : Slot} {E' : Env}
    {r s k' : Bytes}, RMember σ true T E i j slot E' r s → NumbersReplaced f r k' →
    ∃ k, Member T (nrEnv f E) k (nrSlot f slot) (nrEnv f E') k' ∧ Left f i k
  | _, _, _, _, _, _, _, _, _, .primitive a b, hk =>
    let ⟨_, x, l⟩ := typedPrimitive_number hf b; let ⟨_, o, h⟩ := optLib_left_number a (l hk).left; ⟨_, .primitive o x, h⟩
  | _, _, _, _, _, _, _, _, _, .reference a b _, hk =>
    let ⟨_, o, h⟩ := optLib_left_number a (left_same (by obtain ⟨_, _, rfl⟩ := b; simp) hk).left
    ⟨_, .reference o b, h⟩
  | _, _, _, _, _, _, _, _, _, .string a b _, hk =>
    let ⟨_, o, h⟩ := optLib_left_number a (left_same (by obtain ⟨_, _, _, _, rfl⟩ := b; simp) hk).left
    ⟨_, .string o b, h⟩
  | _, _, _, _, _, _, _, _, _, .nulls a b, hk =>
    let ⟨_, o, h⟩ := optLib_left_number a (left_same (nulls_ne_nil b) hk).left; ⟨_, .nulls o b, h⟩
  | _, _, _, _, _, _, _, _, _, .object a b, hk =>
    let ⟨_, x, h⟩ := class_number b hk; let ⟨_, o, h'⟩ := optLib_left_number a h.left; ⟨_, .object o x, h'⟩
  | _, _, _, _, _, _, _, _, _, .typedPrimitive a b, hk =>
    let ⟨_, x, l⟩ := primitive_left hf b; let ⟨_, o, h⟩ := optLib_left_number a (l hk); ⟨_, .typedPrimitive o x, h⟩
  | _, _, _, _, _, _, _, _, _, .typedString a b _, hk =>
    let ⟨_, o, h⟩ := optLib_left_number a (left_same (by obtain ⟨_, _, _, _, rfl⟩ := b; simp) hk).left
    ⟨_, .typedString o b, h⟩
  | _, _, _, _, _, _, _, _, _, .typedObject a b, hk =>
    let ⟨_, x, h⟩ := member_number b hk; let ⟨_, o, h'⟩ := optLib_left_number a h; ⟨_, .typedObject o x, h'⟩
  | _, _, _, _, _, _, _, _, _, .typedObjectArray a b, hk =>
    let ⟨_, x, h⟩ := member_number b hk; let ⟨_, o, h'⟩ := optLib_left_number a h; ⟨_, .typedObjectArray o x, h'⟩
  | _, _, _, _, _, _, _, _, _, .systemClass a b, hk =>
    let ⟨_, x, h⟩ := class_number b hk; let ⟨_, o, h'⟩ := optLib_left_number a h.left; ⟨_, .systemClass o x, h'⟩
  | _, _, _, _, _, _, _, _, _, .systemClassNulls a b, hk =>
    let ⟨_, o, h⟩ := optLib_left_number a (left_same (nulls_ne_nil b) hk).left; ⟨_, .systemClassNulls o b, h⟩
  | _, _, _, _, _, _, _, _, _, .class a l b, hk =>
    let ⟨_, x, h⟩ := class_number b hk; let ⟨_, o, h'⟩ := optLib_left_number a h.left; ⟨_, .class o l x, h'⟩
  | _, _, _, _, _, _, _, _, _, .classNulls a l b, hk =>
    let ⟨_, o, h⟩ := optLib_left_number a (left_same (nulls_ne_nil b) hk).left; ⟨_, .classNulls o l b, h⟩
  | _, _, _, _, _, _, _, _, _, .stringArrayString a b _, hk =>
    let ⟨_, o, h⟩ := optLib_left_number a (left_same (by obtain ⟨_, _, _, _, rfl⟩ := b; simp) hk).left
    ⟨_, .stringArrayString o b, h⟩
  | _, _, _, _, _, _, _, _, _, .stringArrayReference a b _, hk =>
    let ⟨_, o, h⟩ := optLib_left_number a (left_same (by obtain ⟨_, _, rfl⟩ := b; simp) hk).left
    ⟨_, .stringArrayReference o b, h⟩
  | _, _, _, _, _, _, _, _, _, .stringArrayNulls a b, hk =>
    let ⟨_, o, h⟩ := optLib_left_number a (left_same (nulls_ne_nil b) hk).left; ⟨_, .stringArrayNulls o b, h⟩
  | _, _, _, _, _, _, _, _, _, .primitiveArray a b _, hk =>
    let ⟨_, o, h⟩ := optLib_left_number a (left_same (by obtain ⟨_, _, rfl⟩ := b; simp) hk).left
    ⟨_, .primitiveArray o b, h⟩
termination_by structural _ _ _ _ _ _ _ _ _ h => h
theorem members_number {σ : Renaming} : ∀ {Ts : List (Option MemberType)} {E : Env} {i j : Bytes} {slots : List Slot} {E' : Env}
    {r s k' : Bytes}, RMembers σ true Ts E i j slots E' r s → NumbersReplaced f r k' →
    ∃ k, Members Ts (nrEnv f E) k (slots.map (nrSlot f)) (nrEnv f E') k' ∧ NumbersReplaced f i k
  | _, _, _, _, _, _, _, _, _, .nil, hk => ⟨_, .nil, hk⟩
  | _, _, _, _, _, _, _, _, _, .cons a b, hk =>
    let ⟨_, y, h⟩ := members_number b hk; let ⟨_, x, h'⟩ := member_number a h; ⟨_, .cons x y, h'.numbers⟩
termination_by structural _ _ _ _ _ _ _ _ _ h => h
theorem fill_number {σ : Renaming} : ∀ {T : Option MemberType} {len : Nat} {E : Env} {i j : Bytes} {slots : List Slot} {E' : Env}
    {r s k' : Bytes}, RFill σ true T len E i j slots E' r s → NumbersReplaced f r k' →
    ∃ k, Fill T len (nrEnv f E) k (slots.map (nrSlot f)) (nrEnv f E') k' ∧ NumbersReplaced f i k
  | _, _, _, _, _, _, _, _, _, _, .done, hk => ⟨_, .done, hk⟩
  | _, _, _, _, _, _, _, _, _, _, .step (slot := slot) l a b, hk =>
    let ⟨_, y, h⟩ := fill_number b hk; let ⟨_, x, h'⟩ := member_number a h
    ⟨_, .step l x (by rw [nr_size slot]; exact y), h'.numbers⟩
termination_by structural _ _ _ _ _ _ _ _ _ _ h => h
theorem resolve_number {σ : Renaming} : ∀ {slots : List Slot} {E : Env} {i j : Bytes} {vs : List Value} {E' : Env} {r s k' : Bytes},
    RResolve σ true slots E i j vs E' r s → NumbersReplaced f r k' →
    ∃ k, Resolve (slots.map (nrSlot f)) (nrEnv f E) k (vs.map (renumber f)) (nrEnv f E') k' ∧ NumbersReplaced f i k
  | _, _, _, _, _, _, _, _, _, .nil, hk => ⟨_, .nil, hk⟩
  | _, _, _, _, _, _, _, _, _, .value a, hk => let ⟨_, x, h⟩ := resolve_number a hk; ⟨_, .value x, h⟩
  | _, _, _, _, _, _, _, _, _, .nulls a, hk =>
    let ⟨_, x, h⟩ := resolve_number a hk; ⟨_, by rw [List.map_append, List.map_replicate]; exact .nulls x, h⟩
  | _, _, _, _, _, _, _, _, _, .known e a, hk =>
    let ⟨_, x, h⟩ := resolve_number a hk
    ⟨_, .known (congrArg (Option.map (renumber f)) e) (by rw [← nr_drop]; exact x), h⟩
  | _, _, _, _, _, _, _, _, _, .next e a b, hk =>
    let ⟨_, y, h⟩ := resolve_number b hk; let ⟨_, x, h'⟩ := record_number a h
    ⟨_, .next (congrArg (Option.map (renumber f)) e) x (by rw [← nr_drop]; exact y), h'.numbers⟩
termination_by structural _ _ _ _ _ _ _ _ _ h => h
theorem class_number {σ : Renaming} : ∀ {E : Env} {i j : Bytes} {id : Nat} {name : Str} {library : Option Str}
    {ms : List (Str × Value)} {E' : Env} {r s k' : Bytes}, RClass σ true E i j id name library ms E' r s → NumbersReplaced f r k' →
    ∃ k, Spec.Class (nrEnv f E) k id name library (renumberMembers f ms) (nrEnv f E') k' ∧ LeftAlike f i k
  | _, _, _, _, _, _, _, _, _, _, _, .mk (h := hd) a b _ l d e, hk =>
    let ⟨_, z, h⟩ := resolve_number e hk
    let ⟨_, y, h'⟩ := members_number d h
    let ⟨_, o, h''⟩ := optLib_alike_number a (left_same (by obtain ⟨_, _, _, _, _, _, _, _, _, _, _, _, rfl⟩ := b; simp) h')
    ⟨_, by rw [← nr_bindNames]; exact .mk (h := hd) o b (nr_hasLibrary l) y z, h''⟩
termination_by structural _ _ _ _ _ _ _ _ _ _ _ h => h
theorem record_number {σ : Renaming} : ∀ {E : Env} {i j : Bytes} {id : Nat} {v : Value} {E' : Env} {r s k' : Bytes},
    RRecord σ true E i j id v E' r s → NumbersReplaced f r k' →
    ∃ k, Record (nrEnv f E) k id (renumber f v) (nrEnv f E') k' ∧ LeftAlike f i k
  | _, _, _, _, _, _, _, _, _, .object a, hk => let ⟨_, x, h⟩ := class_number a hk; ⟨_, .object x, h⟩
  | _, _, _, _, _, _, _, _, _, .objectArray a _ b d, hk =>
    let ⟨_, z, h⟩ := resolve_number d hk
    let ⟨_, y, h'⟩ := fill_number b h
    ⟨_, by rw [nr_array]; exact .objectArray a y z, left_same (by obtain ⟨_, _, _, _, rfl⟩ := a; simp) h'⟩
  | _, _, _, _, _, _, _, _, _, .primitiveArray a _ b, hk =>
    let ⟨_, x, h⟩ := primitives_number hf b
    ⟨_, by rw [nr_array]; exact .primitiveArray (by rw [List.length_map]; exact a) x,
      by rw [List.append_assoc, List.append_assoc]
         exact left_same (by obtain ⟨_, ⟨_, _, _, _, rfl⟩, rfl⟩ := a; simp) (numbers_append h hk)⟩
  | _, _, _, _, _, _, _, _, _, .stringArray a _ b d, hk =>
    let ⟨_, z, h⟩ := resolve_number d hk
    let ⟨_, y, h'⟩ := fill_number b h
    ⟨_, by rw [nr_array]; exact .stringArray a y z, left_same (by obtain ⟨_, _, _, _, rfl⟩ := a; simp) h'⟩
  | _, _, _, _, _, _, _, _, _, .array a _ p b d e, hk =>
    let ⟨_, z, h⟩ := resolve_number d hk
    let ⟨_, y, h'⟩ := members_number b h
    ⟨_, by rw [nr_array]; exact .array a p y z (nr_rows e),
      left_same (by obtain ⟨_, _, _, _, _, _, _, _, _, _, _, rfl⟩ := a; simp) h'⟩
  | _, _, _, _, _, _, _, _, _, .string a _, hk =>
    ⟨_, .string a, left_same (by obtain ⟨_, _, _, _, rfl⟩ := a; simp) hk⟩
termination_by structural _ _ _ _ _ _ _ _ _ h => h
end

theorem records_number {σ : Renaming} {E : Env} {i j : Bytes} {E' : Env} {r s : Bytes} (h : RRecords σ true E i j E' r s) :
    ∀ {k' : Bytes}, LeftAlike f r k' → ∃ k, Records (nrEnv f E) k (nrEnv f E') k' ∧ LeftAlike f i k := by
  induction h with
  | nil => exact fun hk => ⟨_, .nil, hk⟩
  | cons a _ ih =>
    intro k' hk
    obtain ⟨_, y, h⟩ := ih hk
    obtain ⟨_, x, h'⟩ := record_number hf a h.numbers
    exact ⟨_, .cons x (by rw [← nr_add]; exact y), h'⟩

theorem callArray_number {σ : Renaming} {root : Nat} {E : Env} {i j : Bytes} {o : Option (List Value)} {E' : Env} {r s k' : Bytes}
    (h : RCallArray σ true root E i j o E' r s) (hk : LeftAlike f r k') :
    ∃ k, CallArray root (nrEnv f E) k (o.map (List.map (renumber f))) (nrEnv f E') k' ∧ NumbersReplaced f i k := by
  cases h with
  | some a b _ d e =>
    obtain ⟨_, z, h1⟩ := resolve_number hf e hk.numbers
    obtain ⟨_, y, h2⟩ := fill_number hf d h1
    obtain ⟨_, o, h3⟩ := optLib_left_number a (left_same (by obtain ⟨_, _, _, _, rfl⟩ := b; simp) h2).left
    exact ⟨_, .some o b y z, h3.numbers⟩
  | none a b _ _ => exact ⟨k', .none (by rw [hk.first]; exact a) (by rw [hk.first]; exact b), hk.numbers⟩

/-! ## Method records -/

theorem codedValue_number {v : Value} {b : Bytes} (h : IsCodedValue v b) :
    ∃ b', IsCodedValue (renumber f v) b' ∧ NumbersReplaced f b b' := by
  rcases h with ⟨t, b', h, rfl⟩ | ⟨rfl, rfl⟩ | ⟨s, rfl, h⟩
  · obtain ⟨b2, h1, h2, -⟩ := primitive_number hf h
    exact ⟨_, .inl ⟨t, b2, h1, rfl⟩, .byte _ h2⟩
  · exact ⟨_, .inr (.inl ⟨rfl, rfl⟩), numbers_refl _⟩
  · exact ⟨_, .inr (.inr ⟨_, rfl, h⟩), numbers_refl _⟩

theorem codedValueSeq_number {vs : List Value} : ∀ {b : Bytes}, IsSeq IsCodedValue vs b →
    ∃ b', IsSeq IsCodedValue (vs.map (renumber f)) b' ∧ NumbersReplaced f b b' := by
  induction vs with
  | nil => exact fun h => ⟨_, h, numbers_refl _⟩
  | cons t ts ih =>
    intro b h
    obtain ⟨b1, b2, h1, h2, rfl⟩ := h
    obtain ⟨b3, h3, h4⟩ := codedValue_number hf h1
    obtain ⟨b5, h5, h6⟩ := ih h2
    exact ⟨_, ⟨b3, b5, h3, h5, rfl⟩, numbers_append h4 h6⟩

theorem codedValues_number {vs : List Value} {b : Bytes} (h : IsCodedValues vs b) :
    ∃ b', IsCodedValues (vs.map (renumber f)) b' ∧ NumbersReplaced f b b' := by
  obtain ⟨b1, b2, h1, h2, rfl⟩ := h
  obtain ⟨b3, h3, h4⟩ := codedValueSeq_number hf h2
  exact ⟨_, ⟨b1, b3, by rw [List.length_map]; exact h1, h3, rfl⟩, numbers_append (numbers_refl _) h4⟩

omit hf in
theorem optional_number {α : Type} {R : α → Bytes → Prop} {g : α → α}
    (hg : ∀ {a b}, R a b → ∃ b', R (g a) b' ∧ NumbersReplaced f b b') {present : Bool} {o : Option α} {b : Bytes}
    (h : IsOptional present R o b) : ∃ b', IsOptional present R (o.map g) b' ∧ NumbersReplaced f b b' := by
  rcases h with ⟨hp, a, rfl, h⟩ | ⟨hp, rfl, rfl⟩
  · obtain ⟨b', h1, h2⟩ := hg h
    exact ⟨_, .inl ⟨hp, _, rfl, h1⟩, h2⟩
  · exact ⟨_, .inr ⟨hp, rfl, rfl⟩, numbers_refl _⟩

theorem methodCall_number {fl : BitVec 32} {name type : Str} {context : Option Str} {inline : Option (List Value)} {b : Bytes}
    (h : IsMethodCall fl name type context inline b) :
    ∃ b', IsMethodCall fl name type context (inline.map (List.map (renumber f))) b' ∧
      ∀ {i k : Bytes}, NumbersReplaced f i k → LeftAlike f (b ++ i) (b' ++ k) := by
  obtain ⟨bf, bn, bt, bc, ba, h1, h2, h3, h4, h5, rfl⟩ := h
  obtain ⟨ba', a5, r5⟩ := optional_number (codedValues_number hf) h5
  refine ⟨_, ⟨bf, bn, bt, bc, ba', h1, h2, h3, h4, a5, rfl⟩, fun h' => ?_⟩
  rw [List.append_assoc, List.append_assoc _ ba']
  exact left_same (by simp) (numbers_append r5 h')

theorem methodReturn_number {fl : BitVec 32} {value : Option Value} {context : Option Str} {inline : Option (List Value)} {b : Bytes}
    (h : IsMethodReturn fl value context inline b) :
    ∃ b', IsMethodReturn fl (value.map (renumber f)) context (inline.map (List.map (renumber f))) b' ∧
      ∀ {i k : Bytes}, NumbersReplaced f i k → LeftAlike f (b ++ i) (b' ++ k) := by
  obtain ⟨bf, bv, bc, ba, h1, h2, h4, h5, rfl⟩ := h
  obtain ⟨bv', a2, r2⟩ := optional_number (codedValue_number hf) h2
  obtain ⟨ba', a5, r5⟩ := optional_number (codedValues_number hf) h5
  refine ⟨_, ⟨bf, bv', bc, ba', h1, a2, h4, a5, rfl⟩, fun h' => ?_⟩
  simp only [List.append_assoc]
  exact left_same (b := 22 :: bf) (by simp) (numbers_append r2 (numbers_append (numbers_refl _) (numbers_append r5 h')))

omit hf [Platform] in
theorem argsFrom_number {fl : BitVec 32} {c i a : Option (List Value)} (h : ArgsFrom fl c i a) :
    ArgsFrom fl (c.map (List.map (renumber f))) (i.map (List.map (renumber f))) (a.map (List.map (renumber f))) := by
  rcases h with ⟨h1, vs, rfl, rfl⟩ | ⟨h1, h2, vs, rest, rfl, rfl⟩ | ⟨h1, h2, rfl⟩
  · exact .inl ⟨h1, _, rfl, rfl⟩
  · exact .inr (.inl ⟨h1, h2, vs.map (renumber f), rest.map (renumber f), by rw [← nr_array]; rfl, rfl⟩)
  · exact .inr (.inr ⟨h1, h2, rfl⟩)

omit hf [Platform] in
theorem rootValue_number {root : Nat} {E : Env} {v : Value} (h : RootValue root E v) :
    RootValue root (nrEnv f E) (renumber f v) := by
  rcases h with ⟨h, rfl⟩ | ⟨h, e⟩
  · exact .inl ⟨h, rfl⟩
  · exact .inr ⟨h, congrArg (Option.map (renumber f)) e⟩

/-! ## Messages -/

/-- **C91** A (strict) message with its primitive values translated is a message, and its content is the translated content. -/
theorem C91_grammar {σ : Renaming} {w w1 : Bytes} {m : RemotingMessage} (h : Renamed σ true w w1 m) :
    ∃ w', NumbersReplaced f w w' ∧ Message w' (renumberMessage f m) := by
  obtain ⟨hh, _, a, t⟩ := h
  cases t with
  | value v =>
    obtain ⟨_, x, r⟩ := records_number hf a (k' := [11]) ⟨numbers_refl _, rfl⟩
    exact ⟨_, numbers_append (numbers_refl _) r.numbers, .mk hh x (.value (rootValue_number v))⟩
  | method b d =>
    obtain ⟨_, y, r⟩ := records_number hf d (k' := [11]) ⟨numbers_refl _, rfl⟩
    cases b with
    | call fl g k args =>
      obtain ⟨_, z, r2⟩ := callArray_number hf k r
      obtain ⟨_, g', like⟩ := methodCall_number hf g
      obtain ⟨_, x, r3⟩ := records_number hf a (like r2)
      exact ⟨_, numbers_append (numbers_refl _) r3.numbers, .mk hh x (.method (.call fl g' z (argsFrom_number args)) y)⟩
    | «return» fl g k args =>
      obtain ⟨_, z, r2⟩ := callArray_number hf k r
      obtain ⟨_, g', like⟩ := methodReturn_number hf g
      obtain ⟨_, x, r3⟩ := records_number hf a (like r2)
      exact ⟨_, numbers_append (numbers_refl _) r3.numbers, .mk hh x (.method (.return fl g' z (argsFrom_number args)) y)⟩

/-- **C91** The parser does not look into numbers.  Take any message in which byte 12 stands only where a library record begins, and any
translation of primitive values that keeps their types (and makes no value start with byte 12 that did not): there is the message with the
values replaced, and it is parsed to the translated content. -/
theorem C91 {w : Bytes} {m : RemotingMessage} (h : Message w m) (hc : Clear true w) :
    ∃ w', NumbersReplaced f w w' ∧ deserialize w = .ok m ∧ deserialize w' = .ok (renumberMessage f m) := by
  obtain ⟨w', h1, h2⟩ := C91_grammar hf (C89_every h hc)
  exact ⟨w', h1, C31_complete h, C31_complete h2⟩

/-- **C91** The same for whatever a writer writes, bytes 12 at any place included. -/
theorem C91_written {m : RemotingMessage} {w : Bytes} (h : Written m w) :
    ∃ w', NumbersReplaced f w w' ∧ deserialize w = .ok m ∧ deserialize w' = .ok (renumberMessage f m) := by
  have hs := Strict.written_strict h
  obtain ⟨w', h1, h2⟩ := C91_grammar hf hs
  exact ⟨w', h1, C31_complete (C89_left hs), C31_complete h2⟩

omit hf

/-! ## Examples -/

/-- Negates booleans and replaces all 64-bit numbers by 9. -/
def flipNumbers : Value → Value
  | .boolean x => .boolean (!x)
  | .uint64 _ => .uint64 9
  | .int64 _ => .int64 9
  | v => v

theorem flipNumbers_keeps : KeepsTypes flipNumbers := by
  intro t v b h
  have same : flipNumbers v = v → ∃ b', IsPrimitive t (flipNumbers v) b' ∧ (b.head? ≠ some 12 → b'.head? ≠ some 12) :=
    fun e => ⟨b, by rw [e]; exact h, fun h => h⟩
  cases v with
  | boolean x =>
    cases t <;> first | exact h.elim | (refine ⟨[if !x then 1 else 0], rfl, fun _ => ?_⟩; cases x <;> decide)
  | uint64 n =>
    cases t <;> first | exact h.elim | exact ⟨le 8 9, ⟨by decide, rfl⟩, fun _ => by decide⟩
  | int64 n =>
    cases t <;> first | exact h.elim | exact ⟨leInt 8 9, ⟨⟨by decide, by decide⟩, rfl⟩, fun _ => by decide⟩
  | _ => exact same rfl

/-- `C91` is not vacuous: the argument of this call, an UInt64, is replaced in the message and in the content. -/
example : ∃ w', NumbersReplaced flipNumbers (write writeCall) w' ∧ deserialize (write writeCall) = .ok writeCall ∧
    deserialize w' = .ok (renumberMessage flipNumbers writeCall) ∧ renumberMessage flipNumbers writeCall ≠ writeCall := by
  obtain ⟨w', h1, h2, h3⟩ := C91_written flipNumbers_keeps (C71_write writeCall writeExample_writable.2)
  refine ⟨w', h1, h2, h3, ?_⟩
  simp [renumberMessage, writeCall, renumber, flipNumbers]

/-- The same for every message that can be stored at all (C57). -/
example {m : RemotingMessage} (hm : Writable m) (hf : KeepsTypes f) :
    ∃ w', NumbersReplaced f (write m) w' ∧ deserialize w' = .ok (renumberMessage f m) :=
  let ⟨w', h1, _, h2⟩ := C91_written hf (C71_write m hm)
  ⟨w', h1, h2⟩

/-- An object with a Byte member, which is `n`, and a String member. -/
def byteMember (n : UInt8) : Bytes :=
  Tests.header 1 ++ [4, 1,0,0,0, 1,65, 2,0,0,0, 1,97, 1,98, 0, 1, 2, n, 6, 2,0,0,0, 1,120, 11]

/-- **C91** The exception is real: a byte may be 11 or 13, but not 12, where what follows it can be read as the rest of a library record. -/
theorem C91_exception :
    deserialize (byteMember 11) = .ok (.value (.object [65] none [([97], .byte 11), ([98], .string [120])])) ∧
    deserialize (byteMember 13) = .ok (.value (.object [65] none [([97], .byte 13), ([98], .string [120])])) ∧
    ∃ e, deserialize (byteMember 12) = .err e := by
  refine ⟨by platform_decide, by platform_decide, ?_⟩
  have key : ∀ o : ApiResult RemotingMessage, (match o with
      | .err _ => true
      | _ => false) = true → ∃ e, o = .err e := by
    intro o h
    cases o with
    | err e => exact ⟨e, rfl⟩
    | _ => cases h
  exact key _ (by platform_decide)

end Nrbf
