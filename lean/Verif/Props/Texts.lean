import Verif.Spec.Texts
import Verif.Props.RenamedWritten
import Verif.Props.DataTypes

/-! # C90: the parser does not look into texts -/

set_option autoImplicit false

namespace Nrbf
open Spec

variable {τ : Translation}

/-! ## Values -/

theorem tr_values (vs : List Value) : τ.values vs = vs.map τ.value := by
  induction vs with
  | nil => rfl
  | cons v vs ih => rw [Translation.values, ih]; rfl

theorem tr_members (ms : List (Str × Value)) : τ.members' ms = ms.map fun m => (τ.member m.1, τ.value m.2) := by
  induction ms with
  | nil => rfl
  | cons v vs ih => obtain ⟨k, v⟩ := v; rw [Translation.members', ih]; rfl

theorem tr_array (vs : List Value) : τ.value (.array vs) = .array (vs.map τ.value) := by rw [Translation.value, tr_values]

theorem tr_lastValue (hτ : τ.Good) (k : Str) (l : List (Str × Value)) :
    lastValue (τ.member k) (l.map fun m => (τ.member m.1, τ.value m.2)) = (lastValue k l).map τ.value := by
  induction l with
  | nil => rfl
  | cons m l ih =>
    obtain ⟨k', v⟩ := m
    simp only [List.map_cons, lastValue, ih]
    by_cases h : k' = k
    · subst h
      cases lastValue k' l <;> simp
    · rw [if_neg h, if_neg (fun e => h (hτ.member_inj _ _ e))]
      cases lastValue k l <;> simp

theorem tr_eraseDups {f : Str → Str} (hf : ∀ a b, f a = f b → a = b) (n : Nat) (l : List Str) (h : l.length ≤ n) :
    (l.map f).eraseDups = l.eraseDups.map f := by
  induction n generalizing l with
  | zero =>
    obtain rfl : l = [] := List.eq_nil_of_length_eq_zero (by omega)
    rfl
  | succ n ih =>
    cases l with
    | nil => rfl
    | cons a l =>
      rw [List.map_cons, List.eraseDups_cons, List.eraseDups_cons, List.map_cons, List.filter_map]
      have e : ((fun b => !b == f a) ∘ f) = fun b => !b == a := by
        funext b
        simp only [Function.comp]
        by_cases hb : b = a
        · subst hb; simp
        · have h1 : (f b == f a) = false := beq_eq_false_iff_ne.mpr (fun e => hb (hf _ _ e))
          have h2 : (b == a) = false := beq_eq_false_iff_ne.mpr hb
          rw [h1, h2]
      rw [e, ih _ (by have := List.length_filter_le (fun b => !b == a) l; simp at h; omega)]

theorem tr_zip (f : Str → Str) (g : Value → Value) (ns : List Str) (vs : List Value) :
    (ns.map f).zip (vs.map g) = (ns.zip vs).map fun m => (f m.1, g m.2) := by
  induction ns generalizing vs with
  | nil => rfl
  | cons n ns ih => cases vs with
    | nil => rfl
    | cons v vs => simp [ih]

theorem tr_bindNames (hτ : τ.Good) (ns : List Str) (vs : List Value) :
    bindNames (ns.map τ.member) (vs.map τ.value) = τ.members' (bindNames ns vs) := by
  rw [tr_members, bindNames, bindNames, tr_zip, List.map_map]
  have e : (((ns.zip vs).map (Prod.fst ∘ fun m : Str × Value => (τ.member m.1, τ.value m.2)))).eraseDups =
      ((ns.zip vs).map Prod.fst).eraseDups.map τ.member := by
    rw [← tr_eraseDups hτ.member_inj _ _ (Nat.le_refl _), List.map_map]; rfl
  rw [e, List.map_map, List.map_map]
  refine List.map_congr_left fun k _ => ?_
  simp only [Function.comp]
  rw [tr_lastValue hτ]
  cases lastValue k (ns.zip vs) <;> simp [Translation.value]

/-! ## Tables, slots, types -/

/-- The tables with all of their texts translated. -/
def Spec.Translation.env (τ : Translation) (E : Env) : Env :=
  ⟨fun k => (E.libs k).map τ.library, fun k => (E.objs k).map τ.value⟩

/-- A slot with all of its texts translated. -/
def Spec.Translation.slot (τ : Translation) : Slot → Slot
  | .value v => .value (τ.value v)
  | s => s

/-- A member type with the class name translated. -/
def Spec.Translation.type (τ : Translation) : MemberType → MemberType
  | .systemClass name => .systemClass (τ.name name)
  | .class name l => .class (τ.name name) l
  | T => T

/-- A class head with all of its texts translated. -/
def Spec.Translation.head (τ : Translation) (h : ClassHead) : ClassHead :=
  { h with name := τ.name h.name, memberNames := h.memberNames.map τ.member, types := h.types.map (List.map τ.type) }

theorem tr_addLib (E : Env) (id : Nat) (name : Str) : τ.env (E.addLib id name) = (τ.env E).addLib id (τ.library name) := by
  simp only [Translation.env, Env.addLib, Env.mk.injEq, and_true]
  funext k; split <;> rfl

theorem tr_add (E : Env) (id : Nat) (v : Value) : τ.env (E.add id v) = (τ.env E).add id (τ.value v) := by
  simp only [Translation.env, Env.add, Env.mk.injEq, true_and]
  funext k; split <;> rfl

theorem tr_drop (E : Env) (id : Nat) : τ.env (E.drop id) = (τ.env E).drop id := by
  simp only [Translation.env, Env.drop, Env.mk.injEq, true_and]
  funext k; split <;> rfl

theorem tr_size (s : Slot) : (τ.slot s).size = s.size := by cases s <;> rfl

theorem tr_memberTypes (h : ClassHead) : (τ.head h).memberTypes = h.memberTypes.map (Option.map τ.type) := by
  obtain ⟨id, name, names, types, lib⟩ := h
  cases types with
  | none => simp [ClassHead.memberTypes, Translation.head]
  | some ts => simp [ClassHead.memberTypes, Translation.head, Function.comp_def]

theorem tr_hasLibrary {h : ClassHead} {E : Env} {l : Option Str} (hl : h.HasLibrary E l) :
    (τ.head h).HasLibrary (τ.env E) (l.map τ.library) := by
  obtain ⟨id, name, names, types, lib⟩ := h
  cases lib with
  | none => simp only [ClassHead.HasLibrary] at hl; subst hl; rfl
  | some k =>
    obtain ⟨n, h1, rfl⟩ := hl
    exact ⟨τ.library n, by simp [Translation.env, h1], rfl⟩

mutual
theorem tr_shaped : ∀ {ds : List Nat} {v : Value} {ls : List Value}, Spec.Shaped ds v ls → Spec.Shaped ds (τ.value v) (ls.map τ.value)
  | _, _, _, .leaf => .leaf
  | _, _, _, .array h a => by rw [tr_array]; exact .array (by rw [List.length_map]; exact h) (tr_shapedAll a)
theorem tr_shapedAll : ∀ {ds : List Nat} {vs ls : List Value}, ShapedAll ds vs ls →
    ShapedAll ds (vs.map τ.value) (ls.map τ.value)
  | _, _, _, .nil => .nil
  | _, _, _, .cons a b => by rw [List.map_append]; exact .cons (tr_shaped a) (tr_shapedAll b)
end

theorem tr_rows {ds : List Nat} {vs rows : List Value} (h : Rows ds vs rows) : Rows ds (vs.map τ.value) (rows.map τ.value) := by
  unfold Rows at h ⊢
  by_cases hv : vs = []
  · rw [if_pos hv] at h; subst hv; subst h; rfl
  · rw [if_neg hv] at h
    rw [if_neg (by simpa using hv)]
    exact tr_shapedAll h

variable [Platform]

theorem tr_primitive {t : PrimitiveType} {v : Value} {b : Bytes} (h : IsPrimitive t v b) : τ.value v = v := by
  cases t <;> cases v <;> first | rfl | exact h.elim

theorem tr_primitives {t : PrimitiveType} {vs : List Value} {b : Bytes} (h : IsSeq (IsPrimitive t) vs b) : vs.map τ.value = vs := by
  induction vs generalizing b with
  | nil => rfl
  | cons v vs ih =>
    obtain ⟨_, _, h1, h2, _⟩ := h
    rw [List.map_cons, tr_primitive h1, ih h2]

theorem tr_typedPrimitive {v : Value} {b : Bytes} (h : IsTypedPrimitive v b) : τ.value v = v := by
  obtain ⟨_, _, h, _⟩ := h; exact tr_primitive h

/-! ## Bytes -/

omit [Platform] in
theorem texts_refl (b : Bytes) : TextsReplaced τ b b := by
  induction b with
  | nil => exact .nil
  | cons x b ih => exact .byte x ih

omit [Platform] in
theorem texts_append {a a' b b' : Bytes} (h : TextsReplaced τ a a') (h' : TextsReplaced τ b b') :
    TextsReplaced τ (a ++ b) (a' ++ b') := by
  induction h with
  | nil => exact h'
  | byte x _ ih => exact .byte x ih
  | text x y _ ih => rw [List.append_assoc, List.append_assoc]; exact .text x y ih
  | name x y _ ih => rw [List.append_assoc, List.append_assoc]; exact .name x y ih
  | member x y _ ih => rw [List.append_assoc, List.append_assoc]; exact .member x y ih
  | library x y _ ih => rw [List.append_assoc, List.append_assoc]; exact .library x y ih

/-- What is read is not empty, its first byte is kept, and texts are replaced. -/
structure Alike (τ : Translation) (b b' : Bytes) : Prop where
  texts : TextsReplaced τ b b'
  first : ∃ x t t', b = x :: t ∧ b' = x :: t'

omit [Platform] in
theorem alike_cons {x : UInt8} {t t' : Bytes} (h : TextsReplaced τ t t') : Alike τ (x :: t) (x :: t') := ⟨.byte x h, _, _, _, rfl, rfl⟩

omit [Platform] in
theorem alike_append {a a' b b' : Bytes} (h : Alike τ a a') (h' : TextsReplaced τ b b') : Alike τ (a ++ b) (a' ++ b') := by
  obtain ⟨i, x, t, t', rfl, rfl⟩ := h
  exact ⟨texts_append i h', _, _, _, rfl, rfl⟩

omit [Platform] in
theorem alike_refl {b : Bytes} (h : b ≠ []) : Alike τ b b := by
  cases b with
  | nil => exact absurd rfl h
  | cons x b => exact alike_cons (texts_refl b)

/-- What remains: texts are replaced, and the first byte, if there is one, is kept. -/
structure Remains (τ : Translation) (i k : Bytes) : Prop where
  texts : TextsReplaced τ i k
  first : k.head? = i.head?

omit [Platform] in
theorem remains_append {b b' i k : Bytes} (h : Alike τ b b') (h' : TextsReplaced τ i k) : Remains τ (b ++ i) (b' ++ k) := by
  obtain ⟨i, x, t, t', rfl, rfl⟩ := h
  exact ⟨texts_append i h', rfl⟩

omit [Platform] in
theorem kept_string {f : Str → Str} (hf : Translation.Keeps f) {s : Str} {b : Bytes} (h : IsString s b) :
    IsString (f s) (string (f s)) := by
  obtain ⟨p, h1, h2, -⟩ := h
  obtain ⟨h3, h4⟩ := hf s h2 (C09_length_bound h1)
  exact string_ok h4 h3

variable (hτ : τ.Good)

include hτ

omit [Platform] in
theorem text_string {s : Str} {b : Bytes} (h : IsString s b) : ∃ b', IsString (τ.text s) b' ∧ TextsReplaced τ b b' := by
  have h' := kept_string hτ.text h
  refine ⟨_, h', ?_⟩
  have := TextsReplaced.text h h' .nil
  rwa [List.append_nil, List.append_nil] at this

omit [Platform] in
theorem name_string {s : Str} {b : Bytes} (h : IsString s b) : ∃ b', IsString (τ.name s) b' ∧ TextsReplaced τ b b' := by
  have h' := kept_string hτ.name h
  refine ⟨_, h', ?_⟩
  have := TextsReplaced.name h h' .nil
  rwa [List.append_nil, List.append_nil] at this

omit [Platform] in
theorem member_string {s : Str} {b : Bytes} (h : IsString s b) : ∃ b', IsString (τ.member s) b' ∧ TextsReplaced τ b b' := by
  have h' := kept_string hτ.member h
  refine ⟨_, h', ?_⟩
  have := TextsReplaced.member h h' .nil
  rwa [List.append_nil, List.append_nil] at this

omit [Platform] in
theorem library_string {s : Str} {b : Bytes} (h : IsString s b) : ∃ b', IsString (τ.library s) b' ∧ TextsReplaced τ b b' := by
  have h' := kept_string hτ.library h
  refine ⟨_, h', ?_⟩
  have := TextsReplaced.library h h' .nil
  rwa [List.append_nil, List.append_nil] at this

omit [Platform] in
theorem objectString_text {id : Nat} {s : Str} {b : Bytes} (h : IsObjectString id s b) :
    ∃ b', IsObjectString id (τ.text s) b' ∧ Alike τ b b' := by
  obtain ⟨b1, t, h1, ht, rfl⟩ := h
  obtain ⟨b2, h2, h3⟩ := text_string hτ ht
  exact ⟨_, ⟨b1, b2, h1, h2, rfl⟩, alike_append (alike_cons (texts_refl _)) h3⟩

omit [Platform] in
theorem library_text {id : Nat} {s : Str} {b : Bytes} (h : IsLibrary id s b) :
    ∃ b', IsLibrary id (τ.library s) b' ∧ Alike τ b b' := by
  obtain ⟨b1, t, h1, ht, rfl⟩ := h
  obtain ⟨b2, h2, h3⟩ := library_string hτ ht
  exact ⟨_, ⟨b1, b2, h1, h2, rfl⟩, alike_append (alike_cons (texts_refl _)) h3⟩

omit [Platform] hτ in
theorem typeByte_text (T : MemberType) : memberTypeByte (τ.type T) = memberTypeByte T := by cases T <;> rfl

omit [Platform] in
theorem typeInfo_text {T : MemberType} {b : Bytes} (h : IsTypeInfo T b) :
    ∃ b', IsTypeInfo (τ.type T) b' ∧ TextsReplaced τ b b' := by
  cases T with
  | systemClass name => exact name_string hτ h
  | «class» name l =>
    obtain ⟨b1, b2, h1, h2, rfl⟩ := h
    obtain ⟨b3, h3, h4⟩ := name_string hτ h1
    exact ⟨_, ⟨b3, b2, h3, h2, rfl⟩, texts_append h4 (texts_refl _)⟩
  | _ => exact ⟨_, h, texts_refl _⟩

omit [Platform] in
theorem typeInfos_text {ts : List MemberType} : ∀ {b : Bytes}, IsSeq IsTypeInfo ts b →
    ∃ b', IsSeq IsTypeInfo (ts.map τ.type) b' ∧ TextsReplaced τ b b' := by
  induction ts with
  | nil => exact fun h => ⟨_, h, texts_refl _⟩
  | cons t ts ih =>
    intro b h
    obtain ⟨b1, b2, h1, h2, rfl⟩ := h
    obtain ⟨b3, h3, h4⟩ := typeInfo_text hτ h1
    obtain ⟨b5, h5, h6⟩ := ih h2
    exact ⟨_, ⟨b3, b5, h3, h5, rfl⟩, texts_append h4 h6⟩

omit [Platform] in
theorem memberNames_text {ns : List Str} : ∀ {b : Bytes}, IsSeq IsString ns b →
    ∃ b', IsSeq IsString (ns.map τ.member) b' ∧ TextsReplaced τ b b' := by
  induction ns with
  | nil => exact fun h => ⟨_, h, texts_refl _⟩
  | cons t ts ih =>
    intro b h
    obtain ⟨b1, b2, h1, h2, rfl⟩ := h
    obtain ⟨b3, h3, h4⟩ := member_string hτ h1
    obtain ⟨b5, h5, h6⟩ := ih h2
    exact ⟨_, ⟨b3, b5, h3, h5, rfl⟩, texts_append h4 h6⟩

omit [Platform] in
theorem memberTypeInfos_text {ts : List MemberType} {b : Bytes} (h : IsMemberTypes ts b) :
    ∃ b', IsMemberTypes (ts.map τ.type) b' ∧ TextsReplaced τ b b' := by
  obtain ⟨infos, h1, rfl⟩ := h
  obtain ⟨infos', h2, h3⟩ := typeInfos_text hτ h1
  refine ⟨_, ⟨infos', h2, rfl⟩, ?_⟩
  rw [List.map_map, show memberTypeByte ∘ τ.type = memberTypeByte from funext typeByte_text]
  exact texts_append (texts_refl _) h3

omit [Platform] in
theorem arrayKindHead_text {id : Nat} {kind : BinaryArrayType} {lengths : List Nat} {T : MemberType} {b : Bytes}
    (h : IsBinaryArrayHead id kind lengths T b) :
    ∃ b', IsBinaryArrayHead id kind lengths (τ.type T) b' ∧ Alike τ b b' := by
  obtain ⟨bid, brank, blens, bbounds, binfo, h1, h2, h3, h4, h5, h6, rfl⟩ := h
  obtain ⟨binfo', h9, h10⟩ := typeInfo_text hτ h6
  refine ⟨_, ⟨bid, brank, blens, bbounds, binfo', h1, h2, h3, h4, h5, h9, rfl⟩, ?_⟩
  rw [typeByte_text]
  exact alike_append (alike_refl (by simp)) h10

omit [Platform] in
theorem classHead_text {h : ClassHead} {b : Bytes} (hb : IsClassHead h b) : ∃ b', IsClassHead (τ.head h) b' ∧ Alike τ b b' := by
  obtain ⟨id, name, names, types, library⟩ := h
  obtain ⟨bid, bname, bcount, bnames, btypes, blib, h1, h2, h3, h4, h5, h6, rfl⟩ := hb
  obtain ⟨bname', h7, h8⟩ := name_string hτ h2
  obtain ⟨bnames', h9, h10⟩ := memberNames_text hτ h4
  have ht : ∃ btypes', (match (τ.head ⟨id, name, names, types, library⟩).types with
      | none => btypes' = []
      | some ts => ts.length = (names.map τ.member).length ∧ IsMemberTypes ts btypes') ∧ TextsReplaced τ btypes btypes' := by
    cases types with
    | none => exact ⟨_, h5, texts_refl _⟩
    | some ts =>
      obtain ⟨b', h9, h10⟩ := memberTypeInfos_text hτ h5.2
      exact ⟨b', ⟨by rw [List.length_map, List.length_map]; exact h5.1, h9⟩, h10⟩
  obtain ⟨btypes', h11, h12⟩ := ht
  refine ⟨_, ⟨bid, bname', bcount, bnames', btypes', blib, h1, h7, ?_, h9, h11, h6, rfl⟩, ?_⟩
  · show IsLength (names.map τ.member).length bcount
    rw [List.length_map]; exact h3
  have htag : (τ.head ⟨id, name, names, types, library⟩).tag = ClassHead.tag ⟨id, name, names, types, library⟩ := by
    cases types <;> cases library <;> rfl
  rw [htag]
  exact alike_append (alike_append (alike_append (alike_append (alike_append (alike_cons (texts_refl _)) h8) (texts_refl _))
    h10) h12) (texts_refl _)

omit [Platform] in
theorem optLib_text {σ : Renaming} {E : Env} {i j : Bytes} {E' : Env} {r s k' : Bytes}
    (h : ROptLib σ true E i j E' r s) (hk : Remains τ r k') : ∃ k, OptLib (τ.env E) k (τ.env E') k' ∧ Remains τ i k := by
  cases h with
  | none a b c => exact ⟨k', .none (.inl (by rw [hk.first]; exact c rfl)), hk⟩
  | some a b c =>
    obtain ⟨b', h1, h2⟩ := library_text hτ a
    exact ⟨_, by rw [tr_addLib]; exact .some h1 (by simp [Translation.env, c]), remains_append h2 hk.texts⟩

mutual
theorem member_text {σ : Renaming} : ∀ {T : Option MemberType} {E : Env} {i j : Bytes} {slot : Slot} {E' : Env} {r s k' : Bytes},
    RMember σ true T E i j slot E' r s → Remains τ r k' →
    ∃ k, Member (T.map τ.type) (τ.env E) k (τ.slot slot) (τ.env E') k' ∧ Remains τ i k
  | _, _, _, _, _, _, _, _, _, .primitive (v := v) a b, hk =>
    let ⟨_, o, h⟩ := optLib_text hτ a (remains_append (alike_refl (by obtain ⟨_, _, _, rfl⟩ := b; simp)) hk.texts)
    ⟨_, .primitive o (show IsTypedPrimitive (τ.value v) _ by rw [tr_typedPrimitive b]; exact b), h⟩
  | _, _, _, _, _, _, _, _, _, .reference a b _, hk =>
    let ⟨_, o, h⟩ := optLib_text hτ a (remains_append (alike_refl (by obtain ⟨_, _, rfl⟩ := b; simp)) hk.texts)
    ⟨_, .reference o b, h⟩
  | _, _, _, _, _, _, _, _, _, .string a b _, hk =>
    let ⟨_, x, l⟩ := objectString_text hτ b; let ⟨_, o, h⟩ := optLib_text hτ a (remains_append l hk.texts)
    ⟨_, .string o x, h⟩
  | _, _, _, _, _, _, _, _, _, .nulls a b, hk =>
    let ⟨_, o, h⟩ := optLib_text hτ a (remains_append (alike_refl (nulls_ne_nil b)) hk.texts); ⟨_, .nulls o b, h⟩
  | _, _, _, _, _, _, _, _, _, .object a b, hk =>
    let ⟨_, x, h⟩ := class_text b hk; let ⟨_, o, h'⟩ := optLib_text hτ a h; ⟨_, .object o x, h'⟩
  | _, _, _, _, _, _, _, _, _, .typedPrimitive (t := t) (v := v) a b, hk =>
    let ⟨_, o, h⟩ := optLib_text hτ a (remains_append (alike_refl (primitive_ne_nil b)) hk.texts)
    ⟨_, .typedPrimitive o (show IsPrimitive t (τ.value v) _ by rw [tr_primitive b]; exact b), h⟩
  | _, _, _, _, _, _, _, _, _, .typedString a b _, hk =>
    let ⟨_, x, l⟩ := objectString_text hτ b; let ⟨_, o, h⟩ := optLib_text hτ a (remains_append l hk.texts)
    ⟨_, .typedString o x, h⟩
  | _, _, _, _, _, _, _, _, _, .typedObject a b, hk =>
    let ⟨_, x, h⟩ := member_text b hk; let ⟨_, o, h'⟩ := optLib_text hτ a h; ⟨_, .typedObject o x, h'⟩
  | _, _, _, _, _, _, _, _, _, .typedObjectArray a b, hk =>
    let ⟨_, x, h⟩ := member_text b hk; let ⟨_, o, h'⟩ := optLib_text hτ a h; ⟨_, .typedObjectArray o x, h'⟩
  | _, _, _, _, _, _, _, _, _, .systemClass a b, hk =>
    let ⟨_, x, h⟩ := class_text b hk; let ⟨_, o, h'⟩ := optLib_text hτ a h; ⟨_, .systemClass o x, h'⟩
  | _, _, _, _, _, _, _, _, _, .systemClassNulls a b, hk =>
    let ⟨_, o, h⟩ := optLib_text hτ a (remains_append (alike_refl (nulls_ne_nil b)) hk.texts); ⟨_, .systemClassNulls o b, h⟩
  | _, _, _, _, _, _, _, _, _, .class a l b, hk =>
    let ⟨_, x, h⟩ := class_text b hk; let ⟨_, o, h'⟩ := optLib_text hτ a h
    ⟨_, .class o (congrArg (Option.map τ.library) l) x, h'⟩
  | _, _, _, _, _, _, _, _, _, .classNulls a l b, hk =>
    let ⟨_, o, h⟩ := optLib_text hτ a (remains_append (alike_refl (nulls_ne_nil b)) hk.texts)
    ⟨_, .classNulls o (congrArg (Option.map τ.library) l) b, h⟩
  | _, _, _, _, _, _, _, _, _, .stringArrayString a b _, hk =>
    let ⟨_, x, l⟩ := objectString_text hτ b; let ⟨_, o, h⟩ := optLib_text hτ a (remains_append l hk.texts)
    ⟨_, .stringArrayString o x, h⟩
  | _, _, _, _, _, _, _, _, _, .stringArrayReference a b _, hk =>
    let ⟨_, o, h⟩ := optLib_text hτ a (remains_append (alike_refl (by obtain ⟨_, _, rfl⟩ := b; simp)) hk.texts)
    ⟨_, .stringArrayReference o b, h⟩
  | _, _, _, _, _, _, _, _, _, .stringArrayNulls a b, hk =>
    let ⟨_, o, h⟩ := optLib_text hτ a (remains_append (alike_refl (nulls_ne_nil b)) hk.texts); ⟨_, .stringArrayNulls o b, h⟩
  | _, _, _, _, _, _, _, _, _, .primitiveArray a b _, hk =>
    let ⟨_, o, h⟩ := optLib_text hτ a (remains_append (alike_refl (by obtain ⟨_, _, rfl⟩ := b; simp)) hk.texts)
    ⟨_, .primitiveArray o b, h⟩
termination_by structural _ _ _ _ _ _ _ _ _ h => h
theorem members_text {σ : Renaming} : ∀ {Ts : List (Option MemberType)} {E : Env} {i j : Bytes} {slots : List Slot} {E' : Env}
    {r s k' : Bytes}, RMembers σ true Ts E i j slots E' r s → Remains τ r k' →
    ∃ k, Members (Ts.map (Option.map τ.type)) (τ.env E) k (slots.map τ.slot) (τ.env E') k' ∧ Remains τ i k
  | _, _, _, _, _, _, _, _, _, .nil, hk => ⟨_, .nil, hk⟩
  | _, _, _, _, _, _, _, _, _, .cons a b, hk =>
    let ⟨_, y, h⟩ := members_text b hk; let ⟨_, x, h'⟩ := member_text a h; ⟨_, .cons x y, h'⟩
termination_by structural _ _ _ _ _ _ _ _ _ h => h
theorem fill_text {σ : Renaming} : ∀ {T : Option MemberType} {len : Nat} {E : Env} {i j : Bytes} {slots : List Slot} {E' : Env}
    {r s k' : Bytes}, RFill σ true T len E i j slots E' r s → Remains τ r k' →
    ∃ k, Fill (T.map τ.type) len (τ.env E) k (slots.map τ.slot) (τ.env E') k' ∧ Remains τ i k
  | _, _, _, _, _, _, _, _, _, _, .done, hk => ⟨_, .done, hk⟩
  | _, _, _, _, _, _, _, _, _, _, .step (slot := slot) l a b, hk =>
    let ⟨_, y, h⟩ := fill_text b hk; let ⟨_, x, h'⟩ := member_text a h
    ⟨_, .step l x (by rw [tr_size slot]; exact y), h'⟩
termination_by structural _ _ _ _ _ _ _ _ _ _ h => h
theorem resolve_text {σ : Renaming} : ∀ {slots : List Slot} {E : Env} {i j : Bytes} {vs : List Value} {E' : Env} {r s k' : Bytes},
    RResolve σ true slots E i j vs E' r s → Remains τ r k' →
    ∃ k, Resolve (slots.map τ.slot) (τ.env E) k (vs.map τ.value) (τ.env E') k' ∧ Remains τ i k
  | _, _, _, _, _, _, _, _, _, .nil, hk => ⟨_, .nil, hk⟩
  | _, _, _, _, _, _, _, _, _, .value a, hk => let ⟨_, x, h⟩ := resolve_text a hk; ⟨_, .value x, h⟩
  | _, _, _, _, _, _, _, _, _, .nulls a, hk =>
    let ⟨_, x, h⟩ := resolve_text a hk; ⟨_, by rw [List.map_append, List.map_replicate]; exact .nulls x, h⟩
  | _, _, _, _, _, _, _, _, _, .known e a, hk =>
    let ⟨_, x, h⟩ := resolve_text a hk
    ⟨_, .known (congrArg (Option.map τ.value) e) (by rw [← tr_drop]; exact x), h⟩
  | _, _, _, _, _, _, _, _, _, .next e a b, hk =>
    let ⟨_, y, h⟩ := resolve_text b hk; let ⟨_, x, h'⟩ := record_text a h
    ⟨_, .next (congrArg (Option.map τ.value) e) x (by rw [← tr_drop]; exact y), h'⟩
termination_by structural _ _ _ _ _ _ _ _ _ h => h
theorem class_text {σ : Renaming} : ∀ {E : Env} {i j : Bytes} {id : Nat} {name : Str} {library : Option Str}
    {ms : List (Str × Value)} {E' : Env} {r s k' : Bytes}, RClass σ true E i j id name library ms E' r s → Remains τ r k' →
    ∃ k, Spec.Class (τ.env E) k id (τ.name name) (library.map τ.library) (τ.members' ms) (τ.env E') k' ∧ Remains τ i k
  | _, _, _, _, _, _, _, _, _, _, _, .mk (h := hd) a b _ l d e, hk =>
    let ⟨_, z, h⟩ := resolve_text e hk
    let ⟨_, y, h'⟩ := members_text d h
    let ⟨_, x, like⟩ := classHead_text hτ b
    let ⟨_, o, h''⟩ := optLib_text hτ a (remains_append like h'.texts)
    ⟨_, by rw [← tr_bindNames hτ]; exact .mk (h := τ.head hd) o x (tr_hasLibrary l) (by rw [tr_memberTypes]; exact y) z, h''⟩
termination_by structural _ _ _ _ _ _ _ _ _ _ _ h => h
theorem record_text {σ : Renaming} : ∀ {E : Env} {i j : Bytes} {id : Nat} {v : Value} {E' : Env} {r s k' : Bytes},
    RRecord σ true E i j id v E' r s → Remains τ r k' →
    ∃ k, Record (τ.env E) k id (τ.value v) (τ.env E') k' ∧ Remains τ i k
  | _, _, _, _, _, _, _, _, _, .object a, hk => let ⟨_, x, h⟩ := class_text a hk; ⟨_, .object x, h⟩
  | _, _, _, _, _, _, _, _, _, .objectArray a _ b d, hk =>
    let ⟨_, z, h⟩ := resolve_text d hk
    let ⟨_, y, h'⟩ := fill_text b h
    ⟨_, by rw [tr_array]; exact .objectArray a y z, remains_append (alike_refl (by obtain ⟨_, _, _, _, rfl⟩ := a; simp)) h'.texts⟩
  | _, _, _, _, _, _, _, _, _, .primitiveArray a _ b, hk =>
    ⟨_, by rw [tr_array, tr_primitives b]; exact .primitiveArray a b,
      remains_append (alike_refl (by obtain ⟨_, _, rfl⟩ := a; simp)) hk.texts⟩
  | _, _, _, _, _, _, _, _, _, .stringArray a _ b d, hk =>
    let ⟨_, z, h⟩ := resolve_text d hk
    let ⟨_, y, h'⟩ := fill_text b h
    ⟨_, by rw [tr_array]; exact .stringArray a y z, remains_append (alike_refl (by obtain ⟨_, _, _, _, rfl⟩ := a; simp)) h'.texts⟩
  | _, _, _, _, _, _, _, _, _, .array a _ p b d e, hk =>
    let ⟨_, z, h⟩ := resolve_text d hk
    let ⟨_, y, h'⟩ := members_text b h
    let ⟨_, x, like⟩ := arrayKindHead_text hτ a
    ⟨_, by rw [tr_array]; exact .array x p (by rw [List.map_replicate] at y; exact y) z (tr_rows e), remains_append like h'.texts⟩
  | _, _, _, _, _, _, _, _, _, .string a _, hk =>
    let ⟨_, x, like⟩ := objectString_text hτ a; ⟨_, .string x, remains_append like hk.texts⟩
termination_by structural _ _ _ _ _ _ _ _ _ h => h
end

theorem records_text {σ : Renaming} {E : Env} {i j : Bytes} {E' : Env} {r s : Bytes} (h : RRecords σ true E i j E' r s) :
    ∀ {k' : Bytes}, Remains τ r k' → ∃ k, Records (τ.env E) k (τ.env E') k' ∧ Remains τ i k := by
  induction h with
  | nil => exact fun hk => ⟨_, .nil, hk⟩
  | cons a _ ih =>
    intro k' hk
    obtain ⟨_, y, h⟩ := ih hk
    obtain ⟨_, x, h'⟩ := record_text hτ a h
    exact ⟨_, .cons x (by rw [← tr_add]; exact y), h'⟩

theorem callArray_text {σ : Renaming} {root : Nat} {E : Env} {i j : Bytes} {o : Option (List Value)} {E' : Env} {r s k' : Bytes}
    (h : RCallArray σ true root E i j o E' r s) (hk : Remains τ r k') :
    ∃ k, CallArray root (τ.env E) k (o.map (List.map τ.value)) (τ.env E') k' ∧ Remains τ i k := by
  cases h with
  | some a b _ d e =>
    obtain ⟨_, z, h1⟩ := resolve_text hτ e hk
    obtain ⟨_, y, h2⟩ := fill_text hτ d h1
    obtain ⟨_, o, h3⟩ := optLib_text hτ a (remains_append (alike_refl (by obtain ⟨_, _, _, _, rfl⟩ := b; simp)) h2.texts)
    exact ⟨_, .some o b y z, h3⟩
  | none a b _ _ => exact ⟨k', .none (by rw [hk.first]; exact a) (by rw [hk.first]; exact b), hk⟩

/-! ## Method records -/

omit [Platform] in
theorem codedString_text {s : Str} {b : Bytes} (h : IsCodedString s b) : ∃ b', IsCodedString (τ.text s) b' ∧ TextsReplaced τ b b' := by
  obtain ⟨t, ht, rfl⟩ := h
  obtain ⟨b2, h2, h3⟩ := text_string hτ ht
  exact ⟨_, ⟨b2, h2, rfl⟩, .byte _ h3⟩

theorem codedValue_text {v : Value} {b : Bytes} (h : IsCodedValue v b) : ∃ b', IsCodedValue (τ.value v) b' ∧ TextsReplaced τ b b' := by
  rcases h with ⟨t, b', h, rfl⟩ | ⟨rfl, rfl⟩ | ⟨s, rfl, h⟩
  · exact ⟨_, .inl ⟨t, b', by rw [tr_primitive h]; exact h, rfl⟩, texts_refl _⟩
  · exact ⟨_, .inr (.inl ⟨rfl, rfl⟩), texts_refl _⟩
  · obtain ⟨b', h1, h2⟩ := codedString_text hτ h
    exact ⟨_, .inr (.inr ⟨_, rfl, h1⟩), h2⟩

theorem codedValueSeq_text {vs : List Value} : ∀ {b : Bytes}, IsSeq IsCodedValue vs b →
    ∃ b', IsSeq IsCodedValue (vs.map τ.value) b' ∧ TextsReplaced τ b b' := by
  induction vs with
  | nil => exact fun h => ⟨_, h, texts_refl _⟩
  | cons t ts ih =>
    intro b h
    obtain ⟨b1, b2, h1, h2, rfl⟩ := h
    obtain ⟨b3, h3, h4⟩ := codedValue_text hτ h1
    obtain ⟨b5, h5, h6⟩ := ih h2
    exact ⟨_, ⟨b3, b5, h3, h5, rfl⟩, texts_append h4 h6⟩

theorem codedValues_text {vs : List Value} {b : Bytes} (h : IsCodedValues vs b) :
    ∃ b', IsCodedValues (vs.map τ.value) b' ∧ TextsReplaced τ b b' := by
  obtain ⟨b1, b2, h1, h2, rfl⟩ := h
  obtain ⟨b3, h3, h4⟩ := codedValueSeq_text hτ h2
  exact ⟨_, ⟨b1, b3, by rw [List.length_map]; exact h1, h3, rfl⟩, texts_append (texts_refl _) h4⟩

omit [Platform] hτ in
theorem optional_text {α : Type} {R : α → Bytes → Prop} {f : α → α} (hf : ∀ {a b}, R a b → ∃ b', R (f a) b' ∧ TextsReplaced τ b b')
    {present : Bool} {o : Option α} {b : Bytes} (h : IsOptional present R o b) :
    ∃ b', IsOptional present R (o.map f) b' ∧ TextsReplaced τ b b' := by
  rcases h with ⟨hp, a, rfl, h⟩ | ⟨hp, rfl, rfl⟩
  · obtain ⟨b', h1, h2⟩ := hf h
    exact ⟨_, .inl ⟨hp, _, rfl, h1⟩, h2⟩
  · exact ⟨_, .inr ⟨hp, rfl, rfl⟩, texts_refl _⟩

theorem methodCall_text {f : BitVec 32} {name type : Str} {context : Option Str} {inline : Option (List Value)} {b : Bytes}
    (h : IsMethodCall f name type context inline b) :
    ∃ b', IsMethodCall f (τ.text name) (τ.text type) (context.map τ.text) (inline.map (List.map τ.value)) b' ∧ Alike τ b b' := by
  obtain ⟨bf, bn, bt, bc, ba, h1, h2, h3, h4, h5, rfl⟩ := h
  obtain ⟨bn', a2, r2⟩ := codedString_text hτ h2
  obtain ⟨bt', a3, r3⟩ := codedString_text hτ h3
  obtain ⟨bc', a4, r4⟩ := optional_text (codedString_text hτ) h4
  obtain ⟨ba', a5, r5⟩ := optional_text (codedValues_text hτ) h5
  exact ⟨_, ⟨bf, bn', bt', bc', ba', h1, a2, a3, a4, a5, rfl⟩,
    alike_append (alike_append (alike_append (alike_append (alike_cons (texts_refl _)) r2) r3) r4) r5⟩

theorem methodReturn_text {f : BitVec 32} {value : Option Value} {context : Option Str} {inline : Option (List Value)} {b : Bytes}
    (h : IsMethodReturn f value context inline b) :
    ∃ b', IsMethodReturn f (value.map τ.value) (context.map τ.text) (inline.map (List.map τ.value)) b' ∧ Alike τ b b' := by
  obtain ⟨bf, bv, bc, ba, h1, h2, h4, h5, rfl⟩ := h
  obtain ⟨bv', a2, r2⟩ := optional_text (codedValue_text hτ) h2
  obtain ⟨bc', a4, r4⟩ := optional_text (codedString_text hτ) h4
  obtain ⟨ba', a5, r5⟩ := optional_text (codedValues_text hτ) h5
  exact ⟨_, ⟨bf, bv', bc', ba', h1, a2, a4, a5, rfl⟩,
    alike_append (alike_append (alike_append (alike_cons (texts_refl _)) r2) r4) r5⟩

omit [Platform] hτ in
theorem argsFrom_text {f : BitVec 32} {c i a : Option (List Value)} (h : ArgsFrom f c i a) :
    ArgsFrom f (c.map (List.map τ.value)) (i.map (List.map τ.value)) (a.map (List.map τ.value)) := by
  rcases h with ⟨h1, vs, rfl, rfl⟩ | ⟨h1, h2, vs, rest, rfl, rfl⟩ | ⟨h1, h2, rfl⟩
  · exact .inl ⟨h1, _, rfl, rfl⟩
  · exact .inr (.inl ⟨h1, h2, vs.map τ.value, rest.map τ.value, by rw [← tr_array]; rfl, rfl⟩)
  · exact .inr (.inr ⟨h1, h2, rfl⟩)

omit [Platform] hτ in
theorem rootValue_text {root : Nat} {E : Env} {v : Value} (h : RootValue root E v) : RootValue root (τ.env E) (τ.value v) := by
  rcases h with ⟨h, rfl⟩ | ⟨h, e⟩
  · exact .inl ⟨h, rfl⟩
  · exact .inr ⟨h, congrArg (Option.map τ.value) e⟩

/-! ## Messages -/

/-- **C90** A (strict) message with its texts translated is a message, and its content is the translated content. -/
theorem C90_grammar {σ : Renaming} {w w1 : Bytes} {m : RemotingMessage} (h : Renamed σ true w w1 m) :
    ∃ w', TextsReplaced τ w w' ∧ Message w' (τ.message m) := by
  obtain ⟨hh, _, a, t⟩ := h
  cases t with
  | value v =>
    obtain ⟨_, x, r⟩ := records_text hτ a (k' := [11]) ⟨texts_refl _, rfl⟩
    exact ⟨_, texts_append (texts_refl _) r.texts, .mk hh x (.value (rootValue_text v))⟩
  | method b d =>
    obtain ⟨_, y, r⟩ := records_text hτ d (k' := [11]) ⟨texts_refl _, rfl⟩
    cases b with
    | call f g k args =>
      obtain ⟨_, z, r2⟩ := callArray_text hτ k r
      obtain ⟨_, g', like⟩ := methodCall_text hτ g
      obtain ⟨_, x, r3⟩ := records_text hτ a (remains_append like r2.texts)
      exact ⟨_, texts_append (texts_refl _) r3.texts, .mk hh x (.method (.call f g' z (argsFrom_text args)) y)⟩
    | «return» f g k args =>
      obtain ⟨_, z, r2⟩ := callArray_text hτ k r
      obtain ⟨_, g', like⟩ := methodReturn_text hτ g
      obtain ⟨_, x, r3⟩ := records_text hτ a (remains_append like r2.texts)
      exact ⟨_, texts_append (texts_refl _) r3.texts, .mk hh x (.method (.return f g' z (argsFrom_text args)) y)⟩

/-- **C90** The parser does not look into texts.  Take any message in which byte 12 stands only where a library record begins, and
any translation of its strings, class names, member names and library names that keeps different member names different: there is the
message with the texts replaced, and it is parsed to the translated content. -/
theorem C90 {w : Bytes} {m : RemotingMessage} (h : Message w m) (hc : Clear true w) :
    ∃ w', TextsReplaced τ w w' ∧ deserialize w = .ok m ∧ deserialize w' = .ok (τ.message m) := by
  obtain ⟨w', h1, h2⟩ := C90_grammar hτ (C89_every h hc)
  exact ⟨w', h1, C31_complete h, C31_complete h2⟩

/-- **C90** The same for whatever a writer writes, bytes 12 at any place included. -/
theorem C90_written {m : RemotingMessage} {w : Bytes} (h : Written m w) :
    ∃ w', TextsReplaced τ w w' ∧ deserialize w = .ok m ∧ deserialize w' = .ok (τ.message m) := by
  have hs := Strict.written_strict h
  obtain ⟨w', h1, h2⟩ := C90_grammar hτ hs
  exact ⟨w', h1, C31_complete (C89_left hs), C31_complete h2⟩

omit hτ

/-! ## Examples -/

/-- Exchanges two texts. -/
def swapText (a b : Str) : Str → Str := fun s => if s = a then b else if s = b then a else s

omit [Platform] in
theorem swapText_keeps {a b : Str} (ha : StorableString a) (hb : StorableString b) : Translation.Keeps (swapText a b) := by
  intro s h1 h2
  simp only [swapText]
  split
  · exact hb
  · split
    · exact ha
    · exact ⟨h1, h2⟩

omit [Platform] in
theorem swapText_inj {a b x y : Str} (h : swapText a b x = swapText a b y) : x = y := by
  simp only [swapText] at h
  split at h <;> split at h <;> (try split at h) <;> (try split at h) <;> simp_all

/-- The translation that exchanges two texts wherever they occur. -/
def swapTexts (a b : Str) : Translation := ⟨swapText a b, swapText a b, swapText a b, swapText a b⟩

omit [Platform] in
theorem swapTexts_good {a b : Str} (ha : StorableString a) (hb : StorableString b) : (swapTexts a b).Good :=
  ⟨swapText_keeps ha hb, swapText_keeps ha hb, swapText_keeps ha hb, swapText_keeps ha hb, fun _ _ h => swapText_inj h⟩

/-- `C90` is not vacuous: a text of a message can be replaced by a longer one. -/
example : ∃ w', TextsReplaced (swapTexts [120] [122, 122, 122]) (twoStrings 2 3) w' ∧
    deserialize w' = .ok (.value (.array [.string [122, 122, 122], .string [121]])) := by
  obtain ⟨w', h1, -, h2⟩ := C90 (τ := swapTexts [120] [122, 122, 122])
    (swapTexts_good ⟨⟨['x'], rfl⟩, by decide⟩ ⟨⟨['z', 'z', 'z'], rfl⟩, by decide⟩)
    (C89_left twoStrings_renamed) (fun _ q hq e => by
      have h12 : (12 : UInt8) ∈ twoStrings 2 3 := by
        cases q with
        | nil => simp at e
        | cons x q =>
          simp only [List.head?_cons, Option.some.injEq] at e
          exact hq.subset (by rw [e]; exact List.mem_cons_self)
      exact absurd h12 (by decide))
  exact ⟨w', h1, h2⟩

/-- Every message that can be stored at all (C57) is written in a way that can be translated. -/
example {m : RemotingMessage} (hm : Writable m) (hτ : τ.Good) :
    ∃ w', TextsReplaced τ (write m) w' ∧ deserialize w' = .ok (τ.message m) :=
  let ⟨w', h1, _, h2⟩ := C90_written hτ (C71_write m hm)
  ⟨w', h1, h2⟩

/-- An object with a Byte member, which is 12, and a String member with the text `s`, whose id ends with 127. -/
def twelveThen (s : Str) : Bytes :=
  Tests.header 1 ++ [4, 1,0,0,0, 1,65, 2,0,0,0, 1,97, 1,98, 0, 1, 2, 12, 6, 2,0,0,127] ++ string s ++ [11]

/-- **C90** The exception is real: if a bare primitive member starts with byte 12, the length of a text that follows can decide whether
it is taken for a library. -/
theorem C90_exception :
    deserialize (twelveThen [120]) = .ok (.value (.object [65] none [([97], .byte 12), ([98], .string [120])])) ∧
    ∃ e, deserialize (twelveThen (List.replicate 126 120)) = .err e := by
  constructor
  · platform_decide
  · have key : ∀ o : ApiResult RemotingMessage, (match o with
        | .err _ => true
        | _ => false) = true → ∃ e, o = .err e := by
      intro o h
      cases o with
      | err e => exact ⟨e, rfl⟩
      | _ => cases h
    exact key _ (by platform_decide)

/-- An object with two Byte members, 1 and 2, of the given names. -/
def twoMembers (a b : UInt8) : Bytes :=
  Tests.header 1 ++ [4, 1,0,0,0, 1,65, 2,0,0,0, 1,a, 1,b, 0, 0, 2, 2, 1, 2, 11]

/-- **C90** So is the condition on member names: if two of them fall together, a value is lost. -/
theorem C90_members : deserialize (twoMembers 97 98) = .ok (.value (.object [65] none [([97], .byte 1), ([98], .byte 2)])) ∧
    deserialize (twoMembers 97 97) = .ok (.value (.object [65] none [([97], .byte 2)])) := by
  constructor <;> platform_decide

end Nrbf
