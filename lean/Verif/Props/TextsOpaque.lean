import Verif.Spec.TextsOpaque
import Verif.Props.Texts
import Verif.Props.Evolve
import Verif.Props.SerdeReport
import Verif.Props.SerdeExact
import Verif.Props.Write

/-! # C92: `from_slice` does not look into texts -/

set_option autoImplicit false

namespace Nrbf

open Spec

/-- Which texts stand for which. -/
structure TextPairs where
  text : Str → Str → Prop
  name : Str → Str → Prop
  member : Str → Str → Prop

namespace TextPairs

/-- Nothing the serde layer can see differs. -/
structure Fair (ρ : TextPairs) : Prop where
  text : ∀ s s', ρ.text s s' → ∀ c : Char, s = String.utf8EncodeChar c ↔ s' = String.utf8EncodeChar c
  one : ∀ c : Char, ρ.text (String.utf8EncodeChar c) (String.utf8EncodeChar c)
  name : ∀ s s', ρ.name s s' → s.takeWhile (· ≠ 96) = s'.takeWhile (· ≠ 96) ∨
    (s.takeWhile (· ≠ 96) ∉ systemClasses ∧ s'.takeWhile (· ≠ 96) ∉ systemClasses)
  member : ∀ a b a' b', ρ.member a b → ρ.member a' b' → (a = a' ↔ b = b')
  special : ∀ k ∈ specialMembers, ∀ a b, ρ.member a b → (a = k ↔ b = k)

/-- The other way round. -/
def flip (ρ : TextPairs) : TextPairs := ⟨fun a b => ρ.text b a, fun a b => ρ.name b a, fun a b => ρ.member b a⟩

theorem Fair.flip {ρ : TextPairs} (h : ρ.Fair) : ρ.flip.Fair where
  text := fun s s' hs c => (h.text s' s hs c).symm
  one := h.one
  name := fun s s' hs => (h.name s' s hs).imp Eq.symm And.symm
  member := fun a b a' b' h1 h2 => (h.member b a b' a' h1 h2).symm
  special := fun k hk a b hab => (h.special k hk b a hab).symm

/-- A text and its translation. -/
def of (τ : Translation) : TextPairs := ⟨fun a b => b = τ.text a, fun a b => b = τ.name a, fun a b => b = τ.member a⟩

theorem of_fair {τ : Translation} (h : τ.Transparent) : (of τ).Fair where
  text := by rintro s _ rfl c; exact (h.text s c).symm
  one := fun c => ((h.text _ c).mpr rfl).symm
  name := by rintro s _ rfl; exact (h.name s).imp Eq.symm id
  member := by
    rintro a _ a' _ rfl rfl
    exact ⟨fun e => by rw [e], h.member_inj a a'⟩
  special := by
    rintro k hk a _ rfl
    constructor
    · rintro rfl; exact h.special _ hk
    · intro e; exact h.member_inj _ _ (e.trans (h.special k hk).symm)

end TextPairs

section
variable [Platform] (ρ : TextPairs)

mutual
/-- Values that differ in their texts. -/
inductive TwinValue : Value → Value → Prop
  | leaf {v : Value} : IsLeaf v → (∀ s, v ≠ .string s) → (∀ x, v ≠ .decimal x) → TwinValue v v
  | string {s s' : Str} : ρ.text s s' → TwinValue (.string s) (.string s')
  | decimal {x : Dec} : ρ.text (Platform.decimalToStr x) (Platform.decimalToStr x) → TwinValue (.decimal x) (.decimal x)
  | array {vs vs' : List Value} : TwinValues vs vs' → TwinValue (.array vs) (.array vs')
  | object {c c' : Str} {l l' : Option Str} {ms ms' : List (Str × Value)} : ρ.name c c' → (l = none ↔ l' = none) →
      TwinMembers ms ms' → TwinValue (.object c l ms) (.object c' l' ms')
/-- Item by item. -/
inductive TwinValues : List Value → List Value → Prop
  | nil : TwinValues [] []
  | cons {v v' : Value} {vs vs' : List Value} : TwinValue v v' → TwinValues vs vs' → TwinValues (v :: vs) (v' :: vs')
/-- Member by member. -/
inductive TwinMembers : List (Str × Value) → List (Str × Value) → Prop
  | nil : TwinMembers [] []
  | cons {k k' : Str} {v v' : Value} {ms ms' : List (Str × Value)} : ρ.member k k' → TwinValue v v' → TwinMembers ms ms' →
      TwinMembers ((k, v) :: ms) ((k', v') :: ms')
end
end

/-- Types without parts. -/
def Plain : Ty → Prop
  | .option _ | .vec _ | .tuple _ | .map _ | .struct _ | .newtype _ => False
  | _ => True

section
variable (ρ : TextPairs)

mutual
/-- Types that differ in the names of fields. -/
inductive TwinTy : Ty → Ty → Prop
  | plain {T : Ty} : Plain T → TwinTy T T
  | option {T T' : Ty} : TwinTy T T' → TwinTy (.option T) (.option T')
  | vec {T T' : Ty} : TwinTy T T' → TwinTy (.vec T) (.vec T')
  | tuple {Ts Ts' : List Ty} : TwinTys Ts Ts' → TwinTy (.tuple Ts) (.tuple Ts')
  | map {T T' : Ty} : TwinTy T T' → TwinTy (.map T) (.map T')
  | struct {fs fs' : List (Str × Ty)} : TwinFields fs fs' → TwinTy (.struct fs) (.struct fs')
  | newtype {T T' : Ty} : TwinTy T T' → TwinTy (.newtype T) (.newtype T')
/-- Component by component. -/
inductive TwinTys : List Ty → List Ty → Prop
  | nil : TwinTys [] []
  | cons {T T' : Ty} {Ts Ts' : List Ty} : TwinTy T T' → TwinTys Ts Ts' → TwinTys (T :: Ts) (T' :: Ts')
/-- Field by field. -/
inductive TwinFields : List (Str × Ty) → List (Str × Ty) → Prop
  | nil : TwinFields [] []
  | cons {k k' : Str} {T T' : Ty} {fs fs' : List (Str × Ty)} : ρ.member k k' → TwinTy T T' → TwinFields fs fs' →
      TwinFields ((k, T) :: fs) ((k', T') :: fs')
end

mutual
/-- Rust values that differ in their texts. -/
inductive TwinDyn : Dyn → Dyn → Prop
  | bool (b : Bool) : TwinDyn (.bool b) (.bool b)
  | int (n : Int) : TwinDyn (.int n) (.int n)
  | f32 (b : Nat) : TwinDyn (.f32 b) (.f32 b)
  | f64 (b : Nat) : TwinDyn (.f64 b) (.f64 b)
  | char (c : Nat) : TwinDyn (.char c) (.char c)
  | str {s s' : Str} : ρ.text s s' → TwinDyn (.str s) (.str s')
  | unit : TwinDyn .unit .unit
  | none : TwinDyn .none .none
  | ignored : TwinDyn .ignored .ignored
  | some {d d' : Dyn} : TwinDyn d d' → TwinDyn (.some d) (.some d')
  | newtype {d d' : Dyn} : TwinDyn d d' → TwinDyn (.newtype d) (.newtype d')
  | seq {ds ds' : List Dyn} : TwinDyns ds ds' → TwinDyn (.seq ds) (.seq ds')
  | tuple {ds ds' : List Dyn} : TwinDyns ds ds' → TwinDyn (.tuple ds) (.tuple ds')
  | map {ds ds' : List (Str × Dyn)} : TwinEntries ds ds' → TwinDyn (.map ds) (.map ds')
  | struct {ds ds' : List (Str × Dyn)} : TwinEntries ds ds' → TwinDyn (.struct ds) (.struct ds')
/-- Item by item. -/
inductive TwinDyns : List Dyn → List Dyn → Prop
  | nil : TwinDyns [] []
  | cons {d d' : Dyn} {ds ds' : List Dyn} : TwinDyn d d' → TwinDyns ds ds' → TwinDyns (d :: ds) (d' :: ds')
/-- Entry by entry. -/
inductive TwinEntries : List (Str × Dyn) → List (Str × Dyn) → Prop
  | nil : TwinEntries [] []
  | cons {k k' : Str} {d d' : Dyn} {ds ds' : List (Str × Dyn)} : ρ.member k k' → TwinDyn d d' → TwinEntries ds ds' →
      TwinEntries ((k, d) :: ds) ((k', d') :: ds')
end
end

variable {ρ : TextPairs}

/-! ## Values -/

section
variable [Platform]

mutual
theorem TwinValue.flip : ∀ {v v' : Value}, TwinValue ρ v v' → TwinValue ρ.flip v' v
  | _, _, .leaf a b c => .leaf a b c
  | _, _, .string a => .string a
  | _, _, .decimal a => .decimal a
  | _, _, .array a => .array a.flip
  | _, _, .object a b c => .object a b.symm c.flip
theorem TwinValues.flip : ∀ {v v' : List Value}, TwinValues ρ v v' → TwinValues ρ.flip v' v
  | _, _, .nil => .nil
  | _, _, .cons a b => .cons a.flip b.flip
theorem TwinMembers.flip : ∀ {v v' : List (Str × Value)}, TwinMembers ρ v v' → TwinMembers ρ.flip v' v
  | _, _, .nil => .nil
  | _, _, .cons a b c => .cons a b.flip c.flip
end

theorem TwinValues.length {vs vs' : List Value} (h : TwinValues ρ vs vs') : vs.length = vs'.length := by
  induction vs generalizing vs' with
  | nil => cases h; rfl
  | cons v vs ih => cases h with | cons _ h => simp [ih h]

theorem TwinValues.take {vs vs' : List Value} (h : TwinValues ρ vs vs') (n : Nat) : TwinValues ρ (vs.take n) (vs'.take n) := by
  induction n generalizing vs vs' with
  | zero => simpa using .nil
  | succ n ih =>
    cases h with
    | nil => simpa using .nil
    | cons a b => simpa using .cons a (ih b)

theorem TwinMembers.length {ms ms' : List (Str × Value)} (h : TwinMembers ρ ms ms') : ms.length = ms'.length := by
  induction ms generalizing ms' with
  | nil => cases h; rfl
  | cons v vs ih => cases h with | cons _ _ h => simp [ih h]

theorem TwinMembers.find {ms ms' : List (Str × Value)} (h : TwinMembers ρ ms ms') {k : Str} {v : Value} (hm : (k, v) ∈ ms) :
    ∃ k' v', (k', v') ∈ ms' ∧ ρ.member k k' ∧ TwinValue ρ v v' := by
  induction ms generalizing ms' with
  | nil => simp at hm
  | cons m ms ih =>
    cases h with
    | cons a b c =>
      rcases List.mem_cons.mp hm with e | hm
      · cases e; exact ⟨_, _, List.mem_cons_self, a, b⟩
      · obtain ⟨k', v', h1, h2, h3⟩ := ih c hm
        exact ⟨k', v', List.mem_cons_of_mem _ h1, h2, h3⟩

theorem TwinMembers.back {ms ms' : List (Str × Value)} (h : TwinMembers ρ ms ms') {k' : Str} {v' : Value} (hm : (k', v') ∈ ms') :
    ∃ k v, (k, v) ∈ ms ∧ ρ.member k k' ∧ TwinValue ρ v v' := by
  obtain ⟨k, v, h1, h2, h3⟩ := h.flip.find hm
  exact ⟨k, v, h1, h2, h3.flip⟩

theorem TwinMembers.special (hρ : ρ.Fair) {ms ms' : List (Str × Value)} (h : TwinMembers ρ ms ms') {k : Str} {v : Value}
    (hk : k ∈ specialMembers) (hm : (k, v) ∈ ms) : ∃ v', (k, v') ∈ ms' ∧ TwinValue ρ v v' := by
  obtain ⟨k', v', h1, h2, h3⟩ := h.find hm
  obtain rfl := (hρ.special k hk k k' h2).mp rfl
  exact ⟨v', h1, h3⟩

theorem TwinMembers.nodup (hρ : ρ.Fair) {ms ms' : List (Str × Value)} (h : TwinMembers ρ ms ms')
    (hn : (ms.map Prod.fst).Nodup) : (ms'.map Prod.fst).Nodup := by
  induction ms generalizing ms' with
  | nil => cases h; simp
  | cons m ms ih =>
    cases h with
    | cons a b c =>
      rw [List.map_cons, List.nodup_cons] at hn ⊢
      refine ⟨?_, ih c hn.2⟩
      intro hm
      obtain ⟨⟨k', v'⟩, h1, rfl⟩ := List.mem_map.mp hm
      obtain ⟨k, v, h2, h3, -⟩ := c.back h1
      have e := (hρ.member _ _ _ _ a h3).mpr rfl
      subst e
      exact hn.1 (List.mem_map.mpr ⟨_, h2, rfl⟩)

/-- Leaves without text. -/
def Textless : Value → Prop
  | .object .. | .array _ | .string _ | .decimal _ => False
  | _ => True

theorem TwinValue.of_textless {v v' : Value} (h : TwinValue ρ v v') (hl : Textless v) : v' = v := by
  cases h <;> first | rfl | exact hl.elim

omit [Platform] in
theorem textless_integer {v : Value} {n : Int} (h : v.integer? = some n) : Textless v := by
  cases v <;> first | trivial | cases h

theorem TwinValue.refl_textless {v : Value} (h : Textless v) : TwinValue ρ v v := by
  refine .leaf ?_ ?_ ?_
  · cases v <;> first | trivial | exact h.elim
  · rintro s rfl; exact h.elim
  · rintro s rfl; exact h.elim

theorem TwinValue.of_string {s : Str} {v' : Value} (h : TwinValue ρ (.string s) v') : ∃ s', v' = .string s' ∧ ρ.text s s' := by
  cases h with
  | leaf _ h _ => exact absurd rfl (h s)
  | string h => exact ⟨_, rfl, h⟩

theorem TwinValue.of_decimal {x : Dec} {v' : Value} (h : TwinValue ρ (.decimal x) v') :
    v' = .decimal x ∧ ρ.text (Platform.decimalToStr x) (Platform.decimalToStr x) := by
  cases h with
  | leaf _ _ h => exact absurd rfl (h x)
  | decimal h => exact ⟨rfl, h⟩

theorem TwinValue.of_array {vs : List Value} {v' : Value} (h : TwinValue ρ (.array vs) v') :
    ∃ vs', v' = .array vs' ∧ TwinValues ρ vs vs' := by
  cases h with
  | leaf h => exact h.elim
  | array h => exact ⟨_, rfl, h⟩

theorem TwinValue.of_object {c : Str} {l : Option Str} {ms : List (Str × Value)} {v' : Value}
    (h : TwinValue ρ (.object c l ms) v') :
    ∃ c' l' ms', v' = .object c' l' ms' ∧ ρ.name c c' ∧ (l = none ↔ l' = none) ∧ TwinMembers ρ ms ms' := by
  cases h with
  | leaf h => exact h.elim
  | object a b c => exact ⟨_, _, _, rfl, a, b, c⟩

theorem TwinValue.leaf_iff {v v' : Value} (h : TwinValue ρ v v') (hl : IsLeaf v) : IsLeaf v' := by
  cases h <;> first | trivial | assumption | exact hl.elim

theorem TwinValue.ne_null {v v' : Value} (h : TwinValue ρ v v') (hl : v ≠ .null) : v' ≠ .null := by
  cases h <;> first | exact hl | exact fun e => Value.noConfusion e

omit [Platform] in
theorem TextPairs.Fair.plain (hρ : ρ.Fair) {c c' : Str} {l l' : Option Str} (hc : ρ.name c c') (hl : l = none ↔ l' = none)
    (h : PlainObject c l) : PlainObject c' l' := by
  rcases h with h | h
  · exact .inl fun e => h (hl.mpr e)
  · refine .inr ?_
    rcases hρ.name _ _ hc with e | ⟨-, e⟩
    · rwa [← e]
    · exact e

omit [Platform] in
theorem TextPairs.Fair.system (hρ : ρ.Fair) {c c' : Str} (hc : ρ.name c c') (h : c.takeWhile (· ≠ 96) ∈ systemClasses) :
    c'.takeWhile (· ≠ 96) = c.takeWhile (· ≠ 96) := by
  rcases hρ.name _ _ hc with e | ⟨e, -⟩
  · exact e.symm
  · exact absurd h e

theorem IsList.twin (hρ : ρ.Fair) {v v' : Value} {items : List Value} {size : Int} (h : IsList v items size)
    (ha : TwinValue ρ v v') : ∃ items', IsList v' items' size ∧ TwinValues ρ items items' := by
  obtain ⟨cls, ms, version, rfl, h1, h2, h3, h4, h5, h6⟩ := h
  obtain ⟨c', l', ms', rfl, hc, hl, ho⟩ := ha.of_object
  obtain rfl := hl.mp rfl
  obtain ⟨a, ha1, ha2⟩ := ho.special hρ (by simp [specialMembers]) h4
  obtain ⟨b, hb1, hb2⟩ := ho.special hρ (by simp [specialMembers]) h5
  obtain ⟨c, hc1, hc2⟩ := ho.special hρ (by simp [specialMembers]) h6
  obtain ⟨items', rfl, hi⟩ := ha2.of_array
  cases hb2.of_textless trivial
  cases hc2.of_textless trivial
  refine ⟨items', ⟨c', ms', version, rfl, ?_, ho.length ▸ h2, ho.nodup hρ h3, ha1, hb1, hc1⟩, hi⟩
  rw [hρ.system hc (by rw [h1]; simp [systemClasses]), h1]

theorem Elements.twin (hρ : ρ.Fair) {slack : Nat} {v v' : Value} {vs : List Value} (h : Elements slack v vs)
    (ha : TwinValue ρ v v') : ∃ vs', Elements slack v' vs' ∧ TwinValues ρ vs vs' := by
  cases h with
  | array =>
    obtain ⟨vs', rfl, h⟩ := ha.of_array
    exact ⟨vs', .array _, h⟩
  | @list _ items size hl hs =>
    obtain ⟨items', h1, h2⟩ := hl.twin hρ ha
    refine ⟨items'.take size, .list h1 ?_, h2.take size⟩
    have := h2.length
    omega

theorem TwinValues.find {vs vs' : List Value} (h : TwinValues ρ vs vs') {v : Value} (hm : v ∈ vs) :
    ∃ v' ∈ vs', TwinValue ρ v v' := by
  induction vs generalizing vs' with
  | nil => simp at hm
  | cons m ms ih =>
    cases h with
    | cons a b =>
      rcases List.mem_cons.mp hm with e | hm
      · cases e; exact ⟨_, List.mem_cons_self, a⟩
      · obtain ⟨v', h1, h2⟩ := ih b hm
        exact ⟨v', List.mem_cons_of_mem _ h1, h2⟩

theorem TwinValue.sub {u v v' : Value} (h : TwinValue ρ v v') (hu : SubValue u v) : ∃ u', SubValue u' v' ∧ TwinValue ρ u u' := by
  induction hu generalizing v' with
  | refl => exact ⟨v', .refl _, h⟩
  | item hm _ ih =>
    obtain ⟨vs', rfl, hv⟩ := h.of_array
    obtain ⟨w, h1, h2⟩ := hv.find hm
    obtain ⟨u', h3, h4⟩ := ih h2
    exact ⟨u', .item h1 h3, h4⟩
  | member hm _ ih =>
    obtain ⟨c', l', ms', rfl, -, -, hv⟩ := h.of_object
    obtain ⟨k', w, h1, -, h2⟩ := hv.find hm
    obtain ⟨u', h3, h4⟩ := ih h2
    exact ⟨u', .member h1 h3, h4⟩
end

/-! ## Types and results -/

mutual
theorem TwinTy.flip : ∀ {v v' : Ty}, TwinTy ρ v v' → TwinTy ρ.flip v' v
  | _, _, .plain a => .plain a
  | _, _, .option a => .option a.flip
  | _, _, .vec a => .vec a.flip
  | _, _, .tuple a => .tuple a.flip
  | _, _, .map a => .map a.flip
  | _, _, .struct a => .struct a.flip
  | _, _, .newtype a => .newtype a.flip
theorem TwinTys.flip : ∀ {v v' : List Ty}, TwinTys ρ v v' → TwinTys ρ.flip v' v
  | _, _, .nil => .nil
  | _, _, .cons a b => .cons a.flip b.flip
theorem TwinFields.flip : ∀ {v v' : List (Str × Ty)}, TwinFields ρ v v' → TwinFields ρ.flip v' v
  | _, _, .nil => .nil
  | _, _, .cons a b c => .cons a b.flip c.flip
end

theorem TwinTy.of_plain {T T' : Ty} (h : TwinTy ρ T T') (hp : Plain T) : T' = T := by
  cases h <;> first | rfl | exact hp.elim

theorem TwinFields.snds {fs fs' : List (Str × Ty)} (h : TwinFields ρ fs fs') :
    TwinTys ρ (fs.map Prod.snd) (fs'.map Prod.snd) := by
  induction fs generalizing fs' with
  | nil => cases h; exact .nil
  | cons v vs ih => cases h with | cons _ a h => exact .cons a (ih h)

theorem TwinFields.find {ms ms' : List (Str × Ty)} (h : TwinFields ρ ms ms') {k : Str} (hm : k ∈ ms.map Prod.fst) :
    ∃ k', k' ∈ ms'.map Prod.fst ∧ ρ.member k k' := by
  induction ms generalizing ms' with
  | nil => simp at hm
  | cons m ms ih =>
    cases h with
    | cons a b c =>
      rw [List.map_cons] at hm ⊢
      rcases List.mem_cons.mp hm with e | hm
      · cases e; exact ⟨_, List.mem_cons_self, a⟩
      · obtain ⟨k', h1, h2⟩ := ih c hm
        exact ⟨k', List.mem_cons_of_mem _ h1, h2⟩

theorem TwinFields.zip {fs fs' : List (Str × Ty)} {ds ds' : List Dyn} (h : TwinFields ρ fs fs') (hd : TwinDyns ρ ds ds') :
    TwinEntries ρ ((fs.map Prod.fst).zip ds) ((fs'.map Prod.fst).zip ds') := by
  induction fs generalizing fs' ds ds' with
  | nil => cases h; exact .nil
  | cons v vs ih =>
    cases h with
    | cons a _ h =>
      cases hd with
      | nil => exact .nil
      | cons b hd => exact .cons a b (ih h hd)

/-! ## Deserialising -/

section
variable [Platform]

omit [Platform] in
theorem BoxedPrim.plainTy {name : Str} {P : Ty} {x : Dyn} {s : Value} (h : BoxedPrim name P x s) : Plain P := by
  cases h <;> exact trivial

/-- What is boxed has no text, and neither has what it is read as. -/
theorem BoxedPrim.twin {name : Str} {P : Ty} {x x' : Dyn} {s : Value} (h : BoxedPrim name P x s) (hx : TwinDyn ρ x x') :
    x' = x ∧ Plain P ∧ Textless s ∧ name ∈ systemClasses := by
  cases h <;> (cases hx; exact ⟨rfl, trivial, trivial, by simp [systemClasses]⟩)

theorem asIs_twin [FloatLib] (hρ : ρ.Fair) {v v' : Value} {d : Dyn} (h : v.asIs = some d) (ha : TwinValue ρ v v') :
    ∃ d', Decodes v' .any d' ∧ TwinDyn ρ d d' := by
  cases v with
  | string s =>
    obtain ⟨s', rfl, hs⟩ := ha.of_string
    cases h
    exact ⟨_, .anyLeaf rfl, .str hs⟩
  | decimal x =>
    obtain ⟨rfl, hs⟩ := ha.of_decimal
    cases h
    exact ⟨_, .anyLeaf rfl, .str hs⟩
  | object => cases h
  | array => cases h
  | _ =>
    cases ha.of_textless trivial
    refine ⟨d, .anyLeaf h, ?_⟩
    cases h
    constructor

variable [FloatLib]

mutual
/-- Values that differ in texts are read as values that differ in texts. -/
theorem decodes_twin (hρ : ρ.Fair) {v v' : Value} {T T' : Ty} {d : Dyn} :
    Decodes v T d → TwinValue ρ v v' → TwinTy ρ T T' → ∃ d', Decodes v' T' d' ∧ TwinDyn ρ d d'
  | .bool b, ha, ht => by rw [ha.of_textless trivial, ht.of_plain trivial]; exact ⟨_, .bool b, .bool b⟩
  | .int h1 h2 h3, ha, ht => by
    rw [ha.of_textless (textless_integer h1), ht.of_plain trivial]; exact ⟨_, .int h1 h2 h3, .int _⟩
  | .f32 b, ha, ht => by rw [ha.of_textless trivial, ht.of_plain trivial]; exact ⟨_, .f32 b, .f32 _⟩
  | .f32OfDouble b, ha, ht => by rw [ha.of_textless trivial, ht.of_plain trivial]; exact ⟨_, .f32OfDouble b, .f32 _⟩
  | .f32OfInteger h, ha, ht => by
    rw [ha.of_textless (textless_integer h), ht.of_plain trivial]; exact ⟨_, .f32OfInteger h, .f32 _⟩
  | .f64 b, ha, ht => by rw [ha.of_textless trivial, ht.of_plain trivial]; exact ⟨_, .f64 b, .f64 _⟩
  | .f64OfSingle b, ha, ht => by rw [ha.of_textless trivial, ht.of_plain trivial]; exact ⟨_, .f64OfSingle b, .f64 _⟩
  | .f64OfInteger h, ha, ht => by
    rw [ha.of_textless (textless_integer h), ht.of_plain trivial]; exact ⟨_, .f64OfInteger h, .f64 _⟩
  | .char c, ha, ht => by rw [ha.of_textless trivial, ht.of_plain trivial]; exact ⟨_, .char c, .char _⟩
  | .charOfString c, ha, ht => by
    obtain ⟨s', rfl, hs⟩ := ha.of_string
    rw [(hρ.text _ _ hs c).mp rfl, ht.of_plain trivial]
    exact ⟨_, .charOfString c, .char _⟩
  | .charOfDecimal x c h, ha, ht => by
    obtain ⟨rfl, hs⟩ := ha.of_decimal
    rw [ht.of_plain trivial]
    exact ⟨_, .charOfDecimal x c h, .char _⟩
  | .str s, ha, ht => by
    obtain ⟨s', rfl, hs⟩ := ha.of_string
    rw [ht.of_plain trivial]
    exact ⟨_, .str s', .str hs⟩
  | .string s, ha, ht => by
    obtain ⟨s', rfl, hs⟩ := ha.of_string
    rw [ht.of_plain trivial]
    exact ⟨_, .string s', .str hs⟩
  | .stringOfDecimal x, ha, ht => by
    obtain ⟨rfl, hs⟩ := ha.of_decimal
    rw [ht.of_plain trivial]
    exact ⟨_, .stringOfDecimal x, .str hs⟩
  | .stringOfChar c, ha, ht => by
    rw [ha.of_textless trivial, ht.of_plain trivial]; exact ⟨_, .stringOfChar c, .str (hρ.one _)⟩
  | .unit, ha, ht => by rw [ha.of_textless trivial, ht.of_plain trivial]; exact ⟨_, .unit, .unit⟩
  | .none T, ha, ht => by
    rw [ha.of_textless trivial]
    cases ht with
    | plain h => exact h.elim
    | option h => exact ⟨_, .none _, .none⟩
  | .some h1 h2, ha, ht => by
    have ih := fun T' => decodes_twin hρ h2 ha (T' := T')
    cases ht with
    | plain h => exact h.elim
    | option h =>
      obtain ⟨d', h3, h4⟩ := ih _ h
      exact ⟨_, .some (ha.ne_null h1) h3, .some h4⟩
  | .vec h1 h2, ha, ht => by
    have ih := fun vs' T' => decodesAll_twin hρ h2 (vs' := vs') (T' := T')
    obtain ⟨vs', h3, h4⟩ := h1.twin hρ ha
    cases ht with
    | plain h => exact h.elim
    | vec h =>
      obtain ⟨ds', h5, h6⟩ := ih _ _ h4 h
      exact ⟨_, .vec h3 h5, .seq h6⟩
  | .tuple h1 h2, ha, ht => by
    have ih := fun vs' Ts' => decodesEach_twin hρ h2 (vs' := vs') (Ts' := Ts')
    obtain ⟨vs', h3, h4⟩ := h1.twin hρ ha
    cases ht with
    | plain h => exact h.elim
    | tuple h =>
      obtain ⟨ds', h5, h6⟩ := ih _ _ h4 h
      exact ⟨_, .tuple h3 h5, .tuple h6⟩
  | .newtype h1 h2, ha, ht => by
    have ih := fun v' T' => decodes_twin hρ h2 (v' := v') (T' := T')
    obtain ⟨vs', h3, h4⟩ := h1.twin hρ ha
    cases ht with
    | plain h => exact h.elim
    | newtype h =>
      cases h4 with
      | cons h5 h6 =>
        cases h6
        obtain ⟨d', h7, h8⟩ := ih _ _ h5 h
        exact ⟨_, .newtype h3 h7, .newtype h8⟩
  | .map h1 h2, ha, ht => by
    have ih := fun ms' T' => entriesDecode_twin hρ h2 (ms' := ms') (T' := T')
    obtain ⟨c', l', ms', rfl, hc, hl, ho⟩ := ha.of_object
    cases ht with
    | plain h => exact h.elim
    | map h =>
      obtain ⟨ds', h3, h4⟩ := ih _ _ ho h
      exact ⟨_, .map (hρ.plain hc hl h1) h3, .map h4⟩
  | .struct h1 h2, ha, ht => by
    have ih := fun ms' fs' => fieldsDecode_twin hρ h1 (ms' := ms') (fs' := fs')
    have ih2 := fun m hm hk v' => decodes_twin hρ (h2 m hm hk) (v' := v') (T' := .ignored)
    obtain ⟨c', l', ms', rfl, hc, hl, ho⟩ := ha.of_object
    cases ht with
    | plain h => exact h.elim
    | struct h =>
      obtain ⟨ds', h3, h4⟩ := ih _ _ ho h
      refine ⟨_, .struct h3 ?_, .struct h4⟩
      rintro ⟨k', w'⟩ hm hk
      obtain ⟨k, w, h5, h6, h7⟩ := ho.back hm
      obtain ⟨d', h8, h9⟩ := ih2 (k, w) h5 (fun hk2 => by
        obtain ⟨k2, h10, h11⟩ := h.find hk2
        exact hk ((hρ.member _ _ _ _ h6 h11).mp rfl ▸ h10)) _ h7 (.plain trivial)
      rwa [ignored_form h8] at h8
  | .structOfArray h1, ha, ht => by
    have ih := fun vs' Ts' => decodesEach_twin hρ h1 (vs' := vs') (Ts' := Ts')
    obtain ⟨vs', rfl, h2⟩ := ha.of_array
    cases ht with
    | plain h => exact h.elim
    | struct h =>
      obtain ⟨ds', h3, h4⟩ := ih _ _ h2 h.snds
      exact ⟨_, .structOfArray h3, .struct (h.zip h4)⟩
  | .boxed h1 h2 h3 h4 h5 h6, ha, ht => by
    have ih := fun v' T' => decodes_twin hρ h3 (v' := v') (T' := T')
    have ih2 := fun v' T' => decodes_twin hρ h6 (v' := v') (T' := T')
    obtain ⟨c', l', ms', rfl, hc, hl, ho⟩ := ha.of_object
    obtain rfl := hl.mp rfl
    obtain ⟨w', hm, ha'⟩ := ho.special hρ (by simp [specialMembers]) (List.mem_singleton.mpr rfl)
    obtain ⟨x', h7, h8⟩ := ih _ _ ha' (.plain h2.plainTy)
    obtain ⟨rfl, -, h9, h10⟩ := h2.twin h8
    obtain ⟨d', h11, h12⟩ := ih2 _ _ (.refl_textless h9) ht
    match ms', ho.length, hm with
    | [m], _, hm =>
      cases List.mem_singleton.mp hm
      refine ⟨_, .boxed ?_ h2 h7 ?_ ?_ h11, h12⟩
      · rw [hρ.system hc (by rw [h1]; exact h10), h1]
      · rintro fs rfl
        cases ht with
        | plain h => exact h
        | struct h => exact h4 _ rfl
      · rintro T2 rfl
        cases ht with
        | plain h => exact h
        | option h => exact h5 _ rfl
  | .ignoredLeaf h, ha, ht => by rw [ht.of_plain trivial]; exact ⟨_, .ignoredLeaf (ha.leaf_iff h), .ignored⟩
  | .ignoredElements h1 h2, ha, ht => by
    have ih := fun vs' T' => decodesAll_twin hρ h2 (vs' := vs') (T' := T')
    obtain ⟨vs', h3, h4⟩ := h1.twin hρ ha
    obtain ⟨ds', h5, h6⟩ := ih _ _ h4 (.plain trivial)
    rw [ht.of_plain trivial]
    exact ⟨_, .ignoredElements h3 h5, .ignored⟩
  | .ignoredMap h1 h2, ha, ht => by
    have ih := fun ms' T' => entriesDecode_twin hρ h2 (ms' := ms') (T' := T')
    obtain ⟨c', l', ms', rfl, hc, hl, ho⟩ := ha.of_object
    obtain ⟨ds', h3, h4⟩ := ih _ _ ho (.plain trivial)
    rw [ht.of_plain trivial]
    exact ⟨_, .ignoredMap (hρ.plain hc hl h1) h3, .ignored⟩
  | .anyLeaf h, ha, ht => by rw [ht.of_plain trivial]; exact asIs_twin hρ h ha
  | .anyElements h1 h2, ha, ht => by
    have ih := fun vs' T' => decodesAll_twin hρ h2 (vs' := vs') (T' := T')
    obtain ⟨vs', h3, h4⟩ := h1.twin hρ ha
    obtain ⟨ds', h5, h6⟩ := ih _ _ h4 (.plain trivial)
    rw [ht.of_plain trivial]
    exact ⟨_, .anyElements h3 h5, .seq h6⟩
  | .anyMap h1 h2, ha, ht => by
    have ih := fun ms' T' => entriesDecode_twin hρ h2 (ms' := ms') (T' := T')
    obtain ⟨c', l', ms', rfl, hc, hl, ho⟩ := ha.of_object
    obtain ⟨ds', h3, h4⟩ := ih _ _ ho (.plain trivial)
    rw [ht.of_plain trivial]
    exact ⟨_, .anyMap (hρ.plain hc hl h1) h3, .map h4⟩
theorem decodesAll_twin (hρ : ρ.Fair) {vs vs' : List Value} {T T' : Ty} {ds : List Dyn} :
    DecodesAll vs T ds → TwinValues ρ vs vs' → TwinTy ρ T T' → ∃ ds', DecodesAll vs' T' ds' ∧ TwinDyns ρ ds ds'
  | .nil T, ha, ht => by cases ha; exact ⟨_, .nil _, .nil⟩
  | .cons h1 h2, ha, ht => by
    have ih1 := fun v' => decodes_twin hρ h1 (v' := v') (T' := T')
    have ih2 := fun vs' => decodesAll_twin hρ h2 (vs' := vs') (T' := T')
    cases ha with
    | cons h3 h4 =>
      obtain ⟨d', h5, h6⟩ := ih1 _ h3 ht
      obtain ⟨ds', h7, h8⟩ := ih2 _ h4 ht
      exact ⟨_, .cons h5 h7, .cons h6 h8⟩
theorem decodesEach_twin (hρ : ρ.Fair) {vs vs' : List Value} {Ts Ts' : List Ty} {ds : List Dyn} :
    DecodesEach vs Ts ds → TwinValues ρ vs vs' → TwinTys ρ Ts Ts' → ∃ ds', DecodesEach vs' Ts' ds' ∧ TwinDyns ρ ds ds'
  | .nil, ha, ht => by cases ha; cases ht; exact ⟨_, .nil, .nil⟩
  | .cons h1 h2, ha, ht => by
    have ih1 := fun v' T' => decodes_twin hρ h1 (v' := v') (T' := T')
    have ih2 := fun vs' Ts' => decodesEach_twin hρ h2 (vs' := vs') (Ts' := Ts')
    cases ha with
    | cons h3 h4 =>
      cases ht with
      | cons ht1 ht2 =>
        obtain ⟨d', h5, h6⟩ := ih1 _ _ h3 ht1
        obtain ⟨ds', h7, h8⟩ := ih2 _ _ h4 ht2
        exact ⟨_, .cons h5 h7, .cons h6 h8⟩
theorem entriesDecode_twin (hρ : ρ.Fair) {ms ms' : List (Str × Value)} {T T' : Ty} {ds : List (Str × Dyn)} :
    EntriesDecode ms T ds → TwinMembers ρ ms ms' → TwinTy ρ T T' → ∃ ds', EntriesDecode ms' T' ds' ∧ TwinEntries ρ ds ds'
  | .nil T, ha, ht => by cases ha; exact ⟨_, .nil _, .nil⟩
  | .cons h1 h2, ha, ht => by
    have ih1 := fun v' => decodes_twin hρ h1 (v' := v') (T' := T')
    have ih2 := fun ms' => entriesDecode_twin hρ h2 (ms' := ms') (T' := T')
    cases ha with
    | cons hk h3 h4 =>
      obtain ⟨d', h5, h6⟩ := ih1 _ h3 ht
      obtain ⟨ds', h7, h8⟩ := ih2 _ h4 ht
      exact ⟨_, .cons h5 h7, .cons hk h6 h8⟩
theorem fieldsDecode_twin (hρ : ρ.Fair) {ms ms' : List (Str × Value)} {fs fs' : List (Str × Ty)} {ds : List (Str × Dyn)} :
    FieldsDecode ms fs ds → TwinMembers ρ ms ms' → TwinFields ρ fs fs' → ∃ ds', FieldsDecode ms' fs' ds' ∧ TwinEntries ρ ds ds'
  | .nil _, _, ht => by cases ht; exact ⟨_, .nil _, .nil⟩
  | .found h1 h2 h3, ho, ht => by
    have ih1 := fun v' T' => decodes_twin hρ h2 (v' := v') (T' := T')
    have ih2 := fun fs' => fieldsDecode_twin hρ h3 ho (fs' := fs')
    cases ht with
    | cons hk ht1 ht2 =>
      obtain ⟨ds', h4, h5⟩ := ih2 _ ht2
      obtain ⟨k', v', h6, h7, h8⟩ := ho.find h1
      obtain rfl := (hρ.member _ _ _ _ h7 hk).mp rfl
      obtain ⟨d', h9, h10⟩ := ih1 _ _ h8 ht1
      exact ⟨_, .found h6 h9 h4, .cons hk h10 h5⟩
  | .missing (k := k) h1 h2, ho, ht => by
    have ih2 := fun fs' => fieldsDecode_twin hρ h2 ho (fs' := fs')
    cases ht with
    | cons hk ht1 ht2 =>
      obtain ⟨ds', h4, h5⟩ := ih2 _ ht2
      cases ht1 with
      | plain h => exact h.elim
      | option h =>
        refine ⟨_, .missing ?_ h4, .cons hk .none h5⟩
        rintro ⟨k2, w'⟩ hm rfl
        obtain ⟨k3, w, h6, h7, -⟩ := ho.back hm
        exact h1 _ h6 ((hρ.member _ _ _ _ h7 hk).mpr rfl)
end

end

/-! ## Translations -/

variable {τ : Translation}

theorem tr_ty_tys (Ts : List Ty) : τ.tys Ts = Ts.map τ.ty := by
  induction Ts with
  | nil => rfl
  | cons T Ts ih => rw [Translation.tys, ih]; rfl

theorem tr_ty_fields (fs : List (Str × Ty)) : τ.fields fs = fs.map fun f => (τ.member f.1, τ.ty f.2) := by
  induction fs with
  | nil => rfl
  | cons f fs ih => obtain ⟨k, T⟩ := f; rw [Translation.fields, ih]; rfl

mutual
theorem twin_ty : ∀ T : Ty, TwinTy (.of τ) T (τ.ty T)
  | .option T => by rw [Translation.ty]; exact .option (twin_ty T)
  | .vec T => by rw [Translation.ty]; exact .vec (twin_ty T)
  | .tuple Ts => by rw [Translation.ty]; exact .tuple (twin_tys Ts)
  | .map T => by rw [Translation.ty]; exact .map (twin_ty T)
  | .struct fs => by rw [Translation.ty]; exact .struct (twin_fields fs)
  | .newtype T => by rw [Translation.ty]; exact .newtype (twin_ty T)
  | .bool => .plain trivial
  | .int _ _ => .plain trivial
  | .f32 => .plain trivial
  | .f64 => .plain trivial
  | .char => .plain trivial
  | .str => .plain trivial
  | .string => .plain trivial
  | .unit => .plain trivial
  | .enum => .plain trivial
  | .ignored => .plain trivial
  | .any => .plain trivial
theorem twin_tys : ∀ Ts : List Ty, TwinTys (.of τ) Ts (τ.tys Ts)
  | [] => .nil
  | T :: Ts => .cons (twin_ty T) (twin_tys Ts)
theorem twin_fields : ∀ fs : List (Str × Ty), TwinFields (.of τ) fs (τ.fields fs)
  | [] => .nil
  | (_, T) :: fs => .cons rfl (twin_ty T) (twin_fields fs)
end

mutual
theorem twin_dyn : ∀ {d d' : Dyn}, TwinDyn (.of τ) d d' → d' = τ.dyn d
  | _, _, .bool _ => rfl
  | _, _, .int _ => rfl
  | _, _, .f32 _ => rfl
  | _, _, .f64 _ => rfl
  | _, _, .char _ => rfl
  | _, _, .str h => by cases h; rfl
  | _, _, .unit => rfl
  | _, _, .none => rfl
  | _, _, .ignored => rfl
  | _, _, .some a => by rw [twin_dyn a]; rfl
  | _, _, .newtype a => by rw [twin_dyn a]; rfl
  | _, _, .seq a => by rw [twin_dyns a]; rfl
  | _, _, .tuple a => by rw [twin_dyns a]; rfl
  | _, _, .map a => by rw [twin_entries a]; rfl
  | _, _, .struct a => by rw [twin_entries a]; rfl
theorem twin_dyns : ∀ {d d' : List Dyn}, TwinDyns (.of τ) d d' → d' = τ.dyns d
  | _, _, .nil => rfl
  | _, _, .cons a b => by rw [twin_dyn a, twin_dyns b]; rfl
theorem twin_entries : ∀ {d d' : List (Str × Dyn)}, TwinEntries (.of τ) d d' → d' = τ.entries d
  | _, _, .nil => rfl
  | _, _, .cons h a b => by cases h; rw [twin_dyn a, twin_entries b]; rfl
end

mutual
theorem TwinDyn.flip : ∀ {d d' : Dyn}, TwinDyn ρ d d' → TwinDyn ρ.flip d' d
  | _, _, .bool b => .bool b
  | _, _, .int n => .int n
  | _, _, .f32 b => .f32 b
  | _, _, .f64 b => .f64 b
  | _, _, .char c => .char c
  | _, _, .str h => .str h
  | _, _, .unit => .unit
  | _, _, .none => .none
  | _, _, .ignored => .ignored
  | _, _, .some a => .some a.flip
  | _, _, .newtype a => .newtype a.flip
  | _, _, .seq a => .seq a.flip
  | _, _, .tuple a => .tuple a.flip
  | _, _, .map a => .map a.flip
  | _, _, .struct a => .struct a.flip
theorem TwinDyns.flip : ∀ {d d' : List Dyn}, TwinDyns ρ d d' → TwinDyns ρ.flip d' d
  | _, _, .nil => .nil
  | _, _, .cons a b => .cons a.flip b.flip
theorem TwinEntries.flip : ∀ {d d' : List (Str × Dyn)}, TwinEntries ρ d d' → TwinEntries ρ.flip d' d
  | _, _, .nil => .nil
  | _, _, .cons h a b => .cons h a.flip b.flip
end

theorem proper_ty (hτ : ∀ a b, τ.member a = τ.member b → a = b) {T : Ty} (h : T.Proper) : (τ.ty T).Proper := by
  induction h with
  | option _ ih => rw [Translation.ty]; exact .option ih
  | vec _ ih => rw [Translation.ty]; exact .vec ih
  | newtype _ ih => rw [Translation.ty]; exact .newtype ih
  | map _ ih => rw [Translation.ty]; exact .map ih
  | tuple _ ih =>
    rw [Translation.ty, tr_ty_tys]
    refine .tuple fun T hT => ?_
    obtain ⟨U, hU, rfl⟩ := List.mem_map.mp hT
    exact ih U hU
  | struct hn _ ih =>
    rw [Translation.ty, tr_ty_fields]
    refine .struct ?_ fun f hf => ?_
    · rw [List.map_map]
      rw [List.Nodup, List.pairwise_map] at hn ⊢
      exact hn.imp fun h e => h (hτ _ _ e)
    · obtain ⟨g, hg, rfl⟩ := List.mem_map.mp hf
      exact ih g hg
  | _ => constructor

theorem ty_option {T : Ty} (h : ∀ T', T ≠ .option T') : ∀ T', τ.ty T ≠ .option T' := by
  intro T' e
  cases T <;> simp only [Translation.ty] at e <;> first | exact absurd rfl (h _) | cases e

section
variable [Platform]

mutual
theorem twin_value : ∀ v : Value, (∀ x, SubValue (.decimal x) v → τ.text (Platform.decimalToStr x) = Platform.decimalToStr x) →
    TwinValue (.of τ) v (τ.value v)
  | .object name library members, h => by
    rw [Translation.value]
    refine .object rfl ?_ (twin_members members fun m hm x hx => h x (.member hm hx))
    cases library <;> simp
  | .array vs, h => by
    rw [Translation.value]
    exact .array (twin_values vs fun v hv x hx => h x (.item hv hx))
  | .string s, _ => .string rfl
  | .decimal x, h => .decimal (h x (.refl _)).symm
  | .boolean _, _ => .refl_textless trivial
  | .byte _, _ => .refl_textless trivial
  | .char _, _ => .refl_textless trivial
  | .double _, _ => .refl_textless trivial
  | .int16 _, _ => .refl_textless trivial
  | .int32 _, _ => .refl_textless trivial
  | .int64 _, _ => .refl_textless trivial
  | .sbyte _, _ => .refl_textless trivial
  | .single _, _ => .refl_textless trivial
  | .timeSpan _, _ => .refl_textless trivial
  | .dateTime _, _ => .refl_textless trivial
  | .uint16 _, _ => .refl_textless trivial
  | .uint32 _, _ => .refl_textless trivial
  | .uint64 _, _ => .refl_textless trivial
  | .null, _ => .refl_textless trivial
theorem twin_values : ∀ vs : List Value, (∀ v ∈ vs, ∀ x, SubValue (.decimal x) v →
    τ.text (Platform.decimalToStr x) = Platform.decimalToStr x) → TwinValues (.of τ) vs (τ.values vs)
  | [], _ => .nil
  | v :: vs, h => .cons (twin_value v (h v (by simp))) (twin_values vs fun w hw => h w (by simp [hw]))
theorem twin_members : ∀ ms : List (Str × Value), (∀ m ∈ ms, ∀ x, SubValue (.decimal x) m.2 →
    τ.text (Platform.decimalToStr x) = Platform.decimalToStr x) → TwinMembers (.of τ) ms (τ.members' ms)
  | [], _ => .nil
  | (k, v) :: ms, h => .cons rfl (twin_value v (h (k, v) (by simp))) (twin_members ms fun w hw => h w (by simp [hw]))
end

variable [FloatLib]

/-- **C92** (values) What a value is as a value of a type, the translated value is as a value of the translated type, translated; and
it is nothing else. -/
theorem C92_value (hτ : τ.Transparent) {v : Value}
    (hd : ∀ x, SubValue (.decimal x) v → τ.text (Platform.decimalToStr x) = Platform.decimalToStr x) (T : Ty) (d' : Dyn) :
    Decodes (τ.value v) (τ.ty T) d' ↔ ∃ d, Decodes v T d ∧ d' = τ.dyn d := by
  have hρ := TextPairs.of_fair hτ
  constructor
  · intro h
    obtain ⟨d, h1, h2⟩ := decodes_twin hρ.flip h (twin_value v hd).flip (twin_ty T).flip
    exact ⟨d, h1, twin_dyn h2.flip⟩
  · rintro ⟨d, h, rfl⟩
    obtain ⟨d', h1, h2⟩ := decodes_twin hρ h (twin_value v hd) (twin_ty T)
    rwa [twin_dyn h2] at h1

/-- **C92** `from_slice` does not look into texts.  If two messages differ in their texts only, then what it returns for one of them, at
any type, it returns for the other, at the type with the field names translated, with the texts translated; and if it fails for one, it
fails for the other. -/
theorem C92 (hτ : τ.Transparent) {w w' : Bytes} {m : RemotingMessage} (h : deserialize w = .ok m)
    (h' : deserialize w' = .ok (τ.message m))
    (hd : ∀ x, ValueIn (.decimal x) m → τ.text (Platform.decimalToStr x) = Platform.decimalToStr x)
    (hdec : ∀ x : Dec, IsUtf8 (Platform.decimalToStr x))
    (hbig : usizeBits = 32 → ∀ u items size, ValueIn u m → IsList u items size → items.length < 2 ^ 30)
    {T : Ty} (hT : T.Proper) (d' : Dyn) :
    fromSlice (τ.ty T) w' = .ok d' ↔ ∃ d, fromSlice T w = .ok d ∧ d' = τ.dyn d := by
  cases m with
  | methodCall c => simp [C43_call T w _ h, C43_call (τ.ty T) w' _ h']
  | methodReturn r => simp [C43_return T w _ h, C43_return (τ.ty T) w' _ h']
  | value v =>
    have top : ∀ {u v : Value}, SubValue u v → ValueIn u (.value v) := fun hu => ⟨_, by simp [topValues], hu⟩
    have hd : ∀ x, SubValue (.decimal x) v → τ.text (Platform.decimalToStr x) = Platform.decimalToStr x :=
      fun x hx => hd x (top hx)
    by_cases hopt : ∃ T', T = .option T'
    · obtain ⟨T', rfl⟩ := hopt
      rw [Translation.ty]
      by_cases hnull : v = .null
      · subst hnull
        rw [(C42_root T' w _ h).1 rfl, (C42_root _ w' _ h').1 rfl]
        constructor
        · intro e; cases e; exact ⟨_, rfl, rfl⟩
        · rintro ⟨d, e, rfl⟩; cases e; rfl
      · have hnull' : τ.value v ≠ .null := (twin_value v hd).ne_null hnull
        constructor
        · exact fun e => absurd e (((C42_root _ w' _ h').2 hnull').2 d')
        · rintro ⟨d, e, -⟩
          exact absurd e (((C42_root _ w _ h).2 hnull).2 d)
    · have hopt : ∀ T', T ≠ .option T' := fun T' e => hopt ⟨T', e⟩
      have hbig' : usizeBits = 32 → ∀ u items size, SubValue u (τ.value v) → IsList u items size → items.length < 2 ^ 30 := by
        intro h32 u items size hu hl
        obtain ⟨u', h1, h2⟩ := (twin_value v hd).flip.sub hu
        obtain ⟨items', h3, h4⟩ := hl.twin (TextPairs.of_fair hτ).flip h2
        rw [h4.length]
        exact hbig h32 u' items' size (top h1) h3
      rw [C58_from_slice h' hdec hbig' _ (proper_ty hτ.member_inj hT) (ty_option hopt),
        C92_value hτ hd]
      simp only [C58_from_slice h hdec (fun h32 u i s hu => hbig h32 u i s (top hu)) T hT hopt]


/-- **C92** The same from the bytes on: in whatever a writer writes, the texts can be replaced, and this is what becomes of it. -/
theorem C92_written (hτ : τ.Transparent) (hg : τ.Good) {w : Bytes} {m : RemotingMessage} (h : Written m w)
    (hd : ∀ x, ValueIn (.decimal x) m → τ.text (Platform.decimalToStr x) = Platform.decimalToStr x)
    (hdec : ∀ x : Dec, IsUtf8 (Platform.decimalToStr x))
    (hbig : usizeBits = 32 → ∀ u items size, ValueIn u m → IsList u items size → items.length < 2 ^ 30) :
    ∃ w', TextsReplaced τ w w' ∧ ∀ T : Ty, T.Proper → ∀ d',
      fromSlice (τ.ty T) w' = .ok d' ↔ ∃ d, fromSlice T w = .ok d ∧ d' = τ.dyn d := by
  obtain ⟨w', h1, h2, h3⟩ := C90_written hg h
  exact ⟨w', h1, fun T hT d' => C92 hτ h2 h3 hd hdec hbig hT d'⟩

end

/-! ## Examples -/

theorem not_one_char {s : Str} (h : 4 < s.length) (c : Char) : s ≠ String.utf8EncodeChar c := by
  rintro rfl
  rw [String.length_utf8EncodeChar] at h
  have := c.utf8Size_le_four
  omega

/-- Exchanges the strings `absent` and `hello`, the classes `Point` and `Person`, and the members `name` and `title`. -/
def rewording : Translation :=
  ⟨swapText (lit "absent") (lit "hello"), swapText (lit "Point") (lit "Person"), swapText (lit "name") (lit "title"), id⟩

theorem rewording_transparent : rewording.Transparent where
  text := by
    intro s c
    simp only [rewording, swapText]
    split
    · rename_i h
      subst h
      exact iff_of_false (not_one_char (by decide) c) (not_one_char (by decide) c)
    · split
      · rename_i h
        subst h
        exact iff_of_false (not_one_char (by decide) c) (not_one_char (by decide) c)
      · exact Iff.rfl
  name := by
    intro s
    simp only [rewording, swapText]
    split
    · rename_i h; subst h; exact .inr (by constructor <;> kernel_decide)
    · split
      · rename_i h; subst h; exact .inr (by constructor <;> kernel_decide)
      · exact .inl rfl
  special := by kernel_decide
  member_inj := fun _ _ h => swapText_inj h

theorem storable_text {s : Str} (cs : List Char) (hs : s = cs.flatMap String.utf8EncodeChar) (h : s.length < 2 ^ 31) :
    StorableString s := ⟨⟨cs, hs⟩, h⟩

theorem rewording_good : rewording.Good where
  text := swapText_keeps (storable_text "absent".toList rfl (by decide)) (storable_text "hello".toList rfl (by decide))
  name := swapText_keeps (storable_text "Point".toList rfl (by decide)) (storable_text "Person".toList rfl (by decide))
  member := swapText_keeps (storable_text "name".toList rfl (by decide)) (storable_text "title".toList rfl (by decide))
  library := fun _ h1 h2 => ⟨h1, h2⟩
  member_inj := fun _ _ h => swapText_inj h

theorem absent_storable : utf8Valid (lit "absent") = true ∧ (lit "absent").length < 2 ^ 31 := by
  constructor <;> kernel_decide

/-- `Point { name: "absent" }`. -/
def absentPoint : Value := .object (lit "Point") none [(lit "name", .string (lit "absent"))]

section
variable [Platform] [FloatLib]

/-- `C92` is not vacuous: `Point { name: "absent" }` is read as an object with an optional name, which is the text `absent`, so what it
becomes by the rewording is one with an optional title, which is the text `hello`. -/
example (hdec : ∀ x : Dec, IsUtf8 (Platform.decimalToStr x)) :
    ∃ w', TextsReplaced rewording (write (.value absentPoint)) w' ∧
      fromSlice (.struct [(lit "title", .option .string)]) w' = .ok (.struct [(lit "title", .some (.str (lit "hello")))]) := by
  have parts : ∀ u, ValueIn u (.value absentPoint) → u = absentPoint ∨ u = .string (lit "absent") := by
    rintro u ⟨v, hv, hu⟩
    simp only [topValues, List.mem_singleton] at hv
    subst hv
    cases hu with
    | refl => exact .inl rfl
    | member hm hu =>
      cases List.mem_singleton.mp hm
      cases hu
      exact .inr rfl
  have nolist : ∀ u items size, ValueIn u (.value absentPoint) → ¬ IsList u items size := by
    intro u items size hu hl
    obtain ⟨_, _, _, rfl, -, h3, -⟩ := hl
    rcases parts _ hu with e | e <;> cases e
    simp at h3
  have hw : Writable (.value absentPoint) := by
    refine ⟨.inl rfl, ?_, by simp [topStrings], by decide, by decide⟩
    intro u hu
    rcases parts u hu with rfl | rfl
    · exact storable_own trivial (by simp only [NamesDistinct, absentPoint]; kernel_decide) (by decide +kernel) (by simp [absentPoint])
    · exact storable_own trivial trivial (by
        intro s hs
        simp only [ownStrings, List.mem_singleton] at hs
        subst hs
        exact absent_storable) trivial
  have hp := C57_write _ hw
  obtain ⟨w', h1, h2⟩ := C92_written rewording_transparent rewording_good (C71_write _ hw)
    (fun x hx => by rcases parts _ hx with e | e <;> cases e) hdec (fun _ u items size hu hl => absurd hl (nolist u items size hu))
  refine ⟨w', h1, (h2 (.struct [(lit "name", .option .string)]) (.struct (by simp) (by
    intro f hf; cases List.mem_singleton.mp hf; exact .option .string)) _).mpr ⟨.struct [(lit "name", .some (.str (lit "absent")))], ?_, rfl⟩⟩
  refine (C58_from_slice hp hdec ?_ _ (.struct (by simp) (by intro f hf; cases List.mem_singleton.mp hf; exact .option .string))
    (by simp) _).mpr ?_
  · exact fun _ u items size h hl => absurd hl (nolist u items size ⟨_, by simp [topValues], h⟩)
  · refine .struct (.found List.mem_cons_self (.some (by simp) (.string _)) (.nil _)) ?_
    intro m hm hk
    cases List.mem_singleton.mp hm
    simp at hk

/-- **C92** The exceptions are real: texts of one character are read as a `char`, others are not; and a boxed number is no longer one
when its class, or its member, is called something else. -/
theorem C92_exceptions :
    decode (.string (lit "a")) .char = .ok (.char 97) ∧ (∀ d, decode (.string (lit "ab")) .char ≠ .ok d) ∧
    decode (.object (lit "System.Int32") none [(lit "m_value", .int32 7)]) .i32 = .ok (.int 7) ∧
    (∀ d, decode (.object (lit "System.Int33") none [(lit "m_value", .int32 7)]) .i32 ≠ .ok d) ∧
    (∀ d, decode (.object (lit "System.Int32") none [(lit "m_walue", .int32 7)]) .i32 ≠ .ok d) := by
  have key : ∀ o : Except DeError Dyn, (match o with
      | .ok _ => false
      | _ => true) = true → ∀ d, o ≠ .ok d := by
    rintro o h d rfl
    cases h
  refine ⟨?_, key _ ?_, ?_, key _ ?_, key _ ?_⟩ <;> rfl

end

end Nrbf
