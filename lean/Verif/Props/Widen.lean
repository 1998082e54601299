import Verif.Spec.Widen
import Verif.Props.Evolve

/-! # C73: a type can be widened -/

set_option autoImplicit false

namespace Nrbf

open Spec

variable [Platform] [FloatLib]

theorem null_elements {n : Nat} {vs : List Value} (h : Elements n .null vs) : False := by
  cases h with
  | list h _ => obtain ⟨_, _, _, h, _⟩ := h; cases h

theorem null_integer {n : Int} (h : Value.null.integer? = some n) : False := by cases h

theorem null_type {T : Ty} {d : Dyn} (h : Decodes .null T d) : ¬ NonNull T := by
  generalize hv : Value.null = v at h
  cases h <;> first
    | (intro h; exact h)
    | (cases hv; done)
    | (subst hv; exact (null_integer (by assumption)).elim)
    | (subst hv; exact (null_elements (by assumption)).elim)

/-- There is a corresponding value. -/
def Reads' (v : Value) (d : Dyn) (U : Ty) : Prop := ∃ e, Decodes v U e ∧ Corresponds d e

/-- One option more. -/
theorem wider_of {v : Value} {T : Ty} {d : Dyn} (h : Decodes v T d) (hc : ∀ U, Convertible T U → Reads' v d U) {U : Ty}
    (hw : Wider T U) : Reads' v d U := by
  cases hw with
  | same h => exact hc _ h
  | optional hn h' =>
    obtain ⟨e, h1, h2⟩ := hc _ h'
    refine ⟨_, .some ?_ h1, .toSome h2⟩
    rintro rfl
    exact null_type h hn

omit [FloatLib] in
theorem Elements.slack {v : Value} {vs : List Value} (h : Elements 0 v vs) : Elements 1 v vs := by
  cases h with
  | array => exact .array _
  | list h1 h2 => exact .list h1 (by omega)

/-- Element by element. -/
def CorrespondAll (ds es : List Dyn) : Prop := ds.length = es.length ∧ ∀ p ∈ ds.zip es, Corresponds p.1 p.2

/-- Entry by entry. -/
def CorrespondEntries (ds es : List (Str × Dyn)) : Prop :=
  ds.map Prod.fst = es.map Prod.fst ∧ ∀ p ∈ ds.zip es, Corresponds p.1.2 p.2.2

omit [Platform] in
theorem CorrespondAll.cons {d e : Dyn} {ds es : List Dyn} (h : Corresponds d e) (hs : CorrespondAll ds es) :
    CorrespondAll (d :: ds) (e :: es) := by
  refine ⟨by simpa using hs.1, fun p hp => ?_⟩
  rcases List.mem_cons.mp hp with rfl | hp
  · exact h
  · exact hs.2 p hp

omit [Platform] in
theorem CorrespondEntries.cons {k : Str} {d e : Dyn} {ds es : List (Str × Dyn)} (h : Corresponds d e)
    (hs : CorrespondEntries ds es) : CorrespondEntries ((k, d) :: ds) ((k, e) :: es) := by
  refine ⟨by simpa using hs.1, fun p hp => ?_⟩
  rcases List.mem_cons.mp hp with rfl | hp
  · exact h
  · exact hs.2 p hp

omit [Platform] in
theorem CorrespondAll.entries {ks : List Str} {ds es : List Dyn} (h : CorrespondAll ds es) :
    CorrespondEntries (ks.zip ds) (ks.zip es) := by
  induction ks generalizing ds es with
  | nil => exact ⟨rfl, by simp⟩
  | cons k ks ih =>
    cases ds with
    | nil =>
      cases es with
      | nil => exact ⟨rfl, by simp⟩
      | cons => exact absurd h.1 (by simp)
    | cons d ds =>
      cases es with
      | nil => exact absurd h.1 (by simp)
      | cons e es =>
        exact CorrespondEntries.cons (h.2 (d, e) (by simp)) (ih ⟨by simpa using h.1, fun p hp => h.2 p (by simp [hp])⟩)

omit [Platform] [FloatLib] in
theorem char_ofNat_toNat (c : Char) : Char.ofNat c.toNat = c := by simp

mutual
/-- What is read at a type is read at a wider one. -/
theorem decodes_convertible {v : Value} {T U : Ty} {d : Dyn} : Decodes v T d → Convertible T U → Reads' v d U
  | .bool b, hc => by cases hc; exact ⟨_, .bool b, .refl _⟩
  | .int h1 h2 h3, hc => by
    cases hc with
    | refl => exact ⟨_, .int h1 h2 h3, .refl _⟩
    | int h4 h5 => exact ⟨_, .int h1 (by omega) (by omega), .refl _⟩
    | intToF32 => exact ⟨_, .f32OfInteger h1, .intToF32 _⟩
    | intToF64 => exact ⟨_, .f64OfInteger h1, .intToF64 _⟩
  | .f32 b, hc => by
    cases hc with
    | refl => exact ⟨_, .f32 b, .refl _⟩
    | f32ToF64 => exact ⟨_, .f64OfSingle b, .f32ToF64 (.inr (.inl rfl))⟩
  | .f32OfDouble b, hc => by
    cases hc with
    | refl => exact ⟨_, .f32OfDouble b, .refl _⟩
    | f32ToF64 => exact ⟨_, .f64 b, .f32ToF64 (.inl rfl)⟩
  | .f32OfInteger h, hc => by
    cases hc with
    | refl => exact ⟨_, .f32OfInteger h, .refl _⟩
    | f32ToF64 => exact ⟨_, .f64OfInteger h, .f32ToF64 (.inr (.inr ⟨_, rfl, rfl⟩))⟩
  | .f64 b, hc => by
    cases hc with
    | refl => exact ⟨_, .f64 b, .refl _⟩
    | f64ToF32 => exact ⟨_, .f32OfDouble b, .f64ToF32 (.inl rfl)⟩
  | .f64OfSingle b, hc => by
    cases hc with
    | refl => exact ⟨_, .f64OfSingle b, .refl _⟩
    | f64ToF32 => exact ⟨_, .f32 b, .f64ToF32 (.inr (.inl rfl))⟩
  | .f64OfInteger h, hc => by
    cases hc with
    | refl => exact ⟨_, .f64OfInteger h, .refl _⟩
    | f64ToF32 => exact ⟨_, .f32OfInteger h, .f64ToF32 (.inr (.inr ⟨_, rfl, rfl⟩))⟩
  | .char c, hc => by
    cases hc with
    | refl => exact ⟨_, .char c, .refl _⟩
    | charToString => exact ⟨_, .stringOfChar c, .charToString _⟩
  | .charOfString c, hc => by
    cases hc with
    | refl => exact ⟨_, .charOfString c, .refl _⟩
    | charToString =>
      refine ⟨_, .string _, ?_⟩
      have := Corresponds.charToString c.toNat
      rwa [char_ofNat_toNat] at this
  | .charOfDecimal x c h, hc => by
    cases hc with
    | refl => exact ⟨_, .charOfDecimal x c h, .refl _⟩
    | charToString =>
      refine ⟨_, .stringOfDecimal x, ?_⟩
      have := Corresponds.charToString c.toNat
      rwa [char_ofNat_toNat, ← h] at this
  | .str s, hc => by
    cases hc with
    | refl => exact ⟨_, .str s, .refl _⟩
    | strToString => exact ⟨_, .string s, .refl _⟩
  | .string s, hc => by cases hc; exact ⟨_, .string s, .refl _⟩
  | .stringOfDecimal x, hc => by cases hc; exact ⟨_, .stringOfDecimal x, .refl _⟩
  | .stringOfChar c, hc => by cases hc; exact ⟨_, .stringOfChar c, .refl _⟩
  | .unit, hc => by cases hc; exact ⟨_, .unit, .refl _⟩
  | .none T, hc => by
    cases hc with
    | refl => exact ⟨_, .none T, .refl _⟩
    | option => exact ⟨_, .none _, .refl _⟩
  | .some h1 h2, hc => by
    have ih := fun U => decodes_convertible h2 (U := U)
    cases hc with
    | refl => exact ⟨_, .some h1 h2, .refl _⟩
    | option hw =>
      obtain ⟨e, h3, h4⟩ := wider_of h2 ih hw
      exact ⟨_, .some h1 h3, .some h4⟩
  | .vec h1 h2, hc => by
    have ih := fun U => decodesAll_convertible h2 (U := U)
    cases hc with
    | refl => exact ⟨_, .vec h1 h2, .refl _⟩
    | vec hw =>
      obtain ⟨es, h3, h4⟩ := ih _ hw
      exact ⟨_, .vec h1 h3, .seq h4.1 h4.2⟩
  | .tuple h1 h2, hc => by
    have ih := fun Us => decodesEach_convertible h2 (Us := Us)
    have ih2 := fun U => decodesEach_vec h2 (U := U)
    cases hc with
    | refl => exact ⟨_, .tuple h1 h2, .refl _⟩
    | tuple hl hw =>
      obtain ⟨es, h3, h4⟩ := ih _ hl hw
      exact ⟨_, .tuple h1 h3, .tuple h4.1 h4.2⟩
    | tupleToVec hw =>
      obtain ⟨es, h3, h4⟩ := ih2 _ hw
      exact ⟨_, .vec h1.slack h3, .tupleToSeq h4.1 h4.2⟩
  | .newtype h1 h2, hc => by
    have ih := fun U => decodes_convertible h2 (U := U)
    cases hc with
    | refl => exact ⟨_, .newtype h1 h2, .refl _⟩
    | newtype hw =>
      obtain ⟨e, h3, h4⟩ := wider_of h2 ih hw
      exact ⟨_, .newtype h1 h3, .newtype h4⟩
    | newtypeToTuple hw =>
      obtain ⟨e, h3, h4⟩ := wider_of h2 ih hw
      exact ⟨_, .tuple h1 (.cons h3 .nil), .newtypeToTuple h4⟩
    | newtypeToVec hw =>
      obtain ⟨e, h3, h4⟩ := wider_of h2 ih hw
      exact ⟨_, .vec h1.slack (.cons h3 (.nil _)), .newtypeToSeq h4⟩
  | .map h1 h2, hc => by
    have ih := fun U => entriesDecode_convertible h2 (U := U)
    cases hc with
    | refl => exact ⟨_, .map h1 h2, .refl _⟩
    | map hw =>
      obtain ⟨es, h3, h4⟩ := ih _ hw
      exact ⟨_, .map h1 h3, .map h4.1 h4.2⟩
  | .struct h1 h2, hc => by
    have ih := fun gs => fieldsDecode_convertible h1 (gs := gs)
    cases hc with
    | refl => exact ⟨_, .struct h1 h2, .refl _⟩
    | struct hn hw =>
      obtain ⟨es, h3, h4⟩ := ih _ hn hw
      exact ⟨_, .struct h3 (fun m hm hk => h2 m hm (hn ▸ hk)), .struct h4.1 h4.2⟩
  | .structOfArray (fs := fs) h1, hc => by
    have ih := fun Us => decodesEach_convertible h1 (Us := Us)
    cases hc with
    | refl => exact ⟨_, .structOfArray h1, .refl _⟩
    | @struct _ gs hn hw =>
      have hl : (fs.map Prod.snd).length = (gs.map Prod.snd).length := by
        have := congrArg List.length hn
        simpa using this
      obtain ⟨es, h3, h4⟩ := ih _ hl (by
        intro p hp
        rw [List.zip_map] at hp
        obtain ⟨q, hq, rfl⟩ := List.mem_map.mp hp
        exact hw q hq)
      refine ⟨_, .structOfArray h3, ?_⟩
      rw [← hn]
      exact .struct (CorrespondAll.entries h4).1 (CorrespondAll.entries h4).2
  | .boxed h1 h2 h3 h4 h5 h6, hc => by
    have ih := decodes_convertible h6 hc
    obtain ⟨e, h7, h8⟩ := ih
    refine ⟨e, .boxed h1 h2 h3 ?_ ?_ h7, h8⟩
    · rintro fs rfl
      cases hc with
      | refl => exact h4 _ rfl
      | struct => exact h4 _ rfl
    · rintro T' rfl
      cases hc with
      | refl => exact h5 _ rfl
      | option => exact h5 _ rfl
  | .ignoredLeaf h, hc => by cases hc; exact ⟨_, .ignoredLeaf h, .refl _⟩
  | .ignoredElements h1 h2, hc => by cases hc; exact ⟨_, .ignoredElements h1 h2, .refl _⟩
  | .ignoredMap h1 h2, hc => by cases hc; exact ⟨_, .ignoredMap h1 h2, .refl _⟩
  | .anyLeaf h, hc => by cases hc; exact ⟨_, .anyLeaf h, .refl _⟩
  | .anyElements h1 h2, hc => by cases hc; exact ⟨_, .anyElements h1 h2, .refl _⟩
  | .anyMap h1 h2, hc => by cases hc; exact ⟨_, .anyMap h1 h2, .refl _⟩
theorem decodesAll_convertible {vs : List Value} {T U : Ty} {ds : List Dyn} :
    DecodesAll vs T ds → Wider T U → ∃ es, DecodesAll vs U es ∧ CorrespondAll ds es
  | .nil _, _ => ⟨_, .nil _, rfl, by simp⟩
  | .cons h1 h2, hw => by
    have ih := fun U => decodes_convertible h1 (U := U)
    obtain ⟨es, h3, h4⟩ := decodesAll_convertible h2 hw
    obtain ⟨e, h5, h6⟩ := wider_of h1 ih hw
    exact ⟨_, .cons h5 h3, h4.cons h6⟩
theorem decodesEach_convertible {vs : List Value} {Ts Us : List Ty} {ds : List Dyn} :
    DecodesEach vs Ts ds → Ts.length = Us.length → (∀ p ∈ Ts.zip Us, Wider p.1 p.2) →
    ∃ es, DecodesEach vs Us es ∧ CorrespondAll ds es
  | .nil, hl, _ => by
    cases Us with
    | nil => exact ⟨_, .nil, rfl, by simp⟩
    | cons => simp at hl
  | .cons (T := T) (Ts := Ts) h1 h2, hl, hw => by
    have ih := fun U => decodes_convertible h1 (U := U)
    have ih2 := fun Us => decodesEach_convertible h2 (Us := Us)
    cases Us with
    | nil => simp at hl
    | cons U Us =>
      obtain ⟨es, h3, h4⟩ := ih2 Us (by simpa using hl) fun p hp => hw p (by simp [hp])
      obtain ⟨e, h5, h6⟩ := wider_of h1 ih (hw (T, U) (by simp))
      exact ⟨_, .cons h5 h3, h4.cons h6⟩
theorem decodesEach_vec {vs : List Value} {Ts : List Ty} {U : Ty} {ds : List Dyn} :
    DecodesEach vs Ts ds → (∀ T ∈ Ts, Wider T U) → ∃ es, DecodesAll vs U es ∧ CorrespondAll ds es
  | .nil, _ => ⟨_, .nil _, rfl, by simp⟩
  | .cons (T := T) (Ts := Ts) h1 h2, hw => by
    have ih := fun U => decodes_convertible h1 (U := U)
    obtain ⟨es, h3, h4⟩ := decodesEach_vec h2 fun T hT => hw T (by simp [hT])
    obtain ⟨e, h5, h6⟩ := wider_of h1 ih (hw T (by simp))
    exact ⟨_, .cons h5 h3, h4.cons h6⟩
theorem entriesDecode_convertible {ms : List (Str × Value)} {T U : Ty} {ds : List (Str × Dyn)} :
    EntriesDecode ms T ds → Wider T U → ∃ es, EntriesDecode ms U es ∧ CorrespondEntries ds es
  | .nil _, _ => ⟨_, .nil _, rfl, by simp⟩
  | .cons h1 h2, hw => by
    have ih := fun U => decodes_convertible h1 (U := U)
    obtain ⟨es, h3, h4⟩ := entriesDecode_convertible h2 hw
    obtain ⟨e, h5, h6⟩ := wider_of h1 ih hw
    exact ⟨_, .cons h5 h3, h4.cons h6⟩
theorem fieldsDecode_convertible {ms : List (Str × Value)} {fs gs : List (Str × Ty)} {ds : List (Str × Dyn)} :
    FieldsDecode ms fs ds → fs.map Prod.fst = gs.map Prod.fst → (∀ p ∈ fs.zip gs, Wider p.1.2 p.2.2) →
    ∃ es, FieldsDecode ms gs es ∧ CorrespondEntries ds es
  | .nil _, hn, _ => by
    cases gs with
    | nil => exact ⟨_, .nil _, rfl, by simp⟩
    | cons => simp at hn
  | .found (k := k) (T := T) (fs := fs) h1 h2 h3, hn, hw => by
    have ih := fun U => decodes_convertible h2 (U := U)
    have ih2 := fun gs => fieldsDecode_convertible h3 (gs := gs)
    cases gs with
    | nil => simp at hn
    | cons g gs =>
      obtain ⟨k', U⟩ := g
      simp only [List.map_cons, List.cons.injEq] at hn
      obtain ⟨rfl, hn⟩ := hn
      obtain ⟨es, h4, h5⟩ := ih2 gs hn fun p hp => hw p (by simp [hp])
      obtain ⟨e, h6, h7⟩ := wider_of h2 ih (hw ((k, T), (k, U)) (by simp))
      exact ⟨_, .found h1 h6 h4, h5.cons h7⟩
  | .missing (k := k) (T := T) (fs := fs) h1 h2, hn, hw => by
    have ih2 := fun gs => fieldsDecode_convertible h2 (gs := gs)
    cases gs with
    | nil => simp at hn
    | cons g gs =>
      obtain ⟨k', U⟩ := g
      simp only [List.map_cons, List.cons.injEq] at hn
      obtain ⟨rfl, hn⟩ := hn
      obtain ⟨es, h4, h5⟩ := ih2 gs hn fun p hp => hw p (by simp [hp])
      have h6 : ∃ U', U = .option U' := by
        have := hw ((k, .option T), (k, U)) (by simp)
        generalize hT : Ty.option T = T' at this
        cases this with
        | optional hn _ => subst hT; exact hn.elim
        | same h => subst hT; cases h <;> exact ⟨_, rfl⟩
      obtain ⟨U', rfl⟩ := h6
      exact ⟨_, .missing h1 h4, h5.cons (.refl _)⟩
end

/-- **C73** (values) What is read at a type is read at a wider type, as the corresponding value. -/
theorem C73_value {v : Value} {T U : Ty} {d : Dyn} (h : Decodes v T d) (hw : Wider T U) :
    ∃ e, Decodes v U e ∧ Corresponds d e :=
  wider_of h (fun _ hc => decodes_convertible h hc) hw

/-- **C73** If `from_slice` reads a message at a type, it reads it at every wider type (an option at the root
only if the type was one already, see C42), as the corresponding value. -/
theorem C73 {w : Bytes} {T U : Ty} {d : Dyn} (h : fromSlice T w = .ok d) (hw : Wider T U)
    (hdec : ∀ x : Dec, IsUtf8 (Platform.decimalToStr x))
    (hbig : usizeBits = 32 → ∀ v, deserialize w = .ok (.value v) → ∀ u items size, SubValue u v → IsList u items size →
      items.length < 2 ^ 30)
    (hT : T.Proper) (hU : U.Proper) (ho : (∃ U', U = .option U') → ∃ T', T = .option T') :
    ∃ e, fromSlice U w = .ok e ∧ Corresponds d e := by
  cases hm : deserialize w with
  | ok m =>
    cases m with
    | methodCall c => rw [C43_call T w c hm] at h; cases h
    | methodReturn r => rw [C43_return T w r hm] at h; cases h
    | value v =>
      rw [C58_root hm hdec (fun h32 => hbig h32 v hm) T hT] at h
      obtain ⟨e, h1, h2⟩ := C73_value h.1 hw
      exact ⟨e, (C58_root hm hdec (fun h32 => hbig h32 v hm) U hU e).mpr ⟨h1, fun hu => h.2 (ho hu)⟩, h2⟩
  | err e => rw [C43_malformed T w e hm] at h; cases h
  | panic => simp [fromSlice, hm] at h
  | hang => simp [fromSlice, hm] at h

/-- A wider type for a person: the name is optional and owned, and a tag may be null and its
number is a double. -/
def personWide : Ty := .struct [(lit "Name", .option .string), (lit "Tags", .vec (.option (.struct [(lit "Id", .f64)])))]

omit [Platform] [FloatLib] in
theorem person_wider : Wider personType personWide := by
  refine .same (.struct rfl ?_)
  intro p hp
  simp only [List.zip_cons_cons, List.zip_nil_left, List.mem_cons, List.not_mem_nil, or_false] at hp
  rcases hp with rfl | rfl
  · exact .optional trivial .strToString
  · refine .same (.vec (.optional trivial (.struct rfl ?_)))
    intro p hp
    simp only [List.zip_cons_cons, List.zip_nil_left, List.mem_cons, List.not_mem_nil, or_false] at hp
    subst hp
    exact .same .intToF64

/-- What is read for the old data. -/
def personRead : Dyn := .struct [(lit "Name", .str (lit "Bob")), (lit "Tags", .seq [.struct [(lit "Id", .int 7)]])]

theorem person_decodes : Decodes personOld personType personRead := by
  refine .struct (.found (by simp) (.str _) (.found (List.mem_cons_of_mem _ (.head _)) (.vec (.array _) (.cons (.struct
    (.found (.head _) (.int rfl (by decide) (by decide)) (.nil _)) ?_) (.nil _))) (.nil _))) ?_
  · intro m hm hn
    rw [List.mem_singleton.mp hm] at hn
    exact absurd (by simp) hn
  · intro m hm hn
    simp only [List.mem_cons, List.not_mem_nil, or_false] at hm
    rcases hm with rfl | rfl <;> exact absurd (by simp) hn

omit [Platform] [FloatLib] in
theorem person_no_list : ∀ u, SubValue u personOld → ∀ items size, ¬ IsList u items size := by
  refine not_list_member (.inl (by simp)) ?_
  intro m hm
  simp only [List.mem_cons, List.not_mem_nil, or_false] at hm
  rcases hm with rfl | rfl
  · exact not_list_leaf trivial
  · refine not_list_item fun v hv => ?_
    rw [List.mem_singleton.mp hv]
    refine not_list_member (.inr (by kernel_decide)) fun m hm => ?_
    rw [List.mem_singleton.mp hm]
    exact not_list_leaf trivial

omit [Platform] [FloatLib] in
theorem personType_proper : personType.Proper := by
  refine .struct (by kernel_decide) ?_
  intro f hf
  simp only [List.mem_cons, List.not_mem_nil, or_false] at hf
  rcases hf with rfl | rfl
  · exact .str
  · refine .vec (.struct (by kernel_decide) ?_)
    intro f hf
    rw [List.mem_singleton.mp hf]
    exact .int _ _

omit [Platform] [FloatLib] in
theorem personWide_proper : personWide.Proper := by
  refine .struct (by kernel_decide) ?_
  intro f hf
  simp only [List.mem_cons, List.not_mem_nil, or_false] at hf
  rcases hf with rfl | rfl
  · exact .option .string
  · refine .vec (.option (.struct (by kernel_decide) ?_))
    intro f hf
    rw [List.mem_singleton.mp hf]
    exact .f64

/-- C73: the written message is read at the wider type, and the number becomes a double. -/
example (hdec : ∀ x : Dec, IsUtf8 (Platform.decimalToStr x)) :
    ∃ e, fromSlice personWide (write (.value personOld)) = .ok e ∧ Corresponds personRead e := by
  have hbig : usizeBits = 32 → ∀ v, deserialize (write (.value personOld)) = .ok (.value v) → ∀ u items size, SubValue u v →
      IsList u items size → items.length < 2 ^ 30 := by
    intro _ v hv u items size hu hl
    rw [person_old_ok] at hv
    cases hv
    exact absurd hl (person_no_list u hu _ _)
  exact C73 ((C58_from_slice person_old_ok hdec (fun h32 => hbig h32 _ person_old_ok) personType personType_proper (by simp [personType])
    personRead).mpr person_decodes) person_wider hdec hbig personType_proper personWide_proper (by simp [personWide])

/-- That the first type has no value for null is needed: a null is read as `()`, and at `Option<()>` as `None`. -/
example : Decodes .null .unit .unit ∧ ¬ ∃ e, Decodes .null (.option .unit) e ∧ Corresponds .unit e := by
  refine ⟨.unit, ?_⟩
  rintro ⟨e, h1, h2⟩
  cases h1 with
  | none => cases h2
  | some h => exact h rfl

end Nrbf
