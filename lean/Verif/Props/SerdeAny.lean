import Verif.Spec.Image
import Verif.Props.SerdeExact

/-! # C69: self-describing types -/

set_option autoImplicit false

namespace Nrbf

open Spec

variable [Platform] [FloatLib]

omit [FloatLib] in
theorem BoxedPrim.asIs {name : Str} {P : Ty} {x : Dyn} {s : Value} (h : BoxedPrim name P x s) : s.asIs = some x := by
  cases h <;> rfl

omit [FloatLib] in
theorem asIs_of_leaf {v : Value} (h : IsLeaf v) : ∃ d, v.asIs = some d := by
  cases v <;> first | exact h.elim | exact ⟨_, rfl⟩

omit [FloatLib] in
theorem leaf_of_asIs {v : Value} {d : Dyn} (h : v.asIs = some d) : IsLeaf v := by
  cases v <;> first | trivial | cases h

theorem Elements.mono {n m : Nat} (hn : n ≤ m) {v : Value} {vs : List Value} (h : Elements n v vs) : Elements m v vs := by
  cases h with
  | array => exact .array _
  | list h1 h2 => exact .list h1 (by omega)

theorem decodesAll_iff {vs : List Value} {T : Ty} {ds : List Dyn} :
    DecodesAll vs T ds ↔ vs.length = ds.length ∧ ∀ p ∈ vs.zip ds, Decodes p.1 T p.2 := by
  induction vs generalizing ds with
  | nil =>
    constructor
    · intro h; cases h; simp
    · rintro ⟨h, -⟩
      cases ds with
      | nil => exact .nil T
      | cons => simp at h
  | cons v vs ih =>
    constructor
    · intro h
      cases h with
      | cons h1 h2 =>
        obtain ⟨h3, h4⟩ := ih.mp h2
        exact ⟨by simp [h3], by simpa using ⟨h1, fun a b h => h4 (a, b) h⟩⟩
    · rintro ⟨h1, h2⟩
      cases ds with
      | nil => simp at h1
      | cons d ds =>
        exact .cons (h2 (v, d) (by simp)) (ih.mpr ⟨by simpa using h1, fun p hp => h2 p (by simp [hp])⟩)

theorem entriesDecode_iff {ms : List (Str × Value)} {T : Ty} {ds : List (Str × Dyn)} :
    EntriesDecode ms T ds ↔ ms.map Prod.fst = ds.map Prod.fst ∧ ∀ p ∈ ms.zip ds, Decodes p.1.2 T p.2.2 := by
  induction ms generalizing ds with
  | nil =>
    constructor
    · intro h; cases h; simp
    · rintro ⟨h, -⟩
      cases ds with
      | nil => exact .nil T
      | cons => simp at h
  | cons m ms ih =>
    obtain ⟨k, v⟩ := m
    constructor
    · intro h
      cases h with
      | cons h1 h2 =>
        obtain ⟨h3, h4⟩ := ih.mp h2
        refine ⟨by simp [h3], fun p hp => ?_⟩
        rcases List.mem_cons.mp hp with rfl | hp
        · exact h1
        · exact h4 p hp
    · rintro ⟨h1, h2⟩
      cases ds with
      | nil => simp at h1
      | cons d ds =>
        obtain ⟨k', d⟩ := d
        simp only [List.map_cons, List.cons.injEq] at h1
        obtain ⟨hk, h1⟩ := h1
        subst hk
        exact .cons (h2 ((k, v), (k, d)) (by simp)) (ih.mpr ⟨h1, fun p hp => h2 p (by simp [hp])⟩)

/-- The image is what is read at a self-describing type. -/
theorem decodes_of_image {v : Value} {d : Dyn} (h : Image v d) : Decodes v .any d := by
  induction h with
  | leaf h => exact .anyLeaf h
  | sequence h1 h2 _ ih => exact .anyElements h1 (decodesAll_iff.mpr ⟨h2, ih⟩)
  | map h1 h2 _ ih => exact .anyMap h1 (entriesDecode_iff.mpr ⟨h2, ih⟩)
  | boxed h1 h2 h3 => exact .boxed h1 h2 h3 (by simp) (by simp) (.anyLeaf h2.asIs)

mutual
theorem image_of_decodes {v : Value} {T : Ty} {d : Dyn} : Decodes v T d → T = .any → Image v d
  | .anyLeaf h, _ => .leaf h
  | .anyElements h1 h2, _ => by
    obtain ⟨h3, h4⟩ := images_of_decodes h2 rfl
    exact .sequence h1 h3 h4
  | .anyMap h1 h2, _ => by
    obtain ⟨h3, h4⟩ := entries_of_decodes h2 rfl
    exact .map h1 h3 h4
  | .boxed h1 h2 h3 h4 h5 h6, e => by
    subst e
    have h := h2.asIs
    cases h6 with
    | anyLeaf h' => rw [h] at h'; cases h'; exact .boxed h1 h2 h3
    | anyElements h' => cases h2 <;> (cases h'; rename_i hl _; obtain ⟨_, _, _, he, _⟩ := hl; cases he)
    | anyMap => cases h2
    | boxed => cases h2
theorem images_of_decodes {vs : List Value} {T : Ty} {ds : List Dyn} : DecodesAll vs T ds → T = .any →
    vs.length = ds.length ∧ ∀ p ∈ vs.zip ds, Image p.1 p.2
  | .nil _, _ => by simp
  | .cons h1 h2, e => by
    have h3 := image_of_decodes h1 e
    obtain ⟨h4, h5⟩ := images_of_decodes h2 e
    exact ⟨by simp [h4], by simpa using ⟨h3, fun a b h => h5 (a, b) h⟩⟩
theorem entries_of_decodes {ms : List (Str × Value)} {T : Ty} {ds : List (Str × Dyn)} : EntriesDecode ms T ds → T = .any →
    ms.map Prod.fst = ds.map Prod.fst ∧ ∀ p ∈ ms.zip ds, Image p.1.2 p.2.2
  | .nil _, _ => by simp
  | .cons h1 h2, e => by
    have h3 := image_of_decodes h1 e
    obtain ⟨h4, h5⟩ := entries_of_decodes h2 e
    refine ⟨by simp [h4], fun p hp => ?_⟩
    rcases List.mem_cons.mp hp with rfl | hp
    · exact h3
    · exact h5 p hp
end

theorem image_iff {v : Value} {d : Dyn} : Decodes v .any d ↔ Image v d :=
  ⟨fun h => image_of_decodes h rfl, decodes_of_image⟩

mutual
/-- Whatever can be read without structs has an image. -/
theorem has_image {v : Value} {T : Ty} {d : Dyn} : Decodes v T d → Structless T → ∃ d', Image v d'
  | .bool _, _ => ⟨_, .leaf rfl⟩
  | .int (v := v) h _ _, _ => by cases v <;> first | exact ⟨_, .leaf rfl⟩ | cases h
  | .f32 _, _ => ⟨_, .leaf rfl⟩
  | .f32OfDouble _, _ => ⟨_, .leaf rfl⟩
  | .f32OfInteger (v := v) h, _ => by cases v <;> first | exact ⟨_, .leaf rfl⟩ | cases h
  | .f64 _, _ => ⟨_, .leaf rfl⟩
  | .f64OfSingle _, _ => ⟨_, .leaf rfl⟩
  | .f64OfInteger (v := v) h, _ => by cases v <;> first | exact ⟨_, .leaf rfl⟩ | cases h
  | .char _, _ => ⟨_, .leaf rfl⟩
  | .charOfString _, _ => ⟨_, .leaf rfl⟩
  | .charOfDecimal _ _ _, _ => ⟨_, .leaf rfl⟩
  | .str _, _ => ⟨_, .leaf rfl⟩
  | .string _, _ => ⟨_, .leaf rfl⟩
  | .stringOfDecimal _, _ => ⟨_, .leaf rfl⟩
  | .stringOfChar _, _ => ⟨_, .leaf rfl⟩
  | .unit, _ => ⟨_, .leaf rfl⟩
  | .none _, _ => ⟨_, .leaf rfl⟩
  | .some _ h, hT => has_image h (by cases hT; assumption)
  | .vec h1 h2, hT => by
    obtain ⟨ds, h3, h4⟩ := have_images h2 (by cases hT; assumption)
    exact ⟨_, .sequence h1 h3 h4⟩
  | .tuple h1 h2, hT => by
    obtain ⟨ds, h3, h4⟩ := have_images_each h2 (by cases hT; assumption)
    exact ⟨_, .sequence (h1.mono (by decide)) h3 h4⟩
  | .newtype (w := w) h1 h2, hT => by
    obtain ⟨d', h⟩ := has_image h2 (by cases hT; assumption)
    exact ⟨.seq [d'], .sequence (h1.mono (by decide)) rfl (by simpa using h)⟩
  | .map h1 h2, hT => by
    obtain ⟨ds, h3, h4⟩ := have_entries h2 (by cases hT; assumption)
    exact ⟨_, .map h1 h3 h4⟩
  | .struct _ _, hT => nomatch hT
  | .structOfArray _, hT => nomatch hT
  | .boxed h1 h2 h3 _ _ _, _ => ⟨_, .boxed h1 h2 h3⟩
  | .ignoredLeaf h, _ => by
    obtain ⟨d, h⟩ := asIs_of_leaf h
    exact ⟨d, .leaf h⟩
  | .ignoredElements h1 h2, hT => by
    obtain ⟨ds, h3, h4⟩ := have_images h2 hT
    exact ⟨_, .sequence h1 h3 h4⟩
  | .ignoredMap h1 h2, hT => by
    obtain ⟨ds, h3, h4⟩ := have_entries h2 hT
    exact ⟨_, .map h1 h3 h4⟩
  | .anyLeaf h, _ => ⟨_, .leaf h⟩
  | .anyElements h1 h2, hT => by
    obtain ⟨ds, h3, h4⟩ := have_images h2 hT
    exact ⟨_, .sequence h1 h3 h4⟩
  | .anyMap h1 h2, hT => by
    obtain ⟨ds, h3, h4⟩ := have_entries h2 hT
    exact ⟨_, .map h1 h3 h4⟩
theorem have_images {vs : List Value} {T : Ty} {ds : List Dyn} : DecodesAll vs T ds → Structless T →
    ∃ ds' : List Dyn, vs.length = ds'.length ∧ ∀ p ∈ vs.zip ds', Image p.1 p.2
  | .nil _, _ => ⟨[], by simp⟩
  | .cons h1 h2, hT => by
    obtain ⟨d', h3⟩ := has_image h1 hT
    obtain ⟨ds', h4, h5⟩ := have_images h2 hT
    exact ⟨d' :: ds', by simp [h4], by simpa using ⟨h3, fun a b h => h5 (a, b) h⟩⟩
theorem have_images_each {vs : List Value} {Ts : List Ty} {ds : List Dyn} : DecodesEach vs Ts ds →
    (∀ T ∈ Ts, Structless T) → ∃ ds' : List Dyn, vs.length = ds'.length ∧ ∀ p ∈ vs.zip ds', Image p.1 p.2
  | .nil, _ => ⟨[], by simp⟩
  | .cons h1 h2, hT => by
    obtain ⟨d', h3⟩ := has_image h1 (hT _ (by simp))
    obtain ⟨ds', h4, h5⟩ := have_images_each h2 (fun T h => hT T (by simp [h]))
    exact ⟨d' :: ds', by simp [h4], by simpa using ⟨h3, fun a b h => h5 (a, b) h⟩⟩
theorem have_entries {ms : List (Str × Value)} {T : Ty} {ds : List (Str × Dyn)} : EntriesDecode ms T ds → Structless T →
    ∃ ds' : List (Str × Dyn), ms.map Prod.fst = ds'.map Prod.fst ∧ ∀ p ∈ ms.zip ds', Image p.1.2 p.2.2
  | .nil _, _ => ⟨[], by simp⟩
  | .cons (k := k) h1 h2, hT => by
    obtain ⟨d', h3⟩ := has_image h1 hT
    obtain ⟨ds', h4, h5⟩ := have_entries h2 hT
    refine ⟨(k, d') :: ds', by simp [h4], fun p hp => ?_⟩
    rcases List.mem_cons.mp hp with rfl | hp
    · exact h3
    · exact h5 p hp
end

/-- A list of things to ignore is ignored. -/
theorem ignored_all {vs : List Value} (h : ∀ v ∈ vs, Decodes v .ignored .ignored) : ∃ ds, DecodesAll vs .ignored ds := by
  induction vs with
  | nil => exact ⟨[], .nil _⟩
  | cons v vs ih =>
    obtain ⟨ds, hd⟩ := ih fun u hu => h u (by simp [hu])
    exact ⟨_ :: ds, .cons (h v (by simp)) hd⟩

theorem ignored_entries {ms : List (Str × Value)} (h : ∀ m ∈ ms, Decodes m.2 .ignored .ignored) :
    ∃ ds, EntriesDecode ms .ignored ds := by
  induction ms with
  | nil => exact ⟨[], .nil _⟩
  | cons m ms ih =>
    obtain ⟨ds, hd⟩ := ih fun u hu => h u (by simp [hu])
    obtain ⟨k, v⟩ := m
    exact ⟨(k, .ignored) :: ds, .cons (h (k, v) (by simp)) hd⟩

theorem exists_zip {α β : Type} {as : List α} {bs : List β} (h : as.length = bs.length) {a : α} (ha : a ∈ as) :
    ∃ b, (a, b) ∈ as.zip bs := by
  obtain ⟨i, hi, rfl⟩ := List.getElem_of_mem ha
  refine ⟨bs[i]'(by omega), ?_⟩
  have := List.getElem_mem (l := as.zip bs) (n := i) (by simp; omega)
  rwa [List.getElem_zip] at this

/-- What has an image can be ignored. -/
theorem ignored_of_image {v : Value} {d : Dyn} (h : Image v d) : Decodes v .ignored .ignored := by
  induction h with
  | leaf h => exact .ignoredLeaf (leaf_of_asIs h)
  | @sequence v vs ds h1 h2 _ ih =>
    obtain ⟨ds, hd⟩ := ignored_all (vs := vs) fun u hu => by
      obtain ⟨x, hx⟩ := exists_zip h2 hu
      exact ih _ hx
    exact .ignoredElements h1 hd
  | @map cls lib ms ds h1 h2 _ ih =>
    obtain ⟨ds, hd⟩ := ignored_entries (ms := ms) fun u hu => by
      obtain ⟨x, hx⟩ := exists_zip (by simpa using congrArg List.length h2) hu
      exact ih _ hx
    exact .ignoredMap h1 hd
  | boxed h1 h2 h3 => exact .boxed h1 h2 h3 (by simp) (by simp) (.ignoredLeaf (leaf_of_asIs h2.asIs))

section
variable {w : Bytes} {v : Value} (h : deserialize w = .ok (.value v)) (hdec : ∀ x : Dec, IsUtf8 (Platform.decimalToStr x))
  (hbig : usizeBits = 32 → ∀ u items size, SubValue u v → IsList u items size → items.length < 2 ^ 30)
include h hdec hbig

/-- **C69** `from_slice` of a message with a value into a self-describing type gives the image of the value. -/
theorem C69 (d : Dyn) : fromSlice .any w = .ok d ↔ Image v d := by
  rw [C58_from_slice h hdec hbig .any .any (by simp) d, image_iff]

/-- **C69** No value has two images. -/
theorem C69_unique {d d' : Dyn} (h1 : Image v d) (h2 : Image v d') : d = d' :=
  C58_unique (parsed_sane h hdec hbig) .any (image_iff.mpr h1) (image_iff.mpr h2)

/-- **C69** A self-describing type asks the least: if the message can be read at any type without structs, it can be
read at a self-describing type. -/
theorem C69_least (T : Ty) (hT : Structless T) (hp : T.Proper) (d : Dyn)
    (hd : fromSlice T w = .ok d) : ∃ d', fromSlice .any w = .ok d' := by
  obtain ⟨d', h'⟩ := has_image ((C58_root h hdec hbig T hp d).mp hd).1 hT
  exact ⟨d', (C69 h hdec hbig d').mpr h'⟩

/-- **C69** Ignoring a value and keeping all of it succeed for the same messages. -/
theorem C69_ignored : (∃ d, fromSlice .any w = .ok d) ↔ fromSlice .ignored w = .ok .ignored := by
  constructor
  · rintro ⟨d, hd⟩
    exact (C58_from_slice h hdec hbig .ignored .ignored (by simp) _).mpr (ignored_of_image ((C69 h hdec hbig d).mp hd))
  · exact C69_least h hdec hbig .ignored .ignored .ignored _

end

/-! A record with a number, a boxed number, a list with spare capacity and a null. -/

/-- The value. -/
def mixedObject : Value :=
  .object (lit "Mixed") (some (lit "Lib")) [(lit "n", .uint16 7), (lit "b", .object (lit "System.Int32") none [(lit "m_value", .int32 (-1))]),
    (lit "l", .object (lit "System.Collections.Generic.List`1[[System.String]]") none
      [(lit "_items", .array [.string (lit "x"), .null]), (lit "_size", .int32 1), (lit "_version", .int32 4)]), (lit "z", .null)]

/-- Its image. -/
def mixedImage : Dyn :=
  .map [(lit "n", .int 7), (lit "b", .int (-1)), (lit "l", .seq [.str (lit "x")]), (lit "z", .unit)]

theorem mixed_image : Image mixedObject mixedImage := by
  refine .map (.inl (by simp)) rfl ?_
  intro p hp
  simp only [List.zip_cons_cons, List.zip_nil_left, List.mem_cons, List.not_mem_nil, or_false] at hp
  rcases hp with rfl | rfl | rfl | rfl
  · exact .leaf rfl
  · exact .boxed (by kernel_decide) (.int32 (-1) ⟨by decide, by decide⟩) (.int rfl (by decide) (by decide))
  · refine .sequence (vs := [.string (lit "x")]) (.list (slack := 1) (items := [.string (lit "x"), .null]) (size := 1) ⟨_, _, 4, rfl, by kernel_decide, rfl, by kernel_decide, ?_, ?_, ?_⟩ (by decide)) rfl ?_
    · simp
    · simp
    · simp
    · intro p hp
      simp only [List.zip_cons_cons, List.zip_nil_left, List.mem_cons, List.not_mem_nil, or_false] at hp
      subst hp
      exact .leaf rfl
  · exact .leaf rfl

/-- A boxed integer that holds null has no image: it cannot be read at all without a struct. -/
theorem bad_box_image (d : Dyn) : ¬ Image (.object (lit "System.Int32") none [(lit "m_value", .null)]) d := by
  intro h
  cases h with
  | leaf h => cases h
  | sequence h => cases h with | list h => obtain ⟨_, _, _, he, h, _⟩ := h; cases he; exact absurd h (by kernel_decide)
  | map h => rcases h with h | h
             · exact h rfl
             · exact h (by kernel_decide)
  | boxed h1 h2 h3 =>
    have : ∀ {P : Ty}, (P = .bool ∨ (∃ a b, P = .int a b)) → ¬ Decodes .null P d := by
      rintro P (rfl | ⟨a, b, rfl⟩) h
      · cases h
      · cases h with | int h => cases h
    cases h2 <;> first
      | exact this (.inl rfl) h3
      | exact this (.inr ⟨_, _, rfl⟩) h3
      | exact absurd h1 (by kernel_decide)

end Nrbf
