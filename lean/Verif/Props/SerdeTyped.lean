import Verif.Spec.Typed
import Verif.Props.SerdeExact
import Verif.Props.Write

/-! # C59: Rust values that are stored and read back -/

set_option autoImplicit false

namespace Nrbf

open Spec

theorem storeAll_eq (cls lib : Str) (ds : List Dyn) : storeAll cls lib ds = ds.map (store cls lib) := by
  induction ds with
  | nil => rfl
  | cons d ds ih => simp [storeAll, ih]

theorem storeEntries_eq (cls lib : Str) (es : List (Str × Dyn)) :
    storeEntries cls lib es = es.map fun e => (e.1, store cls lib e.2) := by
  induction es with
  | nil => rfl
  | cons e es ih => obtain ⟨k, d⟩ := e; simp [storeEntries, ih]

theorem store_null {cls lib : Str} {T : Ty} {d : Dyn} (h : HasType T d) : store cls lib d = .null ↔ IsNullish d := by
  induction h with
  | int _ _ _ _ | anyInt _ _ => simp only [store, IsNullish, iff_false]; split <;> simp
  | some h hn ih => rw [store]; exact ⟨fun e => (hn (ih.mp e)).elim, False.elim⟩
  | _ => simp [store, IsNullish]

variable [Platform] [FloatLib]

theorem decodesAll_store {cls lib : Str} {T : Ty} : ∀ ds : List Dyn, (∀ d ∈ ds, Decodes (store cls lib d) T d) →
    DecodesAll (ds.map (store cls lib)) T ds
  | [], _ => .nil T
  | _ :: ds, h => .cons (h _ (by simp)) (decodesAll_store ds fun d hd => h d (by simp [hd]))

theorem decodesEach_store {cls lib : Str} : ∀ (Ts : List Ty) (ds : List Dyn), Ts.length = ds.length →
    (∀ p ∈ Ts.zip ds, Decodes (store cls lib p.2) p.1 p.2) → DecodesEach (ds.map (store cls lib)) Ts ds
  | [], [], _, _ => .nil
  | [], _ :: _, h, _ => by simp at h
  | _ :: _, [], h, _ => by simp at h
  | T :: Ts, d :: ds, h, hp =>
    .cons (hp (T, d) (by simp)) (decodesEach_store Ts ds (by simpa using h) fun p hm => hp p (by simp [hm]))

theorem entriesDecode_store {cls lib : Str} {T : Ty} : ∀ es : List (Str × Dyn),
    (∀ e ∈ es, Decodes (store cls lib e.2) T e.2) → EntriesDecode (es.map fun e => (e.1, store cls lib e.2)) T es
  | [], _ => .nil T
  | (k, d) :: es, h => .cons (h (k, d) (by simp)) (entriesDecode_store es fun e he => h e (by simp [he]))

theorem fieldsDecode_store {cls lib : Str} {ms : List (Str × Value)} : ∀ (fs : List (Str × Ty)) (es : List (Str × Dyn)),
    fs.map Prod.fst = es.map Prod.fst → (∀ e ∈ es, (e.1, store cls lib e.2) ∈ ms) →
    (∀ p ∈ fs.zip es, Decodes (store cls lib p.2.2) p.1.2 p.2.2) → FieldsDecode ms fs es
  | [], [], _, _, _ => .nil ms
  | [], _ :: _, h, _, _ => by simp at h
  | _ :: _, [], h, _, _ => by simp at h
  | (k, T) :: fs, (k', d) :: es, h, hm, hp => by
    simp only [List.map_cons, List.cons.injEq] at h
    obtain ⟨rfl, h⟩ := h
    exact .found (hm (k, d) (by simp)) (hp ((k, T), (k, d)) (by simp))
      (fieldsDecode_store fs es h (fun e he => hm e (by simp [he])) fun p hp' => hp p (by simp [hp']))

/-- **C59** A stored Rust value decodes to itself. -/
theorem C59_value (cls lib : Str) {T : Ty} {d : Dyn} (h : HasType T d) : Decodes (store cls lib d) T d := by
  induction h with
  | bool b => exact .bool b
  | @int lo hi n h1 h2 h3 h4 =>
    simp only [store]
    split
    · exact .int rfl h1 h2
    · refine .int ?_ h1 h2
      simp only [Value.integer?, Option.some.injEq]
      omega
  | f32 _ => exact .f32 _
  | f64 _ => exact .f64 _
  | char _ => exact .char _
  | str _ => exact .str _
  | string _ => exact .string _
  | unit => exact .unit
  | none T => exact .none T
  | some h hn ih => exact .some (fun e => hn ((store_null h).mp e)) ih
  | vec _ _ ih => simp only [store, storeAll_eq]; exact .vec (.array _) (decodesAll_store _ ih)
  | tuple _ hl _ ih => simp only [store, storeAll_eq]; exact .tuple (.array _) (decodesEach_store _ _ hl ih)
  | map _ _ _ _ ih =>
    simp only [store, storeEntries_eq]
    exact .map (.inl (by simp)) (entriesDecode_store _ ih)
  | @struct fs ds _ _ _ hf _ ih =>
    simp only [store, storeEntries_eq]
    refine .struct (fieldsDecode_store _ _ hf (fun e he => List.mem_map.mpr ⟨e, he, rfl⟩) ih) ?_
    intro m hm hk
    obtain ⟨e, he, rfl⟩ := List.mem_map.mp hm
    rw [hf] at hk
    exact absurd (List.mem_map_of_mem (f := Prod.fst) he) hk
  | newtype _ ih => exact .newtype (.array _) ih
  | ignored => exact .ignoredLeaf trivial
  | anyBool b => exact .anyLeaf rfl
  | anyF32 _ => exact .anyLeaf rfl
  | anyF64 _ => exact .anyLeaf rfl
  | anyChar _ => exact .anyLeaf rfl
  | anyStr _ => exact .anyLeaf rfl
  | anyUnit => exact .anyLeaf rfl
  | @anyInt n h1 h2 =>
    simp only [store]
    split
    · exact .anyLeaf rfl
    · refine .anyLeaf ?_
      simp only [Value.asIs, Value.integer?, Option.map_some, Option.some.injEq, Dyn.int.injEq]
      omega
  | anySeq _ _ ih => simp only [store, storeAll_eq]; exact .anyElements (.array _) (decodesAll_store _ ih)
  | anyMap _ _ _ _ ih =>
    simp only [store, storeEntries_eq]
    exact .anyMap (.inl (by simp)) (entriesDecode_store _ ih)

omit [FloatLib] in
theorem store_storable {cls lib : Str} (hc : StorableString cls) (hl : StorableString lib) {T : Ty} {d : Dyn}
    (h : HasType T d) : ∀ u, SubValue u (store cls lib d) → Storable u := by
  have obj : ∀ es : List (Str × Dyn), es.length < 2 ^ 31 → (es.map Prod.fst).Nodup →
      (∀ k ∈ es.map Prod.fst, StorableString k) → (∀ e ∈ es, ∀ u, SubValue u (store cls lib e.2) → Storable u) →
      ∀ u, SubValue u (.object cls (some lib) (storeEntries cls lib es)) → Storable u := by
    intro es h1 h2 h3 h4
    rw [storeEntries_eq]
    have hfst : (es.map fun e => (e.1, store cls lib e.2)).map Prod.fst = es.map Prod.fst := by
      rw [List.map_map]; rfl
    refine sub_object ⟨trivial, ?_, ?_, ?_⟩ ?_
    · simp only [NamesDistinct, hfst]; exact h2
    · intro s hs
      simp only [ownStrings, hfst, Option.toList, List.cons_append, List.nil_append, List.mem_cons] at hs
      rcases hs with rfl | rfl | hs
      · exact hc
      · exact hl
      · exact h3 s hs
    · simpa using h1
    · intro m hm
      obtain ⟨e, he, rfl⟩ := List.mem_map.mp hm
      exact h4 e he
  have arr : ∀ ds : List Dyn, ds.length < 2 ^ 31 → (∀ d ∈ ds, ∀ u, SubValue u (store cls lib d) → Storable u) →
      ∀ u, SubValue u (.array (storeAll cls lib ds)) → Storable u := by
    intro ds h1 h2
    rw [storeAll_eq]
    refine sub_array ⟨trivial, trivial, by simp [ownStrings], by simpa using h1⟩ ?_
    intro v hv
    obtain ⟨d, hd, rfl⟩ := List.mem_map.mp hv
    exact h2 d hd
  induction h with
  | @anyInt n h3 h4 =>
    simp only [store]
    split
    · exact leaf_storable ⟨⟨h3, by omega⟩, trivial, by simp [ownStrings], trivial⟩ (by simp) (by simp)
    · exact leaf_storable ⟨show n.toNat < 2 ^ 64 by omega, trivial, by simp [ownStrings], trivial⟩ (by simp) (by simp)
  | @int lo hi n h1 h2 h3 h4 =>
    simp only [store]
    split
    · exact leaf_storable ⟨⟨h3, by omega⟩, trivial, by simp [ownStrings], trivial⟩ (by simp) (by simp)
    · exact leaf_storable ⟨show n.toNat < 2 ^ 64 by omega, trivial, by simp [ownStrings], trivial⟩ (by simp) (by simp)
  | bool b | anyBool b => exact leaf_storable ⟨trivial, trivial, by simp [store, ownStrings], trivial⟩ (by simp [store]) (by simp [store])
  | f32 h | anyF32 h => exact leaf_storable ⟨h, trivial, by simp [store, ownStrings], trivial⟩ (by simp [store]) (by simp [store])
  | f64 h | anyF64 h => exact leaf_storable ⟨h, trivial, by simp [store, ownStrings], trivial⟩ (by simp [store]) (by simp [store])
  | char h | anyChar h => exact leaf_storable ⟨.inl (by omega), trivial, by simp [store, ownStrings], h⟩ (by simp [store]) (by simp [store])
  | str h | string h | anyStr h =>
    exact leaf_storable ⟨trivial, trivial, by simpa [store, ownStrings] using h, trivial⟩ (by simp [store]) (by simp [store])
  | unit | none | ignored | anyUnit =>
    exact leaf_storable ⟨trivial, trivial, by simp [store, ownStrings], trivial⟩ (by simp [store]) (by simp [store])
  | some _ _ ih => exact ih
  | @vec T ds h1 _ ih => exact arr ds h1 ih
  | @anySeq ds h1 _ ih => exact arr ds h1 ih
  | @tuple Ts ds h1 h2 _ ih =>
    refine arr ds h1 fun d hd => ?_
    obtain ⟨n, hn, rfl⟩ := List.mem_iff_getElem.mp hd
    exact ih (Ts[n]'(by omega), ds[n]) (List.mem_iff_getElem.mpr ⟨n, by simp; omega, by simp⟩)
  | @map T es h1 h2 h3 _ ih => exact obj es h1 h2 h3 ih
  | @anyMap es h1 h2 h3 _ ih => exact obj es h1 h2 h3 ih
  | @struct fs es h1 h2 h3 h4 _ ih =>
    have hlen : fs.length = es.length := by simpa using congrArg List.length h4
    refine obj es h1 h2 h3 fun e he => ?_
    obtain ⟨n, hn, rfl⟩ := List.mem_iff_getElem.mp he
    exact ih (fs[n]'(by omega), es[n]) (List.mem_iff_getElem.mpr ⟨n, by simp; omega, by simp⟩)
  | @newtype T d _ ih =>
    have := arr [d] (by simp) (by simpa using ih)
    rw [store]
    simpa [storeAll] using this

mutual
/-- No object in a stored value belongs to the system library. -/
theorem store_library (cls lib : Str) : ∀ (d : Dyn) (u : Value), SubValue u (store cls lib d) → ∀ c ms, u ≠ .object c none ms
  | .bool _, u, h => by cases h; simp [store]
  | .int n, u, h => by
    simp only [store] at h
    split at h <;> cases h <;> simp
  | .f32 _, u, h => by cases h; simp [store]
  | .f64 _, u, h => by cases h; simp [store]
  | .char _, u, h => by cases h; simp [store]
  | .str _, u, h => by cases h; simp [store]
  | .unit, u, h => by cases h; simp [store]
  | .none, u, h => by cases h; simp [store]
  | .ignored, u, h => by cases h; simp [store]
  | .some d, u, h => store_library cls lib d u h
  | .seq ds, u, h => sub_array (P := fun u => ∀ c ms, u ≠ .object c none ms) (by simp) (storeAll_library cls lib ds) u h
  | .tuple ds, u, h => sub_array (P := fun u => ∀ c ms, u ≠ .object c none ms) (by simp) (storeAll_library cls lib ds) u h
  | .map es, u, h => sub_object (P := fun u => ∀ c ms, u ≠ .object c none ms) (by simp) (storeEntries_library cls lib es) u h
  | .struct es, u, h => sub_object (P := fun u => ∀ c ms, u ≠ .object c none ms) (by simp) (storeEntries_library cls lib es) u h
  | .newtype d, u, h => sub_array (P := fun u => ∀ c ms, u ≠ .object c none ms) (by simp)
      (fun v hv => by rw [List.mem_singleton.mp hv]; exact store_library cls lib d) u h
theorem storeAll_library (cls lib : Str) : ∀ (ds : List Dyn), ∀ v ∈ storeAll cls lib ds, ∀ u, SubValue u v → ∀ c ms, u ≠ .object c none ms
  | [], v, hv => by cases hv
  | d :: ds, v, hv => by
    rcases List.mem_cons.mp hv with rfl | hv
    · exact store_library cls lib d
    · exact storeAll_library cls lib ds v hv
theorem storeEntries_library (cls lib : Str) : ∀ (es : List (Str × Dyn)), ∀ m ∈ storeEntries cls lib es, ∀ u, SubValue u m.2 → ∀ c ms, u ≠ .object c none ms
  | [], v, hv => by cases hv
  | (k, d) :: es, v, hv => by
    rcases List.mem_cons.mp hv with rfl | hv
    · exact store_library cls lib d
    · exact storeEntries_library cls lib es v hv
end

/-- Stored values meet what C58 asks for. -/
theorem stored_shaped {cls lib : Str} (hc : StorableString cls) (hl : StorableString lib) {T : Ty} {d : Dyn}
    (h : HasType T d) : Shaped (store cls lib d) := by
  intro u hu
  obtain ⟨h1, h2, -, h3⟩ := store_storable hc hl h u hu
  refine ⟨?_, h2, ?_⟩
  · rintro z rfl
    exact ⟨by simpa [FitsType] using h1.1, by simpa [FitsType] using h1.2⟩
  · rintro items size ⟨c, ms, _, rfl, _⟩
    exact absurd rfl (store_library cls lib d _ hu c ms)

/-- Types that a message can have at its root: a message is an object, an array, a string or null. -/
def Rootable : Ty → Dyn → Prop
  | .str, _ | .string, _ | .unit, _ | .vec _, _ | .tuple _, _ | .map _, _ | .struct _, _ | .newtype _, _ | .ignored, _ => True
  | .any, .str _ | .any, .unit | .any, .seq _ | .any, .map _ => True
  | _, _ => False

/-- **C59** Every Rust value of a supported type can be stored as a message, and `from_slice` at that
type reads it back, with the same nesting of sequences, maps, structs and options to any depth. -/
theorem C59 (cls lib : Str) (hc : StorableString cls) (hl : StorableString lib) {T : Ty} {d : Dyn} (h : HasType T d)
    (hT : T.Proper) (hroot : Rootable T d) (hsize : 1 + entities (store cls lib d) < 2 ^ 31) :
    fromSlice T (write (.value (store cls lib d))) = .ok d := by
  have hst := store_storable hc hl h
  have hplace : PlacesOk (.value (store cls lib d)) := by
    cases h <;> first | exact hroot.elim | exact .inl rfl | exact .inr rfl
  have hw : Writable (.value (store cls lib d)) := by
    refine ⟨hplace, ?_, by simp [topStrings], by simp [topValues], by simpa [topValues, itemEntities] using hsize⟩
    rintro u ⟨v, hv, hu⟩
    simp only [topValues, List.mem_singleton] at hv
    subst hv
    exact hst u hu
  have hopt : ∀ T', T ≠ .option T' := by rintro T' rfl; exact hroot
  rw [C43_value T _ _ (C57_write _ hw) hopt]
  have hshape := stored_shaped hc hl h
  rw [decodes_complete (C59_value cls lib h) hshape hT]
  rfl

/-! A struct with a vector of options, a map and a tuple. -/

/-- The type. -/
def typedExampleTy : Ty :=
  .struct [(lit "a", .vec (.option .i32)), (lit "b", .map .string), (lit "c", .tuple [.bool, .newtype .u64])]
/-- A value of it. -/
def typedExample : Dyn :=
  .struct [(lit "a", .seq [.some (.int (-7)), .none]), (lit "b", .map [(lit "k", .str (lit "v"))]),
    (lit "c", .tuple [.bool true, .newtype (.int (2 ^ 64 - 1))])]

omit [Platform] [FloatLib] in
theorem typedExample_ok : HasType typedExampleTy typedExample := by
  refine .struct (by decide) (by decide) ?_ rfl ?_
  · intro k hk
    simp only [List.map_cons, List.map_nil, List.mem_cons, List.not_mem_nil, or_false] at hk
    rcases hk with rfl | rfl | rfl <;> exact storableString (by decide +kernel) (by decide)
  · intro p hp
    simp only [List.zip_cons_cons, List.zip_nil_right, List.mem_cons, List.not_mem_nil, or_false] at hp
    rcases hp with rfl | rfl | rfl
    · refine .vec (by decide) fun d hd => ?_
      simp only [List.mem_cons, List.not_mem_nil, or_false] at hd
      rcases hd with rfl | rfl
      · exact .some (.int (by decide) (by decide) (by decide) (by decide)) (by simp [IsNullish])
      · exact .none _
    · refine .map (by decide) (by decide) ?_ ?_
      · intro k hk
        simp only [List.map_cons, List.map_nil, List.mem_cons, List.not_mem_nil, or_false] at hk
        rcases hk with rfl
        exact storableString (by decide +kernel) (by decide)
      · intro e he
        simp only [List.mem_cons, List.not_mem_nil, or_false] at he
        rcases he with rfl
        exact .string (storableString (by decide +kernel) (by decide))
    · refine .tuple (by decide) rfl fun q hq => ?_
      simp only [List.zip_cons_cons, List.zip_nil_right, List.mem_cons, List.not_mem_nil, or_false] at hq
      rcases hq with rfl | rfl
      · exact .bool true
      · exact .newtype (.int (by decide) (by decide) (by decide) (by decide))

omit [Platform] [FloatLib] in
theorem typedExampleTy_proper : typedExampleTy.Proper := by
  refine .struct (by decide) fun f hf => ?_
  simp only [List.mem_cons, List.not_mem_nil, or_false] at hf
  rcases hf with rfl | rfl | rfl
  · exact .vec (.option (.int _ _))
  · exact .map .string
  · refine .tuple fun T hT => ?_
    simp only [List.mem_cons, List.not_mem_nil, or_false] at hT
    rcases hT with rfl | rfl
    · exact .bool
    · exact .newtype (.int _ _)

example : fromSlice typedExampleTy (write (.value (store (lit "Config") (lit "App") typedExample))) = .ok typedExample :=
  C59 _ _ (storableString (by decide +kernel) (by decide)) (storableString (by decide +kernel) (by decide))
    typedExample_ok typedExampleTy_proper trivial (by decide)

/-- The hypotheses of `C58` are met by the same value. -/
example (hdec : ∀ x : Dec, IsUtf8 (Platform.decimalToStr x)) :
    Sane (store (lit "Config") (lit "App") typedExample) ∧ typedExampleTy.Proper ∧
      Decodes (store (lit "Config") (lit "App") typedExample) typedExampleTy typedExample := by
  refine ⟨fun u hu => ?_, typedExampleTy_proper, C59_value _ _ typedExample_ok⟩
  obtain ⟨h1, h2, h3, h4⟩ := store_storable (storableString (by decide +kernel) (by decide))
    (storableString (by decide +kernel) (by decide)) typedExample_ok u hu
  refine ⟨h1, h2, ?_, fun d _ => hdec d, ?_⟩
  · rintro s rfl
    exact (h3 s (by simp [ownStrings])).1
  · rintro items size ⟨c, ms, _, rfl, _⟩
    exact absurd rfl (store_library _ _ typedExample _ hu c ms)

end Nrbf
