import Verif.Spec.ReadFrom
import Verif.Props.SerdeExact

/-! # C66: what `from_slice` returns is of the type asked for, and its text is in the input -/

set_option autoImplicit false

namespace Nrbf

open Spec

variable [Platform] [FloatLib]

/-- What is needed of a value: strings are slices of `w`, characters are characters, integers have at most 64 bits, names
are distinct. -/
def Fine (w : Bytes) (v : Value) : Prop :=
  ∀ u, SubValue u v → (∀ s ∈ ownStrings u, s <:+: w ∧ IsUtf8 s) ∧ NamesDistinct u ∧ (∀ c, u = .char c → IsScalar c) ∧
    ∀ n, u.integer? = some n → -2 ^ 63 ≤ n ∧ n < 2 ^ 64

omit [Platform] [FloatLib] in
theorem scalar_toNat (c : Char) : IsScalar c.toNat := by
  have := c.valid
  simp only [UInt32.isValidChar, Nat.isValidChar] at this
  simp only [IsScalar, Char.toNat]
  omega

omit [Platform] [FloatLib] in
theorem Fine.elements {w : Bytes} {slack : Nat} {v : Value} {vs : List Value} (h : Fine w v) (he : Elements slack v vs) :
    ∀ u ∈ vs, Fine w u := by
  intro u hu x hx
  cases he with
  | array => exact h x (.item hu hx)
  | list hl _ =>
    obtain ⟨cls, ms, ver, rfl, -, -, -, hi, -, -⟩ := hl
    exact h x (.member hi (.item (List.mem_of_mem_take hu) hx))

omit [Platform] [FloatLib] in
theorem Fine.member {w : Bytes} {c : Str} {l : Option Str} {ms : List (Str × Value)} (h : Fine w (.object c l ms)) {k : Str}
    {v : Value} (hm : (k, v) ∈ ms) : Fine w v := fun u hu => h u (.member hm hu)

omit [Platform] [FloatLib] in
/-- A leaf without text. -/
theorem fine_leaf {w : Bytes} {v : Value} (hl : IsLeaf v) (hs : ∀ s, v ≠ .string s) (hc : ∀ c, v = .char c → IsScalar c)
    (hn : ∀ n, v.integer? = some n → -2 ^ 63 ≤ n ∧ n < 2 ^ 64) : Fine w v := by
  intro u hu
  cases hu with
  | refl =>
    refine ⟨?_, ?_, hc, hn⟩
    · cases v <;> first | exact hl.elim | exact absurd rfl (hs _) | simp [ownStrings]
    · cases v <;> first | exact hl.elim | trivial
  | item => exact hl.elim
  | member => exact hl.elim

omit [FloatLib] in
theorem readFrom_leaf {w : Bytes} {v : Value} {d : Dyn} (h : v.asIs = some d) (hv : Fine w v) : ReadFrom w .any d := by
  obtain ⟨h1, -, h3, h4⟩ := hv _ (.refl _)
  cases v
  case object => cases h
  case array => cases h
  case boolean b => cases h; exact .anyBool b
  case single b => cases h; exact .anyF32 b
  case double b => cases h; exact .anyF64 b
  case char c => cases h; exact .anyChar (h3 c rfl)
  case null => cases h; exact .anyUnit
  case decimal x => cases h; exact .anyDecimal x
  case string s => cases h; exact .anyStr (h1 s (by simp [ownStrings])).1 (h1 s (by simp [ownStrings])).2
  all_goals
    cases h
    obtain ⟨a, b⟩ := h4 _ rfl
    exact .anyInt a b

mutual
theorem readFrom_of {w : Bytes} {v : Value} {T : Ty} {d : Dyn} :
    Decodes v T d → (Fine w v) → ReadFrom w T d
  | .bool b, hv => by exact .bool b
  | .int _ h1 h2, hv => by exact .int h1 h2
  | .f32 b, hv => by exact .f32 b
  | .f32OfDouble b, hv => by exact .f32 _
  | .f32OfInteger _, hv => by exact .f32 _
  | .f64 b, hv => by exact .f64 b
  | .f64OfSingle b, hv => by exact .f64 _
  | .f64OfInteger _, hv => by exact .f64 _
  | .char c, hv => by exact .char ((hv _ (.refl _)).2.2.1 c rfl)
  | .charOfString c, hv => by exact .char (scalar_toNat c)
  | .charOfDecimal d c _, hv => by exact .char (scalar_toNat c)
  | .str s, hv => by
    obtain ⟨h1, h2⟩ := (hv _ (.refl _)).1 s (by simp [ownStrings])
    exact .borrowed h1 h2
  | .string s, hv => by
    obtain ⟨h1, h2⟩ := (hv _ (.refl _)).1 s (by simp [ownStrings])
    exact .owned h1 h2
  | .stringOfDecimal d, hv => by exact .ofDecimal d
  | .stringOfChar c, hv => by exact .ofChar _
  | .unit, hv => by exact .unit
  | .none T, hv => by exact .none T
  | .some _ hd, hv => by exact .some (readFrom_of hd hv)
  | .vec he hd, hv => by exact .vec (readFrom_all hd (hv.elements he))
  | .tuple he hd, hv => by
    obtain ⟨h1, h2⟩ := readFrom_each hd (hv.elements he)
    exact .tuple h1 h2
  | .newtype he hd, hv => by exact .newtype (readFrom_of hd (hv.elements he _ List.mem_cons_self))
  | @Decodes.map _ _ cls lib ms T ds _ hd, hv => by
    obtain ⟨h1, h2⟩ := readFrom_entries hd fun k u hu => hv.member hu
    refine .map ?_ ?_ h2
    · rw [h1]; exact (hv _ (.refl _)).2.1
    · intro k hk
      rw [h1] at hk
      exact (hv _ (.refl _)).1 k (by simp only [ownStrings, List.cons_append, List.mem_cons, List.mem_append]; exact .inr (.inr hk))
  | .struct hf _, hv => by
    obtain ⟨h1, h2⟩ := readFrom_fields hf fun k u hu => hv.member hu
    exact .struct h1 h2
  | @Decodes.structOfArray _ _ vs fs ds hd, hv => by
    obtain ⟨h1, h2⟩ := readFrom_each hd (hv.elements (.array (slack := 0) vs))
    simp only [List.length_map] at h1
    refine .struct (by rw [List.map_fst_zip (by simp; omega)]) ?_
    rintro ⟨⟨k, S⟩, ⟨k', d⟩⟩ hp
    obtain ⟨i, hi⟩ := List.getElem?_of_mem hp
    rw [List.getElem?_zip_eq_some] at hi
    obtain ⟨hi1, hi2⟩ := hi
    rw [List.getElem?_zip_eq_some] at hi2
    refine h2 (S, d) (List.mem_of_getElem? (i := i) ?_)
    rw [List.getElem?_zip_eq_some]
    exact ⟨by simp [hi1], hi2.2⟩
  | @Decodes.boxed _ _ cls name m s P T x d _ hb hx _ _ hd, hv => by
    have hr := readFrom_of hx (hv.member List.mem_cons_self)
    refine readFrom_of hd ?_
    cases hb with
    | char c =>
      refine fine_leaf trivial (by simp) (fun c' hc => ?_) (by simp [Value.integer?])
      cases hc
      cases hr with
      | char h => exact h
    | boolean | double | single => exact fine_leaf trivial (by simp) (by simp) (by simp [Value.integer?])
    | byte _ h | uint16 _ h | uint32 _ h | uint64 _ h =>
      refine fine_leaf trivial (by simp) (by simp) fun n hn => ?_
      cases hn
      omega
    | sbyte _ h | int16 _ h | int32 _ h | int64 _ h =>
      refine fine_leaf trivial (by simp) (by simp) fun n hn => ?_
      cases hn
      simp [InSigned] at h
      omega
  | .ignoredLeaf _, hv => by exact .ignored
  | .ignoredElements _ _, hv => by exact .ignored
  | .ignoredMap _ _, hv => by exact .ignored
  | .anyLeaf h, hv => readFrom_leaf h hv
  | .anyElements he hd, hv => by exact .anySeq (readFrom_all hd (hv.elements he))
  | @Decodes.anyMap _ _ cls lib ms ds _ hd, hv => by
    obtain ⟨h1, h2⟩ := readFrom_entries hd fun k u hu => hv.member hu
    refine .anyMap ?_ ?_ h2
    · rw [h1]; exact (hv _ (.refl _)).2.1
    · intro k hk
      rw [h1] at hk
      exact (hv _ (.refl _)).1 k (by simp only [ownStrings, List.cons_append, List.mem_cons, List.mem_append]; exact .inr (.inr hk))
theorem readFrom_all {w : Bytes} {vs : List Value} {T : Ty} {ds : List Dyn} :
    DecodesAll vs T ds → (∀ v ∈ vs, Fine w v) → ∀ d ∈ ds, ReadFrom w T d
  | .nil T, hv => by simp
  | .cons h1 h2, hv => by
    have e1 := readFrom_of h1 (hv _ List.mem_cons_self)
    have e2 := readFrom_all h2 (fun v hv' => hv v (List.mem_cons_of_mem _ hv'))
    intro d hd
    rcases List.mem_cons.mp hd with rfl | hd
    · exact e1
    · exact e2 d hd
theorem readFrom_each {w : Bytes} {vs : List Value} {Ts : List Ty} {ds : List Dyn} :
    DecodesEach vs Ts ds → (∀ v ∈ vs, Fine w v) → Ts.length = ds.length ∧ ∀ p ∈ Ts.zip ds, ReadFrom w p.1 p.2
  | .nil, hv => by simp
  | .cons h1 h2, hv => by
    obtain ⟨e1, e2⟩ := readFrom_each h2 (fun v hv' => hv v (List.mem_cons_of_mem _ hv'))
    have e3 := readFrom_of h1 (hv _ List.mem_cons_self)
    refine ⟨by simpa using e1, ?_⟩
    intro p hp
    rcases List.mem_cons.mp (by simpa only [List.zip_cons_cons] using hp) with rfl | hp
    · exact e3
    · exact e2 p hp
theorem readFrom_entries {w : Bytes} {ms : List (Str × Value)} {T : Ty} {ds : List (Str × Dyn)} :
    EntriesDecode ms T ds → (∀ k v, (k, v) ∈ ms → Fine w v) → ds.map Prod.fst = ms.map Prod.fst ∧ ∀ e ∈ ds, ReadFrom w T e.2
  | .nil T, hv => by simp
  | .cons h1 h2, hv => by
    obtain ⟨e1, e2⟩ := readFrom_entries h2 (fun k v hv' => hv k v (List.mem_cons_of_mem _ hv'))
    have e3 := readFrom_of h1 (hv _ _ List.mem_cons_self)
    refine ⟨by simpa using e1, ?_⟩
    intro p hp
    rcases List.mem_cons.mp hp with rfl | hp
    · exact e3
    · exact e2 p hp
theorem readFrom_fields {w : Bytes} {ms : List (Str × Value)} {fs : List (Str × Ty)} {ds : List (Str × Dyn)}
    :
    FieldsDecode ms fs ds → (∀ k v, (k, v) ∈ ms → Fine w v) → fs.map Prod.fst = ds.map Prod.fst ∧ ∀ p ∈ fs.zip ds, ReadFrom w p.1.2 p.2.2
  | .nil ms, hv => by simp
  | .found hm h1 h2, hv => by
    obtain ⟨e1, e2⟩ := readFrom_fields h2 hv
    have e3 := readFrom_of h1 (hv _ _ hm)
    refine ⟨by simpa using e1, ?_⟩
    intro p hp
    rcases List.mem_cons.mp (by simpa only [List.zip_cons_cons] using hp) with rfl | hp
    · exact e3
    · exact e2 p hp
  | .missing _ h2, hv => by
    obtain ⟨e1, e2⟩ := readFrom_fields h2 hv
    refine ⟨by simpa using e1, ?_⟩
    intro p hp
    rcases List.mem_cons.mp (by simpa only [List.zip_cons_cons] using hp) with rfl | hp
    · exact .none _
    · exact e2 p hp
end

/-- What is parsed is fine. -/
theorem parsed_fine {w : Bytes} {v : Value} (h : deserialize w = .ok (.value v)) : Fine w v := by
  intro u hu
  have hin : ValueIn u (.value v) := ⟨v, by simp [topValues], hu⟩
  obtain ⟨h1, h2, h3, -⟩ := (message_wf h).2 u hin
  refine ⟨fun s hs => ⟨(h1 s hs).1, (utf8Valid_iff s).mp (h1 s hs).2⟩, h3, ?_, ?_⟩
  · rintro c rfl
    exact h2
  · intro n hn
    cases u <;> first | (cases hn; done) | (cases hn; simp only [FitsType] at h2; omega)

/-- **C66** What `from_slice` returns is a value of the type asked for, and all its text was in the input. -/
theorem C66 {w : Bytes} {T : Ty} {d : Dyn} (hT : T.Proper) (hdec : ∀ x : Dec, IsUtf8 (Platform.decimalToStr x))
    (hbig : usizeBits = 32 → ∀ v u items size, deserialize w = .ok (.value v) → SubValue u v → IsList u items size →
      items.length < 2 ^ 30)
    (h : fromSlice T w = .ok d) : ReadFrom w T d := by
  cases hw : deserialize w with
  | ok m =>
    cases m with
    | methodCall c => rw [C43_call _ _ _ hw] at h; cases h
    | methodReturn r => rw [C43_return _ _ _ hw] at h; cases h
    | value v =>
      by_cases ho : ∃ T', T = .option T'
      · obtain ⟨T', rfl⟩ := ho
        by_cases hv : v = .null
        · rw [(C42_root T' w v hw).1 hv] at h
          cases h
          exact .none _
        · exact absurd h (((C42_root T' w v hw).2 hv).2 d)
      · have hd := (C58_from_slice hw hdec (fun h32 u items size => hbig h32 v u items size hw) T hT (fun T' he => ho ⟨T', he⟩) d).mp h
        exact readFrom_of hd (parsed_fine hw)
  | err e => simp [fromSlice, hw] at h
  | panic => simp [fromSlice, hw] at h
  | hang => simp [fromSlice, hw] at h

/-- **C66** A borrowed string is a slice of the input. -/
theorem C66_borrowed {w : Bytes} {d : Dyn} (hdec : ∀ x : Dec, IsUtf8 (Platform.decimalToStr x))
    (hbig : usizeBits = 32 → ∀ v u items size, deserialize w = .ok (.value v) → SubValue u v → IsList u items size →
      items.length < 2 ^ 30)
    (h : fromSlice .str w = .ok d) : ∃ before s after, d = .str s ∧ w = before ++ s ++ after ∧ IsUtf8 s := by
  cases C66 .str hdec hbig h with
  | borrowed h1 h2 =>
    obtain ⟨b, a, he⟩ := h1
    exact ⟨b, _, a, rfl, he.symm, h2⟩

end Nrbf
