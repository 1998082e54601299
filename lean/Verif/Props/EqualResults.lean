import Verif.Spec.EqualResults
import Verif.Props.Evolve
import Verif.Props.Equality
import Verif.Props.SerdeReport
import Verif.Props.Write

/-! # C72: equal values are deserialised equally -/

set_option autoImplicit false

namespace Nrbf

open Spec

variable [Platform] [FloatLib]

/-- Like `Equal`, but a NaN is near itself, and decimals are near if they are printed in the same way. -/
inductive Near : Value → Value → Prop
  | leaf {v : Value} : IsLeaf v → Near v v
  | double {a b : Nat} : SameNumber 52 11 a b → Near (.double a) (.double b)
  | single {a b : Nat} : SameNumber 23 8 a b → Near (.single a) (.single b)
  | decimal {a b : Dec} : Platform.decimalToStr a = Platform.decimalToStr b → Near (.decimal a) (.decimal b)
  | array {vs vs' : List Value} : vs.length = vs'.length → (∀ p ∈ vs.zip vs', Near p.1 p.2) →
      Near (.array vs) (.array vs')
  | object {cls : Str} {lib : Option Str} {ms ms' : List (Str × Value)} : (ms.map Prod.fst).Nodup →
      (ms'.map Prod.fst).Nodup → (∀ k, k ∈ ms.map Prod.fst ↔ k ∈ ms'.map Prod.fst) →
      (∀ k v v', (k, v) ∈ ms → (k, v') ∈ ms' → Near v v') → Near (.object cls lib ms) (.object cls lib ms')

/-- Element by element. -/
def NearAll (vs vs' : List Value) : Prop := vs.length = vs'.length ∧ ∀ p ∈ vs.zip vs', Near p.1 p.2

/-- Member by member. -/
structure NearMembers (ms ms' : List (Str × Value)) : Prop where
  nodup : (ms.map Prod.fst).Nodup
  nodup' : (ms'.map Prod.fst).Nodup
  keys : ∀ k, k ∈ ms.map Prod.fst ↔ k ∈ ms'.map Prod.fst
  near : ∀ k v v', (k, v) ∈ ms → (k, v') ∈ ms' → Near v v'

omit [FloatLib] in
theorem NearMembers.length {ms ms' : List (Str × Value)} (h : NearMembers ms ms') : ms.length = ms'.length := by
  have := ((List.perm_ext_iff_of_nodup h.nodup h.nodup').mpr h.keys).length_eq
  simpa using this

omit [FloatLib] in
theorem NearMembers.find {ms ms' : List (Str × Value)} (h : NearMembers ms ms') {k : Str} {v : Value} (hm : (k, v) ∈ ms) :
    ∃ v', (k, v') ∈ ms' ∧ Near v v' := by
  obtain ⟨m, hm', rfl⟩ := List.mem_map.mp ((h.keys k).mp (List.mem_map_of_mem hm))
  exact ⟨m.2, hm', h.near _ _ _ hm hm'⟩

omit [FloatLib] in
theorem NearMembers.back {ms ms' : List (Str × Value)} (h : NearMembers ms ms') {k : Str} {v' : Value} (hm : (k, v') ∈ ms') :
    ∃ v, (k, v) ∈ ms ∧ Near v v' := by
  obtain ⟨m, hm', rfl⟩ := List.mem_map.mp ((h.keys k).mpr (List.mem_map_of_mem hm))
  exact ⟨m.2, hm', h.near _ _ _ hm' hm⟩

omit [FloatLib] in
theorem NearAll.cons {v : Value} {vs vs' : List Value} (h : NearAll (v :: vs) vs') :
    ∃ w ws, vs' = w :: ws ∧ Near v w ∧ NearAll vs ws := by
  obtain ⟨h1, h2⟩ := h
  cases vs' with
  | nil => simp at h1
  | cons w ws => exact ⟨w, ws, rfl, h2 (v, w) (by simp), by simpa using h1, fun p hp => h2 p (by simp [hp])⟩

omit [FloatLib] in
theorem NearAll.nil {vs' : List Value} (h : NearAll [] vs') : vs' = [] := by
  have := h.1
  cases vs' with
  | nil => rfl
  | cons => simp at this

omit [FloatLib] in
theorem NearAll.take {vs vs' : List Value} (h : NearAll vs vs') (n : Nat) : NearAll (vs.take n) (vs'.take n) := by
  induction vs generalizing vs' n with
  | nil => rw [h.nil]; simp [NearAll]
  | cons v vs ih =>
    obtain ⟨w, ws, rfl, h1, h2⟩ := h.cons
    cases n with
    | zero => simp [NearAll]
    | succ n =>
      obtain ⟨h3, h4⟩ := ih h2 n
      refine ⟨by simpa using h3, fun p hp => ?_⟩
      rw [List.take_succ_cons, List.take_succ_cons, List.zip_cons_cons] at hp
      rcases List.mem_cons.mp hp with rfl | hp
      · exact h1
      · exact h4 p hp

/-- Leaves that are only near themselves. -/
def IsFixed : Value → Prop
  | .object .. | .array _ | .double _ | .single _ | .decimal _ => False
  | _ => True

omit [FloatLib] in
theorem Near.of_fixed {v v' : Value} (h : Near v v') (hl : IsFixed v) : v' = v := by
  cases h <;> first | rfl | exact hl.elim

omit [FloatLib] in
theorem Near.null {v : Value} (h : Near v .null) : v = .null := by
  cases h; rfl

omit [Platform] [FloatLib] in
theorem fixed_integer {v : Value} {n : Int} (h : v.integer? = some n) : IsFixed v := by
  cases v <;> first | trivial | cases h

omit [FloatLib] in
theorem Near.of_array {vs : List Value} {v' : Value} (h : Near (.array vs) v') : ∃ vs', v' = .array vs' ∧ NearAll vs vs' := by
  cases h with
  | leaf h => exact h.elim
  | array h1 h2 => exact ⟨_, rfl, h1, h2⟩

omit [FloatLib] in
theorem Near.of_object {cls : Str} {lib : Option Str} {ms : List (Str × Value)} {v' : Value}
    (h : Near (.object cls lib ms) v') : ∃ ms', v' = .object cls lib ms' ∧ NearMembers ms ms' := by
  cases h with
  | leaf h => exact h.elim
  | object h1 h2 h3 h4 => exact ⟨_, rfl, h1, h2, h3, h4⟩

omit [FloatLib] in
theorem Near.of_double {a : Nat} {v' : Value} (h : Near (.double a) v') : ∃ b, v' = .double b ∧ SameNumber 52 11 a b := by
  cases h with
  | leaf h => exact ⟨a, rfl, .inl rfl⟩
  | double h => exact ⟨_, rfl, h⟩

omit [FloatLib] in
theorem Near.of_single {a : Nat} {v' : Value} (h : Near (.single a) v') : ∃ b, v' = .single b ∧ SameNumber 23 8 a b := by
  cases h with
  | leaf h => exact ⟨a, rfl, .inl rfl⟩
  | single h => exact ⟨_, rfl, h⟩

omit [FloatLib] in
theorem Near.of_decimal {a : Dec} {v' : Value} (h : Near (.decimal a) v') :
    ∃ b, v' = .decimal b ∧ Platform.decimalToStr a = Platform.decimalToStr b := by
  cases h with
  | leaf h => exact ⟨a, rfl, rfl⟩
  | decimal h => exact ⟨_, rfl, h⟩

omit [FloatLib] in
theorem Elements.near {slack : Nat} {v v' : Value} {vs : List Value} (h : Elements slack v vs)
    (ha : Near v v') : ∃ vs', Elements slack v' vs' ∧ NearAll vs vs' := by
  cases h with
  | array =>
    obtain ⟨vs', rfl, h⟩ := ha.of_array
    exact ⟨vs', .array _, h⟩
  | @list _ items size hl hs =>
    obtain ⟨cls, ms, version, rfl, h1, h2, h3, h4, h5, h6⟩ := hl
    obtain ⟨ms', rfl, ho⟩ := ha.of_object
    obtain ⟨a, ha1, ha2⟩ := ho.find h4
    obtain ⟨b, hb1, hb2⟩ := ho.find h5
    obtain ⟨c, hc1, hc2⟩ := ho.find h6
    obtain ⟨items', rfl, hi⟩ := ha2.of_array
    cases hb2.of_fixed trivial
    cases hc2.of_fixed trivial
    refine ⟨items'.take size, .list ⟨cls, ms', version, rfl, h1, ho.length ▸ h2, ho.nodup', ha1, hb1, hc1⟩ ?_, hi.take size⟩
    have := hi.1
    omega

omit [FloatLib] in
/-- Boxes with equal content. -/
theorem BoxedPrim.near {name : Str} {P : Ty} {x x' : Dyn} {s : Value} (h : BoxedPrim name P x s) (hx : DynEqual x x') :
    ∃ s', BoxedPrim name P x' s' ∧ Near s s' := by
  cases h with
  | double b => cases hx with | f64 hb => exact ⟨_, .double _, .double hb⟩
  | single b => cases hx with | f32 hb => exact ⟨_, .single _, .single hb⟩
  | boolean b => cases hx; exact ⟨_, .boolean b, .leaf trivial⟩
  | byte n h => cases hx; exact ⟨_, .byte n h, .leaf trivial⟩
  | sbyte n h => cases hx; exact ⟨_, .sbyte n h, .leaf trivial⟩
  | char n => cases hx; exact ⟨_, .char n, .leaf trivial⟩
  | int32 n h => cases hx; exact ⟨_, .int32 n h, .leaf trivial⟩
  | uint32 n h => cases hx; exact ⟨_, .uint32 n h, .leaf trivial⟩
  | int64 n h => cases hx; exact ⟨_, .int64 n h, .leaf trivial⟩
  | uint64 n h => cases hx; exact ⟨_, .uint64 n h, .leaf trivial⟩
  | int16 n h => cases hx; exact ⟨_, .int16 n h, .leaf trivial⟩
  | uint16 n h => cases hx; exact ⟨_, .uint16 n h, .leaf trivial⟩

omit [FloatLib] in
theorem Near.leaf_iff {v v' : Value} (h : Near v v') (hl : IsLeaf v) : IsLeaf v' := by
  cases h <;> first | trivial | exact hl

/-- Element by element. -/
def DynsEqual (ds ds' : List Dyn) : Prop := ds.length = ds'.length ∧ ∀ p ∈ ds.zip ds', DynEqual p.1 p.2

/-- Field by field. -/
def FieldsEqual (ds ds' : List (Str × Dyn)) : Prop :=
  ds.map Prod.fst = ds'.map Prod.fst ∧ ∀ p ∈ ds.zip ds', DynEqual p.1.2 p.2.2

omit [Platform] [FloatLib] in
theorem DynsEqual.cons {d d' : Dyn} {ds ds' : List Dyn} (h : DynEqual d d') (hs : DynsEqual ds ds') :
    DynsEqual (d :: ds) (d' :: ds') := by
  refine ⟨by simpa using hs.1, fun p hp => ?_⟩
  rcases List.mem_cons.mp hp with rfl | hp
  · exact h
  · exact hs.2 p hp

omit [Platform] [FloatLib] in
theorem FieldsEqual.cons {k : Str} {d d' : Dyn} {ds ds' : List (Str × Dyn)} (h : DynEqual d d') (hs : FieldsEqual ds ds') :
    FieldsEqual ((k, d) :: ds) ((k, d') :: ds') := by
  refine ⟨by simpa using hs.1, fun p hp => ?_⟩
  rcases List.mem_cons.mp hp with rfl | hp
  · exact h
  · exact hs.2 p hp

omit [Platform] [FloatLib] in
theorem DynsEqual.fields {ks : List Str} {ds ds' : List Dyn} (h : DynsEqual ds ds') :
    FieldsEqual (ks.zip ds) (ks.zip ds') := by
  induction ks generalizing ds ds' with
  | nil => exact ⟨rfl, by simp⟩
  | cons k ks ih =>
    cases ds with
    | nil =>
      cases ds' with
      | nil => exact ⟨rfl, by simp⟩
      | cons => exact absurd h.1 (by simp)
    | cons d ds =>
      cases ds' with
      | nil => exact absurd h.1 (by simp)
      | cons d' ds' =>
        exact FieldsEqual.cons (h.2 (d, d') (by simp)) (ih ⟨by simpa using h.1, fun p hp => h.2 p (by simp [hp])⟩)

/-- The entries of the other object, in its own order. -/
theorem entries_near {ms ms' : List (Str × Value)} {T : Ty} {ds : List (Str × Dyn)} (hn : NearMembers ms ms')
    (hk : ds.map Prod.fst = ms.map Prod.fst)
    (h : ∀ k v, (k, v) ∈ ms → ∃ d, (k, d) ∈ ds ∧ ∀ v', Near v v' → ∃ d', Decodes v' T d' ∧ DynEqual d d') :
    ∃ ds', EntriesDecode ms' T ds' ∧ DynEqual (.map ds) (.map ds') := by
  have aux : ∀ l : List (Str × Value), (∀ m ∈ l, m ∈ ms') →
      ∃ ds', EntriesDecode l T ds' ∧ ∀ k d', (k, d') ∈ ds' → ∃ d, (k, d) ∈ ds ∧ DynEqual d d' := by
    intro l
    induction l with
    | nil => exact fun _ => ⟨[], .nil _, by simp⟩
    | cons m l ih =>
      intro hl
      obtain ⟨ds', h1, h2⟩ := ih fun m hm => hl m (by simp [hm])
      obtain ⟨k, v'⟩ := m
      obtain ⟨v, h3, h4⟩ := hn.back (hl (k, v') (by simp))
      obtain ⟨d, h5, h6⟩ := h k v h3
      obtain ⟨d', h7, h8⟩ := h6 v' h4
      refine ⟨(k, d') :: ds', .cons h7 h1, ?_⟩
      intro k2 d2 hm
      rcases List.mem_cons.mp hm with e | hm
      · cases e; exact ⟨d, h5, h8⟩
      · exact h2 k2 d2 hm
  obtain ⟨ds', h1, h2⟩ := aux ms' fun _ h => h
  refine ⟨ds', h1, .map ?_ ?_⟩
  · intro k
    rw [hk, hn.keys k, (entriesDecode_iff.mp h1).1]
  · intro k d d' hd hd'
    obtain ⟨d2, h3, h4⟩ := h2 k d' hd'
    have hnd : (ds.map Prod.fst).Nodup := by rw [hk]; exact hn.nodup
    rwa [member_unique hnd hd h3]

theorem asIs_near {v v' : Value} {d : Dyn} (h : v.asIs = some d) (ha : Near v v') :
    ∃ d', Decodes v' .any d' ∧ DynEqual d d' := by
  cases v with
  | double b =>
    obtain ⟨b', rfl, hb⟩ := ha.of_double
    cases h
    exact ⟨_, .anyLeaf rfl, .f64 hb⟩
  | single b =>
    obtain ⟨b', rfl, hb⟩ := ha.of_single
    cases h
    exact ⟨_, .anyLeaf rfl, .f32 hb⟩
  | decimal b =>
    obtain ⟨b', rfl, hb⟩ := ha.of_decimal
    cases h
    exact ⟨_, .anyLeaf rfl, hb ▸ .str _⟩
  | object => cases h
  | array => cases h
  | _ =>
    cases ha.of_fixed trivial
    refine ⟨d, .anyLeaf h, ?_⟩
    cases h
    constructor

mutual
/-- Values that are near are read as equal values. -/
theorem decodes_near (hf : CastsRespectEquality) {v v' : Value} {T : Ty} {d : Dyn} :
    Decodes v T d → Near v v' → ∃ d', Decodes v' T d' ∧ DynEqual d d'
  | .bool b, ha => by rw [ha.of_fixed trivial]; exact ⟨_, .bool b, .bool b⟩
  | .int h1 h2 h3, ha => by rw [ha.of_fixed (fixed_integer h1)]; exact ⟨_, .int h1 h2 h3, .int _⟩
  | .f32 b, ha => by
    obtain ⟨b', rfl, h⟩ := ha.of_single
    exact ⟨_, .f32 b', .f32 h⟩
  | .f32OfDouble b, ha => by
    obtain ⟨b', rfl, h⟩ := ha.of_double
    exact ⟨_, .f32OfDouble b', .f32 (hf.1 _ _ h)⟩
  | .f32OfInteger h, ha => by rw [ha.of_fixed (fixed_integer h)]; exact ⟨_, .f32OfInteger h, .f32 (.inl rfl)⟩
  | .f64 b, ha => by
    obtain ⟨b', rfl, h⟩ := ha.of_double
    exact ⟨_, .f64 b', .f64 h⟩
  | .f64OfSingle b, ha => by
    obtain ⟨b', rfl, h⟩ := ha.of_single
    exact ⟨_, .f64OfSingle b', .f64 (hf.2 _ _ h)⟩
  | .f64OfInteger h, ha => by rw [ha.of_fixed (fixed_integer h)]; exact ⟨_, .f64OfInteger h, .f64 (.inl rfl)⟩
  | .char c, ha => by rw [ha.of_fixed trivial]; exact ⟨_, .char c, .char _⟩
  | .charOfString c, ha => by rw [ha.of_fixed trivial]; exact ⟨_, .charOfString c, .char _⟩
  | .charOfDecimal x c h, ha => by
    obtain ⟨b', rfl, h'⟩ := ha.of_decimal
    exact ⟨_, .charOfDecimal b' c (h' ▸ h), .char _⟩
  | .str s, ha => by rw [ha.of_fixed trivial]; exact ⟨_, .str s, .str s⟩
  | .string s, ha => by rw [ha.of_fixed trivial]; exact ⟨_, .string s, .str s⟩
  | .stringOfDecimal x, ha => by
    obtain ⟨b', rfl, h'⟩ := ha.of_decimal
    rw [h']
    exact ⟨_, .stringOfDecimal b', .str _⟩
  | .stringOfChar c, ha => by rw [ha.of_fixed trivial]; exact ⟨_, .stringOfChar c, .str _⟩
  | .unit, ha => by rw [ha.of_fixed trivial]; exact ⟨_, .unit, .unit⟩
  | .none T, ha => by rw [ha.of_fixed trivial]; exact ⟨_, .none T, .none⟩
  | .some h1 h2, ha => by
    obtain ⟨d', h3, h4⟩ := decodes_near hf h2 ha
    refine ⟨_, .some ?_ h3, .some h4⟩
    intro h
    rw [h] at ha
    exact h1 ha.null
  | .vec h1 h2, ha => by
    have ih := fun vs' => decodesAll_near hf h2 (vs' := vs')
    obtain ⟨vs', h3, h4⟩ := h1.near ha
    obtain ⟨ds', h5, h6⟩ := ih _ h4
    exact ⟨_, .vec h3 h5, .seq h6.1 h6.2⟩
  | .tuple h1 h2, ha => by
    have ih := fun vs' => decodesEach_near hf h2 (vs' := vs')
    obtain ⟨vs', h3, h4⟩ := h1.near ha
    obtain ⟨ds', h5, h6⟩ := ih _ h4
    exact ⟨_, .tuple h3 h5, .tuple h6.1 h6.2⟩
  | .newtype h1 h2, ha => by
    have ih := fun v' => decodes_near hf h2 (v' := v')
    obtain ⟨vs', h3, h4⟩ := h1.near ha
    obtain ⟨w', ws, rfl, h5, h6⟩ := h4.cons
    cases h6.nil
    obtain ⟨d', h7, h8⟩ := ih _ h5
    exact ⟨_, .newtype h3 h7, .newtype h8⟩
  | .map h1 h2, ha => by
    have ih := entriesDecode_near hf h2
    obtain ⟨ms', rfl, ho⟩ := ha.of_object
    obtain ⟨ds', h3, h4⟩ := entries_near ho (entriesDecode_iff.mp h2).1.symm ih
    exact ⟨_, .map h1 h3, h4⟩
  | .struct h1 h2, ha => by
    have ih := fun ms' => fieldsDecode_near hf h1 (ms' := ms')
    have ih2 := fun m hm hk v' => decodes_near hf (h2 m hm hk) (v' := v')
    obtain ⟨ms', rfl, ho⟩ := ha.of_object
    obtain ⟨ds', h3, h4⟩ := ih _ ho
    refine ⟨_, .struct h3 ?_, .struct h4.1 h4.2⟩
    rintro ⟨k, w'⟩ hm hk
    obtain ⟨w, h5, h6⟩ := ho.back hm
    obtain ⟨d', h7, h8⟩ := ih2 (k, w) h5 hk _ h6
    rwa [ignored_form h7] at h7
  | .structOfArray h1, ha => by
    have ih := fun vs' => decodesEach_near hf h1 (vs' := vs')
    obtain ⟨vs', rfl, h2⟩ := ha.of_array
    obtain ⟨ds', h3, h4⟩ := ih _ h2
    exact ⟨_, .structOfArray h3, .struct (DynsEqual.fields h4).1 (DynsEqual.fields h4).2⟩
  | .boxed h1 h2 h3 h4 h5 h6, ha => by
    have ih := fun v' => decodes_near hf h3 (v' := v')
    have ih2 := fun v' => decodes_near hf h6 (v' := v')
    obtain ⟨ms', rfl, ho⟩ := ha.of_object
    obtain ⟨w', hm, ha'⟩ := ho.find (List.mem_singleton.mpr rfl)
    obtain ⟨x', h7, h8⟩ := ih _ ha'
    obtain ⟨s', h9, h10⟩ := h2.near h8
    obtain ⟨d', h11, h12⟩ := ih2 _ h10
    match ms', ho.length, hm with
    | [m], _, hm =>
      cases List.mem_singleton.mp hm
      exact ⟨_, .boxed h1 h9 h7 h4 h5 h11, h12⟩
  | .ignoredLeaf h, ha => ⟨_, .ignoredLeaf (ha.leaf_iff h), .ignored⟩
  | .ignoredElements h1 h2, ha => by
    have ih := fun vs' => decodesAll_near hf h2 (vs' := vs')
    obtain ⟨vs', h3, h4⟩ := h1.near ha
    obtain ⟨ds', h5, h6⟩ := ih _ h4
    exact ⟨_, .ignoredElements h3 h5, .ignored⟩
  | .ignoredMap h1 h2, ha => by
    have ih := entriesDecode_near hf h2
    obtain ⟨ms', rfl, ho⟩ := ha.of_object
    obtain ⟨ds', h3, h4⟩ := entries_near ho (entriesDecode_iff.mp h2).1.symm ih
    exact ⟨_, .ignoredMap h1 h3, .ignored⟩
  | .anyLeaf h, ha => asIs_near h ha
  | .anyElements h1 h2, ha => by
    have ih := fun vs' => decodesAll_near hf h2 (vs' := vs')
    obtain ⟨vs', h3, h4⟩ := h1.near ha
    obtain ⟨ds', h5, h6⟩ := ih _ h4
    exact ⟨_, .anyElements h3 h5, .seq h6.1 h6.2⟩
  | .anyMap h1 h2, ha => by
    have ih := entriesDecode_near hf h2
    obtain ⟨ms', rfl, ho⟩ := ha.of_object
    obtain ⟨ds', h3, h4⟩ := entries_near ho (entriesDecode_iff.mp h2).1.symm ih
    exact ⟨_, .anyMap h1 h3, h4⟩
theorem decodesAll_near (hf : CastsRespectEquality) {vs vs' : List Value} {T : Ty} {ds : List Dyn} :
    DecodesAll vs T ds → NearAll vs vs' → ∃ ds', DecodesAll vs' T ds' ∧ DynsEqual ds ds'
  | .nil T, ha => by rw [ha.nil]; exact ⟨_, .nil T, rfl, by simp⟩
  | .cons h1 h2, ha => by
    have ih1 := fun v' => decodes_near hf h1 (v' := v')
    have ih2 := fun vs' => decodesAll_near hf h2 (vs' := vs')
    obtain ⟨w, ws, rfl, h3, h4⟩ := ha.cons
    obtain ⟨d', h5, h6⟩ := ih1 _ h3
    obtain ⟨ds', h7, h8⟩ := ih2 _ h4
    exact ⟨_, .cons h5 h7, h8.cons h6⟩
theorem decodesEach_near (hf : CastsRespectEquality) {vs vs' : List Value} {Ts : List Ty} {ds : List Dyn} :
    DecodesEach vs Ts ds → NearAll vs vs' → ∃ ds', DecodesEach vs' Ts ds' ∧ DynsEqual ds ds'
  | .nil, ha => by rw [ha.nil]; exact ⟨_, .nil, rfl, by simp⟩
  | .cons h1 h2, ha => by
    have ih1 := fun v' => decodes_near hf h1 (v' := v')
    have ih2 := fun vs' => decodesEach_near hf h2 (vs' := vs')
    obtain ⟨w, ws, rfl, h3, h4⟩ := ha.cons
    obtain ⟨d', h5, h6⟩ := ih1 _ h3
    obtain ⟨ds', h7, h8⟩ := ih2 _ h4
    exact ⟨_, .cons h5 h7, h8.cons h6⟩
theorem entriesDecode_near (hf : CastsRespectEquality) {ms : List (Str × Value)} {T : Ty} {ds : List (Str × Dyn)} :
    EntriesDecode ms T ds → ∀ k v, (k, v) ∈ ms → ∃ d, (k, d) ∈ ds ∧ ∀ v', Near v v' → ∃ d', Decodes v' T d' ∧ DynEqual d d'
  | .nil _ => by simp
  | .cons (d := d) h1 h2 => by
    have ih1 := fun v' => decodes_near hf h1 (v' := v')
    have ih2 := entriesDecode_near hf h2
    intro k v hm
    rcases List.mem_cons.mp hm with e | hm
    · cases e
      exact ⟨d, by simp, ih1⟩
    · obtain ⟨d', h3, h4⟩ := ih2 k v hm
      exact ⟨d', by simp [h3], h4⟩
theorem fieldsDecode_near (hf : CastsRespectEquality) {ms ms' : List (Str × Value)} {fs : List (Str × Ty)}
    {ds : List (Str × Dyn)} : FieldsDecode ms fs ds → NearMembers ms ms' → ∃ ds', FieldsDecode ms' fs ds' ∧ FieldsEqual ds ds'
  | .nil _, _ => ⟨_, .nil _, rfl, by simp⟩
  | .found h1 h2 h3, ho => by
    have ih1 := fun v' => decodes_near hf h2 (v' := v')
    obtain ⟨ds', h4, h5⟩ := fieldsDecode_near hf h3 ho
    obtain ⟨v', h6, h7⟩ := ho.find h1
    obtain ⟨d', h8, h9⟩ := ih1 _ h7
    exact ⟨_, .found h6 h8 h4, h5.cons h9⟩
  | .missing (k := k) h1 h2, ho => by
    obtain ⟨ds', h4, h5⟩ := fieldsDecode_near hf h2 ho
    refine ⟨_, .missing ?_ h4, h5.cons .none⟩
    rintro ⟨k', w'⟩ hm rfl
    obtain ⟨w, h6, h7⟩ := ho.back hm
    exact h1 _ h6 rfl
end

variable [DecimalEq]

omit [FloatLib] in
theorem Spec.Equal.near {v v' : Value} (h : Equal v v') (hv : WellTyped v) (hv' : WellTyped v')
    (htext : ∀ a b, DecimalEq.eq a b = true → SubValue (.decimal a) v → SubValue (.decimal b) v' →
      Platform.decimalToStr a = Platform.decimalToStr b) : Near v v' := by
  induction h with
  | @discrete v hd => refine .leaf ?_; cases v <;> first | trivial | exact hd.elim
  | double h1 h2 => exact .double (.inr ⟨_, h1, h2⟩)
  | single h1 h2 => exact .single (.inr ⟨_, h1, h2⟩)
  | decimal h => exact .decimal (htext _ _ h (.refl _) (.refl _))
  | array h1 _ ih =>
    refine .array h1 fun p hp => ?_
    obtain ⟨i, hi, rfl⟩ := List.getElem_of_mem hp
    rw [List.getElem_zip]
    have hi1 := hi
    simp only [List.length_zip] at hi1
    refine ih i _ _ (List.getElem?_eq_getElem (by omega)) (List.getElem?_eq_getElem (by omega)) ?_ ?_ ?_
    · exact fun u hu => hv u (.item (List.getElem_mem _) hu)
    · exact fun u hu => hv' u (.item (List.getElem_mem _) hu)
    · exact fun a b he ha hb => htext a b he (.item (List.getElem_mem _) ha) (.item (List.getElem_mem _) hb)
  | object h1 _ ih =>
    refine .object (hv _ (.refl _)).2 (hv' _ (.refl _)).2 h1 fun k v v' hm hm' => ih k v v' hm hm' ?_ ?_ ?_
    · exact fun u hu => hv u (.member hm hu)
    · exact fun u hu => hv' u (.member hm' hu)
    · exact fun a b he ha hb => htext a b he (.member hm ha) (.member hm' hb)

/-- **C72** (values) What a value is as a value of a type, an equal value is too, up to equality. -/
theorem C72_value (hf : CastsRespectEquality) {v v' : Value} (hv : WellTyped v) (hv' : WellTyped v') (he : valueEq v v' = true)
    (htext : ∀ a b, DecimalEq.eq a b = true → SubValue (.decimal a) v → SubValue (.decimal b) v' →
      Platform.decimalToStr a = Platform.decimalToStr b) {T : Ty} {d : Dyn} (hd : Decodes v T d) :
    ∃ d', Decodes v' T d' ∧ DynEqual d d' :=
  decodes_near hf hd (((C65_equal hv hv').mp he).near hv hv' htext)

/-- **C72** If two messages are equal (`==`), then `from_slice` returns equal values for them, at any type, provided that
decimals in them that are equal are printed in the same way. -/
theorem C72 (hf : CastsRespectEquality) {w w' : Bytes} {m m' : RemotingMessage} (h : deserialize w = .ok m)
    (h' : deserialize w' = .ok m') (he : messageEq m m' = true)
    (htext : ∀ a b, DecimalEq.eq a b = true → ValueIn (.decimal a) m → ValueIn (.decimal b) m' →
      Platform.decimalToStr a = Platform.decimalToStr b)
    (hdec : ∀ x : Dec, IsUtf8 (Platform.decimalToStr x))
    (hbig : usizeBits = 32 → ∀ u items size, ValueIn u m ∨ ValueIn u m' → IsList u items size → items.length < 2 ^ 30)
    {T : Ty} (hT : T.Proper) {d : Dyn} (hd : fromSlice T w = .ok d) :
    ∃ d', fromSlice T w' = .ok d' ∧ DynEqual d d' := by
  have ht := parsed_typed h
  have ht' := parsed_typed h'
  have hm := (C65_message ht ht').mp he
  clear he
  cases hm with
  | methodCall _ => exact absurd hd (C43_call T w _ h ▸ by simp)
  | methodReturn _ _ => exact absurd hd (C43_return T w _ h ▸ by simp)
  | @value v v' he =>
    have top : ∀ {u v : Value}, SubValue u v → ValueIn u (.value v) := fun hu => ⟨_, by simp [topValues], hu⟩
    have hv : WellTyped v := fun u hu => ht u (top hu)
    have hv' : WellTyped v' := fun u hu => ht' u (top hu)
    have hn := he.near hv hv' fun a b he ha hb => htext a b he (top ha) (top hb)
    by_cases hopt : ∃ T', T = .option T'
    · obtain ⟨T', rfl⟩ := hopt
      by_cases hnull : v = .null
      · subst hnull
        cases hn.of_fixed trivial
        have h1 := (C42_root T' w _ h).1 rfl
        rw [h1] at hd
        cases hd
        exact ⟨_, (C42_root T' w' _ h').1 rfl, .none⟩
      · exact absurd hd (((C42_root T' w _ h).2 hnull).2 d)
    · have hopt : ∀ T', T ≠ .option T' := fun T' e => hopt ⟨T', e⟩
      rw [C58_from_slice h hdec (fun h32 u i s hu => hbig h32 u i s (.inl (top hu))) T hT hopt] at hd
      obtain ⟨d', h1, h2⟩ := decodes_near hf hd hn
      exact ⟨d', (C58_from_slice h' hdec (fun h32 u i s hu => hbig h32 u i s (.inr (top hu))) T hT hopt d').mpr h1, h2⟩

/-- **C72** (failures) So it succeeds for both or for none. -/
theorem C72_success (hf : CastsRespectEquality) {w w' : Bytes} {m m' : RemotingMessage} (h : deserialize w = .ok m)
    (h' : deserialize w' = .ok m') (he : messageEq m m' = true)
    (htext : ∀ a b, DecimalEq.eq a b = true → ValueIn (.decimal a) m → ValueIn (.decimal b) m' →
      Platform.decimalToStr a = Platform.decimalToStr b)
    (hdec : ∀ x : Dec, IsUtf8 (Platform.decimalToStr x))
    (hbig : usizeBits = 32 → ∀ u items size, ValueIn u m ∨ ValueIn u m' → IsList u items size → items.length < 2 ^ 30)
    {T : Ty} (hT : T.Proper) : (∃ d, fromSlice T w = .ok d) ↔ ∃ d', fromSlice T w' = .ok d' := by
  constructor
  · rintro ⟨d, hd⟩
    obtain ⟨d', h1, -⟩ := C72 hf h h' he htext hdec hbig hT hd
    exact ⟨d', h1⟩
  · rintro ⟨d', hd'⟩
    have he' : messageEq m' m = true := by rw [← C65_parsed_symmetric h h']; exact he
    obtain ⟨d, h1, -⟩ := C72 hf h' h he'
      (fun a b he ha hb => (htext b a (DecimalEq.symm a b he) hb ha).symm) hdec
      (fun h32 u i s hu => hbig h32 u i s hu.symm) hT hd'
    exact ⟨d, h1⟩

omit [Platform] [FloatLib] [DecimalEq] in
theorem denotes_mod (f e a : Nat) : denotes f e (a % 2 ^ (f + e + 1)) = denotes f e a := by
  have h1 : a % 2 ^ (f + e + 1) % 2 ^ f = a % 2 ^ f := by
    apply Nat.mod_mod_of_dvd
    exact Nat.pow_dvd_pow 2 (by omega)
  have h2 : a % 2 ^ (f + e + 1) / 2 ^ f % 2 ^ e = a / 2 ^ f % 2 ^ e := by
    rw [show f + e + 1 = f + (e + 1) by omega, Nat.pow_add, Nat.mod_mul_right_div_self]
    exact Nat.mod_mod_of_dvd _ (Nat.pow_dvd_pow 2 (by omega))
  have h3 : a % 2 ^ (f + e + 1) / 2 ^ (f + e) % 2 = a / 2 ^ (f + e) % 2 := by
    rw [Nat.pow_succ, Nat.mod_mul_right_div_self, Nat.mod_mod]
  unfold denotes
  rw [h1, h2, h3]

omit [Platform] [FloatLib] [DecimalEq] in
/-- Different bits for one number: the zeros. -/
theorem sameNumber_zero {f e a b : Nat} (he : 1 ≤ e) (h : SameNumber f e a b) :
    a % 2 ^ (f + e + 1) = b % 2 ^ (f + e + 1) ∨
      ((a % 2 ^ (f + e + 1) = 0 ∨ a % 2 ^ (f + e + 1) = 2 ^ (f + e)) ∧
        (b % 2 ^ (f + e + 1) = 0 ∨ b % 2 ^ (f + e + 1) = 2 ^ (f + e))) := by
  rcases h with rfl | ⟨x, h1, h2⟩
  · exact .inl rfl
  · have hp : 0 < 2 ^ (f + e + 1) := Nat.two_pow_pos _
    have hq : 0 < 2 ^ (f + e) := Nat.two_pow_pos _
    rw [← denotes_mod] at h1 h2
    have h := (floatEq_iff he (Nat.mod_lt _ hp) (Nat.mod_lt _ hp)).mpr ⟨x, h1, h2⟩
    simp only [floatEq, Bool.and_eq_true, Bool.or_eq_true, beq_iff_eq] at h
    have hs : 2 ^ (f + e + 1) = 2 * 2 ^ (f + e) := Nat.pow_succ'
    have aux : ∀ c, c < 2 ^ (f + e + 1) → c % 2 ^ (f + e) = 0 → c = 0 ∨ c = 2 ^ (f + e) := by
      intro c hc h0
      obtain ⟨k, rfl⟩ := Nat.dvd_of_mod_eq_zero h0
      rw [hs, Nat.mul_comm 2] at hc
      have hk := Nat.lt_of_mul_lt_mul_left hc
      match k, hk with
      | 0, _ => exact .inl (by simp)
      | 1, _ => exact .inr (by simp)
    rcases h.2 with h | ⟨h3, h4⟩
    · exact .inl h
    · exact .inr ⟨aux _ (Nat.mod_lt _ hp) h3, aux _ (Nat.mod_lt _ hp) h4⟩

omit [Platform] [DecimalEq] in
/-- The assumption about casts says that zeros become zeros. -/
theorem casts_respect (h1 : ∀ a, FloatLib.f32OfF64 a = FloatLib.f32OfF64 (a % 2 ^ 64))
    (h2 : ∀ a, FloatLib.f64OfF32 a = FloatLib.f64OfF32 (a % 2 ^ 32))
    (h3 : ∀ a, a = 0 ∨ a = 2 ^ 63 → denotes 23 8 (FloatLib.f32OfF64 a) = some (.finite 0))
    (h4 : ∀ a, a = 0 ∨ a = 2 ^ 31 → denotes 52 11 (FloatLib.f64OfF32 a) = some (.finite 0)) : CastsRespectEquality := by
  constructor
  · intro a b h
    rw [h1 a, h1 b]
    rcases sameNumber_zero (by omega) h with h | ⟨ha, hb⟩
    · exact .inl (congrArg _ h)
    · exact .inr ⟨_, h3 _ ha, h3 _ hb⟩
  · intro a b h
    rw [h2 a, h2 b]
    rcases sameNumber_zero (by omega) h with h | ⟨ha, hb⟩
    · exact .inl (congrArg _ h)
    · exact .inr ⟨_, h4 _ ha, h4 _ hb⟩

/-! ## Concrete cases -/

/-- `P { x: 0.0, y: 1 }`. -/
def pointPlus : Value := .object (lit "P") none [(lit "x", .single 0), (lit "y", .int32 1)]

/-- `P { y: 1, x: -0.0 }`. -/
def pointMinus : Value := .object (lit "P") none [(lit "y", .int32 1), (lit "x", .single 0x80000000)]

omit [FloatLib] [DecimalEq] in
theorem pointPlus_ok : deserialize (write (.value pointPlus)) = .ok (.value pointPlus) := by platform_decide

omit [FloatLib] [DecimalEq] in
theorem pointMinus_ok : deserialize (write (.value pointMinus)) = .ok (.value pointMinus) := by
  refine C57_write _ ⟨.inl rfl, ?_, by simp [topStrings], by decide, by decide⟩
  rintro u ⟨v, hv, hu⟩
  simp only [topValues, List.mem_cons, List.not_mem_nil, or_false] at hv
  subst hv
  revert hu
  revert u
  refine sub_object (storable_own trivial (by simp only [NamesDistinct]; kernel_decide) (by decide +kernel) (by simp)) ?_
  simp only [List.mem_cons, List.not_mem_nil, or_false, forall_eq_or_imp, forall_eq]
  exact ⟨leaf_storable (storable_own ⟨by decide, by decide⟩ trivial (by decide) trivial) (by simp) (by simp),
    leaf_storable (storable_own (show 0x80000000 < 2 ^ 32 by decide) trivial (by simp [ownStrings]) trivial) (by simp) (by simp)⟩

omit [Platform] [FloatLib] [DecimalEq] in
theorem single_leaf (n : Nat) : IsLeaf (.single n) ∧ ∀ x, Value.single n ≠ .decimal x := ⟨trivial, fun x e => by cases e⟩

omit [Platform] [FloatLib] [DecimalEq] in
theorem int_leaf (n : Int) : IsLeaf (.int32 n) ∧ ∀ x, Value.int32 n ≠ .decimal x := ⟨trivial, fun x e => by cases e⟩

omit [Platform] [FloatLib] [DecimalEq] in
theorem point_parts {v u : Value} (hv : v = pointPlus ∨ v = pointMinus) (h : ValueIn u (.value v)) :
    (∀ x, u ≠ .decimal x) ∧ ∀ items size, ¬ IsList u items size := by
  obtain ⟨v', h1, h2⟩ := h
  simp only [topValues, List.mem_singleton] at h1
  subst h1
  have key : ∀ ms, (∀ m ∈ ms, IsLeaf m.2 ∧ ∀ x, m.2 ≠ .decimal x) → SubValue u (.object (lit "P") none ms) →
      (∀ x, u ≠ .decimal x) ∧ ∀ items size, ¬ IsList u items size := by
    intro ms hms hu
    constructor
    · rintro x rfl
      generalize hv : Value.object (lit "P") none ms = v at hu
      cases hu with
      | refl => cases hv
      | item => cases hv
      | member hm hu =>
        cases hv
        obtain ⟨h1, h2⟩ := hms _ hm
        cases hu with
        | refl => exact h2 x rfl
        | item => exact h1
        | member => exact h1
    · refine not_list_member (.inr (by kernel_decide)) (fun m hm => ?_) u hu
      exact not_list_leaf (hms m hm).1
  rcases hv with rfl | rfl
  · refine key _ ?_ h2
    intro m hm
    simp only [List.mem_cons, List.not_mem_nil, or_false] at hm
    rcases hm with rfl | rfl
    · exact single_leaf _
    · exact int_leaf _
  · refine key _ ?_ h2
    intro m hm
    simp only [List.mem_cons, List.not_mem_nil, or_false] at hm
    rcases hm with rfl | rfl
    · exact int_leaf _
    · exact single_leaf _

omit [Platform] [FloatLib] in
theorem point_equal : messageEq (.value pointPlus) (.value pointMinus) = true := by rfl

/-- C72: they are equal, so what one is as a map of `f64`, the other is too. -/
example (hf : CastsRespectEquality) (hdec : ∀ x : Dec, IsUtf8 (Platform.decimalToStr x)) :
    ∃ d', fromSlice (.map .f64) (write (.value pointMinus)) = .ok d' ∧
      DynEqual (.map [(lit "x", .f64 (FloatLib.f64OfF32 0)), (lit "y", .f64 (FloatLib.f64OfInt 1))]) d' := by
  refine C72 hf pointPlus_ok pointMinus_ok point_equal ?_ hdec ?_ (.map .f64) ?_
  · exact fun a b _ h => absurd rfl ((point_parts (.inl rfl) h).1 a)
  · rintro - u items size (h | h) hl
    · exact absurd hl ((point_parts (.inl rfl) h).2 _ _)
    · exact absurd hl ((point_parts (.inr rfl) h).2 _ _)
  · refine (C58_from_slice pointPlus_ok hdec ?_ _ (.map .f64) (by simp) _).mpr ?_
    · exact fun _ u items size h hl => absurd hl ((point_parts (.inl rfl) ⟨_, by simp [topValues], h⟩).2 _ _)
    · exact .map (.inr (by kernel_decide)) (.cons (.f64OfSingle 0) (.cons (.f64OfInteger rfl) (.nil _)))

omit [Platform] [FloatLib] [DecimalEq] in
/-- The assumption about casts can be met. -/
example : @CastsRespectEquality ⟨fun a => a % 2 ^ 64 / 2 ^ 32, fun a => a % 2 ^ 32 * 2 ^ 32, fun _ => 0, fun _ => 0⟩ := by
  refine @casts_respect ⟨fun a => a % 2 ^ 64 / 2 ^ 32, fun a => a % 2 ^ 32 * 2 ^ 32, fun _ => 0, fun _ => 0⟩ ?_ ?_ ?_ ?_
  · intro a; simp
  · intro a; simp
  · rintro a (rfl | rfl) <;> simp [denotes]
  · rintro a (rfl | rfl) <;> simp [denotes]

omit [DecimalEq] in
/-- The assumption about decimals is needed: decimals that are equal but printed differently (such as 1.0 and 1.00) are
different strings. -/
theorem C72_decimals {a b : Dec} (h : Platform.decimalToStr a ≠ Platform.decimalToStr b) :
    decode (.decimal a) .string = .ok (.str (Platform.decimalToStr a)) ∧
    ∀ d', decode (.decimal b) .string = .ok d' → ¬ DynEqual (.str (Platform.decimalToStr a)) d' := by
  refine ⟨rfl, fun d' hd h' => ?_⟩
  cases hd
  generalize hx : Dyn.str (Platform.decimalToStr a) = x at h'
  generalize hy : Dyn.str (Platform.decimalToStr b) = y at h'
  cases h' <;> simp_all

end Nrbf
