import Verif.Spec.Evolve
import Verif.Props.SerdeAny
import Verif.Spec.Write
import Verif.Tests

/-! # C70: data and types evolve independently -/

set_option autoImplicit false

namespace Nrbf

open Spec

variable [Platform] [FloatLib]

omit [Platform] [FloatLib] in
theorem zip_swap_mem {α β : Type} {as : List α} {bs : List β} {a : α} {b : β} (h : (b, a) ∈ bs.zip as) : (a, b) ∈ as.zip bs := by
  induction as generalizing bs with
  | nil => simp at h
  | cons x as ih =>
    cases bs with
    | nil => simp at h
    | cons y bs =>
      rcases List.mem_cons.mp h with h | h
      · cases h; simp
      · exact List.mem_cons_of_mem _ (ih h)

theorem Spec.Alike.symm {N : Str → Prop} {v v' : Value} (h : Alike N v v') : Alike N v' v := by
  induction h with
  | leaf h => exact .leaf h
  | array h1 _ ih => exact .array h1.symm fun p hp => ih (p.2, p.1) (zip_swap_mem hp)
  | object h1 h2 h3 _ h5 h6 h7 ih =>
    exact .object h2 h1 h3.symm (fun p hp => ih (p.2, p.1) (zip_swap_mem hp)) h6 h5 (h7.imp_right fun h => ⟨h.2, h.1⟩)

theorem Spec.Alike.of_leaf {N : Str → Prop} {v v' : Value} (h : Alike N v v') (hl : IsLeaf v) : v' = v := by
  cases h with
  | leaf => rfl
  | array => exact hl.elim
  | object => exact hl.elim

omit [Platform] [FloatLib] in
theorem leaf_integer {v : Value} {n : Int} (h : v.integer? = some n) : IsLeaf v := by
  cases v <;> first | trivial | cases h

/-- The two lists are alike element by element. -/
def AlikeAll (N : Str → Prop) (vs vs' : List Value) : Prop :=
  vs.length = vs'.length ∧ ∀ p ∈ vs.zip vs', Alike N p.1 p.2

theorem AlikeAll.cons {N : Str → Prop} {v : Value} {vs vs' : List Value} (h : AlikeAll N (v :: vs) vs') :
    ∃ w ws, vs' = w :: ws ∧ Alike N v w ∧ AlikeAll N vs ws := by
  obtain ⟨h1, h2⟩ := h
  cases vs' with
  | nil => simp at h1
  | cons w ws => exact ⟨w, ws, rfl, h2 (v, w) (by simp), by simpa using h1, fun p hp => h2 p (by simp [hp])⟩

theorem AlikeAll.nil {N : Str → Prop} {vs' : List Value} (h : AlikeAll N [] vs') : vs' = [] := by
  have := h.1
  cases vs' with
  | nil => rfl
  | cons => simp at this

theorem AlikeAll.take {N : Str → Prop} {vs vs' : List Value} (h : AlikeAll N vs vs') (n : Nat) :
    AlikeAll N (vs.take n) (vs'.take n) := by
  induction vs generalizing vs' n with
  | nil => rw [h.nil]; simp [AlikeAll]
  | cons v vs ih =>
    obtain ⟨w, ws, rfl, h1, h2⟩ := h.cons
    cases n with
    | zero => simp [AlikeAll]
    | succ n =>
      obtain ⟨h3, h4⟩ := ih h2 n
      refine ⟨by simpa using h3, fun p hp => ?_⟩
      rw [List.take_succ_cons, List.take_succ_cons, List.zip_cons_cons] at hp
      rcases List.mem_cons.mp hp with rfl | hp
      · exact h1
      · exact h4 p hp

/-- The members the two objects have in common: what stands on one side stands on the other. -/
theorem common_mem {N : Str → Prop} {common common' : List (Str × Value)} (h : common.map Prod.fst = common'.map Prod.fst)
    (ha : ∀ p ∈ common.zip common', Alike N p.1.2 p.2.2) {k : Str} {v : Value} (hm : (k, v) ∈ common) :
    ∃ v', (k, v') ∈ common' ∧ Alike N v v' := by
  induction common generalizing common' with
  | nil => cases hm
  | cons m common ih =>
    cases common' with
    | nil => simp at h
    | cons m' common' =>
      simp only [List.map_cons, List.cons.injEq] at h
      rcases List.mem_cons.mp hm with rfl | hm
      · refine ⟨m'.2, ?_, ha ((k, v), m') (by simp)⟩
        have : k = m'.1 := h.1
        rw [this]; simp
      · obtain ⟨v', h1, h2⟩ := ih h.2 (fun p hp => ha p (by simp [hp])) hm
        exact ⟨v', by simp [h1], h2⟩

/-- What is used about an object that is alike. -/
structure AlikeObject (N : Str → Prop) (cls : Str) (lib : Option Str) (ms ms' : List (Str × Value)) : Prop where
  /-- A member that is not called as in `N` stands on the other side. -/
  kept : ∀ k v, (k, v) ∈ ms → (∃ v', (k, v') ∈ ms' ∧ Alike N v v') ∨ N k
  /-- A member of the other side is alike one on this side, or can be ignored. -/
  back : ∀ k v', (k, v') ∈ ms' → (∃ v, (k, v) ∈ ms ∧ Alike N v v') ∨ (N k ∧ Decodes v' .ignored .ignored)
  /-- Boxes and lists have the same members. -/
  system : PlainObject cls lib ∨ (ms.length = ms'.length ∧ ((ms.map Prod.fst).Nodup → (ms'.map Prod.fst).Nodup) ∧
    ∀ k v, (k, v) ∈ ms → ∃ v', (k, v') ∈ ms' ∧ Alike N v v')

theorem Spec.Alike.of_object {N : Str → Prop} {cls : Str} {lib : Option Str} {ms : List (Str × Value)} {v' : Value}
    (h : Alike N (.object cls lib ms) v') : ∃ ms', v' = .object cls lib ms' ∧ AlikeObject N cls lib ms ms' := by
  cases h with
  | leaf h => exact h.elim
  | @object _ _ _ ms' common common' extra extra' h1 h2 h3 h4 h5 h6 h7 =>
    refine ⟨ms', rfl, ?_, ?_, ?_⟩
    · intro k v hm
      rcases List.mem_append.mp (h1.mem_iff.mp hm) with hm | hm
      · obtain ⟨v', h8, h9⟩ := common_mem h3 h4 hm
        exact .inl ⟨v', h2.mem_iff.mpr (List.mem_append.mpr (.inl h8)), h9⟩
      · exact .inr (h5 _ hm).1
    · intro k v' hm
      rcases List.mem_append.mp (h2.mem_iff.mp hm) with hm | hm
      · obtain ⟨v, h8, h9⟩ := common_mem h3.symm (fun p hp => (h4 (p.2, p.1) (zip_swap_mem hp)).symm) hm
        exact .inl ⟨v, h1.mem_iff.mpr (List.mem_append.mpr (.inl h8)), h9.symm⟩
      · exact .inr (h6 _ hm)
    · rcases h7 with h7 | ⟨rfl, rfl⟩
      · exact .inl h7
      · refine .inr ⟨?_, ?_, ?_⟩
        · have := congrArg List.length h3
          rw [h1.length_eq, h2.length_eq]
          simpa using this
        · intro hn
          rw [List.append_nil] at h1 h2
          have h8 := (h1.map Prod.fst).nodup_iff.mp hn
          rw [h3] at h8
          exact (h2.map Prod.fst).nodup_iff.mpr h8
        · intro k v hm
          rw [List.append_nil] at h1 h2
          obtain ⟨v', h8, h9⟩ := common_mem h3 h4 (h1.mem_iff.mp hm)
          exact ⟨v', h2.mem_iff.mpr h8, h9⟩

theorem Spec.Alike.of_array {N : Str → Prop} {vs : List Value} {v' : Value} (h : Alike N (.array vs) v') :
    ∃ vs', v' = .array vs' ∧ AlikeAll N vs vs' := by
  cases h with
  | leaf h => exact h.elim
  | array h1 h2 => exact ⟨_, rfl, h1, h2⟩

omit [Platform] [FloatLib] in
theorem not_plain_list {cls : Str} (h : cls.takeWhile (· ≠ 96) = lit "System.Collections.Generic.List") :
    ¬ PlainObject cls none := by
  rintro (h' | h')
  · exact h' rfl
  · exact h' (h ▸ by kernel_decide)

omit [Platform] [FloatLib] in
theorem not_plain_box {cls name : Str} {P : Ty} {x : Dyn} {s : Value} (h : cls.takeWhile (· ≠ 96) = name)
    (hb : BoxedPrim name P x s) : ¬ PlainObject cls none := by
  rintro (h' | h')
  · exact h' rfl
  · apply h'
    rw [h]
    cases hb <;> simp [systemClasses]

theorem Elements.alike {N : Str → Prop} {slack : Nat} {v v' : Value} {vs : List Value} (h : Elements slack v vs)
    (ha : Alike N v v') : ∃ vs', Elements slack v' vs' ∧ AlikeAll N vs vs' := by
  cases h with
  | array =>
    obtain ⟨vs', rfl, h⟩ := ha.of_array
    exact ⟨vs', .array _, h⟩
  | @list _ items size hl hs =>
    obtain ⟨cls, ms, version, rfl, h1, h2, h3, h4, h5, h6⟩ := hl
    obtain ⟨ms', rfl, ho⟩ := ha.of_object
    rcases ho.system with hp | ⟨hlen, hn, hk⟩
    · exact absurd hp (not_plain_list h1)
    · obtain ⟨a, ha1, ha2⟩ := hk _ _ h4
      obtain ⟨b, hb1, hb2⟩ := hk _ _ h5
      obtain ⟨c, hc1, hc2⟩ := hk _ _ h6
      obtain ⟨items', rfl, hi⟩ := ha2.of_array
      cases hb2.of_leaf trivial
      cases hc2.of_leaf trivial
      refine ⟨items'.take size, .list ⟨cls, ms', version, rfl, h1, hlen ▸ h2, hn h3, ha1, hb1, hc1⟩ ?_, hi.take size⟩
      have := hi.1
      omega

omit [Platform] [FloatLib] in
theorem BoxedPrim.avoids {N : Str → Prop} {c : Str} {P : Ty} {x : Dyn} {s : Value} (h : BoxedPrim c P x s) : Avoids N P := by
  cases h <;> constructor

omit [Platform] [FloatLib] in
theorem avoids_fields {N : Str → Prop} {fs : List (Str × Ty)} (h : Avoids N (.struct fs)) :
    ∀ f ∈ fs, ¬ N f.1 ∧ Avoids N f.2 := by
  cases h with
  | struct h1 h2 => exact fun f hf => ⟨h1 f hf, h2 f hf⟩

theorem ignored_form {v : Value} {d : Dyn} (h : Decodes v .ignored d) : d = .ignored := by
  generalize hT : Ty.ignored = T at h
  cases h with
  | boxed _ h2 _ _ _ h =>
    subst hT
    cases h2 <;> (generalize hT : Ty.ignored = T at h; cases h <;> first | rfl | cases hT)
  | _ => first | rfl | cases hT

mutual
/-- Values that are alike are read in the same way. -/
theorem decodes_alike {N : Str → Prop} {v v' : Value} {T : Ty} {d : Dyn} :
    Decodes v T d → Avoids N T → Alike N v v' → Decodes v' T d
  | .bool b, _, ha => by rw [ha.of_leaf trivial]; exact .bool b
  | .int h1 h2 h3, _, ha => by rw [ha.of_leaf (leaf_integer h1)]; exact .int h1 h2 h3
  | .f32 b, _, ha => by rw [ha.of_leaf trivial]; exact .f32 b
  | .f32OfDouble b, _, ha => by rw [ha.of_leaf trivial]; exact .f32OfDouble b
  | .f32OfInteger h, _, ha => by rw [ha.of_leaf (leaf_integer h)]; exact .f32OfInteger h
  | .f64 b, _, ha => by rw [ha.of_leaf trivial]; exact .f64 b
  | .f64OfSingle b, _, ha => by rw [ha.of_leaf trivial]; exact .f64OfSingle b
  | .f64OfInteger h, _, ha => by rw [ha.of_leaf (leaf_integer h)]; exact .f64OfInteger h
  | .char c, _, ha => by rw [ha.of_leaf trivial]; exact .char c
  | .charOfString c, _, ha => by rw [ha.of_leaf trivial]; exact .charOfString c
  | .charOfDecimal x c h, _, ha => by rw [ha.of_leaf trivial]; exact .charOfDecimal x c h
  | .str s, _, ha => by rw [ha.of_leaf trivial]; exact .str s
  | .string s, _, ha => by rw [ha.of_leaf trivial]; exact .string s
  | .stringOfDecimal x, _, ha => by rw [ha.of_leaf trivial]; exact .stringOfDecimal x
  | .stringOfChar c, _, ha => by rw [ha.of_leaf trivial]; exact .stringOfChar c
  | .unit, _, ha => by rw [ha.of_leaf trivial]; exact .unit
  | .none T, _, ha => by rw [ha.of_leaf trivial]; exact .none T
  | .some h1 h2, hT, ha => by
    have ih := decodes_alike h2 (N := N) (v' := v')
    refine .some ?_ (ih (by cases hT; assumption) ha)
    intro h
    rw [h] at ha
    exact h1 (ha.symm.of_leaf trivial)
  | .vec h1 h2, hT, ha => by
    have ih := fun vs' => decodesAll_alike h2 (N := N) (vs' := vs')
    obtain ⟨vs', h3, h4⟩ := h1.alike ha
    exact .vec h3 (ih _ (by cases hT; assumption) h4)
  | .tuple h1 h2, hT, ha => by
    have ih := fun vs' => decodesEach_alike h2 (N := N) (vs' := vs')
    obtain ⟨vs', h3, h4⟩ := h1.alike ha
    exact .tuple h3 (ih _ (by cases hT; assumption) h4)
  | .newtype h1 h2, hT, ha => by
    have ih := fun v' => decodes_alike h2 (N := N) (v' := v')
    obtain ⟨vs', h3, h4⟩ := h1.alike ha
    obtain ⟨w', ws, rfl, h5, h6⟩ := h4.cons
    cases h6.nil
    exact .newtype h3 (ih _ (by cases hT; assumption) h5)
  | .map _ _, hT, _ => nomatch hT
  | .struct (cls := cls) (lib := lib) h1 h2, hT, ha => by
    have ih := fun ms' => fieldsDecode_alike h1 (N := N) (cls := cls) (lib := lib) (ms' := ms')
    have ih2 := fun m hm hk v' => decodes_alike (h2 m hm hk) (N := N) (v' := v')
    obtain ⟨ms', rfl, ho⟩ := ha.of_object
    have hf := avoids_fields hT
    refine .struct (ih _ hf ho) ?_
    rintro ⟨k, w'⟩ hm hk
    rcases ho.back k w' hm with ⟨w, h3, h4⟩ | ⟨-, h3⟩
    · exact ih2 (k, w) h3 hk _ .ignored h4
    · exact h3
  | .structOfArray h1, hT, ha => by
    have ih := fun vs' => decodesEach_alike h1 (N := N) (vs' := vs')
    obtain ⟨vs', rfl, h2⟩ := ha.of_array
    refine .structOfArray (ih _ ?_ h2)
    have hf := avoids_fields hT
    intro T hT'
    obtain ⟨f, h3, rfl⟩ := List.mem_map.mp hT'
    exact (hf f h3).2
  | .boxed h1 h2 h3 h4 h5 h6, _, ha => by
    have ih := fun v' => decodes_alike h3 (N := N) (v' := v')
    obtain ⟨ms', rfl, ho⟩ := ha.of_object
    rcases ho.system with hp | ⟨hlen, -, hk⟩
    · exact absurd hp (not_plain_box h1 h2)
    · obtain ⟨w', hm, ha'⟩ := hk _ _ (List.mem_singleton.mpr rfl)
      have h7 := ih _ h2.avoids ha'
      match ms', hlen, hm with
      | [m], _, hm =>
        cases List.mem_singleton.mp hm
        exact .boxed h1 h2 h7 h4 h5 h6
  | .ignoredLeaf h, _, ha => by rw [ha.of_leaf h]; exact .ignoredLeaf h
  | .ignoredElements h1 h2, _, ha => by
    have ih := fun vs' => decodesAll_alike h2 (N := N) (vs' := vs')
    obtain ⟨vs', h3, h4⟩ := h1.alike ha
    exact .ignoredElements h3 (ih _ .ignored h4)
  | .ignoredMap h1 h2, _, ha => by
    have h3 := entriesDecode_alike (N := N) h2 rfl
    obtain ⟨ms', rfl, ho⟩ := ha.of_object
    obtain ⟨ds, hd⟩ := ignored_entries (ms := ms') (by
      rintro ⟨k, w'⟩ hm
      rcases ho.back k w' hm with ⟨w, h4, h5⟩ | ⟨-, h4⟩
      · exact h3 _ h4 w' h5
      · exact h4)
    exact .ignoredMap h1 hd
  | .anyLeaf _, hT, _ => nomatch hT
  | .anyElements _ _, hT, _ => nomatch hT
  | .anyMap _ _, hT, _ => nomatch hT
theorem decodesAll_alike {N : Str → Prop} {vs vs' : List Value} {T : Ty} {ds : List Dyn} :
    DecodesAll vs T ds → Avoids N T → AlikeAll N vs vs' → DecodesAll vs' T ds
  | .nil T, _, ha => by rw [ha.nil]; exact .nil T
  | .cons h1 h2, hT, ha => by
    have ih1 := fun v' => decodes_alike h1 (N := N) (v' := v')
    have ih2 := fun vs' => decodesAll_alike h2 (N := N) (vs' := vs')
    obtain ⟨w, ws, rfl, h3, h4⟩ := ha.cons
    exact .cons (ih1 _ hT h3) (ih2 _ hT h4)
theorem decodesEach_alike {N : Str → Prop} {vs vs' : List Value} {Ts : List Ty} {ds : List Dyn} :
    DecodesEach vs Ts ds → (∀ T ∈ Ts, Avoids N T) → AlikeAll N vs vs' → DecodesEach vs' Ts ds
  | .nil, _, ha => by rw [ha.nil]; exact .nil
  | .cons h1 h2, hT, ha => by
    have ih1 := fun v' => decodes_alike h1 (N := N) (v' := v')
    have ih2 := fun vs' => decodesEach_alike h2 (N := N) (vs' := vs')
    obtain ⟨w, ws, rfl, h3, h4⟩ := ha.cons
    exact .cons (ih1 _ (hT _ (by simp)) h3) (ih2 _ (fun T h => hT T (by simp [h])) h4)
theorem entriesDecode_alike {N : Str → Prop} {ms : List (Str × Value)} {T : Ty} {ds : List (Str × Dyn)} :
    EntriesDecode ms T ds → T = .ignored → ∀ m ∈ ms, ∀ w', Alike N m.2 w' → Decodes w' .ignored .ignored
  | .nil _, _ => by simp
  | .cons (d := d) h1 h2, e => by
    have h3 := entriesDecode_alike (N := N) h2 e
    have ih1 := fun v' => decodes_alike h1 (N := N) (v' := v')
    subst e
    have h4 : ∀ w', Alike N _ w' → Decodes w' .ignored d := fun w' ha => ih1 w' .ignored ha
    intro m hm w' ha
    rcases List.mem_cons.mp hm with rfl | hm
    · have := h4 w' ha
      rwa [ignored_form this] at this
    · exact h3 m hm w' ha
theorem fieldsDecode_alike {N : Str → Prop} {cls : Str} {lib : Option Str} {ms ms' : List (Str × Value)} {fs : List (Str × Ty)}
    {ds : List (Str × Dyn)} : FieldsDecode ms fs ds → (∀ f ∈ fs, ¬ N f.1 ∧ Avoids N f.2) →
    AlikeObject N cls lib ms ms' → FieldsDecode ms' fs ds
  | .nil _, _, _ => .nil _
  | .found (k := k) (v := v) h1 h2 h3, hf, ho => by
    have h4 := fieldsDecode_alike h3 (fun f h => hf f (by simp [h])) ho
    have ih1 := fun v' => decodes_alike h2 (N := N) (v' := v')
    obtain ⟨hk, hT⟩ := hf _ (List.mem_cons_self ..)
    rcases ho.kept k v h1 with ⟨v', h5, h6⟩ | h5
    · exact .found h5 (ih1 _ hT h6) h4
    · exact absurd h5 hk
  | .missing (k := k) h1 h2, hf, ho => by
    have ih1 := fieldsDecode_alike h2 (fun f h => hf f (by simp [h])) ho
    refine .missing ?_ ih1
    rintro ⟨k', w'⟩ hm rfl
    rcases ho.back _ w' hm with ⟨w, h3, -⟩ | ⟨h3, -⟩
    · exact h1 _ h3 rfl
    · exact (hf _ (List.mem_cons_self ..)).1 h3
end

/-- **C70** Values that differ only in the order of members and in ignorable members whose names the type does not use are read as the same. -/
theorem C70_value {N : Str → Prop} {v v' : Value} (h : Alike N v v') {T : Ty} (hT : Avoids N T) (d : Dyn) :
    Decodes v T d ↔ Decodes v' T d :=
  ⟨fun hd => decodes_alike hd hT h, fun hd => decodes_alike hd hT h.symm⟩

/-- **C70** (messages) Adding members to the objects of a message (at any depth), removing them and reordering them does not
change what `from_slice` returns, as long as the type does not use their names and they can be ignored. -/
theorem C70 {N : Str → Prop} {w w' : Bytes} {v v' : Value} (h : deserialize w = .ok (.value v))
    (h' : deserialize w' = .ok (.value v')) (hv : Alike N v v') (hdec : ∀ x : Dec, IsUtf8 (Platform.decimalToStr x))
    (hbig : usizeBits = 32 → ∀ u items size, SubValue u v ∨ SubValue u v' → IsList u items size → items.length < 2 ^ 30)
    {T : Ty} (hT : Avoids N T) (hp : T.Proper) (d : Dyn) :
    fromSlice T w = .ok d ↔ fromSlice T w' = .ok d := by
  have null : v = .null ↔ v' = .null := by
    constructor
    · rintro rfl; cases hv; rfl
    · rintro rfl; cases hv; rfl
  rw [C58_root h hdec (fun h32 u i s hu => hbig h32 u i s (.inl hu)) T hp d,
    C58_root h' hdec (fun h32 u i s hu => hbig h32 u i s (.inr hu)) T hp d, C70_value hv hT d, null]

/-! ## New and old fields of a type -/

theorem fields_split {ms : List (Str × Value)} {fs gs : List (Str × Ty)} {ds : List (Str × Dyn)} :
    FieldsDecode ms (fs ++ gs) ds ↔ ∃ ds1 ds2, ds = ds1 ++ ds2 ∧ FieldsDecode ms fs ds1 ∧ FieldsDecode ms gs ds2 := by
  induction fs generalizing ds with
  | nil =>
    constructor
    · exact fun h => ⟨[], ds, rfl, .nil ms, h⟩
    · rintro ⟨ds1, ds2, rfl, h1, h2⟩
      cases h1
      exact h2
  | cons f fs ih =>
    constructor
    · intro h
      cases h with
      | found h1 h2 h3 =>
        obtain ⟨ds1, ds2, rfl, h4, h5⟩ := ih.mp h3
        exact ⟨_ :: ds1, ds2, rfl, .found h1 h2 h4, h5⟩
      | missing h1 h3 =>
        obtain ⟨ds1, ds2, rfl, h4, h5⟩ := ih.mp h3
        exact ⟨_ :: ds1, ds2, rfl, .missing h1 h4, h5⟩
    · rintro ⟨ds1, ds2, rfl, h1, h2⟩
      cases h1 with
      | found h3 h4 h5 => exact .found h3 h4 (ih.mpr ⟨_, ds2, rfl, h5, h2⟩)
      | missing h3 h5 => exact .missing h3 (ih.mpr ⟨_, ds2, rfl, h5, h2⟩)

theorem fields_length {ms : List (Str × Value)} {fs : List (Str × Ty)} {ds : List (Str × Dyn)} (h : FieldsDecode ms fs ds) :
    ds.length = fs.length := by
  induction fs generalizing ds with
  | nil => cases h; rfl
  | cons f fs ih =>
    cases h with
    | found _ _ h => simp [ih h]
    | missing _ h => simp [ih h]

theorem fields_at {ms : List (Str × Value)} {fs gs : List (Str × Ty)} {ds es : List (Str × Dyn)} (hl : ds.length = fs.length) :
    FieldsDecode ms (fs ++ gs) (ds ++ es) ↔ FieldsDecode ms fs ds ∧ FieldsDecode ms gs es := by
  rw [fields_split]
  constructor
  · rintro ⟨ds1, ds2, he, h1, h2⟩
    obtain ⟨rfl, rfl⟩ := List.append_inj he (by rw [fields_length h1, hl])
    exact ⟨h1, h2⟩
  · exact fun ⟨h1, h2⟩ => ⟨ds, es, rfl, h1, h2⟩

theorem struct_iff {cls : Str} {lib : Option Str} {ms : List (Str × Value)} {fs : List (Str × Ty)} {ds : List (Str × Dyn)} :
    Decodes (.object cls lib ms) (.struct fs) (.struct ds) ↔
      FieldsDecode ms fs ds ∧ ∀ m ∈ ms, m.1 ∉ fs.map Prod.fst → Decodes m.2 .ignored .ignored := by
  constructor
  · intro h
    generalize hT : Ty.struct fs = T at h
    cases h with
    | struct h1 h2 => cases hT; exact ⟨h1, h2⟩
    | boxed _ _ _ h => exact absurd hT.symm (h fs)
    | _ => cases hT
  · exact fun ⟨h1, h2⟩ => .struct h1 h2

/-- **C70** (new fields) A type that has got a new optional field, which the object does not have, reads the object as
before, and the new field is `None`. -/
theorem C70_new_field {cls : Str} {lib : Option Str} {ms : List (Str × Value)} {fs gs : List (Str × Ty)} {k : Str} {T : Ty}
    (hk : ∀ m ∈ ms, m.1 ≠ k) {ds es : List (Str × Dyn)} (hl : ds.length = fs.length) :
    Decodes (.object cls lib ms) (.struct (fs ++ (k, .option T) :: gs)) (.struct (ds ++ (k, .none) :: es)) ↔
      Decodes (.object cls lib ms) (.struct (fs ++ gs)) (.struct (ds ++ es)) := by
  rw [struct_iff, struct_iff, fields_at hl, fields_at hl]
  have hf : FieldsDecode ms ((k, .option T) :: gs) ((k, .none) :: es) ↔ FieldsDecode ms gs es := by
    constructor
    · intro h
      cases h with
      | found h => exact absurd rfl (hk _ h)
      | missing _ h => exact h
    · exact fun h => .missing hk h
  rw [hf]
  refine and_congr_right fun _ => forall_congr' fun m => forall_congr' fun hm => imp_congr_left ?_
  simp [hk m hm]

/-- **C70** (old fields) A type that has lost a field reads the object as before, if the member can still be
ignored (as all can that were read at a type without structs). -/
theorem C70_lost_field {cls : Str} {lib : Option Str} {ms : List (Str × Value)} {fs gs : List (Str × Ty)} {k : Str} {T : Ty}
    {ds es : List (Str × Dyn)} {d : Dyn} (hl : ds.length = fs.length) (hm : (ms.map Prod.fst).Nodup)
    (hT : Structless T ∨ ∀ w, (k, w) ∈ ms → Decodes w .ignored .ignored)
    (h : Decodes (.object cls lib ms) (.struct (fs ++ (k, T) :: gs)) (.struct (ds ++ (k, d) :: es))) :
    Decodes (.object cls lib ms) (.struct (fs ++ gs)) (.struct (ds ++ es)) := by
  rw [struct_iff, fields_at hl] at h ⊢
  obtain ⟨⟨h1, h2⟩, h3⟩ := h
  have hk : ∀ w, (k, w) ∈ ms → Decodes w .ignored .ignored := by
    rcases hT with hT | hT
    · intro w hw
      cases h2 with
      | found h4 h5 =>
        have := get?_mem hm hw
        rw [get?_mem hm h4] at this
        cases this
        obtain ⟨d', h6⟩ := has_image h5 hT
        exact ignored_of_image h6
      | missing h4 => exact absurd rfl (h4 _ hw)
    · exact hT
  refine ⟨⟨h1, by cases h2 <;> assumption⟩, ?_⟩
  intro m hm' hn
  by_cases he : m.1 = k
  · exact hk m.2 (he ▸ hm')
  · exact h3 m hm' (by simpa [he] using hn)

/-! A person with a name and tags, and one that has an age and whose tag has more: both are
read as the same struct. -/

/-- The old data. -/
def personOld : Value := .object (lit "Person") (some (lit "Lib")) [(lit "Name", .string (lit "Bob")),
  (lit "Tags", .array [.object (lit "Tag") none [(lit "Id", .int32 7)]])]

/-- The new data. -/
def personNew : Value := .object (lit "Person") (some (lit "Lib")) [(lit "Age", .byte 33),
  (lit "Tags", .array [.object (lit "Tag") none [(lit "Id", .int32 7), (lit "More", .array [.null, .boolean true])]]),
  (lit "Name", .string (lit "Bob"))]

/-- The type, which knows the old members only. -/
def personType : Ty := .struct [(lit "Name", .str), (lit "Tags", .vec (.struct [(lit "Id", .i32)]))]

/-- The names that are new. -/
def newNames (k : Str) : Prop := k = lit "Age" ∨ k = lit "More"

theorem person_alike : Alike newNames personOld personNew := by
  refine .object (common := [(lit "Name", .string (lit "Bob")), (lit "Tags", .array [.object (lit "Tag") none [(lit "Id", .int32 7)]])])
    (common' := [(lit "Name", .string (lit "Bob")),
      (lit "Tags", .array [.object (lit "Tag") none [(lit "Id", .int32 7), (lit "More", .array [.null, .boolean true])]])])
    (extra := []) (extra' := [(lit "Age", .byte 33)]) (by simp) ?_ rfl ?_ (by simp) ?_ (.inl (.inl (by simp)))
  · exact (List.reverse_perm _).symm
  · intro p hp
    simp only [List.zip_cons_cons, List.zip_nil_left, List.mem_cons, List.not_mem_nil, or_false] at hp
    rcases hp with rfl | rfl
    · exact .leaf trivial
    · refine .array rfl ?_
      intro p hp
      simp only [List.zip_cons_cons, List.zip_nil_left, List.mem_cons, List.not_mem_nil, or_false] at hp
      subst hp
      refine .object (common := [(lit "Id", .int32 7)]) (common' := [(lit "Id", .int32 7)]) (extra := [])
        (extra' := [(lit "More", .array [.null, .boolean true])]) (.refl _) (.refl _) rfl ?_ (by simp) ?_ (.inl (.inr (by kernel_decide)))
      · intro p hp
        simp only [List.zip_cons_cons, List.zip_nil_left, List.mem_cons, List.not_mem_nil, or_false] at hp
        subst hp
        exact .leaf trivial
      · intro m hm
        rw [List.mem_singleton.mp hm]
        exact ⟨.inr rfl, .ignoredElements (.array _) (.cons (.ignoredLeaf trivial) (.cons (.ignoredLeaf trivial) (.nil _)))⟩
  · intro m hm
    rw [List.mem_singleton.mp hm]
    exact ⟨.inl rfl, .ignoredLeaf trivial⟩

omit [Platform] [FloatLib] in
theorem person_avoids : Avoids newNames personType := by
  have hn : ∀ k, k ∈ [lit "Name", lit "Tags", lit "Id"] → ¬ newNames k := by
    unfold newNames
    kernel_decide
  refine .struct ?_ ?_
  · intro f hf
    refine hn f.1 ?_
    simp only [List.mem_cons, List.not_mem_nil, or_false] at hf
    rcases hf with rfl | rfl <;> simp
  · intro f hf
    simp only [List.mem_cons, List.not_mem_nil, or_false] at hf
    rcases hf with rfl | rfl
    · exact .str
    · refine .vec (.struct ?_ ?_)
      · intro f hf
        rw [List.mem_singleton.mp hf]
        exact hn _ (by simp)
      · intro f hf
        rw [List.mem_singleton.mp hf]
        exact .int _ _

/-- C70: the new data are read as the old data. -/
example : Decodes personNew personType (.struct [(lit "Name", .str (lit "Bob")), (lit "Tags", .seq [.struct [(lit "Id", .int 7)]])]) := by
  refine (C70_value person_alike person_avoids _).mp ?_
  refine .struct (.found (by simp) (.str _) (.found (List.mem_cons_of_mem _ (.head _)) (.vec (.array _) (.cons (.struct
    (.found (.head _) (.int rfl (by decide) (by decide)) (.nil _)) ?_) (.nil _))) (.nil _))) ?_
  · intro m hm hn
    rw [List.mem_singleton.mp hm] at hn
    exact absurd (by simp) hn
  · intro m hm hn
    simp only [List.mem_cons, List.not_mem_nil, or_false] at hm
    rcases hm with rfl | rfl <;> exact absurd (by simp) hn

/-- Both are messages. -/
theorem person_old_ok : deserialize (write (.value personOld)) = .ok (.value personOld) := by platform_decide

theorem person_new_ok : deserialize (write (.value personNew)) = .ok (.value personNew) := by platform_decide

omit [Platform] [FloatLib] in
theorem not_list_member {cls : Str} {lib : Option Str} {ms : List (Str × Value)} (h : lib ≠ none ∨ cls.takeWhile (· ≠ 96) ≠ lit "System.Collections.Generic.List")
    (hm : ∀ m ∈ ms, ∀ u, SubValue u m.2 → ∀ items size, ¬ IsList u items size) :
    ∀ u, SubValue u (.object cls lib ms) → ∀ items size, ¬ IsList u items size := by
  intro u hu items size hl
  generalize hv : Value.object cls lib ms = v at hu
  cases hu with
  | refl =>
    subst hv
    obtain ⟨_, _, _, he, h1, _⟩ := hl
    cases he
    rcases h with h | h
    · exact h rfl
    · exact h h1
  | item => cases hv
  | member h1 h2 => cases hv; exact hm _ h1 _ h2 _ _ hl

omit [Platform] [FloatLib] in
theorem not_list_item {vs : List Value} (hm : ∀ v ∈ vs, ∀ u, SubValue u v → ∀ items size, ¬ IsList u items size) :
    ∀ u, SubValue u (.array vs) → ∀ items size, ¬ IsList u items size := by
  intro u hu items size hl
  generalize hv : Value.array vs = v at hu
  cases hu with
  | refl =>
    subst hv
    obtain ⟨_, _, _, he, _⟩ := hl
    cases he
  | member => cases hv
  | item h1 h2 => cases hv; exact hm _ h1 _ h2 _ _ hl

omit [Platform] [FloatLib] in
theorem not_list_leaf {v : Value} (h : IsLeaf v) : ∀ u, SubValue u v → ∀ items size, ¬ IsList u items size := by
  intro u hu items size hl
  cases hu with
  | refl =>
    obtain ⟨_, _, _, he, _⟩ := hl
    subst he
    exact h
  | item => exact h
  | member => exact h

/-- C70: `from_slice` of the written messages. -/
example (hdec : ∀ x : Dec, IsUtf8 (Platform.decimalToStr x)) (d : Dyn) :
    fromSlice personType (write (.value personOld)) = .ok d ↔ fromSlice personType (write (.value personNew)) = .ok d := by
  have ho : ∀ u, SubValue u personOld → ∀ items size, ¬ IsList u items size := by
    refine not_list_member (.inl (by simp)) ?_
    intro m hm
    simp only [List.mem_cons, List.not_mem_nil, or_false] at hm
    rcases hm with rfl | rfl
    · exact not_list_leaf trivial
    · refine not_list_item fun v hv => ?_
      rw [List.mem_singleton.mp hv]
      refine not_list_member (.inr (by kernel_decide)) fun m hm => ?_
      rw [List.mem_singleton.mp hm]
      exact not_list_leaf trivial
  have hn : ∀ u, SubValue u personNew → ∀ items size, ¬ IsList u items size := by
    refine not_list_member (.inl (by simp)) ?_
    intro m hm
    simp only [List.mem_cons, List.not_mem_nil, or_false] at hm
    rcases hm with rfl | rfl | rfl
    · exact not_list_leaf trivial
    · refine not_list_item fun v hv => ?_
      rw [List.mem_singleton.mp hv]
      refine not_list_member (.inr (by kernel_decide)) fun m hm => ?_
      simp only [List.mem_cons, List.not_mem_nil, or_false] at hm
      rcases hm with rfl | rfl
      · exact not_list_leaf trivial
      · refine not_list_item fun v hv => ?_
        simp only [List.mem_cons, List.not_mem_nil, or_false] at hv
        rcases hv with rfl | rfl <;> exact not_list_leaf trivial
    · exact not_list_leaf trivial
  refine C70 person_old_ok person_new_ok person_alike hdec ?_ person_avoids ?_ d
  · rintro - u items size (h | h) hl
    · exact absurd hl (ho u h _ _)
    · exact absurd hl (hn u h _ _)
  · refine .struct (by kernel_decide) ?_
    intro f hf
    simp only [List.mem_cons, List.not_mem_nil, or_false] at hf
    rcases hf with rfl | rfl
    · exact .str
    · refine .vec (.struct (by kernel_decide) ?_)
      intro f hf
      rw [List.mem_singleton.mp hf]
      exact .int _ _

end Nrbf
