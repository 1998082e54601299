import Verif.Props.SerdeScalars

/-! # C48, C53: objects as structs, and the order of members -/

set_option autoImplicit false

namespace Nrbf

variable [Platform] [FloatLib]

/-! ## C53: structs -/

/-- The value of a field of a struct, given the members of the object: the decoded member of the same name;
without such a member `None`, if the type is an option. -/
inductive FieldValue (ms : List (Str × Value)) : Str × Ty → Str × Dyn → Prop
  | found {k T v d} : (k, v) ∈ ms → decode v T = .ok d → FieldValue ms (k, T) (k, d)
  | missing {k T} : (∀ m ∈ ms, m.1 ≠ k) → FieldValue ms (k, .option T) (k, .none)

/-- Field by field. -/
inductive FieldValues (ms : List (Str × Value)) : List (Str × Ty) → List (Str × Dyn) → Prop
  | nil : FieldValues ms [] []
  | cons {f fs d ds} : FieldValue ms f d → FieldValues ms fs ds → FieldValues ms (f :: fs) (d :: ds)

/-- Members that the struct has no field for are read as `IgnoredAny`, and this must succeed. -/
def OthersIgnored (ms : List (Str × Value)) (fs : List (Str × Ty)) : Prop :=
  ∀ m ∈ ms, m.1 ∉ fs.map Prod.fst → ∃ d, decode m.2 .ignored = .ok d

theorem fieldType_some {fs : List (Str × Ty)} {k : Str} {T : Ty} (h : fieldType fs k = some T) : (k, T) ∈ fs := by
  unfold fieldType at h
  cases hf : fs.find? (fun f => f.1 = k) with
  | none => rw [hf] at h; cases h
  | some f =>
    rw [hf] at h
    have h1 := List.find?_some hf
    have h2 := List.mem_of_find?_eq_some hf
    simp only [decide_eq_true_eq] at h1
    cases h
    rw [← h1]; exact h2

theorem fieldType_none {fs : List (Str × Ty)} {k : Str} : fieldType fs k = none ↔ k ∉ fs.map Prod.fst := by
  unfold fieldType
  simp only [Option.map_eq_none_iff, List.find?_eq_none, decide_eq_true_eq, List.mem_map, not_exists, not_and]

theorem fieldType_of_mem {fs : List (Str × Ty)} (hn : (fs.map Prod.fst).Nodup) {k : Str} {T : Ty} (h : (k, T) ∈ fs) :
    fieldType fs k = some T := by
  induction fs with
  | nil => simp at h
  | cons f fs ih =>
    obtain ⟨k', T'⟩ := f
    simp only [List.map_cons, List.nodup_cons] at hn
    rcases List.mem_cons.mp h with h | h
    · cases h; simp [fieldType]
    · have : k' ≠ k := by
        rintro rfl
        exact hn.1 (List.mem_map_of_mem (f := Prod.fst) h)
      have := ih hn.2 h
      unfold fieldType at this ⊢
      rw [List.find?_cons_of_neg (by simpa using ‹k' ≠ k›)]
      exact this

/-- `readFields` succeeds if all members can be decoded. -/
theorem readFields_exists {fs : List (Str × Ty)} {ms : List (Str × Value)} (hn : (ms.map Prod.fst).Nodup)
    {acc : List (Str × Dyn)} (hacc : ∀ m ∈ ms, ∀ e ∈ acc, e.1 ≠ m.1) (ho : OthersIgnored ms fs)
    (hf : ∀ k v T, (k, v) ∈ ms → fieldType fs k = some T → ∃ d, decode v T = .ok d) :
    ∃ found, readFields fs (entriesOf ms) acc = .ok found := by
  induction ms generalizing acc with
  | nil => exact ⟨acc, rfl⟩
  | cons m ms ih =>
    obtain ⟨k, v⟩ := m
    simp only [List.map_cons, List.nodup_cons] at hn
    have hk : ∀ m ∈ ms, m.1 ≠ k := fun m hm he => hn.1 (he ▸ List.mem_map_of_mem (f := Prod.fst) hm)
    rw [show entriesOf ((k, v) :: ms) = (k, decode v) :: entriesOf ms from rfl]
    have ho' : OthersIgnored ms fs := fun m hm => ho m (by simp [hm])
    have hf' : ∀ k v T, (k, v) ∈ ms → fieldType fs k = some T → ∃ d, decode v T = .ok d :=
      fun k v T h => hf k v T (by simp [h])
    simp only [readFields]
    cases hT : fieldType fs k with
    | none =>
      obtain ⟨d, hd⟩ := ho (k, v) (by simp) (fieldType_none.mp hT)
      simp only [hd]
      exact ih hn.2 (fun m hm => hacc m (by simp [hm])) ho' hf'
    | some T =>
      obtain ⟨d, hd⟩ := hf k v T (by simp) hT
      have hany : (acc.any fun e => decide (e.1 = k)) = false := by
        rw [List.any_eq_false]
        intro e he
        simpa using hacc (k, v) (by simp) e he
      simp only [hany, Bool.false_eq_true, if_false, hd]
      refine ih hn.2 ?_ ho' hf'
      intro m hm e he
      rcases List.mem_append.mp he with he | he
      · exact hacc m (by simp [hm]) e he
      · simp only [List.mem_singleton] at he
        subst he
        exact (hk m hm).symm

/-- What `readFields` finds: an entry for every member with a field. -/
theorem readFields_ok {fs : List (Str × Ty)} {ms : List (Str × Value)} 
    {acc found : List (Str × Dyn)} (h : readFields fs (entriesOf ms) acc = .ok found) : OthersIgnored ms fs ∧
      ∃ l, found = acc ++ l ∧
        (∀ k d, (k, d) ∈ l → ∃ v T, (k, v) ∈ ms ∧ fieldType fs k = some T ∧ decode v T = .ok d) ∧
        (l.map Prod.fst) = (ms.map Prod.fst).filter (fun k => (fieldType fs k).isSome) := by
  induction ms generalizing acc with
  | nil =>
    cases h
    exact ⟨by intro m hm; simp at hm, [], by simp, by simp, by simp⟩
  | cons m ms ih =>
    obtain ⟨k, v⟩ := m
    rw [show entriesOf ((k, v) :: ms) = (k, decode v) :: entriesOf ms from rfl] at h
    simp only [readFields] at h
    cases hT : fieldType fs k with
    | none =>
      simp only [hT] at h
      cases hv : decode v .ignored with
      | error e => rw [hv] at h; cases h
      | ok d0 =>
        rw [hv] at h
        obtain ⟨h1, l, rfl, h2, h3⟩ := ih h
        refine ⟨?_, l, rfl, ?_, by simp [hT, h3]⟩
        · intro m hm
          rcases List.mem_cons.mp hm with rfl | hm
          · exact fun _ => ⟨d0, hv⟩
          · exact h1 m hm
        · intro k' d' hl
          obtain ⟨v', T', h4, h5⟩ := h2 k' d' hl
          exact ⟨v', T', by simp [h4], h5⟩
    | some T =>
      simp only [hT] at h
      split at h
      · cases h
      · cases hv : decode v T with
        | error e => rw [hv] at h; cases h
        | ok d0 =>
          rw [hv] at h
          obtain ⟨h1, l, rfl, h2, h3⟩ := ih h
          refine ⟨?_, (k, d0) :: l, by simp, ?_, by simp [hT, h3]⟩
          · intro m hm
            rcases List.mem_cons.mp hm with rfl | hm
            · intro hno; rw [fieldType_none.mpr hno] at hT; cases hT
            · exact h1 m hm
          · intro k' d' hl
            rcases List.mem_cons.mp hl with hl | hl
            · cases hl; exact ⟨v, T, by simp, hT, hv⟩
            · obtain ⟨v', T', h4, h5⟩ := h2 k' d' hl
              exact ⟨v', T', by simp [h4], h5⟩

theorem find?_none_iff {l : List (Str × Dyn)} {k : Str} :
    l.find? (fun e => e.1 = k) = none ↔ k ∉ l.map Prod.fst := by
  simp only [List.find?_eq_none, decide_eq_true_eq, List.mem_map, not_exists, not_and]

theorem FieldValues.decodes {ms : List (Str × Value)} {fs : List (Str × Ty)} {ds : List (Str × Dyn)}
    (h : FieldValues ms fs ds) (hm : (ms.map Prod.fst).Nodup) {k : Str} {v : Value} {T : Ty} (hv : (k, v) ∈ ms)
    (hT : (k, T) ∈ fs) : ∃ d, decode v T = .ok d := by
  induction h with
  | nil => simp at hT
  | cons h1 h2 ih =>
    rcases List.mem_cons.mp hT with hT | hT
    · subst hT
      cases h1 with
      | @found _ _ v' d h3 h4 =>
        have := get?_mem hm h3
        rw [get?_mem hm hv] at this
        cases this
        exact ⟨d, h4⟩
      | missing h3 => exact absurd rfl (h3 _ hv)
    · exact ih hT

/-- **C53** An object becomes a struct exactly if every field has a value and all other members can be
ignored; the fields are matched by name, wherever the member is; the result has one value per field. -/
theorem C53 (cls : Str) (lib : Option Str) (ms : List (Str × Value)) (fs : List (Str × Ty)) (d : Dyn)
    (hm : (ms.map Prod.fst).Nodup) (hf : (fs.map Prod.fst).Nodup) :
    decode (.object cls lib ms) (.struct fs) = .ok d ↔
      OthersIgnored ms fs ∧ ∃ ds, d = .struct ds ∧ FieldValues ms fs ds := by
  rw [decode_object_struct, map_ok_iff]
  unfold visitFields
  -- the fields, given what was found
  have finish : ∀ found : List (Str × Dyn),
      (∀ k d, (k, d) ∈ found → ∃ v T, (k, v) ∈ ms ∧ fieldType fs k = some T ∧ decode v T = .ok d) →
      (found.map Prod.fst) = (ms.map Prod.fst).filter (fun k => (fieldType fs k).isSome) →
      ∀ gs, (∀ g ∈ gs, g ∈ fs) → ∀ ds, finishFields found gs = .ok ds ↔ FieldValues ms gs ds := by
    intro found h1 h2 gs
    induction gs with
    | nil =>
      intro _ ds
      simp only [finishFields, Except.ok.injEq]
      constructor
      · rintro rfl; exact .nil
      · intro h; cases h; rfl
    | cons g gs ih =>
      intro hg ds
      obtain ⟨k, T⟩ := g
      have hkT := fieldType_of_mem hf (hg (k, T) (by simp))
      have ih := ih fun g hg' => hg g (by simp [hg'])
      simp only [finishFields]
      cases hfd : found.find? (fun e => e.1 = k) with
      | some e =>
        obtain ⟨k', x⟩ := e
        have e1 := List.find?_some hfd
        have e2 := List.mem_of_find?_eq_some hfd
        simp only [decide_eq_true_eq] at e1
        subst e1
        obtain ⟨v, T', h4, h5, h6⟩ := h1 _ _ e2
        rw [hkT] at h5; cases h5
        simp only
        constructor
        · intro h
          split at h
          · rename_i ds' heq
            cases h
            exact .cons (.found h4 h6) ((ih _).mp heq)
          · cases h
        · intro h
          cases h with
          | cons h7 h8 =>
            rw [(ih _).mpr h8]
            cases h7 with
            | found h9 h10 =>
              have hvv := get?_mem hm h9
              rw [get?_mem hm h4] at hvv
              cases hvv
              rw [h6] at h10; cases h10; rfl
            | missing h9 => exact absurd rfl (h9 _ h4)
      | none =>
        have hno : ∀ m ∈ ms, m.1 ≠ k := by
          intro m hm' he
          have := find?_none_iff.mp hfd
          rw [h2] at this
          exact this (List.mem_filter.mpr ⟨he ▸ List.mem_map_of_mem (f := Prod.fst) hm', by simp [hkT]⟩)
        simp only
        cases T with
        | option T =>
          simp only
          constructor
          · intro h
            split at h
            · rename_i ds' heq
              cases h
              exact .cons (.missing hno) ((ih _).mp heq)
            · cases h
          · intro h
            cases h with
            | cons h7 h8 =>
              rw [(ih _).mpr h8]
              cases h7 with
              | found h9 h10 => exact absurd rfl (hno _ h9)
              | missing h9 => rfl
        | _ =>
          simp only [reduceCtorEq, false_iff]
          intro h
          cases h with
          | cons h7 h8 =>
            cases h7 with
            | found h9 h10 => exact absurd rfl (hno _ h9)
  constructor
  · rintro ⟨ds, h, rfl⟩
    split at h
    · rename_i found hr
      obtain ⟨h0, l, hl, h1, h3⟩ := readFields_ok hr
      rw [List.nil_append] at hl
      subst hl
      exact ⟨h0, ds, rfl, (finish _ h1 h3 fs (fun _ h => h) ds).mp h⟩
    · cases h
  · rintro ⟨h0, ds, rfl, h⟩
    refine ⟨ds, ?_, rfl⟩
    obtain ⟨found, hr⟩ := readFields_exists (acc := []) hm (by simp) h0 fun k v T h1 h2 =>
      h.decodes hm h1 (fieldType_some h2)
    rw [hr]
    obtain ⟨_, l, rfl, h1, h3⟩ := readFields_ok hr
    exact (finish _ (by simpa using h1) (by simpa using h3) fs (fun _ h => h) ds).mpr h

/-- The example of the documentation: unknown members are skipped, a missing option is `None`. -/
example : decode (.object (lit "Point") (some (lit "Lib")) [(lit "y", .int32 2), (lit "z", .string (lit "?")), (lit "x", .int32 1)])
    (.struct [(lit "x", .i32), (lit "y", .i64), (lit "w", .option .i32)]) =
    .ok (.struct [(lit "x", .int 1), (lit "y", .int 2), (lit "w", .none)]) := by
  kernel_decide

/-- A missing field that is no option is an error. -/
theorem C53_missing (cls : Str) (lib : Option Str) (ms : List (Str × Value)) (fs : List (Str × Ty)) (k : Str) (T : Ty)
    (hm : (ms.map Prod.fst).Nodup) (hf : (fs.map Prod.fst).Nodup) (hk : (k, T) ∈ fs) (hT : ∀ T', T ≠ .option T')
    (hno : k ∉ ms.map Prod.fst) : ∃ e, decode (.object cls lib ms) (.struct fs) = .error e := by
  cases hd : decode (.object cls lib ms) (.struct fs) with
  | error e => exact ⟨e, rfl⟩
  | ok d =>
    exfalso
    obtain ⟨ho, ds, he, h⟩ := (C53 cls lib ms fs d hm hf).mp hd
    clear hd hf ho he
    induction h with
    | nil => simp at hk
    | cons h1 h2 ih =>
      rcases List.mem_cons.mp hk with hk | hk
      · subst hk
        cases h1 with
        | found h3 _ => exact hno (List.mem_map_of_mem (f := Prod.fst) h3)
        | missing h3 => exact hT _ rfl
      · exact ih hk

/-- Not every value can be ignored: a struct without a field for such a member cannot be read at all. -/
theorem C53_ignored_error : decode (.object (lit "P") none [(lit "x", .int32 1),
      (lit "y", .object (lit "System.Int32") none [])]) (.struct [(lit "x", .i32)]) = .error .serde := by
  kernel_decide

end Nrbf
