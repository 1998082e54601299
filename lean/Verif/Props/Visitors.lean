import Verif.Spec.Visitor

/-! # C74: what the crate promises to every `Deserialize` implementation -/

set_option autoImplicit false

namespace Nrbf.Visitors

section
variable {ι α : Type}

/-! ## Conversations, step by step -/

/-- The rest `c` of a conversation that began with `pre`. -/
def SeqFrom (seq : List (Res (Option α)) → SeqAction ι α)
    (answered : List (ι × Res (Option α)) → ι → Res (Option α) → Prop) (pre c : List (ι × Res (Option α))) (r : Res α) : Prop :=
  (∀ before i a later, c = before ++ (i, a) :: later →
    seq (replies (pre ++ before)) = .next i ∧ answered (pre ++ before) i a) ∧
  seq (replies (pre ++ c)) = .finish r

variable {seq : List (Res (Option α)) → SeqAction ι α} {answered : List (ι × Res (Option α)) → ι → Res (Option α) → Prop}
variable {pre c : List (ι × Res (Option α))} {r : Res α}

theorem seqFrom_nil : SeqFrom seq answered pre [] r ↔ seq (replies pre) = .finish r := by
  constructor
  · intro h
    simpa using h.2
  · intro h
    refine ⟨fun before i a later e => ?_, by simpa using h⟩
    cases before <;> cases e

theorem seqFrom_cons {i : ι} {a : Res (Option α)} : SeqFrom seq answered pre ((i, a) :: c) r ↔
    seq (replies pre) = .next i ∧ answered pre i a ∧ SeqFrom seq answered (pre ++ [(i, a)]) c r := by
  constructor
  · intro h
    obtain ⟨h1, h2⟩ := h.1 [] i a c rfl
    rw [List.append_nil] at h1 h2
    refine ⟨h1, h2, ?_, ?_⟩
    · intro before j b later e
      have := h.1 ((i, a) :: before) j b later (by rw [e]; rfl)
      simpa [List.append_assoc] using this
    · have := h.2
      simpa [List.append_assoc] using this
  · rintro ⟨h1, h2, h3⟩
    refine ⟨?_, ?_⟩
    · intro before j b later e
      cases before with
      | nil =>
        cases e
        simpa using ⟨h1, h2⟩
      | cons x xs =>
        cases e
        have := h3.1 xs j b later rfl
        simpa [List.append_assoc] using this
    · have := h3.2
      simpa [List.append_assoc] using this

theorem seqFrom_start : SeqFrom seq answered [] c r ↔ SeqTalk seq answered c r := by
  unfold SeqFrom SeqTalk
  simp

/-- The rest `c` of a conversation over a map that began with `pre`. -/
def MapFrom (map : List (Res (Option α)) → MapAction ι α)
    (answered : List (Ask ι × Res (Option α)) → Ask ι → Res (Option α) → Prop) (pre c : List (Ask ι × Res (Option α)))
    (r : Res α) : Prop :=
  (∀ before i a later, c = before ++ (i, a) :: later →
    map (replies (pre ++ before)) = (match i with | .key i => .key i | .value i => .value i) ∧ answered (pre ++ before) i a) ∧
  map (replies (pre ++ c)) = .finish r

variable {map : List (Res (Option α)) → MapAction ι α} {answers : List (Ask ι × Res (Option α)) → Ask ι → Res (Option α) → Prop}
variable {mpre mc : List (Ask ι × Res (Option α))}

theorem mapFrom_nil : MapFrom map answers mpre [] r ↔ map (replies mpre) = .finish r := by
  constructor
  · intro h
    simpa using h.2
  · intro h
    refine ⟨fun before i a later e => ?_, by simpa using h⟩
    cases before <;> cases e

theorem mapFrom_cons {i : Ask ι} {a : Res (Option α)} : MapFrom map answers mpre ((i, a) :: mc) r ↔
    map (replies mpre) = (match i with | .key i => .key i | .value i => .value i) ∧ answers mpre i a ∧
    MapFrom map answers (mpre ++ [(i, a)]) mc r := by
  constructor
  · intro h
    obtain ⟨h1, h2⟩ := h.1 [] i a mc rfl
    rw [List.append_nil] at h1 h2
    refine ⟨h1, h2, ?_, ?_⟩
    · intro before j b later e
      have := h.1 ((i, a) :: before) j b later (by rw [e]; rfl)
      simpa [List.append_assoc] using this
    · have := h.2
      simpa [List.append_assoc] using this
  · rintro ⟨h1, h2, h3⟩
    refine ⟨?_, ?_⟩
    · intro before j b later e
      cases before with
      | nil =>
        cases e
        simpa using ⟨h1, h2⟩
      | cons x xs =>
        cases e
        have := h3.1 xs j b later rfl
        simpa [List.append_assoc] using this
    · have := h3.2
      simpa [List.append_assoc] using this

theorem mapFrom_start : MapFrom map answers [] mc r ↔ MapTalk map answers mc r := by
  unfold MapFrom MapTalk
  simp only [List.nil_append]
  exact Iff.rfl

theorem replies_snoc {β : Type} (c : List (β × Res (Option α))) (x : β × Res (Option α)) :
    replies (c ++ [x]) = replies c ++ [x.2] := by simp [replies]

theorem successes_snoc {β : Type} (c : List (β × Res (Option α))) (i : β) (a : Res (Option α)) :
    successes (c ++ [(i, a)]) = successes c + (match a with | .ok _ => 1 | .error _ => 0) := by
  unfold successes
  cases a <;> simp

theorem keysAsked_append (c d : List (Ask ι × Res (Option α))) : keysAsked (c ++ d) = keysAsked c + keysAsked d := by
  induction c with
  | nil => simp [keysAsked]
  | cons x c ih =>
    obtain ⟨i, a⟩ := x
    cases i <;> simp [keysAsked, ih] <;> omega

end

section
variable {ι α : Type} [Platform] [FloatLib] [TextLib] {impls : ι → Impl ι α}

/-! ## Arrays -/

theorem arrayRun_talk (vs : List Value) (seq : List (Res (Option α)) → SeqAction ι α) : ∀ {us n h r rest count},
    ArrayRun impls seq us n h r rest count → ∀ pre : List (ι × Res (Option α)), h = replies pre → us = vs.drop pre.length →
    n = min pre.length vs.length → ∃ c, SeqFrom seq (ArrayAnswer impls vs) pre c r ∧ rest = vs.drop (pre ++ c).length ∧
      count = min (pre ++ c).length vs.length
  | _, _, _, _, _, _, .finish hf, pre, hh, hu, hn => ⟨[], seqFrom_nil.mpr (hh ▸ hf), by simpa using hu, by simpa using hn⟩
  | _, _, _, _, _, _, .element (v := v) (i := i) (a := a) hs hd hrest, pre, hh, hu, hn => by
    have ih := arrayRun_talk vs seq hrest (pre ++ [(i, a.map some)])
    have hlt : pre.length < vs.length := by
      have := congrArg List.length hu
      simp at this
      omega
    have hv : vs[pre.length]? = some v := by
      have := congrArg List.head? hu
      rw [List.head?_drop] at this
      exact this.symm
    subst hh
    obtain ⟨c, h1, h2, h3⟩ := ih (by rw [replies_snoc]) (by
      have := congrArg List.tail hu
      simpa [List.tail_drop] using this) (by simp; omega)
    refine ⟨(i, a.map some) :: c, seqFrom_cons.mpr ⟨hs, ?_, h1⟩, by simpa [List.append_assoc] using h2, by simpa [List.append_assoc] using h3⟩
    unfold ArrayAnswer
    rw [hv]
    exact ⟨a, hd, rfl⟩
  | _, _, _, _, _, _, .exhausted (i := i) hs hrest, pre, hh, hu, hn => by
    have ih := arrayRun_talk vs seq hrest (pre ++ [(i, .ok none)])
    have hle : vs.length ≤ pre.length := by
      have := congrArg List.length hu
      simp at this
      omega
    subst hh
    obtain ⟨c, h1, h2, h3⟩ := ih (by rw [replies_snoc]) (by
      rw [List.drop_eq_nil_of_le (by simp; omega)]) (by simp; omega)
    refine ⟨(i, .ok none) :: c, seqFrom_cons.mpr ⟨hs, ?_, h1⟩, by simpa [List.append_assoc] using h2, by simpa [List.append_assoc] using h3⟩
    unfold ArrayAnswer
    rw [List.getElem?_eq_none hle]

theorem talk_arrayRun (vs : List Value) (seq : List (Res (Option α)) → SeqAction ι α) (r : Res α) :
    ∀ (c pre : List (ι × Res (Option α))), SeqFrom seq (ArrayAnswer impls vs) pre c r →
    ArrayRun impls seq (vs.drop pre.length) (min pre.length vs.length) (replies pre) r (vs.drop (pre ++ c).length)
      (min (pre ++ c).length vs.length)
  | [], pre, h => by
    rw [List.append_nil]
    exact .finish (seqFrom_nil.mp h)
  | (i, a) :: c, pre, h => by
    obtain ⟨h1, h2, h3⟩ := seqFrom_cons.mp h
    have ih := talk_arrayRun vs seq r c _ h3
    rw [List.append_assoc, List.singleton_append, replies_snoc] at ih
    unfold ArrayAnswer at h2
    by_cases hlt : pre.length < vs.length
    · rw [List.getElem?_eq_getElem hlt] at h2
      obtain ⟨x, h4, rfl⟩ := h2
      rw [List.drop_eq_getElem_cons hlt]
      refine .element h1 h4 ?_
      rw [Nat.min_eq_left (by omega)]
      rw [List.length_append, List.length_singleton, Nat.min_eq_left (by omega)] at ih
      exact ih
    · rw [List.getElem?_eq_none (by omega)] at h2
      subst h2
      rw [List.drop_eq_nil_of_le (by omega)]
      rw [List.drop_eq_nil_of_le (by simp; omega), List.length_append, List.length_singleton,
        show min (pre.length + 1) vs.length = min pre.length vs.length by omega] at ih
      exact .exhausted h1 ih

/-- **C74** (arrays) Whatever the type: it is answered with the elements of the array, in order and none twice, each as
the type it asks for, then `None`; and it fails if it returns before it has had them all. -/
theorem talk_array {vs : List Value} {m : Method} {V : Visitor ι α} {r : Res α} (hm : m ≠ .option) :
    Visit impls (.array vs) m V r ↔ ∃ c r0, SeqTalk V.seq (ArrayAnswer impls vs) c r0 ∧
      r = (match r0 with
        | .ok a => if vs.length ≤ c.length then .ok a
          else .error (lit "invalid length " ++ digits vs.length ++ lit ", expected " ++ expectedInArray c.length)
        | .error e => .error e) := by
  have key : VisitAny impls (.array vs) V r ↔ ∃ c r0, SeqTalk V.seq (ArrayAnswer impls vs) c r0 ∧
      r = (match r0 with
        | .ok a => if vs.length ≤ c.length then .ok a
          else .error (lit "invalid length " ++ digits vs.length ++ lit ", expected " ++ expectedInArray c.length)
        | .error e => .error e) := by
    have hend : ∀ (c : List (ι × Res (Option α))) (r0 : Res α), arrayEnd r0 (vs.drop c.length).length (min c.length vs.length) =
        (match r0 with
        | .ok a => if vs.length ≤ c.length then .ok a
          else .error (lit "invalid length " ++ digits vs.length ++ lit ", expected " ++ expectedInArray c.length)
        | .error e => .error e) := by
      intro c r0
      cases r0 with
      | error e => rfl
      | ok a =>
        simp only [arrayEnd, List.length_drop]
        by_cases hle : vs.length ≤ c.length
        · rw [if_pos (by omega), if_pos hle]
        · rw [if_neg (by omega), if_neg hle, Nat.min_eq_left (by omega)]
          simp only [SerdeError.text]
          rw [show c.length + (vs.length - c.length) = vs.length by omega]
    constructor
    · intro h
      generalize hv : Value.array vs = v at h
      cases h with
      | array h =>
        cases hv
        obtain ⟨c, h1, rfl, rfl⟩ := arrayRun_talk vs V.seq h [] rfl rfl (by simp)
        exact ⟨c, _, seqFrom_start.mp h1, hend _ _⟩
      | scalar h => subst hv; cases h
      | object => cases hv
      | boxed => cases hv
      | fail => cases hv
      | list => cases hv
    · rintro ⟨c, r0, h, rfl⟩
      rw [← hend]
      have := talk_arrayRun (impls := impls) vs V.seq r0 c [] (seqFrom_start.mpr h)
      exact .array (by simpa [replies] using this)
  rw [← key]
  constructor
  · intro h
    cases h with
    | some => exact absurd rfl hm
    | struct _ h => exact h
    | any _ _ h => exact h
  · intro h
    by_cases hs : m = .struct
    · subst hs
      exact .struct (by simp) h
    · exact .any hm hs h

/-! ## Lists -/

omit [Platform] [FloatLib] [TextLib] in
theorem successes_le {β : Type} (c : List (β × Res (Option α))) : successes c ≤ c.length := List.length_filter_le _ _

theorem listRun_talk (vs : List Value) (size : Nat) (seq : List (Res (Option α)) → SeqAction ι α) : ∀ {us n h r count},
    ListRun impls size seq us n h r count → ∀ pre : List (ι × Res (Option α)), h = replies pre →
    (successes pre < size → us = vs.drop pre.length) →
    n = min (successes pre) size → ∃ c, SeqFrom seq (ListAnswer impls vs size) pre c r ∧
      count = min (successes (pre ++ c)) size
  | _, _, _, _, _, .finish hf, pre, hh, hu, hn => ⟨[], seqFrom_nil.mpr (hh ▸ hf), by simpa using hn⟩
  | _, _, _, _, _, .element (v := v) (i := i) (a := a) hs hlt hd hrest, pre, hh, hu, hn => by
    have ih := listRun_talk vs size seq hrest (pre ++ [(i, .ok (some a))])
    have hlt' : successes pre < size := by omega
    replace hu := hu hlt'
    have hv : vs[pre.length]? = some v := by
      have := congrArg List.head? hu
      rw [List.head?_drop] at this
      exact this.symm
    subst hh
    obtain ⟨c, h1, h2⟩ := ih (by rw [replies_snoc]) (fun _ => by
      have := congrArg List.tail hu
      simpa [List.tail_drop] using this) (by rw [successes_snoc]; simp only; omega)
    refine ⟨(i, .ok (some a)) :: c, seqFrom_cons.mpr ⟨hs, ?_, h1⟩, by simpa [List.append_assoc] using h2⟩
    unfold ListAnswer ArrayAnswer
    rw [if_pos hlt', hv]
    exact ⟨.ok a, hd, rfl⟩
  | _, _, _, _, _, .error (v := v) (i := i) (e := e) hs hlt hd hrest, pre, hh, hu, hn => by
    have ih := listRun_talk vs size seq hrest (pre ++ [(i, .error e)])
    have hlt' : successes pre < size := by omega
    replace hu := hu hlt'
    have hv : vs[pre.length]? = some v := by
      have := congrArg List.head? hu
      rw [List.head?_drop] at this
      exact this.symm
    subst hh
    obtain ⟨c, h1, h2⟩ := ih (by rw [replies_snoc]) (fun _ => by
      have := congrArg List.tail hu
      simpa [List.tail_drop] using this) (by rw [successes_snoc]; exact hn)
    refine ⟨(i, .error e) :: c, seqFrom_cons.mpr ⟨hs, ?_, h1⟩, by simpa [List.append_assoc] using h2⟩
    unfold ListAnswer ArrayAnswer
    rw [if_pos hlt', hv]
    exact ⟨.error e, hd, rfl⟩
  | _, _, _, _, _, .exhausted (i := i) hs hlt hrest, pre, hh, hu, hn => by
    have ih := listRun_talk vs size seq hrest (pre ++ [(i, .ok none)])
    have hlt' : successes pre < size := by omega
    replace hu := hu hlt'
    have hle : vs.length ≤ pre.length := by
      have := congrArg List.length hu
      simp at this
      omega
    subst hh
    obtain ⟨c, h1, h2⟩ := ih (by rw [replies_snoc]) (fun _ => by
      rw [List.drop_eq_nil_of_le (by simp; omega)]) (by rw [successes_snoc]; simp only; omega)
    refine ⟨(i, .ok none) :: c, seqFrom_cons.mpr ⟨hs, ?_, h1⟩, by simpa [List.append_assoc] using h2⟩
    unfold ListAnswer ArrayAnswer
    rw [if_pos hlt', List.getElem?_eq_none hle]
  | _, _, _, _, _, .full (i := i) hs hge hrest, pre, hh, hu, hn => by
    have ih := listRun_talk vs size seq hrest (pre ++ [(i, .ok none)])
    have hlt' : ¬ successes pre < size := by omega
    subst hh
    obtain ⟨c, h1, h2⟩ := ih (by rw [replies_snoc]) (fun h => by rw [successes_snoc] at h; omega)
      (by rw [successes_snoc]; simp only; omega)
    refine ⟨(i, .ok none) :: c, seqFrom_cons.mpr ⟨hs, ?_, h1⟩, by simpa [List.append_assoc] using h2⟩
    unfold ListAnswer
    rw [if_neg hlt']

theorem talk_listRun (vs : List Value) (size : Nat) (seq : List (Res (Option α)) → SeqAction ι α) (r : Res α) :
    ∀ (c pre : List (ι × Res (Option α))) (us : List Value), SeqFrom seq (ListAnswer impls vs size) pre c r →
    (successes pre < size → us = vs.drop pre.length) →
    ListRun impls size seq us (min (successes pre) size) (replies pre) r (min (successes (pre ++ c)) size)
  | [], pre, us, h, _ => by
    rw [List.append_nil]
    exact .finish (seqFrom_nil.mp h)
  | (i, a) :: c, pre, us, h, hu => by
    obtain ⟨h1, h2, h3⟩ := seqFrom_cons.mp h
    have ih := fun us => talk_listRun vs size seq r c _ us h3
    simp only [List.append_assoc, List.singleton_append, replies_snoc, successes_snoc] at ih
    unfold ListAnswer at h2
    by_cases hlt : successes pre < size
    · rw [if_pos hlt] at h2
      rw [hu hlt]
      unfold ArrayAnswer at h2
      by_cases hlt2 : pre.length < vs.length
      · rw [List.getElem?_eq_getElem hlt2] at h2
        obtain ⟨x, h4, rfl⟩ := h2
        rw [List.drop_eq_getElem_cons hlt2]
        cases x with
        | ok x =>
          refine .element h1 (by omega) h4 ?_
          have := ih (vs.drop (pre.length + 1)) (fun _ => by simp)
          simp only [Except.map] at this
          rw [Nat.min_eq_left (by omega)] at this
          rw [Nat.min_eq_left (by omega)]
          exact this
        | error e =>
          refine .error h1 (by omega) h4 ?_
          exact ih (vs.drop (pre.length + 1)) (fun _ => by simp)
      · rw [List.getElem?_eq_none (by omega)] at h2
        subst h2
        rw [List.drop_eq_nil_of_le (by omega)]
        refine .exhausted h1 (by omega) ?_
        have := ih [] (fun _ => by rw [List.drop_eq_nil_of_le (by simp; omega)])
        simp only at this
        rw [Nat.min_eq_left (by omega)] at this
        rw [Nat.min_eq_left (by omega)]
        exact this
    · rw [if_neg hlt] at h2
      subst h2
      refine .full h1 (by omega) ?_
      have := ih us (fun h => by omega)
      rw [Nat.min_eq_right (by omega)] at this
      rw [Nat.min_eq_right (by omega)]
      exact this

/-- **C74** (generic lists) Whatever the type: it is answered with the items of the list, in order and none twice, until `size`
requests have succeeded, and `None` after that (or after the last item); and it fails unless `size` requests have
succeeded. -/
theorem talk_list {cls : Str} {library : Option Str} {ms : List (Str × Value)} {vs : List Value} {size : Nat} {m : Method}
    {V : Visitor ι α} {r : Res α} (hl : objectCall cls library ms = .list vs size) (hm : m ≠ .option) (hs : m ≠ .struct) :
    Visit impls (.object cls library ms) m V r ↔ ∃ c r0, SeqTalk V.seq (ListAnswer impls vs size) c r0 ∧
      r = (match r0 with
        | .ok a => if size ≤ successes c then .ok a
          else .error (lit "invalid length " ++ digits size ++ lit ", expected " ++ expectedInList (successes c))
        | .error e => .error e) := by
  have hend : ∀ (c : List (ι × Res (Option α))) (r0 : Res α), listEnd r0 (min (successes c) size) size =
      (match r0 with
      | .ok a => if size ≤ successes c then .ok a
        else .error (lit "invalid length " ++ digits size ++ lit ", expected " ++ expectedInList (successes c))
      | .error e => .error e) := by
    intro c r0
    cases r0 with
    | error e => rfl
    | ok a =>
      simp only [listEnd]
      by_cases hle : size ≤ successes c
      · rw [if_pos (by omega), if_pos hle]
      · rw [if_neg (by omega), if_neg hle, Nat.min_eq_left (by omega)]
        rfl
  constructor
  · intro h
    cases h with
    | some => exact absurd rfl hm
    | structObject => exact absurd rfl hs
    | struct => exact absurd rfl hs
    | any _ _ h =>
      generalize hv : Value.object cls library ms = v at h
      cases h with
      | list h h' =>
        cases hv
        rw [hl] at h
        cases h
        obtain ⟨c, h1, rfl⟩ := listRun_talk vs size V.seq h' [] rfl (fun _ => rfl) (by simp [successes])
        exact ⟨c, _, seqFrom_start.mp h1, hend _ _⟩
      | scalar h => subst hv; cases h
      | array => cases hv
      | object h => cases hv; rw [hl] at h; cases h
      | boxed h => cases hv; rw [hl] at h; cases h
      | fail h => cases hv; rw [hl] at h; cases h
  · rintro ⟨c, r0, h, rfl⟩
    rw [← hend]
    have := talk_listRun (impls := impls) vs size V.seq r0 c [] vs (seqFrom_start.mpr h) (fun _ => rfl)
    exact .any hm hs (.list hl (by simpa [replies, successes] using this))

/-! ## Maps -/

/-- The value that can be asked for after these requests. -/
def Pending (ms : List (Str × Value)) (pre : List (Ask ι × Res (Option α))) (v : Value) : Prop :=
  ∃ earlier j b mid k, pre = earlier ++ (.key j, b) :: mid ∧ ms[keysAsked earlier]? = some (k, v) ∧
    (mid = [] ∨ keysAsked earlier + 1 = ms.length ∧ ∀ y ∈ mid, ∃ i', y.1 = .key i')

omit [Platform] [FloatLib] [TextLib] in
theorem keysAsked_keys {c : List (Ask ι × Res (Option α))} (h : ∀ y ∈ c, ∃ i', y.1 = .key i') : keysAsked c = c.length := by
  induction c with
  | nil => rfl
  | cons x c ih =>
    obtain ⟨i, a⟩ := x
    obtain ⟨i', rfl⟩ := h _ (List.mem_cons_self ..)
    simp only [keysAsked, List.length_cons, ih fun y hy => h y (List.mem_cons_of_mem _ hy)]

omit [Platform] [FloatLib] [TextLib] in
/-- Nothing is pending at the start, after a value, and there is at most one. -/
theorem Pending.value {ms : List (Str × Value)} {pre : List (Ask ι × Res (Option α))} {i : ι} {a : Res (Option α)} {v : Value}
    (h : Pending ms (pre ++ [(.value i, a)]) v) : False := by
  obtain ⟨earlier, j, b, mid, k, he, hk, hm⟩ := h
  rcases List.eq_nil_or_concat mid with rfl | ⟨mid', y, rfl⟩
  · have := (List.append_inj' he rfl).2
    cases this
  · rw [List.concat_eq_append] at he hm
    have he' : pre ++ [(Ask.value i, a)] = (earlier ++ (.key j, b) :: mid') ++ [y] := by simpa [List.append_assoc] using he
    obtain ⟨-, h2⟩ := List.append_inj' he' rfl
    cases h2
    rcases hm with hm | ⟨-, hm⟩
    · simp at hm
    · obtain ⟨_, h⟩ := hm (.value i, a) (by simp)
      cases h

omit [Platform] [FloatLib] [TextLib] in
theorem Pending.key {ms : List (Str × Value)} {pre : List (Ask ι × Res (Option α))} {i : ι} {a : Res (Option α)} {v : Value} :
    Pending ms (pre ++ [(.key i, a)]) v ↔
      (∃ k, ms[keysAsked pre]? = some (k, v)) ∨ (ms.length ≤ keysAsked pre ∧ Pending ms pre v) := by
  constructor
  · rintro ⟨earlier, j, b, mid, k, he, hk, hm⟩
    rcases List.eq_nil_or_concat mid with rfl | ⟨mid', y, rfl⟩
    · obtain ⟨rfl, h2⟩ := List.append_inj' he rfl
      exact .inl ⟨k, hk⟩
    · rw [List.concat_eq_append] at he hm
      have he' : pre ++ [(Ask.key i, a)] = (earlier ++ (.key j, b) :: mid') ++ [y] := by simpa [List.append_assoc] using he
      obtain ⟨rfl, h2⟩ := List.append_inj' he' rfl
      rcases hm with hm | ⟨hl, hm⟩
      · simp at hm
      · refine .inr ⟨?_, earlier, j, b, mid', k, rfl, hk, .inr ⟨hl, fun y hy => hm y (by simp [hy])⟩⟩
        rw [keysAsked_append]
        simp only [keysAsked]
        omega
  · rintro (⟨k, hk⟩ | ⟨hl, earlier, j, b, mid, k, rfl, hk, hm⟩)
    · exact ⟨pre, i, a, [], k, rfl, hk, .inl rfl⟩
    · refine ⟨earlier, j, b, mid ++ [(.key i, a)], k, by simp, hk, .inr ?_⟩
      have hlt : keysAsked earlier < ms.length := by
        rcases List.getElem?_eq_some_iff.mp hk with ⟨h, -⟩
        exact h
      rcases hm with rfl | ⟨hm1, hm2⟩
      · refine ⟨?_, by simp⟩
        rw [keysAsked_append] at hl
        simp only [keysAsked] at hl
        omega
      · refine ⟨hm1, fun y hy => ?_⟩
        rcases List.mem_append.mp hy with hy | hy
        · exact hm2 y hy
        · rw [List.mem_singleton.mp hy]
          exact ⟨i, rfl⟩

/-- The state of the map access after some requests. -/
def Reaches (ms : List (Str × Value)) (pre : List (Ask ι × Res (Option α))) (us : List (Str × Value)) (p : Option Value) (n : Nat) : Prop :=
  us = ms.drop (keysAsked pre) ∧ (∀ v, p = some v ↔ Pending ms pre v) ∧ n = min (keysAsked pre) ms.length

omit [Platform] [FloatLib] [TextLib] in
theorem Reaches.start (ms : List (Str × Value)) : Reaches ms ([] : List (Ask ι × Res (Option α))) ms none 0 := by
  refine ⟨rfl, fun v => ⟨by simp, ?_⟩, by simp [keysAsked]⟩
  rintro ⟨earlier, j, b, mid, k, he, -⟩
  cases earlier <;> cases he

omit [Platform] [FloatLib] [TextLib] in
theorem Reaches.next_key {ms us : List (Str × Value)} {pre : List (Ask ι × Res (Option α))} {k : Str} {v : Value} {p : Option Value}
    {n : Nat} (h : Reaches ms pre ((k, v) :: us) p n) (i : ι) (a : Res (Option α)) :
    Reaches ms (pre ++ [(.key i, a)]) us (some v) (n + 1) ∧ ms[keysAsked pre]? = some (k, v) := by
  obtain ⟨h1, h2, h3⟩ := h
  have hv : ms[keysAsked pre]? = some (k, v) := by
    have := congrArg List.head? h1
    rw [List.head?_drop] at this
    exact this.symm
  have hlt : keysAsked pre < ms.length := (List.getElem?_eq_some_iff.mp hv).1
  refine ⟨⟨?_, ?_, ?_⟩, hv⟩
  · rw [keysAsked_append]
    have := congrArg List.tail h1
    simpa [List.tail_drop, keysAsked] using this
  · intro u
    rw [Pending.key, hv]
    constructor
    · rintro ⟨⟩
      exact .inl ⟨k, rfl⟩
    · rintro (⟨k', e⟩ | ⟨hl, -⟩)
      · cases e; rfl
      · omega
  · rw [keysAsked_append]
    simp only [keysAsked]
    omega

omit [Platform] [FloatLib] [TextLib] in
theorem Reaches.no_key {ms : List (Str × Value)} {pre : List (Ask ι × Res (Option α))} {p : Option Value}
    {n : Nat} (h : Reaches ms pre [] p n) (i : ι) (a : Res (Option α)) :
    Reaches ms (pre ++ [(.key i, a)]) [] p n ∧ ms[keysAsked pre]? = none := by
  obtain ⟨h1, h2, h3⟩ := h
  have hle : ms.length ≤ keysAsked pre := by
    have := congrArg List.length h1
    simp at this
    omega
  have hv : ms[keysAsked pre]? = none := List.getElem?_eq_none hle
  refine ⟨⟨?_, ?_, ?_⟩, hv⟩
  · rw [keysAsked_append, List.drop_eq_nil_of_le (by omega)]
  · intro u
    rw [Pending.key, hv, h2]
    constructor
    · intro h
      exact .inr ⟨hle, h⟩
    · rintro (⟨k', e⟩ | ⟨-, h⟩)
      · cases e
      · exact h
  · rw [keysAsked_append]
    simp only [keysAsked]
    omega

omit [Platform] [FloatLib] [TextLib] in
theorem Reaches.next_value {ms us : List (Str × Value)} {pre : List (Ask ι × Res (Option α))} {p : Option Value}
    {n : Nat} (h : Reaches ms pre us p n) (i : ι) (a : Res (Option α)) :
    Reaches ms (pre ++ [(.value i, a)]) us none n := by
  obtain ⟨h1, h2, h3⟩ := h
  have e : keysAsked (pre ++ [(Ask.value i, a)]) = keysAsked pre := by simp [keysAsked_append, keysAsked]
  exact ⟨by rw [e]; exact h1, fun v => ⟨by simp, fun h => h.value.elim⟩, by rw [e]; exact h3⟩

omit [Platform] [FloatLib] [TextLib] in
theorem deserializeKey_eq (scalar : Str → Scalar) (k : Str) (A : Impl ι α) : deserializeKey scalar k A = asKey scalar k A := by
  cases A with
  | ignore r => rfl
  | call m V f => cases m <;> rfl

theorem mapRun_talk (ms : List (Str × Value)) (scalar : Str → Scalar) (map : List (Res (Option α)) → MapAction ι α) :
    ∀ {us p n h r rest count}, MapRun impls scalar map us p n h r rest count → ∀ pre : List (Ask ι × Res (Option α)),
    h = replies pre → Reaches ms pre us p n → ∃ c, MapFrom map (MapAnswer impls scalar ms) pre c r ∧
      rest = ms.drop (keysAsked (pre ++ c)) ∧ count = min (keysAsked (pre ++ c)) ms.length
  | _, _, _, _, _, _, _, .finish hf, pre, hh, hr => ⟨[], mapFrom_nil.mpr (hh ▸ hf), by simpa using hr.1, by simpa using hr.2.2⟩
  | _, _, _, _, _, _, _, .key (k := k) (v := v) (i := i) hs hrest, pre, hh, hr => by
    have ih := mapRun_talk ms scalar map hrest (pre ++ [(.key i, (deserializeKey scalar k (impls i)).map some)])
    obtain ⟨h1, h2⟩ := hr.next_key i ((deserializeKey scalar k (impls i)).map some)
    subst hh
    obtain ⟨c, h3, h4, h5⟩ := ih (by rw [replies_snoc]) h1
    refine ⟨(.key i, _) :: c, mapFrom_cons.mpr ⟨hs, ?_, h3⟩, by simpa [List.append_assoc] using h4, by simpa [List.append_assoc] using h5⟩
    unfold MapAnswer
    rw [h2]
    simp only [deserializeKey_eq]
  | _, _, _, _, _, _, _, .exhausted (i := i) hs hrest, pre, hh, hr => by
    have ih := mapRun_talk ms scalar map hrest (pre ++ [(.key i, .ok none)])
    obtain ⟨h1, h2⟩ := hr.no_key i (.ok none)
    subst hh
    obtain ⟨c, h3, h4, h5⟩ := ih (by rw [replies_snoc]) h1
    refine ⟨(.key i, _) :: c, mapFrom_cons.mpr ⟨hs, ?_, h3⟩, by simpa [List.append_assoc] using h4, by simpa [List.append_assoc] using h5⟩
    unfold MapAnswer
    rw [h2]
  | _, _, _, _, _, _, _, .value (v := v) (i := i) (a := a) hs hd hrest, pre, hh, hr => by
    have ih := mapRun_talk ms scalar map hrest (pre ++ [(.value i, a.map some)])
    have h1 := hr.next_value i (a.map some)
    obtain ⟨earlier, j, b, mid, k, e1, e2, e3⟩ := (hr.2.1 v).mp rfl
    subst hh
    obtain ⟨c, h3, h4, h5⟩ := ih (by rw [replies_snoc]) h1
    refine ⟨(.value i, _) :: c, mapFrom_cons.mpr ⟨hs, ?_, h3⟩, by simpa [List.append_assoc] using h4, by simpa [List.append_assoc] using h5⟩
    exact ⟨earlier, j, b, mid, k, v, a, e1, e2, e3, hd, rfl⟩

theorem talk_mapRun (ms : List (Str × Value)) (scalar : Str → Scalar) (map : List (Res (Option α)) → MapAction ι α) (r : Res α) :
    ∀ (c pre : List (Ask ι × Res (Option α))) (us : List (Str × Value)) (p : Option Value) (n : Nat),
    MapFrom map (MapAnswer impls scalar ms) pre c r → Reaches ms pre us p n →
    MapRun impls scalar map us p n (replies pre) r (ms.drop (keysAsked (pre ++ c))) (min (keysAsked (pre ++ c)) ms.length)
  | [], pre, us, p, n, h, hr => by
    rw [List.append_nil, ← hr.1, ← hr.2.2]
    exact .finish (mapFrom_nil.mp h)
  | (i, a) :: c, pre, us, p, n, h, hr => by
    obtain ⟨h1, h2, h3⟩ := mapFrom_cons.mp h
    have ih := fun us p n => talk_mapRun ms scalar map r c _ us p n h3
    rw [List.append_assoc, List.singleton_append, replies_snoc] at ih
    cases i with
    | key i =>
      unfold MapAnswer at h2
      cases us with
      | nil =>
        obtain ⟨g1, g2⟩ := hr.no_key i a
        rw [g2] at h2
        subst h2
        exact .exhausted h1 (ih _ _ _ g1)
      | cons m us =>
        obtain ⟨k, v⟩ := m
        obtain ⟨g1, g2⟩ := hr.next_key i a
        rw [g2] at h2
        subst h2
        refine .key h1 ?_
        rw [deserializeKey_eq]
        exact ih _ _ _ g1
    | value i =>
      obtain ⟨earlier, j, b, mid, k, v, x, e1, e2, e3, hd, rfl⟩ := h2
      have hp := (hr.2.1 v).mpr ⟨earlier, j, b, mid, k, e1, e2, e3⟩
      subst hp
      exact .value h1 hd (ih _ _ _ (hr.next_value i _))

/-- **C74** (objects) Whatever the type: it is answered with the member names, each once, then `None`, and with the value for
the name it had last; and it fails if it returns before it has had all names.  For a type that asks for a struct the names
are transient strings, else they are borrowed. -/
theorem talk_map {scalar : Str → Scalar} {ms : List (Str × Value)} {V : Visitor ι α} {r : Res α} :
    VisitMap impls scalar ms V r ↔ ∃ c r0, MapTalk (V.map ms.length) (MapAnswer impls scalar ms) c r0 ∧
      r = (match r0 with
        | .ok a => if ms.length ≤ keysAsked c then .ok a
          else .error (lit "invalid length " ++ digits ms.length ++ lit ", expected " ++ expectedInMap (keysAsked c))
        | .error e => .error e) := by
  have hend : ∀ (c : List (Ask ι × Res (Option α))) (r0 : Res α), mapEnd r0 (ms.drop (keysAsked c)).length (min (keysAsked c) ms.length) =
      (match r0 with
      | .ok a => if ms.length ≤ keysAsked c then .ok a
        else .error (lit "invalid length " ++ digits ms.length ++ lit ", expected " ++ expectedInMap (keysAsked c))
      | .error e => .error e) := by
    intro c r0
    cases r0 with
    | error e => rfl
    | ok a =>
      simp only [mapEnd, List.length_drop]
      by_cases hle : ms.length ≤ keysAsked c
      · rw [if_pos (by omega), if_pos hle]
      · rw [if_neg (by omega), if_neg hle, Nat.min_eq_left (by omega)]
        simp only [SerdeError.text]
        rw [show keysAsked c + (ms.length - keysAsked c) = ms.length by omega]
  constructor
  · rintro ⟨h⟩
    obtain ⟨c, h1, rfl, rfl⟩ := mapRun_talk ms scalar (V.map ms.length) h [] rfl (.start ms)
    exact ⟨c, _, mapFrom_start.mp h1, hend _ _⟩
  · rintro ⟨c, r0, h, rfl⟩
    rw [← hend]
    have := talk_mapRun (impls := impls) ms scalar (V.map ms.length) r0 c [] ms none 0 (mapFrom_start.mpr h) (.start ms)
    exact .mk (by simpa [replies] using this)

/-! ## Everything else -/

/-- **C74** (primitives, strings and null) Whatever the type and whatever it asks for, except for options: one call of the
visitor method for the value. -/
theorem talk_scalar {v : Value} {s : Scalar} {m : Method} {V : Visitor ι α} {r : Res α} (hv : scalarOf v = some s)
    (hm : m ≠ .option) : Visit impls v m V r ↔ r = V.scalar s := by
  have hobj : ∀ c l ms, v ≠ .object c l ms := by
    rintro c l ms rfl
    cases hv
  have key : VisitAny impls v V r ↔ r = V.scalar s := by
    constructor
    · intro h
      cases h with
      | scalar h => rw [hv] at h; cases h; rfl
      | array => cases hv
      | object => cases hv
      | boxed => cases hv
      | fail => cases hv
      | list => cases hv
    · rintro rfl
      exact .scalar hv
  rw [← key]
  constructor
  · intro h
    cases h with
    | none => exact absurd rfl hm
    | some => exact absurd rfl hm
    | structObject => exact absurd rfl (hobj _ _ _)
    | struct _ h => exact h
    | any _ _ h => exact h
  · intro h
    by_cases hs : m = .struct
    · subst hs
      exact .struct hobj h
    · exact .any hm hs h

/-- **C74** (options) A type that asks for an option is told `None` for null, and otherwise `Some` with the same value. -/
theorem C74_option {v : Value} {V : Visitor ι α} {r : Res α} : Visit impls v .option V r ↔
    (v = .null ∧ r = V.scalar .none) ∨ (v ≠ .null ∧
      ((∃ r0, V.some = .finish r0 ∧ r = r0) ∨ ∃ j after r0, V.some = .deserialize j after ∧ Deserialize impls v j r0 ∧ r = after r0)) := by
  constructor
  · intro h
    cases h with
    | none => exact .inl ⟨rfl, rfl⟩
    | some hn h =>
      refine .inr ⟨hn, ?_⟩
      generalize hs : V.some = x at h
      cases h with
      | finish => exact .inl ⟨_, rfl, rfl⟩
      | deserialize h => exact .inr ⟨_, _, _, rfl, h, rfl⟩
    | any h => exact absurd rfl h
  · rintro (⟨rfl, rfl⟩ | ⟨hn, ⟨r0, hs, rfl⟩ | ⟨j, f, r0, hs, h, rfl⟩⟩)
    · exact .none
    · refine .some hn ?_
      rw [hs]
      exact .finish
    · refine .some hn ?_
      rw [hs]
      exact .deserialize h

/-- **C74** (which method) Whether the type asks for an option or a struct matters; otherwise it does not matter what it asks
for. -/
theorem C74_method {v : Value} {m m' : Method} {V : Visitor ι α} {r : Res α} (hm : m ≠ .option) (hm' : m' ≠ .option)
    (hs : m = .struct ↔ m' = .struct) : Visit impls v m V r ↔ Visit impls v m' V r := by
  by_cases h1 : m = .struct
  · rw [h1, hs.mp h1]
  · have h2 : m' ≠ .struct := fun h => h1 (hs.mpr h)
    have key : ∀ {m : Method}, m ≠ .option → m ≠ .struct → (Visit impls v m V r ↔ VisitAny impls v V r) := by
      intro m h1 h2
      constructor
      · intro h
        cases h with
        | none => exact absurd rfl h1
        | some => exact absurd rfl h1
        | structObject => exact absurd rfl h2
        | struct => exact absurd rfl h2
        | any _ _ h => exact h
      · exact .any h1 h2
    rw [key hm h1, key hm' h2]

/-- **C74** (method messages) A type that asks the deserializer for anything is refused a method call or return, with what it
expects in the text. -/
theorem C74_method_message {i : ι} {m : Method} {V : Visitor ι α} {after : Res α → Res α} (hi : impls i = .call m V after)
    {r : Res α} (call : MethodCall) (ret : MethodReturn) :
    (DeserializeMessage impls (.methodCall call) i r ↔
      r = after (.error (lit "invalid type: method call, expected " ++ V.expecting))) ∧
    (DeserializeMessage impls (.methodReturn ret) i r ↔
      r = after (.error (lit "invalid type: method return, expected " ++ V.expecting))) := by
  have e1 : (SerdeError.invalidType .methodCall V.expecting).text = lit "invalid type: method call, expected " ++ V.expecting := rfl
  have e2 : (SerdeError.invalidType .methodReturn V.expecting).text = lit "invalid type: method return, expected " ++ V.expecting := rfl
  rw [← e1, ← e2]
  refine ⟨⟨fun h => ?_, ?_⟩, ⟨fun h => ?_, ?_⟩⟩
  · cases h with
    | ignore h => rw [hi] at h; cases h
    | methodCall h => rw [hi] at h; cases h; rfl
  · rintro rfl
    exact .methodCall hi
  · cases h with
    | ignore h => rw [hi] at h; cases h
    | methodReturn h => rw [hi] at h; cases h; rfl
  · rintro rfl
    exact .methodReturn hi

/-- **C74** (whole messages) A message with a value is deserialised as its value, except that a type that asks for an option is
treated as if it had asked for anything. -/
theorem C74_root {i : ι} {m : Method} {V : Visitor ι α} {after : Res α → Res α} (hi : impls i = .call m V after) {v : Value} {r : Res α} :
    DeserializeMessage impls (.value v) i r ↔
      ∃ r0, Visit impls v (if m = .option then .any else m) V r0 ∧ r = after r0 := by
  constructor
  · intro h
    cases h with
    | ignore h => rw [hi] at h; cases h
    | struct h g => rw [hi] at h; cases h; exact ⟨_, by simpa using g, rfl⟩
    | any h hne g =>
      rw [hi] at h
      cases h
      refine ⟨_, ?_, rfl⟩
      split
      · exact .any (by simp) (by simp) g
      · rename_i hm
        exact .any hm hne g
  · rintro ⟨r0, h, rfl⟩
    by_cases hs : m = .struct
    · subst hs
      exact .struct hi (by simpa using h)
    · refine .any hi hs ?_
      split at h
      · cases h with
        | any _ _ h => exact h
      · cases h with
        | none => rename_i hm; exact absurd rfl hm
        | some => rename_i hm _; exact absurd rfl hm
        | structObject => exact absurd rfl hs
        | struct => exact absurd rfl hs
        | any _ _ h => exact h

end

/-! ## A type that is not in the universe of `SerdeText` -/

/-- What a sum does after the answers so far. -/
def summingAction {β : Type} (more : β) (finish : Res Int → β) (h : List (Res (Option Int))) : β :=
  match h.getLast? with
  | none => more
  | some (.ok (some _)) => more
  | some (.ok none) => finish (.ok (h.map fun a => match a with | .ok (some n) => n | _ => 0).sum)
  | some (.error e) => finish (.error e)

/-- The visitor of a user's type: the sum of all numbers in a value, plus the lengths of all keys and strings. -/
def summer : Visitor Unit Int where
  expecting := lit "numbers"
  scalar := fun s => match s with
    | .i32 n => .ok n
    | .str s => .ok s.length
    | .borrowedStr s => .ok s.length
    | _ => .error (lit "not a number")
  some := .finish (.error (lit "not a number"))
  seq := summingAction (.next ()) .finish
  map := fun _ h => summingAction (if h.length % 2 = 0 then .key () else .value ()) .finish h
  enum := fun _ => .error (lit "not a number")

/-- That type. -/
def summing : Unit → Impl Unit Int := fun _ => .call .any summer id

section
variable [Platform] [FloatLib] [TextLib]

/-- A value that it can be used for. -/
def summed : Value :=
  .array [.int32 1, .object (lit "P") (some (lit "L")) [(lit "ab", .int32 5), (lit "c", .array [.int32 7])], .string (lit "xyz")]

theorem summing_any {v : Value} {r : Res Int} (h : VisitAny summing v summer r) : Deserialize summing v () r :=
  .call (after := id) (m := .any) rfl (.any (by decide) (by decide) h)

theorem summing_int (n : Int) : Deserialize summing (.int32 n) () (.ok n) := summing_any (.scalar (s := .i32 n) rfl)

theorem summing_summed : Deserialize summing summed () (.ok 19) := by
  have run1 : ArrayRun summing summer.seq [.int32 7] 0 [] (.ok 7) [] 1 :=
    .element (i := ()) rfl (summing_int 7) (.exhausted (i := ()) rfl (.finish rfl))
  have inner : Deserialize summing (.array [.int32 7]) () (.ok 7) := summing_any (.array run1)
  have run2 : MapRun summing .borrowedStr (summer.map 2) [(lit "ab", .int32 5), (lit "c", .array [.int32 7])] none 0 [] (.ok 15) [] 2 :=
    .key (i := ()) rfl (.value (i := ()) rfl (summing_int 5) (.key (i := ()) rfl (.value (i := ()) rfl inner
      (.exhausted (i := ()) rfl (.finish rfl)))))
  have object : Deserialize summing (.object (lit "P") (some (lit "L")) [(lit "ab", .int32 5), (lit "c", .array [.int32 7])]) () (.ok 15) :=
    summing_any (.object rfl (by
      have h : VisitMap summing .borrowedStr [(lit "ab", .int32 5), (lit "c", .array [.int32 7])] summer (mapEnd (.ok 15) ([] : List (Str × Value)).length 2) :=
        .mk run2
      exact h))
  have run3 : ArrayRun summing summer.seq [.int32 1, .object (lit "P") (some (lit "L")) [(lit "ab", .int32 5), (lit "c", .array [.int32 7])],
      .string (lit "xyz")] 0 [] (.ok 19) [] 3 :=
    .element (i := ()) rfl (summing_int 1) (.element (i := ()) rfl object (.element (i := ()) rfl
      (summing_any (r := .ok 3) (.scalar (s := .borrowedStr (lit "xyz")) rfl)) (.exhausted (i := ()) rfl (.finish rfl))))
  exact summing_any (.array run3)

/-- The conversation over an array: three elements and the end. -/
example : ∃ c, SeqTalk summer.seq (ArrayAnswer summing [.int32 1, .int32 2, .int32 3]) c (.ok 6) ∧
    replies c = [.ok (some 1), .ok (some 2), .ok (some 3), .ok none] := by
  refine ⟨[((), .ok (some 1)), ((), .ok (some 2)), ((), .ok (some 3)), ((), .ok none)], ?_, rfl⟩
  exact seqFrom_start.mp (seqFrom_cons.mpr ⟨rfl, ⟨.ok 1, summing_int 1, rfl⟩, seqFrom_cons.mpr ⟨rfl, ⟨.ok 2, summing_int 2, rfl⟩,
    seqFrom_cons.mpr ⟨rfl, ⟨.ok 3, summing_int 3, rfl⟩, seqFrom_cons.mpr ⟨rfl, rfl, seqFrom_nil.mpr rfl⟩⟩⟩⟩)

/-- A generic list of two of three items: the third is not handed out. -/
def twoOfThree : List (Str × Value) :=
  [(lit "_items", .array [.int32 1, .int32 2, .int32 3]), (lit "_size", .int32 2), (lit "_version", .int32 0)]

theorem twoOfThree_call : objectCall (lit "System.Collections.Generic.List`1[[System.Int32]]") none twoOfThree =
    .list [.int32 1, .int32 2, .int32 3] (asUsize 2) := by
  have e : classBase (lit "System.Collections.Generic.List`1[[System.Int32]]") = lit "System.Collections.Generic.List" := by decide
  have e2 : listOf twoOfThree = some ([.int32 1, .int32 2, .int32 3], 2) := rfl
  unfold objectCall
  rw [if_neg (by decide)]
  simp only [e]
  iterate 12 rw [if_neg (by decide)]
  rw [if_pos trivial, e2]

/-- It is summed as its first two items. -/
theorem summing_twoOfThree : Visit summing (.object (lit "System.Collections.Generic.List`1[[System.Int32]]") none twoOfThree) .any summer
    (.ok 3) := by
  have e : asUsize 2 = 2 := by
    unfold asUsize
    rcases usizeBits_cases with h | h <;> rw [h] <;> rfl
  have call := twoOfThree_call
  rw [e] at call
  have run : ListRun summing 2 summer.seq [.int32 1, .int32 2, .int32 3] 0 [] (.ok 3) 2 :=
    .element (i := ()) rfl (by decide) (summing_int 1) (.element (i := ()) rfl (by decide) (summing_int 2)
      (.full (i := ()) rfl (by decide) (.finish rfl)))
  exact .any (by decide) (by decide) (.list call run)

/-- The conversation that C74 speaks of. -/
example : ∃ c r0, SeqTalk summer.seq (ListAnswer summing [.int32 1, .int32 2, .int32 3] (asUsize 2)) c r0 := by
  obtain ⟨c, r0, h, -⟩ := (talk_list (impls := summing) (m := .any) (V := summer) (r := .ok 3) twoOfThree_call (by decide) (by decide)).mp
    summing_twoOfThree
  exact ⟨c, r0, h⟩

end

end Nrbf.Visitors
