import Verif.Model.DecimalDe
import Verif.Props.VisitorsOnce
import Verif.Props.Panics

/-! # C88: `Deserialize` for the crate's `Decimal` -/

set_option autoImplicit false

namespace Nrbf.Visitors

open Tests (header)

variable [FloatLib] [TextLib]

/-! ## Maps of any data format -/

/-- What a visitor is answered while it reads these entries. -/
def answersOf (es : List (Str × Part)) : List (Res (Option DecimalAnswer)) :=
  es.flatMap fun e => [.ok (some (.key e.1)), .ok (some (.part e.2))]

/-- The entries that make a decimal. -/
def decimalEntries (flags : Int) (hi lo : Nat) : List (Str × Part) :=
  [(lit "_flags", .flags flags), (lit "_hi32", .hi32 hi), (lit "_lo32", .lo64 lo)]

omit [FloatLib] in
theorem decimalMap_cons (p : Parts) (k : Str) (x : Part) (es : List (Str × Part)) (h : List (Res (Option DecimalAnswer))) :
    decimalMap p (answersOf ((k, x) :: es) ++ h) = match p.step k x with
      | some p => decimalMap p (answersOf es ++ h)
      | none => .finish p.result := by
  simp only [answersOf, List.flatMap_cons, List.cons_append, List.nil_append]
  rw [decimalMap]
  cases p.step k x <;> rfl

/-- The entries read so far. -/
def Parts.entries (p : Parts) : List (Str × Part) :=
  p.flags.toList.map (fun v => (lit "_flags", .flags v)) ++ (p.hi32.toList.map (fun v => (lit "_hi32", .hi32 v)) ++
    p.lo64.toList.map fun v => (lit "_lo32", .lo64 v))

/-- The state after the entries `pre`. -/
structure Parts.After (p : Parts) (pre : List (Str × Part)) : Prop where
  perm : pre.Perm p.entries
  count : p.values = pre.length

omit [FloatLib] [TextLib] in
theorem Parts.After.step {p p' : Parts} {pre : List (Str × Part)} {k : Str} {x : Part} (h : p.After pre)
    (hs : p.step k x = some p') : p'.After (pre ++ [(k, x)]) := by
  refine ⟨(List.perm_append_singleton ..).trans ((h.perm.cons _).trans ?_), ?_⟩
  all_goals
    cases x <;> simp only [Parts.step] at hs <;> split at hs <;>
      simp only [Option.some.injEq, reduceCtorEq] at hs <;> subst hs <;> rename_i hk <;> obtain ⟨hk, hn⟩ := hk <;> subst hk
  · rw [Option.isNone_iff_eq_none] at hn
    simp [Parts.entries, hn]
  · rw [Option.isNone_iff_eq_none] at hn
    simp only [Parts.entries, hn, Option.toList_none, Option.toList_some, List.map_nil, List.map_cons, List.nil_append,
      List.cons_append]
    exact List.perm_middle.symm
  · rw [Option.isNone_iff_eq_none] at hn
    simp only [Parts.entries, hn, Option.toList_none, Option.toList_some, List.map_nil, List.map_cons, List.append_nil]
    rw [← List.append_assoc]
    exact (List.perm_append_singleton ..).symm
  all_goals simp [h.count]

omit [FloatLib] in
theorem Parts.result_ok {p : Parts} {a : DecimalAnswer} (h : p.result = .ok a) :
    ∃ f hi lo, p.entries = decimalEntries f hi lo ∧ a = Parts.number f hi lo := by
  unfold Parts.result at h
  split at h
  · split at h
    · rename_i f hi lo hf hh hl
      cases h
      exact ⟨f, hi, lo, by simp [Parts.entries, hf, hh, hl, decimalEntries], rfl⟩
    · cases h
  · cases h

omit [FloatLib] in
theorem decimalMap_ok {es : List (Str × Part)} : ∀ {p : Parts} {pre : List (Str × Part)} {a : DecimalAnswer}, p.After pre →
    decimalMap p (answersOf es ++ [.ok none]) = .finish (.ok a) →
    ∃ es1 es2 f hi lo, es = es1 ++ es2 ∧ (pre ++ es1).Perm (decimalEntries f hi lo) ∧ a = Parts.number f hi lo := by
  induction es with
  | nil =>
    intro p pre a hp h
    have h' : p.result = .ok a := by simpa [answersOf, decimalMap] using h
    obtain ⟨f, hi, lo, he, ha⟩ := Parts.result_ok h'
    exact ⟨[], [], f, hi, lo, rfl, by rw [List.append_nil, ← he]; exact hp.perm, ha⟩
  | cons e es ih =>
    obtain ⟨k, x⟩ := e
    intro p pre a hp h
    rw [decimalMap_cons] at h
    cases hs : p.step k x with
    | none =>
      rw [hs] at h
      have h' : p.result = .ok a := by simpa using h
      obtain ⟨f, hi, lo, he, ha⟩ := Parts.result_ok h'
      exact ⟨[], _, f, hi, lo, rfl, by rw [List.append_nil, ← he]; exact hp.perm, ha⟩
    | some p' =>
      rw [hs] at h
      obtain ⟨es1, es2, f, hi, lo, he, hperm, ha⟩ := ih (hp.step hs) h
      exact ⟨(k, x) :: es1, es2, f, hi, lo, by rw [he]; rfl, by simpa using hperm, ha⟩

omit [FloatLib] [TextLib] in
theorem decimalEntries_nodup (f : Int) (hi lo : Nat) : (decimalEntries f hi lo).Nodup := by
  simp [decimalEntries]

omit [FloatLib] [TextLib] in
theorem Parts.mem_entries {p : Parts} {k : Str} {x : Part} : (k, x) ∈ p.entries ↔ match x with
    | .flags v => k = lit "_flags" ∧ p.flags = some v
    | .hi32 v => k = lit "_hi32" ∧ p.hi32 = some v
    | .lo64 v => k = lit "_lo32" ∧ p.lo64 = some v := by
  cases x <;> simp [Parts.entries, eq_comm, and_comm]
  all_goals
    constructor
    · rintro ⟨_, ⟨rfl, rfl⟩, h⟩
      exact ⟨rfl, h⟩
    · rintro ⟨rfl, h⟩
      exact ⟨_, ⟨rfl, rfl⟩, h⟩

omit [FloatLib] [TextLib] in
/-- The next of the three entries is taken. -/
theorem decimal_step {f : Int} {hi lo : Nat} {p : Parts} {pre0 pre : List (Str × Part)} {k : Str} {x : Part} (hp : p.After pre0)
    (hperm : (pre0 ++ (k, x) :: pre).Perm (decimalEntries f hi lo)) : ∃ p', p.step k x = some p' := by
  have hmem : (k, x) ∈ decimalEntries f hi lo := hperm.mem_iff.mp (by simp)
  have hnew : ∀ y, (k, y) ∈ p.entries → (k, y) ≠ (k, x) := by
    intro y hy e
    have hd : (pre0 ++ (k, x) :: pre).Nodup := hperm.nodup_iff.mpr (decimalEntries_nodup f hi lo)
    have hy' : (k, x) ∈ pre0 := by rw [← e]; exact hp.perm.mem_iff.mpr hy
    exact (List.nodup_append.mp hd).2.2 _ hy' _ (by simp) rfl
  have hin : ∀ e, e ∈ p.entries → e ∈ decimalEntries f hi lo := fun e he =>
    hperm.mem_iff.mp (List.mem_append_left _ (hp.perm.mem_iff.mpr he))
  have hs : ∃ p', p.step k x = some p' := by
    simp only [decimalEntries, List.mem_cons, List.not_mem_nil, or_false, Prod.mk.injEq] at hmem
    rcases hmem with ⟨rfl, rfl⟩ | ⟨rfl, rfl⟩ | ⟨rfl, rfl⟩
    · cases hn : p.flags with
      | none => simp [Parts.step, hn]
      | some v =>
        have h1 : (lit "_flags", Part.flags v) ∈ p.entries := Parts.mem_entries.mpr ⟨rfl, hn⟩
        have h2 := hin _ h1
        simp [decimalEntries] at h2
        subst h2
        exact absurd rfl (hnew _ h1)
    · cases hn : p.hi32 with
      | none => simp [Parts.step, hn]
      | some v =>
        have h1 : (lit "_hi32", Part.hi32 v) ∈ p.entries := Parts.mem_entries.mpr ⟨rfl, hn⟩
        have h2 := hin _ h1
        simp [decimalEntries] at h2
        subst h2
        exact absurd rfl (hnew _ h1)
    · cases hn : p.lo64 with
      | none => simp [Parts.step, hn]
      | some v =>
        have h1 : (lit "_lo32", Part.lo64 v) ∈ p.entries := Parts.mem_entries.mpr ⟨rfl, hn⟩
        have h2 := hin _ h1
        simp [decimalEntries] at h2
        subst h2
        exact absurd rfl (hnew _ h1)
  exact hs

omit [FloatLib] in
theorem decimalMap_complete {f : Int} {hi lo : Nat} {post : List (Str × Part)} {pre : List (Str × Part)} :
    ∀ {p : Parts} {pre0 : List (Str × Part)}, p.After pre0 → (pre0 ++ pre).Perm (decimalEntries f hi lo) →
    decimalMap p (answersOf (pre ++ post) ++ [.ok none]) = .finish (.ok (Parts.number f hi lo)) := by
  induction pre with
  | nil =>
    intro p pre0 hp hperm
    rw [List.append_nil] at hperm
    have hm : ∀ e, e ∈ p.entries ↔ e ∈ decimalEntries f hi lo := fun e => (hp.perm.symm.trans hperm).mem_iff
    have hf : p.flags = some f := (Parts.mem_entries.mp ((hm (lit "_flags", .flags f)).mpr (by simp [decimalEntries]))).2
    have hh : p.hi32 = some hi := (Parts.mem_entries.mp ((hm (lit "_hi32", .hi32 hi)).mpr (by simp [decimalEntries]))).2
    have hl : p.lo64 = some lo := (Parts.mem_entries.mp ((hm (lit "_lo32", .lo64 lo)).mpr (by simp [decimalEntries]))).2
    have hv : p.values = 3 := by rw [hp.count, hperm.length_eq]; rfl
    have hr : p.result = .ok (Parts.number f hi lo) := by simp [Parts.result, hv, hf, hh, hl]
    cases post with
    | nil => simp [answersOf, decimalMap, hr]
    | cons e post =>
      obtain ⟨k, x⟩ := e
      rw [List.nil_append, decimalMap_cons]
      have hs : p.step k x = none := by cases x <;> simp [Parts.step, hf, hh, hl]
      rw [hs, hr]
  | cons e pre ih =>
    obtain ⟨k, x⟩ := e
    intro p pre0 hp hperm
    rw [List.cons_append, decimalMap_cons]
    obtain ⟨p', hs⟩ := decimal_step hp hperm
    rw [hs]
    exact ih (hp.step hs) (by simpa using hperm)

/-- The integer and the scale a decimal is made of: 96 bits and a sign, and the bits 16 to 23 of the flags. -/
def IsDecimalOf (flags : Int) (hi lo : Nat) (n : Int) (scale : Nat) : Prop :=
  (if flags < 0 then n = -((hi * 2 ^ 64 + lo : Nat) : Int) else n = ((hi * 2 ^ 64 + lo : Nat) : Int)) ∧
  scale < 256 ∧ ∃ q r : Int, flags = q * 2 ^ 24 + scale * 2 ^ 16 + r ∧ 0 ≤ r ∧ r < 2 ^ 16

omit [FloatLib] [TextLib] in
theorem number_spec {f : Int} {hi lo : Nat} (hlo : lo < 2 ^ 64) {n : Int} {scale : Nat} :
    Parts.number f hi lo = .scaled n scale ↔ IsDecimalOf f hi lo n scale := by
  have hor : hi <<< 64 ||| lo = hi * 2 ^ 64 + lo := by
    rw [← Nat.shiftLeft_add_eq_or_of_lt hlo, Nat.shiftLeft_eq]
  simp only [Parts.number, hor, DecimalAnswer.scaled.injEq, IsDecimalOf]
  constructor
  · rintro ⟨rfl, rfl⟩
    refine ⟨by split <;> rfl, by omega, f / 2 ^ 24, f % 2 ^ 16, ?_, by omega, by omega⟩
    omega
  · rintro ⟨h1, h2, q, r, h3, h4, h5⟩
    constructor
    · by_cases hneg : f < 0
      · rw [if_pos hneg] at h1 ⊢; exact h1.symm
      · rw [if_neg hneg] at h1 ⊢; exact h1.symm
    · omega

omit [FloatLib] in
theorem decimalMap_waits {f : Int} {hi lo : Nat} {more pre : List (Str × Part)} : ∀ {p : Parts} {pre0 : List (Str × Part)},
    p.After pre0 → (pre0 ++ (pre ++ more)).Perm (decimalEntries f hi lo) →
    ∃ p', ∀ h, decimalMap p (answersOf pre ++ h) = decimalMap p' h := by
  induction pre with
  | nil => exact fun {p} _ _ _ => ⟨p, fun h => rfl⟩
  | cons e pre ih =>
    obtain ⟨k, x⟩ := e
    intro p pre0 hp hperm
    obtain ⟨p', hs⟩ := decimal_step hp hperm
    obtain ⟨p2, h2⟩ := ih (hp.step hs) (by simpa using hperm)
    exact ⟨p2, fun h => by rw [decimalMap_cons, hs]; exact h2 h⟩

omit [FloatLib] in
/-- **C88** (errors) After any of the three entries, in any order, the implementation asks for a key; after a key, for a value; and if
the key or the value cannot be read, it returns the error that the data format reports, unchanged. -/
theorem C88_propagated {es more : List (Str × Part)} {flags : Int} {hi lo : Nat}
    (hes : (es ++ more).Perm (decimalEntries flags hi lo)) (e : Str) (k : Str) (h : List (Res (Option DecimalAnswer))) :
    decimalMap Parts.none (answersOf es) = .key .key ∧
    decimalMap Parts.none (answersOf es ++ [.ok (some (.key k))]) = .value .part ∧
    decimalMap Parts.none (answersOf es ++ .error e :: h) = .finish (.error e) ∧
    decimalMap Parts.none (answersOf es ++ .ok (some (.key k)) :: .error e :: h) = .finish (.error e) := by
  obtain ⟨p, hp⟩ := decimalMap_waits (p := Parts.none) (pre0 := []) ⟨.refl _, rfl⟩ hes
  have h0 := hp []
  rw [List.append_nil] at h0
  rw [h0, hp, hp, hp]
  exact ⟨rfl, rfl, rfl, rfl⟩

/-- **C88** (requests) It asks for a map, for keys that are borrowed strings, and for values that are enums. -/
theorem C88_requests : (∃ V f, decimalImpls .decimal = .call .map V f) ∧ (∃ V f, decimalImpls .key = .call .str V f) ∧
    ∃ V f, decimalImpls .part = .call .enum V f := ⟨⟨_, _, rfl⟩, ⟨_, _, rfl⟩, ⟨_, _, rfl⟩⟩

omit [FloatLib] in
/-- **C88** What the implementation makes of a map (of any data format) whose keys and values can be read: the first three
entries have to be `_flags`, `_hi32` and `_lo32`, in any order; then whatever follows is not looked at, and the number is that of these
96 bits with the sign and scale of the flags.  Everything else is refused. -/
theorem C88_map (es : List (Str × Part)) (hes : ∀ k v, (k, Part.lo64 v) ∈ es → v < 2 ^ 64) (n : Int) (scale : Nat) :
    decimalMap Parts.none (answersOf es ++ [.ok none]) = .finish (.ok (.scaled n scale)) ↔
      ∃ flags hi lo, (es.take 3).Perm (decimalEntries flags hi lo) ∧ IsDecimalOf flags hi lo n scale := by
  have h0 : Parts.none.After [] := ⟨.refl _, rfl⟩
  constructor
  · intro h
    obtain ⟨es1, es2, f, hi, lo, rfl, hp, ha⟩ := decimalMap_ok h0 h
    rw [List.nil_append] at hp
    have hlen : es1.length = 3 := hp.length_eq
    have hlo : lo < 2 ^ 64 := hes (lit "_lo32") lo (List.mem_append_left _ (hp.mem_iff.mpr (by simp [decimalEntries])))
    refine ⟨f, hi, lo, ?_, (number_spec hlo).mp ha.symm⟩
    rw [← hlen, List.take_left]
    exact hp
  · rintro ⟨f, hi, lo, hp, hd⟩
    have hlo : lo < 2 ^ 64 := hes (lit "_lo32") lo (List.mem_of_mem_take (hp.mem_iff.mpr (by simp [decimalEntries])))
    have h := decimalMap_complete (pre := es.take 3) (post := es.drop 3) h0 hp
    rw [List.take_append_drop] at h
    rw [h, (number_spec hlo).mpr hd]

/-! ## The crate's own data -/

variable [Platform]

/-- A visitor that accepts neither a scalar nor a sequence nor a map gets nothing from a value. -/
theorem visitAny_refuses {V : Visitor DecimalGoal DecimalAnswer} (hs : ∀ s, ∃ e, V.scalar s = .error e)
    (hq : ∀ h, ∃ e, V.seq h = .finish (.error e))
    (hm : ∀ {c ms r}, VisitMap decimalImpls c ms V r → ∃ e, r = .error e) {v : Value}
    {r : Res DecimalAnswer} (h : VisitAny decimalImpls v V r) : ∃ e, r = .error e := by
  cases h with
  | scalar _ => exact hs _
  | array h =>
    obtain ⟨e, he⟩ := hq []
    cases h with
    | finish h => rw [he] at h; cases h; exact ⟨_, rfl⟩
    | element h => rw [he] at h; cases h
    | exhausted h => rw [he] at h; cases h
  | object _ h => exact hm h
  | boxed _ => exact hs _
  | fail _ => exact ⟨_, rfl⟩
  | list _ h =>
    obtain ⟨e, he⟩ := hq []
    cases h with
    | finish h => rw [he] at h; cases h; exact ⟨_, rfl⟩
    | element h => rw [he] at h; cases h
    | error h => rw [he] at h; cases h
    | exhausted h => rw [he] at h; cases h
    | full h => rw [he] at h; cases h

theorem part_refused {v : Value} {r : Res DecimalAnswer} (h : Deserialize decimalImpls v .part r) : ∃ e, r = .error e := by
  cases h with
  | ignore h => cases h
  | call hc h =>
    cases hc
    cases h with
    | any _ _ h =>
      refine visitAny_refuses (fun _ => ⟨_, rfl⟩) (fun _ => ⟨_, rfl⟩) ?_ h
      intro c ms r h
      cases h with
      | mk h =>
        cases h with
        | finish h => cases h; exact ⟨_, rfl⟩
        | key h => cases h
        | exhausted h => cases h

theorem decimal_visit_refused {v : Value} {V : Visitor DecimalGoal DecimalAnswer} {m : Method}
    {f : Res DecimalAnswer → Res DecimalAnswer} (hc : decimalImpls .decimal = .call m V f)
    {r : Res DecimalAnswer} (h : VisitAny decimalImpls v V r) : ∃ e, conclude f r = .error e := by
  cases hc
  refine visitAny_refuses (fun _ => ⟨_, rfl⟩) (fun _ => ⟨_, rfl⟩) ?_ h
  intro c ms r h
  cases h with
  | mk h =>
    cases h with
    | finish h => cases h
    | exhausted h h' =>
      cases h' with
      | finish h => cases h; exact ⟨_, rfl⟩
      | exhausted h => cases h
    | @key _ _ k _ _ _ _ _ _ _ _ _ h h' =>
      cases h
      have hk : (∃ e, deserializeKey c k (decimalImpls .key) = .error e) ∨
          ∃ s, deserializeKey c k (decimalImpls .key) = .ok (.key s) := by
        change (∃ e, id ((match c k with
          | .borrowedStr s => .ok (.key s)
          | s => refuseAs s.unexpected (lit "a borrowed string") : Res DecimalAnswer)) = .error e) ∨ ∃ s, id _ = _
        cases c k
        all_goals first
          | exact .inr ⟨_, rfl⟩
          | exact .inl ⟨_, rfl⟩
      rcases hk with ⟨e, he⟩ | ⟨s, hs⟩
      · rw [he] at h'
        cases h' with
        | finish h => cases h; exact ⟨_, rfl⟩
        | key h => cases h
        | value h => cases h
        | exhausted h => cases h
      · rw [hs] at h'
        cases h' with
        | finish h => cases h
        | key h => cases h
        | exhausted h => cases h
        | value h hd h' =>
          cases h
          obtain ⟨e, rfl⟩ := part_refused hd
          cases h' with
          | finish h => cases h; exact ⟨_, rfl⟩
          | key h => cases h
          | exhausted h => cases h

/-- **C88** From the crate's own values the implementation never succeeds. -/
theorem C88_value {v : Value} {r : Res DecimalAnswer} (h : Deserialize decimalImpls v .decimal r) : ∃ e, r = .error e := by
  cases h with
  | ignore h => cases h
  | call hc h =>
    cases h with
    | none => cases hc
    | some _ _ => cases hc
    | structObject _ => cases hc
    | struct _ _ => cases hc
    | any _ _ h => exact decimal_visit_refused hc h

/-- **C88** `from_slice` with this implementation never succeeds. -/
theorem C88_never {w : Bytes} {r : Res DecimalAnswer} (h : FromSlice decimalImpls w .decimal r) : ∃ e, r = .error e := by
  cases h with
  | parsing _ => exact ⟨_, rfl⟩
  | ok _ h =>
    cases h with
    | ignore h => cases h
    | methodCall hc => cases hc; exact ⟨_, rfl⟩
    | methodReturn hc => cases hc; exact ⟨_, rfl⟩
    | struct hc _ => cases hc
    | any hc _ h => exact decimal_visit_refused hc h

omit [FloatLib] [Platform] in
theorem decimalMap_finish {a : Res (Option DecimalAnswer)} (ha : ¬ Got a) :
    ∀ (h : List (Res (Option DecimalAnswer))) (p : Parts), ∃ r, decimalMap p (h ++ [a]) = .finish r
  | [], p => by
    cases a with
    | error e => exact ⟨_, by rw [List.nil_append, decimalMap]⟩
    | ok x =>
      cases x with
      | none => exact ⟨_, by rw [List.nil_append, decimalMap]⟩
      | some x => exact absurd ⟨x, rfl⟩ ha
  | .error e :: h, p => ⟨_, by rw [List.cons_append, decimalMap]⟩
  | .ok none :: h, p => ⟨_, by rw [List.cons_append, decimalMap]⟩
  | [.ok (some k)], p => by
    cases a with
    | error e => exact ⟨_, rfl⟩
    | ok x =>
      cases x with
      | none => exact ⟨_, rfl⟩
      | some x => exact absurd ⟨x, rfl⟩ ha
  | .ok (some k) :: .error e :: h, p => ⟨_, rfl⟩
  | .ok (some k) :: .ok none :: h, p => ⟨_, rfl⟩
  | .ok (some k) :: .ok (some (.scaled n s)) :: h, p => ⟨_, rfl⟩
  | .ok (some k) :: .ok (some (.key s)) :: h, p => ⟨_, rfl⟩
  | .ok (some (.scaled n s)) :: .ok (some (.part x)) :: h, p => ⟨_, rfl⟩
  | .ok (some (.part y)) :: .ok (some (.part x)) :: h, p => ⟨_, rfl⟩
  | .ok (some (.key k)) :: .ok (some (.part x)) :: h, p => by
    rw [List.cons_append, List.cons_append, decimalMap]
    cases p.step k x with
    | none => exact ⟨_, rfl⟩
    | some p => exact decimalMap_finish ha h p

omit [FloatLib] [Platform] in
theorem decimalMap_value {j : DecimalGoal} : ∀ (h : List (Res (Option DecimalAnswer))) (p : Parts), decimalMap p h = .value j →
    ∃ h' a j', h = h' ++ [a] ∧ decimalMap p h' = .key j'
  | [], p, e => by rw [decimalMap] at e; cases e
  | .error _ :: h, p, e => by rw [decimalMap] at e; cases e
  | .ok none :: h, p, e => by rw [decimalMap] at e; cases e
  | [.ok (some k)], p, e => ⟨[], _, _, rfl, rfl⟩
  | .ok (some k) :: .error _ :: h, p, e => by cases e
  | .ok (some k) :: .ok none :: h, p, e => by cases e
  | .ok (some k) :: .ok (some (.scaled n s)) :: h, p, e => by cases e
  | .ok (some k) :: .ok (some (.key s)) :: h, p, e => by cases e
  | .ok (some (.scaled n s)) :: .ok (some (.part x)) :: h, p, e => by cases e
  | .ok (some (.part y)) :: .ok (some (.part x)) :: h, p, e => by cases e
  | .ok (some (.key k)) :: .ok (some (.part x)) :: h, p, e => by
    rw [decimalMap] at e
    cases hs : p.step k x with
    | none => rw [hs] at e; cases e
    | some p' =>
      rw [hs] at e
      obtain ⟨h', a, j', rfl, he⟩ := decimalMap_value h p' e
      refine ⟨.ok (some (.key k)) :: .ok (some (.part x)) :: h', a, j', rfl, ?_⟩
      rw [decimalMap, hs]
      exact he

omit [Platform] in
/-- The implementation is orderly: C75 applies to it. -/
theorem decimal_orderly : Orderly decimalImpls where
  seq := by
    intro i m V f e h a _
    cases i <;> cases e <;> exact ⟨_, rfl⟩
  map := by
    intro i m V f e n h a ha
    cases i <;> cases e
    · exact decimalMap_finish ha h _
    · exact ⟨_, rfl⟩
    · exact ⟨_, rfl⟩
  value := by
    intro i m V f e n h j _ hv
    cases i <;> cases e
    · exact decimalMap_value h _ hv
    · cases hv
    · cases hv
  option := ⟨fun _ => 0, by intro i V f j g e; cases i <;> cases e⟩

/-- **C88** On every input on which the parser does not panic it returns one error. -/
theorem C88_error {w : Bytes} (hw : deserialize w ≠ .panic) : ∃ e, FromSlice decimalImpls w .decimal (.error e) ∧
    ∀ r, FromSlice decimalImpls w .decimal r → r = .error e := by
  obtain ⟨r, h⟩ := C75_total decimal_orderly hw .decimal
  obtain ⟨e, rfl⟩ := C88_never h
  exact ⟨e, h, fun r h' => C75_unique h' h⟩

/-! ## Examples -/

omit [FloatLib] [Platform] in
/-- C88: -1.5 in any order of the entries; a fourth entry is not looked at. -/
example : decimalMap Parts.none (answersOf [(lit "_hi32", .hi32 0), (lit "_flags", .flags (-2147418112)), (lit "_lo32", .lo64 15),
    (lit "x", .hi32 7)] ++ [.ok none]) = .finish (.ok (.scaled (-15) 1)) := by
  refine (C88_map _ ?_ (-15) 1).mpr ⟨-2147418112, 0, 15, ?_, by decide, by decide, -128, 0, by decide, by decide, by decide⟩
  · intro k v hv
    simp at hv
    omega
  · exact List.Perm.swap _ _ _

omit [FloatLib] [Platform] in
/-- C88: two entries are not enough. -/
example (n : Int) (scale : Nat) : decimalMap Parts.none (answersOf [(lit "_hi32", .hi32 0), (lit "_flags", .flags 0)] ++ [.ok none]) ≠
    .finish (.ok (.scaled n scale)) := by
  intro h
  obtain ⟨_, _, _, hp, _⟩ := (C88_map _ (by simp) n scale).mp h
  exact absurd hp.length_eq (by simp [decimalEntries])

/-- C88 for an object with the right entries, as data of the crate: the values cannot be read as the enum. -/
example (r : Res DecimalAnswer) (h : Deserialize decimalImpls (.object (lit "D") none
    [(lit "_flags", .int32 0), (lit "_hi32", .uint32 0), (lit "_lo32", .uint64 15)]) .decimal r) : ∃ e, r = .error e :=
  C88_value h

/-- C88 for a message. -/
example : ∃ e, FromSlice decimalImpls (header 0 ++ [11]) .decimal (.error e) ∧
    ∀ r, FromSlice decimalImpls (header 0 ++ [11]) .decimal r → r = .error e :=
  C88_error (by
    have : deserialize (header 0 ++ [11]) = .ok (.value .null) := by platform_decide
    rw [this]; intro h; cases h)

end Nrbf.Visitors
