import Verif.Lemmas.SerdeText
import Verif.Spec.Fails

/-! # Which error a sequence, a map or a struct reports -/

set_option autoImplicit false

namespace Nrbf

open Spec

variable [Platform] [FloatLib]

/-! ## Sequences -/

/-- The error of the first element that cannot be read. -/
def firstErr (T : RTy) : List Value → Option SerdeError
  | [] => none
  | v :: vs => match decodeR v T with
    | .ok _ => firstErr T vs
    | .error e => some e

/-- The error of reading elements one by one. -/
def eachErr (exp : Str) : Nat → List RTy → List Value → Option SerdeError
  | _, [], _ => none
  | n, _ :: _, [] => some (.invalidLength n exp)
  | n, T :: Ts, v :: vs => match decodeR v T with
    | .ok _ => eachErr exp (n + 1) Ts vs
    | .error e => some e

theorem itemDesersR_eq (vs : List Value) : itemDesersR vs = vs.map decodeR := by
  induction vs with
  | nil => rw [itemDesersR]; rfl
  | cons v vs ih => rw [itemDesersR, ih]; rfl

/-- The result is an error, or a success with that property. -/
def Either {α : Type} (e : Option SerdeError) (P : α → Prop) : TextResult α → Prop
  | .ok a => e = none ∧ P a
  | .error r => e = some r

theorem readAllR_array (T : RTy) {vs : List Value} {fuel : Nat} (hf : vs.length < fuel) (n : Nat) :
    Either (firstErr T vs) (fun x => x.2.rest = []) (readAllR arrayNextR T fuel ⟨vs.map decodeR, n⟩) := by
  induction vs generalizing fuel n with
  | nil =>
    cases fuel with
    | zero => simp at hf
    | succ fuel => exact ⟨rfl, rfl⟩
  | cons v vs ih =>
    cases fuel with
    | zero => simp at hf
    | succ fuel =>
      have := ih (fuel := fuel) (by simp at hf; omega) (n + 1)
      simp only [List.map_cons, readAllR, arrayNextR, firstErr]
      cases decodeR v T with
      | error e => exact rfl
      | ok d =>
        simp only
        cases h : readAllR arrayNextR T fuel ⟨vs.map decodeR, n + 1⟩ with
        | error e => rw [h] at this; exact this
        | ok x => obtain ⟨ds, a⟩ := x; rw [h] at this; exact this

theorem readEachR_array (exp : Str) (Ts : List RTy) (vs : List Value) (i n : Nat) :
    Either (eachErr exp i Ts vs) (fun x => Ts.length ≤ vs.length ∧ x.2 = ⟨(vs.drop Ts.length).map decodeR, n + Ts.length⟩)
      (readEachR arrayNextR exp i Ts ⟨vs.map decodeR, n⟩) := by
  induction Ts generalizing vs i n with
  | nil => exact ⟨by cases vs <;> rfl, by simp, by simp⟩
  | cons T Ts ih =>
    cases vs with
    | nil => exact rfl
    | cons v vs =>
      have := ih vs (i + 1) (n + 1)
      simp only [List.map_cons, readEachR, arrayNextR, eachErr]
      cases decodeR v T with
      | error e => exact rfl
      | ok d =>
        simp only
        cases h : readEachR arrayNextR exp (i + 1) Ts ⟨vs.map decodeR, n + 1⟩ with
        | error e => rw [h] at this; exact this
        | ok x =>
          obtain ⟨ds, a⟩ := x
          rw [h] at this
          obtain ⟨h1, h2, h3⟩ := this
          refine ⟨h1, by simpa using h2, ?_⟩
          simp only at h3 ⊢
          rw [h3]
          simp only [List.drop_succ_cons, List.length_cons]
          congr 1
          omega

theorem readAllR_list (T : RTy) {vs : List Value} {fuel : Nat} (hf : vs.length < fuel) (k n size : Nat) (hn : n ≤ size) :
    Either (firstErr T (vs.take (size - n)))
      (fun x => x.2.size = size ∧ x.2.count = if vs.length < size - n then n + vs.length + 1 else size)
      (readAllR listNextR T fuel ⟨⟨vs.map decodeR, k⟩, n, size⟩) := by
  induction vs generalizing fuel k n with
  | nil =>
    cases fuel with
    | zero => simp at hf
    | succ fuel =>
      simp only [readAllR, listNextR]
      by_cases h : n < size
      · simp only [if_pos h, arrayNextR, List.map_nil]
        exact ⟨by simp [firstErr], rfl, by simp; omega⟩
      · simp only [if_neg h]
        exact ⟨by simp [firstErr], rfl, by rw [if_neg (by simp; omega)]; show n = size; omega⟩
  | cons v vs ih =>
    cases fuel with
    | zero => simp at hf
    | succ fuel =>
      simp only [readAllR, listNextR]
      by_cases h : n < size
      · have := ih (fuel := fuel) (by simp at hf; omega) (k + 1) (n + 1) h
        obtain ⟨m, hm⟩ : ∃ m, size - n = m + 1 := ⟨size - n - 1, by omega⟩
        simp only [if_pos h, arrayNextR, List.map_cons, hm, List.take_succ_cons, firstErr]
        rw [show size - (n + 1) = m by omega] at this
        cases decodeR v T with
        | error e => exact rfl
        | ok d =>
          simp only
          cases h' : readAllR listNextR T fuel ⟨⟨vs.map decodeR, k + 1⟩, n + 1, size⟩ with
          | error e => rw [h'] at this; exact this
          | ok x =>
            obtain ⟨ds, a⟩ := x
            rw [h'] at this
            obtain ⟨h1, h2, h3⟩ := this
            refine ⟨h1, h2, ?_⟩
            simp only at h3 ⊢
            rw [h3]
            simp only [List.length_cons]
            by_cases hl : vs.length < m
            · rw [if_pos hl, if_pos (by omega)]; omega
            · rw [if_neg hl, if_neg (by omega)]
      · simp only [if_neg h]
        rw [show size - n = 0 by omega]
        exact ⟨by simp [firstErr], rfl, by simp; omega⟩

theorem readEachR_list (exp : Str) (Ts : List RTy) (vs : List Value) (i k n size : Nat) (hn : n ≤ size) :
    Either (eachErr exp i Ts (vs.take (size - n)))
      (fun x => Ts.length ≤ vs.length ∧ n + Ts.length ≤ size ∧ x.2.size = size ∧ x.2.count = n + Ts.length)
      (readEachR listNextR exp i Ts ⟨⟨vs.map decodeR, k⟩, n, size⟩) := by
  induction Ts generalizing vs i k n with
  | nil => exact ⟨by simp [eachErr], by simp, by simpa using hn, rfl, by simp⟩
  | cons T Ts ih =>
    by_cases h : n < size
    · obtain ⟨m, hm⟩ : ∃ m, size - n = m + 1 := ⟨size - n - 1, by omega⟩
      rw [hm]
      cases vs with
      | nil =>
        simp only [readEachR, listNextR, if_pos h, arrayNextR, List.map_nil, List.take_nil, eachErr]
        exact rfl
      | cons v vs =>
        have := ih vs (i + 1) (k + 1) (n + 1) h
        rw [show size - (n + 1) = m by omega] at this
        simp only [readEachR, listNextR, if_pos h, arrayNextR, List.map_cons, List.take_succ_cons, eachErr]
        cases decodeR v T with
        | error e => exact rfl
        | ok d =>
          simp only
          cases h' : readEachR listNextR exp (i + 1) Ts ⟨⟨vs.map decodeR, k + 1⟩, n + 1, size⟩ with
          | error e => rw [h'] at this; exact this
          | ok x =>
            obtain ⟨ds, a⟩ := x
            rw [h'] at this
            obtain ⟨h1, h2, h3, h4, h5⟩ := this
            simp only at h4 h5
            exact ⟨h1, by simpa using h2, by simp only [List.length_cons]; omega, h4, by simp only [List.length_cons]; omega⟩
    · rw [show size - n = 0 by omega]
      simp only [readEachR, listNextR, if_neg h, List.take_zero, eachErr]
      exact rfl

/-- The error of a whole sequence, if there is one. -/
theorem visitArrayR_all (T : RTy) (vs : List Value) (r : SerdeError) :
    visitArraySeqR (.all T) (vs.map decodeR) = .error r ↔ firstErr T vs = some r := by
  have h := readAllR_array T (vs := vs) (fuel := vs.length + 1) (by omega) 0
  unfold visitArraySeqR
  simp only [SeqPlanR.run, List.length_map]
  cases h1 : readAllR arrayNextR T (vs.length + 1) ⟨vs.map decodeR, 0⟩ with
  | error e => rw [h1] at h; simp [show firstErr T vs = some e from h]
  | ok x =>
    obtain ⟨ds, a⟩ := x
    rw [h1] at h
    obtain ⟨h2, h3⟩ := h
    simp only at h3
    simp [arrayEndR, h3, h2]

theorem visitArrayR_each (exp : Str) (Ts : List RTy) (vs : List Value) (r : SerdeError) :
    visitArraySeqR (.each exp Ts) (vs.map decodeR) = .error r ↔ eachErr exp 0 Ts vs = some r ∨
      (eachErr exp 0 Ts vs = none ∧ Ts.length < vs.length ∧
        r = .invalidLength vs.length (expectedInArray Ts.length)) := by
  have h := readEachR_array exp Ts vs 0 0
  unfold visitArraySeqR
  simp only [SeqPlanR.run, List.length_map]
  cases h1 : readEachR arrayNextR exp 0 Ts ⟨vs.map decodeR, 0⟩ with
  | error e => rw [h1] at h; simp [show eachErr exp 0 Ts vs = some e from h]
  | ok x =>
    obtain ⟨ds, a⟩ := x
    rw [h1] at h
    obtain ⟨h2, h3, h4⟩ := h
    simp only at h4
    subst h4
    simp only [h2, reduceCtorEq, false_or, true_and, arrayEndR, List.length_map, List.length_drop]
    by_cases hl : Ts.length < vs.length
    · rw [if_neg (by omega)]
      rw [show 0 + Ts.length + (vs.length - Ts.length) = vs.length by omega, Nat.zero_add]
      simp [hl, eq_comm]
    · rw [if_pos (by omega)]
      simp [hl]

theorem visitListR_all (T : RTy) (vs : List Value) (n : Nat) (r : SerdeError) :
    visitListSeqR (.all T) (vs.map decodeR) n = .error r ↔ firstErr T (vs.take n) = some r ∨
      (firstErr T vs = none ∧ vs.length + 1 < n ∧ r = .invalidLength n (expectedInList (vs.length + 1))) := by
  have h := readAllR_list T (vs := vs) (fuel := vs.length + 1) (by omega) 0 0 n (by omega)
  rw [Nat.sub_zero] at h
  unfold visitListSeqR
  simp only [SeqPlanR.run, List.length_map]
  cases h1 : readAllR listNextR T (vs.length + 1) ⟨⟨vs.map decodeR, 0⟩, 0, n⟩ with
  | error e =>
    rw [h1] at h
    have h' : firstErr T (vs.take n) = some e := h
    rw [h']
    constructor
    · intro h; exact .inl (congrArg some (Except.error.inj h))
    · rintro (h | ⟨h2, h3, -⟩)
      · rw [Option.some.inj h]
      · rw [List.take_of_length_le (by omega), h2] at h'; cases h'
  | ok x =>
    obtain ⟨ds, a⟩ := x
    rw [h1] at h
    obtain ⟨h2, h3, h4⟩ := h
    simp only at h3 h4
    simp only [h2, reduceCtorEq, false_or, listEndR, h3, h4, Nat.zero_add]
    by_cases hl : vs.length < n
    · rw [if_pos hl]
      rw [List.take_of_length_le (by omega)] at h2
      by_cases hl' : vs.length + 1 = n
      · rw [if_pos hl']; simp; omega
      · rw [if_neg hl']
        simp [h2, show vs.length + 1 < n by omega, eq_comm]
    · rw [if_neg hl, if_pos rfl]
      simp; omega

theorem visitListR_each (exp : Str) (Ts : List RTy) (vs : List Value) (n : Nat) (r : SerdeError) :
    visitListSeqR (.each exp Ts) (vs.map decodeR) n = .error r ↔ eachErr exp 0 Ts (vs.take n) = some r ∨
      (eachErr exp 0 Ts (vs.take n) = none ∧ Ts.length < n ∧ r = .invalidLength n (expectedInList Ts.length)) := by
  have h := readEachR_list exp Ts vs 0 0 0 n (by omega)
  rw [Nat.sub_zero] at h
  unfold visitListSeqR
  simp only [SeqPlanR.run, List.length_map]
  cases h1 : readEachR listNextR exp 0 Ts ⟨⟨vs.map decodeR, 0⟩, 0, n⟩ with
  | error e => rw [h1] at h; simp [show eachErr exp 0 Ts (vs.take n) = some e from h]
  | ok x =>
    obtain ⟨ds, a⟩ := x
    rw [h1] at h
    obtain ⟨h2, h3, h4, h5, h6⟩ := h
    simp only at h5 h6
    simp only [h2, reduceCtorEq, false_or, true_and, listEndR, h5, h6, Nat.zero_add]
    by_cases hl : Ts.length < n
    · rw [if_neg (by omega)]
      simp [hl, eq_comm]
    · rw [if_pos (by omega)]
      simp [hl]

theorem firstErr_some {T : RTy} {vs : List Value} {r : SerdeError} : firstErr T vs = some r ↔
    ∃ before w after, vs = before ++ w :: after ∧ (∀ u ∈ before, ∃ d, decodeR u T = .ok d) ∧ decodeR w T = .error r := by
  induction vs with
  | nil => simp [firstErr]
  | cons v vs ih =>
    rw [firstErr]
    cases h : decodeR v T with
    | error e =>
      simp only [Option.some.injEq]
      constructor
      · rintro rfl; exact ⟨[], v, vs, rfl, by simp, h⟩
      · rintro ⟨b, w, a, h1, h2, h3⟩
        cases b with
        | nil => cases h1; rw [h] at h3; cases h3; rfl
        | cons u b =>
          cases h1
          obtain ⟨d, hd⟩ := h2 v (by simp)
          rw [h] at hd; cases hd
    | ok d =>
      simp only
      rw [ih]
      constructor
      · rintro ⟨b, w, a, rfl, h2, h3⟩
        refine ⟨v :: b, w, a, rfl, ?_, h3⟩
        intro u hu
        rcases List.mem_cons.mp hu with rfl | hu
        · exact ⟨d, h⟩
        · exact h2 u hu
      · rintro ⟨b, w, a, h1, h2, h3⟩
        cases b with
        | nil => cases h1; rw [h] at h3; cases h3
        | cons u b =>
          cases h1
          exact ⟨b, w, a, rfl, fun u hu => h2 u (by simp [hu]), h3⟩

theorem firstErr_none {T : RTy} {vs : List Value} : firstErr T vs = none ↔ ∀ v ∈ vs, ∃ d, decodeR v T = .ok d := by
  induction vs with
  | nil => simp [firstErr]
  | cons v vs ih =>
    rw [firstErr]
    cases h : decodeR v T with
    | error e => simp [h]
    | ok d => simp [h, ih]

/-- All elements are read, one per type. -/
def OkEach (vs : List Value) (Ts : List RTy) : Prop :=
  vs.length = Ts.length ∧ ∀ p ∈ vs.zip Ts, ∃ d, decodeR p.1 p.2 = .ok d

theorem eachErr_some {exp : Str} {n : Nat} {Ts : List RTy} {vs : List Value} {r : SerdeError} :
    eachErr exp n Ts vs = some r ↔
      (∃ before w after Ss S Ss', vs = before ++ w :: after ∧ Ts = Ss ++ S :: Ss' ∧ OkEach before Ss ∧
        decodeR w S = .error r) ∨
      ∃ Ss Ss', Ts = Ss ++ Ss' ∧ Ss' ≠ [] ∧ OkEach vs Ss ∧ r = .invalidLength (n + vs.length) exp := by
  induction Ts generalizing n vs with
  | nil => simp [eachErr]
  | cons T Ts ih =>
    cases vs with
    | nil =>
      simp only [eachErr, Option.some.injEq]
      constructor
      · rintro rfl; exact .inr ⟨[], T :: Ts, rfl, by simp, ⟨rfl, by simp⟩, by simp⟩
      · rintro (⟨b, w, a, _, _, _, h, _⟩ | ⟨Ss, Ss', h1, h2, h3, rfl⟩)
        · simp at h
        · simp
    | cons v vs =>
      rw [eachErr]
      cases h : decodeR v T with
      | error e =>
        simp only [Option.some.injEq]
        constructor
        · rintro rfl; exact .inl ⟨[], v, vs, [], T, Ts, rfl, rfl, ⟨rfl, by simp⟩, h⟩
        · rintro (⟨b, w, a, Ss, S, Ss', h1, h2, h3, h4⟩ | ⟨Ss, Ss', h1, h2, h3, rfl⟩)
          · cases b with
            | nil =>
              cases h1
              cases Ss with
              | nil => cases h2; rw [h] at h4; cases h4; rfl
              | cons => simp [OkEach] at h3
            | cons u b =>
              cases h1
              cases Ss with
              | nil => simp [OkEach] at h3
              | cons S0 Ss =>
                cases h2
                obtain ⟨d, hd⟩ := h3.2 (v, T) (by simp)
                rw [h] at hd; cases hd
          · cases Ss with
            | nil => simp [OkEach] at h3
            | cons S0 Ss =>
              cases h1
              obtain ⟨d, hd⟩ := h3.2 (v, T) (by simp)
              rw [h] at hd; cases hd
      | ok d =>
        simp only
        rw [ih]
        constructor
        · rintro (⟨b, w, a, Ss, S, Ss', rfl, rfl, h3, h4⟩ | ⟨Ss, Ss', rfl, h2, h3, rfl⟩)
          · refine .inl ⟨v :: b, w, a, T :: Ss, S, Ss', rfl, rfl, ⟨by simp [h3.1], ?_⟩, h4⟩
            intro p hp
            rcases List.mem_cons.mp hp with rfl | hp
            · exact ⟨d, h⟩
            · exact h3.2 p hp
          · refine .inr ⟨T :: Ss, Ss', rfl, h2, ⟨by simp [h3.1], ?_⟩, by simp; omega⟩
            intro p hp
            rcases List.mem_cons.mp hp with rfl | hp
            · exact ⟨d, h⟩
            · exact h3.2 p hp
        · rintro (⟨b, w, a, Ss, S, Ss', h1, h2, h3, h4⟩ | ⟨Ss, Ss', h1, h2, h3, rfl⟩)
          · cases b with
            | nil =>
              cases h1
              cases Ss with
              | nil => cases h2; rw [h] at h4; cases h4
              | cons => simp [OkEach] at h3
            | cons u b =>
              cases h1
              cases Ss with
              | nil => simp [OkEach] at h3
              | cons S0 Ss =>
                cases h2
                exact .inl ⟨b, w, a, Ss, S, Ss', rfl, rfl, ⟨by simpa using h3.1, fun p hp => h3.2 p (by simp [hp])⟩, h4⟩
          · cases Ss with
            | nil => simp [OkEach] at h3
            | cons S0 Ss =>
              cases h1
              exact .inr ⟨Ss, Ss', rfl, h2, ⟨by simpa using h3.1, fun p hp => h3.2 p (by simp [hp])⟩, by simp; omega⟩

theorem eachErr_none {exp : Str} {n : Nat} {Ts : List RTy} {vs : List Value} :
    eachErr exp n Ts vs = none ↔ ∃ us more, vs = us ++ more ∧ OkEach us Ts := by
  induction Ts generalizing n vs with
  | nil =>
    simp only [eachErr, true_iff]
    exact ⟨[], vs, rfl, rfl, by simp⟩
  | cons T Ts ih =>
    cases vs with
    | nil =>
      simp only [eachErr, reduceCtorEq, false_iff]
      rintro ⟨us, more, h1, h2, -⟩
      cases us with
      | nil => simp at h2
      | cons => simp at h1
    | cons v vs =>
      rw [eachErr]
      cases h : decodeR v T with
      | error e =>
        simp only [reduceCtorEq, false_iff]
        rintro ⟨us, more, h1, h2, h3⟩
        cases us with
        | nil => simp at h2
        | cons u us =>
          cases h1
          obtain ⟨d, hd⟩ := h3 (v, T) (by simp)
          rw [h] at hd; cases hd
      | ok d =>
        simp only
        rw [ih]
        constructor
        · rintro ⟨us, more, rfl, h2, h3⟩
          refine ⟨v :: us, more, rfl, by simp [h2], ?_⟩
          intro p hp
          rcases List.mem_cons.mp hp with rfl | hp
          · exact ⟨d, h⟩
          · exact h3 p hp
        · rintro ⟨us, more, h1, h2, h3⟩
          cases us with
          | nil => simp at h2
          | cons u us =>
            cases h1
            exact ⟨us, more, rfl, by simpa using h2, fun p hp => h3 p (by simp [hp])⟩

/-! ## Maps and structs -/

/-- The members of an object, as they are decoded. -/
def entriesR (ms : List (Str × Value)) : List (Str × RChild) := ms.map fun m => (m.1, decodeR m.2)

theorem memberNodesR_eq (ms : List (Str × Value)) :
    memberNodesR ms = ms.map fun m => (m.1, ⟨m.2, decodeR m.2, itemsOfR m.2⟩) := by
  induction ms with
  | nil => rw [memberNodesR]; rfl
  | cons m ms ih => obtain ⟨k, v⟩ := m; rw [memberNodesR, ih]; rfl

theorem entriesR_memberNodes (ms : List (Str × Value)) :
    (memberNodesR ms).map (fun m => (m.1, m.2.deser)) = entriesR ms := by
  rw [memberNodesR_eq, List.map_map]; rfl

theorem readMapR_error (T : RTy) (ms : List (Str × Value)) (r : SerdeError) :
    readMapR T (entriesR ms) = .error r ↔ firstErr T (ms.map Prod.snd) = some r := by
  induction ms with
  | nil => simp [entriesR, readMapR, firstErr]
  | cons m ms ih =>
    obtain ⟨k, v⟩ := m
    rw [show entriesR ((k, v) :: ms) = (k, decodeR v) :: entriesR ms from rfl]
    simp only [readMapR, List.map_cons, firstErr]
    cases decodeR v T with
    | error e => simp
    | ok d =>
      simp only
      rw [← ih]
      cases readMapR T (entriesR ms) <;> simp

/-- The type at which a member of a struct is read. -/
def memberType (fs : List (Str × RTy)) (k : Str) : RTy := (fieldTypeR fs k).getD .ignored

/-- The error of the first member that cannot be read. -/
def fieldErr (fs : List (Str × RTy)) : List (Str × Value) → Option SerdeError
  | [] => none
  | (k, v) :: ms => match decodeR v (memberType fs k) with
    | .ok _ => fieldErr fs ms
    | .error e => some e

/-- Members without repetition: the error of the first bad member, or all values of the fields among them. -/
theorem readFieldsR_spec (fs : List (Str × RTy)) {ms : List (Str × Value)} (hn : (ms.map Prod.fst).Nodup)
    (acc : List (Str × Dyn)) (ha : ∀ e ∈ acc, e.1 ∉ ms.map Prod.fst) :
    Either (fieldErr fs ms) (fun found => ∀ k, k ∈ found.map Prod.fst ↔
        k ∈ acc.map Prod.fst ∨ (k ∈ ms.map Prod.fst ∧ fieldTypeR fs k ≠ none)) (readFieldsR fs (entriesR ms) acc) := by
  induction ms generalizing acc with
  | nil => exact ⟨rfl, fun k => by simp⟩
  | cons m ms ih =>
    obtain ⟨k, v⟩ := m
    rw [show entriesR ((k, v) :: ms) = (k, decodeR v) :: entriesR ms from rfl]
    simp only [List.map_cons, List.nodup_cons] at hn ha
    simp only [readFieldsR, fieldErr, memberType]
    cases hT : fieldTypeR fs k with
    | none =>
      simp only [Option.getD_none]
      cases decodeR v .ignored with
      | error e => exact rfl
      | ok d =>
        simp only
        have h := ih hn.2 acc fun e he hm => ha e he (by simp [hm])
        cases hr : readFieldsR fs (entriesR ms) acc with
        | error e => rw [hr] at h; exact h
        | ok found =>
          rw [hr] at h
          refine ⟨h.1, fun k' => ?_⟩
          rw [h.2 k']
          by_cases hk : k' = k
          · subst hk; simp [hT]
          · simp [hk]
    | some T =>
      simp only [Option.getD_some]
      rw [if_neg (by
        intro h
        obtain ⟨e, he, hk⟩ := List.any_eq_true.mp h
        exact ha e he (by simp [of_decide_eq_true hk]))]
      cases decodeR v T with
      | error e => exact rfl
      | ok d =>
        simp only
        have h := ih hn.2 (acc ++ [(k, d)]) (by
          intro e he hm
          rcases List.mem_append.mp he with he | he
          · exact ha e he (by simp [hm])
          · rw [List.mem_singleton.mp he] at hm; exact hn.1 hm)
        cases hr : readFieldsR fs (entriesR ms) (acc ++ [(k, d)]) with
        | error e => rw [hr] at h; exact h
        | ok found =>
          rw [hr] at h
          refine ⟨h.1, fun k' => ?_⟩
          rw [h.2 k']
          by_cases hk : k' = k
          · subst hk; simp [hT]
          · simp [hk]

theorem finishFieldsR_error (found : List (Str × Dyn)) (fs : List (Str × RTy)) (r : SerdeError) :
    finishFieldsR found fs = .error r ↔ ∃ gs k T gs', fs = gs ++ (k, T) :: gs' ∧ r = .missingField k ∧
      (∀ f ∈ gs, f.1 ∈ found.map Prod.fst ∨ ∃ T, f.2 = .option T) ∧ k ∉ found.map Prod.fst ∧ ∀ T', T ≠ .option T' := by
  have step : ∀ (k : Str) (T : RTy) (fs : List (Str × RTy)), (k ∈ found.map Prod.fst ∨ ∃ T', T = .option T') →
      ((∃ gs k' T' gs', fs = gs ++ (k', T') :: gs' ∧ r = .missingField k' ∧
        (∀ f ∈ gs, f.1 ∈ found.map Prod.fst ∨ ∃ T, f.2 = .option T) ∧ k' ∉ found.map Prod.fst ∧ ∀ T'', T' ≠ .option T'') ↔
      ∃ gs k' T' gs', (k, T) :: fs = gs ++ (k', T') :: gs' ∧ r = .missingField k' ∧
        (∀ f ∈ gs, f.1 ∈ found.map Prod.fst ∨ ∃ T, f.2 = .option T) ∧ k' ∉ found.map Prod.fst ∧ ∀ T'', T' ≠ .option T'') := by
    intro k T fs hk
    constructor
    · rintro ⟨gs, k', T', gs', rfl, h1, h2, h3, h4⟩
      refine ⟨(k, T) :: gs, k', T', gs', rfl, h1, ?_, h3, h4⟩
      intro f hf
      rcases List.mem_cons.mp hf with rfl | hf
      · exact hk
      · exact h2 f hf
    · rintro ⟨gs, k', T', gs', h0, h1, h2, h3, h4⟩
      cases gs with
      | nil =>
        cases h0
        rcases hk with hk | ⟨T', hk⟩
        · exact absurd hk h3
        · exact absurd hk (h4 T')
      | cons g gs =>
        cases h0
        exact ⟨gs, k', T', gs', rfl, h1, fun f hf => h2 f (by simp [hf]), h3, h4⟩
  induction fs with
  | nil => simp [finishFieldsR]
  | cons f fs ih =>
    obtain ⟨k, T⟩ := f
    rw [finishFieldsR.eq_def]
    simp only
    cases hf : found.find? (fun e => e.1 = k) with
    | some p =>
      obtain ⟨k', d⟩ := p
      have hk : k ∈ found.map Prod.fst := by
        have h1 := List.find?_some hf
        have h2 := List.mem_of_find?_eq_some hf
        simp only [decide_eq_true_eq] at h1
        exact h1 ▸ List.mem_map_of_mem (f := Prod.fst) h2
      refine Iff.trans ?_ (ih.trans (step k T fs (.inl hk)))
      simp only
      cases finishFieldsR found fs <;> simp
    | none =>
      have hk : k ∉ found.map Prod.fst := find?_none_iff.mp hf
      by_cases hT : ∃ T', T = .option T'
      · refine Iff.trans ?_ (ih.trans (step k T fs (.inr hT)))
        obtain ⟨T', rfl⟩ := hT
        simp only
        cases finishFieldsR found fs <;> simp
      · have hT' : ∀ T', T ≠ .option T' := fun T' h => hT ⟨T', h⟩
        simp only
        constructor
        · intro h; cases h
          exact ⟨[], k, T, fs, rfl, rfl, by simp, hk, fun T' h => hT ⟨T', h⟩⟩
        · rintro ⟨gs, k', T', gs', h0, h1, h2, h3, h4⟩
          cases gs with
          | nil => cases h0; rw [h1]
          | cons g gs =>
            cases h0
            rcases h2 (k, T) (by simp) with h | h
            · exact absurd h hk
            · exact absurd h hT

end Nrbf
