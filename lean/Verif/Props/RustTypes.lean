import Verif.Model.RustTypes
import Verif.Lemmas.ReportedValue
import Verif.Props.VisitorsOnce
import Verif.Props.SerdeText

/-! # C76: the standard and derived types are such implementations -/

set_option autoImplicit false

namespace Nrbf.Visitors

section
variable [Platform] [FloatLib] [TextLib]

/-! ## Strategies, step by step -/

omit [Platform] [FloatLib] [TextLib] in
theorem getLast?_got {h : List (Res (Option Dyn))} (hg : ∀ a ∈ h, Got a) : h.getLast? = none ∨ ∃ x, h.getLast? = some (.ok (some x)) := by
  rcases List.eq_nil_or_concat h with rfl | ⟨h', a, rfl⟩
  · exact .inl rfl
  · rw [List.concat_eq_append] at hg ⊢
    obtain ⟨x, rfl⟩ := hg a (by simp)
    exact .inr ⟨x, List.getLast?_concat⟩

omit [Platform] [FloatLib] [TextLib] in
theorem gathered_snoc (h : List (Res (Option Dyn))) (x : Dyn) : gathered (h ++ [.ok (some x)]) = gathered h ++ [x] := by
  simp [gathered]

omit [Platform] [FloatLib] [TextLib] in
theorem gathered_none (h : List (Res (Option Dyn))) : gathered (h ++ [.ok none]) = gathered h := by simp [gathered]

omit [Platform] [FloatLib] [TextLib] in
theorem gathered_length {h : List (Res (Option Dyn))} (hg : ∀ a ∈ h, Got a) : (gathered h).length = h.length := by
  induction h with
  | nil => rfl
  | cons a h ih =>
    obtain ⟨x, rfl⟩ := hg a (List.mem_cons_self ..)
    have := ih fun b hb => hg b (List.mem_cons_of_mem _ hb)
    simp only [gathered, List.filterMap_cons, List.length_cons] at this ⊢
    rw [this]

omit [Platform] [FloatLib] [TextLib] in
theorem seqAll_next {T : RTy} {done : List Dyn → Dyn} {h : List (Res (Option Dyn))} (hg : ∀ a ∈ h, Got a) :
    seqAll T done h = .next (.ty T) := by
  unfold seqAll
  rcases getLast?_got hg with e | ⟨x, e⟩ <;> rw [e]

omit [Platform] [FloatLib] [TextLib] in
theorem seqAll_none {T : RTy} {done : List Dyn → Dyn} {h : List (Res (Option Dyn))} :
    seqAll T done (h ++ [.ok none]) = .finish (.ok (done (gathered h))) := by
  unfold seqAll
  rw [List.getLast?_concat, gathered_none]

omit [Platform] [FloatLib] [TextLib] in
theorem seqAll_error {T : RTy} {done : List Dyn → Dyn} {h : List (Res (Option Dyn))} {e : Str} :
    seqAll T done (h ++ [.error e]) = .finish (.error e) := by
  unfold seqAll
  rw [List.getLast?_concat]

omit [Platform] [FloatLib] in
theorem seqEach_next {x : Str} {Ts : List RTy} {done : List Dyn → Dyn} {h : List (Res (Option Dyn))} (hg : ∀ a ∈ h, Got a) :
    seqEach x Ts done h = match Ts[h.length]? with
      | some T => .next (.ty T)
      | none => .finish (.ok (done (gathered h))) := by
  unfold seqEach
  rcases getLast?_got hg with e | ⟨x, e⟩ <;> rw [e] <;> rfl

omit [Platform] [FloatLib] in
theorem seqEach_none {x : Str} {Ts : List RTy} {done : List Dyn → Dyn} {h : List (Res (Option Dyn))} :
    seqEach x Ts done (h ++ [.ok none]) = .finish (.error (SerdeError.invalidLength h.length x).text) := by
  unfold seqEach
  rw [List.getLast?_concat, List.length_append, List.length_singleton, Nat.add_sub_cancel]

omit [Platform] [FloatLib] in
theorem seqEach_error {x : Str} {Ts : List RTy} {done : List Dyn → Dyn} {h : List (Res (Option Dyn))} {e : Str} :
    seqEach x Ts done (h ++ [.error e]) = .finish (.error e) := by
  unfold seqEach
  rw [List.getLast?_concat]

/-! ## Sequences -/

/-- The value is deserialised as `SerdeText` says. -/
def Fits (v : Value) : Prop := ∀ T, Deserialize rust v (.ty T) (asText (decodeR v T))

/-- A run ends as `SerdeText` says: with these elements, or with an error. -/
def Ends {σ : Type} (done : List Dyn → Dyn) (x : TextResult (List Dyn × σ)) (r : Res Dyn) (state : σ → Prop) : Prop :=
  match x with
  | .ok (ds, a) => r = .ok (done ds) ∧ state a
  | .error e => r = .error e.text

omit [Platform] [FloatLib] in
theorem Ends.cons {σ : Type} {done : List Dyn → Dyn} {x : TextResult (List Dyn × σ)} {r : Res Dyn} {state : σ → Prop}
    {pre : List Dyn} {d : Dyn} (h : Ends (fun ds => done (pre ++ [d] ++ ds)) x r state) :
    Ends (fun ds => done (pre ++ ds)) (match x with | .ok (ds, s) => .ok (d :: ds, s) | .error e => .error e) r state := by
  match x, h with
  | .ok (ds, a), h => exact ⟨by simpa [List.append_assoc] using h.1, h.2⟩
  | .error e, h => exact h

theorem arrayAll {T : RTy} {done : List Dyn → Dyn} : ∀ (vs : List Value), (∀ v ∈ vs, Fits v) → ∀ n h fuel, (∀ a ∈ h, Got a) →
    vs.length < fuel → ∃ r rest count, ArrayRun rust (seqAll T done) vs n h r rest count ∧
      Ends (fun ds => done (gathered h ++ ds)) (readAllR arrayNextR T fuel ⟨vs.map decodeR, n⟩) r
        fun a => rest.length = a.rest.length ∧ count = a.count
  | [], _, n, h, fuel, hg, hf => by
    obtain ⟨fuel, rfl⟩ : ∃ f, fuel = f + 1 := ⟨fuel - 1, by omega⟩
    refine ⟨_, _, _, .exhausted (seqAll_next hg) (.finish seqAll_none), ?_⟩
    simp only [readAllR, arrayNextR, List.map_nil]
    exact ⟨by simp, rfl, rfl⟩
  | v :: vs, hv, n, h, fuel, hg, hf => by
    obtain ⟨fuel, rfl⟩ : ∃ f, fuel = f + 1 := ⟨fuel - 1, by omega⟩
    have d := hv v (List.mem_cons_self ..) T
    simp only [readAllR, arrayNextR, List.map_cons]
    cases e : decodeR v T with
    | error e =>
      rw [e] at d
      exact ⟨_, _, _, .element (seqAll_next hg) d (.finish seqAll_error), rfl⟩
    | ok x =>
      rw [e] at d
      obtain ⟨r, rest, count, g, he⟩ := arrayAll vs (fun u hu => hv u (List.mem_cons_of_mem _ hu)) (n + 1) (h ++ [.ok (some x)]) fuel
        (got_snoc hg ⟨x, rfl⟩) (by simp at hf; omega)
      refine ⟨_, _, _, .element (seqAll_next hg) d g, ?_⟩
      rw [gathered_snoc] at he
      exact he.cons

theorem arrayEach {x : Str} {Ts : List RTy} {done : List Dyn → Dyn} : ∀ (Rs : List RTy) (vs : List Value), (∀ v ∈ vs, Fits v) → ∀ n h,
    (∀ a ∈ h, Got a) → Rs = Ts.drop h.length → ∃ r rest count, ArrayRun rust (seqEach x Ts done) vs n h r rest count ∧
      Ends (fun ds => done (gathered h ++ ds)) (readEachR arrayNextR x h.length Rs ⟨vs.map decodeR, n⟩) r
        fun a => rest.length = a.rest.length ∧ count = a.count
  | [], vs, _, n, h, hg, hR => by
    have e : seqEach x Ts done h = .finish (.ok (done (gathered h))) := by
      rw [seqEach_next hg, List.getElem?_eq_none (by
        have := congrArg List.length hR
        simp at this
        omega)]
    exact ⟨_, _, _, .finish e, by simp [Ends, readEachR]⟩
  | T :: Rs, vs, hv, n, h, hg, hR => by
    have hT : Ts[h.length]? = some T := by
      have := congrArg List.head? hR
      rw [List.head?_drop] at this
      exact this.symm
    have e : seqEach x Ts done h = .next (.ty T) := by rw [seqEach_next hg, hT]
    have hR' : Rs = Ts.drop (h.length + 1) := by
      have := congrArg List.tail hR
      simpa [List.tail_drop] using this
    match vs, hv with
    | [], _ => exact ⟨_, _, _, .exhausted e (.finish seqEach_none), rfl⟩
    | v :: vs, hv =>
      have d := hv v (List.mem_cons_self ..) T
      simp only [readEachR, arrayNextR, List.map_cons]
      cases e2 : decodeR v T with
      | error e3 =>
        rw [e2] at d
        exact ⟨_, _, _, .element e d (.finish seqEach_error), rfl⟩
      | ok y =>
        rw [e2] at d
        obtain ⟨r, rest, count, g, he⟩ := arrayEach (x := x) (Ts := Ts) (done := done) Rs vs (fun u hu => hv u (List.mem_cons_of_mem _ hu)) (n + 1)
          (h ++ [.ok (some y)]) (got_snoc hg ⟨y, rfl⟩) (by simpa using hR')
        refine ⟨_, _, _, .element e d g, ?_⟩
        rw [gathered_snoc, List.length_append] at he
        exact he.cons

theorem listAll {T : RTy} {done : List Dyn → Dyn} {size : Nat} : ∀ (vs : List Value), (∀ v ∈ vs, Fits v) → ∀ n m h fuel,
    (∀ a ∈ h, Got a) → vs.length < fuel → ∃ r count, ListRun rust size (seqAll T done) vs n h r count ∧
      Ends (fun ds => done (gathered h ++ ds)) (readAllR listNextR T fuel ⟨⟨vs.map decodeR, m⟩, n, size⟩) r
        fun a => count = a.count ∧ a.size = size := by
  intro vs
  induction vs with
  | nil =>
    intro hv n m h fuel hg hf
    obtain ⟨fuel, rfl⟩ : ∃ f, fuel = f + 1 := ⟨fuel - 1, by omega⟩
    by_cases hlt : n < size
    · refine ⟨_, _, .exhausted (seqAll_next hg) hlt (.finish seqAll_none), ?_⟩
      simp only [readAllR, listNextR, arrayNextR, List.map_nil, if_pos hlt]
      exact ⟨by simp, rfl, rfl⟩
    · refine ⟨_, _, .full (seqAll_next hg) hlt (.finish seqAll_none), ?_⟩
      simp only [readAllR, listNextR, if_neg hlt]
      exact ⟨by simp, rfl, rfl⟩
  | cons v vs ih =>
    intro hv n m h fuel hg hf
    obtain ⟨fuel, rfl⟩ : ∃ f, fuel = f + 1 := ⟨fuel - 1, by omega⟩
    by_cases hlt : n < size
    · have d := hv v (List.mem_cons_self ..) T
      simp only [readAllR, listNextR, arrayNextR, List.map_cons, if_pos hlt]
      cases e : decodeR v T with
      | error e =>
        rw [e] at d
        exact ⟨_, _, .error (seqAll_next hg) hlt d (.finish seqAll_error), rfl⟩
      | ok x =>
        rw [e] at d
        obtain ⟨r, count, g, he⟩ := ih (fun u hu => hv u (List.mem_cons_of_mem _ hu)) (n + 1) (m + 1)
          (h ++ [.ok (some x)]) fuel (got_snoc hg ⟨x, rfl⟩) (by simp at hf; omega)
        refine ⟨_, _, .element (seqAll_next hg) hlt d g, ?_⟩
        rw [gathered_snoc] at he
        exact he.cons
    · refine ⟨_, _, .full (seqAll_next hg) hlt (.finish seqAll_none), ?_⟩
      simp only [readAllR, listNextR, if_neg hlt]
      exact ⟨by simp, rfl, rfl⟩

theorem listEach {x : Str} {Ts : List RTy} {done : List Dyn → Dyn} {size : Nat} : ∀ (Rs : List RTy) (vs : List Value), (∀ v ∈ vs, Fits v) →
    ∀ n m h, (∀ a ∈ h, Got a) → Rs = Ts.drop h.length → ∃ r count, ListRun rust size (seqEach x Ts done) vs n h r count ∧
      Ends (fun ds => done (gathered h ++ ds)) (readEachR listNextR x h.length Rs ⟨⟨vs.map decodeR, m⟩, n, size⟩) r
        fun a => count = a.count ∧ a.size = size
  | [], vs, _, n, m, h, hg, hR => by
    have e : seqEach x Ts done h = .finish (.ok (done (gathered h))) := by
      rw [seqEach_next hg, List.getElem?_eq_none (by
        have := congrArg List.length hR
        simp at this
        omega)]
    exact ⟨_, _, .finish e, by simp [Ends, readEachR]⟩
  | T :: Rs, vs, hv, n, m, h, hg, hR => by
    have hT : Ts[h.length]? = some T := by
      have := congrArg List.head? hR
      rw [List.head?_drop] at this
      exact this.symm
    have e : seqEach x Ts done h = .next (.ty T) := by rw [seqEach_next hg, hT]
    have hR' : Rs = Ts.drop (h.length + 1) := by
      have := congrArg List.tail hR
      simpa [List.tail_drop] using this
    by_cases hlt : n < size
    · match vs, hv with
      | [], _ =>
        refine ⟨_, _, .exhausted e hlt (.finish seqEach_none), ?_⟩
        simp only [readEachR, listNextR, arrayNextR, List.map_nil, if_pos hlt]
        rfl
      | v :: vs, hv =>
        have d := hv v (List.mem_cons_self ..) T
        simp only [readEachR, listNextR, arrayNextR, List.map_cons, if_pos hlt]
        cases e2 : decodeR v T with
        | error e3 =>
          rw [e2] at d
          exact ⟨_, _, .error e hlt d (.finish seqEach_error), rfl⟩
        | ok y =>
          rw [e2] at d
          obtain ⟨r, count, g, he⟩ := listEach (x := x) (Ts := Ts) (done := done) (size := size) Rs vs (fun u hu => hv u (List.mem_cons_of_mem _ hu)) (n + 1) (m + 1)
            (h ++ [.ok (some y)]) (got_snoc hg ⟨y, rfl⟩) (by simpa using hR')
          refine ⟨_, _, .element e hlt d g, ?_⟩
          rw [gathered_snoc, List.length_append] at he
          exact he.cons
    · refine ⟨_, _, .full e hlt (.finish seqEach_none), ?_⟩
      simp only [readEachR, listNextR, if_neg hlt]
      rfl

/-! ## Maps -/

omit [Platform] [FloatLib] [TextLib] in
theorem entriesOf_append : ∀ (xs ys : List Dyn), xs.length % 2 = 0 → entriesOf (xs ++ ys) = entriesOf xs ++ entriesOf ys
  | [], _, _ => rfl
  | [_], _, h => by simp at h
  | k :: d :: xs, ys, h => by
    simp only [List.cons_append, entriesOf]
    rw [entriesOf_append xs ys (by simp only [List.length_cons] at h; omega)]

omit [Platform] [FloatLib] [TextLib] in
theorem entriesOf_entry {h : List (Res (Option Dyn))} (hg : ∀ a ∈ h, Got a) (he : h.length % 2 = 0) (k d : Dyn) :
    entriesOf (gathered (h ++ [.ok (some k)] ++ [.ok (some d)])) = entriesOf (gathered h) ++ [(k, d)] := by
  rw [gathered_snoc, gathered_snoc, List.append_assoc, entriesOf_append _ _ (by rw [gathered_length hg]; exact he)]
  rfl

omit [Platform] [FloatLib] [TextLib] in
theorem entriesOf_key {h : List (Res (Option Dyn))} (hg : ∀ a ∈ h, Got a) (he : h.length % 2 = 0) (k : Dyn) :
    entriesOf (gathered (h ++ [.ok (some k)])) = entriesOf (gathered h) := by
  rw [gathered_snoc, entriesOf_append _ _ (by rw [gathered_length hg]; exact he)]
  simp [entriesOf]

omit [Platform] [FloatLib] [TextLib] in
theorem mapAll_more {K T : RTy} {done : List (Dyn × Dyn) → Dyn} {h : List (Res (Option Dyn))} (hg : ∀ a ∈ h, Got a) :
    mapAll K T done h = if h.length % 2 = 0 then .key (.ty K) else .value (.ty T) := by
  unfold mapAll
  rcases getLast?_got hg with e | ⟨x, e⟩ <;> rw [e]

omit [Platform] [FloatLib] [TextLib] in
theorem mapAll_none {K T : RTy} {done : List (Dyn × Dyn) → Dyn} {h : List (Res (Option Dyn))} :
    mapAll K T done (h ++ [.ok none]) = .finish (.ok (done (entriesOf (gathered h)))) := by
  unfold mapAll
  rw [List.getLast?_concat, gathered_none]

omit [Platform] [FloatLib] [TextLib] in
theorem mapAll_error {K T : RTy} {done : List (Dyn × Dyn) → Dyn} {h : List (Res (Option Dyn))} {e : Str} :
    mapAll K T done (h ++ [.error e]) = .finish (.error e) := by
  unfold mapAll
  rw [List.getLast?_concat]

theorem mapEntries {K T : RTy} {done : List (Dyn × Dyn) → Dyn} {scalar : Str → Scalar} {kd : Str → Dyn}
    (hk : ∀ k, deserializeKey scalar k (rust (.ty K)) = .ok (kd k)) : ∀ (ms : List (Str × Value)), (∀ m ∈ ms, Fits m.2) →
    ∀ p n h, (∀ a ∈ h, Got a) → h.length % 2 = 0 → ∃ r rest count, MapRun rust scalar (mapAll K T done) ms p n h r rest count ∧
      match readMapR T (entriesR ms) with
      | .ok ds => r = .ok (done (entriesOf (gathered h) ++ ds.map fun e => (kd e.1, e.2))) ∧ rest = []
      | .error e => r = .error e.text
  | [], _, p, n, h, hg, he => by
    refine ⟨_, _, _, .exhausted (by rw [mapAll_more hg, if_pos he]) (.finish mapAll_none), ?_⟩
    simp [entriesR, readMapR]
  | (k, v) :: ms, hv, p, n, h, hg, he => by
    have d := hv (k, v) (List.mem_cons_self ..) T
    have e1 : mapAll K T done h = .key (.ty K) := by rw [mapAll_more hg, if_pos he]
    have hg1 := got_snoc (a := .ok (some (kd k))) hg ⟨_, rfl⟩
    have e2 : mapAll K T done (h ++ [(deserializeKey scalar k (rust (.ty K))).map some]) = .value (.ty T) := by
      rw [hk]
      show mapAll K T done (h ++ [.ok (some (kd k))]) = _
      rw [mapAll_more hg1, if_neg (by simp; omega)]
    simp only [entriesR, List.map_cons, readMapR]
    cases e : decodeR v T with
    | error e3 =>
      simp only [e] at d
      exact ⟨_, _, _, .key e1 (.value e2 d (.finish mapAll_error)), rfl⟩
    | ok x =>
      simp only [e] at d
      have hg2 := got_snoc (a := .ok (some x)) hg1 ⟨_, rfl⟩
      obtain ⟨r, rest, count, g, hr⟩ := mapEntries (done := done) hk ms (fun u hu => hv u (List.mem_cons_of_mem _ hu)) none (n + 1)
        (h ++ [.ok (some (kd k))] ++ [.ok (some x)]) hg2 (by simp; omega)
      refine ⟨r, rest, count, .key e1 (.value e2 d (by rw [hk]; exact g)), ?_⟩
      rw [entriesOf_entry hg he] at hr
      simp only [entriesR] at hr
      cases e4 : readMapR T (ms.map fun m => (m.1, decodeR m.2)) with
      | error e5 => rw [e4] at hr; exact hr
      | ok ds =>
        rw [e4] at hr
        exact ⟨by simpa [List.append_assoc] using hr.1, hr.2⟩

/-! ## Structs -/

omit [Platform] [FloatLib] in
theorem mapFields_key {fs : List (Str × RTy)} {h : List (Res (Option Dyn))} (hg : ∀ a ∈ h, Got a) (he : h.length % 2 = 0) :
    mapFields fs h = .key (.field fs) := by
  unfold mapFields
  rcases getLast?_got hg with e | ⟨x, e⟩ <;> rw [e]
  simp only
  rw [if_pos he]

omit [Platform] [FloatLib] in
theorem mapFields_none {fs : List (Str × RTy)} {h : List (Res (Option Dyn))} :
    mapFields fs (h ++ [.ok none]) = .finish (asText ((finishFieldsR (fieldsFound (entriesOf (gathered h))) fs).map .struct)) := by
  unfold mapFields
  rw [List.getLast?_concat, gathered_none]

omit [Platform] [FloatLib] in
theorem mapFields_error {fs : List (Str × RTy)} {h : List (Res (Option Dyn))} {e : Str} :
    mapFields fs (h ++ [.error e]) = .finish (.error e) := by
  unfold mapFields
  rw [List.getLast?_concat]

theorem fieldKey (fs : List (Str × RTy)) (k : Str) :
    (deserializeKey .str k (rust (.field fs))).map some = .ok (some (if (fieldTypeR fs k).isSome then .str k else .ignored)) := rfl

theorem mapStruct {fs : List (Str × RTy)} : ∀ (ms : List (Str × Value)), (∀ m ∈ ms, Fits m.2) →
    ∀ p n h, (∀ a ∈ h, Got a) → h.length % 2 = 0 → ∃ r rest count, MapRun rust .str (mapFields fs) ms p n h r rest count ∧
      match readFieldsR fs (entriesR ms) (fieldsFound (entriesOf (gathered h))) with
      | .ok found => r = asText ((finishFieldsR found fs).map .struct) ∧ rest = []
      | .error e => r = .error e.text
  | [], _, p, n, h, hg, he => ⟨_, _, _, .exhausted (mapFields_key hg he) (.finish mapFields_none), rfl, rfl⟩
  | (k, v) :: ms, hv, p, n, h, hg, he => by
    have d := hv (k, v) (List.mem_cons_self ..)
    have e1 := mapFields_key (fs := fs) hg he
    simp only [entriesR, List.map_cons, readFieldsR]
    cases ef : fieldTypeR fs k with
    | none =>
      have ek := fieldKey fs k
      simp only [ef] at ek
      have hg1 := got_snoc (a := .ok (some Dyn.ignored)) hg ⟨_, rfl⟩
      have e2 : mapFields fs (h ++ [(deserializeKey .str k (rust (.field fs))).map some]) = .value (.ty .ignored) := by
        rw [ek]
        unfold mapFields
        rw [List.getLast?_concat]
        show (if _ then _ else _) = _
        rw [if_neg (by simp; omega)]
        rfl
      have d := d .ignored
      cases e : decodeR v .ignored with
      | error e3 =>
        simp only [e] at d
        exact ⟨_, _, _, .key e1 (.value e2 d (.finish mapFields_error)), rfl⟩
      | ok x =>
        simp only [e] at d
        have hg2 := got_snoc (a := .ok (some x)) hg1 ⟨_, rfl⟩
        obtain ⟨r, rest, count, g, hr⟩ := mapStruct (fs := fs) ms (fun u hu => hv u (List.mem_cons_of_mem _ hu)) none (n + 1)
          (h ++ [.ok (some Dyn.ignored)] ++ [.ok (some x)]) hg2 (by simp; omega)
        refine ⟨r, rest, count, .key e1 (.value e2 d (by rw [ek]; exact g)), ?_⟩
        have hfound : fieldsFound (entriesOf (gathered (h ++ [.ok (some Dyn.ignored)] ++ [.ok (some x)]))) =
            fieldsFound (entriesOf (gathered h)) := by
          rw [entriesOf_entry hg he]
          simp [fieldsFound]
        rw [hfound] at hr
        exact hr
    | some T =>
      have ek := fieldKey fs k
      simp only [ef] at ek
      have hg1 := got_snoc (a := .ok (some (Dyn.str k))) hg ⟨_, rfl⟩
      have e2 : mapFields fs (h ++ [(deserializeKey .str k (rust (.field fs))).map some]) =
          if (fieldsFound (entriesOf (gathered h))).any (fun e => e.1 = k) then .finish (.error (SerdeError.duplicateField k).text)
          else .value (.ty T) := by
        rw [ek]
        unfold mapFields
        rw [List.getLast?_concat]
        show (if _ then _ else _) = _
        rw [if_neg (by simp; omega)]
        show (if (fieldsFound (entriesOf (gathered (h ++ [.ok (some (Dyn.str k))])))).any (fun e => e.1 = k) then _ else _) = _
        rw [entriesOf_key hg he, ef]
      by_cases hdup : (fieldsFound (entriesOf (gathered h))).any (fun e => e.1 = k) = true
      · rw [if_pos hdup] at e2
        simp only
        rw [if_pos hdup]
        exact ⟨_, _, _, .key e1 (.finish e2), rfl⟩
      · rw [if_neg hdup] at e2
        simp only
        rw [if_neg hdup]
        have d := d T
        cases e : decodeR v T with
        | error e3 =>
          simp only [e] at d
          exact ⟨_, _, _, .key e1 (.value e2 d (.finish mapFields_error)), rfl⟩
        | ok x =>
          simp only [e] at d
          have hg2 := got_snoc (a := .ok (some x)) hg1 ⟨_, rfl⟩
          obtain ⟨r, rest, count, g, hr⟩ := mapStruct (fs := fs) ms (fun u hu => hv u (List.mem_cons_of_mem _ hu)) none (n + 1)
            (h ++ [.ok (some (Dyn.str k))] ++ [.ok (some x)]) hg2 (by simp; omega)
          refine ⟨r, rest, count, .key e1 (.value e2 d (by rw [ek]; exact g)), ?_⟩
          have hfound : fieldsFound (entriesOf (gathered (h ++ [.ok (some (Dyn.str k))] ++ [.ok (some x)]))) =
              fieldsFound (entriesOf (gathered h)) ++ [(k, x)] := by
            rw [entriesOf_entry hg he]
            simp [fieldsFound]
          rw [hfound] at hr
          exact hr

/-! ## Boxed primitives -/

theorem strKey (k : Str) : deserializeKey .borrowedStr k (rust (.ty .str)) = .ok (.str k) := rfl

theorem visitMap_of {ι α : Type} {impls : ι → Impl ι α} {scalar : Str → Scalar} {ms : List (Str × Value)} {V : Visitor ι α} {r r' : Res α}
    {rest : List (Str × Value)} {count : Nat} (run : MapRun impls scalar (V.map ms.length) ms none 0 [] r rest count)
    (e : mapEnd r rest.length count = r') : VisitMap impls scalar ms V r' := by
  rw [← e]
  exact .mk run

theorem boxed_fits (e : Str) (T : RTy) (ms : List (Str × Value)) (hv : ∀ m ∈ ms, Fits m.2) :
    VisitMap rust .borrowedStr ms (boxedVisitor e T) (asText (unboxR e T (entriesR ms))) := by
  by_cases hl : ms.length = 1
  · obtain ⟨⟨k, v⟩, rfl⟩ : ∃ m, ms = [m] := by
      match ms, hl with
      | [m], _ => exact ⟨m, rfl⟩
    have d := hv (k, v) (List.mem_cons_self ..) T
    have h1 : (boxedVisitor e T).map 1 [] = .key (.ty .str) := rfl
    have h2 : (boxedVisitor e T).map 1 ([] ++ [(deserializeKey .borrowedStr k (rust (.ty .str))).map some]) = .value (.ty T) := rfl
    simp only [entriesR, List.map_cons, List.map_nil, unboxR, List.length_singleton, if_true]
    cases ed : decodeR v T with
    | error x =>
      simp only [ed] at d
      have run : MapRun rust .borrowedStr ((boxedVisitor e T).map 1) [(k, v)] none 0 [] (.error x.text) [] 1 :=
        .key h1 (.value h2 d (.finish rfl))
      exact visitMap_of (ms := [(k, v)]) run rfl
    | ok x =>
      simp only [ed] at d
      by_cases hk : k = lit "m_value"
      · simp only [if_pos hk]
        subst hk
        have run : MapRun rust .borrowedStr ((boxedVisitor e T).map 1) [(lit "m_value", v)] none 0 [] (.ok x) [] 1 := by
          refine .key h1 (.value h2 d (.exhausted (i := .ty .str) ?_ (.finish ?_)))
          · show mapBoxed e T 1 [.ok (some (.str (lit "m_value"))), .ok (some x)] = _
            unfold mapBoxed
            simp only [if_true]
          · rfl
        exact visitMap_of (ms := [(lit "m_value", v)]) run rfl
      · simp only [if_neg hk]
        have run : MapRun rust .borrowedStr ((boxedVisitor e T).map 1) [(k, v)] none 0 [] (.error (SerdeError.invalidType .map e).text) [] 1 := by
          refine .key h1 (.value h2 d (.finish ?_))
          show mapBoxed e T 1 [.ok (some (.str k)), .ok (some x)] = _
          unfold mapBoxed
          simp only [if_true]
          rw [if_neg (by simpa using hk)]
        exact visitMap_of (ms := [(k, v)]) run rfl
  · have run : MapRun rust .borrowedStr ((boxedVisitor e T).map ms.length) ms none 0 [] (.error (SerdeError.invalidType .map e).text) ms 0 := by
      refine .finish ?_
      show (if ms.length = 1 then _ else _) = _
      rw [if_neg hl]
    have : unboxR e T (entriesR ms) = .error (.invalidType .map e) := by
      unfold unboxR
      rw [if_neg (by simpa [entriesR] using hl)]
    rw [this]
    exact visitMap_of run rfl

/-! ## Everything -/

/-- What a type makes of the call of `deserialize_any`, options included. -/
def acceptAny (T : RTy) (c : VCall RChild SerdeError) : TextResult Dyn :=
  match T with
  | .option T =>
    match c with
    | .fail e => .error e
    | .visitUnit | .visitNone => .ok .none
    | c => .error (.invalidType c.unexpected (RTy.option T).expecting)
  | T => acceptR T c

theorem scalar_fits (T : RTy) (s : Scalar) : (visitorOf T).scalar s = asText (acceptAny T s.call) := by
  cases T with
  | option T => cases s <;> rfl
  | _ => rfl

theorem visit_array {V : Visitor Goal Dyn} {vs : List Value} {plan : SeqPlanR} {done : List Dyn → Dyn}
    (h : ∃ r rest count, ArrayRun rust V.seq vs 0 [] r rest count ∧
      Ends done (plan.run arrayNextR ((vs.map decodeR).length + 1) ⟨vs.map decodeR, 0⟩) r fun a => rest.length = a.rest.length ∧ count = a.count) :
    VisitAny rust (.array vs) V (asText ((visitArraySeqR plan (vs.map decodeR)).map done)) := by
  obtain ⟨r, rest, count, g, he⟩ := h
  have := VisitAny.array g
  have e : arrayEnd r rest.length count = asText ((visitArraySeqR plan (vs.map decodeR)).map done) := by
    unfold visitArraySeqR
    cases e : plan.run arrayNextR ((vs.map decodeR).length + 1) ⟨vs.map decodeR, 0⟩ with
    | error x =>
      rw [e] at he
      cases he
      rfl
    | ok x =>
      obtain ⟨ds, a⟩ := x
      rw [e] at he
      obtain ⟨rfl, h1, rfl⟩ := he
      simp only [arrayEnd, arrayEndR, h1]
      by_cases h0 : a.rest.length = 0
      · rw [if_pos h0, if_pos h0]; rfl
      · rw [if_neg h0, if_neg h0]; rfl
  rw [← e]
  exact this

theorem visit_list {V : Visitor Goal Dyn} {c : Str} {l : Option Str} {ms : List (Str × Value)} {vs : List Value} {size : Nat}
    {plan : SeqPlanR} {done : List Dyn → Dyn} (hc : objectCall c l ms = .list vs size)
    (h : ∃ r count, ListRun rust size V.seq vs 0 [] r count ∧
      Ends done (plan.run listNextR ((vs.map decodeR).length + 1) ⟨⟨vs.map decodeR, 0⟩, 0, size⟩) r fun a => count = a.count ∧ a.size = size) :
    VisitAny rust (.object c l ms) V (asText ((visitListSeqR plan (vs.map decodeR) size).map done)) := by
  obtain ⟨r, count, g, he⟩ := h
  have := VisitAny.list hc g
  have e : listEnd r count size = asText ((visitListSeqR plan (vs.map decodeR) size).map done) := by
    unfold visitListSeqR
    cases e : plan.run listNextR ((vs.map decodeR).length + 1) ⟨⟨vs.map decodeR, 0⟩, 0, size⟩ with
    | error x =>
      rw [e] at he
      cases he
      rfl
    | ok x =>
      obtain ⟨ds, a⟩ := x
      rw [e] at he
      obtain ⟨rfl, rfl, h1⟩ := he
      simp only [listEnd, listEndR, h1]
      by_cases h0 : a.count = size
      · rw [if_pos h0, if_pos h0]; rfl
      · rw [if_neg h0, if_neg h0]; rfl
  rw [← e]
  exact this

theorem array_fits (T : RTy) (vs : List Value) (hv : ∀ v ∈ vs, Fits v) :
    VisitAny rust (.array vs) (visitorOf T) (asText (acceptAny T (.visitArray (vs.map decodeR)))) := by
  have all : ∀ {V : Visitor Goal Dyn} {T done}, V.seq = seqAll T done →
      VisitAny rust (.array vs) V (asText ((visitArraySeqR (.all T) (vs.map decodeR)).map done)) := by
    intro V T done e
    refine visit_array ?_
    rw [e]
    exact arrayAll vs hv 0 [] _ (by simp) (by simp)
  have each : ∀ {V : Visitor Goal Dyn} {x Ts done}, V.seq = seqEach x Ts done →
      VisitAny rust (.array vs) V (asText ((visitArraySeqR (.each x Ts) (vs.map decodeR)).map done)) := by
    intro V x Ts done e
    refine visit_array ?_
    rw [e]
    exact arrayEach Ts vs hv 0 [] (by simp) rfl
  have refused : ∀ {V : Visitor Goal Dyn} {x}, (V.seq = fun _ => .finish (refuse .seq x)) →
      VisitAny rust (.array vs) V (refuse .seq x) := by
    intro V x e
    have run : ArrayRun rust V.seq vs 0 [] (refuse .seq x) vs 0 := .finish (by rw [e])
    exact .array run
  cases T with
  | vec | ignored | any => exact all rfl
  | array | tuple | struct | newtype => exact each rfl
  | _ => exact refused rfl

theorem list_fits (T : RTy) {c : Str} {l : Option Str} {ms : List (Str × Value)} {vs : List Value} {size : Nat}
    (hc : objectCall c l ms = .list vs size) (hv : ∀ v ∈ vs, Fits v) :
    VisitAny rust (.object c l ms) (visitorOf T) (asText (acceptAny T (.visitList (vs.map decodeR) size))) := by
  have all : ∀ {V : Visitor Goal Dyn} {T done}, V.seq = seqAll T done →
      VisitAny rust (.object c l ms) V (asText ((visitListSeqR (.all T) (vs.map decodeR) size).map done)) := by
    intro V T done e
    refine visit_list hc ?_
    rw [e]
    exact listAll vs hv 0 0 [] _ (by simp) (by simp)
  have each : ∀ {V : Visitor Goal Dyn} {x Ts done}, V.seq = seqEach x Ts done →
      VisitAny rust (.object c l ms) V (asText ((visitListSeqR (.each x Ts) (vs.map decodeR) size).map done)) := by
    intro V x Ts done e
    refine visit_list hc ?_
    rw [e]
    exact listEach Ts vs hv 0 0 [] (by simp) rfl
  have refused : ∀ {V : Visitor Goal Dyn} {x}, (V.seq = fun _ => .finish (refuse .seq x)) →
      VisitAny rust (.object c l ms) V (refuse .seq x) := by
    intro V x e
    have run : ListRun rust size V.seq vs 0 [] (refuse .seq x) 0 := .finish (by rw [e])
    exact .list hc run
  cases T with
  | vec | ignored | any => exact all rfl
  | array | tuple | struct | newtype => exact each rfl
  | _ => exact refused rfl

theorem map_fits (T : RTy) (hT : ∀ name fs, T ≠ .struct name fs) (ms : List (Str × Value)) (hv : ∀ m ∈ ms, Fits m.2) :
    VisitMap rust .borrowedStr ms (visitorOf T) (asText (acceptAny T (.visitMap (entriesR ms)))) := by
  have all : ∀ {V : Visitor Goal Dyn} {K T : RTy} {done : List (Dyn × Dyn) → Dyn} {kd : Str → Dyn}, (∀ k, deserializeKey .borrowedStr k (rust (.ty K)) = .ok (kd k)) →
      V.map ms.length = mapAll K T done → VisitMap rust .borrowedStr ms V
        (asText ((readMapR T (entriesR ms)).map fun ds => done (ds.map fun e => (kd e.1, e.2)))) := by
    intro V K T done kd hk e
    obtain ⟨r, rest, count, g, hr⟩ := mapEntries (T := T) (done := done) hk ms hv none 0 [] (by simp) rfl
    rw [← e] at g
    refine visitMap_of g ?_
    cases e2 : readMapR T (entriesR ms) with
    | error x =>
      rw [e2] at hr
      subst hr
      rfl
    | ok ds =>
      rw [e2] at hr
      obtain ⟨rfl, rfl⟩ := hr
      rfl
  have refused : ∀ {V : Visitor Goal Dyn} {x}, (V.map ms.length = fun _ => .finish (refuse .map x)) →
      VisitMap rust .borrowedStr ms V (refuse .map x) := by
    intro V x e
    have run : MapRun rust .borrowedStr (V.map ms.length) ms none 0 [] (refuse .map x) ms 0 := .finish (by rw [e])
    exact visitMap_of run rfl
  cases T with
  | struct name fs => exact absurd rfl (hT name fs)
  | map T =>
    have := all (V := visitorOf (.map T)) (K := .string) (T := T) (kd := fun k => .str k)
      (done := fun es => .map (es.map fun e => (keyOf e.1, e.2))) (fun k => rfl) rfl
    have e : (fun ds : List (Str × Dyn) => Dyn.map ((ds.map fun e => (Dyn.str e.1, e.2)).map fun e => (keyOf e.1, e.2))) = Dyn.map := by
      funext ds
      simp [keyOf, Function.comp_def]
    rw [e] at this
    exact this
  | any =>
    have := all (V := visitorOf .any) (K := .any) (T := .any) (kd := fun k => .str k)
      (done := fun es => .map (es.map fun e => (keyOf e.1, e.2))) (fun k => rfl) rfl
    have e : (fun ds : List (Str × Dyn) => Dyn.map ((ds.map fun e => (Dyn.str e.1, e.2)).map fun e => (keyOf e.1, e.2))) = Dyn.map := by
      funext ds
      simp [keyOf, Function.comp_def]
    rw [e] at this
    exact this
  | ignored =>
    exact all (V := visitorOf .ignored) (K := .ignored) (T := .ignored) (kd := fun _ => .ignored) (done := fun _ => .ignored) (fun k => rfl) rfl
  | _ => exact refused rfl

theorem struct_fits (name : Str) (fs : List (Str × RTy)) (ms : List (Str × Value)) (hv : ∀ m ∈ ms, Fits m.2) :
    VisitMap rust .str ms (visitorOf (.struct name fs)) (asText ((visitFieldsR fs (entriesR ms)).map .struct)) := by
  obtain ⟨r, rest, count, g, hr⟩ := mapStruct (fs := fs) ms hv none 0 [] (by simp) rfl
  have g' : MapRun rust .str ((visitorOf (.struct name fs)).map ms.length) ms none 0 [] r rest count := g
  refine visitMap_of g' ?_
  unfold visitFieldsR
  have e : fieldsFound (entriesOf (gathered [])) = [] := rfl
  rw [e] at hr
  cases e2 : readFieldsR fs (entriesR ms) [] with
  | error x =>
    rw [e2] at hr
    subst hr
    rfl
  | ok found =>
    rw [e2] at hr
    obtain ⟨rfl, rfl⟩ := hr
    simp only
    cases finishFieldsR found fs <;> rfl

/-- The same call. -/
def SameCall : ObjectCall → VCall RChild SerdeError → List (Str × Value) → Prop
  | .map, x, ms => x = .visitMap (entriesR ms)
  | .boxed s, x, _ => x = s.call
  | .list vs size, x, _ => x = .visitList (vs.map decodeR) size
  | .fail t, x, _ => ∃ e : SerdeError, x = .fail e ∧ e.text = t

theorem sameCall_boxed {e : Str} {T : RTy} {visit : Dyn → Option Scalar} {visitR : Dyn → VCall RChild SerdeError} {ms : List (Str × Value)}
    (hv : ∀ d, unboxR e T (entriesR ms) = .ok d → match visit d with
      | some s => visitR d = s.call
      | none => visitR d = .fail (.invalidType .unit [])) :
    SameCall (boxedCall e T visit ms) (unboxedR e T visitR (entriesR ms)) ms := by
  have e1 : boxedCall e T visit ms = match unboxR e T (entriesR ms) with
    | .ok d => match visit d with | some s => .boxed s | none => .fail (SerdeError.invalidType .unit []).text
    | .error e => .fail e.text := rfl
  rw [e1]
  unfold unboxedR
  cases h : unboxR e T (entriesR ms) with
  | error x => exact ⟨x, rfl, rfl⟩
  | ok d =>
    have := hv d h
    simp only
    cases h2 : visit d with
    | none =>
      rw [h2] at this
      exact ⟨_, this, rfl⟩
    | some s =>
      rw [h2] at this
      exact this

theorem unboxR_int {e : Str} {t : IntTy} {ms : List (Str × Value)} {d : Dyn} (h : unboxR e (.int t) (entriesR ms) = .ok d) :
    ∃ n, d = .int n ∧ t.min ≤ n := by
  unfold unboxR at h
  split at h
  · split at h
    · rename_i k c hc
      obtain ⟨v, rfl⟩ : ∃ v, c = decodeR v := by
        cases ms with
        | nil => simp [entriesR] at hc
        | cons m ms =>
          simp only [entriesR, List.map_cons, List.cons.injEq, Prod.mk.injEq] at hc
          exact ⟨m.2, hc.1.2.symm⟩
      cases hd : decodeR v (.int t) with
      | error x => rw [hd] at h; cases h
      | ok d' =>
        rw [hd] at h
        simp only at h
        split at h
        · cases h
          have : acceptR (.int t) (valueDeserR v).any = .ok d := hd
          cases hc : (valueDeserR v).any with
          | visitInt n =>
            rw [hc] at this
            simp only [acceptR] at this
            split at this
            · cases this; rename_i hb; exact ⟨n, rfl, hb.1⟩
            · cases this
          | _ => rw [hc] at this; simp [acceptR] at this
        · cases h
    · cases h
  · cases h

theorem get?_nodes (ms : List (Str × Value)) (k : Str) :
    AMap.get? (memberNodesR ms) k = (AMap.get? ms k).map fun v => ⟨v, decodeR v, itemsOfR v⟩ := by
  rw [memberNodesR_eq]
  induction ms with
  | nil => rfl
  | cons m ms ih =>
    simp only [List.map_cons, AMap.get?]
    by_cases h : m.1 = k
    · rw [if_pos h, if_pos h]; rfl
    · rw [if_neg h, if_neg h]; exact ih

theorem listMembers_nodes (ms : List (Str × Value)) :
    listMembersR (memberNodesR ms) = (listOf ms).map fun x => (x.1.map decodeR, x.2) := by
  unfold listMembersR listOf
  rw [get?_nodes, get?_nodes, get?_nodes, memberNodesR_eq, List.length_map]
  by_cases hl : ms.length = 3
  · rw [if_pos hl, if_pos hl]
    generalize AMap.get? ms (lit "_items") = a
    generalize AMap.get? ms (lit "_size") = b
    generalize AMap.get? ms (lit "_version") = c
    cases a with
    | none => rfl
    | some a =>
      cases a with
      | array vs =>
        cases b with
        | none => rfl
        | some b =>
          cases b with
          | int32 n =>
            cases c with
            | none => rfl
            | some c =>
              cases c with
              | int32 _ =>
                simp only [Option.map_some, itemsOfR, itemDesersR_eq]
              | _ => rfl
          | _ => rfl
      | _ => rfl
  · rw [if_neg hl, if_neg hl]; rfl

theorem object_call (c : Str) (l : Option Str) (ms : List (Str × Value)) :
    SameCall (objectCall c l ms) (objectAnyR c l (memberNodesR ms)) ms := by
  have hb : ∀ {e}, SameCall (boxedCall e .bool ofBool ms) (unboxedR e .bool visitBoolR (entriesR ms)) ms :=
    sameCall_boxed fun d _ => by cases d <;> rfl
  have hc : ∀ {e}, SameCall (boxedCall e .char ofChar ms) (unboxedR e .char visitCharR (entriesR ms)) ms :=
    sameCall_boxed fun d _ => by cases d <;> rfl
  have h32 : ∀ {e}, SameCall (boxedCall e .f32 ofF32 ms) (unboxedR e .f32 visitF32R (entriesR ms)) ms :=
    sameCall_boxed fun d _ => by cases d <;> rfl
  have h64 : ∀ {e}, SameCall (boxedCall e .f64 ofF64 ms) (unboxedR e .f64 visitF64R (entriesR ms)) ms :=
    sameCall_boxed fun d _ => by cases d <;> rfl
  have hi : ∀ {e t f}, (∀ n, (f n : Scalar).call = .visitInt n) →
      SameCall (boxedCall e (.int t) (ofInt f) ms) (unboxedR e (.int t) visitIntR (entriesR ms)) ms := by
    intro e t f hf
    refine sameCall_boxed fun d _ => ?_
    cases d with
    | int n => exact (hf n).symm
    | _ => rfl
  have hn : ∀ {e t f}, t.min = 0 → (∀ n : Nat, (f n : Scalar).call = .visitInt n) →
      SameCall (boxedCall e (.int t) (ofNat f) ms) (unboxedR e (.int t) visitIntR (entriesR ms)) ms := by
    intro e t f ht hf
    refine sameCall_boxed fun d hd => ?_
    obtain ⟨n, rfl, h0⟩ := unboxR_int hd
    show VCall.visitInt n = (f n.toNat).call
    rw [hf, Int.toNat_of_nonneg (by omega)]
  have e := entriesR_memberNodes ms
  unfold objectCall objectAnyR
  rw [e]
  refine ite_ind2' (fun a b => SameCall a b ms) rfl ?_
  refine ite_ind2' (fun a b => SameCall a b ms) hb ?_
  refine ite_ind2' (fun a b => SameCall a b ms) (hn rfl fun _ => rfl) ?_
  refine ite_ind2' (fun a b => SameCall a b ms) (hi fun _ => rfl) ?_
  refine ite_ind2' (fun a b => SameCall a b ms) hc ?_
  refine ite_ind2' (fun a b => SameCall a b ms) h64 ?_
  refine ite_ind2' (fun a b => SameCall a b ms) h32 ?_
  refine ite_ind2' (fun a b => SameCall a b ms) (hi fun _ => rfl) ?_
  refine ite_ind2' (fun a b => SameCall a b ms) (hn rfl fun _ => rfl) ?_
  refine ite_ind2' (fun a b => SameCall a b ms) (hi fun _ => rfl) ?_
  refine ite_ind2' (fun a b => SameCall a b ms) (hn rfl fun _ => rfl) ?_
  refine ite_ind2' (fun a b => SameCall a b ms) (hi fun _ => rfl) ?_
  refine ite_ind2' (fun a b => SameCall a b ms) (hn rfl fun _ => rfl) ?_
  refine ite_ind2' (fun a b => SameCall a b ms) ?_ rfl
  rw [listMembers_nodes]
  cases listOf ms with
  | none => exact ⟨_, rfl, rfl⟩
  | some x => rfl

theorem any_fits (T : RTy) (v : Value) (hT : ∀ name fs c l ms, T = .struct name fs → v ≠ .object c l ms)
    (ih : ∀ u : Value, sizeOf u < sizeOf v → Fits u) :
    VisitAny rust v (visitorOf T) (asText (acceptAny T (valueDeserR v).any)) := by
  cases v with
  | array vs =>
    rw [valueDeserR, itemDesersR_eq]
    exact array_fits T vs fun u hu => ih u (by
      have := List.sizeOf_lt_of_mem hu
      simp only [Value.array.sizeOf_spec]
      omega)
  | object c l ms =>
    have hm : ∀ m ∈ ms, sizeOf m.2 < sizeOf (Value.object c l ms) := by
      intro m hm
      have := List.sizeOf_lt_of_mem hm
      have h2 : sizeOf m = 1 + sizeOf m.1 + sizeOf m.2 := by cases m; rfl
      simp only [Value.object.sizeOf_spec]
      omega
    have hc := object_call c l ms
    have e : (valueDeserR (.object c l ms)).any = objectAnyR c l (memberNodesR ms) := by rw [valueDeserR]; rfl
    rw [e]
    generalize objectAnyR c l (memberNodesR ms) = x at hc
    cases e2 : objectCall c l ms with
    | map =>
      rw [e2] at hc
      cases hc
      exact .object e2 (map_fits T (fun name fs h => hT name fs c l ms h rfl) ms fun m h => ih m.2 (hm m h))
    | boxed s =>
      rw [e2] at hc
      cases hc
      rw [← scalar_fits]
      exact .boxed e2
    | fail t =>
      rw [e2] at hc
      obtain ⟨err, rfl, rfl⟩ := hc
      have : acceptAny T (.fail err) = .error err := by cases T <;> rfl
      rw [this]
      exact .fail e2
    | list vs size =>
      rw [e2] at hc
      cases hc
      obtain ⟨n, h1, -⟩ := objectCall_list e2
      have h2 := hm _ (listOf_items h1).1
      exact list_fits T e2 fun u hu => ih u (by
        have := List.sizeOf_lt_of_mem hu
        simp only [Value.array.sizeOf_spec] at h2
        omega)
  | _ =>
    rw [valueDeserR]
    refine Eq.mp (congrArg _ (scalar_fits T _)) (.scalar rfl)

theorem method_option {T : RTy} (h : ∀ T', T ≠ .option T') : methodOf T ≠ .option := by
  cases T with
  | option T => exact absurd rfl (h T)
  | int t => cases t <;> decide
  | _ => simp [methodOf]

theorem method_struct {T : RTy} (h : ∀ name fs, T ≠ .struct name fs) : methodOf T ≠ .struct := by
  cases T with
  | struct n fs => exact absurd rfl (h n fs)
  | int t => cases t <;> decide
  | _ => simp [methodOf]

theorem fits (v : Value) : Fits v := by
  suffices h : ∀ n (v : Value), sizeOf v < n → Fits v from h _ v (Nat.lt_succ_self _)
  intro n
  induction n with
  | zero => intro v hv; omega
  | succ n ih =>
    intro v hv T
    have ih' : ∀ u : Value, sizeOf u < sizeOf v → Fits u := fun u hu => ih u (by omega)
    have plain : ∀ T : RTy, (∀ T', T ≠ .option T') → (∀ name fs, T ≠ .struct name fs) →
        Deserialize rust v (.ty T) (asText (decodeR v T)) := by
      intro T h1 h2
      have := any_fits T v (fun name fs _ _ _ e => absurd e (h2 name fs)) ih'
      have e : acceptAny T (valueDeserR v).any = decodeR v T := by
        show _ = (valueDeserR v).runR T
        cases T with
        | option T => exact absurd rfl (h1 T)
        | struct n fs => exact absurd rfl (h2 n fs)
        | _ => rfl
      rw [e] at this
      exact .call (after := id) rfl (.any (method_option h1) (method_struct h2) this)
    suffices h : ∀ k (T : RTy), sizeOf T < k → Deserialize rust v (.ty T) (asText (decodeR v T)) from h _ T (Nat.lt_succ_self _)
    intro k
    induction k with
    | zero => intro T hk; omega
    | succ k ihk =>
    intro T hk
    cases T with
    | option T =>
      have ihT := ihk T (by simp at hk; omega)
      by_cases hn : v = .null
      · subst hn
        rw [decodeR_null]
        exact .call (after := id) rfl .none
      · rw [decodeR_some v hn]
        have : asText ((decodeR v T).map .some) = conclude id (conclude (fun r => r.map .some) (asText (decodeR v T))) := by
          cases decodeR v T <;> rfl
        rw [this]
        exact .call rfl (.some hn (.deserialize ihT))
    | struct name fs =>
      by_cases ho : ∃ c l ms, v = .object c l ms
      · obtain ⟨c, l, ms, rfl⟩ := ho
        rw [decodeR_struct]
        refine .call (after := id) rfl (.structObject (struct_fits name fs ms fun m hm => ih' m.2 ?_))
        have := List.sizeOf_lt_of_mem hm
        have h2 : sizeOf m = 1 + sizeOf m.1 + sizeOf m.2 := by cases m; rfl
        simp only [Value.object.sizeOf_spec]
        omega
      · have := any_fits (.struct name fs) v (fun _ _ c l ms _ e => ho ⟨c, l, ms, e⟩) ih'
        have e : acceptAny (.struct name fs) (valueDeserR v).any = decodeR v (.struct name fs) := by
          show acceptR _ (valueDeserR v).any = acceptR _ (valueDeserR v).struct
          cases v with
          | object c l ms => exact absurd ⟨c, l, ms, rfl⟩ ho
          | null => rw [valueDeserR]
          | _ => rw [valueDeserR]; rfl
        rw [e] at this
        exact .call (after := id) rfl (.struct (fun c l ms e => ho ⟨c, l, ms, e⟩) this)
    | _ => exact plain _ (by simp) (by simp)

/-- **C76** (values) What `SerdeText` says about the standard and derived types is what the crate does with their implementations of
`Deserialize`. -/
theorem C76 (v : Value) (T : RTy) (r : Res Dyn) : Deserialize rust v (.ty T) r ↔ r = asText (decodeR v T) :=
  ⟨fun h => deserialize_unique h _ (fits v T), by rintro rfl; exact fits v T⟩

/-- **C76** (boxed primitives) The same for the crate's boxed primitives and the members of an object. -/
theorem C76_boxed (expected : Str) (T : RTy) (ms : List (Str × Value)) (r : Res Dyn) :
    VisitMap rust .borrowedStr ms (boxedVisitor expected T) r ↔
      r = asText (unboxR expected T (ms.map fun m => (m.1, decodeR m.2))) :=
  ⟨fun h => visitMap_unique h _ (boxed_fits expected T ms fun m _ => fits m.2), by rintro rfl; exact boxed_fits expected T ms fun m _ => fits m.2⟩

theorem message_fits (m : RemotingMessage) (T : RTy) : DeserializeMessage rust m (.ty T) (asText (messageR m T)) := by
  cases m with
  | methodCall c => exact .methodCall (m := methodOf T) (V := visitorOf T) (after := id) rfl
  | methodReturn c => exact .methodReturn (m := methodOf T) (V := visitorOf T) (after := id) rfl
  | value v =>
    have hany := any_fits T v
    cases T with
    | struct name fs =>
      have := (C76 v (.struct name fs) _).mpr rfl
      generalize hr : asText (decodeR v (.struct name fs)) = r at this
      have e : messageR (.value v) (.struct name fs) = decodeR v (.struct name fs) := rfl
      rw [e, hr]
      cases this with
      | ignore h => cases h
      | call h g => cases h; exact .struct (after := id) rfl g
    | option T =>
      have e : messageR (.value v) (.option T) = acceptAny (.option T) (valueDeserR v).any := by
        have : ∀ c l ms, objectAnyR c l (memberNodesR ms) ≠ .visitSome := by
          intro c l ms
          have h := object_call c l ms
          generalize objectAnyR c l (memberNodesR ms) = x at h
          generalize objectCall c l ms = y at h
          cases y with
          | map => rw [show x = _ from h]; simp
          | boxed s => rw [show x = _ from h]; cases s <;> simp [Scalar.call]
          | list => rw [show x = _ from h]; simp
          | fail => obtain ⟨e, rfl, -⟩ := h; simp
        show Deser.runR ⟨(valueDeserR v).any, (valueDeserR v).any, (valueDeserR v).struct⟩ (.option T) = _
        cases v with
        | object c l ms =>
          have e1 : (valueDeserR (.object c l ms)).any = objectAnyR c l (memberNodesR ms) := by rw [valueDeserR]; rfl
          rw [e1]
          have h := this c l ms
          cases h2 : objectAnyR c l (memberNodesR ms) with
          | visitSome => exact absurd h2 h
          | _ => rfl
        | _ => rw [valueDeserR]; rfl
      rw [e]
      exact .any (after := id) (m := .option) rfl (by decide) (hany (by simp) fun u _ => fits u)
    | _ =>
      exact .any (after := id) rfl (method_struct (by simp)) (hany (by simp) fun u _ => fits u)

/-- **C76** (messages) -/
theorem C76_message (m : RemotingMessage) (T : RTy) (r : Res Dyn) : DeserializeMessage rust m (.ty T) r ↔ r = asText (messageR m T) :=
  ⟨fun h => message_unique h (message_fits m T), by rintro rfl; exact message_fits m T⟩

/-- **C76** (`from_slice`) -/
theorem C76_from_slice (T : RTy) (w : Bytes) (r : Res Dyn) : FromSlice rust w (.ty T) r ↔
    (∃ d, fromSliceR T w = .ok d ∧ r = .ok d) ∨ ∃ e, fromSliceR T w = .err e ∧ r = .error e.text := by
  have hh : fromSliceR T w ≠ .hang := by
    intro h
    have e := C64_erase T w
    rw [h] at e
    exact C51_fromSlice T.erase w e.symm
  have hok : ∀ m, deserialize w = .ok m → fromSliceR T w = match messageR m T with
      | .ok d => .ok d
      | .error e => .err e := by
    intro m hm
    unfold fromSliceR at hh ⊢
    rw [hm] at hh ⊢
    simp only at hh ⊢
    cases hmr : messageR m T with
    | ok d => rfl
    | error e =>
      rw [hmr] at hh
      cases e <;> first | rfl | exact absurd rfl hh
  constructor
  · intro h
    cases h with
    | ok hd hm =>
      rw [hok _ hd, (C76_message _ _ _).mp hm]
      cases messageR _ T with
      | ok d => exact .inl ⟨d, rfl, rfl⟩
      | error e => exact .inr ⟨e, rfl, rfl⟩
    | parsing hd =>
      refine .inr ⟨_, ?_, rfl⟩
      unfold fromSliceR
      rw [hd]
  · intro h
    cases hd : deserialize w with
    | ok m =>
      rw [hok m hd] at h
      refine .ok hd ((C76_message m T r).mpr ?_)
      cases hm : messageR m T with
      | ok d =>
        rw [hm] at h
        rcases h with ⟨d', e, rfl⟩ | ⟨e', e, rfl⟩
        · cases e; rfl
        · cases e
      | error x =>
        rw [hm] at h
        rcases h with ⟨d', e, rfl⟩ | ⟨e', e, rfl⟩
        · cases e
        · cases e; rfl
    | err x =>
      have e : fromSliceR T w = .err (.parsing x) := by unfold fromSliceR; rw [hd]
      rw [e] at h
      rcases h with ⟨d', e, rfl⟩ | ⟨e', e, rfl⟩
      · cases e
      · cases e; exact .parsing hd
    | panic =>
      have e : fromSliceR T w = .panic := by unfold fromSliceR; rw [hd]
      rw [e] at h
      rcases h with ⟨d', e, rfl⟩ | ⟨e', e, rfl⟩ <;> cases e
    | hang => exact absurd hd (C01_terminates w)

/-- After an error or the end, `seqAll` returns. -/
theorem seqAll_finish (T : RTy) (done : List Dyn → Dyn) (h : List (Res (Option Dyn))) {a : Res (Option Dyn)} (ha : ¬ Got a) :
    ∃ r, seqAll T done (h ++ [a]) = .finish r := by
  unfold seqAll
  rw [List.getLast?_concat]
  match a with
  | .ok (some x) => exact absurd ⟨x, rfl⟩ ha
  | .ok none => exact ⟨_, rfl⟩
  | .error e => exact ⟨_, rfl⟩

theorem seqEach_finish (e : Str) (Ts : List RTy) (done : List Dyn → Dyn) (h : List (Res (Option Dyn))) {a : Res (Option Dyn)}
    (ha : ¬ Got a) : ∃ r, seqEach e Ts done (h ++ [a]) = .finish r := by
  unfold seqEach
  rw [List.getLast?_concat]
  match a with
  | .ok (some x) => exact absurd ⟨x, rfl⟩ ha
  | .ok none => exact ⟨_, rfl⟩
  | .error e => exact ⟨_, rfl⟩

theorem seqOf_finish (T : RTy) (h : List (Res (Option Dyn))) {a : Res (Option Dyn)} (ha : ¬ Got a) :
    ∃ r, seqOf T (h ++ [a]) = .finish r := by
  unfold seqOf
  split
  all_goals first
    | exact seqAll_finish _ _ h ha
    | exact seqEach_finish _ _ _ h ha
    | exact ⟨_, rfl⟩

theorem mapAll_finish (K T : RTy) (done : List (Dyn × Dyn) → Dyn) (h : List (Res (Option Dyn))) {a : Res (Option Dyn)}
    (ha : ¬ Got a) : ∃ r, mapAll K T done (h ++ [a]) = .finish r := by
  unfold mapAll
  rw [List.getLast?_concat]
  match a with
  | .ok (some x) => exact absurd ⟨x, rfl⟩ ha
  | .ok none => exact ⟨_, rfl⟩
  | .error e => exact ⟨_, rfl⟩

theorem mapFields_finish (fs : List (Str × RTy)) (h : List (Res (Option Dyn))) {a : Res (Option Dyn)}
    (ha : ¬ Got a) : ∃ r, mapFields fs (h ++ [a]) = .finish r := by
  unfold mapFields
  rw [List.getLast?_concat]
  match a with
  | .ok (some x) => exact absurd ⟨x, rfl⟩ ha
  | .ok none => exact ⟨_, rfl⟩
  | .error e => exact ⟨_, rfl⟩

theorem mapOf_finish (T : RTy) (h : List (Res (Option Dyn))) {a : Res (Option Dyn)} (ha : ¬ Got a) :
    ∃ r, mapOf T (h ++ [a]) = .finish r := by
  unfold mapOf
  split
  all_goals first
    | exact mapAll_finish _ _ _ h ha
    | exact mapFields_finish _ h ha
    | exact ⟨_, rfl⟩

theorem mapBoxed_finish (e : Str) (T : RTy) (n : Nat) (h : List (Res (Option Dyn))) {a : Res (Option Dyn)} (ha : ¬ Got a) :
    ∃ r, mapBoxed e T n (h ++ [a]) = .finish r := by
  unfold mapBoxed
  by_cases hn : n = 1
  · simp only [if_pos hn]
    split
    · rename_i hh; simp at hh
    · rename_i x hh
      have : a = .ok (some x) := by
        have := congrArg List.getLast? hh
        rw [List.getLast?_concat] at this
        simpa using this
      exact absurd ⟨x, this⟩ ha
    · rename_i k x hh
      have : a = .ok (some x) := by
        have := congrArg List.getLast? hh
        rw [List.getLast?_concat] at this
        simpa using this
      exact absurd ⟨x, this⟩ ha
    · exact ⟨_, rfl⟩
    · rename_i k y x hh
      have : a = .ok (some x) := by
        have := congrArg List.getLast? hh
        rw [List.getLast?_concat] at this
        simpa using this
      exact absurd ⟨x, this⟩ ha
    · split <;> exact ⟨_, rfl⟩
  · simp only [if_neg hn]
    exact ⟨_, rfl⟩

theorem mapAll_asks (K T : RTy) (done : List (Dyn × Dyn) → Dyn) (h : List (Res (Option Dyn))) (hg : ∀ a ∈ h, Got a) :
    mapAll K T done h = if h.length % 2 = 0 then .key (.ty K) else .value (.ty T) := by
  unfold mapAll
  rcases List.eq_nil_or_concat h with rfl | ⟨h', a, rfl⟩
  · rfl
  · rw [List.concat_eq_append] at hg ⊢
    obtain ⟨x, rfl⟩ := hg a (by simp)
    rw [List.getLast?_concat]

theorem mapAll_value (K T : RTy) (done : List (Dyn × Dyn) → Dyn) (h : List (Res (Option Dyn))) (hg : ∀ a ∈ h, Got a) {j : Goal}
    (hv : mapAll K T done h = .value j) : ∃ h' a j', h = h' ++ [a] ∧ mapAll K T done h' = .key j' := by
  rcases List.eq_nil_or_concat h with rfl | ⟨h', a, rfl⟩
  · cases hv
  · rw [List.concat_eq_append] at hg hv ⊢
    refine ⟨h', a, .ty K, rfl, ?_⟩
    rw [mapAll_asks K T done _ hg] at hv
    rw [mapAll_asks K T done h' fun b hb => hg b (by simp [hb])]
    by_cases he : h'.length % 2 = 0
    · rw [if_pos he]
    · rw [List.length_append, List.length_singleton, if_pos (by omega)] at hv
      cases hv

theorem mapFields_value (fs : List (Str × RTy)) (h : List (Res (Option Dyn))) (hg : ∀ a ∈ h, Got a) {j : Goal}
    (hv : mapFields fs h = .value j) : ∃ h' a j', h = h' ++ [a] ∧ mapFields fs h' = .key j' := by
  rcases List.eq_nil_or_concat h with rfl | ⟨h', a, rfl⟩
  · cases hv
  · rw [List.concat_eq_append] at hg hv ⊢
    refine ⟨h', a, .field fs, rfl, ?_⟩
    have odd : (h' ++ [a]).length % 2 = 1 := by
      rcases Nat.mod_two_eq_zero_or_one (h' ++ [a]).length with e | e
      · obtain ⟨x, rfl⟩ := hg a (by simp)
        unfold mapFields at hv
        rw [List.getLast?_concat] at hv
        simp only [if_pos e] at hv
        cases hv
      · exact e
    rw [List.length_append, List.length_singleton] at odd
    rcases List.eq_nil_or_concat h' with rfl | ⟨h'', b, rfl⟩
    · rfl
    · rw [List.concat_eq_append] at hg hv odd ⊢
      obtain ⟨x, rfl⟩ := hg b (by simp)
      unfold mapFields
      rw [List.getLast?_concat]
      simp only
      rw [if_pos (by omega)]

theorem mapBoxed_value (e : Str) (T : RTy) (n : Nat) (h : List (Res (Option Dyn))) (hg : ∀ a ∈ h, Got a) {j : Goal}
    (hv : mapBoxed e T n h = .value j) : ∃ h' a j', h = h' ++ [a] ∧ mapBoxed e T n h' = .key j' := by
  unfold mapBoxed at hv
  by_cases hn : n = 1
  · simp only [if_pos hn] at hv
    split at hv
    · cases hv
    · refine ⟨[], _, .ty .str, rfl, ?_⟩
      unfold mapBoxed
      rw [if_pos hn]
    · rcases ite_cases hv with ⟨_, e⟩ | ⟨_, e⟩ <;> cases e
    · cases hv
    · rename_i k y x
      rcases ite_cases hv with ⟨hk, _⟩ | ⟨_, e⟩
      · refine ⟨[.ok (some k), .ok (some y)], _, .ty .str, rfl, ?_⟩
        unfold mapBoxed
        simp only [if_pos hn]
        rw [if_pos hk]
      · cases e
    · split at hv <;> cases hv
  · simp only [if_neg hn] at hv
    cases hv

/-- The depth of nested options. -/
def optionRank : RTy → Nat
  | .option T => optionRank T + 1
  | _ => 0

/-- **C76** (orderly) The standard and derived types are orderly: C75 applies to them. -/
theorem C76_orderly : Orderly rust where
  seq := by
    intro i m V f e h a ha
    cases i <;> cases e
    · exact seqOf_finish _ h ha
    · exact ⟨_, rfl⟩
    · exact ⟨_, rfl⟩
  map := by
    intro i m V f e n h a ha
    cases i <;> cases e
    · exact mapOf_finish _ h ha
    · exact ⟨_, rfl⟩
    · exact mapBoxed_finish _ _ n h ha
  value := by
    intro i m V f e n h j hg hv
    cases i with
    | ty T =>
      cases e
      change mapOf T h = _ at hv
      change ∃ h' a j', h = h' ++ [a] ∧ mapOf T h' = .key j'
      cases T with
      | map T => exact mapAll_value .string T (fun es => .map (es.map fun (e : Dyn × Dyn) => (keyOf e.1, e.2))) h hg hv
      | struct name fs => exact mapFields_value fs h hg hv
      | ignored => exact mapAll_value .ignored .ignored (fun _ => .ignored) h hg hv
      | any => exact mapAll_value .any .any (fun es => .map (es.map fun (e : Dyn × Dyn) => (keyOf e.1, e.2))) h hg hv
      | _ => cases hv
    | field fs => cases e; cases hv
    | boxed x T => cases e; exact mapBoxed_value x T n h hg hv
  option := by
    refine ⟨fun i => match i with | .ty T => optionRank T | _ => 0, ?_⟩
    intro i V f j g e hs
    cases i with
    | ty T =>
      cases T with
      | option T => cases e; cases hs; exact Nat.lt_succ_self _
      | int w => cases w <;> cases e
      | _ => cases e
    | field fs => cases e
    | boxed x T =>
      have eV : boxedVisitor x T = V := by injection e
      rw [← eV] at hs
      cases hs

/-- A case: `Vec<Option<i32>>` from an array with a null, through the visitors. -/
example (r : Res Dyn) : Deserialize rust (.array [.int32 1, .null]) (.ty (.vec (.option (.int .i32)))) r ↔
    r = .ok (.seq [.some (.int 1), .none]) := by
  rw [C76]
  have e : decodeR (.array [.int32 1, .null]) (.vec (.option (.int .i32))) = .ok (.seq [.some (.int 1), .none]) := by
    simp [decodeR, asText]
    rfl
  rw [e]
  rfl

end

end Nrbf.Visitors
