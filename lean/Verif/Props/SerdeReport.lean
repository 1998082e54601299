import Verif.Lemmas.ReportedValue

/-! # C64: what is reported when a value cannot be read at a type -/

set_option autoImplicit false

namespace Nrbf

open Spec

variable [Platform] [FloatLib]

/-! ## Reading and its relation -/

theorem reads_iff {v : Value} (hv : Sane v) {T : RTy} (hT : T.erase.Proper) :
    Reads v T ↔ ∃ d, decodeR v T = .ok d :=
  ⟨fun ⟨d, h⟩ => ⟨d, decodeR_ok.mpr ((C58 v hv _ hT d).mpr h)⟩, fun ⟨d, h⟩ => ⟨d, (C58 v hv _ hT d).mp (decodeR_ok.mp h)⟩⟩

omit [FloatLib] in
theorem proper_option {T : RTy} (h : (RTy.option T).erase.Proper) : T.erase.Proper := by
  rw [RTy.erase] at h; cases h; assumption

omit [FloatLib] in
theorem proper_map {T : RTy} (h : (RTy.map T).erase.Proper) : T.erase.Proper := by
  rw [RTy.erase] at h; cases h; assumption

omit [FloatLib] in
theorem proper_ignored : RTy.ignored.erase.Proper := by rw [RTy.erase]; exact .ignored

omit [FloatLib] in
theorem proper_any : RTy.any.erase.Proper := by rw [RTy.erase]; exact .any

omit [FloatLib] in
theorem proper_repeats {T S : RTy} (h : Repeats T S) (hT : T.erase.Proper) : S.erase.Proper := by
  cases h with
  | vec => rw [RTy.erase] at hT; cases hT; assumption
  | ignored => exact proper_ignored
  | any => exact proper_any

omit [FloatLib] in
theorem proper_slots {T : RTy} {Ss : List RTy} {e : Str} (h : Slots T Ss e) (hT : T.erase.Proper) :
    ∀ S ∈ Ss, S.erase.Proper := by
  cases h with
  | array n T =>
    intro S hS
    obtain ⟨h1, rfl⟩ := List.mem_replicate.mp hS
    rw [RTy.erase] at hT
    cases hT with
    | tuple h => exact h _ (List.mem_replicate.mpr ⟨h1, rfl⟩)
  | tuple Ts =>
    intro S hS
    rw [RTy.erase, eraseAll_eq] at hT
    cases hT with
    | tuple h => exact h _ (List.mem_map_of_mem hS)
  | newtype name T =>
    intro S hS
    rw [List.mem_singleton.mp hS]
    rw [RTy.erase] at hT; cases hT; assumption

omit [FloatLib] in
theorem proper_struct {name : Str} {fs : List (Str × RTy)} (h : (RTy.struct name fs).erase.Proper) :
    (fs.map Prod.fst).Nodup ∧ ∀ f ∈ fs, f.2.erase.Proper := by
  rw [RTy.erase] at h
  cases h with
  | struct h1 h2 =>
    rw [eraseFields_keys] at h1
    refine ⟨h1, fun f hf => ?_⟩
    rw [eraseFields_eq] at h2
    exact h2 _ (List.mem_map_of_mem (f := fun f : Str × RTy => (f.1, f.2.erase)) hf)

omit [FloatLib] in
theorem Sane.list {v : Value} {items : List Value} {size : Int} (h : Sane v) (hl : IsList v items size) :
    (∀ u ∈ items, Sane u) ∧ InSigned 4 size := by
  refine ⟨?_, (isList_shaped h.shaped hl).1⟩
  obtain ⟨cls, ms, version, rfl, -, -, -, hm, -⟩ := hl
  exact fun u hu => (h.member hm).item hu

omit [FloatLib] in
theorem Sane.sequence {v : Value} {vs : List Value} (h : Sane v) (hv : Sequence v vs) : ∀ u ∈ vs, Sane u := by
  cases hv with
  | array => exact fun u hu => h.item hu
  | list hl => exact fun u hu => (h.list hl).1 u (List.mem_of_mem_take hu)

omit [Platform] [FloatLib] in
theorem inArray_eq (n : Nat) : expectedInArray n = elements n ++ lit " in array" := by
  unfold expectedInArray elements
  by_cases h : n = 1
  · subst h; decide
  · rw [if_neg h, if_neg h, List.append_assoc]; congr 1

omit [Platform] [FloatLib] in
theorem inList_eq (n : Nat) : expectedInList n = elements n ++ lit " in list" := by
  unfold expectedInList elements
  by_cases h : n = 1
  · subst h; decide
  · rw [if_neg h, if_neg h, List.append_assoc]; congr 1

omit [Platform] [FloatLib] in
theorem map_error_iff {α β : Type} {x : TextResult α} {f : α → β} {r : SerdeError} : x.map f = .error r ↔ x = .error r := by
  cases x <;> simp [Except.map]

/-! ## Sequences -/

theorem array_repeats (vs : List Value) {T S : RTy} (h : Repeats T S) (r : SerdeError) :
    decodeR (.array vs) T = .error r ↔ firstErr S vs = some r := by
  cases h with
  | vec => rw [decodeR_array _ (by simp), acceptR, map_error_iff, visitArrayR_all]
  | ignored => rw [decodeR_array _ (by simp), acceptR, map_error_iff, visitArrayR_all]
  | any => rw [decodeR_array _ (by simp), acceptR, map_error_iff, visitArrayR_all]

theorem decodeR_list {v : Value} {items : List Value} {size : Int} (hz : InSigned 4 size) (h : IsList v items size)
    {T : RTy} (hT : ¬ ByItself T) : decodeR v T = acceptR T (.visitList (items.map decodeR) (unsignedSize size)) := by
  obtain ⟨cls, ms, rfl, ho⟩ := objectAnyR_list h
  rw [decodeR_object _ _ _ hT, ho, asUsize_unsigned hz]

/-- The error of a list at a type of any number of elements. -/
def ListErr (S : RTy) (items : List Value) (n : Nat) (r : SerdeError) : Prop :=
  firstErr S (items.take n) = some r ∨
    (firstErr S items = none ∧ items.length + 1 < n ∧ r = .invalidLength n (elements (items.length + 1) ++ lit " in list"))

theorem list_repeats {items : List Value} {n : Nat} {T S : RTy} (h : Repeats T S) (r : SerdeError) :
    acceptR T (.visitList (items.map decodeR) n) = .error r ↔ ListErr S items n r := by
  unfold ListErr
  rw [← inList_eq]
  cases h with
  | vec => rw [acceptR, map_error_iff, visitListR_all]
  | ignored => rw [acceptR, map_error_iff, visitListR_all]
  | any => rw [acceptR, map_error_iff, visitListR_all]

omit [Platform] [FloatLib] in
theorem newtype_text (name : Str) : lit "tuple struct " ++ name ++ lit " with 1 element" =
    withElements (lit "tuple struct " ++ name) 1 := by
  show _ = (lit "tuple struct " ++ name) ++ lit " with " ++ lit "1 element"
  rw [List.append_assoc (lit "tuple struct " ++ name)]
  rfl

theorem array_slots (vs : List Value) {T : RTy} {Ts : List RTy} {e : Str} (h : Slots T Ts e) (r : SerdeError) :
    decodeR (.array vs) T = .error r ↔ eachErr e 0 Ts vs = some r ∨
      (eachErr e 0 Ts vs = none ∧ Ts.length < vs.length ∧
        r = .invalidLength vs.length (elements Ts.length ++ lit " in array")) := by
  rw [← inArray_eq]
  cases h with
  | array => rw [decodeR_array _ (by simp), acceptR, map_error_iff, visitArrayR_each]
  | tuple => rw [decodeR_array _ (by simp), acceptR, map_error_iff, visitArrayR_each]
  | newtype => rw [decodeR_array _ (by simp), acceptR, map_error_iff, visitArrayR_each, newtype_text]; rfl

theorem list_slots {items : List Value} {n : Nat} {T : RTy} {Ts : List RTy} {e : Str} (h : Slots T Ts e)
    (r : SerdeError) : acceptR T (.visitList (items.map decodeR) n) = .error r ↔ eachErr e 0 Ts (items.take n) = some r ∨
      (eachErr e 0 Ts (items.take n) = none ∧ Ts.length < n ∧
        r = .invalidLength n (elements Ts.length ++ lit " in list")) := by
  rw [← inList_eq]
  cases h with
  | array => rw [acceptR, map_error_iff, visitListR_each]
  | tuple => rw [acceptR, map_error_iff, visitListR_each]
  | newtype => rw [acceptR, map_error_iff, visitListR_each, newtype_text]; rfl

theorem array_struct (vs : List Value) (name : Str) (fs : List (Str × RTy)) (r : SerdeError) :
    decodeR (.array vs) (.struct name fs) = .error r ↔
      eachErr (lit "struct " ++ name ++ lit " with " ++ elements fs.length) 0 (fs.map Prod.snd) vs = some r ∨
      (eachErr (lit "struct " ++ name ++ lit " with " ++ elements fs.length) 0 (fs.map Prod.snd) vs = none ∧
        fs.length < vs.length ∧ r = .invalidLength vs.length (elements fs.length ++ lit " in array")) := by
  rw [← inArray_eq, decodeR_array _ (by simp), acceptR, map_error_iff, visitArrayR_each, List.length_map]
  rfl

omit [Platform] [FloatLib] in
theorem takesSequence_cases {T : RTy} (h : TakesSequence T) : (∃ S, Repeats T S) ∨ (∃ Ss e, Slots T Ss e) ∨ ByItself T := by
  cases T <;> first
    | exact h.elim
    | exact .inl ⟨_, .vec _⟩
    | exact .inl ⟨_, .ignored⟩
    | exact .inl ⟨_, .any⟩
    | exact .inr (.inl ⟨_, _, .array _ _⟩)
    | exact .inr (.inl ⟨_, _, .tuple _⟩)
    | exact .inr (.inl ⟨_, _, .newtype _ _⟩)
    | exact .inr (.inr trivial)

/-! ## From the code to the relation -/

/-- Every error of the value is in the relation. -/
def Reported (v : Value) : Prop :=
  Sane v → ∀ T, T.erase.Proper → ∀ r, decodeR v T = .error r → Fails v T r

theorem firstErr_fails {S : RTy} (hS : S.erase.Proper) {vs : List Value} (hv : ∀ u ∈ vs, Sane u ∧ Reported u) {r : SerdeError}
    (h : firstErr S vs = some r) :
    ∃ before w after, vs = before ++ w :: after ∧ (∀ u ∈ before, Reads u S) ∧ Fails w S r := by
  obtain ⟨b, w, a, rfl, h1, h2⟩ := firstErr_some.mp h
  refine ⟨b, w, a, rfl, fun u hu => (reads_iff (hv u (by simp [hu])).1 hS).mpr (h1 u hu), ?_⟩
  exact (hv w (by simp)).2 (hv w (by simp)).1 S hS r h2

theorem okEach_reads {vs : List Value} {Ts : List RTy} (hv : ∀ u ∈ vs, Sane u) (hT : ∀ S ∈ Ts, S.erase.Proper) :
    OkEach vs Ts ↔ ReadsEach vs Ts := by
  refine and_congr_right fun _ => forall_congr' fun p => forall_congr' fun hp => ?_
  obtain ⟨h1, h2⟩ := List.of_mem_zip (a := p.1) (b := p.2) hp
  exact (reads_iff (hv _ h1) (hT _ h2)).symm

theorem eachErr_fails {e : Str} {Ts : List RTy} (hT : ∀ S ∈ Ts, S.erase.Proper) {vs : List Value}
    (hv : ∀ u ∈ vs, Sane u ∧ Reported u) {r : SerdeError} (h : eachErr e 0 Ts vs = some r) :
    (∃ before w after Ss S Ss', vs = before ++ w :: after ∧ Ts = Ss ++ S :: Ss' ∧ ReadsEach before Ss ∧ Fails w S r) ∨
      ∃ Ss Ss', Ts = Ss ++ Ss' ∧ Ss' ≠ [] ∧ ReadsEach vs Ss ∧ r = .invalidLength vs.length e := by
  rcases eachErr_some.mp h with ⟨b, w, a, Ss, S, Ss', rfl, rfl, h3, h4⟩ | ⟨Ss, Ss', rfl, h2, h3, rfl⟩
  · refine .inl ⟨b, w, a, Ss, S, Ss', rfl, rfl, (okEach_reads ?_ ?_).mp h3, ?_⟩
    · exact fun u hu => (hv u (by simp [hu])).1
    · exact fun u hu => hT u (by simp [hu])
    · exact (hv w (by simp)).2 (hv w (by simp)).1 S (hT S (by simp)) r h4
  · refine .inr ⟨Ss, Ss', rfl, h2, (okEach_reads ?_ ?_).mp h3, by simp⟩
    · exact fun u hu => (hv u hu).1
    · exact fun u hu => hT u (by simp [hu])

theorem array_sound {vs : List Value} (hv : ∀ u ∈ vs, Sane u ∧ Reported u) {T : RTy} (hT : T.erase.Proper)
    (ho : ∀ T', T ≠ .option T') {r : SerdeError} (h : decodeR (.array vs) T = .error r) : Fails (.array vs) T r := by
  by_cases ht : TakesSequence T
  · rcases takesSequence_cases ht with ⟨S, hr⟩ | ⟨Ss, e, hs⟩ | hb
    · rw [array_repeats _ hr] at h
      obtain ⟨b, w, a, rfl, h1, h2⟩ := firstErr_fails (proper_repeats hr hT) hv h
      exact .element (.array _) hr h1 h2
    · rw [array_slots _ hs] at h
      rcases h with h | ⟨h, hlt, rfl⟩
      · rcases eachErr_fails (proper_slots hs hT) hv h with ⟨b, w, a, Ss, S, Ss', rfl, rfl, h3, h4⟩ | ⟨Ss, Ss', rfl, h2, h3, rfl⟩
        · exact .slot (.array _) hs h3 h4
        · exact .short (.array _) hs h2 h3
      · obtain ⟨us, more, rfl, h3⟩ := eachErr_none.mp h
        rw [← h3.1, List.length_append]
        have hm : more ≠ [] := by rintro rfl; simp [h3.1] at hlt
        exact .long hs ((okEach_reads (fun u hu => (hv u (by simp [hu])).1) (proper_slots hs hT)).mp h3) hm
    · cases T with
      | option => exact absurd rfl (ho _)
      | struct name fs =>
        have hp : ∀ S ∈ fs.map Prod.snd, S.erase.Proper := by
          intro S hS
          obtain ⟨f, hf, rfl⟩ := List.mem_map.mp hS
          exact (proper_struct hT).2 f hf
        rw [array_struct] at h
        rcases h with h | ⟨h, hlt, rfl⟩
        · rcases eachErr_fails hp hv h with ⟨b, w, a, Ss, S, Ss', rfl, h2, h3, h4⟩ | ⟨Ss, Ss', h1, h2, h3, rfl⟩
          · obtain ⟨fs1, fs2, rfl, rfl, h5⟩ := List.map_eq_append_iff.mp h2
            obtain ⟨f, fs3, rfl, rfl, rfl⟩ := List.map_eq_cons_iff.mp h5
            exact .structSlot h3 h4
          · obtain ⟨fs1, fs2, rfl, rfl, rfl⟩ := List.map_eq_append_iff.mp h1
            exact .structShort h3 (by rintro rfl; exact h2 rfl)
        · obtain ⟨us, more, rfl, h3⟩ := eachErr_none.mp h
          have hl : us.length = fs.length := by simpa using h3.1
          rw [← hl, List.length_append]
          have hm : more ≠ [] := by rintro rfl; simp [hl] at hlt
          exact .structLong ((okEach_reads (fun u hu => (hv u (by simp [hu])).1) hp).mp h3) hm
      | _ => exact hb.elim
  · have : decodeR (.array vs) T = .error (.invalidType .seq T.expecting) := by
      rw [decodeR_array _ ho]
      cases T <;> first | rfl | exact absurd trivial ht
    rw [this] at h
    cases h
    exact .sequence (.array vs) ht

theorem list_sound {v : Value} {items : List Value} {size : Int} (hv : Sane v) (hl : IsList v items size)
    (hi : ∀ u ∈ items, Reported u) {T : RTy} (hT : T.erase.Proper) (hb : ¬ ByItself T) {r : SerdeError}
    (h : decodeR v T = .error r) : Fails v T r := by
  have hi' : ∀ u ∈ items, Sane u ∧ Reported u := fun u hu => ⟨(hv.list hl).1 u hu, hi u hu⟩
  have hi'' : ∀ n, ∀ u ∈ items.take n, Sane u ∧ Reported u := fun n u hu => hi' u (List.mem_of_mem_take hu)
  rw [decodeR_list (hv.list hl).2 hl hb] at h
  by_cases ht : TakesSequence T
  · rcases takesSequence_cases ht with ⟨S, hr⟩ | ⟨Ss, e, hs⟩ | hb'
    · rcases (list_repeats hr r).mp h with h | ⟨h1, h2, rfl⟩
      · obtain ⟨b, w, a, h0, h1, h2⟩ := firstErr_fails (proper_repeats hr hT) (hi'' _) h
        exact .element (h0 ▸ Sequence.list hl) hr h1 h2
      · exact .listShort hl hr (fun u hu => (reads_iff (hi' u hu).1 (proper_repeats hr hT)).mpr (firstErr_none.mp h1 u hu)) h2
    · rcases (list_slots hs r).mp h with h | ⟨h', hlt, rfl⟩
      · rcases eachErr_fails (proper_slots hs hT) (hi'' _) h with
          ⟨b, w, a, Ss, S, Ss', h0, rfl, h3, h4⟩ | ⟨Ss, Ss', rfl, h2, h3, rfl⟩
        · exact .slot (h0 ▸ Sequence.list hl) hs h3 h4
        · exact .short (.list hl) hs h2 h3
      · obtain ⟨us, more, h0, h3⟩ := eachErr_none.mp h'
        have h5 : items = us ++ (more ++ items.drop (unsignedSize size)) := by
          rw [← List.append_assoc, ← h0, List.take_append_drop]
        have h4 := (okEach_reads (fun u hu => (hi'' (unsignedSize size) u (by rw [h0]; simp [hu])).1) (proper_slots hs hT)).mp h3
        rw [← h3.1] at hlt ⊢
        exact .longList (h5 ▸ hl) hs h4 hlt
    · exact absurd hb' hb
  · have : acceptR T (.visitList (items.map decodeR) (unsignedSize size)) = .error (.invalidType .seq T.expecting) := by
      cases T <;> first | rfl | exact absurd trivial ht
    rw [this] at h
    cases h
    exact .sequence (.list hl) ht

/-! ## Objects -/

omit [Platform] [FloatLib] in
theorem memberType_field {fs : List (Str × RTy)} (hn : (fs.map Prod.fst).Nodup) {k : Str} {T : RTy} (h : (k, T) ∈ fs) :
    memberType fs k = T := by
  unfold memberType fieldTypeR
  induction fs with
  | nil => cases h
  | cons f fs ih =>
    simp only [List.map_cons, List.nodup_cons] at hn
    rcases List.mem_cons.mp h with rfl | h
    · simp
    · have : f.1 ≠ k := fun e => hn.1 (e ▸ List.mem_map_of_mem (f := Prod.fst) h)
      simpa [List.find?_cons, this] using ih hn.2 h

omit [Platform] [FloatLib] in
theorem fieldTypeR_none {fs : List (Str × RTy)} {k : Str} : fieldTypeR fs k = none ↔ k ∉ fs.map Prod.fst := by
  unfold fieldTypeR
  simp only [Option.map_eq_none_iff, List.find?_eq_none, decide_eq_true_eq, List.mem_map, not_exists, not_and]

omit [Platform] [FloatLib] in
theorem memberType_unknown {fs : List (Str × RTy)} {k : Str} (h : k ∉ fs.map Prod.fst) : memberType fs k = .ignored := by
  unfold memberType
  rw [fieldTypeR_none.mpr h]; rfl

theorem fieldErr_some {fs : List (Str × RTy)} {ms : List (Str × Value)} {r : SerdeError} : fieldErr fs ms = some r ↔
    ∃ before k w after, ms = before ++ (k, w) :: after ∧ (∀ m ∈ before, ∃ d, decodeR m.2 (memberType fs m.1) = .ok d) ∧
      decodeR w (memberType fs k) = .error r := by
  induction ms with
  | nil => simp [fieldErr]
  | cons m ms ih =>
    obtain ⟨k, v⟩ := m
    rw [fieldErr]
    cases h : decodeR v (memberType fs k) with
    | error e =>
      simp only [Option.some.injEq]
      constructor
      · rintro rfl; exact ⟨[], k, v, ms, rfl, by simp, h⟩
      · rintro ⟨b, k', w, a, h1, h2, h3⟩
        cases b with
        | nil => cases h1; rw [h] at h3; cases h3; rfl
        | cons u b =>
          cases h1
          obtain ⟨d, hd⟩ := h2 (k, v) (by simp)
          rw [h] at hd; cases hd
    | ok d =>
      simp only
      rw [ih]
      constructor
      · rintro ⟨b, k', w, a, rfl, h2, h3⟩
        refine ⟨(k, v) :: b, k', w, a, rfl, ?_, h3⟩
        intro u hu
        rcases List.mem_cons.mp hu with rfl | hu
        · exact ⟨d, h⟩
        · exact h2 u hu
      · rintro ⟨b, k', w, a, h1, h2, h3⟩
        cases b with
        | nil => cases h1; rw [h] at h3; cases h3
        | cons u b =>
          cases h1
          exact ⟨b, k', w, a, rfl, fun u hu => h2 u (by simp [hu]), h3⟩

theorem fieldErr_none {fs : List (Str × RTy)} {ms : List (Str × Value)} :
    fieldErr fs ms = none ↔ ∀ m ∈ ms, ∃ d, decodeR m.2 (memberType fs m.1) = .ok d := by
  induction ms with
  | nil => simp [fieldErr]
  | cons m ms ih =>
    obtain ⟨k, v⟩ := m
    rw [fieldErr]
    cases h : decodeR v (memberType fs k) with
    | error e => simp [h]
    | ok d => simp [h, ih]

/-- The error of a struct. -/
theorem struct_error (cls : Str) (lib : Option Str) {ms : List (Str × Value)} (hn : (ms.map Prod.fst).Nodup) (name : Str)
    (fs : List (Str × RTy)) (r : SerdeError) :
    decodeR (.object cls lib ms) (.struct name fs) = .error r ↔ fieldErr fs ms = some r ∨
      (fieldErr fs ms = none ∧ ∃ gs k T gs', fs = gs ++ (k, T) :: gs' ∧ r = .missingField k ∧ (∀ f ∈ gs, Settled ms f) ∧
        ¬ Settled ms (k, T)) := by
  rw [decodeR_struct, map_error_iff]
  have h := readFieldsR_spec fs hn [] (by simp)
  unfold visitFieldsR
  cases h1 : readFieldsR fs (entriesR ms) [] with
  | error e => rw [h1] at h; simp [show fieldErr fs ms = some e from h]
  | ok found =>
    rw [h1] at h
    obtain ⟨h2, h3⟩ := h
    simp only [h2, reduceCtorEq, false_or, true_and]
    rw [finishFieldsR_error]
    have key : ∀ f ∈ fs, (f.1 ∈ found.map Prod.fst ↔ f.1 ∈ ms.map Prod.fst) := by
      intro f hf
      rw [h3]
      simp only [List.map_nil, List.not_mem_nil, false_or, and_iff_left_iff_imp]
      intro _ h
      exact fieldTypeR_none.mp h (List.mem_map_of_mem (f := Prod.fst) hf)
    refine exists_congr fun gs => exists_congr fun k => exists_congr fun T => exists_congr fun gs' =>
      and_congr_right fun he => and_congr_right fun _ => ?_
    subst he
    refine and_congr (forall_congr' fun f => forall_congr' fun hf => ?_) ?_
    · rw [key f (by simp [hf])]; rfl
    · rw [key (k, T) (by simp)]
      simp [Settled]

theorem struct_sound {cls : Str} {lib : Option Str} {ms : List (Str × Value)} (hs : Sane (.object cls lib ms))
    (ih : ∀ k v, (k, v) ∈ ms → Reported v) {name : Str} {fs : List (Str × RTy)} (hT : (RTy.struct name fs).erase.Proper)
    {r : SerdeError} (h : decodeR (.object cls lib ms) (.struct name fs) = .error r) :
    Fails (.object cls lib ms) (.struct name fs) r := by
  obtain ⟨hn, hp⟩ := proper_struct hT
  rcases (struct_error cls lib (hs _ (.refl _)).2.1 name fs r).mp h with h | ⟨h', gs, k, T, gs', rfl, rfl, h1, h2⟩
  · obtain ⟨b, k, w, a, rfl, -, h2⟩ := fieldErr_some.mp h
    have hm : (k, w) ∈ b ++ (k, w) :: a := by simp
    by_cases hk : k ∈ fs.map Prod.fst
    · obtain ⟨⟨k, T⟩, hf, rfl⟩ := List.mem_map.mp hk
      rw [memberType_field hn hf] at h2
      exact .field hm hf (ih k w hm (hs.member hm) T (hp _ hf) r h2)
    · rw [memberType_unknown hk] at h2
      exact .unknown hm hk (ih k w hm (hs.member hm) _ proper_ignored r h2)
  · refine .missing ?_ ?_ h1 h2
    · intro m hm f hf he
      refine (reads_iff (hs.member hm) (hp f hf)).mpr ?_
      have := fieldErr_none.mp h' m hm
      rwa [memberType_field hn (show (m.1, f.2) ∈ _ from he ▸ hf)] at this
    · intro m hm hk
      refine (reads_iff (hs.member hm) proper_ignored).mpr ?_
      have := fieldErr_none.mp h' m hm
      rwa [memberType_unknown hk] at this

omit [Platform] [FloatLib] in
theorem takesMap_cases {T : RTy} (h : TakesMap T) (hb : ¬ ByItself T) : (∃ S, T = .map S) ∨ T = .ignored ∨ T = .any := by
  cases T <;> first
    | exact h.elim
    | exact .inl ⟨_, rfl⟩
    | exact .inr (.inl rfl)
    | exact .inr (.inr rfl)
    | exact absurd trivial hb

theorem map_error (cls : Str) (lib : Option Str) (hp : PlainObject cls lib) (ms : List (Str × Value)) (T : RTy) (r : SerdeError) :
    (decodeR (.object cls lib ms) (.map T) = .error r ↔ firstErr T (ms.map Prod.snd) = some r) ∧
      (decodeR (.object cls lib ms) .ignored = .error r ↔ firstErr .ignored (ms.map Prod.snd) = some r) ∧
      (decodeR (.object cls lib ms) .any = .error r ↔ firstErr .any (ms.map Prod.snd) = some r) := by
  rw [decodeR_object cls lib ms (T := .map T) (fun h => h), decodeR_object cls lib ms (T := .ignored) (fun h => h),
    decodeR_object cls lib ms (T := .any) (fun h => h), objectAnyR_plain hp, acceptR, acceptR, acceptR,
    map_error_iff, map_error_iff, map_error_iff, readMapR_error, readMapR_error, readMapR_error]
  exact ⟨.rfl, .rfl, .rfl⟩

theorem box_error {cls c e : Str} {P T : RTy} (hc : cls.takeWhile (· ≠ 96) = c) (hb : (c, e, P) ∈ boxClasses)
    (hT : ¬ ByItself T) (ms : List (Str × Value)) :
    decodeR (.object cls none ms) T = match unboxR e P (entriesR ms) with
      | .ok d => acceptR T (visitOf P d)
      | .error e => .error e := by
  rw [decodeR_object _ _ _ hT, objectAnyR_box hb hc]
  unfold unboxedR
  cases unboxR e P (entriesR ms) with
  | ok d => rfl
  | error e => cases T <;> rfl

theorem box_content {c e : Str} {P : RTy} (hb : (c, e, P) ∈ boxClasses) {w : Value} {x : Dyn} (h : decodeR w P = .ok x) :
    ∃ s, BoxedPrim c P.erase x s := by
  obtain ⟨visit, ht⟩ := box_table hb
  exact boxedPrim_of_decode ht (decodeR_ok.mp h)

theorem box_accept {c e : Str} {P T : RTy} (hb : (c, e, P) ∈ boxClasses) (hT : ¬ ByItself T) {x : Dyn} {s : Value}
    (hx : BoxedPrim c P.erase x s) : acceptR T (visitOf P x) = decodeR s T := by
  rw [← box_visit hb hx]
  exact (runR_plain _ hT).symm

omit [Platform] [FloatLib] in
theorem BoxedPrim.leaf {c : Str} {P : Ty} {x : Dyn} {s : Value} (h : BoxedPrim c P x s) : IsLeaf s := by
  cases h <;> trivial

theorem leaf_fails {v : Value} (hl : IsLeaf v) (hs : ∀ s, v.text? = some s → IsUtf8 s) {T : RTy} {r : SerdeError}
    (h : decodeR v T = .error r) : Fails v T r := by
  have key : ∀ T : RTy, (∀ T', T ≠ .option T') → decodeR v T = .error r → Fails v T r := by
    intro T hT h
    rcases (leaf_error hl hs hT r).mp h with ⟨h1, rfl⟩ | ⟨t, n, rfl, h1, h2, rfl⟩ | ⟨s, rfl, h1, h2, rfl⟩
    · exact .kind hl hT h1
    · exact .range h1 h2
    · exact .character h1 h2
  generalize hn : sizeOf T = n
  induction n using Nat.strongRecOn generalizing T with
  | _ n ih =>
    by_cases hT : ∃ T', T = .option T'
    · obtain ⟨T', rfl⟩ := hT
      by_cases hv : v = .null
      · subst hv; rw [decodeR_null] at h; cases h
      · rw [decodeR_some _ hv, map_error_iff] at h
        exact .some hv (ih _ (by subst hn; simp) h rfl)
    · exact key T (fun T' h => hT ⟨T', h⟩) h

theorem BoxedPrim.text {c : Str} {P : Ty} {x : Dyn} {s : Value} (h : BoxedPrim c P x s) : ∀ t, s.text? = some t → IsUtf8 t := by
  cases h <;> (intro t ht; cases ht)

theorem object_reported {cls : Str} {lib : Option Str} {ms : List (Str × Value)} (hs : Sane (.object cls lib ms))
    (ih : ∀ k v, (k, v) ∈ ms → ∀ u, SubValue u v → Reported u) {T : RTy} (hT : T.erase.Proper) (hb : ¬ ByItself T)
    {r : SerdeError} (h : decodeR (.object cls lib ms) T = .error r) : Fails (.object cls lib ms) T r := by
  have ih' : ∀ S : RTy, S.erase.Proper → firstErr S (ms.map Prod.snd) = some r → ∃ k w, (k, w) ∈ ms ∧ Fails w S r := by
    intro S hS h
    obtain ⟨b, w, a, h1, -, h2⟩ := firstErr_some.mp h
    have hw : w ∈ ms.map Prod.snd := by rw [h1]; simp
    obtain ⟨⟨k, w⟩, hm, rfl⟩ := List.mem_map.mp hw
    exact ⟨k, w, hm, ih k w hm w (.refl w) (hs.member hm) S hS r h2⟩
  rcases object_kinds cls lib ms with hp | ⟨rfl, c, e, P, hc, hbx⟩ | ⟨items, size, hl⟩ | ⟨rfl, hc, hl⟩
  · by_cases ht : TakesMap T
    · rcases takesMap_cases ht hb with ⟨S, rfl⟩ | rfl | rfl
      · obtain ⟨k, w, hm, hf⟩ := ih' S (proper_map hT) ((map_error cls lib hp ms S r).1.mp h)
        exact .entry hp hm hf
      · obtain ⟨k, w, hm, hf⟩ := ih' _ proper_ignored ((map_error cls lib hp ms .ignored r).2.1.mp h)
        exact .ignoredEntry hp hm hf
      · obtain ⟨k, w, hm, hf⟩ := ih' _ proper_any ((map_error cls lib hp ms .any r).2.2.mp h)
        exact .anyEntry hp hm hf
    · rw [decodeR_object _ _ _ hb, objectAnyR_plain hp] at h
      have : acceptR T (.visitMap (entriesR ms)) = .error (.invalidType .map T.expecting) := by
        cases T <;> first | rfl | exact absurd trivial ht
      rw [this] at h
      cases h
      exact .object hp ht
  · rw [box_error hc hbx hb] at h
    by_cases hl : ms.length = 1
    · match ms, hl with
      | [(k, w)], _ =>
        rw [unboxR_one] at h
        have hm : (k, w) ∈ [(k, w)] := by simp
        have hsw := hs.member hm
        cases hw : decodeR w P with
        | error e' =>
          rw [hw] at h
          cases h
          exact .boxContent hc hbx hb (ih k w hm w (.refl w) hsw P (box_proper hbx) _ hw)
        | ok x =>
          rw [hw] at h
          simp only at h
          have hx := (C58 w hsw _ (box_proper hbx) x).mp (decodeR_ok.mp hw)
          by_cases hk : k = lit "m_value"
          · subst hk
            rw [if_pos rfl] at h
            simp only at h
            obtain ⟨s, hxs⟩ := box_content hbx hw
            rw [box_accept hbx hb hxs] at h
            exact .boxed hc hbx hb hx hxs (leaf_fails hxs.leaf hxs.text h)
          · rw [if_neg hk] at h
            cases h
            exact .boxName hc hbx hb ⟨x, hx⟩ hk
    · rw [unboxR_other _ _ hl] at h
      cases h
      exact .boxMembers hc hbx hb hl
  · have hl' := hl
    obtain ⟨cls', ms', version, he, -, -, -, hm, -⟩ := hl'
    cases he
    exact list_sound hs hl (fun u hu => ih _ _ hm u (.item hu (.refl u))) hT hb h
  · rw [decodeR_object _ _ _ hb, objectAnyR_listClass ms hc (hs _ (.refl _)).2.1 hl] at h
    have : acceptR T (.fail (.systemClass (lit "System.Collections.Generic.List"))) =
        .error (.systemClass (lit "System.Collections.Generic.List")) := by cases T <;> rfl
    rw [this] at h
    cases h
    exact .listClass hc hb hl

/-- Every error that occurs is in the relation. -/
theorem reported_sound (v : Value) : ∀ u, SubValue u v → Reported u := by
  have opt : ∀ v : Value, v ≠ .null → (Sane v → ∀ T : RTy, (∀ T', T ≠ .option T') → T.erase.Proper → ∀ r,
      decodeR v T = .error r → Fails v T r) → Reported v := by
    intro v hv h hs T hT r hr
    generalize hn : sizeOf T = n
    induction n using Nat.strongRecOn generalizing T with
    | _ n ih =>
      by_cases ho : ∃ T', T = .option T'
      · obtain ⟨T', rfl⟩ := ho
        rw [decodeR_some _ hv, map_error_iff] at hr
        exact .some hv (ih _ (by subst hn; simp) T' (proper_option hT) hr rfl)
      · exact h hs T (fun T' h => ho ⟨T', h⟩) hT r hr
  induction v using value_induction with
  | hobj cls lib ms ih =>
    have ih' : ∀ k v, (k, v) ∈ ms → ∀ u, SubValue u v → Reported u := fun k v hm =>
      ih v (List.mem_map_of_mem (f := Prod.snd) hm)
    intro u hu
    cases hu with
    | member hm hu => exact ih' _ _ hm u hu
    | refl =>
      refine opt _ (by simp) fun hs T ho hT r hr => ?_
      by_cases hb : ByItself T
      · cases T with
        | option => exact absurd rfl (ho _)
        | struct name fs => exact struct_sound hs (fun k v hm => ih' k v hm v (.refl v)) hT hr
        | _ => exact hb.elim
      · exact object_reported hs ih' hT hb hr
  | harr vs ih =>
    intro u hu
    cases hu with
    | item hv hu => exact ih _ hv u hu
    | refl =>
      exact opt _ (by simp) fun hs T ho hT r hr =>
        array_sound (fun u hu => ⟨hs.item hu, ih u hu u (.refl u)⟩) hT ho hr
  | hleaf v h1 h2 =>
    intro u hu
    cases hu with
    | item => exact absurd rfl (h2 _)
    | member => exact absurd rfl (h1 _ _ _)
    | refl =>
      intro hs T hT r hr
      obtain ⟨-, -, h3, h4, -⟩ := hs _ (.refl _)
      refine leaf_fails (by cases v <;> first | trivial | exact absurd rfl (h1 _ _ _) | exact absurd rfl (h2 _)) ?_ hr
      intro s hs
      cases v <;> cases hs
      · exact h4 _ rfl
      · exact h3 _ rfl

/-! ## From the relation to the code -/

omit [FloatLib] in
theorem Sane.text {v : Value} (h : Sane v) : ∀ s, v.text? = some s → IsUtf8 s := by
  obtain ⟨-, -, h3, h4, -⟩ := h _ (.refl _)
  intro s hs
  cases v <;> cases hs
  · exact h4 _ rfl
  · exact h3 _ rfl

omit [Platform] [FloatLib] in
theorem integer_leaf {v : Value} {n : Int} (h : v.integer? = some n) : IsLeaf v := by
  cases v <;> first | trivial | cases h

omit [FloatLib] in
theorem text_leaf {v : Value} {s : Str} (h : v.text? = some s) : IsLeaf v := by
  cases v <;> first | trivial | cases h

omit [FloatLib] in
theorem sequence_not_leaf {v : Value} {vs : List Value} (h : Sequence v vs) : ¬ IsLeaf v := by
  cases h with
  | array => exact fun h => h
  | list h => obtain ⟨_, _, _, rfl, _⟩ := h; exact fun h => h

omit [FloatLib] in
theorem list_not_leaf {v : Value} {vs : List Value} {size : Int} (h : IsList v vs size) : ¬ IsLeaf v :=
  sequence_not_leaf (.list h)

theorem leaf_complete {v : Value} {T : RTy} {r : SerdeError} (h : Fails v T r) (hl : IsLeaf v)
    (hs : ∀ s, v.text? = some s → IsUtf8 s) : decodeR v T = .error r := by
  induction h with
  | kind _ hT ht => exact (leaf_error hl hs hT _).mpr (.inl ⟨ht, rfl⟩)
  | range h1 h2 => exact (leaf_error hl hs (by simp) _).mpr (.inr (.inl ⟨_, _, rfl, h1, h2, rfl⟩))
  | character h1 h2 => exact (leaf_error hl hs (by simp) _).mpr (.inr (.inr ⟨_, rfl, h1, h2, rfl⟩))
  | some hv _ ih => rw [decodeR_some _ hv, map_error_iff]; exact ih hl hs
  | sequence h => exact absurd hl (sequence_not_leaf h)
  | element h => exact absurd hl (sequence_not_leaf h)
  | listShort h => exact absurd hl (list_not_leaf h)
  | slot h => exact absurd hl (sequence_not_leaf h)
  | short h => exact absurd hl (sequence_not_leaf h)
  | longList h => exact absurd hl (list_not_leaf h)
  | _ => exact hl.elim

omit [Platform] [FloatLib] in
theorem member_unique {α : Type} {ms : List (Str × α)} (hn : (ms.map Prod.fst).Nodup) {k : Str} {v v' : α} (h : (k, v) ∈ ms)
    (h' : (k, v') ∈ ms) : v = v' := by
  induction ms with
  | nil => cases h
  | cons m ms ih =>
    simp only [List.map_cons, List.nodup_cons] at hn
    rcases List.mem_cons.mp h with h1 | h1 <;> rcases List.mem_cons.mp h' with h2 | h2
    · subst h1; cases h2; rfl
    · subst h1; exact absurd (List.mem_map_of_mem (f := Prod.fst) h2) hn.1
    · subst h2; exact absurd (List.mem_map_of_mem (f := Prod.fst) h1) hn.1
    · exact ih hn.2 h1 h2

omit [Platform] [FloatLib] in
theorem Same.replace {w w' : Value} (h : Same w w') (b a : List Value) : Same (.array (b ++ w :: a)) (.array (b ++ w' :: a)) := by
  refine .array (by simp) fun i u u' hu hu' => ?_
  by_cases hi : i = b.length
  · subst hi
    simp at hu hu'
    exact hu ▸ hu' ▸ h
  · have : u = u' := by
      rcases Nat.lt_or_gt_of_ne hi with hi | hi
      · rw [List.getElem?_append_left hi] at hu hu'
        exact Option.some.inj (hu.symm.trans hu')
      · obtain ⟨j, hj⟩ : ∃ j, i - b.length = j + 1 := ⟨i - b.length - 1, by omega⟩
        rw [List.getElem?_append_right (by omega), hj, List.getElem?_cons_succ] at hu hu'
        exact Option.some.inj (hu.symm.trans hu')
    exact this ▸ .refl u

omit [Platform] [FloatLib] in
/-- Another value for one member. -/
theorem Same.member {cls : Str} {lib : Option Str} {ms : List (Str × Value)} (hn : (ms.map Prod.fst).Nodup) {k : Str}
    {w w' : Value} (hm : (k, w) ∈ ms) (h : Same w w') :
    ∃ ms', Same (.object cls lib ms) (.object cls lib ms') ∧ ms'.map Prod.fst = ms.map Prod.fst ∧ (k, w') ∈ ms' ∧
      ∀ m ∈ ms, m.1 ≠ k → m ∈ ms' := by
  have hk : (ms.map fun m => if m.1 = k then (k, w') else m).map Prod.fst = ms.map Prod.fst := by
    rw [List.map_map]
    refine List.map_congr_left fun m _ => ?_
    show (if m.1 = k then (k, w') else m).1 = m.1
    split
    · rename_i h; exact h.symm
    · rfl
  refine ⟨ms.map fun m => if m.1 = k then (k, w') else m, .object hn (hk ▸ hn) (fun k => by rw [hk]) ?_, hk, ?_, ?_⟩
  · intro k' v v' hv hv'
    obtain ⟨m, hm', he⟩ := List.mem_map.mp hv'
    split at he
    · rename_i hmk
      cases he
      rw [member_unique hn hv hm]
      exact h
    · subst he
      rw [member_unique hn hv hm']
      exact .refl v'
  · exact List.mem_map.mpr ⟨(k, w), hm, by simp⟩
  · exact fun m hm' hk => List.mem_map.mpr ⟨m, hm', by rw [if_neg hk]⟩

omit [Platform] [FloatLib] in
/-- Another value for one member, which comes first. -/
theorem Same.first {cls : Str} {lib : Option Str} {ms : List (Str × Value)} (hn : (ms.map Prod.fst).Nodup) {k : Str}
    {w w' : Value} (hm : (k, w) ∈ ms) (h : Same w w') :
    ∃ ms', Same (.object cls lib ms) (.object cls lib ((k, w') :: ms')) ∧ (((k, w') :: ms').map Prod.fst).Nodup := by
  have hn' : (((k, w') :: ms.filter fun m => m.1 ≠ k).map Prod.fst).Nodup := by
    rw [List.map_cons, List.nodup_cons]
    refine ⟨?_, (List.filter_sublist.map Prod.fst).nodup hn⟩
    intro h
    obtain ⟨m, hm, he⟩ := List.mem_map.mp h
    simpa [he] using (List.mem_filter.mp hm).2
  refine ⟨ms.filter fun m => m.1 ≠ k, .object hn hn' ?_ ?_, hn'⟩
  · intro k'
    by_cases hk : k' = k
    · subst hk
      simp only [List.map_cons, List.mem_cons, true_or, iff_true]
      exact List.mem_map_of_mem (f := Prod.fst) hm
    · simp only [List.map_cons, List.mem_cons, hk, false_or, List.mem_map, List.mem_filter]
      constructor
      · rintro ⟨m, h1, rfl⟩; exact ⟨m, ⟨h1, by simpa using hk⟩, rfl⟩
      · rintro ⟨m, ⟨h1, _⟩, rfl⟩; exact ⟨m, h1, rfl⟩
  · intro k' v v' hv hv'
    rcases List.mem_cons.mp hv' with he | hv'
    · cases he
      rw [member_unique hn hv hm]
      exact h
    · rw [member_unique hn hv (List.mem_filter.mp hv').1]
      exact .refl v'

theorem Same.sequence {v w w' : Value} {b a : List Value} (hv : Sane v) (hseq : Sequence v (b ++ w :: a)) (h : Same w w') :
    ∃ v', Same v v' ∧ (v' = .array (b ++ w' :: a) ∨
      ∃ items size, IsList v' items size ∧ InSigned 4 size ∧ items.take (unsignedSize size) = b ++ w' :: a) := by
  generalize hus : b ++ w :: a = us at hseq
  cases hseq with
  | array => subst hus; exact ⟨_, h.replace b a, .inl rfl⟩
  | @list _ items size hl =>
    have hz := (hv.list hl).2
    obtain ⟨cls, ms, version, rfl, hc, hlen, hn, m1, m2, m3⟩ := hl
    have hi : items = b ++ w :: (a ++ items.drop (unsignedSize size)) := by
      rw [← List.cons_append, ← List.append_assoc, hus, List.take_append_drop]
    have hs : Same (.array items) (.array (b ++ w' :: (a ++ items.drop (unsignedSize size)))) := by
      generalize items.drop (unsignedSize size) = more at hi
      rw [hi]
      exact h.replace b (a ++ more)
    obtain ⟨ms', h1, h2, h3, h4⟩ := Same.member (cls := cls) (lib := none) hn m1 hs
    refine ⟨_, h1, .inr ⟨_, size, ⟨cls, ms', version, rfl, hc, ?_, h2 ▸ hn, h3, h4 _ m2 ?_, h4 _ m3 ?_⟩, hz, ?_⟩⟩
    · rw [← hlen, ← List.length_map (f := Prod.fst), h2, List.length_map]
    · show lit "_size" ≠ lit "_items"; decide
    · show lit "_version" ≠ lit "_items"; decide
    · have hl : (b ++ w' :: a).length = (b ++ w :: a).length := by simp
      rw [hus, List.length_take] at hl
      rw [← List.cons_append, ← List.append_assoc]
      by_cases hle : unsignedSize size ≤ items.length
      · exact List.take_left' (by omega)
      · rw [List.drop_of_length_le (by omega), List.append_nil]
        exact List.take_of_length_le (by omega)

end Nrbf
