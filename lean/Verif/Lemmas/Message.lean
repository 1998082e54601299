import Verif.Lemmas.Knot
import Verif.Lemmas.GoodState
import Verif.Spec.Message

/-! # Messages: the parser against the grammar -/

namespace Nrbf
open Spec

variable {α β : Type} [Platform]

/-! ## The parser functions -/

theorem parsersSem (L : Nat) : RecSem L parseClasses parseReferenceable :=
  ⟨fun s i hs _ => (recSem (i.length + 1)).cls s i hs (by omega),
    fun s i _ h h1 => (recSem (i.length + 1)).other s i (by omega) h h1,
    fun s i hs _ => (recSem (i.length + 1)).ref s i hs (by omega)⟩

theorem parsers_mono : LibMono parseClasses ∧ LibMono parseReferenceable :=
  ⟨fun s i => (recAt_mono (i.length + 1)).1 s i, fun s i => (recAt_mono (i.length + 1)).2 s i⟩

/-- The record type of a record. -/
theorem record_byte {E : Env} {i : Bytes} {id : Nat} {v : Value} {E' : Env} {r : Bytes}
    (h : Record E i id v E' r) : ClassByte i ∨ ArrayByte i ∨ i.head? = some 6 := by
  cases h with
  | object h => exact .inl (class_byte h)
  | objectArray h => exact .inr (.inl (.inl (arrayHead_head h)))
  | primitiveArray h =>
    rw [List.append_assoc]; exact .inr (.inl (.inr (.inl (primitiveArrayHead_head h))))
  | stringArray h => exact .inr (.inl (.inr (.inr (.inl (arrayHead_head h)))))
  | array h => exact .inr (.inl (.inr (.inr (.inr (binaryArrayHead_head h)))))
  | string h => exact .inr (.inr (string_head h))

/-- No record starts with this byte. -/
def StopByte (i : Bytes) : Prop :=
  ¬ ClassByte i ∧ i.head? ≠ some 1 ∧ ¬ ArrayByte i ∧ i.head? ≠ some 6

theorem referenceable_stop {s : St} {i : Bytes} (h : StopByte i) :
    ∃ e, parseReferenceable s i = (.error e, s) := by
  obtain ⟨hc, h1, ha, h6⟩ := h
  have h12 : i.head? ≠ some 12 := fun h => hc (.inl h)
  unfold parseReferenceable
  simp only [recAt]
  unfold referenceableBody
  obtain ⟨e1, he1⟩ := classesBody_other (classes := (recAt i.length).classes)
    (referenceable := (recAt i.length).referenceable) (s := s) hc h1
  obtain ⟨e2, he2⟩ := arrays_other (classes := (recAt i.length).classes)
    (referenceable := (recAt i.length).referenceable) (s := s) ha
  rw [altMut_skip ⟨e1, by simp only [he1]; rfl⟩, altMut_skip ⟨e2, by
      unfold arraysBody
      rw [lib_none h12]
      simp only [Res.bind, he2]
      rfl⟩, altMut_skip (objectString_mismatch h6 s)]
  exact ⟨_, rfl⟩

theorem stopByte_of {i : Bytes} (c : UInt8) (h : i.head? = some c) (hc : c = 11 ∨ c = 21 ∨ c = 22) :
    StopByte i := by
  refine ⟨?_, ?_, ?_, ?_⟩
  · rintro (h' | h' | h' | h' | h') <;> rw [h] at h' <;> cases h' <;> simp at hc
  · rw [h]; rintro ⟨⟩; simp at hc
  · rintro (h' | h' | h' | h') <;> rw [h] at h' <;> cases h' <;> simp at hc
  · rw [h]; rintro ⟨⟩; simp at hc

/-- The class table stays empty. -/
theorem classes_nil {s : St} (hs : s.classes = []) (i : Bytes) :
    (parseReferenceable s i).2.classes = [] :=
  ((parseReferenceable_good (pol := (⟨fun _ => True, fun _ => True, fun _ _ => trivial,
    fun _ _ _ _ _ _ _ => trivial, fun _ _ _ => trivial, fun _ _ => trivial, fun _ _ => trivial,
    trivial⟩ : Pol i)) (i.length + 1) s i ⟨hs, fun _ _ => trivial, fun _ _ => trivial⟩
    (List.suffix_refl _) (by omega)).1).1

/-! ## The record loop -/

theorem loop_complete {E : Env} {i : Bytes} {E' : Env} {r : Bytes} (h : Records E i E' r)
    (hr : StopByte r) {s : St} (hs : s.classes = []) (hE : abs s = E) (fuel : Nat)
    (hf : i.length < fuel) :
    ∃ s', referenceablesLoop fuel s i = (.ok r (), s') ∧ abs s' = E' ∧ s'.classes = [] := by
  induction h generalizing s fuel with
  | nil =>
    cases fuel with
    | zero => omega
    | succ fuel =>
      obtain ⟨e, he⟩ := referenceable_stop (s := s) hr
      exact ⟨s, by simp only [referenceablesLoop, he], hE, hs⟩
  | @cons E i id v E1 i1 E2 i2 h1 _ ih =>
    cases fuel with
    | zero => omega
    | succ fuel =>
      subst hE
      have hm := parseReferenceable_match hs i
      obtain ⟨s1, he, hE1⟩ := hm.2 id _ i1 ⟨v, E1, h1, rfl⟩
      obtain ⟨_, hs1, hl⟩ := hm.1 _ _ _ he
      obtain ⟨s', h'⟩ := ih hr hs1 hE1 fuel (by omega)
      exact ⟨s', by simp only [referenceablesLoop, he]; exact h'.1, h'.2⟩

theorem loop_sound (fuel : Nat) {s : St} (hs : s.classes = []) {i r : Bytes} {s' : St}
    (h : referenceablesLoop fuel s i = (.ok r (), s')) :
    ∃ s1 e, Records (abs s) i (abs s1) r ∧ s1.classes = [] ∧
      parseReferenceable s1 r = (.error e, s') ∧ s'.classes = [] := by
  induction fuel generalizing s i with
  | zero => cases h
  | succ fuel ih =>
    simp only [referenceablesLoop] at h
    split at h
    · rename_i r1 id s1 he
      obtain ⟨⟨v, E1, hrec, hE⟩, hs1, _⟩ := (parseReferenceable_match hs i).1 _ _ _ he
      obtain ⟨s2, e, h2, h3⟩ := ih hs1 h
      rw [hE] at h2
      exact ⟨s2, e, .cons hrec h2, h3⟩
    · rename_i e s1 he
      cases h
      have hc := classes_nil hs r
      rw [he] at hc
      exact ⟨s, e, .nil, hs, he, hc⟩
    all_goals cases h

/-! ## The call array -/

/-- The call array, when it is there. -/
theorem callArray_match {s : St} (hs : s.classes = []) (i : Bytes) (root : Nat) :
    Match (parseCallArray (rootOf root) s i) i.length 1 (fun vs E' r =>
      ∃ E1 b i1 len slots E2 i2, OptLib (abs s) i E1 (b ++ i1) ∧ IsArrayHead 16 root len b ∧
        Fill none len E1 i1 slots E2 i2 ∧ Resolve slots E2 i2 vs E' r) := by
  unfold parseCallArray
  refine ((library_match hs i).bind (k2 := 1) (k := 1) (by omega) (K := fun _ E1 i0 vs E' r =>
      ∃ b i1 len slots E2 i2, i0 = b ++ i1 ∧ IsArrayHead 16 root len b ∧
        Fill none len E1 i1 slots E2 i2 ∧ Resolve slots E2 i2 vs E' r)
    fun _ s i hs _ hl => ?_).congr fun vs E' r => ?_
  · refine ((arrayOf_match (parsersSem (i.length + 1)) none arraySingleObject_exact hs
      (i := i) (by omega)).bind (k2 := 0) (k := 1) (by omega)
      (K := fun x E1 i1 vs E' r => x.1 = root ∧ vs = x.2 ∧ E' = E1 ∧ r = i1)
      fun x s1 i1 hs1 hx _ => ?_).congr fun vs E' r => ?_
    · obtain ⟨id, vs⟩ := x
      obtain ⟨len, b, _, _, _, _, ⟨_, _, ⟨hid, _⟩, _⟩, _⟩ := hx
      simp only at hid ⊢
      by_cases hr : some id = rootOf root
      · rw [if_neg (by simpa using hr)]
        have : id = root := by
          unfold rootOf at hr
          split at hr <;> simp at hr
          exact hr
        refine (Match.ret hs1).congr fun vs' E' r => ?_
        simp [this]
      · rw [if_pos hr]
        refine .never (by simp) ?_
        rintro vs E r ⟨rfl, _⟩
        apply hr
        unfold rootOf
        rw [if_neg (by omega)]
    · constructor
      · rintro ⟨⟨_, _⟩, E1, i1, ⟨len, b, i2, slots, E2, i3, h1, rfl, h2, h3⟩, rfl, rfl, rfl, rfl⟩
        exact ⟨b, i2, len, slots, E2, i3, rfl, h1, h2, h3⟩
      · rintro ⟨b, i1, len, slots, E2, i2, rfl, h1, h2, h3⟩
        exact ⟨(root, vs), _, _, ⟨len, b, i1, slots, E2, i2, h1, rfl, h2, h3⟩, rfl, rfl, rfl, rfl⟩
  · constructor
    · rintro ⟨_, E1, i1, hlib, b, i2, len, slots, E2, i3, rfl, h⟩
      exact ⟨E1, b, i2, len, slots, E2, i3, hlib, h⟩
    · rintro ⟨E1, b, i2, len, slots, E2, i3, hlib, h⟩
      exact ⟨(), E1, _, hlib, b, i2, len, slots, E2, i3, rfl, h⟩

theorem callArray_absent {s : St} {i : Bytes} {root : Option Nat} (h16 : i.head? ≠ some 16)
    (h12 : i.head? ≠ some 12) : ∃ e, parseCallArray root s i = (.error e, s) := by
  unfold parseCallArray
  rw [lib_none h12]
  obtain ⟨e, he⟩ := arraySingleObject_mismatch (classes := parseClasses)
    (referenceable := parseReferenceable) h16 s
  simp only [Res.bind, parseArraySingleObject, he]
  exact ⟨_, rfl⟩

theorem optS_ok {p : SP α} {s s' : St} {i r : Bytes} {o : Option α}
    (h : optS p s i = (.ok r o, s')) :
    (∃ a, o = some a ∧ p s i = (.ok r a, s')) ∨ (∃ e, o = none ∧ r = i ∧ p s i = (.error e, s')) := by
  unfold optS at h
  split at h
  · rename_i e s1 he
    cases h
    exact .inr ⟨e, rfl, rfl, he⟩
  · generalize hx : p s i = x at h ⊢
    obtain ⟨o', s1⟩ := x
    cases o' <;> simp [Res.map, Outcome.map] at h
    obtain ⟨⟨rfl, rfl⟩, rfl⟩ := h
    exact .inl ⟨_, rfl, rfl⟩

omit [Platform] in
theorem args_iff {f : BitVec 32} {ca : Option (List Value)} {inline : Option (List ValueWithCode)}
    {args : Option (List Value)} :
    parseArgs f ca inline = some args ↔
      ArgsFrom f ca (inline.map ArrayOfValueWithCode.intoValues) args := by
  unfold parseArgs ArgsFrom
  rw [bit_isArray, bit_inArray]
  cases h2 : f.getLsbD 2 with
  | true =>
    cases ca with
    | none => simp
    | some l => simp; exact eq_comm
  | false =>
    cases h3 : f.getLsbD 3 with
    | true =>
      cases ca with
      | none => simp
      | some l =>
        cases l with
        | nil => simp
        | cons v vs =>
          cases v <;> simp
          exact eq_comm
    | false => simp; exact eq_comm


/-- The policy that demands nothing. -/
def polTrue (w : Bytes) : Pol w :=
  ⟨fun _ => True, fun _ => True, fun _ _ => trivial, fun _ _ _ _ _ _ _ => trivial, fun _ _ _ => trivial,
    fun _ _ => trivial, fun _ _ => trivial, trivial⟩

theorem callArray_classes {s : St} (hs : s.classes = []) (i : Bytes) (root : Option Nat) :
    (parseCallArray root s i).2.classes = [] :=
  ((parseCallArray_good (pol := polTrue i) root (i.length + 1) s i
    ⟨hs, fun _ _ => trivial, fun _ _ => trivial⟩ (List.suffix_refl _) (by omega)).1).1

theorem optCallArray_complete {root : Nat} {E : Env} {i : Bytes} {ca : Option (List Value)} {E' : Env}
    {r : Bytes} (h : CallArray root E i ca E' r) {s : St} (hs : s.classes = []) (hE : abs s = E) :
    ∃ s', optS (parseCallArray (rootOf root)) s i = (.ok r ca, s') ∧ abs s' = E' ∧
      s'.classes = [] := by
  subst hE
  have hm := callArray_match hs i root
  cases h with
  | some h1 h2 h3 h4 =>
    obtain ⟨s', h, hE⟩ := hm.2 _ _ _ ⟨_, _, _, _, _, _, _, h1, h2, h3, h4⟩
    exact ⟨s', by unfold optS; rw [h]; rfl, hE, (hm.1 _ _ _ h).2.1⟩
  | none h16 h12 =>
    obtain ⟨e, h⟩ := callArray_absent (s := s) (root := rootOf root) h16 h12
    exact ⟨s, by unfold optS; rw [h], rfl, hs⟩

theorem optCallArray_sound {root : Nat} {i : Bytes} {ca : Option (List Value)}
    {r : Bytes} {s s' : St} (hs : s.classes = [])
    (h : optS (parseCallArray (rootOf root)) s i = (.ok r ca, s')) :
    s'.classes = [] ∧ (CallArray root (abs s) i ca (abs s') r ∨
      (ca = none ∧ r = i ∧ (i.head? = some 16 ∨ i.head? = some 12) ∧
        (∃ e, parseCallArray (rootOf root) s i = (.error e, s')) ∧
        ¬ ∃ ca E' r, CallArray root (abs s) i ca E' r)) := by
  have hm := callArray_match hs i root
  rcases optS_ok h with ⟨vs, rfl, h1⟩ | ⟨e, rfl, rfl, h1⟩
  · obtain ⟨⟨_, _, _, _, _, _, _, g1, g2, g3, g4⟩, hs', _⟩ := hm.1 _ _ _ h1
    exact ⟨hs', .inl (.some g1 g2 g3 g4)⟩
  · have hc := callArray_classes hs r (rootOf root)
    rw [h1] at hc
    refine ⟨hc, ?_⟩
    by_cases h16 : r.head? = some 16
    · refine .inr ⟨rfl, rfl, .inl h16, ⟨e, h1⟩, ?_⟩
      rintro ⟨ca, E', r', hca⟩
      cases hca with
      | some g1 g2 g3 g4 =>
        obtain ⟨s2, g, _⟩ := hm.2 _ _ _ ⟨_, _, _, _, _, _, _, g1, g2, g3, g4⟩
        rw [h1] at g
        cases g
      | none g1 => exact g1 h16
    · by_cases h12 : r.head? = some 12
      · refine .inr ⟨rfl, rfl, .inr h12, ⟨e, h1⟩, ?_⟩
        rintro ⟨ca, E', r', hca⟩
        cases hca with
        | some g1 g2 g3 g4 =>
          obtain ⟨s2, g, _⟩ := hm.2 _ _ _ ⟨_, _, _, _, _, _, _, g1, g2, g3, g4⟩
          rw [h1] at g
          cases g
        | none _ g1 => exact g1 h12
      · obtain ⟨e', g⟩ := callArray_absent (s := s) (root := rootOf root) h16 h12
        rw [h1] at g
        cases g
        exact .inl (.none h16 h12)

/-! ## Method records -/

theorem methodCall_head {f : BitVec 32} {name type : Str} {context : Option Str}
    {args : Option (List Value)} {b r : Bytes} (h : IsMethodCall f name type context args b) :
    (b ++ r).head? = some 21 := by
  obtain ⟨_, _, _, _, _, _, _, _, _, _, rfl⟩ := h; rfl

theorem methodReturn_head {f : BitVec 32} {v : Option Value} {context : Option Str}
    {args : Option (List Value)} {b r : Bytes} (h : IsMethodReturn f v context args b) :
    (b ++ r).head? = some 22 := by
  obtain ⟨_, _, _, _, _, _, _, _, rfl⟩ := h; rfl

theorem methodCall_mismatch {i : Bytes} (h : i.head? ≠ some 21) :
    ∃ e, BinaryMethodCall.parse i = .error e := ⟨_, tagged_mismatch h⟩

theorem methodReturn_mismatch {i : Bytes} (h : i.head? ≠ some 22) :
    ∃ e, BinaryMethodReturn.parse i = .error e := ⟨_, tagged_mismatch h⟩

theorem parseMethodCall_mismatch {root : Option Nat} {s : St} {i : Bytes} (h : i.head? ≠ some 21)
    (h12 : i.head? ≠ some 12) : ∃ e, parseMethodCall root s i = (.error e, s) := by
  unfold parseMethodCall
  rw [lib_none h12]
  obtain ⟨e, he⟩ := methodCall_mismatch h
  simp only [Res.bind, lift, he]
  exact ⟨_, rfl⟩

theorem parseMethodReturn_mismatch {root : Option Nat} {s : St} {i : Bytes} (h : i.head? ≠ some 22)
    (h12 : i.head? ≠ some 12) : ∃ e, parseMethodReturn root s i = (.error e, s) := by
  unfold parseMethodReturn
  rw [lib_none h12]
  obtain ⟨e, he⟩ := methodReturn_mismatch h
  simp only [Res.bind, lift, he]
  exact ⟨_, rfl⟩

omit [Platform] in
theorem map_ok {p : Outcome Error α} {g : α → β} {r : Bytes} {b : β} (h : p.map g = .ok r b) :
    ∃ a, p = .ok r a ∧ g a = b := by
  cases p <;> simp [Outcome.map] at h
  exact ⟨_, by rw [h.1], h.2⟩

theorem method_complete {root : Nat} {E : Env} {i : Bytes} {m : MethodCall ⊕ MethodReturn} {E' : Env}
    {r : Bytes} (h : Method root E i m E' r) {s : St} (hs : s.classes = []) (hE : abs s = E) :
    ∃ s', parseMethodCallOrReturn (rootOf root) s i = (.ok r m, s') ∧ abs s' = E' ∧
      s'.classes = [] := by
  cases h with
  | @call f name type context inline b i1 ca args _ _ hf hb hca hargs =>
    have hh := methodCall_head (r := i1) hb
    obtain ⟨c, hc, hv⟩ := map_ok ((methodCall_exact (b ++ i1) i1 (f, name, type, context, inline)).mpr
      ⟨b, ⟨hf, hb⟩, rfl⟩)
    simp only [callView, Prod.mk.injEq] at hv
    obtain ⟨rfl, rfl, rfl, rfl, rfl⟩ := hv
    obtain ⟨s', h1, h2, h3⟩ := optCallArray_complete hca hs hE
    refine ⟨s', ?_, h2, h3⟩
    unfold parseMethodCallOrReturn
    have : parseMethodCall (rootOf root) s (b ++ i1) = (.ok r ⟨c.methodName, c.typeName, c.callContext, args⟩, s') := by
      unfold parseMethodCall
      rw [lib_none (by rw [hh]; decide)]
      simp only [Res.bind, lift, hc, h1]
      rw [args_iff.mpr hargs]
    simp only [altMut, this]
    rfl
  | @«return» f value context inline b i1 ca args _ _ hf hb hca hargs =>
    have hh := methodReturn_head (r := i1) hb
    obtain ⟨c, hc, hv⟩ := map_ok ((methodReturn_exact (b ++ i1) i1 (f, value, context, inline)).mpr
      ⟨b, ⟨hf, hb⟩, rfl⟩)
    simp only [returnView, Prod.mk.injEq] at hv
    obtain ⟨rfl, rfl, rfl, rfl⟩ := hv
    obtain ⟨s', h1, h2, h3⟩ := optCallArray_complete hca hs hE
    refine ⟨s', ?_, h2, h3⟩
    unfold parseMethodCallOrReturn
    obtain ⟨e, he⟩ := parseMethodCall_mismatch (s := s) (root := rootOf root) (i := b ++ i1)
      (by rw [hh]; decide) (by rw [hh]; decide)
    rw [altMut_skip ⟨e, by simp only [he]; rfl⟩]
    have : parseMethodReturn (rootOf root) s (b ++ i1) =
        (.ok r ⟨c.returnValue.map ValueWithCode.intoValue, c.callContext, args⟩, s') := by
      unfold parseMethodReturn
      rw [lib_none (by rw [hh]; decide)]
      simp only [Res.bind, lift, hc, h1]
      rw [args_iff.mpr hargs]
    simp only [altMut, this]
    rfl

/-- A method record that was read: it is in the grammar, or its call array was attempted in vain. -/
theorem method_sound {root : Nat} {i : Bytes} {m : MethodCall ⊕ MethodReturn} {r : Bytes} {s s' : St}
    (hs : s.classes = []) (h12 : i.head? ≠ some 12)
    (h : parseMethodCallOrReturn (rootOf root) s i = (.ok r m, s')) :
    s'.classes = [] ∧ (i.head? = some 21 ∨ i.head? = some 22) ∧
      (Method root (abs s) i m (abs s') r ∨
      ((r.head? = some 16 ∨ r.head? = some 12) ∧ (∃ e, parseCallArray (rootOf root) s r = (.error e, s')) ∧
        (¬ ∃ ca E' r', CallArray root (abs s) r ca E' r') ∧
        ((∃ f name type context inline args b, FlagsOk f ∧
            IsMethodCall f name type context inline b ∧ i = b ++ r ∧ ArgsFrom f none inline args ∧
            m = .inl ⟨name, type, context, args⟩) ∨
          ∃ f value context inline args b, FlagsOk f ∧
            IsMethodReturn f value context inline b ∧ i = b ++ r ∧ ArgsFrom f none inline args ∧
            m = .inr ⟨value, context, args⟩))) := by
  unfold parseMethodCallOrReturn at h
  by_cases h21 : i.head? = some 21
  · have hcall : ∃ c, parseMethodCall (rootOf root) s i = (.ok r c, s') ∧ m = .inl c := by
      simp only [altMut] at h
      generalize hx : parseMethodCall (rootOf root) s i = x at h
      obtain ⟨o, s1⟩ := x
      cases o with
      | ok r1 c =>
        simp only [Res.map, Outcome.map, Prod.mk.injEq, Outcome.ok.injEq] at h
        obtain ⟨⟨rfl, rfl⟩, rfl⟩ := h
        exact ⟨c, rfl, rfl⟩
      | error e =>
        exfalso
        obtain ⟨e', he'⟩ := parseMethodReturn_mismatch (s := s1) (root := rootOf root) (i := i)
          (by rw [h21]; decide) h12
        simp only [Res.map, Outcome.map, he'] at h
        cases h
      | _ => simp [Res.map, Outcome.map] at h
    obtain ⟨c, hc, rfl⟩ := hcall
    unfold parseMethodCall at hc
    rw [lib_none h12] at hc
    simp only [Res.bind, lift] at hc
    cases hp : BinaryMethodCall.parse i with
    | ok i1 bc =>
      rw [hp] at hc
      simp only at hc
      obtain ⟨b, ⟨hf, hb⟩, rfl⟩ := (methodCall_exact i i1 (callView bc)).mp (by simp only [hp]; rfl)
      split at hc
      · rename_i i2 ca s2 hca
        split at hc
        · rename_i args hargs
          cases hc
          have ha := args_iff.mp hargs
          obtain ⟨hs', h1 | ⟨rfl, rfl, h1, h2, h3⟩⟩ := optCallArray_sound hs hca
          · exact ⟨hs', .inl h21, .inl (.call hf hb h1 ha)⟩
          · exact ⟨hs', .inl h21, .inr ⟨h1, h2, h3, .inl ⟨_, _, _, _, _, _, b, hf, hb, rfl, ha, rfl⟩⟩⟩
        · cases hc
      all_goals cases hc
    | _ => rw [hp] at hc; cases hc
  · obtain ⟨e, he⟩ := parseMethodCall_mismatch (s := s) (root := rootOf root) (i := i) h21 h12
    rw [altMut_skip ⟨e, by simp only [he]; rfl⟩] at h
    by_cases h22 : i.head? = some 22
    · have hret : ∃ c, parseMethodReturn (rootOf root) s i = (.ok r c, s') ∧ m = .inr c := by
        simp only [altMut] at h
        generalize hx : parseMethodReturn (rootOf root) s i = x at h
        obtain ⟨o, s1⟩ := x
        cases o with
        | ok r1 c =>
          simp only [Res.map, Outcome.map, Prod.mk.injEq, Outcome.ok.injEq] at h
          obtain ⟨⟨rfl, rfl⟩, rfl⟩ := h
          exact ⟨c, rfl, rfl⟩
        | _ => simp [Res.map, Outcome.map] at h
      obtain ⟨c, hc, rfl⟩ := hret
      unfold parseMethodReturn at hc
      rw [lib_none h12] at hc
      simp only [Res.bind, lift] at hc
      cases hp : BinaryMethodReturn.parse i with
      | ok i1 bc =>
        rw [hp] at hc
        simp only at hc
        obtain ⟨b, ⟨hf, hb⟩, rfl⟩ := (methodReturn_exact i i1 (returnView bc)).mp (by simp only [hp]; rfl)
        split at hc
        · rename_i i2 ca s2 hca
          split at hc
          · rename_i args hargs
            cases hc
            have ha := args_iff.mp hargs
            obtain ⟨hs', h1 | ⟨rfl, rfl, h1, h2, h3⟩⟩ := optCallArray_sound hs hca
            · exact ⟨hs', .inr h22, .inl (.return hf hb h1 ha)⟩
            · exact ⟨hs', .inr h22, .inr ⟨h1, h2, h3, .inr ⟨_, _, _, _, _, b, hf, hb, rfl, ha, rfl⟩⟩⟩
          · cases hc
        all_goals cases hc
      | _ => rw [hp] at hc; cases hc
    · obtain ⟨e, he⟩ := parseMethodReturn_mismatch (s := s) (root := rootOf root) (i := i) h22 h12
      rw [altMut_skip ⟨e, by simp only [he]; rfl⟩] at h
      cases h

end Nrbf
