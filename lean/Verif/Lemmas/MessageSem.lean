import Verif.Lemmas.Message

/-! # Messages: completeness and soundness of `deserialize` -/

namespace Nrbf
open Spec

variable {α β : Type} [Platform]

/-- How `parse_remoting_message` ends. -/
def finish (root : Nat) (m : Option (MethodCall ⊕ MethodReturn)) : SP RemotingMessage := fun s i =>
  (parseReferenceables s i).bind fun _ s i =>
  (lift MessageEnd.parse s i).bind fun _ s i =>
    if i.isEmpty then selectRoot (rootOf root) m s i
    else (.error ⟨i, .trailingData⟩, s)

theorem parse_unfold {root : Nat} {h : Bytes} (hh : IsHeader root h) (s : St) (i : Bytes) :
    parseRemotingMessage s (h ++ i) =
      (parseReferenceables s i).bind fun _ s i =>
      (optS (parseMethodCallOrReturn (rootOf root)) s i).bind fun m s i => finish root m s i := by
  obtain ⟨hd, h1, h2⟩ := header_ok hh i
  unfold parseRemotingMessage finish
  simp only [lift, h1, Res.bind, h2]

theorem loops {E : Env} {i : Bytes} {E' : Env} {r : Bytes} (h : Records E i E' r)
    (hr : StopByte r) {s : St} (hs : s.classes = []) (hE : abs s = E) :
    ∃ s', parseReferenceables s i = (.ok r (), s') ∧ abs s' = E' ∧ s'.classes = [] :=
  loop_complete h hr hs hE (i.length + 1) (by omega)

theorem stop11 (t : Bytes) : StopByte (11 :: t) := stopByte_of 11 rfl (by simp)

theorem messageEnd_ok (t : Bytes) : MessageEnd.parse (11 :: t) = .ok t () :=
  (messageEnd_exact _ _ _).mpr ⟨[11], rfl, rfl⟩

/-- The content of a message: the method record if there is one, else the root object. -/
def Content (root : Nat) (m : Option (MethodCall ⊕ MethodReturn)) (E : Env) (c : RemotingMessage) :
    Prop :=
  match m with
  | some m => c = methodMessage m
  | none => ∃ v, RootValue root E v ∧ c = .value v

theorem finish_complete {root : Nat} {m : Option (MethodCall ⊕ MethodReturn)} {E : Env} {i : Bytes}
    {E' : Env} {t : Bytes} (h : Records E i E' (11 :: t)) {c : RemotingMessage}
    (hc : Content root m E' c) {s : St} (hs : s.classes = []) (hE : abs s = E) :
    ∃ s', finish root m s i = (if t.isEmpty then .ok [] c else .error ⟨t, .trailingData⟩, s') := by
  obtain ⟨s1, h1, hE1, hs1⟩ := loops h (stop11 t) hs hE
  unfold finish
  simp only [h1, Res.bind, lift, messageEnd_ok]
  by_cases ht : t.isEmpty
  · simp only [ht, if_true]
    have : t = [] := by simpa using ht
    subst this
    unfold selectRoot
    cases m with
    | some m =>
      unfold Content at hc
      subst hc
      cases m <;> exact ⟨s1, rfl⟩
    | none =>
      obtain ⟨v, hv, rfl⟩ := hc
      rcases hv with ⟨rfl, rfl⟩ | ⟨h0, hv⟩
      · exact ⟨s1, rfl⟩
      · simp only [rootOf, h0, if_false]
        have : s1.objects.get? root = some v := by rw [← hE1] at hv; exact hv
        rw [this]
        exact ⟨_, rfl⟩
  · simp only [ht]
    exact ⟨s1, rfl⟩

/-- Completeness, with what trails the message. -/
theorem message_complete {w : Bytes} {m : RemotingMessage} {t : Bytes} (h : MessageThen w m t) :
    ∃ s', parseRemotingMessage St.init w =
      (if t.isEmpty then .ok [] m else .error ⟨t, .trailingData⟩, s') := by
  cases h with
  | @mk root hd i E i1 _ _ hh hrec htail =>
    rw [parse_unfold hh]
    cases htail with
    | value hv =>
      obtain ⟨s1, h1, hE1, hs1⟩ := loops hrec (stop11 t) rfl abs_init
      simp only [h1, Res.bind]
      obtain ⟨e1, he1⟩ := parseMethodCall_mismatch (s := s1) (root := rootOf root) (i := 11 :: t)
        (by simp) (by simp)
      obtain ⟨e2, he2⟩ := parseMethodReturn_mismatch (s := s1) (root := rootOf root) (i := 11 :: t)
        (by simp) (by simp)
      have ho : optS (parseMethodCallOrReturn (rootOf root)) s1 (11 :: t) = (.ok (11 :: t) none, s1) := by
        unfold optS parseMethodCallOrReturn
        rw [altMut_skip ⟨e1, by simp only [he1]; rfl⟩, altMut_skip ⟨e2, by simp only [he2]; rfl⟩]
        rfl
      rw [ho]
      exact finish_complete (m := none) .nil ⟨_, hv, rfl⟩ hs1 hE1
    | method hm hrec2 =>
      have hst : StopByte i1 := by
        cases hm with
        | call _ hb => exact stopByte_of 21 (methodCall_head hb) (by simp)
        | «return» _ hb => exact stopByte_of 22 (methodReturn_head hb) (by simp)
      obtain ⟨s1, h1, hE1, hs1⟩ := loops hrec hst rfl abs_init
      obtain ⟨s2, h2, hE2, hs2⟩ := method_complete hm hs1 hE1
      have ho : ∀ r x s2, parseMethodCallOrReturn (rootOf root) s1 i1 = (.ok r x, s2) →
          optS (parseMethodCallOrReturn (rootOf root)) s1 i1 = (.ok r (some x), s2) := by
        intro r x s2 h
        unfold optS
        rw [h]
        rfl
      simp only [h1, Res.bind, ho _ _ _ h2]
      exact finish_complete (m := some _) hrec2 rfl hs2 hE2

theorem deserialize_complete {w : Bytes} {m : RemotingMessage} (h : Message w m) :
    deserialize w = .ok m := by
  obtain ⟨s', h'⟩ := message_complete h
  unfold deserialize
  rw [h']
  rfl

/-! ## Soundness -/

theorem finish_sound {root : Nat} {m : Option (MethodCall ⊕ MethodReturn)} {s s' : St}
    (hs : s.classes = []) {i r : Bytes} {c : RemotingMessage}
    (h : finish root m s i = (.ok r c, s')) :
    ∃ E, Records (abs s) i E [11] ∧ Content root m E c ∧ r = [] := by
  unfold finish at h
  generalize hx : parseReferenceables s i = x at h
  obtain ⟨o, s1⟩ := x
  cases o with
  | ok r1 u =>
    simp only [Res.bind, lift] at h
    obtain ⟨s2, e, h1, h2, h3, h4⟩ := loop_sound _ hs hx
    cases hp : MessageEnd.parse r1 with
    | ok r2 u2 =>
      rw [hp] at h
      simp only at h
      obtain ⟨b, rfl, rfl⟩ := (messageEnd_exact _ _ _).mp hp
      split at h
      · rename_i hr
        have hr2 : r2 = [] := by simpa using hr
        subst hr2
        have hss : s1 = s2 := by
          obtain ⟨e', he'⟩ := referenceable_stop (s := s2) (i := [11] ++ []) (stop11 [])
          rw [he'] at h3
          cases h3
          rfl
        subst hss
        refine ⟨abs s1, h1, ?_⟩
        unfold selectRoot at h
        cases m with
        | some m =>
          cases m <;> (cases h; exact ⟨rfl, rfl⟩)
        | none =>
          simp only at h
          unfold rootOf at h
          by_cases h0 : root = 0
          · simp only [h0, if_true] at h
            cases h
            exact ⟨⟨.null, .inl ⟨h0, rfl⟩, rfl⟩, rfl⟩
          · simp only [h0, if_false] at h
            split at h
            · rename_i v hv
              cases h
              exact ⟨⟨v, .inr ⟨h0, hv⟩, rfl⟩, rfl⟩
            · cases h
      · cases h
    | _ => rw [hp] at h; cases h
  | _ => cases h

/-- A library record that a failed attempt has already registered makes the next attempt fail. -/
theorem library_again {p : SP α} {s s' : St} {i : Bytes} {e : Error}
    (h12 : i.head? = some 12) (hp : p s i = (.error e, s'))
    (hmono : (parseBinaryLibrary s i).2.LibsLe s')
    (hfail : ∀ e s1, parseBinaryLibrary s i = (.failure e, s1) → ∃ e' s2, p s i = (.failure e', s2)) :
    (∃ e s1, parseBinaryLibrary s' i = (.failure e, s1)) ∨
      (NoLibrary i ∧ ∀ s, parseBinaryLibrary s i = (.ok i (), s)) := by
  cases hl : BinaryLibrary.parse i with
  | error e1 => exact .inr ⟨library_error_iff.mp ⟨e1, hl⟩, fun s => opt_lib_none hl s⟩
  | ok r l =>
    left
    have hx : (parseBinaryLibrary s i).2.libs.get? l.libraryId = some l.libraryName := by
      unfold parseBinaryLibrary lift opt
      rw [hl]
      simp only [Outcome.map, Res.bind]
      split <;> simp [AMap.get?_insert]
    have := hmono l.libraryId (by rw [hx]; rfl)
    unfold parseBinaryLibrary lift opt
    rw [hl]
    simp only [Outcome.map, Res.bind, this, if_true]
    exact ⟨_, _, rfl⟩
  | failure e1 =>
    exfalso
    have : parseBinaryLibrary s i = (.failure e1, s) := by
      unfold parseBinaryLibrary lift opt
      rw [hl]
      rfl
    obtain ⟨e', s2, h2⟩ := hfail _ _ this
    rw [hp] at h2
    cases h2
  | panic =>
    exfalso
    have hg := (binaryLibrary_good (w := i) (List.suffix_refl i))
    rw [hl] at hg
    exact hg
  | diverge =>
    exfalso
    have hg := (binaryLibrary_good (w := i) (List.suffix_refl i))
    rw [hl] at hg
    exact hg


theorem classesBody_lib {classes : SP (Nat × Object)} {referenceable : SP Nat}
    (hm : LibMono classes) (hmr : LibMono referenceable) (s : St) (i : Bytes) :
    (parseBinaryLibrary s i).2.LibsLe (classesBody classes referenceable s i).2 := by
  unfold classesBody
  refine Res.bind_mono (.refl _) fun _ s1 r1 h1 => ?_
  refine Res.bind_mono (h1.trans (classHeader_mono s1 r1)) fun ⟨id, c⟩ s2 r2 h2 => ?_
  simp only
  split
  · exact h2
  · refine Res.bind_mono (h2.trans (classMembers_mono hm r1 c s2 r2)) fun ⟨l, ms⟩ s3 r3 h3 => ?_
    exact Res.bind_mono (h3.trans (resolveMembers_mono hmr ms s3 r3)) fun vs s4 r4 h4 => h4

theorem referenceable_lib (s : St) (i : Bytes) :
    (parseBinaryLibrary s i).2.LibsLe (parseReferenceable s i).2 := by
  have hm := recAt_mono i.length
  have h1 := classesBody_lib hm.1 hm.2 s i
  unfold parseReferenceable
  simp only [recAt]
  unfold referenceableBody
  refine Res.bind_mono ?_ fun ⟨id, v⟩ s1 r1 h1 => h1
  simp only [altMut]
  generalize hx : classesBody (recAt i.length).classes (recAt i.length).referenceable s i = x at h1
  obtain ⟨o, s1⟩ := x
  have ha := arraysBody_mono hm.1 hm.2 s1 i
  generalize hy : arraysBody (recAt i.length).classes (recAt i.length).referenceable s1 i = y at ha
  obtain ⟨o2, s2⟩ := y
  cases o <;> simp only [Res.map, Outcome.map] <;> try exact h1
  simp only [hy]
  cases o2 <;> simp only [Outcome.map] <;> try exact h1.trans ha
  simp only [lift]
  split
  · rename_i heq
    simp only [Prod.mk.injEq] at heq
    rw [← heq.2]; exact h1.trans ha
  · exact h1.trans ha

theorem referenceable_lib_failure {s s1 : St} {i : Bytes} {e : Error}
    (h : parseBinaryLibrary s i = (.failure e, s1)) :
    ∃ e s2, parseReferenceable s i = (.failure e, s2) := by
  unfold parseReferenceable
  simp only [recAt]
  unfold referenceableBody
  simp only [altMut]
  have : classesBody (recAt i.length).classes (recAt i.length).referenceable s i = (.failure e, s1) := by
    unfold classesBody
    rw [h]
    rfl
  simp only [this]
  exact ⟨_, _, rfl⟩

theorem no_record_12 {E : Env} {i : Bytes} (h12 : i.head? = some 12) (hn : NoLibrary i) {id : Nat}
    {v : Value} {E' : Env} {r : Bytes} : ¬ Record E i id v E' r := by
  intro h
  cases h with
  | object h =>
    cases h with
    | mk hl hb =>
      cases hl with
      | none =>
        rcases classHead_byte ‹_› with h | h | h | h <;> rw [h] at h12 <;> cases h12
      | some hlib _ =>
        obtain ⟨e, he⟩ := library_error_iff.mpr hn
        have := fun r => (library_exact _ r ⟨_, _⟩).mpr ⟨_, hlib, rfl⟩
        rw [this] at he
        cases he
  | objectArray h => rw [arrayHead_head h] at h12; cases h12
  | primitiveArray h => rw [List.append_assoc, primitiveArrayHead_head h] at h12; cases h12
  | stringArray h => rw [arrayHead_head h] at h12; cases h12
  | array h => rw [binaryArrayHead_head h] at h12; cases h12
  | string h => rw [string_head h] at h12; cases h12

theorem referenceable_no_record {s s' : St} (hs : s.classes = []) {i : Bytes} {e : Error}
    (h : parseReferenceable s i = (.error e, s')) : ¬ ∃ id v E' r, Record (abs s) i id v E' r := by
  rintro ⟨id, v, E', r, hr⟩
  obtain ⟨s2, h2, _⟩ := (parseReferenceable_match hs i).2 id _ r ⟨v, E', hr, rfl⟩
  rw [h] at h2
  cases h2

/-- A record can be read when the library in front of it can. -/
theorem records_12 {s : St} (hs : s.classes = []) {i : Bytes} (h12 : i.head? = some 12) {E : Env}
    {t : Bytes} (h : Records (abs s) i E (11 :: t))
    (hl : (∃ e s1, parseBinaryLibrary s i = (.failure e, s1)) ∨
      (NoLibrary i ∧ ∀ s, parseBinaryLibrary s i = (.ok i (), s))) : False := by
  cases h with
  | nil => simp at h12
  | cons hr _ =>
    rcases hl with ⟨e, s1, hl⟩ | ⟨hn, _⟩
    · obtain ⟨e2, s2, h2⟩ := referenceable_lib_failure hl
      obtain ⟨s3, h3, _⟩ := (parseReferenceable_match hs i).2 _ _ _ ⟨_, _, hr, rfl⟩
      rw [h2] at h3
      cases h3
    · exact no_record_12 h12 hn hr

/-- As `Retried`, with the states of the parser. -/
inductive RetriedS : Bytes → RemotingMessage → Prop
  | value {root h i i1 E2 v} {s s' : St} {e : Error} : IsHeader root h → Records Env.empty i (abs s) i1 →
      s.classes = [] → s'.classes = [] → parseReferenceable s i1 = (.error e, s') →
      (∃ tag ∈ [2, 3, 4, 5, 7, 16, 17], i1.head? = some tag) →
      Records (abs s') i1 E2 [11] → RootValue root E2 v → RetriedS (h ++ i) (.value v)
  | call {root h i b i1 f name type context inline args E2} {s s' : St} {e : Error} : IsHeader root h →
      Records Env.empty i (abs s) (b ++ i1) → s.classes = [] → s'.classes = [] → FlagsOk f →
      IsMethodCall f name type context inline b →
      (¬ ∃ callArray E' r, CallArray root (abs s) i1 callArray E' r) → i1.head? = some 16 →
      parseCallArray (rootOf root) s i1 = (.error e, s') →
      ArgsFrom f none inline args → Records (abs s') i1 E2 [11] →
      RetriedS (h ++ i) (.methodCall ⟨name, type, context, args⟩)
  | return {root h i b i1 f value context inline args E2} {s s' : St} {e : Error} : IsHeader root h →
      Records Env.empty i (abs s) (b ++ i1) → s.classes = [] → s'.classes = [] → FlagsOk f →
      IsMethodReturn f value context inline b →
      (¬ ∃ callArray E' r, CallArray root (abs s) i1 callArray E' r) → i1.head? = some 16 →
      parseCallArray (rootOf root) s i1 = (.error e, s') →
      ArgsFrom f none inline args → Records (abs s') i1 E2 [11] →
      RetriedS (h ++ i) (.methodReturn ⟨value, context, args⟩)

theorem message_states {w : Bytes} {m : RemotingMessage} (h : deserialize w = .ok m) :
    Message w m ∨ RetriedS w m := by
  unfold deserialize at h
  generalize hx : parseRemotingMessage St.init w = x at h
  obtain ⟨o, sx⟩ := x
  cases o with
  | ok rx mx =>
    cases h
    -- the header
    obtain ⟨root, hd, i, hh, rfl⟩ : ∃ root hd i, IsHeader root hd ∧ w = hd ++ i := by
      cases hp : SerializationHeader.parse w with
      | ok r a =>
        obtain ⟨root, b, h1, h2, _⟩ := header_sound hp
        exact ⟨root, b, r, h1, h2⟩
      | _ =>
        unfold parseRemotingMessage at hx
        simp only [lift, hp, Res.bind] at hx
        cases hx
    rw [parse_unfold hh] at hx
    -- the first pass
    generalize h1 : parseReferenceables St.init i = x1 at hx
    obtain ⟨o1, s2⟩ := x1
    cases o1 with
    | ok i1 u =>
      simp only [Res.bind] at hx
      obtain ⟨s1, e1, hrec, hs1, herr, hs2⟩ := loop_sound _ rfl h1
      rw [abs_init] at hrec
      have hnone := referenceable_no_record hs1 herr
      -- no method record
      have none_case : ∀ (hmm : optS (parseMethodCallOrReturn (rootOf root)) s2 i1 = (.ok i1 none, s2)),
          ∃ E2 v, Records (abs s2) i1 E2 [11] ∧ RootValue root E2 v ∧ m = .value v := by
        intro hmm
        rw [hmm] at hx
        obtain ⟨E, hr2, ⟨v, hv, rfl⟩, _⟩ := finish_sound hs2 hx
        exact ⟨E, v, hr2, hv, rfl⟩
      have mismatch : i1.head? ≠ some 21 → i1.head? ≠ some 22 → i1.head? ≠ some 12 →
          optS (parseMethodCallOrReturn (rootOf root)) s2 i1 = (.ok i1 none, s2) := by
        intro h21 h22 h12
        obtain ⟨e1, he1⟩ := parseMethodCall_mismatch (s := s2) (root := rootOf root) h21 h12
        obtain ⟨e2, he2⟩ := parseMethodReturn_mismatch (s := s2) (root := rootOf root) h22 h12
        unfold optS parseMethodCallOrReturn
        rw [altMut_skip ⟨e1, by simp only [he1]; rfl⟩, altMut_skip ⟨e2, by simp only [he2]; rfl⟩]
        rfl
      by_cases hst : StopByte i1
      · -- a byte no record starts with: nothing was attempted
        obtain ⟨e', he'⟩ := referenceable_stop (s := s1) hst
        rw [he'] at herr
        have hss := (Prod.mk.inj herr).2
        subst hss
        have h12 : i1.head? ≠ some 12 := fun h => hst.1 (.inl h)
        generalize hmm : optS (parseMethodCallOrReturn (rootOf root)) s1 i1 = xm at hx
        obtain ⟨om, s3⟩ := xm
        cases om with
        | ok i2 mo =>
          simp only at hx
          rcases optS_ok hmm with ⟨mm, rfl, hm⟩ | ⟨e, rfl, rfl, hm⟩
          · obtain ⟨hs3, hhead, hmeth | ⟨hh2, ⟨ec, hec⟩, hnc, hcase⟩⟩ := method_sound hs1 h12 hm
            · obtain ⟨E, hr2, rfl, _⟩ := finish_sound hs3 hx
              exact .inl (.mk hh hrec (.method hmeth hr2))
            · obtain ⟨E, hr2, rfl, _⟩ := finish_sound hs3 hx
              rcases hh2 with h16 | h12'
              · rcases hcase with ⟨f, name, type, context, inline, args, b, hf, hb, rfl, ha, rfl⟩ |
                  ⟨f, value, context, inline, args, b, hf, hb, rfl, ha, rfl⟩
                · exact .inr (.call hh hrec hs1 hs3 hf hb hnc h16 hec ha hr2)
                · exact .inr (.return hh hrec hs1 hs3 hf hb hnc h16 hec ha hr2)
              · exfalso
                refine records_12 hs3 h12' hr2 (library_again h12' hec ?_ ?_)
                · have hcm : (parseBinaryLibrary s1 i2).2.LibsLe (parseCallArray (rootOf root) s1 i2).2 := by
                    unfold parseCallArray
                    refine Res.bind_mono (.refl _) fun _ s r h => ?_
                    refine Res.bind_mono (h.trans (arraySingleObject_mono parsers_mono.1 parsers_mono.2 s r))
                      fun ⟨id, vs⟩ s r h => ?_
                    simp only
                    split <;> exact h
                  rw [hec] at hcm
                  exact hcm
                · intro e s1' hf
                  unfold parseCallArray
                  rw [hf]
                  exact ⟨_, _, rfl⟩
          · -- no method record
            have hs3 : s3.classes = [] := by
              have hg := ((parseMethodCallOrReturn_good (pol := polTrue i2) (fun _ _ _ _ => trivial)
                (rootOf root) (i2.length + 1) s1 i2 ⟨hs1, fun _ _ => trivial, fun _ _ => trivial⟩
                (List.suffix_refl _) (by omega)).1).1
              rw [hm] at hg
              exact hg
            obtain ⟨E, hr2, ⟨v, hv, rfl⟩, _⟩ := finish_sound hs3 hx
            cases hr2 with
            | nil =>
              have := mismatch (by simp) (by simp) (by simp)
              rw [hmm] at this
              cases this
              exact .inl (.mk hh hrec (.value hv))
            | cons hr _ =>
              exfalso
              rcases record_byte hr with h | h | h
              · exact hst.1 h
              · exact hst.2.2.1 h
              · exact hst.2.2.2 h
        | _ => cases hx
      · by_cases h12 : i1.head? = some 12
        · exfalso
          have hmono := referenceable_lib s1 i1
          rw [herr] at hmono
          have hagain := library_again h12 herr hmono fun e s1' hf => referenceable_lib_failure hf
          have hoo : optS (parseMethodCallOrReturn (rootOf root)) s2 i1 = (.ok i1 none, s2) ∨
              ∃ e s3, optS (parseMethodCallOrReturn (rootOf root)) s2 i1 = (.failure e, s3) := by
            rcases hagain with ⟨e, s3, hf⟩ | ⟨hn, hok⟩
            · right
              have : parseMethodCall (rootOf root) s2 i1 = (.failure e, s3) := by
                unfold parseMethodCall
                rw [hf]
                rfl
              unfold optS parseMethodCallOrReturn
              simp only [altMut, this]
              exact ⟨_, _, rfl⟩
            · left
              obtain ⟨e3, he3⟩ := methodCall_mismatch (i := i1) (by rw [h12]; decide)
              obtain ⟨e4, he4⟩ := methodReturn_mismatch (i := i1) (by rw [h12]; decide)
              have h3 : parseMethodCall (rootOf root) s2 i1 = (.error e3, s2) := by
                unfold parseMethodCall
                rw [hok]
                simp only [Res.bind, lift, he3]
              have h4 : parseMethodReturn (rootOf root) s2 i1 = (.error e4, s2) := by
                unfold parseMethodReturn
                rw [hok]
                simp only [Res.bind, lift, he4]
              unfold optS parseMethodCallOrReturn
              rw [altMut_skip ⟨e3, by simp only [h3]; rfl⟩, altMut_skip ⟨e4, by simp only [h4]; rfl⟩]
              rfl
          rcases hoo with hoo | ⟨e, s3, hoo⟩
          · obtain ⟨E2, v, hr2, _⟩ := none_case hoo
            exact records_12 hs2 h12 hr2 hagain
          · rw [hoo] at hx
            cases hx
        · have hbyte : ∃ c : UInt8, i1.head? = some c ∧
              c ∈ ([1, 2, 3, 4, 5, 6, 7, 15, 16, 17] : List UInt8) := by
            unfold StopByte at hst
            simp only [Classical.not_and_iff_not_or_not, Classical.not_not] at hst
            rcases hst with (h | h | h | h | h) | h | (h | h | h | h) | h
            · exact absurd h h12
            all_goals exact ⟨_, h, by decide⟩
          obtain ⟨c, hc, hmem⟩ := hbyte
          have ne : ∀ d, d ∉ ([1, 2, 3, 4, 5, 6, 7, 15, 16, 17] : List UInt8) → i1.head? ≠ some d := by
            intro d hd h
            rw [hc] at h
            cases h
            exact hd hmem
          obtain ⟨E2, v, hr2, hv, rfl⟩ := none_case (mismatch (ne _ (by decide)) (ne _ (by decide)) h12)
          by_cases htag : c ∈ ([2, 3, 4, 5, 7, 16, 17] : List UInt8)
          · exact .inr (.value hh hrec hs1 hs2 herr ⟨c, htag, hc⟩ hr2 hv)
          · exfalso
            have hc' : c = 1 ∨ c = 6 ∨ c = 15 := by
              simp only [List.mem_cons, List.not_mem_nil, or_false] at hmem htag
              simp only [not_or] at htag
              rcases hmem with h | h | h | h | h | h | h | h | h | h <;> simp_all
            cases hr2 with
            | nil => simp at hc; subst hc; simp at hc'
            | cons hr _ =>
              apply hnone
              cases hr with
              | object h =>
                exfalso
                rcases class_byte h with h | h | h | h | h <;> rw [hc] at h <;> cases h <;> simp at hc'
              | objectArray h => rw [arrayHead_head h] at hc; cases hc; simp at hc'
              | primitiveArray h hseq => exact ⟨_, _, _, _, .primitiveArray h hseq⟩
              | stringArray h => rw [arrayHead_head h] at hc; cases hc; simp at hc'
              | array h => rw [binaryArrayHead_head h] at hc; cases hc; simp at hc'
              | string h => exact ⟨_, _, _, _, .string h⟩
    | _ => cases hx
  | _ => cases h

end Nrbf
