import Verif.Lemmas.PanicsRec
import Verif.Lemmas.BrokenMessage

/-! # When exactly a message panics -/

set_option autoImplicit false

namespace Nrbf
open Spec

variable {α β : Type} [Platform] {L : Nat} {classes : SP (Nat × Object)} {referenceable : SP Nat}

/-! ## Referenceables -/

omit [Platform] in
theorem altMut_pfirst {p : SP α} {ps : List (SP α)} {s : St} {i : Bytes} {P : Prop}
    (hp : PMatch (p s i) P) (h : ∀ e s', p s i = (.error e, s') → (altMut ps s' i).1 ≠ .panic) :
    PMatch (altMut (p :: ps) s i) P := by
  refine Iff.trans ?_ hp
  simp only [altMut]
  cases hx : p s i with
  | mk x s1 =>
    cases x with
    | error e => simp [h e s1 hx]
    | _ => simp

theorem panicRecord_tag {E : Env} {i : Bytes} (h : PanicRecord E i) :
    PanicClass E i ∨
    (i.head? = some 16 ∧ ∃ id len b i1, IsArrayHead 16 id len b ∧ i = b ++ i1 ∧ (PanicFill none len E i1 ∨
      ∃ slots E2 i2, Fill none len E i1 slots E2 i2 ∧ PanicResolve slots E2 i2)) ∨
    (i.head? = some 17 ∧ ∃ id len b i1, IsArrayHead 17 id len b ∧ i = b ++ i1 ∧ (PanicFill (some .stringArray) len E i1 ∨
      ∃ slots E2 i2, Fill (some .stringArray) len E i1 slots E2 i2 ∧ PanicResolve slots E2 i2)) ∨
    (i.head? = some 7 ∧ ∃ id kind lengths T b i1, IsBinaryArrayHead id kind lengths T b ∧ i = b ++ i1 ∧
        ∃ n, productUsize 1 lengths = some n ∧ (PanicMembers (List.replicate n (some T)) E i1 ∨
          ∃ slots E2 i2, Members (List.replicate n (some T)) E i1 slots E2 i2 ∧
            (PanicResolve slots E2 i2 ∨ ∃ vs E3 i3, Resolve slots E2 i2 vs E3 i3 ∧
              ¬ lengths.tail.prod ∣ vs.length))) := by
  cases h with
  | object h => exact .inl h
  | objectArrayElements h1 h2 => exact .inr (.inl ⟨arrayHead_head h1, _, _, _, _, h1, rfl, .inl h2⟩)
  | objectArrayReferences h1 h2 h3 => exact .inr (.inl ⟨arrayHead_head h1, _, _, _, _, h1, rfl, .inr ⟨_, _, _, h2, h3⟩⟩)
  | stringArrayReferences h1 h2 h3 =>
    exact .inr (.inr (.inl ⟨arrayHead_head h1, _, _, _, _, h1, rfl, .inr ⟨_, _, _, h2, h3⟩⟩))
  | arrayElements h1 h2 h3 =>
    exact .inr (.inr (.inr ⟨binaryArrayHead_head h1, _, _, _, _, _, _, h1, rfl, _, h2, .inl h3⟩))
  | arrayReferences h1 h2 h3 h4 =>
    exact .inr (.inr (.inr ⟨binaryArrayHead_head h1, _, _, _, _, _, _, h1, rfl, _, h2, .inr ⟨_, _, _, h3, .inl h4⟩⟩))
  | shape h =>
    obtain ⟨id, kind, lengths, T, b, n, i1, slots, E2, i2, vs, E3, i3, rfl, h1, h2, h3, h4, h5⟩ := h
    exact .inr (.inr (.inr ⟨binaryArrayHead_head h1, _, _, _, _, _, _, h1, rfl, _, h2,
      .inr ⟨_, _, _, h3, .inr ⟨_, _, _, h4, h5⟩⟩⟩))

theorem panicFill_string : ∀ {T : Option MemberType} {len : Nat} {E : Env} {i : Bytes}, PanicFill T len E i →
    T = some .stringArray → False
  | _, _, _, _, .here _ h, hT => by subst hT; cases h
  | _, _, _, _, .later _ _ h, hT => panicFill_string h hT

theorem primitiveArray_pmatch (s : St) (i : Bytes) : PMatch (arraySinglePrimitive s i) False := by
  refine .never fun e => ?_
  unfold arraySinglePrimitive lift at e
  have h2 : PG i (fun _ => True) i.length 1 ((ArraySinglePrimitive.parse i).bind fun (info, t) i =>
      (count (fun i => (memberPrimitiveUnTyped t i).map Prim.intoValue) info.length i).map
        fun vs => (info.objectId, vs)) := by
    refine (arraySinglePrimitiveRec_good (List.suffix_refl i)).bind fun ⟨info, t⟩ r hr _ hinfo => ?_
    refine (count_good (V := fun _ => True) (fun i hi => ?_) info.length hr).map fun vs h => trivial
    exact (untyped_good t hi).k0.map fun p h => trivial
  simp only at e
  rw [e] at h2
  exact h2

theorem arrays_pmatch (hsem : RecSem L classes referenceable) (hpan : RecPanic L classes referenceable)
    {s : St} (hs : s.classes = []) {i : Bytes} (hl : i.length < L + 1) (ha : ArrayByte i) :
    PMatch (altMut [arraySingleObject classes referenceable, arraySinglePrimitive,
        arraySingleString classes referenceable, binaryArray classes referenceable] s i) (PanicRecord (abs s) i) := by
  have nc : ¬ PanicClass (abs s) i := by
    intro h
    have hc := panicClass_head h
    unfold ClassByte at hc
    rcases ha with h | h | h | h <;> rw [h] at hc <;> simp at hc
  have last : ∀ s', ∃ e, altMut (α := Nat × List Value) [] s' i = (.error e, s') := fun s' => ⟨_, rfl⟩
  have skip : ∀ {p : SP (Nat × List Value)} {ps : List (SP (Nat × List Value))},
      (∀ s', ∃ e, p s' i = (.error e, s')) → (∀ s', ∃ e, altMut ps s' i = (.error e, s')) →
      ∀ s', ∃ e, altMut (p :: ps) s' i = (.error e, s') := by
    intro p ps h1 h2 s'
    rw [altMut_skip (h1 s')]
    exact h2 s'
  have fine : ∀ {ps : List (SP (Nat × List Value))}, (∀ s', ∃ e, altMut ps s' i = (.error e, s')) →
      ∀ s', (altMut ps s' i).1 ≠ .panic := by
    intro ps h s' hx
    obtain ⟨e, he⟩ := h s'
    rw [he] at hx
    cases hx
  have nohead : ∀ {V : ArrayInfo → Prop} {n k} {p : Parser ArrayInfo}, PG i V n k (p i) → p i ≠ .panic := by
    intro V n k p hg h
    rw [h] at hg; exact hg
  by_cases h16 : i.head? = some 16
  · refine altMut_pfirst ((arrayOf_pmatch hsem hpan none arraySingleObject_exact hs
      (nohead (arraySingleObjectRec_good (List.suffix_refl i))) hl).congr ?_)
      (fun _ s' _ => fine (skip (arraySinglePrimitive_mismatch (by rw [h16]; decide))
        (skip (arraySingleString_mismatch (by rw [h16]; decide))
          (skip (binaryArray_mismatch (by rw [h16]; decide)) last))) s')
    constructor
    · rintro ⟨id, len, b, i1, hb, rfl, h | ⟨slots, E2, i2, h1, h2⟩⟩
      · exact .objectArrayElements hb h
      · exact .objectArrayReferences hb h1 h2
    · intro h
      rcases panicRecord_tag h with h | ⟨_, h⟩ | ⟨h', _⟩ | ⟨h', _⟩
      · exact absurd h nc
      · exact h
      all_goals rw [h16] at h'; cases h'
  rw [altMut_skip (arraySingleObject_mismatch h16 s)]
  by_cases h15 : i.head? = some 15
  · refine altMut_pfirst ((primitiveArray_pmatch s i).congr ?_)
        (fun _ s' _ => fine (skip (arraySingleString_mismatch (by rw [h15]; decide))
          (skip (binaryArray_mismatch (by rw [h15]; decide)) last)) s')
    refine ⟨False.elim, fun h => ?_⟩
    rcases panicRecord_tag h with h | ⟨h', _⟩ | ⟨h', _⟩ | ⟨h', _⟩
    · exact absurd h nc
    all_goals rw [h15] at h'; cases h'
  rw [altMut_skip (arraySinglePrimitive_mismatch h15 s)]
  by_cases h17 : i.head? = some 17
  · refine altMut_pfirst ((arrayOf_pmatch hsem hpan (some .stringArray) arraySingleString_exact hs
      (nohead (arraySingleStringRec_good (List.suffix_refl i))) hl).congr ?_)
      (fun _ s' _ => fine (skip (binaryArray_mismatch (by rw [h17]; decide)) last) s')
    constructor
    · rintro ⟨id, len, b, i1, hb, rfl, h | ⟨slots, E2, i2, h1, h2⟩⟩
      · exact (panicFill_string h rfl).elim
      · exact .stringArrayReferences hb h1 h2
    · intro h
      rcases panicRecord_tag h with h | ⟨h', _⟩ | ⟨_, h⟩ | ⟨h', _⟩
      · exact absurd h nc
      · rw [h17] at h'; cases h'
      · exact h
      · rw [h17] at h'; cases h'
  rw [altMut_skip (arraySingleString_mismatch h17 s)]
  refine altMut_pfirst ((binaryArray_pmatch hsem hpan hs hl).congr ?_) (fun _ s' _ => fine last s')
  constructor
  · rintro ⟨id, kind, lengths, T, b, i1, hb, rfl, n, hn, h | ⟨slots, E2, i2, h1, h2 | ⟨vs, E3, i3, h2, h3⟩⟩⟩
    · exact .arrayElements hb hn h
    · exact .arrayReferences hb hn h1 h2
    · exact .shape ⟨id, kind, lengths, T, b, n, i1, slots, E2, i2, vs, E3, i3, rfl, hb, hn, h1, h2, h3⟩
  · intro h
    rcases panicRecord_tag h with h | ⟨h', _⟩ | ⟨h', _⟩ | ⟨_, h⟩
    · exact absurd h nc
    · exact absurd h' h16
    · exact absurd h' h17
    · exact h

theorem alternatives_pmatch (hsem : RecSem L classes referenceable) (hpan : RecPanic L classes referenceable)
    (hm : LibMono classes) (hmr : LibMono referenceable) {s : St} (hs : s.classes = []) {i : Bytes}
    (hl : i.length < L + 1) : PMatch (altMut (refAlts classes referenceable) s i) (PanicRecord (abs s) i) := by
  have hcls := classesBody_pmatch hsem hpan hs hl
  by_cases hb : ClassByte i ∨ i.head? = some 1
  · have ne : ∀ tag : UInt8, tag ∉ [12, 1, 2, 3, 4, 5] → i.head? ≠ some tag := by
      intro tag ht h
      refine ht ?_
      rcases hb with (h' | h' | h' | h' | h') | h' <;> rw [h] at h' <;> cases h' <;> simp
    refine altMut_pfirst ((hcls.map _).congr ?_) fun e s1 hx => ?_
    · refine ⟨.object, fun h => ?_⟩
      rcases panicRecord_tag h with h | ⟨h', _⟩ | ⟨h', _⟩ | ⟨h', _⟩
      · exact h
      all_goals exact absurd h' (ne _ (by decide))
    · have hx' : ∃ e, classesBody classes referenceable s i = (.error e, s1) := by
        cases hy : classesBody classes referenceable s i with
        | mk o s2 =>
          rw [hy] at hx
          cases o <;> simp [Res.map, Outcome.map] at hx
          exact ⟨_, by rw [hx.2]⟩
      obtain ⟨e', hx'⟩ := hx'
      obtain ⟨e3, h3⟩ := objectString_mismatch (i := i) (ne 6 (by decide)) s1
      rcases no_retry hm hmr hb hx' with ⟨e2, h2⟩ | ⟨e2, s2, h2, _⟩
      · rw [altMut_skip ⟨e2, by simp only [h2]; rfl⟩, altMut_skip ⟨e3, h3⟩]
        simp [altMut]
      · simp only [altMut, h2, Res.map, Outcome.map]
        simp
  simp only [not_or] at hb
  obtain ⟨hcb, h1⟩ := hb
  have h12 : i.head? ≠ some 12 := fun h => hcb (.inl h)
  obtain ⟨e, he⟩ := classesBody_other (classes := classes) (referenceable := referenceable) (s := s) hcb h1
  rw [refAlts, altMut_skip ⟨e, by simp only [he]; rfl⟩]
  have strs : ∀ s', (altMut [lift fun i => (BinaryObjectString.parse i).map fun b => (b.objectId, Value.string b.value)] s' i).1
      ≠ .panic := by
    intro s' hx
    have hg := bos_good (List.suffix_refl i)
    simp only [altMut, lift] at hx
    cases hp : BinaryObjectString.parse i with
    | panic => rw [hp] at hg; exact hg
    | _ => rw [hp] at hx; simp [Outcome.map] at hx
  refine altMut_pfirst ?_ fun _ s' _ => strs s'
  by_cases ha : ArrayByte i
  · simp only [arraysBody_plain h12]
    exact (arrays_pmatch hsem hpan hs hl ha).map _
  · obtain ⟨e, he⟩ := arraysBody_mismatch (classes := classes) (referenceable := referenceable) (s := s) h12 ha
    refine PMatch.congr (P := False) (.never (by simp [he, Res.map, Outcome.map])) ⟨False.elim, fun h => ?_⟩
    rcases panicRecord_tag h with h | ⟨h', _⟩ | ⟨h', _⟩ | ⟨h', _⟩
    · exact hcb (panicClass_head h)
    · exact ha (.inl h')
    · exact ha (.inr (.inr (.inl h')))
    · exact ha (.inr (.inr (.inr h')))

theorem referenceableBody_pmatch (hsem : RecSem L classes referenceable) (hpan : RecPanic L classes referenceable)
    (hm : LibMono classes) (hmr : LibMono referenceable) {s : St} (hs : s.classes = []) {i : Bytes}
    (hl : i.length < L + 1) :
    PMatch (referenceableBody (classesBody classes referenceable) (arraysBody classes referenceable) s i)
      (PanicRecord (abs s) i) := by
  unfold referenceableBody
  refine (PMatch.bind (referenceable_alt_match hsem hm hmr hs hl) (alternatives_pmatch hsem hpan hm hmr hs hl)
    (C := fun _ _ _ => False) fun x s1 i1 hs1 _ _ => PMatch.never (by simp)).congr ?_
  exact ⟨fun h => h.elim id fun ⟨_, _, _, _, h⟩ => h.elim, .inl⟩

/-- When the parser functions panic, on inputs shorter than the recursion depth. -/
theorem recPanic (n : Nat) : RecPanic n (recAt n).classes (recAt n).referenceable := by
  induction n with
  | zero => exact ⟨fun _ _ _ h => by omega, fun _ _ _ h => by omega⟩
  | succ n ih =>
    have hm := recAt_mono n
    exact ⟨fun s i hs hl => classesBody_pmatch (recSem n) ih hs hl,
      fun s i hs hl => referenceableBody_pmatch (recSem n) ih hm.1 hm.2 hs hl⟩

theorem parsersPanic (L : Nat) : RecPanic L parseClasses parseReferenceable :=
  ⟨fun s i hs _ => (recPanic (i.length + 1)).cls s i hs (by omega),
    fun s i hs _ => (recPanic (i.length + 1)).ref s i hs (by omega)⟩

/-! ## Messages -/

theorem pass_pmatch (fuel : Nat) {s : St} (hs : s.classes = []) {i : Bytes} (hl : i.length < fuel) :
    PMatch (referenceablesLoop fuel s i) (PanicPass (abs s) i) := by
  constructor
  · intro h
    induction fuel generalizing s i with
    | zero => omega
    | succ fuel ih =>
      simp only [referenceablesLoop] at h
      split at h
      · rename_i r id s1 he
        obtain ⟨⟨v, E1, hrec, hE⟩, hs1, hl1⟩ := (parseReferenceable_match hs i).1 _ _ _ he
        obtain ⟨E0, i', h1, h2⟩ := ih hs1 (by omega) h
        rw [hE] at h1
        exact ⟨E0, i', .cons hrec h1, h2⟩
      · simp at h
      · simp at h
      · rename_i s1 he
        exact ⟨_, _, .nil, ((parsersPanic (i.length + 1)).ref s i hs (by omega)).mp (by rw [he])⟩
      · simp at h
  · rintro ⟨E0, r, hrec, hbad⟩
    generalize hE : abs s = E at hrec
    induction hrec generalizing s fuel with
    | nil =>
      subst hE
      cases fuel with
      | zero => omega
      | succ fuel =>
        rename_i i
        have h1 := ((parsersPanic (i.length + 1)).ref s i hs (by omega)).mpr hbad
        cases hx : parseReferenceable s i with
        | mk o s1 =>
          rw [hx] at h1
          simp only at h1
          subst h1
          simp only [referenceablesLoop, hx]
    | @cons E i id v E1 i1 E2 i2 h1 _ ih =>
      subst hE
      cases fuel with
      | zero => omega
      | succ fuel =>
        have hm := parseReferenceable_match hs i
        obtain ⟨s1, he, hE1⟩ := hm.2 id _ i1 ⟨v, E1, h1, rfl⟩
        obtain ⟨_, hs1, hl1⟩ := hm.1 _ _ _ he
        have h' := ih (fuel := fuel) hs1 (by omega) hbad hE1
        simp only [referenceablesLoop, he]
        exact h'

theorem passes_pmatch {s : St} (hs : s.classes = []) (i : Bytes) :
    PMatch (parseReferenceables s i) (PanicPass (abs s) i) := pass_pmatch _ hs (by omega)

theorem callArray_pmatch {s : St} (hs : s.classes = []) (i : Bytes) (root : Nat) :
    PMatch (parseCallArray (rootOf root) s i) (PanicCallArray (abs s) i) := by
  unfold parseCallArray
  refine (PMatch.bind (library_match hs i) (library_pmatch s i) (C := fun _ E1 i1 =>
    ∃ id len b i2, IsArrayHead 16 id len b ∧ i1 = b ++ i2 ∧
      (PanicFill none len E1 i2 ∨ ∃ slots E2 i3, Fill none len E1 i2 slots E2 i3 ∧ PanicResolve slots E2 i3))
    fun _ s i hs _ hl => ?_).congr ?_
  · have hm := arrayOf_match (parsersSem (i.length + 1)) none arraySingleObject_exact hs (i := i) (by omega)
    refine (PMatch.bind hm
      (arrayOf_pmatch (parsersSem (i.length + 1)) (parsersPanic (i.length + 1)) none arraySingleObject_exact hs (i := i)
        (fun h => by
          have hg := arraySingleObjectRec_good (List.suffix_refl i)
          rw [h] at hg; exact hg) (by omega))
      (C := fun _ _ _ => False) fun x s1 i1 hs1 hx _ => ?_).congr
      ⟨fun h => h.elim id fun ⟨_, _, _, _, h⟩ => h.elim, .inl⟩
    obtain ⟨id, vs⟩ := x
    simp only
    split <;> exact .never (by simp)
  · constructor
    · rintro (h | ⟨_, E1, i1, hlib, id, len, b, i2, h1, rfl, h2 | ⟨slots, E2, i3, h2, h3⟩⟩)
      · exact h.elim
      · exact .elements hlib h1 h2
      · exact .references hlib h1 h2 h3
    · intro h
      cases h with
      | elements hlib h1 h2 => exact .inr ⟨(), _, _, hlib, _, _, _, _, h1, rfl, .inl h2⟩
      | references hlib h1 h2 h3 => exact .inr ⟨(), _, _, hlib, _, _, _, _, h1, rfl, .inr ⟨_, _, _, h2, h3⟩⟩

omit [Platform] in
theorem optS_pmatch {p : SP α} {s : St} {i : Bytes} {P : Prop} (h : PMatch (p s i) P) : PMatch (optS p s i) P := by
  refine Iff.trans ?_ h
  unfold optS
  cases p s i with
  | mk o s1 => cases o <;> simp [Res.map, Outcome.map]

theorem tail_pmatch {s : St} (hs : s.classes = []) (i : Bytes) (root : Nat) (h : MethodHead) :
    PMatch (methodTail root h s i) (PanicCallArray (abs s) i) := by
  unfold methodTail
  refine (PMatch.bind (optCallArray_match hs i root) (optS_pmatch (callArray_pmatch hs i root)) (C := fun _ _ _ => False)
    fun ca s1 i1 hs1 _ _ => ?_).congr ⟨fun h => h.elim id fun ⟨_, _, _, _, h⟩ => h.elim, .inl⟩
  cases argsOf h.1 ca h.2.1 <;> exact .never (by simp)

theorem method_pmatch {s : St} (hs : s.classes = []) {i : Bytes} (hn : NoLibrary i) (root : Nat) :
    PMatch (optS (parseMethodCallOrReturn (rootOf root)) s i) (PanicMethod (abs s) i) := by
  rw [method_unfold hn]
  have hnp : (lift (opt methodHead) s i).1 ≠ .panic := by
    have := (methodHead_total i).1
    simp only [lift, opt]
    cases hx : methodHead i <;> simp_all [Outcome.map]
  refine (PMatch.bind (optHead_match hs i) (.never hnp) (C := fun h E1 i1 => ∃ h', h = some h' ∧ PanicCallArray E1 i1)
    fun h s1 i1 hs1 _ _ => ?_).congr ?_
  · cases h with
    | some h => exact ((tail_pmatch hs1 i1 root h).map some).congr ⟨fun h1 => ⟨h, rfl, h1⟩, fun ⟨_, _, h1⟩ => h1⟩
    | none => exact (PMatch.never (by simp)).congr (by simp)
  · constructor
    · rintro (h | ⟨h, E1, i1, ⟨rfl, ⟨h', b, rfl, hb, rfl⟩ | ⟨rfl, rfl, _⟩⟩, h'', e, h1⟩)
      · exact h.elim
      · exact ⟨_, _, _, b, i1, hb, rfl, h1⟩
      · cases e
    · rintro ⟨f, inline, method, b, i1, hb, rfl, h⟩
      exact .inr ⟨some (f, inline, method), _, i1, ⟨rfl, .inl ⟨_, b, rfl, hb, rfl⟩⟩, _, rfl, h⟩

theorem ending_panic (root : Nat) (m : Option (MethodCall ⊕ MethodReturn)) (s : St) (i : Bytes) :
    (ending root m s i).1 ≠ .panic := by
  rcases input_cases i with h | ⟨t, ht, rfl⟩ | rfl
  · rw [ending_none h]; simp
  · rw [ending_trailing ht]; simp
  · rw [ending_root]
    unfold selectRoot
    split
    · simp
    · simp
    · split
      · split <;> simp
      · simp

/-- What is behind the header panics. -/
theorem body_panics {root : Nat} {h : Bytes} (hh : IsHeader root h) (i : Bytes) :
    PMatch (parseRemotingMessage St.init (h ++ i)) (PanicPass Env.empty i ∨ ∃ E1 i1, Pass Env.empty i E1 i1 ∧
      (PanicMethod E1 i1 ∨ ∃ m E2 i2, OptMethod root E1 i1 m E2 i2 ∧ PanicPass E2 i2)) := by
  rw [parse_ending hh]
  have := PMatch.bind (passes_match (s := St.init) rfl i) (passes_pmatch (s := St.init) rfl i) (f := fun _ s i =>
      (optS (parseMethodCallOrReturn (rootOf root)) s i).bind fun m s i =>
      (parseReferenceables s i).bind fun _ s i => ending root m s i)
    (C := fun _ E1 i1 => PanicMethod E1 i1 ∨ ∃ m E2 i2, OptMethod root E1 i1 m E2 i2 ∧
      (PanicPass E2 i2 ∨ ∃ (_ : Unit) (E : Env) (i3 : Bytes), Pass E2 i2 E i3 ∧ False)) fun _ s1 i1 hs1 hp _ => by
    refine PMatch.bind (method_match hs1 (pass_noLibrary hp) root) (method_pmatch hs1 (pass_noLibrary hp) root)
      (C := fun m E2 i2 => PanicPass E2 i2 ∨ ∃ (_ : Unit) (E : Env) (i3 : Bytes), Pass E2 i2 E i3 ∧ False)
      fun m s2 i2 hs2 _ _ => ?_
    refine PMatch.bind (passes_match hs2 i2) (passes_pmatch hs2 i2) (C := fun _ E i3 => False) fun _ s3 i3 _ _ _ => ?_
    exact .never (ending_panic root m s3 i3)
  refine this.congr ?_
  rw [abs_init]
  refine or_congr Iff.rfl ?_
  constructor
  · rintro ⟨_, E1, i1, h1, h2 | ⟨m, E2, i2, h2, h3 | ⟨_, E, i3, _, h4⟩⟩⟩
    · exact ⟨E1, i1, h1, .inl h2⟩
    · exact ⟨E1, i1, h1, .inr ⟨m, E2, i2, h2, h3⟩⟩
    · exact h4.elim
  · rintro ⟨E1, i1, h1, h2 | ⟨m, E2, i2, h2, h3⟩⟩
    · exact ⟨(), E1, i1, h1, .inl h2⟩
    · exact ⟨(), E1, i1, h1, .inr ⟨m, E2, i2, h2, .inl h3⟩⟩

/-- A message panics exactly when the judgement says so. -/
theorem deserialize_panics (w : Bytes) : deserialize w = .panic ↔ Panics w := by
  have hd : deserialize w = .panic ↔ (parseRemotingMessage St.init w).1 = .panic := by
    unfold deserialize
    cases parseRemotingMessage St.init w with
    | mk o s => cases o <;> simp
  rw [hd]
  constructor
  · intro h
    cases hh : SerializationHeader.parse w with
    | ok i hd =>
      obtain ⟨root, b, hb, rfl, _⟩ := header_sound hh
      rcases (body_panics hb i).mp h with h1 | ⟨E1, i1, h1, h2 | ⟨m, E2, i2, h2, h3⟩⟩
      · exact .record hb h1
      · exact .method hb h1 h2
      · exact .laterRecord hb h1 h2 h3
    | panic =>
      have hg := header_good (List.suffix_refl w)
      rw [hh] at hg; exact hg.elim
    | _ =>
      unfold parseRemotingMessage at h
      simp [lift, hh, Res.bind] at h
  · intro h
    cases h with
    | record hb h => exact (body_panics hb _).mpr (.inl h)
    | method hb h1 h2 => exact (body_panics hb _).mpr (.inr ⟨_, _, h1, .inl h2⟩)
    | laterRecord hb h1 h2 h3 => exact (body_panics hb _).mpr (.inr ⟨_, _, h1, .inr ⟨_, _, _, h2, h3⟩⟩)

end Nrbf
