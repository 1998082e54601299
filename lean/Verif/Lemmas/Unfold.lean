import Verif.Lemmas.Panic

/-! # The counters do not matter

The model bounds the recursion depth and the loops by counters.  Here the parser functions are shown to
satisfy the plain recursive equations of the source, without counters. -/

set_option autoImplicit false

namespace Nrbf

variable {α β : Type} [Platform]

/-- `p` and `q` agree on inputs shorter than `L`. -/
def Agree (L : Nat) (p q : SP α) : Prop :=
  ∀ s i, s.classes = [] → i.length < L → p s i = q s i

theorem Agree.mono {L L' : Nat} {p q : SP α} (h : Agree L p q) (hl : L' ≤ L) : Agree L' p q :=
  fun s i hs hi => h s i hs (by omega)

theorem Res.bind_congr {i : Bytes} {x x' : Res α} {f f' : α → St → Bytes → Res β} (hx : x = x')
    (ht : Traced i x) (h : ∀ a s r, s.classes = [] → r <:+ i → f a s r = f' a s r) :
    x.bind f = x'.bind f' := by
  subst hx
  obtain ⟨o, s⟩ := x
  cases o with
  | ok r a => exact h a s r ht.1 (ht.2.1 r a rfl)
  | _ => rfl

section
variable {L : Nat} {c c' : SP (Nat × Object)} {q q' : SP Nat}

theorem countS_agree {p p' : SP α} (ht : TracedP L p) (h : Agree L p p') (n : Nat) :
    Agree L (countS p n) (countS p' n) := by
  induction n with
  | zero => exact fun _ _ _ _ => rfl
  | succ n ih =>
    intro s i hs hi
    refine Res.bind_congr (h s i hs hi) (ht s i hs hi) fun a s r hs hr => ?_
    rw [ih s r hs (by have := hr.length_le; omega)]

theorem altMut_agree {i : Bytes} : ∀ {ps qs : List (SP α)}, ps.length = qs.length →
    (∀ p ∈ ps, ∀ s, s.classes = [] → Traced i (p s i)) →
    (∀ e ∈ ps.zip qs, ∀ s, s.classes = [] → e.1 s i = e.2 s i) →
    ∀ s, s.classes = [] → altMut ps s i = altMut qs s i
  | [], [], _, _, _ => fun _ _ => rfl
  | p :: ps, q :: qs, hl, ht, h => by
    intro s hs
    have h1 := h (p, q) (by simp) s hs
    have h2 := ht p (by simp) s hs
    have h3 := altMut_agree (i := i) (ps := ps) (qs := qs) (by simpa using hl)
      (fun p hp => ht p (by simp [hp])) (fun e he => h e (by simp [he]))
    simp only at h1
    unfold altMut
    rw [← h1]
    split
    · rename_i e s' heq
      rw [heq] at h2
      exact h3 s' h2.1
    · rfl

theorem optS_agree {p p' : SP α} (h : Agree L p p') : Agree L (optS p) (optS p') := by
  intro s i hs hi
  unfold optS
  rw [h s i hs hi]

theorem memberNone_agree (h : Agree L c c') :
    Agree L (memberReferenceNone c) (memberReferenceNone c') := by
  intro s i hs hi
  unfold memberReferenceNone
  refine Res.bind_congr rfl (library_traced L s i hs hi) fun _ s r hs hr => ?_
  rw [h s r hs (by have := hr.length_le; omega)]

theorem expectedClass_agree (h : Agree L c c') (name : Str) (library : Option Str) :
    Agree L (expectedClass c name library) (expectedClass c' name library) := by
  intro s i hs hi
  unfold expectedClass
  rw [h s i hs hi]

theorem member_agree (h : Agree L c c') (t : BinaryType) (info : Option AdditionalTypeInfo) :
    Agree L (memberReference c t info) (memberReference c' t info) := by
  intro s i hs hi
  unfold memberReference
  refine Res.bind_congr rfl (library_traced L s i hs hi) fun _ s r hs hr => ?_
  have hl : r.length < L := by have := hr.length_le; omega
  have h1 := memberNone_agree h s r hs hl
  have h2 := fun n l => expectedClass_agree h n l s r hs hl
  simp only [h1, h2]

theorem members_agree (ht : TracedP L c) (h : Agree L c c') {w : Bytes}
    (ts : List (BinaryType × Option AdditionalTypeInfo)) (hts : ∀ e ∈ ts, TypeInfoOk w e.1 e.2) :
    Agree L (membersWithTypeInfo c ts) (membersWithTypeInfo c' ts) := by
  induction ts with
  | nil => exact fun _ _ _ _ => rfl
  | cons e ts ih =>
    obtain ⟨t, info⟩ := e
    intro s i hs hi
    unfold membersWithTypeInfo
    refine Res.bind_congr (member_agree h t info s i hs hi)
      (member_traced ht t info (hts (t, info) (by simp)) s i hs hi) fun a s r hs hr => ?_
    rw [ih (fun e he => hts e (by simp [he])) s r hs (by have := hr.length_le; omega)]

theorem resolveRef_agree (h : Agree L q q') (id : Nat) :
    Agree L (resolveRef q id) (resolveRef q' id) := by
  intro s i hs hi
  unfold resolveRef
  rw [h s i hs hi]

theorem resolve_agree (ht : TracedP L q) (h : Agree L q q') (ms : List ValueOrRef) :
    Agree L (resolveMembers q ms) (resolveMembers q' ms) := by
  induction ms with
  | nil => exact fun _ _ _ _ => rfl
  | cons m ms ih =>
    intro s i hs hi
    cases m with
    | value v => simp only [resolveMembers, ih s i hs hi]
    | null n => simp only [resolveMembers, ih s i hs hi]
    | ref id =>
      simp only [resolveMembers]
      refine Res.bind_congr (resolveRef_agree h id s i hs hi) (resolveRef_traced ht id s i hs hi)
        fun v s r hs hr => ?_
      rw [ih s r hs (by have := hr.length_le; omega)]

theorem classMembers_agree (ht : TracedP L c) (h : Agree L c c') {errInput w : Bytes} {k : Class}
    (hk : k.Ok w) : Agree L (classMembers c errInput k) (classMembers c' errInput k) := by
  intro s i hs hi
  unfold classMembers
  split
  · rw [countS_agree (memberNone_traced ht) (memberNone_agree h) _ s i hs hi]
  · rw [members_agree ht h _ hk.2.1.2.2 s i hs hi]
  · rw [countS_agree (memberNone_traced ht) (memberNone_agree h) _ s i hs hi]
  · rw [members_agree ht h _ hk.2.2.2 s i hs hi]

theorem classesBody_agree (hc : TracedP L c) (hac : Agree L c c') (hq : TracedP L q)
    (haq : Agree L q q') : Agree (L + 1) (classesBody c q) (classesBody c' q') := by
  intro s i hs hi
  unfold classesBody
  refine Res.bind_congr rfl (library_traced (L + 1) s i hs hi) fun _ s e hs he => ?_
  have hle := he.length_le
  have hg := classHeader_good (pol := polTop e) (s := s) (w := e)
    ⟨hs, fun _ _ => trivial, fun _ _ => trivial⟩ (List.suffix_refl e)
  have ht := classHeader_traced (i := e) hs
  generalize classHeader s e = x at hg ht
  obtain ⟨o, s⟩ := x
  cases o with
  | ok i ic =>
    obtain ⟨id, k⟩ := ic
    have hlen := hg.2.2.1
    have hcls := hg.2.2.2.2
    have hs := ht.1
    simp only at hlen hcls hs
    simp only [Res.bind]
    rw [if_neg (by simp [hs, AMap.get?]), if_neg (by simp [hs, AMap.get?])]
    refine Res.bind_congr (classMembers_agree hc hac hcls s i hs (by omega))
      (classMembers_traced hc hcls s i hs (by omega)) fun lm s r hs hr => ?_
    obtain ⟨lib, ms⟩ := lm
    have := hr.length_le
    refine Res.bind_congr (resolve_agree hq haq ms s r hs (by omega))
      (resolve_traced hq ms s r hs (by omega)) fun vs s r hs hr => rfl
  | _ => rfl

theorem arrayLoop_agree {p p' : SP ValueOrRef} (ht : TracedP L p) (h : Agree L p p') (fuel len : Nat)
    (acc : List ValueOrRef) : Agree L (arrayLoop p fuel len acc) (arrayLoop p' fuel len acc) := by
  induction fuel generalizing acc with
  | zero => exact fun _ _ _ _ => rfl
  | succ fuel ih =>
    intro s i hs hi
    unfold arrayLoop
    split
    · refine Res.bind_congr (h s i hs hi) (ht s i hs hi) fun m s r hs hr => ?_
      have := hr.length_le
      split
      · exact ih _ s r hs (by omega)
      · exact ih _ s r hs (by omega)
    · rfl

theorem arraySingleObject_agree (hc : TracedP L c) (hac : Agree L c c') (hq : TracedP L q)
    (haq : Agree L q q') : Agree (L + 1) (arraySingleObject c q) (arraySingleObject c' q') := by
  intro s i hs hi
  unfold arraySingleObject
  have hg := arraySingleObjectRec_good (w := i) (List.suffix_refl i)
  unfold lift
  cases hp : ArraySingleObject.parse i with
  | ok r info =>
    rw [hp] at hg
    have hlen := hg.2.1
    simp only [Res.bind]
    refine Res.bind_congr (arrayLoop_agree (memberNone_traced hc) (memberNone_agree hac) _ _ _ s r hs
      (by omega)) (arrayLoop_traced (memberNone_traced hc) _ _ _ s r hs (by omega)) fun ms s r2 hs hr => ?_
    have := hr.length_le
    rw [resolve_agree hq haq ms s r2 hs (by omega)]
  | _ => rfl

theorem arraySingleString_agree (hc : TracedP L c) (hac : Agree L c c') (hq : TracedP L q)
    (haq : Agree L q q') : Agree (L + 1) (arraySingleString c q) (arraySingleString c' q') := by
  intro s i hs hi
  unfold arraySingleString
  have hg := arraySingleStringRec_good (w := i) (List.suffix_refl i)
  unfold lift
  cases hp : ArraySingleString.parse i with
  | ok r info =>
    rw [hp] at hg
    have hlen := hg.2.1
    simp only [Res.bind]
    have htm : TracedP L (memberReference c .stringArray none) :=
      member_traced hc .stringArray none (w := []) trivial
    refine Res.bind_congr (arrayLoop_agree htm (member_agree hac _ _) _ _ _ s r hs
      (by omega)) (arrayLoop_traced htm _ _ _ s r hs (by omega)) fun ms s r2 hs hr => ?_
    have := hr.length_le
    rw [resolve_agree hq haq ms s r2 hs (by omega)]
  | _ => rfl

theorem binaryArray_agree (hc : TracedP L c) (hac : Agree L c c') (hq : TracedP L q)
    (haq : Agree L q q') : Agree (L + 1) (binaryArray c q) (binaryArray c' q') := by
  intro s i hs hi
  unfold binaryArray
  have hg := binaryArrayRec_good (w := i) (List.suffix_refl i)
  unfold lift
  cases hp : BinaryArray.parse i with
  | ok r a =>
    rw [hp] at hg
    have hlen := hg.2.1
    have hinfo := hg.2.2.2.2.2.1
    simp only [Res.bind]
    cases checkedProduct 1 a.lengths with
    | none => rfl
    | some n =>
      simp only
      have htm := member_traced hc a.typeEnum a.additionalTypeInfo hinfo
      refine Res.bind_congr (countS_agree htm (member_agree hac _ _) n s r hs (by omega))
        (countS_traced htm n s r hs (by omega)) fun ms s r2 hs hr => ?_
      have := hr.length_le
      rw [resolve_agree hq haq ms s r2 hs (by omega)]
  | _ => rfl

theorem arraysBody_agree (hsem : RecSem L c q) (hc : TracedP L c) (hac : Agree L c c')
    (hq : TracedP L q) (haq : Agree L q q') : Agree (L + 1) (arraysBody c q) (arraysBody c' q') := by
  intro s i hs hi
  unfold arraysBody
  refine Res.bind_congr rfl (library_traced (L + 1) s i hs hi) fun _ s r hs hr => ?_
  have hl := hr.length_le
  refine altMut_agree (by simp) ?_ ?_ s hs
  · intro p hp s hs
    simp only [List.mem_cons, List.not_mem_nil, or_false] at hp
    rcases hp with rfl | rfl | rfl | rfl
    · exact arraySingleObject_traced hc hq s r hs (by omega)
    · exact arraySinglePrimitive_traced (L + 1) s r hs (by omega)
    · exact arraySingleString_traced hc hq s r hs (by omega)
    · exact binaryArray_traced hsem hc hq s r hs (by omega)
  · intro e he s hs
    simp only [List.zip_cons_cons, List.zip_nil_right, List.mem_cons, List.not_mem_nil, or_false] at he
    rcases he with rfl | rfl | rfl | rfl
    · exact arraySingleObject_agree hc hac hq haq s r hs (by omega)
    · rfl
    · exact arraySingleString_agree hc hac hq haq s r hs (by omega)
    · exact binaryArray_agree hc hac hq haq s r hs (by omega)

theorem referenceableBody_agree {cls cls' : SP (Nat × Object)} {arr arr' : SP (Nat × List Value)}
    (hcls : TracedP L cls) (hacls : Agree L cls cls') (harr : TracedP L arr)
    (haarr : Agree L arr arr') :
    Agree L (referenceableBody cls arr) (referenceableBody cls' arr') := by
  intro s i hs hi
  unfold referenceableBody
  rw [altMut_agree (i := i) (ps := [fun s i => (cls s i).map fun o => (o.1, o.2.toValue),
     fun s i => (arr s i).map fun a => (a.1, Value.array a.2),
     lift fun i => (BinaryObjectString.parse i).map fun b => (b.objectId, Value.string b.value)])
     (qs := [fun s i => (cls' s i).map fun o => (o.1, o.2.toValue),
     fun s i => (arr' s i).map fun a => (a.1, Value.array a.2),
     lift fun i => (BinaryObjectString.parse i).map fun b => (b.objectId, Value.string b.value)])
     (by simp) ?_ ?_ s hs]
  · intro p hp s hs
    simp only [List.mem_cons, List.not_mem_nil, or_false] at hp
    rcases hp with rfl | rfl | rfl
    · exact (hcls s i hs hi).map _
    · exact (harr s i hs hi).map _
    · exact Traced.stateless ((bos_good (List.suffix_refl i)).map (W := fun _ => True) fun _ _ => trivial) hs
  · intro e he s hs
    simp only [List.zip_cons_cons, List.zip_nil_right, List.mem_cons, List.not_mem_nil, or_false] at he
    rcases he with rfl | rfl | rfl
    · simp only [hacls s i hs hi]
    · simp only [haarr s i hs hi]
    · rfl

end

/-- More depth than the input has bytes changes nothing. -/
theorem recAt_agree (n m : Nat) (h : n ≤ m) :
    Agree n (recAt n).classes (recAt m).classes ∧
    Agree n (recAt n).referenceable (recAt m).referenceable := by
  induction n generalizing m with
  | zero => exact ⟨fun _ _ _ h => by omega, fun _ _ _ h => by omega⟩
  | succ n ih =>
    cases m with
    | zero => omega
    | succ m =>
      have ih := ih m (by omega)
      have ht := recAt_traced n
      have hc := classesBody_agree ht.1 ih.1 ht.2 ih.2
      exact ⟨hc, referenceableBody_agree (classesBody_traced ht.1 ht.2) hc
        (arraysBody_traced (recSem n) ht.1 ht.2) (arraysBody_agree (recSem n) ht.1 ih.1 ht.2 ih.2)⟩

theorem recAt_parse (n : Nat) : Agree n (recAt n).classes parseClasses ∧
    Agree n (recAt n).referenceable parseReferenceable := by
  constructor <;> intro s i hs hi
  · exact ((recAt_agree (i.length + 1) n (by omega)).1 s i hs (by omega)).symm
  · exact ((recAt_agree (i.length + 1) n (by omega)).2 s i hs (by omega)).symm

/-- `parse_classes` satisfies the recursive equation of the source. -/
theorem parseClasses_eq {s : St} (hs : s.classes = []) (i : Bytes) :
    parseClasses s i = classesBody parseClasses parseReferenceable s i := by
  have ht := recAt_traced i.length
  have ha := recAt_parse i.length
  exact classesBody_agree ht.1 ha.1 ht.2 ha.2 s i hs (by omega)

/-- `parse_referenceable` satisfies the recursive equation of the source. -/
theorem parseReferenceable_eq {s : St} (hs : s.classes = []) (i : Bytes) :
    parseReferenceable s i = referenceableBody parseClasses
      (arraysBody parseClasses parseReferenceable) s i := by
  have ht := recAt_traced i.length
  have ha := recAt_parse i.length
  refine referenceableBody_agree (L := i.length + 1) (classesBody_traced ht.1 ht.2) ?_
    (arraysBody_traced (recSem i.length) ht.1 ht.2)
    (arraysBody_agree (recSem i.length) ht.1 ha.1 ht.2 ha.2) s i hs (by omega)
  exact (recAt_parse (i.length + 1)).1

/-- The `loop` of `parse_referenceables`, without counter. -/
theorem referenceables_eq {s : St} (hs : s.classes = []) (i : Bytes) :
    parseReferenceables s i = match parseReferenceable s i with
      | (.ok r _, s) => parseReferenceables s r
      | (.error _, s) => (.ok i (), s)
      | (.failure e, s) => (.failure e, s)
      | (.panic, s) => (.panic, s)
      | (.diverge, s) => (.diverge, s) := by
  have more : ∀ (fuel fuel' : Nat) (s : St) (i : Bytes), s.classes = [] → i.length < fuel →
      i.length < fuel' → referenceablesLoop fuel s i = referenceablesLoop fuel' s i := by
    intro fuel
    induction fuel with
    | zero => intro _ _ _ _ h; omega
    | succ fuel ih =>
      intro fuel' s i hs h h'
      cases fuel' with
      | zero => omega
      | succ fuel' =>
        have ht := parseReferenceable_traced (i.length + 1) s i hs (by omega)
        have hm := (parseReferenceable_match hs i).1
        unfold referenceablesLoop
        split
        · rename_i r _ s' heq
          rw [heq] at ht
          obtain ⟨_, _, hl⟩ := hm _ _ _ heq
          exact ih fuel' s' r ht.1 (by omega) (by omega)
        all_goals rfl
  have ht := parseReferenceable_traced (i.length + 1) s i hs (by omega)
  have hm := (parseReferenceable_match hs i).1
  unfold parseReferenceables
  rw [referenceablesLoop]
  simp only
  generalize parseReferenceable s i = x at ht hm
  obtain ⟨o, s'⟩ := x
  cases o with
  | ok r a =>
    obtain ⟨_, _, hl⟩ := hm _ _ _ rfl
    exact more _ _ s' r ht.1 (by omega) (by omega)
  | _ => rfl

/-- The `while members.len() < len` loops: any two sufficient counters give the same result, since every
iteration adds at least one element. -/
theorem arrayLoop_counter {element : SP ValueOrRef} {L len : Nat}
    (hsize : ∀ s i r m s', s.classes = [] → i.length < L → element s i = (.ok r m, s') →
      (∀ n, m = .null n → 1 ≤ n))
    (ht : TracedP L element) : ∀ (fuel fuel' : Nat) (acc : List ValueOrRef) (s : St) (i : Bytes),
    s.classes = [] → i.length < L → len ≤ fuel + acc.length → len ≤ fuel' + acc.length →
    arrayLoop element fuel len acc s i = arrayLoop element fuel' len acc s i := by
  intro fuel
  induction fuel with
  | zero =>
    intro fuel' acc s i _ _ h _
    have hn : ¬ acc.length < len := by omega
    cases fuel' <;> simp only [arrayLoop, hn, if_false]
  | succ fuel ih =>
    intro fuel' acc s i hs hi h h'
    cases fuel' with
    | zero =>
      have hn : ¬ acc.length < len := by omega
      simp only [arrayLoop, hn, if_false]
    | succ fuel' =>
      unfold arrayLoop
      split
      · have hsz := hsize s i
        have htr := ht s i hs hi
        generalize hx : element s i = x at htr
        obtain ⟨o, s1⟩ := x
        cases o with
        | ok r m =>
          have hl := (htr.2.1 r m rfl).length_le
          have hsz := hsz r m s1 hs hi hx
          simp only [Res.bind]
          cases m with
          | null n =>
            have := hsz n rfl
            exact ih _ _ _ _ htr.1 (by omega) (by simp; omega) (by simp; omega)
          | value v => exact ih _ _ _ _ htr.1 (by omega) (by simp; omega) (by simp; omega)
          | ref id => exact ih _ _ _ _ htr.1 (by omega) (by simp; omega) (by simp; omega)
        | _ => rfl
      · rfl

end Nrbf
