import Verif.Lemmas.Invert
import Verif.Lemmas.Message
import Verif.Spec.Panic

/-! # Where a panic comes from

`Traced i x`: the result `x` of a parser on the input `i` is a panic only if there is a `BadArray`
somewhere in `i`. -/

set_option autoImplicit false

namespace Nrbf
open Spec

variable {α β : Type} [Platform]

/-! ## When the rows exist -/

omit [Platform] in
mutual
theorem shaped_length : ∀ {ds : List Nat} {v : Value} {leaves : List Value}, Shaped ds v leaves →
    leaves.length = ds.prod
  | _, _, _, .leaf => by simp
  | _, _, _, .array h1 h2 => by rw [shapedAll_length h2, h1, List.prod_cons]
theorem shapedAll_length : ∀ {ds : List Nat} {vs : List Value} {leaves : List Value},
    ShapedAll ds vs leaves → leaves.length = vs.length * ds.prod
  | _, _, _, .nil => by simp
  | _, _, _, .cons h1 h2 => by
    rw [List.length_append, shaped_length h1, shapedAll_length h2, List.length_cons, Nat.succ_mul,
      Nat.add_comm]
end

omit [Platform] in
theorem shapedAll_exists {ds : List Nat}
    (h1 : ∀ leaves : List Value, leaves.length = ds.prod → ∃ v, Shaped ds v leaves) (n : Nat)
    (leaves : List Value) (h : leaves.length = n * ds.prod) :
    ∃ vs, vs.length = n ∧ ShapedAll ds vs leaves := by
  induction n generalizing leaves with
  | zero =>
    have : leaves = [] := by simpa using h
    subst this
    exact ⟨[], rfl, .nil⟩
  | succ n ih =>
    rw [Nat.succ_mul] at h
    obtain ⟨v, hv⟩ := h1 (leaves.take ds.prod) (by rw [List.length_take]; omega)
    obtain ⟨vs, hl, hvs⟩ := ih (leaves.drop ds.prod) (by rw [List.length_drop]; omega)
    refine ⟨v :: vs, by simp [hl], ?_⟩
    rw [← List.take_append_drop ds.prod leaves]
    exact .cons hv hvs

omit [Platform] in
theorem shaped_exists (ds : List Nat) (leaves : List Value) (h : leaves.length = ds.prod) :
    ∃ v, Shaped ds v leaves := by
  induction ds generalizing leaves with
  | nil =>
    match leaves, h with
    | [v], _ => exact ⟨v, .leaf⟩
  | cons d ds ih =>
    rw [List.prod_cons] at h
    obtain ⟨vs, hl, hvs⟩ := shapedAll_exists ih d leaves h
    exact ⟨.array vs, .array hl hvs⟩

omit [Platform] in
/-- Values can be arranged in rows exactly if their number is a multiple of the row size. -/
theorem rows_exist {ds : List Nat} {vs : List Value} :
    (∃ rows, Rows ds vs rows) ↔ ds.prod ∣ vs.length := by
  unfold Rows
  split
  · rename_i h; subst h; exact ⟨fun _ => ⟨0, by simp⟩, fun _ => ⟨_, rfl⟩⟩
  · constructor
    · rintro ⟨rows, h⟩
      exact ⟨rows.length, by rw [shapedAll_length h, Nat.mul_comm]⟩
    · rintro ⟨n, hn⟩
      obtain ⟨rows, _, h⟩ := shapedAll_exists (shaped_exists ds) n vs (by rw [hn, Nat.mul_comm])
      exact ⟨rows, h⟩

/-- There is an array that cannot be reshaped somewhere in `i`. -/
def Bad (i : Bytes) : Prop := ∃ E j, j <:+ i ∧ BadArray E j

theorem Bad.mono {i j : Bytes} (h : Bad j) (hj : j <:+ i) : Bad i := by
  obtain ⟨E, k, hk, hb⟩ := h
  exact ⟨E, k, hk.trans hj, hb⟩

/-- See above. -/
def Traced (i : Bytes) (x : Res α) : Prop :=
  x.2.classes = [] ∧ (∀ r a, x.1 = .ok r a → r <:+ i) ∧ (x.1 = .panic → Bad i)

/-- On all inputs shorter than `L`. -/
def TracedP (L : Nat) (p : SP α) : Prop :=
  ∀ s i, s.classes = [] → i.length < L → Traced i (p s i)

theorem TracedP.mono {L L' : Nat} {p : SP α} (h : TracedP L p) (hl : L' ≤ L) : TracedP L' p :=
  fun s i hs hi => h s i hs (by omega)

namespace Traced

theorem map {i : Bytes} {x : Res α} (f : α → β) (h : Traced i x) : Traced i (x.map f) := by
  obtain ⟨o, s⟩ := x
  refine ⟨h.1, fun r b e => ?_, fun e => ?_⟩
  · cases o with
    | ok r' a =>
      simp only [Res.map, Outcome.map, Outcome.ok.injEq] at e
      exact e.1 ▸ h.2.1 r' a rfl
    | _ => simp [Res.map, Outcome.map] at e
  · cases o with
    | panic => exact h.2.2 rfl
    | _ => simp [Res.map, Outcome.map] at e

theorem bind {i : Bytes} {x : Res α} {f : α → St → Bytes → Res β} (h : Traced i x)
    (hf : ∀ a s r, s.classes = [] → r <:+ i → x = (.ok r a, s) → Traced r (f a s r)) :
    Traced i (x.bind f) := by
  obtain ⟨o, s⟩ := x
  cases o with
  | ok r a =>
    have hr := h.2.1 r a rfl
    have h2 := hf a s r h.1 hr rfl
    exact ⟨h2.1, fun r' b e => (h2.2.1 r' b e).trans hr, fun e => (h2.2.2 e).mono hr⟩
  | panic => exact ⟨h.1, fun _ _ e => (by simp [Res.bind] at e), fun _ => h.2.2 rfl⟩
  | _ => exact ⟨h.1, fun _ _ e => (by simp [Res.bind] at e), fun e => (by simp [Res.bind] at e)⟩

theorem ret {i : Bytes} {a : α} {s : St} (hs : s.classes = []) : Traced i (.ok i a, s) :=
  ⟨hs, (fun _ _ e => by cases e; exact List.suffix_refl _), (fun e => by cases e)⟩

theorem failure {i : Bytes} {e : Error} {s : St} (hs : s.classes = []) :
    Traced (α := α) i (.failure e, s) :=
  ⟨hs, (by intro _ _ e; cases e), (by intro e; cases e)⟩

theorem error {i : Bytes} {e : Error} {s : St} (hs : s.classes = []) :
    Traced (α := α) i (.error e, s) :=
  ⟨hs, (by intro _ _ e; cases e), (by intro e; cases e)⟩

theorem stateless {i : Bytes} {x : Outcome Error α} {V : α → Prop} {n k : Nat} (h : PG i V n k x)
    {s : St} (hs : s.classes = []) : Traced i (x, s) := by
  refine ⟨hs, fun r a e => ?_, fun e => ?_⟩
  · simp only at e; rw [e] at h; exact h.1
  · simp only at e; rw [e] at h; exact h.elim

end Traced

/-- The invariant that says nothing. -/
def polTop (w : Bytes) : Pol w where
  str _ := True
  val _ := True
  ofStrOk _ _ := trivial
  object _ _ _ _ _ _ _ := trivial
  array _ _ _ := trivial
  prim _ _ := trivial
  string _ _ := trivial
  null := trivial

theorem countS_traced {L : Nat} {p : SP α} (hp : TracedP L p) (n : Nat) :
    TracedP L (countS p n) := by
  induction n with
  | zero => exact fun s i hs _ => Traced.ret hs
  | succ n ih =>
    intro s i hs hi
    exact (hp s i hs hi).bind fun a s r hs hr _ => (ih s r hs (by have := hr.length_le; omega)).map _

theorem altMut_traced {i : Bytes} {ps : List (SP α)}
    (hps : ∀ p ∈ ps, ∀ s, s.classes = [] → Traced i (p s i)) :
    ∀ s, s.classes = [] → Traced i (altMut ps s i) := by
  induction ps with
  | nil => exact fun s hs => Traced.error hs
  | cons p ps ih =>
    intro s hs
    have hp := hps p (by simp) s hs
    unfold altMut
    split
    · rename_i e s' heq
      rw [heq] at hp
      exact ih (fun q hq => hps q (by simp [hq])) s' hp.1
    · exact hp

theorem optS_traced {L : Nat} {p : SP α} (hp : TracedP L p) : TracedP L (optS p) := by
  intro s i hs hi
  have h := hp s i hs hi
  unfold optS
  split
  · rename_i e s' heq
    rw [heq] at h
    exact Traced.ret h.1
  · exact h.map _

omit [Platform] in
theorem opt_suffix {p : Parser α} {i r : Bytes} {o : Option α} (hp : ∀ r a, p i = .ok r a → r <:+ i)
    (h : opt p i = .ok r o) : r <:+ i := by
  unfold opt at h
  split at h
  · cases h; exact List.suffix_refl _
  · cases hpi : p i with
    | ok r' a =>
      rw [hpi] at h
      simp only [Outcome.map, Outcome.ok.injEq] at h
      exact h.1 ▸ hp r' a hpi
    | _ => rw [hpi] at h; simp [Outcome.map] at h

theorem library_traced (L : Nat) : TracedP L parseBinaryLibrary := by
  intro s i hs _
  unfold parseBinaryLibrary
  refine (Traced.stateless (opt_good (List.suffix_refl i) (binaryLibrary_good (List.suffix_refl i))) hs).bind
    fun lib s r hs hr _ => ?_
  cases lib with
  | none => exact Traced.ret hs
  | some l =>
    simp only
    split
    · exact Traced.failure hs
    · exact Traced.ret hs

section
variable {L : Nat} {classes : SP (Nat × Object)} {referenceable : SP Nat}

theorem memberNone_traced (hc : TracedP L classes) : TracedP L (memberReferenceNone classes) := by
  intro s i hs hi
  unfold memberReferenceNone
  refine (library_traced L s i hs hi).bind fun _ s i hs hr _ => ?_
  have halt : PG i (ValueOrRef.Ok i (polTop i).val) i.length 1
      (alt (fun i => (memberPrimitiveTyped i).map fun p => ValueOrRef.value p.intoValue)
        [refMember, stringMember, parseNullObject] i) := by
    have hi := List.suffix_refl i
    refine alt_good ?_ fun q hq => ?_
    · exact (typed_good hi).map fun p h => (polTop i).prim p h
    · simp only [List.mem_cons, List.not_mem_nil, or_false] at hq
      rcases hq with rfl | rfl | rfl
      · exact refMember_good hi
      · exact stringMember_good hi
      · exact nullObject_good hi
  split
  · exact (hc s i hs (by have := hr.length_le; omega)).map _
  · exact Traced.stateless halt hs

theorem expectedClass_traced (hc : TracedP L classes) (name : Str) (library : Option Str) :
    TracedP L (expectedClass classes name library) := by
  intro s i hs hi
  have h := hc s i hs hi
  unfold expectedClass
  split
  · rename_i r o s' heq
    rw [heq] at h
    split
    · exact Traced.failure h.1
    · exact ⟨h.1, (fun _ _ e => by cases e; exact h.2.1 _ _ rfl), (fun e => by cases e)⟩
  · rename_i e s' heq
    rw [heq] at h
    exact Traced.stateless (nullObject_good (val := (polTop i).val) (List.suffix_refl i)) h.1
  · rename_i e s' heq
    rw [heq] at h
    exact Traced.stateless (nullObject_good (val := (polTop i).val) (List.suffix_refl i)) h.1
  · rename_i s' heq
    rw [heq] at h
    exact ⟨h.1, (fun _ _ e => by cases e), fun _ => h.2.2 rfl⟩
  · rename_i s' heq
    rw [heq] at h
    exact ⟨h.1, (fun _ _ e => by cases e), (fun e => by cases e)⟩

theorem member_traced (hc : TracedP L classes) (t : BinaryType) (info : Option AdditionalTypeInfo)
    {w : Bytes} (hinfo : TypeInfoOk w t info) : TracedP L (memberReference classes t info) := by
  intro s i hs hi
  unfold memberReference
  refine (library_traced L s i hs hi).bind fun _ s i hs hr _ => ?_
  have hl := hr.length_le
  have hi' := List.suffix_refl i
  have hstr : PG i (ValueOrRef.Ok i (polTop i).val) i.length 1 (stringMember i) := stringMember_good hi'
  split
  · exact Traced.stateless ((untyped_good _ hi').map (W := fun _ => True) fun p h => trivial) hs
  · exact Traced.stateless hstr hs
  · exact memberNone_traced hc s i hs (by omega)
  · exact expectedClass_traced hc _ _ s i hs (by omega)
  · split
    · exact expectedClass_traced hc _ _ s i hs (by omega)
    · exact Traced.failure hs
  · exact memberNone_traced hc s i hs (by omega)
  · refine Traced.stateless (alt_good hstr fun q hq => ?_) hs
    simp only [List.mem_cons, List.not_mem_nil, or_false] at hq
    rcases hq with rfl | rfl
    · exact refMember_good hi'
    · exact nullObject_good hi'
  · exact Traced.stateless (refMember_good (pol := polTop i) hi') hs
  · exfalso
    revert hinfo
    unfold TypeInfoOk
    split <;> simp_all

theorem members_traced (hc : TracedP L classes) {w : Bytes}
    (ts : List (BinaryType × Option AdditionalTypeInfo)) (hts : ∀ e ∈ ts, TypeInfoOk w e.1 e.2) :
    TracedP L (membersWithTypeInfo classes ts) := by
  induction ts with
  | nil => exact fun s i hs _ => Traced.ret hs
  | cons e ts ih =>
    obtain ⟨t, info⟩ := e
    intro s i hs hi
    unfold membersWithTypeInfo
    refine (member_traced hc t info (hts (t, info) (by simp)) s i hs hi).bind fun m s r hs hr _ => ?_
    exact (ih (fun e he => hts e (by simp [he])) s r hs (by have := hr.length_le; omega)).map _

theorem resolveRef_traced (hr : TracedP L referenceable) (id : Nat) :
    TracedP L (resolveRef referenceable id) := by
  intro s i hs hi
  unfold resolveRef
  split
  · exact ⟨hs, (fun _ _ e => by cases e; exact List.suffix_refl _), (fun e => by cases e)⟩
  · have h := hr s i hs hi
    split
    · rename_i r id2 s' heq
      rw [heq] at h
      split
      · split
        · exact ⟨h.1, (fun _ _ e => by cases e; exact h.2.1 _ _ rfl), (fun e => by cases e)⟩
        · exact Traced.failure h.1
      · exact Traced.error h.1
    all_goals rename_i heq; rw [heq] at h
    · exact Traced.error h.1
    · exact Traced.failure h.1
    · exact ⟨h.1, (fun _ _ e => by cases e), fun _ => h.2.2 rfl⟩
    · exact ⟨h.1, (fun _ _ e => by cases e), (fun e => by cases e)⟩

theorem resolve_traced (hr : TracedP L referenceable) (ms : List ValueOrRef) :
    TracedP L (resolveMembers referenceable ms) := by
  induction ms with
  | nil => exact fun s i hs _ => Traced.ret hs
  | cons m ms ih =>
    intro s i hs hi
    cases m with
    | value v => exact (ih s i hs hi).map _
    | null n => exact (ih s i hs hi).map _
    | ref id =>
      exact (resolveRef_traced hr id s i hs hi).bind fun v s r hs hr' _ =>
        (ih s r hs (by have := hr'.length_le; omega)).map _

theorem classHeader_traced {s : St} {i : Bytes} (hs : s.classes = []) : Traced i (classHeader s i) := by
  have h := classHeader_good (pol := polTop i) (s := s) (w := i)
    ⟨hs, fun _ _ => trivial, fun _ _ => trivial⟩ (List.suffix_refl i)
  refine ⟨h.1.1, fun r a e => ?_, fun e => ?_⟩
  · have := h.2; rw [e] at this; exact this.1
  · exfalso
    unfold classHeader at e
    have hid := classWithId_good (w := i) (List.suffix_refl i)
    split at e
    · rw [hs] at e
      simp [AMap.get?] at e
    · have hc := classes_good (w := i) (List.suffix_refl i)
      simp only at e
      generalize alt ClassWithMembers.parse _ i = y at e hc
      cases y with
      | panic => exact hc
      | _ => simp [Outcome.map] at e
    · simp at e
    · rename_i heq; rw [heq] at hid; exact hid
    · simp at e

theorem classMembers_traced (hc : TracedP L classes) {errInput w : Bytes} {c : Class} (hcls : c.Ok w) :
    TracedP L (classMembers classes errInput c) := by
  intro s i hs hi
  unfold classMembers
  split
  · split
    · exact (countS_traced (memberNone_traced hc) _ s i hs hi).map _
    · exact Traced.failure hs
  · split
    · exact (members_traced hc _ hcls.2.1.2.2 s i hs hi).map _
    · exact Traced.failure hs
  · exact (countS_traced (memberNone_traced hc) _ s i hs hi).map _
  · exact (members_traced hc _ hcls.2.2.2 s i hs hi).map _

theorem classesBody_traced (hc : TracedP L classes) (hr : TracedP L referenceable) :
    TracedP (L + 1) (classesBody classes referenceable) := by
  intro s i hs hi
  unfold classesBody
  refine (library_traced (L + 1) s i hs hi).bind fun _ s e hs he _ => ?_
  have hle := he.length_le
  have hg := classHeader_good (pol := polTop e) (s := s) (w := e)
    ⟨hs, fun _ _ => trivial, fun _ _ => trivial⟩ (List.suffix_refl e)
  refine (classHeader_traced hs).bind fun ⟨id, c⟩ s i hs hi' heq => ?_
  rw [heq] at hg
  have hlen := hg.2.2.1
  have hcls := hg.2.2.2.2
  simp only at hlen hcls ⊢
  rw [if_neg (by simp [hs, AMap.get?])]
  refine (classMembers_traced hc hcls s i hs (by omega)).bind fun ⟨lib, ms⟩ s i hs hi'' _ => ?_
  have hle2 := hi''.length_le
  refine (resolve_traced hr ms s i hs (by omega)).bind fun vs s i hs hi''' _ => ?_
  exact Traced.ret hs

theorem arrayLoop_traced {element : SP ValueOrRef} (he : TracedP L element) (fuel len : Nat)
    (acc : List ValueOrRef) : TracedP L (arrayLoop element fuel len acc) := by
  induction fuel generalizing acc with
  | zero =>
    intro s i hs _
    unfold arrayLoop
    split
    · exact ⟨hs, (fun _ _ e => by cases e), (fun e => by cases e)⟩
    · exact Traced.ret hs
  | succ fuel ih =>
    intro s i hs hi
    unfold arrayLoop
    split
    · refine (he s i hs hi).bind fun m s r hs hr _ => ?_
      have := hr.length_le
      split
      · exact ih _ s r hs (by omega)
      · exact ih _ s r hs (by omega)
    · exact Traced.ret hs

theorem arraySingleObject_traced (hc : TracedP L classes) (hr : TracedP L referenceable) :
    TracedP (L + 1) (arraySingleObject classes referenceable) := by
  intro s i hs hi
  unfold arraySingleObject
  have hg := arraySingleObjectRec_good (w := i) (List.suffix_refl i)
  refine (Traced.stateless hg hs).bind fun info s r hs hr1 heq => ?_
  simp only [Prod.mk.injEq] at heq
  rw [heq.1] at hg
  have hlen := hg.2.1
  refine (arrayLoop_traced (memberNone_traced hc) _ _ _ s r hs (by omega)).bind
    fun ms s r2 hs hr2 _ => ?_
  have := hr2.length_le
  exact (resolve_traced hr ms s r2 hs (by omega)).map _

theorem arraySingleString_traced (hc : TracedP L classes) (hr : TracedP L referenceable) :
    TracedP (L + 1) (arraySingleString classes referenceable) := by
  intro s i hs hi
  unfold arraySingleString
  have hg := arraySingleStringRec_good (w := i) (List.suffix_refl i)
  refine (Traced.stateless hg hs).bind fun info s r hs hr1 heq => ?_
  simp only [Prod.mk.injEq] at heq
  rw [heq.1] at hg
  have hlen := hg.2.1
  refine (arrayLoop_traced (member_traced hc .stringArray none (w := []) trivial) _ _ _ s r hs
    (by omega)).bind fun ms s r2 hs hr2 _ => ?_
  have := hr2.length_le
  exact (resolve_traced hr ms s r2 hs (by omega)).map _

theorem arraySinglePrimitive_traced (L : Nat) : TracedP L arraySinglePrimitive := by
  intro s i hs _
  have h := arraySinglePrimitive_good (pol := polTop i) (i.length + 1) s i
    ⟨hs, fun _ _ => trivial, fun _ _ => trivial⟩ (List.suffix_refl i) (by omega)
  refine ⟨h.1.1, fun r a e => ?_, fun e => ?_⟩
  · have := h.2; rw [e] at this; exact this.1
  · exfalso
    unfold arraySinglePrimitive lift at e
    have h2 : PG i (fun _ => True) i.length 1 ((ArraySinglePrimitive.parse i).bind fun (info, t) i =>
        (count (fun i => (memberPrimitiveUnTyped t i).map Prim.intoValue) info.length i).map
          fun vs => (info.objectId, vs)) := by
      refine (arraySinglePrimitiveRec_good (List.suffix_refl i)).bind fun ⟨info, t⟩ r hr _ hinfo => ?_
      refine (count_good (V := fun _ => True) (fun i hi => ?_) info.length hr).map fun vs h => trivial
      exact (untyped_good t hi).k0.map fun p h => trivial
    simp only at e
    rw [e] at h2
    exact h2

theorem binaryArray_traced (hsem : RecSem L classes referenceable) (hc : TracedP L classes)
    (hr : TracedP L referenceable) : TracedP (L + 1) (binaryArray classes referenceable) := by
  intro s i hs hi
  unfold binaryArray
  have hg := binaryArrayRec_good (w := i) (List.suffix_refl i)
  unfold lift
  cases hpa : BinaryArray.parse i with
  | ok i1 a =>
    rw [hpa] at hg
    simp only [Res.bind]
    have hl1 := hg.2.1
    have hinfo := hg.2.2.2.2.2.1
    have hsuf := hg.1
    obtain ⟨b, ⟨T, hT, hI, bid, brank, blens, bbounds, binfo, g1, g2, g3, g4, g5, g6, rfl⟩, hi1⟩ :=
      (binaryArray_exact _ _ _).mp hpa
    rw [checkedProduct_spec]
    cases hn : productUsize 1 a.lengths with
    | none => exact Traced.failure hs
    | some n =>
      simp only
      have hm : TracedP L (memberReference classes a.typeEnum a.additionalTypeInfo) :=
        member_traced hc _ _ hinfo
      have hcount := countS_traced hm n s i1 hs (by omega)
      have hms := untypedMembers_match hsem hs (i := i1) (by omega) (some T) n
      simp only [memberOf] at hms
      rw [hT, hI] at hcount ⊢
      generalize countS (memberReference classes (binaryType T) (typeInfo T)) n s i1 = x at hcount hms
      obtain ⟨o, s1⟩ := x
      cases o with
      | panic => exact ⟨hcount.1, (fun _ _ e => by cases e), fun _ => (hcount.2.2 rfl).mono hsuf⟩
      | error e => exact Traced.error hcount.1
      | failure e => exact Traced.failure hcount.1
      | diverge => exact ⟨hcount.1, (fun _ _ e => by cases e), (fun e => by cases e)⟩
      | ok i2 ms =>
        obtain ⟨hmem, hs1, hl2⟩ := hms.1 _ _ _ rfl
        have hres := resolve_traced hr ms s1 i2 hs1 (by omega)
        have hrm := resolve_match hsem hs1 (i := i2) (by omega) ms
        simp only
        have hsuf2 := (hcount.2.1 _ _ rfl).trans hsuf
        generalize resolveMembers referenceable ms s1 i2 = y at hres hrm
        obtain ⟨o, s2⟩ := y
        cases o with
        | panic => exact ⟨hres.1, (fun _ _ e => by cases e), fun _ => (hres.2.2 rfl).mono hsuf2⟩
        | error e => exact Traced.error hres.1
        | failure e => exact Traced.failure hres.1
        | diverge => exact ⟨hres.1, (fun _ _ e => by cases e), (fun e => by cases e)⟩
        | ok i3 vs =>
          obtain ⟨hvs, hs2, hl3⟩ := hrm.1 _ _ _ rfl
          simp only
          cases hre : reshape (a.lengths.drop 1).reverse vs with
          | done rows =>
            exact ⟨hs2, (fun _ _ e => by cases e; exact (hres.2.1 _ _ rfl).trans hsuf2), (fun e => by cases e)⟩
          | diverge => exact ⟨hs2, (fun _ _ e => by cases e), (fun e => by cases e)⟩
          | panic =>
            refine ⟨hs2, (fun _ _ e => by cases e), fun _ => ⟨abs s, i, List.suffix_refl _, ?_⟩⟩
            refine ⟨a.objectId, a.binaryArrayTypeEnum, a.lengths, T, _, n, i1, _, _, i2, vs, _, i3,
              hi1, ⟨bid, brank, blens, bbounds, binfo, g1, g2, g3, fun h => ?_, fun h => (g5 h).2, g6, rfl⟩,
              hn, hmem, hvs, ?_⟩
            · obtain ⟨bounds, _, h6, h7⟩ := g4 h
              exact ⟨bounds, h6, h7⟩
            · intro hd
              obtain ⟨rows, hrows⟩ := rows_exist.mpr hd
              have := rows_iff.mpr hrows
              rw [hre] at this
              cases this
  | error e => exact Traced.error hs
  | failure e => exact Traced.failure hs
  | panic => rw [hpa] at hg; exact hg.elim
  | diverge => rw [hpa] at hg; exact hg.elim

theorem arraysBody_traced (hsem : RecSem L classes referenceable) (hc : TracedP L classes)
    (hr : TracedP L referenceable) : TracedP (L + 1) (arraysBody classes referenceable) := by
  intro s i hs hi
  unfold arraysBody
  refine (library_traced (L + 1) s i hs hi).bind fun _ s i hs hi' _ => ?_
  have := hi'.length_le
  refine altMut_traced ?_ s hs
  intro p hp s hs
  simp only [List.mem_cons, List.not_mem_nil, or_false] at hp
  rcases hp with rfl | rfl | rfl | rfl
  · exact arraySingleObject_traced hc hr s i hs (by omega)
  · exact arraySinglePrimitive_traced (L + 1) s i hs (by omega)
  · exact arraySingleString_traced hc hr s i hs (by omega)
  · exact binaryArray_traced hsem hc hr s i hs (by omega)

theorem referenceableBody_traced {cls : SP (Nat × Object)} {arr : SP (Nat × List Value)}
    (hcls : TracedP L cls) (harr : TracedP L arr) : TracedP L (referenceableBody cls arr) := by
  intro s i hs hi
  unfold referenceableBody
  refine (altMut_traced (i := i) ?_ s hs).bind fun ⟨id, v⟩ s r hs hr _ => ?_
  · intro p hp s hs
    simp only [List.mem_cons, List.not_mem_nil, or_false] at hp
    rcases hp with rfl | rfl | rfl
    · exact (hcls s i hs hi).map _
    · exact (harr s i hs hi).map _
    · exact Traced.stateless ((bos_good (List.suffix_refl i)).map (W := fun _ => True) fun _ _ => trivial) hs
  · exact ⟨hs, (fun _ _ e => by cases e; exact List.suffix_refl _), (fun e => by cases e)⟩

end

theorem recAt_traced (n : Nat) : TracedP n (recAt n).classes ∧ TracedP n (recAt n).referenceable := by
  induction n with
  | zero => exact ⟨fun s i _ h => by omega, fun s i _ h => by omega⟩
  | succ n ih =>
    have hc := classesBody_traced ih.1 ih.2
    exact ⟨hc, referenceableBody_traced hc (arraysBody_traced (recSem n) ih.1 ih.2)⟩

theorem parseClasses_traced (L : Nat) : TracedP L parseClasses :=
  fun s i hs _ => (recAt_traced (i.length + 1)).1 s i hs (by omega)

theorem parseReferenceable_traced (L : Nat) : TracedP L parseReferenceable :=
  fun s i hs _ => (recAt_traced (i.length + 1)).2 s i hs (by omega)

theorem callArray_traced (root : Option Nat) (L : Nat) : TracedP L (parseCallArray root) := by
  intro s i hs hi
  unfold parseCallArray
  refine (library_traced L s i hs hi).bind fun _ s i hs hi' _ => ?_
  have := hi'.length_le
  refine (arraySingleObject_traced (parseClasses_traced L) (parseReferenceable_traced L) s i hs
    (by omega)).bind fun ⟨id, vs⟩ s i hs _ _ => ?_
  simp only
  split
  · exact Traced.failure hs
  · exact Traced.ret hs

theorem methodCall_traced (root : Option Nat) (L : Nat) : TracedP L (parseMethodCall root) := by
  intro s i hs hi
  unfold parseMethodCall
  refine (library_traced L s i hs hi).bind fun _ s i hs hi' _ => ?_
  have := hi'.length_le
  refine (Traced.stateless (binaryMethodCall_good (List.suffix_refl i)) hs).bind
    fun c s r hs hr _ => ?_
  have := hr.length_le
  refine (optS_traced (callArray_traced root L) s r hs (by omega)).bind fun ca s r2 hs _ _ => ?_
  split
  · exact Traced.ret hs
  · exact Traced.failure hs

theorem methodReturn_traced (root : Option Nat) (L : Nat) : TracedP L (parseMethodReturn root) := by
  intro s i hs hi
  unfold parseMethodReturn
  refine (library_traced L s i hs hi).bind fun _ s i hs hi' _ => ?_
  have := hi'.length_le
  refine (Traced.stateless (binaryMethodReturn_good (List.suffix_refl i)) hs).bind
    fun c s r hs hr _ => ?_
  have := hr.length_le
  refine (optS_traced (callArray_traced root L) s r hs (by omega)).bind fun ca s r2 hs _ _ => ?_
  split
  · exact Traced.ret hs
  · exact Traced.failure hs

theorem method_traced (root : Option Nat) (L : Nat) : TracedP L (parseMethodCallOrReturn root) := by
  intro s i hs hi
  unfold parseMethodCallOrReturn
  refine altMut_traced ?_ s hs
  intro p hp s hs
  simp only [List.mem_cons, List.not_mem_nil, or_false] at hp
  rcases hp with rfl | rfl
  · exact (methodCall_traced root L s i hs hi).map _
  · exact (methodReturn_traced root L s i hs hi).map _

theorem referenceables_traced (fuel L : Nat) : TracedP L (referenceablesLoop fuel) := by
  induction fuel with
  | zero => exact fun s i hs _ => ⟨hs, (fun _ _ e => by cases e), (fun e => by cases e)⟩
  | succ fuel ih =>
    intro s i hs hi
    have h := parseReferenceable_traced L s i hs hi
    unfold referenceablesLoop
    split
    · rename_i r _ s' heq
      rw [heq] at h
      have hr := h.2.1 _ _ rfl
      have h2 := ih s' r h.1 (by have := hr.length_le; omega)
      exact ⟨h2.1, fun _ _ e => (h2.2.1 _ _ e).trans hr, fun e => (h2.2.2 e).mono hr⟩
    all_goals rename_i heq; rw [heq] at h
    · exact Traced.ret h.1
    · exact Traced.failure h.1
    · exact ⟨h.1, (fun _ _ e => by cases e), fun _ => h.2.2 rfl⟩
    · exact ⟨h.1, (fun _ _ e => by cases e), (fun e => by cases e)⟩

theorem message_traced (L : Nat) : TracedP L parseRemotingMessage := by
  intro s i hs hi
  unfold parseRemotingMessage
  refine (Traced.stateless (header_good (List.suffix_refl i)) hs).bind fun h s r hs hr _ => ?_
  have h1 := hr.length_le
  refine (referenceables_traced (r.length + 1) L s r hs (by omega)).bind fun _ s r2 hs hr2 _ => ?_
  have h2 := hr2.length_le
  refine (optS_traced (method_traced h.rootId L) s r2 hs (by omega)).bind fun m s r3 hs hr3 _ => ?_
  have h3 := hr3.length_le
  refine (referenceables_traced (r3.length + 1) L s r3 hs (by omega)).bind fun _ s r4 hs hr4 _ => ?_
  refine (Traced.stateless (messageEnd_good (List.suffix_refl r4)) hs).bind fun _ s r5 hs hr5 _ => ?_
  split
  · unfold selectRoot
    split
    · exact Traced.ret hs
    · exact Traced.ret hs
    · split
      · split
        · exact ⟨hs, (fun _ _ e => by cases e; exact List.suffix_refl _), (fun e => by cases e)⟩
        · exact Traced.error hs
      · exact Traced.ret hs
  · exact Traced.error hs

/-- A panic comes from an array that cannot be reshaped. -/
theorem panic_cause {w : Bytes} (h : deserialize w = .panic) : Bad w := by
  have ht := message_traced (w.length + 1) St.init w rfl (by omega)
  unfold deserialize at h
  generalize parseRemotingMessage St.init w = x at h ht
  obtain ⟨o, s⟩ := x
  cases o with
  | panic => exact ht.2.2 rfl
  | _ => cases h

/-! ## Where such an array is met -/

section
variable {L : Nat} {classes : SP (Nat × Object)} {referenceable : SP Nat}

theorem productUsize_prod {acc n : Nat} {ds : List Nat} (h : productUsize acc ds = some n) :
    n = acc * ds.prod := by
  induction ds generalizing acc with
  | nil => cases h; simp
  | cons d ds ih =>
    unfold productUsize at h
    split at h
    · rw [ih h, List.prod_cons, Nat.mul_assoc]
    · cases h

omit [Platform] in
theorem prod_zero {ds : List Nat} (h : 0 ∈ ds) : ds.prod = 0 := by
  induction ds with
  | nil => cases h
  | cons d ds ih =>
    rw [List.prod_cons]
    cases h with
    | head => simp
    | tail _ h => simp [ih h]

theorem binaryArray_panics (hsem : RecSem L classes referenceable) {s : St} {i : Bytes}
    (hs : s.classes = []) (hi : i.length < L + 1) (h : BadArray (abs s) i) :
    (binaryArray classes referenceable s i).1 = .panic := by
  obtain ⟨id, kind, lengths, T, b, n, i1, slots, E2, i2, vs, E3, i3, rfl,
    ⟨bid, brank, blens, bbounds, binfo, g1, g2, g3, g4, g5, g6, rfl⟩, hn, hm, hv, hd⟩ := h
  obtain ⟨a, ha1, ha2, ha3, hpa⟩ : ∃ a : BinaryArray, a.lengths = lengths ∧ a.typeEnum = binaryType T ∧
      a.additionalTypeInfo = typeInfo T ∧ BinaryArray.parse
        (7 :: bid ++ [arrayKindByte kind] ++ brank ++ blens ++ bbounds ++ [memberTypeByte T] ++ binfo ++ i1) =
          .ok i1 a := by
    by_cases hk : hasLowerBounds kind
    · obtain ⟨bounds, h6, h7⟩ := g4 hk
      exact ⟨⟨id, kind, lengths, some bounds, binaryType T, typeInfo T⟩, rfl, rfl, rfl,
        (binaryArray_exact _ _ _).mpr ⟨_, ⟨T, rfl, rfl, bid, brank, blens, bbounds, binfo, g1, g2, g3,
          fun _ => ⟨bounds, rfl, h6, h7⟩, fun h => absurd hk h, g6, rfl⟩, rfl⟩⟩
    · exact ⟨⟨id, kind, lengths, none, binaryType T, typeInfo T⟩, rfl, rfl, rfl,
        (binaryArray_exact _ _ _).mpr ⟨_, ⟨T, rfl, rfl, bid, brank, blens, bbounds, binfo, g1, g2, g3,
          fun h => absurd h hk, fun h => ⟨rfl, g5 h⟩, g6, rfl⟩, rfl⟩⟩
  unfold binaryArray lift
  simp only [List.append_assoc, List.cons_append] at hpa hi ⊢
  rw [hpa]
  simp only [Res.bind]
  rw [checkedProduct_spec, ha1, hn, ha2, ha3]
  simp only
  have hi1 : i1.length < L := by simp at hi; omega
  have hmm := untypedMembers_match hsem hs hi1 (some T) n
  rw [← map_ofSlot slots] at hm hv
  obtain ⟨s1, he1, hE1⟩ := hmm.2 _ _ _ hm
  obtain ⟨_, hs1, hl1⟩ := hmm.1 _ _ _ he1
  simp only [memberOf] at he1
  rw [he1]
  simp only
  subst hE1
  have hrm := resolve_match hsem hs1 (i := i2) (by omega) (slots.map ofSlot)
  obtain ⟨s2, he2, hE2⟩ := hrm.2 _ _ _ hv
  rw [he2]
  simp only
  cases hre : reshape (lengths.drop 1).reverse vs with
  | done rows => exact absurd (rows_exist.mp ⟨rows, rows_iff.mp hre⟩) hd
  | diverge =>
    exfalso
    have hn' := productUsize_prod hn
    have hpos : ∀ l ∈ (lengths.drop 1).reverse, 0 < l := by
      intro l hl
      rcases Nat.eq_zero_or_pos l with rfl | h
      · exfalso
        have hz : lengths.tail.prod = 0 := prod_zero (by simpa using hl)
        have hz' : lengths.prod = 0 := by
          cases lengths with
          | nil => simp at hl
          | cons d ds => simp only [List.tail_cons] at hz; simp [hz]
        have hn0 : n = 0 := by omega
        subst hn0
        have hl0 := members_length hm
        simp at hl0
        subst hl0
        cases hv
        simp at hd
      · exact h
    rcases (reshape_spec (pol := polTop []) hpos (fun _ _ _ _ _ => trivial) vs fun _ _ => trivial).2 with ⟨cs, h, _⟩ | h <;>
      rw [hre] at h <;> cases h
  | panic => rfl

theorem badArray_head {E : Env} {i : Bytes} (h : BadArray E i) : i.head? = some 7 := by
  obtain ⟨_, _, _, _, _, _, _, _, _, _, _, _, _, rfl, h, _⟩ := h
  exact binaryArrayHead_head h

theorem referenceable_panics {s : St} {i : Bytes} (hs : s.classes = []) (h : BadArray (abs s) i) :
    (parseReferenceable s i).1 = .panic := by
  have h7 := badArray_head h
  have hp := binaryArray_panics (recSem i.length) hs (by omega) h
  have hcb : ¬ ClassByte i := by unfold ClassByte; simp [h7]
  obtain ⟨e, he⟩ := classesBody_other (classes := (recAt i.length).classes)
    (referenceable := (recAt i.length).referenceable) (s := s) hcb (by simp [h7])
  have harr : (arraysBody (recAt i.length).classes (recAt i.length).referenceable s i).1 = .panic := by
    unfold arraysBody
    rw [lib_none (by simp [h7])]
    simp only [Res.bind]
    rw [altMut_skip (arraySingleObject_mismatch (by simp [h7]) s),
      altMut_skip (arraySinglePrimitive_mismatch (by simp [h7]) s),
      altMut_skip (arraySingleString_mismatch (by simp [h7]) s)]
    generalize hx : binaryArray (recAt i.length).classes (recAt i.length).referenceable s i = x at hp
    obtain ⟨o, s'⟩ := x
    simp only at hp
    subst hp
    simp only [altMut, hx]
  unfold parseReferenceable recAt referenceableBody
  simp only
  rw [altMut_skip ⟨e, by simp only [he]; rfl⟩]
  generalize hx : arraysBody (recAt i.length).classes (recAt i.length).referenceable s i = x at harr
  obtain ⟨o, s'⟩ := x
  simp only at harr
  subst harr
  simp only [altMut, hx, Res.map, Outcome.map, Res.bind]

/-- Records followed by an array that cannot be reshaped. -/
theorem loop_panics {E : Env} {i : Bytes} {E' : Env} {r : Bytes} (h : Records E i E' r)
    (hr : BadArray E' r) {s : St} (hs : s.classes = []) (hE : abs s = E) (fuel : Nat)
    (hf : i.length < fuel) : (referenceablesLoop fuel s i).1 = .panic := by
  induction h generalizing s fuel with
  | @nil E i =>
    cases fuel with
    | zero => omega
    | succ fuel =>
      subst hE
      have hp := referenceable_panics hs hr
      unfold referenceablesLoop
      generalize parseReferenceable s i = x at hp
      obtain ⟨o, s'⟩ := x
      simp only at hp
      subst hp
      rfl
  | @cons E i id v E1 i1 E2 i2 h1 _ ih =>
    cases fuel with
    | zero => omega
    | succ fuel =>
      subst hE
      have hm := parseReferenceable_match hs i
      obtain ⟨s1, he, hE1⟩ := hm.2 id _ i1 ⟨v, E1, h1, rfl⟩
      obtain ⟨_, hs1, hl⟩ := hm.1 _ _ _ he
      simp only [referenceablesLoop, he]
      exact ih hr hs1 hE1 fuel (by omega)

end

end Nrbf
