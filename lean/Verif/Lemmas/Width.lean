import Verif.Lemmas.Unfold
import Verif.Lemmas.MessageSem
import Verif.Spec.Width

/-! # Where the width of `usize` matters

The parser on two platforms that differ in the width of `usize` does the same on every suffix of an input in which
no head of a BinaryArray record has lengths whose product fits one width and not the other. -/

set_option autoImplicit false

namespace Nrbf

open Spec

section
variable [Platform]

theorem productUsize_eq {acc : Nat} {ds : List Nat} {n : Nat} (h : productUsize acc ds = some n) :
    n = acc * product ds := by
  induction ds generalizing acc with
  | nil => simp only [productUsize, Option.some.injEq] at h; simp [product, h]
  | cons d ds ih =>
    unfold productUsize at h
    split at h
    · rw [ih h, product, Nat.mul_assoc]
    · cases h

theorem one_lt_usize : 1 < 2 ^ usizeBits := by
  rcases usizeBits_cases with h | h <;> rw [h] <;> decide

theorem productUsize_none (acc : Nat) (hacc : acc < 2 ^ usizeBits) (ds : List Nat) :
    productUsize acc ds = none ↔ ∃ k, 2 ^ usizeBits ≤ acc * product (ds.take k) := by
  induction ds generalizing acc with
  | nil => simp [productUsize, product]; omega
  | cons d ds ih =>
    unfold productUsize
    by_cases h : acc * d < 2 ^ usizeBits
    · rw [if_pos h, ih _ h]
      constructor
      · rintro ⟨k, hk⟩
        refine ⟨k + 1, ?_⟩
        rw [List.take_succ_cons, product, ← Nat.mul_assoc]
        exact hk
      · rintro ⟨k, hk⟩
        cases k with
        | zero => simp [product] at hk; omega
        | succ k =>
          rw [List.take_succ_cons, product, ← Nat.mul_assoc] at hk
          exact ⟨k, hk⟩
    · rw [if_neg h]
      refine ⟨fun _ => ⟨1, ?_⟩, fun _ => rfl⟩
      simp [product]; omega

end

section
variable {α β : Type} [Platform]

/-- `p` and `q` agree on the suffixes of `w` shorter than `L`. -/
def Within (w : Bytes) (L : Nat) (p q : SP α) : Prop :=
  ∀ s i, s.classes = [] → i.length < L → i <:+ w → p s i = q s i

theorem Within.mono {w : Bytes} {L L' : Nat} {p q : SP α} (h : Within w L p q) (hl : L' ≤ L) : Within w L' p q :=
  fun s i hs hi hw => h s i hs (by omega) hw

/-- `parse_binary_array` with another way to multiply the lengths. -/
def binaryArrayBy (prod : List Nat → Option Nat) (classes : SP (Nat × Object)) (referenceable : SP Nat) :
    SP (Nat × List Value) := fun s errInput =>
  (lift BinaryArray.parse s errInput).bind fun a s i =>
    match prod a.lengths with
    | none => (.failure ⟨errInput, .invalidLength⟩, s)
    | some n =>
      (countS (memberReference classes a.typeEnum a.additionalTypeInfo) n s i).bind fun members s i =>
      (resolveMembers referenceable members s i).bind fun vs s i =>
        match reshape (a.lengths.drop 1).reverse vs with
        | .done vs => (.ok i (a.objectId, vs), s)
        | .panic => (.panic, s)
        | .diverge => (.diverge, s)

/-- `parse_arrays` with another way to multiply the lengths. -/
def arraysBodyBy (prod : List Nat → Option Nat) (classes : SP (Nat × Object)) (referenceable : SP Nat) :
    SP (Nat × List Value) := fun s i =>
  (parseBinaryLibrary s i).bind fun _ s i =>
    altMut [arraySingleObject classes referenceable, arraySinglePrimitive,
      arraySingleString classes referenceable, binaryArrayBy prod classes referenceable] s i

/-- The mutually recursive functions with another way to multiply the lengths. -/
def recBy (prod : List Nat → Option Nat) : Nat → Rec
  | 0 => ⟨fun s _ => (.diverge, s), fun s _ => (.diverge, s)⟩
  | depth + 1 =>
    let r := recBy prod depth
    let classes := classesBody r.classes r.referenceable
    ⟨classes, referenceableBody classes (arraysBodyBy prod r.classes r.referenceable)⟩

section
variable {w : Bytes} {L : Nat} {c c' : SP (Nat × Object)} {q q' : SP Nat}

theorem countS_within {p p' : SP α} (ht : TracedP L p) (h : Within w L p p') (n : Nat) :
    Within w L (countS p n) (countS p' n) := by
  induction n with
  | zero => exact fun _ _ _ _ _ => rfl
  | succ n ih =>
    intro s i hs hi hw
    refine Res.bind_congr (h s i hs hi hw) (ht s i hs hi) fun a s r hs hr => ?_
    rw [ih s r hs (by have := hr.length_le; omega) (hr.trans hw)]

theorem optS_within {p p' : SP α} (h : Within w L p p') : Within w L (optS p) (optS p') := by
  intro s i hs hi hw
  unfold optS
  rw [h s i hs hi hw]

theorem memberNone_within (h : Within w L c c') :
    Within w L (memberReferenceNone c) (memberReferenceNone c') := by
  intro s i hs hi hw
  unfold memberReferenceNone
  refine Res.bind_congr rfl (library_traced L s i hs hi) fun _ s r hs hr => ?_
  rw [h s r hs (by have := hr.length_le; omega) (hr.trans hw)]

theorem expectedClass_within (h : Within w L c c') (name : Str) (library : Option Str) :
    Within w L (expectedClass c name library) (expectedClass c' name library) := by
  intro s i hs hi hw
  unfold expectedClass
  rw [h s i hs hi hw]

theorem member_within (h : Within w L c c') (t : BinaryType) (info : Option AdditionalTypeInfo) :
    Within w L (memberReference c t info) (memberReference c' t info) := by
  intro s i hs hi hw
  unfold memberReference
  refine Res.bind_congr rfl (library_traced L s i hs hi) fun _ s r hs hr => ?_
  have hl : r.length < L := by have := hr.length_le; omega
  have h1 := memberNone_within h s r hs hl (hr.trans hw)
  have h2 := fun n l => expectedClass_within h n l s r hs hl (hr.trans hw)
  simp only [h1, h2]

theorem members_within (ht : TracedP L c) (h : Within w L c c') {w' : Bytes}
    (ts : List (BinaryType × Option AdditionalTypeInfo)) (hts : ∀ e ∈ ts, TypeInfoOk w' e.1 e.2) :
    Within w L (membersWithTypeInfo c ts) (membersWithTypeInfo c' ts) := by
  induction ts with
  | nil => exact fun _ _ _ _ _ => rfl
  | cons e ts ih =>
    obtain ⟨t, info⟩ := e
    intro s i hs hi hw
    unfold membersWithTypeInfo
    refine Res.bind_congr (member_within h t info s i hs hi hw)
      (member_traced ht t info (hts (t, info) (by simp)) s i hs hi) fun a s r hs hr => ?_
    rw [ih (fun e he => hts e (by simp [he])) s r hs (by have := hr.length_le; omega) (hr.trans hw)]

theorem resolveRef_within (h : Within w L q q') (id : Nat) :
    Within w L (resolveRef q id) (resolveRef q' id) := by
  intro s i hs hi hw
  unfold resolveRef
  rw [h s i hs hi hw]

theorem resolve_within (ht : TracedP L q) (h : Within w L q q') (ms : List ValueOrRef) :
    Within w L (resolveMembers q ms) (resolveMembers q' ms) := by
  induction ms with
  | nil => exact fun _ _ _ _ _ => rfl
  | cons m ms ih =>
    intro s i hs hi hw
    cases m with
    | value v => simp only [resolveMembers, ih s i hs hi hw]
    | null n => simp only [resolveMembers, ih s i hs hi hw]
    | ref id =>
      simp only [resolveMembers]
      refine Res.bind_congr (resolveRef_within h id s i hs hi hw) (resolveRef_traced ht id s i hs hi)
        fun v s r hs hr => ?_
      rw [ih s r hs (by have := hr.length_le; omega) (hr.trans hw)]

theorem classMembers_within (ht : TracedP L c) (h : Within w L c c') {errInput w' : Bytes} {k : Class}
    (hk : k.Ok w') : Within w L (classMembers c errInput k) (classMembers c' errInput k) := by
  intro s i hs hi hw
  unfold classMembers
  split
  · rw [countS_within (memberNone_traced ht) (memberNone_within h) _ s i hs hi hw]
  · rw [members_within ht h _ hk.2.1.2.2 s i hs hi hw]
  · rw [countS_within (memberNone_traced ht) (memberNone_within h) _ s i hs hi hw]
  · rw [members_within ht h _ hk.2.2.2 s i hs hi hw]

theorem classesBody_within (hc : TracedP L c) (hac : Within w L c c') (hq : TracedP L q)
    (haq : Within w L q q') : Within w (L + 1) (classesBody c q) (classesBody c' q') := by
  intro s i hs hi hw
  unfold classesBody
  refine Res.bind_congr rfl (library_traced (L + 1) s i hs hi) fun _ s e hs he => ?_
  have hle := he.length_le
  have hg := classHeader_good (pol := polTop e) (s := s) (w := e)
    ⟨hs, fun _ _ => trivial, fun _ _ => trivial⟩ (List.suffix_refl e)
  have ht := classHeader_traced (i := e) hs
  generalize classHeader s e = x at hg ht
  obtain ⟨o, s⟩ := x
  cases o with
  | ok i ic =>
    obtain ⟨id, k⟩ := ic
    have hlen := hg.2.2.1
    have hcls := hg.2.2.2.2
    have hs := ht.1
    have hiw : i <:+ w := (ht.2.1 _ _ rfl).trans (he.trans hw)
    simp only at hlen hcls hs
    simp only [Res.bind]
    rw [if_neg (by simp [hs, AMap.get?]), if_neg (by simp [hs, AMap.get?])]
    refine Res.bind_congr (classMembers_within hc hac hcls s i hs (by omega) hiw)
      (classMembers_traced hc hcls s i hs (by omega)) fun lm s r hs hr => ?_
    obtain ⟨lib, ms⟩ := lm
    have := hr.length_le
    refine Res.bind_congr (resolve_within hq haq ms s r hs (by omega) (hr.trans hiw))
      (resolve_traced hq ms s r hs (by omega)) fun vs s r hs hr => rfl
  | _ => rfl

theorem arrayLoop_within {p p' : SP ValueOrRef} (ht : TracedP L p) (h : Within w L p p') (fuel len : Nat)
    (acc : List ValueOrRef) : Within w L (arrayLoop p fuel len acc) (arrayLoop p' fuel len acc) := by
  induction fuel generalizing acc with
  | zero => exact fun _ _ _ _ _ => rfl
  | succ fuel ih =>
    intro s i hs hi hw
    unfold arrayLoop
    split
    · refine Res.bind_congr (h s i hs hi hw) (ht s i hs hi) fun m s r hs hr => ?_
      have := hr.length_le
      split
      · exact ih _ s r hs (by omega) (hr.trans hw)
      · exact ih _ s r hs (by omega) (hr.trans hw)
    · rfl

theorem arraySingleObject_within (hc : TracedP L c) (hac : Within w L c c') (hq : TracedP L q)
    (haq : Within w L q q') : Within w (L + 1) (arraySingleObject c q) (arraySingleObject c' q') := by
  intro s i hs hi hw
  unfold arraySingleObject
  have hg := arraySingleObjectRec_good (w := i) (List.suffix_refl i)
  unfold lift
  cases hp : ArraySingleObject.parse i with
  | ok r info =>
    rw [hp] at hg
    have hlen := hg.2.1
    have hrw : r <:+ w := hg.1.trans hw
    simp only [Res.bind]
    refine Res.bind_congr (arrayLoop_within (memberNone_traced hc) (memberNone_within hac) _ _ _ s r hs
      (by omega) hrw) (arrayLoop_traced (memberNone_traced hc) _ _ _ s r hs (by omega)) fun ms s r2 hs hr => ?_
    have := hr.length_le
    rw [resolve_within hq haq ms s r2 hs (by omega) (hr.trans hrw)]
  | _ => rfl

theorem arraySingleString_within (hc : TracedP L c) (hac : Within w L c c') (hq : TracedP L q)
    (haq : Within w L q q') : Within w (L + 1) (arraySingleString c q) (arraySingleString c' q') := by
  intro s i hs hi hw
  unfold arraySingleString
  have hg := arraySingleStringRec_good (w := i) (List.suffix_refl i)
  unfold lift
  cases hp : ArraySingleString.parse i with
  | ok r info =>
    rw [hp] at hg
    have hlen := hg.2.1
    have hrw : r <:+ w := hg.1.trans hw
    simp only [Res.bind]
    have htm : TracedP L (memberReference c .stringArray none) :=
      member_traced hc .stringArray none (w := []) trivial
    refine Res.bind_congr (arrayLoop_within htm (member_within hac _ _) _ _ _ s r hs
      (by omega) hrw) (arrayLoop_traced htm _ _ _ s r hs (by omega)) fun ms s r2 hs hr => ?_
    have := hr.length_le
    rw [resolve_within hq haq ms s r2 hs (by omega) (hr.trans hrw)]
  | _ => rfl

theorem binaryArray_within {prod : List Nat → Option Nat}
    (hprod : ∀ i r a, i <:+ w → BinaryArray.parse i = .ok r a → checkedProduct 1 a.lengths = prod a.lengths) (hc : TracedP L c) (hac : Within w L c c') (hq : TracedP L q)
    (haq : Within w L q q') : Within w (L + 1) (binaryArray c q) (binaryArrayBy prod c' q') := by
  intro s i hs hi hw
  unfold binaryArray binaryArrayBy
  have hg := binaryArrayRec_good (w := i) (List.suffix_refl i)
  unfold lift
  cases hp : BinaryArray.parse i with
  | ok r a =>
    rw [hp] at hg
    have hlen := hg.2.1
    have hrw : r <:+ w := hg.1.trans hw
    have hinfo := hg.2.2.2.2.2.1
    simp only [Res.bind]
    rw [hprod i r a hw hp]
    cases prod a.lengths with
    | none => rfl
    | some n =>
      simp only
      have htm := member_traced hc a.typeEnum a.additionalTypeInfo hinfo
      refine Res.bind_congr (countS_within htm (member_within hac _ _) n s r hs (by omega) hrw)
        (countS_traced htm n s r hs (by omega)) fun ms s r2 hs hr => ?_
      have := hr.length_le
      rw [resolve_within hq haq ms s r2 hs (by omega) (hr.trans hrw)]
      rfl
  | _ => rfl

theorem arraysBody_within {prod : List Nat → Option Nat}
    (hprod : ∀ i r a, i <:+ w → BinaryArray.parse i = .ok r a → checkedProduct 1 a.lengths = prod a.lengths) (hsem : RecSem L c q) (hc : TracedP L c) (hac : Within w L c c')
    (hq : TracedP L q) (haq : Within w L q q') : Within w (L + 1) (arraysBody c q) (arraysBodyBy prod c' q') := by
  intro s i hs hi hw
  unfold arraysBody arraysBodyBy
  refine Res.bind_congr rfl (library_traced (L + 1) s i hs hi) fun _ s r hs hr => ?_
  have hl := hr.length_le
  refine altMut_agree (by simp) ?_ ?_ s hs
  · intro p hp s hs
    simp only [List.mem_cons, List.not_mem_nil, or_false] at hp
    rcases hp with rfl | rfl | rfl | rfl
    · exact arraySingleObject_traced hc hq s r hs (by omega)
    · exact arraySinglePrimitive_traced (L + 1) s r hs (by omega)
    · exact arraySingleString_traced hc hq s r hs (by omega)
    · exact binaryArray_traced hsem hc hq s r hs (by omega)
  · intro e he s hs
    simp only [List.zip_cons_cons, List.zip_nil_right, List.mem_cons, List.not_mem_nil, or_false] at he
    rcases he with rfl | rfl | rfl | rfl
    · exact arraySingleObject_within hc hac hq haq s r hs (by omega) (hr.trans hw)
    · rfl
    · exact arraySingleString_within hc hac hq haq s r hs (by omega) (hr.trans hw)
    · exact binaryArray_within hprod hc hac hq haq s r hs (by omega) (hr.trans hw)

theorem referenceableBody_within {cls cls' : SP (Nat × Object)} {arr arr' : SP (Nat × List Value)}
    (hcls : TracedP L cls) (hacls : Within w L cls cls') (harr : TracedP L arr)
    (haarr : Within w L arr arr') :
    Within w L (referenceableBody cls arr) (referenceableBody cls' arr') := by
  intro s i hs hi hw
  unfold referenceableBody
  rw [altMut_agree (i := i) (ps := [fun s i => (cls s i).map fun o => (o.1, o.2.toValue),
     fun s i => (arr s i).map fun a => (a.1, Value.array a.2),
     lift fun i => (BinaryObjectString.parse i).map fun b => (b.objectId, Value.string b.value)])
     (qs := [fun s i => (cls' s i).map fun o => (o.1, o.2.toValue),
     fun s i => (arr' s i).map fun a => (a.1, Value.array a.2),
     lift fun i => (BinaryObjectString.parse i).map fun b => (b.objectId, Value.string b.value)])
     (by simp) ?_ ?_ s hs]
  · intro p hp s hs
    simp only [List.mem_cons, List.not_mem_nil, or_false] at hp
    rcases hp with rfl | rfl | rfl
    · exact (hcls s i hs hi).map _
    · exact (harr s i hs hi).map _
    · exact Traced.stateless ((bos_good (List.suffix_refl i)).map (W := fun _ => True) fun _ _ => trivial) hs
  · intro e he s hs
    simp only [List.zip_cons_cons, List.zip_nil_right, List.mem_cons, List.not_mem_nil, or_false] at he
    rcases he with rfl | rfl | rfl
    · simp only [hacls s i hs hi hw]
    · simp only [haarr s i hs hi hw]
    · rfl

end

theorem recAt_within {w : Bytes} {prod : List Nat → Option Nat}
    (hprod : ∀ i r a, i <:+ w → BinaryArray.parse i = .ok r a → checkedProduct 1 a.lengths = prod a.lengths) (n : Nat) :
    Within w n (recAt n).classes (recBy prod n).classes ∧
    Within w n (recAt n).referenceable (recBy prod n).referenceable := by
  induction n with
  | zero => exact ⟨fun _ _ _ h => by omega, fun _ _ _ h => by omega⟩
  | succ n ih =>
    have ht := recAt_traced n
    have hc := classesBody_within ht.1 ih.1 ht.2 ih.2
    exact ⟨hc, referenceableBody_within (classesBody_traced ht.1 ht.2) hc
      (arraysBody_traced (recSem n) ht.1 ht.2) (arraysBody_within hprod (recSem n) ht.1 ih.1 ht.2 ih.2)⟩

end


/-! ## Two platforms -/

section
variable {P : Platform} {u v : PointerWidth}

theorem bind_on {α β : Type} {i : Bytes} {x x' : Res α} {f f' : α → St → Bytes → Res β} (hx : x = x')
    (ht : @Traced _ (P.on u) i x) (h : ∀ a s r, s.classes = [] → r <:+ i → f a s r = f' a s r) :
    x.bind f = x'.bind f' := @Res.bind_congr _ _ (P.on u) i x x' f f' hx ht h

theorem memberNone_on (c : SP (Nat × Object)) :
    @memberReferenceNone (P.on u) c = @memberReferenceNone (P.on v) c := rfl

theorem member_on (c : SP (Nat × Object)) : @memberReference (P.on u) c = @memberReference (P.on v) c := rfl

theorem members_on (c : SP (Nat × Object)) (ts : List (BinaryType × Option AdditionalTypeInfo)) :
    @membersWithTypeInfo (P.on u) c ts = @membersWithTypeInfo (P.on v) c ts := by
  induction ts with
  | nil => rfl
  | cons e ts ih =>
    funext s i
    unfold membersWithTypeInfo
    rw [ih, @member_on P u v]

theorem classMembers_on (c : SP (Nat × Object)) (e : Bytes) (k : Class) :
    @classMembers (P.on u) c e k = @classMembers (P.on v) c e k := by
  funext s i
  unfold classMembers
  simp only [@members_on P u v, @memberNone_on P u v]

theorem classesBody_on (c : SP (Nat × Object)) (q : SP Nat) :
    @classesBody (P.on u) c q = @classesBody (P.on v) c q := by
  funext s i
  unfold classesBody
  simp only [@classMembers_on P u v]

theorem arraySingleObject_on (c : SP (Nat × Object)) (q : SP Nat) :
    @arraySingleObject (P.on u) c q = @arraySingleObject (P.on v) c q := by
  funext s i
  unfold arraySingleObject
  rw [@memberNone_on P u v]

theorem arraySingleString_on (c : SP (Nat × Object)) (q : SP Nat) :
    @arraySingleString (P.on u) c q = @arraySingleString (P.on v) c q := by
  funext s i
  unfold arraySingleString
  rw [@member_on P u v]

theorem arraySinglePrimitive_on : @arraySinglePrimitive (P.on u) = @arraySinglePrimitive (P.on v) := rfl

theorem binaryArray_on (c : SP (Nat × Object)) (q : SP Nat) :
    @binaryArrayBy (P.on u) (@checkedProduct (P.on v) 1) c q = @binaryArray (P.on v) c q := by
  funext s i
  unfold binaryArrayBy binaryArray
  rw [@member_on P u v]
  rfl

theorem arraysBody_on (c : SP (Nat × Object)) (q : SP Nat) :
    @arraysBodyBy (P.on u) (@checkedProduct (P.on v) 1) c q = @arraysBody (P.on v) c q := by
  funext s i
  unfold arraysBodyBy arraysBody
  rw [binaryArray_on, @arraySingleObject_on P u v, @arraySingleString_on P u v, @arraySinglePrimitive_on P u v]

theorem recBy_on (n : Nat) : @recBy (P.on u) (@checkedProduct (P.on v) 1) n = @recAt (P.on v) n := by
  induction n with
  | zero => rfl
  | succ n ih =>
    unfold recBy recAt
    simp only
    rw [ih, @classesBody_on P u v, arraysBody_on]

/-- No BinaryArray record in `w` is read differently. -/
def SameLengths (P : Platform) (u v : PointerWidth) (w : Bytes) : Prop :=
  ∀ i r a, i <:+ w → BinaryArray.parse i = .ok r a →
    @checkedProduct (P.on u) 1 a.lengths = @checkedProduct (P.on v) 1 a.lengths

variable {w : Bytes} (hp : SameLengths P u v w)
include hp

theorem classes_on (n : Nat) : Within w n (@recAt (P.on u) n).classes (@recAt (P.on v) n).classes := by
  have := (@recAt_within (P.on u) w _ hp n).1
  rw [recBy_on] at this
  exact this

theorem referenceable_on (n : Nat) :
    Within w n (@recAt (P.on u) n).referenceable (@recAt (P.on v) n).referenceable := by
  have := (@recAt_within (P.on u) w _ hp n).2
  rw [recBy_on] at this
  exact this

theorem parseClasses_on (L : Nat) : Within w L (@parseClasses (P.on u)) (@parseClasses (P.on v)) :=
  fun s i hs _ hw => classes_on hp (i.length + 1) s i hs (by omega) hw

theorem parseReferenceable_on (L : Nat) :
    Within w L (@parseReferenceable (P.on u)) (@parseReferenceable (P.on v)) :=
  fun s i hs _ hw => referenceable_on hp (i.length + 1) s i hs (by omega) hw

theorem parseCallArray_on (root : Option Nat) (L : Nat) :
    Within w L (@parseCallArray (P.on u) root) (@parseCallArray (P.on v) root) := by
  intro s i hs hi hw
  unfold parseCallArray
  refine bind_on (P := P) (u := u) rfl (@library_traced (P.on u) L s i hs hi) fun _ s r hs hr => ?_
  have h := @arraySingleObject_within (P.on u) w (r.length + 1) _ _ _ _ (@parseClasses_traced (P.on u) _)
    (parseClasses_on hp _) (@parseReferenceable_traced (P.on u) _) (parseReferenceable_on hp _) s r hs (by omega)
    (hr.trans hw)
  rw [@arraySingleObject_on P u v (@parseClasses (P.on v))] at h
  unfold parseArraySingleObject
  rw [h]

theorem parseMethodCall_on (root : Option Nat) (L : Nat) :
    Within w L (@parseMethodCall (P.on u) root) (@parseMethodCall (P.on v) root) := by
  intro s i hs hi hw
  unfold parseMethodCall
  refine bind_on (P := P) (u := u) rfl (@library_traced (P.on u) L s i hs hi) fun _ s r hs hr => ?_
  refine bind_on (P := P) (u := u) rfl (@Traced.stateless _ (P.on u) _ _ _ _ _ (binaryMethodCall_good (List.suffix_refl r)) _ hs)
    fun c s r2 hs hr2 => ?_
  have h := parseCallArray_on hp root (r2.length + 1) s r2 hs (by omega) (hr2.trans (hr.trans hw))
  unfold optS
  rw [h]

theorem parseMethodReturn_on (root : Option Nat) (L : Nat) :
    Within w L (@parseMethodReturn (P.on u) root) (@parseMethodReturn (P.on v) root) := by
  intro s i hs hi hw
  unfold parseMethodReturn
  refine bind_on (P := P) (u := u) rfl (@library_traced (P.on u) L s i hs hi) fun _ s r hs hr => ?_
  refine bind_on (P := P) (u := u) rfl (@Traced.stateless _ (P.on u) _ _ _ _ _ (binaryMethodReturn_good (List.suffix_refl r)) _ hs)
    fun c s r2 hs hr2 => ?_
  have h := parseCallArray_on hp root (r2.length + 1) s r2 hs (by omega) (hr2.trans (hr.trans hw))
  unfold optS
  rw [h]

theorem method_on (root : Option Nat) (L : Nat) :
    Within w L (@parseMethodCallOrReturn (P.on u) root) (@parseMethodCallOrReturn (P.on v) root) := by
  intro s i hs hi hw
  unfold parseMethodCallOrReturn
  refine @altMut_agree _ (P.on u) _ _ _ (by simp) ?_ ?_ s hs
  · intro p hp s hs
    simp only [List.mem_cons, List.not_mem_nil, or_false] at hp
    rcases hp with rfl | rfl
    · exact @Traced.map _ _ (P.on u) _ _ _ (@methodCall_traced (P.on u) root L s i hs hi)
    · exact @Traced.map _ _ (P.on u) _ _ _ (@methodReturn_traced (P.on u) root L s i hs hi)
  · intro e he s hs
    simp only [List.zip_cons_cons, List.zip_nil_right, List.mem_cons, List.not_mem_nil, or_false] at he
    rcases he with rfl | rfl
    · simp only [parseMethodCall_on hp root L s i hs hi hw]
    · simp only [parseMethodReturn_on hp root L s i hs hi hw]

theorem loop_on (fuel L : Nat) :
    Within w L (@referenceablesLoop (P.on u) fuel) (@referenceablesLoop (P.on v) fuel) := by
  induction fuel with
  | zero => exact fun _ _ _ _ _ => rfl
  | succ fuel ih =>
    intro s i hs hi hw
    have ht := @parseReferenceable_traced (P.on u) L s i hs hi
    unfold referenceablesLoop
    rw [← parseReferenceable_on hp L s i hs hi hw]
    split
    · rename_i r _ s' heq
      rw [heq] at ht
      have hr := ht.2.1 _ _ rfl
      exact ih s' r ht.1 (by have := hr.length_le; omega) (hr.trans hw)
    all_goals rfl

theorem message_on {s : St} (hs : s.classes = []) :
    @parseRemotingMessage (P.on u) s w = @parseRemotingMessage (P.on v) s w := by
  unfold parseRemotingMessage
  refine bind_on (P := P) (u := u) rfl (@Traced.stateless _ (P.on u) _ _ _ _ _ (header_good (List.suffix_refl w)) _ hs) fun h s r hs hr => ?_
  refine bind_on (P := P) (u := u) (loop_on hp (r.length + 1) _ s r hs (Nat.lt_succ_self _) hr)
    (@referenceables_traced (P.on u) (r.length + 1) (r.length + 1) s r hs (Nat.lt_succ_self _)) fun _ s r2 hs hr2 => ?_
  have hw2 := hr2.trans hr
  have hm : optS (@parseMethodCallOrReturn (P.on u) h.rootId) s r2 =
      optS (@parseMethodCallOrReturn (P.on v) h.rootId) s r2 := by
    unfold optS
    rw [method_on hp h.rootId (r2.length + 1) s r2 hs (Nat.lt_succ_self _) hw2]
  refine bind_on (P := P) (u := u) hm (@optS_traced _ (P.on u) _ _ (@method_traced (P.on u) h.rootId (r2.length + 1)) s r2 hs
    (Nat.lt_succ_self _)) fun m s r3 hs hr3 => ?_
  have hw3 := hr3.trans hw2
  exact bind_on (P := P) (u := u) (loop_on hp (r3.length + 1) _ s r3 hs (Nat.lt_succ_self _) hw3)
    (@referenceables_traced (P.on u) (r3.length + 1) (r3.length + 1) s r3 hs (Nat.lt_succ_self _))
    fun _ s r4 hs hr4 => rfl

theorem deserialize_on : @deserialize (P.on u) w = @deserialize (P.on v) w := by
  unfold deserialize
  rw [message_on hp rfl]

end

/-! ## When the products are the same -/

theorem productUsize_on {P : Platform} {u : PointerWidth} {lengths : List Nat}
    (h : ∀ k, product (lengths.take k) < 2 ^ 32) :
    @productUsize (P.on u) 1 lengths = some (product lengths) := by
  cases hn : @productUsize (P.on u) 1 lengths with
  | some n => rw [@productUsize_eq (P.on u) _ _ _ hn, Nat.one_mul]
  | none =>
    obtain ⟨k, hk⟩ := (@productUsize_none (P.on u) 1 (@one_lt_usize (P.on u)) lengths).mp hn
    rw [Nat.one_mul] at hk
    have := h k
    rcases @usizeBits_cases (P.on u) with e | e <;> rw [e] at hk <;> omega

theorem sameLengths {P : Platform} {w : Bytes} (h : ¬ WidthMatters w) : SameLengths P .bits32 .bits64 w := by
  intro i r a hi ha
  rw [@checkedProduct_spec (P.on .bits32), @checkedProduct_spec (P.on .bits64)]
  obtain ⟨b, ⟨T, h1, h2, bid, brank, blens, bbounds, binfo, h3, h4, h5, h6, h7, h8, rfl⟩, rfl⟩ :=
    (binaryArray_exact i r a).mp ha
  by_cases h32 : ∀ k, product (a.lengths.take k) < 2 ^ 32
  · rw [productUsize_on h32, productUsize_on h32]
  · have h32' : ∃ k, 2 ^ 32 ≤ product (a.lengths.take k) :=
      Classical.byContradiction fun hn => h32 fun k => Nat.lt_of_not_le fun hk => hn ⟨k, hk⟩
    have h64 : ∃ k, 2 ^ 64 ≤ product (a.lengths.take k) := by
      refine Classical.byContradiction fun hn => h ⟨a.objectId, a.binaryArrayTypeEnum, a.lengths, T, _,
        ⟨bid, brank, blens, bbounds, binfo, h3, h4, h5, fun hb => ?_, fun hb => (h7 hb).2, h8, rfl⟩, ?_, h32',
        fun k => Nat.lt_of_not_le fun hk => hn ⟨k, hk⟩⟩
      · obtain ⟨bounds, _, hl, hs⟩ := h6 hb
        exact ⟨bounds, hl, hs⟩
      · exact (List.prefix_append _ _).isInfix.trans hi.isInfix
    obtain ⟨k, hk⟩ := h32'
    obtain ⟨l, hl⟩ := h64
    rw [(@productUsize_none (P.on .bits32) 1 (@one_lt_usize (P.on .bits32)) _).mpr ⟨k, by
      rw [Nat.one_mul]; exact hk⟩, (@productUsize_none (P.on .bits64) 1 (@one_lt_usize (P.on .bits64)) _).mpr ⟨l, by
      rw [Nat.one_mul]; exact hl⟩]

end Nrbf
