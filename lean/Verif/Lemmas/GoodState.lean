import Verif.Lemmas.GoodRecord

/-! # The invariant for the stateful parser -/

namespace Nrbf

variable [Platform] {w : Bytes} {α β : Type}

/-- No array in a message is longer than this: at most `2 ^ 31 - 1` records, each of which stands for
at most `2 ^ 31 - 1` elements. -/
def maxArray : Nat := (2 ^ 31 - 1) * (2 ^ 31 - 1)

/-- A predicate on strings and values that everything built from the input satisfies. -/
structure Pol [Platform] (w : Bytes) where
  str : Str → Prop
  val : Value → Prop
  ofStrOk : ∀ s, StrOk w s → str s
  object : ∀ c l ms, str c → (∀ x, l = some x → str x) → (∀ e ∈ ms, str e.1 ∧ val e.2) →
    (ms.map Prod.fst).Nodup → val (.object c l ms)
  array : ∀ vs, vs.length ≤ maxArray → (∀ v ∈ vs, val v) → val (.array vs)
  prim : ∀ p : Prim, p.InRange w → val p.intoValue
  string : ∀ s, str s → val (.string s)
  null : val .null

/-- The state invariant. -/
def St.Ok (pol : Pol w) (s : St) : Prop :=
  s.classes = [] ∧ (∀ e ∈ s.libs, pol.str e.2) ∧ (∀ e ∈ s.objects, pol.val e.2)

/-- The only way to panic: the input has a BinaryArray byte and a null-run byte. -/
def MayPanic (w : Bytes) : Prop := (7 : UInt8) ∈ w ∧ ((13 : UInt8) ∈ w ∨ (14 : UInt8) ∈ w)

/-- Goodness of stateful parsers. -/
def Res.Good (pol : Pol w) (V : α → Prop) (n k : Nat) (x : Res α) : Prop :=
  x.2.Ok pol ∧ x.1.Good w (MayPanic w) (Error.In w) V n k

/-- Goodness on all inputs shorter than `L`. -/
def SPGood (pol : Pol w) (V : α → Prop) (k L : Nat) (p : SP α) : Prop :=
  ∀ s i, St.Ok pol s → i <:+ w → i.length < L → (p s i).Good pol V i.length k

variable {pol : Pol w}

namespace Res.Good

variable {V : α → Prop} {W : β → Prop} {n k k1 k2 : Nat}

theorem weaken {x : Res α} {V' : α → Prop} {n' k' : Nat} (h : x.Good pol V n k)
    (hV : ∀ a, V a → V' a) (hn : n + k' ≤ n' + k) : x.Good pol V' n' k' :=
  ⟨h.1, h.2.weaken id (fun _ => id) hV hn⟩

theorem imp {x : Res α} {V' : α → Prop} (h : x.Good pol V n k)
    (hV : ∀ a, V a → V' a) : x.Good pol V' n k := h.weaken hV (Nat.le_refl _)

theorem k0 {x : Res α} (h : x.Good pol V n k) : x.Good pol V n 0 := ⟨h.1, h.2.k0⟩

theorem map {x : Res α} {f : α → β} (h : x.Good pol V n k) (hf : ∀ a, V a → W (f a)) :
    (x.map f).Good pol W n k := ⟨h.1, h.2.map hf⟩

theorem bind {x : Res α} {f : α → St → Bytes → Res β} (h : x.Good pol V n k1)
    (hk : k ≤ k1 + k2)
    (hf : ∀ a s r, s.Ok pol → r <:+ w → r.length + k1 ≤ n → V a →
      (f a s r).Good pol W r.length k2) :
    (x.bind f).Good pol W n k := by
  obtain ⟨o, s⟩ := x
  obtain ⟨hs, h⟩ := h
  cases o with
  | ok r a =>
    have := hf a s r hs h.1 h.2.1 h.2.2
    exact this.weaken (fun _ => id) (by have := h.2.1; omega)
  | _ => exact ⟨hs, h⟩

theorem ret {a : α} {s : St} {i : Bytes} (hs : s.Ok pol) (hi : i <:+ w) (h : V a) :
    Res.Good pol V i.length 0 (.ok i a, s) := ⟨hs, hi, by simp, h⟩

theorem failure {s : St} {i : Bytes} {inner : ErrorInner} (hs : s.Ok pol) (hi : i <:+ w)
    (h : inner.Possible) : Res.Good pol V n k (.failure ⟨i, inner⟩, s) := ⟨hs, hi, h⟩

theorem error {s : St} {i : Bytes} {inner : ErrorInner} (hs : s.Ok pol) (hi : i <:+ w)
    (h : inner.Possible) : Res.Good pol V n k (.error ⟨i, inner⟩, s) := ⟨hs, hi, h⟩

end Res.Good

theorem lift_good {p : Parser α} {V : α → Prop} {s : St} {i : Bytes} {n k : Nat}
    (hs : s.Ok pol) (h : PG w V n k (p i)) : (lift p s i).Good pol V n k := ⟨hs, h.noPanic⟩

theorem SPGood.mono {p : SP α} {V : α → Prop} {k L L' : Nat} (h : SPGood pol V k L p)
    (hL : L' ≤ L) : SPGood pol V k L' p := fun s i hs hi hl => h s i hs hi (by omega)

theorem countS_good {p : SP α} {V : α → Prop} {L : Nat} (hp : SPGood pol V 0 L p) (n : Nat) :
    SPGood pol (fun l => l.length = n ∧ ∀ a ∈ l, V a) 0 L (countS p n) := by
  induction n with
  | zero => exact fun s i hs hi _ => Res.Good.ret hs hi (by simp)
  | succ n ih =>
    intro s i hs hi hl
    unfold countS
    refine (hp s i hs hi hl).bind (k2 := 0) (Nat.zero_le _) fun a s r hs hr hlen ha => ?_
    refine (ih s r hs hr (by omega)).map fun l h => ?_
    simp only [List.length_cons, List.mem_cons]
    exact ⟨by omega, by rintro x (rfl | hx) <;> first | exact ha | exact h.2 x hx⟩

theorem altMut_good {ps : List (SP α)} {V : α → Prop} {k : Nat} {i : Bytes} (hi : i <:+ w)
    (hps : ∀ p ∈ ps, ∀ s, St.Ok pol s → (p s i).Good pol V i.length k) :
    ∀ s, St.Ok pol s → (altMut ps s i).Good pol V i.length k := by
  induction ps with
  | nil => exact fun s hs => ⟨hs, hi, trivial⟩
  | cons p ps ih =>
    intro s hs
    have hp := hps p (by simp) s hs
    unfold altMut
    split
    · rename_i e s' heq
      rw [heq] at hp
      exact ih (fun q hq => hps q (by simp [hq])) s' hp.1
    · exact hp

theorem optS_good {p : SP α} {V : α → Prop} {k : Nat} {s : St} {i : Bytes} (hi : i <:+ w)
    (hp : (p s i).Good pol V i.length k) :
    (optS p s i).Good pol (fun o => ∀ a, o = some a → V a) i.length 0 := by
  unfold optS
  split
  · rename_i e s' heq
    rw [heq] at hp
    exact Res.Good.ret hp.1 hi (by simp)
  · exact hp.k0.map fun a ha => by rintro _ ⟨⟩; exact ha

/-! ## Maps -/

omit [Platform] in
theorem AMap.mem_insert {κ ν : Type} [DecidableEq κ] {m : AMap κ ν} {k : κ} {v : ν} {e : κ × ν}
    (h : e ∈ m.insert k v) : e = (k, v) ∨ e ∈ m := by
  induction m with
  | nil => simpa [AMap.insert] using h
  | cons a m ih =>
    obtain ⟨k', v'⟩ := a
    unfold AMap.insert at h
    split at h
    · simp only [List.mem_cons] at h ⊢; grind
    · simp only [List.mem_cons] at h ⊢; grind

omit [Platform] in
theorem AMap.mem_erase {κ ν : Type} [DecidableEq κ] {m : AMap κ ν} {k : κ} {e : κ × ν}
    (h : e ∈ m.erase k) : e ∈ m := (List.mem_filter.mp h).1

omit [Platform] in
theorem AMap.mem_of_get? {κ ν : Type} [DecidableEq κ] {m : AMap κ ν} {k : κ} {v : ν}
    (h : m.get? k = some v) : (k, v) ∈ m := by
  induction m with
  | nil => simp [AMap.get?] at h
  | cons a m ih =>
    obtain ⟨k', v'⟩ := a
    unfold AMap.get? at h
    split at h
    · simp_all
    · simp [ih h]

omit [Platform] in
theorem AMap.keys_insert {κ ν : Type} [DecidableEq κ] (m : AMap κ ν) (k : κ) (v : ν) :
    (m.insert k v).map Prod.fst =
      if k ∈ m.map Prod.fst then m.map Prod.fst else m.map Prod.fst ++ [k] := by
  induction m with
  | nil => simp [AMap.insert]
  | cons a m ih =>
    obtain ⟨k', v'⟩ := a
    unfold AMap.insert
    split
    · rename_i h; subst h; simp
    · rename_i h
      simp only [List.map_cons, ih, List.mem_cons]
      have : ¬ k = k' := fun e => h e.symm
      simp only [this, false_or]
      split <;> simp

omit [Platform] in
theorem AMap.nodup_insert {κ ν : Type} [DecidableEq κ] {m : AMap κ ν} {k : κ} {v : ν}
    (h : (m.map Prod.fst).Nodup) : ((m.insert k v).map Prod.fst).Nodup := by
  rw [AMap.keys_insert]
  split
  · exact h
  · rename_i hk
    rw [List.nodup_append]
    exact ⟨h, by simp, by simp; intro a x hx e; subst e; exact hk (by simp; exact ⟨x, hx⟩)⟩

omit [Platform] in
theorem AMap.nodup_erase {κ ν : Type} [DecidableEq κ] {m : AMap κ ν} {k : κ}
    (h : (m.map Prod.fst).Nodup) : ((m.erase k).map Prod.fst).Nodup :=
  h.sublist (List.filter_sublist.map _)

omit [Platform] in
theorem AMap.fromIter_aux {κ ν : Type} [DecidableEq κ] (l : List (κ × ν)) (m : AMap κ ν)
    (hm : (m.map Prod.fst).Nodup) :
    ((l.foldl (fun m e => m.insert e.1 e.2) m).map Prod.fst).Nodup ∧
      ∀ e ∈ l.foldl (fun m e => m.insert e.1 e.2) m, e ∈ m ∨ e ∈ l := by
  induction l generalizing m with
  | nil => simp [hm]
  | cons a l ih =>
    have := ih (m.insert a.1 a.2) (AMap.nodup_insert hm)
    refine ⟨this.1, fun e he => ?_⟩
    rcases this.2 e he with h | h
    · rcases AMap.mem_insert h with rfl | h
      · simp
      · exact .inl h
    · simp [h]

omit [Platform] in
theorem AMap.nodup_fromIter {κ ν : Type} [DecidableEq κ] (l : List (κ × ν)) :
    ((AMap.fromIter l).map Prod.fst).Nodup := (AMap.fromIter_aux l [] (by simp)).1

omit [Platform] in
theorem AMap.mem_fromIter {κ ν : Type} [DecidableEq κ] {l : List (κ × ν)} {e : κ × ν}
    (h : e ∈ AMap.fromIter l) : e ∈ l := by
  rcases (AMap.fromIter_aux l [] (by simp)).2 e h with h | h
  · simp at h
  · exact h

/-! ## Member references -/

theorem parseBinaryLibrary_good (L : Nat) :
    SPGood pol (fun _ => True) 0 L parseBinaryLibrary := by
  intro s i hs hi _
  unfold parseBinaryLibrary
  refine (lift_good hs (opt_good hi (binaryLibrary_good hi))).bind (k2 := 0) (Nat.zero_le _)
    fun lib s r hs hr _ hlib => ?_
  cases lib with
  | none => exact Res.Good.ret hs hr trivial
  | some l =>
    have hs' : St.Ok pol { s with libs := s.libs.insert l.libraryId l.libraryName } := by
      refine ⟨hs.1, fun e he => ?_, hs.2.2⟩
      rcases AMap.mem_insert he with rfl | he
      · exact pol.ofStrOk _ (hlib l rfl).2
      · exact hs.2.1 e he
    simp only
    split
    · exact Res.Good.failure hs' hr trivial
    · exact Res.Good.ret hs' hr trivial

theorem stringMember_good {i : Bytes} (hi : i <:+ w) :
    PG w (ValueOrRef.Ok w pol.val) i.length 1 (stringMember i) :=
  (bos_good hi).map fun _ h => pol.string _ (pol.ofStrOk _ h.2.2)

theorem refMember_good {i : Bytes} (hi : i <:+ w) :
    PG w (ValueOrRef.Ok w pol.val) i.length 1 (refMember i) :=
  (memberRef_good hi).map fun _ h => h


/-- What `parse_classes` returns. -/
def ObjOk (pol : Pol w) (o : Nat × Object) : Prop :=
  0 < o.1 ∧ pol.val o.2.toValue ∧ pol.str o.2.cls ∧ (∀ l, o.2.library = some l → pol.str l)

theorem memberReferenceNone_good {classes : SP (Nat × Object)} {L : Nat}
    (hc : SPGood pol (ObjOk pol) 1 L classes) :
    SPGood pol (ValueOrRef.Ok w pol.val) 1 L (memberReferenceNone classes) := by
  intro s i hs hi hl
  unfold memberReferenceNone
  refine (parseBinaryLibrary_good L s i hs hi hl).bind (k2 := 1) (by omega)
    fun _ s i hs hi hlen _ => ?_
  have halt : PG w (ValueOrRef.Ok w pol.val) i.length 1
      (alt (fun i => (memberPrimitiveTyped i).map fun p => ValueOrRef.value p.intoValue)
        [refMember, stringMember, parseNullObject] i) := by
    refine alt_good ?_ fun q hq => ?_
    · exact (typed_good hi).map fun p h => pol.prim p h
    · simp only [List.mem_cons, List.not_mem_nil, or_false] at hq
      rcases hq with rfl | rfl | rfl
      · exact refMember_good hi
      · exact stringMember_good hi
      · exact nullObject_good hi
  split
  · exact (hc s i hs hi (by omega)).map fun o h => h.2.1
  · exact ⟨hs, halt.noPanic⟩

theorem expectedClass_good {classes : SP (Nat × Object)} {L : Nat}
    (hc : SPGood pol (ObjOk pol) 1 L classes) (name : Str) (library : Option Str) :
    SPGood pol (ValueOrRef.Ok w pol.val) 1 L (expectedClass classes name library) := by
  intro s i hs hi hl
  have h := hc s i hs hi hl
  unfold expectedClass
  split
  · rename_i r o s' heq
    rw [heq] at h
    split
    · exact Res.Good.failure h.1 h.2.1 trivial
    · exact ⟨h.1, h.2.1, h.2.2.1, h.2.2.2.2.1⟩
  · rename_i e s' heq
    rw [heq] at h
    exact ⟨h.1, (nullObject_good hi).noPanic⟩
  · rename_i e s' heq
    rw [heq] at h
    exact ⟨h.1, (nullObject_good hi).noPanic⟩
  · rename_i s' heq
    rw [heq] at h
    exact h
  · rename_i s' heq
    rw [heq] at h
    exact h

theorem memberReference_good {classes : SP (Nat × Object)} {L : Nat}
    (hc : SPGood pol (ObjOk pol) 1 L classes) (t : BinaryType) (info : Option AdditionalTypeInfo)
    (hinfo : TypeInfoOk w t info) :
    SPGood pol (ValueOrRef.Ok w pol.val) 1 L (memberReference classes t info) := by
  intro s i hs hi hl
  unfold memberReference
  refine (parseBinaryLibrary_good L s i hs hi hl).bind (k2 := 1) (by omega)
    fun _ s i hs hi hlen _ => ?_
  split
  · exact lift_good hs ((untyped_good _ hi).map fun p h => pol.prim p h)
  · exact lift_good hs (stringMember_good hi)
  · exact memberReferenceNone_good hc s i hs hi (by omega)
  · exact expectedClass_good hc _ _ s i hs hi (by omega)
  · split
    · exact expectedClass_good hc _ _ s i hs hi (by omega)
    · exact Res.Good.failure hs hi trivial
  · exact memberReferenceNone_good hc s i hs hi (by omega)
  · refine lift_good hs (alt_good (stringMember_good hi) fun q hq => ?_)
    simp only [List.mem_cons, List.not_mem_nil, or_false] at hq
    rcases hq with rfl | rfl
    · exact refMember_good hi
    · exact nullObject_good hi
  · exact lift_good hs (refMember_good hi)
  · exfalso
    revert hinfo
    unfold TypeInfoOk
    split <;> simp_all

theorem membersWithTypeInfo_good {classes : SP (Nat × Object)} {L : Nat}
    (hc : SPGood pol (ObjOk pol) 1 L classes) (ts : List (BinaryType × Option AdditionalTypeInfo))
    (hts : ∀ e ∈ ts, TypeInfoOk w e.1 e.2) :
    SPGood pol (fun l => l.length = ts.length ∧ ∀ m ∈ l, ValueOrRef.Ok w pol.val m) 0 L
      (membersWithTypeInfo classes ts) := by
  induction ts with
  | nil => exact fun s i hs hi _ => Res.Good.ret hs hi (by simp)
  | cons e ts ih =>
    obtain ⟨t, info⟩ := e
    intro s i hs hi hl
    unfold membersWithTypeInfo
    refine (memberReference_good hc t info (hts (t, info) (by simp)) s i hs hi hl).bind (k2 := 0)
      (Nat.zero_le _) fun m s r hs hr hlen hm => ?_
    refine (ih (fun e he => hts e (by simp [he])) s r hs hr (by omega)).map fun l h => ?_
    simp only [List.length_cons, List.mem_cons]
    exact ⟨by omega, by rintro x (rfl | hx) <;> first | exact hm | exact h.2 x hx⟩

theorem erase_ok {s : St} {id : Nat} (hs : s.Ok pol) :
    St.Ok pol { s with objects := s.objects.erase id } :=
  ⟨hs.1, hs.2.1, fun e he => hs.2.2 e (AMap.mem_erase he)⟩

/-- What `parse_referenceable` guarantees, including that the object is then in the table. -/
theorem resolveRef_good {referenceable : SP Nat} {L : Nat}
    (hr : SPGood pol (fun _ => True) 1 L referenceable)
    (hmem : ∀ s i r id s', referenceable s i = (.ok r id, s') → (s'.objects.get? id).isSome)
    (id : Nat) : SPGood pol pol.val 0 L (resolveRef referenceable id) := by
  intro s i hs hi hl
  unfold resolveRef
  split
  · rename_i v hv
    exact Res.Good.ret (erase_ok hs) hi (hs.2.2 _ (AMap.mem_of_get? hv))
  · have h := hr s i hs hi hl
    split
    · rename_i r id2 s' heq
      rw [heq] at h
      split
      · split
        · rename_i v hv
          exact ⟨erase_ok h.1, h.2.1, by have := h.2.2.1; omega, h.1.2.2 _ (AMap.mem_of_get? hv)⟩
        · rename_i hn
          have := hmem _ _ _ _ _ heq
          simp [hn] at this
      · exact ⟨h.1, hi, trivial⟩
    all_goals rename_i heq; rw [heq] at h; exact h

theorem resolveMembers_good {referenceable : SP Nat} {L : Nat}
    (hr : SPGood pol (fun _ => True) 1 L referenceable)
    (hmem : ∀ s i r id s', referenceable s i = (.ok r id, s') → (s'.objects.get? id).isSome)
    (ms : List ValueOrRef) (hms : ∀ m ∈ ms, ValueOrRef.Ok w pol.val m) :
    SPGood pol (fun vs => (∀ v ∈ vs, pol.val v) ∧ (ms = [] → vs = []) ∧
        ((13 : UInt8) ∉ w → (14 : UInt8) ∉ w → vs.length = ms.length) ∧
        vs.length ≤ ms.length * (2 ^ 31 - 1) ∧
        ((∀ m ∈ ms, ∀ n, m ≠ .null n) → vs.length = ms.length)) 0 L
      (resolveMembers referenceable ms) := by
  induction ms with
  | nil => exact fun s i hs hi _ => Res.Good.ret hs hi (by simp)
  | cons m ms ih =>
    have ih := ih fun m hm => hms m (by simp [hm])
    intro s i hs hi hl
    cases m with
    | value v =>
      unfold resolveMembers
      refine (ih s i hs hi hl).map fun vs h => ⟨?_, by simp, fun h1 h2 => by simp [h.2.2.1 h1 h2],
        by have := h.2.2.2.1; simp only [List.length_cons]; omega,
        fun hn => by simp [h.2.2.2.2 fun m hm => hn m (by simp [hm])]⟩
      simp only [List.mem_cons]
      rintro x (rfl | hx)
      · exact hms (.value x) (by simp)
      · exact h.1 x hx
    | null n =>
      unfold resolveMembers
      have hn : NullOk w n := hms (.null n) (by simp)
      refine (ih s i hs hi hl).map fun vs h => ⟨?_, by simp, fun h1 h2 => ?_,
        by have := h.2.2.2.1; have := hn.2.1; simp only [List.length_cons, List.length_append,
             List.length_replicate]; omega,
        fun hn => absurd rfl (hn (.null n) (by simp) n)⟩
      · simp only [List.mem_append, List.mem_replicate]
        rintro x (⟨_, rfl⟩ | hx)
        · exact pol.null
        · exact h.1 x hx
      · have : n = 1 := by rcases hn.2.2 with h | h | h <;> simp_all
        simp [this, h.2.2.1 h1 h2, Nat.add_comm]
    | ref id =>
      unfold resolveMembers
      refine (resolveRef_good hr hmem id s i hs hi hl).bind (k2 := 0) (Nat.zero_le _)
        fun v s r hs hr' hlen hv => ?_
      refine (ih s r hs hr' (by omega)).map fun vs h => ⟨?_, by simp, fun h1 h2 => by simp [h.2.2.1 h1 h2],
        by have := h.2.2.2.1; simp only [List.length_cons]; omega,
        fun hn => by simp [h.2.2.2.2 fun m hm => hn m (by simp [hm])]⟩
      simp only [List.mem_cons]
      rintro x (rfl | hx)
      · exact hv
      · exact h.1 x hx

/-! ## Classes -/

theorem classHeader_good {s : St} {i : Bytes} (hs : s.Ok pol) (hi : i <:+ w) :
    (classHeader s i).Good pol (fun c => c.1 = c.2.objectId ∧ c.2.Ok w) i.length 1 := by
  unfold classHeader
  have hid := classWithId_good hi
  split
  · rename_i r c heq
    rw [hs.1]
    simp only [AMap.get?]
    exact Res.Good.failure hs hi trivial
  · exact ⟨hs, (((classes_good hi).map fun c h => ⟨rfl, h⟩).noPanic)⟩
  · rename_i heq; rw [heq] at hid; exact ⟨hs, hid⟩
  · rename_i heq; rw [heq] at hid; exact hid.elim
  · rename_i heq; rw [heq] at hid; exact hid.elim

theorem classMembers_good {classes : SP (Nat × Object)} {L : Nat}
    (hc : SPGood pol (ObjOk pol) 1 L classes) {errInput : Bytes} (he : errInput <:+ w) (c : Class)
    (hcls : c.Ok w) :
    SPGood pol (fun x => (∀ l, x.1 = some l → pol.str l) ∧
        x.2.length = c.classInfo.memberNames.length ∧ ∀ m ∈ x.2, ValueOrRef.Ok w pol.val m) 0 L
      (classMembers classes errInput c) := by
  have hnone : SPGood pol (ValueOrRef.Ok w pol.val) 0 L (memberReferenceNone classes) :=
    fun s i hs hi hl => (memberReferenceNone_good hc s i hs hi hl).k0
  intro s i hs hi hl
  unfold classMembers
  split
  · split
    · rename_i lib hlib
      refine (countS_good hnone _ s i hs hi hl).map fun l h => ⟨?_, h.1, h.2⟩
      rintro _ ⟨⟩
      exact hs.2.1 _ (AMap.mem_of_get? hlib)
    · exact Res.Good.failure hs he trivial
  · split
    · rename_i lib hlib
      refine (membersWithTypeInfo_good hc _ hcls.2.1.2.2 s i hs hi hl).map
        fun l h => ⟨?_, ?_, h.2⟩
      · rintro _ ⟨⟩
        exact hs.2.1 _ (AMap.mem_of_get? hlib)
      · have := hcls.2.1
        simp [h.1, Class.classInfo, this.1, this.2.1]
    · exact Res.Good.failure hs he trivial
  · refine (countS_good hnone _ s i hs hi hl).map fun l h => ⟨?_, h.1, h.2⟩
    rintro _ ⟨⟩
  · refine (membersWithTypeInfo_good hc _ hcls.2.2.2 s i hs hi hl).map fun l h => ⟨?_, ?_, h.2⟩
    · rintro _ ⟨⟩
    · have := hcls.2
      simp [h.1, Class.classInfo, this.1, this.2.1]

omit [Platform] in
theorem Class.Ok.info {c : Class} (h : c.Ok w) : c.classInfo.Ok w := by
  cases c with
  | classWithMembers => exact h.1
  | classWithMembersAndTypes => exact h.1
  | systemClassWithMembers => exact h
  | systemClassWithMembersAndTypes => exact h.1

theorem classesBody_good {classes : SP (Nat × Object)} {referenceable : SP Nat} {L : Nat}
    (hc : SPGood pol (ObjOk pol) 1 L classes)
    (hr : SPGood pol (fun _ => True) 1 L referenceable)
    (hmem : ∀ s i r id s', referenceable s i = (.ok r id, s') → (s'.objects.get? id).isSome) :
    SPGood pol (ObjOk pol) 1 (L + 1) (classesBody classes referenceable) := by
  intro s i hs hi hl
  unfold classesBody
  refine (parseBinaryLibrary_good (L + 1) s i hs hi hl).bind (k2 := 1) (by omega)
    fun _ s e hs he hlen _ => ?_
  refine (classHeader_good hs he).bind (k2 := 0) (by omega) fun ⟨id, c⟩ s i hs hi hlen' hcls => ?_
  obtain ⟨hidc, hcls⟩ := hcls
  simp only at hidc hcls ⊢
  rw [if_neg (by simp [hs.1, AMap.get?])]
  refine (classMembers_good hc he c hcls s i hs hi (by omega)).bind (k2 := 0) (by omega)
    fun ⟨lib, ms⟩ s i hs hi hlen'' hms => ?_
  refine (resolveMembers_good hr hmem ms hms.2.2 s i hs hi (by omega)).bind (k2 := 0) (by omega)
    fun vs s i hs hi _ hvs => ?_
  have hinfo := hcls.info
  refine Res.Good.ret hs hi ⟨?_, ?_, pol.ofStrOk _ hinfo.2.2.1, hms.1⟩
  · rw [hidc]; exact hinfo.1
  · refine pol.object _ _ _ (pol.ofStrOk _ hinfo.2.2.1) hms.1 ?_ (AMap.nodup_fromIter _)
    intro e he
    have := AMap.mem_fromIter he
    have := List.of_mem_zip (a := e.1) (b := e.2) this
    exact ⟨pol.ofStrOk _ (hinfo.2.2.2 _ this.1), hvs.1 _ this.2⟩

/-! ## Arrays -/

theorem arrayLoop_good {element : SP ValueOrRef} {L : Nat}
    (he : SPGood pol (ValueOrRef.Ok w pol.val) 1 L element) (fuel len : Nat)
    (acc : List ValueOrRef) (hf : len ≤ acc.length + fuel)
    (hacc : ∀ m ∈ acc, ValueOrRef.Ok w pol.val m) (hnull : ∀ m ∈ acc, ∀ n, m ≠ .null n)
    (hlong : acc.length ≤ len + 2 ^ 31) :
    SPGood pol (fun l => (∀ m ∈ l, ValueOrRef.Ok w pol.val m) ∧ (∀ m ∈ l, ∀ n, m ≠ .null n) ∧
        l.length ≤ len + 2 ^ 31) 0 L
      (arrayLoop element fuel len acc) := by
  induction fuel generalizing acc with
  | zero =>
    intro s i hs hi hl
    unfold arrayLoop
    rw [if_neg (by omega)]
    exact Res.Good.ret hs hi ⟨hacc, hnull, hlong⟩
  | succ fuel ih =>
    intro s i hs hi hl
    unfold arrayLoop
    split
    · refine (he s i hs hi hl).bind (k2 := 0) (by omega) fun m s r hs hr hlen hm => ?_
      split
      · rename_i n
        have hn : NullOk w n := hm
        refine ih _ ?_ ?_ ?_ ?_ s r hs hr (by omega)
        · have := hn.1; simp; omega
        · intro m' hm'
          simp only [List.mem_append, List.mem_replicate] at hm'
          rcases hm' with h | ⟨_, rfl⟩
          · exact hacc _ h
          · exact pol.null
        · intro m' hm'
          simp only [List.mem_append, List.mem_replicate] at hm'
          rcases hm' with h | ⟨_, rfl⟩
          · exact hnull _ h
          · intro n e; cases e
        · have := hn.2.1
          simp only [List.length_append, List.length_replicate]; omega
      · rename_i hne
        refine ih _ (by simp; omega) ?_ ?_ (by simp; omega) s r hs hr (by omega)
        rotate_left
        · intro m' hm'
          simp only [List.mem_append, List.mem_singleton] at hm'
          rcases hm' with h | rfl
          · exact hnull _ h
          · exact hne
        intro m' hm'
        simp only [List.mem_append, List.mem_singleton] at hm'
        rcases hm' with h | rfl
        · exact hacc _ h
        · exact hm
    · exact Res.Good.ret hs hi ⟨hacc, hnull, hlong⟩

/-- What the array parsers return. -/
def ArrOk (pol : Pol w) (a : Nat × List Value) : Prop :=
  0 < a.1 ∧ (∀ v ∈ a.2, pol.val v) ∧ a.2.length ≤ maxArray

section
variable {classes : SP (Nat × Object)} {referenceable : SP Nat} {L : Nat}
  (hc : SPGood pol (ObjOk pol) 1 L classes)
  (hr : SPGood pol (fun _ => True) 1 L referenceable)
  (hmem : ∀ s i r id s', referenceable s i = (.ok r id, s') → (s'.objects.get? id).isSome)
include hc hr hmem

theorem arraySingleObject_good :
    SPGood pol (ArrOk pol) 1 (L + 1) (arraySingleObject classes referenceable) := by
  intro s i hs hi hl
  unfold arraySingleObject
  refine (lift_good hs (arraySingleObjectRec_good hi)).bind (k2 := 0) (by omega)
    fun info s i hs hi hlen hinfo => ?_
  refine (arrayLoop_good (memberReferenceNone_good hc) _ _ [] (by simp) (by simp) (by simp)
    (by simp) s i hs hi (by omega)).bind (k2 := 0) (by omega) fun ms s i hs hi hlen' hms => ?_
  exact (resolveMembers_good hr hmem ms hms.1 s i hs hi (by omega)).map fun vs h =>
    ⟨hinfo.1, h.1, by
      have h1 := h.2.2.2.2 hms.2.1; have h2 := hms.2.2; have h3 := hinfo.2.2
      simp only [maxArray]; omega⟩

theorem arraySingleString_good :
    SPGood pol (ArrOk pol) 1 (L + 1) (arraySingleString classes referenceable) := by
  intro s i hs hi hl
  unfold arraySingleString
  refine (lift_good hs (arraySingleStringRec_good hi)).bind (k2 := 0) (by omega)
    fun info s i hs hi hlen hinfo => ?_
  refine (arrayLoop_good (memberReference_good hc .stringArray none trivial) _ _ [] (by simp)
    (by simp) (by simp) (by simp) s i hs hi (by omega)).bind (k2 := 0) (by omega) fun ms s i hs hi hlen' hms => ?_
  exact (resolveMembers_good hr hmem ms hms.1 s i hs hi (by omega)).map fun vs h =>
    ⟨hinfo.1, h.1, by
      have h1 := h.2.2.2.2 hms.2.1; have h2 := hms.2.2; have h3 := hinfo.2.2
      simp only [maxArray]; omega⟩

omit hc hr hmem in
theorem arraySinglePrimitive_good (L : Nat) :
    SPGood pol (ArrOk pol) 1 L arraySinglePrimitive := by
  intro s i hs hi hl
  unfold arraySinglePrimitive
  refine lift_good hs ?_
  refine (arraySinglePrimitiveRec_good hi).bind fun ⟨info, t⟩ i hi _ hinfo => ?_
  refine (count_good (V := pol.val) (fun i hi => ?_) info.length hi).map fun vs h =>
    ⟨hinfo.1, h.2, by
      have h1 := h.1; have h3 := hinfo.2.2; simp only [maxArray]; simp only at h3 ⊢; omega⟩
  exact (untyped_good t hi).k0.map fun p h => pol.prim p h

omit hc hr hmem in
theorem checkedProduct_eq {acc n : Nat} {ls : List Nat} (h : checkedProduct acc ls = some n) :
    n = acc * ls.prod := by
  induction ls generalizing acc with
  | nil => simp [checkedProduct] at h; simp [h]
  | cons l ls ih =>
    unfold checkedProduct at h
    split at h
    · rw [ih h, List.prod_cons, Nat.mul_assoc]
    · simp at h

omit hc hr hmem in
theorem chunks_spec {l : Nat} (hl : 0 < l) (fuel : Nat) (ms : List Value) (hf : ms.length ≤ fuel)
    (harr : ∀ vs, vs.length ≤ l → (∀ v ∈ vs, pol.val v) → pol.val (.array vs))
    (hms : ∀ v ∈ ms, pol.val v) :
    (l ∣ ms.length → ∃ cs, chunks l fuel ms = .done cs ∧ cs.length * l = ms.length ∧
      ∀ v ∈ cs, pol.val v) ∧
    ((∃ cs, chunks l fuel ms = .done cs ∧ (∀ v ∈ cs, pol.val v)) ∨ chunks l fuel ms = .panic) := by
  induction fuel generalizing ms with
  | zero =>
    have : ms = [] := List.length_eq_zero_iff.mp (by omega)
    subst this
    simp [chunks]
  | succ fuel ih =>
    cases ms with
    | nil => simp [chunks]
    | cons m ms =>
      unfold chunks
      by_cases h : (m :: ms).length < l
      · rw [if_pos h]
        refine ⟨fun hd => ?_, .inr rfl⟩
        have := Nat.le_of_dvd (by simp) hd
        omega
      · rw [if_neg h]
        have hlen : ((m :: ms).drop l).length = (m :: ms).length - l := by simp
        have hpos : 0 < (m :: ms).length := by simp
        have := ih ((m :: ms).drop l) (by rw [hlen]; simp at hf ⊢; omega)
          (fun v hv => hms v (List.mem_of_mem_drop hv))
        have htake : pol.val (.array ((m :: ms).take l)) :=
          harr _ (by simp only [List.length_take]; omega) fun v hv => hms v (List.mem_of_mem_take hv)
        refine ⟨fun hd => ?_, ?_⟩
        · obtain ⟨cs, hcs, hlc, hv⟩ := this.1 (by rw [hlen]; exact Nat.dvd_sub hd (Nat.dvd_refl _))
          refine ⟨.array ((m :: ms).take l) :: cs, by rw [hcs], ?_, ?_⟩
          · rw [List.length_cons, Nat.succ_mul, hlc, hlen]; exact Nat.sub_add_cancel (Nat.le_of_not_lt h)
          · simp only [List.mem_cons]; rintro x (rfl | hx) <;> first | exact htake | exact hv x hx
        · rcases this.2 with ⟨cs, hcs, hv⟩ | hp
          · left
            refine ⟨.array ((m :: ms).take l) :: cs, by rw [hcs], ?_⟩
            simp only [List.mem_cons]; rintro x (rfl | hx) <;> first | exact htake | exact hv x hx
          · right; rw [hp]

omit [Platform] hc hr hmem in
theorem reshape_nil (ls : List Nat) : reshape ls [] = .done [] := by
  induction ls with
  | nil => rfl
  | cons l ls ih => simp [reshape, chunks, ih]

omit hc hr hmem in
theorem reshape_spec {ls : List Nat} (hls : ∀ l ∈ ls, 0 < l)
    (harr : ∀ l ∈ ls, ∀ vs, vs.length ≤ l → (∀ v ∈ vs, pol.val v) → pol.val (.array vs))
    (ms : List Value)
    (hms : ∀ v ∈ ms, pol.val v) :
    (ls.prod ∣ ms.length → ∃ cs, reshape ls ms = .done cs ∧ ∀ v ∈ cs, pol.val v) ∧
    ((∃ cs, reshape ls ms = .done cs ∧ (∀ v ∈ cs, pol.val v)) ∨ reshape ls ms = .panic) := by
  induction ls generalizing ms with
  | nil => exact ⟨fun _ => ⟨ms, rfl, hms⟩, .inl ⟨ms, rfl, hms⟩⟩
  | cons l ls ih =>
    have hl : 0 < l := hls l (by simp)
    have hc := chunks_spec hl ms.length ms (Nat.le_refl _) (harr l (by simp)) hms
    have ih := fun cs h => ih (fun l hl => hls l (by simp [hl])) (fun l hl => harr l (by simp [hl])) cs h
    unfold reshape
    constructor
    · intro hd
      rw [List.prod_cons] at hd
      obtain ⟨cs, hcs, hlen, hv⟩ := hc.1 (Nat.dvd_trans (Nat.dvd_mul_right _ _) hd)
      rw [hcs]
      refine (ih cs hv).1 ?_
      rw [← hlen, Nat.mul_comm] at hd
      exact Nat.dvd_of_mul_dvd_mul_right hl hd
    · rcases hc.2 with ⟨cs, hcs, hv⟩ | hp
      · rw [hcs]; exact (ih cs hv).2
      · rw [hp]; right; rfl

omit [Platform] hc hr hmem in
theorem chunks_count {l : Nat} (hl : 0 < l) (fuel : Nat) (ms cs : List Value)
    (hf : ms.length ≤ fuel) (h : chunks l fuel ms = .done cs) : cs.length * l = ms.length := by
  induction fuel generalizing ms cs with
  | zero =>
    have : ms = [] := List.length_eq_zero_iff.mp (by omega)
    subst this
    simp only [chunks, Loop.done.injEq] at h
    subst h; simp
  | succ fuel ih =>
    cases ms with
    | nil =>
      simp only [chunks, Loop.done.injEq] at h
      subst h; simp
    | cons m ms =>
      unfold chunks at h
      split at h
      · cases h
      · rename_i hlt
        have hlen : ((m :: ms).drop l).length = (m :: ms).length - l := by simp
        have hpos : 0 < (m :: ms).length := by simp
        cases hd : chunks l fuel ((m :: ms).drop l) with
        | panic => rw [hd] at h; cases h
        | diverge => rw [hd] at h; cases h
        | done ds =>
          rw [hd] at h
          cases h
          have := ih _ _ (by rw [hlen]; simp at hf ⊢; omega) hd
          rw [List.length_cons, Nat.succ_mul, this, hlen]
          exact Nat.sub_add_cancel (Nat.le_of_not_lt hlt)

omit [Platform] hc hr hmem in
theorem reshape_count {ls : List Nat} (hls : ∀ l ∈ ls, 0 < l) (ms cs : List Value)
    (h : reshape ls ms = .done cs) : cs.length * ls.prod = ms.length := by
  induction ls generalizing ms cs with
  | nil => cases h; simp
  | cons l ls ih =>
    unfold reshape at h
    cases hc : chunks l ms.length ms with
    | panic => rw [hc] at h; cases h
    | diverge => rw [hc] at h; cases h
    | done ds =>
      rw [hc] at h
      have h1 := chunks_count (hls l (by simp)) _ _ _ (Nat.le_refl _) hc
      have h2 := ih (fun l hl => hls l (by simp [hl])) _ _ h
      rw [← h1, ← h2, List.prod_cons, Nat.mul_assoc, Nat.mul_comm l]

omit [Platform] hc hr hmem in
theorem prod_pos {ls : List Nat} (h : ls.prod ≠ 0) : ∀ l ∈ ls, 0 < l := by
  induction ls with
  | nil => simp
  | cons a ls ih =>
    rw [List.prod_cons] at h
    have h1 : a ≠ 0 := fun e => h (by simp [e])
    have h2 : ls.prod ≠ 0 := fun e => h (by simp [e])
    intro l hl
    simp only [List.mem_cons] at hl
    rcases hl with rfl | hl
    · omega
    · exact ih h2 l hl

omit [Platform] hc hr hmem in
theorem prod_reverse (ls : List Nat) : ls.reverse.prod = ls.prod := by
  induction ls with
  | nil => rfl
  | cons a ls ih => simp [ih, Nat.mul_comm]

theorem binaryArray_good :
    SPGood pol (ArrOk pol) 1 (L + 1) (binaryArray classes referenceable) := by
  intro s i hs hi hl
  unfold binaryArray
  refine (lift_good hs (binaryArrayRec_good hi)).bind (k2 := 0) (by omega)
    fun a s i' hs hi' hlen ha => ?_
  split
  · exact Res.Good.failure hs hi trivial
  · rename_i n hn
    have hm : SPGood pol (ValueOrRef.Ok w pol.val) 0 L
        (memberReference classes a.typeEnum a.additionalTypeInfo) :=
      fun s i hs hi hl => (memberReference_good hc _ _ ha.2.2.2.1 s i hs hi hl).k0
    refine (countS_good hm n s i' hs hi' (by omega)).bind (k2 := 0) (by omega)
      fun ms s i' hs hi' hlen' hms => ?_
    refine (resolveMembers_good hr hmem ms hms.2 s i' hs hi' (by omega)).bind (k2 := 0) (by omega)
      fun vs s i' hs hi' _ hvs => ?_
    have hprod := checkedProduct_eq hn
    rw [Nat.one_mul] at hprod
    by_cases hn0 : n = 0
    · have hms0 : ms = [] := List.length_eq_zero_iff.mp (by omega)
      have : vs = [] := hvs.2.1 hms0
      subst this
      rw [reshape_nil]
      exact Res.Good.ret hs hi' ⟨ha.1, by simp, by simp⟩
    · have hpos : ∀ l ∈ (a.lengths.drop 1).reverse, 0 < l := by
        intro l hl
        exact prod_pos (ls := a.lengths) (by omega) l
          (List.mem_of_mem_drop (List.mem_reverse.mp hl))
      have hsp := reshape_spec (pol := pol) hpos (fun l hl vs hlen =>
        pol.array vs (by
          have := ha.2.2.2.2 l (List.mem_of_mem_drop (List.mem_reverse.mp hl))
          simp only [maxArray]; omega)) vs hvs.1
      rcases hsp.2 with ⟨cs, hcs, hv⟩ | hp
      · rw [hcs]
        refine Res.Good.ret hs hi' ⟨ha.1, hv, ?_⟩
        have hcount := reshape_count hpos vs cs hcs
        have hbound := hvs.2.2.2.1
        rw [hms.1, hprod, ← hcount] at hbound
        rw [prod_reverse] at hbound
        show cs.length ≤ maxArray
        cases hls : a.lengths with
        | nil =>
          rw [hls] at hbound
          simp at hbound
          simp only [maxArray]; omega
        | cons x xs =>
          have hx : x < 2 ^ 31 := ha.2.2.2.2 x (by rw [hls]; simp)
          rw [hls] at hbound hprod
          simp only [List.drop_succ_cons, List.drop_zero, List.prod_cons] at hbound hprod
          have hp0 : 0 < xs.prod := by
            rcases Nat.eq_zero_or_pos xs.prod with h | h
            · rw [h] at hprod; omega
            · exact h
          have : cs.length * xs.prod ≤ (x * (2 ^ 31 - 1)) * xs.prod := by
            rw [Nat.mul_right_comm]; exact hbound
          have := Nat.le_of_mul_le_mul_right this hp0
          refine Nat.le_trans this (Nat.mul_le_mul_right _ (by omega))
      · rw [hp]
        refine ⟨hs, ha.2.2.1, ?_⟩
        by_cases h13 : (13 : UInt8) ∈ w
        · exact .inl h13
        · by_cases h14 : (14 : UInt8) ∈ w
          · exact .inr h14
          · exfalso
            have hlen := hvs.2.2.1 h13 h14
            have hd : (a.lengths.drop 1).reverse.prod ∣ vs.length := by
              rw [prod_reverse, hlen, hms.1, hprod]
              cases hls : a.lengths with
              | nil => simp
              | cons x xs => simp; exact Nat.dvd_mul_left _ _
            obtain ⟨cs, hcs, _⟩ := hsp.1 hd
            rw [hp] at hcs
            cases hcs

theorem arraysBody_good :
    SPGood pol (ArrOk pol) 1 (L + 1) (arraysBody classes referenceable) := by
  intro s i hs hi hl
  unfold arraysBody
  refine (parseBinaryLibrary_good (L + 1) s i hs hi hl).bind (k2 := 1) (by omega)
    fun _ s i hs hi hlen _ => ?_
  refine altMut_good hi ?_ s hs
  intro p hp s hs
  simp only [List.mem_cons, List.not_mem_nil, or_false] at hp
  rcases hp with rfl | rfl | rfl | rfl
  · exact arraySingleObject_good hc hr hmem s i hs hi (by omega)
  · exact arraySinglePrimitive_good (L + 1) s i hs hi (by omega)
  · exact arraySingleString_good hc hr hmem s i hs hi (by omega)
  · exact binaryArray_good hc hr hmem s i hs hi (by omega)

end

/-! ## The knot -/

theorem referenceableBody_good {cls : SP (Nat × Object)} {arr : SP (Nat × List Value)} {L : Nat}
    (hcls : SPGood pol (ObjOk pol) 1 L cls) (harr : SPGood pol (ArrOk pol) 1 L arr) :
    SPGood pol (fun _ => True) 1 L (referenceableBody cls arr) := by
  intro s i hs hi hl
  unfold referenceableBody
  refine (altMut_good (V := fun x => pol.val x.2) (k := 1) hi ?_ s hs).bind (k2 := 0) (by omega)
    fun ⟨id, v⟩ s r hs hr _ hv => ?_
  · intro p hp s hs
    simp only [List.mem_cons, List.not_mem_nil, or_false] at hp
    rcases hp with rfl | rfl | rfl
    · exact (hcls s i hs hi hl).map fun o h => h.2.1
    · exact (harr s i hs hi hl).map fun a h => pol.array _ h.2.2 h.2.1
    · exact lift_good hs ((bos_good hi).map fun b h => pol.string _ (pol.ofStrOk _ h.2.2))
  · refine Res.Good.ret ⟨hs.1, hs.2.1, fun e he => ?_⟩ hr trivial
    rcases AMap.mem_insert he with rfl | he
    · exact hv
    · exact hs.2.2 e he

omit [Platform] in
theorem AMap.get?_insert {κ ν : Type} [DecidableEq κ] (m : AMap κ ν) (k : κ) (v : ν) (k' : κ) :
    (m.insert k v).get? k' = if k' = k then some v else m.get? k' := by
  induction m with
  | nil =>
    simp only [AMap.insert, AMap.get?]
    split
    · rename_i h; subst h; simp
    · rename_i h; rw [if_neg (fun e => h e.symm)]
  | cons a m ih =>
    obtain ⟨k2, v2⟩ := a
    unfold AMap.insert
    by_cases h : k2 = k
    · subst h
      rw [if_pos rfl]
      simp only [AMap.get?]
      by_cases h2 : k2 = k'
      · subst h2; simp
      · rw [if_neg h2, if_neg h2, if_neg (fun e => h2 e.symm)]
    · rw [if_neg h]
      simp only [AMap.get?]
      by_cases h2 : k2 = k'
      · subst h2; rw [if_pos rfl, if_pos rfl, if_neg h]
      · rw [if_neg h2, if_neg h2, ih]

theorem referenceableBody_mem {cls : SP (Nat × Object)} {arr : SP (Nat × List Value)}
    (s : St) (i r : Bytes) (id : Nat) (s' : St)
    (h : referenceableBody cls arr s i = (.ok r id, s')) : (s'.objects.get? id).isSome := by
  unfold referenceableBody at h
  unfold Res.bind at h
  split at h
  · simp only [Prod.mk.injEq, Outcome.ok.injEq] at h
    obtain ⟨⟨_, rfl⟩, rfl⟩ := h
    simp [AMap.get?_insert]
  all_goals simp at h

theorem recAt_mem (n : Nat) (s : St) (i r : Bytes) (id : Nat) (s' : St)
    (h : (recAt n).referenceable s i = (.ok r id, s')) : (s'.objects.get? id).isSome := by
  cases n with
  | zero => simp [recAt] at h
  | succ n => exact referenceableBody_mem _ _ _ _ _ h

theorem recAt_good (n : Nat) :
    SPGood pol (ObjOk pol) 1 n (recAt n).classes ∧
      SPGood pol (fun _ => True) 1 n (recAt n).referenceable := by
  induction n with
  | zero => exact ⟨fun s i _ _ h => by omega, fun s i _ _ h => by omega⟩
  | succ n ih =>
    have hc := classesBody_good ih.1 ih.2 (recAt_mem n)
    have ha := arraysBody_good ih.1 ih.2 (recAt_mem n)
    exact ⟨hc, referenceableBody_good hc ha⟩

theorem parseClasses_good (L : Nat) : SPGood pol (ObjOk pol) 1 L parseClasses :=
  fun s i hs hi _ => (recAt_good (i.length + 1)).1 s i hs hi (by omega)

theorem parseReferenceable_good (L : Nat) : SPGood pol (fun _ => True) 1 L parseReferenceable :=
  fun s i hs hi _ => (recAt_good (i.length + 1)).2 s i hs hi (by omega)

theorem parseReferenceable_mem (s : St) (i r : Bytes) (id : Nat) (s' : St)
    (h : parseReferenceable s i = (.ok r id, s')) : (s'.objects.get? id).isSome :=
  recAt_mem _ _ _ _ _ _ h

/-! ## Methods and messages -/

theorem parseCallArray_good (root : Option Nat) (L : Nat) :
    SPGood pol (fun vs => vs.length ≤ maxArray ∧ ∀ v ∈ vs, pol.val v) 1 L (parseCallArray root) := by
  intro s i hs hi hl
  unfold parseCallArray
  refine (parseBinaryLibrary_good L s i hs hi hl).bind (k2 := 1) (by omega)
    fun _ s i hs hi hlen _ => ?_
  refine (arraySingleObject_good (L := L) (parseClasses_good L) (parseReferenceable_good L)
    parseReferenceable_mem s i hs hi (by omega)).bind (k2 := 0) (by omega)
    fun ⟨id, vs⟩ s i hs hi _ h => ?_
  simp only
  split
  · exact Res.Good.failure hs hi trivial
  · exact Res.Good.ret hs hi ⟨h.2.2, h.2.1⟩

/-- Values that occur directly in a method record. -/
theorem valueWithCode_val {v : ValueWithCode} (h : v.Ok w) : pol.val v.intoValue := by
  cases v with
  | prim p => exact pol.prim p h
  | null => exact pol.null
  | string s => exact pol.string s (pol.ofStrOk s h)

/-- A policy whose arrays have good elements. -/
def Pol.ArrayInv (pol : Pol w) : Prop := ∀ vs, pol.val (.array vs) → ∀ v ∈ vs, pol.val v

/-- A policy whose arrays are not too long. -/
def Pol.Short (pol : Pol w) : Prop := ∀ vs, pol.val (.array vs) → vs.length ≤ maxArray

theorem parseArgs_good (hpol : pol.ArrayInv) {flags : BitVec 32} {callArray : Option (List Value)}
    {inline : Option (List ValueWithCode)} {args : Option (List Value)}
    (hc : ∀ vs, callArray = some vs → vs.length ≤ maxArray ∧ ∀ v ∈ vs, pol.val v)
    (hin : ∀ l, inline = some l → l.length < 2 ^ 31 ∧ ∀ v ∈ l, ValueWithCode.Ok w v)
    (h : parseArgs flags callArray inline = some args) :
    ∀ vs, args = some vs → (pol.Short → vs.length ≤ maxArray) ∧ ∀ v ∈ vs, pol.val v := by
  unfold parseArgs at h
  split at h
  · split at h
    · rename_i vs
      cases h
      rintro _ ⟨⟩
      exact ⟨fun _ => (hc vs rfl).1, (hc vs rfl).2⟩
    · cases h
  · split at h
    · split at h
      · rename_i args' _
        cases h
        rintro _ ⟨⟩
        exact ⟨fun h => h _ ((hc _ rfl).2 _ (by simp)), hpol _ ((hc _ rfl).2 _ (by simp))⟩
      · cases h
    · cases h
      cases inline with
      | none => simp
      | some l =>
        rintro _ ⟨⟩
        refine ⟨?_, fun v hv => ?_⟩
        · intro _
          have := (hin l rfl).1
          simp only [ArrayOfValueWithCode.intoValues, List.length_map, maxArray]
          omega
        · simp only [ArrayOfValueWithCode.intoValues, List.mem_map] at hv
          obtain ⟨x, hx, rfl⟩ := hv
          exact valueWithCode_val ((hin l rfl).2 x hx)

/-- The invariant of a method call. -/
def MethodCall.Ok (pol : Pol w) (c : MethodCall) : Prop :=
  pol.str c.methodName ∧ pol.str c.typeName ∧ (∀ s, c.callContext = some s → pol.str s) ∧
    ∀ vs, c.args = some vs → (pol.Short → vs.length ≤ maxArray) ∧ ∀ v ∈ vs, pol.val v

/-- The invariant of a method return. -/
def MethodReturn.Ok (pol : Pol w) (c : MethodReturn) : Prop :=
  (∀ v, c.returnValue = some v → pol.val v) ∧ (∀ s, c.callContext = some s → pol.str s) ∧
    ∀ vs, c.args = some vs → (pol.Short → vs.length ≤ maxArray) ∧ ∀ v ∈ vs, pol.val v

theorem parseMethodCall_good (hpol : pol.ArrayInv) (root : Option Nat) (L : Nat) :
    SPGood pol (MethodCall.Ok pol) 1 L (parseMethodCall root) := by
  intro s i hs hi hl
  unfold parseMethodCall
  refine (parseBinaryLibrary_good L s i hs hi hl).bind (k2 := 1) (by omega)
    fun _ s i hs hi hlen _ => ?_
  refine (lift_good hs (binaryMethodCall_good hi)).bind (k2 := 0) (by omega)
    fun c s i hs hi hlen hcall => ?_
  refine (optS_good hi (parseCallArray_good root L s i hs hi (by omega))).bind (k2 := 0) (by omega)
    fun ca s i hs hi _ hca => ?_
  split
  · rename_i args hargs
    refine Res.Good.ret hs hi ⟨pol.ofStrOk _ hcall.1, pol.ofStrOk _ hcall.2.1,
      fun s hs => pol.ofStrOk _ (hcall.2.2.1 s hs), parseArgs_good hpol hca hcall.2.2.2 hargs⟩
  · exact Res.Good.failure hs hi trivial

theorem parseMethodReturn_good (hpol : pol.ArrayInv) (root : Option Nat) (L : Nat) :
    SPGood pol (MethodReturn.Ok pol) 1 L (parseMethodReturn root) := by
  intro s i hs hi hl
  unfold parseMethodReturn
  refine (parseBinaryLibrary_good L s i hs hi hl).bind (k2 := 1) (by omega)
    fun _ s i hs hi hlen _ => ?_
  refine (lift_good hs (binaryMethodReturn_good hi)).bind (k2 := 0) (by omega)
    fun c s i hs hi hlen hcall => ?_
  refine (optS_good hi (parseCallArray_good root L s i hs hi (by omega))).bind (k2 := 0) (by omega)
    fun ca s i hs hi _ hca => ?_
  split
  · rename_i args hargs
    refine Res.Good.ret hs hi ⟨?_, fun s hs => pol.ofStrOk _ (hcall.2.1 s hs),
      parseArgs_good hpol hca hcall.2.2 hargs⟩
    intro v hv
    simp only [Option.map_eq_some_iff] at hv
    obtain ⟨x, hx, rfl⟩ := hv
    exact valueWithCode_val (hcall.1 x hx)
  · exact Res.Good.failure hs hi trivial

theorem parseMethodCallOrReturn_good (hpol : pol.ArrayInv) (root : Option Nat) (L : Nat) :
    SPGood pol (fun m => (∀ c, m = .inl c → c.Ok pol) ∧ (∀ r, m = .inr r → r.Ok pol)) 1 L
      (parseMethodCallOrReturn root) := by
  intro s i hs hi hl
  unfold parseMethodCallOrReturn
  refine altMut_good hi ?_ s hs
  intro p hp s hs
  simp only [List.mem_cons, List.not_mem_nil, or_false] at hp
  rcases hp with rfl | rfl
  · exact (parseMethodCall_good hpol root L s i hs hi hl).map fun c h =>
      ⟨by rintro _ ⟨⟩; exact h, by rintro _ ⟨⟩⟩
  · exact (parseMethodReturn_good hpol root L s i hs hi hl).map fun c h =>
      ⟨by rintro _ ⟨⟩, by rintro _ ⟨⟩; exact h⟩

theorem referenceablesLoop_good (fuel : Nat) :
    SPGood pol (fun _ => True) 0 fuel (referenceablesLoop fuel) := by
  induction fuel with
  | zero => exact fun s i _ _ h => by omega
  | succ fuel ih =>
    intro s i hs hi hl
    have h := parseReferenceable_good (fuel + 1) s i hs hi hl
    unfold referenceablesLoop
    split
    · rename_i r _ s' heq
      rw [heq] at h
      have hlen := h.2.2.1
      exact (ih s' r h.1 h.2.1 (by omega)).weaken (fun _ => id) (by omega)
    · rename_i e s' heq
      rw [heq] at h
      exact Res.Good.ret h.1 hi trivial
    all_goals rename_i heq; rw [heq] at h; exact h

theorem parseReferenceables_good (L : Nat) :
    SPGood pol (fun _ => True) 0 L parseReferenceables :=
  fun s i hs hi _ => referenceablesLoop_good (i.length + 1) s i hs hi (by omega)

/-- The invariant of a message. -/
def RemotingMessage.Ok (pol : Pol w) : RemotingMessage → Prop
  | .methodCall c => c.Ok pol
  | .methodReturn r => r.Ok pol
  | .value v => pol.val v

theorem parseRemotingMessage_good (hpol : pol.ArrayInv) (L : Nat) :
    SPGood pol (RemotingMessage.Ok pol) 1 L parseRemotingMessage := by
  intro s i hs hi hl
  unfold parseRemotingMessage
  refine (lift_good hs (header_good hi)).bind (k2 := 0) (by omega) fun h s i hs hi hl' _ => ?_
  refine (parseReferenceables_good L s i hs hi (by omega)).bind (k2 := 0) (by omega)
    fun _ s i hs hi _ _ => ?_
  refine (optS_good hi (parseMethodCallOrReturn_good hpol h.rootId L s i hs hi (by omega))).bind
    (k2 := 0) (by omega) fun m s i hs hi _ hm => ?_
  refine (parseReferenceables_good L s i hs hi (by omega)).bind (k2 := 0) (by omega)
    fun _ s i hs hi _ _ => ?_
  refine (lift_good hs (messageEnd_good hi)).bind (k2 := 0) (by omega) fun _ s i hs hi _ _ => ?_
  split
  · unfold selectRoot
    split
    · exact Res.Good.ret hs hi ((hm _ rfl).1 _ rfl)
    · exact Res.Good.ret hs hi ((hm _ rfl).2 _ rfl)
    · split
      · split
        · rename_i v hv
          exact Res.Good.ret (erase_ok hs) hi (hs.2.2 _ (AMap.mem_of_get? hv))
        · exact Res.Good.error hs hi trivial
      · exact Res.Good.ret hs hi pol.null
  · exact Res.Good.error hs hi trivial

theorem init_ok : St.Ok pol St.init := ⟨rfl, by simp [St.init], by simp [St.init]⟩

/-- The invariant of the public entry point. -/
theorem deserialize_good {w : Bytes} (pol : Pol w) (hpol : pol.ArrayInv) :
    match deserialize w with
    | .ok m => m.Ok pol
    | .err e => Error.In w e
    | .panic => MayPanic w
    | .hang => False := by
  have h := parseRemotingMessage_good hpol (w.length + 1) St.init w init_ok (List.suffix_refl _)
    (by omega)
  unfold deserialize
  generalize parseRemotingMessage St.init w = x at h
  obtain ⟨o, s⟩ := x
  obtain ⟨_, h⟩ := h
  cases o with
  | ok r m => exact h.2.2
  | error e => exact h
  | failure e => exact h
  | panic => exact h
  | diverge => exact h

end Nrbf
