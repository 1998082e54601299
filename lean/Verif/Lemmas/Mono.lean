import Verif.Lemmas.GoodState

/-! # The library table never loses an entry, whatever the outcome -/

namespace Nrbf

variable {α β : Type}

/-- Every library known in `s` is known in `s'`. -/
def St.LibsLe (s s' : St) : Prop := ∀ k, (s.libs.get? k).isSome → (s'.libs.get? k).isSome

theorem St.LibsLe.refl (s : St) : s.LibsLe s := fun _ h => h

theorem St.LibsLe.trans {a b c : St} (h1 : a.LibsLe b) (h2 : b.LibsLe c) : a.LibsLe c :=
  fun k h => h2 k (h1 k h)

/-- The parser keeps all libraries. -/
def LibMono (p : SP α) : Prop := ∀ (s : St) (i : Bytes), s.LibsLe (p s i).2

theorem Res.bind_mono {x : Res α} {f : α → St → Bytes → Res β} {s : St} (hx : s.LibsLe x.2)
    (hf : ∀ a s' r, s.LibsLe s' → s.LibsLe (f a s' r).2) : s.LibsLe (x.bind f).2 := by
  obtain ⟨o, s'⟩ := x
  cases o with
  | ok r a => exact hf a s' r hx
  | _ => exact hx

theorem Res.map_mono {x : Res α} {f : α → β} {s : St} (hx : s.LibsLe x.2) :
    s.LibsLe (x.map f).2 := hx

theorem lift_mono (p : Parser α) : LibMono (lift p) := fun s _ => .refl s

theorem countS_mono {p : SP α} (hp : LibMono p) (n : Nat) : LibMono (countS p n) := by
  induction n with
  | zero => exact fun s i => .refl s
  | succ n ih =>
    intro s i
    exact Res.bind_mono (hp s i) fun a s' r h => Res.map_mono (h.trans (ih s' r))

theorem altMut_mono {ps : List (SP α)} (hps : ∀ p ∈ ps, LibMono p) : LibMono (altMut ps) := by
  induction ps with
  | nil => exact fun s i => .refl s
  | cons p ps ih =>
    intro s i
    have hp := hps p (by simp) s i
    unfold altMut
    split
    · rename_i e s' heq
      rw [heq] at hp
      exact hp.trans (ih (fun q hq => hps q (by simp [hq])) s' i)
    · exact hp

theorem optS_mono {p : SP α} (hp : LibMono p) : LibMono (optS p) := by
  intro s i
  have h := hp s i
  unfold optS
  split
  · rename_i e s' heq; rw [heq] at h; exact h
  · exact h

theorem parseBinaryLibrary_mono : LibMono parseBinaryLibrary := by
  intro s i
  unfold parseBinaryLibrary
  refine Res.bind_mono (lift_mono _ s i) fun lib s' r h => ?_
  cases lib with
  | none => exact h
  | some l =>
    have h' : s.LibsLe { s' with libs := s'.libs.insert l.libraryId l.libraryName } := by
      intro k hk
      simp only [AMap.get?_insert]
      split
      · rfl
      · exact h k hk
    simp only
    split <;> exact h'

variable [Platform] {classes : SP (Nat × Object)} {referenceable : SP Nat}

theorem memberReferenceNone_mono (hc : LibMono classes) : LibMono (memberReferenceNone classes) := by
  intro s i
  unfold memberReferenceNone
  refine Res.bind_mono (parseBinaryLibrary_mono s i) fun _ s' r h => ?_
  split
  · exact Res.map_mono (h.trans (hc s' r))
  · exact h

omit [Platform] in
theorem expectedClass_mono (hc : LibMono classes) (name : Str) (library : Option Str) :
    LibMono (expectedClass classes name library) := by
  intro s i
  have h := hc s i
  unfold expectedClass
  split
  · rename_i r o s' heq
    rw [heq] at h
    split <;> exact h
  all_goals rename_i heq; rw [heq] at h; exact h

theorem memberReference_mono (hc : LibMono classes) (t : BinaryType)
    (info : Option AdditionalTypeInfo) : LibMono (memberReference classes t info) := by
  intro s i
  unfold memberReference
  refine Res.bind_mono (parseBinaryLibrary_mono s i) fun _ s' r h => ?_
  split
  · exact h
  · exact h
  · exact h.trans (memberReferenceNone_mono hc s' r)
  · exact h.trans (expectedClass_mono hc _ _ s' r)
  · split
    · exact h.trans (expectedClass_mono hc _ _ s' r)
    · exact h
  · exact h.trans (memberReferenceNone_mono hc s' r)
  · exact h
  · exact h
  · exact h

theorem membersWithTypeInfo_mono (hc : LibMono classes)
    (ts : List (BinaryType × Option AdditionalTypeInfo)) :
    LibMono (membersWithTypeInfo classes ts) := by
  induction ts with
  | nil => exact fun s i => .refl s
  | cons e ts ih =>
    intro s i
    exact Res.bind_mono (memberReference_mono hc e.1 e.2 s i) fun a s' r h =>
      Res.map_mono (h.trans (ih s' r))

omit [Platform] in
theorem resolveRef_mono (hr : LibMono referenceable) (id : Nat) :
    LibMono (resolveRef referenceable id) := by
  intro s i
  have h := hr s i
  unfold resolveRef
  split
  · exact .refl s
  · split
    · rename_i heq
      rw [heq] at h
      split
      · split <;> exact h
      · exact h
    all_goals rename_i heq; rw [heq] at h; exact h

omit [Platform] in
theorem resolveMembers_mono (hr : LibMono referenceable) (ms : List ValueOrRef) :
    LibMono (resolveMembers referenceable ms) := by
  induction ms with
  | nil => exact fun s i => .refl s
  | cons m ms ih =>
    intro s i
    cases m with
    | value v => exact Res.map_mono (ih s i)
    | null n => exact Res.map_mono (ih s i)
    | ref id =>
      exact Res.bind_mono (resolveRef_mono hr id s i) fun a s' r h =>
        Res.map_mono (h.trans (ih s' r))

omit [Platform] in
theorem classHeader_mono : LibMono classHeader := by
  intro s i
  unfold classHeader
  split
  · split <;> exact .refl s
  all_goals exact .refl s

theorem classMembers_mono (hc : LibMono classes) (e : Bytes) (c : Class) :
    LibMono (classMembers classes e c) := by
  intro s i
  unfold classMembers
  split
  · split
    · exact Res.map_mono (countS_mono (memberReferenceNone_mono hc) _ s i)
    · exact .refl s
  · split
    · exact Res.map_mono (membersWithTypeInfo_mono hc _ s i)
    · exact .refl s
  · exact Res.map_mono (countS_mono (memberReferenceNone_mono hc) _ s i)
  · exact Res.map_mono (membersWithTypeInfo_mono hc _ s i)

theorem classesBody_mono (hc : LibMono classes) (hr : LibMono referenceable) :
    LibMono (classesBody classes referenceable) := by
  intro s i
  unfold classesBody
  refine Res.bind_mono (parseBinaryLibrary_mono s i) fun _ s1 r1 h1 => ?_
  refine Res.bind_mono (h1.trans (classHeader_mono s1 r1)) fun ⟨id, c⟩ s2 r2 h2 => ?_
  simp only
  split
  · exact h2
  · refine Res.bind_mono (h2.trans (classMembers_mono hc r1 c s2 r2)) fun ⟨l, ms⟩ s3 r3 h3 => ?_
    exact Res.bind_mono (h3.trans (resolveMembers_mono hr ms s3 r3)) fun vs s4 r4 h4 => h4

omit [Platform] in
theorem arrayLoop_mono {element : SP ValueOrRef} (he : LibMono element) (fuel len : Nat)
    (acc : List ValueOrRef) : LibMono (arrayLoop element fuel len acc) := by
  induction fuel generalizing acc with
  | zero => intro s i; unfold arrayLoop; split <;> exact .refl s
  | succ fuel ih =>
    intro s i
    unfold arrayLoop
    split
    · refine Res.bind_mono (he s i) fun m s' r h => ?_
      cases m <;> exact h.trans (ih _ s' r)
    · exact .refl s

theorem arraySingleObject_mono (hc : LibMono classes) (hr : LibMono referenceable) :
    LibMono (arraySingleObject classes referenceable) := by
  intro s i
  unfold arraySingleObject
  refine Res.bind_mono (lift_mono _ s i) fun a s1 r1 h1 => ?_
  refine Res.bind_mono (h1.trans (arrayLoop_mono (memberReferenceNone_mono hc) _ _ _ s1 r1))
    fun ms s2 r2 h2 => ?_
  exact Res.map_mono (h2.trans (resolveMembers_mono hr ms s2 r2))

theorem arraySingleString_mono (hc : LibMono classes) (hr : LibMono referenceable) :
    LibMono (arraySingleString classes referenceable) := by
  intro s i
  unfold arraySingleString
  refine Res.bind_mono (lift_mono _ s i) fun a s1 r1 h1 => ?_
  refine Res.bind_mono (h1.trans (arrayLoop_mono (memberReference_mono hc _ _) _ _ _ s1 r1))
    fun ms s2 r2 h2 => ?_
  exact Res.map_mono (h2.trans (resolveMembers_mono hr ms s2 r2))

theorem binaryArray_mono (hc : LibMono classes) (hr : LibMono referenceable) :
    LibMono (binaryArray classes referenceable) := by
  intro s i
  unfold binaryArray
  refine Res.bind_mono (lift_mono _ s i) fun a s1 r1 h1 => ?_
  split
  · exact h1
  · refine Res.bind_mono (h1.trans (countS_mono (memberReference_mono hc _ _) _ s1 r1))
      fun ms s2 r2 h2 => ?_
    refine Res.bind_mono (h2.trans (resolveMembers_mono hr ms s2 r2)) fun vs s3 r3 h3 => ?_
    split <;> exact h3

theorem arraysBody_mono (hc : LibMono classes) (hr : LibMono referenceable) :
    LibMono (arraysBody classes referenceable) := by
  intro s i
  unfold arraysBody
  refine Res.bind_mono (parseBinaryLibrary_mono s i) fun _ s1 r1 h1 => ?_
  refine h1.trans (altMut_mono ?_ s1 r1)
  intro p hp
  simp only [List.mem_cons, List.not_mem_nil, or_false] at hp
  rcases hp with rfl | rfl | rfl | rfl
  · exact arraySingleObject_mono hc hr
  · exact lift_mono _
  · exact arraySingleString_mono hc hr
  · exact binaryArray_mono hc hr

omit [Platform] in
theorem referenceableBody_mono {cls : SP (Nat × Object)} {arr : SP (Nat × List Value)}
    (hc : LibMono cls) (ha : LibMono arr) : LibMono (referenceableBody cls arr) := by
  intro s i
  unfold referenceableBody
  refine Res.bind_mono (altMut_mono ?_ s i) fun ⟨id, v⟩ s' r h => h
  intro p hp
  simp only [List.mem_cons, List.not_mem_nil, or_false] at hp
  rcases hp with rfl | rfl | rfl
  · exact fun s i => hc s i
  · exact fun s i => ha s i
  · exact lift_mono _

theorem recAt_mono (n : Nat) : LibMono (recAt n).classes ∧ LibMono (recAt n).referenceable := by
  induction n with
  | zero => exact ⟨fun s i => .refl s, fun s i => .refl s⟩
  | succ n ih =>
    have hc := classesBody_mono ih.1 ih.2
    exact ⟨hc, referenceableBody_mono hc (arraysBody_mono ih.1 ih.2)⟩

end Nrbf
