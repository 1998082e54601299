import Verif.Lemmas.Libs
import Verif.Props.Records

/-! # C30, C39, C50: the members of objects -/

set_option autoImplicit false

namespace Nrbf
open Spec

variable [Platform]

/-! ## C39: names and values -/

omit [Platform] in
theorem bindNames_keys (names : List Str) (values : List Value) :
    (bindNames names values).map Prod.fst = ((names.zip values).map Prod.fst).eraseDups := by
  unfold bindNames
  rw [List.map_map]
  exact (List.map_congr_left fun _ _ => rfl).trans (List.map_id _)

omit [Platform] in
theorem eraseDups_is_nodup (l : List Str) : l.eraseDups.Nodup := by
  generalize hn : l.length = n
  induction n using Nat.strongRecOn generalizing l with
  | ind n ih =>
    cases l with
    | nil => simp
    | cons a l =>
      rw [List.eraseDups_cons, List.nodup_cons]
      refine ⟨by simp, ih _ ?_ _ rfl⟩
      have := List.length_filter_le (fun b => !b == a) l
      simp only [List.length_cons] at hn
      omega

omit [Platform] in
theorem zip_keys (names : List Str) (values : List Value) :
    (names.zip values).map Prod.fst = names.take values.length := by
  induction names generalizing values with
  | nil => simp
  | cons n names ih => cases values <;> simp [ih]

/-- The value a slot with a value of its own contributes. -/
inductive SlotValue : Slot → Value → Prop
  | value {v} : SlotValue (.value v) v
  | null {n} : SlotValue (.nulls n) .null
  | ref {id v} : SlotValue (.ref id) v

theorem resolve_values : ∀ {slots : List Slot} {E : Env} {i : Bytes} {vs : List Value} {E' : Env}
    {r : Bytes}, Resolve slots E i vs E' r → (∀ s ∈ slots, s.size = 1) → ∀ (k : Nat) (v : Value),
    vs[k]? = some v → ∃ slot, slots[k]? = some slot ∧ SlotValue slot v
  | _, _, _, _, _, _, .nil, _, k, v, h => by simp at h
  | _, _, _, _, _, _, .value hr, hs, k, v, h => by
    cases k with
    | zero => simp at h; subst h; exact ⟨_, rfl, .value⟩
    | succ k => exact resolve_values hr (fun s h => hs s (.tail _ h)) k v (by simpa using h)
  | _, _, _, _, _, _, @Resolve.nulls _ n _ _ _ _ _ _ hr, hs, k, v, h => by
    have h1 : n = 1 := hs (.nulls n) (.head _)
    subst h1
    cases k with
    | zero => simp at h; subst h; exact ⟨_, rfl, .null⟩
    | succ k => exact resolve_values hr (fun s h => hs s (.tail _ h)) k v (by simpa using h)
  | _, _, _, _, _, _, .known _ hr, hs, k, v, h => by
    cases k with
    | zero => exact ⟨_, rfl, .ref⟩
    | succ k => exact resolve_values hr (fun s h => hs s (.tail _ h)) k v (by simpa using h)
  | _, _, _, _, _, _, .next _ _ hr, hs, k, v, h => by
    cases k with
    | zero => exact ⟨_, rfl, .ref⟩
    | succ k => exact resolve_values hr (fun s h => hs s (.tail _ h)) k v (by simpa using h)

/-- **C39** An accepted class record yields an object of that class; its member names are declared and
distinct, and its members are the values of its member records in stream order, paired with the
declared names from the left (superfluous ones of either are dropped, a repeated name keeps its last
value). -/
theorem C39_members {s : St} (hs : Reached s) {c : ClassHead} {b i : Bytes} (hb : IsClassHead c b)
    {v : Value} {r : Bytes} (h : Accepts s (b ++ i) c.id v r) :
    ∃ library members slots values E1 i1 E2, v = .object c.name library members ∧
      (members.map Prod.fst).Nodup ∧ (∀ e ∈ members, e.1 ∈ c.memberNames) ∧
      Members c.memberTypes (abs s) i slots E1 i1 ∧ Resolve slots E1 i1 values E2 r ∧
      members = bindNames c.memberNames values := by
  obtain ⟨E, h⟩ := (accepts_iff hs.classes).mp h
  obtain ⟨_, library, slots, E2, i2, values, hlib, hm, hr, rfl⟩ := (record_class hb).mp h
  refine ⟨library, _, slots, values, E2, i2, E, rfl, ?_, ?_, hm, hr, rfl⟩
  · rw [bindNames_keys]
    exact eraseDups_is_nodup _
  · intro e he
    have : e.1 ∈ (bindNames c.memberNames values).map Prod.fst := List.mem_map_of_mem he
    rw [bindNames_keys, List.mem_eraseDups, zip_keys] at this
    exact List.mem_of_mem_take this

omit [Platform] in
theorem memberTypes_length {c : ClassHead} {b : Bytes} (hb : IsClassHead c b) :
    c.memberTypes.length = c.memberNames.length := by
  obtain ⟨_, _, _, _, _, _, _, _, _, _, ht, _, _⟩ := hb
  unfold ClassHead.memberTypes
  cases h : c.types with
  | none => simp
  | some ts => rw [h] at ht; simpa using ht.1

/-- **C39** (alignment) If no null-run byte follows the header and the declared names are distinct, then
there is one member per declared name, and the k-th name is bound to the value of the k-th member
record. -/
theorem C39_aligned {s : St} (hs : Reached s) {c : ClassHead} {b i : Bytes} (hb : IsClassHead c b)
    {v : Value} {r : Bytes} (h : Accepts s (b ++ i) c.id v r) (hi : NoRuns i) (hn : c.memberNames.Nodup) :
    ∃ library values slots E1 i1, v = .object c.name library (c.memberNames.zip values) ∧
      values.length = c.memberNames.length ∧ slots.length = c.memberNames.length ∧
      Members c.memberTypes (abs s) i slots E1 i1 ∧
      ∀ (k : Nat) (u : Value), values[k]? = some u → ∃ slot, slots[k]? = some slot ∧ SlotValue slot u := by
  obtain ⟨library, members, slots, values, E1, i1, E2, rfl, _, _, hm, hr, rfl⟩ := C39_members hs hb h
  have h1 := members_ones hm hi
  have h2 := members_length hm
  rw [memberTypes_length hb] at h2
  refine ⟨library, values, slots, E1, i1, ?_, ?_, h2, hm, resolve_values hr h1⟩
  · rw [bindNames_nodup hn]
  · rw [resolve_length hr, slotsSize_ones h1, h2]

theorem resolve_at : ∀ {slots : List Slot} {E : Env} {i : Bytes} {vs : List Value} {E' : Env} {r : Bytes},
    Resolve slots E i vs E' r → ∀ {k : Nat} {slot : Slot}, slots[k]? = some slot → ∀ {j : Nat}, j < slot.size →
    ∃ u, vs[((slots.take k).map Slot.size).sum + j]? = some u ∧ SlotValue slot u
  | _, _, _, _, _, _, .nil, k, slot, h, j, hj => by simp at h
  | _, _, _, _, _, _, @Resolve.value _ v slots _ _ vs _ _ hr, k, slot, h, j, hj => by
    cases k with
    | zero =>
      simp only [List.getElem?_cons_zero, Option.some.injEq] at h; subst h
      have : j = 0 := by simp only [Slot.size] at hj; omega
      subst this
      exact ⟨v, by simp, .value⟩
    | succ k =>
      obtain ⟨u, hu, hs⟩ := resolve_at hr (k := k) (slot := slot) (by simpa using h) hj
      refine ⟨u, ?_, hs⟩
      rw [List.take_succ_cons, List.map_cons, List.sum_cons,
        show (Slot.value v).size + ((slots.take k).map Slot.size).sum + j
          = (((slots.take k).map Slot.size).sum + j) + 1 by simp only [Slot.size]; omega, List.getElem?_cons_succ]
      exact hu
  | _, _, _, _, _, _, @Resolve.nulls _ n slots _ _ vs _ _ hr, k, slot, h, j, hj => by
    cases k with
    | zero =>
      simp only [List.getElem?_cons_zero, Option.some.injEq] at h; subst h
      have hj' : j < n := hj
      refine ⟨.null, ?_, .null⟩
      simp only [List.take_zero, List.map_nil, List.sum_nil, Nat.zero_add]
      rw [List.getElem?_append_left (by simpa using hj')]
      simp [List.getElem?_replicate, hj']
    | succ k =>
      obtain ⟨u, hu, hs⟩ := resolve_at hr (k := k) (slot := slot) (by simpa using h) hj
      refine ⟨u, ?_, hs⟩
      rw [List.take_succ_cons, List.map_cons, List.sum_cons, List.getElem?_append_right (by
        simp only [Slot.size, List.length_replicate]; omega),
        show (Slot.nulls n).size + ((slots.take k).map Slot.size).sum + j - (List.replicate n Value.null).length
          = ((slots.take k).map Slot.size).sum + j by simp only [Slot.size, List.length_replicate]; omega]
      exact hu
  | _, _, _, _, _, _, @Resolve.known _ id slots _ _ v vs _ _ _ hr, k, slot, h, j, hj => by
    cases k with
    | zero =>
      simp only [List.getElem?_cons_zero, Option.some.injEq] at h; subst h
      have : j = 0 := by simp only [Slot.size] at hj; omega
      subst this
      exact ⟨v, by simp, .ref⟩
    | succ k =>
      obtain ⟨u, hu, hs⟩ := resolve_at hr (k := k) (slot := slot) (by simpa using h) hj
      refine ⟨u, ?_, hs⟩
      rw [List.take_succ_cons, List.map_cons, List.sum_cons,
        show (Slot.ref id).size + ((slots.take k).map Slot.size).sum + j
          = (((slots.take k).map Slot.size).sum + j) + 1 by simp only [Slot.size]; omega, List.getElem?_cons_succ]
      exact hu
  | _, _, _, _, _, _, @Resolve.next _ id slots _ _ v _ _ vs _ _ _ _ hr, k, slot, h, j, hj => by
    cases k with
    | zero =>
      simp only [List.getElem?_cons_zero, Option.some.injEq] at h; subst h
      have : j = 0 := by simp only [Slot.size] at hj; omega
      subst this
      exact ⟨v, by simp, .ref⟩
    | succ k =>
      obtain ⟨u, hu, hs⟩ := resolve_at hr (k := k) (slot := slot) (by simpa using h) hj
      refine ⟨u, ?_, hs⟩
      rw [List.take_succ_cons, List.map_cons, List.sum_cons,
        show (Slot.ref id).size + ((slots.take k).map Slot.size).sum + j
          = (((slots.take k).map Slot.size).sum + j) + 1 by simp only [Slot.size]; omega, List.getElem?_cons_succ]
      exact hu

/-- **C39** (with null runs) Every accepted class record, also with null runs and repeated names: there is one member
record per declared name, each stands for as many values as its size says (a run of nulls for that many, others for one), and
the values of a member record stand after those of all earlier ones.  The values are paired with the declared names from the
left. -/
theorem C39_positions {s : St} (hs : Reached s) {c : ClassHead} {b i : Bytes} (hb : IsClassHead c b)
    {v : Value} {r : Bytes} (h : Accepts s (b ++ i) c.id v r) :
    ∃ library slots values E1 i1, v = .object c.name library (bindNames c.memberNames values) ∧
      Members c.memberTypes (abs s) i slots E1 i1 ∧ slots.length = c.memberNames.length ∧
      values.length = (slots.map Slot.size).sum ∧
      ∀ (k j : Nat) (slot : Slot), slots[k]? = some slot → j < slot.size →
        ∃ u, values[((slots.take k).map Slot.size).sum + j]? = some u ∧ SlotValue slot u := by
  obtain ⟨library, members, slots, values, E1, i1, E2, rfl, _, _, hm, hr, rfl⟩ := C39_members hs hb h
  have h2 := members_length hm
  rw [memberTypes_length hb] at h2
  exact ⟨library, slots, values, E1, i1, rfl, hm, h2, resolve_length hr, fun k j slot hk hj => resolve_at hr hk hj⟩

/-! ## C50: members with a declared class -/

/-- What a slot of that declared type is: if the type is a class, then nulls or an object of it. -/
theorem members_typed : ∀ {Ts : List (Option MemberType)} {E : Env} {i : Bytes} {slots : List Slot}
    {E' : Env} {r : Bytes}, Members Ts E i slots E' r → ∀ {k : Nat} {slot : Slot}, slots[k]? = some slot →
    (∀ name, Ts[k]? = some (some (.systemClass name)) →
      (∃ n, slot = .nulls n) ∨ ∃ ms, slot = .value (.object name none ms)) ∧
    (∀ name l, Ts[k]? = some (some (.class name l)) →
      ∃ library, E'.libs l = some library ∧
        ((∃ n, slot = .nulls n) ∨ ∃ ms, slot = .value (.object name (some library) ms)))
  | _, _, _, _, _, _, .nil, k, slot, h => by simp at h
  | _, _, _, _, _, _, .cons hm hms, 0, slot, h => by
    simp only [List.getElem?_cons_zero, Option.some.injEq] at h
    subst h
    refine ⟨fun name ht => ?_, fun name l ht => ?_⟩
    · simp only [List.getElem?_cons_zero, Option.some.injEq] at ht
      subst ht
      cases hm with
      | systemClass _ _ => exact .inr ⟨_, rfl⟩
      | systemClassNulls _ _ => exact .inl ⟨_, rfl⟩
    · simp only [List.getElem?_cons_zero, Option.some.injEq] at ht
      subst ht
      cases hm with
      | «class» _ hl hc => exact ⟨_, hms.libs _ _ (hc.libs _ _ hl), .inr ⟨_, rfl⟩⟩
      | classNulls _ hl _ => exact ⟨_, hms.libs _ _ hl, .inl ⟨_, rfl⟩⟩
  | _, _, _, _, _, _, .cons hm hms, k + 1, slot, h => by
    have := members_typed hms (k := k) (slot := slot) (by simpa using h)
    simpa using this

/-- **C50** A member whose declared type is a system class is null or an object of that class without
library; one whose declared type is a class of a library is null or an object of that class of the
library with that id. -/
theorem C50_member_class {s : St} (hs : Reached s) {c : ClassHead} {ts : List MemberType} {b i : Bytes}
    (hb : IsClassHead c b) (hts : c.types = some ts) {v : Value} {r : Bytes}
    (h : Accepts s (b ++ i) c.id v r) (hi : NoRuns i) (hn : c.memberNames.Nodup) :
    ∃ (library : Option Str) (members : List (Str × Value)) (E : Env), v = .object c.name library members ∧
      ∀ (k : Nat) (n : Str) (u : Value), c.memberNames[k]? = some n → (n, u) ∈ members →
        (∀ name, ts[k]? = some (.systemClass name) → u = .null ∨ ∃ ms, u = .object name none ms) ∧
        (∀ name l, ts[k]? = some (.class name l) → ∃ lib, E.libs l = some lib ∧
          (u = .null ∨ ∃ ms, u = .object name (some lib) ms)) := by
  obtain ⟨library, values, slots, E1, i1, rfl, hvl, hsl, hm, hk⟩ := C39_aligned hs hb h hi hn
  refine ⟨library, _, E1, rfl, fun k n u hkn hmem => ?_⟩
  have hu : values[k]? = some u := by
    obtain ⟨j, hj⟩ := List.mem_iff_getElem?.mp hmem
    rw [List.getElem?_zip_eq_some] at hj
    have : j = k := by
      have h1 := hj.1
      rw [← hkn] at h1
      have hjl : j < c.memberNames.length := by
        rcases Nat.lt_or_ge j c.memberNames.length with h | h
        · exact h
        · rw [List.getElem?_eq_none h, hkn] at h1; cases h1
      exact (List.getElem?_inj hjl hn).mp h1
    rw [← this]; exact hj.2
  obtain ⟨slot, hslot, hsv⟩ := hk k u hu
  obtain ⟨g1, g2⟩ := members_typed hm hslot
  have htype : ∀ T, ts[k]? = some T → c.memberTypes[k]? = some (some T) := by
    intro T hT
    unfold ClassHead.memberTypes
    rw [hts]
    simp [hT]
  constructor
  · intro name hT
    rcases g1 name (htype _ hT) with ⟨n, rfl⟩ | ⟨ms, rfl⟩
    · cases hsv; exact .inl rfl
    · cases hsv; exact .inr ⟨ms, rfl⟩
  · intro name l hT
    obtain ⟨lib, hlib, ⟨n, rfl⟩ | ⟨ms, rfl⟩⟩ := g2 name l (htype _ hT)
    · cases hsv; exact ⟨lib, hlib, .inl rfl⟩
    · cases hsv; exact ⟨lib, hlib, .inr ⟨ms, rfl⟩⟩

/-- **C50** (with null runs) In every accepted class record with declared types, also with null runs and repeated names, what
stands for a member record (at its position, see `C39_positions`) whose declared type is a system class is null or an object
of that class without library; if the type is a class of a library, it is null or an object of that class of the library
with that id. -/
theorem C50_positions {s : St} (hs : Reached s) {c : ClassHead} {ts : List MemberType} {b i : Bytes}
    (hb : IsClassHead c b) (hts : c.types = some ts) {v : Value} {r : Bytes} (h : Accepts s (b ++ i) c.id v r) :
    ∃ (library : Option Str) (slots : List Slot) (values : List Value) (E : Env) (i1 : Bytes),
      v = .object c.name library (bindNames c.memberNames values) ∧ Members c.memberTypes (abs s) i slots E i1 ∧
      ∀ (k j : Nat) (slot : Slot), slots[k]? = some slot → j < slot.size →
        ∃ u, values[((slots.take k).map Slot.size).sum + j]? = some u ∧
          (∀ name, ts[k]? = some (.systemClass name) → u = .null ∨ ∃ ms, u = .object name none ms) ∧
          (∀ name l, ts[k]? = some (.class name l) → ∃ lib, E.libs l = some lib ∧
            (u = .null ∨ ∃ ms, u = .object name (some lib) ms)) := by
  obtain ⟨library, slots, values, E1, i1, rfl, hm, _, _, hk⟩ := C39_positions hs hb h
  refine ⟨library, slots, values, E1, i1, rfl, hm, fun k j slot hslot hj => ?_⟩
  obtain ⟨u, hu, hsv⟩ := hk k j slot hslot hj
  refine ⟨u, hu, ?_⟩
  obtain ⟨g1, g2⟩ := members_typed hm hslot
  have htype : ∀ T, ts[k]? = some T → c.memberTypes[k]? = some (some T) := by
    intro T hT
    unfold ClassHead.memberTypes
    rw [hts]
    simp [hT]
  constructor
  · intro name hT
    rcases g1 name (htype _ hT) with ⟨n, rfl⟩ | ⟨ms, rfl⟩
    · cases hsv; exact .inl rfl
    · cases hsv; exact .inr ⟨ms, rfl⟩
  · intro name l hT
    obtain ⟨lib, hlib, ⟨n, rfl⟩ | ⟨ms, rfl⟩⟩ := g2 name l (htype _ hT)
    · cases hsv; exact ⟨lib, hlib, .inl rfl⟩
    · cases hsv; exact ⟨lib, hlib, .inr ⟨ms, rfl⟩⟩

/-- Typed members, the first of which are fine, and then one whose parser fails for good. -/
theorem typedMembers_failure {L : Nat} {classes : SP (Nat × Object)} {referenceable : SP Nat}
    (hsem : RecSem L classes referenceable) {T : MemberType} {e : Error} (Ts1 Ts2 : List MemberType) :
    ∀ {s : St}, s.classes = [] → ∀ {i : Bytes}, i.length < L → ∀ {slots : List Slot} {E1 : Env} {i1 : Bytes},
    Members (Ts1.map some) (abs s) i slots E1 i1 →
    (∀ s1 : St, s1.classes = [] → abs s1 = E1 →
      ∃ s', memberReference classes (binaryType T) (typeInfo T) s1 i1 = (.failure e, s')) →
    ∃ s', membersWithTypeInfo classes
      (((Ts1 ++ T :: Ts2).map binaryType).zip ((Ts1 ++ T :: Ts2).map typeInfo)) s i = (.failure e, s') := by
  induction Ts1 with
  | nil =>
    intro s hs i hl slots E1 i1 hm hf
    cases hm
    obtain ⟨s', h'⟩ := hf s hs rfl
    refine ⟨s', ?_⟩
    simp only [List.nil_append, List.map_cons, List.zip_cons_cons, membersWithTypeInfo, h', Res.bind]
  | cons T1 Ts1 ih =>
    intro s hs i hl slots E1 i1 hm hf
    cases hm with
    | @cons _ _ _ _ slot E2 i2 _ _ _ h1 h2 =>
      have hmm := member_match hsem hs hl T1
      have hslot : Member (some T1) (abs s) i (slotOf (ofSlot slot)) E2 i2 := by
        cases slot <;> exact h1
      obtain ⟨s2, he, hE⟩ := hmm.2 (ofSlot slot) _ _ hslot
      obtain ⟨_, hs2, hl2⟩ := hmm.1 _ _ _ he
      subst hE
      obtain ⟨s', h'⟩ := ih hs2 (i := i2) (by omega) h2 hf
      refine ⟨s', ?_⟩
      simp only [List.cons_append, List.map_cons, List.zip_cons_cons, membersWithTypeInfo, he, Res.bind]
      have e : ∀ x : Res (List ValueOrRef), x = (.failure e, s') → x.map (ofSlot slot :: ·) = (.failure e, s') := by
        rintro _ rfl; rfl
      exact e _ h'

/-- A class record whose first members are fine, and then one whose parser fails for good. -/
theorem class_failure {root : Nat} {h pre b i : Bytes} {E E1 : Env} {c : ClassHead} {library : Option Str}
    {Ts1 Ts2 : List MemberType} {T : MemberType} {slots : List Slot} {i1 : Bytes} {e : Error}
    (hh : IsHeader root h) (hpre : Records Env.empty (pre ++ (b ++ i)) E (b ++ i)) (hb : IsClassHead c b)
    (hlib : c.HasLibrary E library) (hts : c.types = some (Ts1 ++ T :: Ts2))
    (hm : Members (Ts1.map some) E i slots E1 i1)
    (hf : ∀ L classes referenceable, RecSem L classes referenceable → i1.length < L →
      ∀ s1 : St, s1.classes = [] → abs s1 = E1 →
      ∃ s', memberReference classes (binaryType T) (typeInfo T) s1 i1 = (.failure e, s')) :
    deserialize (h ++ (pre ++ (b ++ i))) = .err e := by
  refine records_failure hh hpre fun s hs hE => ?_
  subst hE
  have hL : i.length < (b ++ i).length := by
    have := classHead_length hb
    simp only [List.length_append]; omega
  have hL1 : i1.length < (b ++ i).length := Nat.lt_of_le_of_lt hm.suffix.length_le hL
  obtain ⟨s', h'⟩ := typedMembers_failure (recSem (b ++ i).length) Ts1 Ts2 hs hL hm
    (hf _ _ _ (recSem (b ++ i).length) hL1)
  refine ⟨s', referenceable_class ?_⟩
  unfold classesBody
  rw [lib_none (by rw [classHead_head hb]; rcases tag_cases c with h | h | h | h <;> rw [h] <;> decide)]
  simp only [Res.bind, classHeader_ok hb, hs, AMap.get?, Option.isSome_none, Bool.false_eq_true, if_false]
  obtain ⟨id, name, names, types, lib⟩ := c
  subst hts
  cases lib with
  | none => simp only [classOf, classMembers, h', Res.map, Outcome.map]
  | some l =>
    obtain ⟨n, hn, rfl⟩ := hlib
    have hn : s.libs.get? l = some n := hn
    simp only [classOf, classMembers, hn, h', Res.map, Outcome.map]

/-- **C50** (violation) A member of a declared class, followed by an object of another class or of another
library, makes the message fail with UnexpectedClass. -/
theorem C50_unexpected {root : Nat} {h pre b i : Bytes} {E E1 E2 E3 : Env} {c : ClassHead} {library : Option Str}
    {Ts1 Ts2 : List MemberType} {T : MemberType} {slots : List Slot} {i1 i2 r : Bytes}
    {id : Nat} {name : Str} {lib : Option Str} {members : List (Str × Value)}
    (hh : IsHeader root h) (hpre : Records Env.empty (pre ++ (b ++ i)) E (b ++ i)) (hb : IsClassHead c b)
    (hlib : c.HasLibrary E library) (hts : c.types = some (Ts1 ++ T :: Ts2))
    (hm : Members (Ts1.map some) E i slots E1 i1)
    (hl : OptLib E1 i1 E2 i2) (hc : Spec.Class E2 i2 id name lib members E3 r)
    (hT : (∃ n, T = .systemClass n ∧ ¬ (name = n ∧ lib = none)) ∨
      (∃ n l ln, T = .class n l ∧ E2.libs l = some ln ∧ ¬ (name = n ∧ lib = some ln))) :
    deserialize (h ++ (pre ++ (b ++ i))) = .err ⟨r, .unexpectedClass⟩ := by
  refine class_failure hh hpre hb hlib hts hm fun L classes referenceable hsem hL s1 hs1 hE1 => ?_
  subst hE1
  have hlm := library_match hs1 i1
  obtain ⟨s2, he2, hE2⟩ := hlm.2 () _ _ hl
  obtain ⟨_, hs2, hl2⟩ := hlm.1 _ _ _ he2
  subst hE2
  obtain ⟨s3, he3, hE3⟩ := (hsem.cls s2 i2 hs2 (by omega)).2 (id, ⟨name, lib, members⟩) _ _ hc
  refine ⟨s3, ?_⟩
  have hexp : ∀ (n : Str) (ln : Option Str), ¬ (name = n ∧ lib = ln) →
      expectedClass classes n ln s2 i2 = (.failure ⟨r, .unexpectedClass⟩, s3) := by
    intro n ln hne
    have : name ≠ n ∨ lib ≠ ln := Decidable.not_and_iff_or_not.mp hne
    simp only [expectedClass, he3, if_pos this]
  unfold memberReference
  rw [he2]
  rcases hT with ⟨n, rfl, hne⟩ | ⟨n, l, ln, rfl, hlib2, hne⟩
  · exact hexp n none hne
  · have hlib2 : s2.libs.get? l = some ln := hlib2
    simp only [Res.bind, binaryType, typeInfo, hlib2]
    exact hexp n (some ln) hne

/-- **C25** (missing, member type) A member type that names an unknown library makes the message fail as
soon as the member is read. -/
theorem C25_missing_member {root : Nat} {h pre b i : Bytes} {E E1 E2 : Env} {c : ClassHead} {library : Option Str}
    {Ts1 Ts2 : List MemberType} {slots : List Slot} {i1 i2 : Bytes} {name : Str} {l : Nat}
    (hh : IsHeader root h) (hpre : Records Env.empty (pre ++ (b ++ i)) E (b ++ i)) (hb : IsClassHead c b)
    (hlib : c.HasLibrary E library) (hts : c.types = some (Ts1 ++ .class name l :: Ts2))
    (hm : Members (Ts1.map some) E i slots E1 i1) (hl : OptLib E1 i1 E2 i2) (hmiss : E2.libs l = none) :
    deserialize (h ++ (pre ++ (b ++ i))) = .err ⟨i2, .missingLibraryId⟩ := by
  refine class_failure hh hpre hb hlib hts hm fun L classes referenceable hsem hL s1 hs1 hE1 => ?_
  subst hE1
  obtain ⟨s2, he2, hE2⟩ := (library_match hs1 i1).2 () _ _ hl
  subst hE2
  have hmiss : s2.libs.get? l = none := hmiss
  refine ⟨s2, ?_⟩
  unfold memberReference
  simp only [he2, Res.bind, binaryType, typeInfo, hmiss]

/-! ## C30: primitive members -/

/-- The encodings of primitive values of these types, one after the other, none of which starts with the
byte 12. -/
inductive PlainPrimitives : List PrimitiveType → List Value → Bytes → Prop
  | nil : PlainPrimitives [] [] []
  | cons {t ts v vs b bs} : IsPrimitive t v b → b.head? ≠ some 12 → PlainPrimitives ts vs bs →
      PlainPrimitives (t :: ts) (v :: vs) (b ++ bs)

theorem member_primitive {t : PrimitiveType} {v : Value} {b i : Bytes} (hb : IsPrimitive t v b)
    (h12 : b.head? ≠ some 12) {E : Env} {slot : Slot} {E' : Env} {r : Bytes} :
    Member (some (.primitive t)) E (b ++ i) slot E' r ↔ slot = .value v ∧ E' = E ∧ r = i := by
  have hh : (b ++ i).head? ≠ some 12 := by
    have := prim_length hb
    cases b with
    | nil => simp at this
    | cons a b => simpa using h12
  constructor
  · intro h
    generalize hj : b ++ i = j at h hh
    cases h with
    | typedPrimitive hl hp =>
      obtain ⟨rfl, hr⟩ := optLib_none hh hl
      obtain ⟨h1, h2, h3⟩ := (untypedMember_exact t).unique ⟨v, rfl, hb⟩ ⟨_, rfl, hp⟩ (hj.trans hr.symm)
      cases h1
      exact ⟨rfl, rfl, h3.symm⟩
  · rintro ⟨rfl, rfl, rfl⟩
    exact .typedPrimitive (.none (.inl hh)) hb

theorem members_primitive {ts : List PrimitiveType} {vs : List Value} {b : Bytes} (hb : PlainPrimitives ts vs b)
    {i : Bytes} {E : Env} {slots : List Slot} {E' : Env} {r : Bytes} :
    Members (ts.map fun t => some (.primitive t)) E (b ++ i) slots E' r ↔
      slots = vs.map .value ∧ E' = E ∧ r = i := by
  induction hb generalizing E slots with
  | nil =>
    constructor
    · intro h
      cases h
      exact ⟨rfl, rfl, rfl⟩
    · rintro ⟨rfl, rfl, rfl⟩
      exact .nil
  | cons h1 h2 _ ih =>
    rw [List.append_assoc]
    constructor
    · intro h
      cases h with
      | cons g1 g2 =>
        obtain ⟨rfl, rfl, rfl⟩ := (member_primitive h1 h2).mp g1
        obtain ⟨rfl, rfl, rfl⟩ := ih.mp g2
        exact ⟨rfl, rfl, rfl⟩
    · rintro ⟨rfl, rfl, rfl⟩
      exact .cons ((member_primitive h1 h2).mpr ⟨rfl, rfl, rfl⟩) (ih.mpr ⟨rfl, rfl, rfl⟩)

theorem resolve_plain {vs ws : List Value} {E E' : Env} {i r : Bytes} :
    Resolve (vs.map .value) E i ws E' r ↔ ws = vs ∧ E' = E ∧ r = i := by
  induction vs generalizing ws with
  | nil =>
    constructor
    · intro h
      cases h
      exact ⟨rfl, rfl, rfl⟩
    · rintro ⟨rfl, rfl, rfl⟩
      exact .nil
  | cons v vs ih =>
    constructor
    · intro h
      cases h with
      | value h =>
        obtain ⟨rfl, rfl, rfl⟩ := ih.mp h
        exact ⟨rfl, rfl, rfl⟩
    · rintro ⟨rfl, rfl, rfl⟩
      exact .value (ih.mpr ⟨rfl, rfl, rfl⟩)

/-- **C30** (the part that holds) An object all of whose members have primitive types, the encoding of none
of which starts with the byte 12, is accepted with exactly these member values - in every reachable
state, whatever follows. -/
theorem C30_primitive_members {s : St} (hs : Reached s) {c : ClassHead} {ts : List PrimitiveType}
    {vs : List Value} {b bs i : Bytes} (hb : IsClassHead c b) (hn : c.memberNames.Nodup)
    (hts : c.types = some (ts.map .primitive)) (hvs : PlainPrimitives ts vs bs) {id : Nat} {v : Value} {r : Bytes} :
    Accepts s (b ++ (bs ++ i)) id v r ↔ id = c.id ∧ r = i ∧
      ∃ library, c.HasLibrary (abs s) library ∧ v = .object c.name library (c.memberNames.zip vs) := by
  have ht : c.memberTypes = ts.map fun t => some (.primitive t) := by
    unfold ClassHead.memberTypes
    rw [hts]
    simp [Function.comp]
  rw [accepts_iff hs.classes]
  constructor
  · rintro ⟨E, h⟩
    obtain ⟨rfl, library, slots, E2, i2, values, hlib, hm, hr, rfl⟩ := (record_class hb).mp h
    rw [ht] at hm
    obtain ⟨rfl, rfl, rfl⟩ := (members_primitive hvs).mp hm
    obtain ⟨rfl, rfl, rfl⟩ := resolve_plain.mp hr
    exact ⟨rfl, rfl, library, hlib, by rw [bindNames_nodup hn]⟩
  · rintro ⟨rfl, rfl, library, hlib, rfl⟩
    exact ⟨_, (record_class hb).mpr ⟨rfl, library, _, _, _, _, hlib,
      by rw [ht]; exact (members_primitive hvs).mpr ⟨rfl, rfl, rfl⟩,
      resolve_plain.mpr ⟨rfl, rfl, rfl⟩, by rw [bindNames_nodup hn]⟩⟩

/-! ## Concrete cases -/

open Tests

/-- The class `A { a: Int32, b: Int16 }` with id 1. -/
theorem twoInts : IsClassHead ⟨1, [65], [[97], [98]], some [.primitive .int32, .primitive .int16], none⟩
    [4, 1,0,0,0, 1,65, 2,0,0,0, 1,97, 1,98, 0,0, 8,7] :=
  ⟨[1,0,0,0], [1,65], [2,0,0,0], [1,97, 1,98], [0,0, 8,7], [], smallId 1 (by decide) (by decide),
    short_string 65 (by decide), ⟨by decide, rfl⟩,
    ⟨[1,97], [1,98], short_string 97 (by decide), ⟨[1,98], [], short_string 98 (by decide), rfl, rfl⟩, rfl⟩,
    ⟨rfl, [8,7], ⟨[8], [7], rfl, ⟨[7], [], rfl, rfl, rfl⟩, rfl⟩, rfl⟩, rfl, rfl⟩

/-- C30: the values -2 and 12 * 256. -/
example : deserialize (header 1 ++ ([4, 1,0,0,0, 1,65, 2,0,0,0, 1,97, 1,98, 0,0, 8,7] ++
    (([254,255,255,255] ++ ([0,12] ++ [])) ++ [11]))) =
    .ok (.value (.object [65] none [([97], .int32 (-2)), ([98], .int16 3072)])) :=
  deserialize_one ((C30_primitive_members .init (id := 1) (ts := [.int32, .int16])
    (vs := [.int32 (-2), .int16 3072]) twoInts (by decide) rfl
    (.cons ⟨⟨by decide, by decide⟩, by decide⟩ (by decide)
      (.cons ⟨⟨by decide, by decide⟩, by decide⟩ (by decide) .nil))).mpr
    ⟨rfl, rfl, none, rfl, rfl⟩)

/-- **C30** is false: the members 0x050C and 0 of an object are silently misread as 0x0206 and 0 from the
record after it: `0C 05 00 00 00 00` is taken for a library. -/
theorem C30_misread : ∃ members rest v, members = leInt 4 0x050C ++ leInt 2 0 ∧ rest = [6, 2,0,0,0, 0] ∧
    deserialize (header 1 ++ ([4, 1,0,0,0, 1,65, 2,0,0,0, 1,97, 1,98, 0,0, 8,7] ++ (members ++ (rest ++ [11])))) =
      .ok v ∧ v = .value (.object [65] none [([97], .int32 0x0206), ([98], .int16 0)]) :=
  ⟨_, _, _, rfl, rfl, by kernel_decide, rfl⟩

/-- **C30** is false: the member 12 makes the message fail. -/
theorem C30_rejected : deserialize (header 1 ++ ([4, 1,0,0,0, 1,65, 2,0,0,0, 1,97, 1,98, 0,0, 8,7] ++
    ((leInt 4 12 ++ leInt 2 0) ++ [11]))) = .err ⟨[0,0,0,0,0,11], .invalidLibraryId⟩ := by
  kernel_decide

/-- The class `A { a: B }` with id 1, where `B` is a system class. -/
theorem hasClass : IsClassHead ⟨1, [65], [[97]], some [.systemClass [66]], none⟩
    [4, 1,0,0,0, 1,65, 1,0,0,0, 1,97, 3, 1,66] :=
  ⟨[1,0,0,0], [1,65], [1,0,0,0], [1,97], [3, 1,66], [], smallId 1 (by decide) (by decide),
    short_string 65 (by decide), ⟨by decide, rfl⟩, ⟨[1,97], [], short_string 97 (by decide), rfl, rfl⟩,
    ⟨rfl, [1,66], ⟨[1,66], [], short_string 66 (by decide), rfl, rfl⟩, rfl⟩, rfl, rfl⟩

/-- C50: the member is an `A`. -/
example : deserialize (header 1 ++ ([] ++ ([4, 1,0,0,0, 1,65, 1,0,0,0, 1,97, 3, 1,66] ++
    ([2, 3,0,0,0, 1,65, 0,0,0,0] ++ [11])))) = .err ⟨[11], .unexpectedClass⟩ :=
  C50_unexpected (Ts1 := []) (Ts2 := []) (hl := .none (.inl (by decide))) (isHeader_header 1 (by decide)) .nil hasClass rfl rfl .nil
    (.mk (.none (.inl (by decide))) emptyClass rfl .nil .nil) (.inl ⟨_, rfl, by decide⟩)

/-- C39, C50: the member is a `B`. -/
example : ∃ v, Accepts St.init ([4, 1,0,0,0, 1,65, 1,0,0,0, 1,97, 3, 1,66] ++
    ([2, 3,0,0,0, 1,66, 0,0,0,0] ++ [11])) 1 v [11] ∧ v = .object [65] none [([97], .object [66] none [])] :=
  ⟨.object [65] none [([97], .object [66] none [])], accepts_of_run (by kernel_decide) (by kernel_decide), rfl⟩

end Nrbf
