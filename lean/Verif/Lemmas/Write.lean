import Verif.Spec.Write
import Verif.Spec.Message
import Verif.Lemmas.ExactString
import Verif.Props.Records

/-! # What the writer produces is in the grammar -/

set_option autoImplicit false

namespace Nrbf

open Spec

variable [Platform]

/-- The tables after the writer's declarations. -/
def wenv (c : Ctx) : Env := ⟨fun k => if k = 0 then none else c.libs[k - 1]?, fun _ => none⟩

omit [Platform] in
theorem wenv_drop (c : Ctx) (id : Nat) : (wenv c).drop id = wenv c := by
  unfold Env.drop wenv
  simp

omit [Platform] in
theorem wenv_next (c : Ctx) (n : Nat) : wenv { c with next := n } = wenv c := rfl

omit [Platform] in
/-- Induction over values. -/
theorem value_induction {P : Value → Prop} (hobj : ∀ c l ms, (∀ v ∈ ms.map Prod.snd, P v) → P (.object c l ms))
    (harr : ∀ vs, (∀ v ∈ vs, P v) → P (.array vs))
    (hleaf : ∀ v, (∀ c l ms, v ≠ .object c l ms) → (∀ vs, v ≠ .array vs) → P v) (v : Value) : P v := by
  have key : ∀ (n : Nat) (v : Value), sizeOf v ≤ n → P v := by
    intro n
    induction n with
    | zero => intro v hv; cases v <;> simp at hv
    | succ n ih =>
      intro v hv
      cases v with
      | object c l ms =>
        refine hobj c l ms fun u hu => ih u ?_
        simp only [List.mem_map] at hu
        obtain ⟨⟨k, u'⟩, hm, rfl⟩ := hu
        have := List.sizeOf_lt_of_mem hm
        simp at this hv ⊢
        omega
      | array vs =>
        refine harr vs fun u hu => ih u ?_
        have := List.sizeOf_lt_of_mem hu
        simp at this hv
        omega
      | _ => exact hleaf _ (by simp) (by simp)
  exact key _ v (Nat.le_refl _)

/-- A primitive value has an encoding, which is what `coded` gives. -/
theorem coded_primitive {v : Value} (h : Storable v) (h1 : hasId v = false) (h2 : v ≠ .null) :
    ∃ t b, IsPrimitive t v b ∧ coded v = primitiveTypeByte t :: b := by
  obtain ⟨hf, -, -, hs⟩ := h
  cases v with
  | object => simp [hasId] at h1
  | array => simp [hasId] at h1
  | string => simp [hasId] at h1
  | null => exact absurd rfl h2
  | boolean b => exact ⟨.boolean, _, rfl, rfl⟩
  | byte n => exact ⟨.byte, _, ⟨hf, rfl⟩, rfl⟩
  | char n => exact ⟨.char, _, ⟨hs, rfl⟩, rfl⟩
  | decimal d => exact ⟨.decimal, _, ⟨_, string_ok hs.1.2 hs.1.1, hs.2⟩, rfl⟩
  | double n => exact ⟨.double, _, ⟨hf, rfl⟩, rfl⟩
  | int16 n => exact ⟨.int16, _, ⟨hf, rfl⟩, rfl⟩
  | int32 n => exact ⟨.int32, _, ⟨hf, rfl⟩, rfl⟩
  | int64 n => exact ⟨.int64, _, ⟨hf, rfl⟩, rfl⟩
  | sbyte n => exact ⟨.sbyte, _, ⟨hf, rfl⟩, rfl⟩
  | single n => exact ⟨.single, _, ⟨hf, rfl⟩, rfl⟩
  | timeSpan n => exact ⟨.timeSpan, _, ⟨hf, rfl⟩, rfl⟩
  | dateTime n => exact ⟨.dateTime, _, ⟨hf, rfl⟩, rfl⟩
  | uint16 n => exact ⟨.uint16, _, ⟨hf, rfl⟩, rfl⟩
  | uint32 n => exact ⟨.uint32, _, ⟨hf, rfl⟩, rfl⟩
  | uint64 n => exact ⟨.uint64, _, ⟨hf, rfl⟩, rfl⟩

/-- The slot the writer means. -/
def slotFor (id : Nat) : Value → Slot
  | .object .. | .array _ => .ref id
  | .null => .nulls 1
  | v => .value v

/-- The slots the writer means, numbered from `id`. -/
def slotsFor : Nat → List Value → List Slot
  | _, [] => []
  | id, v :: vs => slotFor id v :: slotsFor (if hasId v then id + 1 else id) vs

theorem slot_primitive {v : Value} (h1 : hasId v = false) (h2 : v ≠ .null) (id : Nat) :
    slot id v = 8 :: coded v ∧ slotFor id v = .value v := by
  cases v <;> simp_all [hasId, slot, slotFor]

theorem slot_member {v : Value} (h : Storable v) {id : Nat} (h0 : 0 < id) (hid : hasId v = true → id < 2 ^ 31)
    (E : Env) (i : Bytes) :
    Member none E (slot id v ++ i) (slotFor id v) E i ∧ (slot id v ++ i).head? ≠ some 12 := by
  by_cases h1 : hasId v = true
  · replace hid := hid h1
    cases v with
    | object c l ms =>
      refine ⟨.reference (.none (.inl ?_)) ⟨_, ⟨h0, hid, rfl⟩, rfl⟩, ?_⟩ <;> simp [slot]
    | array vs =>
      refine ⟨.reference (.none (.inl ?_)) ⟨_, ⟨h0, hid, rfl⟩, rfl⟩, ?_⟩ <;> simp [slot]
    | string s =>
      have hs : StorableString s := h.2.2.1 s (by simp [ownStrings])
      refine ⟨.string (.none (.inl ?_)) ⟨_, _, ⟨h0, hid, rfl⟩, string_ok hs.2 hs.1, rfl⟩, ?_⟩ <;> simp [slot]
    | _ => simp [hasId] at h1
  · simp only [Bool.not_eq_true] at h1
    by_cases h2 : v = .null
    · subst h2
      refine ⟨.nulls (b := [10]) (.none (.inl ?_)) (.inl ⟨rfl, rfl⟩), ?_⟩ <;> simp [slot]
    · obtain ⟨e1, e2⟩ := slot_primitive h1 h2 id
      obtain ⟨t, b, hp, hc⟩ := coded_primitive h h1 h2
      rw [e1, e2]
      refine ⟨.primitive (.none (.inl ?_)) ⟨t, b, hp, by rw [hc]⟩, ?_⟩ <;> simp

theorem slotFor_size (id : Nat) (v : Value) : (slotFor id v).size = 1 := by
  cases v <;> rfl

theorem countIds_cons (v : Value) (vs : List Value) (id : Nat) :
    (if hasId v then id + 1 else id) + countIds vs = id + countIds (v :: vs) := by
  rw [countIds]
  cases hasId v <;> simp <;> omega

theorem slots_fill : ∀ (vs : List Value) (id : Nat) (E : Env) (i : Bytes), (∀ v ∈ vs, Storable v) → 0 < id →
    id + countIds vs ≤ 2 ^ 31 → Fill none vs.length E (slots id vs ++ i) (slotsFor id vs) E i
  | [], _, _, _, _, _, _ => .done
  | v :: vs, id, E, i, h, h0, h1 => by
    have hc := countIds_cons v vs id
    have := (slot_member (h v (by simp)) h0 (fun hv => by simp only [countIds, hv, if_true] at h1; omega) E
      (slots (if hasId v then id + 1 else id) vs ++ i)).1
    rw [slots, slotsFor, List.append_assoc]
    refine .step (by simp) this ?_
    rw [slotFor_size]
    exact slots_fill vs _ E i (fun u hu => h u (by simp [hu])) (by split <;> omega) (by omega)

theorem slots_members : ∀ (vs : List Value) (id : Nat) (E : Env) (i : Bytes), (∀ v ∈ vs, Storable v) → 0 < id →
    id + countIds vs ≤ 2 ^ 31 →
    Members (List.replicate vs.length (some .object)) E (slots id vs ++ i) (slotsFor id vs) E i
  | [], _, _, _, _, _, _ => .nil
  | v :: vs, id, E, i, h, h0, h1 => by
    have hc := countIds_cons v vs id
    have := slot_member (h v (by simp)) h0 (fun hv => by simp only [countIds, hv, if_true] at h1; omega) E
      (slots (if hasId v then id + 1 else id) vs ++ i)
    rw [slots, slotsFor, List.append_assoc]
    refine .cons (.typedObject (.none (.inl this.2)) this.1) ?_
    exact slots_members vs _ E i (fun u hu => h u (by simp [hu])) (by split <;> omega) (by omega)

/-! ## The records of members are the records of their values -/

theorem memberRecords_eq : ∀ (ms : List (Str × Value)) (id : Nat) (c : Ctx),
    memberRecords id ms c = itemRecords id (ms.map Prod.snd) c
  | [], _, _ => by simp [memberRecords, itemRecords]
  | (k, v) :: ms, id, c => by
    simp only [memberRecords, List.map_cons, itemRecords, memberRecords_eq ms]

theorem memberEntities_eq : ∀ (ms : List (Str × Value)), memberEntities ms = itemEntities (ms.map Prod.snd)
  | [] => rfl
  | (k, v) :: ms => by simp only [memberEntities, List.map_cons, itemEntities, memberEntities_eq ms]

theorem hasId_entities {v : Value} (h : hasId v = true) : 0 < entities v := by
  cases v <;> simp_all [hasId, entities] <;> omega

theorem countIds_le : ∀ vs : List Value, countIds vs ≤ itemEntities vs
  | [] => by simp [countIds]
  | v :: vs => by
    have := countIds_le vs
    simp only [countIds, itemEntities]
    split
    · have := hasId_entities ‹_›; omega
    · omega

/-- The record of a value is a record of the grammar with that value. -/
def RecordOk (v : Value) : Prop :=
  ∀ (id : Nat) (c : Ctx) (i : Bytes), (∀ u, SubValue u v → Storable u) → hasId v = true → 0 < id → id < 2 ^ 31 →
    0 < c.next → c.next + entities v ≤ 2 ^ 31 + 1 → c.libs.length + entities v < 2 ^ 31 →
    Record (wenv c) ((record id v c).1 ++ i) id v (wenv (record id v c).2) i ∧
    (record id v c).2.next + 1 = c.next + entities v ∧
    (record id v c).2.libs.length ≤ c.libs.length + entities v

theorem record_leaf {v : Value} (h : hasId v = false) (id : Nat) (c : Ctx) : record id v c = ([], c) := by
  cases v <;> simp_all [hasId, record]

/-- The records of a list of values resolve the slots. -/
theorem items_resolve : ∀ (vs : List Value) (id : Nat) (c : Ctx) (i : Bytes), (∀ v ∈ vs, RecordOk v) →
    (∀ v ∈ vs, ∀ u, SubValue u v → Storable u) → 0 < id → id + countIds vs ≤ 2 ^ 31 → 0 < c.next →
    c.next + itemEntities vs ≤ 2 ^ 31 + countIds vs → c.libs.length + itemEntities vs < 2 ^ 31 →
    Resolve (slotsFor id vs) (wenv c) ((itemRecords id vs c).1 ++ i) vs (wenv (itemRecords id vs c).2) i ∧
    (itemRecords id vs c).2.next + countIds vs = c.next + itemEntities vs ∧
    (itemRecords id vs c).2.libs.length ≤ c.libs.length + itemEntities vs
  | [], id, c, i, _, _, _, _, _, _, _ => by
    simp only [slotsFor, itemRecords, countIds, itemEntities, List.nil_append]
    exact ⟨.nil, trivial, by omega⟩
  | v :: vs, id, c, i, hr, hs, h0, h1, h2, h3, h4 => by
    have hle := countIds_le vs
    have hcount := countIds_cons v vs id
    have ih := fun c' => items_resolve vs (if hasId v then id + 1 else id) c' i (fun u hu => hr u (by simp [hu]))
      (fun u hu => hs u (by simp [hu])) (by split <;> omega) (by omega)
    simp only [itemRecords, slotsFor]
    by_cases hid : hasId v = true
    · simp only [hid, if_true, countIds, itemEntities] at h1 h3 h4 ih ⊢
      by_cases hstr : ∃ s, v = .string s
      · obtain ⟨s, rfl⟩ := hstr
        simp only [isString, if_true, List.nil_append, entities] at h3 h4 ⊢
        obtain ⟨g1, g2, g3⟩ := ih c h2 (by omega) (by omega)
        exact ⟨.value g1, by omega, by omega⟩
      · have hv : isString v = false := by
          clear hr hs hcount ih
          cases v with
          | string s => exact absurd ⟨s, rfl⟩ hstr
          | _ => rfl
        have hslot : slotFor id v = .ref id := by
          clear hr hs hcount ih hv
          cases v with
          | string s => exact absurd ⟨s, rfl⟩ hstr
          | object | array => rfl
          | _ => simp [hasId] at hid
        simp only [hv, Bool.false_eq_true, if_false, hslot]
        have hpos := hasId_entities hid
        obtain ⟨r1, r2, r3⟩ := hr v (by simp) id c ((itemRecords (id + 1) vs (record id v c).2).1 ++ i)
          (hs v (by simp)) hid h0 (by omega) h2 (by omega) (by omega)
        obtain ⟨g1, g2, g3⟩ := ih (record id v c).2 (by omega) (by omega) (by omega)
        refine ⟨?_, by omega, by omega⟩
        rw [List.append_assoc]
        exact .next rfl r1 (by rw [wenv_drop]; exact g1)
    · simp only [Bool.not_eq_true] at hid
      have hz : entities v = 0 := by cases v <;> simp_all [hasId, entities]
      have hv : isString v = false := by
        clear hr hs hcount ih hz
        cases v with
        | string s => simp [hasId] at hid
        | _ => rfl
      simp only [hid, hv, Bool.false_eq_true, if_false, countIds, itemEntities, hz, record_leaf hid, Nat.zero_add,
        List.nil_append] at h1 h3 h4 ih ⊢
      obtain ⟨g1, g2, g3⟩ := ih c h2 h3 h4
      refine ⟨?_, g2, g3⟩
      by_cases hnull : v = .null
      · subst hnull
        exact .nulls (n := 1) g1
      · rw [(slot_primitive hid hnull id).2]
        exact .value g1

/-! ## Libraries -/

omit [Platform] in
theorem isSeq_strings : ∀ (ns : List Str), (∀ s ∈ ns, StorableString s) → IsSeq IsString ns (ns.flatMap string)
  | [], _ => rfl
  | n :: ns, h => ⟨_, _, string_ok (h n (by simp)).2 (h n (by simp)).1,
      isSeq_strings ns fun s hs => h s (by simp [hs]), by simp⟩

omit [Platform] in
theorem isSeq_object : ∀ n, IsSeq IsTypeInfo (List.replicate n .object) []
  | 0 => rfl
  | n + 1 => ⟨[], [], rfl, isSeq_object n, rfl⟩

omit [Platform] in
/-- The head of a class record as the writer produces it. -/
theorem classRecord_head {id : Nat} {cls : Str} {lib : Option Nat} {names : List Str} (h0 : 0 < id)
    (h1 : id < 2 ^ 31) (hc : StorableString cls) (hl : ∀ l, lib = some l → 0 < l ∧ l < 2 ^ 31)
    (hn : ∀ s ∈ names, StorableString s) (hlen : names.length < 2 ^ 31) :
    IsClassHead ⟨id, cls, names, some (List.replicate names.length .object), lib⟩ (classRecord id cls lib names) := by
  refine ⟨_, _, _, _, names.map (fun _ => 2), lib.elim [] (le 4), ⟨h0, h1, rfl⟩, string_ok hc.2 hc.1, ⟨hlen, rfl⟩,
    isSeq_strings names hn, ⟨by simp, [], isSeq_object _, ?_⟩, ?_, ?_⟩
  · simp [memberTypeByte, List.map_const']
  · cases lib with
    | none => rfl
    | some l => exact ⟨(hl l rfl).1, (hl l rfl).2, rfl⟩
  · unfold classRecord ClassHead.tag
    cases lib <;> rfl

omit [Platform] in
theorem idxOf_getElem {l : Str} {ls : List Str} (h : l ∈ ls) : ls[ls.idxOf l]? = some l := by
  rw [List.getElem?_eq_getElem (List.idxOf_lt_length_of_mem h), List.getElem_idxOf]

omit [Platform] in
/-- Declaring a library. -/
theorem declare_ok (library : Option Str) (c : Ctx) (hl : ∀ l, library = some l → StorableString l)
    (hb : c.libs.length + 1 < 2 ^ 31) (b i : Bytes) (hhead : b.head? ≠ some 12) (hne : b ≠ []) :
    OptLib (wenv c) ((declare library c).1 ++ (b ++ i)) (wenv (declare library c).2.2) (b ++ i) ∧
    (∀ l, (declare library c).2.1 = some l → 0 < l ∧ l < 2 ^ 31) ∧
    (match (declare library c).2.1 with
      | none => library = none
      | some l => ∃ name, (wenv (declare library c).2.2).libs l = some name ∧ library = some name) ∧
    (declare library c).2.2.next = c.next ∧ (declare library c).2.2.libs.length ≤ c.libs.length + 1 := by
  have hno : NoLibrary (b ++ i) := by
    refine .inl ?_
    cases b with
    | nil => exact absurd rfl hne
    | cons x xs => simpa using hhead
  cases library with
  | none =>
    simp only [declare, List.nil_append]
    exact ⟨.none hno, (by simp), trivial, trivial, by omega⟩
  | some l =>
    simp only [declare]
    by_cases hmem : l ∈ c.libs
    · have hlt := List.idxOf_lt_length_of_mem hmem
      simp only [hmem, if_true, List.nil_append]
      refine ⟨.none hno, ?_, ⟨l, ?_, rfl⟩, trivial, by omega⟩
      · intro k hk
        simp only [Option.some.injEq] at hk
        omega
      · simp only [wenv, Nat.add_sub_cancel]
        rw [if_neg (by omega)]
        exact idxOf_getElem hmem
    · simp only [hmem, if_false]
      have hs := hl l rfl
      refine ⟨?_, ?_, ⟨l, ?_, rfl⟩, trivial, by simp⟩
      · have := OptLib.some (E := wenv c) (id := c.libs.length + 1) (name := l)
          (b := 12 :: le 4 (c.libs.length + 1) ++ string l) (i := b ++ i)
          ⟨_, _, ⟨by omega, hb, rfl⟩, string_ok hs.2 hs.1, rfl⟩ (by simp [wenv])
        have e : (wenv c).addLib (c.libs.length + 1) l = wenv { c with libs := c.libs ++ [l] } := by
          unfold Env.addLib wenv
          simp only [Env.mk.injEq, and_true]
          funext k
          by_cases hk : k = c.libs.length + 1
          · subst hk
            simp
          · by_cases h0 : k = 0
            · simp [h0]
            · simp only [hk, h0, if_false]
              by_cases hlt : k - 1 < c.libs.length
              · rw [List.getElem?_append_left hlt]
              · rw [List.getElem?_eq_none (by omega), List.getElem?_eq_none (by simp; omega)]
        rw [e] at this
        exact this
      · intro k hk
        simp only [Option.some.injEq] at hk
        omega
      · simp [wenv]

/-- Every value that has an id is written as a record of the grammar. -/
theorem record_ok (v : Value) : RecordOk v := by
  induction v using value_induction with
  | hobj cls library ms ih =>
    intro id c i hs _ h0 h1 h2 h3 h4
    have hown : Storable (.object cls library ms) := hs _ (.refl _)
    obtain ⟨-, hnodup, hstr, hlen⟩ := hown
    have hent : entities (.object cls library ms) = 1 + itemEntities (ms.map Prod.snd) := by
      rw [entities, memberEntities_eq]
    rw [hent] at h3 h4 ⊢
    have hcls : StorableString cls := hstr cls (by simp [ownStrings])
    have hnames : ∀ s ∈ ms.map Prod.fst, StorableString s := fun s hm => hstr s (by simp [ownStrings] at hm ⊢; exact .inr (.inr hm))
    have hle := countIds_le (ms.map Prod.snd)
    simp only [record, memberRecords_eq]
    generalize hb : classRecord id cls (declare library c).2.1 (ms.map Prod.fst) = b
    have hbh : b.head? ≠ some 12 ∧ b ≠ [] := by
      subst hb
      unfold classRecord
      constructor
      · cases (declare library c).2.1 <;> simp
      · simp
    generalize hX : itemRecords (declare library c).2.2.next (ms.map Prod.snd)
      { (declare library c).2.2 with next := (declare library c).2.2.next + countIds (ms.map Prod.snd) } = X
    obtain ⟨d1, d2, d3, d4, d5⟩ := declare_ok library c
      (fun l hl => hstr l (by simp [ownStrings, hl])) (by omega) b
      (slots (declare library c).2.2.next (ms.map Prod.snd) ++ (X.1 ++ i)) hbh.1 hbh.2
    have hsub : ∀ v ∈ ms.map Prod.snd, ∀ u, SubValue u v → Storable u := by
      intro v hv u hu
      simp only [List.mem_map] at hv
      obtain ⟨⟨k, v'⟩, hm, rfl⟩ := hv
      exact hs u (.member hm hu)
    obtain ⟨g1, g2, g3⟩ := items_resolve (ms.map Prod.snd) (declare library c).2.2.next
      { (declare library c).2.2 with next := (declare library c).2.2.next + countIds (ms.map Prod.snd) } i ih hsub
      (by omega) (by omega) (by simp only; omega) (by simp only; omega) (by simp only; omega)
    rw [hX] at g1 g2 g3
    simp only at g2 g3
    refine ⟨?_, by omega, by omega⟩
    have hhead := classRecord_head (lib := (declare library c).2.1) h0 h1 hcls d2 hnames (by simpa using hlen)
    rw [hb] at hhead
    have hm := slots_members (ms.map Prod.snd) (declare library c).2.2.next (wenv (declare library c).2.2) (X.1 ++ i)
      (fun v hv => hsub v hv v (.refl v)) (by omega) (by omega)
    have hC : Spec.Class (wenv c) ((declare library c).1 ++ (b ++ (slots (declare library c).2.2.next (ms.map Prod.snd) ++ (X.1 ++ i))))
        id cls library _ (wenv X.2) i :=
      Spec.Class.mk (h := ⟨id, cls, ms.map Prod.fst, some (List.replicate (ms.map Prod.fst).length .object),
        (declare library c).2.1⟩) (library := library) d1 hhead d3 (by simpa [ClassHead.memberTypes] using hm) (by rw [wenv_next] at g1; exact g1)
    rw [bindNames_nodup (by exact hnodup)] at hC
    have hz : (ms.map Prod.fst).zip (ms.map Prod.snd) = ms := by
      simp [List.zip_map']
    simp only [hz] at hC
    simpa [List.append_assoc] using Spec.Record.object hC
  | harr vs ih =>
    intro id c i hs _ h0 h1 h2 h3 h4
    have hown : Storable (.array vs) := hs _ (.refl _)
    have hlen : vs.length < 2 ^ 31 := hown.2.2.2
    rw [entities] at h3 h4 ⊢
    have hle := countIds_le vs
    have hsub : ∀ v ∈ vs, ∀ u, SubValue u v → Storable u := fun v hv u hu => hs u (.item hv hu)
    simp only [record]
    generalize hX : itemRecords c.next vs { c with next := c.next + countIds vs } = X
    obtain ⟨g1, g2, g3⟩ := items_resolve vs c.next { c with next := c.next + countIds vs } i ih hsub
      h2 (by omega) (by simp only; omega) (by simp only; omega) (by simp only; omega)
    rw [hX] at g1 g2 g3
    simp only at g2 g3
    refine ⟨?_, by omega, by omega⟩
    have hf := slots_fill vs c.next (wenv c) (X.1 ++ i) (fun v hv => hsub v hv v (.refl v)) h2 (by omega)
    have := Spec.Record.objectArray (b := 16 :: le 4 id ++ le 4 vs.length) ⟨_, _, ⟨h0, h1, rfl⟩, ⟨hlen, rfl⟩, rfl⟩ hf g1
    simpa [List.append_assoc] using this
  | hleaf v h1 h2 =>
    intro id c i hs hid h0 h1' h2' h3 h4
    cases v with
    | object c l ms => exact absurd rfl (h1 c l ms)
    | array vs => exact absurd rfl (h2 vs)
    | string s =>
      have hss : StorableString s := (hs _ (.refl _)).2.2.1 s (by simp [ownStrings])
      simp only [record]
      rw [entities]
      exact ⟨.string ⟨_, _, ⟨h0, h1', rfl⟩, string_ok hss.2 hss.1, rfl⟩, by omega, by omega⟩
    | _ => simp [hasId] at hid

end Nrbf
