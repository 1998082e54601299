import Verif.Lemmas.Write
import Verif.Props.Messages
import Verif.Props.Safety
import Verif.Lemmas.Places

/-! # C57: every message can be written, and is read back -/

set_option autoImplicit false

namespace Nrbf

open Spec

variable [Platform]

theorem headerRecord_ok {root : Nat} (h : root < 2 ^ 31) : IsHeader root (headerRecord root) :=
  ⟨_, _, ⟨h, rfl⟩, by simp, rfl⟩

theorem wenv_start (n : Nat) : wenv ⟨n, []⟩ = Env.empty := by
  unfold wenv Env.empty
  simp

/-- A coded value. -/
theorem coded_ok {v : Value} (h : Storable v) (hi : isInline v = true) : IsCodedValue v (coded v) := by
  by_cases h1 : hasId v = true
  · cases v with
    | string s =>
      have hs : StorableString s := h.2.2.1 s (by simp [ownStrings])
      exact .inr (.inr ⟨s, rfl, _, string_ok hs.2 hs.1, rfl⟩)
    | object => simp [isInline] at hi
    | array => simp [isInline] at hi
    | _ => simp [hasId] at h1
  · by_cases h2 : v = .null
    · subst h2
      exact .inr (.inl ⟨rfl, rfl⟩)
    · obtain ⟨t, b, hp, hc⟩ := coded_primitive h (by simpa using h1) h2
      exact .inl ⟨t, b, hp, hc⟩

theorem coded_seq : ∀ (vs : List Value), (∀ v ∈ vs, Storable v) → vs.all isInline = true →
    IsSeq IsCodedValue vs (vs.flatMap coded)
  | [], _, _ => rfl
  | v :: vs, h, hi => by
    simp only [List.all_cons, Bool.and_eq_true] at hi
    exact ⟨_, _, coded_ok (h v (by simp)) hi.1, coded_seq vs (fun u hu => h u (by simp [hu])) hi.2, by simp⟩

theorem context_ok {o : Option Str} (h : ∀ s, o = some s → StorableString s) (f : BitVec 32)
    (hf : f.getLsbD 5 = o.isSome) : IsOptional (f.getLsbD 5) IsCodedString o (contextBytes o) := by
  cases o with
  | none => exact .inr ⟨by simpa using hf, rfl, rfl⟩
  | some s => exact .inl ⟨by simpa using hf, s, rfl, _, string_ok (h s rfl).2 (h s rfl).1, rfl⟩

/-- Inline arguments, if there are any. -/
def inlineArgs : Option (List Value) → Option (List Value)
  | none => none
  | some vs => if vs.all isInline then some vs else none

theorem args_ok {o : Option (List Value)} (h : ∀ vs, o = some vs → vs.length < 2 ^ 31 ∧ ∀ v ∈ vs, Storable v)
    (f : BitVec 32) (hf : f.getLsbD 1 = (inlineArgs o).isSome) :
    IsOptional (f.getLsbD 1) IsCodedValues (inlineArgs o) (argsBytes o) := by
  cases o with
  | none => exact .inr ⟨by simpa [inlineArgs] using hf, rfl, rfl⟩
  | some vs =>
    by_cases hi : vs.all isInline = true
    · simp only [inlineArgs, argsBytes, hi, if_true] at hf ⊢
      exact .inl ⟨by simpa using hf, vs, rfl, _, _, ⟨(h vs rfl).1, rfl⟩, coded_seq vs (h vs rfl).2 hi, rfl⟩
    · simp only [inlineArgs, argsBytes, hi] at hf ⊢
      exact .inr ⟨by simpa using hf, rfl, rfl⟩

/-- The call array, if there is one. -/
theorem callArray_ok {o : Option (List Value)}
    (h : ∀ vs, o = some vs → vs.length < 2 ^ 31 ∧ (∀ v ∈ vs, ∀ u, SubValue u v → Storable u) ∧
      1 + itemEntities vs < 2 ^ 31) :
    ∃ callArray E, CallArray (methodRoot o) Env.empty (callArrayBytes o ++ [11]) callArray E [11] ∧
      (∀ f : BitVec 32, f.getLsbD 2 = (argsFlag o).getLsbD 2 → f.getLsbD 3 = false →
        ArgsFrom f callArray (inlineArgs o) o) := by
  cases o with
  | none => exact ⟨none, Env.empty, .none (by simp [callArrayBytes]) (by simp [callArrayBytes]),
      fun f h2 h3 => .inr (.inr ⟨by simpa [argsFlag] using h2, h3, rfl⟩)⟩
  | some vs =>
    by_cases hi : vs.all isInline = true
    · simp only [methodRoot, callArrayBytes, hi, if_true, argsFlag, inlineArgs]
      exact ⟨none, Env.empty, .none (by simp) (by simp), fun f h2 h3 => .inr (.inr ⟨by simpa using h2, h3, rfl⟩)⟩
    · simp only [methodRoot, callArrayBytes, hi, argsFlag, inlineArgs]
      obtain ⟨hl, hs, hn⟩ := h vs rfl
      have hle := countIds_le vs
      obtain ⟨g1, -, -⟩ := items_resolve vs 2 ⟨2 + countIds vs, []⟩ [11] (fun v _ => record_ok v) hs (by omega)
        (by omega) (by simp only; omega) (by simp only; omega) (by simp only [List.length_nil]; omega)
      have hf := slots_fill vs 2 (wenv ⟨2, []⟩) ((itemRecords 2 vs ⟨2 + countIds vs, []⟩).1 ++ [11])
        (fun v hv => hs v hv v (.refl v)) (by omega) (by omega)
      refine ⟨some vs, wenv (itemRecords 2 vs ⟨2 + countIds vs, []⟩).2, ?_, fun f h2 h3 => .inl ⟨by simpa using h2, vs, rfl, rfl⟩⟩
      rw [← wenv_start 2]
      have := CallArray.some (root := 1) (b := 16 :: le 4 1 ++ le 4 vs.length) (.none (.inl (by simp)))
        ⟨_, _, ⟨by omega, by omega, rfl⟩, ⟨hl, rfl⟩, rfl⟩ hf g1
      simpa [record, List.append_assoc] using this

/-- **C57** Every message that can be written is read back: whatever values with whatever objects,
arrays and strings nested to any depth, calls and returns with any arguments. -/
theorem C57_write (m : RemotingMessage) (h : Writable m) : deserialize (write m) = .ok m := by
  obtain ⟨hp, hv, hs, hl, hn⟩ := h
  refine C31_complete ?_
  cases m with
  | value v =>
    simp only [topValues, itemEntities] at hn
    rcases hp with hid | rfl
    · obtain ⟨r, -, -⟩ := record_ok v 1 ⟨2, []⟩ [11] (fun u hu => hv u ⟨v, by simp [topValues], hu⟩) hid (by omega)
        (by omega) (by simp) (by simp only; omega) (by simp only [List.length_nil]; omega)
      have e : write (.value v) = headerRecord 1 ++ ((record 1 v ⟨2, []⟩).1 ++ [11]) := by
        rw [← List.append_assoc]
        cases v <;> first | rfl | simp [hasId] at hid
      rw [e]
      rw [wenv_start] at r
      exact .mk (headerRecord_ok (by omega)) (.cons r .nil) (.value (.inr ⟨by omega, by simp [Env.add]⟩))
    · exact .mk (headerRecord_ok (by omega)) .nil (.value (.inl ⟨rfl, rfl⟩))
  | methodCall c =>
    obtain ⟨name, type, context, args⟩ := c
    have ha : ∀ vs, args = some vs → vs.length < 2 ^ 31 ∧ (∀ v ∈ vs, ∀ u, SubValue u v → Storable u) ∧
        1 + itemEntities vs < 2 ^ 31 := by
      rintro vs rfl
      exact ⟨hl, fun v hm u hu => hv u ⟨v, hm, hu⟩, hn⟩
    obtain ⟨callArray, E, h1, h2⟩ := callArray_ok ha
    have hname : StorableString name := hs name (by simp [topStrings])
    have htype : StorableString type := hs type (by simp [topStrings])
    generalize hf : argsFlag args ||| contextFlag context = f
    have hbits : FlagsOk f ∧ f.getLsbD 5 = context.isSome ∧ f.getLsbD 1 = (inlineArgs args).isSome ∧
        f.getLsbD 2 = (argsFlag args).getLsbD 2 ∧ f.getLsbD 3 = false := by
      subst hf
      rw [← flags_check]
      cases args with
      | none => cases context <;> simp only [argsFlag, inlineArgs, contextFlag, Option.isSome] <;> decide
      | some vs =>
        cases hi : vs.all isInline <;> cases context <;>
          simp only [argsFlag, inlineArgs, contextFlag, Option.isSome, hi, if_true, Bool.false_eq_true, if_false] <;> decide
    obtain ⟨b1, b2, b3, b4, b5⟩ := hbits
    have hb : IsMethodCall f name type context (inlineArgs args) _ :=
      ⟨_, _, _, _, _, rfl, ⟨_, string_ok hname.2 hname.1, rfl⟩, ⟨_, string_ok htype.2 htype.1, rfl⟩,
        context_ok (fun s e => hs s (by simp [topStrings, e])) f b2,
        args_ok (fun vs e => ⟨(ha vs e).1, fun v hm => (ha vs e).2.1 v hm v (.refl v)⟩) f b3, rfl⟩
    have := MessageThen.mk (headerRecord_ok (root := methodRoot args) (by unfold methodRoot; split <;> (try split) <;> omega)) .nil
      (Tail.method (.call b1 hb h1 (h2 f b4 b5)) .nil)
    simpa [write, hf, methodMessage, Message, List.append_assoc] using this
  | methodReturn r =>
    obtain ⟨value, context, args⟩ := r
    have ha : ∀ vs, args = some vs → vs.length < 2 ^ 31 ∧ (∀ v ∈ vs, ∀ u, SubValue u v → Storable u) ∧
        1 + itemEntities vs < 2 ^ 31 := by
      rintro vs rfl
      simp only [topValues, Option.getD_some, List.length_append] at hl
      refine ⟨by omega, fun v hm u hu => hv u ⟨v, by simp [topValues, hm], hu⟩, ?_⟩
      have : ∀ l l' : List Value, itemEntities (l ++ l') = itemEntities l + itemEntities l' := by
        intro l l'
        induction l with
        | nil => simp [itemEntities]
        | cons a l ih => simp only [List.cons_append, itemEntities, ih]; omega
      simp only [topValues, Option.getD_some, this] at hn
      omega
    obtain ⟨callArray, E, h1, h2⟩ := callArray_ok ha
    generalize hf : argsFlag args ||| contextFlag context ||| returnFlag value = f
    have hbits : FlagsOk f ∧ f.getLsbD 5 = context.isSome ∧ f.getLsbD 1 = (inlineArgs args).isSome ∧
        f.getLsbD 2 = (argsFlag args).getLsbD 2 ∧ f.getLsbD 3 = false ∧ f.getLsbD 11 = value.isSome := by
      subst hf
      rw [← flags_check]
      cases args with
      | none =>
        cases context <;> cases value <;>
          simp only [argsFlag, inlineArgs, contextFlag, returnFlag, Option.isSome] <;> decide
      | some vs =>
        cases hi : vs.all isInline <;> cases context <;> cases value <;>
          simp only [argsFlag, inlineArgs, contextFlag, returnFlag, Option.isSome, hi, if_true, Bool.false_eq_true, if_false] <;> decide
    obtain ⟨b1, b2, b3, b4, b5, b6⟩ := hbits
    have hval : IsOptional (f.getLsbD 11) IsCodedValue value (value.elim [] coded) := by
      cases value with
      | none => exact .inr ⟨by simpa using b6, rfl, rfl⟩
      | some v => exact .inl ⟨by simpa using b6, v, rfl, coded_ok (hv v ⟨v, by simp [topValues], .refl v⟩) (hp v rfl)⟩
    have hb : IsMethodReturn f value context (inlineArgs args) _ :=
      ⟨_, _, _, _, rfl, hval,
        context_ok (fun s e => hs s (by simp [topStrings, e])) f b2,
        args_ok (fun vs e => ⟨(ha vs e).1, fun v hm => (ha vs e).2.1 v hm v (.refl v)⟩) f b3, rfl⟩
    have := MessageThen.mk (headerRecord_ok (root := methodRoot args) (by unfold methodRoot; split <;> (try split) <;> omega)) .nil
      (Tail.method (.return b1 hb h1 (h2 f b4 b5)) .nil)
    simpa [write, hf, methodMessage, Message, List.append_assoc] using this

/-- **C57** What a message can be.  Whatever is accepted, its value is null, an object, an array or a
string, and a return value is not an object or array; numbers fit their types, characters are Latin-1,
member names are distinct, strings are valid UTF-8. -/
theorem C57_accepted {w : Bytes} {m : RemotingMessage} (h : deserialize w = .ok m) :
    PlacesOk m ∧ (∀ s, StringIn s m → IsUtf8 s ∧ s.length ≤ w.length) ∧
    ∀ u, ValueIn u m → FitsType u ∧ NamesDistinct u ∧ Latin1 u := by
  refine ⟨?_, fun s hs => ⟨C05_strings_utf8 h hs, ?_⟩, fun u hu => by
    obtain ⟨-, h1, h2, h3, -⟩ := (message_wf h).2 u hu
    exact ⟨h1, h2, h3⟩⟩
  · cases m with
    | methodCall c => trivial
    | methodReturn r =>
      intro v hv
      obtain ⟨h1, h2⟩ := return_place h hv
      cases v with
      | object c l ms => exact absurd rfl (h1 c l ms)
      | array vs => exact absurd rfl (h2 vs)
      | _ => rfl
    | value v => exact value_place h
  · obtain ⟨a, b, rfl⟩ := C06_strings_borrowed h hs
    simp
    omega

/-- **C57** What was read can be written and is read again as the same: for every accepted input, as long
as the sizes fit the format (an input of 32 bytes can have a result of 2³¹ - 1 elements, see C47) and its
decimals are printed in a form that is read back. -/
theorem C57_again {w : Bytes} {m : RemotingMessage} (h : deserialize w = .ok m) (hw : w.length < 2 ^ 31)
    (hsize : (topValues m).length < 2 ^ 31 ∧ 1 + itemEntities (topValues m) < 2 ^ 31)
    (harrays : ∀ vs, ValueIn (.array vs) m → vs.length < 2 ^ 31)
    (hobjects : ∀ c l ms, ValueIn (.object c l ms) m → ms.length < 2 ^ 31)
    (hdecimals : ∀ d, ValueIn (.decimal d) m →
      StorableString (Platform.decimalToStr d) ∧ Platform.decimalFromStr (Platform.decimalToStr d) = some d) :
    deserialize (write m) = .ok m := by
  obtain ⟨h1, h2, h3⟩ := C57_accepted h
  have hs : ∀ s, StringIn s m → StorableString s := fun s hs => ⟨(h2 s hs).1, by have := (h2 s hs).2; omega⟩
  refine C57_write m ⟨h1, fun u hu => ⟨(h3 u hu).1, (h3 u hu).2.1, fun s hm => hs s (.inr ⟨u, hu, hm⟩), ?_⟩,
    fun s hm => hs s (.inl hm), hsize⟩
  have hl := (h3 u hu).2.2
  cases u with
  | object c l ms => exact hobjects c l ms hu
  | array vs => exact harrays vs hu
  | decimal d => exact hdecimals d hu
  | char n => exact hl
  | _ => trivial

/-! ## A concrete case -/

/-- An object of a library with a number, a null, a string and an array that contains a system object and
an array. -/
def writeExample : Value :=
  .object [65] (some [76]) [([97], .int32 (-2)), ([98], .null), ([99], .string [120, 121]),
    ([100], .array [.object [66] none [([101], .boolean true)], .char 200, .array [],
      .object [67] (some [76]) []])]

/-- A call with this object and a number as arguments. -/
def writeCall : RemotingMessage := .methodCall ⟨[77], [84], some [67], some [writeExample, .uint64 7]⟩

omit [Platform] in
theorem sub_object {P : Value → Prop} {c : Str} {l : Option Str} {ms : List (Str × Value)} (h : P (.object c l ms))
    (hm : ∀ m ∈ ms, ∀ u, SubValue u m.2 → P u) : ∀ u, SubValue u (.object c l ms) → P u := by
  intro u hu
  cases hu with
  | refl => exact h
  | member hm' hs => exact hm _ hm' u hs

omit [Platform] in
theorem sub_array {P : Value → Prop} {vs : List Value} (h : P (.array vs))
    (hm : ∀ v ∈ vs, ∀ u, SubValue u v → P u) : ∀ u, SubValue u (.array vs) → P u := by
  intro u hu
  cases hu with
  | refl => exact h
  | item hm' hs => exact hm _ hm' u hs

omit [Platform] in
theorem storableString {s : Str} (h : utf8Valid s = true) (hl : s.length < 2 ^ 31) : StorableString s :=
  ⟨(utf8Valid_iff s).mp h, hl⟩

theorem storable_own {v : Value} (h1 : FitsType v) (h2 : NamesDistinct v)
    (h3 : ∀ s ∈ ownStrings v, utf8Valid s = true ∧ s.length < 2 ^ 31)
    (h4 : match v with
      | .char n => n < 256
      | .decimal d => StorableString (Platform.decimalToStr d) ∧ Platform.decimalFromStr (Platform.decimalToStr d) = some d
      | .array vs => vs.length < 2 ^ 31
      | .object _ _ ms => ms.length < 2 ^ 31
      | _ => True) : Storable v :=
  ⟨h1, h2, fun s hs => storableString (h3 s hs).1 (h3 s hs).2, h4⟩

theorem leaf_storable {v : Value} (h : Storable v) (h1 : ∀ c l ms, v ≠ .object c l ms) (h2 : ∀ vs, v ≠ .array vs) :
    ∀ u, SubValue u v → Storable u := by
  intro u hu
  cases hu with
  | refl => exact h
  | item => exact absurd rfl (h2 _)
  | member => exact absurd rfl (h1 _ _ _)

theorem writeExample_storable : ∀ u, SubValue u writeExample → Storable u := by
  refine sub_object (storable_own trivial (by simp [NamesDistinct]) (by decide +kernel) (by simp)) ?_
  simp only [List.mem_cons, List.not_mem_nil, or_false, forall_eq_or_imp, forall_eq]
  refine ⟨leaf_storable (storable_own ⟨by decide, by decide⟩ trivial (by decide) trivial) (by simp) (by simp),
    leaf_storable (storable_own trivial trivial (by decide) trivial) (by simp) (by simp),
    leaf_storable (storable_own trivial trivial (by decide +kernel) trivial) (by simp) (by simp),
    sub_array (storable_own trivial trivial (by decide) (by simp)) ?_⟩
  simp only [List.mem_cons, List.not_mem_nil, or_false, forall_eq_or_imp, forall_eq]
  refine ⟨sub_object (storable_own trivial (by simp [NamesDistinct]) (by decide +kernel) (by simp)) ?_,
    leaf_storable (storable_own (.inl (by decide)) trivial (by decide) (show (200 : Nat) < 256 by decide)) (by simp) (by simp),
    sub_array (storable_own trivial trivial (by decide) (by simp)) (by simp),
    sub_object (storable_own trivial (by simp [NamesDistinct]) (by decide +kernel) (by simp)) (by simp)⟩
  simp only [List.mem_cons, List.not_mem_nil, or_false, forall_eq]
  exact leaf_storable (storable_own trivial trivial (by decide) trivial) (by simp) (by simp)

/-- The hypothesis of `C57_write` is met by this object as a message, and by the call. -/
theorem writeExample_writable : Writable (.value writeExample) ∧ Writable writeCall := by
  refine ⟨⟨.inl rfl, ?_, by simp [topStrings], by decide, by decide⟩,
    ⟨trivial, ?_, ?_, by decide, by decide⟩⟩
  · rintro u ⟨v, hv, hu⟩
    simp only [topValues, List.mem_cons, List.not_mem_nil, or_false] at hv
    subst hv
    exact writeExample_storable u hu
  · rintro u ⟨v, hv, hu⟩
    simp only [writeCall, topValues, Option.getD_some, List.mem_cons, List.not_mem_nil, or_false] at hv
    rcases hv with rfl | rfl
    · exact writeExample_storable u hu
    · exact leaf_storable (storable_own (v := .uint64 7) (show (7 : Nat) < 2 ^ 64 by decide) trivial (by decide) trivial) (by simp) (by simp) u hu
  · intro s hs
    simp only [writeCall, topStrings, Option.toList, List.cons_append, List.nil_append, List.mem_cons,
      List.not_mem_nil, or_false] at hs
    rcases hs with rfl | rfl | rfl <;> exact storableString (by decide +kernel) (by decide)

example : deserialize (write (.value writeExample)) = .ok (.value writeExample) ∧
    deserialize (write writeCall) = .ok writeCall :=
  ⟨C57_write _ writeExample_writable.1, C57_write _ writeExample_writable.2⟩

/-- What the writer makes of an array with a string and an array. -/
example : write (.value (.array [.string [120], .array [.null]])) =
    [0, 1,0,0,0, 255,255,255,255, 1,0,0,0, 0,0,0,0] ++ [16, 1,0,0,0, 2,0,0,0] ++ [6, 2,0,0,0, 1,120] ++ [9, 3,0,0,0] ++
    [16, 3,0,0,0, 1,0,0,0] ++ [10] ++ [11] := by
  simp [write, headerRecord, record, slots, slot, itemRecords, hasId, isString, countIds, string, lengthPrefix, le]

/-! ## The order of records -/

open Tests (header)

/-- An array with references to 2 and 3. -/
def orderRoot : Bytes := [16, 1,0,0,0, 2,0,0,0, 9, 2,0,0,0, 9, 3,0,0,0]
/-- Array 2 with a reference to 4. -/
def order2 : Bytes := [16, 2,0,0,0, 1,0,0,0, 9, 4,0,0,0]
/-- Strings 3 and 4. -/
def order3 : Bytes := [6, 3,0,0,0, 1,51]
/-- String 4. -/
def order4 : Bytes := [6, 4,0,0,0, 1,52]

/-- **C27** A referenced record must follow directly.  The same four records are accepted depth first and
rejected breadth first, although each reference has exactly one record with its id. -/
theorem C27_depth_first :
    deserialize (header 1 ++ (orderRoot ++ order2 ++ order4 ++ order3 ++ [11])) =
      .ok (.value (.array [.array [.string [52]], .string [51]])) ∧
    ∃ e, deserialize (header 1 ++ (orderRoot ++ order2 ++ order3 ++ order4 ++ [11])) = .err e := by
  refine ⟨by kernel_decide, ?_⟩
  have h : (match deserialize (header 1 ++ (orderRoot ++ order2 ++ order3 ++ order4 ++ [11])) with
      | .err _ => true
      | _ => false) = true := by kernel_decide
  split at h
  · exact ⟨_, ‹_›⟩
  · cases h

/-- Object 1 of class A with the members a (an object of class B with one member, a reference to 3) and
b (a null); between them `mid`, at the end `tail`. -/
def inlineMessage (mid tail : Bytes) : Bytes :=
  header 1 ++ ([2, 1,0,0,0, 1,65, 2,0,0,0, 1,97, 1,98] ++ [2, 2,0,0,0, 1,66, 1,0,0,0, 1,99, 9, 3,0,0,0] ++ mid ++
    [10] ++ tail ++ [11])

/-- **C27** The record an object in place refers to must follow it at once, in the middle of the members of
the object around it (where MS-NRBF does not allow it); after that object (where MS-NRBF puts it) it is
rejected. -/
theorem C27_inline_object :
    deserialize (inlineMessage order3 []) = .ok (.value (.object [65] none [([97], .object [66] none
      [([99], .string [51])]), ([98], .null)])) ∧
    ∃ e, deserialize (inlineMessage [] order3) = .err e := by
  refine ⟨by kernel_decide, ?_⟩
  have h : (match deserialize (inlineMessage [] order3) with
      | .err _ => true
      | _ => false) = true := by kernel_decide
  split at h
  · exact ⟨_, ‹_›⟩
  · cases h

end Nrbf
