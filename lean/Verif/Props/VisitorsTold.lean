import Verif.Props.VisitorsOnce
import Verif.Props.SerdeText

/-! # C74: what every `Deserialize` implementation is told, value by value

The theorems about conversations (`Visitors`), in the terms of the specification: which values are scalars, which objects
are maps, lists and boxed primitives. -/

set_option autoImplicit false

namespace Nrbf.Visitors

open Spec

section
variable {ι α : Type} [Platform] [FloatLib] [TextLib] {impls : ι → Impl ι α}

omit [Platform] [FloatLib] [TextLib] in
theorem inMap_eq (n : Nat) : expectedInMap n = elements n ++ lit " in map" := by
  unfold expectedInMap elements
  by_cases h : n = 1
  · subst h; decide
  · rw [if_neg h, if_neg h, List.append_assoc]; congr 1

omit [FloatLib] [TextLib] in
theorem says_iff {v : Value} {s : Scalar} : Says v s ↔ scalarOf v = some s := by
  constructor
  · intro h
    cases h <;> rfl
  · intro h
    cases v <;> cases h <;> constructor

/-! ## Objects -/

theorem objectCall_plain {cls : Str} {lib : Option Str} (ms : List (Str × Value)) (h : PlainObject cls lib) :
    objectCall cls lib ms = .map := by
  unfold objectCall
  rcases h with h | h
  · rw [if_pos (by cases lib with | none => exact absurd rfl h | some l => rfl)]
  · by_cases hl : lib.isSome
    · rw [if_pos hl]
    · have hb : classBase cls = cls.takeWhile (· ≠ 96) := rfl
      rw [if_neg hl]
      simp only [hb]
      simp only [systemClasses, List.mem_cons, List.not_mem_nil, or_false, not_or] at h
      obtain ⟨h1, h2, h3, h4, h5, h6, h7, h8, h9, h10, h11, h12, h13⟩ := h
      rw [if_neg h1, if_neg h2, if_neg h3, if_neg h4, if_neg h5, if_neg h6, if_neg h7, if_neg h8, if_neg h9, if_neg h10, if_neg h11,
        if_neg h12, if_neg h13]

omit [Platform] [FloatLib] [TextLib] in
theorem get?_distinct {ms : List (Str × Value)} (hn : (ms.map Prod.fst).Nodup) {k : Str} {v : Value} (h : (k, v) ∈ ms) :
    AMap.get? ms k = some v := by
  induction ms with
  | nil => cases h
  | cons m ms ih =>
    simp only [List.map_cons, List.nodup_cons] at hn
    rcases List.mem_cons.mp h with rfl | h
    · simp [AMap.get?]
    · have : k ≠ m.1 := fun e => hn.1 (e ▸ List.mem_map_of_mem (f := Prod.fst) h)
      have := ih hn.2 h
      simp_all [AMap.get?, Ne.symm]

theorem objectCall_isList {v : Value} {items : List Value} {size : Int} (h : IsList v items size) :
    ∃ cls ms, v = .object cls none ms ∧ objectCall cls none ms = .list items (asUsize size) := by
  obtain ⟨cls, ms, version, rfl, hc, hl, hn, h1, h2, h3⟩ := h
  refine ⟨cls, ms, rfl, ?_⟩
  have hlm : listOf ms = some (items, size) := by
    unfold listOf
    rw [if_pos hl, get?_distinct hn h1, get?_distinct hn h2, get?_distinct hn h3]
  have hb : classBase cls = lit "System.Collections.Generic.List" := hc
  unfold objectCall
  simp only [Option.isSome_none, hb, hlm]
  rfl

theorem objectCall_listClass {cls : Str} {ms : List (Str × Value)} (hc : cls.takeWhile (· ≠ 96) = lit "System.Collections.Generic.List")
    (hn : (ms.map Prod.fst).Nodup) (h : ∀ items size, ¬ IsList (.object cls none ms) items size) :
    objectCall cls none ms = .fail (lit "invalid system class: System.Collections.Generic.List") := by
  have hlm : listOf ms = none := by
    unfold listOf
    split
    · rename_i hl
      split
      · rename_i e1 e2 e3
        exact absurd ⟨cls, ms, _, rfl, hc, hl, hn, get?_in e1, get?_in e2, get?_in e3⟩ (h _ _)
      · rfl
    · rfl
  have hb : classBase cls = lit "System.Collections.Generic.List" := hc
  unfold objectCall
  simp only [Option.isSome_none, hb, hlm]
  rfl

theorem objectCall_box {cls c e : Str} {P : RTy} (hc : cls.takeWhile (· ≠ 96) = c) (hb : (c, e, P) ∈ boxClasses) (ms : List (Str × Value)) :
    ∃ f, objectCall cls none ms = boxedCall e P f ms ∧ ∀ x s sc, BoxedPrim c P.erase x s → Says s sc → f x = some sc := by
  have hb' : classBase cls = c := hc
  simp only [boxClasses, List.mem_cons, Prod.mk.injEq, List.not_mem_nil, or_false] at hb
  unfold objectCall
  simp only [hb']
  rcases hb with ⟨rfl, rfl, rfl⟩ | ⟨rfl, rfl, rfl⟩ | ⟨rfl, rfl, rfl⟩ | ⟨rfl, rfl, rfl⟩ | ⟨rfl, rfl, rfl⟩ |
    ⟨rfl, rfl, rfl⟩ | ⟨rfl, rfl, rfl⟩ | ⟨rfl, rfl, rfl⟩ | ⟨rfl, rfl, rfl⟩ | ⟨rfl, rfl, rfl⟩ | ⟨rfl, rfl, rfl⟩ |
    ⟨rfl, rfl, rfl⟩
  all_goals
    refine ⟨_, rfl, fun x s sc hx hs => ?_⟩
    generalize hP : RTy.erase _ = P at hx
    generalize hn : lit _ = n at hx
    cases hx <;> first
      | (cases hs; rfl)
      | (exfalso; revert hn; decide)
      | (exfalso; revert hP; simp [RTy.erase])

/-- The scalar of an object is that of a boxed primitive. -/
theorem objectCall_boxed {cls : Str} {lib : Option Str} {ms : List (Str × Value)} {s : Scalar} (h : objectCall cls lib ms = .boxed s) :
    ∃ c e P w x u, lib = none ∧ cls.takeWhile (· ≠ 96) = c ∧ (c, e, P) ∈ boxClasses ∧ ms = [(lit "m_value", w)] ∧ decodeR w P = .ok x ∧
      BoxedPrim c P.erase x u ∧ Says u s := by
  rcases object_kinds cls lib ms with hp | ⟨rfl, c, e, P, hc, hb⟩ | ⟨items, size, hl⟩ | ⟨rfl, hc, hl⟩
  · rw [objectCall_plain ms hp] at h; cases h
  · obtain ⟨f, ho, hf⟩ := objectCall_box hc hb ms
    rw [ho] at h
    unfold boxedCall at h
    split at h
    · rename_i d hd
      have hm : ∃ w, ms = [(lit "m_value", w)] ∧ decodeR w P = .ok d := by
        match ms with
        | [] => cases hd
        | [(k, w)] =>
          change (match decodeR w P with
            | .ok d => if k = lit "m_value" then Except.ok d else .error (SerdeError.invalidType .map e)
            | .error e => .error e) = _ at hd
          cases hw : decodeR w P with
          | ok d' =>
            rw [hw] at hd
            rcases ite_cases hd with ⟨rfl, hd⟩ | ⟨_, hd⟩
            · cases hd; exact ⟨w, rfl, hw⟩
            · cases hd
          | error x => rw [hw] at hd; cases hd
        | _ :: _ :: _ => cases hd
      obtain ⟨w, rfl, hw⟩ := hm
      obtain ⟨u, hu⟩ := box_content hb hw
      obtain ⟨sc, hsc⟩ : ∃ sc, Says u sc := by
        generalize RTy.erase P = Q at hu
        cases hu <;> exact ⟨_, by constructor⟩
      rw [hf d u sc hu hsc] at h
      cases h
      exact ⟨c, e, P, w, d, u, rfl, hc, hb, rfl, hw, hu, hsc⟩
    · cases h
  · obtain ⟨_, _, e, ho⟩ := objectCall_isList hl
    cases e
    rw [ho] at h; cases h
  · unfold objectCall at h
    have hb : classBase cls = lit "System.Collections.Generic.List" := hc
    simp only [hb] at h
    change (match listOf ms with | some (items, size) => ObjectCall.list items (asUsize size) | none => _) = _ at h
    split at h <;> cases h

/-! ## What is told -/

/-- **C74** (types) A type that asks the deserializer is given the visitor method that C74 says, and makes its result of what the
visitor returns; a type that does not ask returns what it returns. -/
theorem C74_type {v : Value} {i : ι} {r : Res α} : Deserialize impls v i r ↔
    impls i = .ignore r ∨ ∃ m V after r0, impls i = .call m V after ∧ Visit impls v m V r0 ∧ r = after r0 := by
  constructor
  · intro h
    cases h with
    | ignore h => exact .inl h
    | call h g => exact .inr ⟨_, _, _, _, h, g, rfl⟩
  · rintro (h | ⟨m, V, f, r0, h, g, rfl⟩)
    · exact .ignore h
    · exact .call h g

/-- **C74** (primitives, strings and null) Whatever the type and whatever it asks for, except for options: one call of the
visitor method for the value. -/
theorem C74_scalar {v : Value} {s : Scalar} {m : Method} {V : Visitor ι α} {r : Res α} (hv : Says v s) (hm : m ≠ .option) :
    Visit impls v m V r ↔ r = V.scalar s := talk_scalar (says_iff.mp hv) hm

/-- **C74** (arrays) Whatever the type: it is answered with the elements of the array, in order and none twice, each as
the type it asks for, then `None`; and it fails if it returns before it has had them all. -/
theorem C74_array {vs : List Value} {m : Method} {V : Visitor ι α} {r : Res α} (hm : m ≠ .option) :
    Visit impls (.array vs) m V r ↔ ∃ c r0, SeqTalk V.seq (ArrayAnswer impls vs) c r0 ∧
      r = (match r0 with
        | .ok a => if vs.length ≤ c.length then .ok a
          else .error (lit "invalid length " ++ digits vs.length ++ lit ", expected " ++ (elements c.length ++ lit " in array"))
        | .error e => .error e) := by
  simp only [← inArray_eq]
  exact talk_array hm

/-- **C74** (generic lists) Whatever the type, unless it asks for a struct: it is answered with the items of the list, in order
and none twice, until `size` requests have succeeded, and `None` after that (or after the last item); and it fails unless
`size` requests have succeeded. -/
theorem C74_list {v : Value} {items : List Value} {size : Int} {m : Method} {V : Visitor ι α} {r : Res α} (hl : IsList v items size)
    (hz : InSigned 4 size) (hm : m ≠ .option) (hs : m ≠ .struct) :
    Visit impls v m V r ↔ ∃ c r0, SeqTalk V.seq (ListAnswer impls items (unsignedSize size)) c r0 ∧
      r = (match r0 with
        | .ok a => if unsignedSize size ≤ successes c then .ok a
          else .error (lit "invalid length " ++ digits (unsignedSize size) ++ lit ", expected " ++ (elements (successes c) ++ lit " in list"))
        | .error e => .error e) := by
  obtain ⟨cls, ms, rfl, ho⟩ := objectCall_isList hl
  rw [asUsize_unsigned hz] at ho
  simp only [← inList_eq]
  exact talk_list ho hm hs

theorem visit_any {v : Value} {m : Method} {V : Visitor ι α} {r : Res α} (hm : m ≠ .option) (hs : m ≠ .struct) :
    Visit impls v m V r ↔ VisitAny impls v V r := by
  constructor
  · intro h
    cases h with
    | none => exact absurd rfl hm
    | some => exact absurd rfl hm
    | structObject => exact absurd rfl hs
    | struct => exact absurd rfl hs
    | any _ _ h => exact h
  · exact .any hm hs

/-- **C74** (objects) A type that does not ask for a struct is answered with the member names, each once and as borrowed strings,
then `None`, and with the value for the name it had last; and it fails if it returns before it has had all names. -/
theorem C74_object {cls : Str} {lib : Option Str} {ms : List (Str × Value)} {m : Method} {V : Visitor ι α} {r : Res α}
    (hp : PlainObject cls lib) (hm : m ≠ .option) (hs : m ≠ .struct) :
    Visit impls (.object cls lib ms) m V r ↔ ∃ c r0, MapTalk (V.map ms.length) (MapAnswer impls .borrowedStr ms) c r0 ∧
      r = (match r0 with
        | .ok a => if ms.length ≤ keysAsked c then .ok a
          else .error (lit "invalid length " ++ digits ms.length ++ lit ", expected " ++ (elements (keysAsked c) ++ lit " in map"))
        | .error e => .error e) := by
  simp only [← inMap_eq]
  refine Iff.trans ?_ talk_map
  rw [visit_any hm hs]
  have ho := objectCall_plain ms hp
  constructor
  · intro h
    cases h with
    | scalar h => cases h
    | object _ g => exact g
    | boxed h => rw [ho] at h; cases h
    | fail h => rw [ho] at h; cases h
    | list h => rw [ho] at h; cases h
  · exact .object ho

/-- **C74** (structs) A type that asks for a struct is answered in the same way, for every object, whatever its class; but the names
are transient strings. -/
theorem C74_struct {cls : Str} {lib : Option Str} {ms : List (Str × Value)} {V : Visitor ι α} {r : Res α} :
    Visit impls (.object cls lib ms) .struct V r ↔ ∃ c r0, MapTalk (V.map ms.length) (MapAnswer impls .str ms) c r0 ∧
      r = (match r0 with
        | .ok a => if ms.length ≤ keysAsked c then .ok a
          else .error (lit "invalid length " ++ digits ms.length ++ lit ", expected " ++ (elements (keysAsked c) ++ lit " in map"))
        | .error e => .error e) := by
  simp only [← inMap_eq]
  refine Iff.trans ?_ talk_map
  constructor
  · intro h
    cases h with
    | structObject g => exact g
    | struct h => exact absurd rfl (h _ _ _)
    | any _ h => exact absurd rfl h
  · exact .structObject

theorem visit_failed {cls : Str} {lib : Option Str} {ms : List (Str × Value)} {m : Method} {V : Visitor ι α} {r : Res α} {e : Str}
    (ho : objectCall cls lib ms = .fail e) (hm : m ≠ .option) (hs : m ≠ .struct) :
    Visit impls (.object cls lib ms) m V r ↔ r = .error e := by
  rw [visit_any hm hs]
  constructor
  · intro h
    cases h with
    | scalar h => cases h
    | object h => rw [ho] at h; cases h
    | boxed h => rw [ho] at h; cases h
    | fail h => rw [ho] at h; cases h; rfl
    | list h => rw [ho] at h; cases h
  · rintro rfl
    exact .fail ho

/-- **C74** (broken lists) An object of the class of generic lists that does not have the members of one. -/
theorem C74_list_class {cls : Str} {ms : List (Str × Value)} {m : Method} {V : Visitor ι α} {r : Res α}
    (hc : cls.takeWhile (· ≠ 96) = lit "System.Collections.Generic.List") (hn : (ms.map Prod.fst).Nodup)
    (h : ∀ items size, ¬ IsList (.object cls none ms) items size) (hm : m ≠ .option) (hs : m ≠ .struct) :
    Visit impls (.object cls none ms) m V r ↔ r = .error (lit "invalid system class: System.Collections.Generic.List") :=
  visit_failed (objectCall_listClass hc hn h) hm hs

/-- **C74** (boxed primitives) Whatever the type, unless it asks for a struct: the call is the one for the primitive. -/
theorem C74_boxed {cls c e : Str} {P : RTy} {w s : Value} {x : Dyn} {sc : Scalar} {m : Method} {V : Visitor ι α} {r : Res α}
    (hc : cls.takeWhile (· ≠ 96) = c) (hb : (c, e, P) ∈ boxClasses) (hw : Sane w) (hx : Decodes w P.erase x)
    (hp : BoxedPrim c P.erase x s) (hsc : Says s sc) (hm : m ≠ .option) (hs : m ≠ .struct) :
    Visit impls (.object cls none [(lit "m_value", w)]) m V r ↔ r = V.scalar sc := by
  obtain ⟨f, ho, hf⟩ := objectCall_box hc hb [(lit "m_value", w)]
  have hd : decodeR w P = .ok x := decodeR_ok.mpr ((C58 w hw _ (box_proper hb) x).mpr hx)
  have ho : objectCall cls none [(lit "m_value", w)] = .boxed sc := by
    rw [ho]
    unfold boxedCall
    have e : unboxR e P ([(lit "m_value", w)].map fun m => (m.1, decodeR m.2)) = .ok x := by
      rw [show ([(lit "m_value", w)].map fun m => (m.1, decodeR m.2)) = [(lit "m_value", decodeR w)] from rfl]
      show (match decodeR w P with
        | .ok d => if lit "m_value" = lit "m_value" then Except.ok d else .error (SerdeError.invalidType .map e)
        | .error e => .error e) = Except.ok x
      rw [hd]
      exact if_pos rfl
    rw [e]
    simp only [hf x s sc hp hsc]
  rw [visit_any hm hs]
  constructor
  · intro h
    cases h with
    | scalar h => cases h
    | object h => rw [ho] at h; cases h
    | boxed h => rw [ho] at h; cases h; rfl
    | fail h => rw [ho] at h; cases h
    | list h => rw [ho] at h; cases h
  · rintro rfl
    exact .boxed ho

/-- **C74** (broken boxes) An object of the class of a boxed primitive without exactly one member, called `m_value`, is refused;
but if its only member is not of the right type, that is reported first. -/
theorem C74_box_broken {cls c e : Str} {P : RTy} {ms : List (Str × Value)} {m : Method} {V : Visitor ι α} {r : Res α}
    (hc : cls.takeWhile (· ≠ 96) = c) (hb : (c, e, P) ∈ boxClasses) (hm : m ≠ .option) (hs : m ≠ .struct) :
    (ms.length ≠ 1 ∨ (∃ k w, ms = [(k, w)] ∧ k ≠ lit "m_value" ∧ Sane w ∧ Reads w P) →
      (Visit impls (.object cls none ms) m V r ↔ r = .error (lit "invalid type: map, expected " ++ e))) ∧
    ∀ k w, ms = [(k, w)] → Sane w → ¬ Reads w P → Visit impls (.object cls none ms) m V r →
      ∃ report, Fails w P report ∧ r = .error report.text := by
  obtain ⟨f, ho, -⟩ := objectCall_box hc hb ms
  have htext : (SerdeError.invalidType .map e).text = lit "invalid type: map, expected " ++ e := rfl
  have one : ∀ k w, ms = [(k, w)] → unboxR e P (ms.map fun m => (m.1, decodeR m.2)) = match decodeR w P with
      | .ok d => if k = lit "m_value" then .ok d else .error (.invalidType .map e)
      | .error e => .error e := by
    rintro k w rfl
    rfl
  have fails : ∀ x : SerdeError, unboxR e P (ms.map fun m => (m.1, decodeR m.2)) = .error x →
      (Visit impls (.object cls none ms) m V r ↔ r = .error x.text) := by
    intro x hx
    refine visit_failed ?_ hm hs
    rw [ho]
    unfold boxedCall
    rw [hx]
  refine ⟨?_, ?_⟩
  · rintro (hl | ⟨k, w, rfl, hk, hw, d, hd⟩)
    · rw [← htext]
      refine fails _ ?_
      unfold unboxR
      rw [if_neg (by simpa using hl)]
    · rw [← htext]
      refine fails _ ?_
      rw [one k w rfl, decodeR_ok.mpr ((C58 w hw _ (box_proper hb) d).mpr hd)]
      simp only [if_neg hk]
  · rintro k w rfl hw hn hv
    have ht := C64_total w hw P (box_proper hb)
    cases hd : decodeR w P with
    | ok d => rw [hd] at ht; exact absurd ⟨d, ht.1⟩ hn
    | error x =>
      rw [hd] at ht
      refine ⟨x, ht.1, (fails x ?_).mp hv⟩
      rw [one k w rfl, hd]

/-- **C74** (malformed data) If the input cannot be parsed, the type is not asked for anything. -/
theorem C74_malformed {w : Bytes} {e : Error} {i : ι} {r : Res α} (h : deserialize w = .err e) :
    FromSlice impls w i r ↔ r = .error (lit "parsing error: " ++ lit e.display) := by
  constructor
  · intro hr
    cases hr with
    | ok h' => rw [h] at h'; cases h'
    | parsing h' => rw [h] at h'; cases h'; rfl
  · rintro rfl
    exact .parsing h

/-- **C74** (`from_slice`) And if it can be parsed, the type is given the message. -/
theorem C74_from_slice {w : Bytes} {m : RemotingMessage} {i : ι} {r : Res α} (h : deserialize w = .ok m) :
    FromSlice impls w i r ↔ DeserializeMessage impls m i r := by
  constructor
  · intro hr
    cases hr with
    | ok h' g => rw [h] at h'; cases h'; exact g
    | parsing h' => rw [h] at h'; cases h'
  · exact .ok h

/-- Cases: a boxed number, and a box with a wrong name. -/
example {m : Method} (hm : m ≠ .option) (hs : m ≠ .struct) {V : Visitor ι α} {r : Res α} :
    (Visit impls (.object (lit "System.Int32") none [(lit "m_value", .int64 7)]) m V r ↔ r = V.scalar (.i32 7)) ∧
    (Visit impls (.object (lit "System.Int32") none [(lit "value", .int64 7)]) m V r ↔ r = .error (lit "invalid type: map, expected Int32")) := by
  have hsane : Sane (.int64 7) := by
    intro u hu
    cases hu
    exact ⟨⟨by decide, by decide⟩, trivial, by simp, by simp, fun items size h => by obtain ⟨_, _, _, e, _⟩ := h; cases e⟩
  have hd : Decodes (.int64 7) (RTy.int .i32).erase (.int 7) :=
    .int rfl (show (-2147483648 : Int) ≤ 7 by decide) (show (7 : Int) ≤ 2147483647 by decide)
  have hb : (lit "System.Int32", lit "Int32", RTy.int .i32) ∈ boxClasses := by simp [boxClasses]
  refine ⟨?_, ?_⟩
  · exact C74_boxed (c := lit "System.Int32") (e := lit "Int32") (P := .int .i32) (s := .int32 7) (x := .int 7) (by decide) hb hsane hd
      (.int32 7 ⟨by decide, by decide⟩) (.int32 7) hm hs
  · exact (C74_box_broken (c := lit "System.Int32") (e := lit "Int32") (P := .int .i32) (by decide) hb hm hs).1
      (.inr ⟨_, _, rfl, by decide, hsane, .int 7, hd⟩)

end

end Nrbf.Visitors
