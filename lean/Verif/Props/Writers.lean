import Verif.Props.Encodings
import Verif.Props.Write

/-! # C71: what the writer of C57 produces is one of the ways to write a message

So every message that can be stored, and every message that was read, can be written in the sense of C71. -/

set_option autoImplicit false

namespace Nrbf

open Spec

variable [Platform]

/-- The libraries the writer has declared. -/
def declaredLibs (c : Ctx) : Nat → Option Str := (wenv c).libs

/-- The pieces declare what they need, and the libraries known afterwards. -/
def Moves (L : Nat → Option Str) (ts : List Token) (L' : Nat → Option Str) : Prop := Declared L ts ∧ after L ts = L'

omit [Platform] in
theorem Moves.append {L L' L'' : Nat → Option Str} {ts us : List Token} (h : Moves L ts L') (h' : Moves L' us L'') :
    Moves L (ts ++ us) L'' := by
  obtain ⟨h1, rfl⟩ := h
  obtain ⟨h2, rfl⟩ := h'
  exact ⟨(declared_append ts us L).mpr ⟨h1, h2⟩, after_append ts us L⟩

omit [Platform] in
theorem Moves.nil (L : Nat → Option Str) : Moves L [] L := ⟨trivial, rfl⟩

omit [Platform] in
theorem Moves.bytes {L L' : Nat → Option Str} {ts : List Token} (b : Bytes) (h : Moves L ts L') :
    Moves L (.bytes b :: ts) L' := h

/-- A value with an id is written as a record for it. -/
def RecordWritten (v : Value) : Prop :=
  ∀ (id : Nat) (c : Ctx), (∀ u, SubValue u v → Storable u) → hasId v = true → 0 < id → id < 2 ^ 31 →
    0 < c.next → c.next + entities v ≤ 2 ^ 31 + 1 → c.libs.length + entities v < 2 ^ 31 →
    ∃ ts, RecordOf id v ts ∧ written ts = (record id v c).1 ∧ Moves (declaredLibs c) ts (declaredLibs (record id v c).2)

/-- One member or element. -/
theorem slot_written {v : Value} (hr : RecordWritten v) (hs : ∀ u, SubValue u v → Storable u) {id : Nat} {c : Ctx}
    (h0 : 0 < id) (h1 : hasId v = true → id < 2 ^ 31) (h2 : 0 < c.next) (h3 : c.next + entities v ≤ 2 ^ 31 + 1)
    (h4 : c.libs.length + entities v < 2 ^ 31) :
    ∃ l, InPlace v (slot id v) l ∧ written l = (if isString v then ([], c) else record id v c).1 ∧
      Moves (declaredLibs c) l (declaredLibs (if isString v then ([], c) else record id v c).2) := by
  have hown := hs v (.refl v)
  by_cases hid : hasId v = true
  · replace h1 := h1 hid
    cases v with
    | object cls library ms =>
      obtain ⟨ts, r1, r2, r3⟩ := hr id c hs hid h0 h1 h2 h3 h4
      exact ⟨ts, .reference ⟨_, ⟨h0, h1, rfl⟩, rfl⟩ r1, r2, r3⟩
    | array vs =>
      obtain ⟨ts, r1, r2, r3⟩ := hr id c hs hid h0 h1 h2 h3 h4
      exact ⟨ts, .reference ⟨_, ⟨h0, h1, rfl⟩, rfl⟩ r1, r2, r3⟩
    | string s =>
      have hss : StorableString s := hown.2.2.1 s (by simp [ownStrings])
      exact ⟨[], .string ⟨_, _, ⟨h0, h1, rfl⟩, string_ok hss.2 hss.1, rfl⟩, rfl, .nil _⟩
    | _ => simp [hasId] at hid
  · simp only [Bool.not_eq_true] at hid
    have hv : isString v = false := by cases v <;> first | rfl | simp [hasId] at hid
    rw [hv, record_leaf hid]
    by_cases hn : v = .null
    · subst hn
      exact ⟨[], .null (.inl ⟨rfl, rfl⟩), rfl, .nil _⟩
    · obtain ⟨t, b, hp, hc⟩ := coded_primitive hown hid hn
      refine ⟨[], .primitive ?_, rfl, .nil _⟩
      rw [(slot_primitive hid hn id).1]
      exact ⟨t, b, hp, by rw [hc]⟩

/-- The members of an object and the elements of an array. -/
theorem items_written : ∀ (vs : List Value) (id : Nat) (c : Ctx), (∀ v ∈ vs, RecordWritten v) →
    (∀ v ∈ vs, ∀ u, SubValue u v → Storable u) → 0 < id → id + countIds vs ≤ 2 ^ 31 → 0 < c.next →
    c.next + itemEntities vs ≤ 2 ^ 31 + countIds vs → c.libs.length + itemEntities vs < 2 ^ 31 →
    ∃ now later, Each (List.replicate vs.length (some .object)) vs now later ∧ Elems none vs now later ∧
      written now = slots id vs ∧ (∀ L, Moves L now L) ∧ written later = (itemRecords id vs c).1 ∧
      Moves (declaredLibs c) later (declaredLibs (itemRecords id vs c).2)
  | [], id, c, _, _, _, _, _, _, _ =>
    ⟨[], [], .nil, .nil, rfl, .nil, by simp [itemRecords, written], by simpa [itemRecords] using Moves.nil _⟩
  | v :: vs, id, c, hr, hs, h0, h1, h2, h3, h4 => by
    have hle := countIds_le vs
    have hcount := countIds_cons v vs id
    have ih := fun c' => items_written vs (if hasId v then id + 1 else id) c' (fun u hu => hr u (by simp [hu]))
      (fun u hu => hs u (by simp [hu])) (by split <;> omega) (by omega)
    have hone : (if isString v then ([], c) else record id v c).2.next + (if hasId v then 1 else 0) = c.next + entities v ∧
        (if isString v then ([], c) else record id v c).2.libs.length ≤ c.libs.length + entities v := by
      by_cases hid : hasId v = true
      · by_cases hstr : isString v = true
        · have he : entities v = 1 := by cases v <;> first | rfl | simp [isString] at hstr
          simp only [hstr, hid, if_true, he]
          exact ⟨trivial, by omega⟩
        · simp only [hstr, hid, if_true, Bool.false_eq_true, if_false]
          have hpos := hasId_entities hid
          simp only [countIds, itemEntities, hid, if_true] at h1 h3 h4
          obtain ⟨-, r2, r3⟩ := record_ok v id c [] (hs v (by simp)) hid h0 (by omega) h2 (by omega) (by omega)
          exact ⟨r2, r3⟩
      · simp only [Bool.not_eq_true] at hid
        have hz : entities v = 0 := by cases v <;> simp_all [hasId, entities]
        have hv : isString v = false := by
          clear hr hs hcount ih hz
          cases v <;> first | rfl | simp [hasId] at hid
        simp only [hid, hv, hz, record_leaf hid, Bool.false_eq_true, if_false]
        exact ⟨trivial, by omega⟩
    simp only [countIds, itemEntities] at h1 h3 h4
    have hz : entities v = 0 ∧ hasId v = false ∨ 0 < entities v ∧ hasId v = true := by
      by_cases hid : hasId v = true
      · exact .inr ⟨hasId_entities hid, hid⟩
      · refine .inl ⟨?_, by simpa using hid⟩
        clear hr hs hcount ih hone
        cases v <;> simp_all [hasId, entities]
    obtain ⟨l, s1, s2, s3⟩ := slot_written (hr v (by simp)) (hs v (by simp)) (id := id) (c := c) h0
      (fun hid => by simp only [hid, if_true] at h1; omega) h2
      (by rcases hz with ⟨a, b⟩ | ⟨a, b⟩ <;> simp only [b, if_true, Bool.false_eq_true, if_false] at h3 <;> omega)
      (by omega)
    obtain ⟨ns, ls, g1, g2, g3, g4, g5, g6⟩ := ih (if isString v then ([], c) else record id v c).2
      (by rcases hz with ⟨a, b⟩ | ⟨a, b⟩ <;> simp only [b, if_true, Bool.false_eq_true, if_false] at hone <;> omega)
      (by rcases hz with ⟨a, b⟩ | ⟨a, b⟩ <;> simp only [b, if_true, Bool.false_eq_true, if_false] at hone h3 <;> omega)
      (by omega)
    refine ⟨_, _, .cons (.object (.inl rfl) (noLibraries 2) s1) g1, .cons (.any (noLibraries 1) s1) g2, ?_, ?_, ?_, ?_⟩
    · rw [written_append, g3]
      simp [slots, written, Token.write]
    · intro L
      exact (Moves.bytes _ (.nil L)).append (g4 L)
    · rw [written_append, s2, g5, itemRecords]
    · rw [itemRecords]
      exact s3.append g6

omit [Platform] in
/-- Declaring a library. -/
theorem declare_written (library : Option Str) (c : Ctx) (hl : ∀ l, library = some l → StorableString l)
    (hb : c.libs.length + 1 < 2 ^ 31) :
    ∃ f, Libraries 1 f ∧ written f = (declare library c).1 ∧ Moves (declaredLibs c) f (declaredLibs (declare library c).2.2) ∧
      (∀ l, (declare library c).2.1 = some l → 0 < l ∧ l < 2 ^ 31) ∧
      (match (declare library c).2.1 with
        | none => library = none
        | some l => ∃ name, declaredLibs (declare library c).2.2 l = some name ∧ library = some name) := by
  obtain ⟨-, d2, d3, -, -⟩ := declare_ok library c hl hb [0] [] (by simp) (by simp)
  suffices h : ∃ f, Libraries 1 f ∧ written f = (declare library c).1 ∧
      Moves (declaredLibs c) f (declaredLibs (declare library c).2.2) by
    obtain ⟨f, h1, h2, h3⟩ := h
    exact ⟨f, h1, h2, h3, d2, d3⟩
  clear d2 d3
  cases library with
  | none => exact ⟨[], noLibraries 1, rfl, .nil _⟩
  | some l =>
    simp only [declare]
    by_cases hmem : l ∈ c.libs
    · simp only [hmem, if_true]
      exact ⟨[], noLibraries 1, rfl, .nil _⟩
    · simp only [hmem, if_false]
      have hs := hl l rfl
      refine ⟨[.library (c.libs.length + 1) l (12 :: le 4 (c.libs.length + 1) ++ string l)], ⟨by simp, ?_⟩,
        by simp [written, Token.write], ⟨by simp [declaredLibs, wenv], trivial⟩, ?_⟩
      · intro t ht
        rw [List.mem_singleton.mp ht]
        exact ⟨_, _, _, ⟨_, _, ⟨by omega, hb, rfl⟩, string_ok hs.2 hs.1, rfl⟩, rfl⟩
      · funext k
        simp only [after, declaredLibs, wenv]
        by_cases hk : k = c.libs.length + 1
        · subst hk
          simp
        · by_cases h0 : k = 0
          · simp [h0]
          · simp only [hk, h0, if_false]
            by_cases hlt : k - 1 < c.libs.length
            · rw [List.getElem?_append_left hlt]
            · rw [List.getElem?_eq_none (by omega), List.getElem?_eq_none (by simp; omega)]

/-- Every value with an id is written as a record for it. -/
theorem record_written (v : Value) : RecordWritten v := by
  induction v using value_induction with
  | hobj cls library ms ih =>
    intro id c hs _ h0 h1 h2 h3 h4
    obtain ⟨-, hnodup, hstr, hlen⟩ := hs _ (.refl _)
    have hent : entities (.object cls library ms) = 1 + itemEntities (ms.map Prod.snd) := by
      rw [entities, memberEntities_eq]
    rw [hent] at h3 h4
    have hcls : StorableString cls := hstr cls (by simp [ownStrings])
    have hnames : ∀ s ∈ ms.map Prod.fst, StorableString s :=
      fun s hm => hstr s (by simp [ownStrings] at hm ⊢; exact .inr (.inr hm))
    have hle := countIds_le (ms.map Prod.snd)
    have hlib : ∀ l, library = some l → StorableString l := fun l hl => hstr l (by simp [ownStrings, hl])
    obtain ⟨-, -, -, d4, d5⟩ := declare_ok library c hlib (by omega) [0] [] (by simp) (by simp)
    obtain ⟨f, f1, f2, f3, f4, f5⟩ := declare_written library c hlib (by omega)
    have hsub : ∀ v ∈ ms.map Prod.snd, ∀ u, SubValue u v → Storable u := by
      intro v hv u hu
      simp only [List.mem_map] at hv
      obtain ⟨⟨k, v'⟩, hm, rfl⟩ := hv
      exact hs u (.member hm hu)
    obtain ⟨now, later, g1, -, g3, g4, g5, g6⟩ := items_written (ms.map Prod.snd) (declare library c).2.2.next
      { (declare library c).2.2 with next := (declare library c).2.2.next + countIds (ms.map Prod.snd) } ih hsub
      (by omega) (by omega) (by simp only; omega) (by simp only; omega) (by simp only; omega)
    have hhead := classRecord_head (lib := (declare library c).2.1) h0 h1 hcls f4 hnames (by simpa using hlen)
    have hz : (ms.map Prod.fst).zip (ms.map Prod.snd) = ms := by simp [List.zip_map']
    simp only [record, memberRecords_eq]
    have hrest : Moves (declaredLibs (declare library c).2.2) (now ++ later) _ := (g4 _).append g6
    cases hd : (declare library c).2.1 with
    | none =>
      rw [hd] at f5 hhead
      subst f5
      have ho := Obj.system hhead rfl (by exact hnodup) (n := now) (l := later) (vs := ms.map Prod.snd)
        (by simpa [ClassHead.memberTypes] using g1)
      simp only [hz] at ho
      refine ⟨_, .object f1 ho, ?_, f3.append (.bytes _ hrest)⟩
      simp only [written_append, written_cons, f2, g3, g5, Token.write, List.append_assoc]
    | some k =>
      rw [hd] at f5 hhead
      obtain ⟨name, e1, rfl⟩ := f5
      have ho := Obj.library hhead (k := k) rfl (by exact hnodup) (n := now) (l := later) (vs := ms.map Prod.snd) (library := name)
        (by simpa [ClassHead.memberTypes] using g1)
      simp only [hz] at ho
      refine ⟨_, .object f1 ho, ?_, f3.append (.bytes _ ?_)⟩
      · simp only [written_append, written_cons, f2, g3, g5, Token.write, List.append_assoc, List.nil_append]
      · exact ⟨⟨e1, hrest.1⟩, hrest.2⟩
  | harr vs ih =>
    intro id c hs _ h0 h1 h2 h3 h4
    have hlen : vs.length < 2 ^ 31 := (hs _ (.refl _)).2.2.2
    rw [entities] at h3 h4
    have hle := countIds_le vs
    obtain ⟨now, later, -, g2, g3, g4, g5, g6⟩ := items_written vs c.next { c with next := c.next + countIds vs } ih
      (fun v hv u hu => hs u (.item hv hu)) h2 (by omega) (by simp only; omega) (by simp only; omega) (by simp only; omega)
    simp only [record]
    refine ⟨_, .objectArray (b := 16 :: le 4 id ++ le 4 vs.length) ⟨_, _, ⟨h0, h1, rfl⟩, ⟨hlen, rfl⟩, rfl⟩ g2, ?_,
      .bytes _ ((g4 _).append g6)⟩
    simp only [written_cons, written_append, g3, g5, Token.write, List.append_assoc]
  | hleaf v h1 h2 =>
    intro id c hs hid h0 h1' h2' h3 h4
    cases v with
    | object c l ms => exact absurd rfl (h1 c l ms)
    | array vs => exact absurd rfl (h2 vs)
    | string s =>
      have hss : StorableString s := (hs _ (.refl _)).2.2.1 s (by simp [ownStrings])
      simp only [record]
      exact ⟨_, .string ⟨_, _, ⟨h0, h1', rfl⟩, string_ok hss.2 hss.1, rfl⟩, by simp [written, Token.write], .bytes _ (.nil _)⟩
    | _ => simp [hasId] at hid

/-- The call array, if there is one. -/
theorem callArray_written {o : Option (List Value)}
    (h : ∀ vs, o = some vs → vs.length < 2 ^ 31 ∧ (∀ v ∈ vs, ∀ u, SubValue u v → Storable u) ∧
      1 + itemEntities vs < 2 ^ 31) :
    ∃ callArray ts, Arguments (methodRoot o) callArray ts ∧ written ts = callArrayBytes o ∧ Declared (fun _ => none) ts ∧
      (∀ f : BitVec 32, f.getLsbD 2 = (argsFlag o).getLsbD 2 → f.getLsbD 3 = false →
        ArgsFrom f callArray (inlineArgs o) o) := by
  cases o with
  | none => exact ⟨none, [], .none, rfl, trivial,
      fun f h2 h3 => .inr (.inr ⟨by simpa [argsFlag] using h2, h3, rfl⟩)⟩
  | some vs =>
    by_cases hi : vs.all isInline = true
    · simp only [methodRoot, callArrayBytes, hi, if_true, argsFlag, inlineArgs]
      exact ⟨none, [], .none, rfl, trivial, fun f h2 h3 => .inr (.inr ⟨by simpa using h2, h3, rfl⟩)⟩
    · simp only [methodRoot, callArrayBytes, hi, argsFlag, inlineArgs, Bool.false_eq_true, if_false]
      obtain ⟨hl, hs, hn⟩ := h vs rfl
      have hle := countIds_le vs
      obtain ⟨now, later, -, g2, g3, g4, g5, g6⟩ := items_written vs 2 ⟨2 + countIds vs, []⟩ (fun v _ => record_written v) hs
        (by omega) (by omega) (by simp only; omega) (by simp only; omega) (by simp only [List.length_nil]; omega)
      have hd := (g4 _).append g6
      have e : declaredLibs ⟨2 + countIds vs, []⟩ = fun _ => none := by
        funext k
        simp [declaredLibs, wenv]
      rw [e] at hd
      refine ⟨some vs, _, .some (b := 16 :: le 4 1 ++ le 4 vs.length) (noLibraries 1)
        ⟨_, _, ⟨by omega, by omega, rfl⟩, ⟨hl, rfl⟩, rfl⟩ g2, ?_, hd.1, fun f h2 h3 => .inl ⟨by simpa using h2, vs, rfl, rfl⟩⟩
      simp only [written_cons, written_append, g3, g5, Token.write, record, List.nil_append, List.append_assoc,
        Bool.false_eq_true, if_false]

/-- **C71** (every message) Every message that can be stored is written by the writer of C57, in one of the ways C71
speaks of. -/
theorem C71_write (m : RemotingMessage) (h : Writable m) : Written m (write m) := by
  obtain ⟨hp, hv, hs, hl, hn⟩ := h
  cases m with
  | value v =>
    simp only [topValues, itemEntities] at hn
    rcases hp with hid | rfl
    · obtain ⟨ts, r1, r2, r3⟩ := record_written v 1 ⟨2, []⟩ (fun u hu => hv u ⟨v, by simp [topValues], hu⟩) hid (by omega)
        (by omega) (by simp) (by simp only; omega) (by simp only [List.length_nil]; omega)
      have e : write (.value v) = headerRecord 1 ++ written ts ++ [11] := by
        rw [r2]
        cases v <;> first | rfl | simp [hasId] at hid
      rw [e]
      refine .value (headerRecord_ok (by omega)) r1 ?_
      have e : declaredLibs ⟨2, []⟩ = fun _ => none := by
        funext k
        simp [declaredLibs, wenv]
      rw [← e]
      exact r3.1
    · exact .null (headerRecord_ok (by omega))
  | methodCall c =>
    obtain ⟨name, type, context, args⟩ := c
    have ha : ∀ vs, args = some vs → vs.length < 2 ^ 31 ∧ (∀ v ∈ vs, ∀ u, SubValue u v → Storable u) ∧
        1 + itemEntities vs < 2 ^ 31 := by
      rintro vs rfl
      exact ⟨hl, fun v hm u hu => hv u ⟨v, hm, hu⟩, hn⟩
    obtain ⟨callArray, ts, h1, h2, h3, h4⟩ := callArray_written ha
    have hname : StorableString name := hs name (by simp [topStrings])
    have htype : StorableString type := hs type (by simp [topStrings])
    generalize hf : argsFlag args ||| contextFlag context = f
    have hbits : FlagsOk f ∧ f.getLsbD 5 = context.isSome ∧ f.getLsbD 1 = (inlineArgs args).isSome ∧
        f.getLsbD 2 = (argsFlag args).getLsbD 2 ∧ f.getLsbD 3 = false := by
      subst hf
      rw [← flags_check]
      cases args with
      | none => cases context <;> simp only [argsFlag, inlineArgs, contextFlag, Option.isSome] <;> decide
      | some vs =>
        cases hi : vs.all isInline <;> cases context <;>
          simp only [argsFlag, inlineArgs, contextFlag, Option.isSome, hi, if_true, Bool.false_eq_true, if_false] <;> decide
    obtain ⟨b1, b2, b3, b4, b5⟩ := hbits
    have hb : IsMethodCall f name type context (inlineArgs args) _ :=
      ⟨_, _, _, _, _, rfl, ⟨_, string_ok hname.2 hname.1, rfl⟩, ⟨_, string_ok htype.2 htype.1, rfl⟩,
        context_ok (fun s e => hs s (by simp [topStrings, e])) f b2,
        args_ok (fun vs e => ⟨(ha vs e).1, fun v hm => (ha vs e).2.1 v hm v (.refl v)⟩) f b3, rfl⟩
    have := Written.call (headerRecord_ok (root := methodRoot args) (by unfold methodRoot; split <;> (try split) <;> omega))
      b1 hb h1 h3 (h4 f b4 b5)
    simpa [write, hf, h2, List.append_assoc] using this
  | methodReturn r =>
    obtain ⟨value, context, args⟩ := r
    have ha : ∀ vs, args = some vs → vs.length < 2 ^ 31 ∧ (∀ v ∈ vs, ∀ u, SubValue u v → Storable u) ∧
        1 + itemEntities vs < 2 ^ 31 := by
      rintro vs rfl
      simp only [topValues, Option.getD_some, List.length_append] at hl
      refine ⟨by omega, fun v hm u hu => hv u ⟨v, by simp [topValues, hm], hu⟩, ?_⟩
      have : ∀ l l' : List Value, itemEntities (l ++ l') = itemEntities l + itemEntities l' := by
        intro l l'
        induction l with
        | nil => simp [itemEntities]
        | cons a l ih => simp only [List.cons_append, itemEntities, ih]; omega
      simp only [topValues, Option.getD_some, this] at hn
      omega
    obtain ⟨callArray, ts, h1, h2, h3, h4⟩ := callArray_written ha
    generalize hf : argsFlag args ||| contextFlag context ||| returnFlag value = f
    have hbits : FlagsOk f ∧ f.getLsbD 5 = context.isSome ∧ f.getLsbD 1 = (inlineArgs args).isSome ∧
        f.getLsbD 2 = (argsFlag args).getLsbD 2 ∧ f.getLsbD 3 = false ∧ f.getLsbD 11 = value.isSome := by
      subst hf
      rw [← flags_check]
      cases args with
      | none =>
        cases context <;> cases value <;>
          simp only [argsFlag, inlineArgs, contextFlag, returnFlag, Option.isSome] <;> decide
      | some vs =>
        cases hi : vs.all isInline <;> cases context <;> cases value <;>
          simp only [argsFlag, inlineArgs, contextFlag, returnFlag, Option.isSome, hi, if_true, Bool.false_eq_true, if_false] <;> decide
    obtain ⟨b1, b2, b3, b4, b5, b6⟩ := hbits
    have hval : IsOptional (f.getLsbD 11) IsCodedValue value (value.elim [] coded) := by
      cases value with
      | none => exact .inr ⟨by simpa using b6, rfl, rfl⟩
      | some v => exact .inl ⟨by simpa using b6, v, rfl, coded_ok (hv v ⟨v, by simp [topValues], .refl v⟩) (hp v rfl)⟩
    have hb : IsMethodReturn f value context (inlineArgs args) _ :=
      ⟨_, _, _, _, rfl, hval,
        context_ok (fun s e => hs s (by simp [topStrings, e])) f b2,
        args_ok (fun vs e => ⟨(ha vs e).1, fun v hm => (ha vs e).2.1 v hm v (.refl v)⟩) f b3, rfl⟩
    have := Written.return (headerRecord_ok (root := methodRoot args) (by unfold methodRoot; split <;> (try split) <;> omega))
      b1 hb h1 h3 (h4 f b4 b5)
    simpa [write, hf, h2, List.append_assoc] using this

/-- C71: the object of C57, which has a library, strings and nested arrays, and the call with it. -/
example : Written (.value writeExample) (write (.value writeExample)) ∧ Written writeCall (write writeCall) :=
  ⟨C71_write _ writeExample_writable.1, C71_write _ writeExample_writable.2⟩

end Nrbf
