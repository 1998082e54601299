import Verif.Lemmas.MessageSem
import Verif.Lemmas.Again
import Verif.Lemmas.Grammar
import Verif.Tests
import Verif.Model.ValueEq
import Verif.Tactic.PlatformDecide

/-! # C03, C04, C31 - C37, C45, C49: whole messages -/

namespace Nrbf
open Spec

variable [Platform]

/-! ## C31, C32: the grammar and the parser -/

/-- **C31** Every message of the grammar is accepted and yields the content the grammar assigns. -/
theorem C31_complete {w : Bytes} {m : RemotingMessage} (h : Message w m) : deserialize w = .ok m :=
  deserialize_complete h

/-- **C32** (messages) Whatever is accepted is a message of the grammar with that content, or was
accepted through a second attempt at a record that failed before (C29). -/
theorem C32_message_sound {w : Bytes} {m : RemotingMessage} (h : deserialize w = .ok m) :
    Message w m ∨ Retried w m := message_sound h

/-- **C32** (records) A record is accepted exactly if the grammar derives it, with that value, that
remaining input, and those tables of libraries and objects, for every state a run can be in. -/
theorem C32_record_iff {s : St} (hs : s.classes = []) (i : Bytes) (id : Nat) (r : Bytes) (E : Env) :
    (∃ s', parseReferenceable s i = (.ok r id, s') ∧ abs s' = E) ↔
      ∃ v E1, Record (abs s) i id v E1 r ∧ E = E1.add id v := by
  have hm := parseReferenceable_match hs i
  constructor
  · rintro ⟨s', h, rfl⟩
    exact (hm.1 _ _ _ h).1
  · intro h
    exact hm.2 _ _ _ h

/-- The grammar assigns at most one content to a message. -/
theorem C31_content_unique {w : Bytes} {m m' : RemotingMessage} (h : Message w m)
    (h' : Message w m') : m = m' := by
  have h1 := C31_complete h
  rw [C31_complete h'] at h1
  exact (ApiResult.ok.inj h1).symm

/-! ## C03, C04: the frame of a message -/

theorem header_length {root : Nat} {h : Bytes} (hh : IsHeader root h) : h.length = 17 := by
  obtain ⟨_, _, ⟨_, rfl⟩, h1, rfl⟩ := hh
  simp [h1]

omit [Platform] in
theorem end_of_suffix {i : Bytes} (h : [11] <:+ i) : ∃ body, i = body ++ [11] := by
  obtain ⟨b, hb⟩ := h
  exact ⟨b, hb.symm⟩

theorem accepted_frame {w : Bytes} {m : RemotingMessage} (h : deserialize w = .ok m) :
    ∃ root hd body, IsHeader root hd ∧ w = hd ++ body ++ [11] := by
  suffices ∃ root hd i, IsHeader root hd ∧ w = hd ++ i ∧ [11] <:+ i by
    obtain ⟨root, hd, i, hh, rfl, hs⟩ := this
    obtain ⟨b, rfl⟩ := end_of_suffix hs
    exact ⟨root, hd, b, hh, by simp⟩
  rcases message_sound h with hm | hr
  · cases hm with
    | mk hh hrec ht => exact ⟨_, _, _, hh, rfl, ht.suffix.trans hrec.suffix⟩
  · cases hr with
    | value hh hrec _ _ _ hrec2 => exact ⟨_, _, _, hh, rfl, hrec2.suffix.trans hrec.suffix⟩
    | call hh hrec _ _ _ _ _ _ hrec2 =>
      exact ⟨_, _, _, hh, rfl, hrec2.suffix.trans (suffix_drop hrec.suffix)⟩
    | «return» hh hrec _ _ _ _ _ _ hrec2 =>
      exact ⟨_, _, _, hh, rfl, hrec2.suffix.trans (suffix_drop hrec.suffix)⟩

/-- **C03** An accepted message is a 17-byte header, a body and the MessageEnd byte, its last byte. -/
theorem C03_complete_message {w : Bytes} {m : RemotingMessage} (h : deserialize w = .ok m) :
    ∃ header body, header.length = 17 ∧ w = header ++ body ++ [11] := by
  obtain ⟨root, hd, body, hh, rfl⟩ := accepted_frame h
  exact ⟨hd, body, header_length hh, rfl⟩

/-- **C04** (acceptance) An accepted message starts with record type 0, a root id that is not
negative, any four bytes, major version 1 and minor version 0. -/
theorem C04_header_valid {w : Bytes} {m : RemotingMessage} (h : deserialize w = .ok m) :
    ∃ (root : Nat) (headerId rest : Bytes), root < 2 ^ 31 ∧ headerId.length = 4 ∧
      w = [0] ++ le 4 root ++ headerId ++ le 4 1 ++ le 4 0 ++ rest := by
  obtain ⟨root, hd, body, ⟨_, bh, ⟨hr, rfl⟩, hl, rfl⟩, rfl⟩ := accepted_frame h
  exact ⟨root, bh, body ++ [11], hr, hl, by simp⟩

/-- **C04** (header id) The header id never changes the result. -/
theorem C04_header_id_ignored (root : Nat) (hr : root < 2 ^ 31) (id id' rest : Bytes)
    (h : id.length = 4) (h' : id'.length = 4) :
    deserialize ([0] ++ le 4 root ++ id ++ le 4 1 ++ le 4 0 ++ rest) =
      deserialize ([0] ++ le 4 root ++ id' ++ le 4 1 ++ le 4 0 ++ rest) := by
  have h1 : IsHeader root ([0] ++ le 4 root ++ id ++ le 4 1 ++ le 4 0) := ⟨_, id, ⟨hr, rfl⟩, h, by simp⟩
  have h2 : IsHeader root ([0] ++ le 4 root ++ id' ++ le 4 1 ++ le 4 0) := ⟨_, id', ⟨hr, rfl⟩, h', by simp⟩
  unfold deserialize
  rw [parse_unfold h1, parse_unfold h2]

theorem deserialize_header {w : Bytes} {e : Error} (h : SerializationHeader.parse w = .failure e ∨
    SerializationHeader.parse w = .error e) : deserialize w = .err e := by
  unfold deserialize parseRemotingMessage
  rcases h with h | h <;> simp [lift, h, Res.bind]

/-- **C04** (record type) -/
theorem C04_record_type {w : Bytes} (h : w.head? ≠ some 0) :
    deserialize w = .err ⟨w, .expectedRecordType .serializedStreamHeader⟩ := by
  refine deserialize_header (.inr ?_)
  unfold SerializationHeader.parse
  rw [recordType_mismatch h]
  rfl

omit [Platform] in
theorem int32_int {z : Int} (h : InSigned 4 z) (r : Bytes) : Int32.parse (leInt 4 z ++ r) = .ok r z :=
  (int32_exact _ _ _).mpr ⟨_, ⟨h, rfl⟩, rfl⟩

omit [Platform] in
theorem header_tag (r : Bytes) :
    RecordType.serializedStreamHeader.parse (0 :: r) = .ok r .serializedStreamHeader :=
  (recordType_exact _ _ _ _).mpr ⟨[0], ⟨rfl, rfl⟩, rfl⟩

/-- **C04** (fields) The first violated field of a complete header is named by the error, which
points at that field. -/
theorem C04_fields (root major minor : Int) (headerId rest : Bytes) (h0 : InSigned 4 root)
    (h1 : InSigned 4 major) (h2 : InSigned 4 minor) (hl : headerId.length = 4) :
    let afterId := leInt 4 major ++ (leInt 4 minor ++ rest)
    let w := 0 :: (leInt 4 root ++ (headerId ++ afterId))
    (root < 0 → deserialize w = .err ⟨leInt 4 root ++ (headerId ++ afterId), .invalidRootId⟩) ∧
    (0 ≤ root → major ≠ 1 → deserialize w = .err ⟨afterId, .invalidMajorVersion⟩) ∧
    (0 ≤ root → major = 1 → minor ≠ 0 →
      deserialize w = .err ⟨leInt 4 minor ++ rest, .invalidMinorVersion⟩) := by
  refine ⟨fun h => ?_, fun h h' => ?_, fun h h' h'' => ?_⟩ <;> refine deserialize_header (.inl ?_) <;>
    unfold SerializationHeader.parse <;> rw [header_tag] <;> simp only [Outcome.bind, int32_int h0]
  · rw [if_neg (by omega)]
  · rw [if_pos h]
    simp only [int32_total hl, int32_int h1]
    rw [if_neg h']
  · rw [if_pos h]
    simp only [int32_total hl, int32_int h1, h', if_true]
    rw [← h']
    simp only [int32_int h1]
    simp only [h', if_true, int32_int h2]
    rw [if_neg h'']

omit [Platform] in
theorem int32_short {i : Bytes} (h : i.length < 4) :
    Int32.parse i = .failure ⟨i, .expectedPrimitive .int32⟩ := by
  unfold Int32.parse leSigned leUnsigned takeN
  rw [if_neg (by omega)]
  rfl

/-- **C04** (truncation) A truncated header is rejected. -/
theorem C04_truncated {w : Bytes} (h : w.length < 17) : ∃ e, deserialize w = .err e := by
  cases hp : SerializationHeader.parse w with
  | ok r hd =>
    obtain ⟨root, b, hb, rfl, _⟩ := header_sound hp
    have := header_length hb
    simp at h; omega
  | error e => exact ⟨e, deserialize_header (.inr hp)⟩
  | failure e => exact ⟨e, deserialize_header (.inl hp)⟩
  | panic =>
    have hg := header_good (w := w) (List.suffix_refl w)
    rw [hp] at hg
    exact absurd hg id
  | diverge =>
    have hg := header_good (w := w) (List.suffix_refl w)
    rw [hp] at hg
    exact absurd hg id

/-! ## C37, C49: the root object -/

/-- **C37** (null) With root id 0 and no method record, the result is null. -/
theorem C37_null_root {h i : Bytes} {E : Env} (hh : IsHeader 0 h) (hr : Records Env.empty i E [11]) :
    deserialize (h ++ i) = .ok (.value .null) :=
  C31_complete (.mk hh hr (.value (.inl ⟨rfl, rfl⟩)))

/-- **C37** (object) With a root id and no method record, the result is the object that is registered
under that id after all records. -/
theorem C37_root {root : Nat} {h i : Bytes} {E : Env} {v : Value} (hh : IsHeader root h)
    (h0 : root ≠ 0) (hr : Records Env.empty i E [11]) (hv : E.objs root = some v) :
    deserialize (h ++ i) = .ok (.value v) :=
  C31_complete (.mk hh hr (.value (.inr ⟨h0, hv⟩)))

/-- **C37** (missing) If there is none, the message is rejected. -/
theorem C37_missing_root {root : Nat} {h i : Bytes} {E : Env} (hh : IsHeader root h)
    (h0 : root ≠ 0) (hr : Records Env.empty i E [11]) (hv : E.objs root = none) :
    deserialize (h ++ i) = .err ⟨[], .missingRootObject⟩ := by
  obtain ⟨s1, h1, hE1, hs1⟩ := loops hr (stop11 []) rfl abs_init
  have h2 : ∀ (s : St), optS (parseMethodCallOrReturn (rootOf root)) s [11] = (.ok [11] none, s) := by
    intro s
    obtain ⟨e1, he1⟩ := parseMethodCall_mismatch (s := s) (root := rootOf root) (i := [11])
      (by simp) (by simp)
    obtain ⟨e2, he2⟩ := parseMethodReturn_mismatch (s := s) (root := rootOf root) (i := [11])
      (by simp) (by simp)
    unfold optS parseMethodCallOrReturn
    rw [altMut_skip ⟨e1, by simp only [he1]; rfl⟩, altMut_skip ⟨e2, by simp only [he2]; rfl⟩]
    rfl
  obtain ⟨s3, h3, hE3, hs3⟩ := loops (.nil (E := abs s1) (i := [11])) (stop11 []) hs1 rfl
  have hnone : s3.objects.get? root = none := by
    have : (abs s3).objs root = none := by rw [hE3, hE1, hv]
    exact this
  unfold deserialize
  rw [parse_unfold hh]
  simp only [h1, Res.bind, h2, finish, h3, lift, messageEnd_ok]
  simp [selectRoot, rootOf, h0, hnone]

/-- A message that consists of one record. -/
theorem single_record {root : Nat} {h i : Bytes} {E : Env} {v : Value} (hh : IsHeader root h)
    (h0 : root ≠ 0) (hr : Record Env.empty i root v E [11]) : deserialize (h ++ i) = .ok (.value v) :=
  C37_root hh h0 (.cons hr .nil) (by simp [Env.add])

/-- **C49** (string) -/
theorem C49_string {id : Nat} {h b : Bytes} {s : Str} (hh : IsHeader id h)
    (hb : IsObjectString id s b) : deserialize (h ++ b ++ [11]) = .ok (.value (.string s)) := by
  have h0 : id ≠ 0 := by obtain ⟨_, _, ⟨h, _⟩, _⟩ := hb; omega
  rw [List.append_assoc]
  exact single_record hh h0 (.string hb)

/-- **C49** (primitive array), also **C18**: an ArraySinglePrimitive with any elements of any type
round-trips. -/
theorem C49_primitive_array {id : Nat} {h b b2 : Bytes} {t : PrimitiveType} {vs : List Value}
    (hh : IsHeader id h) (hb : IsPrimitiveArrayHead id vs.length t b)
    (hvs : IsSeq (IsPrimitive t) vs b2) :
    deserialize (h ++ b ++ b2 ++ [11]) = .ok (.value (.array vs)) := by
  have h0 : id ≠ 0 := by obtain ⟨_, ⟨_, _, ⟨h, _⟩, _⟩, _⟩ := hb; omega
  simpa using single_record hh h0 (.primitiveArray (i' := [11]) hb hvs)

/-- **C49** (null) -/
theorem C49_null {h : Bytes} (hh : IsHeader 0 h) : deserialize (h ++ [11]) = .ok (.value .null) :=
  C37_null_root hh .nil

/-! ## C33 - C36: method calls and returns -/

/-- **C33** A method call whose arguments are not in an array is read back exactly: names, context
and arguments, whatever records follow it. -/
theorem C33_method_call {root : Nat} {h b i : Bytes} {f : BitVec 32} {name type : Str}
    {context : Option Str} {args : Option (List Value)} {E : Env} (hh : IsHeader root h)
    (hf : FlagsOk f) (h2 : f.getLsbD 2 = false) (h3 : f.getLsbD 3 = false)
    (hb : IsMethodCall f name type context args b)
    (hi : i.head? ≠ some 16) (hi' : i.head? ≠ some 12) (hrec : Records Env.empty i E [11]) :
    deserialize (h ++ b ++ i) = .ok (.methodCall ⟨name, type, context, args⟩) := by
  rw [List.append_assoc]
  exact C31_complete (.mk hh .nil (.method (.call hf hb (.none hi hi') (.inr (.inr ⟨h2, h3, rfl⟩))) hrec))

/-- **C34** A method return whose arguments are not in an array is read back exactly: return value,
context and arguments. -/
theorem C34_method_return {root : Nat} {h b i : Bytes} {f : BitVec 32} {value : Option Value}
    {context : Option Str} {args : Option (List Value)} {E : Env} (hh : IsHeader root h)
    (hf : FlagsOk f) (h2 : f.getLsbD 2 = false) (h3 : f.getLsbD 3 = false)
    (hb : IsMethodReturn f value context args b)
    (hi : i.head? ≠ some 16) (hi' : i.head? ≠ some 12) (hrec : Records Env.empty i E [11]) :
    deserialize (h ++ b ++ i) = .ok (.methodReturn ⟨value, context, args⟩) := by
  rw [List.append_assoc]
  exact C31_complete (.mk hh .nil (.method (.return hf hb (.none hi hi') (.inr (.inr ⟨h2, h3, rfl⟩))) hrec))

/-- The start of a method message: a header and a method record (call or return) with that flag word
and those inline arguments; `result args` is the content it has with these arguments. -/
inductive IsMethodStart [Platform] (root : Nat) (f : BitVec 32) (inline : Option (List Value)) :
    (Option (List Value) → RemotingMessage) → Bytes → Prop
  | call {h b name type context} : IsHeader root h → FlagsOk f →
      IsMethodCall f name type context inline b →
      IsMethodStart root f inline (fun args => .methodCall ⟨name, type, context, args⟩) (h ++ b)
  | return {h b value context} : IsHeader root h → FlagsOk f →
      IsMethodReturn f value context inline b →
      IsMethodStart root f inline (fun args => .methodReturn ⟨value, context, args⟩) (h ++ b)

/-- **C35** The arguments come from the place the flags name: with ArgsIsArray (bit 2) they are the
call array, with ArgsInArray (bit 3) its first element, which is an array, otherwise the inline
arguments; whatever records follow. -/
theorem C35_arguments {root : Nat} {f : BitVec 32} {inline args : Option (List Value)}
    {result : Option (List Value) → RemotingMessage} {b i : Bytes} {callArray : Option (List Value)}
    {E E' : Env} {i' : Bytes} (hb : IsMethodStart root f inline result b)
    (hc : CallArray root Env.empty i callArray E i') (ha : ArgsFrom f callArray inline args)
    (hr : Records E i' E' [11]) : deserialize (b ++ i) = .ok (result args) := by
  cases hb with
  | call hh hf hb =>
    rw [List.append_assoc]
    exact C31_complete (.mk hh .nil (.method (.call hf hb hc ha) hr))
  | «return» hh hf hb =>
    rw [List.append_assoc]
    exact C31_complete (.mk hh .nil (.method (.return hf hb hc ha) hr))

/-- What the parser does after the header and the stateless part of a method record. -/
theorem method_start {root : Nat} {f : BitVec 32} {inline : Option (List Value)}
    {result : Option (List Value) → RemotingMessage} {b : Bytes}
    (hb : IsMethodStart root f inline result b) (i : Bytes) {e : Error} {s : St}
    (h : (optS (parseCallArray (rootOf root)) St.init i = (.failure e, s)) ∨
      (∃ ca r, optS (parseCallArray (rootOf root)) St.init i = (.ok r ca, s) ∧
        (¬ ∃ args, ArgsFrom f ca inline args) ∧ e = ⟨r, .invalidArgs⟩)) :
    deserialize (b ++ i) = .err e := by
  cases hb with
  | @call hd b name type context hh hf hb =>
    have hhd := methodCall_head (r := i) hb
    obtain ⟨s1, hl, hE1, hs1⟩ := loops (.nil (E := abs St.init) (i := b ++ i))
      (stopByte_of 21 hhd (by simp)) rfl rfl
    have hs : s1 = St.init := by
      unfold parseReferenceables at hl
      unfold referenceablesLoop at hl
      obtain ⟨e', he'⟩ := referenceable_stop (s := St.init) (stopByte_of 21 hhd (by simp))
      rw [he'] at hl
      cases hl
      rfl
    subst hs
    obtain ⟨c, hc, hv⟩ := map_ok ((methodCall_exact (b ++ i) i (f, name, type, context, inline)).mpr
      ⟨b, ⟨hf, hb⟩, rfl⟩)
    simp only [callView, Prod.mk.injEq] at hv
    obtain ⟨rfl, rfl, rfl, rfl, rfl⟩ := hv
    have hcall : parseMethodCall (rootOf root) St.init (b ++ i) = (.failure e, s) := by
      unfold parseMethodCall
      rw [lib_none (by rw [hhd]; decide)]
      simp only [Res.bind, lift, hc]
      rcases h with h | ⟨ca, r, h, ha, rfl⟩
      · rw [h]
      · rw [h]
        simp only
        cases hp : parseArgs c.messageEnum ca c.args with
        | none => rfl
        | some args => exact absurd ⟨args, args_iff.mp hp⟩ ha
    unfold deserialize
    rw [List.append_assoc, parse_unfold hh]
    simp [hl, Res.bind, optS, parseMethodCallOrReturn, altMut, hcall, Res.map, Outcome.map]
  | @«return» hd b value context hh hf hb =>
    have hhd := methodReturn_head (r := i) hb
    obtain ⟨s1, hl, hE1, hs1⟩ := loops (.nil (E := abs St.init) (i := b ++ i))
      (stopByte_of 22 hhd (by simp)) rfl rfl
    have hs : s1 = St.init := by
      unfold parseReferenceables at hl
      unfold referenceablesLoop at hl
      obtain ⟨e', he'⟩ := referenceable_stop (s := St.init) (stopByte_of 22 hhd (by simp))
      rw [he'] at hl
      cases hl
      rfl
    subst hs
    obtain ⟨c, hc, hv⟩ := map_ok ((methodReturn_exact (b ++ i) i (f, value, context, inline)).mpr
      ⟨b, ⟨hf, hb⟩, rfl⟩)
    simp only [returnView, Prod.mk.injEq] at hv
    obtain ⟨rfl, rfl, rfl, rfl⟩ := hv
    obtain ⟨e1, he1⟩ := parseMethodCall_mismatch (s := St.init) (root := rootOf root) (i := b ++ i)
      (by rw [hhd]; decide) (by rw [hhd]; decide)
    have hcall : parseMethodReturn (rootOf root) St.init (b ++ i) = (.failure e, s) := by
      unfold parseMethodReturn
      rw [lib_none (by rw [hhd]; decide)]
      simp only [Res.bind, lift, hc]
      rcases h with h | ⟨ca, r, h, ha, rfl⟩
      · rw [h]
      · rw [h]
        simp only
        cases hp : parseArgs c.messageEnum ca c.args with
        | none => rfl
        | some args => exact absurd ⟨args, args_iff.mp hp⟩ ha
    unfold deserialize
    rw [List.append_assoc, parse_unfold hh]
    simp [hl, Res.bind, optS, parseMethodCallOrReturn, altMut, he1, hcall, Res.map, Outcome.map]

/-- **C35** (invalid) If the place the flags name is missing - no call array, or a call array whose
first element is not an array - the message fails with InvalidArgs, where the call array ends. -/
theorem C35_invalid_args {root : Nat} {f : BitVec 32} {inline : Option (List Value)}
    {result : Option (List Value) → RemotingMessage} {b i : Bytes} {callArray : Option (List Value)}
    {E : Env} {i' : Bytes} (hb : IsMethodStart root f inline result b)
    (hc : CallArray root Env.empty i callArray E i')
    (ha : (f.getLsbD 2 = true ∧ callArray = none) ∨
      (f.getLsbD 2 = false ∧ f.getLsbD 3 = true ∧
        ∀ vs rest, callArray ≠ some (.array vs :: rest))) :
    deserialize (b ++ i) = .err ⟨i', .invalidArgs⟩ := by
  obtain ⟨s, h1, _, _⟩ := optCallArray_complete hc (s := St.init) rfl abs_init
  refine method_start hb i (s := s) (.inr ⟨callArray, i', h1, ?_, rfl⟩)
  rintro ⟨args, ⟨h2, vs, h3, _⟩ | ⟨h2, h3, vs, rest, h4, _⟩ | ⟨h2, h3, _⟩⟩ <;>
    rcases ha with ⟨g1, g2⟩ | ⟨g1, g2, g3⟩ <;> simp_all

/-- **C36** A call array whose id is not the root id of the header is rejected with
InvalidCallArrayId; in particular no call array is accepted with root id 0. -/
theorem C36_call_array_id {root id len : Nat} {f : BitVec 32} {inline : Option (List Value)}
    {result : Option (List Value) → RemotingMessage} {b i b2 i1 : Bytes} {E1 E2 E3 : Env}
    {slots : List Slot} {vs : List Value} {i2 i3 : Bytes} (hb : IsMethodStart root f inline result b)
    (hlib : OptLib Env.empty i E1 (b2 ++ i1)) (hb2 : IsArrayHead 16 id len b2) (hne : id ≠ root)
    (hfill : Fill none len E1 i1 slots E2 i2) (hres : Resolve slots E2 i2 vs E3 i3) :
    deserialize (b ++ i) = .err ⟨i3, .invalidCallArrayId⟩ := by
  obtain ⟨s1, h1, hE1⟩ := (library_match (s := St.init) rfl i).2 () E1 (b2 ++ i1) hlib
  have hs1 := ((library_match (s := St.init) rfl i).1 _ _ _ h1).2.1
  subst hE1
  obtain ⟨s3, h3, hE3⟩ := (arrayOf_match (parsersSem ((b2 ++ i1).length + 1)) none
    arraySingleObject_exact hs1 (i := b2 ++ i1) (by omega)).2 (id, vs) E3 i3
    ⟨len, b2, i1, slots, E2, i2, hb2, rfl, hfill, hres⟩
  refine method_start hb i (s := s3) (.inl ?_)
  unfold optS parseCallArray
  simp only [h1, Res.bind]
  have h3' : parseArraySingleObject s1 (b2 ++ i1) = (.ok i3 (id, vs), s3) := h3
  have hid : 0 < id := by obtain ⟨_, _, ⟨h, _⟩, _⟩ := hb2; exact h
  simp only [h3']
  rw [if_pos]
  · rfl
  · unfold rootOf
    split <;> simp
    exact hne

/-! ## C45: trailing data -/

/-- **C45** A message followed by further bytes is rejected with TrailingData
pointing at exactly these bytes, unless they complete a BinaryLibrary record that was incomplete in
the message. -/
theorem C45_trailing {w t : Bytes} {m : RemotingMessage} (h : Message w m) (ht : t ≠ [])
    (hq : ¬ CompletesLibrary w t) : deserialize (w ++ t) = .err ⟨t, .trailingData⟩ := by
  obtain ⟨s, hs⟩ := message_complete (h.append t hq)
  have : ([] ++ t : Bytes).isEmpty = false := by cases t <;> simp_all
  unfold deserialize
  rw [hs, this]
  rfl

omit [Platform] in
/-- The exception needs the byte 12 in the message. -/
theorem not_completesLibrary {w : Bytes} (h : (12 : UInt8) ∉ w) (t : Bytes) :
    ¬ CompletesLibrary w t := by
  rintro ⟨q, hq, h0, _, hn⟩
  apply hn
  left
  cases q with
  | nil => exact absurd rfl h0
  | cons b q =>
    have : b ∈ w := hq.subset (by simp)
    simp only [List.cons_append, List.head?_cons, ne_eq, Option.some.injEq]
    rintro rfl
    exact h this

/-! ## Concrete cases -/

open Tests (header ascii)

omit [Platform] in
theorem isHeader_header (root : UInt8) (h : root.toNat < 128) : IsHeader root.toNat (header root) := by
  refine ⟨le 4 root.toNat, [0xFF, 0xFF, 0xFF, 0xFF], ⟨by omega, rfl⟩, rfl, ?_⟩
  have h1 : root.toNat % 256 = root.toNat := by omega
  have h2 : root.toNat / 256 = 0 := by omega
  simp [header, le, h1, h2]

/-- A message with one record, from a run of the record parser. -/
theorem message_of_run {root : Nat} {h i : Bytes} {id : Nat} {v : Value} (hh : IsHeader root h)
    (h0 : root ≠ 0) (h1 : (parseReferenceable St.init i).1 = .ok [11] id)
    (h2 : (parseReferenceable St.init i).2.objects.get? root = some v) :
    Message (h ++ i) (.value v) := by
  obtain ⟨v', E1, hr, hE⟩ := (C32_record_iff (s := St.init) rfl i id [11] _).mp
    ⟨(parseReferenceable St.init i).2, Prod.ext h1 rfl, rfl⟩
  exact .mk hh (.cons hr .nil) (.value (.inr ⟨h0, by rw [← hE]; exact h2⟩))

/-- `A { m : object = reference to the string "x", n : int32 = -2 }` -/
def referencing : Bytes :=
  [4, 1,0,0,0, 1,65, 2,0,0,0, 1,109, 1,110, 2, 0, 8, 9, 2,0,0,0, 0xFE,0xFF,0xFF,0xFF,
   6, 2,0,0,0, 1,120, 11]

/-- A message of the grammar, meeting the hypothesis of C31 and C45. -/
theorem referencing_message : Message (header 1 ++ referencing)
    (.value (.object [65] none [([109], .string [120]), ([110], .int32 (-2))])) := by
  refine message_of_run (root := 1) (id := 1) (isHeader_header 1 (by decide)) (by decide) ?_ ?_
  · kernel_decide
  · kernel_decide

example : deserialize (header 1 ++ referencing ++ [1, 2]) = .err ⟨[1, 2], .trailingData⟩ :=
  C45_trailing referencing_message (by decide)
    (not_completesLibrary (by decide) _)

/-- `A { a : byte = 12, b : int32 = 5 }`: from the byte 12 on, the message looks like a BinaryLibrary
record with id 5 whose name has 11 bytes, of which none is there. -/
def incompleteLibrary : Bytes :=
  header 1 ++ [4, 1,0,0,0, 1,65, 2,0,0,0, 1,97, 1,98, 0,0, 2,8, 12, 5,0,0,0, 11]

/-- **C45** (the exception occurs) Followed by eleven letters, this accepted message is
rejected, but not because of trailing data. -/
theorem C45_exception : ∃ w t m, t ≠ [] ∧ deserialize w = .ok m ∧
    deserialize (w ++ t) ≠ .err ⟨t, .trailingData⟩ := by
  refine ⟨incompleteLibrary, ascii "abcdefghijk", .value (.object [65] none [([97], .byte 12),
    ([98], .int32 5)]), by decide, by kernel_decide, ?_⟩
  have : deserialize (incompleteLibrary ++ ascii "abcdefghijk") =
      .err ⟨[], .expectedPrimitive .byte⟩ := by kernel_decide
  rw [this]
  decide

/-- A method call with two inline arguments: `M(true, "x")` of `T`, flags ArgsInline and NoContext. -/
def callBytes : Bytes :=
  [21, 18,0,0,0, 18,1,77, 18,1,84, 2,0,0,0, 1,1, 18,1,120]

omit [Platform] in
theorem short_string (c : UInt8) (h : c.toNat < 128) : IsString [c] [1, c] := by
  refine ⟨[1], ⟨[], 1, by simp, by decide, by simp, by simp, rfl, rfl⟩, ?_, rfl⟩
  refine (utf8Valid_iff _).mp ?_
  have : utf8Valid [c] = true := by
    have hall : ∀ n < 128, utf8Valid [UInt8.ofNat n] = true := by decide +kernel
    simpa using hall c.toNat h
  exact this

theorem callBytes_ok : IsMethodCall 18#32 [77] [84] none (some [.boolean true, .string [120]]) callBytes := by
  refine ⟨[18,0,0,0], [18,1,77], [18,1,84], [], [2,0,0,0, 1,1, 18,1,120], rfl, ⟨_, short_string 77 (by decide), rfl⟩,
    ⟨_, short_string 84 (by decide), rfl⟩, .inr ⟨by decide, rfl, rfl⟩, .inl ⟨by decide, _, rfl, ?_⟩, rfl⟩
  exact ⟨[2,0,0,0], _, ⟨by decide, rfl⟩, ⟨[1, 1], _, .inl ⟨.boolean, [1], rfl, rfl⟩,
    ⟨[18,1,120], [], .inr (.inr ⟨_, rfl, _, short_string 120 (by decide), rfl⟩), rfl, rfl⟩, rfl⟩, rfl⟩

omit [Platform] in
theorem flags18 : FlagsOk 18#32 := by
  rw [← flags_check]; decide

/-- The hypotheses of C33 are met. -/
example : deserialize (header 0 ++ callBytes ++ [11]) =
    .ok (.methodCall ⟨[77], [84], none, some [.boolean true, .string [120]]⟩) :=
  C33_method_call (isHeader_header 0 (by decide)) flags18 (by decide) (by decide) callBytes_ok (by decide)
    (by decide) .nil

/-- A method return with an inline return value, flags ReturnValueInline, NoArgs and NoContext. -/
example : deserialize (header 0 ++ [22, 17,8,0,0, 8, 42,0,0,0] ++ [11]) =
    .ok (.methodReturn ⟨some (.int32 42), none, none⟩) := by
  refine C34_method_return (f := 0x811#32) (isHeader_header 0 (by decide))
    (by rw [← flags_check]; decide) (by decide) (by decide) ?_ (by decide) (by decide) .nil
  exact ⟨[17,8,0,0], [8,42,0,0,0], [], [], rfl, .inl ⟨by decide, _, rfl, .inl ⟨.int32, [42,0,0,0], ⟨⟨by decide, by decide⟩, by decide⟩, rfl⟩⟩,
    .inr ⟨by decide, rfl, rfl⟩, .inr ⟨by decide, rfl, rfl⟩, rfl⟩

/-- The same call with ArgsIsArray (flags 0x14) instead of inline arguments. -/
theorem arrayCall_ok (f : BitVec 32) (hf : FlagsOk f) (h5 : f.getLsbD 5 = false)
    (h1 : f.getLsbD 1 = false) :
    IsMethodStart 1 f none (fun args => .methodCall ⟨[77], [84], none, args⟩)
      (header 1 ++ (21 :: le 4 f.toNat ++ [18,1,77, 18,1,84])) := by
  refine .call (isHeader_header 1 (by decide)) hf ⟨_, [18,1,77], [18,1,84], [], [], rfl,
    ⟨_, short_string 77 (by decide), rfl⟩, ⟨_, short_string 84 (by decide), rfl⟩,
    .inr ⟨h5, rfl, rfl⟩, .inr ⟨h1, rfl, rfl⟩, by simp⟩

theorem callArray_example : CallArray 1 Env.empty ([16, 1,0,0,0, 2,0,0,0, 13,2, 11])
    (some [.null, .null]) Env.empty [11] := by
  refine .some (b := [16, 1,0,0,0, 2,0,0,0]) (i1 := [13,2,11]) (len := 2) (slots := [.nulls 2])
    (i2 := [11]) (E1 := Env.empty) (E2 := Env.empty) (.none (.inl (by decide)))
    ⟨_, _, ⟨by decide, by decide, rfl⟩, ⟨by decide, rfl⟩, rfl⟩ ?_ (.nulls (n := 2) .nil)
  exact .step (by decide) (.nulls (b := [13,2]) (.none (.inl (by decide)))
    (.inr (.inr ⟨by decide, by decide, rfl⟩))) .done

/-- The hypotheses of C35 are met: the call array holds the arguments. -/
example : deserialize (header 1 ++ [21, 20,0,0,0, 18,1,77, 18,1,84] ++ [16, 1,0,0,0, 2,0,0,0, 13,2, 11]) =
    .ok (.methodCall ⟨[77], [84], none, some [.null, .null]⟩) :=
  C35_arguments (arrayCall_ok 20#32 (by rw [← flags_check]; decide) (by decide) (by decide))
    callArray_example (.inl ⟨by decide, _, rfl, rfl⟩) .nil

/-- The hypotheses of C35 (invalid) are met: ArgsInArray, but the first element is null. -/
example : deserialize (header 1 ++ [21, 24,0,0,0, 18,1,77, 18,1,84] ++ [16, 1,0,0,0, 2,0,0,0, 13,2, 11]) =
    .err ⟨[11], .invalidArgs⟩ :=
  C35_invalid_args (arrayCall_ok 24#32 (by rw [← flags_check]; decide) (by decide) (by decide))
    callArray_example (.inr ⟨by decide, by decide, by simp⟩)

/-- The hypotheses of C36 are met: the array has id 2, the root id is 1. -/
example : deserialize (header 1 ++ [21, 20,0,0,0, 18,1,77, 18,1,84] ++ [16, 2,0,0,0, 0,0,0,0, 11]) =
    .err ⟨[11], .invalidCallArrayId⟩ :=
  C36_call_array_id (id := 2) (arrayCall_ok 20#32 (by rw [← flags_check]; decide) (by decide) (by decide))
    (.none (.inl (by decide))) (b2 := [16, 2,0,0,0, 0,0,0,0]) (i1 := [11])
    ⟨_, _, ⟨by decide, by decide, rfl⟩, ⟨by decide, rfl⟩, rfl⟩ (by decide) .done .nil

/-- The hypotheses of C04 (fields) are met with a negative root id. -/
example : deserialize (0 :: ([0xFF,0xFF,0xFF,0xFF] ++ ([0,0,0,0] ++ ([1,0,0,0] ++ ([0,0,0,0] ++ [11]))))) =
    .err ⟨[0xFF,0xFF,0xFF,0xFF] ++ ([0,0,0,0] ++ ([1,0,0,0] ++ ([0,0,0,0] ++ [11]))), .invalidRootId⟩ := by
  have h := (C04_fields (-1) 1 0 [0,0,0,0] [11] ⟨by decide, by decide⟩ ⟨by decide, by decide⟩
    ⟨by decide, by decide⟩ rfl).1 (by decide)
  simp only [show leInt 4 (-1) = [0xFF,0xFF,0xFF,0xFF] by decide, show leInt 4 1 = [1,0,0,0] by decide,
    show leInt 4 0 = [0,0,0,0] by decide] at h
  exact h

/-- The hypotheses of C37 (missing) are met. -/
example : deserialize (header 1 ++ [6, 2,0,0,0, 1,120, 11]) = .err ⟨[], .missingRootObject⟩ :=
  C37_missing_root (isHeader_header 1 (by decide)) (by decide)
    (.cons (id := 2) (i1 := [11]) (.string (b := [6, 2,0,0,0, 1,120]) ⟨[2,0,0,0], [1,120],
      ⟨by decide, by decide, rfl⟩, short_string 120 (by decide), rfl⟩) .nil) (by simp [Env.add, Env.empty])

end Nrbf
