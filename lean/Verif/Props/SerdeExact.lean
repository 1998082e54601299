import Verif.Props.SerdeStruct
import Verif.Lemmas.Utf8
import Verif.Lemmas.Write

/-! # C58: decoding a value is exactly the relation of `Spec/Decode.lean` -/

set_option autoImplicit false

namespace Nrbf

open Spec

variable [Platform] [FloatLib]

/-! ## One character -/

omit [Platform] [FloatLib] in
theorem singleChar_append (c : Char) (r : Str) :
    singleChar (String.utf8EncodeChar c ++ r) = if r = [] then some c.toNat else none := by
  have hv : c.val.toNat < 0xD800 ∨ (0xDFFF < c.val.toNat ∧ c.val.toNat < 0x110000) := c.valid
  show _ = if r = [] then some c.val.toNat else none
  unfold String.utf8EncodeChar
  simp only
  generalize c.val.toNat = v at hv
  split
  · have h0 := ofNat_toNat (m := v) rfl (by omega)
    match r with
    | [] => simp [singleChar, h0]; omega
    | [_] => simp [singleChar, h0]; omega
    | [_, _] => simp [singleChar, h0]; omega
    | [_, _, _] => simp [singleChar, h0]; omega
    | _ :: _ :: _ :: _ :: _ => simp [singleChar]
  · split
    · have h0 := ofNat_toNat (n := v / 64 % 32 + 192) (m := v / 64 + 192) (by omega) (by omega)
      have h1 := ofNat_toNat (n := v % 64 + 128) rfl (by omega)
      match r with
      | [] => simp only [List.append_nil, singleChar, h0, h1, if_true]; rw [if_pos (by omega)]; congr 1; omega
      | [_] => simp only [List.cons_append, List.nil_append, singleChar, h0, reduceCtorEq, if_false]; rw [if_neg (by omega)]
      | [_, _] => simp only [List.cons_append, List.nil_append, singleChar, h0, reduceCtorEq, if_false]; rw [if_neg (by omega)]
      | _ :: _ :: _ :: _ => simp [singleChar]
    · split
      · have h0 := ofNat_toNat (n := v / 4096 % 16 + 224) (m := v / 4096 + 224) (by omega) (by omega)
        have h1 := ofNat_toNat (n := v / 64 % 64 + 128) rfl (by omega)
        have h2 := ofNat_toNat (n := v % 64 + 128) rfl (by omega)
        match r with
        | [] => simp only [List.append_nil, singleChar, h0, h1, h2, if_true]; rw [if_pos (by omega)]; congr 1; omega
        | [_] => simp only [List.cons_append, List.nil_append, singleChar, h0, reduceCtorEq, if_false]; rw [if_neg (by omega)]
        | _ :: _ :: _ => simp [singleChar]
      · have h0 := ofNat_toNat (n := v / 262144 % 8 + 240) (m := v / 262144 + 240) (by omega)
          (by omega)
        have h1 := ofNat_toNat (n := v / 4096 % 64 + 128) rfl (by omega)
        have h2 := ofNat_toNat (n := v / 64 % 64 + 128) rfl (by omega)
        have h3 := ofNat_toNat (n := v % 64 + 128) rfl (by omega)
        match r with
        | [] => simp only [List.append_nil, singleChar, h0, h1, h2, h3, if_true]; rw [if_pos (by omega)]; congr 1; omega
        | _ :: _ => simp [singleChar]

omit [Platform] [FloatLib] in
theorem singleChar_iff {s : Str} (h : IsUtf8 s) (n : Nat) :
    singleChar s = some n ↔ ∃ c : Char, s = String.utf8EncodeChar c ∧ n = c.toNat := by
  constructor
  · intro hs
    obtain ⟨cs, rfl⟩ := h
    match cs with
    | [] => cases hs
    | c :: cs =>
      rw [List.flatMap_cons, singleChar_append] at hs
      split at hs
      · rename_i hr
        cases hs
        exact ⟨c, by rw [List.flatMap_cons, hr, List.append_nil], rfl⟩
      · cases hs
  · rintro ⟨c, rfl, rfl⟩
    have := singleChar_append c []
    rwa [List.append_nil, if_pos rfl] at this

/-- **C54** `char` from characters, and from strings and decimal texts of exactly one character. -/
theorem C54_char (v : Value) (d : Dyn) (hv : ∀ c l m, v ≠ .object c l m) (hs : ∀ s, v = .string s → IsUtf8 s)
    (hd : ∀ x, v = .decimal x → IsUtf8 (Platform.decimalToStr x)) :
    decode v .char = .ok d ↔ (∃ c, v = .char c ∧ d = .char c) ∨
      (∃ c : Char, v = .string (String.utf8EncodeChar c) ∧ d = .char c.toNat) ∨
      ∃ x, ∃ c : Char, v = .decimal x ∧ Platform.decimalToStr x = String.utf8EncodeChar c ∧ d = .char c.toNat := by
  have key : ∀ s, IsUtf8 s → (charOfStr s = .ok d ↔ ∃ c : Char, s = String.utf8EncodeChar c ∧ d = .char c.toNat) := by
    intro s h
    unfold charOfStr
    constructor
    · intro h'
      split at h'
      · rename_i n hn
        cases h'
        obtain ⟨c, h1, rfl⟩ := (singleChar_iff h n).mp hn
        exact ⟨c, h1, rfl⟩
      · cases h'
    · rintro ⟨c, rfl, rfl⟩
      rw [(singleChar_iff h _).mpr ⟨c, rfl, rfl⟩]
  cases v
  case object c l m => exact absurd rfl (hv c l m)
  case null => rw [decode, valueDeser]; simp [Deser.run, accept]
  case string s =>
    rw [decode_plain (by rw [valueDeser]) (by simp)]
    simpa [accept] using key s (hs s rfl)
  case decimal x =>
    rw [decode_plain (by rw [valueDeser]) (by simp)]
    simpa [accept] using key _ (hd x rfl)
  all_goals (rw [decode_plain (by rw [valueDeser]) (by simp)]; simp [accept, eq_comm])

/-! ## From the relation to the code -/

/-- What the code needs to know of a value. -/
def Shaped (v : Value) : Prop :=
  ∀ u, SubValue u v → (∀ z, u = .int32 z → InSigned 4 z) ∧ NamesDistinct u ∧
    ∀ items size, IsList u items size → items.length < 2 ^ (usizeBits - 2)

omit [FloatLib] in
theorem Sane.shaped {v : Value} (h : Sane v) : Shaped v := fun u hu => by
  obtain ⟨h1, h2, -, -, h3⟩ := h u hu
  refine ⟨?_, h2, h3⟩
  rintro z rfl
  exact ⟨by simpa [FitsType] using h1.1, by simpa [FitsType] using h1.2⟩

omit [FloatLib] in
theorem Shaped.item {vs : List Value} (h : Shaped (.array vs)) {v : Value} (hv : v ∈ vs) : Shaped v :=
  fun u hu => h u (.item hv hu)

omit [FloatLib] in
theorem Shaped.member {c : Str} {l : Option Str} {ms : List (Str × Value)} (h : Shaped (.object c l ms)) {k : Str}
    {v : Value} (hv : (k, v) ∈ ms) : Shaped v :=
  fun u hu => h u (.member hv hu)

omit [FloatLib] in
theorem Shaped.elements {slack : Nat} {v : Value} {vs : List Value} (h : Shaped v) (he : Elements slack v vs) :
    ∀ u ∈ vs, Shaped u := by
  cases he with
  | array vs => exact fun u hu => h.item hu
  | @list _ items size hl _ =>
    obtain ⟨cls, ms, version, rfl, -, -, -, hm, -⟩ := hl
    exact fun u hu => (h.member hm).item (List.mem_of_mem_take hu)

omit [FloatLib] in
theorem BoxedPrim.shaped {name : Str} {P : Ty} {x : Dyn} {s : Value} (h : BoxedPrim name P x s) : Shaped s ∧ P.Proper := by
  cases h
  all_goals
    refine ⟨?_, by first | exact .int _ _ | constructor⟩
    intro u hu
    cases hu
    refine ⟨?_, trivial, by rintro _ _ ⟨_, _, _, e, _⟩; cases e⟩
    intro z hz
    first
    | (cases hz; assumption)
    | cases hz

omit [FloatLib] in
theorem isList_shaped {v : Value} {items : List Value} {size : Int} (h : Shaped v) (hl : IsList v items size) :
    InSigned 4 size ∧ items.length < 2 ^ (usizeBits - 2) := by
  refine ⟨?_, (h _ (.refl _)).2.2 _ _ hl⟩
  obtain ⟨cls, ms, version, rfl, -, -, -, hm, hsz, -⟩ := hl
  exact (h _ (.member hsz (.refl _))).1 _ rfl

theorem accept_all {v : Value} {vs : List Value} {T : Ty} {ds : List Dyn} (hs : Shaped v) (he : Elements 1 v vs)
    (h : AllDecode T vs ds) :
    decode v (.vec T) = .ok (.seq ds) ∧ (T = .ignored → decode v .ignored = .ok .ignored) := by
  cases he with
  | array vs =>
    refine ⟨(C44_vec _ _ _).mpr ⟨ds, rfl, by rw [h.length.2, ← h.length.1], h⟩, ?_⟩
    rintro rfl
    rw [decode_array _ _ (by simp) (by simp)]
    simp only [accept, map_ok_iff, visitArray_all]
    exact ⟨ds, h, trivial⟩
  | @list _ items size hl hsz =>
    obtain ⟨h1, h2⟩ := isList_shaped hs hl
    refine ⟨(C40_vec v items size T _ hl h1 h2).mpr ⟨by omega, by omega, ds, rfl, by simpa using h⟩, ?_⟩
    rintro rfl
    obtain ⟨cls, ms, rfl, ho⟩ := objectAny_list hl
    rw [decode_object _ _ _ _ (by simp) (by simp), ho]
    simp only [accept, map_ok_iff, visitList_all]
    rw [asUsize_eq (by omega) h1]
    exact ⟨ds, ⟨by simpa using hsz, by simpa using h⟩, trivial⟩

theorem accept_any {v : Value} {vs : List Value} {ds : List Dyn} (hs : Shaped v) (he : Elements 1 v vs)
    (h : AllDecode .any vs ds) : decode v .any = .ok (.seq ds) := by
  cases he with
  | array vs =>
    rw [decode_array _ _ (by simp) (by simp)]
    simp only [accept, map_ok_iff, visitArray_all]
    exact ⟨ds, h, rfl⟩
  | @list _ items size hl hsz =>
    obtain ⟨h1, h2⟩ := isList_shaped hs hl
    obtain ⟨cls, ms, rfl, ho⟩ := objectAny_list hl
    rw [decode_object _ _ _ _ (by simp) (by simp), ho]
    simp only [accept, map_ok_iff, visitList_all]
    rw [asUsize_eq (by omega) h1]
    exact ⟨ds, ⟨by simpa using hsz, by simpa using h⟩, rfl⟩

theorem accept_each {v : Value} {vs : List Value} {Ts : List Ty} {ds : List Dyn} (hs : Shaped v) (he : Elements 0 v vs)
    (h : Pointwise vs Ts ds) :
    decode v (.tuple Ts) = .ok (.tuple ds) ∧ ∀ T d, Ts = [T] → ds = [d] → decode v (.newtype T) = .ok (.newtype d) := by
  cases he with
  | array vs =>
    refine ⟨(C44_tuple _ _ _).mpr ⟨ds, rfl, h.length.1, h⟩, ?_⟩
    rintro T d rfl rfl
    rw [decode_array _ _ (by simp) (by simp)]
    simp only [accept, map_ok_iff, visitArray_each]
    exact ⟨[d], h, rfl⟩
  | @list _ items size hl hsz =>
    obtain ⟨h1, h2⟩ := isList_shaped hs hl
    have hlen := h.length.1
    rw [List.length_take] at hlen
    refine ⟨(C40_tuple v items size Ts _ hl h1 h2).mpr ⟨by omega, by omega, ds, rfl, by simpa using h⟩, ?_⟩
    rintro T d rfl rfl
    obtain ⟨cls, ms, rfl, ho⟩ := objectAny_list hl
    rw [decode_object _ _ _ _ (by simp) (by simp), ho]
    simp only [accept, map_ok_iff, visitList_each]
    rw [asUsize_eq (by omega) h1]
    simp only [List.length_singleton] at hlen
    exact ⟨[d], ⟨by simp; omega, by simp; omega, by simpa using h⟩, rfl⟩

/-- An object that is read as a map. -/
theorem objectAny_plain {cls : Str} {lib : Option Str} (h : PlainObject cls lib) (ms : List (Str × Value)) :
    objectAny cls lib (memberNodes ms) = .visitMap (entriesOf ms) := by
  rw [← entries_memberNodes]
  unfold objectAny
  rcases h with h | h
  · rw [if_pos (by cases lib <;> simp_all)]
  · refine ite_ind (fun c => c = _) (fun _ => rfl) fun _ => ?_
    have h' : classBase cls ∉ systemClasses := h
    simp only [systemClasses, List.mem_cons, List.not_mem_nil, or_false, not_or] at h'
    obtain ⟨a1, a2, a3, a4, a5, a6, a7, a8, a9, a10, a11, a12, a13⟩ := h'
    simp only [a1, a2, a3, a4, a5, a6, a7, a8, a9, a10, a11, a12, a13, if_false]

theorem readMap_entries {ms : List (Str × Value)} {T : Ty} {ds : List (Str × Dyn)} :
    readMap T (entriesOf ms) = .ok ds ↔ Pointwise (ms.map Prod.snd) (List.replicate ms.length T) (ds.map Prod.snd) ∧
      ds.map Prod.fst = ms.map Prod.fst := by
  induction ms generalizing ds with
  | nil =>
    simp only [entriesOf, List.map_nil, readMap, Except.ok.injEq, List.length_nil, List.replicate_zero, List.map_eq_nil_iff]
    constructor
    · rintro rfl; exact ⟨.nil, rfl⟩
    · rintro ⟨_, rfl⟩; rfl
  | cons m ms ih =>
    obtain ⟨k, v⟩ := m
    rw [show entriesOf ((k, v) :: ms) = (k, decode v) :: entriesOf ms from rfl]
    simp only [readMap, List.map_cons, List.length_cons, List.replicate_succ]
    constructor
    · intro h
      split at h
      · rename_i d hd
        split at h
        · rename_i ds' hds
          cases h
          obtain ⟨h1, h2⟩ := ih.mp hds
          exact ⟨.cons hd h1, by simp [h2]⟩
        · cases h
      · cases h
    · rintro ⟨h1, h2⟩
      match ds with
      | [] => cases h2
      | (k', d) :: ds =>
        simp only [List.map_cons, List.cons.injEq] at h1 h2
        cases h1 with
        | cons h3 h4 =>
          rw [h3]
          simp only [ih.mpr ⟨h4, h2.2⟩, h2.1]

theorem leaf_ignored {v : Value} (h : IsLeaf v) : decode v .ignored = .ok .ignored := by
  cases v
  case object => exact h.elim
  case array => exact h.elim
  case null => rw [decode, valueDeser]; rfl
  all_goals (rw [decode_plain (by rw [valueDeser]) (by simp)]; rfl)

theorem leaf_any {v : Value} {d : Dyn} (h : IsLeaf v) : decode v .any = .ok d ↔ v.asIs = some d := by
  cases v
  case object => exact h.elim
  case array => exact h.elim
  case null =>
    rw [decode, valueDeser]
    show accept .any .visitUnit = _ ↔ _
    simp [accept, Value.asIs]
  all_goals
    rw [decode_plain (by rw [valueDeser]) (by simp)]
    simp [accept, Value.asIs, Value.integer?]

omit [FloatLib] in
theorem asIs_leaf {v : Value} {d : Dyn} (h : v.asIs = some d) : IsLeaf v := by
  cases v <;> first | trivial | cases h

omit [Platform] [FloatLib] in
theorem noStruct {T : Ty} (h1 : ∀ fs, T ≠ .struct fs) (h2 : ∀ T', T ≠ .option T') : NoStruct T := by
  cases T <;> first | trivial | exact absurd rfl (h1 _) | exact absurd rfl (h2 _)

mutual
theorem decodes_complete {v : Value} {T : Ty} {d : Dyn} : Decodes v T d → Shaped v → T.Proper → decode v T = .ok d
  | .bool b, _, _ => (C54_bool _ _ (by simp)).mpr ⟨b, rfl, rfl⟩
  | .int h1 h2 h3, _, _ => by rw [C52 _ _ h1, if_pos ⟨h2, h3⟩]
  | .f32 b, _, _ => (C54_f32 _ _ (by simp)).mpr (.inl ⟨b, rfl, rfl⟩)
  | .f32OfDouble b, _, _ => (C54_f32 _ _ (by simp)).mpr (.inr (.inl ⟨b, rfl, rfl⟩))
  | .f32OfInteger h, _, _ => (C54_f32 _ _ (by rintro c l m rfl; cases h)).mpr (.inr (.inr ⟨_, h, rfl⟩))
  | .f64 b, _, _ => (C54_f64 _ _ (by simp)).mpr (.inl ⟨b, rfl, rfl⟩)
  | .f64OfSingle b, _, _ => (C54_f64 _ _ (by simp)).mpr (.inr (.inl ⟨b, rfl, rfl⟩))
  | .f64OfInteger h, _, _ => (C54_f64 _ _ (by rintro c l m rfl; cases h)).mpr (.inr (.inr ⟨_, h, rfl⟩))
  | .char c, _, _ => (C54_char _ _ (by simp) (by simp) (by simp)).mpr (.inl ⟨c, rfl, rfl⟩)
  | .charOfString c, _, _ => (C54_char _ _ (by simp) (by rintro s ⟨⟩; exact ⟨[c], by simp⟩) (by simp)).mpr (.inr (.inl ⟨c, rfl, rfl⟩))
  | .charOfDecimal x c h, _, _ => (C54_char _ _ (by simp) (by simp) (by rintro s ⟨⟩; exact ⟨[c], by simp [h]⟩)).mpr
      (.inr (.inr ⟨x, c, rfl, h, rfl⟩))
  | .str s, _, _ => (C54_str _ _ (by simp)).mpr ⟨s, rfl, rfl⟩
  | .string s, _, _ => (C54_string _ _ (by simp)).mpr (.inl ⟨s, rfl, rfl⟩)
  | .stringOfDecimal x, _, _ => (C54_string _ _ (by simp)).mpr (.inr (.inl ⟨x, rfl, rfl⟩))
  | .stringOfChar c, _, _ => (C54_string _ _ (by simp)).mpr (.inr (.inr ⟨c, rfl, rfl⟩))
  | .unit, _, _ => (C54_unit _ _ (by simp)).mpr ⟨rfl, rfl⟩
  | .none T, _, _ => C42_none T
  | .some hv h, hs, .option hT => by rw [C42_some _ _ hv, decodes_complete h hs hT]; rfl
  | .vec he h, hs, .vec hT => (accept_all hs he (decodesAll_complete h (hs.elements he) hT)).1
  | .tuple he h, hs, .tuple hT => (accept_each hs he (decodesEach_complete h (hs.elements he) hT)).1
  | .newtype he h, hs, .newtype hT =>
    (accept_each hs he (.cons (decodes_complete h (hs.elements he _ (by simp)) hT) .nil)).2 _ _ rfl rfl
  | .map hp h, hs, .map hT => by
    rw [decode_object _ _ _ _ (by simp) (by simp), objectAny_plain hp]
    simp only [accept, map_ok_iff]
    exact ⟨_, readMap_entries.mpr (entriesDecode_complete h (fun _ _ hm => hs.member hm) hT), rfl⟩
  | .struct h h', hs, .struct hn hT => by
    refine (C53 _ _ _ _ _ (hs _ (.refl _)).2.1 hn).mpr ⟨?_, _, rfl, fieldsDecode_complete h (fun _ _ hm => hs.member hm) hT⟩
    intro m hm hk
    exact ⟨_, decodes_complete (h' m hm hk) (hs.member hm) .ignored⟩
  | .structOfArray h, hs, .struct _ hT => by
    show (valueDeser _).run _ = _
    rw [valueDeser, itemDesers_eq]
    show accept _ (.visitArray _) = _
    simp only [accept, map_ok_iff, visitArray_each]
    exact ⟨_, decodesEach_complete h (fun u hu => hs.item hu) (by intro T hm; obtain ⟨f, hf, rfl⟩ := List.mem_map.mp hm; exact hT f hf), rfl⟩
  | .boxed (T := T) hc hb hw h1 h2 h, hs, hT => by
    obtain ⟨hs1, hs2⟩ := hb.shaped
    rw [C41 _ _ _ _ _ _ hb hc (decodes_complete hw (hs.member (List.mem_singleton.mpr rfl)) hs2) T (noStruct h1 h2)]
    exact decodes_complete h hs1 hT
  | .ignoredLeaf h, _, _ => leaf_ignored h
  | .ignoredElements he h, hs, _ => (accept_all hs he (decodesAll_complete h (hs.elements he) .ignored)).2 rfl
  | .ignoredMap hp h, hs, _ => by
    rw [decode_object _ _ _ _ (by simp) (by simp), objectAny_plain hp]
    simp only [accept, map_ok_iff]
    exact ⟨_, readMap_entries.mpr (entriesDecode_complete h (fun _ _ hm => hs.member hm) .ignored), trivial⟩
  | .anyLeaf h, _, _ => (leaf_any (asIs_leaf h)).mpr h
  | .anyElements he h, hs, _ => accept_any hs he (decodesAll_complete h (hs.elements he) .any)
  | .anyMap hp h, hs, _ => by
    rw [decode_object _ _ _ _ (by simp) (by simp), objectAny_plain hp]
    simp only [accept, map_ok_iff]
    exact ⟨_, readMap_entries.mpr (entriesDecode_complete h (fun _ _ hm => hs.member hm) .any), rfl⟩
theorem decodesAll_complete {vs : List Value} {T : Ty} {ds : List Dyn} : DecodesAll vs T ds → (∀ v ∈ vs, Shaped v) →
    T.Proper → AllDecode T vs ds
  | .nil _, _, _ => .nil
  | .cons h h', hs, hT => .cons (decodes_complete h (hs _ (by simp)) hT)
      (decodesAll_complete h' (fun v hv => hs v (by simp [hv])) hT)
theorem decodesEach_complete {vs : List Value} {Ts : List Ty} {ds : List Dyn} : DecodesEach vs Ts ds →
    (∀ v ∈ vs, Shaped v) → (∀ T ∈ Ts, T.Proper) → Pointwise vs Ts ds
  | .nil, _, _ => .nil
  | .cons h h', hs, hT => .cons (decodes_complete h (hs _ (by simp)) (hT _ (by simp)))
      (decodesEach_complete h' (fun v hv => hs v (by simp [hv])) (fun T hm => hT T (by simp [hm])))
theorem entriesDecode_complete {ms : List (Str × Value)} {T : Ty} {ds : List (Str × Dyn)} : EntriesDecode ms T ds →
    (∀ k v, (k, v) ∈ ms → Shaped v) → T.Proper →
    Pointwise (ms.map Prod.snd) (List.replicate ms.length T) (ds.map Prod.snd) ∧ ds.map Prod.fst = ms.map Prod.fst
  | .nil _, _, _ => ⟨.nil, rfl⟩
  | .cons h h', hs, hT => by
    obtain ⟨h1, h2⟩ := entriesDecode_complete h' (fun k v hv => hs k v (by simp [hv])) hT
    exact ⟨.cons (decodes_complete h (hs _ _ (List.mem_cons_self ..)) hT) h1, by simp [h2]⟩
theorem fieldsDecode_complete {ms : List (Str × Value)} {fs : List (Str × Ty)} {ds : List (Str × Dyn)} :
    FieldsDecode ms fs ds → (∀ k v, (k, v) ∈ ms → Shaped v) → (∀ f ∈ fs, f.2.Proper) → FieldValues ms fs ds
  | .nil _, _, _ => .nil
  | .found hm h h', hs, hT => .cons (.found hm (decodes_complete h (hs _ _ hm) (hT _ (List.mem_cons_self ..))))
      (fieldsDecode_complete h' hs (fun f hf => hT f (by simp [hf])))
  | .missing hm h', hs, hT => .cons (.missing hm) (fieldsDecode_complete h' hs (fun f hf => hT f (by simp [hf])))
end

/-! ## From the code to the relation -/

theorem decodesAll_of {T : Ty} {vs : List Value} {ds : List Dyn} (h : AllDecode T vs ds)
    (ih : ∀ v ∈ vs, ∀ d, decode v T = .ok d → Decodes v T d) : DecodesAll vs T ds := by
  unfold AllDecode at h
  induction vs generalizing ds with
  | nil => cases h; exact .nil T
  | cons v vs hi =>
    rw [List.length_cons, List.replicate_succ] at h
    cases h with
    | cons h1 h2 => exact .cons (ih v (by simp) _ h1) (hi h2 fun v hv => ih v (by simp [hv]))

theorem decodesEach_of {Ts : List Ty} {vs : List Value} {ds : List Dyn} (h : Pointwise vs Ts ds)
    (ih : ∀ v ∈ vs, ∀ T ∈ Ts, ∀ d, decode v T = .ok d → Decodes v T d) : DecodesEach vs Ts ds := by
  induction h with
  | nil => exact .nil
  | cons h1 h2 hi =>
    exact .cons (ih _ (by simp) _ (by simp) _ h1) (hi fun v hv T hT => ih v (by simp [hv]) T (by simp [hT]))

theorem entriesDecode_of {T : Ty} {ms : List (Str × Value)} {ds : List (Str × Dyn)}
    (h : readMap T (entriesOf ms) = .ok ds) (ih : ∀ v ∈ ms.map Prod.snd, ∀ d, decode v T = .ok d → Decodes v T d) :
    EntriesDecode ms T ds := by
  induction ms generalizing ds with
  | nil => cases h; exact .nil T
  | cons m ms hi =>
    obtain ⟨k, v⟩ := m
    rw [show entriesOf ((k, v) :: ms) = (k, decode v) :: entriesOf ms from rfl] at h
    simp only [readMap] at h
    split at h
    · rename_i d hd
      split at h
      · rename_i ds' hds
        cases h
        exact .cons (ih v (by simp) d hd) (hi hds fun v hv => ih v (by simp at hv ⊢; exact .inr hv))
      · cases h
    · cases h

theorem fieldsDecode_of {ms : List (Str × Value)} {fs : List (Str × Ty)} {ds : List (Str × Dyn)}
    (h : FieldValues ms fs ds)
    (ih : ∀ k v, (k, v) ∈ ms → ∀ f ∈ fs, ∀ d, decode v f.2 = .ok d → Decodes v f.2 d) : FieldsDecode ms fs ds := by
  induction h with
  | nil => exact .nil ms
  | cons h1 h2 hi =>
    have := hi fun k v hv f hf => ih k v hv f (by simp [hf])
    cases h1 with
    | found hm hd => exact .found hm (ih _ _ hm _ (List.mem_cons_self ..) _ hd) this
    | missing hm => exact .missing hm this

omit [FloatLib] in
theorem Sane.item {vs : List Value} (h : Sane (.array vs)) {v : Value} (hv : v ∈ vs) : Sane v :=
  fun u hu => h u (.item hv hu)

omit [FloatLib] in
theorem Sane.member {c : Str} {l : Option Str} {ms : List (Str × Value)} (h : Sane (.object c l ms)) {k : Str}
    {v : Value} (hv : (k, v) ∈ ms) : Sane v :=
  fun u hu => h u (.member hv hu)

/-- Leaves. -/
theorem leaf_sound {v : Value} (hl : IsLeaf v) (hs : ∀ s, v = .string s → IsUtf8 s)
    (hd : ∀ x, v = .decimal x → IsUtf8 (Platform.decimalToStr x)) (T : Ty) (d : Dyn) (h : decode v T = .ok d) : Decodes v T d := by
  have ho : ∀ c l m, v ≠ .object c l m := by rintro c l m rfl; exact hl
  have none : ∀ T, (T = .enum ∨ (∃ T', T = .vec T') ∨ (∃ T', T = .tuple T') ∨ (∃ T', T = .map T') ∨
      (∃ T', T = .struct T') ∨ ∃ T', T = .newtype T') → ∀ d, decode v T ≠ .ok d := by
    intro T hT d h
    cases v
    case object => exact hl
    case array => exact hl
    all_goals
      rcases hT with rfl | ⟨T', rfl⟩ | ⟨T', rfl⟩ | ⟨T', rfl⟩ | ⟨T', rfl⟩ | ⟨T', rfl⟩ <;>
        (unfold decode at h; rw [valueDeser] at h; cases h)
  induction T using NoStruct.induct generalizing d with
  | case1 fs => exact absurd h (none _ (by simp) d)
  | case2 T ih =>
    by_cases hn : v = .null
    · subst hn
      rw [C42_none] at h
      cases h
      exact .none T
    · rw [C42_some _ _ hn, map_ok_iff] at h
      obtain ⟨d, h, rfl⟩ := h
      exact .some hn (ih d h)
  | case3 T h1 h2 =>
    cases T with
    | bool => obtain ⟨b, rfl, rfl⟩ := (C54_bool v d ho).mp h; exact .bool b
    | int lo hi => obtain ⟨n, h1, h2, h3, rfl⟩ := (C54_int v d lo hi ho).mp h; exact .int h1 h2 h3
    | f32 =>
      rcases (C54_f32 v d ho).mp h with ⟨b, rfl, rfl⟩ | ⟨b, rfl, rfl⟩ | ⟨n, h', rfl⟩
      · exact .f32 b
      · exact .f32OfDouble b
      · exact .f32OfInteger h'
    | f64 =>
      rcases (C54_f64 v d ho).mp h with ⟨b, rfl, rfl⟩ | ⟨b, rfl, rfl⟩ | ⟨n, h', rfl⟩
      · exact .f64 b
      · exact .f64OfSingle b
      · exact .f64OfInteger h'
    | char =>
      rcases (C54_char v d ho hs hd).mp h with ⟨c, rfl, rfl⟩ | ⟨c, rfl, rfl⟩ | ⟨x, c, rfl, h', rfl⟩
      · exact .char c
      · exact .charOfString c
      · exact .charOfDecimal x c h'
    | str => obtain ⟨s, rfl, rfl⟩ := (C54_str v d ho).mp h; exact .str s
    | string =>
      rcases (C54_string v d ho).mp h with ⟨s, rfl, rfl⟩ | ⟨x, rfl, rfl⟩ | ⟨c, rfl, rfl⟩
      · exact .string s
      · exact .stringOfDecimal x
      · exact .stringOfChar c
    | unit => obtain ⟨rfl, rfl⟩ := (C54_unit v d ho).mp h; exact .unit
    | option T => exact (h2 T rfl).elim
    | struct fs => exact (h1 fs rfl).elim
    | ignored => rw [leaf_ignored hl] at h; cases h; exact .ignoredLeaf hl
    | any => exact .anyLeaf ((leaf_any hl).mp h)
    | _ => exact absurd h (none _ (by simp) d)

/-- The three things `deserialize_any` does with an object, and when. -/
theorem objectAny_cases' (motive : VCall Child → Prop) (cls : Str) (lib : Option Str) (ms : List (Str × Value))
    (hmap : PlainObject cls lib → motive (.visitMap (entriesOf ms)))
    (hbox : ∀ name P visit, (name, P, visit) ∈ boxTable → lib = none → classBase cls = name →
      motive (unboxed P visit (entriesOf ms)))
    (hlist : lib = none → classBase cls = lit "System.Collections.Generic.List" →
      motive (match listMembers (memberNodes ms) with
      | some (items, size) => .visitList items (asUsize size)
      | none => .fail .serde)) : motive (objectAny cls lib (memberNodes ms)) := by
  by_cases h : PlainObject cls lib
  · rw [objectAny_plain h]; exact hmap h
  · have h1 : lib = none := Decidable.byContradiction fun h' => h (.inl h')
    have h2 : cls.takeWhile (· ≠ 96) ∈ systemClasses := Decidable.byContradiction fun h' => h (.inr h')
    subst h1
    clear h
    rw [show systemClasses = boxTable.map Prod.fst ++ [lit "System.Collections.Generic.List"] from rfl] at h2
    rcases List.mem_append.mp h2 with h | h
    · obtain ⟨⟨name, P, visit⟩, ht, hc⟩ := List.mem_map.mp h
      replace hc : classBase cls = name := hc.symm
      rw [objectAny_box ht hc]
      exact hbox name P visit ht rfl hc
    · have hc : classBase cls = lit "System.Collections.Generic.List" := List.mem_singleton.mp h
      have := hlist rfl hc
      unfold objectAny
      simp only [Option.isSome_none, hc]
      exact this

theorem ignored_result {v : Value} {d : Dyn} (h : decode v .ignored = .ok d) : d = .ignored := by
  replace h : accept .ignored (valueDeser v).any = .ok d := h
  cases hc : (valueDeser v).any <;> rw [hc] at h <;> simp only [accept, map_ok_iff, Except.ok.injEq, reduceCtorEq] at h
  all_goals first
    | exact h.symm
    | exact h.choose_spec.2.symm

/-- The code's reading of a value is in the relation. -/
def Sound (v : Value) : Prop := Sane v → ∀ T, T.Proper → ∀ d, decode v T = .ok d → Decodes v T d

/-- Objects at a type that is no struct and no option. -/
theorem object_sound {cls : Str} {lib : Option Str} {ms : List (Str × Value)} (hs : Sane (.object cls lib ms))
    (ih : ∀ k v, (k, v) ∈ ms → ∀ u, SubValue u v → Sound u)
    {T : Ty} (h1 : ∀ fs, T ≠ .struct fs) (h2 : ∀ T', T ≠ .option T') (hT : T.Proper) {d : Dyn}
    (h : decode (.object cls lib ms) T = .ok d) : Decodes (.object cls lib ms) T d := by
  rw [decode_object _ _ _ _ h2 h1] at h
  revert h
  refine objectAny_cases' (fun c => accept T c = .ok d → _) cls lib ms ?_ ?_ ?_
  · intro hp h
    have ih' : ∀ T, T.Proper → ∀ v ∈ ms.map Prod.snd, ∀ d, decode v T = .ok d → Decodes v T d := by
      intro T hT v hv d hd
      obtain ⟨⟨k, v⟩, hm, rfl⟩ := List.mem_map.mp hv
      exact ih k v hm v (.refl v) (hs.member hm) T hT d hd
    cases hT with
    | @map T hT =>
      simp only [accept, map_ok_iff] at h
      obtain ⟨ds, h, rfl⟩ := h
      exact .map hp (entriesDecode_of h (ih' T hT))
    | ignored =>
      simp only [accept, map_ok_iff] at h
      obtain ⟨ds, h, rfl⟩ := h
      exact .ignoredMap hp (entriesDecode_of h (ih' _ .ignored))
    | any =>
      simp only [accept, map_ok_iff] at h
      obtain ⟨ds, h, rfl⟩ := h
      exact .anyMap hp (entriesDecode_of h (ih' _ .any))
    | struct => exact absurd rfl (h1 _)
    | option => exact absurd rfl (h2 _)
    | _ => cases h
  · intro name P visit ht hl hc h
    unfold unboxed at h
    cases hu : unbox P (entriesOf ms) with
    | error e => rw [hu] at h; simp only [accept_fail] at h; cases h
    | ok x =>
      rw [hu] at h
      simp only at h
      obtain ⟨w, rfl, hw⟩ := unbox_ok hu
      obtain ⟨s, hb⟩ := boxedPrim_of_decode ht hw
      obtain ⟨visit', ht', hv⟩ := hb.table
      have : visit' = visit := by
        rcases boxTable_visit ht with ⟨rfl, rfl⟩ | ⟨⟨a, b, rfl⟩, rfl⟩ | ⟨rfl, rfl⟩ | ⟨rfl, rfl⟩ | ⟨rfl, rfl⟩ <;>
          rcases boxTable_visit ht' with ⟨h, rfl⟩ | ⟨⟨a, b, h⟩, rfl⟩ | ⟨h, rfl⟩ | ⟨h, rfl⟩ | ⟨h, rfl⟩ <;>
            first | rfl | cases h
      subst this
      have hd : decode s T = .ok d := by
        show (valueDeser s).run T = _
        rw [run_plain _ _ h2 h1, hv]
        exact h
      subst hl
      exact .boxed hc hb (ih _ w (List.mem_singleton.mpr rfl) w (.refl w) (hs.member (List.mem_singleton.mpr rfl)) P hb.shaped.2 x hw)
        h1 h2 (leaf_sound (by cases hb <;> trivial) (by rintro t rfl; cases hb) (by rintro t rfl; cases hb) T d hd)
  · intro hl hc h
    cases hm : listMembers (memberNodes ms) with
    | none => rw [hm] at h; simp only [accept_fail] at h; cases h
    | some p =>
      obtain ⟨items, size⟩ := p
      rw [hm] at h
      simp only at h
      obtain ⟨hlen, vs, version, rfl, m1, m2, m3⟩ := listMembers_some hm
      subst hl
      have hn := (hs _ (.refl _)).2.1
      have hlist : IsList (.object cls none ms) vs size := ⟨cls, ms, version, rfl, hc, hlen, hn, m1, m2, m3⟩
      obtain ⟨z1, z2⟩ := isList_shaped hs.shaped hlist
      rw [itemsOf, itemDesers_eq] at h
      have ih' : ∀ T, T.Proper → ∀ n, ∀ v ∈ vs.take n, ∀ d, decode v T = .ok d → Decodes v T d := by
        intro T hT n v hv d hd
        have hv := List.mem_of_mem_take hv
        exact ih _ _ m1 v (.item hv (.refl v)) ((hs.member m1).item hv) T hT d hd
      have le : ∀ n, asUsize size ≤ vs.length + n → n ≤ 1 → ∃ k : Nat, size = k ∧ asUsize size = k ∧ k ≤ vs.length + n := by
        intro n hn hn1
        obtain ⟨h3, h4⟩ := (asUsize_le (n := vs.length + n) z1 (by rcases usizeBits_cases with h' | h' <;> simp only [h'] at z2 ⊢ <;> omega)).mp hn
        obtain ⟨k, rfl⟩ := Int.eq_ofNat_of_zero_le h3
        refine ⟨k, rfl, by rw [asUsize_eq h3 z1]; rfl, by omega⟩
      cases hT with
      | @vec T hT =>
        simp only [accept, map_ok_iff, visitList_all] at h
        obtain ⟨ds, ⟨hk, h⟩, rfl⟩ := h
        obtain ⟨k, rfl, hk', hk⟩ := le 1 hk (by omega)
        rw [hk'] at h
        exact .vec (.list hlist hk) (decodesAll_of h (ih' T hT k))
      | @tuple Ts hT =>
        simp only [accept, map_ok_iff, visitList_each] at h
        obtain ⟨ds, ⟨hk0, hk, h⟩, rfl⟩ := h
        obtain ⟨k, rfl, hk', hk⟩ := le 0 hk (by omega)
        rw [hk'] at h
        exact .tuple (.list hlist hk) (decodesEach_of h fun v hv T hm d hd => ih' T (hT T hm) k v hv d hd)
      | @newtype T hT =>
        simp only [accept, map_ok_iff, visitList_each] at h
        obtain ⟨ds, ⟨hk0, hk, h⟩, rfl⟩ := h
        obtain ⟨k, rfl, hk', hk⟩ := le 0 hk (by omega)
        rw [hk'] at h
        have he := Elements.list (slack := 0) hlist hk
        generalize hus : vs.take k = us at h he
        cases h with
        | cons h3 h4 =>
          cases h4
          exact .newtype he (ih' T hT k _ (by rw [hus]; simp) _ h3)
      | ignored =>
        simp only [accept, map_ok_iff, visitList_all] at h
        obtain ⟨ds, ⟨hk, h⟩, rfl⟩ := h
        obtain ⟨k, rfl, hk', hk⟩ := le 1 hk (by omega)
        rw [hk'] at h
        exact .ignoredElements (.list hlist hk) (decodesAll_of h (ih' _ .ignored k))
      | any =>
        simp only [accept, map_ok_iff, visitList_all] at h
        obtain ⟨ds, ⟨hk, h⟩, rfl⟩ := h
        obtain ⟨k, rfl, hk', hk⟩ := le 1 hk (by omega)
        rw [hk'] at h
        exact .anyElements (.list hlist hk) (decodesAll_of h (ih' _ .any k))
      | struct => exact absurd rfl (h1 _)
      | option => exact absurd rfl (h2 _)
      | _ => cases h

theorem decodes_sound (v : Value) : ∀ u, SubValue u v → Sound u := by
  induction v using value_induction with
  | hobj cls lib ms ih =>
    have ih' : ∀ k v, (k, v) ∈ ms → ∀ u, SubValue u v → Sound u := fun k v hm =>
      ih v (List.mem_map_of_mem (f := Prod.snd) hm)
    intro u hu
    cases hu with
    | member hm hu => exact ih' _ _ hm u hu
    | refl =>
      intro hs T hT
      induction hT with
      | option hT ih =>
        intro d hd
        rw [C42_some _ _ (by simp), map_ok_iff] at hd
        obtain ⟨d, hd, rfl⟩ := hd
        exact .some (by simp) (ih d hd)
      | @struct fs hn hT _ =>
        intro d hd
        obtain ⟨h1, ds, rfl, h2⟩ := (C53 _ _ _ _ _ (hs _ (.refl _)).2.1 hn).mp hd
        refine .struct (fieldsDecode_of h2 fun k v hm f hf d hd => ih' k v hm v (.refl v) (hs.member hm) _ (hT f hf) d hd) ?_
        rintro ⟨k, v⟩ hm hk
        obtain ⟨d, hd⟩ := h1 _ hm hk
        have := ih' k v hm v (.refl v) (hs.member hm) _ .ignored d hd
        exact ignored_result hd ▸ this
      | _ => exact fun d hd => object_sound hs ih' (by simp) (by simp) (by first | exact .int _ _ | constructor <;> assumption | constructor) hd
  | harr vs ih =>
    intro u hu
    cases hu with
    | item hv hu => exact ih _ hv u hu
    | refl =>
      intro hs T hT
      have ih' : ∀ T : Ty, T.Proper → ∀ v ∈ vs, ∀ d, decode v T = .ok d → Decodes v T d := fun T hT v hv d hd =>
        ih v hv v (.refl v) (hs.item hv) T hT d hd
      induction hT with
      | option hT ih =>
        intro d hd
        rw [C42_some _ _ (by simp), map_ok_iff] at hd
        obtain ⟨d, hd, rfl⟩ := hd
        exact .some (by simp) (ih d hd)
      | @vec T hT _ =>
        intro d hd
        obtain ⟨ds, rfl, -, h⟩ := (C44_vec _ _ _).mp hd
        exact .vec (.array vs) (decodesAll_of h (ih' T hT))
      | @tuple Ts hT _ =>
        intro d hd
        obtain ⟨ds, rfl, -, h⟩ := (C44_tuple _ _ _).mp hd
        exact .tuple (.array vs) (decodesEach_of h fun v hv T hm d hd => ih' T (hT T hm) v hv d hd)
      | @struct fs hn hT _ =>
        intro d hd
        unfold decode at hd
        rw [valueDeser, itemDesers_eq] at hd
        replace hd : accept (.struct fs) (.visitArray (vs.map decode)) = .ok d := hd
        simp only [accept, map_ok_iff, visitArray_each] at hd
        obtain ⟨ds, h, rfl⟩ := hd
        refine .structOfArray (decodesEach_of h fun v hv T hm d hd => ?_)
        obtain ⟨f, hf, rfl⟩ := List.mem_map.mp hm
        exact ih' _ (hT f hf) v hv d hd
      | @newtype T hT _ =>
        intro d hd
        rw [decode_array _ _ (by simp) (by simp)] at hd
        simp only [accept, map_ok_iff, visitArray_each] at hd
        obtain ⟨ds, h, rfl⟩ := hd
        cases h with
        | cons h1 h2 =>
          cases h2
          exact .newtype (.array _) (ih' T hT _ (by simp) _ h1)
      | ignored =>
        intro d hd
        rw [decode_array _ _ (by simp) (by simp)] at hd
        simp only [accept, map_ok_iff, visitArray_all] at hd
        obtain ⟨ds, h, rfl⟩ := hd
        exact .ignoredElements (.array vs) (decodesAll_of h (ih' _ .ignored))
      | any =>
        intro d hd
        rw [decode_array _ _ (by simp) (by simp)] at hd
        simp only [accept, map_ok_iff, visitArray_all] at hd
        obtain ⟨ds, h, rfl⟩ := hd
        exact .anyElements (.array vs) (decodesAll_of h (ih' _ .any))
      | _ =>
        intro d hd
        rw [decode_array _ _ (by simp) (by simp)] at hd
        cases hd
  | hleaf v h1 h2 =>
    intro u hu
    cases hu with
    | item => exact absurd rfl (h2 _)
    | member => exact absurd rfl (h1 _ _ _)
    | refl =>
      intro hs T _ d hd
      obtain ⟨-, -, h3, h4, -⟩ := hs _ (.refl _)
      exact leaf_sound (by cases v <;> first | trivial | exact absurd rfl (h1 _ _ _) | exact absurd rfl (h2 _)) h3 h4 T d hd

/-- **C58** Decoding a value into a Rust type succeeds with `d` exactly if the relation of
`Spec/Decode.lean` says so. -/
theorem C58 (v : Value) (hv : Sane v) (T : Ty) (hT : T.Proper) (d : Dyn) :
    decode v T = .ok d ↔ Decodes v T d :=
  ⟨decodes_sound v v (.refl v) hv T hT d, fun h => decodes_complete h hv.shaped hT⟩

/-- **C58** The relation is a function: a value is read in at most one way. -/
theorem C58_unique {v : Value} (hv : Sane v) {T : Ty} (hT : T.Proper) {d d' : Dyn} (h : Decodes v T d)
    (h' : Decodes v T d') : d = d' := by
  have h1 := (C58 v hv T hT d).mpr h
  rw [(C58 v hv T hT d').mpr h'] at h1
  exact (Except.ok.inj h1).symm

omit [Platform] [FloatLib] in
theorem Spec.SubValue.trans {a b c : Value} (h1 : SubValue a b) (h2 : SubValue b c) : SubValue a c := by
  induction h2 with
  | refl => exact h1
  | item hm _ ih => exact .item hm ih
  | member hm _ ih => exact .member hm ih

omit [FloatLib] in
/-- What is read from any input is sane, if, in a 32-bit build, no generic list has a quarter of `usize::MAX` items (which
no memory can hold; a 64-bit build has no such lists, see C81), and decimals are printed as valid UTF-8 (which every Rust `Display` does). -/
theorem parsed_sane {w : Bytes} {v : Value} (h : deserialize w = .ok (.value v))
    (hdec : ∀ x : Dec, IsUtf8 (Platform.decimalToStr x))
    (hbig : usizeBits = 32 → ∀ u items size, SubValue u v → IsList u items size → items.length < 2 ^ 30) : Sane v := by
  intro u hu
  have hin : ValueIn u (.value v) := ⟨v, by simp [topValues], hu⟩
  obtain ⟨-, h1, h2, -⟩ := (message_wf h).2 u hin
  refine ⟨h1, h2, ?_, fun d _ => hdec d, ?_⟩
  · rintro s rfl
    exact C05_strings_utf8 h (.inr ⟨_, hin, by simp [ownStrings]⟩)
  · intro items size hl
    rcases usizeBits_cases with hw | hw
    · rw [hw]; exact hbig hw u items size hu hl
    · rw [hw]
      obtain ⟨_, _, _, rfl, -, -, -, hm, -⟩ := hl
      have hin' := (message_wf h).2 _ ⟨v, by simp [topValues], (SubValue.member hm (.refl _)).trans hu⟩
      have := hin'.2.2.2.2.2 _ rfl
      simp only [maxArray] at this
      omega

/-- **C58** `from_slice` of a message with a value: exactly what the relation says of the value. -/
theorem C58_from_slice {w : Bytes} {v : Value} (h : deserialize w = .ok (.value v))
    (hdec : ∀ x : Dec, IsUtf8 (Platform.decimalToStr x))
    (hbig : usizeBits = 32 → ∀ u items size, SubValue u v → IsList u items size → items.length < 2 ^ 30)
    (T : Ty) (hT : T.Proper) (hopt : ∀ T', T ≠ .option T') (d : Dyn) :
    fromSlice T w = .ok d ↔ Decodes v T d := by
  rw [C43_value T w v h hopt, ← C58 v (parsed_sane h hdec hbig) T hT d]
  cases decode v T with
  | ok x => simp [SliceResult.of]
  | error e => cases e <;> simp [SliceResult.of]

/-- **C58** The same for all types: at the root, an option takes null only. -/
theorem C58_root {w : Bytes} {v : Value} (h : deserialize w = .ok (.value v))
    (hdec : ∀ x : Dec, IsUtf8 (Platform.decimalToStr x))
    (hbig : usizeBits = 32 → ∀ u items size, SubValue u v → IsList u items size → items.length < 2 ^ 30)
    (T : Ty) (hT : T.Proper) (d : Dyn) :
    fromSlice T w = .ok d ↔ Decodes v T d ∧ ((∃ T', T = .option T') → v = .null) := by
  by_cases hopt : ∃ T', T = .option T'
  · obtain ⟨T', rfl⟩ := hopt
    by_cases hn : v = .null
    · rw [(C42_root T' w v h).1 hn]
      subst hn
      constructor
      · rintro e; cases e; exact ⟨.none T', fun _ => rfl⟩
      · rintro ⟨hd, -⟩
        cases hd with
        | none => rfl
        | some hn => exact absurd rfl hn
    · exact ⟨fun hd => absurd hd (((C42_root T' w v h).2 hn).2 d), fun hd => absurd (hd.2 ⟨T', rfl⟩) hn⟩
  · rw [C58_from_slice h hdec hbig T hT (fun T' e => hopt ⟨T', e⟩) d]
    exact ⟨fun hd => ⟨hd, fun hd => absurd hd hopt⟩, fun hd => hd.1⟩

end Nrbf
