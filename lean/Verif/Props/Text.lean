import Verif.Spec.Text
import Verif.Props.Size
import Verif.Props.SerdeBorrow
import Verif.Props.Decimals

/-! # C82: how much text there is in the result -/

set_option autoImplicit false

namespace Nrbf
open Spec Tests

/-! ## The value -/

mutual
/-- Text and contents together. -/
def bulk : Value → Nat
  | .object c _ ms => 1 + c.length + bulkMembers ms
  | .array vs => bulkItems vs
  | .string s => s.length + 1
  | .null => 0
  | _ => 1
/-- The sum over a list of values. -/
def bulkItems : List Value → Nat
  | [] => 0
  | v :: vs => bulk v + bulkItems vs
/-- The sum over the members of an object. -/
def bulkMembers : List (Str × Value) → Nat
  | [] => 0
  | (k, v) :: ms => k.length + bulk v + bulkMembers ms
end

theorem bulkItems_fold (vs : List Value) : bulkItems vs = vs.foldr (fun v n => bulk v + n) 0 := by
  induction vs with
  | nil => simp [bulkItems]
  | cons v vs ih => simp [bulkItems, ih]

theorem bulkMembers_fold (ms : List (Str × Value)) :
    bulkMembers ms = ms.foldr (fun e n => e.1.length + bulk e.2 + n) 0 := by
  induction ms with
  | nil => simp [bulkMembers]
  | cons e ms ih => obtain ⟨k, v⟩ := e; simp [bulkMembers, ih]

mutual
theorem bulk_eq : ∀ v : Value, bulk v = text v + contents v
  | .object c l ms => by rw [bulk, text, contents, bulkMembers_eq ms]; omega
  | .array vs => by rw [bulk, text, contents, bulkItems_eq vs]
  | .string s => by simp [bulk, text, contents]
  | .null => by simp [bulk, text, contents]
  | .boolean _ | .byte _ | .char _ | .decimal _ | .double _ | .int16 _ | .int32 _ | .int64 _ | .sbyte _ | .single _
  | .timeSpan _ | .dateTime _ | .uint16 _ | .uint32 _ | .uint64 _ => by simp [bulk, text, contents]
theorem bulkItems_eq : ∀ vs : List Value, bulkItems vs = textItems vs + contentsItems vs
  | [] => by simp [bulkItems, textItems, contentsItems]
  | v :: vs => by rw [bulkItems, textItems, contentsItems, bulk_eq v, bulkItems_eq vs]; omega
theorem bulkMembers_eq : ∀ ms : List (Str × Value), bulkMembers ms = textMembers ms + contentsMembers ms
  | [] => by simp [bulkMembers, textMembers, contentsMembers]
  | (k, v) :: ms => by rw [bulkMembers, textMembers, contentsMembers, bulk_eq v, bulkMembers_eq ms]; omega
end

variable [Platform]

/-- Text and contents as a measure. -/
def bulkMeasure : Measure where
  f := bulk
  op := (· + ·)
  arr := fun n => n
  op_le a b := by omega
  op_zero a := by omega
  le_left a b := by omega
  op_comm a b := by omega
  op_assoc a b c := by omega
  op_mono a b c h := by omega
  arr_le a := by omega
  le_arr a := by omega
  arr_mono a b h := by omega
  op_arr a b := by omega
  weight := 1
  weight_pos := by omega
  run n _ := by simp [bulk]
  prim t v b h := primitive_measure bulk (by decide) (fun p => by cases p <;> simp [Prim.intoValue, bulk]) h
  string s := by simp [bulk]
  key k := k.length
  key_le _ := by simp
  cls c := c.length
  cls_le _ := by simp
  op_add k a b := by omega
  array vs := by rw [bulk, bulkItems_fold]
  object c l ms := by rw [bulk, bulkMembers_fold]

/-- The bytes of the names in a message (method, type and call context). -/
def namesText (names : List Str) : Nat := names.foldr (fun k n => k.length + n) 0

omit [Platform] in
theorem namesText_sum (names : List Str) : namesText names = (names.map List.length).sum := by
  induction names with
  | nil => rfl
  | cons n names ih =>
    have : namesText (n :: names) = n.length + namesText names := rfl
    rw [this, ih, List.map_cons, List.sum_cons]

/-- **C82** All names, strings, class names and member names of an accepted input together have at most twice as many bytes as
the input, even if one byte is added for every object, string and primitive value. -/
theorem C82_text {w : Bytes} {m : RemotingMessage} (h : deserialize w = .ok m) :
    ((messageNames m).map List.length).sum + textItems (messageValues m) + contentsItems (messageValues m) ≤ 2 * w.length := by
  have h2 : namesText (messageNames m) + _ ≤ 2 * (1 * w.length) := message_names_cost bulkMeasure h
  have h3 : bulkMeasure.g (messageValues m) = bulkItems (messageValues m) := (bulkItems_fold _).symm
  rw [h3, bulkItems_eq, namesText_sum] at h2
  omega

/-- **C82** In a message (no second attempt at a failed record, see C29) they have together at most as many bytes as the input. -/
theorem C82_text_message {w : Bytes} {m : RemotingMessage} (h : Message w m) :
    ((messageNames m).map List.length).sum + textItems (messageValues m) + contentsItems (messageValues m) ≤ w.length := by
  have h2 : namesText (messageNames m) + _ ≤ 1 * w.length := message_names_tight bulkMeasure h
  have h3 : bulkMeasure.g (messageValues m) = bulkItems (messageValues m) := (bulkItems_fold _).symm
  rw [h3, bulkItems_eq, namesText_sum] at h2
  omega

/-! ## Library names -/

mutual
theorem libraryText_le {n : Nat} : ∀ v : Value, (∀ u, SubValue u v → ∀ s ∈ ownStrings u, s.length ≤ n) →
    libraryText v ≤ contents v * n
  | .object c l ms, h => by
    rw [libraryText, contents, Nat.add_mul, Nat.one_mul]
    have h1 := libraryTextMembers_le ms fun k v hm u hu => h u (.member hm hu)
    have h2 : (l.getD []).length ≤ n := by
      cases l with
      | none => simp
      | some l => exact h _ (.refl _) l (by simp [ownStrings])
    omega
  | .array vs, h => by
    rw [libraryText, contents]
    exact libraryTextItems_le vs fun v hm u hu => h u (.item hm hu)
  | .null, _ | .string _, _ | .boolean _, _ | .byte _, _ | .char _, _ | .decimal _, _ | .double _, _ | .int16 _, _
  | .int32 _, _ | .int64 _, _ | .sbyte _, _ | .single _, _ | .timeSpan _, _ | .dateTime _, _ | .uint16 _, _
  | .uint32 _, _ | .uint64 _, _ => by simp [libraryText]
theorem libraryTextItems_le {n : Nat} : ∀ vs : List Value, (∀ v ∈ vs, ∀ u, SubValue u v → ∀ s ∈ ownStrings u, s.length ≤ n) →
    libraryTextItems vs ≤ contentsItems vs * n
  | [], _ => by simp [libraryTextItems]
  | v :: vs, h => by
    rw [libraryTextItems, contentsItems, Nat.add_mul]
    have h1 := libraryText_le v (h v List.mem_cons_self)
    have h2 := libraryTextItems_le vs fun u hu => h u (List.mem_cons_of_mem _ hu)
    omega
theorem libraryTextMembers_le {n : Nat} : ∀ ms : List (Str × Value),
    (∀ k v, (k, v) ∈ ms → ∀ u, SubValue u v → ∀ s ∈ ownStrings u, s.length ≤ n) →
    libraryTextMembers ms ≤ contentsMembers ms * n
  | [], _ => by simp [libraryTextMembers]
  | (k, v) :: ms, h => by
    rw [libraryTextMembers, contentsMembers, Nat.add_mul]
    have h1 := libraryText_le v (h k v List.mem_cons_self)
    have h2 := libraryTextMembers_le ms fun k' u hu => h k' u (List.mem_cons_of_mem _ hu)
    omega
end

/-- **C82** The library names of all objects together have at most `2 * n * n` bytes if the input has `n`. -/
theorem C82_libraries {w : Bytes} {m : RemotingMessage} (h : deserialize w = .ok m) :
    libraryTextItems (messageValues m) ≤ 2 * w.length * w.length := by
  have h1 := C47_contents h
  have h2 := libraryTextItems_le (n := w.length) (messageValues m) fun v hv u hu s hs =>
    (((message_wf h).2 u ⟨v, by cases m <;> exact hv, hu⟩).1 s hs).1.length_le
  exact Nat.le_trans h2 (Nat.mul_le_mul_right _ h1)

/-- The class `A { a }` with id 1 of library 2. -/
def ownedHead : Bytes := [3, 1,0,0,0, 1,65, 1,0,0,0, 1,97, 2,0,0,0]

/-- `n` objects of library `l` inside each other. -/
def owned (l : Str) : Nat → Value
  | 0 => .null
  | n + 1 => .object [65] (some l) [([97], owned l n)]

/-- The records of `owned l n`, without the library. -/
def ownedBytes : Nat → Bytes
  | 0 => [10]
  | n + 1 => ownedHead ++ ownedBytes n

omit [Platform] in
theorem owned_text (l : Str) (n : Nat) : libraryText (owned l n) = n * l.length := by
  induction n with
  | zero => simp [owned, libraryText]
  | succ n ih => simp [owned, libraryText, libraryTextMembers, ih, Nat.add_mul]; omega

omit [Platform] in
theorem owned_length (n : Nat) : (ownedBytes n).length = 17 * n + 1 := by
  induction n with
  | zero => rfl
  | succ n ih => simp [ownedBytes, ownedHead, ih]; omega

omit [Platform] in
theorem isClassHead_owned : IsClassHead ⟨1, [65], [[97]], none, some 2⟩ ownedHead :=
  ⟨[1,0,0,0], [1,65], [1,0,0,0], [1,97], [], [2,0,0,0], ⟨by decide, by decide, rfl⟩, short_string 65 (by decide),
    ⟨by decide, rfl⟩, ⟨[1,97], [], short_string 97 (by decide), rfl, rfl⟩, rfl, ⟨by decide, by decide, rfl⟩, rfl⟩

/-- The slot of `owned l n`. -/
def ownedSlot (l : Str) : Nat → Slot
  | 0 => .nulls 1
  | n + 1 => .value (owned l (n + 1))

theorem ownedSlot_resolve (l : Str) (n : Nat) (E : Env) (i : Bytes) : Resolve [ownedSlot l n] E i [owned l n] E i := by
  cases n with
  | zero => exact .nulls (n := 1) .nil
  | succ n => exact .value .nil

theorem owned_class (l : Str) (n : Nat) {E : Env} (hE : E.libs 2 = some l) {E0 : Env} {b0 : Bytes} (r : Bytes)
    (h0 : OptLib E0 (b0 ++ (ownedBytes (n + 1) ++ r)) E (ownedBytes (n + 1) ++ r)) :
    Spec.Class E0 (b0 ++ (ownedBytes (n + 1) ++ r)) 1 [65] (some l) [([97], owned l n)] E r := by
  induction n generalizing E0 b0 with
  | zero =>
    have hm : Member none E (ownedBytes 0 ++ r) (ownedSlot l 0) E r :=
      .nulls (b := [10]) (.none (.inl (by simp [ownedBytes]))) (.inl ⟨rfl, rfl⟩)
    rw [← bindNames_one]
    exact Spec.Class.mk (h := ⟨1, [65], [[97]], none, some 2⟩) (b := ownedHead) (i1 := ownedBytes 0 ++ r) h0 isClassHead_owned
      ⟨l, hE, rfl⟩ (.cons hm .nil) (ownedSlot_resolve l 0 E r)
  | succ n ih =>
    have hm : Member none E (ownedBytes (n + 1) ++ r) (ownedSlot l (n + 1)) E r :=
      .object (.none (.inl (by simp [ownedBytes, ownedHead])))
        (ih (E0 := E) (b0 := []) (.none (.inl (by simp [ownedBytes, ownedHead]))))
    rw [← bindNames_one]
    refine Spec.Class.mk (h := ⟨1, [65], [[97]], none, some 2⟩) (b := ownedHead) (i1 := ownedBytes (n + 1) ++ r) ?_
      isClassHead_owned ⟨l, hE, rfl⟩ (.cons hm .nil) (ownedSlot_resolve l (n + 1) E r)
    rw [ownedBytes, List.append_assoc] at h0
    exact h0

/-- **C82** This is not linear: the library name is written once and stands in every object.  For every `n` below 2^31 there is
an accepted input of at most `18 * n + 29` bytes with `n * n` bytes of library names. -/
theorem C82_libraries_square (n : Nat) (h0 : 0 < n) (h : n < 2 ^ 31) : ∃ w v, w.length ≤ 18 * n + 29 ∧
    deserialize w = .ok (.value v) ∧ libraryText v = n * n := by
  obtain ⟨k, rfl⟩ : ∃ k, n = k + 1 := ⟨n - 1, by omega⟩
  let l : Str := List.replicate (k + 1) 97
  have hl : l.length = k + 1 := List.length_replicate
  have hu : IsUtf8 l := ascii_utf8 fun b hb => by rw [List.eq_of_mem_replicate hb]; decide
  obtain ⟨p, ⟨gs, last, h1, h2, h3, h4, h5, h6⟩, hs⟩ := string_ok (s := l) (by omega) hu
  have hlib : IsLibrary 2 l (12 :: [2,0,0,0] ++ (p ++ l)) :=
    ⟨[2,0,0,0], p ++ l, ⟨by decide, by decide, rfl⟩, ⟨p, ⟨gs, last, h1, h2, h3, h4, h5, h6⟩, hu, rfl⟩, rfl⟩
  have hcls := owned_class l k (E := Env.empty.addLib 2 l) (by simp [Env.addLib]) [11] (.some hlib rfl)
  refine ⟨header 1 ++ (12 :: [2,0,0,0] ++ (p ++ l) ++ (ownedBytes (k + 1) ++ [11])), owned l (k + 1), ?_, ?_, ?_⟩
  · have hp : p.length ≤ 5 := by rw [h5]; simp; omega
    simp only [List.length_append, List.length_cons, List.length_nil, owned_length, hl, header]
    omega
  · refine deserialize_complete (.mk (root := 1) (isHeader_header 1 (by decide)) (.cons (.object hcls) .nil)
      (.value (.inr ⟨by decide, by simp [Env.add, owned]⟩)))
  · rw [owned_text, hl]

/-! ## The Rust value -/

mutual
/-- The text a value can become: strings, characters, decimals and member names. -/
def outText : Value → Nat
  | .object _ _ ms => outMembers ms
  | .array vs => outItems vs
  | .string s => s.length
  | .char c => (String.utf8EncodeChar (Char.ofNat c)).length
  | .decimal d => (Platform.decimalToStr d).length
  | _ => 0
/-- The sum over a list of values. -/
def outItems : List Value → Nat
  | [] => 0
  | v :: vs => outText v + outItems vs
/-- The sum over the members of an object. -/
def outMembers : List (Str × Value) → Nat
  | [] => 0
  | (k, v) :: ms => k.length + outText v + outMembers ms
end

theorem outItems_take (n : Nat) (vs : List Value) : outItems (vs.take n) ≤ outItems vs := by
  induction vs generalizing n with
  | nil => simp
  | cons v vs ih =>
    cases n with
    | zero => simp [outItems]
    | succ n => have := ih n; simp only [List.take_succ_cons, outItems]; omega

theorem outMembers_mem {k : Str} {v : Value} {ms : List (Str × Value)} (h : (k, v) ∈ ms) : outText v ≤ outMembers ms := by
  induction ms with
  | nil => cases h
  | cons e ms ih =>
    obtain ⟨k', v'⟩ := e
    rw [outMembers]
    rcases List.mem_cons.mp h with h | h
    · cases h; omega
    · have := ih h; omega

theorem outText_elements {slack : Nat} {v : Value} {vs : List Value} (h : Elements slack v vs) : outItems vs ≤ outText v := by
  cases h with
  | array => rw [outText]; exact Nat.le_refl _
  | list hl _ =>
    obtain ⟨cls, ms, ver, rfl, -, -, -, hi, -, -⟩ := hl
    rw [outText]
    refine Nat.le_trans (outItems_take _ _) (Nat.le_trans ?_ (outMembers_mem hi))
    rw [outText]
    exact Nat.le_refl _

/-- The text of the members with these names. -/
def outFields (names : List Str) : List (Str × Value) → Nat
  | [] => 0
  | (k, v) :: ms => (if k ∈ names then outText v else 0) + outFields names ms

theorem outFields_le (names : List Str) (ms : List (Str × Value)) : outFields names ms ≤ outMembers ms := by
  induction ms with
  | nil => simp [outFields, outMembers]
  | cons e ms ih =>
    obtain ⟨k, v⟩ := e
    rw [outFields, outMembers]
    split <;> omega

theorem outFields_mono (k : Str) (names : List Str) (ms : List (Str × Value)) :
    outFields names ms ≤ outFields (k :: names) ms := by
  induction ms with
  | nil => simp [outFields]
  | cons e ms ih =>
    obtain ⟨k', v'⟩ := e
    rw [outFields, outFields]
    by_cases h : k' ∈ names
    · rw [if_pos h, if_pos (List.mem_cons_of_mem _ h)]; omega
    · rw [if_neg h]; omega

theorem outFields_mem {k : Str} {v : Value} {names : List Str} {ms : List (Str × Value)} (h : (k, v) ∈ ms) (hk : k ∉ names) :
    outText v + outFields names ms ≤ outFields (k :: names) ms := by
  induction ms with
  | nil => cases h
  | cons e ms ih =>
    obtain ⟨k', v'⟩ := e
    rw [outFields, outFields]
    rcases List.mem_cons.mp h with h | h
    · cases h
      have := outFields_mono k names ms
      rw [if_neg hk, if_pos List.mem_cons_self]
      omega
    · have := ih h
      by_cases h : k' ∈ names
      · rw [if_pos h, if_pos (List.mem_cons_of_mem _ h)]; omega
      · rw [if_neg h]; omega

omit [Platform] in
theorem dynTextStruct_zip (names : List Str) (ds : List Dyn) : dynTextStruct (names.zip ds) ≤ dynTexts ds := by
  induction names generalizing ds with
  | nil => simp [dynTextStruct]
  | cons n names ih =>
    cases ds with
    | nil => simp [dynTextStruct]
    | cons d ds => have := ih ds; simp only [List.zip_cons_cons, dynTextStruct, dynTexts]; omega

theorem dynText_leaf {v : Value} {d : Dyn} (h : v.asIs = some d) : dynText d ≤ outText v := by
  cases v
  case object => cases h
  case array => cases h
  all_goals cases h; simp [dynText, outText]

variable [FloatLib]

mutual
theorem dynText_of {v : Value} {T : Ty} {d : Dyn} : Decodes v T d → T.Proper → dynText d ≤ outText v
  | .bool b, _ => by simp [dynText]
  | .int _ h1 h2, _ => by simp [dynText]
  | .f32 b, _ => by simp [dynText]
  | .f32OfDouble b, _ => by simp [dynText]
  | .f32OfInteger _, _ => by simp [dynText]
  | .f64 b, _ => by simp [dynText]
  | .f64OfSingle b, _ => by simp [dynText]
  | .f64OfInteger _, _ => by simp [dynText]
  | .char c, _ => by simp [dynText, outText]
  | .charOfString c, _ => by simp [dynText, outText]
  | .charOfDecimal d c h, _ => by simp [dynText, outText, h]
  | .str s, _ => by simp [dynText, outText]
  | .string s, _ => by simp [dynText, outText]
  | .stringOfDecimal d, _ => by simp [dynText, outText]
  | .stringOfChar c, _ => by simp [dynText, outText]
  | .unit, _ => by simp [dynText]
  | .none T, _ => by simp [dynText]
  | .some _ hd, hT => by
    have ih := dynText_of hd
    cases hT with
    | option hT => rw [dynText]; exact ih hT
  | .vec he hd, hT => by
    have ih := dynTexts_all hd
    cases hT with
    | vec hT => rw [dynText]; exact Nat.le_trans (ih hT) (outText_elements he)
  | .tuple he hd, hT => by
    have ih := dynTexts_each hd
    cases hT with
    | tuple hT => rw [dynText]; exact Nat.le_trans (ih hT) (outText_elements he)
  | .newtype he hd, hT => by
    have ih := dynText_of hd
    have h2 := outText_elements he
    cases hT with
    | newtype hT =>
      have := ih hT
      rw [dynText]
      simp only [outItems] at h2
      omega
  | .map _ hd, hT => by
    have ih := dynTextMap_entries hd
    cases hT with
    | map hT => rw [dynText, outText]; exact ih hT
  | .struct hf _, hT => by
    have ih := dynTextStruct_fields hf
    cases hT with
    | struct h1 h2 => rw [dynText, outText]; exact Nat.le_trans (ih h1 h2) (outFields_le _ _)
  | .structOfArray hd, hT => by
    have ih := dynTexts_each hd
    cases hT with
    | struct h1 h2 =>
      rw [dynText, outText]
      refine Nat.le_trans (dynTextStruct_zip _ _) (ih fun T hm => ?_)
      obtain ⟨f, hf, rfl⟩ := List.mem_map.mp hm
      exact h2 f hf
  | @Decodes.boxed _ _ cls name m s P T x d _ hb hx _ _ hd, hT => by
    have h1 := dynText_of hx
    have h2 := dynText_of hd hT
    have h3 : outText s ≤ dynText x := by cases hb <;> simp [outText, dynText]
    have h4 : P.Proper := by cases hb <;> constructor
    have := h1 h4
    simp only [outText, outMembers]
    omega
  | .ignoredLeaf _, _ => by simp [dynText]
  | .ignoredElements _ _, _ => by simp [dynText]
  | .ignoredMap _ _, _ => by simp [dynText]
  | .anyLeaf h, _ => dynText_leaf h
  | .anyElements he hd, hT => by
    have ih := dynTexts_all hd hT
    rw [dynText]; exact Nat.le_trans ih (outText_elements he)
  | .anyMap _ hd, hT => by
    have ih := dynTextMap_entries hd hT
    rw [dynText, outText]; exact ih
theorem dynTexts_all {vs : List Value} {T : Ty} {ds : List Dyn} : DecodesAll vs T ds → T.Proper → dynTexts ds ≤ outItems vs
  | .nil T, _ => by simp [dynTexts]
  | .cons h1 h2, hT => by
    have e1 := dynText_of h1 hT
    have e2 := dynTexts_all h2 hT
    simp only [dynTexts, outItems]
    omega
theorem dynTexts_each {vs : List Value} {Ts : List Ty} {ds : List Dyn} :
    DecodesEach vs Ts ds → (∀ T ∈ Ts, T.Proper) → dynTexts ds ≤ outItems vs
  | .nil, _ => by simp [dynTexts]
  | .cons h1 h2, hT => by
    have e1 := dynText_of h1 (hT _ List.mem_cons_self)
    have e2 := dynTexts_each h2 fun T hm => hT T (List.mem_cons_of_mem _ hm)
    simp only [dynTexts, outItems]
    omega
theorem dynTextMap_entries {ms : List (Str × Value)} {T : Ty} {ds : List (Str × Dyn)} :
    EntriesDecode ms T ds → T.Proper → dynTextMap ds ≤ outMembers ms
  | .nil T, _ => by simp [dynTextMap]
  | .cons h1 h2, hT => by
    have e1 := dynText_of h1 hT
    have e2 := dynTextMap_entries h2 hT
    simp only [dynTextMap, outMembers]
    omega
theorem dynTextStruct_fields {ms : List (Str × Value)} {fs : List (Str × Ty)} {ds : List (Str × Dyn)} :
    FieldsDecode ms fs ds → (fs.map Prod.fst).Nodup → (∀ f ∈ fs, f.2.Proper) →
      dynTextStruct ds ≤ outFields (fs.map Prod.fst) ms
  | .nil ms, _, _ => by simp [dynTextStruct]
  | .found hm h1 h2, hn, hT => by
    have e1 := dynText_of h1 (hT _ List.mem_cons_self)
    have hn' := List.nodup_cons.mp (by simpa only [List.map_cons] using hn)
    have e2 := dynTextStruct_fields h2 hn'.2 fun f hf => hT f (List.mem_cons_of_mem _ hf)
    have e3 := outFields_mem hm hn'.1
    simp only [dynTextStruct, List.map_cons]
    omega
  | @FieldsDecode.missing _ _ ms k T fs ds _ h2, hn, hT => by
    have hn' := List.nodup_cons.mp (by simpa only [List.map_cons] using hn)
    have e2 := dynTextStruct_fields h2 hn'.2 fun f hf => hT f (List.mem_cons_of_mem _ hf)
    have e3 := outFields_mono k (fs.map Prod.fst) ms
    simp only [dynTextStruct, dynText, List.map_cons]
    omega
end

omit [FloatLib]

mutual
/-- The text a value can become, and one for every object. -/
def outCost : Value → Nat
  | .object _ _ ms => 1 + outCostMembers ms
  | .array vs => outCostItems vs
  | .string s => s.length
  | .char c => (String.utf8EncodeChar (Char.ofNat c)).length
  | .decimal d => (Platform.decimalToStr d).length
  | _ => 0
/-- The sum over a list of values. -/
def outCostItems : List Value → Nat
  | [] => 0
  | v :: vs => outCost v + outCostItems vs
/-- The sum over the members of an object. -/
def outCostMembers : List (Str × Value) → Nat
  | [] => 0
  | (k, v) :: ms => k.length + outCost v + outCostMembers ms
end

mutual
theorem outText_le : ∀ v : Value, outText v ≤ outCost v
  | .object c l ms => by rw [outText, outCost]; have := outMembers_le ms; omega
  | .array vs => by rw [outText, outCost]; exact outItems_le vs
  | .string _ | .null | .boolean _ | .byte _ | .char _ | .decimal _ | .double _ | .int16 _ | .int32 _ | .int64 _ | .sbyte _
  | .single _ | .timeSpan _ | .dateTime _ | .uint16 _ | .uint32 _ | .uint64 _ => by simp [outText, outCost]
theorem outItems_le : ∀ vs : List Value, outItems vs ≤ outCostItems vs
  | [] => by simp [outItems]
  | v :: vs => by rw [outItems, outCostItems]; have := outText_le v; have := outItems_le vs; omega
theorem outMembers_le : ∀ ms : List (Str × Value), outMembers ms ≤ outCostMembers ms
  | [] => by simp [outMembers]
  | (k, v) :: ms => by rw [outMembers, outCostMembers]; have := outText_le v; have := outMembers_le ms; omega
end

theorem outCostItems_fold (vs : List Value) : outCostItems vs = vs.foldr (fun v n => outCost v + n) 0 := by
  induction vs with
  | nil => simp [outCostItems]
  | cons v vs ih => simp [outCostItems, ih]

theorem outCostMembers_fold (ms : List (Str × Value)) :
    outCostMembers ms = ms.foldr (fun e n => e.1.length + outCost e.2 + n) 0 := by
  induction ms with
  | nil => simp [outCostMembers]
  | cons e ms ih => obtain ⟨k, v⟩ := e; simp [outCostMembers, ih]

omit [Platform] in
/-- A Latin-1 character has at most two bytes. -/
theorem latin1_length {c : Nat} (h : c < 2 ^ 8) : (String.utf8EncodeChar (Char.ofNat c)).length ≤ 2 := by
  have hv : (Char.ofNat c).val.toNat = c := by
    have hvalid : c.isValidChar := .inl (by omega)
    rw [Char.ofNat, dif_pos hvalid]
    rfl
  unfold String.utf8EncodeChar
  simp only [hv]
  split
  · simp
  · rw [if_pos (by omega)]; simp

/-- The text a primitive value can become is paid for by its bytes. -/
theorem primitive_text (hp : PrintsShort) {t : PrimitiveType} {v : Value} {b : Bytes} (h : IsPrimitive t v b) :
    outCost v ≤ 2 * b.length := by
  unfold IsPrimitive at h
  split at h
  all_goals first | exact h.elim | (simp only [outCost]; exact Nat.zero_le _) | skip
  · obtain ⟨h1, rfl⟩ := h
    have := latin1_length h1
    simp only [outCost, le, List.length_cons, List.length_nil]
    omega
  · obtain ⟨s, h1, h2⟩ := h
    have := isString_length h1
    have := hp _ _ h2
    simp only [outCost]
    omega

/-- The text a value can become as a measure: a byte pays for two, because a character of one byte is written with two. -/
def outMeasure (hp : PrintsShort) : Measure where
  f := outCost
  op := (· + ·)
  arr := fun n => n
  op_le a b := by omega
  op_zero a := by omega
  le_left a b := by omega
  op_comm a b := by omega
  op_assoc a b c := by omega
  op_mono a b c h := by omega
  arr_le a := by omega
  le_arr a := by omega
  arr_mono a b h := by omega
  op_arr a b := by omega
  weight := 2
  weight_pos := by omega
  run n _ := by simp [outCost]
  prim t v b h := primitive_text hp h
  string s := by simp only [outCost]; omega
  key k := k.length
  key_le _ := by omega
  cls c := 0
  cls_le _ := Nat.zero_le _
  op_add k a b := by omega
  array vs := by rw [outCost, outCostItems_fold]
  object c l ms := by rw [outCost, outCostMembers_fold]

variable [FloatLib]

/-- What `from_slice` returns has no more text than the value it was read from. -/
theorem fromSlice_text {w : Bytes} {T : Ty} {d : Dyn} (hT : T.Proper) (hdec : ∀ x : Dec, IsUtf8 (Platform.decimalToStr x))
    (hbig : usizeBits = 32 → ∀ v u items size, deserialize w = .ok (.value v) → SubValue u v → IsList u items size →
      items.length < 2 ^ 30)
    (h : fromSlice T w = .ok d) : ∃ v, deserialize w = .ok (.value v) ∧ dynText d ≤ outText v := by
  cases hw : deserialize w with
  | ok m =>
    cases m with
    | methodCall c => rw [C43_call _ _ _ hw] at h; cases h
    | methodReturn r => rw [C43_return _ _ _ hw] at h; cases h
    | value v =>
      refine ⟨v, rfl, ?_⟩
      by_cases ho : ∃ T', T = .option T'
      · obtain ⟨T', rfl⟩ := ho
        by_cases hv : v = .null
        · rw [(C42_root T' w v hw).1 hv] at h
          cases h
          simp [dynText]
        · exact absurd h (((C42_root T' w v hw).2 hv).2 d)
      · exact dynText_of ((C58_from_slice hw hdec (fun h32 u items size => hbig h32 v u items size hw) T hT
          (fun T' he => ho ⟨T', he⟩) d).mp h) hT
  | err e => simp [fromSlice, hw] at h
  | panic => simp [fromSlice, hw] at h
  | hang => simp [fromSlice, hw] at h

/-- **C82** What `from_slice` returns has at most four bytes of text for every byte of the input. -/
theorem C82_from_slice {w : Bytes} {T : Ty} {d : Dyn} (hT : T.Proper) (hdec : ∀ x : Dec, IsUtf8 (Platform.decimalToStr x))
    (hp : PrintsShort)
    (hbig : usizeBits = 32 → ∀ v u items size, deserialize w = .ok (.value v) → SubValue u v → IsList u items size →
      items.length < 2 ^ 30)
    (h : fromSlice T w = .ok d) : dynText d ≤ 4 * w.length := by
  obtain ⟨v, hv, hd⟩ := fromSlice_text hT hdec hbig h
  have h1 := message_cost (outMeasure hp) hv
  have h2 : outCost v + 0 ≤ 2 * (2 * w.length) := h1
  have := outText_le v
  omega

/-- **C82** For a message it is at most two bytes. -/
theorem C82_from_slice_message {w : Bytes} {m : RemotingMessage} {T : Ty} {d : Dyn} (hT : T.Proper)
    (hdec : ∀ x : Dec, IsUtf8 (Platform.decimalToStr x)) (hp : PrintsShort)
    (hbig : usizeBits = 32 → ∀ v u items size, deserialize w = .ok (.value v) → SubValue u v → IsList u items size →
      items.length < 2 ^ 30)
    (hm : Message w m) (h : fromSlice T w = .ok d) : dynText d ≤ 2 * w.length := by
  obtain ⟨v, hv, hd⟩ := fromSlice_text hT hdec hbig h
  have he := deserialize_complete hm
  rw [hv] at he
  cases he
  have h1 := message_tight (outMeasure hp) hm
  have h2 : outCost v + 0 ≤ 2 * w.length := h1
  have := outText_le v
  omega

omit [Platform] [FloatLib] in
theorem digitsValue_lt (ds : List Nat) (h : ∀ x ∈ ds, x < 10) : digitsValue ds < 10 ^ ds.length := by
  have key : ∀ (ds : List Nat) (n k : Nat), (∀ x ∈ ds, x < 10) → n < 10 ^ k →
      ds.foldl (fun n d => n * 10 + d) n < 10 ^ (k + ds.length) := by
    intro ds
    induction ds with
    | nil => intro n k _ h; exact h
    | cons d ds ih =>
      intro n k hd hn
      have h1 := ih (n * 10 + d) (k + 1) (fun x hx => hd x (List.mem_cons_of_mem _ hx)) (by
        have := hd d List.mem_cons_self
        rw [Nat.pow_succ]
        omega)
      rw [List.foldl_cons, List.length_cons, show k + (ds.length + 1) = k + 1 + ds.length by omega]
      exact h1
  have := key ds 0 0 h (by decide)
  simpa [digitsValue] using this

omit [Platform] [FloatLib] in
/-- **C82** The stand-in for the library of decimals (C79) prints at most one character more than it reads. -/
theorem C82_decimals (width : PointerWidth) : @PrintsShort (exactDecimals width) := by
  intro s d h
  obtain ⟨⟨x, y, h1, h2, h3, h4, h5⟩, -⟩ := (C79_reads s d).mp h
  have hv := digitsValue_lt (x ++ y) h1
  have hpos : 0 < (x ++ y).length := by
    cases hxy : x ++ y with
    | nil => exact absurd hxy h2
    | cons => simp
  have hc := digitCount_le d.mantissa d.mantissa (x ++ y).length hpos (by rw [h3]; exact hv)
  show (printDecimal d).length ≤ s.length + 1
  unfold printDecimal
  simp only
  generalize hk : max (d.scale + 1) (digitCount d.mantissa d.mantissa) = k
  have hl := lastDigits_length k d.mantissa
  rw [List.length_append] at hc hpos
  rcases h5 with rfl | ⟨rfl, rfl⟩
  · by_cases h0 : d.scale = 0
    · rw [if_pos h0]
      simp only [List.length_append, List.length_take, List.length_cons, List.length_nil, digitChars_length]
      omega
    · rw [if_neg h0]
      simp only [List.length_append, List.length_take, List.length_cons, List.length_drop, digitChars_length]
      omega
  · simp only [List.length_nil] at h4
    rw [if_pos h4]
    simp only [List.length_append, List.length_take, List.length_nil, digitChars_length] at *
    omega

/-- The hypotheses are met: all names and strings of an object with a string and a number are four bytes. -/
example : textItems (messageValues (.value (.object [65] none [([109], .string [120]), ([110], .int32 (-2))]))) = 4 ∧
    ((messageNames (.value (.object [65] none [([109], .string [120]), ([110], .int32 (-2))]))).map List.length).sum +
      textItems (messageValues (.value (.object [65] none [([109], .string [120]), ([110], .int32 (-2))]))) +
      contentsItems (messageValues (.value (.object [65] none [([109], .string [120]), ([110], .int32 (-2))]))) ≤
      (header 1 ++ referencing).length :=
  ⟨by simp [messageValues, textItems, text, textMembers], C82_text_message referencing_message⟩

/-- A thousand objects of a library with a name of a thousand bytes: a million bytes of names, from less than 20 KB. -/
example : ∃ w v, w.length ≤ 18029 ∧ deserialize w = .ok (.value v) ∧ libraryText v = 1000000 :=
  C82_libraries_square 1000 (by decide) (by decide)

/-- An array of three characters `ÿ`. -/
def threeChars : Bytes := header 1 ++ [15, 1,0,0,0, 3,0,0,0, 3, 255,255,255, 11]

theorem threeChars_ok : deserialize threeChars = .ok (.value (.array [.char 255, .char 255, .char 255])) := by platform_decide

/-- Three bytes become three strings of two bytes. -/
theorem threeChars_read : fromSlice (.vec .string) threeChars = .ok (.seq [.str [195,191], .str [195,191], .str [195,191]]) := by
  unfold fromSlice
  rw [threeChars_ok]
  rfl

/-- The hypotheses are met: the six bytes of text are within the bound. -/
example (hdec : ∀ x : Dec, IsUtf8 (Platform.decimalToStr x)) (hp : PrintsShort) :
    dynText (.seq [.str [195,191], .str [195,191], .str [195,191]]) ≤ 4 * threeChars.length :=
  C82_from_slice (.vec .string) hdec hp (fun _ v u items size hv hu hl => by
    rw [threeChars_ok] at hv
    cases hv
    cases hu with
    | refl => obtain ⟨_, _, _, h, -⟩ := hl; cases h
    | item hm hs =>
      have : u = .char 255 := by
        simp only [List.mem_cons, List.not_mem_nil, or_false, or_self] at hm
        subst hm
        cases hs
        rfl
      subst this
      obtain ⟨_, _, _, h, -⟩ := hl
      cases h) threeChars_read

/-- There is a platform for which they hold. -/
example : (∀ x : Dec, IsUtf8 ((exactDecimals .bits64).decimalToStr x)) ∧ @PrintsShort (exactDecimals .bits64) :=
  ⟨C79_utf8 .bits64, C82_decimals .bits64⟩

end Nrbf
