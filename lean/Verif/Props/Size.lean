import Verif.Lemmas.Cost
import Verif.Lemmas.Unfold
import Verif.Props.Messages

/-! # C46, C47: depth and size of what is parsed -/

set_option autoImplicit false

namespace Nrbf
open Spec Tests

theorem depthItems_fold (vs : List Value) : depthItems vs = vs.foldr (fun v n => max (depth v) n) 0 := by
  induction vs with
  | nil => simp [depthItems]
  | cons v vs ih => simp [depthItems, ih]

theorem depthMembers_fold (ms : List (Str × Value)) :
    depthMembers ms = ms.foldr (fun e n => max (depth e.2) n) 0 := by
  induction ms with
  | nil => simp [depthMembers]
  | cons e ms ih => obtain ⟨k, v⟩ := e; simp [depthMembers, ih]

theorem contentsItems_fold (vs : List Value) :
    contentsItems vs = vs.foldr (fun v n => contents v + n) 0 := by
  induction vs with
  | nil => simp [contentsItems]
  | cons v vs ih => simp [contentsItems, ih]

theorem contentsMembers_fold (ms : List (Str × Value)) :
    contentsMembers ms = ms.foldr (fun e n => contents e.2 + n) 0 := by
  induction ms with
  | nil => simp [contentsMembers]
  | cons e ms ih => obtain ⟨k, v⟩ := e; simp [contentsMembers, ih]

variable [Platform]

/-- A primitive value is encoded in at least one byte. -/
theorem primitive_measure (f : Value → Nat) {n : Nat} (hn : 1 ≤ n) (hf : ∀ p : Prim, f p.intoValue ≤ 1) {t : PrimitiveType}
    {v : Value} {b : Bytes} (h : IsPrimitive t v b) : f v ≤ n * b.length := by
  have h1 := prim_length h
  have h2 : f v ≤ 1 := by
    obtain ⟨p, rfl⟩ : ∃ p : Prim, v = p.intoValue := by
      unfold IsPrimitive at h
      split at h
      all_goals first | exact h.elim | skip
      · exact ⟨.boolean _, rfl⟩
      · exact ⟨.byte _, rfl⟩
      · exact ⟨.char _, rfl⟩
      · exact ⟨.decimal _, rfl⟩
      · exact ⟨.double _, rfl⟩
      · exact ⟨.int16 _, rfl⟩
      · exact ⟨.int32 _, rfl⟩
      · exact ⟨.int64 _, rfl⟩
      · exact ⟨.sbyte _, rfl⟩
      · exact ⟨.single _, rfl⟩
      · exact ⟨.timeSpan _, rfl⟩
      · exact ⟨.dateTime _, rfl⟩
      · exact ⟨.uint16 _, rfl⟩
      · exact ⟨.uint32 _, rfl⟩
      · exact ⟨.uint64 _, rfl⟩
    exact hf p
  have h3 := Nat.mul_le_mul hn h1
  omega

/-- The depth as a measure. -/
def depthMeasure : Measure where
  f := depth
  op := max
  arr := fun n => 1 + n
  op_le a b := by omega
  op_zero a := by omega
  le_left a b := by omega
  op_comm a b := by omega
  op_assoc a b c := by omega
  op_mono a b c h := by omega
  arr_le a := by omega
  le_arr a := by omega
  arr_mono a b h := by omega
  op_arr a b := by omega
  weight := 1
  weight_pos := by omega
  run n _ := by simp [depth]
  prim t v b h := primitive_measure depth (by decide) (fun p => by cases p <;> simp [Prim.intoValue, depth]) h
  string s := by simp [depth] <;> omega
  key _ := 0
  key_le _ := Nat.zero_le _
  cls _ := 0
  cls_le _ := Nat.zero_le _
  op_add k a b := by omega
  array vs := by rw [depth, depthItems_fold]
  object c l ms := by rw [depth, depthMembers_fold]; simp

/-- The number of objects, strings and primitive values as a measure. -/
def contentsMeasure : Measure where
  f := contents
  op := (· + ·)
  arr := fun n => n
  op_le a b := by omega
  op_zero a := by omega
  le_left a b := by omega
  op_comm a b := by omega
  op_assoc a b c := by omega
  op_mono a b c h := by omega
  arr_le a := by omega
  le_arr a := by omega
  arr_mono a b h := by omega
  op_arr a b := by omega
  weight := 1
  weight_pos := by omega
  run n _ := by simp [contents]
  prim t v b h := primitive_measure contents (by decide) (fun p => by cases p <;> simp [Prim.intoValue, contents]) h
  string s := by simp [contents] <;> omega
  key _ := 0
  key_le _ := Nat.zero_le _
  cls _ := 0
  cls_le _ := Nat.zero_le _
  op_add k a b := by omega
  array vs := by rw [contents, contentsItems_fold]
  object c l ms := by rw [contents, contentsMembers_fold]; simp

theorem itemsLeaves_fold (vs : List Value) :
    leavesItems vs = vs.foldr (fun v n => leaves v + n) 0 := by
  induction vs with
  | nil => simp [leavesItems]
  | cons v vs ih => simp [leavesItems, ih]

theorem leavesMembers_fold (ms : List (Str × Value)) :
    leavesMembers ms = ms.foldr (fun e n => leaves e.2 + n) 0 := by
  induction ms with
  | nil => simp [leavesMembers]
  | cons e ms ih => obtain ⟨k, v⟩ := e; simp [leavesMembers, ih]

/-- The number of all values but arrays as a measure: a byte pays for as many as the longest run of nulls has. -/
def leavesMeasure : Measure where
  f := leaves
  op := (· + ·)
  arr := fun n => n
  op_le a b := by omega
  op_zero a := by omega
  le_left a b := by omega
  op_comm a b := by omega
  op_assoc a b c := by omega
  op_mono a b c h := by omega
  arr_le a := by omega
  le_arr a := by omega
  arr_mono a b h := by omega
  op_arr a b := by omega
  weight := 2 ^ 31 - 1
  weight_pos := by omega
  run n h := by simp only [leaves]; omega
  prim t v b h := primitive_measure leaves (by decide) (fun p => by cases p <;> simp [Prim.intoValue, leaves]) h
  string s := by simp [leaves] <;> omega
  key _ := 0
  key_le _ := Nat.zero_le _
  cls _ := 0
  cls_le _ := Nat.zero_le _
  op_add k a b := by omega
  array vs := by rw [leaves, itemsLeaves_fold]
  object c l ms := by rw [leaves, leavesMembers_fold]; simp

theorem depthItems_mem {v : Value} {vs : List Value} (h : v ∈ vs) : depth v ≤ depthItems vs := by
  induction vs with
  | nil => cases h
  | cons u vs ih =>
    simp only [depthItems]
    cases h with
    | head => omega
    | tail _ h => have := ih h; omega

/-! ## C46: depth -/

/-- **C46** The nesting depth of every value of an accepted input is at most twice the length of the
input. -/
theorem C46_depth {w : Bytes} {m : RemotingMessage} (h : deserialize w = .ok m) :
    ∀ v ∈ messageValues m, depth v ≤ 2 * w.length := by
  intro v hv
  have h1 := message_cost depthMeasure h
  have h2 := depthItems_mem hv
  rw [depthItems_fold] at h2
  simp only [Measure.len, depthMeasure, Nat.one_mul] at h1
  exact Nat.le_trans h2 h1

/-- **C46** If the input is a message (no second attempt at a failed record, see C29), the depth is at
most the length of the input. -/
theorem C46_depth_message {w : Bytes} {m : RemotingMessage} (h : Message w m) :
    ∀ v ∈ messageValues m, depth v ≤ w.length := by
  intro v hv
  have h1 := message_tight depthMeasure h
  have h2 := depthItems_mem hv
  rw [depthItems_fold] at h2
  simp only [Measure.len, depthMeasure, Nat.one_mul] at h1
  exact Nat.le_trans h2 h1

/-- **C46** The parser functions never nest more deeply than the number of input bytes plus one: with
that recursion limit, or any larger one, they give the same result, which is not the one that stands for
the exhausted limit. -/
theorem C46_recursion {s : St} (hs : Reached s) (i : Bytes) (limit : Nat) (h : i.length < limit) :
    (recAt limit).classes s i = parseClasses s i ∧
    (recAt limit).referenceable s i = parseReferenceable s i ∧
    (parseClasses s i).1 ≠ .diverge ∧ (parseReferenceable s i).1 ≠ .diverge := by
  have ha := recAt_parse limit
  refine ⟨ha.1 s i hs.classes h, ha.2 s i hs.classes h, ?_, ?_⟩
  · have := parseClasses_good (pol := polTop i) (i.length + 1) s i
      ⟨hs.classes, fun _ _ => trivial, fun _ _ => trivial⟩ (List.suffix_refl i) (by omega)
    intro e
    have h2 := this.2
    rw [e] at h2
    exact h2
  · have := parseReferenceable_good (pol := polTop i) (i.length + 1) s i
      ⟨hs.classes, fun _ _ => trivial, fun _ _ => trivial⟩ (List.suffix_refl i) (by omega)
    intro e
    have h2 := this.2
    rw [e] at h2
    exact h2

/-- The class `A { a }` with id 1. -/
def nestHead : Bytes := [2, 1,0,0,0, 1,65, 1,0,0,0, 1,97]

/-- `n` objects inside each other. -/
def nested : Nat → Value
  | 0 => .null
  | n + 1 => .object [65] none [([97], nested n)]

/-- The records of `nested n`. -/
def nestedBytes : Nat → Bytes
  | 0 => [10]
  | n + 1 => nestHead ++ nestedBytes n

omit [Platform] in
theorem nested_depth (n : Nat) : depth (nested n) = n := by
  induction n with
  | zero => simp [nested, depth]
  | succ n ih => simp [nested, depth, depthMembers, ih]; omega

omit [Platform] in
theorem nested_length (n : Nat) : (nestedBytes n).length = 13 * n + 1 := by
  induction n with
  | zero => rfl
  | succ n ih => simp [nestedBytes, nestHead, ih]; omega

omit [Platform] in
theorem isClassHead_nest : IsClassHead ⟨1, [65], [[97]], none, none⟩ nestHead :=
  ⟨[1,0,0,0], [1,65], [1,0,0,0], [1,97], [], [], ⟨by decide, by decide, rfl⟩, short_string 65 (by decide),
    ⟨by decide, rfl⟩, ⟨[1,97], [], short_string 97 (by decide), rfl, rfl⟩, rfl, rfl, rfl⟩

omit [Platform] in
theorem bindNames_one (k : Str) (v : Value) : bindNames [k] [v] = [(k, v)] := by
  simp [bindNames, lastValue, List.eraseDups_cons]

/-- The slot of `nested n`. -/
def nestedSlot : Nat → Slot
  | 0 => .nulls 1
  | n + 1 => .value (nested (n + 1))

theorem nestedSlot_resolve (n : Nat) (E : Env) (i : Bytes) : Resolve [nestedSlot n] E i [nested n] E i := by
  cases n with
  | zero => exact .nulls (n := 1) .nil
  | succ n => exact .value .nil

theorem nested_class (n : Nat) (E : Env) (r : Bytes) :
    Spec.Class E (nestedBytes (n + 1) ++ r) 1 [65] none [([97], nested n)] E r ∧
    Member none E (nestedBytes n ++ r) (nestedSlot n) E r := by
  induction n with
  | zero =>
    have hm : Member none E (nestedBytes 0 ++ r) (nestedSlot 0) E r :=
      .nulls (b := [10]) (.none (.inl (by simp [nestedBytes]))) (.inl ⟨rfl, rfl⟩)
    refine ⟨?_, hm⟩
    rw [← bindNames_one]
    have := Spec.Class.mk (h := ⟨1, [65], [[97]], none, none⟩) (b := nestHead) (E := E) (i := nestedBytes 1 ++ r)
      (i1 := nestedBytes 0 ++ r) (.none (.inl (by simp [nestedBytes, nestHead]))) isClassHead_nest rfl (.cons hm .nil)
      (nestedSlot_resolve 0 E r)
    exact this
  | succ n ih =>
    have hm : Member none E (nestedBytes (n + 1) ++ r) (nestedSlot (n + 1)) E r :=
      .object (.none (.inl (by simp [nestedBytes, nestHead]))) ih.1
    refine ⟨?_, hm⟩
    rw [← bindNames_one]
    have := Spec.Class.mk (h := ⟨1, [65], [[97]], none, none⟩) (b := nestHead) (E := E)
      (i := nestHead ++ (nestedBytes (n + 1) ++ r))
      (i1 := nestedBytes (n + 1) ++ r) (.none (.inl (by simp [nestHead]))) isClassHead_nest rfl (.cons hm .nil)
      (nestedSlot_resolve (n + 1) E r)
    exact this

theorem nested_message (n : Nat) :
    Message (header 1 ++ (nestedBytes (n + 1) ++ [11])) (.value (nested (n + 1))) :=
  .mk (root := 1) (isHeader_header 1 (by decide)) (.cons (.object (nested_class n Env.empty [11]).1) .nil)
    (.value (.inr ⟨by decide, by simp [Env.add, nested]⟩))

/-- **C46** The depth is not bounded by a constant: for every `n` there is an accepted input of
`13 * n + 19` bytes whose value is nested `n` levels deep (and the parser functions of the source nest
with it). -/
theorem C46_unbounded (n : Nat) (h : 0 < n) : ∃ w v, w.length = 13 * n + 19 ∧
    deserialize w = .ok (.value v) ∧ depth v = n := by
  obtain ⟨k, rfl⟩ : ∃ k, n = k + 1 := ⟨n - 1, by omega⟩
  refine ⟨_, _, ?_, deserialize_complete (nested_message k), nested_depth _⟩
  simp [nested_length, header]

/-! ## C47: size -/

/-- **C47** An accepted input holds at most twice as many objects, strings and primitive values as it has
bytes. -/
theorem C47_contents {w : Bytes} {m : RemotingMessage} (h : deserialize w = .ok m) :
    contentsItems (messageValues m) ≤ 2 * w.length := by
  rw [contentsItems_fold]
  have h2 : _ ≤ 2 * (1 * w.length) := message_cost contentsMeasure h
  rw [Nat.one_mul] at h2
  exact h2

/-- **C47** A message holds at most as many objects, strings and primitive values as it has bytes. -/
theorem C47_contents_message {w : Bytes} {m : RemotingMessage} (h : Message w m) :
    contentsItems (messageValues m) ≤ w.length := by
  rw [contentsItems_fold]
  have h2 : _ ≤ 1 * w.length := message_tight contentsMeasure h
  rw [Nat.one_mul] at h2
  exact h2

/-- **C47** Nulls are not bounded by the input: an input of 32 bytes is accepted as an array of `k` nulls,
for every `k` below 2^31. -/
theorem C47_nulls (k : Nat) (h0 : 0 < k) (h : k < 2 ^ 31) : ∃ w : Bytes, w.length = 32 ∧
    deserialize w = .ok (.value (.array (List.replicate k .null))) := by
  refine ⟨header 1 ++ ([16, 1,0,0,0, 1,0,0,0] ++ (14 :: le 4 k ++ [11])), ?_, deserialize_complete ?_⟩
  · simp [header, le]
  · have hf : Fill none 1 Env.empty (14 :: le 4 k ++ [11]) [.nulls k] Env.empty [11] := by
      refine .step (by decide) (.nulls (b := 14 :: le 4 k) (.none (.inl (by simp))) (.inr (.inl ⟨h0, h, rfl⟩))) ?_
      rw [show 1 - (Slot.nulls k).size = 0 by simp [Slot.size]; omega]
      exact .done
    have hr : Record Env.empty ([16, 1,0,0,0, 1,0,0,0] ++ (14 :: le 4 k ++ [11])) 1
        (.array (List.replicate k .null)) Env.empty [11] := by
      have := Record.objectArray (E := Env.empty) (id := 1) (len := 1) (b := [16, 1,0,0,0, 1,0,0,0])
        ⟨_, _, ⟨by decide, by decide, rfl⟩, ⟨by decide, rfl⟩, rfl⟩ hf (.nulls (n := k) .nil)
      simpa using this
    exact .mk (root := 1) (isHeader_header 1 (by decide)) (.cons hr .nil) (.value (.inr ⟨by decide, by simp [Env.add]⟩))

/-- **C47** Nulls included, an accepted input holds at most `2 * (2 ^ 31 - 1)` values per byte. -/
theorem C47_all {w : Bytes} {m : RemotingMessage} (h : deserialize w = .ok m) :
    leavesItems (messageValues m) ≤ 2 * ((2 ^ 31 - 1) * w.length) := by
  rw [itemsLeaves_fold]
  exact message_cost leavesMeasure h

/-- **C47** Nulls included, a message holds at most `2 ^ 31 - 1` values per byte. -/
theorem C47_all_message {w : Bytes} {m : RemotingMessage} (h : Message w m) :
    leavesItems (messageValues m) ≤ (2 ^ 31 - 1) * w.length := by
  rw [itemsLeaves_fold]
  exact message_tight leavesMeasure h

/-- The hypotheses of C46 and C47 are met: an object with a string and a number. -/
example : contentsItems (messageValues
      (.value (.object [65] none [([109], .string [120]), ([110], .int32 (-2))]))) = 3 ∧
    contentsItems (messageValues
      (.value (.object [65] none [([109], .string [120]), ([110], .int32 (-2))]))) ≤
      (header 1 ++ referencing).length ∧
    depth (.object [65] none [([109], .string [120]), ([110], .int32 (-2))]) = 1 :=
  ⟨by simp [messageValues, contentsItems, contents, contentsMembers],
    C47_contents_message referencing_message, by simp [depth, depthMembers]⟩

/-- Two levels of nesting, 45 bytes. -/
example : ∃ w v, w.length = 45 ∧ deserialize w = .ok (.value v) ∧ depth v = 2 :=
  C46_unbounded 2 (by decide)

/-- 32 bytes, a million nulls. -/
example : ∃ w : Bytes, w.length = 32 ∧
    deserialize w = .ok (.value (.array (List.replicate 1000000 .null))) :=
  C47_nulls 1000000 (by decide) (by decide)

end Nrbf
