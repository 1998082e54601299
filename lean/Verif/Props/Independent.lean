import Verif.Lemmas.Frame
import Verif.Props.Trace

/-! # C68: records that do not refer to each other

An object influences the rest of the message only where a reference to it stands: objects nobody refers
to can be added, removed and moved. -/

set_option autoImplicit false

namespace Nrbf

open Spec

variable [Platform]

omit [Platform] in
theorem unseen_of {K : Nat → Prop} {c i : Bytes} (h : ∀ k, K k → ¬ Mentions k c) : Unseen K (c ++ i) i := by
  rintro k p b s hk hb he ⟨q, rfl⟩
  refine h k hk ⟨b, hb, p, q, ?_⟩
  have : c ++ i = (p ++ b ++ q) ++ i := by rw [he]; simp
  exact (List.append_cancel_right this).symm

omit [Platform] in
theorem unseen_end {k : Nat} {i : Bytes} (h : ¬ Mentions k i) : Unseen (· = k) i [] := by
  have := unseen_of (K := (· = k)) (c := i) (i := []) (by rintro _ rfl; exact h)
  rwa [List.append_nil] at this

/-- Records after records. -/
theorem records_then {E : Env} {i : Bytes} {E1 : Env} {i1 : Bytes} {E2 : Env} {i2 : Bytes} (h : Records E i E1 i1)
    (h' : Records E1 i1 E2 i2) : Records E i E2 i2 := by
  induction h with
  | nil => exact h'
  | cons hr _ ih => exact .cons hr (ih h')

/-- **C68** (unreferenced) Let a message consist of a header, records `a`, and a rest `i`, and let `r` be a record that
fits between `a` and `i` and leaves the tables as they are.  If its id is not the root id and the rest contains no
reference to it, then the message with the record and the message without it have the same result. -/
theorem C68_unreferenced {root k : Nat} {h a r i i2 : Bytes} {u : Value} {E E2 : Env} {m : RemotingMessage}
    (hh : IsHeader root h) (ha : ∀ rest, Records Env.empty (a ++ rest) E rest)
    (hr : Record E (r ++ i) k u E i) (hi : Records E i E2 i2) (ht : Tail root E2 i2 m [])
    (hk : k ≠ root) (hm : ¬ Mentions k i) :
    deserialize (h ++ (a ++ (r ++ i))) = .ok m ∧ deserialize (h ++ (a ++ i)) = .ok m := by
  have hu := unseen_end hm
  have hs : SameExcept (· = k) E (E.add k u) := by
    refine ⟨rfl, fun j hj => ?_⟩
    simp only [Env.add, if_neg hj]
  obtain ⟨F2, hF, hs2⟩ := Records.frame hs (hu.sub (List.suffix_refl _) (List.nil_suffix)) hi
  have htF := ht.frame hs2 (hu.sub hi.suffix (List.suffix_refl _)) (fun he => hk he.symm)
  constructor
  · exact deserialize_complete (.mk hh (records_then (ha _) (.cons hr hF)) htF)
  · exact deserialize_complete (.mk hh (records_then (ha _) hi) ht)

/-- Records that stand alone, with further objects in the table that they do not refer to. -/
theorem segments_read {K : Nat → Prop} {E : Env} (i : Bytes) :
    ∀ (l : List Segment) (F : Env), (∀ s ∈ l, s.StandsAlone E) → (∀ s ∈ l, ∀ k, K k → ¬ Mentions k s.bytes) →
      (∀ s ∈ l, K s.id) → SameExcept K E F →
      ∃ F', Records F (Segment.all l ++ i) F' i ∧ F'.libs = E.libs ∧
        ∀ k, F'.objs k = (Segment.last k l).or (F.objs k)
  | [], F, _, _, _, hs => ⟨F, .nil, hs.1.symm, fun _ => rfl⟩
  | s :: l, F, h, hu, hk, hs => by
    have hu1 : Unseen K (s.bytes ++ (Segment.all l ++ i)) (Segment.all l ++ i) :=
      unseen_of (hu s List.mem_cons_self)
    obtain ⟨F1, h1, hs1⟩ := Record.frame hs hu1 (h s List.mem_cons_self _)
    have hkeep := Record.keeps hu1 h1
    have hs2 : SameExcept K E (F1.add s.id s.value) := by
      refine ⟨hs1.1, fun k hnk => ?_⟩
      simp only [Env.add]
      rw [if_neg, hs1.2 k hnk]
      rintro rfl
      exact hnk (hk s List.mem_cons_self)
    obtain ⟨F', h2, hl, ho⟩ := segments_read i l (F1.add s.id s.value) (fun t ht => h t (List.mem_cons_of_mem _ ht))
      (fun t ht => hu t (List.mem_cons_of_mem _ ht)) (fun t ht => hk t (List.mem_cons_of_mem _ ht)) hs2
    refine ⟨F', ?_, hl, fun k => ?_⟩
    · have : Segment.all (s :: l) ++ i = s.bytes ++ (Segment.all l ++ i) := by
        simp [Segment.all]
      rw [this]
      exact .cons h1 h2
    · rw [ho k]
      have hF : F1.objs k = F.objs k := by
        by_cases hkk : K k
        · exact hkeep k hkk
        · rw [← hs1.2 k hkk, hs.2 k hkk]
      simp only [Segment.last, Env.add, hF, eq_comm (a := k)]
      cases Segment.last k l <;> simp <;> split <;> simp

/-- The records of a message with unrelated records. -/
theorem segments_message {a : Bytes} {E : Env} {l : List Segment}
    (ha : ∀ rest, Records Env.empty (a ++ rest) E rest) (hl : ∀ s ∈ l, s.StandsAlone E)
    (hu : Segment.Unrelated l) :
    ∃ F, Records Env.empty (a ++ (Segment.all l ++ [11])) F [11] ∧
      ∀ k, F.objs k = (Segment.last k l).or (E.objs k) := by
  obtain ⟨F, h, _, ho⟩ := segments_read (K := fun k => ∃ t ∈ l, t.id = k) [11] l E hl
    (by rintro s hs _ ⟨t, ht, rfl⟩; exact hu s hs t ht) (fun s hs => ⟨s, hs, rfl⟩) (.refl _ _)
  exact ⟨F, records_then (ha _) h, ho⟩

/-- **C68** (independent) A message of records `a`, followed by records that stand alone and do not refer to each other,
in any number and order: the result is the value of the last one with the root id; if none has the root id, the object
that `a` left under the root id; and if there is none either, the message is rejected. -/
theorem C68_independent {root : Nat} {h a : Bytes} {E : Env} {l : List Segment} (hh : IsHeader root h)
    (h0 : root ≠ 0) (ha : ∀ rest, Records Env.empty (a ++ rest) E rest) (hl : ∀ s ∈ l, s.StandsAlone E)
    (hu : Segment.Unrelated l) :
    deserialize (h ++ (a ++ (Segment.all l ++ [11]))) =
      match (Segment.last root l).or (E.objs root) with
      | some v => .ok (.value v)
      | none => .err ⟨[], .missingRootObject⟩ := by
  obtain ⟨F, h1, ho⟩ := segments_message ha hl hu
  rw [← ho]
  cases hF : F.objs root with
  | some v => exact C37_root hh h0 h1 hF
  | none => exact C37_missing_root hh h0 h1 hF

/-- **C68** (no root) With root id 0 the result is null, whatever the records are. -/
theorem C68_null_root {h a : Bytes} {E : Env} {l : List Segment} (hh : IsHeader 0 h)
    (ha : ∀ rest, Records Env.empty (a ++ rest) E rest) (hl : ∀ s ∈ l, s.StandsAlone E)
    (hu : Segment.Unrelated l) : deserialize (h ++ (a ++ (Segment.all l ++ [11]))) = .ok (.value .null) := by
  obtain ⟨F, h1, _⟩ := segments_message ha hl hu
  exact C37_null_root hh h1

omit [Platform] in
theorem last_none {k : Nat} {l : List Segment} (h : k ∉ l.map Segment.id) : Segment.last k l = none := by
  induction l with
  | nil => rfl
  | cons s l ih =>
    simp only [List.map_cons, List.mem_cons, not_or] at h
    simp only [Segment.last, ih h.2, Option.none_or]
    rw [if_neg (fun he => h.1 he.symm)]

omit [Platform] in
theorem last_perm {k : Nat} {l l' : List Segment} (h : l.Perm l') (hd : (l.map Segment.id).Nodup) :
    Segment.last k l = Segment.last k l' := by
  induction h with
  | nil => rfl
  | cons s _ ih =>
    simp only [List.map_cons, List.nodup_cons] at hd
    simp only [Segment.last, ih hd.2]
  | swap s t l =>
    simp only [List.map_cons, List.nodup_cons, List.mem_cons, not_or] at hd
    simp only [Segment.last, Option.or_assoc]
    congr 1
    by_cases h1 : s.id = k <;> by_cases h2 : t.id = k <;> simp [h1, h2]
    exact absurd (h2.trans h1.symm) hd.1.1
  | trans h1 _ ih1 ih2 => rw [ih1 hd, ih2 ((h1.map _).nodup_iff.mp hd)]

/-- **C68** (order) The order of such records does not matter if their ids are distinct. -/
theorem C68_order {root : Nat} {h a : Bytes} {E : Env} {l l' : List Segment} (hh : IsHeader root h)
    (ha : ∀ rest, Records Env.empty (a ++ rest) E rest) (hl : ∀ s ∈ l, s.StandsAlone E)
    (hu : Segment.Unrelated l) (hd : (l.map Segment.id).Nodup) (hp : l.Perm l') :
    deserialize (h ++ (a ++ (Segment.all l' ++ [11]))) = deserialize (h ++ (a ++ (Segment.all l ++ [11]))) := by
  have hl' : ∀ s ∈ l', s.StandsAlone E := fun s hs => hl s (hp.mem_iff.mpr hs)
  have hu' : Segment.Unrelated l' := fun s hs t ht => hu s (hp.mem_iff.mpr hs) t (hp.mem_iff.mpr ht)
  by_cases h0 : root = 0
  · subst h0
    rw [C68_null_root hh ha hl hu, C68_null_root hh ha hl' hu']
  · rw [C68_independent hh h0 ha hl hu, C68_independent hh h0 ha hl' hu', last_perm hp hd]

/-! ## Concrete cases -/

open Tests (header)

omit [Platform] in
theorem not_mentions {k : Nat} {c : Bytes} (h : ¬ (9 :: le 4 k) <:+: c) : ¬ Mentions k c := by
  rintro ⟨b, ⟨_, ⟨_, _, rfl⟩, rfl⟩, hi⟩
  exact h hi

/-- A string with id 1. -/
def aString : Segment := ⟨[6, 1,0,0,0, 1,120], 1, .string [120]⟩

/-- An array with id 4 that refers to the string with id 7, and that string. -/
def anArray : Segment :=
  ⟨[16, 4,0,0,0, 1,0,0,0, 9, 7,0,0,0, 6, 7,0,0,0, 1,121], 4, .array [.string [121]]⟩

/-- The tables after an object with id 3 of a library. -/
def afterObject : Env := (Env.empty.addLib 9 [76]).add 3 (.object [65] (some [76]) [])

/-- The records that lead there. -/
def objectRecord : Bytes := [12, 9,0,0,0, 1,76] ++ [3, 3,0,0,0, 1,65, 0,0,0,0, 9,0,0,0]

theorem objectRecord_read (rest : Bytes) : Records Env.empty (objectRecord ++ rest) afterObject rest := by
  have := libraryClass_record rest
  rw [← List.append_assoc] at this
  exact .cons this .nil

theorem aString_alone (E : Env) : aString.StandsAlone E :=
  fun _ => .string (smallString 1 120 (by decide) (by decide) (by decide))

theorem anArray_alone (E : Env) (h : E.objs 7 = none) : anArray.StandsAlone E := by
  intro rest
  have hd : E.drop 7 = E := by
    unfold Env.drop
    congr 1
    funext k
    split
    · next hk => rw [hk, h]
    · rfl
  have h1 : Resolve [.ref 7] E ([6, 7,0,0,0, 1,121] ++ rest) [.string [121]] (E.drop 7) rest :=
    .next h (.string (smallString 7 121 (by decide) (by decide) (by decide))) .nil
  rw [hd] at h1
  exact .objectArray (b := [16, 4,0,0,0, 1,0,0,0]) (len := 1)
    ⟨[4,0,0,0], [1,0,0,0], smallId 4 (by decide) (by decide), ⟨by decide, rfl⟩, rfl⟩
    (.step (by decide) (.reference (b := [9, 7,0,0,0]) (.none (.inl (by simp)))
      (smallReference 7 (by decide) (by decide))) .done) h1

theorem unrelated_pair : Segment.Unrelated [aString, anArray] := by
  intro s hs t ht
  simp only [List.mem_cons, List.not_mem_nil, or_false] at hs ht
  rcases hs with rfl | rfl <;> rcases ht with rfl | rfl <;> exact not_mentions (by decide)

theorem pair_alone : ∀ s ∈ [aString, anArray], s.StandsAlone afterObject := by
  intro s hs
  simp only [List.mem_cons, List.not_mem_nil, or_false] at hs
  rcases hs with rfl | rfl
  · exact aString_alone _
  · exact anArray_alone _ rfl

/-- C68: the root is the array. -/
example : deserialize (header 4 ++ (objectRecord ++ (Segment.all [aString, anArray] ++ [11]))) =
    .ok (.value (.array [.string [121]])) :=
  C68_independent (isHeader_header 4 (by decide)) (by decide) objectRecord_read pair_alone unrelated_pair

/-- C68: the root is the object in front of them. -/
example : deserialize (header 3 ++ (objectRecord ++ (Segment.all [aString, anArray] ++ [11]))) =
    .ok (.value (.object [65] (some [76]) [])) :=
  C68_independent (isHeader_header 3 (by decide)) (by decide) objectRecord_read pair_alone unrelated_pair

/-- C68: the string that belongs to the array is not there afterwards. -/
example : deserialize (header 7 ++ (objectRecord ++ (Segment.all [aString, anArray] ++ [11]))) =
    .err ⟨[], .missingRootObject⟩ :=
  C68_independent (isHeader_header 7 (by decide)) (by decide) objectRecord_read pair_alone unrelated_pair

/-- C68: the other order. -/
example : deserialize (header 4 ++ (objectRecord ++ (Segment.all [anArray, aString] ++ [11]))) =
    deserialize (header 4 ++ (objectRecord ++ (Segment.all [aString, anArray] ++ [11]))) :=
  C68_order (isHeader_header 4 (by decide)) objectRecord_read pair_alone unrelated_pair (by decide) (.swap _ _ _)

/-- C68: the string in front of the array makes no difference. -/
example : deserialize (header 4 ++ (objectRecord ++ (aString.bytes ++ (anArray.bytes ++ [11])))) =
      .ok (.value (.array [.string [121]])) ∧
    deserialize (header 4 ++ (objectRecord ++ (anArray.bytes ++ [11]))) = .ok (.value (.array [.string [121]])) :=
  C68_unreferenced (isHeader_header 4 (by decide)) objectRecord_read (aString_alone _ _)
    (.cons (anArray_alone afterObject rfl _) .nil) (.value (.inr ⟨by decide, rfl⟩)) (by decide)
    (not_mentions (by decide))

/-- C68 needs that nobody refers to the record: with a string 7 in front of the array, the array takes that one. -/
example : deserialize (header 4 ++ ([6, 7,0,0,0, 1,122] ++ (anArray.bytes ++ [11]))) =
    .ok (.value (.array [.string [122]])) := by
  platform_decide

end Nrbf
