import Verif.Lemmas.GoodState
import Verif.Lemmas.Utf8
import Verif.Spec.Contents
import Verif.Tests
import Verif.Tactic.PlatformDecide

/-! # C01, C02, C05, C06, C07, C10 (ranges), C23, C24, C38, C39 (distinct names): invariants of every
run -/

namespace Nrbf
open Spec
variable [Platform]

/-- The local invariant of a node. -/
def NodeOk (w : Bytes) (u : Value) : Prop :=
  (∀ s ∈ ownStrings u, StrOk w s) ∧ FitsType u ∧ NamesDistinct u ∧ Latin1 u ∧
    (∀ d, u = .decimal d → ∃ s, StrOk w s ∧ Platform.decimalFromStr s = some d) ∧
    ∀ vs, u = .array vs → vs.length ≤ maxArray

/-- The invariant instantiated with everything we want to know about values. -/
def polWF (w : Bytes) : Pol w where
  str := StrOk w
  val v := ∀ u, SubValue u v → NodeOk w u
  ofStrOk _ h := h
  object c l ms hc hl hms hnd := by
    intro u hu
    cases hu with
    | refl =>
      refine ⟨fun s hs => ?_, trivial, hnd, trivial, (fun _ e => by cases e), (fun _ e => by cases e)⟩
      simp only [ownStrings, List.mem_append, List.mem_cons, Option.mem_toList, List.mem_map] at hs
      rcases hs with (rfl | h) | ⟨e, he, rfl⟩
      · exact hc
      · exact hl s h
      · exact (hms e he).1
    | member hm hs => exact (hms _ hm).2 u hs
  array vs hlen hvs := by
    intro u hu
    cases hu with
    | refl =>
      exact ⟨by simp [ownStrings], trivial, trivial, trivial, (fun _ e => by cases e),
        (fun _ e => by cases e; exact hlen)⟩
    | item hm hs => exact hvs _ hm u hs
  prim p hp := by
    intro u hu
    cases p <;> simp only [Prim.intoValue] at hu <;> cases hu <;>
      refine ⟨by simp [ownStrings], ?_, trivial, ?_, ?_, (fun _ e => by cases e)⟩ <;> try simp only [FitsType, Latin1]
    all_goals simp only [Prim.InRange] at hp
    all_goals
      first | trivial | exact hp | omega | (intro _ e; cases e; exact hp) | (intro _ e; cases e; done)
  string s hs := by
    intro u hu
    cases hu
    exact ⟨by simpa [ownStrings] using hs, trivial, trivial, trivial, (fun _ e => by cases e),
      (fun _ e => by cases e)⟩
  null := by
    intro u hu
    cases hu
    exact ⟨by simp [ownStrings], trivial, trivial, trivial, (fun _ e => by cases e),
      (fun _ e => by cases e)⟩

theorem polWF_arrayInv (w : Bytes) : (polWF w).ArrayInv :=
  fun _ h v hv u hu => h u (.item hv hu)

theorem polWF_short (w : Bytes) : (polWF w).Short := fun _ h => (h _ (.refl _)).2.2.2.2.2 _ rfl

theorem message_wf {w : Bytes} {m : RemotingMessage} (h : deserialize w = .ok m) :
    (∀ s, StringIn s m → StrOk w s) ∧ ∀ u, ValueIn u m → NodeOk w u := by
  have hg := deserialize_good (polWF w) (polWF_arrayInv w)
  rw [h] at hg
  have hv : ∀ u, ValueIn u m → NodeOk w u := by
    rintro u ⟨v, hv, hu⟩
    cases m with
    | methodCall c =>
      cases ha : c.args with
      | none => simp [topValues, ha] at hv
      | some vs => exact (hg.2.2.2 vs ha).2 v (by simpa [topValues, ha] using hv) u hu
    | methodReturn r =>
      simp only [topValues, List.mem_append, Option.mem_toList] at hv
      rcases hv with hv | hv
      · exact hg.1 v hv u hu
      · cases ha : r.args with
        | none => simp [ha] at hv
        | some vs => exact (hg.2.2 vs ha).2 v (by simpa [ha] using hv) u hu
    | value x =>
      simp only [topValues, List.mem_cons, List.not_mem_nil, or_false] at hv
      subst hv
      exact hg u hu
  refine ⟨?_, hv⟩
  rintro s (hs | ⟨u, hu, hs⟩)
  · cases m with
    | methodCall c =>
      simp only [topStrings, List.mem_append, List.mem_cons, List.not_mem_nil, or_false,
        Option.mem_toList] at hs
      rcases hs with (rfl | rfl) | hs
      · exact hg.1
      · exact hg.2.1
      · exact hg.2.2.1 s hs
    | methodReturn r =>
      simp only [topStrings, Option.mem_toList] at hs
      exact hg.2.1 s hs
    | value x => simp [topStrings] at hs
  · exact (hv u hu).1 s hs

/-- **C01** Parsing always terminates: `RemotingMessage::parse` never runs forever, on any input. -/
theorem C01_terminates (w : Bytes) : deserialize w ≠ .hang := by
  have hg := deserialize_good (polWF w) (polWF_arrayInv w)
  intro h
  rw [h] at hg
  exact hg

/-- **C02** (consequence) A panic requires both the BinaryArray record byte and a null-run
record byte in the input. -/
theorem C02_no_panic (w : Bytes)
    (h : (7 : UInt8) ∉ w ∨ ((13 : UInt8) ∉ w ∧ (14 : UInt8) ∉ w)) : deserialize w ≠ .panic := by
  have hg := deserialize_good (polWF w) (polWF_arrayInv w)
  intro hp
  rw [hp] at hg
  obtain ⟨h1, h2⟩ := hg
  rcases h with h | ⟨h3, h4⟩
  · exact h h1
  · rcases h2 with h2 | h2
    · exact h3 h2
    · exact h4 h2

/-- **C05** Every string reachable from a parsed message is valid UTF-8. -/
theorem C05_strings_utf8 {w : Bytes} {m : RemotingMessage} (h : deserialize w = .ok m) {s : Str}
    (hs : StringIn s m) : IsUtf8 s := (utf8Valid_iff s).mp ((message_wf h).1 s hs).2

/-- **C06** Every string reachable from a parsed message is a contiguous slice of the input. -/
theorem C06_strings_borrowed {w : Bytes} {m : RemotingMessage} (h : deserialize w = .ok m) {s : Str}
    (hs : StringIn s m) : ∃ before after, w = before ++ s ++ after := by
  obtain ⟨a, b, hab⟩ := ((message_wf h).1 s hs).1
  exact ⟨a, b, hab.symm⟩

/-- **C07** The position of an error is a suffix of the input. -/
theorem C07_error_position {w : Bytes} {e : Error} (h : deserialize w = .err e) :
    ∃ consumed, w = consumed ++ e.input := by
  have hg := deserialize_good (polWF w) (polWF_arrayInv w)
  rw [h] at hg
  obtain ⟨a, ha⟩ := hg.1
  exact ⟨a, ha.symm⟩

/-- **C10** (ranges) Every number in a parsed message fits its Rust type; every `char` is a Unicode
scalar value. -/
theorem C10_numbers_in_range {w : Bytes} {m : RemotingMessage} (h : deserialize w = .ok m)
    {u : Value} (hu : ValueIn u m) : FitsType u := ((message_wf h).2 u hu).2.1

/-- **C39** (names) The members of every object in a parsed message have distinct names. -/
theorem C39_names_distinct {w : Bytes} {m : RemotingMessage} (h : deserialize w = .ok m)
    {u : Value} (hu : ValueIn u m) : NamesDistinct u := ((message_wf h).2 u hu).2.2.1

/-- **C38** Three of the declared errors are never returned. -/
theorem C38_unreachable_errors {w : Bytes} {e : Error} (h : deserialize w = .err e) :
    e.inner ≠ .eof ∧ e.inner ≠ .duplicateObjectId ∧ e.inner ≠ .unresolvableMemberReference := by
  have hg := deserialize_good (polWF w) (polWF_arrayInv w)
  rw [h] at hg
  have := hg.2
  refine ⟨?_, ?_, ?_⟩ <;> (intro he; rw [he] at this; exact this)

/-! ## Concrete cases -/

open Tests (header ascii)

/-- A 2×2 rectangular array of objects whose first element record is a run of two nulls. -/
def panicking : Bytes :=
  header 1 ++ [7, 1,0,0,0, 2, 2,0,0,0, 2,0,0,0, 2,0,0,0, 2,
    13, 2, 10, 10, 10, 11]

/-- **C02** (witness) A well-formed message makes the parser panic, on every platform. -/
theorem C02_witness : ∃ w, deserialize w = .panic := ⟨panicking, by platform_decide⟩

/-- The hypothesis of `C02_no_panic` is met by an accepted message with a multi-dimensional
array. -/
example : (13 : UInt8) ∉ header 1 ++ [7, 1,0,0,0, 2, 2,0,0,0, 1,0,0,0, 2,0,0,0, 0, 9,
      67,0,0,0,0,0,0,0, 42,0,0,0,0,0,0,0, 11] ∧
    deserialize (header 1 ++ [7, 1,0,0,0, 2, 2,0,0,0, 1,0,0,0, 2,0,0,0, 0, 9,
      67,0,0,0,0,0,0,0, 42,0,0,0,0,0,0,0, 11]) =
    .ok (.value (.array [.array [.int64 67, .int64 42]])) := by
  constructor
  · decide +kernel
  · platform_decide

/-- A message with an object `Aé` (library `lib`), member `m` = string `é`, meeting the hypotheses of
C05, C06, C10 and C39. -/
def objectMessage : Bytes :=
  header 1 ++ [12, 2,0,0,0, 3, 108,105,98, 5, 1,0,0,0, 3, 65,0xC3,0xA9, 2,0,0,0, 1,109, 1,110,
    1, 0, 8, 2,0,0,0, 6, 3,0,0,0, 2, 0xC3,0xA9, 0xFE,0xFF,0xFF,0xFF, 11]

/-- The value of `objectMessage`. -/
def objectMessageValue : Value :=
  .object [65, 0xC3, 0xA9] (some (ascii "lib")) [([109], .string [0xC3, 0xA9]), ([110], .int32 (-2))]

example : deserialize objectMessage = .ok (.value objectMessageValue) := by kernel_decide

example : StringIn [0xC3, 0xA9] (.value objectMessageValue) :=
  .inr ⟨.string [0xC3, 0xA9], ⟨objectMessageValue, by simp [topValues],
    .member (k := [109]) (by simp) (.refl _)⟩, by simp [ownStrings]⟩

example : ValueIn (.int32 (-2)) (.value objectMessageValue) :=
  ⟨objectMessageValue, by simp [topValues], .member (k := [110]) (by simp) (.refl _)⟩

/-- A rejected message, meeting the hypotheses of C07 and C38. -/
example : deserialize (header 1 ++ [11, 5]) = .err ⟨[5], .trailingData⟩ := by kernel_decide

end Nrbf
