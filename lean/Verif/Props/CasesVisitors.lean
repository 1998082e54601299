import Verif.Props.CasesSerde
import Verif.Props.VisitorsTold
import Verif.Props.VisitorsOnce
import Verif.Props.Related
import Verif.Props.Probe
import Verif.Props.CallDepth
import Verif.Props.Floats
import Verif.Props.Decimals
import Verif.Props.ArrayLength
import Verif.Props.Text
import Verif.Props.ReportText
import Verif.Props.Width

/-! # More concrete cases

Like `Props/Cases.lean`, for theorems about arbitrary `Deserialize` implementations and some others. -/

set_option autoImplicit false

namespace Nrbf.Visitors

open Spec

variable [Platform] [FloatLib] [TextLib]

/-! ## C74: what is told -/

/-- An array of two numbers: a conversation over these two. -/
example (r : Res Int) (h : Visit summing (.array [.int32 1, .int32 2]) .seq summer r) :
    ∃ c r0, SeqTalk summer.seq (ArrayAnswer summing [.int32 1, .int32 2]) c r0 := by
  obtain ⟨c, r0, h, -⟩ := (C74_array (by decide)).mp h
  exact ⟨c, r0, h⟩

omit [Platform] [FloatLib] [TextLib] in
theorem twoOfThree_isList : IsList (.object (lit "System.Collections.Generic.List`1[[System.Int32]]") none twoOfThree)
    [.int32 1, .int32 2, .int32 3] 2 :=
  ⟨_, _, 0, rfl, by kernel_decide, rfl, by kernel_decide, by simp [twoOfThree], by simp [twoOfThree], by simp [twoOfThree]⟩

/-- A list of two of three items. -/
example (r : Res Int) (h : Visit summing (.object (lit "System.Collections.Generic.List`1[[System.Int32]]") none twoOfThree) .tuple summer r) :
    ∃ c r0, SeqTalk summer.seq (ListAnswer summing [.int32 1, .int32 2, .int32 3] (unsignedSize 2)) c r0 := by
  obtain ⟨c, r0, h, -⟩ := (C74_list twoOfThree_isList ⟨by decide, by decide⟩ (by decide) (by decide)).mp h
  exact ⟨c, r0, h⟩

/-- An object of a user's class. -/
example (r : Res Int) (h : Visit summing oldEvent .map summer r) :
    ∃ c r0, MapTalk (summer.map 1) (MapAnswer summing .borrowedStr [(lit "at", .timeSpan 5)]) c r0 := by
  obtain ⟨c, r0, h, -⟩ := (C74_object (.inl (by simp)) (by decide) (by decide)).mp h
  exact ⟨c, r0, h⟩

/-- A number. -/
example (r : Res Int) : Visit summing (.int32 5) .i64 summer r ↔ r = .ok 5 := C74_scalar (.int32 5) (by decide)

/-- An object that calls itself a list and is none. -/
example (r : Res Int) : Visit summing (.object (lit "System.Collections.Generic.List`1") none [(lit "_size", .int32 2)]) .seq summer r ↔
    r = .error (lit "invalid system class: System.Collections.Generic.List") := by
  refine C74_list_class (by kernel_decide) (by simp) ?_ (by decide) (by decide)
  rintro items size ⟨cls, ms, _, e, _, hn, hp⟩
  cases e
  simp at hn

/-- The sum of a malformed message. -/
example (r : Res Int) : FromSlice summing (Nrbf.Tests.header 1 ++ swallowed) () r ↔
    r = .error (lit "parsing error: " ++ lit (Error.display ⟨swallowed, .expectedRecordType .messageEnd⟩)) :=
  C74_malformed C60_swallowed

/-- It does not matter which method a type calls. -/
example (v : Value) (r : Res Int) : Visit summing v .u8 summer r ↔ Visit summing v .map summer r :=
  C74_method (by decide) (by decide) (by simp)

/-- The sum of a method call. -/
example (call : MethodCall) (ret : MethodReturn) (r : Res Int) :
    DeserializeMessage summing (.methodCall call) () r ↔ r = .error (lit "invalid type: method call, expected " ++ lit "numbers") :=
  (C74_method_message (impls := summing) (i := ()) (after := id) rfl call ret).1

/-- At the root. -/
example : DeserializeMessage summing (.value summed) () (.ok 19) := by
  refine (C74_root (impls := summing) (i := ()) (m := .any) (V := summer) (after := id) rfl).mpr ⟨.ok 19, ?_, rfl⟩
  have h := summing_summed
  generalize hr : (Except.ok 19 : Res Int) = r at h
  cases h with
  | ignore h => cases h
  | call h g =>
    cases h
    subst hr
    exact g

/-! ## C75, C77 -/

/-- The sum of a person's numbers and texts is determined. -/
example : ∃ r, FromSlice summing (Spec.write (.value personOld)) () r :=
  C75_total summing_orderly (by rw [person_old_ok]; simp) ()

/-- C77: a message has a sum if and only if it is odd or not. -/
example (w : Bytes) : (∃ r, FromSlice summing w () r) ↔ ∃ r, FromSlice odds w () r :=
  C77_ends (S := fun _ => True) (E := Eq) (R := fun (n : Int) b => b = decide (n % 2 = 1)) (I := fun _ _ => True)
    (fun _ => rfl) (fun _ _ _ _ => trivial) (fun _ _ _ => odds_related) trivial

/-- C77: a type that takes booleans too sums a message without booleans to the same. -/
def withBooleans : Unit → Impl Unit Int := fun _ => .call .any
  { summer with scalar := fun s => match s with | .bool b => .ok (if b then 1 else 0) | s => summer.scalar s } id

theorem oldEvent_told {s : Scalar} (h : Told oldEvent s) : ∀ b, s ≠ .bool b := by
  rintro b rfl
  have : ∀ s, Told (.timeSpan 5) s → s ≠ .bool b := by
    intro s h
    cases h with
    | scalar e => cases e; simp
  cases h with
  | scalar e => cases e
  | member hm h =>
    simp only [List.mem_cons, List.not_mem_nil, or_false, Prod.mk.injEq] at hm
    obtain ⟨-, rfl⟩ := hm
    exact this _ h rfl

example (r : Res Int) : FromSlice summing (Spec.write (.value oldEvent)) () r ↔ FromSlice withBooleans (Spec.write (.value oldEvent)) () r := by
  refine C77_told (fun i => ?_) () r
  refine .call ?_ fun _ _ => rfl
  rintro s ⟨v, hv, hs⟩
  rw [events_ok.1] at hv
  cases hv
  have := oldEvent_told hs
  cases s <;> first | rfl | exact absurd rfl (this _)

/-- C77: the sum again, as the first of two types. -/
def summerOfTwo : Visitor Bool Int where
  expecting := lit "numbers"
  scalar := summer.scalar
  some := .finish (.error (lit "not a number"))
  seq := summingAction (.next false) .finish
  map := fun _ h => summingAction (if h.length % 2 = 0 then .key false else .value false) .finish h
  enum := fun _ => .error (lit "not a number")

/-- The other adds one to what the first makes. -/
def summingTwice : Bool → Impl Bool Int
  | false => .call .any summerOfTwo id
  | true => .call .any summerOfTwo fun r => (r.map (· + 1))

example (v : Value) (r : Res Int) (h : Deserialize summingTwice v false r) : Deserialize summingTwice v true (r.map (· + 1)) :=
  C77_after (impls := summingTwice) (i := false) (j := true) (f := id) (g := fun r => r.map (· + 1)) rfl rfl h

example (r : Res Int) (h : FromSlice summingTwice (Spec.write (.value oldEvent)) false r) :
    FromSlice summingTwice (Spec.write (.value oldEvent)) true (r.map (· + 1)) :=
  C77_convert (impls := summingTwice) (i := false) (j := true) (f := id) (g := fun r => r.map (· + 1)) rfl rfl ⟨_, events_ok.1⟩ h

/-! ## C80 -/

example {ι α : Type} (impls : ι → Impl ι α) (i : ι) (r : Res α) :
    FromSlice impls (Spec.write (.value oldEvent)) i r ↔ FromSlice impls (Spec.write (.value newEvent)) i r :=
  C80_same events_ok.1 events_ok.2.1 (.value events_look) i r

/-- The new event with the number of the other. -/
def renamedEvent : Value := .object (lit "C.E") none [(lit "at", .int64 5)]

theorem renamed_ok : deserialize (Spec.write (.value renamedEvent)) = .ok (.value renamedEvent) := by platform_decide

example {ι α : Type} (impls : ι → Impl ι α) (i : ι) (r : Res α) :
    FromSlice impls (Spec.write (.value newEvent)) i r ↔ FromSlice impls (Spec.write (.value renamedEvent)) i r := by
  refine C80_names events_ok.2.1 renamed_ok (.plain (.inl (by simp)) (.inr (by kernel_decide)) rfl ?_) i r
  intro p hp
  simp only [List.zip_cons_cons, List.zip_nil_right, List.mem_singleton] at hp
  subst hp
  exact .leaf trivial

example (T : RTy) (d : Dyn) : fromSliceR T (Spec.write (.value oldEvent)) = .ok d ↔ fromSliceR T (Spec.write (.value newEvent)) = .ok d :=
  (C80_standard events_ok.1 events_ok.2.1 (.value events_look) T).1 d

/-! ## C83, C84 -/

/-- Whatever a type does, it is handed parts of a person, each once and in order. -/
example {ι α : Type} (impls : ι → Impl ι α) {i : ι} {r : Res α} {t : List Call}
    (h : LFromSlice impls (Spec.write (.value personOld)) i r t) : (visits t).Sublist (preorder personOld) :=
  C83_visits h person_old_ok

/-- Of a malformed message it is handed nothing. -/
example {ι α : Type} (impls : ι → Impl ι α) {i : ι} {r : Res α} {t : List Call}
    (h : LFromSlice impls (Nrbf.Tests.header 1 ++ swallowed) i r t) : t = [] :=
  C83_nothing h (by rw [C60_swallowed]; simp)

/-- A sum asks no more than fifteen times for a person. -/
example {r : Res Int} {t : List Call} (h : LFromSlice summing (Spec.write (.value personOld)) () r t) : requests t ≤ 15 := by
  have e : (preorder personOld).length = 5 := by
    simp [personOld, preorder, preorderItems, preorderMembers]
  have := C83_requests summing_orderly h person_old_ok
  omega

/-- All calls return. -/
example {r : Res Int} {t : List Call} (h : LFromSlice summing (Spec.write (.value personOld)) () r t) : level 0 t = 0 := C84_return h

example {r : Res Int} {t : List Call} (h : LFromSlice summing (Nrbf.Tests.header 1 ++ [6, 1,0,0,0, 2, 104,105, 11]) () r t) :
    deepest 0 t ≤ 2 * (Nrbf.Tests.header 1 ++ [6, 1,0,0,0, 2, 104,105, 11]).length + 1 := C84_length h

/-- A person that is read has been entered to its depth. -/
example {T : RTy} {x : Dyn} {t : List Call} (h : LFromSlice rust (Spec.write (.value personOld)) (.ty T) (.ok x) t) :
    depth personOld ≤ deepest 0 t := by
  refine C84_reached rust_thorough h person_old_ok ?_
  intro c l ms hm
  have e : preorder personOld = [personOld, .string (lit "Bob"), .array [.object (lit "Tag") none [(lit "Id", .int32 7)]],
      .object (lit "Tag") none [(lit "Id", .int32 7)], .int32 7] := by
    simp [personOld, preorder, preorderItems, preorderMembers]
  rw [e] at hm
  rcases List.mem_cons.mp hm with hm | hm
  · unfold personOld at hm; cases hm; exact .inl (by simp)
  · simp only [List.mem_cons, List.not_mem_nil, or_false, reduceCtorEq, false_or, Value.object.injEq] at hm
    obtain ⟨rfl, rfl, -⟩ := hm
    exact .inr (by kernel_decide)

end Nrbf.Visitors

namespace Nrbf

open Spec Tests

/-! ## C63 -/

/-- Two builds accept a 2 x 3 array of bytes alike. -/
example (P : Platform) (m : RemotingMessage) :
    @deserialize (P.on .bits32) matrixMessage = .ok m ↔ @deserialize (P.on .bits64) matrixMessage = .ok m :=
  C63_accept (noReference_of (by decide)) (by decide) matrix_nonzero m

section Floats

variable [Platform] [NaNLib]

/-! ## C78 -/

example : (∃ b, @decode _ rustFloats (.int64 (2 ^ 53 + 1)) .f64 = .ok (.f64 b) ∧ RoundedInt 52 11 (2 ^ 53 + 1) b) ∧
    ∃ b, @decode _ rustFloats (.int64 (2 ^ 53 + 1)) .f32 = .ok (.f32 b) ∧ RoundedInt 23 8 (2 ^ 53 + 1) b :=
  C78_int (.int64 (2 ^ 53 + 1)) _ rfl

example : ∃ b, @decode _ rustFloats (.int32 (-7)) .f32 = .ok (.f32 b) ∧ denotes 23 8 b = some (.finite (-7 * unitsInOne 23 8)) :=
  (C78_int_exact (.int32 (-7)) _ rfl).2 (by decide)

example : ∃ b b' x x', @decode _ rustFloats (.int64 (-5)) .f64 = .ok (.f64 b) ∧ @decode _ rustFloats (.uint64 (2 ^ 64 - 1)) .f64 = .ok (.f64 b') ∧
      denotes 52 11 b = some (.finite x) ∧ denotes 52 11 b' = some (.finite x') ∧ x ≤ x' :=
  (C78_order (.int64 (-5)) (.uint64 (2 ^ 64 - 1)) (-5) (2 ^ 64 - 1) rfl rfl ⟨by decide, by decide⟩ (show 2 ^ 64 - 1 < 2 ^ 64 by decide) (by decide)).1

/-- 1.5 is a double and a single. -/
example : ∃ c, @decode _ rustFloats (.double 0x3FF8000000000000) .f32 = .ok (.f32 c) ∧
    denotes 23 8 c = some (.finite (3 * 2 ^ 148)) :=
  C78_double_exact 0x3FF8000000000000 0x3FC00000 _ (by simp [denotes]) (by simp [denotes]; decide +kernel)

variable [DecimalEq]

/-- The two points (C72) are read equally, with the casts of Rust. -/
example (hdec : ∀ x : Dec, IsUtf8 (Platform.decimalToStr x)) {T : Ty} (hT : T.Proper) {d : Dyn}
    (hd : @fromSlice _ rustFloats T (write (.value pointPlus)) = .ok d) :
    ∃ d', @fromSlice _ rustFloats T (write (.value pointMinus)) = .ok d' ∧ DynEqual d d' := by
  refine C78_equal pointPlus_ok pointMinus_ok point_equal ?_ hdec ?_ hT hd
  · exact fun a b _ h => absurd rfl ((point_parts (.inl rfl) h).1 a)
  · rintro - u items size (h | h) hl
    · exact absurd hl ((point_parts (.inl rfl) h).2 _ _)
    · exact absurd hl ((point_parts (.inr rfl) h).2 _ _)

end Floats

/-! ## C72, C79 -/

/-- 1.0 and 1.00 are printed differently. -/
example [FloatLib] (width : PointerWidth) : ∀ d', @decode (exactDecimals width) _ (.decimal ⟨false, 100, 2⟩) .string = .ok d' →
    ¬ DynEqual (.str ((exactDecimals width).decimalToStr ⟨false, 10, 1⟩)) d' :=
  (@C72_decimals (exactDecimals width) _ ⟨false, 10, 1⟩ ⟨false, 100, 2⟩ (by
    show printDecimal ⟨false, 10, 1⟩ ≠ printDecimal ⟨false, 100, 2⟩
    decide +kernel)).2

/-- Whatever is read as -123.45 holds a text for it. -/
example (width : PointerWidth) (w : Bytes) (h : @deserialize (exactDecimals width) w = .ok decimalArray) :
    ∃ before text after, w = before ++ text ++ after ∧ IsUtf8 text ∧ (exactDecimals width).decimalFromStr text = some ⟨true, 12345, 2⟩ :=
  @C79 (exactDecimals width) w decimalArray h ⟨true, 12345, 2⟩ ⟨_, List.mem_cons_self, .item List.mem_cons_self (.refl _)⟩

section Text

variable [Platform]

/-! ## C81, C82, C85 -/

/-- The arguments of a call. -/
example (vs : List Value) (h : call.args = some vs) : vs.length ≤ (2 ^ 31 - 1) * (2 ^ 31 - 1) := C81_args call_ok (.inl ⟨_, rfl, h⟩)

/-- The texts of a list of customers. -/
example : ((messageNames (.value customersValue)).map List.length).sum + textItems (messageValues (.value customersValue)) +
    contentsItems (messageValues (.value customersValue)) ≤ 2 * Input.listOfCustomers.length := C82_text customers_ok

example : libraryTextItems (messageValues (.value customersValue)) ≤ 2 * Input.listOfCustomers.length * Input.listOfCustomers.length :=
  C82_libraries customers_ok

variable [FloatLib] [TextLib]

/-- The text in what is read from an object with a reference. -/
example (hdec : ∀ x : Dec, IsUtf8 (Platform.decimalToStr x)) (hp : PrintsShort) (d : Dyn)
    (h : fromSlice (.map .any) (header 1 ++ referencing) = .ok d) : dynText d ≤ 2 * (header 1 ++ referencing).length := by
  refine C82_from_slice_message (.map .any) hdec hp ?_ referencing_message h
  intro _ v u items size hv hu hl
  have e : deserialize (header 1 ++ referencing) = .ok (.value (.object [65] none [([109], .string [120]), ([110], .int32 (-2))])) := by
    platform_decide
  rw [e] at hv
  cases hv
  refine absurd hl (not_list_member (.inr (by kernel_decide)) (fun m hm => ?_) u hu _ _)
  simp only [List.mem_cons, List.not_mem_nil, or_false] at hm
  rcases hm with rfl | rfl <;> exact not_list_leaf trivial

example (s : Str) : s = lit "missing field `Name`" ↔ TextOf (.missingField (lit "Name")) s :=
  C85_text (.missingField (lit "Name")) (by simp) s

example (T : RTy) (s : Str) : s = (SerdeError.parsing ⟨swallowed, .expectedRecordType .messageEnd⟩).text ↔
    TextOf (.parsing ⟨swallowed, .expectedRecordType .messageEnd⟩) s :=
  C85_from_slice T (header 1 ++ swallowed) _ (C64_malformed T _ _ C60_swallowed).1 s

end Text

end Nrbf
