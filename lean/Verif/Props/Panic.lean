import Verif.Lemmas.Panic
import Verif.Lemmas.MessageSem
import Verif.Props.Safety
import Verif.Props.Arrays

/-! # C02: panics -/

set_option autoImplicit false

namespace Nrbf
open Spec
open Tests (header)

variable [Platform]

/-- **C02** (only if) Whenever parsing panics, some suffix of the input is a BinaryArray record whose
element records can all be read and resolved, but the values they stand for do not fill whole rows. -/
theorem C02_cause {w : Bytes} (h : deserialize w = .panic) :
    ∃ E before i, w = before ++ i ∧ BadArray E i := by
  obtain ⟨E, i, ⟨b, hb⟩, h⟩ := panic_cause h
  exact ⟨E, b, i, hb.symm, h⟩

/-- Such an array has at least two dimensions, and one of its element records is a null run of at least
two elements. -/
theorem C02_bad_array {E : Env} {i : Bytes} (h : BadArray E i) :
    ∃ id kind d1 d2 dims T b i1 slots E2 i2 k, i = b ++ i1 ∧
      IsBinaryArrayHead id kind (d1 :: d2 :: dims) T b ∧
      Members (List.replicate (d1 * (d2 * dims.prod)) (some T)) E i1 slots E2 i2 ∧
      Slot.nulls k ∈ slots ∧ 2 ≤ k := by
  obtain ⟨id, kind, lengths, T, b, n, i1, slots, E2, i2, vs, E3, i3, rfl, hb, hn, hm, hv, hd⟩ := h
  have hn := productUsize_prod hn
  match lengths with
  | [] => simp at hd
  | [d] => simp at hd
  | d1 :: d2 :: dims =>
    simp only [List.prod_cons, List.tail_cons, Nat.one_mul] at hn hd
    subst hn
    have hsize : ∃ k, Slot.nulls k ∈ slots ∧ 2 ≤ k := by
      apply Classical.byContradiction
      intro hno
      have ones : ∀ s ∈ slots, s.size = 1 := by
        intro s hs
        cases s with
        | value => rfl
        | ref => rfl
        | nulls k =>
          have h1 := members_size hm _ hs
          have h2 : ¬ 2 ≤ k := fun h => hno ⟨k, hs, h⟩
          simp only [Slot.size] at h1 ⊢
          omega
      have h1 := resolve_length hv
      rw [slotsSize_ones ones, members_length hm, List.length_replicate] at h1
      rw [h1] at hd
      exact hd (Nat.dvd_mul_left _ _)
    obtain ⟨k, hk, h2⟩ := hsize
    exact ⟨id, kind, d1, d2, dims, T, b, i1, slots, E2, i2, k, rfl, hb, hm, hk, h2⟩

/-- **C02** (if) A message panics if such an array follows its header and any number of complete
records. -/
theorem C02_panics {root : Nat} {h i i1 : Bytes} {E : Env} (hh : IsHeader root h)
    (hpre : Records Env.empty i E i1) (hbad : BadArray E i1) : deserialize (h ++ i) = .panic := by
  have hl := loop_panics hpre hbad (s := St.init) rfl rfl (i.length + 1) (by omega)
  have hp : (parseRemotingMessage St.init (h ++ i)).1 = .panic := by
    rw [parse_unfold hh]
    unfold parseReferenceables
    generalize referenceablesLoop (i.length + 1) St.init i = x at hl
    obtain ⟨o, s⟩ := x
    simp only at hl
    subst hl
    rfl
  unfold deserialize
  generalize parseRemotingMessage St.init (h ++ i) = x at hp
  obtain ⟨o, s⟩ := x
  simp only at hp
  subst hp
  rfl

/-! ## A concrete case -/

omit [Platform] in
theorem noLibrary_of {c : UInt8} {i : Bytes} (h : c ≠ 12) : NoLibrary (c :: i) :=
  .inl (by simp [h])

/-- The array of `panicking`: 2×2 objects, four element records, five nulls. -/
theorem panicking_bad : BadArray Env.empty [7, 1,0,0,0, 2, 2,0,0,0, 2,0,0,0, 2,0,0,0, 2,
    13, 2, 10, 10, 10, 11] := by
  have one : ∀ (i : Bytes), Member (some .object) Env.empty (10 :: i) (.nulls 1) Env.empty i := fun i =>
    .typedObject (.none (noLibrary_of (by decide))) (.nulls (b := [10]) (.none (noLibrary_of (by decide)))
      (.inl ⟨rfl, rfl⟩))
  refine ⟨1, .rectangular, [2, 2], .object, [7, 1,0,0,0, 2, 2,0,0,0, 2,0,0,0, 2,0,0,0, 2], 4,
    [13, 2, 10, 10, 10, 11], [.nulls 2, .nulls 1, .nulls 1, .nulls 1], Env.empty, [11],
    List.replicate 5 .null, Env.empty, [11], rfl, ?_, by platform_decide, ?_, ?_, by decide⟩
  · exact ⟨[1,0,0,0], [2,0,0,0], [2,0,0,0, 2,0,0,0], [], [], ⟨by decide, by decide, rfl⟩,
      ⟨by decide, rfl⟩, ⟨[2,0,0,0], [2,0,0,0], ⟨by decide, rfl⟩, ⟨[2,0,0,0], [], ⟨by decide, rfl⟩, rfl, rfl⟩, rfl⟩,
      fun h => h.elim, fun _ => rfl, rfl, rfl⟩
  · exact .cons (.typedObject (.none (noLibrary_of (by decide)))
        (.nulls (b := [13, 2]) (.none (noLibrary_of (by decide))) (.inr (.inr ⟨by decide, by decide, by decide⟩))))
      (.cons (one _) (.cons (one _) (.cons (one _) .nil)))
  · exact .nulls (n := 2) (vs := List.replicate 3 .null) (.nulls (n := 1) (vs := List.replicate 2 .null)
      (.nulls (n := 1) (vs := [.null]) (.nulls (n := 1) (vs := []) .nil)))

example : deserialize panicking = .panic :=
  C02_panics (isHeader_header 1 (by decide)) .nil panicking_bad

/-- After a string record, likewise. -/
example : deserialize (header 1 ++ ([6, 5,0,0,0, 1, 65] ++ [7, 1,0,0,0, 2, 2,0,0,0, 2,0,0,0, 2,0,0,0, 2,
    13, 2, 10, 10, 10, 11])) = .panic := by platform_decide

end Nrbf
