import Verif.Lemmas.Invert

/-! # Failing records -/

namespace Nrbf
open Spec

variable [Platform]

/-- Records, then one whose parser fails for good: the message fails with that error. -/
theorem records_failure {root : Nat} {h i : Bytes} {E : Env} {i1 : Bytes} {e : Error}
    (hh : IsHeader root h) (hr0 : Records Env.empty i E i1)
    (hf : ∀ s : St, s.classes = [] → abs s = E → ∃ s', parseReferenceable s i1 = (.failure e, s')) :
    deserialize (h ++ i) = .err e := by
  have key : ∀ {E0 : Env} {i : Bytes}, Records E0 i E i1 → ∀ {s : St}, s.classes = [] → abs s = E0 →
      ∀ fuel, i.length < fuel → ∃ s', referenceablesLoop fuel s i = (.failure e, s') := by
    intro E0 i hr
    induction hr with
    | nil =>
      intro s hs hE fuel hf'
      cases fuel with
      | zero => omega
      | succ fuel =>
        obtain ⟨s', h'⟩ := hf s hs hE
        exact ⟨s', by simp only [referenceablesLoop, h']⟩
    | @cons E i id v E1 i1 E2 i2 h1 _ ih =>
      intro s hs hE fuel hf'
      cases fuel with
      | zero => omega
      | succ fuel =>
        subst hE
        have hm := parseReferenceable_match hs i
        obtain ⟨s1, he, hE1⟩ := hm.2 id _ i1 ⟨v, E1, h1, rfl⟩
        obtain ⟨_, hs1, hl⟩ := hm.1 _ _ _ he
        obtain ⟨s', h'⟩ := ih hr0 hf hs1 hE1 fuel (by omega)
        exact ⟨s', by simp only [referenceablesLoop, he]; exact h'⟩
  obtain ⟨s', h'⟩ := key hr0 (s := St.init) rfl abs_init (i.length + 1) (by omega)
  unfold deserialize
  rw [parse_unfold hh]
  have h'' : parseReferenceables St.init i = (.failure e, s') := h'
  simp only [h'', Res.bind]

/-- `parse_referenceable` on an array. -/
theorem referenceable_array {s : St} {i : Bytes} (h : ArrayByte i) {x : Res (Nat × List Value)}
    (hx : altMut [arraySingleObject (recAt i.length).classes (recAt i.length).referenceable,
      arraySinglePrimitive, arraySingleString (recAt i.length).classes (recAt i.length).referenceable,
      binaryArray (recAt i.length).classes (recAt i.length).referenceable] s i = x)
    {e : Error} {s' : St} (hxe : x = (.failure e, s')) :
    parseReferenceable s i = (.failure e, s') := by
  have hc : ¬ ClassByte i := by
    rintro (h' | h' | h' | h' | h') <;> rcases h with h | h | h | h <;> rw [h] at h' <;> cases h'
  have h1 : i.head? ≠ some 1 := by
    intro h'
    rcases h with h | h | h | h <;> rw [h] at h' <;> cases h'
  obtain ⟨e1, he1⟩ := classesBody_other (classes := (recAt i.length).classes)
    (referenceable := (recAt i.length).referenceable) (s := s) hc h1
  have h12 : i.head? ≠ some 12 := fun h => hc (.inl h)
  unfold parseReferenceable
  simp only [recAt]
  unfold referenceableBody
  rw [altMut_skip ⟨e1, by simp only [he1]; rfl⟩]
  simp only [altMut]
  unfold arraysBody
  rw [lib_none h12]
  simp only [Res.bind, hx, hxe]
  rfl

/-- A BinaryArray whose size overflows. -/
theorem binaryArray_overflow {s : St} {id : Nat} {kind : BinaryArrayType} {lengths : List Nat}
    {T : MemberType} {b i : Bytes} (hb : IsBinaryArrayHead id kind lengths T b)
    (hp : productUsize 1 lengths = none) :
    parseReferenceable s (b ++ i) = (.failure ⟨b ++ i, .invalidLength⟩, s) := by
  have h7 := binaryArrayHead_head (r := i) hb
  refine referenceable_array (.inr (.inr (.inr h7))) rfl ?_
  rw [altMut_skip (arraySingleObject_mismatch (by rw [h7]; decide) s),
    altMut_skip (arraySinglePrimitive_mismatch (by rw [h7]; decide) s),
    altMut_skip (arraySingleString_mismatch (by rw [h7]; decide) s)]
  obtain ⟨bid, brank, blens, bbounds, binfo, h1, h2, h3, h4, h5, h6, hbe⟩ := hb
  have hlb : ∃ lb : Option (List Nat), (hasLowerBounds kind → ∃ bounds, lb = some bounds ∧
        bounds.length = lengths.length ∧ IsSeq IsLength bounds bbounds) ∧
        (¬ hasLowerBounds kind → lb = none ∧ bbounds = []) := by
    by_cases hk : hasLowerBounds kind
    · obtain ⟨bs, g⟩ := h4 hk
      exact ⟨some bs, fun _ => ⟨bs, rfl, g⟩, fun h => absurd hk h⟩
    · exact ⟨none, fun h => absurd h hk, fun _ => ⟨rfl, h5 hk⟩⟩
  obtain ⟨lb, g1, g2⟩ := hlb
  have hparse := (binaryArray_exact (b ++ i) i ⟨id, kind, lengths, lb, binaryType T, typeInfo T⟩).mpr
    ⟨b, ⟨T, rfl, rfl, bid, brank, blens, bbounds, binfo, h1, h2, h3, g1, g2, h6, hbe⟩, rfl⟩
  have : binaryArray (recAt (b ++ i).length).classes (recAt (b ++ i).length).referenceable s (b ++ i) =
      (.failure ⟨b ++ i, .invalidLength⟩, s) := by
    unfold binaryArray
    simp only [lift, hparse, Res.bind]
    rw [checkedProduct_spec, hp]
  simp only [altMut, this]

end Nrbf
