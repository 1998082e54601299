import Verif.Spec.Grammar
import Verif.Lemmas.GoodState

/-! # Reshaping, products and member maps of the model against the specification -/

namespace Nrbf
open Spec

/-! ## Multi-dimensional arrays -/

theorem chunks_sound {l : Nat} (fuel : Nat) {ms cs : List Value} (h : chunks l fuel ms = .done cs) :
    ∃ css : List (List Value), (∀ c ∈ css, c.length = l) ∧ ms = css.flatten ∧
      cs = css.map .array := by
  induction fuel generalizing ms cs with
  | zero =>
    cases ms with
    | nil => simp only [chunks, Loop.done.injEq] at h; subst h; exact ⟨[], by simp⟩
    | cons m ms => simp [chunks] at h
  | succ fuel ih =>
    cases ms with
    | nil => simp only [chunks, Loop.done.injEq] at h; subst h; exact ⟨[], by simp⟩
    | cons m ms =>
      unfold chunks at h
      split at h
      · cases h
      · rename_i hl
        split at h
        · rename_i cs' hcs
          cases h
          obtain ⟨css, h1, h2, rfl⟩ := ih hcs
          refine ⟨(m :: ms).take l :: css, ?_, ?_, rfl⟩
          · intro c hc
            simp only [List.mem_cons] at hc
            rcases hc with rfl | hc
            · rw [List.length_take]; omega
            · exact h1 c hc
          · rw [List.flatten_cons, ← h2, List.take_append_drop]
        · rename_i hne
          exact absurd h (hne cs)

theorem chunks_complete {l : Nat} (hl : 0 < l) (css : List (List Value))
    (h : ∀ c ∈ css, c.length = l) (fuel : Nat) (hf : css.flatten.length ≤ fuel) :
    chunks l fuel css.flatten = .done (css.map .array) := by
  induction css generalizing fuel with
  | nil => cases fuel <;> simp [chunks]
  | cons c css ih =>
    have hc := h c (by simp)
    have ih := ih (fun c hc => h c (by simp [hc]))
    rw [List.flatten_cons] at hf ⊢
    cases c with
    | nil => simp at hc; omega
    | cons m c =>
      cases fuel with
      | zero => simp at hf
      | succ fuel =>
        have e : (m :: c) ++ css.flatten = m :: (c ++ css.flatten) := rfl
        rw [e]
        unfold chunks
        rw [if_neg (by simp only [List.length_cons, List.length_append] at hc ⊢; omega)]
        rw [← e, List.drop_left' hc, List.take_left' hc, ih fuel (by
          simp only [List.length_cons, List.length_append] at hf hc ⊢; omega)]
        rfl

theorem shapedAll_nil_dims {vs leaves : List Value} : ShapedAll [] vs leaves ↔ vs = leaves := by
  induction vs generalizing leaves with
  | nil =>
    constructor
    · rintro ⟨⟩; rfl
    · rintro rfl; exact .nil
  | cons v vs ih =>
    constructor
    · intro h
      cases h with
      | cons h1 h2 => cases h1; rw [ih.mp h2]; rfl
    · rintro rfl
      exact ShapedAll.cons (l1 := [v]) .leaf (ih.mpr rfl)

theorem shapedAll_snoc_of {ds : List Nat} {l : Nat}
    (hA : ∀ v vs, Shaped (ds ++ [l]) v vs ↔ ∃ css : List (List Value), (∀ c ∈ css, c.length = l) ∧
      vs = css.flatten ∧ Shaped ds v (css.map .array)) (rows vs : List Value) :
    ShapedAll (ds ++ [l]) rows vs ↔ ∃ css : List (List Value), (∀ c ∈ css, c.length = l) ∧
      vs = css.flatten ∧ ShapedAll ds rows (css.map .array) := by
  induction rows generalizing vs with
  | nil =>
    constructor
    · rintro ⟨⟩; exact ⟨[], by simp, rfl, .nil⟩
    · rintro ⟨css, _, rfl, h⟩
      cases css with
      | nil => exact .nil
      | cons c css => rw [List.map_cons] at h; cases h
  | cons r rows ih =>
    constructor
    · intro h
      cases h with
      | cons h1 h2 =>
        obtain ⟨c1, a1, rfl, s1⟩ := (hA _ _).mp h1
        obtain ⟨c2, a2, rfl, s2⟩ := (ih _).mp h2
        refine ⟨c1 ++ c2, fun c hc => ?_, by simp, ?_⟩
        · rcases List.mem_append.mp hc with h | h
          · exact a1 c h
          · exact a2 c h
        · rw [List.map_append]; exact .cons s1 s2
    · rintro ⟨css, hall, rfl, h⟩
      generalize hm : css.map Value.array = leaves at h
      cases h with
      | cons h1 h2 =>
        obtain ⟨c1, c2, rfl, rfl, rfl⟩ := List.map_eq_append_iff.mp hm
        rw [List.flatten_append]
        exact .cons ((hA _ _).mpr ⟨c1, fun c hc => hall c (by simp [hc]), rfl, h1⟩)
          ((ih _).mpr ⟨c2, fun c hc => hall c (by simp [hc]), rfl, h2⟩)

theorem shaped_snoc {l : Nat} (ds : List Nat) (v : Value) (vs : List Value) :
    Shaped (ds ++ [l]) v vs ↔ ∃ css : List (List Value), (∀ c ∈ css, c.length = l) ∧
      vs = css.flatten ∧ Shaped ds v (css.map .array) := by
  induction ds generalizing v vs with
  | nil =>
    constructor
    · intro h
      cases h with
      | array h1 h2 =>
        rw [shapedAll_nil_dims] at h2
        subst h2
        exact ⟨[_], by simpa using h1, by simp, .leaf⟩
    · rintro ⟨css, hall, rfl, h⟩
      generalize hm : css.map Value.array = leaves at h
      cases h with
      | leaf =>
        obtain ⟨c, css', rfl, rfl, h'⟩ := List.map_eq_cons_iff.mp hm
        obtain rfl := List.map_eq_nil_iff.mp h'
        exact .array (hall c (by simp)) (shapedAll_nil_dims.mpr (by simp))
  | cons d ds ih =>
    have hB := shapedAll_snoc_of ih
    constructor
    · intro h
      cases h with
      | array h1 h2 =>
        obtain ⟨css, a, rfl, s⟩ := (hB _ _).mp h2
        exact ⟨css, a, rfl, .array h1 s⟩
    · rintro ⟨css, hall, rfl, h⟩
      cases h with
      | array h1 h2 => exact .array h1 ((hB _ _).mpr ⟨css, hall, rfl, h2⟩)

theorem shapedAll_snoc {l : Nat} (ds : List Nat) (rows vs : List Value) :
    ShapedAll (ds ++ [l]) rows vs ↔ ∃ css : List (List Value), (∀ c ∈ css, c.length = l) ∧
      vs = css.flatten ∧ ShapedAll ds rows (css.map .array) :=
  shapedAll_snoc_of (shaped_snoc ds) rows vs

theorem reshape_iff {ls : List Nat} {vs rows : List Value} (h0 : vs ≠ []) :
    reshape ls vs = .done rows ↔ ShapedAll ls.reverse rows vs := by
  induction ls generalizing vs with
  | nil => simp only [reshape, Loop.done.injEq, List.reverse_nil, shapedAll_nil_dims]; exact eq_comm
  | cons l ls ih =>
    rw [List.reverse_cons, shapedAll_snoc]
    unfold reshape
    constructor
    · intro h
      split at h
      · rename_i cs hcs
        obtain ⟨css, h1, rfl, rfl⟩ := chunks_sound _ hcs
        refine ⟨css, h1, rfl, (ih ?_).mp h⟩
        intro e
        obtain rfl := List.map_eq_nil_iff.mp e
        exact h0 rfl
      · rename_i hne
        exact absurd h (hne rows)
    · rintro ⟨css, h1, rfl, h2⟩
      have hl : 0 < l := by
        rcases Nat.eq_zero_or_pos l with rfl | h
        · exfalso
          apply h0
          rw [List.flatten_eq_nil_iff]
          exact fun c hc => List.length_eq_zero_iff.mp (h1 c hc)
        · exact h
      rw [chunks_complete hl css h1 _ (Nat.le_refl _)]
      refine (ih ?_).mpr h2
      intro e
      obtain rfl := List.map_eq_nil_iff.mp e
      exact h0 rfl

/-- The model's reshaping is the specification's. -/
theorem rows_iff {lengths : List Nat} {vs rows : List Value} :
    reshape (lengths.drop 1).reverse vs = .done rows ↔ Rows lengths.tail vs rows := by
  unfold Rows
  split
  · rename_i h
    subst h
    rw [reshape_nil]
    simp only [Loop.done.injEq]
    exact eq_comm
  · rename_i h
    rw [reshape_iff h, List.reverse_reverse, List.drop_one]

/-! ## Products -/

theorem checkedProduct_spec [Platform] (acc : Nat) (ds : List Nat) :
    checkedProduct acc ds = productUsize acc ds := by
  induction ds generalizing acc with
  | nil => rfl
  | cons d ds ih =>
    unfold checkedProduct productUsize
    rw [ih]
    have := Nat.two_pow_pos usizeBits
    by_cases h : acc * d < 2 ^ usizeBits
    · rw [if_pos h, if_pos (by unfold usizeMax; omega)]
    · rw [if_neg h, if_neg (by unfold usizeMax; omega)]

/-! ## Member maps -/

theorem AMap.ext_of_keys {κ ν : Type} [DecidableEq κ] {m m' : AMap κ ν}
    (hn : (m.map Prod.fst).Nodup) (hk : m.map Prod.fst = m'.map Prod.fst)
    (hg : ∀ k, m.get? k = m'.get? k) : m = m' := by
  induction m generalizing m' with
  | nil => simpa using hk
  | cons e m ih =>
    obtain ⟨k, v⟩ := e
    cases m' with
    | nil => simp at hk
    | cons e' m' =>
      obtain ⟨k', v'⟩ := e'
      simp only [List.map_cons, List.cons.injEq] at hk
      obtain ⟨rfl, hk⟩ := hk
      have hv := hg k
      simp only [AMap.get?, if_pos] at hv
      cases hv
      congr 1
      simp only [List.map_cons, List.nodup_cons] at hn
      refine ih hn.2 hk fun x => ?_
      have hx := hg x
      simp only [AMap.get?] at hx
      by_cases h : k = x
      · subst h
        have h1 : ∀ l : AMap κ ν, k ∉ l.map Prod.fst → l.get? k = none := by
          intro l hl
          cases hc : l.get? k with
          | none => rfl
          | some y => exact absurd (List.mem_map_of_mem (f := Prod.fst) (AMap.mem_of_get? hc)) hl
        rw [h1 m hn.1, h1 m' (hk ▸ hn.1)]
      · rw [if_neg h, if_neg h] at hx
        exact hx

theorem AMap.get?_foldl {ν : Type} (l : List (Str × ν)) (m : AMap Str ν) (k : Str)
    (last : List (Str × ν) → Option ν)
    (h0 : last [] = none)
    (h1 : ∀ a v l, last ((a, v) :: l) = (last l).or (if a = k then some v else none)) :
    (l.foldl (fun m e => m.insert e.1 e.2) m).get? k = (last l).or (m.get? k) := by
  induction l generalizing m with
  | nil => simp [h0]
  | cons e l ih =>
    obtain ⟨a, v⟩ := e
    rw [List.foldl_cons, ih, h1, AMap.get?_insert]
    by_cases h : k = a
    · subst h; simp [Option.or_assoc]
    · rw [if_neg h, if_neg (fun e : a = k => h e.symm)]; simp

theorem AMap.keys_foldl {ν : Type} (l : List (Str × ν)) (m : AMap Str ν) :
    (l.foldl (fun m e => m.insert e.1 e.2) m).map Prod.fst =
      m.map Prod.fst ++ ((l.map Prod.fst).filter fun k => !(m.map Prod.fst).contains k).eraseDups := by
  induction l generalizing m with
  | nil => simp
  | cons e l ih =>
    obtain ⟨a, v⟩ := e
    rw [List.foldl_cons, ih, AMap.keys_insert, List.map_cons, List.filter_cons]
    by_cases h : a ∈ m.map Prod.fst
    · have hc : (m.map Prod.fst).contains a = true := by rw [List.contains_iff]; exact h
      rw [if_pos h]
      simp only [hc, Bool.not_true, Bool.false_eq_true, ↓reduceIte]
    · have hc : (m.map Prod.fst).contains a = false := by
        rw [← Bool.not_eq_true, List.contains_iff]; exact h
      rw [if_neg h]
      simp only [hc, Bool.not_false, ↓reduceIte]
      rw [List.eraseDups_cons, List.append_assoc, List.filter_filter]
      simp only [List.singleton_append]
      congr 3
      apply List.filter_congr
      intro x _
      rw [Bool.eq_iff_iff]
      simp [not_or, and_comm]

/-- The model's map of members is the specification's. -/
theorem fromIter_eq (names : List Str) (values : List Value) :
    AMap.fromIter (names.zip values) = bindNames names values := by
  refine AMap.ext_of_keys (AMap.nodup_fromIter _) ?_ fun k => ?_
  · unfold AMap.fromIter bindNames
    rw [AMap.keys_foldl]
    simp [Function.comp_def]
    rw [List.filter_eq_self.mpr (by simp)]
  · unfold AMap.fromIter bindNames
    rw [AMap.get?_foldl _ _ k (lastValue k) rfl (fun _ _ _ => rfl)]
    generalize names.zip values = l
    have hmap : ∀ (f : Str → Value) (ks : List Str),
        AMap.get? (ks.map fun k => (k, f k)) k = if k ∈ ks then some (f k) else none := by
      intro f ks
      induction ks with
      | nil => rfl
      | cons a ks ih =>
        simp only [List.map_cons, AMap.get?, ih, List.mem_cons]
        by_cases h : a = k
        · subst h; simp
        · have h' : ¬ k = a := fun e => h e.symm
          simp [h, h']
    rw [hmap]
    simp only [AMap.get?, Option.or_none, List.mem_eraseDups]
    have hmem : (lastValue k l).isSome ↔ k ∈ l.map Prod.fst := by
      induction l with
      | nil => simp [lastValue]
      | cons e l ih =>
        obtain ⟨a, v⟩ := e
        simp only [lastValue, List.map_cons, List.mem_cons, Option.isSome_or, Bool.or_eq_true, ih]
        by_cases h : a = k
        · subst h; simp
        · have h' : ¬ k = a := fun e => h e.symm
          simp [h, h']
    split
    · rename_i h
      obtain ⟨v, hv⟩ := Option.isSome_iff_exists.mp (hmem.mpr h)
      rw [hv]; rfl
    · rename_i h
      rw [← hmem, Option.not_isSome_iff_eq_none] at h
      exact h

end Nrbf
