import Verif.Props.SerdeOrder
import Verif.Props.Safety
import Verif.Lemmas.Write
import Verif.Spec.Equal

/-! # C65: what `==` means for values and messages -/

set_option autoImplicit false

namespace Nrbf

open Spec

/-! ## Floating point numbers -/

theorem magnitude_injective {f m m' e e' : Nat} (hm : m < 2 ^ f) (hm' : m' < 2 ^ f)
    (h : (if e = 0 then m else (2 ^ f + m) * 2 ^ (e - 1)) = if e' = 0 then m' else (2 ^ f + m') * 2 ^ (e' - 1)) :
    e = e' ∧ m = m' := by
  have aux : ∀ {m m' e e' : Nat}, m < 2 ^ f → m' < 2 ^ f → e ≠ 0 → e < e' →
      (2 ^ f + m) * 2 ^ (e - 1) ≠ (2 ^ f + m') * 2 ^ (e' - 1) := by
    intro m m' e e' hm hm' h0 hlt
    apply Nat.ne_of_lt
    have h1 : (2 ^ f + m) * 2 ^ (e - 1) < (2 ^ f * 2) * 2 ^ (e - 1) :=
      Nat.mul_lt_mul_of_pos_right (by omega) (Nat.two_pow_pos _)
    have h2 : (2 ^ f * 2) * 2 ^ (e - 1) = 2 ^ f * 2 ^ e := by
      rw [Nat.mul_assoc, ← Nat.pow_succ', show (e - 1).succ = e by omega]
    have h3 : 2 ^ f * 2 ^ e ≤ 2 ^ f * 2 ^ (e' - 1) := Nat.mul_le_mul_left _ (Nat.pow_le_pow_right (by omega) (by omega))
    have h4 : 2 ^ f * 2 ^ (e' - 1) ≤ (2 ^ f + m') * 2 ^ (e' - 1) := Nat.mul_le_mul_right _ (by omega)
    omega
  have low : ∀ {m m' e : Nat}, m < 2 ^ f → m ≠ (2 ^ f + m') * 2 ^ (e - 1) := by
    intro m m' e hm
    apply Nat.ne_of_lt
    have : (2 ^ f + m') * 1 ≤ (2 ^ f + m') * 2 ^ (e - 1) := Nat.mul_le_mul_left _ (Nat.two_pow_pos _)
    omega
  by_cases h0 : e = 0 <;> by_cases h0' : e' = 0 <;> simp only [h0, h0', if_true, if_false] at h
  · exact ⟨by omega, h⟩
  · exact absurd h (low hm)
  · exact absurd h.symm (low hm')
  · rcases Nat.lt_trichotomy e e' with hlt | rfl | hlt
    · exact absurd h (aux hm hm' h0 hlt)
    · exact ⟨rfl, by have := Nat.eq_of_mul_eq_mul_right (Nat.two_pow_pos _) h; omega⟩
    · exact absurd h.symm (aux hm' hm h0' hlt)

theorem magnitude_zero {f m e : Nat} (h : (if e = 0 then m else (2 ^ f + m) * 2 ^ (e - 1)) = 0) : e = 0 ∧ m = 0 := by
  by_cases h0 : e = 0
  · simpa [h0] using h
  · simp only [h0, if_false, Nat.mul_eq_zero] at h
    have := Nat.two_pow_pos f
    have := Nat.two_pow_pos (e - 1)
    omega

theorem bits_split (f e a : Nat) : a % 2 ^ (f + e) = a % 2 ^ f + 2 ^ f * (a / 2 ^ f % 2 ^ e) := by
  rw [Nat.pow_add, Nat.mod_mul]

/-- NaN is what stands for nothing. -/
theorem nanBits_iff (f e a : Nat) : nanBits f e a = true ↔ denotes f e a = none := by
  unfold nanBits denotes
  by_cases h1 : a / 2 ^ f % 2 ^ e = 2 ^ e - 1 <;> by_cases h2 : a % 2 ^ f = 0 <;> simp [h1, h2]

/-- The comparison of bit patterns is the comparison of numbers. -/
theorem floatEq_iff {f e a b : Nat} (he : 1 ≤ e) (ha : a < 2 ^ (f + e + 1)) (hb : b < 2 ^ (f + e + 1)) :
    floatEq f e a b = true ↔ ∃ x, denotes f e a = some x ∧ denotes f e b = some x := by
  have hsa : a / 2 ^ (f + e) < 2 := by
    rw [Nat.div_lt_iff_lt_mul (Nat.two_pow_pos _), ← Nat.pow_succ']; exact ha
  have hsb : b / 2 ^ (f + e) < 2 := by
    rw [Nat.div_lt_iff_lt_mul (Nat.two_pow_pos _), ← Nat.pow_succ']; exact hb
  have hpa := bits_split f e a
  have hpb := bits_split f e b
  have hda := Nat.mod_add_div a (2 ^ (f + e))
  have hdb := Nat.mod_add_div b (2 ^ (f + e))
  have hma : a % 2 ^ f < 2 ^ f := Nat.mod_lt _ (Nat.two_pow_pos _)
  have hmb : b % 2 ^ f < 2 ^ f := Nat.mod_lt _ (Nat.two_pow_pos _)
  have he2 : 2 ^ e - 1 ≠ 0 := by
    have := Nat.pow_le_pow_right (show 0 < 2 by omega) he
    omega
  constructor
  · intro h
    simp only [floatEq, Bool.and_eq_true, Bool.not_eq_true', Bool.or_eq_true, beq_iff_eq] at h
    obtain ⟨⟨h1, h2⟩, h3⟩ := h
    rcases h3 with rfl | ⟨h3, h4⟩
    · cases hx : denotes f e a with
      | none => rw [(nanBits_iff f e a).mpr hx] at h1; cases h1
      | some x => exact ⟨x, rfl, rfl⟩
    · have z : ∀ c, c % 2 ^ (f + e) = 0 → denotes f e c = some (.finite 0) := by
        intro c hc
        rw [bits_split] at hc
        have h5 : c % 2 ^ f = 0 := by omega
        have h6 : c / 2 ^ f % 2 ^ e = 0 := by
          have h7 : 2 ^ f * (c / 2 ^ f % 2 ^ e) = 0 := by omega
          rcases Nat.mul_eq_zero.mp h7 with h8 | h8
          · exact absurd h8 (Nat.ne_of_gt (Nat.two_pow_pos f))
          · exact h8
        simp only [denotes, h5, h6, if_neg he2.symm, if_true]
        simp
      exact ⟨_, z a h3, z b h4⟩
  · rintro ⟨x, h1, h2⟩
    have n1 : nanBits f e a = false := by
      rw [← Bool.not_eq_true, nanBits_iff, h1]; simp
    have n2 : nanBits f e b = false := by
      rw [← Bool.not_eq_true, nanBits_iff, h2]; simp
    simp only [floatEq, n1, n2, Bool.not_false, Bool.true_and, Bool.or_eq_true, Bool.and_eq_true, beq_iff_eq]
    have sign : ((a / 2 ^ (f + e) % 2 == 1) = (b / 2 ^ (f + e) % 2 == 1)) →
        a / 2 ^ f % 2 ^ e = b / 2 ^ f % 2 ^ e → a % 2 ^ f = b % 2 ^ f → a = b := by
      intro hs hx hm
      have hs' : a / 2 ^ (f + e) = b / 2 ^ (f + e) := by
        rw [Nat.mod_eq_of_lt hsa, Nat.mod_eq_of_lt hsb] at hs
        rw [Bool.eq_iff_iff] at hs
        simp only [beq_iff_eq] at hs
        revert hs hsa hsb
        generalize a / 2 ^ (f + e) = x
        generalize b / 2 ^ (f + e) = y
        intros
        omega
      rw [hm, hx] at hpa
      rw [← hpb] at hpa
      rw [← hda, ← hdb, hpa, hs']
    simp only [denotes] at h1 h2
    by_cases i1 : a / 2 ^ f % 2 ^ e = 2 ^ e - 1 <;> by_cases i2 : b / 2 ^ f % 2 ^ e = 2 ^ e - 1
    · rw [if_pos i1] at h1
      rw [if_pos i2] at h2
      by_cases j1 : a % 2 ^ f = 0 <;> by_cases j2 : b % 2 ^ f = 0 <;> simp only [j1, j2, if_true, if_false] at h1 h2
      · rw [← h2] at h1
        simp only [Option.some.injEq, Extended.infinite.injEq] at h1
        exact .inl (sign h1 (i1.trans i2.symm) (j1.trans j2.symm))
      · exact nomatch h2
      · exact nomatch h1
      · exact nomatch h1
    · rw [if_pos i1] at h1
      rw [if_neg i2] at h2
      by_cases j1 : a % 2 ^ f = 0 <;> simp only [j1, if_true, if_false] at h1
      · rw [← h1] at h2; cases h2
      · cases h1
    · rw [if_neg i1] at h1
      rw [if_pos i2] at h2
      by_cases j1 : b % 2 ^ f = 0 <;> simp only [j1, if_true, if_false] at h2
      · rw [← h1] at h2; cases h2
      · cases h2
    · rw [if_neg i1] at h1
      rw [if_neg i2] at h2
      rw [← h2] at h1
      simp only [Option.some.injEq, Extended.finite.injEq] at h1
      generalize hA : (if a / 2 ^ f % 2 ^ e = 0 then a % 2 ^ f else (2 ^ f + a % 2 ^ f) * 2 ^ (a / 2 ^ f % 2 ^ e - 1)) = A at h1
      generalize hB : (if b / 2 ^ f % 2 ^ e = 0 then b % 2 ^ f else (2 ^ f + b % 2 ^ f) * 2 ^ (b / 2 ^ f % 2 ^ e - 1)) = B at h1
      by_cases hz : A = 0
      · have hz' : B = 0 := by
          subst hz
          split at h1 <;> split at h1 <;> omega
        rw [hz] at hA
        rw [hz'] at hB
        obtain ⟨k1, k2⟩ := magnitude_zero hA
        obtain ⟨k3, k4⟩ := magnitude_zero hB
        right
        rw [hpa, hpb, k1, k2, k3, k4]
        simp
      · have hAB : A = B ∧ ((a / 2 ^ (f + e) % 2 == 1) = (b / 2 ^ (f + e) % 2 == 1)) := by
          cases hs1 : (a / 2 ^ (f + e) % 2 == 1) <;> cases hs2 : (b / 2 ^ (f + e) % 2 == 1) <;>
            simp only [hs1, hs2, if_true, if_false, Bool.false_eq_true] at h1 <;>
            first | exact ⟨by omega, rfl⟩ | (exfalso; omega)
        obtain ⟨k1, k2⟩ := magnitude_injective hma hmb (hA.trans (hAB.1.trans hB.symm))
        exact .inl (sign hAB.2 k1 k2)

theorem double_eq {a b : Nat} (ha : a < 2 ^ 64) (hb : b < 2 ^ 64) :
    floatEq 52 11 a b = true ↔ ∃ x, denotes 52 11 a = some x ∧ denotes 52 11 b = some x :=
  floatEq_iff (by decide) ha hb

theorem single_eq {a b : Nat} (ha : a < 2 ^ 32) (hb : b < 2 ^ 32) :
    floatEq 23 8 a b = true ↔ ∃ x, denotes 23 8 a = some x ∧ denotes 23 8 b = some x :=
  floatEq_iff (by decide) ha hb

/-! ## Containers -/

theorem getMember_mem {ms : List (Str × Value)} {k : Str} {v : Value} (h : getMember k ms = some v) : (k, v) ∈ ms := by
  induction ms with
  | nil => cases h
  | cons m ms ih =>
    obtain ⟨k', u⟩ := m
    simp only [getMember] at h
    split at h
    · rename_i hk
      cases h
      subst hk
      exact List.mem_cons_self
    · exact List.mem_cons_of_mem _ (ih h)

theorem getMember_none {ms : List (Str × Value)} {k : Str} (h : getMember k ms = none) : k ∉ ms.map Prod.fst := by
  induction ms with
  | nil => simp
  | cons m ms ih =>
    obtain ⟨k', u⟩ := m
    simp only [getMember] at h
    split at h
    · cases h
    · rename_i hk
      simp only [List.map_cons, List.mem_cons, not_or]
      exact ⟨fun he => hk he.symm, ih h⟩

theorem member_once {ms : List (Str × Value)} (hn : (ms.map Prod.fst).Nodup) {k : Str} {v v' : Value} (h : (k, v) ∈ ms)
    (h' : (k, v') ∈ ms) : v = v' := by
  induction ms with
  | nil => cases h
  | cons m ms ih =>
    simp only [List.map_cons, List.nodup_cons] at hn
    rcases List.mem_cons.mp h with rfl | h1 <;> rcases List.mem_cons.mp h' with h2 | h2
    · cases h2; rfl
    · exact absurd (List.mem_map_of_mem (f := Prod.fst) h2) hn.1
    · subst h2; exact absurd (List.mem_map_of_mem (f := Prod.fst) h1) hn.1
    · exact ih hn.2 h1 h2

theorem getMember_iff {ms : List (Str × Value)} (hn : (ms.map Prod.fst).Nodup) {k : Str} {v : Value} :
    getMember k ms = some v ↔ (k, v) ∈ ms := by
  refine ⟨getMember_mem, fun h => ?_⟩
  cases hg : getMember k ms with
  | none => exact absurd (List.mem_map_of_mem (f := Prod.fst) h) (getMember_none hg)
  | some u => rw [member_once hn (getMember_mem hg) h]

variable [DecimalEq]

theorem itemsEq_iff {vs vs' : List Value} : itemsEq vs vs' = true ↔
    vs.length = vs'.length ∧ ∀ (i : Nat) v v', vs[i]? = some v → vs'[i]? = some v' → valueEq v v' = true := by
  induction vs generalizing vs' with
  | nil => cases vs' <;> simp [itemsEq]
  | cons v vs ih =>
    cases vs' with
    | nil => simp [itemsEq]
    | cons v' vs' =>
      simp only [itemsEq, Bool.and_eq_true, ih, List.length_cons]
      constructor
      · rintro ⟨h1, h2, h3⟩
        refine ⟨by omega, fun i u u' hu hu' => ?_⟩
        cases i with
        | zero => simp at hu hu'; subst hu; subst hu'; exact h1
        | succ i => exact h3 i u u' (by simpa using hu) (by simpa using hu')
      · rintro ⟨h1, h2⟩
        exact ⟨h2 0 v v' rfl rfl, by omega, fun i u u' hu hu' => h2 (i + 1) u u' (by simpa using hu) (by simpa using hu')⟩

theorem membersEq_iff {ms ms' : List (Str × Value)} : membersEq ms ms' = true ↔
    ∀ k v, (k, v) ∈ ms → ∃ v', getMember k ms' = some v' ∧ valueEq v v' = true := by
  induction ms with
  | nil => simp [membersEq]
  | cons m ms ih =>
    obtain ⟨k, v⟩ := m
    simp only [membersEq, Bool.and_eq_true, ih]
    constructor
    · rintro ⟨h1, h2⟩ k' u hu
      rcases List.mem_cons.mp hu with he | hu
      · cases he
        split at h1
        · rename_i v' hg; exact ⟨v', hg, h1⟩
        · cases h1
      · exact h2 k' u hu
    · intro h
      refine ⟨?_, fun k' u hu => h k' u (List.mem_cons_of_mem _ hu)⟩
      obtain ⟨v', h1, h2⟩ := h k v List.mem_cons_self
      rw [h1]
      exact h2

/-! ## The theorems -/

omit [DecimalEq] in
theorem Spec.WellTyped.item {vs : List Value} (h : WellTyped (.array vs)) {v : Value} (hv : v ∈ vs) : WellTyped v :=
  fun u hu => h u (.item hv hu)

omit [DecimalEq] in
theorem Spec.WellTyped.member {c : Str} {l : Option Str} {ms : List (Str × Value)} (h : WellTyped (.object c l ms)) {k : Str}
    {v : Value} (hv : (k, v) ∈ ms) : WellTyped v :=
  fun u hu => h u (.member hv hu)

/-- **C65** `==` on values is equality of what they stand for. -/
theorem C65_equal {v w : Value} (hv : WellTyped v) (hw : WellTyped w) : valueEq v w = true ↔ Equal v w := by
  induction v using value_induction generalizing w with
  | hobj c l ms ih =>
    have hn : (ms.map Prod.fst).Nodup := (hv _ (.refl _)).2
    constructor
    · intro h
      cases w with
      | object c' l' ms' =>
        have hn' : (ms'.map Prod.fst).Nodup := (hw _ (.refl _)).2
        simp only [valueEq, Bool.and_eq_true, beq_iff_eq, membersEq_iff] at h
        obtain ⟨rfl, rfl, hlen, h⟩ := h
        have sub : ms.map Prod.fst ⊆ ms'.map Prod.fst := by
          intro k hk
          obtain ⟨⟨k', u⟩, hm, rfl⟩ := List.mem_map.mp hk
          obtain ⟨v', hg, -⟩ := h k' u hm
          exact List.mem_map.mpr ⟨_, getMember_mem hg, rfl⟩
        refine .object (fun k => ⟨fun hk => sub hk, fun hk => ?_⟩) ?_
        · apply Classical.byContradiction
          intro hnot
          have := List.Nodup.length_le_of_subset (l₁ := k :: ms.map Prod.fst) (l₂ := ms'.map Prod.fst)
            (List.nodup_cons.mpr ⟨hnot, hn⟩) (List.cons_subset.mpr ⟨hk, sub⟩)
          simp at this
          omega
        · intro k u u' hu hu'
          obtain ⟨v', hg, he⟩ := h k u hu
          have := member_once hn' (getMember_mem hg) hu'
          subst this
          exact (ih u (List.mem_map_of_mem (f := Prod.snd) hu) (hv.member hu) (hw.member hu')).mp he
      | _ => simp [valueEq] at h
    · intro h
      cases h with
      | discrete hd => exact hd.elim
      | @object _ _ _ ms' hk hm =>
        have hn' : (ms'.map Prod.fst).Nodup := (hw _ (.refl _)).2
        simp only [valueEq, Bool.and_eq_true, beq_iff_eq, membersEq_iff]
        refine ⟨by trivial, by trivial, ?_, ?_⟩
        · simpa using ((List.perm_ext_iff_of_nodup hn hn').mpr hk).length_eq
        · intro k u hu
          have : k ∈ ms'.map Prod.fst := (hk k).mp (List.mem_map_of_mem (f := Prod.fst) hu)
          obtain ⟨⟨k', u'⟩, hu', rfl⟩ := List.mem_map.mp this
          exact ⟨u', (getMember_iff hn').mpr hu',
            (ih u (List.mem_map_of_mem (f := Prod.snd) hu) (hv.member hu) (hw.member hu')).mpr (hm _ _ _ hu hu')⟩
  | harr vs ih =>
    constructor
    · intro h
      cases w with
      | array vs' =>
        simp only [valueEq, itemsEq_iff] at h
        refine .array h.1 fun i u u' hu hu' => ?_
        exact (ih u (List.mem_of_getElem? hu) (hv.item (List.mem_of_getElem? hu)) (hw.item (List.mem_of_getElem? hu'))).mp
          (h.2 i u u' hu hu')
      | _ => simp [valueEq] at h
    · intro h
      cases h with
      | discrete hd => exact hd.elim
      | array hl hi =>
        simp only [valueEq, itemsEq_iff]
        refine ⟨hl, fun i u u' hu hu' => ?_⟩
        exact (ih u (List.mem_of_getElem? hu) (hv.item (List.mem_of_getElem? hu)) (hw.item (List.mem_of_getElem? hu'))).mpr
          (hi i u u' hu hu')
  | hleaf v ho ha =>
    have fv := (hv _ (.refl _)).1
    have fw := (hw _ (.refl _)).1
    constructor
    · intro h
      cases v with
      | object c l ms => exact absurd rfl (ho c l ms)
      | array vs => exact absurd rfl (ha vs)
      | double a =>
        cases w with
        | double b =>
          obtain ⟨x, h1, h2⟩ := (double_eq fv fw).mp (by simpa only [valueEq] using h)
          exact .double h1 h2
        | _ => simp [valueEq] at h
      | single a =>
        cases w with
        | single b =>
          obtain ⟨x, h1, h2⟩ := (single_eq fv fw).mp (by simpa only [valueEq] using h)
          exact .single h1 h2
        | _ => simp [valueEq] at h
      | decimal a =>
        cases w with
        | decimal b => exact .decimal (by simpa only [valueEq] using h)
        | _ => simp [valueEq] at h
      | _ =>
        cases w <;> first | (simp [valueEq] at h; done) | (simp only [valueEq, beq_iff_eq] at h; subst h; exact .discrete trivial) | exact .discrete trivial
    · intro h
      cases h with
      | discrete hd =>
        cases v <;> first | exact hd.elim | simp [valueEq]
      | double h1 h2 => simpa only [valueEq] using (double_eq fv fw).mpr ⟨_, h1, h2⟩
      | single h1 h2 => simpa only [valueEq] using (single_eq fv fw).mpr ⟨_, h1, h2⟩
      | decimal h => simpa only [valueEq] using h
      | array => exact absurd rfl (ha _)
      | object => exact absurd rfl (ho _ _ _)

theorem Spec.Equal.symm {v w : Value} (h : Equal v w) : Equal w v := by
  induction h with
  | discrete hd => exact .discrete hd
  | double h1 h2 => exact .double h2 h1
  | single h1 h2 => exact .single h2 h1
  | decimal h => exact .decimal (DecimalEq.symm _ _ h)
  | array hl _ ih => exact .array hl.symm fun i v v' hv hv' => ih i v' v hv' hv
  | object hk _ ih => exact .object (fun k => (hk k).symm) fun k v v' hv hv' => ih k v' v hv' hv

theorem Spec.Equal.trans {u v w : Value} (h : Equal u v) (h' : Equal v w) : Equal u w := by
  induction h generalizing w with
  | discrete hd => exact h'
  | double h1 h2 =>
    cases h' with
    | discrete hd => exact hd.elim
    | double h3 h4 => rw [h2] at h3; cases h3; exact .double h1 h4
  | single h1 h2 =>
    cases h' with
    | discrete hd => exact hd.elim
    | single h3 h4 => rw [h2] at h3; cases h3; exact .single h1 h4
  | decimal h =>
    cases h' with
    | discrete hd => exact hd.elim
    | decimal h2 => exact .decimal (DecimalEq.trans _ _ _ h h2)
  | @array vs vs' hl _ ih =>
    cases h' with
    | discrete hd => exact hd.elim
    | array hl' hi =>
      refine .array (hl.trans hl') fun i a c ha hc => ?_
      have hlt : i < vs'.length := by rw [hl']; exact (List.getElem?_eq_some_iff.mp hc).1
      exact ih i a _ ha (List.getElem?_eq_getElem hlt) (hi i _ c (List.getElem?_eq_getElem hlt) hc)
  | @object cls lib ms ms' hk _ ih =>
    cases h' with
    | discrete hd => exact hd.elim
    | object hk' hm =>
      refine .object (fun k => (hk k).trans (hk' k)) fun k a c ha hc => ?_
      obtain ⟨⟨k', b⟩, hb, rfl⟩ := List.mem_map.mp ((hk k).mp (List.mem_map_of_mem (f := Prod.fst) ha))
      exact ih _ a b ha hb (hm _ b c hb hc)

/-- What is equal to something holds no NaN. -/
theorem Spec.Equal.number {v w : Value} (h : Equal v w) : ∀ u, SubValue u v → ¬ IsNaN u := by
  induction h with
  | @discrete v hd =>
    intro u hu
    cases hu with
    | refl => cases v <;> first | exact hd.elim | exact fun hn => hn
    | item => exact hd.elim
    | member => exact hd.elim
  | double h1 h2 =>
    intro u hu
    cases hu
    simp [IsNaN, h1]
  | single h1 h2 =>
    intro u hu
    cases hu
    simp [IsNaN, h1]
  | decimal h => intro u hu; cases hu; exact fun hn => hn
  | @array vs vs' hl _ ih =>
    intro u hu
    cases hu with
    | refl => exact fun hn => hn
    | item hm hs =>
      obtain ⟨i, hi⟩ := List.getElem?_of_mem hm
      have hlt : i < vs'.length := by rw [← hl]; exact (List.getElem?_eq_some_iff.mp hi).1
      exact ih i _ _ hi (List.getElem?_eq_getElem hlt) u hs
  | @object cls lib ms ms' hk _ ih =>
    intro u hu
    cases hu with
    | refl => exact fun hn => hn
    | member hm hs =>
      obtain ⟨⟨k', b⟩, hb, rfl⟩ := List.mem_map.mp ((hk _).mp (List.mem_map_of_mem (f := Prod.fst) hm))
      exact ih _ _ b hm hb u hs

/-- Without NaN, values that differ only in the order of members are equal. -/
theorem Spec.Equal.of_same {v w : Value} (h : Same v w) (hv : WellTyped v) (hnan : ∀ u, SubValue u v → ¬ IsNaN u) : Equal v w := by
  induction h with
  | refl v =>
    induction v using value_induction with
    | hobj c l ms ih =>
      refine .object (fun _ => Iff.rfl) fun k a b ha hb => ?_
      have := member_once (hv _ (.refl _)).2 ha hb
      subst this
      exact ih a (List.mem_map_of_mem (f := Prod.snd) ha) (hv.member ha) fun u hu => hnan u (.member ha hu)
    | harr vs ih =>
      refine .array rfl fun i a b ha hb => ?_
      rw [ha] at hb
      cases hb
      have hm := List.mem_of_getElem? ha
      exact ih a hm (hv.item hm) fun u hu => hnan u (.item hm hu)
    | hleaf v ho ha =>
      have hn := hnan v (.refl v)
      cases v with
      | object c l ms => exact absurd rfl (ho c l ms)
      | array vs => exact absurd rfl (ha vs)
      | double b =>
        cases hx : denotes 52 11 b with
        | none => exact absurd hx hn
        | some x => exact .double hx hx
      | single b =>
        cases hx : denotes 23 8 b with
        | none => exact absurd hx hn
        | some x => exact .single hx hx
      | decimal d => exact .decimal (DecimalEq.refl d)
      | _ => exact .discrete trivial
  | array hl _ ih =>
    refine .array hl fun i a b ha hb => ?_
    have hm := List.mem_of_getElem? ha
    exact ih i a b ha hb (hv.item hm) fun u hu => hnan u (.item hm hu)
  | object _ _ hk _ ih =>
    exact .object hk fun k a b ha hb => ih k a b ha hb (hv.member ha) fun u hu => hnan u (.member ha hu)

theorem Spec.Equal.refl_iff {v : Value} (hv : WellTyped v) : Equal v v ↔ ∀ u, SubValue u v → ¬ IsNaN u :=
  ⟨fun h => h.number, Spec.Equal.of_same (.refl v) hv⟩

/-- **C65** A value is equal to itself exactly if it holds no NaN, at any depth. -/
theorem C65_reflexive {v : Value} (hv : WellTyped v) : valueEq v v = true ↔ ∀ u, SubValue u v → ¬ IsNaN u := by
  rw [C65_equal hv hv, Spec.Equal.refl_iff hv]

/-- **C65** Which side a value is on does not matter. -/
theorem C65_symmetric {v w : Value} (hv : WellTyped v) (hw : WellTyped w) : valueEq v w = valueEq w v := by
  rw [Bool.eq_iff_iff, C65_equal hv hw, C65_equal hw hv]
  exact ⟨Spec.Equal.symm, Spec.Equal.symm⟩

/-- **C65** Values equal to the same value are equal. -/
theorem C65_transitive {u v w : Value} (hu : WellTyped u) (hv : WellTyped v) (hw : WellTyped w)
    (h1 : valueEq u v = true) (h2 : valueEq v w = true) : valueEq u w = true :=
  (C65_equal hu hw).mpr (((C65_equal hu hv).mp h1).trans ((C65_equal hv hw).mp h2))

omit [DecimalEq] in
/-- The order of members does not matter for being well typed. -/
theorem Spec.WellTyped.same {v v' : Value} (h : Same v v') (hv : WellTyped v) : WellTyped v' := by
  induction h with
  | refl => exact hv
  | @array vs vs' hl _ ih =>
    intro u hu
    cases hu with
    | refl => exact ⟨trivial, trivial⟩
    | item hm hs =>
      obtain ⟨i, hi⟩ := List.getElem?_of_mem hm
      have hlt : i < vs.length := by rw [hl]; exact (List.getElem?_eq_some_iff.mp hi).1
      exact ih i _ _ (List.getElem?_eq_getElem hlt) hi (hv.item (List.getElem_mem hlt)) u hs
  | @object cls lib ms ms' _ hn hk _ ih =>
    intro u hu
    cases hu with
    | refl => exact ⟨trivial, hn⟩
    | member hm hs =>
      obtain ⟨⟨k', b⟩, hb, rfl⟩ := List.mem_map.mp ((hk _).mpr (List.mem_map_of_mem (f := Prod.fst) hm))
      exact ih _ b _ hb hm (hv.member hb) u hs

omit [DecimalEq] in
/-- The order of members of a value is not visible. -/
theorem same_symm {v v' : Value} (h : Same v v') : Same v' v := by
  induction h with
  | refl => exact .refl _
  | array hl _ ih => exact .array hl.symm fun i a b ha hb => ih i b a hb ha
  | object h1 h2 hk _ ih => exact .object h2 h1 (fun k => (hk k).symm) fun k a b ha hb => ih k b a hb ha

/-- **C65** The order in which members were inserted does not matter. -/
theorem C65_order {v v' w : Value} (hv : WellTyped v) (hw : WellTyped w) (h : Same v v') : valueEq v w = valueEq v' w := by
  have hv' := hv.same h
  rw [Bool.eq_iff_iff, C65_equal hv hw, C65_equal hv' hw]
  constructor
  · exact fun he => (Spec.Equal.of_same h hv he.number).symm.trans he
  · exact fun he => (Spec.Equal.of_same (same_symm h) hv' he.number).symm.trans he

/-- A floating point zero, of either sign, or a decimal: the values that have equal values other than themselves. -/
def Spec.HasTwins : Value → Prop
  | .double b => denotes 52 11 b = some (.finite 0)
  | .single b => denotes 23 8 b = some (.finite 0)
  | .decimal _ => True
  | _ => False

omit [DecimalEq] in
theorem zero_denotes {f e a : Nat} (he : 1 ≤ e) (hz : a % 2 ^ (f + e) = 0) : denotes f e a = some (.finite 0) := by
  have he2 : 2 ^ e - 1 ≠ 0 := by
    have := Nat.pow_le_pow_right (show 0 < 2 by omega) he
    omega
  rw [bits_split] at hz
  have h5 : a % 2 ^ f = 0 := by omega
  have h6 : a / 2 ^ f % 2 ^ e = 0 := by
    have h7 : 2 ^ f * (a / 2 ^ f % 2 ^ e) = 0 := by omega
    rcases Nat.mul_eq_zero.mp h7 with h8 | h8
    · exact absurd h8 (Nat.ne_of_gt (Nat.two_pow_pos f))
    · exact h8
  simp only [denotes, h5, h6, if_neg he2.symm, if_true]
  simp

omit [DecimalEq] in
theorem float_same {f e a b : Nat} (he : 1 ≤ e) (ha : a < 2 ^ (f + e + 1)) (hb : b < 2 ^ (f + e + 1)) {x : Extended}
    (h1 : denotes f e a = some x) (h2 : denotes f e b = some x) (hz : denotes f e a ≠ some (.finite 0)) : a = b := by
  have h := (floatEq_iff he ha hb).mpr ⟨x, h1, h2⟩
  simp only [floatEq, Bool.and_eq_true, Bool.or_eq_true, beq_iff_eq] at h
  rcases h.2 with rfl | ⟨h3, -⟩
  · rfl
  · exact absurd (zero_denotes he h3) hz

/-- **C65** A value without zeros and decimals is equal only to itself, up to the order of members: `assert_eq!` with such
a literal determines what was read. -/
theorem C65_identify {v w : Value} (hv : WellTyped v) (hw : WellTyped w) (hz : ∀ u, SubValue u v → ¬ HasTwins u)
    (h : valueEq v w = true) : Same v w := by
  have he := (C65_equal hv hw).mp h
  clear h
  induction he with
  | discrete hd => exact .refl _
  | double h1 h2 =>
    rw [float_same (f := 52) (e := 11) (by decide) (hv _ (.refl _)).1 (hw _ (.refl _)).1 h1 h2 (hz _ (.refl _))]
    exact .refl _
  | single h1 h2 =>
    rw [float_same (f := 23) (e := 8) (by decide) (hv _ (.refl _)).1 (hw _ (.refl _)).1 h1 h2 (hz _ (.refl _))]
    exact .refl _
  | decimal h => exact absurd trivial (hz _ (.refl _))
  | array hl _ ih =>
    refine .array hl fun i a b ha hb => ?_
    have hm := List.mem_of_getElem? ha
    exact ih i a b ha hb (hv.item hm) (hw.item (List.mem_of_getElem? hb)) fun u hu => hz u (.item hm hu)
  | object hk _ ih =>
    refine .object (hv _ (.refl _)).2 (hw _ (.refl _)).2 hk fun k a b ha hb => ?_
    exact ih k a b ha hb (hv.member ha) (hw.member hb) fun u hu => hz u (.member ha hu)

/-! ## Messages -/

theorem itemsEq_equal {vs vs' : List Value} (h : ∀ v ∈ vs, WellTyped v) (h' : ∀ v ∈ vs', WellTyped v) :
    itemsEq vs vs' = true ↔ ItemsEqual vs vs' := by
  rw [itemsEq_iff]
  refine and_congr_right fun _ => forall_congr' fun i => forall_congr' fun v => forall_congr' fun v' => forall_congr' fun hv =>
    forall_congr' fun hv' => ?_
  exact C65_equal (h v (List.mem_of_getElem? hv)) (h' v' (List.mem_of_getElem? hv'))

theorem argsEq_equal {vs vs' : Option (List Value)} (h : ∀ v ∈ vs.getD [], WellTyped v) (h' : ∀ v ∈ vs'.getD [], WellTyped v) :
    argsEq vs vs' = true ↔ OptionEqual ItemsEqual vs vs' := by
  cases vs <;> cases vs'
  · simp [argsEq, OptionEqual.none]
  · simp only [argsEq, Bool.false_eq_true, false_iff]; intro h; cases h
  · simp only [argsEq, Bool.false_eq_true, false_iff]; intro h; cases h
  · simp only [argsEq]
    rw [itemsEq_equal (by simpa using h) (by simpa using h')]
    exact ⟨.some, fun h => by cases h; assumption⟩

theorem optionEq_equal {v v' : Option Value} (h : ∀ u ∈ v.toList, WellTyped u) (h' : ∀ u ∈ v'.toList, WellTyped u) :
    optionEq v v' = true ↔ OptionEqual Equal v v' := by
  cases v <;> cases v'
  · simp [optionEq, OptionEqual.none]
  · simp only [optionEq, Bool.false_eq_true, false_iff]; intro h; cases h
  · simp only [optionEq, Bool.false_eq_true, false_iff]; intro h; cases h
  · simp only [optionEq]
    rw [C65_equal (h _ (by simp)) (h' _ (by simp))]
    exact ⟨.some, fun h => by cases h; assumption⟩

omit [DecimalEq] in
theorem Spec.MessageTyped.top {m : RemotingMessage} (h : MessageTyped m) : ∀ v ∈ topValues m, WellTyped v :=
  fun v hv u hu => h u ⟨v, hv, hu⟩

/-- **C65** `==` on messages is equality of what they stand for. -/
theorem C65_message {m m' : RemotingMessage} (hm : MessageTyped m) (hm' : MessageTyped m') :
    messageEq m m' = true ↔ MessageEqual m m' := by
  have t := hm.top
  have t' := hm'.top
  constructor
  · intro h
    cases m with
    | methodCall c =>
      cases m' with
      | methodCall c' =>
        obtain ⟨n, ty, cx, a⟩ := c
        obtain ⟨n', ty', cx', a'⟩ := c'
        simp only [messageEq, Bool.and_eq_true, beq_iff_eq] at h
        obtain ⟨rfl, rfl, rfl, h⟩ := h
        exact .methodCall ((argsEq_equal t t').mp h)
      | _ => simp [messageEq] at h
    | methodReturn r =>
      cases m' with
      | methodReturn r' =>
        obtain ⟨v, cx, a⟩ := r
        obtain ⟨v', cx', a'⟩ := r'
        simp only [messageEq, Bool.and_eq_true, beq_iff_eq] at h
        obtain ⟨h1, rfl, h⟩ := h
        exact .methodReturn
          ((optionEq_equal (fun u hu => t u (List.mem_append_left _ hu)) (fun u hu => t' u (List.mem_append_left _ hu))).mp h1)
          ((argsEq_equal (fun u hu => t u (List.mem_append_right _ hu)) (fun u hu => t' u (List.mem_append_right _ hu))).mp h)
      | _ => simp [messageEq] at h
    | value v =>
      cases m' with
      | value v' => exact .value ((C65_equal (t v (by simp [topValues])) (t' v' (by simp [topValues]))).mp (by simpa [messageEq] using h))
      | _ => simp [messageEq] at h
  · intro h
    cases h with
    | value h => exact (C65_equal (t _ (by simp [topValues])) (t' _ (by simp [topValues]))).mpr h
    | methodCall h =>
      simp only [messageEq, beq_self_eq_true, Bool.true_and]
      exact (argsEq_equal t t').mpr h
    | methodReturn h1 h =>
      simp only [messageEq, beq_self_eq_true, Bool.true_and, Bool.and_eq_true]
      exact ⟨(optionEq_equal (fun u hu => t u (List.mem_append_left _ hu)) (fun u hu => t' u (List.mem_append_left _ hu))).mpr h1,
        (argsEq_equal (fun u hu => t u (List.mem_append_right _ hu)) (fun u hu => t' u (List.mem_append_right _ hu))).mpr h⟩

omit [DecimalEq] in
/-- What the parser returns are values Rust can hold. -/
theorem parsed_typed [Platform] {w : Bytes} {m : RemotingMessage} (h : deserialize w = .ok m) : MessageTyped m := by
  intro u hu
  obtain ⟨-, h1, h2, -⟩ := (message_wf h).2 u hu
  exact ⟨h1, h2⟩

theorem itemsEqual_refl {vs : List Value} : ItemsEqual vs vs ↔ ∀ v ∈ vs, Equal v v := by
  constructor
  · rintro ⟨-, h⟩ v hv
    obtain ⟨i, hi⟩ := List.getElem?_of_mem hv
    exact h i v v hi hi
  · intro h
    refine ⟨rfl, fun i v v' hv hv' => ?_⟩
    rw [hv] at hv'
    cases hv'
    exact h v (List.mem_of_getElem? hv)

theorem messageEqual_refl {m : RemotingMessage} : MessageEqual m m ↔ ∀ v ∈ topValues m, Equal v v := by
  cases m with
  | value v =>
    refine ⟨fun h => ?_, fun h => .value (h v (by simp [topValues]))⟩
    cases h
    simpa [topValues]
  | methodCall c =>
    obtain ⟨n, ty, cx, a⟩ := c
    constructor
    · intro h
      cases h with
      | methodCall h =>
        cases h with
        | none => simp [topValues]
        | some h => exact itemsEqual_refl.mp h
    · intro h
      refine .methodCall ?_
      cases a with
      | none => exact .none
      | some vs => exact .some (itemsEqual_refl.mpr h)
  | methodReturn r =>
    obtain ⟨v, cx, a⟩ := r
    constructor
    · intro h
      cases h with
      | methodReturn h1 h2 =>
        intro u hu
        rcases List.mem_append.mp hu with hu | hu
        · cases h1 with
          | none => simp at hu
          | some h1 => simp at hu; subst hu; exact h1
        · cases h2 with
          | none => simp at hu
          | some h2 => exact itemsEqual_refl.mp h2 u hu
    · intro h
      refine .methodReturn ?_ ?_
      · cases v with
        | none => exact .none
        | some v => exact .some (h v (List.mem_append_left _ (by simp)))
      · cases a with
        | none => exact .none
        | some vs => exact .some (itemsEqual_refl.mpr fun v hv => h v (List.mem_append_right _ hv))

/-- **C65** Parsing the same bytes twice gives equal messages exactly if no NaN was read. -/
theorem C65_parsed [Platform] {w : Bytes} {m : RemotingMessage} (h : deserialize w = .ok m) :
    messageEq m m = true ↔ ∀ u, ValueIn u m → ¬ IsNaN u := by
  have ht := parsed_typed h
  rw [C65_message ht ht, messageEqual_refl]
  constructor
  · rintro h u ⟨v, hv, hu⟩
    exact (h v hv).number u hu
  · exact fun h v hv => (Spec.Equal.refl_iff (ht.top v hv)).mpr fun u hu => h u ⟨v, hv, hu⟩

theorem itemsEqual_symm {vs vs' : List Value} (h : ItemsEqual vs vs') : ItemsEqual vs' vs :=
  ⟨h.1.symm, fun i v v' hv hv' => (h.2 i v' v hv' hv).symm⟩

theorem itemsEqual_trans {us vs ws : List Value} (h : ItemsEqual us vs) (h' : ItemsEqual vs ws) : ItemsEqual us ws := by
  refine ⟨h.1.trans h'.1, fun i a c ha hc => ?_⟩
  have hlt : i < vs.length := by rw [h'.1]; exact (List.getElem?_eq_some_iff.mp hc).1
  exact (h.2 i a _ ha (List.getElem?_eq_getElem hlt)).trans (h'.2 i _ c (List.getElem?_eq_getElem hlt) hc)

omit [DecimalEq] in
theorem Spec.OptionEqual.symm {α : Type} {R : α → α → Prop} (hR : ∀ a b, R a b → R b a) {a b : Option α}
    (h : OptionEqual R a b) : OptionEqual R b a := by
  cases h with
  | none => exact .none
  | some h => exact .some (hR _ _ h)

omit [DecimalEq] in
theorem Spec.OptionEqual.trans {α : Type} {R : α → α → Prop} (hR : ∀ a b c, R a b → R b c → R a c) {a b c : Option α}
    (h : OptionEqual R a b) (h' : OptionEqual R b c) : OptionEqual R a c := by
  cases h with
  | none => exact h'
  | some h => cases h' with | some h' => exact .some (hR _ _ _ h h')

/-- **C65** Symmetry for the messages of two inputs. -/
theorem C65_parsed_symmetric [Platform] {w w' : Bytes} {m m' : RemotingMessage} (h : deserialize w = .ok m)
    (h' : deserialize w' = .ok m') : messageEq m m' = messageEq m' m := by
  have aux : ∀ {m m' : RemotingMessage}, MessageEqual m m' → MessageEqual m' m := by
    intro m m' h
    cases h with
    | value h => exact .value h.symm
    | methodCall h => exact .methodCall (h.symm fun _ _ => itemsEqual_symm)
    | methodReturn h1 h => exact .methodReturn (h1.symm fun _ _ => Spec.Equal.symm) (h.symm fun _ _ => itemsEqual_symm)
  rw [Bool.eq_iff_iff, C65_message (parsed_typed h) (parsed_typed h'), C65_message (parsed_typed h') (parsed_typed h)]
  exact ⟨aux, aux⟩

/-- **C65** Transitivity for the messages of three inputs. -/
theorem C65_parsed_transitive [Platform] {a b c : Bytes} {x y z : RemotingMessage} (ha : deserialize a = .ok x)
    (hb : deserialize b = .ok y) (hc : deserialize c = .ok z) (h1 : messageEq x y = true) (h2 : messageEq y z = true) :
    messageEq x z = true := by
  rw [C65_message (parsed_typed ha) (parsed_typed hb)] at h1
  rw [C65_message (parsed_typed hb) (parsed_typed hc)] at h2
  rw [C65_message (parsed_typed ha) (parsed_typed hc)]
  cases h1 with
  | value h => cases h2 with | value h' => exact .value (h.trans h')
  | methodCall h => cases h2 with | methodCall h' => exact .methodCall (h.trans (R := ItemsEqual) (fun _ _ _ => itemsEqual_trans) h')
  | methodReturn g h =>
    cases h2 with
    | methodReturn g' h' =>
      exact .methodReturn (g.trans (R := Equal) (fun _ _ _ => Spec.Equal.trans) g') (h.trans (R := ItemsEqual) (fun _ _ _ => itemsEqual_trans) h')

/-! ## Concrete cases -/

/-- How `rust_decimal` compares: by the numbers, so that 1.0 is 1.00. -/
def numericDecimals : DecimalEq where
  eq a b := (if a.neg then -(a.mantissa : Int) else a.mantissa) * 10 ^ b.scale ==
    (if b.neg then -(b.mantissa : Int) else b.mantissa) * 10 ^ a.scale
  refl a := by simp
  symm a b h := by
    simp only [beq_iff_eq] at h ⊢
    exact h.symm
  trans a b c h1 h2 := by
    simp only [beq_iff_eq] at h1 h2 ⊢
    generalize (if a.neg then -(a.mantissa : Int) else a.mantissa) = x at h1 ⊢
    generalize (if b.neg then -(b.mantissa : Int) else b.mantissa) = y at h1 h2
    generalize (if c.neg then -(c.mantissa : Int) else c.mantissa) = z at h2 ⊢
    have hp : (10 : Int) ^ b.scale ≠ 0 := Int.ne_of_gt (Int.pow_pos (by decide))
    apply Int.eq_of_mul_eq_mul_right hp
    calc x * 10 ^ c.scale * 10 ^ b.scale = (x * 10 ^ b.scale) * 10 ^ c.scale := by
          rw [Int.mul_assoc, Int.mul_comm (10 ^ c.scale), ← Int.mul_assoc]
      _ = (y * 10 ^ c.scale) * 10 ^ a.scale := by
          rw [h1, Int.mul_assoc, Int.mul_comm (10 ^ a.scale), ← Int.mul_assoc]
      _ = z * 10 ^ a.scale * 10 ^ b.scale := by
          rw [h2, Int.mul_assoc, Int.mul_comm (10 ^ b.scale), ← Int.mul_assoc]

example : @valueEq numericDecimals (.decimal ⟨false, 10, 1⟩) (.decimal ⟨false, 100, 2⟩) = true := by decide

omit [DecimalEq] in
/-- A value of one node. -/
theorem typed_leaf {v : Value} (h : FitsType v) (ho : ∀ c l ms, v ≠ .object c l ms) (ha : ∀ vs, v ≠ .array vs) : WellTyped v := by
  intro u hu
  cases hu with
  | refl =>
    refine ⟨h, ?_⟩
    cases v <;> first | trivial | exact absurd rfl (ho _ _ _)
  | item => exact absurd rfl (ha _)
  | member => exact absurd rfl (ho _ _ _)

omit [DecimalEq] in
theorem typed_array {vs : List Value} (h : ∀ v ∈ vs, WellTyped v) : WellTyped (.array vs) := by
  intro u hu
  cases hu with
  | refl => exact ⟨trivial, trivial⟩
  | item hm hs => exact h _ hm u hs

omit [DecimalEq] in
theorem typed_object {c : Str} {l : Option Str} {ms : List (Str × Value)} (hn : (ms.map Prod.fst).Nodup)
    (h : ∀ m ∈ ms, WellTyped m.2) : WellTyped (.object c l ms) := by
  intro u hu
  cases hu with
  | refl => exact ⟨trivial, hn⟩
  | member hm hs => exact h _ hm u hs

/-- 1.0 and a NaN. -/
example : valueEq (.double 0x3FF0000000000000) (.double 0x3FF0000000000000) = true := by rfl
example : denotes 23 8 0x3F800000 = some (.finite (2 ^ 149)) := by simp [denotes]
example : valueEq (.double 0x7FF8000000000000) (.double 0x7FF8000000000000) = false := by rfl
example : IsNaN (.double 0x7FF8000000000000) := rfl
/-- The two zeros. -/
example : valueEq (.single 0) (.single 0x80000000) = true := by rfl
/-- Infinities are equal to themselves only. -/
example : valueEq (.single 0x7F800000) (.single 0x7F800000) = true := by rfl
example : valueEq (.single 0x7F800000) (.single 0xFF800000) = false := by rfl

/-- An object, with its members in two orders, is equal to itself; with a NaN it is not. -/
example : valueEq (.object [65] none [([97], .int32 1), ([98], .array [.null])])
    (.object [65] none [([98], .array [.null]), ([97], .int32 1)]) = true := by rfl
example : valueEq (.object [65] none [([97], .single 0x7FC00000)]) (.object [65] none [([97], .single 0x7FC00000)]) = false := by rfl

/-- C65_reflexive, at a value that holds a NaN two levels down. -/
example : ¬ (valueEq (.object [65] none [([97], .array [.single 0x7FC00000])])
    (.object [65] none [([97], .array [.single 0x7FC00000])]) = true) := by
  rw [C65_reflexive]
  · intro h
    exact h (.single 0x7FC00000) (.member List.mem_cons_self (.item List.mem_cons_self (.refl _))) rfl
  · refine typed_object (by decide) fun m hm => ?_
    simp only [List.mem_cons, List.not_mem_nil, or_false] at hm
    subst hm
    refine typed_array fun v hv => ?_
    simp only [List.mem_cons, List.not_mem_nil, or_false] at hv
    subst hv
    exact typed_leaf (show 0x7FC00000 < 2 ^ 32 by decide) (by simp) (by simp)

end Nrbf
