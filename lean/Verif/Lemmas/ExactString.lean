import Verif.Lemmas.Exact

/-! # Length-prefixed strings -/

namespace Nrbf
open Spec

theorem or_shift {a n k : Nat} (h : a < 2 ^ k) : a ||| n <<< k = a + n * 2 ^ k := by
  rw [Nat.or_comm, ← Nat.shiftLeft_add_eq_or_of_lt h, Nat.shiftLeft_eq, Nat.add_comm]

theorem high_byte {b : UInt8} (h : 128 ≤ b.toNat) : b = UInt8.ofNat (128 + b.toNat % 128) :=
  toNat_ext (by have := b.toNat_lt; omega)

theorem low_byte {b : UInt8} (h : ¬ 128 ≤ b.toNat) : b = UInt8.ofNat (b.toNat % 128) :=
  toNat_ext (by omega)

theorem hi_toNat {g : Nat} (h : g < 128) : (UInt8.ofNat (128 + g)).toNat = 128 + g := by
  simp; omega

theorem lo_toNat {g : Nat} (h : g < 128) : (UInt8.ofNat g).toNat = g := by
  simp; omega

theorem parseLen_complete {n : Nat} {b r : Bytes} (h : IsLengthPrefix n b) :
    parseLen (b ++ r) = .ok r n := by
  obtain ⟨gs, last, hg, hl, hlen, h4, rfl, rfl⟩ := h
  have hl' := lo_toNat hl
  have nhl : ¬ 128 ≤ last := by omega
  have ml : last % 128 = last := Nat.mod_eq_of_lt hl
  have m : ∀ g, g < 128 → (128 + g) % 128 = g := by intro g h; omega
  match gs, hlen, hg, h4 with
  | [], _, hg, _ =>
    simp only [parseLen, lenPart, Outcome.bind, hl', ml, base128, 
      List.map_cons,
      List.map_nil, List.cons_append, List.nil_append, Nat.le_add_right, decide_true, if_true, nhl,
      decide_false, Bool.false_eq_true, if_false]
    congr 1
  | [a], _, hg, _ =>
    have ha : a < 128 := hg a (by simp)
    simp only [parseLen, lenPart, Outcome.bind, hl', ml, base128, hi_toNat ha, m a ha, 
      List.map_cons,
      List.map_nil, List.cons_append, List.nil_append, Nat.le_add_right, decide_true, if_true, nhl,
      decide_false, Bool.false_eq_true, if_false]
    congr 1
    rw [or_shift (by omega)]; omega
  | [a, b], _, hg, _ =>
    have ha : a < 128 := hg a (by simp)
    have hb : b < 128 := hg b (by simp)
    simp only [parseLen, lenPart, Outcome.bind, hl', ml, base128, hi_toNat ha, m a ha, hi_toNat hb, m b hb, 
      List.map_cons,
      List.map_nil, List.cons_append, List.nil_append, Nat.le_add_right, decide_true, if_true, nhl,
      decide_false, Bool.false_eq_true, if_false]
    congr 1
    rw [or_shift (n := b) (by omega), or_shift (by omega)]; omega
  | [a, b, c], _, hg, _ =>
    have ha : a < 128 := hg a (by simp)
    have hb : b < 128 := hg b (by simp)
    have hc : c < 128 := hg c (by simp)
    simp only [parseLen, lenPart, Outcome.bind, hl', ml, base128, hi_toNat ha, m a ha, hi_toNat hb, m b hb, hi_toNat hc, m c hc, 
      List.map_cons,
      List.map_nil, List.cons_append, List.nil_append, Nat.le_add_right, decide_true, if_true, nhl,
      decide_false, Bool.false_eq_true, if_false]
    congr 1
    rw [or_shift (n := b) (by omega), or_shift (n := c) (by omega), or_shift (by omega)]; omega
  | [a, b, c, d], _, hg, h4 =>
    have ha : a < 128 := hg a (by simp)
    have hb : b < 128 := hg b (by simp)
    have hc : c < 128 := hg c (by simp)
    have hd : d < 128 := hg d (by simp)
    have h8 : last < 8 := h4 rfl
    have h80 : last / 8 = 0 := by omega
    have h8m : last % 8 = last := by omega
    simp only [parseLen, lenPart, lenLast, Outcome.bind, hl', base128, hi_toNat ha, m a ha,
      hi_toNat hb, m b hb, hi_toNat hc, m c hc, hi_toNat hd, m d hd, h80, h8m, List.map_cons,
      List.map_nil, List.cons_append, List.nil_append, Nat.le_add_right, decide_true, if_true]
    congr 1
    rw [or_shift (n := b) (by omega), or_shift (n := c) (by omega), or_shift (n := d) (by omega),
      or_shift (by omega)]
    omega
  | _ :: _ :: _ :: _ :: _ :: _, hlen, _, _ => simp at hlen

theorem parseLen_sound {n : Nat} {i r : Bytes} (h : parseLen i = .ok r n) :
    ∃ b, IsLengthPrefix n b ∧ i = b ++ r := by
  have md : ∀ k : Nat, k % 128 < 128 := fun k => Nat.mod_lt _ (by omega)
  unfold parseLen at h
  cases i with
  | nil => cases h
  | cons b0 i =>
  simp only [lenPart, Outcome.bind] at h
  by_cases h0 : 128 ≤ b0.toNat
  case neg =>
    rw [if_neg (by simpa using h0)] at h
    cases h
    refine ⟨[b0], ⟨[], b0.toNat % 128, by simp, md _, by simp, by simp, ?_, ?_⟩, rfl⟩
    · simpa using low_byte h0
    · simp [base128]
  rw [if_pos (by simpa using h0)] at h
  have e0 := high_byte h0
  have l0 := md b0.toNat
  cases i with
  | nil => cases h
  | cons b1 i =>
  simp only at h
  by_cases h1 : 128 ≤ b1.toNat
  case neg =>
    rw [if_neg (by simpa using h1)] at h
    cases h
    refine ⟨[b0, b1], ⟨[b0.toNat % 128], b1.toNat % 128, by simpa using l0, md _, by simp, by simp,
      ?_, ?_⟩, rfl⟩
    · simp only [List.map_cons, List.map_nil, List.cons_append, List.nil_append]
      rw [← e0, ← low_byte h1]
    · rw [or_shift (by omega)]; simp [base128]; omega
  rw [if_pos (by simpa using h1)] at h
  have e1 := high_byte h1
  have l1 := md b1.toNat
  cases i with
  | nil => cases h
  | cons b2 i =>
  simp only at h
  by_cases h2 : 128 ≤ b2.toNat
  case neg =>
    rw [if_neg (by simpa using h2)] at h
    cases h
    refine ⟨[b0, b1, b2], ⟨[b0.toNat % 128, b1.toNat % 128], b2.toNat % 128,
      by simpa using ⟨l0, l1⟩, md _, by simp, by simp, ?_, ?_⟩, rfl⟩
    · simp only [List.map_cons, List.map_nil, List.cons_append, List.nil_append]
      rw [← e0, ← e1, ← low_byte h2]
    · rw [or_shift (n := b1.toNat % 128) (by omega), or_shift (by omega)]; simp [base128]; omega
  rw [if_pos (by simpa using h2)] at h
  have e2 := high_byte h2
  have l2 := md b2.toNat
  cases i with
  | nil => cases h
  | cons b3 i =>
  simp only at h
  by_cases h3 : 128 ≤ b3.toNat
  case neg =>
    rw [if_neg (by simpa using h3)] at h
    cases h
    refine ⟨[b0, b1, b2, b3], ⟨[b0.toNat % 128, b1.toNat % 128, b2.toNat % 128], b3.toNat % 128,
      by simpa using ⟨l0, l1, l2⟩, md _, by simp, by simp, ?_, ?_⟩, rfl⟩
    · simp only [List.map_cons, List.map_nil, List.cons_append, List.nil_append]
      rw [← e0, ← e1, ← e2, ← low_byte h3]
    · rw [or_shift (n := b1.toNat % 128) (by omega), or_shift (n := b2.toNat % 128) (by omega),
        or_shift (by omega)]
      simp [base128]; omega
  rw [if_pos (by simpa using h3)] at h
  have e3 := high_byte h3
  have l3 := md b3.toNat
  cases i with
  | nil => cases h
  | cons b4 i =>
  simp only [lenLast] at h
  by_cases h4 : b4.toNat / 8 = 0
  case neg => rw [if_neg h4] at h; cases h
  rw [if_pos h4] at h
  cases h
  refine ⟨[b0, b1, b2, b3, b4], ⟨[b0.toNat % 128, b1.toNat % 128, b2.toNat % 128, b3.toNat % 128],
    b4.toNat % 8, by simpa using ⟨l0, l1, l2, l3⟩, by omega, by simp, by omega, ?_, ?_⟩, rfl⟩
  · simp only [List.map_cons, List.map_nil, List.cons_append, List.nil_append]
    rw [← e0, ← e1, ← e2, ← e3, ← toNat_ext (b := b4) (n := b4.toNat % 8) (by omega)]
  · rw [or_shift (n := b1.toNat % 128) (by omega), or_shift (n := b2.toNat % 128) (by omega),
      or_shift (n := b3.toNat % 128) (by omega), or_shift (by omega)]
    simp [base128]; omega

theorem parseLen_exact : Exact parseLen IsLengthPrefix :=
  .intro (fun _ _ _ => parseLen_complete) (fun _ _ _ => parseLen_sound)

theorem take_exact (n : Nat) : Exact (take n) (fun s b => s.length = n ∧ b = s) := by
  refine .intro ?_ ?_
  · rintro _ r s ⟨rfl, rfl⟩
    simp [take, takeN]
  · intro i r s h
    unfold take takeN at h
    split at h
    · rename_i a r' heq
      split at heq
      · cases heq; cases h
        exact ⟨i.take n, ⟨by simp; omega, rfl⟩, (List.take_append_drop _ _).symm⟩
      · cases heq
    · cases h

theorem mapOpt_exact {α β : Type} {p : PureParser NomError α} {R : α → Bytes → Prop}
    (hp : Exact p R) (f : α → Option β) (k : ErrorKind) :
    Exact (mapOpt p f k) (fun c b => ∃ a, R a b ∧ f a = some c) := by
  intro i r c
  unfold mapOpt
  constructor
  · intro h
    split at h
    · rename_i r' a heq
      obtain ⟨b, hb, rfl⟩ := (hp _ _ _).mp heq
      split at h
      · rename_i x hx
        cases h
        exact ⟨b, ⟨a, hb, hx⟩, rfl⟩
      · cases h
    all_goals cases h
  · rintro ⟨b, ⟨a, hb, ha⟩, rfl⟩
    rw [(hp _ r a).mpr ⟨b, hb, rfl⟩]
    simp only [ha]

theorem lps_exact : Exact lengthPrefixedString IsString := by
  refine ((Exact.bind parseLen_exact fun n => mapOpt_exact (take_exact n)
    (fun s => if utf8Valid s then some s else none) .mapRes).at' (.expectedPrimitive .string)).congr
    fun s b => ?_
  constructor
  · rintro ⟨n, b1, b2, h1, ⟨a, ⟨rfl, rfl⟩, ha⟩, rfl⟩
    split at ha
    · rename_i hv
      cases ha
      exact ⟨b1, h1, (utf8Valid_iff _).mp hv, rfl⟩
    · cases ha
  · rintro ⟨p, hp, hs, rfl⟩
    exact ⟨s.length, p, s, hp, ⟨s, ⟨rfl, rfl⟩, by rw [if_pos ((utf8Valid_iff s).mpr hs)]⟩, rfl⟩

/-- The string parser always returns, and its errors are recoverable. -/
theorem lps_total (i : Bytes) :
    (∃ r s, lengthPrefixedString i = .ok r s) ∨
      ∃ e, lengthPrefixedString i = .error ⟨e, .expectedPrimitive .string⟩ := by
  have hp : ∀ i, (∃ r n, lenPart i = .ok r n) ∨ ∃ e, lenPart i = .error e := by
    intro i; unfold lenPart; split <;> simp
  have hl : ∀ i, (∃ r n, lenLast i = .ok r n) ∨ ∃ e, lenLast i = .error e := by
    intro i; unfold lenLast; split
    · simp
    · split <;> simp
  have bindT : ∀ {α β : Type} (x : Outcome NomError α) (f : α → PureParser NomError β),
      ((∃ r a, x = .ok r a) ∨ ∃ e, x = .error e) →
      (∀ a r, (∃ r' b, f a r = .ok r' b) ∨ ∃ e, f a r = .error e) →
      ((∃ r' b, x.bind f = .ok r' b) ∨ ∃ e, x.bind f = .error e) := by
    rintro α β x f (⟨r, a, rfl⟩ | ⟨e, rfl⟩) hf
    · exact hf a r
    · exact .inr ⟨e, rfl⟩
  have ret : ∀ (r : Bytes) (n : Nat), (∃ r' b, (Outcome.ok r n : Outcome NomError Nat) = .ok r' b) ∨
      ∃ e, (Outcome.ok r n : Outcome NomError Nat) = .error e := fun r n => .inl ⟨r, n, rfl⟩
  have hlen : (∃ r n, parseLen i = .ok r n) ∨ ∃ e, parseLen i = .error e := by
    unfold parseLen
    refine bindT _ _ (hp i) fun (nx, p) r => ?_
    simp only; split
    · refine bindT _ _ (hp r) fun (nx, p) r => ?_
      simp only; split
      · refine bindT _ _ (hp r) fun (nx, p) r => ?_
        simp only; split
        · refine bindT _ _ (hp r) fun (nx, p) r => ?_
          simp only; split
          · exact bindT _ _ (hl r) fun _ _ => ret _ _
          · exact ret _ _
        · exact ret _ _
      · exact ret _ _
    · exact ret _ _
  unfold lengthPrefixedString
  rcases hlen with ⟨r, n, h⟩ | ⟨e, h⟩
  · rw [h]
    simp only [Outcome.bind, mapOpt, take]
    split
    · rename_i heq
      split at heq
      · cases heq
        split
        · exact .inl ⟨_, _, rfl⟩
        · exact .inr ⟨_, rfl⟩
      · cases heq
    · rename_i heq
      split at heq
      · cases heq
      · exact .inr ⟨_, rfl⟩
    all_goals rename_i heq; split at heq <;> cases heq
  · rw [h]
    exact .inr ⟨_, rfl⟩

/-- The shortest prefix is a prefix. -/
theorem lengthPrefix_ok {n : Nat} (h : n < 2 ^ 31) : IsLengthPrefix n (lengthPrefix n) := by
  have key : ∀ k n, n < 2 ^ (7 * k + 3) → 0 < k → k ≤ 4 →
      ∃ gs last, (∀ g ∈ gs, g < 128) ∧ last < 128 ∧ gs.length ≤ k ∧ (gs.length = k → last < 8) ∧
        lengthPrefix n = gs.map (fun g => UInt8.ofNat (128 + g)) ++ [UInt8.ofNat last] ∧
        n = base128 (gs ++ [last]) := by
    intro k
    induction k with
    | zero => intro n _ h; omega
    | succ k ih =>
      intro n hn _ hk
      rw [lengthPrefix]
      by_cases h1 : n < 128
      · rw [if_pos h1]
        exact ⟨[], n, by simp, h1, by simp, by simp, by simp, by simp [base128]⟩
      · rw [if_neg h1]
        have hd : n / 128 < 2 ^ (7 * k + 3) := by
          rw [Nat.div_lt_iff_lt_mul (by omega)]
          rw [show (128 : Nat) = 2 ^ 7 from rfl, ← Nat.pow_add]
          exact Nat.lt_of_lt_of_eq hn (congrArg _ (by omega))
        by_cases hk0 : k = 0
        · subst hk0
          have h8 : n / 128 < 8 := by simpa using hd
          refine ⟨[n % 128], n / 128, by simp <;> omega, by omega, by simp, by simpa using h8, ?_, ?_⟩
          · rw [lengthPrefix, if_pos (by omega)]; rfl
          · simp [base128]; omega
        · obtain ⟨gs, last, hg, hl, hlen, h4, he, hb⟩ := ih (n / 128) hd (by omega) (by omega)
          refine ⟨n % 128 :: gs, last, ?_, hl, by simp; omega, by simpa using h4, ?_, ?_⟩
          · simp only [List.mem_cons]; rintro g (rfl | hg')
            · omega
            · exact hg g hg'
          · rw [he]; rfl
          · rw [List.cons_append, base128, ← hb]; omega
  obtain ⟨gs, last, hg, hl, hlen, h4, he, hb⟩ := key 4 n (by omega) (by omega) (by omega)
  exact ⟨gs, last, hg, hl, hlen, h4, he, hb⟩

theorem string_ok {s : Str} (h : s.length < 2 ^ 31) (hs : IsUtf8 s) : IsString s (string s) :=
  ⟨lengthPrefix s.length, lengthPrefix_ok h, hs, rfl⟩

end Nrbf
