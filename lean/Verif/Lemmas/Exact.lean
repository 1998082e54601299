import Verif.Spec.Encode
import Verif.Lemmas.Utf8
import Verif.Model.Record

/-! # Exact characterisation of the stateless parsers -/

namespace Nrbf
open Spec

variable {ε δ α β : Type}

/-- `p` accepts exactly the byte strings `R` relates to its result, in front of any rest. -/
def Exact (p : PureParser ε α) (R : α → Bytes → Prop) : Prop :=
  ∀ i r a, p i = .ok r a ↔ ∃ b, R a b ∧ i = b ++ r

namespace Outcome

@[simp] theorem map_ok {x : Outcome ε α} {f : α → β} {r : Bytes} {b : β} :
    x.map f = .ok r b ↔ ∃ a, x = .ok r a ∧ f a = b := by
  cases x <;> simp [map, and_assoc]

@[simp] theorem mapErr_ok {x : Outcome ε α} {f : ε → δ} {r : Bytes} {a : α} :
    x.mapErr f = .ok r a ↔ x = .ok r a := by
  cases x <;> simp [mapErr]

@[simp] theorem at_ok {x : Outcome NomError α} {inner : ErrorInner} {r : Bytes} {a : α} :
    x.at inner = .ok r a ↔ x = .ok r a := mapErr_ok

@[simp] theorem relabel_ok {x : Outcome Error α} {inner : ErrorInner} {r : Bytes} {a : α} :
    x.relabel inner = .ok r a ↔ x = .ok r a := mapErr_ok

@[simp] theorem intoFailure_ok {x : Outcome ε α} {r : Bytes} {a : α} :
    x.intoFailure = .ok r a ↔ x = .ok r a := by
  cases x <;> simp [intoFailure]

@[simp] theorem bind_ok {x : Outcome ε α} {f : α → PureParser ε β} {r : Bytes} {b : β} :
    x.bind f = .ok r b ↔ ∃ r' a, x = .ok r' a ∧ f a r' = .ok r b := by
  cases x <;> simp [bind, and_assoc]

end Outcome

theorem Exact.intro {p : PureParser ε α} {R : α → Bytes → Prop}
    (h1 : ∀ b r a, R a b → p (b ++ r) = .ok r a)
    (h2 : ∀ i r a, p i = .ok r a → ∃ b, R a b ∧ i = b ++ r) : Exact p R :=
  fun i r a => ⟨h2 i r a, by rintro ⟨b, hb, rfl⟩; exact h1 b r a hb⟩

theorem Exact.bind {p : PureParser ε α} {q : α → PureParser ε β} {R : α → Bytes → Prop}
    {S : α → β → Bytes → Prop} (hp : Exact p R) (hq : ∀ a, Exact (q a) (S a)) :
    Exact (fun i => (p i).bind q) (fun c b => ∃ a b1 b2, R a b1 ∧ S a c b2 ∧ b = b1 ++ b2) := by
  intro i r c
  simp only [Outcome.bind_ok]
  constructor
  · rintro ⟨r', a, h1, h2⟩
    obtain ⟨b1, hb1, rfl⟩ := (hp _ _ _).mp h1
    obtain ⟨b2, hb2, rfl⟩ := (hq a _ _ _).mp h2
    exact ⟨b1 ++ b2, ⟨a, b1, b2, hb1, hb2, rfl⟩, by simp⟩
  · rintro ⟨_, ⟨a, b1, b2, hb1, hb2, rfl⟩, rfl⟩
    exact ⟨b2 ++ r, a, (hp _ _ _).mpr ⟨b1, hb1, by simp⟩, (hq a _ _ _).mpr ⟨b2, hb2, rfl⟩⟩

theorem Exact.congr {p : PureParser ε α} {R S : α → Bytes → Prop} (hp : Exact p R)
    (h : ∀ a b, R a b ↔ S a b) : Exact p S := by
  intro i r a
  rw [hp]
  simp only [h]

theorem Exact.pure (a : α) : Exact (fun i => (Outcome.ok i a : Outcome ε α))
    (fun c b => c = a ∧ b = []) := by
  intro i r c
  simp only [Outcome.ok.injEq]
  constructor
  · rintro ⟨rfl, rfl⟩; exact ⟨[], ⟨rfl, rfl⟩, rfl⟩
  · rintro ⟨_, ⟨rfl, rfl⟩, rfl⟩; simp

theorem Exact.map {p : PureParser ε α} {R : α → Bytes → Prop} (f : α → β) (hp : Exact p R) :
    Exact (fun i => (p i).map f) (fun c b => ∃ a, R a b ∧ f a = c) := by
  intro i r c
  simp only [Outcome.map_ok]
  constructor
  · rintro ⟨a, h, rfl⟩
    obtain ⟨b, hb, rfl⟩ := (hp _ _ _).mp h
    exact ⟨b, ⟨a, hb, rfl⟩, rfl⟩
  · rintro ⟨b, ⟨a, hb, rfl⟩, rfl⟩
    exact ⟨a, (hp _ _ _).mpr ⟨b, hb, rfl⟩, rfl⟩

theorem Exact.at' {p : PureParser NomError α} {R : α → Bytes → Prop} (hp : Exact p R)
    (inner : ErrorInner) : Exact (fun i => (p i).at inner) R := by
  intro i r a; rw [Outcome.at_ok]; exact hp i r a

theorem Exact.fail' {p : PureParser NomError α} {R : α → Bytes → Prop} (hp : Exact p R)
    (inner : ErrorInner) : Exact (fun i => (p i).intoFailure.at inner) R := by
  intro i r a; rw [Outcome.at_ok, Outcome.intoFailure_ok]; exact hp i r a

theorem Exact.relabel {p : Parser α} {R : α → Bytes → Prop} (hp : Exact p R)
    (inner : ErrorInner) : Exact (fun i => (p i).relabel inner) R := by
  intro i r a; rw [Outcome.relabel_ok]; exact hp i r a

/-! ## Little-endian numbers -/

@[simp] theorem le_length (width n : Nat) : (le width n).length = width := by
  induction width generalizing n with
  | zero => rfl
  | succ w ih => simp [le, ih]

theorem leNat_le (width n : Nat) : leNat (le width n) = n % 256 ^ width := by
  induction width generalizing n with
  | zero => simp [le, leNat, Nat.mod_one]
  | succ w ih =>
    have h : (UInt8.ofNat (n % 256)).toNat = n % 256 := by simp
    rw [le, leNat, ih, h, Nat.pow_succ', Nat.mod_mul]

theorem le_leNat (a : Bytes) : le a.length (leNat a) = a := by
  induction a with
  | nil => rfl
  | cons b bs ih =>
    have hb := b.toNat_lt
    rw [List.length_cons, le, leNat]
    rw [show (b.toNat + 256 * leNat bs) % 256 = b.toNat by omega,
      show (b.toNat + 256 * leNat bs) / 256 = leNat bs by omega, ih]
    simp

theorem leNat_lt (a : Bytes) : leNat a < 256 ^ a.length := by
  induction a with
  | nil => simp [leNat]
  | cons b bs ih =>
    have hb := b.toNat_lt
    rw [leNat, List.length_cons, Nat.pow_succ]
    omega

theorem leUnsigned_exact (width : Nat) :
    Exact (leUnsigned width) (fun n b => n < 256 ^ width ∧ b = le width n) := by
  refine .intro ?_ ?_
  · rintro _ r n ⟨hn, rfl⟩
    have hl := le_length width n
    simp only [leUnsigned, takeN, List.length_append, hl, Nat.le_add_right, ↓reduceIte]
    rw [List.take_left' hl, List.drop_left' hl, leNat_le, Nat.mod_eq_of_lt hn]
  · intro i r n h
    unfold leUnsigned takeN at h
    split at h
    · rename_i a r' heq
      split at heq
      · rename_i hw
        cases heq
        cases h
        have hl : (i.take width).length = width := by simp; omega
        have h1 := leNat_lt (i.take width)
        have h2 := le_leNat (i.take width)
        rw [hl] at h1 h2
        exact ⟨i.take width, ⟨h1, h2.symm⟩, (List.take_append_drop _ _).symm⟩
      · cases heq
    · cases h

theorem pow_256 (width : Nat) (hw : 1 ≤ width) : (256 : Nat) ^ width = 2 * 2 ^ (8 * width - 1) := by
  rw [← Nat.pow_succ', show (256 : Nat) = 2 ^ 8 from rfl, ← Nat.pow_mul]
  congr 1
  omega

theorem toSigned_iff (width : Nat) (hw : 1 ≤ width) (n : Nat) (z : Int) (hn : n < 256 ^ width) :
    toSigned (8 * width) n = z ↔ InSigned width z ∧ n = (z % 2 ^ (8 * width)).toNat := by
  have e := pow_256 width hw
  have e2 : (2 : Int) ^ (8 * width) = 2 * ((2 ^ (8 * width - 1) : Nat) : Int) := by
    rw [show 8 * width = (8 * width - 1) + 1 by omega, Int.pow_succ]
    simp [Int.mul_comm]
  have e3 : (2 : Int) ^ (8 * width - 1) = ((2 ^ (8 * width - 1) : Nat) : Int) := by simp
  unfold toSigned InSigned
  rw [e] at hn
  rw [e2, e3]
  clear e e2 e3
  generalize 2 ^ (8 * width - 1) = B at *
  split
  · constructor
    · rintro rfl
      refine ⟨by omega, ?_⟩
      rw [Int.emod_eq_of_lt (by omega) (by omega)]; simp
    · rintro ⟨hr, hz⟩
      by_cases h0 : 0 ≤ z
      · rw [Int.emod_eq_of_lt (by omega) (by omega)] at hz; omega
      · rw [← Int.add_emod_right, Int.emod_eq_of_lt (by omega) (by omega)] at hz; omega
  · constructor
    · rintro rfl
      refine ⟨by omega, ?_⟩
      rw [← Int.add_emod_right, Int.emod_eq_of_lt (by omega) (by omega)]; omega
    · rintro ⟨hr, hz⟩
      by_cases h0 : 0 ≤ z
      · rw [Int.emod_eq_of_lt (by omega) (by omega)] at hz; omega
      · rw [← Int.add_emod_right, Int.emod_eq_of_lt (by omega) (by omega)] at hz; omega

theorem emod_lt_256 (width : Nat) (z : Int) : (z % 2 ^ (8 * width)).toNat < 256 ^ width := by
  have e : ((256 ^ width : Nat) : Int) = 2 ^ (8 * width) := by
    rw [show (256 : Nat) = 2 ^ 8 from rfl, ← Nat.pow_mul]; simp
  have hpos : (0 : Int) < 2 ^ (8 * width) := Int.pow_pos (by omega)
  have h1 := Int.emod_nonneg z (b := 2 ^ (8 * width)) (by omega)
  have h2 := Int.emod_lt_of_pos z hpos
  omega

theorem leSigned_exact (width : Nat) (hw : 1 ≤ width) :
    Exact (leSigned width) (fun z b => InSigned width z ∧ b = leInt width z) := by
  intro i r z
  unfold leSigned
  rw [Outcome.map_ok]
  simp only [leUnsigned_exact width i r]
  constructor
  · rintro ⟨n, ⟨b, ⟨hn, rfl⟩, rfl⟩, h⟩
    rw [toSigned_iff width hw n z hn] at h
    exact ⟨_, ⟨h.1, rfl⟩, by rw [h.2]; rfl⟩
  · rintro ⟨b, ⟨hz, rfl⟩, rfl⟩
    exact ⟨_, ⟨_, ⟨emod_lt_256 width z, rfl⟩, rfl⟩,
      (toSigned_iff width hw _ z (emod_lt_256 width z)).mpr ⟨hz, rfl⟩⟩

theorem int32_exact : Exact Int32.parse (fun z b => InSigned 4 z ∧ b = leInt 4 z) :=
  (leSigned_exact 4 (by omega)).fail' _

theorem leInt_nonneg {z : Nat} (h : z < 2 ^ 31) : leInt 4 (z : Int) = le 4 z := by
  unfold leInt
  rw [Int.emod_eq_of_lt (by omega) (by omega)]
  rfl

/-- A signed 32-bit number restricted to naturals satisfying `P`. -/
theorem natId_exact {p : Parser Nat} {c : Int → Prop} [DecidablePred c] {f : Bytes → Error}
    {P : Nat → Prop}
    (hp : p = fun i => (Int32.parse i).bind fun n r =>
      if c n then .ok r n.toNat else .failure (f i))
    (h1 : ∀ n, InSigned 4 n → c n → 0 ≤ n ∧ P n.toNat)
    (h2 : ∀ n : Nat, n < 2 ^ 31 → P n → c n) :
    Exact p (fun n b => n < 2 ^ 31 ∧ P n ∧ b = le 4 n) := by
  subst hp
  intro i r n
  simp only [Outcome.bind_ok, int32_exact i]
  constructor
  · rintro ⟨r', z, ⟨b, ⟨hz, rfl⟩, rfl⟩, h⟩
    split at h
    · rename_i hc
      cases h
      have := h1 z hz hc
      refine ⟨leInt 4 z, ⟨?_, this.2, ?_⟩, rfl⟩
      · have := hz.2; simp at this; omega
      · rw [← leInt_nonneg (by have := hz.2; simp at this; omega)]
        congr 1; omega
    · cases h
  · rintro ⟨b, ⟨hn, hP, rfl⟩, rfl⟩
    refine ⟨r, n, ⟨_, ⟨⟨?_, ?_⟩, rfl⟩, by rw [leInt_nonneg hn]⟩, ?_⟩
    · simp <;> omega
    · simp <;> omega
    · rw [if_pos (h2 n hn hP)]; first | done | rfl

theorem libraryId_exact : Exact libraryId IsId :=
  (natId_exact (P := fun n => 0 < n) rfl (fun n _ h => by omega) (fun n _ h => by omega)).congr
    fun n b => ⟨fun h => ⟨h.2.1, h.1, h.2.2⟩, fun h => ⟨h.2.1, h.1, h.2.2⟩⟩

theorem objectId_exact : Exact objectId IsId :=
  (natId_exact (P := fun n => 0 < n) rfl (fun n _ h => by omega) (fun n _ h => by omega)).congr
    fun n b => ⟨fun h => ⟨h.2.1, h.1, h.2.2⟩, fun h => ⟨h.2.1, h.1, h.2.2⟩⟩

theorem length_exact : Exact length IsLength :=
  (natId_exact (P := fun _ => True) rfl (fun n _ h => ⟨h, trivial⟩) (fun n _ _ => by omega)).congr
    fun n b => ⟨fun h => ⟨h.1, h.2.2⟩, fun h => ⟨h.1, trivial, h.2⟩⟩

end Nrbf
