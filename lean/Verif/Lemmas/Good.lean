import Verif.Model.BinaryParser

/-! # The invariant satisfied by every parser

`Outcome.Good w pan E V n k x`: on success the rest is a suffix of the whole input `w`, at least `k`
bytes shorter than `n` (the length of the input the parser was given), and the value satisfies `V`;
errors satisfy `E`; a panic is only possible if `pan`; the outcome is never `diverge`. -/

namespace Nrbf

variable {w : Bytes} {ε δ α β : Type}

def Outcome.Good (w : Bytes) (pan : Prop) (E : ε → Prop) (V : α → Prop) (n k : Nat) :
    Outcome ε α → Prop
  | .ok r a => r <:+ w ∧ r.length + k ≤ n ∧ V a
  | .error e => E e
  | .failure e => E e
  | .panic => pan
  | .diverge => False

namespace Outcome.Good

variable {pan pan' : Prop} {E E' : ε → Prop} {V : α → Prop} {W : β → Prop} {n n' k k' : Nat}

theorem weaken {x : Outcome ε α} {V' : α → Prop} (h : x.Good w pan E V n k)
    (hp : pan → pan') (hE : ∀ e, E e → E' e) (hV : ∀ a, V a → V' a) (hn : n + k' ≤ n' + k) :
    x.Good w pan' E' V' n' k' := by
  cases x with
  | ok r a => exact ⟨h.1, by have := h.2.1; omega, hV _ h.2.2⟩
  | error e => exact hE _ h
  | failure e => exact hE _ h
  | panic => exact hp h
  | diverge => exact h

theorem imp {x : Outcome ε α} {V' : α → Prop} (h : x.Good w pan E V n k)
    (hV : ∀ a, V a → V' a) : x.Good w pan E V' n k :=
  h.weaken id (fun _ => id) hV (Nat.le_refl _)

theorem k0 {x : Outcome ε α} (h : x.Good w pan E V n k) : x.Good w pan E V n 0 :=
  h.weaken id (fun _ => id) (fun _ => id) (by omega)

theorem noPanic {x : Outcome ε α} (h : x.Good w False E V n k) : x.Good w pan E V n k :=
  h.weaken False.elim (fun _ => id) (fun _ => id) (Nat.le_refl _)

theorem map {x : Outcome ε α} {f : α → β} (h : x.Good w pan E V n k)
    (hf : ∀ a, V a → W (f a)) : (x.map f).Good w pan E W n k := by
  cases x with
  | ok r a => exact ⟨h.1, h.2.1, hf _ h.2.2⟩
  | _ => exact h

theorem mapErr {x : Outcome ε α} {f : ε → δ} {D : δ → Prop} (h : x.Good w pan E V n k)
    (hf : ∀ e, E e → D (f e)) : (x.mapErr f).Good w pan D V n k := by
  cases x with
  | ok r a => exact h
  | error e => exact hf _ h
  | failure e => exact hf _ h
  | _ => exact h

theorem intoFailure {x : Outcome ε α} (h : x.Good w pan E V n k) :
    x.intoFailure.Good w pan E V n k := by
  cases x <;> exact h

theorem bind {x : Outcome ε α} {f : α → PureParser ε β} (h : x.Good w pan E V n k)
    (hf : ∀ a r, r <:+ w → r.length + k ≤ n → V a → (f a r).Good w pan E W r.length 0) :
    (x.bind f).Good w pan E W n k := by
  cases x with
  | ok r a =>
    have := hf a r h.1 h.2.1 h.2.2
    exact this.weaken id (fun _ => id) (fun _ => id) (by have := h.2.1; omega)
  | _ => exact h

end Outcome.Good

/-- Errors never carry these three kinds. -/
def ErrorInner.Possible : ErrorInner → Prop
  | .eof | .duplicateObjectId | .unresolvableMemberReference => False
  | _ => True

/-- The error invariant: the position is a suffix of the whole input. -/
def Error.In (w : Bytes) (e : Error) : Prop := e.input <:+ w ∧ e.inner.Possible

/-- The same for `nom`'s own error type. -/
def NomError.In (w : Bytes) (e : NomError) : Prop := e.input <:+ w

/-- Goodness of stateless parsers of the crate. -/
abbrev PG (w : Bytes) (V : α → Prop) (n k : Nat) (x : Outcome Error α) : Prop :=
  x.Good w False (Error.In w) V n k

/-- Goodness of stateless `nom` parsers. -/
abbrev NG (w : Bytes) (V : α → Prop) (n k : Nat) (x : Outcome NomError α) : Prop :=
  x.Good w False (NomError.In w) V n k

theorem Outcome.Good.atN {x : Outcome NomError α} {V : α → Prop} {n k : Nat} {inner : ErrorInner}
    (h : NG w V n k x) (hi : inner.Possible) : PG w V n k (x.at inner) :=
  h.mapErr fun _ he => ⟨he, hi⟩

theorem Outcome.Good.relabelE {x : Outcome Error α} {V : α → Prop} {n k : Nat} {inner : ErrorInner}
    (h : PG w V n k x) (hi : inner.Possible) : PG w V n k (x.relabel inner) :=
  h.mapErr fun _ he => ⟨he.1, hi⟩

/-! ## `nom` primitives -/

theorem takeN_some {n : Nat} {i a r : Bytes} (h : takeN n i = some (a, r)) :
    a = i.take n ∧ r = i.drop n ∧ n ≤ i.length := by
  unfold takeN at h; split at h <;> simp_all

theorem leUnsigned_good {i : Bytes} (hi : i <:+ w) (width : Nat) :
    NG w (fun n => n < 256 ^ width ∧ ∃ r, i = r ++ i.drop width ∧ r.length = width ∧ n = leNat r)
      i.length width (leUnsigned width i) := by
  unfold leUnsigned
  split
  · rename_i a r h
    obtain ⟨rfl, rfl, hn⟩ := takeN_some h
    have hlt : ∀ l : Bytes, leNat l < 256 ^ l.length := by
      intro l
      induction l with
      | nil => simp [leNat]
      | cons b bs ih =>
        simp only [leNat, List.length_cons]
        have := b.toNat_lt
        have : 256 ^ (bs.length + 1) = 256 * 256 ^ bs.length := by rw [Nat.pow_succ, Nat.mul_comm]
        omega
    refine ⟨(List.drop_suffix _ _).trans hi, by simp; omega, ?_, i.take width, by simp, by simp [hn], rfl⟩
    have := hlt (i.take width)
    rwa [List.length_take_of_le hn] at this
  · exact hi

theorem leUnsigned_good' {i : Bytes} (hi : i <:+ w) (width : Nat) :
    NG w (fun n => n < 256 ^ width) i.length width (leUnsigned width i) :=
  (leUnsigned_good hi width).imp fun _ h => h.1

theorem leSigned_good {i : Bytes} (hi : i <:+ w) (width : Nat) :
    NG w (fun z => ∃ n, n < 256 ^ width ∧ z = toSigned (8 * width) n) i.length width
      (leSigned width i) :=
  (leUnsigned_good' hi width).map fun n h => ⟨n, h, rfl⟩

theorem tagByte_good {i : Bytes} (hi : i <:+ w) (v : α) (b : UInt8) :
    NG w (fun a => a = v ∧ b ∈ w) i.length 1 (tagByte v b i) := by
  unfold tagByte
  split
  · exact hi
  · rename_i x r
    split
    · rename_i hx
      subst hx
      exact ⟨(List.suffix_cons _ _).trans hi, by simp, rfl, hi.subset (by simp)⟩
    · exact hi

theorem mapOpt_good {i : Bytes} (hi : i <:+ w) {p : PureParser NomError α} {f : α → Option β}
    {kd : ErrorKind} {V : α → Prop} {W : β → Prop} {n k : Nat} (h : NG w V n k (p i))
    (hf : ∀ a b, V a → f a = some b → W b) : NG w W n k (mapOpt p f kd i) := by
  unfold mapOpt
  cases hp : p i with
  | ok r a =>
    rw [hp] at h
    simp only
    split
    · rename_i b hb
      exact ⟨h.1, h.2.1, hf _ _ h.2.2 hb⟩
    · exact hi
  | _ => rw [hp] at h; exact h

theorem alt_good {pan : Prop} {E : ε → Prop} {V : α → Prop} {n k : Nat} {i : Bytes}
    {p : PureParser ε α} {ps : List (PureParser ε α)} (hp : (p i).Good w pan E V n k)
    (hps : ∀ q ∈ ps, (q i).Good w pan E V n k) : (alt p ps i).Good w pan E V n k := by
  induction ps generalizing p with
  | nil => exact hp
  | cons q qs ih =>
    unfold alt
    split
    · exact ih (hps q (by simp)) (fun q' hq => hps q' (by simp [hq]))
    · exact hp

theorem count_good {pan : Prop} {E : ε → Prop} {V : α → Prop} {p : PureParser ε α}
    (hp : ∀ i, i <:+ w → (p i).Good w pan E V i.length 0) (n : Nat) {i : Bytes} (hi : i <:+ w) :
    (count p n i).Good w pan E (fun l => l.length = n ∧ ∀ a ∈ l, V a) i.length 0 := by
  induction n generalizing i with
  | zero => exact ⟨hi, by simp, by simp⟩
  | succ n ih =>
    unfold count
    refine (hp i hi).bind fun a r hr _ ha => ?_
    exact (ih hr).map fun l hl => by simp [hl.1, ha]; exact hl.2

theorem cond_good {pan : Prop} {E : ε → Prop} {V : α → Prop} {i : Bytes} (hi : i <:+ w) {b : Bool}
    {p : PureParser ε α} (hp : b = true → (p i).Good w pan E V i.length 0) :
    (cond b p i).Good w pan E (fun o => ∀ a, o = some a → V a) i.length 0 := by
  unfold cond
  split
  · rename_i hb
    exact (hp hb).map fun a ha => by rintro _ ⟨⟩; exact ha
  · exact ⟨hi, by simp, by simp⟩

theorem opt_good {pan : Prop} {E : ε → Prop} {V : α → Prop} {i : Bytes} (hi : i <:+ w)
    {p : PureParser ε α} {k : Nat} (hp : (p i).Good w pan E V i.length k) :
    (opt p i).Good w pan E (fun o => ∀ a, o = some a → V a) i.length 0 := by
  unfold opt
  split
  · exact ⟨hi, by simp, by simp⟩
  · exact hp.k0.map fun a ha => by rintro _ ⟨⟩; exact ha

end Nrbf
