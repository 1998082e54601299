import Verif.Lemmas.Knot
import Verif.Lemmas.MessageSem
import Verif.Spec.Size

/-! # What a parsed value costs

A measure of values is bounded by the number of bytes consumed.  Objects in the table have been paid
for when they were read, so the table counts as credit. -/

set_option autoImplicit false

namespace Nrbf
open Spec

variable {α β : Type} [Platform]

/-- A measure `f` of values that is combined by `op` in lists; names of members and classes count `key` and `cls`. -/
structure Measure where
  f : Value → Nat
  op : Nat → Nat → Nat
  arr : Nat → Nat
  op_le : ∀ a b, op a b ≤ a + b
  op_zero : ∀ a, op 0 a = a
  le_left : ∀ a b, a ≤ op a b
  op_comm : ∀ a b, op a b = op b a
  op_assoc : ∀ a b c, op (op a b) c = op a (op b c)
  op_mono : ∀ a b c, a ≤ b → op a c ≤ op b c
  arr_le : ∀ a, arr a ≤ 1 + a
  le_arr : ∀ a, a ≤ arr a
  arr_mono : ∀ a b, a ≤ b → arr a ≤ arr b
  op_arr : ∀ a b, op (arr a) (arr b) = arr (op a b)
  /-- What a byte pays for. -/
  weight : Nat
  weight_pos : 1 ≤ weight
  run : ∀ n, n < 2 ^ 31 → n * f .null ≤ weight
  prim : ∀ t v b, IsPrimitive t v b → f v ≤ weight * b.length
  string : ∀ s, f (.string s) ≤ weight * (s.length + 1)
  key : Str → Nat
  key_le : ∀ k, key k ≤ weight * k.length
  cls : Str → Nat
  cls_le : ∀ c, cls c ≤ weight * c.length
  op_add : ∀ k a b, op (k + a) b ≤ k + op a b
  array : ∀ vs, f (.array vs) = arr (vs.foldr (fun v n => op (f v) n) 0)
  object : ∀ c l ms, f (.object c l ms) = 1 + cls c + ms.foldr (fun e n => op (key e.1 + f e.2) n) 0

namespace Measure
variable (M : Measure)

/-- What the remaining bytes pay for. -/
def len (i : Bytes) : Nat := M.weight * i.length

theorem len_le {a b : Bytes} (h : a.length ≤ b.length) : M.len a ≤ M.len b := Nat.mul_le_mul_left _ h

theorem len_lt {a b : Bytes} {k : Nat} (h : a.length + k ≤ b.length) : M.len a + M.weight * k ≤ M.len b := by
  unfold len
  rw [← Nat.mul_add]
  exact Nat.mul_le_mul_left _ h

theorem le_weight (k : Nat) : k ≤ M.weight * k := Nat.le_mul_of_pos_left k M.weight_pos

theorem len_lt' {a b : Bytes} {k : Nat} (h : a.length + k ≤ b.length) : M.len a + k ≤ M.len b := by
  have := M.len_lt h
  have := M.le_weight k
  omega

theorem len_lt1 {a b : Bytes} (h : a.length + 1 ≤ b.length) : M.len a + M.weight ≤ M.len b := by
  have := M.len_lt h
  omega

theorem null_le : M.f .null ≤ M.weight := by
  have := M.run 1 (by decide)
  omega

/-- The measure of a list. -/
def g (vs : List Value) : Nat := vs.foldr (fun v n => M.op (M.f v) n) 0

/-- The measure of members. -/
def gm (ms : List (Str × Value)) : Nat := ms.foldr (fun e n => M.op (M.key e.1 + M.f e.2) n) 0

/-- The measure of names. -/
def keys (names : List Str) : Nat := names.foldr (fun k n => M.key k + n) 0

@[simp] theorem keys_nil : M.keys [] = 0 := rfl

theorem le_right (a b : Nat) : b ≤ M.op a b := by rw [M.op_comm]; exact M.le_left b a

theorem op_mono_right {a b c : Nat} (h : a ≤ b) : M.op c a ≤ M.op c b := by
  rw [M.op_comm c a, M.op_comm c b]; exact M.op_mono a b c h

@[simp] theorem g_nil : M.g [] = 0 := rfl
@[simp] theorem gm_nil : M.gm [] = 0 := rfl
theorem g_cons (v : Value) (vs : List Value) : M.g (v :: vs) = M.op (M.f v) (M.g vs) := rfl
theorem gm_cons (e : Str × Value) (ms : List (Str × Value)) :
    M.gm (e :: ms) = M.op (M.key e.1 + M.f e.2) (M.gm ms) := rfl

theorem g_cons_le (v : Value) (vs : List Value) : M.g (v :: vs) ≤ M.f v + M.g vs := M.op_le _ _

theorem g_append (a b : List Value) : M.g (a ++ b) = M.op (M.g a) (M.g b) := by
  induction a with
  | nil => simp [M.op_zero]
  | cons v a ih => rw [List.cons_append, g_cons, g_cons, ih, M.op_assoc]

theorem g_nulls (n : Nat) (vs : List Value) : M.g (List.replicate n .null ++ vs) ≤ n * M.f .null + M.g vs := by
  induction n with
  | zero => simp
  | succ n ih =>
    rw [List.replicate_succ, List.cons_append, Nat.succ_mul]
    have := M.g_cons_le .null (List.replicate n .null ++ vs)
    omega

theorem gm_insert (m : List (Str × Value)) (k : Str) (v : Value) :
    M.gm (AMap.insert m k v) ≤ M.op (M.key k + M.f v) (M.gm m) := by
  induction m with
  | nil => exact Nat.le_refl _
  | cons e m ih =>
    obtain ⟨k', v'⟩ := e
    unfold AMap.insert
    split
    · rename_i hk
      rw [gm_cons, gm_cons, ← hk]
      exact M.op_mono_right (M.le_right _ _)
    · rw [gm_cons, gm_cons]
      refine Nat.le_trans (M.op_mono_right ih) ?_
      simp only
      rw [← M.op_assoc, M.op_comm (M.key k' + M.f v') (M.key k + M.f v), M.op_assoc]
      exact Nat.le_refl _

theorem gm_fold (l : List (Str × Value)) (m : List (Str × Value)) :
    M.gm (l.foldl (fun m e => AMap.insert m e.1 e.2) m) ≤ M.op (M.gm l) (M.gm m) := by
  induction l generalizing m with
  | nil => rw [List.foldl_nil, gm_nil, M.op_zero]; exact Nat.le_refl _
  | cons e l ih =>
    rw [List.foldl_cons]
    refine Nat.le_trans (ih _) ?_
    refine Nat.le_trans (M.op_mono_right (M.gm_insert m e.1 e.2)) ?_
    rw [← M.op_assoc, M.op_comm (M.gm l), gm_cons]
    exact Nat.le_refl _

theorem gm_zip (names : List Str) (vs : List Value) : M.gm (names.zip vs) ≤ M.keys names + M.g vs := by
  induction names generalizing vs with
  | nil => simp
  | cons n names ih =>
    cases vs with
    | nil => simp
    | cons v vs =>
      rw [List.zip_cons_cons, gm_cons, g_cons]
      have h1 := M.op_add (M.key n) (M.f v) (M.gm (names.zip vs))
      have h2 := M.op_mono_right (c := M.f v) (ih vs)
      have h3 := M.op_add (M.keys names) (M.g vs) (M.f v)
      rw [M.op_comm _ (M.f v), M.op_comm _ (M.f v)] at h3
      have h4 : M.keys (n :: names) = M.key n + M.keys names := rfl
      simp only
      omega

theorem gm_fromIter (names : List Str) (vs : List Value) :
    M.gm (AMap.fromIter (names.zip vs)) ≤ M.keys names + M.g vs := by
  refine Nat.le_trans (M.gm_fold _ _) ?_
  rw [gm_nil, M.op_comm, M.op_zero]
  exact M.gm_zip names vs

theorem g_chunks {l : Nat} (fuel : Nat) (ms cs : List Value) (h : chunks l fuel ms = .done cs) :
    M.g cs ≤ M.arr (M.g ms) := by
  induction fuel generalizing ms cs with
  | zero =>
    cases ms with
    | nil => unfold chunks at h; cases h; simp
    | cons m ms => unfold chunks at h; cases h
  | succ fuel ih =>
    cases ms with
    | nil => unfold chunks at h; cases h; simp
    | cons m ms =>
      unfold chunks at h
      split at h
      · cases h
      · split at h
        · rename_i cs' heq
          cases h
          have := ih _ _ heq
          rw [g_cons, M.array]
          conv => rhs; rw [← List.take_append_drop l (m :: ms), M.g_append, ← M.op_arr]
          exact M.op_mono_right this
        · rename_i x hx
          rw [h] at hx
          exact absurd rfl (hx cs)

theorem g_reshape (ls : List Nat) (ms cs : List Value) (h : reshape ls ms = .done cs) :
    M.g cs ≤ ls.length + M.g ms := by
  induction ls generalizing ms with
  | nil => unfold reshape at h; cases h; simp
  | cons l ls ih =>
    unfold reshape at h
    split at h
    · rename_i cs' heq
      have h1 := ih _ h
      have h2 := M.g_chunks _ _ _ heq
      have h3 := M.arr_le (M.g ms)
      rw [List.length_cons]
      omega
    · rename_i x hx
      exact absurd h (hx cs)

/-- The credit in the table. -/
def pot (s : St) : Nat := s.objects.foldr (fun e n => M.f e.2 + n) 0

theorem pot_insert (m : AMap Nat Value) (id : Nat) (v : Value) :
    (m.insert id v).foldr (fun e n => M.f e.2 + n) 0 ≤ M.f v + m.foldr (fun e n => M.f e.2 + n) 0 := by
  induction m with
  | nil => exact Nat.le_refl _
  | cons e m ih =>
    obtain ⟨k', v'⟩ := e
    unfold AMap.insert
    split
    · simp only [List.foldr_cons]; omega
    · simp only [List.foldr_cons]; omega

theorem pot_filter (m : AMap Nat Value) (id : Nat) :
    (m.erase id).foldr (fun e n => M.f e.2 + n) 0 ≤ m.foldr (fun e n => M.f e.2 + n) 0 := by
  unfold AMap.erase
  induction m with
  | nil => exact Nat.le_refl _
  | cons e m ih =>
    rw [List.filter_cons]
    split
    · simp only [List.foldr_cons]; omega
    · simp only [List.foldr_cons]; omega

theorem pot_erase (m : AMap Nat Value) (id : Nat) (v : Value) (h : m.get? id = some v) :
    M.f v + (m.erase id).foldr (fun e n => M.f e.2 + n) 0 ≤ m.foldr (fun e n => M.f e.2 + n) 0 := by
  induction m with
  | nil => cases h
  | cons e m ih =>
    obtain ⟨k, v'⟩ := e
    unfold AMap.get? at h
    split at h
    · rename_i hk
      cases h
      subst hk
      have := M.pot_filter m k
      unfold AMap.erase at this ⊢
      rw [List.filter_cons_of_neg (by simp)]
      simp only [List.foldr_cons]
      omega
    · rename_i hk
      have := ih h
      unfold AMap.erase at this ⊢
      rw [List.filter_cons_of_pos (by simpa using hk)]
      simp only [List.foldr_cons]
      omega

end Measure

/-- The credit left is at most `n` and no class has been stored, and on success value, credit and remaining bytes are together at
most `n`. -/
def Cost (M : Measure) (n : Nat) (c : α → Nat) (x : Res α) : Prop :=
  (M.pot x.2 ≤ n ∧ x.2.classes = []) ∧ ∀ r a, x.1 = .ok r a → c a + M.pot x.2 + M.len r ≤ n

/-- For all inputs. -/
def CostP (M : Measure) (c : α → Nat) (p : SP α) : Prop :=
  ∀ s i, s.classes = [] → Cost M (M.pot s + M.len i) c (p s i)

namespace Cost
variable {M : Measure} {n m : Nat} {c : α → Nat} {d : β → Nat}

theorem weaken {x : Res α} {c' : α → Nat} (k : Nat) (h : Cost M n c x) (hn : n + k ≤ m)
    (hc : ∀ a, c' a ≤ c a + k) : Cost M m c' x :=
  ⟨⟨by have := h.1.1; omega, h.1.2⟩, fun r a e => by have := h.2 r a e; have := hc a; omega⟩

theorem map {x : Res α} {f : α → β} (h : Cost M n c x) (hf : ∀ a, d (f a) ≤ c a) :
    Cost M n d (x.map f) := by
  obtain ⟨o, s⟩ := x
  refine ⟨h.1, fun r b e => ?_⟩
  cases o with
  | ok r' a =>
    simp only [Res.map, Outcome.map, Outcome.ok.injEq] at e
    obtain ⟨rfl, rfl⟩ := e
    have := h.2 r' a rfl
    have := hf a
    simp only [Res.map] at *
    omega
  | _ => simp [Res.map, Outcome.map] at e

theorem bind {x : Res α} {f : α → St → Bytes → Res β} (h : Cost M n c x)
    (hf : ∀ a s r, s.classes = [] → c a + M.pot s + M.len r ≤ n → Cost M n d (f a s r)) :
    Cost M n d (x.bind f) := by
  obtain ⟨o, s⟩ := x
  cases o with
  | ok r a => exact hf a s r h.1.2 (h.2 r a rfl)
  | _ => exact ⟨h.1, fun _ _ e => (by simp [Res.bind] at e)⟩

theorem ret {i : Bytes} {a : α} {s : St} (hs : s.classes = []) (h : c a + M.pot s + M.len i ≤ n) :
    Cost M n c (.ok i a, s) :=
  ⟨⟨(by simp only; omega), hs⟩, (fun _ _ e => by cases e; exact h)⟩

theorem other {o : Outcome Error α} {s : St} (hs : s.classes = []) (h : M.pot s ≤ n) (ho : ∀ r a, o ≠ .ok r a) :
    Cost M n c (o, s) := ⟨⟨h, hs⟩, fun r a e => absurd e (ho r a)⟩

theorem failure {e : Error} {s : St} (hs : s.classes = []) (h : M.pot s ≤ n) : Cost M n c (.failure e, s) :=
  other hs h (by intro _ _ e; cases e)

theorem error {e : Error} {s : St} (hs : s.classes = []) (h : M.pot s ≤ n) : Cost M n c (.error e, s) :=
  other hs h (by intro _ _ e; cases e)

end Cost

variable {M : Measure}

/-- Value and remaining bytes are together at most `n`. -/
def PCost (M : Measure) (n : Nat) (c : α → Nat) (x : Outcome Error α) : Prop := ∀ r a, x = .ok r a → c a + M.len r ≤ n

namespace PCost
variable {n : Nat} {c : α → Nat} {d : β → Nat}

theorem bind {x : Outcome Error α} {f : α → Parser β} (h : PCost M n c x)
    (hf : ∀ a r, c a + M.len r ≤ n → PCost M n d (f a r)) : PCost M n d (x.bind f) := by
  intro r b e
  cases x with
  | ok r' a => exact hf a r' (h r' a rfl) r b e
  | _ => simp [Outcome.bind] at e

theorem good {w i : Bytes} {x : Outcome Error α} {V : α → Prop} {k m : Nat} (h : PG w V i.length k x)
    (hn : M.len i + m ≤ n) (hc : ∀ a, V a → c a ≤ k + m) : PCost M n c x := by
  rintro r a rfl
  have := M.len_lt' h.2.1
  have := hc a h.2.2
  omega

theorem cond {b : Bool} {p : Parser α} {i : Bytes} {d : Option α → Nat} (h : PCost M n (fun a => d (some a)) (p i))
    (hi : d none + M.len i ≤ n) : PCost M n d (Nrbf.cond b p i) := by
  intro r a e
  unfold Nrbf.cond at e
  split at e
  · cases hp : p i with
    | ok r' a' =>
      rw [hp] at e
      simp only [Outcome.map, Outcome.ok.injEq] at e
      obtain ⟨rfl, rfl⟩ := e
      exact h _ _ hp
    | _ => rw [hp] at e; simp [Outcome.map] at e
  · cases e; exact hi

theorem ret {i : Bytes} {a : α} (h : c a + M.len i ≤ n) : PCost M n c (.ok i a) := by
  rintro r _ ⟨⟩; exact h

theorem exact {p : Parser α} {R : α → Bytes → Prop} (h : Exact p R) {i : Bytes}
    (hc : ∀ a b, R a b → c a ≤ M.weight * b.length) : PCost M (M.len i) c (p i) := by
  intro r a e
  obtain ⟨b, hb, rfl⟩ := (h _ _ _).mp e
  have := hc a b hb
  unfold Measure.len
  rw [List.length_append, Nat.mul_add]
  omega

theorem alt {p : Parser α} {ps : List (Parser α)} {i : Bytes} (hp : PCost M n c (p i))
    (hps : ∀ q ∈ ps, PCost M n c (q i)) : PCost M n c (Nrbf.alt p ps i) := by
  induction ps generalizing p with
  | nil => exact hp
  | cons q qs ih =>
    have h := ih (hps q List.mem_cons_self) fun q' hq => hps q' (List.mem_cons_of_mem _ hq)
    intro r a e
    unfold Nrbf.alt at e
    split at e
    · exact h r a e
    · exact hp r a e

theorem map {x : Outcome Error α} {f : α → β} (h : PCost M n c x) (hf : ∀ a, d (f a) ≤ c a) : PCost M n d (x.map f) := by
  intro r b e
  obtain ⟨a, rfl, rfl⟩ := Outcome.map_ok.mp e
  have := h r a rfl
  have := hf a
  omega

end PCost

theorem Cost.stateless {n : Nat} {c : α → Nat} {i : Bytes} {x : Outcome Error α} {s : St}
    (h : PCost M (M.len i) c x) (hs : s.classes = []) (hn : M.pot s + M.len i ≤ n) : Cost M n c (x, s) := by
  refine ⟨⟨by simp only; omega, hs⟩, fun r a e => ?_⟩
  have := h r a e
  simp only
  omega

/-- What a slot costs. -/
def Measure.slot (M : Measure) : ValueOrRef → Nat
  | .value v => M.f v
  | .null n => n * M.f .null
  | .ref _ => 0

/-- What slots cost. -/
def Measure.slots (M : Measure) (ms : List ValueOrRef) : Nat := ms.foldr (fun m n => M.slot m + n) 0

theorem Measure.slots_append (M : Measure) (a b : List ValueOrRef) :
    M.slots (a ++ b) = M.slots a + M.slots b := by
  induction a with
  | nil => simp [slots]
  | cons m a ih => simp only [slots, List.cons_append, List.foldr_cons] at *; omega

theorem Measure.slots_nulls (M : Measure) (n : Nat) :
    M.slots (List.replicate n (.value .null)) = n * M.f .null := by
  induction n with
  | zero => simp [slots]
  | succ n ih =>
    rw [Nat.succ_mul]
    simp only [slots, List.replicate_succ, List.foldr_cons, slot] at *; omega

theorem countS_cost {p : SP ValueOrRef} (hp : CostP M M.slot p) (n : Nat) :
    CostP M M.slots (countS p n) := by
  induction n with
  | zero => exact fun s i hs => Cost.ret hs (by simp [Measure.slots])
  | succ n ih =>
    intro s i hs
    refine (hp s i hs).bind fun a s r hs h => ?_
    refine Cost.map (c := fun ms => M.slot a + M.slots ms) ?_ fun ms => Nat.le_refl _
    exact (ih s r hs).weaken (M.slot a) (by omega) fun ms => by omega

omit [Platform] in
/-- The library table does not count. -/
theorem library_cost (s : St) (i : Bytes) :
    (parseBinaryLibrary s i).2.objects = s.objects ∧
    ∀ r a, (parseBinaryLibrary s i).1 = .ok r a → r.length ≤ i.length := by
  unfold parseBinaryLibrary lift
  have hg := opt_good (List.suffix_refl i) (binaryLibrary_good (List.suffix_refl i))
  generalize opt BinaryLibrary.parse i = x at hg
  cases x with
  | ok r l =>
    have := hg.2.1
    simp only [Res.bind]
    cases l with
    | none => exact ⟨rfl, (fun _ _ e => by cases e; omega)⟩
    | some l =>
      simp only
      split
      · exact ⟨rfl, (fun _ _ e => by cases e)⟩
      · exact ⟨rfl, (fun _ _ e => by cases e; omega)⟩
  | _ => exact ⟨rfl, (fun _ _ e => by cases e)⟩

theorem library_quiet (s : St) (i : Bytes) :
    ((parseBinaryLibrary s i).2.objects = s.objects ∧ (parseBinaryLibrary s i).2.classes = s.classes) ∧
    ∀ r a, (parseBinaryLibrary s i).1 = .ok r a → r.length ≤ i.length := by
  unfold parseBinaryLibrary lift
  have hg := opt_good (List.suffix_refl i) (binaryLibrary_good (List.suffix_refl i))
  generalize opt BinaryLibrary.parse i = x at hg
  cases x with
  | ok r l =>
    have := hg.2.1
    simp only [Res.bind]
    cases l with
    | none => exact ⟨⟨rfl, rfl⟩, (fun _ _ e => by cases e; omega)⟩
    | some l =>
      simp only
      split
      · exact ⟨⟨rfl, rfl⟩, (fun _ _ e => by cases e)⟩
      · exact ⟨⟨rfl, rfl⟩, (fun _ _ e => by cases e; omega)⟩
  | _ => exact ⟨⟨rfl, rfl⟩, (fun _ _ e => by cases e)⟩

theorem Measure.pot_objects (M : Measure) {s s' : St} (h : s'.objects = s.objects) : M.pot s' = M.pot s := by
  unfold pot; rw [h]

theorem library_bind {n : Nat} {c : β → Nat} {f : Unit → St → Bytes → Res β} {s : St} {i : Bytes}
    (hs : s.classes = []) (hn : M.pot s + M.len i ≤ n)
    (hf : ∀ a s' r, s'.classes = [] → M.pot s' + M.len r ≤ n → Cost M n c (f a s' r)) :
    Cost M n c ((parseBinaryLibrary s i).bind f) := by
  have h := library_quiet s i
  refine Cost.bind (c := fun _ => 0) ⟨⟨by rw [M.pot_objects h.1.1]; omega, by rw [h.1.2, hs]⟩, fun r a e => ?_⟩
    fun a s' r e h2 => hf a s' r e (by omega)
  have := M.len_le (h.2 r a e)
  rw [M.pot_objects h.1.1]
  simp only
  omega

/-- What is needed of the recursive call of `parse_classes`. -/
structure CostC (M : Measure) (classes : SP (Nat × Object)) : Prop where
  cost : CostP M (fun o => M.f o.2.toValue) classes
  quiet : ∀ s i, ¬ ClassByte i → i.head? ≠ some 1 → (classes s i).2 = s

section
variable {classes : SP (Nat × Object)} {referenceable : SP Nat}

theorem objectString_cost {id : Nat} {s : Str} {b : Bytes} (h : IsObjectString id s b) :
    M.f (.string s) ≤ M.weight * b.length := by
  obtain ⟨b1, b2, _, ⟨p, _, _, rfl⟩, rfl⟩ := h
  refine Nat.le_trans (M.string s) (Nat.mul_le_mul_left _ ?_)
  simp
  omega

theorem stringMember_cost (i : Bytes) : PCost M (M.len i) M.slot (stringMember i) :=
  PCost.exact stringMember_exact fun m b ⟨_, s, hm, h⟩ => by rw [hm]; exact objectString_cost h

theorem refMember_cost (i : Bytes) : PCost M (M.len i) M.slot (refMember i) := by
  intro r a e
  have h := memberRef_good (List.suffix_refl i)
  unfold refMember at e
  obtain ⟨a', e', rfl⟩ := Outcome.map_ok.mp e
  rw [e'] at h
  have := M.len_lt1 h.2.1
  simp only [Measure.slot]
  omega

theorem nullMember_cost (i : Bytes) : PCost M (M.len i) M.slot (parseNullObject i) := by
  have h := nullObject_good (val := fun v => M.f v ≤ M.weight) (List.suffix_refl i)
  intro r m e
  rw [e] at h
  have h1 := M.len_lt1 h.2.1
  have h2 : M.slot m ≤ M.weight := by
    have h := h.2.2
    cases m with
    | value v => exact h
    | null n => exact M.run n h.2.1
    | ref _ => exact Nat.zero_le _
  omega

theorem memberNone_cost (hc : CostC M classes) : CostP M M.slot (memberReferenceNone classes) := by
  intro s i hs
  unfold memberReferenceNone
  refine library_bind hs (Nat.le_refl _) fun _ s i hs hn => ?_
  split
  · exact ((hc.cost s i hs).map (d := M.slot) fun o => Nat.le_refl _).weaken 0 (by omega) fun _ => by omega
  · refine Cost.stateless (PCost.alt ?_ fun q hq => ?_) hs hn
    · exact PCost.exact typedMember_exact fun m b ⟨v, hm, t, b', h, hb⟩ => by
        rw [hm, hb]
        have h1 := M.prim t v b' h
        have h2 : M.weight * b'.length ≤ M.weight * (17 :: primitiveTypeByte t :: b').length :=
          Nat.mul_le_mul_left _ (by simp; omega)
        exact Nat.le_trans h1 (by simpa using h2)
    · simp only [List.mem_cons, List.not_mem_nil, or_false] at hq
      rcases hq with rfl | rfl | rfl
      · exact refMember_cost i
      · exact stringMember_cost i
      · exact nullMember_cost i

theorem expectedClass_cost (hc : CostC M classes) (name : Str) (library : Option Str) :
    CostP M M.slot (expectedClass classes name library) := by
  intro s i hs
  have h := hc.cost s i hs
  have hq := hc.quiet s i
  have key : ∀ s', (classes s i).2 = s' →
      Cost M (M.pot s + M.len i) M.slot (parseNullObject i, s') := by
    rintro s' rfl
    by_cases hb : ClassByte i ∨ i.head? = some 1
    · obtain ⟨e, he⟩ := nullMember_mismatch (i := i)
        (by rcases hb with (h | h | h | h | h) | h <;> rw [h] <;> decide)
        (by rcases hb with (h | h | h | h | h) | h <;> rw [h] <;> decide)
        (by rcases hb with (h | h | h | h | h) | h <;> rw [h] <;> decide)
      rw [he]
      exact Cost.error h.1.2 h.1.1
    · simp only [not_or] at hb
      rw [hq hb.1 hb.2]
      exact Cost.stateless (nullMember_cost i) hs (Nat.le_refl _)
  unfold expectedClass
  split
  · rename_i r o s' heq
    rw [heq] at h
    split
    · exact Cost.failure h.1.2 h.1.1
    · exact ⟨h.1, (fun _ _ e => by cases e; exact h.2 _ _ rfl)⟩
  · rename_i heq; exact key _ (by rw [heq])
  · rename_i heq; exact key _ (by rw [heq])
  · rename_i heq; rw [heq] at h; exact Cost.other h.1.2 h.1.1 (by intro _ _ e; cases e)
  · rename_i heq; rw [heq] at h; exact Cost.other h.1.2 h.1.1 (by intro _ _ e; cases e)

theorem member_cost (hc : CostC M classes) (t : BinaryType) (info : Option AdditionalTypeInfo) :
    CostP M M.slot (memberReference classes t info) := by
  intro s i hs
  unfold memberReference
  refine library_bind hs (Nat.le_refl _) fun _ s i hs hn => ?_
  have sub : ∀ {p : SP ValueOrRef}, CostP M M.slot p → Cost M _ M.slot (p s i) :=
    fun hp => (hp s i hs).weaken 0 (by omega) fun _ => by omega
  split
  · rename_i t
    exact Cost.stateless (PCost.exact (untypedMember_exact t) fun m b ⟨v, hm, h⟩ => by
      rw [hm]; exact M.prim t v b h) hs hn
  · exact Cost.stateless (stringMember_cost i) hs hn
  · exact sub (memberNone_cost hc)
  · exact sub (expectedClass_cost hc _ _)
  · split
    · exact sub (expectedClass_cost hc _ _)
    · exact Cost.failure hs (by omega)
  · exact sub (memberNone_cost hc)
  · refine Cost.stateless (PCost.alt (stringMember_cost i) fun q hq => ?_) hs hn
    simp only [List.mem_cons, List.not_mem_nil, or_false] at hq
    rcases hq with rfl | rfl
    · exact refMember_cost i
    · exact nullMember_cost i
  · exact Cost.stateless (refMember_cost i) hs hn
  · exact Cost.other hs (by omega) (by intro _ _ e; cases e)

theorem members_cost (hc : CostC M classes) (ts : List (BinaryType × Option AdditionalTypeInfo)) :
    CostP M M.slots (membersWithTypeInfo classes ts) := by
  induction ts with
  | nil => exact fun s i hs => Cost.ret hs (by simp [Measure.slots])
  | cons e ts ih =>
    obtain ⟨t, info⟩ := e
    intro s i hs
    unfold membersWithTypeInfo
    refine (member_cost hc t info s i hs).bind fun a s r hs h => ?_
    refine Cost.map (c := fun ms => M.slot a + M.slots ms) ?_ fun ms => Nat.le_refl _
    exact (ih s r hs).weaken (M.slot a) (by omega) fun ms => by omega

/-- What is needed of the recursive call of `parse_referenceable`: it registers the object. -/
def CostR (M : Measure) (referenceable : SP Nat) : Prop := CostP M (fun _ => 0) referenceable

theorem resolveRef_cost (hr : CostR M referenceable) (id : Nat) :
    CostP M M.f (resolveRef referenceable id) := by
  intro s i hs
  unfold resolveRef
  split
  · rename_i v hv
    have := M.pot_erase _ _ _ hv
    refine Cost.ret hs ?_
    unfold Measure.pot
    simp only
    omega
  · have h := hr s i hs
    split
    · rename_i r id2 s' heq
      rw [heq] at h
      have h2 := h.2 _ _ rfl
      split
      · split
        · rename_i v hv
          have := M.pot_erase _ _ _ hv
          refine Cost.ret h.1.2 ?_
          unfold Measure.pot at *
          simp only at *
          omega
        · exact Cost.failure h.1.2 h.1.1
      · exact Cost.error h.1.2 h.1.1
    all_goals rename_i heq; rw [heq] at h; exact Cost.other h.1.2 h.1.1 (by intro _ _ e; cases e)

theorem resolve_cost (hr : CostR M referenceable) (ms : List ValueOrRef) (s : St) (i : Bytes)
    (hs : s.classes = []) :
    Cost M (M.slots ms + M.pot s + M.len i) M.g (resolveMembers referenceable ms s i) := by
  induction ms generalizing s i with
  | nil => exact Cost.ret hs (by simp [Measure.slots])
  | cons m ms ih =>
    have e : M.slots (m :: ms) = M.slot m + M.slots ms := rfl
    cases m with
    | value v =>
      refine Cost.map (c := fun vs => M.f v + M.g vs) ?_ fun vs => M.g_cons_le v vs
      exact (ih s i hs).weaken (M.f v) (by rw [e]; simp only [Measure.slot]; omega) fun _ => by omega
    | null n =>
      refine Cost.map (c := fun vs => n * M.f .null + M.g vs) ?_ fun vs => M.g_nulls n vs
      exact (ih s i hs).weaken (n * M.f .null) (by rw [e]; simp only [Measure.slot]; omega) fun _ => by omega
    | ref id =>
      have h1 := (resolveRef_cost hr id s i hs).weaken (c' := fun v => M.f v + M.slots ms) (M.slots ms)
        (m := M.slots (.ref id :: ms) + M.pot s + M.len i)
        (by rw [e]; simp only [Measure.slot]; omega) fun _ => by omega
      refine h1.bind fun v s r hs h => ?_
      refine Cost.map (c := fun vs => M.f v + M.g vs) ?_ fun vs => M.g_cons_le v vs
      exact (ih s r hs).weaken (M.f v) (by omega) fun _ => by omega

/-- The names in a class header. -/
def Measure.names (M : Measure) (c : ClassInfo) : Nat := M.cls c.name + M.keys c.memberNames

theorem isString_length {s : Str} {b : Bytes} (h : IsString s b) : s.length + 1 ≤ b.length := by
  obtain ⟨p, ⟨gs, last, _, _, _, _, rfl, _⟩, _, rfl⟩ := h
  simp only [List.length_append, List.length_map, List.length_cons, List.length_nil]
  omega

theorem keys_le (names : List Str) (b : Bytes) (h : IsSeq IsString names b) : M.keys names ≤ M.weight * b.length := by
  induction names generalizing b with
  | nil => exact Nat.zero_le _
  | cons k ks ih =>
    obtain ⟨b1, b2, h1, h2, rfl⟩ := h
    have h3 := ih b2 h2
    have h4 := isString_length h1
    have h5 := M.key_le k
    have h6 : M.weight * k.length ≤ M.weight * b1.length := Nat.mul_le_mul_left _ (by omega)
    have h7 : M.keys (k :: ks) = M.key k + M.keys ks := rfl
    rw [List.length_append, Nat.mul_add]
    omega

theorem classHead_cost {h : ClassHead} {b : Bytes} (hb : IsClassHead h b) :
    1 + M.names (classOf h).classInfo ≤ M.weight * b.length := by
  obtain ⟨bid, bname, bcount, bnames, btypes, blib, _, h2, _, h4, _, _, rfl⟩ := hb
  have e : (classOf h).classInfo = ⟨h.id, h.name, h.memberNames⟩ := by
    unfold classOf
    cases h.types <;> cases h.library <;> rfl
  rw [e]
  have h5 := keys_le (M := M) _ _ h4
  have h6 := isString_length h2
  have h7 := M.cls_le h.name
  have h8 : M.weight * (h.name.length + 1) ≤ M.weight * bname.length := Nat.mul_le_mul_left _ h6
  have h9 : M.weight * (bname.length + bnames.length) ≤
      M.weight * (h.tag :: bid ++ bname ++ bcount ++ bnames ++ btypes ++ blib).length :=
    Nat.mul_le_mul_left _ (by simp; omega)
  have := M.weight_pos
  rw [Nat.mul_add] at h8 h9
  unfold Measure.names
  simp only
  omega

omit [Platform] in
theorem classHeader_cost (s : St) (i : Bytes) :
    (classHeader s i).2 = s ∧ ∀ r a, (classHeader s i).1 = .ok r a → r.length + 1 ≤ i.length := by
  have hid := classWithId_good (w := i) (List.suffix_refl i)
  have hc := classes_good (w := i) (List.suffix_refl i)
  unfold classHeader
  split
  · rename_i heq
    rw [heq] at hid
    split
    · exact ⟨rfl, (fun _ _ e => by cases e; exact hid.2.1)⟩
    · exact ⟨rfl, (fun _ _ e => by cases e)⟩
  · refine ⟨rfl, fun r a e => ?_⟩
    simp only at e
    generalize alt ClassWithMembers.parse _ i = y at e hc
    cases y with
    | ok r' c =>
      simp only [Outcome.map, Outcome.ok.injEq] at e
      rw [← e.1]
      exact hc.2.1
    | _ => simp [Outcome.map] at e
  all_goals exact ⟨rfl, (fun _ _ e => by cases e)⟩

theorem classHeader_pays (s : St) (hs : s.classes = []) (i : Bytes) :
    (classHeader s i).2 = s ∧ ∀ r a, (classHeader s i).1 = .ok r a → 1 + M.names a.2.classInfo + M.len r ≤ M.len i := by
  unfold classHeader
  split
  · split
    · rename_i hget
      rw [hs] at hget
      cases hget
    · exact ⟨rfl, (fun _ _ e => by cases e)⟩
  · refine ⟨rfl, fun r a e => ?_⟩
    obtain ⟨c, hc, rfl⟩ := Outcome.map_ok.mp e
    obtain ⟨b, ⟨h, rfl, hb⟩, rfl⟩ := (classHead_exact _ _ _).mp hc
    have := classHead_cost (M := M) hb
    unfold Measure.len
    rw [List.length_append, Nat.mul_add]
    simp only
    omega
  all_goals exact ⟨rfl, (fun _ _ e => by cases e)⟩

theorem classMembers_cost (hc : CostC M classes) (errInput : Bytes) (c : Class) :
    CostP M (fun x => M.slots x.2) (classMembers classes errInput c) := by
  intro s i hs
  unfold classMembers
  split
  · split
    · exact (countS_cost (memberNone_cost hc) _ s i hs).map fun _ => Nat.le_refl _
    · exact Cost.failure hs (by omega)
  · split
    · exact (members_cost hc _ s i hs).map fun _ => Nat.le_refl _
    · exact Cost.failure hs (by omega)
  · exact (countS_cost (memberNone_cost hc) _ s i hs).map fun _ => Nat.le_refl _
  · exact (members_cost hc _ s i hs).map fun _ => Nat.le_refl _

theorem classesBody_cost (hc : CostC M classes) (hr : CostR M referenceable) :
    CostP M (fun o => M.f o.2.toValue) (classesBody classes referenceable) := by
  intro s i hs
  unfold classesBody
  generalize hN : M.pot s + M.len i = n
  refine library_bind hs (Nat.le_of_eq hN) fun _ s e hs hn => ?_
  have hh := classHeader_pays (M := M) s hs e
  refine Cost.bind (c := fun a => 1 + M.names a.2.classInfo) ⟨⟨by rw [hh.1]; omega, by rw [hh.1]; exact hs⟩, fun r a e => ?_⟩
    fun ⟨id, c⟩ s i hs h => ?_
  · have := hh.2 r a e
    rw [hh.1]
    simp only
    omega
  simp only at h ⊢
  split
  · exact Cost.failure hs (by omega)
  · have h1 := (classMembers_cost hc e c s i hs).weaken (c' := fun x => M.slots x.2 + (1 + M.names c.classInfo))
      (1 + M.names c.classInfo) (m := n) (by omega) (by intro; omega)
    refine h1.bind fun ⟨lib, ms⟩ s i hs h => ?_
    simp only at h ⊢
    have h2 := (resolve_cost hr ms s i hs).weaken (c' := fun vs => 1 + M.names c.classInfo + M.g vs)
      (1 + M.names c.classInfo) (m := n) (by omega) (by intro; omega)
    refine h2.bind fun vs s i hs h => ?_
    refine Cost.ret hs ?_
    simp only [Object.toValue]
    rw [M.object]
    have := M.gm_fromIter c.classInfo.memberNames vs
    unfold Measure.gm at this
    unfold Measure.names at h
    omega

/-! ## Arrays -/

theorem arrayLoop_cost {element : SP ValueOrRef} (he : CostP M M.slot element) (fuel len : Nat)
    (acc : List ValueOrRef) (s : St) (i : Bytes) (hs : s.classes = []) :
    Cost M (M.slots acc + M.pot s + M.len i) M.slots (arrayLoop element fuel len acc s i) := by
  induction fuel generalizing acc s i with
  | zero =>
    unfold arrayLoop
    split
    · exact Cost.other hs (by omega) (by intro _ _ e; cases e)
    · exact Cost.ret hs (by omega)
  | succ fuel ih =>
    unfold arrayLoop
    split
    · have h1 := (he s i hs).weaken (c' := fun m => M.slots acc + M.slot m) (M.slots acc)
        (m := M.slots acc + M.pot s + M.len i) (by omega) (by intro; omega)
      refine h1.bind fun m s r hs h => ?_
      split
      · refine (ih _ s r hs).weaken 0 ?_ fun _ => by omega
        rw [M.slots_append, M.slots_nulls]
        simp only [Measure.slot] at h
        omega
      · refine (ih _ s r hs).weaken 0 ?_ fun _ => by omega
        have : M.slots [m] = M.slot m := rfl
        rw [M.slots_append, this]
        omega
    · exact Cost.ret hs (by omega)

/-- The cost of an array, from the cost of its elements. -/
def Measure.items (M : Measure) (a : Nat × List Value) : Nat := M.f (.array a.2)

theorem Measure.items_le (M : Measure) (a : Nat × List Value) : M.items a ≤ 1 + M.g a.2 := by
  unfold items
  rw [M.array]
  exact M.arr_le _

theorem arraySingleObject_cost (hc : CostC M classes) (hr : CostR M referenceable) :
    CostP M (fun a => 1 + M.g a.2) (arraySingleObject classes referenceable) := by
  intro s i hs
  unfold arraySingleObject
  generalize hN : M.pot s + M.len i = n
  refine (Cost.stateless (c := fun _ => 1) (PCost.good (m := 0) (arraySingleObjectRec_good (List.suffix_refl i)) (Nat.le_refl _)
    fun _ _ => Nat.le_refl _) hs (by omega)).bind fun info s i hs h => ?_
  have h1 := (arrayLoop_cost (memberNone_cost hc) info.length info.length [] s i hs).weaken
    (c' := fun ms => 1 + M.slots ms) 1 (m := n) (by simp [Measure.slots]; omega) (by intro; omega)
  refine h1.bind fun ms s i hs h => ?_
  exact ((resolve_cost hr ms s i hs).weaken (c' := fun vs => 1 + M.g vs) 1 (by omega)
    (by intro; omega)).map fun vs => Nat.le_refl _

theorem arraySingleString_cost (hc : CostC M classes) (hr : CostR M referenceable) :
    CostP M (fun a => 1 + M.g a.2) (arraySingleString classes referenceable) := by
  intro s i hs
  unfold arraySingleString
  generalize hN : M.pot s + M.len i = n
  refine (Cost.stateless (c := fun _ => 1) (PCost.good (m := 0) (arraySingleStringRec_good (List.suffix_refl i)) (Nat.le_refl _)
    fun _ _ => Nat.le_refl _) hs (by omega)).bind fun info s i hs h => ?_
  have h1 := (arrayLoop_cost (member_cost hc .stringArray none) info.length info.length [] s i hs).weaken
    (c' := fun ms => 1 + M.slots ms) 1 (m := n) (by simp [Measure.slots]; omega) (by intro; omega)
  refine h1.bind fun ms s i hs h => ?_
  exact ((resolve_cost hr ms s i hs).weaken (c' := fun vs => 1 + M.g vs) 1 (by omega)
    (by intro; omega)).map fun vs => Nat.le_refl _

theorem count_cost {p : Parser Value} (hp : ∀ i, PCost M (M.len i) M.f (p i)) (n : Nat)
    (i r : Bytes) (vs : List Value) (h : count p n i = .ok r vs) : M.g vs + M.len r ≤ M.len i := by
  induction n generalizing i vs with
  | zero => unfold count at h; cases h; simp
  | succ n ih =>
    unfold count at h
    cases hpi : p i with
    | ok r' v =>
      have hg := hp i r' v hpi
      rw [hpi] at h
      simp only [Outcome.bind] at h
      cases hc : count p n r' with
      | ok r'' vs' =>
        rw [hc] at h
        simp only [Outcome.map, Outcome.ok.injEq] at h
        obtain ⟨rfl, rfl⟩ := h
        have h1 := ih _ _ hc
        have h4 := M.g_cons_le v vs'
        omega
      | _ => rw [hc] at h; simp [Outcome.map] at h
    | _ => rw [hpi] at h; simp [Outcome.bind] at h

theorem arraySinglePrimitive_cost : CostP M (fun a => 1 + M.g a.2) arraySinglePrimitive := by
  intro s i hs
  unfold arraySinglePrimitive lift
  refine ⟨⟨by simp only; omega, hs⟩, fun r a e => ?_⟩
  simp only at e ⊢
  have hg := arraySinglePrimitiveRec_good (List.suffix_refl i)
  cases hp : ArraySinglePrimitive.parse i with
  | ok r' x =>
    obtain ⟨info, t⟩ := x
    rw [hp] at e hg
    simp only [Outcome.bind] at e
    cases hc : count (fun i => (memberPrimitiveUnTyped t i).map Prim.intoValue) info.length r' with
    | ok r'' vs =>
      rw [hc] at e
      simp only [Outcome.map, Outcome.ok.injEq] at e
      obtain ⟨rfl, rfl⟩ := e
      have := count_cost (M := M) (fun i => PCost.exact (untyped_exact t) (M.prim t)) _ _ _ _ hc
      have := M.len_lt' hg.2.1
      simp only
      omega
    | _ => rw [hc] at e; simp [Outcome.map] at e
  | _ => rw [hp] at e; simp [Outcome.bind] at e

theorem seq_length {p : α → Bytes → Prop} (hp : ∀ a b, p a b → 0 < b.length) {l : List α} {b : Bytes}
    (h : IsSeq p l b) : l.length ≤ b.length := by
  induction l generalizing b with
  | nil => simp
  | cons a l ih =>
    obtain ⟨b1, b2, h1, h2, rfl⟩ := h
    have := hp a b1 h1
    have := ih h2
    simp
    omega

theorem binaryArray_cost (hc : CostC M classes) (hr : CostR M referenceable) :
    CostP M (fun a => 1 + M.g a.2) (binaryArray classes referenceable) := by
  intro s i hs
  unfold binaryArray
  generalize hN : M.pot s + M.len i = n
  refine Cost.bind (c := fun a => 1 + a.lengths.length) ⟨⟨by simp only [lift]; omega, hs⟩, fun r a e => ?_⟩
    fun a s i hs h => ?_
  · simp only [lift] at e ⊢
    obtain ⟨b, ⟨T, hT, hI, bid, brank, blens, bbounds, binfo, g1, g2, g3, g4, g5, g6, rfl⟩, hi1⟩ :=
      (binaryArray_exact _ _ _).mp e
    have := seq_length (p := IsLength) (fun _ _ h => by rw [h.2]; rw [le_length]; decide) g3
    have hshort : r.length + (1 + a.lengths.length) ≤ i.length := by
      rw [hi1]
      simp
      omega
    have := M.len_lt' hshort
    omega
  · split
    · exact Cost.failure hs (by omega)
    · rename_i k _
      have h1 := (countS_cost (member_cost hc a.typeEnum a.additionalTypeInfo) k s i hs).weaken
        (c' := fun ms => 1 + a.lengths.length + M.slots ms) (1 + a.lengths.length) (m := n) (by omega)
        (by intro; omega)
      refine h1.bind fun ms s i hs h => ?_
      have h2 := (resolve_cost hr ms s i hs).weaken (c' := fun vs => 1 + a.lengths.length + M.g vs)
        (1 + a.lengths.length) (m := n) (by omega) (by intro; omega)
      refine h2.bind fun vs s i hs h => ?_
      split
      · rename_i rows hre
        refine Cost.ret hs ?_
        have := M.g_reshape _ _ _ hre
        rw [List.length_reverse, List.length_drop] at this
        simp only
        omega
      · exact Cost.other hs (by omega) (by intro _ _ e; cases e)
      · exact Cost.other hs (by omega) (by intro _ _ e; cases e)

/-- Of several alternatives at most one does anything. -/
theorem altMut_cost {n : Nat} {c : α → Nat} {p : SP α} {ps : List (SP α)} {s : St} {i : Bytes}
    (hp : Cost M n c (p s i))
    (hps : ∀ e s', p s i = (.error e, s') → s'.classes = [] → (∀ r a, (altMut ps s' i).1 ≠ .ok r a) ∧
      (altMut ps s' i).2.objects = s'.objects ∧ (altMut ps s' i).2.classes = s'.classes) : Cost M n c (altMut (p :: ps) s i) := by
  unfold altMut
  split
  · rename_i e s' heq
    rw [heq] at hp
    obtain ⟨h1, h2, h3⟩ := hps e s' heq hp.1.2
    exact ⟨⟨by rw [M.pot_objects h2]; exact hp.1.1, by rw [h3]; exact hp.1.2⟩, fun r a e => absurd e (h1 r a)⟩
  · exact hp

omit [Platform] in
theorem altMut_none {ps : List (SP α)} {i : Bytes} (h : ∀ p ∈ ps, ∀ s, ∃ e, p s i = (.error e, s)) (s : St) :
    (∀ r a, (altMut ps s i).1 ≠ .ok r a) ∧ (altMut ps s i).2.objects = s.objects := by
  induction ps with
  | nil => exact ⟨(by intro _ _ e; cases e), rfl⟩
  | cons p ps ih =>
    rw [altMut_skip (h p (by simp) s)]
    exact ih fun q hq => h q (by simp [hq])

theorem altMut_quiet {ps : List (SP α)} {i : Bytes} (h : ∀ p ∈ ps, ∀ s, ∃ e, p s i = (.error e, s)) (s : St) :
    (∀ r a, (altMut ps s i).1 ≠ .ok r a) ∧ (altMut ps s i).2.objects = s.objects ∧
      (altMut ps s i).2.classes = s.classes := by
  induction ps with
  | nil => exact ⟨(by intro _ _ e; cases e), rfl, rfl⟩
  | cons p ps ih =>
    rw [altMut_skip (h p (by simp) s)]
    exact ih fun q hq => h q (by simp [hq])

theorem arrays_cost (hc : CostC M classes) (hr : CostR M referenceable) (s : St) (i : Bytes)
    (hs : s.classes = []) :
    Cost M (M.pot s + M.len i) (fun a => 1 + M.g a.2)
      (altMut [arraySingleObject classes referenceable, arraySinglePrimitive,
        arraySingleString classes referenceable, binaryArray classes referenceable] s i) := by
  by_cases h16 : i.head? = some 16
  · refine altMut_cost (arraySingleObject_cost hc hr s i hs) fun e s' _ _ => altMut_quiet ?_ s'
    intro p hp s
    simp only [List.mem_cons, List.not_mem_nil, or_false] at hp
    rcases hp with rfl | rfl | rfl
    · exact arraySinglePrimitive_mismatch (by rw [h16]; decide) s
    · exact arraySingleString_mismatch (by rw [h16]; decide) s
    · exact binaryArray_mismatch (by rw [h16]; decide) s
  rw [altMut_skip (arraySingleObject_mismatch h16 s)]
  by_cases h15 : i.head? = some 15
  · refine altMut_cost (arraySinglePrimitive_cost s i hs) fun e s' _ _ => altMut_quiet ?_ s'
    intro p hp s
    simp only [List.mem_cons, List.not_mem_nil, or_false] at hp
    rcases hp with rfl | rfl
    · exact arraySingleString_mismatch (by rw [h15]; decide) s
    · exact binaryArray_mismatch (by rw [h15]; decide) s
  rw [altMut_skip (arraySinglePrimitive_mismatch h15 s)]
  by_cases h17 : i.head? = some 17
  · refine altMut_cost (arraySingleString_cost hc hr s i hs) fun e s' _ _ => altMut_quiet ?_ s'
    intro p hp s
    simp only [List.mem_cons, List.not_mem_nil, or_false] at hp
    rcases hp with rfl
    exact binaryArray_mismatch (by rw [h17]; decide) s
  rw [altMut_skip (arraySingleString_mismatch h17 s)]
  exact altMut_cost (binaryArray_cost hc hr s i hs) fun e s' _ _ => altMut_quiet (by simp) s'

theorem arraysBody_cost (hc : CostC M classes) (hr : CostR M referenceable) :
    CostP M (fun a => 1 + M.g a.2) (arraysBody classes referenceable) := by
  intro s i hs
  unfold arraysBody
  refine library_bind hs (Nat.le_refl _) fun _ s i hs hn => ?_
  exact (arrays_cost hc hr s i hs).weaken 0 (by omega) (by intro; omega)

theorem referenceableBody_cost (hc : CostC M classes) (hr : CostR M referenceable)
    (hm : LibMono classes) (hmr : LibMono referenceable) :
    CostR M (referenceableBody (classesBody classes referenceable)
      (arraysBody classes referenceable)) := by
  intro s i hs
  unfold referenceableBody
  refine Cost.bind (c := fun x => M.f x.2) ?_ fun ⟨id, v⟩ s i hs h => ?_
  · have hcls := (classesBody_cost hc hr s i hs).map (f := fun o => (o.1, o.2.toValue))
      (d := fun x => M.f x.2) fun _ => Nat.le_refl _
    have harr : ∀ s, s.classes = [] → Cost M (M.pot s + M.len i) (fun x : Nat × Value => M.f x.2)
        ((arraysBody classes referenceable s i).map fun a => (a.1, Value.array a.2)) := fun s hs =>
      (arraysBody_cost hc hr s i hs).map fun a => by
        simp only
        rw [M.array]
        exact M.arr_le _
    by_cases hb : ClassByte i ∨ i.head? = some 1
    · have nostr : i.head? ≠ some 6 := by
        rcases hb with (h | h | h | h | h) | h <;> rw [h] <;> decide
      refine altMut_cost hcls fun e s1 he hs1 => ?_
      have he' : classesBody classes referenceable s i = (.error e, s1) := by
        revert he
        generalize classesBody classes referenceable s i = x
        obtain ⟨o, s0⟩ := x
        cases o <;> simp [Res.map, Outcome.map]
      rcases no_retry hm hmr hb he' with ⟨e2, h2⟩ | ⟨e2, s3, h2, h3, _⟩
      · rw [altMut_skip ⟨e2, by simp only [h2]; rfl⟩]
        exact altMut_quiet (by
          intro p hp s
          simp only [List.mem_cons, List.not_mem_nil, or_false] at hp
          subst hp
          exact objectString_mismatch nostr s) s1
      · have h4 := (harr s1 hs1).1.2
        simp only [altMut, h2, Res.map, Outcome.map] at h4 ⊢
        exact ⟨(by intro _ _ e; cases e), h3, by rw [h4, hs1]⟩
    · simp only [not_or] at hb
      obtain ⟨e, he⟩ := classesBody_other (classes := classes) (referenceable := referenceable) (s := s)
        hb.1 hb.2
      rw [altMut_skip ⟨e, by simp only [he]; rfl⟩]
      by_cases h6 : i.head? = some 6
      · have ha : ∃ e, arraysBody classes referenceable s i = (.error e, s) := by
          unfold arraysBody
          rw [lib_none (by rw [h6]; decide)]
          exact arrays_other (by rintro (h | h | h | h) <;> rw [h6] at h <;> cases h)
        obtain ⟨e, ha⟩ := ha
        rw [altMut_skip ⟨e, by simp only [ha]; rfl⟩]
        refine altMut_cost ?_ fun e s' _ _ => altMut_quiet (by simp) s'
        exact Cost.stateless (PCost.map (c := fun b => M.f (.string b.value))
          (PCost.exact bos_exact fun _ _ h => objectString_cost h) fun _ => Nat.le_refl _) hs (Nat.le_refl _)
      · refine altMut_cost (harr s hs) fun e s1 _ _ => altMut_quiet ?_ s1
        intro p hp s
        simp only [List.mem_cons, List.not_mem_nil, or_false] at hp
        subst hp
        exact objectString_mismatch h6 s
  · refine Cost.ret hs ?_
    have := M.pot_insert s.objects id v
    unfold Measure.pot at *
    simp only at *
    omega

end

theorem recAt_cost (M : Measure) (n : Nat) :
    CostC M (recAt n).classes ∧ CostR M (recAt n).referenceable := by
  induction n with
  | zero =>
    exact ⟨⟨fun s i hs => Cost.other hs (by omega) (by intro _ _ e; cases e), fun _ _ _ _ => rfl⟩,
      fun s i hs => Cost.other hs (by omega) (by intro _ _ e; cases e)⟩
  | succ n ih =>
    refine ⟨⟨classesBody_cost ih.1 ih.2, fun s i h h1 => ?_⟩,
      referenceableBody_cost ih.1 ih.2 (recAt_mono n).1 (recAt_mono n).2⟩
    obtain ⟨e, he⟩ := classesBody_other (classes := (recAt n).classes)
      (referenceable := (recAt n).referenceable) (s := s) h h1
    unfold recAt
    simp only [he]

theorem parseClasses_cost (M : Measure) : CostC M parseClasses :=
  ⟨fun s i => (recAt_cost M (i.length + 1)).1.cost s i,
   fun s i => (recAt_cost M (i.length + 1)).1.quiet s i⟩

theorem parseReferenceable_cost (M : Measure) : CostR M parseReferenceable :=
  fun s i => (recAt_cost M (i.length + 1)).2 s i

/-! ## Messages -/

theorem callArray_cost (M : Measure) (root : Option Nat) : CostP M (fun vs => M.g vs) (parseCallArray root) := by
  intro s i hs
  unfold parseCallArray
  generalize hN : M.pot s + M.len i = n
  refine library_bind hs (Nat.le_of_eq hN) fun _ s i hs hn => ?_
  refine Cost.bind (c := fun a => 1 + M.g a.2) ((arraySingleObject_cost (parseClasses_cost M)
    (parseReferenceable_cost M) s i hs).weaken 0 (by omega) fun _ => by omega) fun ⟨id, vs⟩ s i hs h => ?_
  simp only at h ⊢
  split
  · exact Cost.failure hs (by omega)
  · exact Cost.ret hs (by omega)

/-- After the record loop: the credit is bounded, and the position has not moved back. -/
theorem referenceables_cost (M : Measure) (fuel : Nat) (s : St) (i : Bytes) (hs : s.classes = []) :
    (M.pot (referenceablesLoop fuel s i).2 ≤ M.pot s + M.len i ∧ (referenceablesLoop fuel s i).2.classes = []) ∧
    ∀ r a, (referenceablesLoop fuel s i).1 = .ok r a → M.len r ≤ M.pot s + M.len i := by
  induction fuel generalizing s i with
  | zero => exact ⟨⟨by simp only [referenceablesLoop]; omega, hs⟩, (fun _ _ e => by cases e)⟩
  | succ fuel ih =>
    have h := parseReferenceable_cost M s i hs
    unfold referenceablesLoop
    split
    · rename_i r _ s' heq
      rw [heq] at h
      have h1 := h.2 _ _ rfl
      have h2 := ih s' r h.1.2
      simp only at h1
      exact ⟨⟨by omega, h2.1.2⟩, fun r' a e => by have := h2.2 r' a e; omega⟩
    all_goals rename_i heq; rw [heq] at h
    · exact ⟨h.1, (fun _ _ e => by cases e; omega)⟩
    all_goals exact ⟨h.1, (fun _ _ e => by cases e)⟩

/-! ## Inline values -/

/-- The measure of a value with code. -/
def Measure.code (M : Measure) (v : ValueWithCode) : Nat := M.f v.intoValue

theorem codedValue_cost {v : Value} {b : Bytes} (h : IsCodedValue v b) : M.f v ≤ M.weight * b.length := by
  rcases h with ⟨t, b', h, rfl⟩ | ⟨rfl, rfl⟩ | ⟨s, rfl, b', h, rfl⟩
  · exact Nat.le_trans (M.prim t v b' h) (Nat.mul_le_mul_left _ (by simp))
  · simpa using M.null_le
  · have := isString_length h
    exact Nat.le_trans (M.string s) (Nat.mul_le_mul_left _ (by simp; omega))

theorem Measure.code_le (M : Measure) {i r : Bytes} {v : ValueWithCode} (h : ValueWithCode.parse i = .ok r v) :
    M.code v + M.len r ≤ M.len i :=
  PCost.exact (M := M) (c := M.f) codedValue_exact (fun _ _ h => codedValue_cost h) r v.intoValue
    (Outcome.map_ok.mpr ⟨v, h, rfl⟩)

/-- The measure of inline arguments. -/
def Measure.inline (M : Measure) (a : Option (List ValueWithCode)) : Nat :=
  M.g (ArrayOfValueWithCode.intoValues (a.getD []))

theorem arrayOfValueWithCode_cost (M : Measure) (i : Bytes) :
    PCost M (M.len i) (fun l => M.g (ArrayOfValueWithCode.intoValues l)) (ArrayOfValueWithCode.parse i) := by
  unfold ArrayOfValueWithCode.parse lengthCount
  refine PCost.bind (c := fun _ => 0) (PCost.good (m := 0) (length_good (List.suffix_refl i)) (by omega)
    fun _ _ => by omega) fun n r hr => ?_
  intro r' l e
  have : ∀ (n : Nat) (i r : Bytes) (l : List ValueWithCode), count ValueWithCode.parse n i = .ok r l →
      M.g (ArrayOfValueWithCode.intoValues l) + M.len r ≤ M.len i := by
    intro n
    induction n with
    | zero => intro i r l h; unfold count at h; cases h; simp [ArrayOfValueWithCode.intoValues]
    | succ n ih =>
      intro i r l h
      unfold count at h
      cases hpi : ValueWithCode.parse i with
      | ok r' v =>
        rw [hpi] at h
        simp only [Outcome.bind] at h
        cases hc : count ValueWithCode.parse n r' with
        | ok r'' vs' =>
          rw [hc] at h
          simp only [Outcome.map, Outcome.ok.injEq] at h
          obtain ⟨rfl, rfl⟩ := h
          have h1 := ih _ _ _ hc
          have h3 := M.code_le hpi
          have h4 := M.g_cons_le v.intoValue (ArrayOfValueWithCode.intoValues vs')
          unfold Measure.code at h3
          unfold ArrayOfValueWithCode.intoValues at *
          rw [List.map_cons]
          omega
        | _ => rw [hc] at h; simp [Outcome.map] at h
      | _ => rw [hpi] at h; simp [Outcome.bind] at h
  have := this n r r' l e
  show M.g _ + _ ≤ _
  omega

theorem codedString_cost (M : Measure) {n k : Nat} {i : Bytes} (h : k + M.len i ≤ n) :
    PCost M n (fun s => k + M.key s) (StringValueWithCode.parse i) := by
  intro r s e
  have h1 : M.key s + M.len r ≤ M.len i := PCost.exact (M := M) (c := M.key) codedString_exact (fun s b hb => by
    obtain ⟨b', hb, rfl⟩ := hb
    have h1 := isString_length hb
    exact Nat.le_trans (M.key_le s) (Nat.mul_le_mul_left _ (by simp; omega))) r s e
  show k + M.key s + M.len r ≤ n
  omega

/-- The names of a method call. -/
def Measure.callNames (M : Measure) (name type : Str) (context : Option Str) : Nat :=
  M.keys (name :: type :: context.toList)

theorem Measure.keys_toList (M : Measure) (c : Option Str) : M.keys c.toList = (c.map M.key).getD 0 := by
  cases c <;> simp [Measure.keys]

theorem methodCallRecord_cost (M : Measure) (i : Bytes) :
    PCost M (M.len i) (fun c => M.callNames c.methodName c.typeName c.callContext + M.inline c.args)
      (BinaryMethodCall.parse i) := by
  unfold BinaryMethodCall.parse
  have z : ∀ {α : Type} {w : Bytes} {V : α → Prop} {k : Nat} {x : Outcome Error α} {j : Bytes},
      PG w V j.length k x → M.len j ≤ M.len i → PCost M (M.len i) (fun _ => 0) x :=
    fun h hj => PCost.good (m := 0) h (by omega) fun _ _ => by omega
  refine PCost.bind (z (recordType_good _ (List.suffix_refl i)) (by omega)) fun _ r h => ?_
  refine PCost.bind (z (messageFlags_good (List.suffix_refl r)) (by omega)) fun flags r h => ?_
  refine PCost.bind (codedString_cost M (k := 0) (by omega)) fun name r h => ?_
  refine PCost.bind (codedString_cost M (k := M.key name) (by omega)) fun type r h => ?_
  refine PCost.bind (c := fun c => M.callNames name type c) (PCost.cond (fun r' c e => ?_) (by
    simp [Measure.callNames, Measure.keys]; omega)) fun context r h => ?_
  · have := codedString_cost M (k := M.key name + M.key type) (i := r) (Nat.le_refl _) r' c e
    simp only [Measure.callNames, Measure.keys, Option.toList_some, List.foldr_cons, List.foldr_nil] at this ⊢
    omega
  generalize hk : M.callNames name type context = k at h
  refine PCost.bind (c := fun a => k + M.inline a) (PCost.cond (fun r' a e => ?_) (by
    simp [Measure.inline, ArrayOfValueWithCode.intoValues]; omega)) fun a r h => ?_
  · have := arrayOfValueWithCode_cost M r r' a e
    simp only [Measure.inline, Option.getD_some] at this ⊢
    omega
  · exact PCost.ret (by rw [hk]; exact h)

theorem methodReturnRecord_cost (M : Measure) (i : Bytes) :
    PCost M (M.len i) (fun c => M.keys c.callContext.toList + M.g (c.returnValue.toList.map ValueWithCode.intoValue) +
      M.inline c.args)
      (BinaryMethodReturn.parse i) := by
  unfold BinaryMethodReturn.parse
  have z : ∀ {α : Type} {w : Bytes} {V : α → Prop} {k m : Nat} {x : Outcome Error α} {j : Bytes},
      PG w V j.length k x → m + M.len j ≤ M.len i → PCost M (M.len i) (fun _ => m) x :=
    fun {α w V k m x j} h hj => PCost.good (m := m) h (by omega) fun _ _ => by omega
  refine PCost.bind (z (m := 0) (recordType_good _ (List.suffix_refl i)) (by omega)) fun _ r h => ?_
  refine PCost.bind (z (m := 0) (messageFlags_good (List.suffix_refl r)) (by omega)) fun flags r h => ?_
  refine PCost.bind (c := fun v => M.g (v.toList.map ValueWithCode.intoValue))
    (PCost.cond (fun r' a e => ?_) (by simp; omega)) fun v r h => ?_
  · have h3 := M.code_le e
    have h4 := M.g_cons_le a.intoValue []
    simp only [Option.toList_some, List.map_cons, List.map_nil]
    unfold Measure.code at h3
    simp only [M.g_nil] at h4
    omega
  generalize hk : M.g (v.toList.map ValueWithCode.intoValue) = k at h
  refine PCost.bind (c := fun c => M.keys c.toList + k) (PCost.cond (fun r' c e => ?_) (by
    simp [Measure.keys]; omega)) fun context r h => ?_
  · have := codedString_cost M (k := k) (i := r) (Nat.le_refl _) r' c e
    simp only [Measure.keys, Option.toList_some, List.foldr_cons, List.foldr_nil] at this ⊢
    omega
  generalize hc : M.keys context.toList = kc at h
  refine PCost.bind (c := fun a => kc + k + M.inline a) (PCost.cond (fun r' a e => ?_) (by
    simp [Measure.inline, ArrayOfValueWithCode.intoValues]; omega)) fun a r h => ?_
  · have := arrayOfValueWithCode_cost M r r' a e
    simp only [Measure.inline, Option.getD_some] at this ⊢
    omega
  · exact PCost.ret (by rw [hk, hc]; exact h)

/-! ## The whole message -/

theorem parseArgs_cost {flags : BitVec 32} {callArray : Option (List Value)}
    {inline : Option (List ValueWithCode)} {args : Option (List Value)}
    (h : parseArgs flags callArray inline = some args) :
    M.g (args.getD []) ≤ M.g (callArray.getD []) + M.inline inline := by
  unfold parseArgs at h
  split at h
  · split at h
    · cases h; simp
    · cases h
  · split at h
    · split at h
      · rename_i vs rest
        cases h
        simp only [Option.getD_some]
        have h1 := M.le_left (M.f (.array vs)) (M.g rest)
        rw [M.array] at h1
        have h2 := M.le_arr (M.g vs)
        rw [M.g_cons, M.array]
        unfold Measure.g at *
        omega
      · cases h
    · cases h
      cases inline <;> simp [Measure.inline, ArrayOfValueWithCode.intoValues]

/-- What the values of a message are bounded by. -/
def Measure.message (M : Measure) : MethodCall ⊕ MethodReturn → Nat
  | .inl c => M.callNames c.methodName c.typeName c.callContext + M.g (c.args.getD [])
  | .inr r => M.keys r.callContext.toList + M.g (r.returnValue.toList ++ r.args.getD [])

/-- The values of a method record are bounded; a record attempt that fails with a recoverable error
leaves objects and classes alone. -/
def Bounded (M : Measure) (n : Nat) (s : St) (c : α → Nat) (x : Res α) : Prop :=
  (∀ r a, x.1 = .ok r a → c a ≤ n) ∧ (∀ e, x.1 = .error e → x.2.objects = s.objects ∧ x.2.classes = s.classes)

theorem optCallArray_cost (M : Measure) (root : Option Nat) (s : St) (i : Bytes) (hs : s.classes = []) :
    (∀ r a, (optS (parseCallArray root) s i).1 = .ok r a → M.g (a.getD []) ≤ M.pot s + M.len i) ∧
    ∀ e, (optS (parseCallArray root) s i).1 ≠ .error e := by
  have h := callArray_cost M root s i hs
  unfold optS
  split
  · exact ⟨(fun _ _ e => by cases e; simp), (by intro _ e; cases e)⟩
  · rename_i hne
    generalize hx : parseCallArray root s i = x at h hne
    obtain ⟨o, s'⟩ := x
    cases o with
    | ok r vs =>
      refine ⟨fun _ _ e => ?_, (by intro _ e; cases e)⟩
      simp only [Res.map, Outcome.map, Outcome.ok.injEq] at e
      obtain ⟨rfl, rfl⟩ := e
      have := h.2 _ _ rfl
      simp only [Option.getD_some] at this ⊢
      omega
    | error e => exact absurd rfl (hne e s')
    | _ => exact ⟨(fun _ _ e => by simp [Res.map, Outcome.map] at e), (by intro _ e; simp [Res.map, Outcome.map] at e)⟩

theorem methodCall_cost (M : Measure) (root : Option Nat) (s : St) (i : Bytes) (hs : s.classes = []) :
    Bounded M (M.pot s + M.len i) s (fun c => M.callNames c.methodName c.typeName c.callContext + M.g (c.args.getD []))
      (parseMethodCall root s i) := by
  unfold parseMethodCall
  have hl := library_quiet s i
  generalize parseBinaryLibrary s i = x at hl
  obtain ⟨o, s1⟩ := x
  cases o with
  | ok r1 u =>
    have hl1 := hl.1
    have hl2 := M.len_le (hl.2 r1 u rfl)
    have hp := methodCallRecord_cost M r1
    simp only [Res.bind, lift]
    cases hm : BinaryMethodCall.parse r1 with
    | ok r2 c =>
      have hp2 := hp _ _ hm
      simp only
      have ho := optCallArray_cost M root s1 r2 (hl1.2.trans hs)
      generalize optS (parseCallArray root) s1 r2 = y at ho
      obtain ⟨o, s2⟩ := y
      cases o with
      | ok r3 ca =>
        have ho := ho.1 _ _ rfl
        simp only
        split
        · rename_i args hargs
          have := parseArgs_cost (M := M) hargs
          refine ⟨fun r a e => ?_, (by intro _ e; cases e)⟩
          cases e
          have := M.pot_objects hl1.1
          simp only at *
          omega
        · exact ⟨(by intro _ _ e; cases e), (by intro _ e; cases e)⟩
      | error e => exact absurd rfl (ho.2 e)
      | _ => exact ⟨(by intro _ _ e; cases e), (by intro _ e; cases e)⟩
    | _ => exact ⟨(by intro _ _ e; cases e), fun _ _ => hl1⟩
  | _ => exact ⟨(by intro _ _ e; cases e), fun _ _ => hl.1⟩

theorem methodReturn_cost (M : Measure) (root : Option Nat) (s : St) (i : Bytes) (hs : s.classes = []) :
    Bounded M (M.pot s + M.len i) s (fun c => M.keys c.callContext.toList + M.g (c.returnValue.toList ++ c.args.getD []))
      (parseMethodReturn root s i) := by
  unfold parseMethodReturn
  have hl := library_quiet s i
  generalize parseBinaryLibrary s i = x at hl
  obtain ⟨o, s1⟩ := x
  cases o with
  | ok r1 u =>
    have hl1 := hl.1
    have hl2 := M.len_le (hl.2 r1 u rfl)
    have hp := methodReturnRecord_cost M r1
    simp only [Res.bind, lift]
    cases hm : BinaryMethodReturn.parse r1 with
    | ok r2 c =>
      have hp2 := hp _ _ hm
      simp only
      have ho := optCallArray_cost M root s1 r2 (hl1.2.trans hs)
      generalize optS (parseCallArray root) s1 r2 = y at ho
      obtain ⟨o, s2⟩ := y
      cases o with
      | ok r3 ca =>
        have ho := ho.1 _ _ rfl
        simp only
        split
        · rename_i args hargs
          have := parseArgs_cost (M := M) hargs
          refine ⟨fun r a e => ?_, (by intro _ e; cases e)⟩
          cases e
          have := M.pot_objects hl1.1
          have h1 := M.g_append (c.returnValue.map ValueWithCode.intoValue).toList (args.getD [])
          have h2 := M.op_le (M.g (c.returnValue.map ValueWithCode.intoValue).toList) (M.g (args.getD []))
          have h3 : (c.returnValue.map ValueWithCode.intoValue).toList =
            c.returnValue.toList.map ValueWithCode.intoValue := by cases c.returnValue <;> rfl
          simp only at *
          rw [h3] at h1 h2 ⊢
          omega
        · exact ⟨(by intro _ _ e; cases e), (by intro _ e; cases e)⟩
      | error e => exact absurd rfl (ho.2 e)
      | _ => exact ⟨(by intro _ _ e; cases e), (by intro _ e; cases e)⟩
    | _ => exact ⟨(by intro _ _ e; cases e), fun _ _ => hl1⟩
  | _ => exact ⟨(by intro _ _ e; cases e), fun _ _ => hl.1⟩

theorem method_cost (M : Measure) (root : Option Nat) (s : St) (i : Bytes) (hs : s.classes = []) :
    Bounded M (M.pot s + M.len i) s M.message (parseMethodCallOrReturn root s i) := by
  have h1 := methodCall_cost M root s i hs
  unfold parseMethodCallOrReturn
  simp only [altMut]
  generalize hx : parseMethodCall root s i = x at h1
  obtain ⟨o, s1⟩ := x
  cases o with
  | ok r c =>
    simp only [Res.map, hx, Outcome.map]
    exact ⟨(fun _ _ e => by cases e; exact h1.1 _ _ rfl), (by intro _ e; cases e)⟩
  | error e =>
    have hs1 := h1.2 e rfl
    have h2 := methodReturn_cost M root s1 i (hs1.2.trans hs)
    simp only [Res.map, hx, Outcome.map]
    generalize hy : parseMethodReturn root s1 i = y at h2
    obtain ⟨o, s2⟩ := y
    rw [M.pot_objects hs1.1] at h2
    cases o with
    | ok r c => exact ⟨(fun _ _ e => by cases e; exact h2.1 _ _ rfl), (by intro _ e; cases e)⟩
    | error e => exact ⟨(by intro _ _ e; cases e), fun _ _ => ⟨(h2.2 e rfl).1.trans hs1.1, (h2.2 e rfl).2.trans hs1.2⟩⟩
    | _ => exact ⟨(by intro _ _ e; cases e), (by intro _ e; cases e)⟩
  | _ =>
    simp only [Res.map, hx, Outcome.map]
    exact ⟨(by intro _ _ e; cases e), (by intro _ e; cases e)⟩

/-- The measure of everything in an accepted message. -/
theorem message_names_cost (M : Measure) {w : Bytes} {m : RemotingMessage} (h : deserialize w = .ok m) :
    M.keys (messageNames m) + M.g (messageValues m) ≤ 2 * M.len w := by
  unfold deserialize at h
  unfold parseRemotingMessage lift at h
  have hh := header_good (List.suffix_refl w)
  cases hp : SerializationHeader.parse w with
  | ok i hd =>
    rw [hp] at h hh
    have hlen := M.len_lt1 hh.2.1
    simp only [Res.bind] at h
    have h0 : M.pot St.init = 0 := rfl
    have hr := referenceables_cost M (i.length + 1) St.init i rfl
    unfold parseReferenceables at h
    generalize referenceablesLoop (i.length + 1) St.init i = x at h hr
    obtain ⟨o, s1⟩ := x
    cases o with
    | ok i1 u =>
      have hr1 := hr.1.1
      have hc1 := hr.1.2
      have hr2 := hr.2 _ _ rfl
      simp only at h hr1
      have hm := method_cost M hd.rootId s1 i1 hc1
      unfold optS at h
      generalize parseMethodCallOrReturn hd.rootId s1 i1 = y at h hm
      obtain ⟨o, s2⟩ := y
      cases o with
      | ok i2 mm =>
        have hm1 := hm.1 _ _ rfl
        simp only [Res.map, Outcome.map] at h
        generalize referenceablesLoop (i2.length + 1) s2 i2 = z at h
        obtain ⟨o, s3⟩ := z
        cases o with
        | ok i3 u =>
          simp only at h
          cases hme : MessageEnd.parse i3 with
          | ok i4 u =>
            rw [hme] at h
            simp only at h
            split at h
            · rename_i r m' heq
              cases h
              split at heq
              · unfold selectRoot at heq
                cases mm with
                | inl c => simp only at heq; cases heq; simp only [Measure.message, Measure.callNames] at hm1; simp only [messageValues, messageNames]; omega
                | inr c => simp only at heq; cases heq; simp only [Measure.message, Measure.callNames] at hm1; simp only [messageValues, messageNames]; omega
              · cases heq
            all_goals cases h
          | _ => rw [hme] at h; cases h
        | _ => cases h
      | error e =>
        have hm2 := M.pot_objects (hm.2 e rfl).1
        have hc2 := (hm.2 e rfl).2.trans hc1
        simp only at h hm2
        have hr3 := referenceables_cost M (i1.length + 1) s2 i1 hc2
        generalize referenceablesLoop (i1.length + 1) s2 i1 = z at h hr3
        obtain ⟨o, s3⟩ := z
        cases o with
        | ok i3 u =>
          have hr4 := hr3.1.1
          simp only at h hr4
          cases hme : MessageEnd.parse i3 with
          | ok i4 u =>
            rw [hme] at h
            simp only at h
            split at h
            · rename_i r m' heq
              cases h
              split at heq
              · unfold selectRoot at heq
                simp only at heq
                split at heq
                · split at heq
                  · rename_i v hv
                    cases heq
                    have := M.pot_erase _ _ _ hv
                    have h5 := M.g_cons_le v []
                    simp only [messageValues, messageNames, M.keys_nil]
                    rw [M.g_nil] at h5
                    unfold Measure.pot at *
                    omega
                  · cases heq
                · cases heq
                  have := M.g_cons_le .null []
                  have := M.null_le
                  simp only [messageValues, messageNames, M.keys_nil, M.g_nil] at *
                  omega
              · cases heq
            all_goals cases h
          | _ => rw [hme] at h; cases h
        | _ => cases h
      | _ => cases h
    | _ => cases h
  | _ => rw [hp] at h; cases h

theorem message_cost (M : Measure) {w : Bytes} {m : RemotingMessage} (h : deserialize w = .ok m) :
    M.g (messageValues m) ≤ 2 * M.len w := by
  have := message_names_cost M h
  omega

/-! ## Without a second attempt -/

/-- If the record loop ends at a byte no record starts with, nothing is counted twice. -/
theorem loop_tight (M : Measure) (fuel : Nat) (s : St) (hs : s.classes = []) (i r : Bytes) (u : Unit) (s' : St)
    (h : referenceablesLoop fuel s i = (.ok r u, s')) (hr : StopByte r) :
    M.pot s' + M.len r ≤ M.pot s + M.len i := by
  induction fuel generalizing s i with
  | zero => cases h
  | succ fuel ih =>
    have hc := parseReferenceable_cost M s i hs
    unfold referenceablesLoop at h
    split at h
    · rename_i r1 _ s1 heq
      rw [heq] at hc
      have h1 := hc.2 _ _ rfl
      have h2 := ih s1 hc.1.2 r1 h
      simp only at h1
      omega
    · rename_i heq
      cases h
      obtain ⟨e, he⟩ := referenceable_stop (s := s) hr
      rw [he] at heq
      cases heq
      exact Nat.le_refl _
    all_goals cases h

theorem isHeader_pos {root : Nat} {b : Bytes} (h : IsHeader root b) : 0 < b.length := by
  obtain ⟨_, _, _, _, rfl⟩ := h
  simp

theorem message_names_tight (M : Measure) {w : Bytes} {m : RemotingMessage} (h : Message w m) :
    M.keys (messageNames m) + M.g (messageValues m) ≤ M.len w := by
  have h0 : M.pot St.init = 0 := rfl
  cases h with
  | @mk root hd i E i1 _ _ hh hrec htail =>
    cases htail with
    | @value v _ hv =>
      obtain ⟨s1, h1, hE1, hs1⟩ := loops hrec (stop11 []) rfl abs_init
      have ht := loop_tight M _ _ rfl _ _ _ _ h1 (stop11 [])
      have happ : i.length + 1 ≤ (hd ++ i).length := by
        have := isHeader_pos hh
        rw [List.length_append]; omega
      have hlen := M.len_lt1 happ
      rcases hv with ⟨_, rfl⟩ | ⟨_, hv⟩
      · have := M.g_cons_le .null []
        have := M.null_le
        simp only [messageValues, messageNames, M.keys_nil, M.g_nil] at *
        omega
      · have hv' : s1.objects.get? root = some v := by rw [← hE1] at hv; exact hv
        have := M.pot_erase _ _ _ hv'
        have h5 := M.g_cons_le v []
        simp only [messageValues, messageNames, M.keys_nil]
        rw [M.g_nil] at h5
        unfold Measure.pot at *
        omega
    | method hm hrec2 =>
      rename_i m _ _ _
      have hst : StopByte i1 := by
        cases hm with
        | call _ hb => exact stopByte_of 21 (methodCall_head hb) (by simp)
        | «return» _ hb => exact stopByte_of 22 (methodReturn_head hb) (by simp)
      obtain ⟨s1, h1, hE1, hs1⟩ := loops hrec hst rfl abs_init
      have ht := loop_tight M _ _ rfl _ _ _ _ h1 hst
      obtain ⟨s2, h2, hE2, hs2⟩ := method_complete hm hs1 hE1
      have hc := (method_cost M (rootOf root) s1 i1 hs1).1 _ _ (by rw [h2])
      have hlen := M.len_le (a := i) (b := hd ++ i) (by rw [List.length_append]; omega)
      cases m with
      | inl c => simp only [Measure.message, Measure.callNames] at hc; simp only [messageValues, messageNames, methodMessage]; omega
      | inr c => simp only [Measure.message, Measure.callNames] at hc; simp only [messageValues, messageNames, methodMessage]; omega

theorem message_tight (M : Measure) {w : Bytes} {m : RemotingMessage} (h : Message w m) :
    M.g (messageValues m) ≤ M.len w := by
  have := message_names_tight M h
  omega

end Nrbf
