import Verif.TestsSerde
import Verif.Props.Messages
import Verif.Spec.Decode

/-! # C40 - C44, C51 - C54: deserialising into Rust types -/

set_option autoImplicit false

namespace Nrbf

open Spec (InSigned)

variable [Platform] [FloatLib]

/-! ## Specification -/

/-- Values and types of the same number, and what the values decode to at these types. -/
inductive Pointwise : List Value → List Ty → List Dyn → Prop
  | nil : Pointwise [] [] []
  | cons {v vs T Ts d ds} : decode v T = .ok d → Pointwise vs Ts ds → Pointwise (v :: vs) (T :: Ts) (d :: ds)

/-- Values that all decode at the same type. -/
def AllDecode (T : Ty) (vs : List Value) (ds : List Dyn) : Prop := Pointwise vs (List.replicate vs.length T) ds

theorem Pointwise.length {vs : List Value} {Ts : List Ty} {ds : List Dyn} (h : Pointwise vs Ts ds) :
    vs.length = Ts.length ∧ ds.length = Ts.length := by
  induction h with
  | nil => exact ⟨rfl, rfl⟩
  | cons _ _ ih => simp [ih.1, ih.2]

/-! ## Sequences -/

theorem itemDesers_eq (vs : List Value) : itemDesers vs = vs.map decode := by
  induction vs with
  | nil => rw [itemDesers]; rfl
  | cons v vs ih => rw [itemDesers, ih]; rfl

theorem arrayNext_nil (T : Ty) : arrayNext [] T = .ok (none, []) := rfl

theorem arrayNext_cons (c : Child) (cs : List Child) (T : Ty) :
    arrayNext (c :: cs) T = match c T with | .ok d => .ok (some d, cs) | .error e => .error e := rfl

/-- `Vec<T>` over an array reads everything. -/
theorem readAll_array {T : Ty} {vs : List Value} {ds : List Dyn} {fuel : Nat} (hf : vs.length < fuel)
    {rest : List Child} :
    readAll arrayNext T fuel (vs.map decode) = .ok (ds, rest) ↔ AllDecode T vs ds ∧ rest = [] := by
  induction vs generalizing fuel ds with
  | nil =>
    cases fuel with
    | zero => simp at hf
    | succ fuel =>
      simp only [List.map_nil, readAll, arrayNext_nil, Except.ok.injEq, Prod.mk.injEq]
      constructor
      · rintro ⟨rfl, rfl⟩; exact ⟨.nil, rfl⟩
      · rintro ⟨h, rfl⟩; cases h; exact ⟨rfl, rfl⟩
  | cons v vs ih =>
    cases fuel with
    | zero => simp at hf
    | succ fuel =>
      simp only [List.map_cons, readAll, arrayNext_cons]
      cases hv : decode v T with
      | error e =>
        simp only [reduceCtorEq, false_iff]
        rintro ⟨h, _⟩
        cases h with
        | cons h _ => rw [hv] at h; cases h
      | ok d =>
        simp only
        have hf' : vs.length < fuel := by simp only [List.length_cons] at hf; omega
        constructor
        · intro h
          split at h
          · rename_i ds' s' heq
            simp only [Except.ok.injEq, Prod.mk.injEq] at h
            obtain ⟨rfl, rfl⟩ := h
            obtain ⟨h1, rfl⟩ := (ih hf').mp heq
            exact ⟨.cons hv h1, rfl⟩
          · cases h
        · rintro ⟨h, rfl⟩
          cases h with
          | cons h1 h2 =>
            rw [hv] at h1; cases h1
            rw [(ih hf').mpr ⟨h2, rfl⟩]

theorem readEach_array {Ts : List Ty} {vs : List Value} {ds : List Dyn} {rest : List Child} :
    readEach arrayNext Ts (vs.map decode) = .ok (ds, rest) ↔
      Ts.length ≤ vs.length ∧ Pointwise (vs.take Ts.length) Ts ds ∧ rest = (vs.drop Ts.length).map decode := by
  induction Ts generalizing vs ds with
  | nil =>
    simp only [readEach, Except.ok.injEq, Prod.mk.injEq]
    constructor
    · rintro ⟨rfl, rfl⟩; exact ⟨Nat.zero_le _, .nil, rfl⟩
    · rintro ⟨_, h, rfl⟩; cases h; exact ⟨rfl, rfl⟩
  | cons T Ts ih =>
    cases vs with
    | nil => simp [readEach, arrayNext]
    | cons v vs =>
      simp only [List.map_cons, readEach, arrayNext_cons]
      cases hv : decode v T with
      | error e =>
        simp only [reduceCtorEq, false_iff]
        rintro ⟨_, h, _⟩
        cases h with
        | cons h _ => rw [hv] at h; cases h
      | ok d =>
        simp only
        constructor
        · intro h
          split at h
          · rename_i ds' s' heq
            simp only [Except.ok.injEq, Prod.mk.injEq] at h
            obtain ⟨rfl, rfl⟩ := h
            obtain ⟨h0, h1, rfl⟩ := ih.mp heq
            exact ⟨by simpa using h0, .cons hv h1, rfl⟩
          · cases h
        · rintro ⟨h0, h, rfl⟩
          cases h with
          | cons h1 h2 =>
            rw [hv] at h1; cases h1
            rw [ih.mpr ⟨by simpa using h0, h2, rfl⟩]

theorem visitArray_all {T : Ty} {vs : List Value} {ds : List Dyn} :
    visitArraySeq (.all T) (vs.map decode) = .ok ds ↔ AllDecode T vs ds := by
  unfold visitArraySeq
  simp only [SeqPlan.run, List.length_map]
  constructor
  · intro h
    split at h
    · rename_i ds' rest heq
      obtain ⟨h1, rfl⟩ := (readAll_array (by omega)).mp heq
      simp only [arrayEnd, List.length_nil, if_true, Except.ok.injEq] at h
      subst h; exact h1
    · cases h
  · intro h
    rw [(readAll_array (by omega)).mpr ⟨h, rfl⟩]
    rfl

theorem visitArray_each {Ts : List Ty} {vs : List Value} {ds : List Dyn} :
    visitArraySeq (.each Ts) (vs.map decode) = .ok ds ↔ Pointwise vs Ts ds := by
  unfold visitArraySeq
  simp only [SeqPlan.run, List.length_map]
  constructor
  · intro h
    split at h
    · rename_i ds' rest heq
      obtain ⟨h0, h1, rfl⟩ := readEach_array.mp heq
      unfold arrayEnd at h
      split at h
      · rename_i u hend
        split at hend
        · rename_i hl
          simp only [List.length_map, List.length_drop] at hl
          cases h
          rwa [List.take_of_length_le (by omega)] at h1
        · cases hend
      · cases h
    · cases h
  · intro h
    have hl := h.length.1
    rw [readEach_array.mpr ⟨by omega, by rwa [List.take_of_length_le (by omega)], rfl⟩]
    simp [arrayEnd, hl]

/-! ## C44: arrays -/

theorem decode_array (vs : List Value) (T : Ty) (h : ∀ T', T ≠ .option T') (h' : ∀ fs, T ≠ .struct fs) :
    decode (.array vs) T = accept T (.visitArray (vs.map decode)) := by
  show (valueDeser (.array vs)).run T = _
  rw [valueDeser, itemDesers_eq]
  cases T <;> first | exact absurd rfl (h _) | exact absurd rfl (h' _) | rfl

theorem map_ok_iff {α β : Type} {x : DeResult α} {f : α → β} {b : β} :
    x.map f = .ok b ↔ ∃ a, x = .ok a ∧ f a = b := by
  cases x <;> simp [Except.map]

/-- **C44** (sequences) An array decodes into a `Vec<T>` exactly if every element decodes into a `T`; the
result are these, in order, none dropped. -/
theorem C44_vec (vs : List Value) (T : Ty) (d : Dyn) :
    decode (.array vs) (.vec T) = .ok d ↔ ∃ ds, d = .seq ds ∧ ds.length = vs.length ∧ AllDecode T vs ds := by
  rw [decode_array _ _ (by simp) (by simp)]
  simp only [accept, map_ok_iff, visitArray_all]
  constructor
  · rintro ⟨ds, h, rfl⟩
    exact ⟨ds, rfl, by rw [h.length.2, ← h.length.1], h⟩
  · rintro ⟨ds, rfl, _, h⟩
    exact ⟨ds, h, rfl⟩

/-- **C44** (fixed length) An array decodes into a tuple or a fixed-size array exactly if it has exactly as
many elements and each decodes into its type. -/
theorem C44_tuple (vs : List Value) (Ts : List Ty) (d : Dyn) :
    decode (.array vs) (.tuple Ts) = .ok d ↔ ∃ ds, d = .tuple ds ∧ vs.length = Ts.length ∧ Pointwise vs Ts ds := by
  rw [decode_array _ _ (by simp) (by simp)]
  simp only [accept, map_ok_iff, visitArray_each]
  constructor
  · rintro ⟨ds, h, rfl⟩
    exact ⟨ds, rfl, h.length.1, h⟩
  · rintro ⟨ds, rfl, _, h⟩
    exact ⟨ds, h, rfl⟩

theorem Pointwise.mem {vs : List Value} {Ts : List Ty} {ds : List Dyn} (h : Pointwise vs Ts ds) (v : Value)
    (hv : v ∈ vs) : ∃ T d, T ∈ Ts ∧ d ∈ ds ∧ decode v T = .ok d := by
  induction h with
  | nil => simp at hv
  | @cons v' vs T Ts d ds h1 h2 ih =>
    rcases List.mem_cons.mp hv with rfl | hv
    · exact ⟨T, d, by simp, by simp, h1⟩
    · obtain ⟨T', d', hT, hd, h⟩ := ih hv
      exact ⟨T', d', by simp [hT], by simp [hd], h⟩

theorem AllDecode.mem {T : Ty} {vs : List Value} {ds : List Dyn} (h : AllDecode T vs ds) (v : Value)
    (hv : v ∈ vs) : ∃ d, d ∈ ds ∧ decode v T = .ok d := by
  obtain ⟨T', d, hT, hd, h⟩ := Pointwise.mem h v hv
  rw [List.eq_of_mem_replicate hT] at h
  exact ⟨d, hd, h⟩

/-- **C44** An element that does not decode is not skipped: the whole sequence fails. -/
theorem C44_element_error (vs : List Value) (T : Ty) (v : Value) (hv : v ∈ vs) (e : DeError)
    (he : decode v T = .error e) : ∃ e', decode (.array vs) (.vec T) = .error e' := by
  cases hd : decode (.array vs) (.vec T) with
  | error e' => exact ⟨e', rfl⟩
  | ok d =>
    obtain ⟨ds, _, _, h⟩ := (C44_vec vs T d).mp hd
    obtain ⟨d, _, h⟩ := h.mem v hv
    rw [he] at h; cases h

/-! ## C40: generic lists -/

/-- `Vec<T>` over a list reads `size` elements, and counts one more if there are fewer. -/
theorem readAll_list {T : Ty} {vs : List Value} {ds : List Dyn} {fuel c n : Nat} (hf : vs.length < fuel)
    (hc : c ≤ n) (a : ListAccess) :
    readAll listNext T fuel ⟨vs.map decode, c, n⟩ = .ok (ds, a) ↔
      AllDecode T (vs.take (n - c)) ds ∧
        a = ⟨(vs.drop (n - c)).map decode, min n (c + vs.length + 1), n⟩ := by
  induction vs generalizing fuel ds c a with
  | nil =>
    cases fuel with
    | zero => simp at hf
    | succ fuel =>
      by_cases hcn : c < n
      · have : min n (c + 1) = c + 1 := by omega
        simp only [List.map_nil, readAll, listNext, if_pos hcn, arrayNext_nil, Except.ok.injEq, Prod.mk.injEq,
          List.take_nil, List.drop_nil, List.length_nil, Nat.add_zero, this]
        constructor
        · rintro ⟨rfl, rfl⟩; exact ⟨.nil, rfl⟩
        · rintro ⟨h, rfl⟩; cases h; exact ⟨rfl, rfl⟩
      · have : min n (c + 1) = c := by omega
        simp only [List.map_nil, readAll, listNext, if_neg hcn, Except.ok.injEq, Prod.mk.injEq,
          List.take_nil, List.drop_nil, List.length_nil, Nat.add_zero, this]
        constructor
        · rintro ⟨rfl, rfl⟩; exact ⟨.nil, rfl⟩
        · rintro ⟨h, rfl⟩; cases h; exact ⟨rfl, rfl⟩
  | cons v vs ih =>
    cases fuel with
    | zero => simp at hf
    | succ fuel =>
      by_cases hcn : c < n
      · obtain ⟨m, hm⟩ : ∃ m, n - c = m + 1 := ⟨n - c - 1, by omega⟩
        have hm' : n - (c + 1) = m := by omega
        have hmin : c + 1 + vs.length + 1 = c + (v :: vs).length + 1 := by simp; omega
        have hf' : vs.length < fuel := by simp only [List.length_cons] at hf; omega
        simp only [List.map_cons, readAll, listNext, if_pos hcn, arrayNext_cons, hm, List.take_succ_cons,
          List.drop_succ_cons]
        cases hv : decode v T with
        | error e =>
          simp only [reduceCtorEq, false_iff]
          rintro ⟨h, _⟩
          cases h with
          | cons h _ => rw [hv] at h; cases h
        | ok d =>
          simp only
          constructor
          · intro h
            split at h
            · rename_i ds' s' heq
              simp only [Except.ok.injEq, Prod.mk.injEq] at h
              obtain ⟨rfl, rfl⟩ := h
              have := (ih hf' (c := c + 1) (by omega) _).mp heq
              rw [hm', hmin] at this
              exact ⟨.cons hv this.1, this.2⟩
            · cases h
          · rintro ⟨h, rfl⟩
            cases h with
            | cons h1 h2 =>
              rw [hv] at h1; cases h1
              have := (ih hf' (c := c + 1) (by omega) _).mpr (And.intro (by rw [hm']; exact h2) rfl)
              rw [hm', hmin] at this
              rw [this]
      · have h0 : n - c = 0 := by omega
        have : min n (c + (v :: vs).length + 1) = c := by simp; omega
        simp only [readAll, listNext, if_neg hcn, Except.ok.injEq, Prod.mk.injEq, h0, this, List.take_zero,
          List.drop_zero]
        constructor
        · rintro ⟨rfl, rfl⟩; exact ⟨.nil, rfl⟩
        · rintro ⟨h, rfl⟩; cases h; exact ⟨rfl, rfl⟩

theorem readEach_list {Ts : List Ty} {vs : List Value} {ds : List Dyn} {c n : Nat} (hc : c ≤ n) (a : ListAccess) :
    readEach listNext Ts ⟨vs.map decode, c, n⟩ = .ok (ds, a) ↔
      Ts.length ≤ vs.length ∧ Ts.length ≤ n - c ∧ Pointwise (vs.take Ts.length) Ts ds ∧
        a = ⟨(vs.drop Ts.length).map decode, c + Ts.length, n⟩ := by
  induction Ts generalizing vs ds c a with
  | nil =>
    simp only [readEach, Except.ok.injEq, Prod.mk.injEq]
    constructor
    · rintro ⟨rfl, rfl⟩; exact ⟨Nat.zero_le _, Nat.zero_le _, .nil, rfl⟩
    · rintro ⟨_, _, h, rfl⟩; cases h; exact ⟨rfl, rfl⟩
  | cons T Ts ih =>
    by_cases hcn : c < n
    · cases vs with
      | nil => simp [readEach, listNext, hcn, arrayNext]
      | cons v vs =>
        simp only [List.map_cons, readEach, listNext, if_pos hcn, arrayNext_cons]
        cases hv : decode v T with
        | error e =>
          simp only [reduceCtorEq, false_iff]
          rintro ⟨_, _, h, _⟩
          cases h with
          | cons h _ => rw [hv] at h; cases h
        | ok d =>
          simp only
          have hl : c + 1 + Ts.length = c + (T :: Ts).length := by simp; omega
          constructor
          · intro h
            split at h
            · rename_i ds' s' heq
              simp only [Except.ok.injEq, Prod.mk.injEq] at h
              obtain ⟨rfl, rfl⟩ := h
              obtain ⟨h0, h00, h1, rfl⟩ := (ih (c := c + 1) (by omega) _).mp heq
              exact ⟨by simpa using h0, by simp; omega, .cons hv h1, by rw [hl]; rfl⟩
            · cases h
          · rintro ⟨h0, h00, h, rfl⟩
            cases h with
            | cons h1 h2 =>
              rw [hv] at h1; cases h1
              have h000 : Ts.length ≤ n - (c + 1) := by simp only [List.length_cons] at h00; omega
              have := (ih (c := c + 1) (by omega) _).mpr ⟨by simpa using h0, h000, h2, rfl⟩
              rw [hl] at this
              rw [this]
              rfl
    · simp only [readEach, listNext, if_neg hcn, reduceCtorEq, List.length_cons, false_iff]
      rintro ⟨_, h, _⟩
      omega

theorem visitList_all {T : Ty} {vs : List Value} {ds : List Dyn} {n : Nat} :
    visitListSeq (.all T) (vs.map decode) n = .ok ds ↔ n ≤ vs.length + 1 ∧ AllDecode T (vs.take n) ds := by
  unfold visitListSeq
  simp only [SeqPlan.run, List.length_map]
  constructor
  · intro h
    split at h
    · rename_i ds' a heq
      obtain ⟨h1, rfl⟩ := (readAll_list (by omega) (Nat.zero_le _) _).mp heq
      simp only [listEnd] at h
      split at h
      · rename_i hend
        split at hend
        · cases h
          exact ⟨by omega, h1⟩
        · cases hend
      · cases h
    · cases h
  · rintro ⟨hn, h⟩
    rw [(readAll_list (by omega) (Nat.zero_le _) _).mpr ⟨h, rfl⟩]
    have : min n (0 + vs.length + 1) = n := by omega
    rw [this]
    simp [listEnd]

theorem visitList_each {Ts : List Ty} {vs : List Value} {ds : List Dyn} {n : Nat} :
    visitListSeq (.each Ts) (vs.map decode) n = .ok ds ↔
      n = Ts.length ∧ n ≤ vs.length ∧ Pointwise (vs.take n) Ts ds := by
  unfold visitListSeq
  simp only [SeqPlan.run, List.length_map]
  constructor
  · intro h
    split at h
    · rename_i ds' a heq
      obtain ⟨h0, h00, h1, rfl⟩ := (readEach_list (Nat.zero_le _) _).mp heq
      simp only [listEnd] at h
      split at h
      · rename_i hend
        split at hend
        · cases h
          have : n = Ts.length := by omega
          subst this
          exact ⟨rfl, h0, h1⟩
        · cases hend
      · cases h
    · cases h
  · rintro ⟨rfl, hn, h⟩
    rw [(readEach_list (Nat.zero_le _) _).mpr ⟨hn, by omega, h, rfl⟩]
    simp [listEnd]

/-! ## Objects -/

theorem memberNodes_eq (ms : List (Str × Value)) :
    memberNodes ms = ms.map fun m => (m.1, ⟨m.2, decode m.2, itemsOf m.2⟩) := by
  induction ms with
  | nil => rw [memberNodes]; rfl
  | cons m ms ih => obtain ⟨k, v⟩ := m; rw [memberNodes, ih]; rfl

/-- The members of an object, as they are decoded. -/
def entriesOf (ms : List (Str × Value)) : List (Str × Child) := ms.map fun m => (m.1, decode m.2)

theorem entries_memberNodes (ms : List (Str × Value)) :
    (memberNodes ms).map (fun m => (m.1, m.2.deser)) = entriesOf ms := by
  rw [memberNodes_eq, List.map_map]; rfl

theorem decode_object (cls : Str) (lib : Option Str) (ms : List (Str × Value)) (T : Ty)
    (h : ∀ T', T ≠ .option T') (h' : ∀ fs, T ≠ .struct fs) :
    decode (.object cls lib ms) T = accept T (objectAny cls lib (memberNodes ms)) := by
  show (valueDeser (.object cls lib ms)).run T = _
  rw [valueDeser]
  cases T <;> first | exact absurd rfl (h _) | exact absurd rfl (h' _) | rfl

theorem decode_object_struct (cls : Str) (lib : Option Str) (ms : List (Str × Value)) (fs : List (Str × Ty)) :
    decode (.object cls lib ms) (.struct fs) = (visitFields fs (entriesOf ms)).map .struct := by
  show (valueDeser (.object cls lib ms)).run (.struct fs) = _
  rw [valueDeser, ← entries_memberNodes]
  rfl

/-- Looking up a member by its name. -/
theorem get?_mem {α : Type} {ms : List (Str × α)} {k : Str} {v : α} (hn : (ms.map Prod.fst).Nodup)
    (h : (k, v) ∈ ms) : AMap.get? ms k = some v := by
  induction ms with
  | nil => simp at h
  | cons m ms ih =>
    obtain ⟨k', v'⟩ := m
    simp only [List.map_cons, List.nodup_cons] at hn
    rcases List.mem_cons.mp h with h | h
    · cases h; simp [AMap.get?]
    · have : k' ≠ k := by
        rintro rfl
        exact hn.1 (List.mem_map_of_mem (f := Prod.fst) h)
      simp [AMap.get?, this, ih hn.2 h]

theorem get?_memberNodes {ms : List (Str × Value)} {k : Str} {v : Value} (hn : (ms.map Prod.fst).Nodup)
    (h : (k, v) ∈ ms) : AMap.get? (memberNodes ms) k = some ⟨v, decode v, itemsOf v⟩ := by
  rw [memberNodes_eq]
  refine get?_mem ?_ (List.mem_map.mpr ⟨(k, v), h, rfl⟩)
  rw [List.map_map]
  exact hn

theorem objectAny_list {v : Value} {items : List Value} {size : Int} (h : IsList v items size) :
    ∃ cls ms, v = .object cls none ms ∧
      objectAny cls none (memberNodes ms) = .visitList (items.map decode) (asUsize size) := by
  obtain ⟨cls, ms, version, rfl, hc, hl, hn, h1, h2, h3⟩ := h
  refine ⟨cls, ms, rfl, ?_⟩
  have hlm : listMembers (memberNodes ms) = some (items.map decode, size) := by
    unfold listMembers
    rw [if_pos (by rw [memberNodes_eq, List.length_map]; exact hl), get?_memberNodes hn h1,
      get?_memberNodes hn h2, get?_memberNodes hn h3]
    simp only [itemsOf, itemDesers_eq]
  have hb : classBase cls = lit "System.Collections.Generic.List" := hc
  unfold objectAny
  simp only [Option.isSome_none, hb, hlm]
  rfl

theorem asUsize_le {size : Int} {n : Nat} (hs : InSigned 4 size) (hn : n < 2 ^ (usizeBits - 1)) :
    asUsize size ≤ n ↔ 0 ≤ size ∧ size ≤ n := by
  unfold InSigned at hs
  unfold asUsize
  rcases usizeBits_cases with h' | h' <;> simp only [h'] at * <;> omega

theorem asUsize_eq {size : Int} (h : 0 ≤ size) (hs : InSigned 4 size) : asUsize size = size.toNat := by
  unfold InSigned at hs
  unfold asUsize
  rcases usizeBits_cases with h' | h' <;> simp only [h'] at * <;> omega

/-- **C40** Deserialising a `List<T>` into a `Vec<T>` yields exactly the first `_size` items.  It succeeds
exactly if `_size` is not negative, these items decode, and `_size` is at most the number of items *plus
one* - the last is a defect of the code, such a list is read as if `_size` was the number of items. -/
theorem C40_vec (v : Value) (items : List Value) (size : Int) (T : Ty) (d : Dyn) (h : IsList v items size)
    (hs : InSigned 4 size) (hl : items.length < 2 ^ (usizeBits - 2)) :
    decode v (.vec T) = .ok d ↔
      0 ≤ size ∧ size ≤ items.length + 1 ∧ ∃ ds, d = .seq ds ∧ AllDecode T (items.take size.toNat) ds := by
  obtain ⟨cls, ms, rfl, ho⟩ := objectAny_list h
  rw [decode_object _ _ _ _ (by simp) (by simp), ho]
  simp only [accept, map_ok_iff, visitList_all]
  have := asUsize_le (n := items.length + 1) hs (by rcases usizeBits_cases with h' | h' <;> simp only [h'] at hl ⊢ <;> omega)
  constructor
  · rintro ⟨ds, ⟨h1, h2⟩, rfl⟩
    obtain ⟨h3, h4⟩ := this.mp h1
    rw [asUsize_eq h3 hs] at h2
    exact ⟨h3, by omega, ds, rfl, h2⟩
  · rintro ⟨h3, h4, ds, rfl, h2⟩
    refine ⟨ds, ⟨this.mpr ⟨h3, by omega⟩, ?_⟩, rfl⟩
    rw [asUsize_eq h3 hs]
    exact h2

/-- **C40** (fixed length) Into a tuple or fixed-size array: exactly if `_size` is its length, there are as
many items, and the first `_size` items decode. -/
theorem C40_tuple (v : Value) (items : List Value) (size : Int) (Ts : List Ty) (d : Dyn)
    (h : IsList v items size) (hs : InSigned 4 size) (hl : items.length < 2 ^ (usizeBits - 2)) :
    decode v (.tuple Ts) = .ok d ↔
      size = Ts.length ∧ size ≤ items.length ∧ ∃ ds, d = .tuple ds ∧ Pointwise (items.take size.toNat) Ts ds := by
  obtain ⟨cls, ms, rfl, ho⟩ := objectAny_list h
  rw [decode_object _ _ _ _ (by simp) (by simp), ho]
  simp only [accept, map_ok_iff, visitList_each]
  have := asUsize_le (n := items.length) hs (by rcases usizeBits_cases with h' | h' <;> simp only [h'] at hl ⊢ <;> omega)
  constructor
  · rintro ⟨ds, ⟨h0, h1, h2⟩, rfl⟩
    obtain ⟨h3, h4⟩ := this.mp h1
    rw [asUsize_eq h3 hs] at h2 h0
    exact ⟨by omega, by omega, ds, rfl, h2⟩
  · rintro ⟨h0, h4, ds, rfl, h2⟩
    have h3 : 0 ≤ size := by omega
    refine ⟨ds, ⟨by rw [asUsize_eq h3 hs]; omega, this.mpr ⟨h3, by omega⟩, ?_⟩, rfl⟩
    rw [asUsize_eq h3 hs]
    exact h2

/-- **C40** What a user relies on, for lists whose `_size` is in bounds: the first `_size` items, whatever
the unused slots after them hold. -/
theorem C40_prefix (v : Value) (items spare : List Value) (T : Ty) (d : Dyn)
    (h : IsList v (items ++ spare) items.length) (hs : items.length < 2 ^ 31)
    (hl : (items ++ spare).length < 2 ^ (usizeBits - 2)) :
    decode v (.vec T) = .ok d ↔ decode (.array items) (.vec T) = .ok d := by
  rw [C40_vec v _ _ T d h ⟨by omega, by simp; omega⟩ hl, C44_vec]
  simp only [Int.toNat_natCast, List.take_left', List.length_append]
  constructor
  · rintro ⟨_, _, ds, rfl, h⟩
    exact ⟨ds, rfl, by have := h.length; simp at this; omega, h⟩
  · rintro ⟨ds, rfl, _, h⟩
    exact ⟨by omega, by omega, ds, rfl, h⟩

/-- **C40** (bounds) A negative `_size`, and one that exceeds the number of items by two or more, is an
error for every element type. -/
theorem C40_bounds (v : Value) (items : List Value) (size : Int) (T : Ty) (h : IsList v items size)
    (hs : InSigned 4 size) (hl : items.length < 2 ^ (usizeBits - 2)) (hb : size < 0 ∨ items.length + 2 ≤ size) :
    ∃ e, decode v (.vec T) = .error e := by
  cases hd : decode v (.vec T) with
  | error e => exact ⟨e, rfl⟩
  | ok d =>
    have := (C40_vec v items size T d h hs hl).mp hd
    omega

/-- A list object. -/
def listObject (items : List Value) (size : Int) : Value :=
  .object (lit "System.Collections.Generic.List`1[[System.String]]") none
    [(lit "_items", .array items), (lit "_size", .int32 size), (lit "_version", .int32 2)]

theorem isList_listObject (items : List Value) (size : Int) : IsList (listObject items size) items size :=
  ⟨_, _, 2, rfl, by kernel_decide, rfl, by kernel_decide, by simp, by simp, by simp⟩

/-- The hypotheses of `C40_vec` and `C40_tuple` can be met, for every list of items and every size. -/
example (items : List Value) (size : Int) : ∃ v, IsList v items size := ⟨_, isList_listObject items size⟩

/-- The first two of three items. -/
example : decode (listObject [.int32 1, .int32 2, .null] 2) (.vec .i32) = .ok (.seq [.int 1, .int 2]) := by
  platform_decide

/-- **C40** The property as a user states it, "`_size` larger than the number of items is an error", is
false: one item, `_size` two. -/
theorem C40_off_by_one : decode (listObject [.int32 1] 2) (.vec .i32) = .ok (.seq [.int 1]) := by
  platform_decide

/-- The same from the bytes of a message. -/
example : fromSlice (.vec .i32) (Tests.header 1 ++ [4, 1,0,0,0, 127] ++ Tests.listClass ++ [3,0,0,0] ++
      6 :: Tests.ascii "_items" ++ 5 :: Tests.ascii "_size" ++ 8 :: Tests.ascii "_version" ++
      [7,0,0, 8, 8,8, 9,2,0,0,0, 2,0,0,0, 2,0,0,0, 15, 2,0,0,0, 1,0,0,0, 8, 1,0,0,0, 11]) =
    .ok (.seq [.int 1]) := by
  platform_decide

end Nrbf
