import Verif.Props.SerdeStruct

/-! # C48: the order in which a hash map enumerates its members does not matter -/

set_option autoImplicit false

namespace Nrbf

variable [Platform] [FloatLib]

/-! ## Specification -/

/-- Equal values, if the members of objects (at every depth) are compared as maps, without their order. -/
inductive Same : Value → Value → Prop
  | refl (v : Value) : Same v v
  | array {vs vs'} : vs.length = vs'.length → (∀ (i : Nat) v v', vs[i]? = some v → vs'[i]? = some v' → Same v v') →
      Same (.array vs) (.array vs')
  | object {cls lib ms ms'} : (ms.map Prod.fst).Nodup → (ms'.map Prod.fst).Nodup →
      (∀ k, k ∈ ms.map Prod.fst ↔ k ∈ ms'.map Prod.fst) →
      (∀ k v v', (k, v) ∈ ms → (k, v') ∈ ms' → Same v v') → Same (.object cls lib ms) (.object cls lib ms')

/-- Equal results.  With `maps`, entries of `HashMap`s are compared without their order; without, results are
equal. -/
inductive DSame (maps : Bool) : Dyn → Dyn → Prop
  | refl (d : Dyn) : DSame maps d d
  | some {d d'} : DSame maps d d' → DSame maps (.some d) (.some d')
  | newtype {d d'} : DSame maps d d' → DSame maps (.newtype d) (.newtype d')
  | seq {ds ds'} : ds.length = ds'.length → (∀ (i : Nat) d d', ds[i]? = some d → ds'[i]? = some d' → DSame maps d d') →
      DSame maps (.seq ds) (.seq ds')
  | tuple {ds ds'} : ds.length = ds'.length → (∀ (i : Nat) d d', ds[i]? = some d → ds'[i]? = some d' → DSame maps d d') →
      DSame maps (.tuple ds) (.tuple ds')
  | struct {ds ds'} : ds.map Prod.fst = ds'.map Prod.fst →
      (∀ (i : Nat) d d', ds[i]? = some d → ds'[i]? = some d' → DSame maps d.2 d'.2) → DSame maps (.struct ds) (.struct ds')
  | map {ds ds'} : maps = true → (ds.map Prod.fst).Nodup → (ds'.map Prod.fst).Nodup →
      (∀ k, k ∈ ds.map Prod.fst ↔ k ∈ ds'.map Prod.fst) →
      (∀ k d d', (k, d) ∈ ds → (k, d') ∈ ds' → DSame maps d d') → DSame maps (.map ds) (.map ds')

/-- Types whose structs have distinct fields; without `maps`, they contain no `HashMap` (and no self-describing type, which holds
one). -/
inductive Ty.OK (maps : Bool) : Ty → Prop
  | bool : OK maps .bool
  | int (lo hi : Int) : OK maps (.int lo hi)
  | f32 : OK maps .f32
  | f64 : OK maps .f64
  | char : OK maps .char
  | str : OK maps .str
  | string : OK maps .string
  | unit : OK maps .unit
  | enum : OK maps .enum
  | ignored : OK maps .ignored
  | any : maps = true → OK maps .any
  | option {T} : OK maps T → OK maps (.option T)
  | vec {T} : OK maps T → OK maps (.vec T)
  | newtype {T} : OK maps T → OK maps (.newtype T)
  | map {T} : maps = true → OK maps T → OK maps (.map T)
  | tuple {Ts} : (∀ T ∈ Ts, OK maps T) → OK maps (.tuple Ts)
  | struct {fs : List (Str × Ty)} : (fs.map Prod.fst).Nodup → (∀ f ∈ fs, OK maps f.2) → OK maps (.struct fs)

/-- Without maps, results are equal. -/
theorem DSame.eq {d d' : Dyn} (h : DSame false d d') : d = d' := by
  induction h with
  | refl => rfl
  | some _ ih => rw [ih]
  | newtype _ ih => rw [ih]
  | @seq ds ds' hl _ ih =>
    congr 1
    refine List.ext_getElem hl fun i h1 h2 => ?_
    exact ih i _ _ (List.getElem?_eq_getElem h1) (List.getElem?_eq_getElem h2)
  | @tuple ds ds' hl _ ih =>
    congr 1
    refine List.ext_getElem hl fun i h1 h2 => ?_
    exact ih i _ _ (List.getElem?_eq_getElem h1) (List.getElem?_eq_getElem h2)
  | @struct ds ds' hk _ ih =>
    congr 1
    have hl : ds.length = ds'.length := by simpa using congrArg List.length hk
    refine List.ext_getElem hl fun i h1 h2 => ?_
    refine Prod.ext ?_ (ih i _ _ (List.getElem?_eq_getElem h1) (List.getElem?_eq_getElem h2))
    have : (ds.map Prod.fst)[i]'(by simpa using h1) = (ds'.map Prod.fst)[i]'(by simpa using h2) := by simp only [hk]
    simpa using this
  | map h => cases h

theorem Same.symm {v v' : Value} (h : Same v v') : Same v' v := by
  induction h with
  | refl => exact .refl _
  | array hl _ ih => exact .array hl.symm fun i v v' h h' => ih i v' v h' h
  | object h1 h2 h3 _ ih => exact .object h2 h1 (fun k => (h3 k).symm) fun k v v' h h' => ih k v' v h' h

/-! ## Decoding the same -/

/-- If the first decodes, so does the second, to the same. -/
def CStep (maps : Bool) (c c' : Child) : Prop :=
  ∀ T d, T.OK maps → c T = .ok d → ∃ d', c' T = .ok d' ∧ DSame maps d d'

theorem pointwise_iff {vs : List Value} {Ts : List Ty} {ds : List Dyn} :
    Pointwise vs Ts ds ↔ vs.length = Ts.length ∧ ds.length = Ts.length ∧
      ∀ (i : Nat) v T d, vs[i]? = some v → Ts[i]? = some T → ds[i]? = some d → decode v T = .ok d := by
  induction vs generalizing Ts ds with
  | nil =>
    constructor
    · intro h; cases h; simp
    · rintro ⟨h1, h2, _⟩
      cases Ts <;> simp at h1
      cases ds <;> simp at h2
      exact .nil
  | cons v vs ih =>
    constructor
    · intro h
      cases h with
      | cons h1 h2 =>
        obtain ⟨h3, h4, h5⟩ := ih.mp h2
        refine ⟨by simp [h3], by simp [h4], ?_⟩
        intro i
        cases i with
        | zero =>
          intro v T d hv hT hd
          simp only [List.getElem?_cons_zero, Option.some.injEq] at hv hT hd
          subst hv hT hd; exact h1
        | succ i =>
          intro v T d hv hT hd
          simp only [List.getElem?_cons_succ] at hv hT hd
          exact h5 i v T d hv hT hd
    · rintro ⟨h1, h2, h3⟩
      cases Ts with
      | nil => simp at h1
      | cons T Ts =>
        cases ds with
        | nil => simp at h2
        | cons d ds =>
          refine .cons (h3 0 _ _ _ rfl rfl rfl) (ih.mpr ⟨by simpa using h1, by simpa using h2, ?_⟩)
          intro i v T d hv hT hd
          exact h3 (i + 1) v T d (by simpa using hv) (by simpa using hT) (by simpa using hd)

/-- Element by element. -/
theorem pointwise_step {maps : Bool} {vs vs' : List Value} {Ts : List Ty} {ds : List Dyn}
    (hl : vs.length = vs'.length) (hT : ∀ T ∈ Ts, T.OK maps)
    (ih : ∀ (i : Nat) v v', vs[i]? = some v → vs'[i]? = some v' → CStep maps (decode v) (decode v'))
    (h : Pointwise vs Ts ds) : ∃ ds', Pointwise vs' Ts ds' ∧ ds.length = ds'.length ∧
      ∀ (i : Nat) d d', ds[i]? = some d → ds'[i]? = some d' → DSame maps d d' := by
  induction h generalizing vs' with
  | nil =>
    cases vs' with
    | nil => exact ⟨[], .nil, rfl, by simp⟩
    | cons => simp at hl
  | @cons v vs T Ts d ds h1 h2 ih2 =>
    cases vs' with
    | nil => simp at hl
    | cons v' vs' =>
      obtain ⟨d', hd', hs⟩ := ih 0 v v' rfl rfl T d (hT T (by simp)) h1
      obtain ⟨ds', hp, hlen, hds⟩ := ih2 (vs' := vs') (by simpa using hl) (fun T h => hT T (by simp [h]))
        (fun i v v' hv hv' => ih (i + 1) v v' (by simpa using hv) (by simpa using hv'))
      refine ⟨d' :: ds', .cons hd' hp, by simp [hlen], ?_⟩
      intro i
      cases i with
      | zero =>
        intro a b ha hb
        simp only [List.getElem?_cons_zero, Option.some.injEq] at ha hb
        subst ha hb; exact hs
      | succ i =>
        intro a b ha hb
        simp only [List.getElem?_cons_succ] at ha hb
        exact hds i a b ha hb

theorem accept_array_step {maps : Bool} {vs vs' : List Value} {T : Ty} {d : Dyn} (hT : T.OK maps)
    (hl : vs.length = vs'.length)
    (ih : ∀ (i : Nat) v v', vs[i]? = some v → vs'[i]? = some v' → CStep maps (decode v) (decode v'))
    (h : accept T (.visitArray (vs.map decode)) = .ok d) :
    ∃ d', accept T (.visitArray (vs'.map decode)) = .ok d' ∧ DSame maps d d' := by
  have each : ∀ Ts ds, (∀ T ∈ Ts, T.OK maps) → visitArraySeq (.each Ts) (vs.map decode) = .ok ds →
      ∃ ds', visitArraySeq (.each Ts) (vs'.map decode) = .ok ds' ∧ ds.length = ds'.length ∧ ds.length = Ts.length ∧
      ∀ (i : Nat) d d', ds[i]? = some d → ds'[i]? = some d' → DSame maps d d' := by
    intro Ts ds hTs h
    have hp := visitArray_each.mp h
    obtain ⟨ds', h1, h2, h3⟩ := pointwise_step hl hTs ih hp
    exact ⟨ds', visitArray_each.mpr h1, h2, hp.length.2, h3⟩
  have all : ∀ T ds, T.OK maps → visitArraySeq (.all T) (vs.map decode) = .ok ds →
      ∃ ds', visitArraySeq (.all T) (vs'.map decode) = .ok ds' ∧ ds.length = ds'.length ∧
      ∀ (i : Nat) d d', ds[i]? = some d → ds'[i]? = some d' → DSame maps d d' := by
    intro T ds hT h
    obtain ⟨ds', h1, h2, h3⟩ := pointwise_step hl (fun T' h => List.eq_of_mem_replicate h ▸ hT) ih (visitArray_all.mp h)
    rw [hl] at h1
    exact ⟨ds', visitArray_all.mpr h1, h2, h3⟩
  cases hT <;> simp only [accept, reduceCtorEq, map_ok_iff] at h ⊢
  case vec T hT =>
    obtain ⟨ds, h, rfl⟩ := h
    obtain ⟨ds', h1, h2, h3⟩ := all _ _ hT h
    exact ⟨_, ⟨ds', h1, rfl⟩, .seq h2 h3⟩
  case tuple Ts hT =>
    obtain ⟨ds, h, rfl⟩ := h
    obtain ⟨ds', h1, h2, _, h3⟩ := each _ _ hT h
    exact ⟨_, ⟨ds', h1, rfl⟩, .tuple h2 h3⟩
  case ignored =>
    obtain ⟨ds, h, rfl⟩ := h
    obtain ⟨ds', h1, h2, h3⟩ := all _ _ .ignored h
    exact ⟨_, ⟨ds', h1, rfl⟩, .refl _⟩
  case any hm =>
    obtain ⟨ds, h, rfl⟩ := h
    obtain ⟨ds', h1, h2, h3⟩ := all _ _ (.any hm) h
    exact ⟨_, ⟨ds', h1, rfl⟩, .seq h2 h3⟩
  case newtype T hT =>
    obtain ⟨ds, h, rfl⟩ := h
    obtain ⟨ds', h1, h2, h4, h3⟩ := each _ _ (by simpa using hT) h
    refine ⟨_, ⟨ds', h1, rfl⟩, ?_⟩
    match ds, ds', h2, h4, h3 with
    | [a], [b], _, _, h3 => exact .newtype (h3 0 a b rfl rfl)
  case struct fs hn hT =>
    obtain ⟨ds, h, rfl⟩ := h
    obtain ⟨ds', h1, h2, h4, h3⟩ := each _ _ (by
      intro T hT'
      obtain ⟨f, hf, rfl⟩ := List.mem_map.mp hT'
      exact hT f hf) h
    refine ⟨_, ⟨ds', h1, rfl⟩, .struct ?_ ?_⟩
    · rw [List.map_fst_zip (by simp at h4 ⊢; omega), List.map_fst_zip (by simp at h4 ⊢; omega)]
    · intro i a b ha hb
      rw [List.getElem?_zip_eq_some] at ha hb
      exact h3 i _ _ ha.2 hb.2

theorem accept_list_step {maps : Bool} {vs vs' : List Value} {T : Ty} {d : Dyn} (hT : T.OK maps) (n : Nat)
    (hl : vs.length = vs'.length)
    (ih : ∀ (i : Nat) v v', vs[i]? = some v → vs'[i]? = some v' → CStep maps (decode v) (decode v'))
    (h : accept T (.visitList (vs.map decode) n) = .ok d) :
    ∃ d', accept T (.visitList (vs'.map decode) n) = .ok d' ∧ DSame maps d d' := by
  have hl' : (vs.take n).length = (vs'.take n).length := by simp [hl]
  have ih' : ∀ (i : Nat) v v', (vs.take n)[i]? = some v → (vs'.take n)[i]? = some v' → CStep maps (decode v) (decode v') := by
    intro i v v' hv hv'
    rw [List.getElem?_take] at hv hv'
    split at hv
    · rename_i hi
      rw [if_pos hi] at hv'
      exact ih i v v' hv hv'
    · cases hv
  have each : ∀ Ts ds, (∀ T ∈ Ts, T.OK maps) → visitListSeq (.each Ts) (vs.map decode) n = .ok ds →
      ∃ ds', visitListSeq (.each Ts) (vs'.map decode) n = .ok ds' ∧ ds.length = ds'.length ∧ ds.length = Ts.length ∧
      ∀ (i : Nat) d d', ds[i]? = some d → ds'[i]? = some d' → DSame maps d d' := by
    intro Ts ds hTs h
    obtain ⟨h1, h2, hp⟩ := visitList_each.mp h
    obtain ⟨ds', h3, h4, h5⟩ := pointwise_step hl' hTs ih' hp
    exact ⟨ds', visitList_each.mpr ⟨h1, by omega, h3⟩, h4, hp.length.2, h5⟩
  have all : ∀ T ds, T.OK maps → visitListSeq (.all T) (vs.map decode) n = .ok ds →
      ∃ ds', visitListSeq (.all T) (vs'.map decode) n = .ok ds' ∧ ds.length = ds'.length ∧
      ∀ (i : Nat) d d', ds[i]? = some d → ds'[i]? = some d' → DSame maps d d' := by
    intro T ds hT h
    obtain ⟨h0, hp⟩ := visitList_all.mp h
    obtain ⟨ds', h1, h2, h3⟩ := pointwise_step hl' (fun T' h => List.eq_of_mem_replicate h ▸ hT) ih' hp
    rw [hl'] at h1
    exact ⟨ds', visitList_all.mpr ⟨by omega, h1⟩, h2, h3⟩
  cases hT <;> simp only [accept, reduceCtorEq, map_ok_iff] at h ⊢
  case vec T hT =>
    obtain ⟨ds, h, rfl⟩ := h
    obtain ⟨ds', h1, h2, h3⟩ := all _ _ hT h
    exact ⟨_, ⟨ds', h1, rfl⟩, .seq h2 h3⟩
  case tuple Ts hT =>
    obtain ⟨ds, h, rfl⟩ := h
    obtain ⟨ds', h1, h2, _, h3⟩ := each _ _ hT h
    exact ⟨_, ⟨ds', h1, rfl⟩, .tuple h2 h3⟩
  case ignored =>
    obtain ⟨ds, h, rfl⟩ := h
    obtain ⟨ds', h1, h2, h3⟩ := all _ _ .ignored h
    exact ⟨_, ⟨ds', h1, rfl⟩, .refl _⟩
  case any hm =>
    obtain ⟨ds, h, rfl⟩ := h
    obtain ⟨ds', h1, h2, h3⟩ := all _ _ (.any hm) h
    exact ⟨_, ⟨ds', h1, rfl⟩, .seq h2 h3⟩
  case newtype T hT =>
    obtain ⟨ds, h, rfl⟩ := h
    obtain ⟨ds', h1, h2, h4, h3⟩ := each _ _ (by simpa using hT) h
    refine ⟨_, ⟨ds', h1, rfl⟩, ?_⟩
    match ds, ds', h2, h4, h3 with
    | [a], [b], _, _, h3 => exact .newtype (h3 0 a b rfl rfl)
  case struct fs hn hT =>
    obtain ⟨ds, h, rfl⟩ := h
    obtain ⟨ds', h1, h2, h4, h3⟩ := each _ _ (by
      intro T hT'
      obtain ⟨f, hf, rfl⟩ := List.mem_map.mp hT'
      exact hT f hf) h
    refine ⟨_, ⟨ds', h1, rfl⟩, .struct ?_ ?_⟩
    · rw [List.map_fst_zip (by simp at h4 ⊢; omega), List.map_fst_zip (by simp at h4 ⊢; omega)]
    · intro i a b ha hb
      rw [List.getElem?_zip_eq_some] at ha hb
      exact h3 i _ _ ha.2 hb.2

/-! ## Objects -/

/-- The members of two objects that are the same as maps. -/
structure SameMembers (ms ms' : List (Str × Value)) : Prop where
  nodup : (ms.map Prod.fst).Nodup
  nodup' : (ms'.map Prod.fst).Nodup
  keys : ∀ k, k ∈ ms.map Prod.fst ↔ k ∈ ms'.map Prod.fst

theorem SameMembers.perm {ms ms' : List (Str × Value)} (h : SameMembers ms ms') :
    (ms.map Prod.fst).Perm (ms'.map Prod.fst) :=
  (List.perm_ext_iff_of_nodup h.nodup h.nodup').mpr h.keys

theorem SameMembers.length {ms ms' : List (Str × Value)} (h : SameMembers ms ms') : ms.length = ms'.length := by
  simpa using h.perm.length_eq

theorem SameMembers.find {ms ms' : List (Str × Value)} (h : SameMembers ms ms') {k : Str} {v : Value} (hv : (k, v) ∈ ms) :
    ∃ v', (k, v') ∈ ms' := by
  have : k ∈ ms'.map Prod.fst := (h.keys k).mp (List.mem_map_of_mem (f := Prod.fst) hv)
  obtain ⟨⟨k', v'⟩, hm, rfl⟩ := List.mem_map.mp this
  exact ⟨v', hm⟩

theorem SameMembers.symm {ms ms' : List (Str × Value)} (h : SameMembers ms ms') : SameMembers ms' ms :=
  ⟨h.nodup', h.nodup, fun k => (h.keys k).symm⟩

theorem readMap_ok {T : Ty} {ms : List (Str × Value)} {ds : List (Str × Dyn)} (h : readMap T (entriesOf ms) = .ok ds) :
    ds.map Prod.fst = ms.map Prod.fst ∧ ∀ k d, (k, d) ∈ ds → ∃ v, (k, v) ∈ ms ∧ decode v T = .ok d := by
  induction ms generalizing ds with
  | nil => cases h; simp
  | cons m ms ih =>
    obtain ⟨k, v⟩ := m
    rw [show entriesOf ((k, v) :: ms) = (k, decode v) :: entriesOf ms from rfl] at h
    simp only [readMap] at h
    cases hv : decode v T with
    | error e => rw [hv] at h; cases h
    | ok d =>
      rw [hv] at h
      simp only at h
      split at h
      · rename_i ds' heq
        cases h
        obtain ⟨h1, h2⟩ := ih heq
        refine ⟨by simp [h1], ?_⟩
        intro k' d' hk
        rcases List.mem_cons.mp hk with hk | hk
        · cases hk; exact ⟨v, by simp, hv⟩
        · obtain ⟨v', h3, h4⟩ := h2 k' d' hk
          exact ⟨v', by simp [h3], h4⟩
      · cases h

theorem readMap_mem {T : Ty} {ms : List (Str × Value)} {ds : List (Str × Dyn)} (h : readMap T (entriesOf ms) = .ok ds) :
    ∀ m ∈ ms, ∃ d, decode m.2 T = .ok d := by
  induction ms generalizing ds with
  | nil => simp
  | cons m ms ih =>
    obtain ⟨k, v⟩ := m
    rw [show entriesOf ((k, v) :: ms) = (k, decode v) :: entriesOf ms from rfl] at h
    simp only [readMap] at h
    cases hv : decode v T with
    | error e => rw [hv] at h; cases h
    | ok d =>
      rw [hv] at h
      simp only at h
      split at h
      · rename_i ds' heq
        intro m hm
        rcases List.mem_cons.mp hm with rfl | hm
        · exact ⟨d, hv⟩
        · exact ih heq m hm
      · cases h

theorem readMap_exists {T : Ty} {ms : List (Str × Value)} (h : ∀ m ∈ ms, ∃ d, decode m.2 T = .ok d) :
    ∃ ds, readMap T (entriesOf ms) = .ok ds := by
  induction ms with
  | nil => exact ⟨[], rfl⟩
  | cons m ms ih =>
    obtain ⟨k, v⟩ := m
    obtain ⟨d, hd⟩ := h (k, v) (by simp)
    obtain ⟨ds, hds⟩ := ih fun m hm => h m (by simp [hm])
    refine ⟨(k, d) :: ds, ?_⟩
    rw [show entriesOf ((k, v) :: ms) = (k, decode v) :: entriesOf ms from rfl]
    simp only [readMap, show decode v T = .ok d from hd, hds]

section
variable {maps : Bool} {ms ms' : List (Str × Value)} (hs : SameMembers ms ms')
  (ih : ∀ k v v', (k, v) ∈ ms → (k, v') ∈ ms' → CStep maps (decode v) (decode v'))
include hs ih

theorem all_step {T : Ty} (hT : T.OK maps) (h : ∀ m ∈ ms, ∃ d, decode m.2 T = .ok d) :
    ∀ m ∈ ms', ∃ d, decode m.2 T = .ok d := by
  rintro ⟨k, v'⟩ hm
  obtain ⟨v, hv⟩ := hs.symm.find hm
  obtain ⟨d, hd⟩ := h _ hv
  obtain ⟨d', hd', _⟩ := ih k v v' hv hm T d hT hd
  exact ⟨d', hd'⟩

theorem accept_map_step {T : Ty} {d : Dyn} (hT : T.OK maps) (hns : ∀ fs, T ≠ .struct fs)
    (h : accept T (.visitMap (entriesOf ms)) = .ok d) :
    ∃ d', accept T (.visitMap (entriesOf ms')) = .ok d' ∧ DSame maps d d' := by
  cases hT <;> simp only [accept, reduceCtorEq, map_ok_iff] at h ⊢
  case ignored =>
    obtain ⟨ds, h, rfl⟩ := h
    obtain ⟨ds', h'⟩ := readMap_exists (all_step hs ih .ignored (readMap_mem h))
    exact ⟨_, ⟨ds', h', rfl⟩, .refl _⟩
  case map T hmaps hT =>
    obtain ⟨ds, h, rfl⟩ := h
    obtain ⟨ds', h'⟩ := readMap_exists (all_step hs ih hT (readMap_mem h))
    refine ⟨_, ⟨ds', h', rfl⟩, ?_⟩
    obtain ⟨k1, e1⟩ := readMap_ok h
    obtain ⟨k2, e2⟩ := readMap_ok h'
    refine .map hmaps (k1 ▸ hs.nodup) (k2 ▸ hs.nodup') (fun k => by rw [k1, k2]; exact hs.keys k) ?_
    intro k d d' hd hd'
    obtain ⟨v, hv, h1⟩ := e1 k d hd
    obtain ⟨v', hv', h2⟩ := e2 k d' hd'
    obtain ⟨d2, h3, h4⟩ := ih k v v' hv hv' T d hT h1
    rw [h2] at h3; cases h3
    exact h4
  case any hmaps =>
    obtain ⟨ds, h, rfl⟩ := h
    obtain ⟨ds', h'⟩ := readMap_exists (all_step hs ih (.any hmaps) (readMap_mem h))
    refine ⟨_, ⟨ds', h', rfl⟩, ?_⟩
    obtain ⟨k1, e1⟩ := readMap_ok h
    obtain ⟨k2, e2⟩ := readMap_ok h'
    refine .map hmaps (k1 ▸ hs.nodup) (k2 ▸ hs.nodup') (fun k => by rw [k1, k2]; exact hs.keys k) ?_
    intro k d d' hd hd'
    obtain ⟨v, hv, h1⟩ := e1 k d hd
    obtain ⟨v', hv', h2⟩ := e2 k d' hd'
    obtain ⟨d2, h3, h4⟩ := ih k v v' hv hv' .any d (.any hmaps) h1
    rw [h2] at h3; cases h3
    exact h4
  case struct fs _ _ => exact absurd rfl (hns fs)

theorem struct_step {cls : Str} {lib : Option Str} {fs : List (Str × Ty)} {d : Dyn} (hT : (Ty.struct fs).OK maps)
    (h : decode (.object cls lib ms) (.struct fs) = .ok d) :
    ∃ d', decode (.object cls lib ms') (.struct fs) = .ok d' ∧ DSame maps d d' := by
  cases hT with
  | struct hn hT =>
  obtain ⟨ho, ds, rfl, hf⟩ := (C53 cls lib ms fs d hs.nodup hn).mp h
  have hf' : ∃ ds', FieldValues ms' fs ds' ∧ ds.map Prod.fst = ds'.map Prod.fst ∧
      ∀ (i : Nat) d d', ds[i]? = some d → ds'[i]? = some d' → DSame maps d.2 d'.2 := by
    clear hn ho h
    induction hf with
    | nil => exact ⟨[], .nil, rfl, by simp⟩
    | @cons f fs d ds h1 h2 ih2 =>
      obtain ⟨ds', h3, h4, h5⟩ := ih2 fun f hf => hT f (by simp [hf])
      have hd : ∃ d', FieldValue ms' f d' ∧ d.1 = d'.1 ∧ DSame maps d.2 d'.2 := by
        cases h1 with
        | @found k T v d h6 h7 =>
          obtain ⟨v', hv'⟩ := hs.find h6
          obtain ⟨d', h8, h9⟩ := ih k v v' h6 hv' T d (hT (k, T) (by simp)) h7
          exact ⟨(k, d'), .found hv' h8, rfl, h9⟩
        | @missing k T h6 =>
          refine ⟨(k, .none), .missing ?_, rfl, .refl _⟩
          intro m hm he
          obtain ⟨v, hv⟩ := hs.symm.find (k := m.1) (v := m.2) hm
          exact h6 _ hv he
      obtain ⟨d', h6, h7, h8⟩ := hd
      refine ⟨d' :: ds', .cons h6 h3, by simp [h4, h7], ?_⟩
      intro i
      cases i with
      | zero =>
        intro a b ha hb
        simp only [List.getElem?_cons_zero, Option.some.injEq] at ha hb
        subst ha hb; exact h8
      | succ i =>
        intro a b ha hb
        simp only [List.getElem?_cons_succ] at ha hb
        exact h5 i a b ha hb
  obtain ⟨ds', h3, h4, h5⟩ := hf'
  refine ⟨.struct ds', (C53 cls lib ms' fs _ hs.nodup' hn).mpr ⟨?_, ds', rfl, h3⟩, .struct h4 h5⟩
  rintro ⟨k, v'⟩ hm hno
  obtain ⟨v, hv⟩ := hs.symm.find hm
  obtain ⟨d, hd⟩ := ho _ hv hno
  obtain ⟨d', hd', _⟩ := ih k v v' hv hm .ignored d .ignored hd
  exact ⟨d', hd'⟩

end

theorem ite_ind2 {α : Type} {c : Prop} [Decidable c] {a b a' b' : α} (P : α → α → Prop) (ha : c → P a a')
    (hb : ¬c → P b b') : P (if c then a else b) (if c then a' else b') := by
  split
  · exact ha ‹_›
  · exact hb ‹_›

/-- `objectAny_cases` for two objects of the same class. -/
theorem objectAny_cases2 (motive : VCall Child → VCall Child → Prop) (cls : Str) (lib : Option Str)
    (ms ms' : List (Str × Node))
    (hmap : motive (.visitMap (ms.map fun m => (m.1, m.2.deser))) (.visitMap (ms'.map fun m => (m.1, m.2.deser))))
    (hbox : ∀ name P visit, (name, P, visit) ∈ boxTable → classBase cls = name →
      motive (unboxed P visit (ms.map fun m => (m.1, m.2.deser))) (unboxed P visit (ms'.map fun m => (m.1, m.2.deser))))
    (hlist : motive (match listMembers ms with
      | some (items, size) => .visitList items (asUsize size)
      | none => .fail .serde) (match listMembers ms' with
      | some (items, size) => .visitList items (asUsize size)
      | none => .fail .serde)) : motive (objectAny cls lib ms) (objectAny cls lib ms') := by
  unfold objectAny
  refine ite_ind2 motive (fun _ => hmap) fun _ => ?_
  refine ite_ind2 motive (fun h => hbox _ _ _ (by simp [boxTable]) h) fun _ => ?_
  refine ite_ind2 motive (fun h => hbox _ _ _ (by simp [boxTable]) h) fun _ => ?_
  refine ite_ind2 motive (fun h => hbox _ _ _ (by simp [boxTable]) h) fun _ => ?_
  refine ite_ind2 motive (fun h => hbox _ _ _ (by simp [boxTable]) h) fun _ => ?_
  refine ite_ind2 motive (fun h => hbox _ _ _ (by simp [boxTable]) h) fun _ => ?_
  refine ite_ind2 motive (fun h => hbox _ _ _ (by simp [boxTable]) h) fun _ => ?_
  refine ite_ind2 motive (fun h => hbox _ _ _ (by simp [boxTable]) h) fun _ => ?_
  refine ite_ind2 motive (fun h => hbox _ _ _ (by simp [boxTable]) h) fun _ => ?_
  refine ite_ind2 motive (fun h => hbox _ _ _ (by simp [boxTable]) h) fun _ => ?_
  refine ite_ind2 motive (fun h => hbox _ _ _ (by simp [boxTable]) h) fun _ => ?_
  refine ite_ind2 motive (fun h => hbox _ _ _ (by simp [boxTable]) h) fun _ => ?_
  refine ite_ind2 motive (fun h => hbox _ _ _ (by simp [boxTable]) h) fun _ => ?_
  exact ite_ind2 motive (fun h => hlist) fun _ => hmap

theorem DSame.scalar {maps : Bool} {x x' : Dyn} (h : DSame maps x x')
    (hx : (∃ b, x = .bool b) ∨ (∃ n, x = .int n) ∨ (∃ c, x = .char c) ∨ (∃ b, x = .f64 b) ∨ ∃ b, x = .f32 b) : x = x' := by
  cases h with
  | refl => rfl
  | _ => rcases hx with ⟨_, h⟩ | ⟨_, h⟩ | ⟨_, h⟩ | ⟨_, h⟩ | ⟨_, h⟩ <;> cases h

/-- The elements, if the values are arrays. -/
def ItemsStep (maps : Bool) (v v' : Value) : Prop :=
  ∀ vs, v = .array vs → ∃ vs', v' = .array vs' ∧ vs.length = vs'.length ∧
    ∀ (i : Nat) v v', vs[i]? = some v → vs'[i]? = some v' → CStep maps (decode v) (decode v')

/-- A value that is the same decodes to the same. -/
theorem same_step (maps : Bool) {v v' : Value} (h : Same v v') :
    CStep maps (decode v) (decode v') ∧ ItemsStep maps v v' := by
  induction h with
  | refl v =>
    refine ⟨fun T d _ h => ⟨d, h, .refl d⟩, ?_⟩
    rintro vs rfl
    refine ⟨vs, rfl, rfl, ?_⟩
    intro i v v' hv hv'
    rw [hv] at hv'; cases hv'
    exact fun T d _ h => ⟨d, h, .refl d⟩
  | @array vs vs' hl _ ih2 =>
    have ih := fun i v v' hv hv' => (ih2 i v v' hv hv').1
    clear ih2
    refine ⟨?_, ?_⟩
    case refine_2 => intro vs0 h0; cases h0; exact ⟨vs', rfl, hl, ih⟩
    intro T
    induction T using NoStruct.induct with
    | case1 fs => intro d hT h; exact accept_array_step hT hl ih (by rw [decode, valueDeser, itemDesers_eq] at h; exact h) |>.imp fun d' h' => ⟨by rw [decode, valueDeser, itemDesers_eq]; exact h'.1, h'.2⟩
    | case2 T ih2 =>
      intro d hT h
      cases hT with
      | option hT =>
      rw [C42_some _ _ (by simp), map_ok_iff] at h
      obtain ⟨x, h, rfl⟩ := h
      obtain ⟨x', h1, h2⟩ := ih2 x hT h
      exact ⟨.some x', by rw [C42_some _ _ (by simp), h1]; rfl, .some h2⟩
    | case3 T h1 h2 =>
      intro d hT h
      rw [decode_array _ _ (fun T' h => h2 T' h) (fun fs h => h1 fs h)] at h ⊢
      exact accept_array_step hT hl ih h
  | @object cls lib ms ms' hn hn' hk hsame ih2 =>
    have ih := fun k v v' hv hv' => (ih2 k v v' hv hv').1
    refine ⟨?_, ?_⟩
    case refine_2 => intro vs0 h0; cases h0
    have ihItems := fun k v v' hv hv' => (ih2 k v v' hv hv').2
    clear ih2
    have hs : SameMembers ms ms' := ⟨hn, hn', hk⟩
    intro T
    induction T using NoStruct.induct with
    | case1 fs => intro d hT h; exact struct_step hs ih hT h
    | case2 T ih2 =>
      intro d hT h
      cases hT with
      | option hT =>
      rw [C42_some _ _ (by simp), map_ok_iff] at h
      obtain ⟨x, h, rfl⟩ := h
      obtain ⟨x', h1, h2⟩ := ih2 x hT h
      exact ⟨.some x', by rw [C42_some _ _ (by simp), h1]; rfl, .some h2⟩
    | case3 T h1 h2 =>
      intro d hT
      rw [decode_object _ _ _ _ (fun T' h => h2 T' h) (fun fs h => h1 fs h),
        decode_object _ _ _ _ (fun T' h => h2 T' h) (fun fs h => h1 fs h)]
      refine objectAny_cases2 (fun c c' => accept T c = .ok d → ∃ d', accept T c' = .ok d' ∧ DSame maps d d')
        cls lib (memberNodes ms) (memberNodes ms') ?_ ?_ ?_
      · rw [entries_memberNodes, entries_memberNodes]
        exact accept_map_step hs ih hT fun fs h => h1 fs h
      · intro name P visit ht _ h
        rw [entries_memberNodes] at h ⊢
        unfold unboxed at h
        cases hu : unbox P (entriesOf ms) with
        | error e => rw [hu] at h; simp only [accept_fail] at h; cases h
        | ok x =>
          rw [hu] at h
          obtain ⟨w, rfl, hw⟩ := unbox_ok hu
          obtain ⟨w', hw'⟩ := hs.find (k := lit "m_value") (v := w) (by simp)
          have hms' : ms' = [(lit "m_value", w')] := by
            have := hs.length
            match ms', this, hw' with
            | [m], _, hw' => simp only [List.mem_singleton] at hw'; rw [hw']
          subst hms'
          have hP : P.OK maps := by
            rcases boxTable_visit ht with ⟨rfl, _⟩ | ⟨⟨a, b, rfl⟩, _⟩ | ⟨rfl, _⟩ | ⟨rfl, _⟩ | ⟨rfl, _⟩ <;> constructor
          obtain ⟨x', hx', hxx⟩ := ih (lit "m_value") w w' (by simp) (by simp) P x hP hw
          have hxe : x = x' := by
            refine hxx.scalar ?_
            rcases boxTable_visit ht with ⟨rfl, _⟩ | ⟨⟨a, b, rfl⟩, _⟩ | ⟨rfl, _⟩ | ⟨rfl, _⟩ | ⟨rfl, _⟩
            · exact .inl (decode_bool_form hw)
            · obtain ⟨n, h, _⟩ := decode_int_range hw
              exact .inr (.inl ⟨n, h⟩)
            · exact .inr (.inr (.inl (decode_char_form hw)))
            · exact .inr (.inr (.inr (.inl (decode_f64_form hw))))
            · exact .inr (.inr (.inr (.inr (decode_f32_form hw))))
          subst hxe
          refine ⟨d, ?_, .refl d⟩
          have : unbox P (entriesOf [(lit "m_value", w')]) = .ok x := by
            show unbox P [(lit "m_value", decode w')] = .ok x
            simp [unbox, hx']
          unfold unboxed
          rw [this]
          exact h
      · intro h
        cases hm : listMembers (memberNodes ms) with
        | none => rw [hm] at h; simp only [accept_fail] at h; cases h
        | some p =>
          obtain ⟨items, size⟩ := p
          obtain ⟨hl, vs, version, rfl, hi, hsz, hv⟩ := listMembers_some hm
          rw [hm] at h
          rw [itemsOf, itemDesers_eq] at h
          obtain ⟨a', ha'⟩ := hs.find hi
          obtain ⟨b', hb'⟩ := hs.find hsz
          obtain ⟨c', hc'⟩ := hs.find hv
          have hb : b' = .int32 size := by have := hsame _ _ _ hsz hb'; cases this; rfl
          have hc : c' = .int32 version := by have := hsame _ _ _ hv hc'; cases this; rfl
          subst hb hc
          have ha : ∃ vs', a' = .array vs' ∧ vs.length = vs'.length ∧
              ∀ (i : Nat) v v', vs[i]? = some v → vs'[i]? = some v' → CStep maps (decode v) (decode v') :=
            ihItems _ _ _ hi ha' vs rfl
          obtain ⟨vs', rfl, hlen, hst⟩ := ha
          have hm' : listMembers (memberNodes ms') = some (vs'.map decode, size) := by
            unfold listMembers
            rw [if_pos (by rw [memberNodes_eq, List.length_map, ← hs.length]; exact hl), get?_memberNodes hn' ha',
              get?_memberNodes hn' hb', get?_memberNodes hn' hc']
            simp only [itemsOf, itemDesers_eq]
          rw [hm']
          exact accept_list_step hT _ hlen hst h

/-- Equal results: the same success, or both an error. -/
def SameResult (maps : Bool) : DeResult Dyn → DeResult Dyn → Prop
  | .ok d, .ok d' => DSame maps d d'
  | .error _, .error _ => True
  | _, _ => False

/-- **C48** The order of the members - at any depth - has no influence on what a value decodes to: for
every type, two values that differ in the order of members only both fail, or both succeed with the same
result (entries of `HashMap`s compared without order). -/
theorem C48 (v v' : Value) (h : Same v v') (T : Ty) (hT : T.OK true) : SameResult true (decode v T) (decode v' T) := by
  have h1 := (same_step true h).1 T
  have h2 := (same_step true h.symm).1 T
  cases hd : decode v T with
  | ok d =>
    obtain ⟨d', hd', hs⟩ := h1 d hT hd
    rw [hd']; exact hs
  | error e =>
    cases hd' : decode v' T with
    | error e' => trivial
    | ok d' =>
      obtain ⟨d, hd2, _⟩ := h2 d' hT hd'
      rw [hd] at hd2; cases hd2

/-- **C48** (no `HashMap` in the type) Then a success is literally the same result. -/
theorem C48_eq (v v' : Value) (h : Same v v') (T : Ty) (hT : T.OK false) (d : Dyn) :
    decode v T = .ok d ↔ decode v' T = .ok d := by
  constructor
  · intro hd
    obtain ⟨d', hd', hs⟩ := (same_step false h).1 T d hT hd
    rw [hd', hs.eq]
  · intro hd
    obtain ⟨d', hd', hs⟩ := (same_step false h.symm).1 T d hT hd
    rw [hd', hs.eq]

/-- Permuting the members of an object is an instance. -/
theorem same_of_perm (cls : Str) (lib : Option Str) (ms ms' : List (Str × Value)) (hn : (ms.map Prod.fst).Nodup)
    (h : ms.Perm ms') : Same (.object cls lib ms) (.object cls lib ms') := by
  have hk := h.map Prod.fst
  refine .object hn (hk.nodup_iff.mp hn) (fun k => hk.mem_iff) ?_
  intro k v v' hv hv'
  have := get?_mem hn hv
  rw [get?_mem hn (h.mem_iff.mpr hv')] at this
  cases this
  exact .refl _

/-- **C48** (structs, one level) -/
theorem C48_struct (cls : Str) (lib : Option Str) (ms ms' : List (Str × Value)) (hn : (ms.map Prod.fst).Nodup)
    (h : ms.Perm ms') (fs : List (Str × Ty)) (hf : (Ty.struct fs).OK false) (d : Dyn) :
    decode (.object cls lib ms) (.struct fs) = .ok d ↔ decode (.object cls lib ms') (.struct fs) = .ok d :=
  C48_eq _ _ (same_of_perm cls lib ms ms' hn h) _ hf d

/-- A nested example that meets the hypotheses: the members of the outer and of the inner object are swapped. -/
example :
    Same (.object (lit "A") none [(lit "x", .int32 1), (lit "y", .array [.object (lit "B") none [(lit "a", .null), (lit "b", .byte 3)]])])
      (.object (lit "A") none [(lit "y", .array [.object (lit "B") none [(lit "b", .byte 3), (lit "a", .null)]]), (lit "x", .int32 1)]) := by
  refine .object (by kernel_decide) (by kernel_decide) ?_ ?_
  · intro k; simp; exact Or.comm
  · intro k v v' h h'
    simp only [List.mem_cons, Prod.mk.injEq, List.not_mem_nil, or_false] at h h'
    rcases h with ⟨rfl, rfl⟩ | ⟨rfl, rfl⟩ <;> rcases h' with ⟨h, rfl⟩ | ⟨h, rfl⟩
    · exact absurd h (by kernel_decide)
    · exact .refl _
    · refine .array rfl ?_
      intro i v v' hv hv'
      match i with
      | 0 =>
        cases hv; cases hv'
        exact same_of_perm _ _ _ _ (by kernel_decide) (.swap ..)
      | i + 1 => cases hv
    · exact absurd h (by kernel_decide)

end Nrbf
