import Verif.Lemmas.Width
import Verif.Lemmas.Fails
import Verif.Props.Messages

/-! # C18 - C22: arrays -/

namespace Nrbf
open Spec

variable [Platform]

/-! ## C18: primitive arrays -/

/-- **C18** In every state, an ArraySinglePrimitive record is accepted exactly if the declared number
of encodings of the declared type follows; its value has these elements in this order. -/
theorem C18_primitive_array {s : St} (hs : Reached s) {id len : Nat} {t : PrimitiveType} {b i : Bytes}
    (hb : IsPrimitiveArrayHead id len t b) {v : Value} {r : Bytes} :
    Accepts s (b ++ i) id v r ↔ ∃ vs elements, v = .array vs ∧ vs.length = len ∧
      IsSeq (IsPrimitive t) vs elements ∧ i = elements ++ r := by
  rw [accepts_iff hs.classes]
  constructor
  · rintro ⟨E, h⟩
    exact ((record_primitiveArray hb).mp h).2.2
  · intro h
    exact ⟨abs s, (record_primitiveArray hb).mpr ⟨rfl, rfl, h⟩⟩

/-! ## C19: object and string arrays -/

/-- **C19** An accepted ArraySingleObject (16) or ArraySingleString (17) has at least the declared
length, and exactly that length if no null-run byte (13, 14) follows its header. -/
theorem C19_length {s : St} (hs : Reached s) {tag : UInt8} (ht : tag = 16 ∨ tag = 17) {id len : Nat}
    {b i : Bytes} (hb : IsArrayHead tag id len b) {v : Value} {r : Bytes}
    (h : Accepts s (b ++ i) id v r) :
    ∃ vs, v = .array vs ∧ len ≤ vs.length ∧ (NoRuns i → vs.length = len) := by
  obtain ⟨E, h⟩ := (accepts_iff hs.classes).mp h
  have key : ∃ T slots E2 i2 vs, v = .array vs ∧ Fill T len (abs s) i slots E2 i2 ∧
      Resolve slots E2 i2 vs E r := by
    rcases ht with rfl | rfl
    · obtain ⟨_, slots, E2, i2, vs, h⟩ := (record_objectArray hb).mp h
      exact ⟨_, slots, E2, i2, vs, h⟩
    · obtain ⟨_, slots, E2, i2, vs, h⟩ := (record_stringArray hb).mp h
      exact ⟨_, slots, E2, i2, vs, h⟩
  obtain ⟨T, slots, E2, i2, vs, rfl, hf, hr⟩ := key
  have h1 := fill_size hf
  have h2 := resolve_length hr
  exact ⟨vs, rfl, by omega, fun hi => by rw [h2, h1.2 (fill_ones hf hi)]⟩

/-- **C19** (exactness) The excess is what the last null run contributes beyond the end: without its
last element record the array is too short. -/
theorem C19_excess {s : St} (hs : Reached s) {tag : UInt8} (ht : tag = 16 ∨ tag = 17) {id len : Nat} {b i : Bytes}
    (hb : IsArrayHead tag id len b) {v : Value} {r : Bytes} (h : Accepts s (b ++ i) id v r) :
    ∃ vs, v = .array vs ∧ (vs.length = len ∨
      ∃ n before, len < vs.length ∧ vs.length = before + n ∧ before < len ∧
        vs.drop before = List.replicate n .null) := by
  obtain ⟨E, h⟩ := (accepts_iff hs.classes).mp h
  have key : ∃ T slots E2 i2 vs, v = .array vs ∧ Fill T len (abs s) i slots E2 i2 ∧
      Resolve slots E2 i2 vs E r := by
    rcases ht with rfl | rfl
    · obtain ⟨_, slots, E2, i2, vs, h⟩ := (record_objectArray hb).mp h
      exact ⟨_, slots, E2, i2, vs, h⟩
    · obtain ⟨_, slots, E2, i2, vs, h⟩ := (record_stringArray hb).mp h
      exact ⟨_, slots, E2, i2, vs, h⟩
  obtain ⟨T, slots, E2, i2, vs, rfl, hf, hr⟩ := key
  refine ⟨vs, rfl, ?_⟩
  have hlen := resolve_length hr
  have hge := (fill_size hf).1
  by_cases hs0 : slots = []
  · subst hs0
    have : slotsSize ([] : List Slot) = 0 := rfl
    omega
  have hlast := fill_last hf hs0
  -- the values of the slots before the last one, then those of the last one
  have split : ∀ {slots : List Slot} {E : Env} {i : Bytes} {vs : List Value} {E' : Env} {r : Bytes},
      Resolve slots E i vs E' r → ∀ n, slots.getLast? = some (.nulls n) →
      vs.drop (slotsSize slots.dropLast) = List.replicate n .null := by
    intro slots
    induction slots with
    | nil => intro _ _ _ _ _ _ n h; simp at h
    | cons s slots ih =>
      intro E i vs E' r hr n hl
      cases slots with
      | nil =>
        simp only [List.getLast?_singleton, Option.some.injEq] at hl
        subst hl
        cases hr with
        | nulls h =>
          cases h
          simp [slotsSize]
      | cons s2 slots =>
        rw [List.getLast?_cons_cons] at hl
        have hd : slotsSize (s :: s2 :: slots).dropLast = s.size + slotsSize (s2 :: slots).dropLast := by
          simp [slotsSize]
        rw [hd]
        cases hr with
        | value h =>
          have := ih h n hl
          simp only [Slot.size]
          rw [Nat.add_comm, List.drop_succ_cons]
          exact this
        | nulls h =>
          have := ih h n hl
          simp only [Slot.size]
          rw [← List.drop_drop, List.drop_left' (by simp)]
          exact this
        | known _ h =>
          have := ih h n hl
          simp only [Slot.size]
          rw [Nat.add_comm, List.drop_succ_cons]
          exact this
        | next _ _ h =>
          have := ih h n hl
          simp only [Slot.size]
          rw [Nat.add_comm, List.drop_succ_cons]
          exact this
  have hsum : slotsSize slots = slotsSize slots.dropLast + (slots.getLast hs0).size := by
    have h := congrArg slotsSize (List.dropLast_concat_getLast hs0)
    rw [← h]
    simp [slotsSize]
  cases hsl : slots.getLast hs0 with
  | nulls n =>
    rw [hsl] at hsum
    simp only [Slot.size] at hsum
    by_cases he : vs.length = len
    · exact .inl he
    · refine .inr ⟨n, slotsSize slots.dropLast, by omega, by omega, hlast, split hr n ?_⟩
      rw [List.getLast?_eq_some_getLast hs0, hsl]
  | value v =>
    rw [hsl] at hsum
    simp only [Slot.size] at hsum
    left; omega
  | ref id =>
    rw [hsl] at hsum
    simp only [Slot.size] at hsum
    left; omega

/-! ## C20, C21: multi-dimensional arrays -/

mutual
theorem shaped_leaves {dims : List Nat} {v : Value} {leaves : List Value} :
    Shaped dims v leaves → leaves.length = product dims
  | .leaf => rfl
  | .array h h1 => by rw [product, shapedAll_leaves h1, h]
theorem shapedAll_leaves {dims : List Nat} {vs : List Value} {leaves : List Value} :
    ShapedAll dims vs leaves → leaves.length = vs.length * product dims
  | .nil => by simp
  | .cons h h1 => by
    rw [List.length_append, shaped_leaves h, shapedAll_leaves h1, List.length_cons, Nat.succ_mul,
      Nat.add_comm]
end

/-- **C20** A BinaryArray without null runs reads as many element records as the product of its
lengths says; if there are any, the result is a nested array with exactly the declared length at every
level, whose leaves are the resolved elements in stream order. -/
theorem C20_shape {s : St} (hs : Reached s) {id : Nat} {kind : BinaryArrayType} {d : Nat}
    {ds : List Nat} {T : MemberType} {b i : Bytes} (hb : IsBinaryArrayHead id kind (d :: ds) T b)
    {v : Value} {r : Bytes} (h : Accepts s (b ++ i) id v r) (hi : NoRuns i)
    (hne : 0 < product (d :: ds)) :
    ∃ slots E i' leaves E', Members (List.replicate (product (d :: ds)) (some T)) (abs s) i slots E i' ∧
      Resolve slots E i' leaves E' r ∧ Shaped (d :: ds) v leaves := by
  obtain ⟨E, h⟩ := (accepts_iff hs.classes).mp h
  obtain ⟨_, n, slots, E2, i2, vs, rows, rfl, hn, hm, hr, hrows⟩ := (record_binaryArray hb).mp h
  have hn' : n = product (d :: ds) := by rw [productUsize_eq hn, Nat.one_mul]
  subst hn'
  refine ⟨slots, E2, i2, vs, E, hm, hr, .array ?_ ?_⟩
  all_goals
    have h1 := resolve_length hr
    rw [slotsSize_ones (members_ones hm hi), members_length hm, List.length_replicate] at h1
    unfold Rows at hrows
    rw [if_neg (by rintro rfl; simp only [List.length_nil] at h1; omega)] at hrows
  · have h2 := shapedAll_leaves hrows
    rw [h1] at h2
    simp only [product, List.tail_cons] at h2 hne
    exact (Nat.eq_of_mul_eq_mul_right (Nat.pos_of_mul_pos_left hne) h2).symm
  · exact hrows

/-- **C20** (also with null runs) Whatever runs of nulls there are, an accepted BinaryArray has as many element records as the
product of its lengths says, its leaves are the resolved elements in stream order, every inner length is the declared one, and
the outer length is what the number of leaves requires: at least the declared one, and more if null runs stand for more
elements than there are records. -/
theorem C20_runs {s : St} (hs : Reached s) {id : Nat} {kind : BinaryArrayType} {d : Nat}
    {ds : List Nat} {T : MemberType} {b i : Bytes} (hb : IsBinaryArrayHead id kind (d :: ds) T b)
    {v : Value} {r : Bytes} (h : Accepts s (b ++ i) id v r) (hne : 0 < product (d :: ds)) :
    ∃ slots E i' leaves E' outer, Members (List.replicate (product (d :: ds)) (some T)) (abs s) i slots E i' ∧
      Resolve slots E i' leaves E' r ∧ leaves.length = (slots.map Slot.size).sum ∧
      outer * product ds = leaves.length ∧ d ≤ outer ∧ Shaped (outer :: ds) v leaves := by
  obtain ⟨E, h⟩ := (accepts_iff hs.classes).mp h
  obtain ⟨_, n, slots, E2, i2, vs, rows, rfl, hn, hm, hr, hrows⟩ := (record_binaryArray hb).mp h
  have hn' : n = product (d :: ds) := by rw [productUsize_eq hn, Nat.one_mul]
  subst hn'
  have h1 := resolve_length hr
  have h3 := members_length hm
  have hge : slots.length ≤ slotsSize slots := by
    have := members_size hm
    clear hm hr h1 h3
    induction slots with
    | nil => exact Nat.zero_le _
    | cons a l ih =>
      have ha := this a (.head _)
      have hl := ih fun s hs => this s (.tail _ hs)
      simp only [slotsSize, List.map_cons, List.sum_cons, List.length_cons] at hl ⊢
      omega
  rw [List.length_replicate] at h3
  unfold Rows at hrows
  rw [if_neg (by rintro rfl; simp only [List.length_nil] at h1; omega)] at hrows
  have h2 := shapedAll_leaves hrows
  simp only [List.tail_cons] at h2
  refine ⟨slots, E2, i2, vs, E, rows.length, hm, hr, h1, h2.symm, ?_, .array rfl hrows⟩
  have h4 : d * product ds ≤ rows.length * product ds := by
    rw [← h2, h1]
    exact Nat.le_trans (Nat.le_of_eq h3.symm) hge
  exact Nat.le_of_mul_le_mul_right h4 (Nat.pos_of_mul_pos_left hne)

/-- **C20** (empty) An array without elements is the empty array, whatever its outer length. -/
theorem C20_empty {s : St} (hs : Reached s) {id : Nat} {kind : BinaryArrayType} {lengths : List Nat}
    {T : MemberType} {b i : Bytes} (hb : IsBinaryArrayHead id kind lengths T b) {v : Value} {r : Bytes}
    (h : Accepts s (b ++ i) id v r) (h0 : product lengths = 0) : v = .array [] ∧ r = i := by
  obtain ⟨E, h⟩ := (accepts_iff hs.classes).mp h
  obtain ⟨_, n, slots, E2, i2, vs, rows, rfl, hn, hm, hr, hrows⟩ := (record_binaryArray hb).mp h
  have hn' : n = 0 := by rw [productUsize_eq hn, Nat.one_mul, h0]
  subst hn'
  cases hm
  cases hr
  unfold Rows at hrows
  rw [if_pos rfl] at hrows
  exact ⟨by rw [hrows], rfl⟩

/-- **C21** A BinaryArray one of whose partial products (from the left) of lengths does not fit a
`usize` makes the message fail with InvalidLength at that record, whatever follows its header. -/
theorem C21_overflow {root id : Nat} {h pre b i : Bytes} {kind : BinaryArrayType} {lengths : List Nat}
    {T : MemberType} {E : Env} (hh : IsHeader root h) (hpre : Records Env.empty (pre ++ b ++ i) E (b ++ i))
    (hb : IsBinaryArrayHead id kind lengths T b) {k : Nat} (hk : 2 ^ usizeBits ≤ product (lengths.take k)) :
    deserialize (h ++ pre ++ b ++ i) = .err ⟨b ++ i, .invalidLength⟩ := by
  have hp : productUsize 1 lengths = none :=
    (productUsize_none 1 one_lt_usize lengths).mpr ⟨k, by rw [Nat.one_mul]; exact hk⟩
  have := records_failure hh hpre fun s _ _ => ⟨s, binaryArray_overflow hb hp⟩
  simpa using this

/-- **C21** (otherwise) exactly as many element records are read as the product says. -/
theorem C21_count {s : St} (hs : Reached s) {id : Nat} {kind : BinaryArrayType} {lengths : List Nat}
    {T : MemberType} {b i : Bytes} (hb : IsBinaryArrayHead id kind lengths T b) {v : Value} {r : Bytes}
    (h : Accepts s (b ++ i) id v r) :
    (∀ k, product (lengths.take k) < 2 ^ usizeBits) ∧ ∃ slots E i' leaves E', slots.length = product lengths ∧
      Members (List.replicate slots.length (some T)) (abs s) i slots E i' ∧
      Resolve slots E i' leaves E' r := by
  obtain ⟨E, h⟩ := (accepts_iff hs.classes).mp h
  obtain ⟨_, n, slots, E2, i2, vs, rows, rfl, hn, hm, hr, hrows⟩ := (record_binaryArray hb).mp h
  have hl := members_length hm
  rw [List.length_replicate] at hl
  constructor
  · intro k
    refine Nat.lt_of_not_le fun hk => ?_
    have := (productUsize_none 1 one_lt_usize lengths).mpr ⟨k, by rw [Nat.one_mul]; exact hk⟩
    rw [hn] at this
    cases this
  · refine ⟨slots, E2, i2, vs, E, ?_, ?_, hr⟩
    · rw [hl, productUsize_eq hn, Nat.one_mul]
    · rw [hl]; exact hm

/-! ## C22: lower bounds -/

/-- **C22** (records) The lower bounds, and the array type byte itself, do not matter: with the same
id, lengths and element type, the same records are accepted with the same value. -/
theorem C22_record {s : St} (hs : Reached s) {id : Nat} {kind kind' : BinaryArrayType}
    {lengths : List Nat} {T : MemberType} {b b' i : Bytes} (hb : IsBinaryArrayHead id kind lengths T b)
    (hb' : IsBinaryArrayHead id kind' lengths T b') {v : Value} {r : Bytes} :
    Accepts s (b ++ i) id v r ↔ Accepts s (b' ++ i) id v r := by
  simp only [accepts_iff hs.classes, record_binaryArray hb, record_binaryArray hb']

/-- **C22** (messages) Two messages that differ only in the lower bounds or the array type of their
first record have the same content. -/
theorem C22_message {root id : Nat} {h : Bytes} {kind kind' : BinaryArrayType}
    {lengths : List Nat} {T : MemberType} {b b' i : Bytes} {m : RemotingMessage} (hh : IsHeader root h)
    (hb : IsBinaryArrayHead id kind lengths T b) (hb' : IsBinaryArrayHead id kind' lengths T b')
    (hm : Message (h ++ b ++ i) m) : deserialize (h ++ b' ++ i) = .ok m := by
  have key : ∀ {E : Env} {i1 : Bytes} {t : Bytes}, Records Env.empty (b ++ i) E i1 → Tail root E i1 m t →
      Records Env.empty (b' ++ i) E i1 := by
    intro E i1 t hr ht
    cases hr with
    | nil =>
      exfalso
      have h7 := binaryArrayHead_head (r := i) hb
      clear hm
      generalize b ++ i = j at ht h7
      cases ht with
      | value => cases h7
      | method hmeth =>
        cases hmeth with
        | call _ hc => rw [methodCall_head hc] at h7; cases h7
        | «return» _ hc => rw [methodReturn_head hc] at h7; cases h7
    | cons hr hrs =>
      obtain ⟨rfl, hr⟩ := (record_binaryArray hb).mp hr
      exact .cons ((record_binaryArray hb').mpr ⟨rfl, hr⟩) hrs
  unfold Message at hm
  generalize hw : h ++ b ++ i = w at hm
  cases hm with
  | @mk root' h' j E i1 _ _ hh' hrec ht =>
    rw [List.append_assoc] at hw
    obtain ⟨e1, e2⟩ := List.append_inj hw (by rw [header_length hh, header_length hh'])
    subst e1 e2
    have hroot : root = root' := by
      obtain ⟨_, _, ⟨hr, rfl⟩, hl, rfl⟩ := hh
      obtain ⟨_, _, ⟨hr', rfl⟩, hl', he⟩ := hh'
      simp only [List.cons_append, List.cons.injEq, true_and, List.append_assoc] at he
      have := (List.append_inj he (by simp)).1
      have h1 := leNat_le 4 root
      rw [this, leNat_le] at h1
      omega
    subst hroot
    rw [List.append_assoc]
    exact C31_complete (.mk hh (key hrec ht) ht)

/-- **C22** (messages) The same for an array behind other records `a`. -/
theorem C22_later {root id : Nat} {h a : Bytes} {kind kind' : BinaryArrayType} {lengths : List Nat} {T : MemberType}
    {b b' i i1 i2 : Bytes} {v : Value} {E E1 E2 : Env} {m : RemotingMessage} (hh : IsHeader root h)
    (ha : ∀ rest, Records Env.empty (a ++ rest) E rest) (hb : IsBinaryArrayHead id kind lengths T b)
    (hb' : IsBinaryArrayHead id kind' lengths T b') (hr : Record E (b ++ i) id v E1 i1)
    (hi : Records (E1.add id v) i1 E2 i2) (ht : Tail root E2 i2 m []) :
    deserialize (h ++ (a ++ (b ++ i))) = .ok m ∧ deserialize (h ++ (a ++ (b' ++ i))) = .ok m := by
  have trans : ∀ {E : Env} {i : Bytes} {E1 : Env} {i1 : Bytes} {E2 : Env} {i2 : Bytes}, Records E i E1 i1 →
      Records E1 i1 E2 i2 → Records E i E2 i2 := by
    intro E i E1 i1 E2 i2 h h'
    induction h with
    | nil => exact h'
    | cons hr _ ih => exact .cons hr (ih h')
  have hr' : Record E (b' ++ i) id v E1 i1 := (record_binaryArray hb').mpr ((record_binaryArray hb).mp hr)
  exact ⟨C31_complete (.mk hh (trans (ha _) (.cons hr hi)) ht), C31_complete (.mk hh (trans (ha _) (.cons hr' hi)) ht)⟩

omit [Platform] in
theorem count_fail {p : Parser Nat} {R : Nat → Bytes → Prop} (hp : Exact p R) {e : Error} {l : List Nat} {b j : Bytes}
    (hb : IsSeq R l b) (hj : p j = .failure e) {n : Nat} (hn : l.length < n) :
    count p n (b ++ j) = .failure e := by
  induction l generalizing b n with
  | nil =>
    cases hb
    cases n with
    | zero => simp at hn
    | succ n => simp only [count, List.nil_append, hj, Outcome.bind]
  | cons a l ih =>
    obtain ⟨b1, b2, h1, h2, rfl⟩ := hb
    cases n with
    | zero => simp at hn
    | succ n =>
      have e1 := (hp (b1 ++ (b2 ++ j)) (b2 ++ j) a).mpr ⟨b1, h1, rfl⟩
      rw [List.append_assoc]
      simp only [count, e1, Outcome.bind]
      rw [ih h2 (n := n) (by simp only [List.length_cons] at hn; omega)]
      rfl

/-- **C22** (negative) A negative lower bound makes the message fail with InvalidLength at that bound,
whatever follows it. -/
theorem C22_negative {root id : Nat} {h pre bid brank blens bounds i : Bytes} {kind : BinaryArrayType}
    {lengths before : List Nat} {z : Int} {E : Env} (hh : IsHeader root h)
    (hpre : Records Env.empty
      (pre ++ (7 :: bid ++ [arrayKindByte kind] ++ brank ++ blens ++ bounds ++ (leInt 4 z ++ i))) E
      (7 :: bid ++ [arrayKindByte kind] ++ brank ++ blens ++ bounds ++ (leInt 4 z ++ i)))
    (hid : IsId id bid) (hk : hasLowerBounds kind) (hr : IsLength lengths.length brank)
    (hl : IsSeq IsLength lengths blens) (hbefore : IsSeq IsLength before bounds)
    (hlt : before.length < lengths.length) (hz : InSigned 4 z) (hneg : z < 0) :
    deserialize (h ++ (pre ++ (7 :: bid ++ [arrayKindByte kind] ++ brank ++ blens ++ bounds ++ (leInt 4 z ++ i)))) =
      .err ⟨leInt 4 z ++ i, .invalidLength⟩ := by
  refine records_failure hh hpre fun s _ _ => ⟨s, ?_⟩
  have hlen : Nrbf.length (leInt 4 z ++ i) = .failure ⟨leInt 4 z ++ i, .invalidLength⟩ := by
    unfold Nrbf.length
    rw [int32_int hz]
    simp only [Outcome.bind]
    rw [if_neg (by omega)]
  have e0 : 7 :: bid ++ [arrayKindByte kind] ++ brank ++ blens ++ bounds ++ (leInt 4 z ++ i) =
      [7] ++ (bid ++ ([arrayKindByte kind] ++ (brank ++ (blens ++ (bounds ++ (leInt 4 z ++ i)))))) := by
    simp [List.append_assoc]
  rw [e0]
  have h7 : ([7] ++ (bid ++ ([arrayKindByte kind] ++ (brank ++ (blens ++ (bounds ++ (leInt 4 z ++ i))))))).head? = some (7 : UInt8) := rfl
  generalize hw : [7] ++ (bid ++ ([arrayKindByte kind] ++ (brank ++ (blens ++ (bounds ++ (leInt 4 z ++ i)))))) = w at h7
  refine referenceable_array (.inr (.inr (.inr h7))) rfl ?_
  rw [altMut_skip (arraySingleObject_mismatch (by rw [h7]; decide) s),
    altMut_skip (arraySinglePrimitive_mismatch (by rw [h7]; decide) s),
    altMut_skip (arraySingleString_mismatch (by rw [h7]; decide) s)]
  have hparse : BinaryArray.parse w = .failure ⟨leInt 4 z ++ i, .invalidLength⟩ := by
    subst hw
    unfold BinaryArray.parse
    simp only [(recordType_exact .binaryArray _ _ _).mpr ⟨[7], ⟨rfl, rfl⟩, rfl⟩, Outcome.bind,
      (objectId_exact _ _ _).mpr ⟨bid, hid, rfl⟩, (binaryArrayType_exact _ _ kind).mpr ⟨_, rfl, rfl⟩,
      (length_exact _ _ _).mpr ⟨brank, hr, rfl⟩,
      (count_exact length_exact lengths.length _ _ lengths).mpr ⟨blens, ⟨rfl, hl⟩, rfl⟩]
    have hb : kind.hasLowerBounds = true := by cases kind <;> first | rfl | cases hk
    rw [hb]
    simp only [cond, if_true, count_fail length_exact hbefore hlen hlt]
    rfl
  simp only [altMut, binaryArray, lift, hparse, Res.bind]

/-! ## Concrete cases -/

open Tests

/-- The object with id 1 of a message is its content. -/
theorem deserialize_one {b : Bytes} {v : Value} (h : Accepts St.init b 1 v [11]) :
    deserialize (header 1 ++ b) = .ok (.value v) := by
  obtain ⟨E, h⟩ := (accepts_iff (s := St.init) rfl).mp h
  rw [abs_init] at h
  exact single_record (isHeader_header 1 (by decide)) (by decide) h

/-- C18: three bytes. -/
example : deserialize (header 1 ++ ([15, 1,0,0,0, 3,0,0,0, 2] ++ [7, 8, 9, 11])) =
    .ok (.value (.array [.byte 7, .byte 8, .byte 9])) :=
  deserialize_one ((C18_primitive_array .init (id := 1) (len := 3) (t := .byte)
    ⟨_, ⟨_, _, ⟨by decide, by decide, rfl⟩, ⟨by decide, rfl⟩, rfl⟩, rfl⟩).mpr
      ⟨_, [7, 8, 9], rfl, rfl, ⟨[7], [8, 9], ⟨by decide, rfl⟩, ⟨[8], [9], ⟨by decide, rfl⟩,
        ⟨[9], [], ⟨by decide, rfl⟩, rfl, rfl⟩, rfl⟩, rfl⟩, rfl⟩)

/-- **C19** is false for equality: declared length 1, one run of two nulls, two elements. -/
theorem C19_length_false : ∃ b i vs, IsArrayHead 16 1 1 b ∧
    deserialize (header 1 ++ (b ++ i)) = .ok (.value (.array vs)) ∧ vs.length ≠ 1 :=
  ⟨[16, 1,0,0,0, 1,0,0,0], [13,2, 11], [.null, .null],
    ⟨_, _, ⟨by decide, by decide, rfl⟩, ⟨by decide, rfl⟩, rfl⟩, by kernel_decide, by decide⟩

/-- An accepted record of a kernel run. -/
theorem accepts_of_run {b r : Bytes} {id : Nat} {v : Value}
    (h : (parseReferenceable St.init b).1 = .ok r id)
    (hv : (parseReferenceable St.init b).2.objects.get? id = some v) : Accepts St.init b id v r :=
  ⟨_, Prod.ext h rfl, hv⟩

/-- C19: the hypotheses are met by an array with a string and a null. -/
example : ∃ vs, Value.array [.string [120], .null] = .array vs ∧ vs.length = 2 :=
  have h : Accepts St.init ([17, 1,0,0,0, 2,0,0,0] ++ [6, 2,0,0,0, 1,120, 10, 11]) 1
      (.array [.string [120], .null]) [11] := accepts_of_run (by kernel_decide) (by kernel_decide)
  let ⟨vs, h1, _, h3⟩ := C19_length .init (.inr rfl) (id := 1) (len := 2)
    (b := [17, 1,0,0,0, 2,0,0,0]) (i := [6, 2,0,0,0, 1,120, 10, 11]) ⟨_, _, ⟨by decide, by decide, rfl⟩, ⟨by decide, rfl⟩, rfl⟩ h
  ⟨vs, h1, h3 ⟨by decide, by decide⟩⟩

/-- The header of a 2 x 3 array of bytes. -/
theorem matrixHead : IsBinaryArrayHead 1 .rectangular [2, 3] (.primitive .byte)
    [7, 1,0,0,0, 2, 2,0,0,0, 2,0,0,0, 3,0,0,0, 0, 2] :=
  ⟨[1,0,0,0], [2,0,0,0], [2,0,0,0, 3,0,0,0], [], [2], ⟨by decide, by decide, rfl⟩, ⟨by decide, rfl⟩,
    ⟨[2,0,0,0], [3,0,0,0], ⟨by decide, rfl⟩, ⟨[3,0,0,0], [], ⟨by decide, rfl⟩, rfl, rfl⟩, rfl⟩,
    fun h => h.elim, fun _ => rfl, rfl, rfl⟩

/-- The same with lower bounds 5 and 6. -/
theorem offsetHead : IsBinaryArrayHead 1 .rectangularOffset [2, 3] (.primitive .byte)
    [7, 1,0,0,0, 5, 2,0,0,0, 2,0,0,0, 3,0,0,0, 5,0,0,0, 6,0,0,0, 0, 2] :=
  ⟨[1,0,0,0], [2,0,0,0], [2,0,0,0, 3,0,0,0], [5,0,0,0, 6,0,0,0], [2], ⟨by decide, by decide, rfl⟩,
    ⟨by decide, rfl⟩,
    ⟨[2,0,0,0], [3,0,0,0], ⟨by decide, rfl⟩, ⟨[3,0,0,0], [], ⟨by decide, rfl⟩, rfl, rfl⟩, rfl⟩,
    fun _ => ⟨[5, 6], rfl, ⟨[5,0,0,0], [6,0,0,0], ⟨by decide, rfl⟩, ⟨[6,0,0,0], [], ⟨by decide, rfl⟩, rfl, rfl⟩, rfl⟩⟩,
    fun h => absurd trivial h, rfl, rfl⟩

/-- The value of that array with elements 21, ..., 26. -/
def matrix : Value :=
  .array [.array [.byte 21, .byte 22, .byte 23], .array [.byte 24, .byte 25, .byte 26]]

theorem matrix_accepted : Accepts St.init
    ([7, 1,0,0,0, 2, 2,0,0,0, 2,0,0,0, 3,0,0,0, 0, 2] ++ [21, 22, 23, 24, 25, 26, 11]) 1 matrix [11] :=
  accepts_of_run (by platform_decide) (by platform_decide)

/-- C20: the hypotheses are met. -/
example : ∃ leaves, Shaped [2, 3] matrix leaves ∧ leaves.length = 6 :=
  let ⟨_, _, _, leaves, _, _, _, h⟩ := C20_shape .init matrixHead matrix_accepted ⟨by decide, by decide⟩ (by decide)
  ⟨leaves, h, shaped_leaves h⟩

/-- The header of a 2 x 2 array of objects. -/
theorem squareHead : IsBinaryArrayHead 1 .rectangular [2, 2] .object
    [7, 1,0,0,0, 2, 2,0,0,0, 2,0,0,0, 2,0,0,0, 2] :=
  ⟨[1,0,0,0], [2,0,0,0], [2,0,0,0, 2,0,0,0], [], [], ⟨by decide, by decide, rfl⟩, ⟨by decide, rfl⟩,
    ⟨[2,0,0,0], [2,0,0,0], ⟨by decide, rfl⟩, ⟨[2,0,0,0], [], ⟨by decide, rfl⟩, rfl, rfl⟩, rfl⟩,
    fun h => h.elim, fun _ => rfl, rfl, rfl⟩

/-- Its four element records are runs of three, one, one and one null. -/
theorem square_accepted : Accepts St.init
    ([7, 1,0,0,0, 2, 2,0,0,0, 2,0,0,0, 2,0,0,0, 2] ++ [13, 3, 10, 10, 10, 11]) 1
    (.array [.array [.null, .null], .array [.null, .null], .array [.null, .null]]) [11] :=
  accepts_of_run (by platform_decide) (by platform_decide)

/-- C20: the runs stand for six elements, and the array has three rows. -/
example : ∃ outer leaves, 2 ≤ outer ∧ outer * product [2] = leaves.length ∧
    Shaped [outer, 2] (.array [.array [.null, .null], .array [.null, .null], .array [.null, .null]]) leaves :=
  let ⟨_, _, _, leaves, _, outer, _, _, _, h1, h2, h3⟩ := C20_runs .init squareHead square_accepted (by decide)
  ⟨outer, leaves, h2, h1, h3⟩

/-- **C20** is false without the condition that there are elements: an array with lengths 2 and 0
should have two empty rows, but has none. -/
theorem C20_shape_false : ∃ b i v, IsBinaryArrayHead 1 .rectangular [2, 0] (.primitive .byte) b ∧
    deserialize (header 1 ++ (b ++ i)) = .ok (.value v) ∧ ¬ ∃ leaves, Shaped [2, 0] v leaves := by
  refine ⟨[7, 1,0,0,0, 2, 2,0,0,0, 2,0,0,0, 0,0,0,0, 0, 2], [11], .array [],
    ⟨[1,0,0,0], [2,0,0,0], [2,0,0,0, 0,0,0,0], [], [2], ⟨by decide, by decide, rfl⟩, ⟨by decide, rfl⟩,
    ⟨[2,0,0,0], [0,0,0,0], ⟨by decide, rfl⟩, ⟨[0,0,0,0], [], ⟨by decide, rfl⟩, rfl, rfl⟩, rfl⟩,
    fun h => h.elim, fun _ => rfl, rfl, rfl⟩, by platform_decide, ?_⟩
  rintro ⟨leaves, h⟩
  cases h with
  | array h _ => cases h

/-- C21: a rank 3 array with lengths 2^31-1: the third product overflows. -/
example (i : Bytes) : deserialize (header 1 ++ [] ++ [7, 1,0,0,0, 2, 3,0,0,0, 255,255,255,127,
      255,255,255,127, 255,255,255,127, 0, 2] ++ i) =
    .err ⟨[7, 1,0,0,0, 2, 3,0,0,0, 255,255,255,127, 255,255,255,127, 255,255,255,127, 0, 2] ++ i,
      .invalidLength⟩ :=
  C21_overflow (id := 1) (kind := .rectangular) (lengths := [2^31-1, 2^31-1, 2^31-1]) (T := .primitive .byte)
    (E := Env.empty) (isHeader_header 1 (by decide)) .nil
    ⟨[1,0,0,0], [3,0,0,0], [255,255,255,127, 255,255,255,127, 255,255,255,127], [], [2],
      ⟨by decide, by decide, rfl⟩, ⟨by decide, rfl⟩,
      ⟨[255,255,255,127], [255,255,255,127, 255,255,255,127], ⟨by decide, rfl⟩,
        ⟨[255,255,255,127], [255,255,255,127], ⟨by decide, rfl⟩,
          ⟨[255,255,255,127], [], ⟨by decide, rfl⟩, rfl, rfl⟩, rfl⟩, rfl⟩,
      fun h => h.elim, fun _ => rfl, rfl, rfl⟩ (k := 3) (by platform_decide)

/-- C22: the bounds do not matter. -/
example : deserialize (header 1 ++ ([7, 1,0,0,0, 5, 2,0,0,0, 2,0,0,0, 3,0,0,0, 5,0,0,0, 6,0,0,0, 0, 2] ++
    [21, 22, 23, 24, 25, 26, 11])) = .ok (.value matrix) :=
  deserialize_one ((C22_record .init matrixHead offsetHead).mp matrix_accepted)

/-- C22: the second bound is -1. -/
example : deserialize (header 1 ++ ([] ++ (7 :: [1,0,0,0] ++ [5] ++ [2,0,0,0] ++ [2,0,0,0, 3,0,0,0] ++ [5,0,0,0] ++
    (leInt 4 (-1) ++ [0, 2])))) = .err ⟨leInt 4 (-1) ++ [0, 2], .invalidLength⟩ :=
  C22_negative (id := 1) (kind := .rectangularOffset) (lengths := [2, 3]) (before := [5])
    (E := Env.empty) (isHeader_header 1 (by decide)) .nil ⟨by decide, by decide, rfl⟩ trivial ⟨by decide, rfl⟩
    ⟨[2,0,0,0], [3,0,0,0], ⟨by decide, rfl⟩, ⟨[3,0,0,0], [], ⟨by decide, rfl⟩, rfl, rfl⟩, rfl⟩
    ⟨[5,0,0,0], [], ⟨by decide, rfl⟩, rfl, rfl⟩ (by decide) ⟨by decide, by decide⟩ (by decide)

end Nrbf
