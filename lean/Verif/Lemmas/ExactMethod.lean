import Verif.Spec.Method
import Verif.Lemmas.ExactRecord

/-! # Exact characterisation of the header, flags and method records -/

namespace Nrbf
open Spec

variable {ε α β : Type}

/-! ## Header and end -/

theorem leUnsigned_total {width : Nat} {b r : Bytes} (h : b.length = width) :
    leUnsigned width (b ++ r) = .ok r (leNat b) := by
  subst h
  simp [leUnsigned, takeN]

theorem int32_total {b r : Bytes} (h : b.length = 4) :
    Int32.parse (b ++ r) = .ok r (toSigned 32 (leNat b)) := by
  unfold Int32.parse leSigned
  rw [leUnsigned_total h]
  rfl

theorem int32_le {n : Nat} (h : n < 2 ^ 31) (r : Bytes) : Int32.parse (le 4 n ++ r) = .ok r n := by
  refine (int32_exact _ _ _).mpr ⟨_, ⟨⟨?_, ?_⟩, rfl⟩, by rw [leInt_nonneg h]⟩ <;> simp <;> omega

/-- The root id a header declares. -/
def rootOf (root : Nat) : Option Nat := if root = 0 then none else some root

theorem header_ok {root : Nat} {b : Bytes} (h : IsHeader root b) (r : Bytes) :
    ∃ hd, SerializationHeader.parse (b ++ r) = .ok r hd ∧ hd.rootId = rootOf root := by
  obtain ⟨_, bh, ⟨hr, rfl⟩, hl, rfl⟩ := h
  have h1 : (RecordType.serializedStreamHeader.parse
      (0 :: le 4 root ++ bh ++ le 4 1 ++ le 4 0 ++ r)) =
      .ok (le 4 root ++ (bh ++ (le 4 1 ++ (le 4 0 ++ r)))) .serializedStreamHeader := by
    refine (recordType_exact _ _ _ _).mpr ⟨[0], ⟨rfl, rfl⟩, by simp⟩
  unfold SerializationHeader.parse
  rw [h1]
  simp only [Outcome.bind]
  rw [int32_le hr]
  simp only [if_pos (Int.natCast_nonneg root)]
  rw [int32_total hl]
  simp only
  rw [int32_le (n := 1) (by omega)]
  simp only [Int.natCast_one, if_true]
  rw [int32_le (n := 0) (by omega)]
  exact ⟨_, rfl, rfl⟩

theorem header_sound {i r : Bytes} {hd : SerializationHeader}
    (h : SerializationHeader.parse i = .ok r hd) :
    ∃ root b, IsHeader root b ∧ i = b ++ r ∧ hd.rootId = rootOf root := by
  unfold SerializationHeader.parse at h
  simp only [Outcome.bind_ok] at h
  obtain ⟨i1, _, h1, i2, rid, ⟨i2', n, h2, h2'⟩, i3, hid, h3, i4, _, ⟨i4', m, h4, h4'⟩, i5, _,
    ⟨i5', m', h5, h5'⟩, h6⟩ := h
  obtain ⟨_, ⟨_, rfl⟩, rfl⟩ := (recordType_exact _ _ _ _).mp h1
  obtain ⟨_, ⟨hn, rfl⟩, rfl⟩ := (int32_exact _ _ _).mp h2
  obtain ⟨_, ⟨hm, rfl⟩, rfl⟩ := (int32_exact _ _ _).mp h3
  obtain ⟨_, ⟨hm, rfl⟩, rfl⟩ := (int32_exact _ _ _).mp h4
  obtain ⟨_, ⟨hm, rfl⟩, rfl⟩ := (int32_exact _ _ _).mp h5
  split at h2'
  · rename_i hn0
    cases h2'
    split at h4'
    · cases h4'
      split at h5'
      · cases h5'
        cases h6
        rename_i e1 e2
        subst e1 e2
        have hlt : n.toNat < 2 ^ 31 := by have := hn.2; simp at this; omega
        refine ⟨n.toNat, _, ⟨le 4 n.toNat, leInt 4 hid, ⟨hlt, rfl⟩, ?_, rfl⟩, ?_, rfl⟩
        · simp [leInt]
        · have e : leInt 4 n = le 4 n.toNat := by
            rw [← leInt_nonneg hlt]; congr 1; omega
          rw [e]
          simp [RecordType.code]
          rfl
      · cases h5'
    · cases h4'
  · cases h2'

theorem messageEnd_exact : Exact MessageEnd.parse (fun _ b => b = [11]) :=
  ((recordType_exact .messageEnd).map _).congr fun n b => by
    constructor
    · rintro ⟨_, ⟨rfl, rfl⟩, rfl⟩; rfl
    · rintro rfl; exact ⟨_, ⟨rfl, rfl⟩, rfl⟩

/-! ## Flags -/

theorem and_ne_zero (x m : BitVec 32) :
    (x &&& m != 0#32) = (List.range 32).any fun k => m.getLsbD k && x.getLsbD k := by
  rw [Bool.eq_iff_iff]
  simp only [bne_iff_ne, ne_eq, List.any_eq_true, List.mem_range, Bool.and_eq_true]
  constructor
  · intro h
    apply Classical.byContradiction
    intro hne
    apply h
    apply BitVec.eq_of_getLsbD_eq
    intro k hk
    rw [BitVec.getLsbD_and, BitVec.getLsbD_zero]
    by_cases hx : x.getLsbD k = true
    · by_cases hm : m.getLsbD k = true
      · exact absurd ⟨k, hk, hm, hx⟩ hne
      · simp [hm]
    · simp [hx]
  · rintro ⟨k, _, hm, hx⟩ h
    have := congrArg (fun y => y.getLsbD k) h
    simp [hm, hx] at this

theorem intersects_bit (f : BitVec 32) (m : BitVec 32) (k : Nat) (hk : k < 32) (hm : m = BitVec.twoPow 32 k) :
    MessageFlags.intersects f m = f.getLsbD k := by
  subst hm
  unfold MessageFlags.intersects
  rw [and_ne_zero, Bool.eq_iff_iff]
  simp only [List.any_eq_true, List.mem_range, Bool.and_eq_true, BitVec.getLsbD_twoPow,
    decide_eq_true_eq]
  constructor
  · rintro ⟨j, hj, ⟨_, rfl⟩, h⟩; exact h
  · intro h; exact ⟨k, hk, ⟨hk, rfl⟩, h⟩

/-- The positions of the bits of a mask. -/
def maskBits (m : BitVec 32) : List Nat := (List.range 32).filter fun k => m.getLsbD k

theorem countOnes_and (f m : BitVec 32) :
    MessageFlags.countOnes (f &&& m) = ((maskBits m).filter fun k => f.getLsbD k).length := by
  unfold MessageFlags.countOnes maskBits
  rw [List.filter_filter]
  congr 2
  funext k
  rw [BitVec.getLsbD_and]

theorem and_ne_zero' (f m : BitVec 32) :
    (f &&& m != 0#32) = true ↔ ¬ NoneOf f (maskBits m) := by
  rw [and_ne_zero]
  simp [NoneOf, maskBits]

theorem filter_length_le_one {p : Nat → Bool} {l : List Nat} (h : l.Nodup) :
    (l.filter p).length ≤ 1 ↔ ∀ j ∈ l, ∀ k ∈ l, p j = true → p k = true → j = k := by
  constructor
  · intro hl j hj k hk hpj hpk
    have h1 : j ∈ l.filter p := List.mem_filter.mpr ⟨hj, hpj⟩
    have h2 : k ∈ l.filter p := List.mem_filter.mpr ⟨hk, hpk⟩
    match l.filter p, hl, h1, h2 with
    | [x], _, h1, h2 => simp at h1 h2; omega
    | _ :: _ :: _, hl, _, _ => simp at hl
  · intro hall
    have hn := h.filter p
    match hf : l.filter p, hn with
    | [], _ => simp
    | [_], _ => simp
    | x :: y :: t, hn =>
      have h1 : x ∈ l.filter p := by rw [hf]; simp
      have h2 : y ∈ l.filter p := by rw [hf]; simp
      rw [List.mem_filter] at h1 h2
      have := hall x h1.1 y h2.1 h1.2 h2.2
      simp [this] at hn

theorem atMostOne_iff (f m : BitVec 32) :
    MessageFlags.countOnes (f &&& m) > 1 ↔ ¬ AtMostOne f (maskBits m) := by
  rw [countOnes_and]
  have := filter_length_le_one (p := fun k => f.getLsbD k) (l := maskBits m)
    (List.nodup_range.filter _)
  unfold AtMostOne
  rw [← this]
  omega

open MessageFlags in
theorem flags_check (f : BitVec 32) : check f = true ↔ FlagsOk f := by
  have ha : maskBits (NO_ARGS ||| ARGS_INLINE ||| ARGS_IS_ARRAY ||| ARGS_IN_ARRAY) = argsBits := by
    decide +kernel
  have hc : maskBits (NO_CONTEXT ||| CONTEXT_INLINE ||| CONTEXT_IN_ARRAY) = contextBits := by
    decide +kernel
  have hr : maskBits (NO_RETURN_VALUE ||| RETURN_VALUE_VOID ||| RETURN_VALUE_IN_ARRAY |||
      RETURN_VALUE_IN_ARRAY) = returnBits := by decide +kernel
  have hs : maskBits METHOD_SIGNATURE_IN_ARRAY = [signatureBit] := by decide +kernel
  have he : maskBits EXCEPTION_IN_ARRAY = [exceptionBit] := by decide +kernel
  have key : ∀ a b c x e r sg : Bool,
      ((if (a || b || c) = true then false else if (x && e) = true then false
        else if (r && e) = true then false else if (r && sg) = true then false
        else if (e && sg) = true then false else true) = true) ↔
      (a = false ∧ b = false ∧ c = false ∧ (e = true → x = false ∧ r = false ∧ sg = false) ∧
        (sg = true → r = false)) := by
    intro a b c x e r sg
    cases a <;> cases b <;> cases c <;> cases x <;> cases e <;> cases r <;> cases sg <;> simp
  have hone : ∀ m k, maskBits m = [k] → (f &&& m != 0#32) = f.getLsbD k := by
    intro m k hm
    rw [Bool.eq_iff_iff, and_ne_zero', hm]
    simp [NoneOf]
  have hnone : ∀ m, (f &&& m != 0#32) = false ↔ NoneOf f (maskBits m) := by
    intro m
    rw [← Bool.not_eq_true, and_ne_zero', Classical.not_not]
  have hcount : ∀ m, decide (countOnes (f &&& m) > 1) = false ↔ AtMostOne f (maskBits m) := by
    intro m
    rw [decide_eq_false_iff_not, atMostOne_iff, Classical.not_not]
  unfold check FlagsOk
  dsimp only
  rw [hone _ _ hs, hone _ _ he]
  refine (key _ _ _ _ _ _ _).trans ?_
  rw [hcount, hcount, hcount, hnone, hnone, ha, hc, hr]
  have happ : ∀ a b, NoneOf f (a ++ b) ↔ NoneOf f a ∧ NoneOf f b := by
    intro a b; simp [NoneOf, or_imp, forall_and]
  have hsing : NoneOf f [signatureBit] ↔ f.getLsbD signatureBit = false := by simp [NoneOf]
  rw [happ, happ, hsing, and_assoc]

theorem flags_exact : Exact MessageFlags.parse (fun f b => FlagsOk f ∧ IsFlags f b) := by
  intro i r f
  unfold MessageFlags.parse
  simp only [Outcome.bind_ok, Outcome.relabel_ok, int32_exact i]
  constructor
  · rintro ⟨r', z, ⟨b, ⟨hz, rfl⟩, rfl⟩, h⟩
    split at h
    · rename_i hc
      cases h
      refine ⟨_, ⟨(flags_check _).mp hc, ?_⟩, rfl⟩
      unfold IsFlags leInt
      rw [BitVec.toNat_ofInt]
      rfl
    · cases h
  · rintro ⟨b, ⟨hf, rfl⟩, rfl⟩
    refine ⟨r, f.toInt, ⟨_, ⟨⟨?_, ?_⟩, rfl⟩, ?_⟩, ?_⟩
    · have := @BitVec.le_toInt 32 f; simp at this ⊢; omega
    · have := @BitVec.toInt_lt 32 f; simp at this ⊢; omega
    · unfold leInt
      congr 2
      rw [BitVec.toInt_eq_toNat_cond]
      have := f.isLt
      split <;> simp <;> omega
    · simp [(flags_check f).mpr hf]

/-! ## Coded values -/

theorem codedString_exact : Exact StringValueWithCode.parse IsCodedString :=
  (Exact.bind ((tagByte_exact PrimitiveType.string PrimitiveType.string.code).fail' _)
    (S := fun _ a b => IsString a b) fun _ => lps_exact).congr fun s b => by
    constructor
    · rintro ⟨_, _, b2, ⟨rfl, rfl⟩, h, rfl⟩; exact ⟨b2, h, rfl⟩
    · rintro ⟨b', h, rfl⟩; exact ⟨_, _, b', ⟨rfl, rfl⟩, h, rfl⟩

/-- The value after the type byte. -/
def IsBody [Platform] (t : PrimitiveType) (v : Value) (b : Bytes) : Prop :=
  match t with
  | .null => v = .null ∧ b = []
  | .string => ∃ s, v = .string s ∧ IsString s b
  | t => IsPrimitive t v b

theorem codedValue_exact [Platform] :
    Exact (fun i => (ValueWithCode.parse i).map ValueWithCode.intoValue) IsCodedValue := by
  have hbody : ∀ t : PrimitiveType, Exact (fun i => ((match t with
    | .boolean => (Boolean.parse i).map (.prim ∘ .boolean)
    | .byte => (Byte.parse i).map (.prim ∘ .byte)
    | .char => (Char.parse i).map (.prim ∘ .char)
    | .decimal => (Decimal.parse i).map (.prim ∘ .decimal)
    | .double => (Double.parse i).map (.prim ∘ .double)
    | .int16 => (Int16.parse i).map (.prim ∘ .int16)
    | .int32 => (Int32.parse i).map (.prim ∘ .int32)
    | .int64 => (Int64.parse i).map (.prim ∘ .int64)
    | .sbyte => (Int8.parse i).map (.prim ∘ .sbyte)
    | .single => (Single.parse i).map (.prim ∘ .single)
    | .timeSpan => (TimeSpan.parse i).map (.prim ∘ .timeSpan)
    | .dateTime => (DateTime.parse i).map (.prim ∘ .dateTime)
    | .uint16 => (UInt16.parse i).map (.prim ∘ .uint16)
    | .uint32 => (UInt32.parse i).map (.prim ∘ .uint32)
    | .uint64 => (UInt64.parse i).map (.prim ∘ .uint64)
    | .null => .ok i .null
    | .string => (lengthPrefixedString i).map .string : Outcome Error ValueWithCode)).map
      ValueWithCode.intoValue) (IsBody t) := by
    have mm : ∀ {γ : Type} (x : Outcome Error γ) (g : γ → Prim),
        (x.map (ValueWithCode.prim ∘ g)).map ValueWithCode.intoValue =
          (x.map g).map Prim.intoValue := by
      intro γ x g; cases x <;> rfl
    intro t
    have hu := untyped_exact t
    cases t <;> simp only [mm]
    case null =>
      exact (Exact.pure Value.null).congr fun v b => Iff.rfl
    case string =>
      intro i r v
      simp only [Outcome.map_ok, lps_exact i, IsBody]
      constructor
      · rintro ⟨_, ⟨s, ⟨b, hb, rfl⟩, rfl⟩, rfl⟩; exact ⟨b, ⟨s, rfl, hb⟩, rfl⟩
      · rintro ⟨b, ⟨s, rfl, hb⟩, rfl⟩; exact ⟨_, ⟨s, ⟨b, hb, rfl⟩, rfl⟩, rfl⟩
    all_goals exact hu
  have e : (fun i => (ValueWithCode.parse i).map ValueWithCode.intoValue) = fun i =>
      (PrimitiveType.parse i).bind fun t i => ((match t with
    | .boolean => (Boolean.parse i).map (.prim ∘ .boolean)
    | .byte => (Byte.parse i).map (.prim ∘ .byte)
    | .char => (Char.parse i).map (.prim ∘ .char)
    | .decimal => (Decimal.parse i).map (.prim ∘ .decimal)
    | .double => (Double.parse i).map (.prim ∘ .double)
    | .int16 => (Int16.parse i).map (.prim ∘ .int16)
    | .int32 => (Int32.parse i).map (.prim ∘ .int32)
    | .int64 => (Int64.parse i).map (.prim ∘ .int64)
    | .sbyte => (Int8.parse i).map (.prim ∘ .sbyte)
    | .single => (Single.parse i).map (.prim ∘ .single)
    | .timeSpan => (TimeSpan.parse i).map (.prim ∘ .timeSpan)
    | .dateTime => (DateTime.parse i).map (.prim ∘ .dateTime)
    | .uint16 => (UInt16.parse i).map (.prim ∘ .uint16)
    | .uint32 => (UInt32.parse i).map (.prim ∘ .uint32)
    | .uint64 => (UInt64.parse i).map (.prim ∘ .uint64)
    | .null => .ok i .null
    | .string => (lengthPrefixedString i).map .string : Outcome Error ValueWithCode)).map
      ValueWithCode.intoValue := by
    funext i
    unfold ValueWithCode.parse
    cases PrimitiveType.parse i <;> rfl
  rw [e]
  refine (Exact.bind primitiveType_exact hbody).congr fun v b => ?_
  constructor
  · rintro ⟨t, _, b2, rfl, h, rfl⟩
    cases t
    case null => obtain ⟨rfl, rfl⟩ := h; exact .inr (.inl ⟨rfl, rfl⟩)
    case string => obtain ⟨s, rfl, h⟩ := h; exact .inr (.inr ⟨s, rfl, b2, h, rfl⟩)
    all_goals exact .inl ⟨_, _, h, rfl⟩
  · rintro (⟨t, b', h, rfl⟩ | ⟨rfl, rfl⟩ | ⟨s, rfl, b', h, rfl⟩)
    · refine ⟨t, _, b', rfl, ?_, rfl⟩
      cases t <;> first | exact h | simp [IsPrimitive] at h
    · exact ⟨.null, _, [], rfl, ⟨rfl, rfl⟩, rfl⟩
    · exact ⟨.string, _, b', rfl, ⟨s, rfl, h⟩, rfl⟩

theorem map_count {p : PureParser ε α} {f : α → β} (n : Nat) (i : Bytes) :
    (count p n i).map (List.map f) = count (fun i => (p i).map f) n i := by
  induction n generalizing i with
  | zero => rfl
  | succ n ih =>
    simp only [count]
    cases h : p i <;> simp only [Outcome.bind] <;> try rfl
    rename_i r a
    have := ih r
    simp only [Outcome.map] at this ⊢
    rw [← this]
    cases count p n r <;> rfl

theorem codedValues_exact [Platform] :
    Exact (fun i => (ArrayOfValueWithCode.parse i).map ArrayOfValueWithCode.intoValues)
      IsCodedValues := by
  have e : (fun i => (ArrayOfValueWithCode.parse i).map ArrayOfValueWithCode.intoValues) = fun i =>
      (length i).bind fun n i =>
        count (fun i => (ValueWithCode.parse i).map ValueWithCode.intoValue) n i := by
    funext i
    unfold ArrayOfValueWithCode.parse lengthCount
    cases length i <;> simp only [Outcome.bind, Outcome.map]
    rename_i r n
    exact map_count n r
  rw [e]
  refine (Exact.bind length_exact fun n => count_exact codedValue_exact n).congr fun vs b => ?_
  constructor
  · rintro ⟨n, b1, b2, h1, ⟨rfl, h2⟩, rfl⟩; exact ⟨b1, b2, h1, h2, rfl⟩
  · rintro ⟨b1, b2, h1, h2, rfl⟩; exact ⟨_, b1, b2, h1, ⟨rfl, h2⟩, rfl⟩

/-! ## Method records -/

theorem optional_exact {p : PureParser ε α} {R : α → Bytes → Prop} (hp : Exact p R) (c : Bool) :
    Exact (cond c p) (IsOptional c R) :=
  (cond_exact hp c).congr fun o b => by
    cases c <;> simp [IsOptional]

theorem cond_map (c : Bool) (p : PureParser ε α) (f : α → β) (i : Bytes) :
    (cond c p i).map (Option.map f) = cond c (fun i => (p i).map f) i := by
  unfold cond
  cases c
  · rfl
  · simp only [if_true]
    cases p i <;> rfl

theorem optional_exact_map {p : PureParser ε α} {f : α → β} {R : β → Bytes → Prop}
    (hp : Exact (fun i => (p i).map f) R) (c : Bool) :
    Exact (fun i => (cond c p i).map (Option.map f)) (IsOptional c R) := by
  rw [funext (cond_map c p f)]
  exact optional_exact hp c

/-- What the parser makes of a method call record. -/
def callView (c : BinaryMethodCall) : BitVec 32 × Str × Str × Option Str × Option (List Value) :=
  (c.messageEnum, c.methodName, c.typeName, c.callContext, c.args.map ArrayOfValueWithCode.intoValues)

/-- What the parser makes of a method return record. -/
def returnView (c : BinaryMethodReturn) : BitVec 32 × Option Value × Option Str × Option (List Value) :=
  (c.messageEnum, c.returnValue.map ValueWithCode.intoValue, c.callContext,
    c.args.map ArrayOfValueWithCode.intoValues)

theorem bit_context (f : BitVec 32) :
    MessageFlags.intersects f MessageFlags.CONTEXT_INLINE = f.getLsbD 5 :=
  intersects_bit f _ 5 (by omega) (by decide)
theorem bit_args (f : BitVec 32) :
    MessageFlags.intersects f MessageFlags.ARGS_INLINE = f.getLsbD 1 :=
  intersects_bit f _ 1 (by omega) (by decide)
theorem bit_isArray (f : BitVec 32) :
    MessageFlags.intersects f MessageFlags.ARGS_IS_ARRAY = f.getLsbD 2 :=
  intersects_bit f _ 2 (by omega) (by decide)
theorem bit_inArray (f : BitVec 32) :
    MessageFlags.intersects f MessageFlags.ARGS_IN_ARRAY = f.getLsbD 3 :=
  intersects_bit f _ 3 (by omega) (by decide)
theorem bit_return (f : BitVec 32) :
    MessageFlags.intersects f MessageFlags.RETURN_VALUE_INLINE = f.getLsbD 11 :=
  intersects_bit f _ 11 (by omega) (by decide)

theorem methodCall_exact [Platform] :
    Exact (fun i => (BinaryMethodCall.parse i).map callView)
      (fun v b => FlagsOk v.1 ∧ IsMethodCall v.1 v.2.1 v.2.2.1 v.2.2.2.1 v.2.2.2.2 b) := by
  have hargs := fun c => optional_exact_map (codedValues_exact) c
  have hctx := fun c => optional_exact codedString_exact c
  refine .intro ?_ ?_
  · rintro _ r ⟨f, name, type, ctx, args⟩ ⟨hf, bf, bn, bt, bc, ba, h0, h1, h2, h3, h4, rfl⟩
    have e0 := (recordType_exact .methodCall (21 :: bf ++ bn ++ bt ++ bc ++ ba ++ r)
      (bf ++ (bn ++ (bt ++ (bc ++ (ba ++ r))))) .methodCall).mpr ⟨[21], ⟨rfl, rfl⟩, by simp⟩
    have e1 := (flags_exact _ (bn ++ (bt ++ (bc ++ (ba ++ r)))) f).mpr ⟨bf, ⟨hf, h0⟩, rfl⟩
    have e2 := (codedString_exact _ (bt ++ (bc ++ (ba ++ r))) name).mpr ⟨bn, h1, rfl⟩
    have e3 := (codedString_exact _ (bc ++ (ba ++ r)) type).mpr ⟨bt, h2, rfl⟩
    have e4 := (hctx _ _ (ba ++ r) ctx).mpr ⟨bc, h3, rfl⟩
    have e5 := (hargs _ _ r args).mpr ⟨ba, h4, rfl⟩
    rw [← bit_context] at e4
    rw [← bit_args, Outcome.map_ok] at e5
    obtain ⟨args', e5, rfl⟩ := e5
    unfold BinaryMethodCall.parse
    rw [e0]; simp only [Outcome.bind]
    rw [e1]; simp only
    rw [e2]; simp only
    rw [e3]; simp only
    rw [e4]; simp only
    rw [e5]
    rfl
  · intro i r v h
    unfold BinaryMethodCall.parse at h
    simp only [Outcome.map_ok, Outcome.bind_ok] at h
    obtain ⟨_, ⟨i1, _, h0, i2, f, h1, i3, name, h2, i4, type, h3, i5, ctx, h4, i6, args, h5, h6⟩, rfl⟩ := h
    cases h6
    obtain ⟨_, ⟨_, rfl⟩, rfl⟩ := (recordType_exact _ _ _ _).mp h0
    obtain ⟨bf, ⟨hf, hbf⟩, rfl⟩ := (flags_exact _ _ _).mp h1
    obtain ⟨bn, hbn, rfl⟩ := (codedString_exact _ _ _).mp h2
    obtain ⟨bt, hbt, rfl⟩ := (codedString_exact _ _ _).mp h3
    obtain ⟨bc, hbc, rfl⟩ := (hctx _ _ _ _).mp h4
    obtain ⟨ba, hba, rfl⟩ := (hargs _ _ r (args.map ArrayOfValueWithCode.intoValues)).mp
      (Outcome.map_ok.mpr ⟨_, h5, rfl⟩)
    rw [bit_context] at hbc
    rw [bit_args] at hba
    exact ⟨_, ⟨hf, bf, bn, bt, bc, ba, hbf, hbn, hbt, hbc, hba, rfl⟩, by simp [RecordType.code]⟩

theorem methodReturn_exact [Platform] :
    Exact (fun i => (BinaryMethodReturn.parse i).map returnView)
      (fun v b => FlagsOk v.1 ∧ IsMethodReturn v.1 v.2.1 v.2.2.1 v.2.2.2 b) := by
  have hargs := fun c => optional_exact_map (codedValues_exact) c
  have hval := fun c => optional_exact_map (codedValue_exact) c
  have hctx := fun c => optional_exact codedString_exact c
  refine .intro ?_ ?_
  · rintro _ r ⟨f, val, ctx, args⟩ ⟨hf, bf, bv, bc, ba, h0, h1, h3, h4, rfl⟩
    have e0 := (recordType_exact .methodReturn (22 :: bf ++ bv ++ bc ++ ba ++ r)
      (bf ++ (bv ++ (bc ++ (ba ++ r)))) .methodReturn).mpr ⟨[22], ⟨rfl, rfl⟩, by simp⟩
    have e1 := (flags_exact _ (bv ++ (bc ++ (ba ++ r))) f).mpr ⟨bf, ⟨hf, h0⟩, rfl⟩
    have e2 := (hval _ _ (bc ++ (ba ++ r)) val).mpr ⟨bv, h1, rfl⟩
    have e4 := (hctx _ _ (ba ++ r) ctx).mpr ⟨bc, h3, rfl⟩
    have e5 := (hargs _ _ r args).mpr ⟨ba, h4, rfl⟩
    rw [← bit_return, Outcome.map_ok] at e2
    rw [← bit_context] at e4
    rw [← bit_args, Outcome.map_ok] at e5
    obtain ⟨args', e5, rfl⟩ := e5
    obtain ⟨val', e2, rfl⟩ := e2
    unfold BinaryMethodReturn.parse
    rw [e0]; simp only [Outcome.bind]
    rw [e1]; simp only
    rw [e2]; simp only
    rw [e4]; simp only
    rw [e5]
    rfl
  · intro i r v h
    unfold BinaryMethodReturn.parse at h
    simp only [Outcome.map_ok, Outcome.bind_ok] at h
    obtain ⟨_, ⟨i1, _, h0, i2, f, h1, i3, val, h2, i5, ctx, h4, i6, args, h5, h6⟩, rfl⟩ := h
    cases h6
    obtain ⟨_, ⟨_, rfl⟩, rfl⟩ := (recordType_exact _ _ _ _).mp h0
    obtain ⟨bf, ⟨hf, hbf⟩, rfl⟩ := (flags_exact _ _ _).mp h1
    obtain ⟨bv, hbv, rfl⟩ := (hval _ _ _ (val.map ValueWithCode.intoValue)).mp
      (Outcome.map_ok.mpr ⟨_, h2, rfl⟩)
    obtain ⟨bc, hbc, rfl⟩ := (hctx _ _ _ _).mp h4
    obtain ⟨ba, hba, rfl⟩ := (hargs _ _ r (args.map ArrayOfValueWithCode.intoValues)).mp
      (Outcome.map_ok.mpr ⟨_, h5, rfl⟩)
    rw [bit_return] at hbv
    rw [bit_context] at hbc
    rw [bit_args] at hba
    exact ⟨_, ⟨hf, bf, bv, bc, ba, hbf, hbv, hbc, hba, rfl⟩, by simp [RecordType.code]⟩

end Nrbf
