import Verif.Lemmas.Width
import Verif.Lemmas.Grammar
import Verif.Lemmas.Invert
import Verif.Lemmas.Knot

/-! # The grammar on platforms of different width -/

set_option autoImplicit false

namespace Nrbf.Spec

/-! ## Every member takes at least one byte -/

section
variable [Platform]

theorem primitive_nonempty {t : PrimitiveType} {v : Value} {b : Bytes} (h : IsPrimitive t v b) : 0 < b.length := by
  have h1 := (untyped_exact t (b ++ []) [] v).mpr ⟨b, h, rfl⟩
  obtain ⟨p, h1, _⟩ := Outcome.map_ok.mp h1
  have hg := untyped_good t (List.suffix_refl (b ++ []))
  rw [h1] at hg
  have := hg.2.1
  simp only [List.append_nil, List.length_nil] at this
  omega

theorem shorter {b r i : Bytes} (hb : 0 < b.length) (h : b ++ r <:+ i) : r.length < i.length := by
  have := h.length_le
  rw [List.length_append] at this
  omega

omit [Platform] in
theorem classHead_nonempty {h : ClassHead} {b : Bytes} (hb : IsClassHead h b) : 0 < b.length := by
  obtain ⟨_, _, _, _, _, _, _, _, _, _, _, _, rfl⟩ := hb
  simp

omit [Platform] in
theorem nulls_nonempty {n : Nat} {b : Bytes} (hb : IsNulls n b) : 0 < b.length := by
  rcases hb with ⟨_, rfl⟩ | ⟨_, _, rfl⟩ | ⟨_, _, rfl⟩ <;> simp

omit [Platform] in
theorem reference_nonempty {n : Nat} {b : Bytes} (hb : IsReference n b) : 0 < b.length := by
  obtain ⟨_, _, rfl⟩ := hb; simp

omit [Platform] in
theorem objectString_nonempty {n : Nat} {s : Str} {b : Bytes} (hb : IsObjectString n s b) : 0 < b.length := by
  obtain ⟨_, _, _, _, rfl⟩ := hb; simp

theorem typedPrimitive_nonempty {v : Value} {b : Bytes} (hb : IsTypedPrimitive v b) : 0 < b.length := by
  obtain ⟨_, _, _, rfl⟩ := hb; simp

theorem Class.shorter {E : Env} {i : Bytes} {id : Nat} {n : Str} {l : Option Str}
    {ms : List (Str × Value)} {E' : Env} {r : Bytes} : Class E i id n l ms E' r → r.length < i.length
  | .mk h hb _ h1 h2 => by
    have := Spec.shorter (classHead_nonempty hb) h.suffix
    have := (h2.suffix.trans h1.suffix).length_le
    omega

theorem Member.shorter {T : Option MemberType} {E : Env} {i : Bytes} {slot : Slot} {E' : Env} {r : Bytes} :
    Member T E i slot E' r → r.length < i.length
  | .primitive h hb => Spec.shorter (typedPrimitive_nonempty hb) h.suffix
  | .reference h hb => Spec.shorter (reference_nonempty hb) h.suffix
  | .string h hb => Spec.shorter (objectString_nonempty hb) h.suffix
  | .nulls h hb => Spec.shorter (nulls_nonempty hb) h.suffix
  | .object h h1 => Nat.lt_of_lt_of_le h1.shorter h.suffix.length_le
  | .typedPrimitive h hb => Spec.shorter (primitive_nonempty hb) h.suffix
  | .typedString h hb => Spec.shorter (objectString_nonempty hb) h.suffix
  | .typedObject h h1 => Nat.lt_of_lt_of_le h1.shorter h.suffix.length_le
  | .typedObjectArray h h1 => Nat.lt_of_lt_of_le h1.shorter h.suffix.length_le
  | .systemClass h h1 => Nat.lt_of_lt_of_le h1.shorter h.suffix.length_le
  | .systemClassNulls h hb => Spec.shorter (nulls_nonempty hb) h.suffix
  | .class h _ h1 => Nat.lt_of_lt_of_le h1.shorter h.suffix.length_le
  | .classNulls h _ hb => Spec.shorter (nulls_nonempty hb) h.suffix
  | .stringArrayString h hb => Spec.shorter (objectString_nonempty hb) h.suffix
  | .stringArrayReference h hb => Spec.shorter (reference_nonempty hb) h.suffix
  | .stringArrayNulls h hb => Spec.shorter (nulls_nonempty hb) h.suffix
  | .primitiveArray h hb => Spec.shorter (reference_nonempty hb) h.suffix

theorem Members.count : ∀ {Ts : List (Option MemberType)} {E : Env} {i : Bytes} {slots : List Slot} {E' : Env}
    {r : Bytes}, Members Ts E i slots E' r → Ts.length + r.length ≤ i.length
  | _, _, _, _, _, _, .nil => by simp
  | _, _, _, _, _, _, .cons h h1 => by
    have := h.shorter
    have := h1.count
    simp only [List.length_cons]
    omega

end

/-! ## From one platform to the other -/

section
variable [A : Platform] {v : PointerWidth}

/-- The arrays in `w` that can be read with the one width can be read with the other. -/
def Carries (v : PointerWidth) (w : Bytes) : Prop :=
  ∀ id kind lengths T b n i, IsBinaryArrayHead id kind lengths T b → b ++ i <:+ w →
    productUsize 1 lengths = some n → n ≤ i.length → @productUsize (A.on v) 1 lengths = some n

variable {w : Bytes}

mutual
theorem Member.on {T : Option MemberType} {E : Env} {i : Bytes} {slot : Slot} {E' : Env} {r : Bytes}
    (hc : Carries v w) (hi : i <:+ w) :
    Member T E i slot E' r → @Member (A.on v) T E i slot E' r
  | .primitive h h' => @Member.primitive (A.on v) _ _ _ _ _ _ h h'
  | .reference h h' => @Member.reference (A.on v) _ _ _ _ _ _ h h'
  | .string h h' => @Member.string (A.on v) _ _ _ _ _ _ _ h h'
  | .nulls h h' => @Member.nulls (A.on v) _ _ _ _ _ _ h h'
  | .object h h1 => @Member.object (A.on v) _ _ _ _ _ _ _ _ _ _ h (Class.on hc (h.suffix.trans hi) h1)
  | .typedPrimitive h h' => @Member.typedPrimitive (A.on v) _ _ _ _ _ _ _ h h'
  | .typedString h h' => @Member.typedString (A.on v) _ _ _ _ _ _ _ h h'
  | .typedObject h h1 => @Member.typedObject (A.on v) _ _ _ _ _ _ _ h (Member.on hc (h.suffix.trans hi) h1)
  | .typedObjectArray h h1 => @Member.typedObjectArray (A.on v) _ _ _ _ _ _ _ h (Member.on hc (h.suffix.trans hi) h1)
  | .systemClass h h1 => @Member.systemClass (A.on v) _ _ _ _ _ _ _ _ _ h (Class.on hc (h.suffix.trans hi) h1)
  | .systemClassNulls h h' => @Member.systemClassNulls (A.on v) _ _ _ _ _ _ _ h h'
  | .class h h' h1 => @Member.class (A.on v) _ _ _ _ _ _ _ _ _ _ _ h h' (Class.on hc (h.suffix.trans hi) h1)
  | .classNulls h h' h'' => @Member.classNulls (A.on v) _ _ _ _ _ _ _ _ _ h h' h''
  | .stringArrayString h h' => @Member.stringArrayString (A.on v) _ _ _ _ _ _ _ h h'
  | .stringArrayReference h h' => @Member.stringArrayReference (A.on v) _ _ _ _ _ _ h h'
  | .stringArrayNulls h h' => @Member.stringArrayNulls (A.on v) _ _ _ _ _ _ h h'
  | .primitiveArray h h' => @Member.primitiveArray (A.on v) _ _ _ _ _ _ _ h h'
theorem Members.on {Ts : List (Option MemberType)} {E : Env} {i : Bytes} {slots : List Slot}
    {E' : Env} {r : Bytes} (hc : Carries v w) (hi : i <:+ w) :
    Members Ts E i slots E' r → @Members (A.on v) Ts E i slots E' r
  | .nil => @Members.nil (A.on v) _ _
  | .cons h h1 => @Members.cons (A.on v) _ _ _ _ _ _ _ _ _ _ (Member.on hc hi h)
      (Members.on hc (h.suffix.trans hi) h1)
theorem Class.on {E : Env} {i : Bytes} {id : Nat} {n : Str} {l : Option Str}
    {ms : List (Str × Value)} {E' : Env} {r : Bytes} (hc : Carries v w) (hi : i <:+ w) :
    Class E i id n l ms E' r → @Class (A.on v) E i id n l ms E' r
  | .mk h h' h'' h1 h2 =>
    have hi1 := (suffix_drop h.suffix).trans hi
    @Class.mk (A.on v) _ _ _ _ _ _ _ _ _ _ _ _ _ h h' h'' (Members.on hc hi1 h1)
      (Resolve.on hc (h1.suffix.trans hi1) h2)
theorem Fill.on {T : Option MemberType} {n : Nat} {E : Env} {i : Bytes} {slots : List Slot}
    {E' : Env} {r : Bytes} (hc : Carries v w) (hi : i <:+ w) :
    Fill T n E i slots E' r → @Fill (A.on v) T n E i slots E' r
  | .done => @Fill.done (A.on v) _ _ _
  | .step h' h h1 => @Fill.step (A.on v) _ _ _ _ _ _ _ _ _ _ h' (Member.on hc hi h)
      (Fill.on hc (h.suffix.trans hi) h1)
theorem Resolve.on {E : Env} {i : Bytes} {slots : List Slot} {vs : List Value} {E' : Env}
    {r : Bytes} (hc : Carries v w) (hi : i <:+ w) :
    Resolve slots E i vs E' r → @Resolve (A.on v) slots E i vs E' r
  | .nil => @Resolve.nil (A.on v) _ _
  | .value h => @Resolve.value (A.on v) _ _ _ _ _ _ _ (Resolve.on hc hi h)
  | .nulls h => @Resolve.nulls (A.on v) _ _ _ _ _ _ _ (Resolve.on hc hi h)
  | .known h' h => @Resolve.known (A.on v) _ _ _ _ _ _ _ _ h' (Resolve.on hc hi h)
  | .next h' h h1 => @Resolve.next (A.on v) _ _ _ _ _ _ _ _ _ _ h' (Record.on hc hi h)
      (Resolve.on hc (h.suffix.trans hi) h1)
theorem Record.on {E : Env} {i : Bytes} {id : Nat} {x : Value} {E' : Env} {r : Bytes}
    (hc : Carries v w) (hi : i <:+ w) :
    Record E i id x E' r → @Record (A.on v) E i id x E' r
  | .object h => @Record.object (A.on v) _ _ _ _ _ _ _ _ (Class.on hc hi h)
  | .objectArray h' h h1 =>
    have hi1 := (List.suffix_append _ _).trans hi
    @Record.objectArray (A.on v) _ _ _ _ _ _ _ _ _ _ _ h' (Fill.on hc hi1 h)
      (Resolve.on hc (h.suffix.trans hi1) h1)
  | .primitiveArray h h' => @Record.primitiveArray (A.on v) _ _ _ _ _ _ _ h h'
  | .stringArray h' h h1 =>
    have hi1 := (List.suffix_append _ _).trans hi
    @Record.stringArray (A.on v) _ _ _ _ _ _ _ _ _ _ _ h' (Fill.on hc hi1 h)
      (Resolve.on hc (h.suffix.trans hi1) h1)
  | .array h' h'' h h1 h3 =>
    have hi1 := (List.suffix_append _ _).trans hi
    @Record.array (A.on v) _ _ _ _ _ _ _ _ _ _ _ _ _ _ _ h' (hc _ _ _ _ _ _ _ h' hi h''
        (Nat.le_of_add_right_le (by
          have := h.count
          rw [List.length_replicate] at this
          exact this)))
      (Members.on hc hi1 h) (Resolve.on hc (h.suffix.trans hi1) h1) h3
  | .string h => @Record.string (A.on v) _ _ _ _ _ h
end

theorem Records.on {E : Env} {i : Bytes} {E' : Env} {r : Bytes} (hc : Carries v w) (hi : i <:+ w)
    (h : Records E i E' r) : @Records (A.on v) E i E' r := by
  induction h with
  | nil => exact @Records.nil (A.on v) _ _
  | cons h _ ih =>
    exact @Records.cons (A.on v) _ _ _ _ _ _ _ _ (Record.on hc hi h)
      (ih (h.suffix.trans hi))

theorem CallArray.on {root : Nat} {E : Env} {i : Bytes} {ca : Option (List Value)} {E' : Env}
    {r : Bytes} (hc : Carries v w) (hi : i <:+ w) (h : CallArray root E i ca E' r) :
    @CallArray (A.on v) root E i ca E' r := by
  cases h with
  | some h h' h1 h2 =>
    have hi1 := (suffix_drop h.suffix).trans hi
    exact @CallArray.some (A.on v) _ _ _ _ _ _ _ _ _ _ _ _ _ h h' (Fill.on hc hi1 h1)
      (Resolve.on hc (h1.suffix.trans hi1) h2)
  | none h1 h2 => exact @CallArray.none (A.on v) _ _ _ h1 h2

theorem Method.on {root : Nat} {E : Env} {i : Bytes} {m : MethodCall ⊕ MethodReturn} {E' : Env}
    {r : Bytes} (hc : Carries v w) (hi : i <:+ w) (h : Method root E i m E' r) :
    @Method (A.on v) root E i m E' r := by
  cases h with
  | call hf hb hca ha =>
    exact @Method.call (A.on v) _ _ _ _ _ _ _ _ _ _ _ _ _ hf hb
      (hca.on hc ((List.suffix_append _ _).trans hi)) ha
  | «return» hf hb hca ha =>
    exact @Method.return (A.on v) _ _ _ _ _ _ _ _ _ _ _ _ hf hb
      (hca.on hc ((List.suffix_append _ _).trans hi)) ha

theorem Message.on {m : RemotingMessage} (hc : Carries v w) (h : Message w m) :
    @Message (A.on v) w m := by
  unfold Message at h ⊢
  generalize hr : ([] : Bytes) = r at h
  cases h with
  | @mk root hd i E i1 _ _ hh hrec htail =>
    have hi : i <:+ hd ++ i := List.suffix_append _ _
    have hi1 := hrec.suffix.trans hi
    refine @MessageThen.mk (A.on v) _ _ _ _ _ _ _ hh (hrec.on hc hi) ?_
    cases htail with
    | value h => exact @Tail.value (A.on v) _ _ _ _ h
    | method hm h2 =>
      exact @Tail.method (A.on v) _ _ _ _ _ _ _ _ (hm.on hc hi1)
        (h2.on hc (hm.suffix.trans hi1))

end

/-! ## When that is so -/

theorem carries_up {P : Platform} {w : Bytes} : @Carries (P.on .bits32) .bits64 w := by
  intro id kind lengths T b n i _ _ hn _
  show @productUsize (P.on .bits64) 1 lengths = some n
  cases hm : @productUsize (P.on .bits64) 1 lengths with
  | some m =>
    rw [@productUsize_eq (P.on .bits64) _ _ _ hm, @productUsize_eq (P.on .bits32) _ _ _ hn]
  | none =>
    obtain ⟨k, hk⟩ := (@productUsize_none (P.on .bits64) 1 (@one_lt_usize (P.on .bits64)) lengths).mp hm
    have := (@productUsize_none (P.on .bits32) 1 (@one_lt_usize (P.on .bits32)) lengths).mpr
      ⟨k, Nat.le_trans (show 2 ^ 32 ≤ 2 ^ 64 by decide) hk⟩
    rw [hn] at this
    cases this

theorem product_pos {ds : List Nat} (h : 0 ∉ ds) : 0 < product ds := by
  induction ds with
  | nil => decide
  | cons d ds ih =>
    simp only [List.mem_cons, not_or] at h
    exact Nat.mul_pos (by omega) (ih h.2)

theorem product_take {ds : List Nat} (h : 0 ∉ ds) (k : Nat) : product (ds.take k) ≤ product ds := by
  induction ds generalizing k with
  | nil => simp
  | cons d ds ih =>
    simp only [List.mem_cons, not_or] at h
    cases k with
    | zero => exact product_pos (by simp [h.2, h.1])
    | succ k => exact Nat.mul_le_mul_left d (ih h.2 k)

theorem carries_down {P : Platform} {w : Bytes} (hw : w.length < 2 ^ 32) (hz : ¬ HasZeroLength w) :
    @Carries (P.on .bits64) .bits32 w := by
  intro id kind lengths T b n i hb hi hn hle
  show @productUsize (P.on .bits32) 1 lengths = some n
  have h0 : 0 ∉ lengths := fun h0 => hz ⟨id, kind, lengths, T, b, hb,
    (List.prefix_append b i).isInfix.trans hi.isInfix, h0⟩
  have hn' := @productUsize_eq (P.on .bits64) _ _ _ hn
  rw [Nat.one_mul] at hn'
  have := hi.length_le
  rw [List.length_append] at this
  rw [productUsize_on fun k => Nat.lt_of_le_of_lt (product_take h0 k) (by omega), hn']

end Nrbf.Spec
