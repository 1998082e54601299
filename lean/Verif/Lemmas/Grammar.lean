import Verif.Spec.Message

/-! # Facts about the grammar itself -/

namespace Nrbf.Spec

variable [Platform]

omit [Platform] in
theorem OptLib.suffix {E : Env} {i : Bytes} {E' : Env} {r : Bytes} (h : OptLib E i E' r) : r <:+ i := by
  cases h with
  | none => exact List.suffix_refl _
  | some => exact List.suffix_append _ _

omit [Platform] in
theorem suffix_drop {b r i : Bytes} (h : b ++ r <:+ i) : r <:+ i := (List.suffix_append b r).trans h

mutual
theorem Member.suffix {T : Option MemberType} {E : Env} {i : Bytes} {slot : Slot} {E' : Env} {r : Bytes} :
    Member T E i slot E' r → r <:+ i
  | .primitive h _ => suffix_drop h.suffix
  | .reference h _ => suffix_drop h.suffix
  | .string h _ => suffix_drop h.suffix
  | .nulls h _ => suffix_drop h.suffix
  | .object h h1 => h1.suffix.trans h.suffix
  | .typedPrimitive h _ => suffix_drop h.suffix
  | .typedString h _ => suffix_drop h.suffix
  | .typedObject h h1 => h1.suffix.trans h.suffix
  | .typedObjectArray h h1 => h1.suffix.trans h.suffix
  | .systemClass h h1 => h1.suffix.trans h.suffix
  | .systemClassNulls h _ => suffix_drop h.suffix
  | .class h _ h1 => h1.suffix.trans h.suffix
  | .classNulls h _ _ => suffix_drop h.suffix
  | .stringArrayString h _ => suffix_drop h.suffix
  | .stringArrayReference h _ => suffix_drop h.suffix
  | .stringArrayNulls h _ => suffix_drop h.suffix
  | .primitiveArray h _ => suffix_drop h.suffix
theorem Members.suffix {T : List (Option MemberType)} {E : Env} {i : Bytes} {slot : List Slot} {E' : Env} {r : Bytes} :
    Members T E i slot E' r → r <:+ i
  | .nil => List.suffix_refl _
  | .cons h h1 => h1.suffix.trans h.suffix
theorem Class.suffix {E : Env} {i : Bytes} {id : Nat} {n : Str} {l : Option Str}
    {ms : List (Str × Value)} {E' : Env} {r : Bytes} :
    Class E i id n l ms E' r → r <:+ i
  | .mk h _ _ h1 h2 => (h2.suffix.trans h1.suffix).trans (suffix_drop h.suffix)
theorem Fill.suffix {T : Option MemberType} {n : Nat} {E : Env} {i : Bytes} {slot : List Slot} {E' : Env} {r : Bytes} :
    Fill T n E i slot E' r → r <:+ i
  | .done => List.suffix_refl _
  | .step _ h h1 => h1.suffix.trans h.suffix
theorem Resolve.suffix {E : Env} {i : Bytes} {slot : List Slot} {vs : List Value} {E' : Env} {r : Bytes} :
    Resolve slot E i vs E' r → r <:+ i
  | .nil => List.suffix_refl _
  | .value h => h.suffix
  | .nulls h => h.suffix
  | .known _ h => h.suffix
  | .next _ h h1 => h1.suffix.trans h.suffix
theorem Record.suffix {E : Env} {i : Bytes} {id : Nat} {v : Value} {E' : Env} {r : Bytes} :
    Record E i id v E' r → r <:+ i
  | .object h => h.suffix
  | .objectArray _ h h1 => h1.suffix.trans h.suffix |>.trans (List.suffix_append _ _)
  | .primitiveArray _ _ => List.suffix_append _ _
  | .stringArray _ h h1 => h1.suffix.trans h.suffix |>.trans (List.suffix_append _ _)
  | .array _ _ h h1 _ => h1.suffix.trans h.suffix |>.trans (List.suffix_append _ _)
  | .string _ => List.suffix_append _ _
end


theorem Records.suffix {E : Env} {i : Bytes} {E' : Env} {r : Bytes} (h : Records E i E' r) : r <:+ i := by
  induction h with
  | nil => exact List.suffix_refl _
  | cons h _ ih => exact ih.trans h.suffix

theorem CallArray.suffix {root : Nat} {E : Env} {i : Bytes} {ca : Option (List Value)} {E' : Env}
    {r : Bytes} (h : CallArray root E i ca E' r) : r <:+ i := by
  cases h with
  | some h1 _ h2 h3 => exact (h3.suffix.trans h2.suffix).trans (suffix_drop h1.suffix)
  | none => exact List.suffix_refl _

theorem Method.suffix {root : Nat} {E : Env} {i : Bytes} {m : MethodCall ⊕ MethodReturn} {E' : Env}
    {r : Bytes} (h : Method root E i m E' r) : r <:+ i := by
  cases h with
  | call _ _ h => exact h.suffix.trans (List.suffix_append _ _)
  | «return» _ _ h => exact h.suffix.trans (List.suffix_append _ _)

theorem Tail.suffix {root : Nat} {E : Env} {i : Bytes} {m : RemotingMessage} {r : Bytes}
    (h : Tail root E i m r) : (11 :: r) <:+ i := by
  cases h with
  | value => exact List.suffix_refl _
  | method h h1 => exact h1.suffix.trans h.suffix

/-! ## Appending bytes -/

omit [Platform] in
theorem ne_of_suffix {r i : Bytes} (h : r <:+ i) (hr : r ≠ []) : i ≠ [] := by
  rintro rfl
  exact hr (List.suffix_nil.mp h)

omit [Platform] in
theorem OptLib.append {E : Env} {i : Bytes} {E' : Env} {r : Bytes} (t : Bytes)
    (hq : ¬ CompletesLibrary i t) (hr : r ≠ []) (h : OptLib E i E' r) :
    OptLib E (i ++ t) E' (r ++ t) := by
  cases h with
  | none h =>
    exact .none (Classical.byContradiction fun hn => hq ⟨i, List.suffix_refl _, hr, h, hn⟩)
  | some h h1 => simpa using OptLib.some (i := r ++ t) h h1

omit [Platform] in
theorem OptLib.append' {E : Env} {i : Bytes} {E' : Env} {b r : Bytes} (t : Bytes)
    (hq : ¬ CompletesLibrary i t) (hr : r ≠ []) (h : OptLib E i E' (b ++ r)) :
    OptLib E (i ++ t) E' (b ++ (r ++ t)) := by
  simpa using h.append t hq (by simp [hr])

omit [Platform] in
theorem completes_suffix {r i t : Bytes} (hq : ¬ CompletesLibrary i t) (h : r <:+ i) :
    ¬ CompletesLibrary r t := fun ⟨q, h1, h2⟩ => hq ⟨q, h1.trans h, h2⟩

mutual
theorem Member.append {T : Option MemberType} {E : Env} {i : Bytes} {slot : Slot} {E' : Env} {r : Bytes}
    (t : Bytes) (hq : ¬ CompletesLibrary i t) (hr : r ≠ []) :
    Member T E i slot E' r → Member T E (i ++ t) slot E' (r ++ t)
  | .primitive h h' => .primitive (h.append' t hq hr) h'
  | .reference h h' => .reference (h.append' t hq hr) h'
  | .string h h' => .string (h.append' t hq hr) h'
  | .nulls h h' => .nulls (h.append' t hq hr) h'
  | .object h h1 =>
    .object (h.append t hq (ne_of_suffix h1.suffix hr)) (h1.append t (completes_suffix hq h.suffix) hr)
  | .typedPrimitive h h' => .typedPrimitive (h.append' t hq hr) h'
  | .typedString h h' => .typedString (h.append' t hq hr) h'
  | .typedObject h h1 =>
    .typedObject (h.append t hq (ne_of_suffix h1.suffix hr)) (h1.append t (completes_suffix hq h.suffix) hr)
  | .typedObjectArray h h1 =>
    .typedObjectArray (h.append t hq (ne_of_suffix h1.suffix hr))
      (h1.append t (completes_suffix hq h.suffix) hr)
  | .systemClass h h1 =>
    .systemClass (h.append t hq (ne_of_suffix h1.suffix hr)) (h1.append t (completes_suffix hq h.suffix) hr)
  | .systemClassNulls h h' => .systemClassNulls (h.append' t hq hr) h'
  | .class h h' h1 =>
    .class (h.append t hq (ne_of_suffix h1.suffix hr)) h' (h1.append t (completes_suffix hq h.suffix) hr)
  | .classNulls h h' h'' => .classNulls (h.append' t hq hr) h' h''
  | .stringArrayString h h' => .stringArrayString (h.append' t hq hr) h'
  | .stringArrayReference h h' => .stringArrayReference (h.append' t hq hr) h'
  | .stringArrayNulls h h' => .stringArrayNulls (h.append' t hq hr) h'
  | .primitiveArray h h' => .primitiveArray (h.append' t hq hr) h'
theorem Members.append {T : List (Option MemberType)} {E : Env} {i : Bytes} {slot : List Slot}
    {E' : Env} {r : Bytes} (t : Bytes) (hq : ¬ CompletesLibrary i t) (hr : r ≠ []) :
    Members T E i slot E' r → Members T E (i ++ t) slot E' (r ++ t)
  | .nil => .nil
  | .cons h h1 => .cons (h.append t hq (ne_of_suffix h1.suffix hr))
      (h1.append t (completes_suffix hq h.suffix) hr)
theorem Class.append {E : Env} {i : Bytes} {id : Nat} {n : Str} {l : Option Str}
    {ms : List (Str × Value)} {E' : Env} {r : Bytes} (t : Bytes) (hq : ¬ CompletesLibrary i t)
    (hr : r ≠ []) :
    Class E i id n l ms E' r → Class E (i ++ t) id n l ms E' (r ++ t)
  | .mk h h' h'' h1 h2 => .mk (h.append' t hq (ne_of_suffix (h2.suffix.trans h1.suffix) hr)) h' h''
      (h1.append t (completes_suffix hq (suffix_drop h.suffix)) (ne_of_suffix h2.suffix hr))
      (h2.append t (completes_suffix hq (h1.suffix.trans (suffix_drop h.suffix))) hr)
theorem Fill.append {T : Option MemberType} {n : Nat} {E : Env} {i : Bytes} {slot : List Slot}
    {E' : Env} {r : Bytes} (t : Bytes) (hq : ¬ CompletesLibrary i t) (hr : r ≠ []) :
    Fill T n E i slot E' r → Fill T n E (i ++ t) slot E' (r ++ t)
  | .done => .done
  | .step h' h h1 => .step h' (h.append t hq (ne_of_suffix h1.suffix hr))
      (h1.append t (completes_suffix hq h.suffix) hr)
theorem Resolve.append {E : Env} {i : Bytes} {slot : List Slot} {vs : List Value} {E' : Env}
    {r : Bytes} (t : Bytes) (hq : ¬ CompletesLibrary i t) (hr : r ≠ []) :
    Resolve slot E i vs E' r → Resolve slot E (i ++ t) vs E' (r ++ t)
  | .nil => .nil
  | .value h => .value (h.append t hq hr)
  | .nulls h => .nulls (h.append t hq hr)
  | .known h' h => .known h' (h.append t hq hr)
  | .next h' h h1 => .next h' (h.append t hq (ne_of_suffix h1.suffix hr))
      (h1.append t (completes_suffix hq h.suffix) hr)
theorem Record.append {E : Env} {i : Bytes} {id : Nat} {v : Value} {E' : Env} {r : Bytes}
    (t : Bytes) (hq : ¬ CompletesLibrary i t) (hr : r ≠ []) :
    Record E i id v E' r → Record E (i ++ t) id v E' (r ++ t)
  | .object h => .object (h.append t hq hr)
  | .objectArray h' h h1 => List.append_assoc _ _ t ▸ .objectArray h'
      (h.append t (completes_suffix hq (List.suffix_append _ _)) (ne_of_suffix h1.suffix hr))
      (h1.append t (completes_suffix hq (h.suffix.trans (List.suffix_append _ _))) hr)
  | .primitiveArray h h' => List.append_assoc _ _ t ▸ .primitiveArray h h'
  | .stringArray h' h h1 => List.append_assoc _ _ t ▸ .stringArray h'
      (h.append t (completes_suffix hq (List.suffix_append _ _)) (ne_of_suffix h1.suffix hr))
      (h1.append t (completes_suffix hq (h.suffix.trans (List.suffix_append _ _))) hr)
  | .array h' h'' h h1 h3 => List.append_assoc _ _ t ▸ .array h' h''
      (h.append t (completes_suffix hq (List.suffix_append _ _)) (ne_of_suffix h1.suffix hr))
      (h1.append t (completes_suffix hq (h.suffix.trans (List.suffix_append _ _))) hr) h3
  | .string h => List.append_assoc _ _ t ▸ .string h
end

theorem Records.append {E : Env} {i : Bytes} {E' : Env} {r : Bytes}
    (t : Bytes) (hq : ¬ CompletesLibrary i t) (hr : r ≠ []) (h : Records E i E' r) :
    Records E (i ++ t) E' (r ++ t) := by
  induction h with
  | nil => exact .nil
  | cons h h1 ih =>
    exact .cons (h.append t hq (ne_of_suffix h1.suffix hr)) (ih (completes_suffix hq h.suffix) hr)

theorem CallArray.append {root : Nat} {E : Env} {i : Bytes} {ca : Option (List Value)} {E' : Env}
    {r : Bytes} (t : Bytes) (hq : ¬ CompletesLibrary i t) (hr : r ≠ []) (h : CallArray root E i ca E' r) :
    CallArray root E (i ++ t) ca E' (r ++ t) := by
  cases h with
  | some h h' h1 h2 =>
    exact .some (h.append' t hq (ne_of_suffix (h2.suffix.trans h1.suffix) hr)) h'
      (h1.append t (completes_suffix hq (suffix_drop h.suffix)) (ne_of_suffix h2.suffix hr))
      (h2.append t (completes_suffix hq (h1.suffix.trans (suffix_drop h.suffix))) hr)
  | none h1 h2 =>
    cases i with
    | nil => exact absurd rfl hr
    | cons b i => exact .none h1 h2

theorem MessageThen.append {w : Bytes} {m : RemotingMessage} {r : Bytes} (t : Bytes)
    (hq : ¬ CompletesLibrary w t) (h : MessageThen w m r) : MessageThen (w ++ t) m (r ++ t) := by
  cases h with
  | @mk root hd i E i1 _ _ hh hrec htail =>
    have hqi := completes_suffix hq (List.suffix_append hd i)
    have hqi1 := completes_suffix hqi hrec.suffix
    rw [List.append_assoc]
    refine .mk hh (hrec.append t hqi (ne_of_suffix htail.suffix (by simp))) ?_
    cases htail with
    | value h => exact .value h
    | method hm h2 =>
      refine .method ?_ (h2.append t (completes_suffix hqi1 hm.suffix) (by simp))
      cases hm with
      | call hf hb hca ha =>
        rw [List.append_assoc]
        exact .call hf hb (hca.append t (completes_suffix hqi1 (List.suffix_append _ _))
          (ne_of_suffix h2.suffix (by simp))) ha
      | «return» hf hb hca ha =>
        rw [List.append_assoc]
        exact .return hf hb (hca.append t (completes_suffix hqi1 (List.suffix_append _ _))
          (ne_of_suffix h2.suffix (by simp))) ha

end Nrbf.Spec
