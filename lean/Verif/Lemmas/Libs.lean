import Verif.Lemmas.Grammar

/-! # Registered libraries stay registered -/

set_option autoImplicit false

namespace Nrbf.Spec

variable [Platform]

/-- Every library of `E` is one of `E'`. -/
def Env.LibsIn (E E' : Env) : Prop := ∀ l n, E.libs l = some n → E'.libs l = some n

omit [Platform] in
theorem Env.LibsIn.refl (E : Env) : E.LibsIn E := fun _ _ h => h
omit [Platform] in
theorem Env.LibsIn.trans {E1 E2 E3 : Env} (h1 : E1.LibsIn E2) (h2 : E2.LibsIn E3) : E1.LibsIn E3 :=
  fun l n h => h2 l n (h1 l n h)

omit [Platform] in
theorem OptLib.libs {E : Env} {i : Bytes} {E' : Env} {r : Bytes} (h : OptLib E i E' r) : E.LibsIn E' := by
  cases h with
  | none => exact .refl _
  | some h0 hnew =>
    intro l n hl
    simp only [Env.addLib]
    split
    · rename_i h; subst h; rw [hnew] at hl; cases hl
    · exact hl

mutual
theorem Member.libs {T : Option MemberType} {E : Env} {i : Bytes} {slot : Slot} {E' : Env} {r : Bytes} :
    Member T E i slot E' r → E.LibsIn E'
  | .primitive h _ => h.libs
  | .reference h _ => h.libs
  | .string h _ => h.libs
  | .nulls h _ => h.libs
  | .object h h1 => h.libs.trans h1.libs
  | .typedPrimitive h _ => h.libs
  | .typedString h _ => h.libs
  | .typedObject h h1 => h.libs.trans h1.libs
  | .typedObjectArray h h1 => h.libs.trans h1.libs
  | .systemClass h h1 => h.libs.trans h1.libs
  | .systemClassNulls h _ => h.libs
  | .class h _ h1 => h.libs.trans h1.libs
  | .classNulls h _ _ => h.libs
  | .stringArrayString h _ => h.libs
  | .stringArrayReference h _ => h.libs
  | .stringArrayNulls h _ => h.libs
  | .primitiveArray h _ => h.libs
theorem Members.libs {T : List (Option MemberType)} {E : Env} {i : Bytes} {slot : List Slot} {E' : Env} {r : Bytes} :
    Members T E i slot E' r → E.LibsIn E'
  | .nil => .refl _
  | .cons h h1 => h.libs.trans h1.libs
theorem Class.libs {E : Env} {i : Bytes} {id : Nat} {n : Str} {l : Option Str}
    {ms : List (Str × Value)} {E' : Env} {r : Bytes} :
    Class E i id n l ms E' r → E.LibsIn E'
  | .mk h _ _ h1 h2 => h.libs.trans (h1.libs.trans h2.libs)
theorem Fill.libs {T : Option MemberType} {n : Nat} {E : Env} {i : Bytes} {slot : List Slot} {E' : Env} {r : Bytes} :
    Fill T n E i slot E' r → E.LibsIn E'
  | .done => .refl _
  | .step _ h h1 => h.libs.trans h1.libs
theorem Resolve.libs {E : Env} {i : Bytes} {slot : List Slot} {vs : List Value} {E' : Env} {r : Bytes} :
    Resolve slot E i vs E' r → E.LibsIn E'
  | .nil => .refl _
  | .value h => h.libs
  | .nulls h => h.libs
  | .known _ h => h.libs
  | .next _ h h1 => Env.LibsIn.trans h.libs h1.libs
theorem Record.libs {E : Env} {i : Bytes} {id : Nat} {v : Value} {E' : Env} {r : Bytes} :
    Record E i id v E' r → E.LibsIn E'
  | .object h => h.libs
  | .objectArray _ h h1 => h.libs.trans h1.libs
  | .primitiveArray _ _ => .refl _
  | .stringArray _ h h1 => h.libs.trans h1.libs
  | .array _ _ h h1 _ => h.libs.trans h1.libs
  | .string _ => .refl _
end

theorem Records.libs {E : Env} {i : Bytes} {E' : Env} {r : Bytes} (h : Records E i E' r) : E.LibsIn E' := by
  induction h with
  | nil => exact .refl _
  | cons h _ ih => exact Env.LibsIn.trans h.libs ih

end Nrbf.Spec
