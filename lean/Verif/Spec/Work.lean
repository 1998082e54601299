import Verif.Spec.Grammar

/-! # What a failed attempt costs -/

set_option autoImplicit false

namespace Nrbf.Spec

/-- The price of a failed attempt is at least the number of bytes it has to look at, in the case that matters: there
is a BinaryLibrary with a valid id, whose name has a length prefix, and all the bytes the prefix asks for are
there, but they are not valid UTF-8: after the valid text `s` comes a byte that occurs nowhere in UTF-8.  To find
out, all of `s` has to be looked at. -/
def Validates (κ : Bytes → Nat) : Prop :=
  ∀ (id : Nat) (bid : Bytes) (n : Nat) (bn : Bytes) (s : Str) (t : Bytes), IsId id bid → IsLengthPrefix n bn → IsUtf8 s →
    s.length < n → n ≤ (s ++ 255 :: t).length → s.length ≤ κ (12 :: (bid ++ (bn ++ (s ++ 255 :: t))))

end Nrbf.Spec
