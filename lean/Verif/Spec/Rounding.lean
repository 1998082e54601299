import Verif.Spec.Equal

/-! # Correct rounding to a floating point format -/

set_option autoImplicit false

namespace Nrbf.Spec

/-- The bit pattern of infinity with `f` fraction and `e` exponent bits.  Smaller patterns are the numbers that are not
negative, in increasing order. -/
def infinity (f e : Nat) : Nat := (2 ^ e - 1) * 2 ^ f

/-- The number a pattern without sign stands for, in units of the smallest positive number of the format.  The pattern of
infinity counts as the power of two that follows the largest number, as IEEE 754 wants it for rounding. -/
def magnitude (f bits : Nat) : Nat :=
  if bits / 2 ^ f = 0 then bits % 2 ^ f else (2 ^ f + bits % 2 ^ f) * 2 ^ (bits / 2 ^ f - 1)

/-- The units in 1. -/
def unitsInOne (f e : Nat) : Nat := 2 ^ (2 ^ (e - 1) - 2 + f)

def distance (a b : Nat) : Nat := (a - b) + (b - a)

/-- `bits` is the correctly rounded `num / den` (in units): nothing is nearer, and of two that are as near it is the one
with the even pattern (IEEE 754, roundTiesToEven). -/
def Nearest (f e num den bits : Nat) : Prop :=
  bits ≤ infinity f e ∧ ∀ b ≤ infinity f e, b ≠ bits →
    distance (magnitude f bits * den) num < distance (magnitude f b * den) num ∨
    (distance (magnitude f bits * den) num = distance (magnitude f b * den) num ∧ bits % 2 = 0)

/-- A pattern with its sign bit. -/
def withSign (f e : Nat) (negative : Bool) (bits : Nat) : Nat := (if negative then 2 ^ (f + e) else 0) + bits

/-- The float that an integer becomes. -/
def RoundedInt (f e : Nat) (n : Int) (float : Nat) : Prop :=
  ∃ bits, float = withSign f e (decide (n < 0)) bits ∧ Nearest f e (n.natAbs * unitsInOne f e) 1 bits

end Nrbf.Spec
