import Verif.Model.Value
set_option autoImplicit false

/-! # A stand-in for `rust_decimal`

The source of the external crate `rust_decimal` is not available, so the theorems take its two functions as
parameters (`Platform`).  This file gives one concrete pair of functions, the exact reader and printer of decimal
notation, so that what the theorems ask of the crate can be shown to be possible.  It is simpler than
`rust_decimal`: it has no underscores and no `+`, and where `rust_decimal` rounds a text with too many digits it
refuses the text. -/

namespace Nrbf

/-- The number written by digits, with `acc` in front. -/
def readDigits : List UInt8 → Nat → Option Nat
  | [], acc => some acc
  | b :: bs, acc => if 48 ≤ b ∧ b ≤ 57 then readDigits bs (acc * 10 + (b.toNat - 48)) else none

/-- The last `k` digits of a number. -/
def lastDigits : Nat → Nat → List UInt8
  | 0, _ => []
  | k + 1, n => lastDigits k (n / 10) ++ [UInt8.ofNat (48 + n % 10)]

/-- How many digits a number has (with enough fuel). -/
def digitCount : Nat → Nat → Nat
  | 0, _ => 1
  | fuel + 1, n => if n < 10 then 1 else digitCount fuel (n / 10) + 1

/-- Reading a number without its sign. -/
def readUnsigned (neg : Bool) (s : Str) : Option Dec :=
  let whole := s.takeWhile (· != 46)
  let frac := (s.dropWhile (· != 46)).drop 1
  if whole ++ frac = [] then none
  else match readDigits (whole ++ frac) 0 with
    | some m => if m < 2 ^ 96 ∧ frac.length ≤ 28 then some ⟨neg, m, frac.length⟩ else none
    | none => none

/-- Stands for `Decimal::from_str`, called at `/repo/src/data_type/decimal.rs:21`: an optional minus sign, digits
with at most one point, at most 28 of them after it, and a number below 2⁹⁶ without it. -/
def readDecimal : Str → Option Dec
  | [] => none
  | b :: s => if b = 45 then readUnsigned true s else readUnsigned false (b :: s)

/-- Stands for `to_string`, called at `/repo/src/value/mod.rs:210`: all digits, those after the point as many as
the scale says, and at least one before it. -/
def printDecimal (d : Dec) : Str :=
  let k := max (d.scale + 1) (digitCount d.mantissa d.mantissa)
  let ds := lastDigits k d.mantissa
  (if d.neg then [45] else []) ++ ds.take (k - d.scale) ++
    (if d.scale = 0 then [] else 46 :: ds.drop (k - d.scale))

/-- A platform with these functions. -/
@[reducible] def exactDecimals (width : PointerWidth) : Platform := ⟨width, readDecimal, printDecimal⟩

end Nrbf
