import Verif.Model.Serde

/-! # The casts of Rust between numbers

`Serde` leaves the casts (`as`) open (`FloatLib`).  They are not part of the crate, but serde's visitors of `f32` and
`f64` apply them to what `/repo/src/value/mod.rs:196-209` hands over.  This is what the Rust reference says they do
("Numeric cast"): rounding to nearest, ties to even, infinity on overflow, exact if possible.  serde (external,
`num_as_copysign_self!`) keeps the sign of a NaN; the rest of a NaN is not specified, and open here too. -/

set_option autoImplicit false

namespace Nrbf

/-- The fraction bits of a NaN that is the result of a cast. -/
class NaNLib where
  fraction32 : Nat → Nat
  fraction64 : Nat → Nat
  range32 : ∀ a, 0 < fraction32 a ∧ fraction32 a < 2 ^ 23
  range64 : ∀ a, 0 < fraction64 a ∧ fraction64 a < 2 ^ 52

/-- `num / den`, rounded to an integer, ties to even. -/
def roundDiv (num den : Nat) : Nat :=
  if 2 * (num % den) < den then num / den
  else if den < 2 * (num % den) then num / den + 1
  else num / den + num / den % 2

/-- The pattern (without sign) of `num / 2 ^ shift` units in a format with `f` fraction and `e` exponent bits. -/
def roundBits (f e num shift : Nat) : Nat :=
  let k := (num / 2 ^ shift).log2 - f
  min ((2 ^ e - 1) * 2 ^ f) (k * 2 ^ f + roundDiv num (2 ^ (shift + k)))

/-- `n as f32` (23, 8) and `n as f64` (52, 11). -/
def floatOfInt (f e : Nat) (n : Int) : Nat :=
  (if n < 0 then 2 ^ (f + e) else 0) + roundBits f e (n.natAbs * 2 ^ (2 ^ (e - 1) - 2 + f)) 0

/-- The number a finite pattern without sign stands for, in units. -/
def unitsOf (f bits : Nat) : Nat :=
  if bits / 2 ^ f = 0 then bits % 2 ^ f else (2 ^ f + bits % 2 ^ f) * 2 ^ (bits / 2 ^ f - 1)

/-- `a as f32` of an `f64`. -/
def f32OfF64 [NaNLib] (a : Nat) : Nat :=
  let bits := a % 2 ^ 63
  (if a / 2 ^ 63 % 2 = 1 then 2 ^ 31 else 0) +
    (if bits < 2047 * 2 ^ 52 then roundBits 23 8 (unitsOf 52 bits) 925
     else if bits = 2047 * 2 ^ 52 then 255 * 2 ^ 23
     else 255 * 2 ^ 23 + NaNLib.fraction32 (a % 2 ^ 64))

/-- `a as f64` of an `f32`. -/
def f64OfF32 [NaNLib] (a : Nat) : Nat :=
  let bits := a % 2 ^ 31
  (if a / 2 ^ 31 % 2 = 1 then 2 ^ 63 else 0) +
    (if bits < 255 * 2 ^ 23 then roundBits 52 11 (unitsOf 23 bits * 2 ^ 925) 0
     else if bits = 255 * 2 ^ 23 then 2047 * 2 ^ 52
     else 2047 * 2 ^ 52 + NaNLib.fraction64 (a % 2 ^ 32))

/-- The casts of Rust. -/
@[reducible] def rustFloats [NaNLib] : FloatLib where
  f32OfF64 := f32OfF64
  f64OfF32 := f64OfF32
  f32OfInt := floatOfInt 23 8
  f64OfInt := floatOfInt 52 11

end Nrbf
