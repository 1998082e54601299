import Verif.Spec.Write
set_option autoImplicit false

/-! # What a library of decimal numbers should do -/

namespace Nrbf.Spec

/-- The number a list of digits stands for. -/
def digitsValue (ds : List Nat) : Nat := ds.foldl (fun n d => n * 10 + d) 0

/-- The texts of the digits. -/
def digitChars (ds : List Nat) : Str := ds.map fun d => UInt8.ofNat (48 + d)

/-- `s` is decimal notation for `d`: an optional minus sign, digits, and optionally a point and more digits; the
digits together are the mantissa and those after the point are counted by the scale. -/
def Notation (s : Str) (d : Dec) : Prop :=
  ∃ whole frac : List Nat, (∀ x ∈ whole ++ frac, x < 10) ∧ whole ++ frac ≠ [] ∧
    d.mantissa = digitsValue (whole ++ frac) ∧ d.scale = frac.length ∧
    (s = (if d.neg then [45] else []) ++ digitChars whole ++ 46 :: digitChars frac ∨
      frac = [] ∧ s = (if d.neg then [45] else []) ++ digitChars whole)

/-- The decimals that fit: 96 bits and at most 28 places. -/
def FitsDecimal (d : Dec) : Prop := d.mantissa < 2 ^ 96 ∧ d.scale ≤ 28

/-- The library reads back what it prints: whatever it reads from a `str` it prints as a text the format can store, and reads that
text as the same number. -/
def ReadsBack [Platform] : Prop :=
  ∀ s d, IsUtf8 s → Platform.decimalFromStr s = some d →
    StorableString (Platform.decimalToStr d) ∧ Platform.decimalFromStr (Platform.decimalToStr d) = some d

end Nrbf.Spec
