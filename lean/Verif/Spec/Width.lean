import Verif.Spec.Grammar

/-! # The width of `usize` -/

set_option autoImplicit false

namespace Nrbf

/-- The same platform with another width of `usize`. -/
def Platform.on (P : Platform) (width : PointerWidth) : Platform := { P with pointerWidth := width }

namespace Spec

/-- The product of a list of numbers. -/
def product : List Nat → Nat
  | [] => 1
  | d :: ds => d * product ds

/-- Somewhere in `w` there is the head of a BinaryArray record one of whose partial products of lengths (from the
left) needs more than 32 bits, while none needs more than 64. -/
def WidthMatters (w : Bytes) : Prop :=
  ∃ id kind lengths T b, IsBinaryArrayHead id kind lengths T b ∧ b <:+: w ∧
    (∃ k, 2 ^ 32 ≤ product (lengths.take k)) ∧ ∀ k, product (lengths.take k) < 2 ^ 64

/-- Somewhere in `w` there is the head of a BinaryArray record with a zero among its lengths. -/
def HasZeroLength (w : Bytes) : Prop :=
  ∃ id kind lengths T b, IsBinaryArrayHead id kind lengths T b ∧ b <:+: w ∧ 0 ∈ lengths

end Nrbf.Spec
