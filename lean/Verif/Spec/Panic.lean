import Verif.Spec.Grammar

/-! # Arrays that cannot be reshaped -/

set_option autoImplicit false

namespace Nrbf.Spec

/-- At `i`, with the tables `E`, there is a BinaryArray record whose header is in order and whose element
records (one per element, as the dimensions say) can be read and resolved, but the number of values
they stand for is not a multiple of the size of a row, that is of the product of the inner
dimensions. -/
def BadArray [Platform] (E : Env) (i : Bytes) : Prop :=
  ∃ id kind lengths T b n i1 slots E2 i2 vs E3 i3, i = b ++ i1 ∧
    IsBinaryArrayHead id kind lengths T b ∧ productUsize 1 lengths = some n ∧
    Members (List.replicate n (some T)) E i1 slots E2 i2 ∧ Resolve slots E2 i2 vs E3 i3 ∧
    ¬ lengths.tail.prod ∣ vs.length

end Nrbf.Spec
