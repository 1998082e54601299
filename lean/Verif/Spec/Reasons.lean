import Verif.Spec.Encode
import Verif.Model.Enumeration

/-! # Which reasons errors can have -/

set_option autoImplicit false

namespace Nrbf.Spec

/-- The reasons that an error of the parser can have: all that are declared, except for four, and except for those that name
the type of a record (other than the first and the last one of a message).  That a decimal was expected is a reason if there
are strings that are no decimals. -/
def CanOccur [Platform] : ErrorInner → Prop
  | .eof | .duplicateObjectId | .unresolvableMemberReference | .expectedPrimitive .null => False
  | .expectedRecordType t => t = .serializedStreamHeader ∨ t = .messageEnd
  | .expectedPrimitive .decimal => ∃ s b, IsString s b ∧ Platform.decimalFromStr s = none
  | _ => True

end Nrbf.Spec
