import Verif.Model.Value

/-! # What it means to be a Rust `&str`

Independent of the model: Lean's own characters (Unicode scalar values) and Lean's own UTF-8
encoding of one character. -/

namespace Nrbf.Spec

/-- `s` is the UTF-8 encoding of a sequence of Unicode scalar values. -/
def IsUtf8 (s : List UInt8) : Prop := ∃ cs : List Char, s = cs.flatMap String.utf8EncodeChar

end Nrbf.Spec
