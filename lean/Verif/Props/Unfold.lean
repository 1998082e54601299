import Verif.Lemmas.Unfold
import Verif.Props.Records

/-! # C01 (counters): the parser functions satisfy the equations of the source -/

set_option autoImplicit false

namespace Nrbf
open Spec

variable [Platform]

/-- **C01** (recursion) In every reachable state, `parse_classes` and `parse_referenceable` satisfy the
mutually recursive equations of the source, in which no depth counter occurs. -/
theorem C01_recursion {s : St} (hs : Reached s) (i : Bytes) :
    parseClasses s i = classesBody parseClasses parseReferenceable s i ∧
    parseReferenceable s i =
      referenceableBody parseClasses (arraysBody parseClasses parseReferenceable) s i :=
  ⟨parseClasses_eq hs.classes i, parseReferenceable_eq hs.classes i⟩

/-- **C01** (record loop) The top-level loop runs as long as records are found, without a bound. -/
theorem C01_record_loop {s : St} (hs : Reached s) (i : Bytes) :
    parseReferenceables s i = match parseReferenceable s i with
      | (.ok r _, s) => parseReferenceables s r
      | (.error _, s) => (.ok i (), s)
      | (.failure e, s) => (.failure e, s)
      | (.panic, s) => (.panic, s)
      | (.diverge, s) => (.diverge, s) := referenceables_eq hs.classes i

/-- **C01** (array loops) The loops that fill an object or string array give the same result with any
counter that is at least the declared length. -/
theorem C01_array_loops {s : St} (hs : Reached s) (i : Bytes) (len fuel : Nat) (h : len ≤ fuel) :
    arrayLoop (memberReferenceNone parseClasses) fuel len [] s i =
      arrayLoop (memberReferenceNone parseClasses) len len [] s i ∧
    arrayLoop (memberReference parseClasses .stringArray none) fuel len [] s i =
      arrayLoop (memberReference parseClasses .stringArray none) len len [] s i := by
  have hsem := parsersSem (i.length + 1)
  have hc := parseClasses_traced (i.length + 1)
  constructor
  · refine arrayLoop_counter (L := i.length + 1) ?_ (memberNone_traced hc) _ _ _ s i hs.classes (by omega)
      (by simpa using h) (by simp)
    rintro s i r m s' hs hi he n rfl
    exact member_size ((memberNone_match hsem hs hi).1 _ _ _ he).1
  · refine arrayLoop_counter (L := i.length + 1) ?_
      (member_traced hc .stringArray none (w := []) trivial) _ _ _ s i hs.classes (by omega)
      (by simpa using h) (by simp)
    rintro s i r m s' hs hi he n rfl
    have := (member_match hsem hs hi .stringArray).1 _ _ _ he
    exact member_size this.1

end Nrbf
