import Verif.Lemmas.Strict
import Verif.Props.Writers

/-! # C89: whatever a writer writes can be renamed -/

set_option autoImplicit false

namespace Nrbf
open Spec

variable [Platform]

/-- **C89** Whatever choices a writer makes (C71), bytes 12 at any place included: for every renaming there is the renamed message,
and both are parsed to the same. -/
theorem C89_written {m : RemotingMessage} {w : Bytes} (h : Written m w) {σ : Renaming} (hσ : σ.Good) :
    ∃ w', Renamed σ true w w' m ∧ IdsReplaced σ w w' ∧ deserialize w = .ok m ∧ deserialize w' = .ok m := by
  obtain ⟨w', h1, h2⟩ := C89_exists hσ (Strict.written_strict h)
  exact ⟨w', h1, h2, C89 hσ h1⟩

/-- Every message that can be stored at all (C57) is written in a way that can be renamed. -/
example {m : RemotingMessage} (hm : Writable m) {σ : Renaming} (hσ : σ.Good) :
    ∃ w', Renamed σ true (write m) w' m ∧ IdsReplaced σ (write m) w' ∧ deserialize w' = .ok m :=
  let ⟨w', h1, h2, _, h3⟩ := C89_written (C71_write m hm) hσ
  ⟨w', h1, h2, h3⟩

end Nrbf
