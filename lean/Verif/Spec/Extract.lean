import Verif.Model.Extract
import Verif.Spec.Disk
/-!
What an extraction to a disk that can be full is compared with.
-/
namespace Bpak

/-- An extraction (`res`: the code, and the output file if there is one) against the same extraction with room (`base`). Success
means success with room; what was written is a beginning of what is written with room; a failure that is not the one with room
is a failure to create or to write the output. -/
def Honest (base res : Err × Option Bytes) : Prop :=
  (res.1 = .ok → base.1 = .ok) ∧
  (∀ o, res.2 = some o → ∃ d, base.2 = some d ∧ o <+: d) ∧
  (res.1 = base.1 ∨ res.1 = .writeError ∨ (res.1 = .failed ∧ res.2 = none))

/-- Success means that all is there. -/
def AllThere (base res : Err × Option Bytes) : Prop := res.1 = .ok → res = base

end Bpak
