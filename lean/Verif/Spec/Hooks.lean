import Verif.Model.Hooks
import Verif.Spec.Verify
/-!
What it means that an installed hash function was used as it should be.
-/
namespace Bpak.Hk

/-- The data given to the update function, in order. -/
def fed : List Ev → Bytes
  | [] => []
  | e :: es => (match e.call with | .update d => d | _ => []) ++ fed es

/-- The calls of one computation: the hash function for `kind` was started, was given exactly `data`, in pieces, and then
finished with `digest`; every one of these calls succeeded, each reached the function installed for it, and then the context
was released once, if there is a function for it. -/
def Hashed (hk : Hooks) (kind : U8) (data digest : Bytes) (evs : List Ev) : Prop :=
  ∃ i ups f fr, evs = i :: (ups ++ f :: fr) ∧
    (hk.init = some i.fn ∧ i.call = .init kind ∧ i.ans.code = .ok) ∧
    (∀ e ∈ ups, hk.update = some e.fn ∧ (∃ d, e.call = .update d) ∧ e.ans.code = .ok) ∧ fed ups = data ∧
    (hk.final = some f.fn ∧ f.call = .final 64 ∧ f.ans.code = .ok ∧ f.ans.data.take 64 = digest) ∧
    (∀ e ∈ fr, hk.free = some e.fn ∧ e.call = .free) ∧ fr.length = hk.free.toList.length

/-- Calls of the application to install functions: the two setup functions, with their arguments. -/
inductive Setup
  | hash (i u f r : Option Nat)
  | crypto (v s pu pr pa : Option Nat)

/-- The pointers after calls of the setup functions. -/
def installed (start : Hooks) (cs : List Setup) : Hooks :=
  cs.foldl (fun h c => match c with
    | .hash i u f r => hashSetup h i u f r
    | .crypto v s pu pr pa => cryptoSetup h v s pu pr pa) start

end Bpak.Hk
