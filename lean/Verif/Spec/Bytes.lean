import Verif.Model.Basic
/-! Numbers as bytes. -/
namespace Bpak.Spec
open Bpak

/-- The `n` lowest bytes of a number, lowest first. -/
def leBytes (n v : Nat) : Bytes := (List.range n).map (fun i => BitVec.ofNat 8 (v / 256^i))

end Bpak.Spec
