import Verif.Model.SamePath
/-!
What stdio may hold back.
-/
namespace Bpak

/-- The C library passes the first block on directly and holds back at most one block of 4096 bytes after that (as glibc does). -/
structure HoldsBack (lag : Nat → Nat) : Prop where
  first : lag 0 = 0 ∧ lag 1 = 0
  block : ∀ r, lag r ≤ 4096

end Bpak
