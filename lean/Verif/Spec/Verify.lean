import Verif.Model.Verify
import Verif.Spec.Merkle
import Verif.Spec.History
/-!
What the payload hash covers.
-/
namespace Bpak

/-- The stored bytes of the used parts not excluded from hashing, in table order. The parts lie one after the
other from `off`; excluded parts are skipped over. -/
def hashedBytes (P : Bytes) : List PartHdr → U64 → Bytes
  | [], _ => []
  | p :: ps, off =>
    if p.id = 0 then hashedBytes P ps off
    else (if p.excluded then [] else fileRead P off.toNat (partSize p).toNat) ++ hashedBytes P ps (off + partSize p)

/-- All of those bytes are there. -/
def HashedReadable (P : Bytes) : List PartHdr → U64 → Prop
  | [], _ => True
  | p :: ps, off =>
    if p.id = 0 then HashedReadable P ps off
    else (p.excluded = false → (fileRead P off.toNat (partSize p).toNat).length = (partSize p).toNat) ∧ HashedReadable P ps (off + partSize p)

instance instDecHashedReadable (P : Bytes) : (ps : List PartHdr) → (off : U64) → Decidable (HashedReadable P ps off)
  | [], _ => isTrue trivial
  | p :: ps, off => by
    unfold HashedReadable
    have := instDecHashedReadable P ps
    infer_instance

end Bpak
