import Verif.Model.Transport
import Verif.Spec.Pkg
import Verif.Spec.Merkle
import Verif.Spec.Patch
/-!
When a package can be sent as a delta and restored: vocabulary for C38-C40.
-/
namespace Bpak

/-- A header has this metadata entry (as a user sees it, see `entries`). -/
def HasEntry (h : Header) (id ref : U32) (data : Bytes) : Prop := (⟨id, ref, data⟩ : Entry) ∈ entries h

/-- What the transport entries of a package say about a part `q`, where `pre` are the parts before it: nothing (it is copied); it
is sent as a delta, with an encoder and the matching decoder, and there is an origin; or it is the hash tree of an
earlier part `fs`, is left out and rebuilt, and its stored bytes really are that tree, with the salt found in the metadata. -/
inductive Transportable (H : HashFn) (inp : Pkg) (hasOrigin : Bool) (pre : List PartHdr) (q : PartHdr) : Prop where
  | copied (no : ∀ e ∈ entries inp.hdr, ¬ (e.id = idBpakTransport ∧ e.ref = q.id))
  | delta (enc dec : U32) (tail : Bytes) (entry : HasEntry inp.hdr idBpakTransport q.id (le32 enc ++ le32 dec ++ tail))
      (algs : (enc = idBsdiff ∧ dec = idBspatch) ∨ (enc = idBsdiffNoComp ∧ dec = idBspatchNoComp) ∨ (enc = idBsdiffLzma ∧ dec = idBspatchLzma)) (origin : hasOrigin = true)
  | tree (tail : Bytes) (entry : HasEntry inp.hdr idBpakTransport q.id (le32 idRemoveData ++ le32 idMerkleGenerate ++ tail))
      (fs : PartHdr) (before : fs ∈ pre) (name : partIdToHashTreeId fs.id = q.id)
      (salt : Bytes) (saltEntry : HasEntry inp.hdr idMerkleSalt fs.id salt) (saltLen : salt.length = 32)
      (size : TreeSupported (storedSize fs)) (bytes : storedBytes inp q = hashTree H salt (storedBytes inp fs))

/-- A package to be sent: good, saved in its file, with at least one part, never transport-encoded before, and each part's
transport entry (if any) as in `Transportable`. -/
structure Sendable (H : HashFn) (inp : Pkg) (hasOrigin : Bool) : Prop where
  good : GoodPkg inp
  metas : GoodMetas inp.hdr
  saved : Saved inp
  small : inp.file.length < 2^63
  fresh : ∀ q ∈ usedParts inp.hdr, q.transportSize = 0
  parts : ∀ pre q post, usedParts inp.hdr = pre ++ q :: post → Transportable H inp hasOrigin pre q

/-- An origin for a package: good, with a part of the same id for each part, and the same 16-byte package id. -/
structure OriginFor (inp org : Pkg) : Prop where
  good : GoodPkg org
  metas : GoodMetas org.hdr
  small : org.file.length < 2^63
  has : ∀ q ∈ usedParts inp.hdr, ∃ o ∈ usedParts org.hdr, o.id = q.id
  uuid : ∃ u : Bytes, u.length = 16 ∧ HasEntry inp.hdr idBpakPackage 0 u ∧ HasEntry org.hdr idBpakPackage 0 u

/-- The package id lies at the same place of the metadata area in both headers. -/
def SamePlace (a b : Header) : Prop :=
  ∃ m ∈ usedMetas a, ∃ m' ∈ usedMetas b, m.id = idBpakPackage ∧ m.partRef = 0 ∧ m'.id = idBpakPackage ∧ m'.partRef = 0 ∧ m.offset = m'.offset

/-- A package as the pair the transport functions take. -/
def Pkg.pair (p : Pkg) : Header × Bytes := (p.hdr, p.file)

/-- Successive `bpak_transport_decode_write_chunk` calls by a caller that stops at the first error. -/
def decodeRun [LzmaLib] (d : TDec) : List Bytes → Drv TDec
  | [] => .ok d
  | b :: bs =>
    match decodeWrite d b with
    | .ok d => decodeRun d bs
    | .fail e => .fail e
    | .ub => .ub
    | .hang => .hang

/-- The size a part declares. -/
def declaredSize (q : PartHdr) : Nat := q.size.toNat + q.padBytes.toNat

end Bpak
