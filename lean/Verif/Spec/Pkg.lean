import Verif.Model.Pkg
import Verif.Spec.History
/-!
What a package is, seen from outside.
-/
namespace Bpak

/-- The stored bytes of a part: those at the offset `bpak_part_offset` reports. -/
def storedBytes (p : Pkg) (q : PartHdr) : Bytes := fileRead p.file (partOffset p.hdr q).toNat (storedSize q)

/-- What a package holds, in table order: each part's id and stored bytes. -/
def contents (p : Pkg) : List (U32 × Bytes) := (usedParts p.hdr).map (fun q => (q.id, storedBytes p q))

/-- The package in the file is the one in memory: reopening gives it back. -/
def Saved (p : Pkg) : Prop := 4096 ≤ p.file.length ∧ parseHeader (p.file.take 4096) = p.hdr

/-- The states of the file if a crash interrupts a sequence of effects: some are done, and of the next one, if a
write, possibly a first piece. -/
def CrashState (f : Bytes) (ops : List FOp) (f' : Bytes) : Prop :=
  ∃ done rest, ops = done ++ rest ∧
    (f' = applyOps f done ∨ ∃ pos d tl n, rest = .write pos d :: tl ∧ f' = fileWrite (applyOps f done) pos (d.take n))

/-- Signing and verification keys that belong together: what one signs the other accepts, whatever the
randomness. -/
def KeyPair {SK PK : Type} (S : SigScheme SK PK) (sk : SK) (pk : PK) : Prop :=
  ∀ rnd k d sig, S.sign sk rnd k d = .ok sig → S.verify pk k d sig = .ok true

end Bpak

namespace Bpak

/-- A part table as the API leaves it: used slots first (nonzero ids by definition of `usedParts`), then zeroed
ones; no id twice. -/
structure GoodParts (h : Header) : Prop where
  slots : h.parts = usedParts h ++ List.replicate (32 - (usedParts h).length) PartHdr.zero
  distinct : (usedParts h).Pairwise (fun a b => a.id ≠ b.id)

/-- A package as the API leaves it: a well-formed header with a supported hash kind, a good part table without
transport-encoded parts, and a file that ends where the last part ends. -/
structure GoodPkg (p : Pkg) : Prop where
  wf : p.hdr.WF
  parts : GoodParts p.hdr
  kind : ∃ n, digestLen p.hdr.hashKind = some n
  plain : ∀ q ∈ usedParts p.hdr, q.flags &&& 2 = 0
  exact : p.file.length = 4096 + ((usedParts p.hdr).map storedSize).sum

end Bpak

namespace Bpak

/-- A metadata table as the API leaves it: used slots first, then zeroed ones; no (id, part reference) twice; the
entries' bytes laid out one after another, each starting at the next multiple of 8, all inside the area. -/
structure GoodMetas (h : Header) : Prop where
  slots : h.metas = usedMetas h ++ List.replicate (32 - (usedMetas h).length) MetaHdr.zero
  distinct : (usedMetas h).Pairwise (fun a b => ¬ (a.id = b.id ∧ a.partRef = b.partRef))
  layout : ∀ pre m post, usedMetas h = pre ++ m :: post →
    m.offset.toNat = (pre.map (fun x => (x.size.toNat + 7) / 8 * 8)).sum ∧ m.offset.toNat + m.size.toNat ≤ 1920

/-- The payload hash field starts with the digest of the stored bytes of the parts not excluded from hashing. -/
def HashStored (H : HashFn) (p : Pkg) : Prop :=
  H p.hdr.hashKind (((usedParts p.hdr).filter (fun q => !q.excluded)).flatMap (storedBytes p)) <+: p.hdr.payloadHash

/-- The offset field stored with each part is the place at which the library looks for the part's data, and no transport size is stored. -/
def Placed (h : Header) : Prop := ∀ q ∈ usedParts h, q.offset = partOffset h q ∧ q.transportSize = 0

/-- What is visible of a part without its place: id, flags, sizes. -/
def partAttrs (q : PartHdr) : U32 × U8 × Nat × Nat × Nat := (q.id, q.flags, q.size.toNat, q.padBytes.toNat, q.transportSize.toNat)

/-- What is visible of a metadata entry without its place and content. -/
def metaAttrs (m : MetaHdr) : U32 × U32 × Nat := (m.id, m.partRef, m.size.toNat)

end Bpak
