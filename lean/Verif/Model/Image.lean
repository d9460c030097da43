import Verif.Model.Header
/-!
The on-disk image of the header: `bpak_pkg_write_header` (lib/pkg.c:175-190) writes the packed struct
verbatim and `bpak_pkg_open` (lib/pkg.c:25-90) reads it verbatim, so the image is the memory layout of
`struct bpak_header` (include/bpak/bpak.h:190-242) on a little-endian target.
-/
namespace Bpak

/-- Layout of `struct bpak_meta_header`, include/bpak/bpak.h:220-226. -/
def metaImage (m : MetaHdr) : Bytes := le32 m.id ++ le16 m.size ++ le16 m.offset ++ le32 m.partRef ++ m.pad

/-- Layout of `struct bpak_part_header`, include/bpak/bpak.h:203-213. -/
def partImage (p : PartHdr) : Bytes :=
  le32 p.id ++ le64 p.size ++ le64 p.offset ++ le64 p.transportSize ++ le16 p.padBytes ++ [p.flags, p.pad]

/-- Layout of `struct bpak_header`, include/bpak/bpak.h:234-249: what `fwrite(&hdr, sizeof(hdr), 1, fp)`
in lib/pkg.c:181-182 emits. -/
def Header.image (h : Header) : Bytes :=
  le32 h.magic ++ h.pad0 ++ h.metas.flatMap metaImage ++ h.parts.flatMap partImage ++ h.metadata ++
  [h.hashKind, h.signatureKind] ++ le16 h.alignment ++ h.payloadHash ++ le32 h.keyId ++ le32 h.keystoreId ++
  h.pad1 ++ h.signature ++ le16 h.signatureSz

/-- `n` bytes from offset `o`. (no C counterpart: a field of a struct read in place) -/
def slice (b : Bytes) (o n : Nat) : Bytes := (b.drop o).take n

/-- Reading a `struct bpak_meta_header` in place. (include/bpak/bpak.h:220-226) -/
def parseMeta (b : Bytes) : MetaHdr where
  id := ofLe32 (slice b 0 4)
  size := ofLe16 (slice b 4 2)
  offset := ofLe16 (slice b 6 2)
  partRef := ofLe32 (slice b 8 4)
  pad := slice b 12 4

/-- Reading a `struct bpak_part_header` in place. (include/bpak/bpak.h:203-213) -/
def parsePart (b : Bytes) : PartHdr where
  id := ofLe32 (slice b 0 4)
  size := ofLe64 (slice b 4 8)
  offset := ofLe64 (slice b 12 8)
  transportSize := ofLe64 (slice b 20 8)
  padBytes := ofLe16 (slice b 28 2)
  flags := (slice b 30 1).headD 0
  pad := (slice b 31 1).headD 0

/-- Reading a `struct bpak_header` in place: every field at its fixed offset
(include/bpak/bpak.h:234-249, packed). Meaningful for 4096-byte inputs, which is what
`bpak_pkg_open` insists on. -/
def parseHeader (b : Bytes) : Header where
  magic := ofLe32 (slice b 0 4)
  pad0 := slice b 4 4
  metas := (List.range 32).map (fun i => parseMeta (slice b (8 + 16 * i) 16))
  parts := (List.range 32).map (fun i => parsePart (slice b (520 + 32 * i) 32))
  metadata := slice b 1544 1920
  hashKind := (slice b 3464 1).headD 0
  signatureKind := (slice b 3465 1).headD 0
  alignment := ofLe16 (slice b 3466 2)
  payloadHash := slice b 3468 64
  keyId := ofLe32 (slice b 3532 4)
  keystoreId := ofLe32 (slice b 3536 4)
  pad1 := slice b 3540 42
  signature := slice b 3582 512
  signatureSz := ofLe16 (slice b 4094 2)

end Bpak
