import Verif.Model.Verify
/-!
lib/pkg.c, lib/pkg_create.c, lib/pkg_sign.c, lib/pkg_verify.c: packages in files.

The operating system is modelled thus: reads deliver what the file holds (short at the end), writes succeed
completely, a seek fails exactly for offsets of 2^63 and above (`off_t` negative). Failing writes (full disk) are
in Model/Disk.lean. Loops that can fail to end in C take a number of passes; the result `none` means "still
running after that many passes".
-/
namespace Bpak

/-- One effect on a file. (lib/pkg.c:182, 587) -/
inductive FOp where
  | write (pos : Nat) (data : Bytes)
  | trunc (n : Nat)
  deriving DecidableEq, Repr

/-- The file after one effect; `ftruncate` fills with zero bytes if it lengthens the file (POSIX). (lib/pkg.c:182, 587) -/
def applyOp (f : Bytes) : FOp → Bytes
  | .write pos d => fileWrite f pos d
  | .trunc n => f.take n ++ List.replicate (n - f.length) 0

/-- The file after a sequence of effects. (lib/pkg.c:482-594) -/
def applyOps (f : Bytes) (ops : List FOp) : Bytes := ops.foldl applyOp f

/-- `struct bpak_package`, include/bpak/pkg.h:27-31: the header in memory and the open file. `log` is not in the C
struct: it records the effects on the file, oldest first, so that crash points can be talked about. -/
structure Pkg where
  hdr : Header
  file : Bytes
  log : List FOp := []
  deriving DecidableEq, Repr

/-- `fseek` and `fwrite` on the package file. (e.g. lib/pkg.c:177-182) -/
def Pkg.write (p : Pkg) (pos : Nat) (d : Bytes) : Pkg := { p with file := fileWrite p.file pos d, log := p.log ++ [.write pos d] }

/-- `fflush` and `ftruncate`, lib/pkg.c:576-591. -/
def Pkg.trunc (p : Pkg) (n : Nat) : Pkg := { p with file := applyOp p.file (.trunc n), log := p.log ++ [.trunc n] }

/-- `pkg_read_payload`, lib/pkg.c:101-113, and `verify_payload_read`, lib/pkg_verify.c:20-34. -/
def pkgReader (f : Bytes) : Reader := fun off n =>
  if 2^63 ≤ off then .error .seekError
  else if (fileRead f off n).length ≠ n then .error .readError
  else .ok (fileRead f off n)

/-- `bpak_pkg_update_hash`, lib/pkg.c:115-141, without output of the header hash: the digest goes into the first
bytes of the `payload_hash` field. -/
def updateHash (H : HashFn) (p : Pkg) : Err × Pkg :=
  match computePayloadHash H p.hdr (pkgReader p.file) 4096 64 with
  | (.ok, some d) => (.ok, { p with hdr := { p.hdr with payloadHash := d ++ p.hdr.payloadHash.drop d.length } })
  | (e, _) => (e, p)

/-- `bpak_pkg_write_header`, lib/pkg.c:175-190. -/
def writeHeader (p : Pkg) : Pkg := p.write 0 p.hdr.image

/-- `bpak_pkg_open`, lib/pkg.c:25-90, on a file with content `f`; `canWrite`: the mode permits writing. For a file
shorter than a header a fresh header is written at the current position, which after the short read is the
end of the file. Result: the code and the package (its `file` is the file's content also after a failure). -/
def pkgOpen (H : HashFn) (canWrite : Bool) (f : Bytes) : Err × Pkg :=
  if 4096 ≤ f.length then (validHeader (parseHeader (f.take 4096)), ⟨parseHeader (f.take 4096), f, []⟩)
  else match updateHash H ⟨initHeader, f, []⟩ with
    | (.ok, p) =>
      if canWrite then (validHeader p.hdr, p.write f.length p.hdr.image) else (.writeError, p)
    | (e, p) => (e, p)

/-- `bpak_pkg_installed_size`, lib/pkg.c:143-152 (`size_t`, wraps). -/
def installedSize (h : Header) : U64 := h.parts.foldl (fun s p => s + (p.size + p.padBytes.setWidth 64)) 0

/-- `bpak_pkg_size`, lib/pkg.c:154-168. -/
def pkgSize (h : Header) : U64 := h.parts.foldl (fun s p => s + (if p.isTransport then p.transportSize else p.size)) 0 + 4096

/-- `bpak_pkg_write_raw_signature`, lib/pkg.c:192-200. The copy is not bounded by the field. -/
def writeRawSignature (p : Pkg) (sig : Bytes) : Out (Err × Pkg) :=
  if sig.length > 512 then .ub
  else .ret (.ok, writeHeader { p with hdr := { p.hdr with
    signature := sig ++ List.replicate (512 - sig.length) 0, signatureSz := BitVec.ofNat 16 sig.length } })

/-- The signature functions, a parameter of the model (lib/crypto.c:74-102). Signing may use randomness. -/
structure SigScheme (SK PK : Type) where
  sign : SK → Bytes → U8 → Bytes → Except Err Bytes
  verify : PK → U8 → Bytes → Bytes → Except Err Bool

/-- `bpak_pkg_sign`, lib/pkg_sign.c:20-63. `key` is the outcome of loading the key file. A signature longer than
the 512-byte field is refused by the signing function (which is given the size). The header hash is always
there for a 64-byte buffer (C17). -/
def pkgSign {SK PK : Type} (H : HashFn) (S : SigScheme SK PK) (rnd : Bytes) (key : Except Err SK) (p : Pkg) : Err × Pkg :=
  match updateHash H p with
  | (.ok, p) =>
    match computeHeaderHash H p.hdr 64 with
    | (.ok, some d) =>
      match key with
      | .error e => (e, p)
      | .ok sk =>
        match S.sign sk rnd p.hdr.hashKind d with
        | .error e => (e, { p with hdr := { p.hdr with signature := List.replicate 512 0 } })
        | .ok sig =>
          if sig.length > 512 then (.signFail, { p with hdr := { p.hdr with signature := List.replicate 512 0 } })
          else (.ok, writeHeader { p with hdr := { p.hdr with
            signature := sig ++ List.replicate (512 - sig.length) 0, signatureSz := BitVec.ofNat 16 sig.length } })
    | (e, _) => (e, p)
  | (e, p) => (e, p)

/-- `bpak_pkg_verify`, lib/pkg_verify.c:36-76. A `signature_sz` above 512 makes the range handed to the
verification function leave the signature array. -/
def pkgVerify {SK PK : Type} (H : HashFn) (S : SigScheme SK PK) (pk : PK) (p : Pkg) : Out Err :=
  match computeHeaderHash H p.hdr 64 with
  | (.ok, some d) =>
    if p.hdr.signatureSz.toNat > 512 then .ub
    else match S.verify pk p.hdr.hashKind d (p.hdr.signature.take p.hdr.signatureSz.toNat) with
      | .error e => .ret e
      | .ok false => .ret .verifyFail
      | .ok true => verifyPayload H p.hdr (pkgReader p.file) 4096
  | (e, _) => .ret e

/-- Copy loop of `bpak_pkg_extract_file`, lib/pkg.c:452-472. Result: code and bytes written out. -/
def extractLoop (f : Bytes) (off n : Nat) : Err × Bytes :=
  if h : n = 0 then (.ok, [])
  else if (fileRead f off (min n 4096)).length ≠ min n 4096 then (.readError, [])
  else
    let r := extractLoop f (off + min n 4096) (n - min n 4096)
    (r.1, fileRead f off (min n 4096) ++ r.2)
  termination_by n
  decreasing_by omega

/-- `bpak_pkg_extract_file`, lib/pkg.c:413-480. `none`: the output file is not created. -/
def extractFile (p : Pkg) (id : U32) : Err × Option Bytes :=
  match getPart p.hdr id with
  | none => (.notFound, none)
  | some i =>
    match p.hdr.parts[i]? with
    | none => (.notFound, none)
    | some q =>
      if 2^63 ≤ (partOffset p.hdr q).toNat then (.seekError, none)
      else
        let r := extractLoop p.file (partOffset p.hdr q).toNat (partSize q - q.padBytes.setWidth 64).toNat
        (r.1, some r.2)

/-- The offset at which new data goes, lib/pkg_create.c:122-124, 220-222, 308-310: the header and, for all 32
slots, size and padding (also for transport-encoded parts). -/
def newOffset (h : Header) : U64 := h.parts.foldl (fun s p => s + (p.size + p.padBytes.setWidth 64)) 4096

/-- Padding to `BPAK_PART_ALIGN`, lib/pkg_create.c:236-239, 324-327. -/
def padFor (n : Nat) : Nat := if n % 512 ≠ 0 then 512 - n % 512 else 0

/-- Copy loop of `bpak_pkg_add_file`, lib/pkg_create.c:257-264: `src` is what is left of the input file, `rem` the
counter, which starts at the size `stat` gave. -/
def addCopyLoop : Nat → Pkg → Nat → Bytes → U64 → Option (Pkg × Nat)
  | 0, _, _, _, _ => none
  | k+1, p, pos, src, rem =>
    if rem = 0 then some (p, pos)
    else addCopyLoop k (p.write pos (src.take 4096)) (pos + (src.take 4096).length) (src.drop 4096)
      (rem - BitVec.ofNat 64 (src.take 4096).length)

/-- `bpak_pkg_add_file`, lib/pkg_create.c:200-291. `statSize` is the size `stat` reports, `src` what reading the file
gives afterwards (the same, unless the file changes in between). -/
def addFile (H : HashFn) (fuel : Nat) (p : Pkg) (id : U32) (flags : U8) (statSize : Nat) (src : Bytes) : Option (Err × Pkg) :=
  let off := newOffset p.hdr
  match addPart p.hdr id with
  | (.ok, h, i) =>
    let h := { h with parts := h.parts.modify i (fun q => { q with
      id := id, offset := off, flags := flags, size := BitVec.ofNat 64 statSize, padBytes := BitVec.ofNat 16 (padFor statSize) }) }
    let p := { p with hdr := h }
    if 2^63 ≤ off.toNat then some (.seekError, p)
    else match addCopyLoop fuel p off.toNat src (BitVec.ofNat 64 statSize) with
      | none => none
      | some (p, pos) =>
        let p := p.write pos (List.replicate (padFor statSize) 0)
        match updateHash H p with
        | (.ok, p) => some (.ok, writeHeader p)
        | (e, p) => some (e, p)
  | (e, h, _) => some (e, { p with hdr := h })

/-- `bpak_pkg_add_key`, lib/pkg_create.c:293-365. `key` is the outcome of loading the key file (DER bytes). The
padding is written from a one-byte variable: undefined behaviour for two bytes and more. -/
def addKey (H : HashFn) (p : Pkg) (id : U32) (flags : U8) (key : Except Err Bytes) : Out (Err × Pkg) :=
  match key with
  | .error e => .ret (e, p)
  | .ok d =>
    let off := newOffset p.hdr
    match addPart p.hdr id with
    | (.ok, h, i) =>
      let h := { h with parts := h.parts.modify i (fun q => { q with
        id := id, offset := off, flags := flags, size := BitVec.ofNat 64 d.length, padBytes := BitVec.ofNat 16 (padFor d.length) }) }
      let p := { p with hdr := h }
      if 2^63 ≤ off.toNat then .ret (.seekError, p)
      else if padFor d.length > 1 then .ub
      else
        let p := (p.write off.toNat d).write (off.toNat + d.length) (List.replicate (padFor d.length) 0)
        match updateHash H p with
        | (.ok, p) => .ret (.ok, writeHeader p)
        | (e, p) => .ret (e, p)
    | (e, h, _) => .ret (e, { p with hdr := h })

/-- The chunks `fread` delivers, lib/pkg_create.c:101-105. -/
def readChunks (d : Bytes) : List Bytes :=
  if h : d = [] then [] else d.take 4096 :: readChunks (d.drop 4096)
  termination_by d.length
  decreasing_by
    have := List.length_pos_iff.2 h
    simp; omega

/-- Building the tree in a zeroed buffer of `sz` bytes, lib/pkg_create.c:67-118. The code of `bpak_merkle_init` is
ignored; going on with the uninitialised context is undefined behaviour, as is a write past the buffer. -/
def merkleBuffer (H : HashFn) (sz : Nat) (salt d : Bytes) : Out (Except Err (Bytes × Bytes)) :=
  match merkleInit fileIo (List.replicate sz 0) d.length salt 0 true with
  | .error _ => .ub
  | .ok (m, b) =>
    match merkleWriteAll H fileIo m b (readChunks d) with
    | .error e => .ret (.error e)
    | .ok (m, b) =>
      match merkleFinish H fileIo m b with
      | .error e => .ret (.error e)
      | .ok (root, b) => if b.length ≠ sz then .ub else .ret (.ok (root, b))

/-- `bpak_add_meta` followed by a copy of 32 bytes to the place, lib/pkg_create.c:130-152. -/
def addHashMeta (h : Header) (id ref : U32) (v : Bytes) : Out (Err × Header) :=
  match addMeta h id ref 32 with
  | (.ok, h', i) =>
    match h'.metas[i]? with
    | none => .ub
    | some m =>
      match writeAt h'.metadata m.offset.toNat v with
      | none => .ub
      | some md => .ret (.ok, { h' with metadata := md })
  | (e, h', _) => .ret (e, h')

/-- `bpak_pkg_add_file_with_merkle_tree`, lib/pkg_create.c:39-196, for an input file that does not change. `salt`:
32 random bytes. -/
def addFileWithMerkle (H : HashFn) (fuel : Nat) (p : Pkg) (id : U32) (flags : U8) (d salt : Bytes) : Option (Out (Err × Pkg)) :=
  match addFile H fuel p id flags d.length d with
  | none => none
  | some (.ok, p) =>
    match merkleComputeSize d.length with
    | .error e => some (.ret (e, p))
    | .ok sz =>
      match merkleBuffer H sz salt d with
      | .ub => some .ub
      | .ret (.error e) => some (.ret (e, p))
      | .ret (.ok (root, tree)) =>
        let off := newOffset p.hdr
        match addHashMeta p.hdr idMerkleSalt id salt with
        | .ub => some .ub
        | .ret (.ok, h1) =>
          match addHashMeta h1 idMerkleRootHash id root with
          | .ub => some .ub
          | .ret (.ok, h2) =>
            match addPart h2 (partIdToHashTreeId id) with
            | (.ok, h3, i) =>
              let h3 := { h3 with parts := h3.parts.modify i (fun q => { q with
                offset := off, flags := flags, size := BitVec.ofNat 64 sz, padBytes := 0 }) }
              let p := { p with hdr := h3 }
              if 2^63 ≤ off.toNat then some (.ret (.failed, p))
              else match updateHash H (p.write off.toNat tree) with
                | (.ok, p) => some (.ret (.ok, writeHeader p))
                | (e, p) => some (.ret (e, p))
            | (e, h3, _) => some (.ret (e, { p with hdr := h3 }))
          | .ret (e, h2) => some (.ret (e, { p with hdr := h2 }))
        | .ret (e, h1) => some (.ret (e, { p with hdr := h1 }))
  | some (e, p) => some (.ret (e, p))

/-- The metadata loop of the delete functions, lib/pkg.c:515-523, 605-613: all 32 slots; after a deletion the same
slot is looked at again (`meta--; meta++`). -/
def removeMetas (sel : U32 → Bool) : Nat → Header → Nat → Option (Out Header)
  | 0, _, _ => none
  | k+1, h, i =>
    match h.metas[i]? with
    | none => some (.ret h)
    | some m =>
      if sel m.partRef then
        match delMeta h i with
        | .ub => some .ub
        | .ret h' => removeMetas sel k h' i
      else removeMetas sel k h (i+1)

/-- Loop over the parts behind the removed one, lib/pkg.c:506-512: their offset fields and total size. -/
def shiftParts (sz : U64) : List PartHdr → List PartHdr × U64
  | [] => ([], 0)
  | q :: qs =>
    if q.id = 0 then (q :: qs, 0)
    else ({ q with offset := q.offset - sz } :: (shiftParts sz qs).1, partSize q + (shiftParts sz qs).2)

/-- Loop moving the data, lib/pkg.c:532-562. Each pass asks for 4096 bytes, however many are left to move. -/
def moveData : Nat → Pkg → U64 → U64 → U64 → Option (Err × Pkg)
  | 0, _, _, _, _ => none
  | k+1, p, rd, wr, rem =>
    if rem = 0 then some (.ok, p)
    else if 2^63 ≤ rd.toNat then some (.readError, p)
    else if 2^63 ≤ wr.toNat then some (.writeError, p)
    else
      moveData k (p.write wr.toNat (fileRead p.file rd.toNat 4096)) (rd + BitVec.ofNat 64 (fileRead p.file rd.toNat 4096).length)
        (wr + BitVec.ofNat 64 (fileRead p.file rd.toNat 4096).length) (rem - BitVec.ofNat 64 (fileRead p.file rd.toNat 4096).length)

/-- The new file size, lib/pkg.c:578-585. -/
def partsEnd : List PartHdr → U64 → U64
  | [], s => s
  | q :: qs, s => if q.id = 0 then s else partsEnd qs (s + partSize q)

/-- `bpak_pkg_delete_part`, lib/pkg.c:482-594. -/
def deletePart (H : HashFn) (fuel : Nat) (p : Pkg) (id : U32) (removeMeta : Bool) : Option (Out (Err × Pkg)) :=
  match getPart p.hdr id with
  | none => some (.ret (.notFound, p))
  | some i =>
    match p.hdr.parts[i]?, delPart p.hdr i with
    | some q, .ret h =>
      let r := shiftParts (partSize q) (h.parts.drop i)
      let h1 := { h with parts := h.parts.take i ++ r.1 }
      match (if removeMeta then removeMetas (fun ref => ref == id) fuel h1 0 else some (.ret h1)) with
      | none => none
      | some .ub => some .ub
      | some (.ret h2) =>
        match moveData fuel { p with hdr := h2 } (partOffset p.hdr q + partSize q) (partOffset p.hdr q) r.2 with
        | none => none
        | some (.ok, p) =>
          match updateHash H p with
          | (.ok, p) => some (.ret (.ok, (writeHeader p).trunc (partsEnd p.hdr.parts 4096).toNat))
          | (e, p) => some (.ret (e, p))
        | some (e, p) => some (.ret (e, p))
    | _, _ => some .ub

/-- `bpak_pkg_delete_all_parts`, lib/pkg.c:596-636. -/
def deleteAllParts (H : HashFn) (fuel : Nat) (p : Pkg) (removeMeta : Bool) : Option (Out (Err × Pkg)) :=
  let h := { p.hdr with parts := List.replicate 32 PartHdr.zero }
  match (if removeMeta then removeMetas (fun ref => ref != 0) fuel h 0 else some (.ret h)) with
  | none => none
  | some .ub => some .ub
  | some (.ret h) =>
    match updateHash H { p with hdr := h } with
    | (.ok, p) => some (.ret (.ok, (writeHeader p).trunc 4096))
    | (e, p) => some (.ret (e, p))

end Bpak
