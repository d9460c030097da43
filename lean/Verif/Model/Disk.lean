import Verif.Model.Pkg
/-!
lib/pkg.c, lib/pkg_create.c, lib/pkg_sign.c on a disk that can be full: the functions of Model/Pkg.lean with the results of `fseek`, `fwrite` and `ftruncate` that they test.

A write to the stream of the package either is complete, or stops after some bytes and `fwrite` says so, or stops after some bytes and the error is noticed only later, because
`fwrite` left the data in the buffer of the stream. Such a late error is reported by the next `fseek`, or by the next `fwrite`, or by a function whose result bpak does
not look at (`fflush`, `fclose`). Simplifications: nothing more reaches the file until a late error is reported or dropped; reads do not fail except as in
Model/Pkg.lean.
-/
namespace Bpak

/-- What happens to a `fwrite`: all bytes are written; only the first `m`, and the result says so; only the first `m`, noticed later. (C library; e.g. lib/pkg.c:182) -/
inductive Luck where
  | full
  | short (m : Nat)
  | late (m : Nat)
  deriving DecidableEq, Repr

/-- A package handle (`struct bpak_package`, include/bpak/pkg.h:27-31) and its stream: what happens to the writes to come (after the end of the list all are complete), and whether there
is an error not yet noticed. -/
structure Disk where
  pkg : Pkg
  luck : List Luck := []
  pending : Bool := false

/-- `fseek(fp, pos, SEEK_SET)`, e.g. lib/pkg.c:177: reports a late error. -/
def Disk.fseek (w : Disk) (pos : Nat) : Bool × Disk := if w.pending then (false, { w with pending := false }) else (decide (pos < 2^63), w)

/-- `fwrite(d, 1, n, fp)` with the stream at `pos`: whether the result is `n`. (e.g. lib/pkg.c:182) -/
def Disk.fwrite (w : Disk) (pos : Nat) (d : Bytes) : Bool × Disk :=
  if d = [] then (true, { w with pkg := w.pkg.write pos d })
  else if w.pending then
    match w.luck.headD .full with
    | .short _ => (false, ⟨w.pkg, w.luck.tail, false⟩)
    | _ => (true, ⟨w.pkg, w.luck.tail, true⟩)
  else
    match w.luck.headD .full with
    | .full => (true, ⟨w.pkg.write pos d, w.luck.tail, false⟩)
    | .short m => if d.length ≤ m then (true, ⟨w.pkg.write pos d, w.luck.tail, false⟩) else (false, ⟨w.pkg.write pos (d.take m), w.luck.tail, false⟩)
    | .late m => if d.length ≤ m then (true, ⟨w.pkg.write pos d, w.luck.tail, false⟩) else (true, ⟨w.pkg.write pos (d.take m), w.luck.tail, true⟩)

/-- `fflush` with its result ignored and `ftruncate`, lib/pkg.c:576-591, 627-633. -/
def Disk.ftruncate (w : Disk) (n : Nat) : Bool × Disk :=
  match w.luck.headD .full with
  | .full => (true, ⟨w.pkg.trunc n, w.luck.tail, false⟩)
  | _ => (false, ⟨w.pkg, w.luck.tail, false⟩)

/-- `bpak_pkg_close`, lib/pkg.c:92-99: the result of `fclose` is ignored. -/
def closeD (w : Disk) : Err × Bytes := (.ok, w.pkg.file)

/-- `bpak_pkg_update_hash`, lib/pkg.c:115-141; every read begins with a `fseek` (lib/pkg.c:101-113). -/
def updateHashD (H : HashFn) (w : Disk) : Err × Disk :=
  match computePayloadHash H w.pkg.hdr (if w.pending then (fun _ _ => .error .seekError) else pkgReader w.pkg.file) 4096 64 with
  | (.ok, some d) => (.ok, { w with pkg := { w.pkg with hdr := { w.pkg.hdr with payloadHash := d ++ w.pkg.hdr.payloadHash.drop d.length } } })
  | (e, _) => (e, { w with pending := false })

/-- `bpak_pkg_write_header`, lib/pkg.c:175-190. -/
def writeHeaderD (w : Disk) : Err × Disk :=
  match w.fseek 0 with
  | (false, w) => (.seekError, w)
  | (true, w) =>
    match w.fwrite 0 w.pkg.hdr.image with
    | (false, w) => (.writeError, w)
    | (true, w) => (.ok, w)

/-- The last steps of the functions that change a package: `bpak_pkg_update_hash`, then `bpak_pkg_write_header`. (lib/pkg_create.c:183-190, 279-286, 350-359; lib/pkg.c:564-574, 615-625) -/
def finishD (H : HashFn) (w : Disk) : Err × Disk :=
  match updateHashD H w with
  | (.ok, w) => writeHeaderD w
  | (e, w) => (e, w)

/-- `bpak_pkg_open`, lib/pkg.c:25-90, on a file with content `f`. -/
def pkgOpenD (H : HashFn) (canWrite : Bool) (f : Bytes) (luck : List Luck) : Err × Disk :=
  if 4096 ≤ f.length then (validHeader (parseHeader (f.take 4096)), ⟨⟨parseHeader (f.take 4096), f, []⟩, luck, false⟩)
  else match updateHashD H ⟨⟨initHeader, f, []⟩, luck, false⟩ with
    | (.ok, w) =>
      if canWrite then
        match w.fwrite f.length w.pkg.hdr.image with
        | (false, w) => (.writeError, w)
        | (true, w) =>
          match w.fseek 0 with
          | (false, w) => (.seekError, w)
          | (true, w) => (validHeader w.pkg.hdr, w)
      else (.writeError, w)
    | (e, w) => (e, w)

/-- `bpak_pkg_write_raw_signature`, lib/pkg.c:192-200. -/
def writeRawSignatureD (w : Disk) (sig : Bytes) : Out (Err × Disk) :=
  if sig.length > 512 then .ub
  else .ret (writeHeaderD { w with pkg := { w.pkg with hdr := { w.pkg.hdr with
    signature := sig ++ List.replicate (512 - sig.length) 0, signatureSz := BitVec.ofNat 16 sig.length } } })

/-- `bpak_pkg_sign`, lib/pkg_sign.c:20-63. -/
def pkgSignD {SK PK : Type} (H : HashFn) (S : SigScheme SK PK) (rnd : Bytes) (key : Except Err SK) (w : Disk) : Err × Disk :=
  match updateHashD H w with
  | (.ok, w) =>
    match computeHeaderHash H w.pkg.hdr 64 with
    | (.ok, some d) =>
      match key with
      | .error e => (e, w)
      | .ok sk =>
        match S.sign sk rnd w.pkg.hdr.hashKind d with
        | .error e => (e, { w with pkg := { w.pkg with hdr := { w.pkg.hdr with signature := List.replicate 512 0 } } })
        | .ok sig =>
          if sig.length > 512 then (.signFail, { w with pkg := { w.pkg with hdr := { w.pkg.hdr with signature := List.replicate 512 0 } } })
          else writeHeaderD { w with pkg := { w.pkg with hdr := { w.pkg.hdr with
            signature := sig ++ List.replicate (512 - sig.length) 0, signatureSz := BitVec.ofNat 16 sig.length } } }
    | (e, _) => (e, w)
  | (e, w) => (e, w)

/-- Copy loop of `bpak_pkg_add_file`, lib/pkg_create.c:257-264; the first component is whether all writes were reported as complete. -/
def addCopyLoopD : Nat → Disk → Nat → Bytes → U64 → Option (Bool × Disk × Nat)
  | 0, _, _, _, _ => none
  | k+1, w, pos, src, rem =>
    if rem = 0 then some (true, w, pos)
    else match w.fwrite pos (src.take 4096) with
      | (false, w) => some (false, w, pos)
      | (true, w) => addCopyLoopD k w (pos + (src.take 4096).length) (src.drop 4096) (rem - BitVec.ofNat 64 (src.take 4096).length)

/-- `bpak_pkg_add_file`, lib/pkg_create.c:200-291. -/
def addFileD (H : HashFn) (fuel : Nat) (w : Disk) (id : U32) (flags : U8) (statSize : Nat) (src : Bytes) : Option (Err × Disk) :=
  let off := newOffset w.pkg.hdr
  match addPart w.pkg.hdr id with
  | (.ok, h, i) =>
    let h := { h with parts := h.parts.modify i (fun q => { q with
      id := id, offset := off, flags := flags, size := BitVec.ofNat 64 statSize, padBytes := BitVec.ofNat 16 (padFor statSize) }) }
    let w := { w with pkg := { w.pkg with hdr := h } }
    match w.fseek off.toNat with
    | (false, w) => some (.seekError, w)
    | (true, w) =>
      match addCopyLoopD fuel w off.toNat src (BitVec.ofNat 64 statSize) with
      | none => none
      | some (false, w, _) => some (.writeError, w)
      | some (true, w, pos) =>
        match w.fwrite pos (List.replicate (padFor statSize) 0) with
        | (false, w) => some (.writeError, w)
        | (true, w) => some (finishD H w)
  | (e, h, _) => some (e, { w with pkg := { w.pkg with hdr := h } })

/-- `bpak_pkg_add_key`, lib/pkg_create.c:293-365. -/
def addKeyD (H : HashFn) (w : Disk) (id : U32) (flags : U8) (key : Except Err Bytes) : Out (Err × Disk) :=
  match key with
  | .error e => .ret (e, w)
  | .ok d =>
    let off := newOffset w.pkg.hdr
    match addPart w.pkg.hdr id with
    | (.ok, h, i) =>
      let h := { h with parts := h.parts.modify i (fun q => { q with
        id := id, offset := off, flags := flags, size := BitVec.ofNat 64 d.length, padBytes := BitVec.ofNat 16 (padFor d.length) }) }
      let w := { w with pkg := { w.pkg with hdr := h } }
      match w.fseek off.toNat with
      | (false, w) => .ret (.seekError, w)
      | (true, w) =>
        match w.fwrite off.toNat d with
        | (false, w) => .ret (.writeError, w)
        | (true, w) =>
          if padFor d.length > 1 then .ub
          else match w.fwrite (off.toNat + d.length) (List.replicate (padFor d.length) 0) with
            | (false, w) => .ret (.writeError, w)
            | (true, w) => .ret (finishD H w)
    | (e, h, _) => .ret (e, { w with pkg := { w.pkg with hdr := h } })

/-- `bpak_pkg_add_file_with_merkle_tree`, lib/pkg_create.c:39-196. -/
def addFileWithMerkleD (H : HashFn) (fuel : Nat) (w : Disk) (id : U32) (flags : U8) (d salt : Bytes) : Option (Out (Err × Disk)) :=
  match addFileD H fuel w id flags d.length d with
  | none => none
  | some (.ok, w) =>
    match merkleComputeSize d.length with
    | .error e => some (.ret (e, w))
    | .ok sz =>
      match merkleBuffer H sz salt d with
      | .ub => some .ub
      | .ret (.error e) => some (.ret (e, w))
      | .ret (.ok (root, tree)) =>
        let off := newOffset w.pkg.hdr
        match addHashMeta w.pkg.hdr idMerkleSalt id salt with
        | .ub => some .ub
        | .ret (.ok, h1) =>
          match addHashMeta h1 idMerkleRootHash id root with
          | .ub => some .ub
          | .ret (.ok, h2) =>
            match addPart h2 (partIdToHashTreeId id) with
            | (.ok, h3, i) =>
              let h3 := { h3 with parts := h3.parts.modify i (fun q => { q with
                offset := off, flags := flags, size := BitVec.ofNat 64 sz, padBytes := 0 }) }
              let w := { w with pkg := { w.pkg with hdr := h3 } }
              match w.fseek off.toNat with
              | (false, w) => some (.ret (.failed, w))
              | (true, w) =>
                match w.fwrite off.toNat tree with
                | (false, w) => some (.ret (.writeError, w))
                | (true, w) => some (.ret (finishD H w))
            | (e, h3, _) => some (.ret (e, { w with pkg := { w.pkg with hdr := h3 } }))
          | .ret (e, h2) => some (.ret (e, { w with pkg := { w.pkg with hdr := h2 } }))
        | .ret (e, h1) => some (.ret (e, { w with pkg := { w.pkg with hdr := h1 } }))
  | some (e, w) => some (.ret (e, w))

/-- Loop moving the data, lib/pkg.c:532-562. -/
def moveDataD : Nat → Disk → U64 → U64 → U64 → Option (Err × Disk)
  | 0, _, _, _, _ => none
  | k+1, w, rd, wr, rem =>
    if rem = 0 then some (.ok, w)
    else match w.fseek rd.toNat with
      | (false, w) => some (.readError, w)
      | (true, w) =>
        let d := fileRead w.pkg.file rd.toNat 4096
        match w.fseek wr.toNat with
        | (false, w) => some (.writeError, w)
        | (true, w) =>
          match w.fwrite wr.toNat d with
          | (false, w) => some (.writeError, w)
          | (true, w) => moveDataD k w (rd + BitVec.ofNat 64 d.length) (wr + BitVec.ofNat 64 d.length) (rem - BitVec.ofNat 64 d.length)

/-- Hash, header, `fflush` and `ftruncate`, lib/pkg.c:564-593, 615-635; `size` computes the new size from the header. -/
def finishTruncD (H : HashFn) (size : Header → Nat) (w : Disk) : Err × Disk :=
  match finishD H w with
  | (.ok, w) =>
    match w.ftruncate (size w.pkg.hdr) with
    | (false, w) => (.writeError, w)
    | (true, w) => (.ok, w)
  | (e, w) => (e, w)

/-- `bpak_pkg_delete_part`, lib/pkg.c:482-594. -/
def deletePartD (H : HashFn) (fuel : Nat) (w : Disk) (id : U32) (removeMeta : Bool) : Option (Out (Err × Disk)) :=
  match getPart w.pkg.hdr id with
  | none => some (.ret (.notFound, w))
  | some i =>
    match w.pkg.hdr.parts[i]?, delPart w.pkg.hdr i with
    | some q, .ret h =>
      let r := shiftParts (partSize q) (h.parts.drop i)
      let h1 := { h with parts := h.parts.take i ++ r.1 }
      match (if removeMeta then removeMetas (fun ref => ref == id) fuel h1 0 else some (.ret h1)) with
      | none => none
      | some .ub => some .ub
      | some (.ret h2) =>
        match moveDataD fuel { w with pkg := { w.pkg with hdr := h2 } } (partOffset w.pkg.hdr q + partSize q) (partOffset w.pkg.hdr q) r.2 with
        | none => none
        | some (.ok, w) => some (.ret (finishTruncD H (fun h => (partsEnd h.parts 4096).toNat) w))
        | some (e, w) => some (.ret (e, w))
    | _, _ => some .ub

/-- `bpak_pkg_delete_all_parts`, lib/pkg.c:596-636. -/
def deleteAllPartsD (H : HashFn) (fuel : Nat) (w : Disk) (removeMeta : Bool) : Option (Out (Err × Disk)) :=
  let h := { w.pkg.hdr with parts := List.replicate 32 PartHdr.zero }
  match (if removeMeta then removeMetas (fun ref => ref != 0) fuel h 0 else some (.ret h)) with
  | none => none
  | some .ub => some .ub
  | some (.ret h) => some (.ret (finishTruncD H (fun _ => 4096) { w with pkg := { w.pkg with hdr := h } }))

end Bpak
