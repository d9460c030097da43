import Verif.Model.Merkle
/-!
lib/verify.c: the payload hash and payload verification, and lib/pkg_verify.c:78-133.

Offsets are `off_t`: the running offset wraps at 64 bits. A negative offset (2^63 and above here) cannot be
read; readers are given the offset as a natural number and return no bytes there. (The code then returned
can be `-BPAK_SEEK_ERROR` in C where the model says `-BPAK_READ_ERROR`.)
-/
namespace Bpak

/-- The `do ... while` loop of `bpak_verify_compute_payload_hash`, lib/verify.c:88-106: at least one read,
even for an empty part. Any failed or short read is `-BPAK_READ_ERROR`. -/
def payloadReadLoop (rd : Reader) (off : U64) (n : Nat) (c : HashCtx) : Except Err (U64 × HashCtx) :=
  match rd off.toNat (min n 4096) with
  | .error _ => .error .readError
  | .ok x =>
    if x.length ≠ min n 4096 then .error .readError
    else if h : n - min n 4096 = 0 then .ok (off + BitVec.ofNat 64 (min n 4096), hashUpdate c x)
    else payloadReadLoop rd (off + BitVec.ofNat 64 (min n 4096)) (n - min n 4096) (hashUpdate c x)
  termination_by n
  decreasing_by omega

/-- Part loop, lib/verify.c:76-107: all slots; unused ones are skipped (`continue`). -/
def payloadHashGo (rd : Reader) : List PartHdr → U64 → HashCtx → Except Err HashCtx
  | [], _, c => .ok c
  | p :: ps, off, c =>
    if p.id = 0 then payloadHashGo rd ps off c
    else if p.isExcluded then payloadHashGo rd ps (off + partSize p) c
    else match payloadReadLoop rd off (partSize p).toNat c with
      | .error e => .error e
      | .ok (off, c) => payloadHashGo rd ps off c

/-- `bpak_verify_compute_payload_hash`, lib/verify.c:61-117. Result: return code and what was written. -/
def computePayloadHash (H : HashFn) (h : Header) (rd : Reader) (dataOff : U64) (bufLen : Nat) : Err × Option Bytes :=
  match hashInit h.hashKind with
  | (.ok, c) =>
    match payloadHashGo rd h.parts dataOff c with
    | .error e => (e, none)
    | .ok c => hashFinal H c bufLen
  | (e, _) => (e, none)

/-- `BPAK_ID_MERKLE_SALT`, `BPAK_ID_MERKLE_ROOT_HASH`, include/bpak/id.h:20. -/
abbrev idMerkleSalt : U32 := 0x7c9b2f93
/-- include/bpak/id.h:21. -/
abbrev idMerkleRootHash : U32 := 0xe68fc9be

/-- 32 bytes at the place a metadata slot points to: `bpak_get_meta_ptr` (include/bpak/bpak.h:283-285) followed by
an access to a `bpak_merkle_hash_t`. The slot's size is not looked at; `none` if outside the metadata array. -/
def metaHash (h : Header) (i : Slot) : Option Bytes :=
  match h.metas[i]? with
  | none => none
  | some m => readAt h.metadata m.offset.toNat 32

/-- Body of the second loop of `bpak_verify_payload`, lib/verify.c:260-318, for one part with a root hash.
The 32 bytes of the root hash are fetched here before the tree is checked, in C after. -/
def verifyPartTree (H : HashFn) (h : Header) (rd : Reader) (dataOff : U64) (p : PartHdr) (rootSlot : Slot) : Out Err :=
  match getMeta h idMerkleSalt p.id with
  | none => .ret .missingMetaData
  | some saltSlot =>
    match getPart h (partIdToHashTreeId p.id) with
    | none => .ret .notFound
    | some ti =>
      match h.parts[ti]?, metaHash h rootSlot, metaHash h saltSlot with
      | some tp, some root, some salt =>
        .ret (verifyMerkleTree H rd (partOffset h p - 4096 + dataOff).toNat (partSize p).toNat
          (partOffset h tp - 4096 + dataOff).toNat root salt)
      | _, _, _ => .ub

/-- Second loop of `bpak_verify_payload`, lib/verify.c:260-320. -/
def verifyTreesGo (H : HashFn) (h : Header) (rd : Reader) (dataOff : U64) : List PartHdr → Out Err
  | [] => .ret .ok
  | p :: ps =>
    if p.id = 0 then verifyTreesGo H h rd dataOff ps
    else match getMeta h idMerkleRootHash p.id with
      | none => verifyTreesGo H h rd dataOff ps
      | some ri =>
        match verifyPartTree H h rd dataOff p ri with
        | .ub => .ub
        | .ret .ok => verifyTreesGo H h rd dataOff ps
        | .ret e => .ret e

/-- `bpak_verify_payload`, lib/verify.c:233-324. `BPAK_HASH_MAX_LENGTH` is 64. -/
def verifyPayload (H : HashFn) (h : Header) (rd : Reader) (dataOff : U64) : Out Err :=
  match computePayloadHash H h rd dataOff 64 with
  | (.ok, some d) =>
    if d ≠ h.payloadHash.take d.length then .ret .badPayloadHash
    else verifyTreesGo H h rd dataOff h.parts
  | (e, _) => .ret e

/-- Read loop of `bpak_pkg_part_sha256`, lib/pkg_verify.c:110-124 (sequential reads from `off`). -/
def sha256ReadLoop (f : Bytes) (off n : Nat) (c : HashCtx) : Except Err HashCtx :=
  if h : n = 0 then .ok c
  else if (fileRead f off (min n 4096)).length ≠ min n 4096 then .error .readError
  else sha256ReadLoop f (off + min n 4096) (n - min n 4096) (hashUpdate c (fileRead f off (min n 4096)))
  termination_by n
  decreasing_by omega

/-- `bpak_pkg_part_sha256`, lib/pkg_verify.c:78-133: the hash of the part's data without padding. -/
def pkgPartSha256 (H : HashFn) (h : Header) (f : Bytes) (bufLen : Nat) (partId : U32) : Err × Option Bytes :=
  match getPart h partId with
  | none => (.notFound, none)
  | some i =>
    match h.parts[i]? with
    | none => (.notFound, none)
    | some p =>
      if 2^63 ≤ (partOffset h p).toNat then (.seekError, none)
      else match sha256ReadLoop f (partOffset h p).toNat (partSizeWoPad p).toNat ⟨hashSha256, []⟩ with
        | .error e => (e, none)
        | .ok c => hashFinal H c bufLen

end Bpak
