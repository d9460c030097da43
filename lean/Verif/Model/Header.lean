import Verif.Model.Basic
import Verif.Model.Crc
/-!
The package header and the functions of lib/bpak.c that work on it.
-/
namespace Bpak

/-- `BPAK_HEADER_MAGIC` etc., include/bpak/bpak.h:54-61. -/
abbrev headerMagic : U32 := 0x42504132
/-- include/bpak/bpak.h:54-61. -/
abbrev maxParts : Nat := 32
/-- include/bpak/bpak.h:54-61. -/
abbrev maxMeta : Nat := 32
/-- include/bpak/bpak.h:54-61. -/
abbrev metadataBytes : Nat := 1920
/-- include/bpak/bpak.h:54-61. -/
abbrev partAlign : Nat := 512
/-- include/bpak/bpak.h:54-61. -/
abbrev metaAlign : Nat := 8
/-- include/bpak/bpak.h:54-61. -/
abbrev signatureMaxBytes : Nat := 512
/-- `sizeof(struct bpak_header)`, include/bpak/bpak.h:234-249 (packed; see `Header.image`). -/
abbrev headerSize : Nat := 4096

/-- `struct bpak_meta_header`, include/bpak/bpak.h:220-226. -/
structure MetaHdr where
  id : U32 := 0
  size : U16 := 0
  offset : U16 := 0
  partRef : U32 := 0
  /-- `uint8_t pad[4]` as the four bytes in memory -/
  pad : Bytes := [0, 0, 0, 0]
  deriving DecidableEq, Repr

/-- `struct bpak_part_header`, include/bpak/bpak.h:203-213. -/
structure PartHdr where
  id : U32 := 0
  size : U64 := 0
  offset : U64 := 0
  transportSize : U64 := 0
  padBytes : U16 := 0
  flags : U8 := 0
  pad : U8 := 0
  deriving DecidableEq, Repr

/-- A slot after `memset(p, 0, sizeof(*p))`. (lib/bpak.c:80-107) -/
def MetaHdr.zero : MetaHdr := {}
/-- A slot after `memset(p, 0, sizeof(*p))`, lib/bpak.c:138-151. -/
def PartHdr.zero : PartHdr := {}

/-- `struct bpak_header`, include/bpak/bpak.h:234-249. -/
structure Header where
  magic : U32
  pad0 : Bytes
  metas : List MetaHdr
  parts : List PartHdr
  metadata : Bytes
  hashKind : U8
  signatureKind : U8
  alignment : U16
  payloadHash : Bytes
  keyId : U32
  keystoreId : U32
  pad1 : Bytes
  signature : Bytes
  signatureSz : U16
  deriving DecidableEq, Repr

/-- The arrays have the lengths the C declarations give them. (include/bpak/bpak.h:234-249) -/
def Header.WF (h : Header) : Prop :=
  h.pad0.length = 4 ∧ h.metas.length = 32 ∧ h.parts.length = 32 ∧ h.metadata.length = 1920 ∧
  h.payloadHash.length = 64 ∧ h.pad1.length = 42 ∧ h.signature.length = 512 ∧
  ∀ m ∈ h.metas, m.pad.length = 4
instance (h : Header) : Decidable h.WF := by unfold Header.WF; infer_instance

/-- `BPAK_META_ALIGN_SIZE`, lib/bpak.c:14-15: `(x + 7) & ~7`, evaluated in `int`, i.e. exact
for any 16-bit operand. -/
def metaAlignSize (x : Nat) : Nat := (x + 7) / 8 * 8

/-- Result of a slot search: the index of the slot `*meta` points to. (lib/bpak.c:17-36) -/
abbrev Slot := Nat

/-- The search loop of `bpak_get_meta_int`, lib/bpak.c:17-36. `i` is the index of the head. -/
def getMetaIntGo (id partRef : U32) (matchRef : Bool) : List MetaHdr → Nat → Option Slot
  | [], _ => none
  | m :: ms, i =>
    if m.id = id then
      if matchRef && (m.partRef != partRef) then getMetaIntGo id partRef matchRef ms (i+1)
      else some i
    else getMetaIntGo id partRef matchRef ms (i+1)

/-- `bpak_get_meta`, lib/bpak.c:38-43. `none` is `-BPAK_NOT_FOUND` with `*meta = NULL`. -/
def getMeta (h : Header) (id partRef : U32) : Option Slot := getMetaIntGo id partRef true h.metas 0

/-- `bpak_get_meta_anyref`, lib/bpak.c:45-49. -/
def getMetaAnyref (h : Header) (id : U32) : Option Slot := getMetaIntGo id 0 false h.metas 0

/-- The loop of `bpak_add_meta`, lib/bpak.c:57-75. Arguments: `newOffset` so far (16-bit, wraps),
the remaining slots, index of the head. Returns the code, the new slots and the slot index
(`*meta`, meaningful only for `ok`). Note that the does-not-fit case returns with the slot
already written, as the C code does. -/
def addMetaGo (id partRef : U32) (size : U16) : U16 → List MetaHdr → Nat → Err × List MetaHdr × Slot
  | _, [], i => (.noSpaceLeft, [], i)
  | off, m :: ms, i =>
    if m.id = 0 then
      let m' := { m with id := id, offset := off, size := size, partRef := partRef }
      if off.toNat + size.toNat > metadataBytes then (.noSpaceLeft, m' :: ms, i)
      else (.ok, m' :: ms, i)
    else if m.id = id ∧ m.partRef = partRef then (.exists_, m :: ms, i)
    else
      -- new_offset += m->size; new_offset = BPAK_META_ALIGN_SIZE(new_offset);  (both uint16_t)
      let off' : U16 := BitVec.ofNat 16 (metaAlignSize (off + m.size).toNat)
      let r := addMetaGo id partRef size off' ms (i+1)
      (r.1, m :: r.2.1, r.2.2)

/-- `bpak_add_meta`, lib/bpak.c:51-78. -/
def addMeta (h : Header) (id partRef : U32) (size : U16) : Err × Header × Slot :=
  let r := addMetaGo id partRef size 0 h.metas 0
  (r.1, { h with metas := r.2.1 }, r.2.2)

/-- Read `len` bytes at `off` of a buffer: `none` if any of them is outside it. (through the pointer of include/bpak/bpak.h:283-285) -/
def readAt (buf : Bytes) (off len : Nat) : Option Bytes :=
  if off + len ≤ buf.length then some ((buf.drop off).take len) else none

/-- Overwrite the bytes at `off` by `data`: undefined behaviour if outside the buffer. (through the pointer of include/bpak/bpak.h:283-285) -/
def writeAt (buf : Bytes) (off : Nat) (data : Bytes) : Option Bytes :=
  if off + data.length ≤ buf.length then
    some (buf.take off ++ data ++ buf.drop (off + data.length)) else none

/-- The body `if (next_meta->id != 0) {...}` of `bpak_del_meta`, lib/bpak.c:89-96: move the data of
one slot down by `adj` and zero its old place. `next_meta->offset - offset_adjust` is computed in
`int`; a negative index is out of bounds. -/
def delMetaMove (adj : Nat) (nx : MetaHdr) (md : Bytes) : Out (MetaHdr × Bytes) :=
  if nx.id ≠ 0 then
    if nx.offset.toNat < adj then .ub else
    match readAt md nx.offset.toNat nx.size.toNat with
    | none => .ub
    | some d =>
      match writeAt md (nx.offset.toNat - adj) d with
      | none => .ub
      | some md1 =>
        match writeAt md1 nx.offset.toNat (List.replicate nx.size.toNat 0) with
        | none => .ub
        | some md2 => .ret ({ nx with offset := BitVec.ofNat 16 (nx.offset.toNat - adj) }, md2)
  else .ret (nx, md)

/-- The `while` loop of `bpak_del_meta`, lib/bpak.c:88-104, together with the final
`memset(next_meta, 0, …)` at 106. The list holds the slots after the one `meta` points to (whose own
content is never read again); the result replaces that slot and those after it. If `meta` is the last
slot (`&hdr->meta[31]`) the loop ends with `next_meta = &hdr->meta[32]`, and the `memset` writes one
element past the array: undefined behaviour (in the packed struct it wipes the id, size and half of
the offset of `parts[0]`). -/
def delMetaGo (adj : Nat) : List MetaHdr → Bytes → Out (List MetaHdr × Bytes)
  | [], _ => .ub
  | nx :: rest, md =>
    match delMetaMove adj nx md with
    | .ub => .ub
    | .ret (nx', md') =>
      if nx'.id = 0 then .ret (nx' :: MetaHdr.zero :: rest, md')
      else
        match delMetaGo adj rest md' with
        | .ub => .ub
        | .ret (r, md'') => .ret (nx' :: r, md'')

/-- `bpak_del_meta`, lib/bpak.c:80-107, for `meta = &hdr->meta[i]`. -/
def delMeta (h : Header) (i : Slot) : Out Header :=
  match h.metas[i]? with
  | none => .ub
  | some m =>
    let adj := metaAlignSize m.size.toNat % 65536
    match delMetaGo adj (h.metas.drop (i+1)) h.metadata with
    | .ub => .ub
    | .ret (r, md) => .ret { h with metas := h.metas.take i ++ r, metadata := md }

/-- The loop of `bpak_get_part`, lib/bpak.c:109-120. -/
def getPartGo (id : U32) : List PartHdr → Nat → Option Slot
  | [], _ => none
  | p :: ps, i => if p.id = id then some i else getPartGo id ps (i+1)

/-- `bpak_get_part`, lib/bpak.c:109-120. `none` is `-BPAK_NOT_FOUND` (`*part` untouched). -/
def getPart (h : Header) (id : U32) : Option Slot := getPartGo id h.parts 0

/-- The loop of `bpak_add_part`, lib/bpak.c:122-136. -/
def addPartGo (id : U32) : List PartHdr → Nat → Err × List PartHdr × Slot
  | [], i => (.noSpaceLeft, [], i)
  | p :: ps, i =>
    if p.id = 0 then (.ok, { p with id := id } :: ps, i)
    else if p.id = id then (.exists_, p :: ps, i)
    else
      let r := addPartGo id ps (i+1)
      (r.1, p :: r.2.1, r.2.2)

/-- `bpak_add_part`, lib/bpak.c:122-136. -/
def addPart (h : Header) (id : U32) : Err × Header × Slot :=
  let r := addPartGo id h.parts 0
  (r.1, { h with parts := r.2.1 }, r.2.2)

/-- The loop of `bpak_del_part` with its final memset, lib/bpak.c:141-150. The list is the slot
`part` points to and those after it; the last slot stops the loop. -/
def delPartGo : List PartHdr → List PartHdr
  | [] => []
  | [_] => [PartHdr.zero]
  | _ :: nx :: rest => if nx.id = 0 then PartHdr.zero :: nx :: rest else nx :: delPartGo (nx :: rest)

/-- `bpak_del_part`, lib/bpak.c:138-151, for `part = &hdr->parts[i]`; an index outside the array
is a wild pointer. -/
def delPart (h : Header) (i : Slot) : Out Header :=
  if i < h.parts.length then .ret { h with parts := h.parts.take i ++ delPartGo (h.parts.drop i) }
  else .ub

/-- `bpak_init_header`, lib/bpak.c:153-161. -/
def initHeader : Header where
  magic := headerMagic
  pad0 := List.replicate 4 0
  metas := List.replicate 32 MetaHdr.zero
  parts := List.replicate 32 PartHdr.zero
  metadata := List.replicate 1920 0
  hashKind := 1          -- BPAK_HASH_SHA256
  signatureKind := 2     -- BPAK_SIGN_PRIME256v1
  alignment := 512
  payloadHash := List.replicate 64 0
  keyId := 0
  keystoreId := 0
  pad1 := List.replicate 42 0
  signature := List.replicate 512 0
  signatureSz := 0

/-- Part loop of `bpak_valid_header`, lib/bpak.c:239-245: `false` is `-BPAK_BAD_ALIGNMENT`. The sum is
a `uint64_t`. -/
def validPartsGo : List PartHdr → Bool
  | [] => true
  | p :: ps =>
    if p.id = 0 then true
    else if (p.size + p.padBytes.setWidth 64).toNat % partAlign ≠ 0 then false
    else validPartsGo ps

/-- Metadata loop of `bpak_valid_header`, lib/bpak.c:248-255: `false` is `-BPAK_SIZE_ERROR`. -/
def validMetaGo : List MetaHdr → Bool
  | [] => true
  | m :: ms =>
    if m.id = 0 then true
    else if m.size.toNat + m.offset.toNat > metadataBytes then false
    else validMetaGo ms

/-- `bpak_valid_header`, lib/bpak.c:233-261. -/
def validHeader (h : Header) : Err :=
  if h.magic ≠ headerMagic then .badMagic
  else if !validPartsGo h.parts then .badAlignment
  else if !validMetaGo h.metas then .sizeError
  else if h.hashKind = 0 then .notSupported
  else .ok

/-- `part->flags & BPAK_FLAG_TRANSPORT` (bit 1), include/bpak/bpak.h:169. -/
def PartHdr.isTransport (p : PartHdr) : Bool := p.flags.getLsbD 1
/-- `part->flags & BPAK_FLAG_EXCLUDE_FROM_HASH` (bit 0), include/bpak/bpak.h:159. -/
def PartHdr.isExcluded (p : PartHdr) : Bool := p.flags.getLsbD 0

/-- `bpak_part_size`, lib/bpak.c:280-286. -/
def partSize (p : PartHdr) : U64 :=
  if p.isTransport then p.transportSize else p.size + p.padBytes.setWidth 64

/-- `bpak_part_size_wo_pad`, lib/bpak.c:288-294. -/
def partSizeWoPad (p : PartHdr) : U64 :=
  if p.isTransport then p.transportSize else p.size

/-- Loop of `bpak_part_offset`, lib/bpak.c:268-275, `off_t` arithmetic wrapping at 64 bits
(signed overflow is outside the model: see `C12`, stated for sizes that do not overflow). -/
def partOffsetGo (id : U32) : U64 → List PartHdr → U64
  | off, [] => off
  | off, p :: ps =>
    if p.id = 0 then off
    else if p.id = id then off
    else partOffsetGo id (off + partSize p) ps

/-- `bpak_part_offset`, lib/bpak.c:263-278. -/
def partOffset (h : Header) (p : PartHdr) : U64 := partOffsetGo p.id 4096 h.parts

/-- `bpak_copyz_signature`, lib/bpak.c:335-351. `size` is `*size` on entry. On success returns the
copied signature bytes (the prefix of the caller's buffer that was written; `*size` is their number)
and the blanked header; on error nothing is written. -/
def copyzSignature (h : Header) (size : Nat) : Err × Header × Bytes :=
  if h.signatureSz.toNat > signatureMaxBytes then (.sizeError, h, [])
  else if h.signatureSz.toNat = 0 then (.sizeError, h, [])
  else if h.signatureSz.toNat > size then (.sizeError, h, [])
  else (.ok, { h with signature := List.replicate 512 0, signatureSz := 0 },
        h.signature.take h.signatureSz.toNat)

/-- `bpak_set_key_id`, lib/bpak.c:353-357. -/
def setKeyId (h : Header) (k : U32) : Header := { h with keyId := k }
/-- `bpak_set_keystore_id`, lib/bpak.c:359-364. -/
def setKeystoreId (h : Header) (k : U32) : Header := { h with keystoreId := k }

/-- Little-endian bytes of a 32-bit field (the target is little-endian). (include/bpak/bpak.h:185-189) -/
def le32 (x : U32) : Bytes :=
  [x.extractLsb' 0 8, x.extractLsb' 8 8, x.extractLsb' 16 8, x.extractLsb' 24 8]
/-- Little-endian bytes of a 16-bit field, include/bpak/bpak.h:203-249. -/
def le16 (x : U16) : Bytes := [x.extractLsb' 0 8, x.extractLsb' 8 8]
/-- Little-endian bytes of a 64-bit field, include/bpak/bpak.h:203-249. -/
def le64 (x : U64) : Bytes :=
  [x.extractLsb' 0 8, x.extractLsb' 8 8, x.extractLsb' 16 8, x.extractLsb' 24 8,
   x.extractLsb' 32 8, x.extractLsb' 40 8, x.extractLsb' 48 8, x.extractLsb' 56 8]
/-- A 16-bit field read in place, include/bpak/bpak.h:203-249. -/
def ofLe16 : Bytes → U16
  | [a, b] => b ++ a
  | _ => 0
/-- A 32-bit field read in place, include/bpak/bpak.h:203-249. -/
def ofLe32 : Bytes → U32
  | [a, b, c, d] => d ++ c ++ b ++ a
  | _ => 0
/-- A 64-bit field read in place, include/bpak/bpak.h:203-249. -/
def ofLe64 : Bytes → U64
  | [a, b, c, d, e, f, g, i] => i ++ g ++ f ++ e ++ d ++ c ++ b ++ a
  | _ => 0

/-- `bpak_id_transport` = 0x2d44bbfb. (include/bpak/id.h:19) -/
def idBpakTransport : U32 := 0x2d44bbfb

/-- `bpak_add_transport_meta`, lib/bpak.c:366-390. `transport_meta` is 32 bytes; only the first two
words are assigned (the 24 data bytes keep whatever the metadata area held). -/
def addTransportMeta (h : Header) (partId enc dec : U32) : Out (Err × Header) :=
  match addMeta h idBpakTransport partId 32 with
  | (.ok, h', i) =>
    match h'.metas[i]? with
    | none => .ub
    | some m =>
      match writeAt h'.metadata m.offset.toNat (le32 enc ++ le32 dec) with
      | none => .ub
      | some md => .ret (.ok, { h' with metadata := md })
  | (e, h', _) => .ret (e, h')

/-- `bpak_hash_tree_id_to_part_id`, lib/utils.c:121-131 (all 32 slots, unused ones too). -/
def hashTreeIdToPartId (h : Header) (treeId : U32) : U32 :=
  match h.parts.find? (fun p => partIdToHashTreeId p.id = treeId) with
  | some p => p.id
  | none => 0

end Bpak
