import Verif.Model.HsDelta
import Verif.Model.Lzma
import Verif.Model.Pkg
/-!
lib/transport_encode.c, lib/transport_decode.c and their users in lib/pkg.c:202-411.

The default configuration is modelled (`BPAK_CONFIG_LZMA` 1, CMakeLists.txt:38), with liblzma as a parameter (Model/Lzma.lean). The search for matches of the delta encoder is a parameter (as in Model/Diff.lean). As in
Model/Pkg.lean reads deliver what the file holds, writes succeed, and seeks fail for offsets of 2^63 and above. The encoded
file cannot grow to 2^63 bytes: the write that would do so is `-BPAK_WRITE_ERROR`.
A metadata pointer outside the header's metadata array is undefined behaviour.
-/
namespace Bpak
variable [LzmaLib]

/-- include/bpak/id.h:25 -/
abbrev idBpakPackage : U32 := 0xfb2f1f3f
/-- include/bpak/id.h:30-37. -/
abbrev idBsdiff : U32 := 0x9f7aacf9
/-- include/bpak/id.h:30-37. -/
abbrev idBsdiffNoComp : U32 := 0x0a878e3e
/-- include/bpak/id.h:30-37. -/
abbrev idBsdiffLzma : U32 := 0x1607e56e
/-- include/bpak/id.h:30-37. -/
abbrev idBspatch : U32 := 0xb5964388
/-- include/bpak/id.h:30-37. -/
abbrev idBspatchNoComp : U32 := 0x75622592
/-- include/bpak/id.h:30-37. -/
abbrev idBspatchLzma : U32 := 0x933a9893
/-- include/bpak/id.h:30-37. -/
abbrev idMerkleGenerate : U32 := 0xb5bcc58f
/-- include/bpak/id.h:30-37. -/
abbrev idRemoveData : U32 := 0x57004cd0

/-- `n` bytes at displacement `d` from where a metadata slot points: `bpak_get_meta_ptr(h, meta, …)` and an access. The
header the slot index belongs to and the one pointed into can differ (lib/transport_decode.c:187). -/
def metaBytes (of into : Header) (i : Slot) (d n : Nat) : Option Bytes :=
  match of.metas[i]? with
  | none => none
  | some m => readAt into.metadata (m.offset.toNat + d) n

/-- A word of `struct bpak_transport_meta` (include/bpak/bpak.h:185-189): displacement 0 is `alg_id_encode`, 4 `alg_id_decode`. -/
def transportWord (h : Header) (i : Slot) (d : Nat) : Option U32 := (metaBytes h h i d 4).map ofLe32

/-! ### Encoding -/

/-- Copy loop of `transport_copy`, lib/transport_encode.c:59-81. -/
def copyLoop (inp out : Bytes) (rd wr n : Nat) : Drv Bytes :=
  if h : n = 0 then .ok out
  else if (fileRead inp rd (min n 1024)).length ≠ min n 1024 then .fail .readError
  else copyLoop inp (fileWrite out wr (fileRead inp rd (min n 1024))) (rd + min n 1024) (wr + min n 1024) (n - min n 1024)
  termination_by n
  decreasing_by omega

/-- `transport_copy`, lib/transport_encode.c:27-85. -/
def transportCopy (inH outH : Header) (id : U32) (inp out : Bytes) : Drv Bytes :=
  match getPart inH id with
  | none => .fail .notFound
  | some i =>
    match inH.parts[i]? with
    | none => .ub
    | some q =>
      if 2^63 ≤ (partOffset inH q).toNat ∨ 2^63 ≤ (partOffset outH q).toNat then .fail .seekError
      else if 2^63 ≤ (partOffset outH q).toNat + (partSize q).toNat then .fail .writeError
      else copyLoop inp out (partOffset inH q).toNat (partOffset outH q).toNat (partSize q).toNat

/-- `enum bpak_compression` (include/bpak/bpak.h:132-136) -/
inductive Comp where
  | none | hs | lzma
  deriving DecidableEq, Repr

/-- Successive writes of `compressor_write` without compression, lib/bsdiff.c:383-401. -/
def writeBufs (f : Bytes) (pos : Nat) : List Bytes → Bytes
  | [] => f
  | b :: bs => writeBufs (fileWrite f pos b) (pos + b.length) bs

/-- `transport_bsdiff`, lib/transport_encode.c:115-215 with `bpak_bsdiff_init`/`bpak_bsdiff` (lib/bsdiff.c:599-723). Result: the
output file and the size of the delta. The files are mapped; looking past their end is undefined behaviour. -/
def transportBsdiff (srch : Bytes → Bytes → Int → Option (Int × Int)) (target : Bytes) (tOff tLen : Nat) (origin : Bytes) (oOff oLen : Nat)
    (out : Bytes) (outOff : Nat) (c : Comp) : Drv (Bytes × Nat) :=
  if target = [] ∨ origin = [] then .fail .failed
  else if tOff + tLen > target.length ∨ oOff + oLen > origin.length then .ub
  else match c with
    | .lzma =>
      match bsdiffLzma (srch (fileRead origin oOff oLen) (fileRead target tOff tLen)) (fileRead origin oOff oLen) (fileRead target tOff tLen) outOff out with
      | none => .ub
      | some (.ok s) => if 2^63 ≤ outOff + s.pos then .fail .writeError else .ok (s.file, s.pos)
      | some (.fail e) => .fail e
      | some .ub => .ub
      | some .hang => .hang
    | .none =>
      match bsdiffWith (srch (fileRead origin oOff oLen) (fileRead target tOff tLen)) (fileRead origin oOff oLen) (fileRead target tOff tLen) with
      | none => .ub
      | some bufs =>
        if 2^63 ≤ outOff + bufs.flatten.length then .fail .writeError
        else .ok (writeBufs out outOff bufs, bufs.flatten.length)
    | .hs =>
      match bsdiffHs (srch (fileRead origin oOff oLen) (fileRead target tOff tLen)) (fileRead origin oOff oLen) (fileRead target tOff tLen) outOff out with
      | none => .ub
      | some (.ok s) => if 2^63 ≤ outOff + s.pos then .fail .writeError else .ok (s.file, s.pos)
      | some (.fail e) => .fail e
      | some .ub => .ub
      | some .hang => .hang

/-- The `switch` on the encoder, lib/transport_encode.c:296-334. `oq` is the origin's part. Result: output file, size. -/
def encodeAlg (srch : Bytes → Bytes → Int → Option (Int × Int)) (alg : U32) (inH : Header) (inp : Bytes) (q : PartHdr) (outOff : Nat) (out : Bytes)
    (org : Option (Header × Bytes × PartHdr)) : Drv (Bytes × Nat) :=
  if alg = idBsdiff ∨ alg = idBsdiffNoComp ∨ alg = idBsdiffLzma then
    match org with
    | none => .fail .patchReadOriginError
    | some (oh, of, oq) =>
      transportBsdiff srch inp (partOffset inH q).toNat (partSize q).toNat of (partOffset oh oq).toNat (partSize oq).toNat out outOff
        (if alg = idBsdiff then .hs else if alg = idBsdiffNoComp then .none else .lzma)
  else if alg = idRemoveData then .ok (out, 0)
  else .fail .failed

/-- Marking the output part as encoded, lib/transport_encode.c:345-346. -/
def markEncoded (q : PartHdr) (n : Nat) : PartHdr := { q with transportSize := BitVec.ofNat 64 n, flags := q.flags ||| 2 }

/-- The origin's part of the same id, lib/transport_encode.c:245-254: an error if there is an origin without it. -/
def originPart (org : Option (Header × Bytes)) (id : U32) : Except Err (Option (Header × Bytes × PartHdr)) :=
  match org with
  | none => .ok none
  | some (oh, of) =>
    match getPart oh id with
    | none => .error .notFound
    | some k =>
      match oh.parts[k]? with
      | none => .error .notFound
      | some oq => .ok (some (oh, of, oq))

/-- The origin position sought, lib/transport_encode.c:268-277. -/
def originPos : Option (Header × Bytes × PartHdr) → Nat
  | none => 0
  | some (oh, _, oq) => (partOffset oh oq).toNat

/-- `transport_encode_part`, lib/transport_encode.c:217-350; `alg` is `tm->alg_id_encode`. -/
def encodePart (srch : Bytes → Bytes → Int → Option (Int × Int)) (alg id : U32) (inH : Header) (inp : Bytes) (org : Option (Header × Bytes))
    (outH : Header) (out : Bytes) : Drv (Header × Bytes) :=
  match getPart inH id, getPart outH id with
  | some i, some j =>
    match inH.parts[i]?, outH.parts[j]? with
    | some q, some r =>
      match originPart org id with
      | .error e => .fail e
      | .ok o =>
        if r.isTransport then .ok (outH, out)
        else if 2^63 ≤ (partOffset inH q).toNat ∨ 2^63 ≤ (partOffset outH r).toNat ∨ 2^63 ≤ originPos o then .fail .failed
        else match encodeAlg srch alg inH inp q (partOffset outH r).toNat out o with
          | .ok (out, n) => .ok ({ outH with parts := outH.parts.modify j (fun r => markEncoded r n) }, out)
          | .fail e => .fail e
          | .ub => .ub
          | .hang => .hang
    | _, _ => .ub
  | _, _ => .fail .notFound

/-- Body of the part loop of `bpak_transport_encode`, lib/transport_encode.c:397-426. -/
def encodeOne (srch : Bytes → Bytes → Int → Option (Int × Int)) (inH : Header) (inp : Bytes) (org : Option (Header × Bytes)) (id : U32)
    (outH : Header) (out : Bytes) : Drv (Header × Bytes) :=
  match getMeta inH idBpakTransport id with
  | some j =>
    match transportWord inH j 0 with
    | none => .ub
    | some alg => encodePart srch alg id inH inp org outH out
  | none =>
    match transportCopy inH outH id inp out with
    | .ok out => .ok (outH, out)
    | .fail e => .fail e
    | .ub => .ub
    | .hang => .hang

/-- The part loop, lib/transport_encode.c:393-432. -/
def encodeGo (srch : Bytes → Bytes → Int → Option (Int × Int)) (inH : Header) (inp : Bytes) (org : Option (Header × Bytes)) :
    List PartHdr → Header → Bytes → Drv (Header × Bytes)
  | [], outH, out => .ok (outH, out)
  | q :: qs, outH, out =>
    if q.id = 0 then .ok (outH, out)
    else match encodeOne srch inH inp org q.id outH out with
      | .ok (outH, out) => encodeGo srch inH inp org qs outH out
      | .fail e => .fail e
      | .ub => .ub
      | .hang => .hang

/-- The check of the package ids, lib/transport_encode.c:361-388. The pointer into the metadata is formed before the return code
of the lookup is looked at: without an entry that goes through a null pointer. -/
def encodeOriginCheck (inH : Header) (org : Option (Header × Bytes)) : Drv Unit :=
  match org with
  | none => .ok ()
  | some (oh, _) =>
  match getMeta oh idBpakPackage 0 with
  | none => .ub
  | some i =>
    match getMeta inH idBpakPackage 0 with
    | none => .ub
    | some j =>
      match metaBytes oh oh i 0 16, metaBytes inH inH j 0 16 with
      | some a, some b => if a ≠ b then .fail .packageUuidMismatch else .ok ()
      | _, _ => .ub

/-- `bpak_transport_encode`, lib/transport_encode.c:352-451 (and `bpak_pkg_transport_encode`, lib/pkg.c:391-411). `out` is the output
file before. Result: output header and file. -/
def transportEncode (srch : Bytes → Bytes → Int → Option (Int × Int)) (inH : Header) (inp : Bytes) (org : Option (Header × Bytes)) (out : Bytes) :
    Drv (Header × Bytes) :=
  match encodeOriginCheck inH org with
  | .ok () =>
    match encodeGo srch inH inp org inH.parts inH out with
    | .ok (outH, out) => .ok (outH, fileWrite out 0 outH.image)
    | .fail e => .fail e
    | .ub => .ub
    | .hang => .hang
  | .fail e => .fail e
  | .ub => .ub
  | .hang => .hang

/-! ### Decoding -/

/-- `union decoders` of `struct bpak_transport_decode` (include/bpak/transport.h:42-47) with what `bpak_bspatch_init` fixed. -/
inductive Decoder where
  | idle
  | plain (c : PatchCfg) (p : Patcher)
  | hs (c : PatchCfg) (inLen : Nat) (s : HsPatch)
  | lzma (c : PatchCfg) (s : LzPatch)

/-- `struct bpak_transport_decode`, include/bpak/transport.h:28-49, and the output file behind its callbacks. `outOff` is
`output_offset`, `originOff` `origin_offset`; `bufLen` half the work buffer. -/
structure TDec where
  hdr : Header
  outOff : U64
  bufLen : Nat
  origin : Option (Header × Bytes × U64)
  part : Slot
  decoderId : U32
  dec : Decoder
  copyOff : Nat
  out : Bytes

/-- `bpak_transport_decode_init`, lib/transport_decode.c:134-152. -/
def TDec.init (bufLength : Nat) (patch : Header) (outOff : U64) (out : Bytes) : TDec :=
  ⟨patch, outOff, bufLength / 2, none, 0, 0, .idle, 0, out⟩

/-- `bpak_transport_decode_set_origin`, lib/transport_decode.c:154-193. The id of the patch is looked up in the patch's metadata
table, but read from the origin's metadata area. -/
def setOrigin (d : TDec) (oh : Header) (of : Bytes) (off : U64) : Drv TDec :=
  match getMeta oh idBpakPackage 0 with
  | none => .fail .notFound
  | some i =>
    match getMeta d.hdr idBpakPackage 0 with
    | none => .fail .notFound
    | some j =>
      match metaBytes oh oh i 0 16, metaBytes d.hdr oh j 0 16 with
      | some a, some b => if a ≠ b then .fail .packageUuidMismatch else .ok { d with origin := some (oh, of, off) }
      | _, _ => .ub

/-- The decoder for a part, lib/transport_decode.c:214-224. -/
def decoderOf (h : Header) (q : PartHdr) : Option U32 :=
  if q.isTransport then
    match getMeta h idBpakTransport q.id with
    | none => some 0
    | some j => transportWord h j 4
  else some 0

/-- `decode_read_origin`, lib/pkg.c:246-257, as `bspatch_write` uses it (anything short is an error): `none` for a negative offset and
for a read past the end. -/
def originRead (f : Bytes) (p : Int) (n : Nat) : Option Bytes :=
  if p < 0 then none
  else if n = 0 then some []
  else if p.toNat + n ≤ f.length then some ((f.drop p.toNat).take n) else none

/-- Where a part goes in a stream: `bpak_part_offset(…) - sizeof(struct bpak_header) + offset` (`off_t`). (lib/transport_decode.c:195-285) -/
def streamOff (h : Header) (q : PartHdr) (off : U64) : U64 := partOffset h q - 4096 + off

/-- `bpak_transport_decode_start`, lib/transport_decode.c:195-285, for the part in slot `i`. The header is written first. A
negative output offset fails here, in C at the first write. -/
def decodeStart (d : TDec) (i : Slot) : Drv TDec :=
  match d.hdr.parts[i]? with
  | none => .ub
  | some q =>
    match decoderOf d.hdr q with
    | none => .ub
    | some alg =>
      let d := { d with out := fileWrite d.out 0 d.hdr.image, part := i, decoderId := alg, dec := .idle, copyOff := 0 }
      if alg = idBspatch ∨ alg = idBspatchNoComp ∨ alg = idBspatchLzma then
        match d.origin with
        | none => .fail .patchReadOriginError
        | some (oh, of, off) =>
          if 2^63 ≤ (streamOff d.hdr q d.outOff).toNat then .fail .seekError
          else
            let c : PatchCfg := ⟨originRead of, (streamOff oh q off).toInt, (streamOff d.hdr q d.outOff).toNat, d.bufLen⟩
            if alg = idBspatch then .ok { d with dec := .hs c (partSize q).toNat (HsPatch.init d.out) }
            else if alg = idBspatchNoComp then .ok { d with dec := .plain c (Patcher.init d.out) }
            else .ok { d with dec := .lzma c (LzPatch.init d.out) }
      else if alg = idMerkleGenerate ∨ alg = 0 then .ok d
      else .fail .notSupported

/-- `bpak_transport_decode_write_chunk`, lib/transport_decode.c:287-321. -/
def decodeWrite (d : TDec) (b : Bytes) : Drv TDec :=
  match d.dec with
  | .plain c p =>
    match bspatchWrite c p b with
    | .ret .ok p => .ok { d with dec := .plain c p, out := p.out }
    | .ret e _ => .fail e
    | .ub => .ub
    | .hang => .hang
  | .hs c n s =>
    match hsWrite c n s b with
    | .ok s => .ok { d with dec := .hs c n s, out := s.p.out }
    | .fail e => .fail e
    | .ub => .ub
    | .hang => .hang
  | .lzma c s =>
    match lzPatchWrite c s b with
    | .ok s => .ok { d with dec := .lzma c s, out := s.p.out }
    | .fail e => .fail e
    | .ub => .ub
    | .hang => .hang
  | .idle =>
    if d.decoderId = 0 then
      match d.hdr.parts[d.part]? with
      | none => .ub
      | some q =>
        if 2^63 ≤ (streamOff d.hdr q d.outOff + BitVec.ofNat 64 d.copyOff).toNat then .fail .seekError
        else .ok { d with out := fileWrite d.out (streamOff d.hdr q d.outOff + BitVec.ofNat 64 d.copyOff).toNat b, copyOff := d.copyOff + b.length }
    else .fail .notSupported

/-- Data loop of `merkle_generate`, lib/transport_decode.c:90-115. -/
def generateFeed (H : HashFn) (m : Merkle) (out : Bytes) (off n : Nat) : Except Err (Merkle × Bytes) :=
  if h : n = 0 then .ok (m, out)
  else if (fileRead out off (min n 4096)).length ≠ min n 4096 then .error .readError
  else match merkleWriteChunk H fileIo m out (fileRead out off (min n 4096)) with
    | .error e => .error e
    | .ok (m, out) => generateFeed H m out (off + min n 4096) (n - min n 4096)
  termination_by n
  decreasing_by omega

/-- `merkle_generate`, lib/transport_decode.c:20-130. Result: the output file and the size of the tree. -/
def merkleGenerate (H : HashFn) (h : Header) (outOff : U64) (out : Bytes) (q : PartHdr) : Drv (Bytes × Nat) :=
  if hashTreeIdToPartId h q.id = 0 then .fail .missingMetaData
  else match getMeta h idMerkleSalt (hashTreeIdToPartId h q.id) with
    | none => .fail .notFound
    | some j =>
      match getPart h (hashTreeIdToPartId h q.id) with
      | none => .fail .notFound
      | some k =>
        match h.parts[k]?, metaHash h j with
        | some fs, some salt =>
          if 2^63 ≤ (streamOff h q outOff).toNat ∨ 2^63 ≤ (streamOff h fs outOff).toNat then .fail .seekError
          else match merkleInit fileIo out (partSize fs).toNat salt (streamOff h q outOff).toNat true with
            | .error e => .fail e
            | .ok (m, out) =>
              match generateFeed H m out (streamOff h fs outOff).toNat (partSize fs).toNat with
              | .error e => .fail e
              | .ok (m, out) =>
                match merkleFinish H fileIo m out with
                | .error e => .fail e
                | .ok (_, out) => .ok (out, m.treeLen)
        | _, _ => .ub

/-- The produced length, lib/transport_decode.c:328-346. Result: output file and `output_length`. -/
def decodedLength (H : HashFn) (d : TDec) (q : PartHdr) : Drv (Bytes × Nat) :=
  match d.dec with
  | .plain _ p => match bspatchFinal p with
    | none => .fail .failed
    | some n => .ok (d.out, n)
  | .hs _ _ s => match bspatchFinal s.p with
    | none => .fail .failed
    | some n => .ok (d.out, n)
  | .lzma c s => match lzPatchFinal c s with
    | .ok (s, n) => .ok (s.p.out, n)
    | .fail e => .fail e
    | .ub => .ub
    | .hang => .hang
  | .idle =>
    if d.decoderId = idMerkleGenerate then merkleGenerate H d.hdr d.outOff d.out q
    else if d.decoderId = 0 then .ok (d.out, (partSize q).toNat)
    else .fail .notSupported

/-- Marking the part as decoded, lib/transport_decode.c:363-364. -/
def markDecoded (q : PartHdr) : PartHdr := { q with transportSize := 0, flags := q.flags &&& ~~~2 }

/-- `bpak_transport_decode_finish`, lib/transport_decode.c:323-376. (A copied length of 2^63 and above would be returned as if it
were an error code.) -/
def decodeFinish (H : HashFn) (d : TDec) : Drv TDec :=
  match d.hdr.parts[d.part]? with
  | none => .ub
  | some q =>
    match decodedLength H d q with
    | .ok (out, n) =>
      if 2^63 ≤ n then .fail .failed
      else if n ≠ (q.size + q.padBytes.setWidth 64).toNat then .fail .sizeError
      else
        let h := { d.hdr with parts := d.hdr.parts.modify d.part markDecoded }
        .ok { d with hdr := h, out := fileWrite out 0 h.image }
    | .fail e => .fail e
    | .ub => .ub
    | .hang => .hang

/-- Feeding a part's data, lib/pkg.c:347-373: sequential reads of the input from `pos`. Result: decoder and new position. -/
def feedPart (inp : Bytes) (d : TDec) (pos n : Nat) : Drv (TDec × Nat) :=
  if h : n = 0 then .ok (d, pos)
  else if (fileRead inp pos (min n 4096)).length ≠ min n 4096 then .fail .readError
  else match decodeWrite d (fileRead inp pos (min n 4096)) with
    | .ok d => feedPart inp d (pos + min n 4096) (n - min n 4096)
    | .fail e => .fail e
    | .ub => .ub
    | .hang => .hang
  termination_by n
  decreasing_by omega

/-- There is an origin and it does not have the part, lib/pkg.c:325-334. -/
def originLacks (org : Option (Header × Bytes × U64)) (id : U32) : Bool :=
  match org with
  | none => false
  | some (oh, _, _) => (getPart oh id).isNone

/-- Body of the part loop, lib/pkg.c:320-384, for slot `i`. -/
def decodeOne (H : HashFn) (inp : Bytes) (d : TDec) (i : Slot) (q : PartHdr) (pos : Nat) : Drv (TDec × Nat) :=
  if originLacks d.origin q.id then .fail .notFound
  else match decodeStart d i with
    | .ok d =>
      match feedPart inp d pos (partSize q).toNat with
      | .ok (d, pos) =>
        match decodeFinish H d with
        | .ok d => .ok (d, pos)
        | .fail e => .fail e
        | .ub => .ub
        | .hang => .hang
      | .fail e => .fail e
      | .ub => .ub
      | .hang => .hang
    | .fail e => .fail e
    | .ub => .ub
    | .hang => .hang

/-- The part loop, lib/pkg.c:320-384: `k` slots left, the next one is `i`. -/
def decodeGo (H : HashFn) (inp : Bytes) : Nat → TDec → Slot → Nat → Drv TDec
  | 0, d, _, _ => .ok d
  | k+1, d, i, pos =>
    match d.hdr.parts[i]? with
    | none => .ub
    | some q =>
      if q.id = 0 then .ok d
      else match decodeOne H inp d i q pos with
        | .ok (d, pos) => decodeGo H inp k d (i+1) pos
        | .fail e => .fail e
        | .ub => .ub
        | .hang => .hang

/-- Preparing the decoder, lib/pkg.c:270-318. -/
def decodeInit (patch : Header) (org : Option (Header × Bytes)) (out : Bytes) : Drv TDec :=
  match org with
  | none => .ok (TDec.init 4096 patch 4096 out)
  | some (oh, of) => setOrigin (TDec.init 4096 patch 4096 out) oh of 4096

/-- `bpak_pkg_transport_decode`, lib/pkg.c:259-389. `out` is the output file before. Result: the patch header in memory afterwards and
the output file. -/
def transportDecode (H : HashFn) (patch : Header) (inp : Bytes) (org : Option (Header × Bytes)) (out : Bytes) : Drv (Header × Bytes) :=
  match decodeInit patch org out with
  | .ok d =>
    match decodeGo H inp 32 d 0 4096 with
    | .ok d => .ok (d.hdr, d.out)
    | .fail e => .fail e
    | .ub => .ub
    | .hang => .hang
  | .fail e => .fail e
  | .ub => .ub
  | .hang => .hang

end Bpak
