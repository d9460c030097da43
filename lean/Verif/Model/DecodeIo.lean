import Verif.Model.PatchIo
import Verif.Model.Transport
/-!
lib/transport_decode.c with the callbacks of the API, and lib/pkg.c:259-389 over them: every callback may fail or transfer less than was asked
for. The contexts are those of Model/Transport.lean; their fields `out` and the bytes in `origin` are not used here. As there, a negative
output offset is refused before the first write.
-/
namespace Bpak
variable [LzmaLib] {σ : Type}

/-- `write_output`, `read_output`, `read_origin` and `write_output_header` (always at 0), include/bpak/transport.h:28-49: an error code, or what was
transferred. What a read answers depends on everything written before. -/
structure DecIo (σ : Type) where
  wr : σ → Nat → Bytes → σ × Except Err Nat
  rd : σ → Nat → Nat → Except Err Bytes
  org : σ → Int → Nat → Except Err Bytes
  hd : σ → Bytes → σ × Except Err Nat

/-- The callbacks handed to `bpak_bspatch_init`, lib/transport_decode.c:252-261. -/
def DecIo.patch (io : DecIo σ) : PatchIo σ := ⟨fun s off n => (s, io.org s off n), io.wr⟩

/-- The callbacks handed to `bpak_merkle_init`, lib/transport_decode.c:65-73, with the test of lib/merkle.c:108-111. -/
def DecIo.merkle (io : DecIo σ) : MIo σ where
  wr s off b := match io.wr s off b with
    | (_, .error e) => .error e
    | (s, .ok n) => if n ≠ b.length then .error .writeError else .ok s
  rd := io.rd

/-- Writing the header with the test of the result, lib/transport_decode.c:202-210, 366-374: the state and an error, if any. -/
def ioHead (io : DecIo σ) (s : σ) (h : Header) : σ × Option Err :=
  match io.hd s h.image with
  | (s, .error e) => (s, some e)
  | (s, .ok n) => (s, if n ≠ h.image.length then some .writeError else none)

/-- `bpak_transport_decode_start`, lib/transport_decode.c:195-285, as `decodeStart`. -/
def decodeStartIo (io : DecIo σ) (d : TDec) (s : σ) (i : Slot) : Drv (TDec × σ) :=
  match d.hdr.parts[i]? with
  | none => .ub
  | some q =>
    match ioHead io s d.hdr with
    | (_, some e) => .fail e
    | (s, none) =>
      match decoderOf d.hdr q with
      | none => .ub
      | some alg =>
        let d := { d with part := i, decoderId := alg, dec := .idle, copyOff := 0 }
        if alg = idBspatch ∨ alg = idBspatchNoComp ∨ alg = idBspatchLzma then
          match d.origin with
          | none => .fail .patchReadOriginError
          | some (oh, of, off) =>
            if 2^63 ≤ (streamOff d.hdr q d.outOff).toNat then .fail .seekError
            else
              let c : PatchCfg := ⟨originRead of, (streamOff oh q off).toInt, (streamOff d.hdr q d.outOff).toNat, d.bufLen⟩
              if alg = idBspatch then .ok ({ d with dec := .hs c (partSize q).toNat (HsPatch.init []) }, s)
              else if alg = idBspatchNoComp then .ok ({ d with dec := .plain c (Patcher.init []) }, s)
              else .ok ({ d with dec := .lzma c (LzPatch.init []) }, s)
        else if alg = idMerkleGenerate ∨ alg = 0 then .ok (d, s)
        else .fail .notSupported

/-- `bpak_transport_decode_write_chunk`, lib/transport_decode.c:287-321, as `decodeWrite`. -/
def decodeWriteIo (io : DecIo σ) (d : TDec) (s : σ) (b : Bytes) : Drv (TDec × σ) :=
  match d.dec with
  | .plain c p =>
    match bspatchWriteIo io.patch c p s b with
    | .ret .ok p s => .ok ({ d with dec := .plain c p }, s)
    | .ret e _ _ => .fail e
    | .ub => .ub
    | .hang => .hang
  | .hs c n h =>
    match hsWriteIo io.patch c n h s b with
    | .ok (h, s) => .ok ({ d with dec := .hs c n h }, s)
    | .fail e => .fail e
    | .ub => .ub
    | .hang => .hang
  | .lzma c h =>
    match lzPatchWriteIo io.patch c h s b with
    | .ok (h, s) => .ok ({ d with dec := .lzma c h }, s)
    | .fail e => .fail e
    | .ub => .ub
    | .hang => .hang
  | .idle =>
    if d.decoderId = 0 then
      match d.hdr.parts[d.part]? with
      | none => .ub
      | some q =>
        if 2^63 ≤ (streamOff d.hdr q d.outOff + BitVec.ofNat 64 d.copyOff).toNat then .fail .seekError
        else
          match io.wr s (streamOff d.hdr q d.outOff + BitVec.ofNat 64 d.copyOff).toNat b with
          | (_, .error e) => .fail e
          | (s, .ok n) => if n ≠ b.length then .fail .writeError else .ok ({ d with copyOff := d.copyOff + n }, s)
    else .fail .notSupported

/-- Data loop of `merkle_generate`, lib/transport_decode.c:90-115, as `generateFeed`: a failing or short read is `-BPAK_READ_ERROR`. -/
def generateFeedIo (H : HashFn) (io : DecIo σ) (m : Merkle) (s : σ) (off n : Nat) : Except Err (Merkle × σ) :=
  if h : n = 0 then .ok (m, s)
  else match io.rd s off (min n 4096) with
    | .error _ => .error .readError
    | .ok x =>
      if x.length ≠ min n 4096 then .error .readError
      else match merkleWriteChunk H io.merkle m s x with
        | .error e => .error e
        | .ok (m, s) => generateFeedIo H io m s (off + min n 4096) (n - min n 4096)
  termination_by n
  decreasing_by omega

/-- `merkle_generate`, lib/transport_decode.c:20-130, as `merkleGenerate`. -/
def merkleGenerateIo (H : HashFn) (io : DecIo σ) (h : Header) (outOff : U64) (s : σ) (q : PartHdr) : Drv (σ × Nat) :=
  if hashTreeIdToPartId h q.id = 0 then .fail .missingMetaData
  else match getMeta h idMerkleSalt (hashTreeIdToPartId h q.id) with
    | none => .fail .notFound
    | some j =>
      match getPart h (hashTreeIdToPartId h q.id) with
      | none => .fail .notFound
      | some k =>
        match h.parts[k]?, metaHash h j with
        | some fs, some salt =>
          if 2^63 ≤ (streamOff h q outOff).toNat ∨ 2^63 ≤ (streamOff h fs outOff).toNat then .fail .seekError
          else match merkleInit io.merkle s (partSize fs).toNat salt (streamOff h q outOff).toNat true with
            | .error e => .fail e
            | .ok (m, s) =>
              match generateFeedIo H io m s (streamOff h fs outOff).toNat (partSize fs).toNat with
              | .error e => .fail e
              | .ok (m, s) =>
                match merkleFinish H io.merkle m s with
                | .error e => .fail e
                | .ok (_, s) => .ok (s, m.treeLen)
        | _, _ => .ub

/-- The produced length, lib/transport_decode.c:328-346, as `decodedLength`. -/
def decodedLengthIo (H : HashFn) (io : DecIo σ) (d : TDec) (s : σ) (q : PartHdr) : Drv (σ × Nat) :=
  match d.dec with
  | .plain _ p => match bspatchFinal p with
    | none => .fail .failed
    | some n => .ok (s, n)
  | .hs _ _ h => match bspatchFinal h.p with
    | none => .fail .failed
    | some n => .ok (s, n)
  | .lzma c h => match lzPatchFinalIo io.patch c h s with
    | .ok (n, s) => .ok (s, n)
    | .fail e => .fail e
    | .ub => .ub
    | .hang => .hang
  | .idle =>
    if d.decoderId = idMerkleGenerate then merkleGenerateIo H io d.hdr d.outOff s q
    else if d.decoderId = 0 then .ok (s, (partSize q).toNat)
    else .fail .notSupported

/-- `bpak_transport_decode_finish`, lib/transport_decode.c:323-376, as `decodeFinish`. -/
def decodeFinishIo (H : HashFn) (io : DecIo σ) (d : TDec) (s : σ) : Drv (TDec × σ) :=
  match d.hdr.parts[d.part]? with
  | none => .ub
  | some q =>
    match decodedLengthIo H io d s q with
    | .ok (s, n) =>
      if 2^63 ≤ n then .fail .failed
      else if n ≠ (q.size + q.padBytes.setWidth 64).toNat then .fail .sizeError
      else
        match ioHead io s { d.hdr with parts := d.hdr.parts.modify d.part markDecoded } with
        | (_, some e) => .fail e
        | (s, none) => .ok ({ d with hdr := { d.hdr with parts := d.hdr.parts.modify d.part markDecoded } }, s)
    | .fail e => .fail e
    | .ub => .ub
    | .hang => .hang

/-- Feeding a part's data, lib/pkg.c:347-373, as `feedPart`. -/
def feedPartIo (io : DecIo σ) (inp : Bytes) (d : TDec) (s : σ) (pos n : Nat) : Drv ((TDec × σ) × Nat) :=
  if h : n = 0 then .ok ((d, s), pos)
  else if (fileRead inp pos (min n 4096)).length ≠ min n 4096 then .fail .readError
  else match decodeWriteIo io d s (fileRead inp pos (min n 4096)) with
    | .ok (d, s) => feedPartIo io inp d s (pos + min n 4096) (n - min n 4096)
    | .fail e => .fail e
    | .ub => .ub
    | .hang => .hang
  termination_by n
  decreasing_by omega

/-- Body of the part loop, lib/pkg.c:320-384, as `decodeOne`. -/
def decodeOneIo (H : HashFn) (io : DecIo σ) (inp : Bytes) (d : TDec) (s : σ) (i : Slot) (q : PartHdr) (pos : Nat) : Drv ((TDec × σ) × Nat) :=
  if originLacks d.origin q.id then .fail .notFound
  else match decodeStartIo io d s i with
    | .ok (d, s) =>
      match feedPartIo io inp d s pos (partSize q).toNat with
      | .ok ((d, s), pos) =>
        match decodeFinishIo H io d s with
        | .ok r => .ok (r, pos)
        | .fail e => .fail e
        | .ub => .ub
        | .hang => .hang
      | .fail e => .fail e
      | .ub => .ub
      | .hang => .hang
    | .fail e => .fail e
    | .ub => .ub
    | .hang => .hang

/-- The part loop, lib/pkg.c:320-384, as `decodeGo`. -/
def decodeGoIo (H : HashFn) (io : DecIo σ) (inp : Bytes) : Nat → TDec → σ → Slot → Nat → Drv (TDec × σ)
  | 0, d, s, _, _ => .ok (d, s)
  | k+1, d, s, i, pos =>
    match d.hdr.parts[i]? with
    | none => .ub
    | some q =>
      if q.id = 0 then .ok (d, s)
      else match decodeOneIo H io inp d s i q pos with
        | .ok ((d, s), pos) => decodeGoIo H io inp k d s (i+1) pos
        | .fail e => .fail e
        | .ub => .ub
        | .hang => .hang

/-- `bpak_pkg_transport_decode`, lib/pkg.c:259-389, as `transportDecode`. Result: the header in memory and what is behind the callbacks. -/
def transportDecodeIo (H : HashFn) (io : DecIo σ) (patch : Header) (inp : Bytes) (org : Option (Header × Bytes)) (s : σ) : Drv (Header × σ) :=
  match decodeInit patch org [] with
  | .ok d =>
    match decodeGoIo H io inp 32 d s 0 4096 with
    | .ok (d, s) => .ok (d.hdr, s)
    | .fail e => .fail e
    | .ub => .ub
    | .hang => .hang
  | .fail e => .fail e
  | .ub => .ub
  | .hang => .hang

end Bpak
