import Verif.Model.Transport
/-!
Commands given the package itself a second time: as the file to add, as the file to extract to, as the output of the transport coder.
Two streams then share one file. What is written through one of them is seen by the other when it has left the buffer of stdio, and
`fopen` with mode "w" empties the file under the other stream.
-/
namespace Bpak
variable [LzmaLib]

/-- Copy loop of `bpak_pkg_add_file`, lib/pkg_create.c:257-264, reading from the package's own file: at round `r` the last `lag r` bytes
of what was written are still in the buffer and not seen. Every read asks for 4096 bytes, however many are left to copy. -/
def addSelfLoop (lag : Nat → Nat) : Nat → Nat → Pkg → Nat → Nat → U64 → Option (Pkg × Nat)
  | 0, _, _, _, _, _ => none
  | k+1, r, p, rd, pos, rem =>
    if rem = 0 then some (p, pos)
    else
      let c := fileRead (p.file.take (p.file.length - lag r)) rd 4096
      addSelfLoop lag k (r+1) (p.write pos c) (rd + c.length) (pos + c.length) (rem - BitVec.ofNat 64 c.length)

/-- `bpak_pkg_add_file` with the name of the package's own file, lib/pkg_create.c:200-291, as `addFile`. -/
def addFileSelf (H : HashFn) (lag : Nat → Nat) (fuel : Nat) (p : Pkg) (id : U32) (flags : U8) : Option (Err × Pkg) :=
  let off := newOffset p.hdr
  let n := p.file.length
  match addPart p.hdr id with
  | (.ok, h, i) =>
    let h := { h with parts := h.parts.modify i (fun q => { q with
      id := id, offset := off, flags := flags, size := BitVec.ofNat 64 n, padBytes := BitVec.ofNat 16 (padFor n) }) }
    let p := { p with hdr := h }
    if 2^63 ≤ off.toNat then some (.seekError, p)
    else match addSelfLoop lag fuel 0 p 0 off.toNat (BitVec.ofNat 64 n) with
      | none => none
      | some (p, pos) =>
        let p := p.write pos (List.replicate (padFor n) 0)
        match updateHash H p with
        | (.ok, p) => some (.ok, writeHeader p)
        | (e, p) => some (e, p)
  | (e, h, _) => some (e, { p with hdr := h })

/-- Copy loop of `bpak_pkg_extract_file`, lib/pkg.c:448-472, into the package's own file, which `fopen(…, "w+b")` has emptied: `old` is
what the stream of the package had read ahead when it was positioned (from `base` on), `out` the file now. A read gives what is left of
the former, then what is in the latter at that place. -/
def extractSelfLoop (old : Bytes) (base : Nat) (out : Bytes) (rd n : Nat) : Err × Bytes :=
  if h : n = 0 then (.ok, out)
  else
    let a := fileRead old (rd - base) (min n 4096)
    let c := a ++ fileRead out (rd + a.length) (min n 4096 - a.length)
    if c.length ≠ min n 4096 then (.readError, out)
    else extractSelfLoop old base (out ++ c) (rd + min n 4096) (n - min n 4096)
  termination_by n
  decreasing_by omega

/-- `bpak_pkg_extract_file` with the name of the package's own file, lib/pkg.c:413-480, as `extractFile`: `ahead` bytes had been read
ahead. Result: code and the file. -/
def extractFileSelf (p : Pkg) (id : U32) (ahead : Nat) : Err × Bytes :=
  match getPart p.hdr id with
  | none => (.notFound, p.file)
  | some i =>
    match p.hdr.parts[i]? with
    | none => (.notFound, p.file)
    | some q =>
      if 2^63 ≤ (partOffset p.hdr q).toNat then (.seekError, p.file)
      else extractSelfLoop (fileRead p.file (partOffset p.hdr q).toNat ahead) (partOffset p.hdr q).toNat []
        (partOffset p.hdr q).toNat (partSize q - q.padBytes.setWidth 64).toNat

/-- Copy loop of `transport_copy`, lib/transport_encode.c:59-81, within one file. -/
def copySelfLoop (f : Bytes) (rd wr n : Nat) : Err × Bytes :=
  if h : n = 0 then (.ok, f)
  else if (fileRead f rd (min n 1024)).length ≠ min n 1024 then (.readError, f)
  else copySelfLoop (fileWrite f wr (fileRead f rd (min n 1024))) (rd + min n 1024) (wr + min n 1024) (n - min n 1024)
  termination_by n
  decreasing_by omega

/-- Parts of `bpak_transport_encode`, lib/transport_encode.c:390-451, input and output being one file `f`. Returned file: `none` if a
failing delta encoder leaves it in a state not described here. -/
def encodeSelfGo (srch : Bytes → Bytes → Int → Option (Int × Int)) (inH : Header) (org : Option (Header × Bytes)) :
    List PartHdr → Header → Bytes → Out (Err × Option Bytes)
  | [], outH, f => .ret (.ok, some (fileWrite f 0 outH.image))
  | q :: qs, outH, f =>
    if q.id = 0 then .ret (.ok, some (fileWrite f 0 outH.image))
    else match getMeta inH idBpakTransport q.id with
      | some j =>
        match transportWord inH j 0 with
        | none => .ub
        | some alg => match encodePart srch alg q.id inH f org outH f with
          | .ok (outH, f) => encodeSelfGo srch inH org qs outH f
          | .fail e => .ret (e, none)
          | _ => .ub
      | none =>
        if 2^63 ≤ (partOffset inH q).toNat ∨ 2^63 ≤ (partOffset outH q).toNat then .ret (.seekError, some f)
        else match copySelfLoop f (partOffset inH q).toNat (partOffset outH q).toNat (partSize q).toNat with
          | (.ok, f) => encodeSelfGo srch inH org qs outH f
          | (e, f) => .ret (e, some f)

/-- `bpak transport --encode` with the package as its own output: `bpak_pkg_open(output, "wb+")` (lib/pkg.c:25-90, src/transport.c:138-150)
empties the file and puts a fresh header there, then `bpak_pkg_transport_encode` (lib/pkg.c:391-411). The file before does not matter any
more; `inH` is the header read from it. -/
def encodeSelf (H : HashFn) (srch : Bytes → Bytes → Int → Option (Int × Int)) (inH : Header) (org : Option (Header × Bytes)) : Out (Err × Option Bytes) :=
  let r := pkgOpen H true []
  if r.1 ≠ .ok then .ret (r.1, some r.2.file)
  else match encodeOriginCheck inH org with
    | .ok () => encodeSelfGo srch inH org inH.parts inH r.2.file
    | .fail e => .ret (e, some r.2.file)
    | _ => .ub

/-- The first part of `bpak_pkg_transport_decode`, lib/pkg.c:320-373, up to its first chunk, input and output being one file: code and
file if it ends there, else `none`. -/
def decodeSelfFirst (H : HashFn) (patch : Header) (org : Option (Header × Bytes)) : Option (Err × Bytes) :=
  match decodeInit patch org (pkgOpen H true []).2.file with
  | .ok d =>
    match patch.parts[0]? with
    | none => none
    | some q =>
      if q.id = 0 then some (.ok, d.out)
      else if originLacks d.origin q.id then some (.notFound, d.out)
      else match decodeStart d 0 with
        | .ok d =>
          if (partSize q).toNat ≠ 0 ∧ (fileRead d.out 4096 (min (partSize q).toNat 4096)).length ≠ min (partSize q).toNat 4096 then some (.readError, d.out)
          else none
        | _ => none
  | .fail e => some (e, (pkgOpen H true []).2.file)
  | _ => none

end Bpak
