import Verif.Model.Set
import Verif.Model.Add
import Verif.Model.Create
import Verif.Model.Keystore
import Verif.Model.Transport
/-!
The remaining commands of the `bpak` tool, after the options are parsed: src/show.c, src/sign.c, src/extract.c, src/delete.c, src/add.c
(parts), src/transport.c. Arguments are the byte strings of the C strings, without NUL; files named on the command line are given by
their content.
-/
namespace Bpak

/-! ### `bpak show` -/

/-- A row of the metadata table that `bpak show` prints, src/show.c:210-225. -/
structure MetaRow where
  id : U32
  size : U16
  name : String
  ref : U32
  text : Bytes
  deriving DecidableEq, Repr

/-- A row of the part table, src/show.c:233-258. -/
structure PartRow where
  id : U32
  size : U64
  pad : U16
  notHashed : Bool
  transport : Bool
  shipped : U64
  deriving DecidableEq, Repr

/-- What `bpak show` prints without options, src/show.c:202-283 (the extra lines under `-v` are left out). `hashes`: header hash, payload
hash, and whether the warning is printed. -/
structure Report where
  hash : String
  signature : String
  keyId : U32
  keystoreId : U32
  metas : List MetaRow
  parts : List PartRow
  hashes : Option (Bytes × Bytes × Bool)
  deriving DecidableEq, Repr

/-- A `char` array of known content after `w` is written at its start: a write past its end is undefined. (src/show.c:36, 212) -/
def putBuf (buf w : Bytes) : Out Bytes := if w.length > buf.length then .ub else .ret (w ++ buf.drop w.length)

/-- The C string in an array; reading on past the end is undefined. (src/show.c:222) -/
def bufText (buf : Bytes) : Out Bytes := if 0 ∈ buf then .ret (buf.takeWhile (fun c => decide (c ≠ 0))) else .ub

/-- The metadata table, src/show.c:210-225. `buf` is `string_output`, which keeps what an entry does not overwrite. -/
def showMetas (h : Header) : List MetaHdr → Bytes → Out (List MetaRow)
  | [], _ => .ret []
  | m :: ms, buf =>
    if m.id = 0 then showMetas h ms buf
    else match metaToString h m 128 with
      | .ub => .ub
      | .ret (_, w) => match putBuf buf w with
        | .ub => .ub
        | .ret buf => match bufText buf with
          | .ub => .ub
          | .ret t => match showMetas h ms buf with
            | .ub => .ub
            | .ret rows => .ret (⟨m.id, m.size, idToString m.id, m.partRef, t⟩ :: rows)

/-- The part table, src/show.c:231-258. -/
def showParts : List PartHdr → List PartRow
  | [] => []
  | p :: ps =>
    if p.id = 0 then showParts ps
    else ⟨p.id, p.size, p.padBytes, p.isExcluded, p.isTransport, if p.isTransport then p.transportSize else p.size⟩ :: showParts ps

/-- `bpak_bin2hex` into `hash_str[128]` and printing it, src/show.c:270-276. -/
def hashText (d : Bytes) : Out Bytes := if (bin2hex d 128).2.length > 128 then .ub else bufText (bin2hex d 128).2

/-- `bpak_pkg_update_hash` with an output buffer of 64 bytes, lib/pkg.c:115-141: the package and the header hash. -/
def updateHashOut (H : HashFn) (p : Pkg) : Err × Pkg × Option Bytes :=
  match updateHash H p with
  | (.ok, p) => match computeHeaderHash H p.hdr 64 with
    | (.ok, some d) => (.ok, p, some d)
    | (e, _) => (e, p, none)
  | (e, p) => (e, p, none)

/-- `bpak show` without options, src/show.c:202-302. -/
def showReport (H : HashFn) (p : Pkg) : Out (Err × Report) :=
  match showMetas p.hdr p.hdr.metas (List.replicate 128 0) with
  | .ub => .ub
  | .ret rows =>
    let rep (x : Option (Bytes × Bytes × Bool)) : Report :=
      ⟨hashKindString p.hdr.hashKind, signatureKindString p.hdr.signatureKind, p.hdr.keyId, p.hdr.keystoreId, rows, showParts p.hdr.parts, x⟩
    match updateHashOut H p with
    | (.ok, q, some d) =>
      match hashText d, hashText (q.hdr.payloadHash.take d.length) with
      | .ret a, .ret b => .ret (.ok, rep (some (a, b, decide (q.hdr.payloadHash ≠ p.hdr.payloadHash))))
      | _, _ => .ub
    | (e, _, _) => .ret (e, rep none)

/-- The options of `bpak show`, src/show.c:44-93. -/
structure ShowOpts where
  metaName : Option Bytes := none
  partName : Option Bytes := none
  partHash : Option Bytes := none
  binary : Bool := false
  text : Bool := false

/-- What is printed: nothing, a line, the line about a part, raw bytes, the report. (src/show.c:121-283) -/
inductive Shown where
  | nothing
  | line (t : Bytes)
  | part (id : U32) (size : U64)
  | raw (d : Bytes)
  | report (r : Report)
  deriving DecidableEq, Repr

/-- `--meta`, src/show.c:119-144: the first entry with the id (and part reference, if `--part` is given); an empty text prints nothing. -/
def showMeta (h : Header) (id : U32) (ref : Option U32) : List MetaHdr → Out (Err × Shown)
  | [] => .ret (.missingMetaData, .nothing)
  | m :: ms =>
    if m.id = id ∧ (ref = none ∨ ref = some m.partRef) then
      match metaToString h m 128 with
      | .ub => .ub
      | .ret (_, w) => match putBuf (List.replicate 128 0) w with
        | .ub => .ub
        | .ret buf => match bufText buf with
          | .ub => .ub
          | .ret t => .ret (.ok, if t = [] then .nothing else .line t)
    else showMeta h id ref ms

/-- `--part`, src/show.c:146-162. -/
def showPart (id : U32) : List PartHdr → Err × Shown
  | [] => (.notFound, .nothing)
  | p :: ps => if p.id = id then (.ok, .part p.id p.size) else showPart id ps

/-- `action_show`, src/show.c:102-303. `f` is the file. With `--hash` the code of the computation is not looked at: what is printed after a
failure is an array that was never written. -/
def showCmd (H : HashFn) (f : Bytes) (o : ShowOpts) : Out (Err × Shown) :=
  let r := pkgOpen H false f
  if r.1 ≠ .ok then .ret (r.1, .nothing)
  else if validHeader r.2.hdr ≠ .ok then .ret (validHeader r.2.hdr, .nothing)
  else match o.metaName with
    | some name => showMeta r.2.hdr (idForNameOrRef name) (o.partName.map idForNameOrRef) r.2.hdr.metas
    | none => match o.partName with
      | some name => .ret (showPart (idForNameOrRef name) r.2.hdr.parts)
      | none => match o.partHash with
        | some name => match pkgPartSha256 H r.2.hdr f 64 (idForNameOrRef name) with
          | (.ok, some d) => match hashText (d.take 32) with
            | .ub => .ub
            | .ret t => .ret (.ok, .line t)
          | (e, _) => .ret (e, .nothing)
        | none =>
          if o.binary then match updateHashOut H r.2 with
            | (.ok, _, some d) => .ret (.ok, .raw d)
            | (e, _, _) => .ret (e, .nothing)
          else if o.text then match updateHashOut H r.2 with
            | (.ok, _, some d) => .ret (.ok, .line (d.flatMap (fun b => [hexDigit (b.toNat / 16), hexDigit (b.toNat % 16)])))
            | _ => .ub
          else match showReport H r.2 with
            | .ub => .ub
            | .ret (e, rep) => .ret (e, .report rep)

/-! ### `bpak sign`, `bpak verify` -/

/-- `action_sign` with `--signature`, src/sign.c:78-115; `sig` is the content of the signature file, of which 1024 bytes are read. -/
def signRawCmd (H : HashFn) (f sig : Bytes) : Out (Err × Bytes) :=
  let r := pkgOpen H true f
  if r.1 ≠ .ok then .ret (r.1, r.2.file)
  else match writeRawSignature r.2 (sig.take 1024) with
    | .ub => .ub
    | .ret (e, p) => .ret (e, p.file)

/-- `action_sign` with `--key`, src/sign.c:78-115; `key` is the outcome of loading the key file. -/
def signCmd {SK PK : Type} (H : HashFn) (S : SigScheme SK PK) (f : Bytes) (rnd : Bytes) (key : Except Err SK) : Err × Bytes :=
  let r := pkgOpen H true f
  if r.1 ≠ .ok then (r.1, r.2.file)
  else
    let s := pkgSign H S rnd key r.2
    (s.1, s.2.file)

/-- `action_verify`, src/sign.c:173-217. `key`: the outcome of loading the key named by `--key`; `keystore`: the content of the keystore
named by `--keystore`, whose keys are read with `parse`. -/
def verifyCmd {SK : Type} (H : HashFn) (S : SigScheme SK Key) (f : Bytes) (key : Option (Except Err Key)) (keystore : Option Bytes)
    (parse : Bytes → Except Err Key) : Out Err :=
  let r := pkgOpen H true f
  if r.1 ≠ .ok then .ret r.1
  else match key with
    | some (.error e) => .ret e
    | some (.ok k) => pkgVerify H S k r.2
    | none => match keystore with
      | none => .ret .failed
      | some ks => match loadKeyFromFile H ks r.2.hdr.keystoreId r.2.hdr.keyId none parse with
        | .ub => .ub
        | .ret (.ok, some k) => pkgVerify H S k r.2
        | .ret (e, _) => .ret e

/-! ### `bpak extract`, `bpak delete` -/

/-- `action_extract`, src/extract.c:52-157: the code and what is written out (`none`: no output). -/
def extractCmd (H : HashFn) (f : Bytes) (part metaName ref : Option Bytes) : Out (Err × Option Bytes) :=
  let pid := (part.map idForNameOrRef).getD 0
  let mid := (metaName.map idForNameOrRef).getD 0
  let rid := (ref.map idForNameOrRef).getD 0
  if (decide (mid ≠ 0)) == (decide (pid ≠ 0)) then .ret (.failed, none)
  else
    let r := pkgOpen H true f
    if r.1 ≠ .ok then .ret (r.1, none)
    else if mid ≠ 0 then
      match getMeta r.2.hdr mid rid with
      | none => .ret (.notFound, none)
      | some i => match r.2.hdr.metas[i]? with
        | none => .ub
        | some m => match readAt r.2.hdr.metadata m.offset.toNat m.size.toNat with
          | none => .ub
          | some d => .ret (.ok, some d)
    else .ret (extractFile r.2 pid)

/-- `action_delete`, src/delete.c:52-106; `none`: it does not end. -/
def deleteCmd (H : HashFn) (f : Bytes) (part : Option Bytes) (all keep : Bool) : Option (Out (Err × Bytes)) :=
  let pid := (part.map idForNameOrRef).getD 0
  if pid = 0 ∧ all = false then some (.ret (.failed, f))
  else
    let r := pkgOpen H true f
    if r.1 ≠ .ok then some (.ret (r.1, r.2.file))
    else match (if all then deleteAllParts H 65 r.2 (!keep) else deletePart H (r.2.file.length + 65) r.2 pid (!keep)) with
      | none => none
      | some .ub => some .ub
      | some (.ret (e, p)) => some (.ret (e, p.file))

/-! ### `bpak add --part` -/

/-- `action_add` with `--part` and without `--meta`, src/add.c:119-307. `src`: the content of the file named by `--from-file` (`none`: the
option is missing and `--from-string` is there instead, so a null file name goes on to `stat` and `fopen`, which is undefined); `key`: the
outcome of loading it as a key; `salt`: 32 random bytes; `none`: it does not end. -/
def addPartCmd (H : HashFn) (f : Bytes) (name : Bytes) (dontHash : Bool) (encoder : Option Bytes) (src : Option Bytes) (key : Except Err Bytes) (salt : Bytes) :
    Option (Out (Err × Bytes)) :=
  let r := pkgOpen H true f
  let flags : U8 := if dontHash then 1 else 0
  if r.1 ≠ .ok then some (.ret (r.1, r.2.file))
  else match src with
    | none => some .ub
    | some d => match encoder with
      | none => match addFile H (d.length + 2) r.2 (bpakId name) flags d.length d with
        | none => none
        | some (e, p) => some (.ret (e, p.file))
      | some enc =>
        if enc = ascii "key" then match addKey H r.2 (bpakId name) flags key with
          | .ub => some .ub
          | .ret (e, p) => some (.ret (e, p.file))
        else if enc = ascii "merkle" then match addFileWithMerkle H (d.length + 2) r.2 (bpakId name) flags d salt with
          | none => none
          | some .ub => some .ub
          | some (.ret (e, p)) => some (.ret (e, p.file))
        else some (.ret (.failed, r.2.file))

/-! ### `bpak transport` -/

/-- `action_transport` with `--add`, src/transport.c:118-123, 158-187. -/
def transportAddCmd (H : HashFn) (f : Bytes) (ref : Option Bytes) (enc dec : Bytes) : Out (Err × Bytes) :=
  let r := pkgOpen H true f
  if r.1 ≠ .ok then .ret (r.1, r.2.file)
  else match addTransportMeta r.2.hdr ((ref.map idForNameOrRef).getD 0) (bpakId enc) (bpakId dec) with
    | .ub => .ub
    | .ret (e, h) =>
      if e ≠ .ok then .ret (e, r.2.file)
      else .ret (.ok, (writeHeader { r.2 with hdr := h }).file)

end Bpak
