import Verif.Model.Set
/-!
src/add.c: `bpak add --meta`. Strings are the byte strings of the C strings, without the terminating NUL.
-/
namespace Bpak

/-- Where the content comes from: `--from-string`, or `--from-file` with the file's content (`none`: it cannot be opened).
With both options the string is used, src/add.c:144-169. -/
inductive AddSource where
  | text (s : Bytes)
  | file (c : Option Bytes)

/-- The options of `bpak add --meta`. (src/add.c:22-117) -/
structure AddOpts where
  name : Bytes
  source : AddSource
  ref : Option Bytes := none
  encoder : Option Bytes := none

/-- The buffer `metadata_input` (1920 bytes, zeroed) filled from the source, src/add.c:144-169: the code, or the bytes stored in it. -/
def addInput : AddSource → Except Err Bytes
  | .text s => if s.length + 1 > 1920 then .error .noSpaceLeft else .ok (s ++ [0])
  | .file none => .error .failed
  | .file (some c) => if c.length = 0 then .error .failed else .ok (c.take 1920)

/-- The C string at the start of the zeroed 1920-byte buffer that holds `input`; `none` if no NUL is in the buffer. (as `uuid_parse`, `strtol` and `bpak_id` read it, src/add.c:175, 204, 231) -/
def cString (input : Bytes) : Option Bytes :=
  if input.length < 1920 ∨ 0 ∈ input then some (input.takeWhile (· ≠ 0)) else none

/-- The bytes that the encoder makes, src/add.c:171-272. A buffer without NUL is read past its end by `strlen` and `bpak_id`; by
`strtol` only if it is all digits (simplification: taken as undefined in all cases). -/
def addEncode (encoder : Option Bytes) (input : Bytes) : Out (Except Err Bytes) :=
  match encoder with
  | none => .ret (.ok input)
  | some enc =>
    if enc = ascii "uuid" then
      match cString input with
      | none => .ub
      | some s => match uuidParse s with
        | none => .ret (.error .failed)
        | some u => .ret (.ok u)
    else if enc = ascii "integer" then
      match cString input with
      | none => .ub
      | some s => match strtolChecked s with
        | none => .ret (.error .failed)
        | some v => .ret (.ok (le64 v))
    else if enc = ascii "id" then
      match cString input with
      | none => .ub
      | some s => .ret (.ok (le32 (bpakId s)))
    else .ret (.error .notSupported)

/-- `action_add` with `--meta`, src/add.c:119-283, after the options are parsed; `f` is the file. The result is the code and the file
afterwards. -/
def addMetaCmd (H : HashFn) (f : Bytes) (o : AddOpts) : Out (Err × Bytes) :=
  let r := pkgOpen H true f
  if r.1 ≠ .ok then .ret (r.1, r.2.file)
  else match addInput o.source with
    | .error e => .ret (e, r.2.file)
    | .ok input => match addEncode o.encoder input with
      | .ub => .ub
      | .ret (.error e) => .ret (e, r.2.file)
      | .ret (.ok d) =>
        let a := addMeta r.2.hdr (bpakId o.name) ((o.ref.map bpakId).getD 0) (BitVec.ofNat 16 d.length)
        if a.1 ≠ .ok then .ret (a.1, r.2.file)
        else match a.2.1.metas[a.2.2]? with
          | none => .ub
          | some m => match writeAt a.2.1.metadata m.offset.toNat d with
            | none => .ub
            | some md => .ret (.ok, (writeHeader { r.2 with hdr := { a.2.1 with metadata := md } }).file)

end Bpak
