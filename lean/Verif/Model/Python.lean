import Verif.Model.Cli
/-!
python/package.c, python/meta.c, python/part.c: the classes `bpak.Package`, `bpak.Meta` and `bpak.Part`.

The state is that of the package, open for reading and writing (`Pkg`: header in memory and file). A `Part` object is the package and a part id, a `Meta` object is the
package, an id and a part reference (python/python_wrapper.h); the functions take these. Exceptions are values, undefined behaviour is `Out.ub`. Not modelled:
reference counts, running out of memory, `close` and use after it, file names (the content or outcome stands for the file), `del obj.attr`, log callback.
-/
namespace Bpak

/-- A Python object handed to the extension. Text is a list of code points. (python/meta.c:203-230, python/package.c:302-331) -/
inductive PyVal where
  | none
  | int (v : Int)
  | bytes (b : Bytes)
  | str (s : List Nat)
  | other
  deriving DecidableEq, Repr

/-- Exceptions; `error` and `ioError` carry the library's code. (python/package.c:336, 358, python/meta.c:42, 78, 239) -/
inductive PyExc where
  | typeError | overflowError | unicodeError | keyError | valueError | systemError
  | error (e : Err)
  | ioError
  deriving DecidableEq, Repr

/-- What a call gives back: a value or an exception. (`return NULL` / `return -1` in python/*.c) -/
inductive PyOut (α : Type) where
  | val (a : α)
  | raise (e : PyExc)
  deriving DecidableEq, Repr

/-- `PyLong_Check`, `PyLong_AsUnsignedLong` with 64-bit `long`. (python/package.c:478-486, python/meta.c:68-76) -/
def pyULong : PyVal → PyOut U64
  | .int v => if 0 ≤ v ∧ v < 2^64 then .val (BitVec.ofInt 64 v) else .raise .overflowError
  | _ => .raise .typeError

/-- `unsigned int x = PyLong_AsUnsignedLong(value)` and the check `((uint32_t)x) != x`, python/meta.c:68-80, python/part.c:67-79: the value is
cut to 32 bits before it is checked. -/
def pyU32 (v : PyVal) : PyOut U32 :=
  match pyULong v with
  | .raise e => .raise e
  | .val n =>
    let x : U32 := n.setWidth 32
    if x.setWidth 32 ≠ x then .raise .overflowError else .val x

/-- The argument format "I": `PyLong_AsUnsignedLongMask`, no range check. (python/package.c:287, 384, 413) -/
def pyMask (v : Int) : U32 := BitVec.ofInt 32 v

/-- `PyUnicode_AsASCIIString`, python/meta.c:211, python/package.c:308. -/
def pyAscii (s : List Nat) : PyOut Bytes := if s.all (· < 128) then .val (s.map (BitVec.ofNat 8)) else .raise .unicodeError

/-- The bytes of a `bytes` or `str` object, the latter with its NUL, python/meta.c:203-230, python/package.c:302-327. -/
def pyData : PyVal → PyOut Bytes
  | .bytes b => .val b
  | .str s => match pyAscii s with
    | .raise e => .raise e
    | .val b => .val (b ++ [0])
  | _ => .raise .typeError

/-- `m_generate_id`, python/python_wrapper.c:33-45, for the bytes of the string (the format "s" has refused a NUL among them). -/
def pyId (name : Bytes) : Int := (bpakId name).toNat

/-! ### `bpak.Package` -/

/-- `package_set_key_id`, python/package.c:510-539. -/
def pySetKeyId (p : Pkg) (v : PyVal) : PyOut Unit × Pkg :=
  match pyULong v with
  | .raise e => (.raise e, p)
  | .val n => (.val (), writeHeader { p with hdr := { p.hdr with keyId := n.setWidth 32 } })

/-- `package_set_keystore_id`, python/package.c:550-579. -/
def pySetKeystoreId (p : Pkg) (v : PyVal) : PyOut Unit × Pkg :=
  match pyULong v with
  | .raise e => (.raise e, p)
  | .val n => (.val (), writeHeader { p with hdr := { p.hdr with keystoreId := n.setWidth 32 } })

/-- `package_set_hash_kind`, python/package.c:470-499; the field has 8 bits. -/
def pySetHashKind (p : Pkg) (v : PyVal) : PyOut Unit × Pkg :=
  match pyULong v with
  | .raise e => (.raise e, p)
  | .val n => (.val (), writeHeader { p with hdr := { p.hdr with hashKind := n.setWidth 8 } })

/-- `package_set_signature_kind`, python/package.c:639-668; the field has 8 bits. -/
def pySetSignatureKind (p : Pkg) (v : PyVal) : PyOut Unit × Pkg :=
  match pyULong v with
  | .raise e => (.raise e, p)
  | .val n => (.val (), writeHeader { p with hdr := { p.hdr with signatureKind := n.setWidth 8 } })

/-- `package_get_key_id`, python/package.c:501-508. -/
def pyKeyId (p : Pkg) : Int := p.hdr.keyId.toNat
/-- `package_get_keystore_id`, python/package.c:541-548. -/
def pyKeystoreId (p : Pkg) : Int := p.hdr.keystoreId.toNat
/-- `package_get_hash_kind`, python/package.c:461-468. -/
def pyHashKind (p : Pkg) : Int := p.hdr.hashKind.toNat
/-- `package_get_signature_kind`, python/package.c:630-637. -/
def pySignatureKind (p : Pkg) : Int := p.hdr.signatureKind.toNat
/-- `package_get_size`, python/package.c:670-675. -/
def pySize (p : Pkg) : Int := (pkgSize p.hdr).toInt
/-- `package_get_installed_size`, python/package.c:677-682. -/
def pyInstalledSize (p : Pkg) : Int := (installedSize p.hdr).toInt

/-- `package_get_signature`, python/package.c:581-589: the length is taken from the header unchecked. -/
def pySignature (p : Pkg) : Out Bytes :=
  match readAt p.hdr.signature 0 p.hdr.signatureSz.toNat with
  | none => .ub
  | some s => .ret s

/-- `package_set_signature`, python/package.c:591-628. -/
def pySetSignature (p : Pkg) (v : PyVal) : Out (PyOut Unit × Pkg) :=
  match v with
  | .none => match writeRawSignature p [] with
    | .ub => .ub
    | .ret (_, p') => .ret (.val (), p')
  | .bytes b => match writeRawSignature p b with
    | .ub => .ub
    | .ret (e, p') => if e ≠ .ok then .ret (.raise (.error e), p') else .ret (.val (), p')
  | _ => .ret (.raise .typeError, p)

/-- `package_get_digest`, python/package.c:447-459: `none` is `None`. The hash in the header in memory is renewed. (The buffer has 128 bytes;
the 64 of `updateHashOut` are as good, no digest is longer.) -/
def pyDigest (H : HashFn) (p : Pkg) : Option Bytes × Pkg :=
  match updateHashOut H p with
  | (.ok, p', d) => (d, p')
  | (_, p', _) => (none, p')

/-- `package_get_parts`, python/package.c:684-723: the ids of the `Part` objects. -/
def pyParts (p : Pkg) : List U32 := (p.hdr.parts.takeWhile (fun q => q.id ≠ 0)).map (·.id)

/-- `package_get_meta_list`, python/package.c:725-764: id and part reference of the `Meta` objects. -/
def pyMetas (p : Pkg) : List (U32 × U32) := (p.hdr.metas.takeWhile (fun m => m.id ≠ 0)).map (fun m => (m.id, m.partRef))

/-- `package_get_part`, python/package.c:373-399. -/
def pyGetPart (p : Pkg) (v : Int) : PyOut U32 :=
  match getPart p.hdr (pyMask v) with
  | none => .raise .keyError
  | some _ => .val (pyMask v)

/-- `package_get_meta`, python/package.c:401-429. -/
def pyGetMeta (p : Pkg) (v r : Int) : PyOut (U32 × U32) :=
  match getMeta p.hdr (pyMask v) (pyMask r) with
  | none => .raise .keyError
  | some _ => .val (pyMask v, pyMask r)

/-- `package_sign`, python/package.c:139-172. -/
def pySign {SK PK : Type} (H : HashFn) (S : SigScheme SK PK) (rnd : Bytes) (key : Except Err SK) (p : Pkg) : PyOut Unit × Pkg :=
  match pkgSign H S rnd key p with
  | (.ok, p') => (.val (), p')
  | (e, p') => (.raise (.error e), p')

/-- `package_verify`, python/package.c:95-137. -/
def pyVerify {SK PK : Type} (H : HashFn) (S : SigScheme SK PK) (key : Except Err PK) (p : Pkg) : Out (PyOut Unit) :=
  match key with
  | .error e => .ret (.raise (.error e))
  | .ok k => match pkgVerify H S k p with
    | .ub => .ub
    | .ret .ok => .ret (.val ())
    | .ret e => .ret (.raise (.error e))

/-- The end of `package_add_file` and `package_add_key`: looking the new part up, python/package.c:218-224, 264-270. -/
def pyNewPart (p : Pkg) (id : U32) : PyOut U32 × Pkg :=
  match getPart p.hdr id with
  | none => (.raise .keyError, p)
  | some _ => (.val id, p)

/-- `package_add_file`, python/package.c:174-225; `src` is the content of the file (`none`: `stat` fails, lib/pkg_create.c:52-55, 211-214);
`salt` is `some` for `with_merkle_tree=True`; `none`: it does not end. -/
def pyAddFile (H : HashFn) (p : Pkg) (name : Bytes) (src : Option Bytes) (salt : Option Bytes) : Option (Out (PyOut U32 × Pkg)) :=
  match src with
  | none => some (.ret (.raise (.error .fileNotFound), p))
  | some d => match salt with
    | none => match addFile H (d.length + 2) p (bpakId name) 0 d.length d with
      | none => none
      | some (.ok, p') => some (.ret (pyNewPart p' (bpakId name)))
      | some (e, p') => some (.ret (.raise (.error e), p'))
    | some s => match addFileWithMerkle H (d.length + 2) p (bpakId name) 0 d s with
      | none => none
      | some .ub => some .ub
      | some (.ret (.ok, p')) => some (.ret (pyNewPart p' (bpakId name)))
      | some (.ret (e, p')) => some (.ret (.raise (.error e), p'))

/-- `package_add_key`, python/package.c:227-271; `key` is the outcome of loading the key file. -/
def pyAddKey (H : HashFn) (p : Pkg) (name : Bytes) (key : Except Err Bytes) : Out (PyOut U32 × Pkg) :=
  match addKey H p (bpakId name) 0 key with
  | .ub => .ub
  | .ret (.ok, p') => .ret (pyNewPart p' (bpakId name))
  | .ret (e, p') => .ret (.raise (.error e), p')

/-- `package_add_meta` once `new_data` and `size` are known, python/package.c:333-363: `bpak_add_meta` gets the low 16 bits of the size, the copy is bounded by the
whole size. -/
def pyAddMetaBody (p : Pkg) (id ref : U32) (d : Bytes) (size : Nat) : Out (PyOut (U32 × U32) × Pkg) :=
  let r := addMeta p.hdr id ref (BitVec.ofNat 16 size)
  if r.1 ≠ .ok then .ret (.raise (.error r.1), { p with hdr := r.2.1 })
  else match r.2.1.metas[r.2.2]? with
    | none => .ub
    | some m => match writeAt r.2.1.metadata m.offset.toNat (d.take size) with
      | none => .ub
      | some md => .ret (.val (id, ref), writeHeader { p with hdr := { r.2.1 with metadata := md } })

/-- `package_add_meta`, python/package.c:273-371; `data = none` and `size < 0` stand for arguments that are left out. -/
def pyAddMeta (p : Pkg) (id ref : Int) (data : Option PyVal) (size : Int) : Out (PyOut (U32 × U32) × Pkg) :=
  match data with
  | none => if size < 0 then .ret (.raise .typeError, p) else pyAddMetaBody p (pyMask id) (pyMask ref) [] size.toNat
  | some v => match pyData v with
    | .raise e => .ret (.raise e, p)
    | .val d => pyAddMetaBody p (pyMask id) (pyMask ref) d (if size < 0 then d.length else size.toNat)

/-! ### `bpak.Meta` -/

/-- `bpak_get_meta` for a `Meta` object, python/meta.c:40-44: the slot and the entry. -/
def pyMeta (p : Pkg) (id ref : U32) : Option (Slot × MetaHdr) :=
  match getMeta p.hdr id ref with
  | none => none
  | some i => (p.hdr.metas[i]?).map (fun m => (i, m))

/-- `meta_get_size`, python/meta.c:155-170. -/
def pyMetaSize (p : Pkg) (id ref : U32) : PyOut Int :=
  match pyMeta p id ref with
  | none => .raise .keyError
  | some (_, m) => .val m.size.toNat

/-- `meta_get_rawdata`, python/meta.c:172-187. -/
def pyMetaRaw (p : Pkg) (id ref : U32) : Out (PyOut Bytes) :=
  match pyMeta p id ref with
  | none => .ret (.raise .keyError)
  | some (_, m) => match readAt p.hdr.metadata m.offset.toNat m.size.toNat with
    | none => .ub
    | some d => .ret (.val d)

/-- `meta_as_uuid`, python/meta.c:260-284: `uuid.UUID(None, bytes)` raises ValueError unless there are 16 bytes; the object stands for them.
Importing the module `uuid` (266-273) is taken to succeed. -/
def pyMetaUuid (p : Pkg) (id ref : U32) : Out (PyOut Bytes) :=
  match pyMetaRaw p id ref with
  | .ub => .ub
  | .ret (.raise e) => .ret (.raise e)
  | .ret (.val b) => if b.length = 16 then .ret (.val b) else .ret (.raise .valueError)

/-- `meta_set_rawdata`, python/meta.c:189-258. -/
def pyMetaSetRaw (p : Pkg) (id ref : U32) (v : PyVal) : Out (PyOut Unit × Pkg) :=
  match pyMeta p id ref with
  | none => .ret (.raise .keyError, p)
  | some (_, m) => match pyData v with
    | .raise e => .ret (.raise e, p)
    | .val d =>
      if d.length ≤ m.size.toNat then
        match writeAt p.hdr.metadata m.offset.toNat (d ++ List.replicate (m.size.toNat - d.length) 0) with
        | none => .ub
        | some md => .ret (.val (), writeHeader { p with hdr := { p.hdr with metadata := md } })
      else .ret (.raise .valueError, p)

/-- `meta_set_id`, python/meta.c:59-100. -/
def pyMetaSetId (p : Pkg) (id ref : U32) (v : PyVal) : PyOut Unit × Pkg :=
  match pyU32 v with
  | .raise e => (.raise e, p)
  | .val x => match pyMeta p id ref with
    | none => (.raise .keyError, p)
    | some (i, m) => (.val (), writeHeader { p with hdr := { p.hdr with metas := p.hdr.metas.set i { m with id := x } } })

/-- `meta_set_part_id_ref`, python/meta.c:110-153; `None` is 0. -/
def pyMetaSetRef (p : Pkg) (id ref : U32) (v : PyVal) : PyOut Unit × Pkg :=
  match (if v = .none then .val 0 else pyU32 v) with
  | .raise e => (.raise e, p)
  | .val x => match pyMeta p id ref with
    | none => (.raise .keyError, p)
    | some (i, m) => (.val (), writeHeader { p with hdr := { p.hdr with metas := p.hdr.metas.set i { m with partRef := x } } })

/-- `strlen` in the memory of the header: up to the first NUL, `ub` if there is none up to its end. (C library, called through python/meta.c:300) -/
def strlenC (b : Bytes) : Out Nat := if b.all (· ≠ 0) then .ub else .ret (b.takeWhile (· ≠ 0)).length

/-- `meta_as_string`, python/meta.c:286-306: the metadata area is at 1544 in the header. -/
def pyMetaString (p : Pkg) (id ref : U32) : Out (PyOut (List Nat)) :=
  match pyMeta p id ref with
  | none => .ret (.raise .keyError)
  | some (_, m) =>
    let s := p.hdr.image.drop (1544 + m.offset.toNat)
    match strlenC s with
    | .ub => .ub
    | .ret n =>
      let t := s.take (if n > m.size.toNat then m.size.toNat else n)
      if t.all (fun c => c.toNat < 128) then .ret (.val (t.map BitVec.toNat)) else .ret (.raise .unicodeError)

/-- `meta_delete`, python/meta.c:308-330. -/
def pyMetaDelete (p : Pkg) (id ref : U32) : Out (PyOut Unit × Pkg) :=
  match getMeta p.hdr id ref with
  | none => .ret (.raise .keyError, p)
  | some i => match delMeta p.hdr i with
    | .ub => .ub
    | .ret h => .ret (.val (), writeHeader { p with hdr := h })

/-! ### `bpak.Part` -/

/-- `bpak_get_part` for a `Part` object, python/part.c:40-44. -/
def pyPart (p : Pkg) (id : U32) : Option (Slot × PartHdr) :=
  match getPart p.hdr id with
  | none => none
  | some i => (p.hdr.parts[i]?).map (fun q => (i, q))

/-- `part_set_id`, python/part.c:58-98. -/
def pyPartSetId (p : Pkg) (id : U32) (v : PyVal) : PyOut Unit × Pkg :=
  match pyU32 v with
  | .raise e => (.raise e, p)
  | .val x => match pyPart p id with
    | none => (.raise .keyError, p)
    | some (i, q) => (.val (), writeHeader { p with hdr := { p.hdr with parts := p.hdr.parts.set i { q with id := x } } })

/-- `part_get_size`, python/part.c:100-115. -/
def pyPartSize (p : Pkg) (id : U32) : PyOut Int :=
  match pyPart p id with
  | none => .raise .keyError
  | some (_, q) => .val (partSize q).toInt

/-- `part_get_offset`, python/part.c:117-132. -/
def pyPartOffset (p : Pkg) (id : U32) : PyOut Int :=
  match pyPart p id with
  | none => .raise .keyError
  | some (_, q) => .val (partOffset p.hdr q).toInt

/-- `part_is_transport_encoded`, python/part.c:134-153. -/
def pyPartTransport (p : Pkg) (id : U32) : PyOut Bool :=
  match pyPart p id with
  | none => .raise .keyError
  | some (_, q) => .val q.isTransport

/-- `part_read_data`, python/part.c:155-192: `fread(buffer, size, 1, fp)` counts whole items, and there are none if the size is 0. A size of
2^63 and more is negative for `PyBytes_FromStringAndSize`, and so is such an offset for `fseek`. -/
def pyReadData (p : Pkg) (id : U32) : PyOut Bytes :=
  match pyPart p id with
  | none => .raise .keyError
  | some (_, q) =>
    let n := (partSizeWoPad q).toNat
    if 2^63 ≤ n then .raise .systemError
    else if 2^63 ≤ (partOffset p.hdr q).toNat then .raise .ioError
    else
      let d := fileRead p.file (partOffset p.hdr q).toNat n
      if n = 0 ∨ d.length < n then .raise .ioError else .val d

/-- `part_delete`, python/part.c:194-206; `none`: it does not end. -/
def pyPartDelete (H : HashFn) (p : Pkg) (id : U32) : Option (Out (PyOut Unit × Pkg)) :=
  match deletePart H (p.file.length + 65) p id true with
  | none => none
  | some .ub => some .ub
  | some (.ret (.ok, p')) => some (.ret (.val (), p'))
  | some (.ret (e, p')) => some (.ret (.raise (.error e), p'))

end Bpak
