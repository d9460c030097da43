/-!
# What the code acquires and releases

A second view of the code of lib, src and python: not the data, but the things that must be given back. A *resource* is an open
stream (`FILE *`), a block of memory from the C library, a block from `bpak_calloc`, a mapping, or the contents of an mbedtls
key context. The functions below follow the C functions call by call; what a call answers (a file cannot be opened, a read or a
write fails, a header is not valid, a key is not supported, memory runs out, ...) is drawn from a `Luck`, so that a statement
about every `Luck` is a statement about every way in which every call can end. The outcome is the *trace*: which resources were
acquired, used and released, in which order.

Simplifications: data is left out altogether, so a branch that depends on data draws from the `Luck` too (more traces than the
program has); the number of rounds of each loop is a parameter; calls that touch no resource are drawn as one outcome; the
parts of the suffix array that the suffix sort uses as tables are not resources; the standard streams are not resources.
-/

namespace Bpak.Res

/-- The kinds of resources: an open stream; memory from `malloc`, `calloc` or `strdup`; memory from `bpak_calloc`
(lib/mem.c:26-39); a mapping; what an mbedtls key context holds. -/
inductive Kind | file | heap | lib | map | pk
  deriving DecidableEq, Repr

/-- A pointer variable: `NULL`, or the address of the resource `n`, which may be live or not. -/
inductive Ptr | null | to (n : Nat)
  deriving DecidableEq, Repr

/-- What can be seen of a resource: resource `n` of kind `k` is acquired; it is used; it is released with the function for
kind `k`; a pointer that must not be `NULL` is used although it is. -/
inductive Ev
  | got (n : Nat) (k : Kind)
  | used (n : Nat)
  | gave (n : Nat) (k : Kind)
  | stray
  deriving DecidableEq, Repr

/-- The answers of the calls, in the order of the calls: `mem` for the calls that allocate memory, `io` for all others. -/
structure Luck where
  io : Nat → Bool
  mem : Nat → Bool

/-- The state of a run: calls made so far, names of resources used so far, and the trace. -/
structure St where
  calls : Nat
  next : Nat
  log : List Ev
  deriving DecidableEq, Repr

/-- A piece of code: it runs to an end for each `Luck`. Models no code of /repo; the functions below do. -/
def M (α : Type) : Type := Luck → St → α × St

instance : Monad M where
  pure a := fun _ s => (a, s)
  bind m f := fun l s => f (m l s).1 l (m l s).2

/-- A call that may fail. -/
def ask : M Bool := fun l s => (l.io s.calls, { s with calls := s.calls + 1 })

/-- Something happens. -/
def say (e : Ev) : M Unit := fun _ s => ((), { s with log := s.log ++ [e] })

/-- A resource that is always there: a key context after `mbedtls_pk_init`. -/
def start (k : Kind) : M Ptr := fun _ s => (.to s.next, { s with next := s.next + 1, log := s.log ++ [.got s.next k] })

/-- A call that acquires a resource, or fails: `fopen`, `mmap`. -/
def take (k : Kind) : M Ptr := do
  let ok ← ask
  match ok with
  | true => start k
  | false => pure .null

/-- A call that allocates memory, or fails. -/
def alloc (k : Kind) : M Ptr := do
  let ok ← (fun (l : Luck) (s : St) => (l.mem s.calls, { s with calls := s.calls + 1 }) : M Bool)
  match ok with
  | true => start k
  | false => pure .null

/-- A use of what a pointer points to. -/
def use : Ptr → M Unit
  | .null => say .stray
  | .to n => say (.used n)

/-- A release of what a pointer points to, with a function that does not take `NULL`: `fclose`, `munmap`. -/
def give (k : Kind) : Ptr → M Unit
  | .null => say .stray
  | .to n => say (.gave n k)

/-- A release with a function that ignores `NULL`: `free`, `bpak_free`, `lzma_end`. -/
def giveMem (k : Kind) : Ptr → M Unit
  | .null => pure ()
  | .to n => say (.gave n k)

/-- A call on a stream, which may fail: `fseek`, `fread`, `fwrite`, `ftruncate`. -/
def io (fp : Ptr) : M Bool := do
  use fp
  ask

/-- Steps one after the other, until one fails. -/
def steps : List (M Bool) → M Bool
  | [] => pure true
  | m :: ms => do
    let ok ← m
    match ok with
    | true => steps ms
    | false => pure false

/-- A loop of `n` rounds that stops when a round fails. -/
def rounds : Nat → M Bool → M Bool
  | 0, _ => pure true
  | n + 1, m => do
    let ok ← m
    match ok with
    | true => rounds n m
    | false => pure false

/-! ## lib/pkg.c -/

/-- `bpak_pkg_update_hash`, lib/pkg.c:115-141, for a payload of `n` chunks (lib/verify.c:61-117). -/
def updateHash (n : Nat) (fp : Ptr) : M Bool := steps [ask, rounds n (steps [io fp, io fp, ask]), ask]

/-- `bpak_pkg_write_header`, lib/pkg.c:175-190. -/
def writeHeader (fp : Ptr) : M Bool := steps [io fp, io fp]

/-- lib/pkg.c:49-79: a file without a header gets one; then the header must be valid. -/
def openedHeader (n : Nat) (fp : Ptr) : M Bool := do
  use fp
  let whole ← ask
  match whole with
  | true => steps [ask, io fp]
  | false => steps [ask, updateHash n fp, io fp, io fp, ask, io fp]

/-- `bpak_pkg_open`, lib/pkg.c:25-90: whether it succeeded, and `pkg->fp` afterwards. When it fails after `fopen`, `pkg->fp`
is left pointing to the closed stream (lib/pkg.c:87-89). -/
def pkgOpen (n : Nat) : M (Bool × Ptr) := do
  let mode ← ask
  match mode with
  | false => pure (false, .null)
  | true => do
    let fp ← take .file
    match fp with
    | .null => pure (false, .null)
    | .to i => do
      let ok ← steps [io (.to i), openedHeader n (.to i)]
      match ok with
      | true => pure (true, .to i)
      | false => do
        give .file (.to i)
        pure (false, .to i)

/-- `bpak_pkg_close`, lib/pkg.c:92-99: `pkg->fp` afterwards. -/
def pkgClose : Ptr → M Ptr
  | .null => pure .null
  | .to i => do
    give .file (.to i)
    pure .null

/-- `bpak_pkg_extract_file`, lib/pkg.c:413-480: to a file or to the standard output. -/
def extractFile (n : Nat) (toFile : Bool) (fp : Ptr) : M Bool := do
  let found ← steps [ask, io fp]
  match found, toFile with
  | false, _ => pure false
  | true, false => rounds n (steps [io fp, ask])
  | true, true => do
    let out ← take .file
    match out with
    | .null => pure false
    | .to o => do
      let ok ← rounds n (steps [io fp, io (.to o)])
      give .file (.to o)
      pure ok

/-- `bpak_pkg_delete_part`, lib/pkg.c:482-594. -/
def deletePart (n : Nat) (fp : Ptr) : M Bool :=
  steps [ask, rounds n (steps [io fp, io fp, io fp, io fp]), updateHash n fp, writeHeader fp, io fp, io fp]

/-- `bpak_pkg_delete_all_parts`, lib/pkg.c:596-636. -/
def deleteAll (n : Nat) (fp : Ptr) : M Bool := steps [updateHash n fp, writeHeader fp, io fp, io fp]

/-- `bpak_pkg_write_raw_signature`, lib/pkg.c:192-200. -/
def rawSignature (fp : Ptr) : M Bool := writeHeader fp

/-! ## Keys: lib/mbedtls_wrapper.c -/

/-- `bpak_mbed_load_public_key`, lib/mbedtls_wrapper.c:276-330: the key context is released on the failing paths only
(lib/mbedtls_wrapper.c:321-323), and the block for the key is used without a check (lib/mbedtls_wrapper.c:291-292). -/
def loadPublicKey : M (Bool × Ptr) := do
  let ctx ← start .pk
  let decoded ← ask
  match decoded with
  | false => do
    give .pk ctx
    pure (false, .null)
  | true => do
    let key ← alloc .lib
    use key
    let supported ← ask
    match supported with
    | true => do
      use key
      pure (true, key)
    | false => do
      giveMem .lib key
      give .pk ctx
      pure (false, .null)

/-- `bpak_mbed_load_private_key`, lib/mbedtls_wrapper.c:332-431. -/
def loadPrivateKey : M (Bool × Ptr) := do
  let ctx ← start .pk
  let decoded ← steps [ask, ask]
  match decoded with
  | false => do
    give .pk ctx
    pure (false, .null)
  | true => do
    let key ← alloc .lib
    match key with
    | .null => do
      give .pk ctx
      pure (false, .null)
    | .to i => do
      use (.to i)
      let supported ← ask
      match supported with
      | true => do
        use (.to i)
        give .pk ctx
        pure (true, .to i)
      | false => do
        giveMem .lib (.to i)
        give .pk ctx
        pure (false, .null)

/-- `bpak_mbed_parse_public_key`, lib/mbedtls_wrapper.c:433-502. -/
def parsePublicKey : M (Bool × Ptr) := do
  let ctx ← start .pk
  let decoded ← steps [ask, ask, ask]
  match decoded with
  | false => do
    give .pk ctx
    pure (false, .null)
  | true => do
    let key ← alloc .lib
    match key with
    | .null => do
      give .pk ctx
      pure (false, .null)
    | .to i => do
      use (.to i)
      give .pk ctx
      pure (true, .to i)

/-- `bpak_mbed_verify` and `bpak_mbed_sign`, lib/mbedtls_wrapper.c:163-197 and 199-274: a key context of their own. -/
def withKey (key : Ptr) : M Bool := do
  let ctx ← start .pk
  use key
  let ok ← ask
  give .pk ctx
  pure ok

/-- `bpak_keystore_load_key_from_file`, lib/keystore_load_from_file.c:19-83. -/
def keystoreLoad (n : Nat) : M (Bool × Ptr) := do
  let r ← pkgOpen n
  match r with
  | (false, _) => pure (false, .null)
  | (true, fp) => do
    let found ← steps [ask, ask, ask, ask, io fp, io fp]
    match found with
    | false => do
      let _ ← pkgClose fp
      pure (false, .null)
    | true => do
      let k ← parsePublicKey
      match k with
      | (false, _) => do
        let _ ← pkgClose fp
        pure (false, .null)
      | (true, key) => do
        use key
        let _ ← pkgClose fp
        pure (true, key)

/-! ## lib/pkg_create.c, lib/pkg_sign.c, lib/pkg_verify.c -/

/-- `bpak_pkg_add_file`, lib/pkg_create.c:203-291: `n` chunks of data. -/
def addFile (n : Nat) (fp : Ptr) : M Bool := do
  let ready ← steps [ask, ask, io fp]
  match ready with
  | false => pure false
  | true => do
    let inp ← take .file
    match inp with
    | .null => pure false
    | .to i => do
      let ok ← steps [rounds n (steps [(do use (.to i); pure true), io fp]), io fp, updateHash n fp, writeHeader fp]
      give .file (.to i)
      pure ok

/-- `bpak_pkg_add_file_with_merkle_tree`, lib/pkg_create.c:39-196: the buffer for the tree is used without a check
(lib/pkg_create.c:67-69). -/
def addFileTree (n : Nat) (fp : Ptr) : M Bool := do
  let added ← steps [ask, addFile n fp, ask]
  match added with
  | false => pure false
  | true => do
    let buf ← alloc .lib
    use buf
    let inp ← take .file
    match inp with
    | .null => do
      giveMem .lib buf
      pure false
    | .to i => do
      let ok ← steps [rounds n (steps [io (.to i), (do use buf; ask)]), (do use buf; ask), ask, ask, ask, io fp,
        (do use buf; io fp), updateHash n fp, writeHeader fp]
      give .file (.to i)
      giveMem .lib buf
      pure ok

/-- `bpak_pkg_add_key`, lib/pkg_create.c:293-365: the key is released with `free` (lib/pkg_create.c:363). -/
def addKey (n : Nat) (fp : Ptr) : M Bool := do
  let k ← loadPublicKey
  match k with
  | (false, _) => pure false
  | (true, key) => do
    let ok ← steps [ask, (do use key; io fp), (do use key; io fp), io fp, updateHash n fp, writeHeader fp]
    giveMem .heap key
    pure ok

/-- `bpak_pkg_sign`, lib/pkg_sign.c:20-63. -/
def pkgSign (n : Nat) (fp : Ptr) : M Bool := do
  let hashed ← updateHash n fp
  match hashed with
  | false => pure false
  | true => do
    let k ← loadPrivateKey
    match k with
    | (false, _) => pure false
    | (true, key) => do
      let ok ← steps [withKey key, writeHeader fp]
      giveMem .lib key
      pure ok

/-- `bpak_pkg_verify`, lib/pkg_verify.c:36-77. -/
def pkgVerify (n : Nat) (key fp : Ptr) : M Bool := steps [ask, withKey key, rounds n (steps [io fp, io fp, ask]), ask]

/-- `bpak_pkg_part_sha256`, lib/pkg_verify.c:79-133. -/
def partHash (n : Nat) (fp : Ptr) : M Bool := steps [ask, io fp, ask, rounds n (steps [io fp, ask]), ask]

/-! ## The workspace of the suffix sort: lib/sais.c -/

/-- Whether a flag of `sais_main` is set: one of the bits of `m` (`flags & m`, lib/sais.c:530-745). -/
def flag (fl m : Nat) : Bool := fl &&& m != 0

/-- A use of a table of `sais_main`: a block of its own, or (`NULL` here) a part of the suffix array. -/
def useTable : Ptr → M Unit
  | .null => pure ()
  | .to n => say (.used n)

/-- lib/sais.c:488-527: where the two tables of `sais_main` are, and its flags. Both are in the suffix array, or in memory of
their own, or one of them, or both are one block. -/
def saisTables : M (Option (Nat × Ptr × Ptr)) := do
  let small ← ask
  match small with
  | true => do
    let c ← alloc .lib
    match c with
    | .null => pure none
    | .to i => do
      let room ← ask
      match room with
      | true => pure (some (1, .to i, .null))
      | false => do
        let b ← alloc .lib
        match b with
        | .null => do
          giveMem .lib (.to i)
          pure none
        | .to j => pure (some (3, .to i, .to j))
  | false => do
    let room ← ask
    match room with
    | false => do
      let c ← alloc .lib
      match c with
      | .null => pure none
      | .to i => pure (some (12, .to i, .to i))
    | true => do
      let both ← ask
      match both with
      | true => pure (some (0, .null, .null))
      | false => do
        let medium ← ask
        match medium with
        | false => pure (some (8, .null, .null))
        | true => do
          let b ← alloc .lib
          match b with
          | .null => pure none
          | .to j => pure (some (2, .null, .to j))

/-- A release that happens only if a flag is set, as at lib/sais.c:577-583 and 741-747. -/
def giveIf (c : Bool) (p : Ptr) : M Unit :=
  match c with
  | true => giveMem .lib p
  | false => pure ()

/-- lib/sais.c:529-535: the flags when the second sorting of the LMS substrings is used. -/
def saisSortFlags (fl : Nat) : M Nat := do
  let second ← ask
  let room ← ask
  match second, flag fl 1, room with
  | false, _, _ => pure fl
  | true, true, true => pure (fl + 32)
  | true, true, false => pure (fl + 16)
  | true, false, room =>
    match fl == 0 && room with
    | true => pure (fl + 32)
    | false => pure fl

/-- lib/sais.c:537-622: sorting the LMS substrings, with a third table if flag 16 is set. -/
def saisSort (fl : Nat) (c b : Ptr) : M Bool := do
  useTable c
  useTable b
  let several ← ask
  match several with
  | false => pure true
  | true =>
    match flag fl 16 with
    | false => do
      useTable c
      useTable b
      pure true
    | true => do
      let d ← alloc .lib
      match d with
      | .null => do
        giveIf (flag fl 5) c
        giveIf (flag fl 2) b
        pure false
      | .to i => do
        useTable c
        useTable b
        use (.to i)
        giveMem .lib (.to i)
        pure true

/-- lib/sais.c:699-749: the last stage. -/
def saisInduce (fl : Nat) (c b : Ptr) : M Bool := do
  useTable c
  useTable b
  giveIf (flag fl 5) c
  giveIf (flag fl 2) b
  pure true

/-- lib/sais.c:684-700: after the recursion the tables that were given back are allocated again. -/
def saisAgain (fl : Nat) (c : Ptr) : M Bool :=
  match flag fl 4 with
  | true => do
    let c ← alloc .lib
    match c with
    | .null => pure false
    | .to i => saisInduce fl (.to i) (.to i)
  | false =>
    match flag fl 2 with
    | false => saisInduce fl c .null
    | true => do
      let b ← alloc .lib
      match b with
      | .null => do
        giveIf (flag fl 1) c
        pure false
      | .to j => saisInduce fl c (.to j)

/-- lib/sais.c:624-660: unless the names are unique, the reduced problem is solved by a recursive call, `sub`, before which
tables are given back. -/
def saisReduce (sub : M Bool) (fl : Nat) (c b : Ptr) : M Bool := do
  let unique ← ask
  match unique with
  | true => saisInduce fl c b
  | false => do
    giveIf (flag fl 4) c
    giveIf (flag fl 2) b
    let room ← ask
    let ok ← sub
    match ok with
    | false => do
      giveIf (flag fl 1) c
      pure false
    | true => saisAgain (match flag fl 13 || room with | true => fl | false => fl + 8) c

/-- `sais_main`, lib/sais.c:464-750, for a reduced problem solved by `sub`. -/
def saisMain (sub : M Bool) : M Bool := do
  let t ← saisTables
  match t with
  | none => pure false
  | some (fl, c, b) => do
    let fl ← saisSortFlags fl
    let ok ← saisSort fl c b
    match ok with
    | false => pure false
    | true => saisReduce sub fl c b

/-- `sais`, lib/sais.c:752-767, with at most `d` recursive calls. -/
def sais : Nat → M Bool
  | 0 => ask
  | d + 1 => do
    let ready ← ask
    match ready with
    | false => ask
    | true => saisMain (sais d)

/-! ## Transport coding -/

/-- The compression of a delta, `enum bpak_compression` (include/bpak/bpak.h:132-140). -/
inductive Comp | none | hs | lzma
  deriving DecidableEq, Repr

/-- What `bpak_bsdiff_init` leaves: whether it succeeded, `compressor_priv`, the memory inside the LZMA encoder, and the suffix
array. -/
structure Bsdiff where
  ok : Bool
  priv : Ptr
  inner : Ptr
  sa : Ptr

/-- `compressor_init`, lib/bsdiff.c:328-375. The memory inside an LZMA encoder is from the C library, because the allocator is
set after the encoder is made (lib/bsdiff.c:361-369). When the encoder cannot be made, the stream is not released. -/
def compressorInit : Comp → M (Bool × Ptr × Ptr)
  | .none => pure (true, .null, .null)
  | .hs => do
    let p ← alloc .lib
    match p with
    | .null => pure (false, .null, .null)
    | .to i => do
      use (.to i)
      pure (true, .to i, .null)
  | .lzma => do
    let p ← alloc .lib
    let preset ← ask
    match preset, p with
    | false, p => do
      giveMem .lib p
      pure (false, p, .null)
    | true, .null => pure (false, .null, .null)
    | true, .to i => do
      use (.to i)
      let inner ← alloc .heap
      match inner with
      | .null => pure (false, .to i, .null)
      | .to j => pure (true, .to i, .to j)

/-- `compressor_free`, lib/bsdiff.c:437-457: `lzma_end` releases the memory inside with the allocator that is set by then,
`bpak_free`. -/
def compressorFree (c : Comp) (priv inner : Ptr) : M Unit :=
  match c with
  | .none => pure ()
  | .hs => giveMem .lib priv
  | .lzma => do
    use priv
    giveMem .lib inner
    giveMem .lib priv

/-- `bpak_bsdiff_init`, lib/bsdiff.c:599-658. -/
def bsdiffInit (n : Nat) (c : Comp) : M Bsdiff := do
  let r ← compressorInit c
  match r with
  | (false, p, q) => pure ⟨false, p, q, .null⟩
  | (true, p, q) => do
    let sa ← alloc .lib
    match sa with
    | .null => do
      compressorFree c p q
      pure ⟨false, .null, .null, .null⟩
    | .to i => do
      use (.to i)
      let sorted ← sais n
      match sorted with
      | false => do
        giveMem .lib (.to i)
        compressorFree c p q
        pure ⟨false, .null, .null, .null⟩
      | true => pure ⟨true, p, q, .to i⟩

/-- `bpak_bsdiff_free`, lib/bsdiff.c:719-727. -/
def bsdiffFree (c : Comp) (b : Bsdiff) : M Unit := do
  giveMem .lib b.sa
  compressorFree c b.priv b.inner

/-- `transport_bsdiff`, lib/transport_encode.c:112-215: both files are mapped; `n` writes of output. -/
def transportBsdiff (n : Nat) (c : Comp) (inp out org : Ptr) : M Bool := do
  let sized ← steps [io inp, io inp]
  match sized with
  | false => pure false
  | true => do
    use inp
    let tm ← take .map
    match tm with
    | .null => pure false
    | .to t => do
      let sized ← steps [io org, io org]
      match sized with
      | false => do
        give .map (.to t)
        pure false
      | true => do
        use org
        let om ← take .map
        match om with
        | .null => do
          give .map (.to t)
          pure false
        | .to o => do
          let b ← bsdiffInit n c
          match b.ok with
          | false => do
            give .map (.to o)
            give .map (.to t)
            pure false
          | true => do
            let ok ← rounds n (do use (.to o); use (.to t); use b.sa; io out)
            bsdiffFree c b
            give .map (.to o)
            give .map (.to t)
            pure ok

/-- What the encoder or the decoder does with one part: copy it, drop it, rebuild its hash tree, or make or apply a delta. -/
inductive Coding | copy | other | delta (c : Comp)
  deriving DecidableEq, Repr

/-- `transport_encode_part` and `transport_copy`, lib/transport_encode.c:29-85 and 217-350: one part. -/
def encodePart (n : Nat) (inp out org : Ptr) : Coding → M Bool
  | .copy => steps [ask, io inp, io out, rounds n (steps [io inp, io out])]
  | .other => steps [ask, ask, io inp, io out, ask]
  | .delta c => do
    let ready ← steps [ask, ask, ask, io org, io inp, io out]
    match ready with
    | false => pure false
    | true => transportBsdiff n c inp out org

/-- lib/transport_encode.c:393-427: the parts, in order. -/
def encodeParts (n : Nat) (inp out org : Ptr) : List Coding → M Bool
  | [] => pure true
  | p :: ps => do
    let ok ← encodePart n inp out org p
    match ok with
    | true => encodeParts n inp out org ps
    | false => pure false

/-- `bpak_transport_encode`, lib/transport_encode.c:352-451, with an origin package. -/
def encode (n : Nat) (ps : List Coding) (inp out org : Ptr) : M Bool :=
  steps [ask, encodeParts n inp out org ps, io out, io out]

/-- `bpak_transport_decode_start`, lib/transport_decode.c:200-292, with `bpak_bspatch_init` (lib/bspatch.c:386-425) and
`decompressor_init` (lib/bspatch.c:210-238): the memory inside an LZMA decoder, which is from the C library, because the
allocator is set after the decoder is made (lib/bspatch.c:220-227). -/
def decodeStart (out : Ptr) : Coding → M (Bool × Ptr)
  | .copy => do
    let ok ← steps [ask, io out]
    pure (ok, .null)
  | .other => do
    let ok ← steps [ask, io out]
    pure (ok, .null)
  | .delta c => do
    let ready ← steps [ask, io out]
    match ready with
    | false => pure (false, .null)
    | true =>
      match c with
      | .none => pure (true, .null)
      | .hs => pure (true, .null)
      | .lzma => do
        let inner ← alloc .heap
        match inner with
        | .null => pure (false, .null)
        | .to i => pure (true, .to i)

/-- `bpak_transport_decode_finish`, lib/transport_decode.c:323-376, with `bpak_bspatch_free` (lib/bspatch.c:240-257 and
465-468): `lzma_end` releases the memory inside with `bpak_free`. -/
def decodeFinish (out inner : Ptr) : M Bool := do
  let _ ← steps [io out]
  giveMem .lib inner
  steps [ask, ask, io out]

/-- One part in `bpak_pkg_transport_decode`, lib/pkg.c:324-384: when a chunk cannot be read or decoded, the decoder is left as
it is (`bpak_transport_decode_free`, lib/transport_decode.c:378-382, does nothing). -/
def decodePart (n : Nat) (inp out org : Ptr) (p : Coding) : M Bool := do
  let r ← decodeStart out p
  match r with
  | (false, _) => pure false
  | (true, inner) => do
    let fed ← rounds n (steps [io inp, (do use org; ask), io out])
    match fed with
    | false => pure false
    | true => decodeFinish out inner

/-- lib/pkg.c:305-384: the parts, in order. -/
def decodeParts (n : Nat) (inp out org : Ptr) : List Coding → M Bool
  | [] => pure true
  | p :: ps => do
    let ok ← decodePart n inp out org p
    match ok with
    | true => decodeParts n inp out org ps
    | false => pure false

/-- `bpak_pkg_transport_decode`, lib/pkg.c:259-389, with an origin package. -/
def decode (n : Nat) (ps : List Coding) (inp out org : Ptr) : M Bool :=
  steps [ask, ask, io inp, decodeParts n inp out org ps]

/-! ## Programs that use the library -/

/-- A call on an open package (include/bpak/pkg.h). `n` is the number of rounds of its loops. -/
inductive Call
  | addFile (n : Nat)
  | addFileTree (n : Nat)
  | addKey (n : Nat)
  | sign (n : Nat)
  | verify (n : Nat)
  | verifyKeystore (n : Nat)
  | extract (n : Nat) (toFile : Bool)
  | delete (n : Nat)
  | deleteAll (n : Nat)
  | rawSignature
  | writeHeader
  | updateHash (n : Nat)
  | partHash (n : Nat)
  deriving DecidableEq, Repr

/-- The call. A program that verifies loads the key, from a key file or from a keystore, and releases it with `free`, as
src/sign.c:214 and python/package.c:130 do: there is no function of the library for it. -/
def Call.run (fp : Ptr) : Call → M Bool
  | .addFile n => Res.addFile n fp
  | .addFileTree n => Res.addFileTree n fp
  | .addKey n => Res.addKey n fp
  | .sign n => pkgSign n fp
  | .verify n => do
    let k ← loadPublicKey
    match k with
    | (false, _) => pure false
    | (true, key) => do
      let ok ← pkgVerify n key fp
      giveMem .heap key
      pure ok
  | .verifyKeystore n => do
    let k ← keystoreLoad n
    match k with
    | (false, _) => pure false
    | (true, key) => do
      let ok ← pkgVerify n key fp
      giveMem .heap key
      pure ok
  | .extract n f => extractFile n f fp
  | .delete n => deletePart n fp
  | .deleteAll n => Res.deleteAll n fp
  | .rawSignature => Res.rawSignature fp
  | .writeHeader => Res.writeHeader fp
  | .updateHash n => Res.updateHash n fp
  | .partHash n => Res.partHash n fp

/-- Calls one after the other, whatever they answer. -/
def runCalls (fp : Ptr) : List Call → M Unit
  | [] => pure ()
  | c :: cs => do
    let _ ← c.run fp
    runCalls fp cs

/-- A program that opens a package, makes calls on it, and closes it; it closes only what it could open. -/
def session (n : Nat) (cs : List Call) : M Unit := do
  let r ← pkgOpen n
  match r with
  | (false, _) => pure ()
  | (true, fp) => do
    runCalls fp cs
    let _ ← pkgClose fp
    pure ()

/-- A program that opens three packages, encodes or decodes, and closes what it could open. -/
def transportSession (n : Nat) (dec : Bool) (ps : List Coding) : M Unit := do
  let i ← pkgOpen n
  match i with
  | (false, _) => pure ()
  | (true, inp) => do
    let g ← pkgOpen n
    match g with
    | (false, _) => do
      let _ ← pkgClose inp
      pure ()
    | (true, org) => do
      let o ← pkgOpen n
      match o with
      | (false, _) => do
        let _ ← pkgClose org
        let _ ← pkgClose inp
        pure ()
      | (true, out) => do
        let _ ← (match dec with
          | true => decode n ps inp out org
          | false => encode n ps inp out org)
        let _ ← pkgClose out
        let _ ← pkgClose org
        let _ ← pkgClose inp
        pure ()

/-! ## The command line tool -/

/-- The command lines that passed their own checks of the options (src/main.c:44-132). -/
inductive Cmd
  | create (n : Nat)
  | addMeta (fromFile : Bool)
  | addPart (n : Nat)
  | addKey (n : Nat)
  | addTree (n : Nat)
  | delete (n : Nat) (all : Bool)
  | extract (n : Nat) (metaTo part : Bool) (toFile : Bool)
  | set (encoder : Bool)
  | show (n : Nat)
  | sign (n : Nat)
  | signFile
  | verifyKey (n : Nat)
  | verifyKeystore (n : Nat)
  | compare
  | keystore (n m : Nat)
  | transportAdd
  deriving DecidableEq, Repr

/-- A command that opens the package, does its work and closes the package: the frame of `action_add` (src/add.c:125-306),
`action_create` (src/create.c:125-152), `action_delete` (src/delete.c:88-106), `action_extract` (src/extract.c:96-156),
`action_show` (src/show.c:102-302), `action_sign` and `action_verify` (src/sign.c:76-115 and 171-217) and `action_transport`
with `--add` (src/transport.c:116-186). -/
def onPackage (n : Nat) (work : Ptr → M Bool) : M Bool := do
  let r ← pkgOpen n
  match r with
  | (false, _) => pure false
  | (true, fp) => do
    let ok ← work fp
    let _ ← pkgClose fp
    pure ok

/-- src/add.c:138-278: the content is read from a file (src/add.c:152-168) or from the command line. -/
def addMetaWork (fromFile : Bool) (fp : Ptr) : M Bool :=
  match fromFile with
  | false => steps [ask, ask, writeHeader fp]
  | true => do
    let f ← take .file
    match f with
    | .null => pure false
    | .to i => do
      let got ← io (.to i)
      give .file (.to i)
      match got with
      | false => pure false
      | true => steps [ask, ask, writeHeader fp]

/-- src/extract.c:107-152: metadata to a file, then a part to a file of the same name. -/
def extractWork (n : Nat) (metaTo part toFile : Bool) (fp : Ptr) : M Bool := do
  match metaTo, toFile with
  | true, true => do
    let found ← ask
    match found with
    | false => pure false
    | true => do
      let out ← take .file
      match out with
      | .null => pure false
      | .to o => do
        let ok ← io (.to o)
        match ok, part with
        | true, true => do
          let ok ← extractFile n true fp
          give .file (.to o)
          pure ok
        | ok, _ => do
          give .file (.to o)
          pure ok
  | true, false => do
    let ok ← steps [ask, ask]
    match ok, part with
    | true, true => extractFile n false fp
    | ok, _ => pure ok
  | false, f =>
    match part with
    | true => extractFile n f fp
    | false => pure true

/-- src/sign.c:85-103: a signature from a file. -/
def signFileWork (fp : Ptr) : M Bool := do
  let sf ← take .file
  match sf with
  | .null => pure false
  | .to i => do
    use (.to i)
    give .file (.to i)
    rawSignature fp

/-- src/set.c:173-191: the block that holds the header after the entry was changed, or a failure. -/
def setGrow (h : Ptr) : M (Bool × Ptr) := do
  use h
  let grow ← ask
  match grow with
  | false => do
    use h
    pure (true, h)
  | true => do
    let tmp ← alloc .heap
    use tmp
    use h
    let added ← ask
    match added with
    | false => do
      giveMem .heap tmp
      pure (false, h)
    | true => do
      giveMem .heap h
      use tmp
      pure (true, tmp)

/-- `action_set`, src/set.c:108-268: the header is in a block of its own, and `malloc` is not checked. -/
def cmdSet (encoder : Bool) : M Bool := do
  let h ← alloc .heap
  let f ← take .file
  match f with
  | .null => do
    giveMem .heap h
    pure false
  | .to i => do
    let read ← steps [io (.to i), (do use h; io (.to i)), (do use h; ask), (do use h; ask)]
    match read with
    | false => do
      give .file (.to i)
      giveMem .heap h
      pure false
    | true => do
      let r ← (match encoder with
        | true => (do use h; let ok ← ask; pure (ok, h))
        | false => setGrow h)
      match r with
      | (false, h) => do
        give .file (.to i)
        giveMem .heap h
        pure false
      | (true, h) => do
        let ok ← steps [io (.to i), (do use h; io (.to i))]
        give .file (.to i)
        giveMem .heap h
        pure ok

/-- `action_compare`, src/compare.c:74-355. -/
def cmdCompare : M Bool := do
  let f1 ← take .file
  match f1 with
  | .null => pure false
  | .to i => do
    let f2 ← take .file
    match f2 with
    | .null => do
      give .file (.to i)
      pure false
    | .to j => do
      let ok ← steps [io (.to i), io (.to j), ask, ask]
      give .file (.to j)
      give .file (.to i)
      pure ok

/-- One key of `bpak generate keystore`, src/generate.c:178-247: the key is parsed into a block of its own, printed, and
released with `free`; when its kind is not supported, after the loop (src/generate.c:267-269). -/
def keystoreKey (fp : Ptr) : M Bool := do
  let read ← steps [io fp, ask, io fp]
  match read with
  | false => pure false
  | true => do
    let k ← parsePublicKey
    match k with
    | (false, _) => pure false
    | (true, key) => do
      use key
      let supported ← ask
      match supported with
      | false => do
        giveMem .heap key
        pure false
      | true => do
        use key
        giveMem .heap key
        pure true

/-- `bpak generate keystore`, src/generate.c:98-276: `n` keys. `strdup` is not checked, and the copy of the name is changed
in place, `m` times (src/generate.c:171-176). -/
def cmdKeystore (n m : Nat) : M Bool := do
  let h ← alloc .heap
  match h with
  | .null => pure false
  | .to hh => do
    let f ← take .file
    match f with
    | .null => do
      giveMem .heap (.to hh)
      pure false
    | .to i => do
      let ready ← steps [(do use (.to hh); io (.to i)), (do use (.to hh); ask), ask, ask]
      match ready with
      | false => do
        give .file (.to i)
        giveMem .heap (.to hh)
        pure false
      | true => do
        let name ← alloc .heap
        let _ ← rounds m (do use name; pure true)
        let ok ← rounds n (do use (.to hh); use name; keystoreKey (.to i))
        giveMem .heap name
        give .file (.to i)
        giveMem .heap (.to hh)
        pure ok

/-- The commands; for `create`, src/create.c:134-148; for `show`, src/show.c:111-299; for `transport --add`,
src/transport.c:156-170. -/
def Cmd.run : Cmd → M Bool
  | .create n => onPackage n fun fp => steps [updateHash n fp, writeHeader fp]
  | .addMeta f => onPackage 0 (addMetaWork f)
  | .addPart n => onPackage n (addFile n)
  | .addKey n => onPackage n (Res.addKey n)
  | .addTree n => onPackage n (addFileTree n)
  | .delete n false => onPackage n (deletePart n)
  | .delete n true => onPackage n (deleteAll n)
  | .extract n m p f => onPackage n (extractWork n m p f)
  | .set e => cmdSet e
  | .show n => onPackage n fun fp => steps [ask, partHash n fp, updateHash n fp, ask]
  | .sign n => onPackage n (pkgSign n)
  | .signFile => onPackage 0 signFileWork
  | .verifyKey n => onPackage n fun fp => (Call.verify n).run fp
  | .verifyKeystore n => onPackage n fun fp => (Call.verifyKeystore n).run fp
  | .compare => cmdCompare
  | .keystore n m => cmdKeystore n m
  | .transportAdd => onPackage 0 fun fp => steps [ask, writeHeader fp]

/-- `bpak transport --encode` and `--decode` with an origin, src/transport.c:118-186: the output is not closed, and when the
origin cannot be opened, the input is not closed either. -/
def cmdTransport (n : Nat) (dec : Bool) (ps : List Coding) : M Bool := do
  let i ← pkgOpen n
  match i with
  | (false, _) => pure false
  | (true, inp) => do
    let g ← pkgOpen n
    match g with
    | (false, _) => pure false
    | (true, org) => do
      let o ← pkgOpen n
      match o with
      | (false, _) => do
        let _ ← pkgClose inp
        let _ ← pkgClose org
        pure false
      | (true, out) => do
        let ok ← (match dec with
          | true => decode n ps inp out org
          | false => encode n ps inp out org)
        let _ ← pkgClose inp
        let _ ← pkgClose org
        pure ok

/-! ## Python -/

/-- What a Python program does with a package object: a method or an attribute, `close`, leaving a `with` block
(python/package.c:766-820). -/
inductive PyOp
  | call (c : Call)
  | close
  | exit
  deriving DecidableEq, Repr

/-- `package_close` and `package_exit`, python/package.c:85-93 and 438-443; all other methods use the package as it is. -/
def pyRun : Ptr → List PyOp → M Ptr
  | fp, [] => pure fp
  | fp, .call c :: ps => do
    let _ ← c.run fp
    pyRun fp ps
  | fp, .close :: ps => do
    let fp ← pkgClose fp
    pyRun fp ps
  | fp, .exit :: ps => do
    let fp ← pkgClose fp
    pyRun fp ps

/-- The life of a package object: `bpak.Package(...)` (`package_new`, `package_init`, python/package.c:29-40 and 50-83), the
operations, and `package_dealloc` (python/package.c:42-48) when the last reference goes. When the constructor fails, the
object goes away at once, and `package_dealloc` closes `pkg->fp` as `bpak_pkg_open` left it. -/
def pyLife (n : Nat) (ps : List PyOp) : M Unit := do
  let r ← pkgOpen n
  match r with
  | (false, fp) => do
    let _ ← pkgClose fp
    pure ()
  | (true, fp) => do
    let fp ← pyRun fp ps
    let _ ← pkgClose fp
    pure ()

/-- The trace of a run from the beginning of the program. -/
def trace {α : Type} (l : Luck) (m : M α) : List Ev := (m l ⟨0, 0, []⟩).2.log

end Bpak.Res
