import Verif.Model.Header
/-!
lib/utils.c, ext/uuid, lib/keystore.c, lib/mem.c, the string tables of lib/bpak.c and lib/id.c.
C strings are byte lists without the terminating NUL unless said otherwise.
-/
namespace Bpak

/-- The ternary of `bpak_bin2hex`, lib/utils.c:31: `(b > 9) ? ('a' + (b - 10)) : ('0' + b)`; also the
lower-case digits of `printf("%x")`. The argument is a nibble value. -/
def hexDigit (n : Nat) : U8 := if n > 9 then BitVec.ofNat 8 (97 + (n - 10)) else BitVec.ofNat 8 (48 + n)

/-- The loop and the final NUL of `bpak_bin2hex`, lib/utils.c:28-44. Writes go to `buf[0], buf[1], …`
in order, so the result is the return code (`true`: BPAK_OK, `false`: -1) and the sequence of bytes
written from `buf[n]` on; the model does not stop at the buffer's end, because the code does not. -/
def bin2hexGo (bufSz : Nat) : Bytes → Nat → Bool × Bytes
  | [], _ => (true, [0])
  | b :: bs, n =>
    let hi := hexDigit (b.toNat / 16 % 16)
    if n + 1 > bufSz then (false, [hi])
    else
      let lo := hexDigit (b.toNat % 16)
      if n + 2 > bufSz then (false, [hi, lo])
      else
        let r := bin2hexGo bufSz bs (n + 2)
        (r.1, hi :: lo :: r.2)

/-- `bpak_bin2hex`, lib/utils.c:21-47. -/
def bin2hex (data : Bytes) (bufSz : Nat) : Bool × Bytes := bin2hexGo bufSz data 0

/-! ### ext/uuid -/

/-- `struct uuid`, ext/uuid/uuidP.h:46-52. Fields as naturals (each below its C type's bound when produced by
`uuidUnpack` or by truncation in `uuidParse`). -/
structure Uuid where
  timeLow : Nat
  timeMid : Nat
  timeHi : Nat
  clockSeq : Nat
  node : List Nat
  deriving DecidableEq, Repr

/-- `uuid_unpack`, ext/uuid/unpack.c:38-62: big-endian fields. Meaningful for 16 bytes. -/
def uuidUnpack (u : Bytes) : Uuid :=
  let b (i : Nat) : Nat := (u.getD i 0).toNat
  { timeLow := ((b 0 * 256 + b 1) * 256 + b 2) * 256 + b 3
    timeMid := b 4 * 256 + b 5
    timeHi := b 6 * 256 + b 7
    clockSeq := b 8 * 256 + b 9
    node := [b 10, b 11, b 12, b 13, b 14, b 15] }

/-- `uuid_pack`, ext/uuid/pack.c:38-68. `(unsigned char) (tmp >> 8k)`. -/
def uuidPack (u : Uuid) : Bytes :=
  [BitVec.ofNat 8 (u.timeLow / 2^24), BitVec.ofNat 8 (u.timeLow / 2^16), BitVec.ofNat 8 (u.timeLow / 2^8),
   BitVec.ofNat 8 u.timeLow, BitVec.ofNat 8 (u.timeMid / 2^8), BitVec.ofNat 8 u.timeMid,
   BitVec.ofNat 8 (u.timeHi / 2^8), BitVec.ofNat 8 u.timeHi,
   BitVec.ofNat 8 (u.clockSeq / 2^8), BitVec.ofNat 8 u.clockSeq] ++ u.node.map (BitVec.ofNat 8)

/-- `printf("%0<n>x", v)` for `v < 16^n` (the only case in ext/uuid/unparse.c:39-40). -/
def hexPad : Nat → Nat → Bytes
  | 0, _ => []
  | n+1, v => hexPad n (v / 16) ++ [hexDigit (v % 16)]

/-- `uuid_unparse` with `fmt_lower`, ext/uuid/unparse.c:39-76:
`"%08x-%04x-%04x-%02x%02x-%02x%02x%02x%02x%02x%02x"`. -/
def uuidUnparse (u : Bytes) : Bytes :=
  let s := uuidUnpack u
  hexPad 8 s.timeLow ++ [0x2d] ++ hexPad 4 s.timeMid ++ [0x2d] ++ hexPad 4 s.timeHi ++ [0x2d] ++
  hexPad 2 (s.clockSeq / 256) ++ hexPad 2 (s.clockSeq % 256) ++ [0x2d] ++ s.node.flatMap (hexPad 2)

/-- `bpak_uuid_to_string`, lib/utils.c:49-57: code and bytes written (with NUL). -/
def uuidToString (u : Bytes) (size : Nat) : Err × Bytes :=
  if size < 37 then (.sizeError, []) else (.ok, uuidUnparse u ++ [0])

/-- `isxdigit` and the digit value used by `strtoul(…, 16)`. (ext/uuid/parse.c:62-74) -/
def hexVal (c : U8) : Option Nat :=
  let n := c.toNat
  if 48 ≤ n ∧ n ≤ 57 then some (n - 48)
  else if 97 ≤ n ∧ n ≤ 102 then some (n - 97 + 10)
  else if 65 ≤ n ∧ n ≤ 70 then some (n - 65 + 10)
  else none

/-- `strtoul(s, NULL, 16)` on text starting with a hex digit: digits until the first other character.
(No `0x` prefix, sign or space can occur where uuid_parse uses it; 64-bit overflow neither.) (ext/uuid/parse.c:65-74) -/
def strtoul16 : Nat → Bytes → Nat
  | acc, [] => acc
  | acc, c :: cs => match hexVal c with
    | none => acc
    | some d => strtoul16 (acc * 16 + d) cs

/-- The character test of the loop in `uuid_parse`, ext/uuid/parse.c:51-63, at index `i` (0..35; index 36 is
the NUL, which is accepted). -/
def uuidCharOk (i : Nat) (c : U8) : Bool :=
  if i = 8 ∨ i = 13 ∨ i = 18 ∨ i = 23 then c = 0x2d else (hexVal c).isSome

/-- The loop of `uuid_parse`, ext/uuid/parse.c:51-63. -/
def uuidCharsOk : Nat → Bytes → Bool
  | _, [] => true
  | i, c :: cs => uuidCharOk i c && uuidCharsOk (i+1) cs

/-- `uuid_parse`, ext/uuid/parse.c:42-79. `none` is the return value -1. -/
def uuidParse (s : Bytes) : Option Bytes :=
  if s.length ≠ 36 then none
  else if !uuidCharsOk 0 s then none
  else
    let byteAt (i : Nat) : Nat := strtoul16 0 ((s.drop i).take 2) % 256
    some (uuidPack
      { timeLow := strtoul16 0 s % 2^32
        timeMid := strtoul16 0 (s.drop 9) % 2^16
        timeHi := strtoul16 0 (s.drop 14) % 2^16
        clockSeq := strtoul16 0 (s.drop 19) % 2^16
        node := [byteAt 24, byteAt 26, byteAt 28, byteAt 30, byteAt 32, byteAt 34] })

/-! ### String tables -/

/-- `bpak_error_string`, lib/bpak.c:163-231, as the table of its `switch`. -/
def errorTable : List (Int × String) :=
  [(0, "OK"), (-1, "Failed"), (-2, "Not found"), (-3, "Size error"), (-4, "No space left"),
   (-5, "Bad alignment"), (-6, "Seek error"), (-7, "Not supported"), (-8, "Needs more data"),
   (-9, "Write error"), (-10, "Decompressor error"), (-11, "Compressor error"),
   (-12, "Patch read origin error"), (-13, "Patch write error"), (-14, "Read error"),
   (-15, "Bad magic"), (-16, "Unsupported hash algorithm"), (-17, "Buffer too small"),
   (-18, "File not found"), (-19, "Could not decode key"), (-20, "Verification failed"),
   (-21, "Signing failed"), (-22, "Unsupported key"), (-23, "Bad root hash"),
   (-24, "Bad payload hash"), (-25, "Missing meta data"), (-26, "Package UUID mismatch"),
   (-27, "Unsupported compression method"), (-28, "Key not found"), (-29, "Keystore id mismatch"),
   (-30, "Object exists")]

/-- Evaluation of a `switch` over such a table. (lib/bpak.c:163-231) -/
def switchTable (t : List (Int × String)) (dflt : String) (code : Int) : String :=
  match t.find? (fun e => e.1 = code) with
  | some e => e.2
  | none => dflt

/-- `bpak_error_string`, lib/bpak.c:163-231. -/
def errorString (code : Int) : String := switchTable errorTable "Unknown" code

/-- ASCII text as bytes. (string literals, lib/bpak.c:163-231) -/
def ascii (s : String) : Bytes := s.toList.map (fun c => BitVec.ofNat 8 c.toNat)

/-- `bpak_id_to_string`, lib/id.c:20-40, with the ids of include/bpak/id.h:19-27. -/
def idToString (id : U32) : String :=
  if id = 0xfb2f1f3f then "bpak-package"
  else if id = 0x2d44bbfb then "bpak-transport"
  else if id = 0x7c9b2f93 then "merkle-salt"
  else if id = 0xe68fc9be then "merkle-root-hash"
  else if id = 0xd1e64a4b then "pb-load-addr"
  else if id = 0x9a5bab69 then "bpak-version"
  else if id = 0xfb367d9a then "keystore-provider-id"
  else ""

/-- `bpak_signature_kind`, lib/bpak.c:296-310. -/
def signatureKindString (k : U8) : String :=
  if k = 2 then "prime256v1" else if k = 3 then "secp384r1" else if k = 4 then "secp521r1"
  else if k = 1 then "rsa4096" else "Unknown"

/-- `bpak_hash_kind`, lib/bpak.c:312-324. -/
def hashKindString (k : U8) : String :=
  if k = 1 then "sha256" else if k = 2 then "sha384" else if k = 3 then "sha512" else "Unknown"

/-! ### Keystore -/

/-- `struct bpak_key` (include/bpak/key.h:13-19): only id and data matter here. -/
structure Key where
  id : U32
  kind : U8
  data : Bytes
  deriving DecidableEq, Repr

/-- `struct bpak_keystore`, include/bpak/keystore.h:14-19; `no_of_keys` is the list's length. -/
structure Keystore where
  id : U32
  verified : Bool
  keys : List Key
  deriving DecidableEq, Repr

/-- The loop of `bpak_keystore_get`, lib/keystore.c:21-26. -/
def keystoreFind (id : U32) : List Key → Option Key
  | [] => none
  | k :: ks => if k.id = id then some k else keystoreFind id ks

/-- `bpak_keystore_get`, lib/keystore.c:13-29: code and `*k` (`none` is NULL). -/
def keystoreGet (ks : Keystore) (id : U32) : Err × Option Key :=
  if !ks.verified then (.failed, none)
  else match keystoreFind id ks.keys with
    | some k => (.ok, some k)
    | none => (.keyNotFound, none)

/-! ### Allocator hooks -/

/-- The two static pointers of lib/mem.c:13-14; functions are named by numbers, `none` is NULL. -/
structure Hooks where
  calloc : Option Nat
  free : Option Nat
  deriving DecidableEq, Repr

/-- Start-up value, lib/mem.c:13-14. -/
def Hooks.init : Hooks := ⟨none, none⟩

/-- `bpak_set_calloc_free`, lib/mem.c:16-24. -/
def setCallocFree (h : Hooks) (c f : Option Nat) : Err × Hooks :=
  if c = none ∨ f = none then (.failed, h) else (.ok, { calloc := c, free := f })

/-- Which allocator a call of `bpak_calloc` (lib/mem.c:26-39) / `bpak_free` (40-50) reaches: `none` is
the C library's. -/
def callocTarget (h : Hooks) : Option Nat := h.calloc
/-- lib/mem.c:41-50. -/
def freeTarget (h : Hooks) : Option Nat := h.free

end Bpak
