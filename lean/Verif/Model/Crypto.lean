import Verif.Model.Pkg
import Verif.Model.Utils
/-!
The keys and signatures of lib/mbedtls_wrapper.c:142-502, as built with mbedtls 3 (with mbedtls 2 the signing function is not told how much
room there is, and no random source is set up to read a key). mbedtls' pk layer is a parameter.
-/
namespace Bpak

/-- The answers of `mbedtls_pk_get_name` that the wrapper distinguishes (lib/mbedtls_wrapper.c:294-319). -/
inductive PkName where
  | ec | rsa | other
  deriving DecidableEq, Repr

/-- mbedtls' pk layer as used in lib/mbedtls_wrapper.c:142-502. `Pub`, `Pri`: the contexts that hold a public or a private key. `parsePub`: `mbedtls_pk_parse_public_key`
on a buffer; `parsePubFile`: `mbedtls_pk_parse_public_keyfile` on a file with this content; likewise for private keys (the random source used for blinding
does not matter for the result). `derPub`, `derPri`: what `mbedtls_pk_write_pubkey_der` and `mbedtls_pk_write_key_der` write if there is room, `none` if they cannot.
`sign key rnd md hash room`, `verify key md hash sig`: the algorithms, `md` being `none` for an invalid message digest. -/
structure Mbed where
  Pub : Type
  Pri : Type
  parsePub : Bytes → Option Pub
  parsePubFile : Bytes → Option Pub
  parsePri : Bytes → Option Pri
  parsePriFile : Bytes → Option Pri
  pubName : Pub → PkName
  pubBits : Pub → Nat
  priName : Pri → PkName
  priBits : Pri → Nat
  derPub : Pub → Option Bytes
  derPri : Pri → Option Bytes
  sign : Pri → Bytes → Option U8 → Bytes → Nat → Option Bytes
  verify : Pub → Option U8 → Bytes → Bytes → Bool

/-- `hash_kind`, lib/mbedtls_wrapper.c:142-161: the kind as a digest of mbedtls (by its kind number here), or a negative number, which is none of them. -/
def mdKind (k : U8) : Option U8 :=
  if k = hashSha256 ∨ k = hashSha384 ∨ k = hashSha512 then some k else none

/-- `mbedtls_pk_write_pubkey_der`/`_key_der` into a buffer of `room` bytes: the text is put at the *end* of the buffer. Result: the buffer and the
number of bytes; `none`: negative. The context is empty (`none`) if parsing failed, and an empty context cannot be written. What is before the text in
the buffer is not specified; zeros here. (called at lib/mbedtls_wrapper.c:284, 367, 477) -/
def derInto (room : Nat) (der : Option Bytes) : Option (Bytes × Nat) :=
  match der with
  | none => none
  | some d => if room < d.length then none else some (List.replicate (room - d.length) 0 ++ d, d.length)

/-- The `if`/`switch` that find the kind, lib/mbedtls_wrapper.c:294-319, 386-422, 450-475. `base` is 0 for public and 4 for private keys
(`enum bpak_key_kind`, include/bpak/bpak.h:142-152). -/
def pkKind (base : U8) (name : PkName) (bits : Nat) : Option U8 :=
  match name with
  | .ec => if bits = 256 then some (base + 2) else if bits = 384 then some (base + 3) else if bits = 521 then some (base + 4) else none
  | .rsa => if bits = 4096 then some (base + 1) else none
  | .other => none

/-- `bpak_mbed_load_public_key`, lib/mbedtls_wrapper.c:276-330; `file` is the content of the key file (`none`: it cannot be read). The result of parsing is
ignored; what follows fails on an empty context. Simplified: `calloc` does not fail. -/
def mbedLoadPublic (M : Mbed) (file : Option Bytes) : Except Err Key :=
  let ctx := file.bind M.parsePubFile
  match derInto 1024 (ctx.bind M.derPub) with
  | none => .error .keyDecode
  | some (tmp, len) =>
    match ctx with
    | none => .error .unsupportedKey
    | some p => match pkKind 0 (M.pubName p) (M.pubBits p) with
      | none => .error .unsupportedKey
      | some kind => .ok ⟨0, kind, (tmp.drop (1024 - len)).take len⟩

/-- `bpak_mbed_load_private_key`, lib/mbedtls_wrapper.c:332-431; `seeded`: the random source could be set up. -/
def mbedLoadPrivate (M : Mbed) (seeded : Bool) (file : Option Bytes) : Except Err Key :=
  if seeded = false then .error .failed
  else
    let ctx := file.bind M.parsePriFile
    match derInto 4096 (ctx.bind M.derPri) with
    | none => .error .keyDecode
    | some (tmp, len) =>
      match ctx with
      | none => .error .keyDecode
      | some p => match pkKind 4 (M.priName p) (M.priBits p) with
        | none => .error .keyDecode
        | some kind => .ok ⟨0, kind, (tmp.drop (4096 - len)).take len⟩

/-- `bpak_mbed_parse_public_key`, lib/mbedtls_wrapper.c:433-502. The buffer for the key in its standard form has 512 bytes. -/
def mbedParsePublic (M : Mbed) (buf : Bytes) : Except Err Key :=
  match M.parsePub buf with
  | none => .error .keyDecode
  | some p => match pkKind 0 (M.pubName p) (M.pubBits p) with
    | none => .error .keyDecode
    | some kind => match derInto 512 (M.derPub p) with
      | none => .error .keyDecode
      | some (tmp, len) => .ok ⟨0, kind, (tmp.drop (512 - len)).take len⟩

/-- `bpak_mbed_verify`, lib/mbedtls_wrapper.c:163-197: the code and `*verified`. The code does not tell whether the signature is right. -/
def mbedVerify (M : Mbed) (sig hash : Bytes) (kind : U8) (key : Key) : Err × Bool :=
  match M.parsePub key.data with
  | none => (.keyDecode, false)
  | some p => if M.verify p (mdKind kind) hash sig then (.ok, true) else (.ok, false)

/-- `bpak_mbed_sign`, lib/mbedtls_wrapper.c:199-274; `rnd` is what the random source delivers, `none` if it cannot be set up; `room`: `*signature_length` before the call. -/
def mbedSign (M : Mbed) (rnd : Option Bytes) (hash : Bytes) (kind : U8) (key : Key) (room : Nat) : Except Err Bytes :=
  match rnd with
  | none => .error .failed
  | some r => match M.parsePri key.data with
    | none => .error .keyDecode
    | some p => match M.sign p r (mdKind kind) hash room with
      | none => .error .signFail
      | some s => .ok s

/-- `bpak_crypto_sign` and `bpak_crypto_verify` (lib/crypto.c:74-102) with the functions above in place, as `bpak_pkg_sign` (lib/pkg_sign.c:41-49: 512 bytes of room) and
`bpak_pkg_verify` (lib/pkg_verify.c:49-55) call them. -/
def mbedScheme (M : Mbed) : SigScheme Key Key where
  sign key rnd kind hash := mbedSign M (some rnd) hash kind key 512
  verify key kind hash sig := match mbedVerify M sig hash kind key with
    | (.ok, b) => .ok b
    | (e, _) => .error e

end Bpak
