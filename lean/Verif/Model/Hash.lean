import Verif.Model.Image
/-!
The hash layer (lib/crypto.c, lib/mbedtls_wrapper.c:14-140) and the header hash of lib/verify.c.
-/
namespace Bpak

/-- The digest functions, by hash kind. They are a parameter of the model: nothing about SHA-2 is
assumed except, where stated (`HashLen`), the digest lengths. (called from lib/mbedtls_wrapper.c:14-124) -/
abbrev HashFn := U8 → Bytes → Bytes

/-- `enum bpak_hash_kind`, include/bpak/bpak.h:71-76. -/
abbrev hashSha256 : U8 := 1
/-- include/bpak/bpak.h:71-76. -/
abbrev hashSha384 : U8 := 2
/-- include/bpak/bpak.h:71-76. -/
abbrev hashSha512 : U8 := 3

/-- Digest length per kind: the `switch` of `bpak_mbed_hash_final`, lib/mbedtls_wrapper.c:76-123.
`none` is the `default:` branch. -/
def digestLen (k : U8) : Option Nat :=
  if k = hashSha256 then some 32 else if k = hashSha384 then some 48
  else if k = hashSha512 then some 64 else none

/-- What is known of the digest functions: they return digests of the right length. (lib/mbedtls_wrapper.c:76-123) -/
def HashLen (H : HashFn) : Prop := ∀ k n, digestLen k = some n → ∀ b, (H k b).length = n

/-- `struct bpak_hash_context`: the kind and everything fed so far (an incremental hash is
determined by the concatenation of the updates). (include/bpak/crypto.h:18-27) -/
structure HashCtx where
  kind : U8
  fed : Bytes
  deriving DecidableEq, Repr

/-- `bpak_hash_init`, lib/crypto.c:31-39, with lib/mbedtls_wrapper.c:14-45. -/
def hashInit (k : U8) : Err × HashCtx :=
  match digestLen k with
  | none => (.unsupportedHashAlg, ⟨k, []⟩)
  | some _ => (.ok, ⟨k, []⟩)

/-- `bpak_hash_update`, lib/crypto.c:41-47, lib/mbedtls_wrapper.c:47-72 (never fails there). -/
def hashUpdate (c : HashCtx) (b : Bytes) : HashCtx := { c with fed := c.fed ++ b }

/-- `bpak_hash_final`, lib/crypto.c:49-55, lib/mbedtls_wrapper.c:74-124. On success the digest is
written to the buffer and its length to `*result_length`; on failure nothing is written. -/
def hashFinal (H : HashFn) (c : HashCtx) (bufLen : Nat) : Err × Option Bytes :=
  match digestLen c.kind with
  | none => (.unsupportedHashAlg, none)
  | some n => if bufLen < n then (.sizeError, none) else (.ok, some (H c.kind c.fed))

/-- The loop of single-byte updates, lib/verify.c:43-48. -/
def feedZeros : Nat → HashCtx → HashCtx
  | 0, c => c
  | n+1, c => feedZeros n (hashUpdate c [0])

/-- `bpak_verify_compute_header_hash`, lib/verify.c:20-59. Result: return code and what was written to
the output buffer (`none`: nothing, and `*size` untouched). After the label the function returns
`BPAK_OK` whatever `rc` is. -/
def computeHeaderHash (H : HashFn) (h : Header) (bufLen : Nat) : Err × Option Bytes :=
  match hashInit h.hashKind with
  | (.ok, c) =>
    let c := hashUpdate c (h.image.take (4096 - 512 - 2))
    let c := feedZeros (512 + 2) c
    let r := hashFinal H c bufLen
    (.ok, r.2)
  | (e, _) => (e, none)

end Bpak
