import Verif.Model.Pkg
import Verif.Model.Utils
/-!
# The crypto functions that an application installs

A second view of lib/crypto.c, lib/verify.c, lib/pkg_verify.c and lib/pkg_sign.c: the functions installed with
`bpak_hash_setup` and `bpak_crypto_setup` may answer anything, and fail at any call. Functions are named by numbers; `none` is
`NULL`. What they answer is drawn from an `Oracle`, which knows all calls so far, so that a statement about every `Oracle` is a
statement about all installed functions, with whatever state of their own. The outcome includes the log of the calls made.

Simplifications: the installed functions do not write outside the buffers they are given; the memory of an array that the code
does not initialise is a parameter (`junk`); the check of the hash trees is one call; keys are values.
-/
namespace Bpak.Hk

/-- A call of an installed function, with what it is given. (include/bpak/crypto.h:29-58) -/
inductive HCall
  | init (kind : U8)
  | update (data : Bytes)
  | final (room : Nat)
  | free
  | verify (sig hash : Bytes) (kind : U8) (key : Key)
  | sign (hash : Bytes) (kind : U8) (key : Key) (room : Nat)
  | loadPublic (name : Bytes)
  | loadPrivate (name : Bytes)
  | parsePublic (buf : Bytes)
  | trees
  deriving DecidableEq, Repr

/-- What an installed function answers: its code, what it writes to the buffer it is given, the key it makes, and `verified`.
(include/bpak/crypto.h:29-58) -/
structure Ans where
  code : Err
  data : Bytes
  key : Key
  flag : Bool
  deriving DecidableEq, Repr

/-- A call that was made: the function, the call, the answer. (lib/crypto.c) -/
structure Ev where
  fn : Nat
  call : HCall
  ans : Ans
  deriving DecidableEq, Repr

/-- All the installed functions: what they answer, given all calls so far. (include/bpak/crypto.h:29-58) -/
abbrev Oracle := List Ev → Nat → HCall → Ans

/-- Code that calls installed functions. Models no code of /repo; the functions below do. -/
def K (α : Type) : Type := Oracle → List Ev → α × List Ev

instance : Monad K where
  pure a := fun _ l => (a, l)
  bind m f := fun o l => f (m o l).1 o (m o l).2

/-- The static pointers of lib/crypto.c:5-29. -/
structure Hooks where
  init : Option Nat
  update : Option Nat
  final : Option Nat
  free : Option Nat
  verify : Option Nat
  sign : Option Nat
  loadPublic : Option Nat
  loadPrivate : Option Nat
  parsePublic : Option Nat
  deriving DecidableEq, Repr

/-- `bpak_hash_setup`, lib/crypto.c:64-73. -/
def hashSetup (h : Hooks) (i u f r : Option Nat) : Hooks := { h with init := i, update := u, final := f, free := r }

/-- `bpak_crypto_setup`, lib/crypto.c:129-141. -/
def cryptoSetup (h : Hooks) (v s pu pr pa : Option Nat) : Hooks :=
  { h with verify := v, sign := s, loadPublic := pu, loadPrivate := pr, parsePublic := pa }

/-- A call through a pointer that is checked first: the pattern of lib/crypto.c:31-55 and 75-127. -/
def callHook (slot : Option Nat) (c : HCall) : K Ans := fun o l =>
  match slot with
  | none => (⟨.notSupported, [], ⟨0, 0, []⟩, false⟩, l)
  | some f => (o l f c, l ++ [⟨f, c, o l f c⟩])

/-- `bpak_hash_init`, lib/crypto.c:31-39. -/
def hashInit (hk : Hooks) (kind : U8) : K Err := do
  let a ← callHook hk.init (.init kind)
  pure a.code

/-- `bpak_hash_update`, lib/crypto.c:41-47. -/
def hashUpdate (hk : Hooks) (d : Bytes) : K Err := do
  let a ← callHook hk.update (.update d)
  pure a.code

/-- `bpak_hash_final`, lib/crypto.c:49-55, into a buffer of 64 bytes: the code, the buffer, and `*result_length`, which was
64. A function that fails may have written to the buffer. -/
def hashFinal (hk : Hooks) (buf : Bytes) : K (Err × Bytes × Nat) := do
  let a ← callHook hk.final (.final 64)
  let d := a.data.take 64
  pure (a.code, d ++ buf.drop d.length, if a.code = .ok then d.length else 64)

/-- `bpak_hash_free`, lib/crypto.c:57-61. -/
def hashFree (hk : Hooks) : K Unit :=
  match hk.free with
  | none => pure ()
  | some _ => do
    let _ ← callHook hk.free .free
    pure ()

/-- Updates one after the other, until one fails. (lib/verify.c:32-48) -/
def updates (hk : Hooks) : List Bytes → K Err
  | [] => pure .ok
  | d :: ds => do
    let e ← hashUpdate hk d
    if e = .ok then updates hk ds else pure e

/-- `bpak_verify_compute_header_hash`, lib/verify.c:20-59: after the label the function returns `BPAK_OK` whatever `rc` is. -/
def headerHash (hk : Hooks) (h : Header) (junk : Bytes) : K (Err × Bytes × Nat) := do
  let e ← hashInit hk h.hashKind
  if e = .ok then do
    let e ← updates hk (h.image.take (4096 - 512 - 2) :: List.replicate (512 + 2) [0])
    if e = .ok then do
      let r ← hashFinal hk junk
      hashFree hk
      pure (.ok, r.2)
    else do
      hashFree hk
      pure (.ok, junk, 64)
  else pure (e, junk, 64)

/-- The `do ... while` loop of `bpak_verify_compute_payload_hash`, lib/verify.c:88-106. -/
def payloadRead (hk : Hooks) (rd : Reader) (off : U64) (n : Nat) : K (Except Err U64) := fun o l =>
  match rd off.toNat (min n 4096) with
  | .error _ => (.error .readError, l)
  | .ok x =>
    if x.length ≠ min n 4096 then (.error .readError, l)
    else
      let r := hashUpdate hk x o l
      if r.1 ≠ .ok then (.error r.1, r.2)
      else if h : n - min n 4096 = 0 then (.ok (off + BitVec.ofNat 64 (min n 4096)), r.2)
      else payloadRead hk rd (off + BitVec.ofNat 64 (min n 4096)) (n - min n 4096) o r.2
  termination_by n
  decreasing_by omega

/-- Part loop, lib/verify.c:76-107. -/
def payloadParts (hk : Hooks) (rd : Reader) : List PartHdr → U64 → K Err
  | [], _ => pure .ok
  | p :: ps, off =>
    if p.id = 0 then payloadParts hk rd ps off
    else if p.isExcluded then payloadParts hk rd ps (off + partSize p)
    else do
      let r ← payloadRead hk rd off (partSize p).toNat
      match r with
      | .error e => pure e
      | .ok off => payloadParts hk rd ps off

/-- `bpak_verify_compute_payload_hash`, lib/verify.c:61-117, into a buffer of 64 bytes. -/
def payloadHash (hk : Hooks) (h : Header) (rd : Reader) (dataOff : U64) (buf : Bytes) : K (Err × Bytes × Nat) := do
  let e ← hashInit hk h.hashKind
  if e = .ok then do
    let e ← payloadParts hk rd h.parts dataOff
    if e = .ok then do
      let r ← hashFinal hk buf
      hashFree hk
      pure r
    else do
      hashFree hk
      pure (e, buf, 64)
  else pure (e, buf, 64)

/-- `bpak_verify_payload`, lib/verify.c:233-324; the loop over the hash trees is one call. -/
def verifyPayload (hk : Hooks) (h : Header) (rd : Reader) (dataOff : U64) (junk : Bytes) : K Err := do
  let r ← payloadHash hk h rd dataOff junk
  if r.1 = .ok then
    if r.2.1.take r.2.2 = h.payloadHash.take r.2.2 then do
      let a ← callHook (some 0) .trees
      pure a.code
    else pure .badPayloadHash
  else pure r.1

/-- `bpak_pkg_verify`, lib/pkg_verify.c:36-77; `junk` and `junk2`: the memory of its own buffer and of the one of
`bpak_verify_payload`. -/
def pkgVerify (hk : Hooks) (key : Key) (p : Pkg) (junk junk2 : Bytes) : K Err := do
  let r ← headerHash hk p.hdr junk
  if r.1 = .ok then do
    let a ← callHook hk.verify
      (.verify (p.hdr.signature.take p.hdr.signatureSz.toNat) (r.2.1.take r.2.2) p.hdr.hashKind key)
    if a.code = .ok then
      if a.flag = true then verifyPayload hk p.hdr (pkgReader p.file) 4096 junk2
      else pure .verifyFail
    else pure a.code
  else pure r.1

/-- `bpak_pkg_update_hash`, lib/pkg.c:115-141, with an output buffer. -/
def updateHash (hk : Hooks) (p : Pkg) (junk : Bytes) : K (Err × Pkg × Bytes × Nat) := do
  let r ← payloadHash hk p.hdr (pkgReader p.file) 4096 p.hdr.payloadHash
  let p : Pkg := { p with hdr := { p.hdr with payloadHash := r.2.1 } }
  if r.1 = .ok then do
    let q ← headerHash hk p.hdr junk
    pure (q.1, p, q.2)
  else pure (r.1, p, junk, 64)

/-- lib/pkg_sign.c:40-58: the signature, and the header that is written. -/
def signWith (hk : Hooks) (key : Key) (hash : Bytes) (p : Pkg) : K (Err × Pkg) := do
  let a ← callHook hk.sign (.sign hash p.hdr.hashKind key 512)
  let sig := a.data.take 512
  let p : Pkg := { p with hdr := { p.hdr with signature := sig ++ List.replicate (512 - sig.length) 0 } }
  if a.code = .ok then pure (.ok, writeHeader { p with hdr := { p.hdr with signatureSz := BitVec.ofNat 16 sig.length } })
  else pure (a.code, p)

/-- `bpak_pkg_sign`, lib/pkg_sign.c:20-63. -/
def pkgSign (hk : Hooks) (name : Bytes) (p : Pkg) (junk : Bytes) : K (Err × Pkg) := do
  let r ← updateHash hk p junk
  if r.1 = .ok then do
    let k ← callHook hk.loadPrivate (.loadPrivate name)
    if k.code = .ok then signWith hk k.key (r.2.2.1.take r.2.2.2) r.2.1
    else pure (k.code, r.2.1)
  else pure (r.1, r.2.1)

end Bpak.Hk
