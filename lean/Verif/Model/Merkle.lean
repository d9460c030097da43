import Verif.Model.File
import Verif.Model.Hash
/-!
lib/merkle.c. The tree is read and written through callbacks; the model is generic in them (`MIo`), so
the same definitions serve for building a tree (callbacks on a file or buffer) and for checking one
(the "write" callback compares, lib/verify.c:125-161).
-/
namespace Bpak

/-- `pad_bytes = (~level_length + 1) & (BPAK_MERKLE_BLOCK_SZ - 1)`, lib/merkle.c:27, 73, on `size_t`. -/
def merklePad (x : Nat) : Nat := ((~~~(BitVec.ofNat 64 x) + 1) &&& 4095).toNat

/-- Length of the level above one of length `l`, lib/merkle.c:26-28, 72-74. -/
def merkleLevelUp (l : Nat) : Nat := l / 4096 * 32 + merklePad (l / 4096 * 32)

/-- Loop of `bpak_merkle_compute_size`, lib/merkle.c:25-35. The first argument bounds the number of
iterations: the fifth one ends in the error return. -/
def merkleSizeGo : Nat → Nat → Nat → Nat → Except Err Nat
  | 0, _, _, _ => .error .noSpaceLeft
  | k+1, level, len, result =>
    let len := merkleLevelUp len
    let result := result + len
    let level := level + 1
    if level > 4 then .error .noSpaceLeft
    else if len ≠ 4096 then merkleSizeGo k level len result
    else .ok result

/-- `bpak_merkle_compute_size`, lib/merkle.c:15-38. -/
def merkleComputeSize (n : Nat) : Except Err Nat :=
  if n % 4096 ≠ 0 then .error .badAlignment else merkleSizeGo 5 0 n 0

/-- Level loop of `bpak_merkle_init`, lib/merkle.c:71-83: the level lengths, lowest level first. -/
def merkleLevelsGo : Nat → Nat → Nat → List Nat → Except Err (List Nat)
  | 0, _, _, _ => .error .noSpaceLeft
  | k+1, level, len, acc =>
    let len := merkleLevelUp len
    let acc := acc ++ [len]
    let level := level + 1
    if level ≥ 4 then .error .noSpaceLeft
    else if len ≠ 4096 then merkleLevelsGo k level len acc
    else .ok acc

/-- Offset loop, lib/merkle.c:88-98: the lowest level is last in the tree. -/
def merkleOffsetsGo : List Nat → Nat → List Nat
  | [], _ => []
  | l :: ls, off => (off - l) :: merkleOffsetsGo ls (off - l)

/-- `bpak_io_t` callbacks on some store `σ`: `wr` returns the new store, or the code of a failed or
short write; `rd` the bytes, or the code of a failed read. (include/bpak/bpak.h:191-192) -/
structure MIo (σ : Type) where
  wr : σ → Nat → Bytes → Except Err σ
  rd : σ → Nat → Nat → Except Err Bytes

/-- `struct bpak_merkle_context`, include/bpak/merkle.h:37-55. `running` is everything fed to the
running hash. -/
structure Merkle where
  inputLen : Nat
  salt : Bytes
  levelLen : List Nat
  levelOff : List Nat
  treeLen : Nat
  offset : Nat
  chunkCounter : Nat
  blockCounter : Nat
  running : HashCtx
  buffer : Bytes
  finished : Bool
  deriving DecidableEq, Repr

/-- Zero fill loop, lib/merkle.c:101-117: 32 zero bytes at a time. (The tree length is a multiple of
32, so the unsigned counter does not wrap; proved.) -/
def merkleZeroFill {σ : Type} (io : MIo σ) (s : σ) (off n : Nat) : Except Err σ :=
  if h : n = 0 then .ok s
  else match io.wr s off (List.replicate 32 0) with
    | .error e => .error e
    | .ok s => merkleZeroFill io s (off + 32) (n - 32)
  termination_by n
  decreasing_by omega

/-- `bpak_merkle_init`, lib/merkle.c:40-120. -/
def merkleInit {σ : Type} (io : MIo σ) (s : σ) (inputLen : Nat) (salt : Bytes) (offset : Nat) (zeroFill : Bool) :
    Except Err (Merkle × σ) :=
  if inputLen % 4096 ≠ 0 then .error .badAlignment
  else if salt.length > 32 then .error .noSpaceLeft
  else match merkleLevelsGo 4 0 inputLen [] with
    | .error e => .error e
    | .ok ls =>
      let m : Merkle := ⟨inputLen, salt, ls, merkleOffsetsGo ls ls.sum, ls.sum, offset, 0, 4096, ⟨hashSha256, []⟩, List.replicate 32 0, false⟩
      if zeroFill then
        match merkleZeroFill io s offset ls.sum with
        | .error e => .error e
        | .ok s => .ok (m, s)
      else .ok (m, s)

/-- Loop of `bpak_merkle_write_chunk`, lib/merkle.c:135-191. Every pass consumes at least one byte, so
the number of passes is at most the number of bytes (the branch for an exhausted bound is not reached;
proved). The hash layer cannot fail for SHA-256 and a 32-byte result. -/
def merkleWriteGo {σ : Type} (H : HashFn) (io : MIo σ) : Nat → Merkle → σ → Bytes → Except Err (Merkle × σ)
  | 0, m, s, d => if d = [] then .ok (m, s) else .error .failed
  | k+1, m, s, d =>
    if d = [] then .ok (m, s) else
    let m := if m.blockCounter = 4096 then { m with running := hashUpdate ⟨hashSha256, []⟩ m.salt } else m
    let n := min m.blockCounter d.length
    let m := { m with running := hashUpdate m.running (d.take n), blockCounter := m.blockCounter - n }
    if m.blockCounter = 0 then
      let m := { m with blockCounter := 4096, buffer := H m.running.kind m.running.fed }
      match io.wr s (m.offset + (m.chunkCounter + m.levelOff.getD 0 0)) m.buffer with
      | .error e => .error e
      | .ok s =>
        let m := { m with chunkCounter := m.chunkCounter + 32 }
        if m.inputLen = 4096 then .ok ({ m with finished := true }, s)
        else merkleWriteGo H io k m s (d.drop n)
    else merkleWriteGo H io k m s (d.drop n)

/-- `bpak_merkle_write_chunk`, lib/merkle.c:127-197. -/
def merkleWriteChunk {σ : Type} (H : HashFn) (io : MIo σ) (m : Merkle) (s : σ) (d : Bytes) : Except Err (Merkle × σ) :=
  merkleWriteGo H io d.length m s d

/-- Successive calls by a caller that stops at the first error. (e.g. lib/pkg_create.c:101-115) -/
def merkleWriteAll {σ : Type} (H : HashFn) (io : MIo σ) (m : Merkle) (s : σ) : List Bytes → Except Err (Merkle × σ)
  | [] => .ok (m, s)
  | d :: ds => match merkleWriteChunk H io m s d with
    | .error e => .error e
    | .ok (m, s) => merkleWriteAll H io m s ds

/-- Read `k` pieces of 32 bytes and feed them to the hash, lib/merkle.c:236-262 (and 296-318, where
the top level is 4096 bytes as well). -/
def merkleFeed {σ : Type} (io : MIo σ) (s : σ) : Nat → Nat → HashCtx → Except Err HashCtx
  | 0, _, c => .ok c
  | k+1, off, c =>
    match io.rd s off 32 with
    | .error e => .error e
    | .ok b => if b.length ≠ 32 then .error .readError else merkleFeed io s k (off + 32) (hashUpdate c b)

/-- Block loop for one level, lib/merkle.c:221-287. -/
def merkleLevelGo {σ : Type} (H : HashFn) (io : MIo σ) (m : Merkle) : Nat → σ → Nat → Nat → Except Err σ
  | 0, s, _, _ => .ok s
  | k+1, s, inOff, outOff =>
    match merkleFeed io s 128 (m.offset + inOff) (hashUpdate ⟨hashSha256, []⟩ m.salt) with
    | .error e => .error e
    | .ok c =>
      match io.wr s (m.offset + outOff) (H c.kind c.fed) with
      | .error e => .error e
      | .ok s => merkleLevelGo H io m k s (inOff + 4096) (outOff + 32)

/-- Level loop, lib/merkle.c:216-288, over the remaining (length, offset) pairs; the head is level
`i - 1`. -/
def merkleLevelsUp {σ : Type} (H : HashFn) (io : MIo σ) (m : Merkle) : List (Nat × Nat) → σ → Except Err σ
  | (len, off) :: (len', off') :: rest, s =>
    match merkleLevelGo H io m (len / 4096) s off off' with
    | .error e => .error e
    | .ok s => merkleLevelsUp H io m ((len', off') :: rest) s
  | _, s => .ok s

/-- `bpak_merkle_finish`, lib/merkle.c:199-326. Result: the root hash. -/
def merkleFinish {σ : Type} (H : HashFn) (io : MIo σ) (m : Merkle) (s : σ) : Except Err (Bytes × σ) :=
  if m.finished then .ok (m.buffer, s)
  else match merkleLevelsUp H io m (m.levelLen.zip m.levelOff) s with
    | .error e => .error e
    | .ok s =>
      match merkleFeed io s ((m.levelLen.getLastD 0) / 32) (m.offset + m.levelOff.getLastD 0) (hashUpdate ⟨hashSha256, []⟩ m.salt) with
      | .error e => .error e
      | .ok c => .ok (H c.kind c.fed, s)

/-- Callbacks on a file (or a buffer), as in lib/pkg_create.c:24-37 and the transport decoder's
`write_output`/`read_output`: a read past the end is short. -/
def fileIo : MIo Bytes where
  wr := fun f off b => .ok (fileWrite f off b)
  rd := fun f off n => .ok (fileRead f off n)

/-- A payload reader (`bpak_io_t read_payload`): an error code, or the bytes that arrived. (include/bpak/bpak.h:191-192) -/
abbrev Reader := Nat → Nat → Except Err Bytes

/-- Loop of `merkle_verify_wr`, lib/verify.c:134-152: compare with what is stored, 32 bytes at a time. -/
def merkleVerifyWr (rd : Reader) (off : Nat) (b : Bytes) : Except Err Unit :=
  if h : b = [] then .ok ()
  else match rd off (b.take 32).length with
    | .error e => .error e
    | .ok x => if x.length ≠ (b.take 32).length then .error .readError
      else if b.take 32 ≠ x then .error .verifyFail
      else merkleVerifyWr rd (off + 32) (b.drop 32)
  termination_by b.length
  decreasing_by
    have := List.length_pos_iff.2 h
    simp; omega

/-- The callbacks used for checking, lib/verify.c:125-161. -/
def verifyIo (rd : Reader) : MIo Unit where
  wr := fun _ off b => merkleVerifyWr rd off b
  rd := fun _ off n => rd off n

/-- Data loop of `bpak_verify_merkle_tree`, lib/verify.c:195-214. -/
def verifyFeed (H : HashFn) (rd : Reader) (m : Merkle) (off n : Nat) : Except Err Merkle :=
  if h : n = 0 then .ok m
  else match rd off (min n 4096) with
    | .error e => .error e
    | .ok x => if x.length ≠ min n 4096 then .error .readError
      else match merkleWriteChunk H (verifyIo rd) m () x with
        | .error e => .error e
        | .ok (m, _) => verifyFeed H rd m (off + min n 4096) (n - min n 4096)
  termination_by n
  decreasing_by omega

/-- `bpak_verify_merkle_tree`, lib/verify.c:163-230. -/
def verifyMerkleTree (H : HashFn) (rd : Reader) (dataOff dataLen treeOff : Nat) (root salt : Bytes) : Err :=
  match merkleInit (verifyIo rd) () dataLen salt treeOff false with
  | .error e => e
  | .ok (m, _) =>
    match verifyFeed H rd m dataOff dataLen with
    | .error e => e
    | .ok m =>
      match merkleFinish H (verifyIo rd) m () with
      | .error e => e
      | .ok (r, _) => if r ≠ root then .badRootHash else .ok

end Bpak
