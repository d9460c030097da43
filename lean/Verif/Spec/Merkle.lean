import Verif.Model.Merkle
/-!
What a salted hash tree is, independently of how lib/merkle.c computes it.
-/
namespace Bpak

/-- The whole 4096-byte blocks of a byte string. -/
def blocksOf (b : Bytes) : List Bytes := (List.range (b.length / 4096)).map (fun i => (b.drop (4096 * i)).take 4096)

/-- The salted hashes of the blocks, one after the other. -/
def blockHashes (H : HashFn) (salt data : Bytes) : Bytes := ((blocksOf data).map (fun b => H hashSha256 (salt ++ b))).flatten

/-- Fill up with zero bytes to a multiple of 4096. -/
def padBlock (b : Bytes) : Bytes := b ++ List.replicate ((4096 - b.length % 4096) % 4096) 0

/-- The tree level above `data`. -/
def levelAbove (H : HashFn) (salt data : Bytes) : Bytes := padBlock (blockHashes H salt data)

/-- The `k` levels above `data`, lowest first. -/
def treeLevels (H : HashFn) (salt : Bytes) : Nat → Bytes → List Bytes
  | 0, _ => []
  | k+1, data => levelAbove H salt data :: treeLevels H salt k (levelAbove H salt data)

/-- Number of levels until a single block is left, for `nb` data blocks (128 hashes fill a block). -/
def levelCount (nb : Nat) : Nat := if nb ≤ 128 then 1 else if nb ≤ 128^2 then 2 else 3

/-- The data lengths the tree builder supports: a positive number of blocks, up to 128^3 (8 GiB). -/
def TreeSupported (n : Nat) : Prop := n % 4096 = 0 ∧ 0 < n ∧ n / 4096 ≤ 128^3

/-- The tree as stored: top level first, the level directly above the data last. -/
def hashTree (H : HashFn) (salt data : Bytes) : Bytes := (treeLevels H salt (levelCount (data.length / 4096)) data).reverse.flatten

/-- The root hash: of the single data block if there is just one, else of the top level. -/
def treeRoot (H : HashFn) (salt data : Bytes) : Bytes :=
  if data.length = 4096 then H hashSha256 (salt ++ data)
  else H hashSha256 (salt ++ (treeLevels H salt (levelCount (data.length / 4096)) data).getLastD [])

/-- Size in bytes of the tree over `nb` blocks: each level is rounded up to whole blocks; levels are added
until one block is left. For at most 128^4 blocks. -/
def treeSize (nb : Nat) : Nat :=
  4096 * ((nb + 127) / 128
    + (if nb > 128 then (nb + 128^2 - 1) / 128^2 else 0)
    + (if nb > 128^2 then (nb + 128^3 - 1) / 128^3 else 0)
    + (if nb > 128^3 then 1 else 0))

/-- Build a tree at offset `off` of file `f` from data delivered in chunks: init with zero fill, one call
per chunk, finish (lib/pkg_create.c:83-113, lib/transport_decode.c:68-127). Result: root hash and file. -/
def merkleBuild (H : HashFn) (f : Bytes) (off : Nat) (salt : Bytes) (n : Nat) (chunks : List Bytes) : Except Err (Bytes × Bytes) :=
  match merkleInit fileIo f n salt off true with
  | .error e => .error e
  | .ok (m, f) =>
    match merkleWriteAll H fileIo m f chunks with
    | .error e => .error e
    | .ok (m, f) => merkleFinish H fileIo m f

/-- A reader for the payload bytes `P` (lib/pkg_verify.c:13-25: seek and read; short at the end). -/
def payloadReader (P : Bytes) : Reader := fun off n => .ok (fileRead P off n)

/-- The stored bytes of the `k` levels above data of length `n`, lowest first, of a tree stored at `off`:
each level lies after all the levels above it. -/
def storedLevels (P : Bytes) (off : Nat) : Nat → Nat → List Bytes
  | 0, _ => []
  | k+1, n =>
    let l := 4096 * ((n / 4096 + 127) / 128)
    fileRead P (off + 4096 * upperBlocks k (l / 4096)) l :: storedLevels P off k l
where
  /-- blocks in the `k` levels above `nb` blocks -/
  upperBlocks : Nat → Nat → Nat
    | 0, _ => 0
    | k+1, nb => (nb + 127) / 128 + upperBlocks k ((nb + 127) / 128)

/-- The stored levels hold the hashes of the data below them (bytes after the hashes are free). -/
def HoldHashes (H : HashFn) (salt : Bytes) : Bytes → List Bytes → Prop
  | _, [] => True
  | below, l :: ls => blockHashes H salt below <+: l ∧ HoldHashes H salt l ls

end Bpak
