import Verif.Spec.PkgHistory
import Verif.Spec.Merkle
/-!
Histories of a package being built, with hash trees.
-/
namespace Bpak

/-- A call of an application that builds a package: a call without hash trees, or
`bpak_pkg_add_file_with_merkle_tree` (the salt being what the random source delivers). -/
inductive BuildOp (SK : Type) where
  | plain (op : PkgOp SK)
  | tree (id : U32) (flags : U8) (d salt : Bytes)

/-- Calls that only build: nothing is deleted, and the application leaves the salt and root hash entries alone. -/
def BuildOp.builds {SK : Type} : BuildOp SK → Prop
  | .tree _ _ _ _ => True
  | .plain (.addFile _ _ _) => True
  | .plain (.header (.addMeta id _ _)) => id ≠ idMerkleSalt ∧ id ≠ idMerkleRootHash
  | .plain (.header (.writeMeta id _ _)) => id ≠ idMerkleSalt ∧ id ≠ idMerkleRootHash
  | .plain (.header (.setKeyId _)) => True
  | .plain (.header (.setKeystoreId _)) => True
  | .plain (.sign _ _) => True
  | .plain .reopen => True
  | .plain (.create _ _) => True
  | .plain (.signRaw _) => True
  | _ => False

/-- One successful call; `none` if the call reports an error, does not return, or breaks the contract. -/
def buildStep {SK PK : Type} (H : HashFn) (S : SigScheme SK PK) (p : Pkg) : BuildOp SK → Option Pkg
  | .plain op => pkgStep H S p op
  | .tree id flags d salt =>
    if id = 0 ∨ partIdToHashTreeId id = 0 ∨ flags &&& 2 ≠ 0 ∨ salt.length ≠ 32 ∨
        2^63 ≤ p.file.length + d.length + (hashTree H salt d).length + 512 then none
    else match addFileWithMerkle H (d.length + 2) p id flags d salt with
      | some (.ret (.ok, p')) => some p'
      | _ => none

/-- A whole history. -/
def buildRun {SK PK : Type} (H : HashFn) (S : SigScheme SK PK) (p : Pkg) : List (BuildOp SK) → Option Pkg
  | [] => some p
  | op :: ops => match buildStep H S p op with
    | none => none
    | some p' => buildRun H S p' ops

/-- What a user expects to be in the package: the files added, each tree right behind its file. -/
def buildExpectStep {SK : Type} (H : HashFn) (s : List (U32 × Bytes)) : BuildOp SK → List (U32 × Bytes)
  | .plain op => expectStep s op
  | .tree id _ d salt => s ++ [(id, d), (partIdToHashTreeId id, hashTree H salt d)]

def buildExpect {SK : Type} (H : HashFn) (s : List (U32 × Bytes)) (ops : List (BuildOp SK)) : List (U32 × Bytes) :=
  ops.foldl (buildExpectStep H) s

end Bpak
