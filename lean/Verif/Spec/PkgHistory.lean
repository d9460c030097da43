import Verif.Spec.Pkg
import Verif.Model.Create
/-!
Histories of package calls, and what a user expects of them.
-/
namespace Bpak

/-- A call by an application that works on a package file. `header` stands for a change of metadata or key ids through
the header API (`step`) followed by `bpak_pkg_write_header`; `reopen` for closing and opening again; `create` for starting over with a
new package of the given hash and signature kinds (`bpak create`); `signRaw` for installing a signature made elsewhere. -/
inductive PkgOp (SK : Type) where
  | addFile (id : U32) (flags : U8) (d : Bytes)
  | deletePart (id : U32) (removeMeta : Bool)
  | deleteAll (removeMeta : Bool)
  | header (op : Op)
  | sign (sk : SK) (rnd : Bytes)
  | reopen
  | create (hashKind signatureKind : U8)
  | signRaw (sig : Bytes)

/-- Header calls that do not touch parts or the payload hash. -/
def Op.keepsParts : Op → Bool
  | .addMeta _ _ _ | .delMeta _ _ | .writeMeta _ _ _ | .setKeyId _ | .setKeystoreId _ => true
  | _ => false

/-- One successful call; `none` if the call reports an error, does not return, or breaks the contract (id 0,
transport flag, no room on the disk). The number of passes is enough for every loop that ends (C35, C36). -/
def pkgStep {SK PK : Type} (H : HashFn) (S : SigScheme SK PK) (p : Pkg) : PkgOp SK → Option Pkg
  | .addFile id flags d =>
    if id = 0 ∨ flags &&& 2 ≠ 0 ∨ 2^63 ≤ p.file.length + d.length + 512 then none
    else match addFile H (d.length + 2) p id flags d.length d with
      | some (.ok, p') => some p'
      | _ => none
  | .deletePart id rm =>
    if id = 0 then none
    else match deletePart H (p.file.length + 65) p id rm with
      | some (.ret (.ok, p')) => some p'
      | _ => none
  | .deleteAll rm =>
    match deleteAllParts H 65 p rm with
    | some (.ret (.ok, p')) => some p'
    | _ => none
  | .header op =>
    if op.keepsParts then
      match step p.hdr op with
      | some h => some (writeHeader { p with hdr := h })
      | none => none
    else none
  | .sign sk rnd =>
    match pkgSign H S rnd (.ok sk) p with
    | (.ok, p') => some p'
    | _ => none
  | .reopen =>
    match pkgOpen H true p.file with
    | (.ok, p') => some p'
    | _ => none
  | .create hk sk =>
    match pkgCreate H hk sk with
    | (.ok, p') => some p'
    | _ => none
  | .signRaw sig =>
    match writeRawSignature p sig with
    | .ret (.ok, p') => some p'
    | _ => none

/-- A whole history. -/
def pkgRun {SK PK : Type} (H : HashFn) (S : SigScheme SK PK) (p : Pkg) : List (PkgOp SK) → Option Pkg
  | [] => some p
  | op :: ops => match pkgStep H S p op with
    | none => none
    | some p' => pkgRun H S p' ops

/-- What a user expects to be in the package: files by part id, in order. -/
def expectStep {SK : Type} (s : List (U32 × Bytes)) : PkgOp SK → List (U32 × Bytes)
  | .addFile id _ d => s ++ [(id, d)]
  | .deletePart id _ => s.filter (fun c => c.1 ≠ id)
  | .deleteAll _ => []
  | .create _ _ => []
  | _ => s

def expect {SK : Type} (s : List (U32 × Bytes)) (ops : List (PkgOp SK)) : List (U32 × Bytes) := ops.foldl expectStep s

/-- The files in a package: each part's stored bytes without padding. -/
def files (p : Pkg) : List (U32 × Bytes) := (usedParts p.hdr).map (fun q => (q.id, (storedBytes p q).take q.size.toNat))

end Bpak
