import Verif.Model.Disk
import Verif.Spec.Pkg
/-!
What a failing disk may do to a package.
-/
namespace Bpak

/-- Every write error is reported by the write itself. -/
def Prompt (l : List Luck) : Prop := ∀ m, Luck.late m ∉ l

/-- The call on a disk that can be full, against the same call on a disk with room: `p0` is the package before, `base` the result with room, `res` the result on
this disk. Success is reported only if the call succeeds on a disk with room, and then nothing is missing; if an error is reported then the file is one that a crash during the call with
room could have left. -/
def NoSilentLoss (p0 : Pkg) (base : Err × Pkg) (res : Err × Disk) : Prop :=
  ∃ ops, base.2.log = p0.log ++ ops ∧ base.2.file = applyOps p0.file ops ∧
    (res.1 = .ok → base.1 = .ok ∧ res.2.pkg = base.2 ∧ res.2.pending = false) ∧
    (res.1 ≠ .ok → CrashState p0.file ops res.2.pkg.file)

/-- The same if errors can be noticed late: then success may be reported although a last piece of the header is not in the file. The header in memory is right. -/
def OnlyHeaderLost (p0 : Pkg) (base : Err × Pkg) (res : Err × Disk) : Prop :=
  ∃ ops, base.2.log = p0.log ++ ops ∧ base.2.file = applyOps p0.file ops ∧
    (res.1 = .ok → base.1 = .ok ∧ res.2.pkg.hdr = base.2.hdr ∧
      (res.2.pkg = base.2 ∨
       ∃ pre post m, ops = pre ++ .write 0 base.2.hdr.image :: post ∧ m < base.2.hdr.image.length ∧
         res.2.pkg.file = applyOps p0.file (pre ++ .write 0 (base.2.hdr.image.take m) :: post))) ∧
    (res.1 ≠ .ok → CrashState p0.file ops res.2.pkg.file)

/-- A call that writes to a package; `edit` stands for changes through the header API followed by `bpak_pkg_write_header`. -/
inductive WCall (SK : Type) where
  | addFile (id : U32) (flags : U8) (statSize : Nat) (src : Bytes)
  | addTree (id : U32) (flags : U8) (d salt : Bytes)
  | addKey (id : U32) (flags : U8) (key : Except Err Bytes)
  | delete (id : U32) (removeMeta : Bool)
  | deleteAll (removeMeta : Bool)
  | edit (change : Header → Header)
  | rawSignature (sig : Bytes)
  | sign (key : Except Err SK) (rnd : Bytes)

/-- A key that cannot be loaded is reported with an error code. -/
def WCall.sane {SK : Type} : WCall SK → Prop
  | .addKey _ _ key => key ≠ .error .ok
  | .sign key _ => key ≠ .error .ok
  | _ => True

/-- The call on a disk with room. -/
def WCall.room {SK PK : Type} (H : HashFn) (S : SigScheme SK PK) (fuel : Nat) (p : Pkg) : WCall SK → Option (Out (Err × Pkg))
  | .addFile id flags n src => (Bpak.addFile H fuel p id flags n src).map .ret
  | .addTree id flags d salt => addFileWithMerkle H fuel p id flags d salt
  | .addKey id flags key => some (Bpak.addKey H p id flags key)
  | .delete id rm => deletePart H fuel p id rm
  | .deleteAll rm => deleteAllParts H fuel p rm
  | .edit change => some (.ret (.ok, writeHeader { p with hdr := change p.hdr }))
  | .rawSignature sig => some (writeRawSignature p sig)
  | .sign key rnd => some (.ret (pkgSign H S rnd key p))

/-- The same call on a disk that can be full. -/
def WCall.disk {SK PK : Type} (H : HashFn) (S : SigScheme SK PK) (fuel : Nat) (w : Disk) : WCall SK → Option (Out (Err × Disk))
  | .addFile id flags n src => (addFileD H fuel w id flags n src).map .ret
  | .addTree id flags d salt => addFileWithMerkleD H fuel w id flags d salt
  | .addKey id flags key => some (addKeyD H w id flags key)
  | .delete id rm => deletePartD H fuel w id rm
  | .deleteAll rm => deleteAllPartsD H fuel w rm
  | .edit change => some (.ret (writeHeaderD { w with pkg := { w.pkg with hdr := change w.pkg.hdr } }))
  | .rawSignature sig => some (writeRawSignatureD w sig)
  | .sign key rnd => some (.ret (pkgSignD H S rnd key w))

/-- All the calls succeed, one after the other, on a disk with room: the package then. -/
def allOkRoom {SK PK : Type} (H : HashFn) (S : SigScheme SK PK) (fuel : Nat) (p : Pkg) : List (WCall SK) → Option Pkg
  | [] => some p
  | c :: cs => match c.room H S fuel p with
    | some (.ret (.ok, p)) => allOkRoom H S fuel p cs
    | _ => none

/-- All the calls report success on a disk that can be full. -/
def allOkDisk {SK PK : Type} (H : HashFn) (S : SigScheme SK PK) (fuel : Nat) (w : Disk) : List (WCall SK) → Option Disk
  | [] => some w
  | c :: cs => match c.disk H S fuel w with
    | some (.ret (.ok, w)) => allOkDisk H S fuel w cs
    | _ => none

end Bpak
