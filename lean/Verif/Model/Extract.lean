import Verif.Model.Disk
import Verif.Model.Cli
/-!
`bpak_pkg_extract_file` and `bpak extract` when the file that is written to cannot be created, or is on a disk that can be full. The
stream of the output is a `Disk` whose package is not used (the header in it is never written); reads are as in Model/Pkg.lean.
-/
namespace Bpak

/-- A stream that was just opened with `fopen(name, "w+b")`, src/extract.c:122, lib/pkg.c:436. -/
def freshStream (luck : List Luck) : Disk := ⟨⟨initHeader, [], []⟩, luck, false⟩

/-- Copy loop of `bpak_pkg_extract_file`, lib/pkg.c:452-472, with the result of `fwrite`. -/
def extractLoopD (f : Bytes) (off n : Nat) (w : Disk) : Err × Disk :=
  if h : n = 0 then (.ok, w)
  else if (fileRead f off (min n 4096)).length ≠ min n 4096 then (.readError, w)
  else
    let r := w.fwrite w.pkg.file.length (fileRead f off (min n 4096))
    if r.1 = true then extractLoopD f (off + min n 4096) (n - min n 4096) r.2
    else (.writeError, r.2)
  termination_by n
  decreasing_by omega

/-- `bpak_pkg_extract_file`, lib/pkg.c:413-480; the result of `fclose` is ignored. The second component is the output file after
`fclose`, `none` if there is none. -/
def extractFileD (p : Pkg) (id : U32) (canCreate : Bool) (luck : List Luck) : Err × Option Bytes :=
  match getPart p.hdr id with
  | none => (.notFound, none)
  | some i =>
    match p.hdr.parts[i]? with
    | none => (.notFound, none)
    | some q =>
      if 2^63 ≤ (partOffset p.hdr q).toNat then (.seekError, none)
      else if canCreate = false then (.writeError, none)
      else
        let r := extractLoopD p.file (partOffset p.hdr q).toNat (partSize q - q.padBytes.setWidth 64).toNat (freshStream luck)
        (r.1, some r.2.pkg.file)

/-- `action_extract`, src/extract.c:52-157, as `extractCmd`, with the output as above. -/
def extractCmdD (H : HashFn) (f : Bytes) (part metaName ref : Option Bytes) (canCreate : Bool) (luck : List Luck) : Out (Err × Option Bytes) :=
  let pid := (part.map idForNameOrRef).getD 0
  let mid := (metaName.map idForNameOrRef).getD 0
  let rid := (ref.map idForNameOrRef).getD 0
  if (decide (mid ≠ 0)) == (decide (pid ≠ 0)) then .ret (.failed, none)
  else
    let r := pkgOpen H true f
    if r.1 ≠ .ok then .ret (r.1, none)
    else if mid ≠ 0 then
      match getMeta r.2.hdr mid rid with
      | none => .ret (.notFound, none)
      | some i => match r.2.hdr.metas[i]? with
        | none => .ub
        | some m =>
          if canCreate = false then .ret (.failed, none)
          else match readAt r.2.hdr.metadata m.offset.toNat m.size.toNat with
            | none => .ub
            | some d =>
              let w := (freshStream luck).fwrite 0 d
              .ret (if w.1 = true then .ok else .writeError, some w.2.pkg.file)
    else .ret (extractFileD r.2 pid canCreate luck)

end Bpak
