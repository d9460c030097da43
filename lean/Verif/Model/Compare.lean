import Verif.Model.Pkg
import Verif.Model.Show
/-!
src/compare.c: `bpak compare`. Modelled: which row gets which mark, the code returned, and accesses outside the objects.
The text of the rows beyond the mark is not (but the 64-byte buffer for a metadata entry's text is).
-/
namespace Bpak

/-- The marks `=`, `+`, `-`, `*` of a row. (src/compare.c:118-121) -/
inductive Mark where
  | same | added | removed | changed
  deriving DecidableEq, Repr

/-- `bpak_meta_to_string` into `string_output[64]`, src/compare.c:176, 202: reads and writes stay inside. -/
def textFits (h : Header) (m : MetaHdr) : Bool :=
  match metaToString h m 64 with
  | .ub => false
  | .ret (_, out) => decide (out.length ≤ 64)

/-- First metadata loop, src/compare.c:140-183. After a failed lookup `meta` is NULL and is dereferenced (line 156);
`memcmp` compares as many bytes as the entry in file 1 has. -/
def cmpMetas1 (h1 h2 : Header) : List MetaHdr → Out (List (Mark × MetaHdr))
  | [] => .ret []
  | m :: ms =>
    if m.id = 0 then cmpMetas1 h1 h2 ms
    else match getMeta h2 m.id m.partRef with
      | none => .ub
      | some i => match h2.metas[i]? with
        | none => .ub
        | some m2 =>
          match readAt h1.metadata m.offset.toNat m.size.toNat, readAt h2.metadata m2.offset.toNat m.size.toNat with
          | some a, some b =>
            if textFits h1 m = false then .ub
            else match cmpMetas1 h1 h2 ms with
              | .ub => .ub
              | .ret r => .ret ((if a ≠ b then .changed else .same, m) :: r)
          | _, _ => .ub

/-- Second metadata loop, src/compare.c:186-210. -/
def cmpMetas2 (h1 h2 : Header) : List MetaHdr → Out (List (Mark × MetaHdr))
  | [] => .ret []
  | m :: ms =>
    if m.id = 0 then cmpMetas2 h1 h2 ms
    else match getMeta h1 m.id m.partRef with
      | some _ => cmpMetas2 h1 h2 ms
      | none =>
        if textFits h2 m = false then .ub
        else match cmpMetas2 h1 h2 ms with
          | .ub => .ub
          | .ret r => .ret ((.added, m) :: r)

/-- Comparison of the data of two parts in pieces of 4096, src/compare.c:253-275: `true` if they differ. -/
def cmpData (f1 : Bytes) (o1 : Nat) (f2 : Bytes) (o2 : Nat) (n : Nat) : Except Err Bool :=
  if h : n = 0 then .ok false
  else if (fileRead f1 o1 (min n 4096)).length ≠ min n 4096 then .error .readError
  else if (fileRead f2 o2 (min n 4096)).length ≠ min n 4096 then .error .readError
  else if fileRead f1 o1 (min n 4096) ≠ fileRead f2 o2 (min n 4096) then .ok true
  else cmpData f1 (o1 + min n 4096) f2 (o2 + min n 4096) (n - min n 4096)
  termination_by n
  decreasing_by omega

/-- First part loop, src/compare.c:222-312: rows, and the code at its end (`rc` on entry for an empty table);
the flag says that the function ends here (failed read). -/
def cmpParts1 (h1 h2 : Header) (f1 f2 : Bytes) : Err → List PartHdr → List (Mark × PartHdr) × Err × Bool
  | rc, [] => ([], rc, false)
  | rc, p :: ps =>
    if p.id = 0 then cmpParts1 h1 h2 f1 f2 rc ps
    else match getPart h2 p.id with
      | none => ((.removed, p) :: (cmpParts1 h1 h2 f1 f2 .notFound ps).1, (cmpParts1 h1 h2 f1 f2 .notFound ps).2)
      | some j =>
        let p2 := h2.parts.getD j PartHdr.zero
        if 2^63 ≤ (partOffset h1 p).toNat then ([], .seekError, false)
        else if 2^63 ≤ (partOffset h2 p2).toNat then ([], .seekError, false)
        else match cmpData f1 (partOffset h1 p).toNat f2 (partOffset h2 p2).toNat (partSize p).toNat with
          | .error e => ([], e, true)
          | .ok d =>
            ((if p2 ≠ p ∨ d = true then .changed else .same, p) :: (cmpParts1 h1 h2 f1 f2 .ok ps).1, (cmpParts1 h1 h2 f1 f2 .ok ps).2)

/-- Second part loop, src/compare.c:315-348: rows (marked `-`) and code. -/
def cmpParts2 (h1 : Header) : Err → List PartHdr → List (Mark × PartHdr) × Err
  | rc, [] => ([], rc)
  | rc, p :: ps =>
    if p.id = 0 then cmpParts2 h1 rc ps
    else match getPart h1 p.id with
      | some _ => cmpParts2 h1 .ok ps
      | none => ((.removed, p) :: (cmpParts2 h1 .notFound ps).1, (cmpParts2 h1 .notFound ps).2)

/-- `rc` after the two metadata loops: that of the last lookup, src/compare.c:151, 197. -/
def cmpMetaRc (h1 h2 : Header) : Err :=
  match (h2.metas.filter (fun m => m.id ≠ 0)).getLast? with
  | none => .ok
  | some m => if (getMeta h1 m.id m.partRef).isSome then .ok else .notFound

/-- What `bpak compare` reports: code, metadata rows, part rows. (src/compare.c:75-355) -/
structure Comparison where
  rc : Err
  metas : List (Mark × MetaHdr) := []
  parts : List (Mark × PartHdr) := []
  deriving DecidableEq, Repr

/-- src/compare.c:104-354, with both headers read and valid. -/
def compareOpen (h1 h2 : Header) (f1 f2 : Bytes) : Out Comparison :=
  match cmpMetas1 h1 h2 h1.metas with
  | .ub => .ub
  | .ret r1 => match cmpMetas2 h1 h2 h2.metas with
    | .ub => .ub
    | .ret r2 =>
      let a := cmpParts1 h1 h2 f1 f2 (cmpMetaRc h1 h2) h1.parts
      if a.2.2 then .ret ⟨a.2.1, r1 ++ r2, a.1⟩
      else .ret ⟨(cmpParts2 h1 a.2.1 h2.parts).2, r1 ++ r2, a.1 ++ (cmpParts2 h1 a.2.1 h2.parts).1⟩

/-- `action_compare`, src/compare.c:75-355, for two existing files. -/
def compareFiles (f1 f2 : Bytes) : Out Comparison :=
  if f1.length < 4096 then .ret { rc := .readError }
  else if f2.length < 4096 then .ret { rc := .readError }
  else if validHeader (parseHeader (f1.take 4096)) ≠ .ok then .ret { rc := validHeader (parseHeader (f1.take 4096)) }
  else if validHeader (parseHeader (f2.take 4096)) ≠ .ok then .ret { rc := validHeader (parseHeader (f2.take 4096)) }
  else compareOpen (parseHeader (f1.take 4096)) (parseHeader (f2.take 4096)) f1 f2

end Bpak
