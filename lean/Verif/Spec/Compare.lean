import Verif.Model.Compare
import Verif.Spec.PkgHistory
/-!
What the legend of `bpak compare` promises.
-/
namespace Bpak

/-- "`=` no difference, `*` exists in both but data differs, `-` exists in file 1 but not in file 2", then "`+` exists in
file 2 but not in file 1": for lists of keyed things, in order. -/
def legend {K V : Type} [DecidableEq K] [DecidableEq V] (xs ys : List (K × V)) : List (Mark × K) :=
  xs.map (fun x => (match ys.find? (fun y => y.1 = x.1) with
    | none => .removed
    | some y => if y.2 = x.2 then .same else .changed, x.1)) ++
  (ys.filter (fun y => xs.all (fun x => x.1 ≠ y.1))).map (fun y => (.added, y.1))

/-- Metadata as keyed contents. -/
def keyedEntries (h : Header) : List ((U32 × U32) × Bytes) := (entries h).map (fun e => ((e.id, e.ref), e.data))

/-- Parts as keyed slots with their stored bytes. -/
def keyedParts (p : Pkg) : List (U32 × (PartHdr × Bytes)) := (usedParts p.hdr).map (fun q => (q.id, (q, storedBytes p q)))

/-- Rows by key. -/
def metaRows (c : Comparison) : List (Mark × (U32 × U32)) := c.metas.map (fun r => (r.1, (r.2.id, r.2.partRef)))
def partRows (c : Comparison) : List (Mark × U32) := c.parts.map (fun r => (r.1, r.2.id))

end Bpak
