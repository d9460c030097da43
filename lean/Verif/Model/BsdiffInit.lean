import Verif.Model.Sais
import Verif.Model.Diff
/-!
lib/bsdiff.c: the suffix array of the delta encoder. The compressor is modelled in Model/HsDelta.lean and Model/Lzma.lean.
-/
namespace Bpak

/-- The cells of the array. (lib/bsdiff.c:628) -/
def readArray (n : Nat) (m : Sais.Mem) : List Int := (List.range n).map (fun i => (m (i : Nat)).getD 0)

/-- `bpak_bsdiff_init`, lib/bsdiff.c:599-655: the array is allocated and filled; the result is the array. `fails` gives the outcomes of the allocations, `junk` the
contents of the blocks given to `sais`, `none` is undefined behaviour. Not modelled here: the compressor (lib/bsdiff.c:622-626); `bpak_calloc` of no bytes is taken to succeed unless `fails` says otherwise. -/
def bsdiffInit (o : Bytes) (fails : Nat → Bool) (junk : Int → Int) : Option (Except Err (List Int)) :=
  if fails 0 then some (.error .failed)
  else match Sais.sais o (Sais.freshHeap o.length (fun i => fails (i + 1)) junk) with
    | none => none
    | some (rc, h) => if rc ≠ 0 then some (.error .failed) else some (.ok (readArray o.length h.mem))

/-- `bpak_bsdiff_init` and `bpak_bsdiff`, lib/bsdiff.c:599-717: the buffers handed to the compressor. -/
def bsdiffAll (o n : Bytes) (fails : Nat → Bool) (junk : Int → Int) : Option (Except Err (List Bytes)) :=
  match bsdiffInit o fails junk with
  | none => none
  | some (.error e) => some (.error e)
  | some (.ok sa) => (bsdiff sa o n).map .ok

/-- The search of `bpak_bsdiff` (lib/bsdiff.c:672-679) in the array made by `bpak_bsdiff_init` (lib/bsdiff.c:628-649), all allocations succeeding. -/
def ownSearch (junk : Int → Int) (o n : Bytes) (scan : Int) : Option (Int × Int) :=
  match bsdiffInit o (fun _ => false) junk with
  | some (.ok sa) => searchCall sa o n scan
  | _ => none

end Bpak
