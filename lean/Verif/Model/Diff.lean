import Verif.Model.Patch
/-!
lib/bsdiff.c: the delta encoder. All C integers here are `int64_t`; the model uses unbounded integers and
makes every array access explicit: `none` is an access outside the array.
The output is the sequence of buffers handed to `compressor_write` (lib/bsdiff.c:378-415); without
compression they are written one after the other.
-/
namespace Bpak

/-- `a[i]` for a signed index. (e.g. lib/bsdiff.c:484-485) -/
def getI (b : Bytes) (i : Int) : Option U8 := if 0 ≤ i then b[i.toNat]? else none

/-- `offtout`, lib/bsdiff.c:103-137 (for |x| < 2^63, where the last remainder is below 128). -/
def offtout (x : Int) : Bytes :=
  let y := x.natAbs
  [BitVec.ofNat 8 y, BitVec.ofNat 8 (y / 256), BitVec.ofNat 8 (y / 256^2), BitVec.ofNat 8 (y / 256^3),
   BitVec.ofNat 8 (y / 256^4), BitVec.ofNat 8 (y / 256^5), BitVec.ofNat 8 (y / 256^6),
   BitVec.ofNat 8 (y / 256^7) ||| (if x < 0 then 0x80 else 0)]

/-- `matchlen`, lib/bsdiff.c:36-48, on the two byte strings (the bound `BPAK_MIN(from_size, to_size)` is
the end of the shorter list), before the conversion to the result type. -/
def matchlen : Bytes → Bytes → Nat
  | a :: as, b :: bs => if a = b then matchlen as bs + 1 else 0
  | _, _ => 0

/-- `matchlen` as returned: `int64_t i` converted to `int32_t` (lib/bsdiff.c:36, 47). -/
def matchlen32 (a b : Bytes) : Int := (matchlen a b : Int).bmod (2^32)

/-- `memcmp(x, y, n) < 0`. (lib/bsdiff.c:81) -/
def memcmpLt : Bytes → Bytes → Bool
  | a :: as, b :: bs => if a = b then memcmpLt as bs else a.toNat < b.toNat
  | _, _ => false

/-- `from_p + sa[i]` as the remaining bytes of the origin; a suffix position outside `[0, from_size]` is a
wild pointer, an index outside the suffix array an access past its end. (lib/bsdiff.c:66-96) -/
def suffixAt (sa : List Int) (o : Bytes) (i : Nat) : Option (Int × Bytes) :=
  match sa[i]? with
  | none => none
  | some p => if 0 ≤ p ∧ p ≤ o.length then some (p, o.drop p.toNat) else none

/-- `search`, lib/bsdiff.c:50-101. `to` is `new_data + scan`. The recursion is on the width of the
interval: the first argument bounds its depth. -/
def search (sa : List Int) (o to : Bytes) : Nat → Nat → Nat → Option (Int × Int)
  | 0, _, _ => none
  | fuel+1, b, e =>
    if e - b < 2 then
      match suffixAt sa o b, suffixAt sa o e with
      | some (pb, sb), some (pe, se) =>
        let x := matchlen32 sb to
        let y := matchlen32 se to
        if x > y then some (x, pb) else some (y, pe)
      | _, _ => none
    else
      let x := b + (e - b) / 2
      match suffixAt sa o x with
      | none => none
      | some (_, s) => if memcmpLt s to then search sa o to fuel x e else search sa o to fuel b x

/-- The call in `bpak_bsdiff`, lib/bsdiff.c:672-679: the whole array, `from_end = origin_length`. -/
def searchCall (sa : List Int) (o new : Bytes) (scan : Int) : Option (Int × Int) :=
  if 0 ≤ scan then search sa o (new.drop scan.toNat) (o.length + 1) 0 o.length else none

/-- `struct bpak_bsdiff_context`, include/bpak/bsdiff.h:24-46: the fields the algorithm changes. -/
structure Differ where
  scan : Int
  len : Int
  pos : Int
  lastScan : Int
  lastPos : Int
  lastOffset : Int
  out : List Bytes
  deriving DecidableEq, Repr

/-- Forward extension loop, lib/bsdiff.c:483-495. `k` is the number of iterations left (the condition
is monotone in `i`). Result: `diff_size`. -/
def fwdGo (o n : Bytes) (lastScan lastPos : Int) : Nat → Int → Int → Int → Int → Option Int
  | 0, _, _, _, d => some d
  | k+1, i, s, sf, d =>
    match getI o (lastPos + i), getI n (lastScan + i) with
    | some a, some b =>
      let s := if a = b then s + 1 else s
      let i := i + 1
      if s * 2 - i > sf * 2 - d then fwdGo o n lastScan lastPos k i s s i
      else fwdGo o n lastScan lastPos k i s sf d
    | _, _ => none

/-- Backward extension loop, lib/bsdiff.c:503-513. Result: `lenb`. -/
def bwdGo (o n : Bytes) (scan pos : Int) : Nat → Int → Int → Int → Int → Option Int
  | 0, _, _, _, lenb => some lenb
  | k+1, i, s, sb, lenb =>
    match getI o (pos - i), getI n (scan - i) with
    | some a, some b =>
      let s := if a = b then s + 1 else s
      if s * 2 - i > sb * 2 - lenb then bwdGo o n scan pos k (i+1) s s i
      else bwdGo o n scan pos k (i+1) s sb lenb
    | _, _ => none

/-- Overlap loop, lib/bsdiff.c:523-538. `u` is `last_scan + diff_size - overlap`, `v` is
`last_pos + diff_size - overlap`, `x` is `scan - lenb`, `y` is `pos - lenb`. Result: `lens`. -/
def ovlGo (o n : Bytes) (u v x y : Int) : Nat → Int → Int → Int → Int → Option Int
  | 0, _, _, _, lens => some lens
  | k+1, i, s, ss, lens =>
    match getI n (u + i), getI o (v + i), getI n (x + i), getI o (y + i) with
    | some a, some b, some c, some d =>
      let s := if a = b then s + 1 else s
      let s := if c = d then s - 1 else s
      if s > ss then ovlGo o n u v x y k (i+1) s s (i+1) else ovlGo o n u v x y k (i+1) s ss lens
    | _, _, _, _ => none

/-- The diff bytes, lib/bsdiff.c:571-575: `new[last_scan + i] - origin[last_pos + i]`. -/
def diffGo (o n : Bytes) (lastScan lastPos : Int) : Nat → Int → Option Bytes
  | 0, _ => some []
  | k+1, i =>
    match getI n (lastScan + i), getI o (lastPos + i), diffGo o n lastScan lastPos k (i+1) with
    | some a, some b, some r => some ((a - b) :: r)
    | _, _, _ => none

/-- Cut into buffers of at most 4096 bytes, lib/bsdiff.c:568-582 (`BPAK_CHUNK_BUFFER_LENGTH`). -/
def chunks4096 (b : Bytes) : List Bytes :=
  if h : b = [] then [] else b.take 4096 :: chunks4096 (b.drop 4096)
  termination_by b.length
  decreasing_by
    have := List.length_pos_iff.2 h
    simp; omega

/-- `&a[i]` for `n` bytes. (lib/bsdiff.c:571-590) -/
def getRange (b : Bytes) (i n : Int) : Option Bytes :=
  if 0 ≤ i ∧ 0 ≤ n ∧ i + n ≤ b.length then some ((b.drop i.toNat).take n.toNat) else none

/-- The backward extension, lib/bsdiff.c:497-514: only when not at the end of the new data. -/
def backExtend (o n : Bytes) (c : Differ) : Option Int :=
  if c.scan < n.length then bwdGo o n c.scan c.pos (min (c.scan - c.lastScan) c.pos).toNat 1 0 0 0 else some 0

/-- Splitting an overlap of the two extensions, lib/bsdiff.c:516-545. Result: `diff_size`, `lenb`. -/
def resolveOverlap (o n : Bytes) (c : Differ) (d lenb : Int) : Option (Int × Int) :=
  let overlap := (c.lastScan + d) - (c.scan - lenb)
  if overlap > 0 then
    (ovlGo o n (c.lastScan + d - overlap) (c.lastPos + d - overlap) (c.scan - lenb) (c.pos - lenb)
      overlap.toNat 0 0 0 0).map (fun lens => (d + (lens - overlap), lenb - lens))
  else some (d, lenb)

/-- The extra bytes, lib/bsdiff.c:584-590: one buffer, none when empty. -/
def extraBufs (n : Bytes) (extraPos extraSize : Int) : Option (List Bytes) :=
  if extraSize ≠ 0 then (getRange n extraPos extraSize).map (fun x => [x]) else some []

/-- `write_diff_extra_and_adjustment`, lib/bsdiff.c:458-597. -/
def writeDiff (o n : Bytes) (c : Differ) : Option Differ :=
  (fwdGo o n c.lastScan c.lastPos (min (c.scan - c.lastScan) (o.length - c.lastPos)).toNat 0 0 0 0).bind fun d =>
  (backExtend o n c).bind fun lenb =>
  (resolveOverlap o n c d lenb).bind fun (d, lenb) =>
  let extraPos := c.lastScan + d
  let extraSize := c.scan - lenb - extraPos
  let ctrl := offtout d ++ offtout extraSize ++ offtout ((c.pos - lenb) - (c.lastPos + d))
  -- `uint64_t data_to_write = diff_size`: a negative size would run over both buffers
  if d < 0 then none else
  (diffGo o n c.lastScan c.lastPos d.toNat 0).bind fun db =>
  (extraBufs n extraPos extraSize).bind fun ex =>
  some { c with
    lastScan := c.scan - lenb
    lastPos := c.pos - lenb
    lastOffset := c.pos - c.scan
    out := c.out ++ [ctrl] ++ chunks4096 db ++ ex }

/-- The scoring loop, lib/bsdiff.c:681-687; `k` iterations left. Result: `from_score`. -/
def scoreGo (o n : Bytes) (lastOffset : Int) : Nat → Int → Int → Option Int
  | 0, _, fs => some fs
  | k+1, scsc, fs =>
    if scsc + lastOffset < o.length then
      match getI o (scsc + lastOffset), getI n scsc with
      | some a, some b => scoreGo o n lastOffset k (scsc+1) (if a = b then fs + 1 else fs)
      | _, _ => none
    else scoreGo o n lastOffset k (scsc+1) fs

/-- The `for` loop over `ctx->scan`, lib/bsdiff.c:669-699; `k` iterations left. `srch` is the search
result for a scan position. Result: scan, len, pos, from_score when the loop ends. -/
def scanGo (o n : Bytes) (srch : Int → Option (Int × Int)) (lastOffset : Int) :
    Nat → Int → Int → Int → Int → Int → Option (Int × Int × Int × Int)
  | 0, scan, _, fs, len, pos => some (scan, len, pos, fs)
  | k+1, scan, scsc, fs, _, _ =>
    match srch scan with
    | none => none
    | some (len, pos) =>
      match scoreGo o n lastOffset (scan + len - scsc).toNat scsc fs with
      | none => none
      | some fs =>
        let scsc := max scsc (scan + len)
        if (len = fs ∧ len ≠ 0) ∨ len > fs + 8 then some (scan, len, pos, fs)
        else if scan + lastOffset < o.length then
          match getI o (scan + lastOffset), getI n scan with
          | some a, some b =>
            scanGo o n srch lastOffset k (scan+1) scsc (if a = b then fs - 1 else fs) len pos
          | _, _ => none
        else scanGo o n srch lastOffset k (scan+1) scsc fs len pos

/-- One round of the `while` loop of `bpak_bsdiff`, lib/bsdiff.c:664-709. -/
def diffRound (o n : Bytes) (srch : Int → Option (Int × Int)) (c : Differ) : Option Differ := do
  let scan := c.scan + c.len
  let (scan, len, pos, fs) ← scanGo o n srch c.lastOffset ((n.length : Int) - scan).toNat scan scan 0 c.len c.pos
  let c := { c with scan := scan, len := len, pos := pos }
  if len ≠ fs ∨ scan = n.length then writeDiff o n c else some c

/-- The `while` loop; the bound on the number of rounds is never reached (proved). (lib/bsdiff.c:660-717) -/
def diffLoop (o n : Bytes) (srch : Int → Option (Int × Int)) : Nat → Differ → Option Differ
  | 0, _ => none
  | k+1, c => if c.scan < n.length then (diffRound o n srch c).bind (diffLoop o n srch k) else some c

/-- `bpak_bsdiff` after `bpak_bsdiff_init` (all fields zero), lib/bsdiff.c:599-717: the buffers handed to
the compressor. -/
def bsdiffWith (srch : Int → Option (Int × Int)) (o n : Bytes) : Option (List Bytes) :=
  (diffLoop o n srch (n.length + 2) ⟨0, 0, 0, 0, 0, 0, []⟩).map (·.out)

/-- `bpak_bsdiff` with the real search over a suffix array. (lib/bsdiff.c:599-717) -/
def bsdiff (sa : List Int) (o n : Bytes) : Option (List Bytes) := bsdiffWith (searchCall sa o n) o n

end Bpak
