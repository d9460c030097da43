import Verif.Model.Header
/-!
lib/sais.c: the construction of the suffix array.

All cells of type `int64_t` live in one memory: addresses are integers, a cell that is not allocated holds `none`, and using such a cell gives `none`
(undefined behaviour). The suffix array is at address 0; its free space is used for counters, buckets and the texts of the recursive calls, exactly as in the
code. Allocated blocks lie behind it, with an unallocated cell after each; freeing a block takes its cells away. Which allocations fail is a parameter, and so is what a new cell holds. A failed `assert`
is `none` too. Simplification: `int64_t` values are unbounded integers (no value exceeds twice the length of the text).
-/
namespace Bpak.Sais

/-- The cells. (`int64_t *sa_p` and the blocks of `SAIS_MYMALLOC`, lib/sais.c:44-45) -/
abbrev Mem := Int → Option Int

/-- Reading `p[i]` (C language). -/
def rd (m : Mem) (a : Int) : Option Int := m a

/-- Writing `p[i] = v` (C language). -/
def wr (m : Mem) (a v : Int) : Option Mem := if (m a).isSome then some (fun x => if x = a then some v else m x) else none

/-- Memory, the first address never given out, the outcome of the allocations to come, and what a newly allocated cell holds. (lib/sais.c:44-45) -/
structure Heap where
  mem : Mem
  next : Int
  fails : Nat → Bool
  junk : Int → Int

/-- `SAIS_MYMALLOC`, lib/sais.c:44: `none` is `NULL`. -/
def malloc (h : Heap) (len : Nat) : Option Int × Heap :=
  if h.fails 0 then (none, { h with fails := fun i => h.fails (i + 1) })
  else (some h.next, { mem := fun a => if h.next ≤ a ∧ a < h.next + len then some (h.junk a) else h.mem a, next := h.next + len + 1, fails := fun i => h.fails (i + 1), junk := h.junk })

/-- `SAIS_MYFREE`, lib/sais.c:45. -/
def free (h : Heap) (p : Int) (len : Nat) : Heap := { h with mem := fun a => if p ≤ a ∧ a < p + len then none else h.mem a }

/-- The text: bytes, or cells starting at an address (`cs` is 1 or 8). (lib/sais.c:46-47) -/
inductive Txt where
  | bytes (b : Bytes)
  | words (p : Int)

/-- `chr(_a)`, lib/sais.c:46-47. -/
def chr (t : Txt) (m : Mem) (i : Int) : Option Int :=
  match t with
  | .bytes b => if 0 ≤ i then (b[i.toNat]?).map (fun c => (c.toNat : Int)) else none
  | .words p => rd m (p + i)

/-- `for (i = 0; i < n; ++i)`. (C language; e.g. lib/sais.c:59) -/
def upto {σ : Type} : Nat → (Nat → σ → Option σ) → σ → Option σ
  | 0, _, s => some s
  | n + 1, body, s => (upto n body s).bind (body n)

/-- `for (i = n - 1; 0 <= i; --i)`. (C language; e.g. lib/sais.c:131) -/
def downto {σ : Type} : Nat → (Nat → σ → Option σ) → σ → Option σ
  | 0, _, s => some s
  | n + 1, body, s => (body n s).bind (downto n body)

/-- `get_counts`, lib/sais.c:50-62. -/
def getCounts (t : Txt) (c : Int) (n k : Nat) (m : Mem) : Option Mem := do
  let m ← upto k (fun i m => wr m (c + i) 0) m
  upto n (fun i m => do
    let x ← chr t m i
    let v ← rd m (c + x)
    wr m (c + x) (v + 1)) m

/-- `get_buckets`, lib/sais.c:64-83. -/
def getBuckets (c b : Int) (k : Nat) (atEnd : Bool) (m : Mem) : Option Mem := do
  let r ← upto k (fun i (s : Int × Mem) => do
    let x ← rd s.2 (c + i)
    let sum := s.1 + x
    let m ← wr s.2 (b + i) (if atEnd then sum else sum - x)
    some (sum, m)) (0, m)
  some r.2

/-- `if (c_p == b_p) get_counts(...)` and `get_buckets`, lib/sais.c:95-100, 124-129, 411-416, 439-444. -/
def buckets (t : Txt) (c b : Int) (n k : Nat) (atEnd : Bool) (m : Mem) : Option Mem := do
  let m ← if c = b then getCounts t c n k m else some m
  getBuckets c b k atEnd m

/-- `if ((c0 = chr(j)) != c1) { b_p[c1] = b2_p - sa_p; b2_p = sa_p + b_p[c1 = c0]; }`, lib/sais.c:110-113, 135-138, 267-270, 315-318, 428-431, 451-454.
The pointer `b2_p` is the index of its cell, as `sa_p` is 0. -/
def switchTo (b : Int) (c0 c1 b2 : Int) (m : Mem) : Option (Int × Int × Mem) :=
  if c0 ≠ c1 then do
    let m ← wr m (b + c1) b2
    let b2 ← rd m (b + c0)
    some (c0, b2, m)
  else some (c1, b2, m)

/-- State of the loops: memory, `c1` and `b2_p`. (lib/sais.c:89-93) -/
structure Cur where
  m : Mem
  c1 : Int
  b2 : Int

/-- One step of the first loop of `lms_sort_1`, lib/sais.c:107-121. -/
def lmsStep1L (t : Txt) (b : Int) (i : Nat) (s : Cur) : Option Cur := do
  let j ← rd s.m i
  if 0 < j then do
    let c0 ← chr t s.m j
    let cn ← chr t s.m (j + 1)
    if c0 < cn then none else do
      let (c1, b2, m) ← switchTo b c0 s.c1 s.b2 s.m
      let j := j - 1
      let cj ← chr t m j
      let m ← wr m b2 (if cj < c1 then -j - 1 else j)
      let m ← wr m i 0
      some ⟨m, c1, b2 + 1⟩
  else if j < 0 then do
    let m ← wr s.m i (-j - 1)
    some { s with m := m }
  else some s

/-- First pass of `lms_sort_1`, lib/sais.c:95-122. -/
def lmsSort1L (t : Txt) (c b : Int) (n k : Nat) (m : Mem) : Option Mem := do
  let m ← buckets t c b n k false m
  let j : Int := n - 1
  let c1 ← chr t m j
  let b2 ← rd m (b + c1)
  let j := j - 1
  let cj ← chr t m j
  let m ← wr m b2 (if cj < c1 then -j - 1 else j)
  let s ← upto n (lmsStep1L t b) ⟨m, c1, b2 + 1⟩
  some s.m

/-- One step of the second loop of `lms_sort_1`, lib/sais.c:132-144. -/
def lmsStep1S (t : Txt) (b : Int) (i : Nat) (s : Cur) : Option Cur := do
  let j ← rd s.m i
  if 0 < j then do
    let c0 ← chr t s.m j
    let cn ← chr t s.m (j + 1)
    if cn < c0 then none else do
      let (c1, b2, m) ← switchTo b c0 s.c1 s.b2 s.m
      let j := j - 1
      let cj ← chr t m j
      let m ← wr m (b2 - 1) (if c1 < cj then -(j + 1) - 1 else j)
      let m ← wr m i 0
      some ⟨m, c1, b2 - 1⟩
  else some s

/-- Second pass of `lms_sort_1`, lib/sais.c:124-145. -/
def lmsSort1S (t : Txt) (c b : Int) (n k : Nat) (m : Mem) : Option Mem := do
  let m ← buckets t c b n k true m
  let b2 ← rd m b
  let s ← downto n (lmsStep1S t b) ⟨m, 0, b2⟩
  some s.m

/-- `lms_sort_1`, lib/sais.c:86-146. -/
def lmsSort1 (t : Txt) (c b : Int) (n k : Nat) (m : Mem) : Option Mem := do
  let m ← lmsSort1L t c b n k m
  lmsSort1S t c b n k m

/-- The walk over the text from its end that finds every leftmost character of an ascending run: the three copies of
`do { c1 = c0; } while ((0 <= --i) && ((c0 = chr(i)) >= c1)); while (0 <= i) { do ... <= c1 ...; if (0 <= i) { body; do ... >= c1 ... } }`,
lib/sais.c:187-208, 547-571, 660-680. One step of either inner loop is one call: the arguments are `i`, `c0` and whether it is the `<=` loop that runs; `body` gets
the new `i` and `c1`. -/
def lmsScan {σ : Type} (getc : σ → Nat → Option Int) (body : Nat → Int → σ → Option σ) : Nat → Int → Bool → σ → Option σ
  | 0, _, _, s => some s
  | i + 1, c1, false, s => do
    let c0 ← getc s i
    if c1 ≤ c0 then lmsScan getc body i c0 false s else lmsScan getc body i c0 true s
  | i + 1, c1, true, s => do
    let c0 ← getc s i
    if c0 ≤ c1 then lmsScan getc body i c0 true s
    else do
      let s ← body i c1 s
      lmsScan getc body i c0 false s

/-- `for (i = 0; (p = sa_p[i]) < 0; ++i) { sa_p[i] = ~p; assert((i + 1) < n); }`, lib/sais.c:166-169; gives the first index that is not negative.
`left` is `n - i`: at the end of the text the assertion fails. -/
def compactHead : Nat → Nat → Mem → Option (Nat × Mem)
  | 0, _, _ => none
  | left + 1, i, m => do
    let p ← rd m i
    if p < 0 then do
      let m ← wr m i (-p - 1)
      if left = 0 then none else compactHead left (i + 1) m
    else some (i, m)

/-- `for (;; ++i)` with `assert(i < n)`, lib/sais.c:172-183; `left` is `n - i`. -/
def compactTail (mm : Nat) : Nat → Nat → Nat → Mem → Option Mem
  | 0, _, _, _ => none
  | left + 1, i, j, m => do
    let p ← rd m i
    if p < 0 then do
      let m ← wr m j (-p - 1)
      let m ← wr m i 0
      if j + 1 = mm then some m else compactTail mm left (i + 1) (j + 1) m
    else compactTail mm left (i + 1) j m

/-- Gathering the sorted substrings, lib/sais.c:166-184. -/
def compact (n mm : Nat) (m : Mem) : Option Mem := do
  let (i, m) ← compactHead n 0 m
  if i < mm then compactTail mm (n - (i + 1)) (i + 1) i m else some m

/-- `for (j = 0; (j < plen) && (chr(p + j) == chr(q + j)); ++j);`, lib/sais.c:215-220: whether `j == plen` at the end. -/
def sameSub (t : Txt) (m : Mem) (p q : Int) (plen : Nat) : Nat → Option Bool
  | 0 => some true
  | left + 1 => do
    let j : Int := plen - (left + 1)
    let a ← chr t m (p + j)
    let b ← chr t m (q + j)
    if a = b then sameSub t m p q plen left else some false

/-- State of the naming loop of `lms_postproc_1`: memory, `name`, `q` and `qlen`. (lib/sais.c:211-230) -/
structure Naming where
  m : Mem
  name : Int
  q : Int
  qlen : Int

/-- One step of the loop that stores the lengths, lib/sais.c:198-204. -/
def lenStep (mm : Nat) (i : Nat) (_c1 : Int) (s : Int × Mem) : Option (Int × Mem) :=
  (wr s.2 (mm + ((i + 1) / 2 : Nat)) (s.1 - i)).map (fun m => ((i : Int) + 1, m))

/-- `diff`, lib/sais.c:213-221: `true` if `p` has the name of `q`. -/
def sameAs (t : Txt) (n : Nat) (s : Naming) (p plen : Int) : Option Bool :=
  if plen = s.qlen ∧ s.q + plen < n then sameSub t s.m p s.q plen.toNat plen.toNat else some false

/-- One step of the naming loop, lib/sais.c:211-230. -/
def nameStep (t : Txt) (n mm : Nat) (i : Nat) (s : Naming) : Option Naming := do
  let p ← rd s.m i
  let plen ← rd s.m (mm + p / 2)
  let same ← sameAs t n s p plen
  if same then (wr s.m (mm + p / 2) s.name).map (fun m => { s with m := m })
  else (wr s.m (mm + p / 2) (s.name + 1)).map (fun m => ⟨m, s.name + 1, p, plen⟩)

/-- `lms_postproc_1`, lib/sais.c:148-233; `mm` is the parameter `m`. -/
def lmsPostproc1 (t : Txt) (n mm : Nat) (m : Mem) : Option (Int × Mem) := do
  if n = 0 then none else
  let m ← compact n mm m
  let c0 ← chr t m (n - 1)
  let r ← lmsScan (fun (s : Int × Mem) i => chr t s.2 i) (lenStep mm) (n - 1) c0 false ((n : Int) - 1, m)
  let s ← upto mm (nameStep t n mm) ⟨r.2, 0, n, 0⟩
  some (s.name, s.m)

/-- State of the loops of `lms_sort_2`: also the counter `d`. (lib/sais.c:239-245) -/
structure Cur2 where
  m : Mem
  c1 : Int
  b2 : Int
  d : Int

/-- `if (d_p[t] != d) { j += n; d_p[t] = d; }`, lib/sais.c:274-277, 322-325: the memory and `j`. -/
def markNew (n : Nat) (a d j : Int) (m : Mem) : Option (Int × Mem) := do
  let du ← rd m a
  if du ≠ d then (wr m a d).map (fun m => (j + n, m)) else some (j, m)

/-- One step of the first loop of `lms_sort_2`, lib/sais.c:260-286. -/
def lmsStep2L (t : Txt) (b d : Int) (n : Nat) (i : Nat) (s : Cur2) : Option Cur2 := do
  let j ← rd s.m i
  if 0 < j then do
    let dd := if n ≤ j then s.d + 1 else s.d
    let j := if n ≤ j then j - n else j
    let c0 ← chr t s.m j
    let cn ← chr t s.m (j + 1)
    if c0 < cn then none else do
      let (c1, b2, m) ← switchTo b c0 s.c1 s.b2 s.m
      let j := j - 1
      let cj ← chr t m j
      let (j, m) ← markNew n (d + (2 * c0 + (if cj < c1 then 1 else 0))) dd j m
      let m ← wr m b2 (if cj < c1 then -j - 1 else j)
      let m ← wr m i 0
      some ⟨m, c1, b2 + 1, dd⟩
  else if j < 0 then do
    let m ← wr s.m i (-j - 1)
    some { s with m := m }
  else some s

/-- First pass of `lms_sort_2`, lib/sais.c:249-287. -/
def lmsSort2L (t : Txt) (c b d : Int) (n k : Nat) (m : Mem) : Option (Int × Mem) := do
  let m ← getBuckets c b k false m
  let j : Int := n - 1
  let c1 ← chr t m j
  let b2 ← rd m (b + c1)
  let j := j - 1
  let cj ← chr t m j
  let m ← wr m b2 (if cj < c1 then -(j + n) - 1 else j + n)
  let s ← upto n (lmsStep2L t b d n) ⟨m, c1, b2 + 1, 0⟩
  some (s.d, s.m)

/-- `for (j = i - 1; sa_p[j] < n; --j);`, lib/sais.c:294-295; the argument is `j + 1`, at 0 a cell in front of the array would be read. -/
def findMark (n : Nat) (m : Mem) : Nat → Option Nat
  | 0 => none
  | j + 1 => do
    let x ← rd m j
    if x < n then findMark n m j else some j

/-- The marks move from the first to the last of each group, lib/sais.c:289-301; the second argument is `i + 1`. -/
def flipMarks (n : Nat) : Nat → Nat → Mem → Option Mem
  | 0, _, m => some m
  | _ + 1, 0, m => some m
  | fuel + 1, i + 1, m => do
    let x ← rd m i
    if 0 < x ∧ x < n then do
      let m ← wr m i (x + n)
      let j ← findMark n m i
      let y ← rd m j
      let m ← wr m j (y - n)
      flipMarks n fuel j m
    else flipMarks n fuel i m

/-- One step of the second loop of `lms_sort_2`, lib/sais.c:307-332. -/
def lmsStep2S (t : Txt) (b d : Int) (n : Nat) (i : Nat) (s : Cur2) : Option Cur2 := do
  let j ← rd s.m i
  if 0 < j then do
    let dd := if n ≤ j then s.d + 1 else s.d
    let j := if n ≤ j then j - n else j
    let c0 ← chr t s.m j
    let cn ← chr t s.m (j + 1)
    if cn < c0 then none else do
      let (c1, b2, m) ← switchTo b c0 s.c1 s.b2 s.m
      let j := j - 1
      let cj ← chr t m j
      let (j, m) ← markNew n (d + (2 * c0 + (if c1 < cj then 1 else 0))) dd j m
      let m ← wr m (b2 - 1) (if c1 < cj then -(j + 1) - 1 else j)
      let m ← wr m i 0
      some ⟨m, c1, b2 - 1, dd⟩
  else some s

/-- Second pass of `lms_sort_2`, lib/sais.c:303-333. -/
def lmsSort2S (t : Txt) (c b d : Int) (n k : Nat) (d0 : Int) (m : Mem) : Option Mem := do
  let m ← getBuckets c b k true m
  let b2 ← rd m b
  let s ← downto n (lmsStep2S t b d n) ⟨m, 0, b2, d0 + 1⟩
  some s.m

/-- `lms_sort_2`, lib/sais.c:235-334. -/
def lmsSort2 (t : Txt) (c b d : Int) (n k : Nat) (m : Mem) : Option Mem := do
  if c = b then none else
  let (d0, m) ← lmsSort2L t c b d n k m
  let m ← flipMarks n n n m
  lmsSort2S t c b d n k d0 m

/-- First loop of `lms_postproc_2`, lib/sais.c:346-355: as `compactHead`, counting the marks. -/
def compactHead2 (n : Nat) : Nat → Nat → Int → Mem → Option (Nat × Int × Mem)
  | 0, _, _, _ => none
  | left + 1, i, name, m => do
    let j ← rd m i
    if j < 0 then do
      let m ← wr m i (-j - 1)
      if left = 0 then none else compactHead2 n left (i + 1) (if n ≤ -j - 1 then name + 1 else name) m
    else some (i, name, m)

/-- Second loop of `lms_postproc_2`, lib/sais.c:357-376. -/
def compactTail2 (n mm : Nat) : Nat → Nat → Nat → Int → Mem → Option (Int × Mem)
  | 0, _, _, _, _ => none
  | left + 1, i, e, name, m => do
    let j ← rd m i
    if j < 0 then do
      let m ← wr m e (-j - 1)
      let m ← wr m i 0
      let name := if n ≤ -j - 1 then name + 1 else name
      if e + 1 = mm then some (name, m) else compactTail2 n mm left (i + 1) (e + 1) name m
    else compactTail2 n mm left (i + 1) e name m

/-- Gathering the sorted substrings, lib/sais.c:346-376: the number of marks. -/
def gather2 (n mm : Nat) (m : Mem) : Option (Int × Mem) := do
  let r ← compactHead2 n n 0 0 m
  if r.1 < mm then compactTail2 n mm (n - (r.1 + 1)) (r.1 + 1) r.1 r.2.1 r.2.2 else some r.2

/-- One step of the loop that stores the names, lib/sais.c:379-387. -/
def storeName (n mm : Nat) (i : Nat) (s : Int × Mem) : Option (Int × Mem) := do
  let j ← rd s.2 i
  let d := if n ≤ j then s.1 - 1 else s.1
  let j := if n ≤ j then j - n else j
  (wr s.2 (mm + j / 2) d).map (fun m => (d, m))

/-- One step of the loop that takes the marks away, lib/sais.c:389-395. -/
def unmark (n : Nat) (i : Nat) (m : Mem) : Option Mem := do
  let j ← rd m i
  if n ≤ j then wr m i (j - n) else some m

/-- `lms_postproc_2`, lib/sais.c:336-399. -/
def lmsPostproc2 (n mm : Nat) (m : Mem) : Option (Int × Mem) := do
  if n = 0 then none else
  let g ← gather2 n mm m
  if g.1 < mm then (downto mm (storeName n mm) (g.1 + 1, g.2)).map (fun r => (g.1, r.2))
  else (upto mm (unmark n) g.2).map (fun m => (g.1, m))

/-- `((0 < j) && (chr(j - 1) < c1)) ? ~j : j`, lib/sais.c:421, 434. -/
def codeL (t : Txt) (m : Mem) (c1 j : Int) : Option Int :=
  if 0 < j then (chr t m (j - 1)).map (fun x => if x < c1 then -j - 1 else j) else some j

/-- One step of the first loop of `induce_sa`, lib/sais.c:423-436. -/
def induceStepL (t : Txt) (b : Int) (i : Nat) (s : Cur) : Option Cur := do
  let j ← rd s.m i
  let m ← wr s.m i (-j - 1)
  if 0 < j then do
    let j := j - 1
    let c0 ← chr t m j
    let cn ← chr t m (j + 1)
    if c0 < cn then none else do
      let (c1, b2, m) ← switchTo b c0 s.c1 s.b2 m
      if b2 ≤ i then none else do
        let v ← codeL t m c1 j
        let m ← wr m b2 v
        some ⟨m, c1, b2 + 1⟩
  else some { s with m := m }

/-- First pass of `induce_sa`, lib/sais.c:411-437. -/
def induceL (t : Txt) (c b : Int) (n k : Nat) (m : Mem) : Option Mem := do
  let m ← buckets t c b n k false m
  let j : Int := n - 1
  let c1 ← chr t m j
  let b2 ← rd m (b + c1)
  let v ← codeL t m c1 j
  let m ← wr m b2 v
  let s ← upto n (induceStepL t b) ⟨m, c1, b2 + 1⟩
  some s.m

/-- `((j == 0) || (chr(j - 1) > c1)) ? ~j : j`, lib/sais.c:456-457. -/
def codeS (t : Txt) (m : Mem) (c1 j : Int) : Option Int :=
  if j = 0 then some (-j - 1) else (chr t m (j - 1)).map (fun x => if c1 < x then -j - 1 else j)

/-- One step of the second loop of `induce_sa`, lib/sais.c:446-460. -/
def induceStepS (t : Txt) (b : Int) (i : Nat) (s : Cur) : Option Cur := do
  let j ← rd s.m i
  if 0 < j then do
    let j := j - 1
    let c0 ← chr t s.m j
    let cn ← chr t s.m (j + 1)
    if cn < c0 then none else do
      let (c1, b2, m) ← switchTo b c0 s.c1 s.b2 s.m
      if (i : Int) < b2 then none else do
        let v ← codeS t m c1 j
        let m ← wr m (b2 - 1) v
        some ⟨m, c1, b2 - 1⟩
  else do
    let m ← wr s.m i (-j - 1)
    some { s with m := m }

/-- Second pass of `induce_sa`, lib/sais.c:439-461. -/
def induceS (t : Txt) (c b : Int) (n k : Nat) (m : Mem) : Option Mem := do
  let m ← buckets t c b n k true m
  let b2 ← rd m b
  let s ← downto n (induceStepS t b) ⟨m, 0, b2⟩
  some s.m

/-- `induce_sa`, lib/sais.c:402-462. -/
def induceSa (t : Txt) (c b : Int) (n k : Nat) (m : Mem) : Option Mem := do
  let m ← induceL t c b n k m
  induceS t c b n k m

/-- The variable `flags` of `sais_main`, bit by bit: 1 `c_p` is an allocated block (and `b_p` is not `c_p`), 2 `b_p` is one, 4 `c_p` and `b_p` are the same allocated
block, 8 the counts must be computed anew, 16 and 32 `lms_sort_2` is used. (lib/sais.c:483, 488-535) -/
structure Flags where
  f1 : Bool := false
  f2 : Bool := false
  f4 : Bool := false
  f8 : Bool := false
  f16 : Bool := false
  f32 : Bool := false

/-- Where `c_p` and `b_p` are, lib/sais.c:488-527: `none` if an allocation failed. -/
def place (fs n k : Nat) (h : Heap) : Option (Int × Int × Flags) × Heap :=
  if k ≤ 256 then
    match malloc h k with
    | (none, h) => (none, h)
    | (some c, h) =>
      if k ≤ fs then (some (c, n + fs - k, { f1 := true }), h)
      else match malloc h k with
        | (none, h) => (none, free h c k)
        | (some b, h) => (some (c, b, { f1 := true, f2 := true }), h)
  else if k ≤ fs then
    let c : Int := n + fs - k
    if 2 * k ≤ fs then (some (c, c - k, {}), h)
    else if k ≤ 1024 then match malloc h k with
      | (none, h) => (none, h)
      | (some b, h) => (some (c, b, { f2 := true }), h)
    else (some (c, c, { f8 := true }), h)
  else match malloc h k with
    | (none, h) => (none, h)
    | (some c, h) => (some (c, c, { f4 := true, f8 := true }), h)

/-- The choice of the sorting function, lib/sais.c:529-535. -/
def chooseSort (fs n k : Nat) (f : Flags) : Flags :=
  if n ≤ 0x3fffffff ∧ 2 ≤ n / k then
    if f.f1 then (if 3 * k ≤ fs then { f with f32 := true } else { f with f16 := true })
    else if ¬ f.f2 ∧ ¬ f.f4 ∧ ¬ f.f8 ∧ 4 * k ≤ fs then { f with f32 := true }
    else f
  else f

/-- State of the first walk: memory, where `b` points (`none`: at the variable `t`), `j`, and `m`. (lib/sais.c:546-550) -/
structure Seeds where
  m : Mem
  b : Option Int
  j : Int
  mm : Nat

/-- `*b = j`, lib/sais.c:559. -/
def putPending (s : Seeds) : Option Mem :=
  match s.b with
  | none => some s.m
  | some a => wr s.m a s.j

/-- One step of the first walk, lib/sais.c:558-563. -/
def seedStep (b : Int) (i : Nat) (c1 : Int) (s : Seeds) : Option Seeds := do
  let m ← putPending s
  let x ← rd m (b + c1)
  let m ← wr m (b + c1) (x - 1)
  some ⟨m, some (x - 1), i, s.mm + 1⟩

/-- The seeds of the first stage, lib/sais.c:539-571. -/
def placeSeeds (t : Txt) (c b : Int) (n k : Nat) (m : Mem) : Option Seeds := do
  let m ← getCounts t c n k m
  let m ← getBuckets c b k true m
  let m ← upto n (fun i m => wr m i 0) m
  let c0 ← chr t m (n - 1)
  lmsScan (fun (s : Seeds) i => chr t s.m i) (seedStep b) (n - 1) c0 false ⟨m, none, n, 0⟩

/-- `if (b_p[i] != j) { assert(sa_p[b_p[i]] != 0); sa_p[b_p[i]] += n; }`, lib/sais.c:596-599. -/
def markFirst (n : Nat) (bi j : Int) (m : Mem) : Option Mem :=
  if bi ≠ j then do
    let y ← rd m bi
    if y = 0 then none else wr m bi (y + n)
  else some m

/-- One step of the loop of lib/sais.c:594-603. -/
def markStep (c b d : Int) (n k : Nat) (i : Nat) (s : Int × Mem) : Option (Int × Mem) := do
  let ci ← rd s.2 (c + i)
  let bi ← rd s.2 (b + i)
  let m ← markFirst n bi (s.1 + ci) s.2
  let m ← wr m (d + (i + k : Nat)) 0
  let m ← wr m (d + i) 0
  some (s.1 + ci, m)

/-- Marking the first seed of each bucket for `lms_sort_2`, lib/sais.c:591-603. -/
def markSeeds (t : Txt) (c b d : Int) (n k : Nat) (j : Int) (m : Mem) : Option Mem := do
  if ¬ j + 1 < n then none else
  let x ← chr t m (j + 1)
  let v ← rd m (b + x)
  let m ← wr m (b + x) (v + 1)
  let r ← upto k (markStep c b d n k) (0, m)
  some r.2

/-- Sorting and naming with `lms_sort_2`, lib/sais.c:591-608, the counters being at `d`. -/
def sortSubs2 (t : Txt) (c b d : Int) (n k : Nat) (s : Seeds) (m : Mem) : Option (Int × Mem) := do
  let m ← markSeeds t c b d n k s.j m
  let m ← lmsSort2 t c b d n k m
  lmsPostproc2 n s.mm m

/-- Sorting and naming with `lms_sort_1`, lib/sais.c:612-613. -/
def sortSubs1 (t : Txt) (c b : Int) (n k : Nat) (s : Seeds) (m : Mem) : Option (Int × Mem) := do
  let m ← lmsSort1 t c b n k m
  lmsPostproc1 t n s.mm m

/-- Sorting and naming the substrings, lib/sais.c:573-620: the number of names, `none` inside if an allocation failed. -/
def sortSubs (t : Txt) (c b : Int) (n k : Nat) (f : Flags) (s : Seeds) (h : Heap) : Option (Option Int × Heap) :=
  if 1 < s.mm then
    if f.f16 ∨ f.f32 then
      match (if f.f16 then malloc h (2 * k) else (some (b - 2 * k), h)) with
      | (none, h) =>
        let h := if f.f1 ∨ f.f4 then free h c k else h
        some (none, if f.f2 then free h b k else h)
      | (some d, h) =>
        (sortSubs2 t c b d n k s h.mem).map (fun r => (some r.1, if f.f16 then free { h with mem := r.2 } d (2 * k) else { h with mem := r.2 }))
    else (sortSubs1 t c b n k s h.mem).map (fun r => (some r.1, { h with mem := r.2 }))
  else if s.mm = 1 then
    match s.b with
    | none => none
    | some a => (wr h.mem a (s.j + 1)).map (fun m => (some 1, { h with mem := m }))
  else some (some 0, h)

/-- One step of the loop that makes the text of the recursive call, lib/sais.c:646-650. -/
def reduceStep (mm : Nat) (ra : Int) (i : Nat) (s : Int × Mem) : Option (Int × Mem) := do
  let x ← rd s.2 (mm + i)
  if x ≠ 0 then (wr s.2 (ra + s.1) (x - 1)).map (fun m => (s.1 - 1, m)) else some s

/-- The text of the recursive call, lib/sais.c:646-650. -/
def reducedText (n mm : Nat) (ra : Int) (m : Mem) : Option Mem :=
  (downto (n / 2) (reduceStep mm ra) ((mm : Int) - 1, m)).map (fun r => r.2)

/-- One step of the second walk, lib/sais.c:672. -/
def backStep (ra : Int) (i : Nat) (_c1 : Int) (s : Int × Mem) : Option (Int × Mem) :=
  (wr s.2 (ra + s.1) (i + 1)).map (fun m => (s.1 - 1, m))

/-- `sa_p[i] = ra_p[sa_p[i]]`, lib/sais.c:682-684. -/
def lookStep (ra : Int) (i : Nat) (m : Mem) : Option Mem := do
  let x ← rd m i
  let y ← rd m (ra + x)
  wr m i y

/-- Back from the reduced text to positions, lib/sais.c:660-684. -/
def backToPositions (t : Txt) (n mm : Nat) (ra : Int) (m : Mem) : Option Mem := do
  let c0 ← chr t m (n - 1)
  let r ← lmsScan (fun (s : Int × Mem) i => chr t s.2 i) (backStep ra) (n - 1) c0 false ((mm : Int) - 1, m)
  upto mm (lookStep ra) r.2

/-- `while (q < j) sa_p[--j] = 0;` and `while (0 < j) sa_p[--j] = 0;`, lib/sais.c:719-721, 734-736; the argument is the number of steps left. -/
def zeroDown : Nat → Nat → Mem → Option Mem
  | 0, _, m => some m
  | left + 1, j, m => do
    let m ← wr m ((j : Int) - 1) 0
    zeroDown left (j - 1) m

/-- `q = b_p[c0 = c1]; while (q < j) sa_p[--j] = 0;` if another bucket begins, lib/sais.c:716-721. -/
def nextBucket (b : Int) (c0 : Option Int) (c1 : Int) (j : Nat) (m : Mem) : Option (Nat × Mem) :=
  if c0 = some c1 then some (j, m) else do
    let q ← rd m (b + c1)
    (zeroDown (j - q.toNat) j m).map (fun m => (min j q.toNat, m))

/-- The loops of lib/sais.c:711-732, one call for each written entry: `i` is the index in the code plus one, `c0` the bucket that is being filled (`none` before the
first); a change of the bucket is what starts the outer loop again. -/
def spread (t : Txt) (b : Int) : Nat → Option Int → Nat → Mem → Option (Nat × Mem)
  | 0, _, j, m => some (j, m)
  | i + 1, c0, j, m => do
    let p ← rd m i
    let c1 ← chr t m p
    let r ← nextBucket b c0 c1 j m
    let m ← wr r.2 ((r.1 : Int) - 1) p
    spread t b i (some c1) (r.1 - 1) m

/-- Putting the sorted positions into their buckets, lib/sais.c:709-737. -/
def putSorted (t : Txt) (c b : Int) (n k mm : Nat) (m : Mem) : Option Mem :=
  if 1 < mm then do
    let m ← getBuckets c b k true m
    let r ← spread t b mm none n m
    zeroDown r.1 r.1 r.2
  else some m

/-- `if (flags & ...) SAIS_MYFREE(...)`, e.g. lib/sais.c:625-627. -/
def freeIf (x : Bool) (h : Heap) (p : Int) (len : Nat) : Heap := if x then free h p len else h

/-- `newfs` and the flags, lib/sais.c:633-641. -/
def newSpace (fs n k mm : Nat) (name : Int) (f : Flags) : Nat × Flags :=
  if !f.f1 && !f.f4 && !f.f8 then
    (if k + name ≤ ((n + fs - 2 * mm : Nat) : Int) then (n + fs - 2 * mm - k, f) else (n + fs - 2 * mm, { f with f8 := true }))
  else (n + fs - 2 * mm, f)

/-- The allocations after the recursive call, lib/sais.c:686-704: `none` if one failed. -/
def reserve (c b : Int) (k : Nat) (f : Flags) (h : Heap) : Option (Int × Int) × Heap :=
  match (if f.f4 then malloc h k else (some c, h)) with
  | (none, h) => (none, h)
  | (some c, h) =>
    match (if f.f2 then malloc h k else (some (if f.f4 then c else b), h)) with
    | (none, h) => (none, freeIf f.f1 h c k)
    | (some b, h) => (some (c, b), h)

/-- The second stage, lib/sais.c:624-705; `rec` is the recursive call. The result is where `c_p` and `b_p` are and the flags, `none` inside if an allocation failed. -/
def solve (rec : Txt → Nat → Nat → Nat → Heap → Option (Int × Heap)) (t : Txt) (fs n k mm : Nat) (name : Int) (c b : Int) (f : Flags) (h : Heap) :
    Option (Option (Int × Int × Flags) × Heap) :=
  let h := freeIf f.f2 (freeIf f.f4 h c k) b k
  let sp := newSpace fs n k mm name f
  let f := sp.2
  if ¬ n / 2 ≤ sp.1 + mm then none else do
    let m ← reducedText n mm (mm + sp.1) h.mem
    let r ← rec (.words (mm + sp.1)) sp.1 mm name.toNat { h with mem := m }
    if r.1 ≠ 0 then some (none, freeIf f.f1 r.2 c k)
    else do
      let m ← backToPositions t n mm (mm + sp.1) r.2.mem
      match reserve c b k f { r.2 with mem := m } with
      | (none, h) => some (none, h)
      | (some (c, b), h) => some (some (c, b, f), h)

/-- `if (flags & 8) get_counts(...)`, lib/sais.c:708-710. -/
def recount (t : Txt) (c : Int) (n k : Nat) (f : Flags) (m : Mem) : Option Mem := if f.f8 then getCounts t c n k m else some m

/-- The third stage, lib/sais.c:708-749. -/
def induceAll (t : Txt) (n k mm : Nat) (c b : Int) (f : Flags) (h : Heap) : Option Heap := do
  let m ← recount t c n k f h.mem
  let m ← putSorted t c b n k mm m
  let m ← induceSa t c b n k m
  some (freeIf f.f2 (freeIf (f.f1 || f.f4) { h with mem := m } c k) b k)

/-- `sais_main`, lib/sais.c:465-750. The first argument bounds the depth of the recursion. The result is the returned code. -/
def saisMain : Nat → Txt → Nat → Nat → Nat → Heap → Option (Int × Heap)
  | 0, _, _, _, _, _ => none
  | fuel + 1, t, fs, n, k, h =>
    if n = 0 ∨ k = 0 then none else
    match place fs n k h with
    | (none, h) => some (-2, h)
    | (some (c, b, f), h) => do
      let s ← placeSeeds t c b n k h.mem
      let r ← sortSubs t c b n k (chooseSort fs n k f) s { h with mem := s.m }
      match r with
      | (none, h) => some (-2, h)
      | (some name, h) =>
        if name < s.mm then do
          let r ← solve (saisMain fuel) t fs n k s.mm name c b (chooseSort fs n k f) h
          match r with
          | (none, h) => some (-2, h)
          | (some (c, b, f), h) => (induceAll t n k s.mm c b f h).map (fun h => (0, h))
        else (induceAll t n k s.mm c b (chooseSort fs n k f) h).map (fun h => (0, h))

/-- `sais`, lib/sais.c:752-767, on a text and an array of as many cells; `h` holds the array at address 0. -/
def sais (t : Bytes) (h : Heap) : Option (Int × Heap) :=
  if t.length ≤ 1 then
    if t.length = 1 then (wr h.mem 0 0).map (fun m => (0, { h with mem := m })) else some (0, h)
  else saisMain t.length (.bytes t) 0 t.length 256 h

/-- The array as `bpak_bsdiff_init` allocates it, lib/bsdiff.c:628, and an allocator whose outcomes are given, and the contents of its blocks. -/
def freshHeap (n : Nat) (fails : Nat → Bool) (junk : Int → Int) : Heap :=
  { mem := fun a => if 0 ≤ a ∧ a < n then some 0 else none, next := n + 1, fails := fails, junk := junk }

end Bpak.Sais
