import Verif.Model.File
/-!
lib/bspatch.c: the patch decoder (uncompressed path: `bpak_bspatch_write` hands every chunk to
`bspatch_write`, lib/bspatch.c:421-423; the heatshrink path feeds the same function).
Positions are unbounded integers (C: `off_t`/`int64_t`; overflow is outside the model).
-/
namespace Bpak

/-- Read the `i`-th byte of a buffer as a number. (lib/bspatch.c:28-52) -/
def byteN (b : Bytes) (i : Nat) : Nat := (b.getD i 0).toNat

/-- `offtin`, lib/bspatch.c:28-52, on the 8 bytes at `buf`. -/
def offtin (b : Bytes) : Int :=
  let y := byteN b 7 % 128
  let y := y * 256 + byteN b 6
  let y := y * 256 + byteN b 5
  let y := y * 256 + byteN b 4
  let y := y * 256 + byteN b 3
  let y := y * 256 + byteN b 2
  let y := y * 256 + byteN b 1
  let y := y * 256 + byteN b 0
  if byteN b 7 ≥ 128 then -(y : Int) else (y : Int)

/-- `enum bpak_bspatch_state`, include/bpak/bspatch.h:30-37 (FINISH is never entered). -/
inductive PState where
  | fillCtrl | readCtrl | applyDiff | applyExtra | error
  deriving DecidableEq, Repr

/-- `struct bpak_bspatch_context`, include/bpak/bspatch.h:39-67: the part the state machine changes.
`ctrl` is the filled prefix of `ctrl_buf` (its length is `ctrl_buf_count`); `out` is the output file. -/
structure Patcher where
  st : PState
  ctrl : Bytes
  diff : Int
  extra : Int
  adjust : Int
  originPos : Int
  outPos : Nat
  out : Bytes
  deriving DecidableEq, Repr

/-- The part fixed by `bpak_bspatch_init` (lib/bspatch.c:378-413): the origin reader (`none`: fewer
bytes than asked, or an error), the two stream offsets and half the work buffer. Writes to the output
always succeed in the model. -/
structure PatchCfg where
  rd : Int → Nat → Option Bytes
  originOff : Int
  outOff : Nat
  bufLen : Nat

/-- State after `bpak_bspatch_init`, lib/bspatch.c:378-413 (`memset(ctx, 0, …)`); `f` is the output
file at that moment. -/
def Patcher.init (f : Bytes) : Patcher := ⟨.fillCtrl, [], 0, 0, 0, 0, 0, f⟩

/-- Result of one pass through the `switch` of `bspatch_write`: `break`/return with a code, or
`goto process_more` with the rest of the chunk. `ub`: a negative length is passed on as a `size_t`. (lib/bspatch.c:61-208) -/
inductive PIter where
  | done (rc : Err) (p : Patcher)
  | more (p : Patcher) (rest : Bytes)
  | ub

/-- What follows the last diff or extra byte of a record, lib/bspatch.c:155-157, 191-193 and 183-185. -/
def Patcher.nextRecord (p : Patcher) : Patcher :=
  { p with originPos := p.originPos + p.adjust, st := .fillCtrl, ctrl := [] }

/-- One pass of the `switch` in `bspatch_write`, lib/bspatch.c:61-208; `b` is the unread part of the
chunk. -/
def patchIter (c : PatchCfg) (p : Patcher) (b : Bytes) : PIter :=
  match p.st with
  | .fillCtrl =>
    if p.ctrl.length < 24 then
      let k := min b.length (24 - p.ctrl.length)
      let ctrl := p.ctrl ++ b.take k
      if ctrl.length = 24 then .more { p with ctrl := ctrl, st := .readCtrl } (b.drop k)
      else .done .ok { p with ctrl := ctrl }
    else .done .ok p
  | .readCtrl =>
    let p := { p with
      diff := offtin (p.ctrl.take 8)
      extra := offtin ((p.ctrl.drop 8).take 8)
      adjust := offtin ((p.ctrl.drop 16).take 8)
      st := .applyDiff }
    if b = [] then .done .ok p else .more p b
  | .applyDiff =>
    let d : Int := min (min (b.length : Int) p.diff) c.bufLen
    if d < 0 then .ub
    else
      let p := { p with diff := p.diff - d }
      match c.rd (c.originOff + p.originPos) d.toNat with
      | none => .done .patchReadOriginError { p with st := .error }
      | some o =>
        let buf := List.zipWith (· + ·) o (b.take d.toNat)
        let p := { p with
          originPos := p.originPos + d
          out := fileWrite p.out (c.outOff + p.outPos) buf
          outPos := p.outPos + d.toNat }
        let p := if p.diff = 0 then (if p.extra > 0 then { p with st := .applyExtra } else p.nextRecord) else p
        let b := b.drop d.toNat
        if b = [] then .done .ok p else .more p b
  | .applyExtra =>
    let d : Int := min (b.length : Int) p.extra
    if d < 0 then .ub
    else
      let p := { p with
        extra := p.extra - d
        out := fileWrite p.out (c.outOff + p.outPos) (b.take d.toNat)
        outPos := p.outPos + d.toNat }
      let b := b.drop d.toNat
      if p.extra = 0 then
        let p := p.nextRecord
        if b = [] then .done .ok p else .more p b
      else .done .ok p
  | .error => .done .failed p

/-- Result of a call: return code and context, undefined behaviour, or no return at all. (lib/bspatch.c:54-209) -/
inductive PRes where
  | ret (rc : Err) (p : Patcher)
  | ub
  | hang
  deriving DecidableEq, Repr

/-- The `goto process_more` loop. The first argument bounds the number of passes; the proofs show that
the bound used in `bspatchWrite` is never reached (`hang` does not occur) when the work buffer is not
empty. (lib/bspatch.c:61-208) -/
def patchLoop (c : PatchCfg) : Nat → Patcher → Bytes → PRes
  | 0, _, _ => .hang
  | n+1, p, b =>
    match patchIter c p b with
    | .done rc p' => .ret rc p'
    | .more p' rest => patchLoop c n p' rest
    | .ub => .ub

/-- `bspatch_write`, lib/bspatch.c:54-209 (and `bpak_bspatch_write`, 415-437, without compression). -/
def bspatchWrite (c : PatchCfg) (p : Patcher) (b : Bytes) : PRes := patchLoop c (4 * b.length + 4) p b

/-- Outcome of a sequence of calls by a caller that stops at the first error (as
lib/transport_decode.c:287-321 and its callers do). -/
inductive POut where
  | ok (p : Patcher)
  | fail (rc : Err)
  | ub
  | hang
  deriving DecidableEq, Repr

/-- What a call gave, without the context, lib/bspatch.c:54-209. -/
def PRes.out : PRes → POut
  | .ret .ok p => .ok p
  | .ret rc _ => .fail rc
  | .ub => .ub
  | .hang => .hang

/-- Successive `bpak_bspatch_write` calls. (lib/bspatch.c:415-437) -/
def bspatchRun (c : PatchCfg) (p : Patcher) : List Bytes → POut
  | [] => .ok p
  | b :: bs => match (bspatchWrite c p b).out with
    | .ok p' => bspatchRun c p' bs
    | .fail rc => .fail rc
    | .ub => .ub
    | .hang => .hang

/-- `bpak_bspatch_final`, lib/bspatch.c:439-463, without compression: `none` is -1, else the output
size. -/
def bspatchFinal (p : Patcher) : Option Nat := if p.st = .error then none else some p.outPos

end Bpak
