import Verif.Model.HsDelta
import Verif.Model.Lzma
/-!
lib/bspatch.c with the callbacks of the API (`bpak_io_t read_origin`, `bpak_io_t write_output`, include/bpak/bpak.h:191-192): each call
may fail, or transfer less than was asked for. The state `σ` is whatever is behind the callbacks. The contexts are those of Model/Patch.lean,
Model/HsDelta.lean and Model/Lzma.lean; their field `out` and the field `rd` of `PatchCfg` are not used here.
-/
namespace Bpak

/-- `read_origin` and `write_output`, include/bpak/bpak.h:191-192: an error code, or the bytes read and the number of bytes written. -/
structure PatchIo (σ : Type) where
  rd : σ → Int → Nat → σ × Except Err Bytes
  wr : σ → Nat → Bytes → σ × Except Err Nat

/-- As `PIter`, with what is behind the callbacks. (lib/bspatch.c:61-208) -/
inductive IoIter (σ : Type) where
  | done (rc : Err) (p : Patcher) (s : σ)
  | more (p : Patcher) (s : σ) (rest : Bytes)
  | ub

/-- A call of `write_output` with the test of its result, lib/bspatch.c:132-147 and 171-185. -/
def ioPut {σ : Type} (io : PatchIo σ) (s : σ) (off : Nat) (b : Bytes) : σ × Option Err :=
  match io.wr s off b with
  | (s, .error e) => (s, some e)
  | (s, .ok n) => (s, if n ≠ b.length then some .patchWriteError else none)

/-- One pass of the `switch` in `bspatch_write`, lib/bspatch.c:61-208. -/
def patchIterIo {σ : Type} (io : PatchIo σ) (c : PatchCfg) (p : Patcher) (s : σ) (b : Bytes) : IoIter σ :=
  match p.st with
  | .fillCtrl =>
    if p.ctrl.length < 24 then
      let k := min b.length (24 - p.ctrl.length)
      let ctrl := p.ctrl ++ b.take k
      if ctrl.length = 24 then .more { p with ctrl := ctrl, st := .readCtrl } s (b.drop k)
      else .done .ok { p with ctrl := ctrl } s
    else .done .ok p s
  | .readCtrl =>
    let p := { p with
      diff := offtin (p.ctrl.take 8)
      extra := offtin ((p.ctrl.drop 8).take 8)
      adjust := offtin ((p.ctrl.drop 16).take 8)
      st := .applyDiff }
    if b = [] then .done .ok p s else .more p s b
  | .applyDiff =>
    let d : Int := min (min (b.length : Int) p.diff) c.bufLen
    if d < 0 then .ub
    else
      let p := { p with diff := p.diff - d }
      match io.rd s (c.originOff + p.originPos) d.toNat with
      | (s, .error e) => .done e { p with st := .error } s
      | (s, .ok o) =>
        if o.length ≠ d.toNat then .done .patchReadOriginError { p with st := .error } s
        else
          let p := { p with originPos := p.originPos + d }
          match ioPut io s (c.outOff + p.outPos) (List.zipWith (· + ·) o (b.take d.toNat)) with
          | (s, some e) => .done e { p with st := .error } s
          | (s, none) =>
            let p := { p with outPos := p.outPos + d.toNat }
            let p := if p.diff = 0 then (if p.extra > 0 then { p with st := .applyExtra } else p.nextRecord) else p
            let b := b.drop d.toNat
            if b = [] then .done .ok p s else .more p s b
  | .applyExtra =>
    let d : Int := min (b.length : Int) p.extra
    if d < 0 then .ub
    else
      let p := { p with extra := p.extra - d }
      match ioPut io s (c.outOff + p.outPos) (b.take d.toNat) with
      | (s, some e) => .done e { p with st := .error } s
      | (s, none) =>
        let p := { p with outPos := p.outPos + d.toNat }
        let b := b.drop d.toNat
        if p.extra = 0 then
          let p := p.nextRecord
          if b = [] then .done .ok p s else .more p s b
        else .done .ok p s
  | .error => .done .failed p s

/-- As `PRes`. (lib/bspatch.c:54-209) -/
inductive IoRes (σ : Type) where
  | ret (rc : Err) (p : Patcher) (s : σ)
  | ub
  | hang

/-- The `goto process_more` loop, lib/bspatch.c:61-208, as `patchLoop`. -/
def patchLoopIo {σ : Type} (io : PatchIo σ) (c : PatchCfg) : Nat → Patcher → σ → Bytes → IoRes σ
  | 0, _, _, _ => .hang
  | n+1, p, s, b =>
    match patchIterIo io c p s b with
    | .done rc p s => .ret rc p s
    | .more p s rest => patchLoopIo io c n p s rest
    | .ub => .ub

/-- `bspatch_write`, lib/bspatch.c:54-209. -/
def bspatchWriteIo {σ : Type} (io : PatchIo σ) (c : PatchCfg) (p : Patcher) (s : σ) (b : Bytes) : IoRes σ :=
  patchLoopIo io c (4 * b.length + 4) p s b

/-- Successive `bpak_bspatch_write` calls without compression, by a caller that stops at the first error. (lib/bspatch.c:415-437) -/
def bspatchRunIo {σ : Type} (io : PatchIo σ) (c : PatchCfg) (p : Patcher) (s : σ) : List Bytes → Drv (Patcher × σ)
  | [] => .ok (p, s)
  | b :: bs =>
    match bspatchWriteIo io c p s b with
    | .ret .ok p s => bspatchRunIo io c p s bs
    | .ret rc _ _ => .fail rc
    | .ub => .ub
    | .hang => .hang

/-! ### Heatshrink -/

/-- The inner `do … while` of `bspatch_hs_write`, lib/bspatch.c:346-363, as `hsPolls`. -/
def hsPollsIo {σ : Type} (io : PatchIo σ) (c : PatchCfg) : Nat → HsPatch → σ → Drv (HsPatch × σ)
  | 0, _, _ => .hang
  | k+1, h, s =>
    match decPoll h.dec c.bufLen with
    | none => .hang
    | some .ub => .ub
    | some (.ret (more, dec, e)) =>
      match bspatchWriteIo io c h.p s e with
      | .hang => .hang
      | .ub => .ub
      | .ret .ok p s => if more then hsPollsIo io c k ⟨dec, p, h.inPos⟩ s else .ok (⟨dec, p, h.inPos⟩, s)
      | .ret rc _ _ => .fail rc

/-- The inner loop with `goto poll_more`, lib/bspatch.c:346-372. -/
def hsDrainIo {σ : Type} (io : PatchIo σ) (c : PatchCfg) (inLen : Nat) : Nat → HsPatch → σ → Drv (HsPatch × σ)
  | 0, _, _ => .hang
  | k+1, h, s =>
    match hsPollsIo io c (2^19) h s with
    | .ok (h, s) => if h.inPos = inLen ∧ decFinish h.dec = false then hsDrainIo io c inLen k h s else .ok (h, s)
    | .fail rc => .fail rc
    | .ub => .ub
    | .hang => .hang

/-- The outer `do … while` of `bspatch_hs_write`, lib/bspatch.c:334-373. -/
def hsWriteGoIo {σ : Type} (io : PatchIo σ) (c : PatchCfg) (inLen : Nat) : Nat → HsPatch → σ → Bytes → Drv (HsPatch × σ)
  | 0, _, _, _ => .hang
  | k+1, h, s, rest =>
    match decSink h.dec rest with
    | .ub => .ub
    | .ret (n, dec) =>
      match hsDrainIo io c inLen 2 ⟨dec, h.p, h.inPos + n⟩ s with
      | .ok (h, s) => if rest.length > n then hsWriteGoIo io c inLen k h s (rest.drop n) else .ok (h, s)
      | .fail rc => .fail rc
      | .ub => .ub
      | .hang => .hang

/-- `bspatch_hs_write`, lib/bspatch.c:315-376. -/
def hsWriteIo {σ : Type} (io : PatchIo σ) (c : PatchCfg) (inLen : Nat) (h : HsPatch) (s : σ) (b : Bytes) : Drv (HsPatch × σ) :=
  if h.inPos ≥ inLen then .fail .failed else hsWriteGoIo io c inLen (b.length + 1) h s b

/-- Successive `bpak_bspatch_write` calls with heatshrink. (lib/bspatch.c:415-437) -/
def hsRunIo {σ : Type} (io : PatchIo σ) (c : PatchCfg) (inLen : Nat) (h : HsPatch) (s : σ) : List Bytes → Drv (HsPatch × σ)
  | [] => .ok (h, s)
  | b :: bs =>
    match hsWriteIo io c inLen h s b with
    | .ok (h, s) => hsRunIo io c inLen h s bs
    | .fail rc => .fail rc
    | .ub => .ub
    | .hang => .hang

/-! ### LZMA -/

/-- The loop of `bspatch_lzma_write`, lib/bspatch.c:280-308, as `lzPatchGo`. -/
def lzPatchGoIo [LzmaLib] {σ : Type} (io : PatchIo σ) (c : PatchCfg) (fin : Bool) : Nat → LzPatch → σ → Bytes → Drv (LzPatch × σ)
  | 0, _, _, _ => .hang
  | k+1, h, s, rest =>
    if rest = [] ∧ fin = false then .ok (h, s)
    else
      let d := LzmaLib.dec h.calls ⟨rest, 8192, fin⟩
      match (if d.out.length > 0 then bspatchWriteIo io c h.p s d.out else .ret .ok h.p s) with
      | .hang => .hang
      | .ub => .ub
      | .ret .ok p s =>
        match d.ret with
        | .ok => lzPatchGoIo io c fin k ⟨h.calls ++ [⟨rest, 8192, fin⟩], p⟩ s (rest.drop d.used)
        | .streamEnd => .ok (⟨h.calls ++ [⟨rest, 8192, fin⟩], p⟩, s)
        | .error => .fail .decompressorError
      | .ret rc _ _ => .fail rc

/-- `bspatch_lzma_write`, lib/bspatch.c:259-312. -/
def lzPatchWriteIo [LzmaLib] {σ : Type} (io : PatchIo σ) (c : PatchCfg) (h : LzPatch) (s : σ) (b : Bytes) : Drv (LzPatch × σ) :=
  lzPatchGoIo io c (decide (b.length = 0)) (LzmaLib.decRounds h.calls b + 1) h s b

/-- Successive `bpak_bspatch_write` calls with LZMA. (lib/bspatch.c:415-437) -/
def lzPatchRunIo [LzmaLib] {σ : Type} (io : PatchIo σ) (c : PatchCfg) (h : LzPatch) (s : σ) : List Bytes → Drv (LzPatch × σ)
  | [] => .ok (h, s)
  | b :: bs =>
    match lzPatchWriteIo io c h s b with
    | .ok (h, s) => lzPatchRunIo io c h s bs
    | .fail rc => .fail rc
    | .ub => .ub
    | .hang => .hang

/-- `bpak_bspatch_final`, lib/bspatch.c:439-463, with LZMA: the output size and what is behind the callbacks. -/
def lzPatchFinalIo [LzmaLib] {σ : Type} (io : PatchIo σ) (c : PatchCfg) (h : LzPatch) (s : σ) : Drv (Nat × σ) :=
  if h.p.st = .error then .fail .failed
  else match lzPatchWriteIo io c h s [] with
    | .ok (h, s) => .ok (h.p.outPos, s)
    | .fail rc => .fail rc
    | .ub => .ub
    | .hang => .hang

end Bpak
