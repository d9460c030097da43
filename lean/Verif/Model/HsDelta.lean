import Verif.Model.Patch
import Verif.Model.Diff
import Verif.Model.HsEnc
/-!
The two users of heatshrink: the delta encoder's compressor (lib/bsdiff.c:231-320) and the delta decoder's decompressor
(lib/bspatch.c:315-376).
-/
namespace Bpak

/-- Outcome of a driver: a new state, an error code, undefined behaviour, or no return. (no C counterpart) -/
inductive Drv (α : Type) where
  | ok (a : α)
  | fail (rc : Err)
  | ub
  | hang
  deriving DecidableEq, Repr

/-- `struct bpak_bsdiff_context`, include/bpak/bsdiff.h:24-46: the compressor, the output file and `output_pos`. -/
structure HsComp where
  enc : HsEnc
  file : Bytes
  pos : Nat
  deriving DecidableEq, Repr

/-- After `bpak_bsdiff_init` with `BPAK_COMPRESSION_HS`, lib/bsdiff.c:329-341. -/
def HsComp.init (f : Bytes) : HsComp := ⟨HsEnc.reset, f, 0⟩

/-- `ctx->write_output` and the step of `output_pos`, lib/bsdiff.c:266-277 and 299-312. Writes always succeed in the
model. -/
def HsComp.emit (off : Nat) (s : HsComp) (enc : HsEnc) (e : Bytes) : HsComp :=
  if e.length > 0 then ⟨enc, fileWrite s.file (off + s.pos) e, s.pos + e.length⟩ else ⟨enc, s.file, s.pos⟩

/-- The inner `do … while` of `hs_compressor_write`, lib/bsdiff.c:257-278. The first argument bounds the rounds. -/
def compPolls (off : Nat) : Nat → HsComp → Drv HsComp
  | 0, _ => .hang
  | k+1, s =>
    match encPollCall s.enc 4096 with
    | none => .hang
    | some .ub => .ub
    | some (.ret none) => .fail .compressorError
    | some (.ret (some (more, enc, e))) => if more then compPolls off k (s.emit off enc e) else .ok (s.emit off enc e)

/-- The outer `do … while` of `hs_compressor_write`, lib/bsdiff.c:244-280; `rest` is `&buffer[sunk]`, `all` is `length`. -/
def compWriteGo (off all : Nat) : Nat → HsComp → Bytes → Drv HsComp
  | 0, _, _ => .hang
  | k+1, s, rest =>
    match (if all > 0 then encSink s.enc rest else .ret (some (0, s.enc))) with
    | .ub => .ub
    | .ret none => .fail .compressorError
    | .ret (some (n, enc)) =>
      match compPolls off 2 { s with enc := enc } with
      | .ok s => if rest.length > n then compWriteGo off all k s (rest.drop n) else .ok s
      | .fail rc => .fail rc
      | .ub => .ub
      | .hang => .hang

/-- `hs_compressor_write`, lib/bsdiff.c:231-283. -/
def compWrite (off : Nat) (s : HsComp) (b : Bytes) : Drv HsComp := compWriteGo off b.length (b.length + 1) s b

/-- `hs_compressor_final`, lib/bsdiff.c:285-327. -/
def compFinalGo (off : Nat) : Nat → HsComp → Drv HsComp
  | 0, _ => .hang
  | k+1, s =>
    let enc := (encFinish s.enc).2
    if (encFinish s.enc).1 then .ok { s with enc := enc }
    else
      match encPollCall enc 4096 with
      | none => .hang
      | some .ub => .ub
      | some (.ret none) => .fail .compressorError
      | some (.ret (some (_, enc, e))) => compFinalGo off k (s.emit off enc e)

/-- Successive `compressor_write` calls, lib/bsdiff.c:378-415, stopping at an error. -/
def compRun (off : Nat) (s : HsComp) : List Bytes → Drv HsComp
  | [] => .ok s
  | b :: bs =>
    match compWrite off s b with
    | .ok s => compRun off s bs
    | .fail rc => .fail rc
    | .ub => .ub
    | .hang => .hang

/-- `bpak_bsdiff` with `BPAK_COMPRESSION_HS`, lib/bsdiff.c:660-727: the encoder's buffers go through the compressor, which is
then finished; the file and `output_pos` result. -/
def bsdiffHs (srch : Int → Option (Int × Int)) (o n : Bytes) (off : Nat) (f : Bytes) : Option (Drv HsComp) :=
  match bsdiffWith srch o n with
  | none => none
  | some bufs =>
    match compRun off (HsComp.init f) bufs with
    | .ok s => some (compFinalGo off 3 s)
    | r => some r

/-- `struct bpak_bspatch_context` with the decompressor and `input_position`. (include/bpak/bspatch.h:39-67) -/
structure HsPatch where
  dec : HsDec
  p : Patcher
  inPos : Nat
  deriving DecidableEq, Repr

/-- After `bpak_bspatch_init` with `BPAK_COMPRESSION_HS`, lib/bspatch.c:211-218 and 378-413. -/
def HsPatch.init (f : Bytes) : HsPatch := ⟨HsDec.reset, Patcher.init f, 0⟩

/-- The inner `do … while` of `bspatch_hs_write`, lib/bspatch.c:346-363. The first argument bounds the rounds. -/
def hsPolls (c : PatchCfg) : Nat → HsPatch → Drv HsPatch
  | 0, _ => .hang
  | k+1, s =>
    match decPoll s.dec c.bufLen with
    | none => .hang
    | some .ub => .ub
    | some (.ret (more, dec, e)) =>
      match bspatchWrite c s.p e with
      | .hang => .hang
      | .ub => .ub
      | .ret .ok p => if more then hsPolls c k ⟨dec, p, s.inPos⟩ else .ok ⟨dec, p, s.inPos⟩
      | .ret rc _ => .fail rc

/-- The inner loop with `goto poll_more`, lib/bspatch.c:346-372. -/
def hsDrain (c : PatchCfg) (inLen : Nat) : Nat → HsPatch → Drv HsPatch
  | 0, _ => .hang
  | k+1, s =>
    match hsPolls c (2^19) s with
    | .ok s => if s.inPos = inLen ∧ decFinish s.dec = false then hsDrain c inLen k s else .ok s
    | r => r

/-- The outer `do … while` of `bspatch_hs_write`, lib/bspatch.c:334-373; `rest` is `&buffer[sunk]`. -/
def hsWriteGo (c : PatchCfg) (inLen : Nat) : Nat → HsPatch → Bytes → Drv HsPatch
  | 0, _, _ => .hang
  | k+1, s, rest =>
    match decSink s.dec rest with
    | .ub => .ub
    | .ret (n, dec) =>
      match hsDrain c inLen 2 ⟨dec, s.p, s.inPos + n⟩ with
      | .ok s => if rest.length > n then hsWriteGo c inLen k s (rest.drop n) else .ok s
      | r => r

/-- `bspatch_hs_write`, lib/bspatch.c:315-376. -/
def hsWrite (c : PatchCfg) (inLen : Nat) (s : HsPatch) (b : Bytes) : Drv HsPatch :=
  if s.inPos ≥ inLen then .fail .failed else hsWriteGo c inLen (b.length + 1) s b

/-- Successive `bpak_bspatch_write` calls by a caller that stops at the first error. (lib/bspatch.c:415-437) -/
def hsRun (c : PatchCfg) (inLen : Nat) (s : HsPatch) : List Bytes → Drv HsPatch
  | [] => .ok s
  | b :: bs =>
    match hsWrite c inLen s b with
    | .ok s => hsRun c inLen s bs
    | r => r

end Bpak
