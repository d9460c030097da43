import Verif.Model.HsDelta
/-!
The two users of liblzma: the delta encoder's compressor (lib/bsdiff.c:139-229) and the delta decoder's decompressor
(lib/bspatch.c:219-232, 258-313, 450-457). liblzma itself is a parameter: what a call of `lzma_code` does is a function of the calls made
on the stream before and of the arguments. That the streams can be set up is assumed (no memory exhaustion).
-/
namespace Bpak

/-- The arguments of a call `lzma_code(strm, action)`: the input (`next_in`, `avail_in`), the room for output (`avail_out`), and whether the
action is LZMA_FINISH (else LZMA_RUN). (liblzma, as called in lib/bsdiff.c:154, 196 and lib/bspatch.c:281) -/
structure LzCall where
  input : Bytes
  room : Nat
  finish : Bool
  deriving DecidableEq, Repr

/-- `lzma_ret`: LZMA_OK, LZMA_STREAM_END or any other value. (as told apart in lib/bsdiff.c:157, 198, 222 and lib/bspatch.c:299-306) -/
inductive LzRet where
  | ok | streamEnd | error
  deriving DecidableEq, Repr

/-- What a call did: its value, how many input bytes it took, and the bytes it stored. (liblzma) -/
structure LzDone where
  ret : LzRet
  used : Nat
  out : Bytes
  deriving DecidableEq, Repr

/-- liblzma: the coders made by `lzma_stream_encoder` (lib/bsdiff.c:354-360) and `lzma_stream_decoder` (lib/bspatch.c:223). The first argument are
the calls before, oldest first. `encRounds` and `decRounds` bound the number of calls that a loop makes from there; they only serve to make
the loops of the model total functions, and the laws in Spec/Lzma.lean say that they suffice. -/
class LzmaLib where
  enc : List LzCall → LzCall → LzDone
  dec : List LzCall → LzCall → LzDone
  encRounds : List LzCall → Bytes → Nat
  decRounds : List LzCall → Bytes → Nat

/-! ### Compression -/

/-- `struct bpak_bsdiff_context`, include/bpak/bsdiff.h:24-46: the compressor, the output file and `output_pos`. -/
structure LzComp where
  calls : List LzCall
  file : Bytes
  pos : Nat
  deriving DecidableEq, Repr

/-- After `bpak_bsdiff_init` with `BPAK_COMPRESSION_LZMA`, lib/bsdiff.c:343-370. -/
def LzComp.init (f : Bytes) : LzComp := ⟨[], f, 0⟩

/-- The output of a call is written, lib/bsdiff.c:162-178 and 203-220. Writes always succeed in the model. -/
def LzComp.emit (off : Nat) (s : LzComp) (c : LzCall) (e : Bytes) : LzComp :=
  if e.length > 0 then ⟨s.calls ++ [c], fileWrite s.file (off + s.pos) e, s.pos + e.length⟩ else ⟨s.calls ++ [c], s.file, s.pos⟩

/-- The loop of `lzma_compressor_write`, lib/bsdiff.c:153-179; `rest` is the input left (`avail_in`). The first argument bounds the rounds. -/
def lzWriteGo [LzmaLib] (off : Nat) : Nat → LzComp → Bytes → Drv LzComp
  | 0, _, _ => .hang
  | k+1, s, rest =>
    if rest = [] then .ok s
    else if (LzmaLib.enc s.calls ⟨rest, 4096, false⟩).ret ≠ .ok then .fail .compressorError
    else lzWriteGo off k (s.emit off ⟨rest, 4096, false⟩ (LzmaLib.enc s.calls ⟨rest, 4096, false⟩).out) (rest.drop (LzmaLib.enc s.calls ⟨rest, 4096, false⟩).used)

/-- `lzma_compressor_write`, lib/bsdiff.c:140-181. -/
def lzCompWrite [LzmaLib] (off : Nat) (s : LzComp) (b : Bytes) : Drv LzComp := lzWriteGo off (LzmaLib.encRounds s.calls b + 1) s b

/-- The loop of `lzma_compressor_final`, lib/bsdiff.c:195-224. -/
def lzFinalGo [LzmaLib] (off : Nat) : Nat → LzComp → Drv LzComp
  | 0, _ => .hang
  | k+1, s =>
    match (LzmaLib.enc s.calls ⟨[], 4096, true⟩).ret with
    | .error => .fail .compressorError
    | .ok => lzFinalGo off k (s.emit off ⟨[], 4096, true⟩ (LzmaLib.enc s.calls ⟨[], 4096, true⟩).out)
    | .streamEnd => .ok (s.emit off ⟨[], 4096, true⟩ (LzmaLib.enc s.calls ⟨[], 4096, true⟩).out)

/-- `lzma_compressor_final`, lib/bsdiff.c:183-227. -/
def lzCompFinal [LzmaLib] (off : Nat) (s : LzComp) : Drv LzComp := lzFinalGo off (LzmaLib.encRounds s.calls [] + 1) s

/-- Successive `compressor_write` calls, lib/bsdiff.c:378-415, stopping at an error. -/
def lzCompRun [LzmaLib] (off : Nat) (s : LzComp) : List Bytes → Drv LzComp
  | [] => .ok s
  | b :: bs =>
    match lzCompWrite off s b with
    | .ok s => lzCompRun off s bs
    | .fail rc => .fail rc
    | .ub => .ub
    | .hang => .hang

/-- `bpak_bsdiff` with `BPAK_COMPRESSION_LZMA`, lib/bsdiff.c:660-727, as `bsdiffHs`. -/
def bsdiffLzma [LzmaLib] (srch : Int → Option (Int × Int)) (o n : Bytes) (off : Nat) (f : Bytes) : Option (Drv LzComp) :=
  match bsdiffWith srch o n with
  | none => none
  | some bufs =>
    match lzCompRun off (LzComp.init f) bufs with
    | .ok s => some (lzCompFinal off s)
    | r => some r

/-! ### Decompression -/

/-- `struct bpak_bspatch_context` with the decompressor. (include/bpak/bspatch.h:39-67) -/
structure LzPatch where
  calls : List LzCall
  p : Patcher
  deriving DecidableEq, Repr

/-- After `bpak_bspatch_init` with `BPAK_COMPRESSION_LZMA`, lib/bspatch.c:219-232 and 378-413. -/
def LzPatch.init (f : Bytes) : LzPatch := ⟨[], Patcher.init f⟩

/-- What was decompressed goes to `bspatch_write`, unless it is nothing. (lib/bspatch.c:283-297) -/
def lzPass (c : PatchCfg) (p : Patcher) (e : Bytes) : PRes := if e.length > 0 then bspatchWrite c p e else .ret .ok p

/-- The loop of `bspatch_lzma_write`, lib/bspatch.c:280-308. The buffer has BUFSIZ bytes: 8192 (glibc). The first argument bounds the rounds. -/
def lzPatchGo [LzmaLib] (c : PatchCfg) (fin : Bool) : Nat → LzPatch → Bytes → Drv LzPatch
  | 0, _, _ => .hang
  | k+1, s, rest =>
    if rest = [] ∧ fin = false then .ok s
    else match lzPass c s.p (LzmaLib.dec s.calls ⟨rest, 8192, fin⟩).out with
      | .hang => .hang
      | .ub => .ub
      | .ret .ok p =>
        match (LzmaLib.dec s.calls ⟨rest, 8192, fin⟩).ret with
        | .ok => lzPatchGo c fin k ⟨s.calls ++ [⟨rest, 8192, fin⟩], p⟩ (rest.drop (LzmaLib.dec s.calls ⟨rest, 8192, fin⟩).used)
        | .streamEnd => .ok ⟨s.calls ++ [⟨rest, 8192, fin⟩], p⟩
        | .error => .fail .decompressorError
      | .ret rc _ => .fail rc

/-- `bspatch_lzma_write`, lib/bspatch.c:259-312: an empty buffer means LZMA_FINISH. -/
def lzPatchWrite [LzmaLib] (c : PatchCfg) (s : LzPatch) (b : Bytes) : Drv LzPatch :=
  lzPatchGo c (decide (b.length = 0)) (LzmaLib.decRounds s.calls b + 1) s b

/-- Successive `bpak_bspatch_write` calls by a caller that stops at the first error. (lib/bspatch.c:415-437) -/
def lzPatchRun [LzmaLib] (c : PatchCfg) (s : LzPatch) : List Bytes → Drv LzPatch
  | [] => .ok s
  | b :: bs =>
    match lzPatchWrite c s b with
    | .ok s => lzPatchRun c s bs
    | r => r

/-- `bpak_bspatch_final`, lib/bspatch.c:439-463, with LZMA: the context and the output size. -/
def lzPatchFinal [LzmaLib] (c : PatchCfg) (s : LzPatch) : Drv (LzPatch × Nat) :=
  if s.p.st = .error then .fail .failed
  else match lzPatchWrite c s [] with
    | .ok s => .ok (s, s.p.outPos)
    | .fail rc => .fail rc
    | .ub => .ub
    | .hang => .hang

end Bpak
