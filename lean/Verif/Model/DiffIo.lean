import Verif.Model.Lzma
/-!
`bpak_bsdiff` with the callback of the API, which may fail or write less than was asked for: the compressors of lib/bsdiff.c, as in
Model/HsDelta.lean and Model/Lzma.lean, but with every write going through it. The field `file` of the contexts is not used here.
What is compared and searched does not depend on writes, so the encoder's buffers are those of `bsdiffWith` (Model/Diff.lean).
-/
namespace Bpak
variable {σ : Type}

/-- `write_output` of the delta encoder (include/bpak/bsdiff.h:24-46, `bpak_io_t`): an error code, or how much was written. -/
structure DiffIo (σ : Type) where
  wr : σ → Nat → Bytes → σ × Except Err Nat

/-- A call of `write_output` with the test of its result, lib/bsdiff.c:162-173, 205-216, 266-276, 309-320 and 383-398. -/
def diffPut (io : DiffIo σ) (t : σ) (off : Nat) (b : Bytes) : σ × Option Err :=
  match io.wr t off b with
  | (t, .error e) => (t, some e)
  | (t, .ok n) => (t, if n ≠ b.length then some .writeError else none)

/-! ### No compression -/

/-- Successive writes of `compressor_write`, lib/bsdiff.c:378-401: the state and `output_pos`. -/
def plainRunIo (io : DiffIo σ) (off : Nat) (t : σ) (pos : Nat) : List Bytes → Drv (σ × Nat)
  | [] => .ok (t, pos)
  | b :: bs =>
    match diffPut io t (off + pos) b with
    | (_, some e) => .fail e
    | (t, none) => plainRunIo io off t (pos + b.length) bs

/-- `bpak_bsdiff` with `BPAK_COMPRESSION_NONE`, lib/bsdiff.c:660-717. Result: the state and what is returned. -/
def bsdiffPlainIo (io : DiffIo σ) (srch : Int → Option (Int × Int)) (o n : Bytes) (off : Nat) (t : σ) : Drv (σ × Nat) :=
  match bsdiffWith srch o n with
  | none => .ub
  | some bufs => plainRunIo io off t 0 bufs

/-! ### heatshrink -/

/-- The output of a poll is written if there is any, lib/bsdiff.c:266-277 and 309-323. -/
def hsEmitIo (io : DiffIo σ) (off : Nat) (s : HsComp) (t : σ) (enc : HsEnc) (e : Bytes) : Drv (HsComp × σ) :=
  if e.length > 0 then
    match diffPut io t (off + s.pos) e with
    | (_, some e) => .fail e
    | (t, none) => .ok (⟨enc, s.file, s.pos + e.length⟩, t)
  else .ok (⟨enc, s.file, s.pos⟩, t)

/-- The inner loop of `hs_compressor_write`, lib/bsdiff.c:257-278, as `compPolls`. -/
def compPollsIo (io : DiffIo σ) (off : Nat) : Nat → HsComp → σ → Drv (HsComp × σ)
  | 0, _, _ => .hang
  | k+1, s, t =>
    match encPollCall s.enc 4096 with
    | none => .hang
    | some .ub => .ub
    | some (.ret none) => .fail .compressorError
    | some (.ret (some (more, enc, e))) =>
      match hsEmitIo io off s t enc e with
      | .ok (s, t) => if more then compPollsIo io off k s t else .ok (s, t)
      | .fail rc => .fail rc
      | .ub => .ub
      | .hang => .hang

/-- The outer loop, lib/bsdiff.c:244-280, as `compWriteGo`. -/
def compWriteGoIo (io : DiffIo σ) (off all : Nat) : Nat → HsComp → σ → Bytes → Drv (HsComp × σ)
  | 0, _, _, _ => .hang
  | k+1, s, t, rest =>
    match (if all > 0 then encSink s.enc rest else .ret (some (0, s.enc))) with
    | .ub => .ub
    | .ret none => .fail .compressorError
    | .ret (some (n, enc)) =>
      match compPollsIo io off 2 { s with enc := enc } t with
      | .ok (s, t) => if rest.length > n then compWriteGoIo io off all k s t (rest.drop n) else .ok (s, t)
      | .fail rc => .fail rc
      | .ub => .ub
      | .hang => .hang

/-- `hs_compressor_final`, lib/bsdiff.c:285-327, as `compFinalGo`. -/
def compFinalGoIo (io : DiffIo σ) (off : Nat) : Nat → HsComp → σ → Drv (HsComp × σ)
  | 0, _, _ => .hang
  | k+1, s, t =>
    if (encFinish s.enc).1 then .ok ({ s with enc := (encFinish s.enc).2 }, t)
    else
      match encPollCall (encFinish s.enc).2 4096 with
      | none => .hang
      | some .ub => .ub
      | some (.ret none) => .fail .compressorError
      | some (.ret (some (_, enc, e))) =>
        match hsEmitIo io off s t enc e with
        | .ok (s, t) => compFinalGoIo io off k s t
        | .fail rc => .fail rc
        | .ub => .ub
        | .hang => .hang

/-- Successive `compressor_write` calls, lib/bsdiff.c:231-283 and 378-415, stopping at an error. -/
def compRunIo (io : DiffIo σ) (off : Nat) (s : HsComp) (t : σ) : List Bytes → Drv (HsComp × σ)
  | [] => .ok (s, t)
  | b :: bs =>
    match compWriteGoIo io off b.length (b.length + 1) s t b with
    | .ok (s, t) => compRunIo io off s t bs
    | .fail rc => .fail rc
    | .ub => .ub
    | .hang => .hang

/-- `bpak_bsdiff` with `BPAK_COMPRESSION_HS`, lib/bsdiff.c:660-717. Result: the state and what is returned. -/
def bsdiffHsIo (io : DiffIo σ) (srch : Int → Option (Int × Int)) (o n : Bytes) (off : Nat) (t : σ) : Drv (σ × Nat) :=
  match bsdiffWith srch o n with
  | none => .ub
  | some bufs =>
    match compRunIo io off (HsComp.init []) t bufs with
    | .ok (s, t) =>
      match compFinalGoIo io off 3 s t with
      | .ok (s, t) => .ok (t, s.pos)
      | .fail rc => .fail rc
      | .ub => .ub
      | .hang => .hang
    | .fail rc => .fail rc
    | .ub => .ub
    | .hang => .hang

/-! ### LZMA -/

/-- The output of a call is written if there is any, lib/bsdiff.c:162-178 and 203-220. -/
def lzEmitIo (io : DiffIo σ) (off : Nat) (s : LzComp) (t : σ) (c : LzCall) (e : Bytes) : Drv (LzComp × σ) :=
  if e.length > 0 then
    match diffPut io t (off + s.pos) e with
    | (_, some e) => .fail e
    | (t, none) => .ok (⟨s.calls ++ [c], s.file, s.pos + e.length⟩, t)
  else .ok (⟨s.calls ++ [c], s.file, s.pos⟩, t)

/-- The loop of `lzma_compressor_write`, lib/bsdiff.c:153-179, as `lzWriteGo`. -/
def lzWriteGoIo [LzmaLib] (io : DiffIo σ) (off : Nat) : Nat → LzComp → σ → Bytes → Drv (LzComp × σ)
  | 0, _, _, _ => .hang
  | k+1, s, t, rest =>
    if rest = [] then .ok (s, t)
    else if (LzmaLib.enc s.calls ⟨rest, 4096, false⟩).ret ≠ .ok then .fail .compressorError
    else
      match lzEmitIo io off s t ⟨rest, 4096, false⟩ (LzmaLib.enc s.calls ⟨rest, 4096, false⟩).out with
      | .ok (s', t) => lzWriteGoIo io off k s' t (rest.drop (LzmaLib.enc s.calls ⟨rest, 4096, false⟩).used)
      | .fail rc => .fail rc
      | .ub => .ub
      | .hang => .hang

/-- The loop of `lzma_compressor_final`, lib/bsdiff.c:195-224, as `lzFinalGo`. -/
def lzFinalGoIo [LzmaLib] (io : DiffIo σ) (off : Nat) : Nat → LzComp → σ → Drv (LzComp × σ)
  | 0, _, _ => .hang
  | k+1, s, t =>
    match (LzmaLib.enc s.calls ⟨[], 4096, true⟩).ret with
    | .error => .fail .compressorError
    | .ok =>
      match lzEmitIo io off s t ⟨[], 4096, true⟩ (LzmaLib.enc s.calls ⟨[], 4096, true⟩).out with
      | .ok (s, t) => lzFinalGoIo io off k s t
      | .fail rc => .fail rc
      | .ub => .ub
      | .hang => .hang
    | .streamEnd => lzEmitIo io off s t ⟨[], 4096, true⟩ (LzmaLib.enc s.calls ⟨[], 4096, true⟩).out

/-- Successive `compressor_write` calls, lib/bsdiff.c:140-181 and 378-415, stopping at an error. -/
def lzCompRunIo [LzmaLib] (io : DiffIo σ) (off : Nat) (s : LzComp) (t : σ) : List Bytes → Drv (LzComp × σ)
  | [] => .ok (s, t)
  | b :: bs =>
    match lzWriteGoIo io off (LzmaLib.encRounds s.calls b + 1) s t b with
    | .ok (s, t) => lzCompRunIo io off s t bs
    | .fail rc => .fail rc
    | .ub => .ub
    | .hang => .hang

/-- `bpak_bsdiff` with `BPAK_COMPRESSION_LZMA`, lib/bsdiff.c:183-227 and 660-722. Result: the state and what is returned. -/
def bsdiffLzmaIo [LzmaLib] (io : DiffIo σ) (srch : Int → Option (Int × Int)) (o n : Bytes) (off : Nat) (t : σ) : Drv (σ × Nat) :=
  match bsdiffWith srch o n with
  | none => .ub
  | some bufs =>
    match lzCompRunIo io off (LzComp.init []) t bufs with
    | .ok (s, t) =>
      match lzFinalGoIo io off (LzmaLib.encRounds s.calls [] + 1) s t with
      | .ok (s, t) => .ok (t, s.pos)
      | .fail rc => .fail rc
      | .ub => .ub
      | .hang => .hang
    | .fail rc => .fail rc
    | .ub => .ub
    | .hang => .hang

end Bpak
