import Verif.Model.DiffIo
import Verif.Spec.Patch
/-!
The delta encoder's callback, which may fail.
-/
namespace Bpak

/-- The callback does what it says, on the bytes that are stored (`view`): a write that reports all bytes has written them. It may fail or fall
short at any time; then it may have done anything. -/
def HonestDiff {σ : Type} (io : DiffIo σ) (view : σ → Bytes) : Prop :=
  ∀ t off b t' n, io.wr t off b = (t', .ok n) → n = b.length → view t' = fileWrite (view t) off b

/-- `e` is what the callback answered, or the code for a write that fell short. -/
def FromDiffIo {σ : Type} (io : DiffIo σ) (e : Err) : Prop :=
  (∃ t off b t', io.wr t off b = (t', .error e)) ∨ (e = .writeError ∧ ∃ t off b t' n, io.wr t off b = (t', .ok n) ∧ n ≠ b.length)

/-- `z`, cut in any way, is a delta from `o` to `n`: applied to `o`, it succeeds, puts `n` in its place and reports its length. Without
compression; compressed with heatshrink; with LZMA. -/
def DeltaPlain (o n z : Bytes) : Prop :=
  ∀ (f : Bytes) (outOff bufLen : Nat), 0 < bufLen → ∀ xs : List Bytes, xs.flatten = z →
    ∃ p, bspatchRun (patchCfg o 0 outOff bufLen) (Patcher.init f) xs = .ok p ∧ p.out = fileWrite f outOff n ∧ bspatchFinal p = some n.length

def DeltaHs (o n z : Bytes) : Prop :=
  ∀ (f : Bytes) (outOff bufLen : Nat), 0 < bufLen → ∀ xs : List Bytes, xs.flatten = z → (∀ x ∈ xs, x ≠ []) →
    ∃ p, hsRun (patchCfg o 0 outOff bufLen) z.length (HsPatch.init f) xs = .ok p ∧ p.p.out = fileWrite f outOff n ∧ bspatchFinal p.p = some n.length

def DeltaLzma [LzmaLib] (o n z : Bytes) : Prop :=
  ∀ (f : Bytes) (outOff bufLen : Nat), 0 < bufLen → ∀ xs : List Bytes, xs.flatten = z → (∀ x ∈ xs, x ≠ []) →
    ∃ p p', lzPatchRun (patchCfg o 0 outOff bufLen) (LzPatch.init f) xs = .ok p ∧
      lzPatchFinal (patchCfg o 0 outOff bufLen) p = .ok (p', n.length) ∧ p'.p.out = fileWrite f outOff n

end Bpak
