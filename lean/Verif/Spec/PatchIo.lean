import Verif.Model.PatchIo
/-!
Callbacks of the delta decoder that may fail: what honest ones are, and what it means that an error comes from them.
-/
namespace Bpak

/-- The callbacks do what they say, on the bytes that are stored (`view`) and those of the origin: a write that reports all bytes has
written them, a read that gives all the bytes asked for gives those of the origin (which has no negative places) and writes nothing. Both may fail or fall short at any time;
a write that does may do anything. -/
structure HonestIo {σ : Type} (io : PatchIo σ) (view : σ → Bytes) (origin : Bytes) : Prop where
  wr : ∀ s off b s' n, io.wr s off b = (s', .ok n) → n = b.length → view s' = fileWrite (view s) off b
  rd : ∀ s off n s' x, io.rd s off n = (s', .ok x) → x.length = n → 0 ≤ off ∧ x = fileRead origin off.toNat n ∧ view s' = view s

/-- `e` is what a callback answered, or the code for a transfer that fell short. -/
def FromDeltaIo {σ : Type} (io : PatchIo σ) (e : Err) : Prop :=
  (∃ s off b s', io.wr s off b = (s', .error e)) ∨ (∃ s off n s', io.rd s off n = (s', .error e)) ∨
  (e = .patchWriteError ∧ ∃ s off b s' n, io.wr s off b = (s', .ok n) ∧ n ≠ b.length) ∨
  (e = .patchReadOriginError ∧ ∃ s off n s' x, io.rd s off n = (s', .ok x) ∧ x.length ≠ n)

end Bpak
