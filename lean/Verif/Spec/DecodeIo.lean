import Verif.Model.DecodeIo
/-!
Callbacks of the transport decoder that may fail.
-/
namespace Bpak

/-- The callbacks do what they say, on the package that is stored (`view`) and on the origin: a transfer that reports all bytes is what it
should be. Each may fail or fall short at any time; a write that does may do anything. -/
structure HonestDec {σ : Type} (io : DecIo σ) (view : σ → Bytes) (origin : Bytes) : Prop where
  wr : ∀ s off b s' n, io.wr s off b = (s', .ok n) → n = b.length → view s' = fileWrite (view s) off b
  hd : ∀ s b s' n, io.hd s b = (s', .ok n) → n = b.length → view s' = fileWrite (view s) 0 b
  rd : ∀ s off n x, io.rd s off n = .ok x → x.length = n → x = fileRead (view s) off n
  org : ∀ s off n x, io.org s off n = .ok x → x.length = n → 0 ≤ off ∧ x = fileRead origin off.toNat n

/-- `e` is what a callback answered, or one of the codes for a transfer that failed or fell short. -/
inductive FromDecIo {σ : Type} (io : DecIo σ) : Err → Prop where
  | wr (s : σ) (off : Nat) (b : Bytes) (s' : σ) (e : Err) : io.wr s off b = (s', .error e) → FromDecIo io e
  | hd (s : σ) (b : Bytes) (s' : σ) (e : Err) : io.hd s b = (s', .error e) → FromDecIo io e
  | rd (s : σ) (off n : Nat) (e : Err) : io.rd s off n = .error e → FromDecIo io e
  | rdCode (s : σ) (off n : Nat) (e : Err) : io.rd s off n = .error e → FromDecIo io .readError
  | org (s : σ) (off : Int) (n : Nat) (e : Err) : io.org s off n = .error e → FromDecIo io e
  | shortWr (s : σ) (off : Nat) (b : Bytes) (s' : σ) (n : Nat) (e : Err) : io.wr s off b = (s', .ok n) → n ≠ b.length →
      e = .writeError ∨ e = .patchWriteError → FromDecIo io e
  | shortHd (s : σ) (b : Bytes) (s' : σ) (n : Nat) : io.hd s b = (s', .ok n) → n ≠ b.length → FromDecIo io .writeError
  | shortRd (s : σ) (off n : Nat) (x : Bytes) : io.rd s off n = .ok x → x.length ≠ n → FromDecIo io .readError
  | shortOrg (s : σ) (off : Int) (n : Nat) (x : Bytes) : io.org s off n = .ok x → x.length ≠ n → FromDecIo io .patchReadOriginError

end Bpak
