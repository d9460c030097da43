import Verif.Model.Merkle
/-!
Storage behind callbacks that may fail: what honest callbacks are, and what it means that an error comes from them.
-/
namespace Bpak

/-- The callbacks do what they say on the bytes that are stored (`view`): a write that reports success has written, a read that
gives all the bytes asked for gives those that are stored. Both may fail at any time; a read may be short; a failing write may
do anything. -/
structure Faithful {σ : Type} (io : MIo σ) (view : σ → Bytes) : Prop where
  wr : ∀ s off b s', io.wr s off b = .ok s' → view s' = fileWrite (view s) off b
  rd : ∀ s off n x, io.rd s off n = .ok x → x.length = n → x = fileRead (view s) off n

/-- `e` is what a callback answered, or the code for a read that was short. -/
def FromCallback {σ : Type} (io : MIo σ) (e : Err) : Prop :=
  (∃ s off b, io.wr s off b = .error e) ∨ (∃ s off n, io.rd s off n = .error e) ∨
  (e = .readError ∧ ∃ s off n x, io.rd s off n = .ok x ∧ x.length ≠ n)

/-- Building a tree: `bpak_merkle_init` with zero fill, `bpak_merkle_write_chunk` for each chunk, `bpak_merkle_finish`, by a caller
that stops at the first error. The root and the store. -/
def buildOn {σ : Type} (H : HashFn) (io : MIo σ) (s : σ) (off : Nat) (salt : Bytes) (len : Nat) (chunks : List Bytes) :
    Except Err (Bytes × σ) :=
  match merkleInit io s len salt off true with
  | .error e => .error e
  | .ok (m, s) => match merkleWriteAll H io m s chunks with
    | .error e => .error e
    | .ok (m, s) => merkleFinish H io m s

/-- A payload reader that gives what is there, when it gives all the bytes asked for. -/
def TrueReader (rd : Reader) (P : Bytes) : Prop := ∀ off n x, rd off n = .ok x → x.length = n → x = fileRead P off n

/-- `e` is what the reader answered, or the code for a read that failed or was short. -/
def FromReader (rd : Reader) (e : Err) : Prop :=
  (∃ off n, rd off n = .error e) ∨ (e = .readError ∧ ∃ off n, ∀ x, rd off n = .ok x → x.length ≠ n)

end Bpak
