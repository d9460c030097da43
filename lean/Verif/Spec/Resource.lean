import Verif.Model.Resource

/-!
# Giving back what was taken: what it means

Read off a trace alone.
-/

namespace Bpak.Spec

open Bpak.Res

/-- Which releasing function may be used for which resource: its own. As long as the library allocates with the C library's
`calloc` (`over = false`, lib/mem.c:26-39), memory from `bpak_calloc` may go to `free` and the other way round. -/
def Fits (over : Bool) (was how : Kind) : Prop :=
  was = how ∨ (over = false ∧ (was = .heap ∨ was = .lib) ∧ (how = .heap ∨ how = .lib))

instance (over : Bool) (was how : Kind) : Decidable (Fits over was how) := by unfold Fits; infer_instance

/-- Whether an event is in order after the events `before`: a name stands for one resource; only what was acquired and not
released yet is used or released; it is released with a function that fits; `NULL` is not used. -/
def InOrder (over : Bool) (before : List Ev) : Ev → Prop
  | .got n _ => ∀ k, .got n k ∉ before
  | .used n => (∃ k, .got n k ∈ before) ∧ ∀ k, .gave n k ∉ before
  | .gave n how => (∃ k, .got n k ∈ before ∧ Fits over k how) ∧ ∀ k, .gave n k ∉ before
  | .stray => False

/-- A clean trace: each event is in order after those before it. Nothing is released twice, and nothing is used after it was
released. -/
def Clean (over : Bool) (t : List Ev) : Prop :=
  ∀ i (h : i < t.length), InOrder over (t.take i) t[i]

/-- A resource that was acquired and not released. -/
def Left (t : List Ev) (n : Nat) (k : Kind) : Prop := .got n k ∈ t ∧ ∀ k', .gave n k' ∉ t

/-- A program that gives back all it took, all of it once and in the right way, with every answer its calls may get. -/
def Tidy (over : Bool) (t : List Ev) : Prop := Clean over t ∧ ∀ n k, ¬ Left t n k

/-- Memory never runs out. -/
def Enough (l : Luck) : Prop := ∀ i, l.mem i = true

/-- Calls that load a key from a key file of its own, which leaves an mbedtls key context behind. -/
def LoadsKey (c : Call) : Prop := ∃ n, c = .addKey n ∨ c = .verify n

/-- Calls in which a block from the library's allocator is released with the C library's `free`. -/
def FreesForeign (c : Call) : Prop := ∃ n, c = .addKey n ∨ c = .verify n ∨ c = .verifyKeystore n

/-- Calls that use a block of memory without a check that there is one. -/
def TrustsMemory (c : Call) : Prop := ∃ n, c = .addKey n ∨ c = .verify n ∨ c = .addFileTree n

end Bpak.Spec
