import Verif.Model.Basic
/-!
What a heatshrink stream means: a string of bits, cut into tokens. A token is a byte, or a request to repeat bytes that
came out before (or one of the 256 zero bytes thought in front of them).
-/
namespace Bpak

/-- The `w` lowest bits of `n`, highest first. -/
def natBits (w n : Nat) : List Bool := (List.range w).map (fun i => n.testBit (w - 1 - i))

/-- The bits of a byte, highest first. -/
def byteBits (c : U8) : List Bool := natBits 8 c.toNat

/-- The bits of a byte string. -/
def bitsOf (b : Bytes) : List Bool := b.flatMap byteBits

inductive Tok where
  | lit (c : U8)
  | ref (dist len : Nat)
  deriving DecidableEq, Repr

/-- On the wire: a tag bit, then the byte, or the distance less one in 8 bits and the length less one in 7. -/
def Tok.bits : Tok → List Bool
  | .lit c => true :: byteBits c
  | .ref d l => false :: (natBits 8 (d-1) ++ natBits 7 (l-1))

def Tok.Ok : Tok → Prop
  | .lit _ => True
  | .ref d l => 1 ≤ d ∧ d ≤ 256 ∧ 1 ≤ l ∧ l ≤ 128

/-- Append `n` bytes, each the one `d` places back. -/
def copyBack (hist : Bytes) (d : Nat) : Nat → Bytes
  | 0 => hist
  | n+1 => copyBack (hist ++ [hist.getD (hist.length - d) 0]) d n

/-- The effect of a token on what came out so far. -/
def Tok.apply (hist : Bytes) : Tok → Bytes
  | .lit c => hist ++ [c]
  | .ref d l => copyBack hist d l

/-- What comes before the first byte. -/
def zeros256 : Bytes := List.replicate 256 0

/-- What comes out of a list of tokens. -/
def expandToks (ts : List Tok) : Bytes := (ts.foldl Tok.apply zeros256).drop 256

/-- The number written by bits, highest first. -/
def bitsVal (l : List Bool) : Nat := l.foldl (fun a b => 2 * a + b.toNat) 0

/-- The tokens in a string of bits; an incomplete token at the end counts for nothing. -/
def tokens (l : List Bool) : List Tok :=
  match l with
  | [] => []
  | true :: t => if 8 ≤ t.length then .lit (BitVec.ofNat 8 (bitsVal (t.take 8))) :: tokens (t.drop 8) else []
  | false :: t => if 15 ≤ t.length then .ref (bitsVal (t.take 8) + 1) (bitsVal ((t.drop 8).take 7) + 1) :: tokens (t.drop 15) else []
  termination_by l.length
  decreasing_by all_goals simp; omega

/-- Decompression, as a function on whole byte strings. -/
def hsExpand (b : Bytes) : Bytes := expandToks (tokens (bitsOf b))

end Bpak
