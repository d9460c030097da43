import Verif.Model.Lzma
/-!
What liblzma promises (its documentation of `lzma_code`), as far as bpak relies on it.
-/
namespace Bpak

/-- A call that may be made on a stream: there is room for output; with LZMA_RUN there is input, and LZMA_FINISH has not been used before. (bpak uses
LZMA_FINISH without input only.) -/
def LzCall.Proper (c : LzCall) (finishing : Bool) : Prop :=
  0 < c.room ∧ (if c.finish then c.input = [] else finishing = false ∧ c.input ≠ [])

/-- `LzRan f h fin i o`: the calls `h` were proper and all returned LZMA_OK; they took the bytes `i` and stored the bytes `o`; `fin`: LZMA_FINISH was used. -/
inductive LzRan (f : List LzCall → LzCall → LzDone) : List LzCall → Bool → Bytes → Bytes → Prop where
  | start : LzRan f [] false [] []
  | call {h : List LzCall} {fin : Bool} {i o : Bytes} (c : LzCall) (before : LzRan f h fin i o) (proper : c.Proper fin) (ok : (f h c).ret = .ok) :
      LzRan f (h ++ [c]) c.finish (i ++ c.input.take (f h c).used) (o ++ (f h c).out)

/-- `z` is a complete stream that the encoder can make of the data `x`. -/
def XzStream [LzmaLib] (x z : Bytes) : Prop :=
  ∃ h fin o c, LzRan LzmaLib.enc h fin x o ∧ c.Proper fin ∧ (LzmaLib.enc h c).ret = .streamEnd ∧ z = o ++ (LzmaLib.enc h c).out

/-- The promises. `enc`, `dec`: a call takes no more than the input and stores no more than there is room for; LZMA_RUN never ends the stream; loops
end. `encNoError`: the encoder does not fail. `decoded`, `decodedAll`: reading a stream of `x`, in whatever pieces and with whatever room, gives LZMA_OK and beginnings of `x`, and at the end
LZMA_STREAM_END and all of `x`. `cut`: before the end of the stream LZMA_FINISH does not report the end. `size`: how long a stream is at most. -/
structure LzmaLaws [LzmaLib] : Prop where
  enc : ∀ h fin i o (c : LzCall), LzRan LzmaLib.enc h fin i o → c.Proper fin →
    (LzmaLib.enc h c).used ≤ c.input.length ∧ (LzmaLib.enc h c).out.length ≤ c.room ∧ ((LzmaLib.enc h c).ret = .streamEnd → c.finish = true) ∧
    ((LzmaLib.enc h c).ret = .ok → LzmaLib.encRounds (h ++ [c]) (c.input.drop (LzmaLib.enc h c).used) < LzmaLib.encRounds h c.input)
  encNoError : ∀ h fin i o (c : LzCall), LzRan LzmaLib.enc h fin i o → c.Proper fin → (LzmaLib.enc h c).ret ≠ .error
  dec : ∀ h fin i o (c : LzCall), LzRan LzmaLib.dec h fin i o → c.Proper fin →
    (LzmaLib.dec h c).used ≤ c.input.length ∧ (LzmaLib.dec h c).out.length ≤ c.room ∧ ((LzmaLib.dec h c).ret = .streamEnd → c.finish = true) ∧
    ((LzmaLib.dec h c).ret = .ok → LzmaLib.decRounds (h ++ [c]) (c.input.drop (LzmaLib.dec h c).used) < LzmaLib.decRounds h c.input)
  decoded : ∀ x z h fin i o (c : LzCall), XzStream x z → LzRan LzmaLib.dec h fin i o → c.Proper fin → i ++ c.input <+: z →
    o ++ (LzmaLib.dec h c).out <+: x ∧ (c.finish = false ∨ i = z → (LzmaLib.dec h c).ret ≠ .error)
  decodedAll : ∀ x z h fin o (c : LzCall), XzStream x z → LzRan LzmaLib.dec h fin z o → c.Proper fin → (LzmaLib.dec h c).ret = .streamEnd → o ++ (LzmaLib.dec h c).out = x
  cut : ∀ x z h fin i o (c : LzCall), XzStream x z → LzRan LzmaLib.dec h fin i o → c.Proper fin → i <+: z → i ≠ z → (LzmaLib.dec h c).ret ≠ .streamEnd
  size : ∀ x z, XzStream x z → 8 * z.length ≤ 9 * x.length + 8192

end Bpak
