/-!
Common vocabulary of the model: fixed-width integers, byte strings, return codes and
the three possible fates of a C call (returns, undefined behaviour).
-/
namespace Bpak

/-- `uint8_t`, `uint16_t`, `uint32_t`, `uint64_t` with C's wrap-around arithmetic. (include/bpak/bpak.h:203-249) -/
abbrev U8 := BitVec 8
/-- `uint16_t`, include/bpak/bpak.h:203-249. -/
abbrev U16 := BitVec 16
/-- `uint32_t`, include/bpak/bpak.h:203-249. -/
abbrev U32 := BitVec 32
/-- `uint64_t`, include/bpak/bpak.h:203-249. -/
abbrev U64 := BitVec 64

/-- A C byte buffer / a file's content. (`uint8_t *` throughout lib/) -/
abbrev Bytes := List U8

/-- `enum bpak_errors`, include/bpak/bpak.h:94-126, in declaration order. Functions
return `-code`; the model returns the constructor. -/
inductive Err where
  | ok | failed | notFound | sizeError | noSpaceLeft | badAlignment | seekError
  | notSupported | needsMoreData | writeError | decompressorError | compressorError
  | patchReadOriginError | patchWriteError | readError | badMagic | unsupportedHashAlg
  | bufferTooSmall | fileNotFound | keyDecode | verifyFail | signFail | unsupportedKey
  | badRootHash | badPayloadHash | missingMetaData | packageUuidMismatch
  | unsupportedCompression | keyNotFound | keystoreIdMismatch | exists_
  deriving DecidableEq, Repr, Inhabited

/-- The C integer a function returns for a result: `BPAK_OK` is 0 and errors are the
negated enumerator (include/bpak/bpak.h:94-126). -/
def Err.code : Err → Int
  | .ok => 0 | .failed => -1 | .notFound => -2 | .sizeError => -3 | .noSpaceLeft => -4
  | .badAlignment => -5 | .seekError => -6 | .notSupported => -7 | .needsMoreData => -8
  | .writeError => -9 | .decompressorError => -10 | .compressorError => -11
  | .patchReadOriginError => -12 | .patchWriteError => -13 | .readError => -14
  | .badMagic => -15 | .unsupportedHashAlg => -16 | .bufferTooSmall => -17
  | .fileNotFound => -18 | .keyDecode => -19 | .verifyFail => -20 | .signFail => -21
  | .unsupportedKey => -22 | .badRootHash => -23 | .badPayloadHash => -24
  | .missingMetaData => -25 | .packageUuidMismatch => -26 | .unsupportedCompression => -27
  | .keyNotFound => -28 | .keystoreIdMismatch => -29 | .exists_ => -30

/-- Outcome of a C call: it returns a value, or it executes undefined behaviour
(an access outside the object it may touch). (no C counterpart) -/
inductive Out (α : Type) where
  | ret (a : α)
  | ub
  deriving DecidableEq, Repr

namespace Out
/-- Sequencing: undefined behaviour stays (no C counterpart). -/
def bind {α β : Type} (x : Out α) (f : α → Out β) : Out β :=
  match x with
  | ret a => f a
  | ub => ub
instance : Monad Out where
  pure := ret
  bind := bind
@[simp] theorem ret_bind {α β : Type} (a : α) (f : α → Out β) : (ret a >>= f) = f a := rfl
@[simp] theorem ub_bind {α β : Type} (f : α → Out β) : ((ub : Out α) >>= f) = ub := rfl
@[simp] theorem pure_eq {α : Type} (a : α) : (pure a : Out α) = ret a := rfl
/-- The call returned (no C counterpart). -/
def isRet {α : Type} : Out α → Bool
  | ret _ => true
  | ub => false
end Out

end Bpak
