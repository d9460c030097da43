import Verif.Model.Basic
/-!
Independent specification of CRC-32 (reflected, polynomial 0xEDB88320, no inversion):
a shift register processing one bit at a time.
-/
namespace Bpak.Spec

/-- One shift of the register: if the bit shifted out is 1, subtract (xor) the polynomial. -/
def crcBit (c : U32) : U32 :=
  if c.getLsbD 0 then (c >>> 1) ^^^ 0xedb88320 else c >>> 1

/-- Absorb one byte: xor it into the low end and shift eight times. -/
def crcByte (c : U32) (b : U8) : U32 :=
  crcBit (crcBit (crcBit (crcBit (crcBit (crcBit (crcBit (crcBit (c ^^^ b.setWidth 32))))))))

/-- Absorb a byte string. -/
def crc (c : U32) (bs : Bytes) : U32 := bs.foldl crcByte c

end Bpak.Spec
