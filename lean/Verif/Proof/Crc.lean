import Verif.Model.Crc
import Verif.Spec.Crc
namespace Bpak
open Spec

/-- eight shifts -/
def crc8 (c : U32) : U32 :=
  crcBit (crcBit (crcBit (crcBit (crcBit (crcBit (crcBit (crcBit c)))))))

theorem crcByte_eq (c : U32) (b : U8) : crcByte c b = crc8 (c ^^^ b.setWidth 32) := rfl

theorem crcBit_xor (a b : U32) : crcBit (a ^^^ b) = crcBit a ^^^ crcBit b := by
  unfold crcBit
  have hs : (a ^^^ b) >>> 1 = (a >>> 1) ^^^ (b >>> 1) := by
    ext i; simp
  have hg : (a ^^^ b).getLsbD 0 = (a.getLsbD 0 ^^ b.getLsbD 0) := by simp
  rw [hs, hg]
  cases a.getLsbD 0 <;> cases b.getLsbD 0 <;> simp
  · ac_rfl
  · ac_rfl
  · have : ∀ x y p : U32, x ^^^ y = x ^^^ p ^^^ (y ^^^ p) := by
      intro x y p
      have h1 : x ^^^ p ^^^ (y ^^^ p) = x ^^^ y ^^^ (p ^^^ p) := by ac_rfl
      rw [h1]; simp
    exact this _ _ _

theorem crc8_xor (a b : U32) : crc8 (a ^^^ b) = crc8 a ^^^ crc8 b := by
  simp only [crc8, crcBit_xor]

theorem crcBit_even (c : U32) (h : c.getLsbD 0 = false) : crcBit c = c >>> 1 := by
  unfold crcBit; rw [h]; rfl

/-- with the low eight bits clear, eight shifts never see a 1 -/
theorem crc8_hi (c : U32) (h : ∀ i, i < 8 → c.getLsbD i = false) : crc8 c = c >>> 8 := by
  unfold crc8
  have e : ∀ k, crcBit (c >>> k) = c >>> (k+1) ∨ 8 ≤ k := by
    intro k
    by_cases hk : 8 ≤ k
    · exact Or.inr hk
    · left
      rw [crcBit_even]
      · rw [← BitVec.shiftRight_add]
      · simpa using h k (by omega)
  have e0 : crcBit c = c >>> 1 := crcBit_even c (h 0 (by omega))
  have f : ∀ k, k < 8 → crcBit (c >>> k) = c >>> (k+1) := by
    intro k hk; rcases e k with h | h
    · exact h
    · omega
  rw [e0, f 1 (by omega), f 2 (by omega), f 3 (by omega), f 4 (by omega), f 5 (by omega),
    f 6 (by omega), f 7 (by omega)]

theorem crcTable_length : crcTable.length = 256 := by decide +kernel

/-- the literal table is the table of eight shifts: all 256 entries -/
theorem crcTable_spec : ∀ i : Fin 256, crcTable.getD i.val 0 = crc8 (BitVec.ofNat 32 i.val) := by
  decide +kernel

theorem crcTable_get (x : U32) : crcTable.getD (x &&& 0xff).toNat 0 = crc8 (x &&& 0xff) := by
  have hlt : (x &&& 0xff).toNat < 256 := by
    rw [BitVec.toNat_and]
    exact Nat.lt_of_le_of_lt Nat.and_le_right (by decide)
  have := crcTable_spec ⟨_, hlt⟩
  simp only at this
  rw [this]
  congr 1
  exact BitVec.ofNat_toNat _ _ |>.trans (by simp)

theorem split_ff (x : U32) : x = (x &&& 0xff) ^^^ (x &&& 0xffffff00) := by
  have : (x &&& 0xff) ^^^ (x &&& 0xffffff00) = x &&& (0xff ^^^ 0xffffff00) := by
    ext i; simp only [BitVec.getElem_and, BitVec.getElem_xor, Bool.and_xor_distrib_left]
  rw [this]
  have h : (0xff : U32) ^^^ 0xffffff00 = BitVec.allOnes 32 := by decide
  rw [h, BitVec.and_allOnes]

theorem and_hi_low (x : U32) (i : Nat) (h : i < 8) : (x &&& 0xffffff00).getLsbD i = false := by
  rw [BitVec.getLsbD_and]
  have : ∀ j : Fin 8, (0xffffff00 : U32).getLsbD j.val = false := by decide
  rw [this ⟨i, h⟩]; simp

theorem hi_shift (x : U32) : (x &&& 0xffffff00) >>> 8 = x >>> 8 := by
  have : (x &&& 0xff) >>> 8 = 0 := by
    have hlt : (x &&& 0xff).toNat < 256 := by
      rw [BitVec.toNat_and]
      exact Nat.lt_of_le_of_lt Nat.and_le_right (by decide)
    apply BitVec.eq_of_toNat_eq
    rw [BitVec.toNat_ushiftRight, Nat.shiftRight_eq_div_pow]
    show _ = 0
    omega
  conv => rhs; rw [split_ff x]
  rw [BitVec.ushiftRight_xor_distrib, this]; simp

theorem byte_shift (b : U8) : (b.setWidth 32 : U32) >>> 8 = 0 := by
  apply BitVec.eq_of_toNat_eq
  have := b.isLt
  rw [BitVec.toNat_ushiftRight, Nat.shiftRight_eq_div_pow, BitVec.toNat_setWidth]
  show _ = 0
  omega

theorem crcStep_eq (c : U32) (b : U8) : crcStep c b = crcByte c b := by
  rw [crcByte_eq]
  unfold crcStep
  rw [crcTable_get]
  conv => rhs; rw [split_ff (c ^^^ b.setWidth 32)]
  rw [crc8_xor, crc8_hi _ (and_hi_low _), hi_shift, BitVec.ushiftRight_xor_distrib, byte_shift]
  simp

theorem crc32_eq (c : U32) (bs : Bytes) : crc32 c bs = Spec.crc c bs := by
  unfold crc32 Spec.crc
  induction bs generalizing c with
  | nil => rfl
  | cons b bs ih => simp only [List.foldl_cons, crcStep_eq]; exact ih _

theorem crc32_append (c : U32) (a b : Bytes) : crc32 c (a ++ b) = crc32 (crc32 c a) b := by
  simp [crc32, List.foldl_append]

/-- undo one shift -/
def crcBitInv (c : U32) : U32 :=
  if c.getLsbD 31 then ((c ^^^ 0xedb88320) <<< 1) ||| 1 else c <<< 1

theorem crcBitInv_crcBit (c : U32) : crcBitInv (crcBit c) = c := by
  unfold crcBit
  by_cases h : c.getLsbD 0
  · simp only [h, if_true]
    unfold crcBitInv
    have h31 : ((c >>> 1) ^^^ 0xedb88320).getLsbD 31 = true := by
      rw [BitVec.getLsbD_xor, BitVec.getLsbD_ushiftRight]
      rw [BitVec.getLsbD_of_ge c (1+31) (by omega)]; decide
    rw [if_pos h31, BitVec.xor_assoc]
    have : (0xedb88320 : U32) ^^^ 0xedb88320 = 0 := by decide
    rw [this]
    ext i hi
    rcases i with _ | i
    · simp; simpa using h
    · simp
      rw [Nat.add_comm 1 i]
      have : BitVec.getLsbD c (i+1) = c[i+1] := by simp [hi]
      rw [this]
  · simp only [h]
    unfold crcBitInv
    have h31 : (c >>> 1).getLsbD 31 = false := by
      rw [BitVec.getLsbD_ushiftRight, BitVec.getLsbD_of_ge c (1+31) (by omega)]
    simp only [Bool.false_eq_true, if_false, h31]
    ext i hi
    rcases i with _ | i
    · simp; simpa using h
    · simp
      rw [Nat.add_comm 1 i]
      have : BitVec.getLsbD c (i+1) = c[i+1] := by simp [hi]
      rw [this]

theorem crcBit_inj {a b : U32} (h : crcBit a = crcBit b) : a = b := by
  rw [← crcBitInv_crcBit a, ← crcBitInv_crcBit b, h]

theorem crc8_inj {a b : U32} (h : crc8 a = crc8 b) : a = b := by
  unfold crc8 at h
  exact crcBit_inj (crcBit_inj (crcBit_inj (crcBit_inj (crcBit_inj (crcBit_inj (crcBit_inj (crcBit_inj h)))))))

theorem xor_right_inj {x y z : U32} (h : x ^^^ z = y ^^^ z) : x = y := by
  have : (x ^^^ z) ^^^ z = (y ^^^ z) ^^^ z := by rw [h]
  simpa [BitVec.xor_assoc] using this

theorem crc32_inj_start {c d : U32} {bs : Bytes} (h : crc32 c bs = crc32 d bs) : c = d := by
  induction bs generalizing c d with
  | nil => exact h
  | cons b bs ih =>
    have := @ih (crcStep c b) (crcStep d b) h
    rw [crcStep_eq, crcStep_eq, crcByte_eq, crcByte_eq] at this
    exact xor_right_inj (crc8_inj this)

theorem crcStep_inj_byte {c : U32} {a b : U8} (h : crcStep c a = crcStep c b) : a = b := by
  rw [crcStep_eq, crcStep_eq, crcByte_eq, crcByte_eq, BitVec.xor_comm, BitVec.xor_comm c] at h
  have := xor_right_inj (crc8_inj h)
  have h2 := congrArg (BitVec.setWidth 8) this
  simpa using h2

end Bpak
