import Verif.Model.Utils
/-! Properties C18, C19, C41–C43, C52, C53: text conversions, keystore lookup, allocator hooks, tables. -/
namespace Bpak

/-! ### Specification vocabulary -/

/-- The lower-case hexadecimal digits. -/
def hexChars : Bytes := ascii "0123456789abcdef"
/-- Two-digit hexadecimal text of a byte string. -/
def hexText (b : Bytes) : Bytes := b.flatMap (fun x => [hexChars.getD (x.toNat / 16) 0, hexChars.getD (x.toNat % 16) 0])
/-- Canonical text of a 16-byte UUID: 8-4-4-4-12 hexadecimal digits. -/
def uuidText (u : Bytes) : Bytes :=
  hexText (u.take 4) ++ ascii "-" ++ hexText ((u.drop 4).take 2) ++ ascii "-" ++ hexText ((u.drop 6).take 2) ++
  ascii "-" ++ hexText ((u.drop 8).take 2) ++ ascii "-" ++ hexText (u.drop 10)
/-- ASCII lower-casing. -/
def lowerChar (c : U8) : U8 := if 65 ≤ c.toNat ∧ c.toNat ≤ 90 then BitVec.ofNat 8 (c.toNat + 32) else c
def isHexChar (c : U8) : Prop := lowerChar c ∈ hexChars
instance (c : U8) : Decidable (isHexChar c) := by unfold isHexChar; infer_instance
/-- The shape of UUID text: 36 characters, dashes at 8, 13, 18 and 23, hexadecimal digits elsewhere. -/
def UuidShape (s : Bytes) : Prop :=
  s.length = 36 ∧ ∀ i c, s[i]? = some c → if i = 8 ∨ i = 13 ∨ i = 18 ∨ i = 23 then c = 0x2d else isHexChar c

theorem hexDigit_eq {n : Nat} (h : n < 16) : hexDigit n = hexChars.getD n 0 := by
  have : ∀ n : Fin 16, hexDigit n.val = hexChars.getD n.val 0 := by decide +kernel
  exact this ⟨n, h⟩

/-! ### C18 -/

theorem bin2hexGo_spec (bufSz : Nat) (data : Bytes) (n : Nat) :
    ((bin2hexGo bufSz data n).1 = true ↔ data = [] ∨ n + 2 * data.length ≤ bufSz) ∧
    ((bin2hexGo bufSz data n).1 = true → (bin2hexGo bufSz data n).2 = hexText data ++ [0]) ∧
    ((bin2hexGo bufSz data n).1 = false → n ≤ bufSz → n + (bin2hexGo bufSz data n).2.length = bufSz + 1) := by
  induction data generalizing n with
  | nil => simp [bin2hexGo, hexText]
  | cons b bs ih =>
    have hb := b.isLt
    obtain ⟨i1, i2, i3⟩ := ih (n+2)
    have e1 : hexDigit (b.toNat / 16 % 16) = hexChars.getD (b.toNat / 16) 0 := by
      rw [Nat.mod_eq_of_lt (by omega), hexDigit_eq (by omega)]
    have e2 : hexDigit (b.toNat % 16) = hexChars.getD (b.toNat % 16) 0 := hexDigit_eq (by omega)
    unfold bin2hexGo
    simp only [List.length_cons]
    split
    · refine ⟨⟨by simp, ?_⟩, by simp, ?_⟩
      · intro h
        rcases h with h | h
        · simp at h
        · omega
      · intro _ _; simp; omega
    · split
      · refine ⟨⟨by simp, ?_⟩, by simp, ?_⟩
        · intro h
          rcases h with h | h
          · simp at h
          · omega
        · intro _ _; simp; omega
      · refine ⟨?_, ?_, ?_⟩
        · rw [i1]
          constructor
          · rintro (h | h)
            · subst h; right; simp; omega
            · right; omega
          · rintro (h | h)
            · simp at h
            · right; omega
        · intro h
          rw [i2 h, e1, e2]
          simp [hexText]
        · intro h1 h2
          have := i3 h1 (by omega)
          simp only [List.length_cons]
          omega

theorem hexText_length (b : Bytes) : (hexText b).length = 2 * b.length := by
  induction b with
  | nil => rfl
  | cons x b ih =>
    have : hexText (x :: b) = [hexChars.getD (x.toNat / 16) 0, hexChars.getD (x.toNat % 16) 0] ++ hexText b := rfl
    rw [this, List.length_append, ih]; simp; omega

/-- C18: success exactly when the digits fit, and then the bytes written are the hexadecimal text
followed by NUL. -/
theorem C18_bin2hex_content (data : Bytes) (bufSz : Nat) :
    ((bin2hex data bufSz).1 = true ↔ 2 * data.length ≤ bufSz) ∧
    ((bin2hex data bufSz).1 = true → (bin2hex data bufSz).2 = hexText data ++ [0]) := by
  obtain ⟨h1, h2, _⟩ := bin2hexGo_spec bufSz data 0
  refine ⟨?_, h2⟩
  show (bin2hexGo bufSz data 0).1 = true ↔ _
  rw [h1]
  constructor
  · rintro (h | h)
    · subst h; simp
    · omega
  · intro h; right; omega

/-- C18: "never writes beyond the buffer" holds exactly when there is room for the digits and the NUL;
in particular every call that reports failure has already written one byte too many. -/
theorem C18_bin2hex_in_bounds_iff (data : Bytes) (bufSz : Nat) :
    (bin2hex data bufSz).2.length ≤ bufSz ↔ 2 * data.length + 1 ≤ bufSz := by
  obtain ⟨h1, h2, h3⟩ := bin2hexGo_spec bufSz data 0
  unfold bin2hex
  cases hr : (bin2hexGo bufSz data 0).1 with
  | true =>
    rw [h2 hr, List.length_append, hexText_length]; simp
  | false =>
    have := h3 hr (by omega)
    have : ¬ (data = [] ∨ 0 + 2 * data.length ≤ bufSz) := fun h => by
      rw [← h1, hr] at h; cases h
    rw [not_or] at this
    omega

/-- C18: the unconditional bound is false of the code, on success and on failure. -/
theorem C18_bin2hex_bound_is_false :
    (∃ data bufSz, (bin2hex data bufSz).1 = true ∧ (bin2hex data bufSz).2.length > bufSz) ∧
    (∃ data bufSz, (bin2hex data bufSz).1 = false ∧ (bin2hex data bufSz).2.length > bufSz) :=
  ⟨⟨[0xab], 2, by decide +kernel⟩, ⟨[0xab, 0xcd], 3, by decide +kernel⟩⟩

/-- C18, what is missing is the bound for smaller buffers, which fails: with the documented room
(two digits per byte and NUL) the call succeeds within the buffer. -/
theorem C18_bin2hex_bound_partial (data : Bytes) (bufSz : Nat) (h : 2 * data.length + 1 ≤ bufSz) :
    (bin2hex data bufSz).1 = true ∧ (bin2hex data bufSz).2.length ≤ bufSz :=
  ⟨(C18_bin2hex_content data bufSz).1.2 (by omega), (C18_bin2hex_in_bounds_iff data bufSz).2 h⟩

example : bin2hex [0x00, 0x9f, 0xa5] 7 = (true, ascii "009fa5" ++ [0]) := by decide +kernel

/-! ### C19 -/

theorem hexVal_spec (c : U8) : (hexVal c).isSome = decide (isHexChar c) ∧
    ∀ d, hexVal c = some d → d < 16 ∧ lowerChar c = hexChars.getD d 0 := by
  have : ∀ c : Fin 256, (hexVal (BitVec.ofFin c)).isSome = decide (isHexChar (BitVec.ofFin c)) ∧
    (hexVal (BitVec.ofFin c)).all (fun d => decide (d < 16 ∧ lowerChar (BitVec.ofFin c) = hexChars.getD d 0)) = true := by
    decide +kernel
  have := this c.toFin
  refine ⟨this.1, ?_⟩
  intro d hd
  have h2 := this.2
  have e : BitVec.ofFin c.toFin = c := rfl
  rw [e, hd] at h2
  simpa using h2

theorem uuidCharOk_iff (i : Nat) (c : U8) :
    uuidCharOk i c = true ↔ if i = 8 ∨ i = 13 ∨ i = 18 ∨ i = 23 then c = 0x2d else isHexChar c := by
  unfold uuidCharOk
  split
  · simp
  · rw [(hexVal_spec c).1]; simp

theorem uuidCharsOk_iff (i : Nat) (s : Bytes) :
    uuidCharsOk i s = true ↔ ∀ j c, s[j]? = some c → uuidCharOk (i + j) c = true := by
  induction s generalizing i with
  | nil => simp [uuidCharsOk]
  | cons a s ih =>
    unfold uuidCharsOk
    rw [Bool.and_eq_true, ih]
    constructor
    · rintro ⟨h1, h2⟩ j c hj
      cases j with
      | zero => simp at hj; subst hj; simpa using h1
      | succ j => have := h2 j c (by simpa using hj); rwa [show i + (j+1) = i + 1 + j by omega]
    · intro h
      refine ⟨by simpa using h 0 a (by simp), ?_⟩
      intro j c hj
      have := h (j+1) c (by simpa using hj)
      rwa [show i + (j+1) = i + 1 + j by omega] at this

theorem uuidParse_isSome (s : Bytes) : (uuidParse s).isSome ↔ UuidShape s := by
  unfold uuidParse UuidShape
  split
  · rename_i h; simp [h]
  · rename_i h
    have hl : s.length = 36 := by simpa using h
    cases hc : uuidCharsOk 0 s with
    | false =>
      simp only [Bool.not_false, if_true, Option.isSome_none, Bool.false_eq_true, false_iff, not_and]
      intro _ hh
      have : uuidCharsOk 0 s = true := by
        rw [uuidCharsOk_iff]
        intro j c hj
        rw [uuidCharOk_iff]
        simpa using hh j c hj
      rw [hc] at this; cases this
    | true =>
      simp only [Bool.not_true, Bool.false_eq_true, if_false, Option.isSome_some, true_iff]
      refine ⟨hl, ?_⟩
      intro j c hj
      have := (uuidCharsOk_iff 0 s).1 hc j c hj
      rw [uuidCharOk_iff] at this
      simpa using this

theorem hexVal_dash : hexVal 0x2d = none := by decide +kernel

theorem strtoul16_cons {acc d : Nat} {c : U8} {cs : Bytes} (h : hexVal c = some d) :
    strtoul16 acc (c :: cs) = strtoul16 (acc * 16 + d) cs := by
  conv => lhs; unfold strtoul16
  rw [h]

theorem strtoul16_stop {acc : Nat} {cs : Bytes} : strtoul16 acc (0x2d :: cs) = acc := by
  unfold strtoul16
  rw [hexVal_dash]

theorem toNat_ofNat8 (n : Nat) : (BitVec.ofNat 8 n).toNat = n % 256 := by simp

theorem uuidParse_text {s : Bytes} (hs : UuidShape s) :
    ∃ u, uuidParse s = some u ∧ u.length = 16 ∧ s.map lowerChar = uuidText u := by
  have hsome := (uuidParse_isSome s).2 hs
  obtain ⟨hl, hsh⟩ := hs
  match s, hl with
  | c0 :: c1 :: c2 :: c3 :: c4 :: c5 :: c6 :: c7 :: c8 :: c9 :: c10 :: c11 :: c12 :: c13 :: c14 :: c15 :: c16 :: c17 :: c18 :: c19 :: c20 :: c21 :: c22 :: c23 :: c24 :: c25 :: c26 :: c27 :: c28 :: c29 :: c30 :: c31 :: c32 :: c33 :: c34 :: c35 :: [], hl =>
    obtain ⟨d0, v0⟩ := Option.isSome_iff_exists.1 (by rw [(hexVal_spec c0).1]; simpa using hsh 0 c0 rfl : (hexVal c0).isSome = true)
    obtain ⟨b0, l0⟩ := (hexVal_spec c0).2 d0 v0
    obtain ⟨d1, v1⟩ := Option.isSome_iff_exists.1 (by rw [(hexVal_spec c1).1]; simpa using hsh 1 c1 rfl : (hexVal c1).isSome = true)
    obtain ⟨b1, l1⟩ := (hexVal_spec c1).2 d1 v1
    obtain ⟨d2, v2⟩ := Option.isSome_iff_exists.1 (by rw [(hexVal_spec c2).1]; simpa using hsh 2 c2 rfl : (hexVal c2).isSome = true)
    obtain ⟨b2, l2⟩ := (hexVal_spec c2).2 d2 v2
    obtain ⟨d3, v3⟩ := Option.isSome_iff_exists.1 (by rw [(hexVal_spec c3).1]; simpa using hsh 3 c3 rfl : (hexVal c3).isSome = true)
    obtain ⟨b3, l3⟩ := (hexVal_spec c3).2 d3 v3
    obtain ⟨d4, v4⟩ := Option.isSome_iff_exists.1 (by rw [(hexVal_spec c4).1]; simpa using hsh 4 c4 rfl : (hexVal c4).isSome = true)
    obtain ⟨b4, l4⟩ := (hexVal_spec c4).2 d4 v4
    obtain ⟨d5, v5⟩ := Option.isSome_iff_exists.1 (by rw [(hexVal_spec c5).1]; simpa using hsh 5 c5 rfl : (hexVal c5).isSome = true)
    obtain ⟨b5, l5⟩ := (hexVal_spec c5).2 d5 v5
    obtain ⟨d6, v6⟩ := Option.isSome_iff_exists.1 (by rw [(hexVal_spec c6).1]; simpa using hsh 6 c6 rfl : (hexVal c6).isSome = true)
    obtain ⟨b6, l6⟩ := (hexVal_spec c6).2 d6 v6
    obtain ⟨d7, v7⟩ := Option.isSome_iff_exists.1 (by rw [(hexVal_spec c7).1]; simpa using hsh 7 c7 rfl : (hexVal c7).isSome = true)
    obtain ⟨b7, l7⟩ := (hexVal_spec c7).2 d7 v7
    have h8 : c8 = 0x2d := by simpa using hsh 8 c8 rfl
    subst h8
    obtain ⟨d9, v9⟩ := Option.isSome_iff_exists.1 (by rw [(hexVal_spec c9).1]; simpa using hsh 9 c9 rfl : (hexVal c9).isSome = true)
    obtain ⟨b9, l9⟩ := (hexVal_spec c9).2 d9 v9
    obtain ⟨d10, v10⟩ := Option.isSome_iff_exists.1 (by rw [(hexVal_spec c10).1]; simpa using hsh 10 c10 rfl : (hexVal c10).isSome = true)
    obtain ⟨b10, l10⟩ := (hexVal_spec c10).2 d10 v10
    obtain ⟨d11, v11⟩ := Option.isSome_iff_exists.1 (by rw [(hexVal_spec c11).1]; simpa using hsh 11 c11 rfl : (hexVal c11).isSome = true)
    obtain ⟨b11, l11⟩ := (hexVal_spec c11).2 d11 v11
    obtain ⟨d12, v12⟩ := Option.isSome_iff_exists.1 (by rw [(hexVal_spec c12).1]; simpa using hsh 12 c12 rfl : (hexVal c12).isSome = true)
    obtain ⟨b12, l12⟩ := (hexVal_spec c12).2 d12 v12
    have h13 : c13 = 0x2d := by simpa using hsh 13 c13 rfl
    subst h13
    obtain ⟨d14, v14⟩ := Option.isSome_iff_exists.1 (by rw [(hexVal_spec c14).1]; simpa using hsh 14 c14 rfl : (hexVal c14).isSome = true)
    obtain ⟨b14, l14⟩ := (hexVal_spec c14).2 d14 v14
    obtain ⟨d15, v15⟩ := Option.isSome_iff_exists.1 (by rw [(hexVal_spec c15).1]; simpa using hsh 15 c15 rfl : (hexVal c15).isSome = true)
    obtain ⟨b15, l15⟩ := (hexVal_spec c15).2 d15 v15
    obtain ⟨d16, v16⟩ := Option.isSome_iff_exists.1 (by rw [(hexVal_spec c16).1]; simpa using hsh 16 c16 rfl : (hexVal c16).isSome = true)
    obtain ⟨b16, l16⟩ := (hexVal_spec c16).2 d16 v16
    obtain ⟨d17, v17⟩ := Option.isSome_iff_exists.1 (by rw [(hexVal_spec c17).1]; simpa using hsh 17 c17 rfl : (hexVal c17).isSome = true)
    obtain ⟨b17, l17⟩ := (hexVal_spec c17).2 d17 v17
    have h18 : c18 = 0x2d := by simpa using hsh 18 c18 rfl
    subst h18
    obtain ⟨d19, v19⟩ := Option.isSome_iff_exists.1 (by rw [(hexVal_spec c19).1]; simpa using hsh 19 c19 rfl : (hexVal c19).isSome = true)
    obtain ⟨b19, l19⟩ := (hexVal_spec c19).2 d19 v19
    obtain ⟨d20, v20⟩ := Option.isSome_iff_exists.1 (by rw [(hexVal_spec c20).1]; simpa using hsh 20 c20 rfl : (hexVal c20).isSome = true)
    obtain ⟨b20, l20⟩ := (hexVal_spec c20).2 d20 v20
    obtain ⟨d21, v21⟩ := Option.isSome_iff_exists.1 (by rw [(hexVal_spec c21).1]; simpa using hsh 21 c21 rfl : (hexVal c21).isSome = true)
    obtain ⟨b21, l21⟩ := (hexVal_spec c21).2 d21 v21
    obtain ⟨d22, v22⟩ := Option.isSome_iff_exists.1 (by rw [(hexVal_spec c22).1]; simpa using hsh 22 c22 rfl : (hexVal c22).isSome = true)
    obtain ⟨b22, l22⟩ := (hexVal_spec c22).2 d22 v22
    have h23 : c23 = 0x2d := by simpa using hsh 23 c23 rfl
    subst h23
    obtain ⟨d24, v24⟩ := Option.isSome_iff_exists.1 (by rw [(hexVal_spec c24).1]; simpa using hsh 24 c24 rfl : (hexVal c24).isSome = true)
    obtain ⟨b24, l24⟩ := (hexVal_spec c24).2 d24 v24
    obtain ⟨d25, v25⟩ := Option.isSome_iff_exists.1 (by rw [(hexVal_spec c25).1]; simpa using hsh 25 c25 rfl : (hexVal c25).isSome = true)
    obtain ⟨b25, l25⟩ := (hexVal_spec c25).2 d25 v25
    obtain ⟨d26, v26⟩ := Option.isSome_iff_exists.1 (by rw [(hexVal_spec c26).1]; simpa using hsh 26 c26 rfl : (hexVal c26).isSome = true)
    obtain ⟨b26, l26⟩ := (hexVal_spec c26).2 d26 v26
    obtain ⟨d27, v27⟩ := Option.isSome_iff_exists.1 (by rw [(hexVal_spec c27).1]; simpa using hsh 27 c27 rfl : (hexVal c27).isSome = true)
    obtain ⟨b27, l27⟩ := (hexVal_spec c27).2 d27 v27
    obtain ⟨d28, v28⟩ := Option.isSome_iff_exists.1 (by rw [(hexVal_spec c28).1]; simpa using hsh 28 c28 rfl : (hexVal c28).isSome = true)
    obtain ⟨b28, l28⟩ := (hexVal_spec c28).2 d28 v28
    obtain ⟨d29, v29⟩ := Option.isSome_iff_exists.1 (by rw [(hexVal_spec c29).1]; simpa using hsh 29 c29 rfl : (hexVal c29).isSome = true)
    obtain ⟨b29, l29⟩ := (hexVal_spec c29).2 d29 v29
    obtain ⟨d30, v30⟩ := Option.isSome_iff_exists.1 (by rw [(hexVal_spec c30).1]; simpa using hsh 30 c30 rfl : (hexVal c30).isSome = true)
    obtain ⟨b30, l30⟩ := (hexVal_spec c30).2 d30 v30
    obtain ⟨d31, v31⟩ := Option.isSome_iff_exists.1 (by rw [(hexVal_spec c31).1]; simpa using hsh 31 c31 rfl : (hexVal c31).isSome = true)
    obtain ⟨b31, l31⟩ := (hexVal_spec c31).2 d31 v31
    obtain ⟨d32, v32⟩ := Option.isSome_iff_exists.1 (by rw [(hexVal_spec c32).1]; simpa using hsh 32 c32 rfl : (hexVal c32).isSome = true)
    obtain ⟨b32, l32⟩ := (hexVal_spec c32).2 d32 v32
    obtain ⟨d33, v33⟩ := Option.isSome_iff_exists.1 (by rw [(hexVal_spec c33).1]; simpa using hsh 33 c33 rfl : (hexVal c33).isSome = true)
    obtain ⟨b33, l33⟩ := (hexVal_spec c33).2 d33 v33
    obtain ⟨d34, v34⟩ := Option.isSome_iff_exists.1 (by rw [(hexVal_spec c34).1]; simpa using hsh 34 c34 rfl : (hexVal c34).isSome = true)
    obtain ⟨b34, l34⟩ := (hexVal_spec c34).2 d34 v34
    obtain ⟨d35, v35⟩ := Option.isSome_iff_exists.1 (by rw [(hexVal_spec c35).1]; simpa using hsh 35 c35 rfl : (hexVal c35).isSome = true)
    obtain ⟨b35, l35⟩ := (hexVal_spec c35).2 d35 v35
    clear hsh
    obtain ⟨u, hu⟩ := Option.isSome_iff_exists.1 hsome
    refine ⟨u, hu, ?_⟩
    unfold uuidParse at hu
    rw [if_neg (by simp)] at hu
    split at hu
    · cases hu
    simp only [List.drop_succ_cons, List.drop_zero, List.take_succ_cons, List.take_zero] at hu
    rw [strtoul16_cons v0,
      strtoul16_cons v1,
      strtoul16_cons v2,
      strtoul16_cons v3,
      strtoul16_cons v4,
      strtoul16_cons v5,
      strtoul16_cons v6,
      strtoul16_cons v7,
      strtoul16_stop,
      strtoul16_cons v9,
      strtoul16_cons v10,
      strtoul16_cons v11,
      strtoul16_cons v12,
      strtoul16_stop,
      strtoul16_cons v14,
      strtoul16_cons v15,
      strtoul16_cons v16,
      strtoul16_cons v17,
      strtoul16_stop,
      strtoul16_cons v19,
      strtoul16_cons v20,
      strtoul16_cons v21,
      strtoul16_cons v22,
      strtoul16_stop,
      strtoul16_cons v24,
      strtoul16_cons v25,
      strtoul16_cons v26,
      strtoul16_cons v27,
      strtoul16_cons v28,
      strtoul16_cons v29,
      strtoul16_cons v30,
      strtoul16_cons v31,
      strtoul16_cons v32,
      strtoul16_cons v33,
      strtoul16_cons v34,
      strtoul16_cons v35] at hu
    simp only [strtoul16, uuidPack, List.map_cons, List.map_nil, Option.some.injEq] at hu
    subst hu
    refine ⟨by simp, ?_⟩
    have dsh : lowerChar 0x2d = 0x2d := by decide +kernel
    have da : ascii "-" = [0x2d] := by decide +kernel
    simp only [List.map_cons, List.map_nil, uuidText, hexText, List.cons_append, List.nil_append, List.take_succ_cons,
      List.take_zero, List.drop_succ_cons, List.drop_zero, List.flatMap_cons, List.flatMap_nil, List.append_nil, da,
      toNat_ofNat8, dsh, l0, l1, l2, l3, l4, l5, l6, l7, l9, l10, l11, l12, l14, l15, l16, l17, l19, l20, l21, l22, l24, l25, l26, l27, l28, l29, l30, l31, l32, l33, l34, l35]
    simp only [List.cons.injEq, and_true, true_and]
    refine ⟨?_, ?_, ?_, ?_, ?_, ?_, ?_, ?_, ?_, ?_, ?_, ?_, ?_, ?_, ?_, ?_, ?_, ?_, ?_, ?_, ?_, ?_, ?_, ?_, ?_, ?_, ?_, ?_, ?_, ?_, ?_, ?_⟩ <;> congr 1 <;> omega

theorem hexText_inj {a b : Bytes} (h : hexText a = hexText b) : a = b := by
  induction a generalizing b with
  | nil => cases b with
    | nil => rfl
    | cons => simp [hexText] at h
  | cons x a ih => cases b with
    | nil => simp [hexText] at h
    | cons y b =>
      have e : ∀ (x : U8) (a : Bytes), hexText (x :: a) =
        hexChars.getD (x.toNat / 16) 0 :: hexChars.getD (x.toNat % 16) 0 :: hexText a := fun _ _ => rfl
      rw [e, e, List.cons.injEq, List.cons.injEq] at h
      have inj : ∀ i j : Fin 16, hexChars.getD i.val 0 = hexChars.getD j.val 0 → i = j := by decide +kernel
      have hx := x.isLt
      have hy := y.isLt
      have h1 := inj ⟨x.toNat / 16, by omega⟩ ⟨y.toNat / 16, by omega⟩ h.1
      have h2 := inj ⟨x.toNat % 16, by omega⟩ ⟨y.toNat % 16, by omega⟩ h.2.1
      simp only [Fin.mk.injEq] at h1 h2
      rw [ih h.2.2, show x = y from BitVec.eq_of_toNat_eq (by omega)]

theorem uuidText_inj {a b : Bytes} (ha : a.length = 16) (hb : b.length = 16) (h : uuidText a = uuidText b) : a = b := by
  unfold uuidText at h
  have l : ∀ u : Bytes, u.length = 16 → ∀ o n, o + n ≤ 16 → (hexText ((u.drop o).take n)).length = 2 * n := by
    intro u hu o n hn
    rw [hexText_length]; simp; omega
  have l0 : ∀ u : Bytes, u.length = 16 → (hexText (u.take 4)).length = 8 := by
    intro u hu; rw [hexText_length]; simp; omega
  have l5 : ∀ u : Bytes, u.length = 16 → (hexText (u.drop 10)).length = 12 := by
    intro u hu; rw [hexText_length]; simp; omega
  have h := List.append_inj' h (by rw [l5 a ha, l5 b hb])
  obtain ⟨h, e5⟩ := h
  have h := (List.append_inj' h rfl).1
  have h := List.append_inj' h (by rw [l a ha _ _ (by omega), l b hb _ _ (by omega)])
  obtain ⟨h, e4⟩ := h
  have h := (List.append_inj' h rfl).1
  have h := List.append_inj' h (by rw [l a ha _ _ (by omega), l b hb _ _ (by omega)])
  obtain ⟨h, e3⟩ := h
  have h := (List.append_inj' h rfl).1
  have h := List.append_inj' h (by rw [l a ha _ _ (by omega), l b hb _ _ (by omega)])
  obtain ⟨h, e2⟩ := h
  have e1 := (List.append_inj' h rfl).1
  have e1 := hexText_inj e1
  have e2 := hexText_inj e2
  have e3 := hexText_inj e3
  have e4 := hexText_inj e4
  have e5 := hexText_inj e5
  have d : ∀ u : Bytes, u = u.take 4 ++ ((u.drop 4).take 2 ++ ((u.drop 6).take 2 ++ ((u.drop 8).take 2 ++ u.drop 10))) := by
    intro u
    conv => lhs; rw [← List.take_append_drop 4 u]
    congr 1
    conv => lhs; rw [← List.take_append_drop 2 (u.drop 4), List.drop_drop]
    congr 1
    conv => lhs; rw [← List.take_append_drop 2 (u.drop 6), List.drop_drop]
    congr 1
    conv => lhs; rw [← List.take_append_drop 2 (u.drop 8), List.drop_drop]
  rw [d a, d b, e1, e2, e3, e4, e5]

/-- C19: parsing accepts exactly the 36-character 8-4-4-4-12 texts, and the result is the UUID whose
canonical text is the input up to letter case. -/
theorem C19_uuid_parse_exact (s u : Bytes) :
    uuidParse s = some u ↔ UuidShape s ∧ u.length = 16 ∧ s.map lowerChar = uuidText u := by
  constructor
  · intro h
    have hs := (uuidParse_isSome s).1 (by rw [h]; rfl)
    obtain ⟨u', h1, h2, h3⟩ := uuidParse_text hs
    rw [h] at h1; cases h1
    exact ⟨hs, h2, h3⟩
  · rintro ⟨hs, h2, h3⟩
    obtain ⟨u', g1, g2, g3⟩ := uuidParse_text hs
    rw [g1, uuidText_inj g2 h2 (g3.symm.trans h3)]

theorem C19_uuid_parse_rejects (s : Bytes) : uuidParse s = none ↔ ¬ UuidShape s := by
  rw [← uuidParse_isSome]; cases uuidParse s <;> simp

theorem hexPad2 (x : U8) (n : Nat) (h : n = x.toNat) : hexPad 2 n = [hexChars.getD (x.toNat / 16) 0, hexChars.getD (x.toNat % 16) 0] := by
  subst h
  have hx := x.isLt
  simp only [hexPad, List.nil_append, List.cons_append]
  rw [hexDigit_eq (by omega), hexDigit_eq (by omega), Nat.mod_eq_of_lt (by omega)]

/-- C19: the text produced is the canonical one. -/
theorem C19_uuid_unparse_exact (u : Bytes) (hu : u.length = 16) : uuidUnparse u = uuidText u := by
  match u, hu with
  | [b0, b1, b2, b3, b4, b5, b6, b7, b8, b9, b10, b11, b12, b13, b14, b15], _ =>
    have h0 := b0.isLt
    have h1 := b1.isLt
    have h2 := b2.isLt
    have h3 := b3.isLt
    have h4 := b4.isLt
    have h5 := b5.isLt
    have h6 := b6.isLt
    have h7 := b7.isLt
    have h8 := b8.isLt
    have h9 := b9.isLt
    have da : ascii "-" = [0x2d] := by decide +kernel
    simp only [uuidUnparse, uuidUnpack, List.getD_cons_zero, List.getD_cons_succ, uuidText, hexText,
      List.take_succ_cons, List.take_zero, List.drop_succ_cons, List.drop_zero, List.flatMap_cons, List.flatMap_nil,
      List.append_nil, da]
    rw [hexPad2 b8 _ (by omega), hexPad2 b9 _ (by omega), hexPad2 b10 _ rfl, hexPad2 b11 _ rfl, hexPad2 b12 _ rfl,
      hexPad2 b13 _ rfl, hexPad2 b14 _ rfl, hexPad2 b15 _ rfl]
    simp only [hexPad, List.nil_append, List.cons_append, List.append_assoc, List.cons.injEq, and_true, true_and]
    refine ⟨?_, ?_, ?_, ?_, ?_, ?_, ?_, ?_, ?_, ?_, ?_, ?_, ?_, ?_, ?_, ?_⟩ <;> rw [hexDigit_eq (by omega)] <;> congr 1 <;> omega

theorem lower_hexText (b : Bytes) : (hexText b).map lowerChar = hexText b ∧ ∀ c ∈ hexText b, isHexChar c := by
  have key : ∀ i : Fin 16, lowerChar (hexChars.getD i.val 0) = hexChars.getD i.val 0 ∧ isHexChar (hexChars.getD i.val 0) := by
    decide +kernel
  induction b with
  | nil => simp [hexText]
  | cons x b ih =>
    have e : hexText (x :: b) =
        hexChars.getD (x.toNat / 16) 0 :: hexChars.getD (x.toNat % 16) 0 :: hexText b := rfl
    have hx := x.isLt
    have k1 := key ⟨x.toNat / 16, by omega⟩
    have k2 := key ⟨x.toNat % 16, by omega⟩
    simp only at k1 k2
    rw [e, List.map_cons, List.map_cons, k1.1, k2.1, ih.1]
    refine ⟨rfl, ?_⟩
    intro c hc
    rcases List.mem_cons.1 hc with rfl | hc
    · exact k1.2
    rcases List.mem_cons.1 hc with rfl | hc
    · exact k2.2
    · exact ih.2 c hc

/-- C19: round trip. -/
theorem C19_uuid_round_trip (u : Bytes) (hu : u.length = 16) : uuidParse (uuidUnparse u) = some u := by
  rw [C19_uuid_unparse_exact u hu, C19_uuid_parse_exact]
  match u, hu with
  | [b0, b1, b2, b3, b4, b5, b6, b7, b8, b9, b10, b11, b12, b13, b14, b15], hu =>
    have key : ∀ i : Fin 16, lowerChar (hexChars.getD i.val 0) = hexChars.getD i.val 0 ∧ isHexChar (hexChars.getD i.val 0) := by
      decide +kernel
    have kd : ∀ b : U8, (lowerChar (hexChars.getD (b.toNat / 16) 0) = hexChars.getD (b.toNat / 16) 0 ∧
        isHexChar (hexChars.getD (b.toNat / 16) 0)) ∧ lowerChar (hexChars.getD (b.toNat % 16) 0) = hexChars.getD (b.toNat % 16) 0 ∧
        isHexChar (hexChars.getD (b.toNat % 16) 0) := by
      intro b
      have := b.isLt
      exact ⟨key ⟨b.toNat / 16, by omega⟩, key ⟨b.toNat % 16, by omega⟩⟩
    have dsh : lowerChar 0x2d = 0x2d := by decide +kernel
    have da : ascii "-" = [0x2d] := by decide +kernel
    refine ⟨⟨?_, ?_⟩, hu, ?_⟩
    · simp only [uuidText, List.length_append, hexText_length, da]; simp
    · intro i c hi
      simp only [uuidText, hexText, List.take_succ_cons, List.take_zero, List.drop_succ_cons, List.drop_zero,
        List.flatMap_cons, List.flatMap_nil, List.append_nil, da, List.cons_append, List.nil_append] at hi
      have hlt := (List.getElem?_eq_some_iff.1 hi).1
      simp only [List.length_cons, List.length_nil] at hlt
      rcases i with _|_|_|_|_|_|_|_|_|_|_|_|_|_|_|_|_|_|_|_|_|_|_|_|_|_|_|_|_|_|_|_|_|_|_|_|i <;>
        first
        | omega
        | (simp only [List.getElem?_cons_zero, List.getElem?_cons_succ, Option.some.injEq, Nat.zero_add, Nat.reduceAdd] at hi
           subst hi
           first
           | rw [if_pos (by decide)]
           | (rw [if_neg (by decide)]; first | exact (kd _).1.2 | exact (kd _).2.2))
    · simp only [uuidText, List.map_append, (lower_hexText _).1, da, List.map_cons, List.map_nil, dsh]

/-- C19: `bpak_uuid_to_string` writes text and NUL, never more than the stated size, or reports. -/
theorem C19_uuid_to_string (u : Bytes) (hu : u.length = 16) (size : Nat) :
    uuidToString u size = if size < 37 then (.sizeError, []) else (.ok, uuidText u ++ [0]) := by
  unfold uuidToString
  rw [C19_uuid_unparse_exact u hu]

theorem C19_uuid_to_string_in_bounds (u : Bytes) (hu : u.length = 16) (size : Nat) :
    (uuidToString u size).2.length ≤ size := by
  rw [C19_uuid_to_string u hu]
  split
  · simp
  · simp [uuidText, hexText_length, ascii, hu]; omega

example : uuidParse (ascii "0888b0fa-9c48-4524-9845-06a641b61EDD") =
    some [0x08, 0x88, 0xb0, 0xfa, 0x9c, 0x48, 0x45, 0x24, 0x98, 0x45, 0x06, 0xa6, 0x41, 0xb6, 0x1e, 0xdd] := by
  decide +kernel

/-! ### C41 -/

theorem keystoreFind_eq (id : U32) (l : List Key) : keystoreFind id l = l.find? (fun k => k.id = id) := by
  induction l with
  | nil => rfl
  | cons k ks ih =>
    unfold keystoreFind
    by_cases h : k.id = id <;> simp [h, ih]

/-- C41: a key is given out only by a verified keystore, carries the requested id, and is the first
such key. -/
theorem C41_keystore_get_ok (ks : Keystore) (id : U32) (k : Key) :
    keystoreGet ks id = (.ok, some k) ↔
      ks.verified = true ∧ ∃ pre post, ks.keys = pre ++ k :: post ∧ k.id = id ∧ ∀ k' ∈ pre, k'.id ≠ id := by
  unfold keystoreGet
  rw [keystoreFind_eq]
  cases hv : ks.verified with
  | false => simp
  | true =>
    simp only [Bool.not_true, Bool.false_eq_true, if_false, true_and]
    have := List.find?_eq_some_iff_append (xs := ks.keys) (p := fun k => decide (k.id = id)) (b := k)
    cases hf : ks.keys.find? (fun k => decide (k.id = id)) with
    | none =>
      rw [hf] at this
      simp at this
      simp only [Prod.mk.injEq, reduceCtorEq, and_self, false_iff]
      rintro ⟨pre, post, e, h1, h2⟩
      obtain ⟨x, hx, hx2⟩ := this h1 pre post e
      exact h2 x hx hx2
    | some k' =>
      rw [hf] at this
      simp only [Prod.mk.injEq, true_and]
      rw [this]
      constructor
      · rintro ⟨h1, as, bs, e, h2⟩
        exact ⟨as, bs, e, by simpa using h1, fun a ha => by simpa using h2 a ha⟩
      · rintro ⟨as, bs, e, h1, h2⟩
        exact ⟨by simpa using h1, as, bs, e, fun a ha => by simpa using h2 a ha⟩

/-- C41: otherwise no key is given out, and the code says why. -/
theorem C41_keystore_get_fail (ks : Keystore) (id : U32) :
    (ks.verified = false → keystoreGet ks id = (.failed, none)) ∧
    (ks.verified = true → (∀ k ∈ ks.keys, k.id ≠ id) → keystoreGet ks id = (.keyNotFound, none)) := by
  constructor
  · intro h; simp [keystoreGet, h]
  · intro h hk
    unfold keystoreGet
    rw [keystoreFind_eq, List.find?_eq_none.2 (by simpa using hk)]
    simp [h]

/-- C41: an unverified keystore never yields a key. -/
theorem C41_unverified_never (ks : Keystore) (id : U32) (k : Key) (h : (keystoreGet ks id).2 = some k) :
    ks.verified = true := by
  unfold keystoreGet at h
  cases hv : ks.verified with
  | false => simp [hv] at h
  | true => rfl

example : keystoreGet ⟨1, true, [⟨5, 1, [1]⟩, ⟨7, 1, [2]⟩, ⟨7, 1, [3]⟩]⟩ 7 = (.ok, some ⟨7, 1, [2]⟩) := by
  decide +kernel

/-! ### C42 -/

/-- The hooks after a sequence of `bpak_set_calloc_free` calls from start-up. -/
def hooksAfter (calls : List (Option Nat × Option Nat)) : Hooks :=
  calls.foldl (fun h c => (setCallocFree h c.1 c.2).2) Hooks.init

/-- C42: whatever the history of calls, `bpak_calloc` and `bpak_free` reach the pair given by the last
call in which both functions were non-NULL, and the C library's pair if there was none. -/
theorem C42_hooks_are_last_valid_pair (calls : List (Option Nat × Option Nat)) :
    (callocTarget (hooksAfter calls), freeTarget (hooksAfter calls)) =
      ((calls.filter (fun c => c.1.isSome && c.2.isSome)).getLast?.getD (none, none)) := by
  unfold hooksAfter
  rw [← List.reverse_reverse calls]
  generalize calls.reverse = calls
  induction calls with
  | nil => rfl
  | cons c l ih =>
    rw [List.reverse_cons]
    generalize l.reverse = l at *
    rw [List.foldl_append, List.filter_append]
    simp only [List.foldl_cons, List.foldl_nil]
    obtain ⟨a, b⟩ := c
    cases a <;> cases b <;>
      simp_all [setCallocFree, callocTarget, freeTarget]

/-- C42: hence allocation and release are always from the same call, or both the C library's. -/
theorem C42_matched_pair (calls : List (Option Nat × Option Nat)) :
    (callocTarget (hooksAfter calls) = none ∧ freeTarget (hooksAfter calls) = none) ∨
    ∃ c f, (some c, some f) ∈ calls ∧ callocTarget (hooksAfter calls) = some c ∧ freeTarget (hooksAfter calls) = some f := by
  have h := C42_hooks_are_last_valid_pair calls
  cases hl : (calls.filter (fun c => c.1.isSome && c.2.isSome)).getLast? with
  | none =>
    rw [hl] at h
    left
    simpa using h
  | some p =>
    rw [hl] at h
    have hm := List.mem_of_getLast? hl
    rw [List.mem_filter] at hm
    obtain ⟨a, b⟩ := p
    cases a <;> cases b <;> simp at hm
    rename_i c f
    right
    exact ⟨c, f, hm, by simpa using h⟩

/-- C42: a rejected call changes nothing and says so. -/
theorem C42_rejected_call (h : Hooks) (c f : Option Nat) :
    ((setCallocFree h c f).1 = .ok ↔ c.isSome ∧ f.isSome) ∧
    ((setCallocFree h c f).1 ≠ .ok → setCallocFree h c f = (.failed, h)) := by
  cases c <;> cases f <;> simp [setCallocFree]

example : hooksAfter [(some 1, some 2), (none, some 3), (some 4, none)] = ⟨some 1, some 2⟩ := by decide +kernel

/-! ### C43 -/

theorem switchTable_some {t : List (Int × String)} {d : String} {c : Int} {s : String}
    (hd : ∀ e ∈ t, e.2 ≠ d) (h : switchTable t d c = s) : (s = d ∧ ∀ e ∈ t, e.1 ≠ c) ∨ (c, s) ∈ t := by
  unfold switchTable at h
  cases hf : t.find? (fun e => e.1 = c) with
  | none =>
    rw [hf] at h
    left
    exact ⟨h.symm, fun e he hc => by simpa [hc] using List.find?_eq_none.1 hf e he⟩
  | some e =>
    rw [hf] at h
    right
    have h1 := List.mem_of_find?_eq_some hf
    have h2 := List.find?_some hf
    simp only [decide_eq_true_eq] at h2
    subst h2 h
    exact h1

/-- C43: every defined code has its own text, never the default one. -/
theorem C43_error_strings_distinct (a b : Err) (h : errorString a.code = errorString b.code) : a = b := by
  cases a <;> cases b <;> first | rfl | exact absurd h (by decide +kernel)

/-- C43: for an arbitrary integer the text is the default one exactly when it is no result code. -/
theorem C43_unknown_iff (c : Int) : errorString c = "Unknown" ↔ ∀ e : Err, e.code ≠ c := by
  constructor
  · intro h e he
    subst he
    revert h
    cases e <;> decide +kernel
  · intro h
    have hd : ∀ e ∈ errorTable, e.2 ≠ "Unknown" := by decide +kernel
    rcases switchTable_some hd (rfl : switchTable errorTable "Unknown" c = _) with ⟨h1, -⟩ | hm
    · exact h1
    · exfalso
      have hall : ∀ e ∈ errorTable, ∃ x ∈ [Err.ok, .failed, .notFound, .sizeError, .noSpaceLeft, .badAlignment, .seekError, .notSupported, .needsMoreData, .writeError, .decompressorError, .compressorError, .patchReadOriginError, .patchWriteError, .readError, .badMagic, .unsupportedHashAlg, .bufferTooSmall, .fileNotFound, .keyDecode, .verifyFail, .signFail, .unsupportedKey, .badRootHash, .badPayloadHash, .missingMetaData, .packageUuidMismatch, .unsupportedCompression, .keyNotFound, .keystoreIdMismatch, .exists_], x.code = e.1 := by
        decide +kernel
      obtain ⟨x, -, hx⟩ := hall _ hm
      exact h x hx

/-- C43: text determines the code, over all integers. -/
theorem C43_error_string_injective (a b : Int) (h : errorString a = errorString b) :
    a = b ∨ (errorString a = "Unknown" ∧ errorString b = "Unknown") := by
  by_cases ha : errorString a = "Unknown"
  · exact .inr ⟨ha, h ▸ ha⟩
  · have hb : errorString b ≠ "Unknown" := h ▸ ha
    rw [ne_eq, C43_unknown_iff, Classical.not_forall] at hb
    rw [C43_unknown_iff, Classical.not_forall] at ha
    simp only [ne_eq, Classical.not_not] at ha hb
    obtain ⟨x, rfl⟩ := ha
    obtain ⟨y, rfl⟩ := hb
    rw [C43_error_strings_distinct x y h]
    exact .inl rfl

/-! ### C52 -/

/-- C52: a name printed for an id is a name with that id. -/
theorem C52_id_to_string_sound (id : U32) (h : idToString id ≠ "") : bpakId (ascii (idToString id)) = id := by
  unfold idToString at *
  split
  · rename_i e; subst e; decide +kernel
  split
  · rename_i e; subst e; decide +kernel
  split
  · rename_i e; subst e; decide +kernel
  split
  · rename_i e; subst e; decide +kernel
  split
  · rename_i e; subst e; decide +kernel
  split
  · rename_i e; subst e; decide +kernel
  split
  · rename_i e; subst e; decide +kernel
  · simp_all

/-- C52: distinct ids never print as the same name. -/
theorem C52_id_to_string_injective (a b : U32) (h : idToString a = idToString b) (ha : idToString a ≠ "") : a = b := by
  rw [← C52_id_to_string_sound a ha, ← C52_id_to_string_sound b (h ▸ ha), h]

end Bpak
