import Verif.Model.HsEnc
import Verif.Proof.HsDecRun
/-!
The compressor: bits pushed, matches found.
-/
namespace Bpak

/-! ### Bits -/

theorem natBits_succ (w n : Nat) : natBits (w+1) n = n.testBit w :: natBits w n := by
  unfold natBits
  rw [List.range_succ_eq_map, List.map_cons, List.map_map]
  congr 1
  apply List.map_congr_left
  intro i hi
  simp only [Function.comp_apply]
  congr 1
  omega

theorem natBits_len (w n : Nat) : (natBits w n).length = w := by simp [natBits]

theorem bitsVal_acc : ∀ (l : List Bool) (a : Nat), l.foldl (fun a b => 2 * a + b.toNat) a = a * 2^l.length + bitsVal l := by
  intro l
  induction l with
  | nil => intro a; simp [bitsVal]
  | cons b l ih =>
    intro a
    have h1 : bitsVal (b :: l) = b.toNat * 2^l.length + bitsVal l := by
      have := ih (2 * 0 + b.toNat)
      unfold bitsVal at this ⊢
      rw [List.foldl_cons, this]; simp
    rw [List.foldl_cons, ih, h1, List.length_cons, Nat.pow_succ, Nat.add_mul]
    have : 2 * a * 2^l.length = a * (2^l.length * 2) := by
      rw [Nat.mul_comm 2 a, Nat.mul_assoc, Nat.mul_comm 2]
    omega

theorem bitsVal_cons (b : Bool) (l : List Bool) : bitsVal (b :: l) = b.toNat * 2^l.length + bitsVal l := by
  have := bitsVal_acc l b.toNat
  unfold bitsVal at this ⊢
  rw [List.foldl_cons]
  simpa using this

theorem bitsVal_natBits : ∀ (w n : Nat), bitsVal (natBits w n) = n % 2^w := by
  intro w
  induction w with
  | zero => intro n; simp [natBits, bitsVal, Nat.mod_one]
  | succ w ih =>
    intro n
    rw [natBits_succ, bitsVal_cons, natBits_len, ih, Nat.pow_succ, Nat.mod_mul, Nat.testBit_eq_decide_div_mod_eq]
    have : n / 2^w % 2 = 0 ∨ n / 2^w % 2 = 1 := by omega
    rcases this with h | h <;> rw [h] <;> simp <;> omega

/-- The bits of a list of tokens. -/
def tokBits (ts : List Tok) : List Bool := ts.flatMap Tok.bits

theorem tokBits_append (a b : List Tok) : tokBits (a ++ b) = tokBits a ++ tokBits b := by simp [tokBits]

theorem tokens_cons (t : Tok) (h : t.Ok) (r : List Bool) : tokens (t.bits ++ r) = t :: tokens r := by
  cases t with
  | lit c =>
    show tokens (true :: (byteBits c ++ r)) = _
    rw [tokens_lit _ _ (byteBits_len c)]
    unfold byteBits
    rw [bitsVal_natBits, Nat.mod_eq_of_lt c.isLt, BitVec.ofNat_toNat, BitVec.setWidth_eq]
  | ref d l =>
    obtain ⟨h1, h2, h3, h4⟩ := h
    show tokens (false :: ((natBits 8 (d-1) ++ natBits 7 (l-1)) ++ r)) = _
    rw [List.append_assoc, tokens_ref _ _ _ (natBits_len _ _) (natBits_len _ _), bitsVal_natBits, bitsVal_natBits, Nat.mod_eq_of_lt (by omega), Nat.mod_eq_of_lt (by omega)]
    congr 2 <;> omega

/-- Tokens written are read back, and padding is no token. -/
theorem tokens_written : ∀ (ts : List Tok) (_ : ∀ t ∈ ts, t.Ok) (k : Nat) (_ : k < 8), tokens (tokBits ts ++ List.replicate k false) = ts := by
  intro ts
  induction ts with
  | nil =>
    intro _ k hk
    show tokens (List.replicate k false) = []
    cases k with
    | zero => exact tokens_nil
    | succ k => rw [List.replicate_succ, tokens_ref_short _ (by simp; omega)]
  | cons t ts ih =>
    intro h k hk
    show tokens ((t.bits ++ tokBits ts) ++ _) = _
    rw [List.append_assoc, tokens_cons t (h t List.mem_cons_self), ih (fun x hx => h x (List.mem_cons_of_mem _ hx)) k hk]

/-! ### Pushing bits -/

/-- The bits waiting in the current byte. -/
structure HsPend (cur bi : U8) (p : List Bool) : Prop where
  len : p.length < 8
  mask : bi = (0x80 : U8) >>> p.length
  bits : byteBits cur = p ++ List.replicate (8 - p.length) false

theorem pend_zero : HsPend 0 0x80 [] := ⟨by simp, by decide, by decide⟩

theorem set_bit : ∀ (k : Fin 8) (cur : U8), (byteBits cur).drop k = List.replicate (8 - k) false →
    byteBits (cur ||| (0x80 : U8) >>> k.val) = (byteBits cur).take k ++ true :: List.replicate (7 - k) false := by
  decide +kernel

theorem mask_next : ∀ k : Fin 8, ((0x80 : U8) >>> k.val) >>> 1 = if k.val = 7 then 0 else (0x80 : U8) >>> (k.val + 1) := by decide +kernel

theorem mask_ne : ∀ k : Fin 8, (0x80 : U8) >>> k.val ≠ 0 := by decide +kernel

theorem mask_full : ∀ k : Fin 8, ((0x80 : U8) >>> k.val = 0x80) → k.val = 0 := by decide +kernel

theorem push_bit {cur bi : U8} {p : List Bool} (h : HsPend cur bi p) (b : Bool) :
    byteBits (if b then cur ||| bi else cur) = p ++ b :: List.replicate (7 - p.length) false := by
  obtain ⟨h1, h2, h3⟩ := h
  cases b with
  | true =>
    rw [if_pos rfl, h2]
    have := set_bit ⟨p.length, h1⟩ cur (by simp only; rw [h3, List.drop_left])
    simp only at this
    rw [this, h3, List.take_left]
  | false =>
    rw [if_neg (by simp), h3]
    obtain ⟨m, hm⟩ : ∃ m, 8 - p.length = m + 1 := ⟨7 - p.length, by omega⟩
    rw [hm, List.replicate_succ]
    congr 3
    omega

theorem pushGo_ok (cap : Nat) (bits : U8) : ∀ (n : Nat) (cur bi : U8) (p : List Bool) (out : Bytes), HsPend cur bi p → out.length + (p.length + n) / 8 ≤ cap →
    ∃ cur' bi' e p', pushBitsGo cap bits n cur bi out = .ret (cur', bi', out ++ e) ∧ HsPend cur' bi' p' ∧ bitsOf e ++ p' = p ++ natBits n bits.toNat ∧
      e.length = (p.length + n) / 8 := by
  intro n
  induction n with
  | zero =>
    intro cur bi p out h _
    exact ⟨cur, bi, [], p, by simp [pushBitsGo], h, by simp [bitsOf, natBits], by have := h.len; simp; omega⟩
  | succ n ih =>
    intro cur bi p out h hc
    unfold pushBitsGo
    simp only
    have hb := push_bit h (bits.getLsbD n)
    generalize hcur : (if bits.getLsbD n = true then cur ||| bi else cur) = cur1 at hb
    have hm := mask_next ⟨p.length, h.len⟩
    simp only at hm
    rw [← h.mask] at hm
    have hlen := h.len
    rw [hm]
    by_cases h7 : p.length = 7
    · rw [if_pos h7, if_pos rfl]
      unfold pushByte
      rw [if_pos (by omega)]
      simp only
      obtain ⟨c', b', e, p', g1, g2, g3, g4⟩ := ih 0 0x80 [] (out ++ [cur1]) pend_zero (by simp; omega)
      refine ⟨c', b', cur1 :: e, p', by rw [g1]; simp, g2, ?_, ?_⟩
      · rw [bitsOf_cons, List.append_assoc, g3, hb, natBits_succ, h7]
        simp [BitVec.getLsbD]
      · rw [List.length_cons, g4]; simp; omega
    · rw [if_neg h7, if_neg (mask_ne ⟨p.length + 1, by omega⟩)]
      have hp : HsPend cur1 ((0x80 : U8) >>> (p.length + 1)) (p ++ [bits.getLsbD n]) := by
        refine ⟨by simp; omega, by simp, ?_⟩
        rw [hb, List.append_assoc, List.singleton_append]
        congr 3
        simp
      obtain ⟨c', b', e, p', g1, g2, g3, g4⟩ := ih cur1 _ (p ++ [bits.getLsbD n]) out hp (by simp; omega)
      refine ⟨c', b', e, p', g1, g2, ?_, by rw [g4]; simp; omega⟩
      rw [g3, natBits_succ]
      simp [BitVec.getLsbD]

/-- `push_bits` of at most 8 bits needs room for one byte. -/
theorem pushBits_ok (cap : Nat) (s : HsEnc) (p : List Bool) (hp : HsPend s.cur s.bitIndex p) (n : Nat) (hn : n ≤ 8) (bits : U8) (out : Bytes) (ho : out.length < cap) :
    ∃ cur' bi' e p', pushBits cap s n bits out = .ret ({ s with cur := cur', bitIndex := bi' }, out ++ e) ∧ HsPend cur' bi' p' ∧ bitsOf e ++ p' = p ++ natBits n bits.toNat ∧
      e.length ≤ 1 := by
  unfold pushBits
  have hlen := hp.len
  by_cases h : n = 8 ∧ s.bitIndex = 0x80
  · rw [if_pos h]
    unfold pushByte
    rw [if_pos ho]
    have h0 : p.length = 0 := mask_full ⟨p.length, hp.len⟩ (by rw [← hp.mask]; exact h.2)
    have hnil : p = [] := List.eq_nil_of_length_eq_zero h0
    refine ⟨s.cur, s.bitIndex, [bits], p, rfl, hp, ?_, by simp⟩
    rw [hnil, h.1]
    simp [bitsOf, byteBits]
  · rw [if_neg h]
    obtain ⟨c', b', e, p', g1, g2, g3, g4⟩ := pushGo_ok cap bits n s.cur s.bitIndex p out hp (by omega)
    rw [g1]
    exact ⟨c', b', e, p', rfl, g2, g3, by omega⟩

/-! ### Matches -/

theorem bufGet_eq (b : Bytes) (i : Nat) (h : i < b.length) : bufGet b i = .ret (b.getD i 0) := by
  unfold bufGet
  rw [List.getD_eq_getElem?_getD, List.getElem?_eq_getElem h]; rfl

/-- `len` bytes from `pos` on agree with those from `fin` on. -/
def Same (b : Bytes) (pos fin len : Nat) : Prop := ∀ i, i < len → b.getD (pos + i) 0 = b.getD (fin + i) 0

theorem extendGo_ok (b : Bytes) (pos fin : Nat) (hpf : pos ≤ fin) : ∀ (k len : Nat), fin + len + k ≤ b.length → Same b pos fin len →
    ∃ l, extendGo b pos fin k len = .ret l ∧ len ≤ l ∧ l ≤ len + k ∧ Same b pos fin l := by
  intro k
  induction k with
  | zero => intro len _ hs; exact ⟨len, rfl, Nat.le_refl _, Nat.le_refl _, hs⟩
  | succ k ih =>
    intro len hb hs
    unfold extendGo
    rw [bufGet_eq b (pos + len) (by omega), bufGet_eq b (fin + len) (by omega)]
    simp only
    by_cases h : b.getD (pos + len) 0 ≠ b.getD (fin + len) 0
    · rw [if_pos h]; exact ⟨len, rfl, Nat.le_refl _, by omega, hs⟩
    · rw [if_neg h]
      obtain ⟨l, h1, h2, h3, h4⟩ := ih (len+1) (by omega) (by
        intro i hi
        by_cases hil : i = len
        · subst hil; exact Classical.not_not.1 h
        · exact hs i (by omega))
      exact ⟨l, h1, by omega, by omega, h4⟩

theorem matchGo_ok (b : Bytes) (start fin maxlen : Nat) (hm : 1 ≤ maxlen) (hb : fin + maxlen ≤ b.length) : ∀ (k best idx : Nat), start + k ≤ fin → best < maxlen →
    (best ≠ 0 → start ≤ idx ∧ idx < fin ∧ Same b idx fin best) →
    ∃ l i, matchGo b start fin maxlen k best idx = .ret (l, i) ∧ l ≤ maxlen ∧ (l ≠ 0 → start ≤ i ∧ i < fin ∧ Same b i fin l) := by
  intro k
  induction k with
  | zero => intro best idx _ hbm h; exact ⟨best, idx, rfl, by omega, h⟩
  | succ k ih =>
    intro best idx hk hbm h
    unfold matchGo
    simp only
    rw [bufGet_eq b (start + k + best) (by omega), bufGet_eq b (fin + best) (by omega), bufGet_eq b (start + k) (by omega), bufGet_eq b fin (by omega)]
    simp only
    split
    · rename_i hc
      obtain ⟨l, g1, g2, g3, g4⟩ := extendGo_ok b (start + k) fin (by omega) (maxlen - 1) 1 (by omega) (by
        intro i hi
        have : i = 0 := by omega
        subst this
        exact hc.2)
      rw [g1]
      simp only
      split
      · split
        · exact ⟨l, start + k, rfl, by omega, fun _ => ⟨by omega, by omega, g4⟩⟩
        · exact ih l (start + k) (by omega) (by omega) (fun _ => ⟨by omega, by omega, g4⟩)
      · exact ih best idx (by omega) hbm h
    · exact ih best idx (by omega) hbm h

/-- What `find_longest_match` finds is a match. -/
theorem findMatch_ok (b : Bytes) (start fin maxlen : Nat) (hs : start ≤ fin) (hm : 1 ≤ maxlen) (hb : fin + maxlen ≤ b.length) :
    ∃ r, findMatch b start fin maxlen = .ret r ∧ ∀ d l, r = some (d, l) → 3 ≤ l ∧ l ≤ maxlen ∧ 1 ≤ d ∧ d ≤ fin - start ∧ Same b (fin - d) fin l := by
  obtain ⟨l, i, h1, h2, h3⟩ := matchGo_ok b start fin maxlen hm hb (fin - start) 0 0 (by omega) (by omega) (by simp)
  unfold findMatch
  rw [h1]
  refine ⟨_, rfl, ?_⟩
  intro d l' he
  split at he
  · rename_i hl
    obtain ⟨e1, e2⟩ := Prod.mk.inj (Option.some.inj he)
    obtain ⟨g1, g2, g3⟩ := h3 (by omega)
    subst e1; subst e2
    refine ⟨by omega, h2, by omega, by omega, ?_⟩
    rw [show fin - (fin - i) = i by omega]
    exact g3
  · cases he

/-- Replaying a match in a history. -/
theorem copy_match (hist : Bytes) (d : Nat) (hd : 1 ≤ d) : ∀ (l m : Nat), d ≤ m → m + l ≤ hist.length → Same hist (m - d) m l →
    copyBack (hist.take m) d l = hist.take (m + l) := by
  intro l
  induction l with
  | zero => intro m _ _ _; rfl
  | succ l ih =>
    intro m h1 h2 hs
    have hl : (hist.take m).length = m := by rw [List.length_take]; omega
    have h0 := hs 0 (by omega)
    simp only [Nat.add_zero] at h0
    have e : hist.take m ++ [(hist.take m).getD ((hist.take m).length - d) 0] = hist.take (m+1) := by
      rw [hl, List.getD_eq_getElem?_getD, List.getElem?_take_of_lt (by omega), ← List.getD_eq_getElem?_getD, h0, List.take_add_one,
        List.getD_eq_getElem?_getD, List.getElem?_eq_getElem (by omega)]
      rfl
    rw [copyBack, e, ih (m+1) (by omega) (by omega) ?_, Nat.add_assoc, Nat.add_comm 1]
    intro i hi
    have := hs (i+1) (by omega)
    rw [show m + 1 - d + i = m - d + (i + 1) by omega, show m + 1 + i = m + (i + 1) by omega]
    exact this

end Bpak
