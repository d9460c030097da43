import Verif.Model.HsDec
import Verif.Spec.Heatshrink
/-!
The decompressor against the meaning of a stream.
-/
namespace Bpak

/-- The bits of a byte from a mask downwards. -/
def bitsFrom (c bi : U8) : List Bool := if h : bi = 0 then [] else decide (c &&& bi ≠ 0) :: bitsFrom c (bi >>> 1)
  termination_by bi.toNat
  decreasing_by
    have : bi.toNat ≠ 0 := fun e => h (BitVec.eq_of_toNat_eq (by simpa using e))
    rw [BitVec.toNat_ushiftRight, Nat.shiftRight_eq_div_pow]; omega

theorem bitsFrom_zero (c : U8) : bitsFrom c 0 = [] := by rw [bitsFrom]; simp

theorem bitsFrom_pos (c bi : U8) (h : bi ≠ 0) : bitsFrom c bi = decide (c &&& bi ≠ 0) :: bitsFrom c (bi >>> 1) := by
  rw [bitsFrom, dif_neg h]

theorem bitsFrom_len (c : U8) : ∀ (n : Nat) (bi : U8), (bitsFrom c bi).length ≤ n ↔ bi.toNat < 2^n := by
  intro n
  induction n with
  | zero =>
    intro bi
    by_cases h : bi = 0
    · subst h; rw [bitsFrom_zero]; exact ⟨fun _ => by decide, fun _ => Nat.le_refl _⟩
    · rw [bitsFrom_pos c bi h]
      have : bi.toNat ≠ 0 := fun e => h (BitVec.eq_of_toNat_eq (by simpa using e))
      simp; exact this
  | succ n ih =>
    intro bi
    by_cases h : bi = 0
    · subst h; rw [bitsFrom_zero]; exact ⟨fun _ => Nat.two_pow_pos _, fun _ => Nat.zero_le _⟩
    · rw [bitsFrom_pos c bi h, List.length_cons, Nat.add_le_add_iff_right, ih, BitVec.toNat_ushiftRight, Nat.shiftRight_eq_div_pow, Nat.pow_succ]
      omega

theorem bitsFrom_byte (c : U8) : bitsFrom c 0x80 = byteBits c := by
  have h : bitsFrom c 0x80 = [decide (c &&& 0x80 ≠ 0), decide (c &&& 0x40 ≠ 0), decide (c &&& 0x20 ≠ 0), decide (c &&& 0x10 ≠ 0),
      decide (c &&& 8 ≠ 0), decide (c &&& 4 ≠ 0), decide (c &&& 2 ≠ 0), decide (c &&& 1 ≠ 0)] := by
    rw [bitsFrom_pos _ _ (by decide), bitsFrom_pos _ _ (by decide), bitsFrom_pos _ _ (by decide), bitsFrom_pos _ _ (by decide),
      bitsFrom_pos _ _ (by decide), bitsFrom_pos _ _ (by decide), bitsFrom_pos _ _ (by decide), bitsFrom_pos _ _ (by decide)]
    have : (128 : U8) >>> 1 >>> 1 >>> 1 >>> 1 >>> 1 >>> 1 >>> 1 >>> 1 = 0 := by decide
    rw [this, bitsFrom_zero]
    rfl
  rw [h]
  revert c
  decide +kernel

theorem byteBits_len (c : U8) : (byteBits c).length = 8 := by simp [byteBits, natBits]

theorem bitsOf_cons (c : U8) (b : Bytes) : bitsOf (c :: b) = byteBits c ++ bitsOf b := rfl

theorem bitsOf_append (a b : Bytes) : bitsOf (a ++ b) = bitsOf a ++ bitsOf b := by simp [bitsOf]

theorem bitsOf_len (b : Bytes) : (bitsOf b).length = 8 * b.length := by
  induction b with
  | nil => rfl
  | cons c b ih => rw [bitsOf_cons, List.length_append, byteBits_len, ih, List.length_cons]; omega

/-- The unread part of the input buffer. -/
def HsDec.unread (s : HsDec) : Bytes := (s.buf.drop s.inputIndex).take (s.inputSize - s.inputIndex)

/-- The bits that were sunk and not yet used. -/
def HsDec.pending (s : HsDec) : List Bool := bitsFrom s.cur s.bitIndex ++ bitsOf s.unread

structure HDInv (s : HsDec) : Prop where
  buf : s.buf.length = 512
  size : s.inputSize ≤ 256
  index : s.inputIndex ≤ s.inputSize
  empty : s.inputIndex = s.inputSize → s.inputSize = 0
  bit : s.bitIndex.toNat < 128
  idx0 : s.st = .indexLsb → s.outIndex = 0
  cnt0 : s.st = .countLsb → s.outCount = 0
  idx : s.st = .countLsb ∨ s.st = .backref → 1 ≤ s.outIndex ∧ s.outIndex ≤ 256
  cnt : s.st = .backref → 1 ≤ s.outCount ∧ s.outCount ≤ 128

theorem HDInv.reset : HDInv HsDec.reset := by
  have e : HsDec.reset.st = .tagBit := rfl
  refine ⟨by unfold HsDec.reset; exact List.length_replicate, Nat.zero_le _, Nat.zero_le _, fun _ => rfl, by decide, ?_, ?_, ?_, ?_⟩ <;> rw [e] <;> simp

theorem pending_len (s : HsDec) (i : HDInv s) : (s.pending).length = (bitsFrom s.cur s.bitIndex).length + 8 * (s.inputSize - s.inputIndex) := by
  have := i.buf
  have := i.size
  have := i.index
  unfold HsDec.pending HsDec.unread
  rw [List.length_append, bitsOf_len, List.length_take, List.length_drop]; omega

theorem bits_le (s : HsDec) (i : HDInv s) : (bitsFrom s.cur s.bitIndex).length ≤ 7 := (bitsFrom_len _ _ _).2 (by have := i.bit; omega)

theorem pending_le (s : HsDec) (i : HDInv s) : (s.pending).length ≤ 2055 := by
  have := bits_le s i
  have := i.size
  rw [pending_len s i]; omega

/-- Everything but the input side is the same. -/
def SameOut (s s' : HsDec) : Prop := s'.buf = s.buf ∧ s'.head = s.head ∧ s'.st = s.st ∧ s'.outIndex = s.outIndex ∧ s'.outCount = s.outCount

theorem fetch_ok (s : HsDec) (i : HDInv s) (h : s.pending ≠ []) : ∃ s1 b, decFetch s = .ret (some s1) ∧ s1.bitIndex ≠ 0 ∧
    s.pending = b :: ({ s1 with bitIndex := s1.bitIndex >>> 1 } : HsDec).pending ∧ b = decide (s1.cur &&& s1.bitIndex ≠ 0) ∧
    HDInv { s1 with bitIndex := s1.bitIndex >>> 1 } ∧ SameOut s { s1 with bitIndex := s1.bitIndex >>> 1 } := by
  unfold decFetch
  by_cases hb : s.bitIndex = 0
  · rw [if_pos hb]
    have hs : s.inputSize ≠ 0 := by
      intro h0
      apply h
      have := i.index
      unfold HsDec.pending HsDec.unread
      rw [hb, bitsFrom_zero, h0]
      simp [bitsOf]
    rw [if_neg hs]
    have hlt : s.inputIndex < s.inputSize := by
      have := i.index
      have := i.empty
      omega
    have hb512 := i.buf
    have hsz := i.size
    have hil : s.inputIndex < s.buf.length := by omega
    have hg : bufGet s.buf s.inputIndex = .ret s.buf[s.inputIndex] := by
      unfold bufGet; rw [List.getElem?_eq_getElem hil]
    rw [hg]
    simp only
    have hur : s.unread = s.buf[s.inputIndex] :: (s.buf.drop (s.inputIndex + 1)).take (s.inputSize - (s.inputIndex + 1)) := by
      unfold HsDec.unread
      rw [List.drop_eq_getElem_cons hil]
      obtain ⟨k, hk⟩ : ∃ k, s.inputSize - s.inputIndex = k + 1 := ⟨s.inputSize - s.inputIndex - 1, by omega⟩
      rw [hk, List.take_succ_cons]
      congr 2
      omega
    have hp : s.pending = byteBits s.buf[s.inputIndex] ++ bitsOf ((s.buf.drop (s.inputIndex + 1)).take (s.inputSize - (s.inputIndex + 1))) := by
      unfold HsDec.pending
      rw [hb, bitsFrom_zero, hur, bitsOf_cons]; rfl
    rw [← bitsFrom_byte, bitsFrom_pos _ _ (by decide)] at hp
    split
    · rename_i hlast
      refine ⟨_, _, rfl, by simp only; decide, ?_, rfl, ⟨?_, ?_, ?_, ?_, ?_, ?_, ?_, ?_, ?_⟩, ⟨rfl, rfl, rfl, rfl, rfl⟩⟩
      · rw [hp]
        unfold HsDec.pending HsDec.unread
        simp only [hlast, Nat.sub_self, List.take_zero]
        rfl
      all_goals first | exact i.buf | exact i.idx0 | exact i.cnt0 | exact i.idx | exact i.cnt | simp
    · rename_i hlast
      refine ⟨_, _, rfl, by simp only; decide, ?_, rfl, ⟨?_, ?_, ?_, ?_, ?_, ?_, ?_, ?_, ?_⟩, ⟨rfl, rfl, rfl, rfl, rfl⟩⟩
      · rw [hp]
        unfold HsDec.pending HsDec.unread
        simp only
        rfl
      all_goals first | exact i.buf | exact i.idx0 | exact i.cnt0 | exact i.idx | exact i.cnt | exact i.size | (simp; omega) | (simp only; decide)
  · rw [if_neg hb]
    refine ⟨s, _, rfl, hb, ?_, rfl, ⟨i.buf, i.size, i.index, i.empty, ?_, i.idx0, i.cnt0, i.idx, i.cnt⟩, ⟨rfl, rfl, rfl, rfl, rfl⟩⟩
    · unfold HsDec.pending HsDec.unread
      rw [bitsFrom_pos _ _ hb]; rfl
    · have := i.bit
      simp only
      rw [BitVec.toNat_ushiftRight, Nat.shiftRight_eq_div_pow]; omega

theorem SameOut.trans {a b c : HsDec} (h : SameOut a b) (g : SameOut b c) : SameOut a c := by
  unfold SameOut at *
  obtain ⟨h1, h2, h3, h4, h5⟩ := h
  obtain ⟨g1, g2, g3, g4, g5⟩ := g
  exact ⟨by rw [g1, h1], by rw [g2, h2], by rw [g3, h3], by rw [g4, h4], by rw [g5, h5]⟩

theorem bitsGo_ok : ∀ (n acc : Nat) (s : HsDec), HDInv s → n ≤ s.pending.length → ∃ s',
    getBitsGo n acc s = .ret (some ((s.pending.take n).foldl (fun a b => 2 * a + b.toNat) acc), s') ∧ s'.pending = s.pending.drop n ∧ HDInv s' ∧ SameOut s s' := by
  intro n
  induction n with
  | zero => intro acc s i _; exact ⟨s, rfl, rfl, i, rfl, rfl, rfl, rfl, rfl⟩
  | succ n ih =>
    intro acc s i h
    obtain ⟨s1, b, e1, e2, e3, e4, e5, e6⟩ := fetch_ok s i (by intro e; rw [e] at h; simp at h)
    unfold getBitsGo
    rw [e1]
    simp only
    have hl : n ≤ ({ s1 with bitIndex := s1.bitIndex >>> 1 } : HsDec).pending.length := by
      have := congrArg List.length e3
      rw [List.length_cons] at this
      omega
    obtain ⟨s2, f1, f2, f3, f4⟩ := ih (2 * acc + (if s1.cur &&& s1.bitIndex ≠ 0 then 1 else 0)) _ e5 hl
    refine ⟨s2, ?_, ?_, f3, e6.trans f4⟩
    · rw [f1, e3, List.take_succ_cons, List.foldl_cons, e4]
      have hx : (2 * acc + if s1.cur &&& s1.bitIndex ≠ 0 then 1 else 0) = 2 * acc + (decide (s1.cur &&& s1.bitIndex ≠ 0)).toNat := by
        by_cases hx : s1.cur &&& s1.bitIndex ≠ 0
        · rw [if_pos hx, decide_eq_true hx]; rfl
        · rw [if_neg hx, decide_eq_false hx]; rfl
      rw [hx]
    · rw [f2, e3, List.drop_succ_cons]

/-- Enough bits: they are read. -/
theorem getBits_ok (s : HsDec) (i : HDInv s) (n : Nat) (h : n ≤ s.pending.length) (hn : 1 ≤ n) : ∃ s',
    getBits s n = .ret (some (bitsVal (s.pending.take n)), s') ∧ s'.pending = s.pending.drop n ∧ HDInv s' ∧ SameOut s s' := by
  unfold getBits
  rw [if_neg]
  · exact bitsGo_ok n 0 s i h
  · rintro ⟨h0, hb⟩
    have := (bitsFrom_len s.cur (n-1) s.bitIndex).2 hb
    have := i.index
    rw [pending_len s i] at h
    omega

/-- Not enough bits: nothing happens. -/
theorem getBits_none (s : HsDec) (i : HDInv s) (n : Nat) (h : s.pending.length < n) (hn : n ≤ 8) : getBits s n = .ret (none, s) ∧ s.inputSize = 0 := by
  have hp := pending_len s i
  have hi := i.index
  have he := i.empty
  have h0 : s.inputSize = 0 := by omega
  unfold getBits
  rw [if_pos ⟨h0, (bitsFrom_len s.cur (n-1) s.bitIndex).1 (by omega)⟩]
  exact ⟨rfl, h0⟩

theorem take_val_lt : ∀ (l : List Bool) (acc : Nat), l.foldl (fun a b => 2 * a + b.toNat) acc < (acc + 1) * 2^l.length := by
  intro l
  induction l with
  | nil => intro acc; simp
  | cons b l ih =>
    intro acc
    rw [List.foldl_cons, List.length_cons, Nat.pow_succ]
    refine Nat.lt_of_lt_of_le (ih _) ?_
    have : b.toNat ≤ 1 := by cases b <;> decide
    rw [Nat.mul_comm (2^l.length) 2, ← Nat.mul_assoc]
    exact Nat.mul_le_mul_right _ (by omega)

theorem bitsVal_lt (l : List Bool) : bitsVal l < 2^l.length := by
  have := take_val_lt l 0
  simpa [bitsVal] using this

/-! ### Tokens -/

theorem tokens_nil : tokens [] = [] := by rw [tokens.eq_def]

theorem tokens_lit (b r : List Bool) (h : b.length = 8) : tokens (true :: (b ++ r)) = .lit (BitVec.ofNat 8 (bitsVal b)) :: tokens r := by
  rw [tokens.eq_def]
  simp only
  rw [if_pos (by simp; omega), List.take_append_of_le_length (by omega), List.take_of_length_le (by omega)]
  have : (b ++ r).drop 8 = r := by rw [← h, List.drop_left]
  rw [this]

theorem tokens_lit_short (b : List Bool) (h : b.length < 8) : tokens (true :: b) = [] := by
  rw [tokens.eq_def]
  simp only
  rw [if_neg (by omega)]

theorem tokens_ref (a b r : List Bool) (h : a.length = 8) (h2 : b.length = 7) :
    tokens (false :: (a ++ (b ++ r))) = .ref (bitsVal a + 1) (bitsVal b + 1) :: tokens r := by
  rw [tokens.eq_def]
  simp only
  have e1 : (a ++ (b ++ r)).take 8 = a := by rw [← h, List.take_left]
  have e2 : (a ++ (b ++ r)).drop 8 = b ++ r := by rw [← h, List.drop_left]
  have e3 : (a ++ (b ++ r)).drop 15 = r := by
    rw [← List.append_assoc, show 15 = (a ++ b).length by simp; omega, List.drop_left]
  rw [if_pos (by simp; omega), e1, e2, e3, show (7 : Nat) = b.length from h2.symm, List.take_left]

theorem tokens_ref_short (b : List Bool) (h : b.length < 15) : tokens (false :: b) = [] := by
  rw [tokens.eq_def]
  simp only
  rw [if_neg (by omega)]

/-- What a decoder in a given situation still brings out of the bits `l`: the history at the end. -/
def finalHist (st : DState) (idx cnt : Nat) (hist : Bytes) (l : List Bool) : Bytes :=
  match st with
  | .tagBit => (tokens l).foldl Tok.apply hist
  | .literal => (tokens (true :: l)).foldl Tok.apply hist
  | .indexLsb => (tokens (false :: l)).foldl Tok.apply hist
  | .countLsb => if 7 ≤ l.length then (tokens (l.drop 7)).foldl Tok.apply (copyBack hist idx (bitsVal (l.take 7) + 1)) else hist
  | .backref => (tokens l).foldl Tok.apply (copyBack hist idx cnt)

def HsDec.final (s : HsDec) (hist : Bytes) (fut : List Bool) : Bytes := finalHist s.st s.outIndex s.outCount hist (s.pending ++ fut)

/-- The window holds the last 256 bytes of the history. -/
def Win (s : HsDec) (hist : Bytes) : Prop :=
  256 ≤ hist.length ∧ ∀ i, 1 ≤ i → i ≤ 256 → s.buf[256 + ((s.head - BitVec.ofNat 16 i) &&& 255).toNat]? = hist[hist.length - i]?

theorem winIdx (h : U16) (i : Nat) (hi : i ≤ 256) : ((h - BitVec.ofNat 16 i) &&& 255).toNat = (h.toNat + 65536 - i) % 256 := by
  have := h.isLt
  rw [BitVec.toNat_and, show (255 : U16).toNat = 2^8 - 1 from rfl, Nat.and_two_pow_sub_one_eq_mod, BitVec.toNat_sub, BitVec.toNat_ofNat]
  omega

theorem winIdx0 (h : U16) : (h &&& 255).toNat = h.toNat % 256 := by
  rw [BitVec.toNat_and, show (255 : U16).toNat = 2^8 - 1 from rfl, Nat.and_two_pow_sub_one_eq_mod]

theorem win_reset : Win HsDec.reset zeros256 := by
  refine ⟨by unfold zeros256; rw [List.length_replicate]; omega, ?_⟩
  intro i h1 h2
  rw [winIdx _ _ h2]
  have e : HsDec.reset.buf = List.replicate 512 0 := rfl
  rw [e, zeros256, List.getElem?_replicate, List.getElem?_replicate, if_pos (by omega), if_pos (by rw [List.length_replicate]; omega)]

/-- Putting a byte out and into the window. -/
theorem win_push (s : HsDec) (hist : Bytes) (hb : s.buf.length = 512) (w : Win s hist) (c : U8) :
    bufSet s.buf (256 + (s.head &&& 255).toNat) c = .ret (s.buf.set (256 + (s.head &&& 255).toNat) c) ∧
    Win { s with buf := s.buf.set (256 + (s.head &&& 255).toNat) c, head := s.head + 1 } (hist ++ [c]) := by
  have hlt : 256 + (s.head &&& 255).toNat < s.buf.length := by rw [winIdx0]; omega
  refine ⟨if_pos hlt, by simp; have := w.1; omega, ?_⟩
  intro i h1 h2
  simp only
  rw [winIdx _ _ h2, List.getElem?_set, winIdx0]
  have hh := s.head.isLt
  have h1' : (s.head + 1).toNat = (s.head.toNat + 1) % 65536 := by rw [BitVec.toNat_add]; rfl
  rw [h1']
  have hw := w.1
  by_cases h : i = 1
  · subst h
    rw [if_pos (by omega), if_pos (by rw [winIdx0] at hlt; exact hlt), List.length_append, List.length_singleton, Nat.add_sub_cancel]
    simp
  · rw [if_neg (by omega)]
    have := w.2 (i-1) (by omega) (by omega)
    rw [winIdx _ _ (by omega)] at this
    rw [List.length_append, List.length_singleton, List.getElem?_append_left (by omega)]
    have e1 : hist.length + 1 - i = hist.length - (i - 1) := by omega
    have e2 : ((s.head.toNat + 1) % 65536 + 65536 - i) % 256 = (s.head.toNat + 65536 - (i-1)) % 256 := by omega
    rw [e1, e2]; exact this

theorem win_get (s : HsDec) (hist : Bytes) (w : Win s hist) (i : Nat) (h1 : 1 ≤ i) (h2 : i ≤ 256) :
    bufGet s.buf (256 + ((s.head - BitVec.ofNat 16 i) &&& 255).toNat) = .ret (hist.getD (hist.length - i) 0) := by
  have hw := w.1
  unfold bufGet
  rw [w.2 i h1 h2, List.getElem?_eq_getElem (by omega), List.getD_eq_getElem?_getD, List.getElem?_eq_getElem (by omega)]; rfl

theorem copyBack_len (d : Nat) : ∀ (n : Nat) (h : Bytes), (copyBack h d n).length = h.length + n := by
  intro n
  induction n with
  | zero => intro h; rfl
  | succ n ih => intro h; rw [copyBack, ih]; simp; omega

theorem copyBack_add (d : Nat) : ∀ (m n : Nat) (h : Bytes), copyBack h d (m + n) = copyBack (copyBack h d m) d n := by
  intro m
  induction m with
  | zero => intro n h; rw [Nat.zero_add]; rfl
  | succ m ih => intro n h; rw [show m + 1 + n = (m + n) + 1 by omega, copyBack, ih]; rfl

theorem copyBack_prefix (d : Nat) : ∀ (n : Nat) (h : Bytes), h <+: copyBack h d n := by
  intro n
  induction n with
  | zero => intro h; exact List.prefix_refl _
  | succ n ih => intro h; exact (List.prefix_append _ _).trans (ih _)

/-- The copy loop. -/
theorem copyGo_ok (cap neg : Nat) (h1 : 1 ≤ neg) (h2 : neg ≤ 256) : ∀ (n : Nat) (s : HsDec) (out hist : Bytes), s.buf.length = 512 → Win s hist → out.length + n ≤ cap →
    ∃ b h e, copyGo cap neg n s out = .ret ({ s with buf := b, head := h }, out ++ e) ∧ hist ++ e = copyBack hist neg n ∧ e.length = n ∧
      b.length = 512 ∧ Win { s with buf := b, head := h } (hist ++ e) ∧ b.take 256 = s.buf.take 256 := by
  intro n
  induction n with
  | zero => intro s out hist hb w _; exact ⟨s.buf, s.head, [], by simp [copyGo], by simp [copyBack], rfl, hb, by simpa using w, rfl⟩
  | succ n ih =>
    intro s out hist hb w hc
    unfold copyGo
    rw [win_get s hist w neg h1 h2]
    simp only [pushByte]
    rw [if_pos (by omega)]
    obtain ⟨p1, p2⟩ := win_push s hist hb w (hist.getD (hist.length - neg) 0)
    simp only [p1]
    obtain ⟨b, h, e, g1, g2, g3, g4, g5, g6⟩ := ih _ (out ++ [hist.getD (hist.length - neg) 0]) _ (by simp; exact hb) p2 (by simp; omega)
    refine ⟨b, h, hist.getD (hist.length - neg) 0 :: e, ?_, ?_, by simp [g3], g4, ?_, ?_⟩
    · rw [g1]; simp
    · rw [copyBack, ← g2]; simp
    · have := g5
      simp only [List.append_assoc, List.singleton_append] at this
      exact this
    · rw [g6]
      simp only
      rw [List.take_set_of_le (by omega)]

end Bpak
