import Verif.Proof.HsEnc
/-!
Steps and calls of the compressor.
-/
namespace Bpak

/-- The buffer holds the end of the history: 256 bytes before the input, and the input. -/
structure EBase (s : HsEnc) (hist : Bytes) : Prop where
  buf : s.buf.length = 512
  size : s.inputSize ≤ 256
  scan : s.scan ≤ s.inputSize
  long : 256 + s.inputSize ≤ hist.length
  copy : s.buf.take (256 + s.inputSize) = hist.drop (hist.length - (256 + s.inputSize))

/-- The tokens written so far stand for the history up to `n` bytes into the input buffer. -/
def Enc (s : HsEnc) (hist : Bytes) (ts : List Tok) (n : Nat) : Prop :=
  ts.foldl Tok.apply zeros256 = hist.take (hist.length - s.inputSize + n)

/-- The pending match is one. -/
def MatchOk (s : HsEnc) : Prop :=
  3 ≤ s.matchLen ∧ s.matchLen ≤ 128 ∧ 1 ≤ s.matchPos ∧ s.matchPos ≤ 256 ∧ s.scan + s.matchLen ≤ s.inputSize ∧
    Same s.buf (256 + s.scan - s.matchPos) (256 + s.scan) s.matchLen

/-- There is enough input to work on. -/
def Filled (s : HsEnc) : Prop := s.finishing = true ∨ s.inputSize = 256

/-- What each state means for the bits `B` written so far. -/
def EMode (s : HsEnc) (hist : Bytes) (ts : List Tok) (B : List Bool) : Prop :=
  match s.st with
  | .notFull => B = tokBits ts ∧ s.scan = 0 ∧ s.inputSize < 256 ∧ s.finishing = false ∧ Enc s hist ts 0
  | .filled => B = tokBits ts ∧ s.scan = 0 ∧ Filled s ∧ Enc s hist ts 0
  | .search => B = tokBits ts ∧ Filled s ∧ Enc s hist ts s.scan
  | .tagBit => B = tokBits ts ∧ Filled s ∧ ((s.matchLen = 0 ∧ 1 ≤ s.scan ∧ Enc s hist ts (s.scan - 1)) ∨ (MatchOk s ∧ Enc s hist ts s.scan))
  | .literal => B = tokBits ts ++ [true] ∧ Filled s ∧ 1 ≤ s.scan ∧ Enc s hist ts (s.scan - 1)
  | .brIndex => Filled s ∧ MatchOk s ∧ Enc s hist ts s.scan ∧ s.outBits = s.matchPos - 1 ∧
      ((s.outBitsCount = 8 ∧ B = tokBits ts ++ [false]) ∨ (s.outBitsCount = 0 ∧ B = tokBits ts ++ ([false] ++ natBits 8 (s.matchPos - 1))))
  | .brLength => Filled s ∧ MatchOk s ∧ Enc s hist ts s.scan ∧ s.outBits = s.matchLen - 1 ∧
      ((s.outBitsCount = 7 ∧ B = tokBits ts ++ ([false] ++ natBits 8 (s.matchPos - 1))) ∨ (s.outBitsCount = 0 ∧ B = tokBits ts ++ (Tok.ref s.matchPos s.matchLen).bits))
  | .saveBacklog => B = tokBits ts ∧ s.finishing = false ∧ s.inputSize = 256 ∧ Enc s hist ts s.scan ∧ 128 < s.scan
  | .flushBits => B = tokBits ts ∧ s.finishing = true ∧ s.scan = s.inputSize ∧ Enc s hist ts s.scan
  | .done => B = tokBits ts ∧ s.finishing = true ∧ s.scan = s.inputSize ∧ Enc s hist ts s.scan

/-- The bits written so far, against the bytes `O` handed out so far. -/
def EPend (s : HsEnc) (O : Bytes) (B : List Bool) : Prop :=
  if s.st = .done then ∃ k, k < 8 ∧ bitsOf O = B ++ List.replicate k false
  else ∃ p, HsPend s.cur s.bitIndex p ∧ bitsOf O ++ p = B

/-- A token that is not longer than 9 bits for each byte it stands for. -/
def Tok.Dense : Tok → Prop
  | .lit _ => True
  | .ref d l => (1 ≤ d ∧ d ≤ 256 ∧ 1 ≤ l ∧ l ≤ 128) ∧ 2 ≤ l

theorem Tok.Dense.ok {t : Tok} (h : t.Dense) : t.Ok := by
  cases t with
  | lit c => trivial
  | ref d l => exact h.1

structure EInv (s : HsEnc) (hist O : Bytes) : Prop where
  base : EBase s hist
  mode : ∃ ts B, (∀ t ∈ ts, t.Dense) ∧ EMode s hist ts B ∧ EPend s O B

theorem EInv.reset : EInv HsEnc.reset zeros256 [] := by
  have hb : HsEnc.reset.buf = List.replicate 512 0 := rfl
  have hs : HsEnc.reset.inputSize = 0 := rfl
  refine ⟨⟨by rw [hb]; exact List.length_replicate, by rw [hs]; omega, by rw [hs]; exact Nat.le_refl _, by rw [hs, zeros_len]; omega, ?_⟩, [], [], by simp, ?_, ?_⟩
  · rw [hb, hs, zeros_len, List.take_replicate, Nat.sub_self]; rfl
  · refine ⟨rfl, rfl, by rw [hs]; omega, rfl, ?_⟩
    unfold Enc
    rw [List.take_of_length_le (by rw [hs, zeros_len]; omega)]; rfl
  · unfold EPend
    rw [if_neg (by intro h; cases h)]
    exact ⟨[], pend_zero, rfl⟩

/-- Upper bound on the passes left. -/
def HsEnc.measure (s : HsEnc) : Nat :=
  match s.st with
  | .notFull => 0
  | .filled => 4 * (s.inputSize - s.scan) + 4
  | .search => 4 * (s.inputSize - s.scan) + 3
  | .tagBit => if s.matchLen = 0 then 4 * (s.inputSize - s.scan) + 5 else 4 * (s.inputSize - s.scan) + 2
  | .literal => 4 * (s.inputSize - s.scan) + 4
  | .brIndex => if s.outBitsCount = 0 then 4 * (s.inputSize - s.scan) else 4 * (s.inputSize - s.scan) + 1
  | .brLength => if s.outBitsCount = 0 then 4 * (s.inputSize - s.scan) - 2 else 4 * (s.inputSize - s.scan) - 1
  | .saveBacklog => 4 * (s.inputSize - s.scan) + 2
  | .flushBits => 1
  | .done => 0

/-- What a pass achieves. `O` is all output before the pass, `out` that of this poll. -/
structure EStepOk (cap : Nat) (s : HsEnc) (hist O out : Bytes) (ret : Bool) (s' : HsEnc) (e : Bytes) : Prop where
  inv : EInv s' hist (O ++ e)
  room : (out ++ e).length ≤ cap
  fin : s'.finishing = s.finishing
  stop : ret = true → s'.st = .notFull ∨ s'.st = .done ∨ (s'.st = .flushBits ∧ (out ++ e).length = cap)
  go : ret = false → s'.measure < s.measure ∨ (s' = s ∧ e = [] ∧ out.length = cap)
  small : e.length ≤ 1
  idle : ret = true → (s' = s ∧ e = []) ∨ (s.measure = 1 ∧ s'.measure = 0)

theorem EBase.of_eq {s s' : HsEnc} {hist : Bytes} (b : EBase s hist) (h1 : s'.buf = s.buf) (h2 : s'.inputSize = s.inputSize) (h3 : s'.scan ≤ s.inputSize) : EBase s' hist :=
  ⟨by rw [h1]; exact b.buf, by rw [h2]; exact b.size, by rw [h2]; exact h3, by rw [h2]; exact b.long, by rw [h1, h2]; exact b.copy⟩

/-- A place in the input part of the buffer is a place in the history. -/
theorem buf_hist {s : HsEnc} {hist : Bytes} (b : EBase s hist) (j : Nat) (hj : j < 256 + s.inputSize) :
    s.buf.getD j 0 = hist.getD (hist.length - (256 + s.inputSize) + j) 0 := by
  have := congrArg (fun l => l.getD j 0) b.copy
  simp only [List.getD_eq_getElem?_getD, List.getElem?_take_of_lt hj, List.getElem?_drop] at this
  simpa [List.getD_eq_getElem?_getD] using this

theorem EPend.same {s s' : HsEnc} {O : Bytes} {B : List Bool} (h : ∃ p, HsPend s.cur s.bitIndex p ∧ bitsOf O ++ p = B) (h1 : s'.cur = s.cur) (h2 : s'.bitIndex = s.bitIndex)
    (h3 : s'.st ≠ .done) : EPend s' O B := by
  unfold EPend
  rw [if_neg h3, h1, h2]; exact h

theorem estep_search (cap : Nat) (s : HsEnc) (hist O : Bytes) (i : EInv s hist O) (out : Bytes) (ho : out.length ≤ cap) (hst : s.st = .search) :
    ∃ r s' e, encStep cap s out = .ret (r, s', out ++ e) ∧ EStepOk cap s hist O out r s' e := by
  obtain ⟨b, ts, B, hok, hmode, hpend⟩ := i
  have hB := b.buf
  have hS := b.size
  have hX := b.scan
  unfold EMode at hmode
  simp only [hst] at hmode
  obtain ⟨m1, m2, m3⟩ := hmode
  unfold EPend at hpend
  rw [if_neg (by rw [hst]; simp)] at hpend
  unfold encStep
  simp only [hst, stepSearch]
  have hms : s.measure = 4 * (s.inputSize - s.scan) + 3 := by unfold HsEnc.measure; rw [hst]
  by_cases hc : s.scan + (if s.finishing then 1 else 128) > s.inputSize
  · rw [if_pos hc]
    cases hf : s.finishing with
    | true =>
      rw [hf, if_pos rfl] at hc
      simp only [if_true]
      refine ⟨false, { s with st := .flushBits, finishing := true }, [], by rw [List.append_nil], ⟨b.of_eq rfl rfl hX, ts, B, hok, ?_, ?_⟩, by simpa using ho, hf.symm ▸ rfl, by simp, ?_, by first | exact Nat.zero_le _ | omega, by simp⟩
      · exact ⟨m1, rfl, by simp only; omega, m3⟩
      · rw [List.append_nil]; exact EPend.same hpend rfl rfl (by simp)
      · intro _; left; rw [hms]; simp only [HsEnc.measure]; omega
    | false =>
      rw [hf, if_neg (by simp)] at hc
      have hsz : s.inputSize = 256 := by rcases m2 with h | h; · rw [hf] at h; cases h
                                         · exact h
      simp only [Bool.false_eq_true, if_false]
      refine ⟨false, { s with st := .saveBacklog, finishing := false }, [], by rw [List.append_nil], ⟨b.of_eq rfl rfl hX, ts, B, hok, ?_, ?_⟩, by simpa using ho, hf.symm ▸ rfl, by simp, ?_, by first | exact Nat.zero_le _ | omega, by simp⟩
      · exact ⟨m1, rfl, hsz, m3, by simp only; omega⟩
      · rw [List.append_nil]; exact EPend.same hpend rfl rfl (by simp)
      · intro _; left; rw [hms]; simp only [HsEnc.measure]; omega
  · rw [if_neg hc]
    have hlt : s.scan + 1 ≤ s.inputSize := by cases hf : s.finishing <;> rw [hf] at hc <;> simp at hc <;> omega
    obtain ⟨mp, hmp⟩ : ∃ mp, (if s.inputSize - s.scan < 128 then s.inputSize - s.scan else 128) = mp := ⟨_, rfl⟩
    rw [hmp]
    have hmp' : 1 ≤ mp ∧ mp ≤ 128 ∧ s.scan + mp ≤ s.inputSize := by rw [← hmp]; split <;> omega
    obtain ⟨r, h1, h2⟩ := findMatch_ok s.buf (256 + s.scan - 256) (256 + s.scan) mp (by omega) hmp'.1 (by omega)
    rw [h1]
    cases r with
    | none =>
      simp only
      refine ⟨false, { s with scan := s.scan + 1, matchLen := 0, st := .tagBit }, [], by rw [List.append_nil], ⟨b.of_eq rfl rfl (by simp only; omega), ts, B, hok, ?_, ?_⟩, by simpa using ho, rfl, by simp, ?_, by first | exact Nat.zero_le _ | omega, by simp⟩
      · exact ⟨m1, m2, Or.inl ⟨rfl, by simp only; omega, m3⟩⟩
      · rw [List.append_nil]; exact EPend.same hpend rfl rfl (by simp)
      · intro _; left; rw [hms]; simp only [HsEnc.measure, if_true]; omega
    | some dl =>
      obtain ⟨d, l⟩ := dl
      simp only
      obtain ⟨g1, g2, g3, g4, g5⟩ := h2 d l rfl
      refine ⟨false, { s with matchPos := d, matchLen := l, st := .tagBit }, [], by rw [List.append_nil], ⟨b.of_eq rfl rfl hX, ts, B, hok, ?_, ?_⟩, by simpa using ho, rfl, by simp, ?_, by first | exact Nat.zero_le _ | omega, by simp⟩
      · exact ⟨m1, m2, Or.inr ⟨⟨g1, by simp only; omega, g3, by simp only; omega, by simp only; omega, g5⟩, m3⟩⟩
      · rw [List.append_nil]; exact EPend.same hpend rfl rfl (by simp)
      · intro _; left; rw [hms]; simp only [HsEnc.measure]; rw [if_neg (by omega)]; omega

/-- Nothing to do for lack of room. -/
theorem estep_full {cap : Nat} {s : HsEnc} {hist O : Bytes} (i : EInv s hist O) {out : Bytes} (ho : out.length ≤ cap) (hc : ¬ out.length < cap) :
    EStepOk cap s hist O out false s [] := by
  refine ⟨by rw [List.append_nil]; exact i, by simpa using ho, rfl, by simp, fun _ => Or.inr ⟨rfl, rfl, by omega⟩, Nat.zero_le _, by simp⟩

theorem estep_tag (cap : Nat) (s : HsEnc) (hist O : Bytes) (i : EInv s hist O) (out : Bytes) (ho : out.length ≤ cap) (hst : s.st = .tagBit) :
    ∃ r s' e, encStep cap s out = .ret (r, s', out ++ e) ∧ EStepOk cap s hist O out r s' e := by
  unfold encStep
  simp only [hst]
  rcases Nat.lt_or_ge out.length cap with hc | hc'
  rotate_left
  · have hc : ¬ out.length < cap := by omega
    rw [if_neg hc]; exact ⟨false, s, [], by rw [List.append_nil], estep_full i ho hc⟩
  rw [if_pos hc]
  obtain ⟨b, ts, B, hok, hmode, hpend⟩ := i
  have hX := b.scan
  unfold EMode at hmode
  simp only [hst] at hmode
  obtain ⟨m1, m2, m3⟩ := hmode
  unfold EPend at hpend
  rw [if_neg (by rw [hst]; simp)] at hpend
  obtain ⟨p, hp1, hp2⟩ := hpend
  rcases m3 with ⟨n1, n2, n3⟩ | ⟨n1, n2⟩
  · rw [if_pos n1]
    obtain ⟨c', b', e, p', g1, g2, g3, g4⟩ := pushBits_ok cap s p hp1 1 (by omega) 1 out hc
    rw [g1]
    simp only
    refine ⟨false, { s with cur := c', bitIndex := b', st := .literal }, e, rfl, ⟨b.of_eq rfl rfl hX, ts, B ++ [true], hok, ?_, ?_⟩, by simp; omega, rfl, by simp, ?_, by first | exact Nat.zero_le _ | omega, by simp⟩
    · exact ⟨by rw [m1], m2, n2, n3⟩
    · unfold EPend
      rw [if_neg (by simp)]
      refine ⟨p', g2, ?_⟩
      rw [bitsOf_append, List.append_assoc, g3, ← List.append_assoc, hp2]; rfl
    · intro _; left; simp only [HsEnc.measure, hst]; rw [if_pos n1]; omega
  · have hne : ¬ s.matchLen = 0 := by have := n1.1; omega
    rw [if_neg hne]
    obtain ⟨c', b', e, p', g1, g2, g3, g4⟩ := pushBits_ok cap s p hp1 1 (by omega) 0 out hc
    rw [g1]
    simp only
    refine ⟨false, { s with cur := c', bitIndex := b', outBits := s.matchPos - 1, outBitsCount := 8, st := .brIndex }, e, rfl, ⟨b.of_eq rfl rfl hX, ts, B ++ [false], hok, ?_, ?_⟩, by simp; omega, rfl, by simp, ?_, by first | exact Nat.zero_le _ | omega, by simp⟩
    · exact ⟨m2, n1, n2, rfl, Or.inl ⟨rfl, by rw [m1]⟩⟩
    · unfold EPend
      rw [if_neg (by simp)]
      refine ⟨p', g2, ?_⟩
      rw [bitsOf_append, List.append_assoc, g3, ← List.append_assoc, hp2]; rfl
    · intro _; left; simp only [HsEnc.measure, hst]; rw [if_neg hne, if_neg (by omega)]; omega

theorem estep_literal (cap : Nat) (s : HsEnc) (hist O : Bytes) (i : EInv s hist O) (out : Bytes) (ho : out.length ≤ cap) (hst : s.st = .literal) :
    ∃ r s' e, encStep cap s out = .ret (r, s', out ++ e) ∧ EStepOk cap s hist O out r s' e := by
  unfold encStep
  simp only [hst]
  rcases Nat.lt_or_ge out.length cap with hc | hc'
  rotate_left
  · have hc : ¬ out.length < cap := by omega
    rw [if_neg hc]; exact ⟨false, s, [], by rw [List.append_nil], estep_full i ho hc⟩
  rw [if_pos hc]
  obtain ⟨b, ts, B, hok, hmode, hpend⟩ := i
  have hX := b.scan
  have hB := b.buf
  have hS := b.size
  have hL := b.long
  unfold EMode at hmode
  simp only [hst] at hmode
  obtain ⟨m1, m2, m3, m4⟩ := hmode
  unfold EPend at hpend
  rw [if_neg (by rw [hst]; simp)] at hpend
  obtain ⟨p, hp1, hp2⟩ := hpend
  rw [bufGet_eq s.buf (256 + (s.scan - 1)) (by omega), buf_hist b _ (by omega)]
  simp only
  obtain ⟨c, hcd⟩ : ∃ c, hist.getD (hist.length - (256 + s.inputSize) + (256 + (s.scan - 1))) 0 = c := ⟨_, rfl⟩
  rw [hcd]
  obtain ⟨c', b', e, p', g1, g2, g3, g4⟩ := pushBits_ok cap s p hp1 8 (by omega) c out hc
  rw [g1]
  simp only
  refine ⟨false, { s with cur := c', bitIndex := b', st := .search }, e, rfl, ⟨b.of_eq rfl rfl hX, ts ++ [.lit c], B ++ byteBits c, ?_, ?_, ?_⟩, by simp; omega, rfl, by simp, ?_, by first | exact Nat.zero_le _ | omega, by simp⟩
  · intro t ht
    rcases List.mem_append.1 ht with h | h
    · exact hok t h
    · rw [List.mem_singleton.1 h]; trivial
  · refine ⟨?_, m2, ?_⟩
    · rw [m1, tokBits_append, List.append_assoc]; simp [tokBits, Tok.bits]
    · unfold Enc at m4 ⊢
      rw [List.foldl_append, m4]
      show _ ++ [c] = _
      simp only
      have e1 : hist.length - s.inputSize + s.scan = hist.length - s.inputSize + (s.scan - 1) + 1 := by omega
      have e2 : hist.length - (256 + s.inputSize) + (256 + (s.scan - 1)) = hist.length - s.inputSize + (s.scan - 1) := by omega
      rw [e2] at hcd
      rw [e1, List.take_add_one, ← hcd, List.getD_eq_getElem?_getD, List.getElem?_eq_getElem (by omega)]
      rfl
  · unfold EPend
    rw [if_neg (by simp)]
    refine ⟨p', g2, ?_⟩
    rw [bitsOf_append, List.append_assoc, g3, ← List.append_assoc, hp2]; rfl
  · intro _; left; simp only [HsEnc.measure, hst]; omega

theorem ofNat_bits (w n : Nat) (hw : w ≤ 8) : natBits w (BitVec.ofNat 8 n).toNat = natBits w n := by
  unfold natBits
  apply List.map_congr_left
  intro i hi
  have := List.mem_range.1 hi
  rw [BitVec.toNat_ofNat, Nat.testBit_mod_two_pow]
  simp; omega

theorem estep_brIndex (cap : Nat) (s : HsEnc) (hist O : Bytes) (i : EInv s hist O) (out : Bytes) (ho : out.length ≤ cap) (hst : s.st = .brIndex) :
    ∃ r s' e, encStep cap s out = .ret (r, s', out ++ e) ∧ EStepOk cap s hist O out r s' e := by
  unfold encStep
  simp only [hst]
  rcases Nat.lt_or_ge out.length cap with hc | hc'
  rotate_left
  · have hc : ¬ out.length < cap := by omega
    rw [if_neg hc]; exact ⟨false, s, [], by rw [List.append_nil], estep_full i ho hc⟩
  rw [if_pos hc]
  obtain ⟨b, ts, B, hok, hmode, hpend⟩ := i
  have hX := b.scan
  unfold EMode at hmode
  simp only [hst] at hmode
  obtain ⟨m1, m2, m3, m4, m5⟩ := hmode
  unfold EPend at hpend
  rw [if_neg (by rw [hst]; simp)] at hpend
  obtain ⟨p, hp1, hp2⟩ := hpend
  have hml := m2.1
  have hms := m2.2.2.2.2.1
  unfold pushOutgoing
  rcases m5 with ⟨n1, n2⟩ | ⟨n1, n2⟩
  · simp only [n1, show ¬ (8 : Nat) > 8 by omega, if_false, show (8 : Nat) > 0 by omega, if_true]
    obtain ⟨c', b', e, p', g1, g2, g3, g4⟩ := pushBits_ok cap s p hp1 8 (by omega) (BitVec.ofNat 8 s.outBits) out hc
    rw [g1]
    simp only [n1, Nat.sub_self, show (8 : Nat) > 0 by omega, if_true]
    refine ⟨false, { s with cur := c', bitIndex := b', outBitsCount := 0 }, e, rfl, ⟨b.of_eq rfl rfl hX, ts, B ++ natBits 8 (s.matchPos - 1), hok, ?_, ?_⟩, by simp; omega, rfl, by simp, ?_, by first | exact Nat.zero_le _ | omega, by simp⟩
    · unfold EMode
      simp only [hst]
      exact ⟨m1, m2, m3, m4, Or.inr ⟨trivial, by rw [n2]; simp⟩⟩
    · unfold EPend
      rw [if_neg (by simp [hst])]
      refine ⟨p', g2, ?_⟩
      rw [bitsOf_append, List.append_assoc, g3, ← List.append_assoc, hp2, ofNat_bits 8 _ (by omega), m4]
    · intro _; left; simp only [HsEnc.measure, hst]; rw [if_pos trivial, if_neg (by omega)]; omega
  · simp only [n1, show ¬ (0 : Nat) > 8 by omega, if_false, show ¬ (0 : Nat) > 0 by omega]
    refine ⟨false, { s with outBits := s.matchLen - 1, outBitsCount := 7, st := .brLength }, [], by rw [List.append_nil], ⟨b.of_eq rfl rfl hX, ts, B, hok, ?_, ?_⟩, by simpa using ho, rfl, by simp, ?_, by first | exact Nat.zero_le _ | omega, by simp⟩
    · exact ⟨m1, m2, m3, rfl, Or.inl ⟨rfl, n2⟩⟩
    · rw [List.append_nil]; exact EPend.same ⟨p, hp1, hp2⟩ rfl rfl (by simp)
    · intro _; left; simp only [HsEnc.measure, hst]; rw [if_pos n1, if_neg (by omega)]; omega

theorem estep_brLength (cap : Nat) (s : HsEnc) (hist O : Bytes) (i : EInv s hist O) (out : Bytes) (ho : out.length ≤ cap) (hst : s.st = .brLength) :
    ∃ r s' e, encStep cap s out = .ret (r, s', out ++ e) ∧ EStepOk cap s hist O out r s' e := by
  unfold encStep
  simp only [hst]
  rcases Nat.lt_or_ge out.length cap with hc | hc'
  rotate_left
  · have hc : ¬ out.length < cap := by omega
    rw [if_neg hc]; exact ⟨false, s, [], by rw [List.append_nil], estep_full i ho hc⟩
  rw [if_pos hc]
  obtain ⟨b, ts, B, hok, hmode, hpend⟩ := i
  have hX := b.scan
  have hL := b.long
  have hS := b.size
  unfold EMode at hmode
  simp only [hst] at hmode
  obtain ⟨m1, m2, m3, m4, m5⟩ := hmode
  unfold EPend at hpend
  rw [if_neg (by rw [hst]; simp)] at hpend
  obtain ⟨p, hp1, hp2⟩ := hpend
  obtain ⟨k1, k2, k3, k4, k5, k6⟩ := m2
  unfold pushOutgoing
  rcases m5 with ⟨n1, n2⟩ | ⟨n1, n2⟩
  · simp only [n1, show ¬ (7 : Nat) > 8 by omega, if_false, show (7 : Nat) > 0 by omega, if_true]
    obtain ⟨c', b', e, p', g1, g2, g3, g4⟩ := pushBits_ok cap s p hp1 7 (by omega) (BitVec.ofNat 8 s.outBits) out hc
    rw [g1]
    simp only [n1, Nat.sub_self, show (7 : Nat) > 0 by omega, if_true]
    refine ⟨false, { s with cur := c', bitIndex := b', outBitsCount := 0 }, e, rfl, ⟨b.of_eq rfl rfl hX, ts, B ++ natBits 7 (s.matchLen - 1), hok, ?_, ?_⟩, by simp; omega, rfl, by simp, ?_, by first | exact Nat.zero_le _ | omega, by simp⟩
    · unfold EMode
      simp only [hst]
      exact ⟨m1, ⟨k1, k2, k3, k4, k5, k6⟩, m3, m4, Or.inr ⟨trivial, by rw [n2]; simp [Tok.bits]⟩⟩
    · unfold EPend
      rw [if_neg (by simp [hst])]
      refine ⟨p', g2, ?_⟩
      rw [bitsOf_append, List.append_assoc, g3, ← List.append_assoc, hp2, ofNat_bits 7 _ (by omega), m4]
    · intro _; left; simp only [HsEnc.measure, hst]; rw [if_pos trivial, if_neg (by omega)]; omega
  · simp only [n1, show ¬ (0 : Nat) > 8 by omega, if_false, show ¬ (0 : Nat) > 0 by omega]
    refine ⟨false, { s with scan := s.scan + s.matchLen, matchLen := 0, st := .search }, [], by rw [List.append_nil, n1], ⟨b.of_eq rfl rfl k5, ts ++ [.ref s.matchPos s.matchLen], B, ?_, ?_, ?_⟩, by simpa using ho, rfl, by simp, ?_, by first | exact Nat.zero_le _ | omega, by simp⟩
    · intro t ht
      rcases List.mem_append.1 ht with h | h
      · exact hok t h
      · rw [List.mem_singleton.1 h]; exact ⟨⟨k3, k4, by omega, k2⟩, by omega⟩
    · refine ⟨by rw [n2, tokBits_append]; simp [tokBits], m1, ?_⟩
      unfold Enc at m3 ⊢
      rw [List.foldl_append, m3]
      show copyBack _ s.matchPos s.matchLen = _
      simp only
      rw [copy_match hist s.matchPos k3 s.matchLen _ (by omega) (by omega), Nat.add_assoc]
      intro j hj
      have := k6 j hj
      rw [buf_hist b _ (by omega), buf_hist b _ (by omega)] at this
      rw [show hist.length - s.inputSize + s.scan - s.matchPos + j = hist.length - (256 + s.inputSize) + (256 + s.scan - s.matchPos + j) by omega,
        show hist.length - s.inputSize + s.scan + j = hist.length - (256 + s.inputSize) + (256 + s.scan + j) by omega]
      exact this
    · rw [List.append_nil]; exact EPend.same ⟨p, hp1, hp2⟩ rfl rfl (by simp)
    · intro _; left; simp only [HsEnc.measure, hst]; rw [if_pos n1]; omega

theorem estep_save (cap : Nat) (s : HsEnc) (hist O : Bytes) (i : EInv s hist O) (out : Bytes) (ho : out.length ≤ cap) (hst : s.st = .saveBacklog) :
    ∃ r s' e, encStep cap s out = .ret (r, s', out ++ e) ∧ EStepOk cap s hist O out r s' e := by
  obtain ⟨b, ts, B, hok, hmode, hpend⟩ := i
  have hX := b.scan
  have hL := b.long
  have hB := b.buf
  unfold EMode at hmode
  simp only [hst] at hmode
  obtain ⟨m1, m2, m3, m4, m5⟩ := hmode
  unfold EPend at hpend
  rw [if_neg (by rw [hst]; simp)] at hpend
  unfold encStep
  simp only [hst, saveBacklog]
  rw [if_pos (by omega)]
  simp only
  have e1 : 256 - (256 - s.scan) = s.scan := by omega
  have e2 : 256 + (256 - s.scan) = 512 - s.scan := by omega
  rw [e1, e2, m3]
  obtain ⟨K, hK⟩ : ∃ K, (s.buf.drop s.scan).take (512 - s.scan) ++ s.buf.drop (512 - s.scan) = K := ⟨_, rfl⟩
  rw [hK]
  have hkl : ((s.buf.drop s.scan).take (512 - s.scan)).length = 512 - s.scan := by rw [List.length_take, List.length_drop]; omega
  refine ⟨false, { s with buf := K, scan := 0, inputSize := 256 - s.scan, st := .notFull }, [], by rw [List.append_nil],
    ⟨⟨?_, ?_, ?_, ?_, ?_⟩, ts, B, hok, ?_, ?_⟩, by simpa using ho, rfl, by simp, ?_, by first | exact Nat.zero_le _ | omega, by simp⟩
  · rw [← hK]; simp only [List.length_append, hkl, List.length_drop]; omega
  · simp only; omega
  · simp only; omega
  · simp only; omega
  · simp only
    rw [← hK, e2, List.take_append_of_le_length (by omega), List.take_of_length_le (by omega)]
    have := b.copy
    rw [m3, List.take_of_length_le (by omega)] at this
    rw [this, List.drop_drop]
    rw [List.take_of_length_le (by rw [List.length_drop]; omega)]
    exact congrArg (fun n => hist.drop n) (by omega)
  · refine ⟨m1, rfl, by simp only; omega, m2, ?_⟩
    unfold Enc at m4 ⊢
    rw [m4]
    simp only
    congr 1
    omega
  · rw [List.append_nil]; exact EPend.same hpend rfl rfl (by simp)
  · intro _; left; simp only [HsEnc.measure, hst]; omega

theorem estep_flush (cap : Nat) (s : HsEnc) (hist O : Bytes) (i : EInv s hist O) (out : Bytes) (ho : out.length ≤ cap) (hst : s.st = .flushBits) :
    ∃ r s' e, encStep cap s out = .ret (r, s', out ++ e) ∧ EStepOk cap s hist O out r s' e := by
  obtain ⟨b, ts, B, hok, hmode, hpend⟩ := i
  have i : EInv s hist O := ⟨b, ts, B, hok, hmode, hpend⟩
  have hX := b.scan
  unfold EMode at hmode
  simp only [hst] at hmode
  unfold EPend at hpend
  rw [if_neg (by rw [hst]; simp)] at hpend
  obtain ⟨p, hp1, hp2⟩ := hpend
  unfold encStep
  simp only [hst]
  by_cases h80 : s.bitIndex = 0x80
  · rw [if_pos h80]
    have h0 : p.length = 0 := mask_full ⟨p.length, hp1.len⟩ (by rw [← hp1.mask]; exact h80)
    have hnil : p = [] := List.eq_nil_of_length_eq_zero h0
    rw [hnil, List.append_nil] at hp2
    refine ⟨true, { s with st := .done }, [], by rw [List.append_nil], ⟨b.of_eq rfl rfl hX, ts, B, hok, hmode, ?_⟩, by simpa using ho, rfl, fun _ => Or.inr (Or.inl rfl), by simp, by simp, fun _ => Or.inr ⟨by simp only [HsEnc.measure, hst], rfl⟩⟩
    unfold EPend
    rw [if_pos rfl, List.append_nil]
    exact ⟨0, by omega, by simpa using hp2⟩
  · rw [if_neg h80]
    by_cases hc : out.length < cap
    · rw [if_pos hc]
      unfold pushByte
      rw [if_pos hc]
      refine ⟨true, { s with st := .done }, [s.cur], rfl, ⟨b.of_eq rfl rfl hX, ts, B, hok, hmode, ?_⟩, by simp; omega, rfl, fun _ => Or.inr (Or.inl rfl), by simp, by simp, fun _ => Or.inr ⟨by simp only [HsEnc.measure, hst], rfl⟩⟩
      unfold EPend
      rw [if_pos rfl]
      have hne : p.length ≠ 0 := by
        intro h
        apply h80
        rw [hp1.mask, h]; rfl
      refine ⟨8 - p.length, by omega, ?_⟩
      rw [bitsOf_append, ← hp2, List.append_assoc, ← hp1.bits]
      simp [bitsOf]
    · rw [if_neg hc]
      refine ⟨true, s, [], by rw [List.append_nil], by rw [List.append_nil]; exact i, by simpa using ho, rfl, fun _ => Or.inr (Or.inr ⟨hst, by rw [List.append_nil]; omega⟩), by simp, Nat.zero_le _, fun _ => Or.inl ⟨rfl, rfl⟩⟩

theorem estep_ok (cap : Nat) (s : HsEnc) (hist O : Bytes) (i : EInv s hist O) (out : Bytes) (ho : out.length ≤ cap) :
    ∃ r s' e, encStep cap s out = .ret (r, s', out ++ e) ∧ EStepOk cap s hist O out r s' e := by
  cases hst : s.st with
  | notFull =>
    refine ⟨true, s, [], by unfold encStep; rw [hst, List.append_nil], by rw [List.append_nil]; exact i, by simpa using ho, rfl, fun _ => Or.inl hst, by simp, Nat.zero_le _, fun _ => Or.inl ⟨rfl, rfl⟩⟩
  | done =>
    refine ⟨true, s, [], by unfold encStep; rw [hst, List.append_nil], by rw [List.append_nil]; exact i, by simpa using ho, rfl, fun _ => Or.inr (Or.inl hst), by simp, Nat.zero_le _, fun _ => Or.inl ⟨rfl, rfl⟩⟩
  | filled =>
    obtain ⟨b, ts, B, hok, hmode, hpend⟩ := i
    unfold EMode at hmode
    simp only [hst] at hmode
    obtain ⟨m1, m2, m3, m4⟩ := hmode
    unfold EPend at hpend
    rw [if_neg (by rw [hst]; simp)] at hpend
    refine ⟨false, { s with st := .search }, [], by unfold encStep; rw [hst, List.append_nil], ⟨b.of_eq rfl rfl b.scan, ts, B, hok, ⟨m1, m3, by simp only; rw [m2]; exact m4⟩, ?_⟩, by simpa using ho, rfl, by simp, ?_, by first | exact Nat.zero_le _ | omega, by simp⟩
    · rw [List.append_nil]; exact EPend.same hpend rfl rfl (by simp)
    · intro _; left; simp only [HsEnc.measure, hst]; omega
  | search => exact estep_search cap s hist O i out ho hst
  | tagBit => exact estep_tag cap s hist O i out ho hst
  | literal => exact estep_literal cap s hist O i out ho hst
  | brIndex => exact estep_brIndex cap s hist O i out ho hst
  | brLength => exact estep_brLength cap s hist O i out ho hst
  | saveBacklog => exact estep_save cap s hist O i out ho hst
  | flushBits => exact estep_flush cap s hist O i out ho hst

theorem EStepOk.meas {cap : Nat} {s : HsEnc} {hist O out : Bytes} {r : Bool} {s' : HsEnc} {e : Bytes} (ok : EStepOk cap s hist O out r s' e) :
    e.length + s'.measure ≤ s.measure := by
  have := ok.small
  cases r with
  | true =>
    rcases ok.idle rfl with ⟨h1, h2⟩ | ⟨h1, h2⟩
    · rw [h1, h2]; simp
    · omega
  | false =>
    rcases ok.go rfl with h | ⟨h1, h2, _⟩
    · omega
    · rw [h1, h2]; simp

theorem encStep_saved {cap : Nat} {s : HsEnc} {out : Bytes} {r : Bool} {s' : HsEnc} {o : Bytes} (h : encStep cap s out = .ret (r, s', o))
    (hs : s.st = .saveBacklog) : s'.st ≠ .saveBacklog := by
  unfold encStep at h
  simp only [hs] at h
  split at h
  · cases h
  · injection h with h
    rw [← (Prod.mk.inj (Prod.mk.inj h).2).1]
    simp

theorem epollGo_ok (cap : Nat) : ∀ (k : Nat) (s : HsEnc) (hist O out : Bytes), EInv s hist O → out.length ≤ cap → s.measure < k →
    ∃ more s' e, encPollGo cap k s out = some (.ret (more, s', out ++ e)) ∧ EInv s' hist (O ++ e) ∧ (out ++ e).length ≤ cap ∧ s'.finishing = s.finishing ∧
      (more = true → (out ++ e).length = cap) ∧ (more = false → s'.st = .notFull ∨ s'.st = .done ∨ (s'.st = .flushBits ∧ (out ++ e).length = cap)) ∧
      e.length + s'.measure ≤ s.measure ∧ s'.st ≠ .saveBacklog := by
  intro k
  induction k with
  | zero => intro s hist O out _ _ h; omega
  | succ k ih =>
    intro s hist O out i ho hm
    obtain ⟨r, s1, e1, h1, ok⟩ := estep_ok cap s hist O i out ho
    have hsv := encStep_saved h1
    unfold encPollGo
    rw [h1]
    cases r with
    | true =>
      refine ⟨false, s1, e1, rfl, ok.inv, ok.room, ok.fin, by simp, fun _ => ok.stop rfl, ok.meas, ?_⟩
      rcases ok.stop rfl with h | h | ⟨h, _⟩ <;> rw [h] <;> simp
    | false =>
      simp only
      split
      · rename_i hs
        exact ⟨true, s1, e1, rfl, ok.inv, ok.room, ok.fin, fun _ => hs.2, by simp, ok.meas, fun h => hsv (hs.1 ▸ h) h⟩
      · rename_i hs
        have hlt : s1.measure < s.measure := by
          rcases ok.go rfl with h | ⟨h1, h2, h3⟩
          · exact h
          · exact absurd ⟨by rw [h1], by rw [h2, List.append_nil]; exact h3⟩ hs
        obtain ⟨m, s2, e2, h2, i2, r2, f2, t2, n2, q2, v2⟩ := ih s1 hist (O ++ e1) (out ++ e1) ok.inv ok.room (by omega)
        have := ok.meas
        refine ⟨m, s2, e1 ++ e2, by rw [h2, List.append_assoc], by rw [← List.append_assoc]; exact i2, by rw [← List.append_assoc]; exact r2, by rw [f2, ok.fin], by rw [← List.append_assoc]; exact t2, by rw [← List.append_assoc]; exact n2, by rw [List.length_append]; omega, v2⟩

theorem emeasure_le (s : HsEnc) (h : s.inputSize ≤ 256) : s.measure < 4096 := by
  unfold HsEnc.measure
  split <;> (try split) <;> omega

/-- A poll, from any reachable state. -/
theorem epoll_ok (s : HsEnc) (hist O : Bytes) (i : EInv s hist O) (cap : Nat) :
    ∃ more s' e, encPoll s cap = some (.ret (more, s', e)) ∧ EInv s' hist (O ++ e) ∧ e.length ≤ cap ∧ s'.finishing = s.finishing ∧
      (more = true → e.length = cap) ∧ (more = false → s'.st = .notFull ∨ s'.st = .done ∨ (s'.st = .flushBits ∧ e.length = cap)) ∧
      e.length + s'.measure ≤ s.measure ∧ s'.st ≠ .saveBacklog := by
  have := epollGo_ok cap 4096 s hist O [] i (Nat.zero_le _) (emeasure_le s i.base.size)
  simpa [encPoll] using this

/-! ### Sinking and finishing -/

theorem esink_ok (s : HsEnc) (hist O : Bytes) (i : EInv s hist O) (d : Bytes) (hst : s.st = .notFull) :
    ∃ n s', encSink s d = .ret (some (n, s')) ∧ n = min d.length (256 - s.inputSize) ∧ s.inputSize < 256 ∧ EInv s' (hist ++ d.take n) O ∧ s'.finishing = false ∧
      (s'.st = .notFull ∨ s'.st = .filled) := by
  obtain ⟨b, ts, B, hok, hmode, hpend⟩ := i
  have hB := b.buf
  have hL := b.long
  unfold EMode at hmode
  simp only [hst] at hmode
  obtain ⟨m1, m2, m3, m4, m5⟩ := hmode
  unfold EPend at hpend
  rw [if_neg (by rw [hst]; simp)] at hpend
  unfold encSink
  rw [if_neg (by rw [m4]; simp), if_neg (by rw [hst]; simp)]
  simp only
  have hn : (if 256 - s.inputSize < d.length then 256 - s.inputSize else d.length) = min d.length (256 - s.inputSize) := by split <;> omega
  rw [hn]
  obtain ⟨n, hnd⟩ : ∃ n, min d.length (256 - s.inputSize) = n := ⟨_, rfl⟩
  rw [hnd]
  have hl : (d.take n).length = n := by rw [List.length_take]; omega
  unfold bufCopy
  rw [if_pos (by rw [hl]; omega)]
  simp only
  rw [hl]
  obtain ⟨K, hK⟩ : ∃ K, s.buf.take (256 + s.inputSize) ++ d.take n ++ s.buf.drop (256 + s.inputSize + n) = K := ⟨_, rfl⟩
  rw [hK]
  have htl : (s.buf.take (256 + s.inputSize)).length = 256 + s.inputSize := by rw [List.length_take]; omega
  have base : ∀ st, EBase { s with buf := K, inputSize := s.inputSize + n, st := st } (hist ++ d.take n) := by
    intro st
    refine ⟨?_, ?_, ?_, ?_, ?_⟩
    · rw [← hK]; simp only [List.length_append, htl, hl, List.length_drop]; omega
    · simp only; omega
    · simp only; omega
    · simp only [List.length_append, hl]; omega
    · simp only
      have hpl : (s.buf.take (256 + s.inputSize) ++ d.take n).length = 256 + (s.inputSize + n) := by rw [List.length_append, htl, hl]; omega
      rw [← hK, List.take_append_of_le_length (by omega), List.take_of_length_le (by omega), b.copy, List.length_append, hl,
        List.drop_append_of_le_length (by omega)]
      congr 2
      omega
  have enc : ∀ st, Enc { s with buf := K, inputSize := s.inputSize + n, st := st } (hist ++ d.take n) ts 0 := by
    intro st
    unfold Enc at m5 ⊢
    rw [m5]
    simp only
    rw [List.length_append, hl, List.take_append_of_le_length (by omega)]
    congr 1
    omega
  by_cases hr : n = 256 - s.inputSize
  · rw [if_pos hr]
    refine ⟨n, _, rfl, rfl, m3, ⟨base .filled, ts, B, hok, ⟨m1, m2, Or.inr (by simp only; omega), enc .filled⟩, EPend.same hpend rfl rfl (by simp)⟩, m4, Or.inr rfl⟩
  · rw [if_neg hr]
    refine ⟨n, _, rfl, rfl, m3, ⟨base s.st, ts, B, hok, ?_, EPend.same hpend rfl rfl (by simp [hst])⟩, m4, Or.inl hst⟩
    unfold EMode
    simp only [hst]
    exact ⟨m1, m2, by omega, m4, enc .notFull⟩

theorem esink_refused (s : HsEnc) (d : Bytes) (h : s.st ≠ .notFull ∨ s.finishing = true) : encSink s d = .ret none := by
  unfold encSink
  by_cases hf : s.finishing = true
  · rw [if_pos hf]
  · rw [if_neg hf, if_pos (h.resolve_right hf)]

theorem efinish_ok (s : HsEnc) (hist O : Bytes) (i : EInv s hist O) (hns : s.st ≠ .saveBacklog) :
    EInv (encFinish s).2 hist O ∧ (encFinish s).2.finishing = true ∧ (encFinish s).2.st ≠ .notFull ∧ ((encFinish s).1 = true ↔ (encFinish s).2.st = .done) ∧
      (s.st ≠ .notFull → (encFinish s).2.st = s.st) := by
  obtain ⟨b, ts, B, hok, hmode, hpend⟩ := i
  unfold encFinish
  simp only
  refine ⟨?_, trivial, ?_, by simp, ?_⟩
  · by_cases hnf : s.st = .notFull
    · rw [if_pos hnf]
      unfold EMode at hmode
      simp only [hnf] at hmode
      obtain ⟨m1, m2, m3, m4, m5⟩ := hmode
      unfold EPend at hpend
      rw [if_neg (by rw [hnf]; simp)] at hpend
      exact ⟨b.of_eq rfl rfl b.scan, ts, B, hok, ⟨m1, m2, Or.inl rfl, m5⟩, EPend.same hpend rfl rfl (by simp)⟩
    · rw [if_neg hnf]
      refine ⟨b.of_eq rfl rfl b.scan, ts, B, hok, ?_, hpend⟩
      unfold EMode at hmode ⊢
      cases hst : s.st with
      | notFull => exact absurd hst hnf
      | saveBacklog => exact absurd hst hns
      | filled => simp only [hst] at hmode ⊢; exact ⟨hmode.1, hmode.2.1, Or.inl rfl, hmode.2.2.2⟩
      | search => simp only [hst] at hmode ⊢; exact ⟨hmode.1, Or.inl rfl, hmode.2.2⟩
      | tagBit => simp only [hst] at hmode ⊢; exact ⟨hmode.1, Or.inl rfl, hmode.2.2⟩
      | literal => simp only [hst] at hmode ⊢; exact ⟨hmode.1, Or.inl rfl, hmode.2.2⟩
      | brIndex => simp only [hst] at hmode ⊢; exact ⟨Or.inl rfl, hmode.2⟩
      | brLength => simp only [hst] at hmode ⊢; exact ⟨Or.inl rfl, hmode.2⟩
      | flushBits => simp only [hst] at hmode ⊢; exact ⟨hmode.1, trivial, hmode.2.2⟩
      | done => simp only [hst] at hmode ⊢; exact ⟨hmode.1, trivial, hmode.2.2⟩
  · split
    · simp
    · assumption
  · intro h; rw [if_neg h]

/-- When the compressor is done, its output decompresses to its input. -/
theorem done_expand (s : HsEnc) (d O : Bytes) (i : EInv s (zeros256 ++ d) O) (hst : s.st = .done) : hsExpand O = d := by
  obtain ⟨b, ts, B, hok, hmode, hpend⟩ := i
  have hL := b.long
  unfold EMode at hmode
  simp only [hst] at hmode
  obtain ⟨m1, m2, m3, m4⟩ := hmode
  unfold EPend at hpend
  rw [if_pos hst] at hpend
  obtain ⟨k, hk, hp⟩ := hpend
  unfold hsExpand
  rw [hp, m1, tokens_written ts (fun t ht => (hok t ht).ok) k hk]
  unfold expandToks
  unfold Enc at m4
  rw [m4, m3, List.take_of_length_le (by omega), ← zeros_len, List.drop_left]

theorem dense_bits (ts : List Tok) (h : ∀ t ∈ ts, t.Dense) : ∀ (z : Bytes), z.length + ts.length ≤ (ts.foldl Tok.apply z).length ∧
    (tokBits ts).length + 9 * z.length ≤ 9 * (ts.foldl Tok.apply z).length := by
  induction ts with
  | nil => intro z; simp [tokBits]
  | cons t ts ih =>
    intro z
    obtain ⟨a, b⟩ := ih (fun x hx => h x (List.mem_cons_of_mem _ hx)) (Tok.apply z t)
    rw [List.foldl_cons, List.length_cons]
    have ht := h t (List.mem_cons_self ..)
    have hb : (tokBits (t :: ts)).length = t.bits.length + (tokBits ts).length := by unfold tokBits; rw [List.flatMap_cons, List.length_append]
    have : z.length + 1 ≤ (Tok.apply z t).length ∧ t.bits.length + 9 * z.length ≤ 9 * (Tok.apply z t).length := by
      cases t with
      | lit c => simp only [Tok.apply, Tok.bits, List.length_append, List.length_cons, byteBits, natBits_len, List.length_nil]; omega
      | ref d l =>
        have h2 : 2 ≤ l := ht.2
        simp only [Tok.apply, Tok.bits, copyBack_len, List.length_append, List.length_cons, natBits_len]; omega
    omega

/-- The compressed data has at most 9 bits for each byte, rounded up to a whole byte. -/
theorem done_size (s : HsEnc) (d O : Bytes) (i : EInv s (zeros256 ++ d) O) (hst : s.st = .done) : 8 * O.length ≤ 9 * d.length + 7 := by
  obtain ⟨b, ts, B, hok, hmode, hpend⟩ := i
  have hL := b.long
  unfold EMode at hmode
  simp only [hst] at hmode
  obtain ⟨m1, m2, m3, m4⟩ := hmode
  unfold EPend at hpend
  rw [if_pos hst] at hpend
  obtain ⟨k, hk, hp⟩ := hpend
  have h1 := congrArg List.length hp
  rw [bitsOf_len, m1, List.length_append, List.length_replicate] at h1
  have h2 := (dense_bits ts hok zeros256).2
  unfold Enc at m4
  rw [m4, m3, List.take_of_length_le (by omega), List.length_append, zeros_len] at h2
  omega

end Bpak
