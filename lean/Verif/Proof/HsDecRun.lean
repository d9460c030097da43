import Verif.Proof.HsDec
/-!
Steps and calls of the decompressor.
-/
namespace Bpak

theorem pending_congr {s s' : HsDec} (h1 : s'.cur = s.cur) (h2 : s'.bitIndex = s.bitIndex) (h3 : s'.inputIndex = s.inputIndex) (h4 : s'.inputSize = s.inputSize)
    (h5 : s'.buf.take 256 = s.buf.take 256) (hs : s.inputSize ≤ 256) : s'.pending = s.pending := by
  unfold HsDec.pending HsDec.unread
  rw [h1, h2, h3, h4]
  have aux : ∀ b : Bytes, (b.drop s.inputIndex).take (s.inputSize - s.inputIndex) = ((b.take 256).drop s.inputIndex).take (s.inputSize - s.inputIndex) := by
    intro b
    rw [List.drop_take, List.take_take, Nat.min_eq_left (by omega)]
  rw [aux s'.buf, aux s.buf, h5]

theorem Win.same {s s' : HsDec} {hist : Bytes} (w : Win s hist) (h : SameOut s s') : Win s' hist := by
  unfold Win at *
  rw [h.1, h.2.1]; exact w

/-- The states of a pass through the loop end, or use up bits. -/
def HsDec.measure (s : HsDec) : Nat := s.pending.length + (if s.st = .backref then 1 else 0)

theorem measure_lt {s s' : HsDec} (h : s'.pending.length + 1 < s.pending.length ∨ (s'.pending.length < s.pending.length ∧ s'.st ≠ .backref)) : s'.measure < s.measure := by
  unfold HsDec.measure
  rcases h with h | ⟨h, g⟩
  · split <;> split <;> omega
  · rw [if_neg g]; split <;> omega

/-- What a pass of the loop achieves. -/
structure StepOk (cap : Nat) (s : HsDec) (hist out : Bytes) (s' : HsDec) (e : Bytes) : Prop where
  inv : HDInv s'
  win : Win s' (hist ++ e)
  room : (out ++ e).length ≤ cap
  final : ∀ fut, s.final hist fut = s'.final (hist ++ e) fut
  stop : s'.st = s.st → (out ++ e).length ≠ cap → s'.final (hist ++ e) [] = hist ++ e ∧ s'.inputSize = 0 ∧ s'.st ≠ .backref
  go : s'.st ≠ s.st → s'.measure < s.measure

theorem step_tag (cap : Nat) (s : HsDec) (i : HDInv s) (hist : Bytes) (w : Win s hist) (out : Bytes) (ho : out.length ≤ cap) (hst : s.st = .tagBit) :
    ∃ s' e, decStep cap s out = .ret (s', out ++ e) ∧ StepOk cap s hist out s' e := by
  unfold decStep
  simp only [hst]
  by_cases h : 1 ≤ s.pending.length
  · obtain ⟨s1, e1, e2, e3, e4⟩ := getBits_ok s i 1 h (Nat.le_refl _)
    rw [e1]
    simp only
    obtain ⟨b, r, hp⟩ : ∃ b r, s.pending = b :: r := by
      cases hpd : s.pending with
      | nil => rw [hpd] at h; simp at h
      | cons b r => exact ⟨b, r, rfl⟩
    rw [hp] at e2 ⊢
    simp only [List.drop_succ_cons, List.drop_zero] at e2
    have hv : bitsVal ((b :: r).take 1) = b.toNat := by simp [bitsVal]
    rw [hv]
    have hm : r.length < s.pending.length := by rw [hp]; simp
    cases b with
    | true =>
      simp only [Bool.toNat_true, ne_eq, Nat.one_ne_zero, not_false_eq_true, if_true]
      have hpe : ({ s1 with st := .literal } : HsDec).pending = r := e2
      refine ⟨{ s1 with st := .literal }, [], by rw [List.append_nil], ⟨e3.buf, e3.size, e3.index, e3.empty, e3.bit, ?_, ?_, ?_, ?_⟩, ?_, by simpa using ho, ?_, ?_, ?_⟩
      all_goals try simp
      · exact (w.same e4 : Win s1 hist)
      · intro fut
        unfold HsDec.final
        rw [hpe, hst, hp]
        rfl
      · rw [hst]; simp
      · intro _; exact measure_lt (Or.inr ⟨by rw [hpe]; exact hm, by simp⟩)
    | false =>
      simp only [Bool.toNat_false, ne_eq, not_true_eq_false, if_false]
      have hpe : ({ s1 with outIndex := 0, st := .indexLsb } : HsDec).pending = r := e2
      refine ⟨{ s1 with outIndex := 0, st := .indexLsb }, [], by rw [List.append_nil], ⟨e3.buf, e3.size, e3.index, e3.empty, e3.bit, ?_, ?_, ?_, ?_⟩, ?_, by simpa using ho, ?_, ?_, ?_⟩
      all_goals try simp
      · exact (w.same e4 : Win s1 hist)
      · intro fut
        unfold HsDec.final
        rw [hpe, hst, hp]
        rfl
      · rw [hst]; simp
      · intro _; exact measure_lt (Or.inr ⟨by rw [hpe]; exact hm, by simp⟩)
  · obtain ⟨e1, e2⟩ := getBits_none s i 1 (by omega) (by omega)
    rw [e1]
    refine ⟨s, [], by rw [List.append_nil], i, by simpa using w, by simpa using ho, by simp, ?_, by simp⟩
    intro _ _
    refine ⟨?_, e2, by rw [hst]; simp⟩
    have : s.pending = [] := List.eq_nil_of_length_eq_zero (by omega)
    unfold HsDec.final
    rw [this, hst, List.append_nil, List.append_nil]
    show (tokens []).foldl _ _ = _
    rw [tokens_nil]; rfl

theorem step_index (cap : Nat) (s : HsDec) (i : HDInv s) (hist : Bytes) (w : Win s hist) (out : Bytes) (ho : out.length ≤ cap) (hst : s.st = .indexLsb) :
    ∃ s' e, decStep cap s out = .ret (s', out ++ e) ∧ StepOk cap s hist out s' e := by
  unfold decStep
  simp only [hst]
  by_cases h : 8 ≤ s.pending.length
  · obtain ⟨s1, e1, e2, e3, e4⟩ := getBits_ok s i 8 h (by omega)
    rw [e1]
    simp only
    have hlt := bitsVal_lt (s.pending.take 8)
    rw [List.length_take, Nat.min_eq_left h] at hlt
    have h0 : s1.outIndex = 0 := by rw [e4.2.2.2.1]; exact i.idx0 hst
    rw [h0, Nat.zero_or]
    have hpe : ({ s1 with outIndex := bitsVal (s.pending.take 8) + 1, outCount := 0, st := .countLsb } : HsDec).pending = s.pending.drop 8 := e2
    refine ⟨{ s1 with outIndex := bitsVal (s.pending.take 8) + 1, outCount := 0, st := .countLsb }, [], by rw [List.append_nil], ⟨e3.buf, e3.size, e3.index, e3.empty, e3.bit, ?_, ?_, ?_, ?_⟩, ?_, by simpa using ho, ?_, ?_, ?_⟩
    all_goals try simp
    · omega
    · exact (w.same e4 : Win s1 hist)
    · intro fut
      unfold HsDec.final
      rw [hpe, hst]
      unfold finalHist
      simp only
      have hsp : s.pending ++ fut = s.pending.take 8 ++ (s.pending.drop 8 ++ fut) := by rw [← List.append_assoc, List.take_append_drop]
      have hl8 : (s.pending.take 8).length = 8 := by rw [List.length_take]; omega
      rw [hsp]
      generalize s.pending.drop 8 ++ fut = r
      generalize s.pending.take 8 = a at hl8
      split
      · rename_i h7
        have hr : r = r.take 7 ++ r.drop 7 := (List.take_append_drop _ _).symm
        conv => lhs; rw [hr]
        rw [tokens_ref a (r.take 7) (r.drop 7) hl8 (by rw [List.length_take]; omega), List.foldl_cons]
        rfl
      · rename_i h7
        rw [tokens_ref_short _ (by simp; omega)]
        rfl
    · rw [hst]; simp
    · intro _; exact measure_lt (Or.inl (by rw [hpe, List.length_drop]; omega))
  · obtain ⟨e1, e2⟩ := getBits_none s i 8 (by omega) (by omega)
    rw [e1]
    refine ⟨s, [], by rw [List.append_nil], i, by simpa using w, by simpa using ho, by simp, ?_, by simp⟩
    intro _ _
    refine ⟨?_, e2, by rw [hst]; simp⟩
    unfold HsDec.final
    rw [hst, List.append_nil, List.append_nil]
    unfold finalHist
    simp only
    rw [tokens_ref_short _ (by omega)]; rfl

theorem step_count (cap : Nat) (s : HsDec) (i : HDInv s) (hist : Bytes) (w : Win s hist) (out : Bytes) (ho : out.length ≤ cap) (hst : s.st = .countLsb) :
    ∃ s' e, decStep cap s out = .ret (s', out ++ e) ∧ StepOk cap s hist out s' e := by
  unfold decStep
  simp only [hst]
  by_cases h : 7 ≤ s.pending.length
  · obtain ⟨s1, e1, e2, e3, e4⟩ := getBits_ok s i 7 h (by omega)
    rw [e1]
    simp only
    have hlt := bitsVal_lt (s.pending.take 7)
    rw [List.length_take, Nat.min_eq_left h] at hlt
    have h0 : s1.outCount = 0 := by rw [e4.2.2.2.2]; exact i.cnt0 hst
    rw [h0, Nat.zero_or]
    have hpe : ({ s1 with outCount := bitsVal (s.pending.take 7) + 1, st := .backref } : HsDec).pending = s.pending.drop 7 := e2
    refine ⟨{ s1 with outCount := bitsVal (s.pending.take 7) + 1, st := .backref }, [], by rw [List.append_nil], ⟨e3.buf, e3.size, e3.index, e3.empty, e3.bit, ?_, ?_, ?_, ?_⟩, ?_, by simpa using ho, ?_, ?_, ?_⟩
    all_goals try simp
    · rw [e4.2.2.2.1]; exact i.idx (Or.inl hst)
    · omega
    · exact (w.same e4 : Win s1 hist)
    · intro fut
      unfold HsDec.final
      rw [hpe, hst]
      unfold finalHist
      simp only
      rw [if_pos (by simp; omega), List.drop_append_of_le_length h, List.take_append_of_le_length h, e4.2.2.2.1]
    · rw [hst]; simp
    · intro _; exact measure_lt (Or.inl (by rw [hpe, List.length_drop]; omega))
  · obtain ⟨e1, e2⟩ := getBits_none s i 7 (by omega) (by omega)
    rw [e1]
    refine ⟨s, [], by rw [List.append_nil], i, by simpa using w, by simpa using ho, by simp, ?_, by simp⟩
    intro _ _
    refine ⟨?_, e2, by rw [hst]; simp⟩
    unfold HsDec.final
    rw [hst, List.append_nil, List.append_nil]
    unfold finalHist
    simp only
    rw [if_neg h]

theorem step_literal (cap : Nat) (s : HsDec) (i : HDInv s) (hist : Bytes) (w : Win s hist) (out : Bytes) (ho : out.length ≤ cap) (hst : s.st = .literal) :
    ∃ s' e, decStep cap s out = .ret (s', out ++ e) ∧ StepOk cap s hist out s' e := by
  unfold decStep
  simp only [hst, yieldLiteral]
  by_cases hc : out.length < cap
  · rw [if_pos hc]
    by_cases h : 8 ≤ s.pending.length
    · obtain ⟨s1, e1, e2, e3, e4⟩ := getBits_ok s i 8 h (by omega)
      rw [e1]
      simp only
      obtain ⟨p1, p2⟩ := win_push s1 hist e3.buf (w.same e4) (BitVec.ofNat 8 (bitsVal (s.pending.take 8)))
      rw [p1]
      simp only [pushByte]
      rw [if_pos hc]
      simp only
      have ht : (s1.buf.set (256 + (s1.head &&& 255).toNat) (BitVec.ofNat 8 (bitsVal (s.pending.take 8)))).take 256 = s1.buf.take 256 := by
        rw [List.take_set_of_le (by omega)]
      have hbl : (s1.buf.set (256 + (s1.head &&& 255).toNat) (BitVec.ofNat 8 (bitsVal (s.pending.take 8)))).length = 512 := by
        rw [List.length_set]; exact e3.buf
      generalize s1.buf.set (256 + (s1.head &&& 255).toNat) (BitVec.ofNat 8 (bitsVal (s.pending.take 8))) = B at p2 ht hbl
      generalize s1.head + 1 = hd at p2
      have hpe : ({ s1 with buf := B, head := hd, st := .tagBit } : HsDec).pending = s.pending.drop 8 := by
        rw [← e2]
        exact pending_congr rfl rfl rfl rfl ht e3.size
      refine ⟨{ s1 with buf := B, head := hd, st := .tagBit }, [BitVec.ofNat 8 (bitsVal (s.pending.take 8))], rfl, ⟨hbl, e3.size, e3.index, e3.empty, e3.bit, ?_, ?_, ?_, ?_⟩, p2, by simp; omega, ?_, ?_, ?_⟩
      all_goals try simp
      · intro fut
        unfold HsDec.final
        rw [hpe, hst]
        unfold finalHist
        simp only
        have hsp : s.pending ++ fut = s.pending.take 8 ++ (s.pending.drop 8 ++ fut) := by rw [← List.append_assoc, List.take_append_drop]
        rw [hsp, tokens_lit _ _ (by rw [List.length_take]; omega)]
        rfl
      · rw [hst]; simp
      · intro _; exact measure_lt (Or.inl (by rw [hpe, List.length_drop]; omega))
    · obtain ⟨e1, e2⟩ := getBits_none s i 8 (by omega) (by omega)
      rw [e1]
      refine ⟨s, [], by rw [List.append_nil], i, by simpa using w, by simpa using ho, by simp, ?_, by simp⟩
      intro _ _
      refine ⟨?_, e2, by rw [hst]; simp⟩
      unfold HsDec.final
      rw [hst, List.append_nil, List.append_nil]
      unfold finalHist
      simp only
      rw [tokens_lit_short _ (by omega)]; rfl
  · rw [if_neg hc]
    refine ⟨s, [], by rw [List.append_nil], i, by simpa using w, by simpa using ho, by simp, ?_, by simp⟩
    intro _ h
    rw [List.append_nil] at h
    omega

theorem step_backref (cap : Nat) (s : HsDec) (i : HDInv s) (hist : Bytes) (w : Win s hist) (out : Bytes) (ho : out.length ≤ cap) (hst : s.st = .backref) :
    ∃ s' e, decStep cap s out = .ret (s', out ++ e) ∧ StepOk cap s hist out s' e := by
  unfold decStep
  simp only [hst, yieldBackref]
  by_cases hc : cap - out.length > 0
  · rw [if_pos hc]
    obtain ⟨i1, i2⟩ := i.idx (Or.inr hst)
    obtain ⟨c1, c2⟩ := i.cnt hst
    obtain ⟨n, hn⟩ : ∃ n, (if s.outCount < cap - out.length then s.outCount else cap - out.length) = n := ⟨_, rfl⟩
    rw [hn]
    have hn1 : n ≤ s.outCount ∧ n ≤ cap - out.length ∧ (n = s.outCount ∨ n = cap - out.length) := by
      rw [← hn]; split <;> omega
    obtain ⟨b, h, e, g1, g2, g3, g4, g5, g6⟩ := copyGo_ok cap s.outIndex i1 i2 n s out hist i.buf w (by omega)
    rw [g1]
    simp only
    by_cases hz : s.outCount - n = 0
    · rw [if_pos hz]
      have hpe : ({ s with outCount := s.outCount - n, buf := b, head := h, st := .tagBit } : HsDec).pending = s.pending := pending_congr rfl rfl rfl rfl g6 i.size
      refine ⟨_, e, rfl, ⟨g4, i.size, i.index, i.empty, i.bit, ?_, ?_, ?_, ?_⟩, g5, by simp; omega, ?_, ?_, ?_⟩
      all_goals try simp
      · intro fut
        unfold HsDec.final
        rw [hpe, hst]
        unfold finalHist
        simp only
        rw [g2, show s.outCount = n by omega]
      · rw [hst]; simp
      · intro _
        unfold HsDec.measure
        rw [hpe, hst]
        simp
    · rw [if_neg hz]
      have hpe : ({ s with outCount := s.outCount - n, buf := b, head := h } : HsDec).pending = s.pending := pending_congr rfl rfl rfl rfl g6 i.size
      refine ⟨_, e, rfl, ⟨g4, i.size, i.index, i.empty, i.bit, ?_, ?_, ?_, ?_⟩, g5, by simp; omega, ?_, ?_, ?_⟩
      · simp only [hst]; simp
      · simp only [hst]; simp
      · exact fun _ => ⟨i1, i2⟩
      · intro _; simp only; omega
      · intro fut
        unfold HsDec.final
        rw [hpe, hst]
        unfold finalHist
        simp only [hst]
        rw [g2, ← copyBack_add, show n + (s.outCount - n) = s.outCount by omega]
      · intro _ hne
        exfalso
        apply hne
        rw [List.length_append, g3]
        omega
      · intro hne; exact absurd rfl hne
  · rw [if_neg hc]
    refine ⟨s, [], by rw [List.append_nil], i, by simpa using w, by simpa using ho, by simp, ?_, by simp⟩
    intro _ h
    rw [List.append_nil] at h
    omega

theorem step_ok (cap : Nat) (s : HsDec) (i : HDInv s) (hist : Bytes) (w : Win s hist) (out : Bytes) (ho : out.length ≤ cap) :
    ∃ s' e, decStep cap s out = .ret (s', out ++ e) ∧ StepOk cap s hist out s' e := by
  cases hst : s.st with
  | tagBit => exact step_tag cap s i hist w out ho hst
  | literal => exact step_literal cap s i hist w out ho hst
  | indexLsb => exact step_index cap s i hist w out ho hst
  | countLsb => exact step_count cap s i hist w out ho hst
  | backref => exact step_backref cap s i hist w out ho hst

theorem pollGo_ok (cap : Nat) : ∀ (k : Nat) (s : HsDec) (hist out : Bytes), HDInv s → Win s hist → out.length ≤ cap → s.measure < k →
    ∃ more s' e, decPollGo cap k s out = some (.ret (more, s', out ++ e)) ∧ HDInv s' ∧ Win s' (hist ++ e) ∧ (out ++ e).length ≤ cap ∧
      (∀ fut, s.final hist fut = s'.final (hist ++ e) fut) ∧ (more = true → (out ++ e).length = cap) ∧
      (more = false → (out ++ e).length < cap ∧ s'.final (hist ++ e) [] = hist ++ e ∧ s'.inputSize = 0 ∧ s'.st ≠ .backref) := by
  intro k
  induction k with
  | zero => intro s hist out _ _ _ h; omega
  | succ k ih =>
    intro s hist out i w ho hm
    obtain ⟨s1, e1, h1, ok⟩ := step_ok cap s i hist w out ho
    unfold decPollGo
    rw [h1]
    simp only
    by_cases hs : s1.st = s.st
    · rw [if_pos hs]
      refine ⟨_, s1, e1, rfl, ok.inv, ok.win, ok.room, ok.final, by simp, ?_⟩
      intro h
      have hne : (out ++ e1).length ≠ cap := by simpa using h
      have := ok.room
      exact ⟨by omega, ok.stop hs hne⟩
    · rw [if_neg hs]
      have := ok.go hs
      obtain ⟨m, s2, e2, h2, i2, w2, r2, f2, t2, n2⟩ := ih s1 (hist ++ e1) (out ++ e1) ok.inv ok.win ok.room (by omega)
      refine ⟨m, s2, e1 ++ e2, by rw [h2, List.append_assoc], i2, by rw [← List.append_assoc]; exact w2, by rw [← List.append_assoc]; exact r2, ?_, by rw [← List.append_assoc]; exact t2, by rw [← List.append_assoc, ← List.append_assoc]; exact n2⟩
      intro fut
      rw [ok.final, f2, List.append_assoc]

/-- A poll, from any reachable state. -/
theorem poll_ok (s : HsDec) (i : HDInv s) (hist : Bytes) (w : Win s hist) (cap : Nat) :
    ∃ more s' e, decPoll s cap = some (.ret (more, s', e)) ∧ HDInv s' ∧ Win s' (hist ++ e) ∧ e.length ≤ cap ∧
      (∀ fut, s.final hist fut = s'.final (hist ++ e) fut) ∧ (more = true → e.length = cap) ∧
      (more = false → e.length < cap ∧ s'.final (hist ++ e) [] = hist ++ e ∧ s'.inputSize = 0 ∧ s'.st ≠ .backref) := by
  have h1 := pending_le s i
  have h2 : s.measure < 4096 := by unfold HsDec.measure; split <;> omega
  have := pollGo_ok cap 4096 s hist [] i w (Nat.zero_le _) h2
  simpa [decPoll] using this

/-! ### Sinking -/

theorem sink_ok (s : HsDec) (i : HDInv s) (hist : Bytes) (w : Win s hist) (d : Bytes) :
    ∃ n s', decSink s d = .ret (n, s') ∧ n = min d.length (256 - s.inputSize) ∧ HDInv s' ∧ Win s' hist ∧ s'.st = s.st ∧
      ∀ fut, s.final hist (bitsOf d ++ fut) = s'.final hist (bitsOf (d.drop n) ++ fut) := by
  have hb := i.buf
  have hs := i.size
  have hx := i.index
  unfold decSink
  simp only
  by_cases h0 : 256 - s.inputSize = 0
  · rw [if_pos h0]
    exact ⟨0, s, rfl, by omega, i, w, rfl, fun fut => rfl⟩
  · rw [if_neg h0]
    have hn : (if 256 - s.inputSize < d.length then 256 - s.inputSize else d.length) = min d.length (256 - s.inputSize) := by split <;> omega
    rw [hn]
    obtain ⟨n, hnd⟩ : ∃ n, min d.length (256 - s.inputSize) = n := ⟨_, rfl⟩
    rw [hnd]
    have hl : (d.take n).length = n := by rw [List.length_take]; omega
    unfold bufCopy
    rw [if_pos (by rw [hl]; omega)]
    simp only
    rw [hl]
    obtain ⟨B, hB⟩ : ∃ B, s.buf.take s.inputSize ++ d.take n ++ s.buf.drop (s.inputSize + n) = B := ⟨_, rfl⟩
    rw [hB]
    have htl : (s.buf.take s.inputSize).length = s.inputSize := by rw [List.length_take]; omega
    refine ⟨n, _, rfl, rfl, ⟨?_, ?_, ?_, ?_, i.bit, i.idx0, i.cnt0, i.idx, i.cnt⟩, ⟨w.1, ?_⟩, rfl, ?_⟩
    · rw [← hB]; simp only [List.length_append, List.length_drop, htl, hl]; omega
    · simp only; omega
    · simp only; omega
    · simp only
      intro h
      have := i.empty
      omega
    · intro j h1 h2
      rw [← w.2 j h1 h2]
      simp only
      rw [← hB, List.append_assoc, List.getElem?_append_right (by rw [htl]; omega), htl, List.getElem?_append_right (by rw [hl]; omega), hl, List.getElem?_drop]
      congr 1
      omega
    · intro fut
      unfold HsDec.final
      simp only
      congr 1
      have hp : ({ s with buf := B, inputSize := s.inputSize + n } : HsDec).pending = s.pending ++ bitsOf (d.take n) := by
        unfold HsDec.pending HsDec.unread
        simp only
        rw [List.append_assoc, ← bitsOf_append]
        congr 2
        rw [← hB, List.append_assoc, List.drop_append_of_le_length (by rw [htl]; exact hx), List.drop_take]
        have e1 : ((s.buf.drop s.inputIndex).take (s.inputSize - s.inputIndex)).length = s.inputSize - s.inputIndex := by
          rw [List.length_take, List.length_drop]; omega
        rw [show s.inputSize + n - s.inputIndex = (s.inputSize - s.inputIndex) + n by omega]
        generalize (s.buf.drop s.inputIndex).take (s.inputSize - s.inputIndex) = P at e1
        rw [← e1, List.take_length_add_append, List.take_append_of_le_length (by omega), List.take_of_length_le (by omega)]
      rw [hp, List.append_assoc, ← List.append_assoc (bitsOf (d.take n)), ← bitsOf_append, List.take_append_drop]

theorem apply_prefix (h : Bytes) (t : Tok) : h <+: t.apply h := by
  cases t with
  | lit c => exact List.prefix_append _ _
  | ref d l => exact copyBack_prefix d l h

theorem fold_prefix : ∀ (ts : List Tok) (h : Bytes), h <+: ts.foldl Tok.apply h := by
  intro ts
  induction ts with
  | nil => intro h; exact List.prefix_refl _
  | cons t ts ih => intro h; exact (apply_prefix h t).trans (ih _)

theorem final_prefix (s : HsDec) (hist : Bytes) (fut : List Bool) : hist <+: s.final hist fut := by
  unfold HsDec.final finalHist
  split
  · exact fold_prefix _ _
  · exact fold_prefix _ _
  · exact fold_prefix _ _
  · split
    · exact (copyBack_prefix _ _ _).trans (fold_prefix _ _)
    · exact List.prefix_refl _
  · exact (copyBack_prefix _ _ _).trans (fold_prefix _ _)

theorem zeros_len : zeros256.length = 256 := by unfold zeros256; exact List.length_replicate

theorem reset_final (t : Bytes) : HsDec.reset.final zeros256 (bitsOf t) = zeros256 ++ hsExpand t := by
  have hp : HsDec.reset.pending = [] := by
    unfold HsDec.pending HsDec.unread
    have e1 : HsDec.reset.bitIndex = 0 := rfl
    have e2 : HsDec.reset.inputSize = 0 := rfl
    rw [e1, bitsFrom_zero, e2, Nat.zero_sub, List.take_zero]
    rfl
  unfold HsDec.final
  rw [hp]
  show (tokens (bitsOf t)).foldl Tok.apply zeros256 = _
  obtain ⟨x, hx⟩ := fold_prefix (tokens (bitsOf t)) zeros256
  unfold hsExpand expandToks
  rw [← hx, ← zeros_len, List.drop_left]

end Bpak
