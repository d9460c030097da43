import Verif.Proof.Diff
/-! Empty chunks, and what a prefix of a patch leaves behind. -/
namespace Bpak

/-- effect of an empty chunk -/
def touch (c : PatchCfg) (p : Patcher) : POut :=
  if p.st = .applyDiff then
    if p.diff < 0 then .ub
    else match c.rd (c.originOff + p.originPos) 0 with
      | none => .fail .patchReadOriginError
      | some _ => .ok (afterDiff p)
  else .ok p

theorem bspatchWrite_nil (c : PatchCfg) (hl : RdLaw c.rd) (p : Patcher) (hp : PInv p) : (bspatchWrite c p []).out = touch c p := by
  unfold bspatchWrite patchLoop patchIter touch
  obtain ⟨st, ctrl, diff, extra, adjust, opos, outPos, out⟩ := p
  generalize hpp : (⟨st, ctrl, diff, extra, adjust, opos, outPos, out⟩ : Patcher) = p at hp
  cases hs : p.st with
  | fillCtrl =>
    have := hp.fill hs
    have h2 : p.ctrl.length ≠ 24 := by omega
    subst hpp; simp_all [PRes.out]
  | readCtrl => exact absurd hs hp.noread
  | error => exact absurd hs hp.noerr
  | applyExtra =>
    have := hp.extra hs
    have e : min 0 p.extra = 0 := by omega
    have e2 : p.extra ≠ 0 := by omega
    subst hpp; simp_all [fileWrite_nil, PRes.out]
  | applyDiff =>
    simp only [if_true, List.length_nil, List.take_nil, List.drop_nil]
    by_cases hd : p.diff < 0
    · have e : min (min ((0:Nat):Int) p.diff) c.bufLen < 0 := by omega
      simp only [if_pos e, if_pos hd, PRes.out]
    · have e : min (min ((0:Nat):Int) p.diff) c.bufLen = 0 := by omega
      simp only [e, if_neg hd, Int.lt_irrefl, if_false, Int.toNat_zero]
      cases hr : c.rd (c.originOff + p.originPos) 0 with
      | none => simp [PRes.out]
      | some o =>
        have ho := hl.len _ _ _ hr
        subst hpp
        simp only at hs
        subst hs
        simp only [List.zipWith_nil_right, fileWrite_nil, if_true, PRes.out, afterDiff, Int.add_zero, Nat.add_zero, Int.sub_zero]

theorem touch_settle {c : PatchCfg} {p q : Patcher} (h : touch c p = .ok q) : settle c p = .ok q := by
  unfold touch at h
  unfold settle
  split at h
  · rename_i hs
    rw [if_pos hs]
    split at h
    · cases h
    · rename_i hd
      rw [if_neg hd]
      split at h
      · cases h
      · rename_i o ho
        simp only [POut.ok.injEq] at h
        split
        · rw [ho, h]
        · unfold afterDiff at h
          rename_i hd0
          rw [if_neg hd0] at h
          rw [h]
  · rename_i hs
    rw [if_neg hs]; exact h

theorem touch_of_fold {c : PatchCfg} (hl : RdLaw c.rd) {p q : Patcher} {b : Bytes} (hb : b ≠ []) (h : foldBytes c p b = .ok q) :
    ∃ r, touch c p = .ok r := by
  obtain ⟨x, b', rfl⟩ := List.exists_cons_of_ne_nil hb
  unfold foldBytes byteStep at h
  unfold touch
  split
  · rename_i hs
    unfold settle at h
    rw [if_pos hs] at h
    split
    · rename_i hd; rw [if_pos hd] at h; cases h
    · rename_i hd
      rw [if_neg hd] at h
      split
      · rename_i hr
        exfalso
        split at h
        · rw [hr] at h; cases h
        · simp only [POut.bind_ok] at h
          unfold eatByte at h
          rw [hs] at h
          simp only at h
          have := hl.app (c.originOff + p.originPos) 0 1
          rw [hr, Option.bind_none] at this
          rw [this] at h
          cases h
      · exact ⟨_, rfl⟩
  · exact ⟨_, rfl⟩

theorem touch_idem {c : PatchCfg} {p q : Patcher} (h : settle c p = .ok q) (ht : touch c p = .ok q) : touch c q = .ok q := by
  have hi := settle_idem h
  unfold touch at ht ⊢
  split
  · rename_i hs
    split at ht
    · split at ht
      · cases ht
      · rename_i hd
        split at ht
        · cases ht
        · rename_i o ho
          simp only [POut.ok.injEq] at ht
          by_cases h0 : p.diff = 0
          · unfold afterDiff at ht
            rw [if_pos h0] at ht
            split at ht <;> · subst ht; cases hs
          · unfold afterDiff at ht
            rw [if_neg h0] at ht
            subst ht
            rw [if_neg hd, ho]
            simp only [afterDiff, if_neg h0]
    · simp_all
  · rfl

/-- A run with empty chunks in it ends where the run without them ends, up to the pending step from a
finished diff block to what follows it. -/
theorem bspatchRun_any (c : PatchCfg) (hl : RdLaw c.rd) (hb : 0 < c.bufLen) (p p' q : Patcher) (bs : List Bytes) (hp : PInv p)
    (hf : foldBytes c p bs.flatten = .ok p') (ht : touch c p' = .ok q) :
    bspatchRun c p bs = .ok p' ∨ bspatchRun c p bs = .ok q := by
  induction bs generalizing p p' q with
  | nil => exact .inl hf
  | cons b bs ih =>
    unfold bspatchRun
    by_cases hbn : b = []
    · subst hbn
      rw [bspatchWrite_nil c hl p hp]
      rw [List.flatten_cons, List.nil_append] at hf
      have : ∃ r, touch c p = .ok r := by
        by_cases he : bs.flatten = []
        · rw [he] at hf; cases hf; exact ⟨q, ht⟩
        · exact touch_of_fold hl he hf
      obtain ⟨r, hr⟩ := this
      rw [hr]
      simp only
      have hs := touch_settle hr
      by_cases he : bs.flatten = []
      · rw [he] at hf
        cases hf
        rw [hr] at ht
        have hi := touch_idem hs hr
        simp only [POut.ok.injEq] at ht
        subst ht
        have := ih _ _ _ (settle_inv hp hs).1 (by rw [he]; rfl) hi
        right; simpa using this
      · exact ih r p' q (settle_inv hp hs).1 (by rw [← foldBytes_settle hs _ he]; exact hf) ht
    · rw [bspatchWrite_eq c hl hb p b hp hbn]
      rw [List.flatten_cons, foldBytes_append] at hf
      cases h1 : foldBytes c p b with
      | ok r => 
        rw [h1] at hf
        exact ih r p' q (foldBytes_inv hp h1) hf ht
      | fail => rw [h1] at hf; cases hf
      | ub => rw [h1] at hf; cases hf
      | hang => rw [h1] at hf; cases hf

def SafeFrom (p : Patcher) (b : Bytes) : Prop :=
  match p.st with
  | .fillCtrl => p.ctrl.length < 24 ∧ CtrlOk (p.ctrl ++ b)
  | .applyDiff => 0 ≤ p.diff ∧ CtrlOk (b.drop (p.diff.toNat + p.extra.toNat))
  | .applyExtra => 0 < p.extra ∧ CtrlOk (b.drop p.extra.toNat)
  | _ => False

theorem safe_nextRecord (p : Patcher) (b : Bytes) (h : CtrlOk b) : SafeFrom p.nextRecord b := ⟨by simp [Patcher.nextRecord], h⟩

theorem safe_afterDiff {p : Patcher} {b : Bytes} (hs : p.st = .applyDiff) (h : SafeFrom p b) : SafeFrom (afterDiff p) b := by
  have h' := h
  unfold SafeFrom at h'
  rw [hs] at h'
  unfold afterDiff
  split
  · rename_i h0
    rw [h0] at h'
    split
    · exact ⟨by assumption, by simpa using h'.2⟩
    · apply safe_nextRecord
      have : p.extra.toNat = 0 := by omega
      simpa [this] using h'.2
  · exact h

theorem safe_settle {c : PatchCfg} {p : Patcher} {b : Bytes} (h : SafeFrom p b) :
    settle c p ≠ .ub ∧ ∀ q, settle c p = .ok q → SafeFrom q b ∧ (q.st = .applyDiff → 0 < q.diff) := by
  unfold settle
  split
  · rename_i hs
    have h' := h
    unfold SafeFrom at h'
    rw [hs] at h'
    rw [if_neg (by omega)]
    split
    · rename_i h0
      split
      · exact ⟨by simp, by intro q hq; cases hq⟩
      · refine ⟨by simp, ?_⟩
        intro q hq
        cases hq
        refine ⟨safe_afterDiff hs h, ?_⟩
        unfold afterDiff; rw [if_pos h0]
        split <;> simp [Patcher.nextRecord]
    · refine ⟨by simp, ?_⟩
      intro q hq; cases hq
      exact ⟨h, fun _ => by omega⟩
  · rename_i hs
    refine ⟨by simp, ?_⟩
    intro q hq; cases hq
    exact ⟨h, fun h => absurd h hs⟩

theorem safe_eat {c : PatchCfg} {p : Patcher} {x : U8} {b : Bytes} (h : SafeFrom p (x :: b)) (hd : p.st = .applyDiff → 0 < p.diff) :
    eatByte c p x ≠ .ub ∧ ∀ q, eatByte c p x = .ok q → SafeFrom q b := by
  have h' := h
  unfold SafeFrom at h'
  unfold eatByte
  cases hs : p.st with
  | fillCtrl =>
    rw [hs] at h'
    simp only at h' ⊢
    refine ⟨by simp, ?_⟩
    intro q hq
    cases hq
    have hc : CtrlOk ((p.ctrl ++ [x]) ++ b) := by simpa using h'.2
    split
    · rename_i hl
      unfold loadCtrl SafeFrom
      simp only
      generalize p.ctrl ++ [x] = hh at hl hc
      cases hc with
      | short _ hsh => rw [List.length_append, hl] at hsh; omega
      | record _ h1 h2 h3 =>
        have t1 : (hh ++ b).take 8 = hh.take 8 := List.take_append_of_le_length (by omega)
        have t2 : ((hh ++ b).drop 8).take 8 = (hh.drop 8).take 8 := by
          rw [List.drop_append_of_le_length (by omega), List.take_append_of_le_length (by simp; omega)]
        rw [t1] at h2
        rw [t1, t2, Nat.add_assoc, ← List.drop_drop, List.drop_left' hl] at h3
        exact ⟨h2, h3⟩
    · refine ⟨?_, hc⟩
      simp at *
      omega
  | applyDiff =>
    rw [hs] at h'
    simp only at h' ⊢
    have hd := hd hs
    split
    · exact ⟨by simp, by intro q hq; cases hq⟩
    · refine ⟨by simp, ?_⟩
      intro q hq
      cases hq
      apply safe_afterDiff rfl
      refine ⟨by simp only; omega, ?_⟩
      simp only
      have e : p.diff.toNat + p.extra.toNat = ((p.diff - 1).toNat + p.extra.toNat) + 1 := by omega
      rw [e, List.drop_succ_cons] at h'
      exact h'.2
  | applyExtra =>
    rw [hs] at h'
    simp only at h' ⊢
    refine ⟨by simp, ?_⟩
    intro q hq
    cases hq
    have e : p.extra.toNat = (p.extra - 1).toNat + 1 := by omega
    rw [e, List.drop_succ_cons] at h'
    split
    · rename_i h0
      apply safe_nextRecord
      have : (p.extra - 1).toNat = 0 := by omega
      simpa [this] using h'.2
    · exact ⟨by simp only; omega, h'.2⟩
  | readCtrl => rw [hs] at h'; exact h'.elim
  | error => rw [hs] at h'; exact h'.elim

theorem safe_fold {c : PatchCfg} {p : Patcher} {b : Bytes} (h : SafeFrom p b) : foldBytes c p b ≠ .ub := by
  induction b generalizing p with
  | nil => simp [foldBytes]
  | cons x b ih =>
    unfold foldBytes byteStep
    have h1 := safe_settle (c := c) h
    cases e1 : settle c p with
    | ok q =>
      obtain ⟨s1, s2⟩ := h1.2 q e1
      have h2 := safe_eat (c := c) s1 s2
      rw [POut.bind_ok]
      cases e2 : eatByte c q x with
      | ok r => exact ih (h2.2 r e2)
      | fail => simp
      | ub => exact absurd e2 h2.1
      | hang => simp
    | fail => simp
    | ub => exact absurd e1 h1.1
    | hang => simp

theorem afterDiff_out (p : Patcher) : (afterDiff p).outPos = p.outPos ∧ (afterDiff p).out = p.out := by
  unfold afterDiff; split
  · split <;> exact ⟨rfl, rfl⟩
  · exact ⟨rfl, rfl⟩

theorem settle_out {c : PatchCfg} {p q : Patcher} (h : settle c p = .ok q) : q.outPos = p.outPos ∧ q.out = p.out := by
  unfold settle at h
  split at h
  · split at h
    · cases h
    · split at h
      · split at h
        · cases h
        · cases h; exact afterDiff_out p
      · cases h; exact ⟨rfl, rfl⟩
  · cases h; exact ⟨rfl, rfl⟩

theorem eatByte_out {c : PatchCfg} (hl : RdLaw c.rd) {p q : Patcher} {b : U8} (h : eatByte c p b = .ok q) :
    ∃ w, q.outPos = p.outPos + w.length ∧ q.out = fileWrite p.out (c.outOff + p.outPos) w := by
  unfold eatByte at h
  split at h
  · simp only [POut.ok.injEq] at h
    refine ⟨[], ?_⟩
    subst h
    split <;> exact ⟨rfl, rfl⟩
  · split at h
    · cases h
    · rename_i o ho
      simp only [POut.ok.injEq] at h
      have hol := hl.len _ _ _ ho
      refine ⟨List.zipWith (· + ·) o [b], ?_⟩
      subst h
      rw [(afterDiff_out _).1, (afterDiff_out _).2]
      exact ⟨by simp [hol], rfl⟩
  · simp only [POut.ok.injEq] at h
    refine ⟨[b], ?_⟩
    subst h
    split <;> exact ⟨rfl, rfl⟩
  · cases h

/-- Decoding only appends to the output. -/
theorem foldBytes_out {c : PatchCfg} (hl : RdLaw c.rd) {p q : Patcher} {b : Bytes} (h : foldBytes c p b = .ok q) :
    ∃ w, q.outPos = p.outPos + w.length ∧ q.out = fileWrite p.out (c.outOff + p.outPos) w := by
  induction b generalizing p with
  | nil => cases h; exact ⟨[], rfl, (fileWrite_nil _ _).symm⟩
  | cons x b ih =>
    unfold foldBytes byteStep at h
    cases h1 : settle c p with
    | ok r =>
      rw [h1, POut.bind_ok] at h
      cases h2 : eatByte c r x with
      | ok s =>
        rw [h2, POut.bind_ok] at h
        obtain ⟨w2, a2, b2⟩ := ih h
        obtain ⟨w1, a1, b1⟩ := eatByte_out hl h2
        obtain ⟨a0, b0⟩ := settle_out h1
        refine ⟨w1 ++ w2, by rw [a2, a1, a0, List.length_append, Nat.add_assoc], ?_⟩
        rw [b2, b1, b0, a1, a0, ← fileWrite_append, Nat.add_assoc]
      | fail => rw [h2] at h; cases h
      | ub => rw [h2] at h; cases h
      | hang => rw [h2] at h; cases h
    | fail => rw [h1] at h; cases h
    | ub => rw [h1] at h; cases h
    | hang => rw [h1] at h; cases h

/-- A prefix of an accepted byte string is accepted. -/
theorem foldBytes_prefix {c : PatchCfg} {p q : Patcher} {a b : Bytes} (h : foldBytes c p (a ++ b) = .ok q) :
    ∃ r, foldBytes c p a = .ok r ∧ foldBytes c r b = .ok q := by
  rw [foldBytes_append] at h
  cases h1 : foldBytes c p a with
  | ok r => rw [h1] at h; exact ⟨r, rfl, h⟩
  | fail => rw [h1] at h; cases h
  | ub => rw [h1] at h; cases h
  | hang => rw [h1] at h; cases h

end Bpak
