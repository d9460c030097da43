import Verif.Proof.DiskFair
/-! What is left of the writes to come, and errors not yet noticed. -/
namespace Bpak

theorem suffix_tail {α : Type} (l : List α) : l.tail <:+ l := by
  cases l with
  | nil => exact List.suffix_refl _
  | cons a t => exact ⟨[a], rfl⟩

theorem fseek_luck {w w' : Disk} {b : Bool} {pos : Nat} (h : w.fseek pos = (b, w')) : w'.luck <:+ w.luck := by
  unfold Disk.fseek at h
  split at h <;> (cases h; exact List.suffix_refl _)

theorem fwrite_luck {w w' : Disk} {b : Bool} {pos : Nat} {d : Bytes} (h : w.fwrite pos d = (b, w')) : w'.luck <:+ w.luck := by
  unfold Disk.fwrite at h
  split at h
  · cases h; exact List.suffix_refl _
  · split at h
    · split at h <;> (cases h; exact suffix_tail _)
    · split at h
      · cases h; exact suffix_tail _
      · split at h <;> (cases h; exact suffix_tail _)
      · split at h <;> (cases h; exact suffix_tail _)

theorem ftruncate_luck {w w' : Disk} {b : Bool} {n : Nat} (h : w.ftruncate n = (b, w')) : w'.luck <:+ w.luck := by
  unfold Disk.ftruncate at h
  split at h <;> (cases h; exact suffix_tail _)

theorem updateHash_luck {w w' : Disk} {H : HashFn} {e : Err} (h : updateHashD H w = (e, w')) : w'.luck <:+ w.luck := by
  unfold updateHashD at h
  split at h <;> (cases h; exact List.suffix_refl _)

theorem writeHeader_luck {w w' : Disk} {e : Err} (h : writeHeaderD w = (e, w')) : w'.luck <:+ w.luck := by
  unfold writeHeaderD at h
  split at h
  · rename_i h1; cases h; exact fseek_luck h1
  · rename_i h1
    split at h
    · rename_i h2; cases h; exact (fwrite_luck h2).trans (fseek_luck h1)
    · rename_i h2; cases h; exact (fwrite_luck h2).trans (fseek_luck h1)

theorem finish_luck {w w' : Disk} {H : HashFn} {e : Err} (h : finishD H w = (e, w')) : w'.luck <:+ w.luck := by
  unfold finishD at h
  split at h
  · rename_i h1; exact (writeHeader_luck h).trans (updateHash_luck h1)
  · rename_i h1; cases h; exact updateHash_luck h1

theorem copy_luck (k : Nat) : ∀ {w w' : Disk} {b : Bool} {pos pos' : Nat} {src : Bytes} {rem : U64}, addCopyLoopD k w pos src rem = some (b, w', pos') → w'.luck <:+ w.luck := by
  induction k with
  | zero => intro w w' b pos pos' src rem h; cases h
  | succ k ih =>
    intro w w' b pos pos' src rem h
    unfold addCopyLoopD at h
    split at h
    · cases h; exact List.suffix_refl _
    · split at h
      · rename_i h1; cases h; exact fwrite_luck h1
      · rename_i h1; exact (ih h).trans (fwrite_luck h1)

theorem addFile_luck {H : HashFn} {fuel : Nat} {w w' : Disk} {id : U32} {flags : U8} {n : Nat} {src : Bytes} {e : Err}
    (h : addFileD H fuel w id flags n src = some (e, w')) : w'.luck <:+ w.luck := by
  rcases ha : addPart w.pkg.hdr id with ⟨e0, h0, i⟩
  by_cases he : e0 = .ok
  · subst he
    rw [addFileD_finish H fuel w id flags n src h0 i ha] at h
    split at h
    · rename_i h1; cases h; have l1 := fseek_luck h1; exact l1
    · rename_i h1
      have l1 := fseek_luck h1
      split at h
      · cases h
      · rename_i h2; cases h; exact (copy_luck _ h2).trans l1
      · rename_i h2
        split at h
        · rename_i h3; cases h; exact (fwrite_luck h3).trans ((copy_luck _ h2).trans l1)
        · rename_i h3; exact (finish_luck (Option.some.inj h)).trans ((fwrite_luck h3).trans ((copy_luck _ h2).trans l1))
  · rw [addFileD_refused H fuel w id flags n src e0 h0 i ha he] at h
    cases h
    exact List.suffix_refl _

theorem addKey_luck {H : HashFn} {w w' : Disk} {id : U32} {flags : U8} {key : Except Err Bytes} {e : Err}
    (h : addKeyD H w id flags key = .ret (e, w')) : w'.luck <:+ w.luck := by
  rcases key with e0 | d
  · cases h; exact List.suffix_refl _
  rcases ha : addPart w.pkg.hdr id with ⟨e0, h0, i⟩
  by_cases he : e0 = .ok
  · subst he
    rw [addKeyD_finish H w id flags d h0 i ha] at h
    split at h
    · rename_i h1; cases h; have l1 := fseek_luck h1; exact l1
    · rename_i h1
      have l1 := fseek_luck h1
      split at h
      · rename_i h2; cases h; exact (fwrite_luck h2).trans l1
      · rename_i h2
        split at h
        · cases h
        · split at h
          · rename_i h3; cases h; exact (fwrite_luck h3).trans ((fwrite_luck h2).trans l1)
          · rename_i h3; exact (finish_luck (Out.ret.inj h)).trans ((fwrite_luck h3).trans ((fwrite_luck h2).trans l1))
  · unfold addKeyD at h
    simp only [ha] at h
    cases h
    exact List.suffix_refl _

theorem addTree_luck {H : HashFn} {fuel : Nat} {w w' : Disk} {id : U32} {flags : U8} {d salt : Bytes} {e : Err}
    (h : addFileWithMerkleD H fuel w id flags d salt = some (.ret (e, w'))) : w'.luck <:+ w.luck := by
  rcases ha : addFileD H fuel w id flags d.length d with _ | ⟨e0, w1⟩
  · unfold addFileWithMerkleD at h
    simp only [ha] at h
    cases h
  · have l1 := addFile_luck ha
    by_cases he : e0 = .ok
    · subst he
      rw [merkleD_steps H fuel w w1 id flags d salt ha] at h
      split at h
      · cases h
      · cases h; exact l1
      · split at h
        · rename_i h1; cases h; exact (fseek_luck h1).trans l1
        · rename_i h1
          split at h
          · rename_i h2; cases h; exact (fwrite_luck h2).trans ((fseek_luck h1).trans l1)
          · rename_i h2; exact (finish_luck (Out.ret.inj (Option.some.inj h))).trans ((fwrite_luck h2).trans ((fseek_luck h1).trans l1))
    · unfold addFileWithMerkleD at h
      simp only [ha] at h
      cases h
      exact l1

theorem move_luck (k : Nat) : ∀ {w w' : Disk} {rd wr rem : U64} {e : Err}, moveDataD k w rd wr rem = some (e, w') → w'.luck <:+ w.luck := by
  induction k with
  | zero => intro w w' rd wr rem e h; cases h
  | succ k ih =>
    intro w w' rd wr rem e h
    unfold moveDataD at h
    split at h
    · cases h; exact List.suffix_refl _
    · split at h
      · rename_i h1; cases h; exact fseek_luck h1
      · rename_i h1
        simp only at h
        split at h
        · rename_i h2; cases h; exact (fseek_luck h2).trans (fseek_luck h1)
        · rename_i h2
          split at h
          · rename_i h3; cases h; exact (fwrite_luck h3).trans ((fseek_luck h2).trans (fseek_luck h1))
          · rename_i h3; exact (ih h).trans ((fwrite_luck h3).trans ((fseek_luck h2).trans (fseek_luck h1)))

theorem finishTrunc_luck {w w' : Disk} {H : HashFn} {size : Header → Nat} {e : Err} (h : finishTruncD H size w = (e, w')) : w'.luck <:+ w.luck := by
  unfold finishTruncD at h
  split at h
  · rename_i h1
    split at h
    · rename_i h2; cases h; exact (ftruncate_luck h2).trans (finish_luck h1)
    · rename_i h2; cases h; exact (ftruncate_luck h2).trans (finish_luck h1)
  · rename_i h1; cases h; exact finish_luck h1

theorem delete_luck {H : HashFn} {fuel : Nat} {w w' : Disk} {id : U32} {rm : Bool} {e : Err} (h : deletePartD H fuel w id rm = some (.ret (e, w'))) : w'.luck <:+ w.luck := by
  unfold deletePartD at h
  split at h
  · cases h; exact List.suffix_refl _
  · split at h
    · simp only at h
      split at h
      · cases h
      · cases h
      · split at h
        · cases h
        · rename_i h1; have l1 := move_luck _ h1; exact (finishTrunc_luck (Out.ret.inj (Option.some.inj h))).trans l1
        · rename_i h1; cases h; have l1 := move_luck _ h1; exact l1
    · cases h

theorem deleteAll_luck {H : HashFn} {fuel : Nat} {w w' : Disk} {rm : Bool} {e : Err} (h : deleteAllPartsD H fuel w rm = some (.ret (e, w'))) : w'.luck <:+ w.luck := by
  unfold deleteAllPartsD at h
  simp only at h
  split at h
  · cases h
  · cases h
  · have l1 := finishTrunc_luck (Out.ret.inj (Option.some.inj h)); exact l1

theorem sign_luck {SK PK : Type} {H : HashFn} {S : SigScheme SK PK} {rnd : Bytes} {key : Except Err SK} {w w' : Disk} {e : Err} (h : pkgSignD H S rnd key w = (e, w')) : w'.luck <:+ w.luck := by
  unfold pkgSignD at h
  split at h
  · rename_i h1
    have l1 := updateHash_luck h1
    split at h
    · split at h
      · cases h; exact l1
      · split at h
        · cases h; exact l1
        · split at h
          · cases h; exact l1
          · exact (writeHeader_luck h).trans l1
    · cases h; exact l1
  · rename_i h1; cases h; exact updateHash_luck h1

theorem WCall.luck {SK PK : Type} {H : HashFn} {S : SigScheme SK PK} {fuel : Nat} {w w' : Disk} {c : WCall SK} {e : Err} (h : c.disk H S fuel w = some (.ret (e, w'))) : w'.luck <:+ w.luck := by
  cases c with
  | addFile id flags n src =>
    simp only [WCall.disk] at h
    rcases ha : addFileD H fuel w id flags n src with _ | ⟨e0, w1⟩
    · rw [ha] at h; cases h
    · rw [ha] at h; cases h; exact addFile_luck ha
  | addTree id flags d salt => exact addTree_luck h
  | addKey id flags key => exact addKey_luck (Option.some.inj h)
  | delete id rm => exact delete_luck h
  | deleteAll rm => exact deleteAll_luck h
  | edit ch => exact writeHeader_luck (w := { w with pkg := { w.pkg with hdr := ch w.pkg.hdr } }) (Out.ret.inj (Option.some.inj h))
  | rawSignature sig =>
    have h := Option.some.inj h
    unfold writeRawSignatureD at h
    split at h
    · cases h
    · exact writeHeader_luck (w := { w with pkg := { w.pkg with hdr := { w.pkg.hdr with
        signature := sig ++ List.replicate (512 - sig.length) 0, signatureSz := BitVec.ofNat 16 sig.length } } }) (Out.ret.inj h)
  | sign key rnd => exact sign_luck (Out.ret.inj (Option.some.inj h))

/-! ### an error not yet noticed -/

theorem fseek_pending {w : Disk} (hp : w.pending = true) (pos : Nat) : w.fseek pos = (false, { w with pending := false }) := by
  unfold Disk.fseek; rw [if_pos hp]

theorem updateHash_pending {w w' : Disk} {H : HashFn} (hp : w.pending = true) (h : updateHashD H w = (.ok, w')) : w'.pending = true := by
  unfold updateHashD at h
  split at h
  · cases h; exact hp
  · rename_i hne he
    simp only [Prod.mk.injEq] at h
    obtain ⟨h1, _⟩ := h
    subst h1
    obtain ⟨d, rfl⟩ := computePayloadHash_ok H _ _ _ he
    exact (hne d rfl rfl).elim

theorem writeHeader_pending {w : Disk} (hp : w.pending = true) : (writeHeaderD w).1 ≠ .ok := by
  unfold writeHeaderD
  rw [fseek_pending hp]
  exact fun h => (by cases h)

theorem finish_pending {w : Disk} (H : HashFn) (hp : w.pending = true) : (finishD H w).1 ≠ .ok := by
  unfold finishD
  split
  · rename_i h1; exact writeHeader_pending (updateHash_pending hp h1)
  · rename_i hne h1; exact hne

theorem computeHeaderHash_ok (H : HashFn) (h : Header) : ∀ x, computeHeaderHash H h 64 = (.ok, x) → ∃ d, x = some d := by
  intro x e
  unfold computeHeaderHash at e
  split at e
  · rename_i c hc
    simp only [Prod.mk.injEq, true_and, feedZeros_eq, hashFinal, hashUpdate] at e
    unfold hashInit at hc
    split at hc
    · cases hc
    · rename_i n hn
      cases hc
      simp only [hn] at e
      rw [if_neg (by have := digestLen_le hn; omega)] at e
      exact ⟨_, e.symm⟩
  · rename_i hne he
    exact absurd (Prod.mk.inj e).1 hne

theorem move_pending (k : Nat) {w w' : Disk} {rd wr rem : U64} (hp : w.pending = true) (h : moveDataD k w rd wr rem = some (.ok, w')) : w'.pending = true := by
  cases k with
  | zero => cases h
  | succ k =>
    unfold moveDataD at h
    split at h
    · cases h; exact hp
    · rw [fseek_pending hp] at h
      cases h

theorem WCall.pending {SK PK : Type} (H : HashFn) (S : SigScheme SK PK) (hS : ∀ sk rnd k d, S.sign sk rnd k d ≠ .error .ok) (fuel : Nat) (w : Disk) (hp : w.pending = true)
    (c : WCall SK) (hc : c.sane) (r : Err × Disk)
    (h : c.disk H S fuel w = some (.ret r)) : r.1 ≠ .ok := by
  have fin : ∀ size w, w.pending = true → (finishTruncD H size w).1 ≠ .ok := by
    intro size w hp
    unfold finishTruncD
    split
    · rename_i h1; exact absurd (by rw [h1]) (finish_pending H hp)
    · rename_i hne _; exact hne
  have addf : ∀ id flags n src r, addFileD H fuel w id flags n src = some r → r.1 ≠ .ok := by
    intro id flags n src r h
    rcases ha : addPart w.pkg.hdr id with ⟨e0, h0, i⟩
    by_cases he : e0 = .ok
    · subst he
      rw [addFileD_finish H fuel w id flags n src h0 i ha, fseek_pending (by exact hp)] at h
      cases h
      exact fun h => (by cases h)
    · rw [addFileD_refused H fuel w id flags n src e0 h0 i ha he] at h
      cases h
      exact he
  cases c with
  | addFile id flags n src =>
    simp only [WCall.disk] at h
    rcases ha : addFileD H fuel w id flags n src with _ | r0
    · rw [ha] at h; cases h
    · rw [ha] at h; cases h; exact addf _ _ _ _ _ ha
  | addTree id flags d salt =>
    simp only [WCall.disk] at h
    unfold addFileWithMerkleD at h
    split at h
    · cases h
    · rename_i ha; exact absurd rfl (addf _ _ _ _ _ ha)
    · rename_i hne _; cases h; exact hne
  | addKey id flags key =>
    have h := Option.some.inj h
    rcases key with e0 | d
    · simp only [addKeyD] at h
      cases h
      exact fun he => hc (congrArg _ he)
    · rcases ha : addPart w.pkg.hdr id with ⟨e0, h0, i⟩
      by_cases he : e0 = .ok
      · subst he
        rw [addKeyD_finish H w id flags d h0 i ha, fseek_pending (by exact hp)] at h
        cases h
        exact fun h => (by cases h)
      · unfold addKeyD at h
        simp only [ha] at h
        cases h
        exact he
  | delete id rm =>
    simp only [WCall.disk] at h
    unfold deletePartD at h
    split at h
    · cases h; exact fun h => (by cases h)
    · split at h
      · simp only at h
        split at h
        · cases h
        · cases h
        · split at h
          · cases h
          · rename_i h1
            cases h
            exact fin _ _ (move_pending _ (by exact hp) h1)
          · rename_i hne _; cases h; exact hne
      · cases h
  | deleteAll rm =>
    simp only [WCall.disk] at h
    unfold deleteAllPartsD at h
    simp only at h
    split at h
    · cases h
    · cases h
    · cases h; exact fin _ _ hp
  | edit ch => cases h; exact writeHeader_pending (by exact hp)
  | rawSignature sig =>
    have h := Option.some.inj h
    unfold writeRawSignatureD at h
    split at h
    · cases h
    · cases h; exact writeHeader_pending (by exact hp)
  | sign key rnd =>
    cases h
    unfold pkgSignD
    split
    · rename_i h1
      have hp1 := updateHash_pending hp h1
      split
      · split
        · exact fun he => hc (congrArg _ he)
        · split
          · rename_i he1
            refine fun he => hS _ _ _ _ (he1.trans ?_)
            exact congrArg _ he
          · split
            · exact fun h => (by cases h)
            · exact writeHeader_pending (by exact hp1)
      · rename_i hne he
        intro h0
        simp only at h0
        subst h0
        obtain ⟨d, rfl⟩ := computeHeaderHash_ok H _ _ he
        exact hne d rfl rfl
    · rename_i hne _; exact hne

end Bpak
