import Verif.Proof.MerkleBuild
namespace Bpak

theorem upperBlocks_eq (k nb : Nat) : 4096 * storedLevels.upperBlocks k nb = (iterLens k (4096 * nb)).sum := by
  induction k generalizing nb with
  | zero => rfl
  | succ k ih =>
    simp only [storedLevels.upperBlocks, iterLens, List.sum_cons]
    rw [merkleLevelUp_eq, Nat.mul_div_cancel_left _ (by omega : 0 < 4096), ← ih]
    omega

theorem storedLevels_succ (P : Bytes) (off k n : Nat) : storedLevels P off (k+1) n =
    fileRead P (off + (iterLens k (merkleLevelUp n)).sum) (merkleLevelUp n) :: storedLevels P off k (merkleLevelUp n) := by
  conv => lhs; unfold storedLevels
  simp only
  rw [upperBlocks_eq, Nat.mul_div_cancel_left _ (by omega : 0 < 4096), ← merkleLevelUp_eq]

/-! ### comparing 32 bytes -/

theorem verifyWr_32 (P : Bytes) (off : Nat) (b : Bytes) (hb : b.length = 32) :
    merkleVerifyWr (payloadReader P) off b =
      if fileRead P off 32 = b then .ok () else if off + 32 ≤ P.length then .error .verifyFail else .error .readError := by
  unfold merkleVerifyWr
  have hne : b ≠ [] := by intro e; rw [e] at hb; cases hb
  have ht : b.take 32 = b := List.take_of_length_le (by omega)
  have hd : b.drop 32 = [] := List.drop_eq_nil_of_le (by omega)
  rw [dif_neg hne, ht, hd]
  simp only [payloadReader]
  rw [fileRead_length, hb]
  by_cases h : off + 32 ≤ P.length
  · rw [if_neg (by omega)]
    by_cases he : fileRead P off 32 = b
    · rw [if_pos he, if_neg (by rw [he]; simp)]
      unfold merkleVerifyWr
      rw [dif_pos rfl]
    · rw [if_neg he, if_pos h, if_pos (fun e => he e.symm)]
  · rw [if_pos (by omega), if_neg, if_neg h]
    intro e
    have := congrArg List.length e
    rw [fileRead_length] at this
    omega

theorem fileRead_split_eq (P a b : Bytes) (off : Nat) (hl : a.length + b.length = (fileRead P off (a.length + b.length)).length ∨ True) :
    fileRead P off (a.length + b.length) = a ++ b ↔ fileRead P off a.length = a ∧ fileRead P (off + a.length) b.length = b := by
  rw [fileRead_add]
  constructor
  · intro h
    have hla : (fileRead P off a.length).length = a.length := by
      have := congrArg List.length h
      rw [List.length_append, List.length_append, fileRead_length, fileRead_length] at this
      rw [fileRead_length]; omega
    exact List.append_inj h hla
  · rintro ⟨h1, h2⟩
    rw [h1, h2]

theorem absorb_verify (H : HashFn) (hH : HashLen H) (P salt : Bytes) (base : Nat) (all : Bytes) : ∀ (c : Nat),
    (fileRead P (base + c) (32 * (all.length / 4096)) = blockHashes H salt all →
      absorb H (verifyIo (payloadReader P)) salt base c () all =
        .ok ((), c + 32 * (all.length / 4096), all.drop (4096 * (all.length / 4096)))) ∧
    (¬ fileRead P (base + c) (32 * (all.length / 4096)) = blockHashes H salt all →
      ∃ e, absorb H (verifyIo (payloadReader P)) salt base c () all = .error e ∧ e ≠ .ok ∧
        (base + c + 32 * (all.length / 4096) ≤ P.length → e = .verifyFail)) := by
  induction hn : all.length using Nat.strongRecOn generalizing all with
  | ind n ih =>
    intro c
    subst hn
    by_cases h : all.length < 4096
    · rw [absorb_lt _ _ _ _ _ _ _ h, blockHashes_short H salt all h, Nat.div_eq_of_lt h]
      exact ⟨fun _ => rfl, fun hc => absurd (by simp [fileRead]) hc⟩
    · have ih := ih (all.drop 4096).length (by simp; omega) _ rfl (c + 32)
      have hl32 := hH.sha256 (salt ++ all.take 4096)
      have hlb := blockHashes_length hH salt (all.drop 4096)
      have e1 : 32 * (all.length / 4096) = 32 + 32 * ((all.drop 4096).length / 4096) := by rw [List.length_drop]; omega
      have hsp := fileRead_split_eq P (H hashSha256 (salt ++ all.take 4096)) (blockHashes H salt (all.drop 4096)) (base + c) (.inr trivial)
      rw [hl32, hlb, ← e1, ← blockHashes_cons H salt all (by omega)] at hsp
      rw [hsp, absorb_ge _ _ _ _ _ _ _ h]
      simp only [verifyIo]
      rw [verifyWr_32 _ _ _ hl32]
      rw [show base + (c + 32) = base + c + 32 by omega] at ih
      by_cases hq : fileRead P (base + c) 32 = H hashSha256 (salt ++ all.take 4096)
      · rw [if_pos hq]
        simp only [verifyIo] at ih ⊢
        constructor
        · intro hx
          rw [ih.1 hx.2]
          rw [List.drop_drop, List.length_drop]
          rw [show (all.length - 4096) / 4096 = all.length / 4096 - 1 by omega,
            show c + 32 + 32 * (all.length / 4096 - 1) = c + 32 * (all.length / 4096) by omega,
            show 4096 + 4096 * (all.length / 4096 - 1) = 4096 * (all.length / 4096) by omega]
        · intro hx
          obtain ⟨e, a, b, d⟩ := ih.2 (fun hy => hx ⟨hq, hy⟩)
          exact ⟨e, a, b, fun hy => d (by rw [List.length_drop] at *; omega)⟩
      · rw [if_neg hq]
        constructor
        · intro hx; exact absurd hx.1 hq
        · intro hx
          by_cases hP : base + c + 32 ≤ P.length
          · rw [if_pos hP]; exact ⟨_, rfl, by decide, fun _ => rfl⟩
          · rw [if_neg hP]; exact ⟨_, rfl, by decide, fun hy => by omega⟩

theorem levelGo_verify (H : HashFn) (hH : HashLen H) (P : Bytes) (m : Merkle) : ∀ (k inOff outOff : Nat),
    (m.offset + inOff + 4096 * k ≤ P.length ∨ k = 0 → fileRead P (m.offset + outOff) (32 * k) = blockHashes H m.salt (fileRead P (m.offset + inOff) (4096 * k)) →
      merkleLevelGo H (verifyIo (payloadReader P)) m k () inOff outOff = .ok ()) ∧
    (¬ ((m.offset + inOff + 4096 * k ≤ P.length ∨ k = 0) ∧ fileRead P (m.offset + outOff) (32 * k) = blockHashes H m.salt (fileRead P (m.offset + inOff) (4096 * k))) →
      ∃ e, merkleLevelGo H (verifyIo (payloadReader P)) m k () inOff outOff = .error e ∧ e ≠ .ok ∧
        (m.offset + inOff + 4096 * k ≤ P.length → m.offset + outOff + 32 * k ≤ P.length → e = .verifyFail)) := by
  intro k
  induction k with
  | zero =>
    intro i o
    refine ⟨fun _ _ => rfl, fun h => absurd ⟨.inr rfl, ?_⟩ h⟩
    rw [blockHashes_short _ _ _ (by rw [fileRead_length]; omega)]
    simp [fileRead]
  | succ k ih =>
    intro i o
    have ih := ih (i + 4096) (o + 32)
    unfold merkleLevelGo
    rw [merkleFeed_view (verifyIo (payloadReader P)) () P (fun _ _ => rfl)]
    rw [show 32 * 128 = 4096 from rfl]
    by_cases hin : m.offset + i + 4096 ≤ P.length
    · rw [if_pos (.inr hin)]
      simp only [hashUpdate, List.nil_append, verifyIo] at ih ⊢
      have hl := hH.sha256 (m.salt ++ fileRead P (m.offset + i) 4096)
      rw [verifyWr_32 _ _ _ hl]
      have hl2 : (fileRead P (m.offset + i) 4096).length = 4096 := by rw [fileRead_length]; omega
      rw [show 4096 * (k+1) = 4096 + 4096 * k by omega, fileRead_add P (m.offset + i), blockHashes_append H m.salt _ _ hl2]
      rw [show m.offset + (i + 4096) = m.offset + i + 4096 by omega, show m.offset + (o + 32) = m.offset + o + 32 by omega] at ih
      by_cases hq : fileRead P (m.offset + o) 32 = H hashSha256 (m.salt ++ fileRead P (m.offset + i) 4096)
      · rw [if_pos hq]
        simp only
        rw [show 32 * (k+1) = 32 + 32 * k by omega, fileRead_add P (m.offset + o), hq]
        simp only [List.append_cancel_left_eq]
        constructor
        · intro h1 h2
          exact ih.1 (.inl (by omega)) h2
        · intro h1
          obtain ⟨e, a, b, d⟩ := ih.2 (fun hy => h1 ⟨.inl (by omega), hy.2⟩)
          exact ⟨e, a, b, fun u v => d (by omega) (by omega)⟩
      · rw [if_neg hq]
        constructor
        · intro h1 h2
          exfalso; apply hq
          have := congrArg (List.take 32) h2
          rw [List.take_left' hl] at this
          rw [← this]
          unfold fileRead; rw [List.take_take]; congr 1
        · intro _
          by_cases hP : m.offset + o + 32 ≤ P.length
          · rw [if_pos hP]; exact ⟨_, rfl, by decide, fun _ _ => rfl⟩
          · rw [if_neg hP]; exact ⟨_, rfl, by decide, fun _ hy => by omega⟩
    · rw [if_neg (by omega)]
      constructor
      · intro h1; omega
      · intro _; exact ⟨_, rfl, by decide, fun _ => by omega⟩

theorem prefix_read (P b : Bytes) (off n : Nat) (h : b.length ≤ n) : b <+: fileRead P off n ↔ fileRead P off b.length = b := by
  rw [List.prefix_iff_eq_take]
  unfold fileRead
  rw [List.take_take, Nat.min_eq_left h]
  exact eq_comm

theorem levelsUp_verify (H : HashFn) (hH : HashLen H) (P : Bytes) (m : Merkle) : ∀ (j n : Nat), n % 4096 = 0 → 0 < n →
    m.offset + (iterLens j n).sum + n ≤ P.length →
    (HoldHashes H m.salt (fileRead P (m.offset + (iterLens j n).sum) n) (storedLevels P m.offset j n) →
      merkleLevelsUp H (verifyIo (payloadReader P)) m ((n, (iterLens j n).sum) :: (iterLens j n).zip (merkleOffsetsGo (iterLens j n) (iterLens j n).sum)) () = .ok ()) ∧
    (¬ HoldHashes H m.salt (fileRead P (m.offset + (iterLens j n).sum) n) (storedLevels P m.offset j n) →
      merkleLevelsUp H (verifyIo (payloadReader P)) m ((n, (iterLens j n).sum) :: (iterLens j n).zip (merkleOffsetsGo (iterLens j n) (iterLens j n).sum)) () = .error .verifyFail) := by
  intro j
  induction j with
  | zero => intro n _ _ _; exact ⟨fun _ => rfl, fun h => absurd trivial h⟩
  | succ j ih =>
    intro n hn h0 hP
    rw [storedLevels_succ]
    simp only [iterLens] at hP ⊢
    rw [merkleOffsets_cons, List.zip_cons_cons]
    unfold merkleLevelsUp
    have hup := merkleLevelUp_eq n
    have ih := ih (merkleLevelUp n) (by omega) (by omega)
    generalize hls : iterLens j (merkleLevelUp n) = ls at *
    rw [List.sum_cons] at hP ⊢
    have ih := ih (by omega)
    have hgo := levelGo_verify H hH P m (n / 4096) (merkleLevelUp n + ls.sum) ls.sum
    rw [show 4096 * (n / 4096) = n by omega] at hgo
    have hbl : (blockHashes H m.salt (fileRead P (m.offset + (merkleLevelUp n + ls.sum)) n)).length = 32 * (n / 4096) := by
      rw [blockHashes_length hH, fileRead_length, Nat.min_eq_left (by omega)]
    have hpre := prefix_read P (blockHashes H m.salt (fileRead P (m.offset + (merkleLevelUp n + ls.sum)) n)) (m.offset + ls.sum) (merkleLevelUp n) (by omega)
    rw [hbl] at hpre
    simp only [HoldHashes]
    rw [hpre]
    by_cases hq : fileRead P (m.offset + ls.sum) (32 * (n / 4096)) = blockHashes H m.salt (fileRead P (m.offset + (merkleLevelUp n + ls.sum)) n)
    · rw [hgo.1 (.inl (by omega)) hq]
      simp only
      exact ⟨fun h => ih.1 h.2, fun h => ih.2 (fun h' => h ⟨hq, h'⟩)⟩
    · obtain ⟨e, e1, _, e3⟩ := hgo.2 (fun h => hq h.2)
      rw [e1, e3 (by omega) (by omega)]
      exact ⟨fun h => absurd h.1 hq, fun _ => rfl⟩

theorem levelsUp_verify_absent (H : HashFn) (hH : HashLen H) (P : Bytes) (m : Merkle) (j n : Nat) (hn : n % 4096 = 0) (h0 : 0 < n)
    (hP : ¬ m.offset + (iterLens (j+1) n).sum + n ≤ P.length) :
    ∃ e, e ≠ .ok ∧ merkleLevelsUp H (verifyIo (payloadReader P)) m ((n, (iterLens (j+1) n).sum) :: (iterLens (j+1) n).zip (merkleOffsetsGo (iterLens (j+1) n) (iterLens (j+1) n).sum)) () = .error e := by
  simp only [iterLens] at hP ⊢
  rw [merkleOffsets_cons, List.zip_cons_cons]
  unfold merkleLevelsUp
  have hgo := levelGo_verify H hH P m (n / 4096) (merkleLevelUp n :: iterLens j (merkleLevelUp n)).sum (iterLens j (merkleLevelUp n)).sum
  obtain ⟨e, e1, e2, _⟩ := hgo.2 (fun h => by have := h.1; omega)
  rw [e1]
  exact ⟨e, e2, rfl⟩

/-! ### feeding the data -/

theorem merkleWriteGo_err {σ : Type} (H : HashFn) (io : MIo σ) (hio : ∀ s off b e, io.wr s off b = .error e → e ≠ .ok) :
    ∀ (k : Nat) (m : Merkle) (s : σ) (d : Bytes) (e : Err), merkleWriteGo H io k m s d = .error e → e ≠ .ok := by
  intro k
  induction k with
  | zero =>
    intro m s d e h
    unfold merkleWriteGo at h
    split at h
    · cases h
    · cases h; decide
  | succ k ih =>
    intro m s d e h
    unfold merkleWriteGo at h
    split at h
    · cases h
    · generalize (if m.blockCounter = 4096 then { m with running := hashUpdate ⟨hashSha256, []⟩ m.salt } else m : Merkle) = m2 at h
      simp only at h
      split at h
      · split at h
        · rename_i hw
          cases h
          exact hio _ _ _ _ hw
        · split at h
          · cases h
          · exact ih _ _ _ _ h
      · exact ih _ _ _ _ h

theorem verifyWr_err (P : Bytes) (b : Bytes) : ∀ (off : Nat) (e : Err), merkleVerifyWr (payloadReader P) off b = .error e → e ≠ .ok := by
  induction hn : b.length using Nat.strongRecOn generalizing b with
  | ind n ih =>
    intro off e h
    unfold merkleVerifyWr at h
    split at h
    · cases h
    · rename_i hne
      have := List.length_pos_iff.2 hne
      simp only [payloadReader] at h
      split at h
      · cases h; decide
      · split at h
        · cases h; decide
        · exact ih (b.drop 32).length (by simp; omega) _ rfl _ _ h

theorem merkleWriteAll_err {σ : Type} (H : HashFn) (io : MIo σ) (hio : ∀ s off b e, io.wr s off b = .error e → e ≠ .ok)
    (ds : List Bytes) : ∀ (m : Merkle) (s : σ) (e : Err), merkleWriteAll H io m s ds = .error e → e ≠ .ok := by
  induction ds with
  | nil => intro m s e h; cases h
  | cons d ds ih =>
    intro m s e h
    unfold merkleWriteAll at h
    split at h
    · rename_i hw; cases h; exact merkleWriteGo_err H io hio _ _ _ _ _ hw
    · exact ih _ _ _ h

theorem verifyFeed_eq (H : HashFn) (P : Bytes) : ∀ (n off : Nat) (m : Merkle),
    (off + n ≤ P.length → ∃ chunks : List Bytes, chunks.flatten = fileRead P off n ∧
      verifyFeed H (payloadReader P) m off n = match merkleWriteAll H (verifyIo (payloadReader P)) m () chunks with
        | .error e => .error e
        | .ok (m, _) => .ok m) ∧
    (0 < n → ¬ off + n ≤ P.length → ∃ e, e ≠ .ok ∧ verifyFeed H (payloadReader P) m off n = .error e) := by
  intro n
  induction n using Nat.strongRecOn with
  | ind n ih =>
    intro off m
    by_cases h0 : n = 0
    · subst h0
      refine ⟨fun _ => ⟨[], by simp [fileRead], ?_⟩, fun h => by omega⟩
      unfold verifyFeed; rw [dif_pos rfl]; rfl
    · have hstep : verifyFeed H (payloadReader P) m off n = if (fileRead P off (min n 4096)).length ≠ min n 4096 then .error .readError
          else match merkleWriteChunk H (verifyIo (payloadReader P)) m () (fileRead P off (min n 4096)) with
            | .error e => .error e
            | .ok (m, _) => verifyFeed H (payloadReader P) m (off + min n 4096) (n - min n 4096) := by
        conv => lhs; unfold verifyFeed
        rw [dif_neg h0]
        rfl
      rw [hstep, fileRead_length]
      constructor
      · intro hP
        rw [if_neg (by omega)]
        cases hw : merkleWriteChunk H (verifyIo (payloadReader P)) m () (fileRead P off (min n 4096)) with
        | error e =>
          refine ⟨[fileRead P off (min n 4096), fileRead P (off + min n 4096) (n - min n 4096)], ?_, ?_⟩
          · simp only [List.flatten_cons, List.flatten_nil, List.append_nil]
            rw [← fileRead_add, show min n 4096 + (n - min n 4096) = n by omega]
          · unfold merkleWriteAll; rw [hw]
        | ok x =>
          obtain ⟨m1, u⟩ := x
          obtain ⟨chunks, c1, c2⟩ := (ih (n - min n 4096) (by omega) (off + min n 4096) m1).1 (by omega)
          refine ⟨fileRead P off (min n 4096) :: chunks, ?_, ?_⟩
          · rw [List.flatten_cons, c1, ← fileRead_add, show min n 4096 + (n - min n 4096) = n by omega]
          · simp only
            rw [c2, merkleWriteAll.eq_2, hw]
      · intro _ hP
        split
        · exact ⟨_, by decide, rfl⟩
        · cases hw : merkleWriteChunk H (verifyIo (payloadReader P)) m () (fileRead P off (min n 4096)) with
          | error e => exact ⟨e, merkleWriteGo_err H _ (fun _ _ _ _ hx => verifyWr_err P _ _ _ hx) _ _ _ _ _ hw, rfl⟩
          | ok x => exact (ih (n - min n 4096) (by omega) (off + min n 4096) x.1).2 (by omega) (by omega)

/-- The context `merkleInit` sets up. -/
theorem merkleInit_verify (P : Bytes) (n off : Nat) (salt : Bytes) (hsalt : salt.length ≤ 32) (hs : TreeSupported n) :
    merkleInit (verifyIo (payloadReader P)) () n salt off false =
      .ok (⟨n, salt, iterLens (levelCount (n / 4096)) n, merkleOffsetsGo (iterLens (levelCount (n / 4096)) n) (iterLens (levelCount (n / 4096)) n).sum,
        (iterLens (levelCount (n / 4096)) n).sum, off, 0, 4096, ⟨hashSha256, []⟩, List.replicate 32 0, false⟩, ()) := by
  obtain ⟨h1, h2, h3⟩ := hs
  unfold merkleInit
  rw [if_neg (by omega), if_neg (by omega), merkleLevelsGo_eq _ h1, if_neg (by omega)]
  rfl

theorem storedLevels_last (P : Bytes) (off : Nat) : ∀ (j n : Nat) (d : Bytes),
    (storedLevels P off (j+1) n).getLastD d = fileRead P off ((iterLens (j+1) n).getLastD 0) := by
  intro j
  induction j with
  | zero => intro n d; rw [storedLevels_succ]; simp [storedLevels, iterLens]
  | succ j ih =>
    intro n d
    rw [storedLevels_succ, List.getLastD_cons, ih]
    simp only [iterLens, List.getLastD_cons]

/-- More than one block, everything readable. -/
theorem verify_many (H : HashFn) (hH : HashLen H) (P : Bytes) (dOff n tOff : Nat) (root salt : Bytes)
    (hsalt : salt.length ≤ 32) (hs : TreeSupported n) (hn : n ≠ 4096) (hd : dOff + n ≤ P.length)
    (ht : tOff + (iterLens (levelCount (n / 4096)) n).sum ≤ P.length) :
    (¬ HoldHashes H salt (fileRead P dOff n) (storedLevels P tOff (levelCount (n / 4096)) n) →
      verifyMerkleTree H (payloadReader P) dOff n tOff root salt = .verifyFail) ∧
    (HoldHashes H salt (fileRead P dOff n) (storedLevels P tOff (levelCount (n / 4096)) n) →
      verifyMerkleTree H (payloadReader P) dOff n tOff root salt =
        if H hashSha256 (salt ++ fileRead P tOff 4096) ≠ root then .badRootHash else .ok) := by
  unfold verifyMerkleTree
  rw [merkleInit_verify P n tOff salt hsalt hs]
  simp only
  have hlast := iterLens_last n hs
  obtain ⟨j, hj⟩ := levelCount_pos (n / 4096)
  rw [hj] at hlast ht ⊢
  rw [storedLevels_succ]
  simp only [iterLens] at hlast ht ⊢
  obtain ⟨hs1, hs2, hs3⟩ := hs
  have hup := merkleLevelUp_eq n
  generalize hl0 : merkleLevelUp n = l0 at *
  generalize hls : iterLens j l0 = ls at *
  rw [merkleOffsets_cons]
  rw [List.sum_cons] at ht
  generalize hm0 : (⟨n, salt, l0 :: ls, ls.sum :: merkleOffsetsGo ls ls.sum, (l0 :: ls).sum, tOff, 0, 4096, ⟨hashSha256, []⟩, List.replicate 32 0, false⟩ : Merkle) = m0
  have hp : Pend m0 m0 0 [] := by
    subst hm0; exact ⟨rfl, rfl, rfl, rfl, rfl, rfl, rfl, by simp, rfl, by simp, rfl⟩
  have hoff : m0.offset = tOff := by subst hm0; rfl
  have hsal : m0.salt = salt := by subst hm0; rfl
  have hlo : m0.levelOff = ls.sum :: merkleOffsetsGo ls ls.sum := by subst hm0; rfl
  have hll : m0.levelLen = l0 :: ls := by subst hm0; rfl
  have hlo0 : m0.levelOff.getD 0 0 = ls.sum := by rw [hlo]; rfl
  have hdl : (fileRead P dOff n).length = n := by rw [fileRead_length]; omega
  have hbl := blockHashes_length hH salt (fileRead P dOff n)
  rw [hdl] at hbl
  obtain ⟨chunks, c1, c2⟩ := (verifyFeed_eq H P n dOff m0).1 hd
  have hw := merkleWriteAll_absorb H (verifyIo (payloadReader P)) m0 (by subst hm0; exact hn) chunks m0 0 [] () hp
  rw [List.nil_append, c1, hlo0, hoff, hsal] at hw
  have hab := absorb_verify H hH P salt (tOff + ls.sum) (fileRead P dOff n) 0
  rw [hdl, Nat.add_zero] at hab
  rw [c2]
  simp only [HoldHashes]
  rw [prefix_read _ _ _ _ (by omega), hbl]
  by_cases hq : fileRead P (tOff + ls.sum) (32 * (n / 4096)) = blockHashes H salt (fileRead P dOff n)
  · rw [hab.1 hq] at hw
    obtain ⟨m', hp', e3⟩ := hw
    rw [e3]
    simp only
    unfold merkleFinish
    rw [hp'.fin, if_neg (by simp), hp'.ll, hp'.lo, hll, hlo, List.zip_cons_cons]
    have hup2 := levelsUp_verify H hH P m' j l0 (by omega) (by omega)
    rw [hls, hp'.off, hoff, hp'.salt, hsal] at hup2
    have hup2 := hup2 (by omega)
    constructor
    · intro h
      rw [hup2.2 (fun h' => h ⟨hq, h'⟩)]
    · intro h
      rw [hup2.1 h.2]
      simp only
      rw [merkleFeed_view (verifyIo (payloadReader P)) () P (fun _ _ => rfl), hlast, hp'.off, hoff, hp'.salt, hsal]
      have hlo2 : (ls.sum :: merkleOffsetsGo ls ls.sum).getLastD 0 = 0 := by
        have := offsets_last (l0 :: ls)
        rwa [merkleOffsets_cons] at this
      rw [hlo2, Nat.add_zero, show 32 * (4096 / 32) = 4096 from rfl, if_pos (.inr (by omega))]
      simp only [hashUpdate, List.nil_append]
      rfl
  · obtain ⟨e, e1, _, e2⟩ := hab.2 hq
    have e2 := e2 (by omega)
    subst e2
    rw [e1] at hw
    simp only at hw
    rw [hw]
    exact ⟨fun _ => rfl, fun h => absurd h.1 hq⟩

/-- More than one block, something missing. -/
theorem verify_many_absent (H : HashFn) (hH : HashLen H) (P : Bytes) (dOff n tOff : Nat) (root salt : Bytes)
    (hsalt : salt.length ≤ 32) (hs : TreeSupported n) (hn : n ≠ 4096)
    (h : ¬ (dOff + n ≤ P.length ∧ tOff + (iterLens (levelCount (n / 4096)) n).sum ≤ P.length)) :
    verifyMerkleTree H (payloadReader P) dOff n tOff root salt ≠ .ok := by
  unfold verifyMerkleTree
  rw [merkleInit_verify P n tOff salt hsalt hs]
  simp only
  have hlast := iterLens_last n hs
  obtain ⟨j, hj⟩ := levelCount_pos (n / 4096)
  rw [hj] at hlast h ⊢
  simp only [iterLens] at hlast h ⊢
  obtain ⟨hs1, hs2, hs3⟩ := hs
  have hup := merkleLevelUp_eq n
  generalize hl0 : merkleLevelUp n = l0 at *
  generalize hls : iterLens j l0 = ls at *
  rw [merkleOffsets_cons]
  rw [List.sum_cons] at h
  generalize hm0 : (⟨n, salt, l0 :: ls, ls.sum :: merkleOffsetsGo ls ls.sum, (l0 :: ls).sum, tOff, 0, 4096, ⟨hashSha256, []⟩, List.replicate 32 0, false⟩ : Merkle) = m0
  by_cases hd : dOff + n ≤ P.length
  · have hp : Pend m0 m0 0 [] := by
      subst hm0; exact ⟨rfl, rfl, rfl, rfl, rfl, rfl, rfl, by simp, rfl, by simp, rfl⟩
    have hoff : m0.offset = tOff := by subst hm0; rfl
    have hsal : m0.salt = salt := by subst hm0; rfl
    have hlo : m0.levelOff = ls.sum :: merkleOffsetsGo ls ls.sum := by subst hm0; rfl
    have hll : m0.levelLen = l0 :: ls := by subst hm0; rfl
    obtain ⟨chunks, c1, c2⟩ := (verifyFeed_eq H P n dOff m0).1 hd
    have hw := merkleWriteAll_absorb H (verifyIo (payloadReader P)) m0 (by subst hm0; exact hn) chunks m0 0 [] () hp
    rw [c2]
    cases hwa : merkleWriteAll H (verifyIo (payloadReader P)) m0 () chunks with
    | error e => exact merkleWriteAll_err H _ (fun _ _ _ _ hx => verifyWr_err P _ _ _ hx) _ _ _ _ hwa
    | ok x =>
      rw [hwa] at hw
      split at hw
      · cases hw
      · obtain ⟨m', hp', e3⟩ := hw
        cases e3
        simp only
        unfold merkleFinish
        rw [hp'.fin, if_neg (by simp), hp'.ll, hp'.lo, hll, hlo, List.zip_cons_cons]
        have hsm : ¬ tOff + ls.sum + l0 ≤ P.length := by omega
        cases j with
        | zero =>
          simp only [iterLens] at hls
          subst hls
          simp only [merkleOffsetsGo, List.zip_nil_left, merkleLevelsUp]
          rw [merkleFeed_view (verifyIo (payloadReader P)) () P (fun _ _ => rfl), hlast, hp'.off, hoff]
          simp only [List.getLastD_cons, List.getLastD_nil, List.sum_nil] at hlast hsm ⊢
          rw [if_neg (by omega)]
          exact (by decide : Err.readError ≠ Err.ok)
        | succ j =>
          have ha := levelsUp_verify_absent H hH P m' j l0 (by omega) (by omega)
          rw [hls, hp'.off, hoff] at ha
          obtain ⟨e, e1, e2⟩ := ha hsm
          rw [e2]
          exact e1
  · obtain ⟨e, e1, e2⟩ := (verifyFeed_eq H P n dOff m0).2 hs2 hd
    rw [e2]
    exact e1

/-- One block. -/
theorem verify_one (H : HashFn) (hH : HashLen H) (P : Bytes) (dOff tOff : Nat) (root salt : Bytes) (hsalt : salt.length ≤ 32) :
    (dOff + 4096 ≤ P.length → tOff + 32 ≤ P.length →
      verifyMerkleTree H (payloadReader P) dOff 4096 tOff root salt =
        if fileRead P tOff 32 ≠ H hashSha256 (salt ++ fileRead P dOff 4096) then .verifyFail
        else if H hashSha256 (salt ++ fileRead P dOff 4096) ≠ root then .badRootHash else .ok) ∧
    (¬ (dOff + 4096 ≤ P.length ∧ tOff + 32 ≤ P.length) → verifyMerkleTree H (payloadReader P) dOff 4096 tOff root salt ≠ .ok) := by
  unfold verifyMerkleTree
  rw [merkleInit_verify P 4096 tOff salt hsalt ⟨by decide, by decide, by decide⟩]
  simp only
  have hlen : iterLens (levelCount (4096 / 4096)) 4096 = [4096] := by decide
  rw [hlen, merkleOffsets_cons]
  generalize hm0 : (⟨4096, salt, [4096], ([] : List Nat).sum :: merkleOffsetsGo [] ([] : List Nat).sum, [4096].sum, tOff, 0, 4096, ⟨hashSha256, []⟩, List.replicate 32 0, false⟩ : Merkle) = m0
  have hp : Pend m0 m0 0 [] := by
    subst hm0; exact ⟨rfl, rfl, rfl, rfl, rfl, rfl, rfl, by simp, rfl, by simp, rfl⟩
  have hoff : m0.offset = tOff := by subst hm0; rfl
  have hsal : m0.salt = salt := by subst hm0; rfl
  have hlo0 : m0.levelOff.getD 0 0 = 0 := by subst hm0; rfl
  by_cases hd : dOff + 4096 ≤ P.length
  · have hdl : (fileRead P dOff 4096).length = 4096 := by rw [fileRead_length]; omega
    obtain ⟨chunks, c1, c2⟩ := (verifyFeed_eq H P 4096 dOff m0).1 hd
    have hw := merkleWriteAll_one H (verifyIo (payloadReader P)) m0 (by subst hm0; rfl) chunks m0 [] () hp (by rw [List.nil_append, c1]; exact hdl)
    rw [List.nil_append, c1, hlo0, hoff, hsal, Nat.add_zero] at hw
    have hl := hH.sha256 (salt ++ fileRead P dOff 4096)
    rw [show (verifyIo (payloadReader P)).wr () tOff (H hashSha256 (salt ++ fileRead P dOff 4096)) =
      merkleVerifyWr (payloadReader P) tOff (H hashSha256 (salt ++ fileRead P dOff 4096)) from rfl, verifyWr_32 _ _ _ hl] at hw
    rw [c2]
    by_cases hq : fileRead P tOff 32 = H hashSha256 (salt ++ fileRead P dOff 4096)
    · rw [if_pos hq] at hw
      obtain ⟨m', e1, e2, e3⟩ := hw
      rw [e3]
      simp only
      unfold merkleFinish
      rw [if_pos e1, e2]
      simp only [hq, ne_eq, not_true_eq_false, if_false, true_implies, implies_true, true_and, hd]
      intro h
      exfalso
      have := congrArg List.length hq
      rw [fileRead_length, hl] at this
      omega
    · rw [if_neg hq] at hw
      by_cases hP : tOff + 32 ≤ P.length
      · rw [if_pos hP] at hw
        simp only at hw
        rw [hw]
        exact ⟨fun _ _ => by rw [if_pos hq], fun h => absurd ⟨hd, hP⟩ h⟩
      · rw [if_neg hP] at hw
        simp only at hw
        rw [hw]
        exact ⟨fun _ h => absurd h hP, fun _ => (by decide : Err.readError ≠ Err.ok)⟩
  · obtain ⟨e, e1, e2⟩ := (verifyFeed_eq H P 4096 dOff m0).2 (by omega) hd
    rw [e2]
    exact ⟨fun h => absurd h hd, fun _ => e1⟩

end Bpak
