import Verif.Proof.DiskMore
/-! Files with a hash tree on a disk that can be full; and every call on a disk with room. -/
namespace Bpak

/-- The steps of `bpak_pkg_add_file_with_merkle_tree` after the file was added, up to the tree's data: a result, or the header and the tree. -/
def treeSteps (H : HashFn) (h : Header) (id : U32) (flags : U8) (d salt : Bytes) : Out (Except (Err × Header) (Header × Bytes)) :=
  match merkleComputeSize d.length with
  | .error e => .ret (.error (e, h))
  | .ok sz =>
    match merkleBuffer H sz salt d with
    | .ub => .ub
    | .ret (.error e) => .ret (.error (e, h))
    | .ret (.ok (root, tree)) =>
      match addHashMeta h idMerkleSalt id salt with
      | .ub => .ub
      | .ret (.ok, h1) =>
        match addHashMeta h1 idMerkleRootHash id root with
        | .ub => .ub
        | .ret (.ok, h2) =>
          match addPart h2 (partIdToHashTreeId id) with
          | (.ok, h3, i) => .ret (.ok ({ h3 with parts := h3.parts.modify i (fun q => { q with
              offset := newOffset h, flags := flags, size := BitVec.ofNat 64 sz, padBytes := 0 }) }, tree))
          | (e, h3, _) => .ret (.error (e, h3))
        | .ret (e, h2) => .ret (.error (e, h2))
      | .ret (e, h1) => .ret (.error (e, h1))

theorem merkle_steps (H : HashFn) (fuel : Nat) (p p1 : Pkg) (id : U32) (flags : U8) (d salt : Bytes) (ha : addFile H fuel p id flags d.length d = some (.ok, p1)) :
    addFileWithMerkle H fuel p id flags d salt =
      match treeSteps H p1.hdr id flags d salt with
      | .ub => some .ub
      | .ret (.error (e, h)) => some (.ret (e, { p1 with hdr := h }))
      | .ret (.ok (h, tree)) =>
        if 2^63 ≤ (newOffset p1.hdr).toNat then some (.ret (.failed, { p1 with hdr := h }))
        else some (.ret (finish H (Pkg.write { p1 with hdr := h } (newOffset p1.hdr).toNat tree))) := by
  unfold addFileWithMerkle treeSteps
  simp only [ha]
  rcases merkleComputeSize d.length with e | sz
  · rfl
  simp only
  rcases merkleBuffer H sz salt d with ⟨e | ⟨root, tree⟩⟩ | _
  · rfl
  · simp only
    rcases addHashMeta p1.hdr idMerkleSalt id salt with ⟨e, h1⟩ | _
    · by_cases he : e = .ok
      · subst he
        simp only
        rcases addHashMeta h1 idMerkleRootHash id root with ⟨e, h2⟩ | _
        · by_cases he : e = .ok
          · subst he
            simp only
            rcases addPart h2 (partIdToHashTreeId id) with ⟨e, h3, i⟩
            by_cases he : e = .ok
            · subst he
              simp only
              split
              · rfl
              · exact finish_match H _ (fun x => some (Out.ret x))
            · cases e <;> first | exact absurd rfl he | rfl
          · cases e <;> first | exact absurd rfl he | rfl
        · rfl
      · cases e <;> first | exact absurd rfl he | rfl
    · rfl
  · rfl

theorem merkleD_steps (H : HashFn) (fuel : Nat) (w w1 : Disk) (id : U32) (flags : U8) (d salt : Bytes) (ha : addFileD H fuel w id flags d.length d = some (.ok, w1)) :
    addFileWithMerkleD H fuel w id flags d salt =
      match treeSteps H w1.pkg.hdr id flags d salt with
      | .ub => some .ub
      | .ret (.error (e, h)) => some (.ret (e, { w1 with pkg := { w1.pkg with hdr := h } }))
      | .ret (.ok (h, tree)) =>
        match Disk.fseek { w1 with pkg := { w1.pkg with hdr := h } } (newOffset w1.pkg.hdr).toNat with
        | (false, w) => some (.ret (.failed, w))
        | (true, w) =>
          match w.fwrite (newOffset w1.pkg.hdr).toNat tree with
          | (false, w) => some (.ret (.writeError, w))
          | (true, w) => some (.ret (finishD H w)) := by
  unfold addFileWithMerkleD treeSteps
  simp only [ha]
  rcases merkleComputeSize d.length with e | sz
  · rfl
  simp only
  rcases merkleBuffer H sz salt d with ⟨e | ⟨root, tree⟩⟩ | _
  · rfl
  · simp only
    rcases addHashMeta w1.pkg.hdr idMerkleSalt id salt with ⟨e, h1⟩ | _
    · by_cases he : e = .ok
      · subst he
        simp only
        rcases addHashMeta h1 idMerkleRootHash id root with ⟨e, h2⟩ | _
        · by_cases he : e = .ok
          · subst he
            simp only
            rcases addPart h2 (partIdToHashTreeId id) with ⟨e, h3, i⟩
            by_cases he : e = .ok
            · subst he; rfl
            · cases e <;> first | exact absurd rfl he | rfl
          · cases e <;> first | exact absurd rfl he | rfl
        · rfl
      · cases e <;> first | exact absurd rfl he | rfl
    · rfl
  · rfl

/-! ### errors of the tree are errors -/

theorem merkleSizeGo_error : ∀ (k level len acc : Nat), merkleSizeGo k level len acc ≠ .error .ok := by
  intro k
  induction k with
  | zero => intro level len acc h; unfold merkleSizeGo at h; cases h
  | succ k ih =>
    intro level len acc h
    unfold merkleSizeGo at h
    simp only at h
    split at h
    · cases h
    · split at h
      · exact ih _ _ _ h
      · cases h

theorem merkleWriteGo_error (H : HashFn) : ∀ (k : Nat) (m : Merkle) (s d : Bytes), merkleWriteGo H fileIo k m s d ≠ .error .ok := by
  intro k
  induction k with
  | zero => intro m s d h; unfold merkleWriteGo at h; split at h <;> cases h
  | succ k ih =>
    intro m s d h
    unfold merkleWriteGo at h
    split at h
    · cases h
    · generalize (if m.blockCounter = 4096 then { m with running := hashUpdate ⟨hashSha256, []⟩ m.salt } else m) = m1 at h
      simp only at h
      split at h
      · split at h
        · rename_i he
          cases h
          simp only [fileIo] at he
          cases he
        · split at h
          · cases h
          · exact ih _ _ _ h
      · exact ih _ _ _ h

theorem merkleWriteAll_error (H : HashFn) : ∀ (ds : List Bytes) (m : Merkle) (s : Bytes), merkleWriteAll H fileIo m s ds ≠ .error .ok := by
  intro ds
  induction ds with
  | nil => intro m s h; cases h
  | cons d ds ih =>
    intro m s h
    unfold merkleWriteAll at h
    split at h
    · rename_i e he; cases h; exact merkleWriteGo_error H _ _ _ _ he
    · exact ih _ _ h

theorem merkleFeed_error (s : Bytes) : ∀ (k off : Nat) (c : HashCtx), merkleFeed fileIo s k off c ≠ .error .ok := by
  intro k
  induction k with
  | zero => intro off c h; cases h
  | succ k ih =>
    intro off c h
    unfold merkleFeed at h
    simp only [fileIo] at h
    split at h
    · cases h
    · exact ih _ _ h

theorem merkleLevelGo_error (H : HashFn) (m : Merkle) : ∀ (k : Nat) (s : Bytes) (a b : Nat), merkleLevelGo H fileIo m k s a b ≠ .error .ok := by
  intro k
  induction k with
  | zero => intro s a b h; cases h
  | succ k ih =>
    intro s a b h
    unfold merkleLevelGo at h
    split at h
    · rename_i he; cases h; exact merkleFeed_error _ _ _ _ he
    · exact ih _ _ _ h

theorem merkleLevelsUp_error (H : HashFn) (m : Merkle) : ∀ (l : List (Nat × Nat)) (s : Bytes), merkleLevelsUp H fileIo m l s ≠ .error .ok := by
  intro l
  induction l with
  | nil => intro s h; cases h
  | cons a l ih =>
    intro s h
    cases l with
    | nil => cases h
    | cons b l =>
      unfold merkleLevelsUp at h
      split at h
      · rename_i he; cases h; exact merkleLevelGo_error _ _ _ _ _ _ he
      · exact ih _ h

theorem merkleBuffer_error (H : HashFn) (sz : Nat) (salt d : Bytes) : merkleBuffer H sz salt d ≠ .ret (.error .ok) := by
  intro h
  unfold merkleBuffer at h
  split at h
  · cases h
  · split at h
    · rename_i he; cases h; exact merkleWriteAll_error H _ _ _ he
    · split at h
      · rename_i he
        cases h
        unfold merkleFinish at he
        split at he
        · cases he
        · split at he
          · rename_i he2; cases he; exact merkleLevelsUp_error _ _ _ _ he2
          · split at he
            · rename_i he2; cases he; exact merkleFeed_error _ _ _ _ he2
            · cases he
      · split at h <;> cases h

theorem treeSteps_error (H : HashFn) (h h' : Header) (id : U32) (flags : U8) (d salt : Bytes) : treeSteps H h id flags d salt ≠ .ret (.error (.ok, h')) := by
  intro e
  unfold treeSteps at e
  split at e
  · rename_i he
    cases e
    unfold merkleComputeSize at he
    split at he
    · cases he
    · exact merkleSizeGo_error _ _ _ _ he
  · split at e
    · cases e
    · rename_i he; cases e; exact merkleBuffer_error _ _ _ _ he
    · split at e
      · cases e
      · split at e
        · cases e
        · split at e
          · cases e
          · rename_i hne _; cases e; exact hne rfl
        · rename_i hne _; cases e; exact hne rfl
      · rename_i hne _; cases e; exact hne rfl

theorem addFileWithMerkleD_ok (H : HashFn) (fuel : Nat) (w : Disk) (hp : w.pending = false) (id : U32) (flags : U8) (d salt : Bytes) :
    (∀ b, addFileWithMerkle H fuel w.pkg id flags d salt = some (.ret b) → ∃ r, addFileWithMerkleD H fuel w id flags d salt = some (.ret r) ∧ Res (Prompt w.luck) w.pkg b r) ∧
    ((∀ b, addFileWithMerkle H fuel w.pkg id flags d salt ≠ some (.ret b)) → ∀ r, addFileWithMerkleD H fuel w id flags d salt = some (.ret r) → r.1 ≠ .ok) := by
  obtain ⟨hA, hN⟩ := addFileD_ok H fuel w hp id flags d.length d
  rcases hb : addFile H fuel w.pkg id flags d.length d with _ | ⟨e0, p1⟩
  · have e1 : addFileWithMerkle H fuel w.pkg id flags d salt = none := by unfold addFileWithMerkle; simp only [hb]
    rw [e1]
    refine ⟨fun b h => (by cases h), fun _ r hr => ?_⟩
    unfold addFileWithMerkleD at hr
    split at hr
    · cases hr
    · rename_i h2; exact absurd rfl (hN hb _ h2)
    · rename_i hne h2; cases hr; exact hne
  · obtain ⟨⟨e1, w1⟩, hd, hR⟩ := hA _ hb
    have gtail : ∀ b, addFileWithMerkle H fuel w.pkg id flags d salt = some (.ret b) → Onward p1 b.2 := by
      intro b hx
      by_cases h0 : e0 = .ok
      · subst h0
        rw [merkle_steps H fuel w.pkg p1 id flags d salt hb] at hx
        split at hx
        · cases hx
        · cases hx; exact .hdr _ _
        · split at hx
          · cases hx; exact .hdr _ _
          · cases hx; exact ((Onward.hdr _ _).trans (.write _ _ _)).trans (.finish H _)
      · have : addFileWithMerkle H fuel w.pkg id flags d salt = some (.ret (e0, p1)) := by unfold addFileWithMerkle; simp only [hb]
        rw [this] at hx; cases hx; exact .refl _
    by_cases he : e1 = .ok
    · subst he
      obtain ⟨e2, _, _⟩ := hR.ok rfl
      simp only at e2
      subst e2
      have t := hR.track rfl
      simp only at t
      rw [merkle_steps H fuel w.pkg p1 id flags d salt hb, merkleD_steps H fuel w w1 id flags d salt hd, t.hdr]
      have hne := treeSteps_error H p1.hdr
      rcases hs : treeSteps H p1.hdr id flags d salt with (⟨e, h⟩ | ⟨h, tree⟩) | _
      · refine ⟨fun b h => ?_, fun h => absurd rfl (h _)⟩
        cases h
        exact ⟨_, rfl, ((t.setHdr h).failed (fun he => hne h id flags d salt (by rw [hs, he]))).toRes⟩
      · simp only
        have t1 := t.setHdr h
        rcases hf : Disk.fseek { w1 with pkg := { w1.pkg with hdr := h } } (newOffset p1.hdr).toNat with ⟨x, w2⟩
        cases x with
        | false =>
          refine ⟨fun b hb => ?_, fun _ r hr => (by cases hr; exact fun h => (by cases h))⟩
          have hF := t1.fseek_false hf
          refine ⟨_, rfl, ?_⟩
          have gb : Onward { p1 with hdr := h } b.2 := by
            split at hb
            · cases hb; exact .refl _
            · cases hb; exact (Onward.write _ _ _).trans (.finish H _)
          exact ⟨t1.grows.trans gb, fun h => (by cases h), fun _ => hF.grows gb⟩
        | true =>
          obtain ⟨rfl, hp2, ep2, hlt⟩ := t1.fseek_true hf
          rw [if_neg (by omega)]
          refine ⟨fun b hb => ?_, fun h => absurd rfl (h _)⟩
          cases hb
          simp only
          rcases hf2 : Disk.fwrite { w1 with pkg := { w1.pkg with hdr := h } } (newOffset p1.hdr).toNat tree with ⟨x, w3⟩
          cases x with
          | false => exact ⟨_, rfl, .failed (t1.grows.trans ((Onward.write _ _ _).trans (.finish H _))) ((t1.fwrite_false hf2).grows (.finish H _)) (by intro h; cases h)⟩
          | true => exact ⟨_, rfl, ((t1.fwrite_true hf2).1.finish H).toRes⟩
      · exact ⟨fun b h => (by cases h), fun _ r h => (by cases h)⟩
    · have e2 : addFileWithMerkleD H fuel w id flags d salt = some (.ret (e1, w1)) := by
        unfold addFileWithMerkleD; simp only [hd]
      rw [e2]
      have hF := hR.bad he
      refine ⟨fun b h => ⟨_, rfl, hR.grows.trans (gtail b h), fun h => absurd h he, fun _ => hF.grows (gtail b h)⟩, fun _ r h => ?_⟩
      cases h
      exact he

end Bpak
