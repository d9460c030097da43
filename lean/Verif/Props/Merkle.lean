import Verif.Proof.MerkleBind
/-! Properties of hash trees (C27, C28, C29, C30). -/
namespace Bpak

/-! ### C27 -/

/-- C27: for every input length, the size reported: an error unless the input is a positive number of
whole blocks (at most 128^4), else the sum of the block-padded levels (`treeSize`). -/
theorem C27_size_exact (n : Nat) : merkleComputeSize n =
    if n % 4096 ≠ 0 then .error .badAlignment
    else if n = 0 ∨ n / 4096 > 128^4 then .error .noSpaceLeft
    else .ok (treeSize (n / 4096)) := merkleComputeSize_eq n

/-- C27: for every supported length and every store, a tree is laid out (at the start of a build) in exactly
the computed size: the levels are whole blocks, lie next to each other without gap or overlap (each ends
where the one below begins, the lowest at the end of the tree, the top at its start), and each is large
enough for the hashes of the one below; the top is one block. -/
theorem C27_init_layout {σ : Type} (io : MIo σ) (s : σ) (n off : Nat) (salt : Bytes) (hsalt : salt.length ≤ 32) (hs : TreeSupported n) :
    ∃ m : Merkle, merkleInit io s n salt off false = .ok (m, s) ∧ merkleComputeSize n = .ok m.treeLen ∧
      m.levelOff.length = m.levelLen.length ∧
      (∀ i, i < m.levelLen.length → m.levelOff.getD i 0 + m.levelLen.getD i 0 = (if i = 0 then m.treeLen else m.levelOff.getD (i-1) 0)) ∧
      m.levelOff.getD (m.levelLen.length - 1) 0 = 0 ∧
      (∀ i, i < m.levelLen.length → m.levelLen.getD i 0 % 4096 = 0 ∧
        32 * ((if i = 0 then n else m.levelLen.getD (i-1) 0) / 4096) ≤ m.levelLen.getD i 0) ∧
      m.levelLen.getD (m.levelLen.length - 1) 0 = 4096 := by
  have hsum := iterLens_sum n hs
  have hlast := iterLens_last n hs
  obtain ⟨h1, h2, h3⟩ := hs
  refine ⟨⟨n, salt, iterLens (levelCount (n / 4096)) n, merkleOffsetsGo (iterLens (levelCount (n / 4096)) n) (iterLens (levelCount (n / 4096)) n).sum,
        (iterLens (levelCount (n / 4096)) n).sum, off, 0, 4096, ⟨hashSha256, []⟩, List.replicate 32 0, false⟩, ?_, ?_, ?_⟩
  · unfold merkleInit
    rw [if_neg (by omega), if_neg (by omega), merkleLevelsGo_eq _ h1, if_neg (by omega)]
    rfl
  · rw [merkleComputeSize_eq, if_neg (by omega), if_neg (by omega), hsum]
  · clear hsum
    have e1 := merkleLevelUp_eq n
    have e2 := merkleLevelUp_eq (merkleLevelUp n)
    have e3 := merkleLevelUp_eq (merkleLevelUp (merkleLevelUp n))
    revert hlast
    unfold levelCount
    split
    · simp only [iterLens, merkleOffsets_cons, List.getLastD_cons, List.getLastD_nil]
      intro hlast
      refine ⟨rfl, ?_, rfl, ?_, hlast⟩
      · intro i hi
        match i, hi with
        | 0, _ => simp
      · intro i hi
        match i, hi with
        | 0, _ => simp; omega
    · split
      · simp only [iterLens, merkleOffsets_cons, List.getLastD_cons, List.getLastD_nil]
        intro hlast
        refine ⟨rfl, ?_, rfl, ?_, hlast⟩
        · intro i hi
          match i, hi with
          | 0, _ => simp; omega
          | 1, _ => simp
        · intro i hi
          match i, hi with
          | 0, _ => simp; omega
          | 1, _ => simp; omega
      · simp only [iterLens, merkleOffsets_cons, List.getLastD_cons, List.getLastD_nil]
        intro hlast
        refine ⟨rfl, ?_, rfl, ?_, hlast⟩
        · intro i hi
          match i, hi with
          | 0, _ => simp; omega
          | 1, _ => simp; omega
          | 2, _ => simp
        · intro i hi
          match i, hi with
          | 0, _ => simp; omega
          | 1, _ => simp; omega
          | 2, _ => simp; omega

/-- C27, the disagreement: the size of a tree over 128^3 + 1 blocks is computed without complaint, but the
tree cannot be built. -/
theorem C27_agreement_is_false : ∃ n sz : Nat, merkleComputeSize n = .ok sz ∧
    ∀ (f salt : Bytes) (off : Nat) (z : Bool), salt.length ≤ 32 → merkleInit fileIo f n salt off z = .error .noSpaceLeft := by
  refine ⟨4096 * (128^3 + 1), treeSize (128^3 + 1), ?_, ?_⟩
  · rw [merkleComputeSize_eq, if_neg (by omega), if_neg (by omega), Nat.mul_div_cancel_left _ (by omega)]
  · intro f salt off z hs
    unfold merkleInit
    rw [if_neg (by omega), if_neg (by omega), merkleLevelsGo_eq _ (by omega), if_pos (by omega)]

/-- C27, what holds of the agreement: up to 128^3 blocks (8 GiB) a size is computed exactly when a tree can
be laid out. Missing: the lengths above, where it is false. -/
theorem C27_agreement_partial {σ : Type} (io : MIo σ) (s : σ) (n off : Nat) (salt : Bytes) (hsalt : salt.length ≤ 32) (hn : n ≤ 4096 * 128^3) :
    (∃ sz, merkleComputeSize n = .ok sz) ↔ ∃ x, merkleInit io s n salt off false = .ok x := by
  rw [merkleComputeSize_eq]
  unfold merkleInit
  by_cases h1 : n % 4096 = 0
  · rw [if_neg (not_not_intro h1), if_neg (not_not_intro h1), if_neg (by omega : ¬ salt.length > 32), merkleLevelsGo_eq _ h1]
    by_cases h2 : n = 0
    · rw [if_pos (.inl h2), if_pos (.inl h2)]
      exact ⟨fun ⟨_, h⟩ => (by cases h), fun ⟨_, h⟩ => (by cases h)⟩
    · rw [if_neg (by omega : ¬ (n = 0 ∨ n / 4096 > 128^4)), if_neg (by omega : ¬ (n = 0 ∨ n / 4096 > 128^3))]
      exact ⟨fun _ => ⟨_, rfl⟩, fun _ => ⟨_, rfl⟩⟩
  · rw [if_pos h1, if_pos h1]
    exact ⟨fun ⟨_, h⟩ => (by cases h), fun ⟨_, h⟩ => (by cases h)⟩

example : TreeSupported (4096 * 129) ∧ merkleComputeSize (4096 * 129) = .ok (4096 * 3) := by
  refine ⟨⟨by decide, by decide, by decide⟩, ?_⟩
  rw [C27_size_exact, if_neg (by decide), if_neg (by decide)]; rfl
example : TreeSupported (4096 * 20000) ∧ treeSize 20000 = 4096 * (157 + 2 + 1) := ⟨⟨by decide, by decide, by decide⟩, by decide⟩

/-! ### C28 -/

/-- C28: for every data, target file, offset, salt, declared length equal to the data's and any two ways of
cutting the data into calls (empty pieces included), the outcome is the same: root and file, or error. -/
theorem C28_chunking_irrelevant (H : HashFn) (hH : HashLen H) (f salt : Bytes) (off : Nat) (xs ys : List Bytes) (h : xs.flatten = ys.flatten) :
    merkleBuild H f off salt xs.flatten.length xs = merkleBuild H f off salt ys.flatten.length ys := by
  by_cases hs : salt.length ≤ 32
  · by_cases ht : TreeSupported xs.flatten.length
    · rw [merkleBuild_spec H hH f off salt xs.flatten xs rfl hs ht, merkleBuild_spec H hH f off salt ys.flatten ys rfl hs (h ▸ ht), h]
    · unfold merkleBuild merkleInit
      rw [← h]
      by_cases h1 : xs.flatten.length % 4096 = 0
      · have : xs.flatten.length = 0 ∨ xs.flatten.length / 4096 > 128^3 := by
          unfold TreeSupported at ht; omega
        rw [if_neg (by omega), if_neg (by omega), merkleLevelsGo_eq _ h1, if_pos this]
      · rw [if_pos h1]
  · unfold merkleBuild merkleInit
    rw [← h]
    by_cases h1 : xs.flatten.length % 4096 = 0
    · rw [if_neg (by omega), if_pos (by omega)]
    · rw [if_pos h1]

/-- C28, for arbitrary callbacks (which may fail) and any declared length other than one block: any two ways
of cutting the same data, of whatever total length, have the same effect on the store and the same root. -/
theorem C28_any_callbacks {σ : Type} (H : HashFn) (io : MIo σ) (s : σ) (n off : Nat) (hn : n ≠ 4096) (salt : Bytes) (z : Bool) (m : Merkle) (s1 : σ)
    (hi : merkleInit io s n salt off z = .ok (m, s1)) (xs ys : List Bytes) (h : xs.flatten = ys.flatten) :
    (merkleWriteAll H io m s1 xs).bind (fun r => merkleFinish H io r.1 r.2) =
    (merkleWriteAll H io m s1 ys).bind (fun r => merkleFinish H io r.1 r.2) := by
  have hm : Pend m m 0 [] ∧ m.inputLen = n := by
    unfold merkleInit at hi
    split at hi
    · cases hi
    split at hi
    · cases hi
    split at hi
    · cases hi
    simp only at hi
    split at hi
    · split at hi
      · cases hi
      · cases hi; exact ⟨⟨rfl, rfl, rfl, rfl, rfl, rfl, rfl, by simp, rfl, by simp, rfl⟩, rfl⟩
    · cases hi; exact ⟨⟨rfl, rfl, rfl, rfl, rfl, rfl, rfl, by simp, rfl, by simp, rfl⟩, rfl⟩
  have hx := merkleWriteAll_absorb H io m (by rw [hm.2]; exact hn) xs m 0 [] s1 hm.1
  have hy := merkleWriteAll_absorb H io m (by rw [hm.2]; exact hn) ys m 0 [] s1 hm.1
  rw [List.nil_append] at hx hy
  rw [← h] at hy
  cases ha : absorb H io m.salt (m.offset + m.levelOff.getD 0 0) 0 s1 xs.flatten with
  | error e =>
    rw [ha] at hx hy
    rw [hx, hy]
  | ok r =>
    rw [ha] at hx hy
    obtain ⟨s', c', w'⟩ := r
    obtain ⟨m1, p1, e1⟩ := hx
    obtain ⟨m2, p2, e2⟩ := hy
    rw [e1, e2]
    simp only [Except.bind]
    have hl : ∀ (ps : List (Nat × Nat)) (s : σ), merkleLevelsUp H io m1 ps s = merkleLevelsUp H io m2 ps s := by
      have hg : ∀ k s i o, merkleLevelGo H io m1 k s i o = merkleLevelGo H io m2 k s i o := by
        intro k
        induction k with
        | zero => intro s i o; rfl
        | succ k ih => intro s i o; simp only [merkleLevelGo, p1.off, p2.off, p1.salt, p2.salt, ih]
      intro ps
      induction ps with
      | nil => intro s; rfl
      | cons p ps ih =>
        intro s
        cases ps with
        | nil => rfl
        | cons q ps => simp only [merkleLevelsUp, hg, ih]
    simp only [merkleFinish, p1.fin, p2.fin, p1.ll, p2.ll, p1.lo, p2.lo, p1.off, p2.off, p1.salt, p2.salt, hl, Bool.false_eq_true, if_false]

/-! ### C29 -/

/-- C29: for every hash function with digests of the right length, every data of supported length (a positive
number of 4096-byte blocks, up to 128^3), salt of at most 32 bytes, target file, offset and chunking: the
call sequence succeeds; the bytes written at the offset are the hash tree of the data (`hashTree`: top level
first; each level the salted hashes of the blocks below, zero-padded), nothing else in the file changes, and
the root is the salted hash of the top block (of the data if that is one block). -/
theorem C29_builds_the_hash_tree (H : HashFn) (hH : HashLen H) (f : Bytes) (off : Nat) (salt data : Bytes) (chunks : List Bytes)
    (hc : chunks.flatten = data) (hsalt : salt.length ≤ 32) (hs : TreeSupported data.length) :
    merkleBuild H f off salt data.length chunks = .ok (treeRoot H salt data, fileWrite f off (hashTree H salt data)) :=
  merkleBuild_spec H hH f off salt data chunks hc hsalt hs

/-- C29: the tree has exactly the computed size. -/
theorem C29_tree_size (H : HashFn) (hH : HashLen H) (salt data : Bytes) (hs : TreeSupported data.length) :
    merkleComputeSize data.length = .ok (hashTree H salt data).length := by
  have h := hs
  obtain ⟨h1, h2, h3⟩ := h
  rw [merkleComputeSize_eq, if_neg (by omega), if_neg (by omega), ← iterLens_sum _ hs]
  unfold hashTree
  rw [List.length_flatten, List.map_reverse, treeLevels_lengths hH, List.sum_reverse]

/-- A 129-block input: 129 hashes, padded to two blocks, and above them two hashes in one block. -/
example (H : HashFn) (hH : HashLen H) (salt : Bytes) (data : Bytes) (h : data.length = 4096 * 129) (hs : salt.length ≤ 32) :
    merkleBuild H [] 0 salt (4096 * 129) [data] =
      .ok (H 1 (salt ++ levelAbove H salt (levelAbove H salt data)), levelAbove H salt (levelAbove H salt data) ++ levelAbove H salt data) := by
  have := C29_builds_the_hash_tree H hH [] 0 salt data [data] (by simp) hs (by rw [h]; exact ⟨by decide, by decide, by decide⟩)
  rw [h] at this
  rw [this]
  unfold treeRoot hashTree
  rw [h, show levelCount (4096 * 129 / 4096) = 2 from rfl]
  simp only [treeLevels, List.reverse_cons, List.reverse_nil, List.nil_append, List.cons_append, List.flatten_cons, List.flatten_nil, List.append_nil,
    List.getLastD_cons, List.getLastD_nil]
  rw [if_neg (by decide)]
  congr 2
  unfold fileWrite
  split
  · rename_i e; rw [e]
  · simp

/-! ### C30 -/

/-- C30, two or more blocks: the check accepts exactly when data and tree can be read, each stored level
begins with the salted hashes of the stored blocks below it, and the expected root is the salted hash of the
stored top block. -/
theorem C30_accepts_iff (H : HashFn) (hH : HashLen H) (P : Bytes) (dOff n tOff : Nat) (root salt : Bytes)
    (hsalt : salt.length ≤ 32) (hs : TreeSupported n) (hn : n ≠ 4096) :
    verifyMerkleTree H (payloadReader P) dOff n tOff root salt = .ok ↔
      dOff + n ≤ P.length ∧ tOff + treeSize (n / 4096) ≤ P.length ∧
      HoldHashes H salt (fileRead P dOff n) (storedLevels P tOff (levelCount (n / 4096)) n) ∧
      H hashSha256 (salt ++ fileRead P tOff 4096) = root := by
  rw [← iterLens_sum n hs]
  by_cases hp : dOff + n ≤ P.length ∧ tOff + (iterLens (levelCount (n / 4096)) n).sum ≤ P.length
  · have hv := verify_many H hH P dOff n tOff root salt hsalt hs hn hp.1 hp.2
    by_cases hh : HoldHashes H salt (fileRead P dOff n) (storedLevels P tOff (levelCount (n / 4096)) n)
    · rw [hv.2 hh]
      by_cases hr : H hashSha256 (salt ++ fileRead P tOff 4096) = root
      · rw [if_neg (fun h => h hr)]; exact ⟨fun _ => ⟨hp.1, hp.2, hh, hr⟩, fun _ => rfl⟩
      · rw [if_pos hr]; exact ⟨fun h => (by cases h), fun h => absurd h.2.2.2 hr⟩
    · rw [hv.1 hh]; exact ⟨fun h => (by cases h), fun h => absurd h.2.2.1 hh⟩
  · exact ⟨fun h => absurd h (verify_many_absent H hH P dOff n tOff root salt hsalt hs hn hp), fun h => absurd ⟨h.1, h.2.1⟩ hp⟩

/-- C30: which error: with everything readable, `-BPAK_VERIFY_FAIL` means a stored hash differs and
`-BPAK_BAD_ROOT_HASH` that only the root does; there is no third outcome. -/
theorem C30_error_names_difference (H : HashFn) (hH : HashLen H) (P : Bytes) (dOff n tOff : Nat) (root salt : Bytes)
    (hsalt : salt.length ≤ 32) (hs : TreeSupported n) (hn : n ≠ 4096) (hd : dOff + n ≤ P.length) (ht : tOff + treeSize (n / 4096) ≤ P.length) :
    (¬ HoldHashes H salt (fileRead P dOff n) (storedLevels P tOff (levelCount (n / 4096)) n) ∧
      verifyMerkleTree H (payloadReader P) dOff n tOff root salt = .verifyFail) ∨
    (HoldHashes H salt (fileRead P dOff n) (storedLevels P tOff (levelCount (n / 4096)) n) ∧ H hashSha256 (salt ++ fileRead P tOff 4096) ≠ root ∧
      verifyMerkleTree H (payloadReader P) dOff n tOff root salt = .badRootHash) ∨
    (HoldHashes H salt (fileRead P dOff n) (storedLevels P tOff (levelCount (n / 4096)) n) ∧ H hashSha256 (salt ++ fileRead P tOff 4096) = root ∧
      verifyMerkleTree H (payloadReader P) dOff n tOff root salt = .ok) := by
  rw [← iterLens_sum n hs] at ht
  have hv := verify_many H hH P dOff n tOff root salt hsalt hs hn hd ht
  by_cases hh : HoldHashes H salt (fileRead P dOff n) (storedLevels P tOff (levelCount (n / 4096)) n)
  · by_cases hr : H hashSha256 (salt ++ fileRead P tOff 4096) = root
    · exact .inr (.inr ⟨hh, hr, by rw [hv.2 hh, if_neg (fun h => h hr)]⟩)
    · exact .inr (.inl ⟨hh, hr, by rw [hv.2 hh, if_pos hr]⟩)
  · exact .inl ⟨hh, hv.1 hh⟩

/-- C30, one block: only the first 32 bytes of the stored tree are looked at. -/
theorem C30_one_block_accepts_iff (H : HashFn) (hH : HashLen H) (P : Bytes) (dOff tOff : Nat) (root salt : Bytes) (hsalt : salt.length ≤ 32) :
    verifyMerkleTree H (payloadReader P) dOff 4096 tOff root salt = .ok ↔
      dOff + 4096 ≤ P.length ∧ tOff + 32 ≤ P.length ∧
      fileRead P tOff 32 = H hashSha256 (salt ++ fileRead P dOff 4096) ∧ H hashSha256 (salt ++ fileRead P dOff 4096) = root := by
  have hv := verify_one H hH P dOff tOff root salt hsalt
  by_cases hp : dOff + 4096 ≤ P.length ∧ tOff + 32 ≤ P.length
  · rw [hv.1 hp.1 hp.2]
    by_cases h1 : fileRead P tOff 32 = H hashSha256 (salt ++ fileRead P dOff 4096)
    · rw [if_neg (fun h => h h1)]
      by_cases hr : H hashSha256 (salt ++ fileRead P dOff 4096) = root
      · rw [if_neg (fun h => h hr)]; exact ⟨fun _ => ⟨hp.1, hp.2, h1, hr⟩, fun _ => rfl⟩
      · rw [if_pos hr]; exact ⟨fun h => (by cases h), fun h => absurd h.2.2.2 hr⟩
    · rw [if_pos h1]; exact ⟨fun h => (by cases h), fun h => absurd h.2.2.1 h1⟩
  · exact ⟨fun h => absurd h (hv.2 hp), fun h => absurd ⟨h.1, h.2.1⟩ hp⟩

/-- C30: the tree and root `bpak_merkle_*` builds are accepted: wherever a payload holds the data and its
hash tree. -/
theorem C30_built_tree_verifies (H : HashFn) (hH : HashLen H) (P : Bytes) (dOff tOff : Nat) (salt data : Bytes) (hsalt : salt.length ≤ 32)
    (hs : TreeSupported data.length) (hd : fileRead P dOff data.length = data)
    (ht : fileRead P tOff (hashTree H salt data).length = hashTree H salt data) :
    verifyMerkleTree H (payloadReader P) dOff data.length tOff (treeRoot H salt data) salt = .ok := by
  have hsz : (hashTree H salt data).length = treeSize (data.length / 4096) := by
    have := C29_tree_size H hH salt data hs
    have h := hs
    obtain ⟨h1, h2, h3⟩ := h
    rw [merkleComputeSize_eq, if_neg (by omega), if_neg (by omega)] at this
    exact (Except.ok.inj this).symm
  have htop := hashTree_top H hH salt data hs
  have pd : dOff + data.length ≤ P.length := by
    have := congrArg List.length hd; rw [fileRead_length] at this; have := hs.2.1; omega
  have pt : tOff + (hashTree H salt data).length ≤ P.length := by
    have := congrArg List.length ht; rw [fileRead_length] at this; omega
  by_cases h1 : data.length = 4096
  · have h32 : (hashTree H salt data).take 32 = H hashSha256 (salt ++ data) := by
      unfold hashTree
      rw [h1, show levelCount (4096 / 4096) = 1 from rfl]
      simp only [treeLevels, List.reverse_cons, List.reverse_nil, List.nil_append, List.flatten_cons, List.flatten_nil, List.append_nil]
      unfold levelAbove padBlock
      rw [blockHashes_cons _ _ _ (by omega), blockHashes_short _ _ _ (by rw [List.length_drop]; omega), List.append_nil,
        List.take_of_length_le (by omega : data.length ≤ 4096), List.take_left' (hH.sha256 _)]
    unfold treeRoot
    rw [if_pos h1]
    rw [h1] at hd pd ⊢
    rw [C30_one_block_accepts_iff H hH P dOff tOff _ salt hsalt, hd]
    refine ⟨pd, by omega, ?_, rfl⟩
    rw [← h32, ← ht]
    unfold fileRead
    rw [List.take_take, Nat.min_eq_left (by omega)]
  · rw [C30_accepts_iff H hH P dOff data.length tOff _ salt hsalt hs h1, hd]
    have hst : storedLevels P tOff (levelCount (data.length / 4096)) data.length = treeLevels H salt (levelCount (data.length / 4096)) data := by
      apply levels_ext
      · rw [treeLevels_lengths hH, storedLevels_lengths]
        rw [iterLens_sum _ hs]; omega
      · rw [storedLevels_flatten, iterLens_sum _ hs, ← hsz, ht]; rfl
    refine ⟨pd, by omega, ?_, ?_⟩
    · rw [hst]; exact holdHashes_tree H salt _ _
    · unfold treeRoot
      rw [if_neg h1, ← htop.1, ← ht]
      unfold fileRead
      rw [List.take_take, Nat.min_eq_left (by omega)]

/-- C30, what the check is for: if it accepts against the root of some data of the same length, then the
payload holds exactly that data (and, for two or more blocks, exactly its tree, padding included) - or two
different blocks have the same salted hash. -/
theorem C30_root_binds_data (H : HashFn) (hH : HashLen H) (P : Bytes) (dOff tOff : Nat) (salt data : Bytes) (hsalt : salt.length ≤ 32)
    (hs : TreeSupported data.length)
    (hv : verifyMerkleTree H (payloadReader P) dOff data.length tOff (treeRoot H salt data) salt = .ok) :
    (fileRead P dOff data.length = data ∧ (data.length ≠ 4096 → fileRead P tOff (treeSize (data.length / 4096)) = hashTree H salt data)) ∨
    ∃ x y : Bytes, x.length = 4096 ∧ y.length = 4096 ∧ x ≠ y ∧ H hashSha256 (salt ++ x) = H hashSha256 (salt ++ y) := by
  by_cases h1 : data.length = 4096
  · unfold treeRoot at hv
    rw [if_pos h1] at hv
    rw [h1] at hv ⊢
    rw [C30_one_block_accepts_iff H hH P dOff tOff _ salt hsalt] at hv
    obtain ⟨p1, p2, p3, p4⟩ := hv
    rcases block_bind H salt _ _ (by rw [fileRead_length]; omega) h1 p4 with e | e
    · exact .inl ⟨e, fun h => absurd rfl h⟩
    · exact .inr e
  · rw [C30_accepts_iff H hH P dOff data.length tOff _ salt hsalt hs h1] at hv
    obtain ⟨p1, p2, p3, p4⟩ := hv
    have hlast := iterLens_last _ hs
    have hsum := iterLens_sum _ hs
    have hsup := hs
    obtain ⟨s1, s2, s3⟩ := hsup
    have hge : 4096 ≤ treeSize (data.length / 4096) := by unfold treeSize; omega
    have htl : ((treeLevels H salt (levelCount (data.length / 4096)) data).getLastD []).length = 4096 := by
      have := getLastD_map List.length (treeLevels H salt (levelCount (data.length / 4096)) data) []
      rw [treeLevels_lengths hH] at this
      rw [← this]; exact hlast
    unfold treeRoot at p4
    rw [if_neg h1] at p4
    rcases block_bind H salt _ _ (by rw [fileRead_length]; omega) htl p4 with e | e
    · have hdl : (fileRead P dOff data.length).length = data.length := by rw [fileRead_length]; omega
      obtain ⟨j, hj⟩ := levelCount_pos (data.length / 4096)
      have hb := levels_bind H hH salt (levelCount (data.length / 4096)) (fileRead P dOff data.length) data
        (storedLevels P tOff (levelCount (data.length / 4096)) data.length) (by rw [hdl]; omega) hdl
        (by rw [hdl]; exact storedLevels_lengths P tOff _ _ (by rw [hsum]; exact p2)) p3
        (by
          rw [hj] at e hlast ⊢
          rw [storedLevels_last, hlast, e]
          simp only [treeLevels, List.getLastD_cons])
      rcases hb with ⟨b1, b2⟩ | b
      · left
        refine ⟨b1, fun _ => ?_⟩
        rw [← hsum, ← storedLevels_flatten, b2]; rfl
      · exact .inr b
    · exact .inr e

/-- C30, where "accepts only the identical tree" is false: for one block of data the rest of the stored tree
block is free. -/
theorem C30_one_block_padding_unchecked (H : HashFn) (hH : HashLen H) (salt block junk : Bytes) (hsalt : salt.length ≤ 32) (hb : block.length = 4096) :
    verifyMerkleTree H (payloadReader (block ++ H hashSha256 (salt ++ block) ++ junk)) 0 4096 4096 (treeRoot H salt block) salt = .ok := by
  rw [C30_one_block_accepts_iff H hH _ 0 4096 _ salt hsalt]
  have hl := hH.sha256 (salt ++ block)
  have e1 : fileRead (block ++ H hashSha256 (salt ++ block) ++ junk) 0 4096 = block := by
    unfold fileRead; rw [List.drop_zero, List.append_assoc, List.take_left' hb]
  rw [e1]
  unfold treeRoot
  rw [if_pos hb]
  refine ⟨by simp only [List.length_append]; omega, by simp only [List.length_append]; omega, ?_, rfl⟩
  unfold fileRead
  rw [List.append_assoc, List.drop_left' hb, List.take_left' hl]

/-- a hash function of the right lengths, for which both hypotheses hold -/
example : HashLen (fun k b => List.replicate (if k = 1 then 32 else if k = 2 then 48 else 64) (b.headD 0)) := by
  intro k n h b
  unfold digestLen at h
  simp only [hashSha256, hashSha384, hashSha512] at h
  rw [List.length_replicate]
  split at h
  · cases h; simp [*]
  · split at h
    · cases h; simp [*]
    · split at h
      · cases h; simp [*]
      · cases h

end Bpak
