import Verif.Proof.MerkleRun
namespace Bpak

/-! ### Blocks -/

theorem blocksOf_short (b : Bytes) (h : b.length < 4096) : blocksOf b = [] := by
  unfold blocksOf
  rw [Nat.div_eq_of_lt h]; rfl

theorem blocksOf_cons (b : Bytes) (h : 4096 ≤ b.length) : blocksOf b = b.take 4096 :: blocksOf (b.drop 4096) := by
  unfold blocksOf
  have e : b.length / 4096 = (b.drop 4096).length / 4096 + 1 := by rw [List.length_drop]; omega
  rw [e, List.range_succ_eq_map, List.map_cons, List.map_map]
  congr 1
  apply List.map_congr_left
  intro i _
  simp only [Function.comp_apply, List.drop_drop]
  rw [show 4096 * (i + 1) = 4096 + 4096 * i by omega]

theorem blockHashes_short (H : HashFn) (salt b : Bytes) (h : b.length < 4096) : blockHashes H salt b = [] := by
  unfold blockHashes; rw [blocksOf_short b h]; rfl

theorem blockHashes_cons (H : HashFn) (salt b : Bytes) (h : 4096 ≤ b.length) :
    blockHashes H salt b = H hashSha256 (salt ++ b.take 4096) ++ blockHashes H salt (b.drop 4096) := by
  unfold blockHashes; rw [blocksOf_cons b h]; rfl

theorem blockHashes_append (H : HashFn) (salt a b : Bytes) (h : a.length = 4096) :
    blockHashes H salt (a ++ b) = H hashSha256 (salt ++ a) ++ blockHashes H salt b := by
  rw [blockHashes_cons H salt (a ++ b) (by rw [List.length_append]; omega), List.take_left' h, List.drop_left' h]

theorem HashLen.sha256 {H : HashFn} (hH : HashLen H) (b : Bytes) : (H hashSha256 b).length = 32 := hH hashSha256 32 rfl b

theorem blockHashes_length {H : HashFn} (hH : HashLen H) (salt b : Bytes) : (blockHashes H salt b).length = 32 * (b.length / 4096) := by
  induction hn : b.length using Nat.strongRecOn generalizing b with
  | ind n ih =>
    by_cases h : b.length < 4096
    · rw [blockHashes_short H salt b h, ← hn, Nat.div_eq_of_lt h]; rfl
    · rw [blockHashes_cons H salt b (by omega), List.length_append, hH.sha256, ih (b.drop 4096).length (by simp; omega) _ rfl,
        List.length_drop]
      omega

theorem padBlock_length (b : Bytes) : (padBlock b).length = b.length + (4096 - b.length % 4096) % 4096 := by
  unfold padBlock; rw [List.length_append, List.length_replicate]

theorem levelAbove_length {H : HashFn} (hH : HashLen H) (salt b : Bytes) : (levelAbove H salt b).length = merkleLevelUp b.length := by
  unfold levelAbove merkleLevelUp
  rw [padBlock_length, blockHashes_length hH, merklePad_eq]
  rw [Nat.mul_comm]

theorem treeLevels_lengths {H : HashFn} (hH : HashLen H) (salt : Bytes) (k : Nat) (b : Bytes) :
    (treeLevels H salt k b).map List.length = iterLens k b.length := by
  induction k generalizing b with
  | zero => rfl
  | succ k ih => simp only [treeLevels, iterLens, List.map_cons, ih, levelAbove_length hH]

/-! ### Files -/

theorem fileRead_length (f : Bytes) (p n : Nat) : (fileRead f p n).length = min n (f.length - p) := by
  unfold fileRead; simp

theorem fileRead_add (f : Bytes) (p a b : Nat) : fileRead f p (a + b) = fileRead f p a ++ fileRead f (p + a) b := by
  unfold fileRead; rw [List.take_add, List.drop_drop]

theorem fileRead_inner (f : Bytes) (o : Nat) (X : Bytes) (p n : Nat) (h : p + n ≤ X.length) :
    fileRead (fileWrite f o X) (o + p) n = (X.drop p).take n := by
  by_cases hX : X = []
  · subst hX
    have : n = 0 := by simp at h; omega
    subst this
    simp [fileRead]
  apply List.ext_getElem?
  intro i
  unfold fileRead
  rw [List.getElem?_take, List.getElem?_drop, List.getElem?_take, List.getElem?_drop]
  split
  · rw [fileWrite_getElem? _ _ _ hX, if_neg (by omega), if_pos (by omega)]
    congr 1; omega
  · rfl

theorem fileWrite_overlay (f : Bytes) (o : Nat) (A M B h : Bytes) (hl : h.length ≤ M.length) :
    fileWrite (fileWrite f o (A ++ M ++ B)) (o + A.length) h = fileWrite f o (A ++ (h ++ M.drop h.length) ++ B) := by
  by_cases hh : h = []
  · subst hh; simp [fileWrite_nil]
  have hp := List.length_pos_iff.2 hh
  have h1 : A ++ M ++ B ≠ [] := by
    intro e; have := congrArg List.length e; simp at this; simp [this.2.1] at hl; exact hh hl
  have h2 : A ++ (h ++ M.drop h.length) ++ B ≠ [] := by
    intro e; have := congrArg List.length e; simp at this; exact hh this.2.1
  apply List.ext_getElem?
  intro i
  rw [fileWrite_getElem? _ _ _ hh, fileWrite_getElem? _ _ _ h2, fileWrite_getElem? _ _ _ h1]
  rw [fileWrite_length _ _ _ h1]
  have hlen : (A ++ (h ++ M.drop h.length) ++ B).length = (A ++ M ++ B).length := by simp; omega
  rw [hlen]
  have hlen2 : (A ++ M ++ B).length = A.length + M.length + B.length := by simp; omega
  rw [hlen2]
  by_cases c1 : i < o
  · simp only [c1, if_true, show i < o + A.length by omega, show i < max f.length (o + (A.length + M.length + B.length)) by omega]
  · by_cases c2 : i < o + A.length
    · simp only [c1, c2, if_true, if_false, show i < max f.length (o + (A.length + M.length + B.length)) by omega,
        show i < o + (A.length + M.length + B.length) by omega]
      rw [List.append_assoc, List.getElem?_append_left (by omega), List.append_assoc, List.getElem?_append_left (by omega)]
    · rw [List.append_assoc A M B, List.append_assoc A (h ++ M.drop h.length) B, List.append_assoc h (M.drop h.length) B,
        List.getElem?_append_right (by omega : A.length ≤ i - o), List.getElem?_append_right (by omega : A.length ≤ i - o)]
      by_cases c3 : i < o + A.length + h.length
      · simp only [c1, c2, c3, if_true, if_false, show i < o + (A.length + M.length + B.length) by omega]
        rw [List.getElem?_append_left (by omega)]
        congr 1; omega
      · simp only [c1, c2, c3, if_false]
        split
        · rw [List.getElem?_append_right (by omega : h.length ≤ i - o - A.length)]
          by_cases c4 : i < o + A.length + M.length
          · rw [List.getElem?_append_left (by omega), List.getElem?_append_left (by simp; omega), List.getElem?_drop]
            congr 1; omega
          · rw [List.getElem?_append_right (by omega), List.getElem?_append_right (by simp; omega)]
            congr 1; simp; omega
        · rfl

theorem fileWrite_ge_length (f : Bytes) (p : Nat) (d : Bytes) : f.length ≤ (fileWrite f p d).length := by
  by_cases hd : d = []
  · subst hd; exact Nat.le_refl _
  · rw [fileWrite_length _ _ _ hd]; omega

/-! ### Building -/

theorem zeroFill_file (f : Bytes) (off n : Nat) (h : n % 32 = 0) :
    merkleZeroFill fileIo f off n = .ok (fileWrite f off (List.replicate n 0)) := by
  induction hn : n using Nat.strongRecOn generalizing n f off with
  | ind k ih =>
    subst hn
    unfold merkleZeroFill
    split
    · rename_i h0; subst h0; rfl
    · rename_i h0
      simp only [fileIo]
      have := ih (n - 32) (by omega) (fileWrite f off (List.replicate 32 0)) (off + 32) (n - 32) (by omega) rfl
      simp only [fileIo] at this
      rw [this]
      have e := fileWrite_append f off (List.replicate 32 (0 : U8)) (List.replicate (n - 32) 0)
      rw [List.length_replicate, List.replicate_append_replicate] at e
      rw [e, show 32 + (n - 32) = n by omega]

theorem absorb_file (H : HashFn) (hH : HashLen H) (salt : Bytes) (base : Nat) (all : Bytes) : ∀ (c : Nat) (s : Bytes),
    absorb H fileIo salt base c s all =
      .ok (fileWrite s (base + c) (blockHashes H salt all), c + 32 * (all.length / 4096), all.drop (4096 * (all.length / 4096))) := by
  induction hn : all.length using Nat.strongRecOn generalizing all with
  | ind n ih =>
    intro c s
    subst hn
    by_cases h : all.length < 4096
    · rw [absorb_lt _ _ _ _ _ _ _ h, blockHashes_short H salt all h, Nat.div_eq_of_lt h]; rfl
    · rw [absorb_ge _ _ _ _ _ _ _ h]
      have := ih (all.drop 4096).length (by simp; omega) _ rfl (c + 32) (fileWrite s (base + c) (H hashSha256 (salt ++ all.take 4096)))
      simp only [fileIo] at this ⊢
      rw [this, blockHashes_cons H salt all (by omega), ← fileWrite_append, hH.sha256, List.length_drop, List.drop_drop]
      rw [show (all.length - 4096) / 4096 = all.length / 4096 - 1 by omega]
      rw [show base + c + 32 = base + (c + 32) by omega, show c + 32 + 32 * (all.length / 4096 - 1) = c + 32 * (all.length / 4096) by omega,
        show 4096 + 4096 * (all.length / 4096 - 1) = 4096 * (all.length / 4096) by omega]

/-- Feeding `k` pieces read from the bytes `P`. -/
theorem merkleFeed_view {σ : Type} (io : MIo σ) (s : σ) (P : Bytes) (hv : ∀ off n, io.rd s off n = .ok (fileRead P off n)) :
    ∀ (k off : Nat) (c : HashCtx), merkleFeed io s k off c =
      if k = 0 ∨ off + 32 * k ≤ P.length then .ok ⟨c.kind, c.fed ++ fileRead P off (32 * k)⟩ else .error .readError := by
  intro k
  induction k with
  | zero => intro off c; simp [merkleFeed, fileRead]
  | succ k ih =>
    intro off c
    unfold merkleFeed
    rw [hv]
    simp only
    rw [fileRead_length]
    by_cases h : off + 32 * (k+1) ≤ P.length
    · rw [if_neg (by omega), ih, if_pos (by omega), if_pos (.inr h)]
      simp only [hashUpdate]
      rw [show 32 * (k+1) = 32 + 32 * k by omega, fileRead_add, List.append_assoc]
    · rw [if_neg (by omega : ¬ (k + 1 = 0 ∨ off + 32 * (k+1) ≤ P.length))]
      split
      · rfl
      · rw [ih, if_neg (by omega)]

theorem levelGo_file (H : HashFn) (hH : HashLen H) (m : Merkle) : ∀ (k : Nat) (s : Bytes) (inOff outOff : Nat),
    m.offset + inOff + 4096 * k ≤ s.length → outOff + 32 * k ≤ inOff →
    merkleLevelGo H fileIo m k s inOff outOff =
      .ok (fileWrite s (m.offset + outOff) (blockHashes H m.salt (fileRead s (m.offset + inOff) (4096 * k)))) := by
  intro k
  induction k with
  | zero =>
    intro s i o h1 h2
    rw [Nat.mul_zero, blockHashes_short _ _ _ (by rw [fileRead_length]; omega)]
    rfl
  | succ k ih =>
    intro s i o h1 h2
    unfold merkleLevelGo
    rw [merkleFeed_view fileIo s s (fun _ _ => rfl), if_pos (by omega)]
    simp only [fileIo, hashUpdate, List.nil_append]
    have hl := hH.sha256 (m.salt ++ fileRead s (m.offset + i) (32 * 128))
    have := ih (fileWrite s (m.offset + o) (H hashSha256 (m.salt ++ fileRead s (m.offset + i) (32 * 128)))) (i + 4096) (o + 32)
      (by have := fileWrite_ge_length s (m.offset + o) (H hashSha256 (m.salt ++ fileRead s (m.offset + i) (32 * 128))); omega) (by omega)
    simp only [fileIo] at this
    rw [this]
    rw [show 32 * 128 = 4096 from rfl] at *
    rw [fileRead_fileWrite_disjoint _ _ _ _ _ (.inr (by omega)) (.inr (by omega))]
    rw [show 4096 * (k+1) = 4096 + 4096 * k by omega, fileRead_add]
    have hl2 : (fileRead s (m.offset + i) 4096).length = 4096 := by rw [fileRead_length]; omega
    rw [blockHashes_append H m.salt _ _ hl2, ← fileWrite_append, hl]
    simp only [Nat.add_assoc]

theorem levelsUp_file (H : HashFn) (hH : HashLen H) (m : Merkle) : ∀ (j : Nat) (f L B : Bytes), L.length % 4096 = 0 → 0 < L.length →
    merkleLevelsUp H fileIo m ((L.length, (iterLens j L.length).sum) :: (iterLens j L.length).zip (merkleOffsetsGo (iterLens j L.length) (iterLens j L.length).sum))
        (fileWrite f m.offset (List.replicate (iterLens j L.length).sum 0 ++ L ++ B)) =
      .ok (fileWrite f m.offset ((treeLevels H m.salt j L).reverse.flatten ++ L ++ B)) := by
  intro j
  induction j with
  | zero => intro f L B hL _; simp [iterLens, merkleLevelsUp, treeLevels]
  | succ j ih =>
    intro f L B hL hL0
    simp only [iterLens]
    rw [merkleOffsets_cons, List.zip_cons_cons]
    unfold merkleLevelsUp
    have hup := merkleLevelUp_eq L.length
    have hla := levelAbove_length hH m.salt L
    generalize hls : iterLens j (merkleLevelUp L.length) = ls at *
    have hlen : (List.replicate (merkleLevelUp L.length :: ls).sum (0 : U8) ++ L ++ B).length = merkleLevelUp L.length + ls.sum + L.length + B.length := by
      simp [List.length_append]; omega
    have hsum : (merkleLevelUp L.length :: ls).sum = ls.sum + merkleLevelUp L.length := by rw [List.sum_cons]; omega
    rw [levelGo_file H hH m]
    rotate_left
    · by_cases hB : List.replicate (merkleLevelUp L.length :: ls).sum (0 : U8) ++ L ++ B = []
      · rw [hB] at hlen; simp at hlen
        omega
      · rw [fileWrite_length _ _ _ hB, hlen]; omega
    · rw [hsum]; omega
    have hrd : fileRead (fileWrite f m.offset (List.replicate (merkleLevelUp L.length :: ls).sum (0 : U8) ++ L ++ B)) (m.offset + (merkleLevelUp L.length :: ls).sum) (4096 * (L.length / 4096)) = L := by
      rw [show 4096 * (L.length / 4096) = L.length by omega]
      rw [fileRead_inner _ _ _ _ _ (by rw [hlen, hsum]; omega), List.append_assoc, List.drop_left' (List.length_replicate ..), List.take_left' rfl]
    rw [hrd]
    simp only
    have hbl := blockHashes_length hH m.salt L
    have ov := fileWrite_overlay f m.offset (List.replicate ls.sum 0) (List.replicate (merkleLevelUp L.length) 0) (L ++ B) (blockHashes H m.salt L)
      (by rw [List.length_replicate]; omega)
    rw [List.length_replicate, List.replicate_append_replicate, ← hsum, List.drop_replicate] at ov
    rw [show List.replicate (merkleLevelUp L.length :: ls).sum (0 : U8) ++ L ++ B = List.replicate (merkleLevelUp L.length :: ls).sum (0 : U8) ++ (L ++ B) by simp]
    rw [ov]
    have hpad : blockHashes H m.salt L ++ List.replicate (merkleLevelUp L.length - (blockHashes H m.salt L).length) 0 = levelAbove H m.salt L := by
      unfold levelAbove padBlock
      congr 2
      rw [hbl]; omega
    rw [hpad]
    have := ih f (levelAbove H m.salt L) (L ++ B) (by rw [hla, hup]; omega) (by rw [hla, hup]; omega)
    rw [hla, hls] at this
    rw [this]
    simp only [treeLevels, List.reverse_cons, List.flatten_append, List.flatten_cons, List.flatten_nil, List.append_nil, List.append_assoc]

theorem offsets_last' (ls : List Nat) : ∀ d, ls ≠ [] → (merkleOffsetsGo ls ls.sum).getLastD d = 0 := by
  induction ls with
  | nil => intro d h; exact absurd rfl h
  | cons l ls ih =>
    intro d _
    rw [merkleOffsets_cons, List.getLastD_cons]
    cases ls with
    | nil => rfl
    | cons l' ls' => exact ih _ (by simp)

theorem offsets_last (ls : List Nat) : (merkleOffsetsGo ls ls.sum).getLastD 0 = 0 := by
  by_cases h : ls = []
  · subst h; rfl
  · exact offsets_last' ls 0 h

theorem treeLevels_length (H : HashFn) (salt : Bytes) (k : Nat) (b : Bytes) : (treeLevels H salt k b).length = k := by
  induction k generalizing b with
  | zero => rfl
  | succ k ih => simp [treeLevels, ih]

theorem getLastD_map {α β : Type} (f : α → β) (l : List α) (a : α) : (l.map f).getLastD (f a) = f (l.getLastD a) := by
  induction l generalizing a with
  | nil => rfl
  | cons x l ih => simp only [List.map_cons, List.getLastD_cons]; exact ih x

theorem levelCount_pos (nb : Nat) : ∃ j, levelCount nb = j + 1 := by
  unfold levelCount
  split
  · exact ⟨0, rfl⟩
  · split
    · exact ⟨1, rfl⟩
    · exact ⟨2, rfl⟩

/-- The top level comes first in the tree and is one block. -/
theorem hashTree_top (H : HashFn) (hH : HashLen H) (salt data : Bytes) (hs : TreeSupported data.length) :
    (hashTree H salt data).take 4096 = (treeLevels H salt (levelCount (data.length / 4096)) data).getLastD [] ∧
    4096 ≤ (hashTree H salt data).length := by
  unfold hashTree
  generalize hl : treeLevels H salt (levelCount (data.length / 4096)) data = ls
  have hlen : (ls.getLastD []).length = 4096 := by
    have := getLastD_map List.length ls []
    rw [← hl, treeLevels_lengths hH] at this
    rw [← hl, ← this]
    exact iterLens_last _ hs
  have hne : ls ≠ [] := by
    intro e
    have := treeLevels_length H salt (levelCount (data.length / 4096)) data
    obtain ⟨j, hj⟩ := levelCount_pos (data.length / 4096)
    rw [hl, e, hj] at this
    cases this
  obtain ⟨init, last, rfl⟩ : ∃ init last, ls = init ++ [last] := ⟨ls.dropLast, ls.getLast hne, (List.dropLast_concat_getLast hne).symm⟩
  have e : (init ++ [last]).getLastD [] = last := by simp
  rw [e] at hlen ⊢
  rw [List.reverse_append]
  simp only [List.reverse_cons, List.reverse_nil, List.nil_append, List.flatten_append, List.flatten_cons, List.flatten_nil, List.append_nil]
  exact ⟨List.take_left' hlen, by rw [List.length_append, hlen]; omega⟩

theorem merkleBuild_spec (H : HashFn) (hH : HashLen H) (f : Bytes) (off : Nat) (salt data : Bytes) (chunks : List Bytes)
    (hc : chunks.flatten = data) (hsalt : salt.length ≤ 32) (hs : TreeSupported data.length) :
    merkleBuild H f off salt data.length chunks = .ok (treeRoot H salt data, fileWrite f off (hashTree H salt data)) := by
  have hs' := hs
  obtain ⟨h1, h2, h3⟩ := hs'
  unfold merkleBuild merkleInit
  rw [if_neg (by omega), if_neg (by omega), merkleLevelsGo_eq _ h1, if_neg (by omega)]
  simp only [if_true]
  obtain ⟨j, hj⟩ := levelCount_pos (data.length / 4096)
  have hmult : (iterLens (levelCount (data.length / 4096)) data.length).sum % 32 = 0 := by
    have := sum_mult _ (fun l hl => iterLens_mult (levelCount (data.length / 4096)) data.length l hl)
    omega
  rw [zeroFill_file _ _ _ hmult]
  simp only
  have hlast := iterLens_last data.length hs
  have htop := hashTree_top H hH salt data hs
  have htree : hashTree H salt data = (treeLevels H salt (levelCount (data.length / 4096)) data).reverse.flatten := rfl
  have hj' := hj
  rw [hj] at hlast htop htree hmult ⊢
  simp only [iterLens, treeLevels] at *
  generalize hl0 : merkleLevelUp data.length = l0 at *
  generalize hls : iterLens j l0 = ls at *
  rw [merkleOffsets_cons]
  generalize hm0 : (⟨data.length, salt, l0 :: ls, ls.sum :: merkleOffsetsGo ls ls.sum, (l0 :: ls).sum, off, 0, 4096, ⟨hashSha256, []⟩, List.replicate 32 0, false⟩ : Merkle) = m0
  have hp : Pend m0 m0 0 [] := by
    subst hm0; exact ⟨rfl, rfl, rfl, rfl, rfl, rfl, rfl, by simp, rfl, by simp, rfl⟩
  have hoff : m0.offset = off := by subst hm0; rfl
  have hsal : m0.salt = salt := by subst hm0; rfl
  have hlo : m0.levelOff = ls.sum :: merkleOffsetsGo ls ls.sum := by subst hm0; rfl
  have hll : m0.levelLen = l0 :: ls := by subst hm0; rfl
  have hlo0 : m0.levelOff.getD 0 0 = ls.sum := by rw [hlo]; rfl
  have hbh := blockHashes_length hH salt data
  have hla := levelAbove_length hH salt data
  have hup := merkleLevelUp_eq data.length
  have hsum : (l0 :: ls).sum = ls.sum + l0 := by rw [List.sum_cons]; omega
  -- the level directly above the data, written into the zero-filled tree
  have ov : fileWrite (fileWrite f off (List.replicate (l0 :: ls).sum 0)) (off + ls.sum) (blockHashes H salt data) =
      fileWrite f off (List.replicate ls.sum 0 ++ levelAbove H salt data ++ []) := by
    have ov := fileWrite_overlay f off (List.replicate ls.sum 0) (List.replicate l0 0) [] (blockHashes H salt data)
      (by rw [List.length_replicate]; omega)
    rw [List.length_replicate, List.replicate_append_replicate, ← hsum, List.drop_replicate, List.append_nil] at ov
    rw [ov]
    congr 3
    unfold levelAbove padBlock
    congr 2
    rw [hbh]; omega
  by_cases h4096 : data.length = 4096
  · -- one block
    have hw := merkleWriteAll_one H fileIo m0 (by subst hm0; exact h4096) chunks m0 [] (fileWrite f off (List.replicate (l0 :: ls).sum 0)) hp (by rw [List.nil_append, hc]; exact h4096)
    rw [List.nil_append, hc, hlo0, hoff, hsal] at hw
    simp only [fileIo] at hw
    obtain ⟨m', e1, e2, e3⟩ := hw
    simp only [fileIo]
    rw [e3]
    simp only
    unfold merkleFinish
    rw [if_pos e1, e2]
    have hb1 : blockHashes H salt data = H hashSha256 (salt ++ data) := by
      rw [blockHashes_cons _ _ _ (by omega), blockHashes_short _ _ _ (by rw [List.length_drop]; omega), List.append_nil,
        List.take_of_length_le (by omega)]
    rw [← hb1, ov]
    have hj0 : j = 0 := by
      have : levelCount (data.length / 4096) = 1 := by rw [h4096]; rfl
      omega
    subst hj0
    simp only [treeLevels, List.reverse_cons, List.reverse_nil, List.nil_append, List.flatten_cons, List.flatten_nil, List.append_nil] at htree
    rw [htree, hb1]
    simp only [iterLens] at hls
    subst hls
    unfold treeRoot
    rw [if_pos h4096]
    simp
  · have hw := merkleWriteAll_absorb H fileIo m0 (by subst hm0; exact h4096) chunks m0 0 [] (fileWrite f off (List.replicate (l0 :: ls).sum 0)) hp
    rw [List.nil_append, hc, hlo0, hoff, hsal, absorb_file H hH] at hw
    simp only [Nat.add_zero] at hw
    obtain ⟨m', hp', e3⟩ := hw
    rw [e3]
    simp only
    unfold merkleFinish
    rw [hp'.fin, if_neg (by simp), hp'.ll, hp'.lo, hll, hlo, List.zip_cons_cons, ov]
    have hup2 := levelsUp_file H hH m' j f (levelAbove H salt data) [] (by rw [hla, hup]; omega) (by rw [hla, hup]; omega)
    rw [hla, hl0, hls, hp'.off, hoff, hp'.salt, hsal] at hup2
    rw [hup2]
    simp only [List.append_nil]
    have htree' : (treeLevels H salt j (levelAbove H salt data)).reverse.flatten ++ levelAbove H salt data = hashTree H salt data := by
      rw [htree]; simp
    rw [htree', merkleFeed_view fileIo _ _ (fun _ _ => rfl), hlast, hp'.off, hoff, hp'.salt, hsal]
    have hlo2 : (ls.sum :: merkleOffsetsGo ls ls.sum).getLastD 0 = 0 := by
      have := offsets_last (l0 :: ls)
      rwa [merkleOffsets_cons] at this
    rw [hlo2, Nat.add_zero]
    have hge := fileRead_inner f off (hashTree H salt data) 0 4096 (by omega)
    rw [List.drop_zero, Nat.add_zero] at hge
    have hfl : off + 32 * (4096 / 32) ≤ (fileWrite f off (hashTree H salt data)).length := by
      rw [fileWrite_length _ _ _ (by intro e; rw [e] at htop; simp at htop)]; omega
    rw [if_pos (.inr hfl)]
    simp only [hashUpdate, List.nil_append]
    rw [show 32 * (4096 / 32) = 4096 from rfl, Nat.add_zero, hge, htop.1]
    unfold treeRoot
    rw [if_neg h4096, hj]
    rfl

end Bpak
