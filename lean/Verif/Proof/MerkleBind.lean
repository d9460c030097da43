import Verif.Proof.MerkleVerify
namespace Bpak

theorem storedLevels_lengths (P : Bytes) (off : Nat) : ∀ (k n : Nat), off + (iterLens k n).sum ≤ P.length →
    (storedLevels P off k n).map List.length = iterLens k n := by
  intro k
  induction k with
  | zero => intro n _; rfl
  | succ k ih =>
    intro n h
    rw [storedLevels_succ]
    simp only [iterLens, List.sum_cons] at h
    simp only [iterLens, List.map_cons]
    rw [ih _ (by omega), fileRead_length, Nat.min_eq_left (by omega)]

theorem storedLevels_flatten (P : Bytes) (off : Nat) : ∀ (k n : Nat),
    (storedLevels P off k n).reverse.flatten = fileRead P off (iterLens k n).sum := by
  intro k
  induction k with
  | zero => intro n; simp [storedLevels, iterLens, fileRead]
  | succ k ih =>
    intro n
    rw [storedLevels_succ]
    simp only [iterLens, List.sum_cons, List.reverse_cons, List.flatten_append, List.flatten_cons, List.flatten_nil, List.append_nil]
    rw [ih, Nat.add_comm (merkleLevelUp n), ← fileRead_add]

/-- lists of byte strings with the same lengths and the same reversed concatenation are equal -/
theorem levels_ext : ∀ (a b : List Bytes), a.map List.length = b.map List.length → a.reverse.flatten = b.reverse.flatten → a = b := by
  intro a
  induction a with
  | nil => intro b h _; cases b with
    | nil => rfl
    | cons => cases h
  | cons x a ih =>
    intro b h hf
    cases b with
    | nil => cases h
    | cons y b =>
      simp only [List.map_cons, List.cons.injEq] at h
      simp only [List.reverse_cons, List.flatten_append, List.flatten_cons, List.flatten_nil, List.append_nil] at hf
      have := List.append_inj' hf h.1
      rw [ih b h.2 this.1, this.2]

theorem holdHashes_tree (H : HashFn) (salt : Bytes) : ∀ (k : Nat) (d : Bytes), HoldHashes H salt d (treeLevels H salt k d) := by
  intro k
  induction k with
  | zero => intro d; trivial
  | succ k ih =>
    intro d
    exact ⟨List.prefix_append _ _, ih _⟩

/-- Two different blocks with the same salted hash. -/
def Collision (H : HashFn) (salt : Bytes) : Prop :=
  ∃ x y : Bytes, x.length = 4096 ∧ y.length = 4096 ∧ x ≠ y ∧ H hashSha256 (salt ++ x) = H hashSha256 (salt ++ y)

theorem block_bind (H : HashFn) (salt x y : Bytes) (hx : x.length = 4096) (hy : y.length = 4096)
    (h : H hashSha256 (salt ++ x) = H hashSha256 (salt ++ y)) : x = y ∨ Collision H salt := by
  by_cases e : x = y
  · exact .inl e
  · exact .inr ⟨x, y, hx, hy, e, h⟩

theorem blockHashes_bind (H : HashFn) (hH : HashLen H) (salt : Bytes) (d : Bytes) : ∀ (d' : Bytes), d.length % 4096 = 0 → d.length = d'.length →
    blockHashes H salt d = blockHashes H salt d' → d = d' ∨ Collision H salt := by
  induction hn : d.length using Nat.strongRecOn generalizing d with
  | ind n ih =>
    intro d' h1 h2 h
    subst hn
    by_cases h0 : d.length < 4096
    · have e1 : d = [] := List.eq_nil_of_length_eq_zero (by omega)
      have e2 : d' = [] := List.eq_nil_of_length_eq_zero (by omega)
      exact .inl (e1.trans e2.symm)
    · rw [blockHashes_cons H salt d (by omega), blockHashes_cons H salt d' (by omega)] at h
      have h := List.append_inj h (by rw [hH.sha256, hH.sha256])
      rcases block_bind H salt _ _ (by rw [List.length_take]; omega) (by rw [List.length_take]; omega) h.1 with e | e
      · rcases ih (d.drop 4096).length (by simp; omega) _ rfl (d'.drop 4096) (by simp; omega) (by simp; omega) h.2 with e' | e'
        · left
          rw [← List.take_append_drop 4096 d, ← List.take_append_drop 4096 d', e, e']
        · exact .inr e'
      · exact .inr e

theorem levels_bind (H : HashFn) (hH : HashLen H) (salt : Bytes) : ∀ (k : Nat) (d d' : Bytes) (ls : List Bytes), d.length % 4096 = 0 → d.length = d'.length →
    ls.map List.length = iterLens k d.length → HoldHashes H salt d ls → ls.getLastD d = (treeLevels H salt k d').getLastD d' →
    (d = d' ∧ ls = treeLevels H salt k d') ∨ Collision H salt := by
  intro k
  induction k with
  | zero =>
    intro d d' ls _ _ h3 _ h5
    have : ls = [] := List.eq_nil_of_map_eq_nil h3
    subst this
    exact .inl ⟨h5, rfl⟩
  | succ k ih =>
    intro d d' ls h1 h2 h3 h4 h5
    cases ls with
    | nil => cases h3
    | cons l ls =>
      simp only [iterLens, List.map_cons, List.cons.injEq] at h3
      simp only [treeLevels, List.getLastD_cons] at h5
      have hup := merkleLevelUp_eq d.length
      have hla := levelAbove_length hH salt d'
      rw [← h2] at hla
      rcases ih l (levelAbove H salt d') ls (by omega) (by omega) (by rw [h3.1]; exact h3.2) h4.2 h5 with ⟨e1, e2⟩ | e
      · have hb := blockHashes_length hH salt d
        have hb' := blockHashes_length hH salt d'
        have hp := h4.1
        rw [e1] at hp
        unfold levelAbove padBlock at hp
        have heq : blockHashes H salt d = blockHashes H salt d' := by
          obtain ⟨t, ht⟩ := hp
          exact (List.append_inj ht (by rw [hb, hb', h2])).1
        rcases blockHashes_bind H hH salt d d' h1 h2 heq with e | e
        · left
          refine ⟨e, ?_⟩
          simp only [treeLevels]
          rw [e1, e2]
        · exact .inr e
      · exact .inr e

end Bpak
