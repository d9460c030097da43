import Verif.Spec.Merkle
namespace Bpak

theorem merklePad_eq (x : Nat) : merklePad x = (4096 - x % 4096) % 4096 := by
  unfold merklePad
  rw [show ~~~BitVec.ofNat 64 x + 1 = -BitVec.ofNat 64 x from (BitVec.neg_eq_not_add _).symm, BitVec.toNat_and, BitVec.toNat_neg]
  have e : (4095 : BitVec 64).toNat = 2^12 - 1 := by decide
  rw [e, Nat.and_two_pow_sub_one_eq_mod, BitVec.toNat_ofNat]
  omega

theorem merkleLevelUp_eq (l : Nat) : merkleLevelUp l = 4096 * ((l / 4096 + 127) / 128) := by
  unfold merkleLevelUp
  rw [merklePad_eq]
  omega

theorem merkleComputeSize_eq (n : Nat) : merkleComputeSize n =
    if n % 4096 ≠ 0 then .error .badAlignment
    else if n = 0 ∨ n / 4096 > 128^4 then .error .noSpaceLeft
    else .ok (treeSize (n / 4096)) := by
  unfold merkleComputeSize
  split
  · rfl
  · rename_i h
    simp only [merkleSizeGo, merkleLevelUp_eq, Nat.mul_div_cancel_left _ (show 0 < 4096 by omega)]
    unfold treeSize
    simp only [show ¬ (0 + 1 > 4) by omega, show ¬ (0 + 1 + 1 > 4) by omega, show ¬ (0 + 1 + 1 + 1 > 4) by omega,
      show ¬ (0 + 1 + 1 + 1 + 1 > 4) by omega, show (0 + 1 + 1 + 1 + 1 + 1 > 4) by omega, if_true, if_false]
    generalize hnb : n / 4096 = nb
    have hn : n = 4096 * nb := by omega
    subst hn
    rw [Nat.mul_div_cancel_left _ (show 0 < 4096 by omega)] at *
    clear hnb h
    generalize ha1 : (nb + 127) / 128 = a1
    generalize ha2 : (a1 + 127) / 128 = a2
    generalize ha3 : (a2 + 127) / 128 = a3
    generalize ha4 : (a3 + 127) / 128 = a4
    repeat' split
    all_goals first
      | rfl
      | (exfalso; omega)
      | (congr 1; omega)

/-- lengths of the `k` levels above length `n` -/
def iterLens : Nat → Nat → List Nat
  | 0, _ => []
  | k+1, n => merkleLevelUp n :: iterLens k (merkleLevelUp n)

theorem merkleLevelsGo_eq (n : Nat) (h : n % 4096 = 0) : merkleLevelsGo 4 0 n [] =
    if n = 0 ∨ n / 4096 > 128^3 then .error .noSpaceLeft else .ok (iterLens (levelCount (n / 4096)) n) := by
  simp only [merkleLevelsGo]
  simp only [show ¬ (0 + 1 ≥ 4) by omega, show ¬ (0 + 1 + 1 ≥ 4) by omega, show ¬ (0 + 1 + 1 + 1 ≥ 4) by omega,
      show (0 + 1 + 1 + 1 + 1 ≥ 4) by omega, if_true, if_false]
  have e1 := merkleLevelUp_eq n
  have e2 := merkleLevelUp_eq (merkleLevelUp n)
  have e3 := merkleLevelUp_eq (merkleLevelUp (merkleLevelUp n))
  unfold levelCount
  by_cases c0 : n = 0 ∨ n / 4096 > 128^3
  · rw [if_pos c0, if_pos (by omega), if_pos (by omega), if_pos (by omega)]
  · rw [if_neg c0]
    by_cases c1 : n / 4096 ≤ 128
    · rw [if_neg (by omega), if_pos c1]; rfl
    · rw [if_pos (by omega), if_neg c1]
      by_cases c2 : n / 4096 ≤ 128^2
      · rw [if_neg (by omega), if_pos c2]; rfl
      · rw [if_pos (by omega), if_neg c2, if_neg (by omega)]; rfl

theorem iterLens_sum (n : Nat) (h : TreeSupported n) : (iterLens (levelCount (n / 4096)) n).sum = treeSize (n / 4096) := by
  obtain ⟨h1, h2, h3⟩ := h
  unfold levelCount treeSize
  have e1 := merkleLevelUp_eq n
  have e2 := merkleLevelUp_eq (merkleLevelUp n)
  have e3 := merkleLevelUp_eq (merkleLevelUp (merkleLevelUp n))
  repeat' split
  all_goals first
    | (exfalso; omega)
    | (simp only [iterLens, List.sum_cons, List.sum_nil]; omega)

theorem iterLens_last (n : Nat) (h : TreeSupported n) : (iterLens (levelCount (n / 4096)) n).getLastD 0 = 4096 := by
  obtain ⟨h1, h2, h3⟩ := h
  have e1 := merkleLevelUp_eq n
  have e2 := merkleLevelUp_eq (merkleLevelUp n)
  have e3 := merkleLevelUp_eq (merkleLevelUp (merkleLevelUp n))
  unfold levelCount
  split
  · simp only [iterLens, List.getLastD_cons, List.getLastD_nil]; omega
  · split
    · simp only [iterLens, List.getLastD_cons, List.getLastD_nil]; omega
    · simp only [iterLens, List.getLastD_cons, List.getLastD_nil]; omega

theorem iterLens_mult (k n l : Nat) (h : l ∈ iterLens k n) : l % 4096 = 0 := by
  induction k generalizing n with
  | zero => cases h
  | succ k ih =>
    simp only [iterLens, List.mem_cons] at h
    rcases h with h | h
    · rw [h, merkleLevelUp_eq]; omega
    · exact ih _ h

theorem sum_mult (ls : List Nat) (h : ∀ l ∈ ls, l % 4096 = 0) : ls.sum % 4096 = 0 := by
  induction ls with
  | nil => rfl
  | cons l ls ih =>
    have := ih (fun x hx => h x (by simp [hx]))
    have := h l (by simp)
    simp only [List.sum_cons]; omega

theorem merkleOffsets_cons (l : Nat) (ls : List Nat) : merkleOffsetsGo (l :: ls) (l :: ls).sum = ls.sum :: merkleOffsetsGo ls ls.sum := by
  have : (l :: ls).sum - l = ls.sum := by simp
  rw [merkleOffsetsGo, this]

end Bpak
