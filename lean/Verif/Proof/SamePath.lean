import Verif.Spec.SamePath
import Verif.Props.Pkg
/-!
Commands given the package itself a second time.
-/
namespace Bpak
variable [LzmaLib]

/-- With more to go than the rounds can copy, the loop is not through. -/
theorem addSelf_far (lag : Nat → Nat) (k : Nat) : ∀ (r : Nat) (p : Pkg) (rd pos : Nat) (rem : U64), 4096 * k < rem.toNat →
    addSelfLoop lag k r p rd pos rem = none := by
  induction k with
  | zero => exact fun _ _ _ _ _ _ => rfl
  | succ k ih =>
    intro r p rd pos rem h
    unfold addSelfLoop
    have hz : rem ≠ 0 := by intro h0; subst h0; simp at h
    rw [if_neg hz]
    refine ih _ _ _ _ _ ?_
    have hl : (fileRead (p.file.take (p.file.length - lag r)) rd 4096).length ≤ 4096 := by
      rw [fileRead_length]
      omega
    generalize (fileRead (p.file.take (p.file.length - lag r)) rd 4096).length = n at hl
    have := rem.isLt
    rw [BitVec.toNat_sub, BitVec.toNat_ofNat, Nat.mod_eq_of_lt (a := n) (by omega)]
    omega

/-- As long as not everything has been copied every read is full, also the one that should not be. -/
theorem addSelf_runs (lag : Nat → Nat) (hb : HoldsBack lag) (S : Nat) (hS : 4096 < S) (hm : S % 4096 ≠ 0) (hlt : S < 2^63) (j : Nat) :
    ∀ (k r : Nat) (p : Pkg) (rem : U64), k ≤ 2^51 → S / 4096 = r + j → p.file.length = S + 4096 * r → rem.toNat = S - 4096 * r →
      addSelfLoop lag k r p (4096 * r) (S + 4096 * r) rem = none := by
  induction j with
  | zero =>
    intro k r p rem hk hj hf hr
    cases k with
    | zero => rfl
    | succ k =>
      unfold addSelfLoop
      have hz : rem ≠ 0 := by intro h0; subst h0; simp at hr; omega
      rw [if_neg hz]
      have hlag : lag r + 4096 ≤ S := by
        have := hb.block r
        by_cases h1 : r = 1
        · subst h1
          rw [hb.first.2]
          omega
        · omega
      have hl : (fileRead (p.file.take (p.file.length - lag r)) (4096 * r) 4096).length = 4096 := by
        rw [fileRead_length, List.length_take, hf]
        omega
      dsimp only
      rw [hl]
      refine addSelf_far lag k _ _ _ _ _ ?_
      rw [BitVec.toNat_sub, BitVec.toNat_ofNat, Nat.mod_eq_of_lt (a := 4096) (by omega), hr]
      omega
  | succ j ih =>
    intro k r p rem hk hj hf hr
    cases k with
    | zero => rfl
    | succ k =>
      unfold addSelfLoop
      have hz : rem ≠ 0 := by intro h0; subst h0; simp at hr; omega
      rw [if_neg hz]
      have hlag : lag r + 4096 ≤ S := by
        have := hb.block r
        by_cases h1 : r = 0
        · subst h1
          rw [hb.first.1]
          omega
        · omega
      have hl : (fileRead (p.file.take (p.file.length - lag r)) (4096 * r) 4096).length = 4096 := by
        rw [fileRead_length, List.length_take, hf]
        omega
      dsimp only
      rw [hl, show 4096 * r + 4096 = 4096 * (r+1) by omega, show S + 4096 * r + 4096 = S + 4096 * (r+1) by omega]
      refine ih k (r+1) _ _ (by omega) (by omega) ?_ ?_
      · unfold Pkg.write
        dsimp only
        rw [← hf, fileWrite_end, List.length_append, hl, hf]
        omega
      · rw [BitVec.toNat_sub, BitVec.toNat_ofNat, Nat.mod_eq_of_lt (a := 4096) (by omega), hr]
        have := rem.isLt
        omega

/-- A file of whole blocks is read as it was. -/
theorem addSelf_whole (lag : Nat → Nat) (hb : HoldsBack lag) (old : Bytes) (hm : old.length % 4096 = 0) (k : Nat) :
    ∀ (r : Nat) (p : Pkg) (rem : U64) (w : Bytes), p.file = old ++ w → w.length = 4096 * r → 4096 * r ≤ old.length → rem.toNat = old.length - 4096 * r →
      addSelfLoop lag k r p (4096 * r) (old.length + 4096 * r) rem = addCopyLoop k p (old.length + 4096 * r) (old.drop (4096 * r)) rem := by
  induction k with
  | zero => exact fun _ _ _ _ _ _ _ _ => rfl
  | succ k ih =>
    intro r p rem w hf hw hr hrem
    unfold addSelfLoop addCopyLoop
    by_cases hz : rem = 0
    · rw [if_pos hz, if_pos hz]
    · rw [if_neg hz, if_neg hz]
      have hz' : rem.toNat ≠ 0 := fun h => hz (BitVec.eq_of_toNat_eq h)
      have hlag : lag r ≤ 4096 * r := by
        have := hb.block r
        by_cases h1 : r = 0
        · subst h1
          rw [hb.first.1]
          omega
        · omega
      have hlen : p.file.length = old.length + 4096 * r := by rw [hf, List.length_append, hw]
      have hc : fileRead (p.file.take (p.file.length - lag r)) (4096 * r) 4096 = (old.drop (4096 * r)).take 4096 := by
        unfold fileRead
        rw [hf, List.take_append, List.drop_append, List.take_append]
        rw [List.take_of_length_le (l := old) (by rw [List.length_append, hw]; omega)]
        have : 4096 - (List.drop (4096 * r) old).length = 0 := by rw [List.length_drop]; omega
        rw [this, List.take_zero, List.append_nil]
      have hcl : ((old.drop (4096 * r)).take 4096).length = 4096 := by
        rw [List.length_take, List.length_drop]
        omega
      dsimp only
      rw [hc, hcl, List.drop_drop, show 4096 * r + 4096 = 4096 * (r+1) by omega,
        show old.length + 4096 * r + 4096 = old.length + 4096 * (r+1) by omega]
      have e := ih (r+1) (p.write (old.length + 4096 * r) ((old.drop (4096 * r)).take 4096)) (rem - BitVec.ofNat 64 4096) (w ++ (old.drop (4096 * r)).take 4096)
        (by
          unfold Pkg.write
          dsimp only
          rw [← hlen, fileWrite_end, hf, List.append_assoc])
        (by rw [List.length_append, hw, hcl]; omega)
        (by omega)
        (by
          rw [BitVec.toNat_sub, BitVec.toNat_ofNat, Nat.mod_eq_of_lt (a := 4096) (by omega), hrem]
          have := rem.isLt
          omega)
      exact e

/-- What is extracted into the package's own file is at most what had been read ahead. -/
theorem extractSelf_eq (old : Bytes) (base : Nat) (hb : 0 < base) (n : Nat) : ∀ (out : Bytes) (rd : Nat), base ≤ rd → out.length = rd - base →
    extractSelfLoop old base out rd n = ((extractLoop old (rd - base) n).1, out ++ (extractLoop old (rd - base) n).2) := by
  induction n using Nat.strongRecOn with
  | ind n ih =>
    intro out rd h1 h2
    rw [extractSelfLoop, extractLoop]
    by_cases h0 : n = 0
    · rw [dif_pos h0, dif_pos h0, List.append_nil]
    · rw [dif_neg h0, dif_neg h0]
      have e : fileRead out (rd + (fileRead old (rd - base) (min n 4096)).length) (min n 4096 - (fileRead old (rd - base) (min n 4096)).length) = [] := by
        generalize (fileRead old (rd - base) (min n 4096)).length = a
        unfold fileRead
        rw [List.drop_of_length_le (by omega), List.take_nil]
      dsimp only
      rw [e, List.append_nil]
      by_cases h3 : (fileRead old (rd - base) (min n 4096)).length ≠ min n 4096
      · rw [if_pos h3, if_pos h3, List.append_nil]
      · rw [if_neg h3, if_neg h3]
        have h4 := Classical.not_not.1 h3
        rw [ih _ (by omega) _ _ (by omega) (by rw [List.length_append, h4]; omega)]
        rw [show rd + min n 4096 - base = rd - base + min n 4096 by omega, List.append_assoc]

theorem extractLoop_prefix (f : Bytes) (n : Nat) : ∀ off, (extractLoop f off n).2 <+: fileRead f off n ∧
    ((extractLoop f off n).1 = .ok → (extractLoop f off n).2 = fileRead f off n ∧ (fileRead f off n).length = n) ∧
    ((extractLoop f off n).1 = .ok ∨ (extractLoop f off n).1 = .readError) := by
  induction n using Nat.strongRecOn with
  | ind n ih =>
    intro off
    rw [extractLoop]
    by_cases h0 : n = 0
    · rw [dif_pos h0]
      subst h0
      exact ⟨List.nil_prefix, fun _ => ⟨by unfold fileRead; simp, by unfold fileRead; simp⟩, Or.inl rfl⟩
    · rw [dif_neg h0]
      by_cases h3 : (fileRead f off (min n 4096)).length ≠ min n 4096
      · rw [if_pos h3]
        exact ⟨List.nil_prefix, (fun h => nomatch h), Or.inr rfl⟩
      · rw [if_neg h3]
        have h4 := Classical.not_not.1 h3
        obtain ⟨i1, i2, i3⟩ := ih (n - min n 4096) (by omega) (off + min n 4096)
        have e : fileRead f off n = fileRead f off (min n 4096) ++ fileRead f (off + min n 4096) (n - min n 4096) := by
          rw [← fileRead_add, show min n 4096 + (n - min n 4096) = n by omega]
        refine ⟨?_, fun h => ?_, i3⟩
        · rw [e]
          exact (List.prefix_append_right_inj _).2 i1
        · obtain ⟨j1, j2⟩ := i2 h
          rw [e]
          exact ⟨by show fileRead f off (min n 4096) ++ _ = _; rw [j1], by rw [List.length_append, h4, j2]; omega⟩

end Bpak
