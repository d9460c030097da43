import Verif.Proof.SaisText
/-! The order of the suffixes. -/
namespace Bpak.Sais

/-- The suffix at `i`. -/
def suf (T : Nat → Nat) (n i : Nat) : List Nat := (List.range' i (n - i)).map T

theorem suf_cons {T : Nat → Nat} {n i : Nat} (h : i < n) : suf T n i = T i :: suf T n (i + 1) := by
  unfold suf
  rw [show n - i = (n - (i + 1)) + 1 by omega, List.range'_succ, List.map_cons]

theorem suf_end {T : Nat → Nat} {n i : Nat} (h : n ≤ i) : suf T n i = [] := by
  unfold suf
  rw [show n - i = 0 by omega]
  rfl

theorem suf_length (T : Nat → Nat) (n i : Nat) : (suf T n i).length = n - i := by
  unfold suf
  simp

theorem suf_lt {T : Nat → Nat} {n i j : Nat} (hi : i < n) (hj : j < n) :
    suf T n i < suf T n j ↔ T i < T j ∨ (T i = T j ∧ suf T n (i + 1) < suf T n (j + 1)) := by
  rw [suf_cons hi, suf_cons hj, List.cons_lt_cons_iff]

theorem suf_lt_key {T : Nat → Nat} {n i j : Nat} (hi : i < n) (hj : j < n) (h : T i < T j) : suf T n i < suf T n j := (suf_lt hi hj).2 (Or.inl h)

theorem suf_lt_pred {T : Nat → Nat} {n i j : Nat} (hi : i < n) (hj : j < n) (h : T i = T j) (h' : suf T n (i + 1) < suf T n (j + 1)) :
    suf T n i < suf T n j := (suf_lt hi hj).2 (Or.inr ⟨h, h'⟩)

theorem suf_end_lt {T : Nat → Nat} {n i j : Nat} (hi : n ≤ i) (hj : j < n) : suf T n i < suf T n j := by
  rw [suf_end hi, suf_cons hj]
  exact List.nil_lt_cons _ _

/-- In one bucket, the suffixes that are greater than the next one come first. -/
theorem suf_lt_type {T : Nat → Nat} {n : Nat} (d : Nat) : ∀ i j, n - i = d → i < n → j < n → T i = T j → sTy T n i = false → sTy T n j = true → suf T n i < suf T n j := by
  induction d with
  | zero => intro i j h; omega
  | succ d ih =>
    intro i j hd hi hj he h1 h2
    obtain ⟨hj', h3⟩ := sTy_next h2
    apply suf_lt_pred hi hj he
    rcases Nat.lt_or_ge (i + 1) n with hi' | hi'
    · have h4 := lTy_next hi' h1
      rcases Nat.lt_or_ge (T (i + 1)) (T (j + 1)) with h5 | h5
      · exact suf_lt_key hi' hj' h5
      · apply ih (i + 1) (j + 1) (by omega) hi' hj' (by omega)
        · rw [← sTy_same hi' (by omega)]; exact h1
        · rw [← sTy_same hj' (by omega)]; exact h2
    · exact suf_end_lt hi' hj'

end Bpak.Sais
