import Verif.Spec.Extract
import Verif.Proof.PkgAdd
/-!
The copy loop of an extraction, step by step.
-/
namespace Bpak

theorem fwrite_end (w : Disk) (d : Bytes) (hd : d ≠ []) :
    (w.fwrite w.pkg.file.length d).2.luck = w.luck.tail ∧
    ((w.pending = false ∧ (w.fwrite w.pkg.file.length d).1 = true ∧ (w.fwrite w.pkg.file.length d).2.pending = false ∧
        (w.fwrite w.pkg.file.length d).2.pkg.file = w.pkg.file ++ d) ∨
      ∃ k, (w.fwrite w.pkg.file.length d).2.pkg.file = w.pkg.file ++ d.take k ∧ (w.pending = true → k = 0) ∧
        ((w.fwrite w.pkg.file.length d).1 = false ∨
          ((w.fwrite w.pkg.file.length d).2.pending = true ∧ ¬ (w.pending = false ∧ Prompt w.luck)))) := by
  have hmem : ∀ m, w.luck.headD .full = .late m → ¬ Prompt w.luck := by
    intro m hm hp
    cases hl : w.luck with
    | nil => rw [hl] at hm; cases hm
    | cons a l => rw [hl] at hm hp; exact hp m (by rw [← hm]; exact List.mem_cons_self)
  unfold Disk.fwrite
  rw [if_neg hd]
  cases hp : w.pending
  · rw [if_neg (by decide)]
    split
    · exact ⟨rfl, Or.inl ⟨rfl, rfl, rfl, fileWrite_end _ _⟩⟩
    · split
      · exact ⟨rfl, Or.inl ⟨rfl, rfl, rfl, fileWrite_end _ _⟩⟩
      · exact ⟨rfl, Or.inr ⟨_, fileWrite_end _ _, (fun h => nomatch h), Or.inl rfl⟩⟩
    · rename_i m hm
      split
      · exact ⟨rfl, Or.inl ⟨rfl, rfl, rfl, fileWrite_end _ _⟩⟩
      · exact ⟨rfl, Or.inr ⟨_, fileWrite_end _ _, (fun h => nomatch h), Or.inr ⟨rfl, fun h => hmem m hm h.2⟩⟩⟩
  · rw [if_pos rfl]
    split
    · exact ⟨rfl, Or.inr ⟨0, by simp, (fun _ => rfl), Or.inl rfl⟩⟩
    · exact ⟨rfl, Or.inr ⟨0, by simp, (fun _ => rfl), Or.inr ⟨rfl, fun h => nomatch h.1⟩⟩⟩

theorem Prompt.tail {l : List Luck} (h : Prompt l) : Prompt l.tail := fun m hm => h m (List.mem_of_mem_tail hm)

theorem extractLoopD_eq (f : Bytes) (n : Nat) : ∀ (off : Nat) (w : Disk),
    ((extractLoopD f off n w).1 = .ok → (extractLoop f off n).1 = .ok) ∧
    ((extractLoopD f off n w).1 = (extractLoop f off n).1 ∨ (extractLoopD f off n w).1 = .writeError) ∧
    (∃ k, (extractLoopD f off n w).2.pkg.file = w.pkg.file ++ (extractLoop f off n).2.take k ∧ (w.pending = true → k = 0)) ∧
    (w.pending = false → Prompt w.luck → (extractLoopD f off n w).1 = .ok →
      (extractLoopD f off n w).2.pkg.file = w.pkg.file ++ (extractLoop f off n).2) := by
  induction n using Nat.strongRecOn with
  | ind n ih =>
    intro off w
    rw [extractLoopD, extractLoop]
    by_cases h0 : n = 0
    · rw [dif_pos h0, dif_pos h0]
      exact ⟨fun h => h, Or.inl rfl, ⟨0, by simp, fun _ => rfl⟩, fun _ _ _ => by simp⟩
    · rw [dif_neg h0, dif_neg h0]
      by_cases hl : (fileRead f off (min n 4096)).length ≠ min n 4096
      · rw [if_pos hl, if_pos hl]
        exact ⟨fun h => h, Or.inl rfl, ⟨0, by simp, fun _ => rfl⟩, fun _ _ h => nomatch h⟩
      · rw [if_neg hl, if_neg hl]
        have hl := Classical.not_not.1 hl
        have hd : fileRead f off (min n 4096) ≠ [] := fun h => by rw [h] at hl; simp at hl; omega
        obtain ⟨e1, e2⟩ := fwrite_end w _ hd
        generalize hd' : fileRead f off (min n 4096) = d at *
        generalize hr : w.fwrite w.pkg.file.length d = r at *
        obtain ⟨b, v⟩ := r
        dsimp only at e1 e2 ⊢
        obtain ⟨i1, i2, ⟨k', i3, i4⟩, i5⟩ := ih (n - min n 4096) (by omega) (off + min n 4096) v
        cases b
        · rw [if_neg (by decide)]
          rcases e2 with ⟨_, h, _⟩ | ⟨k, e2, e3, _⟩
          · exact nomatch h
          · refine ⟨(fun h => nomatch h), Or.inr rfl, ⟨min k d.length, ?_, fun h => by rw [e3 h]; simp⟩, fun _ _ h => nomatch h⟩
            dsimp only
            rw [e2, List.take_append_of_le_length (Nat.min_le_right _ _), List.take_eq_take_min]
        · rw [if_pos rfl]
          refine ⟨i1, i2, ?_, ?_⟩
          · rcases e2 with ⟨hp, _, _, e2⟩ | ⟨k, e2, e3, e4⟩
            · refine ⟨d.length + k', ?_, fun h => by rw [hp] at h; exact nomatch h⟩
              rw [i3, e2, List.take_length_add_append, List.append_assoc]
            · rcases e4 with e4 | ⟨e4, _⟩
              · exact nomatch e4
              · refine ⟨min k d.length, ?_, fun h => by rw [e3 h]; simp⟩
                rw [i3, i4 e4, e2, List.take_append_of_le_length (Nat.min_le_right _ _), List.take_zero, List.append_nil,
                  List.take_eq_take_min]
          · intro hp hq hok
            rcases e2 with ⟨_, _, e2, e3⟩ | ⟨k, _, _, e4⟩
            · rw [i5 e2 (by rw [e1]; exact hq.tail) hok, e3, List.append_assoc]
            · rcases e4 with e4 | ⟨_, e4⟩
              · exact nomatch e4
              · exact absurd ⟨hp, hq⟩ e4

end Bpak
