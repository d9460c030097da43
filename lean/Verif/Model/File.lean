import Verif.Model.Basic
/-!
Files as byte strings. `fseek` past the end followed by a write leaves a gap of zero bytes (POSIX).
-/
namespace Bpak

/-- `fseek(fp, pos, SEEK_SET); fwrite(data, …)`: the file afterwards. (e.g. lib/pkg.c:177-182) -/
def fileWrite (f : Bytes) (pos : Nat) (data : Bytes) : Bytes :=
  if data = [] then f else
  f.take pos ++ List.replicate (pos - f.length) 0 ++ data ++ f.drop (pos + data.length)

/-- `fseek(fp, pos, SEEK_SET); fread(buf, 1, n, fp)`: what arrives (short at end of file). (e.g. lib/pkg.c:105-107) -/
def fileRead (f : Bytes) (pos n : Nat) : Bytes := (f.drop pos).take n

theorem fileWrite_nil (f : Bytes) (pos : Nat) : fileWrite f pos [] = f := rfl

theorem fileWrite_getElem? (f : Bytes) (pos : Nat) (d : Bytes) (hd : d ≠ []) (i : Nat) :
    (fileWrite f pos d)[i]? =
      if i < pos then (if i < f.length then f[i]? else some 0)
      else if i < pos + d.length then d[i - pos]? else f[i]? := by
  unfold fileWrite
  rw [if_neg hd]
  by_cases h1 : i < pos
  · rw [if_pos h1]
    by_cases h2 : i < f.length
    · rw [if_pos h2, List.append_assoc, List.append_assoc, List.getElem?_append_left (by simp; omega),
        List.getElem?_take_of_lt h1]
    · rw [if_neg h2, List.getElem?_append_left (by simp; omega), List.getElem?_append_left (by simp; omega),
        List.getElem?_append_right (by simp; omega), List.getElem?_replicate]
      simp; omega
  · rw [if_neg h1]
    have hl : (f.take pos ++ List.replicate (pos - f.length) (0 : U8)).length = pos := by simp; omega
    by_cases h2 : i < pos + d.length
    · rw [if_pos h2, List.getElem?_append_left (by simp only [List.length_append] at *; omega),
        List.getElem?_append_right (by omega), hl]
    · rw [if_neg h2, List.getElem?_append_right (by simp only [List.length_append] at *; omega), List.getElem?_drop]
      congr 1
      simp only [List.length_append] at *; omega

/-- Two adjacent writes are one. -/
theorem fileWrite_append (f : Bytes) (pos : Nat) (a b : Bytes) :
    fileWrite (fileWrite f pos a) (pos + a.length) b = fileWrite f pos (a ++ b) := by
  by_cases ha : a = []
  · subst ha; simp [fileWrite_nil]
  by_cases hb : b = []
  · subst hb; simp [fileWrite_nil]
  have hab : a ++ b ≠ [] := by simp [ha]
  apply List.ext_getElem?
  intro i
  have la : 0 < a.length := List.length_pos_iff.2 ha
  rw [fileWrite_getElem? _ _ _ hb, fileWrite_getElem? _ _ _ hab, fileWrite_getElem? _ _ _ ha]
  have hlen : (fileWrite f pos a).length = max f.length (pos + a.length) := by
    unfold fileWrite; rw [if_neg ha]; simp; omega
  rw [hlen, List.length_append]
  by_cases h1 : i < pos
  · have : i < max f.length (pos + a.length) := by omega
    have : i < pos + a.length := by omega
    simp [*]
  · by_cases h2 : i < pos + a.length
    · have : i < max f.length (pos + a.length) := by omega
      have h3 : i < pos + (a.length + b.length) := by omega
      simp only [h1, h2, h3, this, if_true, if_false]
      rw [List.getElem?_append_left (by omega)]
    · by_cases h3 : i < pos + (a.length + b.length)
      · have h4 : i < pos + a.length + b.length := by omega
        simp only [h1, h2, h3, h4, if_true, if_false]
        rw [List.getElem?_append_right (by omega)]
        congr 1; omega
      · have h4 : ¬ i < pos + a.length + b.length := by omega
        simp only [h1, h2, h3, h4, if_false]

theorem fileWrite_length (f : Bytes) (pos : Nat) (d : Bytes) (hd : d ≠ []) :
    (fileWrite f pos d).length = max f.length (pos + d.length) := by
  unfold fileWrite; rw [if_neg hd]; simp; omega

/-- Reading back what was written. -/
theorem fileRead_fileWrite (f : Bytes) (pos : Nat) (d : Bytes) : fileRead (fileWrite f pos d) pos d.length = d := by
  by_cases hd : d = []
  · subst hd; simp [fileRead]
  apply List.ext_getElem?
  intro i
  unfold fileRead
  rw [List.getElem?_take, List.getElem?_drop]
  split
  · rw [fileWrite_getElem? _ _ _ hd, if_neg (by omega), if_pos (by omega)]
    congr 1; omega
  · rename_i h
    rw [List.getElem?_eq_none_iff.2 (by omega)]

/-- A write elsewhere does not affect a read of existing bytes. -/
theorem fileRead_fileWrite_disjoint (f : Bytes) (pos : Nat) (d : Bytes) (p n : Nat)
    (h : p + n ≤ pos ∨ pos + d.length ≤ p) (hf : p + n ≤ f.length ∨ pos + d.length ≤ p) :
    fileRead (fileWrite f pos d) p n = fileRead f p n := by
  by_cases hd : d = []
  · subst hd; rfl
  apply List.ext_getElem?
  intro i
  unfold fileRead
  rw [List.getElem?_take, List.getElem?_drop, List.getElem?_take, List.getElem?_drop]
  split
  · rw [fileWrite_getElem? _ _ _ hd]
    rcases h with h | h
    · rcases hf with hf | hf
      · rw [if_pos (by omega), if_pos (by omega)]
      · have := List.length_pos_iff.2 hd; omega
    · rw [if_neg (by omega), if_neg (by omega)]
  · rfl

end Bpak
