import Verif.Proof.Bsdiff
import Verif.Proof.HsDelta
/-!
How large a delta gets.
-/
namespace Bpak

theorem offtout_length (x : Int) : (offtout x).length = 8 := rfl

theorem diffGo_length (o n : Bytes) (ls lp : Int) : ∀ (k : Nat) (i : Int) (b : Bytes), diffGo o n ls lp k i = some b → b.length = k := by
  intro k
  induction k with
  | zero => intro i b h; rw [diffGo] at h; rw [← Option.some.inj h]; rfl
  | succ k ih =>
    intro i b h
    rw [diffGo] at h
    split at h
    · rename_i r _ _ hr
      rw [← Option.some.inj h, List.length_cons, ih _ _ hr]
    · cases h

theorem extraBufs_length (n : Bytes) (p s : Int) (ex : List Bytes) (h : extraBufs n p s = some ex) : (ex.flatten.length : Int) = s := by
  unfold extraBufs at h
  split at h
  · rw [Option.map_eq_some_iff] at h
    obtain ⟨x, hx, rfl⟩ := h
    unfold getRange at hx
    split at hx
    · rename_i hr
      rw [← Option.some.inj hx]
      simp only [List.flatten_cons, List.flatten_nil, List.append_nil, List.length_take, List.length_drop]
      omega
    · cases hx
  · rename_i h0
    rw [← Option.some.inj h]
    have := Classical.not_not.1 h0
    rw [this]; rfl

/-- Each round's output: a control block, and a byte for each byte of new data passed. -/
theorem writeDiff_size (o n : Bytes) (c c' : Differ) (h : writeDiff o n c = some c') :
    (c'.out.flatten.length : Int) = c.out.flatten.length + 24 + (c'.lastScan - c.lastScan) := by
  unfold writeDiff at h
  rw [Option.bind_eq_some_iff] at h
  obtain ⟨d, -, h⟩ := h
  rw [Option.bind_eq_some_iff] at h
  obtain ⟨lenb, -, h⟩ := h
  rw [Option.bind_eq_some_iff] at h
  obtain ⟨⟨d, lenb⟩, -, h⟩ := h
  simp only at h
  split at h
  · cases h
  · rename_i hd
    rw [Option.bind_eq_some_iff] at h
    obtain ⟨db, hdb, h⟩ := h
    rw [Option.bind_eq_some_iff] at h
    obtain ⟨ex, hex, h⟩ := h
    have h := Option.some.inj h
    subst h
    simp only
    have e1 := diffGo_length _ _ _ _ _ _ _ hdb
    have e2 := extraBufs_length _ _ _ _ hex
    rw [List.flatten_append, List.flatten_append, List.flatten_append, List.length_append, List.length_append, List.length_append, chunks4096_flatten, e1]
    simp only [List.flatten_cons, List.flatten_nil, List.append_nil, List.length_append, offtout_length]
    omega

theorem diffRound_size (o n : Bytes) (srch : Int → Option (Int × Int)) (c c' : Differ) (h : diffRound o n srch c = some c') :
    (c'.out.flatten.length : Int) ≤ c.out.flatten.length + 24 + (c'.lastScan - c.lastScan) := by
  unfold diffRound at h
  simp only [Option.bind_eq_bind, Option.bind_eq_some_iff] at h
  obtain ⟨⟨scan, len, pos, fs⟩, -, h⟩ := h
  simp only at h
  split at h
  · have := writeDiff_size o n _ c' h
    simp only at this
    omega
  · have h := Option.some.inj h
    subst h
    simp only; omega

theorem diffLoop_size (o n : Bytes) (srch : Int → Option (Int × Int)) : ∀ (k : Nat) (c c' : Differ), diffLoop o n srch (k + 1) c = some c' →
    (c'.out.flatten.length : Int) ≤ c.out.flatten.length + 24 * k + (c'.lastScan - c.lastScan) := by
  intro k
  induction k with
  | zero =>
    intro c c' h
    rw [diffLoop] at h
    split at h
    · rw [Option.bind_eq_some_iff] at h
      obtain ⟨c1, -, h⟩ := h
      rw [diffLoop] at h; cases h
    · rw [← Option.some.inj h]; omega
  | succ k ih =>
    intro c c' h
    rw [diffLoop] at h
    split at h
    · rw [Option.bind_eq_some_iff] at h
      obtain ⟨c1, h1, h⟩ := h
      have a := diffRound_size o n srch c c1 h1
      have b := ih c1 c' h
      omega
    · rw [← Option.some.inj h]; omega

theorem bsdiffWith_size (o n : Bytes) (ho : o.length < 2^63) (hn : n.length < 2^63) (srch : Int → Option (Int × Int)) (hs : SearchOk o n srch) (bufs : List Bytes)
    (h : bsdiffWith srch o n = some bufs) : bufs.flatten.length ≤ 25 * n.length + 24 := by
  obtain ⟨c', e, e1, e2⟩ := diffLoop_spec o n ho hn srch hs (n.length + 2) ⟨0, 0, 0, 0, 0, 0, []⟩
    ⟨by simp, by simp, by simp, by simp, by simp, by simp, by simp, by simp, [], by simp, rfl, by simp [applyRecs]⟩
    (by simp only; omega) (by simp only; omega)
  unfold bsdiffWith at h
  rw [e, Option.map_some] at h
  rw [← Option.some.inj h]
  have := diffLoop_size o n srch (n.length + 1) _ c' e
  rw [e2] at this
  simp only [List.flatten_nil, List.length_nil] at this
  omega

end Bpak
