import Verif.Proof.DiffPlace
import Verif.Proof.PatchIo
/-! C128: a delta made through a callback that can fail. -/
namespace Bpak
variable {σ : Type}

theorem written_unique (f : Bytes) (off : Nat) (a b : Bytes) (hl : a.length = b.length) (h : fileWrite f off a = fileWrite f off b) : a = b := by
  have ha : fileRead (fileWrite f off a) (off + 0) a.length = a := by
    rw [fileRead_inner _ _ _ _ _ (by omega)]; simp
  have hb : fileRead (fileWrite f off b) (off + 0) b.length = b := by
    rw [fileRead_inner _ _ _ _ _ (by omega)]; simp
  rw [← ha, ← hb, h, hl]

/-- C128, without compression: there are bytes that are a delta from the origin to the new file, and, whatever the callback does and when it fails:
`bpak_bsdiff` returns their number, and then they are in their place behind the callback and nothing else there has changed; or it returns what
the callback answered, or the code for a write that fell short. -/
theorem C128_plain (o n : Bytes) (ho : o.length < 2^63) (hn : n.length < 2^63) (srch : Int → Option (Int × Int)) (hs : SearchOk o n srch) :
    ∃ z, DeltaPlain o n z ∧ ∀ (io : DiffIo σ) (view : σ → Bytes), HonestDiff io view → ∀ (off : Nat) (t : σ),
      (∃ t', bsdiffPlainIo io srch o n off t = .ok (t', z.length) ∧ view t' = fileWrite (view t) off z) ∨
      (∃ e, bsdiffPlainIo io srch o n off t = .fail e ∧ FromDiffIo io e) := by
  obtain ⟨bufs, h1, -⟩ := C23_diff_then_patch o n [] 0 1 (by omega) ho hn srch hs
  refine ⟨bufs.flatten, ?_, ?_⟩
  · intro f outOff bufLen hb xs hx
    obtain ⟨bufs', k1, k2⟩ := C23_diff_then_patch o n f outOff bufLen hb ho hn srch hs
    rw [h1] at k1
    injection k1 with k1
    subst k1
    exact k2 xs hx
  · intro io view hio off t
    unfold bsdiffPlainIo
    rw [h1]
    dsimp only
    rcases plainRun_sim hio off bufs t 0 with ⟨t', k1, k2⟩ | k
    · refine Or.inl ⟨t', ?_, ?_⟩
      · rw [k1, Nat.zero_add]
      · rw [k2, writeBufs_eq, Nat.add_zero]
    · exact Or.inr k

/-- C128, compressed with heatshrink: the same bytes for every callback and every place. -/
theorem C128_heatshrink (o n : Bytes) (ho : o.length < 2^63) (hn : n.length < 2^63) (srch : Int → Option (Int × Int)) (hs : SearchOk o n srch) :
    ∃ z, DeltaHs o n z ∧ ∀ (io : DiffIo σ) (view : σ → Bytes), HonestDiff io view → ∀ (off : Nat) (t : σ),
      (∃ t', bsdiffHsIo io srch o n off t = .ok (t', z.length) ∧ view t' = fileWrite (view t) off z) ∨
      (∃ e, bsdiffHsIo io srch o n off t = .fail e ∧ FromDiffIo io e) := by
  obtain ⟨s, z, h1, h2, h3, -⟩ := C26_compressed_diff_then_patch o n [] [] 0 0 1 (by omega) ho hn srch hs
  refine ⟨z, ?_, ?_⟩
  · intro f outOff bufLen hb xs hx hne
    obtain ⟨s', z', k1, k2, k3, k4⟩ := C26_compressed_diff_then_patch o n f [] 0 outOff bufLen hb ho hn srch hs
    rw [h1] at k1
    injection k1 with k1
    injection k1 with k1
    subst k1
    have : z = z' := written_unique [] 0 z z' (by omega) (by rw [← h2, ← k2])
    subst this
    exact k4 xs hx hne
  · intro io view hio off t
    obtain ⟨r, k1, z', -, k2, k3, k4, k5⟩ := bsdiffHs_two srch o n 0 off [] (view t) s h1
    have : z = z' := written_unique [] 0 z z' (by omega) (by rw [← h2, ← k4])
    subst this
    rw [← k3, ← k5]
    exact bsdiffHs_sim hio srch o n off t r k1

/-- C128, compressed with LZMA: the same bytes for every callback and every place. -/
theorem C128_lzma [LzmaLib] (L : LzmaLaws) (o n : Bytes) (ho : o.length < 2^63) (hn : n.length < 2^63) (srch : Int → Option (Int × Int)) (hs : SearchOk o n srch) :
    ∃ z, DeltaLzma o n z ∧ ∀ (io : DiffIo σ) (view : σ → Bytes), HonestDiff io view → ∀ (off : Nat) (t : σ),
      (∃ t', bsdiffLzmaIo io srch o n off t = .ok (t', z.length) ∧ view t' = fileWrite (view t) off z) ∨
      (∃ e, bsdiffLzmaIo io srch o n off t = .fail e ∧ FromDiffIo io e) := by
  obtain ⟨s, z, h1, h2, h3, -⟩ := C100_lzma_diff_then_patch L o n [] [] 0 0 1 (by omega) ho hn srch hs
  refine ⟨z, ?_, ?_⟩
  · intro f outOff bufLen hb xs hx hne
    obtain ⟨s', z', k1, k2, k3, k4, -⟩ := C100_lzma_diff_then_patch L o n f [] 0 outOff bufLen hb ho hn srch hs
    rw [h1] at k1
    injection k1 with k1
    injection k1 with k1
    subst k1
    have : z = z' := written_unique [] 0 z z' (by omega) (by rw [← h2, ← k2])
    subst this
    obtain ⟨p, p', q1, q2, q3⟩ := k4 xs hx hne
    exact ⟨p, p', q1, q2, q3⟩
  · intro io view hio off t
    obtain ⟨r, k1, z', -, k2, k3, k4, k5⟩ := bsdiffLzma_two srch o n 0 off [] (view t) s h1
    have : z = z' := written_unique [] 0 z z' (by omega) (by rw [← h2, ← k4])
    subst this
    rw [← k3, ← k5]
    exact bsdiffLzma_sim hio srch o n off t r k1

/-- C128, both ends: made through one callback and applied through two others, all of which can fail at any time: if all calls succeed, the new
file is in its place, whatever was behind the callbacks before and however the delta is cut on its way. -/
theorem C128_end_to_end {τ : Type} (o n : Bytes) (ho : o.length < 2^63) (hn : n.length < 2^63) (srch : Int → Option (Int × Int)) (hs : SearchOk o n srch)
    (io : DiffIo σ) (view : σ → Bytes) (hio : HonestDiff io view) (off : Nat) (t t' : σ) (m : Nat) (hd : bsdiffPlainIo io srch o n off t = .ok (t', m))
    (pio : PatchIo τ) (pview : τ → Bytes) (hp : HonestIo pio pview o) (hz : ¬ FromDeltaIo pio .ok) (outOff bufLen : Nat) (hb : 0 < bufLen) (u : τ)
    (xs : List Bytes) (hx : xs.flatten = fileRead (view t') off m) :
    (∃ p u', bspatchRunIo pio (patchCfg o 0 outOff bufLen) (Patcher.init []) u xs = .ok (p, u') ∧ pview u' = fileWrite (pview u) outOff n ∧
      bspatchFinal p = some n.length) ∨
    (∃ e, bspatchRunIo pio (patchCfg o 0 outOff bufLen) (Patcher.init []) u xs = .fail e ∧ FromDeltaIo pio e) := by
  obtain ⟨z, h1, h2⟩ := C128_plain (σ := σ) o n ho hn srch hs
  rcases h2 io view hio off t with ⟨t'', k1, k2⟩ | ⟨e, k1, -⟩
  · rw [hd] at k1
    injection k1 with k1
    obtain ⟨rfl, rfl⟩ := Prod.mk.inj k1
    have hzr : fileRead (view t') (off + 0) z.length = z := by
      rw [k2, fileRead_inner _ _ _ _ _ (by omega)]; simp
    rw [Nat.add_zero] at hzr
    rw [hzr] at hx
    obtain ⟨p, q1, q2, q3⟩ := h1 (pview u) outOff bufLen hb xs hx
    have q1' : bspatchRun (patchCfg o 0 outOff bufLen) ((Patcher.init []).on (pview u)) xs = .ok p := q1
    rcases run_sim hp hz (patchCfg o 0 outOff bufLen) rfl xs (Patcher.init []) u with ⟨p', u', e1, e2⟩ | ⟨e, e1, e2⟩ | ⟨_, e2⟩ | ⟨_, e2⟩
    · rw [q1'] at e2
      injection e2 with e2
      subst e2
      exact Or.inl ⟨p', u', e1, q2, q3⟩
    · rcases e2 with e2 | e2
      · exact Or.inr ⟨e, e1, e2⟩
      · rw [q1'] at e2; cases e2
    · rw [q1'] at e2; cases e2
    · rw [q1'] at e2; cases e2
  · rw [hd] at k1; cases k1

/-- C128, both ends, compressed with heatshrink; `m`, the size of the delta, is what the decoder is told. -/
theorem C128_end_to_end_heatshrink {τ : Type} (o n : Bytes) (ho : o.length < 2^63) (hn : n.length < 2^63) (srch : Int → Option (Int × Int)) (hs : SearchOk o n srch)
    (io : DiffIo σ) (view : σ → Bytes) (hio : HonestDiff io view) (off : Nat) (t t' : σ) (m : Nat) (hd : bsdiffHsIo io srch o n off t = .ok (t', m))
    (pio : PatchIo τ) (pview : τ → Bytes) (hp : HonestIo pio pview o) (hz : ¬ FromDeltaIo pio .ok) (outOff bufLen : Nat) (hb : 0 < bufLen) (u : τ)
    (xs : List Bytes) (hx : xs.flatten = fileRead (view t') off m) (hne : ∀ x ∈ xs, x ≠ []) :
    (∃ h u', hsRunIo pio (patchCfg o 0 outOff bufLen) m (HsPatch.init []) u xs = .ok (h, u') ∧ pview u' = fileWrite (pview u) outOff n ∧
      bspatchFinal h.p = some n.length) ∨
    (∃ e, hsRunIo pio (patchCfg o 0 outOff bufLen) m (HsPatch.init []) u xs = .fail e ∧ FromDeltaIo pio e) := by
  obtain ⟨z, h1, h2⟩ := C128_heatshrink (σ := σ) o n ho hn srch hs
  rcases h2 io view hio off t with ⟨t'', k1, k2⟩ | ⟨e, k1, -⟩
  · rw [hd] at k1
    injection k1 with k1
    obtain ⟨rfl, rfl⟩ := Prod.mk.inj k1
    have hzr : fileRead (view t') (off + 0) z.length = z := by
      rw [k2, fileRead_inner _ _ _ _ _ (by omega)]; simp
    rw [Nat.add_zero] at hzr
    rw [hzr] at hx
    obtain ⟨p, q1, q2, q3⟩ := h1 (pview u) outOff bufLen hb xs hx hne
    have hd := hsRun_sim hp hz (patchCfg o 0 outOff bufLen) rfl z.length xs (HsPatch.init [], u) (HsPatch.init (pview u)) rfl
    dsimp only at hd
    rw [q1] at hd
    generalize hsRunIo pio (patchCfg o 0 outOff bufLen) z.length (HsPatch.init []) u xs = w at hd
    cases hd with
    | bad e _ h => exact Or.inr ⟨e, rfl, h⟩
    | ok a b h =>
      obtain ⟨h', s'⟩ := a
      subst h
      exact Or.inl ⟨h', s', rfl, q2, q3⟩
  · rw [hd] at k1; cases k1

/-- A callback over a file and a list of results to come: each call consumes one; one that fails has written half, or reports to have. -/
def luckyDiff : DiffIo (Bytes × List (Option Bool)) where
  wr s off b := match s.2.headD (some true) with
    | some true => ((fileWrite s.1 off b, s.2.tail), .ok b.length)
    | some false => ((fileWrite s.1 off (b.take (b.length / 2)), s.2.tail), .ok (b.length / 2))
    | none => ((fileWrite s.1 off (b.take (b.length / 2)), s.2.tail), .error .seekError)

theorem luckyDiff_honest : HonestDiff luckyDiff (·.1) := by
  intro s off b s' n h hn
  unfold luckyDiff at h
  dsimp only at h
  split at h
  · injection h with h1 h2; rw [← h1]
  · injection h with h1 h2
    injection h2 with h2
    have hb : b = [] := List.length_eq_zero_iff.1 (by omega)
    subst hb
    rw [← h1]
    exact (fileWrite_nil _ _).symm
  · injection h with h1 h2; cases h2

/-- The three outcomes: three bytes with nothing to refer to, at offset 1: the control bytes and the data are written; the second write falls short;
the first write fails. And with heatshrink. -/
example :
    let srch : Int → Option (Int × Int) := fun _ => some (0, 0)
    SearchOk [] [7, 8, 9] srch ∧
    (match bsdiffPlainIo luckyDiff srch [] [7, 8, 9] 1 ([5], []) with | .ok (t, m) => (t.1, m) | _ => ([], 0)) =
      ([5] ++ List.replicate 8 0 ++ [3] ++ List.replicate 15 0 ++ [7, 8, 9], 27) ∧
    (match bsdiffPlainIo luckyDiff srch [] [7, 8, 9] 1 ([5], [some true, some false]) with | .fail e => e | _ => .ok) = .writeError ∧
    (match bsdiffPlainIo luckyDiff srch [] [7, 8, 9] 1 ([5], [none]) with | .fail e => e | _ => .ok) = .seekError ∧
    (match bsdiffHsIo luckyDiff srch [] [7, 8, 9] 1 ([5], [none]) with | .fail e => e | _ => .ok) = .seekError := by
  refine ⟨?_, ?_, ?_, ?_, ?_⟩
  · exact fun scan h1 h2 => ⟨0, 0, rfl, by omega, by omega, by omega, by omega⟩
  all_goals decide +kernel

end Bpak
