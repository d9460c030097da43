import Verif.Proof.PatchIo
import Verif.Props.Bsdiff
import Verif.Props.HsDelta
import Verif.Props.Lzma
/-! C126: a delta applied through callbacks that can fail. -/
namespace Bpak
variable {σ : Type}

/-- C126: a delta without compression, made from an origin and a new file, cut in any way: every call of the decoder succeeds, and then the new file is
in its place behind the callbacks, nothing else there has changed and its length is reported; or the first call that does not succeed gives
what a callback answered, or the code for one that fell short. For every honest pair of callbacks, whatever fails and when. -/
theorem C126_applied_or_reported (io : PatchIo σ) (view : σ → Bytes) (o n : Bytes) (hio : HonestIo io view o) (hz : ¬ FromDeltaIo io .ok)
    (s : σ) (outOff bufLen : Nat) (hb : 0 < bufLen) (ho : o.length < 2^63) (hn : n.length < 2^63)
    (srch : Int → Option (Int × Int)) (hs : SearchOk o n srch) :
    ∃ bufs, bsdiffWith srch o n = some bufs ∧ ∀ xs : List Bytes, xs.flatten = bufs.flatten →
      (∃ p s', bspatchRunIo io (patchCfg o 0 outOff bufLen) (Patcher.init []) s xs = .ok (p, s') ∧ view s' = fileWrite (view s) outOff n ∧
        bspatchFinal p = some n.length) ∨
      (∃ e, bspatchRunIo io (patchCfg o 0 outOff bufLen) (Patcher.init []) s xs = .fail e ∧ FromDeltaIo io e) := by
  obtain ⟨bufs, h1, h2⟩ := C23_diff_then_patch o n (view s) outOff bufLen hb ho hn srch hs
  refine ⟨bufs, h1, fun xs hx => ?_⟩
  obtain ⟨p, k1, k2, k3⟩ := h2 xs hx
  have k1' : bspatchRun (patchCfg o 0 outOff bufLen) ((Patcher.init []).on (view s)) xs = .ok p := k1
  rcases run_sim hio hz (patchCfg o 0 outOff bufLen) rfl xs (Patcher.init []) s with ⟨p', s', e1, e2⟩ | ⟨e, e1, e2⟩ | ⟨_, e2⟩ | ⟨_, e2⟩
  · rw [k1'] at e2
    injection e2 with e2
    subst e2
    exact Or.inl ⟨p', s', e1, k2, k3⟩
  · rcases e2 with e2 | e2
    · exact Or.inr ⟨e, e1, e2⟩
    · rw [k1'] at e2; cases e2
  · rw [k1'] at e2; cases e2
  · rw [k1'] at e2; cases e2

/-- C126, compressed with heatshrink. -/
theorem C126_heatshrink (io : PatchIo σ) (view : σ → Bytes) (o n g : Bytes) (hio : HonestIo io view o) (hz : ¬ FromDeltaIo io .ok)
    (s : σ) (zOff outOff bufLen : Nat) (hb : 0 < bufLen) (ho : o.length < 2^63) (hn : n.length < 2^63)
    (srch : Int → Option (Int × Int)) (hs : SearchOk o n srch) :
    ∃ t z, bsdiffHs srch o n zOff g = some (.ok t) ∧ t.file = fileWrite g zOff z ∧ ∀ xs : List Bytes, xs.flatten = z → (∀ x ∈ xs, x ≠ []) →
      (∃ h s', hsRunIo io (patchCfg o 0 outOff bufLen) z.length (HsPatch.init []) s xs = .ok (h, s') ∧ view s' = fileWrite (view s) outOff n ∧
        bspatchFinal h.p = some n.length) ∨
      (∃ e, hsRunIo io (patchCfg o 0 outOff bufLen) z.length (HsPatch.init []) s xs = .fail e ∧ FromDeltaIo io e) := by
  obtain ⟨t, z, h1, h2, -, h3⟩ := C26_compressed_diff_then_patch o n (view s) g zOff outOff bufLen hb ho hn srch hs
  refine ⟨t, z, h1, h2, fun xs hx hne => ?_⟩
  obtain ⟨u, k1, k2, k3⟩ := h3 xs hx hne
  have hd := hsRun_sim hio hz (patchCfg o 0 outOff bufLen) rfl z.length xs (HsPatch.init [], s) (HsPatch.init (view s)) rfl
  dsimp only at hd
  rw [k1] at hd
  generalize hsRunIo io (patchCfg o 0 outOff bufLen) z.length (HsPatch.init []) s xs = w at hd
  cases hd with
  | bad e _ h => exact Or.inr ⟨e, rfl, h⟩
  | ok a b h =>
    obtain ⟨h', s'⟩ := a
    subst h
    exact Or.inl ⟨h', s', rfl, k2, k3⟩

/-- C126, compressed with LZMA; the end of the stream is handled by the final call, which writes, too. -/
theorem C126_lzma [LzmaLib] (L : LzmaLaws) (io : PatchIo σ) (view : σ → Bytes) (o n g : Bytes) (hio : HonestIo io view o) (hz : ¬ FromDeltaIo io .ok)
    (s : σ) (zOff outOff bufLen : Nat) (hb : 0 < bufLen) (ho : o.length < 2^63) (hn : n.length < 2^63)
    (srch : Int → Option (Int × Int)) (hs : SearchOk o n srch) :
    ∃ t z, bsdiffLzma srch o n zOff g = some (.ok t) ∧ t.file = fileWrite g zOff z ∧ ∀ xs : List Bytes, xs.flatten = z → (∀ x ∈ xs, x ≠ []) →
      (∃ h s1 s', lzPatchRunIo io (patchCfg o 0 outOff bufLen) (LzPatch.init []) s xs = .ok (h, s1) ∧
        lzPatchFinalIo io (patchCfg o 0 outOff bufLen) h s1 = .ok (n.length, s') ∧ view s' = fileWrite (view s) outOff n) ∨
      (∃ e, lzPatchRunIo io (patchCfg o 0 outOff bufLen) (LzPatch.init []) s xs = .fail e ∧ FromDeltaIo io e) ∨
      (∃ h s1 e, lzPatchRunIo io (patchCfg o 0 outOff bufLen) (LzPatch.init []) s xs = .ok (h, s1) ∧
        lzPatchFinalIo io (patchCfg o 0 outOff bufLen) h s1 = .fail e ∧ FromDeltaIo io e) := by
  obtain ⟨t, z, h1, h2, -, h3, -⟩ := C100_lzma_diff_then_patch L o n (view s) g zOff outOff bufLen hb ho hn srch hs
  refine ⟨t, z, h1, h2, fun xs hx hne => ?_⟩
  obtain ⟨u, u', k1, k2, k3⟩ := h3 xs hx hne
  have hd := lzPatchRun_sim hio hz (patchCfg o 0 outOff bufLen) rfl xs (LzPatch.init [], s) (LzPatch.init (view s)) rfl
  dsimp only at hd
  rw [k1] at hd
  generalize lzPatchRunIo io (patchCfg o 0 outOff bufLen) (LzPatch.init []) s xs = w at hd
  cases hd with
  | bad e _ h => exact Or.inr (Or.inl ⟨e, rfl, h⟩)
  | ok a b h =>
    have hf := lzPatchFinal_sim hio hz (patchCfg o 0 outOff bufLen) rfl a u h
    rw [k2] at hf
    generalize hw : lzPatchFinalIo io (patchCfg o 0 outOff bufLen) a.1 a.2 = w at hf
    cases hf with
    | bad e _ h' => exact Or.inr (Or.inr ⟨a.1, a.2, e, rfl, hw, h'⟩)
    | ok x y h' =>
      obtain ⟨m, s'⟩ := x
      obtain ⟨j1, j2⟩ := h'
      dsimp only at j1 j2
      subst j1
      exact Or.inl ⟨a.1, a.2, s', rfl, hw, by rw [← j2, k3]⟩

/-- C126, for every stream of data, whatever it is, and every state of the decoder: the calls give what they give over a file (success with the same
output, the same refusal, the same undefined behaviour), or report what a callback answered. -/
theorem C126_any_stream (io : PatchIo σ) (view : σ → Bytes) (o : Bytes) (hio : HonestIo io view o) (hz : ¬ FromDeltaIo io .ok) (s : σ) (p : Patcher)
    (off : Int) (outOff bufLen : Nat) (xs : List Bytes) :
    (∃ e, bspatchRunIo io (patchCfg o off outOff bufLen) p s xs = .fail e ∧ FromDeltaIo io e) ∨
    match bspatchRun (patchCfg o off outOff bufLen) { p with out := view s } xs with
    | .ok q => ∃ p' s', bspatchRunIo io (patchCfg o off outOff bufLen) p s xs = .ok (p', s') ∧ q = { p' with out := view s' }
    | .fail e => bspatchRunIo io (patchCfg o off outOff bufLen) p s xs = .fail e
    | .ub => bspatchRunIo io (patchCfg o off outOff bufLen) p s xs = .ub
    | .hang => bspatchRunIo io (patchCfg o off outOff bufLen) p s xs = .hang := by
  have h : p.on (view s) = { p with out := view s } := rfl
  rw [← h]
  rcases run_sim hio hz (patchCfg o off outOff bufLen) rfl xs p s with ⟨p', s', e1, e2⟩ | ⟨e, e1, e2⟩ | ⟨e1, e2⟩ | ⟨e1, e2⟩
  · exact Or.inr (by rw [e2]; exact ⟨p', s', e1, rfl⟩)
  · rcases e2 with e2 | e2
    · exact Or.inl ⟨e, e1, e2⟩
    · exact Or.inr (by rw [e2]; exact e1)
  · exact Or.inr (by rw [e2]; exact e1)
  · exact Or.inr (by rw [e2]; exact e1)

theorem iter_err (io : PatchIo σ) (c : PatchCfg) (p : Patcher) (s : σ) (b : Bytes) (e : Err) (he : e ≠ .ok) (p' : Patcher) (s' : σ)
    (h : patchIterIo io c p s b = .done e p' s') : p'.st = .error := by
  unfold patchIterIo at h
  cases hp : p.st <;> rw [hp] at h <;> dsimp only at h
  all_goals
    repeat' split at h
    all_goals first
      | (cases h; done)
      | (injection h with h1 h2 h3; exact absurd h1.symm he)
      | (injection h with h1 h2 h3; subst h2; first | rfl | exact hp)

/-- C126: a failure is final: after it no call does anything, all answer -1, and so does the end. -/
theorem C126_failure_is_final (io : PatchIo σ) (c : PatchCfg) (p : Patcher) (s : σ) (b : Bytes) (e : Err) (he : e ≠ .ok) (p' : Patcher) (s' : σ)
    (h : bspatchWriteIo io c p s b = .ret e p' s') (b' : Bytes) : bspatchWriteIo io c p' s' b' = .ret .failed p' s' ∧ bspatchFinal p' = none := by
  have hst : p'.st = .error := by
    unfold bspatchWriteIo at h
    generalize 4 * b.length + 4 = k at h
    induction k generalizing p s b with
    | zero => cases h
    | succ k ih =>
      unfold patchLoopIo at h
      cases hi : patchIterIo io c p s b with
      | done rc q t =>
        rw [hi] at h
        injection h with h1 h2 h3
        subst h1; subst h2
        exact iter_err io c p s b _ he _ _ hi
      | more q t rest =>
        rw [hi] at h
        exact ih q t rest h
      | ub => rw [hi] at h; cases h
  refine ⟨?_, by unfold bspatchFinal; rw [if_pos hst]⟩
  unfold bspatchWriteIo
  show patchLoopIo io c (4 * b'.length + 3 + 1) p' s' b' = _
  unfold patchLoopIo patchIterIo
  rw [hst]

/-- Callbacks over a file and a list of results to come: each call consumes one; a write may fail having written half, a read may be short. -/
def luckyIo (origin : Bytes) : PatchIo (Bytes × List Bool) where
  rd s off n := if s.2.headD true then (if 0 ≤ off then ((s.1, s.2.tail), .ok (fileRead origin off.toNat n)) else (s, .error .readError)) else ((s.1, s.2.tail), .error .readError)
  wr s off b := if s.2.headD true then ((fileWrite s.1 off b, s.2.tail), .ok b.length)
    else ((fileWrite s.1 off (b.take (b.length / 2)), s.2.tail), .error .writeError)

theorem luckyIo_honest (origin : Bytes) : HonestIo (luckyIo origin) (·.1) origin ∧ ¬ FromDeltaIo (luckyIo origin) .ok := by
  refine ⟨⟨?_, ?_⟩, ?_⟩
  · intro s off b s' n h hn
    unfold luckyIo at h
    dsimp only at h
    split at h
    · injection h with h1 h2; rw [← h1]
    · injection h with h1 h2; cases h2
  · intro s off n s' x h hx
    unfold luckyIo at h
    dsimp only at h
    split at h
    · split at h
      · injection h with h1 h2
        injection h2 with h2
        exact ⟨by assumption, h2.symm, by rw [← h1]⟩
      · injection h with h1 h2; cases h2
    · injection h with h1 h2; cases h2
  · rintro (⟨s, off, b, s', h⟩ | ⟨s, off, n, s', h⟩ | ⟨h, _⟩ | ⟨h, _⟩)
    · unfold luckyIo at h
      dsimp only at h
      split at h <;> (injection h with h1 h2; cases h2)
    · unfold luckyIo at h
      dsimp only at h
      repeat' split at h
      all_goals (injection h with h1 h2; cases h2)
    · cases h
    · cases h

/-- One record (diff of 3, extra of 2) in two chunks: through callbacks that succeed; through such that fail at the third call (the second write: the
rest of the output is missing, the code is that of the callback); and nothing happens after that. -/
example :
    let ctrl : Bytes := [3, 0, 0, 0, 0, 0, 0, 0, 2, 0, 0, 0, 0, 0, 0, 0, 0, 0, 0, 0, 0, 0, 0, 0]
    (match bspatchRunIo (luckyIo [1, 2, 3]) (patchCfg [1, 2, 3] 0 1 4) (Patcher.init []) ([9], []) [ctrl, [1, 1, 1, 7, 8]] with
      | .ok (p, s) => (s.1, bspatchFinal p) | _ => ([], none)) = ([9, 2, 3, 4, 7, 8], some 5) ∧
    (match bspatchRunIo (luckyIo [1, 2, 3]) (patchCfg [1, 2, 3] 0 1 4) (Patcher.init []) ([9], [true, true, false]) [ctrl, [1, 1, 1, 7, 8]] with
      | .fail e => e | _ => .ok) = .writeError ∧
    (match bspatchWriteIo (luckyIo [1, 2, 3]) (patchCfg [1, 2, 3] 0 1 4) (Patcher.init []) ([9], [true, true, false]) (ctrl ++ [1, 1, 1, 7, 8]) with
      | .ret e p s => (e, p.st, s.1) | _ => (.ok, .fillCtrl, [])) = (.writeError, .error, [9, 2, 3, 4, 7]) := by
  decide +kernel

end Bpak
