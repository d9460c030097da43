import Verif.Proof.Lzma
import Verif.Props.Bsdiff
/-!
C100: LZMA-compressed deltas.
-/
namespace Bpak

/-- C100: for every origin and new file (below 2^63 bytes), every match search that answers within range, every output place, and every liblzma
that keeps its promises: making the LZMA-compressed delta succeeds; it writes some `z` at its output place and reports its size. Cut in any way into
non-empty chunks and fed to the decoder with the same origin, `z` makes it write exactly the new file, whatever the size of its work buffer, and
the finishing call returns the size. If the stream is cut short, the writes succeed but the finishing call reports a decompressor error. -/
theorem C100_lzma_diff_then_patch [LzmaLib] (L : LzmaLaws) (o n f g : Bytes) (zOff outOff bufLen : Nat) (hb : 0 < bufLen) (ho : o.length < 2^63) (hn : n.length < 2^63)
    (srch : Int → Option (Int × Int)) (hs : SearchOk o n srch) :
    ∃ s z, bsdiffLzma srch o n zOff g = some (.ok s) ∧ s.file = fileWrite g zOff z ∧ s.pos = z.length ∧
      (∀ xs : List Bytes, xs.flatten = z → (∀ x ∈ xs, x ≠ []) →
        ∃ t t', lzPatchRun (patchCfg o 0 outOff bufLen) (LzPatch.init f) xs = .ok t ∧
          lzPatchFinal (patchCfg o 0 outOff bufLen) t = .ok (t', n.length) ∧ t'.p.out = fileWrite f outOff n) ∧
      (∀ xs : List Bytes, xs.flatten <+: z → xs.flatten ≠ z → (∀ x ∈ xs, x ≠ []) →
        ∃ t, lzPatchRun (patchCfg o 0 outOff bufLen) (LzPatch.init f) xs = .ok t ∧ lzPatchFinal (patchCfg o 0 outOff bufLen) t = .fail .decompressorError) := by
  obtain ⟨bufs, h1, h2⟩ := C23_diff_then_patch o n f outOff bufLen hb ho hn srch hs
  obtain ⟨s, s', z, g1, g2, g3, g4, g5⟩ := lz_comp_ok L zOff g bufs
  refine ⟨s', z, ?_, g3, g4, ?_, ?_⟩
  · unfold bsdiffLzma
    rw [h1]
    simp only
    rw [g1]
    simp only
    rw [g2]
  · intro xs hx hne
    obtain ⟨t, t', k1, k2, k3, k4⟩ := lz_accepts L (patchCfg o 0 outOff bufLen) f _ _ g5 (fun p => p.out = fileWrite f outOff n ∧ bspatchFinal p = some n.length) h2 xs hx hne
    refine ⟨t, t', k1, ?_, k3⟩
    unfold bspatchFinal at k4
    split at k4
    · cases k4
    · injection k4 with k4
      rw [k2, k4]
  · intro xs hx hz hne
    exact lz_cut L (patchCfg o 0 outOff bufLen) f _ _ g5 _ h2 xs hx hz hne

/-- C100: on any input whatever, in any non-empty chunks, the writes return, and so does the finishing call after them. -/
theorem C100_lzma_returns [LzmaLib] (L : LzmaLaws) (origin f : Bytes) (originOff : Int) (outOff bufLen : Nat) (hb : 0 < bufLen) (xs : List Bytes) (hne : ∀ x ∈ xs, x ≠ []) :
    lzPatchRun (patchCfg origin originOff outOff bufLen) (LzPatch.init f) xs ≠ .hang ∧
    ∀ t, lzPatchRun (patchCfg origin originOff outOff bufLen) (LzPatch.init f) xs = .ok t → lzPatchFinal (patchCfg origin originOff outOff bufLen) t ≠ .hang := by
  have stop : ∀ (all : Bytes) (fin : Bool) (r : Drv LzPatch), LzStop (patchCfg origin originOff outOff bufLen) (Patcher.init f) all fin r → r ≠ .hang := by
    intro all fin r ⟨h, g', i, outs', ob, d, r1, r2, r3, r4, r5, r6⟩ e
    subst e
    rcases r6 with ⟨p, p1, ⟨_, _, p3⟩ | ⟨_, p3⟩⟩ | e
    · cases p3
    · cases p3
    · have := run_no_hang (patchCfg origin originOff outOff bufLen) (fileReader_law origin) hb outs' _ (PInv.init f)
      unfold drvOf at e
      split at e
      · exact e
      · cases e
      · cases e
      · rename_i hh; exact this hh
  rcases lzPatchRun_ok L (patchCfg origin originOff outOff bufLen) (Patcher.init f) xs (LzPatch.init f) [] [] hne ⟨.start, rfl⟩ with ⟨t, outs, k1, k2⟩ | ⟨all, k1, k2⟩
  · rw [k1]
    refine ⟨by simp, ?_⟩
    intro t' ht
    injection ht with ht
    subst ht
    unfold lzPatchFinal
    split
    · simp
    · have := stop _ _ _ (lzPatchEnd_ok L _ _ t _ _ _ k2)
      cases hw : lzPatchWrite (patchCfg origin originOff outOff bufLen) t [] with
      | ok s => simp
      | fail rc => simp
      | ub => simp
      | hang => exact absurd hw this
  · refine ⟨stop _ _ _ k2, ?_⟩
    intro t ht
    rw [ht] at k2
    obtain ⟨h, g', i, outs', ob, d, r1, r2, r3, r4, r5, r6⟩ := k2
    rcases r6 with ⟨p, p1, ⟨_, e, _⟩ | ⟨_, e⟩⟩ | e
    · cases e
    · cases e
    · unfold drvOf at e
      split at e
      · exact e.elim
      all_goals cases e

end Bpak
