import Verif.Proof.HsDelta
import Verif.Props.Bsdiff
/-!
C26: compressed deltas.
-/
namespace Bpak

theorem inTime (xs : List Bytes) (h : ∀ x ∈ xs, x ≠ []) : InTime xs.flatten.length xs := by
  intro pre x post e
  have hx : x ≠ [] := h x (by rw [e]; simp)
  have := List.length_pos_iff.2 hx
  rw [e, List.flatten_append, List.flatten_cons, List.length_append, List.length_append]
  omega

/-- C26: for every origin and new file (below 2^63 bytes), every match search that answers within range, and every output
place, making the compressed delta succeeds; it writes some `z` at its output place and reports its size; and `z`, cut
in any way into non-empty chunks and fed to the decoder with the same origin and the size of `z` announced, makes the
decoder write exactly the new file, whatever the size of its work buffer. -/
theorem C26_compressed_diff_then_patch (o n f g : Bytes) (zOff outOff bufLen : Nat) (hb : 0 < bufLen) (ho : o.length < 2^63) (hn : n.length < 2^63)
    (srch : Int → Option (Int × Int)) (hs : SearchOk o n srch) :
    ∃ s z, bsdiffHs srch o n zOff g = some (.ok s) ∧ s.file = fileWrite g zOff z ∧ s.pos = z.length ∧
      ∀ xs : List Bytes, xs.flatten = z → (∀ x ∈ xs, x ≠ []) →
        ∃ t, hsRun (patchCfg o 0 outOff bufLen) z.length (HsPatch.init f) xs = .ok t ∧ t.p.out = fileWrite f outOff n ∧ bspatchFinal t.p = some n.length := by
  obtain ⟨bufs, h1, h2⟩ := C23_diff_then_patch o n f outOff bufLen hb ho hn srch hs
  obtain ⟨s, s', z, g1, g2, g3, g4, g5, -⟩ := comp_ok zOff g bufs
  refine ⟨s', z, ?_, g3, g4, ?_⟩
  · unfold bsdiffHs
    rw [h1]
    simp only
    rw [g1]
    simp only
    rw [g2]
  · intro xs hx hne
    subst hx
    obtain ⟨t, k1, k2⟩ := hs_accepts (patchCfg o 0 outOff bufLen) hb xs.flatten.length f xs (inTime xs hne) (fun p => p.out = fileWrite f outOff n ∧ bspatchFinal p = some n.length)
      (fun ys hy => h2 ys (by rw [hy, g5]))
    exact ⟨t, k1, k2⟩

/-- C26: on any compressed input, well-formed or not, the compressed path ends as the plain decoder ends on buffers that
make up the decompressed input (all of it on success, a beginning of it otherwise). -/
theorem C26_like_plain (origin f : Bytes) (originOff : Int) (outOff bufLen inLen : Nat) (hb : 0 < bufLen) (xs : List Bytes)
    (ht : ∀ pre x post, xs = pre ++ x :: post → pre.flatten.length < inLen) :
    ∃ outs : List Bytes, outs.flatten <+: hsExpand xs.flatten ∧
      match bspatchRun (patchCfg origin originOff outOff bufLen) (Patcher.init f) outs with
      | .ok p => outs.flatten = hsExpand xs.flatten ∧ ∃ s, hsRun (patchCfg origin originOff outOff bufLen) inLen (HsPatch.init f) xs = .ok s ∧ s.p = p
      | .fail rc => hsRun (patchCfg origin originOff outOff bufLen) inLen (HsPatch.init f) xs = .fail rc
      | .ub => hsRun (patchCfg origin originOff outOff bufLen) inLen (HsPatch.init f) xs = .ub
      | .hang => False := by
  rcases hs_like_plain (patchCfg origin originOff outOff bufLen) hb inLen f xs ht with ⟨s, outs, h1, h2, h3⟩ | ⟨outs, h1, h2, h3⟩
  · refine ⟨outs, by rw [h2]; exact List.prefix_refl _, ?_⟩
    rw [h3]
    exact ⟨h2, s, h1, rfl⟩
  · refine ⟨outs, h1, ?_⟩
    have h4 := h3 (fun _ => .hang)
    have h5 := run_no_hang (patchCfg origin originOff outOff bufLen) (fileReader_law origin) hb outs _ (PInv.init f)
    revert h2 h4 h5
    cases bspatchRun (patchCfg origin originOff outOff bufLen) (Patcher.init f) outs with
    | ok p => intro h2; exact absurd rfl (h2 p)
    | fail rc => intro _ h4 _; exact h4
    | ub => intro _ h4 _; exact h4
    | hang => intro _ _ h5; exact absurd rfl h5

/-- C51, for the compressed path: the decoder always returns, whatever the input. -/
theorem C51_compressed_terminates (origin f : Bytes) (originOff : Int) (outOff bufLen inLen : Nat) (hb : 0 < bufLen) (xs : List Bytes)
    (ht : ∀ pre x post, xs = pre ++ x :: post → pre.flatten.length < inLen) :
    hsRun (patchCfg origin originOff outOff bufLen) inLen (HsPatch.init f) xs ≠ .hang := by
  obtain ⟨outs, _, h⟩ := C26_like_plain origin f originOff outOff bufLen inLen hb xs ht
  cases hr : bspatchRun (patchCfg origin originOff outOff bufLen) (Patcher.init f) outs with
  | ok p => rw [hr] at h; obtain ⟨_, s, h, _⟩ := h; rw [h]; simp
  | fail rc => rw [hr] at h; simp only at h; rw [h]; simp
  | ub => rw [hr] at h; simp only at h; rw [h]; simp
  | hang => rw [hr] at h; exact h.elim

/-- A write after all announced input is refused. -/
theorem C26_extra_input_refused (c : PatchCfg) (inLen : Nat) (s : HsPatch) (b : Bytes) (h : inLen ≤ s.inPos) : hsWrite c inLen s b = .fail .failed := by
  unfold hsWrite
  rw [if_pos h]

/-- "banana" to "bandana" through both ends, the compressed delta fed byte by byte. -/
example : (match bsdiffHs (searchCall [5, 3, 1, 0, 4, 2, 0] [98, 97, 110, 97, 110, 97] [98, 97, 110, 100, 97, 110, 97]) [98, 97, 110, 97, 110, 97] [98, 97, 110, 100, 97, 110, 97] 0 [] with
    | some (.ok s) =>
      match hsRun (patchCfg [98, 97, 110, 97, 110, 97] 0 0 3) s.file.length (HsPatch.init []) (s.file.map ([·])) with
      | .ok t => t.p.out
      | _ => []
    | _ => []) = [98, 97, 110, 100, 97, 110, 97] := by decide +kernel

end Bpak
