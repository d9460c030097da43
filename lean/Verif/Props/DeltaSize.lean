import Verif.Proof.DeltaSize
/-!
C63, C64: how large compressed data and deltas can get.
-/
namespace Bpak

/-- C63: the compressor's output, for any data in any buffers, is at most 9 bits for each byte, rounded up to whole bytes. -/
theorem C63_compressed_size (off : Nat) (f : Bytes) (bufs : List Bytes) :
    ∃ s s', compRun off (HsComp.init f) bufs = .ok s ∧ compFinalGo off 3 s = .ok s' ∧ 8 * s'.pos ≤ 9 * bufs.flatten.length + 7 := by
  obtain ⟨s, s', z, h1, h2, _, h4, _, h6⟩ := comp_ok off f bufs
  exact ⟨s, s', h1, h2, by rw [h4]; exact h6⟩

/-- C64: a delta has at most 25 bytes for each byte of the new file, and 24 more, whatever the origin and the matches found. -/
theorem C64_delta_size (o n : Bytes) (ho : o.length < 2^63) (hn : n.length < 2^63) (srch : Int → Option (Int × Int)) (hs : SearchOk o n srch) :
    ∃ bufs, bsdiffWith srch o n = some bufs ∧ bufs.flatten.length ≤ 25 * n.length + 24 := by
  obtain ⟨bufs, _, _, h, _⟩ := bsdiffWith_spec o n ho hn srch hs
  exact ⟨bufs, h, bsdiffWith_size o n ho hn srch hs bufs h⟩

/-- C64: a compressed delta has at most 29 bytes for each byte of the new file, and 28 more. -/
theorem C64_compressed_delta_size (o n f : Bytes) (off : Nat) (ho : o.length < 2^63) (hn : n.length < 2^63) (srch : Int → Option (Int × Int)) (hs : SearchOk o n srch) :
    ∃ s, bsdiffHs srch o n off f = some (.ok s) ∧ s.pos ≤ 29 * n.length + 28 := by
  obtain ⟨bufs, h, hl⟩ := C64_delta_size o n ho hn srch hs
  obtain ⟨s, s', h1, h2, h3⟩ := C63_compressed_size off f bufs
  refine ⟨s', ?_, by omega⟩
  unfold bsdiffHs
  rw [h]
  simp only
  rw [h1]
  simp only
  rw [h2]

/-- The hypotheses of C64 are met: any files below 2^63 bytes, and a search that finds nothing. -/
example (o n : Bytes) : SearchOk o n (fun _ => some (0, 0)) := fun scan h1 h2 => ⟨0, 0, rfl, by omega, by omega, by omega, by omega⟩

/-- Some data does grow: 8 different bytes give 9. -/
example : (match compRun 0 (HsComp.init []) [[1,2,3,4,5,6,7,8]] with | .ok s => (match compFinalGo 0 3 s with | .ok s => s.pos | _ => 0) | _ => 0) = 9 := by decide +kernel

end Bpak
