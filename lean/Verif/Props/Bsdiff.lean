import Verif.Proof.Bsdiff
import Verif.Props.Patch
/-! Properties of the delta encoder (C23). -/
namespace Bpak

/-- C23: for every origin and new file (below 2^63 bytes) and every match search that answers with a
length within the remaining new data and a position within the origin, the encoder finishes without
leaving its arrays, and the emitted bytes, cut in any way into chunks (empty ones allowed) and fed to the
decoder with the same origin, make the decoder write exactly the new file and report its size. -/
theorem C23_diff_then_patch (o n f : Bytes) (outOff bufLen : Nat) (hb : 0 < bufLen) (ho : o.length < 2^63) (hn : n.length < 2^63)
    (srch : Int → Option (Int × Int)) (hs : SearchOk o n srch) :
    ∃ bufs, bsdiffWith srch o n = some bufs ∧
      ∀ xs : List Bytes, xs.flatten = bufs.flatten →
        ∃ p, bspatchRun (patchCfg o 0 outOff bufLen) (Patcher.init f) xs = .ok p ∧
          p.out = fileWrite f outOff n ∧ bspatchFinal p = some n.length := by
  obtain ⟨bufs, rs, q, h1, h2, h3, h4⟩ := bsdiffWith_spec o n ho hn srch hs
  refine ⟨bufs, h1, ?_⟩
  intro xs hx
  refine C22_decoder_applies_records o f 0 outOff bufLen hb rs h2 n q ?_ xs (by rw [hx, h3])
  simpa using h4

/-- The encoder's own search, over an array with an entry for index `|o|` and entries within the origin:
the delta restores the new file. Sizes below 2 GiB, where `matchlen`'s 32-bit result is exact.
The suffix array is otherwise arbitrary. Missing: the array the code allocates has only `|o|` entries. -/
theorem C23_own_search_partial (o n f : Bytes) (outOff bufLen : Nat) (hb : 0 < bufLen) (ho : o.length < 2^63) (hn : n.length < 2^31)
    (sa : List Int) (hl : sa.length = o.length + 1) (hsa : ∀ p ∈ sa, 0 ≤ p ∧ p ≤ o.length) :
    ∃ bufs, bsdiff sa o n = some bufs ∧
      ∀ xs : List Bytes, xs.flatten = bufs.flatten →
        ∃ p, bspatchRun (patchCfg o 0 outOff bufLen) (Patcher.init f) xs = .ok p ∧
          p.out = fileWrite f outOff n ∧ bspatchFinal p = some n.length :=
  C23_diff_then_patch o n f outOff bufLen hb ho (by omega) _ (searchCall_ok sa o n hn hl hsa)

/-- The array as allocated (`bpak_calloc(origin_length, …)`, lib/bsdiff.c:630) is one entry short: for an
origin of at most one byte every encoding of a non-empty file reads past its end. -/
theorem C23_suffix_array_too_short (sa : List Int) (o n : Bytes) (hl : sa.length = o.length) (h1 : o.length ≤ 1) (hn : n ≠ []) :
    bsdiff sa o n = none := by
  have hn' := List.length_pos_iff.2 hn
  have hs : searchCall sa o n 0 = none := by
    unfold searchCall search
    rw [if_pos (by omega), if_pos (by omega)]
    have : suffixAt sa o o.length = none := by
      unfold suffixAt
      rw [List.getElem?_eq_none (by omega)]
    rw [this]
    split
    · rename_i h; cases h
    · rfl
  unfold bsdiff bsdiffWith diffLoop
  simp only
  rw [if_pos (by omega)]
  unfold diffRound
  have : ((n.length : Int) - (0 + 0)).toNat = (n.length - 1) + 1 := by omega
  simp only [this]
  unfold scanGo
  simp [hs]

/-- the hypotheses are met by a search that finds nothing, and by a real array -/
example (o n : Bytes) : SearchOk o n (fun _ => some (0, 0)) := fun scan _ _ => ⟨0, 0, rfl, by omega, by omega, by omega, by omega⟩

/-- "banana" against "bandana": the sorted suffixes with a spare zero entry -/
example : (bsdiff [5, 3, 1, 0, 4, 2, 0] [98, 97, 110, 97, 110, 97] [98, 97, 110, 100, 97, 110, 97]).isSome = true := by
  decide +kernel

end Bpak
