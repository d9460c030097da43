import Verif.Proof.PatchNil
/-! Properties of the patch decoder (C20, C21, C22, C45, C46). -/
namespace Bpak

/-! ### C20 -/

/-- C20: what the encoder writes, the decoder reads, for every magnitude below 2^63; 8 bytes. -/
theorem C20_int_round_trip (x : Int) (h : x.natAbs < 2^63) : (offtout x).length = 8 ∧ offtin (offtout x) = x := by
  refine ⟨rfl, ?_⟩
  rw [offtout_eq x h, offtin_wireInt x h]

/-- C20: the encoder's bytes are the wire format: little-endian magnitude, sign in bit 63. -/
theorem C20_int_wire_format (x : Int) (h : x.natAbs < 2^63) : offtout x = wireInt x := offtout_eq x h

/-- C20: any 8 bytes decode into the range. -/
theorem C20_int_range (b : Bytes) : (offtin b).natAbs < 2^63 := offtin_bound b

example : offtout (-5) = [5, 0, 0, 0, 0, 0, 0, 0x80] := by decide
example : offtin (offtout (-(2^63 - 1))) = -(2^63 - 1) := by decide +kernel

/-! ### C21 -/

/-- C21: for every origin, output file and patch stream, any two ways of cutting the stream into
non-empty chunks have the same outcome: code, bytes written, size, final state. -/
theorem C21_chunking_irrelevant (origin f : Bytes) (originOff : Int) (outOff bufLen : Nat) (hb : 0 < bufLen)
    (xs ys : List Bytes) (hx : ∀ b ∈ xs, b ≠ []) (hy : ∀ b ∈ ys, b ≠ []) (h : xs.flatten = ys.flatten) :
    bspatchRun (patchCfg origin originOff outOff bufLen) (Patcher.init f) xs =
    bspatchRun (patchCfg origin originOff outOff bufLen) (Patcher.init f) ys := by
  have hl : RdLaw (patchCfg origin originOff outOff bufLen).rd := fileReader_law origin
  rw [bspatchRun_eq _ hl hb _ _ (PInv.init f) hx, bspatchRun_eq _ hl hb _ _ (PInv.init f) hy, h]

/-- C21: the work buffer's size makes no difference either. -/
theorem C21_buffer_size_irrelevant (origin f : Bytes) (originOff : Int) (outOff n m : Nat) (hn : 0 < n) (hm : 0 < m)
    (xs : List Bytes) (hx : ∀ b ∈ xs, b ≠ []) :
    bspatchRun (patchCfg origin originOff outOff n) (Patcher.init f) xs =
    bspatchRun (patchCfg origin originOff outOff m) (Patcher.init f) xs := by
  rw [bspatchRun_eq _ (fileReader_law origin) hn _ _ (PInv.init f) hx,
    bspatchRun_eq _ (fileReader_law origin) hm _ _ (PInv.init f) hx]
  generalize xs.flatten = b
  generalize Patcher.init f = p
  induction b generalizing p with
  | nil => rfl
  | cons x b ih =>
    have : byteStep (patchCfg origin originOff outOff n) p x = byteStep (patchCfg origin originOff outOff m) p x := rfl
    unfold foldBytes
    rw [this]
    congr 1; funext q; exact ih q

/-- C51: the decoder always returns: no chunk makes the state machine loop for ever. -/
theorem C51_terminates (origin f : Bytes) (originOff : Int) (outOff bufLen : Nat) (hb : 0 < bufLen)
    (xs : List Bytes) (hx : ∀ b ∈ xs, b ≠ []) :
    bspatchRun (patchCfg origin originOff outOff bufLen) (Patcher.init f) xs ≠ .hang := by
  rw [bspatchRun_eq _ (fileReader_law origin) hb _ _ (PInv.init f) hx]
  exact foldBytes_no_hang _ _ _

/-- two chunkings of one record: 1 byte at a time, and all at once -/
example : bspatchRun (patchCfg [10, 20] 0 0 4) (Patcher.init []) ((encodeRecs [⟨[1, 1], [7], 0⟩]).map ([·])) =
    bspatchRun (patchCfg [10, 20] 0 0 4) (Patcher.init []) [encodeRecs [⟨[1, 1], [7], 0⟩]] := by
  apply C21_chunking_irrelevant _ _ _ _ _ (by decide) <;> decide +kernel

/-! ### C22 -/

/-- C22: for every list of records whose origin reads are in range, and every chunking of its encoding
(empty chunks allowed), the decoder accepts, writes exactly the delta's meaning at the output offset and
reports its size. -/
theorem C22_decoder_applies_records (origin f : Bytes) (originOff : Int) (outOff bufLen : Nat) (hb : 0 < bufLen)
    (rs : List Rec) (hs : ∀ r ∈ rs, r.Small) (out : Bytes) (pos' : Int)
    (ha : applyRecs (fun p n => fileReader origin (originOff + p) n) 0 rs = some (out, pos'))
    (xs : List Bytes) (hx : xs.flatten = encodeRecs rs) :
    ∃ p, bspatchRun (patchCfg origin originOff outOff bufLen) (Patcher.init f) xs = .ok p ∧
      p.out = fileWrite f outOff out ∧ bspatchFinal p = some out.length := by
  have hl : RdLaw (patchCfg origin originOff outOff bufLen).rd := fileReader_law origin
  obtain ⟨p, e, hp, q, hq, q1, _, _, q4, q5, q6, q7⟩ :=
    foldBytes_recs (patchCfg origin originOff outOff bufLen) hl f rs hs 0 [] (Patcher.init f) (ready_init _ f) out pos' ha
  rw [List.nil_append] at q4 q5
  by_cases hnil : touch (patchCfg origin originOff outOff bufLen) p = .ok q
  · rcases bspatchRun_any _ hl hb _ p q xs (PInv.init f) (by rw [hx]; exact e) hnil with h | h
    · refine ⟨p, h, by rw [q7, q5]; rfl, ?_⟩
      unfold bspatchFinal
      rw [if_neg hp.noerr, q6, q4]
    · refine ⟨q, h, q5, ?_⟩
      unfold bspatchFinal
      rw [if_neg (by rw [q1]; simp), q4]
  · exfalso
    apply hnil
    unfold settle at hq
    unfold touch
    split at hq
    · rename_i hs
      rw [if_pos hs]
      split at hq
      · cases hq
      · rename_i hd
        rw [if_neg hd]
        split at hq
        · split at hq
          · cases hq
          · rename_i o ho
            rw [ho]; exact hq
        · cases hq
          rw [hs] at q1; cases q1
    · rename_i hs
      rw [if_neg hs]; exact hq

/-- a delta with a seek back: 2 diff bytes, one literal, seek to 0, one diff byte -/
example : ∃ p, bspatchRun (patchCfg [10, 20] 0 3 4) (Patcher.init []) [encodeRecs [⟨[1, 255], [7], -2⟩, ⟨[5], [], 0⟩]] = .ok p ∧
    p.out = fileWrite [] 3 [11, 19, 7, 15] ∧ bspatchFinal p = some 4 :=
  C22_decoder_applies_records [10, 20] [] 0 3 4 (by decide) [⟨[1, 255], [7], -2⟩, ⟨[5], [], 0⟩] (by simp [Rec.Small]) _ 1 (by decide +kernel) _ (by simp)

/-! ### C45 -/

/-- C45 is false as stated: a control header with a negative diff length makes the decoder use a
negative length as a size (lib/bspatch.c:106-117). -/
theorem C45_memory_safe_is_false :
    ¬ ∀ (origin : Bytes) (xs : List Bytes), (∀ b ∈ xs, b ≠ []) →
      bspatchRun (patchCfg origin 0 0 4096) (Patcher.init []) xs ≠ .ub := by
  intro h
  refine h [1] [wireInt (-1) ++ wireInt 0 ++ wireInt 0 ++ [0]] (by decide +kernel) ?_
  decide +kernel

/-- C45, the part that holds: if no control header reached in the stream has a negative diff length, no
chunking makes the decoder leave its buffers. Missing: streams with such a header, for which it is false. -/
theorem C45_memory_safe_partial (origin f : Bytes) (originOff : Int) (outOff bufLen : Nat) (hb : 0 < bufLen)
    (xs : List Bytes) (hx : ∀ b ∈ xs, b ≠ []) (h : CtrlOk xs.flatten) :
    bspatchRun (patchCfg origin originOff outOff bufLen) (Patcher.init f) xs ≠ .ub := by
  rw [bspatchRun_eq _ (fileReader_law origin) hb _ _ (PInv.init f) hx]
  exact safe_fold ⟨by simp [Patcher.init], by simpa [Patcher.init] using h⟩

/-- an arbitrary stream: the extra length is -1 and the origin is too short -/
example : CtrlOk (wireInt 1 ++ wireInt (-1) ++ wireInt 9 ++ [3, 4, 5]) :=
  .record _ (by decide +kernel) (by decide +kernel) (.short _ (by decide +kernel))

/-! ### C46 -/

/-- C46: the decoder itself does not notice truncation: a record cut after its first diff byte is
accepted and the final call reports success. -/
theorem C46_truncation_not_reported :
    ∃ (p : Patcher), bspatchRun (patchCfg [10, 20] 0 0 4096) (Patcher.init []) [(encodeRecs [⟨[1, 1], [7], 0⟩]).take 25] = .ok p ∧
      bspatchFinal p = some 1 := by
  refine ⟨⟨.applyDiff, wireInt 2 ++ wireInt 1 ++ wireInt 0, 1, 1, 0, 1, 1, [11]⟩, ?_, ?_⟩ <;> decide +kernel

/-- C46: if a whole stream is accepted then every prefix is; its output is a prefix of the whole output,
written at the same place; and if the sizes agree the output files agree. So a caller that compares the
reported size with the expected one never accepts a wrong result of a truncated patch. -/
theorem C46_truncated_output_is_prefix (origin f : Bytes) (originOff : Int) (outOff bufLen : Nat) (hb : 0 < bufLen)
    (xs ys : List Bytes) (hx : ∀ b ∈ xs, b ≠ []) (hy : ∀ b ∈ ys, b ≠ []) (hpre : ys.flatten <+: xs.flatten) (p : Patcher)
    (h : bspatchRun (patchCfg origin originOff outOff bufLen) (Patcher.init f) xs = .ok p) :
    ∃ (q : Patcher) (w w' : Bytes),
      bspatchRun (patchCfg origin originOff outOff bufLen) (Patcher.init f) ys = .ok q ∧
      p.out = fileWrite f outOff w ∧ bspatchFinal p = some w.length ∧
      q.out = fileWrite f outOff w' ∧ bspatchFinal q = some w'.length ∧ w' <+: w ∧
      (bspatchFinal q = bspatchFinal p → q.out = p.out) := by
  have hl : RdLaw (patchCfg origin originOff outOff bufLen).rd := fileReader_law origin
  rw [bspatchRun_eq _ hl hb _ _ (PInv.init f) hx] at h
  rw [bspatchRun_eq _ hl hb _ _ (PInv.init f) hy]
  obtain ⟨t, ht⟩ := hpre
  rw [← ht] at h
  obtain ⟨q, h1, h2⟩ := foldBytes_prefix h
  have i1 := foldBytes_inv (PInv.init f) h1
  have i2 := foldBytes_inv i1 h2
  obtain ⟨w1, a1, b1⟩ := foldBytes_out hl h1
  obtain ⟨w2, a2, b2⟩ := foldBytes_out hl h2
  have z1 : (Patcher.init f).outPos = 0 := rfl
  have z2 : (Patcher.init f).out = f := rfl
  have z3 : (patchCfg origin originOff outOff bufLen).outOff = outOff := rfl
  rw [z1, Nat.zero_add] at a1
  rw [z1, z2, z3, Nat.add_zero] at b1
  rw [a1, b1, z3, fileWrite_append] at b2
  rw [a1] at a2
  have f1 : bspatchFinal q = some w1.length := by unfold bspatchFinal; rw [if_neg i1.noerr, a1]
  have f2 : bspatchFinal p = some (w1 ++ w2).length := by unfold bspatchFinal; rw [if_neg i2.noerr, a2, List.length_append]
  refine ⟨q, w1 ++ w2, w1, h1, b2, f2, b1, f1, List.prefix_append _ _, ?_⟩
  intro he
  rw [f1, f2, List.length_append] at he
  have : w2 = [] := by
    simp only [Option.some.injEq] at he
    apply List.eq_nil_of_length_eq_zero; omega
  rw [b2, b1, this, List.append_nil]

end Bpak
