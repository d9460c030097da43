import Verif.Proof.HsDecRun
/-!
C24, C50: the decompressor under every schedule of calls.
-/
namespace Bpak

/-- A call to the decompressor: some input is offered, or output is asked for with a buffer of `cap` bytes. -/
inductive DAct where
  | sink (d : Bytes)
  | poll (cap : Nat)
  deriving DecidableEq, Repr

/-- What happened so far: the decompressor, the input it accepted, the output it gave, and whether the last call was a
poll that reported that there is no more (`HSDR_POLL_EMPTY`). -/
structure DTrace where
  dec : HsDec
  taken : Bytes
  out : Bytes
  drained : Bool
  deriving DecidableEq, Repr

/-- A schedule of calls. -/
def decRun (t : DTrace) : List DAct → Option (Out DTrace)
  | [] => some (.ret t)
  | .sink d :: as =>
    match decSink t.dec d with
    | .ub => some .ub
    | .ret (n, s) => decRun ⟨s, t.taken ++ d.take n, t.out, false⟩ as
  | .poll cap :: as =>
    match decPoll t.dec cap with
    | none => none
    | some .ub => some .ub
    | some (.ret (more, s, e)) => decRun ⟨s, t.taken, t.out ++ e, !more⟩ as

def DTrace.start : DTrace := ⟨HsDec.reset, [], [], false⟩

/-- The invariant of schedules. -/
structure TInv (t : DTrace) : Prop where
  inv : HDInv t.dec
  win : Win t.dec (zeros256 ++ t.out)
  final : ∀ fut, HsDec.reset.final zeros256 (bitsOf t.taken ++ fut) = t.dec.final (zeros256 ++ t.out) fut
  drain : t.drained = true → t.dec.final (zeros256 ++ t.out) [] = zeros256 ++ t.out

theorem TInv.start : TInv DTrace.start :=
  ⟨HDInv.reset, by simpa [DTrace.start] using win_reset, fun fut => by simp [DTrace.start, bitsOf], by simp [DTrace.start]⟩

theorem TInv.sink {t : DTrace} (i : TInv t) (d : Bytes) : ∃ n s, decSink t.dec d = .ret (n, s) ∧ n = min d.length (256 - t.dec.inputSize) ∧
    TInv ⟨s, t.taken ++ d.take n, t.out, false⟩ := by
  obtain ⟨n, s, h1, h2, h3, h4, h5, h6⟩ := sink_ok t.dec i.inv _ i.win d
  refine ⟨n, s, h1, h2, h3, h4, ?_, by simp⟩
  intro fut
  simp only
  rw [bitsOf_append, List.append_assoc, i.final]
  have := h6
  have h7 := sink_ok t.dec i.inv _ i.win (d.take n)
  obtain ⟨n', s', g1, g2, g3, g4, g5, g6⟩ := h7
  have hl : (d.take n).length = n := by rw [List.length_take]; omega
  have hn : n' = n := by rw [g2, hl]; omega
  subst hn
  have : s' = s := by
    unfold decSink at h1 g1
    simp only at h1 g1
    split at h1
    · rename_i h0
      rw [if_pos h0] at g1
      injection g1 with g1; injection h1 with h1
      rw [← (Prod.mk.inj g1).2, ← (Prod.mk.inj h1).2]
    · rename_i h0
      rw [if_neg h0] at g1
      have e1 : (if 256 - t.dec.inputSize < d.length then 256 - t.dec.inputSize else d.length) = n' := by split <;> omega
      have e2 : (if 256 - t.dec.inputSize < (d.take n').length then 256 - t.dec.inputSize else (d.take n').length) = n' := by rw [hl]; split <;> omega
      rw [e1] at h1
      rw [e2, List.take_take, Nat.min_self] at g1
      rw [h1] at g1
      injection g1 with g1
      exact ((Prod.mk.inj g1).2).symm
  subst this
  rw [g6, List.drop_of_length_le (by omega)]
  rfl

theorem TInv.poll {t : DTrace} (i : TInv t) (cap : Nat) : ∃ more s e, decPoll t.dec cap = some (.ret (more, s, e)) ∧ e.length ≤ cap ∧
    (more = true → e.length = cap) ∧ (more = false → e.length < cap) ∧ (more = false → decFinish s = true) ∧ TInv ⟨s, t.taken, t.out ++ e, !more⟩ := by
  obtain ⟨more, s, e, h1, h2, h3, h4, h5, h6, h7⟩ := poll_ok t.dec i.inv _ i.win cap
  have hfin : more = false → decFinish s = true := by
    intro h
    obtain ⟨_, _, g1, g2⟩ := h7 h
    unfold decFinish
    split
    · exact absurd ‹_› g2
    · exact decide_eq_true g1
  refine ⟨more, s, e, h1, h4, h6, fun h => (h7 h).1, hfin, h2, by rw [← List.append_assoc]; exact h3, ?_, ?_⟩
  · intro fut
    simp only
    rw [i.final, h5, List.append_assoc]
  · intro h
    simp only at h ⊢
    have := (h7 (by simpa using h)).2.1
    rw [List.append_assoc] at this
    exact this

theorem run_ok : ∀ (as : List DAct) (t : DTrace), TInv t → ∃ t', decRun t as = some (.ret t') ∧ TInv t' := by
  intro as
  induction as with
  | nil => intro t i; exact ⟨t, rfl, i⟩
  | cons a as ih =>
    intro t i
    cases a with
    | sink d =>
      obtain ⟨n, s, h1, _, h2⟩ := i.sink d
      unfold decRun
      rw [h1]
      exact ih _ h2
    | poll cap =>
      obtain ⟨more, s, e, h1, _, _, _, _, h2⟩ := i.poll cap
      unfold decRun
      rw [h1]
      exact ih _ h2

/-- C24: whatever the schedule of calls, and whatever the input, the output is a beginning of the decompression of the
input accepted so far, and all of it when the last poll reported that there is no more. -/
theorem C24_decode (as : List DAct) : ∃ t, decRun DTrace.start as = some (.ret t) ∧ t.out <+: hsExpand t.taken ∧
    (t.drained = true → t.out = hsExpand t.taken) := by
  obtain ⟨t, h, i⟩ := run_ok as _ TInv.start
  have hf := i.final []
  rw [List.append_nil, reset_final] at hf
  refine ⟨t, h, ?_, ?_⟩
  · have := final_prefix t.dec (zeros256 ++ t.out) []
    rw [← hf] at this
    exact (List.prefix_append_right_inj _).1 this
  · intro hd
    rw [i.drain hd] at hf
    exact (List.append_cancel_left hf).symm

/-- C24: two schedules that got the same input accepted and emptied the decompressor gave the same output. -/
theorem C24_schedules_agree (as bs : List DAct) (t u : DTrace) (ht : decRun DTrace.start as = some (.ret t)) (hu : decRun DTrace.start bs = some (.ret u))
    (h : t.taken = u.taken) (dt : t.drained = true) (du : u.drained = true) : t.out = u.out := by
  obtain ⟨t', h1, _, h2⟩ := C24_decode as
  obtain ⟨u', g1, _, g2⟩ := C24_decode bs
  rw [ht] at h1
  rw [hu] at g1
  injection h1 with h1; injection h1 with h1; injection g1 with g1; injection g1 with g1
  subst h1; subst g1
  rw [h2 dt, g2 du, h]

/-- C24: progress. After any schedule, a poll fills its buffer or reports that there is no more; and when a poll said so,
the next offer of input is accepted up to 256 bytes. -/
theorem C24_progress (as : List DAct) (t : DTrace) (ht : decRun DTrace.start as = some (.ret t)) (cap : Nat) :
    ∃ more s e, decPoll t.dec cap = some (.ret (more, s, e)) ∧ (more = true → e.length = cap) ∧ (more = false → e.length < cap) ∧
      (more = false → ∀ d, ∃ s', decSink s d = .ret (min d.length 256, s')) := by
  obtain ⟨t', h, i⟩ := run_ok as _ TInv.start
  rw [ht] at h
  injection h with h; injection h with h
  subst h
  obtain ⟨more, s, e, h1, h2, h3, h4, h5, h6, h7⟩ := poll_ok t.dec i.inv _ i.win cap
  refine ⟨more, s, e, h1, h6, fun h => (h7 h).1, ?_⟩
  intro hm d
  obtain ⟨n, s', g1, g2, _⟩ := sink_ok s h2 _ h3 d
  rw [(h7 hm).2.2.1] at g2
  rw [g2] at g1
  exact ⟨s', g1⟩

/-- C50: whatever the input and the schedule, no call reads or writes outside the decompressor's buffers or the caller's
output buffer (the model's accesses are all checked), every call returns, polls give at most `cap` bytes, and
the counters keep far below the limits of their C types. -/
theorem C50_memory_safe (as : List DAct) : ∃ t, decRun DTrace.start as = some (.ret t) ∧
    (∀ d, ∃ r, decSink t.dec d = .ret r ∧ r.1 ≤ d.length) ∧
    (∀ cap, ∃ more s e, decPoll t.dec cap = some (.ret (more, s, e)) ∧ e.length ≤ cap) ∧
    t.dec.buf.length = 512 ∧ t.dec.inputIndex ≤ t.dec.inputSize ∧ t.dec.inputSize ≤ 256 ∧
    (t.dec.st = .countLsb ∨ t.dec.st = .backref → t.dec.outIndex ≤ 256) ∧ (t.dec.st = .backref → t.dec.outCount ≤ 128) := by
  obtain ⟨t, h, i⟩ := run_ok as _ TInv.start
  refine ⟨t, h, ?_, ?_, i.inv.buf, i.inv.index, i.inv.size, fun h => (i.inv.idx h).2, fun h => (i.inv.cnt h).2⟩
  · intro d
    obtain ⟨n, s, h1, h2, _⟩ := i.sink d
    exact ⟨(n, s), h1, by simp only; omega⟩
  · intro cap
    obtain ⟨more, s, e, h1, h2, _⟩ := i.poll cap
    exact ⟨more, s, e, h1, h2⟩

/-- A stream with a byte ('a' twice) and a repetition that runs into itself, polled one byte at a time after each byte of input. -/
example : (decRun DTrace.start ([0xb0, 0xd8, 0x40, 0x00, 0x80].flatMap (fun c => [.sink [c], .poll 1, .poll 1, .poll 1, .poll 9]))).map (fun r =>
    match r with | .ret t => (t.out, t.drained) | .ub => ([], false)) = some ([0x61, 0x61, 0x61, 0x61, 0x61], true) := by decide +kernel

end Bpak
