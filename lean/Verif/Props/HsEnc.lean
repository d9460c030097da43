import Verif.Proof.HsEncRun
import Verif.Props.HsDec
/-!
C25: the compressor under every schedule of calls, and the round trip through the decompressor.
-/
namespace Bpak

/-- A call to the compressor: some input is offered, output is asked for with a buffer of `cap` bytes, or the end of the
input is announced. -/
inductive EAct where
  | sink (d : Bytes)
  | poll (cap : Nat)
  | finish
  deriving DecidableEq, Repr

/-- What happened so far: the compressor, the input it accepted, the output it gave, and whether it reported that all
output is out (`HSER_FINISH_DONE`). -/
structure ETrace where
  enc : HsEnc
  taken : Bytes
  out : Bytes
  done : Bool
  deriving DecidableEq, Repr

/-- A schedule of calls. Calls that the compressor refuses as misuse change nothing. -/
def encRun (t : ETrace) : List EAct → Option (Out ETrace)
  | [] => some (.ret t)
  | .sink d :: as =>
    match encSink t.enc d with
    | .ub => some .ub
    | .ret none => encRun t as
    | .ret (some (n, s)) => encRun ⟨s, t.taken ++ d.take n, t.out, t.done⟩ as
  | .poll cap :: as =>
    match encPollCall t.enc cap with
    | none => none
    | some .ub => some .ub
    | some (.ret none) => encRun t as
    | some (.ret (some (_, s, e))) => encRun ⟨s, t.taken, t.out ++ e, t.done⟩ as
  | .finish :: as => encRun ⟨(encFinish t.enc).2, t.taken, t.out, t.done || (encFinish t.enc).1⟩ as

def ETrace.start : ETrace := ⟨HsEnc.reset, [], [], false⟩

/-- The invariant of schedules. -/
structure ETInv (t : ETrace) : Prop where
  inv : EInv t.enc (zeros256 ++ t.taken) t.out
  save : t.enc.st ≠ .saveBacklog
  done : t.done = true → t.enc.st = .done

theorem ETInv.start : ETInv ETrace.start :=
  ⟨by simpa [ETrace.start] using EInv.reset, (by intro h; cases h), by simp [ETrace.start]⟩

theorem encPoll_done (s : HsEnc) (cap : Nat) (h : s.st = .done) : encPoll s cap = some (.ret (false, s, [])) := by
  unfold encPoll
  rw [show (4096 : Nat) = 4095 + 1 from rfl]
  unfold encPollGo encStep
  simp only [h]

theorem ETInv.sink {t : ETrace} (i : ETInv t) (d : Bytes) :
    encSink t.enc d = .ret none ∨ (∃ n s, encSink t.enc d = .ret (some (n, s)) ∧ n = min d.length (256 - t.enc.inputSize) ∧ t.enc.inputSize < 256 ∧
      ETInv ⟨s, t.taken ++ d.take n, t.out, t.done⟩) := by
  by_cases h : t.enc.st = .notFull
  · right
    obtain ⟨n, s, h1, h2, h3, h4, _, h6⟩ := esink_ok t.enc _ _ i.inv d h
    refine ⟨n, s, h1, h2, h3, by rw [← List.append_assoc]; exact h4, ?_, ?_⟩
    · rcases h6 with h | h <;> simp [h]
    · intro hd
      have := i.done hd
      rw [h] at this; cases this
  · exact Or.inl (esink_refused _ d (Or.inl h))

theorem ETInv.poll {t : ETrace} (i : ETInv t) (cap : Nat) : ∃ more s e, encPoll t.enc cap = some (.ret (more, s, e)) ∧ e.length ≤ cap ∧
    (more = true → e.length = cap) ∧ (more = false → s.st = .notFull ∨ s.st = .done ∨ (s.st = .flushBits ∧ e.length = cap)) ∧
    e.length + s.measure ≤ t.enc.measure ∧ s.finishing = t.enc.finishing ∧ ETInv ⟨s, t.taken, t.out ++ e, t.done⟩ := by
  obtain ⟨more, s, e, h1, h2, h3, h4, h5, h6, h7, h8⟩ := epoll_ok t.enc _ _ i.inv cap
  refine ⟨more, s, e, h1, h3, h5, h6, h7, h4, h2, h8, ?_⟩
  intro hd
  have hd := i.done hd
  rw [encPoll_done _ _ hd] at h1
  injection h1 with h1; injection h1 with h1
  simp only
  rw [← (Prod.mk.inj (Prod.mk.inj h1).2).1]
  exact hd

theorem ETInv.finish {t : ETrace} (i : ETInv t) : ETInv ⟨(encFinish t.enc).2, t.taken, t.out, t.done || (encFinish t.enc).1⟩ := by
  obtain ⟨h1, h2, h3, h4, h5⟩ := efinish_ok t.enc _ _ i.inv i.save
  refine ⟨h1, ?_, ?_⟩
  · simp only
    by_cases h : t.enc.st = .notFull
    · unfold encFinish; simp only; rw [if_pos h]; simp
    · rw [h5 h]; exact i.save
  · intro h
    simp only [Bool.or_eq_true] at h ⊢
    rcases h with h | h
    · have := i.done h
      rw [h5 (by rw [this]; simp)]; exact this
    · exact h4.1 h

theorem erun_ok : ∀ (as : List EAct) (t : ETrace), ETInv t → ∃ t', encRun t as = some (.ret t') ∧ ETInv t' := by
  intro as
  induction as with
  | nil => intro t i; exact ⟨t, rfl, i⟩
  | cons a as ih =>
    intro t i
    cases a with
    | sink d =>
      unfold encRun
      rcases i.sink d with h | ⟨n, s, h1, _, _, h2⟩
      · rw [h]; exact ih _ i
      · rw [h1]; exact ih _ h2
    | poll cap =>
      unfold encRun encPollCall
      by_cases h0 : cap = 0
      · rw [if_pos h0]; exact ih _ i
      · rw [if_neg h0]
        obtain ⟨more, s, e, h1, _, _, _, _, _, h2⟩ := i.poll cap
        rw [h1]
        exact ih _ h2
    | finish => unfold encRun; exact ih _ i.finish

theorem encRun_append (as bs : List EAct) (t : ETrace) : encRun t (as ++ bs) =
    (match encRun t as with | none => none | some .ub => some .ub | some (.ret u) => encRun u bs) := by
  induction as generalizing t with
  | nil => rfl
  | cons a as ih =>
    cases a with
    | sink d =>
      simp only [List.cons_append]
      rw [encRun, encRun]
      split <;> simp_all
    | poll cap =>
      simp only [List.cons_append]
      rw [encRun, encRun]
      split <;> simp_all
    | finish =>
      simp only [List.cons_append]
      rw [encRun, encRun]
      exact ih _

/-- C25: whatever the schedule of calls and the input, the compressor works inside its buffers, every call returns, and
once it reports that it is done its output decompresses to the input it accepted. -/
theorem C25_encode (as : List EAct) : ∃ t, encRun ETrace.start as = some (.ret t) ∧ (t.done = true → hsExpand t.out = t.taken) := by
  obtain ⟨t, h, i⟩ := erun_ok as _ ETInv.start
  exact ⟨t, h, fun hd => done_expand t.enc _ _ i.inv (i.done hd)⟩

/-- C25: compression, then decompression, each under any schedule of calls. -/
theorem C25_round_trip (as : List EAct) (bs : List DAct) (t : ETrace) (u : DTrace) (ht : encRun ETrace.start as = some (.ret t)) (hu : decRun DTrace.start bs = some (.ret u))
    (hd : t.done = true) (hall : u.taken = t.out) (hdr : u.drained = true) : u.out = t.taken := by
  obtain ⟨t', h1, h2⟩ := C25_encode as
  obtain ⟨u', g1, _, g2⟩ := C24_decode bs
  rw [ht] at h1
  rw [hu] at g1
  injection h1 with h1; injection h1 with h1; injection g1 with g1; injection g1 with g1
  subst h1; subst g1
  rw [g2 hdr, hall, h2 hd]

/-- C25: progress. After any schedule, finish, one poll with 4096 bytes of room and finish again report that it is done,
and no input is lost or added on the way. -/
theorem C25_finishes (as : List EAct) (t : ETrace) (ht : encRun ETrace.start as = some (.ret t)) :
    ∃ u, encRun ETrace.start (as ++ [.finish, .poll 4096, .finish]) = some (.ret u) ∧ u.done = true ∧ u.taken = t.taken := by
  obtain ⟨t', h, i⟩ := erun_ok as _ ETInv.start
  rw [ht] at h
  injection h with h; injection h with h
  subst h
  rw [encRun_append, ht]
  simp only
  have i1 := i.finish
  have hf : (encFinish t.enc).2.finishing = true := rfl
  obtain ⟨more, s, e, h1, h2, h3, h4, h5, h6, i2⟩ := i1.poll 4096
  have hm := emeasure_le _ i1.inv.base.size
  have hno : more = false := by
    cases more with
    | false => rfl
    | true => have := h3 rfl; simp only at h5 hm this; omega
  have hdone : s.st = .done := by
    rcases h4 hno with h | h | ⟨_, h⟩
    · obtain ⟨_, ts, B, _, hmode, _⟩ := i2.inv
      unfold EMode at hmode
      simp only [h] at hmode
      simp only at h6
      rw [hmode.2.2.2.1, hf] at h6
      cases h6
    · exact h
    · simp only at h5 hm h; omega
  rw [encRun, encRun]
  unfold encPollCall
  rw [if_neg (by omega)]
  simp only at h1 ⊢
  rw [h1]
  simp only
  rw [encRun, encRun]
  refine ⟨_, rfl, ?_, rfl⟩
  unfold encFinish
  simp [hdone]

/-- C25: progress. When a poll before the end of the input reported that there is no more (`HSER_POLL_EMPTY`), the next
offer of input is accepted, at least one byte of it. -/
theorem C25_accepts (as : List EAct) (t : ETrace) (ht : encRun ETrace.start as = some (.ret t)) (hf : t.enc.finishing = false) (cap : Nat) (s : HsEnc) (e : Bytes)
    (hp : encPollCall t.enc cap = some (.ret (some (false, s, e)))) (c : U8) (d : Bytes) :
    ∃ n s', encSink s (c :: d) = .ret (some (n, s')) ∧ 1 ≤ n ∧ n ≤ (c :: d).length := by
  obtain ⟨t', h, i⟩ := erun_ok as _ ETInv.start
  rw [ht] at h
  injection h with h; injection h with h
  subst h
  obtain ⟨more, s1, e1, h1, h2, h3, h4, h5, h6, i2⟩ := i.poll cap
  unfold encPollCall at hp
  split at hp
  · injection hp with hp; injection hp with hp; cases hp
  · rw [h1] at hp
    simp only at hp
    injection hp with hp; injection hp with hp; injection hp with hp
    have hp2 := Prod.mk.inj (Prod.mk.inj hp).2
    have hm := (Prod.mk.inj hp).1
    obtain ⟨rfl, rfl⟩ := hp2
    have hnf : s1.st = .notFull := by
      have hfin : s1.st = .done ∨ s1.st = .flushBits → False := by
        intro h
        obtain ⟨_, ts, B, _, hmode, _⟩ := i2.inv
        unfold EMode at hmode
        rcases h with h | h <;> simp only [h] at hmode <;> rw [hf, hmode.2.1] at h6 <;> cases h6
      rcases h4 hm with h | h | ⟨h, _⟩
      · exact h
      · exact absurd (Or.inl h) hfin
      · exact absurd (Or.inr h) hfin
    obtain ⟨n, s', g1, g2, g3, _⟩ := esink_ok s1 _ _ i2.inv (c :: d) hnf
    exact ⟨n, s', g1, by rw [g2]; simp only [List.length_cons]; omega, by rw [g2]; omega⟩

/-- C25: polls keep to the room they are given, and the compressor's indices stay inside its buffer, so the C counters
(16 bits) do not wrap. -/
theorem C25_memory_safe (as : List EAct) : ∃ t, encRun ETrace.start as = some (.ret t) ∧ t.enc.buf.length = 512 ∧ t.enc.scan ≤ t.enc.inputSize ∧ t.enc.inputSize ≤ 256 ∧
    (∀ cap, ∃ more s e, encPoll t.enc cap = some (.ret (more, s, e)) ∧ e.length ≤ cap) := by
  obtain ⟨t, h, i⟩ := erun_ok as _ ETInv.start
  refine ⟨t, h, i.inv.base.buf, i.inv.base.scan, i.inv.base.size, ?_⟩
  intro cap
  obtain ⟨more, s, e, h1, h2, _⟩ := i.poll cap
  exact ⟨more, s, e, h1, h2⟩

/-- Nine bytes with a repetition: a refused offer, small polls, and the end. -/
example : (encRun ETrace.start [.sink [1, 2, 3, 1, 2, 3], .poll 9, .sink [1, 2, 3], .finish, .sink [7], .poll 1, .poll 0, .poll 2, .poll 9, .finish]).map (fun r =>
    match r with | .ret t => (t.taken, t.out, t.done) | .ub => ([], [], false)) =
    some ([1, 2, 3, 1, 2, 3, 1, 2, 3], [0x80, 0xc0, 0xa0, 0x60, 0x20, 0xa0], true) := by decide +kernel

end Bpak
