import Verif.Spec.Disk
import Verif.Props.Pkg
/-! Calls on a disk that can be full, compared with calls on a disk with room. -/
namespace Bpak

/-- `p'` is `p` after some effects on the file. -/
def Onward (p p' : Pkg) : Prop := ∃ ops, p'.log = p.log ++ ops ∧ p'.file = applyOps p.file ops

theorem Onward.refl (p : Pkg) : Onward p p := ⟨[], by simp, rfl⟩

theorem Onward.trans {p q r : Pkg} (h1 : Onward p q) (h2 : Onward q r) : Onward p r := by
  obtain ⟨a, e1, f1⟩ := h1
  obtain ⟨b, e2, f2⟩ := h2
  exact ⟨a ++ b, by rw [e2, e1, List.append_assoc], by rw [f2, f1, applyOps_append]⟩

theorem Onward.hdr (p : Pkg) (h : Header) : Onward p { p with hdr := h } := ⟨[], by simp, rfl⟩

theorem Onward.write (p : Pkg) (pos : Nat) (d : Bytes) : Onward p (p.write pos d) := ⟨[.write pos d], rfl, rfl⟩

theorem Onward.trunc (p : Pkg) (n : Nat) : Onward p (p.trunc n) := ⟨[.trunc n], rfl, rfl⟩

theorem Onward.updateHash (H : HashFn) (p : Pkg) : Onward p (updateHash H p).2 := by
  unfold Bpak.updateHash
  split
  · exact .hdr _ _
  · exact .refl _

theorem Onward.writeHeader (p : Pkg) : Onward p (writeHeader p) := .write _ _ _

/-- The file is one that a crash could have left on the way from `p0` to `p`. -/
def Fail (p0 p : Pkg) (f : Bytes) : Prop := ∃ ops, p.log = p0.log ++ ops ∧ p.file = applyOps p0.file ops ∧ CrashState p0.file ops f

theorem crash_more {f f' : Bytes} {ops more : List FOp} (h : CrashState f ops f') : CrashState f (ops ++ more) f' := by
  obtain ⟨done, rest, e, h⟩ := h
  refine ⟨done, rest ++ more, by rw [e, List.append_assoc], ?_⟩
  rcases h with h | ⟨pos, d, tl, n, e2, h⟩
  · exact .inl h
  · exact .inr ⟨pos, d, tl ++ more, n, by rw [e2]; rfl, h⟩

theorem Fail.grows {p0 p p' : Pkg} {f : Bytes} (h : Fail p0 p f) (g : Onward p p') : Fail p0 p' f := by
  obtain ⟨a, e1, f1, c⟩ := h
  obtain ⟨b, e2, f2⟩ := g
  exact ⟨a ++ b, by rw [e2, e1, List.append_assoc], by rw [f2, f1, applyOps_append], crash_more c⟩

theorem Fail.same {p0 p : Pkg} (g : Onward p0 p) : Fail p0 p p.file := by
  obtain ⟨a, e, f⟩ := g
  exact ⟨a, e, f, a, [], by simp, .inl f⟩

theorem Fail.cut {p0 p : Pkg} (g : Onward p0 p) (pos : Nat) (d : Bytes) (m : Nat) : Fail p0 (p.write pos d) (fileWrite p.file pos (d.take m)) := by
  obtain ⟨a, e, f⟩ := g
  exact ⟨a ++ [.write pos d], by rw [Pkg.write, e, List.append_assoc], by rw [applyOps_append, ← f]; rfl, a, [.write pos d], rfl, .inr ⟨pos, d, [], m, rfl, by rw [f]⟩⟩

/-- The call is under way: `p` is where the disk with room is, `w` this disk. -/
structure Track (P : Prop) (p0 p : Pkg) (w : Disk) : Prop where
  grows : Onward p0 p
  fail : Fail p0 p w.pkg.file
  hdr : w.pkg.hdr = p.hdr
  clean : w.pending = false → w.pkg = p
  prompt : P → w.pending = false ∧ Prompt w.luck

theorem Prompt.tail {l : List Luck} (h : Prompt l) : Prompt l.tail := fun m hm => h m (List.mem_of_mem_tail hm)

theorem prompt_not_late {l : List Luck} (h : Prompt l) {m : Nat} : l.headD .full ≠ .late m := by
  cases l with
  | nil => simp
  | cons a t => intro e; simp at e; exact h m (by rw [e]; simp)

theorem Track.start {w : Disk} (h : w.pending = false) : Track (Prompt w.luck) w.pkg w.pkg w :=
  ⟨.refl _, .same (.refl _), rfl, fun _ => rfl, fun h' => ⟨h, h'⟩⟩

theorem Track.setHdr {P : Prop} {p0 p : Pkg} {w : Disk} (t : Track P p0 p w) (h : Header) : Track P p0 { p with hdr := h } { w with pkg := { w.pkg with hdr := h } } :=
  ⟨t.grows.trans (.hdr _ _), t.fail.grows (.hdr _ _), rfl, fun hp => by have := t.clean hp; simp only; rw [this], t.prompt⟩

theorem Track.fseek_true {P : Prop} {p0 p : Pkg} {w w' : Disk} (t : Track P p0 p w) {pos : Nat} (h : w.fseek pos = (true, w')) :
    w' = w ∧ w.pending = false ∧ w.pkg = p ∧ pos < 2^63 := by
  unfold Disk.fseek at h
  split at h
  · simp at h
  · rename_i hp
    have hp : w.pending = false := by simpa using hp
    have := Prod.mk.inj h
    exact ⟨this.2.symm, hp, t.clean hp, of_decide_eq_true this.1⟩

theorem Track.fseek_false {P : Prop} {p0 p : Pkg} {w w' : Disk} (t : Track P p0 p w) {pos : Nat} (h : w.fseek pos = (false, w')) :
    Fail p0 p w'.pkg.file := by
  unfold Disk.fseek at h
  split at h
  · rw [← (Prod.mk.inj h).2]; exact t.fail
  · rw [← (Prod.mk.inj h).2]; exact t.fail

theorem Track.fwrite_true {P : Prop} {p0 p : Pkg} {w w' : Disk} (t : Track P p0 p w) {pos : Nat} {d : Bytes} (h : w.fwrite pos d = (true, w')) :
    Track P p0 (p.write pos d) w' ∧
      (w.pending = false → (w'.pending = false ∧ w'.pkg = p.write pos d) ∨ (w'.pending = true ∧ ∃ m, m < d.length ∧ w'.pkg = p.write pos (d.take m))) := by
  have gw := t.grows.trans (Onward.write p pos d)
  unfold Disk.fwrite at h
  split at h
  · rename_i hd
    subst hd
    rw [← (Prod.mk.inj h).2]
    have e : ∀ f : Bytes, fileWrite f pos [] = f := fun f => by simp [fileWrite]
    refine ⟨⟨gw, ?_, t.hdr, fun hp => ?_, t.prompt⟩, fun hp => .inl ⟨hp, ?_⟩⟩
    · have := t.fail.grows (Onward.write p pos [])
      simpa only [Pkg.write, e] using this
    · have := t.clean hp; simp only; rw [this]
    · have := t.clean hp; simp only; rw [this]
  · split at h
    · rename_i hp
      refine ⟨?_, fun h' => by rw [hp] at h'; cases h'⟩
      split at h
      · cases h
      · rw [← (Prod.mk.inj h).2]
        exact ⟨gw, t.fail.grows (.write _ _ _), t.hdr, fun h => (by cases h), fun hP => by rw [(t.prompt hP).1] at hp; cases hp⟩
    · rename_i hp
      have hp : w.pending = false := by simpa using hp
      have ep := t.clean hp
      have full : ∀ l, (P → Prompt l) → (w' = ⟨w.pkg.write pos d, l, false⟩) → _ := fun l hl e =>
        (show Track P p0 (p.write pos d) w' ∧ (w.pending = false → (w'.pending = false ∧ w'.pkg = p.write pos d) ∨ (w'.pending = true ∧ ∃ m, m < d.length ∧ w'.pkg = p.write pos (d.take m))) by
          subst e
          simp only [ep]
          exact ⟨⟨gw, .same gw, rfl, fun _ => rfl, fun hP => ⟨rfl, hl hP⟩⟩, fun _ => .inl ⟨(by trivial), (by trivial)⟩⟩)
      have pt : P → Prompt w.luck.tail := fun hP => (t.prompt hP).2.tail
      split at h
      · exact full _ pt (Prod.mk.inj h).2.symm
      · split at h
        · exact full _ pt (Prod.mk.inj h).2.symm
        · cases h
      · rename_i m hl
        split at h
        · exact full _ pt (Prod.mk.inj h).2.symm
        · rename_i hm
          rw [← (Prod.mk.inj h).2]
          simp only [ep]
          exact ⟨⟨gw, .cut t.grows pos d m, rfl, fun h => (by cases h), fun hP => absurd hl (prompt_not_late (t.prompt hP).2)⟩,
            fun _ => .inr ⟨(by trivial), m, by omega, rfl⟩⟩

theorem Track.fwrite_false {P : Prop} {p0 p : Pkg} {w w' : Disk} (t : Track P p0 p w) {pos : Nat} {d : Bytes} (h : w.fwrite pos d = (false, w')) :
    Fail p0 (p.write pos d) w'.pkg.file := by
  unfold Disk.fwrite at h
  split at h
  · cases h
  · split at h
    · split at h
      · rw [← (Prod.mk.inj h).2]; exact t.fail.grows (.write _ _ _)
      · cases h
    · rename_i hp
      have ep := t.clean (by simpa using hp)
      split at h
      · cases h
      · split at h
        · cases h
        · rw [← (Prod.mk.inj h).2, ep]; exact .cut t.grows pos d _
      · split at h <;> cases h

/-! ### the hash -/

theorem payloadReadLoop_broken (off : U64) (n : Nat) (c : HashCtx) : payloadReadLoop (fun _ _ => .error .seekError) off n c = .error .readError := by
  rw [payloadReadLoop]

theorem payloadHashGo_broken (rd : Reader) (c' : HashCtx) : ∀ (ps : List PartHdr) (off : U64) (c : HashCtx),
    payloadHashGo (fun _ _ => .error .seekError) ps off c = .ok c' → payloadHashGo rd ps off c = .ok c' := by
  intro ps
  induction ps with
  | nil => intro off c h; exact h
  | cons p ps ih =>
    intro off c h
    unfold payloadHashGo at h ⊢
    split at h
    · rename_i h0; rw [if_pos h0]; exact ih _ _ h
    · rename_i h0
      rw [if_neg h0]
      split at h
      · rename_i h1; rw [if_pos h1]; exact ih _ _ h
      · rw [payloadReadLoop_broken] at h; cases h

theorem computePayloadHash_broken (H : HashFn) (h : Header) (rd : Reader) (d : Bytes)
    (e : computePayloadHash H h (fun _ _ => .error .seekError) 4096 64 = (.ok, some d)) : computePayloadHash H h rd 4096 64 = (.ok, some d) := by
  unfold computePayloadHash at e ⊢
  split at e
  · rename_i c hc
    split at e
    · cases e
    · rename_i c' hg
      rw [payloadHashGo_broken rd c' _ _ _ hg]
      exact e
  · cases e

theorem payloadHashGo_error (rd : Reader) : ∀ (ps : List PartHdr) (off : U64) (c : HashCtx) (e : Err), payloadHashGo rd ps off c = .error e → e = .readError := by
  intro ps
  induction ps with
  | nil => intro off c e h; cases h
  | cons p ps ih =>
    intro off c e h
    unfold payloadHashGo at h
    split at h
    · exact ih _ _ _ h
    · split at h
      · exact ih _ _ _ h
      · split at h
        · rename_i e' he
          cases h
          have : ∀ (n : Nat) (off : U64) (c : HashCtx), payloadReadLoop rd off n c = .error e → e = .readError := by
            intro n
            induction n using Nat.strongRecOn with
            | ind n ih =>
              intro off c h
              rw [payloadReadLoop] at h
              split at h
              · cases h; rfl
              · split at h
                · cases h; rfl
                · split at h
                  · cases h
                  · exact ih _ (by omega) _ _ h
          exact this _ _ _ he
        · exact ih _ _ _ h

theorem computePayloadHash_ok (H : HashFn) (h : Header) (rd : Reader) : ∀ x, computePayloadHash H h rd 4096 64 = (.ok, x) → ∃ d, x = some d := by
  intro x e
  unfold computePayloadHash at e
  split at e
  · split at e
    · rename_i e' he
      cases e
      exact absurd (payloadHashGo_error _ _ _ _ _ he) (by decide)
    · unfold hashFinal at e
      split at e
      · cases e
      · split at e
        · cases e
        · exact ⟨_, (Prod.mk.inj e).2.symm⟩
  · rename_i c1 e1 x1 hne
    exact absurd (Prod.mk.inj e).1 x1

theorem Track.hash_ok {P : Prop} {p0 p : Pkg} {w w' : Disk} (H : HashFn) (t : Track P p0 p w) (h : updateHashD H w = (.ok, w')) :
    (updateHash H p).1 = .ok ∧ Track P p0 (updateHash H p).2 w' ∧ w'.pending = w.pending := by
  have ew : w.pkg.hdr = p.hdr := t.hdr
  have key : ∃ d, computePayloadHash H p.hdr (pkgReader p.file) 4096 64 = (.ok, some d) ∧
      w' = { w with pkg := { w.pkg with hdr := { w.pkg.hdr with payloadHash := d ++ w.pkg.hdr.payloadHash.drop d.length } } } := by
    unfold updateHashD at h
    split at h
    · rename_i d hc
      refine ⟨d, ?_, (Prod.mk.inj h).2.symm⟩
      by_cases hp : w.pending
      · rw [if_pos hp] at hc
        rw [← ew]
        exact computePayloadHash_broken H _ _ _ hc
      · rw [if_neg hp] at hc
        rw [t.clean (by simpa using hp)] at hc
        exact hc
    · rename_i e x hc hn
      have he := (Prod.mk.inj h).1
      subst he
      obtain ⟨d, rfl⟩ := computePayloadHash_ok H _ _ _ hn
      exact (hc d rfl rfl).elim
  obtain ⟨d, hc, rfl⟩ := key
  have e1 : updateHash H p = (.ok, { p with hdr := { p.hdr with payloadHash := d ++ p.hdr.payloadHash.drop d.length } }) := by
    unfold updateHash; rw [hc]
  rw [e1]
  refine ⟨rfl, ?_, rfl⟩
  rw [ew]
  exact t.setHdr _

theorem Track.hash_fail {P : Prop} {p0 p : Pkg} {w w' : Disk} (H : HashFn) {e : Err} (t : Track P p0 p w) (h : updateHashD H w = (e, w')) :
    Fail p0 (updateHash H p).2 w'.pkg.file := by
  refine Fail.grows ?_ (Onward.updateHash H p)
  unfold updateHashD at h
  split at h
  · rw [← (Prod.mk.inj h).2]; exact t.fail
  · rw [← (Prod.mk.inj h).2]; exact t.fail

/-! ### the last steps -/

/-- Written in full, or cut short with the error still to be noticed. -/
def HeaderDone (P : Prop) (p : Pkg) (w : Disk) : Prop :=
  (w.pending = false ∧ w.pkg = writeHeader p) ∨ (¬ P ∧ w.pending = true ∧ ∃ m, m < p.hdr.image.length ∧ w.pkg = p.write 0 (p.hdr.image.take m))

theorem Track.writeHeader_ok {P : Prop} {p0 p : Pkg} {w w' : Disk} (t : Track P p0 p w) (h : writeHeaderD w = (.ok, w')) :
    HeaderDone P p w' ∧ Track P p0 (writeHeader p) w' := by
  unfold writeHeaderD at h
  split at h
  · cases h
  · rename_i w1 h1
    obtain ⟨rfl, hp, ep, _⟩ := t.fseek_true h1
    split at h
    · cases h
    · rename_i w2 h2
      cases h
      rw [t.hdr] at h2
      obtain ⟨t2, h3⟩ := t.fwrite_true h2
      refine ⟨?_, t2⟩
      rcases h3 hp with ⟨a, b⟩ | ⟨a, m, b, c⟩
      · exact .inl ⟨a, b⟩
      · exact .inr ⟨fun hP => (by rw [(t2.prompt hP).1] at a; cases a), a, m, b, c⟩

theorem Track.writeHeader_fail {P : Prop} {p0 p : Pkg} {w w' : Disk} {e : Err} (t : Track P p0 p w) (h : writeHeaderD w = (e, w')) :
    Fail p0 (writeHeader p) w'.pkg.file := by
  unfold writeHeaderD at h
  split at h
  · rename_i w1 h1
    rw [← (Prod.mk.inj h).2]
    exact (t.fseek_false h1).grows (.writeHeader _)
  · rename_i w1 h1
    obtain ⟨rfl, hp, ep, _⟩ := t.fseek_true h1
    rw [t.hdr] at h
    split at h
    · rename_i w2 h2
      rw [← (Prod.mk.inj h).2]
      exact t.fwrite_false h2
    · rename_i w2 h2
      rw [← (Prod.mk.inj h).2]
      exact (t.fwrite_true h2).1.fail

/-- `bpak_pkg_update_hash` and `bpak_pkg_write_header` on a disk with room. -/
def finish (H : HashFn) (p : Pkg) : Err × Pkg :=
  match updateHash H p with
  | (.ok, p) => (.ok, writeHeader p)
  | (e, p) => (e, p)

theorem Track.finish_ok {P : Prop} {p0 p : Pkg} {w w' : Disk} (H : HashFn) (t : Track P p0 p w) (h : finishD H w = (.ok, w')) :
    ∃ p1, finish H p = (.ok, writeHeader p1) ∧ Onward p0 p1 ∧ HeaderDone P p1 w' ∧ Track P p0 (writeHeader p1) w' := by
  unfold finishD at h
  split at h
  · rename_i w1 h1
    obtain ⟨e1, t1, _⟩ := t.hash_ok H h1
    obtain ⟨a, b⟩ := t1.writeHeader_ok h
    refine ⟨_, ?_, t1.grows, a, b⟩
    unfold finish
    split
    · rename_i p2 h2; rw [h2]
    · rename_i hne h2; rw [h2] at e1; exact (hne e1).elim
  · rename_i hne h1
    exact (hne (Prod.mk.inj h).1).elim

theorem Track.finish_fail {P : Prop} {p0 p : Pkg} {w w' : Disk} {e : Err} (H : HashFn) (t : Track P p0 p w) (h : finishD H w = (e, w')) (hne : e ≠ .ok) :
    Fail p0 (finish H p).2 w'.pkg.file := by
  unfold finishD at h
  split at h
  · rename_i w1 h1
    obtain ⟨e1, t1, _⟩ := t.hash_ok H h1
    have := t1.writeHeader_fail h
    unfold finish
    split
    · rename_i p2 h2; rw [h2] at this; exact this
    · rename_i hn h2; rw [h2] at e1; exact (hn e1).elim
  · rename_i w1 h1
    have := t.hash_fail H h1
    rw [← (Prod.mk.inj h).2]
    unfold finish
    split
    · rename_i p2 h2; rw [h2] at this; exact this.grows (.writeHeader _)
    · rename_i p2 h2; rw [h2] at this; exact this

end Bpak
