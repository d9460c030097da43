import Verif.Spec.DiffIo
import Verif.Proof.Transport
import Verif.Props.HsDelta
import Verif.Props.Lzma
/-! The delta encoder over a callback simulates the one over a file. -/
namespace Bpak
variable {σ : Type} {io : DiffIo σ} {view : σ → Bytes}

/-- Errors are the same or come from the callback. -/
inductive DiffSim {α β : Type} (io : DiffIo σ) (R : α → β → Prop) : Drv α → Drv β → Prop where
  | bad (e : Err) (y : Drv β) : FromDiffIo io e → DiffSim io R (.fail e) y
  | fail (e : Err) : DiffSim io R (.fail e) (.fail e)
  | ok (a : α) (b : β) : R a b → DiffSim io R (.ok a) (.ok b)
  | ub : DiffSim io R .ub .ub
  | hang : DiffSim io R .hang .hang

theorem diffPut_cases (hio : HonestDiff io view) (t : σ) (off : Nat) (b : Bytes) :
    (∃ t' e, diffPut io t off b = (t', some e) ∧ FromDiffIo io e) ∨ (∃ t', diffPut io t off b = (t', none) ∧ view t' = fileWrite (view t) off b) := by
  unfold diffPut
  rcases h : io.wr t off b with ⟨t', r⟩
  cases r with
  | error e => exact Or.inl ⟨t', e, rfl, Or.inl ⟨_, _, _, _, h⟩⟩
  | ok n =>
    dsimp only
    by_cases hn : n ≠ b.length
    · rw [if_pos hn]; exact Or.inl ⟨t', _, rfl, Or.inr ⟨rfl, _, _, _, _, _, h, hn⟩⟩
    · rw [if_neg hn]; exact Or.inr ⟨t', rfl, hio _ _ _ _ _ h (Classical.not_not.1 hn)⟩

theorem plainRun_sim (hio : HonestDiff io view) (off : Nat) (bs : List Bytes) : ∀ (t : σ) (pos : Nat),
    (∃ t', plainRunIo io off t pos bs = .ok (t', pos + bs.flatten.length) ∧ view t' = writeBufs (view t) (off + pos) bs) ∨
    (∃ e, plainRunIo io off t pos bs = .fail e ∧ FromDiffIo io e) := by
  induction bs with
  | nil => exact fun t pos => Or.inl ⟨t, rfl, rfl⟩
  | cons b bs ih =>
    intro t pos
    unfold plainRunIo
    rcases diffPut_cases hio t (off + pos) b with ⟨t', e, h1, h2⟩ | ⟨t', h1, h2⟩
    · rw [h1]; exact Or.inr ⟨e, rfl, h2⟩
    · rw [h1]
      dsimp only
      rcases ih t' (pos + b.length) with ⟨u, h3, h4⟩ | h3
      · refine Or.inl ⟨u, ?_, ?_⟩
        · rw [h3, List.flatten_cons, List.length_append, Nat.add_assoc]
        · rw [h4, h2, ← Nat.add_assoc]; rfl
      · exact Or.inr h3

/-- The contexts are the same but for the file. -/
def HsCompOn (view : σ → Bytes) (a : HsComp × σ) (b : HsComp) : Prop := b = { a.1 with file := view a.2 }

theorem hsEmit_sim (hio : HonestDiff io view) (off : Nat) (s : HsComp) (t : σ) (enc : HsEnc) (e : Bytes) :
    DiffSim io (HsCompOn view) (hsEmitIo io off s t enc e) (.ok (HsComp.emit off { s with file := view t } enc e)) := by
  unfold hsEmitIo HsComp.emit
  by_cases h : e.length > 0
  · rw [if_pos h, if_pos h]
    rcases diffPut_cases hio t (off + s.pos) e with ⟨t', c, h1, h2⟩ | ⟨t', h1, h2⟩
    · rw [h1]; exact .bad _ _ h2
    · rw [h1]
      refine .ok _ _ ?_
      unfold HsCompOn
      dsimp only
      rw [h2]
  · rw [if_neg h, if_neg h]; exact .ok _ _ rfl

theorem compPolls_sim (hio : HonestDiff io view) (off : Nat) (k : Nat) : ∀ (s : HsComp) (t : σ),
    DiffSim io (HsCompOn view) (compPollsIo io off k s t) (compPolls off k { s with file := view t }) := by
  induction k with
  | zero => exact fun _ _ => .hang
  | succ k ih =>
    intro s t
    unfold compPollsIo compPolls
    dsimp only
    rcases encPollCall s.enc 4096 with _ | (_ | ⟨more, enc, e⟩) | _
    · exact .hang
    · exact .fail _
    rotate_left
    · exact .ub
    · dsimp only
      have h := hsEmit_sim hio off s t enc e
      generalize hsEmitIo io off s t enc e = u at h
      generalize HsComp.emit off { s with file := view t } enc e = v at h
      cases h with
      | bad e _ h1 => exact .bad _ _ h1
      | ok a b h1 =>
        obtain ⟨s', t'⟩ := a
        unfold HsCompOn at h1
        subst h1
        dsimp only
        cases more
        · exact .ok _ _ rfl
        · exact ih s' t'

theorem compWriteGo_sim (hio : HonestDiff io view) (off all : Nat) (k : Nat) : ∀ (s : HsComp) (t : σ) (rest : Bytes),
    DiffSim io (HsCompOn view) (compWriteGoIo io off all k s t rest) (compWriteGo off all k { s with file := view t } rest) := by
  induction k with
  | zero => exact fun _ _ _ => .hang
  | succ k ih =>
    intro s t rest
    unfold compWriteGoIo compWriteGo
    dsimp only
    rcases (if all > 0 then encSink s.enc rest else .ret (some (0, s.enc))) with (_ | ⟨n, enc⟩) | _
    · exact .fail _
    rotate_left
    · exact .ub
    · dsimp only
      have h := compPolls_sim hio off 2 { s with enc := enc } t
      dsimp only at h
      generalize compPollsIo io off 2 { s with enc := enc } t = u at h
      generalize compPolls off 2 { s with enc := enc, file := view t } = v at h
      cases h with
      | bad e _ h1 => exact .bad _ _ h1
      | fail e => exact .fail _
      | ub => exact .ub
      | hang => exact .hang
      | ok a b h1 =>
        obtain ⟨s', t'⟩ := a
        unfold HsCompOn at h1
        subst h1
        dsimp only
        by_cases h2 : rest.length > n
        · rw [if_pos h2, if_pos h2]; exact ih s' t' _
        · rw [if_neg h2, if_neg h2]; exact .ok _ _ rfl

theorem compFinal_sim (hio : HonestDiff io view) (off : Nat) (k : Nat) : ∀ (s : HsComp) (t : σ),
    DiffSim io (HsCompOn view) (compFinalGoIo io off k s t) (compFinalGo off k { s with file := view t }) := by
  induction k with
  | zero => exact fun _ _ => .hang
  | succ k ih =>
    intro s t
    unfold compFinalGoIo compFinalGo
    dsimp only
    by_cases h0 : (encFinish s.enc).1
    · rw [if_pos h0, if_pos h0]; exact .ok _ _ rfl
    · rw [if_neg h0, if_neg h0]
      rcases encPollCall (encFinish s.enc).2 4096 with _ | (_ | ⟨more, enc, e⟩) | _
      · exact .hang
      · exact .fail _
      rotate_left
      · exact .ub
      · dsimp only
        have h := hsEmit_sim hio off s t enc e
        generalize hsEmitIo io off s t enc e = u at h
        generalize HsComp.emit off { s with file := view t } enc e = v at h
        cases h with
        | bad e _ h1 => exact .bad _ _ h1
        | ok a b h1 =>
          obtain ⟨s', t'⟩ := a
          unfold HsCompOn at h1
          subst h1
          exact ih s' t'

theorem compRun_sim (hio : HonestDiff io view) (off : Nat) (bs : List Bytes) : ∀ (s : HsComp) (t : σ),
    DiffSim io (HsCompOn view) (compRunIo io off s t bs) (compRun off { s with file := view t } bs) := by
  induction bs with
  | nil => exact fun _ _ => .ok _ _ rfl
  | cons b bs ih =>
    intro s t
    unfold compRunIo compRun compWrite
    have h := compWriteGo_sim hio off b.length (b.length + 1) s t b
    generalize compWriteGoIo io off b.length (b.length + 1) s t b = u at h
    generalize compWriteGo off b.length (b.length + 1) { s with file := view t } b = v at h
    cases h with
    | bad e _ h1 => exact .bad _ _ h1
    | fail e => exact .fail _
    | ub => exact .ub
    | hang => exact .hang
    | ok a b h1 =>
      obtain ⟨s', t'⟩ := a
      unfold HsCompOn at h1
      subst h1
      exact ih s' t'

/-- `bpak_bsdiff` with heatshrink. -/
theorem bsdiffHs_sim (hio : HonestDiff io view) (srch : Int → Option (Int × Int)) (o n : Bytes) (off : Nat) (t : σ) (r : HsComp)
    (hr : bsdiffHs srch o n off (view t) = some (.ok r)) :
    (∃ t', bsdiffHsIo io srch o n off t = .ok (t', r.pos) ∧ view t' = r.file) ∨ (∃ e, bsdiffHsIo io srch o n off t = .fail e ∧ FromDiffIo io e) := by
  unfold bsdiffHs at hr
  unfold bsdiffHsIo
  cases hb : bsdiffWith srch o n with
  | none => rw [hb] at hr; cases hr
  | some bufs =>
    rw [hb] at hr
    dsimp only at hr ⊢
    have h := compRun_sim hio off bufs (HsComp.init []) t
    have hi : ({ HsComp.init [] with file := view t } : HsComp) = HsComp.init (view t) := rfl
    rw [hi] at h
    generalize compRunIo io off (HsComp.init []) t bufs = u at h
    generalize compRun off (HsComp.init (view t)) bufs = v at h hr
    cases h with
    | bad e _ h1 => exact Or.inr ⟨e, rfl, h1⟩
    | fail e => cases hr
    | ub => cases hr
    | hang => cases hr
    | ok a b h1 =>
      obtain ⟨s', t'⟩ := a
      unfold HsCompOn at h1
      subst h1
      dsimp only at hr ⊢
      have g := compFinal_sim hio off 3 s' t'
      injection hr with hr
      rw [hr] at g
      generalize compFinalGoIo io off 3 s' t' = w at g
      cases g with
      | bad e _ h2 => exact Or.inr ⟨e, rfl, h2⟩
      | ok a b h2 =>
        obtain ⟨s2, t2⟩ := a
        unfold HsCompOn at h2
        subst h2
        exact Or.inl ⟨t2, rfl, rfl⟩

/-- The contexts are the same but for the file. -/
def LzCompOn (view : σ → Bytes) (a : LzComp × σ) (b : LzComp) : Prop := b = { a.1 with file := view a.2 }

theorem lzEmit_sim (hio : HonestDiff io view) (off : Nat) (s : LzComp) (t : σ) (c : LzCall) (e : Bytes) :
    DiffSim io (LzCompOn view) (lzEmitIo io off s t c e) (.ok (LzComp.emit off { s with file := view t } c e)) := by
  unfold lzEmitIo LzComp.emit
  by_cases h : e.length > 0
  · rw [if_pos h, if_pos h]
    rcases diffPut_cases hio t (off + s.pos) e with ⟨t', c, h1, h2⟩ | ⟨t', h1, h2⟩
    · rw [h1]; exact .bad _ _ h2
    · rw [h1]
      refine .ok _ _ ?_
      unfold LzCompOn
      dsimp only
      rw [h2]
  · rw [if_neg h, if_neg h]; exact .ok _ _ rfl

variable [LzmaLib]

theorem lzWriteGo_sim (hio : HonestDiff io view) (off : Nat) (k : Nat) : ∀ (s : LzComp) (t : σ) (rest : Bytes),
    DiffSim io (LzCompOn view) (lzWriteGoIo io off k s t rest) (lzWriteGo off k { s with file := view t } rest) := by
  induction k with
  | zero => exact fun _ _ _ => .hang
  | succ k ih =>
    intro s t rest
    unfold lzWriteGoIo lzWriteGo
    dsimp only
    by_cases h0 : rest = []
    · rw [if_pos h0, if_pos h0]; exact .ok _ _ rfl
    · rw [if_neg h0, if_neg h0]
      by_cases h1 : (LzmaLib.enc s.calls ⟨rest, 4096, false⟩).ret ≠ .ok
      · rw [if_pos h1, if_pos h1]; exact .fail _
      · rw [if_neg h1, if_neg h1]
        have h := lzEmit_sim hio off s t ⟨rest, 4096, false⟩ (LzmaLib.enc s.calls ⟨rest, 4096, false⟩).out
        generalize lzEmitIo io off s t ⟨rest, 4096, false⟩ (LzmaLib.enc s.calls ⟨rest, 4096, false⟩).out = u at h
        generalize LzComp.emit off { s with file := view t } ⟨rest, 4096, false⟩ (LzmaLib.enc s.calls ⟨rest, 4096, false⟩).out = v at h ⊢
        cases h with
        | bad e _ h1 => exact .bad _ _ h1
        | ok a b h1 =>
          obtain ⟨s', t'⟩ := a
          unfold LzCompOn at h1
          subst h1
          exact ih s' t' _

theorem lzFinalGo_sim (hio : HonestDiff io view) (off : Nat) (k : Nat) : ∀ (s : LzComp) (t : σ),
    DiffSim io (LzCompOn view) (lzFinalGoIo io off k s t) (lzFinalGo off k { s with file := view t }) := by
  induction k with
  | zero => exact fun _ _ => .hang
  | succ k ih =>
    intro s t
    unfold lzFinalGoIo lzFinalGo
    dsimp only
    have h := lzEmit_sim hio off s t ⟨[], 4096, true⟩ (LzmaLib.enc s.calls ⟨[], 4096, true⟩).out
    cases (LzmaLib.enc s.calls ⟨[], 4096, true⟩).ret with
    | error => exact .fail _
    | streamEnd => exact h
    | ok =>
      dsimp only
      generalize lzEmitIo io off s t ⟨[], 4096, true⟩ (LzmaLib.enc s.calls ⟨[], 4096, true⟩).out = u at h
      generalize LzComp.emit off { s with file := view t } ⟨[], 4096, true⟩ (LzmaLib.enc s.calls ⟨[], 4096, true⟩).out = v at h ⊢
      cases h with
      | bad e _ h1 => exact .bad _ _ h1
      | ok a b h1 =>
        obtain ⟨s', t'⟩ := a
        unfold LzCompOn at h1
        subst h1
        exact ih s' t'

theorem lzCompRun_sim (hio : HonestDiff io view) (off : Nat) (bs : List Bytes) : ∀ (s : LzComp) (t : σ),
    DiffSim io (LzCompOn view) (lzCompRunIo io off s t bs) (lzCompRun off { s with file := view t } bs) := by
  induction bs with
  | nil => exact fun _ _ => .ok _ _ rfl
  | cons b bs ih =>
    intro s t
    unfold lzCompRunIo lzCompRun lzCompWrite
    have h := lzWriteGo_sim hio off (LzmaLib.encRounds s.calls b + 1) s t b
    dsimp only
    generalize lzWriteGoIo io off (LzmaLib.encRounds s.calls b + 1) s t b = u at h
    generalize lzWriteGo off (LzmaLib.encRounds s.calls b + 1) { s with file := view t } b = v at h
    cases h with
    | bad e _ h1 => exact .bad _ _ h1
    | fail e => exact .fail _
    | ub => exact .ub
    | hang => exact .hang
    | ok a b h1 =>
      obtain ⟨s', t'⟩ := a
      unfold LzCompOn at h1
      subst h1
      exact ih s' t'

/-- `bpak_bsdiff` with LZMA. -/
theorem bsdiffLzma_sim (hio : HonestDiff io view) (srch : Int → Option (Int × Int)) (o n : Bytes) (off : Nat) (t : σ) (r : LzComp)
    (hr : bsdiffLzma srch o n off (view t) = some (.ok r)) :
    (∃ t', bsdiffLzmaIo io srch o n off t = .ok (t', r.pos) ∧ view t' = r.file) ∨ (∃ e, bsdiffLzmaIo io srch o n off t = .fail e ∧ FromDiffIo io e) := by
  unfold bsdiffLzma at hr
  unfold bsdiffLzmaIo
  cases hb : bsdiffWith srch o n with
  | none => rw [hb] at hr; cases hr
  | some bufs =>
    rw [hb] at hr
    dsimp only at hr ⊢
    have h := lzCompRun_sim hio off bufs (LzComp.init []) t
    have hi : ({ LzComp.init [] with file := view t } : LzComp) = LzComp.init (view t) := rfl
    rw [hi] at h
    generalize lzCompRunIo io off (LzComp.init []) t bufs = u at h
    generalize lzCompRun off (LzComp.init (view t)) bufs = v at h hr
    cases h with
    | bad e _ h1 => exact Or.inr ⟨e, rfl, h1⟩
    | fail e => cases hr
    | ub => cases hr
    | hang => cases hr
    | ok a b h1 =>
      obtain ⟨s', t'⟩ := a
      unfold LzCompOn at h1
      subst h1
      dsimp only at hr ⊢
      have g := lzFinalGo_sim hio off (LzmaLib.encRounds s'.calls [] + 1) s' t'
      injection hr with hr
      unfold lzCompFinal at hr
      dsimp only at hr
      rw [hr] at g
      generalize lzFinalGoIo io off (LzmaLib.encRounds s'.calls [] + 1) s' t' = w at g
      cases g with
      | bad e _ h2 => exact Or.inr ⟨e, rfl, h2⟩
      | ok a b h2 =>
        obtain ⟨s2, t2⟩ := a
        unfold LzCompOn at h2
        subst h2
        exact Or.inl ⟨t2, rfl, rfl⟩

end Bpak
