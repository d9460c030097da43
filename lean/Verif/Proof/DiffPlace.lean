import Verif.Proof.DiffIo
/-! What the compressors write does not depend on the file or the place they write to. -/
namespace Bpak

inductive DrvRel {α β : Type} (R : α → β → Prop) : Drv α → Drv β → Prop where
  | fail (e : Err) : DrvRel R (.fail e) (.fail e)
  | ok (a : α) (b : β) : R a b → DrvRel R (.ok a) (.ok b)
  | ub : DrvRel R .ub .ub
  | hang : DrvRel R .hang .hang

/-- Two compressors that have written the same. -/
def HsTwo (off off' : Nat) (f f' : Bytes) (a b : HsComp) : Prop :=
  ∃ z, a.enc = b.enc ∧ a.pos = z.length ∧ b.pos = z.length ∧ a.file = fileWrite f off z ∧ b.file = fileWrite f' off' z

theorem hsEmit_two {off off' : Nat} {f f' : Bytes} {a b : HsComp} (h : HsTwo off off' f f' a b) (enc : HsEnc) (e : Bytes) :
    HsTwo off off' f f' (a.emit off enc e) (b.emit off' enc e) := by
  obtain ⟨z, h1, h2, h3, h4, h5⟩ := h
  unfold HsComp.emit
  by_cases he : e.length > 0
  · rw [if_pos he, if_pos he]
    refine ⟨z ++ e, rfl, ?_, ?_, ?_, ?_⟩
    · rw [List.length_append, h2]
    · rw [List.length_append, h3]
    · rw [h4, h2, fileWrite_append]
    · rw [h5, h3, fileWrite_append]
  · rw [if_neg he, if_neg he]; exact ⟨z, rfl, h2, h3, h4, h5⟩

theorem compPolls_two (off off' : Nat) (f f' : Bytes) (k : Nat) : ∀ (a b : HsComp), HsTwo off off' f f' a b →
    DrvRel (HsTwo off off' f f') (compPolls off k a) (compPolls off' k b) := by
  induction k with
  | zero => exact fun _ _ _ => .hang
  | succ k ih =>
    intro a b h
    unfold compPolls
    have h1 : a.enc = b.enc := h.choose_spec.1
    rw [h1]
    rcases encPollCall b.enc 4096 with _ | (_ | ⟨more, enc, e⟩) | _
    · exact .hang
    · exact .fail _
    · cases more
      · exact .ok _ _ (hsEmit_two h enc e)
      · exact ih _ _ (hsEmit_two h enc e)
    · exact .ub

theorem compWriteGo_two (off off' : Nat) (f f' : Bytes) (all : Nat) (k : Nat) : ∀ (a b : HsComp) (rest : Bytes), HsTwo off off' f f' a b →
    DrvRel (HsTwo off off' f f') (compWriteGo off all k a rest) (compWriteGo off' all k b rest) := by
  induction k with
  | zero => exact fun _ _ _ _ => .hang
  | succ k ih =>
    intro a b rest h
    unfold compWriteGo
    obtain ⟨z, h1, h2, h3, h4, h5⟩ := h
    rw [h1]
    rcases (if all > 0 then encSink b.enc rest else .ret (some (0, b.enc))) with (_ | ⟨n, enc⟩) | _
    · exact .fail _
    · dsimp only
      have g := compPolls_two off off' f f' 2 { a with enc := enc } { b with enc := enc } ⟨z, rfl, h2, h3, h4, h5⟩
      generalize compPolls off 2 { a with enc := enc } = u at g
      generalize compPolls off' 2 { b with enc := enc } = v at g
      cases g with
      | fail e => exact .fail _
      | ub => exact .ub
      | hang => exact .hang
      | ok a b g =>
        dsimp only
        by_cases hn : rest.length > n
        · rw [if_pos hn, if_pos hn]; exact ih _ _ _ g
        · rw [if_neg hn, if_neg hn]; exact .ok _ _ g
    · exact .ub

theorem compFinal_two (off off' : Nat) (f f' : Bytes) (k : Nat) : ∀ (a b : HsComp), HsTwo off off' f f' a b →
    DrvRel (HsTwo off off' f f') (compFinalGo off k a) (compFinalGo off' k b) := by
  induction k with
  | zero => exact fun _ _ _ => .hang
  | succ k ih =>
    intro a b h
    unfold compFinalGo
    obtain ⟨z, h1, h2, h3, h4, h5⟩ := h
    dsimp only
    rw [h1]
    by_cases h0 : (encFinish b.enc).1
    · rw [if_pos h0, if_pos h0]; exact .ok _ _ ⟨z, rfl, h2, h3, h4, h5⟩
    · rw [if_neg h0, if_neg h0]
      rcases encPollCall (encFinish b.enc).2 4096 with _ | (_ | ⟨more, enc, e⟩) | _
      · exact .hang
      · exact .fail _
      · exact ih _ _ (hsEmit_two ⟨z, h1, h2, h3, h4, h5⟩ enc e)
      · exact .ub

theorem compRun_two (off off' : Nat) (f f' : Bytes) (bs : List Bytes) : ∀ (a b : HsComp), HsTwo off off' f f' a b →
    DrvRel (HsTwo off off' f f') (compRun off a bs) (compRun off' b bs) := by
  induction bs with
  | nil => exact fun _ _ h => .ok _ _ h
  | cons x bs ih =>
    intro a b h
    unfold compRun compWrite
    have g := compWriteGo_two off off' f f' x.length (x.length + 1) a b x h
    generalize compWriteGo off x.length (x.length + 1) a x = u at g
    generalize compWriteGo off' x.length (x.length + 1) b x = v at g
    cases g with
    | fail e => exact .fail _
    | ub => exact .ub
    | hang => exact .hang
    | ok a b g => exact ih _ _ g

/-- Two runs of the encoder into different places. -/
theorem bsdiffHs_two (srch : Int → Option (Int × Int)) (o n : Bytes) (off off' : Nat) (f f' : Bytes) (r : HsComp) (hr : bsdiffHs srch o n off f = some (.ok r)) :
    ∃ r', bsdiffHs srch o n off' f' = some (.ok r') ∧ HsTwo off off' f f' r r' := by
  unfold bsdiffHs at hr ⊢
  cases hb : bsdiffWith srch o n with
  | none => rw [hb] at hr; cases hr
  | some bufs =>
    rw [hb] at hr
    dsimp only at hr ⊢
    have g := compRun_two off off' f f' bufs (HsComp.init f) (HsComp.init f') ⟨[], rfl, rfl, rfl, rfl, rfl⟩
    generalize compRun off (HsComp.init f) bufs = u at g hr
    generalize compRun off' (HsComp.init f') bufs = v at g
    cases g with
    | fail e => cases hr
    | ub => cases hr
    | hang => cases hr
    | ok a b g =>
      have k := compFinal_two off off' f f' 3 a b g
      injection hr with hr
      rw [hr] at k
      dsimp only
      generalize compFinalGo off' 3 b = w at k
      cases k with
      | ok a b g => exact ⟨_, rfl, g⟩

/-- As `HsTwo`. -/
def LzTwo (off off' : Nat) (f f' : Bytes) (a b : LzComp) : Prop :=
  ∃ z, a.calls = b.calls ∧ a.pos = z.length ∧ b.pos = z.length ∧ a.file = fileWrite f off z ∧ b.file = fileWrite f' off' z

theorem lzEmit_two {off off' : Nat} {f f' : Bytes} {a b : LzComp} (h : LzTwo off off' f f' a b) (c : LzCall) (e : Bytes) :
    LzTwo off off' f f' (a.emit off c e) (b.emit off' c e) := by
  obtain ⟨z, h1, h2, h3, h4, h5⟩ := h
  unfold LzComp.emit
  by_cases he : e.length > 0
  · rw [if_pos he, if_pos he]
    refine ⟨z ++ e, by rw [h1], ?_, ?_, ?_, ?_⟩
    · rw [List.length_append, h2]
    · rw [List.length_append, h3]
    · rw [h4, h2, fileWrite_append]
    · rw [h5, h3, fileWrite_append]
  · rw [if_neg he, if_neg he]; exact ⟨z, by rw [h1], h2, h3, h4, h5⟩

variable [LzmaLib]

theorem lzWriteGo_two (off off' : Nat) (f f' : Bytes) (k : Nat) : ∀ (a b : LzComp) (rest : Bytes), LzTwo off off' f f' a b →
    DrvRel (LzTwo off off' f f') (lzWriteGo off k a rest) (lzWriteGo off' k b rest) := by
  induction k with
  | zero => exact fun _ _ _ _ => .hang
  | succ k ih =>
    intro a b rest h
    unfold lzWriteGo
    have h1 : a.calls = b.calls := h.choose_spec.1
    by_cases h0 : rest = []
    · rw [if_pos h0, if_pos h0]; exact .ok _ _ h
    · rw [if_neg h0, if_neg h0, h1]
      by_cases h2 : (LzmaLib.enc b.calls ⟨rest, 4096, false⟩).ret ≠ .ok
      · rw [if_pos h2, if_pos h2]; exact .fail _
      · rw [if_neg h2, if_neg h2]
        exact ih _ _ _ (lzEmit_two h _ _)

theorem lzFinalGo_two (off off' : Nat) (f f' : Bytes) (k : Nat) : ∀ (a b : LzComp), LzTwo off off' f f' a b →
    DrvRel (LzTwo off off' f f') (lzFinalGo off k a) (lzFinalGo off' k b) := by
  induction k with
  | zero => exact fun _ _ _ => .hang
  | succ k ih =>
    intro a b h
    unfold lzFinalGo
    have h1 : a.calls = b.calls := h.choose_spec.1
    rw [h1]
    cases (LzmaLib.enc b.calls ⟨[], 4096, true⟩).ret with
    | error => exact .fail _
    | streamEnd => exact .ok _ _ (lzEmit_two h _ _)
    | ok => exact ih _ _ (lzEmit_two h _ _)

theorem lzCompRun_two (off off' : Nat) (f f' : Bytes) (bs : List Bytes) : ∀ (a b : LzComp), LzTwo off off' f f' a b →
    DrvRel (LzTwo off off' f f') (lzCompRun off a bs) (lzCompRun off' b bs) := by
  induction bs with
  | nil => exact fun _ _ h => .ok _ _ h
  | cons x bs ih =>
    intro a b h
    unfold lzCompRun lzCompWrite
    have h1 : a.calls = b.calls := h.choose_spec.1
    rw [h1]
    have g := lzWriteGo_two off off' f f' (LzmaLib.encRounds b.calls x + 1) a b x h
    generalize lzWriteGo off (LzmaLib.encRounds b.calls x + 1) a x = u at g
    generalize lzWriteGo off' (LzmaLib.encRounds b.calls x + 1) b x = v at g
    cases g with
    | fail e => exact .fail _
    | ub => exact .ub
    | hang => exact .hang
    | ok a b g => exact ih _ _ g

/-- Two runs of the encoder into different places. -/
theorem bsdiffLzma_two (srch : Int → Option (Int × Int)) (o n : Bytes) (off off' : Nat) (f f' : Bytes) (r : LzComp) (hr : bsdiffLzma srch o n off f = some (.ok r)) :
    ∃ r', bsdiffLzma srch o n off' f' = some (.ok r') ∧ LzTwo off off' f f' r r' := by
  unfold bsdiffLzma at hr ⊢
  cases hb : bsdiffWith srch o n with
  | none => rw [hb] at hr; cases hr
  | some bufs =>
    rw [hb] at hr
    dsimp only at hr ⊢
    have g := lzCompRun_two off off' f f' bufs (LzComp.init f) (LzComp.init f') ⟨[], rfl, rfl, rfl, rfl, rfl⟩
    generalize lzCompRun off (LzComp.init f) bufs = u at g hr
    generalize lzCompRun off' (LzComp.init f') bufs = v at g
    cases g with
    | fail e => cases hr
    | ub => cases hr
    | hang => cases hr
    | ok a b g =>
      have h1 : a.calls = b.calls := g.choose_spec.1
      unfold lzCompFinal at hr
      dsimp only at hr ⊢
      unfold lzCompFinal
      rw [h1] at hr
      have k := lzFinalGo_two off off' f f' (LzmaLib.encRounds b.calls [] + 1) a b g
      injection hr with hr
      rw [hr] at k
      generalize lzFinalGo off' (LzmaLib.encRounds b.calls [] + 1) b = w at k
      cases k with
      | ok a b g => exact ⟨_, rfl, g⟩

end Bpak
