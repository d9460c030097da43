import Verif.Spec.PatchIo
import Verif.Spec.Patch
/-!
The delta decoder over callbacks that may fail does the same as the one over a file, until a callback fails.
-/
namespace Bpak
variable {σ : Type} {io : PatchIo σ} {view : σ → Bytes} {origin : Bytes}

/-- The context with the file that is behind the callbacks. -/
def Patcher.on (p : Patcher) (f : Bytes) : Patcher := { p with out := f }

theorem honest_rd (hio : HonestIo io view origin) {s : σ} {off : Int} {n : Nat} {s' : σ} {x : Bytes}
    (h : io.rd s off n = (s', .ok x)) (hx : x.length = n) : fileReader origin off n = some x ∧ view s' = view s := by
  obtain ⟨h1, h2, h3⟩ := hio.rd s off n s' x h hx
  refine ⟨?_, h3⟩
  unfold fileReader
  rw [if_neg (by omega)]
  by_cases h0 : n = 0
  · rw [if_pos h0]
    subst h0
    rw [List.length_eq_zero_iff.1 hx]
  · have : (fileRead origin off.toNat n).length = n := by rw [← h2]; exact hx
    unfold fileRead at this h2
    rw [List.length_take, List.length_drop] at this
    rw [if_neg h0, if_pos (by omega), ← h2]

theorem ioPut_cases (hio : HonestIo io view origin) (s : σ) (off : Nat) (b : Bytes) :
    (∃ s' e, ioPut io s off b = (s', some e) ∧ FromDeltaIo io e) ∨ (∃ s', ioPut io s off b = (s', none) ∧ view s' = fileWrite (view s) off b) := by
  unfold ioPut
  rcases h : io.wr s off b with ⟨s', r⟩
  cases r with
  | error e => exact Or.inl ⟨s', e, rfl, Or.inl ⟨s, off, b, s', h⟩⟩
  | ok n =>
    dsimp only
    by_cases hn : n ≠ b.length
    · rw [if_pos hn]
      exact Or.inl ⟨s', _, rfl, Or.inr (Or.inr (Or.inl ⟨rfl, s, off, b, s', n, h, hn⟩))⟩
    · rw [if_neg hn]
      exact Or.inr ⟨s', rfl, hio.wr s off b s' n h (Classical.not_not.1 hn)⟩

/-- What a pass over callbacks has to do with one over the file. -/
inductive IterSim (io : PatchIo σ) (view : σ → Bytes) : IoIter σ → PIter → Prop where
  | bad (e : Err) (p : Patcher) (s : σ) (y : PIter) : FromDeltaIo io e → p.st = .error → IterSim io view (.done e p s) y
  | done (rc : Err) (p : Patcher) (s : σ) : IterSim io view (.done rc p s) (.done rc (p.on (view s)))
  | more (p : Patcher) (s : σ) (b : Bytes) : IterSim io view (.more p s b) (.more (p.on (view s)) b)
  | ub : IterSim io view .ub .ub

theorem iter_sim (hio : HonestIo io view origin) (c : PatchCfg) (hc : c.rd = fileReader origin) (p : Patcher) (s : σ) (b : Bytes) :
    IterSim io view (patchIterIo io c p s b) (patchIter c (p.on (view s)) b) := by
  obtain ⟨st, ctrl, diff, extra, adjust, opos, wpos, out⟩ := p
  show IterSim io view (patchIterIo io c ⟨st, ctrl, diff, extra, adjust, opos, wpos, out⟩ s b)
    (patchIter c ⟨st, ctrl, diff, extra, adjust, opos, wpos, view s⟩ b)
  unfold patchIterIo patchIter
  cases st with
  | fillCtrl =>
    dsimp only
    by_cases h1 : ctrl.length < 24
    · rw [if_pos h1, if_pos h1]
      by_cases h2 : (ctrl ++ b.take (min b.length (24 - ctrl.length))).length = 24
      · rw [if_pos h2, if_pos h2]; exact .more _ _ _
      · rw [if_neg h2, if_neg h2]; exact .done _ _ _
    · rw [if_neg h1, if_neg h1]; exact .done _ _ _
  | readCtrl =>
    dsimp only
    by_cases h2 : b = []
    · rw [if_pos h2, if_pos h2]; exact .done _ _ _
    · rw [if_neg h2, if_neg h2]; exact .more _ _ _
  | applyDiff =>
    dsimp only
    by_cases hd : min (min (b.length : Int) diff) c.bufLen < 0
    · rw [if_pos hd, if_pos hd]; exact .ub
    · rw [if_neg hd, if_neg hd]
      rcases hr : io.rd s (c.originOff + opos) (min (min (b.length : Int) diff) c.bufLen).toNat with ⟨s1, r⟩
      cases r with
      | error e => exact .bad _ _ _ _ (Or.inr (Or.inl ⟨_, _, _, _, hr⟩)) rfl
      | ok o =>
        dsimp only
        by_cases ho : o.length ≠ (min (min (b.length : Int) diff) c.bufLen).toNat
        · rw [if_pos ho]
          exact .bad _ _ _ _ (Or.inr (Or.inr (Or.inr ⟨rfl, _, _, _, _, _, hr, ho⟩))) rfl
        · rw [if_neg ho]
          obtain ⟨e1, e2⟩ := honest_rd hio hr (Classical.not_not.1 ho)
          rw [hc, e1]
          dsimp only
          rcases ioPut_cases hio s1 (c.outOff + wpos) (List.zipWith (· + ·) o (b.take (min (min (b.length : Int) diff) c.bufLen).toNat)) with
            ⟨s2, e, h3, h4⟩ | ⟨s2, h3, h4⟩
          · rw [h3]
            exact .bad _ _ _ _ h4 rfl
          · rw [h3]
            dsimp only
            rw [e2] at h4
            rw [← h4]
            by_cases h5 : b.drop (min (min (b.length : Int) diff) c.bufLen).toNat = []
            · rw [if_pos h5, if_pos h5]
              by_cases h6 : diff - (min (min (b.length : Int) diff) c.bufLen) = 0
              · rw [if_pos h6, if_pos h6]
                by_cases h7 : extra > 0
                · rw [if_pos h7, if_pos h7]; exact .done _ _ _
                · rw [if_neg h7, if_neg h7]; exact .done _ _ _
              · rw [if_neg h6, if_neg h6]; exact .done _ _ _
            · rw [if_neg h5, if_neg h5]
              by_cases h6 : diff - (min (min (b.length : Int) diff) c.bufLen) = 0
              · rw [if_pos h6, if_pos h6]
                by_cases h7 : extra > 0
                · rw [if_pos h7, if_pos h7]; exact .more _ _ _
                · rw [if_neg h7, if_neg h7]; exact .more _ _ _
              · rw [if_neg h6, if_neg h6]; exact .more _ _ _
  | applyExtra =>
    dsimp only
    by_cases hd : min (b.length : Int) extra < 0
    · rw [if_pos hd, if_pos hd]; exact .ub
    · rw [if_neg hd, if_neg hd]
      rcases ioPut_cases hio s (c.outOff + wpos) (b.take (min (b.length : Int) extra).toNat) with ⟨s2, e, h3, h4⟩ | ⟨s2, h3, h4⟩
      · rw [h3]
        exact .bad _ _ _ _ h4 rfl
      · rw [h3]
        dsimp only
        rw [← h4]
        by_cases h6 : extra - (min (b.length : Int) extra) = 0
        · rw [if_pos h6, if_pos h6]
          by_cases h5 : b.drop (min (b.length : Int) extra).toNat = []
          · rw [if_pos h5, if_pos h5]; exact .done _ _ _
          · rw [if_neg h5, if_neg h5]; exact .more _ _ _
        · rw [if_neg h6, if_neg h6]; exact .done _ _ _
  | error => exact .done _ _ _

/-- The same for a call. -/
inductive CallSim (io : PatchIo σ) (view : σ → Bytes) : IoRes σ → PRes → Prop where
  | bad (e : Err) (p : Patcher) (s : σ) (y : PRes) : FromDeltaIo io e → p.st = .error → CallSim io view (.ret e p s) y
  | ret (rc : Err) (p : Patcher) (s : σ) : CallSim io view (.ret rc p s) (.ret rc (p.on (view s)))
  | ub : CallSim io view .ub .ub
  | hang : CallSim io view .hang .hang

theorem loop_sim (hio : HonestIo io view origin) (c : PatchCfg) (hc : c.rd = fileReader origin) (k : Nat) : ∀ (p : Patcher) (s : σ) (b : Bytes),
    CallSim io view (patchLoopIo io c k p s b) (patchLoop c k (p.on (view s)) b) := by
  induction k with
  | zero => exact fun _ _ _ => .hang
  | succ k ih =>
    intro p s b
    unfold patchLoopIo patchLoop
    have h := iter_sim hio c hc p s b
    generalize patchIterIo io c p s b = x at h
    generalize patchIter c (p.on (view s)) b = y at h
    cases h with
    | bad e p s _ h1 h2 => exact .bad _ _ _ _ h1 h2
    | done rc p s => exact .ret _ _ _
    | more p s b => exact ih p s b
    | ub => exact .ub

theorem write_sim (hio : HonestIo io view origin) (c : PatchCfg) (hc : c.rd = fileReader origin) (p : Patcher) (s : σ) (b : Bytes) :
    CallSim io view (bspatchWriteIo io c p s b) (bspatchWrite c (p.on (view s)) b) := loop_sim hio c hc _ p s b

/-- The same for a sequence of calls: errors are the same or come from a callback. -/
inductive DrvSim {α β : Type} (io : PatchIo σ) (R : α → β → Prop) : Drv α → Drv β → Prop where
  | bad (e : Err) (y : Drv β) : FromDeltaIo io e → DrvSim io R (.fail e) y
  | fail (e : Err) : DrvSim io R (.fail e) (.fail e)
  | ok (a : α) (b : β) : R a b → DrvSim io R (.ok a) (.ok b)
  | ub : DrvSim io R .ub .ub
  | hang : DrvSim io R .hang .hang

theorem run_sim (hio : HonestIo io view origin) (hz : ¬ FromDeltaIo io .ok) (c : PatchCfg) (hc : c.rd = fileReader origin) (bs : List Bytes) :
    ∀ (p : Patcher) (s : σ), (∃ p' s', bspatchRunIo io c p s bs = .ok (p', s') ∧ bspatchRun c (p.on (view s)) bs = .ok (p'.on (view s'))) ∨
      (∃ e, bspatchRunIo io c p s bs = .fail e ∧ (FromDeltaIo io e ∨ bspatchRun c (p.on (view s)) bs = .fail e)) ∨
      (bspatchRunIo io c p s bs = .ub ∧ bspatchRun c (p.on (view s)) bs = .ub) ∨
      (bspatchRunIo io c p s bs = .hang ∧ bspatchRun c (p.on (view s)) bs = .hang) := by
  induction bs with
  | nil => exact fun p s => Or.inl ⟨p, s, rfl, rfl⟩
  | cons b bs ih =>
    intro p s
    unfold bspatchRunIo bspatchRun
    have h := write_sim hio c hc p s b
    generalize bspatchWriteIo io c p s b = x at h
    generalize bspatchWrite c (p.on (view s)) b = y at h
    cases h with
    | bad e p s _ h1 h2 => cases e <;> first | exact absurd h1 hz | exact Or.inr (Or.inl ⟨_, rfl, Or.inl h1⟩)
    | ret rc p s => cases rc <;> first | exact ih p s | exact Or.inr (Or.inl ⟨_, rfl, Or.inr rfl⟩)
    | ub => exact Or.inr (Or.inr (Or.inl ⟨rfl, rfl⟩))
    | hang => exact Or.inr (Or.inr (Or.inr ⟨rfl, rfl⟩))

/-! ### Heatshrink -/

/-- The contexts agree but for the file. -/
def HsOn (view : σ → Bytes) (a : HsPatch × σ) (b : HsPatch) : Prop := b = ⟨a.1.dec, a.1.p.on (view a.2), a.1.inPos⟩

theorem hsPolls_sim (hio : HonestIo io view origin) (hz : ¬ FromDeltaIo io .ok) (c : PatchCfg) (hc : c.rd = fileReader origin) (k : Nat) :
    ∀ (a : HsPatch × σ) (b : HsPatch), HsOn view a b → DrvSim io (HsOn view) (hsPollsIo io c k a.1 a.2) (hsPolls c k b) := by
  induction k with
  | zero => exact fun _ _ _ => .hang
  | succ k ih =>
    rintro ⟨h, s⟩ b rfl
    unfold hsPollsIo hsPolls
    dsimp only
    cases decPoll h.dec c.bufLen with
    | none => exact .hang
    | some r =>
      cases r with
      | ub => exact .ub
      | ret r =>
        obtain ⟨more, dec, e⟩ := r
        dsimp only
        have hw := write_sim hio c hc h.p s e
        generalize bspatchWriteIo io c h.p s e = x at hw
        generalize bspatchWrite c (h.p.on (view s)) e = y at hw
        cases hw with
        | bad e p s _ h1 h2 => cases e <;> first | exact absurd h1 hz | exact .bad _ _ h1
        | ret rc p s =>
          cases rc <;> first
            | exact .fail _
            | (dsimp only
               cases more with
               | true => exact ih (⟨dec, p, h.inPos⟩, s) _ rfl
               | false => exact .ok _ _ rfl)
        | ub => exact .ub
        | hang => exact .hang

theorem hsDrain_sim (hio : HonestIo io view origin) (hz : ¬ FromDeltaIo io .ok) (c : PatchCfg) (hc : c.rd = fileReader origin) (n k : Nat) :
    ∀ (a : HsPatch × σ) (b : HsPatch), HsOn view a b → DrvSim io (HsOn view) (hsDrainIo io c n k a.1 a.2) (hsDrain c n k b) := by
  induction k with
  | zero => exact fun _ _ _ => .hang
  | succ k ih =>
    intro a b hR
    unfold hsDrainIo hsDrain
    have h := hsPolls_sim hio hz c hc (2^19) a b hR
    generalize hsPollsIo io c (2^19) a.1 a.2 = x at h
    generalize hsPolls c (2^19) b = y at h
    cases h with
    | bad e _ h1 => exact .bad _ _ h1
    | fail e => exact .fail _
    | ub => exact .ub
    | hang => exact .hang
    | ok a b h1 =>
      obtain ⟨h, s⟩ := a
      dsimp only
      have h1' := h1
      subst h1'
      dsimp only
      by_cases h2 : h.inPos = n ∧ decFinish h.dec = false
      · rw [if_pos h2, if_pos h2]; exact ih (h, s) _ rfl
      · rw [if_neg h2, if_neg h2]; exact .ok _ _ rfl

theorem hsWriteGo_sim (hio : HonestIo io view origin) (hz : ¬ FromDeltaIo io .ok) (c : PatchCfg) (hc : c.rd = fileReader origin) (n k : Nat) :
    ∀ (a : HsPatch × σ) (b : HsPatch) (rest : Bytes), HsOn view a b → DrvSim io (HsOn view) (hsWriteGoIo io c n k a.1 a.2 rest) (hsWriteGo c n k b rest) := by
  induction k with
  | zero => exact fun _ _ _ _ => .hang
  | succ k ih =>
    rintro ⟨h, s⟩ b rest rfl
    unfold hsWriteGoIo hsWriteGo
    dsimp only
    cases decSink h.dec rest with
    | ub => exact .ub
    | ret r =>
      obtain ⟨m, dec⟩ := r
      dsimp only
      have hd := hsDrain_sim hio hz c hc n 2 (⟨dec, h.p, h.inPos + m⟩, s) _ rfl
      dsimp only at hd
      generalize hsDrainIo io c n 2 ⟨dec, h.p, h.inPos + m⟩ s = x at hd
      generalize hsDrain c n 2 ⟨dec, h.p.on (view s), h.inPos + m⟩ = y at hd
      cases hd with
      | bad e _ h1 => exact .bad _ _ h1
      | fail e => exact .fail _
      | ub => exact .ub
      | hang => exact .hang
      | ok a b h1 =>
        obtain ⟨h', s'⟩ := a
        dsimp only
        by_cases h2 : rest.length > m
        · rw [if_pos h2, if_pos h2]; exact ih (h', s') b _ h1
        · rw [if_neg h2, if_neg h2]; exact .ok _ _ h1

theorem hsRun_sim (hio : HonestIo io view origin) (hz : ¬ FromDeltaIo io .ok) (c : PatchCfg) (hc : c.rd = fileReader origin) (n : Nat) (bs : List Bytes) :
    ∀ (a : HsPatch × σ) (b : HsPatch), HsOn view a b → DrvSim io (HsOn view) (hsRunIo io c n a.1 a.2 bs) (hsRun c n b bs) := by
  induction bs with
  | nil => exact fun _ _ h => .ok _ _ h
  | cons x bs ih =>
    rintro ⟨h, s⟩ b rfl
    unfold hsRunIo hsRun hsWriteIo hsWrite
    dsimp only
    by_cases h1 : h.inPos ≥ n
    · rw [if_pos h1, if_pos h1]; exact .fail _
    · rw [if_neg h1, if_neg h1]
      have hd := hsWriteGo_sim hio hz c hc n (x.length + 1) (h, s) _ x rfl
      dsimp only at hd
      generalize hsWriteGoIo io c n (x.length + 1) h s x = u at hd
      generalize hsWriteGo c n (x.length + 1) ⟨h.dec, h.p.on (view s), h.inPos⟩ x = v at hd
      cases hd with
      | bad e _ h1 => exact .bad _ _ h1
      | fail e => exact .fail _
      | ub => exact .ub
      | hang => exact .hang
      | ok a b h2 => exact ih a b h2

/-! ### LZMA -/

variable [LzmaLib]

/-- The contexts agree but for the file. -/
def LzOn (view : σ → Bytes) (a : LzPatch × σ) (b : LzPatch) : Prop := b = ⟨a.1.calls, a.1.p.on (view a.2)⟩

theorem lzPatchGo_sim (hio : HonestIo io view origin) (hz : ¬ FromDeltaIo io .ok) (c : PatchCfg) (hc : c.rd = fileReader origin) (fin : Bool) (k : Nat) :
    ∀ (a : LzPatch × σ) (b : LzPatch) (rest : Bytes), LzOn view a b → DrvSim io (LzOn view) (lzPatchGoIo io c fin k a.1 a.2 rest) (lzPatchGo c fin k b rest) := by
  induction k with
  | zero => exact fun _ _ _ _ => .hang
  | succ k ih =>
    rintro ⟨h, s⟩ b rest rfl
    unfold lzPatchGoIo lzPatchGo
    dsimp only
    by_cases h0 : rest = [] ∧ fin = false
    · rw [if_pos h0, if_pos h0]; exact .ok _ _ rfl
    · rw [if_neg h0, if_neg h0]
      generalize LzmaLib.dec h.calls ⟨rest, 8192, fin⟩ = d
      have hw : CallSim io view (if d.out.length > 0 then bspatchWriteIo io c h.p s d.out else .ret .ok h.p s) (lzPass c (h.p.on (view s)) d.out) := by
        unfold lzPass
        by_cases h1 : d.out.length > 0
        · rw [if_pos h1, if_pos h1]; exact write_sim hio c hc _ _ _
        · rw [if_neg h1, if_neg h1]; exact .ret _ _ _
      generalize (if d.out.length > 0 then bspatchWriteIo io c h.p s d.out else .ret .ok h.p s) = x at hw
      generalize lzPass c (h.p.on (view s)) d.out = y at hw
      cases hw with
      | bad e p s _ h1 h2 => cases e <;> first | exact absurd h1 hz | exact .bad _ _ h1
      | ret rc p s =>
        cases rc <;> first
          | exact .fail _
          | (dsimp only
             cases d.ret with
             | ok => exact ih (⟨_, p⟩, s) _ _ rfl
             | streamEnd => exact .ok _ _ rfl
             | error => exact .fail _)
      | ub => exact .ub
      | hang => exact .hang

theorem lzPatchRun_sim (hio : HonestIo io view origin) (hz : ¬ FromDeltaIo io .ok) (c : PatchCfg) (hc : c.rd = fileReader origin) (bs : List Bytes) :
    ∀ (a : LzPatch × σ) (b : LzPatch), LzOn view a b → DrvSim io (LzOn view) (lzPatchRunIo io c a.1 a.2 bs) (lzPatchRun c b bs) := by
  induction bs with
  | nil => exact fun _ _ h => .ok _ _ h
  | cons x bs ih =>
    rintro ⟨h, s⟩ b rfl
    unfold lzPatchRunIo lzPatchRun lzPatchWriteIo lzPatchWrite
    dsimp only
    have hd := lzPatchGo_sim hio hz c hc (decide (x.length = 0)) (LzmaLib.decRounds h.calls x + 1) (h, s) _ x rfl
    dsimp only at hd
    generalize lzPatchGoIo io c (decide (x.length = 0)) (LzmaLib.decRounds h.calls x + 1) h s x = u at hd
    generalize lzPatchGo c (decide (x.length = 0)) (LzmaLib.decRounds h.calls x + 1) ⟨h.calls, h.p.on (view s)⟩ x = v at hd
    cases hd with
    | bad e _ h1 => exact .bad _ _ h1
    | fail e => exact .fail _
    | ub => exact .ub
    | hang => exact .hang
    | ok a b h2 => exact ih a b h2

theorem lzPatchFinal_sim (hio : HonestIo io view origin) (hz : ¬ FromDeltaIo io .ok) (c : PatchCfg) (hc : c.rd = fileReader origin) (a : LzPatch × σ) (b : LzPatch)
    (hR : LzOn view a b) : DrvSim io (fun (x : Nat × σ) (y : LzPatch × Nat) => x.1 = y.2 ∧ y.1.p.out = view x.2) (lzPatchFinalIo io c a.1 a.2) (lzPatchFinal c b) := by
  obtain ⟨h, s⟩ := a
  subst hR
  unfold lzPatchFinalIo lzPatchFinal lzPatchWriteIo lzPatchWrite
  dsimp only
  show DrvSim io _ _ (if h.p.st = .error then _ else _)
  by_cases h0 : h.p.st = .error
  · rw [if_pos h0, if_pos h0]; exact .fail _
  · rw [if_neg h0, if_neg h0]
    have hd := lzPatchGo_sim hio hz c hc (decide (([] : Bytes).length = 0)) (LzmaLib.decRounds h.calls [] + 1) (h, s) _ [] rfl
    dsimp only at hd
    generalize lzPatchGoIo io c (decide (([] : Bytes).length = 0)) (LzmaLib.decRounds h.calls [] + 1) h s [] = u at hd
    generalize lzPatchGo c (decide (([] : Bytes).length = 0)) (LzmaLib.decRounds h.calls [] + 1) ⟨h.calls, h.p.on (view s)⟩ [] = v at hd
    cases hd with
    | bad e _ h1 => exact .bad _ _ h1
    | fail e => exact .fail _
    | ub => exact .ub
    | hang => exact .hang
    | ok a b h2 =>
      obtain ⟨h', s'⟩ := a
      subst h2
      exact .ok _ _ ⟨rfl, rfl⟩

end Bpak
