import Verif.Model.HsDelta
import Verif.Proof.PatchNil
import Verif.Props.HsEnc
/-!
The drivers around heatshrink.
-/
namespace Bpak

/-! ### How much one load of input can bring out -/

theorem tokens_fold_len : ∀ (k : Nat) (l : List Bool) (h : Bytes), l.length ≤ k → ((tokens l).foldl Tok.apply h).length ≤ h.length + 128 * l.length := by
  intro k
  induction k with
  | zero => intro l h hl; rw [List.eq_nil_of_length_eq_zero (by omega : l.length = 0), tokens_nil]; simp
  | succ k ih =>
    intro l h hl
    rw [tokens.eq_def]
    split
    · simp
    · rename_i t
      simp only [List.length_cons] at hl ⊢
      split
      · rw [List.foldl_cons]
        have := ih (t.drop 8) (h ++ [BitVec.ofNat 8 (bitsVal (t.take 8))]) (by rw [List.length_drop]; omega)
        rw [List.length_append, List.length_drop] at this
        simp only [Tok.apply]
        simp only [List.length_cons, List.length_nil] at this
        omega
      · simp only [List.foldl_nil]; omega
    · rename_i t
      simp only [List.length_cons] at hl ⊢
      split
      · rename_i h15
        rw [List.foldl_cons]
        have hb : bitsVal ((t.drop 8).take 7) < 128 := by
          have := bitsVal_lt ((t.drop 8).take 7)
          rw [List.length_take, List.length_drop, Nat.min_eq_left (by omega)] at this
          exact this
        have := ih (t.drop 15) (copyBack h (bitsVal (t.take 8) + 1) (bitsVal ((t.drop 8).take 7) + 1)) (by rw [List.length_drop]; omega)
        rw [copyBack_len, List.length_drop] at this
        simp only [Tok.apply]
        omega
      · simp only [List.foldl_nil]; omega

theorem final_len (s : HsDec) (i : HDInv s) (hist : Bytes) : (s.final hist []).length < hist.length + 2^19 := by
  have hp := pending_le s i
  unfold HsDec.final finalHist
  rw [List.append_nil]
  split
  · have := tokens_fold_len _ s.pending hist (Nat.le_refl _); omega
  · have := tokens_fold_len _ (true :: s.pending) hist (Nat.le_refl _); simp only [List.length_cons] at this; omega
  · have := tokens_fold_len _ (false :: s.pending) hist (Nat.le_refl _); simp only [List.length_cons] at this; omega
  · split
    · have h1 := tokens_fold_len _ (s.pending.drop 7) (copyBack hist s.outIndex (bitsVal (s.pending.take 7) + 1)) (Nat.le_refl _)
      have hb := bitsVal_lt (s.pending.take 7)
      rw [List.length_take, Nat.min_eq_left (by omega)] at hb
      rw [copyBack_len, List.length_drop] at h1
      omega
    · omega
  · rename_i hst
    have h1 := tokens_fold_len _ s.pending (copyBack hist s.outIndex s.outCount) (Nat.le_refl _)
    rw [copyBack_len] at h1
    have := (i.cnt hst).2
    omega

/-! ### The decompressing side -/

/-- The outcome of the plain decoder, with `f` in place of success. -/
def POut.as (x : POut) (f : Patcher → Drv HsPatch) : Drv HsPatch :=
  match x with
  | .ok p => f p
  | .fail rc => .fail rc
  | .ub => .ub
  | .hang => .hang

/-- The state of the compressed path, against the plain decoder: the buffers `outs` it was given. -/
structure Sim (c : PatchCfg) (p0 : Patcher) (s : HsPatch) (taken : Bytes) (outs : List Bytes) (dr : Bool) : Prop where
  tinv : TInv ⟨s.dec, taken, outs.flatten, dr⟩
  run : bspatchRun c p0 outs = .ok s.p
  pos : s.inPos = taken.length

/-- The compressed path failed as the plain decoder fails on buffers `outs`, which are a beginning of what `taken`
decompresses to. -/
def FailsAs (c : PatchCfg) (p0 : Patcher) (taken : Bytes) (r : Drv HsPatch) : Prop :=
  ∃ outs, outs.flatten <+: hsExpand taken ∧ (∀ p, bspatchRun c p0 outs ≠ .ok p) ∧ ∀ f, r = (bspatchRun c p0 outs).as f

theorem bspatchRun_append (c : PatchCfg) (xs ys : List Bytes) : ∀ (p q : Patcher), bspatchRun c p xs = .ok q → bspatchRun c p (xs ++ ys) = bspatchRun c q ys := by
  induction xs with
  | nil => intro p q h; injection h with h; subst h; rfl
  | cons x xs ih =>
    intro p q h
    rw [List.cons_append]
    rw [bspatchRun] at h ⊢
    split at h
    · exact ih _ _ h
    · cases h
    · cases h
    · cases h

theorem TInv.prefix {t : DTrace} (i : TInv t) : t.out <+: hsExpand t.taken := by
  have hf := i.final []
  rw [List.append_nil, reset_final] at hf
  have := final_prefix t.dec (zeros256 ++ t.out) []
  rw [← hf] at this
  exact (List.prefix_append_right_inj _).1 this

theorem TInv.all {t : DTrace} (i : TInv t) (hd : t.drained = true) : t.out = hsExpand t.taken := by
  have hf := i.final []
  rw [List.append_nil, reset_final, i.drain hd] at hf
  exact (List.append_cancel_left hf).symm

/-- What can still come out of the input taken. -/
theorem TInv.room {t : DTrace} (i : TInv t) : (hsExpand t.taken).length < t.out.length + 2^19 := by
  have hf := i.final []
  rw [List.append_nil, reset_final] at hf
  have := final_len t.dec i.inv (zeros256 ++ t.out)
  rw [← hf, List.length_append, List.length_append] at this
  omega

theorem hsPolls_ok (c : PatchCfg) (hb : 0 < c.bufLen) (p0 : Patcher) (taken : Bytes) : ∀ (k : Nat) (s : HsPatch) (outs : List Bytes) (dr : Bool),
    Sim c p0 s taken outs dr → (hsExpand taken).length < outs.flatten.length + k →
    (∃ s' outs', hsPolls c k s = .ok s' ∧ Sim c p0 s' taken outs' true ∧ decFinish s'.dec = true) ∨ FailsAs c p0 taken (hsPolls c k s) := by
  intro k
  induction k with
  | zero =>
    intro s outs dr i h
    have := i.tinv.prefix.length_le
    simp only at this
    omega
  | succ k ih =>
    intro s outs dr i h
    obtain ⟨more, d, e, h1, h2, h3, h4, h5, h6⟩ := i.tinv.poll c.bufLen
    simp only at h1 h6
    have hfl : (outs ++ [e]).flatten = outs.flatten ++ e := by simp
    have hra : bspatchRun c p0 (outs ++ [e]) = bspatchRun c s.p [e] := bspatchRun_append c outs [e] p0 s.p i.run
    have hpre : (outs ++ [e]).flatten <+: hsExpand taken := by rw [hfl]; exact h6.prefix
    unfold hsPolls
    rw [h1]
    simp only
    cases hw : bspatchWrite c s.p e with
    | hang =>
      right
      have hr : bspatchRun c p0 (outs ++ [e]) = .hang := by rw [hra]; unfold bspatchRun; rw [hw]; rfl
      exact ⟨_, hpre, by rw [hr]; simp, fun f => by rw [hr]; rfl⟩
    | ub =>
      right
      have hr : bspatchRun c p0 (outs ++ [e]) = .ub := by rw [hra]; unfold bspatchRun; rw [hw]; rfl
      exact ⟨_, hpre, by rw [hr]; simp, fun f => by rw [hr]; rfl⟩
    | ret rc p =>
      by_cases hrc : rc = .ok
      · subst hrc
        have hr : bspatchRun c p0 (outs ++ [e]) = .ok p := by rw [hra]; unfold bspatchRun; rw [hw]; rfl
        simp only
        cases more with
        | true =>
          simp only [if_true]
          refine ih ⟨d, p, s.inPos⟩ (outs ++ [e]) false ⟨by rw [hfl]; exact h6, hr, i.pos⟩ ?_
          rw [hfl, List.length_append, h3 rfl]
          omega
        | false =>
          simp only [Bool.false_eq_true, if_false]
          exact Or.inl ⟨_, outs ++ [e], rfl, ⟨by rw [hfl]; exact h6, hr, i.pos⟩, h5 rfl⟩
      · right
        have hr : bspatchRun c p0 (outs ++ [e]) = .fail rc := by
          rw [hra]; unfold bspatchRun; rw [hw]
          cases rc <;> first | exact absurd rfl hrc | rfl
        have hg : (match rc, p with
          | .ok, p => if more = true then hsPolls c k ⟨d, p, s.inPos⟩ else .ok ⟨d, p, s.inPos⟩
          | rc, _ => .fail rc : Drv HsPatch) = .fail rc := by cases rc <;> first | exact absurd rfl hrc | rfl
        refine ⟨_, hpre, by rw [hr]; simp, fun f => ?_⟩
        rw [hr]
        cases rc <;> first | exact absurd rfl hrc | rfl

/-- More input brings out more. -/
theorem expand_mono (a b : Bytes) : hsExpand a <+: hsExpand (a ++ b) := by
  obtain ⟨t, h, i⟩ := run_ok [.sink []] DTrace.start TInv.start
  have key : ∀ x : Bytes, zeros256 ++ hsExpand x = (tokens (bitsOf x)).foldl Tok.apply zeros256 := by
    intro x
    unfold hsExpand expandToks
    obtain ⟨r, hr⟩ := fold_prefix (tokens (bitsOf x)) zeros256
    rw [← hr, show (256 : Nat) = zeros256.length from zeros_len.symm, List.drop_left]
  have h2 : ∃ us, tokens (bitsOf (a ++ b)) = tokens (bitsOf a) ++ us := by
    rw [bitsOf_append]
    exact tokens_mono _ _ _ (Nat.le_refl _)
  obtain ⟨us, hu⟩ := h2
  have h3 := fold_prefix us ((tokens (bitsOf a)).foldl Tok.apply zeros256)
  rw [← List.foldl_append, ← hu, ← key, ← key] at h3
  exact (List.prefix_append_right_inj _).1 h3
where
  tokens_mono : ∀ (k : Nat) (l m : List Bool), l.length ≤ k → ∃ us, tokens (l ++ m) = tokens l ++ us := by
    intro k
    induction k with
    | zero => intro l m hl; rw [List.eq_nil_of_length_eq_zero (by omega : l.length = 0), tokens_nil]; exact ⟨_, rfl⟩
    | succ k ih =>
      intro l m hl
      match l with
      | [] => rw [tokens_nil]; exact ⟨_, rfl⟩
      | true :: t =>
        by_cases h8 : 8 ≤ t.length
        · obtain ⟨us, hu⟩ := ih (t.drop 8) m (by simp only [List.length_cons] at hl; rw [List.length_drop]; omega)
          refine ⟨us, ?_⟩
          have e : t = t.take 8 ++ t.drop 8 := (List.take_append_drop 8 t).symm
          have hl8 : (t.take 8).length = 8 := by rw [List.length_take]; omega
          rw [List.cons_append, e, List.append_assoc, tokens_lit _ _ hl8, tokens_lit _ _ hl8, hu]
          rfl
        · rw [tokens_lit_short t (by omega)]; exact ⟨_, rfl⟩
      | false :: t =>
        by_cases h15 : 15 ≤ t.length
        · obtain ⟨us, hu⟩ := ih (t.drop 15) m (by simp only [List.length_cons] at hl; rw [List.length_drop]; omega)
          refine ⟨us, ?_⟩
          have e : t = t.take 8 ++ ((t.drop 8).take 7 ++ t.drop 15) := by
            have h1 := (List.take_append_drop 8 t).symm
            have h2 := (List.take_append_drop 7 (t.drop 8)).symm
            rw [List.drop_drop] at h2
            rw [← h2]; exact h1
          have hl8 : (t.take 8).length = 8 := by rw [List.length_take]; omega
          have hl7 : ((t.drop 8).take 7).length = 7 := by rw [List.length_take, List.length_drop]; omega
          rw [List.cons_append, e, List.append_assoc, List.append_assoc, tokens_ref _ _ _ hl8 hl7, tokens_ref _ _ _ hl8 hl7, hu]
          rfl
        · rw [tokens_ref_short t (by omega)]; exact ⟨_, rfl⟩

theorem FailsAs.mono {c : PatchCfg} {p0 : Patcher} {a : Bytes} {r : Drv HsPatch} (h : FailsAs c p0 a r) (b : Bytes) : FailsAs c p0 (a ++ b) r := by
  obtain ⟨outs, h1, h2⟩ := h
  exact ⟨outs, h1.trans (expand_mono a b), h2⟩

theorem FailsAs.ne {c : PatchCfg} {p0 : Patcher} {a : Bytes} {r : Drv HsPatch} (h : FailsAs c p0 a r) (s : HsPatch) : r ≠ .ok s := by
  obtain ⟨outs, _, h2, h3⟩ := h
  have := h3 (fun _ => .hang)
  rw [this]
  cases hr : bspatchRun c p0 outs with
  | ok p => exact absurd hr (h2 p)
  | _ => simp [POut.as]

theorem hsDrain_ok (c : PatchCfg) (hb : 0 < c.bufLen) (inLen : Nat) (p0 : Patcher) (taken : Bytes) (s : HsPatch) (outs : List Bytes) (dr : Bool) (i : Sim c p0 s taken outs dr) :
    (∃ s' outs', hsDrain c inLen 2 s = .ok s' ∧ Sim c p0 s' taken outs' true ∧ decFinish s'.dec = true) ∨ FailsAs c p0 taken (hsDrain c inLen 2 s) := by
  have hroom := i.tinv.room
  simp only at hroom
  unfold hsDrain
  rcases hsPolls_ok c hb p0 taken (2^19) s outs dr i hroom with ⟨s', outs', h1, h2, h3⟩ | h
  · left
    rw [h1]
    simp only
    rw [if_neg (by rw [h3]; simp)]
    exact ⟨s', outs', rfl, h2, h3⟩
  · right
    revert h
    cases hsPolls c (2^19) s with
    | ok s' => intro h; exact absurd rfl (h.ne s')
    | fail rc => intro h; exact h
    | ub => intro h; exact h
    | hang => intro h; exact h

theorem dec_empty {s : HsDec} (h : decFinish s = true) : s.inputSize = 0 := by
  unfold decFinish at h
  split at h
  · cases h
  · exact of_decide_eq_true h

theorem hsWriteGo_ok (c : PatchCfg) (hb : 0 < c.bufLen) (inLen : Nat) (p0 : Patcher) : ∀ (k : Nat) (s : HsPatch) (taken : Bytes) (outs : List Bytes) (rest : Bytes),
    decFinish s.dec = true → Sim c p0 s taken outs true → rest.length < k →
    (∃ s' outs', hsWriteGo c inLen k s rest = .ok s' ∧ Sim c p0 s' (taken ++ rest) outs' true ∧ decFinish s'.dec = true) ∨
      FailsAs c p0 (taken ++ rest) (hsWriteGo c inLen k s rest) := by
  intro k
  induction k with
  | zero => intro s taken outs rest _ _ h; omega
  | succ k ih =>
    intro s taken outs rest hf i hk
    obtain ⟨n, d, h1, h2, h3⟩ := i.tinv.sink rest
    simp only at h1 h2 h3
    rw [dec_empty hf] at h2
    unfold hsWriteGo
    rw [h1]
    simp only
    have hl : (rest.take n).length = n := by rw [List.length_take]; omega
    have hall : taken ++ rest = taken ++ rest.take n ++ rest.drop n := by rw [List.append_assoc, List.take_append_drop]
    rcases hsDrain_ok c hb inLen p0 (taken ++ rest.take n) ⟨d, s.p, s.inPos + n⟩ outs false ⟨h3, i.run, by simp only; rw [i.pos, List.length_append, hl]⟩ with ⟨s', outs', g1, g2, g3⟩ | h
    · rw [g1]
      simp only
      by_cases hr : rest.length > n
      · rw [if_pos hr]
        have := ih s' (taken ++ rest.take n) outs' (rest.drop n) g3 g2 (by rw [List.length_drop]; omega)
        rw [← hall] at this
        exact this
      · rw [if_neg hr]
        left
        have : rest.take n = rest := List.take_of_length_le (by omega)
        rw [this] at g2
        exact ⟨s', outs', rfl, g2, g3⟩
    · right
      have h := h.mono (rest.drop n)
      rw [← hall] at h
      revert h
      cases hsDrain c inLen 2 ⟨d, s.p, s.inPos + n⟩ with
      | ok s' => intro h; exact absurd rfl (h.ne s')
      | fail rc => intro h; exact h
      | ub => intro h; exact h
      | hang => intro h; exact h

/-- No write comes after all announced input has been taken. -/
def InTime (inLen : Nat) (xs : List Bytes) : Prop := ∀ pre x post, xs = pre ++ x :: post → pre.flatten.length < inLen

theorem hsRun_ok (c : PatchCfg) (hb : 0 < c.bufLen) (inLen : Nat) (p0 : Patcher) : ∀ (xs : List Bytes) (s : HsPatch) (taken : Bytes) (outs : List Bytes),
    decFinish s.dec = true → Sim c p0 s taken outs true → (∀ pre x post, xs = pre ++ x :: post → (taken ++ pre.flatten).length < inLen) →
    (∃ s' outs', hsRun c inLen s xs = .ok s' ∧ Sim c p0 s' (taken ++ xs.flatten) outs' true) ∨
      FailsAs c p0 (taken ++ xs.flatten) (hsRun c inLen s xs) := by
  intro xs
  induction xs with
  | nil => intro s taken outs _ i _; exact Or.inl ⟨s, outs, rfl, by simpa using i⟩
  | cons x xs ih =>
    intro s taken outs hf i ht
    unfold hsRun hsWrite
    have h0 := ht [] x xs rfl
    rw [List.flatten_nil, List.append_nil] at h0
    rw [if_neg (by rw [i.pos]; omega)]
    rw [List.flatten_cons]
    rcases hsWriteGo_ok c hb inLen p0 (x.length + 1) s taken outs x hf i (by omega) with ⟨s', outs', g1, g2, g3⟩ | h
    · rw [g1]
      simp only
      have := ih s' (taken ++ x) outs' g3 g2 (by
        intro pre y post e
        have := ht (x :: pre) y post (by rw [e]; rfl)
        rw [List.flatten_cons] at this
        rw [List.append_assoc]; exact this)
      rw [List.append_assoc] at this
      exact this
    · right
      have h := h.mono xs.flatten
      rw [List.append_assoc] at h
      revert h
      cases hsWriteGo c inLen (x.length + 1) s x with
      | ok s' => intro h; exact absurd rfl (h.ne s')
      | fail rc => intro h; exact h
      | ub => intro h; exact h
      | hang => intro h; exact h

theorem expand_nil : hsExpand [] = [] := by
  unfold hsExpand bitsOf
  rw [List.flatMap_nil, tokens_nil]
  unfold expandToks
  rw [List.foldl_nil]
  exact List.drop_of_length_le (by rw [zeros_len]; omega)

theorem Sim.init (c : PatchCfg) (f : Bytes) : Sim c (Patcher.init f) (HsPatch.init f) [] [] true := by
  refine ⟨?_, rfl, rfl⟩
  have t := TInv.start
  refine ⟨t.inv, t.win, t.final, ?_⟩
  intro _
  have h := reset_final []
  rw [expand_nil, show bitsOf [] = [] from rfl] at h
  rw [show (HsPatch.init f).dec = HsDec.reset from rfl]
  show HsDec.reset.final (zeros256 ++ []) [] = zeros256 ++ []
  rw [List.append_nil]
  rw [List.append_nil] at h
  exact h

/-- The compressed path, against the plain decoder on what the input decompresses to. -/
theorem hs_like_plain (c : PatchCfg) (hb : 0 < c.bufLen) (inLen : Nat) (f : Bytes) (xs : List Bytes) (ht : InTime inLen xs) :
    (∃ s outs, hsRun c inLen (HsPatch.init f) xs = .ok s ∧ outs.flatten = hsExpand xs.flatten ∧ bspatchRun c (Patcher.init f) outs = .ok s.p) ∨
      FailsAs c (Patcher.init f) xs.flatten (hsRun c inLen (HsPatch.init f) xs) := by
  rcases hsRun_ok c hb inLen (Patcher.init f) xs (HsPatch.init f) [] [] rfl (Sim.init c f) (fun pre x post e => by rw [List.nil_append]; exact ht pre x post e) with ⟨s, outs, h1, h2⟩ | h
  · left
    rw [List.nil_append] at h2
    exact ⟨s, outs, h1, h2.tinv.all rfl, h2.run⟩
  · right; exact h

/-- If the plain decoder accepts some way of cutting a stream, it accepts every beginning of it. -/
theorem run_prefix {c : PatchCfg} {p : Patcher} {D : Bytes} {Q : Patcher → Prop} (h : ∀ xs : List Bytes, xs.flatten = D → ∃ q, bspatchRun c p xs = .ok q ∧ Q q)
    (xs : List Bytes) (hx : xs.flatten <+: D) : ∃ q, bspatchRun c p xs = .ok q := by
  obtain ⟨r, hr⟩ := hx
  obtain ⟨q, h1, _⟩ := h (xs ++ [r]) (by simpa using hr)
  clear h
  induction xs generalizing p D with
  | nil => exact ⟨p, rfl⟩
  | cons x xs ih =>
    rw [List.cons_append] at h1
    unfold bspatchRun at h1 ⊢
    split at h1
    · rename_i p' hp
      exact ih rfl h1
    · cases h1
    · cases h1
    · cases h1

/-- The compressed path succeeds where the plain decoder does, with the same result. -/
theorem hs_accepts (c : PatchCfg) (hb : 0 < c.bufLen) (inLen : Nat) (f : Bytes) (xs : List Bytes) (ht : InTime inLen xs) (Q : Patcher → Prop)
    (h : ∀ ys : List Bytes, ys.flatten = hsExpand xs.flatten → ∃ q, bspatchRun c (Patcher.init f) ys = .ok q ∧ Q q) :
    ∃ s, hsRun c inLen (HsPatch.init f) xs = .ok s ∧ Q s.p := by
  rcases hs_like_plain c hb inLen f xs ht with ⟨s, outs, h1, h2, h3⟩ | ⟨outs, h1, h2, _⟩
  · obtain ⟨q, g1, g2⟩ := h outs h2
    rw [g1] at h3
    injection h3 with h3
    subst h3
    exact ⟨s, h1, g2⟩
  · obtain ⟨q, g⟩ := run_prefix h outs h1
    exact absurd g (h2 q)

/-- The plain decoder always returns, whatever the chunks. -/
theorem run_no_hang (c : PatchCfg) (hl : RdLaw c.rd) (hb : 0 < c.bufLen) : ∀ (xs : List Bytes) (p : Patcher), PInv p → bspatchRun c p xs ≠ .hang := by
  intro xs
  induction xs with
  | nil => intro p _; simp [bspatchRun]
  | cons x xs ih =>
    intro p hp
    unfold bspatchRun
    by_cases hx : x = []
    · subst hx
      rw [bspatchWrite_nil c hl p hp]
      cases ht : touch c p with
      | ok q => exact ih q (settle_inv hp (touch_settle ht)).1
      | fail => simp
      | ub => simp
      | hang =>
        unfold touch at ht
        repeat' split at ht
        all_goals cases ht
    · rw [bspatchWrite_eq c hl hb p x hp hx]
      cases hf : foldBytes c p x with
      | ok q => exact ih q (foldBytes_inv hp hf)
      | fail => simp
      | ub => simp
      | hang => exact absurd hf (foldBytes_no_hang c p x)

/-! ### The compressing side -/

/-- The compressor between writes. -/
structure CSim (off : Nat) (f : Bytes) (s : HsComp) (taken out : Bytes) : Prop where
  inv : ETInv ⟨s.enc, taken, out, false⟩
  file : s.file = fileWrite f off out
  pos : s.pos = out.length

theorem CSim.emit {off : Nat} {f : Bytes} {s : HsComp} {taken out : Bytes} (i : CSim off f s taken out) {enc : HsEnc} {e : Bytes} (h : ETInv ⟨enc, taken, out ++ e, false⟩) :
    CSim off f (s.emit off enc e) taken (out ++ e) := by
  unfold HsComp.emit
  split
  · refine ⟨h, ?_, by simp only; rw [List.length_append, i.pos]⟩
    simp only
    rw [i.file, i.pos, fileWrite_append]
  · rename_i h0
    have : e = [] := List.eq_nil_of_length_eq_zero (by omega)
    subst this
    rw [List.append_nil] at h ⊢
    exact ⟨h, i.file, i.pos⟩

theorem emit_enc (off : Nat) (s : HsComp) (enc : HsEnc) (e : Bytes) : (s.emit off enc e).enc = enc := by
  unfold HsComp.emit; split <;> rfl

theorem finishing_mode {s : HsEnc} {h o : Bytes} (i : EInv s h o) : (s.st = .notFull → s.finishing = false) ∧ (s.st = .done ∨ s.st = .flushBits → s.finishing = true) := by
  obtain ⟨_, ts, B, _, hmode, _⟩ := i
  unfold EMode at hmode
  refine ⟨?_, ?_⟩
  · intro h; simp only [h] at hmode; exact hmode.2.2.2.1
  · intro h
    rcases h with h | h <;> simp only [h] at hmode <;> exact hmode.2.1

/-- A poll of 4096 bytes never leaves output behind. -/
theorem poll_once {t : ETrace} (i : ETInv t) : ∃ s e, encPollCall t.enc 4096 = some (.ret (some (false, s, e))) ∧ ETInv ⟨s, t.taken, t.out ++ e, t.done⟩ ∧
    s.finishing = t.enc.finishing ∧ (s.st = .notFull ∨ s.st = .done) := by
  obtain ⟨more, s, e, h1, h2, h3, h4, h5, h6, h7⟩ := i.poll 4096
  have hm := emeasure_le _ i.inv.base.size
  have hno : more = false := by
    cases more with
    | false => rfl
    | true => have := h3 rfl; omega
  subst hno
  refine ⟨s, e, ?_, h7, h6, ?_⟩
  · unfold encPollCall
    rw [if_neg (by omega), h1]
  · rcases h4 rfl with h | h | ⟨_, h⟩
    · exact Or.inl h
    · exact Or.inr h
    · omega

theorem compPolls_ok {off : Nat} {f : Bytes} {s : HsComp} {taken out : Bytes} (i : CSim off f s taken out) (hf : s.enc.finishing = false) (k : Nat) :
    ∃ s' out', compPolls off (k+1) s = .ok s' ∧ CSim off f s' taken out' ∧ s'.enc.st = .notFull := by
  obtain ⟨enc, e, h1, h2, h3, h4⟩ := poll_once i.inv
  simp only at h1 h2 h3
  unfold compPolls
  rw [h1]
  simp only [Bool.false_eq_true, if_false]
  refine ⟨_, out ++ e, rfl, i.emit h2, ?_⟩
  rw [emit_enc]
  rcases h4 with h | h
  · exact h
  · have := (finishing_mode h2.inv).2 (Or.inl h)
    simp only at this
    rw [h3, hf] at this; cases this

theorem compWriteGo_ok (off : Nat) (f : Bytes) (all : Nat) : ∀ (k : Nat) (s : HsComp) (taken out rest : Bytes), CSim off f s taken out → s.enc.st = .notFull →
    rest.length < k → (all = 0 → rest = []) →
    ∃ s' out', compWriteGo off all k s rest = .ok s' ∧ CSim off f s' (taken ++ rest) out' ∧ s'.enc.st = .notFull := by
  intro k
  induction k with
  | zero => intro s taken out rest _ _ h; omega
  | succ k ih =>
    intro s taken out rest i hst hk h0
    unfold compWriteGo
    by_cases ha : all > 0
    · rw [if_pos ha]
      rcases i.inv.sink rest with h | ⟨n, enc, h1, h2, h3, h4⟩
      · exfalso
        obtain ⟨n, s', h1, _⟩ := esink_ok s.enc _ _ i.inv.inv rest hst
        simp only at h h1
        rw [h] at h1
        injection h1 with h1
        cases h1
      · simp only at h1 h2 h3 h4
        rw [h1]
        simp only
        have hfin : enc.finishing = false := by
          obtain ⟨n', s', g1, _, _, _, g5, _⟩ := esink_ok s.enc _ _ i.inv.inv rest hst
          rw [h1] at g1
          injection g1 with g1; injection g1 with g1
          rw [(Prod.mk.inj g1).2]; exact g5
        obtain ⟨s1, out1, g1, g2, g3⟩ := compPolls_ok (s := { s with enc := enc }) ⟨h4, i.file, i.pos⟩ hfin 1
        rw [g1]
        simp only
        have hall : taken ++ rest = taken ++ rest.take n ++ rest.drop n := by rw [List.append_assoc, List.take_append_drop]
        by_cases hr : rest.length > n
        · rw [if_pos hr]
          obtain ⟨s2, out2, k1, k2, k3⟩ := ih s1 _ out1 (rest.drop n) g2 g3 (by rw [List.length_drop]; omega) (by intro h; omega)
          rw [← hall] at k2
          exact ⟨s2, out2, k1, k2, k3⟩
        · rw [if_neg hr]
          rw [List.take_of_length_le (by omega)] at g2
          exact ⟨s1, out1, rfl, g2, g3⟩
    · rw [if_neg ha]
      simp only
      have hn : rest = [] := h0 (by omega)
      subst hn
      obtain ⟨s1, out1, g1, g2, g3⟩ := compPolls_ok i ((finishing_mode i.inv.inv).1 hst) 1
      rw [g1]
      simp only
      rw [if_neg (by simp), List.append_nil]
      exact ⟨s1, out1, rfl, g2, g3⟩

theorem compRun_ok (off : Nat) (f : Bytes) : ∀ (bs : List Bytes) (s : HsComp) (taken out : Bytes), CSim off f s taken out → s.enc.st = .notFull →
    ∃ s' out', compRun off s bs = .ok s' ∧ CSim off f s' (taken ++ bs.flatten) out' ∧ s'.enc.st = .notFull := by
  intro bs
  induction bs with
  | nil => intro s taken out i h; exact ⟨s, out, rfl, by simpa using i, h⟩
  | cons b bs ih =>
    intro s taken out i h
    unfold compRun compWrite
    obtain ⟨s1, out1, g1, g2, g3⟩ := compWriteGo_ok off f b.length (b.length + 1) s taken out b i h (by omega) (fun h => List.eq_nil_of_length_eq_zero h)
    rw [g1]
    simp only
    obtain ⟨s2, out2, k1, k2, k3⟩ := ih s1 _ out1 g2 g3
    rw [List.append_assoc] at k2
    exact ⟨s2, out2, k1, k2, k3⟩

theorem compFinal_ok {off : Nat} {f : Bytes} {s : HsComp} {taken out : Bytes} (i : CSim off f s taken out) (hst : s.enc.st = .notFull) :
    ∃ s' z, compFinalGo off 3 s = .ok s' ∧ s'.file = fileWrite f off z ∧ s'.pos = z.length ∧ hsExpand z = taken ∧ 8 * z.length ≤ 9 * taken.length + 7 := by
  have e1 : (encFinish s.enc).1 = false := by unfold encFinish; simp [hst]
  have j := i.inv.finish
  simp only [Bool.false_or] at j
  rw [e1] at j
  obtain ⟨enc, e, h1, h2, h3, h4⟩ := poll_once j
  simp only at h1 h2 h3
  have hf : (encFinish s.enc).2.finishing = true := rfl
  have hdone : enc.st = .done := by
    rcases h4 with h | h
    · have := (finishing_mode h2.inv).1 h
      simp only at this
      rw [h3, hf] at this; cases this
    · exact h
  have c1 : CSim off f { s with enc := (encFinish s.enc).2 } taken out := ⟨j, i.file, i.pos⟩
  have c2 := c1.emit h2
  unfold compFinalGo
  simp only [e1, Bool.false_eq_true, if_false]
  rw [h1]
  simp only
  unfold compFinalGo
  have e3 : (s.emit off enc e).enc = enc := emit_enc _ _ _ _
  have e2 : (encFinish (s.emit off enc e).enc).1 = true := by rw [e3]; unfold encFinish; simp [hdone]
  simp only [e2, if_true]
  have c3 : s.emit off enc e = ({ s with enc := (encFinish s.enc).2 } : HsComp).emit off enc e := by
    unfold HsComp.emit; split <;> rfl
  rw [← c3] at c2
  refine ⟨_, out ++ e, rfl, c2.file, c2.pos, ?_⟩
  exact ⟨done_expand enc taken (out ++ e) h2.inv hdone, done_size enc taken (out ++ e) h2.inv hdone⟩

theorem CSim.init (off : Nat) (f : Bytes) : CSim off f (HsComp.init f) [] [] :=
  ⟨ETInv.start, by simp [HsComp.init, fileWrite_nil], rfl⟩

/-- Compressing any buffers. -/
theorem comp_ok (off : Nat) (f : Bytes) (bufs : List Bytes) : ∃ s s' z, compRun off (HsComp.init f) bufs = .ok s ∧ compFinalGo off 3 s = .ok s' ∧
    s'.file = fileWrite f off z ∧ s'.pos = z.length ∧ hsExpand z = bufs.flatten ∧ 8 * z.length ≤ 9 * bufs.flatten.length + 7 := by
  obtain ⟨s, out, h1, h2, h3⟩ := compRun_ok off f bufs _ [] [] (CSim.init off f) rfl
  obtain ⟨s', z, g1, g2, g3, g4⟩ := compFinal_ok h2 h3
  rw [List.nil_append] at g4
  exact ⟨s, s', z, h1, g1, g2, g3, g4⟩

end Bpak
