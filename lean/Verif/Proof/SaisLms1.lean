import Verif.Proof.SaisLms
/-! `lms_sort_1`: the passes that sort the stretches. -/
namespace Bpak.Sais

/-- No marks. -/
def noMu : Nat → Int := fun _ => 0

/-- One step of the first pass. -/
theorem lmsStep1L_ok {L : Lay} (o : L.Ok) {F0 : Nat → Option Nat} {lo : Nat} (hs : LmsSeeds L F0 lo) {m0 : Mem} {i : Nat} (hi : i < L.n) {s : Cur}
    (r : Rep L m0 s.m s.c1 s.b2 (viewA L ((passL L F0).run i).F noMu i) (ptrs (passL L F0) i)) :
    ∃ s', lmsStep1L L.t L.b i s = some s' ∧ Rep L m0 s'.m s'.c1 s'.b2 (viewA L ((passL L F0).run (i + 1)).F noMu (i + 1)) (ptrs (passL L F0) (i + 1)) := by
  have hrd := r.rd hi
  unfold lmsStep1L
  cases ef : ((passL L F0).run i).F i with
  | none =>
    have hcold : (passL L F0).run (i + 1) = (passL L F0).run i := run_cold (fun q hq => by rw [ef] at hq; cases hq)
    rw [viewA_none ef] at hrd
    simp only [hrd, Option.bind_eq_bind, Option.bind_some]
    refine ⟨s, rfl, ?_⟩
    refine r.ext ?_ ?_
    · intro a _
      rw [hcold]
      by_cases e : a = i
      · subst e; rw [viewA_none ef, viewA_none ef]
      · rw [viewA_skip e]
    · intro c _
      unfold ptrs
      rw [hcold]
  | some q =>
    obtain ⟨h1, h2⟩ := hotL o hs ef
    have hlo := hs.entry ef
    have hlp := lms_pos hs.low
    by_cases hc : L.T q ≤ L.T (q - 1)
    · rw [decide_eq_true hc] at h1
      have hq := h2 h1
      obtain ⟨-, hqn, hT, hGn, hiG, -⟩ := target o hs.ok ef hq
      have s1 : q - 1 < L.n := by omega
      have hA : viewA L ((passL L F0).run i).F noMu i i = ((q - 1 : Nat) : Int) := by
        rw [viewA_some ef, if_pos hc, if_neg (by omega)]
        unfold noMu
        omega
      rw [hA] at hrd
      obtain ⟨m4, e4, r4⟩ := r.switch o (o.key _ s1)
      obtain ⟨m5, e5, r5⟩ := r4.wr o hGn (if L.T (q - 1 - 1) < L.T (q - 1) then -(((q - 1 : Nat) : Int) - 1 + noMu (((passL L F0).run i).G (L.T (q - 1)))) - 1
        else ((q - 1 : Nat) : Int) - 1 + noMu (((passL L F0).run i).G (L.T (q - 1))))
      obtain ⟨m6, e6, r6⟩ := r5.wr o hi 0
      have r7 := r6.move rfl ((((passL L F0).run i).G (L.T (q - 1)) : Nat) + 1)
      refine ⟨⟨m6, (L.T (q - 1) : Int), ((((passL L F0).run i).G (L.T (q - 1)) : Nat) : Int) + 1⟩, ?_, ?_⟩
      · have hc0 := r.chr s1
        have hc1 := r.chr' (i := q) hqn (z := ((q - 1 : Nat) : Int) + 1) (by omega)
        have hc2 := r4.chr' (i := q - 1 - 1) (by omega) (z := ((q - 1 : Nat) : Int) - 1) (by omega)
        simp only [hrd, Option.bind_eq_bind, Option.bind_some]
        rw [if_pos (by omega)]
        simp only [hc0, hc1, Option.bind_some]
        rw [if_neg (not_lt_cast hT), e4]
        simp only [Option.bind_some, hc2]
        have e5 : wr m4 (ptrs (passL L F0) i (L.T (q - 1))) (if (L.T (q - 1 - 1) : Int) < (L.T (q - 1) : Int) then -(((q - 1 : Nat) : Int) - 1) - 1 else ((q - 1 : Nat) : Int) - 1) = some m5 := by
          rw [← e5]
          unfold noMu
          show wr m4 _ _ = wr m4 (ptrs (passL L F0) i (L.T (q - 1))) _
          congr 1
          by_cases h3 : L.T (q - 1 - 1) < L.T (q - 1)
          · rw [if_pos (by omega), if_pos h3]; omega
          · rw [if_neg (by omega), if_neg h3]; omega
        rw [e5]
        simp only [Option.bind_some, e6]
        rfl
      · refine r7.ext ?_ ?_
        · intro a _
          exact viewA_hot ef hq hc hiG a
        · intro c _
          exact ptrs_hot ef hq c
    · rw [decide_eq_false hc] at h1
      have hA : viewA L ((passL L F0).run i).F noMu i i = -((q : Int) - 1) - 1 := by
        rw [viewA_some ef, if_neg hc, if_neg (by omega)]
        unfold noMu
        omega
      rw [hA] at hrd
      obtain ⟨m3, e3, r3⟩ := r.wr o hi ((q : Int) - 1)
      have hcold : (passL L F0).run (i + 1) = (passL L F0).run i := by
        apply run_cold
        intro x hx
        rw [ef] at hx
        cases hx
        unfold Pass.hot at h1
        simpa using h1
      refine ⟨⟨m3, s.c1, s.b2⟩, ?_, ?_⟩
      · simp only [hrd, Option.bind_eq_bind, Option.bind_some]
        rw [if_neg (by omega), if_pos (by omega), show -(-((q : Int) - 1) - 1) - 1 = (q : Int) - 1 by omega, e3]
        rfl
      · refine r3.ext ?_ ?_
        · intro a _
          rw [hcold]
          by_cases e : a = i
          · subst e
            rw [upd_eq, viewA_some ef, if_neg hc, if_pos (by omega)]
            unfold noMu
            omega
          · rw [upd_ne _ _ e, viewA_skip e]
        · intro c _
          unfold ptrs
          rw [hcold]

/-- The array before the first pass. -/
def rawA (F0 : Nat → Option Nat) (mu : Nat → Int) (a : Nat) : Int :=
  match F0 a with
  | none => 0
  | some s => (s : Int) - 1 + mu a

/-- The first entry. -/
theorem viewA_zero {L : Lay} (o : L.Ok) {F0 : Nat → Option Nat} {lo : Nat} (hs : LmsSeeds L F0 lo) {mu : Nat → Int} (a : Nat) :
    upd (rawA F0 mu) (L.start (L.T (L.n - 1))) (if L.T (L.n - 1 - 1) < L.T (L.n - 1) then -(((L.n - 1 : Nat) : Int) - 1 + mu (L.start (L.T (L.n - 1)))) - 1
      else ((L.n - 1 : Nat) : Int) - 1 + mu (L.start (L.T (L.n - 1)))) a = viewA L ((passL L F0).run 0).F mu 0 a := by
  by_cases e : a = L.start (L.T (L.n - 1))
  · rw [viewA_some (s := L.n - 1) (by rw [passL_zero, if_pos e])]
    subst e
    rw [upd_eq]
    by_cases h3 : L.T (L.n - 1 - 1) < L.T (L.n - 1)
    · rw [if_pos h3, if_neg (by omega), if_neg (by omega)]
    · rw [if_neg h3, if_pos (by omega), if_neg (by omega)]
  · rw [upd_ne _ _ e]
    have : ((passL L F0).run 0).F a = F0 a := by rw [passL_zero, if_neg e]
    unfold viewA rawA
    rw [this]
    cases e' : F0 a with
    | none => rfl
    | some s =>
      simp only
      have h1 := hs.ok.lms a s e'
      have h2 := lms_pos h1
      have h3 := lms_gt (i := s - 1) (by rw [show s - 1 + 1 = s by omega]; exact h1)
      rw [show s - 1 + 1 = s by omega] at h3
      rw [if_pos (by omega), if_neg (by omega)]

/-- The first pass. -/
theorem lmsSort1L_ok {L : Lay} (o : L.Ok) {F0 : Nat → Option Nat} {lo : Nat} (hs : LmsSeeds L F0 lo) {m : Mem} {f g : Nat → Int}
    (ha : Arr m 0 L.n (rawA F0 noMu)) (hc : Arr m L.c L.k f) (hb : Arr m L.b L.k g)
    (ht : HasTxt L.t m L.n L.T) (hcnt : L.c ≠ L.b → ∀ x < L.k, f x = (L.num x : Nat)) :
    ∃ m' B, lmsSort1L L.t L.c L.b L.n L.k m = some m' ∧ Holds L m m' (viewA L ((passL L F0).run L.n).F noMu L.n) B := by
  have hn := o.npos
  have hlp := lms_pos hs.low
  obtain ⟨m1, e1, h1⟩ := buckets_ok o false ha hc hb ht hcnt
  have h1 : Holds L m m1 (rawA F0 noMu) (fun x => ((L.start x : Nat) : Int)) := h1
  have hl : L.n - 1 < L.n := by omega
  have hkl := o.key _ hl
  have r1 := Rep.start h1 hkl
  have cj : ((L.n : Int) - 1) = ((L.n - 1 : Nat) : Int) := by omega
  have hst := first_slot o
  obtain ⟨m2, e2, r2⟩ := r1.wr o hst (if L.T (L.n - 1 - 1) < L.T (L.n - 1) then -(((L.n - 1 : Nat) : Int) - 1 + noMu (L.start (L.T (L.n - 1)))) - 1
      else ((L.n - 1 : Nat) : Int) - 1 + noMu (L.start (L.T (L.n - 1))))
  have r3 := r2.move rfl (((L.start (L.T (L.n - 1)) : Nat) : Int) + 1)
  have r4 : Rep L m m2 (L.T (L.n - 1) : Int) (((L.start (L.T (L.n - 1)) : Nat) : Int) + 1) (viewA L ((passL L F0).run 0).F noMu 0) (ptrs (passL L F0) 0) := by
    apply r3.ext
    · intro i _
      exact viewA_zero o hs i
    · intro c _
      exact ptrs_zero c
  obtain ⟨s, es, hsI⟩ := upto_rule (n := L.n) (body := lmsStep1L L.t L.b) (s := ⟨m2, L.T (L.n - 1), ((L.start (L.T (L.n - 1)) : Nat) : Int) + 1⟩)
    (fun i s => Rep L m s.m s.c1 s.b2 (viewA L ((passL L F0).run i).F noMu i) (ptrs (passL L F0) i)) r4
    (fun i s hi r => lmsStep1L_ok o hs hi r)
  obtain ⟨B, hB⟩ := hsI.done
  refine ⟨s.m, B, ?_, hB⟩
  unfold lmsSort1L
  rw [e1]
  have hc2 := r1.chr' (i := L.n - 1 - 1) (by omega) (z := ((L.n - 1 : Nat) : Int) - 1) (by omega)
  have e2 : wr m1 ((L.start (L.T (L.n - 1)) : Nat) : Int) (if (L.T (L.n - 1 - 1) : Int) < (L.T (L.n - 1) : Int) then -(((L.n - 1 : Nat) : Int) - 1) - 1 else ((L.n - 1 : Nat) : Int) - 1) = some m2 := by
    rw [← e2]
    unfold noMu
    congr 1
    by_cases h3 : L.T (L.n - 1 - 1) < L.T (L.n - 1)
    · rw [if_pos (by omega), if_pos h3]; omega
    · rw [if_neg (by omega), if_neg h3]; omega
  simp only [Option.bind_eq_bind, Option.bind_some, cj, r1.chr hl, h1.rdB hkl, hc2, e2, es]

/-- Between the passes. -/
theorem viewA_viewB {L : Lay} (o : L.Ok) {F0 : Nat → Option Nat} {lo : Nat} (hs : LmsSeeds L F0 lo) {mu mu' : Nat → Int} {a : Nat} (ha : a < L.n)
    (hmu : ∀ s, ((passL L F0).run L.n).F a = some s → sTy L.T L.n s = false → sTy L.T L.n (s - 1) = true → mu a = mu' (L.n - 1 - a)) :
    viewA L ((passL L F0).run L.n).F mu L.n a = viewB L (midF L F0) mu' 0 (L.n - 1 - a) := by
  cases ef : ((passL L F0).run L.n).F a with
  | none =>
    rw [viewA_none ef, viewB_none]
    cases em : midF L F0 (L.n - 1 - a) with
    | none => rfl
    | some s =>
      have := (midF_iff.1 em).2.1
      rw [show L.n - 1 - (L.n - 1 - a) = a by omega, ef] at this
      cases this
  | some s =>
    obtain ⟨h1, h2⟩ := entry_ty o hs.ok ef
    have h3 := hs.entry ef
    have hb := ty_before (by omega) h1 h2
    rw [viewA_some ef]
    cases hty : sTy L.T L.n s with
    | true =>
      have hl : lms L.T L.n s = true := by
        rcases h2 with h2 | h2
        · rw [hty] at h2; cases h2
        · exact h2
      rw [if_pos (hb.1 (lms_iff.1 hl).2.2), if_pos ha, viewB_none]
      cases em : midF L F0 (L.n - 1 - a) with
      | none => rfl
      | some s' =>
        have := (midF_iff.1 em).2
        rw [show L.n - 1 - (L.n - 1 - a) = a by omega, ef] at this
        have h4 := Option.some.inj this.1
        rw [← h4, hty] at this
        cases this.2
    | false =>
      have em : midF L F0 (L.n - 1 - a) = some s := midF_iff.2 ⟨by omega, by rw [show L.n - 1 - (L.n - 1 - a) = a by omega]; exact ef, hty⟩
      rw [viewB_some em]
      by_cases hc : L.T s ≤ L.T (s - 1)
      · have h5 := hb.2 hc
        rw [if_pos hc, if_pos ha, h5, if_neg (by simp), if_neg]
        intro hl
        rw [(lms_iff.1 hl).2.1] at hty
        cases hty
      · have h5 : sTy L.T L.n (s - 1) = true := by
          cases h6 : sTy L.T L.n (s - 1) with
          | true => rfl
          | false => exact absurd (hb.1 h6) hc
        rw [if_neg hc, if_pos ha, if_pos h5, if_neg (by omega), hmu s ef hty h5]

/-- One step of the second pass. -/
theorem lmsStep1S_ok {L : Lay} (o : L.Ok) {F0 : Nat → Option Nat} {lo : Nat} (hs : LmsSeeds L F0 lo) {m0 : Mem} {i t : Nat} (hi : i < L.n) (hit : i + t + 1 = L.n) {s : Cur}
    (r : Rep L m0 s.m s.c1 s.b2 (fun a => viewB L ((passS L (midF L F0)).run t).F noMu t (L.n - 1 - a)) (ptrsS L (passS L (midF L F0)) t)) :
    ∃ s', lmsStep1S L.t L.b i s = some s' ∧
      Rep L m0 s'.m s'.c1 s'.b2 (fun a => viewB L ((passS L (midF L F0)).run (t + 1)).F noMu (t + 1) (L.n - 1 - a)) (ptrsS L (passS L (midF L F0)) (t + 1)) := by
  have hrd := r.rd hi
  have hrd : rd s.m i = some (viewB L ((passS L (midF L F0)).run t).F noMu t (L.n - 1 - i)) := hrd
  rw [show L.n - 1 - i = t by omega] at hrd
  unfold lmsStep1S
  have sS := midF_seeds o hs.ok
  have cold : (∀ q, ((passS L (midF L F0)).run t).F t = some q → sTy L.T L.n (q - 1) = false) →
      Rep L m0 s.m s.c1 s.b2 (fun a => viewB L ((passS L (midF L F0)).run (t + 1)).F noMu (t + 1) (L.n - 1 - a)) (ptrsS L (passS L (midF L F0)) (t + 1)) := by
    intro h
    have hcold : (passS L (midF L F0)).run (t + 1) = (passS L (midF L F0)).run t := by
      apply run_cold
      intro q hq
      cases hp : (passS L (midF L F0)).pred q with
      | none => rfl
      | some p =>
        have := (passS_pred.1 hp).2.2.1
        rw [h q hq] at this
        cases this
    refine r.ext ?_ ?_
    · intro a _
      rw [hcold, viewB_skip h]
    · intro c _
      unfold ptrsS
      rw [hcold]
  cases ef : ((passS L (midF L F0)).run t).F t with
  | none =>
    rw [viewB_none ef] at hrd
    simp only [hrd, Option.bind_eq_bind, Option.bind_some]
    exact ⟨s, rfl, cold (fun q hq => by rw [ef] at hq; cases hq)⟩
  | some q =>
    obtain ⟨h1, h2, h3, hqn⟩ := hotS o hs ef
    have hlo := hs.entryS ef
    have hlp := lms_pos hs.low
    cases hty : sTy L.T L.n (q - 1) with
    | false =>
      have hle : viewB L ((passS L (midF L F0)).run t).F noMu t t ≤ 0 := by
        rw [viewB_some ef, hty, if_neg (by simp)]
        split
        · unfold noMu; omega
        · omega
      simp only [hrd, Option.bind_eq_bind, Option.bind_some]
      rw [if_neg (by omega)]
      refine ⟨s, rfl, cold (fun x hx => by rw [ef] at hx; cases hx; exact hty)⟩
    | true =>
      have hq := h2 (h1.trans hty)
      obtain ⟨-, -, hT, -, hGn, hiG, hnone⟩ := targetS o sS ef hq
      have hne : q ≠ lo := by
        intro h4
        have := (lms_iff.1 hs.low).2.2
        rw [← h4, hty] at this
        cases this
      have s1 : q - 1 < L.n := by omega
      have hA : viewB L ((passS L (midF L F0)).run t).F noMu t t = ((q - 1 : Nat) : Int) := by
        rw [viewB_some ef, if_pos hty, if_neg (by omega)]
        unfold noMu
        omega
      rw [hA] at hrd
      obtain ⟨m4, e4, r4⟩ := r.switch o (o.key _ s1)
      obtain ⟨m5, e5, r5⟩ := r4.wr o (i := L.n - 1 - ((passS L (midF L F0)).run t).G (L.k - 1 - L.T (q - 1))) (by omega)
        (if L.T (q - 1) < L.T (q - 1 - 1) then -(((q - 1 : Nat) : Int) + noMu (((passS L (midF L F0)).run t).G (L.k - 1 - L.T (q - 1)))) - 1
        else ((q - 1 : Nat) : Int) - 1 + noMu (((passS L (midF L F0)).run t).G (L.k - 1 - L.T (q - 1))))
      obtain ⟨m6, e6, r6⟩ := r5.wr o hi 0
      have r7 := r6.move rfl ((L.n : Int) - (((passS L (midF L F0)).run t).G (L.k - 1 - L.T (q - 1)) : Nat) - 1)
      refine ⟨⟨m6, (L.T (q - 1) : Int), (L.n : Int) - (((passS L (midF L F0)).run t).G (L.k - 1 - L.T (q - 1)) : Nat) - 1⟩, ?_, ?_⟩
      · have hc0 := r.chr s1
        have hc1 := r.chr' (i := q) hqn (z := ((q - 1 : Nat) : Int) + 1) (by omega)
        have hc2 := r4.chr' (i := q - 1 - 1) (by omega) (z := ((q - 1 : Nat) : Int) - 1) (by omega)
        simp only [hrd, Option.bind_eq_bind, Option.bind_some]
        rw [if_pos (by omega)]
        simp only [hc0, hc1, Option.bind_some]
        rw [if_neg (not_lt_cast hT), e4]
        simp only [Option.bind_some, hc2]
        have e5 : wr m4 (ptrsS L (passS L (midF L F0)) t (L.T (q - 1)) - 1)
            (if (L.T (q - 1) : Int) < (L.T (q - 1 - 1) : Int) then -(((q - 1 : Nat) : Int) - 1 + 1) - 1 else ((q - 1 : Nat) : Int) - 1) = some m5 := by
          rw [← e5]
          unfold noMu ptrsS
          congr 1
          · omega
          · by_cases h3 : L.T (q - 1) < L.T (q - 1 - 1)
            · rw [if_pos (by omega), if_pos h3]; omega
            · rw [if_neg (by omega), if_neg h3]; omega
        rw [e5]
        simp only [Option.bind_some, e6]
        rfl
      · refine r7.ext ?_ (ptrsS_hot o ef hq s1)
        intro a ha
        rw [← viewB_hot ef hq hty (by omega) hiG (L.n - 1 - a)]
        by_cases ea : a = i
        · rw [ea, upd_eq, if_pos (show L.n - 1 - i = t by omega)]
        · rw [upd_ne _ _ ea, if_neg (show ¬ L.n - 1 - a = t by omega)]
          by_cases eb : a = L.n - 1 - ((passS L (midF L F0)).run t).G (L.k - 1 - L.T (q - 1))
          · rw [if_pos (show L.n - 1 - a = ((passS L (midF L F0)).run t).G (L.k - 1 - L.T (q - 1)) by omega), eb, upd_eq]
          · rw [upd_ne _ _ eb, if_neg (show ¬ L.n - 1 - a = ((passS L (midF L F0)).run t).G (L.k - 1 - L.T (q - 1)) by omega)]

theorem ptrsS_zero {L : Lay} (o : L.Ok) {F1 : Nat → Option Nat} {c : Nat} (hc : c < L.k) : ((L.start (c + 1) : Nat) : Int) = ptrsS L (passS L F1) 0 c := by
  unfold ptrsS
  show _ = (L.n : Int) - (((passS L F1).start (L.k - 1 - c) : Nat) : Int)
  rw [(passS_start o hc).1]
  have := L.start_le (c + 1)
  omega

/-- The second pass. -/
theorem lmsSort1S_ok {L : Lay} (o : L.Ok) {F0 : Nat → Option Nat} {lo : Nat} (hs : LmsSeeds L F0 lo) {m : Mem} {f g : Nat → Int}
    (ha : Arr m 0 L.n (viewA L ((passL L F0).run L.n).F noMu L.n)) (hc : Arr m L.c L.k f) (hb : Arr m L.b L.k g)
    (ht : HasTxt L.t m L.n L.T) (hcnt : L.c ≠ L.b → ∀ x < L.k, f x = (L.num x : Nat)) :
    ∃ m' B, lmsSort1S L.t L.c L.b L.n L.k m = some m' ∧ Holds L m m' (fun a => viewB L ((passS L (midF L F0)).run L.n).F noMu L.n (L.n - 1 - a)) B := by
  have hn := o.npos
  have hk0 : 0 < L.k := by have := o.key 0 hn; omega
  obtain ⟨m1, e1, h1⟩ := buckets_ok o true ha hc hb ht hcnt
  have h1 : Holds L m m1 (viewA L ((passL L F0).run L.n).F noMu L.n) (fun x => ((L.start (x + 1) : Nat) : Int)) := h1
  have r1 := Rep.start h1 hk0
  have r2 : Rep L m m1 (0 : Int) ((L.start 1 : Nat) : Int) (fun a => viewB L ((passS L (midF L F0)).run 0).F noMu 0 (L.n - 1 - a)) (ptrsS L (passS L (midF L F0)) 0) := by
    apply r1.ext
    · intro a ha
      exact viewA_viewB o hs ha (fun _ _ _ _ => rfl)
    · intro c hc
      exact ptrsS_zero o hc
  obtain ⟨s, es, hsI⟩ := downto_rule (n := L.n) (body := lmsStep1S L.t L.b) (s := ⟨m1, 0, ((L.start 1 : Nat) : Int)⟩)
    (fun i s => i ≤ L.n ∧ Rep L m s.m s.c1 s.b2 (fun a => viewB L ((passS L (midF L F0)).run (L.n - i)).F noMu (L.n - i) (L.n - 1 - a)) (ptrsS L (passS L (midF L F0)) (L.n - i)))
    (by rw [Nat.sub_self]; exact ⟨Nat.le_refl _, r2⟩)
    (fun i s hi r => by
      obtain ⟨s', e', r'⟩ := lmsStep1S_ok o hs hi (t := L.n - (i + 1)) (by omega) r.2
      rw [show L.n - (i + 1) + 1 = L.n - i by omega] at r'
      exact ⟨s', e', by omega, r'⟩)
  obtain ⟨B, hB⟩ := hsI.2.done
  refine ⟨s.m, B, ?_, hB⟩
  unfold lmsSort1S
  rw [e1]
  have hb0 := h1.rdB hk0
  rw [show L.b + ((0 : Nat) : Int) = L.b by omega] at hb0
  simp only [Option.bind_eq_bind, Option.bind_some, hb0]
  have es : downto L.n (lmsStep1S L.t L.b) ⟨m1, 0, ((L.start (0 + 1) : Nat) : Int)⟩ = some s := es
  rw [es]
  rfl

/-- The leftmost positions are left, in sorted order, as negative entries. -/
def lmsOut (L : Lay) (F : Nat → Option Nat) (mu : Nat → Int) (a : Nat) : Int :=
  match F a with
  | none => 0
  | some s => if lms L.T L.n s = true then -((s : Int) + mu a) - 1 else 0

theorem viewB_end {L : Lay} {F : Nat → Option Nat} {mu : Nat → Int} {a : Nat} (ha : a < L.n) : viewB L F mu L.n a = lmsOut L F mu a := by
  unfold viewB lmsOut
  cases F a with
  | none => rfl
  | some s =>
    simp only
    cases h : sTy L.T L.n (s - 1) with
    | true =>
      rw [if_pos rfl, if_pos ha, if_neg]
      intro h'
      rw [(lms_iff.1 h').2.2] at h
      cases h
    | false => rw [if_neg (by simp)]

/-- `lms_sort_1` -/
theorem lmsSort1_ok {L : Lay} (o : L.Ok) {F0 : Nat → Option Nat} {lo : Nat} (hs : LmsSeeds L F0 lo) {m : Mem} {f g : Nat → Int}
    (ha : Arr m 0 L.n (rawA F0 noMu)) (hc : Arr m L.c L.k f) (hb : Arr m L.b L.k g)
    (ht : HasTxt L.t m L.n L.T) (hcnt : L.c ≠ L.b → ∀ x < L.k, f x = (L.num x : Nat)) :
    ∃ m' B, lmsSort1 L.t L.c L.b L.n L.k m = some m' ∧ Holds L m m' (fun a => lmsOut L ((passS L (midF L F0)).run L.n).F noMu (L.n - 1 - a)) B := by
  obtain ⟨m1, B1, e1, h1⟩ := lmsSort1L_ok o hs ha hc hb ht hcnt
  have hcn := o.hc
  have hcb := o.hcb
  have hc1 : ∃ f1, Arr m1 L.c L.k f1 ∧ (L.c ≠ L.b → ∀ x < L.k, f1 x = (L.num x : Nat)) := by
    by_cases e : L.c = L.b
    · exact ⟨B1, by rw [e]; exact h1.bk, fun h => absurd e h⟩
    · exact ⟨f, hc.congr (fun a h2 h3 => h1.frame a (by omega) (by omega)), hcnt⟩
  obtain ⟨f1, hc1, hcnt1⟩ := hc1
  obtain ⟨m2, B2, e2, h2⟩ := lmsSort1S_ok o hs h1.sa hc1 h1.bk h1.txt hcnt1
  refine ⟨m2, B2, ?_, ?_, h2.bk, h2.txt, ?_⟩
  · unfold lmsSort1
    rw [e1]
    exact e2
  · exact h2.sa.ext (fun i hi => viewB_end (by omega))
  · intro a h3 h4
    rw [h2.frame a h3 h4, h1.frame a h3 h4]

end Bpak.Sais
