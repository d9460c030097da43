import Verif.Proof.SaisLms2
/-! `lms_sort_2`: between the passes, and the second pass. -/
namespace Bpak.Sais

/-- The slots with an entry whose predecessor is of type S. -/
def coldAt (L : Lay) (F : Nat → Option Nat) (a : Nat) : Prop := ∃ s, F a = some s ∧ sTy L.T L.n (s - 1) = true

theorem entry_cold {L : Lay} (o : L.Ok) {F0 : Nat → Option Nat} {lo : Nat} (hs : LmsSeeds L F0 lo) {a s : Nat} (e : ((passL L F0).run L.n).F a = some s) :
    (L.T s ≤ L.T (s - 1) ↔ sTy L.T L.n (s - 1) = false) ∧ (sTy L.T L.n (s - 1) = true → sTy L.T L.n s = false) := by
  obtain ⟨h1, h2⟩ := entry_ty o hs.ok e
  have h3 := hs.entry e
  refine ⟨(ty_before (by omega) h1 h2).symm, ?_⟩
  intro h
  rcases h2 with h2 | h2
  · exact h2
  · rw [(lms_iff.1 h2).2.2] at h
    cases h

theorem first_iff {L : Lay} (o : L.Ok) {F0 : Nat → Option Nat} {lo : Nat} (hs : LmsSeeds L F0 lo) {a : Nat} (ha : coldAt L (passL L F0).fin a) :
    (passL L F0).Marked (valL L.T L.n) a ↔ FirstG (coldAt L (passL L F0).fin) (fun a => valL L.T L.n (((passL L F0).fin a).getD 0)) a := by
  obtain ⟨s, es, hty⟩ := ha
  have hh : ∀ {a s}, (passL L F0).fin a = some s → (passL L F0).hot s = !sTy L.T L.n (s - 1) := by
    intro a s e
    have h1 := (hotL o hs e).1
    have h2 := (entry_cold o hs e).1
    rw [h1]
    cases h3 : sTy L.T L.n (s - 1) with
    | true => exact decide_eq_false (fun h => by rw [h2.1 h] at h3; cases h3)
    | false => exact decide_eq_true (h2.2 h3)
  constructor
  · intro h a' h1 ⟨s', e', h2⟩ hv
    have hv : valL L.T L.n (((passL L F0).fin a').getD 0) = valL L.T L.n (((passL L F0).fin a).getD 0) := hv
    rw [e', es] at hv
    exact h s es a' s' h1 e' (by rw [hh e', hh es, h2, hty]) hv
  · intro h s1 e1 a' s' h1 e' hhot hv
    rw [es] at e1
    cases e1
    rw [hh e', hh es, hty] at hhot
    have h2 : sTy L.T L.n (s' - 1) = true := by simpa using hhot
    apply h a' h1 ⟨s', e', h2⟩
    show valL L.T L.n (((passL L F0).fin a').getD 0) = valL L.T L.n (((passL L F0).fin a).getD 0)
    rw [e', es]
    exact hv

theorem finS_seed {L : Lay} (o : L.Ok) {F0 : Nat → Option Nat} {lo : Nat} (hs : LmsSeeds L F0 lo) {a s : Nat} (hty : sTy L.T L.n s = false) :
    (passS L (midF L F0)).fin a = some s ↔ midF L F0 a = some s := by
  have ok := passS_ok o (midF_seeds o hs.ok)
  have sh := (Pass.run_inv ok L.n).shape
  constructor
  · intro e
    rcases sh.where_ e with ⟨h1, -⟩ | ⟨h1, -⟩
    · have := (sh.mem s h1).2
      have : sTy L.T L.n s = true := this
      rw [hty] at this
      cases this
    · exact h1
  · exact sh.seed ok

theorem last_iff {L : Lay} (o : L.Ok) {F0 : Nat → Option Nat} {lo : Nat} (hs : LmsSeeds L F0 lo) {a : Nat} (hn : a < L.n) (ha : coldAt L (passL L F0).fin a) :
    (passS L (midF L F0)).Marked (valS L.T L.n) (L.n - 1 - a) ↔ LastG L.n (coldAt L (passL L F0).fin) (fun a => valL L.T L.n (((passL L F0).fin a).getD 0)) a := by
  obtain ⟨s, es, hty⟩ := ha
  have ok := passS_ok o (midF_seeds o hs.ok)
  have hts := (entry_cold o hs es).2 hty
  have conv : ∀ {a s}, a < L.n → (passL L F0).fin a = some s → sTy L.T L.n (s - 1) = true → (passS L (midF L F0)).fin (L.n - 1 - a) = some s := by
    intro a s h1 h2 h3
    exact (finS_seed o hs ((entry_cold o hs h2).2 h3)).2 (midF_iff.2 ⟨by omega, by rw [show L.n - 1 - (L.n - 1 - a) = a by omega]; exact h2, (entry_cold o hs h2).2 h3⟩)
  have eS := conv hn es hty
  constructor
  · intro h a' h1 h1n ⟨s', e', h2⟩ hv
    have hv : valL L.T L.n (((passL L F0).fin a').getD 0) = valL L.T L.n (((passL L F0).fin a).getD 0) := hv
    rw [e', es] at hv
    have hv : valL L.T L.n s' = valL L.T L.n s := hv
    have eS' := conv h1n e' h2
    refine h s eS (L.n - 1 - a') s' (by omega) eS' ?_ ?_
    · rw [(hotS o hs eS').1, (hotS o hs eS).1, h2, hty]
    · rw [valS_L ((entry_cold o hs e').2 h2), valS_L hts]
      exact hv
  · intro h s1 e1 a' s' h1 e' hhot hv
    rw [eS] at e1
    cases e1
    rw [(hotS o hs e').1, (hotS o hs eS).1, hty] at hhot
    have sl : s < L.n := (hotS o hs eS).2.2.2
    have sl' : s' < L.n := (hotS o hs e').2.2.2
    have hz := ((valsS o hs.ok).key s' s sl' sl hv).2
    have hz : sTy L.T L.n s' = sTy L.T L.n s := hz
    rw [hts] at hz
    have hm := midF_iff.1 ((finS_seed o hs hz).1 e')
    apply h (L.n - 1 - a') (by omega) (by omega) ⟨s', hm.2.1, hhot⟩
    show valL L.T L.n (((passL L F0).fin (L.n - 1 - a')).getD 0) = valL L.T L.n (((passL L F0).fin a).getD 0)
    rw [es, show (passL L F0).fin (L.n - 1 - a') = some s' from hm.2.1]
    rw [valS_L hz, valS_L hts] at hv
    exact hv

/-- Between the passes the marks move from the first to the last. -/
theorem flip_ok {L : Lay} (o : L.Ok) {F0 : Nat → Option Nat} {lo : Nat} (hs : LmsSeeds L F0 lo) {m : Mem}
    (ha : Arr m 0 L.n (viewA L ((passL L F0).run L.n).F (muOf (passL L F0) (valL L.T L.n) L.n) L.n)) :
    ∃ m', flipMarks L.n L.n L.n m = some m' ∧ SameOut 0 L.n m m' ∧
      Arr m' 0 L.n (fun a => viewB L (midF L F0) (muOf (passS L (midF L F0)) (valS L.T L.n) L.n) 0 (L.n - 1 - a)) := by
  have hlp := lms_pos hs.low
  have hval : ∀ a, a < L.n → viewA L ((passL L F0).run L.n).F (muOf (passL L F0) (valL L.T L.n) L.n) L.n a =
      flipA L.n (coldAt L (passL L F0).fin) (fun a => valL L.T L.n (((passL L F0).fin a).getD 0)) (fun a => ((((passL L F0).fin a).getD 0 : Nat) : Int) - 1) L.n a := by
    intro a hn
    unfold flipA
    by_cases hC : coldAt L (passL L F0).fin a
    · obtain ⟨s, es, hty⟩ := id hC
      have es' : ((passL L F0).run L.n).F a = some s := es
      have hw : (fun a => ((((passL L F0).fin a).getD 0 : Nat) : Int) - 1) a = (s : Int) - 1 := by
        show ((((passL L F0).fin a).getD 0 : Nat) : Int) - 1 = (s : Int) - 1
        rw [es]
        rfl
      rw [if_pos hC, viewA_some es', if_neg, if_pos hn, if_pos hn, hw]
      · by_cases hm : (passL L F0).Marked (valL L.T L.n) a
        · rw [muOf_pos hm, if_pos ((first_iff o hs hC).1 hm)]
        · rw [muOf_neg hm, if_neg (fun h => hm ((first_iff o hs hC).2 h))]
      · intro h
        rw [(entry_cold o hs es').1.1 h] at hty
        cases hty
    · rw [if_neg hC]
      cases e : ((passL L F0).run L.n).F a with
      | none => exact viewA_none e
      | some s =>
        rw [viewA_some e, if_pos, if_pos hn]
        apply (entry_cold o hs e).1.2
        cases h : sTy L.T L.n (s - 1) with
        | false => rfl
        | true => exact absurd ⟨s, e, h⟩ hC
  obtain ⟨m', e', h1, h2⟩ := flipMarks_ok (n := L.n) (C := coldAt L (passL L F0).fin) (V := fun a => valL L.T L.n (((passL L F0).fin a).getD 0))
    (w := fun a => ((((passL L F0).fin a).getD 0 : Nat) : Int) - 1) (by
      intro a _ ⟨s, es, _⟩
      have h3 := hs.entry es
      have h4 := (entry_ty o hs.ok es).1
      show 0 < (((((passL L F0).fin a).getD 0 : Nat) : Int) - 1) ∧ (((((passL L F0).fin a).getD 0 : Nat) : Int) - 1) < L.n
      rw [es, Option.getD_some]
      omega) (by
      intro a b c hab hbc _ ⟨x, ex, _⟩ ⟨y, ey, _⟩ ⟨z, ez, _⟩ hv
      have hv : valL L.T L.n (((passL L F0).fin a).getD 0) = valL L.T L.n (((passL L F0).fin c).getD 0) := hv
      show valL L.T L.n (((passL L F0).fin b).getD 0) = valL L.T L.n (((passL L F0).fin c).getD 0)
      rw [ex, ez] at hv
      rw [ey, ez]
      exact (valsL o hs.ok).mid a b c x y z hab hbc ex ey ez hv) L.n L.n m (Nat.le_refl _) (Nat.le_refl _) (ha.ext hval) (by
      intro x y h1 h2 h3
      omega)
  refine ⟨m', e', h2, h1.ext ?_⟩
  intro a hn
  have hvb := viewA_viewB o hs (mu := fun a => muOf (passS L (midF L F0)) (valS L.T L.n) L.n (L.n - 1 - a)) (mu' := muOf (passS L (midF L F0)) (valS L.T L.n) L.n) hn (fun _ _ _ _ => rfl)
  rw [← hvb]
  unfold flipA
  by_cases hC : coldAt L (passL L F0).fin a
  · obtain ⟨s, es, hty⟩ := id hC
    have es' : ((passL L F0).run L.n).F a = some s := es
    have hw : (fun a => ((((passL L F0).fin a).getD 0 : Nat) : Int) - 1) a = (s : Int) - 1 := by
      show ((((passL L F0).fin a).getD 0 : Nat) : Int) - 1 = (s : Int) - 1
      rw [es]
      rfl
    have hne : ¬ L.T s ≤ L.T (s - 1) := by
      intro h
      rw [(entry_cold o hs es').1.1 h] at hty
      cases hty
    rw [if_pos hC, if_neg (show ¬ a < 0 by omega), viewA_some es', if_neg hne, if_pos hn, hw]
    by_cases hm : (passS L (midF L F0)).Marked (valS L.T L.n) (L.n - 1 - a)
    · rw [muOf_pos hm, if_pos ((last_iff o hs hn hC).1 hm)]
    · rw [muOf_neg hm, if_neg (fun h => hm ((last_iff o hs hn hC).2 h))]
  · rw [if_neg hC]
    cases e : ((passL L F0).run L.n).F a with
    | none => exact (viewA_none e).symm
    | some s =>
      rw [viewA_some e, if_pos, if_pos hn]
      apply (entry_cold o hs e).1.2
      cases h : sTy L.T L.n (s - 1) with
      | false => rfl
      | true => exact absurd ⟨s, e, h⟩ hC

/-- The counters of the second pass. -/
def cntS (L : Lay) (D : Nat → Int) (c : Nat) (h : Bool) : Int := if c < L.k then D (2 * (L.k - 1 - c) + fl h) else 0

/-- One step of the second pass. -/
theorem lmsStep2S_ok {L : Lay} (o : L.Ok) {d : Int} (od : DOk L d) {F0 : Nat → Option Nat} {lo : Nat} (hs : LmsSeeds L F0 lo) {m0 : Mem} {i t : Nat} (hi : i < L.n) (hit : i + t + 1 = L.n)
    {s : Cur2} {D : Nat → Int} {base : Int}
    (r : Rep2 L d m0 s.m s.c1 s.b2 (fun a => viewB L ((passS L (midF L F0)).run t).F (muOf (passS L (midF L F0)) (valS L.T L.n) L.n) t (L.n - 1 - a)) (ptrsS L (passS L (midF L F0)) t) D)
    (hc : (passS L (midF L F0)).Counters (valS L.T L.n) base t (cntS L D))
    (hd : s.d = base + ((cnt t ((passS L (midF L F0)).hm (valS L.T L.n)) : Nat) : Int)) :
    ∃ s' D', lmsStep2S L.t L.b d L.n i s = some s' ∧
      Rep2 L d m0 s'.m s'.c1 s'.b2 (fun a => viewB L ((passS L (midF L F0)).run (t + 1)).F (muOf (passS L (midF L F0)) (valS L.T L.n) L.n) (t + 1) (L.n - 1 - a)) (ptrsS L (passS L (midF L F0)) (t + 1)) D' ∧
      (passS L (midF L F0)).Counters (valS L.T L.n) base (t + 1) (cntS L D') ∧
      s'.d = base + ((cnt (t + 1) ((passS L (midF L F0)).hm (valS L.T L.n)) : Nat) : Int) := by
  have hrd := r.rd hi
  have hrd : rd s.m i = some (viewB L ((passS L (midF L F0)).run t).F (muOf (passS L (midF L F0)) (valS L.T L.n) L.n) t (L.n - 1 - i)) := hrd
  rw [show L.n - 1 - i = t by omega] at hrd
  unfold lmsStep2S
  have sS := midF_seeds o hs.ok
  have ok := passS_ok o sS
  have hv := valsS o hs.ok
  have htn : t < L.n := by omega
  have hfin : (passS L (midF L F0)).fin t = ((passS L (midF L F0)).run t).F t := by
    show ((passS L (midF L F0)).run L.n).F t = _
    rw [Pass.run_stable ok (show t + 1 ≤ L.n by omega) t (by omega)]
    exact (Pass.step_inv ok (Pass.run_inv ok t)).2.1 t (Nat.le_refl _)
  have cold : (∀ q, ((passS L (midF L F0)).run t).F t = some q → sTy L.T L.n (q - 1) = false) →
      Rep2 L d m0 s.m s.c1 s.b2 (fun a => viewB L ((passS L (midF L F0)).run (t + 1)).F (muOf (passS L (midF L F0)) (valS L.T L.n) L.n) (t + 1) (L.n - 1 - a)) (ptrsS L (passS L (midF L F0)) (t + 1)) D ∧
      (passS L (midF L F0)).Counters (valS L.T L.n) base (t + 1) (cntS L D) ∧
      s.d = base + ((cnt (t + 1) ((passS L (midF L F0)).hm (valS L.T L.n)) : Nat) : Int) := by
    intro h
    have hpn : ∀ q, ((passS L (midF L F0)).run t).F t = some q → (passS L (midF L F0)).pred q = none := by
      intro q hq
      cases hp : (passS L (midF L F0)).pred q with
      | none => rfl
      | some p =>
        have := (passS_pred.1 hp).2.2.1
        rw [h q hq] at this
        cases this
    have hcold : (passS L (midF L F0)).run (t + 1) = (passS L (midF L F0)).run t := run_cold hpn
    have hno : ∀ s, (passS L (midF L F0)).fin t = some s → (passS L (midF L F0)).pred s = none := fun s h => hpn s (by rw [← hfin]; exact h)
    refine ⟨r.ext ?_ ?_, hc.skip hno, by rw [Pass.cnt_hm_cold hno]; exact hd⟩
    · intro a _
      rw [hcold, viewB_skip h]
    · intro c _
      unfold ptrsS
      rw [hcold]
  cases ef : ((passS L (midF L F0)).run t).F t with
  | none =>
    rw [viewB_none ef] at hrd
    simp only [hrd, Option.bind_eq_bind, Option.bind_some]
    exact ⟨s, D, rfl, cold (fun q hq => by rw [ef] at hq; cases hq)⟩
  | some q =>
    rw [ef] at hfin
    obtain ⟨h1, h2, h3, hqn⟩ := hotS o hs ef
    have hlo := hs.entryS ef
    have hlp := lms_pos hs.low
    cases hty : sTy L.T L.n (q - 1) with
    | false =>
      have hmc := muOf_cases (passS L (midF L F0)) (valS L.T L.n) L.n t
      have hle : viewB L ((passS L (midF L F0)).run t).F (muOf (passS L (midF L F0)) (valS L.T L.n) L.n) t t ≤ 0 := by
        rw [viewB_some ef, hty, if_neg (by simp)]
        split
        · omega
        · omega
      simp only [hrd, Option.bind_eq_bind, Option.bind_some]
      rw [if_neg (by omega)]
      refine ⟨s, D, rfl, cold (fun x hx => by rw [ef] at hx; cases hx; exact hty)⟩
    | true =>
      have hhot := h1.trans hty
      have hq := h2 hhot
      obtain ⟨-, -, hT, -, hGn, hiG, hnone⟩ := targetS o sS ef hq
      have hne : q ≠ lo := by
        intro h4
        have := (lms_iff.1 hs.low).2.2
        rw [← h4, hty] at this
        cases this
      have s1 : q - 1 < L.n := by omega
      have hks := o.key _ s1
      have hA : viewB L ((passS L (midF L F0)).run t).F (muOf (passS L (midF L F0)) (valS L.T L.n) L.n) t t = (q : Int) - 1 + muOf (passS L (midF L F0)) (valS L.T L.n) L.n t := by
        rw [viewB_some ef, if_pos hty, if_neg (by omega)]
      rw [hA] at hrd
      generalize hj : (q : Int) - 1 + muOf (passS L (midF L F0)) (valS L.T L.n) L.n t = j at hrd
      obtain ⟨hj0, hdd, hjj⟩ : 0 < j ∧ (if (L.n : Int) ≤ j then s.d + 1 else s.d) = base + ((cnt (t + 1) ((passS L (midF L F0)).hm (valS L.T L.n)) : Nat) : Int) ∧
          (if (L.n : Int) ≤ j then j - L.n else j) = ((q - 1 : Nat) : Int) := by
        have hcm := @Pass.cnt_hm _ (valS L.T L.n) _ _ hfin hhot (Classical.propDecidable _)
        by_cases hm : (passS L (midF L F0)).Marked (valS L.T L.n) t
        · rw [if_pos hm] at hcm
          rw [muOf_pos hm] at hj
          rw [if_pos (by omega), if_pos (by omega), hd, hcm]
          refine ⟨by omega, by push_cast; omega, by omega⟩
        · rw [if_neg hm] at hcm
          rw [muOf_neg hm] at hj
          rw [if_neg (by omega), if_neg (by omega), hd, hcm]
          refine ⟨by omega, by push_cast; omega, by omega⟩
      have hnew : ((passS L (midF L F0)).run (t + 1)).F (((passS L (midF L F0)).run t).G (L.k - 1 - L.T (q - 1))) = some (q - 1) := by
        rw [run_hot ef hq]
        exact if_pos rfl
      have hhp : (passS L (midF L F0)).hot (q - 1) = decide (L.T (q - 1 - 1) ≤ L.T (q - 1)) := by
        rw [(hotS o hs hnew).1]
        have hb := sTy_before (T := L.T) (n := L.n) (p := q - 1) (by omega) hty
        cases h5 : sTy L.T L.n (q - 1 - 1) with
        | true => exact (decide_eq_true (hb.1 h5)).symm
        | false => exact (decide_eq_false (fun h => by rw [hb.2 h] at h5; cases h5)).symm
      obtain ⟨m4, e4, r4⟩ := r.switch o (o.key _ s1)
      obtain ⟨m5, e5, r5⟩ := markNew_ok od r4 (u := 2 * L.T (q - 1) + fl ((passS L (midF L F0)).hot (q - 1))) (by
        unfold fl
        split <;> omega) (base + ((cnt (t + 1) ((passS L (midF L F0)).hm (valS L.T L.n)) : Nat) : Int)) (((q - 1 : Nat) : Int) - 1)
      have htest := hc.test ok hv htn hfin hq
      have hkey : (passS L (midF L F0)).key (q - 1) = L.k - 1 - L.T (q - 1) := rfl
      rw [hkey] at htest
      have hcs : cntS L D (L.k - 1 - L.T (q - 1)) ((passS L (midF L F0)).hot (q - 1)) = D (2 * L.T (q - 1) + fl ((passS L (midF L F0)).hot (q - 1))) := by
        unfold cntS
        rw [if_pos (by omega), show L.k - 1 - (L.k - 1 - L.T (q - 1)) = L.T (q - 1) by omega]
      rw [hcs] at htest
      have hmu : (if D (2 * L.T (q - 1) + fl ((passS L (midF L F0)).hot (q - 1))) ≠ base + ((cnt (t + 1) ((passS L (midF L F0)).hm (valS L.T L.n)) : Nat) : Int)
          then ((q - 1 : Nat) : Int) - 1 + L.n else ((q - 1 : Nat) : Int) - 1) = ((q - 1 : Nat) : Int) - 1 + muOf (passS L (midF L F0)) (valS L.T L.n) L.n (((passS L (midF L F0)).run t).G (L.k - 1 - L.T (q - 1))) := by
        by_cases hm : (passS L (midF L F0)).Marked (valS L.T L.n) (((passS L (midF L F0)).run t).G (L.k - 1 - L.T (q - 1)))
        · rw [if_pos (htest.1.2 hm), muOf_pos hm]
        · rw [if_neg (fun h => hm (htest.1.1 h)), muOf_neg hm, Int.add_zero]
      rw [hmu] at e5
      obtain ⟨m6, e6, r6⟩ := r5.wr o (i := L.n - 1 - ((passS L (midF L F0)).run t).G (L.k - 1 - L.T (q - 1))) (by omega)
        (if L.T (q - 1) < L.T (q - 1 - 1) then -(((q - 1 : Nat) : Int) + muOf (passS L (midF L F0)) (valS L.T L.n) L.n (((passS L (midF L F0)).run t).G (L.k - 1 - L.T (q - 1)))) - 1
        else ((q - 1 : Nat) : Int) - 1 + muOf (passS L (midF L F0)) (valS L.T L.n) L.n (((passS L (midF L F0)).run t).G (L.k - 1 - L.T (q - 1))))
      obtain ⟨m7, e7, r7⟩ := r6.wr o hi 0
      have r8 := r7.move rfl ((L.n : Int) - (((passS L (midF L F0)).run t).G (L.k - 1 - L.T (q - 1)) : Nat) - 1)
      refine ⟨⟨m7, (L.T (q - 1) : Int), (L.n : Int) - (((passS L (midF L F0)).run t).G (L.k - 1 - L.T (q - 1)) : Nat) - 1, base + ((cnt (t + 1) ((passS L (midF L F0)).hm (valS L.T L.n)) : Nat) : Int)⟩,
        upd D (2 * L.T (q - 1) + fl ((passS L (midF L F0)).hot (q - 1))) (base + ((cnt (t + 1) ((passS L (midF L F0)).hm (valS L.T L.n)) : Nat) : Int)), ?_, ?_, ?_, rfl⟩
      · have hc0 := r.chr s1 (z := ((q - 1 : Nat) : Int)) rfl
        have hc1 := r.chr (i := q) hqn (z := ((q - 1 : Nat) : Int) + 1) (by omega)
        have hc2 := r4.chr (i := q - 1 - 1) (by omega) (z := ((q - 1 : Nat) : Int) - 1) (by omega)
        simp only [hrd, Option.bind_eq_bind, Option.bind_some]
        rw [if_pos hj0]
        simp only [hjj, hdd, hc0, hc1, Option.bind_some]
        rw [if_neg (not_lt_cast hT), e4]
        simp only [Option.bind_some, hc2]
        have e5 : markNew L.n (d + (2 * (L.T (q - 1) : Int) + (if (L.T (q - 1) : Int) < (L.T (q - 1 - 1) : Int) then 1 else 0))) (base + ((cnt (t + 1) ((passS L (midF L F0)).hm (valS L.T L.n)) : Nat) : Int))
            (((q - 1 : Nat) : Int) - 1) m4 = some (((q - 1 : Nat) : Int) - 1 + muOf (passS L (midF L F0)) (valS L.T L.n) L.n (((passS L (midF L F0)).run t).G (L.k - 1 - L.T (q - 1))), m5) := by
          rw [← e5, hhp]
          congr 1
          by_cases h3 : L.T (q - 1) < L.T (q - 1 - 1)
          · rw [if_pos (by omega), decide_eq_false (by omega)]
            simp [fl]
          · rw [if_neg (by omega), decide_eq_true (by omega)]
            simp [fl]
        rw [e5]
        simp only [Option.bind_some]
        have e6 : wr m5 (ptrsS L (passS L (midF L F0)) t (L.T (q - 1)) - 1)
            (if (L.T (q - 1) : Int) < (L.T (q - 1 - 1) : Int) then -(((q - 1 : Nat) : Int) - 1 + muOf (passS L (midF L F0)) (valS L.T L.n) L.n (((passS L (midF L F0)).run t).G (L.k - 1 - L.T (q - 1))) + 1) - 1
              else ((q - 1 : Nat) : Int) - 1 + muOf (passS L (midF L F0)) (valS L.T L.n) L.n (((passS L (midF L F0)).run t).G (L.k - 1 - L.T (q - 1)))) = some m6 := by
          rw [← e6]
          unfold ptrsS
          congr 1
          · omega
          · by_cases h3 : L.T (q - 1) < L.T (q - 1 - 1)
            · rw [if_pos (by omega), if_pos h3]; omega
            · rw [if_neg (by omega), if_neg h3]
        rw [e6]
        simp only [Option.bind_some, e7]
        rfl
      · refine r8.ext ?_ (ptrsS_hot o ef hq s1)
        intro a ha
        rw [← viewB_hot ef hq hty (by omega) hiG (L.n - 1 - a)]
        by_cases ea : a = i
        · rw [ea, upd_eq, if_pos (show L.n - 1 - i = t by omega)]
        · rw [upd_ne _ _ ea, if_neg (show ¬ L.n - 1 - a = t by omega)]
          by_cases eb : a = L.n - 1 - ((passS L (midF L F0)).run t).G (L.k - 1 - L.T (q - 1))
          · rw [if_pos (show L.n - 1 - a = ((passS L (midF L F0)).run t).G (L.k - 1 - L.T (q - 1)) by omega), eb, upd_eq]
          · rw [upd_ne _ _ eb, if_neg (show ¬ L.n - 1 - a = ((passS L (midF L F0)).run t).G (L.k - 1 - L.T (q - 1)) by omega)]
      · have : cntS L (upd D (2 * L.T (q - 1) + fl ((passS L (midF L F0)).hot (q - 1))) (base + ((cnt (t + 1) ((passS L (midF L F0)).hm (valS L.T L.n)) : Nat) : Int))) =
            (fun c h => if c = L.k - 1 - L.T (q - 1) ∧ h = (passS L (midF L F0)).hot (q - 1) then base + ((cnt (t + 1) ((passS L (midF L F0)).hm (valS L.T L.n)) : Nat) : Int) else cntS L D c h) := by
          funext c h
          unfold cntS upd
          by_cases hcc : c = L.k - 1 - L.T (q - 1) ∧ h = (passS L (midF L F0)).hot (q - 1)
          · rw [if_pos hcc, if_pos (by omega), if_pos (by rw [hcc.1, hcc.2, show L.k - 1 - (L.k - 1 - L.T (q - 1)) = L.T (q - 1) by omega])]
          · rw [if_neg hcc]
            by_cases hck : c < L.k
            · rw [if_pos hck, if_neg, if_pos hck]
              intro h'
              have := fl_inj h'
              exact hcc ⟨by omega, this.2⟩
            · rw [if_neg hck, if_neg hck]
        rw [this]
        exact htest.2

/-- The second pass. -/
theorem lmsSort2S_ok {L : Lay} (o : L.Ok) {d : Int} (od : DOk L d) {F0 : Nat → Option Nat} {lo : Nat} (hs : LmsSeeds L F0 lo) {m : Mem} {f g D : Nat → Int} {d0 : Int}
    (ha : Arr m 0 L.n (fun a => viewB L (midF L F0) (muOf (passS L (midF L F0)) (valS L.T L.n) L.n) 0 (L.n - 1 - a))) (hc : Arr m L.c L.k f) (hb : Arr m L.b L.k g)
    (hD : Arr m d (2 * L.k) D) (ht : HasTxt L.t m L.n L.T) (hcnt : ∀ x < L.k, f x = (L.num x : Nat)) (hd0 : 0 ≤ d0) (hDd : ∀ u < 2 * L.k, D u ≤ d0) :
    ∃ (m' m0' : Mem) (B D' : Nat → Int), lmsSort2S L.t L.c L.b d L.n L.k d0 m = some m' ∧
      Holds L m0' m' (fun a => lmsOut L ((passS L (midF L F0)).run L.n).F (muOf (passS L (midF L F0)) (valS L.T L.n) L.n) (L.n - 1 - a)) B ∧
      Arr m0' d (2 * L.k) D' ∧ SameOut d (2 * L.k) m m0' := by
  have hn := o.npos
  have hk0 : 0 < L.k := by have := o.key 0 hn; omega
  obtain ⟨m1, e1, h1⟩ := getBuckets_lay o od.ne true ha hc hb ht hcnt
  have h1 : Holds L m m1 (fun a => viewB L (midF L F0) (muOf (passS L (midF L F0)) (valS L.T L.n) L.n) 0 (L.n - 1 - a)) (fun x => ((L.start (x + 1) : Nat) : Int)) := h1
  have r1 := Rep.start h1 hk0
  have r2 : Rep2 L d m m1 (0 : Int) ((L.start 1 : Nat) : Int) (fun a => viewB L ((passS L (midF L F0)).run 0).F (muOf (passS L (midF L F0)) (valS L.T L.n) L.n) 0 (L.n - 1 - a)) (ptrsS L (passS L (midF L F0)) 0) D := by
    refine ⟨m, ?_, hD, fun _ _ => rfl⟩
    apply r1.ext
    · intro a ha
      rfl
    · intro c hc
      exact ptrsS_zero o hc
  obtain ⟨s, es, -, D', hsI, -, -⟩ := downto_rule (n := L.n) (body := lmsStep2S L.t L.b d L.n) (s := ⟨m1, 0, ((L.start 1 : Nat) : Int), d0 + 1⟩)
    (fun i s => i ≤ L.n ∧ ∃ D, Rep2 L d m s.m s.c1 s.b2 (fun a => viewB L ((passS L (midF L F0)).run (L.n - i)).F (muOf (passS L (midF L F0)) (valS L.T L.n) L.n) (L.n - i) (L.n - 1 - a)) (ptrsS L (passS L (midF L F0)) (L.n - i)) D ∧
      (passS L (midF L F0)).Counters (valS L.T L.n) (d0 + 1) (L.n - i) (cntS L D) ∧ s.d = (d0 + 1) + ((cnt (L.n - i) ((passS L (midF L F0)).hm (valS L.T L.n)) : Nat) : Int))
    (by
      rw [Nat.sub_self]
      refine ⟨Nat.le_refl _, D, r2, ?_, ?_⟩
      · intro c h
        refine Or.inl ⟨?_, fun x _ _ hx => absurd hx (Nat.not_lt_zero _)⟩
        unfold cntS
        split
        · have := hDd (2 * (L.k - 1 - c) + fl h) (by unfold fl; split <;> omega)
          omega
        · omega
      · show d0 + 1 = d0 + 1 + ((cnt 0 _ : Nat) : Int)
        rw [show cnt 0 ((passS L (midF L F0)).hm (valS L.T L.n)) = 0 from rfl]
        omega)
    (fun i s hi ⟨_, D, r, hC, hd⟩ => by
      obtain ⟨s', D', g1, g2, g3, g4⟩ := lmsStep2S_ok o od hs hi (t := L.n - (i + 1)) (by omega) r hC hd
      rw [show L.n - (i + 1) + 1 = L.n - i by omega] at g2 g3 g4
      exact ⟨s', g1, by omega, D', g2, g3, g4⟩)
  obtain ⟨m0', hR, hA, hO⟩ := hsI
  obtain ⟨B, hB⟩ := hR.done
  refine ⟨s.m, m0', B, D', ?_, ⟨?_, hB.bk, hB.txt, hB.frame⟩, hA, hO⟩
  · unfold lmsSort2S
    rw [e1]
    have hb0 := h1.rdB hk0
    rw [show L.b + ((0 : Nat) : Int) = L.b by omega] at hb0
    simp only [Option.bind_eq_bind, Option.bind_some, hb0]
    have es : downto L.n (lmsStep2S L.t L.b d L.n) ⟨m1, 0, ((L.start (0 + 1) : Nat) : Int), d0 + 1⟩ = some s := es
    rw [es]
    rfl
  · exact hB.sa.ext (fun i hi => viewB_end (by omega))

/-- `lms_sort_2` -/
theorem lmsSort2_ok {L : Lay} (o : L.Ok) {d : Int} (od : DOk L d) {F0 : Nat → Option Nat} {lo : Nat} (hs : LmsSeeds L F0 lo) {m : Mem} {f g : Nat → Int}
    (ha : Arr m 0 L.n (rawA F0 (muOf (passL L F0) (valL L.T L.n) L.n))) (hc : Arr m L.c L.k f) (hb : Arr m L.b L.k g) (hD : Arr m d (2 * L.k) (fun _ => 0))
    (ht : HasTxt L.t m L.n L.T) (hcnt : ∀ x < L.k, f x = (L.num x : Nat)) :
    ∃ (m' : Mem) (B D : Nat → Int), lmsSort2 L.t L.c L.b d L.n L.k m = some m' ∧
      Arr m' 0 L.n (fun a => lmsOut L ((passS L (midF L F0)).run L.n).F (muOf (passS L (midF L F0)) (valS L.T L.n) L.n) (L.n - 1 - a)) ∧ Arr m' L.b L.k B ∧ Arr m' d (2 * L.k) D ∧
      ∀ a : Int, ¬ (0 ≤ a ∧ a < L.n) → ¬ (L.b ≤ a ∧ a < L.b + L.k) → ¬ (d ≤ a ∧ a < d + 2 * L.k) → m' a = m a := by
  have o1 := o.hc
  have o2 := o.hb
  have o3 := o.hcb
  have o4 := od.hd
  have o5 := od.hb
  have o6 := od.hc
  have o7 := od.ne
  obtain ⟨m1, d0, m0', B, D, e1, h1, h2, h3, h4, h5⟩ := lmsSort2L_ok o od hs ha hc hb hD ht hcnt
  obtain ⟨m2, e2, h6, h7⟩ := flip_ok o hs h1.sa
  have hc2 : Arr m2 L.c L.k f := hc.congr (fun a x y => by rw [h6 a (by omega), h1.frame a (by omega) (by omega), h3 a (by omega)])
  have hb2 : Arr m2 L.b L.k B := h1.bk.congr (fun a x y => by rw [h6 a (by omega)])
  have hD2 : Arr m2 d (2 * L.k) D := h2.congr (fun a x y => by rw [h6 a (by omega), h1.frame a (by omega) (by omega)])
  have ht2 : HasTxt L.t m2 L.n L.T := h1.txt.congr (fun a hx => by have := o.txt a hx; rw [h6 a (by omega)])
  obtain ⟨m3, m1', B', D', e3, h8, h9, h10⟩ := lmsSort2S_ok o od hs h7 hc2 hb2 hD2 ht2 hcnt h4 h5
  refine ⟨m3, B', D', ?_, h8.sa, h8.bk, h9.congr (fun a x y => by rw [h8.frame a (by omega) (by omega)]), ?_⟩
  · unfold lmsSort2
    rw [if_neg o7, e1]
    simp only [Option.bind_eq_bind, Option.bind_some, e2, e3]
  · intro a x y z
    rw [h8.frame a x y, h10 a (by omega), h6 a (by omega), h1.frame a x y, h3 a (by omega)]

end Bpak.Sais
