import Verif.Proof.SaisLms1
/-! `lms_sort_2`: the passes that sort the stretches and mark the first of each group of equal ones. -/
namespace Bpak.Sais

open Classical in
/-- What is added to the marked entries. -/
noncomputable def muOf (P : Pass) (V : Nat → List Nat) (n : Nat) (a : Nat) : Int := if P.Marked V a then (n : Int) else 0

theorem muOf_pos {P : Pass} {V : Nat → List Nat} {n a : Nat} (h : P.Marked V a) : muOf P V n a = n := by
  unfold muOf
  rw [if_pos h]

theorem muOf_neg {P : Pass} {V : Nat → List Nat} {n a : Nat} (h : ¬ P.Marked V a) : muOf P V n a = 0 := by
  unfold muOf
  rw [if_neg h]

theorem muOf_cases (P : Pass) (V : Nat → List Nat) (n a : Nat) : muOf P V n a = 0 ∨ muOf P V n a = n := by
  by_cases h : P.Marked V a
  · exact Or.inr (muOf_pos h)
  · exact Or.inl (muOf_neg h)

/-- The counters are apart from everything else. -/
structure DOk (L : Lay) (d : Int) : Prop where
  hd : (L.n : Int) ≤ d
  hb : d + 2 * L.k ≤ L.b ∨ L.b + L.k ≤ d
  hc : d + 2 * L.k ≤ L.c ∨ L.c + L.k ≤ d
  ne : L.c ≠ L.b
  txt : ∀ a, inTxt L.t L.n a → a < d ∨ d + 2 * L.k ≤ a

/-- As `Rep`, with the counters. -/
def Rep2 (L : Lay) (d : Int) (m0 m : Mem) (c1 b2 : Int) (A G D : Nat → Int) : Prop :=
  ∃ m0', Rep L m0' m c1 b2 A G ∧ Arr m0' d (2 * L.k) D ∧ SameOut d (2 * L.k) m0 m0'

theorem Rep2.wr {L : Lay} (o : L.Ok) {d : Int} {m0 m : Mem} {c1 b2 : Int} {A G D : Nat → Int} (h : Rep2 L d m0 m c1 b2 A G D) {i : Nat} (hi : i < L.n) (v : Int) :
    ∃ m', Sais.wr m (i : Int) v = some m' ∧ Rep2 L d m0 m' c1 b2 (upd A i v) G D := by
  obtain ⟨m0', r, h1, h2⟩ := h
  obtain ⟨m', e, r'⟩ := r.wr o hi v
  exact ⟨m', e, m0', r', h1, h2⟩

theorem Rep2.switch {L : Lay} (o : L.Ok) {d : Int} {m0 m : Mem} {c1 b2 : Int} {A G D : Nat → Int} (h : Rep2 L d m0 m c1 b2 A G D) {y : Nat} (hy : y < L.k) :
    ∃ m', switchTo L.b (y : Int) c1 b2 m = some ((y : Int), G y, m') ∧ Rep2 L d m0 m' y (G y) A G D := by
  obtain ⟨m0', r, h1, h2⟩ := h
  obtain ⟨m', e, r'⟩ := r.switch o hy
  exact ⟨m', e, m0', r', h1, h2⟩

theorem Rep2.move {L : Lay} {d : Int} {m0 m : Mem} {c1 b2 : Int} {A G D : Nat → Int} {y : Nat} (h : Rep2 L d m0 m c1 b2 A G D) (hy : c1 = y) (v : Int) :
    Rep2 L d m0 m c1 v A (upd G y v) D := by
  obtain ⟨m0', r, h1, h2⟩ := h
  exact ⟨m0', r.move hy v, h1, h2⟩

theorem Rep2.ext {L : Lay} {d : Int} {m0 m : Mem} {c1 b2 : Int} {A G D A' G' : Nat → Int} (h : Rep2 L d m0 m c1 b2 A G D) (hA : ∀ i < L.n, A i = A' i) (hG : ∀ c < L.k, G c = G' c) :
    Rep2 L d m0 m c1 b2 A' G' D := by
  obtain ⟨m0', r, h1, h2⟩ := h
  exact ⟨m0', r.ext hA hG, h1, h2⟩

theorem Rep2.chr {L : Lay} {d : Int} {m0 m : Mem} {c1 b2 : Int} {A G D : Nat → Int} (h : Rep2 L d m0 m c1 b2 A G D) {i : Nat} (hi : i < L.n) {z : Int} (e : z = i) :
    Sais.chr L.t m z = some (L.T i : Int) := by
  obtain ⟨m0', r, -, -⟩ := h
  exact r.chr' hi e

theorem Rep2.rd {L : Lay} {d : Int} {m0 m : Mem} {c1 b2 : Int} {A G D : Nat → Int} (h : Rep2 L d m0 m c1 b2 A G D) {i : Nat} (hi : i < L.n) :
    Sais.rd m (i : Int) = some (A i) := by
  obtain ⟨m0', r, -, -⟩ := h
  exact r.rd hi

theorem Holds.other {L : Lay} {m0 m : Mem} {A B : Nat → Int} (h : Holds L m0 m A B) {a : Int} (h1 : ¬ (0 ≤ a ∧ a < L.n)) (h2 : ¬ (L.b ≤ a ∧ a < L.b + L.k)) (h3 : ¬ inTxt L.t L.n a) (v : Int) :
    Holds L (setM m0 a v) (setM m a v) A B := by
  refine ⟨h.sa.other v (by omega), h.bk.other v (by omega), h.txt.set v h3, ?_⟩
  intro x h4 h5
  unfold setM
  rw [h.frame x h4 h5]

theorem markNew_ok {L : Lay} {d : Int} (od : DOk L d) {m0 m : Mem} {c1 b2 : Int} {A G D : Nat → Int} (h : Rep2 L d m0 m c1 b2 A G D) {u : Nat} (hu : u < 2 * L.k)
    (dd j : Int) : ∃ m', markNew L.n (d + u) dd j m = some (if D u ≠ dd then j + L.n else j, m') ∧ Rep2 L d m0 m' c1 b2 A G (upd D u dd) := by
  obtain ⟨m0', ⟨B, x, h, h'⟩, h1, h2⟩ := h
  have o1 := od.hd
  have o2 := od.hb
  have hin : ¬ inTxt L.t L.n (d + u) := by
    intro hx
    have := od.txt _ hx
    omega
  have hm : m (d + u) = some (D u) := by
    rw [h.frame _ (by omega) (by omega)]
    exact h1 u hu
  unfold markNew
  have hrd : Sais.rd m (d + u) = some (D u) := hm
  rw [hrd, Option.bind_eq_bind, Option.bind_some]
  by_cases e : D u = dd
  · rw [if_neg (by simp [e]), if_neg (by simp [e])]
    refine ⟨m, rfl, m0', ⟨B, x, h, h'⟩, h1.ext ?_, h2⟩
    intro i _
    unfold upd
    split
    · rename_i e'; rw [e', e]
    · rfl
  · rw [if_pos e, if_pos e, wr_eq _ hm]
    refine ⟨_, rfl, setM m0' (d + u) dd, ⟨B, x, h.other (by omega) (by omega) hin dd, h'⟩, h1.set u dd, ?_⟩
    intro a ha
    rw [setM_ne _ _ (by omega), h2 a ha]

/-- Which counter. -/
def fl (h : Bool) : Nat := if h then 0 else 1

theorem fl_inj {a b : Nat} {h h' : Bool} (e : 2 * a + fl h = 2 * b + fl h') : a = b ∧ h = h' := by
  cases h <;> cases h' <;> simp [fl] at e <;> (refine ⟨by omega, ?_⟩) <;> first | rfl | omega

/-- One step of the first pass. -/
theorem lmsStep2L_ok {L : Lay} (o : L.Ok) {d : Int} (od : DOk L d) {F0 : Nat → Option Nat} {lo : Nat} (hs : LmsSeeds L F0 lo) {m0 : Mem} {i : Nat} (hi : i < L.n) {s : Cur2} {D : Nat → Int}
    (r : Rep2 L d m0 s.m s.c1 s.b2 (viewA L ((passL L F0).run i).F (muOf (passL L F0) (valL L.T L.n) L.n) i) (ptrs (passL L F0) i) D)
    (hc : (passL L F0).Counters (valL L.T L.n) 0 i (fun c h => D (2 * c + fl h)))
    (hd : s.d = (cnt i ((passL L F0).hm (valL L.T L.n)) : Nat)) :
    ∃ s' D', lmsStep2L L.t L.b d L.n i s = some s' ∧
      Rep2 L d m0 s'.m s'.c1 s'.b2 (viewA L ((passL L F0).run (i + 1)).F (muOf (passL L F0) (valL L.T L.n) L.n) (i + 1)) (ptrs (passL L F0) (i + 1)) D' ∧
      (passL L F0).Counters (valL L.T L.n) 0 (i + 1) (fun c h => D' (2 * c + fl h)) ∧
      s'.d = (cnt (i + 1) ((passL L F0).hm (valL L.T L.n)) : Nat) := by
  have hrd := r.rd hi
  have ok := passL_ok o hs.ok
  have hv := valsL o hs.ok
  unfold lmsStep2L
  have hfin : (passL L F0).fin i = ((passL L F0).run i).F i := by
    show ((passL L F0).run L.n).F i = _
    rw [Pass.run_stable ok (show i + 1 ≤ L.n by omega) i (by omega)]
    exact (Pass.step_inv ok (Pass.run_inv ok i)).2.1 i (Nat.le_refl _)
  cases ef : ((passL L F0).run i).F i with
  | none =>
    have hcold : (passL L F0).run (i + 1) = (passL L F0).run i := run_cold (fun q hq => by rw [ef] at hq; cases hq)
    have hno : ∀ s, (passL L F0).fin i = some s → (passL L F0).pred s = none := fun s h => by rw [hfin, ef] at h; cases h
    rw [viewA_none ef] at hrd
    simp only [hrd, Option.bind_eq_bind, Option.bind_some]
    refine ⟨s, D, rfl, ?_, hc.skip hno, ?_⟩
    · refine r.ext ?_ ?_
      · intro a _
        rw [hcold]
        by_cases e : a = i
        · subst e; rw [viewA_none ef, viewA_none ef]
        · rw [viewA_skip e]
      · intro c _
        unfold ptrs
        rw [hcold]
    · rw [Pass.cnt_hm_cold hno]; exact hd
  | some q =>
    rw [ef] at hfin
    obtain ⟨h1, h2⟩ := hotL o hs ef
    have hlo := hs.entry ef
    have hlp := lms_pos hs.low
    by_cases hT' : L.T q ≤ L.T (q - 1)
    · rw [decide_eq_true hT'] at h1
      have hq := h2 h1
      obtain ⟨-, hqn, hT, hGn, hiG, -⟩ := target o hs.ok ef hq
      have s1 : q - 1 < L.n := by omega
      have hA : viewA L ((passL L F0).run i).F (muOf (passL L F0) (valL L.T L.n) L.n) i i = (q : Int) - 1 + muOf (passL L F0) (valL L.T L.n) L.n i := by
        rw [viewA_some ef, if_pos hT', if_neg (by omega)]
      rw [hA] at hrd
      generalize hj : (q : Int) - 1 + muOf (passL L F0) (valL L.T L.n) L.n i = j at hrd
      obtain ⟨hj0, hdd, hjj⟩ : 0 < j ∧ (if (L.n : Int) ≤ j then s.d + 1 else s.d) = (cnt (i + 1) ((passL L F0).hm (valL L.T L.n)) : Nat) ∧
          (if (L.n : Int) ≤ j then j - L.n else j) = ((q - 1 : Nat) : Int) := by
        have hcm := @Pass.cnt_hm _ (valL L.T L.n) _ _ hfin h1 (Classical.propDecidable _)
        by_cases hm : (passL L F0).Marked (valL L.T L.n) i
        · have := hcm
          rw [if_pos hm] at this
          rw [muOf_pos hm] at hj
          rw [if_pos (by omega), if_pos (by omega), hd, this]
          refine ⟨by omega, by push_cast; omega, by omega⟩
        · have := hcm
          rw [if_neg hm] at this
          rw [muOf_neg hm] at hj
          rw [if_neg (by omega), if_neg (by omega), hd, this]
          refine ⟨by omega, by push_cast; omega, by omega⟩
      have hnew : ((passL L F0).run (i + 1)).F (((passL L F0).run i).G (L.T (q - 1))) = some (q - 1) := by
        rw [run_hot ef hq]
        exact if_pos rfl
      have hhp := (hotL o hs hnew).1
      obtain ⟨m4, e4, r4⟩ := r.switch o (o.key _ s1)
      obtain ⟨m5, e5, r5⟩ := markNew_ok od r4 (u := 2 * L.T (q - 1) + fl ((passL L F0).hot (q - 1))) (by
        have := o.key _ s1
        unfold fl
        split <;> omega) ((cnt (i + 1) ((passL L F0).hm (valL L.T L.n)) : Nat) : Int) (((q - 1 : Nat) : Int) - 1)
      have htest := hc.test ok hv hi hfin hq
      have hkey : (passL L F0).key (q - 1) = L.T (q - 1) := rfl
      rw [hkey, Int.zero_add] at htest
      have hmu : (if D (2 * L.T (q - 1) + fl ((passL L F0).hot (q - 1))) ≠ ((cnt (i + 1) ((passL L F0).hm (valL L.T L.n)) : Nat) : Int)
          then ((q - 1 : Nat) : Int) - 1 + L.n else ((q - 1 : Nat) : Int) - 1) = ((q - 1 : Nat) : Int) - 1 + muOf (passL L F0) (valL L.T L.n) L.n (((passL L F0).run i).G (L.T (q - 1))) := by
        by_cases hm : (passL L F0).Marked (valL L.T L.n) (((passL L F0).run i).G (L.T (q - 1)))
        · rw [if_pos (htest.1.2 hm), muOf_pos hm]
        · rw [if_neg (fun h => hm (htest.1.1 h)), muOf_neg hm, Int.add_zero]
      rw [hmu] at e5
      obtain ⟨m6, e6, r6⟩ := r5.wr o hGn (if L.T (q - 1 - 1) < L.T (q - 1) then -(((q - 1 : Nat) : Int) - 1 + muOf (passL L F0) (valL L.T L.n) L.n (((passL L F0).run i).G (L.T (q - 1)))) - 1
        else ((q - 1 : Nat) : Int) - 1 + muOf (passL L F0) (valL L.T L.n) L.n (((passL L F0).run i).G (L.T (q - 1))))
      obtain ⟨m7, e7, r7⟩ := r6.wr o hi 0
      have r8 := r7.move rfl ((((passL L F0).run i).G (L.T (q - 1)) : Nat) + 1)
      refine ⟨⟨m7, (L.T (q - 1) : Int), ((((passL L F0).run i).G (L.T (q - 1)) : Nat) : Int) + 1, ((cnt (i + 1) ((passL L F0).hm (valL L.T L.n)) : Nat) : Int)⟩,
        upd D (2 * L.T (q - 1) + fl ((passL L F0).hot (q - 1))) ((cnt (i + 1) ((passL L F0).hm (valL L.T L.n)) : Nat) : Int), ?_, ?_, ?_, rfl⟩
      · have hc0 := r.chr s1 (z := ((q - 1 : Nat) : Int)) rfl
        have hc1 := r.chr (i := q) hqn (z := ((q - 1 : Nat) : Int) + 1) (by omega)
        have hc2 := r4.chr (i := q - 1 - 1) (by omega) (z := ((q - 1 : Nat) : Int) - 1) (by omega)
        simp only [hrd, Option.bind_eq_bind, Option.bind_some]
        rw [if_pos hj0]
        simp only [hjj, hdd, hc0, hc1, Option.bind_some]
        rw [if_neg (not_lt_cast hT), e4]
        simp only [Option.bind_some, hc2]
        have e5 : markNew L.n (d + (2 * (L.T (q - 1) : Int) + (if (L.T (q - 1 - 1) : Int) < (L.T (q - 1) : Int) then 1 else 0))) ((cnt (i + 1) ((passL L F0).hm (valL L.T L.n)) : Nat) : Int)
            (((q - 1 : Nat) : Int) - 1) m4 = some (((q - 1 : Nat) : Int) - 1 + muOf (passL L F0) (valL L.T L.n) L.n (((passL L F0).run i).G (L.T (q - 1))), m5) := by
          rw [← e5, hhp]
          congr 1
          by_cases h3 : L.T (q - 1 - 1) < L.T (q - 1)
          · rw [if_pos (by omega), decide_eq_false (by omega)]
            simp [fl]
          · rw [if_neg (by omega), decide_eq_true (by omega)]
            simp [fl]
        rw [e5]
        simp only [Option.bind_some]
        have e6 : wr m5 (ptrs (passL L F0) i (L.T (q - 1))) (if (L.T (q - 1 - 1) : Int) < (L.T (q - 1) : Int) then -(((q - 1 : Nat) : Int) - 1 + muOf (passL L F0) (valL L.T L.n) L.n (((passL L F0).run i).G (L.T (q - 1)))) - 1
            else ((q - 1 : Nat) : Int) - 1 + muOf (passL L F0) (valL L.T L.n) L.n (((passL L F0).run i).G (L.T (q - 1)))) = some m6 := by
          rw [← e6]
          show wr m5 _ _ = wr m5 (ptrs (passL L F0) i (L.T (q - 1))) _
          congr 1
          by_cases h3 : L.T (q - 1 - 1) < L.T (q - 1)
          · rw [if_pos (by omega), if_pos h3]
          · rw [if_neg (by omega), if_neg h3]
        rw [e6]
        simp only [Option.bind_some, e7]
        rfl
      · refine r8.ext ?_ ?_
        · intro a _
          exact viewA_hot ef hq hT' hiG a
        · intro c _
          exact ptrs_hot ef hq c
      · have : (fun c h => upd D (2 * L.T (q - 1) + fl ((passL L F0).hot (q - 1))) ((cnt (i + 1) ((passL L F0).hm (valL L.T L.n)) : Nat) : Int) (2 * c + fl h)) =
            (fun c h => if c = L.T (q - 1) ∧ h = (passL L F0).hot (q - 1) then ((cnt (i + 1) ((passL L F0).hm (valL L.T L.n)) : Nat) : Int) else D (2 * c + fl h)) := by
          funext c h
          unfold upd
          by_cases hcc : c = L.T (q - 1) ∧ h = (passL L F0).hot (q - 1)
          · rw [if_pos hcc, if_pos (by rw [hcc.1, hcc.2])]
          · rw [if_neg hcc, if_neg]
            intro h'
            exact hcc (fl_inj h')
        rw [this]
        exact htest.2
    · rw [decide_eq_false hT'] at h1
      have hno : ∀ s, (passL L F0).fin i = some s → (passL L F0).pred s = none := by
        intro x hx
        rw [hfin] at hx
        cases hx
        unfold Pass.hot at h1
        simpa using h1
      have hmc := muOf_cases (passL L F0) (valL L.T L.n) L.n i
      have hA : viewA L ((passL L F0).run i).F (muOf (passL L F0) (valL L.T L.n) L.n) i i = -((q : Int) - 1 + muOf (passL L F0) (valL L.T L.n) L.n i) - 1 := by
        rw [viewA_some ef, if_neg hT', if_neg (by omega)]
      rw [hA] at hrd
      obtain ⟨m3, e3, r3⟩ := r.wr o hi ((q : Int) - 1 + muOf (passL L F0) (valL L.T L.n) L.n i)
      have hcold : (passL L F0).run (i + 1) = (passL L F0).run i := by
        apply run_cold
        intro x hx
        exact hno x (by rw [hfin, ← hx, ef])
      refine ⟨⟨m3, s.c1, s.b2, s.d⟩, D, ?_, ?_, hc.skip hno, ?_⟩
      · simp only [hrd, Option.bind_eq_bind, Option.bind_some]
        rw [if_neg (by omega), if_pos (by omega)]
        have : -(-((q : Int) - 1 + muOf (passL L F0) (valL L.T L.n) L.n i) - 1) - 1 = (q : Int) - 1 + muOf (passL L F0) (valL L.T L.n) L.n i := by omega
        rw [this, e3]
        rfl
      · refine r3.ext ?_ ?_
        · intro a _
          rw [hcold]
          by_cases e : a = i
          · subst e
            rw [upd_eq, viewA_some ef, if_neg hT', if_pos (by omega)]
          · rw [upd_ne _ _ e, viewA_skip e]
        · intro c _
          unfold ptrs
          rw [hcold]
      · rw [Pass.cnt_hm_cold hno]; exact hd

/-- The first entry is marked. -/
theorem first_marked {L : Lay} (o : L.Ok) {F0 : Nat → Option Nat} (hs : SeedsOk L F0) : (passL L F0).Marked (valL L.T L.n) (L.start (L.T (L.n - 1))) := by
  have hn := o.npos
  have ok := passL_ok o hs
  have sh := (Pass.run_inv ok L.n).shape
  have hz : ((passL L F0).run 0).F (L.start (L.T (L.n - 1))) = some (L.n - 1) := by rw [passL_zero, if_pos rfl]
  have hf : (passL L F0).fin (L.start (L.T (L.n - 1))) = some (L.n - 1) := Pass.run_mono ok (Nat.zero_le _) hz
  intro s hs1 a' s' ha' es' _ hv
  rw [hf] at hs1
  have h1 : L.n - 1 = s := Option.some.inj hs1
  subst h1
  have hb := sh.bucket ok es'
  have hk := ((valsL o hs).key s' (L.n - 1) hb.1 (by show L.n - 1 < L.n; omega) hv).1
  have h2 := hb.2.1
  rw [hk] at h2
  have h2 : L.start (L.T (L.n - 1)) ≤ a' := h2
  omega

/-- The buckets, when there are counts. -/
theorem getBuckets_lay {L : Lay} (o : L.Ok) (hne : L.c ≠ L.b) {m : Mem} {A f g : Nat → Int} (atEnd : Bool) (ha : Arr m 0 L.n A) (hc : Arr m L.c L.k f) (hb : Arr m L.b L.k g)
    (ht : HasTxt L.t m L.n L.T) (hcnt : ∀ x < L.k, f x = (L.num x : Nat)) :
    ∃ m', getBuckets L.c L.b L.k atEnd m = some m' ∧ Holds L m m' A (fun x => (L.start (if atEnd then x + 1 else x) : Nat)) := by
  obtain ⟨m', e, h⟩ := buckets_ok o atEnd ha hc hb ht (fun _ => hcnt)
  refine ⟨m', ?_, h⟩
  unfold buckets at e
  rw [if_neg hne] at e
  exact e

/-- The first pass. -/
theorem lmsSort2L_ok {L : Lay} (o : L.Ok) {d : Int} (od : DOk L d) {F0 : Nat → Option Nat} {lo : Nat} (hs : LmsSeeds L F0 lo) {m : Mem} {f g : Nat → Int}
    (ha : Arr m 0 L.n (rawA F0 (muOf (passL L F0) (valL L.T L.n) L.n))) (hc : Arr m L.c L.k f) (hb : Arr m L.b L.k g) (hD : Arr m d (2 * L.k) (fun _ => 0))
    (ht : HasTxt L.t m L.n L.T) (hcnt : ∀ x < L.k, f x = (L.num x : Nat)) :
    ∃ (m' : Mem) (d0 : Int) (m0' : Mem) (B D : Nat → Int), lmsSort2L L.t L.c L.b d L.n L.k m = some (d0, m') ∧
      Holds L m0' m' (viewA L ((passL L F0).run L.n).F (muOf (passL L F0) (valL L.T L.n) L.n) L.n) B ∧ Arr m0' d (2 * L.k) D ∧ SameOut d (2 * L.k) m m0' ∧
      0 ≤ d0 ∧ ∀ u < 2 * L.k, D u ≤ d0 := by
  have hn := o.npos
  have hlp := lms_pos hs.low
  obtain ⟨m1, e1, h1⟩ := getBuckets_lay o od.ne false ha hc hb ht hcnt
  have h1 : Holds L m m1 (rawA F0 (muOf (passL L F0) (valL L.T L.n) L.n)) (fun x => ((L.start x : Nat) : Int)) := h1
  have hl : L.n - 1 < L.n := by omega
  have hkl := o.key _ hl
  have r1 := Rep.start h1 hkl
  have cj : ((L.n : Int) - 1) = ((L.n - 1 : Nat) : Int) := by omega
  have hst := first_slot o
  obtain ⟨m2, e2, r2⟩ := r1.wr o hst (if L.T (L.n - 1 - 1) < L.T (L.n - 1) then -(((L.n - 1 : Nat) : Int) - 1 + muOf (passL L F0) (valL L.T L.n) L.n (L.start (L.T (L.n - 1)))) - 1
      else ((L.n - 1 : Nat) : Int) - 1 + muOf (passL L F0) (valL L.T L.n) L.n (L.start (L.T (L.n - 1))))
  have r3 := r2.move rfl (((L.start (L.T (L.n - 1)) : Nat) : Int) + 1)
  have r4 : Rep2 L d m m2 (L.T (L.n - 1) : Int) (((L.start (L.T (L.n - 1)) : Nat) : Int) + 1) (viewA L ((passL L F0).run 0).F (muOf (passL L F0) (valL L.T L.n) L.n) 0) (ptrs (passL L F0) 0) (fun _ => 0) := by
    refine ⟨m, ?_, hD, fun _ _ => rfl⟩
    apply r3.ext
    · intro i _
      exact viewA_zero o hs i
    · intro c _
      exact ptrs_zero c
  obtain ⟨s, es, D, hsI, hsC, hsd⟩ := upto_rule (n := L.n) (body := lmsStep2L L.t L.b d L.n) (s := ⟨m2, L.T (L.n - 1), ((L.start (L.T (L.n - 1)) : Nat) : Int) + 1, 0⟩)
    (fun i s => ∃ D, Rep2 L d m s.m s.c1 s.b2 (viewA L ((passL L F0).run i).F (muOf (passL L F0) (valL L.T L.n) L.n) i) (ptrs (passL L F0) i) D ∧
      (passL L F0).Counters (valL L.T L.n) 0 i (fun c h => D (2 * c + fl h)) ∧ s.d = ((cnt i ((passL L F0).hm (valL L.T L.n)) : Nat) : Int))
    ⟨_, r4, (fun c h => Or.inl ⟨Int.le_refl _, fun x _ _ hx => absurd hx (Nat.not_lt_zero _)⟩), rfl⟩
    (fun i s hi ⟨D, r, hC, hd⟩ => by
      obtain ⟨s', D', h1, h2, h3, h4⟩ := lmsStep2L_ok o od hs hi r hC hd
      exact ⟨s', h1, D', h2, h3, h4⟩)
  obtain ⟨m0', hR, hA, hO⟩ := hsI
  obtain ⟨B, hB⟩ := hR.done
  refine ⟨s.m, s.d, m0', B, D, ?_, hB, hA, hO, by omega, ?_⟩
  · unfold lmsSort2L
    rw [e1]
    have hc2 := r1.chr' (i := L.n - 1 - 1) (by omega) (z := ((L.n - 1 : Nat) : Int) - 1) (by omega)
    have e2 : wr m1 ((L.start (L.T (L.n - 1)) : Nat) : Int) (if (L.T (L.n - 1 - 1) : Int) < (L.T (L.n - 1) : Int) then -(((L.n - 1 : Nat) : Int) - 1 + L.n) - 1 else ((L.n - 1 : Nat) : Int) - 1 + L.n) = some m2 := by
      rw [← e2, muOf_pos (first_marked o hs.ok)]
      congr 1
      by_cases h3 : L.T (L.n - 1 - 1) < L.T (L.n - 1)
      · rw [if_pos (by omega), if_pos h3]
      · rw [if_neg (by omega), if_neg h3]
    simp only [Option.bind_eq_bind, Option.bind_some, cj, r1.chr hl, h1.rdB hkl, hc2, e2, es]
  · intro u hu
    obtain ⟨c, h, e⟩ : ∃ c h, u = 2 * c + fl h := by
      rcases Nat.mod_two_eq_zero_or_one u with h | h
      · exact ⟨u / 2, true, by simp [fl]; omega⟩
      · exact ⟨u / 2, false, by simp [fl]; omega⟩
    have := hsC.bound c h
    rw [e, hsd]
    omega

/-! ### The marks move -/

/-- The first of a group. -/
def FirstG (C : Nat → Prop) (V : Nat → List Nat) (a : Nat) : Prop := ∀ a', a' < a → C a' → V a' ≠ V a

/-- The last of a group. -/
def LastG (n : Nat) (C : Nat → Prop) (V : Nat → List Nat) (a : Nat) : Prop := ∀ a', a < a' → a' < n → C a' → V a' ≠ V a

theorem exists_first {C : Nat → Prop} {V : Nat → List Nat} (a : Nat) (ha : C a) : ∃ f, f ≤ a ∧ C f ∧ V f = V a ∧ FirstG C V f := by
  induction a using Nat.strongRecOn with
  | _ a ih =>
    by_cases h : FirstG C V a
    · exact ⟨a, Nat.le_refl _, ha, rfl, h⟩
    · have : ∃ a', a' < a ∧ C a' ∧ V a' = V a := by
        apply Classical.byContradiction
        intro hn
        exact h (fun a' h1 h2 h3 => hn ⟨a', h1, h2, h3⟩)
      obtain ⟨a', h1, h2, h3⟩ := this
      obtain ⟨f, g1, g2, g3, g4⟩ := ih a' h1 h2
      exact ⟨f, by omega, g2, g3.trans h3, g4⟩

open Classical in
/-- The array with the marks on the first below `i` and on the last from there on. -/
noncomputable def flipA (n : Nat) (C : Nat → Prop) (V : Nat → List Nat) (w : Nat → Int) (i a : Nat) : Int :=
  if C a then w a + (if a < i then (if FirstG C V a then (n : Int) else 0) else (if LastG n C V a then (n : Int) else 0)) else 0

theorem findMark_ok {n : Nat} {m : Mem} {A : Nat → Int} {j0 i : Nat} (h0 : j0 < i) (hm : (n : Int) ≤ A j0) (hbet : ∀ a, j0 < a → a < i → A a < n)
    (hA : ∀ a, a < i → m (a : Int) = some (A a)) : findMark n m i = some j0 := by
  induction i with
  | zero => omega
  | succ i ih =>
    unfold findMark
    have hrd : rd m (i : Int) = some (A i) := hA i (by omega)
    rw [hrd, Option.bind_eq_bind, Option.bind_some]
    by_cases e : i = j0
    · rw [if_neg (by rw [e]; omega), e]
    · rw [if_pos (hbet i (by omega) (by omega))]
      exact ih (by omega) (fun a h1 h2 => hbet a h1 (by omega)) (fun a h => hA a (by omega))

theorem flipMarks_ok {n : Nat} {C : Nat → Prop} {V : Nat → List Nat} {w : Nat → Int} (hw : ∀ a, a < n → C a → 0 < w a ∧ w a < n)
    (hmid : ∀ a b c, a < b → b < c → c < n → C a → C b → C c → V a = V c → V b = V c) :
    ∀ (i fuel : Nat) (m : Mem), i ≤ fuel → i ≤ n → Arr m 0 n (flipA n C V w i) → (∀ x y, x < i → i ≤ y → y < n → C x → C y → V x ≠ V y) →
      ∃ m', flipMarks n fuel i m = some m' ∧ Arr m' 0 n (flipA n C V w 0) ∧ SameOut 0 n m m' := by
  intro i
  induction i using Nat.strongRecOn with
  | _ i ih =>
    intro fuel m hf hn hA hb
    cases i with
    | zero => cases fuel <;> exact ⟨m, rfl, hA, fun _ _ => rfl⟩
    | succ i =>
      obtain ⟨fuel, rfl⟩ : ∃ f, fuel = f + 1 := ⟨fuel - 1, by omega⟩
      have hrd : rd m (i : Int) = some (flipA n C V w (i + 1) i) := by
        have := hA i (by omega)
        rw [Int.zero_add] at this
        exact this
      unfold flipMarks
      rw [hrd, Option.bind_eq_bind, Option.bind_some]
      by_cases hC : C i
      · obtain ⟨w1, w2⟩ := hw i (by omega) hC
        by_cases hF : FirstG C V i
        · have hv : flipA n C V w (i + 1) i = w i + n := by
            unfold flipA
            rw [if_pos hC, if_pos (show i < i + 1 by omega), if_pos hF]
          rw [if_neg (by omega)]
          have hL : LastG n C V i := fun a' h1 h2 h3 h4 => hb i a' (by omega) (by omega) h2 hC h3 h4.symm
          refine ih i (by omega) fuel m (by omega) (by omega) (hA.ext ?_) ?_
          · intro a _
            by_cases e : a = i
            · subst e
              unfold flipA
              rw [if_pos hC, if_pos (show a < a + 1 by omega), if_pos hF, if_pos hC, if_neg (show ¬ a < a by omega), if_pos hL]
            · unfold flipA
              by_cases h1 : a < i
              · rw [if_pos (show a < i + 1 by omega), if_pos h1]
              · rw [if_neg (show ¬ a < i + 1 by omega), if_neg h1]
          · intro x y h1 h2 h3 h4 h5
            by_cases e : y = i
            · subst e
              exact hF x h1 h4
            · exact hb x y (by omega) (by omega) h3 h4 h5
        · have hv : flipA n C V w (i + 1) i = w i := by
            unfold flipA
            rw [if_pos hC, if_pos (show i < i + 1 by omega), if_neg hF, Int.add_zero]
          rw [if_pos (by omega)]
          have hL : LastG n C V i := fun a' h1 h2 h3 h4 => hb i a' (by omega) (by omega) h2 hC h3 h4.symm
          obtain ⟨f, f1, f2, f3, f4⟩ := exists_first (C := C) (V := V) i hC
          have hfi : f < i := by
            rcases Nat.lt_or_eq_of_le f1 with h | h
            · exact h
            · rw [h] at f4; exact absurd f4 hF
          have hgrp : ∀ a, f ≤ a → a ≤ i → C a → V a = V i := by
            intro a h1 h2 h3
            by_cases e1 : a = f
            · rw [e1, f3]
            · by_cases e2 : a = i
              · rw [e2]
              · exact hmid f a i (by omega) (by omega) (by omega) f2 h3 hC f3
          have hmi : m (i : Int) = some (flipA n C V w (i + 1) i) := hrd
          rw [wr_eq _ hmi, Option.bind_eq_bind, Option.bind_some, hv]
          have hA2 := hA.set i (w i + n)
          rw [Int.zero_add] at hA2
          have hfm : findMark n (setM m i (w i + n)) i = some f := by
            refine findMark_ok (A := flipA n C V w (i + 1)) hfi ?_ ?_ ?_
            · obtain ⟨w3, w4⟩ := hw f (by omega) f2
              unfold flipA
              rw [if_pos f2, if_pos (show f < i + 1 by omega), if_pos f4]
              omega
            · intro a h1 h2
              unfold flipA
              by_cases hCa : C a
              · obtain ⟨w3, w4⟩ := hw a (by omega) hCa
                rw [if_pos hCa, if_pos (show a < i + 1 by omega), if_neg]
                · omega
                · intro hc
                  exact hc f h1 f2 (f3.trans (hgrp a (by omega) (by omega) hCa).symm)
              · rw [if_neg hCa]
                omega
            · intro a h1
              rw [setM_ne _ _ (by omega)]
              have := hA a (by omega)
              rw [Int.zero_add] at this
              exact this
          rw [hfm, Option.bind_eq_bind, Option.bind_some]
          obtain ⟨w3, w4⟩ := hw f (by omega) f2
          have hmf : setM m i (w i + n) (f : Int) = some (w f + n) := by
            rw [setM_ne _ _ (by omega)]
            have := hA f (by omega)
            rw [Int.zero_add] at this
            rw [this]
            unfold flipA
            rw [if_pos f2, if_pos (show f < i + 1 by omega), if_pos f4]
          have hrd2 : rd (setM m i (w i + n)) (f : Int) = some (w f + n) := hmf
          rw [hrd2, Option.bind_some, wr_eq _ hmf, Option.bind_some]
          have hA3 := hA2.set f (w f)
          rw [Int.zero_add] at hA3
          rw [show w f + (n : Int) - n = w f by omega]
          refine Exists.elim (ih f (by omega) fuel _ (by omega) (by omega) (hA3.ext ?_) ?_) (fun m' ⟨e', h1', h2'⟩ => ⟨m', e', h1', ?_⟩)
          rotate_left 2
          · intro a ha
            rw [h2' a ha, setM_ne _ _ (by omega), setM_ne _ _ (by omega)]
          · intro a ha
            unfold upd
            by_cases e1 : a = f
            · subst e1
              rw [if_pos rfl]
              unfold flipA
              rw [if_pos f2, if_neg (show ¬ a < a by omega), if_neg, Int.add_zero]
              intro hc
              exact hc i hfi (by omega) hC f3.symm
            · rw [if_neg e1]
              by_cases e2 : a = i
              · subst e2
                rw [if_pos rfl]
                unfold flipA
                rw [if_pos hC, if_neg (show ¬ a < f by omega), if_pos hL]
              · rw [if_neg e2]
                unfold flipA
                by_cases hCa : C a
                · rw [if_pos hCa, if_pos hCa]
                  by_cases h1 : a < f
                  · rw [if_pos h1, if_pos (show a < i + 1 by omega)]
                  · rw [if_neg h1]
                    by_cases h2 : a < i
                    · rw [if_pos (show a < i + 1 by omega), if_neg, if_neg]
                      · intro hc
                        exact hc i h2 (by omega) hC (hgrp a (by omega) (by omega) hCa).symm
                      · intro hc
                        exact hc f (by omega) f2 (f3.trans (hgrp a (by omega) (by omega) hCa).symm)
                    · rw [if_neg (show ¬ a < i + 1 by omega)]
                · rw [if_neg hCa, if_neg hCa]
          · intro x y h1 h2 h3 h4 h5 h6
            by_cases e : y ≤ i
            · exact f4 x h1 h4 (h6.trans ((hgrp y h2 e h5).trans f3.symm))
            · have := hmid x i y (by omega) (by omega) h3 h4 hC h5 h6
              exact hb i y (by omega) (by omega) h3 hC h5 this
      · have hv : flipA n C V w (i + 1) i = 0 := by
          unfold flipA
          rw [if_neg hC]
        rw [if_neg (by omega)]
        refine ih i (by omega) fuel m (by omega) (by omega) (hA.ext ?_) ?_
        · intro a _
          by_cases e : a = i
          · subst e
            unfold flipA
            rw [if_neg hC, if_neg hC]
          · unfold flipA
            by_cases h1 : a < i
            · rw [if_pos (show a < i + 1 by omega), if_pos h1]
            · rw [if_neg (show ¬ a < i + 1 by omega), if_neg h1]
        · intro x y h1 h2 h3 h4 h5
          by_cases e : y = i
          · subst e
            exact absurd h5 hC
          · exact hb x y (by omega) (by omega) h3 h4 h5

end Bpak.Sais
