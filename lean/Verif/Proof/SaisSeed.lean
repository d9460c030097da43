import Verif.Proof.SaisPost
/-! The seeds of the first stage (lib/sais.c:539-571) and their marks (lib/sais.c:591-603). -/
namespace Bpak.Sais

/-- How many leftmost type S positions behind `i` begin with `c`. -/
def behind (L : Lay) (i c : Nat) : Nat := cnt L.n (fun q => decide (i < q) && (lms L.T L.n q && decide (L.T q = c)))

theorem behind_step {L : Lay} {i : Nat} (hi : lms L.T L.n (i + 1) = true) (c : Nat) :
    behind L i c = behind L (i + 1) c + if L.T (i + 1) = c then 1 else 0 := by
  have hp := lms_pos hi
  by_cases hc : L.T (i + 1) = c
  · rw [if_pos hc]
    unfold behind
    have h1 : ∀ N, i + 1 < N → cnt N (fun q => decide (i < q) && (lms L.T L.n q && decide (L.T q = c))) =
        cnt N (fun q => decide (i + 1 < q) && (lms L.T L.n q && decide (L.T q = c))) + 1 := by
      intro N
      induction N with
      | zero => intro h; omega
      | succ N ih =>
        intro h
        rw [cnt_succ, cnt_succ]
        by_cases h2 : i + 1 < N
        · rw [ih h2]
          have e1 : decide (i < N) = true := decide_eq_true (by omega)
          have e2 : decide (i + 1 < N) = true := decide_eq_true h2
          rw [e1, e2]; omega
        · have h3 : N = i + 1 := by omega
          subst h3
          rw [cnt_false (i + 1) (fun q => decide (i < q) && _) (fun q hq => by simp; omega),
            cnt_false (i + 1) (fun q => decide (i + 1 < q) && _) (fun q hq => by simp; omega)]
          simp [hi, hc]
    exact h1 _ (by omega)
  · rw [if_neg hc]
    unfold behind
    refine cnt_congr (fun q hq => ?_)
    by_cases h : q = i + 1
    · subst h; simp [hc]
    · have : decide (i < q) = decide (i + 1 < q) := by
        by_cases h2 : i + 1 < q
        · rw [decide_eq_true h2, decide_eq_true (by omega)]
        · rw [decide_eq_false h2, decide_eq_false (by omega)]
      rw [this]

theorem behind_skip {L : Lay} {i : Nat} (hi : lms L.T L.n (i + 1) = false) (c : Nat) : behind L i c = behind L (i + 1) c := by
  unfold behind
  refine cnt_congr (fun q hq => ?_)
  by_cases h : q = i + 1
  · subst h; simp [hi]
  · have : decide (i < q) = decide (i + 1 < q) := by
      by_cases h2 : i + 1 < q
      · rw [decide_eq_true h2, decide_eq_true (by omega)]
      · rw [decide_eq_false h2, decide_eq_false (by omega)]
    rw [this]

theorem behind_lt {L : Lay} {p q : Nat} (hq : lms L.T L.n q = true) (h : p < q) : behind L q (L.T q) < behind L p (L.T q) := by
  have hp := lms_pos hq
  have h1 := behind_step (L := L) (i := q - 1) (by rw [show q - 1 + 1 = q by omega]; exact hq) (L.T q)
  rw [show q - 1 + 1 = q by omega, if_pos rfl] at h1
  have h2 : behind L (q - 1) (L.T q) ≤ behind L p (L.T q) := by
    unfold behind
    refine cnt_mono (fun r _ hr => ?_)
    simp only [Bool.and_eq_true, decide_eq_true_eq] at hr ⊢
    exact ⟨by omega, hr.2⟩
  omega

theorem behind_le {L : Lay} (i c : Nat) : behind L i c ≤ L.snum c := by
  unfold behind Lay.snum
  refine cnt_mono (fun q _ hq => ?_)
  simp only [Bool.and_eq_true, decide_eq_true_eq] at hq ⊢
  exact ⟨hq.2.2, (lms_iff.1 hq.2.1).2.1⟩

theorem behind_zero {L : Lay} {i : Nat} (h : L.n ≤ i + 1) (c : Nat) : behind L i c = 0 := by
  unfold behind
  exact cnt_false _ _ (fun q hq => by simp; omega)

/-- Where the seed `p` goes. -/
def slot (L : Lay) (p : Nat) : Nat := L.start (L.T p + 1) - 1 - behind L p (L.T p)

theorem slot_bounds {L : Lay} {p : Nat} (h : lms L.T L.n p = true) :
    L.start (L.T p) + L.lnum (L.T p) ≤ slot L p ∧ slot L p + behind L p (L.T p) + 1 = L.start (L.T p + 1) ∧ slot L p < L.n := by
  have h1 := behind_lt (p := p - 1) h (by have := lms_pos h; omega)
  have h2 := behind_le (L := L) (p - 1) (L.T p)
  have h3 := L.start_succ (L.T p)
  have h4 := L.num_split (L.T p)
  have h5 := L.start_le (L.T p + 1)
  unfold slot
  refine ⟨by omega, by omega, by omega⟩

theorem slot_inj {L : Lay} {p q : Nat} (hp : lms L.T L.n p = true) (hq : lms L.T L.n q = true) (h : slot L p = slot L q) : p = q := by
  have bp := slot_bounds hp
  have bq := slot_bounds hq
  have hT : L.T p = L.T q := by
    rcases Nat.lt_trichotomy (L.T p) (L.T q) with h1 | h1 | h1
    · have := L.start_mono (a := L.T p + 1) (b := L.T q) (by omega); omega
    · exact h1
    · have := L.start_mono (a := L.T q + 1) (b := L.T p) (by omega); omega
  rcases Nat.lt_trichotomy p q with h1 | h1 | h1
  · have := behind_lt hq h1; rw [hT] at bp; omega
  · exact h1
  · have := behind_lt hp h1; rw [← hT] at bq; omega

/-- The leftmost type S positions behind `lo` at their places. -/
def seedF (L : Lay) (lo a : Nat) : Option Nat := (List.range L.n).find? (fun p => lms L.T L.n p && (decide (lo < p) && decide (slot L p = a)))

theorem seedF_iff {L : Lay} {lo a p : Nat} : seedF L lo a = some p ↔ lms L.T L.n p = true ∧ lo < p ∧ slot L p = a := by
  unfold seedF
  constructor
  · intro h
    have := List.find?_some h
    simp only [Bool.and_eq_true, decide_eq_true_eq] at this
    exact ⟨this.1, this.2.1, this.2.2⟩
  · rintro ⟨h1, h2, h3⟩
    cases hf : (List.range L.n).find? (fun p => lms L.T L.n p && (decide (lo < p) && decide (slot L p = a))) with
    | none =>
      rw [List.find?_eq_none] at hf
      have := hf p (List.mem_range.2 (by have := lms_pos h1; omega))
      simp [h1, h2, h3] at this
    | some q =>
      have hq := List.find?_some hf
      simp only [Bool.and_eq_true, decide_eq_true_eq] at hq
      rw [slot_inj h1 hq.1 (by rw [h3, hq.2.2])]

theorem seedF_ok (L : Lay) (lo : Nat) : SeedsOk L (seedF L lo) := by
  refine ⟨fun a s h => (seedF_iff.1 h).1, fun a s h => ?_, fun a b s h1 h2 => ?_⟩
  · have h1 := seedF_iff.1 h
    have h2 := slot_bounds h1.1
    rw [← h1.2.2]; exact ⟨h2.1, by omega⟩
  · rw [← (seedF_iff.1 h1).2.2, ← (seedF_iff.1 h2).2.2]

theorem seedF_lms {L : Lay} {lo : Nat} (h : lms L.T L.n lo = true) : LmsSeeds L (seedF L lo) lo :=
  ⟨seedF_ok L lo, h, fun _ _ e => (seedF_iff.1 e).2.1, fun s h1 h2 => ⟨slot L s, seedF_iff.2 ⟨h2, h1, rfl⟩⟩⟩

theorem rawA_some {F : Nat → Option Nat} {mu : Nat → Int} {a s : Nat} (h : F a = some s) : rawA F mu a = (s : Int) - 1 + mu a := by unfold rawA; rw [h]
theorem rawA_none {F : Nat → Option Nat} {mu : Nat → Int} {a : Nat} (h : F a = none) : rawA F mu a = 0 := by unfold rawA; rw [h]

/-- Putting one more seed. -/
theorem seedF_step {L : Lay} {i lo : Nat} (hl : lms L.T L.n lo = true) (h1 : i < lo) (h2 : ∀ q, lms L.T L.n q = true → i < q → lo ≤ q) (a : Nat) :
    upd (rawA (seedF L lo) noMu) (slot L lo) ((lo : Int) - 1) a = rawA (seedF L i) noMu a := by
  by_cases ha : a = slot L lo
  · subst ha
    rw [upd_eq, rawA_some (seedF_iff.2 ⟨hl, h1, rfl⟩)]
    unfold noMu; omega
  · rw [upd_ne _ _ ha]
    cases h : seedF L i a with
    | none =>
      cases h' : seedF L lo a with
      | none => rw [rawA_none h, rawA_none h']
      | some q =>
        have := seedF_iff.1 h'
        rw [seedF_iff.2 ⟨this.1, by omega, this.2.2⟩] at h; cases h
    | some q =>
      have := seedF_iff.1 h
      have h3 := h2 q this.1 this.2.1
      have h4 : lo ≠ q := by intro e; subst e; exact ha this.2.2.symm
      rw [rawA_some h, rawA_some (seedF_iff.2 ⟨this.1, by omega, this.2.2⟩)]

/-- The pending write. -/
def Pending (L : Lay) (i : Nat) (s : Seeds) (lo : Nat) : Prop :=
  (s.b = none ∧ lo = L.n ∧ ∀ q, lms L.T L.n q = true → q ≤ i) ∨
  (lms L.T L.n lo = true ∧ i < lo ∧ (∀ q, lms L.T L.n q = true → i < q → lo ≤ q) ∧ s.b = some (slot L lo : Int) ∧ s.j = (lo : Int) - 1)

structure SeedInv (L : Lay) (m0 : Mem) (i : Nat) (s : Seeds) (lo : Nat) : Prop where
  mem : Holds L m0 s.m (rawA (seedF L lo) noMu) (fun c => (L.start (c + 1) - behind L i c : Nat))
  pend : Pending L i s lo
  num : s.mm = cnt L.n (fun q => decide (i < q) && lms L.T L.n q)

theorem num_step {L : Lay} {i : Nat} (hi : lms L.T L.n (i + 1) = true) :
    cnt L.n (fun q => decide (i < q) && lms L.T L.n q) = cnt L.n (fun q => decide (i + 1 < q) && lms L.T L.n q) + 1 := by
  have hp := lms_pos hi
  have h1 : ∀ N, i + 1 < N → cnt N (fun q => decide (i < q) && lms L.T L.n q) = cnt N (fun q => decide (i + 1 < q) && lms L.T L.n q) + 1 := by
    intro N
    induction N with
    | zero => intro h; omega
    | succ N ih =>
      intro h
      rw [cnt_succ, cnt_succ]
      by_cases h2 : i + 1 < N
      · rw [ih h2]
        have e1 : decide (i < N) = true := decide_eq_true (by omega)
        have e2 : decide (i + 1 < N) = true := decide_eq_true h2
        rw [e1, e2]; omega
      · have h3 : N = i + 1 := by omega
        subst h3
        rw [cnt_false (i + 1) (fun q => decide (i < q) && _) (fun q hq => by simp; omega),
          cnt_false (i + 1) (fun q => decide (i + 1 < q) && _) (fun q hq => by simp; omega)]
        simp [hi]
  exact h1 _ (by omega)

theorem num_skip {L : Lay} {i : Nat} (hi : lms L.T L.n (i + 1) = false) :
    cnt L.n (fun q => decide (i < q) && lms L.T L.n q) = cnt L.n (fun q => decide (i + 1 < q) && lms L.T L.n q) := by
  refine cnt_congr (fun q hq => ?_)
  by_cases h : q = i + 1
  · subst h; simp [hi]
  · have : decide (i < q) = decide (i + 1 < q) := by
      by_cases h2 : i + 1 < q
      · rw [decide_eq_true h2, decide_eq_true (by omega)]
      · rw [decide_eq_false h2, decide_eq_false (by omega)]
    rw [this]

theorem Holds.ext {L : Lay} {m0 m : Mem} {A B A' B' : Nat → Int} (h : Holds L m0 m A B) (hA : ∀ i < L.n, A i = A' i) (hB : ∀ c < L.k, B c = B' c) : Holds L m0 m A' B' :=
  ⟨h.sa.ext hA, h.bk.ext hB, h.txt, h.frame⟩

theorem putPending_ok {L : Lay} (o : L.Ok) {m0 : Mem} {i : Nat} {s : Seeds} {lo : Nat} (hI : SeedInv L m0 i s lo) :
    ∃ m', putPending s = some m' ∧ Holds L m0 m' (rawA (seedF L i) noMu) (fun c => (L.start (c + 1) - behind L i c : Nat)) := by
  unfold putPending
  rcases hI.pend with ⟨h1, h2, h3⟩ | ⟨h1, h2, h3, h4, h5⟩
  · rw [h1]
    refine ⟨s.m, rfl, hI.mem.ext (fun a _ => ?_) (fun _ _ => rfl)⟩
    rw [rawA_none, rawA_none]
    · cases h : seedF L i a with
      | none => rfl
      | some q => have := seedF_iff.1 h; have := h3 q this.1; omega
    · cases h : seedF L lo a with
      | none => rfl
      | some q => have := seedF_iff.1 h; have := lms_pos this.1; omega
  · rw [h4]
    have hs := slot_bounds h1
    obtain ⟨e, hh⟩ := hI.mem.wr o hs.2.2 s.j
    refine ⟨_, e, hh.ext (fun a _ => ?_) (fun _ _ => rfl)⟩
    rw [h5]
    exact seedF_step h1 h2 h3 a

theorem seedStep_ok {L : Lay} (o : L.Ok) {m0 : Mem} {i : Nat} (hl : lms L.T L.n (i + 1) = true) {s : Seeds} {lo : Nat} (hI : SeedInv L m0 (i + 1) s lo) :
    ∃ s', seedStep L.b i (L.T (i + 1) : Int) s = some s' ∧ ∃ lo', SeedInv L m0 i s' lo' := by
  have hp := lms_pos hl
  have hk := o.key (i + 1) (by omega)
  obtain ⟨m1, h1, h2⟩ := putPending_ok o hI
  have hsb := slot_bounds hl
  have hrd : rd m1 (L.b + (L.T (i + 1) : Int)) = some ((L.start (L.T (i + 1) + 1) - behind L (i + 1) (L.T (i + 1)) : Nat) : Int) := h2.rdB hk
  have hx : ((L.start (L.T (i + 1) + 1) - behind L (i + 1) (L.T (i + 1)) : Nat) : Int) - 1 = (slot L (i + 1) : Nat) := by omega
  obtain ⟨h3, h4⟩ := h2.wrB o hk (((L.start (L.T (i + 1) + 1) - behind L (i + 1) (L.T (i + 1)) : Nat) : Int) - 1)
  unfold seedStep
  simp only [h1, hrd, h3, Option.bind_eq_bind, Option.bind_some]
  refine ⟨_, rfl, i + 1, ⟨h4.ext (fun _ _ => rfl) (fun c hc => ?_), Or.inr ⟨hl, by omega, fun q _ h => by omega, by rw [hx], by show (i : Int) = _; omega⟩, ?_⟩⟩
  · by_cases hci : c = L.T (i + 1)
    · subst hci
      rw [upd_eq, behind_step hl, if_pos rfl]; omega
    · rw [upd_ne _ _ hci, behind_step hl c, if_neg (fun e => hci e.symm)]; simp
  · show s.mm + 1 = _
    rw [num_step hl, hI.num]

/-- The seeds of the first stage. -/
theorem placeSeeds_ok {L : Lay} (o : L.Ok) {m : Mem} {A f g : Nat → Int} (ha : Arr m 0 L.n A) (hc : Arr m L.c L.k f) (hb : Arr m L.b L.k g) (ht : HasTxt L.t m L.n L.T) :
    ∃ s m0 lo, placeSeeds L.t L.c L.b L.n L.k m = some s ∧ SeedInv L m0 0 s lo ∧ s.mm = lmsNum L.T L.n ∧
      (L.c ≠ L.b → Arr s.m L.c L.k (fun x => (L.num x : Nat))) ∧
      (∀ a : Int, ¬ (0 ≤ a ∧ a < L.n) → ¬ (L.c ≤ a ∧ a < L.c + L.k) → ¬ (L.b ≤ a ∧ a < L.b + L.k) → s.m a = m a) := by
  have hn := o.npos
  obtain ⟨m1, h1, h2, h3⟩ := getCounts_ok hc ht o.key (fun a h => by have := o.txt a h; omega)
  have hcb := o.hcb
  have hbn := o.hb
  have hcn := o.hc
  have hb1 : ∃ g', Arr m1 L.b L.k g' := by
    rcases hcb with h | h
    · exact ⟨_, h ▸ h2⟩
    · exact ⟨g, hb.congr (fun a h4 h5 => h3 a (by omega))⟩
  obtain ⟨g', hb1⟩ := hb1
  obtain ⟨m2, h4, h5, h6⟩ := getBuckets_ok (S := fun x => (L.start x : Nat)) true h2 hb1 hcb (by show ((L.start 0 : Nat) : Int) = 0; rw [L.start_zero]; rfl)
    (fun i _ => by show ((L.start (i + 1) : Nat) : Int) = _; rw [L.start_succ]; push_cast; rfl)
  have ha2 : Arr m2 0 L.n A := ha.congr (fun a h7 h8 => by rw [h6 a (by omega), h3 a (by omega)])
  have ht2 : HasTxt L.t m2 L.n L.T := ht.congr (fun a h => by have := o.txt a h; rw [h6 a (by omega), h3 a (by omega)])
  obtain ⟨m3, h7, h8⟩ := upto_rule (I := fun i (m : Mem) => Holds L m2 m (fun a => if a < i then 0 else A a) (fun c => (L.start (c + 1) : Nat)))
    (n := L.n) (body := fun i m => wr m i 0) (s := m2)
    ⟨ha2.ext (fun j _ => by rw [if_neg (by omega)]), h5.ext (fun j _ => by rw [if_pos rfl]), ht2, fun _ _ _ => rfl⟩
    (fun i s hi hI => by
      obtain ⟨e, h⟩ := hI.wr o hi 0
      refine ⟨_, e, h.ext (fun j hj => ?_) (fun _ _ => rfl)⟩
      by_cases hji : j = i
      · rw [hji, upd_eq, if_pos (by omega)]
      · rw [upd_ne _ _ hji]
        by_cases h2 : j < i
        · rw [if_pos h2, if_pos (by omega)]
        · rw [if_neg h2, if_neg (by omega)])
  have hls : sTy L.T L.n (L.n - 1) = false := sTy_last L.T L.n (L.n - 1) (by omega)
  have hno : ∀ q, lms L.T L.n q = true → q ≤ L.n - 1 := fun q h => by have := lms_pos h; omega
  obtain ⟨s, h9, lo, h10⟩ := lmsScan_rule (T := L.T) (n := L.n) (I := fun i (s : Seeds) => ∃ lo, SeedInv L m2 i s lo)
    (getc := fun (s : Seeds) i => chr L.t s.m i) (body := seedStep L.b)
    (fun i s hi hI => by obtain ⟨lo, hI⟩ := hI; exact hI.mem.chr (by omega))
    (fun i s hi hI hl => by obtain ⟨lo, hI⟩ := hI; exact seedStep_ok o hl hI)
    (fun i s hi hI hl => by
      obtain ⟨lo, hI⟩ := hI
      have hq : ∀ q, lms L.T L.n q = true → q ≠ i + 1 := fun q h e => by rw [e, hl] at h; cases h
      refine ⟨lo, hI.mem.ext (fun _ _ => rfl) (fun c _ => by rw [behind_skip hl]), ?_, by rw [num_skip hl]; exact hI.num⟩
      rcases hI.pend with ⟨h1, h2, h3⟩ | ⟨h1, h2, h3, h4, h5⟩
      · exact Or.inl ⟨h1, h2, fun q h => by have := h3 q h; have := hq q h; omega⟩
      · exact Or.inr ⟨h1, by omega, fun q h h' => h3 q h (by have := hq q h; omega), h4, h5⟩)
    (L.n - 1) ⟨m3, none, L.n, 0⟩ (by omega)
    ⟨L.n, h8.ext (fun a ha => by
        rw [if_pos ha, rawA_none]
        cases h : seedF L L.n a with
        | none => rfl
        | some q => have := seedF_iff.1 h; have := lms_pos this.1; omega) (fun c _ => by rw [behind_zero (by omega)]; rfl),
      Or.inl ⟨rfl, rfl, hno⟩, by
        show 0 = _
        rw [cnt_false _ _ (fun q hq => by simp; omega)]⟩
  rw [hls] at h9
  refine ⟨s, m2, lo, ?_, h10, ?_, fun hne => ?_, fun a h11 h12 h13 => ?_⟩
  · unfold placeSeeds
    have hch : chr L.t m3 ((L.n : Int) - 1) = some (L.T (L.n - 1) : Int) := by
      rw [← h8.chr (i := L.n - 1) (by omega)]; congr 1; omega
    simp only [h1, h4, h7, hch, Option.bind_eq_bind, Option.bind_some]
    exact h9
  · rw [h10.num]
    unfold lmsNum
    refine cnt_congr (fun q _ => ?_)
    by_cases h : 0 < q
    · rw [decide_eq_true h]; rfl
    · have : q = 0 := by omega
      subst this; rfl
  · refine h2.congr (fun a h11 h12 => ?_)
    rw [h10.mem.frame a (by omega) (by omega), h6 a (by omega)]
  · rw [h10.mem.frame a h11 h13, h6 a h13, h3 a h12]

/-- The lowest place of a seed in the bucket of `c`. -/
def lowS (L : Lay) (lo c : Nat) : Nat := L.start (c + 1) - behind L lo c

theorem lowest {L : Lay} {c : Nat} : ∀ d lo, L.n - lo = d → 0 < behind L lo c → ∃ p, lms L.T L.n p = true ∧ lo < p ∧ L.T p = c ∧ behind L p c + 1 = behind L lo c := by
  intro d
  induction d with
  | zero => intro lo h1 h2; rw [behind_zero (by omega)] at h2; omega
  | succ d ih =>
    intro lo h1 h2
    by_cases hl : lms L.T L.n (lo + 1) = true
    · have hs := behind_step hl c
      by_cases hc : L.T (lo + 1) = c
      · rw [if_pos hc] at hs
        exact ⟨lo + 1, hl, by omega, hc, by omega⟩
      · rw [if_neg hc] at hs
        obtain ⟨p, h3, h4, h5, h6⟩ := ih (lo + 1) (by omega) (by omega)
        exact ⟨p, h3, by omega, h5, by omega⟩
    · have hs := behind_skip (Bool.eq_false_iff.2 hl) c
      obtain ⟨p, h3, h4, h5, h6⟩ := ih (lo + 1) (by omega) (by omega)
      exact ⟨p, h3, by omega, h5, by omega⟩

theorem lowS_le {L : Lay} {lo p : Nat} (h : lms L.T L.n p = true) (hlo : lo < p) : lowS L lo (L.T p) ≤ slot L p := by
  have h1 := slot_bounds h
  have h2 := behind_lt h hlo
  unfold lowS; omega

theorem marked_seed {L : Lay} (o : L.Ok) {lo : Nat} {a s : Nat} (e : seedF L lo a = some s) :
    (passL L (seedF L lo)).Marked (valL L.T L.n) a ↔ a = lowS L lo (L.T s) := by
  have okL := passL_ok o (seedF_ok L lo)
  have hsh := (Pass.run_inv okL L.n).shape
  have hfin : (passL L (seedF L lo)).fin = ((passL L (seedF L lo)).run L.n).F := rfl
  have hseed : ∀ {a s}, seedF L lo a = some s → (passL L (seedF L lo)).fin a = some s := fun h => hsh.seed okL h
  have hhot : ∀ {s}, lms L.T L.n s = true → (passL L (seedF L lo)).hot s = true := by
    intro s hs
    have h1 := lms_iff.1 hs
    have h2 := lms_pos hs
    unfold Pass.hot
    rw [passL_pred.2 ⟨h1.1, by omega, h1.2.2, rfl⟩]; rfl
  have es := seedF_iff.1 e
  have hsl := lms_iff.1 es.1
  have hsn := lms_pos es.1
  have hb := slot_bounds es.1
  constructor
  · intro hm
    refine Classical.byContradiction (fun hne => ?_)
    have hlow := lowS_le es.1 es.2.1
    have hlt := behind_lt es.1 es.2.1
    obtain ⟨p, h1, h2, h3, h4⟩ := lowest (L := L) (c := L.T s) _ lo rfl (by omega)
    have hbp := slot_bounds h1
    rw [h3] at hbp
    have hpa : slot L p < a := by unfold lowS at *; omega
    refine hm s (hseed e) (slot L p) p hpa (hseed (seedF_iff.2 ⟨h1, h2, rfl⟩)) (by rw [hhot h1, hhot es.1]) ?_
    rw [valL_S (by have := lms_pos h1; omega) (lms_iff.1 h1).2.1, valL_S (by omega) hsl.2.1, wt_same h3 (by rw [(lms_iff.1 h1).2.1, hsl.2.1])]
  · intro ha s0 hs0 a' s' ha' hs' hh hv
    rw [hseed e] at hs0
    injection hs0 with hs0
    subst hs0
    rw [valL_S (by omega) hsl.2.1] at hv
    have hn' : s' < L.n := (hsh.bucket okL hs').1
    obtain ⟨l, hl⟩ := valL_head (T := L.T) hn'
    rw [hl] at hv
    have hw := wt_inj (List.cons.inj hv).1
    rcases hsh.where_ hs' with h | h
    · have h2 : (!sTy L.T L.n s') = true := (hsh.mem s' h.1).2
      rw [hw.2, hsl.2.1] at h2; cases h2
    · have h2 := seedF_iff.1 h.1
      have h3 := lowS_le h2.1 h2.2.1
      rw [hw.1] at h3
      omega

/-- The marks after the buckets below `i` have been looked at. -/
def muAt (L : Lay) (lo i a : Nat) : Int :=
  match seedF L lo a with
  | none => 0
  | some s => if L.T s < i ∧ a = lowS L lo (L.T s) then (L.n : Int) else 0

theorem muAt_some {L : Lay} {lo i a s : Nat} (h : seedF L lo a = some s) : muAt L lo i a = if L.T s < i ∧ a = lowS L lo (L.T s) then (L.n : Int) else 0 := by unfold muAt; rw [h]

structure MarkInv (L : Lay) (d : Int) (lo : Nat) (m0 : Mem) (i : Nat) (s : Int × Mem) : Prop where
  sum : s.1 = (L.start i : Nat)
  mem : ∃ m0' D, Holds L m0' s.2 (rawA (seedF L lo) (muAt L lo i)) (fun c => (lowS L lo c : Nat)) ∧ Arr m0' d (2 * L.k) D ∧ SameOut d (2 * L.k) m0 m0' ∧
    ∀ u, u < i ∨ (L.k ≤ u ∧ u < L.k + i) → D u = 0

theorem markFirst_ok {L : Lay} (o : L.Ok) {lo : Nat} (hlo : 0 < lo) {m0 m : Mem} {i : Nat} {B : Nat → Int}
    (h : Holds L m0 m (rawA (seedF L lo) (muAt L lo i)) B) :
    ∃ m', markFirst L.n (lowS L lo i : Nat) (L.start (i + 1) : Nat) m = some m' ∧ Holds L m0 m' (rawA (seedF L lo) (muAt L lo (i + 1))) B := by
  have hle := behind_le (L := L) lo i
  have h3 := L.start_succ i
  have h4 := L.num_split i
  unfold markFirst
  by_cases hb : behind L lo i = 0
  · have : lowS L lo i = L.start (i + 1) := by unfold lowS; omega
    rw [this, if_neg (by omega)]
    refine ⟨m, rfl, h.ext (fun a _ => ?_) (fun _ _ => rfl)⟩
    cases hs : seedF L lo a with
    | none => rw [rawA_none hs, rawA_none hs]
    | some s =>
      rw [rawA_some hs, rawA_some hs, muAt_some hs, muAt_some hs]
      have es := seedF_iff.1 hs
      have hne : L.T s ≠ i := by
        intro e
        have := behind_lt es.1 es.2.1
        rw [e] at this; omega
      by_cases hc : L.T s < i ∧ a = lowS L lo (L.T s)
      · rw [if_pos hc, if_pos ⟨by omega, hc.2⟩]
      · rw [if_neg hc, if_neg (fun hc' => hc ⟨by omega, hc'.2⟩)]
  · obtain ⟨p, h5, h6, h7, h8⟩ := lowest (L := L) (c := i) _ lo rfl (by omega)
    have hsl := slot_bounds h5
    rw [h7] at hsl
    have hlow : lowS L lo i = slot L p := by unfold lowS; omega
    have hsd : seedF L lo (slot L p) = some p := seedF_iff.2 ⟨h5, h6, rfl⟩
    rw [if_pos (by unfold lowS; omega), hlow, h.rd hsl.2.2, Option.bind_eq_bind, Option.bind_some, rawA_some hsd, muAt_some hsd, if_neg (by omega)]
    rw [if_neg (by omega)]
    obtain ⟨e, hh⟩ := h.wr o hsl.2.2 ((p : Int) - 1 + 0 + L.n)
    refine ⟨_, e, hh.ext (fun a _ => ?_) (fun _ _ => rfl)⟩
    by_cases ha : a = slot L p
    · subst ha
      rw [upd_eq, rawA_some hsd, muAt_some hsd, if_pos ⟨by omega, by rw [h7]; exact hlow.symm⟩]; omega
    · rw [upd_ne _ _ ha]
      cases hs : seedF L lo a with
      | none => rw [rawA_none hs, rawA_none hs]
      | some s =>
        rw [rawA_some hs, rawA_some hs, muAt_some hs, muAt_some hs]
        by_cases hc : L.T s < i ∧ a = lowS L lo (L.T s)
        · rw [if_pos hc, if_pos ⟨by omega, hc.2⟩]
        · rw [if_neg hc, if_neg (fun hc' => hc ⟨?_, hc'.2⟩)]
          have : L.T s ≠ i := by
            intro e2; apply ha; rw [hc'.2, e2, hlow]
          omega

theorem markStep_ok {L : Lay} (o : L.Ok) {d : Int} (od : DOk L d) {lo : Nat} (hlo : 0 < lo) {m0 : Mem} (hc : Arr m0 L.c L.k (fun x => (L.num x : Nat))) {i : Nat} (hi : i < L.k)
    {s : Int × Mem} (hI : MarkInv L d lo m0 i s) : ∃ s', markStep L.c L.b d L.n L.k i s = some s' ∧ MarkInv L d lo m0 (i + 1) s' := by
  obtain ⟨hsum, m0', D, h1, h2, h3, h4⟩ := hI
  have o1 := o.hc
  have o2 := o.hcb
  have o3 := od.hc
  have o4 := od.ne
  have o5 := od.hd
  have o6 := od.hb
  have hcb : L.c + L.k ≤ L.b ∨ L.b + L.k ≤ L.c := by rcases o2 with h | h; exact absurd h o4; exact h
  have hci : rd s.2 (L.c + i) = some ((L.num i : Nat) : Int) := by
    show s.2 (L.c + i) = _
    rw [h1.frame _ (by omega) (by omega), h3 _ (by omega)]; exact hc i hi
  have hbi : rd s.2 (L.b + i) = some ((lowS L lo i : Nat) : Int) := h1.rdB hi
  have hst : s.1 + ((L.num i : Nat) : Int) = (L.start (i + 1) : Nat) := by rw [hsum, L.start_succ]; push_cast; rfl
  obtain ⟨m1, e1, h5⟩ := markFirst_ok o hlo h1
  have hd1 : ∀ u < 2 * L.k, m1 (d + u) = some (D u) := by
    intro u hu
    rw [h5.frame _ (by omega) (by omega)]; exact h2 u hu
  have e2 : wr m1 (d + (i + L.k : Nat)) 0 = some (setM m1 (d + (i + L.k : Nat)) 0) := wr_eq _ (hd1 (i + L.k) (by omega))
  have htx : ∀ a, inTxt L.t L.n a → a < d ∨ d + 2 * L.k ≤ a := od.txt
  have h6 := h5.other (a := d + (i + L.k : Nat)) (by omega) (by omega) (fun h => by have := htx _ h; omega) 0
  have h7 : Arr (setM m0' (d + (i + L.k : Nat)) 0) d (2 * L.k) (upd D (i + L.k) 0) := h2.set (i + L.k) 0
  have e3 : wr (setM m1 (d + (i + L.k : Nat)) 0) (d + i) 0 = some (setM (setM m1 (d + (i + L.k : Nat)) 0) (d + i) 0) := by
    refine wr_eq (w := D i) _ ?_
    rw [setM_ne _ _ (by omega)]; exact hd1 i (by omega)
  have h8 := h6.other (a := d + i) (by omega) (by omega) (fun h => by have := htx _ h; omega) 0
  have h9 := h7.set i 0
  unfold markStep
  simp only [hci, hbi, hst, e1, e2, e3, Option.bind_eq_bind, Option.bind_some]
  refine ⟨_, rfl, rfl, _, _, h8, h9, fun a ha => ?_, fun u hu => ?_⟩
  · rw [setM_ne _ _ (by omega), setM_ne _ _ (by omega)]; exact h3 a ha
  · by_cases hu1 : u = i
    · rw [hu1, upd_eq]
    · rw [upd_ne _ _ hu1]
      by_cases hu2 : u = i + L.k
      · rw [hu2, upd_eq]
      · rw [upd_ne _ _ hu2]; exact h4 u (by omega)

theorem markSeeds_ok {L : Lay} (o : L.Ok) {d : Int} (od : DOk L d) {m0 : Mem} {s : Seeds} {lo : Nat} (hI : SeedInv L m0 0 s lo) (hl : lms L.T L.n lo = true)
    (hc : Arr s.m L.c L.k (fun x => (L.num x : Nat))) {D0 : Nat → Int} (hd : Arr s.m d (2 * L.k) D0) :
    ∃ m' B, markSeeds L.t L.c L.b d L.n L.k s.j s.m = some m' ∧ Arr m' 0 L.n (rawA (seedF L lo) (muOf (passL L (seedF L lo)) (valL L.T L.n) L.n)) ∧
      Arr m' L.c L.k (fun x => (L.num x : Nat)) ∧ Arr m' L.b L.k B ∧ Arr m' d (2 * L.k) (fun _ => 0) ∧ HasTxt L.t m' L.n L.T ∧
      ∀ a : Int, ¬ (0 ≤ a ∧ a < L.n) → ¬ (L.b ≤ a ∧ a < L.b + L.k) → ¬ (d ≤ a ∧ a < d + 2 * L.k) → m' a = s.m a := by
  have hp := lms_pos hl
  have o1 := o.hc
  have o1b := o.hb
  have o2 := o.hcb
  have o3 := od.hc
  have o4 := od.ne
  have o5 := od.hd
  have o6 := od.hb
  have hcb : L.c + L.k ≤ L.b ∨ L.b + L.k ≤ L.c := by rcases o2 with h | h; exact absurd h o4; exact h
  have hj : s.j = (lo : Int) - 1 ∧ ∀ q, lms L.T L.n q = true → lo ≤ q := by
    rcases hI.pend with ⟨h1, h2, h3⟩ | ⟨h1, h2, h3, h4, h5⟩
    · omega
    · exact ⟨h5, fun q hq => h3 q hq (lms_pos hq).1⟩
  have hk := o.key lo (by omega)
  have hch : chr L.t s.m (s.j + 1) = some (L.T lo : Int) := by
    rw [← hI.mem.chr (i := lo) (by omega)]; congr 1; omega
  have hrd : rd s.m (L.b + (L.T lo : Int)) = some ((L.start (L.T lo + 1) - behind L 0 (L.T lo) : Nat) : Int) := hI.mem.rdB hk
  have hself : Holds L s.m s.m (rawA (seedF L lo) noMu) (fun c => (L.start (c + 1) - behind L 0 c : Nat)) := ⟨hI.mem.sa, hI.mem.bk, hI.mem.txt, fun _ _ _ => rfl⟩
  obtain ⟨e1, h1⟩ := hself.wrB o hk (((L.start (L.T lo + 1) - behind L 0 (L.T lo) : Nat) : Int) + 1)
  have hbeh : ∀ c, behind L 0 c = behind L lo c + if L.T lo = c then 1 else 0 := by
    have hno : ∀ j, j < lo → lms L.T L.n j = false := by
      intro j hj2
      cases h : lms L.T L.n j with
      | false => rfl
      | true => have := hj.2 j h; omega
    have h2 : ∀ c j, j ≤ lo - 1 → behind L 0 c = behind L j c := by
      intro c j
      induction j with
      | zero => intro _; rfl
      | succ j ih => intro hj2; rw [ih (by omega), behind_skip (hno _ (by omega))]
    intro c
    rw [h2 c (lo - 1) (Nat.le_refl _), behind_step (by rw [show lo - 1 + 1 = lo by omega]; exact hl), show lo - 1 + 1 = lo by omega]
  have hB : ∀ c < L.k, upd (fun c => ((L.start (c + 1) - behind L 0 c : Nat) : Int)) (L.T lo) (((L.start (L.T lo + 1) - behind L 0 (L.T lo) : Nat) : Int) + 1) c = (lowS L lo c : Nat) := by
    intro c _
    have hs := L.start_succ c
    have hn := L.num_split c
    have hle := behind_le (L := L) 0 c
    by_cases hcl : c = L.T lo
    · subst hcl
      rw [upd_eq]
      have := hbeh (L.T lo)
      rw [if_pos rfl] at this
      unfold lowS; omega
    · rw [upd_ne _ _ hcl, hbeh c, if_neg (fun e => hcl e.symm)]; unfold lowS; simp
  obtain ⟨r, h2, h3, m0', D, h4, h5, h6, h7⟩ := upto_rule (I := MarkInv L d lo s.m) (n := L.k) (body := markStep L.c L.b d L.n L.k)
    (s := (0, setM s.m (L.b + (L.T lo : Int)) (((L.start (L.T lo + 1) - behind L 0 (L.T lo) : Nat) : Int) + 1)))
    ⟨by rw [L.start_zero]; rfl, s.m, D0, h1.ext (fun a _ => by
      cases hs : seedF L lo a with
      | none => rw [rawA_none hs, rawA_none hs]
      | some q => rw [rawA_some hs, rawA_some hs, muAt_some hs, if_neg (by omega)]; rfl) hB, hd, fun _ _ => rfl, fun u hu => by omega⟩
    (fun i s' hi hI => markStep_ok o od (by omega) hc hi hI)
  refine ⟨r.2, fun c => (lowS L lo c : Nat), ?_, ?_, ?_, h4.bk, ?_, h4.txt, fun a h8 h9 h10 => ?_⟩
  · unfold markSeeds
    rw [if_neg (by omega)]
    simp only [hch, hrd, e1, h2, Option.bind_eq_bind, Option.bind_some]
  · refine h4.sa.ext (fun a _ => ?_)
    cases hs : seedF L lo a with
    | none => rw [rawA_none hs, rawA_none hs]
    | some q =>
      rw [rawA_some hs, rawA_some hs, muAt_some hs]
      have es := seedF_iff.1 hs
      have hkq := o.key q (by have := lms_pos es.1; omega)
      by_cases hm : a = lowS L lo (L.T q)
      · rw [if_pos ⟨hkq, hm⟩, muOf_pos ((marked_seed o hs).2 hm)]
      · rw [if_neg (fun h => hm h.2), muOf_neg (fun h => hm ((marked_seed o hs).1 h))]
  · refine hc.congr (fun a h8 h9 => ?_)
    rw [h4.frame a (by omega) (by omega), h6 a (by omega)]
  · refine (h5.ext (fun u hu => h7 u (by omega))).congr (fun a h8 h9 => ?_)
    push_cast at h9
    rw [h4.frame a (by omega) (by omega)]
  · rw [h4.frame a h8 h9, h6 a (by push_cast; exact h10)]

end Bpak.Sais
