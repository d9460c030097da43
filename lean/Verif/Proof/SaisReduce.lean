import Verif.Proof.SaisSpread
import Verif.Proof.SaisStage1
/-! The reduced text (lib/sais.c:642-650) and the way back from it (lib/sais.c:660-684). -/
namespace Bpak.Sais

/-- The leftmost type S positions in the order of the text. -/
def posAt (T : Nat → Nat) (n r : Nat) : Nat := nth (fun p => if lms T n p = true then some p else none) n r

theorem isX_lms (T : Nat → Nat) (n : Nat) : isX (fun p => if lms T n p = true then some p else none) = lms T n := by
  funext p
  show (if lms T n p = true then some p else none).isSome = _
  by_cases h : lms T n p = true
  · rw [if_pos h, h]; rfl
  · rw [if_neg h]
    exact (Bool.eq_false_iff.2 h).symm

theorem posAt_cnt {T : Nat → Nat} {n p : Nat} (h : lms T n p = true) : posAt T n (cnt p (lms T n)) = p := by
  have h1 := lms_pos h
  have h2 := nth_at (X := fun p => if lms T n p = true then some p else none) (n := n) (a := p) (v := p) (by omega) (if_pos h)
  rwa [isX_lms] at h2

theorem posAt_ok {T : Nat → Nat} {n r : Nat} (h : r < lmsNum T n) : lms T n (posAt T n r) = true ∧ cnt (posAt T n r) (lms T n) = r := by
  have h0 : r < cnt n (isX (fun p => if lms T n p = true then some p else none)) := by rw [isX_lms]; exact h
  obtain ⟨a, h1, h2, h3⟩ := nth_get h0
  rw [isX_lms] at h3
  by_cases hl : lms T n a = true
  · have h4 : some a = some (nth (fun p => if lms T n p = true then some p else none) n r) := by rw [← h2, if_pos hl]
    have h5 : posAt T n r = a := (Option.some.inj h4).symm
    rw [h5]; exact ⟨hl, h3⟩
  · have h4 : (none : Option Nat) = some (nth (fun p => if lms T n p = true then some p else none) n r) := by rw [← h2, if_neg hl]
    cases h4

theorem posAt_next {T : Nat → Nat} {n r : Nat} (hr : r < lmsNum T n) (h : lms T n (nx T n (posAt T n r)) = true) (hlt : posAt T n r < nx T n (posAt T n r)) :
    r + 1 < lmsNum T n ∧ nx T n (posAt T n r) = posAt T n (r + 1) := by
  have h1 := posAt_ok hr
  have h2 := lms_pos h1.1
  have h3 := nx_props (T := T) (n := n) _ (posAt T n r) rfl (by omega)
  have h4 : cnt (posAt T n r + 1) (lms T n) = cnt (nx T n (posAt T n r)) (lms T n) :=
    (Pass.cnt_eq_none (by omega)).2 (fun z hz1 hz2 => h3.2.2.2.1 z (by omega) hz2)
  have h5 : cnt (nx T n (posAt T n r)) (lms T n) = r + 1 := by rw [← h4, cnt_succ, h1.1, h1.2]; rfl
  have h6 := (lms_room h).2
  exact ⟨by omega, by rw [← h5]; exact (posAt_cnt h).symm⟩

/-- The reduced text. -/
noncomputable def redT (T : Nat → Nat) (n : Nat) (W : Nat → Nat) (r : Nat) : Nat := nm T n W (inv T n W (posAt T n r)) - 1

theorem redT_lt {T : Nat → Nat} {n : Nat} {W : Nat → Nat} (w : Wok T n W) {r : Nat} (h : r < lmsNum T n) : redT T n W r < cnt (lmsNum T n) (newAt T n W) := by
  have h1 := (w.inv (posAt_ok h).1).1
  have h2 := nm_pos T n W (inv T n W (posAt T n r))
  have h3 : nm T n W (inv T n W (posAt T n r)) ≤ cnt (lmsNum T n) (newAt T n W) := cnt_le_of_le (by omega)
  unfold redT; omega

theorem Wok.nm_eq' {T : Nat → Nat} {n : Nat} {W : Nat → Nat} (w : Wok T n W) {i j : Nat} (hi : i < lmsNum T n) (hj : j < lmsNum T n)
    (h : nm T n W i = nm T n W j) : valS T n (W i) = valS T n (W j) := by
  by_cases hij : i ≤ j
  · exact (w.nm_eq hij hj).1 h
  · exact ((w.nm_eq (by omega) hi).1 h.symm).symm

/-- The order of the suffixes of the reduced text is that of the suffixes of the text. -/
theorem red_order {T : Nat → Nat} {n : Nat} {W : Nat → Nat} (w : Wok T n W) : ∀ d r r', lmsNum T n - r = d → r < lmsNum T n → r' < lmsNum T n →
    suf (redT T n W) (lmsNum T n) r < suf (redT T n W) (lmsNum T n) r' → suf T n (posAt T n r) < suf T n (posAt T n r') := by
  intro d
  induction d with
  | zero => intro r r' h1 h2; omega
  | succ d ih =>
    intro r r' h1 h2 h3 hlt
    have hne : r ≠ r' := fun e => by rw [e] at hlt; exact suf_irrefl _ _ _ hlt
    have p1 := posAt_ok h2
    have p2 := posAt_ok h3
    have i1 := w.inv p1.1
    have i2 := w.inv p2.1
    have hpne : posAt T n r ≠ posAt T n r' := fun e => hne (by rw [← p1.2, ← p2.2, e])
    have b1 := lms_pos p1.1
    have b2 := lms_pos p2.1
    rw [suf_cons h2, suf_cons h3, List.cons_lt_cons_iff] at hlt
    have n1 := nm_pos T n W (inv T n W (posAt T n r))
    have n2 := nm_pos T n W (inv T n W (posAt T n r'))
    rcases hlt with hlt | ⟨he, hlt⟩
    · unfold redT at hlt
      have hij : inv T n W (posAt T n r) < inv T n W (posAt T n r') := by
        rcases Nat.lt_or_ge (inv T n W (posAt T n r)) (inv T n W (posAt T n r')) with h | h
        · exact h
        · have := nm_mono (T := T) (n := n) (W := W) h; omega
      have h4 := w.sorted _ _ hij i2.1
      rw [i1.2, i2.2] at h4
      rcases h4 with h4 | h4
      · exact val_suf _ _ _ rfl (by omega) (by omega) h4
      · have h5 := (w.nm_eq (Nat.le_of_lt hij) i2.1).2 (by rw [i1.2, i2.2]; exact h4)
        omega
    · unfold redT at he
      have h4 := w.nm_eq' i1.1 i2.1 (by omega)
      rw [i1.2, i2.2] at h4
      have h5 := same_not_last p1.1 p2.1 hpne h4
      have h6 := posAt_next h2 h5.1 h5.2.2.1
      have h7 := posAt_next h3 h5.2.1 h5.2.2.2
      rw [val_suf_eq p1.1 p2.1 h4, h6.2, h7.2]
      exact ih _ _ (by omega) h6.1 h7.1 hlt

theorem IsSA.inj {T : Nat → Nat} {n : Nat} {S : Nat → Nat} (h : IsSA T n S) {i j : Nat} (hi : i < n) (hj : j < n) (e : S i = S j) : i = j := by
  rcases Nat.lt_trichotomy i j with h1 | h1 | h1
  · have := h.sorted i j h1 hj; rw [e] at this; exact absurd this (suf_irrefl _ _ _)
  · exact h1
  · have := h.sorted j i h1 hi; rw [e] at this; exact absurd this (suf_irrefl _ _ _)

/-- Every position occurs in the suffix array. -/
theorem IsSA.surj {T : Nat → Nat} {n : Nat} {S : Nat → Nat} (h : IsSA T n S) {p : Nat} (hp : p < n) : ∃ i, i < n ∧ S i = p := by
  have hF : ∀ i < n, ∃ a, a < n ∧ (List.range n).find? (fun x => decide (S x = a)) = some i := by
    intro i hi
    refine ⟨S i, h.lt i hi, ?_⟩
    cases hf : (List.range n).find? (fun x => decide (S x = S i)) with
    | none =>
      rw [List.find?_eq_none] at hf
      exact absurd (decide_eq_true rfl) (hf i (List.mem_range.2 hi))
    | some j =>
      have h4' := List.find?_some hf
      have h4 := of_decide_eq_true h4'
      rw [h.inj (List.mem_range.1 (List.mem_of_find?_eq_some hf)) hi h4]
  obtain ⟨q, hq⟩ := slots_full hF p hp
  have h4' := List.find?_some hq
  exact ⟨q, List.mem_range.1 (List.mem_of_find?_eq_some hq), of_decide_eq_true h4'⟩

/-- The suffix array of the reduced text gives the order of the leftmost type S positions. -/
theorem red_vok {T : Nat → Nat} {n : Nat} {W : Nat → Nat} (w : Wok T n W) {S : Nat → Nat} (h : IsSA (redT T n W) (lmsNum T n) S) :
    Vok T n (fun i => posAt T n (S i)) := by
  refine ⟨fun j hj => (posAt_ok (h.lt j hj)).1, fun s hs => ?_, fun i j hij hj => ?_⟩
  · obtain ⟨i, h1, h2⟩ := h.surj (lms_room hs).2
    exact ⟨i, h1, by rw [h2]; exact posAt_cnt hs⟩
  · exact red_order w _ _ _ rfl (h.lt i (by omega)) (h.lt j hj) (h.sorted i j hij hj)

/-- If all substrings differ, their order is the order of the suffixes. -/
theorem new_vok {T : Nat → Nat} {n : Nat} {W : Nat → Nat} (w : Wok T n W) (h : lmsNum T n ≤ cnt (lmsNum T n) (newAt T n W)) : Vok T n W := by
  refine ⟨w.isLms, w.all, fun i j hij hj => ?_⟩
  have b1 := lms_pos (w.isLms i (by omega))
  have b2 := lms_pos (w.isLms j hj)
  rcases w.sorted i j hij hj with h4 | h4
  · exact val_suf _ _ _ rfl (by omega) (by omega) h4
  · have h5 := (w.nm_eq (Nat.le_of_lt hij) hj).2 h4
    have h6 : cnt (i + 1) (newAt T n W) < cnt (j + 1) (newAt T n W) := by
      have h7 := Wok.all_new h j hj
      have h8 : cnt (i + 1) (newAt T n W) ≤ cnt j (newAt T n W) := cnt_le_of_le (by omega)
      rw [cnt_succ j, h7]
      simp only [if_true]
      omega
    unfold nm at h5
    omega

theorem half_cases {T : Nat → Nat} {n i : Nat} {g : Nat → Int} :
    (half T n g i = 0 ∧ cnt (2 * (i + 1)) (lms T n) = cnt (2 * i) (lms T n)) ∨
    ∃ p, lms T n p = true ∧ p / 2 = i ∧ half T n g i = g p ∧ cnt p (lms T n) = cnt (2 * i) (lms T n) ∧ cnt (2 * (i + 1)) (lms T n) = cnt (2 * i) (lms T n) + 1 := by
  have e : cnt (2 * (i + 1)) (lms T n) = cnt (2 * i) (lms T n) + (if lms T n (2 * i) then 1 else 0) + (if lms T n (2 * i + 1) then 1 else 0) := by
    rw [show 2 * (i + 1) = 2 * i + 1 + 1 by omega, cnt_succ, cnt_succ]
  by_cases h1 : lms T n (2 * i) = true
  · right
    have h2 := lms_next h1
    refine ⟨2 * i, h1, by omega, ?_, rfl, ?_⟩
    · unfold half; rw [if_pos h1]
    · rw [e, h1, h2]; simp
  · have h1' : lms T n (2 * i) = false := Bool.eq_false_iff.2 h1
    by_cases h2 : lms T n (2 * i + 1) = true
    · right
      refine ⟨2 * i + 1, h2, by omega, ?_, ?_, ?_⟩
      · unfold half; rw [if_neg h1, if_pos h2]
      · rw [cnt_succ, h1']; simp
      · rw [e, h1', h2]; simp
    · left
      have h2' : lms T n (2 * i + 1) = false := Bool.eq_false_iff.2 h2
      refine ⟨?_, ?_⟩
      · unfold half; rw [if_neg h1, if_neg h2]
      · rw [e, h1', h2']; simp

theorem cnt_even {T : Nat → Nat} {n : Nat} : cnt (2 * (n / 2)) (lms T n) = lmsNum T n := by
  unfold lmsNum
  refine (Pass.cnt_eq_none (by omega)).2 (fun z h1 h2 => ?_)
  cases h : lms T n z with
  | false => rfl
  | true => have := lms_pos h; omega

/-- The loop that makes the reduced text. -/
theorem reducedText_ok {T : Nat → Nat} {n : Nat} {W : Nat → Nat} {m : Mem} {newfs : Nat} {ra : Int} (hra : ra = (lmsNum T n : Nat) + (newfs : Nat))
    (hroom : n / 2 ≤ newfs + lmsNum T n)
    (hnames : ∀ u, u < n / 2 → m ((lmsNum T n : Nat) + (u : Nat)) = some (half T n (fun p => (nm T n W (inv T n W p) : Nat)) u))
    {f : Nat → Int} (hr : Arr m ra (lmsNum T n) f) :
    ∃ m', reducedText n (lmsNum T n) ra m = some m' ∧ Arr m' ra (lmsNum T n) (fun r => (redT T n W r : Nat)) ∧ SameOut ra (lmsNum T n) m m' := by
  obtain ⟨s', h1, h2, _, h3, h4⟩ := downto_rule (n := n / 2) (body := reduceStep (lmsNum T n) ra) (s := ((lmsNum T n : Int) - 1, m))
    (I := fun i (s : Int × Mem) => s.1 = (cnt (2 * i) (lms T n) : Int) - 1 ∧
      (∀ u, u < i → s.2 ((lmsNum T n : Nat) + (u : Nat)) = some (half T n (fun p => (nm T n W (inv T n W p) : Nat)) u)) ∧
      (∃ f, Arr s.2 ra (lmsNum T n) f ∧ ∀ r, cnt (2 * i) (lms T n) ≤ r → r < lmsNum T n → f r = (redT T n W r : Nat)) ∧ SameOut ra (lmsNum T n) m s.2)
    ⟨by show (lmsNum T n : Int) - 1 = _; rw [cnt_even], hnames, ⟨f, hr, fun r h1 h2 => by rw [cnt_even] at h1; omega⟩, fun _ _ => rfl⟩
    (fun i s hi ⟨a1, a2, ⟨g, a3, a4⟩, a5⟩ => by
      have hrd : rd s.2 ((lmsNum T n : Int) + (i : Nat)) = some (half T n (fun p => (nm T n W (inv T n W p) : Nat)) i) := a2 i (by omega)
      unfold reduceStep
      rcases half_cases (T := T) (n := n) (i := i) (g := fun p => (nm T n W (inv T n W p) : Nat)) with ⟨b1, b2⟩ | ⟨p, b1, b2, b3, b4, b5⟩
      · rw [b1] at hrd
        refine ⟨s, ?_, by rw [a1, b2], fun u hu => a2 u (by omega), ⟨g, a3, fun r h1 h2 => a4 r (by omega) h2⟩, a5⟩
        simp only [hrd, Option.bind_eq_bind, Option.bind_some]
        rfl
      · have hroom2 := lms_room b1
        have hnz : half T n (fun p => (nm T n W (inv T n W p) : Nat)) i ≠ 0 := by
          rw [b3]; have := nm_pos T n W (inv T n W p); show ((nm T n W (inv T n W p) : Nat) : Int) ≠ 0; omega
        have hs1 : s.1 = (cnt p (lms T n) : Nat) := by rw [a1, b5, b4]; omega
        have hw := a3.wr hroom2.2 (half T n (fun p => (nm T n W (inv T n W p) : Nat)) i - 1)
        rw [← hs1] at hw
        refine ⟨(s.1 - 1, setM s.2 (ra + s.1) (half T n (fun p => (nm T n W (inv T n W p) : Nat)) i - 1)), ?_, ?_, ?_, ?_, ?_⟩
        · simp only [hrd, Option.bind_eq_bind, Option.bind_some, if_pos hnz, hw, Option.map_some]
        · show s.1 - 1 = _; rw [hs1, b4]
        · intro u hu
          show setM s.2 _ _ _ = _
          rw [setM_ne _ _ (by rw [hs1, hra]; omega)]
          exact a2 u (by omega)
        · refine ⟨upd g (cnt p (lms T n)) (half T n (fun p => (nm T n W (inv T n W p) : Nat)) i - 1), ?_, fun r h1 h2 => ?_⟩
          · show Arr (setM s.2 _ _) _ _ _
            rw [hs1]; exact a3.set _ _
          · by_cases hrr : r = cnt p (lms T n)
            · rw [hrr, upd_eq, b3]
              unfold redT
              rw [posAt_cnt b1]
              have := nm_pos T n W (inv T n W p)
              show ((nm T n W (inv T n W p) : Nat) : Int) - 1 = _
              omega
            · rw [upd_ne _ _ hrr]; exact a4 r (by omega) h2
        · intro a ha
          rw [← a5 a ha]
          exact setM_ne _ _ (by rw [hs1]; omega))
  obtain ⟨g, h3, h5⟩ := h3
  refine ⟨s'.2, ?_, ?_, h4⟩
  · unfold reducedText; rw [h1, Option.map_some]
  · refine h3.ext (fun r hr => h5 r ?_ hr)
    show cnt 0 _ ≤ r
    have := cnt_le 0 (lms T n); omega

/-- The walk that stores the positions, and the loop that looks them up. -/
theorem backToPositions_ok {t : Txt} {T : Nat → Nat} {n : Nat} (hn : 0 < n) {m : Mem} {ra : Int} (hra : (lmsNum T n : Int) ≤ ra) (ht : HasTxt t m n T)
    (hd : ∀ a, inTxt t n a → (lmsNum T n : Int) ≤ a ∧ ¬ (ra ≤ a ∧ a < ra + lmsNum T n)) {f : Nat → Int} (hr : Arr m ra (lmsNum T n) f)
    {S : Nat → Nat} (hS : Arr m 0 (lmsNum T n) (fun i => (S i : Nat))) (hlt : ∀ i < lmsNum T n, S i < lmsNum T n) :
    ∃ m', backToPositions t n (lmsNum T n) ra m = some m' ∧ Arr m' 0 (lmsNum T n) (fun i => (posAt T n (S i) : Nat)) ∧ (∃ f, Arr m' ra (lmsNum T n) f) ∧
      ∀ a : Int, ¬ (0 ≤ a ∧ a < lmsNum T n) → ¬ (ra ≤ a ∧ a < ra + lmsNum T n) → m' a = m a := by
  have hls : sTy T n (n - 1) = false := sTy_last T n (n - 1) (by omega)
  have hend : cnt (n - 1 + 1) (lms T n) = lmsNum T n := by rw [show n - 1 + 1 = n by omega]; rfl
  obtain ⟨⟨z, m1⟩, h1, h2, ⟨g, h3, h4⟩, h5⟩ := lmsScan_rule (T := T) (n := n)
    (I := fun i (s : Int × Mem) => s.1 = (cnt (i + 1) (lms T n) : Int) - 1 ∧
      (∃ f, Arr s.2 ra (lmsNum T n) f ∧ ∀ r, cnt (i + 1) (lms T n) ≤ r → r < lmsNum T n → f r = (posAt T n r : Nat)) ∧ SameOut ra (lmsNum T n) m s.2)
    (getc := fun (s : Int × Mem) i => chr t s.2 i)
    (body := backStep ra)
    (fun i s hi hI => by
      have htx := ht.congr (m' := s.2) (fun a h => hI.2.2 a (hd a h).2)
      exact htx i (by omega))
    (fun i s hi hI hl => by
      obtain ⟨a1, ⟨g, a3, a4⟩, a5⟩ := hI
      have hroom2 := lms_room hl
      have hc : cnt (i + 1 + 1) (lms T n) = cnt (i + 1) (lms T n) + 1 := by rw [cnt_succ (i + 1), hl]; rfl
      have hs1 : s.1 = (cnt (i + 1) (lms T n) : Nat) := by rw [a1, hc]; omega
      have hw := a3.wr hroom2.2 ((i : Int) + 1)
      rw [← hs1] at hw
      unfold backStep
      rw [hw, Option.map_some]
      refine ⟨_, rfl, ?_, ⟨upd g (cnt (i + 1) (lms T n)) ((i : Int) + 1), ?_, fun r h1 h2 => ?_⟩, ?_⟩
      · show s.1 - 1 = _; rw [hs1]
      · show Arr (setM s.2 _ _) _ _ _
        rw [hs1]; exact a3.set _ _
      · by_cases hrr : r = cnt (i + 1) (lms T n)
        · rw [hrr, upd_eq, posAt_cnt hl]; omega
        · rw [upd_ne _ _ hrr]; exact a4 r (by omega) h2
      · intro a ha
        rw [← a5 a ha]
        exact setM_ne _ _ (by rw [hs1]; omega))
    (fun i s hi hI hl => by
      have hc : cnt (i + 1 + 1) (lms T n) = cnt (i + 1) (lms T n) := by rw [cnt_succ (i + 1), hl]; rfl
      rw [hc] at hI
      exact hI)
    (n - 1) ((lmsNum T n : Int) - 1, m) (by omega)
    ⟨by show (lmsNum T n : Int) - 1 = _; rw [hend], ⟨f, hr, fun r h1 h2 => by rw [hend] at h1; omega⟩, fun _ _ => rfl⟩
  rw [hls] at h1
  have hfull : Arr m1 ra (lmsNum T n) (fun r => (posAt T n r : Nat)) := h3.ext (fun r hr => h4 r (by
    have : cnt (0 + 1) (lms T n) = 0 := by rw [cnt_succ]; rfl
    omega) hr)
  have hS1 : Arr m1 0 (lmsNum T n) (fun i => (S i : Nat)) := hS.congr (fun a h1 h2 => h5 a (by omega))
  obtain ⟨m2, k1, ⟨g2, k2, k3⟩, k4⟩ := upto_rule (n := lmsNum T n) (body := lookStep ra) (s := m1)
    (I := fun i s => (∃ g : Nat → Int, Arr s 0 (lmsNum T n) g ∧ ∀ j < lmsNum T n, g j = if j < i then (posAt T n (S j) : Int) else (S j : Int)) ∧ SameOut 0 (lmsNum T n) m1 s)
    ⟨⟨_, hS1, fun j hj => by simp⟩, fun _ _ => rfl⟩
    (fun i s hi ⟨⟨g, a1, a2⟩, a3⟩ => by
      have hrd : rd s (i : Int) = some (S i : Int) := by
        have := a1 i hi
        rw [a2 i hi, if_neg (by omega)] at this
        unfold rd
        rw [show (i : Int) = 0 + i by omega]; exact this
      have hrd2 : rd s (ra + (S i : Int)) = some (posAt T n (S i) : Int) := by
        unfold rd
        rw [a3 _ (by omega)]
        exact hfull (S i) (hlt i hi)
      have hw := a1.wr hi (posAt T n (S i) : Int)
      rw [show (0 : Int) + (i : Int) = i by omega] at hw
      unfold lookStep
      simp only [hrd, hrd2, Option.bind_eq_bind, Option.bind_some, hw]
      refine ⟨_, rfl, ⟨upd g i (posAt T n (S i) : Int), ?_, fun j hj => ?_⟩, fun a ha => ?_⟩
      · have := a1.set i (posAt T n (S i) : Int)
        rwa [show (0 : Int) + (i : Int) = i by omega] at this
      · by_cases hji : j = i
        · rw [hji, upd_eq, if_pos (by omega)]
        · rw [upd_ne _ _ hji, a2 j hj]
          by_cases h : j < i
          · rw [if_pos h, if_pos (by omega)]
          · rw [if_neg h, if_neg (by omega)]
      · rw [← a3 a ha]; exact setM_ne _ _ (by omega))
  have hc0 : chr t m ((n : Int) - 1) = some (T (n - 1) : Int) := by
    rw [show (n : Int) - 1 = ((n - 1 : Nat) : Int) by omega]; exact ht (n - 1) (by omega)
  refine ⟨m2, ?_, k2.ext (fun j hj => by rw [k3 j hj, if_pos hj]), ⟨_, hfull.congr (fun a h1 h2 => k4 a (by omega))⟩, fun a h1 h2 => ?_⟩
  · unfold backToPositions
    simp only [hc0, h1, Option.bind_eq_bind, Option.bind_some]
    exact k1
  · rw [k4 a (by omega)]; exact h5 a h2

end Bpak.Sais
