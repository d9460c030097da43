import Verif.Proof.SaisName
/-! Naming the substrings (lib/sais.c:148-233 and 336-399). -/
namespace Bpak.Sais

/-- A table for the leftmost type S positions, stored at half their position. -/
def half (T : Nat → Nat) (n : Nat) (g : Nat → Int) (u : Nat) : Int :=
  if lms T n (2 * u) = true then g (2 * u) else if lms T n (2 * u + 1) = true then g (2 * u + 1) else 0

theorem half_lms {T : Nat → Nat} {n p : Nat} {g : Nat → Int} (h : lms T n p = true) : half T n g (p / 2) = g p := by
  unfold half
  by_cases h1 : lms T n (2 * (p / 2)) = true
  · rw [if_pos h1]
    have : 2 * (p / 2) = p := lms_half h1 h (by omega)
    rw [this]
  · rw [if_neg h1]
    have h2 : 2 * (p / 2) + 1 = p := by
      rcases Nat.mod_two_eq_zero_or_one p with h3 | h3
      · exfalso; apply h1; rw [show 2 * (p / 2) = p by omega]; exact h
      · omega
    rw [h2, if_pos h]

theorem half_zero {T : Nat → Nat} {n u : Nat} {g : Nat → Int} (h : ∀ p, lms T n p = true → p / 2 ≠ u) : half T n g u = 0 := by
  unfold half
  rw [if_neg (fun e => h _ e (by omega)), if_neg (fun e => h _ e (by omega))]

theorem half_congr {T : Nat → Nat} {n u : Nat} {g g' : Nat → Int} (h : ∀ p, lms T n p = true → p / 2 = u → g p = g' p) : half T n g u = half T n g' u := by
  unfold half
  by_cases h1 : lms T n (2 * u) = true
  · rw [if_pos h1, if_pos h1]; exact h _ h1 (by omega)
  · rw [if_neg h1, if_neg h1]
    by_cases h2 : lms T n (2 * u + 1) = true
    · rw [if_pos h2, if_pos h2]; exact h _ h2 (by omega)
    · rw [if_neg h2, if_neg h2]

def stA (T : Nat → Nat) (n : Nat) (W g : Nat → Int) (a : Nat) : Int := if a < lmsNum T n then W a else half T n g (a - lmsNum T n)

theorem stA_upd {T : Nat → Nat} {n p : Nat} {W g : Nat → Int} (h : lms T n p = true) (v : Int) (a : Nat) :
    upd (stA T n W g) (lmsNum T n + p / 2) v a = stA T n W (fun r => if r = p then v else g r) a := by
  unfold upd stA
  by_cases ha : a < lmsNum T n
  · rw [if_neg (by omega), if_pos ha, if_pos ha]
  · rw [if_neg ha, if_neg ha]
    by_cases he : a = lmsNum T n + p / 2
    · rw [if_pos he, he, show lmsNum T n + p / 2 - lmsNum T n = p / 2 by omega, half_lms h, if_pos rfl]
    · rw [if_neg he]
      refine half_congr (fun q hq hqu => ?_)
      rw [if_neg (by intro e; subst e; omega)]

theorem slot_lt {T : Nat → Nat} {n p : Nat} (h : lms T n p = true) : lmsNum T n + p / 2 < n := by
  have h1 := lmsNum_le T n
  have h2 := lms_pos h
  omega

noncomputable def inv (T : Nat → Nat) (n : Nat) (W : Nat → Nat) (p : Nat) : Nat :=
  @dite _ (∃ j, j < lmsNum T n ∧ W j = p) (Classical.propDecidable _) (fun h => Classical.choose h) (fun _ => 0)

theorem Wok.inv {T : Nat → Nat} {n : Nat} {W : Nat → Nat} (w : Wok T n W) {p : Nat} (h : lms T n p = true) : inv T n W p < lmsNum T n ∧ W (Sais.inv T n W p) = p := by
  have hex := w.all p h
  unfold Sais.inv
  rw [dif_pos hex]
  exact Classical.choose_spec hex

theorem Wok.inv_W {T : Nat → Nat} {n : Nat} {W : Nat → Nat} (w : Wok T n W) {i : Nat} (h : i < lmsNum T n) : Sais.inv T n W (W i) = i := by
  have h1 := w.inv (w.isLms i h)
  exact w.inj _ _ h1.1 h h1.2

theorem sameSub_ok {t : Txt} {m : Mem} {n : Nat} {T : Nat → Nat} (ht : HasTxt t m n T) {p q plen : Nat} (hp : p + plen ≤ n) (hq : q + plen ≤ n) :
    ∀ left, left ≤ plen → ∃ r, sameSub t m p q plen left = some r ∧ (r = true ↔ ∀ e, plen - left ≤ e → e < plen → T (p + e) = T (q + e)) := by
  intro left
  induction left with
  | zero => intro _; exact ⟨true, rfl, by simp; intro e h1 h2; omega⟩
  | succ l ih =>
    intro hl
    unfold sameSub
    have e1 : chr t m ((p : Int) + ((plen : Int) - ((l : Int) + 1))) = some (T (p + (plen - (l + 1))) : Int) := by
      rw [← ht _ (by omega)]; congr 1; omega
    have e2 : chr t m ((q : Int) + ((plen : Int) - ((l : Int) + 1))) = some (T (q + (plen - (l + 1))) : Int) := by
      rw [← ht _ (by omega)]; congr 1; omega
    simp only [e1, e2, Option.bind_eq_bind, Option.bind_some]
    by_cases h : T (p + (plen - (l + 1))) = T (q + (plen - (l + 1)))
    · rw [if_pos (by omega)]
      obtain ⟨r, h1, h2⟩ := ih (by omega)
      refine ⟨r, h1, h2.trans ⟨fun h3 e h4 h5 => ?_, fun h3 e h4 h5 => h3 e (by omega) h5⟩⟩
      by_cases he : e = plen - (l + 1)
      · rw [he]; exact h
      · exact h3 e (by omega) h5
    · rw [if_neg (by omega)]
      refine ⟨false, rfl, ⟨(fun e => by cases e), fun h3 => absurd (h3 (plen - (l + 1)) (by omega) (by omega)) h⟩⟩

/-- What the naming leaves. -/
structure Named (T : Nat → Nat) (n : Nat) (W : Nat → Nat) (m0 m : Mem) (name : Int) : Prop where
  num : name = (cnt (lmsNum T n) (newAt T n W) : Nat)
  names : name < lmsNum T n → ∀ u, u < n / 2 → m ((lmsNum T n : Nat) + (u : Nat)) = some (half T n (fun p => (nm T n W (inv T n W p) : Nat)) u)
  order : ¬ name < lmsNum T n → ∀ j, j < lmsNum T n → m (j : Nat) = some (W j : Int)
  arr : ∃ R, Arr m 0 n R
  frame : SameOut 0 n m0 m

theorem scan_len {t : Txt} {m : Mem} {n : Nat} {T : Nat → Nat} (hn : 0 < n) (ht : HasTxt t m n T) (hd : ∀ a, inTxt t n a → (n : Int) ≤ a) {W : Nat → Int}
    (ha : Arr m 0 n (stA T n W (fun _ => 0))) :
    ∃ z m', lmsScan (fun (s : Int × Mem) i => chr t s.2 i) (lenStep (lmsNum T n)) (n - 1) (T (n - 1) : Int) false ((n : Int) - 1, m) = some (z, m') ∧
      Arr m' 0 n (stA T n W (fun p => (nx T n p - p + 1 : Nat))) ∧ SameOut 0 n m m' := by
  have hls : sTy T n (n - 1) = false := sTy_last T n (n - 1) (by omega)
  obtain ⟨⟨z, m'⟩, h1, h2, h3, h4⟩ := lmsScan_rule (T := T) (n := n)
    (I := fun i (s : Int × Mem) => s.1 = (nx T n i : Nat) ∧ Arr s.2 0 n (stA T n W (fun p => if i < p then (nx T n p - p + 1 : Nat) else 0)) ∧ SameOut 0 n m s.2)
    (getc := fun (s : Int × Mem) i => chr t s.2 i)
    (body := lenStep (lmsNum T n))
    (fun i s hi hI => by
      have htx := ht.congr (m' := s.2) (fun a h => hI.2.2 a (by have := hd a h; omega))
      exact htx i (by omega))
    (fun i s hi hI hl => by
      have hslot := slot_lt hl
      have hw : wr s.2 ((lmsNum T n : Nat) + ((i + 1) / 2 : Nat)) (s.1 - i) = some (setM s.2 ((0 : Int) + (lmsNum T n + (i + 1) / 2 : Nat)) (s.1 - i)) := by
        rw [← hI.2.1.wr hslot]; congr 1; push_cast; omega
      unfold lenStep
      rw [hw, Option.map_some]
      refine ⟨_, rfl, ?_, ?_, ?_⟩
      · show (i : Int) + 1 = _
        rw [nx_eq (by omega), if_pos hl]; push_cast; rfl
      · refine (hI.2.1.set _ _).ext (fun j hj => ?_)
        rw [stA_upd hl]
        unfold stA
        by_cases hj2 : j < lmsNum T n
        · rw [if_pos hj2, if_pos hj2]
        · rw [if_neg hj2, if_neg hj2]
          refine half_congr (fun p hp hpu => ?_)
          by_cases hpi : p = i + 1
          · rw [if_pos hpi, hpi, if_pos (by omega), hI.1]
            have := (nx_props (T := T) (n := n) _ (i + 1) rfl (by omega)).2.1
            omega
          · rw [if_neg hpi]
            by_cases h5 : i + 1 < p
            · rw [if_pos h5, if_pos (by omega)]
            · rw [if_neg h5, if_neg (by omega)]
      · intro a hna
        rw [← hI.2.2 a hna]
        exact setM_ne _ _ (by omega))
    (fun i s hi hI hl => by
      refine ⟨?_, ?_, hI.2.2⟩
      · rw [nx_eq (by omega), if_neg (by rw [hl]; simp)]; exact hI.1
      · refine hI.2.1.ext (fun j hj => ?_)
        unfold stA
        by_cases hj2 : j < lmsNum T n
        · rw [if_pos hj2, if_pos hj2]
        · rw [if_neg hj2, if_neg hj2]
          refine half_congr (fun p hp hpu => ?_)
          have hpi : p ≠ i + 1 := by intro e; rw [e, hl] at hp; cases hp
          by_cases h5 : i + 1 < p
          · rw [if_pos h5, if_pos (by omega)]
          · rw [if_neg h5, if_neg (by omega)])
    (n - 1) ((n : Int) - 1, m) (by omega) (by
      refine ⟨?_, ?_, fun _ _ => rfl⟩
      · have h : nx T n (n - 1) = n - 1 := by
          have h5 := nx_props (T := T) (n := n) _ (n - 1) rfl (by omega)
          omega
        rw [h]; show (n : Int) - 1 = _; omega
      · refine ha.ext (fun j hj => ?_)
        unfold stA
        by_cases hj2 : j < lmsNum T n
        · rw [if_pos hj2, if_pos hj2]
        · rw [if_neg hj2, if_neg hj2]
          refine half_congr (fun p hp hpu => ?_)
          have := lms_pos hp
          rw [if_neg (by omega)])
  rw [hls] at h1
  refine ⟨z, m', h1, h3.ext (fun j hj => ?_), h4⟩
  unfold stA
  by_cases hj2 : j < lmsNum T n
  · rw [if_pos hj2, if_pos hj2]
  · rw [if_neg hj2, if_neg hj2]
    refine half_congr (fun p hp hpu => ?_)
    rw [if_pos (lms_pos hp).1]

noncomputable def gAt (T : Nat → Nat) (n : Nat) (W : Nat → Nat) (i p : Nat) : Int :=
  if inv T n W p < i then (nm T n W (inv T n W p) : Nat) else (nx T n p - p + 1 : Nat)

theorem gAt_step {T : Nat → Nat} {n : Nat} {W : Nat → Nat} (w : Wok T n W) {i : Nat} (hi : i < lmsNum T n) {A : Nat → Int} {v : Int} (hv : v = (nm T n W i : Nat)) (a : Nat) :
    upd (stA T n A (gAt T n W i)) (lmsNum T n + W i / 2) v a = stA T n A (gAt T n W (i + 1)) a := by
  rw [stA_upd (w.isLms i hi)]
  unfold stA
  by_cases hj2 : a < lmsNum T n
  · rw [if_pos hj2, if_pos hj2]
  · rw [if_neg hj2, if_neg hj2]
    refine half_congr (fun p hp hpu => ?_)
    by_cases hpi : p = W i
    · unfold gAt
      rw [if_pos hpi, hpi, w.inv_W hi, if_pos (by omega), hv]
    · have hne : inv T n W p ≠ i := by
        intro e; apply hpi; rw [← e, (w.inv hp).2]
      unfold gAt
      rw [if_neg hpi]
      by_cases h : inv T n W p < i
      · rw [if_pos h, if_pos (by omega)]
      · rw [if_neg h, if_neg (by omega)]

structure NameInv (t : Txt) (T : Nat → Nat) (n : Nat) (W : Nat → Nat) (m : Mem) (i : Nat) (s : Naming) : Prop where
  arr : Arr s.m 0 n (stA T n (fun j => (W j : Nat)) (gAt T n W i))
  frame : SameOut 0 n m s.m
  name : s.name = (cnt i (newAt T n W) : Nat)
  rep : (i = 0 ∧ s.q = n ∧ s.qlen = 0) ∨ ∃ i0, i0 < i ∧ s.q = (W i0 : Nat) ∧ s.qlen = (nx T n (W i0) - W i0 + 1 : Nat) ∧ valS T n (W i0) = valS T n (W (i - 1))

theorem nameStep_ok {t : Txt} {m : Mem} {n : Nat} {T : Nat → Nat} (ht : HasTxt t m n T) (hd : ∀ a, inTxt t n a → (n : Int) ≤ a) {W : Nat → Nat} (w : Wok T n W)
    {i : Nat} (hi : i < lmsNum T n) {s : Naming} (hI : NameInv t T n W m i s) :
    ∃ s', nameStep t n (lmsNum T n) i s = some s' ∧ NameInv t T n W m (i + 1) s' := by
  have hle := lmsNum_le T n
  have hp := w.isLms i hi
  have hpp := lms_pos hp
  have hslot := slot_lt hp
  have hnx := nx_props (T := T) (n := n) _ (W i) rfl (by omega)
  have htx := ht.congr (m' := s.m) (fun a h => hI.frame a (by have := hd a h; omega))
  have hrd : rd s.m (i : Int) = some (W i : Int) := by
    have h := hI.arr i (by omega)
    unfold stA at h
    rw [if_pos hi] at h
    unfold rd; rw [← h]; congr 1; omega
  have hadr : ((lmsNum T n : Nat) : Int) + (W i : Int) / 2 = (0 : Int) + (lmsNum T n + W i / 2 : Nat) := by omega
  have hrd2 : rd s.m ((lmsNum T n : Nat) + (W i : Int) / 2) = some ((nx T n (W i) - W i + 1 : Nat) : Int) := by
    have h := hI.arr _ hslot
    unfold stA at h
    rw [if_neg (by omega), show lmsNum T n + W i / 2 - lmsNum T n = W i / 2 by omega, half_lms hp] at h
    unfold gAt at h
    rw [w.inv_W hi, if_neg (by omega)] at h
    unfold rd; rw [hadr]; exact h
  have hw : ∀ v, wr s.m ((lmsNum T n : Nat) + (W i : Int) / 2) v = some (setM s.m ((0 : Int) + (lmsNum T n + W i / 2 : Nat)) v) := by
    intro v; rw [hadr]; exact hI.arr.wr hslot v
  have hfr : ∀ v, SameOut 0 n m (setM s.m ((0 : Int) + (lmsNum T n + W i / 2 : Nat)) v) := by
    intro v a hna
    rw [← hI.frame a hna]; exact setM_ne _ _ (by omega)
  have hsame : ∃ r, sameAs t n s (W i : Int) ((nx T n (W i) - W i + 1 : Nat) : Int) = some r ∧ (r = true ↔ newAt T n W i = false) := by
    unfold sameAs
    rcases hI.rep with ⟨h1, h2, h3⟩ | ⟨i0, h1, h2, h3, h4⟩
    · rw [if_neg (by rw [h3]; omega)]
      refine ⟨false, rfl, ⟨(fun e => by cases e), fun e => ?_⟩⟩
      unfold newAt at e; rw [h1] at e; simp at e
    · have hq := w.isLms i0 (by omega)
      have hne : W i ≠ W i0 := fun e => by have := w.inj _ _ hi (by omega) e; omega
      have hiff := same_iff hp hq hne (w.sorted i0 i h1 hi)
      have hnew : newAt T n W i = false ↔ valS T n (W i) = valS T n (W i0) := by
        unfold newAt
        rw [Bool.or_eq_false_iff, decide_eq_false_iff_not, decide_eq_false_iff_not, Classical.not_not, h4]
        exact ⟨fun h => h.2.symm, fun h => ⟨by omega, h.symm⟩⟩
      have hnx0 := nx_props (T := T) (n := n) _ (W i0) rfl (by have := lms_pos hq; omega)
      by_cases hc : ((nx T n (W i) - W i + 1 : Nat) : Int) = s.qlen ∧ s.q + ((nx T n (W i) - W i + 1 : Nat) : Int) < n
      · rw [if_pos hc, h2]
        rw [h3, h2] at hc
        obtain ⟨r, h5, h6⟩ := sameSub_ok htx (p := W i) (q := W i0) (plen := nx T n (W i) - W i + 1) (by omega) (by omega) _ (Nat.le_refl _)
        refine ⟨r, h5, h6.trans ?_⟩
        rw [hnew, ← hiff]
        constructor
        · intro h7
          exact ⟨by omega, by omega, fun e he => h7 e (by omega) (by omega)⟩
        · intro h7 e _ he
          exact h7.2.2 e (by omega)
      · rw [if_neg hc]
        refine ⟨false, rfl, ⟨(fun e => by cases e), fun e => ?_⟩⟩
        exfalso; apply hc
        have h7 := hiff.2 (hnew.1 e)
        rw [h3, h2]
        refine ⟨by omega, by omega⟩
  obtain ⟨r, hr1, hr2⟩ := hsame
  unfold nameStep
  simp only [hrd, hrd2, hr1, Option.bind_eq_bind, Option.bind_some]
  cases r with
  | true =>
    have hn := hr2.1 rfl
    have hval : s.name = (nm T n W i : Nat) := by
      unfold nm; rw [cnt_succ, hn, hI.name]; rfl
    rw [if_pos rfl, hw, Option.map_some]
    refine ⟨_, rfl, ⟨(hI.arr.set _ _).ext (fun j _ => gAt_step w hi hval j), hfr _, ?_, ?_⟩⟩
    · rw [cnt_succ, hn]; exact hI.name
    · have hne0 : i ≠ 0 := by intro e; unfold newAt at hn; rw [e] at hn; simp at hn
      rcases hI.rep with ⟨h1, _⟩ | ⟨i0, h1, h2, h3, h4⟩
      · omega
      · refine Or.inr ⟨i0, by omega, h2, h3, ?_⟩
        unfold newAt at hn
        rw [Bool.or_eq_false_iff, decide_eq_false_iff_not, decide_eq_false_iff_not, Classical.not_not] at hn
        rw [h4, hn.2, show i + 1 - 1 = i by omega]
  | false =>
    have hn : newAt T n W i = true := by
      cases hb : newAt T n W i with
      | true => rfl
      | false => exact absurd (hr2.2 hb) (by simp)
    have hval : s.name + 1 = (nm T n W i : Nat) := by
      unfold nm; rw [cnt_succ, hn, hI.name]; rfl
    rw [if_neg (by simp), hw, Option.map_some]
    refine ⟨_, rfl, ⟨(hI.arr.set _ _).ext (fun j _ => gAt_step w hi hval j), hfr _, ?_, Or.inr ⟨i, by omega, rfl, rfl, by rw [show i + 1 - 1 = i by omega]⟩⟩⟩
    rw [cnt_succ, hn]
    show s.name + 1 = _
    rw [hI.name]; rfl

theorem lmsPostproc1_ok {t : Txt} {m : Mem} {n : Nat} {T : Nat → Nat} (hn : 0 < n) (ht : HasTxt t m n T) (hd : ∀ a, inTxt t n a → (n : Int) ≤ a)
    {X : Nat → Option Nat} (hX : cnt n (isX X) = lmsNum T n) (w : Wok T n (nth X n)) (ha : Arr m 0 n (codeX X)) :
    ∃ name m', lmsPostproc1 t n (lmsNum T n) m = some (name, m') ∧ Named T n (nth X n) m m' name := by
  have hle := lmsNum_le T n
  obtain ⟨m1, R, h1, h2, h3, h4, h5⟩ := compact_ok (X := X) (by omega) ha
  rw [hX] at h1 h5
  have htx1 := ht.congr (m' := m1) (fun a h => h3 a (by have := hd a h; omega))
  have hR : ∀ j < lmsNum T n, R j = (nth X n j : Nat) := by
    intro j hj
    obtain ⟨a, h6, h7, h8⟩ := nth_get (X := X) (n := n) (j := j) (by omega)
    rw [← h4 a _ h6 h7, h8]
  have ha1 : Arr m1 0 n (stA T n (fun j => (nth X n j : Nat)) (fun _ => 0)) := by
    refine h2.ext (fun j hj => ?_)
    unfold stA
    by_cases hj2 : j < lmsNum T n
    · rw [if_pos hj2]; exact hR j hj2
    · rw [if_neg hj2, h5 j (by omega) hj]
      unfold half
      by_cases ha : lms T n (2 * (j - lmsNum T n)) = true
      · rw [if_pos ha]
      · rw [if_neg ha]
        by_cases hb : lms T n (2 * (j - lmsNum T n) + 1) = true
        · rw [if_pos hb]
        · rw [if_neg hb]
  obtain ⟨z, m2, h6, h7, h8⟩ := scan_len hn htx1 hd ha1
  have htx2 := htx1.congr (m' := m2) (fun a h => h8 a (by have := hd a h; omega))
  obtain ⟨s, h9, h10⟩ := upto_rule (NameInv t T n (nth X n) m2) (n := lmsNum T n) (body := nameStep t n (lmsNum T n)) (s := ⟨m2, 0, n, 0⟩)
    ⟨h7.ext (fun j hj => by
        unfold stA
        by_cases hj2 : j < lmsNum T n
        · rw [if_pos hj2, if_pos hj2]
        · rw [if_neg hj2, if_neg hj2]
          refine half_congr (fun p hp hpu => ?_)
          unfold gAt; rw [if_neg (by omega)]), fun _ _ => rfl, rfl, Or.inl ⟨rfl, rfl, rfl⟩⟩
    (fun i s hi hI => nameStep_ok htx2 hd w hi hI)
  refine ⟨s.name, s.m, ?_, ?_⟩
  · unfold lmsPostproc1
    have hch : chr t m1 ((n : Int) - 1) = some (T (n - 1) : Int) := by
      rw [← htx1 (n - 1) (by omega)]; congr 1; omega
    rw [if_neg (by omega), h1, Option.bind_eq_bind, Option.bind_some, hch, Option.bind_eq_bind, Option.bind_some]
    rw [h6, Option.bind_eq_bind, Option.bind_some]
    show (upto (lmsNum T n) (nameStep t n (lmsNum T n)) ⟨m2, 0, n, 0⟩).bind _ = _
    rw [h9]; rfl
  · refine ⟨h10.name, fun _ u hu => ?_, fun _ j hj => ?_, ⟨_, h10.arr⟩, fun a hna => ?_⟩
    · have h := h10.arr (lmsNum T n + u) (by omega)
      unfold stA at h
      rw [if_neg (by omega), show lmsNum T n + u - lmsNum T n = u by omega] at h
      rw [show ((lmsNum T n : Nat) : Int) + (u : Nat) = (0 : Int) + (lmsNum T n + u : Nat) by omega, h]
      congr 1
      refine half_congr (fun p hp _ => ?_)
      unfold gAt; rw [if_pos (w.inv hp).1]
    · have h := h10.arr j (by omega)
      unfold stA at h
      rw [if_pos hj] at h
      rw [← h]; congr 1; omega
    · rw [h10.frame a hna, h8 a hna, h3 a hna]

/-- What `lms_sort_2` leaves in front after gathering: a mark on the last of each group. -/
def markW (T : Nat → Nat) (n : Nat) (W : Nat → Nat) (j : Nat) : Int := (W j : Int) + if lastAt T n W j = true then (n : Int) else 0

theorem markW_ge {T : Nat → Nat} {n : Nat} {W : Nat → Nat} (w : Wok T n W) {j : Nat} (hj : j < lmsNum T n) :
    ((n : Int) ≤ markW T n W j ↔ lastAt T n W j = true) ∧ (if (n : Int) ≤ markW T n W j then markW T n W j - n else markW T n W j) = W j := by
  have h := lms_pos (w.isLms j hj)
  unfold markW
  by_cases hl : lastAt T n W j = true
  · rw [if_pos hl, if_pos (by omega)]
    exact ⟨⟨fun _ => hl, fun _ => by omega⟩, by omega⟩
  · rw [if_neg hl, if_neg (by omega)]
    exact ⟨⟨fun h2 => by omega, fun h2 => absurd h2 hl⟩, by omega⟩

theorem mk_count {T : Nat → Nat} {n : Nat} {W : Nat → Nat} (w : Wok T n W) {X : Nat → Option Nat} (hX : cnt n (isX X) = lmsNum T n)
    (hv : ∀ a v, a < n → X a = some v → v = W (cnt a (isX X)) + if lastAt T n W (cnt a (isX X)) = true then n else 0) :
    ∀ N, N ≤ n → cnt N (mkX n X) = cnt (cnt N (isX X)) (lastAt T n W) := by
  intro N
  induction N with
  | zero => intro _; rfl
  | succ N ih =>
    intro hN
    cases hx : X N with
    | none =>
      rw [mk_skip hx, ih (by omega)]
      rw [cnt_succ N (isX X), isX_none hx]; rfl
    | some v =>
      have h1 := hv N v (by omega) hx
      have hlt : cnt N (isX X) < lmsNum T n := by rw [← hX]; exact cnt_lt_of_lt (isX_some hx) (by omega)
      have hW := lms_pos (w.isLms _ hlt)
      have e : mkX n X N = lastAt T n W (cnt N (isX X)) := by
        unfold mkX
        rw [hx, isX_some hx]
        cases hl : lastAt T n W (cnt N (isX X)) with
        | true => rw [hl, if_pos rfl] at h1; simp; omega
        | false => rw [hl, if_neg (by simp)] at h1; simp; omega
      rw [cnt_succ N (mkX n X), cnt_succ N (isX X), isX_some hx, ih (by omega)]
      show _ = cnt (cnt N (isX X) + 1) (lastAt T n W)
      rw [cnt_succ, e]

noncomputable def hAt (T : Nat → Nat) (n : Nat) (W : Nat → Nat) (i p : Nat) : Int :=
  if i ≤ inv T n W p then (nm T n W (inv T n W p) : Nat) else 0

theorem hAt_step {T : Nat → Nat} {n : Nat} {W : Nat → Nat} (w : Wok T n W) {i : Nat} (hi : i < lmsNum T n) {A : Nat → Int} {v : Int} (hv : v = (nm T n W i : Nat)) (a : Nat) :
    upd (stA T n A (hAt T n W (i + 1))) (lmsNum T n + W i / 2) v a = stA T n A (hAt T n W i) a := by
  rw [stA_upd (w.isLms i hi)]
  unfold stA
  by_cases hj2 : a < lmsNum T n
  · rw [if_pos hj2, if_pos hj2]
  · rw [if_neg hj2, if_neg hj2]
    refine half_congr (fun p hp hpu => ?_)
    by_cases hpi : p = W i
    · unfold hAt
      rw [if_pos hpi, hpi, w.inv_W hi, if_pos (by omega), hv]
    · have hne : inv T n W p ≠ i := by
        intro e; apply hpi; rw [← e, (w.inv hp).2]
      unfold hAt
      rw [if_neg hpi]
      by_cases h : i ≤ inv T n W p
      · rw [if_pos h, if_pos (by omega)]
      · rw [if_neg h, if_neg (by omega)]

theorem storeName_ok {n : Nat} {T : Nat → Nat} {W : Nat → Nat} (w : Wok T n W) {m : Mem} {i : Nat} (hi : i < lmsNum T n) {s : Int × Mem}
    (h1 : Arr s.2 0 n (stA T n (markW T n W) (hAt T n W (i + 1)))) (h2 : SameOut 0 n m s.2) (h3 : s.1 = 1 + (cnt (i + 1) (lastAt T n W) : Nat)) :
    ∃ s', storeName n (lmsNum T n) i s = some s' ∧ Arr s'.2 0 n (stA T n (markW T n W) (hAt T n W i)) ∧ SameOut 0 n m s'.2 ∧ s'.1 = 1 + (cnt i (lastAt T n W) : Nat) := by
  have hle := lmsNum_le T n
  have hp := w.isLms i hi
  have hslot := slot_lt hp
  have hrd : rd s.2 (i : Int) = some (markW T n W i) := by
    have h := h1 i (by omega)
    unfold stA at h
    rw [if_pos hi] at h
    unfold rd; rw [show ((i : Nat) : Int) = (0 : Int) + i by omega]; exact h
  have hm := markW_ge w hi
  have hd : (if (n : Int) ≤ markW T n W i then s.1 - 1 else s.1) = 1 + (cnt i (lastAt T n W) : Nat) := by
    rw [h3, cnt_succ]
    by_cases hl : lastAt T n W i = true
    · rw [if_pos (hm.1.2 hl), hl]; simp
      omega
    · rw [if_neg (fun h => hl (hm.1.1 h)), if_neg hl]; omega
  have hadr : ((lmsNum T n : Nat) : Int) + (W i : Int) / 2 = (0 : Int) + (lmsNum T n + W i / 2 : Nat) := by omega
  unfold storeName
  simp only [hrd, Option.bind_eq_bind, Option.bind_some]
  rw [hm.2, hd, hadr, h1.wr hslot, Option.map_some]
  refine ⟨_, rfl, (h1.set _ _).ext (fun j _ => hAt_step w hi ?_ j), fun a hna => ?_, rfl⟩
  · rw [← last_new i hi]; push_cast; rfl
  · rw [← h2 a hna]; exact setM_ne _ _ (by omega)

theorem unmark_ok {n : Nat} {T : Nat → Nat} {W : Nat → Nat} (w : Wok T n W) {m : Mem} {i : Nat} (hi : i < lmsNum T n) {s : Mem} {R : Nat → Int}
    (h1 : Arr s 0 n R) (h2 : SameOut 0 n m s) (h3 : ∀ j < lmsNum T n, R j = if j < i then (W j : Int) else markW T n W j) :
    ∃ s' R', unmark n i s = some s' ∧ Arr s' 0 n R' ∧ SameOut 0 n m s' ∧ (∀ j < lmsNum T n, R' j = if j < i + 1 then (W j : Int) else markW T n W j) := by
  have hle := lmsNum_le T n
  have hm := markW_ge w hi
  have hrd : rd s (i : Int) = some (markW T n W i) := by
    have h := h1 i (by omega)
    rw [h3 i hi, if_neg (by omega)] at h
    unfold rd; rw [← h]; congr 1; omega
  unfold unmark
  simp only [hrd, Option.bind_eq_bind, Option.bind_some]
  by_cases hl : (n : Int) ≤ markW T n W i
  · have hm2 := hm.2
    rw [if_pos hl] at hm2 ⊢
    rw [hm2, show ((i : Nat) : Int) = (0 : Int) + i by omega, h1.wr (by omega)]
    refine ⟨_, _, rfl, h1.set _ _, fun a hna => ?_, fun j hj => ?_⟩
    · rw [← h2 a hna]; exact setM_ne _ _ (by omega)
    · by_cases hji : j = i
      · rw [hji, upd_eq, if_pos (by omega)]
      · rw [upd_ne _ _ hji, h3 j hj]
        by_cases hlt : j < i
        · rw [if_pos hlt, if_pos (by omega)]
        · rw [if_neg hlt, if_neg (by omega)]
  · have hm2 := hm.2
    rw [if_neg hl] at hm2 ⊢
    refine ⟨_, _, rfl, h1, h2, fun j hj => ?_⟩
    rw [h3 j hj]
    by_cases hji : j = i
    · rw [hji, if_neg (by omega), if_pos (by omega), hm2]
    · by_cases hlt : j < i
      · rw [if_pos hlt, if_pos (by omega)]
      · rw [if_neg hlt, if_neg (by omega)]

theorem lmsPostproc2_ok {m : Mem} {n : Nat} {T : Nat → Nat} (hn : 0 < n) {W : Nat → Nat} (w : Wok T n W)
    {X : Nat → Option Nat} (hX : cnt n (isX X) = lmsNum T n)
    (hv : ∀ a v, a < n → X a = some v → v = W (cnt a (isX X)) + if lastAt T n W (cnt a (isX X)) = true then n else 0) (ha : Arr m 0 n (codeX X)) :
    ∃ name m', lmsPostproc2 n (lmsNum T n) m = some (name, m') ∧ Named T n W m m' name := by
  have hle := lmsNum_le T n
  obtain ⟨i, m1, m2, R, h1, h2, h3, h4, h5, h6⟩ := compact2_ok (X := X) (by omega) ha
  rw [hX] at h2 h6
  have hcn : cnt n (mkX n X) = cnt (lmsNum T n) (newAt T n W) := by
    rw [mk_count w hX hv n (Nat.le_refl _), hX, last_total]
  rw [hcn] at h2
  have hg : gather2 n (lmsNum T n) m = some (((cnt (lmsNum T n) (newAt T n W) : Nat) : Int), m2) := by
    unfold gather2
    rw [h1, Option.bind_eq_bind, Option.bind_some]
    exact h2
  have hR : ∀ j < lmsNum T n, R j = markW T n W j := by
    intro j hj
    obtain ⟨a, h7, h8, h9⟩ := nth_get (X := X) (n := n) (j := j) (by omega)
    have h10 := h5 a _ h7 h8
    have h11 := hv a _ h7 h8
    rw [h9] at h10 h11
    rw [h10, h11]
    unfold markW
    by_cases hl : lastAt T n W j = true
    · rw [if_pos hl, if_pos hl]; push_cast; rfl
    · rw [if_neg hl, if_neg hl]; rfl
  unfold lmsPostproc2
  rw [if_neg (by omega), hg, Option.bind_eq_bind, Option.bind_some]
  by_cases hlt : ((cnt (lmsNum T n) (newAt T n W) : Nat) : Int) < lmsNum T n
  · rw [if_pos hlt]
    have ha1 : Arr m2 0 n (stA T n (markW T n W) (hAt T n W (lmsNum T n))) := by
      refine h3.ext (fun j hj => ?_)
      unfold stA
      by_cases hj2 : j < lmsNum T n
      · rw [if_pos hj2]; exact hR j hj2
      · rw [if_neg hj2, h6 j (by omega) hj]
        unfold half
        by_cases ha : lms T n (2 * (j - lmsNum T n)) = true
        · rw [if_pos ha]; unfold hAt; rw [if_neg (by have := (w.inv ha).1; omega)]
        · rw [if_neg ha]
          by_cases hb : lms T n (2 * (j - lmsNum T n) + 1) = true
          · rw [if_pos hb]; unfold hAt; rw [if_neg (by have := (w.inv hb).1; omega)]
          · rw [if_neg hb]
    obtain ⟨r, h7, h8, h9, h10⟩ := downto_rule (I := fun i (s : Int × Mem) => Arr s.2 0 n (stA T n (markW T n W) (hAt T n W i)) ∧ SameOut 0 n m s.2 ∧ s.1 = 1 + (cnt i (lastAt T n W) : Nat))
      (n := lmsNum T n) (body := storeName n (lmsNum T n)) (s := (((cnt (lmsNum T n) (newAt T n W) : Nat) : Int) + 1, m2))
      ⟨ha1, h4, by rw [last_total]; omega⟩ (fun i s hi hI => storeName_ok w hi hI.1 hI.2.1 hI.2.2)
    refine ⟨_, r.2, by rw [h7]; rfl, ⟨rfl, fun _ u hu => ?_, fun h => absurd hlt h, ⟨_, h8⟩, h9⟩⟩
    have h := h8 (lmsNum T n + u) (by omega)
    unfold stA at h
    rw [if_neg (by omega), show lmsNum T n + u - lmsNum T n = u by omega] at h
    rw [show ((lmsNum T n : Nat) : Int) + (u : Nat) = (0 : Int) + (lmsNum T n + u : Nat) by omega, h]
    congr 1
  · rw [if_neg hlt]
    obtain ⟨r, h7, R', h8, h9, h10⟩ := upto_rule (I := fun i (s : Mem) => ∃ R', Arr s 0 n R' ∧ SameOut 0 n m s ∧ ∀ j < lmsNum T n, R' j = if j < i then (W j : Int) else markW T n W j)
      (n := lmsNum T n) (body := unmark n) (s := m2)
      ⟨R, h3, h4, fun j hj => by rw [if_neg (by omega)]; exact hR j hj⟩
      (fun i s hi hI => by
        obtain ⟨R', h8, h9, h10⟩ := hI
        obtain ⟨s', R'', h11, h12⟩ := unmark_ok w hi h8 h9 h10
        exact ⟨s', h11, R'', h12⟩)
    refine ⟨_, r, by rw [h7]; rfl, ⟨rfl, fun h => absurd h hlt, fun _ j hj => ?_, ⟨_, h8⟩, h9⟩⟩
    have h := h8 j (by omega)
    rw [h10 j hj, if_pos hj] at h
    rw [← h]; congr 1; omega

end Bpak.Sais
