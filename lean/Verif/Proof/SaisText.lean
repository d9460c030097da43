import Verif.Proof.SaisPass
/-! Facts about texts: the types of positions, the order of suffixes, the leftmost positions of ascending runs. -/
namespace Bpak.Sais

/-- Type of the position that has `d` characters left. -/
def sTyD (T : Nat → Nat) (n : Nat) : Nat → Bool
  | 0 => false
  | 1 => false
  | d + 2 => decide (T (n - (d + 2)) < T (n - (d + 1))) || (decide (T (n - (d + 2)) = T (n - (d + 1))) && sTyD T n (d + 1))

/-- The suffix at `i` is smaller than the next one (type S). -/
def sTy (T : Nat → Nat) (n i : Nat) : Bool := sTyD T n (n - i)

theorem sTy_last (T : Nat → Nat) (n i : Nat) (h : n ≤ i + 1) : sTy T n i = false := by
  unfold sTy
  rcases Nat.lt_or_ge i n with h' | h'
  · rw [show n - i = 1 by omega]; rfl
  · rw [show n - i = 0 by omega]; rfl

theorem sTy_eq (T : Nat → Nat) (n i : Nat) (h : i + 1 < n) :
    sTy T n i = (decide (T i < T (i + 1)) || (decide (T i = T (i + 1)) && sTy T n (i + 1))) := by
  unfold sTy
  obtain ⟨d, hd⟩ : ∃ d, n - i = d + 2 := ⟨n - i - 2, by omega⟩
  rw [hd, show n - (i + 1) = d + 1 by omega]
  rw [sTyD, show n - (d + 2) = i by omega, show n - (d + 1) = i + 1 by omega]

theorem sTy_lt {T : Nat → Nat} {n i : Nat} (h : i + 1 < n) (hlt : T i < T (i + 1)) : sTy T n i = true := by
  rw [sTy_eq T n i h]; simp [hlt]

theorem sTy_gt {T : Nat → Nat} {n i : Nat} (hlt : T (i + 1) < T i) : sTy T n i = false := by
  rcases Nat.lt_or_ge (i + 1) n with h | h
  · rw [sTy_eq T n i h]; simp; omega
  · exact sTy_last T n i h

theorem sTy_same {T : Nat → Nat} {n i : Nat} (h : i + 1 < n) (he : T i = T (i + 1)) : sTy T n i = sTy T n (i + 1) := by
  rw [sTy_eq T n i h]; simp [he]

theorem sTy_next {T : Nat → Nat} {n i : Nat} (h : sTy T n i = true) : i + 1 < n ∧ T i ≤ T (i + 1) := by
  have h1 : i + 1 < n := by
    apply Decidable.byContradiction
    intro hc
    rw [sTy_last T n i (by omega)] at h
    cases h
  refine ⟨h1, ?_⟩
  apply Decidable.byContradiction
  intro hc
  rw [sTy_gt (by omega)] at h
  cases h

theorem lTy_next {T : Nat → Nat} {n i : Nat} (hi : i + 1 < n) (h : sTy T n i = false) : T (i + 1) ≤ T i := by
  apply Decidable.byContradiction
  intro hc
  rw [sTy_lt hi (by omega)] at h
  cases h

/-- Leftmost position of an ascending run. -/
def lms (T : Nat → Nat) (n i : Nat) : Bool := decide (0 < i) && (sTy T n i && !sTy T n (i - 1))

theorem lms_iff {T : Nat → Nat} {n i : Nat} : lms T n i = true ↔ 0 < i ∧ sTy T n i = true ∧ sTy T n (i - 1) = false := by
  unfold lms
  simp

theorem lms_pos {T : Nat → Nat} {n i : Nat} (h : lms T n i = true) : 0 < i ∧ i + 1 < n :=
  ⟨(lms_iff.1 h).1, (sTy_next (lms_iff.1 h).2.1).1⟩

/-- In front of such a position the character is greater. -/
theorem lms_gt {T : Nat → Nat} {n i : Nat} (h : lms T n (i + 1) = true) : T (i + 1) < T i := by
  obtain ⟨-, h2, h3⟩ := lms_iff.1 h
  have hn := (sTy_next h2).1
  rw [Nat.add_sub_cancel] at h3
  have h4 := lTy_next (by omega) h3
  rcases Nat.lt_or_eq_of_le h4 with h5 | h5
  · exact h5
  · rw [sTy_same (by omega) h5.symm] at h3
    rw [h3] at h2
    cases h2

theorem lms_of_gt {T : Nat → Nat} {n i : Nat} (h1 : sTy T n (i + 1) = true) (h2 : T (i + 1) < T i) : lms T n (i + 1) = true :=
  lms_iff.2 ⟨by omega, h1, by rw [Nat.add_sub_cancel]; exact sTy_gt h2⟩

theorem lms_next {T : Nat → Nat} {n i : Nat} (h : lms T n i = true) : lms T n (i + 1) = false := by
  cases h' : lms T n (i + 1) with
  | false => rfl
  | true =>
    have h1 := (lms_iff.1 h).2.1
    have h2 := (lms_iff.1 h').2.2
    rw [Nat.add_sub_cancel, h1] at h2
    cases h2

theorem cnt_add_lms (T : Nat → Nat) (n a d : Nat) : 2 * cnt (a + d) (lms T n) ≤ 2 * cnt a (lms T n) + d + 1 := by
  have h2 : ∀ i, cnt (i + 2) (lms T n) ≤ cnt i (lms T n) + 1 := by
    intro i
    rw [show i + 2 = i + 1 + 1 from rfl, cnt_succ, cnt_succ]
    cases h : lms T n i with
    | true => rw [lms_next h]; simp
    | false => cases lms T n (i + 1) <;> simp
  have : ∀ e, cnt (a + 2 * e) (lms T n) ≤ cnt a (lms T n) + e := by
    intro e
    induction e with
    | zero => simp
    | succ e ih =>
      have := h2 (a + 2 * e)
      rw [show a + 2 * (e + 1) = a + 2 * e + 2 by omega]
      omega
  rcases Nat.mod_two_eq_zero_or_one d with h | h
  · have h3 := this (d / 2)
    rw [show a + 2 * (d / 2) = a + d by omega] at h3
    omega
  · have h3 := this (d / 2)
    rw [show a + 2 * (d / 2) = a + (d - 1) by omega] at h3
    have h4 := cnt_succ (a + (d - 1)) (lms T n)
    rw [show a + (d - 1) + 1 = a + d by omega] at h4
    split at h4 <;> omega

/-- The number of such positions. -/
def lmsNum (T : Nat → Nat) (n : Nat) : Nat := cnt n (lms T n)

theorem lmsNum_le (T : Nat → Nat) (n : Nat) : 2 * lmsNum T n ≤ n := by
  unfold lmsNum
  cases n with
  | zero => simp [cnt]
  | succ n =>
    rw [cnt_succ]
    have h1 : lms T (n + 1) n = false := by
      cases h : lms T (n + 1) n with
      | false => rfl
      | true => have := lms_pos h; omega
    rw [h1]
    cases n with
    | zero => simp [cnt]
    | succ n =>
      have h2 := cnt_add_lms T (n + 1 + 1) 1 n
      have h3 : cnt 1 (lms T (n + 1 + 1)) = 0 := by
        apply cnt_false
        intro i hi
        have : i = 0 := by omega
        subst this
        simp [lms]
      rw [h3, show 1 + n = n + 1 by omega] at h2
      simp
      omega

/-- Position `p` and the number of such positions behind it. -/
theorem lms_room {T : Nat → Nat} {n p : Nat} (h : lms T n p = true) : p + 2 * (lmsNum T n - (cnt p (lms T n) + 1)) + 2 ≤ n ∧ cnt p (lms T n) < lmsNum T n := by
  have hp := lms_pos h
  unfold lmsNum
  have h1 : cnt (p + 2) (lms T n) = cnt p (lms T n) + 1 := by
    rw [show p + 2 = p + 1 + 1 from rfl, cnt_succ, cnt_succ, h, lms_next h]; simp
  have h2 : cnt n (lms T n) = cnt (n - 1) (lms T n) := by
    have := cnt_succ (n - 1) (lms T n)
    rw [show n - 1 + 1 = n by omega] at this
    have h3 : lms T n (n - 1) = false := by
      cases h : lms T n (n - 1) with
      | false => rfl
      | true => have := lms_pos h; omega
    rw [h3] at this
    simpa using this
  have hmon : ∀ d, cnt (p + 1) (lms T n) ≤ cnt (p + 1 + d) (lms T n) := by
    intro d
    induction d with
    | zero => simp
    | succ d ih => have := cnt_succ (p + 1 + d) (lms T n); rw [show p + 1 + (d + 1) = p + 1 + d + 1 by omega]; omega
  have h5 : cnt (p + 1) (lms T n) = cnt p (lms T n) + 1 := by rw [cnt_succ, h]; simp
  rcases Nat.lt_or_ge (p + 2) n with hlt | hge
  · have h4 := cnt_add_lms T n (p + 2) (n - 1 - (p + 2))
    rw [show p + 2 + (n - 1 - (p + 2)) = n - 1 by omega] at h4
    have := hmon (n - (p + 1))
    rw [show p + 1 + (n - (p + 1)) = n by omega] at this
    omega
  · have : n - 1 = p + 1 := by omega
    rw [this] at h2
    omega

theorem cnt_le_of_le {P : Nat → Bool} {a b : Nat} (h : a ≤ b) : cnt a P ≤ cnt b P := by
  obtain ⟨d, rfl⟩ := Nat.exists_eq_add_of_le h
  clear h
  induction d with
  | zero => simp
  | succ d ih => have := cnt_succ (a + d) P; rw [show a + (d + 1) = a + d + 1 by omega]; omega

/-- Positions that satisfy `P` and have the same number of such ones before them are the same. -/
theorem cnt_inj {P : Nat → Bool} {a b : Nat} (ha : P a = true) (hb : P b = true) (h : cnt a P = cnt b P) : a = b := by
  rcases Nat.lt_trichotomy a b with x | x | x
  · have h1 := cnt_le_of_le (P := P) (show a + 1 ≤ b from x)
    rw [cnt_succ, ha] at h1
    simp at h1
    omega
  · exact x
  · have h1 := cnt_le_of_le (P := P) (show b + 1 ≤ a from x)
    rw [cnt_succ, hb] at h1
    simp at h1
    omega

theorem cnt_lt_of_lt {P : Nat → Bool} {a b : Nat} (ha : P a = true) (h : a < b) : cnt a P < cnt b P := by
  have h1 := cnt_le_of_le (P := P) (show a + 1 ≤ b from h)
  rw [cnt_succ, ha] at h1
  simp at h1
  omega

theorem cnt_surj {P : Nat → Bool} {n j : Nat} (h : j < cnt n P) : ∃ p, p < n ∧ P p = true ∧ cnt p P = j := by
  induction n with
  | zero => simp [cnt] at h
  | succ n ih =>
    rw [cnt_succ] at h
    by_cases hj : j < cnt n P
    · obtain ⟨p, h1, h2⟩ := ih hj
      exact ⟨p, by omega, h2⟩
    · split at h
      · rename_i hp
        exact ⟨n, by omega, hp, by omega⟩
      · omega

theorem lms_gap {T : Nat → Nat} {n p q : Nat} (hp : lms T n p = true) (hq : lms T n q = true) (h : p < q) : p + 2 ≤ q := by
  rcases Nat.lt_or_ge (p + 1) q with h' | h'
  · exact h'
  · have : q = p + 1 := by omega
    subst this
    rw [lms_next hp] at hq
    cases hq

theorem lms_half {T : Nat → Nat} {n p q : Nat} (hp : lms T n p = true) (hq : lms T n q = true) (h : p / 2 = q / 2) : p = q := by
  rcases Nat.lt_trichotomy p q with x | x | x
  · have := lms_gap hp hq x; omega
  · exact x
  · have := lms_gap hq hp x; omega

/-! ### Loops -/

theorem upto_rule {σ : Type} (I : Nat → σ → Prop) {n : Nat} {body : Nat → σ → Option σ} {s : σ} (h0 : I 0 s)
    (hs : ∀ i s, i < n → I i s → ∃ s', body i s = some s' ∧ I (i + 1) s') : ∃ s', upto n body s = some s' ∧ I n s' := by
  induction n with
  | zero => exact ⟨s, rfl, h0⟩
  | succ n ih =>
    obtain ⟨s1, e1, i1⟩ := ih (fun i s hi => hs i s (by omega))
    obtain ⟨s2, e2, i2⟩ := hs n s1 (by omega) i1
    exact ⟨s2, by rw [upto, e1]; exact e2, i2⟩

theorem downto_rule {σ : Type} (I : Nat → σ → Prop) {n : Nat} {body : Nat → σ → Option σ} {s : σ} (h0 : I n s)
    (hs : ∀ i s, i < n → I (i + 1) s → ∃ s', body i s = some s' ∧ I i s') : ∃ s', downto n body s = some s' ∧ I 0 s' := by
  induction n generalizing s with
  | zero => exact ⟨s, rfl, h0⟩
  | succ n ih =>
    obtain ⟨s1, e1, i1⟩ := hs n s (by omega) h0
    obtain ⟨s2, e2, i2⟩ := ih i1 (fun i s hi => hs i s (by omega))
    exact ⟨s2, by rw [downto, e1]; exact e2, i2⟩

/-- The walk over the text calls the body exactly at the leftmost positions of the ascending runs, from the right. -/
theorem lmsScan_rule {σ : Type} {T : Nat → Nat} {n : Nat} (I : Nat → σ → Prop) {getc : σ → Nat → Option Int} {body : Nat → Int → σ → Option σ}
    (hget : ∀ i s, i + 1 < n → I (i + 1) s → getc s i = some (T i : Int))
    (hbody : ∀ i s, i + 1 < n → I (i + 1) s → lms T n (i + 1) = true → ∃ s', body i (T (i + 1) : Int) s = some s' ∧ I i s')
    (hskip : ∀ i s, i + 1 < n → I (i + 1) s → lms T n (i + 1) = false → I i s) :
    ∀ (i : Nat) (s : σ), i < n → I i s → ∃ s', lmsScan getc body i (T i : Int) (sTy T n i) s = some s' ∧ I 0 s' := by
  intro i
  induction i with
  | zero => intro s _ h; exact ⟨s, by cases sTy T n 0 <;> rfl, h⟩
  | succ i ih =>
    intro s hi h
    have hg := hget i s hi h
    cases hty : sTy T n (i + 1) with
    | false =>
      rw [lmsScan, hg]
      have hno : lms T n (i + 1) = false := by
        cases h' : lms T n (i + 1) with
        | false => rfl
        | true => rw [(lms_iff.1 h').2.1] at hty; cases hty
      have h' := hskip i s hi h hno
      have := ih s (by omega) h'
      simp only [Option.bind_eq_bind, Option.bind_some]
      by_cases hc : T (i + 1) ≤ T i
      · rw [if_pos (by exact_mod_cast hc)]
        have e : sTy T n i = false := by
          rcases Nat.lt_or_eq_of_le hc with hc | hc
          · exact sTy_gt hc
          · rw [sTy_same hi hc.symm, hty]
        rw [e] at this
        exact this
      · rw [if_neg (by exact_mod_cast hc)]
        have e : sTy T n i = true := sTy_lt hi (by omega)
        rw [e] at this
        exact this
    | true =>
      rw [lmsScan, hg]
      simp only [Option.bind_eq_bind, Option.bind_some]
      by_cases hc : T i ≤ T (i + 1)
      · rw [if_pos (by exact_mod_cast hc)]
        have hno : lms T n (i + 1) = false := by
          cases h' : lms T n (i + 1) with
          | false => rfl
          | true => have := lms_gt h'; omega
        have := ih s (by omega) (hskip i s hi h hno)
        have e : sTy T n i = true := by
          rcases Nat.lt_or_eq_of_le hc with hc | hc
          · exact sTy_lt hi hc
          · rw [sTy_same hi hc, hty]
        rw [e] at this
        exact this
      · rw [if_neg (by exact_mod_cast hc)]
        have hyes : lms T n (i + 1) = true := lms_of_gt hty (by omega)
        obtain ⟨s', e', h'⟩ := hbody i s hi h hyes
        have := ih s' (by omega) h'
        rw [sTy_gt (show T (i + 1) < T i by omega)] at this
        rw [e']
        exact this

end Bpak.Sais
