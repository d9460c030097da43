import Verif.Proof.SaisSorted
import Verif.Proof.SaisText
/-! Marking the first of each group of equal entries during a pass. -/
namespace Bpak.Sais

namespace Pass

/-- Entries that lead to another one. -/
def hot (P : Pass) (s : Nat) : Bool := (P.pred s).isSome

/-- The array at the end. -/
def fin (P : Pass) : Nat → Option Nat := (P.run P.n).F

/-- Values of the entries that fit the pass. -/
structure Vals (P : Pass) (V : Nat → List Nat) : Prop where
  key : ∀ s s', s < P.n → s' < P.n → V s = V s' → P.key s = P.key s' ∧ P.Z s = P.Z s'
  pred : ∀ s s' p p', P.pred s = some p → P.pred s' = some p' → P.key p = P.key p' → P.Z p = true → P.Z p' = true → (V p = V p' ↔ V s = V s')
  init : ∀ p s q, p ∈ P.init → P.pred s = some q → V q ≠ V p
  mid : ∀ a b c x y z, a < b → b < c → P.fin a = some x → P.fin b = some y → P.fin c = some z → V x = V z → V y = V z

/-- The first of the entries that have this value and both lead to another one or both do not. -/
def Marked (P : Pass) (V : Nat → List Nat) (a : Nat) : Prop :=
  ∀ s, P.fin a = some s → ∀ a' s', a' < a → P.fin a' = some s' → P.hot s' = P.hot s → V s' ≠ V s

/-- The marked entries that lead to another one. -/
noncomputable def hm (P : Pass) (V : Nat → List Nat) (a : Nat) : Bool :=
  @decide (∃ s, P.fin a = some s ∧ P.hot s = true ∧ P.Marked V a) (Classical.propDecidable _)

theorem hm_iff {P : Pass} {V : Nat → List Nat} {a : Nat} : P.hm V a = true ↔ ∃ s, P.fin a = some s ∧ P.hot s = true ∧ P.Marked V a := by
  unfold hm
  exact @decide_eq_true_iff _ (Classical.propDecidable _)

theorem cnt_eq_none {Q : Nat → Bool} {x y : Nat} (h : x ≤ y) : cnt x Q = cnt y Q ↔ ∀ z, x ≤ z → z < y → Q z = false := by
  obtain ⟨d, rfl⟩ := Nat.exists_eq_add_of_le h
  clear h
  induction d with
  | zero => simp; intro z _ _; omega
  | succ d ih =>
    have h1 := cnt_succ (x + d) Q
    have h2 := cnt_le_of_le (P := Q) (show x ≤ x + d by omega)
    rw [show x + (d + 1) = x + d + 1 by omega]
    constructor
    · intro h z hz hz'
      rw [h1] at h
      cases hq : Q (x + d) with
      | true => rw [hq] at h; simp at h; omega
      | false =>
        rw [hq] at h
        simp at h
        rcases Nat.lt_or_eq_of_le (Nat.le_of_lt_succ hz') with hz2 | hz2
        · exact ih.1 h z hz hz2
        · rw [hz2]; exact hq
    · intro h
      rw [h1, h (x + d) (by omega) (by omega)]
      simp
      exact ih.2 (fun z hz hz' => h z hz (by omega))

theorem cnt_pos {Q : Nat → Bool} {x n : Nat} (h : Q x = true) (hx : x < n) : 0 < cnt n Q := by
  have := cnt_lt_of_lt h hx
  omega

/-- The count of marks tells apart the values. -/
theorem class_iff {P : Pass} {V : Nat → List Nat} (v : Vals P V) {x : Nat} {s : Nat} (ex : P.fin x = some s) (hs : P.hot s = true) :
    ∀ y s', x < y → P.fin y = some s' → P.hot s' = true → (cnt (x + 1) (P.hm V) = cnt (y + 1) (P.hm V) ↔ V s = V s') := by
  intro y
  induction y using Nat.strongRecOn with
  | _ y ih =>
    intro s' hxy ey hs'
    constructor
    · intro h
      have hno := (cnt_eq_none (show x + 1 ≤ y + 1 by omega)).1 h
      have hy := hno y (by omega) (by omega)
      have hm : ¬ P.Marked V y := by
        intro hc
        rw [hm_iff.2 ⟨s', ey, hs', hc⟩] at hy
        cases hy
      apply Decidable.byContradiction
      intro hne
      apply hm
      intro t et a' t' ha' ea' hh hv
      rw [ey] at et
      cases et
      rw [hs'] at hh
      rcases Nat.lt_trichotomy a' x with hx | hx | hx
      · exact hne (v.mid a' x y t' s s' hx hxy ea' ex ey hv)
      · subst hx
        rw [ex] at ea'
        cases ea'
        exact hne hv
      · have := (ih a' ha' t' hx ea' hh).1 ((cnt_eq_none (by omega)).2 (fun z h1 h2 => hno z h1 (by omega)))
        exact hne (this.trans hv)
    · intro h
      rw [cnt_eq_none (by omega)]
      intro z hz hz'
      cases hc : P.hm V z with
      | false => rfl
      | true =>
        obtain ⟨t, et, ht, hm⟩ := hm_iff.1 hc
        exfalso
        have hv : V t = V s' := by
          rcases Nat.lt_or_eq_of_le (Nat.le_of_lt_succ hz') with h2 | h2
          · exact v.mid x z y s t s' (by omega) h2 ex et ey h
          · rw [h2, ey] at et; cases et; rfl
        exact hm t et x s (by omega) ex (by rw [hs, ht]) (h.trans hv.symm)

/-- Some mark has been seen when an entry leads to another one. -/
theorem mark_seen {P : Pass} {V : Nat → List Nat} : ∀ y s, P.fin y = some s → P.hot s = true → 0 < cnt (y + 1) (P.hm V) := by
  intro y
  induction y using Nat.strongRecOn with
  | _ y ih =>
    intro s ey hs
    cases hc : P.hm V y with
    | true => exact cnt_pos hc (by omega)
    | false =>
      have : ¬ P.Marked V y := by
        intro hm
        rw [hm_iff.2 ⟨s, ey, hs, hm⟩] at hc
        cases hc
      have : ∃ a' s', a' < y ∧ P.fin a' = some s' ∧ P.hot s' = true := by
        apply Classical.byContradiction
        intro hn
        apply this
        intro t et a' s' ha' ea' hh _
        rw [ey] at et
        cases et
        exact hn ⟨a', s', ha', ea', by rw [hh, hs]⟩
      obtain ⟨a', s', h1, h2, h3⟩ := this
      have := ih a' h1 s' h2 h3
      have := cnt_le_of_le (P := P.hm V) (show a' + 1 ≤ y + 1 by omega)
      omega

/-- When the predecessor of the entry at `y` is marked. -/
theorem mark_iff {P : Pass} (o : Ok P) {V : Nat → List Nat} (v : Vals P V) {y s p : Nat} (hy : y < P.n) (ey : P.fin y = some s) (hp : P.pred s = some p) :
    P.Marked V ((P.run y).G (P.key p)) ↔
      ∀ x s' p', x < y → P.fin x = some s' → P.pred s' = some p' → P.key p' = P.key p → P.hot p' = P.hot p → cnt (x + 1) (P.hm V) ≠ cnt (y + 1) (P.hm V) := by
  have sh := (run_inv o P.n).shape
  obtain ⟨e1, e2, e3, e4⟩ := emitted o hy ey hp
  have zp : ∀ {x s p}, P.fin x = some s → P.pred s = some p → p < P.n ∧ P.Z p = true := by
    intro x s p ex hp
    have : (s < P.n ∧ P.Z s = true) ∨ ∃ a, P.F0 a = some s := by
      rcases sh.where_ ex with ⟨hm, -⟩ | ⟨h1, -⟩
      · exact Or.inl (sh.mem s hm)
      · exact Or.inr ⟨x, h1⟩
    exact ⟨(o.step s p hp this).1, (o.step s p hp this).2.1⟩
  constructor
  · intro hm x s' p' hx ex hp' hk hh he
    obtain ⟨f1, f2, f3, f4⟩ := emitted o (show x < P.n by omega) ex hp'
    have hlt : (P.run x).G (P.key p') < (P.run y).G (P.key p) := by
      have := run_G (P := P) (show x + 1 ≤ y from hx) (P.key p)
      rw [hk] at f4 ⊢
      omega
    have hv : V s' = V s := (class_iff v ex (by unfold hot; rw [hp']; rfl) y s hx ey (by unfold hot; rw [hp]; rfl)).1 he
    exact hm p e2 _ p' hlt f2 hh ((v.pred s' s p' p hp' hp hk (zp ex hp').2 (zp ey hp).2).2 hv)
  · intro h t et a' t' ha' ea' hh hv
    have e2 : P.fin ((P.run y).G (P.key p)) = some p := e2
    rw [e2] at et
    cases et
    have hpn := (zp ey hp)
    have htn := (sh.bucket o ea').1
    obtain ⟨hk, hzz⟩ := v.key t' p htn hpn.1 hv
    rw [hpn.2] at hzz
    rcases source o ea' hzz with ⟨hi, -⟩ | ⟨x, s', hx, ex, hp', g1, g2, g3⟩
    · exact v.init t' s p hi hp hv.symm
    · have hxy : x < y := by
        apply Decidable.byContradiction
        intro hc
        have := run_G (P := P) (show y ≤ x by omega) (P.key p)
        rw [hk] at g1
        omega
      have hvs := (v.pred s' s t' p hp' hp hk hzz hpn.2).1 hv
      exact h x s' t' hxy ex hp' hk hh ((class_iff v ex (by unfold hot; rw [hp']; rfl) y s hxy ey (by unfold hot; rw [hp]; rfl)).2 hvs)

/-- The counters after `i` steps: for a character and whether the entries lead to another one, the count when such an entry was put last, or not more than the base. -/
def Counters (P : Pass) (V : Nat → List Nat) (base : Int) (i : Nat) (D : Nat → Bool → Int) : Prop :=
  ∀ c h, (D c h ≤ base ∧ ∀ x s p, x < i → P.fin x = some s → P.pred s = some p → ¬ (P.key p = c ∧ P.hot p = h)) ∨
    ∃ x s p, x < i ∧ P.fin x = some s ∧ P.pred s = some p ∧ P.key p = c ∧ P.hot p = h ∧ D c h = base + (cnt (x + 1) (P.hm V) : Nat) ∧
      ∀ x' s' p', x' < i → P.fin x' = some s' → P.pred s' = some p' → P.key p' = c → P.hot p' = h → x' ≤ x

/-- The comparison of the counter decides whether the entry is marked. -/
theorem Counters.test {P : Pass} (o : Ok P) {V : Nat → List Nat} (v : Vals P V) {base : Int} {i : Nat} {D : Nat → Bool → Int} (hD : Counters P V base i D)
    (hi : i < P.n) {s p : Nat} (ei : P.fin i = some s) (hp : P.pred s = some p) :
    (D (P.key p) (P.hot p) ≠ base + (cnt (i + 1) (P.hm V) : Nat) ↔ P.Marked V ((P.run i).G (P.key p))) ∧
    Counters P V base (i + 1) (fun c h => if c = P.key p ∧ h = P.hot p then base + (cnt (i + 1) (P.hm V) : Nat) else D c h) := by
  constructor
  · rw [mark_iff o v hi ei hp]
    have hpos := mark_seen (V := V) i s ei (by unfold hot; rw [hp]; rfl)
    rcases hD (P.key p) (P.hot p) with ⟨h1, h2⟩ | ⟨x, s', p', hx, ex, hp', hk, hh, hd, hlast⟩
    · constructor
      · intro _ x s' p' hx ex hp' hk hh
        exact absurd ⟨hk, hh⟩ (h2 x s' p' hx ex hp')
      · intro _
        omega
    · rw [hd]
      constructor
      · intro hne x2 s2 p2 hx2 ex2 hp2 hk2 hh2 he
        have h1 := hlast x2 s2 p2 hx2 ex2 hp2 hk2 hh2
        have h2 := cnt_le_of_le (P := P.hm V) (show x2 + 1 ≤ x + 1 by omega)
        have h3 := cnt_le_of_le (P := P.hm V) (show x + 1 ≤ i + 1 by omega)
        omega
      · intro h
        have := h x s' p' hx ex hp' hk hh
        omega
  · intro c h
    by_cases hc : c = P.key p ∧ h = P.hot p
    · right
      refine ⟨i, s, p, by omega, ei, hp, hc.1.symm, hc.2.symm, if_pos hc, ?_⟩
      intro x' _ _ hx' _ _ _ _
      omega
    · show ((if c = P.key p ∧ h = P.hot p then _ else D c h) ≤ base ∧ _) ∨ _
      rw [if_neg hc]
      rcases hD c h with ⟨h1, h2⟩ | ⟨x, s', p', hx, ex, hp', hk, hh, hd, hlast⟩
      · left
        refine ⟨h1, ?_⟩
        intro x s' p' hx ex hp' hcc
        rcases Nat.lt_or_eq_of_le (Nat.le_of_lt_succ hx) with h3 | h3
        · exact h2 x s' p' h3 ex hp' hcc
        · subst h3
          rw [ei] at ex
          cases ex
          rw [hp] at hp'
          cases hp'
          exact hc ⟨hcc.1.symm, hcc.2.symm⟩
      · right
        refine ⟨x, s', p', by omega, ex, hp', hk, hh, by show (if c = P.key p ∧ h = P.hot p then _ else D c h) = _; rw [if_neg hc]; exact hd, ?_⟩
        intro x2 s2 p2 hx2 ex2 hp2 hk2 hh2
        rcases Nat.lt_or_eq_of_le (Nat.le_of_lt_succ hx2) with h3 | h3
        · exact hlast x2 s2 p2 h3 ex2 hp2 hk2 hh2
        · subst h3
          rw [ei] at ex2
          cases ex2
          rw [hp] at hp2
          cases hp2
          exact absurd ⟨hk2.symm, hh2.symm⟩ hc

/-- An entry that leads to none changes nothing. -/
theorem Counters.skip {P : Pass} {V : Nat → List Nat} {base : Int} {i : Nat} {D : Nat → Bool → Int} (hD : Counters P V base i D)
    (hc : ∀ s, P.fin i = some s → P.pred s = none) : Counters P V base (i + 1) D := by
  intro c h
  have hno : ∀ x s p, x < i + 1 → P.fin x = some s → P.pred s = some p → x < i := by
    intro x s p hx ex hp
    rcases Nat.lt_or_eq_of_le (Nat.le_of_lt_succ hx) with h3 | h3
    · exact h3
    · subst h3
      rw [hc s ex] at hp
      cases hp
  rcases hD c h with ⟨h1, h2⟩ | ⟨x, s', p', hx, ex, hp', hk, hh, hd, hlast⟩
  · exact Or.inl ⟨h1, fun x s p hx ex hp => h2 x s p (hno x s p hx ex hp) ex hp⟩
  · exact Or.inr ⟨x, s', p', by omega, ex, hp', hk, hh, hd, fun x' s' p' hx' ex' hp' hk' hh' => hlast x' s' p' (hno x' s' p' hx' ex' hp') ex' hp' hk' hh'⟩

theorem Counters.bound {P : Pass} {V : Nat → List Nat} {base : Int} {i : Nat} {D : Nat → Bool → Int} (hD : Counters P V base i D) (c : Nat) (h : Bool) :
    D c h ≤ base + (cnt i (P.hm V) : Nat) := by
  rcases hD c h with ⟨h1, -⟩ | ⟨x, -, -, hx, -, -, -, -, hd, -⟩
  · omega
  · have := cnt_le_of_le (P := P.hm V) (show x + 1 ≤ i by omega)
    omega

/-- The count goes up with each marked entry that is looked at. -/
theorem cnt_hm {P : Pass} {V : Nat → List Nat} {i s : Nat} (ei : P.fin i = some s) (hs : P.hot s = true) [Decidable (P.Marked V i)] :
    cnt (i + 1) (P.hm V) = cnt i (P.hm V) + if P.Marked V i then 1 else 0 := by
  rw [cnt_succ]
  congr 1
  by_cases h : P.Marked V i
  · rw [if_pos h, if_pos (hm_iff.2 ⟨s, ei, hs, h⟩)]
  · rw [if_neg h, if_neg]
    intro hc
    obtain ⟨_, _, _, h'⟩ := hm_iff.1 hc
    exact h h'

theorem cnt_hm_cold {P : Pass} {V : Nat → List Nat} {i : Nat} (h : ∀ s, P.fin i = some s → P.pred s = none) : cnt (i + 1) (P.hm V) = cnt i (P.hm V) := by
  rw [cnt_succ, if_neg, Nat.add_zero]
  intro hc
  obtain ⟨s, e, hs, _⟩ := hm_iff.1 hc
  unfold hot at hs
  rw [h s e] at hs
  cases hs

end Pass
end Bpak.Sais
