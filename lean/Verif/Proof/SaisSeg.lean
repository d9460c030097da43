import Verif.Proof.SaisLms
/-! The stretches as lists of characters, and what they say about the order of the suffixes. -/
namespace Bpak.Sais

def nxD (T : Nat → Nat) (n : Nat) : Nat → Nat
  | 0 => n - 1
  | d + 1 => if lms T n (n - (d + 1) + 1) = true then n - (d + 1) + 1 else nxD T n d

/-- The next leftmost position behind `p`, or the last position. -/
def nx (T : Nat → Nat) (n p : Nat) : Nat := nxD T n (n - p)

theorem nx_eq {T : Nat → Nat} {n p : Nat} (h : p < n) : nx T n p = if lms T n (p + 1) = true then p + 1 else nx T n (p + 1) := by
  unfold nx
  obtain ⟨d, hd⟩ : ∃ d, n - p = d + 1 := ⟨n - p - 1, by omega⟩
  rw [hd, nxD, show n - (d + 1) = p by omega, show n - (p + 1) = d by omega]

theorem nx_end {T : Nat → Nat} {n p : Nat} (h : n ≤ p) : nx T n p = n - 1 := by
  unfold nx
  rw [show n - p = 0 by omega]
  rfl

theorem nx_props {T : Nat → Nat} {n : Nat} : ∀ d p, n - p = d → p < n →
    nx T n p < n ∧ p ≤ nx T n p ∧ (p + 1 < n → p < nx T n p) ∧ (∀ r, p < r → r < nx T n p → lms T n r = false) ∧
    ((lms T n (nx T n p) = true ∧ p < nx T n p) ∨ (nx T n p = n - 1 ∧ ∀ r, p < r → lms T n r = false)) := by
  intro d
  induction d with
  | zero => intro p h1 h2; omega
  | succ d ih =>
    intro p h1 h2
    rw [nx_eq h2]
    by_cases h : lms T n (p + 1) = true
    · rw [if_pos h]
      have := lms_pos h
      exact ⟨by omega, by omega, fun _ => by omega, fun r h3 h4 => by omega, Or.inl ⟨h, by omega⟩⟩
    · rw [if_neg h]
      have h : lms T n (p + 1) = false := by simpa using h
      rcases Nat.lt_or_ge (p + 1) n with h3 | h3
      · obtain ⟨i1, i2, i3, i4, i5⟩ := ih (p + 1) (by omega) h3
        refine ⟨i1, by omega, fun _ => by omega, ?_, ?_⟩
        · intro r h4 h5
          by_cases e : r = p + 1
          · rw [e]; exact h
          · exact i4 r (by omega) h5
        · rcases i5 with i5 | i5
          · exact Or.inl ⟨i5.1, by omega⟩
          · refine Or.inr ⟨i5.1, ?_⟩
            intro r h4
            by_cases e : r = p + 1
            · rw [e]; exact h
            · exact i5.2 r (by omega)
      · rw [nx_end h3]
        refine ⟨by omega, by omega, fun _ => by omega, fun r h4 h5 => by omega, Or.inr ⟨rfl, ?_⟩⟩
        intro r h4
        cases h5 : lms T n r with
        | false => rfl
        | true => have := lms_pos h5; omega

/-- The characters and types from `i` to the next leftmost position. -/
def seg (T : Nat → Nat) (n i : Nat) : List Nat := (List.range (nx T n i - i + 1)).map (fun e => wt T n (i + e))

theorem seg_cons {T : Nat → Nat} {n i : Nat} (hi : i + 1 < n) (h : lms T n (i + 1) = false) : seg T n i = wt T n i :: seg T n (i + 1) := by
  have h1 := nx_props (T := T) (n - i) i rfl (by omega)
  have h2 := nx_props (T := T) (n - (i + 1)) (i + 1) rfl hi
  have h3 : nx T n i = nx T n (i + 1) := by rw [nx_eq (by omega), if_neg (by rw [h]; simp)]
  unfold seg
  rw [h3, show nx T n (i + 1) - i + 1 = (nx T n (i + 1) - (i + 1) + 1) + 1 by omega, List.range_succ_eq_map, List.map_cons, List.map_map]
  congr 1
  apply List.map_congr_left
  intro e _
  show wt T n (i + (e + 1)) = _
  rw [show i + (e + 1) = i + 1 + e by omega]

theorem seg_stop {T : Nat → Nat} {n i : Nat} (hi : i + 1 < n) (h : lms T n (i + 1) = true) : seg T n i = [wt T n i, wt T n (i + 1)] := by
  unfold seg
  rw [nx_eq (by omega), if_pos h, show i + 1 - i + 1 = 2 by omega]
  rfl

theorem seg_last {T : Nat → Nat} {n i : Nat} (hi : i + 1 = n) : seg T n i = [wt T n i] := by
  unfold seg
  have : lms T n (i + 1) = false := by
    cases h5 : lms T n (i + 1) with
    | false => rfl
    | true => have := lms_pos h5; omega
  rw [nx_eq (by omega), if_neg (by rw [this]; simp), nx_end (by omega), show n - 1 - i + 1 = 1 by omega]
  rfl

theorem valL_seg {T : Nat → Nat} {n : Nat} : ∀ d i, n - i = d → i < n → sTy T n i = false → valL T n i = seg T n i := by
  intro d
  induction d with
  | zero => intro i h1 h2; omega
  | succ d ih =>
    intro i h1 h2 h3
    rw [valL_L h2 h3]
    rcases Nat.lt_or_ge (i + 1) n with h4 | h4
    · cases h5 : sTy T n (i + 1) with
      | true =>
        rw [valL_S h4 h5, seg_stop h4 (lms_iff.2 ⟨by omega, h5, by rw [Nat.add_sub_cancel]; exact h3⟩)]
      | false =>
        rw [ih (i + 1) (by omega) h4 h5, seg_cons h4]
        cases h6 : lms T n (i + 1) with
        | false => rfl
        | true => rw [(lms_iff.1 h6).2.1] at h5; cases h5
    · rw [seg_last (by omega)]
      congr 1
      unfold valL
      rw [show n - (i + 1) = 0 by omega]
      rfl

theorem valS_seg {T : Nat → Nat} {n : Nat} : ∀ d i, n - i = d → i < n → valS T n i = seg T n i := by
  intro d
  induction d with
  | zero => intro i h1 h2; omega
  | succ d ih =>
    intro i h1 h2
    cases h3 : sTy T n i with
    | false => rw [valS_L h3]; exact valL_seg _ i rfl h2 h3
    | true =>
      have h4 := (sTy_next h3).1
      rw [valS_S h2 h3, ih (i + 1) (by omega) h4, seg_cons h4]
      cases h6 : lms T n (i + 1) with
      | false => rfl
      | true =>
        have := (lms_iff.1 h6).2.2
        rw [Nat.add_sub_cancel, h3] at this
        cases this

theorem map_range_eq {f g : Nat → Nat} {a b : Nat} : (List.range a).map f = (List.range b).map g ↔ a = b ∧ ∀ e < a, f e = g e := by
  constructor
  · intro h
    have h1 := congrArg List.length h
    simp only [List.length_map, List.length_range] at h1
    subst h1
    refine ⟨rfl, ?_⟩
    intro e he
    have := congrArg (fun l => l[e]?) h
    simp only [List.getElem?_map, List.getElem?_range he, Option.map_some] at this
    exact Option.some.inj this
  · rintro ⟨rfl, h⟩
    exact List.map_congr_left (fun e he => h e (List.mem_range.1 he))

theorem val_eq_iff {T : Nat → Nat} {n i j : Nat} (hi : i < n) (hj : j < n) :
    valS T n i = valS T n j ↔ nx T n i - i = nx T n j - j ∧ ∀ e ≤ nx T n i - i, wt T n (i + e) = wt T n (j + e) := by
  rw [valS_seg _ i rfl hi, valS_seg _ j rfl hj]
  unfold seg
  rw [map_range_eq]
  constructor
  · intro ⟨h1, h2⟩; exact ⟨by omega, fun e he => h2 e (by omega)⟩
  · intro ⟨h1, h2⟩; exact ⟨by omega, fun e he => h2 e (by omega)⟩

/-- Types are determined from the right. -/
theorem types_back {T : Nat → Nat} {n p q E : Nat} (hp : p + E < n) (hq : q + E < n) (hT : ∀ e ≤ E, T (p + e) = T (q + e)) (hE : sTy T n (p + E) = sTy T n (q + E)) :
    ∀ d e, e + d = E → sTy T n (p + e) = sTy T n (q + e) := by
  intro d
  induction d with
  | zero => intro e he; rw [show e = E by omega]; exact hE
  | succ d ih =>
    intro e he
    have h1 := ih (e + 1) (by omega)
    rw [sTy_eq T n (p + e) (by omega), sTy_eq T n (q + e) (by omega), hT e (by omega), show p + e + 1 = p + (e + 1) by omega, show q + e + 1 = q + (e + 1) by omega,
      hT (e + 1) (by omega), h1]

/-- Two leftmost positions with the same stretch: both have a next leftmost position. -/
theorem same_not_last {T : Nat → Nat} {n p q : Nat} (hp : lms T n p = true) (hq : lms T n q = true) (hne : p ≠ q) (h : valS T n p = valS T n q) :
    lms T n (nx T n p) = true ∧ lms T n (nx T n q) = true ∧ p < nx T n p ∧ q < nx T n q := by
  have p1 := lms_pos hp
  have q1 := lms_pos hq
  have a := nx_props (T := T) (n - p) p rfl (by omega)
  have b := nx_props (T := T) (n - q) q rfl (by omega)
  have e := (val_eq_iff (by omega) (by omega)).1 h
  have hw := wt_inj (e.2 (nx T n p - p) (Nat.le_refl _))
  rw [show p + (nx T n p - p) = nx T n p by omega, e.1, show q + (nx T n q - q) = nx T n q by omega] at hw
  rcases a.2.2.2.2 with a5 | a5 <;> rcases b.2.2.2.2 with b5 | b5
  · exact ⟨a5.1, b5.1, a5.2, b5.2⟩
  · have h1 := (lms_iff.1 a5.1).2.1
    rw [hw.2, b5.1, sTy_last T n _ (by omega)] at h1
    cases h1
  · have h1 := (lms_iff.1 b5.1).2.1
    rw [← hw.2, a5.1, sTy_last T n _ (by omega)] at h1
    cases h1
  · exfalso
    rcases Nat.lt_trichotomy p q with x | x | x
    · have := a5.2 q x; rw [hq] at this; cases this
    · exact hne x
    · have := b5.2 p x; rw [hp] at this; cases this

/-- What the comparison of `lms_postproc_1` finds out, when `q` does not come behind `p`. -/
theorem same_iff {T : Nat → Nat} {n p q : Nat} (hp : lms T n p = true) (hq : lms T n q = true) (hne : p ≠ q) (hle : LeL (valS T n q) (valS T n p)) :
    (nx T n p - p = nx T n q - q ∧ q + (nx T n p - p + 1) < n ∧ ∀ e ≤ nx T n p - p, T (p + e) = T (q + e)) ↔ valS T n p = valS T n q := by
  have p1 := lms_pos hp
  have q1 := lms_pos hq
  have a := nx_props (T := T) (n - p) p rfl (by omega)
  have b := nx_props (T := T) (n - q) q rfl (by omega)
  constructor
  · rintro ⟨h1, h2, h3⟩
    have bq : lms T n (nx T n q) = true := by
      rcases b.2.2.2.2 with b5 | b5
      · exact b5.1
      · omega
    have aT := h3 (nx T n p - p) (Nat.le_refl _)
    rw [show p + (nx T n p - p) = nx T n p by omega, h1, show q + (nx T n q - q) = nx T n q by omega] at aT
    rcases a.2.2.2.2 with a5 | a5
    · rw [val_eq_iff (by omega) (by omega)]
      refine ⟨h1, ?_⟩
      intro e he
      refine wt_same (h3 e he) (types_back (E := nx T n p - p) (by omega) (by omega) h3 ?_ (nx T n p - p - e) e (by omega))
      rw [show p + (nx T n p - p) = nx T n p by omega, h1, show q + (nx T n q - q) = nx T n q by omega, (lms_iff.1 a5.1).2.1, (lms_iff.1 bq).2.1]
    · exfalso
      have hgq := lms_gt (T := T) (n := n) (i := nx T n q - 1) (by rw [show nx T n q - 1 + 1 = nx T n q by omega]; exact bq)
      rw [show nx T n q - 1 + 1 = nx T n q by omega] at hgq
      have hqgap := lms_gap hq bq (by omega)
      have t1 := h3 (nx T n p - p - 1) (by omega)
      rw [show p + (nx T n p - p - 1) = nx T n p - 1 by omega, show q + (nx T n p - p - 1) = nx T n q - 1 by omega] at t1
      have ty1 : sTy T n (nx T n p - 1) = false := sTy_gt (by rw [show nx T n p - 1 + 1 = nx T n p by omega]; omega)
      have ty2 : sTy T n (nx T n q - 1) = false := sTy_gt (by rw [show nx T n q - 1 + 1 = nx T n q by omega]; omega)
      have hback := types_back (T := T) (n := n) (p := p) (q := q) (E := nx T n p - p - 1) (by omega) (by omega) (fun e he => h3 e (by omega))
        (by rw [show p + (nx T n p - p - 1) = nx T n p - 1 by omega, show q + (nx T n p - p - 1) = nx T n q - 1 by omega, ty1, ty2])
      have hlt : valS T n p < valS T n q := by
        rw [valS_seg _ p rfl (by omega), valS_seg _ q rfl (by omega)]
        unfold seg
        rw [← h1, List.range_succ, List.map_append, List.map_append]
        have : (List.range (nx T n p - p)).map (fun e => wt T n (p + e)) = (List.range (nx T n p - p)).map (fun e => wt T n (q + e)) := by
          apply List.map_congr_left
          intro e he
          have he := List.mem_range.1 he
          exact wt_same (h3 e (by omega)) (hback (nx T n p - p - 1 - e) e (by omega))
        rw [this]
        have hlast : wt T n (p + (nx T n p - p)) < wt T n (q + (nx T n p - p)) := by
          rw [show p + (nx T n p - p) = nx T n p by omega, h1, show q + (nx T n q - q) = nx T n q by omega]
          exact wt_type aT (by rw [a5.1]; exact sTy_last T n _ (by omega)) (lms_iff.1 bq).2.1
        have app : ∀ l : List Nat, ∀ x y : Nat, x < y → l ++ [x] < l ++ [y] := by
          intro l x y hxy
          induction l with
          | nil => exact List.cons_lt_cons_iff.2 (Or.inl hxy)
          | cons z l ih => exact List.cons_lt_cons_iff.2 (Or.inr ⟨rfl, ih⟩)
        exact app _ _ _ hlast
      rcases hle with h4 | h4
      · exact List.lt_irrefl _ (List.lt_trans h4 hlt)
      · rw [h4] at hlt; exact List.lt_irrefl _ hlt
  · intro h
    obtain ⟨h1, h2, h3, h4⟩ := same_not_last hp hq hne h
    have e := (val_eq_iff (by omega) (by omega)).1 h
    have l2 := lms_pos h2
    exact ⟨e.1, by omega, fun x hx => (wt_inj (e.2 x hx)).1⟩

theorem valL_suf {T : Nat → Nat} {n : Nat} : ∀ d i j, n - i = d → i ≤ n → j ≤ n → valL T n i < valL T n j → suf T n i < suf T n j := by
  intro d
  induction d with
  | zero =>
    intro i j h1 h2 h3 h
    have hi : n ≤ i := by omega
    rcases Nat.lt_or_ge j n with hj | hj
    · exact suf_end_lt hi hj
    · exfalso
      have e1 : valL T n i = [] := by unfold valL; rw [h1]; rfl
      have e2 : valL T n j = [] := by unfold valL; rw [show n - j = 0 by omega]; rfl
      rw [e1, e2] at h
      exact List.lt_irrefl _ h
  | succ d ih =>
    intro i j h1 h2 h3 h
    have hi : i < n := by omega
    rcases Nat.lt_or_ge j n with hj | hj
    · have main : ∀ x y, valL T n i = wt T n i :: x → valL T n j = wt T n j :: y → (wt T n i < wt T n j) ∨ (wt T n i = wt T n j ∧ x < y) := by
        intro x y ex ey
        rw [ex, ey] at h
        exact List.cons_lt_cons_iff.1 h
      cases ti : sTy T n i <;> cases tj : sTy T n j
      · rcases main _ _ (valL_L hi ti) (valL_L hj tj) with h4 | ⟨h4, h5⟩
        · apply suf_lt_key hi hj
          unfold wt at h4
          rw [ti, tj] at h4
          simp at h4
          omega
        · exact suf_lt_pred hi hj (wt_inj h4).1 (ih (i + 1) (j + 1) (by omega) (by omega) (by omega) h5)
      · rcases main _ _ (valL_L hi ti) (valL_S hj tj) with h4 | ⟨h4, h5⟩
        · by_cases e : T i = T j
          · exact suf_lt_type (n - i) i j rfl hi hj e ti tj
          · apply suf_lt_key hi hj
            unfold wt at h4
            rw [ti, tj] at h4
            simp at h4
            omega
        · have := (wt_inj h4).2
          rw [ti, tj] at this
          cases this
      · rcases main _ _ (valL_S hi ti) (valL_L hj tj) with h4 | ⟨h4, h5⟩
        · apply suf_lt_key hi hj
          unfold wt at h4
          rw [ti, tj] at h4
          simp at h4
          omega
        · have := (wt_inj h4).2
          rw [ti, tj] at this
          cases this
      · rcases main _ _ (valL_S hi ti) (valL_S hj tj) with h4 | ⟨h4, h5⟩
        · apply suf_lt_key hi hj
          unfold wt at h4
          rw [ti, tj] at h4
          simp at h4
          omega
        · exact absurd h5 (List.lt_irrefl _)
    · exfalso
      have e2 : valL T n j = [] := by unfold valL; rw [show n - j = 0 by omega]; rfl
      rw [e2] at h
      exact List.not_lt_nil _ h

/-- A smaller stretch, a smaller suffix. -/
theorem val_suf {T : Nat → Nat} {n : Nat} : ∀ d i j, n - i = d → i < n → j < n → valS T n i < valS T n j → suf T n i < suf T n j := by
  intro d
  induction d with
  | zero => intro i j h1 h2; omega
  | succ d ih =>
    intro i j h1 hi hj h
    have key : ∀ x y, wt T n i :: x < wt T n j :: y → (wt T n i = wt T n j → x < y → suf T n i < suf T n j) → suf T n i < suf T n j := by
      intro x y h2 h3
      rcases List.cons_lt_cons_iff.1 h2 with h4 | ⟨h4, h5⟩
      · by_cases e : T i = T j
        · cases ti : sTy T n i <;> cases tj : sTy T n j
          · exfalso; unfold wt at h4; rw [ti, tj, e] at h4; omega
          · exact suf_lt_type (n - i) i j rfl hi hj e ti tj
          · exfalso; unfold wt at h4; rw [ti, tj, e] at h4; simp at h4; omega
          · exfalso; unfold wt at h4; rw [ti, tj, e] at h4; omega
        · apply suf_lt_key hi hj
          rcases Nat.lt_or_ge (T i) (T j) with h6 | h6
          · exact h6
          · have := wt_key (T := T) (n := n) (i := j) (j := i) (by omega)
            omega
      · exact h3 h4 h5
    cases ti : sTy T n i <;> cases tj : sTy T n j
    · rw [valS_L ti, valS_L tj] at h
      exact valL_suf _ i j rfl (by omega) (by omega) h
    · rw [valS_L ti, valL_L hi ti, valS_S hj tj] at h
      refine key _ _ h (fun h4 _ => ?_)
      have := (wt_inj h4).2
      rw [ti, tj] at this
      cases this
    · rw [valS_L tj, valL_L hj tj, valS_S hi ti] at h
      refine key _ _ h (fun h4 _ => ?_)
      have := (wt_inj h4).2
      rw [ti, tj] at this
      cases this
    · rw [valS_S hj tj, valS_S hi ti] at h
      refine key _ _ h (fun h4 h5 => ?_)
      exact suf_lt_pred hi hj (wt_inj h4).1 (ih (i + 1) (j + 1) (by omega) (sTy_next ti).1 (sTy_next tj).1 h5)

/-- Equal stretches: the next ones decide. -/
theorem val_suf_eq {T : Nat → Nat} {n p q : Nat} (hp : lms T n p = true) (hq : lms T n q = true) (h : valS T n p = valS T n q) :
    suf T n p < suf T n q ↔ suf T n (nx T n p) < suf T n (nx T n q) := by
  have p1 := lms_pos hp
  have q1 := lms_pos hq
  have a := nx_props (T := T) (n - p) p rfl (by omega)
  have b := nx_props (T := T) (n - q) q rfl (by omega)
  have e := (val_eq_iff (by omega) (by omega)).1 h
  have : ∀ x, x ≤ nx T n p - p → (suf T n p < suf T n q ↔ suf T n (p + x) < suf T n (q + x)) := by
    intro x
    induction x with
    | zero => intro _; rfl
    | succ x ih =>
      intro hx
      rw [ih (by omega), suf_lt (by omega) (by omega)]
      have := (wt_inj (e.2 x (by omega))).1
      constructor
      · rintro (h1 | ⟨-, h1⟩)
        · omega
        · exact h1
      · intro h1
        exact Or.inr ⟨this, h1⟩
  have := this (nx T n p - p) (Nat.le_refl _)
  rwa [show p + (nx T n p - p) = nx T n p by omega, e.1, show q + (nx T n q - q) = nx T n q by omega] at this

end Bpak.Sais
