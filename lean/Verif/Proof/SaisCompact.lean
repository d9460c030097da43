import Verif.Proof.SaisSeg
/-! Gathering the sorted substrings at the front of the array (lib/sais.c:166-184 and 346-376). -/
namespace Bpak.Sais

theorem compactHead_eq (n : Nat) : ∀ (left i : Nat) (name : Int) (m : Mem), compactHead left i m = (compactHead2 n left i name m).map (fun r => (r.1, r.2.2)) := by
  intro left
  induction left with
  | zero => intro i name m; rfl
  | succ l ih =>
    intro i name m
    unfold compactHead compactHead2
    cases h : rd m i with
    | none => rfl
    | some p =>
      simp only [Option.bind_eq_bind, Option.bind_some]
      by_cases hp : p < 0
      · rw [if_pos hp, if_pos hp]
        cases h2 : wr m i (-p - 1) with
        | none => rfl
        | some m' =>
          simp only [Option.bind_some]
          by_cases hl : l = 0
          · rw [if_pos hl, if_pos hl]; rfl
          · rw [if_neg hl, if_neg hl]; exact ih _ _ _
      · rw [if_neg hp, if_neg hp]; rfl

theorem compactTail_eq (n mm : Nat) : ∀ (left i j : Nat) (name : Int) (m : Mem), compactTail mm left i j m = (compactTail2 n mm left i j name m).map (fun r => r.2) := by
  intro left
  induction left with
  | zero => intro i j name m; rfl
  | succ l ih =>
    intro i j name m
    unfold compactTail compactTail2
    cases h : rd m i with
    | none => rfl
    | some p =>
      simp only [Option.bind_eq_bind, Option.bind_some]
      by_cases hp : p < 0
      · rw [if_pos hp, if_pos hp]
        cases h2 : wr m j (-p - 1) with
        | none => rfl
        | some m' =>
          simp only [Option.bind_some]
          cases h3 : wr m' i 0 with
          | none => rfl
          | some m'' =>
            simp only [Option.bind_some]
            by_cases hl : j + 1 = mm
            · rw [if_pos hl, if_pos hl]; rfl
            · rw [if_neg hl, if_neg hl]; exact ih _ _ _ _
      · rw [if_neg hp, if_neg hp]; exact ih _ _ _ _

/-- What the array holds after sorting: complements of the values, 0 elsewhere. -/
def codeX (X : Nat → Option Nat) (a : Nat) : Int :=
  match X a with
  | none => 0
  | some v => -(v : Int) - 1

def isX (X : Nat → Option Nat) (a : Nat) : Bool := (X a).isSome

def mkX (n : Nat) (X : Nat → Option Nat) (a : Nat) : Bool := decide (isX X a = true ∧ n ≤ (X a).getD 0)

theorem codeX_some {X : Nat → Option Nat} {a v : Nat} (h : X a = some v) : codeX X a = -(v : Int) - 1 := by unfold codeX; rw [h]
theorem codeX_none {X : Nat → Option Nat} {a : Nat} (h : X a = none) : codeX X a = 0 := by unfold codeX; rw [h]
theorem isX_some {X : Nat → Option Nat} {a v : Nat} (h : X a = some v) : isX X a = true := by unfold isX; rw [h]; rfl
theorem isX_none {X : Nat → Option Nat} {a : Nat} (h : X a = none) : isX X a = false := by unfold isX; rw [h]; rfl

theorem mk_step {n i v : Nat} {X : Nat → Option Nat} (h : X i = some v) :
    (if (n : Int) ≤ -(-(v : Int) - 1) - 1 then ((cnt i (mkX n X) : Nat) : Int) + 1 else (cnt i (mkX n X) : Nat)) = (cnt (i + 1) (mkX n X) : Nat) := by
  rw [cnt_succ]
  have h1 : mkX n X i = decide (n ≤ v) := by
    unfold mkX; rw [h, isX_some h]; simp
  rw [h1]
  by_cases hv : n ≤ v
  · rw [if_pos (by omega), if_pos (by simpa using hv)]; omega
  · rw [if_neg (by omega), if_neg (by simpa using hv)]; omega

theorem mk_skip {n i : Nat} {X : Nat → Option Nat} (h : X i = none) : cnt (i + 1) (mkX n X) = cnt i (mkX n X) := by
  rw [cnt_succ]
  have : mkX n X i = false := by unfold mkX; rw [isX_none h]; simp
  rw [this]; rfl

theorem compactHead2_ok {n : Nat} {X : Nat → Option Nat} (hn : cnt n (isX X) < n) :
    ∀ (left i : Nat) (m : Mem), left + i = n → (∀ a < i, isX X a = true) → Arr m 0 n (fun a => if a < i then ((X a).getD 0 : Nat) else codeX X a) →
      ∃ i' m', compactHead2 n left i (cnt i (mkX n X) : Nat) m = some (i', ((cnt i' (mkX n X) : Nat) : Int), m') ∧ i' < n ∧ (∀ a < i', isX X a = true) ∧ X i' = none ∧
        Arr m' 0 n (fun a => if a < i' then ((X a).getD 0 : Nat) else codeX X a) ∧ SameOut 0 n m m' := by
  intro left
  induction left with
  | zero =>
    intro i m hi hall _
    have : cnt n (isX X) = n := cnt_true n _ (fun j hj => hall j (by omega))
    omega
  | succ l ih =>
    intro i m hi hall ha
    have hin : i < n := by omega
    unfold compactHead2
    have hrd : rd m (i : Int) = some (codeX X i) := by
      have h : m (0 + (i : Int)) = some (if i < i then (((X i).getD 0 : Nat) : Int) else codeX X i) := ha i hin
      rw [if_neg (by omega)] at h
      unfold rd; rw [← h]; congr 1; omega
    rw [hrd, Option.bind_eq_bind, Option.bind_some]
    cases hx : X i with
    | none =>
      rw [codeX_none hx, if_neg (by omega)]
      exact ⟨i, m, rfl, hin, hall, hx, ha, fun _ _ => rfl⟩
    | some v =>
      rw [codeX_some hx, if_pos (by omega)]
      have hw : wr m (i : Int) (-(-(v : Int) - 1) - 1) = some (setM m ((0 : Int) + i) (-(-(v : Int) - 1) - 1)) := by
        have := ha.wr hin (-(-(v : Int) - 1) - 1)
        rw [← this]; congr 1; omega
      rw [hw, Option.bind_eq_bind, Option.bind_some]
      have hall' : ∀ a < i + 1, isX X a = true := by
        intro a h
        rcases Nat.lt_or_ge a i with h2 | h2
        · exact hall a h2
        · have : a = i := by omega
          rw [this]; exact isX_some hx
      have hl : l ≠ 0 := by
        intro e
        have : cnt n (isX X) = n := cnt_true n _ (fun j hj => hall' j (by omega))
        omega
      rw [if_neg hl, mk_step hx]
      obtain ⟨i', m', h1, h2, h3, h4, h5, h6⟩ := ih (i + 1) (setM m ((0 : Int) + i) (-(-(v : Int) - 1) - 1)) (by omega) hall' (by
        refine (ha.set i _).ext (fun j hj => ?_)
        by_cases hji : j = i
        · subst hji; rw [upd_eq, if_pos (by omega), hx]; show -(-(v : Int) - 1) - 1 = (v : Int); omega
        · rw [upd_ne _ _ hji]
          by_cases h2 : j < i
          · rw [if_pos h2, if_pos (by omega)]
          · rw [if_neg h2, if_neg (by omega)])
      refine ⟨i', m', h1, h2, h3, h4, h5, fun a hna => ?_⟩
      rw [h6 a hna, setM_ne _ _ (by omega)]

theorem compactTail2_ok {n : Nat} {X : Nat → Option Nat} :
    ∀ (left i : Nat) (m : Mem) (R : Nat → Int), left + i = n → cnt i (isX X) < i → cnt i (isX X) < cnt n (isX X) → Arr m 0 n R →
      (∀ a v, a < i → X a = some v → R (cnt a (isX X)) = v) → (∀ j, cnt i (isX X) ≤ j → j < i → R j = 0) → (∀ j, i ≤ j → j < n → R j = codeX X j) →
      ∃ m' R', compactTail2 n (cnt n (isX X)) left i (cnt i (isX X)) (cnt i (mkX n X) : Nat) m = some (((cnt n (mkX n X) : Nat) : Int), m') ∧
        Arr m' 0 n R' ∧ SameOut 0 n m m' ∧ (∀ a v, a < n → X a = some v → R' (cnt a (isX X)) = v) ∧ (∀ j, cnt n (isX X) ≤ j → j < n → R' j = 0) := by
  intro left
  induction left with
  | zero => intro i m R hi h1 h2; exact absurd h2 (by have : i = n := by omega
                                                      subst this; omega)
  | succ l ih =>
    intro i m R hi hci hcn ha hv hz hr
    have hin : i < n := by omega
    unfold compactTail2
    have hrd : rd m (i : Int) = some (codeX X i) := by
      have h := ha i hin
      rw [hr i (Nat.le_refl _) hin] at h
      unfold rd; rw [← h]; congr 1; omega
    rw [hrd, Option.bind_eq_bind, Option.bind_some]
    cases hx : X i with
    | none =>
      rw [codeX_none hx, if_neg (by omega)]
      have hc : cnt (i + 1) (isX X) = cnt i (isX X) := by rw [cnt_succ, isX_none hx]; rfl
      have := ih (i + 1) m R (by omega) (by omega) (by omega) ha
        (fun a v h1 h2 => by
          rcases Nat.lt_or_ge a i with h3 | h3
          · exact hv a v h3 h2
          · have : a = i := by omega
            subst this; rw [hx] at h2; cases h2)
        (fun j h1 h2 => by
          rcases Nat.lt_or_ge j i with h3 | h3
          · exact hz j (by omega) h3
          · have : j = i := by omega
            subst this; rw [hr j (Nat.le_refl _) hin, codeX_none hx])
        (fun j h1 h2 => hr j (by omega) h2)
      rw [hc, mk_skip hx] at this
      exact this
    | some v =>
      rw [codeX_some hx, if_pos (by omega)]
      have hev : -(-(v : Int) - 1) - 1 = v := by omega
      have hc : cnt (i + 1) (isX X) = cnt i (isX X) + 1 := by rw [cnt_succ, isX_some hx]; rfl
      have he : cnt i (isX X) < n := by omega
      have hw : wr m ((cnt i (isX X) : Nat) : Int) (-(-(v : Int) - 1) - 1) = some (setM m ((0 : Int) + (cnt i (isX X) : Nat)) v) := by
        have := ha.wr he (v : Int)
        rw [hev, ← this]; congr 1; omega
      have ha1 := ha.set (cnt i (isX X)) (v : Int)
      have hw2 : wr (setM m ((0 : Int) + (cnt i (isX X) : Nat)) v) (i : Int) 0 = some (setM (setM m ((0 : Int) + (cnt i (isX X) : Nat)) v) ((0 : Int) + i) 0) := by
        have := ha1.wr hin 0
        rw [← this]; congr 1; omega
      have ha2 := ha1.set i 0
      rw [hw, Option.bind_eq_bind, Option.bind_some, hw2, Option.bind_some, mk_step hx]
      have hv' : ∀ a w, a < i + 1 → X a = some w → upd (upd R (cnt i (isX X)) v) i 0 (cnt a (isX X)) = w := by
        intro a w h1 h2
        have hca : cnt a (isX X) ≤ cnt i (isX X) := cnt_le_of_le (by omega)
        rw [upd_ne _ _ (by omega)]
        rcases Nat.lt_or_ge a i with h3 | h3
        · rw [upd_ne _ _ (by have := cnt_lt_of_lt (P := isX X) (isX_some h2) h3; omega)]; exact hv a w h3 h2
        · have : a = i := by omega
          subst this; rw [upd_eq]; rw [hx] at h2; injection h2 with h2; omega
      have hz' : ∀ j, cnt (i + 1) (isX X) ≤ j → j < i + 1 → upd (upd R (cnt i (isX X)) v) i 0 j = 0 := by
        intro j h1 h2
        by_cases hj : j = i
        · subst hj; rw [upd_eq]
        · rw [upd_ne _ _ hj, upd_ne _ _ (by omega)]; exact hz j (by omega) (by omega)
      have hr' : ∀ j, i + 1 ≤ j → j < n → upd (upd R (cnt i (isX X)) v) i 0 j = codeX X j := by
        intro j h1 h2
        rw [upd_ne _ _ (by omega), upd_ne _ _ (by omega)]; exact hr j (by omega) h2
      have hso : SameOut 0 n m (setM (setM m ((0 : Int) + (cnt i (isX X) : Nat)) v) ((0 : Int) + i) 0) := by
        intro a h
        rw [setM_ne _ _ (by omega), setM_ne _ _ (by omega)]
      by_cases hend : cnt i (isX X) + 1 = cnt n (isX X)
      · rw [if_pos hend]
        have hno : ∀ z, i + 1 ≤ z → z < n → X z = none := by
          intro z h1 h2
          have := (Pass.cnt_eq_none (Q := isX X) (x := i + 1) (y := n) (by omega)).1 (by omega) z h1 h2
          unfold isX at this
          cases hz : X z with
          | none => rfl
          | some w => rw [hz] at this; cases this
        have hmk : cnt (i + 1) (mkX n X) = cnt n (mkX n X) := by
          refine (Pass.cnt_eq_none (by omega)).2 (fun z h1 h2 => ?_)
          unfold mkX; rw [isX_none (hno z h1 h2)]; simp
        rw [hmk]
        refine ⟨_, _, rfl, ha2, hso, fun a w h1 h2 => ?_, fun j h1 h2 => ?_⟩
        · rcases Nat.lt_or_ge a (i + 1) with h3 | h3
          · exact hv' a w h3 h2
          · rw [hno a h3 h1] at h2; cases h2
        · rcases Nat.lt_or_ge j (i + 1) with h3 | h3
          · exact hz' j (by omega) h3
          · rw [hr' j h3 h2, codeX_none (hno j h3 h2)]
      · rw [if_neg hend]
        have hle : cnt (i + 1) (isX X) ≤ cnt n (isX X) := cnt_le_of_le (by omega)
        obtain ⟨m', R', h1, h2, h3, h4, h5⟩ := ih (i + 1) _ _ (by omega) (by omega) (by omega) ha2 hv' hz' hr'
        rw [hc] at h1
        exact ⟨m', R', h1, h2, fun a h => by rw [h3 a h, hso a h], h4, h5⟩

/-- Both loops together: what is counted and where the values are. -/
theorem compact2_ok {n : Nat} {X : Nat → Option Nat} (hn : cnt n (isX X) < n) {m : Mem} (ha : Arr m 0 n (codeX X)) :
    ∃ i m1 m' R, compactHead2 n n 0 0 m = some (i, ((cnt i (mkX n X) : Nat) : Int), m1) ∧
      (if i < cnt n (isX X) then compactTail2 n (cnt n (isX X)) (n - (i + 1)) (i + 1) i (cnt i (mkX n X) : Nat) m1 else some (((cnt i (mkX n X) : Nat) : Int), m1))
        = some (((cnt n (mkX n X) : Nat) : Int), m') ∧
      Arr m' 0 n R ∧ SameOut 0 n m m' ∧ (∀ a v, a < n → X a = some v → R (cnt a (isX X)) = v) ∧ (∀ j, cnt n (isX X) ≤ j → j < n → R j = 0) := by
  obtain ⟨i, m1, h1, h2, h3, h4, h5, h6⟩ := compactHead2_ok hn n 0 m (by omega) (by omega) (ha.ext (fun j _ => by rw [if_neg (by omega)]))
  have hci : cnt i (isX X) = i := cnt_true i _ h3
  have hci1 : cnt (i + 1) (isX X) = i := by rw [cnt_succ, isX_none h4, hci]; rfl
  have hmk : cnt (i + 1) (mkX n X) = cnt i (mkX n X) := mk_skip h4
  have hval : ∀ a v, a < i + 1 → X a = some v → (if cnt a (isX X) < i then (((X (cnt a (isX X))).getD 0 : Nat) : Int) else codeX X (cnt a (isX X))) = v := by
    intro a v h7 h8
    have h9 : a < i := by
      rcases Nat.lt_or_ge a i with h9 | h9
      · exact h9
      · have : a = i := by omega
        subst this; rw [h4] at h8; cases h8
    have h10 : cnt a (isX X) = a := cnt_true a _ (fun j hj => h3 j (by omega))
    rw [h10, if_pos h9, h8]; rfl
  have h0 : ((cnt 0 (mkX n X) : Nat) : Int) = 0 := by rw [cnt_false 0 _ (by omega)]; rfl
  rw [h0] at h1
  by_cases hlt : i < cnt n (isX X)
  · have := compactTail2_ok (X := X) (n - (i + 1)) (i + 1) m1 _ (by omega) (by omega) (by omega) h5 hval
      (fun j h7 h8 => by
        have : j = i := by omega
        subst this; rw [if_neg (by omega), codeX_none h4])
      (fun j h7 h8 => by rw [if_neg (by omega)])
    rw [hci1, hmk] at this
    obtain ⟨m', R', h7, h8, h9, h10, h11⟩ := this
    refine ⟨i, m1, m', R', h1, ?_, h8, fun a h => by rw [h9 a h, h6 a h], h10, h11⟩
    rw [if_pos hlt]; exact h7
  · have hle : cnt i (isX X) ≤ cnt n (isX X) := cnt_le_of_le (by omega)
    have hno : ∀ z, i ≤ z → z < n → X z = none := by
      intro z h7 h8
      have := (Pass.cnt_eq_none (Q := isX X) (x := i) (y := n) (by omega)).1 (by omega) z h7 h8
      unfold isX at this
      cases hz : X z with
      | none => rfl
      | some w => rw [hz] at this; cases this
    have hmk2 : cnt i (mkX n X) = cnt n (mkX n X) := by
      refine (Pass.cnt_eq_none (by omega)).2 (fun z h1 h2 => ?_)
      unfold mkX; rw [isX_none (hno z h1 h2)]; simp
    refine ⟨i, m1, m1, _, h1, ?_, h5, h6, fun a v h7 h8 => ?_, fun j h7 h8 => ?_⟩
    · rw [if_neg hlt, hmk2]
    · refine hval a v ?_ h8
      rcases Nat.lt_or_ge a (i + 1) with h9 | h9
      · exact h9
      · rw [hno a (by omega) h7] at h8; cases h8
    · show (if j < i then (((X j).getD 0 : Nat) : Int) else codeX X j) = 0
      rw [if_neg (by omega), codeX_none (hno j (by omega) h8)]

theorem compact_ok {n : Nat} {X : Nat → Option Nat} (hn : cnt n (isX X) < n) {m : Mem} (ha : Arr m 0 n (codeX X)) :
    ∃ m' R, compact n (cnt n (isX X)) m = some m' ∧
      Arr m' 0 n R ∧ SameOut 0 n m m' ∧ (∀ a v, a < n → X a = some v → R (cnt a (isX X)) = v) ∧ (∀ j, cnt n (isX X) ≤ j → j < n → R j = 0) := by
  obtain ⟨i, m1, m', R, h1, h2, h3⟩ := compact2_ok hn ha
  refine ⟨m', R, ?_, h3⟩
  unfold compact
  rw [compactHead_eq n n 0 0 m, h1]
  show (if i < cnt n (isX X) then compactTail (cnt n (isX X)) (n - (i + 1)) (i + 1) i m1 else some m1) = some m'
  by_cases hlt : i < cnt n (isX X)
  · rw [if_pos hlt] at h2 ⊢
    rw [compactTail_eq n _ _ _ _ ((cnt i (mkX n X) : Nat) : Int) m1, h2]; rfl
  · rw [if_neg hlt] at h2 ⊢
    injection h2 with h2
    rw [(Prod.mk.inj h2).2]

end Bpak.Sais
