import Verif.Proof.SaisSeed
/-! The sorted leftmost type S positions go into their buckets (lib/sais.c:709-737). -/
namespace Bpak.Sais

/-- `V 0, V 1, …` are the leftmost type S positions in the order of their suffixes. -/
structure Vok (T : Nat → Nat) (n : Nat) (V : Nat → Nat) : Prop where
  isLms : ∀ j < lmsNum T n, lms T n (V j) = true
  all : ∀ s, lms T n s = true → ∃ j, j < lmsNum T n ∧ V j = s
  sorted : ∀ i j, i < j → j < lmsNum T n → suf T n (V i) < suf T n (V j)

theorem suf_irrefl (T : Nat → Nat) (n i : Nat) : ¬ suf T n i < suf T n i := List.lt_irrefl _

theorem Vok.inj {T : Nat → Nat} {n : Nat} {V : Nat → Nat} (v : Vok T n V) {i j : Nat} (hi : i < lmsNum T n) (hj : j < lmsNum T n) (h : V i = V j) : i = j := by
  rcases Nat.lt_trichotomy i j with h1 | h1 | h1
  · exact absurd (h ▸ v.sorted i j h1 hj) (suf_irrefl _ _ _)
  · exact h1
  · exact absurd (h ▸ v.sorted j i h1 hi) (suf_irrefl _ _ _)

theorem Vok.key {T : Nat → Nat} {n : Nat} {V : Nat → Nat} (v : Vok T n V) {i j : Nat} (h : i ≤ j) (hj : j < lmsNum T n) : T (V i) ≤ T (V j) := by
  rcases Nat.lt_or_ge i j with h1 | h1
  · have h2 := v.sorted i j h1 hj
    have hi := lms_pos (v.isLms i (by omega))
    have hj' := lms_pos (v.isLms j hj)
    rcases (suf_lt (by omega) (by omega)).1 h2 with h3 | h3
    · omega
    · omega
  · rw [show i = j by omega]; exact Nat.le_refl _

theorem Vok.cnt_map {T : Nat → Nat} {n : Nat} {V : Nat → Nat} (v : Vok T n V) {P Q : Nat → Bool} (h : ∀ x, x < lmsNum T n → P x = true → Q (V x) = true) :
    cnt (lmsNum T n) P ≤ cnt n Q := by
  have hE : (((List.range (lmsNum T n)).filter P).map V).Nodup := by
    rw [List.nodup_iff_pairwise_ne, List.pairwise_map]
    refine List.Pairwise.imp_of_mem (R := fun a b => a < b) (fun {a b} h1 h2 h3 e => ?_) (List.Pairwise.sublist List.filter_sublist List.pairwise_lt_range)
    rw [List.mem_filter, List.mem_range] at h1 h2
    have := v.inj h1.1 h2.1 e
    omega
  have h2 := nodup_le_cnt (n := n) (P := Q) hE (fun p hp => by
    rw [List.mem_map] at hp
    obtain ⟨x, hx, e⟩ := hp
    rw [List.mem_filter, List.mem_range] at hx
    have := lms_pos (v.isLms x hx.1)
    exact ⟨by omega, e ▸ h x hx.1 hx.2⟩)
  rw [List.length_map, ← List.countP_eq_length_filter] at h2
  exact h2

/-- How many of the later ones begin with `c`. -/
def laterV (T : Nat → Nat) (n : Nat) (V : Nat → Nat) (i c : Nat) : Nat := cnt (lmsNum T n) (fun x => decide (i < x) && decide (T (V x) = c))

theorem later_step {T : Nat → Nat} {n : Nat} {V : Nat → Nat} {i : Nat} (hi : i + 1 < lmsNum T n) (c : Nat) :
    laterV T n V i c = laterV T n V (i + 1) c + if T (V (i + 1)) = c then 1 else 0 := by
  unfold laterV
  have h1 : ∀ N, i + 1 < N → cnt N (fun x => decide (i < x) && decide (T (V x) = c)) =
      cnt N (fun x => decide (i + 1 < x) && decide (T (V x) = c)) + if T (V (i + 1)) = c then 1 else 0 := by
    intro N
    induction N with
    | zero => intro h; omega
    | succ N ih =>
      intro h
      rw [cnt_succ, cnt_succ]
      by_cases h2 : i + 1 < N
      · rw [ih h2]
        have e1 : decide (i < N) = true := decide_eq_true (by omega)
        have e2 : decide (i + 1 < N) = true := decide_eq_true h2
        rw [e1, e2]; omega
      · have h3 : N = i + 1 := by omega
        subst h3
        rw [cnt_false (i + 1) (fun q => decide (i < q) && _) (fun q hq => by simp; omega),
          cnt_false (i + 1) (fun q => decide (i + 1 < q) && _) (fun q hq => by simp; omega)]
        simp
  exact h1 _ hi

theorem later_zero {T : Nat → Nat} {n : Nat} {V : Nat → Nat} (v : Vok T n V) {i c : Nat} (hc : i + 1 < lmsNum T n → c < T (V (i + 1))) : laterV T n V i c = 0 := by
  unfold laterV
  refine cnt_false _ _ (fun x hx => ?_)
  by_cases h : i < x
  · have h1 := hc (by omega)
    have h2 := v.key (i := i + 1) (j := x) (by omega) hx
    have : ¬ T (V x) = c := by omega
    simp [this]
  · simp [h]

def slotV (L : Lay) (V : Nat → Nat) (i : Nat) : Nat := L.start (L.T (V i) + 1) - 1 - laterV L.T L.n V i (L.T (V i))

theorem slotV_bounds {L : Lay} {V : Nat → Nat} (v : Vok L.T L.n V) {i : Nat} (hi : i < lmsNum L.T L.n) :
    slotV L V i + laterV L.T L.n V i (L.T (V i)) + 1 = L.start (L.T (V i) + 1) ∧ i ≤ slotV L V i ∧ L.start (L.T (V i)) + L.lnum (L.T (V i)) ≤ slotV L V i ∧ slotV L V i < L.n := by
  have h1 : i + 1 + laterV L.T L.n V i (L.T (V i)) ≤ L.start (L.T (V i) + 1) := by
    have h2 : cnt (lmsNum L.T L.n) (fun x => decide (L.T (V x) < L.T (V i) + 1)) = cnt (lmsNum L.T L.n) (fun x => decide (x < i + 1)) + laterV L.T L.n V i (L.T (V i)) := by
      unfold laterV
      refine cnt_disjoint (fun x hx => ?_) (fun x hx h => ?_)
      · by_cases hxi : x < i + 1
        · have := v.key (i := x) (j := i) (by omega) hi
          rw [decide_eq_true (show L.T (V x) < L.T (V i) + 1 by omega), decide_eq_true hxi]; rfl
        · have := v.key (i := i) (j := x) (by omega) hx
          rw [decide_eq_false hxi, decide_eq_true (show i < x by omega)]
          simp; omega
      · simp only [Bool.and_eq_true, decide_eq_true_eq] at h; omega
    have h3 : cnt (lmsNum L.T L.n) (fun x => decide (x < i + 1)) = i + 1 := by
      have : ∀ N, i + 1 ≤ N → cnt N (fun x => decide (x < i + 1)) = i + 1 := by
        intro N
        induction N with
        | zero => intro h; omega
        | succ N ih =>
          intro h
          rw [cnt_succ]
          by_cases h2 : i + 1 ≤ N
          · rw [ih h2, decide_eq_false (by omega)]; rfl
          · have : N = i := by omega
            subst this
            rw [cnt_true N _ (fun j hj => decide_eq_true (by omega)), decide_eq_true (by omega)]; rfl
      exact this _ (by omega)
    have h4 := v.cnt_map (P := fun x => decide (L.T (V x) < L.T (V i) + 1)) (Q := fun p => decide (L.T p < L.T (V i) + 1)) (fun x _ h => h)
    unfold Lay.start; omega
  have h5 : laterV L.T L.n V i (L.T (V i)) + 1 ≤ L.snum (L.T (V i)) := by
    have h6 : cnt (lmsNum L.T L.n) (fun x => decide (i ≤ x) && decide (L.T (V x) = L.T (V i))) = laterV L.T L.n V i (L.T (V i)) + cnt (lmsNum L.T L.n) (fun x => decide (x = i)) := by
      unfold laterV
      refine cnt_disjoint (fun x hx => ?_) (fun x hx h => ?_)
      · by_cases hxi : x = i
        · subst hxi; simp
        · rw [decide_eq_false hxi, Bool.or_false]
          by_cases h2 : i < x
          · rw [decide_eq_true h2, decide_eq_true (show i ≤ x by omega)]
          · rw [decide_eq_false h2, decide_eq_false (show ¬ i ≤ x by omega)]
      · simp only [Bool.and_eq_true, decide_eq_true_eq] at h; omega
    have h7 : 0 < cnt (lmsNum L.T L.n) (fun x => decide (x = i)) := Pass.cnt_pos (x := i) (by simp) hi
    have h8 := v.cnt_map (P := fun x => decide (i ≤ x) && decide (L.T (V x) = L.T (V i))) (Q := fun p => decide (L.T p = L.T (V i)) && sTy L.T L.n p) (fun x hx h => by
      simp only [Bool.and_eq_true, decide_eq_true_eq] at h ⊢
      exact ⟨h.2, (lms_iff.1 (v.isLms x hx)).2.1⟩)
    unfold Lay.snum; omega
  have h9 := L.start_succ (L.T (V i))
  have h10 := L.num_split (L.T (V i))
  have h11 := L.start_le (L.T (V i) + 1)
  unfold slotV
  refine ⟨by omega, by omega, by omega, by omega⟩

theorem slotV_next {L : Lay} {V : Nat → Nat} (v : Vok L.T L.n V) {i : Nat} (hi : i + 1 < lmsNum L.T L.n) :
    (L.T (V i) = L.T (V (i + 1)) → slotV L V i + 1 = slotV L V (i + 1)) ∧
    (L.T (V i) ≠ L.T (V (i + 1)) → slotV L V i + 1 = L.start (L.T (V i) + 1) ∧ L.start (L.T (V i) + 1) ≤ slotV L V (i + 1)) := by
  have h1 := slotV_bounds v (i := i) (by omega)
  have h2 := slotV_bounds v hi
  constructor
  · intro h
    have h3 := later_step (T := L.T) (V := V) hi (L.T (V i))
    rw [if_pos h.symm] at h3
    rw [← h] at h2
    omega
  · intro h
    have hk := v.key (i := i) (j := i + 1) (by omega) hi
    have h3 := later_zero v (i := i) (c := L.T (V i)) (fun _ => by omega)
    have h4 := L.start_mono (a := L.T (V i) + 1) (b := L.T (V (i + 1))) (by omega)
    omega

theorem slotV_lt {L : Lay} {V : Nat → Nat} (v : Vok L.T L.n V) {i j : Nat} (h : i < j) (hj : j < lmsNum L.T L.n) : slotV L V i < slotV L V j := by
  have : ∀ d, i + 1 + d < lmsNum L.T L.n → slotV L V i < slotV L V (i + 1 + d) := by
    intro d
    induction d with
    | zero =>
      intro hd
      have h1 := slotV_next v (i := i) (by omega)
      by_cases hc : L.T (V i) = L.T (V (i + 1))
      · have := h1.1 hc; show slotV L V i < slotV L V (i + 1); omega
      · have := h1.2 hc; show slotV L V i < slotV L V (i + 1); omega
    | succ d ih =>
      intro hd
      have h0 := ih (by omega)
      have h1 := slotV_next v (i := i + 1 + d) (by omega)
      by_cases hc : L.T (V (i + 1 + d)) = L.T (V (i + 1 + d + 1))
      · have := h1.1 hc; show slotV L V i < slotV L V (i + 1 + d + 1); omega
      · have := h1.2 hc; show slotV L V i < slotV L V (i + 1 + d + 1); omega
  have h2 := this (j - (i + 1)) (by omega)
  rwa [show i + 1 + (j - (i + 1)) = j by omega] at h2

/-- The sorted positions at their places. -/
def seedV (L : Lay) (V : Nat → Nat) (a : Nat) : Option Nat := ((List.range (lmsNum L.T L.n)).find? (fun i => decide (slotV L V i = a))).map V

theorem seedV_iff {L : Lay} {V : Nat → Nat} (v : Vok L.T L.n V) {a p : Nat} : seedV L V a = some p ↔ ∃ i, i < lmsNum L.T L.n ∧ slotV L V i = a ∧ V i = p := by
  unfold seedV
  rw [Option.map_eq_some_iff]
  constructor
  · rintro ⟨i, h1, h2⟩
    have h3 := List.find?_some h1
    have h4 := List.mem_of_find?_eq_some h1
    rw [List.mem_range] at h4
    exact ⟨i, h4, of_decide_eq_true h3, h2⟩
  · rintro ⟨i, h1, h2, h3⟩
    cases hf : (List.range (lmsNum L.T L.n)).find? (fun i => decide (slotV L V i = a)) with
    | none =>
      rw [List.find?_eq_none] at hf
      exact absurd (decide_eq_true h2) (hf i (List.mem_range.2 h1))
    | some j =>
      have h4' := List.find?_some hf
      have h4 := of_decide_eq_true h4'
      have h5 := List.mem_range.1 (List.mem_of_find?_eq_some hf)
      have : i = j := by
        rcases Nat.lt_trichotomy i j with h6 | h6 | h6
        · have := slotV_lt v h6 h5; omega
        · exact h6
        · have := slotV_lt v h6 h1; omega
      exact ⟨j, rfl, this ▸ h3⟩

theorem seedV_ok {L : Lay} {V : Nat → Nat} (v : Vok L.T L.n V) : SeedsOk L (seedV L V) ∧ (∀ s, lms L.T L.n s = true → ∃ a, seedV L V a = some s) ∧
    ∀ a b p q, a < b → seedV L V a = some p → seedV L V b = some q → L.T p = L.T q → suf L.T L.n p < suf L.T L.n q := by
  refine ⟨⟨fun a s h => ?_, fun a s h => ?_, fun a b s h1 h2 => ?_⟩, fun s h => ?_, fun a b p q hab h1 h2 _ => ?_⟩
  · obtain ⟨i, h1, h2, h3⟩ := (seedV_iff v).1 h
    rw [← h3]; exact v.isLms i h1
  · obtain ⟨i, h1, h2, h3⟩ := (seedV_iff v).1 h
    have := slotV_bounds v h1
    rw [← h3, ← h2]; exact ⟨by omega, by omega⟩
  · obtain ⟨i, h3, h4, h5⟩ := (seedV_iff v).1 h1
    obtain ⟨j, h6, h7, h8⟩ := (seedV_iff v).1 h2
    have := v.inj h3 h6 (by rw [h5, h8])
    rw [← h4, ← h7, this]
  · obtain ⟨i, h1, h2⟩ := v.all s h
    exact ⟨slotV L V i, (seedV_iff v).2 ⟨i, h1, rfl, h2⟩⟩
  · obtain ⟨i, h3, h4, h5⟩ := (seedV_iff v).1 h1
    obtain ⟨j, h6, h7, h8⟩ := (seedV_iff v).1 h2
    rw [← h5, ← h8]
    refine v.sorted i j ?_ h6
    rcases Nat.lt_trichotomy i j with h9 | h9 | h9
    · exact h9
    · subst h9; omega
    · have := slotV_lt v h9 h3; omega

def rawV (F : Nat → Option Nat) (a : Nat) : Int :=
  match F a with
  | none => 0
  | some s => (s : Int)

theorem zeroDown_ok {L : Lay} (o : L.Ok) {m0 : Mem} {B : Nat → Int} : ∀ (left j : Nat) (m : Mem) (A : Nat → Int), left ≤ j → j ≤ L.n → Holds L m0 m A B →
    ∃ m', zeroDown left j m = some m' ∧ Holds L m0 m' (fun a => if j - left ≤ a ∧ a < j then 0 else A a) B := by
  intro left
  induction left with
  | zero => intro j m A _ _ h; exact ⟨m, rfl, h.ext (fun a _ => by rw [if_neg (by omega)]) (fun _ _ => rfl)⟩
  | succ l ih =>
    intro j m A h1 h2 h
    unfold zeroDown
    obtain ⟨e, h3⟩ := h.wr o (i := j - 1) (by omega) 0
    rw [show ((j : Int) - 1) = ((j - 1 : Nat) : Int) by omega, e, Option.bind_eq_bind, Option.bind_some]
    obtain ⟨m', h4, h5⟩ := ih (j - 1) _ _ (by omega) (by omega) h3
    refine ⟨m', h4, h5.ext (fun a _ => ?_) (fun _ _ => rfl)⟩
    by_cases ha : a = j - 1
    · subst ha; rw [if_neg (by omega), upd_eq, if_pos (by omega)]
    · by_cases hb : j - 1 - l ≤ a ∧ a < j - 1
      · rw [if_pos hb, if_pos (by omega)]
      · rw [if_neg hb, upd_ne _ _ ha, if_neg (by omega)]

/-- What the array holds when the first `i` are still to be moved and everything from `j` on is done. -/
structure SpreadInv (L : Lay) (V : Nat → Nat) (i j : Nat) (A : Nat → Int) : Prop where
  todo : ∀ x < i, A x = (V x : Int)
  done : ∀ a, j ≤ a → a < L.n → A a = rawV (seedV L V) a

theorem rawV_none {F : Nat → Option Nat} {a : Nat} (h : F a = none) : rawV F a = 0 := by unfold rawV; rw [h]
theorem rawV_some {F : Nat → Option Nat} {a s : Nat} (h : F a = some s) : rawV F a = s := by unfold rawV; rw [h]

theorem seedV_gap {L : Lay} {V : Nat → Nat} (v : Vok L.T L.n V) {i a : Nat} (hi : i < lmsNum L.T L.n) (h1 : slotV L V i < a)
    (h2 : i + 1 < lmsNum L.T L.n → a < slotV L V (i + 1)) : seedV L V a = none := by
  cases h : seedV L V a with
  | none => rfl
  | some p =>
    obtain ⟨x, h3, h4, _⟩ := (seedV_iff v).1 h
    exfalso
    rcases Nat.lt_or_ge i x with h5 | h5
    · have h6 := h2 (by omega)
      rcases Nat.lt_or_ge (i + 1) x with h7 | h7
      · have := slotV_lt v h7 h3; omega
      · rw [show x = i + 1 by omega] at h4; omega
    · rcases Nat.lt_or_ge x i with h7 | h7
      · have := slotV_lt v h7 hi; omega
      · rw [show x = i by omega] at h4; omega

theorem spread_ok {L : Lay} (o : L.Ok) {V : Nat → Nat} (v : Vok L.T L.n V) {m0 : Mem} :
    ∀ (i : Nat) (c0 : Option Int) (j : Nat) (m : Mem) (A : Nat → Int), i ≤ lmsNum L.T L.n → Holds L m0 m A (fun c => (L.start (c + 1) : Nat)) → SpreadInv L V i j A →
      (i = lmsNum L.T L.n → c0 = none ∧ j = L.n) → (i < lmsNum L.T L.n → c0 = some (L.T (V i) : Int) ∧ j = slotV L V i) →
      ∃ j' m' A', spread L.t L.b i c0 j m = some (j', m') ∧ Holds L m0 m' A' (fun c => (L.start (c + 1) : Nat)) ∧ SpreadInv L V 0 j' A' ∧ j' ≤ L.n ∧
        (0 < lmsNum L.T L.n → j' = slotV L V 0) := by
  intro i
  induction i with
  | zero =>
    intro c0 j m A hi hm hA h0 h1
    refine ⟨j, m, A, rfl, hm, hA, ?_, fun h => (h1 h).2⟩
    rcases Nat.lt_or_ge 0 (lmsNum L.T L.n) with h | h
    · rw [(h1 h).2]; have := slotV_bounds v h; omega
    · rw [(h0 (by omega)).2]; exact Nat.le_refl _
  | succ i ih =>
    intro c0 j m A hi hm hA h0 h1
    have hlm := v.isLms i (by omega)
    have hp := lms_pos hlm
    have hle := lmsNum_le L.T L.n
    have hk := o.key (V i) (by omega)
    have hb := slotV_bounds v (i := i) (by omega)
    have hrd : rd m (i : Int) = some (V i : Int) := by rw [hm.rd (by omega), hA.todo i (by omega)]
    have hch : chr L.t m (V i : Int) = some (L.T (V i) : Int) := hm.chr (by omega)
    -- the next bucket
    have hnb : ∃ m1 A1, nextBucket L.b c0 (L.T (V i) : Int) j m = some (slotV L V i + 1, m1) ∧ Holds L m0 m1 A1 (fun c => (L.start (c + 1) : Nat)) ∧ SpreadInv L V (i + 1) (slotV L V i + 1) A1 := by
      unfold nextBucket
      have hzero : c0 ≠ some (L.T (V i) : Int) → slotV L V i + 1 = L.start (L.T (V i) + 1) → L.start (L.T (V i) + 1) ≤ j → j ≤ L.n →
          (i + 1 < lmsNum L.T L.n → j ≤ slotV L V (i + 1)) →
          ∃ m1 A1, (if c0 = some (L.T (V i) : Int) then some (j, m) else do
            let q ← rd m (L.b + (L.T (V i) : Int))
            (zeroDown (j - q.toNat) j m).map (fun m => (min j q.toNat, m))) = some (slotV L V i + 1, m1) ∧
            Holds L m0 m1 A1 (fun c => (L.start (c + 1) : Nat)) ∧ SpreadInv L V (i + 1) (slotV L V i + 1) A1 := by
        intro hne hs hj hjn hgap
        have hq : rd m (L.b + (L.T (V i) : Int)) = some ((L.start (L.T (V i) + 1) : Nat) : Int) := hm.rdB hk
        rw [if_neg hne, hq, Option.bind_eq_bind, Option.bind_some, Int.toNat_natCast]
        obtain ⟨m1, h2, h3⟩ := zeroDown_ok o (j - L.start (L.T (V i) + 1)) j m A (by omega) hjn hm
        rw [h2, Option.map_some]
        refine ⟨m1, _, by rw [Nat.min_eq_right hj, hs], h3, ⟨fun x hx => ?_, fun a h4 h5 => ?_⟩⟩
        · rw [if_neg (by omega)]; exact hA.todo x hx
        · by_cases ha : a < j
          · rw [if_pos (by omega), rawV_none (seedV_gap v (i := i) (by omega) (by omega) (fun h => by have := hgap h; omega))]
          · rw [if_neg (by omega)]; exact hA.done a (by omega) h5
      rcases Nat.lt_or_ge (i + 1) (lmsNum L.T L.n) with h | h
      · obtain ⟨h2, h3⟩ := h1 h
        have hnx := slotV_next v h
        have hb1 := slotV_bounds v h
        by_cases hc : L.T (V i) = L.T (V (i + 1))
        · have h4 := hnx.1 hc
          rw [h2, hc, if_pos rfl, h3, ← h4]
          exact ⟨m, A, rfl, hm, ⟨hA.todo, fun a h5 h6 => hA.done a (by omega) h6⟩⟩
        · have h4 := hnx.2 hc
          refine hzero ?_ h4.1 (by omega) (by omega) (fun _ => by omega)
          rw [h2]; intro e; injection e with e; omega
      · obtain ⟨h2, h3⟩ := h0 (by omega)
        have h4 := later_zero v (i := i) (c := L.T (V i)) (fun h => by omega)
        have h5 := L.start_le (L.T (V i) + 1)
        exact hzero (by rw [h2]; intro e; cases e) (by omega) (by omega) (by omega) (fun h => by omega)
    obtain ⟨m1, A1, h2, h3, h4⟩ := hnb
    obtain ⟨e, h5⟩ := h3.wr o (i := slotV L V i) hb.2.2.2 (V i : Int)
    have ew : wr m1 (((slotV L V i + 1 : Nat) : Int) - 1) (V i : Int) = some (setM m1 (slotV L V i : Int) (V i : Int)) := by
      rw [← e]; congr 1; omega
    unfold spread
    simp only [hrd, hch, h2, ew, Option.bind_eq_bind, Option.bind_some]
    rw [show slotV L V i + 1 - 1 = slotV L V i by omega]
    refine ih (some (L.T (V i) : Int)) (slotV L V i) _ _ (by omega) h5 ⟨fun x hx => ?_, fun a h6 h7 => ?_⟩ (fun h => by omega) (fun _ => ⟨rfl, rfl⟩)
    · rw [upd_ne _ _ (by omega)]; exact h4.todo x (by omega)
    · by_cases ha : a = slotV L V i
      · subst ha
        rw [upd_eq, rawV_some ((seedV_iff v).2 ⟨i, by omega, rfl, rfl⟩)]
      · rw [upd_ne _ _ ha]; exact h4.done a (by omega) h7

theorem putSorted_ok {L : Lay} (o : L.Ok) {V : Nat → Nat} (v : Vok L.T L.n V) (hmm : 1 < lmsNum L.T L.n) {m : Mem} {A f g : Nat → Int} (ha : Arr m 0 L.n A)
    (hA : ∀ x < lmsNum L.T L.n, A x = (V x : Int)) (hc : Arr m L.c L.k f) (hf : ∀ x < L.k, f x = (L.num x : Nat)) (hb : Arr m L.b L.k g) (ht : HasTxt L.t m L.n L.T) :
    ∃ m' B, putSorted L.t L.c L.b L.n L.k (lmsNum L.T L.n) m = some m' ∧ Holds L m m' (rawV (seedV L V)) B := by
  have hbn := o.hb
  have hcn := o.hc
  obtain ⟨m1, h1, h2, h3⟩ := getBuckets_ok (S := fun x => (L.start x : Nat)) true hc hb o.hcb (by show ((L.start 0 : Nat) : Int) = 0; rw [L.start_zero]; rfl)
    (fun i hi => by show ((L.start (i + 1) : Nat) : Int) = _; rw [L.start_succ, hf i hi]; push_cast; rfl)
  have hh : Holds L m m1 A (fun c => (L.start (c + 1) : Nat)) :=
    ⟨ha.congr (fun a h4 h5 => h3 a (by omega)), h2.ext (fun j _ => by rw [if_pos rfl]), ht.congr (fun a h => by have := o.txt a h; exact h3 a (by omega)), fun a _ h5 => h3 a h5⟩
  obtain ⟨j, m2, A2, h4, h5, h6, h7, h8⟩ := spread_ok o v (lmsNum L.T L.n) none L.n m1 A (Nat.le_refl _) hh ⟨hA, fun a h _ => by omega⟩ (fun _ => ⟨rfl, rfl⟩) (fun h => by omega)
  obtain ⟨m3, h9, h10⟩ := zeroDown_ok o j j m2 A2 (Nat.le_refl _) h7 h5
  refine ⟨m3, _, ?_, h10.ext (fun a ha => ?_) (fun _ _ => rfl)⟩
  · unfold putSorted
    rw [if_pos hmm]
    simp only [h1, h4, Option.bind_eq_bind, Option.bind_some]
    exact h9
  · by_cases haj : a < j
    · rw [if_pos (by omega)]
      refine (rawV_none ?_).symm
      cases h : seedV L V a with
      | none => rfl
      | some p =>
        obtain ⟨x, h11, h12, _⟩ := (seedV_iff v).1 h
        have := h8 (by omega)
        rcases Nat.lt_or_ge 0 x with h13 | h13
        · have := slotV_lt v h13 h11; omega
        · rw [show x = 0 by omega] at h12; omega
    · rw [if_neg (by omega)]; exact h6.done a (by omega) ha

end Bpak.Sais
