import Verif.Proof.SaisInduce
import Verif.Proof.SaisMark
/-! The stretches of text from one leftmost position to the next, and the order in which the first stage puts them. -/
namespace Bpak.Sais

/-- A character and its type. -/
def wt (T : Nat → Nat) (n i : Nat) : Nat := 2 * T i + if sTy T n i then 1 else 0

def valLD (T : Nat → Nat) (n : Nat) : Nat → List Nat
  | 0 => []
  | d + 1 => if sTy T n (n - (d + 1)) then [wt T n (n - (d + 1))] else wt T n (n - (d + 1)) :: valLD T n d

/-- The characters from `i` to the first one of type S. -/
def valL (T : Nat → Nat) (n i : Nat) : List Nat := valLD T n (n - i)

def valSD (T : Nat → Nat) (n : Nat) : Nat → List Nat
  | 0 => []
  | d + 1 => if sTy T n (n - (d + 1)) then wt T n (n - (d + 1)) :: valSD T n d else valL T n (n - (d + 1))

/-- The characters from `i` to the next leftmost position of an ascending run behind it. -/
def valS (T : Nat → Nat) (n i : Nat) : List Nat := valSD T n (n - i)

theorem valL_S {T : Nat → Nat} {n i : Nat} (hi : i < n) (h : sTy T n i = true) : valL T n i = [wt T n i] := by
  unfold valL
  obtain ⟨d, hd⟩ : ∃ d, n - i = d + 1 := ⟨n - i - 1, by omega⟩
  rw [hd, valLD, show n - (d + 1) = i by omega, h]
  rfl

theorem valL_L {T : Nat → Nat} {n i : Nat} (hi : i < n) (h : sTy T n i = false) : valL T n i = wt T n i :: valL T n (i + 1) := by
  unfold valL
  obtain ⟨d, hd⟩ : ∃ d, n - i = d + 1 := ⟨n - i - 1, by omega⟩
  rw [hd, valLD, show n - (d + 1) = i by omega, h, show n - (i + 1) = d by omega]
  rfl

theorem valS_S {T : Nat → Nat} {n i : Nat} (hi : i < n) (h : sTy T n i = true) : valS T n i = wt T n i :: valS T n (i + 1) := by
  unfold valS
  obtain ⟨d, hd⟩ : ∃ d, n - i = d + 1 := ⟨n - i - 1, by omega⟩
  rw [hd, valSD, show n - (d + 1) = i by omega, h, show n - (i + 1) = d by omega]
  rfl

theorem valS_L {T : Nat → Nat} {n i : Nat} (h : sTy T n i = false) : valS T n i = valL T n i := by
  unfold valS
  rcases Nat.lt_or_ge i n with hi | hi
  · obtain ⟨d, hd⟩ : ∃ d, n - i = d + 1 := ⟨n - i - 1, by omega⟩
    rw [hd, valSD, show n - (d + 1) = i by omega, h]
    rfl
  · unfold valL
    rw [show n - i = 0 by omega]
    rfl

theorem valL_head {T : Nat → Nat} {n i : Nat} (hi : i < n) : ∃ l, valL T n i = wt T n i :: l := by
  cases h : sTy T n i with
  | true => exact ⟨_, valL_S hi h⟩
  | false => exact ⟨_, valL_L hi h⟩

theorem valS_head {T : Nat → Nat} {n i : Nat} (hi : i < n) : ∃ l, valS T n i = wt T n i :: l := by
  cases h : sTy T n i with
  | true => exact ⟨_, valS_S hi h⟩
  | false => rw [valS_L h]; exact ⟨_, valL_L hi h⟩

theorem wt_inj {T : Nat → Nat} {n i j : Nat} (h : wt T n i = wt T n j) : T i = T j ∧ sTy T n i = sTy T n j := by
  unfold wt at h
  cases h1 : sTy T n i <;> cases h2 : sTy T n j <;> rw [h1, h2] at h <;> simp at h ⊢ <;> omega

theorem wt_key {T : Nat → Nat} {n i j : Nat} (h : T i < T j) : wt T n i < wt T n j := by
  unfold wt
  split <;> split <;> omega

theorem wt_same {T : Nat → Nat} {n i j : Nat} (h : T i = T j) (h' : sTy T n i = sTy T n j) : wt T n i = wt T n j := by
  unfold wt
  rw [h, h']

theorem wt_type {T : Nat → Nat} {n i j : Nat} (h : T i = T j) (h1 : sTy T n i = false) (h2 : sTy T n j = true) : wt T n i < wt T n j := by
  unfold wt
  rw [h, h1, h2]
  simp

/-- Not greater. -/
def LeL (a b : List Nat) : Prop := a < b ∨ a = b

theorem LeL.head {x y : Nat} {a b : List Nat} (h : x < y) : LeL (x :: a) (y :: b) := Or.inl (List.cons_lt_cons_iff.2 (Or.inl h))

theorem LeL.tail {x : Nat} {a b : List Nat} (h : LeL a b) : LeL (x :: a) (x :: b) := by
  rcases h with h | h
  · exact Or.inl (List.cons_lt_cons_iff.2 (Or.inr ⟨rfl, h⟩))
  · exact Or.inr (by rw [h])

theorem LeL.mid {a b c : List Nat} (h1 : LeL a b) (h2 : LeL b c) (h : a = c) : b = c := by
  subst h
  rcases h2 with h2 | h2
  · rcases h1 with h1 | h1
    · exact absurd (List.lt_trans h1 h2) (List.lt_irrefl _)
    · rw [h1]
  · exact h2

/-- The order of the stretches fits the first pass. -/
theorem ordLmsL {L : Lay} (o : L.Ok) {F0 : Nat → Option Nat} (hs : SeedsOk L F0) :
    (passL L F0).Ord (fun p q => LeL (valL L.T L.n p) (valL L.T L.n q)) := by
  have hn := o.npos
  refine ⟨?_, ?_, ?_, ?_, ?_, ?_⟩
  · intro p q hp hq h
    obtain ⟨a, ea⟩ := valL_head (T := L.T) hp
    obtain ⟨b, eb⟩ := valL_head (T := L.T) hq
    show LeL (valL L.T (passL L F0).n p) (valL L.T (passL L F0).n q)
    rw [ea, eb]
    exact LeL.head (wt_key h)
  · intro p q hp hq he hz hz'
    have hz : (!sTy L.T L.n p) = true := hz
    have hz' : (!sTy L.T L.n q) = false := hz'
    have hp : p < L.n := hp
    have hq : q < L.n := hq
    have he : L.T p = L.T q := he
    obtain ⟨a, ea⟩ := valL_head (T := L.T) hp
    obtain ⟨b, eb⟩ := valL_head (T := L.T) hq
    rw [ea, eb]
    exact LeL.head (wt_type he (by simpa using hz) (by simpa using hz'))
  · intro s s' p q h1 h2 hp hq hz hz' he hr
    have h1 := passL_pred.1 h1
    have h2 := passL_pred.1 h2
    have hz : (!sTy L.T L.n p) = true := hz
    have hz' : (!sTy L.T L.n q) = true := hz'
    have z1 : sTy L.T L.n p = false := by simpa using hz
    have z2 : sTy L.T L.n q = false := by simpa using hz'
    have hp : p < L.n := hp
    have hq : q < L.n := hq
    have he : L.T p = L.T q := he
    rw [valL_L hp z1, valL_L hq z2, show p + 1 = s by omega, show q + 1 = s' by omega, wt_same he (z1.trans z2.symm)]
    exact LeL.tail hr
  · intro p q hp hq hz he _
    have hq : q < L.n := hq
    have hz : (!sTy L.T L.n q) = true := hz
    have hpn : p = L.n - 1 := by simpa [passL] using hp
    have z2 : sTy L.T L.n q = false := by simpa using hz
    have z1 : sTy L.T L.n p = false := sTy_last _ _ _ (by omega)
    have he : L.T p = L.T q := he
    rw [valL_L (by omega) z1, valL_L hq z2, wt_same he (z1.trans z2.symm)]
    apply LeL.tail
    have : valL L.T L.n (p + 1) = [] := by
      unfold valL
      rw [show L.n - (p + 1) = 0 by omega]
      rfl
    rw [this]
    cases valL L.T L.n (q + 1) with
    | nil => exact Or.inr rfl
    | cons x l => exact Or.inl (List.nil_lt_cons _ _)
  · simp [passL]
  · intro a b p q _ h1 h2 he
    have p1 := hs.lms a p h1
    have p2 := hs.lms b q h2
    have he : L.T p = L.T q := he
    rw [valL_S (by have := lms_pos p1; omega) (lms_iff.1 p1).2.1, valL_S (by have := lms_pos p2; omega) (lms_iff.1 p2).2.1,
      wt_same he ((lms_iff.1 p1).2.1.trans (lms_iff.1 p2).2.1.symm)]
    exact Or.inr rfl

theorem valsL {L : Lay} (o : L.Ok) {F0 : Nat → Option Nat} (hs : SeedsOk L F0) : (passL L F0).Vals (valL L.T L.n) := by
  have hn := o.npos
  have ok := passL_ok o hs
  have srt := Pass.sorted ok (ordLmsL o hs) L.n
  refine ⟨?_, ?_, ?_, ?_⟩
  · intro s s' h1 h2 h
    obtain ⟨a, ea⟩ := valL_head (T := L.T) (n := L.n) h1
    obtain ⟨b, eb⟩ := valL_head (T := L.T) (n := L.n) h2
    rw [ea, eb] at h
    have := wt_inj (List.cons.inj h).1
    exact ⟨this.1, by show (!sTy L.T L.n s) = (!sTy L.T L.n s'); rw [this.2]⟩
  · intro s s' p p' h1 h2 he hz hz'
    have h1 := passL_pred.1 h1
    have h2 := passL_pred.1 h2
    have hz : (!sTy L.T L.n p) = true := hz
    have hz' : (!sTy L.T L.n p') = true := hz'
    have z1 : sTy L.T L.n p = false := by simpa using hz
    have z2 : sTy L.T L.n p' = false := by simpa using hz'
    have he : L.T p = L.T p' := he
    rw [valL_L (by omega) z1, valL_L (by omega) z2, show p + 1 = s by omega, show p' + 1 = s' by omega, wt_same he (z1.trans z2.symm)]
    exact ⟨fun h => (List.cons.inj h).2, fun h => by rw [h]⟩
  · intro p s q hp hq h
    have hq := passL_pred.1 hq
    have hpn : p = L.n - 1 := by simpa [passL] using hp
    rw [valL_L (i := q) (by omega) (by rw [hq.2.2.2]; exact hq.2.2.1), valL_L (i := p) (by omega) (sTy_last _ _ _ (by omega))] at h
    have h2 := (List.cons.inj h).2
    obtain ⟨l, el⟩ := valL_head (T := L.T) (n := L.n) (i := q + 1) (by omega)
    have : valL L.T L.n (p + 1) = [] := by
      unfold valL
      rw [show L.n - (p + 1) = 0 by omega]
      rfl
    rw [el, this] at h2
    cases h2
  · intro a b c x y z hab hbc ea eb ec h
    exact LeL.mid (srt b a x y hab ea eb) (srt c b y z hbc eb ec) h

/-- The order of the stretches fits the second pass. -/
theorem ordLmsS {L : Lay} (o : L.Ok) {F0 : Nat → Option Nat} (hs : SeedsOk L F0) :
    (passS L (midF L F0)).Ord (fun p q => LeL (valS L.T L.n q) (valS L.T L.n p)) := by
  have ok := passL_ok o hs
  have srt := Pass.sorted ok (ordLmsL o hs) L.n
  have hkey : ∀ p q, p < L.n → q < L.n → (passS L (midF L F0)).key p = (passS L (midF L F0)).key q → L.T p = L.T q := by
    intro p q hp hq h
    have h : L.k - 1 - L.T p = L.k - 1 - L.T q := h
    have := o.key p hp
    have := o.key q hq
    omega
  refine ⟨?_, ?_, ?_, ?_, ?_, ?_⟩
  · intro p q hp hq h
    have h : L.k - 1 - L.T p < L.k - 1 - L.T q := h
    have hp : p < L.n := hp
    have hq : q < L.n := hq
    obtain ⟨a, ea⟩ := valS_head (T := L.T) hp
    obtain ⟨b, eb⟩ := valS_head (T := L.T) hq
    rw [ea, eb]
    exact LeL.head (wt_key (by omega))
  · intro p q hp hq he hz hz'
    have hp : p < L.n := hp
    have hq : q < L.n := hq
    obtain ⟨a, ea⟩ := valS_head (T := L.T) hp
    obtain ⟨b, eb⟩ := valS_head (T := L.T) hq
    rw [ea, eb]
    exact LeL.head (wt_type (hkey p q hp hq he).symm hz' hz)
  · intro s s' p q h1 h2 hp hq hz hz' he hr
    have h1 := passS_pred.1 h1
    have h2 := passS_pred.1 h2
    have hp : p < L.n := hp
    have hq : q < L.n := hq
    have hz : sTy L.T L.n p = true := hz
    have hz' : sTy L.T L.n q = true := hz'
    rw [valS_S hp hz, valS_S hq hz', show p + 1 = s by omega, show q + 1 = s' by omega, wt_same (hkey p q hp hq he) (hz.trans hz'.symm)]
    exact LeL.tail hr
  · intro p q hp; cases hp
  · simp [passS]
  · intro a b p q hab h1 h2 _
    have h1 := midF_iff.1 h1
    have h2 := midF_iff.1 h2
    rw [valS_L h1.2.2, valS_L h2.2.2]
    exact srt _ _ q p (by omega) h2.2.1 h1.2.1

theorem valsS {L : Lay} (o : L.Ok) {F0 : Nat → Option Nat} (hs : SeedsOk L F0) : (passS L (midF L F0)).Vals (valS L.T L.n) := by
  have ok := passS_ok o (midF_seeds o hs)
  have srt := Pass.sorted ok (ordLmsS o hs) L.n
  refine ⟨?_, ?_, ?_, ?_⟩
  · intro s s' h1 h2 h
    obtain ⟨a, ea⟩ := valS_head (T := L.T) (n := L.n) h1
    obtain ⟨b, eb⟩ := valS_head (T := L.T) (n := L.n) h2
    rw [ea, eb] at h
    have := wt_inj (List.cons.inj h).1
    exact ⟨by show L.k - 1 - L.T s = L.k - 1 - L.T s'; rw [this.1], this.2⟩
  · intro s s' p p' h1 h2 he hz hz'
    have h1 := passS_pred.1 h1
    have h2 := passS_pred.1 h2
    have he : L.k - 1 - L.T p = L.k - 1 - L.T p' := he
    have k1 := o.key p (by omega)
    have k2 := o.key p' (by omega)
    have hz : sTy L.T L.n p = true := hz
    have hz' : sTy L.T L.n p' = true := hz'
    rw [valS_S (by omega) hz, valS_S (by omega) hz', show p + 1 = s by omega, show p' + 1 = s' by omega, wt_same (by omega) (hz.trans hz'.symm)]
    exact ⟨fun h => (List.cons.inj h).2, fun h => by rw [h]⟩
  · intro p s q hp; cases hp
  · intro a b c x y z hab hbc ea eb ec h
    exact (LeL.mid (srt c b y z hbc eb ec) (srt b a x y hab ea eb) h.symm).trans h

/-! ### The entries -/

/-- The seeds of the first stage: all leftmost positions but the first one. -/
structure LmsSeeds (L : Lay) (F0 : Nat → Option Nat) (lo : Nat) : Prop where
  ok : SeedsOk L F0
  low : lms L.T L.n lo = true
  gt : ∀ a s, F0 a = some s → lo < s
  all : ∀ s, lo < s → lms L.T L.n s = true → ∃ a, F0 a = some s

theorem LmsSeeds.entry {L : Lay} {F0 : Nat → Option Nat} {lo : Nat} (h : LmsSeeds L F0 lo) {i a s : Nat} (e : ((passL L F0).run i).F a = some s) : lo < s := by
  induction i generalizing a s with
  | zero =>
    rw [passL_zero] at e
    split at e
    · cases e
      have := lms_pos h.low
      omega
    · exact h.gt a s e
  | succ i ih =>
    have e : ((passL L F0).step i ((passL L F0).run i)).F a = some s := e
    unfold Pass.step at e
    cases e' : (((passL L F0).run i).F i).bind (passL L F0).pred with
    | none => rw [e'] at e; exact ih e
    | some p =>
      rw [e'] at e
      obtain ⟨q, hq, hp⟩ := Option.bind_eq_some_iff.1 e'
      have e : (if a = _ then some p else ((passL L F0).run i).F a) = some s := e
      split at e
      · have hps : p = s := Option.some.inj e
        have h1 := ih hq
        have h2 := passL_pred.1 hp
        have h3 : lo ≠ p := by
          intro h4
          have := (lms_iff.1 h.low).2.1
          rw [h4, h2.2.2.2, h2.2.2.1] at this
          cases this
        omega
      · exact ih e

theorem LmsSeeds.entryS {L : Lay} {F0 : Nat → Option Nat} {lo : Nat} (h : LmsSeeds L F0 lo) {i a s : Nat} (e : ((passS L (midF L F0)).run i).F a = some s) : lo ≤ s := by
  induction i generalizing a s with
  | zero =>
    have := (midF_iff.1 (show midF L F0 a = some s from e)).2.1
    have := h.entry this
    omega
  | succ i ih =>
    have e : ((passS L (midF L F0)).step i ((passS L (midF L F0)).run i)).F a = some s := e
    unfold Pass.step at e
    cases e' : (((passS L (midF L F0)).run i).F i).bind (passS L (midF L F0)).pred with
    | none => rw [e'] at e; exact ih e
    | some p =>
      rw [e'] at e
      obtain ⟨q, hq, hp⟩ := Option.bind_eq_some_iff.1 e'
      have e : (if a = _ then some p else ((passS L (midF L F0)).run i).F a) = some s := e
      split at e
      · have hps : p = s := Option.some.inj e
        have h1 := ih hq
        have h2 := passS_pred.1 hp
        have h3 : lo ≠ q := by
          intro h4
          have := (lms_iff.1 h.low).2.2
          rw [h4, h2.2.2.1] at this
          cases this
        omega
      · exact ih e

/-- All the leftmost positions are in the array at the end. -/
theorem LmsSeeds.allS {L : Lay} (o : L.Ok) {F0 : Nat → Option Nat} {lo : Nat} (h : LmsSeeds L F0 lo) :
    ∀ p < L.n, lo ≤ p → ∃ a, a < L.n ∧ ((passS L (midF L F0)).run L.n).F a = some p := by
  have sS := midF_seeds o h.ok
  have ok := passS_ok o sS
  have sh := (Pass.run_inv ok L.n).shape
  have : ∀ d p, p < L.n → L.n - p = d → lo ≤ p → ∃ a, a < L.n ∧ ((passS L (midF L F0)).run L.n).F a = some p := by
    intro d
    induction d using Nat.strongRecOn with
    | _ d ih =>
      intro p hp hd hlo
      cases hty : sTy L.T L.n p with
      | false =>
        obtain ⟨a, h2, h3⟩ := passL_all o h.ok lo h.all p hp hlo hty
        have e : midF L F0 (L.n - 1 - a) = some p := midF_iff.2 ⟨by omega, by rw [show L.n - 1 - (L.n - 1 - a) = a by omega]; exact h3, hty⟩
        exact ⟨L.n - 1 - a, by omega, sh.seed ok e⟩
      | true =>
        have hn := (sTy_next hty).1
        obtain ⟨a, h1, h2⟩ := ih (L.n - (p + 1)) (by omega) (p + 1) hn rfl (by omega)
        have := Pass.final_closed ok (a := a) (q := p + 1) (p := p) h1 h2 (passS_pred.2 ⟨by omega, hn, by rw [Nat.add_sub_cancel]; exact hty, by omega⟩)
        exact sh.slot this
  exact fun p hp hlo => this _ p hp rfl hlo

/-- Does the entry lead to another one? -/
theorem hotL {L : Lay} (o : L.Ok) {F0 : Nat → Option Nat} {lo : Nat} (h : LmsSeeds L F0 lo) {i a s : Nat} (e : ((passL L F0).run i).F a = some s) :
    (passL L F0).hot s = decide (L.T s ≤ L.T (s - 1)) ∧ ((passL L F0).hot s = true → (passL L F0).pred s = some (s - 1)) := by
  obtain ⟨h1, h2⟩ := entry_ty o h.ok e
  have h3 := h.entry e
  have hb := ty_before (by omega) h1 h2
  unfold Pass.hot
  cases hp : (passL L F0).pred s with
  | none =>
    refine ⟨?_, fun h => by cases h⟩
    rw [eq_comm]
    apply decide_eq_false
    intro hc
    have := (passL_pred (L := L) (F0 := F0) (s := s)).2 ⟨by omega, h1, hb.2 hc, rfl⟩
    rw [hp] at this
    cases this
  | some p =>
    have := passL_pred.1 hp
    refine ⟨?_, fun _ => by rw [this.2.2.2]⟩
    rw [eq_comm]
    apply decide_eq_true
    exact hb.1 this.2.2.1

theorem hotS {L : Lay} (o : L.Ok) {F0 : Nat → Option Nat} {lo : Nat} (h : LmsSeeds L F0 lo) {i a s : Nat} (e : ((passS L (midF L F0)).run i).F a = some s) :
    (passS L (midF L F0)).hot s = sTy L.T L.n (s - 1) ∧ ((passS L (midF L F0)).hot s = true → (passS L (midF L F0)).pred s = some (s - 1)) ∧ 0 < s ∧ s < L.n := by
  have ok := passS_ok o (midF_seeds o h.ok)
  have h1 : s < L.n := ((Pass.run_inv ok i).shape.bucket ok e).1
  have h3 := h.entryS e
  have h4 := lms_pos h.low
  unfold Pass.hot
  cases hp : (passS L (midF L F0)).pred s with
  | none =>
    refine ⟨?_, (fun h => by cases h), by omega, h1⟩
    cases hc : sTy L.T L.n (s - 1) with
    | false => rfl
    | true =>
      have := (passS_pred (L := L) (F1 := midF L F0) (s := s)).2 ⟨by omega, h1, hc, rfl⟩
      rw [hp] at this
      cases this
  | some p =>
    have := passS_pred.1 hp
    refine ⟨?_, fun _ => by rw [this.2.2.2], by omega, h1⟩
    rw [this.2.2.1]
    rfl

/-- The array during the first pass; `mu` is what is added to marked entries. -/
def viewA (L : Lay) (F : Nat → Option Nat) (mu : Nat → Int) (i a : Nat) : Int :=
  match F a with
  | none => 0
  | some s =>
    if L.T s ≤ L.T (s - 1) then (if a < i then 0 else (s : Int) - 1 + mu a)
    else (if a < i then (s : Int) - 1 + mu a else -((s : Int) - 1 + mu a) - 1)

/-- The array during the second pass, slots counted from the end. -/
def viewB (L : Lay) (F : Nat → Option Nat) (mu : Nat → Int) (t a : Nat) : Int :=
  match F a with
  | none => 0
  | some s =>
    if sTy L.T L.n (s - 1) = true then (if a < t then 0 else (s : Int) - 1 + mu a)
    else if lms L.T L.n s = true then -((s : Int) + mu a) - 1 else 0

theorem viewA_some {L : Lay} {F : Nat → Option Nat} {mu : Nat → Int} {i a s : Nat} (e : F a = some s) :
    viewA L F mu i a = if L.T s ≤ L.T (s - 1) then (if a < i then 0 else (s : Int) - 1 + mu a)
    else (if a < i then (s : Int) - 1 + mu a else -((s : Int) - 1 + mu a) - 1) := by
  unfold viewA
  rw [e]

theorem viewA_none {L : Lay} {F : Nat → Option Nat} {mu : Nat → Int} {i a : Nat} (e : F a = none) : viewA L F mu i a = 0 := by
  unfold viewA
  rw [e]

theorem viewB_some {L : Lay} {F : Nat → Option Nat} {mu : Nat → Int} {i a s : Nat} (e : F a = some s) :
    viewB L F mu i a = if sTy L.T L.n (s - 1) = true then (if a < i then 0 else (s : Int) - 1 + mu a)
    else if lms L.T L.n s = true then -((s : Int) + mu a) - 1 else 0 := by
  unfold viewB
  rw [e]

theorem viewB_none {L : Lay} {F : Nat → Option Nat} {mu : Nat → Int} {i a : Nat} (e : F a = none) : viewB L F mu i a = 0 := by
  unfold viewB
  rw [e]

/-- One more slot looked at, another one filled. -/
theorem viewA_hot {L : Lay} {F0 : Nat → Option Nat} {mu : Nat → Int} {i q : Nat} (ef : ((passL L F0).run i).F i = some q)
    (hq : (passL L F0).pred q = some (q - 1)) (hT : L.T q ≤ L.T (q - 1)) (hg : i < ((passL L F0).run i).G (L.T (q - 1))) (a : Nat) :
    upd (upd (viewA L ((passL L F0).run i).F mu i) (((passL L F0).run i).G (L.T (q - 1)))
      (if L.T (q - 1 - 1) < L.T (q - 1) then -(((q - 1 : Nat) : Int) - 1 + mu (((passL L F0).run i).G (L.T (q - 1)))) - 1
        else ((q - 1 : Nat) : Int) - 1 + mu (((passL L F0).run i).G (L.T (q - 1))))) i 0 a
      = viewA L ((passL L F0).run (i + 1)).F mu (i + 1) a := by
  have hF : ((passL L F0).run (i + 1)).F a = if a = ((passL L F0).run i).G (L.T (q - 1)) then some (q - 1) else ((passL L F0).run i).F a := by
    rw [run_hot ef hq]; rfl
  by_cases e1 : a = i
  · subst e1
    rw [upd_eq]
    rw [if_neg (by omega)] at hF
    rw [viewA_some (hF.trans ef), if_pos hT, if_pos (by omega)]
  · rw [upd_ne _ _ e1]
    by_cases e2 : a = ((passL L F0).run i).G (L.T (q - 1))
    · rw [if_pos e2] at hF
      rw [viewA_some hF, ← e2, upd_eq]
      by_cases h3 : L.T (q - 1 - 1) < L.T (q - 1)
      · rw [if_pos h3, if_neg (by omega), if_neg (by omega)]
      · rw [if_neg h3, if_pos (by omega), if_neg (by omega)]
    · rw [if_neg e2] at hF
      rw [upd_ne _ _ e2]
      unfold viewA
      rw [hF]
      cases ((passL L F0).run i).F a with
      | none => rfl
      | some s =>
        simp only
        by_cases h4 : a < i
        · rw [if_pos h4, if_pos h4, if_pos (show a < i + 1 by omega), if_pos (show a < i + 1 by omega)]
        · rw [if_neg h4, if_neg h4, if_neg (show ¬ a < i + 1 by omega), if_neg (show ¬ a < i + 1 by omega)]

theorem viewA_skip {L : Lay} {F : Nat → Option Nat} {mu : Nat → Int} {i a : Nat} (h : a ≠ i) : viewA L F mu (i + 1) a = viewA L F mu i a := by
  unfold viewA
  cases F a with
  | none => rfl
  | some s =>
    simp only
    by_cases h4 : a < i
    · rw [if_pos h4, if_pos h4, if_pos (show a < i + 1 by omega), if_pos (show a < i + 1 by omega)]
    · rw [if_neg h4, if_neg h4, if_neg (show ¬ a < i + 1 by omega), if_neg (show ¬ a < i + 1 by omega)]

/-- One more slot looked at, another one filled. -/
theorem viewB_hot {L : Lay} {F1 : Nat → Option Nat} {mu : Nat → Int} {t q : Nat} (ef : ((passS L F1).run t).F t = some q)
    (hq : (passS L F1).pred q = some (q - 1)) (hty : sTy L.T L.n (q - 1) = true) (h0 : 0 < q - 1) (hg : t < ((passS L F1).run t).G (L.k - 1 - L.T (q - 1))) (a : Nat) :
    (if a = t then 0 else if a = ((passS L F1).run t).G (L.k - 1 - L.T (q - 1)) then
      (if L.T (q - 1) < L.T (q - 1 - 1) then -(((q - 1 : Nat) : Int) + mu (((passS L F1).run t).G (L.k - 1 - L.T (q - 1)))) - 1
        else ((q - 1 : Nat) : Int) - 1 + mu (((passS L F1).run t).G (L.k - 1 - L.T (q - 1))))
      else viewB L ((passS L F1).run t).F mu t a)
      = viewB L ((passS L F1).run (t + 1)).F mu (t + 1) a := by
  have hF : ((passS L F1).run (t + 1)).F a = if a = ((passS L F1).run t).G (L.k - 1 - L.T (q - 1)) then some (q - 1) else ((passS L F1).run t).F a := by
    rw [run_hot ef hq]; rfl
  by_cases e1 : a = t
  · subst e1
    rw [if_pos rfl]
    rw [if_neg (by omega)] at hF
    rw [viewB_some (hF.trans ef), if_pos hty, if_pos (by omega)]
  · rw [if_neg e1]
    by_cases e2 : a = ((passS L F1).run t).G (L.k - 1 - L.T (q - 1))
    · rw [if_pos e2] at hF
      rw [viewB_some hF, ← e2, if_pos rfl]
      have hb := sTy_before h0 hty
      by_cases h3 : L.T (q - 1) < L.T (q - 1 - 1)
      · rw [if_pos h3, if_neg (by rw [hb]; omega), if_pos]
        have := lms_of_gt (T := L.T) (n := L.n) (i := q - 1 - 1) (by rw [show q - 1 - 1 + 1 = q - 1 by omega]; exact hty) (by rw [show q - 1 - 1 + 1 = q - 1 by omega]; exact h3)
        rwa [show q - 1 - 1 + 1 = q - 1 by omega] at this
      · rw [if_neg h3, if_pos (hb.2 (by omega)), if_neg (by omega)]
    · rw [if_neg e2] at hF ⊢
      unfold viewB
      rw [hF]
      cases ((passS L F1).run t).F a with
      | none => rfl
      | some s =>
        simp only
        by_cases h4 : a < t
        · rw [if_pos h4, if_pos (show a < t + 1 by omega)]
        · rw [if_neg h4, if_neg (show ¬ a < t + 1 by omega)]

theorem viewB_skip {L : Lay} {F : Nat → Option Nat} {mu : Nat → Int} {t : Nat} (h : ∀ q, F t = some q → sTy L.T L.n (q - 1) = false) (a : Nat) :
    viewB L F mu (t + 1) a = viewB L F mu t a := by
  unfold viewB
  cases e : F a with
  | none => rfl
  | some s =>
    simp only
    by_cases e1 : a = t
    · subst e1
      rw [h s e]
      simp
    · by_cases h4 : a < t
      · rw [if_pos h4, if_pos (show a < t + 1 by omega)]
      · rw [if_neg h4, if_neg (show ¬ a < t + 1 by omega)]

end Bpak.Sais
