import Verif.Proof.SaisCompact
import Verif.Proof.SaisLms2S
/-! The sorted substrings and their names. -/
namespace Bpak.Sais

theorem filterMap_length (X : Nat → Option Nat) : ∀ n, ((List.range n).filterMap X).length = cnt n (isX X) := by
  intro n
  induction n with
  | zero => rfl
  | succ n ih =>
    rw [List.range_succ, List.filterMap_append, List.length_append, ih, cnt_succ]
    cases h : X n with
    | none => rw [isX_none h]; simp [h]
    | some v => rw [isX_some h]; simp [h]

theorem filterMap_at (X : Nat → Option Nat) : ∀ n a v, a < n → X a = some v → ((List.range n).filterMap X)[cnt a (isX X)]? = some v := by
  intro n
  induction n with
  | zero => intro a v h; omega
  | succ n ih =>
    intro a v ha hv
    rw [List.range_succ, List.filterMap_append]
    rcases Nat.lt_or_ge a n with h | h
    · have hl : cnt a (isX X) < cnt n (isX X) := cnt_lt_of_lt (isX_some hv) h
      rw [List.getElem?_append_left (by rw [filterMap_length]; exact hl)]
      exact ih a v h hv
    · have : a = n := by omega
      subst this
      rw [List.getElem?_append_right (by rw [filterMap_length]; omega), filterMap_length]
      simp [hv]

/-- The `j`-th value. -/
def nth (X : Nat → Option Nat) (n j : Nat) : Nat := ((List.range n).filterMap X).getD j 0

theorem nth_at {X : Nat → Option Nat} {n a v : Nat} (ha : a < n) (hv : X a = some v) : nth X n (cnt a (isX X)) = v := by
  unfold nth
  rw [List.getD_eq_getElem?_getD, filterMap_at X n a v ha hv]; rfl

theorem nth_get {X : Nat → Option Nat} {n j : Nat} (h : j < cnt n (isX X)) : ∃ a, a < n ∧ X a = some (nth X n j) ∧ cnt a (isX X) = j := by
  obtain ⟨a, h1, h2, h3⟩ := cnt_surj h
  unfold isX at h2
  cases hx : X a with
  | none => rw [hx] at h2; cases h2
  | some v =>
    refine ⟨a, h1, ?_, h3⟩
    rw [← h3, nth_at h1 hx]; exact hx

/-- `W 0, W 1, …` are the leftmost type S positions, each once, in the order of their substrings. -/
structure Wok (T : Nat → Nat) (n : Nat) (W : Nat → Nat) : Prop where
  isLms : ∀ j < lmsNum T n, lms T n (W j) = true
  all : ∀ s, lms T n s = true → ∃ j, j < lmsNum T n ∧ W j = s
  inj : ∀ i j, i < lmsNum T n → j < lmsNum T n → W i = W j → i = j
  sorted : ∀ i j, i < j → j < lmsNum T n → LeL (valS T n (W i)) (valS T n (W j))

def newAt (T : Nat → Nat) (n : Nat) (W : Nat → Nat) (i : Nat) : Bool := decide (i = 0) || decide (valS T n (W (i - 1)) ≠ valS T n (W i))

/-- The name of the `i`-th substring. -/
def nm (T : Nat → Nat) (n : Nat) (W : Nat → Nat) (i : Nat) : Nat := cnt (i + 1) (newAt T n W)

theorem LeL.trans {a b c : List Nat} (h1 : LeL a b) (h2 : LeL b c) : LeL a c := by
  rcases h1 with h1 | h1
  · rcases h2 with h2 | h2
    · exact Or.inl (List.lt_trans h1 h2)
    · exact Or.inl (h2 ▸ h1)
  · exact h1 ▸ h2

theorem nm_pos (T : Nat → Nat) (n : Nat) (W : Nat → Nat) (i : Nat) : 1 ≤ nm T n W i :=
  Pass.cnt_pos (x := 0) (by unfold newAt; simp) (by omega)

theorem nm_mono {T : Nat → Nat} {n : Nat} {W : Nat → Nat} {i j : Nat} (h : i ≤ j) : nm T n W i ≤ nm T n W j := cnt_le_of_le (by omega)

theorem Wok.nm_eq {T : Nat → Nat} {n : Nat} {W : Nat → Nat} (w : Wok T n W) {i j : Nat} (h : i ≤ j) (hj : j < lmsNum T n) :
    nm T n W i = nm T n W j ↔ valS T n (W i) = valS T n (W j) := by
  unfold nm
  rw [Pass.cnt_eq_none (by omega)]
  constructor
  · intro hz
    have : ∀ d, i + d ≤ j → valS T n (W i) = valS T n (W (i + d)) := by
      intro d
      induction d with
      | zero => intro _; rfl
      | succ d ih =>
        intro hd
        have h2 := hz (i + d + 1) (by omega) (by omega)
        unfold newAt at h2
        rw [Bool.or_eq_false_iff] at h2
        have h3 := of_decide_eq_false h2.2
        rw [ih (by omega)]; exact Classical.not_not.1 h3
    have h2 := this (j - i) (by omega)
    rwa [show i + (j - i) = j by omega] at h2
  · intro he z h1 h2
    have hz : valS T n (W z) = valS T n (W j) := by
      rcases Nat.lt_or_ge z j with h3 | h3
      · rcases Nat.lt_or_ge i z with h4 | h4
        · exact (w.sorted i z h4 (by omega)).mid (w.sorted z j h3 hj) he
        · omega
      · rw [show z = j by omega]
    have hz1 : valS T n (W (z - 1)) = valS T n (W j) := by
      rcases Nat.lt_or_ge i (z - 1) with h4 | h4
      · exact (w.sorted i (z - 1) h4 (by omega)).mid (w.sorted (z - 1) j (by omega) hj) he
      · rw [show z - 1 = i by omega]; exact he
    unfold newAt
    rw [Bool.or_eq_false_iff]
    exact ⟨decide_eq_false (by omega), decide_eq_false (by rw [hz, hz1]; simp)⟩

/-- With as many names as substrings the substrings are all different. -/
theorem Wok.all_new {T : Nat → Nat} {n : Nat} {W : Nat → Nat} (h : lmsNum T n ≤ cnt (lmsNum T n) (newAt T n W)) :
    ∀ i < lmsNum T n, newAt T n W i = true := by
  have : ∀ N, N ≤ cnt N (newAt T n W) → ∀ i < N, newAt T n W i = true := by
    intro N
    induction N with
    | zero => intro _ i hi; omega
    | succ N ih =>
      intro hN i hi
      rw [cnt_succ] at hN
      have hle := cnt_le N (newAt T n W)
      cases hb : newAt T n W N with
      | false => rw [hb] at hN; simp at hN; omega
      | true =>
        rw [hb] at hN; simp at hN
        rcases Nat.lt_or_ge i N with h2 | h2
        · exact ih hN i h2
        · rw [show i = N by omega]; exact hb
  exact this _ h

/-- `i` is the last of its group. -/
def lastAt (T : Nat → Nat) (n : Nat) (W : Nat → Nat) (i : Nat) : Bool := decide (i + 1 = lmsNum T n) || newAt T n W (i + 1)

theorem last_new {T : Nat → Nat} {n : Nat} {W : Nat → Nat} : ∀ i, i < lmsNum T n → 1 + cnt i (lastAt T n W) = nm T n W i := by
  intro i
  induction i with
  | zero =>
    intro _
    unfold nm
    rw [cnt_succ]
    have : newAt T n W 0 = true := by unfold newAt; simp
    rw [this]; rfl
  | succ i ih =>
    intro hi
    unfold nm
    rw [cnt_succ, cnt_succ, ← Nat.add_assoc, ih (by omega)]
    have : lastAt T n W i = newAt T n W (i + 1) := by
      unfold lastAt; rw [decide_eq_false (by omega)]; rfl
    rw [this]; rfl

theorem last_total {T : Nat → Nat} {n : Nat} {W : Nat → Nat} : cnt (lmsNum T n) (lastAt T n W) = cnt (lmsNum T n) (newAt T n W) := by
  cases hN : lmsNum T n with
  | zero => rfl
  | succ N =>
    have h := last_new (T := T) (n := n) (W := W) N (by omega)
    unfold nm at h
    rw [cnt_succ]
    have : lastAt T n W N = true := by unfold lastAt; rw [decide_eq_true (by omega)]; rfl
    rw [this]
    show cnt N (lastAt T n W) + 1 = _
    omega

theorem Wok.last_iff {T : Nat → Nat} {n : Nat} {W : Nat → Nat} (w : Wok T n W) {i : Nat} (hi : i < lmsNum T n) :
    lastAt T n W i = true ↔ ∀ j, i < j → j < lmsNum T n → valS T n (W j) ≠ valS T n (W i) := by
  unfold lastAt newAt
  rw [Bool.or_eq_true, Bool.or_eq_true, decide_eq_true_iff, decide_eq_true_iff, decide_eq_true_iff]
  constructor
  · intro h j h1 h2 he
    rcases h with h | h | h
    · omega
    · omega
    · refine h ?_
      show valS T n (W (i + 1 - 1)) = _
      rw [show i + 1 - 1 = i by omega]
      rcases Nat.lt_or_ge (i + 1) j with h3 | h3
      · rw [(w.sorted i (i + 1) (by omega) (by omega)).mid (w.sorted (i + 1) j h3 h2) he.symm, he]
      · rw [show i + 1 = j by omega, he]
  · intro h
    by_cases h2 : i + 1 = lmsNum T n
    · exact Or.inl h2
    · refine Or.inr (Or.inr ?_)
      rw [show i + 1 - 1 = i by omega]
      exact fun e => h (i + 1) (by omega) (by omega) e.symm

/-! The entries the sorting passes leave. -/

def lmsAt (L : Lay) (F : Nat → Option Nat) (a : Nat) : Option Nat := (F (L.n - 1 - a)).filter (lms L.T L.n)

theorem lmsAt_iff {L : Lay} {F : Nat → Option Nat} {a s : Nat} : lmsAt L F a = some s ↔ F (L.n - 1 - a) = some s ∧ lms L.T L.n s = true := by
  unfold lmsAt
  cases h : F (L.n - 1 - a) with
  | none => simp
  | some t =>
    simp only [Option.filter_some, Option.some.injEq]
    by_cases ht : lms L.T L.n t = true
    · rw [if_pos ht]
      constructor
      · intro e; injection e with e; exact ⟨e, e ▸ ht⟩
      · intro e; rw [e.1]
    · rw [if_neg ht]
      constructor
      · intro e; cases e
      · intro e; exact absurd (e.1 ▸ e.2) ht

noncomputable def lmsAt2 (L : Lay) (F : Nat → Option Nat) (V : Pass) (a : Nat) : Option Nat :=
  (lmsAt L F a).map (fun s => s + @ite _ (V.Marked (valS L.T L.n) (L.n - 1 - a)) (Classical.propDecidable _) L.n 0)

theorem code1 {L : Lay} {F : Nat → Option Nat} (a : Nat) : codeX (lmsAt L F) a = lmsOut L F noMu (L.n - 1 - a) := by
  unfold codeX lmsOut
  cases h : lmsAt L F a with
  | none =>
    cases hF : F (L.n - 1 - a) with
    | none => rfl
    | some s =>
      show 0 = if lms L.T L.n s = true then _ else 0
      rw [if_neg]
      intro hl
      rw [lmsAt_iff.2 ⟨hF, hl⟩] at h; cases h
  | some s =>
    have h2 := lmsAt_iff.1 h
    rw [h2.1]
    show _ = if lms L.T L.n s = true then _ else 0
    rw [if_pos h2.2]
    show -(s : Int) - 1 = -((s : Int) + 0) - 1
    omega

theorem code2 {L : Lay} {F : Nat → Option Nat} {V : Pass} (a : Nat) :
    codeX (lmsAt2 L F V) a = lmsOut L F (muOf V (valS L.T L.n) L.n) (L.n - 1 - a) := by
  unfold codeX lmsOut lmsAt2
  cases h : lmsAt L F a with
  | none =>
    cases hF : F (L.n - 1 - a) with
    | none => rfl
    | some s =>
      show 0 = if lms L.T L.n s = true then _ else 0
      rw [if_neg]
      intro hl
      rw [lmsAt_iff.2 ⟨hF, hl⟩] at h; cases h
  | some s =>
    have h2 := lmsAt_iff.1 h
    rw [h2.1]
    show _ = if lms L.T L.n s = true then _ else 0
    rw [if_pos h2.2]
    by_cases hm : V.Marked (valS L.T L.n) (L.n - 1 - a)
    · rw [muOf_pos hm]
      show -(((s + @ite _ (V.Marked (valS L.T L.n) (L.n - 1 - a)) (Classical.propDecidable _) L.n 0 : Nat) : Int)) - 1 = _
      rw [if_pos hm]; omega
    · rw [muOf_neg hm]
      show -(((s + @ite _ (V.Marked (valS L.T L.n) (L.n - 1 - a)) (Classical.propDecidable _) L.n 0 : Nat) : Int)) - 1 = _
      rw [if_neg hm]; omega

theorem isX_two {L : Lay} {F : Nat → Option Nat} {V : Pass} : isX (lmsAt2 L F V) = isX (lmsAt L F) := by
  funext a
  unfold isX lmsAt2
  cases lmsAt L F a <;> rfl

theorem Wok_of {L : Lay} (o : L.Ok) {F0 : Nat → Option Nat} {lo : Nat} (hs : LmsSeeds L F0 lo) (hlo : ∀ s, lms L.T L.n s = true → lo ≤ s) :
    cnt L.n (isX (lmsAt L ((passS L (midF L F0)).run L.n).F)) = lmsNum L.T L.n ∧ Wok L.T L.n (nth (lmsAt L ((passS L (midF L F0)).run L.n).F) L.n) := by
  have okS := passS_ok o (midF_seeds o hs.ok)
  have hinv := (Pass.run_inv okS L.n).shape
  have hsort := Pass.sorted okS (ordLmsS o hs.ok) L.n
  generalize hF : ((passS L (midF L F0)).run L.n).F = F at *
  have hinj : ∀ a b s, F a = some s → F b = some s → a = b := by
    intro a b s h1 h2
    rw [← hF] at h1 h2
    exact hinv.inj okS h1 h2
  have hall : ∀ s, lms L.T L.n s = true → ∃ a, a < L.n ∧ lmsAt L F a = some s := by
    intro s hl
    have hp := lms_pos hl
    obtain ⟨a, h1, h2⟩ := hs.allS o s (by omega) (hlo s hl)
    rw [hF] at h2
    refine ⟨L.n - 1 - a, by omega, lmsAt_iff.2 ⟨?_, hl⟩⟩
    rw [show L.n - 1 - (L.n - 1 - a) = a by omega]; exact h2
  have hnd : ((List.range L.n).filterMap (lmsAt L F)).Nodup := by
    rw [List.nodup_iff_pairwise_ne, List.pairwise_filterMap]
    refine List.Pairwise.imp_of_mem (R := fun a b => a < b) (fun {a b} h1 h2 h3 => ?_) List.pairwise_lt_range
    intro x hx y hy e
    rw [List.mem_range] at h1 h2
    have hx := lmsAt_iff.1 hx
    have hy := lmsAt_iff.1 hy
    have := hinj _ _ x hx.1 (e ▸ hy.1)
    omega
  have hmem : ∀ s, s ∈ (List.range L.n).filterMap (lmsAt L F) ↔ (s < L.n ∧ lms L.T L.n s = true) := by
    intro s
    rw [List.mem_filterMap]
    constructor
    · rintro ⟨a, _, h2⟩
      have h3 := (lmsAt_iff.1 h2).2
      exact ⟨by have := lms_pos h3; omega, h3⟩
    · rintro ⟨_, h2⟩
      obtain ⟨a, h3, h4⟩ := hall s h2
      exact ⟨a, List.mem_range.2 h3, h4⟩
  have hlen : cnt L.n (isX (lmsAt L F)) = lmsNum L.T L.n := by
    rw [← filterMap_length]
    refine Nat.le_antisymm (nodup_le_cnt hnd (fun p hp => (hmem p).1 hp)) ?_
    unfold lmsNum cnt
    rw [List.countP_eq_length_filter]
    refine length_le_of_nodup (List.Nodup.sublist List.filter_sublist List.nodup_range) (fun p hp => ?_)
    rw [List.mem_filter, List.mem_range] at hp
    exact (hmem p).2 hp
  refine ⟨hlen, ⟨fun j hj => ?_, fun s hl => ?_, fun i j hi hj e => ?_, fun i j hij hj => ?_⟩⟩
  · obtain ⟨a, h1, h2, h3⟩ := nth_get (X := lmsAt L F) (by rw [hlen]; exact hj)
    exact (lmsAt_iff.1 h2).2
  · obtain ⟨a, h1, h2⟩ := hall s hl
    refine ⟨cnt a (isX (lmsAt L F)), ?_, nth_at h1 h2⟩
    rw [← hlen]; exact cnt_lt_of_lt (isX_some h2) h1
  · obtain ⟨a, h1, h2, h3⟩ := nth_get (X := lmsAt L F) (by rw [hlen]; exact hi)
    obtain ⟨b, h4, h5, h6⟩ := nth_get (X := lmsAt L F) (by rw [hlen]; exact hj)
    have := hinj _ _ _ (lmsAt_iff.1 h2).1 (e ▸ (lmsAt_iff.1 h5).1)
    have : a = b := by omega
    rw [← h3, ← h6, this]
  · obtain ⟨a, h1, h2, h3⟩ := nth_get (X := lmsAt L F) (n := L.n) (j := i) (by rw [hlen]; omega)
    obtain ⟨b, h4, h5, h6⟩ := nth_get (X := lmsAt L F) (by rw [hlen]; exact hj)
    have hab : a < b := by
      rcases Nat.lt_or_ge a b with h | h
      · exact h
      · have := cnt_le_of_le (P := isX (lmsAt L F)) h; omega
    refine hsort (L.n - 1 - a) (L.n - 1 - b) _ _ (by omega) ?_ ?_
    · exact (lmsAt_iff.1 h5).1
    · exact (lmsAt_iff.1 h2).1

/-- Which entries carry a mark. -/
theorem marks_of {L : Lay} (o : L.Ok) {F0 : Nat → Option Nat} {lo : Nat} (hs : LmsSeeds L F0 lo) (hlo : ∀ s, lms L.T L.n s = true → lo ≤ s) {a s : Nat} (ha : a < L.n)
    (e : lmsAt L ((passS L (midF L F0)).run L.n).F a = some s) :
    (passS L (midF L F0)).Marked (valS L.T L.n) (L.n - 1 - a) ↔
      lastAt L.T L.n (nth (lmsAt L ((passS L (midF L F0)).run L.n).F) L.n) (cnt a (isX (lmsAt L ((passS L (midF L F0)).run L.n).F))) = true := by
  obtain ⟨hlen, w⟩ := Wok_of o hs hlo
  have hfin : (passS L (midF L F0)).fin = ((passS L (midF L F0)).run L.n).F := rfl
  have hhot : ∀ {b t}, ((passS L (midF L F0)).run L.n).F b = some t → (passS L (midF L F0)).hot t = sTy L.T L.n (t - 1) ∧ 0 < t := by
    intro b t h
    have := hotS o hs h
    exact ⟨this.1, this.2.2.1⟩
  have e' := lmsAt_iff.1 e
  have hsl := lms_iff.1 e'.2
  have hsn := lms_pos e'.2
  have hlt : cnt a (isX (lmsAt L ((passS L (midF L F0)).run L.n).F)) < lmsNum L.T L.n := by
    rw [← hlen]; exact cnt_lt_of_lt (isX_some e) ha
  rw [w.last_iff hlt, nth_at ha e]
  unfold Pass.Marked
  rw [hfin]
  constructor
  · intro h j h1 h2 h3
    obtain ⟨b, h4, h5, h6⟩ := nth_get (X := lmsAt L ((passS L (midF L F0)).run L.n).F) (by rw [hlen]; exact h2)
    have h5' := lmsAt_iff.1 h5
    have hab : a < b := by
      rcases Nat.lt_or_ge a b with h | h
      · exact h
      · have := cnt_le_of_le (P := isX (lmsAt L ((passS L (midF L F0)).run L.n).F)) h; omega
    refine h s e'.1 (L.n - 1 - b) _ (by omega) h5'.1 ?_ h3
    rw [(hhot h5'.1).1, (hhot e'.1).1, hsl.2.2, (lms_iff.1 h5'.2).2.2]
  · intro h t ht a' s' ha' hF' hh he
    rw [e'.1] at ht
    injection ht with ht
    subst ht
    have hs' := hhot hF'
    rw [hs'.1, (hhot e'.1).1, hsl.2.2] at hh
    have hn' : s' < L.n := (hotS o hs hF').2.2.2
    have hw : wt L.T L.n s' = wt L.T L.n s := by
      obtain ⟨l1, e1⟩ := valS_head (T := L.T) hn'
      obtain ⟨l2, e2⟩ := valS_head (T := L.T) (n := L.n) (i := s) (by omega)
      rw [e1, e2] at he
      exact (List.cons.inj he).1
    have hl' : lms L.T L.n s' = true := lms_iff.2 ⟨hs'.2, by rw [(wt_inj hw).2]; exact hsl.2.1, hh⟩
    have hat : lmsAt L ((passS L (midF L F0)).run L.n).F (L.n - 1 - a') = some s' := by
      refine lmsAt_iff.2 ⟨?_, hl'⟩
      rw [show L.n - 1 - (L.n - 1 - a') = a' by omega]; exact hF'
    have hb : L.n - 1 - a' < L.n := by omega
    refine h (cnt (L.n - 1 - a') (isX (lmsAt L ((passS L (midF L F0)).run L.n).F))) ?_ ?_ ?_
    · exact cnt_lt_of_lt (isX_some e) (by omega)
    · rw [← hlen]; exact cnt_lt_of_lt (isX_some hat) hb
    · rw [nth_at hb hat]; exact he

end Bpak.Sais
