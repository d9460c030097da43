import Verif.Proof.SaisMem
import Verif.Proof.SaisSorted
import Verif.Proof.SaisOrder
/-! `induce_sa`: from the leftmost positions of the ascending runs to all positions. -/
namespace Bpak.Sais

/-- Number of positions with this character and type L. -/
def Lay.lnum (L : Lay) (c : Nat) : Nat := cnt L.n (fun i => decide (L.T i = c) && !sTy L.T L.n i)

/-- Number of positions with this character and type S. -/
def Lay.snum (L : Lay) (c : Nat) : Nat := cnt L.n (fun i => decide (L.T i = c) && sTy L.T L.n i)

theorem Lay.num_split (L : Lay) (c : Nat) : L.num c = L.lnum c + L.snum c := by
  unfold num lnum snum
  have := cnt_split L.n (fun i => decide (L.T i = c)) (sTy L.T L.n)
  omega

/-- Entries that are in the array at the beginning of the first pass. -/
structure SeedsOk (L : Lay) (F0 : Nat → Option Nat) : Prop where
  lms : ∀ a s, F0 a = some s → lms L.T L.n s = true
  place : ∀ a s, F0 a = some s → L.start (L.T s) + L.lnum (L.T s) ≤ a ∧ a < L.start (L.T s + 1)
  inj : ∀ a b s, F0 a = some s → F0 b = some s → a = b

/-- The pass that puts the positions of type L into the array. -/
def passL (L : Lay) (F0 : Nat → Option Nat) : Pass where
  n := L.n
  k := L.k
  key := L.T
  Z := fun i => !sTy L.T L.n i
  pred := fun s => if 0 < s ∧ s < L.n ∧ sTy L.T L.n (s - 1) = false then some (s - 1) else none
  init := [L.n - 1]
  F0 := F0

theorem passL_pred {L : Lay} {F0 : Nat → Option Nat} {s p : Nat} : (passL L F0).pred s = some p ↔ 0 < s ∧ s < L.n ∧ sTy L.T L.n (s - 1) = false ∧ p = s - 1 := by
  unfold passL
  simp only
  split
  · rename_i h
    constructor
    · intro e; cases e; exact ⟨h.1, h.2.1, h.2.2, rfl⟩
    · rintro ⟨-, -, -, rfl⟩; rfl
  · rename_i h
    constructor
    · intro e; cases e
    · rintro ⟨a, b, c, -⟩; exact absurd ⟨a, b, c⟩ h

theorem passL_ok {L : Lay} (o : L.Ok) {F0 : Nat → Option Nat} (hs : SeedsOk L F0) : (passL L F0).Ok := by
  have hn := o.npos
  refine ⟨o.key, ?_, ?_, ?_, ?_, ?_, ?_, hs.inj⟩
  · intro p hp
    have : p = L.n - 1 := by simpa [passL] using hp
    subst this
    refine ⟨by show L.n - 1 < L.n; omega, ?_⟩
    show (!sTy L.T L.n (L.n - 1)) = true
    rw [sTy_last _ _ _ (by omega)]
    rfl
  · show [L.n - 1].Nodup
    simp
  · intro s p hp hm
    have hp := passL_pred.1 hp
    have : p = L.n - 1 := by simpa [passL] using hm
    omega
  · intro s s' p h1 h2
    have h1 := passL_pred.1 h1
    have h2 := passL_pred.1 h2
    omega
  · intro s p h1 _
    obtain ⟨h2, h3, h4, rfl⟩ := passL_pred.1 h1
    refine ⟨by show s - 1 < L.n; omega, by show (!sTy L.T L.n (s - 1)) = true; rw [h4]; rfl, ?_⟩
    show L.T s < L.T (s - 1) ∨ (L.T s = L.T (s - 1) ∧ (!sTy L.T L.n s) = true)
    have h5 := lTy_next (i := s - 1) (by omega) h4
    rw [show s - 1 + 1 = s by omega] at h5
    rcases Nat.lt_or_eq_of_le h5 with h6 | h6
    · exact Or.inl h6
    · have := sTy_same (T := L.T) (n := L.n) (i := s - 1) (by omega) (by rw [show s - 1 + 1 = s by omega]; exact h6.symm)
      rw [show s - 1 + 1 = s by omega, h4] at this
      exact Or.inr ⟨h6, by rw [← this]; rfl⟩
  · intro a s e
    have h1 := lms_iff.1 (hs.lms a s e)
    have h2 := lms_pos (hs.lms a s e)
    refine ⟨by show s < L.n; omega, by show (!sTy L.T L.n s) = false; rw [h1.2.1]; rfl, (hs.place a s e).1, (hs.place a s e).2⟩

/-- Is the position in front of `s` of type L? For the entries of the array one comparison decides. -/
theorem ty_before {T : Nat → Nat} {n s : Nat} (hs : 0 < s) (hn : s < n) (h : sTy T n s = false ∨ lms T n s = true) : sTy T n (s - 1) = false ↔ T s ≤ T (s - 1) := by
  rcases h with h | h
  · constructor
    · intro h1
      have := lTy_next (i := s - 1) (by omega) h1
      rwa [show s - 1 + 1 = s by omega] at this
    · intro h1
      rcases Nat.lt_or_eq_of_le h1 with h2 | h2
      · exact sTy_gt (by rw [show s - 1 + 1 = s by omega]; exact h2)
      · rw [sTy_same (by omega) (by rw [show s - 1 + 1 = s by omega]; exact h2.symm), show s - 1 + 1 = s by omega]; exact h
  · have := lms_gt (i := s - 1) (by rw [show s - 1 + 1 = s by omega]; exact h)
    rw [show s - 1 + 1 = s by omega] at this
    exact ⟨fun _ => by omega, fun _ => (lms_iff.1 h).2.2⟩

/-- The entry of a position before it is looked at: negative if its predecessor is not of type L. -/
def encL (T : Nat → Nat) (s : Nat) : Int := if 0 < s ∧ T (s - 1) < T s then -(s : Int) - 1 else s

def rawL (T : Nat → Nat) : Option Nat → Int
  | none => 0
  | some s => encL T s

/-- The array after `i` steps. -/
def viewL (L : Lay) (F : Nat → Option Nat) (i a : Nat) : Int := if a < i then -(rawL L.T (F a)) - 1 else rawL L.T (F a)

theorem entry_ty {L : Lay} (o : L.Ok) {F0 : Nat → Option Nat} (hs : SeedsOk L F0) {i a s : Nat} (e : ((passL L F0).run i).F a = some s) :
    s < L.n ∧ (sTy L.T L.n s = false ∨ lms L.T L.n s = true) := by
  have ok := passL_ok o hs
  have sh := (Pass.run_inv ok i).shape
  rcases sh.where_ e with ⟨hm, -⟩ | ⟨h, -⟩
  · have := sh.mem s hm
    refine ⟨this.1, Or.inl ?_⟩
    have h2 : (!sTy L.T L.n s) = true := this.2
    simpa using h2
  · have := hs.lms a s h
    exact ⟨by have := lms_pos this; omega, Or.inr this⟩

/-- Which entries lead to another one. -/
theorem active {L : Lay} (o : L.Ok) {F0 : Nat → Option Nat} (hs : SeedsOk L F0) {i a s : Nat} (e : ((passL L F0).run i).F a = some s) :
    (0 < encL L.T s ↔ (passL L F0).pred s = some (s - 1)) ∧ (0 < encL L.T s → encL L.T s = s ∧ 0 < s) ∧ (¬ 0 < encL L.T s → (passL L F0).pred s = none) := by
  obtain ⟨h1, h2⟩ := entry_ty o hs e
  have h3 : 0 < encL L.T s ↔ 0 < s ∧ L.T s ≤ L.T (s - 1) := by
    unfold encL
    split <;> omega
  have h4 : 0 < encL L.T s ↔ (passL L F0).pred s = some (s - 1) := by
    rw [h3, passL_pred]
    constructor
    · intro ⟨a, b⟩; exact ⟨a, h1, (ty_before a h1 h2).2 b, rfl⟩
    · intro ⟨a, _, b, _⟩; exact ⟨a, (ty_before a h1 h2).1 b⟩
  refine ⟨h4, ?_, ?_⟩
  · intro h
    refine ⟨?_, (h3.1 h).1⟩
    unfold encL at h ⊢
    split at h
    · omega
    · rename_i h'; rw [if_neg h']
  · intro h
    cases e' : (passL L F0).pred s with
    | none => rfl
    | some p =>
      have := passL_pred.1 e'
      rw [this.2.2.2] at e'
      exact absurd (h4.2 e') h

theorem not_lt_cast {a b : Nat} (h : b ≤ a) : ¬ ((a : Int) < (b : Int)) := by omega

theorem codeL_eq {L : Lay} {m0 m : Mem} {c1 b2 : Int} {A G : Nat → Int} (h : Rep L m0 m c1 b2 A G) {p : Nat} (hp : p < L.n) :
    codeL L.t m (L.T p : Int) (p : Int) = some (encL L.T p) := by
  unfold codeL encL
  by_cases h0 : 0 < p
  · rw [if_pos (by omega), h.chr' (i := p - 1) (by omega) (by omega), Option.map_some]
    by_cases h1 : L.T (p - 1) < L.T p
    · rw [if_pos (by omega), if_pos ⟨h0, h1⟩]
    · rw [if_neg (by omega), if_neg (by omega)]
  · rw [if_neg (by omega), if_neg (by omega)]

/-- The pointers of a pass that goes upwards. -/
def ptrs (P : Pass) (i : Nat) : Nat → Int := fun c => ((P.run i).G c : Nat)

theorem run_hot {P : Pass} {i q p : Nat} (h : (P.run i).F i = some q) (hp : P.pred q = some p) : P.run (i + 1) = P.emit (P.run i) p := by
  show P.step i _ = _
  unfold Pass.step
  rw [h, Option.bind_some, hp]

theorem run_cold {P : Pass} {i : Nat} (h : ∀ q, (P.run i).F i = some q → P.pred q = none) : P.run (i + 1) = P.run i := by
  show P.step i _ = _
  unfold Pass.step
  cases ef : (P.run i).F i with
  | none => rfl
  | some q => rw [Option.bind_some, h q ef]

theorem ptrs_hot {P : Pass} {i q p : Nat} (h : (P.run i).F i = some q) (hp : P.pred q = some p) (c : Nat) :
    upd (ptrs P i) (P.key p) (((P.run i).G (P.key p) : Nat) + 1) c = ptrs P (i + 1) c := by
  unfold ptrs upd
  rw [run_hot h hp]
  show _ = (((if c = P.key p then (P.run i).G c + 1 else (P.run i).G c) : Nat) : Int)
  split
  · rename_i e; rw [e]; push_cast; rfl
  · rfl

/-- Where the next entry goes. -/
theorem target {L : Lay} (o : L.Ok) {F0 : Nat → Option Nat} (hs : SeedsOk L F0) {i q : Nat} (ef : ((passL L F0).run i).F i = some q)
    (hq : (passL L F0).pred q = some (q - 1)) :
    0 < q ∧ q < L.n ∧ L.T q ≤ L.T (q - 1) ∧ ((passL L F0).run i).G (L.T (q - 1)) < L.n ∧ i < ((passL L F0).run i).G (L.T (q - 1)) ∧
    ((passL L F0).run i).F (((passL L F0).run i).G (L.T (q - 1))) = none := by
  have ok := passL_ok o hs
  obtain ⟨s1, s2, s3, s4, s5, s6, s7⟩ := (Pass.step_inv ok (Pass.run_inv ok i)).2.2 q (q - 1) ef hq
  have h1 := (passL L F0).zone_le (L.T (q - 1))
  have h2 := (passL L F0).start_le (L.T (q - 1) + 1)
  have s6 : ((passL L F0).run i).G (L.T (q - 1)) < (passL L F0).start (L.T (q - 1)) + (passL L F0).zone (L.T (q - 1)) := s6
  have h3 : (passL L F0).n = L.n := rfl
  have hp := passL_pred.1 hq
  exact ⟨hp.1, hp.2.1, (ty_before hp.1 hp.2.1 (entry_ty o hs ef).2).1 hp.2.2.1, by omega, s4, s3⟩

/-- One step of the first pass. -/
theorem induceStepL_ok {L : Lay} (o : L.Ok) {F0 : Nat → Option Nat} (hs : SeedsOk L F0) {m0 : Mem} {i : Nat} (hi : i < L.n) {s : Cur}
    (r : Rep L m0 s.m s.c1 s.b2 (viewL L ((passL L F0).run i).F i) (ptrs (passL L F0) i)) :
    ∃ s', induceStepL L.t L.b i s = some s' ∧ Rep L m0 s'.m s'.c1 s'.b2 (viewL L ((passL L F0).run (i + 1)).F (i + 1)) (ptrs (passL L F0) (i + 1)) := by
  generalize hP : passL L F0 = P at r
  have hrd := r.rd hi
  obtain ⟨m3, e3, r3⟩ := r.wr o hi (-(viewL L (P.run i).F i i) - 1)
  have hv : viewL L (P.run i).F i i = rawL L.T ((P.run i).F i) := by unfold viewL; rw [if_neg (by omega)]
  rw [hv] at hrd e3 r3
  have hview : ∀ a, upd (viewL L (P.run i).F i) i (-(rawL L.T ((P.run i).F i)) - 1) a = viewL L (P.run i).F (i + 1) a := by
    intro a
    unfold upd viewL
    by_cases e : a = i
    · subst e; rw [if_pos rfl, if_pos (by omega)]
    · rw [if_neg e]
      by_cases hlt : a < i
      · rw [if_pos hlt, if_pos (by omega)]
      · rw [if_neg hlt, if_neg (by omega)]
  have r3 := r3.ext (fun a _ => hview a) (fun _ _ => rfl)
  by_cases hpos : 0 < rawL L.T ((P.run i).F i)
  · cases ef : (P.run i).F i with
    | none => rw [ef] at hpos; exact absurd hpos (by simp [rawL])
    | some q =>
      rw [ef] at hpos hrd e3
      rw [← hP] at ef
      obtain ⟨a1, a2, -⟩ := active o hs ef
      have hq := (a1.1 hpos)
      obtain ⟨a3, a4⟩ := a2 hpos
      obtain ⟨-, hqn, hT, hGn, hiG, -⟩ := target o hs ef hq
      have s1 : q - 1 < L.n := by omega
      have hrun := run_hot ef hq
      have hptr := ptrs_hot ef hq
      have hkey : (passL L F0).key (q - 1) = L.T (q - 1) := rfl
      rw [hkey] at hptr
      rw [hP] at hrun hGn hiG hptr
      obtain ⟨m4, e4, r4⟩ := r3.switch o (o.key _ s1)
      obtain ⟨m5, e5, r5⟩ := r4.wr o hGn (encL L.T (q - 1))
      have r6 := r5.move rfl ((((P.run i).G (L.T (q - 1)) : Nat) : Int) + 1)
      refine ⟨⟨m5, (L.T (q - 1) : Int), ((((P.run i).G (L.T (q - 1)) : Nat) : Int) + 1)⟩, ?_, ?_⟩
      · have hraw : rawL L.T (some q) = (q : Int) := a3
        rw [hraw] at hrd e3
        have hq1 : (q : Int) - 1 = ((q - 1 : Nat) : Int) := by omega
        have hc0 := r3.chr' (i := q - 1) s1 hq1
        have hc1 := r3.chr' (i := q) hqn (z := (q : Int) - 1 + 1) (by omega)
        unfold induceStepL
        simp only [hrd, e3, Option.bind_eq_bind, Option.bind_some]
        rw [if_pos (by omega)]
        simp only [hc0, hc1, Option.bind_some]
        rw [if_neg (not_lt_cast hT), e4]
        simp only [Option.bind_some]
        have hbi : ¬ ptrs P i (L.T (q - 1)) ≤ (i : Int) := by unfold ptrs; omega
        rw [if_neg hbi, hq1, codeL_eq r4 s1]
        have e5 : wr m4 (ptrs P i (L.T (q - 1))) (encL L.T (q - 1)) = some m5 := e5
        simp only [Option.bind_some, e5]
        rfl
      · refine r6.ext ?_ ?_
        · intro a _
          rw [hrun]
          unfold upd viewL
          have hF : (P.emit (P.run i) (q - 1)).F a = if a = (P.run i).G (L.T (q - 1)) then some (q - 1) else (P.run i).F a := by rw [← hP]; rfl
          rw [hF]
          by_cases e : a = (P.run i).G (L.T (q - 1))
          · rw [if_pos e, if_neg (by omega), if_pos e]; rfl
          · rw [if_neg e, if_neg e]
        · intro c _
          exact hptr c
  · refine ⟨⟨m3, s.c1, s.b2⟩, ?_, ?_⟩
    · unfold induceStepL
      simp only [hrd, e3, Option.bind_eq_bind, Option.bind_some]
      rw [if_neg hpos]
    · have hcold : P.run (i + 1) = P.run i := by
        apply run_cold
        intro q hq
        rw [hq] at hpos
        rw [← hP] at hq ⊢
        exact (active o hs hq).2.2 hpos
      rw [hcold]
      unfold ptrs at r3 ⊢
      rw [hcold]
      exact r3

/-- The first slot. -/
theorem first_slot {L : Lay} (o : L.Ok) : L.start (L.T (L.n - 1)) < L.n := by
  have hn := o.npos
  have ok := passL_ok o (F0 := fun _ => none) ⟨(by simp), (by simp), (by simp)⟩
  have h2 := (Pass.run_inv ok 0).shape
  have hm : L.n - 1 ∈ ((passL L (fun _ => none)).run 0).E := by
    show L.n - 1 ∈ ((passL L (fun _ => none)).begin_).E
    rw [(Pass.begin_shape ok).2]
    simp [passL]
  obtain ⟨a, h3, h4⟩ := h2.slot hm
  have h5 := (h2.bucket ok h4).2.1
  have h6 : (passL L (fun _ => none)).start = L.start := rfl
  rw [h6] at h5
  exact Nat.lt_of_le_of_lt h5 h3

theorem ptrs_zero {L : Lay} {F0 : Nat → Option Nat} (c : Nat) :
    upd (fun x => ((L.start x : Nat) : Int)) (L.T (L.n - 1)) ((L.start (L.T (L.n - 1)) : Nat) + 1) c = ptrs (passL L F0) 0 c := by
  show _ = (((if c = L.T (L.n - 1) then L.start c + 1 else L.start c) : Nat) : Int)
  unfold upd
  split
  · rename_i e; rw [e]; push_cast; rfl
  · rfl

theorem passL_zero {L : Lay} {F0 : Nat → Option Nat} (a : Nat) :
    ((passL L F0).run 0).F a = if a = L.start (L.T (L.n - 1)) then some (L.n - 1) else F0 a := rfl

/-- `induceL`: the first pass. -/
theorem induceL_ok {L : Lay} (o : L.Ok) {F0 : Nat → Option Nat} (hs : SeedsOk L F0) {m : Mem} {f g : Nat → Int}
    (ha : Arr m 0 L.n (fun a => rawL L.T (F0 a))) (hc : Arr m L.c L.k f) (hb : Arr m L.b L.k g)
    (ht : HasTxt L.t m L.n L.T) (hcnt : L.c ≠ L.b → ∀ x < L.k, f x = (L.num x : Nat)) :
    ∃ m' B, induceL L.t L.c L.b L.n L.k m = some m' ∧ Holds L m m' (viewL L ((passL L F0).run L.n).F L.n) B := by
  have hn := o.npos
  obtain ⟨m1, e1, h1⟩ := buckets_ok o false ha hc hb ht hcnt
  have h1 : Holds L m m1 (fun a => rawL L.T (F0 a)) (fun x => ((L.start x : Nat) : Int)) := h1
  have hl : L.n - 1 < L.n := by omega
  have hkl := o.key _ hl
  have r1 := Rep.start h1 hkl
  have cj : ((L.n : Int) - 1) = ((L.n - 1 : Nat) : Int) := by omega
  have hst := first_slot o
  obtain ⟨m2, e2, r2⟩ := r1.wr o hst (encL L.T (L.n - 1))
  have r3 := r2.move rfl (((L.start (L.T (L.n - 1)) : Nat) : Int) + 1)
  have r4 : Rep L m m2 (L.T (L.n - 1) : Int) (((L.start (L.T (L.n - 1)) : Nat) : Int) + 1) (viewL L ((passL L F0).run 0).F 0) (ptrs (passL L F0) 0) := by
    apply r3.ext
    · intro i _
      unfold viewL
      rw [if_neg (show ¬ i < 0 by omega), passL_zero]
      unfold upd
      split
      · rfl
      · rfl
    · intro c _
      exact ptrs_zero c
  obtain ⟨s, es, hsI⟩ := upto_rule (n := L.n) (body := induceStepL L.t L.b) (s := ⟨m2, L.T (L.n - 1), ((L.start (L.T (L.n - 1)) : Nat) : Int) + 1⟩)
    (fun i s => Rep L m s.m s.c1 s.b2 (viewL L ((passL L F0).run i).F i) (ptrs (passL L F0) i)) r4
    (fun i s hi r => induceStepL_ok o hs hi r)
  obtain ⟨B, hB⟩ := hsI.done
  refine ⟨s.m, B, ?_, hB⟩
  unfold induceL
  rw [e1]
  simp only [Option.bind_eq_bind, Option.bind_some, cj, r1.chr hl, h1.rdB hkl, codeL_eq r1 hl, e2, es]

/-! ### The second pass -/

/-- The pass that puts the positions of type S into the array; its slots are counted from the end. -/
def passS (L : Lay) (F1 : Nat → Option Nat) : Pass where
  n := L.n
  k := L.k
  key := fun p => L.k - 1 - L.T p
  Z := sTy L.T L.n
  pred := fun s => if 0 < s ∧ s < L.n ∧ sTy L.T L.n (s - 1) = true then some (s - 1) else none
  init := []
  F0 := F1

theorem passS_pred {L : Lay} {F1 : Nat → Option Nat} {s p : Nat} : (passS L F1).pred s = some p ↔ 0 < s ∧ s < L.n ∧ sTy L.T L.n (s - 1) = true ∧ p = s - 1 := by
  unfold passS
  simp only
  split
  · rename_i h
    constructor
    · intro e; cases e; exact ⟨h.1, h.2.1, h.2.2, rfl⟩
    · rintro ⟨-, -, -, rfl⟩; rfl
  · rename_i h
    constructor
    · intro e; cases e
    · rintro ⟨a, b, c, -⟩; exact absurd ⟨a, b, c⟩ h

structure SeedsS (L : Lay) (F1 : Nat → Option Nat) : Prop where
  ty : ∀ a s, F1 a = some s → s < L.n ∧ sTy L.T L.n s = false
  place : ∀ a s, F1 a = some s → a < L.n ∧ L.start (L.T s) ≤ L.n - 1 - a ∧ L.n - 1 - a < L.start (L.T s) + L.lnum (L.T s)
  inj : ∀ a b s, F1 a = some s → F1 b = some s → a = b

theorem cnt_compl (n : Nat) (P : Nat → Bool) : cnt n P + cnt n (fun i => !P i) = n := by
  have := cnt_disjoint (n := n) (P := P) (Q := fun i => !P i) (R := fun _ => true) (fun i _ => by cases P i <;> rfl) (fun i _ => by cases P i <;> simp)
  rw [← this]
  exact cnt_true _ _ (fun _ _ => rfl)

theorem passS_start {L : Lay} (o : L.Ok) {F1 : Nat → Option Nat} {c : Nat} (hc : c < L.k) :
    (passS L F1).start (L.k - 1 - c) = L.n - L.start (c + 1) ∧ (passS L F1).start (L.k - 1 - c + 1) = L.n - L.start c ∧ (passS L F1).zone (L.k - 1 - c) = L.snum c := by
  have h1 := cnt_compl L.n (fun i => decide (L.T i < c + 1))
  have h2 := cnt_compl L.n (fun i => decide (L.T i < c))
  refine ⟨?_, ?_, ?_⟩
  · have : (passS L F1).start (L.k - 1 - c) = cnt L.n (fun i => !decide (L.T i < c + 1)) := by
      apply cnt_congr
      intro i hi
      have := o.key i hi
      show decide (L.k - 1 - L.T i < L.k - 1 - c) = _
      rw [← decide_not]
      exact decide_eq_decide.2 (by omega)
    rw [this]
    unfold Lay.start
    omega
  · have : (passS L F1).start (L.k - 1 - c + 1) = cnt L.n (fun i => !decide (L.T i < c)) := by
      apply cnt_congr
      intro i hi
      have := o.key i hi
      show decide (L.k - 1 - L.T i < L.k - 1 - c + 1) = _
      rw [← decide_not]
      exact decide_eq_decide.2 (by omega)
    rw [this]
    unfold Lay.start
    omega
  · apply cnt_congr
    intro i hi
    have := o.key i hi
    show (decide (L.k - 1 - L.T i = L.k - 1 - c) && sTy L.T L.n i) = _
    congr 1
    exact decide_eq_decide.2 (by omega)

theorem passS_ok {L : Lay} (o : L.Ok) {F1 : Nat → Option Nat} (hs : SeedsS L F1) : (passS L F1).Ok := by
  refine ⟨?_, ?_, ?_, ?_, ?_, ?_, ?_, hs.inj⟩
  · intro p hp
    have := o.key p hp
    show L.k - 1 - L.T p < L.k
    omega
  · intro p hp; cases hp
  · exact List.nodup_nil
  · intro s p _ hm; cases hm
  · intro s s' p h1 h2
    have h1 := passS_pred.1 h1
    have h2 := passS_pred.1 h2
    omega
  · intro s p h1 _
    obtain ⟨h2, h3, h4, rfl⟩ := passS_pred.1 h1
    refine ⟨by show s - 1 < L.n; omega, h4, ?_⟩
    show L.k - 1 - L.T s < L.k - 1 - L.T (s - 1) ∨ (L.k - 1 - L.T s = L.k - 1 - L.T (s - 1) ∧ sTy L.T L.n s = true)
    have h5 := (sTy_next h4).2
    rw [show s - 1 + 1 = s by omega] at h5
    have k1 := o.key s h3
    have k2 := o.key (s - 1) (by omega)
    rcases Nat.lt_or_eq_of_le h5 with h6 | h6
    · left; omega
    · right
      have := sTy_same (T := L.T) (n := L.n) (i := s - 1) (by omega) (by rw [show s - 1 + 1 = s by omega]; exact h6)
      rw [show s - 1 + 1 = s by omega, h4] at this
      exact ⟨by omega, this.symm⟩
  · intro a s e
    obtain ⟨h1, h2⟩ := hs.ty a s e
    obtain ⟨h3, h4, h5⟩ := hs.place a s e
    have hk := o.key s h1
    obtain ⟨p1, p2, p3⟩ := passS_start o (F1 := F1) hk
    refine ⟨h1, h2, ?_, ?_⟩
    · show (passS L F1).start (L.k - 1 - L.T s) + (passS L F1).zone (L.k - 1 - L.T s) ≤ a
      rw [p1, p3, L.start_succ, L.num_split]
      have := L.start_le (L.T s + 1)
      rw [L.start_succ, L.num_split] at this
      omega
    · show a < (passS L F1).start (L.k - 1 - L.T s + 1)
      rw [p2]
      have := L.start_le (L.T s)
      omega

/-- The entry of a position before it is looked at: positive if its predecessor is of type S. -/
def encS (L : Lay) (s : Nat) : Int := if 0 < s ∧ sTy L.T L.n (s - 1) = true then (s : Int) else -(s : Int) - 1

/-- The pointers, counted from the beginning of the array. -/
def ptrsS (L : Lay) (P : Pass) (t : Nat) : Nat → Int := fun c => (L.n : Int) - ((P.run t).G (L.k - 1 - c) : Nat)

theorem sTy_before {T : Nat → Nat} {n p : Nat} (h0 : 0 < p) (hp : sTy T n p = true) : sTy T n (p - 1) = true ↔ T (p - 1) ≤ T p := by
  have hn := (sTy_next hp).1
  constructor
  · intro h
    have := (sTy_next h).2
    rwa [show p - 1 + 1 = p by omega] at this
  · intro h
    rcases Nat.lt_or_eq_of_le h with h' | h'
    · exact sTy_lt (by omega) (by rw [show p - 1 + 1 = p by omega]; exact h')
    · rw [sTy_same (by omega) (by rw [show p - 1 + 1 = p by omega]; exact h'), show p - 1 + 1 = p by omega]; exact hp

theorem codeS_eq {L : Lay} {m0 m : Mem} {c1 b2 : Int} {A G : Nat → Int} (h : Rep L m0 m c1 b2 A G) {p : Nat} (hp : p < L.n) (hty : sTy L.T L.n p = true) :
    codeS L.t m (L.T p : Int) (p : Int) = some (encS L p) := by
  unfold codeS encS
  by_cases h0 : 0 < p
  · rw [if_neg (by omega), h.chr' (i := p - 1) (by omega) (by omega), Option.map_some]
    by_cases h1 : L.T p < L.T (p - 1)
    · rw [if_pos (by omega), if_neg]
      rw [sTy_before h0 hty]
      omega
    · rw [if_neg (by omega), if_pos]
      rw [sTy_before h0 hty]
      exact ⟨h0, by omega⟩
  · rw [if_pos (by omega), if_neg (by omega)]

/-- Where the next entry goes. -/
theorem targetS {L : Lay} (o : L.Ok) {F1 : Nat → Option Nat} (hs : SeedsS L F1) {t q : Nat} (ef : ((passS L F1).run t).F t = some q)
    (hq : (passS L F1).pred q = some (q - 1)) :
    0 < q ∧ q < L.n ∧ L.T (q - 1) ≤ L.T q ∧ sTy L.T L.n (q - 1) = true ∧ ((passS L F1).run t).G (L.k - 1 - L.T (q - 1)) < L.n ∧
    t < ((passS L F1).run t).G (L.k - 1 - L.T (q - 1)) ∧ ((passS L F1).run t).F (((passS L F1).run t).G (L.k - 1 - L.T (q - 1))) = none := by
  have ok := passS_ok o hs
  obtain ⟨s1, s2, s3, s4, s5, s6, s7⟩ := (Pass.step_inv ok (Pass.run_inv ok t)).2.2 q (q - 1) ef hq
  have h1 := (passS L F1).zone_le (L.k - 1 - L.T (q - 1))
  have h2 := (passS L F1).start_le (L.k - 1 - L.T (q - 1) + 1)
  have s6 : ((passS L F1).run t).G (L.k - 1 - L.T (q - 1)) < (passS L F1).start (L.k - 1 - L.T (q - 1)) + (passS L F1).zone (L.k - 1 - L.T (q - 1)) := s6
  have h3 : (passS L F1).n = L.n := rfl
  have hp := passS_pred.1 hq
  have h4 := (sTy_next hp.2.2.1).2
  rw [show q - 1 + 1 = q by omega] at h4
  exact ⟨hp.1, hp.2.1, h4, hp.2.2.1, by omega, s4, s3⟩

theorem ptrsS_hot {L : Lay} (o : L.Ok) {F1 : Nat → Option Nat} {t q p : Nat} (h : ((passS L F1).run t).F t = some q) (hq : (passS L F1).pred q = some p) (hp : p < L.n)
    (c : Nat) (hc : c < L.k) :
    upd (ptrsS L (passS L F1) t) (L.T p) ((L.n : Int) - (((passS L F1).run t).G (L.k - 1 - L.T p) : Nat) - 1) c = ptrsS L (passS L F1) (t + 1) c := by
  unfold ptrsS upd
  rw [run_hot h hq]
  show _ = (L.n : Int) - (((if L.k - 1 - c = L.k - 1 - L.T p then ((passS L F1).run t).G (L.k - 1 - c) + 1 else ((passS L F1).run t).G (L.k - 1 - c)) : Nat) : Int)
  have := o.key p hp
  by_cases e : c = L.T p
  · rw [if_pos e, if_pos (by omega), e]; push_cast; omega
  · rw [if_neg e, if_neg (by omega)]

/-- What the array says about the entries after `t` steps. -/
def ViewS (L : Lay) (F : Nat → Option Nat) (t : Nat) (A : Nat → Int) : Prop :=
  ∀ a q, a < L.n → F a = some q → A (L.n - 1 - a) = if a < t then (q : Int) else encS L q

/-- One step of the second pass. -/
theorem induceStepS_ok {L : Lay} (o : L.Ok) {F1 : Nat → Option Nat} (hs : SeedsS L F1) {m0 : Mem} {i t : Nat} (hi : i < L.n) (hit : i + t + 1 = L.n) {s : Cur} {A : Nat → Int}
    (hfull : ∃ q, ((passS L F1).run t).F t = some q)
    (r : Rep L m0 s.m s.c1 s.b2 A (ptrsS L (passS L F1) t)) (hv : ViewS L ((passS L F1).run t).F t A) :
    ∃ s' A', induceStepS L.t L.b i s = some s' ∧ Rep L m0 s'.m s'.c1 s'.b2 A' (ptrsS L (passS L F1) (t + 1)) ∧ ViewS L ((passS L F1).run (t + 1)).F (t + 1) A' := by
  obtain ⟨q, ef⟩ := hfull
  have ok := passS_ok o hs
  have hrd := r.rd hi
  have hA := hv t q (by omega) ef
  rw [if_neg (by omega), show L.n - 1 - t = i by omega] at hA
  rw [hA] at hrd
  unfold induceStepS
  by_cases hc : 0 < q ∧ sTy L.T L.n (q - 1) = true
  · have hqn := ((Pass.run_inv ok t).shape.bucket ok ef).1
    have hqn : q < L.n := hqn
    have hq : (passS L F1).pred q = some (q - 1) := passS_pred.2 ⟨hc.1, hqn, hc.2, rfl⟩
    obtain ⟨-, -, hT, hty, hGn, hiG, hnone⟩ := targetS o hs ef hq
    have s1 : q - 1 < L.n := by omega
    have henc : encS L q = (q : Int) := if_pos hc
    rw [henc] at hrd
    obtain ⟨m4, e4, r4⟩ := r.switch o (o.key _ s1)
    obtain ⟨m5, e5, r5⟩ := r4.wr o (i := L.n - 1 - ((passS L F1).run t).G (L.k - 1 - L.T (q - 1))) (by omega) (encS L (q - 1))
    have r6 := r5.move rfl ((L.n : Int) - (((passS L F1).run t).G (L.k - 1 - L.T (q - 1)) : Nat) - 1)
    refine ⟨⟨m5, (L.T (q - 1) : Int), (L.n : Int) - (((passS L F1).run t).G (L.k - 1 - L.T (q - 1)) : Nat) - 1⟩,
      upd A (L.n - 1 - ((passS L F1).run t).G (L.k - 1 - L.T (q - 1))) (encS L (q - 1)), ?_, ?_, ?_⟩
    · have hq1 : (q : Int) - 1 = ((q - 1 : Nat) : Int) := by omega
      have hc0 := r.chr' (i := q - 1) s1 hq1
      have hc1 := r.chr' (i := q) hqn (z := (q : Int) - 1 + 1) (by omega)
      simp only [hrd, Option.bind_eq_bind, Option.bind_some]
      rw [if_pos (by omega)]
      simp only [hc0, hc1, Option.bind_some]
      rw [if_neg (not_lt_cast hT), e4]
      simp only [Option.bind_some]
      have hbi : ¬ (i : Int) < ptrsS L (passS L F1) t (L.T (q - 1)) := by unfold ptrsS; omega
      have e5 : wr m4 (ptrsS L (passS L F1) t (L.T (q - 1)) - 1) (encS L (q - 1)) = some m5 := by
        rw [← e5]
        congr 1
        unfold ptrsS
        omega
      rw [if_neg hbi, hq1, codeS_eq r4 s1 hty]
      simp only [Option.bind_some, e5]
      rfl
    · exact r6.ext (fun _ _ => rfl) (ptrsS_hot o ef hq s1)
    · intro a x ha hx
      rw [run_hot ef hq] at hx
      have hx : (if a = ((passS L F1).run t).G (L.k - 1 - L.T (q - 1)) then some (q - 1) else ((passS L F1).run t).F a) = some x := hx
      by_cases e : a = ((passS L F1).run t).G (L.k - 1 - L.T (q - 1))
      · rw [if_pos e] at hx
        cases hx
        rw [e, upd_eq, if_neg (by omega)]
      · rw [if_neg e] at hx
        rw [upd_ne _ _ (by omega), hv a x ha hx]
        by_cases hat : a = t
        · subst hat
          rw [ef] at hx
          cases hx
          rw [if_neg (by omega), if_pos (by omega), henc]
        · by_cases hlt : a < t
          · rw [if_pos hlt, if_pos (by omega)]
          · rw [if_neg hlt, if_neg (by omega)]
  · have henc : encS L q = -(q : Int) - 1 := if_neg hc
    rw [henc] at hrd
    obtain ⟨m3, e3, r3⟩ := r.wr o hi (-(-(q : Int) - 1) - 1)
    have hcold : (passS L F1).run (t + 1) = (passS L F1).run t := by
      apply run_cold
      intro q' hq'
      rw [ef] at hq'
      cases hq'
      cases e' : (passS L F1).pred q with
      | none => rfl
      | some p =>
        have := passS_pred.1 e'
        exact absurd ⟨this.1, this.2.2.1⟩ hc
    refine ⟨⟨m3, s.c1, s.b2⟩, upd A i (-(-(q : Int) - 1) - 1), ?_, ?_, ?_⟩
    · simp only [hrd, Option.bind_eq_bind, Option.bind_some]
      rw [if_neg (by omega)]
      simp only [e3, Option.bind_some]
    · unfold ptrsS at r3 ⊢
      rw [hcold]
      exact r3
    · intro a x ha hx
      rw [hcold] at hx
      by_cases hat : a = t
      · subst hat
        rw [ef] at hx
        cases hx
        rw [show L.n - 1 - a = i by omega, upd_eq, if_pos (by omega)]
        omega
      · rw [upd_ne _ _ (by omega), hv a x ha hx]
        by_cases hlt : a < t
        · rw [if_pos hlt, if_pos (by omega)]
        · rw [if_neg hlt, if_neg (by omega)]

/-- If every position is in the array, every slot is used. -/
theorem slots_full {n : Nat} {F : Nat → Option Nat} (hall : ∀ p < n, ∃ a, a < n ∧ F a = some p) (a : Nat) (ha : a < n) : ∃ q, F a = some q := by
  let f : Nat → Nat := fun p => if h : ∃ a, a < n ∧ F a = some p then Classical.choose h else 0
  have hf : ∀ p < n, f p < n ∧ F (f p) = some p := by
    intro p hp
    have h := hall p hp
    have : f p = Classical.choose h := dif_pos h
    rw [this]
    exact Classical.choose_spec h
  have hnd : ((List.range n).map f).Nodup := by
    rw [List.nodup_iff_pairwise_ne, List.pairwise_map]
    have h0 := List.nodup_range (n := n)
    rw [List.nodup_iff_pairwise_ne] at h0
    refine List.Pairwise.imp_of_mem ?_ h0
    intro x y hx hy hne e
    have h1 := hf x (List.mem_range.1 hx)
    have h2 := hf y (List.mem_range.1 hy)
    rw [e, h2.2] at h1
    exact hne (Option.some.inj h1.2).symm
  have hm := mem_of_nodup_full (n := n) (P := fun _ => true) hnd (by
    intro p hp
    obtain ⟨x, hx, rfl⟩ := List.mem_map.1 hp
    exact ⟨(hf x (List.mem_range.1 hx)).1, rfl⟩) (by simp [cnt]) a ha rfl
  obtain ⟨x, hx, e⟩ := List.mem_map.1 hm
  exact ⟨x, by rw [← e]; exact (hf x (List.mem_range.1 hx)).2⟩

/-- All positions of type S are put into the array. -/
theorem passS_all {L : Lay} (o : L.Ok) {F1 : Nat → Option Nat} (hs : SeedsS L F1) (hall : ∀ p < L.n, sTy L.T L.n p = false → ∃ a, F1 a = some p) :
    ∀ p < L.n, ∃ a, a < L.n ∧ ((passS L F1).run L.n).F a = some p := by
  have ok := passS_ok o hs
  have sh := (Pass.run_inv ok L.n).shape
  have : ∀ d p, p < L.n → L.n - p = d → ∃ a, a < L.n ∧ ((passS L F1).run L.n).F a = some p := by
    intro d
    induction d using Nat.strongRecOn with
    | _ d ih =>
      intro p hp hd
      cases hty : sTy L.T L.n p with
      | false =>
        obtain ⟨a, e⟩ := hall p hp hty
        exact ⟨a, (hs.place a p e).1, sh.seed ok e⟩
      | true =>
        have hn := (sTy_next hty).1
        obtain ⟨a, h1, h2⟩ := ih (L.n - (p + 1)) (by omega) (p + 1) hn rfl
        have := Pass.final_closed ok (a := a) (q := p + 1) (p := p) h1 h2 (passS_pred.2 ⟨by omega, hn, by rw [Nat.add_sub_cancel]; exact hty, by omega⟩)
        exact sh.slot this
  exact fun p hp => this _ p hp rfl

/-- `induceS`: the second pass. -/
theorem induceS_ok {L : Lay} (o : L.Ok) {F1 : Nat → Option Nat} (hs : SeedsS L F1) (hall : ∀ p < L.n, sTy L.T L.n p = false → ∃ a, F1 a = some p)
    {m : Mem} {A f g : Nat → Int} (ha : Arr m 0 L.n A) (hA : ∀ a q, a < L.n → F1 a = some q → A (L.n - 1 - a) = encS L q) (hc : Arr m L.c L.k f) (hb : Arr m L.b L.k g)
    (ht : HasTxt L.t m L.n L.T) (hcnt : L.c ≠ L.b → ∀ x < L.k, f x = (L.num x : Nat)) :
    ∃ m' A' B, induceS L.t L.c L.b L.n L.k m = some m' ∧ Holds L m m' A' B ∧ ∀ a q, a < L.n → ((passS L F1).run L.n).F a = some q → A' (L.n - 1 - a) = q := by
  have hn := o.npos
  have ok := passS_ok o hs
  have hk : 0 < L.k := by have := o.key 0 hn; omega
  obtain ⟨m1, e1, h1⟩ := buckets_ok o true ha hc hb ht hcnt
  have h1 : Holds L m m1 A (fun x => ((L.start (x + 1) : Nat) : Int)) := h1
  have r1 := Rep.start h1 hk
  have r2 : Rep L m m1 (0 : Int) ((L.start 1 : Nat) : Int) A (ptrsS L (passS L F1) 0) := by
    refine r1.ext (fun _ _ => rfl) ?_
    intro c hc
    show ((L.start (c + 1) : Nat) : Int) = (L.n : Int) - ((passS L F1).start (L.k - 1 - c) : Nat)
    rw [(passS_start o hc).1]
    have := L.start_le (c + 1)
    omega
  obtain ⟨s, es, A', rs, vs⟩ := downto_rule (n := L.n) (body := induceStepS L.t L.b) (s := ⟨m1, 0, ((L.start 1 : Nat) : Int)⟩)
    (fun i s => ∃ A, Rep L m s.m s.c1 s.b2 A (ptrsS L (passS L F1) (L.n - i)) ∧ ViewS L ((passS L F1).run (L.n - i)).F (L.n - i) A)
    ⟨A, by rw [Nat.sub_self]; exact r2, by
      rw [Nat.sub_self]
      intro a q ha' hq
      rw [if_neg (by omega)]
      exact hA a q ha' hq⟩
    (by
      rintro i s hi ⟨A, r, v⟩
      have hfull : ∃ q, ((passS L F1).run (L.n - (i + 1))).F (L.n - (i + 1)) = some q := by
        obtain ⟨q, hq⟩ := slots_full (passS_all o hs hall) (L.n - (i + 1)) (by omega)
        refine ⟨q, ?_⟩
        rw [Pass.run_stable ok (i := L.n - (i + 1) + 1) (by omega) _ (by omega)] at hq
        rw [← (Pass.step_inv ok (Pass.run_inv ok (L.n - (i + 1)))).2.1 _ (Nat.le_refl _)]
        exact hq
      obtain ⟨s', A', e', r', v'⟩ := induceStepS_ok o hs (t := L.n - (i + 1)) hi (by omega) hfull r v
      rw [show L.n - (i + 1) + 1 = L.n - i by omega] at r' v'
      exact ⟨s', e', A', r', v'⟩)
  obtain ⟨B, hB⟩ := rs.done
  refine ⟨s.m, A', B, ?_, hB, ?_⟩
  · unfold induceS
    have hr : rd m1 L.b = some ((L.start 1 : Nat) : Int) := by
      have := h1.rdB hk
      simpa using this
    rw [e1]
    simp only [Option.bind_eq_bind, Option.bind_some, hr, es]
  · intro a q ha' hq
    have := vs a q ha' (by rw [Nat.sub_zero]; exact hq)
    rw [if_pos (by omega)] at this
    exact this

/-! ### Both passes -/

/-- All positions of type L that can be reached are put into the array. -/
theorem passL_all {L : Lay} (o : L.Ok) {F0 : Nat → Option Nat} (hs : SeedsOk L F0) (lo : Nat) (hall : ∀ s, lo < s → lms L.T L.n s = true → ∃ a, F0 a = some s) :
    ∀ p < L.n, lo ≤ p → sTy L.T L.n p = false → ∃ a, a < L.n ∧ ((passL L F0).run L.n).F a = some p := by
  have ok := passL_ok o hs
  have sh := (Pass.run_inv ok L.n).shape
  have : ∀ d p, p < L.n → L.n - p = d → lo ≤ p → sTy L.T L.n p = false → ∃ a, a < L.n ∧ ((passL L F0).run L.n).F a = some p := by
    intro d
    induction d using Nat.strongRecOn with
    | _ d ih =>
      intro p hp hd hlo hty
      by_cases hl : p = L.n - 1
      · exact sh.slot (Pass.final_init ok (by simp [passL, hl]))
      · have hsrc : ∃ a, a < L.n ∧ ((passL L F0).run L.n).F a = some (p + 1) := by
          cases hty' : sTy L.T L.n (p + 1) with
          | false => exact ih (L.n - (p + 1)) (by omega) (p + 1) (by omega) rfl (by omega) hty'
          | true =>
            obtain ⟨a, e⟩ := hall (p + 1) (by omega) (lms_iff.2 ⟨by omega, hty', by rw [Nat.add_sub_cancel]; exact hty⟩)
            have := (hs.place a _ e).2
            have := L.start_le (L.T (p + 1) + 1)
            exact ⟨a, by omega, sh.seed ok e⟩
        obtain ⟨a, h1, h2⟩ := hsrc
        have := Pass.final_closed ok (a := a) (q := p + 1) (p := p) h1 h2 (passL_pred.2 ⟨by omega, by omega, by rw [Nat.add_sub_cancel]; exact hty, by omega⟩)
        exact sh.slot this
  exact fun p hp h1 h2 => this _ p hp rfl h1 h2

/-- The entries of type L after the first pass, counted from the end. -/
def midF (L : Lay) (F0 : Nat → Option Nat) (a : Nat) : Option Nat :=
  if a < L.n then (((passL L F0).run L.n).F (L.n - 1 - a)).filter (fun s => !sTy L.T L.n s) else none

theorem midF_iff {L : Lay} {F0 : Nat → Option Nat} {a s : Nat} : midF L F0 a = some s ↔ a < L.n ∧ ((passL L F0).run L.n).F (L.n - 1 - a) = some s ∧ sTy L.T L.n s = false := by
  unfold midF
  split
  · rename_i h
    rw [Option.filter_eq_some_iff]
    simp [h]
  · rename_i h
    simp [h]

theorem midF_seeds {L : Lay} (o : L.Ok) {F0 : Nat → Option Nat} (hs : SeedsOk L F0) : SeedsS L (midF L F0) := by
  have ok := passL_ok o hs
  have sh := (Pass.run_inv ok L.n).shape
  refine ⟨?_, ?_, ?_⟩
  · intro a s e
    have h := midF_iff.1 e
    exact ⟨(entry_ty o hs h.2.1).1, h.2.2⟩
  · intro a s e
    have h := midF_iff.1 e
    have hz := sh.zone1 h.2.1 (by show (!sTy L.T L.n s) = true; rw [h.2.2]; rfl) ok
    exact ⟨h.1, hz.2.1, hz.2.2.2⟩
  · intro a b s e1 e2
    have h1 := midF_iff.1 e1
    have h2 := midF_iff.1 e2
    have := sh.inj ok h1.2.1 h2.2.1
    omega

/-- The order of the suffixes fits the first pass. -/
theorem ordL {L : Lay} (o : L.Ok) {F0 : Nat → Option Nat}
    (hsort : ∀ a b p q, a < b → F0 a = some p → F0 b = some q → L.T p = L.T q → suf L.T L.n p < suf L.T L.n q) :
    (passL L F0).Ord (fun p q => suf L.T L.n p < suf L.T L.n q) := by
  have hn := o.npos
  refine ⟨fun p q hp hq h => suf_lt_key hp hq h, ?_, ?_, ?_, ?_, hsort⟩
  · intro p q hp hq he hz hz'
    have hz : (!sTy L.T L.n p) = true := hz
    have hz' : (!sTy L.T L.n q) = false := hz'
    exact suf_lt_type _ p q rfl hp hq he (by simpa using hz) (by simpa using hz')
  · intro s s' p q h1 h2 hp hq _ _ he hr
    have h1 := passL_pred.1 h1
    have h2 := passL_pred.1 h2
    apply suf_lt_pred hp hq he
    rw [show p + 1 = s by omega, show q + 1 = s' by omega]
    exact hr
  · intro p q hp hq _ he hne
    have hq : q < L.n := hq
    have hpn : p = L.n - 1 := by simpa [passL] using hp
    apply suf_lt_pred (by omega) hq he
    exact suf_end_lt (by omega) (by omega)
  · simp [passL]

/-- The order of the suffixes fits the second pass. -/
theorem ordS {L : Lay} (o : L.Ok) {F1 : Nat → Option Nat} (hs : SeedsS L F1)
    (hsort : ∀ a b p q, a < b → F1 a = some p → F1 b = some q → L.T p = L.T q → suf L.T L.n q < suf L.T L.n p) :
    (passS L F1).Ord (fun p q => suf L.T L.n q < suf L.T L.n p) := by
  have hkey : ∀ p q, p < L.n → q < L.n → (passS L F1).key p = (passS L F1).key q → L.T p = L.T q := by
    intro p q hp hq h
    have h : L.k - 1 - L.T p = L.k - 1 - L.T q := h
    have := o.key p hp
    have := o.key q hq
    omega
  refine ⟨?_, ?_, ?_, ?_, ?_, ?_⟩
  · intro p q hp hq h
    have h : L.k - 1 - L.T p < L.k - 1 - L.T q := h
    exact suf_lt_key hq hp (by omega)
  · intro p q hp hq he hz hz'
    exact suf_lt_type _ q p rfl hq hp (hkey p q hp hq he).symm hz' hz
  · intro s s' p q h1 h2 hp hq _ _ he hr
    have h1 := passS_pred.1 h1
    have h2 := passS_pred.1 h2
    apply suf_lt_pred hq hp (hkey p q hp hq he).symm
    rw [show p + 1 = s by omega, show q + 1 = s' by omega]
    exact hr
  · intro p q hp; cases hp
  · simp [passS]
  · intro a b p q hab h1 h2 he
    have hp := (hs.ty a p h1).1
    have hq := (hs.ty b q h2).1
    exact hsort a b p q hab h1 h2 (hkey p q hp hq he)

/-- `S` is the array of all positions in the order of their suffixes. -/
structure IsSA (T : Nat → Nat) (n : Nat) (S : Nat → Nat) : Prop where
  lt : ∀ i < n, S i < n
  sorted : ∀ i j, i < j → j < n → suf T n (S i) < suf T n (S j)

/-- `induce_sa`: if the leftmost positions of the ascending runs are at the ends of their buckets in the order of their suffixes, the array becomes the suffix array. -/
theorem induceSa_ok {L : Lay} (o : L.Ok) {F0 : Nat → Option Nat} (hs : SeedsOk L F0) (hall : ∀ s, lms L.T L.n s = true → ∃ a, F0 a = some s)
    (hsort : ∀ a b p q, a < b → F0 a = some p → F0 b = some q → L.T p = L.T q → suf L.T L.n p < suf L.T L.n q)
    {m : Mem} {f g : Nat → Int}
    (ha : Arr m 0 L.n (fun a => match F0 a with | none => 0 | some s => (s : Int))) (hc : Arr m L.c L.k f) (hb : Arr m L.b L.k g)
    (ht : HasTxt L.t m L.n L.T) (hcnt : L.c ≠ L.b → ∀ x < L.k, f x = (L.num x : Nat)) :
    ∃ m' S B, induceSa L.t L.c L.b L.n L.k m = some m' ∧ Holds L m m' (fun a => (S a : Nat)) B ∧ IsSA L.T L.n S := by
  have hn := o.npos
  have okL := passL_ok o hs
  have ha' : Arr m 0 L.n (fun a => rawL L.T (F0 a)) := by
    refine ha.ext ?_
    intro a _
    cases e : F0 a with
    | none => rfl
    | some s =>
      have h1 := hs.lms a s e
      have h2 := lms_pos h1
      have h3 := lms_gt (i := s - 1) (by rw [show s - 1 + 1 = s by omega]; exact h1)
      rw [show s - 1 + 1 = s by omega] at h3
      show (s : Int) = encL L.T s
      unfold encL
      rw [if_neg (by omega)]
  obtain ⟨m1, B1, e1, h1⟩ := induceL_ok o hs ha' hc hb ht hcnt
  have sS := midF_seeds o hs
  have allL : ∀ p < L.n, sTy L.T L.n p = false → ∃ a, midF L F0 a = some p := by
    intro p hp hty
    obtain ⟨a, h2, h3⟩ := passL_all o hs 0 (fun s _ hl => hall s hl) p hp (by omega) hty
    exact ⟨L.n - 1 - a, midF_iff.2 ⟨by omega, by rw [show L.n - 1 - (L.n - 1 - a) = a by omega]; exact h3, hty⟩⟩
  have hAS : ∀ a q, a < L.n → midF L F0 a = some q → viewL L ((passL L F0).run L.n).F L.n (L.n - 1 - a) = encS L q := by
    intro a q ha hq
    obtain ⟨-, h3, h4⟩ := midF_iff.1 hq
    have hqn := (entry_ty o hs h3).1
    unfold viewL
    rw [if_pos (by omega), h3]
    show -(encL L.T q) - 1 = encS L q
    unfold encL encS
    by_cases h0 : 0 < q
    · have := ty_before h0 hqn (Or.inl h4)
      by_cases h5 : L.T (q - 1) < L.T q
      · rw [if_pos ⟨h0, h5⟩, if_pos]
        · omega
        · refine ⟨h0, ?_⟩
          cases h6 : sTy L.T L.n (q - 1) with
          | true => rfl
          | false => have := this.1 h6; omega
      · rw [if_neg (by omega), if_neg]
        rw [this.2 (by omega)]
        simp
    · rw [if_neg (by omega), if_neg (by omega)]
  have hc1 : ∃ f1, Arr m1 L.c L.k f1 ∧ (L.c ≠ L.b → ∀ x < L.k, f1 x = (L.num x : Nat)) := by
    by_cases e : L.c = L.b
    · exact ⟨B1, by rw [e]; exact h1.bk, fun h => absurd e h⟩
    · refine ⟨f, hc.congr ?_, hcnt⟩
      intro a x y
      have := o.hc
      have := o.hcb
      have h9 := h1.frame a (by omega) (by omega)
      exact h9
  obtain ⟨f1, hf1, hf2⟩ := hc1
  obtain ⟨m2, A2, B2, e2, h2, hA2⟩ := induceS_ok o sS allL h1.sa hAS hf1 h1.bk h1.txt hf2
  have okS := passS_ok o sS
  have full := slots_full (passS_all o sS allL)
  have shS := (Pass.run_inv okS L.n).shape
  let S : Nat → Nat := fun i => (((passS L (midF L F0)).run L.n).F (L.n - 1 - i)).getD 0
  have hS : ∀ i < L.n, ((passS L (midF L F0)).run L.n).F (L.n - 1 - i) = some (S i) := by
    intro i hi
    obtain ⟨q, hq⟩ := full (L.n - 1 - i) (by omega)
    show _ = some (Option.getD _ 0)
    rw [hq]
    rfl
  refine ⟨m2, S, B2, ?_, ⟨h2.sa.ext ?_, h2.bk, h2.txt, ?_⟩, ?_, ?_⟩
  · unfold induceSa
    rw [e1]
    exact e2
  · intro i hi
    have := hA2 (L.n - 1 - i) (S i) (by omega) (hS i hi)
    rw [show L.n - 1 - (L.n - 1 - i) = i by omega] at this
    exact this
  · intro a x y
    rw [h2.frame a x y, h1.frame a x y]
  · intro i hi
    exact (shS.bucket okS (hS i hi)).1
  · intro i j hij hj
    have hsL := Pass.sorted okL (ordL o hsort) L.n
    have hsS : ∀ a b p q, a < b → midF L F0 a = some p → midF L F0 b = some q → L.T p = L.T q → suf L.T L.n q < suf L.T L.n p := by
      intro a b p q hab h3 h4 _
      have h3 := midF_iff.1 h3
      have h4 := midF_iff.1 h4
      exact hsL _ _ q p (by omega) h4.2.1 h3.2.1
    exact Pass.sorted okS (ordS o sS hsS) L.n (L.n - 1 - i) (L.n - 1 - j) (S j) (S i) (by omega) (hS j hj) (hS i (by omega))

end Bpak.Sais
