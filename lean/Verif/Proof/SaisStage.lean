import Verif.Proof.SaisPlace
/-! The stages of `sais_main` (lib/sais.c:465-750). -/
namespace Bpak.Sais

/-- What is known of a call: the array has `n + fs` cells, the text lies behind it. -/
structure Call (t : Txt) (T : Nat → Nat) (fs n k : Nat) (h0 : Heap) : Prop where
  npos : 0 < n
  key : ∀ i < n, T i < k
  txt : HasTxt t h0.mem n T
  intxt : ∀ a, inTxt t n a → ((n + fs : Nat) : Int) ≤ a ∧ a < h0.next

theorem Call.kpos {t : Txt} {T : Nat → Nat} {fs n k : Nat} {h0 : Heap} (q : Call t T fs n k h0) : 0 < k := by
  have := q.key 0 q.npos; omega

theorem Call.lay {t : Txt} {T : Nat → Nat} {fs n k : Nat} {h0 : Heap} (q : Call t T fs n k h0) {c b : Int} {f : Flags}
    (r : Reg ((n + fs : Nat) : Int) n k h0.next c b f) (hb : ((n + fs : Nat) : Int) ≤ h0.next) : (Lay.mk n k c b t T).Ok :=
  r.lay q.npos q.key (by omega) hb q.intxt

/-- Seeds in the order of their suffixes. -/
structure SeedsReady (L : Lay) (F : Nat → Option Nat) : Prop where
  ok : SeedsOk L F
  all : ∀ s, lms L.T L.n s = true → ∃ a, F a = some s
  sorted : ∀ a b p q, a < b → F a = some p → F b = some q → L.T p = L.T q → suf L.T L.n p < suf L.T L.n q

/-- The state after the first stage. -/
def AfterSort (T : Nat → Nat) (n k : Nat) (c b : Int) (t : Txt) (name : Int) (m : Mem) : Prop :=
  (1 < lmsNum T n ∧ ∃ W, Sorted1 T n W m name) ∨
  (lmsNum T n ≤ 1 ∧ name = (lmsNum T n : Nat) ∧ ∃ F, SeedsReady (Lay.mk n k c b t T) F ∧ Arr m 0 n (rawV F))

theorem seeds_one {L : Lay} (h : lmsNum L.T L.n ≤ 1) : SeedsReady L (seedF L 0) := by
  refine ⟨seedF_ok L 0, fun s hs => ⟨slot L s, seedF_iff.2 ⟨hs, (lms_pos hs).1, rfl⟩⟩, fun a b p q hab h1 h2 _ => ?_⟩
  obtain ⟨p1, p2, p3⟩ := seedF_iff.1 h1
  obtain ⟨q1, q2, q3⟩ := seedF_iff.1 h2
  have r1 := (lms_room p1).2
  have r2 := (lms_room q1).2
  have := cnt_inj p1 q1 (by omega)
  rw [this] at p3
  omega

theorem one_lms {T : Nat → Nat} {n p q : Nat} (h : lmsNum T n ≤ 1) (hp : lms T n p = true) (hq : lms T n q = true) : p = q := by
  have r1 := (lms_room hp).2
  have r2 := (lms_room hq).2
  exact cnt_inj hp hq (by omega)

/-- The third stage. -/
theorem induceAll_ok {t : Txt} {T : Nat → Nat} {fs n k : Nat} {h0 : Heap} (q : Call t T fs n k h0) {c b : Int} {f : Flags} {h : Heap} {j : Nat}
    (s : St ((n + fs : Nat) : Int) h0 (Own f c b k) h j) (r : Reg ((n + fs : Nat) : Int) n k h0.next c b f)
    (hcnt : f.f8 = false → c ≠ b ∧ Arr h.mem c k (fun x => (Lay.num (Lay.mk n k c b t T) x : Nat)))
    (hA : (1 < lmsNum T n ∧ ∃ V A, Vok T n V ∧ Arr h.mem 0 n A ∧ ∀ x < lmsNum T n, A x = (V x : Int)) ∨
      (lmsNum T n ≤ 1 ∧ ∃ F, SeedsReady (Lay.mk n k c b t T) F ∧ Arr h.mem 0 n (rawV F))) :
    ∃ h' S, induceAll t n k (lmsNum T n) c b f h = some h' ∧ St ((n + fs : Nat) : Int) h0 (fun _ => False) h' j ∧ Arr h'.mem 0 n (fun a => (S a : Nat)) ∧ IsSA T n S := by
  have hb := s.base
  have hnE : (n : Int) ≤ ((n + fs : Nat) : Int) := by omega
  have o := q.lay r hb
  obtain ⟨⟨A0, a1⟩, ⟨C0, a2⟩, ⟨B0, a3⟩⟩ := s.arrs r hnE
  have htx := s.txt q.txt q.intxt
  -- the counts
  have hrec : ∃ m1, recount t c n k f h.mem = some m1 ∧ Arr m1 c k (fun x => (Lay.num (Lay.mk n k c b t T) x : Nat)) ∧ SameOut c k h.mem m1 := by
    unfold recount
    cases h8 : f.f8 with
    | true =>
      rw [if_pos rfl]
      exact getCounts_ok a2 htx q.key (fun a ha hc => by
        have := (o.txt a ha).2.1
        have h2 : a < c ∨ c + k ≤ a := this
        omega)
    | false => exact ⟨_, by rw [if_neg (by simp)], (hcnt h8).2, fun _ _ => rfl⟩
  obtain ⟨m1, g1, g2, g3⟩ := hrec
  have hcn : (n : Int) ≤ c := o.hc
  have hbn : (n : Int) ≤ b := o.hb
  have keep : ∀ {A}, Arr h.mem 0 n A → Arr m1 0 n A := fun h => h.congr (fun a h1 h2 => g3 a (by omega))
  have ht1 : HasTxt t m1 n T := htx.congr (fun a ha => g3 a (by
    have := (o.txt a ha).2.1
    have h2 : a < c ∨ c + k ≤ a := this
    omega))
  have hb1 : ∃ B, Arr m1 b k B := by
    rcases r.cb with e | e
    · rw [← e]; exact ⟨_, g2⟩
    · exact ⟨_, a3.congr (fun a h1 h2 => g3 a (by omega))⟩
  obtain ⟨B1, hb1⟩ := hb1
  -- the seeds
  have hput : ∃ m2 F, putSorted t c b n k (lmsNum T n) m1 = some m2 ∧ SeedsReady (Lay.mk n k c b t T) F ∧ Arr m2 0 n (rawV F) ∧
      (∃ B, Arr m2 b k B) ∧ ∀ a : Int, ¬ (0 ≤ a ∧ a < n) → ¬ (b ≤ a ∧ a < b + k) → m2 a = m1 a := by
    rcases hA with ⟨hm, V, A, v, h1, h2⟩ | ⟨hm, F, h1, h2⟩
    · obtain ⟨m2, B, p1, p2⟩ := putSorted_ok (L := Lay.mk n k c b t T) o v hm (keep h1) h2 g2 (fun x _ => rfl) hb1 ht1
      have so := seedV_ok (L := Lay.mk n k c b t T) v
      exact ⟨m2, _, p1, ⟨so.1, so.2.1, so.2.2⟩, p2.sa, ⟨_, p2.bk⟩, fun a x y => p2.frame a x y⟩
    · refine ⟨m1, F, ?_, h1, keep h2, ⟨_, hb1⟩, fun _ _ _ => rfl⟩
      unfold putSorted; rw [if_neg (by omega)]
  obtain ⟨m2, F, p1, p2, p3, ⟨B2, p4⟩, p5⟩ := hput
  have hc2 : ∃ C, Arr m2 c k C ∧ (c ≠ b → ∀ x < k, C x = (Lay.num (Lay.mk n k c b t T) x : Nat)) := by
    rcases r.cb with e | e
    · exact ⟨B2, by rw [e]; exact p4, fun hne => absurd e hne⟩
    · exact ⟨_, g2.congr (fun a h1 h2 => p5 a (by omega) (by omega)), fun _ x _ => rfl⟩
  obtain ⟨C2, c1, c2⟩ := hc2
  have ht2 : HasTxt t m2 n T := ht1.congr (fun a ha => by
    have h1 : (n : Int) ≤ a := (o.txt a ha).1
    have h2 : a < b ∨ b + k ≤ a := (o.txt a ha).2.2
    exact p5 a (by omega) (by omega))
  obtain ⟨m3, S, B3, i1, i2, i3⟩ := induceSa_ok (L := Lay.mk n k c b t T) o p2.ok p2.all p2.sorted p3 c1 p4 ht2 c2
  have i1' : induceSa t c b n k m2 = some m3 := i1
  have hfr : ∀ a : Int, ¬ (0 ≤ a ∧ a < n) → ¬ (c ≤ a ∧ a < c + k) → ¬ (b ≤ a ∧ a < b + k) → m3 a = h.mem a := fun a x y z => by
    have e1 : m3 a = m2 a := i2.frame a x z
    rw [e1, p5 a x z, g3 a y]
  have hc3 : ∃ C, Arr m3 c k C := by
    rcases r.cb with e | e
    · exact ⟨B3, by rw [e]; exact i2.bk⟩
    · exact ⟨_, c1.congr (fun a h1 h2 => i2.frame a (by show ¬ (0 ≤ a ∧ a < (n : Int)); omega) (by show ¬ (b ≤ a ∧ a < b + (k : Int)); omega))⟩
  have s3 := s.upd r hnE hfr ⟨_, i2.sa⟩ hc3 ⟨_, i2.bk⟩
  have s4 := s3.freeIf (x := f.f1 || f.f4) (p := c) (len := k) (fun h => r.c1 (by simpa using h))
  have s5 := s4.1.freeIf (x := f.f2) (p := b) (len := k) (fun h => r.b1 h)
  refine ⟨_, S, ?_, s5.1.congr (fun a => ?_), ?_, i3⟩
  · unfold induceAll
    simp only [g1, p1, i1', Option.bind_eq_bind, Option.bind_some]
  · unfold Own
    constructor
    · rintro ⟨⟨h1 | h1, h2⟩, h3⟩
      · exact h2 ⟨by simpa using h1.1, h1.2⟩
      · exact h3 h1
    · exact fun h => h.elim
  · have hsa : Arr m3 0 n (fun a => (S a : Nat)) := i2.sa
    refine hsa.congr (fun a h1 h2 => ?_)
    have n1 : ¬ (f.f2 = true ∧ inB b k a) := fun h => by have := r.b1 h.1; unfold inB at h; omega
    have n2 : ¬ ((f.f1 || f.f4) = true ∧ inB c k a) := fun h => by have := r.c1 (by simpa using h.1); unfold inB at h; omega
    rw [s5.2 a n1, s4.2 a n2]

/-- Freeing everything. -/
theorem St.freeAll {E : Int} {n k : Nat} {c b : Int} {f : Flags} {h0 h : Heap} {j : Nat} (s : St E h0 (Own f c b k) h j) (r : Reg E n k h0.next c b f) :
    St E h0 (fun _ => False) (Sais.freeIf f.f2 (Sais.freeIf (f.f1 || f.f4) h c k) b k) j := by
  have s4 := s.freeIf (x := f.f1 || f.f4) (p := c) (len := k) (fun h => r.c1 (by simpa using h))
  have s5 := s4.1.freeIf (x := f.f2) (p := b) (len := k) (fun h => r.b1 h)
  refine s5.1.congr (fun a => ?_)
  unfold Own
  constructor
  · rintro ⟨⟨h1 | h1, h2⟩, h3⟩
    · exact h2 ⟨by simpa using h1.1, h1.2⟩
    · exact h3 h1
  · exact fun h => h.elim

/-- The first stage. -/
theorem sortSubs_ok {t : Txt} {T : Nat → Nat} {fs n k : Nat} {h0 : Heap} (q : Call t T fs n k h0) {c b : Int} {f : Flags} {h : Heap} {j : Nat} {s : Seeds} {lo : Nat} {m0 : Mem}
    (st : St ((n + fs : Nat) : Int) h0 (Own f c b k) { h with mem := s.m } j) (p : Pl ((n + fs : Nat) : Int) n k h0.next c b f)
    (hI : SeedInv (Lay.mk n k c b t T) m0 0 s lo) (hmm : s.mm = lmsNum T n)
    (hcnt : c ≠ b → Arr s.m c k (fun x => (Lay.num (Lay.mk n k c b t T) x : Nat))) :
    ∃ r h', sortSubs t c b n k f s { h with mem := s.m } = some (r, h') ∧
      ((r = none ∧ ∃ j', St ((n + fs : Nat) : Int) h0 (fun _ => False) h' j' ∧ ∃ i, i < j' ∧ h0.fails i = true) ∨
       ∃ name j', r = some name ∧ St ((n + fs : Nat) : Int) h0 (Own f c b k) h' j' ∧ AfterSort T n k c b t name h'.mem ∧
         (c ≠ b → Arr h'.mem c k (fun x => (Lay.num (Lay.mk n k c b t T) x : Nat)))) := by
  have hb := st.base
  have hnE : (n : Int) ≤ ((n + fs : Nat) : Int) := by omega
  have r := p.toReg
  have o := q.lay r hb
  have hcn : (n : Int) ≤ c := o.hc
  have hbn : (n : Int) ≤ b := o.hb
  have hk := q.kpos
  obtain ⟨⟨A0, a1⟩, ⟨C0, a2⟩, ⟨B0, a3⟩⟩ := st.arrs r hnE
  unfold sortSubs
  by_cases hgt : 1 < s.mm
  · rw [if_pos hgt]
    have hmm1 : 1 < lmsNum T n := by omega
    have hnum : 0 < lmsNum T n := by omega
    by_cases hsort : f.f16 = true ∨ f.f32 = true
    · rw [if_pos hsort]
      by_cases h16 : f.f16 = true
      · have hf1 := p.s16 h16
        have hf8 : f.f8 ≠ true := fun h => by rw [(p.p8' h).1] at hf1; cases hf1
        have hne : c ≠ b := fun h => hf8 (p.p8.2 h)
        rw [if_pos h16]
        rcases malloc_cases st (2 * k) with ⟨h1, e1, e2, e3, e4⟩ | ⟨d, h1, e1, e2, e2', e3, e4⟩
        · simp only [e1]
          have hx : (f.f1 || f.f4) = true := by simp [hf1]
          refine ⟨_, _, rfl, Or.inl ⟨rfl, j + 1, ?_, j, by omega, e4⟩⟩
          have := e3.freeAll r
          unfold freeIf at this
          rw [if_pos hx] at this
          rw [if_pos (Or.inl hf1)]
          exact this
        · simp only [e1]
          have hm1 : ∀ a : Int, a < h.next → h1.mem a = s.m a := e4
          have hlow : ∀ a : Int, ((0 ≤ a ∧ a < ((n + fs : Nat) : Int)) ∨ Own f c b k a) → a < h.next := fun a ha => by
            have h5 : h0.next ≤ h.next := st.next
            rcases ha with ha | ha
            · omega
            · exact (st.top a ha).2
          have hcl : c + k - 1 < h.next := hlow _ (r.inC ⟨by omega, by omega⟩)
          have hbl : b + k - 1 < h.next := hlow _ (r.inB ⟨by omega, by omega⟩)
          have hdh : h.next ≤ d := e2'
          have od : DOk (Lay.mk n k c b t T) d := by
            refine ⟨?_, Or.inr ?_, Or.inr ?_, hne, fun a ha => Or.inl ?_⟩
            · show (n : Int) ≤ d; omega
            · show b + (k : Int) ≤ d; omega
            · show c + (k : Int) ≤ d; omega
            · have := (q.intxt a ha).2; omega
          -- the seeds are still there
          have hI2 : SeedInv (Lay.mk n k c b t T) h1.mem 0 { s with m := h1.mem } lo := by
            refine ⟨⟨hI.mem.sa.congr (fun a x y => hm1 a (hlow a (Or.inl ⟨x, by have y' : a < 0 + (n : Int) := y; omega⟩))),
              hI.mem.bk.congr (fun a x y => hm1 a (hlow a (r.inB ⟨x, y⟩))), hI.mem.txt.congr (fun a ha => hm1 a ?_), fun _ _ _ => rfl⟩, hI.pend, hI.num⟩
            have := (q.intxt a ha).2
            have h5 : h0.next ≤ h.next := st.next
            omega
          have hc2 : Arr h1.mem c k (fun x => (Lay.num (Lay.mk n k c b t T) x : Nat)) := (hcnt hne).congr (fun a x y => hm1 a (hlow a (r.inC ⟨x, y⟩)))
          obtain ⟨D0, hd2⟩ := arr_of (m := h1.mem) (p := d) (n := 2 * k) (fun a x y => e3.cells a (Or.inr (Or.inr ⟨x, y⟩)))
          obtain ⟨name, m2, W, g1, g2, ⟨R, g3⟩, ⟨B, g4⟩, ⟨D, g5⟩, g6⟩ := sortSubs2_ok (L := Lay.mk n k c b t T) o od hI2 hnum hmm hc2 hd2
          have g1' : sortSubs2 t c b d n k s h1.mem = some (name, m2) := g1
          simp only [g1', Option.map_some, if_pos h16]
          have s2 : St ((n + fs : Nat) : Int) h0 (fun a => Own f c b k a ∨ inB d (2 * k) a) { h1 with mem := m2 } (j + 1) := by
            refine e3.step (Q := fun a => (0 ≤ a ∧ a < (n : Int)) ∨ inB b k a ∨ inB d (2 * k) a) (fun a hq => ?_) (fun a hq => ?_)
            · exact g6 a (fun x => hq (Or.inl x)) (fun x => hq (Or.inr (Or.inl x))) (fun x => hq (Or.inr (Or.inr (by unfold inB; push_cast; exact x))))
            · rcases hq with hq | hq | hq
              · exact ⟨Or.inl ⟨by omega, by omega⟩, g3.some (by omega) (by show a < 0 + (n : Int); omega)⟩
              · refine ⟨?_, g4.some hq.1 hq.2⟩
                rcases r.inB hq with x | x
                · exact Or.inl x
                · exact Or.inr (Or.inl x)
              · exact ⟨Or.inr (Or.inr hq), g5.some hq.1 hq.2⟩
          have s3 := s2.free (p := d) (len := 2 * k) e2
          refine ⟨_, _, rfl, Or.inr ⟨name, j + 1, rfl, ?_, ?_, fun _ => ?_⟩⟩
          · refine s3.1.congr (fun a => ⟨fun x => ?_, fun x => ⟨Or.inl x, fun y => ?_⟩⟩)
            · rcases x with ⟨x | x, y⟩
              · exact x
              · exact absurd x y
            · have := hlow a (Or.inr x)
              unfold inB at y; omega
          · have keep : ∀ a : Int, a < h.next → (free { h1 with mem := m2 } d (2 * k)).mem a = m2 a := fun a ha => s3.2 a (fun y => by unfold inB at y; omega)
            have hl : ((n + fs : Nat) : Int) ≤ h.next := by have h5 : h0.next ≤ h.next := st.next; omega
            refine Or.inl ⟨hmm1, W, g2.w, g2.num, fun x u hu => ?_, fun x j hj => ?_⟩
            · have := lmsNum_le T n
              rw [keep _ (by omega)]; exact g2.names x u hu
            · have := lmsNum_le T n
              rw [keep _ (by omega)]; exact g2.order x j hj
          · refine hc2.congr (fun a x y => ?_)
            rw [s3.2 a (fun z => by unfold inB at z; omega)]
            have hcb := r.cb
            refine g6 a ?_ ?_ ?_
            · show ¬ (0 ≤ a ∧ a < (n : Int)); omega
            · show ¬ (b ≤ a ∧ a < b + (k : Int)); omega
            · show ¬ (d ≤ a ∧ a < d + 2 * (k : Int)); omega
      · have h32 : f.f32 = true := hsort.resolve_left h16
        have hp := p.s32 h32
        have hne := hp.2.2.2
        have hcb : b + k ≤ c := by
          rcases r.cb with e | e | e
          · exact absurd e hne
          · omega
          · exact e
        simp only [if_neg h16]
        have od : DOk (Lay.mk n k c b t T) (b - 2 * k) := by
          refine ⟨?_, Or.inl ?_, Or.inl ?_, hne, fun a ha => Or.inr ?_⟩
          · show (n : Int) ≤ b - 2 * k; omega
          · show b - 2 * (k : Int) + 2 * k ≤ b; omega
          · show b - 2 * (k : Int) + 2 * k ≤ c; omega
          · have := (q.intxt a ha).1
            show b - 2 * (k : Int) + 2 * k ≤ a; omega
        obtain ⟨D0, hd⟩ := arr_of (m := s.m) (p := b - 2 * k) (n := 2 * k) (fun a x y => st.cells a (Or.inl ⟨by omega, by omega⟩))
        obtain ⟨name, m2, W, g1, g2, ⟨R, g3⟩, ⟨B, g4⟩, ⟨D, g5⟩, g6⟩ := sortSubs2_ok (L := Lay.mk n k c b t T) o od hI hnum hmm (hcnt hne) hd
        have g1' : sortSubs2 t c b (b - 2 * k) n k s s.m = some (name, m2) := g1
        rw [g1', Option.map_some]
        refine ⟨_, _, rfl, Or.inr ⟨name, j, rfl, ?_, Or.inl ⟨hmm1, W, g2⟩, fun _ => ?_⟩⟩
        · refine st.step (Q := fun a => (0 ≤ a ∧ a < (n : Int)) ∨ inB b k a ∨ inB (b - 2 * k) (2 * k) a) (fun a hq => ?_) (fun a hq => ?_)
          · exact g6 a (fun x => hq (Or.inl x)) (fun x => hq (Or.inr (Or.inl x))) (fun x => hq (Or.inr (Or.inr (by unfold inB; push_cast; exact x))))
          · rcases hq with hq | hq | hq
            · exact ⟨Or.inl ⟨by omega, by omega⟩, g3.some (by omega) (by show a < 0 + (n : Int); omega)⟩
            · exact ⟨r.inB hq, g4.some hq.1 hq.2⟩
            · refine ⟨Or.inl ?_, g5.some hq.1 hq.2⟩
              unfold inB at hq; push_cast at hq; omega
        · refine (hcnt hne).congr (fun a x y => g6 a ?_ ?_ ?_)
          · show ¬ (0 ≤ a ∧ a < (n : Int)); omega
          · show ¬ (b ≤ a ∧ a < b + (k : Int)); omega
          · show ¬ (b - 2 * (k : Int) ≤ a ∧ a < b - 2 * (k : Int) + 2 * (k : Int)); omega
    · rw [if_neg hsort]
      have hc0 : ∃ C, Arr s.m c k C ∧ (c ≠ b → ∀ x < k, C x = (Lay.num (Lay.mk n k c b t T) x : Nat)) := by
        by_cases e : c = b
        · exact ⟨C0, a2, fun h => absurd e h⟩
        · exact ⟨_, hcnt e, fun _ _ _ => rfl⟩
      obtain ⟨C, hc1, hc2⟩ := hc0
      obtain ⟨name, m2, W, g1, g2, ⟨R, g3⟩, ⟨B, g4⟩, g6⟩ := sortSubs1_ok (L := Lay.mk n k c b t T) o hI hnum hmm hc1 hc2
      have g1' : sortSubs1 t c b n k s s.m = some (name, m2) := g1
      rw [g1', Option.map_some]
      have kc : ∀ {X}, c ≠ b → Arr s.m c k X → Arr m2 c k X := fun hne hX => hX.congr (fun a x y => by
        have := r.cb
        refine g6 a ?_ ?_
        · show ¬ (0 ≤ a ∧ a < (n : Int)); omega
        · show ¬ (b ≤ a ∧ a < b + (k : Int)); omega)
      refine ⟨_, _, rfl, Or.inr ⟨name, j, rfl, ?_, Or.inl ⟨hmm1, W, g2⟩, fun hne => kc hne (hcnt hne)⟩⟩
      refine st.upd r hnE (fun a x y z => g6 a x z) ⟨_, g3⟩ ?_ ⟨_, g4⟩
      by_cases e : c = b
      · rw [e]; exact ⟨_, g4⟩
      · exact ⟨_, kc e hc1⟩
  · rw [if_neg hgt]
    have hle : lmsNum T n ≤ 1 := by omega
    have hready := seeds_one (L := Lay.mk n k c b t T) hle
    by_cases h1 : s.mm = 1
    · rw [if_pos h1]
      have hnum : 0 < lmsNum T n := by omega
      obtain ⟨l1, l2, l3, l4⟩ := hI.lowest hnum
      have hsl := slot_bounds (L := Lay.mk n k c b t T) l1
      have hsn : slot (Lay.mk n k c b t T) lo < n := hsl.2.2
      obtain ⟨w1, w2⟩ := hI.mem.wr o hsn (s.j + 1)
      rw [l3]
      simp only [w1, Option.map_some]
      have hsa : Arr (setM s.m (slot (Lay.mk n k c b t T) lo : Nat) (s.j + 1)) 0 n
          (upd (rawA (seedF (Lay.mk n k c b t T) lo) noMu) (slot (Lay.mk n k c b t T) lo) (s.j + 1)) := w2.sa
      have hfr : ∀ a : Int, ¬ (0 ≤ a ∧ a < (n : Int)) → setM s.m (slot (Lay.mk n k c b t T) lo : Nat) (s.j + 1) a = s.m a := fun a ha => setM_ne _ _ (by omega)
      refine ⟨_, _, rfl, Or.inr ⟨1, j, rfl, ?_, Or.inr ⟨hle, by omega, _, hready, ?_⟩, fun hne => ?_⟩⟩
      · refine st.upd r hnE (fun a x y z => hfr a x) ⟨_, hsa⟩ ⟨_, a2.congr (fun a x y => hfr a (by omega))⟩ ⟨_, a3.congr (fun a x y => hfr a (by omega))⟩
      · refine hsa.ext (fun a ha => ?_)
        by_cases hal : a = slot (Lay.mk n k c b t T) lo
        · rw [hal, upd_eq, rawV_some (seedF_iff.2 ⟨l1, (lms_pos l1).1, rfl⟩), l4]; omega
        · rw [upd_ne _ _ hal]
          have e1 : seedF (Lay.mk n k c b t T) lo a = none := by
            cases hx : seedF (Lay.mk n k c b t T) lo a with
            | none => rfl
            | some p =>
              obtain ⟨x1, x2, x3⟩ := seedF_iff.1 hx
              have := one_lms hle x1 l1
              omega
          have e2 : seedF (Lay.mk n k c b t T) 0 a = none := by
            cases hx : seedF (Lay.mk n k c b t T) 0 a with
            | none => rfl
            | some p =>
              obtain ⟨x1, x2, x3⟩ := seedF_iff.1 hx
              have := one_lms hle x1 l1
              rw [this] at x3
              omega
          rw [rawA_none e1, rawV_none e2]
      · exact (hcnt hne).congr (fun a x y => hfr a (by omega))
    · rw [if_neg h1]
      have hz : lmsNum T n = 0 := by omega
      have hno : ∀ p, lms T n p = true → False := fun p hp => by have := (lms_room hp).2; omega
      refine ⟨_, _, rfl, Or.inr ⟨0, j, rfl, st, Or.inr ⟨hle, by omega, _, hready, ?_⟩, hcnt⟩⟩
      have hsa : Arr s.m 0 n (rawA (seedF (Lay.mk n k c b t T) lo) noMu) := hI.mem.sa
      refine hsa.ext (fun a ha => ?_)
      have e1 : ∀ l, seedF (Lay.mk n k c b t T) l a = none := fun l => by
        cases hx : seedF (Lay.mk n k c b t T) l a with
        | none => rfl
        | some p => exact (hno p (seedF_iff.1 hx).1).elim
      rw [rawA_none (e1 lo), rawV_none (e1 0)]

end Bpak.Sais
