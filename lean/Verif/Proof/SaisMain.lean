import Verif.Proof.SaisStage
/-! `sais_main` (lib/sais.c:465-750). -/
namespace Bpak.Sais

/-- What a call of `sais_main` gives. -/
def Gives (r : Option (Int × Heap)) (T : Nat → Nat) (fs n : Nat) (h : Heap) : Prop :=
  ∃ rc h' j, r = some (rc, h') ∧ St ((n + fs : Nat) : Int) h (fun _ => False) h' j ∧
    ((rc = 0 ∧ ∃ S, IsSA T n S ∧ Arr h'.mem 0 n (fun a => (S a : Nat))) ∨ (rc = -2 ∧ ∃ i, i < j ∧ h.fails i = true))

theorem newSpace_ok {fs n k mm : Nat} {name : Int} {f : Flags} (hmm : 2 * mm ≤ n) (hname : 0 ≤ name) (hk : ¬ (f.f1 = true ∨ f.f4 = true) → k ≤ fs) :
    (newSpace fs n k mm name f).1 + 2 * mm ≤ n + fs ∧ n / 2 ≤ (newSpace fs n k mm name f).1 + mm ∧
    (newSpace fs n k mm name f).2.f1 = f.f1 ∧ (newSpace fs n k mm name f).2.f2 = f.f2 ∧ (newSpace fs n k mm name f).2.f4 = f.f4 ∧
    (f.f8 = true → (newSpace fs n k mm name f).2.f8 = true) ∧
    ((newSpace fs n k mm name f).2.f8 = false → f.f8 = false ∧ (¬ (f.f1 = true ∨ f.f4 = true) → (newSpace fs n k mm name f).1 + 2 * mm + k = n + fs)) := by
  unfold newSpace
  by_cases h1 : (!f.f1 && !f.f4 && !f.f8) = true
  · have h2 : f.f1 = false ∧ f.f4 = false ∧ f.f8 = false := by
      cases e1 : f.f1 <;> cases e2 : f.f4 <;> cases e3 : f.f8 <;> simp_all
    have h3 := hk (by rw [h2.1, h2.2.1]; simp)
    rw [if_pos h1]
    by_cases h4 : (k : Int) + name ≤ ((n + fs - 2 * mm : Nat) : Int)
    · rw [if_pos h4]
      exact ⟨by omega, by omega, rfl, rfl, rfl, id, fun h => ⟨h, fun _ => by omega⟩⟩
    · rw [if_neg h4]
      exact ⟨by omega, by omega, rfl, rfl, rfl, fun _ => rfl, fun h => by cases h⟩
  · rw [if_neg h1]
    refine ⟨by omega, by omega, rfl, rfl, rfl, id, fun h => ⟨h, fun h5 => ?_⟩⟩
    exfalso
    apply h1
    have h6 : f.f8 = false := h
    cases e1 : f.f1 <;> cases e2 : f.f4 <;> simp_all

/-- The second stage. -/
theorem solve_ok {rec : Txt → Nat → Nat → Nat → Heap → Option (Int × Heap)} {t : Txt} {T : Nat → Nat} {fs n k : Nat} {h0 : Heap} (q : Call t T fs n k h0)
    (hrec : ∀ t' T' fs' n' k' h', n' < n → Call t' T' fs' n' k' h' → St ((n' + fs' : Nat) : Int) h' (fun _ => False) h' 0 → Gives (rec t' fs' n' k' h') T' fs' n' h')
    {c b : Int} {f : Flags} {h : Heap} {j : Nat}
    (s : St ((n + fs : Nat) : Int) h0 (Own f c b k) h j) (p : Pl ((n + fs : Nat) : Int) n k h0.next c b f)
    (hcnt : c ≠ b → Arr h.mem c k (fun x => (Lay.num (Lay.mk n k c b t T) x : Nat))) {W : Nat → Nat} {name : Int} (hs : Sorted1 T n W h.mem name) (hlt : name < lmsNum T n) :
    ∃ r h', solve rec t fs n k (lmsNum T n) name c b f h = some (r, h') ∧
      ((r = none ∧ ∃ j', St ((n + fs : Nat) : Int) h0 (fun _ => False) h' j' ∧ ∃ i, i < j' ∧ h0.fails i = true) ∨
       ∃ c' b' f' j', r = some (c', b', f') ∧ St ((n + fs : Nat) : Int) h0 (Own f' c' b' k) h' j' ∧ Reg ((n + fs : Nat) : Int) n k h0.next c' b' f' ∧
         (f'.f8 = false → c' ≠ b' ∧ Arr h'.mem c' k (fun x => (Lay.num (Lay.mk n k c' b' t T) x : Nat))) ∧
         ∃ V A, Vok T n V ∧ Arr h'.mem 0 n A ∧ ∀ x < lmsNum T n, A x = (V x : Int)) := by
  have hb := s.base
  have r := p.toReg
  have o := q.lay r hb
  have hk := q.kpos
  have hle := lmsNum_le T n
  have hcn : (n : Int) ≤ c := o.hc
  have hname : name = (cnt (lmsNum T n) (newAt T n W) : Nat) := hs.num
  have hkfs : ¬ (f.f1 = true ∨ f.f4 = true) → k ≤ fs := fun hx => by have := p.inE hx; have := r.c0 hx; omega
  obtain ⟨n1, n2, n3, n4, n5, n6, n7⟩ := newSpace_ok (fs := fs) (k := k) (name := name) hle (by omega) hkfs
  -- the blocks that are not needed are given back
  have s1 := s.freeIf (x := f.f4) (p := c) (len := k) (fun hx => r.c1 (Or.inr hx))
  have s2 := s1.1.freeIf (x := f.f2) (p := b) (len := k) (fun hx => r.b1 hx)
  have h14 : f.f4 = true → f.f1 = false := fun hx => (p.p8' (p.p4 hx)).1
  have h24 : f.f4 = true → f.f2 = false := fun hx => (p.p8' (p.p4 hx)).2
  have hsep : f.f8 = false → c + k ≤ b ∨ b + k ≤ c := fun hx => by
    rcases r.cb with e | e
    · rw [p.p8.2 e] at hx; cases hx
    · exact e
  have h28 : f.f2 = true → f.f8 = false := fun hx => by
    cases e : f.f8 with
    | false => rfl
    | true => rw [(p.p8' e).2] at hx; cases hx
  have h18 : f.f1 = true → f.f8 = false := fun hx => by
    cases e : f.f8 with
    | false => rfl
    | true => rw [(p.p8' e).1] at hx; cases hx
  let O1 : Int → Prop := fun a => f.f1 = true ∧ inB c k a
  have s3 : St ((n + fs : Nat) : Int) h0 O1 (freeIf f.f2 (freeIf f.f4 h c k) b k) j := by
    refine s2.1.congr (fun a => ⟨fun hx => ?_, fun hx => ⟨⟨Or.inl ⟨Or.inl hx.1, hx.2⟩, fun hy => ?_⟩, fun hy => ?_⟩⟩)
    · obtain ⟨⟨hx1 | hx1, hx2⟩, hx3⟩ := hx
      · rcases hx1.1 with e | e
        · exact ⟨e, hx1.2⟩
        · exact absurd ⟨e, hx1.2⟩ hx2
      · exact absurd hx1 hx3
    · have h1 := hx.1
      rw [h14 hy.1] at h1; cases h1
    · have h1 := hx.2
      have h2 := hy.2
      have h3 := hsep (h28 hy.1)
      unfold inB at h1 h2; omega
  have keepLow : ∀ a : Int, a < ((n + fs : Nat) : Int) → (freeIf f.f2 (freeIf f.f4 h c k) b k).mem a = h.mem a := fun a ha => by
    rw [s2.2 a (fun hx => by have := r.b1 hx.1; have h2 := hx.2; unfold inB at h2; omega), s1.2 a (fun hx => by have := r.c1 (Or.inr hx.1); have h2 := hx.2; unfold inB at h2; omega)]
  have keepC : f.f8 = false → ∀ a : Int, inB c k a → (freeIf f.f2 (freeIf f.f4 h c k) b k).mem a = h.mem a := fun h8 a ha => by
    rw [s2.2 a (fun hx => by have h2 := hx.2; have h3 := hsep h8; unfold inB at h2 ha; omega), s1.2 a (fun hx => by rw [p.p4 hx.1] at h8; cases h8)]
  unfold solve
  generalize hsp : newSpace fs n k (lmsNum T n) name f = sp at n1 n2 n3 n4 n5 n6 n7
  generalize hh1 : freeIf f.f2 (freeIf f.f4 h c k) b k = h1 at s3 keepLow keepC
  simp only []
  rw [if_neg (by omega)]
  -- the text of the recursive call
  obtain ⟨X, hX⟩ := arr_of (m := h1.mem) (p := (lmsNum T n : Int) + (sp.1 : Nat)) (n := lmsNum T n) (fun a x y => s3.cells a (Or.inl ⟨by omega, by omega⟩))
  obtain ⟨m2, d1, d2, d3⟩ := reducedText_ok (T := T) (n := n) (W := W) (m := h1.mem) (newfs := sp.1) (ra := (lmsNum T n : Int) + (sp.1 : Nat)) rfl n2
    (fun u hu => by rw [keepLow _ (by omega)]; exact hs.names hlt u hu) hX
  have s4 : St ((n + fs : Nat) : Int) h0 O1 { h1 with mem := m2 } j := by
    refine s3.step (Q := fun a => inB ((lmsNum T n : Int) + (sp.1 : Nat)) (lmsNum T n) a) (fun a hq => d3 a hq) (fun a hq => ⟨Or.inl ?_, d2.some hq.1 hq.2⟩)
    unfold inB at hq; omega
  have hnx : h0.next ≤ h1.next := s3.next
  have hmpos : 0 < lmsNum T n := by omega
  have hcall : Call (.words ((lmsNum T n : Int) + (sp.1 : Nat))) (redT T n W) sp.1 (lmsNum T n) name.toNat { h1 with mem := m2 } := by
    refine ⟨hmpos, fun i hi => ?_, fun i hi => ?_, fun a ha => ?_⟩
    · have := redT_lt hs.w hi; omega
    · exact d2 i hi
    · have h2 : (lmsNum T n : Int) + (sp.1 : Nat) ≤ a ∧ a < (lmsNum T n : Int) + (sp.1 : Nat) + (lmsNum T n : Nat) := ha
      refine ⟨by omega, ?_⟩
      show a < h1.next; omega
  have hst : St ((lmsNum T n + sp.1 : Nat) : Int) { h1 with mem := m2 } (fun _ => False) { h1 with mem := m2 } 0 := by
    refine St.start ?_ (fun a ha => ?_) (fun a x y => s4.cells a (Or.inl ⟨x, by omega⟩))
    · show ((lmsNum T n + sp.1 : Nat) : Int) ≤ h1.next; omega
    · have ha' : h1.next ≤ a := ha
      exact s4.own a (by omega) (fun hx => by have h9 : a < h1.next := (s4.top a hx).2; omega)
  obtain ⟨rc, h3, j3, v1, v2, v3⟩ := hrec _ (redT T n W) sp.1 (lmsNum T n) name.toNat { h1 with mem := m2 } (by omega) hcall hst
  simp only [d1, v1, Option.bind_eq_bind, Option.bind_some]
  obtain ⟨s5, k5⟩ := s4.call (E' := ((lmsNum T n + sp.1 : Nat) : Int)) (by omega) v2
  have fshift : ∀ i, ({ h1 with mem := m2 } : Heap).fails i = h0.fails (i + j) := fun i => by rw [s4.fails]
  rcases v3 with ⟨rfl, S, hS1, hS2⟩ | ⟨rfl, i, hi1, hi2⟩
  · rw [if_neg (by simp)]
    -- back to positions
    have htx := s5.txt q.txt q.intxt
    obtain ⟨X3, hX3⟩ := arr_of (m := h3.mem) (p := (lmsNum T n : Int) + (sp.1 : Nat)) (n := lmsNum T n) (fun a x y => s5.cells a (Or.inl ⟨by omega, by omega⟩))
    obtain ⟨m4, b1, b2, ⟨X4, b3⟩, b4⟩ := backToPositions_ok (t := t) (T := T) (n := n) q.npos (m := h3.mem) (ra := (lmsNum T n : Int) + (sp.1 : Nat)) (by omega) htx
      (fun a ha => by have := q.intxt a ha; omega) hX3 hS2 hS1.lt
    simp only [b1, Option.bind_some]
    have s6 : St ((n + fs : Nat) : Int) h0 O1 { h3 with mem := m4 } (j + j3) := by
      refine s5.step (Q := fun a => (0 ≤ a ∧ a < (lmsNum T n : Int)) ∨ inB ((lmsNum T n : Int) + (sp.1 : Nat)) (lmsNum T n) a)
        (fun a hq => b4 a (fun x => hq (Or.inl x)) (fun x => hq (Or.inr x))) (fun a hq => ?_)
      rcases hq with hq | hq
      · exact ⟨Or.inl ⟨hq.1, by omega⟩, b2.some hq.1 (by omega)⟩
      · refine ⟨Or.inl ?_, b3.some hq.1 hq.2⟩
        unfold inB at hq; omega
    have hV := red_vok hs.w hS1
    -- the counts survive
    have hcnt4 : sp.2.f8 = false → c ≠ b ∧ Arr m4 c k (fun x => (Lay.num (Lay.mk n k c b t T) x : Nat)) := fun h8 => by
      obtain ⟨z1, z2⟩ := n7 h8
      have hne : c ≠ b := fun e => by rw [p.p8.2 e] at z1; cases z1
      refine ⟨hne, (hcnt hne).congr (fun a x y => ?_)⟩
      have hout : ((sp.1 + 2 * lmsNum T n : Nat) : Int) ≤ a := by
        by_cases hx : f.f1 = true ∨ f.f4 = true
        · have := r.c1 hx; omega
        · have := z2 hx; have := p.inE hx; omega
      rw [b4 a (by omega) (by omega), k5 a (by omega)]
      show m2 a = _
      rw [d3 a (by omega)]
      exact keepC z1 a ⟨x, y⟩
    -- the blocks are allocated anew
    have hfin : ∀ {c' b' : Int} {h' : Heap} {j' : Nat}, reserve c b k sp.2 { h3 with mem := m4 } = (some (c', b'), h') →
        St ((n + fs : Nat) : Int) h0 (Own sp.2 c' b' k) h' j' → Reg ((n + fs : Nat) : Int) n k h0.next c' b' sp.2 →
        (sp.2.f8 = false → c' ≠ b' ∧ c' = c) → (∀ a : Int, a < ((n + fs : Nat) : Int) ∨ (f.f1 = true ∧ inB c k a) → h'.mem a = m4 a) →
        ∃ r h'', (match reserve c b k sp.2 { h3 with mem := m4 } with
          | (none, h) => some (none, h)
          | (some (c, b), h) => some (some (c, b, sp.2), h)) = some (r, h'') ∧
          ((r = none ∧ ∃ j', St ((n + fs : Nat) : Int) h0 (fun _ => False) h'' j' ∧ ∃ i, i < j' ∧ h0.fails i = true) ∨
           ∃ c' b' f' j', r = some (c', b', f') ∧ St ((n + fs : Nat) : Int) h0 (Own f' c' b' k) h'' j' ∧ Reg ((n + fs : Nat) : Int) n k h0.next c' b' f' ∧
             (f'.f8 = false → c' ≠ b' ∧ Arr h''.mem c' k (fun x => (Lay.num (Lay.mk n k c' b' t T) x : Nat))) ∧
             ∃ V A, Vok T n V ∧ Arr h''.mem 0 n A ∧ ∀ x < lmsNum T n, A x = (V x : Int)) := by
      intro c' b' h' j' e1 e2 e3 e4 e5
      rw [e1]
      refine ⟨_, _, rfl, Or.inr ⟨c', b', sp.2, j', rfl, e2, e3, fun h8 => ?_, fun i => posAt T n (S i), ?_⟩⟩
      · obtain ⟨y1, y2⟩ := e4 h8
        refine ⟨y1, ?_⟩
        rw [y2]
        refine (hcnt4 h8).2.congr (fun a x y => e5 a ?_)
        by_cases hx : f.f1 = true ∨ f.f4 = true
        · rcases hx with hx | hx
          · exact Or.inr ⟨hx, x, y⟩
          · rw [n6 (p.p4 hx)] at h8; cases h8
        · have := r.c0 hx; left; omega
      · obtain ⟨A, hA⟩ := (e2.arrs e3 (by omega)).1
        refine ⟨A, hV, hA, fun x hx => ?_⟩
        have y1 := hA x (by omega)
        rw [e5 _ (Or.inl (by omega))] at y1
        have y2 := b2 x hx
        rw [y1] at y2
        exact Option.some.inj y2
    by_cases h4 : f.f4 = true
    · have hf2 := h24 h4
      rcases malloc_cases s6 k with ⟨h', e1, e2, e3, e4⟩ | ⟨p', h', e1, e2, e2', e3, e4⟩
      · have hres : reserve c b k sp.2 { h3 with mem := m4 } = (none, h') := by
          unfold reserve; simp only [n5, h4, if_true, e1]
        rw [hres]
        refine ⟨_, _, rfl, Or.inl ⟨rfl, j + j3 + 1, e3.congr (fun a => ?_), j + j3, by omega, e4⟩⟩
        show (f.f1 = true ∧ _) ↔ _
        rw [h14 h4]; simp
      · have hres : reserve c b k sp.2 { h3 with mem := m4 } = (some (p', p'), h') := by
          unfold reserve; simp only [n5, h4, if_true, e1, n4, hf2]; rfl
        refine hfin (j' := j + j3 + 1) hres (e3.congr (fun a => ?_)) ⟨fun _ => e2, fun hx => ?_, fun hx => ?_, fun _ => Or.inl rfl, Or.inl rfl⟩ (fun h8 => ?_) (fun a ha => ?_)
        · show ((f.f1 = true ∧ _) ∨ _) ↔ _
          unfold Own
          rw [n3, n4, n5, h14 h4, h4, hf2]; simp
        · rw [n5] at hx; exact absurd (Or.inr h4) hx
        · rw [n4, hf2] at hx; cases hx
        · rw [n6 (p.p4 h4)] at h8; cases h8
        · have h9 : h0.next ≤ h3.next := s6.next
          refine e4 a ?_
          show a < h3.next
          rcases ha with ha | ha
          · omega
          · rw [h14 h4] at ha; cases ha.1
    · have h4' : f.f4 = false := Bool.eq_false_iff.2 h4
      by_cases h2 : f.f2 = true
      · rcases malloc_cases s6 k with ⟨h', e1, e2, e3, e4⟩ | ⟨p', h', e1, e2, e2', e3, e4⟩
        · have hres : reserve c b k sp.2 { h3 with mem := m4 } = (none, freeIf f.f1 h' c k) := by
            unfold reserve; simp only [n5, h4', n4, h2, if_true, e1, n3]; simp [e1]
          rw [hres]
          have s8 := e3.freeIf (x := f.f1) (p := c) (len := k) (fun hx => r.c1 (Or.inl hx))
          refine ⟨_, _, rfl, Or.inl ⟨rfl, j + j3 + 1, s8.1.congr (fun a => ?_), j + j3, by omega, e4⟩⟩
          exact ⟨fun hx => hx.2 hx.1, fun hx => hx.elim⟩
        · have hres : reserve c b k sp.2 { h3 with mem := m4 } = (some (c, p'), h') := by
            unfold reserve; simp only [n5, h4', n4, h2, if_true]; simp [e1]
          have h9 : h0.next ≤ h3.next := s6.next
          have hp3 : h3.next ≤ p' := e2'
          have htop : f.f1 = true → ∀ a, inB c k a → a < h3.next := fun hx a ha => (s6.top a ⟨hx, ha⟩).2
          have hcp : c + k ≤ p' := by
            by_cases hx : f.f1 = true
            · have := htop hx (c + k - 1) ⟨by omega, by omega⟩; omega
            · have := r.c0 (fun hy => hy.elim hx h4); omega
          refine hfin (j' := j + j3 + 1) hres (e3.congr (fun a => ?_)) ⟨fun hx => ?_, fun hx => ?_, fun _ => e2, fun hx => ?_, Or.inr (Or.inl hcp)⟩ (fun h8 => ⟨by omega, rfl⟩) (fun a ha => ?_)
          · show ((f.f1 = true ∧ _) ∨ _) ↔ _
            unfold Own
            rw [n3, n4, n5, h4', h2]; simp
          · rw [n3, n5] at hx; exact r.c1 hx
          · rw [n3, n5] at hx; exact r.c0 hx
          · rw [n4] at hx; exact absurd h2 hx
          · refine e4 a ?_
            show a < h3.next
            rcases ha with ha | ha
            · omega
            · exact htop ha.1 a ha.2
      · have h2' : f.f2 = false := Bool.eq_false_iff.2 h2
        have hres : reserve c b k sp.2 { h3 with mem := m4 } = (some (c, b), { h3 with mem := m4 }) := by
          unfold reserve; simp [n5, h4', n4, h2']
        refine hfin (j' := j + j3) hres (s6.congr (fun a => ?_)) ⟨fun hx => ?_, fun hx => ?_, fun hx => ?_, fun hx => ?_, r.cb⟩ (fun h8 => ⟨(hcnt4 h8).1, rfl⟩) (fun a ha => rfl)
        · show (f.f1 = true ∧ _) ↔ _
          unfold Own
          rw [n3, n4, n5, h4', h2']; simp
        · rw [n3, n5] at hx; exact r.c1 hx
        · rw [n3, n5] at hx; exact r.c0 hx
        · rw [n4] at hx; exact absurd hx h2
        · exact r.b0 h2
  · rw [if_pos (by simp)]
    have s8 := s5.freeIf (x := f.f1) (p := c) (len := k) (fun hx => r.c1 (Or.inl hx))
    rw [fshift] at hi2
    rw [n3]
    exact ⟨_, _, rfl, Or.inl ⟨rfl, _, s8.1.congr (fun a => ⟨fun hx => hx.2 hx.1, fun hx => hx.elim⟩), i + j, by omega, hi2⟩⟩

/-- `sais_main` never uses memory that is not its own, and either gives the suffix array or reports a failed allocation; in both cases no block stays allocated. -/
theorem saisMain_ok : ∀ (fuel : Nat) (t : Txt) (T : Nat → Nat) (fs n k : Nat) (h : Heap), n ≤ fuel → Call t T fs n k h → St ((n + fs : Nat) : Int) h (fun _ => False) h 0 →
    Gives (saisMain fuel t fs n k h) T fs n h := by
  intro fuel
  induction fuel with
  | zero => intro t T fs n k h hn q; have := q.npos; omega
  | succ fuel ih =>
    intro t T fs n k h hn q st
    have hk := q.kpos
    have hb := st.base
    unfold saisMain
    rw [if_neg (by have := q.npos; omega)]
    obtain ⟨r, h1, e1, e2⟩ := place_ok hk st
    rw [e1]
    rcases e2 with ⟨rfl, j, s1, hf⟩ | ⟨c, b, f, j, rfl, s1, p1, f16, f32, hB⟩
    · exact ⟨-2, h1, j, rfl, s1, Or.inr ⟨rfl, hf⟩⟩
    · simp only []
      obtain ⟨p2, ho⟩ := choose_ok hk hb p1 f16 f32 hB
      have s2 : St ((n + fs : Nat) : Int) h (Own (chooseSort fs n k f) c b k) h1 j := s1.congr (fun a => (ho a).symm)
      generalize chooseSort fs n k f = g at p2 s2 ho
      have o := q.lay p2.toReg hb
      obtain ⟨⟨A, a1⟩, ⟨C, a2⟩, ⟨B, a3⟩⟩ := s2.arrs p2.toReg (by omega)
      obtain ⟨s, m0, lo, g1, g2, g3, g4, g5⟩ := placeSeeds_ok (L := Lay.mk n k c b t T) o a1 a2 a3 (s2.txt q.txt q.intxt)
      have g1' : placeSeeds t c b n k h1.mem = some s := g1
      have g3' : s.mm = lmsNum T n := g3
      simp only [g1', Option.bind_eq_bind, Option.bind_some]
      have hc1 : ∃ C, Arr s.m c k C := by
        by_cases e : c = b
        · rw [e]; exact ⟨_, g2.mem.bk⟩
        · exact ⟨_, g4 e⟩
      have s3 : St ((n + fs : Nat) : Int) h (Own g c b k) { h1 with mem := s.m } j :=
        s2.upd p2.toReg (by omega) (fun a x y z => g5 a x y z) ⟨_, g2.mem.sa⟩ hc1 ⟨_, g2.mem.bk⟩
      obtain ⟨r, h2, w1, w2⟩ := sortSubs_ok q s3 p2 g2 g3' g4
      simp only [w1, Option.bind_some]
      rcases w2 with ⟨rfl, j', s4, hf⟩ | ⟨name, j', rfl, s4, has, hcnt⟩
      · exact ⟨-2, h2, j', rfl, s4, Or.inr ⟨rfl, hf⟩⟩
      · simp only [g3']
        by_cases hlt : name < lmsNum T n
        · rw [if_pos hlt]
          rcases has with ⟨hm, W, hw⟩ | ⟨hm, he, _⟩
          · obtain ⟨r, h3, x1, x2⟩ := solve_ok q (rec := saisMain fuel) (fun t' T' fs' n' k' h' hn' q' st' => ih t' T' fs' n' k' h' (by omega) q' st') s4 p2 hcnt hw hlt
            simp only [x1, Option.bind_some]
            rcases x2 with ⟨rfl, j'', s5, hf⟩ | ⟨c', b', f', j'', rfl, s5, r5, hcnt5, hV⟩
            · exact ⟨-2, h3, j'', rfl, s5, Or.inr ⟨rfl, hf⟩⟩
            · obtain ⟨h4, S, y1, y2, y3, y4⟩ := induceAll_ok q s5 r5 hcnt5 (Or.inl ⟨hm, hV⟩)
              simp only [y1, Option.map_some]
              exact ⟨0, h4, j'', rfl, y2, Or.inl ⟨rfl, S, y4, y3⟩⟩
          · omega
        · rw [if_neg hlt]
          have hcnt5 : g.f8 = false → c ≠ b ∧ Arr h2.mem c k (fun x => (Lay.num (Lay.mk n k c b t T) x : Nat)) := fun h8 => by
            have hne : c ≠ b := fun e => by rw [p2.p8.2 e] at h8; cases h8
            exact ⟨hne, hcnt hne⟩
          have hA : (1 < lmsNum T n ∧ ∃ V A, Vok T n V ∧ Arr h2.mem 0 n A ∧ ∀ x < lmsNum T n, A x = (V x : Int)) ∨
              (lmsNum T n ≤ 1 ∧ ∃ F, SeedsReady (Lay.mk n k c b t T) F ∧ Arr h2.mem 0 n (rawV F)) := by
            rcases has with ⟨hm, W, hw⟩ | ⟨hm, he, hF⟩
            · have hnum := hw.num
              obtain ⟨A, hA⟩ := (s4.arrs p2.toReg (by omega)).1
              refine Or.inl ⟨hm, W, A, new_vok hw.w (by omega), hA, fun x hx => ?_⟩
              have hle := lmsNum_le T n
              have y1 := hA x (by omega)
              have y2 := hw.order hlt x hx
              rw [show (0 : Int) + (x : Int) = x by omega, y2] at y1
              exact (Option.some.inj y1).symm
            · exact Or.inr ⟨hm, hF⟩
          obtain ⟨h4, S, y1, y2, y3, y4⟩ := induceAll_ok q s4 p2.toReg hcnt5 hA
          simp only [y1, Option.map_some]
          exact ⟨0, h4, j', rfl, y2, Or.inl ⟨rfl, S, y4, y3⟩⟩

end Bpak.Sais
