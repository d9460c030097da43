import Verif.Proof.SaisPass
/-! What a pass of induced sorting leaves behind is sorted. -/
namespace Bpak.Sais.Pass

theorem step_G {P : Pass} (i : Nat) (s : St) (c : Nat) : s.G c ≤ (P.step i s).G c := by
  unfold step
  cases (s.F i).bind P.pred with
  | none => exact Nat.le_refl _
  | some p =>
    show _ ≤ if c = P.key p then s.G c + 1 else s.G c
    split <;> omega

theorem run_G {P : Pass} {i j : Nat} (h : i ≤ j) (c : Nat) : (P.run i).G c ≤ (P.run j).G c := by
  obtain ⟨d, rfl⟩ := Nat.exists_eq_add_of_le h
  clear h
  induction d with
  | zero => exact Nat.le_refl _
  | succ d ih => exact Nat.le_trans ih (step_G (i + d) _ c)

/-- Where the predecessor of the entry at `x` goes. -/
theorem emitted {P : Pass} (o : Ok P) {x s p N : Nat} (hx : x < N) (e : (P.run N).F x = some s) (hp : P.pred s = some p) :
    (P.run x).F x = some s ∧ (P.run N).F ((P.run x).G (P.key p)) = some p ∧ x < (P.run x).G (P.key p) ∧
    (P.run (x + 1)).G (P.key p) = (P.run x).G (P.key p) + 1 := by
  have e1 : (P.run (x + 1)).F x = some s := by rw [← run_stable o (show x + 1 ≤ N by omega) x (by omega)]; exact e
  have e2 : (P.run x).F x = some s := by
    rw [← (step_inv o (run_inv o x)).2.1 x (Nat.le_refl _)]; exact e1
  have hs := (step_inv o (run_inv o x)).2.2 s p e2 hp
  have hst : P.run (x + 1) = P.emit (P.run x) p := by
    show P.step x (P.run x) = _
    unfold step
    rw [e2]
    simp only [Option.bind_some, hp]
  refine ⟨e2, ?_, hs.2.2.2.1, ?_⟩
  · apply run_mono o (show x + 1 ≤ N by omega)
    rw [hst]
    show (if _ then _ else _) = _
    rw [if_pos rfl]
  · rw [hst]
    show (if _ then _ else _) = _
    rw [if_pos rfl]

/-- Every emitted entry is one of the first ones or the predecessor of an entry further ahead. -/
theorem source {P : Pass} (o : Ok P) {N a p : Nat} (e : (P.run N).F a = some p) (hz : P.Z p = true) :
    (p ∈ P.init ∧ a < (P.run 0).G (P.key p)) ∨
    ∃ x s, x < N ∧ (P.run N).F x = some s ∧ P.pred s = some p ∧ a = (P.run x).G (P.key p) ∧ x < a ∧ (P.run (x + 1)).G (P.key p) = a + 1 := by
  have iv := run_inv o N
  have hm := (iv.shape.zone1 e hz o).1
  rw [iv.ran] at hm
  rcases List.mem_append.1 hm with hm | hm
  · left
    refine ⟨hm, ?_⟩
    obtain ⟨sh, hE⟩ := begin_shape o
    obtain ⟨a', -, ha'⟩ := sh.slot (p := p) (by rw [hE]; exact hm)
    have h1 := (sh.zone1 ha' hz o).2.2.1
    have h2 := run_mono o (Nat.zero_le N) (a := a') (q := p) ha'
    rw [iv.shape.inj o e h2]
    exact h1
  · right
    obtain ⟨s, hs, hp⟩ := List.mem_filterMap.1 hm
    obtain ⟨x, hx, hfx⟩ := List.mem_filterMap.1 hs
    have hx := List.mem_range.1 hx
    obtain ⟨e1, e2, e3, e4⟩ := emitted o hx hfx hp
    have := iv.shape.inj o e e2
    refine ⟨x, s, hx, hfx, hp, this, by omega, by omega⟩

/-- A relation that fits the pass. -/
structure Ord (P : Pass) (R : Nat → Nat → Prop) : Prop where
  key : ∀ p q, p < P.n → q < P.n → P.key p < P.key q → R p q
  zone : ∀ p q, p < P.n → q < P.n → P.key p = P.key q → P.Z p = true → P.Z q = false → R p q
  pred : ∀ s s' p q, P.pred s = some p → P.pred s' = some q → p < P.n → q < P.n → P.Z p = true → P.Z q = true → P.key p = P.key q → R s s' → R p q
  init : ∀ p q, p ∈ P.init → q < P.n → P.Z q = true → P.key p = P.key q → p ≠ q → R p q
  one : P.init.length ≤ 1
  seed : ∀ a b p q, a < b → P.F0 a = some p → P.F0 b = some q → P.key p = P.key q → R p q

/-- The entries are in order. -/
theorem sorted {P : Pass} (o : Ok P) {R : Nat → Nat → Prop} (r : Ord P R) (N : Nat) : ∀ b a p q, a < b → (P.run N).F a = some p → (P.run N).F b = some q → R p q := by
  intro b
  induction b using Nat.strongRecOn with
  | _ b ih =>
    intro a p q hab ea eb
    have sh := (run_inv o N).shape
    obtain ⟨p1, p2, p3⟩ := sh.bucket o ea
    obtain ⟨q1, q2, q3⟩ := sh.bucket o eb
    rcases Nat.lt_trichotomy (P.key p) (P.key q) with hk | hk | hk
    · exact r.key p q p1 q1 hk
    · cases hzp : P.Z p with
      | false =>
        cases hzq : P.Z q with
        | false =>
          have f0 : ∀ {x y}, (P.run N).F x = some y → P.Z y = false → P.F0 x = some y := by
            intro x y e hz
            rcases sh.where_ e with ⟨hm, -⟩ | ⟨h, -⟩
            · rw [(sh.mem y hm).2] at hz; cases hz
            · exact h
          exact r.seed a b p q hab (f0 ea hzp) (f0 eb hzq) hk
        | true =>
          exfalso
          rcases sh.where_ ea with ⟨hm, -⟩ | ⟨h, -⟩
          · rw [(sh.mem p hm).2] at hzp; cases hzp
          · have h1 := (o.seed a p h).2.2.1
            have h2 := (sh.zone1 eb hzq o).2.2.2
            rw [hk] at h1
            omega
      | true =>
        cases hzq : P.Z q with
        | false => exact r.zone p q p1 q1 hk hzp hzq
        | true =>
          rcases source o ea hzp with ⟨hi, h1⟩ | ⟨x, s, hx, hs, hp, h1, h2, h3⟩
          · exact r.init p q hi q1 hzq hk (fun e => by rw [← e] at eb; have := sh.inj o ea eb; omega)
          · rcases source o eb hzq with ⟨hi, g1⟩ | ⟨y, s', hy, hs', hq, g1, g2, g3⟩
            · exfalso
              have := run_G (P := P) (Nat.zero_le x) (P.key p)
              rw [hk] at this h1
              omega
            · have hxy : x < y := by
                apply Decidable.byContradiction
                intro hc
                rcases Nat.lt_or_eq_of_le (Nat.le_of_not_lt hc) with hc | hc
                · have := run_G (P := P) (show y + 1 ≤ x from hc) (P.key p)
                  rw [hk] at this h1
                  omega
                · subst hc
                  rw [hk] at h1
                  omega
              exact r.pred s s' p q hp hq p1 q1 hzp hzq hk (ih y g2 x s s' hxy hs hs')
    · exfalso
      have := P.start_mono (show P.key q + 1 ≤ P.key p from hk)
      omega

end Bpak.Sais.Pass
