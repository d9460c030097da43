import Verif.Proof.SaisSeed
/-! The first stage: the substrings are sorted and named. -/
namespace Bpak.Sais

/-- The order and the names of the substrings, as the first stage leaves them. -/
structure Sorted1 (T : Nat → Nat) (n : Nat) (W : Nat → Nat) (m : Mem) (name : Int) : Prop where
  w : Wok T n W
  num : name = (cnt (lmsNum T n) (newAt T n W) : Nat)
  names : name < lmsNum T n → ∀ u, u < n / 2 → m ((lmsNum T n : Nat) + (u : Nat)) = some (half T n (fun p => (nm T n W (inv T n W p) : Nat)) u)
  order : ¬ name < lmsNum T n → ∀ j, j < lmsNum T n → m (j : Nat) = some (W j : Int)

theorem SeedInv.lowest {L : Lay} {m0 : Mem} {s : Seeds} {lo : Nat} (hI : SeedInv L m0 0 s lo) (h : 0 < lmsNum L.T L.n) :
    lms L.T L.n lo = true ∧ (∀ q, lms L.T L.n q = true → lo ≤ q) ∧ s.b = some (slot L lo : Int) ∧ s.j = (lo : Int) - 1 := by
  rcases hI.pend with ⟨h1, h2, h3⟩ | ⟨h1, h2, h3, h4, h5⟩
  · obtain ⟨p, h4, h5, _⟩ := cnt_surj (P := lms L.T L.n) (n := L.n) (j := 0) h
    have := h3 p h5
    have := lms_pos h5
    omega
  · exact ⟨h1, fun q hq => h3 q hq (lms_pos hq).1, h4, h5⟩

theorem sortSubs1_ok {L : Lay} (o : L.Ok) {m0 : Mem} {s : Seeds} {lo : Nat} (hI : SeedInv L m0 0 s lo) (hnum : 0 < lmsNum L.T L.n) (hmm : s.mm = lmsNum L.T L.n)
    {f : Nat → Int} (hc : Arr s.m L.c L.k f) (hcnt : L.c ≠ L.b → ∀ x < L.k, f x = (L.num x : Nat)) :
    ∃ name m' W, sortSubs1 L.t L.c L.b L.n L.k s s.m = some (name, m') ∧ Sorted1 L.T L.n W m' name ∧ (∃ R, Arr m' 0 L.n R) ∧ (∃ B, Arr m' L.b L.k B) ∧
      ∀ a : Int, ¬ (0 ≤ a ∧ a < L.n) → ¬ (L.b ≤ a ∧ a < L.b + L.k) → m' a = s.m a := by
  obtain ⟨hl, hlo, _, _⟩ := hI.lowest hnum
  have hs := seedF_lms hl
  obtain ⟨m1, B, h1, h2⟩ := lmsSort1_ok o hs hI.mem.sa hc hI.mem.bk hI.mem.txt hcnt
  obtain ⟨hlen, w⟩ := Wok_of o hs hlo
  have htx : ∀ a, inTxt L.t L.n a → (L.n : Int) ≤ a := fun a h => (o.txt a h).1
  have hb := o.hb
  obtain ⟨name, m2, h3, h4⟩ := lmsPostproc1_ok o.npos h2.txt htx hlen w (h2.sa.ext (fun a _ => (code1 a).symm))
  refine ⟨name, m2, _, ?_, ⟨w, h4.num, h4.names, h4.order⟩, h4.arr, ⟨B, h2.bk.congr (fun a h5 h6 => h4.frame a (by omega))⟩, fun a h5 h6 => ?_⟩
  · unfold sortSubs1
    rw [h1, Option.bind_eq_bind, Option.bind_some, hmm]; exact h3
  · rw [h4.frame a (by omega), h2.frame a h5 h6]

theorem sortSubs2_ok {L : Lay} (o : L.Ok) {d : Int} (od : DOk L d) {m0 : Mem} {s : Seeds} {lo : Nat} (hI : SeedInv L m0 0 s lo) (hnum : 0 < lmsNum L.T L.n)
    (hmm : s.mm = lmsNum L.T L.n) (hc : Arr s.m L.c L.k (fun x => (L.num x : Nat))) {D0 : Nat → Int} (hd : Arr s.m d (2 * L.k) D0) :
    ∃ name m' W, sortSubs2 L.t L.c L.b d L.n L.k s s.m = some (name, m') ∧ Sorted1 L.T L.n W m' name ∧ (∃ R, Arr m' 0 L.n R) ∧ (∃ B, Arr m' L.b L.k B) ∧
      (∃ D, Arr m' d (2 * L.k) D) ∧
      ∀ a : Int, ¬ (0 ≤ a ∧ a < L.n) → ¬ (L.b ≤ a ∧ a < L.b + L.k) → ¬ (d ≤ a ∧ a < d + 2 * L.k) → m' a = s.m a := by
  obtain ⟨hl, hlo, _, _⟩ := hI.lowest hnum
  have hs := seedF_lms hl
  obtain ⟨m1, B1, h1, h2, h3, h4, h5, h6, h7⟩ := markSeeds_ok o od hI hl hc hd
  obtain ⟨m2, B2, D2, h8, h9, h10, h11, h12⟩ := lmsSort2_ok o od hs h2 h3 h4 h5 h6 (fun _ _ => rfl)
  obtain ⟨hlen, w⟩ := Wok_of o hs hlo
  have hb := o.hb
  have hd2 := od.hd
  have hlen2 : cnt L.n (isX (lmsAt2 L ((passS L (midF L (seedF L lo))).run L.n).F (passS L (midF L (seedF L lo))))) = lmsNum L.T L.n := by rw [isX_two]; exact hlen
  obtain ⟨name, m3, h13, h14⟩ := lmsPostproc2_ok (X := lmsAt2 L ((passS L (midF L (seedF L lo))).run L.n).F (passS L (midF L (seedF L lo)))) o.npos w hlen2
    (fun a v ha hv => by
      rw [isX_two]
      unfold lmsAt2 at hv
      cases hx : lmsAt L ((passS L (midF L (seedF L lo))).run L.n).F a with
      | none => rw [hx] at hv; cases hv
      | some q =>
        rw [hx, Option.map_some] at hv
        injection hv with hv
        rw [nth_at ha hx, ← hv]
        have hm := marks_of o hs hlo ha hx
        by_cases hmk : (passS L (midF L (seedF L lo))).Marked (valS L.T L.n) (L.n - 1 - a)
        · rw [if_pos hmk, if_pos (hm.1 hmk)]
        · rw [if_neg hmk, if_neg (fun h => hmk (hm.2 h))])
    (h9.ext (fun a _ => (code2 a).symm))
  refine ⟨name, m3, _, ?_, ⟨w, h14.num, h14.names, h14.order⟩, h14.arr, ⟨B2, h10.congr (fun a h5 h6 => h14.frame a (by omega))⟩,
    ⟨D2, h11.congr (fun a h5 h6 => h14.frame a (by omega))⟩, fun a h15 h16 h17 => ?_⟩
  · unfold sortSubs2
    rw [h1, Option.bind_eq_bind, Option.bind_some, h8, Option.bind_some, hmm]; exact h13
  · rw [h14.frame a (by omega), h12 a h15 h16 h17, h7 a h15 h16 h17]

end Bpak.Sais
