import Verif.Proof.SaisFinal
import Verif.Proof.Bsdiff
import Verif.Model.BsdiffInit
/-! The delta encoder's search over the array it has built. -/
namespace Bpak

theorem isSuffix_length {t : Bytes} {S : List Nat} (h : IsSuffixArray t S) : S.length = t.length := by
  have nod : S.Nodup := by
    refine h.sorted.imp (fun {i j} hij e => ?_)
    rw [e] at hij; exact before_irrefl _ hij
  have a1 : S.length ≤ t.length := by
    have := nod.length_le_of_subset (l₂ := List.range t.length) (fun i hi => List.mem_range.2 ((h.positions i).1 hi))
    rwa [List.length_range] at this
  have a2 : t.length ≤ S.length := by
    have := List.nodup_range.length_le_of_subset (l₁ := List.range t.length) (l₂ := S) (fun i hi => (h.positions i).2 (List.mem_range.1 hi))
    rwa [List.length_range] at this
  omega

theorem readArray_eq {n : Nat} {m : Sais.Mem} {S : List Nat} (hl : S.length = n) (h : ∀ i (hi : i < S.length), m (i : Int) = some (S[i] : Int)) :
    readArray n m = S.map (fun (i : Nat) => (i : Int)) := by
  unfold readArray
  apply List.ext_getElem
  · simp [hl]
  · intro i h1 h2
    have h3 : i < S.length := by simpa using h2
    rw [List.getElem_map, List.getElem_map, List.getElem_range, h i h3]
    rfl

theorem bsdiffInit_ok (o : Bytes) (fails : Nat → Bool) (junk : Int → Int) :
    (bsdiffInit o fails junk = some (.error .failed) ∧ ∃ i, fails i = true) ∨ ∃ S, bsdiffInit o fails junk = some (.ok (S.map (fun (i : Nat) => (i : Int)))) ∧ IsSuffixArray o S := by
  unfold bsdiffInit
  by_cases h0 : fails 0 = true
  · rw [if_pos h0]; exact Or.inl ⟨rfl, 0, h0⟩
  · rw [if_neg h0]
    obtain ⟨rc, h', h1, h2, _⟩ := Sais.sais_ok o (Sais.freshHeap o.length (fun i => fails (i + 1)) junk) (Sais.room_fresh _ _ _)
    rw [h1]
    rcases h2 with ⟨hrc, S, h3, h4⟩ | ⟨hrc, i, hi⟩
    · right
      refine ⟨S, ?_, h3⟩
      simp only [hrc]
      rw [if_neg (by simp), readArray_eq (isSuffix_length h3) h4]
    · left
      simp only [hrc]
      rw [if_pos (by simp)]
      exact ⟨rfl, i + 1, hi⟩

theorem memcmpLt_before : ∀ x y : Bytes, memcmpLt x y = true → before x y := by
  intro x
  induction x with
  | nil => intro y h; cases y <;> cases h
  | cons a x ih =>
    intro y h
    cases y with
    | nil => cases h
    | cons b y =>
      unfold memcmpLt at h
      by_cases e : a = b
      · rw [if_pos e] at h; exact Or.inr ⟨e, ih y h⟩
      · rw [if_neg e] at h; exact Or.inl (of_decide_eq_true h)

/-- The search within an array of `|o|` entries, when the last one is not below the new data. -/
theorem search_in (sa : List Int) (o to : Bytes) (hto : to.length < 2^31) (hl : sa.length = o.length) (hsa : ∀ p ∈ sa, 0 ≤ p ∧ p ≤ o.length)
    (hlast : ∀ p s, suffixAt sa o (o.length - 1) = some (p, s) → memcmpLt s to = false) :
    ∀ (k b e : Nat), b ≤ e → b < o.length → e ≤ o.length → (e = o.length → b + 2 ≤ e) → e - b < k → ∃ len pos, search sa o to k b e = some (len, pos) ∧
      0 ≤ len ∧ len ≤ to.length ∧ 0 ≤ pos ∧ pos ≤ o.length := by
  have hsuf : ∀ i, i < sa.length → ∃ p s, suffixAt sa o i = some (p, s) ∧ 0 ≤ p ∧ p ≤ o.length := by
    intro i hi
    unfold suffixAt
    rw [List.getElem?_eq_getElem hi]
    have := hsa sa[i] (List.getElem_mem hi)
    simp only [if_pos this]
    exact ⟨_, _, rfl, this⟩
  intro k
  induction k with
  | zero => intro b e _ _ _ _ h; omega
  | succ k ih =>
    intro b e hbe hb he hend hk
    unfold search
    by_cases hw : e - b < 2
    · rw [if_pos hw]
      obtain ⟨p, s, h1, h2⟩ := hsuf b (by omega)
      obtain ⟨p', s', h1', h2'⟩ := hsuf e (by omega)
      rw [h1, h1']
      simp only [matchlen32_eq _ to hto]
      have m1 := matchlen_le s to
      have m2 := matchlen_le s' to
      split
      · exact ⟨_, _, rfl, by omega, by omega, h2⟩
      · exact ⟨_, _, rfl, by omega, by omega, h2'⟩
    · rw [if_neg hw]
      obtain ⟨p, s, h1, h2⟩ := hsuf (b + (e - b) / 2) (by omega)
      simp only [h1]
      split
      · rename_i hlt
        refine ih _ _ (by omega) (by omega) he (fun hx => ?_) (by omega)
        rcases Nat.lt_or_ge (b + (e - b) / 2) (o.length - 1) with h3 | h3
        · omega
        · have h4 : b + (e - b) / 2 = o.length - 1 := by omega
          rw [h4] at h1
          rw [hlast p s h1] at hlt
          cases hlt
      · exact ih _ _ (by omega) hb (by omega) (fun hx => by omega) (by omega)

/-- The search reads the entry behind the last one when every entry is below the new data. -/
theorem search_out (sa : List Int) (o to : Bytes) (hl : sa.length = o.length) (hlow : ∀ i p s, suffixAt sa o i = some (p, s) → i < o.length → memcmpLt s to = true) :
    ∀ (k b : Nat), b ≤ o.length → search sa o to k b o.length = none := by
  intro k
  induction k with
  | zero => intro b _; rfl
  | succ k ih =>
    intro b hb
    unfold search
    by_cases hw : o.length - b < 2
    · rw [if_pos hw]
      have : suffixAt sa o o.length = none := by
        unfold suffixAt
        rw [List.getElem?_eq_none (by omega)]
      rw [this]
      split
      · rename_i h; cases h
      · rfl
    · rw [if_neg hw]
      simp only
      cases hs : suffixAt sa o (b + (o.length - b) / 2) with
      | none => rfl
      | some ps =>
        obtain ⟨p, s⟩ := ps
        simp only
        rw [if_pos (hlow _ _ _ hs (by omega))]
        exact ih _ (by omega)

theorem suffixAt_list {o : Bytes} {S : List Nat} (h : IsSuffixArray o S) {i : Nat} {p : Int} {s : Bytes} (e : suffixAt (S.map (fun (i : Nat) => (i : Int))) o i = some (p, s)) :
    ∃ hi : i < S.length, s = o.drop S[i] ∧ S[i] < o.length := by
  unfold suffixAt at e
  by_cases hi : i < S.length
  · refine ⟨hi, ?_, (h.positions _).1 (List.getElem_mem hi)⟩
    rw [List.getElem?_eq_getElem (by rw [List.length_map]; exact hi)] at e
    simp only [List.getElem_map] at e
    have hp := (h.positions _).1 (List.getElem_mem hi)
    rw [if_pos (by omega)] at e
    rw [← (Prod.mk.inj (Option.some.inj e)).2]
    congr 1
  · rw [List.getElem?_eq_none (by rw [List.length_map]; omega)] at e
    cases e

theorem searchCall_sorted {o n : Bytes} (hn : n.length < 2^31) (ho : 2 ≤ o.length) {S : List Nat} (h : IsSuffixArray o S)
    (hle : ∀ i < n.length, ∃ j, j < o.length ∧ ¬ before (o.drop j) (n.drop i)) : SearchOk o n (searchCall (S.map (fun (i : Nat) => (i : Int))) o n) := by
  have hl := isSuffix_length h
  intro scan h0 h1
  unfold searchCall
  rw [if_pos h0]
  obtain ⟨len, pos, e, e1, e2, e3⟩ := search_in (S.map (fun (i : Nat) => (i : Int))) o (n.drop scan.toNat) (by simp; omega) (by rw [List.length_map, hl])
    (fun p hp => by
      rw [List.mem_map] at hp
      obtain ⟨i, hi, rfl⟩ := hp
      have := (h.positions i).1 hi
      omega)
    (fun p s hs => by
      obtain ⟨hi, e, hp⟩ := suffixAt_list h hs
      cases hm : memcmpLt s (n.drop scan.toNat) with
      | false => rfl
      | true =>
        exfalso
        obtain ⟨j, hj, hnb⟩ := hle scan.toNat (by omega)
        apply hnb
        have hb := memcmpLt_before _ _ hm
        rw [e] at hb
        obtain ⟨i, hi2, hSi⟩ := List.getElem_of_mem ((h.positions j).2 hj)
        rcases Nat.lt_or_ge i (o.length - 1) with hlt | hge
        · have := List.pairwise_iff_getElem.1 h.sorted i (o.length - 1) hi2 hi hlt
          rw [hSi] at this
          exact before_trans this hb
        · have : i = o.length - 1 := by omega
          subst this
          rw [← hSi]; exact hb)
    (o.length + 1) 0 o.length (by omega) (by omega) (Nat.le_refl _) (fun _ => by omega) (by omega)
  refine ⟨len, pos, e, e1, ?_, e3⟩
  rw [List.length_drop] at e2
  omega

end Bpak
