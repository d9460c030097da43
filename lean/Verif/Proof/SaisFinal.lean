import Verif.Proof.SaisMain
import Verif.Spec.SuffixArray
/-! `sais` (lib/sais.c:752-767) and the order of byte strings. -/
namespace Bpak

theorem before_iff : ∀ x y : Bytes, before x y ↔ x.map BitVec.toNat < y.map BitVec.toNat := by
  intro x
  induction x with
  | nil =>
    intro y
    cases y with
    | nil => exact ⟨fun h => h.elim, fun h => absurd h (List.lt_irrefl _)⟩
    | cons b y => exact ⟨fun _ => List.nil_lt_cons _ _, fun _ => trivial⟩
  | cons a x ih =>
    intro y
    cases y with
    | nil => exact ⟨fun h => h.elim, fun h => absurd h (List.not_lt_nil _)⟩
    | cons b y =>
      rw [List.map_cons, List.map_cons, List.cons_lt_cons_iff]
      show (a.toNat < b.toNat ∨ (a = b ∧ before x y)) ↔ _
      rw [ih y]
      constructor
      · rintro (h | ⟨h1, h2⟩)
        · exact Or.inl h
        · exact Or.inr ⟨by rw [h1], h2⟩
      · rintro (h | ⟨h1, h2⟩)
        · exact Or.inl h
        · exact Or.inr ⟨BitVec.eq_of_toNat_eq h1, h2⟩

theorem before_irrefl (x : Bytes) : ¬ before x x := by rw [before_iff]; exact List.lt_irrefl _

theorem before_trans {x y z : Bytes} (h1 : before x y) (h2 : before y z) : before x z := by
  rw [before_iff] at *
  exact List.lt_trans h1 h2

theorem before_total {x y : Bytes} (h : ¬ before x y) : y = x ∨ before y x := by
  rw [before_iff] at h
  rw [before_iff]
  rcases List.le_iff_lt_or_eq.1 (List.not_lt.1 h) with h | h
  · exact Or.inr h
  · refine Or.inl ?_
    have inj : ∀ u v : Bytes, u.map BitVec.toNat = v.map BitVec.toNat → u = v := by
      intro u
      induction u with
      | nil => intro v e; cases v with
        | nil => rfl
        | cons a v => cases e
      | cons a u ih => intro v e; cases v with
        | nil => cases e
        | cons b v =>
          rw [List.map_cons, List.map_cons] at e
          rw [BitVec.eq_of_toNat_eq (List.cons.inj e).1, ih v (List.cons.inj e).2]
    exact inj _ _ h

/-- There is only one suffix array. -/
theorem sorted_unique {R : Nat → Nat → Prop} (irr : ∀ x, ¬ R x x) (tr : ∀ x y z, R x y → R y z → R x z) : ∀ S S' : List Nat, S.Pairwise R → S'.Pairwise R → (∀ i, i ∈ S ↔ i ∈ S') → S = S' := by
  intro S
  induction S with
  | nil =>
    intro S' _ _ h
    cases S' with
    | nil => rfl
    | cons b l => have := (h b).2 (List.mem_cons_self ..); cases this
  | cons a l ih =>
    intro S' h1 h2 h
    cases S' with
    | nil => have := (h a).1 (List.mem_cons_self ..); cases this
    | cons b l' =>
      rw [List.pairwise_cons] at h1 h2
      have hab : a = b := by
        rcases List.mem_cons.1 ((h a).1 (List.mem_cons_self ..)) with e | e
        · exact e
        · rcases List.mem_cons.1 ((h b).2 (List.mem_cons_self ..)) with e' | e'
          · exact e'.symm
          · exact absurd (tr _ _ _ (h2.1 a e) (h1.1 b e')) (irr b)
      subst hab
      rw [ih l' h1.2 h2.2 (fun i => ?_)]
      constructor
      · intro hi
        rcases List.mem_cons.1 ((h i).1 (List.mem_cons_of_mem _ hi)) with e | e
        · rw [e] at hi; exact absurd (h1.1 a hi) (irr a)
        · exact e
      · intro hi
        rcases List.mem_cons.1 ((h i).2 (List.mem_cons_of_mem _ hi)) with e | e
        · rw [e] at hi; exact absurd (h2.1 a hi) (irr a)
        · exact e

theorem IsSuffixArray.unique {t : Bytes} {S S' : List Nat} (h : IsSuffixArray t S) (h' : IsSuffixArray t S') : S = S' :=
  sorted_unique (R := fun i j => before (t.drop i) (t.drop j)) (fun x => before_irrefl _) (fun _ _ _ => before_trans) S S' h.sorted h'.sorted
    (fun i => by rw [h.positions, h'.positions])

namespace Sais

/-- The text as numbers. -/
def valAt (t : Bytes) (i : Nat) : Nat := (t.getD i 0).toNat

theorem suf_drop (t : Bytes) : ∀ d i, t.length - i = d → suf (valAt t) t.length i = (t.drop i).map BitVec.toNat := by
  intro d
  induction d with
  | zero => intro i h; rw [suf_end (by omega), List.drop_eq_nil_of_le (by omega)]; rfl
  | succ d ih =>
    intro i h
    have hi : i < t.length := by omega
    rw [suf_cons hi, ih (i + 1) (by omega), List.drop_eq_getElem_cons hi, List.map_cons]
    unfold valAt
    rw [List.getD_eq_getElem?_getD, List.getElem?_eq_getElem hi]
    rfl

/-- The array of the proofs as a list. -/
theorem isSA_list {t : Bytes} {S : Nat → Nat} (h : IsSA (valAt t) t.length S) : IsSuffixArray t ((List.range t.length).map S) := by
  refine ⟨fun i => ?_, ?_⟩
  · rw [List.mem_map]
    constructor
    · rintro ⟨a, h1, h2⟩
      rw [List.mem_range] at h1
      rw [← h2]; exact h.lt a h1
    · intro hi
      obtain ⟨a, h1, h2⟩ := h.surj hi
      exact ⟨a, List.mem_range.2 h1, h2⟩
  · rw [List.pairwise_map, List.pairwise_iff_getElem]
    intro i j hi hj hij
    rw [List.length_range] at hi hj
    rw [List.getElem_range, List.getElem_range, before_iff, ← suf_drop t _ _ rfl, ← suf_drop t _ _ rfl]
    exact h.sorted i j hij hj

/-- An array of `n` cells at address 0, and nothing allocated from `next` on. -/
structure Room (n : Nat) (h : Heap) : Prop where
  cells : ∀ a : Int, 0 ≤ a → a < n → ∃ v, h.mem a = some v
  top : (n : Int) ≤ h.next
  rest : ∀ a : Int, h.next ≤ a → h.mem a = none

theorem room_fresh (n : Nat) (fails : Nat → Bool) (junk : Int → Int) : Room n (freshHeap n fails junk) := by
  refine ⟨fun a h1 h2 => ⟨0, if_pos ⟨h1, h2⟩⟩, ?_, fun a ha => if_neg ?_⟩
  · show (n : Int) ≤ n + 1; omega
  · have h1 : (n : Int) + 1 ≤ a := ha
    omega

theorem sais_ok (t : Bytes) (h : Heap) (hr : Room t.length h) :
    ∃ rc h', sais t h = some (rc, h') ∧
      ((rc = 0 ∧ ∃ S, IsSuffixArray t S ∧ ∀ i (hi : i < S.length), h'.mem (i : Int) = some (S[i] : Int)) ∨ (rc = -2 ∧ ∃ i, h.fails i = true)) ∧
      (∀ a : Int, ¬ (0 ≤ a ∧ a < t.length) → h'.mem a = h.mem a) := by
  unfold sais
  by_cases h1 : t.length ≤ 1
  · rw [if_pos h1]
    by_cases h2 : t.length = 1
    · rw [if_pos h2]
      obtain ⟨v, hv⟩ := hr.cells 0 (by omega) (by omega)
      rw [wr_eq 0 hv, Option.map_some]
      refine ⟨0, _, rfl, Or.inl ⟨rfl, [0], ⟨fun i => ?_, List.pairwise_singleton _ _⟩, fun i hi => ?_⟩, fun a ha => setM_ne _ _ (by omega)⟩
      · rw [List.mem_singleton]; omega
      · have hi' : i < 1 := hi
        have : i = 0 := by omega
        subst this
        exact setM_eq h.mem 0 0
    · rw [if_neg h2]
      refine ⟨0, h, rfl, Or.inl ⟨rfl, [], ⟨fun i => ?_, List.Pairwise.nil⟩, fun i hi => by cases hi⟩, fun _ _ => rfl⟩
      constructor
      · intro h; cases h
      · intro h; omega
  · rw [if_neg h1]
    have q : Call (.bytes t) (valAt t) 0 t.length 256 h := by
      refine ⟨by omega, fun i hi => ?_, fun i hi => ?_, fun a ha => ha.elim⟩
      · exact (t.getD i 0).isLt
      · show (if (0 : Int) ≤ i then (t[(i : Int).toNat]?).map (fun c => (c.toNat : Int)) else none) = _
        rw [if_pos (by omega), show ((i : Int).toNat) = i by omega, List.getElem?_eq_getElem hi]
        unfold valAt
        rw [List.getD_eq_getElem?_getD, List.getElem?_eq_getElem hi]
        rfl
    have st : St ((t.length + 0 : Nat) : Int) h (fun _ => False) h 0 := St.start hr.top hr.rest hr.cells
    obtain ⟨rc, h', j, e1, e2, e3⟩ := saisMain_ok t.length (.bytes t) (valAt t) 0 t.length 256 h (Nat.le_refl _) q st
    refine ⟨rc, h', e1, ?_, fun a ha => ?_⟩
    · rcases e3 with ⟨hrc, S, h1, h2⟩ | ⟨hrc, i, h1, h2⟩
      · refine Or.inl ⟨hrc, _, isSA_list h1, fun i hi => ?_⟩
        rw [List.length_map, List.length_range] at hi
        rw [List.getElem_map, List.getElem_range, show (i : Int) = 0 + i by omega]
        exact h2 i hi
      · exact Or.inr ⟨hrc, i, h2⟩
    · by_cases hlt : a < h.next
      · exact e2.low a hlt (by omega)
      · rw [e2.own a (by omega) (fun h => h), hr.rest a (by omega)]

end Sais
end Bpak
