import Verif.Spec.History
import Verif.Proof.Crc
namespace Bpak

theorem getPartGo_some {id : U32} {ps : List PartHdr} {k i : Nat} (h : getPartGo id ps k = some i) :
    k ≤ i ∧ (∃ p, ps[i - k]? = some p ∧ p.id = id) ∧
    ∀ j, j < i - k → ∀ p, ps[j]? = some p → p.id ≠ id := by
  induction ps generalizing k with
  | nil => simp [getPartGo] at h
  | cons a ps ih =>
    unfold getPartGo at h
    by_cases hm : a.id = id
    · rw [if_pos hm] at h
      cases h
      exact ⟨Nat.le_refl _, ⟨a, by simp, hm⟩, by intro j hj; omega⟩
    · rw [if_neg hm] at h
      obtain ⟨hk, ⟨p, hp1, hp2⟩, hr⟩ := ih h
      refine ⟨by omega, ⟨p, ?_, hp2⟩, ?_⟩
      · have : i - k = (i - (k+1)) + 1 := by omega
        rw [this]; simpa using hp1
      · intro j hj p' hp'
        cases j with
        | zero => simp at hp'; subst hp'; exact hm
        | succ j => exact hr j (by omega) p' (by simpa using hp')

theorem getPartGo_none {id : U32} {ps : List PartHdr} {k : Nat} :
    getPartGo id ps k = none ↔ ∀ p ∈ ps, p.id ≠ id := by
  induction ps generalizing k with
  | nil => simp [getPartGo]
  | cons a ps ih =>
    unfold getPartGo
    by_cases hm : a.id = id
    · rw [if_pos hm]; simp [hm]
    · rw [if_neg hm, ih]; simp [hm]

theorem modify_append_cons {α : Type} (pre : List α) (x : α) (post : List α) (f : α → α) :
    (pre ++ x :: post).modify pre.length f = pre ++ f x :: post := by
  induction pre with
  | nil => simp
  | cons a pre ih => simp [ih]

/-- a fresh part slot -/
def newPart (id : U32) : PartHdr := { PartHdr.zero with id := id }

structure PartInv (h : Header) (ps : List PartHdr) (k : Nat) : Prop where
  slots : h.parts = ps ++ List.replicate k PartHdr.zero
  len : ps.length + k = 32
  ids : ∀ p ∈ ps, p.id ≠ 0
  distinct : ps.Pairwise (fun a b => a.id ≠ b.id)

theorem PartInv.used {h : Header} {ps : List PartHdr} {k : Nat} (inv : PartInv h ps k) :
    usedParts h = ps := by
  unfold usedParts
  rw [inv.slots]
  rw [List.takeWhile_append_of_pos (by simpa using inv.ids)]
  have : List.takeWhile (fun m => decide (m.id ≠ 0)) (List.replicate k PartHdr.zero) = [] := by
    cases k with
    | zero => rfl
    | succ k => rw [List.replicate_succ, List.takeWhile_cons]; simp [PartHdr.zero]
  rw [this, List.append_nil]

theorem addPartGo_exists (id : U32) (us ts : List PartHdr) (i : Nat) (hp : ∀ m ∈ us, m.id ≠ 0)
    (hex : ∃ m ∈ us, m.id = id) :
    (addPartGo id (us ++ ts) i).1 = .exists_ ∧ (addPartGo id (us ++ ts) i).2.1 = us ++ ts := by
  induction us generalizing i with
  | nil => simp at hex
  | cons a us ih =>
    have ha := hp a (by simp)
    simp only [List.cons_append, addPartGo, if_neg ha]
    by_cases hm : a.id = id
    · simp [hm]
    · rw [if_neg hm]
      have hex' : ∃ m ∈ us, m.id = id := by
        obtain ⟨m, hm1, hm2⟩ := hex
        rcases List.mem_cons.1 hm1 with rfl | h
        · exact absurd hm2 hm
        · exact ⟨m, h, hm2⟩
      have := ih (i+1) (fun m hm => hp m (List.mem_cons_of_mem _ hm)) hex'
      exact ⟨this.1, by rw [this.2]⟩

theorem addPartGo_full (id : U32) (us : List PartHdr) (i : Nat) (hp : ∀ m ∈ us, m.id ≠ 0)
    (hex : ¬ ∃ m ∈ us, m.id = id) :
    addPartGo id us i = (.noSpaceLeft, us, i + us.length) := by
  induction us generalizing i with
  | nil => simp [addPartGo]
  | cons a us ih =>
    have ha := hp a (by simp)
    have hm : ¬ (a.id = id) := fun h => hex ⟨a, by simp, h⟩
    simp only [addPartGo, if_neg ha, if_neg hm]
    rw [ih (i+1) (fun m hm => hp m (List.mem_cons_of_mem _ hm))
      (fun ⟨m, h1, h2⟩ => hex ⟨m, List.mem_cons_of_mem _ h1, h2⟩)]
    simp only [List.length_cons, Nat.add_assoc, Nat.add_comm 1]

theorem addPartGo_free (id : U32) (us ts : List PartHdr) (i : Nat) (hp : ∀ m ∈ us, m.id ≠ 0)
    (hex : ¬ ∃ m ∈ us, m.id = id) :
    addPartGo id (us ++ PartHdr.zero :: ts) i =
      (.ok, us ++ newPart id :: ts, i + us.length) := by
  induction us generalizing i with
  | nil => simp [addPartGo, PartHdr.zero, newPart]
  | cons a us ih =>
    have ha := hp a (by simp)
    have hm : ¬ (a.id = id) := fun h => hex ⟨a, by simp, h⟩
    simp only [List.cons_append, addPartGo, if_neg ha, if_neg hm]
    rw [ih (i+1) (fun m hm => hp m (List.mem_cons_of_mem _ hm))
      (fun ⟨m, h1, h2⟩ => hex ⟨m, List.mem_cons_of_mem _ h1, h2⟩)]
    simp only [List.length_cons, Nat.add_assoc, Nat.add_comm 1]

theorem delPartGo_eq (p : PartHdr) (post : List PartHdr) (k : Nat) (hp : ∀ m ∈ post, m.id ≠ 0) :
    delPartGo (p :: (post ++ List.replicate k PartHdr.zero)) = post ++ List.replicate (k+1) PartHdr.zero := by
  induction post generalizing p with
  | nil =>
    cases k with
    | zero => simp [delPartGo]
    | succ k => simp [List.replicate_succ, delPartGo, PartHdr.zero]
  | cons a post ih =>
    simp only [List.cons_append, delPartGo, if_neg (hp a (by simp))]
    rw [ih a (fun m hm => hp m (List.mem_cons_of_mem _ hm))]

theorem delPart_inv {h : Header} {pre post : List PartHdr} {p : PartHdr} {k : Nat}
    (inv : PartInv h (pre ++ p :: post) k) :
    delPart h pre.length = .ret { h with parts := pre ++ post ++ List.replicate (k+1) PartHdr.zero } := by
  obtain ⟨hs, hl, hi, hd⟩ := inv
  unfold delPart
  rw [hs, if_pos (by simp)]
  have e1 : (pre ++ p :: post ++ List.replicate k PartHdr.zero).take pre.length = pre := by
    rw [List.append_assoc, List.take_left]
  have e2 : (pre ++ p :: post ++ List.replicate k PartHdr.zero).drop pre.length
      = p :: (post ++ List.replicate k PartHdr.zero) := by
    rw [List.append_assoc, List.drop_left, List.cons_append]
  rw [e1, e2, delPartGo_eq _ _ _ (fun m hm => hi m (by simp [hm])), List.append_assoc]

/-! ### offsets -/

/-- exact (unbounded) sum of stored sizes -/
def sizesSum (ps : List PartHdr) : Nat := (ps.map (fun p => (partSize p).toNat)).sum

theorem partOffsetGo_eq (id : U32) (pre : List PartHdr) (ts : List PartHdr) (off : U64)
    (hp : ∀ q ∈ pre, q.id ≠ 0 ∧ q.id ≠ id) (hs : off.toNat + sizesSum pre < 2^64)
    (ht : ∀ q, ts.head? = some q → q.id = id ∨ q.id = 0) :
    (partOffsetGo id off (pre ++ ts)).toNat = off.toNat + sizesSum pre := by
  induction pre generalizing off with
  | nil =>
    cases ts with
    | nil => simp [partOffsetGo, sizesSum]
    | cons q ts =>
      have := ht q rfl
      simp only [List.nil_append, partOffsetGo, sizesSum, List.map_nil, List.sum_nil, Nat.add_zero]
      rcases this with h | h
      · split
        · rfl
        · rfl
      · simp [h]
  | cons a pre ih =>
    have ha := hp a (by simp)
    simp only [List.cons_append, partOffsetGo, if_neg ha.1, if_neg ha.2]
    have hsum : sizesSum (a :: pre) = (partSize a).toNat + sizesSum pre := by simp [sizesSum]
    rw [hsum] at hs
    have hadd : (off + partSize a).toNat = off.toNat + (partSize a).toNat := by
      rw [BitVec.toNat_add, Nat.mod_eq_of_lt]; omega
    rw [ih _ (fun q hq => hp q (List.mem_cons_of_mem _ hq)) (by omega), hsum]
    omega

theorem validPartsGo_iff (ps : List PartHdr) : validPartsGo ps = true ↔
    ∀ p ∈ ps.takeWhile (fun p => p.id ≠ 0), (p.size + p.padBytes.setWidth 64).toNat % 512 = 0 := by
  induction ps with
  | nil => simp [validPartsGo]
  | cons a ps ih =>
    unfold validPartsGo
    by_cases h : a.id = 0
    · simp [h]
    · rw [if_neg h, List.takeWhile_cons]
      simp only [h, ne_eq, not_false_eq_true, decide_true, if_true, List.forall_mem_cons, partAlign]
      by_cases h2 : (a.size + a.padBytes.setWidth 64).toNat % 512 = 0
      · simp only [h2, not_true_eq_false, if_false, true_and]; simpa using ih
      · simp only [h2, not_false_eq_true, if_true, false_and, Bool.false_eq_true]

theorem validMetaGo_iff (ms : List MetaHdr) : validMetaGo ms = true ↔
    ∀ m ∈ ms.takeWhile (fun p => p.id ≠ 0), m.size.toNat + m.offset.toNat ≤ 1920 := by
  induction ms with
  | nil => simp [validMetaGo]
  | cons a ps ih =>
    unfold validMetaGo
    by_cases h : a.id = 0
    · simp [h]
    · rw [if_neg h, List.takeWhile_cons]
      simp only [h, ne_eq, not_false_eq_true, decide_true, if_true, List.forall_mem_cons, metadataBytes]
      by_cases h2 : a.size.toNat + a.offset.toNat ≤ 1920
      · rw [if_neg (by omega)]; simp only [h2, true_and]; simpa using ih
      · rw [if_pos (by omega)]; simp [h2]

end Bpak
