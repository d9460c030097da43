import Verif.Proof.History
namespace Bpak

theorem endOff_sum {off : Nat} (us : List MetaHdr) (ho : off % 8 = 0) :
    endOff off us = off + (us.map (fun m => metaAlignSize m.size.toNat)).sum := by
  induction us generalizing off with
  | nil => simp [endOff]
  | cons a us ih =>
    simp only [endOff, List.map_cons, List.sum_cons]
    rw [ih (metaAlignSize_mod _), metaAlignSize_add ho]; omega

theorem content_len {h : Header} {us : List MetaHdr} {k : Nat} (inv : MetaInv h us k)
    {m : MetaHdr} (hm : m ∈ us) : (metaContent h m).length = m.size.toNat := by
  have := (inv.packed.ge m hm).2
  have := inv.md
  unfold metaContent; simp; omega

theorem getElem?_none_or {α : Type} (l : List α) (i : Nat) : l[i]? = none ∨ ∃ a, l[i]? = some a := by
  cases h : l[i]? with
  | none => left; rfl
  | some a => right; exact ⟨a, rfl⟩

/-- what deletion does to the visible entries -/
theorem del_entries {h h' : Header} {pre post : List MetaHdr} {m : MetaHdr} {k k' : Nat}
    (inv : MetaInv h (pre ++ m :: post) k)
    (inv' : MetaInv h' (pre ++ post.map (shiftMeta (metaAlignSize m.size.toNat))) k')
    (q1 : ∀ j, j < m.offset.toNat → h'.metadata[j]? = h.metadata[j]?)
    (q2 : ∀ p ∈ post, ∀ t, t < p.size.toNat →
        h'.metadata[p.offset.toNat - metaAlignSize m.size.toNat + t]? =
          if t < metaAlignSize m.size.toNat then h.metadata[p.offset.toNat + t]? else some 0) :
    entries h' = pre.map (fun x => ⟨x.id, x.partRef, metaContent h x⟩) ++
      post.map (fun x => ⟨x.id, x.partRef,
        (metaContent h x).take (metaAlignSize m.size.toNat) ++
          List.replicate ((metaContent h x).length - metaAlignSize m.size.toNat) 0⟩) := by
  unfold entries
  rw [inv'.used, List.map_append, List.map_map]
  have hdis := inv.packed.disjoint
  rw [List.pairwise_append] at hdis
  congr 1
  · apply List.map_congr_left
    intro x hx
    have hx' := (inv.packed.ge x (by simp [hx])).2
    have hle := hdis.2.2 x hx m (by simp)
    simp only [Entry.mk.injEq, true_and]
    unfold metaContent
    apply window_eq (by rw [inv'.md]; exact hx') (by rw [inv.md]; exact hx')
    intro j hj
    exact q1 _ (by omega)
  · apply List.map_congr_left
    intro x hx
    have hxm : x ∈ pre ++ m :: post := by simp [hx]
    have hx' := (inv.packed.ge x hxm).2
    have hlen := content_len inv hxm
    simp only [Function.comp, Entry.mk.injEq]
    refine ⟨rfl, rfl, ?_⟩
    have hxs : shiftMeta (metaAlignSize m.size.toNat) x ∈ pre ++ post.map (shiftMeta (metaAlignSize m.size.toNat)) := by
      simp; right; exact ⟨x, hx, rfl⟩
    have hl' := content_len inv' hxs
    have hsz : (shiftMeta (metaAlignSize m.size.toNat) x).size = x.size := rfl
    rw [hsz] at hl'
    apply List.ext_getElem?
    intro t
    by_cases ht : t < x.size.toNat
    · have e1 : (metaContent h' (shiftMeta (metaAlignSize m.size.toNat) x))[t]?
          = h'.metadata[x.offset.toNat - metaAlignSize m.size.toNat + t]? := by
        unfold metaContent
        rw [hsz, shiftMeta_off, List.getElem?_take, if_pos ht, List.getElem?_drop]
      rw [e1, q2 x hx t ht]
      by_cases hta : t < metaAlignSize m.size.toNat
      · rw [if_pos hta, List.getElem?_append_left (by simp [hlen]; omega), List.getElem?_take, if_pos hta]
        unfold metaContent
        rw [List.getElem?_take, if_pos ht, List.getElem?_drop]
      · rw [if_neg hta, List.getElem?_append_right (by simp; omega), List.getElem?_replicate, if_pos]
        simp [hlen]; omega
    · rw [List.getElem?_eq_none (by omega), List.getElem?_eq_none]
      simp [hlen]; omega

end Bpak
