import Verif.Props.OwnSearch
import Verif.Props.TransportCmdExample
/-! The hypotheses of `C105_send_and_restore_partial` are met. -/
namespace Bpak
attribute [local instance] storeLib

theorem sortsWithin_max {o n : Bytes} (h1 : 2 ≤ o.length) (h2 : n.length < 2^31) (x : U8) (hx : x ∈ o) (hmax : ∀ y ∈ n, y.toNat < x.toNat) : SortsWithin o n := by
  refine ⟨h1, h2, fun i _ => ?_⟩
  obtain ⟨j, hj, e⟩ := List.getElem_of_mem hx
  refine ⟨j, hj, fun hc => ?_⟩
  have h2 : before (n.drop i) (o.drop j) := by
    rw [List.drop_eq_getElem_cons hj, e]
    exact before_of_head (fun a ha => hmax a (List.mem_of_mem_drop ha))
  exact before_irrefl _ (before_trans hc h2)

theorem exTr_where : ∀ q ∈ usedParts (parseHeader exTrPre), (partOffset (parseHeader exTrPre) q).toNat = 4096 ∧ storedSize q = 512 := by decide +kernel

theorem exTr_stored (x : Nat) (q : PartHdr) (hq : q ∈ usedParts (storedPkg (exTrFile x)).hdr) :
    storedBytes (storedPkg (exTrFile x)) q = unrle [(1, 1), (x, 1), (3, 1), (0, 509)] := by
  rw [exTr_hdr] at hq
  obtain ⟨h1, h2⟩ := exTr_where q hq
  unfold storedBytes
  rw [exTr_hdr, h1, h2]
  show fileRead (exTrFile x) 4096 512 = _
  have : exTrPre.length = 4096 := by simp only [exTrPre, unrle, List.length_append, List.length_replicate, List.length_nil]
  unfold fileRead exTrFile
  rw [List.drop_append_of_le_length (by omega), List.drop_eq_nil_of_le (by omega), List.nil_append, List.take_of_length_le]
  simp only [unrle, List.length_append, List.length_replicate, List.length_nil]
  omega

/-- A package with part [1, 2, 3] is sent against one with part [1, 9, 3], with the array and the search of the code, and restored. -/
example : ∃ e, transportEncodeCmd exHash (ownSearch (fun a => a)) (some (exTrFile 2)) (some (some (exTrFile 9))) true = .ok e ∧
    transportDecodeCmd exHash (some e) (some (some (exTrFile 9))) true = .ok (exTrFile 2) := by
  obtain ⟨t, h, e⟩ := exTr_session _ rfl _ exTrRun2
  obtain ⟨t', h', e'⟩ := exTr_session _ rfl _ exTrRun9
  refine C105_send_and_restore_partial store_laws exHash exHash_len exScheme exScheme_ok _ t t' _ _ h h' exTr_transportable ?_ (by rw [e]; simp) exTrId rfl
    exTr_hasId (by rw [exTr_hdr 9, ← exTr_hdr 2]; exact exTr_hasId) (by rw [exTr_hdr 9, ← exTr_hdr 2]; exact exTr_place) exTr_short ?_
  · rw [e, e']
    intro c hc
    rw [List.mem_singleton.1 hc]
    exact ⟨_, List.mem_singleton.2 rfl, rfl⟩
  · intro q hq oq hoq _ _
    rw [exTr_stored 2 q hq, exTr_stored 9 oq hoq]
    refine sortsWithin_max (by simp only [unrle, List.length_append, List.length_replicate, List.length_nil]; omega)
      (by simp only [unrle, List.length_append, List.length_replicate, List.length_nil]; omega) (BitVec.ofNat 8 9) ?_ ?_
    · simp only [unrle, List.mem_append, List.mem_replicate]
      exact Or.inr (Or.inl ⟨by decide, True.intro⟩)
    · intro y hy
      simp only [unrle, List.mem_append, List.mem_replicate, List.not_mem_nil, or_false] at hy
      rcases hy with ⟨_, rfl⟩ | ⟨_, rfl⟩ | ⟨_, rfl⟩ | ⟨_, rfl⟩ <;> decide

end Bpak
