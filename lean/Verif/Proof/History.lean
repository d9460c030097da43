import Verif.Proof.Meta
import Verif.Proof.Part
namespace Bpak

/-- Everything that holds of a header built through the API. -/
structure Inv (h : Header) : Prop where
  wf : h.WF
  metas : ∃ us k, MetaInv h us k
  parts : ∃ ps k, PartInv h ps k
  magic : h.magic = headerMagic
  hashKind : h.hashKind ≠ 0

theorem inv_init : Inv initHeader where
  wf := by decide +kernel
  metas := ⟨[], 32, ⟨rfl, rfl, trivial, List.Pairwise.nil, List.length_replicate⟩⟩
  parts := ⟨[], 32, ⟨rfl, rfl, by simp, List.Pairwise.nil⟩⟩
  magic := rfl
  hashKind := by decide

/-- lookup on the used prefix -/
theorem getMeta_split {h : Header} {us : List MetaHdr} {k : Nat} (inv : MetaInv h us k)
    {id ref : U32} (hid : id ≠ 0) {i : Nat} (hg : getMeta h id ref = some i) :
    ∃ pre m post, us = pre ++ m :: post ∧ pre.length = i ∧ m.id = id ∧ m.partRef = ref ∧
      h.metas[i]? = some m := by
  obtain ⟨-, ⟨m, hm, h1, h2⟩, -⟩ := getMetaIntGo_some hg
  simp only [Nat.sub_zero] at hm
  have hlt : i < us.length := by
    rw [inv.slots] at hm
    by_cases hc : i < us.length
    · exact hc
    · rw [List.getElem?_append_right (by omega), List.getElem?_replicate] at hm
      split at hm
      · cases hm; exact absurd h1.symm hid
      · cases hm
  have hmu : us[i]? = some m := by
    rw [inv.slots, List.getElem?_append_left hlt] at hm; exact hm
  refine ⟨us.take i, m, us.drop (i+1), ?_, by simp; omega, h1, h2 rfl, hm⟩
  have : us[i] = m := by
    rw [List.getElem?_eq_getElem hlt] at hmu; simpa using hmu
  rw [← this]; simp

theorem getPart_split {h : Header} {us : List PartHdr} {k : Nat} (inv : PartInv h us k)
    {id : U32} (hid : id ≠ 0) {i : Nat} (hg : getPart h id = some i) :
    ∃ pre m post, us = pre ++ m :: post ∧ pre.length = i ∧ m.id = id ∧ h.parts[i]? = some m := by
  obtain ⟨-, ⟨m, hm, h1⟩, -⟩ := getPartGo_some hg
  simp only [Nat.sub_zero] at hm
  have hlt : i < us.length := by
    rw [inv.slots] at hm
    by_cases hc : i < us.length
    · exact hc
    · rw [List.getElem?_append_right (by omega), List.getElem?_replicate] at hm
      split at hm
      · cases hm; exact absurd h1.symm hid
      · cases hm
  have hmu : us[i]? = some m := by
    rw [inv.slots, List.getElem?_append_left hlt] at hm; exact hm
  refine ⟨us.take i, m, us.drop (i+1), ?_, by simp; omega, h1, hm⟩
  have : us[i] = m := by
    rw [List.getElem?_eq_getElem hlt] at hmu; simpa using hmu
  rw [← this]; simp

theorem addMeta_ok_inv {h : Header} {us : List MetaHdr} {k : Nat} (inv : MetaInv h us k)
    {id ref : U32} {size : U16} (hid : id ≠ 0)
    (hne : ¬ ∃ m ∈ us, m.id = id ∧ m.partRef = ref) (hk : k ≠ 0)
    (hfit : endOff 0 us + size.toNat ≤ 1920) :
    ∃ m : MetaHdr, m.id = id ∧ m.partRef = ref ∧ m.size = size ∧ m.offset.toNat = endOff 0 us ∧
      m.pad = [0,0,0,0] ∧
      addMeta h id ref size = (.ok, { h with metas := us ++ m :: List.replicate (k-1) MetaHdr.zero }, us.length) ∧
      MetaInv { h with metas := us ++ m :: List.replicate (k-1) MetaHdr.zero } (us ++ [m]) (k-1) := by
  obtain ⟨hs, hl, hp, hd, hmd⟩ := inv
  obtain ⟨k, rfl⟩ : ∃ k', k = k'+1 := ⟨k-1, by omega⟩
  refine ⟨{ id := id, offset := BitVec.ofNat 16 (endOff 0 us), size := size, partRef := ref },
    rfl, rfl, rfl, ?_, rfl, ?_, ?_⟩
  · simp only [BitVec.toNat_ofNat]; exact Nat.mod_eq_of_lt (by omega)
  · unfold addMeta
    rw [hs, List.replicate_succ, addMetaGo_free id ref size us _ 0 0 hp hne]
    simp only [BitVec.toNat_zero, Nat.zero_add, Nat.add_sub_cancel]
    rw [if_neg (by simpa using hfit)]
    rfl
  · have hoff : (BitVec.ofNat 16 (endOff 0 us)).toNat = endOff 0 us := by
      simp only [BitVec.toNat_ofNat]; exact Nat.mod_eq_of_lt (by omega)
    refine ⟨by simp, by simp; omega, ?_, ?_, hmd⟩
    · rw [Packed.append_iff]
      exact ⟨hp, hid, hoff, hfit, trivial⟩
    · rw [List.pairwise_append]
      refine ⟨hd, by simp, ?_⟩
      intro a ha b hb hc
      simp at hb; subst hb
      exact hne ⟨a, ha, hc.1, hc.2⟩

/-- complete case analysis of `bpak_add_meta` on an API-built header -/
theorem addMeta_cases {h : Header} {us : List MetaHdr} {k : Nat} (inv : MetaInv h us k)
    (id ref : U32) (size : U16) :
    ((∃ m ∈ us, m.id = id ∧ m.partRef = ref) ∧ (addMeta h id ref size).1 = .exists_ ∧
        (addMeta h id ref size).2.1 = h) ∨
    ((¬ ∃ m ∈ us, m.id = id ∧ m.partRef = ref) ∧ k = 0 ∧ (addMeta h id ref size).1 = .noSpaceLeft ∧
        (addMeta h id ref size).2.1 = h) ∨
    ((¬ ∃ m ∈ us, m.id = id ∧ m.partRef = ref) ∧ k ≠ 0 ∧ endOff 0 us + size.toNat > 1920 ∧
        (addMeta h id ref size).1 = .noSpaceLeft) ∨
    ((¬ ∃ m ∈ us, m.id = id ∧ m.partRef = ref) ∧ k ≠ 0 ∧ endOff 0 us + size.toNat ≤ 1920 ∧
        (addMeta h id ref size).1 = .ok) := by
  have hs := inv.slots
  have hp := inv.packed
  by_cases hex : ∃ m ∈ us, m.id = id ∧ m.partRef = ref
  · left
    have := addMetaGo_exists id ref size us (List.replicate k MetaHdr.zero) 0 0 hp.ids hex
    refine ⟨hex, ?_, ?_⟩
    · unfold addMeta; rw [hs]; exact this.1
    · unfold addMeta; simp only [hs, this.2]
      rw [← hs]
  · right
    by_cases hk : k = 0
    · left
      subst hk
      simp only [List.replicate_zero, List.append_nil] at hs
      refine ⟨hex, rfl, ?_, ?_⟩
      · unfold addMeta; rw [hs, addMetaGo_full id ref size us 0 0 hp.ids hex]
      · unfold addMeta; simp only [hs, addMetaGo_full id ref size us 0 0 hp.ids hex]
        rw [← hs]
    · right
      obtain ⟨k, rfl⟩ : ∃ k', k = k'+1 := ⟨k-1, by omega⟩
      have hfree := addMetaGo_free id ref size us (List.replicate k MetaHdr.zero) 0 0 hp hex
      have hz : (0 : U16).toNat = 0 := rfl
      rw [hz] at hfree
      by_cases hfit : endOff 0 us + size.toNat ≤ 1920
      · right
        refine ⟨hex, hk, hfit, ?_⟩
        unfold addMeta; rw [hs, List.replicate_succ, hfree]
        rw [if_neg (by omega)]
      · left
        refine ⟨hex, hk, by omega, ?_⟩
        unfold addMeta; rw [hs, List.replicate_succ, hfree]
        rw [if_pos (by omega)]

theorem writeMeta_inv {h : Header} {us : List MetaHdr} {k : Nat} (inv : MetaInv h us k)
    {md : Bytes} (hl : md.length = 1920) : MetaInv { h with metadata := md } us k :=
  ⟨inv.slots, inv.len, inv.packed, inv.distinct, hl⟩

theorem addPart_cases {h : Header} {ps : List PartHdr} {k : Nat} (inv : PartInv h ps k) (id : U32) :
    ((∃ p ∈ ps, p.id = id) ∧ (addPart h id).1 = .exists_ ∧ (addPart h id).2.1 = h) ∨
    ((¬ ∃ p ∈ ps, p.id = id) ∧ k = 0 ∧ (addPart h id).1 = .noSpaceLeft ∧ (addPart h id).2.1 = h) ∨
    ((¬ ∃ p ∈ ps, p.id = id) ∧ k ≠ 0 ∧
      addPart h id = (.ok, { h with parts := ps ++ newPart id :: List.replicate (k-1) PartHdr.zero }, ps.length)) := by
  have hs := inv.slots
  by_cases hex : ∃ p ∈ ps, p.id = id
  · left
    have := addPartGo_exists id ps (List.replicate k PartHdr.zero) 0 inv.ids hex
    refine ⟨hex, ?_, ?_⟩
    · unfold addPart; rw [hs]; exact this.1
    · unfold addPart; simp only [hs, this.2]; rw [← hs]
  · right
    by_cases hk : k = 0
    · left
      subst hk
      simp only [List.replicate_zero, List.append_nil] at hs
      refine ⟨hex, rfl, ?_, ?_⟩
      · unfold addPart; rw [hs, addPartGo_full id ps 0 inv.ids hex]
      · unfold addPart; simp only [hs, addPartGo_full id ps 0 inv.ids hex]; rw [← hs]
    · right
      obtain ⟨k, rfl⟩ : ∃ k', k = k'+1 := ⟨k-1, by omega⟩
      refine ⟨hex, hk, ?_⟩
      unfold addPart
      rw [hs, List.replicate_succ, addPartGo_free id ps _ 0 inv.ids hex]
      simp

theorem inv_step {h h' : Header} {op : Op} (inv : Inv h) (hs : step h op = some h') : Inv h' := by
  obtain ⟨wf, ⟨us, k, im⟩, ⟨ps, kp, ip⟩, hm, hk⟩ := inv
  have hwf := wf
  obtain ⟨w1, w2, w3, w4, w5, w6, w7, w8⟩ := wf
  have hpads : ∀ m ∈ us, m.pad.length = 4 := fun m hmm => w8 m (by rw [im.slots]; simp [hmm])
  cases op with
  | addMeta id ref size =>
    simp only [step] at hs
    split at hs
    · cases hs
    · rename_i hid
      split at hs
      · rename_i hor
        cases hs
        rcases addMeta_cases im id ref size with ⟨_, _, e⟩ | ⟨_, _, _, e⟩ | ⟨hne, hk0, hfit, e⟩ | ⟨hne, hk0, hfit, e⟩
        · rw [e]; exact ⟨hwf, ⟨us, k, im⟩, ⟨ps, kp, ip⟩, hm, hk⟩
        · rw [e]; exact ⟨hwf, ⟨us, k, im⟩, ⟨ps, kp, ip⟩, hm, hk⟩
        · rcases hor with h1 | h1
          · rw [e] at h1; cases h1
          · rw [h1]; exact ⟨hwf, ⟨us, k, im⟩, ⟨ps, kp, ip⟩, hm, hk⟩
        · obtain ⟨m, _, _, _, _, hpad, e2, i2⟩ := addMeta_ok_inv im (size := size) hid hne hk0 hfit
          rw [e2]
          refine ⟨⟨w1, ?_, w3, w4, w5, w6, w7, ?_⟩, ⟨_, _, i2⟩, ⟨ps, kp, ⟨ip.slots, ip.len, ip.ids, ip.distinct⟩⟩, hm, hk⟩
          · have := i2.len; simp at this ⊢; omega
          · intro x hx
            simp only [List.mem_append, List.mem_cons, List.mem_replicate] at hx
            rcases hx with hx | rfl | ⟨_, rfl⟩
            · exact hpads x hx
            · rw [hpad]; rfl
            · rfl
      · cases hs
  | delMeta id ref =>
    simp only [step] at hs
    split at hs
    · cases hs
    · rename_i hid
      split at hs
      · cases hs; exact ⟨hwf, ⟨us, k, im⟩, ⟨ps, kp, ip⟩, hm, hk⟩
      · rename_i i hg
        obtain ⟨pre, m, post, rfl, hl, _, _, _⟩ := getMeta_split im hid hg
        subst hl
        cases k with
        | zero =>
          exfalso
          have : delMeta h pre.length = .ub := by
            unfold delMeta
            split
            · rfl
            · simp only []
              rw [delMetaGo_full]
              intro x hx
              have := List.mem_of_mem_drop hx
              rw [im.slots] at this
              exact im.packed.ids x (by simpa using this)
          rw [this] at hs; cases hs
        | succ k =>
          obtain ⟨h2, e, i2, e3, _, _⟩ := delMeta_inv im
          rw [e] at hs
          cases hs
          have hparts : h'.parts = h.parts := by rw [e3]
          refine ⟨⟨by rw [e3]; exact w1, ?_, by rw [e3]; exact w3, i2.md, by rw [e3]; exact w5,
            by rw [e3]; exact w6, by rw [e3]; exact w7, ?_⟩, ⟨_, _, i2⟩,
            ⟨ps, kp, ⟨by rw [hparts]; exact ip.slots, ip.len, ip.ids, ip.distinct⟩⟩,
            by rw [e3]; exact hm, by rw [e3]; exact hk⟩
          · have := i2.len; rw [i2.slots]; simp at this ⊢; omega
          · intro x hx
            rw [i2.slots] at hx
            simp only [List.mem_append, List.mem_map, List.mem_replicate] at hx
            rcases hx with (hx | ⟨y, hy, rfl⟩) | ⟨_, rfl⟩
            · exact hpads x (by simp [hx])
            · exact hpads y (by simp [hy])
            · rfl
  | writeMeta id ref data =>
    simp only [step] at hs
    split at hs
    · cases hs
    · split at hs
      · cases hs
      · split at hs
        · cases hs
        · split at hs
          · split at hs
            · cases hs
            · rename_i md hw
              cases hs
              have hl : md.length = 1920 := by rw [(writeAt_some hw).2.1]; exact im.md
              exact ⟨⟨w1, w2, w3, hl, w5, w6, w7, w8⟩, ⟨us, k, writeMeta_inv im hl⟩,
                ⟨ps, kp, ⟨ip.slots, ip.len, ip.ids, ip.distinct⟩⟩, hm, hk⟩
          · cases hs
  | addPart id =>
    simp only [step] at hs
    split at hs
    · cases hs
    · rename_i hid
      cases hs
      rcases addPart_cases ip id with ⟨_, _, e⟩ | ⟨_, _, _, e⟩ | ⟨hne, hk0, e⟩
      · rw [e]; exact ⟨hwf, ⟨us, k, im⟩, ⟨ps, kp, ip⟩, hm, hk⟩
      · rw [e]; exact ⟨hwf, ⟨us, k, im⟩, ⟨ps, kp, ip⟩, hm, hk⟩
      · rw [e]
        have hpl := ip.len
        refine ⟨⟨w1, w2, ?_, w4, w5, w6, w7, w8⟩, ⟨us, k, ⟨im.slots, im.len, im.packed, im.distinct, im.md⟩⟩,
          ⟨ps ++ [newPart id], kp - 1, ⟨?_, ?_, ?_, ?_⟩⟩, hm, hk⟩
        · simp; omega
        · simp
        · simp; omega
        · intro p hp
          simp only [List.mem_append, List.mem_singleton] at hp
          rcases hp with hp | rfl
          · exact ip.ids p hp
          · exact hid
        · rw [List.pairwise_append]
          refine ⟨ip.distinct, by simp, ?_⟩
          intro a ha b hb hc
          simp at hb; subst hb
          exact hne ⟨a, ha, hc⟩
  | delPart id =>
    simp only [step] at hs
    split at hs
    · cases hs
    · rename_i hid
      split at hs
      · cases hs; exact ⟨hwf, ⟨us, k, im⟩, ⟨ps, kp, ip⟩, hm, hk⟩
      · rename_i i hg
        obtain ⟨pre, p, post, rfl, hl, _, _⟩ := getPart_split ip hid hg
        subst hl
        rw [delPart_inv ip] at hs
        cases hs
        have hpl := ip.len
        refine ⟨⟨w1, w2, ?_, w4, w5, w6, w7, w8⟩, ⟨us, k, ⟨im.slots, im.len, im.packed, im.distinct, im.md⟩⟩,
          ⟨pre ++ post, kp + 1, ⟨rfl, ?_, ?_, ?_⟩⟩, hm, hk⟩
        · simp at hpl ⊢; omega
        · simp at hpl ⊢; omega
        · intro q hq
          exact ip.ids q (by simp at hq ⊢; rcases hq with h | h <;> simp [h])
        · have hd := ip.distinct
          refine hd.sublist ?_
          exact List.Sublist.append_left (List.sublist_cons_self _ _) _
  | setPart id size padBytes flags tsz =>
    simp only [step] at hs
    split at hs
    · cases hs
    · rename_i hid
      split at hs
      · cases hs
      · rename_i i hg
        obtain ⟨pre, p, post, rfl, hl, _, _⟩ := getPart_split ip hid hg
        subst hl
        cases hs
        have hmod : h.parts.modify pre.length (fun p => { p with size := size, padBytes := padBytes, flags := flags, transportSize := tsz })
            = pre ++ { p with size := size, padBytes := padBytes, flags := flags, transportSize := tsz } :: post
              ++ List.replicate kp PartHdr.zero := by
          rw [ip.slots, List.append_assoc, List.append_assoc, List.cons_append, List.cons_append,
            modify_append_cons]
        have hpl := ip.len
        refine ⟨⟨w1, w2, ?_, w4, w5, w6, w7, w8⟩, ⟨us, k, ⟨im.slots, im.len, im.packed, im.distinct, im.md⟩⟩,
          ⟨_, kp, ⟨hmod, ?_, ?_, ?_⟩⟩, hm, hk⟩
        · simp; exact w3
        · simpa using hpl
        · intro q hq
          simp only [List.mem_append, List.mem_cons] at hq
          rcases hq with h | rfl | h
          · exact ip.ids q (by simp [h])
          · exact ip.ids p (by simp)
          · exact ip.ids q (by simp [h])
        · have hd := ip.distinct
          rw [List.pairwise_append, List.pairwise_cons] at hd ⊢
          obtain ⟨d1, ⟨d2, d3⟩, d4⟩ := hd
          refine ⟨d1, ⟨d2, d3⟩, ?_⟩
          intro a ha b hb
          rcases List.mem_cons.1 hb with rfl | hb
          · exact d4 a ha p (by simp)
          · exact d4 a ha b (by simp [hb])
  | setKeyId x =>
    simp only [step, setKeyId] at hs
    cases hs
    exact ⟨hwf, ⟨us, k, ⟨im.slots, im.len, im.packed, im.distinct, im.md⟩⟩,
      ⟨ps, kp, ⟨ip.slots, ip.len, ip.ids, ip.distinct⟩⟩, hm, hk⟩
  | setKeystoreId x =>
    simp only [step, setKeystoreId] at hs
    cases hs
    exact ⟨hwf, ⟨us, k, ⟨im.slots, im.len, im.packed, im.distinct, im.md⟩⟩,
      ⟨ps, kp, ⟨ip.slots, ip.len, ip.ids, ip.distinct⟩⟩, hm, hk⟩
  | setPayloadHash b =>
    simp only [step] at hs
    split at hs
    · rename_i hb
      cases hs
      exact ⟨⟨w1, w2, w3, w4, hb, w6, w7, w8⟩, ⟨us, k, ⟨im.slots, im.len, im.packed, im.distinct, im.md⟩⟩,
        ⟨ps, kp, ⟨ip.slots, ip.len, ip.ids, ip.distinct⟩⟩, hm, hk⟩
    · cases hs

theorem inv_run {h h' : Header} {ops : List Op} (inv : Inv h) (hr : run h ops = some h') : Inv h' := by
  induction ops generalizing h with
  | nil => simp [run] at hr; subst hr; exact inv
  | cons op ops ih =>
    simp only [run] at hr
    split at hr
    · cases hr
    · rename_i h2 hs
      exact ih (inv_step inv hs) hr

theorem Reachable.inv {h : Header} (hr : Reachable h) : Inv h := by
  obtain ⟨ops, e⟩ := hr
  exact inv_run inv_init e

end Bpak
