import Verif.Proof.Entries
/-! Properties C10–C14 (and the lookup half of C02): the part table and header validity. -/
namespace Bpak

/-- Lookup returns the first slot with the id; fails exactly when there is none. -/
theorem C10_get_part_is_first_match (h : Header) (id : U32) (i : Nat) :
    getPart h id = some i ↔
      (∃ p, h.parts[i]? = some p ∧ p.id = id) ∧ ∀ j, j < i → ∀ p, h.parts[j]? = some p → p.id ≠ id := by
  constructor
  · intro hg
    obtain ⟨-, ⟨m, h1, h2⟩, h4⟩ := getPartGo_some hg
    exact ⟨⟨m, by simpa using h1, h2⟩, fun j hj => h4 j (by omega)⟩
  · rintro ⟨⟨m, h1, h2⟩, hmin⟩
    cases hg : getPart h id with
    | none => exact absurd h2 (getPartGo_none.1 hg m (List.mem_of_getElem? h1))
    | some i' =>
      obtain ⟨-, ⟨m', g1, g2⟩, g4⟩ := getPartGo_some hg
      simp only [Nat.sub_zero] at g1 g4
      rcases Nat.lt_trichotomy i i' with hlt | heq | hgt
      · exact absurd h2 (g4 i hlt m h1)
      · rw [heq]
      · exact absurd g2 (hmin i' hgt m' g1)

theorem C10_get_part_not_found (h : Header) (id : U32) :
    getPart h id = none ↔ ∀ p ∈ h.parts, p.id ≠ id := getPartGo_none

/-- C10: over every history, used part slots are a gap-free prefix with distinct nonzero ids. -/
theorem C10_part_ids_distinct (h : Header) (hr : Reachable h) :
    h.parts = usedParts h ++ List.replicate (32 - (usedParts h).length) PartHdr.zero ∧
    (usedParts h).Pairwise (fun a b => a.id ≠ b.id) ∧ ∀ p ∈ usedParts h, p.id ≠ 0 := by
  obtain ⟨ps, k, ip⟩ := hr.inv.parts
  rw [ip.used]
  have : 32 - ps.length = k := by have := ip.len; omega
  rw [this]
  exact ⟨ip.slots, ip.distinct, ip.ids⟩

/-- C10: the return code of `bpak_add_part` is exact. -/
theorem C10_add_part_code (h : Header) (id : U32) (hr : Reachable h) :
    (addPart h id).1 =
      if ∃ p ∈ usedParts h, p.id = id then .exists_
      else if (usedParts h).length = 32 then .noSpaceLeft else .ok := by
  obtain ⟨ps, k, ip⟩ := hr.inv.parts
  have hlen := ip.len
  rw [ip.used]
  rcases addPart_cases ip id with ⟨a, e, _⟩ | ⟨a, b, e, _⟩ | ⟨a, b, e⟩
  · rw [e, if_pos a]
  · rw [e, if_neg a, if_pos (by omega)]
  · rw [e, if_neg a, if_neg (by omega)]

/-- C10: on failure nothing changes; on success exactly one zeroed slot with the id is appended, it is
found, and every other lookup is as before. -/
theorem C10_add_part_effect (h : Header) (id : U32) (hr : Reachable h) (hid : id ≠ 0) :
    ((addPart h id).1 ≠ .ok ∧ (addPart h id).2.1 = h) ∨
    ((addPart h id).1 = .ok ∧
      usedParts (addPart h id).2.1 = usedParts h ++ [{ id := id }] ∧
      getPart (addPart h id).2.1 id = some (addPart h id).2.2 ∧
      (∀ id', id' ≠ 0 → id' ≠ id → getPart (addPart h id).2.1 id' = getPart h id') ∧
      (addPart h id).2.1 = { h with parts := (addPart h id).2.1.parts }) := by
  obtain ⟨ps, k, ip⟩ := hr.inv.parts
  rcases addPart_cases ip id with ⟨a, e, e2⟩ | ⟨a, b, e, e2⟩ | ⟨a, b, e⟩
  · left; exact ⟨by rw [e]; decide, e2⟩
  · left; exact ⟨by rw [e]; decide, e2⟩
  · right
    have hstep : step h (.addPart id) = some (addPart h id).2.1 := by simp only [step, if_neg hid]
    rw [e] at hstep ⊢
    obtain ⟨ps', k', ip'⟩ := (inv_step hr.inv hstep).parts
    have hold : h.parts = ps ++ PartHdr.zero :: List.replicate (k-1) PartHdr.zero := by
      rw [ip.slots, ← List.replicate_succ]; congr 2; omega
    have hus : usedParts { h with parts := ps ++ newPart id :: List.replicate (k-1) PartHdr.zero }
        = ps ++ [newPart id] := by
      apply PartInv.used (k := k-1)
      refine ⟨by simp, ?_, ?_, ?_⟩
      · have := ip.len; simp; omega
      · intro p hp
        simp only [List.mem_append, List.mem_singleton] at hp
        rcases hp with hp | rfl
        · exact ip.ids p hp
        · exact hid
      · rw [List.pairwise_append]
        refine ⟨ip.distinct, by simp, ?_⟩
        intro x hx y hy hc
        simp at hy; subst hy
        exact a ⟨x, hx, hc⟩
    refine ⟨rfl, ?_, ?_, ?_, rfl⟩
    · rw [ip.used]; exact hus
    · rw [C10_get_part_is_first_match]
      refine ⟨⟨newPart id, by simp, rfl⟩, ?_⟩
      intro j hj p hp hc
      simp only at hp hj
      rw [List.getElem?_append_left hj] at hp
      exact a ⟨p, List.mem_of_getElem? hp, hc⟩
    · intro id' hid' hne
      cases hg : getPart h id' with
      | none =>
        rw [C10_get_part_not_found] at hg ⊢
        intro p hp hc
        rw [hold] at hg
        simp only [List.mem_append, List.mem_cons, List.mem_replicate] at hp hg
        rcases hp with hp | rfl | hp
        · exact hg p (Or.inl hp) hc
        · exact hne hc.symm
        · exact hg p (Or.inr (Or.inr hp)) hc
      | some j =>
        obtain ⟨pre, m, post, rfl, hl, h1, h2⟩ := getPart_split ip hid' hg
        rw [C10_get_part_is_first_match] at hg ⊢
        obtain ⟨⟨x, hx1, hx2⟩, hmin⟩ := hg
        have hlt : j < (pre ++ m :: post).length := by rw [← hl]; simp
        have hsame : ∀ j', j' < (pre ++ m :: post).length →
            (pre ++ m :: post ++ newPart id :: List.replicate (k-1) PartHdr.zero)[j']? = h.parts[j']? := by
          intro j' hj'
          rw [hold, List.getElem?_append_left hj', List.getElem?_append_left hj']
        refine ⟨⟨x, by rw [← hx1]; exact hsame j hlt, hx2⟩, ?_⟩
        intro j' hj' p hp
        simp only at hp
        rw [hsame j' (Nat.lt_trans hj' hlt)] at hp
        exact hmin j' hj' p hp

/-- An API-built header used in the examples. -/
def exParts : Header :=
  (run initHeader [.addPart 3, .setPart 3 100 412 0 0, .addPart 4, .setPart 4 512 0 2 77, .addPart 5]).getD initHeader
theorem exParts_reachable : Reachable exParts :=
  ⟨[.addPart 3, .setPart 3 100 412 0 0, .addPart 4, .setPart 4 512 0 2 77, .addPart 5], by decide +kernel⟩
example : (addPart exParts 9).1 = .ok ∧ (addPart exParts 4).1 = .exists_ := by decide +kernel
def fullPartOps : List Op := (List.range 32).map (fun n => .addPart (BitVec.ofNat 32 (n+1)))
example : ∃ h, Reachable h ∧ (addPart h 99).1 = .noSpaceLeft :=
  ⟨(run initHeader fullPartOps).getD initHeader, ⟨fullPartOps, by decide +kernel⟩, by decide +kernel⟩

/-- C11: deleting a part erases exactly it from the list of parts (also from a full table), keeps the
order, leaves zeroed slots behind and nothing else in the header changes. -/
theorem C11_del_part (h : Header) (id : U32) (i : Nat) (hr : Reachable h) (hid : id ≠ 0)
    (hg : getPart h id = some i) :
    ∃ h', delPart h i = .ret h' ∧ usedParts h' = (usedParts h).eraseIdx i ∧
      h'.parts = usedParts h' ++ List.replicate (32 - (usedParts h').length) PartHdr.zero ∧
      h' = { h with parts := h'.parts } ∧ getPart h' id = none := by
  obtain ⟨ps, k, ip⟩ := hr.inv.parts
  obtain ⟨pre, p, post, rfl, hl, h1, h2⟩ := getPart_split ip hid hg
  subst hl
  have e := delPart_inv ip
  have hstep : step h (.delPart id) = some { h with parts := pre ++ post ++ List.replicate (k+1) PartHdr.zero } := by
    simp only [step, if_neg hid, hg, e]
  have hd := ip.distinct
  have i2 : PartInv { h with parts := pre ++ post ++ List.replicate (k+1) PartHdr.zero } (pre ++ post) (k+1) := by
    have hpl := ip.len
    refine ⟨rfl, by simp at hpl ⊢; omega, ?_, ?_⟩
    · intro q hq
      exact ip.ids q (by simp at hq ⊢; rcases hq with h | h <;> simp [h])
    · exact hd.sublist (List.Sublist.append_left (List.sublist_cons_self _ _) _)
  refine ⟨_, e, ?_, ?_, rfl, ?_⟩
  · rw [i2.used, ip.used, List.eraseIdx_append_of_length_le (Nat.le_refl _)]; simp
  · rw [i2.used]
    have := i2.len
    have hk : 32 - (pre ++ post).length = k + 1 := by omega
    rw [hk]
  · rw [C10_get_part_not_found]
    intro q hq hc
    simp only [List.mem_append, List.mem_replicate] at hq
    rw [List.pairwise_append, List.pairwise_cons] at hd
    rcases hq with (hq | hq) | ⟨_, rfl⟩
    · exact hd.2.2 q hq p (by simp) (hc.trans h1.symm)
    · exact hd.2.1.1 q hq (h1.trans hc.symm)
    · exact hid hc.symm

example : getPart exParts 4 = some 1 := by decide +kernel

theorem isTransport_iff (p : PartHdr) : p.isTransport = true ↔ p.flags &&& 2 ≠ 0 := by
  unfold PartHdr.isTransport
  constructor
  · intro h hc
    have := congrArg (fun b : U8 => b.getLsbD 1) hc
    simp only [BitVec.getLsbD_and, h] at this
    revert this; decide
  · intro h
    cases hb : p.flags.getLsbD 1 with
    | true => rfl
    | false =>
      exfalso; apply h
      apply BitVec.eq_of_getLsbD_eq
      intro i hi
      rw [BitVec.getLsbD_and]
      have : ∀ j : Fin 8, j.val ≠ 1 → (2 : U8).getLsbD j.val = false := by decide
      by_cases h1 : i = 1
      · subst h1; rw [hb]; simp
      · rw [this ⟨i, hi⟩ h1]; simp

theorem partSize_stored (p : PartHdr) (hb : storedSize p < 2^64) : (partSize p).toNat = storedSize p := by
  unfold partSize storedSize at *
  by_cases h : p.isTransport = true
  · rw [if_pos h, if_pos ((isTransport_iff p).1 h)]
  · rw [if_neg h, if_neg (fun x => h ((isTransport_iff p).2 x))]
    rw [if_neg (fun x => h ((isTransport_iff p).2 x))] at hb
    rw [BitVec.toNat_add, BitVec.toNat_setWidth, Nat.mod_eq_of_lt (a := p.padBytes.toNat), Nat.mod_eq_of_lt hb]
    have := p.padBytes.isLt; omega

theorem le_sum_of_mem' {l : List Nat} {a : Nat} (h : a ∈ l) : a ≤ l.sum := by
  induction l with
  | nil => simp at h
  | cons b l ih =>
    rcases List.mem_cons.1 h with rfl | h
    · simp
    · have := ih h; simp; omega

/-- C12: each part starts where the previous one ends, the first right after the 4096-byte header. -/
theorem C12_part_offset_exact (h : Header) (pre post : List PartHdr) (p : PartHdr)
    (hu : usedParts h = pre ++ p :: post)
    (hd : (usedParts h).Pairwise (fun a b => a.id ≠ b.id))
    (hsum : 4096 + ((usedParts h).map storedSize).sum < 2^63) :
    (partOffset h p).toNat = 4096 + (pre.map storedSize).sum := by
  rw [hu] at hd hsum
  have hid : ∀ q ∈ usedParts h, q.id ≠ 0 := by
    intro q hq
    have := List.all_takeWhile (p := fun p : PartHdr => decide (p.id ≠ 0)) (l := h.parts)
    have := List.all_eq_true.1 this q hq
    simpa using this
  obtain ⟨rest, hrest⟩ := List.takeWhile_prefix (fun p : PartHdr => decide (p.id ≠ 0)) (l := h.parts)
  have hparts : h.parts = pre ++ (p :: post ++ rest) := by
    rw [← hrest]
    have : h.parts.takeWhile (fun p : PartHdr => decide (p.id ≠ 0)) = pre ++ p :: post := hu
    rw [this]; simp
  have hsz : ∀ q ∈ pre, storedSize q < 2^64 := by
    intro q hq
    have : storedSize q ≤ ((pre ++ p :: post).map storedSize).sum :=
      le_sum_of_mem' (List.mem_map.2 ⟨q, by simp [hq], rfl⟩)
    omega
  have hss : sizesSum pre = (pre.map storedSize).sum := by
    unfold sizesSum
    congr 1
    apply List.map_congr_left
    intro q hq
    exact partSize_stored q (hsz q hq)
  have h4 : (4096 : U64).toNat = 4096 := by decide
  have hle : (pre.map storedSize).sum ≤ ((pre ++ p :: post).map storedSize).sum := by simp
  unfold partOffset
  rw [hparts, partOffsetGo_eq p.id pre (p :: post ++ rest) 4096, h4, hss]
  · intro q hq
    rw [List.pairwise_append] at hd
    exact ⟨hid q (by rw [hu]; simp [hq]), hd.2.2 q hq p (by simp)⟩
  · rw [h4, hss]; omega
  · intro q hq
    simp at hq; left; rw [hq]

/-- C12: stored ranges of distinct parts are disjoint, follow table order, and lie after the header. -/
theorem C12_part_ranges_disjoint (h : Header) (pre mid post : List PartHdr) (p q : PartHdr)
    (hu : usedParts h = pre ++ p :: mid ++ q :: post)
    (hd : (usedParts h).Pairwise (fun a b => a.id ≠ b.id))
    (hsum : 4096 + ((usedParts h).map storedSize).sum < 2^63) :
    4096 ≤ (partOffset h p).toNat ∧
    (partOffset h p).toNat + storedSize p ≤ (partOffset h q).toNat ∧
    (partOffset h q).toNat + storedSize q ≤ 4096 + ((usedParts h).map storedSize).sum ∧
    (mid = [] → (partOffset h q).toNat = (partOffset h p).toNat + storedSize p) := by
  have h1 := C12_part_offset_exact h pre (mid ++ q :: post) p (by rw [hu]; simp) hd hsum
  have h2 := C12_part_offset_exact h (pre ++ p :: mid) post q hu hd hsum
  rw [h1, h2, hu]
  simp only [List.map_append, List.map_cons, List.sum_append, List.sum_cons]
  refine ⟨by omega, by omega, by omega, ?_⟩
  intro hm; subst hm; simp; omega

example : usedParts exParts ≠ [] ∧ (usedParts exParts).Pairwise (fun a b => a.id ≠ b.id) ∧
    4096 + ((usedParts exParts).map storedSize).sum = 4096 + 512 + 77 := by decide +kernel

/-- C13: exact result of `bpak_valid_header`. -/
theorem C13_valid_header_code (h : Header) :
    validHeader h =
      if h.magic ≠ 0x42504132 then .badMagic
      else if ¬ ∀ p ∈ usedParts h, (p.size + p.padBytes.setWidth 64).toNat % 512 = 0 then .badAlignment
      else if ¬ ∀ m ∈ usedMetas h, m.size.toNat + m.offset.toNat ≤ 1920 then .sizeError
      else if h.hashKind = 0 then .notSupported
      else .ok := by
  unfold validHeader
  have e1 : (!validPartsGo h.parts) = true ↔
      ¬ ∀ p ∈ usedParts h, (p.size + p.padBytes.setWidth 64).toNat % 512 = 0 := by
    rw [Bool.not_eq_true']
    have := validPartsGo_iff h.parts
    unfold usedParts
    rw [← this]; simp
  have e2 : (!validMetaGo h.metas) = true ↔ ¬ ∀ m ∈ usedMetas h, m.size.toNat + m.offset.toNat ≤ 1920 := by
    rw [Bool.not_eq_true']
    have := validMetaGo_iff h.metas
    unfold usedMetas
    rw [← this]; simp
  by_cases hm : h.magic ≠ 0x42504132
  · rw [if_pos hm, if_pos hm]
  · rw [if_neg hm, if_neg hm]
    by_cases hp : (!validPartsGo h.parts) = true
    · rw [if_pos hp, if_pos (e1.1 hp)]
    · rw [if_neg hp, if_neg (fun x => hp (e1.2 x))]
      by_cases hq : (!validMetaGo h.metas) = true
      · rw [if_pos hq, if_pos (e2.1 hq)]
      · rw [if_neg hq, if_neg (fun x => hq (e2.2 x))]

/-- C13: an accepted header's listed metadata can be read in full. -/
theorem C13_valid_header_metadata_readable (h : Header) (hw : h.WF) (hv : validHeader h = .ok)
    (m : MetaHdr) (hm : m ∈ usedMetas h) : (metaContent h m).length = m.size.toNat := by
  rw [C13_valid_header_code] at hv
  split at hv
  · cases hv
  · split at hv
    · cases hv
    · split at hv
      · cases hv
      · rename_i h3
        have h4 := (Decidable.not_not.1 h3) m hm
        have := hw.2.2.2.1
        unfold metaContent
        simp; omega

example : validHeader initHeader = .ok ∧ validHeader { initHeader with magic := 0 } = .badMagic ∧
    validHeader { initHeader with hashKind := 0 } = .notSupported := by decide +kernel

/-- C14: `bpak_init_header` gives a valid header with no parts and no metadata. -/
theorem C14_init_valid : validHeader initHeader = .ok ∧ initHeader.WF ∧ usedParts initHeader = [] ∧
    entries initHeader = [] := by decide +kernel

/-- C14: every API-built header whose parts have aligned sizes is valid. -/
theorem C14_reachable_valid (h : Header) (hr : Reachable h)
    (hal : ∀ p ∈ usedParts h, (p.size.toNat + p.padBytes.toNat) % 512 = 0) : validHeader h = .ok := by
  obtain ⟨wf, ⟨us, k, im⟩, _, hmg, hhk⟩ := hr.inv
  rw [C13_valid_header_code, if_neg (by rw [hmg]; decide), if_neg, if_neg, if_neg hhk]
  · intro hc; apply hc
    intro m hm
    rw [im.used] at hm
    have := (im.packed.ge m hm).2
    omega
  · intro hc; apply hc
    intro p hp
    have := hal p hp
    have hb := p.padBytes.isLt
    rw [BitVec.toNat_add, BitVec.toNat_setWidth, Nat.mod_eq_of_lt (a := p.padBytes.toNat) (by omega)]
    omega

example : ∀ p ∈ usedParts exParts, (p.size.toNat + p.padBytes.toNat) % 512 = 0 := by decide +kernel

/-- C02: looking up the part a hash tree belongs to is exact: for a part in the table the tree id
derived from it leads back to it, and an answer other than 0 is a part of the table with that tree id. -/
theorem C02_hash_tree_id_to_part_id (h : Header) (p : PartHdr) (hp : p ∈ h.parts) :
    hashTreeIdToPartId h (partIdToHashTreeId p.id) = p.id := by
  unfold hashTreeIdToPartId
  cases hf : h.parts.find? (fun q => partIdToHashTreeId q.id = partIdToHashTreeId p.id) with
  | none =>
    have := List.find?_eq_none.1 hf p hp
    simp at this
  | some q =>
    have := List.find?_some hf
    simp at this
    exact crc32_inj_start this

theorem C02_hash_tree_id_to_part_id_sound (h : Header) (t : U32) (hne : hashTreeIdToPartId h t ≠ 0) :
    ∃ p ∈ h.parts, p.id = hashTreeIdToPartId h t ∧ partIdToHashTreeId p.id = t := by
  unfold hashTreeIdToPartId at *
  cases hf : h.parts.find? (fun q => partIdToHashTreeId q.id = t) with
  | none => simp [hf] at hne
  | some q =>
    have := List.find?_some hf
    exact ⟨q, List.mem_of_find?_eq_some hf, rfl, by simpa using this⟩

end Bpak
