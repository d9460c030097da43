import Verif.Proof.Entries
/-! Properties C03–C09, C44: the metadata table. -/
namespace Bpak

/-- Rounding up to a multiple of eight. -/
def roundUp8 (n : Nat) : Nat := 8 * ((n + 7) / 8)
theorem metaAlignSize_eq (n : Nat) : metaAlignSize n = roundUp8 n := by
  unfold metaAlignSize roundUp8; omega

/-! ### C03 -/

/-- C03: `bpak_get_meta` returns slot `i` exactly when it is the first slot with that id and reference. -/
theorem C03_get_meta_is_first_match (h : Header) (id ref : U32) (i : Nat) :
    getMeta h id ref = some i ↔
      (∃ m, h.metas[i]? = some m ∧ m.id = id ∧ m.partRef = ref) ∧
      ∀ j, j < i → ∀ m, h.metas[j]? = some m → ¬ (m.id = id ∧ m.partRef = ref) := by
  constructor
  · intro hg
    obtain ⟨-, ⟨m, h1, h2, h3⟩, h4⟩ := getMetaIntGo_some hg
    refine ⟨⟨m, by simpa using h1, h2, h3 rfl⟩, ?_⟩
    intro j hj m' hm' hc
    exact h4 j (by omega) m' hm' ⟨hc.1, fun _ => hc.2⟩
  · rintro ⟨⟨m, h1, h2, h3⟩, hmin⟩
    cases hg : getMeta h id ref with
    | none =>
      exfalso
      exact getMetaIntGo_none.1 hg m (List.mem_of_getElem? h1) ⟨h2, fun _ => h3⟩
    | some i' =>
      obtain ⟨-, ⟨m', g1, g2, g3⟩, g4⟩ := getMetaIntGo_some hg
      simp only [Nat.sub_zero] at g1 g4
      rcases Nat.lt_trichotomy i i' with hlt | heq | hgt
      · exact absurd ⟨h2, fun _ => h3⟩ (g4 i hlt m h1)
      · rw [heq]
      · exact absurd ⟨g2, g3 rfl⟩ (hmin i' hgt m' g1)

/-- C03: not found exactly when no slot matches. -/
theorem C03_get_meta_not_found (h : Header) (id ref : U32) :
    getMeta h id ref = none ↔ ∀ m ∈ h.metas, ¬ (m.id = id ∧ m.partRef = ref) := by
  unfold getMeta
  rw [getMetaIntGo_none]
  simp

/-- C03: `bpak_get_meta_anyref` likewise, ignoring the reference. -/
theorem C03_get_meta_anyref_is_first_match (h : Header) (id : U32) (i : Nat) :
    getMetaAnyref h id = some i ↔
      (∃ m, h.metas[i]? = some m ∧ m.id = id) ∧
      ∀ j, j < i → ∀ m, h.metas[j]? = some m → m.id ≠ id := by
  constructor
  · intro hg
    obtain ⟨-, ⟨m, h1, h2, -⟩, h4⟩ := getMetaIntGo_some hg
    refine ⟨⟨m, by simpa using h1, h2⟩, ?_⟩
    intro j hj m' hm' hc
    exact h4 j (by omega) m' hm' ⟨hc, by simp⟩
  · rintro ⟨⟨m, h1, h2⟩, hmin⟩
    cases hg : getMetaAnyref h id with
    | none =>
      exfalso
      exact getMetaIntGo_none.1 hg m (List.mem_of_getElem? h1) ⟨h2, by simp⟩
    | some i' =>
      obtain ⟨-, ⟨m', g1, g2, -⟩, g4⟩ := getMetaIntGo_some hg
      simp only [Nat.sub_zero] at g1 g4
      rcases Nat.lt_trichotomy i i' with hlt | heq | hgt
      · exact absurd ⟨h2, by simp⟩ (g4 i hlt m h1)
      · rw [heq]
      · exact absurd g2 (hmin i' hgt m' g1)

theorem C03_get_meta_anyref_not_found (h : Header) (id : U32) :
    getMetaAnyref h id = none ↔ ∀ m ∈ h.metas, m.id ≠ id := by
  unfold getMetaAnyref
  rw [getMetaIntGo_none]
  simp

/-- A header built by the API used in the examples: two entries for the same id, different parts. -/
def exHeader : Header :=
  (run initHeader [.addMeta 7 0 16, .addMeta 7 5 3, .addMeta 9 0 40, .writeMeta 7 5 [1,2,3]]).getD initHeader
theorem exHeader_reachable : Reachable exHeader :=
  ⟨[.addMeta 7 0 16, .addMeta 7 5 3, .addMeta 9 0 40, .writeMeta 7 5 [1,2,3]], by decide +kernel⟩
example : getMeta exHeader 7 5 = some 1 ∧ getMetaAnyref exHeader 7 = some 0 ∧ getMeta exHeader 8 0 = none := by
  decide +kernel

/-! ### C04 -/

/-- C04: effect of a successful `bpak_add_meta`. -/
theorem C04_add_meta_success (h h' : Header) (id ref : U32) (size : U16) (i : Nat)
    (hr : Reachable h) (hid : id ≠ 0) (hadd : addMeta h id ref size = (.ok, h', i)) :
    -- the entry is found, with the requested size, in bounds, aligned
    getMeta h' id ref = some i ∧
    (∃ m, h'.metas[i]? = some m ∧ m.id = id ∧ m.partRef = ref ∧ m.size = size ∧
      m.offset.toNat % 8 = 0 ∧ m.offset.toNat + m.size.toNat ≤ 1920 ∧
      -- and shares no byte with any earlier entry
      ∀ m' ∈ usedMetas h, ∀ b, ¬ ((m.offset.toNat ≤ b ∧ b < m.offset.toNat + m.size.toNat) ∧
        (m'.offset.toNat ≤ b ∧ b < m'.offset.toNat + m'.size.toNat))) ∧
    -- every other lookup is as before
    (∀ id' ref', id' ≠ 0 → (id', ref') ≠ (id, ref) → getMeta h' id' ref' = getMeta h id' ref') ∧
    -- no other slot and no other field of the header changed
    (∀ j, j ≠ i → h'.metas[j]? = h.metas[j]?) ∧ h' = { h with metas := h'.metas } ∧
    -- the visible entries are the old ones, and one more with `size` bytes
    (∃ d, d.length = size.toNat ∧ entries h' = entries h ++ [⟨id, ref, d⟩]) := by
  obtain ⟨us, k, im⟩ := hr.inv.metas
  have hcase := addMeta_cases im id ref size
  rw [hadd] at hcase
  simp only [reduceCtorEq, false_and, and_false, false_or, and_true] at hcase
  obtain ⟨hne, hk, hfit⟩ := hcase
  obtain ⟨m, e1, e2, e3, e4, e5, e6, i2⟩ := addMeta_ok_inv im (size := size) hid hne hk hfit
  rw [hadd] at e6
  simp only [Prod.mk.injEq, true_and] at e6
  obtain ⟨eh, ei⟩ := e6
  have hslots : h'.metas = us ++ m :: List.replicate (k-1) MetaHdr.zero := by rw [eh]
  have hold : h.metas = us ++ MetaHdr.zero :: List.replicate (k-1) MetaHdr.zero := by
    rw [im.slots, ← List.replicate_succ]; congr 2; omega
  have hget : h'.metas[i]? = some m := by rw [hslots, ei]; simp
  have hsame : ∀ j, j ≠ i → h'.metas[j]? = h.metas[j]? := by
    intro j hj
    rw [hslots, hold]
    by_cases hlt : j < us.length
    · rw [List.getElem?_append_left hlt, List.getElem?_append_left hlt]
    · rw [List.getElem?_append_right (by omega), List.getElem?_append_right (by omega)]
      have : j - us.length = (j - us.length - 1) + 1 := by omega
      rw [this]; simp
  refine ⟨?_, ⟨m, hget, e1, e2, e3, ?_, ?_, ?_⟩, ?_, hsame, ?_, ?_⟩
  · rw [C03_get_meta_is_first_match]
    refine ⟨⟨m, hget, e1, e2⟩, ?_⟩
    intro j hj m' hm' hc
    rw [hslots, List.getElem?_append_left (by omega)] at hm'
    exact hne ⟨m', List.mem_of_getElem? hm', hc⟩
  · rw [e4]; exact endOff_mod us (by omega)
  · rw [e4, e3]; exact hfit
  · intro m' hm' b
    rw [im.used] at hm'
    have := im.packed.lt_end.2 m' hm'
    omega
  · intro id' ref' hid' hneq
    cases hg : getMeta h id' ref' with
    | none =>
      rw [C03_get_meta_not_found] at hg ⊢
      intro x hx hc
      rw [hslots] at hx
      rw [hold] at hg
      simp only [List.mem_append, List.mem_cons, List.mem_replicate] at hx hg
      rcases hx with hx | rfl | hx
      · exact hg x (Or.inl hx) hc
      · exact hneq (by rw [← hc.1, ← hc.2, e1, e2])
      · exact hg x (Or.inr (Or.inr hx)) hc
    | some j =>
      rw [C03_get_meta_is_first_match] at hg ⊢
      obtain ⟨⟨x, hx1, hx2, hx3⟩, hmin⟩ := hg
      have hji : j ≠ i := by
        intro hc
        rw [hc, ei, hold] at hx1
        simp at hx1
        rw [← hx1] at hx2
        exact hid' hx2.symm
      refine ⟨⟨x, by rw [hsame j hji]; exact hx1, hx2, hx3⟩, ?_⟩
      intro j' hj' y hy hc
      by_cases hje : j' = i
      · rw [hje, hget] at hy
        cases hy
        exact hneq (by rw [← hc.1, ← hc.2, e1, e2])
      · rw [hsame j' hje] at hy
        exact hmin j' hj' y hy hc
  · rw [eh]
  · refine ⟨metaContent h' m, ?_, ?_⟩
    · have := content_len (h := h') (by rw [eh]; exact i2) (m := m) (by simp)
      rw [this, e3]
    · have i2' : MetaInv h' (us ++ [m]) (k-1) := by rw [eh]; exact i2
      unfold entries
      rw [i2'.used, im.used, List.map_append]
      have hmd : ∀ x, metaContent h' x = metaContent h x := by
        intro x; unfold metaContent; rw [eh]
      simp [hmd, e1, e2]

example : (addMeta exHeader 9 5 100).1 = .ok := by decide +kernel

/-! ### C05 -/

/-- C05: over every history the table is a gap-free prefix of distinct keys whose byte ranges are
aligned, in bounds and pairwise disjoint. -/
theorem C05_meta_ranges_disjoint (h : Header) (hr : Reachable h) :
    h.metas = usedMetas h ++ List.replicate (32 - (usedMetas h).length) MetaHdr.zero ∧
    (usedMetas h).Pairwise (fun a b => (a.id, a.partRef) ≠ (b.id, b.partRef)) ∧
    (∀ m ∈ usedMetas h, m.id ≠ 0 ∧ m.offset.toNat % 8 = 0 ∧ m.offset.toNat + m.size.toNat ≤ 1920) ∧
    (usedMetas h).Pairwise (fun a b => ∀ x : Nat,
      ¬ ((a.offset.toNat ≤ x ∧ x < a.offset.toNat + a.size.toNat) ∧
         (b.offset.toNat ≤ x ∧ x < b.offset.toNat + b.size.toNat))) := by
  obtain ⟨us, k, im⟩ := hr.inv.metas
  rw [im.used]
  refine ⟨?_, ?_, ?_, ?_⟩
  · have : 32 - us.length = k := by have := im.len; omega
    rw [this]; exact im.slots
  · refine im.distinct.imp ?_
    intro a b hab hc
    simp only [Prod.mk.injEq] at hc
    exact hab hc
  · intro m hm
    exact ⟨im.packed.ids m hm, im.packed.aligned (by omega) m hm, (im.packed.ge m hm).2⟩
  · refine im.packed.disjoint.imp ?_
    intro a b hab x
    omega

example : Reachable exHeader ∧ (usedMetas exHeader).length = 3 := ⟨exHeader_reachable, by decide +kernel⟩

/-! ### C06 -/

/-- Bytes of the metadata area taken by the existing entries, each rounded up to 8. -/
def bytesUsed (h : Header) : Nat := ((usedMetas h).map (fun m => roundUp8 m.size.toNat)).sum

theorem bytesUsed_eq {h : Header} {us : List MetaHdr} {k : Nat} (im : MetaInv h us k) :
    bytesUsed h = endOff 0 us := by
  unfold bytesUsed
  rw [im.used, endOff_sum us (by omega), Nat.zero_add]
  simp only [metaAlignSize_eq]

/-- C06: the return code of `bpak_add_meta` is exact. -/
theorem C06_add_meta_code (h : Header) (id ref : U32) (size : U16) (hr : Reachable h) :
    (addMeta h id ref size).1 =
      if ∃ e ∈ entries h, e.id = id ∧ e.ref = ref then .exists_
      else if (usedMetas h).length = 32 ∨ bytesUsed h + size.toNat > 1920 then .noSpaceLeft
      else .ok := by
  obtain ⟨us, k, im⟩ := hr.inv.metas
  have hlen := im.len
  have hiff : (∃ e ∈ entries h, e.id = id ∧ e.ref = ref) ↔ ∃ m ∈ us, m.id = id ∧ m.partRef = ref := by
    unfold entries
    rw [im.used]
    constructor
    · rintro ⟨e, he, h1, h2⟩
      obtain ⟨m, hm, rfl⟩ := List.mem_map.1 he
      exact ⟨m, hm, h1, h2⟩
    · rintro ⟨m, hm, h1, h2⟩
      exact ⟨_, List.mem_map.2 ⟨m, hm, rfl⟩, h1, h2⟩
  have hb := bytesUsed_eq im
  rw [im.used, hb]
  rcases addMeta_cases im id ref size with ⟨a, e, _⟩ | ⟨a, b, e, _⟩ | ⟨a, b, c, e⟩ | ⟨a, b, c, e⟩
  · rw [e, if_pos (hiff.2 a)]
  · rw [e, if_neg (fun x => a (hiff.1 x)), if_pos (Or.inl (by omega))]
  · rw [e, if_neg (fun x => a (hiff.1 x)), if_pos (Or.inr c)]
  · rw [e, if_neg (fun x => a (hiff.1 x)), if_neg (by omega)]

example : (addMeta exHeader 7 5 1).1 = .exists_ ∧ (addMeta exHeader 1 1 1900).1 = .noSpaceLeft ∧
    (addMeta exHeader 1 1 1856).1 = .ok ∧ (addMeta exHeader 1 1 1857).1 = .noSpaceLeft := by decide +kernel

/-! ### C07 -/

/-- C07 is false of the code: a call that fails for lack of space leaves a half-made entry behind, and
the header stops being valid. -/
theorem C07_failed_add_meta_unchanged_is_false :
    ∃ h id ref size, Reachable h ∧ id ≠ 0 ∧ validHeader h = .ok ∧
      (addMeta h id ref size).1 = .noSpaceLeft ∧ (addMeta h id ref size).2.1 ≠ h ∧
      validHeader (addMeta h id ref size).2.1 = .sizeError :=
  ⟨exHeader, 1, 1, 1857, exHeader_reachable, by decide +kernel⟩

/-- … and this happens on every header with a free slot: the rejected key is then found by lookup. -/
theorem C07_no_fit_always_leaves_ghost_entry (h : Header) (id ref : U32) (size : U16)
    (hr : Reachable h) (hid : id ≠ 0) (hslot : (usedMetas h).length < 32)
    (hnew : ¬ ∃ e ∈ entries h, e.id = id ∧ e.ref = ref) (hfull : bytesUsed h + size.toNat > 1920) :
    (addMeta h id ref size).1 = .noSpaceLeft ∧
    getMeta h id ref = none ∧ getMeta (addMeta h id ref size).2.1 id ref = some (usedMetas h).length := by
  obtain ⟨us, k, im⟩ := hr.inv.metas
  have hlen := im.len
  have hcode := C06_add_meta_code h id ref size hr
  rw [if_neg hnew, if_pos (Or.inr hfull)] at hcode
  rw [im.used] at hslot ⊢
  have hne : ¬ ∃ m ∈ us, m.id = id ∧ m.partRef = ref := by
    rintro ⟨m, hm, h1, h2⟩
    apply hnew
    unfold entries
    rw [im.used]
    exact ⟨_, List.mem_map.2 ⟨m, hm, rfl⟩, h1, h2⟩
  obtain ⟨k, rfl⟩ : ∃ k', k = k'+1 := ⟨k-1, by omega⟩
  have hfree := addMetaGo_free id ref size us (List.replicate k MetaHdr.zero) 0 0 im.packed hne
  refine ⟨hcode, ?_, ?_⟩
  · rw [C03_get_meta_not_found]
    intro m hm hc
    rw [im.slots] at hm
    simp only [List.mem_append, List.mem_replicate] at hm
    rcases hm with hm | ⟨_, rfl⟩
    · exact hne ⟨m, hm, hc⟩
    · exact hid hc.1.symm
  · rw [C03_get_meta_is_first_match]
    unfold addMeta
    simp only [im.slots, List.replicate_succ, hfree]
    refine ⟨⟨_, by simp; rfl, rfl, rfl⟩, ?_⟩
    intro j hj m hm hc
    rw [List.getElem?_append_left hj] at hm
    exact hne ⟨m, List.mem_of_getElem? hm, hc⟩

/-- C07, the part that holds: a call rejected because the entry exists or because all 32 slots are
taken changes nothing. Missing from the full claim: rejection because the bytes do not fit. -/
theorem C07_failed_add_meta_unchanged_partial (h : Header) (id ref : U32) (size : U16)
    (hr : Reachable h) (hfail : (addMeta h id ref size).1 ≠ .ok)
    (hcause : (∃ e ∈ entries h, e.id = id ∧ e.ref = ref) ∨ (usedMetas h).length = 32) :
    (addMeta h id ref size).2.1 = h := by
  obtain ⟨us, k, im⟩ := hr.inv.metas
  have hlen := im.len
  rw [im.used] at hcause
  rcases addMeta_cases im id ref size with ⟨a, e, e2⟩ | ⟨a, b, e, e2⟩ | ⟨a, b, c, e⟩ | ⟨a, b, c, e⟩
  · exact e2
  · exact e2
  · exfalso
    rcases hcause with ⟨x, hx, h1, h2⟩ | hc
    · unfold entries at hx
      rw [im.used] at hx
      obtain ⟨m, hm, rfl⟩ := List.mem_map.1 hx
      exact a ⟨m, hm, h1, h2⟩
    · omega
  · exact absurd e hfail

example : (addMeta exHeader 9 0 4).1 = .exists_ ∧ (addMeta exHeader 9 0 4).2.1 = exHeader := by decide +kernel

/-! ### C08, C09 -/

/-- Content after a move that overwrote itself: the first `adj` bytes, then zeros. -/
def truncateTo (adj : Nat) (e : Entry) : Entry :=
  { e with data := e.data.take adj ++ List.replicate (e.data.length - adj) 0 }

/-- Deleting entry `i` of a table that is not full: it returns, and the visible entries afterwards are
exactly the earlier ones, then the later ones cut to the (rounded) size of the deleted one. -/
theorem C08_del_meta_exact (h : Header) (id ref : U32) (i : Nat) (hr : Reachable h) (hid : id ≠ 0)
    (hg : getMeta h id ref = some i) (hslot : (usedMetas h).length < 32) :
    ∃ h' d, delMeta h i = .ret h' ∧ (entries h)[i]? = some ⟨id, ref, d⟩ ∧
      entries h' = (entries h).take i ++ ((entries h).drop (i+1)).map (truncateTo (roundUp8 d.length)) := by
  obtain ⟨us, k, im⟩ := hr.inv.metas
  have hlen := im.len
  rw [im.used] at hslot
  obtain ⟨pre, m, post, rfl, hl, h1, h2, h3⟩ := getMeta_split im hid hg
  subst hl
  obtain ⟨k, rfl⟩ : ∃ k', k = k'+1 := ⟨k-1, by omega⟩
  obtain ⟨h', e, i2, e3, q1, q2⟩ := delMeta_inv im
  have hent : entries h = pre.map (fun x => ⟨x.id, x.partRef, metaContent h x⟩) ++
      ⟨m.id, m.partRef, metaContent h m⟩ :: post.map (fun x => ⟨x.id, x.partRef, metaContent h x⟩) := by
    unfold entries; rw [im.used]; simp
  refine ⟨h', metaContent h m, e, ?_, ?_⟩
  · rw [hent, List.getElem?_append_right (by simp)]; simp [h1, h2]
  · rw [del_entries im i2 q1 q2, hent, content_len im (by simp), ← metaAlignSize_eq]
    have e1 : ∀ (l : List Entry) (x : Entry) (r : List Entry) (n : Nat), l.length = n →
        (l ++ x :: r).take n = l ∧ (l ++ x :: r).drop (n+1) = r := by
      intro l x r n hn; subst hn; simp
    have := e1 (pre.map (fun x => (⟨x.id, x.partRef, metaContent h x⟩ : Entry))) ⟨m.id, m.partRef, metaContent h m⟩
      (post.map (fun x => ⟨x.id, x.partRef, metaContent h x⟩)) pre.length (by simp)
    rw [this.1, this.2, List.map_map]
    rfl

/-- C08, part that holds without restriction on sizes: the deleted key is gone and every other key is
still there, in order, with its size. Missing: the content. -/
theorem C08_del_meta_keys_partial (h : Header) (id ref : U32) (i : Nat) (hr : Reachable h) (hid : id ≠ 0)
    (hg : getMeta h id ref = some i) (hslot : (usedMetas h).length < 32) :
    ∃ h', delMeta h i = .ret h' ∧ getMeta h' id ref = none ∧
      (entries h').map (fun e => (e.id, e.ref, e.data.length)) =
        ((entries h).map (fun e => (e.id, e.ref, e.data.length))).eraseIdx i := by
  obtain ⟨h', d, e, e1, e2⟩ := C08_del_meta_exact h id ref i hr hid hg hslot
  have hstep : step h (.delMeta id ref) = some h' := by
    simp only [step, if_neg hid, hg, e]
  have hinv' := inv_step hr.inv hstep
  obtain ⟨us', k', im'⟩ := hinv'.metas
  obtain ⟨us, k, im⟩ := hr.inv.metas
  have hmap : (entries h').map (fun e => (e.id, e.ref, e.data.length)) =
        ((entries h).map (fun e => (e.id, e.ref, e.data.length))).eraseIdx i := by
    rw [e2, List.eraseIdx_eq_take_drop_succ, List.map_append, List.map_map, ← List.map_take, ← List.map_drop]
    congr 1
    apply List.map_congr_left
    intro x _
    simp [truncateTo]; omega
  refine ⟨h', e, ?_, hmap⟩
  rw [C03_get_meta_not_found]
  intro x hx hc
  have hxu : x ∈ us' := by
    rw [im'.slots] at hx
    simp only [List.mem_append, List.mem_replicate] at hx
    rcases hx with hx | ⟨_, rfl⟩
    · exact hx
    · exact absurd hc.1.symm hid
  -- keys of us' are keys of the erased list; the key occurs once in us
  have hk1 : us'.map (fun m => (m.id, m.partRef)) = (us.map (fun m => (m.id, m.partRef))).eraseIdx i := by
    have := congrArg (List.map (fun t : U32 × U32 × Nat => (t.1, t.2.1))) hmap
    have hme : ∀ {α β : Type} (f : α → β) (l : List α), (l.eraseIdx i).map f = (l.map f).eraseIdx i := by
      intro α β f l
      simp [List.eraseIdx_eq_take_drop_succ, List.map_take, List.map_drop]
    rw [hme, List.map_map, List.map_map] at this
    unfold entries at this
    rw [im'.used, im.used, List.map_map, List.map_map] at this
    exact this
  obtain ⟨pre, m, post, rfl, hl, h1, h2, h3⟩ := getMeta_split im hid hg
  subst hl
  have hmem : (id, ref) ∈ us'.map (fun m => (m.id, m.partRef)) :=
    List.mem_map.2 ⟨x, hxu, by rw [hc.1, hc.2]⟩
  rw [hk1, List.eraseIdx_eq_take_drop_succ] at hmem
  have hd := im.distinct
  rw [List.pairwise_append, List.pairwise_cons] at hd
  obtain ⟨_, ⟨d2, _⟩, d3⟩ := hd
  simp only [List.map_append, List.map_cons] at hmem
  rw [List.take_left' (by simp), List.drop_append] at hmem
  simp only [List.length_map, List.mem_append, List.mem_map] at hmem
  rcases hmem with ⟨y, hy, hye⟩ | hmem
  · simp only [Prod.mk.injEq] at hye
    exact d3 y hy m (by simp) ⟨hye.1.trans h1.symm, hye.2.trans h2.symm⟩
  · have hp0 : (List.map (fun m => (m.id, m.partRef)) pre).drop (pre.length + 1) = [] := by
      rw [List.drop_eq_nil_iff]; simp
    rw [hp0] at hmem
    simp only [List.not_mem_nil, false_or, Nat.add_sub_cancel_left, List.drop_succ_cons, List.drop_zero,
      List.mem_map] at hmem
    obtain ⟨y, hy, hye⟩ := hmem
    simp only [Prod.mk.injEq] at hye
    exact d2 y hy ⟨h1.trans hye.1.symm, h2.trans hye.2.symm⟩

/-- C08, the part that holds with content: if no later entry is larger than the (rounded) deleted one,
the entries afterwards are exactly the others, unchanged. -/
theorem C08_del_meta_content_partial (h : Header) (id ref : U32) (i : Nat) (d : Bytes)
    (hr : Reachable h) (hid : id ≠ 0)
    (hg : getMeta h id ref = some i) (hslot : (usedMetas h).length < 32)
    (hd : (entries h)[i]? = some ⟨id, ref, d⟩)
    (hsmall : ∀ e ∈ (entries h).drop (i+1), e.data.length ≤ roundUp8 d.length) :
    ∃ h', delMeta h i = .ret h' ∧ entries h' = (entries h).eraseIdx i := by
  obtain ⟨h', d', e, e1, e2⟩ := C08_del_meta_exact h id ref i hr hid hg hslot
  rw [hd] at e1
  simp only [Option.some.injEq, Entry.mk.injEq, true_and] at e1
  subst e1
  refine ⟨h', e, ?_⟩
  rw [e2, List.eraseIdx_eq_take_drop_succ]
  congr 1
  conv => rhs; rw [← List.map_id ((entries h).drop (i+1))]
  apply List.map_congr_left
  intro x hx
  have := hsmall x hx
  unfold truncateTo
  rw [List.take_of_length_le this, Nat.sub_eq_zero_of_le this]
  simp

/-- C08 is false of the code: deleting a 3-byte entry wipes bytes 8… of a following 40-byte entry. -/
def delWitness : Header :=
  (run initHeader [.addMeta 7 0 3, .addMeta 9 0 40, .writeMeta 9 0 (List.replicate 40 0xaa)]).getD initHeader
theorem C08_del_meta_preserves_others_is_false :
    ∃ h id ref i h', Reachable h ∧ id ≠ 0 ∧ getMeta h id ref = some i ∧ (usedMetas h).length < 32 ∧
      delMeta h i = .ret h' ∧ entries h' ≠ (entries h).eraseIdx i :=
  ⟨delWitness, 7, 0, 0, (match delMeta delWitness 0 with | .ret x => x | .ub => delWitness),
    ⟨[.addMeta 7 0 3, .addMeta 9 0 40, .writeMeta 9 0 (List.replicate 40 0xaa)], by decide +kernel⟩,
    by decide +kernel⟩

/-- C09, the part that holds: with a free slot, deletion is defined and changes only the slot table and
the metadata bytes. Missing: the full table. -/
theorem C09_del_meta_touches_only_metadata_partial (h : Header) (id ref : U32) (i : Nat)
    (hr : Reachable h) (hid : id ≠ 0)
    (hg : getMeta h id ref = some i) (hslot : (usedMetas h).length < 32) :
    ∃ h', delMeta h i = .ret h' ∧ h' = { h with metas := h'.metas, metadata := h'.metadata } ∧ h'.WF := by
  obtain ⟨us, k, im⟩ := hr.inv.metas
  have hlen := im.len
  rw [im.used] at hslot
  obtain ⟨pre, m, post, rfl, hl, h1, h2, h3⟩ := getMeta_split im hid hg
  subst hl
  obtain ⟨k, rfl⟩ : ∃ k', k = k'+1 := ⟨k-1, by omega⟩
  obtain ⟨h', e, i2, e3, q1, q2⟩ := delMeta_inv im
  have hstep : step h (.delMeta id ref) = some h' := by
    simp only [step, if_neg hid, hg, e]
  exact ⟨h', e, e3, (inv_step hr.inv hstep).wf⟩

/-- C09 is false of the code: with all 32 slots in use every deletion writes past the slot array. -/
theorem C09_del_meta_full_table_out_of_bounds (h : Header) (i : Nat)
    (hr : Reachable h) (hfull : (usedMetas h).length = 32) : delMeta h i = .ub := by
  obtain ⟨us, k, im⟩ := hr.inv.metas
  rw [im.used] at hfull
  have hk : k = 0 := by have := im.len; omega
  subst hk
  unfold delMeta
  split
  · rfl
  · simp only []
    rw [delMetaGo_full]
    intro x hx
    have := List.mem_of_mem_drop hx
    rw [im.slots] at this
    exact im.packed.ids x (by simpa using this)

def fullOps : List Op := (List.range 32).map (fun n => .addMeta (BitVec.ofNat 32 (n+1)) 0 8)
example : ∃ h, Reachable h ∧ (usedMetas h).length = 32 ∧ getMeta h 5 0 = some 4 :=
  ⟨(run initHeader fullOps).getD initHeader, ⟨fullOps, by decide +kernel⟩, by decide +kernel⟩
example : getMeta exHeader 7 0 = some 0 ∧ (usedMetas exHeader).length < 32 := by decide +kernel
example : ∃ h', delMeta exHeader 0 = .ret h' ∧ (usedMetas h').length = 2 :=
  ⟨match delMeta exHeader 0 with | .ret x => x | .ub => exHeader, by decide +kernel⟩

/-! ### C44 -/

theorem add_transport_meta {h : Header} {us : List MetaHdr} {k : Nat} (im : MetaInv h us k) (partId enc dec : U32) :
    (∃ h', addTransportMeta h partId enc dec = .ret (.ok, h') ∧
      (addMeta h idBpakTransport partId 32).1 = .ok ∧
      (∃ d, d.length = 24 ∧ entries h' = entries h ++ [⟨idBpakTransport, partId, le32 enc ++ le32 dec ++ d⟩]) ∧
      h' = { h with metas := h'.metas, metadata := h'.metadata }) ∨
    (∃ e h', addTransportMeta h partId enc dec = .ret (e, h') ∧ e ≠ .ok ∧
      addMeta h idBpakTransport partId 32 = (e, h', (addMeta h idBpakTransport partId 32).2.2)) := by
  have hid : idBpakTransport ≠ 0 := by decide
  rcases hc : addMeta h idBpakTransport partId 32 with ⟨c, h1, i⟩
  by_cases hok : c = .ok
  · subst hok
    left
    have hcase := addMeta_cases im idBpakTransport partId 32
    rw [hc] at hcase
    simp only [reduceCtorEq, false_and, and_false, false_or, and_true] at hcase
    obtain ⟨hne, hk, hfit⟩ := hcase
    obtain ⟨m, e1, e2, e3, e4, e5, e6, i2⟩ := addMeta_ok_inv im (size := 32) hid hne hk hfit
    rw [hc] at e6
    simp only [Prod.mk.injEq, true_and] at e6
    obtain ⟨eh, ei⟩ := e6
    have i2' : MetaInv h1 (us ++ [m]) (k-1) := by rw [eh]; exact i2
    have hget : h1.metas[i]? = some m := by rw [eh, ei]; simp
    have h32 : (32 : U16).toNat = 32 := by decide
    rw [h32] at hfit
    have hw8 : (le32 enc ++ le32 dec).length = 8 := rfl
    obtain ⟨md, hw⟩ : ∃ md, writeAt h1.metadata m.offset.toNat (le32 enc ++ le32 dec) = some md :=
      ⟨_, writeAt_eq_some (by rw [hw8, i2'.md, e4]; omega)⟩
    have hws := writeAt_some hw
    refine ⟨{ h1 with metadata := md }, ?_, rfl, ?_, ?_⟩
    · simp only [addTransportMeta, hc, hget, hw]
    · have hmdl : md.length = 1920 := by rw [hws.2.1, i2'.md]
      have i3 := writeMeta_inv i2' hmdl
      have hcm : ∀ x ∈ us, metaContent { h1 with metadata := md } x = metaContent h x := by
        intro x hx
        have hxe := im.packed.lt_end.2 x hx
        have hx2 := (im.packed.ge x hx).2
        unfold metaContent
        apply window_eq (by rw [hmdl]; exact hx2) (by rw [im.md]; exact hx2)
        intro j hj
        rw [hws.2.2, if_neg (by rw [e4]; omega)]
        rw [eh]
      refine ⟨(md.drop (m.offset.toNat + 8)).take 24, by simp [hmdl, e4]; omega, ?_⟩
      unfold entries
      rw [i3.used, im.used, List.map_append]
      congr 1
      · apply List.map_congr_left
        intro x hx
        rw [hcm x hx]
      · simp only [List.map_cons, List.map_nil, e1, e2, List.cons.injEq, and_true, Entry.mk.injEq, true_and]
        unfold metaContent
        simp only [e3, h32]
        have hsplit : (md.drop m.offset.toNat).take 32
            = (md.drop m.offset.toNat).take 8 ++ (md.drop (m.offset.toNat + 8)).take 24 := by
          rw [← List.drop_drop, ← List.take_add]
        rw [hsplit]
        congr 1
        apply List.ext_getElem?
        intro j
        by_cases hj : j < 8
        · rw [List.getElem?_take, if_pos hj, List.getElem?_drop, hws.2.2, if_pos (by rw [hw8]; omega)]
          congr 1; omega
        · rw [List.getElem?_eq_none (by simp; omega), List.getElem?_eq_none (by rw [hw8]; omega)]
    · rw [eh]
  · right
    refine ⟨c, h1, ?_, hok, rfl⟩
    unfold addTransportMeta
    rw [hc]
    split
    · rename_i heq; simp only [Prod.mk.injEq] at heq; exact absurd heq.1 hok
    · rename_i heq; simp only [Prod.mk.injEq] at heq; rw [heq.1, heq.2.1]

/-- C44: `bpak_add_transport_meta` either reports what `bpak_add_meta` would report, or adds exactly one
32-byte entry keyed by the part whose first eight bytes are the two algorithm ids. -/
theorem C44_add_transport_meta (h : Header) (partId enc dec : U32) (hr : Reachable h) :
    (∃ h', addTransportMeta h partId enc dec = .ret (.ok, h') ∧
      (addMeta h idBpakTransport partId 32).1 = .ok ∧
      (∃ d, d.length = 24 ∧ entries h' = entries h ++ [⟨idBpakTransport, partId, le32 enc ++ le32 dec ++ d⟩]) ∧
      h' = { h with metas := h'.metas, metadata := h'.metadata }) ∨
    (∃ e h', addTransportMeta h partId enc dec = .ret (e, h') ∧ e ≠ .ok ∧
      addMeta h idBpakTransport partId 32 = (e, h', (addMeta h idBpakTransport partId 32).2.2)) := by
  obtain ⟨us, k, im⟩ := hr.inv.metas
  exact add_transport_meta im partId enc dec

example : ∃ h', addTransportMeta exHeader 5 1 2 = .ret (.ok, h') ∧ (usedMetas h').length = 4 :=
  ⟨match addTransportMeta exHeader 5 1 2 with | .ret x => x.2 | .ub => exHeader, by decide +kernel⟩

end Bpak
