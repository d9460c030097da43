import Verif.Spec.Compare
import Verif.Props.Show
import Verif.Props.Keystore
/-! Property C74: `bpak compare`. -/
namespace Bpak

theorem fileRead_split (f : Bytes) (o n k : Nat) (h : k ≤ n) : fileRead f o n = fileRead f o k ++ fileRead f (o + k) (n - k) := by
  have : n = k + (n - k) := by omega
  rw [this, fileRead_add, Nat.add_sub_cancel_left]

theorem cmpData_eq (n : Nat) : ∀ (f1 : Bytes) (o1 : Nat) (f2 : Bytes) (o2 : Nat), o1 + n ≤ f1.length → o2 + n ≤ f2.length →
    cmpData f1 o1 f2 o2 n = .ok (decide (fileRead f1 o1 n ≠ fileRead f2 o2 n)) := by
  induction n using Nat.strongRecOn with
  | ind n ih =>
    intro f1 o1 f2 o2 h1 h2
    rw [cmpData]
    split
    · rename_i h0; subst h0; simp [fileRead]
    · rename_i h0
      have l1 := fileRead_length f1 o1 (min n 4096)
      have l2 := fileRead_length f2 o2 (min n 4096)
      rw [if_neg (by omega), if_neg (by omega)]
      have s1 := fileRead_split f1 o1 n (min n 4096) (by omega)
      have s2 := fileRead_split f2 o2 n (min n 4096) (by omega)
      split
      · rename_i hne
        have : fileRead f1 o1 n ≠ fileRead f2 o2 n := by
          intro e; rw [s1, s2] at e
          exact hne (List.append_inj e (by omega)).1
        simp [this]
      · rename_i he
        have he := Classical.not_not.1 he
        rw [ih (n - min n 4096) (by omega) _ _ _ _ (by omega) (by omega)]
        rw [s1, s2, he]
        simp

/-- A text that fits into 64 bytes. -/
theorem textFits_of (h : Header) (hl : h.metadata.length = 1920) (m : MetaHdr) (hm : m.offset.toNat + m.size.toNat ≤ 1920)
    (hn : Spec.bytesNeeded m.id m.size.toNat ≤ m.size.toNat) (h1 : m.id ≠ 0x7c9b2f93) (h2 : m.id ≠ 0xe68fc9be) : textFits h m = true := by
  obtain ⟨⟨e, out⟩, hr⟩ := C69_reads_inside_partial h hl m hm hn 64
  have := C69_writes_inside_partial h m 64 e out hr (fun hk => (hk.elim h1 h2).elim)
  unfold textFits
  rw [hr]
  simpa using this

theorem cmpMetas1_eq (h1 h2 : Header) (f : MetaHdr → Mark) : ∀ ms : List MetaHdr,
    (∀ m ∈ ms, m.id ≠ 0 → textFits h1 m = true ∧ ∃ i m2 a b, getMeta h2 m.id m.partRef = some i ∧ h2.metas[i]? = some m2 ∧
      readAt h1.metadata m.offset.toNat m.size.toNat = some a ∧ readAt h2.metadata m2.offset.toNat m.size.toNat = some b ∧ f m = if a ≠ b then .changed else .same) →
    cmpMetas1 h1 h2 ms = .ret ((ms.filter (fun m => m.id ≠ 0)).map (fun m => (f m, m))) := by
  intro ms
  induction ms with
  | nil => intro _; rfl
  | cons m ms ih =>
    intro hm
    rw [cmpMetas1]
    have ih := ih (fun x hx => hm x (List.mem_cons_of_mem _ hx))
    by_cases h0 : m.id = 0
    · rw [if_pos h0, ih, List.filter_cons_of_neg (by simpa using h0)]
    · obtain ⟨ht, i, m2, a, b, e1, e2, e3, e4, e5⟩ := hm m List.mem_cons_self h0
      rw [if_neg h0, e1]
      simp only [e2, e3, e4, ht, ih]
      rw [List.filter_cons_of_pos (by simpa using h0), List.map_cons, e5]
      rfl

theorem cmpMetas2_eq (h1 h2 : Header) : ∀ ms : List MetaHdr, (∀ m ∈ ms, m.id ≠ 0 → textFits h2 m = true) →
    cmpMetas2 h1 h2 ms = .ret ((ms.filter (fun m => m.id ≠ 0 ∧ getMeta h1 m.id m.partRef = none)).map (fun m => (.added, m))) := by
  intro ms
  induction ms with
  | nil => intro _; rfl
  | cons m ms ih =>
    intro hm
    rw [cmpMetas2]
    have ih := ih (fun x hx => hm x (List.mem_cons_of_mem _ hx))
    by_cases h0 : m.id = 0
    · rw [if_pos h0, ih, List.filter_cons_of_neg (by simp [h0])]
    · have ht := hm m List.mem_cons_self h0
      rw [if_neg h0]
      cases hg : getMeta h1 m.id m.partRef with
      | some i => simp only; rw [ih, List.filter_cons_of_neg (by simp [hg])]
      | none =>
        simp only [ht, ih]
        rw [List.filter_cons_of_pos (by rw [decide_eq_true_eq]; exact ⟨h0, hg⟩), List.map_cons]
        rfl

theorem cmpParts1_eq (h1 h2 : Header) (f1 f2 : Bytes) (f : PartHdr → Mark) : ∀ (ps : List PartHdr) (rc : Err),
    (∀ p ∈ ps, p.id ≠ 0 → (getPart h2 p.id = none ∧ f p = .removed) ∨ (∃ j p2 d, getPart h2 p.id = some j ∧ h2.parts[j]? = some p2 ∧
      (partOffset h1 p).toNat < 2^63 ∧ (partOffset h2 p2).toNat < 2^63 ∧
      cmpData f1 (partOffset h1 p).toNat f2 (partOffset h2 p2).toNat (partSize p).toNat = .ok d ∧ f p = if p2 ≠ p ∨ d = true then .changed else .same)) →
    (cmpParts1 h1 h2 f1 f2 rc ps).1 = (ps.filter (fun p => p.id ≠ 0)).map (fun p => (f p, p)) ∧ (cmpParts1 h1 h2 f1 f2 rc ps).2.2 = false := by
  intro ps
  induction ps with
  | nil => intro rc _; exact ⟨rfl, rfl⟩
  | cons p ps ih =>
    intro rc hp
    have ih := fun rc => ih rc (fun x hx => hp x (List.mem_cons_of_mem _ hx))
    unfold cmpParts1
    by_cases h0 : p.id = 0
    · rw [if_pos h0, List.filter_cons_of_neg (by simpa using h0)]; exact ih rc
    · rw [if_neg h0, List.filter_cons_of_pos (by simpa using h0), List.map_cons]
      rcases hp p List.mem_cons_self h0 with ⟨e1, e2⟩ | ⟨j, p2, d, e1, e2, e3, e4, e5, e6⟩
      · simp only [e1, e2]
        exact ⟨by rw [(ih _).1], (ih _).2⟩
      · have e7 : h2.parts.getD j PartHdr.zero = p2 := by rw [List.getD_eq_getElem?_getD, e2]; rfl
        simp only [e1, e7]
        rw [if_neg (by omega), if_neg (by omega), e5]
        simp only
        exact ⟨by rw [(ih _).1, e6], (ih _).2⟩

theorem cmpParts2_eq (h1 : Header) : ∀ (ps : List PartHdr) (rc : Err),
    (cmpParts2 h1 rc ps).1 = (ps.filter (fun p => p.id ≠ 0 ∧ getPart h1 p.id = none)).map (fun p => (.removed, p)) := by
  intro ps
  induction ps with
  | nil => intro rc; rfl
  | cons p ps ih =>
    intro rc
    rw [cmpParts2]
    by_cases h0 : p.id = 0
    · rw [if_pos h0, ih, List.filter_cons_of_neg (by simp [h0])]
    · rw [if_neg h0]
      cases hg : getPart h1 p.id with
      | some i => simp only; rw [ih, List.filter_cons_of_neg (by simp [hg])]
      | none => simp only; rw [ih, List.filter_cons_of_pos (by rw [decide_eq_true_eq]; exact ⟨h0, hg⟩), List.map_cons]

theorem filter_used_metas {h : Header} {us : List MetaHdr} {k : Nat} (i : MetaInv h us k) : h.metas.filter (fun m => m.id ≠ 0) = us := by
  rw [i.slots, List.filter_append, List.filter_eq_self.2 (by intro m hm; simpa using i.packed.ids m hm), List.filter_eq_nil_iff.2]
  · simp
  · intro m hm; rw [(List.mem_replicate.1 hm).2]; decide

theorem filter_used_parts {h : Header} {us : List PartHdr} {k : Nat} (i : PartInv h us k) : h.parts.filter (fun m => m.id ≠ 0) = us := by
  rw [i.slots, List.filter_append, List.filter_eq_self.2 (by intro m hm; simpa using i.ids m hm), List.filter_eq_nil_iff.2]
  · simp
  · intro m hm; rw [(List.mem_replicate.1 hm).2]; decide

theorem getMeta_none_iff {h : Header} {us : List MetaHdr} {k : Nat} (i : MetaInv h us k) (id ref : U32) (hid : id ≠ 0) :
    getMeta h id ref = none ↔ ∀ m ∈ us, ¬ (m.id = id ∧ m.partRef = ref) := by
  rw [C03_get_meta_not_found, i.slots]
  constructor
  · intro h m hm; exact h m (List.mem_append_left _ hm)
  · intro h m hm
    rcases List.mem_append.1 hm with hm | hm
    · exact h m hm
    · rw [(List.mem_replicate.1 hm).2]; intro e; exact hid e.1.symm

theorem getPart_none_iff {h : Header} {us : List PartHdr} {k : Nat} (i : PartInv h us k) (id : U32) (hid : id ≠ 0) :
    getPart h id = none ↔ ∀ m ∈ us, m.id ≠ id := by
  rw [C10_get_part_not_found, i.slots]
  constructor
  · intro h m hm; exact h m (List.mem_append_left _ hm)
  · intro h m hm
    rcases List.mem_append.1 hm with hm | hm
    · exact h m hm
    · rw [(List.mem_replicate.1 hm).2]; intro e; exact hid e.symm

theorem find_keyed_meta {h : Header} {k : Nat} (i : MetaInv h (usedMetas h) k) (m : MetaHdr) (hm : m ∈ usedMetas h) (key : U32 × U32) (hk : key = (m.id, m.partRef)) :
    (keyedEntries h).find? (fun y => y.1 = key) = some ((m.id, m.partRef), metaContent h m) := by
  subst hk
  obtain ⟨pre, post, hu⟩ := List.append_of_mem hm
  unfold keyedEntries entries
  rw [List.map_map, List.find?_map]
  have : (usedMetas h).find? ((fun y : (U32 × U32) × Bytes => decide (y.1 = (m.id, m.partRef))) ∘ ((fun e : Entry => ((e.id, e.ref), e.data)) ∘ fun m => ⟨m.id, m.partRef, metaContent h m⟩)) = some m := by
    rw [List.find?_eq_some_iff_append]
    refine ⟨by simp, pre, post, hu, ?_⟩
    intro a ha
    have hd := i.distinct
    rw [hu] at hd
    have := (List.pairwise_append.1 hd).2.2 a ha m List.mem_cons_self
    unfold sameKey at this
    simp only [Function.comp_apply, Prod.mk.injEq, Bool.not_eq_true', decide_eq_false_iff_not]
    exact this
  rw [this]
  rfl

theorem find_keyed_part {p : Pkg} {k : Nat} (i : PartInv p.hdr (usedParts p.hdr) k) (q : PartHdr) (hq : q ∈ usedParts p.hdr) (id : U32) (hk : id = q.id) :
    (keyedParts p).find? (fun y => y.1 = id) = some (q.id, (q, storedBytes p q)) := by
  subst hk
  obtain ⟨pre, post, hu⟩ := List.append_of_mem hq
  unfold keyedParts
  rw [List.find?_map]
  have : (usedParts p.hdr).find? ((fun y : U32 × (PartHdr × Bytes) => decide (y.1 = q.id)) ∘ (fun q => (q.id, (q, storedBytes p q)))) = some q := by
    rw [List.find?_eq_some_iff_append]
    refine ⟨by simp, pre, post, hu, ?_⟩
    intro a ha
    have hd := i.distinct
    rw [hu] at hd
    have := (List.pairwise_append.1 hd).2.2 a ha q List.mem_cons_self
    simp only [Function.comp_apply, Bool.not_eq_true', decide_eq_false_iff_not]
    exact this
  rw [this]
  rfl

theorem storedBytes_in {H : HashFn} {p : Pkg} {s : List (U32 × Bytes)} (i : PkgInv H p s) (q : PartHdr) (hq : q ∈ usedParts p.hdr) :
    (partOffset p.hdr q).toNat + storedSize q ≤ p.file.length ∧ (partSize q).toNat = storedSize q := by
  have g := i.good
  obtain ⟨pre, post, hu⟩ := List.append_of_mem hq
  have hx := g.exact
  have hs := i.small
  have t : TidyParts p.hdr := g.parts.tidy (by omega)
  obtain ⟨e3, e4⟩ := tidy_offset p.hdr t pre post q hu
  rw [hu] at hx
  simp only [List.map_append, List.map_cons, List.sum_append, List.sum_cons] at hx
  exact ⟨by omega, e4⟩

theorem compareFiles_saved {H : HashFn} {p1 p2 : Pkg} {s1 s2 : List (U32 × Bytes)} (i1 : PkgInv H p1 s1) (i2 : PkgInv H p2 s2) :
    compareFiles p1.file p2.file = compareOpen p1.hdr p2.hdr p1.file p2.file := by
  unfold compareFiles
  rw [if_neg (by have := i1.saved.1; omega), if_neg (by have := i2.saved.1; omega), i1.saved.2, i2.saved.2, i1.valid, i2.valid, if_neg (by simp), if_neg (by simp)]

theorem compare_aux {H : HashFn} {p1 p2 : Pkg} {s1 s2 : List (U32 × Bytes)} (i1 : PkgInv H p1 s1) (i2 : PkgInv H p2 s2)
    (hkeys : ∀ e ∈ entries p1.hdr, ∃ e2 ∈ entries p2.hdr, e2.id = e.id ∧ e2.ref = e.ref ∧ e2.data.length = e.data.length)
    (htext : ∀ e, e ∈ entries p1.hdr ∨ e ∈ entries p2.hdr → e.id ≠ 0x7c9b2f93 ∧ e.id ≠ 0xe68fc9be ∧ Spec.bytesNeeded e.id e.data.length ≤ e.data.length)
    (hlong : ∀ q ∈ usedParts p1.hdr, ∀ q2 ∈ usedParts p2.hdr, q2.id = q.id → (partOffset p2.hdr q2).toNat + storedSize q ≤ p2.file.length) :
    ∃ c, compareFiles p1.file p2.file = .ret c ∧ metaRows c = legend (keyedEntries p1.hdr) (keyedEntries p2.hdr) ∧
      partRows c = (legend (keyedParts p1) (keyedParts p2)).map (fun r => (if r.1 = .added then .removed else r.1, r.2)) := by
  have m1 := i1.metas.inv i1.good.wf
  have m2 := i2.metas.inv i2.good.wf
  have q1 := i1.good.parts.inv i1.good.wf
  have q2 := i2.good.parts.inv i2.good.wf
  have hlen : ∀ {h : Header} {k : Nat} (_ : MetaInv h (usedMetas h) k) (m : MetaHdr), m ∈ usedMetas h → m.offset.toNat + m.size.toNat ≤ 1920 ∧ (metaContent h m).length = m.size.toNat := by
    intro h k i m hm
    have := (i.packed.ge m hm).2
    refine ⟨this, ?_⟩
    unfold metaContent; rw [List.length_take, List.length_drop, i.md]; omega
  have fits1 : ∀ m ∈ usedMetas p1.hdr, textFits p1.hdr m = true := by
    intro m hm
    obtain ⟨l1, l2⟩ := hlen m1 m hm
    obtain ⟨a, b, c⟩ := htext ⟨m.id, m.partRef, metaContent p1.hdr m⟩ (Or.inl (List.mem_map.2 ⟨m, hm, rfl⟩))
    simp only [l2] at c
    exact textFits_of p1.hdr m1.md m l1 c a b
  have fits2 : ∀ m ∈ usedMetas p2.hdr, textFits p2.hdr m = true := by
    intro m hm
    obtain ⟨l1, l2⟩ := hlen m2 m hm
    obtain ⟨a, b, c⟩ := htext ⟨m.id, m.partRef, metaContent p2.hdr m⟩ (Or.inr (List.mem_map.2 ⟨m, hm, rfl⟩))
    simp only [l2] at c
    exact textFits_of p2.hdr m2.md m l1 c a b
  have used1 : ∀ m ∈ p1.hdr.metas, m.id ≠ 0 → m ∈ usedMetas p1.hdr := by
    intro m hm h0; rw [← filter_used_metas m1]; exact List.mem_filter.2 ⟨hm, by simpa using h0⟩
  have used2 : ∀ m ∈ p2.hdr.metas, m.id ≠ 0 → m ∈ usedMetas p2.hdr := by
    intro m hm h0; rw [← filter_used_metas m2]; exact List.mem_filter.2 ⟨hm, by simpa using h0⟩
  have r1 := cmpMetas1_eq p1.hdr p2.hdr (fun m => match (keyedEntries p2.hdr).find? (fun y => y.1 = (m.id, m.partRef)) with
    | none => .removed
    | some y => if y.2 = metaContent p1.hdr m then .same else .changed) p1.hdr.metas (by
      intro m hm h0
      have hm := used1 m hm h0
      obtain ⟨l1, l2⟩ := hlen m1 m hm
      refine ⟨fits1 m hm, ?_⟩
      obtain ⟨e2, he2, a1, a2, a3⟩ := hkeys ⟨m.id, m.partRef, metaContent p1.hdr m⟩ (List.mem_map.2 ⟨m, hm, rfl⟩)
      obtain ⟨n, hn, en⟩ := List.mem_map.1 he2
      obtain ⟨k1, k2⟩ := hlen m2 n hn
      rw [← en] at a1 a2 a3
      simp only at a1 a2 a3
      rw [k2, l2] at a3
      obtain ⟨pre, post, hu⟩ := List.append_of_mem hn
      obtain ⟨g1, g2⟩ := getMeta_used m2 pre post n hu
      refine ⟨pre.length, n, metaContent p1.hdr m, metaContent p2.hdr n, by rw [← a1, ← a2]; exact g1, g2, ?_, ?_, ?_⟩
      · rw [readAt_eq_some (by rw [m1.md]; omega)]; rfl
      · rw [readAt_eq_some (by rw [m2.md]; omega), ← a3]; rfl
      · rw [find_keyed_meta m2 n hn _ (by rw [a1, a2])]
        simp only
        by_cases he : metaContent p2.hdr n = metaContent p1.hdr m
        · rw [if_pos he, if_neg (by rw [he]; simp)]
        · rw [if_neg he, if_pos (fun e => he e.symm)])
  have r2 := cmpMetas2_eq p1.hdr p2.hdr p2.hdr.metas (fun m hm h0 => fits2 m (used2 m hm h0))
  have pused1 : ∀ m ∈ p1.hdr.parts, m.id ≠ 0 → m ∈ usedParts p1.hdr := by
    intro m hm h0; rw [← filter_used_parts q1]; exact List.mem_filter.2 ⟨hm, by simpa using h0⟩
  have small1 := i1.small
  have small2 := i2.small
  obtain ⟨r3, r4⟩ := cmpParts1_eq p1.hdr p2.hdr p1.file p2.file (fun q => match (keyedParts p2).find? (fun y => y.1 = q.id) with
    | none => .removed
    | some y => if y.2 = (q, storedBytes p1 q) then .same else .changed) p1.hdr.parts (cmpMetaRc p1.hdr p2.hdr) (by
      intro q hq h0
      have hq := pused1 q hq h0
      cases hg : getPart p2.hdr q.id with
      | none =>
        left
        refine ⟨rfl, ?_⟩
        have hn := (getPart_none_iff q2 q.id h0).1 hg
        have : (keyedParts p2).find? (fun y => y.1 = q.id) = none := by
          rw [List.find?_eq_none]
          intro y hy
          obtain ⟨z, hz, ez⟩ := List.mem_map.1 hy
          rw [← ez]
          simpa using hn z hz
        rw [this]
      | some j =>
        right
        obtain ⟨pre, n, post, hu, hj, e1, e2⟩ := getPart_split q2 h0 hg
        have hn : n ∈ usedParts p2.hdr := by rw [hu]; simp
        obtain ⟨c1, c2⟩ := storedBytes_in i1 q hq
        obtain ⟨d1, d2⟩ := storedBytes_in i2 n hn
        have hl := hlong q hq n hn e1
        refine ⟨j, n, _, rfl, e2, by omega, by omega, cmpData_eq _ _ _ _ _ (by rw [c2]; exact c1) (by rw [c2]; exact hl), ?_⟩
        rw [find_keyed_part q2 n hn _ e1.symm]
        simp only
        by_cases he : n = q
        · subst he
          by_cases hb : storedBytes p2 n = storedBytes p1 n
          · rw [if_pos (by rw [hb]), if_neg]
            simp only [ne_eq, not_true_eq_false, false_or, decide_eq_true_eq, Classical.not_not]
            unfold storedBytes at hb
            rw [c2]; exact hb.symm
          · rw [if_neg (by intro e; exact hb (Prod.mk.inj e).2), if_pos]
            right
            rw [decide_eq_true_eq]
            unfold storedBytes at hb
            rw [c2]
            exact fun e => hb e.symm
        · rw [if_neg (by intro e; exact he (Prod.mk.inj e).1), if_pos (Or.inl he)])
  rw [compareFiles_saved i1 i2]
  unfold compareOpen
  rw [r1, r2]
  simp only [r4, r3]
  refine ⟨_, rfl, ?_, ?_⟩
  · unfold metaRows legend
    simp only [List.map_append, List.map_map]
    congr 1
    · rw [filter_used_metas m1]
      unfold keyedEntries entries
      rw [List.map_map, List.map_map, List.map_map]
      apply List.map_congr_left
      intro m hm
      simp only [Function.comp_apply]
      refine Prod.ext ?_ rfl
      simp only
      generalize List.find? _ _ = x
      cases x <;> rfl
    · have : p2.hdr.metas.filter (fun m => decide (m.id ≠ 0 ∧ getMeta p1.hdr m.id m.partRef = none)) =
          (usedMetas p2.hdr).filter (fun m => (keyedEntries p1.hdr).all (fun x => x.1 ≠ (m.id, m.partRef))) := by
        rw [← filter_used_metas m2, List.filter_filter]
        apply List.filter_congr
        intro m hm
        by_cases h0 : m.id = 0
        · simp [h0]
        · have := getMeta_none_iff m1 m.id m.partRef h0
          have e : (keyedEntries p1.hdr).all (fun x => x.1 ≠ (m.id, m.partRef)) = decide (∀ n ∈ usedMetas p1.hdr, ¬ (n.id = m.id ∧ n.partRef = m.partRef)) := by
            unfold keyedEntries entries
            rw [List.map_map, List.all_map, Bool.eq_iff_iff, List.all_eq_true, decide_eq_true_eq]
            constructor
            · intro h n hn hc
              have := h n hn
              simp only [Function.comp_apply, ne_eq, decide_eq_true_eq, Prod.mk.injEq] at this
              exact this hc
            · intro h n hn
              have := h n hn
              simp only [Function.comp_apply, ne_eq, decide_eq_true_eq, Prod.mk.injEq]
              exact this
          rw [e, Bool.eq_iff_iff]
          simp only [decide_eq_true_eq, Bool.and_eq_true, this]
          exact And.comm
      rw [this]
      unfold keyedEntries entries
      rw [List.map_map, List.map_map, List.filter_map, List.map_map]
      rfl
  · unfold partRows legend
    simp only [List.map_append, List.map_map, cmpParts2_eq]
    congr 1
    · rw [filter_used_parts q1]
      unfold keyedParts
      rw [List.map_map]
      apply List.map_congr_left
      intro q hq
      simp only [Function.comp_apply]
      cases (List.map (fun q => (q.id, (q, storedBytes p2 q))) (usedParts p2.hdr)).find? (fun y => y.1 = q.id) with
      | none => rfl
      | some y => simp only; by_cases hy : y.2 = (q, storedBytes p1 q) <;> simp [hy]
    · have : p2.hdr.parts.filter (fun q => decide (q.id ≠ 0 ∧ getPart p1.hdr q.id = none)) =
          (usedParts p2.hdr).filter (fun q => (keyedParts p1).all (fun x => x.1 ≠ q.id)) := by
        rw [← filter_used_parts q2, List.filter_filter]
        apply List.filter_congr
        intro m hm
        by_cases h0 : m.id = 0
        · simp [h0]
        · have := getPart_none_iff q1 m.id h0
          have e : (keyedParts p1).all (fun x => x.1 ≠ m.id) = decide (∀ n ∈ usedParts p1.hdr, n.id ≠ m.id) := by
            unfold keyedParts
            rw [List.all_map, Bool.eq_iff_iff, List.all_eq_true, decide_eq_true_eq]
            constructor
            · intro h n hn; have := h n hn; simpa using this
            · intro h n hn; have := h n hn; simpa using this
          rw [e, Bool.eq_iff_iff]
          simp only [decide_eq_true_eq, Bool.and_eq_true, this]
          exact And.comm
      rw [this]
      unfold keyedParts
      rw [List.filter_map, List.map_map]
      rfl

/-- C74, what holds: of two packages made by histories of calls, the rows carry the marks of the legend, if each metadata entry
of the first is in the second with the same length, the texts of all entries fit, and no part of the second that is also in the first
ends so early that the file is too short for the first's length. Missing: the other cases, in which the program fails (below); and
parts that are only in the second package get `-` instead of `+`. -/
theorem C74_marks_partial {SK PK : Type} (H : HashFn) (hH : HashLen H) (S : SigScheme SK PK) (hS : ∀ sk rnd k d, S.sign sk rnd k d ≠ .error .ok)
    (ops1 ops2 : List (PkgOp SK)) (p0 p1 p2 : Pkg) (h0 : pkgOpen H true [] = (.ok, p0)) (hr1 : pkgRun H S p0 ops1 = some p1) (hr2 : pkgRun H S p0 ops2 = some p2)
    (hkeys : ∀ e ∈ entries p1.hdr, ∃ e2 ∈ entries p2.hdr, e2.id = e.id ∧ e2.ref = e.ref ∧ e2.data.length = e.data.length)
    (htext : ∀ e, e ∈ entries p1.hdr ∨ e ∈ entries p2.hdr → e.id ≠ 0x7c9b2f93 ∧ e.id ≠ 0xe68fc9be ∧ Spec.bytesNeeded e.id e.data.length ≤ e.data.length)
    (hlong : ∀ q ∈ usedParts p1.hdr, ∀ q2 ∈ usedParts p2.hdr, q2.id = q.id → (partOffset p2.hdr q2).toNat + storedSize q ≤ p2.file.length) :
    ∃ c, compareFiles p1.file p2.file = .ret c ∧ metaRows c = legend (keyedEntries p1.hdr) (keyedEntries p2.hdr) ∧
      partRows c = (legend (keyedParts p1) (keyedParts p2)).map (fun r => (if r.1 = .added then .removed else r.1, r.2)) :=
  compare_aux (run_inv H hH S hS ops1 p0 p1 h0 hr1) (run_inv H hH S hS ops2 p0 p2 h0 hr2) hkeys htext hlong

theorem cmpMetas1_missing (h1 h2 : Header) : ∀ (ms : List MetaHdr) (m : MetaHdr), m ∈ ms → m.id ≠ 0 → getMeta h2 m.id m.partRef = none → cmpMetas1 h1 h2 ms = .ub := by
  intro ms
  induction ms with
  | nil => intro m hm; cases hm
  | cons x ms ih =>
    intro m hm h0 hg
    rw [cmpMetas1]
    rcases List.mem_cons.1 hm with rfl | hm
    · rw [if_neg h0, hg]
    · have := ih m hm h0 hg
      rw [this]
      repeat' split
      all_goals first | rfl | simp_all

/-- C74, the flaw: whenever a metadata entry of the first package is not in the second, the program dereferences NULL (instead of
marking the row `-`). -/
theorem C74_removed_entry_is_false {SK PK : Type} (H : HashFn) (hH : HashLen H) (S : SigScheme SK PK) (hS : ∀ sk rnd k d, S.sign sk rnd k d ≠ .error .ok)
    (ops1 ops2 : List (PkgOp SK)) (p0 p1 p2 : Pkg) (h0 : pkgOpen H true [] = (.ok, p0)) (hr1 : pkgRun H S p0 ops1 = some p1) (hr2 : pkgRun H S p0 ops2 = some p2)
    (e : Entry) (he : e ∈ entries p1.hdr) (hno : ∀ e2 ∈ entries p2.hdr, ¬ (e2.id = e.id ∧ e2.ref = e.ref)) : compareFiles p1.file p2.file = .ub := by
  have i1 := run_inv H hH S hS ops1 p0 p1 h0 hr1
  have i2 := run_inv H hH S hS ops2 p0 p2 h0 hr2
  rw [compareFiles_saved i1 i2]
  have m1 := i1.metas.inv i1.good.wf
  have m2 := i2.metas.inv i2.good.wf
  obtain ⟨m, hm, em⟩ := List.mem_map.1 he
  have hid := m1.packed.ids m hm
  unfold compareOpen
  rw [cmpMetas1_missing p1.hdr p2.hdr p1.hdr.metas m (by rw [m1.slots]; exact List.mem_append_left _ hm) hid]
  rw [getMeta_none_iff m2 _ _ hid]
  intro x hx hc
  refine hno ⟨x.id, x.partRef, metaContent p2.hdr x⟩ (List.mem_map.2 ⟨x, hx, rfl⟩) ?_
  rw [← em]; exact hc

/-- A package that some history of calls on a new file made (with the hash and signature functions of the examples), with the
files `s` in it. -/
def Made (p : Pkg) (s : List (U32 × Bytes)) : Prop :=
  ∃ ops : List (PkgOp Unit), pkgRun exHash exScheme (pkgOpen exHash true []).2 ops = some p ∧ expect [] ops = s

theorem Made.inv {p : Pkg} {s : List (U32 × Bytes)} (m : Made p s) : PkgInv exHash p s := by
  obtain ⟨ops, hr, hs⟩ := m
  obtain ⟨q, e, _⟩ := C56_open_new exHash exHash_len
  rw [← hs]
  exact run_inv exHash exHash_len exScheme (by intro _ _ _ _ h; cases h) ops _ p (by rw [e]) hr

/-- Two packages made by histories of calls. -/
theorem ex_run2 (ops1 ops2 : List (PkgOp Unit)) {β : Type} (f : Pkg → Pkg → β) (v : β)
    (h : ((pkgRun exHash exScheme (pkgOpen exHash true []).2 ops1).bind fun p1 => (pkgRun exHash exScheme (pkgOpen exHash true []).2 ops2).map (f p1)) = some v) :
    ∃ p1 p2, Made p1 (expect [] ops1) ∧ Made p2 (expect [] ops2) ∧ f p1 p2 = v := by
  cases hr1 : pkgRun exHash exScheme (pkgOpen exHash true []).2 ops1 with
  | none => rw [hr1] at h; cases h
  | some p1 =>
    cases hr2 : pkgRun exHash exScheme (pkgOpen exHash true []).2 ops2 with
    | none => rw [hr1, hr2] at h; cases h
    | some p2 =>
      rw [hr1, hr2] at h
      exact ⟨p1, p2, ⟨ops1, hr1, rfl⟩, ⟨ops2, hr2, rfl⟩, Option.some.inj h⟩

/-- C74, further flaws, each with two packages made by the API: an entry that became longer is marked `=`; a part that is only in the
second package is marked `-`; a part that became shorter ends the program with a read error and no row; and the code is success
although a part differs. -/
theorem C74_marks_is_false :
    (∃ p1 p2 s1 s2 c, Made p1 s1 ∧ Made p2 s2 ∧ keyedEntries p1.hdr = [((5, 0), [1, 2])] ∧ keyedEntries p2.hdr = [((5, 0), [1, 2, 3])] ∧
      compareFiles p1.file p2.file = .ret c ∧ metaRows c = [(.same, (5, 0))]) ∧
    (∃ p1 p2 c, Made p1 [] ∧ Made p2 [(7, [1])] ∧ compareFiles p1.file p2.file = .ret c ∧ partRows c = [(.removed, 7)]) ∧
    (∃ p1 p2 c, Made p1 [(7, List.replicate 513 0)] ∧ Made p2 [(7, [1])] ∧ compareFiles p1.file p2.file = .ret c ∧ c.rc = .readError ∧ partRows c = []) ∧
    (∃ p1 p2 c, Made p1 [(7, [1])] ∧ Made p2 [(7, [2])] ∧ compareFiles p1.file p2.file = .ret c ∧ c.rc = .ok ∧ partRows c = [(.changed, 7)]) := by
  refine ⟨?_, ?_, ?_, ?_⟩
  · obtain ⟨p1, p2, i1, i2, e⟩ := ex_run2 [.header (.addMeta 5 0 2), .header (.writeMeta 5 0 [1, 2])] [.header (.addMeta 5 0 3), .header (.writeMeta 5 0 [1, 2, 3])]
      (fun p1 p2 => decide (keyedEntries p1.hdr = [((5, 0), [1, 2])]) && (decide (keyedEntries p2.hdr = [((5, 0), [1, 2, 3])]) &&
        decide ((match compareOpen p1.hdr p2.hdr p1.file p2.file with | .ub => none | .ret c => some (metaRows c)) = some [(.same, (5, 0))]))) true (by decide +kernel)
    rw [Bool.and_eq_true, Bool.and_eq_true, decide_eq_true_eq, decide_eq_true_eq, decide_eq_true_eq] at e
    obtain ⟨e1, e2, e3⟩ := e
    rw [← compareFiles_saved i1.inv i2.inv] at e3
    split at e3
    · cases e3
    · rename_i c hc
      exact ⟨p1, p2, _, _, c, i1, i2, e1, e2, hc, Option.some.inj e3⟩
  · obtain ⟨p1, p2, i1, i2, e⟩ := ex_run2 [] [.addFile 7 0 [1]]
      (fun p1 p2 => match compareOpen p1.hdr p2.hdr p1.file p2.file with | .ub => none | .ret c => some (partRows c)) (some [(.removed, 7)]) (by decide +kernel)
    rw [← compareFiles_saved i1.inv i2.inv] at e
    split at e
    · cases e
    · rename_i c hc
      exact ⟨p1, p2, c, i1, i2, hc, Option.some.inj e⟩
  · obtain ⟨p1, p2, i1, i2, e⟩ := ex_run2 [.addFile 7 0 (List.replicate 513 0)] [.addFile 7 0 [1]]
      (fun p1 p2 => match compareOpen p1.hdr p2.hdr p1.file p2.file with | .ub => none | .ret c => some (c.rc, partRows c)) (some (.readError, [])) (by decide +kernel)
    rw [← compareFiles_saved i1.inv i2.inv] at e
    split at e
    · cases e
    · rename_i c hc
      obtain ⟨a, b⟩ := Prod.mk.inj (Option.some.inj e)
      exact ⟨p1, p2, c, i1, i2, hc, a, b⟩
  · obtain ⟨p1, p2, i1, i2, e⟩ := ex_run2 [.addFile 7 0 [1]] [.addFile 7 0 [2]]
      (fun p1 p2 => match compareOpen p1.hdr p2.hdr p1.file p2.file with | .ub => none | .ret c => some (c.rc, partRows c)) (some (.ok, [(.changed, 7)])) (by decide +kernel)
    rw [← compareFiles_saved i1.inv i2.inv] at e
    split at e
    · cases e
    · rename_i c hc
      obtain ⟨a, b⟩ := Prod.mk.inj (Option.some.inj e)
      exact ⟨p1, p2, c, i1, i2, hc, a, b⟩

/-- The hypotheses of `C74_marks_partial` are met by two packages that share an entry and a part and have one more part each. -/
example : ((pkgRun exHash exScheme (pkgOpen exHash true []).2 [.header (.addMeta 5 0 2), .addFile 7 0 [1], .addFile 8 0 [2]]).bind fun p1 =>
    (pkgRun exHash exScheme (pkgOpen exHash true []).2 [.header (.addMeta 5 0 2), .addFile 7 0 [1], .addFile 9 0 [2]]).map fun p2 =>
      match compareOpen p1.hdr p2.hdr p1.file p2.file with
      | .ub => none
      | .ret c => some (metaRows c, partRows c)) = some (some ([(.same, (5, 0))], [(.same, 7), (.removed, 8), (.removed, 9)])) := by decide +kernel

end Bpak
