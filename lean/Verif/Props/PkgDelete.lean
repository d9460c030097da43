import Verif.Proof.PkgDelete
import Verif.Props.PkgSign
/-! Deleting parts (C36, C47, C61, C62). -/
namespace Bpak

/-- The metadata entries of the part(s) can be deleted without leaving the table (C09): either none is selected or
a slot is free. -/
def MetaRoom (h : Header) (sel : U32 → Bool) : Prop := (∀ m ∈ usedMetas h, sel m.partRef = false) ∨ (usedMetas h).length < 32

/-- No deleted entry is followed by a larger entry (else its content is damaged, C08). -/
def MetaSizesOk (h : Header) (sel : U32 → Bool) : Prop :=
  (usedMetas h).Pairwise (fun a b => sel a.partRef = true → b.size.toNat ≤ (a.size.toNat + 7) / 8 * 8)

theorem removeMetas_ok (sel : U32 → Bool) (h0 : sel 0 = false) (h : Header) (w : h.WF) (g : GoodMetas h) (hr : MetaRoom h sel) (fuel : Nat) (hf : 65 ≤ fuel) :
    ∃ h', removeMetas sel fuel h 0 = some (.ret h') ∧ GoodMetas h' ∧ h'.WF ∧ h' = { h with metas := h'.metas, metadata := h'.metadata } ∧
      (usedMetas h').map metaAttrs = ((usedMetas h).filter (fun m => !sel m.partRef)).map metaAttrs ∧
      (MetaSizesOk h sel → entries h' = (entries h).filter (fun e => !sel e.ref)) := by
  have inv := g.inv w
  have hl := inv.len
  obtain ⟨h', us', k', e, inv', hh, hk, he⟩ := removeMetas_inv sel h0 _ (usedMetas h) fuel h [] _ rfl inv (by simp) (by
    intro hz
    rcases hr with hr | hr
    · exact hr
    · omega) (by omega)
  refine ⟨h', e, inv'.good, ?_, hh, ?_, ?_⟩
  · have hp : ∀ m ∈ us', m.pad.length = 4 := by
      intro m hm
      have h1 : (m.id, m.partRef, m.size, m.pad) ∈ us'.map (fun m => (m.id, m.partRef, m.size, m.pad)) := List.mem_map.2 ⟨m, hm, rfl⟩
      rw [hk, List.mem_map] at h1
      obtain ⟨x, hx, ex⟩ := h1
      have hx2 := w.2.2.2.2.2.2.2 x (by rw [g.slots]; exact List.mem_append_left _ (List.mem_filter.1 hx).1)
      simp only [Prod.mk.injEq] at ex
      rw [← ex.2.2.2]; exact hx2
    obtain ⟨w1, w2, w3, w4, w5, w6, w7, w8⟩ := w
    have := inv'.len
    rw [hh]
    refine ⟨w1, ?_, w3, inv'.md, w5, w6, w7, ?_⟩
    · rw [inv'.slots]; simp; exact this
    · intro m hm
      simp only [inv'.slots] at hm
      rcases List.mem_append.1 hm with hm | hm
      · exact hp m hm
      · rw [(List.mem_replicate.1 hm).2]; rfl
  · rw [inv'.used]
    have := congrArg (List.map (fun x : U32 × U32 × U16 × Bytes => (x.1, x.2.1, x.2.2.1.toNat))) hk
    rw [List.map_map, List.map_map] at this
    exact this
  · intro hs
    exact he hs

/-- The header step of `bpak_pkg_delete_part`: what is known of the header whose metadata was cleaned. -/
theorem cleaned (sel : U32 → Bool) (h0 : sel 0 = false) (h : Header) (w : h.WF) (rm : Bool) (gm : rm = true → GoodMetas h ∧ MetaRoom h sel) (fuel : Nat) (hf : 65 ≤ fuel) :
    ∃ h', (if rm then removeMetas sel fuel h 0 else some (.ret h)) = some (.ret h') ∧ h'.WF ∧ h' = { h with metas := h'.metas, metadata := h'.metadata } ∧
      (rm = false → h' = h) ∧
      (rm = true → GoodMetas h' ∧ (usedMetas h').map metaAttrs = ((usedMetas h).filter (fun m => !sel m.partRef)).map metaAttrs ∧
        (MetaSizesOk h sel → entries h' = (entries h).filter (fun e => !sel e.ref))) := by
  cases rm with
  | false => exact ⟨h, rfl, w, rfl, fun _ => rfl, fun h => by cases h⟩
  | true =>
    obtain ⟨g, r⟩ := gm rfl
    obtain ⟨h', e, g', w', hh, hk, he⟩ := removeMetas_ok sel h0 h w g r fuel hf
    exact ⟨h', by simpa using e, w', hh, (fun h => by cases h), fun _ => ⟨g', hk, he⟩⟩

theorem not_beq_ne (a b : U32) : (!(a == b)) = decide (a ≠ b) := by
  by_cases h : a = b <;> simp [h]

/-! ### C36 -/

/-- Placed, in terms of the stored sizes before each part. -/
def PlacedAt (us : List PartHdr) : Prop := ∀ pre q post, us = pre ++ q :: post → q.offset.toNat = 4096 + (pre.map storedSize).sum ∧ q.transportSize = 0

theorem placed_iff {h : Header} (t : TidyParts h) : Placed h ↔ PlacedAt (usedParts h) := by
  constructor
  · intro hp pre q post hu
    obtain ⟨h1, h2⟩ := hp q (by rw [hu]; simp)
    rw [h1]
    exact ⟨(tidy_offset h t pre post q hu).1, h2⟩
  · intro hp q hq
    obtain ⟨pre, post, hu⟩ := List.append_of_mem hq
    obtain ⟨h1, h2⟩ := hp pre q post hu
    refine ⟨?_, h2⟩
    apply BitVec.eq_of_toNat_eq
    rw [h1, (tidy_offset h t pre post q hu).1]

theorem placedAt_append (a b : List PartHdr) : PlacedAt (a ++ b) ↔ PlacedAt a ∧ ∀ pre q post, b = pre ++ q :: post → (q.offset.toNat = 4096 + (a.map storedSize).sum + (pre.map storedSize).sum ∧ q.transportSize = 0) := by
  constructor
  · intro h
    refine ⟨fun pre q post e => h pre q (post ++ b) (by rw [e]; simp), fun pre q post e => ?_⟩
    obtain ⟨h1, h2⟩ := h (a ++ pre) q post (by rw [e]; simp)
    rw [h1]
    refine ⟨?_, h2⟩
    simp only [List.map_append, List.sum_append]
    omega
  · rintro ⟨h1, h2⟩ pre q post e
    rcases List.append_eq_append_iff.1 e with ⟨c, e1, e2⟩ | ⟨c, e1, e2⟩
    · obtain ⟨h3, h4⟩ := h2 c q post e2
      rw [h3, e1]
      refine ⟨?_, h4⟩
      simp only [List.map_append, List.sum_append]
      omega
    · cases c with
      | nil =>
        rw [List.append_nil] at e1
        have := h2 [] q post (by simpa using e2.symm)
        rw [this.1, e1]
        exact ⟨by simp, this.2⟩
      | cons x c =>
        have e3 := (List.cons.inj e2).1
        subst e3
        exact h1 pre q c e1

theorem placed_delete (pre post : List PartHdr) (q : PartHdr) (sz : U64) (hsz : sz.toNat = storedSize q) (hb : 4096 + (pre.map storedSize).sum + storedSize q + (post.map storedSize).sum < 2^64)
    (h : PlacedAt (pre ++ q :: post)) : PlacedAt (pre ++ post.map (fun x => { x with offset := x.offset - sz })) := by
  rw [placedAt_append] at h ⊢
  refine ⟨h.1, ?_⟩
  intro a x b e
  obtain ⟨a', r, e1, e2, e3⟩ := List.map_eq_append_iff.1 e
  obtain ⟨x', b', e4, e5, e6⟩ := List.map_eq_cons_iff.1 e3
  obtain ⟨this, htr⟩ := h.2 (q :: a') x' b' (by rw [e1, e4]; rfl)
  rw [← e5, ← e2]
  refine ⟨?_, htr⟩
  have hs : (a'.map storedSize).sum ≤ (post.map storedSize).sum := by rw [e1]; simp
  simp only [List.map_map, List.map_cons, List.sum_cons] at this ⊢
  have e7 : (storedSize ∘ fun x : PartHdr => { x with offset := x.offset - sz }) = storedSize := rfl
  rw [e7, BitVec.toNat_sub_of_le (by rw [BitVec.le_def]; omega)]
  omega

/-- C36: deleting a part, from every package as the API leaves it: the package afterwards holds the other parts in
the same order with the same stored bytes, at the offsets reported for them, and the same attributes; the file is
shorter by the deleted part's stored size; header and payload hash are up to date in the file; metadata is
untouched unless asked for. -/
theorem C36_delete_part (H : HashFn) (hH : HashLen H) (p : Pkg) (g : GoodPkg p) (hf : p.file.length < 2^63) (q : PartHdr) (hq : q ∈ usedParts p.hdr)
    (rm : Bool) (gm : rm = true → GoodMetas p.hdr ∧ MetaRoom p.hdr (fun r => r == q.id)) (fuel : Nat) (hfuel : p.file.length / 4096 + 65 ≤ fuel) :
    ∃ p', deletePart H fuel p q.id rm = some (.ret (.ok, p')) ∧ GoodPkg p' ∧ Saved p' ∧ HashStored H p' ∧
      p'.file.length = p.file.length - storedSize q ∧
      contents p' = (contents p).filter (fun c => c.1 ≠ q.id) ∧
      (usedParts p'.hdr).map partAttrs = ((usedParts p.hdr).filter (fun x => x.id ≠ q.id)).map partAttrs ∧
      p'.hdr = { p.hdr with parts := p'.hdr.parts, payloadHash := p'.hdr.payloadHash, metas := p'.hdr.metas, metadata := p'.hdr.metadata } ∧
      (rm = false → p'.hdr.metas = p.hdr.metas ∧ p'.hdr.metadata = p.hdr.metadata) ∧
      (rm = true → GoodMetas p'.hdr ∧
        (usedMetas p'.hdr).map metaAttrs = ((usedMetas p.hdr).filter (fun m => m.partRef ≠ q.id)).map metaAttrs ∧
        (MetaSizesOk p.hdr (fun r => r == q.id) → entries p'.hdr = (entries p.hdr).filter (fun e => e.ref ≠ q.id))) ∧
      (Placed p.hdr → Placed p'.hdr) ∧
      (∃ moves, p'.log = p.log ++ (moves ++ [.write 0 p'.hdr.image, .trunc p'.file.length]) ∧
        p'.file = applyOps p.file (moves ++ [.write 0 p'.hdr.image, .trunc p'.file.length]) ∧
        p'.file <+: applyOps p.file (moves ++ [.write 0 p'.hdr.image])) := by
  obtain ⟨w, gp, ⟨n, hk⟩, plain, exact⟩ := g
  have t : TidyParts p.hdr := gp.tidy (by omega)
  obtain ⟨pre, post, hu⟩ := List.append_of_mem hq
  obtain ⟨e1, e2⟩ := getPart_used (gp.inv w) pre post q hu
  obtain ⟨e3, e4⟩ := tidy_offset p.hdr t pre post q hu
  have inv := gp.inv w
  have hqid : q.id ≠ 0 := used_ids _ q hq
  have hsum : ((usedParts p.hdr).map storedSize).sum = (pre.map storedSize).sum + storedSize q + (post.map storedSize).sum := by
    rw [hu]; simp only [List.map_append, List.map_cons, List.sum_append, List.sum_cons]; omega
  rw [hu] at inv
  have hids := inv.ids
  have hdist := inv.distinct
  have hdel := delPart_inv inv
  have hlen := inv.len
  simp only [List.length_append, List.length_cons] at hlen
  have hk32 : 32 - (pre ++ q :: post).length = 32 - (usedParts p.hdr).length := by rw [hu]
  have hul : (usedParts p.hdr).length = pre.length + (post.length + 1) := by rw [hu]; simp
  unfold deletePart
  rw [e1]
  simp only [e2, hdel]
  have hdrop : (pre ++ post ++ List.replicate (32 - (usedParts p.hdr).length + 1) PartHdr.zero).drop pre.length = post ++ List.replicate (32 - (usedParts p.hdr).length + 1) PartHdr.zero := by
    rw [List.append_assoc, List.drop_left]
  have htake : (pre ++ post ++ List.replicate (32 - (usedParts p.hdr).length + 1) PartHdr.zero).take pre.length = pre := by
    rw [List.append_assoc, List.take_left]
  rw [hk32, hdrop, htake, shiftParts_eq _ _ _ (fun x hx => hids x (by simp [hx])) (by omega)]
  simp only
  obtain ⟨h1, eh1⟩ : ∃ h1 : Header, h1 = { p.hdr with parts := pre ++ (post.map (fun x : PartHdr => { x with offset := x.offset - partSize q }) ++ List.replicate (32 - (usedParts p.hdr).length + 1) PartHdr.zero) } := ⟨_, rfl⟩
  rw [← eh1]
  have inv1 : PartInv h1 (pre ++ post.map (fun x : PartHdr => { x with offset := x.offset - partSize q })) (32 - (usedParts p.hdr).length + 1) := by
    refine ⟨by rw [eh1]; simp, by simp; omega, ?_, ?_⟩
    · intro x hx
      rcases List.mem_append.1 hx with hx | hx
      · exact hids x (by simp [hx])
      · obtain ⟨y, hy, rfl⟩ := List.mem_map.1 hx
        exact hids y (by simp [hy])
    · rw [List.pairwise_append] at hdist ⊢
      refine ⟨hdist.1, ?_, ?_⟩
      · rw [List.pairwise_map]; exact (List.pairwise_cons.1 hdist.2.1).2
      · intro a ha b hb
        obtain ⟨y, hy, rfl⟩ := List.mem_map.1 hb
        exact hdist.2.2 a ha y (List.mem_cons_of_mem _ hy)
  have w1 : h1.WF := by
    rw [eh1]
    refine withParts_wf w _ ?_
    simp; omega
  have ssz : ∀ x : PartHdr, storedSize { x with offset := x.offset - partSize q } = storedSize x := fun _ => rfl
  have hsum1 : ((pre ++ post.map (fun x : PartHdr => { x with offset := x.offset - partSize q })).map storedSize).sum = (pre.map storedSize).sum + (post.map storedSize).sum := by
    rw [List.map_append, List.sum_append, List.map_map]
    rfl
  have em1 : usedMetas h1 = usedMetas p.hdr := by rw [eh1]; rfl
  have een1 : entries h1 = entries p.hdr := by rw [eh1]; rfl
  have gm1 : rm = true → GoodMetas h1 ∧ MetaRoom h1 (fun r => r == q.id) := by
    intro h
    obtain ⟨a, b⟩ := gm h
    have em : h1.metas = p.hdr.metas := by rw [eh1]
    exact ⟨⟨by rw [em1, em]; exact a.slots, by rw [em1]; exact a.distinct, by rw [em1]; exact a.layout⟩, by unfold MetaRoom; rw [em1]; exact b⟩
  obtain ⟨h2, ec, w2, hh2, hc1, hc2⟩ := cleaned (fun r => r == q.id) (by simpa using fun h : 0 = q.id => hqid h.symm) h1 w1 rm gm1 fuel (by omega)
  rw [ec]
  simp only
  have ep2 : h2.parts = h1.parts := by rw [hh2]
  have inv2 : PartInv h2 (pre ++ post.map (fun x : PartHdr => { x with offset := x.offset - partSize q })) (32 - (usedParts p.hdr).length + 1) :=
    ⟨by rw [ep2]; exact inv1.slots, inv1.len, inv1.ids, inv1.distinct⟩
  have hu2 := inv2.used
  have gp2 := inv2.good
  have hrd : (partOffset p.hdr q + partSize q).toNat = 4096 + (pre.map storedSize).sum + storedSize q := by
    rw [BitVec.toNat_add, e3, e4, Nat.mod_eq_of_lt (by omega)]
  obtain ⟨F, ops, emv, eF, eFl, eFt⟩ := moveData_exact (post.map storedSize).sum { p with hdr := h2 } (partOffset p.hdr q + partSize q) (partOffset p.hdr q) fuel
    (by simp only; omega) (by omega) hf (by omega)
  rw [emv]
  simp only
  have hk2 : digestLen h2.hashKind = some n := by rw [hh2, eh1]; exact hk
  obtain ⟨p', f1, f2, f3, f4, f5, f6, f7, f8, f9, f10⟩ := finish_eq H hH ⟨h2, F, p.log ++ ops⟩ w2 gp2 n hk2 (by unfold Whole; rw [hu2, hsum1]; simp only at eFl ⊢; omega)
    (by simp only at eFl ⊢; omega) (partsEnd h2.parts 4096).toNat (by
      rw [inv2.slots, partsEnd_eq _ _ _ inv2.ids (by rw [hsum1]; show 4096 + _ < _; omega)]
      simp only [hu2]; rfl)
  simp only at f1 f2 f3 f10
  have hNe : (partsEnd h2.parts 4096).toNat = 4096 + (pre.map storedSize).sum + (post.map storedSize).sum := by
    rw [inv2.slots, partsEnd_eq _ _ _ inv2.ids (by rw [hsum1]; show 4096 + _ < _; omega), hsum1]
    show 4096 + _ = _; omega
  rw [f1]
  have epp : (withPayloadHash H h2 F).parts = h2.parts := rfl
  simp only [epp]
  rw [f2]
  have hup : usedParts p'.hdr = pre ++ post.map (fun x : PartHdr => { x with offset := x.offset - partSize q }) := by
    rw [f3]; exact hu2
  have hnepre : ∀ x ∈ pre, x.id ≠ q.id := fun x hx => (List.pairwise_append.1 hdist).2.2 x hx q List.mem_cons_self
  have hnepost : ∀ x ∈ post, x.id ≠ q.id := fun x hx => fun h => (List.pairwise_cons.1 (List.pairwise_append.1 hdist).2.1).1 x hx h.symm
  have hfil : (usedParts p.hdr).filter (fun x => x.id ≠ q.id) = pre ++ post := by
    rw [hu, List.filter_append, List.filter_cons, if_neg (by simp), List.filter_eq_self.2 (by simpa using hnepre), List.filter_eq_self.2 (by simpa using hnepost)]
  refine ⟨p', rfl, ⟨f4, ?_, ⟨n, by rw [f3]; exact hk2⟩, ?_, ?_⟩, f8, f9, ?_, ?_, ?_, ?_, ?_, ?_, ?_, ?_⟩
  · rw [f3]; exact ⟨gp2.slots, gp2.distinct⟩
  · intro x hx
    rw [hup] at hx
    rcases List.mem_append.1 hx with hx | hx
    · exact plain x (by rw [hu]; simp [hx])
    · obtain ⟨y, hy, rfl⟩ := List.mem_map.1 hx
      exact plain y (by rw [hu]; simp [hy])
  · rw [f7, hup, hsum1, hNe]; omega
  · rw [f7, hNe]; omega
  · rw [f10, contents_eq p t, hu2, hNe]
    have hF : F.take (4096 + (pre.map storedSize).sum + (post.map storedSize).sum) = p.file.take (4096 + (pre.map storedSize).sum) ++ p.file.drop (4096 + (pre.map storedSize).sum + storedSize q) := by
      have := eFt
      rw [e3, hrd] at this
      exact this
    rw [hF, List.drop_append_of_le_length (by simp; omega)]
    have hP : (p.file.drop 4096) = (p.file.take (4096 + (pre.map storedSize).sum)).drop 4096 ++ (fileRead p.file (4096 + (pre.map storedSize).sum) (storedSize q) ++ p.file.drop (4096 + (pre.map storedSize).sum + storedSize q)) := by
      have a : p.file = p.file.take (4096 + (pre.map storedSize).sum) ++ p.file.drop (4096 + (pre.map storedSize).sum) := (List.take_append_drop _ _).symm
      have b : p.file.drop (4096 + (pre.map storedSize).sum) = fileRead p.file (4096 + (pre.map storedSize).sum) (storedSize q) ++ p.file.drop (4096 + (pre.map storedSize).sum + storedSize q) := by
        unfold fileRead
        have := List.take_append_drop (storedSize q) (p.file.drop (4096 + (pre.map storedSize).sum))
        rw [List.drop_drop] at this
        exact this.symm
      rw [← b]
      conv => lhs; rw [a]
      rw [List.drop_append_of_le_length (by simp; omega)]
    have la : ((p.file.take (4096 + (pre.map storedSize).sum)).drop 4096).length = (pre.map storedSize).sum := by simp; omega
    have lb : (fileRead p.file (4096 + (pre.map storedSize).sum) (storedSize q)).length = storedSize q := by unfold fileRead; simp; omega
    rw [hP, hu, splitParts_append _ _ _ _ la, splitParts_append _ _ _ _ la, splitParts_map (fun x : PartHdr => { x with offset := x.offset - partSize q }) (fun _ => rfl) (fun _ => rfl)]
    rw [List.filter_append]
    have fsp : ∀ (l : List PartHdr) (b : Bytes), (∀ x ∈ l, x.id ≠ q.id) → (splitParts l b).filter (fun c => decide (c.1 ≠ q.id)) = splitParts l b := by
      intro l
      induction l with
      | nil => intro b _; rfl
      | cons x l ih =>
        intro b hx
        rw [splitParts, List.filter_cons, if_pos (by simpa using hx x List.mem_cons_self), ih _ (fun y hy => hx y (List.mem_cons_of_mem _ hy))]
    rw [fsp _ _ hnepre]
    congr 1
    rw [splitParts, List.filter_cons, if_neg (by simp), fsp _ _ hnepost, List.drop_append_of_le_length (Nat.le_of_eq lb.symm),
      List.drop_of_length_le (Nat.le_of_eq lb), List.nil_append]
  · rw [hup, hfil, List.map_append, List.map_append, List.map_map]
    rfl
  · rw [f3, hh2, eh1]; rfl
  · intro h
    rw [f3, hc1 h, eh1]; exact ⟨rfl, rfl⟩
  · intro h
    obtain ⟨a, b, c⟩ := hc2 h
    have em : usedMetas p'.hdr = usedMetas h2 := by rw [f3]; rfl
    refine ⟨⟨?_, ?_, ?_⟩, ?_, ?_⟩
    · rw [em, f3]; exact a.slots
    · rw [em]; exact a.distinct
    · rw [em]; exact a.layout
    · rw [em, b, em1]
      congr 2
      funext m
      exact not_beq_ne _ _
    · intro hs
      have : entries p'.hdr = entries h2 := by rw [f3]; rfl
      rw [this, c (by unfold MetaSizesOk; rw [em1]; exact hs), een1]
      congr 1
      funext m
      exact not_beq_ne _ _
  · intro hpl
    have t' : TidyParts p'.hdr := by
      have g' : GoodParts p'.hdr := by rw [f3]; exact ⟨gp2.slots, gp2.distinct⟩
      exact g'.tidy (by rw [hup, hsum1]; omega)
    rw [placed_iff t', hup]
    rw [placed_iff t, hu] at hpl
    refine placed_delete pre post q (partSize q) e4 (by omega) hpl
  · have il := image_length f4
    simp only at eF eFl
    have e0 : applyOps p.file (ops ++ [.write 0 p'.hdr.image]) = p'.hdr.image ++ F.drop 4096 := by
      rw [applyOps_append, ← eF]
      simp only [applyOps, List.foldl_cons, List.foldl_nil, applyOp]
      rw [fileWrite_zero, il]
    have e1 : p'.file = (p'.hdr.image ++ F.drop 4096).take p'.file.length := by
      have := f5
      simp only at this
      rw [f7, List.take_append, il, List.take_of_length_le (by omega), ← List.drop_take]
      exact this
    refine ⟨ops, ?_, ?_, ?_⟩
    · rw [f6, f7]; simp
    · have : ops ++ [FOp.write 0 p'.hdr.image, .trunc p'.file.length] = (ops ++ [FOp.write 0 p'.hdr.image]) ++ [.trunc p'.file.length] := by simp
      rw [this, applyOps_append, e0]
      simp only [applyOps, List.foldl_cons, List.foldl_nil, applyOp]
      have hz : p'.file.length - (p'.hdr.image ++ F.drop 4096).length = 0 := by
        rw [f7, hNe, List.length_append, List.length_drop, il]; omega
      rw [hz, List.replicate_zero, List.append_nil]
      exact e1
    · rw [e0, e1]
      exact List.take_prefix _ _

/-- C36: a part that is not there is reported and nothing happens. -/
theorem C36_not_found (H : HashFn) (p : Pkg) (id : U32) (h : ∀ q ∈ p.hdr.parts, q.id ≠ id) (rm : Bool) (fuel : Nat) :
    deletePart H fuel p id rm = some (.ret (.notFound, p)) := by
  unfold deletePart
  rw [(C10_get_part_not_found p.hdr id).2 h]

/-- The move loop cannot end: fewer bytes can be read than it still waits for, or the count of bytes it waits for
will be missed. -/
theorem moveData_never (fuel : Nat) : ∀ (p : Pkg) (rd wr rem : U64), wr.toNat ≤ rd.toNat → rd.toNat ≤ p.file.length → p.file.length < 2^63 →
    (p.file.length - rd.toNat < rem.toNat ∨ (rem.toNat < p.file.length - rd.toNat ∧ rem.toNat % 4096 ≠ 0)) → moveData fuel p rd wr rem = none := by
  induction fuel with
  | zero => intros; rfl
  | succ k ih =>
    intro p rd wr rem hw hr hf hc
    unfold moveData
    have hz : rem ≠ 0 := by
      intro h
      subst h
      simp at hc
    rw [if_neg hz, if_neg (by omega), if_neg (by omega)]
    obtain ⟨c, hcd⟩ : ∃ c, fileRead p.file rd.toNat 4096 = c := ⟨_, rfl⟩
    have hcl : c.length = min 4096 (p.file.length - rd.toNat) := by rw [← hcd]; unfold fileRead; simp
    rw [hcd]
    have hrl := rem.isLt
    have hrd : (rd + BitVec.ofNat 64 c.length).toNat = rd.toNat + c.length := by
      rw [BitVec.toNat_add, BitVec.toNat_ofNat]; omega
    have hwr : (wr + BitVec.ofNat 64 c.length).toNat = wr.toNat + c.length := by
      rw [BitVec.toNat_add, BitVec.toNat_ofNat]; omega
    have hrem : (rem - BitVec.ofNat 64 c.length).toNat = (2^64 - c.length + rem.toNat) % 2^64 := by
      rw [BitVec.toNat_sub, BitVec.toNat_ofNat, Nat.mod_eq_of_lt (a := c.length) (by omega)]
    have hfl : (p.write wr.toNat c).file.length = p.file.length := by
      unfold Pkg.write
      simp only
      rw [fileWrite_inner p.file wr.toNat c (by omega)]; simp; omega
    apply ih
    · omega
    · rw [hfl]; omega
    · rw [hfl]; exact hf
    · rw [hfl, hrd, hrem]; omega

/-- C36, the flaw with trailing data: in a file that is longer than its parts (signed file systems images, files
rounded up by a download), deleting any part behind which the remaining stored bytes are not a multiple of
4096 never returns; it keeps appending zero bytes to nothing. For every such package. -/
theorem C36_trailing_data_is_false (H : HashFn) (p : Pkg) (w : p.hdr.WF) (gp : GoodParts p.hdr) (hf : p.file.length < 2^63)
    (hlong : 4096 + ((usedParts p.hdr).map storedSize).sum < p.file.length)
    (pre post : List PartHdr) (q : PartHdr) (hu : usedParts p.hdr = pre ++ q :: post) (hm : (post.map storedSize).sum % 4096 ≠ 0) :
    ∀ fuel, deletePart H fuel p q.id false = none := by
  intro fuel
  have t : TidyParts p.hdr := gp.tidy (by omega)
  obtain ⟨e1, e2⟩ := getPart_used (gp.inv w) pre post q hu
  obtain ⟨e3, e4⟩ := tidy_offset p.hdr t pre post q hu
  have inv := gp.inv w
  have hk32 : 32 - (usedParts p.hdr).length = 32 - (pre ++ q :: post).length := by rw [hu]
  have hsum : ((usedParts p.hdr).map storedSize).sum = (pre.map storedSize).sum + storedSize q + (post.map storedSize).sum := by
    rw [hu]; simp only [List.map_append, List.map_cons, List.sum_append, List.sum_cons]; omega
  rw [hu] at inv
  have hdel := delPart_inv inv
  unfold deletePart
  rw [e1]
  simp only [e2, hdel]
  have hdrop : (pre ++ post ++ List.replicate (32 - (pre ++ q :: post).length + 1) PartHdr.zero).drop pre.length = post ++ List.replicate (32 - (pre ++ q :: post).length + 1) PartHdr.zero := by
    rw [List.append_assoc, List.drop_left]
  rw [hdrop, shiftParts_eq _ _ _ (fun x hx => inv.ids x (by simp [hx])) (by omega)]
  simp only [Bool.false_eq_true, if_false]
  have hrd : (partOffset p.hdr q + partSize q).toNat = 4096 + (pre.map storedSize).sum + storedSize q := by
    rw [BitVec.toNat_add, e3, e4, Nat.mod_eq_of_lt (by omega)]
  have hrm : (BitVec.ofNat 64 (post.map storedSize).sum).toNat = (post.map storedSize).sum := by
    rw [BitVec.toNat_ofNat, Nat.mod_eq_of_lt (by omega)]
  rw [moveData_never fuel _ _ _ _ (by omega) (by simp only; omega) (by exact hf) (Or.inr ⟨by rw [hrm, hrd]; simp only; omega, by rw [hrm]; exact hm⟩)]

/-- With no unused slot left `bpak_del_meta` runs out of the table (see C09). -/
theorem delMeta_full (h : Header) (i : Nat) (hi : ∀ m ∈ h.metas, m.id ≠ 0) : delMeta h i = .ub := by
  unfold delMeta
  split
  · rfl
  · simp only
    rw [delMetaGo_full _ (fun m hm => hi m (List.mem_of_mem_drop hm))]

theorem removeMetas_full (sel : U32 → Bool) (h : Header) (hi : ∀ m ∈ h.metas, m.id ≠ 0) : ∀ (r fuel i : Nat), h.metas.length - i = r →
    r + 1 ≤ fuel → (∃ m ∈ h.metas.drop i, sel m.partRef = true) → removeMetas sel fuel h i = some .ub := by
  intro r
  induction r with
  | zero =>
    intro fuel i hr hf hx
    obtain ⟨m, hm, _⟩ := hx
    rw [List.drop_of_length_le (by omega)] at hm
    simp at hm
  | succ r ih =>
    intro fuel i hr hf hx
    obtain ⟨f, rfl⟩ : ∃ f, fuel = f + 1 := ⟨fuel - 1, by omega⟩
    unfold removeMetas
    have hlt : i < h.metas.length := by omega
    rw [List.getElem?_eq_getElem hlt]
    simp only
    split
    · rw [delMeta_full h i hi]
    · rename_i hs
      apply ih f (i+1) (by omega) (by omega)
      obtain ⟨m, hm, hsm⟩ := hx
      rw [List.drop_eq_getElem_cons hlt] at hm
      rcases List.mem_cons.1 hm with rfl | hm
      · exact absurd hsm hs
      · exact ⟨m, hm, hsm⟩

/-- C36, the flaw with full metadata tables: if all 32 slots are used and one of them belongs to the part, deleting
the part with its metadata clears memory outside the table (the first part's header, see C09). -/
theorem C36_full_table_is_false (H : HashFn) (p : Pkg) (g : GoodPkg p) (hf : p.file.length < 2^63) (q : PartHdr) (hq : q ∈ usedParts p.hdr)
    (hfull : ∀ m ∈ p.hdr.metas, m.id ≠ 0) (hm : ∃ m ∈ p.hdr.metas, m.partRef = q.id) (fuel : Nat) (hfuel : 33 ≤ fuel) :
    deletePart H fuel p q.id true = some .ub := by
  obtain ⟨pre, post, hu⟩ := List.append_of_mem hq
  obtain ⟨e1, e2⟩ := getPart_used (g.parts.inv g.wf) pre post q hu
  have inv := g.parts.inv g.wf
  rw [hu] at inv
  have hdel := delPart_inv inv
  unfold deletePart
  rw [e1]
  simp only [e2, hdel, if_true]
  have hml : p.hdr.metas.length = 32 := g.wf.2.1
  rw [removeMetas_full _ _ (by exact hfull) 32 fuel 0 (by simp only; omega) hfuel (by
    obtain ⟨m, h1, h2⟩ := hm
    exact ⟨m, by simpa using h1, by simp [h2]⟩)]

theorem removeMetas_zero_never (fuel : Nat) : ∀ (post pre : List MetaHdr) (h : Header) (k : Nat), MetaInv h (pre ++ post) (k+2) →
    removeMetas (fun r => r == 0) fuel h pre.length = none := by
  induction fuel with
  | zero => intros; rfl
  | succ f ih =>
    intro post pre h k inv
    unfold removeMetas
    cases post with
    | nil =>
      rw [List.append_nil] at inv
      have hget : h.metas[pre.length]? = some MetaHdr.zero := by rw [inv.slots, List.replicate_succ]; simp
      rw [hget]
      simp only
      rw [if_pos (by decide)]
      have hd : delMeta h pre.length = .ret h := by
        unfold delMeta
        rw [hget]
        simp only
        have e1 : h.metas.drop (pre.length + 1) = MetaHdr.zero :: List.replicate k MetaHdr.zero := by
          rw [inv.slots, List.replicate_succ, List.replicate_succ]; simp
        have e2 : h.metas.take pre.length = pre := by rw [inv.slots, List.take_left]
        rw [e1, e2]
        simp only [delMetaGo, delMetaMove]
        rw [if_neg (by simp [MetaHdr.zero])]
        simp only
        rw [if_pos (show MetaHdr.zero.id = 0 from rfl)]
        simp only
        have : pre ++ MetaHdr.zero :: MetaHdr.zero :: List.replicate k MetaHdr.zero = h.metas := by
          rw [inv.slots, List.replicate_succ, List.replicate_succ]
        rw [this]
      rw [hd]
      exact ih [] pre h k (by simpa using inv)
    | cons m post =>
      have hget : h.metas[pre.length]? = some m := by rw [inv.slots]; simp
      rw [hget]
      simp only
      split
      · obtain ⟨h1, e1, inv1, _⟩ := delMeta_inv inv
        rw [e1]
        exact ih _ pre h1 (k+1) inv1
      · have := ih post (pre ++ [m]) h k (by simpa using inv)
        simpa using this

/-- C36, the flaw with part id 0: asked to delete part 0 (which is no part: the id of unused slots) with its metadata,
`bpak_pkg_delete_part` takes an unused slot for the part and never returns. For every package with an unused part
slot and two unused metadata slots. -/
theorem C36_id_zero_is_false (H : HashFn) (p : Pkg) (g : GoodPkg p) (gm : GoodMetas p.hdr) (hp : (usedParts p.hdr).length < 32) (hm : (usedMetas p.hdr).length ≤ 30) :
    ∀ fuel, deletePart H fuel p 0 true = none := by
  intro fuel
  have inv := g.parts.inv g.wf
  have hex : ∃ x ∈ p.hdr.parts, x.id = 0 := by
    refine ⟨PartHdr.zero, ?_, rfl⟩
    rw [g.parts.slots]
    exact List.mem_append_right _ (List.mem_replicate.2 ⟨by omega, rfl⟩)
  obtain ⟨i, hi⟩ : ∃ i, getPart p.hdr 0 = some i := by
    cases hx : getPart p.hdr 0 with
    | some i => exact ⟨i, rfl⟩
    | none =>
      obtain ⟨x, hx1, hx2⟩ := hex
      exact absurd hx2 ((C10_get_part_not_found p.hdr 0).1 hx x hx1)
  obtain ⟨⟨q, hq, _⟩, _⟩ := (C10_get_part_is_first_match p.hdr 0 i).1 hi
  unfold deletePart
  rw [hi]
  simp only [hq]
  have hlt : i < p.hdr.parts.length := (List.getElem?_eq_some_iff.1 hq).1
  unfold delPart
  rw [if_pos hlt]
  simp only [if_true]
  have minv := gm.inv g.wf
  obtain ⟨k, hk⟩ : ∃ k, 32 - (usedMetas p.hdr).length = k + 2 := ⟨30 - (usedMetas p.hdr).length, by omega⟩
  rw [hk] at minv
  have := fun ps => removeMetas_zero_never fuel (usedMetas p.hdr) [] { p.hdr with parts := ps } k ⟨minv.slots, minv.len, minv.packed, minv.distinct, minv.md⟩
  simp only [List.length_nil] at this
  rw [this]

/-! ### C47 -/

/-- C47: deleting all parts empties the package: no parts, a file of just the header, up to date; of the metadata, if
asked for, exactly the entries that refer to no part remain. -/
theorem C47_delete_all (H : HashFn) (hH : HashLen H) (p : Pkg) (w : p.hdr.WF) (hk : ∃ n, digestLen p.hdr.hashKind = some n) (hf : p.file.length < 2^63) (hl : 4096 ≤ p.file.length)
    (rm : Bool) (gm : rm = true → GoodMetas p.hdr ∧ MetaRoom p.hdr (fun r => r != 0)) (fuel : Nat) (hfuel : 65 ≤ fuel) :
    ∃ p', deleteAllParts H fuel p rm = some (.ret (.ok, p')) ∧ GoodPkg p' ∧ Saved p' ∧ HashStored H p' ∧ usedParts p'.hdr = [] ∧ contents p' = [] ∧
      p'.file = p'.hdr.image ∧
      p'.hdr = { p.hdr with parts := p'.hdr.parts, payloadHash := p'.hdr.payloadHash, metas := p'.hdr.metas, metadata := p'.hdr.metadata } ∧
      (rm = false → p'.hdr.metas = p.hdr.metas ∧ p'.hdr.metadata = p.hdr.metadata) ∧
      (rm = true → GoodMetas p'.hdr ∧
        (usedMetas p'.hdr).map metaAttrs = ((usedMetas p.hdr).filter (fun m => m.partRef = 0)).map metaAttrs ∧
        (MetaSizesOk p.hdr (fun r => r != 0) → entries p'.hdr = (entries p.hdr).filter (fun e => e.ref = 0))) := by
  obtain ⟨n, hk⟩ := hk
  unfold deleteAllParts
  simp only
  obtain ⟨h1, eh1⟩ : ∃ h1 : Header, h1 = { p.hdr with parts := List.replicate 32 PartHdr.zero } := ⟨_, rfl⟩
  rw [← eh1]
  have w1 : h1.WF := by rw [eh1]; exact withParts_wf w _ (by simp)
  have em1 : usedMetas h1 = usedMetas p.hdr := by rw [eh1]; rfl
  have een1 : entries h1 = entries p.hdr := by rw [eh1]; rfl
  have gm1 : rm = true → GoodMetas h1 ∧ MetaRoom h1 (fun r => r != 0) := by
    intro h
    obtain ⟨a, b⟩ := gm h
    have em : h1.metas = p.hdr.metas := by rw [eh1]
    exact ⟨⟨by rw [em1, em]; exact a.slots, by rw [em1]; exact a.distinct, by rw [em1]; exact a.layout⟩, by unfold MetaRoom; rw [em1]; exact b⟩
  obtain ⟨h2, ec, w2, hh2, hc1, hc2⟩ := cleaned (fun r => r != 0) rfl h1 w1 rm gm1 fuel hfuel
  rw [ec]
  simp only
  have ep2 : h2.parts = List.replicate 32 PartHdr.zero := by rw [hh2, eh1]
  have inv2 : PartInv h2 [] 32 := ⟨by rw [ep2]; rfl, rfl, by simp, List.Pairwise.nil⟩
  have hu2 := inv2.used
  have hk2 : digestLen h2.hashKind = some n := by rw [hh2, eh1]; exact hk
  obtain ⟨p', f1, f2, f3, f4, f5, f6, f7, f8, f9, f10⟩ := finish_eq H hH ⟨h2, p.file, p.log⟩ w2 inv2.good n hk2 (by unfold Whole; rw [hu2]; simpa using hl)
    hf 4096 (by simp only [hu2]; rfl)
  simp only at f1 f2 f3 f5
  rw [f1]
  simp only [f2]
  have hup : usedParts p'.hdr = [] := by rw [f3]; exact hu2
  have f5' : p'.file = p'.hdr.image := by
    have e : (p.file.take 4096).drop 4096 = [] := List.drop_of_length_le (by simp; omega)
    rw [f5, e, List.append_nil]
  refine ⟨p', rfl, ⟨f4, ?_, ⟨n, by rw [f3]; exact hk2⟩, by rw [hup]; simp, by rw [f7, hup]; rfl⟩, f8, f9, hup, ?_, f5', ?_, ?_, ?_⟩
  · rw [f3]; exact ⟨inv2.good.slots, inv2.good.distinct⟩
  · unfold contents; rw [hup]; rfl
  · rw [f3, hh2, eh1]; rfl
  · intro h
    rw [f3, hc1 h, eh1]; exact ⟨rfl, rfl⟩
  · intro h
    obtain ⟨a, b, c⟩ := hc2 h
    have em : usedMetas p'.hdr = usedMetas h2 := by rw [f3]; rfl
    have hb : ∀ x : U32, (!(x != 0)) = decide (x = 0) := by
      intro x; show (!(!(x == 0))) = _; rw [Bool.not_not]; rfl
    refine ⟨⟨?_, ?_, ?_⟩, ?_, ?_⟩
    · rw [em, f3]; exact a.slots
    · rw [em]; exact a.distinct
    · rw [em]; exact a.layout
    · rw [em, b, em1]
      congr 2
      funext m
      exact hb _
    · intro hs
      have : entries p'.hdr = entries h2 := by rw [f3]; rfl
      rw [this, c (by unfold MetaSizesOk; rw [em1]; exact hs), een1]
      congr 1
      funext m
      exact hb _

/-- C47, the flaw: with a full metadata table of which one entry refers to a part it clears memory outside. -/
theorem C47_full_table_is_false (H : HashFn) (p : Pkg) (w : p.hdr.WF) (hfull : ∀ m ∈ p.hdr.metas, m.id ≠ 0) (hm : ∃ m ∈ p.hdr.metas, m.partRef ≠ 0)
    (fuel : Nat) (hfuel : 33 ≤ fuel) : deleteAllParts H fuel p true = some .ub := by
  unfold deleteAllParts
  simp only [if_true]
  have hml : p.hdr.metas.length = 32 := w.2.1
  rw [removeMetas_full _ _ (by exact hfull) 32 fuel 0 (by simp only; omega) hfuel (by
    obtain ⟨m, h1, h2⟩ := hm
    exact ⟨m, by simpa using h1, by simpa using h2⟩)]

end Bpak
