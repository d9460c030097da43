import Verif.Spec.Python
import Verif.Props.Session
/-! Lemmas about the Python bindings. -/
namespace Bpak

/-- Writing another header: same parts, payload hash and kinds. -/
theorem PkgInv.write {H : HashFn} {p : Pkg} {s : List (U32 × Bytes)} (i : PkgInv H p s) (h : Header) (wf : h.WF) (gm : GoodMetas h)
    (e1 : h.parts = p.hdr.parts) (e2 : h.payloadHash = p.hdr.payloadHash) (e3 : h.hashKind = p.hdr.hashKind) (e4 : h.magic = p.hdr.magic) :
    PkgInv H (writeHeader { p with hdr := h }) s := by
  obtain ⟨p', a, b, c⟩ := i.newHdr h wf gm e1 e2 e3 e4
  obtain ⟨h', f', l'⟩ := p'
  simp only at a b
  subst a; subst b
  exact c.logged _

/-- A part under another id. -/
def renamePart (a x : U32) (q : PartHdr) : PartHdr := if q.id = a then { q with id := x } else q

theorem renamePart_facts (a x : U32) (q : PartHdr) : storedSize (renamePart a x q) = storedSize q ∧ (renamePart a x q).size = q.size ∧ (renamePart a x q).flags = q.flags ∧
    (renamePart a x q).padBytes = q.padBytes ∧ (renamePart a x q).excluded = q.excluded ∧ (renamePart a x q).id = if q.id = a then x else q.id := by
  unfold renamePart
  split <;> exact ⟨rfl, rfl, rfl, rfl, rfl, rfl⟩

theorem renamePart_map {pre post : List PartHdr} {q : PartHdr} (hd : (pre ++ q :: post).Pairwise (fun a b => a.id ≠ b.id)) (x : U32) :
    (pre ++ q :: post).map (renamePart q.id x) = pre ++ { q with id := x } :: post := by
  rw [List.pairwise_append] at hd
  obtain ⟨-, h2, h3⟩ := hd
  rw [List.pairwise_cons] at h2
  rw [List.map_append, List.map_cons]
  have e1 : pre.map (renamePart q.id x) = pre := by
    conv => rhs; rw [← List.map_id pre]
    apply List.map_congr_left
    intro r hr
    unfold renamePart
    rw [if_neg (h3 r hr q (by simp))]; rfl
  have e2 : post.map (renamePart q.id x) = post := by
    conv => rhs; rw [← List.map_id post]
    apply List.map_congr_left
    intro r hr
    unfold renamePart
    rw [if_neg (fun h => h2.1 r hr h.symm)]; rfl
  rw [e1, e2]
  unfold renamePart
  rw [if_pos rfl]

/-- The header with a part renamed. -/
def renameHdr (h : Header) (j : Nat) (q : PartHdr) (x : U32) : Header := { h with parts := h.parts.set j { q with id := x } }

theorem renameHdr_parts {h : Header} {pre post : List PartHdr} {q : PartHdr} {k : Nat} (pi : PartInv h (pre ++ q :: post) k) (x : U32) (hx : x ≠ 0)
    (hn : ∀ r ∈ pre ++ q :: post, r.id = x → x = q.id) : PartInv (renameHdr h pre.length q x) ((pre ++ q :: post).map (renamePart q.id x)) k := by
  obtain ⟨h1, h2, h3, h4⟩ := pi
  refine ⟨?_, by simpa using h2, ?_, ?_⟩
  · rw [renamePart_map h4]
    unfold renameHdr
    simp only
    rw [h1]
    simp
  · intro r hr
    obtain ⟨r', hr', rfl⟩ := List.mem_map.1 hr
    rw [(renamePart_facts _ _ _).2.2.2.2.2]
    split
    · exact hx
    · exact h3 _ hr'
  · rw [List.pairwise_map]
    refine List.Pairwise.imp_of_mem (fun {a b} ha hb hab => ?_) h4
    rw [(renamePart_facts _ _ _).2.2.2.2.2, (renamePart_facts _ _ _).2.2.2.2.2]
    by_cases e1 : a.id = q.id
    · rw [if_pos e1]
      by_cases e2 : b.id = q.id
      · exact absurd (e1.trans e2.symm) hab
      · rw [if_neg e2]
        intro h
        exact e2 (h.symm.trans (hn b hb h.symm))
    · rw [if_neg e1]
      by_cases e2 : b.id = q.id
      · rw [if_pos e2]
        intro h
        exact e1 (h.trans (hn a ha h))
      · rw [if_neg e2]; exact hab

/-- Renaming a part: the files stay what they are, the one is listed under its new id. -/
theorem PkgInv.rename {H : HashFn} {p : Pkg} {s : List (U32 × Bytes)} (i : PkgInv H p s) {pre post : List PartHdr} {q : PartHdr}
    (hu : usedParts p.hdr = pre ++ q :: post) (x : U32) (hx : x ≠ 0) (hn : ∀ r ∈ usedParts p.hdr, r.id = x → x = q.id) :
    PkgInv H (writeHeader { p with hdr := renameHdr p.hdr pre.length q x }) (s.map (fun c => if c.1 = q.id then (x, c.2) else c)) ∧
    usedParts (renameHdr p.hdr pre.length q x) = (usedParts p.hdr).map (renamePart q.id x) := by
  have g := i.good
  have w := g.wf
  have pi := g.parts.inv w
  rw [hu] at pi
  have pi' := renameHdr_parts pi x hx (by rw [← hu]; exact hn)
  have hu' : usedParts (renameHdr p.hdr pre.length q x) = (usedParts p.hdr).map (renamePart q.id x) := by rw [pi'.used, hu]
  have w' : (renameHdr p.hdr pre.length q x).WF := by
    obtain ⟨w1, w2, w3, w4⟩ := w
    exact ⟨w1, w2, by unfold renameHdr; simpa using w3, w4⟩
  have hsm := i.small
  have hex := g.exact
  have hsum : ((usedParts (renameHdr p.hdr pre.length q x)).map storedSize).sum = ((usedParts p.hdr).map storedSize).sum := by
    rw [hu', List.map_map]
    congr 1
    apply List.map_congr_left
    intro r _
    exact (renamePart_facts _ _ _).1
  have t : TidyParts p.hdr := g.parts.tidy (by omega)
  obtain ⟨p', hp'⟩ : ∃ p', writeHeader { p with hdr := renameHdr p.hdr pre.length q x } = p' := ⟨_, rfl⟩
  rw [hp']
  rw [writeHeader_eq _ w'] at hp'
  have eh : p'.hdr = renameHdr p.hdr pre.length q x := by rw [← hp']
  have ef : p'.file = (renameHdr p.hdr pre.length q x).image ++ p.file.drop 4096 := by rw [← hp']
  have il := image_length w'
  have hlen : p'.file.length = p.file.length := by rw [ef]; simp [il]; omega
  have gp' : GoodParts p'.hdr := by
    rw [eh]
    refine ⟨?_, by rw [pi'.used]; exact pi'.distinct⟩
    have := pi'.slots
    have hl := pi'.len
    rw [pi'.used, this]
    congr 2; omega
  have g' : GoodPkg p' := by
    refine ⟨by rw [eh]; exact w', gp', by rw [eh]; exact g.kind, ?_, ?_⟩
    · rw [eh, hu']
      intro r hr
      obtain ⟨r', hr', rfl⟩ := List.mem_map.1 hr
      rw [(renamePart_facts _ _ _).2.2.1]
      exact g.plain r' hr'
    · rw [hlen, eh, hsum]; exact hex
  have t' : TidyParts p'.hdr := gp'.tidy (by rw [eh, hsum]; omega)
  have hst : ∀ r ∈ usedParts p.hdr, storedBytes p' (renamePart q.id x r) = storedBytes p r := by
    intro r hr
    obtain ⟨a, b, hab⟩ := List.append_of_mem hr
    have o1 := (tidy_offset _ t a b r hab).1
    have o2 := (tidy_offset _ t' (a.map (renamePart q.id x)) (b.map (renamePart q.id x)) (renamePart q.id x r) (by rw [eh, hu', hab]; simp)).1
    have es : (a.map (renamePart q.id x)).map storedSize = a.map storedSize := by
      rw [List.map_map]
      apply List.map_congr_left
      intro r _
      exact (renamePart_facts _ _ _).1
    rw [es] at o2
    unfold storedBytes
    rw [o1, o2, (renamePart_facts _ _ _).1]
    refine fileRead_drop _ _ ?_ _ _ (by omega)
    rw [ef, List.drop_append_of_le_length (by omega), List.drop_of_length_le (by omega), List.nil_append]
  refine ⟨⟨?_, g', by omega, ?_, ?_, ?_, ?_, ?_⟩, hu'⟩
  · exact inv_of_hdr i.hdr (goodMetas_same i.metas (by rw [eh]; rfl)) g' (by rw [eh]; exact ⟨rfl, rfl⟩)
  · have := parse_saved _ w' (p.file.drop 4096) p'.log
    rw [← ef, ← eh] at this
    exact this
  · have := i.hash
    unfold HashStored at this ⊢
    rw [eh, hu', List.filter_map]
    have e1 : (fun q => !PartHdr.excluded q) ∘ renamePart q.id x = fun q => !PartHdr.excluded q := by
      funext r
      simp only [Function.comp]
      rw [(renamePart_facts _ _ _).2.2.2.2.1]
    rw [e1, List.flatMap_map]
    have e2 : ((usedParts p.hdr).filter (fun q => !q.excluded)).flatMap (fun a => storedBytes p' (renamePart q.id x a)) =
        ((usedParts p.hdr).filter (fun q => !q.excluded)).flatMap (storedBytes p) := by
      rw [List.flatMap_def, List.flatMap_def]
      congr 1
      apply List.map_congr_left
      intro r hr
      exact hst r (List.mem_filter.1 hr).1
    rw [e2]
    exact this
  · rw [eh, hu']
    intro r hr
    obtain ⟨r', hr', rfl⟩ := List.mem_map.1 hr
    rw [(renamePart_facts _ _ _).2.1, (renamePart_facts _ _ _).2.2.2.1]
    exact i.padded r' hr'
  · rw [← i.files]
    unfold Bpak.files
    rw [eh, hu', List.map_map, List.map_map]
    apply List.map_congr_left
    intro r hr
    simp only [Function.comp]
    rw [hst r hr, (renamePart_facts _ _ _).2.1, (renamePart_facts _ _ _).2.2.2.2.2]
    split <;> rfl
  · intro r hr
    rw [eh, hu'] at hr
    obtain ⟨r', hr', rfl⟩ := List.mem_map.1 hr
    obtain ⟨a, b, hab⟩ := List.append_of_mem hr'
    have o1 := (tidy_offset _ t a b r' hab).1
    have o2 := (tidy_offset _ t' (a.map (renamePart q.id x)) (b.map (renamePart q.id x)) (renamePart q.id x r') (by rw [eh, hu', hab]; simp)).1
    have es : (a.map (renamePart q.id x)).map storedSize = a.map storedSize := by
      rw [List.map_map]
      apply List.map_congr_left
      intro r _
      exact (renamePart_facts _ _ _).1
    rw [es] at o2
    have eo : (renamePart q.id x r').offset = r'.offset := by unfold renamePart; split <;> rfl
    have et : (renamePart q.id x r').transportSize = r'.transportSize := by unfold renamePart; split <;> rfl
    obtain ⟨this, htr⟩ := i.placed r' hr'
    refine ⟨?_, by rw [et, htr]⟩
    rw [eo, this]
    apply BitVec.eq_of_toNat_eq
    rw [o1, o2]

/-- Another id and part reference for one entry. -/
def rekeyHdr (h : Header) (j : Nat) (m : MetaHdr) (x r : U32) : Header := { h with metas := h.metas.set j { m with id := x, partRef := r } }

theorem packed_rekey (pre : List MetaHdr) : ∀ (off : Nat) (m : MetaHdr) (post : List MetaHdr) (x r : U32), x ≠ 0 → Packed off (pre ++ m :: post) →
    Packed off (pre ++ { m with id := x, partRef := r } :: post) := by
  induction pre with
  | nil => intro off m post x r hx h; exact ⟨hx, h.2⟩
  | cons a pre ih => intro off m post x r hx h; exact ⟨h.1, h.2.1, h.2.2.1, ih _ m post x r hx h.2.2.2⟩

theorem rekey_inv {h : Header} {pre post : List MetaHdr} {m : MetaHdr} {k : Nat} (im : MetaInv h (pre ++ m :: post) k) (x r : U32) (hx : x ≠ 0)
    (hn : ∀ e ∈ pre ++ m :: post, e.id = x → e.partRef = r → x = m.id ∧ r = m.partRef) :
    MetaInv (rekeyHdr h pre.length m x r) (pre ++ { m with id := x, partRef := r } :: post) k := by
  obtain ⟨h1, h2, h3, h4, h5⟩ := im
  refine ⟨?_, by simpa using h2, packed_rekey pre 0 m post x r hx h3, ?_, h5⟩
  · unfold rekeyHdr
    simp only
    rw [h1]
    simp
  · rw [List.pairwise_append] at h4 ⊢
    obtain ⟨a1, a2, a3⟩ := h4
    rw [List.pairwise_cons] at a2 ⊢
    refine ⟨a1, ⟨?_, a2.2⟩, ?_⟩
    · rintro e he ⟨s1, s2⟩
      obtain ⟨q1, q2⟩ := hn e (by simp [he]) s1.symm s2.symm
      exact a2.1 e he ⟨q1.symm.trans s1, q2.symm.trans s2⟩
    · intro e he f hf hs
      rcases List.mem_cons.1 hf with rfl | hf
      · obtain ⟨q1, q2⟩ := hn e (by simp [he]) hs.1 hs.2
        exact a3 e he m (by simp) ⟨hs.1.trans q1, hs.2.trans q2⟩
      · exact a3 e he f (by simp [hf]) hs

theorem rekey_wf {h : Header} (w : h.WF) {j : Nat} {m : MetaHdr} (hm : h.metas[j]? = some m) (x r : U32) : (rekeyHdr h j m x r).WF := by
  obtain ⟨w1, w2, w3, w4, w5, w6, w7, w8⟩ := w
  refine ⟨w1, by unfold rekeyHdr; simpa using w2, w3, w4, w5, w6, w7, ?_⟩
  intro e he
  rcases List.mem_or_eq_of_mem_set he with h | h
  · exact w8 e h
  · rw [h]; exact w8 m (List.mem_of_getElem? hm)

/-- Another key for an entry. -/
theorem PkgInv.rekey {H : HashFn} {p : Pkg} {s : List (U32 × Bytes)} (i : PkgInv H p s) {pre post : List MetaHdr} {m : MetaHdr} {k : Nat}
    (im : MetaInv p.hdr (pre ++ m :: post) k) (x r : U32) (hx : x ≠ 0) (hn : ∀ e ∈ pre ++ m :: post, e.id = x → e.partRef = r → x = m.id ∧ r = m.partRef) :
    PkgInv H (writeHeader { p with hdr := rekeyHdr p.hdr pre.length m x r }) s :=
  i.write _ (rekey_wf i.good.wf (by rw [im.slots]; simp) x r) (rekey_inv im x r hx hn).good rfl rfl rfl rfl

end Bpak
