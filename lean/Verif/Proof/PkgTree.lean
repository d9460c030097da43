import Verif.Props.PkgHistory
import Verif.Props.Meta
namespace Bpak

/-! ### adding a hash to the metadata -/

theorem readAt_write_same {md md' v : Bytes} {o : Nat} (h : writeAt md o v = some md') : readAt md' o v.length = some v := by
  obtain ⟨h1, h2, h3⟩ := writeAt_some h
  rw [readAt_eq_some (by omega)]
  congr 1
  apply List.ext_getElem?
  intro j
  by_cases hj : j < v.length
  · rw [List.getElem?_take, if_pos hj, List.getElem?_drop, h3, if_pos (by omega)]
    congr 1; omega
  · rw [List.getElem?_take, if_neg hj, List.getElem?_eq_none (by omega)]

theorem readAt_write_other {md md' v : Bytes} {o a n : Nat} (h : writeAt md o v = some md') (hd : a + n ≤ o) : readAt md' a n = readAt md a n := by
  obtain ⟨h1, h2, h3⟩ := writeAt_some h
  rw [readAt_eq_some (by omega), readAt_eq_some (by omega)]
  congr 1
  apply window_eq (by omega) (by omega)
  intro j hj
  rw [h3, if_neg (by omega)]

/-- What `addHashMeta` does when there is room. -/
theorem addHashMeta_ok {h : Header} (w : h.WF) (g : GoodMetas h) (id ref : U32) (hid : id ≠ 0) (v : Bytes) (hv : v.length = 32)
    (hne : ∀ m ∈ usedMetas h, ¬ (m.id = id ∧ m.partRef = ref)) (hroom : (usedMetas h).length < 32) (hfit : bytesUsed h + 32 ≤ 1920) :
    ∃ h' m, addHashMeta h id ref v = .ret (.ok, h') ∧ h' = { h with metas := h'.metas, metadata := h'.metadata } ∧ h'.WF ∧ GoodMetas h' ∧
      usedMetas h' = usedMetas h ++ [m] ∧ m.id = id ∧ m.partRef = ref ∧ m.size = 32 ∧
      entries h' = entries h ++ [⟨id, ref, v⟩] ∧ bytesUsed h' = bytesUsed h + 32 ∧
      readAt h'.metadata m.offset.toNat 32 = some v ∧
      (∀ x ∈ usedMetas h, ∀ n, n ≤ x.size.toNat → readAt h'.metadata x.offset.toNat n = readAt h.metadata x.offset.toNat n) := by
  have im := g.inv w
  have hend : endOff 0 (usedMetas h) = bytesUsed h := (bytesUsed_eq im).symm
  obtain ⟨m, e1, e2, e3, e4, e5, e6, i2⟩ := addMeta_ok_inv im (id := id) (ref := ref) (size := 32) hid
    (fun ⟨x, hx, hc⟩ => hne x hx hc) (by omega) (by rw [hend]; exact hfit)
  have hml : h.metadata.length = 1920 := w.2.2.2.1
  obtain ⟨md, hmd⟩ : ∃ md, writeAt h.metadata m.offset.toNat v = some md := ⟨_, writeAt_eq_some (by rw [e4, hend]; omega)⟩
  have hlen := (writeAt_some hmd).2.1
  have i3 := writeMeta_inv i2 (md := md) (by rw [hlen, hml])
  simp only at i3
  have hu := i3.used
  have hb : bytesUsed { h with metas := usedMetas h ++ m :: List.replicate (32 - (usedMetas h).length - 1) MetaHdr.zero, metadata := md } = bytesUsed h + 32 := by
    unfold bytesUsed
    rw [hu, List.map_append, List.sum_append, List.map_cons, List.map_nil, List.sum_cons, List.sum_nil, e3]
    rfl
  have hold : ∀ x ∈ usedMetas h, ∀ n, n ≤ x.size.toNat → readAt md x.offset.toNat n = readAt h.metadata x.offset.toNat n := by
    intro x hx n hn
    refine readAt_write_other hmd ?_
    have := im.packed.lt_end.2 x hx
    rw [e4]
    have := im.packed.lt_end.2 x hx
    omega
  have hsame := readAt_write_same hmd
  rw [hv] at hsame
  refine ⟨{ h with metas := usedMetas h ++ m :: List.replicate (32 - (usedMetas h).length - 1) MetaHdr.zero, metadata := md }, m, ?_, rfl, ?_, i3.good, hu, e1, e2, e3, ?_, hb, hsame, hold⟩
  · unfold addHashMeta
    rw [e6]
    simp only
    rw [List.getElem?_append_right (Nat.le_refl _), Nat.sub_self]
    simp only [List.getElem?_cons_zero]
    rw [hmd]
  · obtain ⟨w1, w2, w3, w4, w5, w6, w7, w8⟩ := w
    refine ⟨w1, ?_, w3, by rw [hlen]; exact w4, w5, w6, w7, ?_⟩
    · simp only [List.length_append, List.length_cons, List.length_replicate]; omega
    · intro x hx
      rcases List.mem_append.1 hx with hx | hx
      · exact w8 x (by rw [g.slots]; exact List.mem_append_left _ hx)
      · rcases List.mem_cons.1 hx with rfl | hx
        · rw [e5]; rfl
        · rw [(List.mem_replicate.1 hx).2]; rfl
  · unfold entries
    rw [hu, List.map_append, List.map_cons, List.map_nil, e1, e2]
    congr 1
    · apply List.map_congr_left
      intro x hx
      have h1 := hold x hx x.size.toNat (Nat.le_refl _)
      have h2 := (im.packed.ge x hx).2
      rw [readAt_eq_some (by omega), readAt_eq_some (by omega)] at h1
      unfold metaContent
      rw [Option.some.inj h1]
    · rw [readAt_eq_some (by rw [e4, hend, hlen]; omega)] at hsame
      have : m.size.toNat = 32 := by rw [e3]; rfl
      unfold metaContent
      rw [this, Option.some.inj hsame]

/-! ### the tree in memory -/

theorem readChunks_join (n : Nat) : ∀ d : Bytes, d.length = n → (readChunks d).flatten = d := by
  induction n using Nat.strongRecOn with
  | ind n ih =>
    intro d hd
    rw [readChunks]
    by_cases h : d = []
    · rw [dif_pos h, h]; rfl
    · rw [dif_neg h, List.flatten_cons]
      have := List.length_pos_iff.2 h
      rw [ih (d.drop 4096).length (by simp; omega) _ rfl, List.take_append_drop]

theorem merkleBuffer_ok (H : HashFn) (hH : HashLen H) (salt d : Bytes) (hsalt : salt.length ≤ 32) (hs : TreeSupported d.length) :
    merkleComputeSize d.length = .ok (hashTree H salt d).length ∧
    merkleBuffer H (hashTree H salt d).length salt d = .ret (.ok (treeRoot H salt d, hashTree H salt d)) := by
  refine ⟨C29_tree_size H hH salt d hs, ?_⟩
  have hb := merkleBuild_spec H hH (List.replicate (hashTree H salt d).length 0) 0 salt d (readChunks d) (readChunks_join _ d rfl) hsalt hs
  rw [fileWrite_zero, List.drop_replicate, Nat.sub_self, List.replicate_zero, List.append_nil] at hb
  unfold merkleBuild at hb
  unfold merkleBuffer
  split at hb
  · cases hb
  · rename_i m f hm
    rw [hm]
    simp only
    split at hb
    · cases hb
    · rename_i m2 f2 hm2
      rw [hm2]
      simp only
      rw [hb]
      simp only
      rw [if_neg (by simp)]

/-! ### the tree part -/

/-- The last step: the tree becomes a part. Same as adding a file with the tree as content, except that nothing is
written for the (absent) padding and all is written at once. -/
theorem addTreePart_ok (H : HashFn) (hH : HashLen H) (p : Pkg) (g : GoodPkg p) (id : U32) (hid : id ≠ 0) (hnew : ∀ q ∈ usedParts p.hdr, q.id ≠ id)
    (hroom : (usedParts p.hdr).length < 32) (flags : U8) (hfl : flags &&& 2 = 0) (d : Bytes) (hd : d.length % 4096 = 0) (hsz : p.file.length + d.length + 512 < 2^63) :
    ∃ h h3 : Header, ∃ i, addPart p.hdr id = (.ok, h3, i) ∧
      updateHash H (Pkg.write { p with hdr := { h3 with parts := h3.parts.modify i (fun q => { q with
        offset := newOffset p.hdr, flags := flags, size := BitVec.ofNat 64 d.length, padBytes := 0 }) } } (newOffset p.hdr).toNat d) =
        (.ok, ⟨h, p.file ++ d, p.log ++ [.write p.file.length d]⟩) ∧
      (newOffset p.hdr).toNat = p.file.length ∧ h.WF ∧
      addFile H (d.length / 4096 + 2) p id flags d.length d = some (.ok,
        ⟨h, h.image ++ p.file.drop 4096 ++ d, p.log ++ chunkWrites p.file.length d ++ [.write (p.file.length + d.length) [], .write 0 h.image]⟩) := by
  have hpad : padFor d.length = 0 := by unfold padFor; rw [if_neg (by omega)]
  obtain ⟨h, h0, e0, e1, u1, g0, wf, ea⟩ := addFile_ok H hH p g id hid hnew hroom flags hfl d hsz (d.length / 4096 + 2) (Nat.le_refl _)
  rw [hpad] at e0 e1 u1 ea
  simp only [List.replicate_zero, List.append_nil] at e1 ea
  have hst := addedPart_stored id flags p.file.length d.length 0 hfl (by omega) (by omega)
  obtain ⟨w, gp, ⟨n, hk⟩, plain, exact⟩ := g
  have hoff := newOffset_eq p.hdr gp plain (by omega)
  rw [← exact] at hoff
  have hoff' : newOffset p.hdr = BitVec.ofNat 64 p.file.length := by rw [← hoff]; simp
  rcases addPart_cases (gp.inv w) id with ⟨⟨q, hq, e⟩, _⟩ | ⟨_, hk0, _⟩ | ⟨_, _, e⟩
  · exact absurd e (hnew q hq)
  · omega
  refine ⟨h, _, _, e, ?_, hoff, wf, ea⟩
  simp only
  rw [modify_append_cons]
  have e2 : ({ newPart id with offset := newOffset p.hdr, flags := flags, size := BitVec.ofNat 64 d.length, padBytes := 0 } : PartHdr)
      = addedPart id flags p.file.length d.length 0 := by rw [hoff']; rfl
  rw [e2, hoff]
  unfold Pkg.write
  simp only
  rw [fileWrite_end, ← e0]
  have hsum : ((usedParts h0).map storedSize).sum = ((usedParts p.hdr).map storedSize).sum + d.length := by
    rw [u1]; simp [hst]
  rw [updateHash_eq H ⟨h0, p.file ++ d, p.log ++ [FOp.write p.file.length d]⟩ (g0.tidy (by omega)) (by simp; omega) (by unfold Whole; simp; omega) n (by rw [e0]; exact hk) (digestLen_le hk)]
  rw [e1]

end Bpak
