import Verif.Proof.PkgTree
/-! Adding a file together with its hash tree (C65, C66). -/
namespace Bpak

/-- Room for a file and its tree: the part's id and the tree's id are new and distinct, two part slots and two
metadata slots of 32 bytes are free, no salt or root hash is recorded for the part yet. -/
structure TreeRoom (h : Header) (id : U32) : Prop where
  id0 : id ≠ 0
  tree0 : partIdToHashTreeId id ≠ 0
  differ : partIdToHashTreeId id ≠ id
  fresh : ∀ q ∈ usedParts h, q.id ≠ id ∧ q.id ≠ partIdToHashTreeId id
  slots : (usedParts h).length + 2 ≤ 32
  metas : (usedMetas h).length + 2 ≤ 32
  bytes : bytesUsed h + 64 ≤ 1920
  noSalt : ∀ m ∈ usedMetas h, ¬ (m.id = idMerkleSalt ∧ m.partRef = id)
  noRoot : ∀ m ∈ usedMetas h, ¬ (m.id = idMerkleRootHash ∧ m.partRef = id)

theorem rdLe_prefix (f g : Bytes) (h : f <+: g) : RdLe (payloadReader f) (payloadReader g) := by
  obtain ⟨t, rfl⟩ := h
  intro off n x hn hx hr
  unfold payloadReader at hr ⊢
  have e := Except.ok.inj hr
  congr 1
  rw [← e] at hx ⊢
  unfold fileRead at hx ⊢
  rw [List.length_take, List.length_drop] at hx
  rw [List.drop_append_of_le_length (by omega), List.take_append_of_le_length (by rw [List.length_drop]; omega)]

/-- A tree check that accepts still accepts when the file grows. -/
theorem verifyTree_grow (H : HashFn) (hH : HashLen H) (f g t : Bytes) (h : g.drop 4096 = f.drop 4096 ++ t) (hf : 4096 ≤ f.length) (hg : 4096 ≤ g.length)
    (a n b : Nat) (ha : 4096 ≤ a) (hb : 4096 ≤ b) (root salt : Bytes)
    (hv : verifyMerkleTree H (payloadReader f) a n b root salt = .ok) : verifyMerkleTree H (payloadReader g) a n b root salt = .ok := by
  have hl : (g.take 4096).length = 4096 := by rw [List.length_take]; omega
  have h1 : verifyMerkleTree H (payloadReader (g.take 4096 ++ f.drop 4096)) a n b root salt = .ok := by
    refine verifyTree_drop H hH f _ ?_ ?_ a n b ha hb root salt hv
    · rw [List.drop_append_of_le_length (by omega), List.drop_of_length_le (Nat.le_of_eq hl), List.nil_append]
    · rw [List.length_append, hl, List.length_drop]; omega
  refine verifyMerkleTree_mono H (rdLe_prefix _ _ ⟨t, ?_⟩) (payloadReader_err _) a n b root salt h1
  rw [List.append_assoc, ← h, List.take_append_drop]

/-- Same header and file, whatever the log says. -/
theorem pkg_log {P : Pkg → Prop} (hP : ∀ h f l l', P ⟨h, f, l⟩ → P ⟨h, f, l'⟩) (p q : Pkg) (hh : p.hdr = q.hdr) (hf : p.file = q.file) (hp : P p) : P q := by
  obtain ⟨a, b, c⟩ := p
  obtain ⟨a', b', c'⟩ := q
  simp only at hh hf
  subst hh; subst hf
  exact hP _ _ _ _ hp

/-- What `bpak_pkg_add_file_with_merkle_tree` does when there is room. -/
theorem addFileWithMerkle_ok (H : HashFn) (hH : HashLen H) (p : Pkg) (g : GoodPkg p) (gm : GoodMetas p.hdr) (id : U32) (r : TreeRoom p.hdr id)
    (flags : U8) (hfl : flags &&& 2 = 0) (d salt : Bytes) (hs : TreeSupported d.length) (hsalt : salt.length = 32)
    (hsz : p.file.length + d.length + (hashTree H salt d).length + 512 < 2^63) (fuel : Nat) (hfuel : d.length / 4096 + 2 ≤ fuel) :
    ∃ p1 h1 h2 : _, ∃ p' q : Pkg,
      addFile H fuel p id flags d.length d = some (.ok, p1) ∧
      addHashMeta p1.hdr idMerkleSalt id salt = .ret (.ok, h1) ∧
      addHashMeta h1 idMerkleRootHash id (treeRoot H salt d) = .ret (.ok, h2) ∧
      addFile H ((hashTree H salt d).length / 4096 + 2) { p1 with hdr := h2 } (partIdToHashTreeId id) flags (hashTree H salt d).length (hashTree H salt d) = some (.ok, q) ∧
      addFileWithMerkle H fuel p id flags d salt = some (.ret (.ok, p')) ∧ p'.hdr = q.hdr ∧ p'.file = q.file ∧
      p'.log = p1.log ++ [.write p1.file.length (hashTree H salt d), .write 0 p'.hdr.image] ∧
      p'.file = applyOps p1.file [.write p1.file.length (hashTree H salt d), .write 0 p'.hdr.image] := by
  have hpad : padFor d.length = 0 := by unfold padFor; rw [if_neg (by have := hs.1; omega)]
  obtain ⟨p1, e1, g1, sv1, hlen, hc1, hx1, hh1, ha1⟩ := C35_add_file H hH p g id r.id0 (fun q hq => (r.fresh q hq).1) (by have := r.slots; omega) flags hfl d (by omega) fuel hfuel
  obtain ⟨hb1, hb2⟩ := merkleBuffer_ok H hH salt d (by omega) hs
  have emetas : p1.hdr.metas = p.hdr.metas := by rw [hh1]
  have um1 : usedMetas p1.hdr = usedMetas p.hdr := by unfold usedMetas; rw [emetas]
  have ub1 : bytesUsed p1.hdr = bytesUsed p.hdr := by unfold bytesUsed; rw [um1]
  have gm1 : GoodMetas p1.hdr := goodMetas_same gm emetas
  have up1 : (usedParts p1.hdr).map (fun q => q.id) = (usedParts p.hdr).map (fun q => q.id) ++ [id] := by
    have := congrArg (List.map (fun x : U32 × U8 × Nat × Nat => x.1)) ha1
    simpa [List.map_map, Function.comp_def] using this
  obtain ⟨h1, m1, a1, a2, a3, a4, a5, a6, a7, a8, a9, a10, a11, a12⟩ := addHashMeta_ok g1.wf gm1 idMerkleSalt id (by decide) salt hsalt
    (by rw [um1]; exact r.noSalt) (by rw [um1]; have := r.metas; omega) (by rw [ub1]; have := r.bytes; omega)
  have hroot : (treeRoot H salt d).length = 32 := by unfold treeRoot; split <;> exact hH.sha256 _
  obtain ⟨h2, m2, b1, b2, b3, b4, b5, b6, b7, b8, b9, b10, b11, b12⟩ := addHashMeta_ok a3 a4 idMerkleRootHash id (by decide) (treeRoot H salt d) hroot
    (by
      rw [a5, um1]
      intro m hm hc
      rcases List.mem_append.1 hm with hm | hm
      · exact r.noRoot m hm hc
      · simp at hm; rw [hm, a6] at hc; exact absurd hc.1 (by decide))
    (by rw [a5, um1, List.length_append]; have := r.metas; simp; omega) (by rw [a10, ub1]; have := r.bytes; omega)
  have ep : h2.parts = p1.hdr.parts := by rw [b2, a2]
  have ek : h2.hashKind = p1.hdr.hashKind := by rw [b2, a2]
  have eu : usedParts h2 = usedParts p1.hdr := by unfold usedParts; rw [ep]
  have g2 : GoodPkg { p1 with hdr := h2 } :=
    ⟨b3, ⟨by rw [eu]; simp only [ep]; exact g1.parts.slots, by rw [eu]; exact g1.parts.distinct⟩, by simp only [ek]; exact g1.kind, by rw [eu]; exact g1.plain, by rw [eu]; exact g1.exact⟩
  have htl : (hashTree H salt d).length % 4096 = 0 := by
    have := C29_tree_size H hH salt d hs
    obtain ⟨h1, h2, h3⟩ := hs
    rw [merkleComputeSize_eq, if_neg (by omega), if_neg (by omega)] at this
    rw [← Except.ok.inj this]
    unfold treeSize
    omega
  have hnew : ∀ q ∈ usedParts h2, q.id ≠ partIdToHashTreeId id := by
    rw [eu]
    intro q hq e
    have : q.id ∈ (usedParts p1.hdr).map (fun q => q.id) := List.mem_map.2 ⟨q, hq, rfl⟩
    rw [up1] at this
    rcases List.mem_append.1 this with h | h
    · obtain ⟨x, hx, ex⟩ := List.mem_map.1 h
      exact (r.fresh x hx).2 (by rw [ex, e])
    · simp at h; rw [e] at h; exact r.differ h
  have hul : (usedParts h2).length < 32 := by
    have := congrArg List.length up1
    simp at this
    rw [eu, this]; have := r.slots; omega
  obtain ⟨h, h3, i, c1, c2, c3, c4, c5⟩ := addTreePart_ok H hH { p1 with hdr := h2 } g2 (partIdToHashTreeId id) r.tree0 hnew hul flags hfl (hashTree H salt d) htl
    (by simp only; omega)
  refine ⟨p1, h1, h2, writeHeader ⟨h, p1.file ++ hashTree H salt d, p1.log ++ [.write p1.file.length (hashTree H salt d)]⟩, _, e1, a1, b1, c5, ?_, ?_, ?_, ?_, ?_⟩
  · unfold addFileWithMerkle
    rw [e1]
    simp only
    rw [hb1]
    simp only
    rw [hb2]
    simp only
    rw [a1]
    simp only
    rw [b1]
    simp only
    have hno : newOffset p1.hdr = newOffset h2 := by unfold newOffset; rw [ep]
    rw [hno]
    simp only at c1 c2 c3
    rw [c1]
    simp only
    rw [if_neg (by rw [c3]; omega), c2]
  · rw [writeHeader_eq _ c4]
  · rw [writeHeader_eq _ c4]
    simp only
    have := g1.exact
    rw [List.drop_append_of_le_length (by omega), List.append_assoc]
  · rw [writeHeader_eq _ c4]
    simp only [List.append_assoc, List.singleton_append]
  · rw [writeHeader_eq _ c4]
    simp only [applyOps, List.foldl_cons, List.foldl_nil, applyOp]
    rw [fileWrite_end, fileWrite_zero, image_length c4]

theorem getMeta_used {h : Header} {us : List MetaHdr} {k : Nat} (i : MetaInv h us k) (pre post : List MetaHdr) (m : MetaHdr) (hu : us = pre ++ m :: post) :
    getMeta h m.id m.partRef = some pre.length ∧ h.metas[pre.length]? = some m := by
  have hslot : h.metas[pre.length]? = some m := by rw [i.slots, hu]; simp
  refine ⟨?_, hslot⟩
  rw [C03_get_meta_is_first_match]
  refine ⟨⟨m, hslot, rfl, rfl⟩, ?_⟩
  intro j hj x hx
  rw [i.slots, hu, List.append_assoc, List.getElem?_append_left hj] at hx
  have hxm := List.mem_of_getElem? hx
  have hd := i.distinct
  rw [hu, List.pairwise_append] at hd
  exact fun hc => hd.2.2 x hxm m (by simp) hc

/-- Trees that were right stay right when parts and metadata entries are appended. -/
theorem treesOk_old (H : HashFn) (hH : HashLen H) (p p' : Pkg) (g : GoodPkg p) (gm : GoodMetas p.hdr) (gp : GoodPkg p') (hgm : GoodMetas p'.hdr)
    (hf : p.file.length < 2^63) (hf' : p'.file.length < 2^63)
    (ps : List PartHdr) (uq : usedParts p'.hdr = usedParts p.hdr ++ ps) (ms : List MetaHdr) (hum : usedMetas p'.hdr = usedMetas p.hdr ++ ms)
    (tl : Bytes) (htl : p'.file.drop 4096 = p.file.drop 4096 ++ tl)
    (hold : ∀ m ∈ usedMetas p.hdr, m.id = idMerkleSalt ∨ m.id = idMerkleRootHash → readAt p'.hdr.metadata m.offset.toNat 32 = readAt p.hdr.metadata m.offset.toNat 32)
    (ht : TreesOk H p) (x : PartHdr) (hx : x ∈ usedParts p.hdr)
    (hnz : (∃ m ∈ usedMetas p.hdr, m.id = idMerkleRootHash ∧ m.partRef = x.id) → partIdToHashTreeId x.id ≠ 0)
    (hms : ∀ m ∈ ms, ¬ (m.id = idMerkleRootHash ∧ m.partRef = x.id))
    (hri : ∃ i, getMeta p'.hdr idMerkleRootHash x.id = some i) :
    ∃ root salt tp, TreeInfo p'.hdr x root salt tp ∧
      verifyMerkleTree H (payloadReader p'.file) (partOffset p'.hdr x).toNat (partSize x).toNat (partOffset p'.hdr tp).toNat root salt = .ok := by
  have t : TidyParts p.hdr := g.parts.tidy (by have := g.exact; omega)
  have t' : TidyParts p'.hdr := gp.parts.tidy (by have := gp.exact; omega)
  have mi := gm.inv g.wf
  have mi' := hgm.inv gp.wf
  have pi := g.parts.inv g.wf
  have pi' := gp.parts.inv gp.wf
  obtain ⟨i, hi⟩ := hri
  obtain ⟨pre, m, post, s1, s2, s3, s4, s5⟩ := getMeta_split mi' (by decide) hi
  have hmo : m ∈ usedMetas p.hdr := by
    have : m ∈ usedMetas p'.hdr := by rw [s1]; simp
    rw [hum] at this
    rcases List.mem_append.1 this with h | h
    · exact h
    · exact absurd ⟨s3, s4⟩ (hms m h)
  obtain ⟨mp, mq, hm1⟩ := List.append_of_mem hmo
  have hgo := (getMeta_used mi mp mq m hm1).1
  rw [s3, s4] at hgo
  obtain ⟨root, sl, tp, ti, hv⟩ := ht x hx ⟨_, hgo⟩
  have lookup : ∀ (k : U32) (v : Bytes), k = idMerkleSalt ∨ k = idMerkleRootHash →
      (∃ i m, getMeta p.hdr k x.id = some i ∧ p.hdr.metas[i]? = some m ∧ readAt p.hdr.metadata m.offset.toNat 32 = some v) →
      ∃ i m, getMeta p'.hdr k x.id = some i ∧ p'.hdr.metas[i]? = some m ∧ readAt p'.hdr.metadata m.offset.toNat 32 = some v := by
    rintro k v hk ⟨i, m, k1, k2, k3⟩
    have hk0 : k ≠ 0 := by rcases hk with rfl | rfl <;> decide
    obtain ⟨pre, m', post, s1, s2, s3, s4, s5⟩ := getMeta_split mi hk0 k1
    have : m' = m := by rw [k2] at s5; exact (Option.some.inj s5).symm
    subst this
    have := getMeta_used mi' pre (post ++ ms) m' (by rw [hum, s1]; simp)
    rw [s3, s4] at this
    refine ⟨_, m', this.1, this.2, ?_⟩
    have hmm : m' ∈ usedMetas p.hdr := by rw [s1]; simp
    rw [hold m' hmm (by rw [s3]; exact hk)]
    exact k3
  have poff : ∀ y ∈ usedParts p.hdr, partOffset p'.hdr y = partOffset p.hdr y := by
    intro y hy
    obtain ⟨a, b, hab⟩ := List.append_of_mem hy
    apply BitVec.eq_of_toNat_eq
    rw [(tidy_offset p.hdr t a b y hab).1, (tidy_offset p'.hdr t' a (b ++ ps) y (by rw [uq, hab]; simp)).1]
  obtain ⟨ti1, c1, c2⟩ := ti.tree
  obtain ⟨pa, tp', pb, s1, s2, s3, s4⟩ := getPart_split pi (hnz ⟨m, hmo, by assumption, by assumption⟩) c1
  have : tp' = tp := by rw [c2] at s4; exact (Option.some.inj s4).symm
  subst this
  have htp : tp' ∈ usedParts p.hdr := by rw [s1]; simp
  have hgp := getPart_used pi' pa (pb ++ ps) tp' (by rw [uq, s1]; simp)
  rw [s3] at hgp
  refine ⟨root, sl, tp', ⟨lookup _ _ (Or.inr rfl) ti.rootMeta, lookup _ _ (Or.inl rfl) ti.saltMeta, _, hgp.1, hgp.2⟩, ?_⟩
  rw [poff x hx, poff tp' htp]
  exact verifyTree_grow H hH p.file p'.file tl htl (by have := g.exact; omega) (by have := gp.exact; omega) _ _ _ (partOffset_ge _ t x) (partOffset_ge _ t tp') _ _ hv

/-- C65: adding a file with its hash tree, for every package with room, every content of a supported length (a
positive number of 4096-byte blocks, up to 8 GiB), every salt and all flags but the transport flag: it succeeds;
the package then holds the old parts unchanged and in order, the file, and its hash tree; the old metadata entries
unchanged, the salt and the root hash; the payload hash is right, and the header in the file is the one in memory.
If all hash trees in the package were right, they all are now, the new one included (so that signing and
verification go through: C33). -/
theorem C65_add_file_with_tree (H : HashFn) (hH : HashLen H) (p : Pkg) (g : GoodPkg p) (gm : GoodMetas p.hdr) (id : U32) (r : TreeRoom p.hdr id)
    (flags : U8) (hfl : flags &&& 2 = 0) (d salt : Bytes) (hs : TreeSupported d.length) (hsalt : salt.length = 32)
    (hsz : p.file.length + d.length + (hashTree H salt d).length + 512 < 2^63) (fuel : Nat) (hfuel : d.length / 4096 + 2 ≤ fuel) :
    ∃ p', addFileWithMerkle H fuel p id flags d salt = some (.ret (.ok, p')) ∧
      GoodPkg p' ∧ GoodMetas p'.hdr ∧ Saved p' ∧ HashStored H p' ∧
      contents p' = contents p ++ [(id, d), (partIdToHashTreeId id, hashTree H salt d)] ∧
      entries p'.hdr = entries p.hdr ++ [⟨idMerkleSalt, id, salt⟩, ⟨idMerkleRootHash, id, treeRoot H salt d⟩] ∧
      (usedParts p'.hdr).map partAttrs = (usedParts p.hdr).map partAttrs ++
        [(id, flags, d.length, 0, 0), (partIdToHashTreeId id, flags, (hashTree H salt d).length, 0, 0)] ∧
      p'.hdr = { p.hdr with parts := p'.hdr.parts, metas := p'.hdr.metas, metadata := p'.hdr.metadata, payloadHash := p'.hdr.payloadHash } ∧
      extractFile p' id = (.ok, some d) ∧ (Placed p.hdr → Placed p'.hdr) ∧
      (TreesOk H p → (∀ m ∈ usedMetas p.hdr, m.id = idMerkleSalt ∨ m.id = idMerkleRootHash → 32 ≤ m.size.toNat) →
        (∀ m ∈ usedMetas p.hdr, ¬ (m.id = idMerkleRootHash ∧ m.partRef = partIdToHashTreeId id)) →
        (∀ q ∈ usedParts p.hdr, (∃ m ∈ usedMetas p.hdr, m.id = idMerkleRootHash ∧ m.partRef = q.id) → partIdToHashTreeId q.id ≠ 0) → TreesOk H p') := by
  have hpad : padFor d.length = 0 := by unfold padFor; rw [if_neg (by have := hs.1; omega)]
  obtain ⟨p1, h1, h2, p', q, e1, e2, e3, e4, e5, e6, e7, _, _⟩ := addFileWithMerkle_ok H hH p g gm id r flags hfl d salt hs hsalt hsz fuel hfuel
  refine ⟨p', e5, ?_⟩
  have hroot : (treeRoot H salt d).length = 32 := by unfold treeRoot; split <;> exact hH.sha256 _
  have htl : padFor (hashTree H salt d).length = 0 := by
    have := C29_tree_size H hH salt d hs
    obtain ⟨h1, h2, h3⟩ := hs
    rw [merkleComputeSize_eq, if_neg (by omega), if_neg (by omega)] at this
    rw [← Except.ok.inj this]
    unfold padFor treeSize
    rw [if_neg (by omega)]
  have hslots := r.slots
  -- the first call
  have x3 : GoodPkg p1 ∧ p1.file.length = p.file.length + d.length ∧ contents p1 = contents p ++ [(id, d)] ∧
      p1.hdr = { p.hdr with parts := p1.hdr.parts, payloadHash := p1.hdr.payloadHash } ∧
      usedParts p1.hdr = usedParts p.hdr ++ [addedPart id flags p.file.length d.length 0] := by
    obtain ⟨y, y1, y2, y3, y4, y5, y6, y7, y8⟩ := C35_add_file H hH p g id r.id0 (fun q hq => (r.fresh q hq).1) (by omega) flags hfl d (by omega) fuel hfuel
    obtain ⟨h, h0, z0, z1, zu, _, _, za⟩ := addFile_ok H hH p g id r.id0 (fun q hq => (r.fresh q hq).1) (by omega) flags hfl d (by omega) fuel hfuel
    rw [hpad] at y4 y5 zu
    have : p1 = y := by rw [e1] at y1; exact (Prod.mk.inj (Option.some.inj y1)).2
    subst this
    refine ⟨y2, y4, by simpa using y5, y7, ?_⟩
    · rw [y1] at za
      have := (Prod.mk.inj (Option.some.inj za)).2
      rw [this]
      have eparts : h.parts = h0.parts := by rw [z1]; rfl
      unfold usedParts at zu ⊢
      rw [eparts]; exact zu
  obtain ⟨g1, hlen1, hc1, hh1, hu1⟩ := x3
  have emetas : p1.hdr.metas = p.hdr.metas := by rw [hh1]
  have emd : p1.hdr.metadata = p.hdr.metadata := by rw [hh1]
  have um1 : usedMetas p1.hdr = usedMetas p.hdr := by unfold usedMetas; rw [emetas]
  have ub1 : bytesUsed p1.hdr = bytesUsed p.hdr := by unfold bytesUsed; rw [um1]
  have gm1 : GoodMetas p1.hdr := goodMetas_same gm emetas
  have een : entries p1.hdr = entries p.hdr := by
    unfold entries metaContent; rw [um1, emd]
  -- the metadata
  obtain ⟨h1', m1, a1, a2, a3, a4, a5, a6, a7, a8, a9, a10, a11, a12⟩ := addHashMeta_ok g1.wf gm1 idMerkleSalt id (by decide) salt hsalt
    (by rw [um1]; exact r.noSalt) (by rw [um1]; have := r.metas; omega) (by rw [ub1]; have := r.bytes; omega)
  have : h1 = h1' := by rw [e2] at a1; exact (Prod.mk.inj (Out.ret.inj a1)).2
  subst this
  obtain ⟨h2', m2, b1, b2, b3, b4, b5, b6, b7, b8, b9, b10, b11, b12⟩ := addHashMeta_ok a3 a4 idMerkleRootHash id (by decide) (treeRoot H salt d) hroot
    (by
      rw [a5, um1]
      intro m hm hc
      rcases List.mem_append.1 hm with hm | hm
      · exact r.noRoot m hm hc
      · simp at hm; rw [hm, a6] at hc; exact absurd hc.1 (by decide))
    (by rw [a5, um1, List.length_append]; have := r.metas; simp; omega) (by rw [a10, ub1]; have := r.bytes; omega)
  have : h2 = h2' := by rw [e3] at b1; exact (Prod.mk.inj (Out.ret.inj b1)).2
  subst this
  have ep : h2.parts = p1.hdr.parts := by rw [b2, a2]
  have ek : h2.hashKind = p1.hdr.hashKind := by rw [b2, a2]
  have eu : usedParts h2 = usedParts p1.hdr := by unfold usedParts; rw [ep]
  have g2 : GoodPkg { p1 with hdr := h2 } :=
    ⟨b3, ⟨by rw [eu]; simp only [ep]; exact g1.parts.slots, by rw [eu]; exact g1.parts.distinct⟩, by simp only [ek]; exact g1.kind, by rw [eu]; exact g1.plain, by rw [eu]; exact g1.exact⟩
  have hnew : ∀ q ∈ usedParts h2, q.id ≠ partIdToHashTreeId id := by
    rw [eu, hu1]
    intro q hq e
    rcases List.mem_append.1 hq with h | h
    · exact (r.fresh q h).2 e
    · simp at h; rw [h] at e; exact r.differ e.symm
  have hul : (usedParts h2).length < 32 := by rw [eu, hu1]; simp; omega
  -- the second call
  have hsz2 : p1.file.length + (hashTree H salt d).length + 512 < 2^63 := by omega
  obtain ⟨y, y1, y2, y3, y4, y5, y6, y7, y8⟩ := C35_add_file H hH { p1 with hdr := h2 } g2 (partIdToHashTreeId id) r.tree0 hnew hul flags hfl (hashTree H salt d) hsz2 _ (Nat.le_refl _)
  obtain ⟨y', y1', hst⟩ := C35_hash_stored H hH { p1 with hdr := h2 } g2 (partIdToHashTreeId id) r.tree0 hnew hul flags hfl (hashTree H salt d) hsz2 _ (Nat.le_refl _)
  obtain ⟨h, h0, z0, z1, zu, zg, zwf, za⟩ := addFile_ok H hH { p1 with hdr := h2 } g2 (partIdToHashTreeId id) r.tree0 hnew hul flags hfl (hashTree H salt d) hsz2 _ (Nat.le_refl _)
  rw [e4] at y1 y1' za
  have : q = y := (Prod.mk.inj (Option.some.inj y1)).2
  subst this
  have : q = y' := (Prod.mk.inj (Option.some.inj y1')).2
  subst this
  have eq := (Prod.mk.inj (Option.some.inj za)).2
  have hqh : q.hdr = h := by rw [eq]
  rw [htl] at y4 y5 zu
  simp only [List.replicate_zero, List.append_nil] at y5
  have eparts : h.parts = h0.parts := by rw [z1]; rfl
  have uq : usedParts p'.hdr = usedParts p.hdr ++ [addedPart id flags p.file.length d.length 0, addedPart (partIdToHashTreeId id) flags p1.file.length (hashTree H salt d).length 0] := by
    have : usedParts h = usedParts h0 := by unfold usedParts; rw [eparts]
    rw [e6, hqh, this, zu, eu, hu1]; simp
  have gp : GoodPkg p' := pkg_log (P := GoodPkg) (fun _ _ _ _ x => ⟨x.wf, x.parts, x.kind, x.plain, x.exact⟩) q p' e6.symm e7.symm y2
  have svp : Saved p' := pkg_log (P := Saved) (fun _ _ _ _ x => x) q p' e6.symm e7.symm y3
  have hsp : HashStored H p' := pkg_log (P := HashStored H) (fun _ _ _ _ x => x) q p' e6.symm e7.symm hst
  have cp : contents p' = contents q := pkg_log (P := fun x => contents x = contents q) (fun _ _ _ _ x => x) q p' e6.symm e7.symm rfl
  have hem : p'.hdr.metas = h2.metas := by rw [e6, y7]
  have hemd : p'.hdr.metadata = h2.metadata := by rw [e6, y7]
  have umq : usedMetas p'.hdr = usedMetas h2 := by unfold usedMetas; rw [hem]
  have hgm : GoodMetas p'.hdr := goodMetas_same b4 hem
  have hcont : contents p' = contents p ++ [(id, d), (partIdToHashTreeId id, hashTree H salt d)] := by
    have c2 : contents ({ p1 with hdr := h2 } : Pkg) = contents p1 := by
      unfold contents storedBytes partOffset
      simp only [eu, ep]
    rw [cp, y5, c2, hc1, List.append_assoc]; rfl
  have hum : usedMetas p'.hdr = usedMetas p.hdr ++ [m1, m2] := by rw [umq, b5, a5, um1]; simp
  have hs1 : storedSize (addedPart id flags p.file.length d.length 0) = d.length := by
    rw [addedPart_stored id flags _ _ 0 hfl (by omega) (by omega)]; rfl
  have hs2 : storedSize (addedPart (partIdToHashTreeId id) flags p1.file.length (hashTree H salt d).length 0) = (hashTree H salt d).length := by
    rw [addedPart_stored _ flags _ _ 0 hfl (by omega) (by omega)]; rfl
  have hst12 : storedBytes p' (addedPart id flags p.file.length d.length 0) = d ∧
      storedBytes p' (addedPart (partIdToHashTreeId id) flags p1.file.length (hashTree H salt d).length 0) = hashTree H salt d := by
    have hcc := hcont
    unfold contents at hcc
    rw [uq, List.map_append] at hcc
    have := List.append_inj_right' hcc (by simp)
    simp at this
    exact ⟨this.1.2, this.2.2⟩
  have hfl63 : p'.file.length < 2^63 := by rw [e7, y4]; simp only; omega
  have hex := extractFile_ok p' gp.wf gp.parts (by unfold Whole; rw [gp.exact]; omega) hfl63 (addedPart id flags p.file.length d.length 0) (by rw [uq]; simp) hfl
  refine ⟨gp, hgm, svp, hsp, hcont, ?_, ?_, ?_, ?_, ?_, ?_⟩
  · have : entries p'.hdr = entries h2 := by unfold entries metaContent; rw [umq, hemd]
    rw [this, b9, a9, een]; simp
  · rw [uq, List.map_append]
    congr 1
    simp only [List.map_cons, List.map_nil, partAttrs, addedPart, BitVec.toNat_ofNat]
    rw [Nat.mod_eq_of_lt (a := d.length) (by omega), Nat.mod_eq_of_lt (a := (hashTree H salt d).length) (by omega)]
    rfl
  · rw [e6, y7]
    simp only
    rw [b2, a2, hh1]
  · have : (addedPart id flags p.file.length d.length 0).size.toNat = d.length := by unfold addedPart; simp; omega
    rw [hst12.1, this, List.take_length] at hex
    exact hex
  · intro hpl
    have k1 := addFile_placed H hH p g id r.id0 (fun q hq => (r.fresh q hq).1) (by omega) flags hfl d (by omega) fuel hfuel hpl p1 e1
    have k2 := addFile_placed H hH { p1 with hdr := h2 } g2 (partIdToHashTreeId id) r.tree0 hnew hul flags hfl (hashTree H salt d) hsz2 _ (Nat.le_refl _) (k1.same ep) q e4
    rw [e6]
    exact k2
  · intro ht hsize hnoroot hnz
    have t : TidyParts p.hdr := g.parts.tidy (by have := g.exact; omega)
    have t' : TidyParts p'.hdr := gp.parts.tidy (by have := gp.exact; omega)
    have mi := gm.inv g.wf
    have mi' := hgm.inv gp.wf
    have pi := g.parts.inv g.wf
    have pi' := gp.parts.inv gp.wf
    have hold : ∀ x ∈ usedMetas p.hdr, ∀ n, n ≤ x.size.toNat → readAt p'.hdr.metadata x.offset.toNat n = readAt p.hdr.metadata x.offset.toNat n := by
      intro x hx n hn
      rw [hemd, b12 x (by rw [a5, um1]; simp [hx]) n hn, a12 x (by rw [um1]; exact hx) n hn, emd]
    have hgrow : ∃ tl, p'.file.drop 4096 = p.file.drop 4096 ++ tl := by
      have t1 : TidyParts p1.hdr := g1.parts.tidy (by have := g1.exact; omega)
      obtain ⟨hh, hh0, w0, w1, wu, _, wwf, wa⟩ := addFile_ok H hH p g id r.id0 (fun q hq => (r.fresh q hq).1) (by omega) flags hfl d (by omega) fuel hfuel
      rw [e1] at wa
      have ef1 : p1.file = hh.image ++ p.file.drop 4096 ++ d ++ List.replicate (padFor d.length) 0 := by
        rw [(Prod.mk.inj (Option.some.inj wa)).2]
      have efq : p'.file = h.image ++ p1.file.drop 4096 ++ hashTree H salt d ++ List.replicate (padFor (hashTree H salt d).length) 0 := by rw [e7, eq]
      have il1 := image_length wwf
      have il2 := image_length zwf
      refine ⟨d ++ hashTree H salt d, ?_⟩
      rw [efq, htl, ef1, hpad]
      simp only [List.replicate_zero, List.append_nil, List.append_assoc]
      rw [List.drop_append_of_le_length (by omega), List.drop_of_length_le (by omega), List.nil_append,
        List.drop_append_of_le_length (by omega), List.drop_of_length_le (by omega), List.nil_append, List.append_assoc]
    obtain ⟨tl, htl2⟩ := hgrow
    intro x hx hri
    rw [uq] at hx
    rcases List.mem_append.1 hx with hx | hx
    · -- an old part
      refine treesOk_old H hH p p' g gm gp hgm (by omega) hfl63 _ uq [m1, m2] hum tl htl2 ?_ ht x hx (fun h => hnz x hx h) ?_ hri
      · intro m hm hk; exact hold m hm 32 (hsize m hm hk)
      · intro m hm hc
        simp at hm
        rcases hm with h | h
        · rw [h, a7] at hc; exact (r.fresh x hx).1 hc.2.symm
        · rw [h, b7] at hc; exact (r.fresh x hx).1 hc.2.symm
    · have hx2 : x = addedPart id flags p.file.length d.length 0 ∨ x = addedPart (partIdToHashTreeId id) flags p1.file.length (hashTree H salt d).length 0 := by simpa using hx
      rcases hx2 with rfl | rfl
      · -- the new part
        have l1 := getMeta_used mi' (usedMetas p.hdr) [m2] m1 (by rw [hum])
        have l2 := getMeta_used mi' (usedMetas p.hdr ++ [m1]) [] m2 (by rw [hum]; simp)
        have l3 := getPart_used pi' (usedParts p.hdr ++ [addedPart id flags p.file.length d.length 0]) [] (addedPart (partIdToHashTreeId id) flags p1.file.length (hashTree H salt d).length 0) (by rw [uq]; simp)
        rw [a6, a7] at l1
        rw [b6, b7] at l2
        refine ⟨treeRoot H salt d, salt, addedPart (partIdToHashTreeId id) flags p1.file.length (hashTree H salt d).length 0,
          ⟨⟨_, m2, l2.1, l2.2, by rw [hemd]; exact b11⟩, ⟨_, m1, l1.1, l1.2, ?_⟩, ⟨_, l3.1, l3.2⟩⟩, ?_⟩
        · rw [hemd, b12 m1 (by rw [a5]; simp) 32 (by rw [a8]; decide)]; exact a11
        · have ps : (partSize (addedPart id flags p.file.length d.length 0)).toNat = d.length := by
            rw [partSize_stored _ (by rw [hs1]; omega), hs1]
          rw [ps]
          have w1 := hst12.1
          have w2 := hst12.2
          unfold storedBytes at w1 w2
          rw [hs1] at w1
          rw [hs2] at w2
          exact C30_built_tree_verifies H hH p'.file _ _ salt d (by omega) hs w1 w2
      · -- the tree part itself has no root hash
        exfalso
        obtain ⟨i, hi⟩ := hri
        obtain ⟨pre, m, post, s1, s2, s3, s4, s5⟩ := getMeta_split mi' (by decide) hi
        have : m ∈ usedMetas p'.hdr := by rw [s1]; simp
        rw [hum] at this
        have hid2 : (addedPart (partIdToHashTreeId id) flags p1.file.length (hashTree H salt d).length 0).id = partIdToHashTreeId id := rfl
        rw [hid2] at s4
        rcases List.mem_append.1 this with h | h
        · exact hnoroot m h ⟨s3, s4⟩
        · simp at h
          rcases h with h | h
          · rw [h, a7] at s4; exact r.differ s4.symm
          · rw [h, b7] at s4; exact r.differ s4.symm

theorem addHashMeta_room {h h' : Header} (w : h.WF) (g : GoodMetas h) (id ref : U32) (v : Bytes) (he : addHashMeta h id ref v = .ret (.ok, h')) :
    (∀ m ∈ usedMetas h, ¬ (m.id = id ∧ m.partRef = ref)) ∧ (usedMetas h).length < 32 ∧ bytesUsed h + 32 ≤ 1920 := by
  have im := g.inv w
  have hend : endOff 0 (usedMetas h) = bytesUsed h := (bytesUsed_eq im).symm
  have hok : (addMeta h id ref 32).1 = .ok := by
    unfold addHashMeta at he
    split at he
    · rename_i e; rw [e]
    · rename_i hx
      have := Prod.mk.inj (Out.ret.inj he)
      rw [hx]; exact this.1
  have hlen := im.len
  rcases addMeta_cases im id ref 32 with ⟨_, h1, _⟩ | ⟨_, _, h1, _⟩ | ⟨_, _, _, h1⟩ | ⟨a, b, c, _⟩
  · rw [hok] at h1; cases h1
  · rw [hok] at h1; cases h1
  · rw [hok] at h1; cases h1
  · refine ⟨fun m hm hc => a ⟨m, hm, hc⟩, by omega, ?_⟩
    rw [hend] at c; exact c

/-- C65: exactly when it succeeds, for a nonzero part id and tree id: when there is room and the length is supported. -/
theorem C65_success_iff (H : HashFn) (hH : HashLen H) (p : Pkg) (g : GoodPkg p) (gm : GoodMetas p.hdr) (id : U32) (hid : id ≠ 0) (htid : partIdToHashTreeId id ≠ 0)
    (flags : U8) (hfl : flags &&& 2 = 0) (d salt : Bytes) (hsalt : salt.length = 32)
    (hsz : p.file.length + d.length + (hashTree H salt d).length + 512 < 2^63) (fuel : Nat) (hfuel : d.length / 4096 + 2 ≤ fuel) :
    (∃ p', addFileWithMerkle H fuel p id flags d salt = some (.ret (.ok, p'))) ↔ TreeRoom p.hdr id ∧ TreeSupported d.length := by
  constructor
  · rintro ⟨p', he⟩
    have hu32 : (usedParts p.hdr).length ≤ 32 := by have := (g.parts.inv g.wf).len; omega
    have hne : ¬ ∃ q ∈ usedParts p.hdr, q.id = id := by
      intro h
      have := (C35_add_refused H p g id flags d.length d fuel).1 h
      unfold addFileWithMerkle at he
      rw [this] at he
      cases he
    have hnew : ∀ q ∈ usedParts p.hdr, q.id ≠ id := fun q hq e => hne ⟨q, hq, e⟩
    have hl : (usedParts p.hdr).length ≠ 32 := by
      intro h
      have := (C35_add_refused H p g id flags d.length d fuel).2 hnew h
      unfold addFileWithMerkle at he
      rw [this] at he
      cases he
    obtain ⟨p1, e1, g1, sv1, hlen, hc1, hx1, hh1, ha1⟩ := C35_add_file H hH p g id hid hnew (by omega) flags hfl d (by omega) fuel hfuel
    unfold addFileWithMerkle at he
    rw [e1] at he
    simp only at he
    have hs : TreeSupported d.length := by
      rw [merkleComputeSize_eq] at he
      by_cases c1 : d.length % 4096 ≠ 0
      · rw [if_pos c1] at he; cases he
      · rw [if_neg c1] at he
        by_cases c2 : d.length = 0 ∨ d.length / 4096 > 128^4
        · rw [if_pos c2] at he; cases he
        · rw [if_neg c2] at he
          simp only at he
          refine ⟨by omega, by omega, ?_⟩
          apply Classical.byContradiction
          intro c3
          have : merkleBuffer H (treeSize (d.length / 4096)) salt d = .ub := by
            unfold merkleBuffer merkleInit
            rw [if_neg c1, if_neg (by omega), merkleLevelsGo_eq _ (by omega), if_pos (by omega)]
          rw [this] at he
          cases he
    refine ⟨?_, hs⟩
    obtain ⟨hb1, hb2⟩ := merkleBuffer_ok H hH salt d (by omega) hs
    rw [hb1] at he
    simp only at he
    rw [hb2] at he
    simp only at he
    have emetas : p1.hdr.metas = p.hdr.metas := by rw [hh1]
    have um1 : usedMetas p1.hdr = usedMetas p.hdr := by unfold usedMetas; rw [emetas]
    have ub1 : bytesUsed p1.hdr = bytesUsed p.hdr := by unfold bytesUsed; rw [um1]
    have gm1 : GoodMetas p1.hdr := goodMetas_same gm emetas
    have up1 : (usedParts p1.hdr).map (fun q => q.id) = (usedParts p.hdr).map (fun q => q.id) ++ [id] := by
      have := congrArg (List.map (fun x : U32 × U8 × Nat × Nat => x.1)) ha1
      simpa [List.map_map, Function.comp_def] using this
    cases hx : addHashMeta p1.hdr idMerkleSalt id salt with
    | ub => rw [hx] at he; cases he
    | ret r1 =>
      obtain ⟨c1, h1⟩ := r1
      rw [hx] at he
      have hc1 : c1 = .ok := by
        apply Classical.byContradiction
        intro hn
        cases c1 <;> first | exact hn rfl | (simp only at he; cases he)
      subst hc1
      simp only at he
      obtain ⟨r1, r2, r3⟩ := addHashMeta_room g1.wf gm1 idMerkleSalt id salt hx
      obtain ⟨h1', m1, a1, a2, a3, a4, a5, a6, a7, a8, a9, a10, a11, a12⟩ := addHashMeta_ok g1.wf gm1 idMerkleSalt id (by decide) salt hsalt r1 r2 r3
      have : h1 = h1' := by rw [hx] at a1; exact (Prod.mk.inj (Out.ret.inj a1)).2
      subst this
      cases hy : addHashMeta h1 idMerkleRootHash id (treeRoot H salt d) with
      | ub => rw [hy] at he; cases he
      | ret r1 =>
        obtain ⟨c1, h2⟩ := r1
        rw [hy] at he
        have hc1 : c1 = .ok := by
          apply Classical.byContradiction
          intro hn
          cases c1 <;> first | exact hn rfl | (simp only at he; cases he)
        subst hc1
        simp only at he
        obtain ⟨s1, s2, s3⟩ := addHashMeta_room a3 a4 idMerkleRootHash id (treeRoot H salt d) hy
        have hroot : (treeRoot H salt d).length = 32 := by unfold treeRoot; split <;> exact hH.sha256 _
        obtain ⟨h2', m2, b1, b2, b3, b4, b5, b6, b7, b8, b9, b10, b11, b12⟩ := addHashMeta_ok a3 a4 idMerkleRootHash id (by decide) (treeRoot H salt d) hroot s1 s2 s3
        have : h2 = h2' := by rw [hy] at b1; exact (Prod.mk.inj (Out.ret.inj b1)).2
        subst this
        have ep : h2.parts = p1.hdr.parts := by rw [b2, a2]
        have eu : usedParts h2 = usedParts p1.hdr := by unfold usedParts; rw [ep]
        have gp2 : GoodParts h2 := ⟨by rw [eu, ep]; exact g1.parts.slots, by rw [eu]; exact g1.parts.distinct⟩
        have hparts : (¬ ∃ q ∈ usedParts h2, q.id = partIdToHashTreeId id) ∧ (usedParts h2).length < 32 := by
          obtain ⟨⟨a, b, c⟩, hz⟩ : ∃ r, addPart h2 (partIdToHashTreeId id) = r := ⟨_, rfl⟩
          rw [hz] at he
          have ha : a = .ok := by
            apply Classical.byContradiction
            intro hn
            cases a <;> first | exact hn rfl | (simp only at he; cases he)
          subst ha
          have hlen := (gp2.inv b3).len
          rcases addPart_cases (gp2.inv b3) (partIdToHashTreeId id) with ⟨_, c1, c2⟩ | ⟨hn, _, c1, _⟩ | ⟨hn, hk, _⟩
          · rw [hz] at c1; cases c1
          · rw [hz] at c1; cases c1
          · exact ⟨hn, by omega⟩
        have hlu : (usedParts h2).length = (usedParts p.hdr).length + 1 := by
          have := congrArg List.length up1
          simp at this
          rw [eu, this]
        have hmem : ∀ i, i ∈ (usedParts p.hdr).map (fun q => q.id) ++ [id] → i ≠ partIdToHashTreeId id := by
          intro i hi e
          rw [← up1, ← eu] at hi
          obtain ⟨x, hx, ex⟩ := List.mem_map.1 hi
          exact hparts.1 ⟨x, hx, by rw [ex, e]⟩
        refine ⟨hid, htid, fun e => hmem id (by simp) e.symm, fun q hq => ⟨hnew q hq, hmem q.id (List.mem_append_left _ (List.mem_map.2 ⟨q, hq, rfl⟩))⟩, by omega, ?_, ?_, ?_, ?_⟩
        · rw [a5, um1, List.length_append] at s2; simp at s2; omega
        · rw [a10, ub1] at s3; omega
        · rw [← um1]; exact r1
        · intro m hm; refine s1 m ?_
          rw [a5, um1]; exact List.mem_append_left _ hm
  · rintro ⟨r, hs⟩
    obtain ⟨p', e, _⟩ := C65_add_file_with_tree H hH p g gm id r flags hfl d salt hs hsalt hsz fuel hfuel
    exact ⟨p', e⟩

/-- The hypotheses of C65 are met: a new package, an id whose tree id is another, one block of data. -/
example : ∃ p : Pkg, GoodPkg p ∧ GoodMetas p.hdr ∧ TreeRoom p.hdr 7 ∧ TreesOk exHash p ∧ TreeSupported (List.replicate 4096 (1 : U8)).length := by
  obtain ⟨p, e, g, sv, hc, hm, hfile, hhdr⟩ := C56_open_new exHash exHash_len
  have hup : usedParts p.hdr = [] := by rw [hhdr]; exact used_init
  have hum : usedMetas p.hdr = [] := by rw [hhdr]; exact (by decide +kernel : usedMetas initHeader = [])
  refine ⟨p, g, ?_, ⟨by decide, by decide +kernel, by decide +kernel, by rw [hup]; simp, by rw [hup]; simp, by rw [hum]; simp, by unfold bytesUsed; rw [hum]; simp, by rw [hum]; simp, by rw [hum]; simp⟩, ?_, by
    unfold TreeSupported; rw [List.length_replicate]; omega⟩
  · refine ⟨?_, by rw [hum]; simp, by rw [hum]; intro pre m post h; simp at h⟩
    rw [hum, hhdr]
    exact (by decide +kernel : initHeader.metas = List.replicate 32 MetaHdr.zero)
  · intro q hq; rw [hup] at hq; cases hq

/-! ### C66 -/

/-- C66, the flaw: adding a file with its hash tree is not all-or-nothing. For every package with room and every
file whose length is not a multiple of 4096 the call fails, but the file has been added, without a tree, and the
header on disk says so. -/
theorem C66_all_or_nothing_is_false (H : HashFn) (hH : HashLen H) (p : Pkg) (g : GoodPkg p) (id : U32) (hid : id ≠ 0) (hnew : ∀ q ∈ usedParts p.hdr, q.id ≠ id)
    (hroom : (usedParts p.hdr).length < 32) (flags : U8) (hfl : flags &&& 2 = 0) (d salt : Bytes) (hd : d.length % 4096 ≠ 0)
    (hsz : p.file.length + d.length + 512 < 2^63) (fuel : Nat) (hfuel : d.length / 4096 + 2 ≤ fuel) :
    ∃ p', addFileWithMerkle H fuel p id flags d salt = some (.ret (.badAlignment, p')) ∧ Saved p' ∧
      contents p' = contents p ++ [(id, d ++ List.replicate (padFor d.length) 0)] ∧ usedMetas p'.hdr = usedMetas p.hdr := by
  obtain ⟨p1, e1, g1, sv1, hlen, hc1, hx1, hh1, ha1⟩ := C35_add_file H hH p g id hid hnew hroom flags hfl d hsz fuel hfuel
  refine ⟨p1, ?_, sv1, hc1, by unfold usedMetas; rw [hh1]⟩
  unfold addFileWithMerkle
  rw [e1]
  simp only
  rw [merkleComputeSize_eq, if_pos hd]

/-- C66: likewise for an empty file. -/
theorem C66_empty_file_half_added (H : HashFn) (hH : HashLen H) (p : Pkg) (g : GoodPkg p) (id : U32) (hid : id ≠ 0) (hnew : ∀ q ∈ usedParts p.hdr, q.id ≠ id)
    (hroom : (usedParts p.hdr).length < 32) (flags : U8) (hfl : flags &&& 2 = 0) (salt : Bytes)
    (hsz : p.file.length + 512 < 2^63) (fuel : Nat) (hfuel : 2 ≤ fuel) :
    ∃ p', addFileWithMerkle H fuel p id flags [] salt = some (.ret (.noSpaceLeft, p')) ∧ Saved p' ∧ contents p' = contents p ++ [(id, [])] := by
  obtain ⟨p1, e1, g1, sv1, hlen, hc1, hx1, hh1, ha1⟩ := C35_add_file H hH p g id hid hnew hroom flags hfl [] (by simpa using hsz) fuel (by simpa using hfuel)
  refine ⟨p1, ?_, sv1, by simpa [padFor] using hc1⟩
  unfold addFileWithMerkle
  rw [e1]
  simp only
  rw [merkleComputeSize_eq, if_neg (by decide), if_pos (by simp)]

/-- C66: a file of more than 8 GiB (and up to 1 TiB) leads to undefined behaviour: the tree builder refuses it, but
its answer is not looked at. -/
theorem C66_large_file_undefined (H : HashFn) (hH : HashLen H) (p : Pkg) (g : GoodPkg p) (id : U32) (hid : id ≠ 0) (hnew : ∀ q ∈ usedParts p.hdr, q.id ≠ id)
    (hroom : (usedParts p.hdr).length < 32) (flags : U8) (hfl : flags &&& 2 = 0) (d salt : Bytes) (hsalt : salt.length ≤ 32)
    (hd : d.length % 4096 = 0) (h1 : 128^3 < d.length / 4096) (h2 : d.length / 4096 ≤ 128^4)
    (hsz : p.file.length + d.length + 512 < 2^63) (fuel : Nat) (hfuel : d.length / 4096 + 2 ≤ fuel) :
    addFileWithMerkle H fuel p id flags d salt = some .ub := by
  obtain ⟨p1, e1, _⟩ := C35_add_file H hH p g id hid hnew hroom flags hfl d hsz fuel hfuel
  unfold addFileWithMerkle
  rw [e1]
  simp only
  rw [merkleComputeSize_eq, if_neg (by omega), if_neg (by omega)]
  simp only
  have : merkleBuffer H (treeSize (d.length / 4096)) salt d = .ub := by
    unfold merkleBuffer merkleInit
    rw [if_neg (by omega), if_neg (by omega), merkleLevelsGo_eq _ hd, if_pos (by omega)]
  rw [this]

/-- C66: if the tree's id is taken, the file has been added on disk, and in memory the salt and the root hash too. -/
theorem C66_tree_id_taken (H : HashFn) (hH : HashLen H) (p : Pkg) (g : GoodPkg p) (gm : GoodMetas p.hdr) (id : U32) (hid : id ≠ 0)
    (hnew : ∀ q ∈ usedParts p.hdr, q.id ≠ id) (hold : ∃ q ∈ usedParts p.hdr, q.id = partIdToHashTreeId id) (hroom : (usedParts p.hdr).length < 32)
    (hmetas : (usedMetas p.hdr).length + 2 ≤ 32) (hbytes : bytesUsed p.hdr + 64 ≤ 1920)
    (hno : ∀ m ∈ usedMetas p.hdr, m.partRef ≠ id)
    (flags : U8) (hfl : flags &&& 2 = 0) (d salt : Bytes) (hs : TreeSupported d.length) (hsalt : salt.length = 32)
    (hsz : p.file.length + d.length + 512 < 2^63) (fuel : Nat) (hfuel : d.length / 4096 + 2 ≤ fuel) :
    ∃ p1 p', addFile H fuel p id flags d.length d = some (.ok, p1) ∧ Saved p1 ∧
      addFileWithMerkle H fuel p id flags d salt = some (.ret (.exists_, p')) ∧ p'.file = p1.file ∧
      entries p'.hdr = entries p.hdr ++ [⟨idMerkleSalt, id, salt⟩, ⟨idMerkleRootHash, id, treeRoot H salt d⟩] := by
  obtain ⟨p1, e1, g1, sv1, hlen, hc1, hx1, hh1, ha1⟩ := C35_add_file H hH p g id hid hnew hroom flags hfl d hsz fuel hfuel
  obtain ⟨hb1, hb2⟩ := merkleBuffer_ok H hH salt d (by omega) hs
  have emetas : p1.hdr.metas = p.hdr.metas := by rw [hh1]
  have emd : p1.hdr.metadata = p.hdr.metadata := by rw [hh1]
  have um1 : usedMetas p1.hdr = usedMetas p.hdr := by unfold usedMetas; rw [emetas]
  have ub1 : bytesUsed p1.hdr = bytesUsed p.hdr := by unfold bytesUsed; rw [um1]
  have gm1 : GoodMetas p1.hdr := goodMetas_same gm emetas
  have een : entries p1.hdr = entries p.hdr := by unfold entries metaContent; rw [um1, emd]
  obtain ⟨h1, m1, a1, a2, a3, a4, a5, a6, a7, a8, a9, a10, a11, a12⟩ := addHashMeta_ok g1.wf gm1 idMerkleSalt id (by decide) salt hsalt
    (by rw [um1]; exact fun m hm hc => hno m hm hc.2) (by rw [um1]; omega) (by rw [ub1]; omega)
  have hroot : (treeRoot H salt d).length = 32 := by unfold treeRoot; split <;> exact hH.sha256 _
  obtain ⟨h2, m2, b1, b2, b3, b4, b5, b6, b7, b8, b9, b10, b11, b12⟩ := addHashMeta_ok a3 a4 idMerkleRootHash id (by decide) (treeRoot H salt d) hroot
    (by
      rw [a5, um1]
      intro m hm hc
      rcases List.mem_append.1 hm with hm | hm
      · exact hno m hm hc.2
      · simp at hm; rw [hm, a6] at hc; exact absurd hc.1 (by decide))
    (by rw [a5, um1, List.length_append]; simp; omega) (by rw [a10, ub1]; omega)
  have ep : h2.parts = p1.hdr.parts := by rw [b2, a2]
  have eu : usedParts h2 = usedParts p1.hdr := by unfold usedParts; rw [ep]
  have up1 : (usedParts p1.hdr).map (fun q => q.id) = (usedParts p.hdr).map (fun q => q.id) ++ [id] := by
    have := congrArg (List.map (fun x : U32 × U8 × Nat × Nat => x.1)) ha1
    simpa [List.map_map, Function.comp_def] using this
  have gp2 : GoodParts h2 := ⟨by rw [eu, ep]; exact g1.parts.slots, by rw [eu]; exact g1.parts.distinct⟩
  have hex : ∃ q ∈ usedParts h2, q.id = partIdToHashTreeId id := by
    obtain ⟨q, hq, e⟩ := hold
    have : q.id ∈ (usedParts p1.hdr).map (fun q => q.id) := by rw [up1]; exact List.mem_append_left _ (List.mem_map.2 ⟨q, hq, rfl⟩)
    obtain ⟨x, hx, ex⟩ := List.mem_map.1 this
    exact ⟨x, by rw [eu]; exact hx, by rw [ex, e]⟩
  rcases addPart_cases (gp2.inv b3) (partIdToHashTreeId id) with ⟨_, c1, c2⟩ | ⟨hn, _⟩ | ⟨hn, _⟩
  · obtain ⟨⟨a, b, c⟩, hx⟩ : ∃ r, addPart h2 (partIdToHashTreeId id) = r := ⟨_, rfl⟩
    rw [hx] at c1 c2
    simp only at c1 c2
    subst c1; subst c2
    refine ⟨p1, { p1 with hdr := b }, e1, sv1, ?_, rfl, by rw [b9, a9, een]; simp⟩
    unfold addFileWithMerkle
    rw [e1]
    simp only
    rw [hb1]
    simp only
    rw [hb2]
    simp only
    rw [a1]
    simp only
    rw [b1]
    simp only
    rw [hx]
  · exact absurd hex hn
  · exact absurd hex hn

/-- C66, what holds: if the part is there already or the part table is full, nothing changes. Missing: the other
failures, where it is false. -/
theorem C66_all_or_nothing_partial (H : HashFn) (p : Pkg) (g : GoodPkg p) (id : U32) (flags : U8) (d salt : Bytes) (fuel : Nat) :
    ((∃ q ∈ usedParts p.hdr, q.id = id) → addFileWithMerkle H fuel p id flags d salt = some (.ret (.exists_, p))) ∧
    ((∀ q ∈ usedParts p.hdr, q.id ≠ id) → (usedParts p.hdr).length = 32 → addFileWithMerkle H fuel p id flags d salt = some (.ret (.noSpaceLeft, p))) := by
  constructor
  · intro h
    unfold addFileWithMerkle
    rw [(C35_add_refused H p g id flags d.length d fuel).1 h]
  · intro h1 h2
    unfold addFileWithMerkle
    rw [(C35_add_refused H p g id flags d.length d fuel).2 h1 h2]

/-- The hypotheses of C66 are met: the new package again, and one that has a part under the tree id of 7. -/
example : ∃ p : Pkg, GoodPkg p ∧ (∀ q ∈ usedParts p.hdr, q.id ≠ 7) ∧ (usedParts p.hdr).length < 32 ∧ p.file.length + [1, 2, 3].length + 512 < 2^63 ∧ ([1, 2, 3] : Bytes).length % 4096 ≠ 0 := by
  obtain ⟨p, e, g, sv, hc, hm, hfile, hhdr⟩ := C56_open_new exHash exHash_len
  have hup : usedParts p.hdr = [] := by rw [hhdr]; exact used_init
  exact ⟨p, g, by rw [hup]; simp, by rw [hup]; simp, by rw [g.exact, hup]; decide, by decide⟩
example : ∃ p : Pkg, GoodPkg p ∧ GoodMetas p.hdr ∧ (∀ q ∈ usedParts p.hdr, q.id ≠ 7) ∧ (∃ q ∈ usedParts p.hdr, q.id = partIdToHashTreeId 7) ∧
    (usedParts p.hdr).length < 32 ∧ (usedMetas p.hdr).length + 2 ≤ 32 ∧ bytesUsed p.hdr + 64 ≤ 1920 := by
  obtain ⟨p, e, g, sv, hc, hm, hfile, hhdr⟩ := C56_open_new exHash exHash_len
  have hup : usedParts p.hdr = [] := by rw [hhdr]; exact used_init
  have hum : usedMetas p.hdr = [] := by rw [hhdr]; exact (by decide +kernel : usedMetas initHeader = [])
  obtain ⟨p1, e1, g1, sv1, hlen, hc1, hx1, hh1, ha1⟩ := C35_add_file exHash exHash_len p g (partIdToHashTreeId 7) (by decide +kernel) (by rw [hup]; simp) (by rw [hup]; simp) 0 (by decide) [1, 2, 3]
    (by rw [g.exact, hup]; decide) 2 (by decide)
  have um1 : usedMetas p1.hdr = [] := by rw [← hum]; unfold usedMetas; rw [hh1]
  rw [hup] at ha1
  have hl : (usedParts p1.hdr).length = 1 := by have := congrArg List.length ha1; simpa using this
  have hi : (usedParts p1.hdr).map (fun q => q.id) = [partIdToHashTreeId 7] := by
    have := congrArg (List.map (fun x : U32 × U8 × Nat × Nat => x.1)) ha1
    simpa [List.map_map, Function.comp_def] using this
  have hall : ∀ q ∈ usedParts p1.hdr, q.id = partIdToHashTreeId 7 := by
    intro q hq
    have : q.id ∈ (usedParts p1.hdr).map (fun q => q.id) := List.mem_map.2 ⟨q, hq, rfl⟩
    rw [hi] at this; simpa using this
  refine ⟨p1, g1, ?_, ?_, ?_, by omega, by rw [um1]; simp, by unfold bytesUsed; rw [um1]; simp⟩
  · refine ⟨?_, by rw [um1]; simp, by rw [um1]; intro pre m post h; simp at h⟩
    rw [um1, hh1, hhdr]
    exact (by decide +kernel : initHeader.metas = List.replicate 32 MetaHdr.zero)
  · intro q hq h; rw [hall q hq] at h; exact absurd h (by decide +kernel)
  · obtain ⟨q, hq⟩ : ∃ q, q ∈ usedParts p1.hdr := List.exists_mem_of_length_pos (by omega)
    exact ⟨q, hq, hall q hq⟩

/-! ### C67 crash while adding a file with its tree -/

/-- C67: a crash while the tree is written (after the file was added; also in the middle of a write) leaves a file
from which the package with the old parts and the new file opens; the writes before that are those of
`bpak_pkg_add_file` (C57). Hence before the first header write the old package opens, after it the package with
the file, after the second that with the tree. -/
theorem C67_crash_while_adding_tree (H : HashFn) (hH : HashLen H) (p : Pkg) (g : GoodPkg p) (gm : GoodMetas p.hdr) (id : U32) (r : TreeRoom p.hdr id)
    (flags : U8) (hfl : flags &&& 2 = 0) (d salt : Bytes) (hs : TreeSupported d.length) (hsalt : salt.length = 32)
    (hsz : p.file.length + d.length + (hashTree H salt d).length + 512 < 2^63) (fuel : Nat) (hfuel : d.length / 4096 + 2 ≤ fuel) :
    ∃ p1 p', addFile H fuel p id flags d.length d = some (.ok, p1) ∧ addFileWithMerkle H fuel p id flags d salt = some (.ret (.ok, p')) ∧
      p'.log = p1.log ++ [.write p1.file.length (hashTree H salt d), .write 0 p'.hdr.image] ∧
      p'.file = applyOps p1.file [.write p1.file.length (hashTree H salt d), .write 0 p'.hdr.image] ∧
      ∀ f', CrashState p1.file [.write p1.file.length (hashTree H salt d)] f' →
        parseHeader (f'.take 4096) = p1.hdr ∧ contents { p1 with file := f' } = contents p ++ [(id, d)] := by
  have hpad : padFor d.length = 0 := by unfold padFor; rw [if_neg (by have := hs.1; omega)]
  obtain ⟨p1, h1, h2, p', q, e1, e2, e3, e4, e5, e6, e7, e8, e9⟩ := addFileWithMerkle_ok H hH p g gm id r flags hfl d salt hs hsalt hsz fuel hfuel
  obtain ⟨p1', y1, g1, sv1, hlen, hc1, _⟩ := C35_add_file H hH p g id r.id0 (fun q hq => (r.fresh q hq).1) (by have := r.slots; omega) flags hfl d (by omega) fuel hfuel
  have : p1 = p1' := by rw [e1] at y1; exact (Prod.mk.inj (Option.some.inj y1)).2
  subst this
  rw [hpad] at hlen hc1
  simp only [List.replicate_zero, List.append_nil] at hc1
  have hx := g1.exact
  have t : TidyParts p1.hdr := g1.parts.tidy (by omega)
  refine ⟨p1, p', e1, e5, e8, ?_, ?_⟩
  · exact e9
  · intro f' hc
    have hpre := crash_prefix p1.file _ (by intro o ho; simp at ho; rw [ho]; show _ ≤ _; omega) f' hc
    obtain ⟨tl, rfl⟩ := hpre
    constructor
    · rw [List.take_append_of_le_length (by omega)]; exact sv1.2
    · rw [← hc1, contents_eq { p1 with file := p1.file ++ tl } t, contents_eq p1 t]
      simp only
      rw [List.drop_append_of_le_length (by omega)]
      have := splitParts_append (usedParts p1.hdr) [] (p1.file.drop 4096) tl (by rw [List.length_drop]; omega)
      simpa [splitParts] using this

end Bpak
