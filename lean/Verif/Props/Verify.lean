import Verif.Proof.Verify
import Verif.Props.Part
/-! Properties of payload hashing and verification (C31, C32, C53, C54). -/
namespace Bpak

/-! ### C31 -/

/-- C31: for every header, payload (below 2^63 bytes), start offset, hash function and output buffer: the
exact result. The digest is that of `hashedBytes`: the stored bytes of the used, not excluded parts in table
order. -/
theorem C31_payload_hash_covers (H : HashFn) (h : Header) (P : Bytes) (hP : P.length < 2^63) (off : U64) (bufLen : Nat) :
    computePayloadHash H h (payloadReader P) off bufLen =
      match digestLen h.hashKind with
      | none => (.unsupportedHashAlg, none)
      | some n => if ¬ HashedReadable P h.parts off then (.readError, none)
        else if bufLen < n then (.sizeError, none)
        else (.ok, some (H h.hashKind (hashedBytes P h.parts off))) :=
  computePayloadHash_eq H h P (by omega) off bufLen

/-- A table as the API leaves it: used slots first, ids distinct, sizes that add up to a file size. -/
structure TidyParts (h : Header) : Prop where
  compact : ∀ p ∈ h.parts.drop (usedParts h).length, p.id = 0
  distinct : (usedParts h).Pairwise (fun a b => a.id ≠ b.id)
  fits : 4096 + ((usedParts h).map storedSize).sum < 2^63

theorem tidy_of_reachable (h : Header) (hr : Reachable h) (hf : 4096 + ((usedParts h).map storedSize).sum < 2^63) : TidyParts h := by
  obtain ⟨ps, k, ip⟩ := hr.inv.parts
  have hu := ip.used
  refine ⟨?_, by rw [hu]; exact ip.distinct, hf⟩
  intro p hp
  rw [hu, ip.slots, List.drop_left] at hp
  rw [(List.mem_replicate.1 hp).2]; rfl

theorem used_append (h : Header) : h.parts = usedParts h ++ h.parts.drop (usedParts h).length := by
  obtain ⟨rest, hrest⟩ := List.takeWhile_prefix (fun p : PartHdr => decide (p.id ≠ 0)) (l := h.parts)
  have e : usedParts h ++ rest = h.parts := hrest
  have e2 : h.parts.drop (usedParts h).length = rest := by
    conv => lhs; arg 2; rw [← e]
    exact List.drop_left
  rw [e2, e]

theorem used_ids (h : Header) : ∀ p ∈ usedParts h, p.id ≠ 0 := by
  intro q hq
  have := List.all_takeWhile (p := fun p : PartHdr => decide (p.id ≠ 0)) (l := h.parts)
  have := List.all_eq_true.1 this q hq
  simpa using this

theorem stored_lt (h : Header) (t : TidyParts h) (p : PartHdr) (hp : p ∈ usedParts h) : storedSize p < 2^63 := by
  have : storedSize p ≤ ((usedParts h).map storedSize).sum := le_sum_of_mem' (List.mem_map.2 ⟨p, hp, rfl⟩)
  have := t.fits
  omega

theorem hashedBytes_unused (P : Bytes) (ps : List PartHdr) (h0 : ∀ p ∈ ps, p.id = 0) (off : U64) :
    hashedBytes P ps off = [] ∧ HashedReadable P ps off := by
  induction ps generalizing off with
  | nil => exact ⟨rfl, trivial⟩
  | cons p ps ih =>
    have := h0 p List.mem_cons_self
    simp only [hashedBytes, HashedReadable, if_pos this]
    exact ih (fun q hq => h0 q (List.mem_cons_of_mem _ hq)) off

/-- offsets within a tidy table -/
theorem tidy_offset (h : Header) (t : TidyParts h) (pre post : List PartHdr) (p : PartHdr) (hu : usedParts h = pre ++ p :: post) :
    (partOffset h p).toNat = 4096 + (pre.map storedSize).sum ∧ (partSize p).toNat = storedSize p := by
  refine ⟨C12_part_offset_exact h pre post p hu t.distinct t.fits, partSize_stored p ?_⟩
  have := stored_lt h t p (by rw [hu]; simp)
  omega

theorem hashed_tidy_aux (h : Header) (t : TidyParts h) (P : Bytes) (rest : List PartHdr) (hr : ∀ p ∈ rest, p.id = 0) :
    ∀ (post pre : List PartHdr) (off : U64), usedParts h = pre ++ post → off.toNat = 4096 + (pre.map storedSize).sum →
      hashedBytes P (post ++ rest) off = (post.filter (fun p => !p.excluded)).flatMap (fun p => fileRead P (partOffset h p).toNat (storedSize p)) ∧
      (HashedReadable P (post ++ rest) off ↔ ∀ p ∈ post, p.excluded = false → (fileRead P (partOffset h p).toNat (storedSize p)).length = storedSize p) := by
  intro post
  induction post with
  | nil =>
    intro pre off hu ho
    have := hashedBytes_unused P rest hr off
    exact ⟨this.1, ⟨fun _ => by simp, fun _ => this.2⟩⟩
  | cons p post ih =>
    intro pre off hu ho
    have hp0 : p.id ≠ 0 := used_ids h p (by rw [hu]; simp)
    obtain ⟨e1, e2⟩ := tidy_offset h t pre post p hu
    have hfit := t.fits
    rw [hu] at hfit
    simp only [List.map_append, List.map_cons, List.sum_append, List.sum_cons] at hfit
    have hadd : (off + partSize p).toNat = 4096 + ((pre ++ [p]).map storedSize).sum := by
      rw [BitVec.toNat_add, ho, e2, Nat.mod_eq_of_lt (by omega)]
      simp; omega
    obtain ⟨i1, i2⟩ := ih (pre ++ [p]) (off + partSize p) (by rw [hu]; simp) hadd
    have hoff : off.toNat = (partOffset h p).toNat := by omega
    constructor
    · rw [List.cons_append, hashedBytes, if_neg hp0, i1, hoff, e2, List.filter_cons]
      cases hx : p.excluded with
      | true => simp
      | false => simp
    · rw [List.cons_append]
      simp only [HashedReadable, if_neg hp0]
      rw [i2, hoff, e2]
      constructor
      · rintro ⟨a, b⟩ q hq hx
        rcases List.mem_cons.1 hq with rfl | hq
        · exact a hx
        · exact b q hq hx
      · intro a
        exact ⟨a p List.mem_cons_self, fun q hq hx => a q (List.mem_cons_of_mem _ hq) hx⟩

/-- C31, for the headers the API produces: the hashed bytes are exactly those of the not excluded parts, each
at the offset `bpak_part_offset` reports. -/
theorem C31_bytes_at_part_offsets (h : Header) (t : TidyParts h) (P : Bytes) :
    hashedBytes P h.parts 4096 =
      ((usedParts h).filter (fun p => !p.excluded)).flatMap (fun p => fileRead P (partOffset h p).toNat (storedSize p)) ∧
    (HashedReadable P h.parts 4096 ↔
      ∀ p ∈ usedParts h, p.excluded = false → (fileRead P (partOffset h p).toNat (storedSize p)).length = storedSize p) := by
  have := hashed_tidy_aux h t P (h.parts.drop (usedParts h).length) t.compact (usedParts h) [] 4096 rfl (by decide)
  rw [← used_append] at this
  exact this

/-- C31: what lies in an excluded part does not matter: overwriting any bytes inside it leaves code and digest
as they were. -/
theorem C31_excluded_bytes_free (H : HashFn) (h : Header) (t : TidyParts h) (P : Bytes) (hP : P.length < 2^63)
    (p : PartHdr) (hp : p ∈ usedParts h) (hx : p.excluded = true) (pos : Nat) (d : Bytes)
    (h1 : (partOffset h p).toNat ≤ pos) (h2 : pos + d.length ≤ (partOffset h p).toNat + storedSize p) (h3 : pos + d.length ≤ P.length) (bufLen : Nat) :
    computePayloadHash H h (payloadReader (fileWrite P pos d)) 4096 bufLen = computePayloadHash H h (payloadReader P) 4096 bufLen := by
  have hlen : (fileWrite P pos d).length = P.length := by
    by_cases hd : d = []
    · rw [hd, fileWrite_nil]
    · rw [fileWrite_length _ _ _ hd]; omega
  rw [C31_payload_hash_covers H h _ (by omega), C31_payload_hash_covers H h P hP]
  -- every included part is read unchanged
  have hsame : ∀ q ∈ usedParts h, q.excluded = false →
      fileRead (fileWrite P pos d) (partOffset h q).toNat (storedSize q) = fileRead P (partOffset h q).toNat (storedSize q) := by
    intro q hq hqx
    have hne : q ≠ p := by intro e; rw [e, hx] at hqx; cases hqx
    have hdis : (partOffset h q).toNat + storedSize q ≤ (partOffset h p).toNat ∨ (partOffset h p).toNat + storedSize p ≤ (partOffset h q).toNat := by
      obtain ⟨a, b, hab⟩ := List.append_of_mem hp
      rw [hab] at hq
      rcases List.mem_append.1 hq with hq | hq
      · obtain ⟨a1, a2, ha⟩ := List.append_of_mem hq
        left
        exact (C12_part_ranges_disjoint h a1 a2 b q p (by rw [hab, ha]) t.distinct t.fits).2.1
      · rcases List.mem_cons.1 hq with hq | hq
        · exact absurd hq hne
        · obtain ⟨b1, b2, hb⟩ := List.append_of_mem hq
          right
          exact (C12_part_ranges_disjoint h a b1 b2 p q (by rw [hab, hb]; simp) t.distinct t.fits).2.1
    by_cases hd : d = []
    · rw [hd, fileWrite_nil]
    have hdl := List.length_pos_iff.2 hd
    rcases hdis with hdis | hdis
    · by_cases hz : (partOffset h q).toNat + storedSize q ≤ P.length
      · exact fileRead_fileWrite_disjoint _ _ _ _ _ (.inl (by omega)) (.inl hz)
      · omega
    · exact fileRead_fileWrite_disjoint _ _ _ _ _ (.inr (by omega)) (.inr (by omega))
  obtain ⟨a1, a2⟩ := C31_bytes_at_part_offsets h t (fileWrite P pos d)
  obtain ⟨b1, b2⟩ := C31_bytes_at_part_offsets h t P
  have e1 : hashedBytes (fileWrite P pos d) h.parts 4096 = hashedBytes P h.parts 4096 := by
    rw [a1, b1]
    rw [List.flatMap_def, List.flatMap_def]
    congr 1
    apply List.map_congr_left
    intro q hq
    rw [List.mem_filter] at hq
    exact hsame q hq.1 (by simpa using hq.2)
  have e2 : HashedReadable (fileWrite P pos d) h.parts 4096 ↔ HashedReadable P h.parts 4096 := by
    rw [a2, b2]
    constructor
    · intro hh q hq hqx; rw [← hsame q hq hqx]; exact hh q hq hqx
    · intro hh q hq hqx; rw [hsame q hq hqx]; exact hh q hq hqx
  rw [e1]
  simp only [e2]

/-- Three parts (512 bytes; 512 excluded; 512 of transport size 5): what is hashed is the first and the last. -/
def exPayloadHdr : Header :=
  (run initHeader [.addPart 7, .setPart 7 500 12 0 0, .addPart 8, .setPart 8 512 0 1 0, .addPart 9, .setPart 9 700 0 2 5]).getD initHeader
theorem exPayload_reachable : Reachable exPayloadHdr :=
  ⟨[.addPart 7, .setPart 7 500 12 0 0, .addPart 8, .setPart 8 512 0 1 0, .addPart 9, .setPart 9 700 0 2 5], by decide +kernel⟩
example : TidyParts exPayloadHdr := tidy_of_reachable _ exPayload_reachable (by decide +kernel)
example : ((usedParts exPayloadHdr).filter (fun p => !p.excluded)).map (fun p => ((partOffset exPayloadHdr p).toNat, storedSize p)) =
    [(4096, 512), (5120, 5)] := by decide +kernel
example : hashedBytes (List.replicate 4096 0 ++ List.replicate 512 1 ++ List.replicate 512 2 ++ [3, 4, 5, 6, 7]) exPayloadHdr.parts 4096 =
    List.replicate 512 1 ++ [3, 4, 5, 6, 7] := by decide +kernel

/-! ### C32 -/

/-- A part's hash tree, as `bpak_verify_payload` finds it: root and salt are the 32 bytes the part's metadata
entries point to, the tree the part whose id is derived from the part's. -/
structure TreeInfo (h : Header) (p : PartHdr) (root salt : Bytes) (tp : PartHdr) : Prop where
  rootMeta : ∃ i m, getMeta h idMerkleRootHash p.id = some i ∧ h.metas[i]? = some m ∧ readAt h.metadata m.offset.toNat 32 = some root
  saltMeta : ∃ i m, getMeta h idMerkleSalt p.id = some i ∧ h.metas[i]? = some m ∧ readAt h.metadata m.offset.toNat 32 = some salt
  tree : ∃ i, getPart h (partIdToHashTreeId p.id) = some i ∧ h.parts[i]? = some tp

theorem verifyPartTree_ok (H : HashFn) (h : Header) (rd : Reader) (off : U64) (p : PartHdr) (ri : Slot)
    (hri : getMeta h idMerkleRootHash p.id = some ri) :
    verifyPartTree H h rd off p ri = .ret .ok ↔
      ∃ root salt tp, TreeInfo h p root salt tp ∧
        verifyMerkleTree H rd (partOffset h p - 4096 + off).toNat (partSize p).toNat (partOffset h tp - 4096 + off).toNat root salt = .ok := by
  unfold verifyPartTree
  cases hs : getMeta h idMerkleSalt p.id with
  | none =>
    simp only
    refine ⟨fun hx => (by cases hx), ?_⟩
    rintro ⟨_, _, _, t, _⟩
    obtain ⟨_, _, a, _⟩ := t.saltMeta
    rw [hs] at a; cases a
  | some si =>
    simp only
    cases ht : getPart h (partIdToHashTreeId p.id) with
    | none =>
      simp only
      refine ⟨fun hx => (by cases hx), ?_⟩
      rintro ⟨_, _, _, t, _⟩
      obtain ⟨_, a, _⟩ := t.tree
      rw [ht] at a; cases a
    | some ti =>
      simp only
      constructor
      · intro hx
        split at hx
        · rename_i tp root salt h1 h2 h3
          refine ⟨root, salt, tp, ⟨?_, ?_, ti, ht, h1⟩, by injection hx⟩
          · unfold metaHash at h2
            split at h2
            · cases h2
            · rename_i m hm; exact ⟨ri, m, hri, hm, h2⟩
          · unfold metaHash at h3
            split at h3
            · cases h3
            · rename_i m hm; exact ⟨si, m, hs, hm, h3⟩
        · cases hx
      · rintro ⟨root, salt, tp, t, hv⟩
        obtain ⟨i1, m1, a1, a2, a3⟩ := t.rootMeta
        obtain ⟨i2, m2, b1, b2, b3⟩ := t.saltMeta
        obtain ⟨i3, c1, c2⟩ := t.tree
        rw [hri] at a1; cases a1
        rw [hs] at b1; cases b1
        rw [ht] at c1; cases c1
        have e1 : metaHash h ri = some root := by unfold metaHash; rw [a2]; exact a3
        have e2 : metaHash h si = some salt := by unfold metaHash; rw [b2]; exact b3
        rw [c2, e1, e2]
        simp only
        rw [hv]

/-- C32: exactly what `bpak_verify_payload` accepts: the hash kind is known, the hashed parts can be read,
their digest is the one in the header, and every part with a root-hash entry has a salt entry and a tree part
and passes the hash tree check (C30). -/
theorem C32_accepts_iff (H : HashFn) (h : Header) (P : Bytes) (hP : P.length < 2^63) (off : U64) :
    verifyPayload H h (payloadReader P) off = .ret .ok ↔
      (∃ n, digestLen h.hashKind = some n) ∧ HashedReadable P h.parts off ∧
      H h.hashKind (hashedBytes P h.parts off) <+: h.payloadHash ∧
      ∀ p ∈ h.parts, p.id ≠ 0 → (∃ i, getMeta h idMerkleRootHash p.id = some i) →
        ∃ root salt tp, TreeInfo h p root salt tp ∧
          verifyMerkleTree H (payloadReader P) (partOffset h p - 4096 + off).toNat (partSize p).toNat (partOffset h tp - 4096 + off).toNat root salt = .ok := by
  rw [verifyPayload_ok H h P (by omega), verifyTreesGo_ok, List.prefix_iff_eq_take]
  constructor
  · rintro ⟨a, b, c, d⟩
    refine ⟨a, b, c, fun p hp h0 hi => ?_⟩
    obtain ⟨i, hi⟩ := hi
    exact (verifyPartTree_ok H h _ off p i hi).1 (d p hp h0 i hi)
  · rintro ⟨a, b, c, d⟩
    exact ⟨a, b, c, fun p hp h0 i hi => (verifyPartTree_ok H h _ off p i hi).2 (d p hp h0 ⟨i, hi⟩)⟩

/-- Equal hashed bytes, both readable: equal part by part. -/
theorem hashed_parts_eq (ps : List PartHdr) (f g : PartHdr → Bytes) (hl : ∀ p ∈ ps, (f p).length = (g p).length)
    (he : ps.flatMap f = ps.flatMap g) : ∀ p ∈ ps, f p = g p := by
  induction ps with
  | nil => simp
  | cons q ps ih =>
    rw [List.flatMap_cons, List.flatMap_cons] at he
    have := List.append_inj he (hl q List.mem_cons_self)
    intro p hp
    rcases List.mem_cons.1 hp with rfl | hp
    · exact this.1
    · exact ih (fun p hp => hl p (List.mem_cons_of_mem _ hp)) this.2 p hp

/-- C32: a change to a hashed part is noticed: two payloads accepted under the same header hold the same bytes
in every part not excluded from hashing, or two different byte strings have the same digest. -/
theorem C32_hashed_change_detected (H : HashFn) (hH : HashLen H) (h : Header) (t : TidyParts h) (P Q : Bytes)
    (hP : P.length < 2^63) (hQ : Q.length < 2^63)
    (vP : verifyPayload H h (payloadReader P) 4096 = .ret .ok) (vQ : verifyPayload H h (payloadReader Q) 4096 = .ret .ok) :
    (∀ p ∈ usedParts h, p.excluded = false →
      fileRead P (partOffset h p).toNat (storedSize p) = fileRead Q (partOffset h p).toNat (storedSize p)) ∨
    ∃ x y : Bytes, x ≠ y ∧ H h.hashKind x = H h.hashKind y := by
  rw [C32_accepts_iff H h P hP] at vP
  rw [C32_accepts_iff H h Q hQ] at vQ
  obtain ⟨⟨n, hn⟩, p2, p3, _⟩ := vP
  obtain ⟨_, q2, q3, _⟩ := vQ
  have e : H h.hashKind (hashedBytes P h.parts 4096) = H h.hashKind (hashedBytes Q h.parts 4096) := by
    rw [List.prefix_iff_eq_take] at p3 q3
    rw [p3, q3, hH _ n hn, hH _ n hn]
  by_cases hb : hashedBytes P h.parts 4096 = hashedBytes Q h.parts 4096
  · left
    obtain ⟨a1, a2⟩ := C31_bytes_at_part_offsets h t P
    obtain ⟨b1, b2⟩ := C31_bytes_at_part_offsets h t Q
    rw [a1, b1] at hb
    rw [a2] at p2
    rw [b2] at q2
    intro p hp hx
    exact hashed_parts_eq _ _ _ (by
      intro q hq
      rw [List.mem_filter] at hq
      have hq2 : q.excluded = false := by simpa using hq.2
      rw [p2 q hq.1 hq2, q2 q hq.1 hq2]) hb p (by rw [List.mem_filter]; exact ⟨hp, by simp [hx]⟩)
  · exact .inr ⟨_, _, hb, e⟩

/-- C32: the same for a part with a hash tree, excluded from hashing or not. -/
theorem C32_tree_part_change_detected (H : HashFn) (hH : HashLen H) (h : Header) (P Q : Bytes)
    (hP : P.length < 2^63) (hQ : Q.length < 2^63)
    (vP : verifyPayload H h (payloadReader P) 4096 = .ret .ok) (vQ : verifyPayload H h (payloadReader Q) 4096 = .ret .ok)
    (p : PartHdr) (hp : p ∈ h.parts) (h0 : p.id ≠ 0) (i : Slot) (hi : getMeta h idMerkleRootHash p.id = some i) :
    fileRead P (partOffset h p).toNat (partSize p).toNat = fileRead Q (partOffset h p).toNat (partSize p).toNat ∨
    ∃ salt x y : Bytes, x ≠ y ∧ H hashSha256 (salt ++ x) = H hashSha256 (salt ++ y) := by
  rw [C32_accepts_iff H h P hP] at vP
  rw [C32_accepts_iff H h Q hQ] at vQ
  obtain ⟨root, salt, tp, t1, v1⟩ := vP.2.2.2 p hp h0 ⟨i, hi⟩
  obtain ⟨root', salt', tp', t2, v2⟩ := vQ.2.2.2 p hp h0 ⟨i, hi⟩
  obtain ⟨i1, m1, a1, a2, a3⟩ := t1.rootMeta
  obtain ⟨i1', m1', a1', a2', a3'⟩ := t2.rootMeta
  rw [a1] at a1'; cases a1'
  rw [a2] at a2'; cases a2'
  rw [a3] at a3'; cases a3'
  obtain ⟨i2, m2, b1, b2, b3⟩ := t1.saltMeta
  obtain ⟨i2', m2', b1', b2', b3'⟩ := t2.saltMeta
  rw [b1] at b1'; cases b1'
  rw [b2] at b2'; cases b2'
  rw [b3] at b3'; cases b3'
  have hsl : salt.length ≤ 32 := by
    unfold readAt at b3
    split at b3
    · cases b3; rw [List.length_take]; omega
    · cases b3
  have e : ∀ x : U64, x - 4096 + 4096 = x := by intro x; rw [BitVec.sub_add_cancel]
  rw [e, e] at v1 v2
  rcases verify_bind2 H hH P Q _ _ _ _ _ root salt hsl v1 v2 with r | ⟨x, y, _, _, r1, r2⟩
  · exact .inl r
  · exact .inr ⟨salt, x, y, r1, r2⟩

/-! ### C54 memory safety of the lookups -/

/-- C54, the flaw: a header built through the API and accepted by `bpak_valid_header`, for which
`bpak_verify_payload` reads past the metadata area: the size of the root-hash entry is not checked. -/
theorem C54_memory_safe_is_false : ∃ (H : HashFn) (h : Header) (P : Bytes), HashLen H ∧ Reachable h ∧ validHeader h = .ok ∧
    verifyPayload H h (payloadReader P) 4096 = .ub := by
  refine ⟨fun k _ => List.replicate (if k = 1 then 32 else if k = 2 then 48 else 64) 0,
    (run initHeader [.addPart 1, .addPart (partIdToHashTreeId 1), .addMeta idMerkleSalt 1 32, .addMeta 5 0 1872, .addMeta idMerkleRootHash 1 8]).getD initHeader,
    [], ?_, ?_, ?_, ?_⟩
  · intro k n h b
    unfold digestLen at h
    simp only [hashSha256, hashSha384, hashSha512] at h
    rw [List.length_replicate]
    split at h
    · cases h; simp [*]
    · split at h
      · cases h; simp [*]
      · split at h
        · cases h; simp [*]
        · cases h
  · exact ⟨[.addPart 1, .addPart (partIdToHashTreeId 1), .addMeta idMerkleSalt 1 32, .addMeta 5 0 1872, .addMeta idMerkleRootHash 1 8], by decide +kernel⟩
  · decide +kernel
  · decide +kernel

theorem verifyPayload_safe (H : HashFn) (h : Header) (hr : Inv h) (rd : Reader) (off : U64)
    (hs : ∀ m ∈ usedMetas h, m.id = idMerkleSalt ∨ m.id = idMerkleRootHash → 32 ≤ m.size.toNat) :
    verifyPayload H h rd off ≠ .ub := by
  obtain ⟨us, k, im⟩ := hr.metas
  have hmeta : ∀ (id ref : U32) (i : Slot), id = idMerkleSalt ∨ id = idMerkleRootHash → getMeta h id ref = some i → ∃ b, metaHash h i = some b := by
    intro id ref i hid hg
    have hne : id ≠ 0 := by rcases hid with e | e <;> rw [e] <;> decide
    obtain ⟨pre, m, post, e1, _, e3, _, e5⟩ := getMeta_split im hne hg
    unfold metaHash
    rw [e5]
    simp only
    have hm : m ∈ us := by rw [e1]; simp
    have h1 := (im.packed.ge m hm).2
    have h2 := hs m (by rw [im.used]; exact hm) (by rw [e3]; exact hid)
    have h3 := im.md
    unfold readAt
    rw [if_pos (by omega)]
    exact ⟨_, rfl⟩
  have hpart : ∀ p ri, getMeta h idMerkleRootHash p.id = some ri → verifyPartTree H h rd off p ri ≠ .ub := by
    intro p ri hri
    unfold verifyPartTree
    cases hsa : getMeta h idMerkleSalt p.id with
    | none => simp
    | some si =>
      simp only
      cases ht : getPart h (partIdToHashTreeId p.id) with
      | none => simp
      | some ti =>
        simp only
        obtain ⟨b1, c1⟩ := hmeta _ _ _ (.inr rfl) hri
        obtain ⟨b2, c2⟩ := hmeta _ _ _ (.inl rfl) hsa
        obtain ⟨-, ⟨m, hm, -⟩, -⟩ := getPartGo_some ht
        simp only [Nat.sub_zero] at hm
        rw [hm, c1, c2]
        simp
  have htrees : ∀ ps, verifyTreesGo H h rd off ps ≠ .ub := by
    intro ps
    induction ps with
    | nil => simp [verifyTreesGo]
    | cons p ps ih =>
      unfold verifyTreesGo
      split
      · exact ih
      · split
        · exact ih
        · rename_i ri hri
          split
          · rename_i e; exact absurd e (hpart p ri hri)
          · exact ih
          · simp
  unfold verifyPayload
  split
  · split
    · simp
    · exact htrees _
  · simp

/-- C54, what holds: for API-built headers whose salt and root-hash entries have the size bpak gives them (at
least 32), nothing outside the header is read, whatever the payload. Missing: other sizes, where it is false. -/
theorem C54_memory_safe_partial (H : HashFn) (h : Header) (hr : Reachable h) (rd : Reader) (off : U64)
    (hs : ∀ m ∈ usedMetas h, m.id = idMerkleSalt ∨ m.id = idMerkleRootHash → 32 ≤ m.size.toNat) :
    verifyPayload H h rd off ≠ .ub :=
  verifyPayload_safe H h hr.inv rd off hs

/-! ### C53 hashed where extracted -/

/-- C53, the flaw: `bpak_valid_header` accepts a part table with an unused slot in the middle; the hash skips
it, the offset computation stops there: a part behind it is hashed at one place and read from another. Here
part 3 is looked up at 4608, in the middle of the excluded part 2, while the bytes hashed for it are at 5120. -/
theorem C53_hashed_where_read_is_false : ∃ (h : Header) (P : Bytes) (p : PartHdr), h.WF ∧ validHeader h = .ok ∧
    getPart h p.id = some 3 ∧ h.parts[3]? = some p ∧ p.excluded = false ∧
    hashedBytes P h.parts 4096 = List.replicate 512 1 ++ List.replicate 512 3 ∧
    fileRead P (partOffset h p).toNat (storedSize p) = List.replicate 512 2 := by
  refine ⟨{ initHeader with parts := [{ PartHdr.zero with id := 1, size := 512 }, PartHdr.zero, { PartHdr.zero with id := 2, size := 512, flags := 1 },
    { PartHdr.zero with id := 3, size := 512 }] ++ List.replicate 28 PartHdr.zero },
    List.replicate 4096 0 ++ List.replicate 512 1 ++ List.replicate 512 2 ++ List.replicate 512 3,
    { PartHdr.zero with id := 3, size := 512 }, by decide +kernel, by decide +kernel, by decide +kernel, by decide +kernel, by decide +kernel,
    by decide +kernel, by decide +kernel⟩

/-- C53, what holds: in a table as the API leaves it, a part not excluded from hashing is hashed exactly at the
place it is read from. Missing: tables with unused slots before used ones or repeated ids. -/
theorem C53_hashed_where_read_partial (h : Header) (hr : Reachable h) (hf : 4096 + ((usedParts h).map storedSize).sum < 2^63) (P : Bytes)
    (pre post : List PartHdr) (p : PartHdr) (hu : usedParts h = pre ++ p :: post) (hx : p.excluded = false)
    (hrd : HashedReadable P h.parts 4096) :
    ∃ before after, hashedBytes P h.parts 4096 = before ++ fileRead P (partOffset h p).toNat (storedSize p) ++ after ∧
      (fileRead P (partOffset h p).toNat (storedSize p)).length = storedSize p ∧
      before.length = ((pre.filter (fun q => !q.excluded)).map storedSize).sum := by
  have t := tidy_of_reachable h hr hf
  obtain ⟨a1, a2⟩ := C31_bytes_at_part_offsets h t P
  rw [a2] at hrd
  refine ⟨(pre.filter (fun q => !q.excluded)).flatMap (fun p => fileRead P (partOffset h p).toNat (storedSize p)),
    (post.filter (fun q => !q.excluded)).flatMap (fun p => fileRead P (partOffset h p).toNat (storedSize p)), ?_, hrd p (by rw [hu]; simp) hx, ?_⟩
  · rw [a1, hu, List.filter_append, List.filter_cons, if_pos (by simp [hx]), List.flatMap_append, List.flatMap_cons, List.append_assoc]
  · rw [List.length_flatMap]
    congr 1
    apply List.map_congr_left
    intro q hq
    rw [List.mem_filter] at hq
    exact hrd q (by rw [hu]; simp [hq.1]) (by simpa using hq.2)

/-! ### C55 -/

/-- C55: for every header, file and id: the exact result. The digest is the SHA-256 of the part's data as stored,
without its padding, at the place `bpak_part_offset` gives; nothing is written otherwise. -/
theorem C55_part_sha256 (H : HashFn) (h : Header) (f : Bytes) (bufLen : Nat) (id : U32) :
    pkgPartSha256 H h f bufLen id =
      match h.parts.find? (fun p => p.id = id) with
      | none => (.notFound, none)
      | some p =>
        if 2^63 ≤ (partOffset h p).toNat then (.seekError, none)
        else if f.length < (partOffset h p).toNat + (partSizeWoPad p).toNat ∧ (partSizeWoPad p).toNat ≠ 0 then (.readError, none)
        else if bufLen < 32 then (.sizeError, none)
        else (.ok, some (H hashSha256 (fileRead f (partOffset h p).toNat (partSizeWoPad p).toNat))) := by
  unfold pkgPartSha256
  cases hg : getPart h id with
  | none =>
    rw [(List.find?_eq_none).2]
    intro p hp
    simpa using (getPartGo_none.1 hg) p hp
  | some i =>
    obtain ⟨-, ⟨p, h1, h2⟩, h3⟩ := getPartGo_some hg
    simp only [Nat.sub_zero] at h1 h3
    have : h.parts.find? (fun p => decide (p.id = id)) = some p := by
      rw [List.find?_eq_some_iff_getElem]
      obtain ⟨hi, e⟩ := List.getElem?_eq_some_iff.1 h1
      refine ⟨by simpa using h2, i, hi, e, ?_⟩
      intro j hj
      have := h3 j hj (h.parts[j]) (List.getElem?_eq_getElem (by omega))
      simpa using this
    rw [this]
    simp only [h1]
    split
    · rfl
    · rw [sha256ReadLoop_eq]
      by_cases hr : (partOffset h p).toNat + (partSizeWoPad p).toNat ≤ f.length ∨ (partSizeWoPad p).toNat = 0
      · rw [if_pos hr, if_neg (by omega)]
        simp [hashFinal, digestLen]
      · rw [if_neg hr, if_pos (by omega)]

example : pkgPartSha256 (fun _ b => b) exPayloadHdr (List.replicate 4096 0 ++ List.replicate 512 1 ++ List.replicate 512 2 ++ [3, 4, 5, 6, 7]) 32 9 =
    (.ok, some [3, 4, 5, 6, 7]) := by decide +kernel

end Bpak
