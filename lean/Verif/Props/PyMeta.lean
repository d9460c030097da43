import Verif.Props.Python
/-! `Meta.raw_data`, `Meta.as_string`, and renaming (C91, C92). -/
namespace Bpak

/-- The bytes a Python value stands for: a `bytes` object its own, a `str` its ASCII characters and a NUL. -/
def DataOf (v : PyVal) (d : Bytes) : Prop :=
  v = .bytes d ∨ ∃ s : List Nat, v = .str s ∧ (∀ c ∈ s, c < 128) ∧ d = s.map (BitVec.ofNat 8) ++ [0]

theorem pyData_of {v : PyVal} {d : Bytes} (h : DataOf v d) : pyData v = .val d := by
  rcases h with rfl | ⟨s, rfl, h1, rfl⟩
  · rfl
  · simp only [pyData, pyAscii]
    rw [if_pos (by rw [List.all_eq_true]; intro c hc; simpa using h1 c hc)]

theorem pyMeta_entry {H : HashFn} {p : Pkg} {s : List (U32 × Bytes)} (i : PkgInv H p s) {pre post : List Entry} {id ref : U32} {d : Bytes}
    (he : entries p.hdr = pre ++ ⟨id, ref, d⟩ :: post) : ∃ pre' m post' k, MetaInv p.hdr (pre' ++ m :: post') k ∧ pyMeta p id ref = some (pre'.length, m) ∧
      m.id = id ∧ m.partRef = ref ∧ m.size.toNat = d.length ∧ m.offset.toNat + d.length ≤ 1920 ∧ d = (p.hdr.metadata.drop m.offset.toNat).take d.length ∧
      pre = pre'.map (entOf p.hdr) ∧ post = post'.map (entOf p.hdr) := by
  obtain ⟨us, k, im⟩ := i.hdr.metas
  obtain ⟨pre', m, post', rfl, h1, h2, h3⟩ := entry_slot im he
  obtain ⟨g1, g2⟩ := getMeta_used im pre' post' m rfl
  have e1 : id = m.id := congrArg Entry.id h3
  have e2 : ref = m.partRef := congrArg Entry.ref h3
  have e3 : d = (p.hdr.metadata.drop m.offset.toNat).take m.size.toNat := congrArg Entry.data h3
  have hb := (im.packed.ge m (by simp)).2
  have hmd := im.md
  have hl : d.length = m.size.toNat := by rw [e3]; simp; omega
  refine ⟨pre', m, post', k, im, ?_, e1.symm, e2.symm, hl.symm, by omega, by rw [hl]; exact e3, h1, h2⟩
  unfold pyMeta
  rw [e1, e2, g1]
  simp only [g2, Option.map_some]

/-- C91: assigning `raw_data`. Data no longer than the entry is stored and the rest of the entry zeroed: `raw_data` then gives exactly that,
every other entry and everything else in the package is as before, and the file holds it at once. Longer data raises ValueError and
nothing changes. -/
theorem C91_raw_data {SK PK : Type} (H : HashFn) (hH : HashLen H) (S : SigScheme SK PK) (hS : ∀ sk rnd k d, S.sign sk rnd k d ≠ .error .ok)
    (s : List (U32 × Bytes)) (t : List (PyCall SK × Option PyExc)) (p : Pkg) (h : PySession H S s t p) (pre post : List Entry) (id ref : U32) (old : Bytes)
    (he : entries p.hdr = pre ++ ⟨id, ref, old⟩ :: post) (v : PyVal) (d : Bytes) (hd : DataOf v d) :
    if d.length ≤ old.length then ∃ p', pyMetaSetRaw p id ref v = .ret (.val (), p') ∧
      entries p'.hdr = pre ++ ⟨id, ref, d ++ List.replicate (old.length - d.length) 0⟩ :: post ∧
      pyMetaRaw p' id ref = .ret (.val (d ++ List.replicate (old.length - d.length) 0)) ∧
      p'.hdr = { p.hdr with metadata := p'.hdr.metadata } ∧ p'.file.drop 4096 = p.file.drop 4096 ∧ Opens H p'.file p'.hdr
    else pyMetaSetRaw p id ref v = .ret (.raise .valueError, p) := by
  have i := pysession_inv hH S hS h
  obtain ⟨pre', m, post', k, im, g, e1, e2, e3, e4, e5, rfl, rfl⟩ := pyMeta_entry i he
  unfold pyMetaSetRaw
  rw [g, pyData_of hd]
  simp only
  rw [e3]
  by_cases hl : d.length ≤ old.length
  · rw [if_pos hl, if_pos hl]
    obtain ⟨md, w1, w2, w3⟩ := write_entries im (d ++ List.replicate (old.length - d.length) 0) (by simp; omega)
    rw [w1]
    have w := i.good.wf
    obtain ⟨h', hh⟩ : ∃ h' : Header, { p.hdr with metadata := md } = h' := ⟨_, rfl⟩
    have wf' : h'.WF := by rw [← hh]; exact ⟨w.1, w.2.1, w.2.2.1, w2.md, w.2.2.2.2⟩
    rw [hh] at w2 w3
    have i2 := i.write h' wf' w2.good (by rw [← hh]) (by rw [← hh]) (by rw [← hh]) (by rw [← hh])
    refine ⟨writeHeader { p with hdr := h' }, by simp only [hh], ?_, ?_, ?_, (write_facts wf').1, i2.open true⟩
    · show entries h' = _
      rw [w3, e1, e2]
    · obtain ⟨pre2, m2, post2, k2, im2, g2, -, -, f3, f4, f5, -⟩ := pyMeta_entry i2 (pre := pre'.map (entOf p.hdr)) (post := post'.map (entOf p.hdr)) (id := id) (ref := ref)
        (d := d ++ List.replicate (old.length - d.length) 0) (by show entries h' = _; rw [w3, e1, e2])
      unfold pyMetaRaw
      rw [g2]
      simp only
      have hmd := im2.md
      rw [readAt_eq_some (by omega), f3, ← f5]
    · show h' = { p.hdr with metadata := h'.metadata }
      rw [← hh]
  · rw [if_neg hl, if_neg hl]

/-- C91: an id and part reference under which there is no entry: KeyError, nothing changes. -/
theorem C91_no_entry {SK PK : Type} (H : HashFn) (hH : HashLen H) (S : SigScheme SK PK) (hS : ∀ sk rnd k d, S.sign sk rnd k d ≠ .error .ok)
    (s : List (U32 × Bytes)) (t : List (PyCall SK × Option PyExc)) (p : Pkg) (h : PySession H S s t p) (id ref : U32) (hid : id ≠ 0)
    (he : ∀ x ∈ entries p.hdr, ¬ (x.id = id ∧ x.ref = ref)) (v : PyVal) :
    pyMetaSetRaw p id ref v = .ret (.raise .keyError, p) ∧ pyMetaRaw p id ref = .ret (.raise .keyError) ∧ pyMetaSize p id ref = .raise .keyError ∧
    pyMetaString p id ref = .ret (.raise .keyError) ∧ pyMetaDelete p id ref = .ret (.raise .keyError, p) := by
  have i := pysession_inv hH S hS h
  obtain ⟨us, k, im⟩ := i.hdr.metas
  have hg : getMeta p.hdr id ref = none := by
    rw [getMeta_none_iff im id ref hid]
    intro m hm e
    exact he (entOf p.hdr m) (by rw [entries_inv im]; exact List.mem_map_of_mem hm) e
  have hp : pyMeta p id ref = none := by unfold pyMeta; rw [hg]
  refine ⟨?_, ?_, ?_, ?_, ?_⟩
  · unfold pyMetaSetRaw; rw [hp]
  · unfold pyMetaRaw; rw [hp]
  · unfold pyMetaSize; rw [hp]
  · unfold pyMetaString; rw [hp]
  · unfold pyMetaDelete; rw [hg]

theorem image_metadata {h : Header} (w : h.WF) : ∃ r, h.image.drop 1544 = h.metadata ++ r ∧ h.image.drop 3464 = r := by
  obtain ⟨w1, w2, w3, w4, w5, w6, w7, w8⟩ := w
  have hl : (le32 h.magic ++ h.pad0 ++ h.metas.flatMap metaImage ++ h.parts.flatMap partImage).length = 1544 := by
    simp only [List.length_append, w1]
    rw [flatMap_length metaImage 16 h.metas (fun m hm => metaImage_length (w8 m hm)), flatMap_length partImage 32 h.parts (fun p _ => partImage_length p), w2, w3]
    rfl
  have e : h.image = (le32 h.magic ++ h.pad0 ++ h.metas.flatMap metaImage ++ h.parts.flatMap partImage) ++ (h.metadata ++ ([h.hashKind, h.signatureKind] ++ le16 h.alignment ++ h.payloadHash ++ le32 h.keyId ++ le32 h.keystoreId ++
      h.pad1 ++ h.signature ++ le16 h.signatureSz)) := by
    unfold Header.image
    simp only [List.append_assoc]
  have e1 : h.image.drop 1544 = h.metadata ++ ([h.hashKind, h.signatureKind] ++ le16 h.alignment ++ h.payloadHash ++ le32 h.keyId ++ le32 h.keystoreId ++
      h.pad1 ++ h.signature ++ le16 h.signatureSz) := by
    rw [e, List.drop_append_of_le_length (by omega), List.drop_of_length_le (by omega), List.nil_append]
  refine ⟨_, e1, ?_⟩
  rw [show 3464 = 1544 + 1920 from rfl, ← List.drop_drop, e1, List.drop_append_of_le_length (by omega), List.drop_of_length_le (by omega), List.nil_append]

theorem takeWhile_window (f : U8 → Bool) (X : Bytes) : ∀ k, (X.take k).takeWhile f = X.take (if (X.takeWhile f).length > k then k else (X.takeWhile f).length) := by
  induction X with
  | nil => intro k; simp
  | cons x X ih =>
    intro k
    cases k with
    | zero => simp
    | succ k =>
      rw [List.take_succ_cons]
      cases hx : f x with
      | false => simp [hx]
      | true =>
        rw [List.takeWhile_cons_of_pos hx, List.takeWhile_cons_of_pos hx, ih, List.length_cons]
        by_cases hk : (X.takeWhile f).length > k
        · rw [if_pos hk, if_pos (by omega), List.take_succ_cons]
        · rw [if_neg hk, if_neg (by omega), List.take_succ_cons]

/-- C91: `as_string` gives the entry's bytes up to the first NUL (all of them if there is none), or raises if one is not ASCII: provided
there is a NUL in the entry or in the header fields after the metadata, for otherwise the search for it leaves the header. -/
theorem C91_as_string {SK PK : Type} (H : HashFn) (hH : HashLen H) (S : SigScheme SK PK) (hS : ∀ sk rnd k d, S.sign sk rnd k d ≠ .error .ok)
    (s : List (U32 × Bytes)) (t : List (PyCall SK × Option PyExc)) (p : Pkg) (h : PySession H S s t p) (pre post : List Entry) (id ref : U32) (d : Bytes)
    (he : entries p.hdr = pre ++ ⟨id, ref, d⟩ :: post) (hz : 0 ∈ d ∨ 0 ∈ p.hdr.image.drop 3464) :
    pyMetaString p id ref = .ret (if ∀ c ∈ d.takeWhile (· ≠ 0), c.toNat < 128 then .val ((d.takeWhile (· ≠ 0)).map BitVec.toNat) else .raise .unicodeError) := by
  have i := pysession_inv hH S hS h
  obtain ⟨pre', m, post', k, im, g, e1, e2, e3, e4, e5, -, -⟩ := pyMeta_entry i he
  obtain ⟨r, r1, r2⟩ := image_metadata i.good.wf
  have hmd := im.md
  unfold pyMetaString
  rw [g]
  simp only
  rw [← List.drop_drop, r1, List.drop_append_of_le_length (by omega), e3]
  obtain ⟨X, hX⟩ : ∃ X, p.hdr.metadata.drop m.offset.toNat ++ r = X := ⟨_, rfl⟩
  have hd : X.take d.length = d := by
    rw [← hX, List.take_append_of_le_length (by rw [List.length_drop]; omega)]
    exact e5.symm
  rw [hX]
  have h0 : 0 ∈ X := by
    rcases hz with hz | hz
    · rw [← hd] at hz; exact List.mem_of_mem_take hz
    · rw [← hX, ← r2]; exact List.mem_append_right _ hz
  unfold strlenC
  rw [if_neg (by rw [List.all_eq_true]; intro hc; exact absurd (hc 0 h0) (by decide))]
  simp only
  rw [← takeWhile_window, hd]
  by_cases hc : ∀ c ∈ d.takeWhile (· ≠ 0), c.toNat < 128
  · rw [if_pos hc, if_pos (by rw [List.all_eq_true]; intro c h; simpa using hc c h)]
  · rw [if_neg hc, if_neg (by rw [List.all_eq_true]; intro h; exact hc (fun c hm => by simpa using h c hm))]

/-- C91: text assigned to `raw_data` comes back from `as_string`, if it has no NUL in it and fits together with its NUL. -/
theorem C91_text_round_trip {SK PK : Type} (H : HashFn) (hH : HashLen H) (S : SigScheme SK PK) (hS : ∀ sk rnd k d, S.sign sk rnd k d ≠ .error .ok)
    (s : List (U32 × Bytes)) (t : List (PyCall SK × Option PyExc)) (p : Pkg) (h : PySession H S s t p) (pre post : List Entry) (id ref : U32) (hid : id ≠ 0) (old : Bytes)
    (he : entries p.hdr = pre ++ ⟨id, ref, old⟩ :: post) (txt : List Nat) (ht : ∀ c ∈ txt, 0 < c ∧ c < 128) (hl : txt.length < old.length) :
    ∃ p', pyMetaSetRaw p id ref (.str txt) = .ret (.val (), p') ∧ pyMetaString p' id ref = .ret (.val txt) := by
  have hr := C91_raw_data H hH S hS s t p h pre post id ref old he (.str txt) (txt.map (BitVec.ofNat 8) ++ [0]) (Or.inr ⟨txt, rfl, fun c hc => (ht c hc).2, rfl⟩)
  rw [if_pos (by simp; omega)] at hr
  obtain ⟨p', a1, a2, -⟩ := hr
  refine ⟨p', a1, ?_⟩
  have hs2 : PySession H S s (t ++ [(.metaSetRaw id ref (.str txt), none)]) p' := .call h hid (by simp only [pyStep]; rw [a1]; rfl)
  rw [C91_as_string H hH S hS _ _ p' hs2 pre post id ref _ a2 (Or.inl (by simp))]
  have htw : ((txt.map (BitVec.ofNat 8) ++ [0]) ++ List.replicate (old.length - (txt.map (BitVec.ofNat 8) ++ [(0 : U8)]).length) 0).takeWhile (fun c : U8 => decide (c ≠ 0)) = txt.map (BitVec.ofNat 8) := by
    rw [List.append_assoc]
    refine takeWhile_text ?_ (by simp)
    intro hm
    obtain ⟨c, hc, e⟩ := List.mem_map.1 hm
    have h1 := congrArg BitVec.toNat e
    rw [BitVec.toNat_ofNat] at h1
    have h2 := ht c hc
    have h3 : (0 : U8).toNat = 0 := rfl
    omega
  rw [htw, if_pos]
  · rw [List.map_map]
    have : txt.map (BitVec.toNat ∘ BitVec.ofNat 8) = txt := by
      conv => rhs; rw [← List.map_id txt]
      apply List.map_congr_left
      intro c hc
      have := ht c hc
      simp
      omega
    rw [this]
  · intro c' hm
    obtain ⟨c, hc, rfl⟩ := List.mem_map.1 hm
    have := ht c hc
    rw [BitVec.toNat_ofNat]
    omega

/-! ### C92: renaming -/

theorem int_in {n : Int} {x : U32} (h : 0 ≤ n ∧ n < 2^64 ∧ pyMask n = x) : pyU32 (.int n) = .val x := by
  rw [pyU32_eq]; simp only; rw [if_pos ⟨h.1, h.2.1⟩, h.2.2]

theorem pyParts_used (p : Pkg) : pyParts p = (usedParts p.hdr).map (·.id) := rfl

/-- C92: assigning a part an id that no other part has: the part is listed and read under its new id, in its old place; all other
parts, their contents, the metadata and the rest of the header stay; the file holds it at once. Metadata entries that refer to the part by
its old id are not changed either. -/
theorem C92_part_id {SK PK : Type} (H : HashFn) (hH : HashLen H) (S : SigScheme SK PK) (hS : ∀ sk rnd k d, S.sign sk rnd k d ≠ .error .ok)
    (s : List (U32 × Bytes)) (t : List (PyCall SK × Option PyExc)) (p : Pkg) (h : PySession H S s t p) (id x : U32) (n : Int) (hn : 0 ≤ n ∧ n < 2^64 ∧ pyMask n = x)
    (hid : id ∈ pyParts p) (hx : x ≠ 0) (hfree : x ∈ pyParts p → x = id) :
    ∃ p', pyPartSetId p id (.int n) = (.val (), p') ∧
      usedParts p'.hdr = (usedParts p.hdr).map (fun q => if q.id = id then { q with id := x } else q) ∧
      files p' = (files p).map (fun c => if c.1 = id then (x, c.2) else c) ∧
      p'.hdr = { p.hdr with parts := p'.hdr.parts } ∧ p'.file.drop 4096 = p.file.drop 4096 ∧ Opens H p'.file p'.hdr ∧ HashStored H p' := by
  have i := pysession_inv hH S hS h
  have pi := i.good.parts.inv i.good.wf
  have hid0 : id ≠ 0 := by
    rw [pyParts_used] at hid
    obtain ⟨q, hq, rfl⟩ := List.mem_map.1 hid
    exact pi.ids q hq
  rcases pyPart_some pi hid0 with ⟨-, h2⟩ | ⟨pre, q, post, h1, h2, h3⟩
  · exfalso
    rw [pyParts_used] at hid
    obtain ⟨q, hq, rfl⟩ := List.mem_map.1 hid
    exact h2 q hq rfl
  · obtain ⟨i2, hu⟩ := i.rename h1 x hx (by
      intro r hr e
      rw [h2]
      exact hfree (by rw [pyParts_used]; exact List.mem_map.2 ⟨r, hr, e⟩))
    have w2 := i2.good.wf
    refine ⟨writeHeader { p with hdr := renameHdr p.hdr pre.length q x }, ?_, ?_, ?_, rfl, (write_facts w2).1, i2.open true, i2.hash⟩
    · unfold pyPartSetId
      rw [int_in hn]
      simp only
      rw [h3]
      rfl
    · show usedParts (renameHdr p.hdr pre.length q x) = _
      rw [hu, h2]
      rfl
    · rw [i2.files, ← i.files, h2]

theorem partOffsetGo_prefix (id : U32) (pre : List PartHdr) : ∀ (off : U64) (q : PartHdr) (r r' : List PartHdr), q.id = id →
    partOffsetGo id off (pre ++ q :: r) = partOffsetGo id off (pre ++ q :: r') := by
  induction pre with
  | nil =>
    intro off q r r' h
    simp only [List.nil_append, partOffsetGo]
    simp [h]
  | cons a pre ih =>
    intro off q r r' h
    simp only [List.cons_append, partOffsetGo]
    split
    · rfl
    · split
      · rfl
      · exact ih _ q r r' h

/-- "Every part can be read under the id it is listed with" is false once a part is renamed to the id of a part before it: the assignment
succeeds, the id is listed twice, reading it gives the other part's content, and the old id is gone. -/
theorem C92_taken_id_is_false {SK PK : Type} (H : HashFn) (hH : HashLen H) (S : SigScheme SK PK) (hS : ∀ sk rnd k d, S.sign sk rnd k d ≠ .error .ok)
    (s : List (U32 × Bytes)) (t : List (PyCall SK × Option PyExc)) (p : Pkg) (h : PySession H S s t p) (u v w : List U32) (a b : U32)
    (hp : pyParts p = u ++ a :: v ++ b :: w) (n : Int) (hn : 0 ≤ n ∧ n < 2^64 ∧ pyMask n = a) :
    ∃ p', pyPartSetId p b (.int n) = (.val (), p') ∧ pyParts p' = u ++ a :: v ++ a :: w ∧ pyReadData p' a = pyReadData p a ∧ pyReadData p' b = .raise .keyError ∧
      validHeader p'.hdr = .ok := by
  have i := pysession_inv hH S hS h
  have pi := i.good.parts.inv i.good.wf
  have hd := pi.distinct
  have ht : TidyParts p.hdr := i.good.parts.tidy (by have := i.small; have := i.good.exact; omega)
  rw [pyParts_used] at hp
  obtain ⟨A, B, hAB, hA, hB⟩ := List.map_eq_append_iff.1 hp
  obtain ⟨qb, W, rfl, hqb, hW⟩ := List.map_eq_cons_iff.1 hB
  obtain ⟨U, C, rfl, hU, hC⟩ := List.map_eq_append_iff.1 hA
  obtain ⟨qa, V, rfl, hqa, hV⟩ := List.map_eq_cons_iff.1 hC
  have hg := getPart_used pi (U ++ qa :: V) W qb hAB
  rw [hqb] at hg
  have hslots := pi.slots
  rw [hAB] at hslots
  obtain ⟨R, hR⟩ : ∃ R, List.replicate (32 - (U ++ qa :: V ++ qb :: W).length) PartHdr.zero = R := ⟨_, rfl⟩
  rw [hR] at hslots
  obtain ⟨h', hh⟩ : ∃ h' : Header, { p.hdr with parts := p.hdr.parts.set (U ++ qa :: V).length { qb with id := a } } = h' := ⟨_, rfl⟩
  have hparts : h'.parts = U ++ qa :: (V ++ { qb with id := a } :: (W ++ R)) := by
    rw [← hh]
    simp only
    rw [hslots]
    simp
  have ha0 : a ≠ 0 := by rw [← hqa]; exact pi.ids qa (by rw [hAB]; simp)
  have hids : ∀ q ∈ U ++ qa :: (V ++ { qb with id := a } :: W), q.id ≠ 0 := by
    intro q hq
    have hq : q ∈ U ∨ q = qa ∨ q ∈ V ∨ q = { qb with id := a } ∨ q ∈ W := by simpa using hq
    rcases hq with hq | hq | hq | hq | hq
    · exact pi.ids q (by rw [hAB]; simp [hq])
    · exact pi.ids q (by rw [hAB]; simp [hq])
    · exact pi.ids q (by rw [hAB]; simp [hq])
    · rw [hq]; exact ha0
    · exact pi.ids q (by rw [hAB]; simp [hq])
  have hused : usedParts h' = U ++ qa :: (V ++ { qb with id := a } :: W) := by
    unfold usedParts
    rw [hparts, show U ++ qa :: (V ++ { qb with id := a } :: (W ++ R)) = (U ++ qa :: (V ++ { qb with id := a } :: W)) ++ R by simp, List.takeWhile_append_of_pos (by simpa using hids)]
    rw [← hR]
    cases 32 - (U ++ qa :: V ++ qb :: W).length with
    | zero => simp
    | succ n => rw [List.replicate_succ, List.takeWhile_cons_of_neg (by decide)]; simp
  have hwf : h'.WF := by
    rw [← hh]
    have w := i.good.wf
    exact ⟨w.1, w.2.1, by simpa using w.2.2.1, w.2.2.2⟩
  have hoff : ∀ q : PartHdr, q.id = a → partOffset h' q = partOffset p.hdr q := by
    intro q hq
    unfold partOffset
    rw [hparts, hslots, hq]
    rw [show U ++ qa :: V ++ qb :: W ++ R = U ++ qa :: (V ++ qb :: (W ++ R)) by simp]
    exact partOffsetGo_prefix a U _ qa _ _ hqa
  refine ⟨writeHeader { p with hdr := h' }, ?_, ?_, ?_, ?_, ?_⟩
  · unfold pyPartSetId
    rw [int_in hn]
    simp only [pyPart, hg.1, hg.2, Option.map_some]
    rw [hh]
  · rw [pyParts_used]
    show (usedParts h').map (·.id) = _
    rw [hused]
    simp [hqa, hU, hV, hW]
  · have g1 := getPart_used pi U (V ++ qb :: W) qa (by rw [hAB]; simp)
    rw [hqa] at g1
    have g2 : getPart h' a = some U.length ∧ h'.parts[U.length]? = some qa := by
      have hs2 : h'.parts[U.length]? = some qa := by rw [hparts]; simp
      refine ⟨?_, hs2⟩
      rw [C10_get_part_is_first_match]
      refine ⟨⟨qa, hs2, hqa⟩, ?_⟩
      intro j hj x hx
      rw [hparts, List.getElem?_append_left hj] at hx
      rw [C10_get_part_is_first_match] at g1
      exact g1.1.2 j hj x (by rw [hslots]; simp only [List.append_assoc]; rw [List.getElem?_append_left hj]; exact hx)
    unfold pyReadData pyPart
    show (match (match getPart h' a with | none => none | some i => (h'.parts[i]?).map (fun q => (i, q))) with
      | none => _ | some (_, q) => _) = _
    rw [g1.1, g2.1]
    simp only [g1.2, g2.2, Option.map_some]
    have ho := hoff qa hqa
    have ho2 : partOffset (writeHeader { p with hdr := h' }).hdr qa = partOffset p.hdr qa := ho
    rw [ho2]
    have hf : fileRead (writeHeader { p with hdr := h' }).file (partOffset p.hdr qa).toNat (partSizeWoPad qa).toNat = fileRead p.file (partOffset p.hdr qa).toNat (partSizeWoPad qa).toNat :=
      fileRead_drop _ _ (write_facts hwf).1 _ _ (partOffset_ge p.hdr ht qa)
    rw [hf]
  · have hgn : getPart h' b = none := by
      rw [C10_get_part_not_found]
      intro q hq
      have hb0 : b ≠ 0 := by rw [← hqb]; exact pi.ids qb (by rw [hAB]; simp)
      rw [hAB, List.pairwise_append] at hd
      obtain ⟨-, d2, d3⟩ := hd
      rw [List.pairwise_cons] at d2
      rw [hparts] at hq
      have hq : q ∈ U ∨ q = qa ∨ q ∈ V ∨ q = { qb with id := a } ∨ q ∈ W ∨ q ∈ R := by simpa using hq
      have hab : a ≠ b := by rw [← hqa, ← hqb]; exact d3 qa (by simp) qb (by simp)
      rcases hq with hq | hq | hq | hq | hq | hq
      · rw [← hqb]; exact d3 q (by simp [hq]) qb (by simp)
      · rw [hq, hqa]; exact hab
      · rw [← hqb]; exact d3 q (by simp [hq]) qb (by simp)
      · rw [hq]; exact hab
      · rw [← hqb]; exact fun e => d2.1 q hq e.symm
      · rw [← hR] at hq; rw [(List.mem_replicate.1 hq).2]; exact fun e => hb0 e.symm
    unfold pyReadData pyPart
    show (match (match getPart h' b with | none => none | some i => (h'.parts[i]?).map (fun q => (i, q))) with
      | none => _ | some (_, q) => _) = _
    rw [hgn]
  · show validHeader h' = .ok
    have hv := i.valid
    rw [C13_valid_header_code] at hv ⊢
    have e1 : h'.magic = p.hdr.magic := by rw [← hh]
    have e2 : usedMetas h' = usedMetas p.hdr := by unfold usedMetas; rw [← hh]
    have e3 : h'.hashKind = p.hdr.hashKind := by rw [← hh]
    rw [e1, e2, e3]
    split at hv
    · cases hv
    · rename_i v1
      rw [if_neg v1]
      split at hv
      · cases hv
      · rename_i v2
        rw [if_neg]
        · exact hv
        · intro hc
          apply hc
          intro q hq
          rw [hused] at hq
          have hq : q ∈ U ∨ q = qa ∨ q ∈ V ∨ q = { qb with id := a } ∨ q ∈ W := by simpa using hq
          have v2 := Classical.not_not.1 v2
          rw [hAB] at v2
          rcases hq with hq | hq | hq | hq | hq
          · exact v2 q (by simp [hq])
          · exact v2 q (by simp [hq])
          · exact v2 q (by simp [hq])
          · rw [hq]; exact v2 qb (by simp)
          · exact v2 q (by simp [hq])

/-- "Renaming a part changes no other part" is false for the id 0: the assignment succeeds, and this part and all parts after it are gone
from the list. -/
theorem C92_id_zero_is_false {SK PK : Type} (H : HashFn) (hH : HashLen H) (S : SigScheme SK PK) (hS : ∀ sk rnd k d, S.sign sk rnd k d ≠ .error .ok)
    (s : List (U32 × Bytes)) (t : List (PyCall SK × Option PyExc)) (p : Pkg) (h : PySession H S s t p) (u w : List U32) (b : U32)
    (hp : pyParts p = u ++ b :: w) : ∃ p', pyPartSetId p b (.int 0) = (.val (), p') ∧ pyParts p' = u := by
  have i := pysession_inv hH S hS h
  have pi := i.good.parts.inv i.good.wf
  rw [pyParts_used] at hp
  obtain ⟨U, B, hAB, hU, hB⟩ := List.map_eq_append_iff.1 hp
  obtain ⟨qb, W, rfl, hqb, hW⟩ := List.map_eq_cons_iff.1 hB
  have hg := getPart_used pi U W qb hAB
  rw [hqb] at hg
  refine ⟨writeHeader { p with hdr := { p.hdr with parts := p.hdr.parts.set U.length { qb with id := 0 } } }, ?_, ?_⟩
  · unfold pyPartSetId
    rw [int_in (x := 0) (by decide)]
    simp only [pyPart, hg.1, hg.2, Option.map_some]
  · unfold pyParts
    show ((p.hdr.parts.set U.length { qb with id := 0 }).takeWhile (fun q => decide (q.id ≠ 0))).map (·.id) = u
    rw [pi.slots, hAB, List.append_assoc, List.set_append_right _ _ (Nat.le_refl _), Nat.sub_self, List.cons_append, List.set_cons_zero,
      List.takeWhile_append_of_pos (by intro q hq; simpa using pi.ids q (by rw [hAB]; simp [hq])), List.takeWhile_cons_of_neg (by simp), List.append_nil, hU]

/-- C92: assigning an entry another id and part reference (one at a time; `x`, `r` are the key after it): the entry keeps its content and
place, all else stays. -/
theorem C92_meta_key {SK PK : Type} (H : HashFn) (hH : HashLen H) (S : SigScheme SK PK) (hS : ∀ sk rnd k d, S.sign sk rnd k d ≠ .error .ok)
    (s : List (U32 × Bytes)) (t : List (PyCall SK × Option PyExc)) (p : Pkg) (h : PySession H S s t p) (pre post : List Entry) (id ref : U32) (d : Bytes)
    (he : entries p.hdr = pre ++ ⟨id, ref, d⟩ :: post) (x : U32) (n : Int) (hn : 0 ≤ n ∧ n < 2^64 ∧ pyMask n = x) :
    (x ≠ 0 → (∀ y ∈ entries p.hdr, y.id = x → y.ref = ref → x = id) → ∃ p', pyMetaSetId p id ref (.int n) = (.val (), p') ∧
      entries p'.hdr = pre ++ ⟨x, ref, d⟩ :: post ∧ p'.hdr = { p.hdr with metas := p'.hdr.metas } ∧ p'.file.drop 4096 = p.file.drop 4096 ∧ Opens H p'.file p'.hdr) ∧
    ((∀ y ∈ entries p.hdr, y.id = id → y.ref = x → x = ref) → ∃ p', pyMetaSetRef p id ref (.int n) = (.val (), p') ∧
      entries p'.hdr = pre ++ ⟨id, x, d⟩ :: post ∧ p'.hdr = { p.hdr with metas := p'.hdr.metas } ∧ p'.file.drop 4096 = p.file.drop 4096 ∧ Opens H p'.file p'.hdr) ∧
    (x = 0 → pyMetaSetRef p id ref .none = pyMetaSetRef p id ref (.int n)) := by
  have i := pysession_inv hH S hS h
  obtain ⟨pre', m, post', k, im, g, e1, e2, e3, e4, e5, rfl, rfl⟩ := pyMeta_entry i he
  have hme : ∀ e ∈ pre' ++ m :: post', entOf p.hdr e ∈ entries p.hdr := by
    intro e hm; rw [entries_inv im]; exact List.mem_map_of_mem hm
  have hid0 : id ≠ 0 := by rw [← e1]; exact im.packed.ids m (by simp)
  have hent : ∀ (y r : U32), y ≠ 0 → (∀ e ∈ pre' ++ m :: post', e.id = y → e.partRef = r → y = m.id ∧ r = m.partRef) →
      entries (rekeyHdr p.hdr pre'.length m y r) = pre'.map (entOf p.hdr) ++ ⟨y, r, d⟩ :: post'.map (entOf p.hdr) := by
    intro y r hy hn
    rw [entries_inv (rekey_inv im y r hy hn), List.map_append, List.map_cons]
    have ed : entOf (rekeyHdr p.hdr pre'.length m y r) { m with id := y, partRef := r } = ⟨y, r, d⟩ := by
      show (⟨y, r, (p.hdr.metadata.drop m.offset.toNat).take m.size.toNat⟩ : Entry) = _
      rw [e3, ← e5]
    rw [ed]
    rfl
  refine ⟨?_, ?_, ?_⟩
  · intro hx hfree
    have hn' : ∀ e ∈ pre' ++ m :: post', e.id = x → e.partRef = m.partRef → x = m.id ∧ m.partRef = m.partRef := by
      intro e hm h1 h2
      exact ⟨by rw [e1]; exact hfree _ (hme e hm) h1 (h2.trans e2), rfl⟩
    have i2 := i.rekey im x m.partRef hx hn'
    refine ⟨_, ?_, ?_, ?_, ?_, i2.open true⟩
    · unfold pyMetaSetId
      rw [int_in hn]
      simp only
      rw [g]
      rfl
    · show entries (rekeyHdr p.hdr pre'.length m x m.partRef) = _
      rw [hent x m.partRef hx hn', e2]
    · rfl
    · exact (write_facts i2.good.wf).1
  · intro hfree
    have hn' : ∀ e ∈ pre' ++ m :: post', e.id = m.id → e.partRef = x → m.id = m.id ∧ x = m.partRef := by
      intro e hm h1 h2
      exact ⟨rfl, by rw [e2]; exact hfree _ (hme e hm) (h1.trans e1) h2⟩
    have i2 := i.rekey im m.id x (by rw [e1]; exact hid0) hn'
    refine ⟨_, ?_, ?_, ?_, ?_, i2.open true⟩
    · unfold pyMetaSetRef
      rw [if_neg (by simp), int_in hn]
      simp only
      rw [g]
      rfl
    · show entries (rekeyHdr p.hdr pre'.length m m.id x) = _
      rw [hent m.id x (by rw [e1]; exact hid0) hn', e1]
    · rfl
    · exact (write_facts i2.good.wf).1
  · rintro rfl
    unfold pyMetaSetRef
    rw [if_pos rfl, if_neg (by simp), int_in hn]

end Bpak
