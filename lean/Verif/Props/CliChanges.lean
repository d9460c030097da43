import Verif.Props.SessionExample
/-! What single commands of a session change in the package (C86-C88). -/
namespace Bpak

/-- The header read from a package file. -/
def Opens (H : HashFn) (f : Bytes) (h : Header) : Prop := pkgOpen H true f = (.ok, ⟨h, f, []⟩)

/-- What `bpak add --part` decides about a part: id, size, whether it is kept out of the payload hash. -/
def partFacts (q : PartHdr) : U32 × Nat × Bool := (q.id, q.size.toNat, q.excluded)

theorem flag_excluded (b : Bool) : ((if b then (1 : U8) else 0) &&& 1 != 0) = b := by cases b <;> decide

/-- C86: `bpak add --part NAME --from-file FILE [--dont-hash]` on the package of any session: refused if the name's id is taken or all 32
slots are, and then the file is untouched; otherwise it succeeds, the new part comes last, with FILE's size and excluded from the payload
hash exactly if --dont-hash was given, the other parts and all metadata stay, and so do all header fields but part table and payload hash. -/
theorem C86_add_part {SK PK : Type} (H : HashFn) (hH : HashLen H) (S : SigScheme SK PK) (hS : ∀ sk rnd k d, S.sign sk rnd k d ≠ .error .ok)
    (t : List (Cmd SK × Err)) (f : Bytes) (hse : Session H S t (some f)) (name d salt : Bytes) (dontHash : Bool) (key : Except Err Bytes)
    (ha : Allowed H (some f) (.addPart (SK := SK) name dontHash none (some d) key salt)) :
    ∃ h, Opens H f h ∧
      if ∃ q ∈ usedParts h, q.id = bpakId name then addPartCmd H f name dontHash none (some d) key salt = some (.ret (.exists_, f))
      else if (usedParts h).length = 32 then addPartCmd H f name dontHash none (some d) key salt = some (.ret (.noSpaceLeft, f))
      else ∃ f' h', addPartCmd H f name dontHash none (some d) key salt = some (.ret (.ok, f')) ∧ Opens H f' h' ∧
        (usedParts h').map partFacts = (usedParts h).map partFacts ++ [(bpakId name, d.length, dontHash)] ∧
        h' = { h with parts := h'.parts, payloadHash := h'.payloadHash } ∧ entries h' = entries h ∧
        contents ⟨h', f', []⟩ = contents ⟨h, f, []⟩ ++ [(bpakId name, d ++ List.replicate (padFor d.length) 0)] := by
  rcases session_inv hH S hS hse with ⟨h, -⟩ | ⟨p, hf, i⟩
  · cases h
  cases hf
  obtain ⟨hid, hroom⟩ := ha
  obtain ⟨hsz, -, -⟩ := hroom p.file d rfl rfl
  have i0 := i.logged []
  have hfl : (if dontHash then (1 : U8) else 0) &&& 2 = 0 := by cases dontHash <;> decide
  refine ⟨p.hdr, i.open true, ?_⟩
  have e : addPartCmd H p.file name dontHash none (some d) key salt =
      match addFile H (d.length + 2) ⟨p.hdr, p.file, []⟩ (bpakId name) (if dontHash then (1 : U8) else 0) d.length d with
      | none => none
      | some (e, p) => some (.ret (e, p.file)) := by
    unfold addPartCmd
    rw [i.open]
    simp only [ne_eq, not_true_eq_false, if_false]
    generalize addFile H (d.length + 2) ⟨p.hdr, p.file, []⟩ (bpakId name) (if dontHash then (1 : U8) else 0) d.length d = x
    cases x <;> rfl
  have hl := (i.good.parts.inv i.good.wf).len
  split
  · rename_i hx
    rw [e, (C35_add_refused H ⟨p.hdr, p.file, []⟩ i0.good (bpakId name) _ _ d _).1 hx]
  · rename_i hx
    have hx' : ∀ q ∈ usedParts p.hdr, q.id ≠ bpakId name := fun q hq h => hx ⟨q, hq, h⟩
    split
    · rename_i h32
      rw [e, (C35_add_refused H ⟨p.hdr, p.file, []⟩ i0.good (bpakId name) _ _ d _).2 hx' h32]
    · rename_i h32
      obtain ⟨q, a1, a2, a3, a4, a5, a6, a7, a8⟩ := C35_add_file H hH ⟨p.hdr, p.file, []⟩ i0.good (bpakId name) hid hx' (by show (usedParts p.hdr).length < 32; omega)
        (if dontHash then (1 : U8) else 0) hfl d hsz (d.length + 2) (by omega)
      have iq := (file_step hH S hS i0 (bpakId name) hid _ hfl d hsz .ok q a1).1 rfl
      refine ⟨q.file, q.hdr, by rw [e, a1], iq.open true, ?_, a7, ?_, ?_⟩
      · have hm : ∀ l : List PartHdr, l.map partFacts = (l.map (fun q => (q.id, q.flags, q.size.toNat, q.padBytes.toNat))).map (fun x => (x.1, x.2.2.1, x.2.1 &&& 1 != 0)) := by
          intro l; rw [List.map_map]; rfl
        rw [hm, a8, hm, List.map_append]
        congr 1
        simp only [List.map_cons, List.map_nil, flag_excluded]
      · rw [a7]; rfl
      · exact a5

/-- C86: `bpak add --part NAME --from-file FILE --encoder merkle`, when it succeeds: the file and its hash tree come last, both excluded from
the payload hash exactly if --dont-hash was given, and salt and root hash of the tree come last in the metadata, bound to the part. -/
theorem C86_add_part_with_tree {SK PK : Type} (H : HashFn) (hH : HashLen H) (S : SigScheme SK PK) (hS : ∀ sk rnd k d, S.sign sk rnd k d ≠ .error .ok)
    (t : List (Cmd SK × Err)) (f f' : Bytes) (hse : Session H S t (some f)) (name d salt : Bytes) (dontHash : Bool) (key : Except Err Bytes)
    (ha : Allowed H (some f) (.addPart (SK := SK) name dontHash (some (ascii "merkle")) (some d) key salt))
    (hok : addPartCmd H f name dontHash (some (ascii "merkle")) (some d) key salt = some (.ret (.ok, f'))) :
    ∃ h h', Opens H f h ∧ Opens H f' h' ∧
      (usedParts h').map partFacts = (usedParts h).map partFacts ++
        [(bpakId name, d.length, dontHash), (partIdToHashTreeId (bpakId name), (hashTree H salt d).length, dontHash)] ∧
      entries h' = entries h ++ [⟨idMerkleSalt, bpakId name, salt⟩, ⟨idMerkleRootHash, bpakId name, treeRoot H salt d⟩] ∧
      contents ⟨h', f', []⟩ = contents ⟨h, f, []⟩ ++ [(bpakId name, d), (partIdToHashTreeId (bpakId name), hashTree H salt d)] ∧
      h' = { h with parts := h'.parts, metas := h'.metas, metadata := h'.metadata, payloadHash := h'.payloadHash } := by
  rcases session_inv hH S hS hse with ⟨h, -⟩ | ⟨p, hf, i⟩
  · cases h
  cases hf
  obtain ⟨hid, hroom⟩ := ha
  obtain ⟨hsz, -, htree⟩ := hroom p.file d rfl rfl
  obtain ⟨t1, t2, t3⟩ := htree rfl
  have i0 := i.logged []
  have hfl : (if dontHash then (1 : U8) else 0) &&& 2 = 0 := by cases dontHash <;> decide
  have hne : ascii "merkle" ≠ ascii "key" := by decide
  unfold addPartCmd at hok
  rw [i.open] at hok
  simp only [ne_eq, not_true_eq_false, if_false, hne, if_true] at hok
  split at hok
  · cases hok
  · cases hok
  · rename_i e1 q hq
    obtain ⟨rfl, rfl⟩ := Prod.mk.inj (Out.ret.inj (Option.some.inj hok))
    have iq := tree_step hH i0 (bpakId name) _ d salt hid t1 hfl t2 t3 hq
    obtain ⟨r, hsup⟩ := (C65_success_iff H hH _ i0.good i0.metas (bpakId name) hid t1 _ hfl d salt t2 t3 (d.length + 2) (by omega)).1 ⟨q, hq⟩
    obtain ⟨q', e, -, -, -, -, c1, c2, c3, c4, -⟩ := C65_add_file_with_tree H hH _ i0.good i0.metas (bpakId name) r _ hfl d salt hsup t2 t3 (d.length + 2) (by omega)
    rw [hq] at e
    have e2 : q = q' := (Prod.mk.inj (Out.ret.inj (Option.some.inj e))).2
    subst e2
    refine ⟨p.hdr, q.hdr, i.open true, iq.open true, ?_, c2, c1, c4⟩
    have hm : ∀ l : List PartHdr, l.map partFacts = (l.map partAttrs).map (fun x => (x.1, x.2.2.1, x.2.1 &&& 1 != 0)) := by
      intro l; rw [List.map_map]; rfl
    rw [hm, c3, hm, List.map_append]
    congr 1
    simp only [List.map_cons, List.map_nil, flag_excluded]

/-- C87: `bpak delete --part NAME [--keep-meta]` on the package of any session. A name without a part changes nothing. Otherwise the part is
taken out and all others stay; with --keep-meta all metadata stays, without it the entries that refer to the part go. Left out: the
metadata table is full and an entry of the part must go (undefined, C36). -/
theorem C87_delete {SK PK : Type} (H : HashFn) (hH : HashLen H) (S : SigScheme SK PK) (hS : ∀ sk rnd k d, S.sign sk rnd k d ≠ .error .ok)
    (t : List (Cmd SK × Err)) (f : Bytes) (hse : Session H S t (some f)) (name : Bytes) (hid : idForNameOrRef name ≠ 0) (keep : Bool) :
    ∃ h, Opens H f h ∧
      if ∀ q ∈ usedParts h, q.id ≠ idForNameOrRef name then deleteCmd H f (some name) false keep = some (.ret (.notFound, f))
      else (keep = false → (usedMetas h).length < 32 ∨ ∀ m ∈ usedMetas h, m.partRef ≠ idForNameOrRef name) →
        ∃ f' h', deleteCmd H f (some name) false keep = some (.ret (.ok, f')) ∧ Opens H f' h' ∧
        contents ⟨h', f', []⟩ = (contents ⟨h, f, []⟩).filter (fun c => c.1 ≠ idForNameOrRef name) ∧
        (usedParts h').map partAttrs = ((usedParts h).filter (fun q => q.id ≠ idForNameOrRef name)).map partAttrs ∧
        (usedMetas h').map metaAttrs = ((usedMetas h).filter (fun m => keep || decide (m.partRef ≠ idForNameOrRef name))).map metaAttrs ∧
        (keep = true → entries h' = entries h) ∧
        h' = { h with parts := h'.parts, payloadHash := h'.payloadHash, metas := h'.metas, metadata := h'.metadata } := by
  rcases session_inv hH S hS hse with ⟨h, -⟩ | ⟨p, hf, i⟩
  · cases h
  cases hf
  have i0 := i.logged []
  refine ⟨p.hdr, i.open true, ?_⟩
  have e : deleteCmd H p.file (some name) false keep =
      match deletePart H (p.file.length + 65) ⟨p.hdr, p.file, []⟩ (idForNameOrRef name) (!keep) with
      | none => none
      | some .ub => some .ub
      | some (.ret (e, p)) => some (.ret (e, p.file)) := by
    unfold deleteCmd
    simp only [Option.map_some, Option.getD_some]
    rw [if_neg (fun h => hid h.1), i.open]
    rfl
  split
  · rename_i hx
    rw [e, C36_not_found H ⟨p.hdr, p.file, []⟩ (idForNameOrRef name) (fun y hy h => by
      have hsl := (i.good.parts.inv i.good.wf).slots
      simp only at hy
      rw [hsl] at hy
      rcases List.mem_append.1 hy with hy | hy
      · exact hx y hy h
      · rw [List.eq_of_mem_replicate hy] at h
        exact absurd h.symm hid)]
  · rename_i hx
    intro hr
    obtain ⟨x, x1, x2⟩ : ∃ x ∈ usedParts p.hdr, x.id = idForNameOrRef name := by
      apply Classical.byContradiction
      intro h
      exact hx (fun q hq e => h ⟨q, hq, e⟩)
    obtain ⟨q, a1, -, -, -, -, a2, a3, a4, a5, a6, -⟩ := C36_delete_part H hH ⟨p.hdr, p.file, []⟩ i0.good i.small x x1 (!keep) (fun h => ⟨i.metas, by
      rcases hr (by simpa using h) with hr | hr
      · exact Or.inr hr
      · exact Or.inl (fun m hm => by simpa [x2] using hr m hm)⟩) (p.file.length + 65) (by simp only; omega)
    rw [x2] at a1 a2 a3 a6
    have iq := inv_pkgStep H hH S _ q _ (.deletePart (idForNameOrRef name) (!keep)) hS i0 (by simp only [pkgStep]; rw [if_neg hid, a1])
    refine ⟨q.file, q.hdr, by rw [e, a1], iq.open true, a2, a3, ?_, ?_, a4⟩
    · cases keep with
      | true =>
        obtain ⟨b1, b2⟩ := a5 rfl
        have : usedMetas q.hdr = usedMetas p.hdr := by unfold usedMetas; rw [b1]
        rw [this]
        exact congrArg _ (List.filter_eq_self.2 (fun m _ => rfl)).symm
      | false =>
        obtain ⟨-, b2, -⟩ := a6 rfl
        simpa using b2
    · rintro rfl
      obtain ⟨b1, b2⟩ := a5 rfl
      unfold entries usedMetas metaContent
      rw [b1, b2]

/-- C87: `bpak delete --all [--keep-meta]`: no part is left, and of the metadata the entries that refer to no part stay (all with
--keep-meta). -/
theorem C87_delete_all {SK PK : Type} (H : HashFn) (hH : HashLen H) (S : SigScheme SK PK) (hS : ∀ sk rnd k d, S.sign sk rnd k d ≠ .error .ok)
    (t : List (Cmd SK × Err)) (f : Bytes) (hse : Session H S t (some f)) (name : Option Bytes) (keep : Bool) :
    ∃ h, Opens H f h ∧ ((keep = false → (usedMetas h).length < 32 ∨ ∀ m ∈ usedMetas h, m.partRef = 0) →
      ∃ f' h', deleteCmd H f name true keep = some (.ret (.ok, f')) ∧ Opens H f' h' ∧ usedParts h' = [] ∧ f'.length = 4096 ∧
        (usedMetas h').map metaAttrs = ((usedMetas h).filter (fun m => keep || decide (m.partRef = 0))).map metaAttrs ∧
        (keep = true → entries h' = entries h) ∧
        h' = { h with parts := h'.parts, payloadHash := h'.payloadHash, metas := h'.metas, metadata := h'.metadata }) := by
  rcases session_inv hH S hS hse with ⟨h, -⟩ | ⟨p, hf, i⟩
  · cases h
  cases hf
  have i0 := i.logged []
  refine ⟨p.hdr, i.open true, fun hr => ?_⟩
  have e : deleteCmd H p.file name true keep =
      match deleteAllParts H 65 ⟨p.hdr, p.file, []⟩ (!keep) with
      | none => none
      | some .ub => some .ub
      | some (.ret (e, p)) => some (.ret (e, p.file)) := by
    unfold deleteCmd
    simp only
    rw [if_neg (fun h => by cases h.2), i.open]
    rfl
  obtain ⟨q, a1, ag, -, -, a2, -, af, a4, a5, a6⟩ := C47_delete_all H hH ⟨p.hdr, p.file, []⟩ i.good.wf i.good.kind i.small i.saved.1 (!keep) (fun h => ⟨i.metas, by
    rcases hr (by simpa using h) with hr | hr
    · exact Or.inr hr
    · exact Or.inl (fun m hm => by simpa using hr m hm)⟩) 65 (by omega)
  have iq := inv_pkgStep H hH S _ q _ (.deleteAll (!keep)) hS i0 (by simp only [pkgStep]; rw [a1])
  refine ⟨q.file, q.hdr, by rw [e, a1], iq.open true, a2, by rw [af, image_length ag.wf], ?_, ?_, a4⟩
  · cases keep with
    | true =>
      obtain ⟨b1, b2⟩ := a5 rfl
      have : usedMetas q.hdr = usedMetas p.hdr := by unfold usedMetas; rw [b1]
      rw [this]
      exact congrArg _ (List.filter_eq_self.2 (fun m _ => rfl)).symm
    | false =>
      obtain ⟨-, b2, -⟩ := a6 rfl
      simpa using b2
  · rintro rfl
    obtain ⟨b1, b2⟩ := a5 rfl
    unfold entries usedMetas metaContent
    rw [b1, b2]

/-- C88: `bpak transport --add [--part PART] --encoder E --decoder D` on the package of any session: refused if the part has such an entry
or if table or data area has no room for it, and then the file is untouched; otherwise it adds one metadata entry, bound to the part, that
starts with the ids of E and D in this order, and all else stays. -/
theorem C88_transport_add {SK PK : Type} (H : HashFn) (hH : HashLen H) (S : SigScheme SK PK) (hS : ∀ sk rnd k d, S.sign sk rnd k d ≠ .error .ok)
    (t : List (Cmd SK × Err)) (f : Bytes) (hse : Session H S t (some f)) (part : Option Bytes) (enc dec : Bytes) (ref : U32)
    (href : ref = match part with | none => 0 | some n => idForNameOrRef n) :
    ∃ h, Opens H f h ∧
      if ∃ x ∈ entries h, x.id = idBpakTransport ∧ x.ref = ref then transportAddCmd H f part enc dec = .ret (.exists_, f)
      else if (usedMetas h).length = 32 ∨ ((usedMetas h).map (fun m => (m.size.toNat + 7) / 8 * 8)).sum + 32 > 1920 then
        transportAddCmd H f part enc dec = .ret (.noSpaceLeft, f)
      else ∃ f' h' d, transportAddCmd H f part enc dec = .ret (.ok, f') ∧ Opens H f' h' ∧ d.length = 24 ∧
        entries h' = entries h ++ [⟨idBpakTransport, ref, le32 (bpakId enc) ++ le32 (bpakId dec) ++ d⟩] ∧
        h' = { h with metas := h'.metas, metadata := h'.metadata } ∧ f'.drop 4096 = f.drop 4096 := by
  rcases session_inv hH S hS hse with ⟨h, -⟩ | ⟨p, hf, i⟩
  · cases h
  cases hf
  obtain ⟨us, k, im⟩ := i.hdr.metas
  refine ⟨p.hdr, i.open true, ?_⟩
  have hu : usedMetas p.hdr = us := im.used
  have hsum : ((usedMetas p.hdr).map (fun m => (m.size.toNat + 7) / 8 * 8)).sum = endOff 0 us := by
    rw [hu, endOff_sum (off := 0) us rfl, Nat.zero_add]
    rfl
  have hex : (∃ x ∈ entries p.hdr, x.id = idBpakTransport ∧ x.ref = ref) ↔ ∃ m ∈ us, m.id = idBpakTransport ∧ m.partRef = ref := by
    rw [entries_inv im]
    constructor
    · rintro ⟨x, hx, h⟩
      obtain ⟨m, hm, rfl⟩ := List.mem_map.1 hx
      exact ⟨m, hm, h⟩
    · rintro ⟨m, hm, h⟩
      exact ⟨entOf p.hdr m, List.mem_map.2 ⟨m, hm, rfl⟩, h⟩
  have h32 : (32 : U16).toNat = 32 := rfl
  have hlen := im.len
  have hcases := addMeta_cases im idBpakTransport ref 32
  have hr : (part.map idForNameOrRef).getD 0 = ref := by rw [href]; cases part <;> rfl
  have hnew := i.newMeta idBpakTransport ref (by decide) 32 (le32 (bpakId enc) ++ le32 (bpakId dec))
  rcases add_transport_meta im ref (bpakId enc) (bpakId dec) with ⟨h', a1, a2, ⟨d, d1, d2⟩, a3⟩ | ⟨e, h', a1, a2, a3⟩
  · rw [a2] at hcases
    have hc : (¬ ∃ m ∈ us, m.id = idBpakTransport ∧ m.partRef = ref) ∧ ¬ (us.length = 32 ∨ endOff 0 us + 32 > 1920) := by
      rcases hcases with ⟨-, hc, -⟩ | ⟨-, -, hc, -⟩ | ⟨-, -, -, hc⟩ | ⟨c1, c2, c3, -⟩
      · cases hc
      · cases hc
      · cases hc
      · exact ⟨c1, by omega⟩
    rw [if_neg (fun h => hc.1 (hex.1 h)), if_neg (by rw [hsum, hu]; exact hc.2)]
    have hcmd : transportAddCmd H p.file part enc dec = .ret (.ok, fileWrite p.file 0 h'.image) := by
      unfold transportAddCmd
      rw [i.open]
      simp only [ne_eq, not_true_eq_false, if_false, hr, a1]
      rfl
    obtain ⟨p', b1, b2, -⟩ := transportAdd_step i part enc dec .ok _ hcmd
    have hw : h'.WF := by
      rw [if_pos a2] at hnew
      unfold addTransportMeta at a1
      generalize hq : addMeta p.hdr idBpakTransport ref 32 = r at a1 a2 hnew
      obtain ⟨e1, h1, j⟩ := r
      simp only at a2
      subst a2
      simp only at a1 hnew
      split at a1
      · cases a1
      · rename_i m hm
        split at a1
        · cases a1
        · rename_i md hw
          obtain ⟨p', q1, q2, q3⟩ := hnew m md hm hw
          rw [← (Prod.mk.inj (Out.ret.inj a1)).2, ← q1]
          exact q3.good.wf
    have hfe : fileWrite p.file 0 h'.image = h'.image ++ p.file.drop 4096 := by rw [fileWrite_zero, image_length hw]
    have hop := b2.open true
    have hph : p'.hdr = h' := by
      rw [← b2.saved.2, b1, hfe, List.take_append_of_le_length (by rw [image_length hw]; exact Nat.le_refl _), List.take_of_length_le (by rw [image_length hw]; exact Nat.le_refl _)]
      exact parse_image hw
    refine ⟨fileWrite p.file 0 h'.image, h', d, hcmd, ?_, d1, d2, a3, ?_⟩
    · unfold Opens
      rw [b1, hph] at hop
      exact hop
    · rw [hfe, List.drop_append_of_le_length (by rw [image_length hw]; exact Nat.le_refl _), List.drop_of_length_le (by rw [image_length hw]; exact Nat.le_refl _)]; rfl
  · have hcmd : transportAddCmd H p.file part enc dec = .ret (e, p.file) := by
      unfold transportAddCmd
      rw [i.open]
      simp only [ne_eq, not_true_eq_false, if_false, hr, a1]
      rw [if_pos a2]
    rw [a3] at hcases
    rcases hcases with ⟨c1, hc, -⟩ | ⟨c1, c2, hc, -⟩ | ⟨c1, c2, c3, hc⟩ | ⟨-, -, -, hc⟩
    · simp only at hc
      rw [if_pos (hex.2 c1), hcmd, hc]
    · simp only at hc
      rw [if_neg (fun h => c1 (hex.1 h)), if_pos (by rw [hsum, hu]; omega), hcmd, hc]
    · simp only at hc
      rw [if_neg (fun h => c1 (hex.1 h)), if_pos (by rw [hsum, hu]; omega), hcmd, hc]
    · exact absurd hc a2

/-- The session of `exCmds` meets the hypotheses of C86-C88: "dtb" is in the package, "kernel" (deleted before) can be added again. -/
example : ∃ t f, Session exHash exScheme t (some f) ∧ HashLen exHash ∧ (∀ sk rnd k d, exScheme.sign sk rnd k d ≠ .error .ok) ∧
    Allowed exHash (some f) (.addPart (SK := Unit) (ascii "kernel") true none (some [1, 2]) (.error .failed) []) ∧
    idForNameOrRef (ascii "dtb") ≠ 0 := by
  obtain ⟨t, f, h, -, -, -, hl⟩ := exSession
  refine ⟨t, f, h, exHash_len, (fun sk rnd k d h => by cases h), ⟨by decide +kernel, fun g d' e1 e2 => ⟨?_, (fun h => by cases h), fun h => by cases h⟩⟩, by decide +kernel⟩
  cases e1
  cases e2
  show _ + _ < _
  simp only [List.length_cons, List.length_nil, hl]
  omega

end Bpak
