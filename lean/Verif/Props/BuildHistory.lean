import Verif.Spec.BuildHistory
import Verif.Props.PkgTree
import Verif.Props.PkgHistory
import Verif.Props.PkgSign
/-! Histories of packages with hash trees (C68). -/
namespace Bpak

/-- What every call of a building application preserves. -/
structure BuildInv (H : HashFn) (p : Pkg) (s : List (U32 × Bytes)) : Prop where
  pkg : PkgInv H p s
  trees : TreesOk H p
  size : ∀ m ∈ usedMetas p.hdr, m.id = idMerkleSalt ∨ m.id = idMerkleRootHash → 32 ≤ m.size.toNat
  refs : ∀ m ∈ usedMetas p.hdr, m.id = idMerkleSalt ∨ m.id = idMerkleRootHash → ∃ q ∈ usedParts p.hdr, q.id = m.partRef
  tree0 : ∀ m ∈ usedMetas p.hdr, m.id = idMerkleRootHash → partIdToHashTreeId m.partRef ≠ 0

/-- A call that only appends: parts, metadata entries other than salts and roots, bytes at the end of the file. -/
structure Grows (p p' : Pkg) : Prop where
  parts : ∃ ps, usedParts p'.hdr = usedParts p.hdr ++ ps
  metas : ∃ ms, usedMetas p'.hdr = usedMetas p.hdr ++ ms ∧ ∀ m ∈ ms, m.id ≠ idMerkleSalt ∧ m.id ≠ idMerkleRootHash
  file : ∃ tl, p'.file.drop 4096 = p.file.drop 4096 ++ tl
  bytes : ∀ m ∈ usedMetas p.hdr, m.id = idMerkleSalt ∨ m.id = idMerkleRootHash → readAt p'.hdr.metadata m.offset.toNat 32 = readAt p.hdr.metadata m.offset.toNat 32

theorem Grows.same {p p' : Pkg} (h1 : p'.hdr.parts = p.hdr.parts) (h2 : p'.hdr.metas = p.hdr.metas) (h3 : p'.hdr.metadata = p.hdr.metadata)
    (h4 : p'.file.drop 4096 = p.file.drop 4096) : Grows p p' :=
  ⟨⟨[], by unfold usedParts; rw [h1]; simp⟩, ⟨[], by unfold usedMetas; rw [h2]; simp, by simp⟩, ⟨[], by rw [h4]; simp⟩, fun _ _ _ => by rw [h3]⟩

theorem BuildInv.grow {H : HashFn} (hH : HashLen H) {p p' : Pkg} {s s' : List (U32 × Bytes)} (i : BuildInv H p s) (i' : PkgInv H p' s') (g : Grows p p') : BuildInv H p' s' := by
  obtain ⟨⟨ps, hu⟩, ⟨ms, hm, hms⟩, ⟨tl, hf⟩, hb⟩ := g
  have old : ∀ m ∈ usedMetas p'.hdr, m.id = idMerkleSalt ∨ m.id = idMerkleRootHash → m ∈ usedMetas p.hdr := by
    intro m h hk
    rw [hm] at h
    rcases List.mem_append.1 h with h | h
    · exact h
    · rcases hk with hk | hk
      · exact absurd hk (hms m h).1
      · exact absurd hk (hms m h).2
  refine ⟨i', ?_, ?_, ?_, ?_⟩
  · intro x hx hri
    obtain ⟨j, hj⟩ := hri
    obtain ⟨pre, m, post, s1, s2, s3, s4, s5⟩ := getMeta_split (i'.metas.inv i'.good.wf) (by decide) hj
    have hmo := old m (by rw [s1]; simp) (Or.inr s3)
    obtain ⟨q, hq, eq⟩ := i.refs m hmo (Or.inr s3)
    have hxo : x ∈ usedParts p.hdr := by
      rw [hu] at hx
      rcases List.mem_append.1 hx with h | h
      · exact h
      · exfalso
        have hd := i'.good.parts.distinct
        rw [hu, List.pairwise_append] at hd
        exact hd.2.2 q hq x h (by rw [eq, s4])
    refine treesOk_old H hH p p' i.pkg.good i.pkg.metas i'.good i'.metas i.pkg.small i'.small ps hu ms hm tl hf hb i.trees x hxo ?_ ?_ ⟨j, hj⟩
    · rintro ⟨m, h1, h2, h3⟩
      rw [← h3]
      exact i.tree0 m h1 h2
    · intro m h1 h2
      exact (hms m h1).2 h2.1
  · intro m h hk; exact i.size m (old m h hk) hk
  · intro m h hk
    obtain ⟨q, hq, e⟩ := i.refs m (old m h hk) hk
    exact ⟨q, by rw [hu]; exact List.mem_append_left _ hq, e⟩
  · intro m h hk; exact i.tree0 m (old m h (Or.inr hk)) hk

theorem grows_header {SK : Type} {p : Pkg} {h1 : Header} {op : Op} (i : Inv p.hdr) (g : 4096 ≤ p.file.length) (hb : BuildOp.builds (SK := SK) (.plain (.header op)))
    (hsz : ∀ m ∈ usedMetas p.hdr, m.id = idMerkleSalt ∨ m.id = idMerkleRootHash → 32 ≤ m.size.toNat)
    (hst : step p.hdr op = some h1) : Grows p (writeHeader { p with hdr := h1 }) := by
  have i1 := inv_step i hst
  rw [writeHeader_eq _ i1.wf]
  have il := image_length i1.wf
  have hdrop : ∀ l, ((⟨h1, h1.image ++ p.file.drop 4096, l⟩ : Pkg)).file.drop 4096 = p.file.drop 4096 := by
    intro l
    simp only
    rw [List.drop_append_of_le_length (by omega), List.drop_of_length_le (by omega), List.nil_append]
  obtain ⟨us, k, im⟩ := i.metas
  have hus : usedMetas p.hdr = us := im.used
  cases op with
  | addMeta id ref size =>
    simp only [step] at hst
    split at hst
    · cases hst
    · rename_i hid
      rcases addMeta_cases im id ref size with ⟨_, _, c⟩ | ⟨_, _, _, c⟩ | ⟨h1, h2, h3, h4⟩ | ⟨h1, h2, h3, h4⟩
      · rw [c] at hst; simp at hst; subst hst; exact Grows.same rfl rfl rfl (hdrop _)
      · rw [c] at hst; simp at hst; subst hst; exact Grows.same rfl rfl rfl (hdrop _)
      · split at hst
        · rename_i hc
          rcases hc with hc | hc
          · rw [h4] at hc; cases hc
          · rw [hc] at hst; cases hst; exact Grows.same rfl rfl rfl (hdrop _)
        · cases hst
      · obtain ⟨m, e1, e2, e3, e4, e5, e6, im2⟩ := addMeta_ok_inv im hid h1 h2 h3
        rw [e6] at hst
        simp at hst
        subst hst
        refine ⟨⟨[], by unfold usedParts; simp⟩, ⟨[m], ?_, ?_⟩, ⟨[], by rw [hdrop]; simp⟩, fun _ _ _ => rfl⟩
        · rw [hus]; exact im2.used
        · intro x hx
          simp at hx
          rw [hx, e1]
          exact hb
  | writeMeta id ref data =>
    simp only [step] at hst
    split at hst
    · cases hst
    · rename_i hid
      split at hst
      · cases hst
      · rename_i j hj
        split at hst
        · cases hst
        · rename_i m hm
          split at hst
          · rename_i hl
            split at hst
            · cases hst
            · rename_i md hmd
              cases hst
              refine ⟨⟨[], by unfold usedParts; simp⟩, ⟨[], by unfold usedMetas; simp, by simp⟩, ⟨[], by rw [hdrop]; simp⟩, ?_⟩
              intro x hx hk
              have h32 := hsz x hx hk
              obtain ⟨w1, w2, w3⟩ := writeAt_some hmd
              have hmd0 := im.md
              obtain ⟨pre, m', post, s1, s2, s3, s4, s5⟩ := getMeta_split im hid hj
              have : m' = m := by rw [hm] at s5; exact (Option.some.inj s5).symm
              subst this
              rw [hus] at hx
              have hne : x ≠ m' := by
                intro e
                rw [e, s3] at hk
                rcases hk with hk | hk
                · exact hb.1 hk
                · exact hb.2 hk
              have hx2 := (im.packed.ge x hx).2
              simp only
              rw [readAt_eq_some (by omega), readAt_eq_some (by omega)]
              congr 1
              apply window_eq (by omega) (by omega)
              intro b hb2
              rw [w3, if_neg]
              intro hc
              have hd := im.packed.disjoint
              rw [s1] at hd hx
              rw [List.pairwise_append] at hd
              rcases List.mem_append.1 hx with h | h
              · have := hd.2.2 x h m' (by simp); omega
              · rcases List.mem_cons.1 h with h | h
                · exact hne h
                · have := (List.pairwise_cons.1 hd.2.1).1 x h; omega
          · cases hst
  | setKeyId k => cases hst; exact Grows.same rfl rfl rfl (hdrop _)
  | setKeystoreId k => cases hst; exact Grows.same rfl rfl rfl (hdrop _)
  | delMeta a b => cases hb
  | addPart id => cases hb
  | delPart id => cases hb
  | setPart a b c d e => cases hb
  | setPayloadHash b => cases hb

theorem entries_attrs {h : Header} (w : h.WF) (g : GoodMetas h) : (entries h).map (fun e => (e.id, e.ref, e.data.length)) = (usedMetas h).map metaAttrs := by
  unfold entries
  rw [List.map_map]
  apply List.map_congr_left
  intro m hm
  have := ((g.inv w).packed.ge m hm).2
  have hl : h.metadata.length = 1920 := w.2.2.2.1
  simp only [Function.comp_apply, metaAttrs, metaContent, List.length_take, List.length_drop, Prod.mk.injEq, true_and]
  omega

theorem plain_len (p : Pkg) (g : GoodPkg p) : p.file.length = 4096 + (((usedParts p.hdr).map partAttrs).map (fun a => a.2.2.1 + a.2.2.2.1)).sum := by
  rw [g.exact, List.map_map]
  congr 2
  apply List.map_congr_left
  intro x hx
  unfold storedSize
  rw [if_neg (by rw [g.plain x hx]; simp)]
  rfl

/-- One call of a building application. -/
theorem build_step {SK PK : Type} (H : HashFn) (hH : HashLen H) (S : SigScheme SK PK) (p p' : Pkg) (s : List (U32 × Bytes)) (op : BuildOp SK)
    (hS : ∀ sk rnd k d, S.sign sk rnd k d ≠ .error .ok) (hb : op.builds) (i : BuildInv H p s) (hs : buildStep H S p op = some p') :
    BuildInv H p' (buildExpectStep H s op) := by
  have g := i.pkg.good
  have gm := i.pkg.metas
  have hsm := i.pkg.small
  have hx := g.exact
  cases op with
  | plain op =>
    have i' := inv_pkgStep H hH S p p' s op hS i.pkg hs
    by_cases hcr : ∃ hk sk, op = .create hk sk
    · obtain ⟨hk, sk, rfl⟩ := hcr
      simp only [buildStep, pkgStep] at hs
      cases hn : digestLen hk with
      | none =>
        obtain ⟨p2, hp2⟩ := create_unknown H hH hk sk hn
        rw [hp2] at hs
        cases hs
      | some n =>
        obtain ⟨p1, e1, i1, -, hhdr⟩ := create_inv H hH hk sk n hn
        rw [e1] at hs
        have e := Option.some.inj hs
        subst e
        have hu : usedParts p1.hdr = [] := by rw [hhdr]; exact used_empty rfl
        have hum : usedMetas p1.hdr = [] := by rw [hhdr]; exact (by decide +kernel : usedMetas initHeader = [])
        exact ⟨i1, (by intro x hx; rw [hu] at hx; cases hx), by rw [hum]; simp, by rw [hum]; simp, by rw [hum]; simp⟩
    refine i.grow hH i' ?_
    simp only [buildStep] at hs
    cases op with
    | create hk sk => exact absurd ⟨hk, sk, rfl⟩ hcr
    | addFile id flags d =>
      simp only [pkgStep] at hs
      split at hs
      · cases hs
      · rename_i hc
        simp only [not_or, ne_eq, Decidable.not_not, Nat.not_le] at hc
        obtain ⟨hid, hfl, hsz⟩ := hc
        by_cases h1 : ∃ q ∈ usedParts p.hdr, q.id = id
        · rw [(C35_add_refused H p g id flags _ d _).1 h1] at hs; cases hs
        have h1' : ∀ q ∈ usedParts p.hdr, q.id ≠ id := fun q hq e => h1 ⟨q, hq, e⟩
        by_cases h2 : (usedParts p.hdr).length = 32
        · rw [(C35_add_refused H p g id flags _ d _).2 h1' h2] at hs; cases hs
        have hl := (g.parts.inv g.wf).len
        obtain ⟨h, h0, w0, w1, wu, _, wwf, wa⟩ := addFile_ok H hH p g id hid h1' (by omega) flags hfl d hsz (d.length + 2) (by omega)
        rw [wa] at hs
        have e := Option.some.inj hs
        have il := image_length wwf
        have em : h.metas = p.hdr.metas ∧ h.metadata = p.hdr.metadata := by rw [w1]; exact ⟨by rw [show (withPayloadHash H h0 _).metas = h0.metas from rfl, w0], by rw [show (withPayloadHash H h0 _).metadata = h0.metadata from rfl, w0]⟩
        have ep : usedParts h = usedParts h0 := by unfold usedParts; rw [w1]; rfl
        refine ⟨⟨_, by rw [← e]; exact ep.trans wu⟩, ⟨[], by rw [← e]; unfold usedMetas; rw [em.1]; simp, by simp⟩, ⟨d ++ List.replicate (padFor d.length) 0, ?_⟩, fun _ _ _ => by rw [← e, em.2]⟩
        rw [← e]
        simp only [List.append_assoc]
        rw [List.drop_append_of_le_length (by omega), List.drop_of_length_le (by omega), List.nil_append]
    | deletePart id rm => cases hb
    | deleteAll rm => cases hb
    | header op =>
      simp only [pkgStep] at hs
      split at hs
      · split at hs
        · rename_i h1 hst
          have e := Option.some.inj hs
          rw [← e]
          exact grows_header i.pkg.hdr (by omega) hb i.size hst
        · cases hs
      · cases hs
    | sign sk rnd =>
      simp only [pkgStep] at hs
      rw [pkgSign_eq H hH S rnd _ p g hsm] at hs
      simp only at hs
      split at hs
      · rename_i p2 hp2
        split at hp2
        · rename_i e he
          exact absurd (show S.sign sk rnd p.hdr.hashKind _ = .error .ok by rw [he]; exact congrArg _ (Prod.mk.inj hp2).1) (hS _ _ _ _)
        · rename_i sig he
          split at hp2
          · cases (Prod.mk.inj hp2).1
          · rename_i hl
            have hp2 := (Prod.mk.inj hp2).2
            have e2 := Option.some.inj hs
            subst e2
            obtain ⟨n, hk⟩ := g.kind
            have wf : (signedHdr H p sig).WF := withSig_wf (withPayloadHash_wf H hH _ g.wf _ n hk) sig (by omega) _
            have il := image_length wf
            rw [writeHeader_eq _ wf] at hp2
            rw [← hp2]
            refine Grows.same rfl rfl rfl ?_
            simp only
            rw [List.drop_append_of_le_length (by omega), List.drop_of_length_le (by omega), List.nil_append]
      · cases hs
    | reopen =>
      simp only [pkgStep] at hs
      obtain ⟨hl, hp⟩ := i.pkg.saved
      unfold pkgOpen at hs
      rw [if_pos hl, hp, i.pkg.valid] at hs
      have e := Option.some.inj hs
      rw [← e]
      exact Grows.same rfl rfl rfl rfl
    | signRaw sig =>
      simp only [pkgStep, writeRawSignature] at hs
      by_cases hl : sig.length > 512
      · rw [if_pos hl] at hs; cases hs
      · rw [if_neg hl] at hs
        have e := Option.some.inj hs
        have wf := withSig_wf g.wf sig (by omega) (BitVec.ofNat 16 sig.length)
        have il := image_length wf
        rw [writeHeader_eq _ wf] at e
        rw [← e]
        refine Grows.same rfl rfl rfl ?_
        simp only
        rw [List.drop_append_of_le_length (by omega), List.drop_of_length_le (by omega), List.nil_append]
  | tree id flags d salt =>
    simp only [buildStep] at hs
    split at hs
    · cases hs
    · rename_i hc
      simp only [not_or, ne_eq, Decidable.not_not, Nat.not_le] at hc
      obtain ⟨hid, htid, hfl, hsalt, hsz⟩ := hc
      have hex : ∃ q, addFileWithMerkle H (d.length + 2) p id flags d salt = some (.ret (.ok, q)) := by
        split at hs
        · rename_i q hq; exact ⟨q, hq⟩
        · cases hs
      obtain ⟨r, hsup⟩ := (C65_success_iff H hH p g gm id hid htid flags hfl d salt hsalt hsz (d.length + 2) (by omega)).1 hex
      obtain ⟨q, e, gq, gmq, svq, hsq, hcq, heq, haq, hhq, _, hplq, htq⟩ := C65_add_file_with_tree H hH p g gm id r flags hfl d salt hsup hsalt hsz (d.length + 2) (by omega)
      rw [e] at hs
      have e2 := Option.some.inj hs
      subst e2
      have htl : (hashTree H salt d).length % 4096 = 0 := by
        have := C29_tree_size H hH salt d hsup
        obtain ⟨h1, h2, h3⟩ := hsup
        rw [merkleComputeSize_eq, if_neg (by omega), if_neg (by omega)] at this
        rw [← Except.ok.inj this]
        unfold treeSize
        omega
      have hd0 := hsup.1
      have um : (usedMetas q.hdr).map metaAttrs = (usedMetas p.hdr).map metaAttrs ++ [(idMerkleSalt, id, 32), (idMerkleRootHash, id, 32)] := by
        rw [← entries_attrs gq.wf gmq, heq, List.map_append, entries_attrs g.wf gm]
        have hroot : (treeRoot H salt d).length = 32 := by unfold treeRoot; split <;> exact hH.sha256 _
        simp [hsalt, hroot]
      have cases_m : ∀ m ∈ usedMetas q.hdr, (∃ x ∈ usedMetas p.hdr, metaAttrs x = metaAttrs m) ∨ (m.partRef = id ∧ m.size.toNat = 32) := by
        intro m hm
        have : metaAttrs m ∈ (usedMetas q.hdr).map metaAttrs := List.mem_map.2 ⟨m, hm, rfl⟩
        rw [um] at this
        rcases List.mem_append.1 this with h | h
        · obtain ⟨x, hx, e⟩ := List.mem_map.1 h
          exact Or.inl ⟨x, hx, e⟩
        · right
          unfold metaAttrs at h
          simp only [List.mem_cons, Prod.mk.injEq, List.not_mem_nil, or_false] at h
          rcases h with h | h <;> exact h.2
      have pid : (usedParts q.hdr).map (fun x => x.id) = (usedParts p.hdr).map (fun x => x.id) ++ [id, partIdToHashTreeId id] := by
        have := congrArg (List.map (fun x : U32 × U8 × Nat × Nat × Nat => x.1)) haq
        simpa [List.map_map, Function.comp_def, partAttrs] using this
      have hlen : q.file.length < 2^63 := by
        have h1 := plain_len q gq
        have h2 := plain_len p g
        rw [haq] at h1
        simp at h1 h2
        omega
      refine ⟨⟨inv_of_hdr i.pkg.hdr gmq gq (by rw [hhq]; exact ⟨rfl, rfl⟩), gq, hlen, svq, hsq, ?_, ?_, hplq i.pkg.placed⟩, htq i.trees i.size ?_ ?_, ?_, ?_, ?_⟩
      · intro x hx
        have : partAttrs x ∈ (usedParts q.hdr).map partAttrs := List.mem_map.2 ⟨x, hx, rfl⟩
        rw [haq] at this
        rcases List.mem_append.1 this with h | h
        · obtain ⟨y, hy, e⟩ := List.mem_map.1 h
          have := i.pkg.padded y hy
          unfold partAttrs at e
          simp only [Prod.mk.injEq] at e
          rw [← e.2.2.1, ← e.2.2.2.1]; exact this
        · unfold partAttrs at h
          simp only [List.mem_cons, Prod.mk.injEq, List.not_mem_nil, or_false] at h
          rcases h with h | h
          · rw [h.2.2.1, h.2.2.2.1]; unfold padFor; rw [if_neg (by omega)]
          · rw [h.2.2.1, h.2.2.2.1]; unfold padFor; rw [if_neg (by omega)]
      · rw [files_eq, hcq, haq]
        unfold mkFiles
        rw [List.zipWith_append (by unfold contents; simp)]
        have := i.pkg.files
        rw [files_eq] at this
        unfold mkFiles at this
        rw [this]
        simp [buildExpectStep]
      · intro m hm hc
        obtain ⟨x, hx, e⟩ := i.refs m hm (Or.inr hc.1)
        exact (r.fresh x hx).2 (by rw [e, hc.2])
      · rintro x hx ⟨m, hm, h1, h2⟩
        rw [← h2]; exact i.tree0 m hm h1
      · intro m hm hk
        rcases cases_m m hm with ⟨x, hx, e⟩ | ⟨_, e⟩
        · unfold metaAttrs at e
          simp only [Prod.mk.injEq] at e
          rw [← e.2.2]; exact i.size x hx (by rw [e.1]; exact hk)
        · omega
      · intro m hm hk
        have : m.partRef ∈ (usedParts q.hdr).map (fun x => x.id) := by
          rw [pid]
          rcases cases_m m hm with ⟨x, hx, e⟩ | ⟨e, _⟩
          · unfold metaAttrs at e
            simp only [Prod.mk.injEq] at e
            obtain ⟨y, hy, ey⟩ := i.refs x hx (by rw [e.1]; exact hk)
            exact List.mem_append_left _ (List.mem_map.2 ⟨y, hy, by rw [ey, e.2.1]⟩)
          · rw [e]; simp
        obtain ⟨y, hy, ey⟩ := List.mem_map.1 this
        exact ⟨y, hy, ey⟩
      · intro m hm hk
        rcases cases_m m hm with ⟨x, hx, e⟩ | ⟨e, _⟩
        · unfold metaAttrs at e
          simp only [Prod.mk.injEq] at e
          rw [← e.2.1]; exact i.tree0 x hx (by rw [e.1]; exact hk)
        · rw [e]; exact htid

/-- The invariant holds after every history of a building application that starts from a new package. -/
theorem build_inv {SK PK : Type} (H : HashFn) (hH : HashLen H) (S : SigScheme SK PK) (hS : ∀ sk rnd k d, S.sign sk rnd k d ≠ .error .ok)
    (ops : List (BuildOp SK)) (hb : ∀ o ∈ ops, o.builds) (p0 p : Pkg) (h0 : pkgOpen H true [] = (.ok, p0)) (hr : buildRun H S p0 ops = some p) :
    BuildInv H p (buildExpect H [] ops) := by
  have hinit : BuildInv H p0 [] := by
    have i0 := run_inv H hH S hS [] p0 p0 h0 rfl
    obtain ⟨q, e, g, sv, hc, hm, hfile, hhdr⟩ := C56_open_new H hH
    rw [h0] at e
    have : p0 = q := (Prod.mk.inj e).2
    subst this
    have hu : usedParts p0.hdr = [] := by rw [hhdr]; exact used_init
    have hum : usedMetas p0.hdr = [] := by rw [hhdr]; exact (by decide +kernel : usedMetas initHeader = [])
    exact ⟨i0, (by intro x hx; rw [hu] at hx; cases hx), by rw [hum]; simp, by rw [hum]; simp, by rw [hum]; simp⟩
  have : ∀ (ops : List (BuildOp SK)) (p0 : Pkg) (s : List (U32 × Bytes)), (∀ o ∈ ops, o.builds) → BuildInv H p0 s → buildRun H S p0 ops = some p → BuildInv H p (ops.foldl (buildExpectStep H) s) := by
    intro ops
    induction ops with
    | nil => intro p0 s _ i h; cases h; exact i
    | cons o ops ih =>
      intro p0 s hb i h
      simp only [buildRun] at h
      split at h
      · cases h
      · rename_i p1 h1
        exact ih p1 _ (fun o ho => hb o (by simp [ho])) (build_step H hH S p0 p1 s o hS (hb o (by simp)) i h1) h
  exact this ops p0 [] hb hinit hr

/-- C68: over every history of an application that builds a package (files, files with hash trees, metadata, keys,
signing, reopening, in any order), all calls succeeding: the package holds exactly the files and trees added, in order;
each can be extracted; every hash tree checks against its root and salt; header, payload hash and disk agree. -/
theorem C68_history_with_trees {SK PK : Type} (H : HashFn) (hH : HashLen H) (S : SigScheme SK PK) (hS : ∀ sk rnd k d, S.sign sk rnd k d ≠ .error .ok)
    (ops : List (BuildOp SK)) (hb : ∀ o ∈ ops, o.builds) (p0 p : Pkg) (h0 : pkgOpen H true [] = (.ok, p0)) (hr : buildRun H S p0 ops = some p) :
    GoodPkg p ∧ Saved p ∧ HashStored H p ∧ TreesOk H p ∧ validHeader p.hdr = .ok ∧ files p = buildExpect H [] ops ∧
      (∀ id d, (id, d) ∈ buildExpect H [] ops → extractFile p id = (.ok, some d)) := by
  have i := build_inv H hH S hS ops hb p0 p h0 hr
  refine ⟨i.pkg.good, i.pkg.saved, i.pkg.hash, i.trees, i.pkg.valid, i.pkg.files, ?_⟩
  intro id d hd
  rw [← i.pkg.files] at hd
  obtain ⟨q, hq, e⟩ := List.mem_map.1 hd
  have := (C35_extract_file p i.pkg.good i.pkg.small q hq).1
  simp only [Prod.mk.injEq] at e
  rw [e.1, e.2] at this
  exact this

/-- C68: if such a history ends with signing, the package verifies with the key that belongs to the signing key, in
memory and after opening the file again. -/
theorem C68_built_package_verifies {SK PK : Type} (H : HashFn) (hH : HashLen H) (S : SigScheme SK PK) (hS : ∀ sk rnd k d, S.sign sk rnd k d ≠ .error .ok)
    (hV : ∀ pk k d s, S.verify pk k d s ≠ .error .ok)
    (ops : List (BuildOp SK)) (hb : ∀ o ∈ ops, o.builds) (sk : SK) (rnd : Bytes) (pk : PK) (hkp : KeyPair S sk pk)
    (p0 p : Pkg) (h0 : pkgOpen H true [] = (.ok, p0)) (hr : buildRun H S p0 (ops ++ [.plain (.sign sk rnd)]) = some p) :
    pkgVerify H S pk p = .ret .ok ∧
    ∃ q, pkgOpen H false p.file = (.ok, q) ∧ q.hdr = p.hdr ∧ q.file = p.file ∧ pkgVerify H S pk q = .ret .ok := by
  have split : ∀ (ops : List (BuildOp SK)) (p0 : Pkg), buildRun H S p0 (ops ++ [.plain (.sign sk rnd)]) = some p →
      ∃ p1, buildRun H S p0 ops = some p1 ∧ buildStep H S p1 (.plain (.sign sk rnd)) = some p := by
    intro ops
    induction ops with
    | nil =>
      intro p0 h
      refine ⟨p0, rfl, ?_⟩
      simp only [List.nil_append, buildRun] at h
      split at h
      · cases h
      · rename_i p1 h1; rw [h1]; exact h
    | cons o ops ih =>
      intro p0 h
      simp only [List.cons_append, buildRun] at h ⊢
      split at h
      · cases h
      · rename_i p1 h1
        obtain ⟨p2, a, b⟩ := ih p1 h
        exact ⟨p2, a, b⟩
  obtain ⟨p1, h1, h2⟩ := split ops p0 hr
  have i := build_inv H hH S hS ops hb p0 p1 h0 h1
  have hs : pkgSign H S rnd (.ok sk) p1 = (.ok, p) := by
    simp only [buildStep, pkgStep] at h2
    split at h2
    · rename_i p2 hp2; cases h2; exact hp2
    · cases h2
  obtain ⟨a, b⟩ := C33_sign_then_verify H hH S rnd sk pk hkp (hV pk) (fun k d e he hc => hS sk rnd k d (by rw [he, hc])) p1 p i.pkg.good i.pkg.small i.trees hs
  exact ⟨a, b i.pkg.valid⟩

/-- A history: a file with its tree, another file, a key id, signing, reopening. -/
def exBuild : List (BuildOp Unit) :=
  [.tree 7 0 (List.replicate 4096 1) (List.replicate 32 9), .plain (.addFile 8 0 [1, 2, 3]), .plain (.header (.setKeyId 3)), .plain (.sign () []), .plain .reopen]

/-- The hypotheses of C68 are met: the calls succeed and all are building calls. -/
example : ∃ p : Pkg, (∀ o ∈ exBuild, o.builds) ∧
    buildRun exHash exScheme (pkgOpen exHash true []).2 (exBuild ++ [.plain (.sign () [])]) = some p ∧
    (buildExpect exHash [] exBuild).map (fun c => c.1) = [7, partIdToHashTreeId 7, 8] := by
  have hS : ∀ sk rnd k d, exScheme.sign sk rnd k d ≠ .error .ok := by intro _ _ _ _ h; cases h
  obtain ⟨p0, e0, g0, sv0, hc0, hm0, hfile0, hhdr0⟩ := C56_open_new exHash exHash_len
  have hb : ∀ o ∈ exBuild, o.builds := by
    intro o ho
    simp only [exBuild, List.mem_cons, List.not_mem_nil, or_false] at ho
    rcases ho with rfl | rfl | rfl | rfl | rfl <;> trivial
  have i0 := build_inv exHash exHash_len exScheme hS [] (by simp) p0 p0 e0 rfl
  have hup : usedParts p0.hdr = [] := by rw [hhdr0]; exact used_init
  have hsup : TreeSupported (List.replicate 4096 (1 : U8)).length := by unfold TreeSupported; rw [List.length_replicate]; omega
  have hl0 : p0.file.length = 4096 := by rw [g0.exact, hup]; rfl
  have hd : (List.replicate 4096 (1 : U8)).length = 4096 := List.length_replicate
  have htree : (hashTree exHash (List.replicate 32 9) (List.replicate 4096 1)).length = 4096 := by
    have := C29_tree_size exHash exHash_len (List.replicate 32 9) (List.replicate 4096 1) hsup
    rw [merkleComputeSize_eq, hd, if_neg (by omega), if_neg (by omega)] at this
    rw [← Except.ok.inj this]
    decide
  have r : TreeRoom p0.hdr 7 := ⟨by decide, by decide +kernel, by decide +kernel, by rw [hup]; simp, by rw [hup]; simp, by rw [hm0]; simp, by unfold bytesUsed; rw [hm0]; simp, by rw [hm0]; simp, by rw [hm0]; simp⟩
  obtain ⟨p1, e1, g1, _, _, _, hc1, _, ha1, _⟩ := C65_add_file_with_tree exHash exHash_len p0 g0 i0.pkg.metas 7 r 0 (by decide) (List.replicate 4096 1) (List.replicate 32 9) hsup
    List.length_replicate (by omega) ((List.replicate 4096 (1 : U8)).length + 2) (by omega)
  have s1 : buildStep exHash exScheme p0 (.tree 7 0 (List.replicate 4096 1) (List.replicate 32 9)) = some p1 := by
    simp only [buildStep]
    rw [if_neg, e1]
    rintro (h | h | h | h | h)
    · exact absurd h (by decide)
    · exact r.tree0 h
    · exact h (by decide)
    · exact h List.length_replicate
    · omega
  have i1 := build_step exHash exHash_len exScheme p0 p1 _ _ hS (by trivial) i0 s1
  have hl1 : p1.file.length = 12288 := by
    rw [plain_len p1 g1, ha1, hup, htree, hd]; rfl
  have hid1 : (usedParts p1.hdr).map (fun x => x.id) = [7, partIdToHashTreeId 7] := by
    have := congrArg (List.map (fun x : U32 × U8 × Nat × Nat × Nat => x.1)) ha1
    rw [hup, hd, htree, List.map_map] at this
    exact this
  obtain ⟨p2, e2, g2, _⟩ := C35_add_file exHash exHash_len p1 g1 8 (by decide) (by
      intro q hq e
      have : q.id ∈ (usedParts p1.hdr).map (fun x => x.id) := List.mem_map.2 ⟨q, hq, rfl⟩
      rw [hid1, e] at this
      exact absurd this (by decide +kernel))
    (by have := congrArg List.length hid1; simp at this; omega) 0 (by decide) [1, 2, 3] (by rw [hl1]; decide) 5 (by decide)
  have s2 : buildStep exHash exScheme p1 (.plain (.addFile 8 0 [1, 2, 3])) = some p2 := by
    rw [buildStep, pkgStep]
    rw [if_neg (by rw [hl1]; decide), show ([1, 2, 3] : Bytes).length + 2 = 5 from rfl, e2]
  have i2 := build_step exHash exHash_len exScheme p1 p2 _ _ hS (by trivial) i1 s2
  have sgn : ∀ (p : Pkg) (s : List (U32 × Bytes)), BuildInv exHash p s → ∃ p', buildStep exHash exScheme p (.plain (.sign () [])) = some p' := by
    intro p s i
    obtain ⟨n, hk⟩ := i.pkg.good.kind
    have hl := exHash_len _ n hk (headerSignedBytes (withPayloadHash exHash p.hdr p.file))
    have hn := digestLen_le hk
    obtain ⟨p', e, _⟩ := C33_sign exHash exHash_len exScheme [] () p i.pkg.good i.pkg.small _ rfl (by
      rw [List.length_cons, hl]; omega)
    exact ⟨p', by simp only [buildStep, pkgStep]; rw [e]⟩
  obtain ⟨p3, s3⟩ : ∃ p', buildStep exHash exScheme p2 (.plain (.header (.setKeyId 3))) = some p' := ⟨_, rfl⟩
  have i3 := build_step exHash exHash_len exScheme p2 p3 _ _ hS (by trivial) i2 s3
  obtain ⟨p4, s4⟩ := sgn p3 _ i3
  have i4 := build_step exHash exHash_len exScheme p3 p4 _ _ hS (by trivial) i3 s4
  obtain ⟨p5, s5⟩ : ∃ p', buildStep exHash exScheme p4 (.plain .reopen) = some p' := by
    obtain ⟨hl, hp⟩ := i4.pkg.saved
    have : pkgOpen exHash true p4.file = (.ok, ⟨p4.hdr, p4.file, []⟩) := by
      unfold pkgOpen
      rw [if_pos hl, hp, i4.pkg.valid]
    exact ⟨⟨p4.hdr, p4.file, []⟩, by show (match pkgOpen exHash true p4.file with | (.ok, p') => some p' | _ => none) = _; rw [this]⟩
  have i5 := build_step exHash exHash_len exScheme p4 p5 _ _ hS (by trivial) i4 s5
  obtain ⟨p6, s6⟩ := sgn p5 _ i5
  refine ⟨p6, hb, ?_, rfl⟩
  rw [e0]
  simp only [exBuild, List.cons_append, List.nil_append, buildRun]
  rw [s1]; simp only
  rw [s2]; simp only
  rw [s3]; simp only
  rw [s4]; simp only
  rw [s5]; simp only
  rw [s6]

end Bpak
