import Verif.Spec.PkgHistory
import Verif.Props.PkgDelete
/-! Histories of package calls (C61). -/
namespace Bpak

/-- C35: after adding a file the payload hash in the header is that of the payload. -/
theorem C35_hash_stored (H : HashFn) (hH : HashLen H) (p : Pkg) (g : GoodPkg p) (id : U32) (hid : id ≠ 0) (hnew : ∀ q ∈ usedParts p.hdr, q.id ≠ id)
    (hroom : (usedParts p.hdr).length < 32) (flags : U8) (hfl : flags &&& 2 = 0) (d : Bytes) (hsz : p.file.length + d.length + 512 < 2^63)
    (fuel : Nat) (hfuel : d.length / 4096 + 2 ≤ fuel) :
    ∃ p', addFile H fuel p id flags d.length d = some (.ok, p') ∧ HashStored H p' := by
  obtain ⟨h, h0, e0, e1, u1, g0, wf, ea⟩ := addFile_ok H hH p g id hid hnew hroom flags hfl d hsz fuel hfuel
  refine ⟨_, ea, ?_⟩
  have hpl := padFor_lt d.length
  have hst := addedPart_stored id flags p.file.length d.length (padFor d.length) hfl (by omega) hpl
  have hx := g.exact
  have hsum : ((usedParts h0).map storedSize).sum = ((usedParts p.hdr).map storedSize).sum + (d.length + padFor d.length) := by
    rw [u1]; simp [hst]
  have t0 : TidyParts h0 := g0.tidy (by omega)
  have il := image_length wf
  clear ea
  obtain ⟨I, hI⟩ : ∃ I, h.image = I := ⟨_, rfl⟩
  rw [hI] at il ⊢
  have := hashStored_with H h0 t0 (p.file ++ d ++ List.replicate (padFor d.length) 0) (I ++ p.file.drop 4096 ++ d ++ List.replicate (padFor d.length) 0)
    (p.log ++ chunkWrites p.file.length d ++ [.write (p.file.length + d.length) (List.replicate (padFor d.length) 0), .write 0 I]) (by
      rw [List.take_of_length_le (by simp; omega), List.take_of_length_le (by simp; omega)]
      simp only [List.append_assoc]
      rw [List.drop_append_of_le_length (by omega), List.drop_append_of_le_length (by omega),
        List.drop_of_length_le (Nat.le_of_eq il), List.nil_append])
  rw [← e1] at this
  exact this

/-- The offset fields depend on the part table only. -/
theorem Placed.same {h h' : Header} (i : Placed h) (e : h'.parts = h.parts) : Placed h' := by
  intro q hq
  have hu : usedParts h' = usedParts h := by unfold usedParts; rw [e]
  have : partOffset h' q = partOffset h q := by unfold partOffset; rw [e]
  rw [this]
  exact i q (by rw [← hu]; exact hq)

theorem Placed.empty {h : Header} (e : usedParts h = []) : Placed h := by intro q hq; rw [e] at hq; cases hq

theorem addFile_placed (H : HashFn) (hH : HashLen H) (p : Pkg) (g : GoodPkg p) (id : U32) (hid : id ≠ 0) (hnew : ∀ q ∈ usedParts p.hdr, q.id ≠ id)
    (hroom : (usedParts p.hdr).length < 32) (flags : U8) (hfl : flags &&& 2 = 0) (d : Bytes) (hsz : p.file.length + d.length + 512 < 2^63)
    (fuel : Nat) (hfuel : d.length / 4096 + 2 ≤ fuel) (i : Placed p.hdr) (p' : Pkg) (e : addFile H fuel p id flags d.length d = some (.ok, p')) : Placed p'.hdr := by
  obtain ⟨h, h0, e0, e1, u1, g0, wf, ea⟩ := addFile_ok H hH p g id hid hnew hroom flags hfl d hsz fuel hfuel
  rw [ea] at e
  have hp := (Prod.mk.inj (Option.some.inj e)).2
  have eh : p'.hdr = h := by rw [← hp]
  rw [eh]
  have hx := g.exact
  have hpl := padFor_lt d.length
  have hst := addedPart_stored id flags p.file.length d.length (padFor d.length) hfl (by omega) hpl
  have t : TidyParts p.hdr := g.parts.tidy (by omega)
  have t0 : TidyParts h0 := g0.tidy (by rw [u1]; simp only [List.map_append, List.sum_append, List.map_cons, List.map_nil, List.sum_cons, List.sum_nil, hst]; omega)
  refine Placed.same (h := h0) ?_ (by rw [e1]; rfl)
  rw [placed_iff t0, u1, placedAt_append]
  rw [placed_iff t] at i
  refine ⟨i, ?_⟩
  intro pre q post e
  cases pre with
  | nil =>
    have e2 := (List.cons.inj e).1
    rw [← e2]
    unfold addedPart
    simp only [List.map_nil, List.sum_nil, BitVec.toNat_ofNat]
    rw [Nat.mod_eq_of_lt (by omega)]
    exact ⟨by omega, by rfl⟩
  | cons x pre => exact absurd (List.cons.inj e).2 (by simp)

/-- What holds between calls. -/
structure PkgInv (H : HashFn) (p : Pkg) (s : List (U32 × Bytes)) : Prop where
  hdr : Inv p.hdr
  good : GoodPkg p
  small : p.file.length < 2^63
  saved : Saved p
  hash : HashStored H p
  padded : ∀ q ∈ usedParts p.hdr, q.padBytes.toNat = padFor q.size.toNat
  files : files p = s
  placed : Placed p.hdr

theorem PkgInv.aligned {H : HashFn} {p : Pkg} {s : List (U32 × Bytes)} (i : PkgInv H p s) : ∀ q ∈ usedParts p.hdr, (q.size.toNat + q.padBytes.toNat) % 512 = 0 := by
  intro q hq
  rw [i.padded q hq]
  exact padFor_aligned _

theorem PkgInv.metas {H : HashFn} {p : Pkg} {s : List (U32 × Bytes)} (i : PkgInv H p s) : GoodMetas p.hdr := by
  obtain ⟨us, k, im⟩ := i.hdr.metas
  exact im.good

theorem PkgInv.valid {H : HashFn} {p : Pkg} {s : List (U32 × Bytes)} (i : PkgInv H p s) : validHeader p.hdr = .ok := by
  obtain ⟨wf, ⟨us, k, im⟩, _, hmg, hhk⟩ := i.hdr
  rw [C13_valid_header_code, if_neg (by rw [hmg]; decide), if_neg, if_neg, if_neg hhk]
  · intro hc; apply hc
    intro m hm
    rw [im.used] at hm
    have := (im.packed.ge m hm).2
    omega
  · intro hc; apply hc
    intro p hp
    have := i.aligned p hp
    have hb := p.padBytes.isLt
    rw [BitVec.toNat_add, BitVec.toNat_setWidth, Nat.mod_eq_of_lt (a := p.padBytes.toNat) (by omega)]
    omega

/-- The files from contents and attributes. -/
def mkFiles (cs : List (U32 × Bytes)) (as : List (U32 × U8 × Nat × Nat × Nat)) : List (U32 × Bytes) :=
  List.zipWith (fun c a => (c.1, c.2.take a.2.2.1)) cs as

theorem files_eq (p : Pkg) : files p = mkFiles (contents p) ((usedParts p.hdr).map partAttrs) := by
  unfold files mkFiles contents
  induction usedParts p.hdr with
  | nil => rfl
  | cons q l ih => rw [List.map_cons, List.map_cons, List.map_cons, List.zipWith_cons_cons, ← ih]; rfl

theorem mkFiles_filter (id : U32) : ∀ (l : List PartHdr) (f : PartHdr → Bytes),
    mkFiles ((l.map (fun q => (q.id, f q))).filter (fun c => c.1 ≠ id)) ((l.filter (fun q => q.id ≠ id)).map partAttrs) =
      (mkFiles (l.map (fun q => (q.id, f q))) (l.map partAttrs)).filter (fun c => c.1 ≠ id) := by
  intro l f
  unfold mkFiles
  induction l with
  | nil => rfl
  | cons q l ih =>
    rw [List.map_cons, List.map_cons, List.zipWith_cons_cons, List.filter_cons, List.filter_cons, List.filter_cons]
    by_cases h : q.id = id
    · rw [if_neg (by simp [h]), if_neg (by simp [h]), if_neg (by simp [h])]; exact ih
    · rw [if_pos (by simp [h]), if_pos (by simp [h]), if_pos (by simp [h]), List.map_cons, List.zipWith_cons_cons, ih]

theorem mem_attrs {p' : Pkg} {l : List PartHdr} (h : (usedParts p'.hdr).map partAttrs = l.map partAttrs)
    (hl : ∀ x ∈ l, x.padBytes.toNat = padFor x.size.toNat) : ∀ q ∈ usedParts p'.hdr, q.padBytes.toNat = padFor q.size.toNat := by
  intro q hq
  have : partAttrs q ∈ l.map partAttrs := by rw [← h]; exact List.mem_map.2 ⟨q, hq, rfl⟩
  obtain ⟨x, hx, e⟩ := List.mem_map.1 this
  have := hl x hx
  unfold partAttrs at e
  simp only [Prod.mk.injEq] at e
  rw [← e.2.2.1, ← e.2.2.2.1]; exact this

theorem inv_of_hdr {p p' : Pkg} (i : Inv p.hdr) (gm : GoodMetas p'.hdr) (g : GoodPkg p')
    (hh : p'.hdr.magic = p.hdr.magic ∧ p'.hdr.hashKind = p.hdr.hashKind) : Inv p'.hdr :=
  ⟨g.wf, ⟨_, _, gm.inv g.wf⟩, ⟨_, _, g.parts.inv g.wf⟩, by rw [hh.1]; exact i.magic, by rw [hh.2]; exact i.hashKind⟩

theorem goodMetas_same {h h' : Header} (g : GoodMetas h) (e : h'.metas = h.metas) : GoodMetas h' := by
  have : usedMetas h' = usedMetas h := by unfold usedMetas; rw [e]
  exact ⟨by rw [this, e]; exact g.slots, by rw [this]; exact g.distinct, by rw [this]; exact g.layout⟩

theorem room_or_full (h : Header) (w : h.WF) (g : GoodMetas h) (sel : U32 → Bool) :
    MetaRoom h sel ∨ ((∀ m ∈ h.metas, m.id ≠ 0) ∧ ∃ m ∈ h.metas, sel m.partRef = true) := by
  by_cases hr : MetaRoom h sel
  · exact Or.inl hr
  · right
    unfold MetaRoom at hr
    have hl := (g.inv w).len
    have h32 : (usedMetas h).length = 32 := by omega
    have hs := g.slots
    rw [h32] at hs
    simp only [Nat.sub_self, List.replicate_zero, List.append_nil] at hs
    rw [hs]
    refine ⟨usedMetas_ids h, ?_⟩
    apply Classical.byContradiction
    intro hn
    apply hr
    left
    intro m hm
    cases hb : sel m.partRef with
    | false => rfl
    | true => exact absurd ⟨m, hm, hb⟩ hn

theorem step_keeps {h h' : Header} {op : Op} (hk : op.keepsParts = true) (hs : step h op = some h') :
    h'.parts = h.parts ∧ h'.payloadHash = h.payloadHash ∧ h'.hashKind = h.hashKind := by
  cases op with
  | addMeta id ref size =>
    simp only [step] at hs
    split at hs
    · cases hs
    · split at hs
      · cases hs; exact ⟨rfl, rfl, rfl⟩
      · cases hs
  | delMeta id ref =>
    simp only [step] at hs
    split at hs
    · cases hs
    · split at hs
      · cases hs; exact ⟨rfl, rfl, rfl⟩
      · split at hs
        · cases hs
        · rename_i h2 hd
          cases hs
          unfold delMeta at hd
          split at hd
          · cases hd
          · simp only at hd
            split at hd
            · cases hd
            · cases hd; exact ⟨rfl, rfl, rfl⟩
  | writeMeta id ref data =>
    simp only [step] at hs
    split at hs
    · cases hs
    · split at hs
      · cases hs
      · split at hs
        · cases hs
        · split at hs
          · split at hs
            · cases hs
            · cases hs; exact ⟨rfl, rfl, rfl⟩
          · cases hs
  | setKeyId k => cases hs; exact ⟨rfl, rfl, rfl⟩
  | setKeystoreId k => cases hs; exact ⟨rfl, rfl, rfl⟩
  | addPart id => cases hk
  | delPart id => cases hk
  | setPart a b c d e => cases hk
  | setPayloadHash b => cases hk

/-- Replacing the header by one with the same parts, in memory and file. -/
theorem same_parts {p p' : Pkg} (g : GoodPkg p) (hf : p.file.length < 2^63) (hp : p'.hdr.parts = p.hdr.parts) (w : p'.hdr.WF)
    (hk : p'.hdr.hashKind = p.hdr.hashKind) (hfile : p'.file = p'.hdr.image ++ p.file.drop 4096) :
    GoodPkg p' ∧ Saved p' ∧ (∀ q, storedBytes p' q = storedBytes p q) ∧ usedParts p'.hdr = usedParts p.hdr ∧ p'.file.length = p.file.length := by
  have hx := g.exact
  have t : TidyParts p.hdr := g.parts.tidy (by omega)
  have hu : usedParts p'.hdr = usedParts p.hdr := by unfold usedParts; rw [hp]
  have il := image_length w
  have hlen : p'.file.length = p.file.length := by rw [hfile]; simp [il]; omega
  have hpo : ∀ q, partOffset p'.hdr q = partOffset p.hdr q := by intro q; unfold partOffset; rw [hp]
  refine ⟨⟨w, ⟨by rw [hu, hp]; exact g.parts.slots, by rw [hu]; exact g.parts.distinct⟩, by rw [hk]; exact g.kind, by rw [hu]; exact g.plain, by rw [hlen, hu]; exact hx⟩, ?_, ?_, hu, hlen⟩
  · have := parse_saved p'.hdr w (p.file.drop 4096) p'.log
    rw [← hfile] at this
    exact this
  · intro q
    unfold storedBytes
    rw [hpo]
    refine fileRead_drop _ _ ?_ _ _ (partOffset_ge p.hdr t q)
    rw [hfile, List.drop_append_of_le_length (by omega), List.drop_of_length_le (by omega), List.nil_append]

/-- An empty header has no parts. -/
theorem used_empty {h : Header} (hp : h.parts = initHeader.parts) : usedParts h = [] := by
  have : usedParts h = usedParts initHeader := by unfold usedParts; rw [hp]
  rw [this, used_init]

theorem tidy_empty {h : Header} (hp : h.parts = initHeader.parts) : TidyParts h := by
  have hu := used_empty hp
  have hi := init_good []
  refine ⟨?_, by rw [hu]; exact List.Pairwise.nil, by rw [hu]; decide⟩
  have := hi.compact
  rw [used_init] at this
  rw [hu, hp]
  exact this

/-- An empty package in its file. -/
theorem empty_inv (H : HashFn) (h : Header) (log : List FOp) (n : Nat) (wf : h.WF) (hp : h.parts = initHeader.parts) (hm : h.metas = initHeader.metas)
    (hmg : h.magic = headerMagic) (hn : digestLen h.hashKind = some n) (hh : H h.hashKind [] <+: h.payloadHash) : PkgInv H ⟨h, h.image, log⟩ [] := by
  have hu := used_empty hp
  have hk0 : h.hashKind ≠ 0 := by intro e; rw [e] at hn; cases hn
  refine ⟨⟨wf, ⟨[], 32, ?_⟩, ⟨[], 32, ?_⟩, hmg, hk0⟩, ⟨wf, ⟨?_, ?_⟩, ⟨n, hn⟩, ?_, ?_⟩, ?_, ?_, ?_, ?_, ?_, Placed.empty hu⟩
  · exact ⟨hm.trans (by decide +kernel : initHeader.metas = List.replicate 32 MetaHdr.zero), rfl, trivial, List.Pairwise.nil, wf.2.2.2.1⟩
  · exact ⟨hp.trans (by decide +kernel : initHeader.parts = List.replicate 32 PartHdr.zero), rfl, by simp, List.Pairwise.nil⟩
  · simp only; rw [hu, hp]; exact (by decide +kernel : initHeader.parts = List.replicate 32 PartHdr.zero)
  · simp only; rw [hu]; exact List.Pairwise.nil
  · simp only; rw [hu]; intro x hx; cases hx
  · simp only; rw [hu, image_length wf]; rfl
  · simp only; rw [image_length wf]; decide
  · have := parse_saved h wf [] log
    rw [List.append_nil] at this
    exact this
  · unfold HashStored
    simp only
    rw [hu]
    exact hh
  · simp only; rw [hu]; intro x hx; cases hx
  · unfold files; simp only; rw [hu]; rfl

/-- A new header with the kinds chosen. -/
def createHdr (hk sk : U8) : Header := { initHeader with hashKind := hk, signatureKind := sk }

theorem createHdr_wf (hk sk : U8) : (createHdr hk sk).WF := wf_init

/-- A package made by `bpak create` with a known hash kind: an empty package of that kind, saved in the file. -/
theorem create_inv (H : HashFn) (hH : HashLen H) (hk sk : U8) (n : Nat) (hn : digestLen hk = some n) :
    ∃ p, pkgCreate H hk sk = (.ok, p) ∧ PkgInv H p [] ∧ p.file = p.hdr.image ∧
      p.hdr = { createHdr hk sk with payloadHash := H hk [] ++ List.replicate (64 - n) 0 } := by
  obtain ⟨q, e, g, sv, hc, hm, hfile, hhdr⟩ := C56_open_new H hH
  have hn64 := digestLen_le hn
  have hql : q.file.length = 4096 := by rw [hfile, image_length g.wf]
  have hdk : (createHdr hk sk).hashKind = hk := rfl
  have t := tidy_empty (h := createHdr hk sk) rfl
  have hw : Whole (createHdr hk sk) q.file := by
    unfold Whole
    rw [used_empty (h := createHdr hk sk) rfl, hql]
    exact Nat.le_refl _
  have hb : hashedBytes q.file (createHdr hk sk).parts 4096 = [] := by
    rw [(C31_bytes_at_part_offsets _ t q.file).1, used_empty (h := createHdr hk sk) rfl]
    rfl
  have hwp : withPayloadHash H (createHdr hk sk) q.file = { createHdr hk sk with payloadHash := H hk [] ++ List.replicate (64 - n) 0 } := by
    unfold withPayloadHash
    rw [hb, hdk, hH hk n hn]
    have e2 : (createHdr hk sk).payloadHash = List.replicate 64 0 := rfl
    rw [e2, List.drop_replicate]
    rfl
  have wf : { createHdr hk sk with payloadHash := H hk [] ++ List.replicate (64 - n) 0 }.WF := by
    have := createHdr_wf hk sk
    exact ⟨this.1, this.2.1, this.2.2.1, this.2.2.2.1, by simp [hH hk n hn]; omega, this.2.2.2.2.2.1, this.2.2.2.2.2.2.1, this.2.2.2.2.2.2.2⟩
  have hup := updateHash_eq H { q with hdr := createHdr hk sk } t (by simp only; omega) hw n hn hn64
  simp only at hup
  rw [hwp] at hup
  have hcr : pkgCreate H hk sk = (.ok, writeHeader { q with hdr := { createHdr hk sk with payloadHash := H hk [] ++ List.replicate (64 - n) 0 } }) := by
    unfold pkgCreate
    rw [e]
    simp only [ne_eq, not_true_eq_false, if_false]
    have : updateHash H { hdr := { initHeader with hashKind := hk, signatureKind := sk }, file := q.file, log := q.log } = _ := hup
    rw [this]
  rw [writeHeader_eq _ wf] at hcr
  simp only at hcr
  rw [List.drop_of_length_le (by omega), List.append_nil] at hcr
  exact ⟨_, hcr, empty_inv H _ _ n wf rfl rfl rfl hn (List.prefix_append _ _), rfl, rfl⟩

theorem create_unknown (H : HashFn) (hH : HashLen H) (hk sk : U8) (hn : digestLen hk = none) :
    ∃ p, pkgCreate H hk sk = (.unsupportedHashAlg, p) := by
  obtain ⟨q, e, -⟩ := C56_open_new H hH
  refine ⟨{ hdr := createHdr hk sk, file := q.file, log := q.log }, ?_⟩
  · unfold pkgCreate
    rw [e]
    simp only [ne_eq, not_true_eq_false, if_false]
    have : updateHash H { hdr := { initHeader with hashKind := hk, signatureKind := sk }, file := q.file, log := q.log } =
        (.unsupportedHashAlg, { hdr := createHdr hk sk, file := q.file, log := q.log }) := by
      unfold updateHash computePayloadHash hashInit
      simp only
      rw [hn]
      rfl
    rw [this]

theorem inv_pkgStep {SK PK : Type} (H : HashFn) (hH : HashLen H) (S : SigScheme SK PK) (p p' : Pkg) (s : List (U32 × Bytes)) (op : PkgOp SK)
    (hS : ∀ sk rnd k d, S.sign sk rnd k d ≠ .error .ok)
    (i : PkgInv H p s) (hs : pkgStep H S p op = some p') : PkgInv H p' (expectStep s op) := by
  have g := i.good
  have gm := i.metas
  cases op with
  | addFile id flags d =>
    simp only [pkgStep] at hs
    split at hs
    · cases hs
    · rename_i hc
      simp only [not_or, ne_eq, Decidable.not_not, Nat.not_le] at hc
      obtain ⟨hid, hfl, hsz⟩ := hc
      by_cases h1 : ∃ q ∈ usedParts p.hdr, q.id = id
      · rw [(C35_add_refused H p g id flags _ d _).1 h1] at hs; cases hs
      have h1' : ∀ q ∈ usedParts p.hdr, q.id ≠ id := fun q hq e => h1 ⟨q, hq, e⟩
      by_cases h2 : (usedParts p.hdr).length = 32
      · rw [(C35_add_refused H p g id flags _ d _).2 h1' h2] at hs; cases hs
      have hl := (g.parts.inv g.wf).len
      obtain ⟨p1, e1, g1, sv1, hlen, hc1, hx1, hh1, ha1⟩ := C35_add_file H hH p g id hid h1' (by omega) flags hfl d hsz (d.length + 2) (by omega)
      obtain ⟨p2, e2, hst⟩ := C35_hash_stored H hH p g id hid h1' (by omega) flags hfl d hsz (d.length + 2) (by omega)
      rw [e1] at e2
      have : p1 = p2 := (Prod.mk.inj (Option.some.inj e2)).2
      subst this
      rw [e1] at hs
      have : p1 = p' := Option.some.inj hs
      subst this
      have hpl := padFor_lt d.length
      have gm1 : GoodMetas p1.hdr := goodMetas_same gm (by rw [hh1])
      refine ⟨inv_of_hdr i.hdr gm1 g1 (by rw [hh1]; exact ⟨rfl, rfl⟩), g1, by omega, sv1, hst, ?_, ?_, addFile_placed H hH p g id hid h1' (by omega) flags hfl d hsz (d.length + 2) (by omega) i.placed p1 e1⟩
      · intro q hq
        have : (q.id, q.flags, q.size.toNat, q.padBytes.toNat) ∈ (usedParts p1.hdr).map (fun q => (q.id, q.flags, q.size.toNat, q.padBytes.toNat)) := List.mem_map.2 ⟨q, hq, rfl⟩
        rw [ha1] at this
        rcases List.mem_append.1 this with h | h
        · obtain ⟨x, hx, e⟩ := List.mem_map.1 h
          have := i.padded x hx
          simp only [Prod.mk.injEq] at e
          rw [← e.2.2.1, ← e.2.2.2]; exact this
        · simp only [List.mem_singleton, Prod.mk.injEq] at h
          rw [h.2.2.1, h.2.2.2]
      · have aux : ∀ P : Pkg, files P = List.zipWith (fun c (a : U32 × U8 × Nat × Nat) => (c.1, c.2.take a.2.2.1)) (contents P)
            ((usedParts P.hdr).map (fun q => (q.id, q.flags, q.size.toNat, q.padBytes.toNat))) := by
          intro P
          unfold files contents
          induction usedParts P.hdr with
          | nil => rfl
          | cons q l ih => rw [List.map_cons, List.map_cons, List.map_cons, List.zipWith_cons_cons, ← ih]
        rw [aux, hc1, ha1, List.zipWith_append (by unfold contents; simp), ← aux, i.files]
        show _ = s ++ [(id, d)]
        simp
  | deletePart id rm =>
    simp only [pkgStep] at hs
    split at hs
    · cases hs
    · rename_i hid
      by_cases hex : ∃ q ∈ usedParts p.hdr, q.id = id
      · obtain ⟨q, hq, rfl⟩ := hex
        have hroom : rm = true → MetaRoom p.hdr (fun r => r == q.id) := by
          intro hrm
          subst hrm
          rcases room_or_full p.hdr g.wf gm (fun r => r == q.id) with h | ⟨h1, m, hm, h2⟩
          · exact h
          · rw [C36_full_table_is_false H p g i.small q hq h1 ⟨m, hm, by simpa using h2⟩ _ (by omega)] at hs
            cases hs
        obtain ⟨p1, e1, g1, sv1, hst1, hl1, hc1, ha1, hh1, hm1, hm2, hpl1, _⟩ := C36_delete_part H hH p g i.small q hq rm (fun h => ⟨gm, hroom h⟩) (p.file.length + 65) (by omega)
        rw [e1] at hs
        have : p1 = p' := Option.some.inj hs
        subst this
        have gm1 : GoodMetas p1.hdr := by
          cases rm with
          | false => exact goodMetas_same gm (hm1 rfl).1
          | true => exact (hm2 rfl).1
        have hsm := i.small
        refine ⟨inv_of_hdr i.hdr gm1 g1 (by rw [hh1]; exact ⟨rfl, rfl⟩), g1, by omega, sv1, hst1, mem_attrs ha1 (fun x hx => i.padded x (List.mem_filter.1 hx).1), ?_, hpl1 i.placed⟩
        rw [files_eq, hc1, ha1]
        unfold contents
        rw [mkFiles_filter, ← i.files, files_eq]
        rfl
      · have hall : ∀ q ∈ p.hdr.parts, q.id ≠ id := by
          intro q hq
          rw [g.parts.slots] at hq
          rcases List.mem_append.1 hq with hq | hq
          · intro e; exact hex ⟨q, hq, e⟩
          · rw [(List.mem_replicate.1 hq).2]; exact fun e => hid e.symm
        rw [C36_not_found H p id hall] at hs
        cases hs
  | deleteAll rm =>
    simp only [pkgStep] at hs
    have hroom : rm = true → MetaRoom p.hdr (fun r => r != 0) := by
      intro hrm
      subst hrm
      rcases room_or_full p.hdr g.wf gm (fun r => r != 0) with h | ⟨h1, m, hm, h2⟩
      · exact h
      · rw [C47_full_table_is_false H p g.wf h1 ⟨m, hm, by simpa using h2⟩ _ (by omega)] at hs
        cases hs
    obtain ⟨p1, e1, g1, sv1, hst1, hu1, hc1, hf1, hh1, hm1, hm2⟩ := C47_delete_all H hH p g.wf g.kind i.small (by rw [g.exact]; omega) rm (fun h => ⟨gm, hroom h⟩) 65 (Nat.le_refl _)
    rw [e1] at hs
    have : p1 = p' := Option.some.inj hs
    subst this
    have gm1 : GoodMetas p1.hdr := by
      cases rm with
      | false => exact goodMetas_same gm (hm1 rfl).1
      | true => exact (hm2 rfl).1
    refine ⟨inv_of_hdr i.hdr gm1 g1 (by rw [hh1]; exact ⟨rfl, rfl⟩), g1, ?_, sv1, hst1, by rw [hu1]; simp, ?_, Placed.empty hu1⟩
    · rw [hf1, image_length g1.wf]; omega
    · unfold files; rw [hu1]; rfl
  | header op =>
    simp only [pkgStep] at hs
    split at hs
    · rename_i hk
      split at hs
      · rename_i h1 hst
        have i1 := inv_step i.hdr hst
        obtain ⟨k1, k2, k3⟩ := step_keeps hk hst
        have e := Option.some.inj hs
        rw [writeHeader_eq _ i1.wf] at e
        have eh : p'.hdr = h1 := by rw [← e]
        obtain ⟨g1, sv1, hsb, hu, hlen⟩ := same_parts (p' := p') g i.small (by rw [eh]; exact k1) (by rw [eh]; exact i1.wf) (by rw [eh]; exact k3) (by rw [← e])
        have hsm := i.small
        refine ⟨by rw [eh]; exact i1, g1, by omega, sv1, ?_, by rw [hu]; exact i.padded, ?_, i.placed.same (by rw [eh]; exact k1)⟩
        · have := i.hash
          unfold HashStored at this ⊢
          rw [hu, funext hsb, eh, k2, k3]
          exact this
        · have := i.files
          unfold files at this ⊢
          rw [hu]
          simp only [hsb]
          exact this
      · cases hs
    · cases hs
  | sign sk rnd =>
    simp only [pkgStep] at hs
    have hsm := i.small
    have hx := g.exact
    rw [pkgSign_eq H hH S rnd _ p g hsm] at hs
    simp only at hs
    split at hs
    · rename_i p2 hp2
      split at hp2
      · rename_i e he
        exact absurd (show S.sign sk rnd p.hdr.hashKind _ = .error .ok by rw [he]; exact congrArg _ (Prod.mk.inj hp2).1) (hS _ _ _ _)
      · rename_i sig he
        split at hp2
        · cases (Prod.mk.inj hp2).1
        · rename_i hl
          have hp2 := (Prod.mk.inj hp2).2
          have e2 := Option.some.inj hs
          subst e2
          obtain ⟨n, hk⟩ := g.kind
          have wf : (signedHdr H p sig).WF := withSig_wf (withPayloadHash_wf H hH _ g.wf _ n hk) sig (by omega) _
          rw [writeHeader_eq _ wf] at hp2
          have eh : p2.hdr = signedHdr H p sig := by rw [← hp2]
          obtain ⟨g1, sv1, hsb, hu, hlen⟩ := same_parts (p' := p2) g hsm (by rw [eh]; rfl) (by rw [eh]; exact wf) (by rw [eh]; rfl) (by rw [← hp2])
          have t : TidyParts p.hdr := g.parts.tidy (by omega)
          refine ⟨inv_of_hdr i.hdr (goodMetas_same gm (by rw [eh]; rfl)) g1 (by rw [eh]; exact ⟨rfl, rfl⟩), g1, by omega, sv1, ?_, by rw [hu]; exact i.padded, ?_, i.placed.same (by rw [eh]; rfl)⟩
          · have := hashStored_with H p.hdr t p.file p.file [] rfl
            unfold HashStored at this ⊢
            rw [hu, funext hsb, eh]
            exact this
          · have := i.files
            unfold files at this ⊢
            rw [hu]
            simp only [hsb]
            exact this
    · cases hs
  | reopen =>
    simp only [pkgStep] at hs
    obtain ⟨hl, hp⟩ := i.saved
    unfold pkgOpen at hs
    rw [if_pos hl, hp, i.valid] at hs
    have e := Option.some.inj hs
    subst e
    exact ⟨i.hdr, ⟨g.wf, g.parts, g.kind, g.plain, g.exact⟩, i.small, i.saved, i.hash, i.padded, i.files, i.placed⟩
  | create hk sk =>
    simp only [pkgStep] at hs
    cases hn : digestLen hk with
    | none =>
      obtain ⟨p2, hp2⟩ := create_unknown H hH hk sk hn
      rw [hp2] at hs
      cases hs
    | some n =>
      obtain ⟨p1, e1, i1, -, -⟩ := create_inv H hH hk sk n hn
      rw [e1] at hs
      have e := Option.some.inj hs
      subst e
      exact i1
  | signRaw sig =>
    simp only [pkgStep, writeRawSignature] at hs
    by_cases hl : sig.length > 512
    · rw [if_pos hl] at hs; cases hs
    · rw [if_neg hl] at hs
      have hsm := i.small
      have e := Option.some.inj hs
      have wf := withSig_wf g.wf sig (by omega) (BitVec.ofNat 16 sig.length)
      rw [writeHeader_eq _ wf] at e
      have eh : p'.hdr = { p.hdr with signature := sig ++ List.replicate (512 - sig.length) 0, signatureSz := BitVec.ofNat 16 sig.length } := by rw [← e]
      obtain ⟨g1, sv1, hsb, hu, hlen⟩ := same_parts (p' := p') g hsm (by rw [eh]) (by rw [eh]; exact wf) (by rw [eh]) (by rw [← e])
      refine ⟨inv_of_hdr i.hdr (goodMetas_same gm (by rw [eh])) g1 (by rw [eh]; exact ⟨rfl, rfl⟩), g1, by omega, sv1, ?_, by rw [hu]; exact i.padded, ?_, i.placed.same (by rw [eh])⟩
      · have := i.hash
        unfold HashStored at this ⊢
        rw [hu, funext hsb, eh]
        exact this
      · have := i.files
        unfold files at this ⊢
        rw [hu]
        simp only [hsb]
        exact this

/-- The invariant holds after every history that starts from a new package. -/
theorem run_inv {SK PK : Type} (H : HashFn) (hH : HashLen H) (S : SigScheme SK PK) (hS : ∀ sk rnd k d, S.sign sk rnd k d ≠ .error .ok)
    (ops : List (PkgOp SK)) (p0 p : Pkg) (h0 : pkgOpen H true [] = (.ok, p0)) (hr : pkgRun H S p0 ops = some p) : PkgInv H p (expect [] ops) := by
  have hinit : PkgInv H p0 [] := by
    obtain ⟨q, e, g, sv, hc, hm, hfile, hhdr⟩ := C56_open_new H hH
    rw [h0] at e
    have : p0 = q := (Prod.mk.inj e).2
    subst this
    have hu : usedParts p0.hdr = [] := by rw [hhdr]; exact used_init
    refine ⟨⟨g.wf, ⟨[], 32, ?_⟩, ⟨_, _, g.parts.inv g.wf⟩, by rw [hhdr]; rfl, by rw [hhdr]; exact (by decide : (1 : U8) ≠ 0)⟩, g, by rw [g.exact, hu]; decide, sv, ?_, by rw [hu]; simp, by unfold files; rw [hu]; rfl, Placed.empty hu⟩
    · exact ⟨by rw [hhdr]; exact (by decide +kernel : initHeader.metas = List.replicate 32 MetaHdr.zero), rfl, trivial, List.Pairwise.nil, g.wf.2.2.2.1⟩
    · unfold HashStored
      rw [hu, hhdr]
      exact List.prefix_append _ _
  have hrun : ∀ (ops : List (PkgOp SK)) (q : Pkg) (s : List (U32 × Bytes)), PkgInv H q s → pkgRun H S q ops = some p → PkgInv H p (expect s ops) := by
    intro ops
    induction ops with
    | nil => intro q s i h; cases h; exact i
    | cons op ops ih =>
      intro q s i h
      simp only [pkgRun] at h
      split at h
      · cases h
      · rename_i q' hq
        exact ih q' _ (inv_pkgStep H hH S q q' s op hS i hq) h
  exact hrun ops p0 [] hinit hr

/-- C61: however long an application works on a package (adding files, deleting parts, editing metadata, signing,
closing and reopening), as long as the calls succeed the package in the file is a valid one, identical to the one
in memory, with a right payload hash and no slack, and holds exactly the files expected: those added and not
deleted, in order; extraction gives each of them back. -/
theorem C61_history {SK PK : Type} (H : HashFn) (hH : HashLen H) (S : SigScheme SK PK) (hS : ∀ sk rnd k d, S.sign sk rnd k d ≠ .error .ok)
    (ops : List (PkgOp SK)) (p0 p : Pkg) (h0 : pkgOpen H true [] = (.ok, p0)) (hr : pkgRun H S p0 ops = some p) :
    GoodPkg p ∧ Saved p ∧ HashStored H p ∧ validHeader p.hdr = .ok ∧ files p = expect [] ops ∧
      (∀ id d, (id, d) ∈ expect [] ops → extractFile p id = (.ok, some d)) ∧
      (∀ id, id ≠ 0 → (∀ d, (id, d) ∉ expect [] ops) → extractFile p id = (.notFound, none)) := by
  have i := run_inv H hH S hS ops p0 p h0 hr
  refine ⟨i.good, i.saved, i.hash, i.valid, i.files, ?_, ?_⟩
  · intro id d hd
    rw [← i.files] at hd
    obtain ⟨q, hq, e⟩ := List.mem_map.1 hd
    have := (C35_extract_file p i.good i.small q hq).1
    simp only [Prod.mk.injEq] at e
    rw [e.1, e.2] at this
    exact this
  · intro id hid hn
    refine C35_extract_not_found p id ?_
    intro q hq e
    rw [i.good.parts.slots] at hq
    rcases List.mem_append.1 hq with hq | hq
    · refine hn ((storedBytes p q).take q.size.toNat) ?_
      rw [← i.files, ← e]
      exact List.mem_map.2 ⟨q, hq, rfl⟩
    · rw [(List.mem_replicate.1 hq).2] at e
      exact hid e.symm

/-- Such a history: two files, an entry for the first, which is then deleted with its entry; signing; reopening. -/
def exOps : List (PkgOp Unit) := [.addFile 7 0 [1, 2, 3], .addFile 8 0 [4], .header (.addMeta 5 7 8), .deletePart 7 true, .sign () [], .reopen]

example : (pkgRun exHash exScheme (pkgOpen exHash true []).2 exOps).map (fun p => (files p, usedMetas p.hdr)) = some ([(8, [4])], []) := by decide +kernel

/-- Two files and a metadata entry of the first. -/
def exOps2 : List (PkgOp Unit) := [.addFile 7 0 [1, 2, 3], .addFile 8 0 [4], .header (.addMeta 5 7 8)]

theorem ex_run (ops : List (PkgOp Unit)) {β : Type} (f : Pkg → β) (v : β)
    (h : (pkgRun exHash exScheme (pkgOpen exHash true []).2 ops).map f = some v) : ∃ p, PkgInv exHash p (expect [] ops) ∧ f p = v := by
  obtain ⟨q, e, _⟩ := C56_open_new exHash exHash_len
  cases hr : pkgRun exHash exScheme (pkgOpen exHash true []).2 ops with
  | none => rw [hr] at h; cases h
  | some p =>
    rw [hr] at h
    exact ⟨p, run_inv exHash exHash_len exScheme (by intro _ _ _ _ h; cases h) ops _ p (by rw [e]) hr, Option.some.inj h⟩

/-- The hypotheses of C36_delete_part and C47_delete_all are met, with a part that has metadata and is followed by another. -/
example : ∃ (p : Pkg) (q : PartHdr), GoodPkg p ∧ p.file.length < 2^63 ∧ q ∈ usedParts p.hdr ∧ GoodMetas p.hdr ∧ MetaRoom p.hdr (fun r => r == q.id) ∧
    MetaRoom p.hdr (fun r => r != 0) ∧ files p = [(7, [1, 2, 3]), (8, [4])] ∧ (usedMetas p.hdr).map metaAttrs = [(5, 7, 8)] := by
  obtain ⟨p, i, e⟩ := ex_run exOps2 (fun p => ((usedParts p.hdr).length, (usedMetas p.hdr).map metaAttrs)) (2, [(5, 7, 8)]) (by decide +kernel)
  have e1 := (Prod.mk.inj e).1
  have e2 := (Prod.mk.inj e).2
  have hl : (usedMetas p.hdr).length = 1 := by have := congrArg List.length e2; simpa using this
  cases hu : usedParts p.hdr with
  | nil => rw [hu] at e1; cases e1
  | cons q l => exact ⟨p, q, i.good, i.small, by rw [hu]; exact List.mem_cons_self, i.metas, Or.inr (by omega), Or.inr (by omega), i.files, e2⟩

/-- The hypotheses of C36_trailing_data_is_false are met by the same package with one more byte in the file. -/
example : ∃ (p : Pkg) (q r : PartHdr), p.hdr.WF ∧ GoodParts p.hdr ∧ p.file.length < 2^63 ∧ 4096 + ((usedParts p.hdr).map storedSize).sum < p.file.length ∧
    usedParts p.hdr = [] ++ q :: [r] ∧ ([r].map storedSize).sum % 4096 ≠ 0 := by
  obtain ⟨p, i, e⟩ := ex_run exOps2 (fun p => (usedParts p.hdr).map storedSize) [512, 512] (by decide +kernel)
  have hx := i.good.exact
  have e' : (usedParts p.hdr).map storedSize = [512, 512] := e
  rw [e'] at hx
  have hx : p.file.length = 5120 := hx
  rcases hu : usedParts p.hdr with _ | ⟨q, _ | ⟨r, _ | ⟨_, _⟩⟩⟩
  · rw [hu] at e'; cases e'
  · rw [hu] at e'; exact absurd (congrArg List.length e') (by simp)
  · rw [hu] at e'
    have e2 : storedSize r = 512 := by simp at e'; exact e'.2
    refine ⟨{ p with file := p.file ++ [0] }, q, r, i.good.wf, i.good.parts, ?_, ?_, hu, ?_⟩
    · simp; omega
    · simp only [hu]; rw [e']; simp; omega
    · simp [e2]
  · rw [hu] at e'; exact absurd (congrArg List.length e') (by simp)

/-- The hypotheses of C36_full_table_is_false and C47_full_table_is_false are met: a file with 32 metadata entries. -/
example : ∃ (p : Pkg) (q : PartHdr), GoodPkg p ∧ p.file.length < 2^63 ∧ q ∈ usedParts p.hdr ∧ (∀ m ∈ p.hdr.metas, m.id ≠ 0) ∧ ∃ m ∈ p.hdr.metas, m.partRef = q.id ∧ m.partRef ≠ 0 := by
  obtain ⟨p, i, e⟩ := ex_run (.addFile 7 0 [1] :: (List.range 32).map (fun k => .header (.addMeta (BitVec.ofNat 32 (k+1)) 7 8)))
    (fun p => ((usedParts p.hdr).map (·.id), p.hdr.metas.all (fun m => m.id ≠ 0), p.hdr.metas.map (·.partRef))) ([7], true, List.replicate 32 7) (by decide +kernel)
  have e1 : (usedParts p.hdr).map (·.id) = [7] := (Prod.mk.inj e).1
  have e2 : p.hdr.metas.all (fun m => m.id ≠ 0) = true := (Prod.mk.inj (Prod.mk.inj e).2).1
  have e3 : p.hdr.metas.map (·.partRef) = List.replicate 32 7 := (Prod.mk.inj (Prod.mk.inj e).2).2
  rcases hu : usedParts p.hdr with _ | ⟨q, _ | ⟨_, _⟩⟩
  · rw [hu] at e1; cases e1
  · rw [hu] at e1
    have eq : q.id = 7 := by simpa using e1
    refine ⟨p, q, i.good, i.small, by rw [hu]; exact List.mem_cons_self, fun m hm => by simpa using List.all_eq_true.1 e2 m hm, ?_⟩
    cases hm : p.hdr.metas with
    | nil => rw [hm] at e3; cases e3
    | cons m l =>
      rw [hm, List.map_cons] at e3
      have := (List.cons.inj e3).1
      exact ⟨m, List.mem_cons_self, by rw [this, eq], by rw [this]; decide⟩
  · rw [hu] at e1; exact absurd (congrArg List.length e1) (by simp)

/-! ### C62 crash while deleting -/

/-- C62, the flaw: `bpak_pkg_delete_part` interrupted after its first write leaves a file that opens as a valid package
with all the old parts, but the part being deleted has turned into the one behind it (or into a mixture). Shown for a
package of two files, [1] and [2]: part 7 then reads [2]. -/
theorem C62_crash_while_deleting_is_false :
    ((pkgRun exHash exScheme (pkgOpen exHash true []).2 [.addFile 7 0 [1], .addFile 8 0 [2]]).map (fun p =>
      match deletePart exHash 9999 p 7 false with
      | some (.ret (.ok, p')) =>
        let f := applyOps p.file ((p'.log.drop p.log.length).take 1)
        (extractFile p 7, (pkgOpen exHash true f).1, extractFile (pkgOpen exHash true f).2 7)
      | _ => (extractFile p 7, .failed, (.failed, none)))) = some ((.ok, some [1]), .ok, (.ok, some [2])) := by decide +kernel

/-- C62, what holds: once the header is rewritten, a crash leaves the new package (with slack behind it). Missing: crashes
before that, where it is false. -/
theorem C62_crash_while_deleting_partial (H : HashFn) (hH : HashLen H) (p : Pkg) (g : GoodPkg p) (hf : p.file.length < 2^63) (q : PartHdr) (hq : q ∈ usedParts p.hdr)
    (rm : Bool) (gm : rm = true → GoodMetas p.hdr ∧ MetaRoom p.hdr (fun r => r == q.id)) (fuel : Nat) (hfuel : p.file.length / 4096 + 65 ≤ fuel) :
    ∃ p' moves n, deletePart H fuel p q.id rm = some (.ret (.ok, p')) ∧
      p'.log = p.log ++ (moves ++ [.write 0 p'.hdr.image, .trunc n]) ∧ p'.file = applyOps p.file (moves ++ [.write 0 p'.hdr.image, .trunc n]) ∧
      ∀ f', f' = applyOps p.file (moves ++ [.write 0 p'.hdr.image]) →
        parseHeader (f'.take 4096) = p'.hdr ∧ contents { p' with file := f' } = contents p' := by
  obtain ⟨p1, e1, g1, sv1, hst1, hl1, hc1, ha1, hh1, hm1, hm2, -, mv, k1, k2, k3⟩ := C36_delete_part H hH p g hf q hq rm gm fuel hfuel
  refine ⟨p1, mv, p1.file.length, e1, k1, k2, ?_⟩
  intro f' hf'
  rw [← hf'] at k3
  obtain ⟨tl, rfl⟩ := k3
  have hx := g1.exact
  have t : TidyParts p1.hdr := g1.parts.tidy (by omega)
  constructor
  · rw [List.take_append_of_le_length (by omega)]; exact sv1.2
  · rw [contents_eq { p1 with file := p1.file ++ tl } t, contents_eq p1 t]
    simp only
    rw [List.drop_append_of_le_length (by omega)]
    have := splitParts_append (usedParts p1.hdr) [] (p1.file.drop 4096) tl (by rw [List.length_drop]; omega)
    simpa [splitParts] using this

end Bpak
