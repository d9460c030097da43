import Verif.Proof.PkgAdd
/-! Properties of packages in files: adding and extracting (C35, C48, C57-C59). -/
namespace Bpak

/-- A hash function of the right digest lengths, for examples. -/
def exHash : HashFn := fun k _ => List.replicate (if k = 1 then 32 else if k = 2 then 48 else 64) 0
theorem exHash_len : HashLen exHash := by
  intro k n h b
  unfold digestLen at h
  simp only [hashSha256, hashSha384, hashSha512] at h
  show (List.replicate _ _).length = n
  rw [List.length_replicate]
  split at h
  · cases h; simp [*]
  · split at h
    · cases h; simp [*]
    · split at h
      · cases h; simp [*]
      · cases h

/-! ### C35 -/

/-- C35: adding a file to a package with room and no part of that name succeeds, for every package, content and
flags (other than the transport flag): the package then holds the old parts, unchanged and in order, and behind
them the file's bytes and zero padding; extraction gives back exactly the file; the header in the file is the one
in memory; besides the part table only the payload hash changed. -/
theorem C35_add_file (H : HashFn) (hH : HashLen H) (p : Pkg) (g : GoodPkg p) (id : U32) (hid : id ≠ 0) (hnew : ∀ q ∈ usedParts p.hdr, q.id ≠ id)
    (hroom : (usedParts p.hdr).length < 32) (flags : U8) (hfl : flags &&& 2 = 0) (d : Bytes) (hsz : p.file.length + d.length + 512 < 2^63)
    (fuel : Nat) (hfuel : d.length / 4096 + 2 ≤ fuel) :
    ∃ p', addFile H fuel p id flags d.length d = some (.ok, p') ∧
      GoodPkg p' ∧ Saved p' ∧ p'.file.length = p.file.length + d.length + padFor d.length ∧
      contents p' = contents p ++ [(id, d ++ List.replicate (padFor d.length) 0)] ∧
      extractFile p' id = (.ok, some d) ∧
      p'.hdr = { p.hdr with parts := p'.hdr.parts, payloadHash := p'.hdr.payloadHash } ∧
      (usedParts p'.hdr).map (fun q => (q.id, q.flags, q.size.toNat, q.padBytes.toNat)) =
        (usedParts p.hdr).map (fun q => (q.id, q.flags, q.size.toNat, q.padBytes.toNat)) ++ [(id, flags, d.length, padFor d.length)] := by
  obtain ⟨h, h0, e0, e1, u1, g0, wf, ea⟩ := addFile_ok H hH p g id hid hnew hroom flags hfl d hsz fuel hfuel
  obtain ⟨w, gp, ⟨n, hk⟩, plain, exact⟩ := g
  have hpl := padFor_lt d.length
  have hst := addedPart_stored id flags p.file.length d.length (padFor d.length) hfl (by omega) hpl
  have eparts : h.parts = h0.parts := by rw [e1]; rfl
  have eu : usedParts h = usedParts h0 := by unfold usedParts; rw [eparts]
  have gh : GoodParts h := ⟨by rw [eu, eparts]; exact g0.slots, by rw [eu]; exact g0.distinct⟩
  have il := image_length wf
  have hsum : ((usedParts h).map storedSize).sum = ((usedParts p.hdr).map storedSize).sum + (d.length + padFor d.length) := by
    rw [eu, u1]; simp [hst]
  have gpk : ∀ lg, GoodPkg ⟨h, h.image ++ p.file.drop 4096 ++ d ++ List.replicate (padFor d.length) 0, lg⟩ := by
    intro lg
    refine ⟨wf, gh, ⟨n, by rw [e1, e0]; exact hk⟩, ?_, ?_⟩
    · intro q hq
      simp only [eu, u1] at hq
      rcases List.mem_append.1 hq with hq | hq
      · exact plain q hq
      · simp at hq; rw [hq]; exact hfl
    · simp only [hsum]; simp; omega
  have hdrop : ((h.image ++ p.file.drop 4096 ++ d ++ List.replicate (padFor d.length) 0).drop 4096) = p.file.drop 4096 ++ (d ++ List.replicate (padFor d.length) 0) := by
    simp only [List.append_assoc]
    rw [List.drop_append_of_le_length (by omega), List.drop_of_length_le (by omega), List.nil_append]
  have tp : TidyParts p.hdr := gp.tidy (by omega)
  have th : TidyParts h := gh.tidy (by rw [hsum]; omega)
  have hcont : ∀ lg, contents ⟨h, h.image ++ p.file.drop 4096 ++ d ++ List.replicate (padFor d.length) 0, lg⟩ =
      contents p ++ [(id, d ++ List.replicate (padFor d.length) 0)] := by
    intro lg
    rw [contents_eq _ th, contents_eq _ tp]
    simp only [hdrop, eu, u1]
    rw [splitParts_append _ _ _ _ (by rw [List.length_drop]; omega)]
    congr 1
    simp only [splitParts, hst]
    rw [List.take_of_length_le (by simp)]
    rfl
  refine ⟨_, ea, gpk _, ?_, by simp; omega, hcont _, ?_, ?_, ?_⟩
  · have := parse_saved h wf (p.file.drop 4096 ++ d ++ List.replicate (padFor d.length) 0)
    simp only [← List.append_assoc] at this
    exact this _
  · have hq : addedPart id flags p.file.length d.length (padFor d.length) ∈ usedParts h := by rw [eu, u1]; simp
    clear ea
    generalize hP : (⟨h, h.image ++ p.file.drop 4096 ++ d ++ List.replicate (padFor d.length) 0,
      p.log ++ chunkWrites (List.length p.file) d ++ [FOp.write (p.file.length + d.length) (List.replicate (padFor d.length) 0), FOp.write 0 h.image]⟩ : Pkg) = P
    have hPh : P.hdr = h := by rw [← hP]
    have hPf : P.file = h.image ++ p.file.drop 4096 ++ d ++ List.replicate (padFor d.length) 0 := by rw [← hP]
    have gP : GoodPkg P := by rw [← hP]; exact gpk _
    have hfl2 : P.file.length < 2^63 := by
      rw [hPf]; simp only [List.length_append, List.length_drop, List.length_replicate, il]; omega
    have hx := extractFile_ok P gP.wf gP.parts (by unfold Whole; rw [gP.exact]; omega) hfl2
      (addedPart id flags p.file.length d.length (padFor d.length)) (by rw [hPh]; exact hq) hfl
    have hc : contents P = contents p ++ [(id, d ++ List.replicate (padFor d.length) 0)] := by rw [← hP]; exact hcont _
    have hsb : storedBytes P (addedPart id flags p.file.length d.length (padFor d.length)) = d ++ List.replicate (padFor d.length) 0 := by
      unfold contents at hc
      rw [hPh, eu, u1, List.map_append] at hc
      have := List.append_inj_right' hc (by simp)
      simp at this
      exact this.2
    have hid2 : (addedPart id flags p.file.length d.length (padFor d.length)).id = id := rfl
    rw [hid2] at hx
    rw [hx, hsb]
    have : (addedPart id flags p.file.length d.length (padFor d.length)).size.toNat = d.length := by
      unfold addedPart; simp; omega
    rw [this]; simp
  · simp only [e1, e0, withPayloadHash]
  · simp only [eu, u1, List.map_append, List.map_cons, List.map_nil]
    congr 1
    unfold addedPart
    simp only [BitVec.toNat_ofNat]
    rw [Nat.mod_eq_of_lt (by omega), Nat.mod_eq_of_lt (by omega)]

theorem addFile_err (H : HashFn) (p : Pkg) (id : U32) (flags : U8) (n : Nat) (d : Bytes) (fuel : Nat) (e : Err) (he : e ≠ .ok)
    (h1 : (addPart p.hdr id).1 = e) (h2 : (addPart p.hdr id).2.1 = p.hdr) : addFile H fuel p id flags n d = some (e, p) := by
  unfold addFile
  obtain ⟨⟨a, b, c⟩, hx⟩ : ∃ r, addPart p.hdr id = r := ⟨_, rfl⟩
  rw [hx] at h1 h2
  simp only at h1 h2
  subst h1; subst h2
  simp only [hx]

/-- C35: otherwise it is refused and nothing changes. -/
theorem C35_add_refused (H : HashFn) (p : Pkg) (g : GoodPkg p) (id : U32) (flags : U8) (n : Nat) (d : Bytes) (fuel : Nat) :
    ((∃ q ∈ usedParts p.hdr, q.id = id) → addFile H fuel p id flags n d = some (.exists_, p)) ∧
    ((∀ q ∈ usedParts p.hdr, q.id ≠ id) → (usedParts p.hdr).length = 32 → addFile H fuel p id flags n d = some (.noSpaceLeft, p)) := by
  rcases addPart_cases (g.parts.inv g.wf) id with ⟨hx, e1, e2⟩ | ⟨hx, hk, e1, e2⟩ | ⟨hx, hk, e⟩
  · refine ⟨fun _ => addFile_err H p id flags n d fuel _ (by decide) e1 e2, fun h => ?_⟩
    obtain ⟨q, hq, e⟩ := hx; exact absurd e (h q hq)
  · exact ⟨fun h => absurd h hx, fun _ _ => addFile_err H p id flags n d fuel _ (by decide) e1 e2⟩
  · exact ⟨fun h => absurd h hx, fun _ h => by omega⟩

/-- C35: extraction gives every part's stored bytes without the padding. -/
theorem C35_extract_file (p : Pkg) (g : GoodPkg p) (hf : p.file.length < 2^63) (q : PartHdr) (hq : q ∈ usedParts p.hdr) :
    extractFile p q.id = (.ok, some ((storedBytes p q).take q.size.toNat)) ∧
    ((storedBytes p q).take q.size.toNat).length = q.size.toNat := by
  refine ⟨extractFile_ok p g.wf g.parts (by unfold Whole; rw [g.exact]; omega) hf q hq (g.plain q hq), ?_⟩
  obtain ⟨pre, post, hu⟩ := List.append_of_mem hq
  have hx := g.exact
  have t : TidyParts p.hdr := g.parts.tidy (by omega)
  obtain ⟨e3, _⟩ := tidy_offset p.hdr t pre post q hu
  rw [hu] at hx
  simp only [List.map_append, List.map_cons, List.sum_append, List.sum_cons] at hx
  have hst : storedSize q = q.size.toNat + q.padBytes.toNat := by
    unfold storedSize; rw [if_neg (by simpa using g.plain q hq)]
  unfold storedBytes fileRead
  rw [List.length_take, List.length_take, List.length_drop, e3]; omega

/-- C35: and reports parts that are not there. -/
theorem C35_extract_not_found (p : Pkg) (id : U32) : (∀ q ∈ p.hdr.parts, q.id ≠ id) → extractFile p id = (.notFound, none) := by
  intro h
  unfold extractFile
  rw [(C10_get_part_not_found p.hdr id).2 h]

/-- A package of one transport-encoded part: 5 bytes stored, installed size 500 with 12 bytes padding. -/
def exTransportPkg : Pkg :=
  ⟨{ initHeader with parts := { PartHdr.zero with id := 7, size := 500, padBytes := 12, flags := 2, transportSize := 5 } :: List.replicate 31 PartHdr.zero },
    List.replicate 4096 0 ++ [1, 2, 3, 4, 5], []⟩

/-- The flaw with transport-encoded parts: the padding, which is not stored, is subtracted from the stored size;
the five bytes cannot be extracted. -/
theorem C35_extract_transport_is_false : validHeader exTransportPkg.hdr = .ok ∧
    fileRead exTransportPkg.file 4096 5 = [1, 2, 3, 4, 5] ∧ extractFile exTransportPkg 7 = (.readError, some []) := by
  refine ⟨by decide +kernel, by decide +kernel, ?_⟩
  unfold extractFile
  have e1 : getPart exTransportPkg.hdr 7 = some 0 := by decide +kernel
  have e2 : exTransportPkg.hdr.parts[0]? = some { PartHdr.zero with id := 7, size := 500, padBytes := 12, flags := 2, transportSize := 5 } := by decide +kernel
  rw [e1]
  simp only [e2]
  rw [if_neg (by decide +kernel), extractLoop, dif_neg (by decide +kernel), if_pos (by decide +kernel)]

/-- The flaw with adding behind transport-encoded parts: the data is written where the part would start if the
parts before it were installed, not where `bpak_part_offset` says; extraction gives other bytes. -/
theorem C35_add_after_transport_is_false :
    (addFile (fun _ _ => List.replicate 32 0) 9 exTransportPkg 8 0 2 [0xaa, 0xbb]).map (fun r => (r.1, extractFile r.2 8)) =
      some (.ok, .ok, some [0, 0]) := by decide +kernel

/-! ### C48 -/

/-- C48: the padding computed for any size is below 512 and fills up to a multiple of 512. -/
theorem C48_padding (n : Nat) : padFor n < 512 ∧ (n + padFor n) % 512 = 0 := ⟨padFor_lt n, padFor_aligned n⟩

/-- C48: adding a file to a package with a valid header leaves a valid header. -/
theorem C48_header_stays_valid (H : HashFn) (hH : HashLen H) (p : Pkg) (g : GoodPkg p) (hv : validHeader p.hdr = .ok) (id : U32) (hid : id ≠ 0)
    (hnew : ∀ q ∈ usedParts p.hdr, q.id ≠ id) (hroom : (usedParts p.hdr).length < 32) (flags : U8) (hfl : flags &&& 2 = 0) (d : Bytes)
    (hsz : p.file.length + d.length + 512 < 2^63) (fuel : Nat) (hfuel : d.length / 4096 + 2 ≤ fuel) :
    ∃ p', addFile H fuel p id flags d.length d = some (.ok, p') ∧ validHeader p'.hdr = .ok := by
  obtain ⟨h, h0, e0, e1, u1, g0, wf, ea⟩ := addFile_ok H hH p g id hid hnew hroom flags hfl d hsz fuel hfuel
  refine ⟨_, ea, ?_⟩
  have hpl := padFor_lt d.length
  simp only
  rw [C13_valid_header_code] at hv ⊢
  have eparts : h.parts = h0.parts := by rw [e1]; rfl
  have eu : usedParts h = usedParts h0 := by unfold usedParts; rw [eparts]
  have em : usedMetas h = usedMetas p.hdr := by rw [e1, e0]; rfl
  have emg : h.magic = p.hdr.magic := by rw [e1, e0]; rfl
  have ehk : h.hashKind = p.hdr.hashKind := by rw [e1, e0]; rfl
  rw [emg, em, ehk, eu, u1]
  split at hv
  · cases hv
  · rename_i h1
    rw [if_neg h1]
    split at hv
    · cases hv
    · rename_i h2
      rw [if_neg]
      · split at hv
        · cases hv
        · rename_i h3; rw [if_neg h3]; exact hv
      · refine not_not_intro ?_
        replace h2 := Classical.not_not.1 h2
        intro q hq
        rcases List.mem_append.1 hq with hq | hq
        · exact h2 q hq
        · simp at hq
          have := padFor_aligned d.length
          rw [hq]
          unfold addedPart
          simp only [BitVec.toNat_add, BitVec.toNat_ofNat, BitVec.toNat_setWidth]
          rw [Nat.mod_eq_of_lt (a := d.length) (by omega), Nat.mod_eq_of_lt (a := padFor d.length) (b := 2^16) (by omega), Nat.mod_eq_of_lt (a := padFor d.length) (by omega),
            Nat.mod_eq_of_lt (b := 2^64) (by omega)]
          exact this

/-! ### C57 crash while adding -/

theorem applyOps_append (f : Bytes) (a b : List FOp) : applyOps f (a ++ b) = applyOps (applyOps f a) b := by
  unfold applyOps; rw [List.foldl_append]

/-- A write at or behind position `L`. -/
def WritesFrom (L : Nat) : FOp → Prop
  | .write pos _ => L ≤ pos
  | .trunc _ => False

theorem prefix_fileWrite (f g : Bytes) (pos : Nat) (d : Bytes) (h : f <+: g) (hp : f.length ≤ pos) : f <+: fileWrite g pos d := by
  obtain ⟨t, rfl⟩ := h
  by_cases hd : d = []
  · subst hd; rw [fileWrite_nil]; exact List.prefix_append f t
  · unfold fileWrite
    rw [if_neg hd, List.take_append, List.take_of_length_le hp]
    simp only [List.append_assoc]
    exact List.prefix_append _ _

theorem prefix_applyOps (f : Bytes) (ops : List FOp) (hw : ∀ o ∈ ops, WritesFrom f.length o) : ∀ g, f <+: g → f <+: applyOps g ops := by
  induction ops with
  | nil => intro g h; exact h
  | cons o ops ih =>
    intro g h
    have := hw o List.mem_cons_self
    refine ih (fun x hx => hw x (List.mem_cons_of_mem _ hx)) _ ?_
    cases o with
    | write pos d => exact prefix_fileWrite f g pos d h this
    | trunc n => exact absurd this (by simp [WritesFrom])

theorem crash_prefix (f : Bytes) (ops : List FOp) (hw : ∀ o ∈ ops, WritesFrom f.length o) (f' : Bytes) (hc : CrashState f ops f') : f <+: f' := by
  obtain ⟨done, rest, e, h⟩ := hc
  have h1 : f <+: applyOps f done := prefix_applyOps f done (fun o ho => hw o (by rw [e]; simp [ho])) f (List.prefix_refl f)
  rcases h with h | ⟨pos, d, tl, n, e2, h⟩
  · rw [h]; exact h1
  · rw [h]
    refine prefix_fileWrite _ _ _ _ h1 ?_
    have := hw (.write pos d) (by rw [e, e2]; simp)
    exact this

theorem chunkWrites_from (n : Nat) : ∀ (d : Bytes) (pos L : Nat), d.length = n → L ≤ pos → ∀ o ∈ chunkWrites pos d, WritesFrom L o := by
  induction n using Nat.strongRecOn with
  | ind n ih =>
    intro d pos L hd hL o ho
    rw [chunkWrites] at ho
    split at ho
    · simp at ho
    · rename_i hne
      rcases List.mem_cons.1 ho with rfl | ho
      · exact hL
      · have := List.length_pos_iff.2 hne
        exact ih (n - min n 4096) (by omega) (d.drop 4096) _ L (by simp; omega) (by omega) o ho

theorem chunkWrites_apply (n : Nat) : ∀ (d : Bytes) (pos : Nat) (f : Bytes), d.length = n → applyOps f (chunkWrites pos d) = fileWrite f pos d := by
  induction n using Nat.strongRecOn with
  | ind n ih =>
    intro d pos f hd
    rw [chunkWrites]
    split
    · rename_i h; subst h; rfl
    · rename_i hne
      have := List.length_pos_iff.2 hne
      have h2 := ih (n - min n 4096) (by omega) (d.drop 4096) (pos + (d.take 4096).length) (fileWrite f pos (d.take 4096)) (by simp; omega)
      rw [fileWrite_append, List.take_append_drop] at h2
      exact h2

/-- C57: a crash anywhere in `bpak_pkg_add_file` before the header is rewritten (also in the middle of a write)
leaves a file from which the old package opens, with all its parts. `ops` are the writes before the last one,
which is the header's. -/
theorem C57_crash_while_adding (H : HashFn) (hH : HashLen H) (p : Pkg) (g : GoodPkg p) (id : U32) (hid : id ≠ 0) (hnew : ∀ q ∈ usedParts p.hdr, q.id ≠ id)
    (hroom : (usedParts p.hdr).length < 32) (flags : U8) (hfl : flags &&& 2 = 0) (d : Bytes) (hsz : p.file.length + d.length + 512 < 2^63)
    (fuel : Nat) (hfuel : d.length / 4096 + 2 ≤ fuel) :
    ∃ p' ops, addFile H fuel p id flags d.length d = some (.ok, p') ∧
      p'.log = p.log ++ (ops ++ [.write 0 p'.hdr.image]) ∧ p'.file = applyOps p.file (ops ++ [.write 0 p'.hdr.image]) ∧
      ∀ f', CrashState p.file ops f' →
        parseHeader (f'.take 4096) = parseHeader (p.file.take 4096) ∧ contents { p with file := f' } = contents p := by
  obtain ⟨h, h0, e0, e1, u1, g0, wf, ea⟩ := addFile_ok H hH p g id hid hnew hroom flags hfl d hsz fuel hfuel
  have hx := g.exact
  have t : TidyParts p.hdr := g.parts.tidy (by omega)
  have il := image_length wf
  refine ⟨_, chunkWrites p.file.length d ++ [.write (p.file.length + d.length) (List.replicate (padFor d.length) 0)], ea, by simp, ?_, ?_⟩
  · simp only
    rw [applyOps_append, applyOps_append, chunkWrites_apply _ _ _ _ rfl, fileWrite_end]
    simp only [applyOps, List.foldl_cons, List.foldl_nil, applyOp]
    have e2 : p.file.length + d.length = (p.file ++ d).length := by simp
    rw [e2, fileWrite_end, fileWrite_zero, il, List.append_assoc, List.append_assoc p.file, List.drop_append_of_le_length (by omega)]
    simp only [List.append_assoc]
  · intro f' hc
    have hpre := crash_prefix p.file _ ?_ f' hc
    · obtain ⟨tl, rfl⟩ := hpre
      constructor
      · rw [List.take_append_of_le_length (by omega)]
      · rw [contents_eq { p with file := p.file ++ tl } t, contents_eq p t]
        simp only
        rw [List.drop_append_of_le_length (by omega)]
        have := splitParts_append (usedParts p.hdr) [] (p.file.drop 4096) tl (by rw [List.length_drop]; omega)
        simpa [splitParts] using this
    · intro o ho
      rcases List.mem_append.1 ho with ho | ho
      · exact chunkWrites_from _ d _ _ rfl (Nat.le_refl _) o ho
      · simp at ho; rw [ho]; show _ ≤ _; omega

/-! ### C58 the input changes while it is read -/

theorem addCopyLoop_stuck (fuel : Nat) : ∀ (p : Pkg) (pos : Nat) (rem : U64), rem ≠ 0 → addCopyLoop fuel p pos [] rem = none := by
  induction fuel with
  | zero => intros; rfl
  | succ k ih =>
    intro p pos rem h
    unfold addCopyLoop
    rw [if_neg h]
    exact ih _ _ _ (by simpa using h)

theorem addCopyLoop_short (n : Nat) : ∀ (src : Bytes) (fuel : Nat) (p : Pkg) (pos : Nat) (rem : U64), src.length = n → n < rem.toNat → addCopyLoop fuel p pos src rem = none := by
  induction n using Nat.strongRecOn with
  | ind n ih =>
    intro src fuel p pos rem hl hr
    cases fuel with
    | zero => rfl
    | succ k =>
      unfold addCopyLoop
      have hz : rem ≠ 0 := by intro h; subst h; simp at hr
      rw [if_neg hz]
      have hlt : (src.take 4096).length = min 4096 n := by simp [hl]
      have hsub : (rem - BitVec.ofNat 64 (src.take 4096).length).toNat = rem.toNat - min 4096 n := by
        have := rem.isLt
        rw [BitVec.toNat_sub, BitVec.toNat_ofNat, hlt]; omega
      by_cases h0 : n = 0
      · have : src = [] := List.eq_nil_of_length_eq_zero (by omega)
        subst this
        exact addCopyLoop_stuck k _ _ _ (by simpa using hz)
      · exact ih (n - min 4096 n) (by omega) _ _ _ _ _ (by simp; omega) (by rw [hsub]; omega)

/-- C58, the flaw: if the input file gets shorter between `stat` and the copying, `bpak_pkg_add_file` never
returns. For every package and file with room for it. -/
theorem C58_terminates_is_false (H : HashFn) (p : Pkg) (g : GoodPkg p) (id : U32) (hnew : ∀ q ∈ usedParts p.hdr, q.id ≠ id)
    (hroom : (usedParts p.hdr).length < 32) (flags : U8) (statSize : Nat) (src : Bytes) (hs : src.length < statSize) (hb : statSize < 2^64)
    (hsz : p.file.length < 2^63) : ∀ fuel, addFile H fuel p id flags statSize src = none := by
  intro fuel
  unfold addFile
  rcases addPart_cases (g.parts.inv g.wf) id with ⟨⟨q, hq, e⟩, _⟩ | ⟨_, hk0, _⟩ | ⟨_, _, e⟩
  · exact absurd e (hnew q hq)
  · omega
  have hoff := newOffset_eq p.hdr g.parts g.plain (by rw [← g.exact]; omega)
  rw [← g.exact] at hoff
  rw [e]
  simp only
  rw [if_neg (by omega), addCopyLoop_short _ src fuel _ _ _ rfl (by rw [BitVec.toNat_ofNat, Nat.mod_eq_of_lt hb]; exact hs)]

/-- C58, what holds: with an unchanged input it returns after a number of passes given by the size (and then has
done what C35 says). Missing: inputs that change, where it is false. -/
theorem C58_terminates_partial (H : HashFn) (hH : HashLen H) (p : Pkg) (g : GoodPkg p) (id : U32) (hid : id ≠ 0) (flags : U8) (hfl : flags &&& 2 = 0) (d : Bytes)
    (hsz : p.file.length + d.length + 512 < 2^63) (fuel : Nat) (hfuel : d.length / 4096 + 2 ≤ fuel) :
    ∃ r, addFile H fuel p id flags d.length d = some r := by
  by_cases h1 : ∃ q ∈ usedParts p.hdr, q.id = id
  · exact ⟨_, (C35_add_refused H p g id flags _ d fuel).1 h1⟩
  · have h1' : ∀ q ∈ usedParts p.hdr, q.id ≠ id := fun q hq e => h1 ⟨q, hq, e⟩
    by_cases h2 : (usedParts p.hdr).length = 32
    · exact ⟨_, (C35_add_refused H p g id flags _ d fuel).2 h1' h2⟩
    · have := (g.parts.inv g.wf).len
      obtain ⟨p', e, _⟩ := C35_add_file H hH p g id hid h1' (by omega) flags hfl d hsz fuel hfuel
      exact ⟨_, e⟩

/-! ### C59 adding keys -/

/-- C59, the flaw: adding any key whose size leaves two or more bytes of padding (every key bpak knows) reads
outside a one-byte variable. -/
theorem C59_add_key_is_false (H : HashFn) (p : Pkg) (g : GoodPkg p) (id : U32) (hnew : ∀ q ∈ usedParts p.hdr, q.id ≠ id)
    (hroom : (usedParts p.hdr).length < 32) (flags : U8) (key : Bytes) (hs : 0 < key.length % 512 ∧ key.length % 512 < 511)
    (hsz : p.file.length < 2^63) : addKey H p id flags (.ok key) = .ub := by
  unfold addKey
  rcases addPart_cases (g.parts.inv g.wf) id with ⟨⟨q, hq, e⟩, _⟩ | ⟨_, hk0, _⟩ | ⟨_, _, e⟩
  · exact absurd e (hnew q hq)
  · omega
  have hoff := newOffset_eq p.hdr g.parts g.plain (by rw [← g.exact]; omega)
  rw [← g.exact] at hoff
  simp only
  rw [e]
  simp only
  rw [if_neg (by omega), if_pos (by unfold padFor; rw [if_pos (by omega)]; omega)]

/-- C59, what holds: a key whose size leaves at most one byte of padding is stored exactly as a file with the key's bytes would be,
and refused in the same cases. Missing: keys of other sizes, for which the call is undefined. -/
theorem C59_add_key_partial (H : HashFn) (hH : HashLen H) (p : Pkg) (g : GoodPkg p) (id : U32) (hid : id ≠ 0) (flags : U8) (hfl : flags &&& 2 = 0) (d : Bytes)
    (hs : d.length % 512 = 0 ∨ d.length % 512 = 511) (hsz : p.file.length + d.length + 512 < 2^63) (fuel : Nat) (hfuel : d.length / 4096 + 2 ≤ fuel) :
    ∃ e q q', addKey H p id flags (.ok d) = .ret (e, q) ∧ addFile H fuel p id flags d.length d = some (e, q') ∧ q.hdr = q'.hdr ∧ q.file = q'.file := by
  obtain ⟨w, gp, ⟨n, hk⟩, plain, exact⟩ := _root_.id g
  rcases addPart_cases (gp.inv w) id with ⟨hx, e1, e2⟩ | ⟨hx, hk0, e1, e2⟩ | ⟨hx, hk0, e⟩
  · refine ⟨.exists_, p, p, ?_, (C35_add_refused H p g id flags _ d _).1 hx, rfl, rfl⟩
    unfold addKey
    obtain ⟨⟨a, b, c⟩, hr⟩ : ∃ r, addPart p.hdr id = r := ⟨_, rfl⟩
    rw [hr] at e1 e2
    simp only at e1 e2
    subst e1; subst e2
    simp only [hr]
  · refine ⟨.noSpaceLeft, p, p, ?_, (C35_add_refused H p g id flags _ d _).2 (fun q hq h => hx ⟨q, hq, h⟩) (by have := (gp.inv w).len; omega), rfl, rfl⟩
    unfold addKey
    obtain ⟨⟨a, b, c⟩, hr⟩ : ∃ r, addPart p.hdr id = r := ⟨_, rfl⟩
    rw [hr] at e1 e2
    simp only at e1 e2
    subst e1; subst e2
    simp only [hr]
  · have hnew : ∀ q ∈ usedParts p.hdr, q.id ≠ id := fun q hq h => hx ⟨q, hq, h⟩
    have hlen := (gp.inv w).len
    obtain ⟨h, h0, b0, b1, b2, b3, b4, b5⟩ := addFile_ok H hH p g id hid hnew (by omega) flags hfl d hsz fuel hfuel
    have hpl := padFor_lt d.length
    have hst := addedPart_stored id flags p.file.length d.length (padFor d.length) hfl (by omega) hpl
    have hoff := newOffset_eq p.hdr gp plain (by omega)
    rw [← exact] at hoff
    have hoff' : newOffset p.hdr = BitVec.ofNat 64 p.file.length := by rw [← hoff]; simp
    have hpad : padFor d.length ≤ 1 := by unfold padFor; split <;> omega
    refine ⟨.ok, ⟨h, h.image ++ p.file.drop 4096 ++ d ++ List.replicate (padFor d.length) 0, ?_⟩, _, ?_, b5, rfl, rfl⟩
    rotate_left
    · unfold addKey
      simp only
      rw [e]
      simp only
      rw [modify_append_cons, if_neg (by omega), if_neg (by omega)]
      simp only [Pkg.write]
      have e1 : ({ newPart id with id := id, offset := newOffset p.hdr, flags := flags, size := BitVec.ofNat 64 d.length, padBytes := BitVec.ofNat 16 (padFor d.length) } : PartHdr)
          = addedPart id flags p.file.length d.length (padFor d.length) := by rw [hoff']; rfl
      rw [e1, hoff, fileWrite_end]
      have e2 : p.file.length + d.length = (p.file ++ d).length := by simp
      rw [e2, fileWrite_end]
      have hfit : 4096 + ((usedParts p.hdr ++ [addedPart id flags p.file.length d.length (padFor d.length)]).map storedSize).sum = p.file.length + d.length + padFor d.length := by
        simp only [List.map_append, List.sum_append, List.map_cons, List.map_nil, List.sum_cons, List.sum_nil, hst]; omega
      rw [← b0]
      rw [updateHash_eq H _ ?_ ?_ ?_ n ?_ (digestLen_le hk)]
      · simp only
        rw [writeHeader_eq _ (by rw [← b1]; exact b4)]
        simp only
        rw [← b1]
        congr 3
        · rw [List.append_assoc p.file, List.drop_append_of_le_length (by omega)]; simp
        · rfl
      · exact b3.tidy (by rw [b2]; omega)
      · simp; omega
      · unfold Whole; rw [b2]; simp; simp at hfit; omega
      · rw [b0]; exact hk

/-- The hypotheses of `C59_add_key_partial` are met by sizes 511 and 512. -/
example : (List.replicate 511 (1 : U8)).length % 512 = 511 ∧ (List.replicate 512 (1 : U8)).length % 512 = 0 := by
  constructor <;> rw [List.length_replicate]

end Bpak
