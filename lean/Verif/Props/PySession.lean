import Verif.Proof.Python
/-! Programs that use the Python classes. -/
namespace Bpak

theorem pyMask_toInt {v : Int} (h0 : 0 ≤ v) (h1 : v < 2^64) : (BitVec.ofInt 64 v).setWidth 32 = pyMask v := by
  unfold pyMask
  apply BitVec.eq_of_toNat_eq
  simp only [BitVec.toNat_setWidth, BitVec.toNat_ofInt]
  omega

theorem pyU32_eq (v : PyVal) : pyU32 v = match v with
    | .int n => if 0 ≤ n ∧ n < 2^64 then .val (pyMask n) else .raise .overflowError
    | _ => .raise .typeError := by
  unfold pyU32
  cases v with
  | int n =>
    simp only [pyULong]
    by_cases h : 0 ≤ n ∧ n < 2^64
    · rw [if_pos h, if_pos h]
      simp only [pyMask_toInt h.1 h.2, BitVec.setWidth_eq, ne_eq, not_true_eq_false, if_false]
    · rw [if_neg h, if_neg h]
  | none => rfl
  | bytes b => rfl
  | str b => rfl
  | other => rfl

theorem PkgInv.has {H : HashFn} {p : Pkg} {s : List (U32 × Bytes)} (i : PkgInv H p s) {id : U32} {d : Bytes} (h : (id, d) ∈ s) : ∃ j, getPart p.hdr id = some j := by
  rw [← i.files] at h
  obtain ⟨q, hq, e⟩ := List.mem_map.1 h
  obtain ⟨a, b, hab⟩ := List.append_of_mem hq
  have := (getPart_used (i.good.parts.inv i.good.wf) a b q hab).1
  rw [(Prod.mk.inj e).1] at this
  exact ⟨_, this⟩

theorem pyMeta_some {h : Header} {p : Pkg} (hp : p.hdr = h) {us : List MetaHdr} {k : Nat} (im : MetaInv h us k) {id ref : U32} (hid : id ≠ 0) :
    (pyMeta p id ref = none ∧ ∀ m ∈ us, ¬ (m.id = id ∧ m.partRef = ref)) ∨ ∃ pre m post, us = pre ++ m :: post ∧ m.id = id ∧ m.partRef = ref ∧ pyMeta p id ref = some (pre.length, m) := by
  subst hp
  unfold pyMeta
  cases hg : getMeta p.hdr id ref with
  | none => exact Or.inl ⟨rfl, (getMeta_none_iff im id ref hid).1 hg⟩
  | some j =>
    obtain ⟨pre, m, post, h1, h2, h3, h4, h5⟩ := getMeta_split im hid hg
    refine Or.inr ⟨pre, m, post, h1, h3, h4, ?_⟩
    simp only [h5, h2, Option.map_some]

theorem pyPart_some {p : Pkg} {us : List PartHdr} {k : Nat} (im : PartInv p.hdr us k) {id : U32} (hid : id ≠ 0) :
    (pyPart p id = none ∧ ∀ q ∈ us, q.id ≠ id) ∨ ∃ pre q post, us = pre ++ q :: post ∧ q.id = id ∧ pyPart p id = some (pre.length, q) := by
  unfold pyPart
  cases hg : getPart p.hdr id with
  | none => exact Or.inl ⟨rfl, (getPart_none_iff im id hid).1 hg⟩
  | some j =>
    obtain ⟨pre, m, post, h1, h2, h3, h5⟩ := getPart_split im hid hg
    refine Or.inr ⟨pre, m, post, h1, h3, ?_⟩
    simp only [h5, h2, Option.map_some]

theorem pyFilesStep_fail {SK : Type} (H : HashFn) (s : List (U32 × Bytes)) (c : PyCall SK) {e : Option PyExc} (h : e ≠ none) : pyFilesStep H s (c, e) = s := by
  unfold pyFilesStep
  simp only
  rw [if_pos h]

theorem pyData_length {v : PyVal} {d : Bytes} (h : pyData v = .val d) (size : Int) (hs : size < 0) : wantedSize (some v) size = d.length := by
  unfold wantedSize
  rw [if_neg (by omega)]
  cases v with
  | bytes b => cases h; rfl
  | str s =>
    simp only [pyData, pyAscii] at h
    by_cases ha : s.all (· < 128) = true
    · rw [if_pos ha] at h
      cases h
      simp
    · rw [if_neg ha] at h; cases h
  | none => cases h
  | int n => cases h
  | other => cases h

/-- What `add_meta` does with its data: nothing is left to chance if the size is known. -/
theorem pyAddMetaBody_cases {H : HashFn} {p : Pkg} {s : List (U32 × Bytes)} (i : PkgInv H p s) (id ref : U32) (hid : id ≠ 0) (d : Bytes) (size : Nat)
    (hroom : (∃ m ∈ usedMetas p.hdr, m.id = id ∧ m.partRef = ref) ∨ (usedMetas p.hdr).length = 32 ∨ metaBytesUsed p.hdr + size ≤ 1920) :
    (∃ e, e ≠ .ok ∧ pyAddMetaBody p id ref d size = .ret (.raise (.error e), p)) ∨
    ∃ q, pyAddMetaBody p id ref d size = .ret (.val (id, ref), q) ∧ PkgInv H q s := by
  obtain ⟨us, k, im⟩ := i.hdr.metas
  have hu := im.used
  have hl := im.len
  have hend : endOff 0 us = metaBytesUsed p.hdr := by
    have : metaBytesUsed p.hdr = (us.map (fun m => (m.size.toNat + 7) / 8 * 8)).sum := by unfold metaBytesUsed; rw [hu]
    rw [this]
    have := endOff_sum (off := 0) us rfl
    rw [this, Nat.zero_add]
    rfl
  have hp : ∀ h : Header, h = p.hdr → ({ p with hdr := h } : Pkg) = p := by rintro h rfl; rfl
  have nm := i.newMeta id ref hid (BitVec.ofNat 16 size) (d.take size)
  unfold pyAddMetaBody
  simp only
  rcases addMeta_cases im id ref (BitVec.ofNat 16 size) with ⟨h1, h2, h3⟩ | ⟨h1, h2, h3, h4⟩ | ⟨h1, h2, h3, h4⟩ | ⟨h1, h2, h3, h4⟩
  · refine Or.inl ⟨.exists_, by decide, ?_⟩
    rw [h2, if_pos (by decide), hp _ h3]
  · refine Or.inl ⟨.noSpaceLeft, by decide, ?_⟩
    rw [h3, if_pos (by decide), hp _ h4]
  · exfalso
    rcases hroom with h | h | h
    · rw [hu] at h; exact h1 h
    · rw [hu] at h; omega
    · rw [BitVec.toNat_ofNat] at h3
      have := Nat.mod_le size (2^16)
      omega
  · rw [hu] at hroom
    have hsz : metaBytesUsed p.hdr + size ≤ 1920 := by
      rcases hroom with h | h | h
      · exact absurd h h1
      · omega
      · exact h
    obtain ⟨m, a1, a2, a3, a4, a5, a6, -⟩ := addMeta_ok_inv im hid h1 h2 h3
    rw [h4, if_pos rfl] at nm
    rw [h4, if_neg (fun h => h rfl)]
    rw [a6] at nm ⊢
    simp only at nm ⊢
    have hm : (us ++ m :: List.replicate (k - 1) MetaHdr.zero)[us.length]? = some m := by simp
    rw [hm]
    simp only
    have hw := writeAt_eq_some (b := p.hdr.metadata) (o := m.offset.toNat) (d := d.take size) (by
      have := im.md
      have := List.length_take_le size d
      omega)
    rw [hw]
    simp only
    obtain ⟨p', b1, b2, b3⟩ := nm m _ hm hw
    refine Or.inr ⟨_, rfl, ?_⟩
    obtain ⟨h', f', l'⟩ := p'
    simp only at b1 b2
    subst b1; subst b2
    exact b3.logged _

/-- One call. -/
theorem py_step {SK PK : Type} {H : HashFn} (hH : HashLen H) (S : SigScheme SK PK) (hS : ∀ sk rnd k d, S.sign sk rnd k d ≠ .error .ok)
    {p p' : Pkg} {s : List (U32 × Bytes)} (i : PkgInv H p s) (c : PyCall SK) (ha : PyAllowed H S p c) (e : Option PyExc)
    (hs : pyStep H S p c = some (e, p')) : PkgInv H p' (pyFilesStep H s (c, e)) ∧ (e ≠ none → p'.hdr = p.hdr ∧ p'.file = p.file) := by
  have raised : ∀ (x : PyExc), some (some x, p) = some (e, p') → PkgInv H p' (pyFilesStep H s (c, e)) ∧ (e ≠ none → p'.hdr = p.hdr ∧ p'.file = p.file) := by
    intro x h
    obtain ⟨rfl, rfl⟩ := Prod.mk.inj (Option.some.inj h)
    exact ⟨by rw [pyFilesStep_fail H s c (by simp)]; exact i, fun _ => ⟨rfl, rfl⟩⟩
  have done : ∀ (q : Pkg), some (none, q) = some (e, p') → PkgInv H q (pyFilesStep H s (c, none)) →
      PkgInv H p' (pyFilesStep H s (c, e)) ∧ (e ≠ none → p'.hdr = p.hdr ∧ p'.file = p.file) := by
    intro q h hq
    obtain ⟨rfl, rfl⟩ := Prod.mk.inj (Option.some.inj h)
    exact ⟨hq, fun h => absurd rfl h⟩
  have new : ∀ (q : Pkg) (id : U32) (d : Bytes), (id, d) ∈ pyFilesStep H s (c, none) → PkgInv H q (pyFilesStep H s (c, none)) →
      some (pyDone (pyNewPart q id)) = some (e, p') → PkgInv H p' (pyFilesStep H s (c, e)) ∧ (e ≠ none → p'.hdr = p.hdr ∧ p'.file = p.file) := by
    intro q id d hm hq h
    obtain ⟨j, hj⟩ := hq.has hm
    unfold pyNewPart at h
    rw [hj] at h
    exact done q h hq
  obtain ⟨us, k, im⟩ := i.hdr.metas
  have hu := im.used
  have pi := i.good.parts.inv i.good.wf
  cases c with
  | addFile name src =>
    obtain ⟨hid, hroom⟩ := ha
    simp only [pyStep, pyAddFile] at hs
    cases src with
    | none => exact raised _ hs
    | some d =>
      simp only at hs
      cases hq : addFile H (d.length + 2) p (bpakId name) 0 d.length d with
      | none => rw [hq] at hs; cases hs
      | some r =>
        obtain ⟨e1, q⟩ := r
        obtain ⟨s1, s2⟩ := file_step hH S hS i (bpakId name) hid 0 (by decide) d (hroom d rfl) e1 q hq
        rw [hq] at hs
        by_cases he : e1 = .ok
        · subst he
          exact new q _ d (by simp [pyFilesStep]) (s1 rfl) hs
        · rw [s2 he] at hs
          cases e1 <;> first | exact absurd rfl he | exact raised _ hs
  | addFileTree name src salt =>
    obtain ⟨hid, hroom⟩ := ha
    simp only [pyStep, pyAddFile] at hs
    cases src with
    | none => exact raised _ hs
    | some d =>
      simp only at hs
      obtain ⟨t1, t2, t3, q, hq⟩ := hroom d rfl
      rw [hq] at hs
      exact new q _ d (by simp [pyFilesStep]) (tree_step hH i (bpakId name) 0 d salt hid t1 (by decide) t2 t3 hq) hs
  | addKey name key =>
    obtain ⟨hid, hk0, hroom⟩ := ha
    simp only [pyStep, pyAddKey] at hs
    cases key with
    | error e0 =>
      simp only [addKey] at hs
      cases e0 <;> first | exact absurd rfl hk0 | exact raised _ hs
    | ok d =>
      cases hq : addKey H p (bpakId name) 0 (.ok d) with
      | ub => rw [hq] at hs; cases hs
      | ret r =>
        obtain ⟨e1, q⟩ := r
        obtain ⟨q', w1, w2, w3⟩ := key_step hH i (bpakId name) hid 0 (by decide) d (hroom d rfl) e1 q hq
        obtain ⟨s1, s2⟩ := file_step hH S hS i (bpakId name) hid 0 (by decide) d (hroom d rfl) e1 q' w1
        have hqq : q = ⟨q'.hdr, q'.file, q.log⟩ := by rw [← w2, ← w3]
        rw [hq] at hs
        by_cases he : e1 = .ok
        · subst he
          have := (s1 rfl).logged q.log
          rw [← hqq] at this
          exact new q _ d (by simp [pyFilesStep]) this hs
        · have hqp := s2 he
          rw [hqp] at w2 w3 hqq
          have hfin : some (some (PyExc.error e1), q) = some (e, p') := by cases e1 <;> first | exact absurd rfl he | exact hs
          obtain ⟨rfl, rfl⟩ := Prod.mk.inj (Option.some.inj hfin)
          refine ⟨?_, fun _ => ⟨w2, w3⟩⟩
          rw [pyFilesStep_fail H s _ (by simp), hqq]
          exact i.logged _
  | addMeta id ref data size =>
    obtain ⟨hid, hroom⟩ := ha
    simp only [pyStep, pyAddMeta] at hs
    have fin : ∀ d n, wantedSize data size = n → pyDone' (pyAddMetaBody p (pyMask id) (pyMask ref) d n) = some (e, p') →
        PkgInv H p' (pyFilesStep H s (PyCall.addMeta (SK := SK) id ref data size, e)) ∧ (e ≠ none → p'.hdr = p.hdr ∧ p'.file = p.file) := by
      intro d n hn hs
      rw [hn] at hroom
      rcases pyAddMetaBody_cases i (pyMask id) (pyMask ref) hid d n hroom with ⟨e0, h1, h2⟩ | ⟨q, h1, h2⟩
      · rw [h2] at hs; exact raised _ hs
      · rw [h1] at hs; exact done q hs h2
    cases data with
    | none =>
      simp only at hs
      by_cases h : size < 0
      · rw [if_pos h] at hs; exact raised _ hs
      · rw [if_neg h] at hs
        exact fin [] _ (by unfold wantedSize; rw [if_pos (by omega)]) hs
    | some v =>
      simp only at hs
      cases hv : pyData v with
      | raise x => rw [hv] at hs; exact raised _ hs
      | val d =>
        rw [hv] at hs
        refine fin d _ ?_ hs
        by_cases h : size < 0
        · rw [if_pos h, pyData_length hv size h]
        · rw [if_neg h]; unfold wantedSize; rw [if_pos (by omega)]
  | setKeyId v =>
    simp only [pyStep, pySetKeyId] at hs
    cases hv : pyULong v with
    | raise x => rw [hv] at hs; exact raised _ hs
    | val n => rw [hv] at hs; exact done _ hs (i.write _ i.good.wf (goodMetas_same i.metas rfl) rfl rfl rfl rfl)
  | setKeystoreId v =>
    simp only [pyStep, pySetKeystoreId] at hs
    cases hv : pyULong v with
    | raise x => rw [hv] at hs; exact raised _ hs
    | val n => rw [hv] at hs; exact done _ hs (i.write _ i.good.wf (goodMetas_same i.metas rfl) rfl rfl rfl rfl)
  | setSignatureKind v =>
    simp only [pyStep, pySetSignatureKind] at hs
    cases hv : pyULong v with
    | raise x => rw [hv] at hs; exact raised _ hs
    | val n => rw [hv] at hs; exact done _ hs (i.write _ i.good.wf (goodMetas_same i.metas rfl) rfl rfl rfl rfl)
  | setSignature v =>
    have sig : ∀ b : Bytes, b.length ≤ 512 → ∃ q, writeRawSignature p b = .ret (.ok, q) ∧ PkgInv H q s := by
      intro b hb
      obtain ⟨q, a1, -⟩ := signRaw_step H S i b hb
      refine ⟨q, ?_, inv_pkgStep H hH S p q s _ hS i a1⟩
      simp only [pkgStep] at a1
      split at a1
      · rename_i q' h; rw [h]; cases a1; rfl
      · cases a1
    simp only [pyStep, pySetSignature] at hs
    cases v with
    | none =>
      obtain ⟨q, h1, h2⟩ := sig [] (by simp)
      simp only [h1] at hs
      exact done q hs h2
    | bytes b =>
      obtain ⟨q, h1, h2⟩ := sig b (ha b rfl)
      simp only [h1] at hs
      exact done q hs h2
    | int n => exact raised _ hs
    | str n => exact raised _ hs
    | other => exact raised _ hs
  | sign key rnd =>
    simp only [pyStep] at hs
    rcases ha with ⟨e0, rfl, he0⟩ | ⟨q, hq⟩
    · have h : pkgSign H S rnd (.error e0) p = (e0, p) := by
        unfold pkgSign
        have := i.update p.log
        have hp : (⟨p.hdr, p.file, p.log⟩ : Pkg) = p := rfl
        rw [hp] at this
        have h2 := pkgSign_eq H hH S rnd (.error e0) p i.good i.small
        unfold pkgSign at h2
        rw [this] at h2 ⊢
        simp only at h2 ⊢
        obtain ⟨n, hk⟩ := i.good.kind
        rw [C17_header_hash_is_digest_of_signed_bytes H p.hdr i.good.wf n 64 hk (digestLen_le hk)]
      unfold pySign at hs
      rw [h] at hs
      cases e0 <;> first | exact absurd rfl he0 | exact raised _ hs
    · rw [hq] at hs
      refine done q hs ?_
      unfold pySign at hq
      split at hq
      · rename_i q' h
        cases hq
        cases key with
        | error e0 =>
          rw [pkgSign_eq H hH S rnd _ p i.good i.small] at h
          simp only at h
          have h1 := (Prod.mk.inj h).1
          subst h1
          have h2 := (Prod.mk.inj h).2
          have := i.update p.log
          have t : TidyParts p.hdr := i.good.parts.tidy (by have := i.small; have := i.good.exact; omega)
          obtain ⟨n, hk⟩ := i.good.kind
          rw [show (⟨p.hdr, p.file, p.log⟩ : Pkg) = p from rfl, updateHash_eq H p t i.small (by unfold Whole; exact Nat.le_of_eq i.good.exact.symm) n hk (digestLen_le hk)] at this
          have h3 := (Prod.mk.inj this).2
          rw [h3] at h2
          rw [← h2]
          exact i
        | ok sk => exact inv_pkgStep H hH S p q s (.sign sk rnd) hS i (by simp only [pkgStep]; rw [h])
      · cases hq
  | digest =>
    have h := i.updateOut p.log
    rw [show (⟨p.hdr, p.file, p.log⟩ : Pkg) = p from rfl] at h
    simp only [pyStep, pyDigest] at hs
    rw [h] at hs
    exact done p hs i
  | metaSetId id ref v =>
    obtain ⟨hid, hn⟩ := ha
    simp only [pyStep, pyMetaSetId] at hs
    rw [pyU32_eq] at hs
    cases v with
    | int n =>
      obtain ⟨hn0, hn1⟩ := hn n rfl
      simp only at hs
      by_cases hr : 0 ≤ n ∧ n < 2^64
      · rw [if_pos hr] at hs
        simp only at hs
        rcases pyMeta_some rfl im hid (ref := ref) with ⟨h1, -⟩ | ⟨pre, m, post, h1, h2, h3, h4⟩
        · rw [h1] at hs; exact raised _ hs
        · rw [h4] at hs
          subst h1
          have := i.rekey im (pyMask n) m.partRef hn0 (by
            intro m' hm' e1 e2
            rw [← hu] at hm'
            exact ⟨by rw [h2]; exact hn1 m' hm' e1 (by rw [e2, h3]), rfl⟩)
          exact done _ hs this
      · rw [if_neg hr] at hs; exact raised _ hs
    | none => exact raised _ hs
    | bytes b => exact raised _ hs
    | str b => exact raised _ hs
    | other => exact raised _ hs
  | metaSetRef id ref v =>
    obtain ⟨hid, hn⟩ := ha
    simp only [pyStep, pyMetaSetRef] at hs
    have fin : ∀ r, (v = .none ∧ r = 0 ∨ ∃ n, v = .int n ∧ r = pyMask n) →
        some (pyDone (match pyMeta p id ref with
          | none => (.raise .keyError, p)
          | some (i, m) => (.val (), writeHeader { p with hdr := { p.hdr with metas := p.hdr.metas.set i { m with partRef := r } } }))) = some (e, p') →
        PkgInv H p' (pyFilesStep H s (PyCall.metaSetRef (SK := SK) id ref v, e)) ∧ (e ≠ none → p'.hdr = p.hdr ∧ p'.file = p.file) := by
      intro r hv hs
      rcases pyMeta_some rfl im hid (ref := ref) with ⟨h1, -⟩ | ⟨pre, m, post, h1, h2, h3, h4⟩
      · rw [h1] at hs; exact raised _ hs
      · rw [h4] at hs
        subst h1
        have := i.rekey im m.id r (by rw [h2]; exact hid) (by
          intro m' hm' e1 e2
          rw [← hu] at hm'
          exact ⟨rfl, by rw [h3]; exact hn r hv m' hm' (by rw [e1, h2]) e2⟩)
        exact done _ hs this
    by_cases hv : v = .none
    · rw [if_pos hv] at hs
      exact fin 0 (Or.inl ⟨hv, rfl⟩) hs
    · rw [if_neg hv, pyU32_eq] at hs
      cases v with
      | int n =>
        simp only at hs
        by_cases hr : 0 ≤ n ∧ n < 2^64
        · rw [if_pos hr] at hs
          exact fin (pyMask n) (Or.inr ⟨n, rfl, rfl⟩) hs
        · rw [if_neg hr] at hs; exact raised _ hs
      | none => exact absurd rfl hv
      | bytes b => exact raised _ hs
      | str b => exact raised _ hs
      | other => exact raised _ hs
  | metaSetRaw id ref v =>
    simp only [pyStep, pyMetaSetRaw] at hs
    rcases pyMeta_some rfl im ha (ref := ref) with ⟨h1, -⟩ | ⟨pre, m, post, h1, h2, h3, h4⟩
    · rw [h1] at hs; exact raised _ hs
    · rw [h4] at hs
      subst h1
      simp only at hs
      cases hv : pyData v with
      | raise x => rw [hv] at hs; exact raised _ hs
      | val d =>
        rw [hv] at hs
        simp only at hs
        by_cases hl : d.length ≤ m.size.toNat
        · rw [if_pos hl] at hs
          obtain ⟨md, w1, w2, -⟩ := write_entries im (d ++ List.replicate (m.size.toNat - d.length) 0) (by simp; omega)
          rw [w1] at hs
          have w := i.good.wf
          exact done _ hs (i.write _ ⟨w.1, w.2.1, w.2.2.1, w2.md, w.2.2.2.2⟩ w2.good rfl rfl rfl rfl)
        · rw [if_neg hl] at hs; exact raised _ hs
  | metaDelete id ref =>
    obtain ⟨hid, hroom⟩ := ha
    simp only [pyStep, pyMetaDelete] at hs
    cases hg : getMeta p.hdr id ref with
    | none => rw [hg] at hs; exact raised _ hs
    | some j =>
      rw [hg] at hs
      simp only at hs
      cases hd : delMeta p.hdr j with
      | ub => rw [hd] at hs; cases hs
      | ret h =>
        rw [hd] at hs
        exact done _ hs (inv_pkgStep H hH S p _ s (.header (.delMeta id ref)) hS i (by
          simp only [pkgStep, Op.keepsParts, if_true, step]
          rw [if_neg hid, hg]
          simp only [hd]))
  | partSetId id v =>
    obtain ⟨hid, hn⟩ := ha
    simp only [pyStep, pyPartSetId] at hs
    rw [pyU32_eq] at hs
    cases v with
    | int n =>
      obtain ⟨hn0, hn1⟩ := hn n rfl
      simp only at hs
      by_cases hr : 0 ≤ n ∧ n < 2^64
      · rw [if_pos hr] at hs
        simp only at hs
        rcases pyPart_some pi hid with ⟨h1, -⟩ | ⟨pre, q, post, h1, h2, h4⟩
        · rw [h1] at hs; exact raised _ hs
        · rw [h4] at hs
          have := (i.rename h1 (pyMask n) hn0 (by
            intro r hr e1
            rw [h2]; exact hn1 r hr e1)).1
          refine done _ hs ?_
          simp only [pyFilesStep, ne_eq, not_true_eq_false, if_false]
          rw [h2] at this
          exact this
      · rw [if_neg hr] at hs; exact raised _ hs
    | none => exact raised _ hs
    | bytes b => exact raised _ hs
    | str b => exact raised _ hs
    | other => exact raised _ hs
  | partDelete id =>
    obtain ⟨hid, hroom⟩ := ha
    simp only [pyStep, pyPartDelete] at hs
    cases hg : getPart p.hdr id with
    | none =>
      rw [C36_not_found H p id ((C10_get_part_not_found p.hdr id).1 hg)] at hs
      exact raised _ hs
    | some j =>
      cases hq : deletePart H (p.file.length + 65) p id true with
      | none => rw [hq] at hs; cases hs
      | some r =>
        cases r with
        | ub => rw [hq] at hs; cases hs
        | ret r =>
          obtain ⟨e1, q⟩ := r
          have he : e1 = .ok := by
            obtain ⟨pre, q0, post, h1, -, h2, -⟩ := getPart_split pi hid hg
            obtain ⟨p1, a1, -⟩ := C36_delete_part H hH p i.good i.small q0 (by rw [h1]; simp) true (fun _ => ⟨i.metas, by
              rcases hroom with h | h
              · exact Or.inr h
              · exact Or.inl (fun m hm => by simpa [h2] using h m hm)⟩) (p.file.length + 65) (by omega)
            rw [h2, hq] at a1
            exact (Prod.mk.inj (Out.ret.inj (Option.some.inj a1))).1
          subst he
          rw [hq] at hs
          exact done q hs (inv_pkgStep H hH S p q s (.deletePart id true) hS i (by simp only [pkgStep]; rw [if_neg hid, hq]))

/-- The invariant holds in every program. -/
theorem pysession_inv {SK PK : Type} {H : HashFn} (hH : HashLen H) (S : SigScheme SK PK) (hS : ∀ sk rnd k d, S.sign sk rnd k d ≠ .error .ok)
    {s : List (U32 × Bytes)} {t : List (PyCall SK × Option PyExc)} {p : Pkg} (h : PySession H S s t p) : PkgInv H p (pyFiles H s t) := by
  induction h with
  | new h => exact run_inv H hH S hS [] _ _ h rfl
  | existing hs ho =>
    rcases session_inv hH S hS hs with ⟨h, -⟩ | ⟨p0, hf, i⟩
    · cases h
    · cases hf
      rw [i.open] at ho
      rw [← (Prod.mk.inj ho).2]
      exact i.logged []
  | reopen _ ho ih =>
    rw [ih.open] at ho
    rw [← (Prod.mk.inj ho).2]
    exact ih.logged []
  | call _ ha hs ih =>
    have := (py_step hH S hS ih _ ha _ hs).1
    unfold pyFiles at this ⊢
    rw [List.foldl_append]
    exact this

/-- C89: after any program that uses the classes as allowed, the object and its file agree, the file opens, the payload hash is right,
`parts` lists the ids of exactly the parts expected, in order, no id twice and none 0; `read_data` gives each part's content back (but
raises for an empty part) and raises KeyError for any other id; `meta` lists the keys of the entries and `raw_data` gives their contents. -/
theorem C89_python_session {SK PK : Type} (H : HashFn) (hH : HashLen H) (S : SigScheme SK PK) (hS : ∀ sk rnd k d, S.sign sk rnd k d ≠ .error .ok)
    (s : List (U32 × Bytes)) (t : List (PyCall SK × Option PyExc)) (p : Pkg) (h : PySession H S s t p) :
    pkgOpen H true p.file = (.ok, ⟨p.hdr, p.file, []⟩) ∧ validHeader p.hdr = .ok ∧ HashStored H p ∧
    pyParts p = (pyFiles H s t).map (·.1) ∧ (pyFiles H s t).Pairwise (fun a b => a.1 ≠ b.1) ∧ (∀ c ∈ pyFiles H s t, c.1 ≠ 0) ∧
    (∀ id d, (id, d) ∈ pyFiles H s t → d.length < 2^63 ∧ pyReadData p id = if d = [] then .raise .ioError else .val d) ∧
    (∀ id, id ≠ 0 → (∀ d, (id, d) ∉ pyFiles H s t) → pyReadData p id = .raise .keyError) ∧
    pyMetas p = (entries p.hdr).map (fun x => (x.id, x.ref)) ∧
    (∀ x ∈ entries p.hdr, pyMetaRaw p x.id x.ref = .ret (.val x.data) ∧ pyMetaSize p x.id x.ref = .val x.data.length) := by
  have i := pysession_inv hH S hS h
  have pi := i.good.parts.inv i.good.wf
  have hids : (usedParts p.hdr).map (·.id) = (pyFiles H s t).map (·.1) := by
    rw [← i.files]
    unfold Bpak.files
    rw [List.map_map]
    rfl
  refine ⟨i.open true, i.valid, i.hash, ?_, ?_, ?_, ?_, ?_, ?_, ?_⟩
  · exact hids
  · rw [← i.files]
    unfold Bpak.files
    rw [List.pairwise_map]
    exact pi.distinct
  · intro c hc
    rw [← i.files] at hc
    obtain ⟨q, hq, rfl⟩ := List.mem_map.1 hc
    exact pi.ids q hq
  · intro id d hd
    have hex := i.good.exact
    have hsm := i.small
    rw [← i.files] at hd
    obtain ⟨q, hq, e⟩ := List.mem_map.1 hd
    simp only [Prod.mk.injEq] at e
    obtain ⟨rfl, rfl⟩ := e
    obtain ⟨a, b, hab⟩ := List.append_of_mem hq
    have t : TidyParts p.hdr := i.good.parts.tidy (by omega)
    obtain ⟨o1, -⟩ := tidy_offset _ t a b q hab
    have hl := i.stored_length q hq
    have hst : storedSize q = q.size.toNat + q.padBytes.toNat := by
      unfold storedSize
      rw [if_neg (fun h => h (i.good.plain q hq))]
    have hw : partSizeWoPad q = q.size := by
      unfold partSizeWoPad
      rw [if_neg (by rw [isTransport_iff]; intro h; exact h (i.good.plain q hq))]
    have hg := getPart_used pi a b q hab
    have hlen : q.size.toNat < 2^63 ∧ (partOffset p.hdr q).toNat < 2^63 := by
      rw [o1]
      rw [hab] at hex
      simp only [List.map_append, List.map_cons, List.sum_append, List.sum_cons] at hex
      omega
    have hrd : (storedBytes p q).take q.size.toNat = fileRead p.file (partOffset p.hdr q).toNat q.size.toNat := by
      unfold storedBytes fileRead
      rw [List.take_take, Nat.min_eq_left (by omega)]
    have hrl : (fileRead p.file (partOffset p.hdr q).toNat q.size.toNat).length = q.size.toNat := by
      rw [← hrd, List.length_take, hl]; omega
    refine ⟨by rw [List.length_take]; omega, ?_⟩
    unfold pyReadData pyPart
    rw [hg.1]
    simp only [hg.2, Option.map_some]
    rw [hw, if_neg (by omega), if_neg (by omega), hrl, hrd]
    by_cases h0 : q.size.toNat = 0
    · rw [if_pos (Or.inl h0), if_pos (List.eq_nil_of_length_eq_zero (by rw [hrl, h0]))]
    · rw [if_neg (by omega), if_neg (fun h => by rw [h] at hrl; simp at hrl; omega)]
  · intro id hid hn
    unfold pyReadData
    rcases pyPart_some pi hid with ⟨h1, -⟩ | ⟨pre, q, post, h1, h2, h3⟩
    · rw [h1]
    · exfalso
      rw [← i.files] at hn
      refine hn ((storedBytes p q).take q.size.toNat) (List.mem_map.2 ⟨q, by rw [h1]; simp, by rw [h2]⟩)
  · unfold pyMetas entries usedMetas
    rw [List.map_map]
    rfl
  · intro x hx
    obtain ⟨us, k, im⟩ := i.hdr.metas
    rw [entries_inv im] at hx
    obtain ⟨m, hm, rfl⟩ := List.mem_map.1 hx
    obtain ⟨a, b, hab⟩ := List.append_of_mem hm
    obtain ⟨g1, g2⟩ := getMeta_used im a b m hab
    have hb := (im.packed.ge m hm).2
    have hmd := im.md
    have hpm : pyMeta p (entOf p.hdr m).id (entOf p.hdr m).ref = some (a.length, m) := by
      unfold pyMeta
      rw [show getMeta p.hdr (entOf p.hdr m).id (entOf p.hdr m).ref = some a.length from g1]
      simp only [g2, Option.map_some]
    have hc : (entOf p.hdr m).data = (p.hdr.metadata.drop m.offset.toNat).take m.size.toNat := rfl
    refine ⟨?_, ?_⟩
    · unfold pyMetaRaw
      rw [hpm]
      simp only
      rw [readAt_eq_some (by omega)]
      simp only [hc]
    · unfold pyMetaSize
      rw [hpm, hc]
      simp only [PyOut.val.injEq]
      simp
      omega

/-- C89: a call that raises leaves object and file alone. -/
theorem C89_exception_changes_nothing {SK PK : Type} (H : HashFn) (hH : HashLen H) (S : SigScheme SK PK) (hS : ∀ sk rnd k d, S.sign sk rnd k d ≠ .error .ok)
    (s : List (U32 × Bytes)) (t : List (PyCall SK × Option PyExc)) (p p' : Pkg) (h : PySession H S s t p) (c : PyCall SK) (x : PyExc)
    (ha : PyAllowed H S p c) (hs : pyStep H S p c = some (some x, p')) : p'.hdr = p.hdr ∧ p'.file = p.file :=
  (py_step hH S hS (pysession_inv hH S hS h) c ha _ hs).2 (by simp)

/-- Calls other than `add_key`. -/
def PyCall.plain {SK : Type} : PyCall SK → Bool
  | .addKey _ _ => false
  | _ => true

/-- C89: an allowed call returns or raises: it neither hangs nor has undefined behaviour. Not for `add_key`, whose padding is read from
a one-byte object (C59). -/
theorem C89_call_returns_partial {SK PK : Type} (H : HashFn) (hH : HashLen H) (S : SigScheme SK PK) (hS : ∀ sk rnd k d, S.sign sk rnd k d ≠ .error .ok)
    (s : List (U32 × Bytes)) (t : List (PyCall SK × Option PyExc)) (p : Pkg) (h : PySession H S s t p) (c : PyCall SK) (hc : c.plain = true)
    (ha : PyAllowed H S p c) : ∃ e p', pyStep H S p c = some (e, p') ∧ PySession H S s (t ++ [(c, e)]) p' := by
  suffices hr : ∃ r, pyStep H S p c = some r by
    obtain ⟨⟨e, p'⟩, hr⟩ := hr
    exact ⟨e, p', hr, .call h ha hr⟩
  have i := pysession_inv hH S hS h
  obtain ⟨us, k, im⟩ := i.hdr.metas
  have hu := im.used
  have pi := i.good.parts.inv i.good.wf
  cases c with
  | addFile name src =>
    obtain ⟨hid, hroom⟩ := ha
    simp only [pyStep, pyAddFile]
    cases src with
    | none => exact ⟨_, rfl⟩
    | some d =>
      have : ∃ r, addFile H (d.length + 2) p (bpakId name) 0 d.length d = some r := by
        have hl := pi.len
        by_cases h1 : ∃ q ∈ usedParts p.hdr, q.id = bpakId name
        · exact ⟨_, (C35_add_refused H p i.good (bpakId name) 0 _ d _).1 h1⟩
        · have h1' : ∀ q ∈ usedParts p.hdr, q.id ≠ bpakId name := fun q hq h => h1 ⟨q, hq, h⟩
          by_cases h2 : (usedParts p.hdr).length = 32
          · exact ⟨_, (C35_add_refused H p i.good (bpakId name) 0 _ d _).2 h1' h2⟩
          · obtain ⟨p1, e1, -⟩ := C35_add_file H hH p i.good (bpakId name) hid h1' (by omega) 0 (by decide) d (hroom d rfl) (d.length + 2) (by omega)
            exact ⟨_, e1⟩
      obtain ⟨⟨e1, q⟩, h1⟩ := this
      simp only [h1]
      cases e1 <;> exact ⟨_, rfl⟩
  | addFileTree name src salt =>
    obtain ⟨hid, hroom⟩ := ha
    simp only [pyStep, pyAddFile]
    cases src with
    | none => exact ⟨_, rfl⟩
    | some d =>
      obtain ⟨-, -, -, q, hq⟩ := hroom d rfl
      simp only [hq]
      exact ⟨_, rfl⟩
  | addKey name key => cases hc
  | addMeta id ref data size =>
    obtain ⟨hid, hroom⟩ := ha
    simp only [pyStep, pyAddMeta]
    have fin : ∀ d n, wantedSize data size = n → ∃ r, pyDone' (pyAddMetaBody p (pyMask id) (pyMask ref) d n) = some r := by
      intro d n hn
      rw [hn] at hroom
      rcases pyAddMetaBody_cases i (pyMask id) (pyMask ref) hid d n hroom with ⟨e0, h1, h2⟩ | ⟨q, h1, h2⟩
      · rw [h2]; exact ⟨_, rfl⟩
      · rw [h1]; exact ⟨_, rfl⟩
    cases data with
    | none =>
      simp only
      by_cases h : size < 0
      · rw [if_pos h]; exact ⟨_, rfl⟩
      · rw [if_neg h]
        exact fin [] _ (by unfold wantedSize; rw [if_pos (by omega)])
    | some v =>
      simp only
      cases hv : pyData v with
      | raise x => exact ⟨_, rfl⟩
      | val d =>
        refine fin d _ ?_
        by_cases h : size < 0
        · rw [if_pos h, pyData_length hv size h]
        · rw [if_neg h]; unfold wantedSize; rw [if_pos (by omega)]
  | setSignature v =>
    have sig : ∀ b : Bytes, b.length ≤ 512 → ∃ q, writeRawSignature p b = .ret (.ok, q) := by
      intro b hb
      obtain ⟨q, a1, -⟩ := signRaw_step H S i b hb
      simp only [pkgStep] at a1
      split at a1
      · rename_i q' h; exact ⟨_, h⟩
      · cases a1
    simp only [pyStep, pySetSignature]
    cases v with
    | none =>
      obtain ⟨q, h1⟩ := sig [] (by simp)
      simp only [h1]
      exact ⟨_, rfl⟩
    | bytes b =>
      obtain ⟨q, h1⟩ := sig b (ha b rfl)
      simp only [h1]
      exact ⟨_, rfl⟩
    | int n => exact ⟨_, rfl⟩
    | str n => exact ⟨_, rfl⟩
    | other => exact ⟨_, rfl⟩
  | metaSetRaw id ref v =>
    simp only [pyStep, pyMetaSetRaw]
    rcases pyMeta_some rfl im ha (ref := ref) with ⟨h1, -⟩ | ⟨pre, m, post, h1, h2, h3, h4⟩
    · rw [h1]; exact ⟨_, rfl⟩
    · rw [h4]
      subst h1
      simp only
      cases hv : pyData v with
      | raise x => exact ⟨_, rfl⟩
      | val d =>
        simp only
        by_cases hl : d.length ≤ m.size.toNat
        · rw [if_pos hl]
          obtain ⟨md, w1, w2, -⟩ := write_entries im (d ++ List.replicate (m.size.toNat - d.length) 0) (by simp; omega)
          rw [w1]
          exact ⟨_, rfl⟩
        · rw [if_neg hl]; exact ⟨_, rfl⟩
  | metaDelete id ref =>
    obtain ⟨hid, hroom⟩ := ha
    simp only [pyStep, pyMetaDelete]
    cases hg : getMeta p.hdr id ref with
    | none => exact ⟨_, rfl⟩
    | some j =>
      obtain ⟨pre, m, post, rfl, h2, -⟩ := getMeta_split im hid hg
      have hl := im.len
      rw [hu] at hroom
      obtain ⟨k, rfl⟩ : ∃ k', k = k' + 1 := ⟨k - 1, by omega⟩
      obtain ⟨h', hd, -⟩ := delMeta_inv im
      simp only
      rw [← h2, hd]
      exact ⟨_, rfl⟩
  | partDelete id =>
    obtain ⟨hid, hroom⟩ := ha
    simp only [pyStep, pyPartDelete]
    cases hg : getPart p.hdr id with
    | none =>
      rw [C36_not_found H p id ((C10_get_part_not_found p.hdr id).1 hg)]
      exact ⟨_, rfl⟩
    | some j =>
      obtain ⟨pre, q0, post, h1, -, h2, -⟩ := getPart_split pi hid hg
      obtain ⟨p1, a1, -⟩ := C36_delete_part H hH p i.good i.small q0 (by rw [h1]; simp) true (fun _ => ⟨i.metas, by
        rcases hroom with h | h
        · exact Or.inr h
        · exact Or.inl (fun m hm => by simpa [h2] using h m hm)⟩) (p.file.length + 65) (by omega)
      rw [h2] at a1
      rw [a1]
      exact ⟨_, rfl⟩
  | setKeyId v => exact ⟨_, rfl⟩
  | setKeystoreId v => exact ⟨_, rfl⟩
  | setSignatureKind v => exact ⟨_, rfl⟩
  | sign key rnd => exact ⟨_, rfl⟩
  | digest => exact ⟨_, rfl⟩
  | metaSetId id ref v => exact ⟨_, rfl⟩
  | metaSetRef id ref v => exact ⟨_, rfl⟩
  | partSetId id v => exact ⟨_, rfl⟩

end Bpak
