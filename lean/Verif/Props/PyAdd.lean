import Verif.Props.PyMeta
/-! `Package.add_meta` (C93) and `Package.signature`, `Package.sign` (C94). -/
namespace Bpak

/-- The arguments `data` and `size` of `add_meta` and what they ask for: an entry of `n` bytes that starts with `d` (cut to `n`). -/
def AddArgs (data : Option PyVal) (size : Int) (d : Bytes) (n : Nat) : Prop :=
  (data = none ∧ 0 ≤ size ∧ d = [] ∧ (n : Int) = size) ∨
  ∃ v, data = some v ∧ DataOf v d ∧ (n : Int) = if 0 ≤ size then size else d.length

theorem pyAddMeta_body {data : Option PyVal} {size : Int} {d : Bytes} {n : Nat} (h : AddArgs data size d n) (p : Pkg) (id ref : Int) :
    pyAddMeta p id ref data size = pyAddMetaBody p (pyMask id) (pyMask ref) d n := by
  unfold pyAddMeta
  rcases h with ⟨rfl, h1, rfl, h2⟩ | ⟨v, rfl, h1, h2⟩
  · simp only
    rw [if_neg (by omega), show size.toNat = n by omega]
  · simp only
    rw [pyData_of h1]
    simp only
    by_cases hs : size < 0
    · rw [if_pos hs]
      rw [if_neg (by omega)] at h2
      rw [show d.length = n by omega]
    · rw [if_neg hs]
      rw [if_pos (by omega)] at h2
      rw [show size.toNat = n by omega]

theorem metaBytesUsed_end {h : Header} {us : List MetaHdr} {k : Nat} (im : MetaInv h us k) : endOff 0 us = metaBytesUsed h := by
  have : metaBytesUsed h = (us.map (fun m => (m.size.toNat + 7) / 8 * 8)).sum := by unfold metaBytesUsed; rw [im.used]
  rw [this]
  have := endOff_sum (off := 0) us rfl
  rw [this, Nat.zero_add]
  rfl

theorem writeAt_extend (b : Bytes) (o : Nat) (d : Bytes) (n : Nat) (hd : d.length ≤ n) (hn : o + n ≤ b.length) :
    writeAt b o d = writeAt b o (d ++ ((b.drop o).take n).drop d.length) := by
  have hl : (d ++ ((b.drop o).take n).drop d.length).length = n := by simp; omega
  rw [writeAt_eq_some (by omega), writeAt_eq_some (by omega), hl, List.append_assoc, List.append_assoc, List.append_assoc]
  congr 3
  rw [List.drop_take, List.drop_drop, show o + n = o + d.length + (n - d.length) by omega, ← List.drop_drop (l := b) (i := n - d.length) (j := o + d.length), List.take_append_drop]

theorem hasEntry_iff {h : Header} {us : List MetaHdr} {k : Nat} (im : MetaInv h us k) (x r : U32) :
    (∃ e ∈ entries h, e.id = x ∧ e.ref = r) ↔ ∃ m ∈ us, m.id = x ∧ m.partRef = r := by
  rw [entries_inv im]
  constructor
  · rintro ⟨e, he, h1⟩
    obtain ⟨m, hm, rfl⟩ := List.mem_map.1 he
    exact ⟨m, hm, h1⟩
  · rintro ⟨m, hm, h1⟩
    exact ⟨entOf h m, List.mem_map_of_mem hm, h1⟩

/-- C93: `add_meta`. An existing key or 32 entries: it raises and nothing changes. Otherwise, if `n` bytes are left: a new entry of `n`
bytes after the others, starting with the given data; what follows it in the entry is whatever lay in the metadata area; all other
entries and everything else stay, and the file holds the entry at once. -/
theorem C93_add_meta {SK PK : Type} (H : HashFn) (hH : HashLen H) (S : SigScheme SK PK) (hS : ∀ sk rnd k d, S.sign sk rnd k d ≠ .error .ok)
    (s : List (U32 × Bytes)) (t : List (PyCall SK × Option PyExc)) (p : Pkg) (h : PySession H S s t p) (id ref : Int) (x r : U32)
    (hx : pyMask id = x) (hr : pyMask ref = r) (h0 : x ≠ 0) (data : Option PyVal) (size : Int) (d : Bytes) (n : Nat) (ha : AddArgs data size d n) :
    ((∃ e ∈ entries p.hdr, e.id = x ∧ e.ref = r) → pyAddMeta p id ref data size = .ret (.raise (.error .exists_), p)) ∧
    ((¬ ∃ e ∈ entries p.hdr, e.id = x ∧ e.ref = r) → (entries p.hdr).length = 32 → pyAddMeta p id ref data size = .ret (.raise (.error .noSpaceLeft), p)) ∧
    ((¬ ∃ e ∈ entries p.hdr, e.id = x ∧ e.ref = r) → (entries p.hdr).length < 32 → metaBytesUsed p.hdr + n ≤ 1920 →
      ∃ p', pyAddMeta p id ref data size = .ret (.val (x, r), p') ∧
        entries p'.hdr = entries p.hdr ++ [⟨x, r, d.take n ++ ((p.hdr.metadata.drop (metaBytesUsed p.hdr)).take n).drop d.length⟩] ∧
        p'.hdr = { p.hdr with metas := p'.hdr.metas, metadata := p'.hdr.metadata } ∧ p'.file.drop 4096 = p.file.drop 4096 ∧ Opens H p'.file p'.hdr) := by
  have i := pysession_inv hH S hS h
  obtain ⟨us, k, im⟩ := i.hdr.metas
  have hl := im.len
  have hend := metaBytesUsed_end im
  have hes : (entries p.hdr).length = us.length := by rw [entries_inv im, List.length_map]
  rw [pyAddMeta_body ha, hx, hr, hasEntry_iff im, hes]
  have hp : ∀ h : Header, h = p.hdr → ({ p with hdr := h } : Pkg) = p := by rintro h rfl; rfl
  unfold pyAddMetaBody
  simp only
  rcases addMeta_cases im x r (BitVec.ofNat 16 n) with ⟨h1, h2, h3⟩ | ⟨h1, h2, h3, h4⟩ | ⟨h1, h2, h3, h4⟩ | ⟨h1, h2, h3, h4⟩
  · refine ⟨fun _ => ?_, fun h => absurd h1 h, fun h => absurd h1 h⟩
    rw [h2, if_pos (by decide), hp _ h3]
  · refine ⟨fun h => absurd h h1, fun _ _ => ?_, fun _ h => by omega⟩
    rw [h3, if_pos (by decide), hp _ h4]
  · refine ⟨fun h => absurd h h1, fun _ h => by omega, fun _ _ h => ?_⟩
    exfalso
    rw [BitVec.toNat_ofNat] at h3
    have := Nat.mod_le n (2^16)
    omega
  · refine ⟨fun h => absurd h h1, fun _ h => by omega, fun _ _ hfit => ?_⟩
    obtain ⟨m, a1, a2, a3, a4, a5, a6, a7⟩ := addMeta_ok_inv im h0 h1 h2 h3
    rw [h4, if_neg (fun h => h rfl), a6]
    simp only
    have hm : (us ++ m :: List.replicate (k - 1) MetaHdr.zero)[us.length]? = some m := by simp
    rw [hm]
    simp only
    have hmd := im.md
    obtain ⟨h1', hh1⟩ : ∃ h' : Header, { p.hdr with metas := us ++ m :: List.replicate (k-1) MetaHdr.zero } = h' := ⟨_, rfl⟩
    have emd : h1'.metadata = p.hdr.metadata := by rw [← hh1]
    rw [hh1] at a7
    have hsz : m.size.toNat = n := by rw [a3, BitVec.toNat_ofNat]; omega
    have hln := List.length_take_le n d
    have hl2 : (d.take n).length ≤ d.length := by rw [List.length_take]; omega
    obtain ⟨rest, hrest⟩ : ∃ rest, ((p.hdr.metadata.drop (metaBytesUsed p.hdr)).take n).drop d.length = rest := ⟨_, rfl⟩
    have hext : writeAt p.hdr.metadata m.offset.toNat (d.take n) = writeAt p.hdr.metadata m.offset.toNat (d.take n ++ rest) := by
      rw [writeAt_extend _ _ _ n hln (by omega), ← hrest, a4, hend]
      congr 1
      by_cases hdn : d.length ≤ n
      · rw [List.take_of_length_le hdn]
      · rw [List.drop_of_length_le (by simp; omega), List.drop_of_length_le (by simp; omega)]
    have hlen : (d.take n ++ rest).length = n := by rw [← hrest]; simp; omega
    obtain ⟨md, w1, w2, w3⟩ := write_entries a7 (d.take n ++ rest) (by rw [hlen, hsz])
    rw [emd] at w1
    rw [hext, w1]
    simp only
    obtain ⟨h', hh⟩ : ∃ h' : Header, { h1' with metadata := md } = h' := ⟨_, rfl⟩
    rw [hh] at w2 w3
    have wf' : h'.WF := by
      rw [← hh, ← hh1]
      have w := i.good.wf
      have hlen := w2.len
      have hmd2 := w2.md
      rw [← hh] at hmd2
      refine ⟨w.1, ?_, w.2.2.1, hmd2, w.2.2.2.2.1, w.2.2.2.2.2.1, w.2.2.2.2.2.2.1, ?_⟩
      · simp at hlen ⊢; omega
      · intro y hy
        simp only [List.mem_append, List.mem_cons, List.mem_replicate] at hy
        rcases hy with hy | rfl | ⟨_, rfl⟩
        · exact w.2.2.2.2.2.2.2 y (by rw [im.slots]; simp [hy])
        · rw [a5]; rfl
        · rfl
    have i2 := i.write h' wf' w2.good (by rw [← hh, ← hh1]) (by rw [← hh, ← hh1]) (by rw [← hh, ← hh1]) (by rw [← hh, ← hh1])
    refine ⟨writeHeader { p with hdr := h' }, by rw [← hh, ← hh1], ?_, ?_, (write_facts wf').1, i2.open true⟩
    · show entries h' = _
      rw [w3, a1, a2, hrest]
      rw [entries_inv im]
      have : us.map (entOf h1') = us.map (entOf p.hdr) := by rw [← hh1]; rfl
      rw [this]
      rfl
    · show h' = { p.hdr with metas := h'.metas, metadata := h'.metadata }
      rw [← hh, ← hh1]

/-- C93: arguments of the wrong kind raise and change nothing: neither data nor size, data that is neither `bytes` nor `str`, text that
is not ASCII. -/
theorem C93_bad_arguments (p : Pkg) (id ref size : Int) :
    (size < 0 → pyAddMeta p id ref none size = .ret (.raise .typeError, p)) ∧
    (∀ v, (v = .none ∨ v = .other ∨ ∃ n, v = .int n) → pyAddMeta p id ref (some v) size = .ret (.raise .typeError, p)) ∧
    ∀ txt : List Nat, (∃ c ∈ txt, 128 ≤ c) → pyAddMeta p id ref (some (.str txt)) size = .ret (.raise .unicodeError, p) := by
  refine ⟨fun h => ?_, ?_, ?_⟩
  · unfold pyAddMeta; simp only; rw [if_pos h]
  · rintro v (rfl | rfl | ⟨n, rfl⟩) <;> rfl
  · rintro txt ⟨c, h1, h2⟩
    have : pyAscii txt = .raise .unicodeError := by
      unfold pyAscii
      rw [if_neg]
      rw [List.all_eq_true]
      intro h
      have := h c h1
      simp at this
      omega
    unfold pyAddMeta pyData
    simp only [this]

/-- "`add_meta` raises if the data is too large" is false from 65536 bytes on: the size is cut to 16 bits on the way; if what is left
of it fits, all of the data is copied, beyond the metadata area and the header. -/
theorem C93_large_is_false {SK PK : Type} (H : HashFn) (hH : HashLen H) (S : SigScheme SK PK) (hS : ∀ sk rnd k d, S.sign sk rnd k d ≠ .error .ok)
    (s : List (U32 × Bytes)) (t : List (PyCall SK × Option PyExc)) (p : Pkg) (h : PySession H S s t p) (id ref : Int)
    (h0 : pyMask id ≠ 0) (hnew : ¬ ∃ e ∈ entries p.hdr, e.id = pyMask id ∧ e.ref = pyMask ref) (hslot : (entries p.hdr).length < 32)
    (b : Bytes) (hb : 65536 ≤ b.length) (hfit : metaBytesUsed p.hdr + b.length % 65536 ≤ 1920) :
    pyAddMeta p id ref (some (.bytes b)) (-1) = .ub := by
  have i := pysession_inv hH S hS h
  obtain ⟨us, k, im⟩ := i.hdr.metas
  have hl := im.len
  have hend := metaBytesUsed_end im
  have hes : (entries p.hdr).length = us.length := by rw [entries_inv im, List.length_map]
  rw [hasEntry_iff im] at hnew
  rw [pyAddMeta_body (d := b) (n := b.length) (Or.inr ⟨_, rfl, Or.inl rfl, by simp⟩)]
  have hmd := im.md
  unfold pyAddMetaBody
  simp only
  obtain ⟨m, a1, a2, a3, a4, a5, a6, a7⟩ := addMeta_ok_inv im (size := BitVec.ofNat 16 b.length) h0 hnew (by omega) (by rw [BitVec.toNat_ofNat]; omega)
  rw [a6]
  simp only
  rw [if_neg (fun h => h rfl)]
  have hm : (us ++ m :: List.replicate (k - 1) MetaHdr.zero)[us.length]? = some m := by simp
  rw [hm]
  simp only
  have hw : writeAt p.hdr.metadata m.offset.toNat (b.take b.length) = none := by
    unfold writeAt
    rw [if_neg (by rw [List.take_length]; omega)]
  rw [hw]

/-- "An `add_meta` that raises changes nothing" is false if the entry does not fit: it is in the header in memory, which is no longer
valid; after any assignment that writes the header, such as to `key_id`, the package cannot be opened again. -/
theorem C93_refused_is_false {SK PK : Type} (H : HashFn) (hH : HashLen H) (S : SigScheme SK PK) (hS : ∀ sk rnd k d, S.sign sk rnd k d ≠ .error .ok)
    (s : List (U32 × Bytes)) (t : List (PyCall SK × Option PyExc)) (p : Pkg) (h : PySession H S s t p) (id ref : Int)
    (h0 : pyMask id ≠ 0) (hnew : ¬ ∃ e ∈ entries p.hdr, e.id = pyMask id ∧ e.ref = pyMask ref) (hslot : (entries p.hdr).length < 32)
    (data : Option PyVal) (size : Int) (d : Bytes) (n : Nat) (ha : AddArgs data size d n) (hn : n < 65536) (hfull : metaBytesUsed p.hdr + n > 1920) :
    ∃ p', pyAddMeta p id ref data size = .ret (.raise (.error .noSpaceLeft), p') ∧ p'.file = p.file ∧ validHeader p'.hdr = .sizeError ∧
      pyMetas p' = pyMetas p ++ [(pyMask id, pyMask ref)] ∧
      ∀ key : Int, 0 ≤ key → key < 2^64 → ∃ p'', pySetKeyId p' (.int key) = (.val (), p'') ∧ ∀ w, (pkgOpen H w p''.file).1 = .sizeError := by
  have i := pysession_inv hH S hS h
  obtain ⟨us, k, im⟩ := i.hdr.metas
  have hl := im.len
  have hend := metaBytesUsed_end im
  have hes : (entries p.hdr).length = us.length := by rw [entries_inv im, List.length_map]
  rw [hasEntry_iff im] at hnew
  rw [pyAddMeta_body ha]
  obtain ⟨k, rfl⟩ : ∃ k', k = k'+1 := ⟨k-1, by omega⟩
  have hmd := im.md
  have hfree := addMetaGo_free (pyMask id) (pyMask ref) (BitVec.ofNat 16 n) us (List.replicate k MetaHdr.zero) 0 0 im.packed hnew
  obtain ⟨m, hm⟩ : ∃ m : MetaHdr, { id := pyMask id, offset := BitVec.ofNat 16 (endOff (0 : U16).toNat us), size := BitVec.ofNat 16 n, partRef := pyMask ref } = m := ⟨_, rfl⟩
  rw [hm] at hfree
  have z : (0 : U16).toNat = 0 := rfl
  have hu := (im.packed.end_le (by omega))
  rw [if_pos (by rw [BitVec.toNat_ofNat, z]; omega)] at hfree
  obtain ⟨h', hh⟩ : ∃ h' : Header, { p.hdr with metas := us ++ m :: List.replicate k MetaHdr.zero } = h' := ⟨_, rfl⟩
  have hadd : addMeta p.hdr (pyMask id) (pyMask ref) (BitVec.ofNat 16 n) = (.noSpaceLeft, h', 0 + us.length) := by
    unfold addMeta
    rw [im.slots, List.replicate_succ, hfree]
    simp only
    rw [hh]
  have m1 : m.id = pyMask id := by rw [← hm]
  have m2 : m.partRef = pyMask ref := by rw [← hm]
  have m3 : m.size.toNat = n := by rw [← hm]; simp only [BitVec.toNat_ofNat]; omega
  have m4 : m.offset.toNat = metaBytesUsed p.hdr := by rw [← hm]; simp only [BitVec.toNat_ofNat]; rw [z, hend]; omega
  have hused : usedMetas h' = us ++ [m] := by
    unfold usedMetas
    rw [← hh]
    simp only
    rw [List.takeWhile_append_of_pos (by intro y hy; simpa using im.packed.ids y hy), List.takeWhile_cons_of_pos (by simpa [m1] using h0)]
    cases k with
    | zero => rfl
    | succ k => rw [List.replicate_succ, List.takeWhile_cons_of_neg (by decide)]
  have hbad : ∀ hd : Header, hd.magic = h'.magic → hd.parts = h'.parts → hd.metas = h'.metas → validHeader hd = .sizeError := by
    intro hd e1 e2 e3
    have hv := i.valid
    rw [C13_valid_header_code] at hv ⊢
    have f1 : h'.magic = p.hdr.magic := by rw [← hh]
    have f2 : usedParts hd = usedParts p.hdr := by unfold usedParts; rw [e2, ← hh]
    have f3 : usedMetas hd = us ++ [m] := by rw [← hused]; unfold usedMetas; rw [e3]
    rw [e1, f1, f2, f3]
    split at hv
    · cases hv
    · rename_i v1
      rw [if_neg v1]
      split at hv
      · cases hv
      · rename_i v2
        rw [if_neg v2, if_pos]
        intro hc
        have := hc m (by simp)
        omega
  have w := i.good.wf
  have wf' : h'.WF := by
    rw [← hh]
    refine ⟨w.1, by simp; omega, w.2.2.1, w.2.2.2.1, w.2.2.2.2.1, w.2.2.2.2.2.1, w.2.2.2.2.2.2.1, ?_⟩
    intro y hy
    simp only [List.mem_append, List.mem_cons, List.mem_replicate] at hy
    rcases hy with hy | rfl | ⟨_, rfl⟩
    · exact w.2.2.2.2.2.2.2 y (by rw [im.slots]; simp [hy])
    · rw [← hm]; rfl
    · rfl
  refine ⟨{ p with hdr := h' }, ?_, rfl, hbad h' rfl rfl rfl, ?_, ?_⟩
  · unfold pyAddMetaBody
    simp only
    rw [hadd]
    simp only
    rw [if_pos (by decide)]
  · unfold pyMetas
    show (usedMetas h').map _ = (usedMetas p.hdr).map _ ++ _
    rw [hused, im.used, List.map_append, List.map_cons, m1, m2]
    rfl
  · intro key k0 k1
    unfold pySetKeyId
    obtain ⟨v, hv, -⟩ := pyULong_int k0 k1 32 (by omega)
    rw [hv]
    simp only
    refine ⟨_, rfl, ?_⟩
    intro c
    obtain ⟨h2, hh2⟩ : ∃ h2 : Header, { h' with keyId := v.setWidth 32 } = h2 := ⟨_, rfl⟩
    have wf2 : h2.WF := by rw [← hh2]; exact wf'
    rw [hh2]
    have il := image_length wf2
    have ff := write_facts (p := { p with hdr := h' }) wf2
    have hlen : 4096 ≤ (writeHeader { p with hdr := h2 }).file.length := by
      have : ((writeHeader { p with hdr := h2 }).file.take 4096).length = 4096 := by
        have := ff.2
        rw [show (writeHeader { p with hdr := h2 }).file.take 4096 = h2.image from this, il]
      rw [List.length_take] at this
      omega
    rw [C56_open_existing H c _ hlen]
    simp only
    rw [show (writeHeader { p with hdr := h2 }).file.take 4096 = h2.image from ff.2, parse_image wf2]
    exact hbad h2 (by rw [← hh2]) (by rw [← hh2]) (by rw [← hh2])

/-! ### C94: signatures -/

/-- C94: assigning `bytes` of at most 512 bytes to `signature`, or `None`: the attribute then gives them back (`None`: an empty signature), nothing
else changes, and the file holds it at once. -/
theorem C94_signature {SK PK : Type} (H : HashFn) (hH : HashLen H) (S : SigScheme SK PK) (hS : ∀ sk rnd k d, S.sign sk rnd k d ≠ .error .ok)
    (s : List (U32 × Bytes)) (t : List (PyCall SK × Option PyExc)) (p : Pkg) (h : PySession H S s t p) (v : PyVal) (b : Bytes)
    (hv : v = .bytes b ∨ v = .none ∧ b = []) (hb : b.length ≤ 512) :
    ∃ p', pySetSignature p v = .ret (.val (), p') ∧ pySignature p' = .ret b ∧
      p'.hdr = { p.hdr with signature := p'.hdr.signature, signatureSz := p'.hdr.signatureSz } ∧ p'.file.drop 4096 = p.file.drop 4096 ∧ Opens H p'.file p'.hdr := by
  have i := pysession_inv hH S hS h
  have wf := withSig_wf i.good.wf b hb (BitVec.ofNat 16 b.length)
  have i2 := i.write _ wf (goodMetas_same i.metas rfl) rfl rfl rfl rfl
  have hw : writeRawSignature p b = .ret (.ok, writeHeader { p with hdr := { p.hdr with
      signature := b ++ List.replicate (512 - b.length) 0, signatureSz := BitVec.ofNat 16 b.length } }) := by
    unfold writeRawSignature; rw [if_neg (by omega)]
  have hs : pySetSignature p v = .ret (.val (), writeHeader { p with hdr := { p.hdr with
      signature := b ++ List.replicate (512 - b.length) 0, signatureSz := BitVec.ofNat 16 b.length } }) := by
    rcases hv with rfl | ⟨rfl, rfl⟩
    · unfold pySetSignature
      simp only
      rw [hw]
      simp only
      rw [if_neg (fun h => h rfl)]
    · unfold pySetSignature
      simp only
      rw [hw]
  refine ⟨_, hs, ?_, rfl, (write_facts wf).1, i2.open true⟩
  show (match readAt (b ++ List.replicate (512 - b.length) 0) 0 (BitVec.ofNat 16 b.length).toNat with
    | none => Out.ub | some s => .ret s) = _
  have e : (BitVec.ofNat 16 b.length).toNat = b.length := by rw [BitVec.toNat_ofNat]; omega
  rw [e, readAt_eq_some (by simp)]
  simp

/-- "A signature that is too long raises" is false: it is copied over the end of the header. -/
theorem C94_long_signature_is_false (p : Pkg) (b : Bytes) (hb : 512 < b.length) : pySetSignature p (.bytes b) = .ub := by
  unfold pySetSignature writeRawSignature
  simp only
  rw [if_pos (by omega)]

/-- "Reading the signature of a package that could be opened is safe" is false: the length in the header is not checked, neither on opening
nor on reading. For every package of a session there is a file that differs from it in the two bytes of that field, can be opened, and whose
signature is read beyond the header. -/
theorem C94_signature_length_is_false {SK PK : Type} (H : HashFn) (hH : HashLen H) (S : SigScheme SK PK) (hS : ∀ sk rnd k d, S.sign sk rnd k d ≠ .error .ok)
    (s : List (U32 × Bytes)) (t : List (PyCall SK × Option PyExc)) (p : Pkg) (h : PySession H S s t p) (z : U16) (hz : 512 < z.toNat) :
    ∃ f q, f.take 4094 = p.file.take 4094 ∧ f.drop 4096 = p.file.drop 4096 ∧ pkgOpen H false f = (.ok, q) ∧ pySignature q = .ub := by
  have i := pysession_inv hH S hS h
  have w := i.good.wf
  obtain ⟨h', hh⟩ : ∃ h' : Header, { p.hdr with signatureSz := z } = h' := ⟨_, rfl⟩
  have wf' : h'.WF := by rw [← hh]; exact w
  have i2 := i.write h' wf' (by rw [← hh]; exact goodMetas_same i.metas rfl) (by rw [← hh]) (by rw [← hh]) (by rw [← hh]) (by rw [← hh])
  have ff := write_facts (p := p) wf'
  refine ⟨(writeHeader { p with hdr := h' }).file, _, ?_, ff.1, i2.open false, ?_⟩
  · have hs : p.file.take 4096 = p.hdr.image := by
      rw [← i.saved.2, image_parse (by rw [List.length_take]; have := i.saved.1; omega)]
    have e1 : (writeHeader { p with hdr := h' }).file.take 4094 = h'.image.take 4094 := by
      rw [← ff.2, List.take_take]; rfl
    have e2 : p.file.take 4094 = p.hdr.image.take 4094 := by
      rw [← hs, List.take_take]; rfl
    rw [e1, e2]
    have il := image_length w
    have il' := image_length wf'
    have e : ∃ r, p.hdr.image = r ++ le16 p.hdr.signatureSz ∧ h'.image = r ++ le16 z := by
      rw [← hh]
      exact ⟨_, rfl, rfl⟩
    obtain ⟨r, r1, r2⟩ := e
    have hr : r.length = 4094 := by
      rw [r1, List.length_append] at il
      have : (le16 p.hdr.signatureSz).length = 2 := rfl
      omega
    rw [r1, r2, List.take_append_of_le_length (by omega), List.take_append_of_le_length (by omega)]
  · unfold pySignature readAt
    have hc : ¬ (0 + h'.signatureSz.toNat ≤ h'.signature.length) := by
      rw [← hh]
      have := w.2.2.2.2.2.2.1
      simp only
      omega
    simp only [writeHeader_eq { p with hdr := h' } wf', if_neg hc]

/-- "A `sign` that raises changes nothing" is false if the key could be read but the signature not made: the signature in memory is
wiped, and the next assignment that writes the header, such as to `key_id`, replaces the signature in the file by zeros of the same length. -/
theorem C94_failed_sign_is_false {SK PK : Type} (H : HashFn) (hH : HashLen H) (S : SigScheme SK PK) (hS : ∀ sk rnd k d, S.sign sk rnd k d ≠ .error .ok)
    (s : List (U32 × Bytes)) (t : List (PyCall SK × Option PyExc)) (p : Pkg) (h : PySession H S s t p) (sk : SK) (rnd : Bytes) (x : PyExc) (p' : Pkg)
    (hs : pySign H S rnd (.ok sk) p = (.raise x, p')) (old : Bytes) (ho : pySignature p = .ret old) :
    p'.file = p.file ∧ pySignature p' = .ret (List.replicate old.length 0) ∧
    ∀ key : Int, 0 ≤ key → key < 2^64 → ∃ p'', pySetKeyId p' (.int key) = (.val (), p'') ∧
      ∃ q, pkgOpen H true p''.file = (.ok, q) ∧ pySignature q = .ret (List.replicate old.length 0) := by
  have i := pysession_inv hH S hS h
  have w := i.good.wf
  have hwp : withPayloadHash H p.hdr p.file = p.hdr := by
    exact i.withHash
  have hp' : p' = { p with hdr := { p.hdr with signature := List.replicate 512 0 } } := by
    unfold pySign at hs
    rw [pkgSign_eq H hH S rnd _ p i.good i.small] at hs
    simp only [hwp] at hs
    cases hsg : S.sign sk rnd p.hdr.hashKind (H p.hdr.hashKind (headerSignedBytes p.hdr)) with
    | error e =>
      rw [hsg] at hs
      simp only at hs
      split at hs
      · cases hs
      · rename_i e' q he
        obtain ⟨-, rfl⟩ := Prod.mk.inj he
        exact (Prod.mk.inj hs).2.symm
    | ok sig =>
      rw [hsg] at hs
      simp only at hs
      by_cases hl : sig.length > 512
      · rw [if_pos hl] at hs
        exact (Prod.mk.inj hs).2.symm
      · rw [if_neg hl] at hs
        cases hs
  have hsz : p.hdr.signatureSz.toNat ≤ 512 ∧ old.length = p.hdr.signatureSz.toNat := by
    unfold pySignature readAt at ho
    have := w.2.2.2.2.2.2.1
    by_cases hc : 0 + p.hdr.signatureSz.toNat ≤ p.hdr.signature.length
    · rw [if_pos hc] at ho
      simp only at ho
      cases ho
      refine ⟨by omega, ?_⟩
      simp; omega
    · rw [if_neg hc] at ho; cases ho
  have hsig : ∀ q : Pkg, q.hdr.signature = List.replicate 512 0 → q.hdr.signatureSz = p.hdr.signatureSz → pySignature q = .ret (List.replicate old.length 0) := by
    intro q e1 e2
    unfold pySignature
    rw [e1, e2, readAt_eq_some (by rw [List.length_replicate]; omega), hsz.2]
    simp only [List.drop_zero]
    rw [List.take_replicate, Nat.min_eq_left (by omega)]
  subst hp'
  refine ⟨rfl, hsig _ rfl rfl, ?_⟩
  intro key k0 k1
  unfold pySetKeyId
  obtain ⟨v, hv, -⟩ := pyULong_int k0 k1 32 (by omega)
  rw [hv]
  simp only
  obtain ⟨h', hh⟩ : ∃ h' : Header, { p.hdr with signature := List.replicate 512 0, keyId := v.setWidth 32 } = h' := ⟨_, rfl⟩
  have wf' : h'.WF := by
    rw [← hh]
    exact ⟨w.1, w.2.1, w.2.2.1, w.2.2.2.1, w.2.2.2.2.1, w.2.2.2.2.2.1, List.length_replicate, w.2.2.2.2.2.2.2⟩
  have i2 := i.write h' wf' (by rw [← hh]; exact goodMetas_same i.metas rfl) (by rw [← hh]) (by rw [← hh]) (by rw [← hh]) (by rw [← hh])
  refine ⟨writeHeader { p with hdr := h' }, by rw [← hh], _, i2.open true, ?_⟩
  exact hsig _ (by show h'.signature = _; rw [← hh]) (by show h'.signatureSz = _; rw [← hh])

end Bpak
