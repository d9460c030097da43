import Verif.Props.SignRaw
import Verif.Proof.Transport
/-! The report of `bpak show` (C81). -/
namespace Bpak

/-! ### Specification -/

/-- The text `t` says what an entry of kind `id` with the content `c` holds: key and keystore ids as hexadecimal numbers, the provider's id
behind `0x`, the package's id as a UUID, the transport algorithms as two numbers of eight digits, salt and root hash as hexadecimal text, the
load address with at least eight digits, the version as it is up to the NUL, nothing of other kinds. -/
structure Reads (id : U32) (c t : Bytes) : Prop where
  noNul : 0 ∉ t
  number : id = 0x7da19399 ∨ id = 0x106c13a7 → Spec.hexNumber t = some (ofLe32 (c.take 4)).toNat
  provider : id = 0xfb367d9a → ∃ d, t = asciiBytes "0x" ++ d ∧ Spec.hexNumber d = some (ofLe32 (c.take 4)).toNat
  package : id = 0xfb2f1f3f → t = uuidText (c.take 16)
  transport : id = 0x2d44bbfb → ∃ x y, t = asciiBytes "Encode: " ++ x ++ asciiBytes ", Decode: " ++ y ∧ x.length = 8 ∧ y.length = 8 ∧
    Spec.hexNumber x = some (ofLe32 (c.take 4)).toNat ∧ Spec.hexNumber y = some (ofLe32 ((c.drop 4).take 4)).toNat
  digest : id = 0x7c9b2f93 ∨ id = 0xe68fc9be → t = hexText (c.take 32)
  address : id = 0xd1e64a4b → ∃ d, t = asciiBytes "Entry: 0x" ++ d ∧ 8 ≤ d.length ∧ Spec.hexNumber d = some (ofLe64 (c.take 8)).toNat
  version : id = 0x9a5bab69 → ∃ r, c = t ++ 0 :: r
  other : id ≠ 0x9a5bab69 → Spec.bytesNeeded id c.length = 0 → t = []

/-- The entries are such that they can be shown: each has the bytes that its kind needs, and a version is a C string of at most 128 bytes. -/
def Legible (h : Header) : Prop :=
  ∀ e ∈ entries h, Spec.bytesNeeded e.id e.data.length ≤ e.data.length ∧ (e.id = 0x9a5bab69 → e.data.length ≤ 128 ∧ 0 ∈ e.data)

/-! ### Proofs -/

theorem takeWhile_stop (t r : Bytes) (h : 0 ∉ t) : (t ++ 0 :: r).takeWhile (fun c => decide (c ≠ 0)) = t := by
  induction t with
  | nil => rfl
  | cons a t ih =>
    simp only [List.mem_cons, not_or] at h
    rw [List.cons_append, List.takeWhile_cons, if_pos (by simpa using fun e => h.1 e.symm), ih h.2]

theorem split_nul {c : Bytes} (h : 0 ∈ c) : ∃ t r, c = t ++ 0 :: r ∧ 0 ∉ t := by
  induction c with
  | nil => cases h
  | cons a c ih =>
    by_cases ha : a = 0
    · exact ⟨[], c, by rw [ha]; rfl, by simp⟩
    · rcases List.mem_cons.1 h with e | e
      · exact absurd e.symm ha
      · obtain ⟨t, r, e1, e2⟩ := ih e
        exact ⟨a :: t, r, by rw [e1]; rfl, by simp only [List.mem_cons, not_or]; exact ⟨fun e => ha e.symm, e2⟩⟩

theorem metaContent_length {h : Header} (hl : h.metadata.length = 1920) {m : MetaHdr} (hm : m.offset.toNat + m.size.toNat ≤ 1920) :
    (metaContent h m).length = m.size.toNat := by
  unfold metaContent; rw [List.length_take, List.length_drop]; omega

theorem metaContent_read {h : Header} (hl : h.metadata.length = 1920) {m : MetaHdr} (hm : m.offset.toNat + m.size.toNat ≤ 1920) (n : Nat) (hn : n ≤ m.size.toNat) :
    readAt h.metadata m.offset.toNat n = some ((metaContent h m).take n) := by
  unfold readAt metaContent
  rw [if_pos (by omega), List.take_take, Nat.min_eq_left hn]

/-- What is written for one entry. -/
theorem entry_text {h : Header} (hl : h.metadata.length = 1920) {m : MetaHdr} (hm : m.offset.toNat + m.size.toNat ≤ 1920)
    (h1 : Spec.bytesNeeded m.id m.size.toNat ≤ m.size.toNat) (h2 : m.id = idVersion → m.size.toNat ≤ 128 ∧ 0 ∈ metaContent h m) :
    ∃ e t r, metaToString h m 128 = .ret (e, t ++ 0 :: r) ∧ (t ++ 0 :: r).length ≤ 128 ∧ Reads m.id (metaContent h m) t := by
  have hc := metaContent_length hl hm
  by_cases hv : m.id = idVersion
  · obtain ⟨a, b⟩ := h2 hv
    obtain ⟨t, r, e1, e2⟩ := split_nul b
    have hb := metaContent_read hl hm m.size.toNat (Nat.le_refl _)
    rw [List.take_of_length_le (by omega)] at hb
    refine ⟨.ok, t, r, ?_, by rw [← e1]; omega, ?_⟩
    · rw [C70_version_as_stored h m hv 128 _ hb, if_neg (by omega), e1]
    · refine ⟨e2, ?_, ?_, ?_, ?_, ?_, ?_, fun _ => ⟨r, e1⟩, fun h => absurd hv h⟩
      all_goals (rw [hv]; intro h; exact absurd h (by decide))
  · have hb := metaContent_read hl hm _ h1
    obtain ⟨t, e1, e2, k1, k2, k3, k4, k5, k6, k7⟩ := C70_text h m 128 (by omega) _ hb hv
    have hlen := C69_writes_inside_partial h m 128 _ _ e1 (fun _ => by omega)
    refine ⟨.ok, t, [], e1, hlen, ?_⟩
    have need : ∀ n, Spec.bytesNeeded m.id m.size.toNat = n → (metaContent h m).take (Spec.bytesNeeded m.id m.size.toNat) = (metaContent h m).take n := fun n e => by rw [e]
    refine ⟨fun h0 => e2 0 h0 rfl, ?_, ?_, ?_, ?_, ?_, ?_, fun e => absurd e hv, ?_⟩
    · intro e
      rw [need 4 (by rcases e with e | e <;> rw [e] <;> rfl)] at k1
      exact k1 e
    · intro e
      rw [need 4 (by rw [e]; rfl)] at k2
      exact k2 e
    · intro e
      rw [need 16 (by rw [e]; rfl)] at k3
      exact k3 e
    · intro e
      rw [need 8 (by rw [e]; rfl)] at k4
      have := k4 e
      rw [List.take_take, List.drop_take] at this
      exact this
    · intro e
      rw [need 32 (by rcases e with e | e <;> rw [e] <;> rfl)] at k5
      exact k5 e
    · intro e
      rw [need 8 (by rw [e]; rfl)] at k6
      exact k6 e
    · intro _ e
      rw [hc] at e
      exact k7 e

/-- The metadata table, whatever is in the array before. -/
theorem showMetas_rows {h : Header} (hl : h.metadata.length = 1920) (us : List MetaHdr)
    (hu : ∀ m ∈ us, m.id ≠ 0 ∧ m.offset.toNat + m.size.toNat ≤ 1920 ∧ Spec.bytesNeeded m.id m.size.toNat ≤ m.size.toNat ∧ (m.id = idVersion → m.size.toNat ≤ 128 ∧ 0 ∈ metaContent h m))
    (zs : List MetaHdr) (hz : ∀ m ∈ zs, m.id = 0) (buf : Bytes) (hb : buf.length = 128) :
    ∃ rows, showMetas h (us ++ zs) buf = .ret rows ∧ rows.map (fun r => (r.id, r.ref, r.size.toNat)) = us.map metaAttrs ∧
      ∀ m r, (m, r) ∈ us.zip rows → r.name = idToString m.id ∧ Reads m.id (metaContent h m) r.text := by
  induction us generalizing buf with
  | nil =>
    refine ⟨[], ?_, rfl, by simp⟩
    rw [List.nil_append]
    clear hu
    induction zs with
    | nil => rfl
    | cons z zs ih =>
      rw [showMetas, if_pos (hz z List.mem_cons_self)]
      exact ih (fun m hm => hz m (List.mem_cons_of_mem _ hm))
  | cons m us ih =>
    obtain ⟨h0, h1, h2, h3⟩ := hu m List.mem_cons_self
    obtain ⟨e, t, r, e1, e2, e3⟩ := entry_text hl h1 h2 h3
    have hb' : (t ++ 0 :: r ++ buf.drop (t ++ 0 :: r).length).length = 128 := by rw [List.length_append, List.length_drop]; omega
    obtain ⟨rows, f1, f2, f3⟩ := ih (fun m hm => hu m (List.mem_cons_of_mem _ hm)) _ hb'
    refine ⟨⟨m.id, m.size, idToString m.id, m.partRef, t⟩ :: rows, ?_, ?_, ?_⟩
    · rw [List.cons_append, showMetas, if_neg h0, e1]
      simp only
      unfold putBuf
      rw [if_neg (by omega)]
      simp only
      unfold bufText
      rw [if_pos (by simp), f1]
      simp only
      rw [List.append_assoc, List.cons_append, takeWhile_stop t _ e3.noNul]
    · rw [List.map_cons, List.map_cons, f2]; rfl
    · intro m' r' hmr
      rw [List.zip_cons_cons, List.mem_cons] at hmr
      rcases hmr with hmr | hmr
      · obtain ⟨rfl, rfl⟩ := Prod.mk.inj hmr
        exact ⟨rfl, e3⟩
      · exact f3 m' r' hmr

theorem showParts_rows (us zs : List PartHdr) (hu : ∀ q ∈ us, q.id ≠ 0 ∧ q.flags &&& 2 = 0) (hz : ∀ q ∈ zs, q.id = 0) :
    showParts (us ++ zs) = us.map (fun q => ⟨q.id, q.size, q.padBytes, q.excluded, false, q.size⟩) := by
  induction us with
  | nil =>
    rw [List.nil_append]
    clear hu
    induction zs with
    | nil => rfl
    | cons z zs ih =>
      rw [showParts, if_pos (hz z List.mem_cons_self)]
      exact ih (fun m hm => hz m (List.mem_cons_of_mem _ hm))
  | cons q us ih =>
    obtain ⟨h0, h1⟩ := hu q List.mem_cons_self
    have ht : q.isTransport = false := by
      cases e : q.isTransport with
      | false => rfl
      | true => exact absurd h1 ((isTransport_iff q).1 e)
    rw [List.cons_append, showParts, if_neg h0, ih (fun m hm => hu m (List.mem_cons_of_mem _ hm)), ht, isExcluded_eq]
    rfl

theorem hashText_eq (d : Bytes) (h : d.length ≤ 63) : hashText d = .ret (hexText d) := by
  obtain ⟨a, b⟩ := C18_bin2hex_content d 128
  have e := b (a.2 (by omega))
  have := (C18_bin2hex_in_bounds_iff d 128).2 (by omega)
  unfold hashText bufText
  rw [if_neg (by omega), e, if_pos (by simp)]
  rw [takeWhile_stop _ [] (fun h => hexText_no_nul d 0 h rfl)]

theorem hashText_512 (d : Bytes) (h : d.length = 64) : hashText d = .ub := by
  unfold hashText
  rw [if_pos]
  have := C18_bin2hex_in_bounds_iff d 128
  omega

/-- The payload digest of a file with this header. -/
def payloadDigest (H : HashFn) (h : Header) (f : Bytes) : Bytes :=
  H h.hashKind (((usedParts h).filter (fun q => !q.excluded)).flatMap (storedBytes ⟨h, f, []⟩))

theorem PkgInv.stored_length {H : HashFn} {p : Pkg} {s : List (U32 × Bytes)} (i : PkgInv H p s) : ∀ q ∈ usedParts p.hdr, (storedBytes p q).length = storedSize q := by
  intro q hq
  have t : TidyParts p.hdr := i.good.parts.tidy (by have := i.small; have := i.good.exact; omega)
  obtain ⟨a, b, hab⟩ := List.append_of_mem hq
  obtain ⟨e1, _⟩ := tidy_offset _ t a b q hab
  have w := i.good.exact
  rw [hab] at w
  simp only [List.map_append, List.map_cons, List.sum_append, List.sum_cons] at w
  unfold storedBytes
  exact fileRead_len (by omega)

theorem PkgInv.sizes {H : HashFn} {p : Pkg} {s : List (U32 × Bytes)} (i : PkgInv H p s) :
    (usedParts p.hdr).map (fun q => (q.id, q.size.toNat)) = s.map (fun c => (c.1, c.2.length)) := by
  rw [← i.files]
  unfold Bpak.files
  rw [List.map_map]
  apply List.map_congr_left
  intro q hq
  have := i.stored_length q hq
  have hp := i.good.plain q hq
  unfold storedSize at this
  rw [if_neg (by rw [hp]; simp)] at this
  simp only [Function.comp, List.length_take]
  rw [Nat.min_eq_left (by omega)]

/-- What `bpak show` does with a file that has the header of a package and a payload of the right length. -/
theorem report_eq {H : HashFn} (hH : HashLen H) {p : Pkg} {s : List (U32 × Bytes)} (i : PkgInv H p s) (hl : Legible p.hdr) (x : Bytes) (hx : x.length = p.file.length - 4096) :
    ∃ rows, rows.map (fun r => (r.id, r.ref, r.size.toNat)) = (usedMetas p.hdr).map metaAttrs ∧
      (∀ m r, (m, r) ∈ (usedMetas p.hdr).zip rows → r.name = idToString m.id ∧ Reads m.id (metaContent p.hdr m) r.text) ∧
      showCmd H (p.file.take 4096 ++ x) {} =
        match hashText (H p.hdr.hashKind (headerSignedBytes (withPayloadHash H p.hdr (p.file.take 4096 ++ x)))), hashText (payloadDigest H p.hdr (p.file.take 4096 ++ x)) with
        | .ret a, .ret b => .ret (.ok, .report ⟨hashKindString p.hdr.hashKind, signatureKindString p.hdr.signatureKind, p.hdr.keyId, p.hdr.keystoreId, rows,
            (usedParts p.hdr).map (fun q => ⟨q.id, q.size, q.padBytes, q.excluded, false, q.size⟩),
            some (a, b, decide (payloadDigest H p.hdr (p.file.take 4096 ++ x) ≠ payloadDigest H p.hdr p.file))⟩)
        | _, _ => .ub := by
  obtain ⟨w, gp, ⟨n, hk⟩, plain, exact⟩ := i.good
  have hsm := i.small
  obtain ⟨sv1, sv2⟩ := i.saved
  have t : TidyParts p.hdr := gp.tidy (by omega)
  have gm := i.metas
  have hml : p.hdr.metadata.length = 1920 := w.2.2.2.1
  have hfl : (p.file.take 4096 ++ x).length = p.file.length := by rw [List.length_append, List.length_take]; omega
  have htk : (p.file.take 4096 ++ x).take 4096 = p.file.take 4096 := by
    rw [List.take_append_of_le_length (by rw [List.length_take]; omega), List.take_take]; rfl
  obtain ⟨rows, r1, r2, r3⟩ := showMetas_rows hml (usedMetas p.hdr) (by
    intro m hm
    obtain ⟨a, b, hab⟩ := List.append_of_mem hm
    have hin := (gm.layout a m b hab).2
    obtain ⟨l1, l2⟩ := hl ⟨m.id, m.partRef, metaContent p.hdr m⟩ (List.mem_map.2 ⟨m, hm, rfl⟩)
    simp only [metaContent_length hml hin] at l1 l2
    exact ⟨by have := List.all_takeWhile (p := fun m : MetaHdr => decide (m.id ≠ 0)) (l := p.hdr.metas); rw [List.all_eq_true] at this; simpa using this m hm, hin, l1, l2⟩)
    (List.replicate (32 - (usedMetas p.hdr).length) MetaHdr.zero) (by intro m hm; rw [(List.mem_replicate.1 hm).2]; rfl) (List.replicate 128 0) List.length_replicate
  refine ⟨rows, r2, r3, ?_⟩
  unfold showCmd
  rw [C56_open_existing H false _ (by omega), htk, sv2, i.valid]
  simp only [i.valid, ne_eq, not_true_eq_false, if_false, Bool.false_eq_true]
  have hup := updateHash_eq H ⟨p.hdr, p.file.take 4096 ++ x, []⟩ t (by simp only; omega) (by unfold Whole; simp only; omega) n hk (digestLen_le hk)
  unfold showReport
  rw [← gm.slots] at r1
  simp only [r1]
  have hout : updateHashOut H ⟨p.hdr, p.file.take 4096 ++ x, []⟩ =
      (.ok, ⟨withPayloadHash H p.hdr (p.file.take 4096 ++ x), p.file.take 4096 ++ x, []⟩,
        some (H p.hdr.hashKind (headerSignedBytes (withPayloadHash H p.hdr (p.file.take 4096 ++ x))))) := by
    unfold updateHashOut
    rw [hup]
    simp only
    rw [C17_header_hash_is_digest_of_signed_bytes H _ (withPayloadHash_wf H hH _ w _ n hk) n 64 hk (digestLen_le hk)]
    rfl
  rw [hout]
  simp only
  have hpd : ∀ f, H p.hdr.hashKind (hashedBytes f p.hdr.parts 4096) = payloadDigest H p.hdr f := by
    intro f
    rw [(C31_bytes_at_part_offsets p.hdr t f).1]
    rfl
  have hdl : ∀ b, (H p.hdr.hashKind b).length = n := fun b => hH _ _ hk b
  have hn := digestLen_le hk
  obtain ⟨tail, htail⟩ := i.hash
  have hph : ∀ f, (withPayloadHash H p.hdr f).payloadHash = payloadDigest H p.hdr f ++ tail := by
    intro f
    show H p.hdr.hashKind (hashedBytes f p.hdr.parts 4096) ++ p.hdr.payloadHash.drop _ = _
    rw [hpd, ← htail, List.drop_left' (by unfold payloadDigest; rw [hdl, hdl])]
  have hph0 : p.hdr.payloadHash = payloadDigest H p.hdr p.file ++ tail := htail.symm
  rw [hph, List.take_left' (by unfold payloadDigest; rw [hdl, hdl])]
  have hdec : decide (payloadDigest H p.hdr (p.file.take 4096 ++ x) ++ tail ≠ p.hdr.payloadHash) =
      decide (payloadDigest H p.hdr (p.file.take 4096 ++ x) ≠ payloadDigest H p.hdr p.file) := by
    rw [hph0]
    simp only [ne_eq, List.append_cancel_right_eq]
  simp only [ne_eq] at hdec
  simp only [hdec]
  have hsp : showParts p.hdr.parts = (usedParts p.hdr).map (fun q => ⟨q.id, q.size, q.padBytes, q.excluded, false, q.size⟩) := by
    conv => lhs; rw [gp.slots]
    exact showParts_rows _ _ (fun q hq => ⟨used_ids _ q hq, plain q hq⟩) (by intro q hq; rw [(List.mem_replicate.1 hq).2]; rfl)
  rw [hsp]
  cases hashText (H p.hdr.hashKind (headerSignedBytes (withPayloadHash H p.hdr (p.file.take 4096 ++ x)))) with
  | ub => rfl
  | ret a => cases hashText (payloadDigest H p.hdr (p.file.take 4096 ++ x)) with
    | ub => rfl
    | ret b => rfl

/-- C81: for every package made by a history of calls, with SHA-256 or SHA-384, whose entries can be shown: `bpak show` succeeds and its
report has one row for each metadata entry, in order, with the id, part reference and size, the name (C52) and what the entry holds;
one row for each part, which are those that the history leaves, with their ids and sizes; the ids and kinds; the digest that
signatures are made of; the payload digest; and no warning. -/
theorem C81_report {SK PK : Type} (H : HashFn) (hH : HashLen H) (S : SigScheme SK PK) (hS : ∀ sk rnd k d, S.sign sk rnd k d ≠ .error .ok)
    (ops : List (PkgOp SK)) (p0 p : Pkg) (h0 : pkgOpen H true [] = (.ok, p0)) (hr : pkgRun H S p0 ops = some p)
    (hk : p.hdr.hashKind = 1 ∨ p.hdr.hashKind = 2) (hl : Legible p.hdr) :
    ∃ r, showCmd H p.file {} = .ret (.ok, .report r) ∧
      r.metas.map (fun w => (w.id, w.ref, w.size.toNat)) = (usedMetas p.hdr).map metaAttrs ∧
      (∀ e w, (e, w) ∈ (entries p.hdr).zip r.metas → w.name = idToString e.id ∧ Reads e.id e.data w.text) ∧
      r.parts = (usedParts p.hdr).map (fun q => ⟨q.id, q.size, q.padBytes, q.excluded, false, q.size⟩) ∧
      r.parts.map (fun w => (w.id, w.size.toNat)) = (expect [] ops).map (fun c => (c.1, c.2.length)) ∧
      r.hash = (if p.hdr.hashKind = 1 then "sha256" else "sha384") ∧ r.signature = signatureKindString p.hdr.signatureKind ∧
      r.keyId = p.hdr.keyId ∧ r.keystoreId = p.hdr.keystoreId ∧
      r.hashes = some (hexText (H p.hdr.hashKind (headerSignedBytes p.hdr)),
        hexText (H p.hdr.hashKind (((usedParts p.hdr).filter (fun q => !q.excluded)).flatMap (storedBytes p))), false) := by
  have i := run_inv H hH S hS ops p0 p h0 hr
  obtain ⟨rows, r1, r2, r3⟩ := report_eq hH i hl (p.file.drop 4096) (by rw [List.length_drop])
  have hlen : ∀ b, (H p.hdr.hashKind b).length ≤ 63 := by
    intro b
    rcases hk with e | e <;> rw [e]
    · rw [hH 1 32 (by decide) b]; omega
    · rw [hH 2 48 (by decide) b]; omega
  have hw : withPayloadHash H p.hdr p.file = p.hdr := by
    obtain ⟨w, gp, ⟨n, hk⟩, plain, exact⟩ := i.good
    have hsm := i.small
    have t : TidyParts p.hdr := gp.tidy (by omega)
    have h1 := updateHash_eq H p t hsm (by unfold Whole; exact Nat.le_of_eq exact.symm) n hk (digestLen_le hk)
    have h2 := i.update p.log
    rw [show (⟨p.hdr, p.file, p.log⟩ : Pkg) = p from rfl, h1] at h2
    exact congrArg Pkg.hdr (Prod.mk.inj h2).2
  rw [List.take_append_drop, hw, hashText_eq _ (hlen _), hashText_eq _ (by exact hlen _)] at r3
  refine ⟨_, r3, r1, ?_, rfl, ?_, ?_, rfl, rfl, rfl, ?_⟩
  · intro e w hew
    rw [entries, List.zip_map_left, List.mem_map] at hew
    obtain ⟨⟨m, w'⟩, hm, e1⟩ := hew
    obtain ⟨rfl, rfl⟩ := Prod.mk.inj e1
    exact r2 m w' hm
  · show ((usedParts p.hdr).map _).map _ = _
    rw [List.map_map, ← i.sizes]
    rfl
  · rcases hk with e | e <;> simp only [e] <;> rfl
  · simp only [ne_eq, not_true_eq_false, decide_false, Option.some.injEq, Prod.mk.injEq, and_true, true_and]
    rfl

/-- C81: if the payload of such a package is overwritten, the warning is printed exactly if the digest of the payload is no longer the
one stored. -/
theorem C81_warning {SK PK : Type} (H : HashFn) (hH : HashLen H) (S : SigScheme SK PK) (hS : ∀ sk rnd k d, S.sign sk rnd k d ≠ .error .ok)
    (ops : List (PkgOp SK)) (p0 p : Pkg) (h0 : pkgOpen H true [] = (.ok, p0)) (hr : pkgRun H S p0 ops = some p)
    (hk : p.hdr.hashKind = 1 ∨ p.hdr.hashKind = 2) (hl : Legible p.hdr) (x : Bytes) (hx : x.length = p.file.length - 4096) :
    ∃ r a b w, showCmd H (p.file.take 4096 ++ x) {} = .ret (.ok, .report r) ∧ r.hashes = some (a, b, w) ∧
      b = hexText (payloadDigest H p.hdr (p.file.take 4096 ++ x)) ∧
      (w = true ↔ payloadDigest H p.hdr (p.file.take 4096 ++ x) ≠ payloadDigest H p.hdr p.file) := by
  have i := run_inv H hH S hS ops p0 p h0 hr
  obtain ⟨rows, r1, r2, r3⟩ := report_eq hH i hl x hx
  have hlen : ∀ b, (H p.hdr.hashKind b).length ≤ 63 := by
    intro b
    rcases hk with e | e <;> rw [e]
    · rw [hH 1 32 (by decide) b]; omega
    · rw [hH 2 48 (by decide) b]; omega
  rw [hashText_eq _ (hlen _), hashText_eq _ (by exact hlen _)] at r3
  exact ⟨_, _, _, _, r3, rfl, rfl, decide_eq_true_iff⟩

/-- C81, a flaw: of a package with SHA-512, the hexadecimal text of the digest does not fit into the array: `bpak show` writes past its
end, whatever the package. -/
theorem C81_sha512_is_false {SK PK : Type} (H : HashFn) (hH : HashLen H) (S : SigScheme SK PK) (hS : ∀ sk rnd k d, S.sign sk rnd k d ≠ .error .ok)
    (ops : List (PkgOp SK)) (p0 p : Pkg) (h0 : pkgOpen H true [] = (.ok, p0)) (hr : pkgRun H S p0 ops = some p)
    (hk : p.hdr.hashKind = 3) (hl : Legible p.hdr) : showCmd H p.file {} = .ub := by
  have i := run_inv H hH S hS ops p0 p h0 hr
  obtain ⟨rows, r1, r2, r3⟩ := report_eq hH i hl (p.file.drop 4096) (by rw [List.length_drop])
  rw [List.take_append_drop, hashText_512 _ (by rw [hk, hH 3 64 (by decide)])] at r3
  exact r3

/-- The texts in the table of a report. -/
def Shown.texts : Out (Err × Shown) → Option (List Bytes)
  | .ret (.ok, .report r) => some (r.metas.map (fun w => w.text))
  | _ => none

/-- C81, a flaw: a version that is not NUL-terminated is printed with the remains of the row before. A package whose entries are a
package id and the version `1.2`, without NUL: the version is shown as `1.2` and the end of the package id. -/
theorem C81_stale_text_is_false : ∃ (p : Pkg) (r : Report), PkgInv exHash p [] ∧ (entries p.hdr).map (fun e => e.data) = [List.replicate 16 0xab, asciiBytes "1.2"] ∧
    showCmd exHash p.file {} = .ret (.ok, .report r) ∧
    r.metas.map (fun w => w.text) = [asciiBytes "abababab-abab-abab-abab-abababababab", asciiBytes "1.2babab-abab-abab-abab-abababababab"] := by
  obtain ⟨p, i, e⟩ := ex_run [.header (.addMeta 0xfb2f1f3f 0 16), .header (.writeMeta 0xfb2f1f3f 0 (List.replicate 16 0xab)),
      .header (.addMeta 0x9a5bab69 0 3), .header (.writeMeta 0x9a5bab69 0 (asciiBytes "1.2"))]
    (fun p => ((entries p.hdr).map (fun e => e.data), Shown.texts (showCmd exHash p.file {})))
    ([List.replicate 16 0xab, asciiBytes "1.2"], some [asciiBytes "abababab-abab-abab-abab-abababababab", asciiBytes "1.2babab-abab-abab-abab-abababababab"]) (by decide +kernel)
  obtain ⟨e1, e2⟩ := Prod.mk.inj e
  unfold Shown.texts at e2
  split at e2
  · rename_i r hr
    exact ⟨p, r, i, e1, hr, Option.some.inj e2⟩
  · cases e2

/-- The hypotheses of C81 are met: a package with a version, a load address and a file; one byte of the file is changed. -/
example : ∃ (p : Pkg) (x : Bytes), PkgInv exHash p [(7, [1, 2, 3])] ∧ p.hdr.hashKind = 1 ∧ Legible p.hdr ∧
    (entries p.hdr).map (fun e => e.data) = [asciiBytes "1.2" ++ [0], [0, 0, 0, 0x40, 0, 0, 0, 0]] ∧ x.length = p.file.length - 4096 ∧ x ≠ p.file.drop 4096 := by
  obtain ⟨p, i, e⟩ := ex_run [.header (.addMeta 0x9a5bab69 0 4), .header (.writeMeta 0x9a5bab69 0 (asciiBytes "1.2" ++ [0])), .addFile 7 0 [1, 2, 3],
      .header (.addMeta 0xd1e64a4b 7 8), .header (.writeMeta 0xd1e64a4b 7 [0, 0, 0, 0x40, 0, 0, 0, 0])]
    (fun p => (entries p.hdr, p.hdr.hashKind, (p.file.drop 4096).take 1))
    ([⟨0x9a5bab69, 0, asciiBytes "1.2" ++ [0]⟩, ⟨0xd1e64a4b, 7, [0, 0, 0, 0x40, 0, 0, 0, 0]⟩], 1, [1]) (by decide +kernel)
  obtain ⟨e1, e⟩ := Prod.mk.inj e
  obtain ⟨e2, e3⟩ := Prod.mk.inj e
  refine ⟨p, List.replicate (p.file.length - 4096) 9, i, e2, ?_, by rw [e1]; rfl, List.length_replicate, ?_⟩
  · intro e he
    rw [e1] at he
    simp only [List.mem_cons, List.not_mem_nil, or_false] at he
    rcases he with rfl | rfl
    · exact ⟨by decide, fun _ => by decide⟩
    · exact ⟨by decide, fun h => absurd h (by decide)⟩
  · intro h
    rw [← h] at e3
    cases hn : p.file.length - 4096 with
    | zero => rw [hn] at e3; cases e3
    | succ n => rw [hn, List.replicate_succ] at e3; cases e3

end Bpak
