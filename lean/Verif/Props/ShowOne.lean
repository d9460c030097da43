import Verif.Props.Report
/-! `bpak show --meta`, `--part`, `--part-hash` (C82). -/
namespace Bpak

/-- The first slot with an id other than 0 is in use. -/
theorem find_used (us zs : List PartHdr) (hz : ∀ q ∈ zs, q.id = 0) (id : U32) (h0 : id ≠ 0) :
    (us ++ zs).find? (fun q => decide (q.id = id)) = us.find? (fun q => decide (q.id = id)) := by
  have : zs.find? (fun q => decide (q.id = id)) = none := List.find?_eq_none.2 (by intro q hq; rw [hz q hq]; simpa using fun e => h0 e.symm)
  rw [List.find?_append, this, Option.or_none]

/-- The file under an id, and the part it is in. -/
theorem PkgInv.find {H : HashFn} {p : Pkg} {s : List (U32 × Bytes)} (i : PkgInv H p s) (id : U32) (h0 : id ≠ 0) :
    (p.hdr.parts.find? (fun q => decide (q.id = id)) = none ∧ s.find? (fun c => decide (c.1 = id)) = none) ∨
    ∃ q d, q ∈ usedParts p.hdr ∧ q.id = id ∧ p.hdr.parts.find? (fun q => decide (q.id = id)) = some q ∧ s.find? (fun c => decide (c.1 = id)) = some (id, d) ∧
      d.length = q.size.toNat ∧ fileRead p.file (partOffset p.hdr q).toNat q.size.toNat = d := by
  have hs : s.find? (fun c => decide (c.1 = id)) = ((usedParts p.hdr).find? (fun q => decide (q.id = id))).map (fun q => (q.id, (storedBytes p q).take q.size.toNat)) := by
    rw [← i.files]
    unfold Bpak.files
    rw [List.find?_map]
    rfl
  have hp : p.hdr.parts.find? (fun q => decide (q.id = id)) = (usedParts p.hdr).find? (fun q => decide (q.id = id)) := by
    conv => lhs; rw [i.good.parts.slots]
    exact find_used _ _ (by intro q hq; rw [(List.mem_replicate.1 hq).2]; rfl) id h0
  rw [hs, hp]
  cases e : (usedParts p.hdr).find? (fun q => decide (q.id = id)) with
  | none => exact Or.inl ⟨rfl, rfl⟩
  | some q =>
    right
    have hq := List.mem_of_find?_eq_some e
    have hid : q.id = id := by simpa using List.find?_some e
    have hl := i.stored_length q hq
    have hss : storedSize q = q.size.toNat + q.padBytes.toNat := by
      unfold storedSize
      rw [if_neg (by rw [i.good.plain q hq]; simp)]
    refine ⟨q, (storedBytes p q).take q.size.toNat, hq, hid, rfl, by rw [Option.map_some, hid], by rw [List.length_take]; omega, ?_⟩
    unfold storedBytes fileRead
    rw [List.take_take, Nat.min_eq_left (by omega)]

theorem showPart_eq (id : U32) (ps : List PartHdr) : showPart id ps =
    match ps.find? (fun q => decide (q.id = id)) with
    | none => (.notFound, .nothing)
    | some q => (.ok, .part q.id q.size) := by
  induction ps with
  | nil => rfl
  | cons q ps ih =>
    rw [showPart, List.find?_cons]
    by_cases h : q.id = id
    · rw [if_pos h, decide_eq_true h]
    · rw [if_neg h, decide_eq_false h, ih]

/-- C82: `bpak show --part NAME` finds a part exactly if the history left a file under the name's id, and prints the file's size. -/
theorem C82_show_part {SK PK : Type} (H : HashFn) (hH : HashLen H) (S : SigScheme SK PK) (hS : ∀ sk rnd k d, S.sign sk rnd k d ≠ .error .ok)
    (ops : List (PkgOp SK)) (p0 p : Pkg) (h0 : pkgOpen H true [] = (.ok, p0)) (hr : pkgRun H S p0 ops = some p)
    (name : Bytes) (id : U32) (hid : idForNameOrRef name = id) (hn : id ≠ 0) :
    (∀ d, (expect [] ops).find? (fun c => decide (c.1 = id)) = some (id, d) →
      ∃ n, showCmd H p.file { partName := some name } = .ret (.ok, .part id n) ∧ n.toNat = d.length) ∧
    ((expect [] ops).find? (fun c => decide (c.1 = id)) = none → showCmd H p.file { partName := some name } = .ret (.notFound, .nothing)) := by
  have i := run_inv H hH S hS ops p0 p h0 hr
  have e : showCmd H p.file { partName := some name } = .ret (showPart id p.hdr.parts) := by
    unfold showCmd
    rw [i.open]
    simp only [i.valid, ne_eq, not_true_eq_false, if_false, hid]
  rw [e, showPart_eq]
  rcases i.find id hn with ⟨e1, e2⟩ | ⟨q, d, hq, hid, e1, e2, e3, e4⟩
  · rw [e1, e2]
    exact ⟨(fun _ h => by cases h), fun _ => rfl⟩
  · rw [e1, e2]
    refine ⟨fun d' h => ?_, fun h => by cases h⟩
    have := (Prod.mk.inj (Option.some.inj h)).2
    subst this
    exact ⟨q.size, by simp only [hid], e3.symm⟩

/-- C82: `bpak show --part-hash NAME` prints the SHA-256 digest of the file in hexadecimal (of the file alone, without padding, whatever the
package's own hash is). -/
theorem C82_show_part_hash {SK PK : Type} (H : HashFn) (hH : HashLen H) (S : SigScheme SK PK) (hS : ∀ sk rnd k d, S.sign sk rnd k d ≠ .error .ok)
    (ops : List (PkgOp SK)) (p0 p : Pkg) (h0 : pkgOpen H true [] = (.ok, p0)) (hr : pkgRun H S p0 ops = some p)
    (name : Bytes) (id : U32) (hid : idForNameOrRef name = id) (hn : id ≠ 0) :
    (∀ d, (expect [] ops).find? (fun c => decide (c.1 = id)) = some (id, d) →
      showCmd H p.file { partHash := some name } = .ret (.ok, .line (hexText (H 1 d)))) ∧
    ((expect [] ops).find? (fun c => decide (c.1 = id)) = none → showCmd H p.file { partHash := some name } = .ret (.notFound, .nothing)) := by
  have i := run_inv H hH S hS ops p0 p h0 hr
  have hsm := i.small
  have t : TidyParts p.hdr := i.good.parts.tidy (by have := i.good.exact; omega)
  rcases i.find id hn with ⟨e1, e2⟩ | ⟨q, d, hq, hqi, e1, e2, e3, e4⟩
  · rw [e2]
    refine ⟨(fun _ h => by cases h), fun _ => ?_⟩
    unfold showCmd
    rw [i.open]
    simp only [i.valid, ne_eq, not_true_eq_false, if_false, hid]
    rw [C55_part_sha256, e1]
  · rw [e2]
    refine ⟨fun d' h => ?_, fun h => by cases h⟩
    have := (Prod.mk.inj (Option.some.inj h)).2
    subst this
    have hin : (partOffset p.hdr q).toNat + storedSize q ≤ p.file.length := by
      obtain ⟨a, b, hab⟩ := List.append_of_mem hq
      obtain ⟨o1, _⟩ := tidy_offset _ t a b q hab
      have w := i.good.exact
      rw [hab] at w
      simp only [List.map_append, List.map_cons, List.sum_append, List.sum_cons] at w
      omega
    have hss : storedSize q = q.size.toNat + q.padBytes.toNat := by
      unfold storedSize
      rw [if_neg (by rw [i.good.plain q hq]; simp)]
    have hwo : partSizeWoPad q = q.size := by
      unfold partSizeWoPad
      rw [if_neg]
      intro h
      exact (isTransport_iff q).1 h (i.good.plain q hq)
    unfold showCmd
    rw [i.open]
    simp only [i.valid, ne_eq, not_true_eq_false, if_false, hid]
    rw [C55_part_sha256, e1]
    simp only
    rw [if_neg (by omega), if_neg (by rw [hwo]; omega), if_neg (by omega), hwo, e4]
    simp only
    have hl : (H hashSha256 d).length = 32 := hH hashSha256 32 (by decide) d
    rw [List.take_of_length_le (by omega), hashText_eq _ (by omega)]

/-- C82: `bpak show --meta NAME [--part NAME]` prints what the first entry with the id (and part reference) holds, nothing if the kind is not
known, and reports an error if there is no such entry. -/
theorem C82_show_meta {SK PK : Type} (H : HashFn) (hH : HashLen H) (S : SigScheme SK PK) (hS : ∀ sk rnd k d, S.sign sk rnd k d ≠ .error .ok)
    (ops : List (PkgOp SK)) (p0 p : Pkg) (h0 : pkgOpen H true [] = (.ok, p0)) (hr : pkgRun H S p0 ops = some p) (hl : Legible p.hdr)
    (name : Bytes) (ref : Option Bytes) (id : U32) (hid : idForNameOrRef name = id) (hn : id ≠ 0) :
    (∀ e, (entries p.hdr).find? (fun e => decide (e.id = id ∧ (ref = none ∨ ref.map idForNameOrRef = some e.ref))) = some e →
      ∃ t, Reads id e.data t ∧ showCmd H p.file { metaName := some name, partName := ref } = .ret (.ok, if t = [] then .nothing else .line t)) ∧
    ((entries p.hdr).find? (fun e => decide (e.id = id ∧ (ref = none ∨ ref.map idForNameOrRef = some e.ref))) = none →
      showCmd H p.file { metaName := some name, partName := ref } = .ret (.missingMetaData, .nothing)) := by
  have i := run_inv H hH S hS ops p0 p h0 hr
  have e : showCmd H p.file { metaName := some name, partName := ref } = showMeta p.hdr id (ref.map idForNameOrRef) (usedMetas p.hdr ++ List.replicate (32 - (usedMetas p.hdr).length) MetaHdr.zero) := by
    rw [← i.metas.slots]
    unfold showCmd
    rw [i.open]
    simp only [i.valid, ne_eq, not_true_eq_false, if_false, hid]
  have gm := i.metas
  have hml : p.hdr.metadata.length = 1920 := i.good.wf.2.2.2.1
  rw [e]
  clear e
  have hz : ∀ m ∈ List.replicate (32 - (usedMetas p.hdr).length) MetaHdr.zero, m.id = 0 := by intro m hm; rw [(List.mem_replicate.1 hm).2]; rfl
  have hu : ∀ m ∈ usedMetas p.hdr, m.offset.toNat + m.size.toNat ≤ 1920 ∧ Spec.bytesNeeded m.id m.size.toNat ≤ m.size.toNat ∧ (m.id = idVersion → m.size.toNat ≤ 128 ∧ 0 ∈ metaContent p.hdr m) := by
    intro m hm
    obtain ⟨a, b, hab⟩ := List.append_of_mem hm
    have hin := (gm.layout a m b hab).2
    obtain ⟨l1, l2⟩ := hl ⟨m.id, m.partRef, metaContent p.hdr m⟩ (List.mem_map.2 ⟨m, hm, rfl⟩)
    simp only [metaContent_length hml hin] at l1 l2
    exact ⟨hin, l1, l2⟩
  unfold entries
  generalize List.replicate (32 - (usedMetas p.hdr).length) MetaHdr.zero = zs at hz
  generalize usedMetas p.hdr = us at hu
  have hr0 : ∀ m : MetaHdr, (ref.map idForNameOrRef = none ∨ ref.map idForNameOrRef = some m.partRef) ↔ (ref = none ∨ ref.map idForNameOrRef = some m.partRef) := by
    intro m; cases ref <;> simp
  induction us with
  | nil =>
    refine ⟨(fun _ h => by cases h), fun _ => ?_⟩
    rw [List.nil_append]
    clear hu
    induction zs with
    | nil => rfl
    | cons z zs ih =>
      rw [showMeta, if_neg (by rw [hz z List.mem_cons_self]; exact fun h => hn h.1.symm)]
      exact ih (fun m hm => hz m (List.mem_cons_of_mem _ hm))
  | cons m us ih =>
    obtain ⟨h1, h2, h3⟩ := hu m List.mem_cons_self
    rw [List.map_cons, List.find?_cons, List.cons_append, showMeta]
    simp only [hr0]
    by_cases hm : m.id = id ∧ (ref = none ∨ ref.map idForNameOrRef = some m.partRef)
    · rw [decide_eq_true hm, if_pos hm]
      refine ⟨fun e he => ?_, fun h => by cases h⟩
      rw [← Option.some.inj he]
      obtain ⟨er, t, r, e1, e2, e3⟩ := entry_text hml h1 h2 h3
      rw [e1]
      simp only
      unfold putBuf
      rw [List.length_replicate, if_neg (by omega)]
      simp only
      unfold bufText
      rw [if_pos (by simp)]
      simp only
      rw [List.append_assoc, List.cons_append, takeWhile_stop t _ e3.noNul]
      exact ⟨t, by rw [← hm.1]; exact e3, rfl⟩
    · rw [decide_eq_false hm, if_neg hm]
      exact ih (fun m hm => hu m (List.mem_cons_of_mem _ hm))

/-- The hypotheses of C82 are met, in both cases. -/
example : ∃ p : Pkg, PkgInv exHash p [(bpakId (asciiBytes "a"), [1, 2, 3])] ∧ Legible p.hdr ∧ (entries p.hdr).map (fun e => e.data) = [asciiBytes "1.2" ++ [0]] ∧
    idForNameOrRef (asciiBytes "bpak-version") = 0x9a5bab69 ∧ idForNameOrRef (asciiBytes "a") = bpakId (asciiBytes "a") ∧ bpakId (asciiBytes "a") ≠ 0 ∧
    idForNameOrRef (asciiBytes "0x9a5bab69") = 0x9a5bab69 ∧ idForNameOrRef (asciiBytes "b") ≠ idForNameOrRef (asciiBytes "a") := by
  obtain ⟨p, i, e⟩ := ex_run [.header (.addMeta 0x9a5bab69 0 4), .header (.writeMeta 0x9a5bab69 0 (asciiBytes "1.2" ++ [0])), .addFile (bpakId (asciiBytes "a")) 0 [1, 2, 3]]
    (fun p => entries p.hdr) [⟨0x9a5bab69, 0, asciiBytes "1.2" ++ [0]⟩] (by decide +kernel)
  refine ⟨p, i, ?_, by rw [e]; rfl, by decide +kernel, by decide +kernel, by decide +kernel, by decide +kernel, by decide +kernel⟩
  intro x hx
  rw [e] at hx
  simp only [List.mem_cons, List.not_mem_nil, or_false] at hx
  subst hx
  exact ⟨by decide, fun _ => by decide⟩

end Bpak
