import Verif.Proof.SamePath
import Verif.Props.PkgSign
/-! A package given to a command a second time: added to itself (C124), overwritten by what is made from it (C125). -/
namespace Bpak
variable [LzmaLib]

/-! ### C124 -/

/-- C124, the flaw: adding a package to itself does not end, for every package that is not made of whole 4096-byte blocks, and every
way in which stdio holds back written data: after 2^51 rounds (more than a file can hold) the copy loop is not through. The last read
also fetches what has just been written, so more is counted off than was left. -/
theorem C124_add_self_is_false (H : HashFn) (lag : Nat → Nat) (hb : HoldsBack lag) (p : Pkg) (g : GoodPkg p) (id : U32)
    (hnew : ∀ q ∈ usedParts p.hdr, q.id ≠ id) (hroom : (usedParts p.hdr).length < 32) (flags : U8)
    (hm : p.file.length % 4096 ≠ 0) (hsz : p.file.length < 2^63) : ∀ rounds ≤ 2^51, addFileSelf H lag rounds p id flags = none := by
  intro fuel hf
  unfold addFileSelf
  rcases addPart_cases (g.parts.inv g.wf) id with ⟨⟨q, hq, e⟩, _⟩ | ⟨_, hk0, _⟩ | ⟨_, _, e⟩
  · exact absurd e (hnew q hq)
  · omega
  have hoff := newOffset_eq p.hdr g.parts g.plain (by rw [← g.exact]; omega)
  rw [← g.exact] at hoff
  have hx := g.exact
  rw [e]
  simp only
  rw [if_neg (by omega), hoff]
  have key : ∀ p2 : Pkg, p2.file = p.file → addSelfLoop lag fuel 0 p2 0 p.file.length (BitVec.ofNat 64 p.file.length) = none := by
    intro p2 h2
    have := addSelf_runs lag hb p.file.length (by omega) hm hsz (p.file.length / 4096) fuel 0 p2 (BitVec.ofNat 64 p.file.length) hf (by omega)
      (by rw [h2]; rfl) (by rw [BitVec.toNat_ofNat, Nat.mod_eq_of_lt (by omega)]; rfl)
    rwa [Nat.mul_zero, Nat.add_zero] at this
  rw [key]
  rfl

/-- C124, what holds: a package of whole blocks is added as it was before, as any other file of that content. Missing: the other sizes. -/
theorem C124_add_self_partial (H : HashFn) (lag : Nat → Nat) (hb : HoldsBack lag) (p : Pkg) (g : GoodPkg p) (id : U32) (flags : U8)
    (hm : p.file.length % 4096 = 0) (hsz : p.file.length < 2^63) (fuel : Nat) :
    addFileSelf H lag fuel p id flags = addFile H fuel p id flags p.file.length p.file := by
  unfold addFileSelf addFile
  have hoff := newOffset_eq p.hdr g.parts g.plain (by rw [← g.exact]; omega)
  rw [← g.exact] at hoff
  rcases addPart p.hdr id with ⟨e, h, i⟩
  cases e <;> try rfl
  simp only
  rw [if_neg (by omega), if_neg (by omega), hoff]
  have := addSelf_whole lag hb p.file hm fuel 0
    { p with hdr := { h with parts := h.parts.modify i (fun q => { q with
      id := id, offset := newOffset p.hdr, flags := flags, size := BitVec.ofNat 64 p.file.length, padBytes := BitVec.ofNat 16 (padFor p.file.length) }) } }
    (BitVec.ofNat 64 p.file.length) [] (List.append_nil _).symm rfl (by omega) (by rw [BitVec.toNat_ofNat, Nat.mod_eq_of_lt (by omega)]; rfl)
  rw [Nat.mul_zero, Nat.add_zero, List.drop_zero] at this
  rw [this]
  rfl

/-- C124: so the new part holds the package as it was. -/
theorem C124_add_self_content_partial (H : HashFn) (hH : HashLen H) (lag : Nat → Nat) (hb : HoldsBack lag) (p : Pkg) (g : GoodPkg p) (id : U32) (hid : id ≠ 0)
    (hnew : ∀ q ∈ usedParts p.hdr, q.id ≠ id) (hroom : (usedParts p.hdr).length < 32) (flags : U8) (hfl : flags &&& 2 = 0)
    (hm : p.file.length % 4096 = 0) (hsz : p.file.length + p.file.length + 512 < 2^63) (fuel : Nat) (hfuel : p.file.length / 4096 + 2 ≤ fuel) :
    ∃ p', addFileSelf H lag fuel p id flags = some (.ok, p') ∧ GoodPkg p' ∧ Saved p' ∧ contents p' = contents p ++ [(id, p.file)] ∧
      extractFile p' id = (.ok, some p.file) := by
  obtain ⟨p', h1, h2, h3, -, h4, h5, -⟩ := C35_add_file H hH p g id hid hnew hroom flags hfl p.file hsz fuel hfuel
  refine ⟨p', ?_, h2, h3, ?_, h5⟩
  · rw [C124_add_self_partial H lag hb p g id flags hm (by omega) fuel]
    exact h1
  · have : padFor p.file.length = 0 := by unfold padFor; rw [if_neg (by omega)]
    rw [h4, this, List.replicate_zero, List.append_nil]

/-- Packages for both: a new one (whole blocks), and one with a file of three bytes. -/
example : ∃ p p' : Pkg, GoodPkg p ∧ p.file.length = 4096 ∧ GoodPkg p' ∧ p'.file.length = 4608 ∧ (∀ q ∈ usedParts p'.hdr, q.id ≠ 8) ∧
    (usedParts p'.hdr).length < 32 ∧ HoldsBack (fun r => if r < 2 then 0 else 4096) := by
  obtain ⟨p0, e0, g0, -, -, -, hf, hh⟩ := C56_open_new exHash exHash_len
  have hu : usedParts p0.hdr = [] := by rw [hh]; exact used_init
  have hl : p0.file.length = 4096 := by rw [g0.exact, hu]; rfl
  obtain ⟨p', -, g', -, h3, -, -, -, h4⟩ := C35_add_file exHash exHash_len p0 g0 7 (by decide) (by rw [hu]; simp) (by rw [hu]; simp) 0 (by decide) [1, 2, 3]
    (by rw [hl]; decide) 9 (by decide)
  rw [hu] at h4
  have h5 : (usedParts p'.hdr).length = 1 := by
    have := congrArg List.length h4
    simpa using this
  have h6 : (usedParts p'.hdr).map (·.id) = [7] := by
    have := congrArg (List.map Prod.fst) h4
    simpa using this
  refine ⟨p0, p', g0, hl, g', by rw [h3, hl]; rfl, ?_, by omega, ⟨by decide, fun r => ?_⟩⟩
  · intro q hq h
    have : q.id ∈ (usedParts p'.hdr).map (·.id) := List.mem_map.2 ⟨q, hq, rfl⟩
    rw [h6, h] at this
    simp at this
  · split <;> omega

/-! ### C125 -/

/-- C125, the flaw: extracting a part to the package's own path replaces the package, for every package, every part and every amount
of data that stdio had read ahead: the file afterwards is a piece of the part, at most as long as what was read ahead, and shorter than the
package was. If all of the part was read ahead, that is even reported as success. -/
theorem C125_extract_self_is_false (p : Pkg) (g : GoodPkg p) (hf : p.file.length < 2^63) (q : PartHdr) (hq : q ∈ usedParts p.hdr) (ahead : Nat) :
    ∃ e out, extractFileSelf p q.id ahead = (e, out) ∧ out <+: (storedBytes p q).take q.size.toNat ∧ out.length ≤ ahead ∧ out.length < p.file.length ∧
      (e = .ok ∧ out = (storedBytes p q).take q.size.toNat ∨ e = .readError ∧ ahead < q.size.toNat) := by
  have hx := g.exact
  have t : TidyParts p.hdr := g.parts.tidy (by omega)
  obtain ⟨pre, post, hu⟩ := List.append_of_mem hq
  obtain ⟨e1, e2⟩ := getPart_used (g.parts.inv g.wf) pre post q hu
  obtain ⟨e3, e4⟩ := tidy_offset p.hdr t pre post q hu
  rw [hu] at hx
  simp only [List.map_append, List.map_cons, List.sum_append, List.sum_cons] at hx
  have hpl := g.plain q hq
  have hst : storedSize q = q.size.toNat + q.padBytes.toNat := by unfold storedSize; rw [if_neg (by simpa using hpl)]
  have hn : (partSize q - q.padBytes.setWidth 64).toNat = q.size.toNat := by
    have : partSize q = q.size + q.padBytes.setWidth 64 := by
      unfold partSize; rw [if_neg]; intro hx; exact (isTransport_iff q).1 hx hpl
    rw [this, BitVec.add_sub_cancel]
  have hdata : (storedBytes p q).take q.size.toNat = fileRead p.file (partOffset p.hdr q).toNat q.size.toNat := by
    unfold storedBytes fileRead
    rw [List.take_take, Nat.min_eq_left (by omega)]
  have hself : extractFileSelf p q.id ahead = ((extractLoop (fileRead p.file (partOffset p.hdr q).toNat ahead) 0 q.size.toNat).1,
      (extractLoop (fileRead p.file (partOffset p.hdr q).toNat ahead) 0 q.size.toNat).2) := by
    unfold extractFileSelf
    rw [e1]
    simp only [e2]
    rw [if_neg (by omega), hn, extractSelf_eq _ _ (by omega) _ _ _ (by omega) (by simp), Nat.sub_self, List.nil_append]
  obtain ⟨a1, a2, a3⟩ := extractLoop_prefix (fileRead p.file (partOffset p.hdr q).toNat ahead) q.size.toNat 0
  have b1 : fileRead (fileRead p.file (partOffset p.hdr q).toNat ahead) 0 q.size.toNat <+: fileRead p.file (partOffset p.hdr q).toNat q.size.toNat := by
    unfold fileRead
    rw [List.drop_zero, List.take_take]
    exact List.take_prefix_take_left (by omega)
  have b2 : (fileRead (fileRead p.file (partOffset p.hdr q).toNat ahead) 0 q.size.toNat).length ≤ ahead := by
    rw [fileRead_length, fileRead_length]
    omega
  have b3 : (fileRead p.file (partOffset p.hdr q).toNat q.size.toNat).length = q.size.toNat := by
    rw [fileRead_length]
    omega
  have c1 := a1.length_le
  have c2 := b1.length_le
  refine ⟨_, _, hself, ?_, by omega, by omega, ?_⟩
  · rw [hdata]
    exact a1.trans b1
  · rcases a3 with h | h
    · obtain ⟨d1, d2⟩ := a2 h
      refine Or.inl ⟨h, ?_⟩
      rw [hdata, d1]
      exact b1.eq_of_length (by omega)
    · refine Or.inr ⟨h, ?_⟩
      rcases Nat.lt_or_ge ahead q.size.toNat with h3 | h3
      · exact h3
      · rw [extractLoop_eq _ _ _ (by rw [fileRead_length]; omega)] at h
        cases h

/-- C125: a part that is not there leaves the package as it is. -/
theorem C125_extract_self_absent_partial (p : Pkg) (g : GoodPkg p) (id : U32) (hid : ∀ q ∈ p.hdr.parts, q.id ≠ id) (ahead : Nat) :
    extractFileSelf p id ahead = (.notFound, p.file) := by
  unfold extractFileSelf
  have : getPart p.hdr id = none := by
    cases h : getPart p.hdr id with
    | none => rfl
    | some i =>
      obtain ⟨-, ⟨q, h1, h2⟩, -⟩ := getPartGo_some h
      exact absurd h2 (hid q (List.mem_of_getElem? h1))
  rw [this]

theorem firstOffset (h : Header) (q : PartHdr) (hq : h.parts[0]? = some q) (hid : q.id ≠ 0) : partOffset h q = 4096 := by
  unfold partOffset
  cases hp : h.parts with
  | nil => rw [hp] at hq; cases hq
  | cons x xs =>
    rw [hp] at hq
    cases hq
    unfold partOffsetGo
    rw [if_neg hid, if_pos rfl]

/-- C125, the same flaw: a package as the output of its own encoding. Whatever was in it: if its first part has data and is to be copied, encoding
fails and a package without parts is left. -/
theorem C125_encode_self_is_false (H : HashFn) (hH : HashLen H) (srch : Bytes → Bytes → Int → Option (Int × Int)) (inH : Header) (org : Option (Header × Bytes))
    (ho : encodeOriginCheck inH org = .ok ()) (q : PartHdr) (hq : inH.parts[0]? = some q) (hid : q.id ≠ 0) (hsz : partSize q ≠ 0)
    (hc : getMeta inH idBpakTransport q.id = none) :
    ∃ f, encodeSelf H srch inH org = .ret (.readError, some f) ∧ f.length = 4096 ∧ usedParts (parseHeader f) = [] := by
  obtain ⟨p0, e0, g0, s0, -, -, hf, hh⟩ := C56_open_new H hH
  have hu : usedParts p0.hdr = [] := by rw [hh]; exact used_init
  have hl : p0.file.length = 4096 := by rw [g0.exact, hu]; rfl
  refine ⟨p0.file, ?_, hl, ?_⟩
  · unfold encodeSelf
    rw [e0]
    dsimp only
    rw [if_neg (fun h => h rfl), ho]
    dsimp only
    have h4 := firstOffset inH q hq hid
    cases hp : inH.parts with
    | nil => rw [hp] at hq; cases hq
    | cons x xs =>
      rw [hp] at hq
      cases hq
      unfold encodeSelfGo
      rw [if_neg hid, hc]
      dsimp only
      rw [h4, if_neg (by decide)]
      have hz : (partSize q).toNat ≠ 0 := fun h => hsz (BitVec.eq_of_toNat_eq h)
      rw [copySelfLoop, dif_neg hz, if_pos]
      rw [fileRead_length, hl]
      show min (min _ 1024) (4096 - 4096) ≠ _
      omega
  · have := s0.2
    rw [List.take_of_length_le (by omega)] at this
    rw [this]
    exact hu

/-- C125, the same flaw: a package as the output of its own decoding. If its first part has data that is copied, decoding fails
at once, and only the header is left. -/
theorem C125_decode_self_is_false (H : HashFn) (hH : HashLen H) (patch : Header) (hw : patch.WF) (q : PartHdr) (hq : patch.parts[0]? = some q) (hid : q.id ≠ 0)
    (hsz : partSize q ≠ 0) (hc : q.isTransport = false) :
    decodeSelfFirst H patch none = some (.readError, patch.image) := by
  obtain ⟨p0, e0, g0, s0, -, -, hf, hh⟩ := C56_open_new H hH
  have hu : usedParts p0.hdr = [] := by rw [hh]; exact used_init
  have hl : p0.file.length = 4096 := by rw [g0.exact, hu]; rfl
  have hil := image_length hw
  have hwr : fileWrite p0.file 0 patch.image = patch.image := by
    rw [fileWrite_zero, List.drop_of_length_le (by omega), List.append_nil]
  unfold decodeSelfFirst
  rw [e0]
  unfold decodeInit
  dsimp only
  rw [hq]
  dsimp only
  rw [if_neg hid]
  have h1 : originLacks (TDec.init 4096 patch 4096 p0.file).origin q.id = false := rfl
  rw [h1, if_neg (by decide)]
  unfold decodeStart TDec.init
  dsimp only
  rw [hq]
  dsimp only
  have h2 : decoderOf patch q = some 0 := by unfold decoderOf; rw [hc]; rfl
  rw [h2]
  dsimp only
  rw [if_neg (by decide), if_pos (Or.inr rfl)]
  dsimp only
  have hz : (partSize q).toNat ≠ 0 := fun h => hsz (BitVec.eq_of_toNat_eq h)
  rw [hwr, if_pos]
  refine ⟨hz, ?_⟩
  rw [fileRead_length, hil]
  omega

/-- A package for all of them. -/
example : ∃ p q, GoodPkg p ∧ p.file.length = 4608 ∧ p.hdr.parts[0]? = some q ∧ q ∈ usedParts p.hdr ∧ q.id ≠ 0 ∧ partSize q ≠ 0 ∧ q.isTransport = false ∧
    p.hdr.WF ∧ getMeta p.hdr idBpakTransport q.id = none ∧ encodeOriginCheck p.hdr none = .ok () := by
  obtain ⟨p0, e0, g0, -, -, hum, hf, hh⟩ := C56_open_new exHash exHash_len
  have hu : usedParts p0.hdr = [] := by rw [hh]; exact used_init
  have hl : p0.file.length = 4096 := by rw [g0.exact, hu]; rfl
  obtain ⟨p', -, g', -, h3, -, -, hm, h4⟩ := C35_add_file exHash exHash_len p0 g0 7 (by decide) (by rw [hu]; simp) (by rw [hu]; simp) 0 (by decide) [1, 2, 3]
    (by rw [hl]; decide) 9 (by decide)
  rw [hu] at h4
  have hs := g'.parts.slots
  cases hup : usedParts p'.hdr with
  | nil => rw [hup] at h4; cases h4
  | cons q qs =>
    rw [hup] at h4 hs
    simp only [List.map_cons, List.map_nil, List.nil_append] at h4
    injection h4 with h4 h5
    obtain ⟨i1, h4⟩ := Prod.mk.inj h4
    obtain ⟨i2, h4⟩ := Prod.mk.inj h4
    obtain ⟨i3, i4⟩ := Prod.mk.inj h4
    have hmem : q ∈ usedParts p'.hdr := by rw [hup]; exact List.mem_cons_self
    have hnt : q.isTransport = false := by
      cases h : q.isTransport with
      | false => rfl
      | true => exact absurd (g'.plain q hmem) ((isTransport_iff q).1 h)
    refine ⟨p', q, g', by rw [h3, hl]; rfl, by rw [hs]; rfl, hmem, by rw [i1]; decide, ?_, hnt, g'.wf, ?_, rfl⟩
    · unfold partSize
      rw [hnt]
      intro h
      have := congrArg BitVec.toNat h
      simp only [Bool.false_eq_true, if_false, BitVec.toNat_add, BitVec.toNat_setWidth, i3, i4] at this
      revert this
      decide
    · rw [hm, i1]
      unfold getMeta
      dsimp only
      rw [hh]
      decide +kernel

end Bpak
