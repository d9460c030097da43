import Verif.Proof.Image
import Verif.Proof.History
import Verif.Model.Hash
/-! Properties C15–C17: header image, signature extraction, header hash. -/
namespace Bpak

/-! ### C15 -/

/-- C15: a header occupies exactly 4096 bytes on disk. -/
theorem C15_image_is_4096_bytes (h : Header) (w : h.WF) : h.image.length = 4096 := image_length w

/-- C15: reading back a written header, each field from its documented offset, gives the header. -/
theorem C15_write_read (h : Header) (w : h.WF) : parseHeader h.image = h := parse_image w

/-- C15: any 4096 bytes read as a header and written again are unchanged. -/
theorem C15_read_write (b : Bytes) (hb : b.length = 4096) : (parseHeader b).image = b ∧ (parseHeader b).WF :=
  ⟨image_parse hb, parseHeader_wf hb⟩

theorem two_bytes (b : Bytes) (o o' : Nat) (ho : o' = o + 1) (h : o + 2 ≤ b.length) : (b.drop o).take 2 = [(slice b o 1).headD 0, (slice b o' 1).headD 0] := by
  subst ho
  unfold slice
  obtain ⟨x, hx⟩ : ∃ x, b[o]? = some x := ⟨_, List.getElem?_eq_getElem (by omega)⟩
  obtain ⟨y, hy⟩ : ∃ y, b[o+1]? = some y := ⟨_, List.getElem?_eq_getElem (by omega)⟩
  obtain ⟨h1, h2⟩ := List.getElem?_eq_some_iff.1 hx
  obtain ⟨h3, h4⟩ := List.getElem?_eq_some_iff.1 hy
  rw [List.drop_eq_getElem_cons h1, List.drop_eq_getElem_cons h3]
  simp [h2, h4]

/-- C15: where each field lies in the 4096 bytes, with numbers little-endian. -/
theorem C15_layout (h : Header) (w : h.WF) :
    let at_ := fun o n => (h.image.drop o).take n
    at_ 0 4 = Spec.leBytes 4 h.magic.toNat ∧ at_ 4 4 = h.pad0 ∧
    (∀ i m, h.metas[i]? = some m → at_ (8 + 16 * i) 16 =
      Spec.leBytes 4 m.id.toNat ++ Spec.leBytes 2 m.size.toNat ++ Spec.leBytes 2 m.offset.toNat ++ Spec.leBytes 4 m.partRef.toNat ++ m.pad) ∧
    (∀ i p, h.parts[i]? = some p → at_ (520 + 32 * i) 32 =
      Spec.leBytes 4 p.id.toNat ++ Spec.leBytes 8 p.size.toNat ++ Spec.leBytes 8 p.offset.toNat ++ Spec.leBytes 8 p.transportSize.toNat ++
        Spec.leBytes 2 p.padBytes.toNat ++ [p.flags, p.pad]) ∧
    at_ 1544 1920 = h.metadata ∧ at_ 3464 2 = [h.hashKind, h.signatureKind] ∧ at_ 3466 2 = Spec.leBytes 2 h.alignment.toNat ∧
    at_ 3468 64 = h.payloadHash ∧ at_ 3532 4 = Spec.leBytes 4 h.keyId.toNat ∧ at_ 3536 4 = Spec.leBytes 4 h.keystoreId.toNat ∧
    at_ 3540 42 = h.pad1 ∧ at_ 3582 512 = h.signature ∧ at_ 4094 2 = Spec.leBytes 2 h.signatureSz.toNat := by
  have il := image_length w
  have e := parse_image w
  have f : ∀ {α : Type} (g : Header → α), g (parseHeader h.image) = g h := fun g => by rw [e]
  simp only
  refine ⟨?_, ?_, ?_, ?_, ?_, ?_, ?_, ?_, ?_, ?_, ?_, ?_, ?_⟩
  · have hf : (parseHeader h.image).magic = h.magic := by rw [e]
    simp only [parseHeader] at hf
    rw [← le32_spec, ← hf, le32_ofLe32 (slice_length (by omega))]; rfl
  · have hf : (parseHeader h.image).pad0 = h.pad0 := by rw [e]
    simp only [parseHeader] at hf
    exact hf
  · intro i m hm
    rw [← f (·.metas)] at hm
    have hlt : i < 32 := by
      have := (List.getElem?_eq_some_iff.1 hm).1
      simpa [parseHeader] using this
    have : m = parseMeta (slice h.image (8 + 16 * i) 16) := by
      simp only [parseHeader, List.getElem?_map, List.getElem?_range hlt, Option.map_some, Option.some.injEq] at hm
      exact hm.symm
    rw [← le32_spec, ← le16_spec, ← le16_spec, ← le32_spec]
    show _ = metaImage m
    rw [this, metaImage_parse (slice_length (by omega))]
    rfl
  · intro i p hp
    rw [← f (·.parts)] at hp
    have hlt : i < 32 := by
      have := (List.getElem?_eq_some_iff.1 hp).1
      simpa [parseHeader] using this
    have : p = parsePart (slice h.image (520 + 32 * i) 32) := by
      simp only [parseHeader, List.getElem?_map, List.getElem?_range hlt, Option.map_some, Option.some.injEq] at hp
      exact hp.symm
    rw [← le32_spec, ← le64_spec, ← le64_spec, ← le64_spec, ← le16_spec]
    show _ = partImage p
    rw [this, partImage_parse (slice_length (by omega))]
    rfl
  · have hf : (parseHeader h.image).metadata = h.metadata := by rw [e]
    simp only [parseHeader] at hf
    exact hf
  · have h1 : (parseHeader h.image).hashKind = h.hashKind := by rw [e]
    have h2 : (parseHeader h.image).signatureKind = h.signatureKind := by rw [e]
    clear e f
    simp only [parseHeader] at h1 h2
    rw [← h1, ← h2]
    exact two_bytes h.image 3464 3465 rfl (by omega)
  · have hf : (parseHeader h.image).alignment = h.alignment := by rw [e]
    simp only [parseHeader] at hf
    rw [← le16_spec, ← hf, le16_ofLe16 (slice_length (by omega))]; rfl
  · have hf : (parseHeader h.image).payloadHash = h.payloadHash := by rw [e]
    simp only [parseHeader] at hf
    exact hf
  · have hf : (parseHeader h.image).keyId = h.keyId := by rw [e]
    simp only [parseHeader] at hf
    rw [← le32_spec, ← hf, le32_ofLe32 (slice_length (by omega))]; rfl
  · have hf : (parseHeader h.image).keystoreId = h.keystoreId := by rw [e]
    simp only [parseHeader] at hf
    rw [← le32_spec, ← hf, le32_ofLe32 (slice_length (by omega))]; rfl
  · have hf : (parseHeader h.image).pad1 = h.pad1 := by rw [e]
    simp only [parseHeader] at hf
    exact hf
  · have hf : (parseHeader h.image).signature = h.signature := by rw [e]
    simp only [parseHeader] at hf
    exact hf
  · have hf : (parseHeader h.image).signatureSz = h.signatureSz := by rw [e]
    simp only [parseHeader] at hf
    rw [← le16_spec, ← hf, le16_ofLe16 (slice_length (by omega))]; rfl

/-- Every header an application can build meets the hypothesis of `C15_write_read` and `C15_layout`. -/
theorem C15_reachable_wf (h : Header) (hr : Reachable h) : h.WF := hr.inv.wf

/-! ### C16 -/

/-- C16: success exactly when there is a signature and it fits both its field and the caller's buffer. -/
theorem C16_copyz_code (h : Header) (size : Nat) :
    (copyzSignature h size).1 = .ok ↔
      0 < h.signatureSz.toNat ∧ h.signatureSz.toNat ≤ 512 ∧ h.signatureSz.toNat ≤ size := by
  have e512 : signatureMaxBytes = 512 := rfl
  unfold copyzSignature
  split
  · constructor
    · intro h; cases h
    · intro ⟨_, h, _⟩; omega
  split
  · constructor
    · intro h; cases h
    · intro ⟨h, _, _⟩; omega
  split
  · constructor
    · intro h; cases h
    · intro ⟨_, _, h⟩; omega
  · simp only [true_iff]; omega

/-- C16: on success the caller gets exactly the signature bytes, and the header image afterwards is the
old one with its last 514 bytes (signature and signature size) zero. -/
theorem C16_copyz_success (h : Header) (w : h.WF) (size : Nat) (hok : (copyzSignature h size).1 = .ok) :
    (copyzSignature h size).2.2 = slice h.image 3582 h.signatureSz.toNat ∧
    (copyzSignature h size).2.2.length = h.signatureSz.toNat ∧
    (copyzSignature h size).2.1.image = h.image.take 3582 ++ List.replicate 514 0 := by
  have hc := (C16_copyz_code h size).1 hok
  obtain ⟨h0, h1, h2⟩ := hc
  have e : copyzSignature h size =
      (.ok, { h with signature := List.replicate 512 0, signatureSz := 0 }, h.signature.take h.signatureSz.toNat) := by
    unfold copyzSignature
    rw [if_neg (by have e512 : signatureMaxBytes = 512 := rfl; omega), if_neg (by omega), if_neg (by omega)]
  have ws := w.2.2.2.2.2.2.1
  have key : ∀ (s : Bytes) (z : U16), s.length = 512 →
      ({ h with signature := s, signatureSz := z } : Header).image = h.image.take 3582 ++ s ++ le16 z := by
    intro s z hs
    have hl := image_length w
    unfold Header.image at hl ⊢
    simp only
    congr 2
    rw [List.append_assoc _ h.signature, List.take_append_of_le_length]
    · rw [List.take_of_length_le]
      simp only [List.length_append, ws] at hl ⊢
      have : (le16 h.signatureSz).length = 2 := rfl
      omega
    · simp only [List.length_append, ws] at hl ⊢
      have : (le16 h.signatureSz).length = 2 := rfl
      omega
  have k1 := key h.signature h.signatureSz ws
  have hself : ({ h with signature := h.signature, signatureSz := h.signatureSz } : Header) = h := rfl
  rw [hself] at k1
  rw [e]
  refine ⟨?_, ?_, ?_⟩
  · show List.take _ h.signature = _
    have hl := image_length w
    rw [k1]
    have l1 : (List.take 3582 h.image).length = 3582 := by rw [List.length_take]; omega
    rw [List.append_assoc]
    have := slice_append_right (b := h.signature ++ le16 h.signatureSz) (o := 0) (l := h.signatureSz.toNat) l1
    rw [Nat.add_zero] at this
    rw [this]
    unfold slice
    rw [List.drop_zero, List.take_append_of_le_length (by omega)]
  · show (List.take _ h.signature).length = _
    rw [List.length_take]; omega
  · show Header.image _ = _
    rw [key _ _ List.length_replicate, List.append_assoc]
    have e2 : le16 0 = List.replicate 2 0 := rfl
    rw [e2, List.replicate_append_replicate]

/-- C16: on failure nothing changes and nothing is copied. -/
theorem C16_copyz_failure (h : Header) (size : Nat) (hne : (copyzSignature h size).1 ≠ .ok) :
    copyzSignature h size = (.sizeError, h, []) := by
  unfold copyzSignature at *
  split
  · rfl
  split
  · rfl
  split
  · rfl
  · rename_i a b c
    rw [if_neg a, if_neg b, if_neg c] at hne
    exact absurd rfl hne

/-- Non-vacuity: a signed header. -/
def signedExample : Header :=
  { initHeader with signature := 7 :: 9 :: List.replicate 510 0, signatureSz := 2 }
example : signedExample.WF ∧ (copyzSignature signedExample 64).1 = .ok ∧
    (copyzSignature signedExample 64).2.2 = [7, 9] := by decide +kernel

/-! ### C17 -/

/-- Specification: the signed content of a header is its image with signature and signature size
zeroed. -/
def headerSignedBytes (h : Header) : Bytes :=
  ({ h with signature := List.replicate 512 0, signatureSz := 0 } : Header).image

theorem feedZeros_eq (n : Nat) (c : HashCtx) : feedZeros n c = { c with fed := c.fed ++ List.replicate n 0 } := by
  induction n generalizing c with
  | zero => simp [feedZeros]
  | succ n ih => simp [feedZeros, ih, hashUpdate, List.replicate_succ]

theorem image_prefix (h : Header) (w : h.WF) (s : Bytes) (z : U16) (hs : s.length = 512) :
    ({ h with signature := s, signatureSz := z } : Header).image = h.image.take 3582 ++ s ++ le16 z := by
  have ws := w.2.2.2.2.2.2.1
  have hl := image_length w
  unfold Header.image at hl ⊢
  simp only
  congr 2
  rw [List.append_assoc _ h.signature, List.take_append_of_le_length]
  · rw [List.take_of_length_le]
    simp only [List.length_append, ws] at hl ⊢
    have : (le16 h.signatureSz).length = 2 := rfl
    omega
  · simp only [List.length_append, ws] at hl ⊢
    have : (le16 h.signatureSz).length = 2 := rfl
    omega

/-- C17: with a supported hash kind and a large enough buffer, the result is the digest of exactly the
signed bytes. -/
theorem C17_header_hash_is_digest_of_signed_bytes (H : HashFn) (h : Header) (w : h.WF) (n bufLen : Nat)
    (hk : digestLen h.hashKind = some n) (hb : n ≤ bufLen) :
    computeHeaderHash H h bufLen = (.ok, some (H h.hashKind (headerSignedBytes h))) := by
  unfold computeHeaderHash hashInit
  rw [hk]
  simp only [hashUpdate, feedZeros_eq, hashFinal, hk]
  rw [if_neg (by omega)]
  unfold headerSignedBytes
  rw [image_prefix h w _ _ List.length_replicate]
  have e2 : le16 0 = List.replicate 2 0 := rfl
  rw [e2, List.nil_append, List.append_assoc (List.take 3582 _), List.replicate_append_replicate]

/-- C17: an unsupported kind is reported and nothing is written. -/
theorem C17_unsupported_kind (H : HashFn) (h : Header) (bufLen : Nat) (hk : digestLen h.hashKind = none) :
    computeHeaderHash H h bufLen = (.unsupportedHashAlg, none) := by
  unfold computeHeaderHash hashInit
  rw [hk]

/-- C17: two headers have the same signed bytes exactly when they agree on everything but the
signature field and signature size. -/
theorem C17_signed_bytes_exact (a b : Header) (wa : a.WF) (wb : b.WF) :
    headerSignedBytes a = headerSignedBytes b ↔
      b = { a with signature := b.signature, signatureSz := b.signatureSz } := by
  have wz : ∀ h : Header, h.WF → ({ h with signature := List.replicate 512 0, signatureSz := 0 } : Header).WF := by
    intro h w
    obtain ⟨w1, w2, w3, w4, w5, w6, w7, w8⟩ := w
    exact ⟨w1, w2, w3, w4, w5, w6, List.length_replicate, w8⟩
  constructor
  · intro h
    have := image_inj (wz a wa) (wz b wb) h
    generalize (List.replicate 512 (0 : U8)) = z at this
    cases a; cases b
    simp only [Header.mk.injEq] at this ⊢
    obtain ⟨rfl, rfl, rfl, rfl, rfl, rfl, rfl, rfl, rfl, rfl, rfl, rfl, -⟩ := this
    simp
  · intro h
    unfold headerSignedBytes
    rw [h]

/-- C17, the error half is false of the code: when the caller's buffer is too small for the digest the
function still returns OK, having written no digest. -/
theorem C17_small_buffer_reported_is_false (H : HashFn) :
    ∃ h : Header, Reachable h ∧ ∃ bufLen, computeHeaderHash H h bufLen = (.ok, none) := by
  refine ⟨initHeader, ⟨[], rfl⟩, 16, ?_⟩
  have e : digestLen initHeader.hashKind = some 32 := by decide +kernel
  unfold computeHeaderHash hashInit
  rw [e]
  simp only [hashFinal, feedZeros_eq, hashUpdate, e]
  rw [if_pos (by omega)]

example : signedExample.WF ∧ digestLen signedExample.hashKind = some 32 ∧
    headerSignedBytes signedExample = headerSignedBytes initHeader ∧ signedExample ≠ initHeader :=
  ⟨by decide +kernel, by decide +kernel, rfl, by decide +kernel⟩

end Bpak
