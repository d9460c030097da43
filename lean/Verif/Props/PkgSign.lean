import Verif.Proof.PkgVerify
import Verif.Props.Pkg
import Verif.Props.Merkle
/-! Properties of packages in files: opening, signing, verifying, sizes (C33, C34, C37, C49, C56, C60). -/
namespace Bpak

/-! ### C56 opening -/

/-- C56: a file of at least a header's size opens exactly when its first 4096 bytes are a valid header; the
package is that header, and the file is not touched, whatever the mode. -/
theorem C56_open_existing (H : HashFn) (w : Bool) (f : Bytes) (hf : 4096 ≤ f.length) :
    pkgOpen H w f = (validHeader (parseHeader (f.take 4096)), ⟨parseHeader (f.take 4096), f, []⟩) := by
  unfold pkgOpen; rw [if_pos hf]

theorem init_good (f : Bytes) : TidyParts initHeader := ⟨by decide +kernel, by decide +kernel, by decide +kernel⟩
theorem used_init : usedParts initHeader = [] := by decide +kernel
theorem wf_init : initHeader.WF := by decide +kernel

theorem open_short (H : HashFn) (f : Bytes) (hf : f.length < 4096) (w : Bool) :
    pkgOpen H w f = if w then (validHeader (withPayloadHash H initHeader f), ⟨withPayloadHash H initHeader f, fileWrite f f.length (withPayloadHash H initHeader f).image,
        [.write f.length (withPayloadHash H initHeader f).image]⟩)
      else (.writeError, ⟨withPayloadHash H initHeader f, f, []⟩) := by
  unfold pkgOpen
  rw [if_neg (by omega)]
  have e : updateHash H ⟨initHeader, f, []⟩ = (.ok, ⟨withPayloadHash H initHeader f, f, []⟩) := by
    unfold updateHash
    simp only
    rw [computePayloadHash_pkg H _ (init_good f), C31_payload_hash_covers H _ _ (by omega)]
    have hk : digestLen initHeader.hashKind = some 32 := by decide +kernel
    rw [hk]
    simp only
    rw [if_neg (not_not_intro ?_), if_neg (by omega)]
    · rfl
    · rw [(C31_bytes_at_part_offsets _ (init_good f) f).2, used_init]
      intro p hp; cases hp
  rw [e]
  simp only
  cases w <;> rfl

/-- C56: opening a new (empty) file for writing gives an empty good package with a valid header, already in the
file. -/
theorem C56_open_new (H : HashFn) (hH : HashLen H) :
    ∃ p, pkgOpen H true [] = (.ok, p) ∧ GoodPkg p ∧ Saved p ∧ contents p = [] ∧ usedMetas p.hdr = [] ∧
      p.file = p.hdr.image ∧ p.hdr = { initHeader with payloadHash := H hashSha256 [] ++ List.replicate 32 0 } := by
  have e := open_short H [] (by simp) true
  rw [if_pos rfl] at e
  have wf : (withPayloadHash H initHeader []).WF := withPayloadHash_wf H hH initHeader wf_init [] 32 (by decide +kernel)
  have hb : hashedBytes [] initHeader.parts 4096 = [] := by decide +kernel
  have hh : withPayloadHash H initHeader [] = { initHeader with payloadHash := H hashSha256 [] ++ List.replicate 32 0 } := by
    unfold withPayloadHash
    rw [hb]
    have e1 : initHeader.hashKind = hashSha256 := by decide +kernel
    have e2 : initHeader.payloadHash = List.replicate 64 0 := by decide +kernel
    have e3 := hH.sha256 []
    rw [e1, e2, e3, List.drop_replicate]
    rfl
  have hv : validHeader (withPayloadHash H initHeader []) = .ok := by
    rw [hh]; exact (by decide +kernel : validHeader initHeader = .ok)
  have hfile : fileWrite [] ([] : Bytes).length (withPayloadHash H initHeader []).image = (withPayloadHash H initHeader []).image := by
    rw [fileWrite_end, List.nil_append]
  rw [hv, hfile] at e
  have hu : usedParts (withPayloadHash H initHeader []) = [] := used_init
  refine ⟨_, e, ⟨wf, ⟨?_, ?_⟩, ⟨32, (by decide +kernel : digestLen initHeader.hashKind = some 32)⟩, ?_, ?_⟩, ?_, ?_, ?_, rfl, hh⟩
  · simp only [hu, List.nil_append, List.length_nil]
    exact (by decide +kernel : initHeader.parts = List.replicate 32 PartHdr.zero)
  · simp only [hu]; exact List.Pairwise.nil
  · simp only [hu]; intro q hq; cases hq
  · simp only [hu, image_length wf]; rfl
  · have := parse_saved _ wf [] [FOp.write ([] : Bytes).length (withPayloadHash H initHeader []).image]
    simpa using this
  · unfold contents; simp only [hu]; rfl
  · exact (by decide +kernel : usedMetas initHeader = [])

/-- C56, the flaw: opening, for writing, a non-empty file shorter than a header succeeds (it should be refused as
not a package), and appends a fresh header to the file, which then cannot be opened. For every such
file that does not begin like a package. -/
theorem C56_open_short_file_is_false (H : HashFn) (hH : HashLen H) (f : Bytes) (hf : f.length < 4096) (h4 : 4 ≤ f.length) (hm : ofLe32 (f.take 4) ≠ headerMagic) :
    ∃ p, pkgOpen H true f = (.ok, p) ∧ p.file = f ++ p.hdr.image ∧
      (pkgOpen H true p.file).1 = .badMagic := by
  have e := open_short H f hf true
  rw [if_pos rfl] at e
  have wf : (withPayloadHash H initHeader f).WF := withPayloadHash_wf H hH initHeader wf_init f 32 (by decide +kernel)
  have hv : validHeader (withPayloadHash H initHeader f) = .ok := (by decide +kernel : validHeader initHeader = .ok)
  rw [hv, fileWrite_end] at e
  refine ⟨_, e, rfl, ?_⟩
  simp only
  have hl : 4096 ≤ (f ++ (withPayloadHash H initHeader f).image).length := by
    rw [List.length_append, image_length wf]; omega
  rw [C56_open_existing H true _ hl]
  simp only
  unfold validHeader
  rw [if_pos]
  unfold parseHeader
  simp only [slice]
  have : ∀ g : Bytes, List.take 4 (List.take 4096 (f ++ g)) = List.take 4 f := by
    intro g
    rw [List.take_take, List.take_append_of_le_length (by omega)]; rfl
  simp only [List.drop_zero, this]
  exact hm

/-! ### C33 signing -/

/-- Every part with a root-hash entry has a salt entry and a tree part and passes the hash tree check (C30). -/
def TreesOk (H : HashFn) (p : Pkg) : Prop :=
  ∀ q ∈ usedParts p.hdr, (∃ i, getMeta p.hdr idMerkleRootHash q.id = some i) →
    ∃ root salt tp, TreeInfo p.hdr q root salt tp ∧
      verifyMerkleTree H (payloadReader p.file) (partOffset p.hdr q).toNat (partSize q).toNat (partOffset p.hdr tp).toNat root salt = .ok

/-- C33: what `bpak_pkg_verify` accepts, for a package as the API leaves it: the key accepts the signature for the
digest of the header without the signature fields, the payload hash is the digest of the hashed parts, the trees
are right. -/
theorem C33_verify_iff {SK PK : Type} (H : HashFn) (hH : HashLen H) (S : SigScheme SK PK) (pk : PK) (p : Pkg) (g : GoodPkg p) (hf : p.file.length < 2^63)
    (hsz : p.hdr.signatureSz.toNat ≤ 512) (hS : ∀ k d s, S.verify pk k d s ≠ .error .ok) :
    pkgVerify H S pk p = .ret .ok ↔
      S.verify pk p.hdr.hashKind (H p.hdr.hashKind (headerSignedBytes p.hdr)) (p.hdr.signature.take p.hdr.signatureSz.toNat) = .ok true ∧
      H p.hdr.hashKind (((usedParts p.hdr).filter (fun q => !q.excluded)).flatMap (storedBytes p)) <+: p.hdr.payloadHash ∧
      TreesOk H p := by
  obtain ⟨w, gp, ⟨n, hk⟩, plain, exact⟩ := g
  have t : TidyParts p.hdr := gp.tidy (by omega)
  unfold pkgVerify
  rw [C17_header_hash_is_digest_of_signed_bytes H p.hdr w n 64 hk (digestLen_le hk)]
  simp only
  rw [if_neg (by omega)]
  have key : verifyPayload H p.hdr (pkgReader p.file) 4096 = .ret .ok ↔
      H p.hdr.hashKind (((usedParts p.hdr).filter (fun q => !q.excluded)).flatMap (storedBytes p)) <+: p.hdr.payloadHash ∧ TreesOk H p := by
    rw [verifyPayload_pkg H p.hdr t _ hf, C32_accepts_iff H p.hdr _ hf]
    have h1 := (C31_bytes_at_part_offsets p.hdr t p.file).1
    have h2 := hashedReadable_whole p.hdr t p.file (by unfold Whole; omega)
    rw [h1]
    have e4 : ∀ x : U64, (x - 4096 + 4096) = x := fun x => BitVec.sub_add_cancel x 4096
    simp only [e4]
    constructor
    · rintro ⟨_, _, a, b⟩
      refine ⟨a, fun q hq hi => b q ?_ (used_ids _ q hq) hi⟩
      rw [gp.slots]; exact List.mem_append_left _ hq
    · rintro ⟨a, b⟩
      refine ⟨⟨n, hk⟩, h2, a, fun q hq h0 hi => b q ?_ hi⟩
      rw [gp.slots] at hq
      rcases List.mem_append.1 hq with hq | hq
      · exact hq
      · rw [(List.mem_replicate.1 hq).2] at h0; exact absurd rfl h0
  cases hv : S.verify pk p.hdr.hashKind (H p.hdr.hashKind (headerSignedBytes p.hdr)) (p.hdr.signature.take p.hdr.signatureSz.toNat) with
  | error e =>
    simp only
    have : e ≠ .ok := fun h => hS _ _ _ (h ▸ hv)
    exact ⟨fun h => absurd (Out.ret.inj h) this, fun h => (by cases h.1)⟩
  | ok b =>
    cases b
    · exact ⟨fun h => (by cases h), fun h => (by cases h.1)⟩
    · simp only [true_and]; exact key

theorem fileRead_drop (f g : Bytes) (h : f.drop 4096 = g.drop 4096) (off n : Nat) (ho : 4096 ≤ off) : fileRead f off n = fileRead g off n := by
  unfold fileRead
  have : ∀ x : Bytes, x.drop off = (x.drop 4096).drop (off - 4096) := by
    intro x; rw [List.drop_drop, Nat.add_sub_cancel' ho]
  rw [this f, this g, h]

theorem storedLevels_drop (f g : Bytes) (h : f.drop 4096 = g.drop 4096) (off : Nat) (ho : 4096 ≤ off) (k : Nat) : ∀ n, storedLevels f off k n = storedLevels g off k n := by
  induction k with
  | zero => intro n; rfl
  | succ k ih =>
    intro n
    unfold storedLevels
    simp only
    rw [fileRead_drop f g h _ _ (by omega), ih]

/-- The tree check depends only on what lies behind the header. -/
theorem verifyTree_drop (H : HashFn) (hH : HashLen H) (f g : Bytes) (h : f.drop 4096 = g.drop 4096) (hl : f.length = g.length) (a n b : Nat) (ha : 4096 ≤ a) (hb : 4096 ≤ b)
    (root salt : Bytes) : verifyMerkleTree H (payloadReader f) a n b root salt = .ok → verifyMerkleTree H (payloadReader g) a n b root salt = .ok := by
  intro hv
  by_cases hs : salt.length ≤ 32
  · by_cases ht : TreeSupported n
    · by_cases h1 : n = 4096
      · subst h1
        rw [C30_one_block_accepts_iff H hH _ _ _ _ _ hs] at hv ⊢
        rwa [← fileRead_drop f g h _ _ ha, ← fileRead_drop f g h _ _ hb, ← hl]
      · rw [C30_accepts_iff H hH _ _ _ _ _ _ hs ht h1] at hv ⊢
        rwa [← fileRead_drop f g h _ _ ha, ← fileRead_drop f g h _ _ hb, ← hl, ← storedLevels_drop f g h _ hb]
    · exfalso
      unfold verifyMerkleTree merkleInit at hv
      by_cases h1 : n % 4096 = 0
      · have : n = 0 ∨ n / 4096 > 128^3 := by unfold TreeSupported at ht; omega
        rw [if_neg (by omega), if_neg (by omega), merkleLevelsGo_eq _ h1, if_pos this] at hv
        cases hv
      · rw [if_pos h1] at hv; cases hv
  · exfalso
    unfold verifyMerkleTree merkleInit at hv
    split at hv
    · rename_i he
      split at he
      · cases he; cases hv
      · rw [if_pos (by omega)] at he; cases he; cases hv
    · rename_i he
      split at he
      · cases he
      · rw [if_pos (by omega)] at he; cases he

theorem partOffsetGo_ge (id : U32) (ps : List PartHdr) : ∀ off : U64, off.toNat + ((ps.takeWhile (fun p => p.id ≠ 0)).map storedSize).sum < 2^64 →
    off.toNat ≤ (partOffsetGo id off ps).toNat := by
  induction ps with
  | nil => intro off _; exact Nat.le_refl _
  | cons p ps ih =>
    intro off h
    unfold partOffsetGo
    split
    · exact Nat.le_refl _
    · rename_i h0
      split
      · exact Nat.le_refl _
      · rw [List.takeWhile_cons, if_pos (by simpa using h0), List.map_cons, List.sum_cons] at h
        have hs : (partSize p).toNat = storedSize p := partSize_stored p (by omega)
        have e : (off + partSize p).toNat = off.toNat + storedSize p := by
          rw [BitVec.toNat_add, hs, Nat.mod_eq_of_lt (by omega)]
        have := ih (off + partSize p) (by rw [e]; omega)
        omega

/-- No part lies in the header. -/
theorem partOffset_ge (h : Header) (t : TidyParts h) (q : PartHdr) : 4096 ≤ (partOffset h q).toNat :=
  partOffsetGo_ge q.id h.parts 4096 (by
    have := t.fits
    unfold usedParts at this
    show 4096 + _ < _
    omega)

/-- What signing leaves, when it succeeds. -/
def signedHdr (H : HashFn) (p : Pkg) (sig : Bytes) : Header :=
  { withPayloadHash H p.hdr p.file with signature := sig ++ List.replicate (512 - sig.length) 0, signatureSz := BitVec.ofNat 16 sig.length }

theorem withSig_wf {h : Header} (w : h.WF) (sig : Bytes) (hl : sig.length ≤ 512) (z : U16) :
    ({ h with signature := sig ++ List.replicate (512 - sig.length) 0, signatureSz := z } : Header).WF := by
  obtain ⟨w1, w2, w3, w4, w5, w6, w7, w8⟩ := w
  exact ⟨w1, w2, w3, w4, w5, w6, by simp; omega, w8⟩

theorem pkgSign_eq {SK PK : Type} (H : HashFn) (hH : HashLen H) (S : SigScheme SK PK) (rnd : Bytes) (key : Except Err SK) (p : Pkg) (g : GoodPkg p) (hf : p.file.length < 2^63) :
    pkgSign H S rnd key p =
      match key with
      | .error e => (e, { p with hdr := withPayloadHash H p.hdr p.file })
      | .ok sk => match S.sign sk rnd p.hdr.hashKind (H p.hdr.hashKind (headerSignedBytes (withPayloadHash H p.hdr p.file))) with
        | .error e => (e, { p with hdr := { withPayloadHash H p.hdr p.file with signature := List.replicate 512 0 } })
        | .ok sig => if sig.length > 512 then (.signFail, { p with hdr := { withPayloadHash H p.hdr p.file with signature := List.replicate 512 0 } })
          else (.ok, writeHeader { p with hdr := signedHdr H p sig }) := by
  obtain ⟨w, gp, ⟨n, hk⟩, plain, exact⟩ := g
  have t : TidyParts p.hdr := gp.tidy (by omega)
  unfold pkgSign
  rw [updateHash_eq H p t hf (by unfold Whole; omega) n hk (digestLen_le hk)]
  simp only
  rw [C17_header_hash_is_digest_of_signed_bytes H (withPayloadHash H p.hdr p.file) (withPayloadHash_wf H hH _ w _ n hk) n 64 hk (digestLen_le hk)]
  rfl

/-- C33: signing succeeds whenever the signing function does (with a signature that fits), and then the package in
the file is the signed one: only payload hash and signature fields of the header changed. -/
theorem C33_sign {SK PK : Type} (H : HashFn) (hH : HashLen H) (S : SigScheme SK PK) (rnd : Bytes) (sk : SK) (p : Pkg) (g : GoodPkg p) (hf : p.file.length < 2^63)
    (sig : Bytes) (hs : S.sign sk rnd p.hdr.hashKind (H p.hdr.hashKind (headerSignedBytes (withPayloadHash H p.hdr p.file))) = .ok sig) (hl : sig.length ≤ 512) :
    ∃ p', pkgSign H S rnd (.ok sk) p = (.ok, p') ∧ GoodPkg p' ∧ Saved p' ∧ contents p' = contents p ∧
      p'.hdr = { p.hdr with payloadHash := p'.hdr.payloadHash, signature := p'.hdr.signature, signatureSz := p'.hdr.signatureSz } ∧
      p'.hdr.signature.take p'.hdr.signatureSz.toNat = sig ∧
      p'.file = p'.hdr.image ++ p.file.drop 4096 := by
  rw [pkgSign_eq H hH S rnd _ p g hf]
  obtain ⟨w, gp, ⟨n, hk⟩, plain, exact⟩ := g
  have t : TidyParts p.hdr := gp.tidy (by omega)
  simp only
  rw [hs]
  simp only
  rw [if_neg (by omega)]
  have wf : (signedHdr H p sig).WF := withSig_wf (withPayloadHash_wf H hH _ w _ n hk) sig hl _
  have il := image_length wf
  have ew : writeHeader { p with hdr := signedHdr H p sig } = ⟨signedHdr H p sig, (signedHdr H p sig).image ++ p.file.drop 4096, p.log ++ [.write 0 (signedHdr H p sig).image]⟩ :=
    writeHeader_eq _ wf
  rw [ew]
  have hu : usedParts (signedHdr H p sig) = usedParts p.hdr := rfl
  have hz : (BitVec.ofNat 16 sig.length).toNat = sig.length := by rw [BitVec.toNat_ofNat]; omega
  refine ⟨_, rfl, ⟨wf, ⟨gp.slots, gp.distinct⟩, ⟨n, hk⟩, plain, ?_⟩, parse_saved _ wf _ _, ?_, rfl, ?_, rfl⟩
  · simp only [hu, List.length_append, List.length_drop, il]; omega
  · rw [contents_eq p t, contents_eq ⟨signedHdr H p sig, _, _⟩ ⟨t.compact, t.distinct, t.fits⟩]
    simp only [hu]
    rw [List.drop_append_of_le_length (by omega), List.drop_of_length_le (by omega), List.nil_append]
  · have e1 : (signedHdr H p sig).signature = sig ++ List.replicate (512 - sig.length) 0 := rfl
    have e2 : (signedHdr H p sig).signatureSz.toNat = sig.length := hz
    rw [e1, e2, List.take_left]

/-- C33: sign, then verify with the matching key: every package (with whatever parts and contents, as the API leaves
it, its hash trees being right) that `bpak_pkg_sign` signs is accepted by `bpak_pkg_verify`; also after
closing and opening the file again. -/
theorem C33_sign_then_verify {SK PK : Type} (H : HashFn) (hH : HashLen H) (S : SigScheme SK PK) (rnd : Bytes) (sk : SK) (pk : PK) (hkp : KeyPair S sk pk)
    (hS : ∀ k d s, S.verify pk k d s ≠ .error .ok) (hS2 : ∀ k d e, S.sign sk rnd k d = .error e → e ≠ .ok)
    (p p' : Pkg) (g : GoodPkg p) (hf : p.file.length < 2^63) (ht : TreesOk H p)
    (hs : pkgSign H S rnd (.ok sk) p = (.ok, p')) :
    pkgVerify H S pk p' = .ret .ok ∧
    (validHeader p.hdr = .ok → ∃ q, pkgOpen H false p'.file = (.ok, q) ∧ q.hdr = p'.hdr ∧ q.file = p'.file ∧ pkgVerify H S pk q = .ret .ok) := by
  have hsig : ∃ sig, S.sign sk rnd p.hdr.hashKind (H p.hdr.hashKind (headerSignedBytes (withPayloadHash H p.hdr p.file))) = .ok sig ∧ sig.length ≤ 512 := by
    rw [pkgSign_eq H hH S rnd _ p g hf] at hs
    simp only at hs
    split at hs
    · rename_i e he; injection hs with h1 h2; exact absurd h1 (hS2 _ _ _ he)
    · rename_i sig he
      refine ⟨sig, he, ?_⟩
      split at hs
      · injection hs with h1 h2; cases h1
      · omega
  obtain ⟨sig, hsg, hl⟩ := hsig
  obtain ⟨p2, e2, g2, sv, hc, hh, hsz, hfile⟩ := C33_sign H hH S rnd sk p g hf sig hsg hl
  rw [hs] at e2
  have e2 : p' = p2 := (Prod.mk.inj e2).2
  subst e2
  have eh : p'.hdr = signedHdr H p sig := by
    rw [pkgSign_eq H hH S rnd _ p g hf] at hs
    simp only at hs
    rw [hsg] at hs
    simp only at hs
    rw [if_neg (by omega)] at hs
    rw [← (Prod.mk.inj hs).2]; rfl
  have il := image_length g2.wf
  have hlen : p'.file.length = p.file.length := by
    rw [hfile, List.length_append, il, List.length_drop]; have := g.exact; omega
  have hdrop : p.file.drop 4096 = p'.file.drop 4096 := by
    rw [hfile, List.drop_append_of_le_length (by omega), List.drop_of_length_le (l := p'.hdr.image) (by omega), List.nil_append]
  have t : TidyParts p.hdr := g.parts.tidy (by have := g.exact; omega)
  have ver : pkgVerify H S pk p' = .ret .ok := by
    rw [C33_verify_iff H hH S pk p' g2 (by omega) ?_ hS]
    · refine ⟨?_, ?_, ?_⟩
      · rw [hsz]
        have e1 : p'.hdr.hashKind = p.hdr.hashKind := by rw [eh]; rfl
        have e3 : headerSignedBytes p'.hdr = headerSignedBytes (withPayloadHash H p.hdr p.file) := by rw [eh]; rfl
        rw [e1, e3]
        exact hkp _ _ _ _ hsg
      · have t' : TidyParts p'.hdr := g2.parts.tidy (by have := g2.exact; omega)
        have h1 := (C31_bytes_at_part_offsets p'.hdr t' p'.file).1
        have h0 := (C31_bytes_at_part_offsets p.hdr t p.file).1
        have e1 : p'.hdr.hashKind = p.hdr.hashKind := by rw [eh]; rfl
        have e5 : hashedBytes p'.file p'.hdr.parts 4096 = hashedBytes p.file p.hdr.parts 4096 := by
          rw [h1, h0]
          have eu : usedParts p'.hdr = usedParts p.hdr := by rw [eh]; rfl
          have eo : ∀ q, partOffset p'.hdr q = partOffset p.hdr q := by intro q; rw [eh]; rfl
          rw [eu]
          simp only [List.flatMap_def]
          congr 1
          apply List.map_congr_left
          intro q hq
          rw [eo]
          have hq := (List.mem_filter.1 hq).1
          obtain ⟨a, b, hab⟩ := List.append_of_mem hq
          obtain ⟨e3, _⟩ := tidy_offset p.hdr t a b q hab
          exact (fileRead_drop _ _ hdrop _ _ (by omega)).symm
        have : ((usedParts p'.hdr).filter (fun q => !q.excluded)).flatMap (storedBytes p') = hashedBytes p.file p.hdr.parts 4096 := by
          rw [← e5, h1]; rfl
        rw [this, e1, eh]
        exact List.prefix_append _ _
      · intro q hq hi
        have eu : usedParts p'.hdr = usedParts p.hdr := by rw [eh]; rfl
        have eo : ∀ q, partOffset p'.hdr q = partOffset p.hdr q := by intro q; rw [eh]; rfl
        have em : ∀ a b, getMeta p'.hdr a b = getMeta p.hdr a b := by intro a b; rw [eh]; rfl
        rw [eu] at hq
        simp only [em] at hi
        obtain ⟨root, salt, tp, ti, hv⟩ := ht q hq hi
        refine ⟨root, salt, tp, ?_, ?_⟩
        · obtain ⟨a, b, c⟩ := ti
          rw [eh]; exact ⟨a, b, c⟩
        · rw [eo, eo]
          refine verifyTree_drop H hH _ _ hdrop hlen.symm _ _ _ ?_ ?_ _ _ hv
          · exact partOffset_ge p.hdr t q
          · exact partOffset_ge p.hdr t tp
    · rw [eh]
      show (BitVec.ofNat 16 sig.length).toNat ≤ 512
      rw [BitVec.toNat_ofNat]; omega
  refine ⟨ver, fun hv => ?_⟩
  have hlen4 : 4096 ≤ p'.file.length := sv.1
  refine ⟨⟨p'.hdr, p'.file, []⟩, ?_, rfl, rfl, ver⟩
  rw [C56_open_existing H false _ hlen4, sv.2]
  congr 1
  rw [eh]; exact hv

/-- C33: a failed signing (unusable key, failing signing function, too long a signature) leaves the file as it was,
for every package. -/
theorem C33_failed_sign_leaves_file {SK PK : Type} (H : HashFn) (S : SigScheme SK PK) (rnd : Bytes) (key : Except Err SK) (p : Pkg) (e : Err) (p' : Pkg)
    (h : pkgSign H S rnd key p = (e, p')) (he : e ≠ .ok) : p'.file = p.file ∧ p'.log = p.log := by
  unfold pkgSign at h
  have hu : ∀ e q, updateHash H p = (e, q) → q.file = p.file ∧ q.log = p.log := by
    intro e q hq
    unfold updateHash at hq
    split at hq <;> (injection hq with h1 h2; subst h2; exact ⟨rfl, rfl⟩)
  split at h
  · rename_i q hq
    have := hu _ _ hq
    split at h
    · split at h
      · injection h with h1 h2; subst h2; exact this
      · split at h
        · injection h with h1 h2; subst h2; exact this
        · split at h
          · injection h with h1 h2; subst h2; exact this
          · injection h with h1 h2; exact absurd h1.symm he
    · injection h with h1 h2; subst h2; exact this
  · rename_i e1 q _ hq
    injection h with h1 h2; subst h2; exact hu _ _ hq

/-- An example scheme: the signature is the digest behind a byte for the kind. -/
def exScheme : SigScheme Unit Unit where
  sign := fun _ _ k d => .ok (k :: d)
  verify := fun _ k d s => .ok (s = k :: d)

/-- A new package with one file. -/
theorem ex_one_file (d : Bytes) (hd : d.length < 2^62) : ∃ p, GoodPkg p ∧ Saved p ∧ p.file.length = 4096 + d.length + padFor d.length ∧
    contents p = [(7, d ++ List.replicate (padFor d.length) 0)] ∧ p.hdr.metas = initHeader.metas ∧ validHeader p.hdr = .ok ∧
    (usedParts p.hdr).map (fun q => (q.id, q.flags, q.size.toNat, q.padBytes.toNat)) = [(7, 0, d.length, padFor d.length)] := by
  obtain ⟨p, e, g, sv, hc, hm, hfile, hhdr⟩ := C56_open_new exHash exHash_len
  have hup : usedParts p.hdr = [] := by rw [hhdr]; exact used_init
  have hl : p.file.length = 4096 := by rw [g.exact, hup]; rfl
  have h1 : ∀ q ∈ usedParts p.hdr, q.id ≠ 7 := by rw [hup]; intro q hq; cases hq
  have h2 : (usedParts p.hdr).length < 32 := by rw [hup]; decide
  have hv : validHeader p.hdr = .ok := by rw [hhdr]; exact (by decide +kernel : validHeader initHeader = .ok)
  obtain ⟨p2, e2, g2, sv2, hlen, hc2, hx, hh, hu⟩ := C35_add_file exHash exHash_len p g 7 (by decide) h1 h2 0 (by decide) d
    (by omega) (d.length / 4096 + 2) (Nat.le_refl _)
  obtain ⟨p3, e3, hv3⟩ := C48_header_stays_valid exHash exHash_len p g hv 7 (by decide) h1 h2 0 (by decide) d
    (by omega) (d.length / 4096 + 2) (Nat.le_refl _)
  rw [e2] at e3
  have : p2 = p3 := (Prod.mk.inj (Option.some.inj e3)).2
  subst this
  refine ⟨p2, g2, sv2, by rw [hlen, hl], by rw [hc2, hc]; rfl, by rw [hh, hhdr], hv3, by rw [hu, hup]; rfl⟩

theorem no_root_meta (h : Header) (hm : h.metas = initHeader.metas) (r : U32) : getMeta h idMerkleRootHash r = none := by
  unfold getMeta
  rw [hm]
  have e0 : initHeader.metas = List.replicate 32 MetaHdr.zero := by decide +kernel
  rw [e0]
  have : ∀ n k, getMetaIntGo idMerkleRootHash r true (List.replicate n MetaHdr.zero) k = none := by
    intro n
    induction n with
    | zero => intro k; rfl
    | succ n ih =>
      intro k
      rw [List.replicate_succ]
      unfold getMetaIntGo
      rw [if_neg (by decide), ih]
  exact this _ _

theorem ex_keypair : KeyPair exScheme () () := by
  intro rnd k d sig h
  have : k :: d = sig := Except.ok.inj h
  subst this
  show Except.ok _ = _
  simp

/-- The hypotheses of C33 can be met: a new package with a file of any content added. -/
example (d : Bytes) (hd : d.length < 2^62) : ∃ p : Pkg, KeyPair exScheme () () ∧ GoodPkg p ∧ p.file.length < 2^63 ∧ TreesOk exHash p ∧
    (∃ p', pkgSign exHash exScheme [] (.ok ()) p = (.ok, p')) ∧ contents p = [(7, d ++ List.replicate (padFor d.length) 0)] := by
  obtain ⟨p2, g2, sv2, hl, hc, hm, _, _⟩ := ex_one_file d hd
  have hlen2 : p2.file.length < 2^63 := by have := padFor_lt d.length; omega
  have hk : ∃ sig : Bytes, exScheme.sign () [] p2.hdr.hashKind (exHash p2.hdr.hashKind (headerSignedBytes (withPayloadHash exHash p2.hdr p2.file))) = .ok sig ∧ sig.length ≤ 512 := by
    refine ⟨_, rfl, ?_⟩
    obtain ⟨n, hn⟩ := g2.kind
    have := digestLen_le hn
    rw [List.length_cons, exHash_len _ n hn]; omega
  obtain ⟨sig, hsig, hsl⟩ := hk
  obtain ⟨p3, e3, _⟩ := C33_sign exHash exHash_len exScheme [] () p2 g2 hlen2 sig hsig hsl
  refine ⟨p2, ex_keypair, g2, hlen2, ?_, ⟨p3, e3⟩, hc⟩
  intro q hq ⟨i, hi⟩
  rw [no_root_meta _ hm] at hi; cases hi

/-! ### C34 tampering -/

/-- C34: whatever `bpak_pkg_verify` accepts was signed. `signed` are the packages the key's owner signed; the
hypothesis `unforgeable` says that the verification key accepts nothing but the header digests of those. Then an
accepted package (any header, any file) has the header of a signed one (up to the signature fields), and
the same bytes in every hashed part and in every part with a hash tree - or two different inputs have the same
digest. -/
theorem C34_accepted_was_signed {SK PK : Type} (H : HashFn) (hH : HashLen H) (S : SigScheme SK PK) (pk : PK) (signed : List Pkg)
    (unforgeable : ∀ k d s, S.verify pk k d s = .ok true → ∃ p0 ∈ signed, k = p0.hdr.hashKind ∧ d = H k (headerSignedBytes p0.hdr))
    (hS : ∀ k d s, S.verify pk k d s ≠ .error .ok)
    (hgood : ∀ p0 ∈ signed, GoodPkg p0 ∧ p0.file.length < 2^63 ∧ pkgVerify H S pk p0 = .ret .ok)
    (p : Pkg) (w : p.hdr.WF) (hf : p.file.length < 2^63) (hv : pkgVerify H S pk p = .ret .ok) :
    (∃ p0 ∈ signed, p.hdr = { p0.hdr with signature := p.hdr.signature, signatureSz := p.hdr.signatureSz } ∧
      (∀ q ∈ usedParts p.hdr, q.excluded = false → storedBytes p q = storedBytes p0 q) ∧
      (∀ q ∈ usedParts p.hdr, (∃ i, getMeta p.hdr idMerkleRootHash q.id = some i) → storedBytes p q = storedBytes p0 q)) ∨
    ∃ (k : U8) (x y : Bytes), x ≠ y ∧ H k x = H k y := by
  by_cases hcol : ∃ (k : U8) (x y : Bytes), x ≠ y ∧ H k x = H k y
  · exact .inr hcol
  left
  have inj : ∀ (k : U8) (x y : Bytes), H k x = H k y → x = y := by
    intro k x y h
    by_cases e : x = y
    · exact e
    · exact absurd ⟨k, x, y, e, h⟩ hcol
  unfold pkgVerify at hv
  cases hk : digestLen p.hdr.hashKind with
  | none => rw [C17_unsupported_kind H p.hdr 64 hk] at hv; cases hv
  | some n =>
    rw [C17_header_hash_is_digest_of_signed_bytes H p.hdr w n 64 hk (digestLen_le hk)] at hv
    simp only at hv
    split at hv
    · cases hv
    · split at hv
      · rename_i e he
        exact absurd (by rw [he, Out.ret.inj hv]) (hS _ _ _)
      · cases hv
      · rename_i hacc
        obtain ⟨p0, hp0, ek, ed⟩ := unforgeable _ _ _ hacc
        obtain ⟨g0, hf0, hv0⟩ := hgood p0 hp0
        have hh := (C17_signed_bytes_exact p0.hdr p.hdr g0.wf w).1 (inj _ _ _ ed.symm)
        have t0 : TidyParts p0.hdr := g0.parts.tidy (by have := g0.exact; omega)
        have t : TidyParts p.hdr := by rw [hh]; exact ⟨t0.compact, t0.distinct, t0.fits⟩
        have vp := (verifyPayload_pkg H p.hdr t p.file hf).1 hv
        -- the signed package's payload passes under the same header
        have vp0 : verifyPayload H p.hdr (payloadReader p0.file) 4096 = .ret .ok := by
          have : verifyPayload H p0.hdr (payloadReader p0.file) 4096 = .ret .ok := by
            unfold pkgVerify at hv0
            obtain ⟨n0, hk0⟩ := g0.kind
            rw [C17_header_hash_is_digest_of_signed_bytes H p0.hdr g0.wf n0 64 hk0 (digestLen_le hk0)] at hv0
            simp only at hv0
            split at hv0
            · cases hv0
            · split at hv0
              · rename_i e he
                exact absurd (by rw [he, Out.ret.inj hv0]) (hS _ _ _)
              · cases hv0
              · exact (verifyPayload_pkg H p0.hdr t0 p0.file hf0).1 hv0
          rw [C32_accepts_iff H _ _ hf0] at this ⊢
          obtain ⟨a1, a2, a3, a4⟩ := this
          rw [hh]
          refine ⟨a1, a2, a3, fun q hq h0 hi => ?_⟩
          obtain ⟨root, salt, tp, ⟨b1, b2, b3⟩, c⟩ := a4 q hq h0 hi
          exact ⟨root, salt, tp, ⟨b1, b2, b3⟩, c⟩
        have eo : ∀ q, storedBytes p0 q = fileRead p0.file (partOffset p.hdr q).toNat (storedSize q) := by
          intro q; rw [hh]; rfl
        refine ⟨p0, hp0, hh, ?_, ?_⟩
        · intro q hq hx
          rcases C32_hashed_change_detected H hH p.hdr t p.file p0.file hf hf0 vp vp0 with h | ⟨x, y, hne, e⟩
          · rw [eo]; exact h q hq hx
          · exact absurd (inj _ _ _ e) hne
        · rintro q hq ⟨i, hi⟩
          have hm : q ∈ p.hdr.parts := by rw [used_append p.hdr]; exact List.mem_append_left _ hq
          rcases C32_tree_part_change_detected H hH p.hdr p.file p0.file hf hf0 vp vp0 q hm (used_ids _ q hq) i hi with h | ⟨salt, x, y, hne, e⟩
          · obtain ⟨a, b, hab⟩ := List.append_of_mem hq
            rw [(tidy_offset p.hdr t a b q hab).2] at h
            rw [eo]; exact h
          · exact absurd (List.append_cancel_left (inj _ _ _ e)) hne

/-- A scheme that accepts just one digest, so that nothing can be forged. -/
def exUnforgeable (k0 : U8) (d0 : Bytes) : SigScheme Unit Unit where
  sign := fun _ _ k d => if k = k0 ∧ d = d0 then .ok [1] else .error .signFail
  verify := fun _ k d _ => .ok (k = k0 ∧ d = d0)

/-- The hypotheses of C34 can be met, with a signed package of one part of any content. -/
example (d : Bytes) (hd : d.length < 2^62) : ∃ (k0 : U8) (d0 : Bytes) (p0 : Pkg),
    (∀ k d s, (exUnforgeable k0 d0).verify () k d s = .ok true → ∃ p ∈ [p0], k = p.hdr.hashKind ∧ d = exHash k (headerSignedBytes p.hdr)) ∧
    GoodPkg p0 ∧ pkgVerify exHash (exUnforgeable k0 d0) () p0 = .ret .ok ∧ contents p0 = [(7, d ++ List.replicate (padFor d.length) 0)] := by
  obtain ⟨p, g, sv, hl, hc, hm, hv, _⟩ := ex_one_file d hd
  have hlen : p.file.length < 2^63 := by have := padFor_lt d.length; omega
  refine ⟨p.hdr.hashKind, exHash p.hdr.hashKind (headerSignedBytes (withPayloadHash exHash p.hdr p.file)), ?_⟩
  generalize hS : exUnforgeable p.hdr.hashKind (exHash p.hdr.hashKind (headerSignedBytes (withPayloadHash exHash p.hdr p.file))) = S
  have hsig : S.sign () [] p.hdr.hashKind (exHash p.hdr.hashKind (headerSignedBytes (withPayloadHash exHash p.hdr p.file))) = .ok [1] := by
    rw [← hS]; exact if_pos ⟨rfl, rfl⟩
  have hver : ∀ k d s, S.verify () k d s = .ok (decide (k = p.hdr.hashKind ∧ d = exHash p.hdr.hashKind (headerSignedBytes (withPayloadHash exHash p.hdr p.file)))) := by
    intro k d s; rw [← hS]; rfl
  have hkp : KeyPair S () () := by
    intro rnd k d sig h
    rw [hver]
    rw [← hS] at h
    simp only [exUnforgeable] at h
    split at h
    · rename_i e; rw [decide_eq_true e]
    · cases h
  have hne : ∀ k d e, S.sign () [] k d = .error e → e ≠ .ok := by
    intro k d e h
    rw [← hS] at h
    simp only [exUnforgeable] at h
    split at h
    · cases h
    · cases h; decide
  obtain ⟨p', e, g', sv', hc', hh, _⟩ := C33_sign exHash exHash_len S [] () p g hlen [1] hsig (by simp)
  have ht : TreesOk exHash p := by intro q hq ⟨i, hi⟩; rw [no_root_meta _ hm] at hi; cases hi
  have v := (C33_sign_then_verify exHash exHash_len S [] () () hkp (by intro k d s h; rw [hver] at h; cases h) hne p p' g hlen ht e).1
  have eh : headerSignedBytes p'.hdr = headerSignedBytes (withPayloadHash exHash p.hdr p.file) ∧ p'.hdr.hashKind = p.hdr.hashKind := by
    rw [pkgSign_eq exHash exHash_len S [] _ p g hlen] at e
    simp only at e
    rw [hsig] at e
    simp only at e
    rw [if_neg (by simp)] at e
    rw [← (Prod.mk.inj e).2]; exact ⟨rfl, rfl⟩
  refine ⟨p', ?_, g', v, hc'.trans hc⟩
  intro k d s h
  rw [hver] at h
  have := of_decide_eq_true (Except.ok.inj h)
  refine ⟨p', List.mem_singleton.2 rfl, ?_, ?_⟩
  · rw [eh.2]; exact this.1
  · rw [eh.1, this.2, this.1]

/-! ### C49, C60 signatures and the signature array -/

/-- C49: a raw signature of up to 512 bytes: header and file get exactly those bytes (zero-filled) and their
number; nothing else changes. -/
theorem C49_raw_signature (p : Pkg) (w : p.hdr.WF) (hf : 4096 ≤ p.file.length) (sig : Bytes) (hl : sig.length ≤ 512) :
    ∃ p', writeRawSignature p sig = .ret (.ok, p') ∧ Saved p' ∧
      p'.hdr = { p.hdr with signature := sig ++ List.replicate (512 - sig.length) 0, signatureSz := BitVec.ofNat 16 sig.length } ∧
      p'.hdr.signatureSz.toNat = sig.length ∧
      p'.file = p'.hdr.image ++ p.file.drop 4096 ∧
      (0 < sig.length → ∃ h2, copyzSignature p'.hdr 512 = (.ok, h2, sig)) := by
  unfold writeRawSignature
  rw [if_neg (by omega)]
  have wf := withSig_wf w sig hl (BitVec.ofNat 16 sig.length)
  have ew := writeHeader_eq { p with hdr := { p.hdr with signature := sig ++ List.replicate (512 - sig.length) 0, signatureSz := BitVec.ofNat 16 sig.length } } wf
  rw [ew]
  have hz : (BitVec.ofNat 16 sig.length).toNat = sig.length := by rw [BitVec.toNat_ofNat]; omega
  refine ⟨_, rfl, parse_saved _ wf _ _, rfl, hz, rfl, fun h0 => ?_⟩
  unfold copyzSignature
  simp only [hz]
  rw [if_neg (by show ¬ _ > 512; omega), if_neg (by omega), if_neg (by omega), List.take_left]
  exact ⟨_, rfl⟩

/-- C49, the flaw: there is no check of the length; every longer signature is written beyond the array. -/
theorem C49_bound_is_false (p : Pkg) (sig : Bytes) (hl : 512 < sig.length) : writeRawSignature p sig = .ub := by
  unfold writeRawSignature; rw [if_pos hl]

/-- C60, the flaw: a header that passes all of `bpak_valid_header`, in a file that opens, can make verification
hand a range beyond the signature array to the signature function: every header with a supported hash kind
and a signature size above 512. -/
theorem C60_verify_in_bounds_is_false {SK PK : Type} (H : HashFn) (S : SigScheme SK PK) (pk : PK) (p : Pkg) (w : p.hdr.WF) (n : Nat)
    (hk : digestLen p.hdr.hashKind = some n) (hsz : 512 < p.hdr.signatureSz.toNat) : pkgVerify H S pk p = .ub := by
  unfold pkgVerify
  rw [C17_header_hash_is_digest_of_signed_bytes H p.hdr w n 64 hk (digestLen_le hk)]
  simp only
  rw [if_pos hsz]

example : ∃ p : Pkg, Saved p ∧ validHeader p.hdr = .ok ∧ p.hdr.WF ∧ digestLen p.hdr.hashKind = some 32 ∧ 512 < p.hdr.signatureSz.toNat := by
  have wf : ({ initHeader with signatureSz := 513 } : Header).WF := by decide +kernel
  refine ⟨⟨{ initHeader with signatureSz := 513 }, ({ initHeader with signatureSz := 513 } : Header).image ++ [], []⟩, parse_saved _ wf _ _, by decide +kernel, wf, by decide +kernel, by decide⟩

theorem pkgVerify_safe {SK PK : Type} (H : HashFn) (S : SigScheme SK PK) (pk : PK) (p : Pkg) (hr : Inv p.hdr)
    (hs : ∀ m ∈ usedMetas p.hdr, m.id = idMerkleSalt ∨ m.id = idMerkleRootHash → 32 ≤ m.size.toNat)
    (hsz : p.hdr.signatureSz.toNat ≤ 512) : pkgVerify H S pk p ≠ .ub := by
  unfold pkgVerify
  split
  · rw [if_neg (by omega)]
    split
    · intro h; cases h
    · intro h; cases h
    · exact verifyPayload_safe H p.hdr hr _ _ hs
  · intro h; cases h

/-- C60, what holds: with a signature size of at most 512 verification stays inside its memory, provided the
root-hash and salt entries are at least 32 bytes long (C54). Missing: larger sizes, where it is false. -/
theorem C60_verify_in_bounds_partial {SK PK : Type} (H : HashFn) (S : SigScheme SK PK) (pk : PK) (p : Pkg) (hr : Reachable p.hdr)
    (hs : ∀ m ∈ usedMetas p.hdr, m.id = idMerkleSalt ∨ m.id = idMerkleRootHash → 32 ≤ m.size.toNat)
    (hsz : p.hdr.signatureSz.toNat ≤ 512) : pkgVerify H S pk p ≠ .ub :=
  pkgVerify_safe H S pk p hr.inv hs hsz

/-! ### C37 sizes -/

/-- C37: `bpak_pkg_installed_size`, for every header: the sum over all 32 slots of size and padding, modulo 2^64. -/
theorem C37_installed_size (h : Header) : (installedSize h).toNat = (h.parts.map (fun p => p.size.toNat + p.padBytes.toNat)).sum % 2^64 := by
  unfold installedSize
  have : ∀ (ps : List PartHdr) (s : U64), (ps.foldl (fun s p => s + (p.size + p.padBytes.setWidth 64)) s).toNat =
      (s.toNat + (ps.map (fun p => p.size.toNat + p.padBytes.toNat)).sum) % 2^64 := by
    intro ps
    induction ps with
    | nil => intro s; simp; omega
    | cons p ps ih =>
      intro s
      rw [List.foldl_cons, ih, List.map_cons, List.sum_cons]
      simp only [BitVec.toNat_add, BitVec.toNat_setWidth]
      have := p.padBytes.isLt
      omega
  rw [this]; simp

/-- C37: `bpak_pkg_size`, for every header: the header and, over all slots, the transport size of
transport-encoded parts and the size (without padding) of the others, modulo 2^64. -/
theorem C37_pkg_size (h : Header) : (pkgSize h).toNat =
    (4096 + (h.parts.map (fun p => if p.flags &&& 2 ≠ 0 then p.transportSize.toNat else p.size.toNat)).sum) % 2^64 := by
  unfold pkgSize
  have : ∀ (ps : List PartHdr) (s : U64), (ps.foldl (fun s p => s + (if p.isTransport then p.transportSize else p.size)) s).toNat =
      (s.toNat + (ps.map (fun p => if p.flags &&& 2 ≠ 0 then p.transportSize.toNat else p.size.toNat)).sum) % 2^64 := by
    intro ps
    induction ps with
    | nil => intro s; simp; omega
    | cons p ps ih =>
      intro s
      rw [List.foldl_cons, ih, List.map_cons, List.sum_cons]
      by_cases ht : p.flags &&& 2 ≠ 0
      · rw [if_pos ht, if_pos ((isTransport_iff p).2 ht), BitVec.toNat_add]; omega
      · rw [if_neg ht, if_neg (fun x => ht ((isTransport_iff p).1 x)), BitVec.toNat_add]; omega
  rw [BitVec.toNat_add, this]; simp; omega

/-- C37, against the documentation ("the package size"): for a package as the API leaves it, the file is larger
than `bpak_pkg_size` by the padding of its parts, and larger than `bpak_pkg_installed_size` by the header. -/
theorem C37_sizes_vs_file (p : Pkg) (g : GoodPkg p) (hf : p.file.length < 2^63) :
    p.file.length = (pkgSize p.hdr).toNat + ((usedParts p.hdr).map (fun q => q.padBytes.toNat)).sum ∧
    p.file.length = (installedSize p.hdr).toNat + 4096 := by
  have hx := g.exact
  have hs : ∀ q ∈ usedParts p.hdr, storedSize q = q.size.toNat + q.padBytes.toNat := by
    intro q hq; unfold storedSize; rw [if_neg (by simpa using g.plain q hq)]
  rw [List.map_congr_left hs] at hx
  have hz : ∀ (f : PartHdr → Nat), f PartHdr.zero = 0 → (p.hdr.parts.map f).sum = ((usedParts p.hdr).map f).sum := by
    intro f h0
    conv => lhs; rw [g.parts.slots]
    rw [List.map_append, List.sum_append, List.map_replicate, h0]
    have : ∀ n, (List.replicate n 0).sum = 0 := by
      intro n; induction n with
      | zero => rfl
      | succ n ih => rw [List.replicate_succ, List.sum_cons, ih]
    rw [this]; rfl
  constructor
  · rw [C37_pkg_size, hz _ (by decide)]
    have e : ∀ ps : List PartHdr, (∀ q ∈ ps, q.flags &&& 2 = 0) → (ps.map (fun q => q.size.toNat + q.padBytes.toNat)).sum =
        (ps.map (fun p => if p.flags &&& 2 ≠ 0 then p.transportSize.toNat else p.size.toNat)).sum + (ps.map (fun q => q.padBytes.toNat)).sum := by
      intro ps
      induction ps with
      | nil => intro _; rfl
      | cons q ps ih =>
        intro h
        simp only [List.map_cons, List.sum_cons]
        rw [ih (fun x hx => h x (List.mem_cons_of_mem _ hx)), if_neg (by simpa using h q List.mem_cons_self)]; omega
    have e := e _ g.plain
    rw [e] at hx
    rw [Nat.mod_eq_of_lt (by omega)]; omega
  · rw [C37_installed_size, hz _ (by decide), Nat.mod_eq_of_lt (by omega)]; omega

/-- C37, the flaw: `bpak_pkg_size` is not the size of the package file. -/
theorem C37_size_is_file_size_is_false : ∃ p : Pkg, GoodPkg p ∧ Saved p ∧ validHeader p.hdr = .ok ∧
    p.file.length < 2^63 ∧ p.file.length = 4608 ∧ (pkgSize p.hdr).toNat = 4097 := by
  obtain ⟨p, g, sv, hl, hc, hm, hv, hu⟩ := ex_one_file [1] (by simp)
  have hl : p.file.length = 4608 := by rw [hl]; rfl
  refine ⟨p, g, sv, hv, by omega, hl, ?_⟩
  have h := (C37_sizes_vs_file p g (by omega)).1
  have e : (usedParts p.hdr).map (fun q => q.padBytes.toNat) = [511] := by
    have := congrArg (List.map (fun x : U32 × U8 × Nat × Nat => x.2.2.2)) hu
    rw [List.map_map] at this
    exact this
  rw [e, hl] at h
  simp at h; omega

end Bpak
