import Verif.Proof.MerkleIo
import Verif.Props.Merkle
import Verif.Props.Verify
/-! Hash trees built on storage that may fail (C122), payloads checked through a reader that may fail (C123). -/
namespace Bpak

theorem merkleBuild_eq (H : HashFn) (f : Bytes) (off : Nat) (salt : Bytes) (n : Nat) (chunks : List Bytes) :
    merkleBuild H f off salt n chunks = buildOn H fileIo f off salt n chunks := by
  unfold merkleBuild buildOn
  cases merkleInit fileIo f n salt off true with
  | error e => rfl
  | ok r =>
    obtain ⟨m, f1⟩ := r
    dsimp only
    cases merkleWriteAll H fileIo m f1 chunks with
    | error e => rfl
    | ok r => rfl

/-! ### C122 -/

/-- C122: success means the tree is there: for every store behind callbacks that may fail at any call and may read short, if
building reports a root, it is the root of the tree over the data, and the store holds what a file would hold with that tree
written at the place and nothing else changed. -/
theorem C122_success_means_tree {σ : Type} (H : HashFn) (hH : HashLen H) (io : MIo σ) (view : σ → Bytes) (hf : Faithful io view) (s : σ) (off : Nat)
    (salt data : Bytes) (chunks : List Bytes) (hc : chunks.flatten = data) (hsalt : salt.length ≤ 32) (hs : TreeSupported data.length)
    (root : Bytes) (s' : σ) (h : buildOn H io s off salt data.length chunks = .ok (root, s')) :
    root = treeRoot H salt data ∧ view s' = fileWrite (view s) off (hashTree H salt data) := by
  rcases mio_build H (faithful_refines hf) s (view s) rfl off salt data.length chunks with ⟨e, h1, _⟩ | ⟨e, h1, _⟩ | ⟨⟨r, s1⟩, ⟨r', f⟩, h1, h2, rfl, hR⟩
  · rw [h1] at h
    cases h
  · rw [h1] at h
    cases h
  · rw [h1] at h
    cases h
    have h3 := C29_builds_the_hash_tree H hH (view s) off salt data chunks hc hsalt hs
    have h4 : merkleBuild H (view s) off salt data.length chunks = .ok (root, f) := (merkleBuild_eq ..).trans h2
    rw [h4] at h3
    injection h3 with h3
    obtain ⟨rfl, rfl⟩ := Prod.mk.inj h3
    exact ⟨rfl, hR⟩

/-- C122: an error is one that a callback answered, or the one for a read that was short: the code is passed on as it is. -/
theorem C122_error_is_the_callbacks {σ : Type} (H : HashFn) (hH : HashLen H) (io : MIo σ) (view : σ → Bytes) (hf : Faithful io view) (s : σ) (off : Nat)
    (salt data : Bytes) (chunks : List Bytes) (hc : chunks.flatten = data) (hsalt : salt.length ≤ 32) (hs : TreeSupported data.length)
    (e : Err) (h : buildOn H io s off salt data.length chunks = .error e) : FromCallback io e := by
  rcases mio_build H (faithful_refines hf) s (view s) rfl off salt data.length chunks with ⟨e', h1, hb⟩ | ⟨e', h1, h2⟩ | ⟨a, b, h1, _⟩
  · rw [h1] at h
    cases h
    exact hb
  · have h3 := C29_builds_the_hash_tree H hH (view s) off salt data chunks hc hsalt hs
    have h4 : merkleBuild H (view s) off salt data.length chunks = .error e' := (merkleBuild_eq ..).trans h2
    rw [h4] at h3
    cases h3
  · rw [h1] at h
    cases h

/-- C122: callbacks that never fail and never read short build the tree. -/
theorem C122_no_failure_builds {σ : Type} (H : HashFn) (hH : HashLen H) (io : MIo σ) (view : σ → Bytes) (hf : Faithful io view)
    (hgood : ∀ e, ¬ FromCallback io e) (s : σ) (off : Nat)
    (salt data : Bytes) (chunks : List Bytes) (hc : chunks.flatten = data) (hsalt : salt.length ≤ 32) (hs : TreeSupported data.length) :
    ∃ s', buildOn H io s off salt data.length chunks = .ok (treeRoot H salt data, s') ∧ view s' = fileWrite (view s) off (hashTree H salt data) := by
  cases h : buildOn H io s off salt data.length chunks with
  | error e => exact absurd (C122_error_is_the_callbacks H hH io view hf s off salt data chunks hc hsalt hs e h) (hgood e)
  | ok r =>
    obtain ⟨h1, h2⟩ := C122_success_means_tree H hH io view hf s off salt data chunks hc hsalt hs r.1 r.2 h
    exact ⟨r.2, by rw [← h1], h2⟩

/-- C122: for every declared length (also one that does not fit the data, or is not supported): what building on the store gives is
what building in a file gives, or an error of the callbacks. -/
theorem C122_any_length {σ : Type} (H : HashFn) (io : MIo σ) (view : σ → Bytes) (hf : Faithful io view) (s : σ) (off : Nat)
    (salt : Bytes) (n : Nat) (chunks : List Bytes) :
    (∃ e, buildOn H io s off salt n chunks = .error e ∧ FromCallback io e) ∨
    (∃ e, buildOn H io s off salt n chunks = .error e ∧ merkleBuild H (view s) off salt n chunks = .error e) ∨
    (∃ root s', buildOn H io s off salt n chunks = .ok (root, s') ∧ merkleBuild H (view s) off salt n chunks = .ok (root, view s')) := by
  rcases mio_build H (faithful_refines hf) s (view s) rfl off salt n chunks with ⟨e, h1, hb⟩ | ⟨e, h1, h2⟩ | ⟨⟨r, s1⟩, ⟨r', f⟩, h1, h2, rfl, hR⟩
  · exact Or.inl ⟨e, h1, hb⟩
  · exact Or.inr (Or.inl ⟨e, h1, (merkleBuild_eq ..).trans h2⟩)
  · exact Or.inr (Or.inr ⟨r, s1, h1, by rw [show view s1 = f from hR]; exact (merkleBuild_eq ..).trans h2⟩)

/-- A file on a device with room up to byte `cap`, and a list of calls still to come that will fail. -/
def exDevice (cap : Nat) : MIo (Bytes × List Bool) where
  wr := fun s off b => if s.2.headD true = false then .error .writeError else if off + b.length > cap then .error .noSpaceLeft
    else .ok (fileWrite s.1 off b, s.2.drop 1)
  rd := fun s off n => .ok (fileRead s.1 off n)

theorem exDevice_faithful (cap : Nat) : Faithful (exDevice cap) Prod.fst := by
  constructor
  · intro s off b s' h
    unfold exDevice at h
    dsimp only at h
    split at h
    · cases h
    · split at h
      · cases h
      · cases h
        rfl
  · intro s off n x h _
    cases h
    rfl

/-- A device without bad luck on which there is room for a tree of one level over three blocks: the tree is built. -/
example (H : HashFn) (hH : HashLen H) (data : Bytes) (hd : data.length = 4096 * 3) (root : Bytes) (s' : Bytes × List Bool)
    (h : buildOn H (exDevice 8192) ([], []) 4096 [1, 2] (4096 * 3) [data.take 100, data.drop 100] = .ok (root, s')) :
    root = treeRoot H [1, 2] data ∧ s'.1 = fileWrite [] 4096 (hashTree H [1, 2] data) :=
  C122_success_means_tree H hH (exDevice 8192) Prod.fst (exDevice_faithful _) _ 4096 [1, 2] data _
    (by rw [List.flatten_cons, List.flatten_cons, List.flatten_nil, List.append_nil, List.take_append_drop 100 data]) (by decide) (by rw [hd]; exact ⟨by decide, by decide, by decide⟩) root s' (by rw [hd]; exact h)

/-- The second write fails. -/
example (H : HashFn) (chunks : List Bytes) : buildOn H (exDevice 8192) ([], [true, false]) 0 [] 4096 chunks = .error .writeError := by
  have h1 : merkleLevelsGo 4 0 4096 [] = .ok [4096] := rfl
  have h2 : (exDevice 8192).wr ([], [true, false]) 0 (List.replicate 32 0) = .ok (List.replicate 32 0, [false]) := rfl
  have h3 : (exDevice 8192).wr (List.replicate 32 0, [false]) 32 (List.replicate 32 0) = .error .writeError := rfl
  have h4 : merkleZeroFill (exDevice 8192) ([], [true, false]) 0 4096 = .error .writeError := by
    rw [merkleZeroFill, dif_neg (by decide), h2]
    show merkleZeroFill (exDevice 8192) (List.replicate 32 0, [false]) 32 4064 = _
    rw [merkleZeroFill, dif_neg (by decide), h3]
  have h5 : merkleInit (exDevice 8192) ([], [true, false]) 4096 [] 0 true = .error .writeError := by
    unfold merkleInit
    rw [if_neg (by decide), if_neg (by decide), h1]
    dsimp only
    rw [if_pos rfl, show [4096].sum = 4096 from rfl, h4]
  unfold buildOn
  rw [h5]

/-! ### C123 -/

/-- C123: the digest of the payload: with a reader that may fail and read short, what is computed is the result for the bytes that are
there, or the failure of the reader, and then no digest is written. -/
theorem C123_hash_of_what_is_there (H : HashFn) (rd : Reader) (P : Bytes) (hr : TrueReader rd P) (h : Header) (off : U64) (bufLen : Nat) :
    computePayloadHash H h rd off bufLen = computePayloadHash H h (payloadReader P) off bufLen ∨
    ∃ e, computePayloadHash H h rd off bufLen = (e, none) ∧ FromReader rd e :=
  mio_payloadHash H hr h off bufLen

/-- C123: the same for a hash tree check. -/
theorem C123_tree_verdict (H : HashFn) (rd : Reader) (P : Bytes) (hr : TrueReader rd P) (dOff n tOff : Nat) (root salt : Bytes) :
    verifyMerkleTree H rd dOff n tOff root salt = verifyMerkleTree H (payloadReader P) dOff n tOff root salt ∨
    FromReader rd (verifyMerkleTree H rd dOff n tOff root salt) :=
  mio_verifyTree H hr dOff n tOff root salt

/-- C123: the verdict on a payload is the one the bytes deserve, or the failure of the reader. -/
theorem C123_verdict_or_failure (H : HashFn) (rd : Reader) (P : Bytes) (hr : TrueReader rd P) (hz : ∀ off n, rd off n ≠ .error .ok)
    (h : Header) (off : U64) :
    verifyPayload H h rd off = verifyPayload H h (payloadReader P) off ∨
    ∃ e, verifyPayload H h rd off = .ret e ∧ FromReader rd e := by
  refine mio_payload H hr ?_ h off
  rintro (⟨a, b, h1⟩ | ⟨h1, _⟩)
  · exact hz a b h1
  · cases h1

/-- C123: so failures never lead to acceptance: what is accepted fulfils all of C32. -/
theorem C123_accept_means (H : HashFn) (rd : Reader) (P : Bytes) (hP : P.length < 2^63) (hr : TrueReader rd P) (hz : ∀ off n, rd off n ≠ .error .ok)
    (h : Header) (off : U64) (ha : verifyPayload H h rd off = .ret .ok) :
    (∃ n, digestLen h.hashKind = some n) ∧ HashedReadable P h.parts off ∧
    H h.hashKind (hashedBytes P h.parts off) <+: h.payloadHash ∧
    ∀ p ∈ h.parts, p.id ≠ 0 → (∃ i, getMeta h idMerkleRootHash p.id = some i) →
      ∃ root salt tp, TreeInfo h p root salt tp ∧
        verifyMerkleTree H (payloadReader P) (partOffset h p - 4096 + off).toNat (partSize p).toNat (partOffset h tp - 4096 + off).toNat root salt = .ok := by
  refine (C32_accepts_iff H h P hP off).1 ?_
  rcases C123_verdict_or_failure H rd P hr hz h off with h1 | ⟨e, h1, hb⟩
  · rw [← h1]
    exact ha
  · rw [ha] at h1
    cases h1
    rcases hb with ⟨a, b, h1⟩ | ⟨h1, _⟩
    · exact absurd h1 (hz a b)
    · cases h1

/-- C123: and a wrong payload is refused, whatever the reader does. -/
theorem C123_wrong_is_refused (H : HashFn) (rd : Reader) (P : Bytes) (hr : TrueReader rd P) (hz : ∀ off n, rd off n ≠ .error .ok)
    (h : Header) (off : U64) (hw : verifyPayload H h (payloadReader P) off ≠ .ret .ok) : verifyPayload H h rd off ≠ .ret .ok := by
  rcases C123_verdict_or_failure H rd P hr hz h off with h1 | ⟨e, h1, hb⟩
  · rw [h1]
    exact hw
  · rw [h1]
    intro h2
    cases h2
    rcases hb with ⟨a, b, h1⟩ | ⟨h1, _⟩
    · exact hz a b h1
    · cases h1

/-- A reader on a device with a bad spot: reads that touch byte `bad` fail. -/
def exBadSpot (P : Bytes) (bad : Nat) : Reader := fun off n => if off ≤ bad ∧ bad < off + n then .error .seekError else .ok (fileRead P off n)

theorem exBadSpot_true (P : Bytes) (bad : Nat) : TrueReader (exBadSpot P bad) P ∧ ∀ off n, exBadSpot P bad off n ≠ .error .ok := by
  unfold exBadSpot
  constructor
  · intro off n x h _
    dsimp only at h
    split at h
    · cases h
    · cases h
      rfl
  · intro off n h
    split at h <;> cases h

/-- A payload of two hashed parts and one that is not hashed: a bad spot in the latter does not matter, one in a hashed part is an error. -/
example : computePayloadHash (fun _ b => b) exPayloadHdr
      (exBadSpot (List.replicate 4096 0 ++ List.replicate 512 1 ++ List.replicate 512 2 ++ [3, 4, 5, 6, 7]) 4700) 4096 64 =
    (.ok, some (List.replicate 512 1 ++ [3, 4, 5, 6, 7])) ∧
  computePayloadHash (fun _ b => b) exPayloadHdr
      (exBadSpot (List.replicate 4096 0 ++ List.replicate 512 1 ++ List.replicate 512 2 ++ [3, 4, 5, 6, 7]) 4100) 4096 64 =
    (.readError, none) := by
  decide +kernel

/-- One hashed part of five bytes. A bad spot outside it does not matter; one inside it is an error, not another digest. -/
def exSmallHdr : Header := { initHeader with parts := [{ id := 9, size := 5 }] }

example : computePayloadHash (fun _ b => b) exSmallHdr (exBadSpot [9, 3, 4, 5, 6, 7] 0) 1 64 = (.ok, some [3, 4, 5, 6, 7]) ∧
    computePayloadHash (fun _ b => b) exSmallHdr (exBadSpot [9, 3, 4, 5, 6, 7] 3) 1 64 = (.readError, none) := by
  decide +kernel

end Bpak
