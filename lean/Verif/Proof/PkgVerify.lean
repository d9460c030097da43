import Verif.Proof.PkgAdd
/-! Verification through the package file's reader. -/
namespace Bpak

/-- Whatever full non-empty read `r1` gives, `r2` gives as well. -/
def RdLe (r1 r2 : Reader) : Prop := ∀ off n x, 0 < n → x.length = n → r1 off n = .ok x → r2 off n = .ok x

theorem merkleVerifyWr_mono {r1 r2 : Reader} (hr : RdLe r1 r2) (n : Nat) : ∀ (off : Nat) (b : Bytes), b.length = n →
    merkleVerifyWr r1 off b = .ok () → merkleVerifyWr r2 off b = .ok () := by
  induction n using Nat.strongRecOn with
  | ind n ih =>
    intro off b hb h
    rw [merkleVerifyWr] at h ⊢
    split at h
    · rename_i e; rw [dif_pos e]
    · rename_i e
      rw [dif_neg e]
      have hp := List.length_pos_iff.2 e
      split at h
      · cases h
      · rename_i x hx
        split at h
        · cases h
        · rename_i hl
          have hl := Classical.not_not.1 hl
          rw [hr off _ x (by simp; omega) hl hx]
          simp only
          rw [if_neg (by simpa using hl)]
          split at h
          · cases h
          · rename_i h3
            rw [if_neg h3]
            exact ih (b.drop 32).length (by simp; omega) _ _ rfl h

theorem merkleWriteGo_mono (H : HashFn) {r1 r2 : Reader} (hr : RdLe r1 r2) (k : Nat) : ∀ (m : Merkle) (d : Bytes) (x : Merkle × Unit),
    merkleWriteGo H (verifyIo r1) k m () d = .ok x → merkleWriteGo H (verifyIo r2) k m () d = .ok x := by
  induction k with
  | zero => intro m d x h; exact h
  | succ k ih =>
    intro m d x h
    unfold merkleWriteGo at h ⊢
    split at h
    · rename_i e; rw [if_pos e]; exact h
    · rename_i e
      rw [if_neg e]
      simp only at h ⊢
      generalize (if m.blockCounter = 4096 then { m with running := hashUpdate ⟨hashSha256, []⟩ m.salt } else m) = m1 at h ⊢
      split at h
      · rename_i e2
        rw [if_pos e2]
        split at h
        · cases h
        · rename_i s hs
          have := merkleVerifyWr_mono hr _ _ _ rfl hs
          have e3 : ∀ off b, (verifyIo r2).wr () off b = merkleVerifyWr r2 off b := fun _ _ => rfl
          rw [e3, this]
          simp only
          split at h
          · rename_i e4; rw [if_pos e4]; exact h
          · rename_i e4; rw [if_neg e4]; exact ih _ _ _ h
      · rename_i e2; rw [if_neg e2]; exact ih _ _ _ h

theorem verifyFeed_mono (H : HashFn) {r1 r2 : Reader} (hr : RdLe r1 r2) (n : Nat) : ∀ (m : Merkle) (off : Nat) (x : Merkle),
    verifyFeed H r1 m off n = .ok x → verifyFeed H r2 m off n = .ok x := by
  induction n using Nat.strongRecOn with
  | ind n ih =>
    intro m off x h
    rw [verifyFeed] at h ⊢
    split at h
    · rename_i e; rw [dif_pos e]; exact h
    · rename_i e
      rw [dif_neg e]
      split at h
      · cases h
      · rename_i y hy
        split at h
        · cases h
        · rename_i hl
          have hl := Classical.not_not.1 hl
          rw [hr off _ y (by omega) hl hy]
          simp only
          rw [if_neg (by simpa using hl)]
          split at h
          · cases h
          · rename_i m' u hm
            have : merkleWriteChunk H (verifyIo r2) m () y = .ok (m', u) := merkleWriteGo_mono H hr _ _ _ _ hm
            rw [this]
            simp only
            exact ih _ (by omega) _ _ _ h

theorem merkleFeed_mono {r1 r2 : Reader} (hr : RdLe r1 r2) (k : Nat) : ∀ (off : Nat) (c x : HashCtx),
    merkleFeed (verifyIo r1) () k off c = .ok x → merkleFeed (verifyIo r2) () k off c = .ok x := by
  induction k with
  | zero => intro off c x h; exact h
  | succ k ih =>
    intro off c x h
    unfold merkleFeed at h ⊢
    split at h
    · cases h
    · rename_i b hb
      split at h
      · cases h
      · rename_i hl
        have hl := Classical.not_not.1 hl
        have : (verifyIo r2).rd () off 32 = .ok b := hr off 32 b (by omega) hl hb
        rw [this]
        simp only
        rw [if_neg (by simpa using hl)]
        exact ih _ _ _ h

theorem merkleLevelGo_mono (H : HashFn) {r1 r2 : Reader} (hr : RdLe r1 r2) (m : Merkle) (k : Nat) : ∀ (a b : Nat),
    merkleLevelGo H (verifyIo r1) m k () a b = .ok () → merkleLevelGo H (verifyIo r2) m k () a b = .ok () := by
  induction k with
  | zero => intro a b h; exact h
  | succ k ih =>
    intro a b h
    unfold merkleLevelGo at h ⊢
    split at h
    · cases h
    · rename_i c hc
      rw [merkleFeed_mono hr _ _ _ _ hc]
      simp only
      split at h
      · cases h
      · rename_i s hs
        have : (verifyIo r2).wr () (m.offset + b) (H c.kind c.fed) = .ok () := merkleVerifyWr_mono hr _ _ _ rfl hs
        rw [this]
        exact ih _ _ h

theorem merkleLevelsUp_mono (H : HashFn) {r1 r2 : Reader} (hr : RdLe r1 r2) (m : Merkle) (ls : List (Nat × Nat)) :
    merkleLevelsUp H (verifyIo r1) m ls () = .ok () → merkleLevelsUp H (verifyIo r2) m ls () = .ok () := by
  induction ls with
  | nil => intro h; exact h
  | cons a ls ih =>
    intro h
    cases ls with
    | nil => exact h
    | cons b rest =>
      unfold merkleLevelsUp at h ⊢
      split at h
      · cases h
      · rename_i s hs
        rw [merkleLevelGo_mono H hr m _ _ _ hs]
        exact ih h

theorem merkleFinish_mono (H : HashFn) {r1 r2 : Reader} (hr : RdLe r1 r2) (m : Merkle) (x : Bytes × Unit) :
    merkleFinish H (verifyIo r1) m () = .ok x → merkleFinish H (verifyIo r2) m () = .ok x := by
  intro h
  unfold merkleFinish at h ⊢
  split at h
  · rename_i e; rw [if_pos e]; exact h
  · rename_i e
    rw [if_neg e]
    split at h
    · cases h
    · rename_i s hs
      rw [merkleLevelsUp_mono H hr m _ hs]
      simp only
      split at h
      · cases h
      · rename_i c hc
        rw [merkleFeed_mono hr _ _ _ _ hc]
        exact h

/-- A failing read never has the code 0. -/
def RdErr (r : Reader) : Prop := ∀ off n e, r off n = .error e → e ≠ .ok

theorem merkleVerifyWr_err {r : Reader} (hr : RdErr r) (n : Nat) : ∀ (off : Nat) (b : Bytes) (e : Err), b.length = n →
    merkleVerifyWr r off b = .error e → e ≠ .ok := by
  induction n using Nat.strongRecOn with
  | ind n ih =>
    intro off b e hb h
    rw [merkleVerifyWr] at h
    split at h
    · cases h
    · rename_i e0
      have hp := List.length_pos_iff.2 e0
      split at h
      · rename_i e1 he; cases h; exact hr _ _ _ he
      · split at h
        · cases h; decide
        · split at h
          · cases h; decide
          · exact ih (b.drop 32).length (by simp; omega) _ _ _ rfl h

theorem verifyFeed_err (H : HashFn) {r : Reader} (hr : RdErr r) (n : Nat) : ∀ (m : Merkle) (off : Nat) (e : Err),
    verifyFeed H r m off n = .error e → e ≠ .ok := by
  induction n using Nat.strongRecOn with
  | ind n ih =>
    intro m off e h
    rw [verifyFeed] at h
    split at h
    · cases h
    · split at h
      · rename_i e1 he; cases h; exact hr _ _ _ he
      · split at h
        · cases h; decide
        · split at h
          · rename_i e1 he
            cases h
            exact merkleWriteGo_err H (verifyIo r) (fun _ _ _ _ hx => merkleVerifyWr_err hr _ _ _ _ rfl hx) _ _ _ _ _ he
          · exact ih _ (by omega) _ _ _ h

theorem merkleFeed_err {r : Reader} (hr : RdErr r) (k : Nat) : ∀ (off : Nat) (c : HashCtx) (e : Err),
    merkleFeed (verifyIo r) () k off c = .error e → e ≠ .ok := by
  induction k with
  | zero => intro off c e h; cases h
  | succ k ih =>
    intro off c e h
    unfold merkleFeed at h
    split at h
    · rename_i e1 he; cases h; exact hr _ _ _ he
    · split at h
      · cases h; decide
      · exact ih _ _ _ h

theorem merkleLevelGo_err (H : HashFn) {r : Reader} (hr : RdErr r) (m : Merkle) (k : Nat) : ∀ (a b : Nat) (e : Err),
    merkleLevelGo H (verifyIo r) m k () a b = .error e → e ≠ .ok := by
  induction k with
  | zero => intro a b e h; cases h
  | succ k ih =>
    intro a b e h
    unfold merkleLevelGo at h
    split at h
    · rename_i e1 he; cases h; exact merkleFeed_err hr _ _ _ _ he
    · split at h
      · rename_i e1 he; cases h; exact merkleVerifyWr_err hr _ _ _ _ rfl he
      · exact ih _ _ _ h

theorem merkleLevelsUp_err (H : HashFn) {r : Reader} (hr : RdErr r) (m : Merkle) (ls : List (Nat × Nat)) (e : Err) :
    merkleLevelsUp H (verifyIo r) m ls () = .error e → e ≠ .ok := by
  induction ls with
  | nil => intro h; cases h
  | cons a ls ih =>
    intro h
    cases ls with
    | nil => cases h
    | cons b rest =>
      unfold merkleLevelsUp at h
      split at h
      · rename_i e1 he; cases h; exact merkleLevelGo_err H hr m _ _ _ _ he
      · exact ih h

theorem merkleFinish_err (H : HashFn) {r : Reader} (hr : RdErr r) (m : Merkle) (e : Err) :
    merkleFinish H (verifyIo r) m () = .error e → e ≠ .ok := by
  intro h
  unfold merkleFinish at h
  split at h
  · cases h
  · split at h
    · rename_i e1 he; cases h; exact merkleLevelsUp_err H hr m _ _ he
    · split at h
      · rename_i e1 he; cases h; exact merkleFeed_err hr _ _ _ _ he
      · cases h

theorem verifyMerkleTree_mono (H : HashFn) {r1 r2 : Reader} (hr : RdLe r1 r2) (he1 : RdErr r1) (a n b : Nat) (root salt : Bytes) :
    verifyMerkleTree H r1 a n b root salt = .ok → verifyMerkleTree H r2 a n b root salt = .ok := by
  intro h
  unfold verifyMerkleTree at h ⊢
  split at h
  · rename_i e he
    have : ∀ e n x, merkleInit (verifyIo r1) () n salt b false = .error e → merkleInit (verifyIo r2) () n salt b false = .ok x → False := by
      intro e n x h1 h2
      unfold merkleInit at h1 h2
      simp only [Bool.false_eq_true, if_false] at h1 h2
      rw [h2] at h1; cases h1
    cases h2 : merkleInit (verifyIo r2) () n salt b false with
    | error e2 =>
      simp only
      unfold merkleInit at he h2
      simp only [Bool.false_eq_true, if_false] at he h2
      rw [he] at h2; cases h2; exact h
    | ok x => exact (this e n x he h2).elim
  · rename_i m u hm
    have e2 : merkleInit (verifyIo r2) () n salt b false = .ok (m, u) := by
      unfold merkleInit at hm ⊢
      simp only [Bool.false_eq_true, if_false] at hm ⊢
      exact hm
    rw [e2]
    simp only
    split at h
    · rename_i e he
      exact absurd h (verifyFeed_err H he1 _ _ _ _ he)
    · rename_i m2 hm2
      rw [verifyFeed_mono H hr _ _ _ _ hm2]
      simp only
      split at h
      · rename_i e he; exact absurd h (merkleFinish_err H he1 _ _ he)
      · rename_i r u2 hf
        rw [merkleFinish_mono H hr _ _ hf]
        exact h

theorem payloadReader_err (P : Bytes) : RdErr (payloadReader P) := by intro off n e h; cases h
theorem pkgReader_err (P : Bytes) : RdErr (pkgReader P) := by
  intro off n e h
  unfold pkgReader at h
  split at h
  · cases h; decide
  · split at h
    · cases h; decide
    · cases h

theorem pkg_le_payload (P : Bytes) : RdLe (pkgReader P) (payloadReader P) := by
  intro off n x _ _ h
  unfold pkgReader at h
  split at h
  · cases h
  · split at h
    · cases h
    · exact h

theorem payload_le_pkg (P : Bytes) (hP : P.length < 2^63) : RdLe (payloadReader P) (pkgReader P) := by
  intro off n x hn hl h
  unfold payloadReader at h
  have e : fileRead P off n = x := Except.ok.inj h
  have hlen : (fileRead P off n).length = n := by rw [e]; exact hl
  have : off < P.length := by
    unfold fileRead at hlen; simp at hlen; omega
  unfold pkgReader
  rw [if_neg (by omega), if_neg (by simpa using hlen), e]

/-- The tree check through the package file gives the same verdict as on its bytes. -/
theorem verifyMerkleTree_pkg (H : HashFn) (P : Bytes) (hP : P.length < 2^63) (a n b : Nat) (root salt : Bytes) :
    verifyMerkleTree H (pkgReader P) a n b root salt = .ok ↔ verifyMerkleTree H (payloadReader P) a n b root salt = .ok :=
  ⟨verifyMerkleTree_mono H (pkg_le_payload P) (pkgReader_err P) a n b root salt,
   verifyMerkleTree_mono H (payload_le_pkg P hP) (payloadReader_err P) a n b root salt⟩

/-- So does payload verification. -/
theorem verifyPayload_pkg (H : HashFn) (h : Header) (t : TidyParts h) (P : Bytes) (hP : P.length < 2^63) :
    verifyPayload H h (pkgReader P) 4096 = .ret .ok ↔ verifyPayload H h (payloadReader P) 4096 = .ret .ok := by
  have key : verifyTreesGo H h (pkgReader P) 4096 h.parts = .ret .ok ↔ verifyTreesGo H h (payloadReader P) 4096 h.parts = .ret .ok := by
    rw [verifyTreesGo_ok, verifyTreesGo_ok]
    constructor
    · intro hx p hp h0 ri hri
      rw [verifyPartTree_ok H h _ _ p ri hri]
      obtain ⟨root, salt, tp, ti, hv⟩ := (verifyPartTree_ok H h _ _ p ri hri).1 (hx p hp h0 ri hri)
      exact ⟨root, salt, tp, ti, (verifyMerkleTree_pkg H P hP _ _ _ _ _).1 hv⟩
    · intro hx p hp h0 ri hri
      rw [verifyPartTree_ok H h _ _ p ri hri]
      obtain ⟨root, salt, tp, ti, hv⟩ := (verifyPartTree_ok H h _ _ p ri hri).1 (hx p hp h0 ri hri)
      exact ⟨root, salt, tp, ti, (verifyMerkleTree_pkg H P hP _ _ _ _ _).2 hv⟩
  unfold verifyPayload
  rw [computePayloadHash_pkg H h t P]
  split
  · split
    · exact Iff.rfl
    · exact key
  · exact Iff.rfl

end Bpak
