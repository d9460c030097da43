import Verif.Spec.Verify
import Verif.Proof.MerkleBind
namespace Bpak

theorem payloadReadLoop_eq (P : Bytes) (hP : P.length < 2^64) (n : Nat) : ∀ (off : U64) (c : HashCtx),
    payloadReadLoop (payloadReader P) off n c =
      if (fileRead P off.toNat n).length = n then .ok (off + BitVec.ofNat 64 n, hashUpdate c (fileRead P off.toNat n)) else .error .readError := by
  induction n using Nat.strongRecOn with
  | ind n ih =>
    intro off c
    unfold payloadReadLoop
    simp only [payloadReader]
    by_cases hle : n ≤ 4096
    · rw [Nat.min_eq_left hle]
      by_cases hr : (fileRead P off.toNat n).length = n
      · rw [if_neg (fun h => h hr), if_pos hr, dif_pos (by omega)]
      · rw [if_pos hr, if_neg hr]
    · rw [Nat.min_eq_right (by omega)]
      by_cases hr : (fileRead P off.toNat 4096).length = 4096
      · rw [if_neg (fun h => h hr), dif_neg (by omega)]
        have ih := ih (n - 4096) (by omega)
        rw [ih]
        have hlen := fileRead_length P off.toNat 4096
        have h1 : (off + BitVec.ofNat 64 4096).toNat = off.toNat + 4096 := by
          rw [BitVec.toNat_add, BitVec.toNat_ofNat]
          omega
        rw [h1]
        have hsp := fileRead_add P off.toNat 4096 (n - 4096)
        rw [show 4096 + (n - 4096) = n by omega] at hsp
        rw [hsp, List.length_append, hr]
        by_cases hr2 : (fileRead P (off.toNat + 4096) (n - 4096)).length = n - 4096
        · rw [if_pos hr2, if_pos (by omega)]
          simp only [hashUpdate, List.append_assoc]
          rw [BitVec.add_assoc, ← BitVec.ofNat_add, show 4096 + (n - 4096) = n by omega]
        · rw [if_neg hr2, if_neg (by omega)]
      · rw [if_pos hr, if_neg]
        have h1 := fileRead_length P off.toNat 4096
        have h2 := fileRead_length P off.toNat n
        omega

theorem isExcluded_eq (p : PartHdr) : p.isExcluded = p.excluded := by
  unfold PartHdr.isExcluded PartHdr.excluded
  generalize p.flags = f
  revert f
  have : ∀ n : Fin 256, (BitVec.ofFin n : U8).getLsbD 0 = ((BitVec.ofFin n : U8) &&& 1 != 0) := by decide +kernel
  intro f; exact this f.toFin

theorem payloadHashGo_eq (P : Bytes) (hP : P.length < 2^64) (ps : List PartHdr) : ∀ (off : U64) (c : HashCtx),
    payloadHashGo (payloadReader P) ps off c =
      if HashedReadable P ps off then .ok (hashUpdate c (hashedBytes P ps off)) else .error .readError := by
  induction ps with
  | nil => intro off c; simp [payloadHashGo, HashedReadable, hashedBytes, hashUpdate]
  | cons p ps ih =>
    intro off c
    unfold payloadHashGo hashedBytes
    simp only [HashedReadable]
    by_cases h0 : p.id = 0
    · simp only [h0, if_true]
      exact ih off c
    · simp only [h0, if_false, isExcluded_eq]
      cases hx : p.excluded with
      | true =>
        simp only [if_true, ih, List.nil_append, Bool.true_eq_false, false_implies, true_and]
      | false =>
        simp only [Bool.false_eq_true, if_false, true_implies]
        rw [payloadReadLoop_eq P hP]
        by_cases hr : (fileRead P off.toNat (partSize p).toNat).length = (partSize p).toNat
        · simp only [hr, if_true, true_and]
          rw [ih]
          rw [BitVec.ofNat_toNat, BitVec.setWidth_eq]
          simp only [hashUpdate, List.append_assoc]
        · simp only [hr, if_false, false_and]

theorem computePayloadHash_eq (H : HashFn) (h : Header) (P : Bytes) (hP : P.length < 2^64) (off : U64) (bufLen : Nat) :
    computePayloadHash H h (payloadReader P) off bufLen =
      match digestLen h.hashKind with
      | none => (.unsupportedHashAlg, none)
      | some n => if ¬ HashedReadable P h.parts off then (.readError, none)
        else if bufLen < n then (.sizeError, none)
        else (.ok, some (H h.hashKind (hashedBytes P h.parts off))) := by
  unfold computePayloadHash hashInit
  cases hd : digestLen h.hashKind with
  | none => rfl
  | some n =>
    simp only
    rw [payloadHashGo_eq P hP]
    by_cases hr : HashedReadable P h.parts off
    · rw [if_pos hr, if_neg (fun h => h hr)]
      simp only [hashUpdate, List.nil_append]
      unfold hashFinal
      simp only [hd]
    · rw [if_neg hr, if_pos hr]

/-- The condition the second loop checks for one part. -/
def PartTreeOk (H : HashFn) (h : Header) (P : Bytes) (off : U64) (p : PartHdr) : Prop :=
  ∀ ri, getMeta h idMerkleRootHash p.id = some ri → verifyPartTree H h (payloadReader P) off p ri = .ret .ok

theorem verifyTreesGo_ok (H : HashFn) (h : Header) (rd : Reader) (off : U64) (ps : List PartHdr) :
    verifyTreesGo H h rd off ps = .ret .ok ↔
      ∀ p ∈ ps, p.id ≠ 0 → ∀ ri, getMeta h idMerkleRootHash p.id = some ri → verifyPartTree H h rd off p ri = .ret .ok := by
  induction ps with
  | nil => simp [verifyTreesGo]
  | cons p ps ih =>
    unfold verifyTreesGo
    by_cases h0 : p.id = 0
    · rw [if_pos h0, ih]
      constructor
      · intro hx q hq hq0
        rcases List.mem_cons.1 hq with rfl | hq
        · exact absurd h0 hq0
        · exact hx q hq hq0
      · intro hx q hq; exact hx q (List.mem_cons_of_mem _ hq)
    · rw [if_neg h0]
      cases hm : getMeta h idMerkleRootHash p.id with
      | none =>
        simp only
        rw [ih]
        constructor
        · intro hx q hq hq0 ri hri
          rcases List.mem_cons.1 hq with rfl | hq
          · rw [hm] at hri; cases hri
          · exact hx q hq hq0 ri hri
        · intro hx q hq; exact hx q (List.mem_cons_of_mem _ hq)
      | some ri =>
        simp only
        constructor
        · intro hx
          have hp : verifyPartTree H h rd off p ri = .ret .ok ∧ verifyTreesGo H h rd off ps = .ret .ok := by
            split at hx
            · cases hx
            · rename_i e; exact ⟨e, hx⟩
            · rename_i e he hne; cases hx; exact absurd rfl he
          intro q hq hq0 ri' hri
          rcases List.mem_cons.1 hq with rfl | hq
          · rw [hm] at hri; cases hri; exact hp.1
          · exact (ih.1 hp.2) q hq hq0 ri' hri
        · intro hx
          rw [hx p List.mem_cons_self h0 ri hm]
          simp only
          exact ih.2 (fun q hq => hx q (List.mem_cons_of_mem _ hq))

theorem verifyPayload_ok (H : HashFn) (h : Header) (P : Bytes) (hP : P.length < 2^64) (off : U64) :
    verifyPayload H h (payloadReader P) off = .ret .ok ↔
      (∃ n, digestLen h.hashKind = some n) ∧ HashedReadable P h.parts off ∧
      H h.hashKind (hashedBytes P h.parts off) = h.payloadHash.take (H h.hashKind (hashedBytes P h.parts off)).length ∧
      verifyTreesGo H h (payloadReader P) off h.parts = .ret .ok := by
  unfold verifyPayload
  rw [computePayloadHash_eq H h P hP]
  cases hd : digestLen h.hashKind with
  | none => simp
  | some n =>
    have hn : ¬ 64 < n := by
      unfold digestLen at hd
      repeat' split at hd
      all_goals first | (cases hd; omega) | cases hd
    simp only
    by_cases hr : HashedReadable P h.parts off
    · rw [if_neg (fun h => h hr), if_neg hn]
      simp only
      by_cases he : H h.hashKind (hashedBytes P h.parts off) = h.payloadHash.take (H h.hashKind (hashedBytes P h.parts off)).length
      · rw [if_neg (fun h => h he)]
        exact ⟨fun hx => ⟨⟨n, rfl⟩, hr, he, hx⟩, fun hx => hx.2.2.2⟩
      · rw [if_pos he]
        exact ⟨fun hx => (by cases hx), fun hx => absurd hx.2.2.1 he⟩
    · rw [if_pos hr]
      exact ⟨fun hx => (by cases hx), fun hx => absurd hx.2.1 hr⟩

/-! ### Two accepted payloads -/

theorem levels_bind2 (H : HashFn) (hH : HashLen H) (salt : Bytes) : ∀ (k : Nat) (d d' : Bytes) (ls ls' : List Bytes), d.length % 4096 = 0 → d.length = d'.length →
    ls.map List.length = iterLens k d.length → ls'.map List.length = iterLens k d.length → HoldHashes H salt d ls → HoldHashes H salt d' ls' →
    ls.getLastD d = ls'.getLastD d' → (d = d' ∧ ls = ls') ∨ Collision H salt := by
  intro k
  induction k with
  | zero =>
    intro d d' ls ls' _ _ h3 h3' _ _ h5
    have e : ls = [] := List.eq_nil_of_map_eq_nil h3
    have e' : ls' = [] := List.eq_nil_of_map_eq_nil h3'
    rw [e, e'] at h5
    exact .inl ⟨h5, e.trans e'.symm⟩
  | succ k ih =>
    intro d d' ls ls' h1 h2 h3 h3' h4 h4' h5
    cases ls with
    | nil => cases h3
    | cons l ls =>
    cases ls' with
    | nil => cases h3'
    | cons l' ls' =>
      simp only [iterLens, List.map_cons, List.cons.injEq] at h3 h3'
      simp only [List.getLastD_cons] at h5
      have hup := merkleLevelUp_eq d.length
      rcases ih l l' ls ls' (by omega) (by omega) (by rw [h3.1]; exact h3.2) (by rw [h3.1]; exact h3'.2) h4.2 h4'.2 h5 with ⟨e1, e2⟩ | e
      · have hb := blockHashes_length hH salt d
        have hb' := blockHashes_length hH salt d'
        have hp := h4.1
        have hp' := h4'.1
        rw [e1] at hp
        have heq : blockHashes H salt d = blockHashes H salt d' := by
          rw [List.prefix_iff_eq_take] at hp hp'
          rw [hp, hp', hb, hb', h2]
        rcases blockHashes_bind H hH salt d d' h1 h2 heq with e | e
        · exact .inl ⟨e, by rw [e1, e2]⟩
        · exact .inr e
      · exact .inr e

/-- Trees checked against the same root and salt are over the same data. -/
theorem verify_bind2 (H : HashFn) (hH : HashLen H) (P Q : Bytes) (dP tP dQ tQ n : Nat) (root salt : Bytes) (hsalt : salt.length ≤ 32)
    (h1 : verifyMerkleTree H (payloadReader P) dP n tP root salt = .ok)
    (h2 : verifyMerkleTree H (payloadReader Q) dQ n tQ root salt = .ok) :
    fileRead P dP n = fileRead Q dQ n ∨ Collision H salt := by
  by_cases hs : TreeSupported n
  · by_cases hn : n = 4096
    · subst hn
      have v1 := verify_one H hH P dP tP root salt hsalt
      have v2 := verify_one H hH Q dQ tQ root salt hsalt
      by_cases p1 : dP + 4096 ≤ P.length ∧ tP + 32 ≤ P.length
      · by_cases p2 : dQ + 4096 ≤ Q.length ∧ tQ + 32 ≤ Q.length
        · rw [v1.1 p1.1 p1.2] at h1
          rw [v2.1 p2.1 p2.2] at h2
          split at h1
          · cases h1
          split at h1
          · cases h1
          split at h2
          · cases h2
          split at h2
          · cases h2
          rename_i a b c d
          have b := Decidable.of_not_not b
          have d := Decidable.of_not_not d
          exact block_bind H salt _ _ (by rw [fileRead_length]; omega) (by rw [fileRead_length]; omega) (b.trans d.symm)
        · exact absurd h2 (v2.2 p2)
      · exact absurd h1 (v1.2 p1)
    · by_cases p1 : dP + n ≤ P.length ∧ tP + (iterLens (levelCount (n / 4096)) n).sum ≤ P.length
      · by_cases p2 : dQ + n ≤ Q.length ∧ tQ + (iterLens (levelCount (n / 4096)) n).sum ≤ Q.length
        · have v1 := verify_many H hH P dP n tP root salt hsalt hs hn p1.1 p1.2
          have v2 := verify_many H hH Q dQ n tQ root salt hsalt hs hn p2.1 p2.2
          have g1 : HoldHashes H salt (fileRead P dP n) (storedLevels P tP (levelCount (n / 4096)) n) := by
            refine Classical.byContradiction fun hx => ?_
            rw [v1.1 hx] at h1; cases h1
          have g2 : HoldHashes H salt (fileRead Q dQ n) (storedLevels Q tQ (levelCount (n / 4096)) n) := by
            refine Classical.byContradiction fun hx => ?_
            rw [v2.1 hx] at h2; cases h2
          rw [v1.2 g1] at h1
          rw [v2.2 g2] at h2
          have r1 : H hashSha256 (salt ++ fileRead P tP 4096) = root := by
            split at h1
            · cases h1
            · rename_i hx; exact Decidable.of_not_not hx
          have r2 : H hashSha256 (salt ++ fileRead Q tQ 4096) = root := by
            split at h2
            · cases h2
            · rename_i hx; exact Decidable.of_not_not hx
          have hlast := iterLens_last n hs
          obtain ⟨s1, s2, s3⟩ := hs
          obtain ⟨j, hj⟩ := levelCount_pos (n / 4096)
          have hge : 4096 ≤ (iterLens (levelCount (n / 4096)) n).sum := by
            rw [iterLens_sum n ⟨s1, s2, s3⟩]; unfold treeSize; omega
          rcases block_bind H salt _ _ (by rw [fileRead_length]; omega) (by rw [fileRead_length]; omega) (r1.trans r2.symm) with e | e
          · have l1 : (fileRead P dP n).length = n := by rw [fileRead_length]; omega
            have l2 : (fileRead Q dQ n).length = n := by rw [fileRead_length]; omega
            have := levels_bind2 H hH salt (levelCount (n / 4096)) (fileRead P dP n) (fileRead Q dQ n) _ _ (by omega) (by omega)
              (by rw [l1]; exact storedLevels_lengths P tP _ _ p1.2) (by rw [l1]; exact storedLevels_lengths Q tQ _ _ p2.2) g1 g2
              (by rw [hj] at hlast ⊢; rw [storedLevels_last, storedLevels_last, hlast]; exact e)
            rcases this with ⟨a, _⟩ | a
            · exact .inl a
            · exact .inr a
          · exact .inr e
        · exact absurd h2 (verify_many_absent H hH Q dQ n tQ root salt hsalt hs hn p2)
      · exact absurd h1 (verify_many_absent H hH P dP n tP root salt hsalt hs hn p1)
  · exfalso
    unfold verifyMerkleTree merkleInit at h1
    by_cases h1' : n % 4096 = 0
    · have : n = 0 ∨ n / 4096 > 128^3 := by
        unfold TreeSupported at hs; omega
      rw [if_neg (by omega), if_neg (by omega), merkleLevelsGo_eq _ h1', if_pos this] at h1
      cases h1
    · rw [if_pos h1'] at h1
      cases h1

end Bpak

namespace Bpak

theorem sha256ReadLoop_eq (f : Bytes) (n : Nat) : ∀ (off : Nat) (c : HashCtx),
    sha256ReadLoop f off n c = if off + n ≤ f.length ∨ n = 0 then .ok { c with fed := c.fed ++ fileRead f off n } else .error .readError := by
  induction n using Nat.strongRecOn with
  | ind n ih =>
    intro off c
    rw [sha256ReadLoop]
    by_cases h0 : n = 0
    · rw [dif_pos h0, if_pos (.inr h0)]; subst h0; simp [fileRead]
    rw [dif_neg h0]
    by_cases h1 : (fileRead f off (min n 4096)).length ≠ min n 4096
    · rw [if_pos h1, if_neg]
      unfold fileRead at h1; simp at h1; omega
    · rw [if_neg h1, ih _ (by omega)]
      have h2 : off + min n 4096 ≤ f.length := by
        unfold fileRead at h1; simp at h1; omega
      by_cases h3 : off + n ≤ f.length
      · rw [if_pos (.inl (by omega)), if_pos (.inl h3)]
        unfold hashUpdate
        simp only [List.append_assoc]
        rw [← fileRead_add]
        congr 4; omega
      · rw [if_neg (by omega), if_neg (by omega)]

end Bpak
