import Verif.Spec.Pkg
import Verif.Props.Verify
import Verif.Props.Header
namespace Bpak

/-! ### readers -/

theorem payloadReadLoop_pkg (P : Bytes) (n : Nat) : ∀ (off : U64) (c : HashCtx), off.toNat + n < 2^63 →
    payloadReadLoop (pkgReader P) off n c = payloadReadLoop (payloadReader P) off n c := by
  induction n using Nat.strongRecOn with
  | ind n ih =>
    intro off c hb
    conv => lhs; unfold payloadReadLoop
    conv => rhs; unfold payloadReadLoop
    unfold pkgReader payloadReader
    rw [if_neg (by omega)]
    by_cases h1 : (fileRead P off.toNat (min n 4096)).length ≠ min n 4096
    · rw [if_pos h1]; simp only; rw [if_pos h1]
    · rw [if_neg h1]
      simp only
      rw [if_neg h1]
      split
      · rfl
      · rename_i h2
        have := ih (n - min n 4096) (by omega) (off + BitVec.ofNat 64 (min n 4096)) (hashUpdate c (fileRead P off.toNat (min n 4096))) (by
          rw [BitVec.toNat_add, BitVec.toNat_ofNat, Nat.mod_eq_of_lt (a := min n 4096) (by omega), Nat.mod_eq_of_lt (by omega)]; omega)
        unfold pkgReader payloadReader at this
        exact this

theorem payloadReadLoop_off (rd : Reader) (n : Nat) : ∀ (off : U64) (c : HashCtx) (o : U64) (c' : HashCtx),
    payloadReadLoop rd off n c = .ok (o, c') → o = off + BitVec.ofNat 64 n := by
  induction n using Nat.strongRecOn with
  | ind n ih =>
    intro off c o c' h
    unfold payloadReadLoop at h
    split at h
    · cases h
    · split at h
      · cases h
      · split at h
        · rename_i h2
          cases h
          congr 2; omega
        · rename_i h2
          rw [ih _ (by omega) _ _ _ _ h, BitVec.add_assoc, ← BitVec.ofNat_add]
          congr 2; omega

/-- Sum of the stored sizes of the used slots anywhere in the table. -/
def usedSum (ps : List PartHdr) : Nat := ((ps.filter (fun p => p.id ≠ 0)).map storedSize).sum

theorem usedSum_cons (p : PartHdr) (ps : List PartHdr) : usedSum (p :: ps) = (if p.id = 0 then 0 else storedSize p) + usedSum ps := by
  unfold usedSum
  rw [List.filter_cons]
  by_cases h : p.id = 0
  · rw [if_neg (by simp [h]), if_pos h, Nat.zero_add]
  · rw [if_pos (by simpa using h), if_neg h, List.map_cons, List.sum_cons]

theorem payloadHashGo_pkg (P : Bytes) (ps : List PartHdr) : ∀ (off : U64) (c : HashCtx), off.toNat + usedSum ps < 2^63 →
    payloadHashGo (pkgReader P) ps off c = payloadHashGo (payloadReader P) ps off c := by
  induction ps with
  | nil => intro off c _; rfl
  | cons p ps ih =>
    intro off c hb
    rw [usedSum_cons] at hb
    simp only [payloadHashGo]
    by_cases h0 : p.id = 0
    · rw [if_pos h0, if_pos h0]; rw [if_pos h0] at hb; exact ih off c (by omega)
    · rw [if_neg h0, if_neg h0]
      rw [if_neg h0] at hb
      have hps := partSize_stored p (by omega)
      have hadd : (off + partSize p).toNat = off.toNat + storedSize p := by
        rw [BitVec.toNat_add, hps, Nat.mod_eq_of_lt (by omega)]
      rw [isExcluded_eq]
      by_cases hx : p.excluded = true
      · rw [if_pos hx, if_pos hx]; exact ih _ _ (by omega)
      · rw [if_neg hx, if_neg hx, payloadReadLoop_pkg P _ _ _ (by rw [hps]; omega)]
        cases hr : payloadReadLoop (payloadReader P) off (partSize p).toNat c with
        | error e => rfl
        | ok r =>
          obtain ⟨o, c'⟩ := r
          simp only
          have := payloadReadLoop_off _ _ _ _ _ _ hr
          rw [BitVec.ofNat_toNat, BitVec.setWidth_eq] at this
          subst this
          exact ih _ _ (by omega)

theorem usedSum_tidy (h : Header) (hc : ∀ p ∈ h.parts.drop (usedParts h).length, p.id = 0) : usedSum h.parts = ((usedParts h).map storedSize).sum := by
  unfold usedSum
  conv => lhs; rw [used_append h]
  rw [List.filter_append, List.filter_eq_self.2 (by intro p hp; simpa using used_ids h p hp),
    List.filter_eq_nil_iff.2 (by intro p hp; simpa using hc p hp), List.append_nil]

theorem computePayloadHash_pkg (H : HashFn) (h : Header) (t : TidyParts h) (P : Bytes) (n : Nat) :
    computePayloadHash H h (pkgReader P) 4096 n = computePayloadHash H h (payloadReader P) 4096 n := by
  unfold computePayloadHash
  split
  · rw [payloadHashGo_pkg P h.parts 4096 _ (by rw [usedSum_tidy h t.compact]; have := t.fits; simpa using this)]
  · rfl

/-- The file holds all of every part. -/
def Whole (h : Header) (f : Bytes) : Prop := 4096 + ((usedParts h).map storedSize).sum ≤ f.length

theorem hashedReadable_whole (h : Header) (t : TidyParts h) (f : Bytes) (w : Whole h f) : HashedReadable f h.parts 4096 := by
  rw [(C31_bytes_at_part_offsets h t f).2]
  intro p hp _
  obtain ⟨a, b, hab⟩ := List.append_of_mem hp
  obtain ⟨e1, _⟩ := tidy_offset h t a b p hab
  unfold Whole at w
  rw [hab] at w
  simp only [List.map_append, List.map_cons, List.sum_append, List.sum_cons] at w
  unfold fileRead
  rw [List.length_take, List.length_drop, e1]; omega

/-- What the payload hash field becomes. -/
def withPayloadHash (H : HashFn) (h : Header) (f : Bytes) : Header :=
  { h with payloadHash := H h.hashKind (hashedBytes f h.parts 4096) ++ h.payloadHash.drop (H h.hashKind (hashedBytes f h.parts 4096)).length }

theorem updateHash_eq (H : HashFn) (p : Pkg) (t : TidyParts p.hdr) (hf : p.file.length < 2^63) (w : Whole p.hdr p.file)
    (n : Nat) (hk : digestLen p.hdr.hashKind = some n) (hn : n ≤ 64) :
    updateHash H p = (.ok, { p with hdr := withPayloadHash H p.hdr p.file }) := by
  unfold updateHash
  rw [computePayloadHash_pkg H _ t, C31_payload_hash_covers H _ _ hf, hk]
  simp only
  rw [if_neg (by simpa using hashedReadable_whole _ t _ w), if_neg (by omega)]
  rfl

theorem digestLen_le {k : U8} {n : Nat} (h : digestLen k = some n) : n ≤ 64 := by
  unfold digestLen at h
  split at h
  · cases h; omega
  · split at h
    · cases h; omega
    · split at h
      · cases h; omega
      · cases h

end Bpak
