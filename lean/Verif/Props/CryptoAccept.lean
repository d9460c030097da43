import Verif.Props.Crypto
import Verif.Props.PkgSign
import Verif.Props.SignVerify
import Verif.Proof.DiskLuck
import Verif.Props.GenerateNames
/-! What an accepted signature means with mbedtls (C102), and `bpak generate keystore` on any file (C97). -/
namespace Bpak

/-- C102, what acceptance means: whatever the package, the key and mbedtls do, if `bpak_pkg_verify` returns 0 then the key's bytes are a key that mbedtls reads, the hash is SHA-256, SHA-384 or
SHA-512, and mbedtls accepted, for that hash, the digest of the header (without the signature fields) and the signature in the header. -/
theorem C102_accept_means (M : Mbed) (H : HashFn) (key : Key) (p : Pkg) (w : p.hdr.WF) (h : pkgVerify H (mbedScheme M) key p = .ret .ok) :
    (p.hdr.hashKind = 1 ∨ p.hdr.hashKind = 2 ∨ p.hdr.hashKind = 3) ∧
    ∃ pk, M.parsePub key.data = some pk ∧
      M.verify pk (some p.hdr.hashKind) (H p.hdr.hashKind (headerSignedBytes p.hdr)) (p.hdr.signature.take p.hdr.signatureSz.toNat) = true := by
  unfold pkgVerify at h
  rcases hd : computeHeaderHash H p.hdr 64 with ⟨e, x⟩
  rw [hd] at h
  by_cases he : e = .ok
  · subst he
    obtain ⟨d, rfl⟩ := computeHeaderHash_ok H _ _ hd
    have hk : ∃ n, digestLen p.hdr.hashKind = some n := by
      cases hn : digestLen p.hdr.hashKind with
      | some n => exact ⟨n, rfl⟩
      | none =>
        unfold computeHeaderHash hashInit at hd
        rw [hn] at hd
        cases hd
    obtain ⟨n, hk⟩ := hk
    rw [C17_header_hash_is_digest_of_signed_bytes H p.hdr w n 64 hk (digestLen_le hk)] at hd
    obtain rfl : H p.hdr.hashKind (headerSignedBytes p.hdr) = d := Option.some.inj (Prod.mk.inj hd).2
    have h3 : p.hdr.hashKind = 1 ∨ p.hdr.hashKind = 2 ∨ p.hdr.hashKind = 3 := by
      unfold digestLen at hk
      split at hk
      · rename_i a; exact .inl a
      · split at hk
        · rename_i a; exact .inr (.inl a)
        · split at hk
          · rename_i a; exact .inr (.inr a)
          · cases hk
    refine ⟨h3, ?_⟩
    simp only at h
    split at h
    · cases h
    · cases hp : M.parsePub key.data with
      | none =>
        simp only [mbedScheme, mbedVerify, hp] at h
        cases h
      | some pk =>
        refine ⟨pk, rfl, ?_⟩
        rw [mbed_verify_key M pk key hp, ← digestOf_eq] at h
        have : digestOf p.hdr.hashKind = some p.hdr.hashKind := if_pos h3
        rw [this] at h
        cases hv : M.verify pk (some p.hdr.hashKind) (H p.hdr.hashKind (headerSignedBytes p.hdr)) (p.hdr.signature.take p.hdr.signatureSz.toNat) with
        | true => rfl
        | false => rw [hv] at h; cases h
  · cases e <;> first | exact absurd rfl he | cases h

/-- C102: with bytes that are no key to mbedtls nothing is ever accepted. -/
theorem C102_no_key_never_accepts (M : Mbed) (H : HashFn) (key : Key) (hk : M.parsePub key.data = none) (p : Pkg) (w : p.hdr.WF) :
    pkgVerify H (mbedScheme M) key p ≠ .ret .ok := by
  intro h
  obtain ⟨_, pk, hp, _⟩ := C102_accept_means M H key p w h
  rw [hk] at hp
  cases hp

theorem genParts_any (f name : Bytes) (deco : Bool) (parse : Bytes → Except Err Key) : ∀ (qs : List PartHdr) (i : Nat) (ks : List GenKey), genParts f name deco parse i qs = (ks, none) →
    ks.length = (qs.filter (fun q => q.id != 0)).length ∧
    ∀ (j : Nat) (q : PartHdr), (qs.filter (fun q => q.id != 0))[j]? = some q → ∃ g k, ks[j]? = some g ∧
      q.size.toNat ≤ 4096 ∧ ((f.drop q.offset.toNat).take q.size.toNat).length = q.size.toNat ∧ parse ((f.drop q.offset.toNat).take q.size.toNat) = .ok k ∧ k.kind ∈ [1, 2, 3, 4] ∧
      g.id = q.id ∧ g.kind = k.kind ∧ g.data = k.data := by
  intro qs
  induction qs with
  | nil => intro i ks h; cases h; exact ⟨rfl, fun j q h => (by cases h)⟩
  | cons q qs ih =>
    intro i ks h
    unfold genParts at h
    split at h
    · rename_i h0
      rw [List.filter_cons_of_neg (by simp [h0])]
      exact ih i ks h
    · rename_i h0
      rw [List.filter_cons_of_pos (p := fun q : PartHdr => q.id != 0) (by simpa using h0)]
      split at h
      · cases h
      · rename_i k hk
        obtain ⟨h1, h2⟩ := Prod.mk.inj h
        obtain ⟨a, b⟩ := ih (i + 1) (genParts f name deco parse (i + 1) qs).1 (by rw [← h2])
        subst h1
        refine ⟨by simp [a], ?_⟩
        intro j q' hj
        cases j with
        | zero =>
          simp only [List.getElem?_cons_zero, Option.some.injEq] at hj
          subst hj
          unfold genKey at hk
          split at hk
          · cases hk
          · split at hk
            · cases hk
            · rename_i s2
              split at hk
              · cases hk
              · rename_i s3
                split at hk
                · cases hk
                · rename_i k' hp
                  split at hk
                  · rename_i hkind
                    cases hk
                    refine ⟨_, k, rfl, by omega, Classical.not_not.1 s3, hp, ?_, rfl, rfl, rfl⟩
                    simp only [List.mem_cons, List.not_mem_nil, or_false]
                    rcases hkind with h | h | h | h <;> simp [h]
                  · cases hk
        | succ j =>
          simp only [List.getElem?_cons_succ] at hj ⊢
          exact b j q' hj

theorem genParts_no_ok (f name : Bytes) (deco : Bool) (parse : Bytes → Except Err Key) (hparse : ∀ b, parse b ≠ .error .ok) : ∀ (qs : List PartHdr) (i : Nat) (e : Err),
    (genParts f name deco parse i qs).2 = some e → e ≠ .ok := by
  intro qs
  induction qs with
  | nil => intro i e h; cases h
  | cons q qs ih =>
    intro i e h
    unfold genParts at h
    split at h
    · exact ih i e h
    · split at h
      · rename_i e' hk
        obtain rfl := Option.some.inj h
        unfold genKey at hk
        split at hk
        · cases hk; exact fun h => (by cases h)
        · split at hk
          · cases hk; exact fun h => (by cases h)
          · split at hk
            · cases hk; exact fun h => (by cases h)
            · split at hk
              · rename_i e2 hp
                cases hk
                exact fun h => hparse _ (h ▸ hp)
              · split at hk
                · cases hk
                · cases hk; exact fun h => (by cases h)
      · exact ih (i + 1) e h

/-- C97: whatever is in the file, if `bpak generate keystore` succeeds then the file begins with a valid header, and each part named there lies completely in the file, in at most 4096 bytes which parse as a key of a
supported kind; the definitions printed are those of exactly these keys, in the order of the parts. -/
theorem C97_any_file (f name : Bytes) (deco : Bool) (parse : Bytes → Except Err Key) (out : GenOut) (hparse : ∀ b, parse b ≠ .error .ok) (h : generateKeystore (some f) (some name) deco parse = .ret (.ok, out)) :
    4096 ≤ f.length ∧ validHeader (parseHeader (f.take 4096)) = .ok ∧ out.keys.length = ((parseHeader (f.take 4096)).parts.filter (fun q => q.id != 0)).length ∧
    ∀ (j : Nat) (q : PartHdr), ((parseHeader (f.take 4096)).parts.filter (fun q => q.id != 0))[j]? = some q → ∃ g k, out.keys[j]? = some g ∧
      q.size.toNat ≤ 4096 ∧ ((f.drop q.offset.toNat).take q.size.toNat).length = q.size.toNat ∧ parse ((f.drop q.offset.toNat).take q.size.toNat) = .ok k ∧ k.kind ∈ [1, 2, 3, 4] ∧
      g.id = q.id ∧ g.kind = k.kind ∧ g.data = k.data := by
  unfold generateKeystore at h
  simp only at h
  split at h
  · cases h
  · rename_i hl
    split at h
    · rename_i hv
      exact absurd (Prod.mk.inj (Out.ret.inj h)).1 hv
    · rename_i hv
      split at h
      · cases h
      · split at h
        · cases h
        · split at h
          · rename_i ks e hg
            exact absurd (Prod.mk.inj (Out.ret.inj h)).1 (genParts_no_ok f name deco parse hparse _ _ e (by rw [hg]))
          · rename_i ks hg
            have t := genParts_any f name deco parse _ _ _ hg
            split at h
            · cases h
            · split at h
              · cases h
              · cases h
                exact ⟨by omega, Classical.not_not.1 hv, t⟩

end Bpak
