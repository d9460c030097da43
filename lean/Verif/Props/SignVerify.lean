import Verif.Props.Crypto
import Verif.Props.SessionBuild
import Verif.Props.VerifyKeystore
import Verif.Props.Generate
/-! Signing and verifying packages with key files and keystores, with the crypto functions bpak is built with (C102). -/
namespace Bpak

theorem mbed_sign_err (M : Mbed) : ∀ sk rnd k d, (mbedScheme M).sign sk rnd k d ≠ .error .ok := by
  intro sk rnd k d h
  simp only [mbedScheme, mbedSign] at h
  repeat' split at h
  all_goals cases h

theorem mbed_verify_err (M : Mbed) : ∀ pk k d s, (mbedScheme M).verify pk k d s ≠ .error .ok := by
  intro pk k d s h
  simp only [mbedScheme] at h
  split at h
  · cases h
  · rename_i e b hno he
    have := Except.error.inj h
    subst this
    exact hno rfl

/-- What a successful `bpak sign` leaves. -/
theorem sign_facts {SK PK : Type} {H : HashFn} (hH : HashLen H) (S : SigScheme SK PK) (hS : ∀ sk rnd k d, S.sign sk rnd k d ≠ .error .ok)
    {p : Pkg} {s : List (U32 × Bytes)} (i : BuildInv H p s) (sk : SK) (rnd : Bytes) (f' : Bytes) (hs : signCmd H S p.file rnd (.ok sk) = (.ok, f')) :
    ∃ q sig, f' = q.file ∧ BuildInv H q s ∧ S.sign sk rnd q.hdr.hashKind (H q.hdr.hashKind (headerSignedBytes q.hdr)) = .ok sig ∧ sig.length ≤ 512 ∧
      q.hdr.signatureSz.toNat = sig.length ∧ q.hdr.signature.take sig.length = sig := by
  have i0 := i.logged []
  have hcmd : signCmd H S p.file rnd (.ok sk) = ((pkgSign H S rnd (.ok sk) ⟨p.hdr, p.file, []⟩).1, (pkgSign H S rnd (.ok sk) ⟨p.hdr, p.file, []⟩).2.file) := by
    unfold signCmd
    rw [i.pkg.open]
    rfl
  rw [hcmd] at hs
  have hs := Prod.mk.inj hs
  cases hp : pkgSign H S rnd (.ok sk) ⟨p.hdr, p.file, []⟩ with
  | mk e q =>
    rw [hp] at hs
    obtain ⟨rfl, rfl⟩ := hs
    have iq := build_step H hH S ⟨p.hdr, p.file, []⟩ q s (.plain (.sign sk rnd)) hS trivial i0 (by simp only [buildStep, pkgStep]; rw [hp])
    rw [pkgSign_eq H hH S rnd _ _ i0.pkg.good i0.pkg.small] at hp
    simp only at hp
    split at hp
    · rename_i e he; injection hp with a b; exact absurd (a ▸ he) (hS sk rnd _ _)
    · rename_i sig he
      split at hp
      · injection hp with a b; cases a
      · rename_i hlen
        have e := (Prod.mk.inj hp).2
        have e1 : q.hdr = signedHdr H ⟨p.hdr, p.file, []⟩ sig := by rw [← e]; rfl
        refine ⟨q, sig, rfl, iq, ?_, by omega, ?_, ?_⟩
        · rw [e1]; exact he
        · rw [e1]
          show (BitVec.ofNat 16 sig.length).toNat = _
          rw [BitVec.toNat_ofNat]; omega
        · rw [e1]
          show (sig ++ _).take _ = _
          rw [List.take_left]

/-- What `bpak_pkg_verify` says of it, by what the key says of the signature. -/
theorem verify_signed {SK PK : Type} {H : HashFn} (hH : HashLen H) (S : SigScheme SK PK) (hV : ∀ pk k d s, S.verify pk k d s ≠ .error .ok)
    {q : Pkg} {s : List (U32 × Bytes)} (i : BuildInv H q s) (sig : Bytes) (hl : sig.length ≤ 512) (h1 : q.hdr.signatureSz.toNat = sig.length) (h2 : q.hdr.signature.take sig.length = sig) (key : PK) :
    pkgVerify H S key q = match S.verify key q.hdr.hashKind (H q.hdr.hashKind (headerSignedBytes q.hdr)) sig with
      | .error e => .ret e
      | .ok false => .ret .verifyFail
      | .ok true => .ret .ok := by
  have hiff := C33_verify_iff H hH S key q i.pkg.good i.pkg.small (by omega) (hV key)
  rw [h1, h2] at hiff
  obtain ⟨n, hk⟩ := i.pkg.good.kind
  split
  · rename_i e he
    unfold pkgVerify
    rw [C17_header_hash_is_digest_of_signed_bytes H q.hdr i.pkg.good.wf n 64 hk (digestLen_le hk)]
    simp only
    rw [if_neg (by omega), h1, h2, he]
  · rename_i he
    unfold pkgVerify
    rw [C17_header_hash_is_digest_of_signed_bytes H q.hdr i.pkg.good.wf n 64 hk (digestLen_le hk)]
    simp only
    rw [if_neg (by omega), h1, h2, he]
  · rename_i he
    exact hiff.2 ⟨he, i.pkg.hash, i.trees⟩

/-- What the scheme's verification function says, for a key that mbedtls can read. -/
theorem mbed_verify_key (M : Mbed) (p : M.Pub) (key : Key) (h : M.parsePub key.data = some p) (kind : U8) (hash sig : Bytes) :
    (mbedScheme M).verify key kind hash sig = .ok (M.verify p (mdKind kind) hash sig) := by
  simp only [mbedScheme, mbedVerify, h]
  split
  · rename_i b hb
    split at hb
    · rename_i hv; rw [hv, ← (Prod.mk.inj hb).2]
    · rename_i hv; rw [Bool.not_eq_true] at hv; rw [hv, ← (Prod.mk.inj hb).2]
  · rename_i e b hno he
    split at he <;> exact (hno (Prod.mk.inj he).1.symm).elim

/-- C102: take a package made by any session of building commands, and sign it with `bpak sign --key` and a private key file of a kind bpak knows.
If that succeeds, mbedtls has made a signature of the digest of the header (without the signature fields); and then `bpak verify --key` with any public key file that bpak loads
returns 0 if the key in the file accepts that signature, and "verification failed" if not. -/
theorem C102_sign_then_verify (M : Mbed) (L : MbedLaws M) (H : HashFn) (hH : HashLen H) (t : List (Cmd Key × Err)) (f : Bytes) (hsess : Session H (mbedScheme M) t (some f))
    (hb : ∀ c ∈ t, c.1.builds) (kf : Bytes) (k : M.Pri) (kk : U8) (hkf : PrivateFile M kf k kk) (rnd f' : Bytes)
    (hs : signCmd H (mbedScheme M) f rnd (mbedLoadPrivate M true (some kf)) = (.ok, f')) :
    ∃ hdr sig, pkgOpen H true f' = (.ok, ⟨hdr, f', []⟩) ∧ hdr.signatureSz.toNat = sig.length ∧ hdr.signature.take sig.length = sig ∧
      M.sign k rnd (digestOf hdr.hashKind) (H hdr.hashKind (headerSignedBytes hdr)) 512 = some sig ∧
      ∀ (pf : Bytes) (p : M.Pub) (key : Key) (ks : Option Bytes) (parse : Bytes → Except Err Key), M.parsePubFile pf = some p → mbedLoadPublic M (some pf) = .ok key →
        verifyCmd H (mbedScheme M) f' (some (mbedLoadPublic M (some pf))) ks parse =
          .ret (if M.verify p (digestOf hdr.hashKind) (H hdr.hashKind (headerSignedBytes hdr)) sig = true then .ok else .verifyFail) := by
  rw [digestOf_eq]
  have hS := mbed_sign_err M
  rcases session_build hH _ hS hsess hb with h | ⟨p0, s, h, i⟩
  · cases h
  cases h
  obtain ⟨d, hd, hl⟩ := L.priSize k kk hkf.2
  have hload := (C101_load_private M L (some kf) ⟨0, kk, d⟩).2 ⟨kf, k, kk, d, rfl, hkf, hd, rfl⟩
  rw [hload] at hs
  obtain ⟨q, sig, rfl, iq, g1, g2, g3, g4⟩ := sign_facts hH _ hS i _ rnd f' hs
  have hsig : M.sign k rnd (mdKind q.hdr.hashKind) (H q.hdr.hashKind (headerSignedBytes q.hdr)) 512 = some sig := by
    simp only [mbedScheme, mbedSign, L.pri k d hd] at g1
    split at g1
    · cases g1
    · rename_i s hs; rw [hs, Except.ok.inj g1]
  refine ⟨q.hdr, sig, iq.pkg.open true, g3, g4, hsig, ?_⟩
  intro pf p key ks parse hpf hkey
  have hdat : M.parsePub key.data = some p := by
    obtain ⟨f1, p1, kind, d1, e1, e2, e3, -, rfl⟩ := (C101_load_public M _ _).1 hkey
    cases e1
    have : p1 = p := by have := e2.1; rw [hpf] at this; exact (Option.some.inj this).symm
    subst this
    exact L.pub p1 d1 e3
  unfold verifyCmd
  rw [iq.pkg.open]
  simp only [ne_eq, not_true_eq_false, if_false]
  rw [hkey]
  simp only
  rw [verify_signed hH _ (mbed_verify_err M) (iq.logged []) sig g2 g3 g4 key]
  simp only
  rw [mbed_verify_key M p key hdat]
  cases M.verify p (mdKind q.hdr.hashKind) (H q.hdr.hashKind (headerSignedBytes q.hdr)) sig <;> rfl

/-- C102, keys that belong together: `bpak verify --key` with the public key of the signing key accepts. A key on one of the curves needs no more; an RSA key must take at most 1024 bytes in its standard form
(it takes 550 with the usual exponent). -/
theorem C102_own_key (M : Mbed) (L : MbedLaws M) (H : HashFn) (hH : HashLen H) (t : List (Cmd Key × Err)) (f : Bytes) (hsess : Session H (mbedScheme M) t (some f))
    (hb : ∀ c ∈ t, c.1.builds) (kf pf : Bytes) (k : M.Pri) (p : M.Pub) (kk kp : U8) (hkf : PrivateFile M kf k kk) (hpf : PublicFile M pf p kp) (hpair : M.Pair k p)
    (hrsa : kp = 1 → ∃ d, M.derPub p = some d ∧ d.length ≤ 1024) (rnd f' : Bytes) (ks : Option Bytes) (parse : Bytes → Except Err Key)
    (hs : signCmd H (mbedScheme M) f rnd (mbedLoadPrivate M true (some kf)) = (.ok, f')) :
    verifyCmd H (mbedScheme M) f' (some (mbedLoadPublic M (some pf))) ks parse = .ret .ok := by
  obtain ⟨hdr, sig, -, -, -, g1, g2⟩ := C102_sign_then_verify M L H hH t f hsess hb kf k kk hkf rnd f' hs
  have hload : ∃ key, mbedLoadPublic M (some pf) = .ok key := by
    by_cases h1 : kp = 1
    · obtain ⟨d, hd, hl⟩ := hrsa h1
      exact ⟨_, (C101_load_public M _ _).2 ⟨pf, p, kp, d, rfl, hpf, hd, hl, rfl⟩⟩
    · obtain ⟨key, h, -⟩ := C101_curve_keys M L pf p kp hpf h1
      exact ⟨key, h⟩
  obtain ⟨key, hkey⟩ := hload
  rw [g2 pf p key ks parse hpf.1 hkey, if_pos (hpair _ _ _ _ _ g1)]

/-- C102, signing: with a private key of a kind bpak knows, `bpak sign --key` succeeds exactly if mbedtls makes a signature; otherwise it reports that signing failed and leaves the file alone. -/
theorem C102_sign (M : Mbed) (L : MbedLaws M) (H : HashFn) (hH : HashLen H) (t : List (Cmd Key × Err)) (f : Bytes) (hsess : Session H (mbedScheme M) t (some f))
    (kf : Bytes) (k : M.Pri) (kk : U8) (hkf : PrivateFile M kf k kk) (rnd : Bytes) :
    ∃ hdr, pkgOpen H true f = (.ok, ⟨hdr, f, []⟩) ∧
      match M.sign k rnd (digestOf hdr.hashKind) (H hdr.hashKind (headerSignedBytes hdr)) 512 with
      | none => signCmd H (mbedScheme M) f rnd (mbedLoadPrivate M true (some kf)) = (.signFail, f)
      | some _ => ∃ f', signCmd H (mbedScheme M) f rnd (mbedLoadPrivate M true (some kf)) = (.ok, f') := by
  rw [digestOf_eq]
  have hS := mbed_sign_err M
  rcases session_inv hH _ hS hsess with ⟨h, -⟩ | ⟨p, h, i⟩
  · cases h
  cases h
  refine ⟨p.hdr, i.open true, ?_⟩
  obtain ⟨d, hd, hl⟩ := L.priSize k kk hkf.2
  have hload := (C101_load_private M L (some kf) ⟨0, kk, d⟩).2 ⟨kf, k, kk, d, rfl, hkf, hd, rfl⟩
  have i0 := i.logged []
  have hcmd : signCmd H (mbedScheme M) p.file rnd (mbedLoadPrivate M true (some kf)) =
      ((pkgSign H (mbedScheme M) rnd (.ok ⟨0, kk, d⟩) ⟨p.hdr, p.file, []⟩).1, (pkgSign H (mbedScheme M) rnd (.ok ⟨0, kk, d⟩) ⟨p.hdr, p.file, []⟩).2.file) := by
    unfold signCmd
    rw [i.open, hload]
    rfl
  rw [hcmd, pkgSign_eq H hH _ rnd _ _ i0.good i0.small]
  have hwp : withPayloadHash H p.hdr p.file = p.hdr := by
    exact i.withHash
  simp only [hwp, mbedScheme, mbedSign, L.pri k d hd]
  cases hsg : M.sign k rnd (mdKind p.hdr.hashKind) (H p.hdr.hashKind (headerSignedBytes p.hdr)) 512 with
  | none => rfl
  | some sig =>
    simp only
    have := L.room _ _ _ _ _ _ hsg
    rw [if_neg (by omega)]
    exact ⟨_, rfl⟩

/-- A package has one metadata entry per id and reference. -/
theorem PkgInv.entry_unique {H : HashFn} {p : Pkg} {s : List (U32 × Bytes)} (i : PkgInv H p s) {e e' : Entry} (he : e ∈ entries p.hdr) (he' : e' ∈ entries p.hdr)
    (h1 : e.id = e'.id) (h2 : e.ref = e'.ref) : e = e' := by
  obtain ⟨m, hm, em⟩ := List.mem_map.1 he
  obtain ⟨m', hm', em'⟩ := List.mem_map.1 he'
  have im := i.metas.inv i.good.wf
  obtain ⟨a1, b1, u1⟩ := List.append_of_mem hm
  obtain ⟨a2, b2, u2⟩ := List.append_of_mem hm'
  obtain ⟨c1, c2⟩ := getMeta_used im a1 b1 m u1
  obtain ⟨d1, d2⟩ := getMeta_used im a2 b2 m' u2
  have w1 : m.id = m'.id := by
    have x : m.id = e.id := by rw [← em]
    have y : m'.id = e'.id := by rw [← em']
    rw [x, y, h1]
  have w2 : m.partRef = m'.partRef := by
    have x : m.partRef = e.ref := by rw [← em]
    have y : m'.partRef = e'.ref := by rw [← em']
    rw [x, y, h2]
  rw [w1, w2, d1] at c1
  rw [← Option.some.inj c1, d2] at c2
  rw [← em, ← em', Option.some.inj c2]

/-- A package has one file per id. -/
theorem PkgInv.file_unique {H : HashFn} {p : Pkg} {s : List (U32 × Bytes)} (i : PkgInv H p s) {id : U32} {d d' : Bytes} (h : (id, d) ∈ s) (h' : (id, d') ∈ s) : d = d' := by
  rw [← i.files] at h h'
  obtain ⟨q, hq, eq⟩ := List.mem_map.1 h
  obtain ⟨q', hq', eq'⟩ := List.mem_map.1 h'
  have hid : q.id = q'.id := by rw [(Prod.mk.inj eq).1, (Prod.mk.inj eq').1]
  have ip := i.good.parts.inv i.good.wf
  obtain ⟨a1, b1, u1⟩ := List.append_of_mem hq
  obtain ⟨a2, b2, u2⟩ := List.append_of_mem hq'
  obtain ⟨c1, c2⟩ := getPart_used ip a1 b1 q u1
  obtain ⟨d1, d2⟩ := getPart_used ip a2 b2 q' u2
  rw [hid, d1] at c1
  rw [← Option.some.inj c1, d2] at c2
  rw [← (Prod.mk.inj eq).2, ← (Prod.mk.inj eq').2, Option.some.inj c2]

theorem find_key {s : List (U32 × Bytes)} {id : U32} {d : Bytes} (hu : ∀ d', (id, d') ∈ s → d' = d) (h : (id, d) ∈ s) :
    s.find? (fun c => decide (c.1 = id)) = some (id, d) := by
  cases hf : s.find? (fun c => decide (c.1 = id)) with
  | none => exact absurd (List.find?_eq_none.1 hf _ h) (by simp)
  | some c =>
    obtain ⟨c1, c2⟩ := c
    have h1 : c1 = id := by simpa using List.find?_some hf
    subst h1
    rw [hu c2 (List.mem_of_find?_eq_some hf)]

/-- C102, keystores: the same with `bpak verify --keystore`. The keystore is a package made by any session of commands; it holds the id of the keystore the signed package names, and under the
key id it names a key on one of the curves, in at most 512 bytes. Then that key decides. If the key is an RSA key in at most 512 bytes, or bytes that are no key, verification fails with "key cannot be decoded". -/
theorem C102_keystore (M : Mbed) (L : MbedLaws M) (H : HashFn) (hH : HashLen H) (t : List (Cmd Key × Err)) (f : Bytes) (hsess : Session H (mbedScheme M) t (some f))
    (hb : ∀ c ∈ t, c.1.builds) (kf : Bytes) (k : M.Pri) (kk : U8) (hkf : PrivateFile M kf k kk) (rnd f' : Bytes)
    (hs : signCmd H (mbedScheme M) f rnd (mbedLoadPrivate M true (some kf)) = (.ok, f'))
    (tk : List (Cmd Key × Err)) (g : Bytes) (hks : Session H (mbedScheme M) tk (some g)) :
    ∃ hdr sig, pkgOpen H true f' = (.ok, ⟨hdr, f', []⟩) ∧ M.sign k rnd (digestOf hdr.hashKind) (H hdr.hashKind (headerSignedBytes hdr)) 512 = some sig ∧
      (hdr.keyId ≠ 0 → ∀ b ∈ entries (parseHeader (g.take 4096)), b.id = bpakId (ascii "keystore-provider-id") → b.ref = 0 → 4 ≤ b.data.length → ofLe32 (b.data.take 4) = hdr.keystoreId →
        ∀ d, (hdr.keyId, d) ∈ sessionFiles H tk → d.length ≤ 512 →
          (∀ p kp, M.parsePub d = some p → (M.pubName p, M.pubBits p, kp) ∈ publicKinds → kp ≠ 1 → verifyCmd H (mbedScheme M) f' none (some g) (mbedParsePublic M) =
            .ret (if M.verify p (digestOf hdr.hashKind) (H hdr.hashKind (headerSignedBytes hdr)) sig = true then .ok else .verifyFail)) ∧
          ((∀ p kp, M.parsePub d = some p → (M.pubName p, M.pubBits p, kp) ∈ publicKinds → kp = 1) → verifyCmd H (mbedScheme M) f' none (some g) (mbedParsePublic M) = .ret .keyDecode)) := by
  rw [digestOf_eq]
  have hS := mbed_sign_err M
  rcases session_build hH _ hS hsess hb with h | ⟨p0, s, h, i⟩
  · cases h
  cases h
  obtain ⟨dk, hd, hl⟩ := L.priSize k kk hkf.2
  have hload := (C101_load_private M L (some kf) ⟨0, kk, dk⟩).2 ⟨kf, k, kk, dk, rfl, hkf, hd, rfl⟩
  rw [hload] at hs
  obtain ⟨q, sig, rfl, iq, g1, g2, g3, g4⟩ := sign_facts hH _ hS i _ rnd f' hs
  have hsig : M.sign k rnd (mdKind q.hdr.hashKind) (H q.hdr.hashKind (headerSignedBytes q.hdr)) 512 = some sig := by
    simp only [mbedScheme, mbedSign, L.pri k dk hd] at g1
    split at g1
    · cases g1
    · rename_i s hs; rw [hs, Except.ok.inj g1]
  refine ⟨q.hdr, sig, iq.pkg.open true, hsig, ?_⟩
  intro hkey b hb1 b1 b2 b3 b4 d hdm hdl
  rcases session_inv hH _ hS hks with ⟨h, -⟩ | ⟨ks, h, ik⟩
  · cases h
  cases h
  rw [ik.saved.2] at hb1
  rw [show bpakId (ascii "keystore-provider-id") = 0xfb367d9a by decide +kernel] at b1
  have hprov : ∀ e ∈ entries ks.hdr, e.id = 0xfb367d9a → e.ref = 0 → e = b := fun e he h1 h2 => ik.entry_unique he hb1 (by rw [h1, b1]) (by rw [h2, b2])
  have hex := (loadKeyFromPkg_exact ik q.hdr.keystoreId q.hdr.keyId hkey (fun e he h1 h2 => by rw [hprov e he h1 h2]; exact b3) (mbedParsePublic M)).1
    (fun d' hd' => by rw [ik.file_unique hd' hdm]; exact hdl)
  have hfe : (entries ks.hdr).find? (fun e => decide (e.id = 0xfb367d9a ∧ e.ref = 0)) = some b := by
    cases hf : (entries ks.hdr).find? (fun e => decide (e.id = 0xfb367d9a ∧ e.ref = 0)) with
    | none => exact absurd (List.find?_eq_none.1 hf b hb1) (by simp [b1, b2])
    | some e =>
      have : e.id = 0xfb367d9a ∧ e.ref = 0 := by simpa using List.find?_some hf
      rw [hprov e (List.mem_of_find?_eq_some hf) this.1 this.2]
  have hfk := find_key (fun d' hd' => ik.file_unique hd' hdm) hdm
  have hans : keystoreAnswer (entries ks.hdr) (sessionFiles H tk) q.hdr.keystoreId q.hdr.keyId (mbedParsePublic M) =
      match mbedParsePublic M d with
      | .error e => (e, none)
      | .ok k => (.ok, some ⟨q.hdr.keyId, k.kind, k.data⟩) := by
    unfold keystoreAnswer
    rw [hfe]
    simp only
    rw [if_neg (by simpa using b4), hfk]
    simp only
    cases mbedParsePublic M d <;> rfl
  have hcmd : verifyCmd H (mbedScheme M) q.file none (some ks.file) (mbedParsePublic M) =
      match mbedParsePublic M d with
      | .error e => .ret e
      | .ok k => pkgVerify H (mbedScheme M) ⟨q.hdr.keyId, k.kind, k.data⟩ ⟨q.hdr, q.file, []⟩ := by
    unfold verifyCmd
    rw [iq.pkg.open]
    simp only [ne_eq, not_true_eq_false, if_false]
    rw [loadKeyFromFile_saved ik _ _ none (by simp), hex, hans]
    cases he : mbedParsePublic M d with
    | error e =>
      have hne := (C101_codes M none e).2.2 d he
      subst hne
      rfl
    | ok k => rfl
  constructor
  · intro p kp hp hkp hne
    have hc : M.pubName p = .ec ∧ M.pubBits p ≤ 521 := by
      unfold publicKinds at hkp
      simp only [List.mem_cons, Prod.mk.injEq, List.not_mem_nil, or_false] at hkp
      rcases hkp with ⟨_, _, a⟩ | ⟨a, b, _⟩ | ⟨a, b, _⟩ | ⟨a, b, _⟩
      · exact absurd a hne
      all_goals exact ⟨a, by omega⟩
    obtain ⟨dp, hdp, hlp⟩ := L.ecSize p hc.1 hc.2
    rw [hcmd, (C101_parse_public M d ⟨0, kp, dp⟩).2 ⟨p, kp, dp, hp, hkp, hdp, hlp, rfl⟩]
    simp only
    rw [verify_signed hH _ (mbed_verify_err M) (iq.logged []) sig g2 g3 g4]
    simp only
    rw [mbed_verify_key M p _ (L.pub p dp hdp)]
    cases M.verify p (mdKind q.hdr.hashKind) (H q.hdr.hashKind (headerSignedBytes q.hdr)) sig <;> rfl
  · intro hno
    rw [hcmd]
    cases hp : mbedParsePublic M d with
    | error e => simp only; rw [(C101_codes M none e).2.2 d hp]
    | ok key =>
      obtain ⟨p, kp, dp, e1, e2, e3, e4, -⟩ := (C101_parse_public M d key).1 hp
      have h1 := hno p kp e1 e2
      subst h1
      have : M.pubName p = .rsa ∧ M.pubBits p = 4096 := by
        unfold publicKinds at e2
        simp only [List.mem_cons, Prod.mk.injEq, List.not_mem_nil, or_false] at e2
        rcases e2 with ⟨a, b, _⟩ | ⟨_, _, a⟩ | ⟨_, _, a⟩ | ⟨_, _, a⟩
        · exact ⟨a, b⟩
        all_goals exact absurd a (by decide)
      have := L.rsaSize p dp this.1 this.2 e3
      omega

/-- C101, code generation: from a package that holds an RSA key of 4096 bits, `bpak generate keystore` makes nothing of use: at the first such key it stops with "key cannot be decoded". -/
theorem C101_generate_rsa_is_false (M : Mbed) (L : MbedLaws M) (H : HashFn) (hH : HashLen H) (t : List (Cmd Key × Err)) (f : Bytes) (h : Session H (mbedScheme M) t (some f))
    (a b : Entry) (ha : a ∈ entries (parseHeader (f.take 4096))) (a1 : a.id = bpakId (ascii "bpak-package")) (a2 : a.ref = 0)
    (hb : b ∈ entries (parseHeader (f.take 4096))) (b1 : b.id = bpakId (ascii "keystore-provider-id")) (b2 : b.ref = 0) (b4 : 4 ≤ b.data.length)
    (name : Bytes) (deco : Bool) (pre post : List (U32 × Bytes)) (id : U32) (d : Bytes) (hfiles : sessionFiles H t = pre ++ (id, d) :: post)
    (hpre : ∀ c ∈ pre, ∃ k, mbedParsePublic M c.2 = .ok k ∧ c.2.length ≤ 4096)
    (hd : d.length ≤ 4096) (p : M.Pub) (hp : M.parsePub d = some p) (h1 : M.pubName p = .rsa) (h2 : M.pubBits p = 4096) :
    ∃ ks, generateKeystore (some f) (some name) deco (mbedParsePublic M) = .ret (.keyDecode, ⟨ks, none⟩) ∧ ks.map (·.id) = pre.map (·.1) := by
  refine (C97_generate_failure H hH _ (mbed_sign_err M) t f h name deco (mbedParsePublic M)).2 a b ha a1 a2 hb b1 b2 b4 pre id d post .keyDecode hfiles ?_
    (Or.inr (Or.inl ⟨hd, C101_rsa_is_false M L d p hp h1 h2⟩))
  intro c hc
  obtain ⟨k, e1, e2⟩ := hpre c hc
  obtain ⟨p', kp, dp, -, e4, -, -, rfl⟩ := (C101_parse_public M _ _).1 e1
  refine ⟨_, e1, ?_, e2⟩
  unfold publicKinds at e4
  simp only [List.mem_cons, Prod.mk.injEq, List.not_mem_nil, or_false] at e4
  rcases e4 with ⟨_, _, rfl⟩ | ⟨_, _, rfl⟩ | ⟨_, _, rfl⟩ | ⟨_, _, rfl⟩ <;> simp only [List.mem_cons, true_or, or_true]

end Bpak
