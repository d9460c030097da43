import Verif.Props.SignVerify
import Verif.Props.CryptoAccept
import Verif.Props.GenerateExample
/-! Concrete keys and packages for C101 and C102. -/
namespace Bpak

@[irreducible] def exPad : Bytes := List.replicate 549 7
theorem exPad_length : exPad.length = 549 := by unfold exPad; exact List.length_replicate

/-- Bytes as a key: three bytes for one on a curve; two or 550 for an RSA key. -/
def exPub (b : Bytes) : Option (Bool × U8) :=
  if b.length = 550 then b.head?.map (fun n => (true, n)) else match b with
    | [1, n, 3] => some (false, n)
    | [4, n] => some (true, n)
    | _ => none

theorem exPub_rsa (n : U8) (r : Bytes) (h : r.length = 549) : exPub (n :: r) = some (true, n) := by
  unfold exPub
  rw [if_pos (by rw [List.length_cons, h])]
  rfl

/-- Toy keys: on a curve (`false`) or RSA (`true`), with a number. A signature is that number, the kind of digest and the digest. -/
def exMbed : Mbed where
  Pub := Bool × U8
  Pri := Bool × U8
  parsePub := exPub
  parsePubFile f := match f with
    | [80, n] => some (false, n)
    | [82, n] => some (true, n)
    | _ => none
  parsePri b := match b with
    | [0, n] => some (false, n)
    | [1, n] => some (true, n)
    | _ => none
  parsePriFile f := match f with
    | [81, n] => some (false, n)
    | [83, n] => some (true, n)
    | _ => none
  pubName p := if p.1 then .rsa else .ec
  pubBits p := if p.1 then 4096 else 256
  priName p := if p.1 then .rsa else .ec
  priBits p := if p.1 then 4096 else 256
  derPub p := if p.1 then some (p.2 :: exPad) else some [1, p.2, 3]
  derPri p := if p.1 then some [1, p.2] else some [0, p.2]
  sign p _ md hash room := match md with
    | none => none
    | some m => if hash.length + 2 ≤ room then some (p.2 :: m :: hash) else none
  verify p md hash sig := match md with
    | none => false
    | some m => decide (sig = p.2 :: m :: hash)

theorem exMbed_laws : MbedLaws exMbed where
  pub := by
    rintro ⟨r, n⟩ d h
    cases r
    · cases h; rfl
    · rw [← Option.some.inj h]
      exact exPub_rsa n _ exPad_length
  pri := by
    rintro ⟨r, n⟩ d h
    cases r <;> cases h <;> rfl
  room := by
    intro k rnd md hash room s h
    cases md with
    | none => cases h
    | some m =>
      have h : (if hash.length + 2 ≤ room then some (k.2 :: m :: hash) else none) = some s := h
      split at h
      · rename_i hr; rw [← Option.some.inj h]; exact hr
      · cases h
  ecSize := by
    rintro ⟨r, n⟩ h _
    cases r
    · exact ⟨_, rfl, Nat.le_of_ble_eq_true rfl⟩
    · cases h
  rsaSize := by
    rintro ⟨r, n⟩ d h _ hd
    cases r
    · cases h
    · rw [← Option.some.inj hd, List.length_cons, exPad_length]; decide
  priSize := by
    rintro ⟨r, n⟩ kind _
    cases r <;> exact ⟨_, rfl, Nat.le_of_ble_eq_true rfl⟩

theorem exMbed_pair (n : U8) : exMbed.Pair (false, n) (false, n) := by
  intro rnd md hash room s h
  cases md with
  | none => cases h
  | some m =>
    have h : (if hash.length + 2 ≤ room then some (n :: m :: hash) else none) = some s := h
    split at h
    · show decide (s = n :: m :: hash) = true
      rw [← Option.some.inj h]; exact decide_eq_true rfl
    · cases h

/-- Key files: each kind loads; a key that mbedtls reads, but in bytes that are too many, and one bpak has not heard of, do not. -/
example : PublicFile exMbed [80, 5] (false, 5) 2 ∧ PrivateFile exMbed [81, 5] (false, 5) 6 ∧ PublicFile exMbed [82, 5] (true, 5) 1 ∧
    mbedLoadPublic exMbed (some [80, 5]) = .ok ⟨0, 2, [1, 5, 3]⟩ ∧ mbedLoadPrivate exMbed true (some [83, 5]) = .ok ⟨0, 5, [1, 5]⟩ ∧
    mbedLoadPublic exMbed (some [82, 5]) = .ok ⟨0, 1, 5 :: exPad⟩ ∧ mbedLoadPublic exMbed (some []) = .error .keyDecode ∧ mbedLoadPublic exMbed none = .error .keyDecode ∧
    mbedParsePublic exMbed [1, 5, 3] = .ok ⟨0, 2, [1, 5, 3]⟩ ∧ mbedParsePublic exMbed (5 :: exPad) = .error .keyDecode := by
  have hf : PublicFile exMbed [82, 5] (true, 5) 1 := ⟨rfl, by decide⟩
  refine ⟨⟨rfl, by decide⟩, ⟨rfl, by decide⟩, hf, ?_, ?_, ?_, rfl, rfl, ?_, ?_⟩
  · exact (C101_load_public exMbed _ _).2 ⟨_, (false, 5), 2, _, rfl, ⟨rfl, by decide⟩, rfl, by decide, rfl⟩
  · exact (C101_load_private exMbed exMbed_laws _ _).2 ⟨_, (true, 5), 5, _, rfl, ⟨rfl, by decide⟩, rfl, rfl⟩
  · exact (C101_load_public exMbed _ _).2 ⟨_, _, _, _, rfl, hf, rfl, by rw [List.length_cons, exPad_length]; decide, rfl⟩
  · exact (C101_parse_public exMbed _ _).2 ⟨(false, 5), 2, _, exMbed_laws.pub (false, 5) _ rfl, by decide, rfl, by decide, rfl⟩
  · exact C101_rsa_is_false exMbed exMbed_laws _ (true, 5) (exMbed_laws.pub (true, 5) _ rfl) rfl rfl

/-- A command that does not sign, for other kinds of keys. -/
def Cmd.retype {SK SK' : Type} : Cmd SK → Cmd SK'
  | .create a b c d => .create a b c d
  | .addPart a b c d e f => .addPart a b c d e f
  | .addMeta o => .addMeta o
  | .set o => .set o
  | .delete a b c => .delete a b c
  | .sign _ _ => .signRaw []
  | .signRaw s => .signRaw s
  | .transportAdd a b c => .transportAdd a b c

def Cmd.signs {SK : Type} : Cmd SK → Bool
  | .sign _ _ => true
  | _ => false

theorem retype_session {SK SK' PK PK' : Type} {H : HashFn} (S : SigScheme SK PK) (S' : SigScheme SK' PK') {t : List (Cmd SK × Err)} {f : Option Bytes} (h : Session H S t f)
    (hn : ∀ c ∈ t, c.1.signs = false) : Session H S' (t.map (fun c => (c.1.retype, c.2))) f := by
  induction h with
  | start => exact .start
  | @run t f f' c e h1 ha hs ht ih =>
    rw [List.map_append]
    have hc := hn (c, e) (by simp)
    refine .run (ih (fun c hc => hn c (by simp [hc]))) ?_ ?_ ?_
    · cases c <;> first | exact ha | cases hc
    · cases f <;> cases c <;> first | exact hs | cases hc
    · have : Cmd.isTree (Cmd.retype c : Cmd SK') = c.isTree := by
        cases c with
        | addPart a b c d e f => cases c <;> rfl
        | sign a b => cases hc
        | _ => rfl
      intro h
      exact ht (this ▸ h)

/-- A package that names the keystore of `exKsCmds` and its first key. -/
def exSvCmds : List (Cmd Unit) := [
  .create none none false 0,
  .set { keyId := some (ascii "k1"), keystoreId := some (ascii "0x64636261") } ]

def exSvFile : Bytes := unrle [(50, 1), (65, 1), (80, 1), (66, 1), (0, 3460), (1, 1), (2, 1), (0, 1), (2, 1), (0, 64), (86, 1), (178, 1), (215, 2), (97, 1), (98, 1), (99, 1), (100, 1), (0, 556)]

set_option maxRecDepth 100000 in
theorem exSvRun : runOut none exSvCmds = some ([.ok, .ok], some exSvFile) := runTo_eq (by decide +kernel)

theorem exSv_session : ∃ t, Session exHash (mbedScheme exMbed) t (some exSvFile) ∧ ∀ c ∈ t, c.1.builds := by
  have := runCmds_session exSvCmds [] none _ (some exSvFile) ?_ .start (runOut_eq exSvRun)
  · refine ⟨_, retype_session _ (mbedScheme exMbed) this ?_, ?_⟩
    · intro c hc
      simp only [List.nil_append, exSvCmds, List.zip_cons_cons, List.zip_nil_right, List.mem_cons, List.not_mem_nil, or_false] at hc
      rcases hc with rfl | rfl <;> rfl
    · intro c hc
      simp only [List.nil_append, exSvCmds, List.zip_cons_cons, List.zip_nil_right, List.map_cons, List.map_nil, List.mem_cons, List.not_mem_nil, or_false] at hc
      rcases hc with rfl | rfl
      · trivial
      · exact rfl
  · intro c hc f _
    simp only [exSvCmds, List.mem_cons, List.not_mem_nil, or_false] at hc
    rcases hc with rfl | rfl
    · trivial
    · intro n hn; cases hn

theorem exSv_sign : ∃ f', signCmd exHash (mbedScheme exMbed) exSvFile [] (mbedLoadPrivate exMbed true (some [81, 2])) = (.ok, f') := by
  obtain ⟨t, h, -⟩ := exSv_session
  obtain ⟨hdr, h1, h2⟩ := C102_sign exMbed exMbed_laws exHash exHash_len t exSvFile h [81, 2] (false, 2) 6 ⟨rfl, by decide⟩ []
  have hk : hdr.hashKind = 1 := by
    have : hdr = (pkgOpen exHash true exSvFile).2.hdr := by rw [h1]
    rw [this]
    decide +kernel
  rw [hk] at h2
  exact h2

set_option maxRecDepth 100000 in
theorem exSv_ids : (pkgOpen exHash true (signCmd exHash (mbedScheme exMbed) exSvFile [] (mbedLoadPrivate exMbed true (some [81, 2]))).2).2.hdr.keyId = bpakId (ascii "k1") ∧
    (pkgOpen exHash true (signCmd exHash (mbedScheme exMbed) exSvFile [] (mbedLoadPrivate exMbed true (some [81, 2]))).2).2.hdr.keystoreId = 0x64636261 := by decide +kernel

theorem exKs_sessionMbed : ∃ t, Session exHash (mbedScheme exMbed) t (some exKsFile) ∧ sessionFiles exHash t = [(bpakId (ascii "k1"), [1, 2, 3]), (bpakId (ascii "k2"), [4, 5])] := by
  refine ⟨_, retype_session _ (mbedScheme exMbed) exKs_run ?_, rfl⟩
  intro c hc
  simp only [exKsCmds, List.zip_cons_cons, List.zip_nil_right, List.mem_cons, List.not_mem_nil, or_false] at hc
  rcases hc with rfl | rfl | rfl | rfl | rfl <;> rfl

/-- Signed with key 2: verified with its public key, refused with another. -/
theorem exSv_verified : ∃ f', signCmd exHash (mbedScheme exMbed) exSvFile [] (mbedLoadPrivate exMbed true (some [81, 2])) = (.ok, f') ∧
    verifyCmd exHash (mbedScheme exMbed) f' (some (mbedLoadPublic exMbed (some [80, 2]))) none (mbedParsePublic exMbed) = .ret .ok ∧
    verifyCmd exHash (mbedScheme exMbed) f' (some (mbedLoadPublic exMbed (some [80, 3]))) none (mbedParsePublic exMbed) = .ret .verifyFail := by
  obtain ⟨t, h, hb⟩ := exSv_session
  obtain ⟨f', hs⟩ := exSv_sign
  have hkf : PrivateFile exMbed [81, 2] (false, 2) 6 := ⟨rfl, by decide⟩
  refine ⟨f', hs, C102_own_key exMbed exMbed_laws exHash exHash_len t exSvFile h hb [81, 2] [80, 2] (false, 2) (false, 2) 6 2 hkf ⟨rfl, by decide⟩ (exMbed_pair 2) (fun h => absurd h (by decide)) [] f' none
    (mbedParsePublic exMbed) hs, ?_⟩
  obtain ⟨hdr, sig, -, -, -, g1, g2⟩ := C102_sign_then_verify exMbed exMbed_laws exHash exHash_len t exSvFile h hb [81, 2] (false, 2) 6 hkf [] f' hs
  obtain ⟨key, hkey, -⟩ := C101_curve_keys exMbed exMbed_laws [80, 3] (false, 3) 2 ⟨rfl, by decide⟩ (by decide)
  rw [g2 [80, 3] (false, 3) key none (mbedParsePublic exMbed) rfl hkey, if_neg]
  intro hv
  revert g1 hv
  generalize digestOf hdr.hashKind = md
  cases md with
  | none => intro g1; cases g1
  | some m =>
    intro g1 hv
    have g1 : (if _ then some ((2 : U8) :: m :: exHash hdr.hashKind (headerSignedBytes hdr)) else none) = some sig := g1
    split at g1
    · have hv : decide (sig = 3 :: m :: exHash hdr.hashKind (headerSignedBytes hdr)) = true := hv
      rw [← Option.some.inj g1] at hv
      have := of_decide_eq_true hv
      injection this with a b
      exact absurd a (by decide)
    · cases g1

/-- The same with the keystore, whose first key is key 2. And no code can be generated from the keystore, as its second key is an RSA key. -/
example : (∃ f', signCmd exHash (mbedScheme exMbed) exSvFile [] (mbedLoadPrivate exMbed true (some [81, 2])) = (.ok, f') ∧
      verifyCmd exHash (mbedScheme exMbed) f' none (some exKsFile) (mbedParsePublic exMbed) = .ret .ok) ∧
    ∃ ks, generateKeystore (some exKsFile) (some (ascii "k")) true (mbedParsePublic exMbed) = .ret (.keyDecode, ⟨ks, none⟩) := by
  obtain ⟨t, h, hb⟩ := exSv_session
  obtain ⟨f', hs⟩ := exSv_sign
  obtain ⟨tk, hk, ek⟩ := exKs_sessionMbed
  have hkf : PrivateFile exMbed [81, 2] (false, 2) 6 := ⟨rfl, by decide⟩
  have b1 : (⟨bpakId (ascii "keystore-provider-id"), 0, [97, 98, 99, 100, 0]⟩ : Entry) ∈ entries (parseHeader (exKsFile.take 4096)) := by rw [exKs_entries]; simp
  have a1 : (⟨bpakId (ascii "bpak-package"), 0, [120, 0]⟩ : Entry) ∈ entries (parseHeader (exKsFile.take 4096)) := by rw [exKs_entries]; simp
  refine ⟨⟨f', hs, ?_⟩, ?_⟩
  · obtain ⟨hdr, sig, g0, g1, g2⟩ := C102_keystore exMbed exMbed_laws exHash exHash_len t exSvFile h hb [81, 2] (false, 2) 6 hkf [] f' hs tk exKsFile hk
    have hids : hdr.keyId = bpakId (ascii "k1") ∧ hdr.keystoreId = 0x64636261 := by
      have e1 : f' = (signCmd exHash (mbedScheme exMbed) exSvFile [] (mbedLoadPrivate exMbed true (some [81, 2]))).2 := by rw [hs]
      have e2 : hdr = (pkgOpen exHash true f').2.hdr := by rw [g0]
      rw [e2, e1]
      exact exSv_ids
    rw [hids.1, hids.2, ek] at g2
    have := ((g2 (by decide +kernel) _ b1 rfl rfl (by decide) (by decide)) [1, 2, 3] List.mem_cons_self (by decide)).1 (false, 2) 2 rfl (by decide) (by decide)
    rw [this, if_pos (exMbed_pair 2 _ _ _ _ _ g1)]
  · obtain ⟨ks, h1, -⟩ := C101_generate_rsa_is_false exMbed exMbed_laws exHash exHash_len tk exKsFile hk _ _ a1 rfl rfl b1 rfl rfl (by decide) (ascii "k") true
      [(bpakId (ascii "k1"), [1, 2, 3])] [] (bpakId (ascii "k2")) [4, 5] (by rw [ek]; rfl)
      (by intro c hc; rw [List.mem_singleton.1 hc]; exact ⟨_, (C101_parse_public exMbed _ _).2 ⟨(false, 2), 2, _, rfl, by decide, rfl, by decide, rfl⟩, by decide⟩)
      (by decide) (true, 5) rfl rfl rfl
    exact ⟨ks, h1⟩

/-- The accepted package: `C102_accept_means` speaks about it. -/
example : ∃ key p pk, pkgVerify exHash (mbedScheme exMbed) key p = .ret .ok ∧ p.hdr.WF ∧ exMbed.parsePub key.data = some pk ∧
    exMbed.verify pk (some p.hdr.hashKind) (exHash p.hdr.hashKind (headerSignedBytes p.hdr)) (p.hdr.signature.take p.hdr.signatureSz.toNat) = true := by
  obtain ⟨t, h, hb⟩ := exSv_session
  obtain ⟨f', hs, hv, -⟩ := exSv_verified
  obtain ⟨hdr, sig, ho, -, -, -, -⟩ := C102_sign_then_verify exMbed exMbed_laws exHash exHash_len t exSvFile h hb [81, 2] (false, 2) 6 ⟨rfl, by decide⟩ [] f' hs
  obtain ⟨key, hkey, -⟩ := C101_curve_keys exMbed exMbed_laws [80, 2] (false, 2) 2 ⟨rfl, by decide⟩ (by decide)
  unfold verifyCmd at hv
  rw [ho, hkey] at hv
  have hv : pkgVerify exHash (mbedScheme exMbed) key ⟨hdr, f', []⟩ = .ret .ok := hv
  have w : hdr.WF := by
    have hS := mbed_sign_err exMbed
    rcases session_build exHash_len _ hS h hb with h0 | ⟨p0, s, h0, i⟩
    · cases h0
    have h0 := Option.some.inj h0
    rw [h0] at hs
    obtain ⟨d, hd, hl⟩ := exMbed_laws.priSize (false, 2) 6 (by decide)
    have hload := (C101_load_private exMbed exMbed_laws (some [81, 2]) ⟨0, 6, d⟩).2 ⟨[81, 2], (false, 2), 6, d, rfl, ⟨rfl, by decide⟩, hd, rfl⟩
    rw [hload] at hs
    obtain ⟨q, sg, e, iq, -⟩ := sign_facts exHash_len _ hS i _ [] f' hs
    subst e
    rw [iq.pkg.open true] at ho
    have : q.hdr = hdr := congrArg (fun r => r.2.hdr) ho
    exact this ▸ iq.pkg.good.wf
  obtain ⟨-, pk, h1, h2⟩ := C102_accept_means exMbed exHash key ⟨hdr, f', []⟩ w hv
  exact ⟨key, ⟨hdr, f', []⟩, pk, hv, w, h1, h2⟩

end Bpak
