import Verif.Props.LinesOut
import Verif.Props.Main
import Verif.Props.SignVerify
/-! C114: a package signed by one line is verified by another. -/
namespace Bpak
variable [LzmaLib]

/-- What `verify` does with a package that opens, once its options are read. -/
theorem verify_line (env : Env) (w : World) (path f key : Bytes) (args : List Bytes) (hc : Clean "verify" args) (hp : (getopt verifyTable args).2.head? = some path)
    (hk : lastArg 'k' (getopt verifyTable args).1 = some key) (hf : w path = some f) (hl : 4096 ≤ f.length) (op : (pkgOpen env.H true f).1 = .ok) :
    bpakMain env w (ascii "verify" :: args) =
      match verifyCmd env.H (mbedScheme env.M) f (some (mbedLoadPublic env.M (w key))) ((lastArg 'K' (getopt verifyTable args).1).bind w) (mbedParsePublic env.M) with
      | .ub => .ub
      | .ret e => .exit e (if e = .ok then .verified else .nothing) w := by
  obtain ⟨o, h⟩ := (optLoop_total verifyStep (getopt verifyTable args).1 {} (verify_letters args)).2 hc.1 hc.2
  obtain ⟨o1, o2⟩ := verify_opts' h
  rw [main_verify]
  unfold actionVerify
  rw [withFile_go h hp]
  unfold verifyLine
  rw [hf]
  simp only [open_long env.H true f hl, put_same w path f hf, op, o1, o2, hk, Option.map_some]
  rw [if_neg (fun h => h rfl), if_neg (fun h => by cases h.1)]
  cases verifyCmd env.H (mbedScheme env.M) f (some (mbedLoadPublic env.M (w key))) ((lastArg 'K' (getopt verifyTable args).1).bind w) (mbedParsePublic env.M) <;> rfl

/-- The same with a keystore. -/
theorem verify_store_line (env : Env) (w : World) (path f store g : Bytes) (args : List Bytes) (hc : Clean "verify" args) (hp : (getopt verifyTable args).2.head? = some path)
    (hk : lastArg 'k' (getopt verifyTable args).1 = none) (hK : lastArg 'K' (getopt verifyTable args).1 = some store) (hg : w store = some g)
    (hf : w path = some f) (hl : 4096 ≤ f.length) (op : (pkgOpen env.H true f).1 = .ok) :
    bpakMain env w (ascii "verify" :: args) =
      match verifyCmd env.H (mbedScheme env.M) f none (some g) (mbedParsePublic env.M) with
      | .ub => .ub
      | .ret e => .exit e (if e = .ok then .verified else .nothing) w := by
  obtain ⟨o, h⟩ := (optLoop_total verifyStep (getopt verifyTable args).1 {} (verify_letters args)).2 hc.1 hc.2
  obtain ⟨o1, o2⟩ := verify_opts' h
  rw [main_verify]
  unfold actionVerify
  rw [withFile_go h hp]
  unfold verifyLine
  rw [hf]
  simp only [open_long env.H true f hl, put_same w path f hf, op, o1, o2, hk, hK, Option.map_none, Option.bind_some, hg]
  rw [if_neg (fun h => h rfl), if_neg (fun h => by cases h.2.1)]
  cases verifyCmd env.H (mbedScheme env.M) f none (some g) (mbedParsePublic env.M) <;> rfl

/-- What `sign` with a key does with a package that opens, once its options are read. -/
theorem sign_line (env : Env) (w : World) (path f key : Bytes) (args : List Bytes) (hc : Clean "sign" args) (hp : (getopt signTable args).2.head? = some path)
    (hk : lastArg 'k' (getopt signTable args).1 = some key) (hs : lastArg 'f' (getopt signTable args).1 = none) (hf : w path = some f) (hl : 4096 ≤ f.length) (op : (pkgOpen env.H true f).1 = .ok) :
    bpakMain env w (ascii "sign" :: args) =
      .exit (signCmd env.H (mbedScheme env.M) f env.rnd (mbedLoadPrivate env.M env.seeded (w key))).1 .nothing
        (w.put path (some (signCmd env.H (mbedScheme env.M) f env.rnd (mbedLoadPrivate env.M env.seeded (w key))).2)) := by
  obtain ⟨o, h⟩ := (optLoop_total signStep (getopt signTable args).1 {} (sign_letters args)).2 hc.1 hc.2
  obtain ⟨o1, o2⟩ := sign_opts h
  rw [main_sign]
  unfold actionSign
  rw [withFile_go h hp]
  unfold signLine
  rw [hf]
  simp only [open_long env.H true f hl, put_same w path f hf, op, o1, o2, hk, hs]
  rw [if_neg (fun h => h rfl)]
  rfl

/-- The session behind the signed package. -/
theorem signed_session (M : Mbed) (L : MbedLaws M) (H : HashFn) (hH : HashLen H) (path : Bytes) (t : List (Cmd Key × Err)) (w : World) (h : Lines H M path t w) (hb : ∀ c ∈ t, c.1.builds)
    (env : Env) (eH : env.H = H) (eM : env.M = M) (seeded : env.seeded = true) (args : List Bytes) (hc : Clean "sign" args) (hp : (getopt signTable args).2.head? = some path)
    (key kf : Bytes) (hk : lastArg 'k' (getopt signTable args).1 = some key) (hs : lastArg 'f' (getopt signTable args).1 = none) (k : M.Pri) (kk : U8) (hw : w key = some kf) (hkf : PrivateFile M kf k kk)
    (out : Printed) (w1 : World) (run : bpakMain env w (ascii "sign" :: args) = .exit .ok out w1) (f' : Bytes) (hf' : w1 path = some f') :
    w1 = w.put path (some f') ∧ ∃ t' f, Session H (mbedScheme M) t' (some f) ∧ (∀ c ∈ t', c.1.builds) ∧ 4096 ≤ f'.length ∧ signCmd H (mbedScheme M) f env.rnd (mbedLoadPrivate M true (some kf)) = (.ok, f') := by
  subst eH; subst eM
  obtain ⟨t', hsess, -, hsub⟩ := C111_lines_are_a_session env.H hH env.M path t w h
  have hb' : ∀ c ∈ t', c.1.builds := fun c hc => hb c (hsub.subset hc)
  rcases hx : w path with _ | f
  · exfalso
    obtain ⟨o, ho⟩ := (optLoop_total signStep (getopt signTable args).1 {} (sign_letters args)).2 hc.1 hc.2
    rw [main_sign] at run
    unfold actionSign at run
    rw [withFile_go ho hp] at run
    unfold signLine at run
    rw [hx] at run
    cases run
  rw [hx] at hsess
  obtain ⟨hd0, a1, -, a2, -⟩ := C84_session env.H hH _ (mbed_sign_err env.M) t' f hsess
  rw [sign_line env w path f key args hc hp hk hs hx a1 (by rw [a2]), seeded, hw] at run
  obtain ⟨r1, -, r3⟩ := Ran.exit.inj run
  generalize hsg : signCmd env.H (mbedScheme env.M) f env.rnd (mbedLoadPrivate env.M true (some kf)) = r at r1 r3
  obtain ⟨r, f2⟩ := r
  simp only at r1 r3
  subst r1
  have e2 : f2 = f' := by rw [← r3, put_at] at hf'; exact Option.some.inj hf'
  subst e2
  refine ⟨r3.symm, t', f, hsess, hb', ?_, hsg⟩
  obtain ⟨d, hd, -⟩ := L.priSize k kk hkf.2
  have hload := (C101_load_private env.M L (some kf) ⟨0, kk, d⟩).2 ⟨kf, k, kk, d, rfl, hkf, hd, rfl⟩
  have step : cmdStep env.H (mbedScheme env.M) (some f) (.sign (mbedLoadPrivate env.M true (some kf)) env.rnd) = some (.ok, some f2) := by
    unfold cmdStep
    simp only [hsg]
  have hS2 := Session.run hsess (show Allowed env.H (some f) (.sign (mbedLoadPrivate env.M true (some kf)) env.rnd) from by
    show mbedLoadPrivate env.M true (some kf) ≠ _; rw [hload]; intro h; cases h) step (fun h => by cases h)
  obtain ⟨_, l, -⟩ := C84_session env.H hH _ (mbed_sign_err env.M) _ f2 hS2
  exact l

/-- C114: take any package that lines built (adding, setting ids, signing, but no deleting and no changing of metadata), and sign it with a line that exits with 0. The file then opens and has in its header the signature that the crypto
library made over the digest of the header. Any later `bpak verify -k` on it, with whatever other files changed in between, exits with 0 exactly if the crypto library accepts this signature with the public key in the file; if it does not, with
the status of "verification failed". -/
theorem C114_sign_then_verify (M : Mbed) (L : MbedLaws M) (H : HashFn) (hH : HashLen H) (path : Bytes) (t : List (Cmd Key × Err)) (w : World) (h : Lines H M path t w) (hb : ∀ c ∈ t, c.1.builds)
    (env : Env) (eH : env.H = H) (eM : env.M = M) (seeded : env.seeded = true) (args : List Bytes) (hc : Clean "sign" args) (hp : (getopt signTable args).2.head? = some path)
    (key kf : Bytes) (hk : lastArg 'k' (getopt signTable args).1 = some key) (hs : lastArg 'f' (getopt signTable args).1 = none) (k : M.Pri) (kk : U8) (hw : w key = some kf) (hkf : PrivateFile M kf k kk)
    (out : Printed) (w1 : World) (run : bpakMain env w (ascii "sign" :: args) = .exit .ok out w1) :
    ∃ f' hdr sig, w1 = w.put path (some f') ∧ pkgOpen H true f' = (.ok, ⟨hdr, f', []⟩) ∧ hdr.signatureSz.toNat = sig.length ∧ hdr.signature.take sig.length = sig ∧
      M.sign k env.rnd (digestOf hdr.hashKind) (H hdr.hashKind (headerSignedBytes hdr)) 512 = some sig ∧
      ∀ (w2 : World) (env2 : Env) (args2 : List Bytes) (pub pf : Bytes) (p : M.Pub) (pk : Key), env2.H = H → env2.M = M → w2 path = some f' → Clean "verify" args2 →
        (getopt verifyTable args2).2.head? = some path → lastArg 'k' (getopt verifyTable args2).1 = some pub → w2 pub = some pf → M.parsePubFile pf = some p → mbedLoadPublic M (some pf) = .ok pk →
        (bpakMain env2 w2 (ascii "verify" :: args2)).status =
          some (if M.verify p (digestOf hdr.hashKind) (H hdr.hashKind (headerSignedBytes hdr)) sig = true then 0 else 236) := by
  have hx : ∃ f', w1 path = some f' := by
    rcases hx : w path with _ | f
    · exfalso
      obtain ⟨o, ho⟩ := (optLoop_total signStep (getopt signTable args).1 {} (sign_letters args)).2 hc.1 hc.2
      rw [main_sign] at run
      unfold actionSign at run
      rw [withFile_go ho hp] at run
      unfold signLine at run
      rw [hx] at run
      cases run
    · obtain ⟨_, a1, a2, -⟩ := C111_contents H hH M path f t w h hx
      rw [sign_line env w path f key args hc hp hk hs hx a1 (by rw [eH, a2])] at run
      obtain ⟨-, -, r3⟩ := Ran.exit.inj run
      exact ⟨_, by rw [← r3, put_at]⟩
  obtain ⟨f', hf'⟩ := hx
  obtain ⟨e1, t', f, hsess, hb', hl', hsg⟩ := signed_session M L H hH path t w h hb env eH eM seeded args hc hp key kf hk hs k kk hw hkf out w1 run f' hf'
  obtain ⟨hdr, sig, g1, g2, g3, g4, g5⟩ := C102_sign_then_verify M L H hH t' f hsess hb' kf k kk hkf env.rnd f' hsg
  refine ⟨f', hdr, sig, e1, g1, g2, g3, g4, ?_⟩
  intro w2 env2 args2 pub pf p pk eH2 eM2 q1 q2 q3 q4 q5 q6 q7
  rw [verify_line env2 w2 path f' pub args2 q2 q3 q4 q1 hl' (by rw [eH2, g1]), eH2, eM2, q5, g5 pf p pk _ _ q6 q7]
  by_cases hv : M.verify p (digestOf hdr.hashKind) (H hdr.hashKind (headerSignedBytes hdr)) sig = true
  · simp only [if_pos hv]; rfl
  · simp only [if_neg hv]; rfl

/-- C114, the own key: signed with a private key, the package verifies with its public key. -/
theorem C114_own_key (M : Mbed) (L : MbedLaws M) (H : HashFn) (hH : HashLen H) (path : Bytes) (t : List (Cmd Key × Err)) (w : World) (h : Lines H M path t w) (hb : ∀ c ∈ t, c.1.builds)
    (env : Env) (eH : env.H = H) (eM : env.M = M) (seeded : env.seeded = true) (args : List Bytes) (hc : Clean "sign" args) (hp : (getopt signTable args).2.head? = some path)
    (key kf : Bytes) (hk : lastArg 'k' (getopt signTable args).1 = some key) (hs : lastArg 'f' (getopt signTable args).1 = none) (k : M.Pri) (kk : U8) (hw : w key = some kf) (hkf : PrivateFile M kf k kk)
    (out : Printed) (w1 : World) (run : bpakMain env w (ascii "sign" :: args) = .exit .ok out w1)
    (pub pf : Bytes) (p : M.Pub) (kp : U8) (hpf : PublicFile M pf p kp) (hpair : M.Pair k p) (hrsa : kp = 1 → ∃ d, M.derPub p = some d ∧ d.length ≤ 1024)
    (w2 : World) (same : w2 path = w1 path) (hpub : w2 pub = some pf) (env2 : Env) (eH2 : env2.H = H) (eM2 : env2.M = M) (args2 : List Bytes) (hc2 : Clean "verify" args2)
    (hp2 : (getopt verifyTable args2).2.head? = some path) (hk2 : lastArg 'k' (getopt verifyTable args2).1 = some pub) :
    (bpakMain env2 w2 (ascii "verify" :: args2)).status = some 0 := by
  obtain ⟨f', hdr, sig, e1, -, -, -, g4, g5⟩ := C114_sign_then_verify M L H hH path t w h hb env eH eM seeded args hc hp key kf hk hs k kk hw hkf out w1 run
  obtain ⟨pk, hload⟩ : ∃ pk, mbedLoadPublic M (some pf) = .ok pk := by
    by_cases h1 : kp = 1
    · obtain ⟨d, hd, hl⟩ := hrsa h1
      exact ⟨_, (C101_load_public M _ _).2 ⟨pf, p, kp, d, rfl, hpf, hd, hl, rfl⟩⟩
    · obtain ⟨key, h, -⟩ := C101_curve_keys M L pf p kp hpf h1
      exact ⟨key, h⟩
  rw [g5 w2 env2 args2 pub pf p pk eH2 eM2 (by rw [same, e1, put_at]) hc2 hp2 hk2 hpub hpf.1 hload, if_pos (hpair _ _ _ _ _ g4)]

/-- C114, the keystore: another package, also made by lines, that has the keystore id the signed package names. `bpak verify -K` with it exits with 0 exactly if the crypto library accepts the signature with the key that was added to the
keystore under the key id of the signed package. (RSA-4096 keys are not accepted from keystores, C101.) -/
theorem C114_keystore (M : Mbed) (L : MbedLaws M) (H : HashFn) (hH : HashLen H) (path : Bytes) (t : List (Cmd Key × Err)) (w : World) (h : Lines H M path t w) (hb : ∀ c ∈ t, c.1.builds)
    (env : Env) (eH : env.H = H) (eM : env.M = M) (seeded : env.seeded = true) (args : List Bytes) (hc : Clean "sign" args) (hp : (getopt signTable args).2.head? = some path)
    (key kf : Bytes) (hk : lastArg 'k' (getopt signTable args).1 = some key) (hs : lastArg 'f' (getopt signTable args).1 = none) (k : M.Pri) (kk : U8) (hw : w key = some kf) (hkf : PrivateFile M kf k kk)
    (out : Printed) (w1 : World) (run : bpakMain env w (ascii "sign" :: args) = .exit .ok out w1)
    (store g : Bytes) (tk : List (Cmd Key × Err)) (wk : World) (hks : Lines H M store tk wk) (hg : wk store = some g) :
    ∃ f' hdr sig, w1 = w.put path (some f') ∧ pkgOpen H true f' = (.ok, ⟨hdr, f', []⟩) ∧ M.sign k env.rnd (digestOf hdr.hashKind) (H hdr.hashKind (headerSignedBytes hdr)) 512 = some sig ∧
      (hdr.keyId ≠ 0 → ∀ b ∈ entries (parseHeader (g.take 4096)), b.id = bpakId (ascii "keystore-provider-id") → b.ref = 0 → 4 ≤ b.data.length → ofLe32 (b.data.take 4) = hdr.keystoreId →
        ∀ d, (hdr.keyId, d) ∈ sessionFiles H tk → d.length ≤ 512 → ∀ p kp, M.parsePub d = some p → (M.pubName p, M.pubBits p, kp) ∈ publicKinds → kp ≠ 1 →
          ∀ (w2 : World) (env2 : Env) (args2 : List Bytes), env2.H = H → env2.M = M → w2 path = some f' → w2 store = some g → Clean "verify" args2 →
            (getopt verifyTable args2).2.head? = some path → lastArg 'k' (getopt verifyTable args2).1 = none → lastArg 'K' (getopt verifyTable args2).1 = some store →
            (bpakMain env2 w2 (ascii "verify" :: args2)).status =
              some (if M.verify p (digestOf hdr.hashKind) (H hdr.hashKind (headerSignedBytes hdr)) sig = true then 0 else 236)) := by
  obtain ⟨f', hdr0, -, e1, o1, -⟩ := C114_sign_then_verify M L H hH path t w h hb env eH eM seeded args hc hp key kf hk hs k kk hw hkf out w1 run
  obtain ⟨-, t', f, hsess, hb', hl', hsg⟩ := signed_session M L H hH path t w h hb env eH eM seeded args hc hp key kf hk hs k kk hw hkf out w1 run f' (by rw [e1, put_at])
  obtain ⟨tk', hsk, hfk, -⟩ := C111_lines_are_a_session H hH M store tk wk hks
  rw [hg] at hsk
  have es : sessionFiles H tk' = sessionFiles H tk := by rw [← sessionFiles_filter, hfk, sessionFiles_filter]
  obtain ⟨hdr, sig, g1, g2, g3⟩ := C102_keystore M L H hH t' f hsess hb' kf k kk hkf env.rnd f' hsg tk' g hsk
  refine ⟨f', hdr, sig, e1, g1, g2, ?_⟩
  intro k0 b b1 b2 b3 b4 b5 d hd dl p kp p1 p2 p3 w2 env2 args2 eH2 eM2 q1 q2 q3 q4 q5 q6
  have := (g3 k0 b b1 b2 b3 b4 b5 d (by rw [es]; exact hd) dl).1 p kp p1 p2 p3
  rw [verify_store_line env2 w2 path f' store g args2 q3 q4 q5 q6 q2 q1 hl' (by rw [eH2, g1]), eH2, eM2, this]
  by_cases hv : M.verify p (digestOf hdr.hashKind) (H hdr.hashKind (headerSignedBytes hdr)) sig = true
  · simp only [if_pos hv]; rfl
  · simp only [if_neg hv]; rfl

end Bpak
