import Verif.Props.SignRaw
import Verif.Props.Keystore
/-! `bpak verify --keystore` (C83). -/
namespace Bpak

/-- What is stored after a history that ends with signing. -/
theorem signed_last {SK PK : Type} (H : HashFn) (hH : HashLen H) (S : SigScheme SK PK) (hS : ∀ sk rnd k d, S.sign sk rnd k d ≠ .error .ok)
    (ops : List (BuildOp SK)) (hb : ∀ o ∈ ops, o.builds) (sk : SK) (rnd : Bytes)
    (p0 p : Pkg) (h0 : pkgOpen H true [] = (.ok, p0)) (hr : buildRun H S p0 (ops ++ [.plain (.sign sk rnd)]) = some p) :
    ∃ sig, S.sign sk rnd p.hdr.hashKind (H p.hdr.hashKind (headerSignedBytes p.hdr)) = .ok sig ∧ sig.length ≤ 512 ∧
      p.hdr.signatureSz.toNat = sig.length ∧ p.hdr.signature.take sig.length = sig := by
  have split : ∀ (ops : List (BuildOp SK)) (p0 : Pkg), buildRun H S p0 (ops ++ [.plain (.sign sk rnd)]) = some p →
      ∃ p1, buildRun H S p0 ops = some p1 ∧ buildStep H S p1 (.plain (.sign sk rnd)) = some p := by
    intro ops
    induction ops with
    | nil =>
      intro p0 h
      refine ⟨p0, rfl, ?_⟩
      simp only [List.nil_append, buildRun] at h
      split at h
      · cases h
      · rename_i p1 h1; rw [h1]; exact h
    | cons o ops ih =>
      intro p0 h
      simp only [List.cons_append, buildRun] at h ⊢
      split at h
      · cases h
      · rename_i p1 h1
        obtain ⟨p2, a, b⟩ := ih p1 h
        exact ⟨p2, a, b⟩
  obtain ⟨p1, h1, h2⟩ := split ops p0 hr
  have i := build_inv H hH S hS ops hb p0 p1 h0 h1
  have hs : pkgSign H S rnd (.ok sk) p1 = (.ok, p) := by
    simp only [buildStep, pkgStep] at h2
    split at h2
    · rename_i p2 hp2; cases h2; exact hp2
    · cases h2
  rw [pkgSign_eq H hH S rnd _ p1 i.pkg.good i.pkg.small] at hs
  simp only at hs
  split at hs
  · rename_i e he; injection hs with a b; exact absurd (a ▸ he) (hS sk rnd _ _)
  · rename_i sig he
    split at hs
    · injection hs with a b; cases a
    · rename_i hlen
      have e := (Prod.mk.inj hs).2
      have e1 : p.hdr = signedHdr H p1 sig := by rw [← e]; rfl
      refine ⟨sig, ?_, by omega, ?_, ?_⟩
      · rw [e1]; exact he
      · rw [e1]
        show (BitVec.ofNat 16 sig.length).toNat = _
        rw [BitVec.toNat_ofNat]; omega
      · rw [e1]
        show (sig ++ _).take _ = _
        rw [List.take_left]

/-- C83: of a package that was built (with hash trees or not), given key and keystore ids, and signed: `bpak verify --keystore` accepts it
exactly if the keystore is the one the package names, it holds a key under the id the package names, and the signature is valid under
that very key. Missing: keys of more than 512 bytes, which overrun a buffer (C72). -/
theorem C83_verify_with_keystore_partial {SK SK' PK' : Type} (H : HashFn) (hH : HashLen H) (S : SigScheme SK Key) (hS : ∀ sk rnd k d, S.sign sk rnd k d ≠ .error .ok)
    (hV : ∀ pk k d s, S.verify pk k d s ≠ .error .ok)
    (ops : List (BuildOp SK)) (hb : ∀ o ∈ ops, o.builds) (sk : SK) (rnd : Bytes)
    (p0 p : Pkg) (h0 : pkgOpen H true [] = (.ok, p0)) (hr : buildRun H S p0 (ops ++ [.plain (.sign sk rnd)]) = some p)
    (S' : SigScheme SK' PK') (hS' : ∀ sk rnd k d, S'.sign sk rnd k d ≠ .error .ok) (kops : List (PkgOp SK')) (ks : Pkg) (hkr : pkgRun H S' p0 kops = some ks)
    (hk : p.hdr.keyId ≠ 0) (hprov : ∀ e ∈ entries ks.hdr, e.id = 0xfb367d9a → e.ref = 0 → 4 ≤ e.data.length)
    (parse : Bytes → Except Err Key) (hp : ∀ d, parse d ≠ .error .ok) (hsize : ∀ d, (p.hdr.keyId, d) ∈ expect [] kops → d.length ≤ 512) :
    ∃ sig, S.sign sk rnd p.hdr.hashKind (H p.hdr.hashKind (headerSignedBytes p.hdr)) = .ok sig ∧
      (verifyCmd H S p.file none (some ks.file) parse = .ret .ok ↔
        ∃ e d k, e ∈ entries ks.hdr ∧ e.id = 0xfb367d9a ∧ e.ref = 0 ∧ ofLe32 (e.data.take 4) = p.hdr.keystoreId ∧
          (p.hdr.keyId, d) ∈ expect [] kops ∧ parse d = .ok k ∧
          S.verify ⟨p.hdr.keyId, k.kind, k.data⟩ p.hdr.hashKind (H p.hdr.hashKind (headerSignedBytes p.hdr)) sig = .ok true) := by
  have hbs : ∀ o ∈ ops ++ [.plain (.sign sk rnd)], o.builds := by
    intro o ho
    rcases List.mem_append.1 ho with ho | ho
    · exact hb o ho
    · rw [List.mem_singleton] at ho; subst ho; trivial
  have i := build_inv H hH S hS _ hbs p0 p h0 hr
  have ik := run_inv H hH S' hS' kops p0 ks h0 hkr
  obtain ⟨sig, s1, s2, s3, s4⟩ := signed_last H hH S hS ops hb sk rnd p0 p h0 hr
  refine ⟨sig, s1, ?_⟩
  have hcmd : verifyCmd H S p.file none (some ks.file) parse =
      match keystoreAnswer (entries ks.hdr) (expect [] kops) p.hdr.keystoreId p.hdr.keyId parse with
      | (.ok, some k) => pkgVerify H S k p
      | (e, _) => .ret e := by
    unfold verifyCmd
    rw [i.pkg.open]
    simp only [ne_eq, not_true_eq_false, if_false]
    rw [C71_load_exact_partial H hH S' hS' kops p0 ks h0 hkr p.hdr.keystoreId p.hdr.keyId hk hprov none (by simp) parse hsize]
    generalize keystoreAnswer (entries ks.hdr) (expect [] kops) p.hdr.keystoreId p.hdr.keyId parse = r
    obtain ⟨e, k⟩ := r
    cases e <;> cases k <;> rfl
  have hver : ∀ k, pkgVerify H S k p = .ret .ok ↔ S.verify k p.hdr.hashKind (H p.hdr.hashKind (headerSignedBytes p.hdr)) sig = .ok true := by
    intro k
    rw [C33_verify_iff H hH S k p i.pkg.good i.pkg.small (by omega) (hV k), s3, s4]
    exact ⟨fun h => h.1, fun h => ⟨h, i.pkg.hash, i.trees⟩⟩
  have huniq : ∀ d d', (p.hdr.keyId, d) ∈ expect [] kops → (p.hdr.keyId, d') ∈ expect [] kops → d = d' := by
    intro d d' a b
    rw [← ik.files] at a b
    obtain ⟨q, hq, eq⟩ := List.mem_map.1 a
    obtain ⟨q', hq', eq'⟩ := List.mem_map.1 b
    have hid : q.id = q'.id := by rw [(Prod.mk.inj eq).1, (Prod.mk.inj eq').1]
    have ip := ik.good.parts.inv ik.good.wf
    obtain ⟨a1, b1, u1⟩ := List.append_of_mem hq
    obtain ⟨a2, b2, u2⟩ := List.append_of_mem hq'
    obtain ⟨c1, c2⟩ := getPart_used ip a1 b1 q u1
    obtain ⟨d1, d2⟩ := getPart_used ip a2 b2 q' u2
    rw [hid, d1] at c1
    rw [← Option.some.inj c1, d2] at c2
    rw [← (Prod.mk.inj eq).2, ← (Prod.mk.inj eq').2, Option.some.inj c2]
  rw [hcmd]
  unfold keystoreAnswer
  cases he : (entries ks.hdr).find? (fun e => decide (e.id = 0xfb367d9a ∧ e.ref = 0)) with
  | none =>
    simp only
    constructor
    · intro h; cases h
    · rintro ⟨e, d, k, h1, h2, h3, _⟩
      exact absurd (List.find?_eq_none.1 he e h1) (by simp [h2, h3])
  | some e =>
    have hem := List.mem_of_find?_eq_some he
    have hep : e.id = 0xfb367d9a ∧ e.ref = 0 := by simpa using List.find?_some he
    have hone : ∀ e' ∈ entries ks.hdr, e'.id = 0xfb367d9a → e'.ref = 0 → e' = e := by
      intro e' h1 h2 h3
      obtain ⟨m, hm, em⟩ := List.mem_map.1 hem
      obtain ⟨m', hm', em'⟩ := List.mem_map.1 h1
      have im := ik.metas.inv ik.good.wf
      obtain ⟨a1, b1, u1⟩ := List.append_of_mem hm
      obtain ⟨a2, b2, u2⟩ := List.append_of_mem hm'
      obtain ⟨c1, c2⟩ := getMeta_used im a1 b1 m u1
      obtain ⟨d1, d2⟩ := getMeta_used im a2 b2 m' u2
      have w1 : m.id = m'.id := by
        have x : m.id = e.id := by rw [← em]
        have y : m'.id = e'.id := by rw [← em']
        rw [x, y, hep.1, h2]
      have w2 : m.partRef = m'.partRef := by
        have x : m.partRef = e.ref := by rw [← em]
        have y : m'.partRef = e'.ref := by rw [← em']
        rw [x, y, hep.2, h3]
      rw [w1, w2, d1] at c1
      rw [← Option.some.inj c1, d2] at c2
      rw [← em, ← em', Option.some.inj c2]
    simp only
    by_cases hks : ofLe32 (e.data.take 4) = p.hdr.keystoreId
    · rw [if_neg (by simpa using hks)]
      cases hf : (expect [] kops).find? (fun c => decide (c.1 = p.hdr.keyId)) with
      | none =>
        simp only
        constructor
        · intro h; cases h
        · rintro ⟨e', d, k, h1, h2, h3, h4, h5, _⟩
          exact absurd (List.find?_eq_none.1 hf _ h5) (by simp)
      | some c =>
        have hcm := List.mem_of_find?_eq_some hf
        have hcp : c.1 = p.hdr.keyId := by simpa using List.find?_some hf
        obtain ⟨c1, c2⟩ := c
        simp only at hcp
        subst hcp
        simp only
        cases hpa : parse c2 with
        | error er =>
          simp only
          constructor
          · intro h
            have : er = .ok := by
              cases er <;> first | rfl | cases h
            exact absurd (this ▸ hpa) (hp c2)
          · rintro ⟨e', d, k, h1, h2, h3, h4, h5, h6, _⟩
            rw [huniq d c2 h5 hcm, hpa] at h6
            cases h6
        | ok k =>
          simp only
          rw [hver]
          constructor
          · intro h
            exact ⟨e, c2, k, hem, hep.1, hep.2, hks, hcm, hpa, h⟩
          · rintro ⟨e', d, k', h1, h2, h3, h4, h5, h6, h7⟩
            rw [huniq d c2 h5 hcm, hpa] at h6
            rw [Except.ok.inj h6]
            exact h7
    · rw [if_pos (by simpa using hks)]
      simp only
      constructor
      · intro h; cases h
      · rintro ⟨e', d, k, h1, h2, h3, h4, _⟩
        rw [hone e' h1 h2 h3] at h4
        exact absurd h4 hks

/-- The hypotheses of C83 are met, and the package is accepted; with another keystore id it is not. -/
example : ∃ p0 p p' ks, pkgOpen exHash true [] = (.ok, p0) ∧
    buildRun exHash exKeyScheme p0 ([.plain (.header (.setKeyId 7)), .plain (.header (.setKeystoreId 0x44332211)), .plain (.addFile 8 0 [4])] ++ [.plain (.sign () [])]) = some p ∧
    buildRun exHash exKeyScheme p0 ([.plain (.header (.setKeyId 7)), .plain (.header (.setKeystoreId 0x44332212)), .plain (.addFile 8 0 [4])] ++ [.plain (.sign () [])]) = some p' ∧
    pkgRun exHash exScheme p0 exKeystore = some ks ∧ p.hdr.keyId = 7 ∧
    (∀ e ∈ entries ks.hdr, e.id = 0xfb367d9a → e.ref = 0 → 4 ≤ e.data.length) ∧ (∀ d, (p.hdr.keyId, d) ∈ expect [] exKeystore → d.length ≤ 512) ∧
    verifyCmd exHash exKeyScheme p.file none (some ks.file) (fun d => .ok ⟨0, 1, d⟩) = .ret .ok ∧
    verifyCmd exHash exKeyScheme p'.file none (some ks.file) (fun d => .ok ⟨0, 1, d⟩) ≠ .ret .ok := by
  obtain ⟨p0, e0, _⟩ := C56_open_new exHash exHash_len
  have hS : ∀ sk rnd k d, exKeyScheme.sign sk rnd k d ≠ .error .ok := by intro _ _ _ _ h; cases h
  have hV : ∀ pk k d s, exKeyScheme.verify pk k d s ≠ .error .ok := by intro _ _ _ _ h; cases h
  have hb : ∀ w, ∀ o ∈ ([.plain (.header (.setKeyId 7)), .plain (.header (.setKeystoreId w)), .plain (.addFile 8 0 [4])] : List (BuildOp Unit)), o.builds := by
    intro w o ho
    simp only [List.mem_cons, List.not_mem_nil, or_false] at ho
    rcases ho with rfl | rfl | rfl <;> trivial
  have ha : ((buildRun exHash exKeyScheme (pkgOpen exHash true []).2 ([.plain (.header (.setKeyId 7)), .plain (.header (.setKeystoreId 0x44332211)), .plain (.addFile 8 0 [4])] ++ [.plain (.sign () [])])).map
      fun p => (p.hdr.keyId, p.hdr.keystoreId)) = some (7, 0x44332211) := by decide +kernel
  have hc : ((buildRun exHash exKeyScheme (pkgOpen exHash true []).2 ([.plain (.header (.setKeyId 7)), .plain (.header (.setKeystoreId 0x44332212)), .plain (.addFile 8 0 [4])] ++ [.plain (.sign () [])])).map
      fun p => (p.hdr.keyId, p.hdr.keystoreId)) = some (7, 0x44332212) := by decide +kernel
  have hd : ((pkgRun exHash exScheme (pkgOpen exHash true []).2 exKeystore).map fun p => entries p.hdr) = some [⟨0xfb367d9a, 0, [0x11, 0x22, 0x33, 0x44]⟩] := by decide +kernel
  rw [e0] at ha hc hd
  cases ra : buildRun exHash exKeyScheme p0 ([.plain (.header (.setKeyId 7)), .plain (.header (.setKeystoreId 0x44332211)), .plain (.addFile 8 0 [4])] ++ [.plain (.sign () [])]) with
  | none => rw [ra] at ha; cases ha
  | some p =>
  cases rc : buildRun exHash exKeyScheme p0 ([.plain (.header (.setKeyId 7)), .plain (.header (.setKeystoreId 0x44332212)), .plain (.addFile 8 0 [4])] ++ [.plain (.sign () [])]) with
  | none => rw [rc] at hc; cases hc
  | some p' =>
  cases rk : pkgRun exHash exScheme p0 exKeystore with
  | none => rw [rk] at hd; cases hd
  | some ks =>
  rw [ra] at ha; rw [rc] at hc; rw [rk] at hd
  obtain ⟨ha1, ha2⟩ := Prod.mk.inj (Option.some.inj ha)
  obtain ⟨hc1, hc2⟩ := Prod.mk.inj (Option.some.inj hc)
  have hd : entries ks.hdr = [⟨0xfb367d9a, 0, [0x11, 0x22, 0x33, 0x44]⟩] := Option.some.inj hd
  have hprov : ∀ e ∈ entries ks.hdr, e.id = 0xfb367d9a → e.ref = 0 → 4 ≤ e.data.length := by
    intro e he
    rw [hd, List.mem_singleton] at he
    subst he
    intro _ _; decide
  have hsz : ∀ d, ((7 : U32), d) ∈ expect [] exKeystore → d.length ≤ 512 := by
    intro d hd
    have : expect [] exKeystore = [(7, [1, 2, 3]), (8, List.replicate 600 5)] := rfl
    rw [this] at hd
    simp only [List.mem_cons, List.not_mem_nil, or_false, Prod.mk.injEq] at hd
    rcases hd with ⟨_, rfl⟩ | ⟨h, _⟩
    · decide
    · exact absurd h (by decide)
  obtain ⟨s1, g1, v1⟩ := C83_verify_with_keystore_partial exHash exHash_len exKeyScheme hS hV _ (hb _) () [] p0 p e0 ra exScheme (by intro _ _ _ _ h; cases h) exKeystore ks rk
    (by rw [ha1]; decide) hprov (fun d => .ok ⟨0, 1, d⟩) (by intro d h; cases h) (by rw [ha1]; exact hsz)
  obtain ⟨s2, _, v2⟩ := C83_verify_with_keystore_partial exHash exHash_len exKeyScheme hS hV _ (hb _) () [] p0 p' e0 rc exScheme (by intro _ _ _ _ h; cases h) exKeystore ks rk
    (by rw [hc1]; decide) hprov (fun d => .ok ⟨0, 1, d⟩) (by intro d h; cases h) (by rw [hc1]; exact hsz)
  refine ⟨p0, p, p', ks, e0, ra, rc, rk, ha1, hprov, by rw [ha1]; exact hsz, v1.2 ?_, ?_⟩
  · refine ⟨⟨0xfb367d9a, 0, [0x11, 0x22, 0x33, 0x44]⟩, [1, 2, 3], ⟨0, 1, [1, 2, 3]⟩, by rw [hd]; exact List.mem_singleton.2 rfl, rfl, rfl, ?_, ?_, rfl, ?_⟩
    · rw [ha2]; decide +kernel
    · rw [ha1]; exact List.mem_cons_self
    · have := Except.ok.inj g1
      rw [← this]
      rfl
  · intro hv
    revert hv
    rw [v2]
    rintro ⟨e, d, k, h1, _, _, h4, _⟩
    rw [hd, List.mem_singleton] at h1
    subst h1
    rw [hc2] at h4
    exact absurd h4 (by decide +kernel)

end Bpak
