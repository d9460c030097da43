import Verif.Proof.Hooks
/-!
C120: the crypto functions that an application installs.
-/
namespace Bpak.Hk

variable {hk : Hooks} {o : Oracle}

/-- The hash functions are those of the last call of `bpak_hash_setup`, whatever was installed before and whatever
`bpak_crypto_setup` installs before or after. -/
theorem C120_hash_functions (start : Hooks) (a b : List Setup) (i u f r : Option Nat)
    (hb : ∀ c ∈ b, ∃ v s pu pr pa, c = .crypto v s pu pr pa) :
    let hk := installed start (a ++ .hash i u f r :: b)
    hk.init = i ∧ hk.update = u ∧ hk.final = f ∧ hk.free = r := by
  unfold installed
  rw [List.foldl_append, List.foldl_cons]
  generalize List.foldl _ start a = s0
  dsimp only
  have : ∀ (b : List Setup) (h : Hooks), (∀ c ∈ b, ∃ v s pu pr pa, c = Setup.crypto v s pu pr pa) →
      (h.init = i ∧ h.update = u ∧ h.final = f ∧ h.free = r) →
      (installed h b).init = i ∧ (installed h b).update = u ∧ (installed h b).final = f ∧ (installed h b).free = r := by
    intro b
    induction b with
    | nil => exact fun h _ hh => hh
    | cons c b ih =>
      intro h hb hh
      obtain ⟨v, s, pu, pr, pa, rfl⟩ := hb _ List.mem_cons_self
      exact ih _ (fun c hc => hb c (List.mem_cons_of_mem _ hc)) hh
  exact this b _ hb ⟨rfl, rfl, rfl, rfl⟩

/-- The same for the functions of `bpak_crypto_setup`. -/
theorem C120_crypto_functions (start : Hooks) (a b : List Setup) (v s pu pr pa : Option Nat)
    (hb : ∀ c ∈ b, ∃ i u f r, c = .hash i u f r) :
    let hk := installed start (a ++ .crypto v s pu pr pa :: b)
    hk.verify = v ∧ hk.sign = s ∧ hk.loadPublic = pu ∧ hk.loadPrivate = pr ∧ hk.parsePublic = pa := by
  unfold installed
  rw [List.foldl_append, List.foldl_cons]
  generalize List.foldl _ start a = s0
  dsimp only
  have : ∀ (b : List Setup) (h : Hooks), (∀ c ∈ b, ∃ i u f r, c = Setup.hash i u f r) →
      (h.verify = v ∧ h.sign = s ∧ h.loadPublic = pu ∧ h.loadPrivate = pr ∧ h.parsePublic = pa) →
      (installed h b).verify = v ∧ (installed h b).sign = s ∧ (installed h b).loadPublic = pu ∧
        (installed h b).loadPrivate = pr ∧ (installed h b).parsePublic = pa := by
    intro b
    induction b with
    | nil => exact fun h _ hh => hh
    | cons c b ih =>
      intro h hb hh
      obtain ⟨i, u, f, r, rfl⟩ := hb _ List.mem_cons_self
      exact ih _ (fun c hc => hb c (List.mem_cons_of_mem _ hc)) hh
  exact this b _ hb ⟨rfl, rfl, rfl, rfl, rfl⟩

/-- `bpak_verify_compute_payload_hash` on a package file, with any installed functions: when it reports success, the installed
functions were given exactly the payload, none of them failed, the digest is the one of the finish function, and the context was
released. -/
theorem C120_payload_hash (h : Header) (P : Bytes) (hP : P.length < 2^63) (buf : Bytes)
    (hr : (payloadHash hk h (pkgReader P) 4096 buf o []).1.1 = .ok) :
    ∃ dig, HashedReadable P h.parts 4096 ∧
      Hashed hk h.hashKind (hashedBytes P h.parts 4096) dig (payloadHash hk h (pkgReader P) 4096 buf o []).2 ∧
      (payloadHash hk h (pkgReader P) 4096 buf o []).1 = (.ok, dig ++ buf.drop dig.length, dig.length) := by
  cases hh : payloadHash hk h (pkgReader P) 4096 buf o [] with
  | mk r l =>
    obtain ⟨e, d, n⟩ := r
    rw [hh] at hr
    dsimp only at hr
    subst hr
    obtain ⟨evs, dig, rfl, rfl, rfl, data, hd, h2⟩ := payloadHash_ok hh
    obtain ⟨h1, rfl⟩ := payload_data hP hd
    exact ⟨dig, h1, h2, rfl⟩

/-- `bpak_pkg_verify`, with any installed functions: a package is accepted only if the installed verify function accepted
exactly its signature with the key, its kind of hash, and some hash (see below), and the payload was hashed without a failure
and its hash is the one in the header, and the hash trees are right. -/
theorem C120_verify (key : Key) (p : Pkg) (hP : p.file.length < 2^63) (junk junk2 : Bytes)
    (hv : (pkgVerify hk key p junk junk2 o []).1 = .ok) :
    ∃ e1 hash v e2 dig t, (pkgVerify hk key p junk junk2 o []).2 = e1 ++ v :: (e2 ++ [t]) ∧
      (hk.verify = some v.fn ∧
        v.call = .verify (p.hdr.signature.take p.hdr.signatureSz.toNat) hash p.hdr.hashKind key ∧
        v.ans.code = .ok ∧ v.ans.flag = true) ∧
      (HashedReadable p.file p.hdr.parts 4096 ∧ Hashed hk p.hdr.hashKind (hashedBytes p.file p.hdr.parts 4096) dig e2 ∧
        dig = p.hdr.payloadHash.take dig.length) ∧
      t.call = .trees ∧ t.ans.code = .ok ∧
      ((∃ d n, (headerHash hk p.hdr junk o []) = ((.ok, d, n), e1) ∧ hash = d.take n)) := by
  unfold pkgVerify at hv ⊢
  rw [bind_eq] at hv ⊢
  cases hh : headerHash hk p.hdr junk o [] with
  | mk r e1 =>
    obtain ⟨e, d, n⟩ := r
    rw [hh] at hv
    dsimp only at hv ⊢
    by_cases he : e = .ok
    · subst he
      rw [if_pos' rfl] at hv ⊢
      cases hs : hk.verify with
      | none =>
        rw [hook_bind_none hs] at hv
        exact nomatch hv
      | some f =>
        rw [hs, hook_bind rfl] at hv
        rw [hook_bind rfl]
        by_cases ha : (o e1 f (.verify (p.hdr.signature.take p.hdr.signatureSz.toNat) (d.take n) p.hdr.hashKind key)).code = .ok
        · rw [if_pos' ha] at hv ⊢
          by_cases hf : (o e1 f (.verify (p.hdr.signature.take p.hdr.signatureSz.toNat) (d.take n) p.hdr.hashKind key)).flag = true
          · rw [if_pos' hf] at hv ⊢
            obtain ⟨e2, dig, t, h1, h2, h3, h4, h5, h6⟩ := verifyPayload_ok hP hv
            rw [h1]
            exact ⟨e1, d.take n, ⟨f, _, _⟩, e2, dig, t, by rw [List.append_assoc]; rfl, ⟨rfl, rfl, ha, hf⟩, ⟨h2, h3, h4⟩, h5, h6,
              d, n, rfl, rfl⟩
          · rw [if_neg' hf] at hv
            exact nomatch hv
        · rw [if_neg' ha] at hv
          exact absurd hv ha
    · rw [if_neg' he] at hv
      exact absurd hv he

/-- Missing: the hash that was checked is the hash of the header only if no hash function failed; see
`C120_failure_hidden` and `C120_stale_memory_checked`. -/
theorem C120_verify_partial (key : Key) (p : Pkg) (w : p.hdr.WF) (hP : p.file.length < 2^63) (junk junk2 : Bytes)
    (hv : (pkgVerify hk key p junk junk2 o []).1 = .ok) (hu : hk.update ≠ none)
    (hok : ∀ e ∈ (pkgVerify hk key p junk junk2 o []).2, e.ans.code = .ok) :
    ∃ e1 hash v e2, (pkgVerify hk key p junk junk2 o []).2 = e1 ++ v :: e2 ∧
      Hashed hk p.hdr.hashKind (headerSignedBytes p.hdr) hash e1 ∧
      v.call = .verify (p.hdr.signature.take p.hdr.signatureSz.toNat) hash p.hdr.hashKind key ∧
      v.ans.code = .ok ∧ v.ans.flag = true := by
  obtain ⟨e1, hash, v, e2, dig, t, h1, ⟨h2, h3, h4, h5⟩, ⟨_, h6, _⟩, _, _, d, n, h7, rfl⟩ := C120_verify key p hP junk junk2 hv
  refine ⟨e1, _, v, e2 ++ [t], h1, ?_, h3, h4, h5⟩
  obtain ⟨evs, g1, g2⟩ := headerHash_cases (o := o) (hk := hk) p.hdr junk []
  rw [h7] at g1 g2
  dsimp only at g1 g2
  rw [List.nil_append] at g1
  subst g1
  rcases g2 with ⟨dig', g3, g4⟩ | g | g | g | ⟨e, he, hne, _⟩
  · obtain ⟨_, g3⟩ := Prod.mk.inj g3
    obtain ⟨rfl, rfl⟩ := Prod.mk.inj g3
    rw [List.take_append_of_le_length (Nat.le_refl _), List.take_length, ← signed_bytes _ w]
    exact g4
  · obtain ⟨i, _, _, _, _, ⟨hi, _⟩, _⟩ := h6
    rw [g] at hi
    exact nomatch hi
  · exact absurd g hu
  · obtain ⟨_, _, _, _, _, _, _, _, ⟨hf, _⟩, _⟩ := h6
    rw [g] at hf
    exact nomatch hf
  · refine absurd (hok e ?_) hne
    rw [h1]
    exact List.mem_append_left _ he

/-- A hash function that fails on the header is not noticed: `bpak_verify_compute_header_hash` reports success, and what was in
the memory of the output buffer is taken for the hash, all 64 bytes of it. -/
theorem C120_failure_hidden (h : Header) (junk : Bytes) (l : List Ev) (i u : Nat) (hi : hk.init = some i) (hu : hk.update = some u)
    (ho : ∀ l, (o l i (.init h.hashKind)).code = .ok) (hf : ∀ l d, (o l u (.update d)).code ≠ .ok) :
    (headerHash hk h junk o l).1 = (.ok, junk, 64) := by
  unfold headerHash
  rw [bind_eq]
  unfold hashInit
  rw [bind_eq, pure_eq]
  unfold callHook
  rw [hi]
  dsimp only
  rw [if_pos' (ho l), bind_eq, updates_cons _ _ _ _ hu, if_neg (hf _ _)]
  dsimp only
  rw [if_neg' (hf _ _), bind_eq, pure_eq]

/-- `bpak_pkg_sign`, with any installed functions: on success the payload was hashed without a failure and its hash is the one
in the new header, the key was loaded from the named file, and what the installed sign function answered for this key is the
signature in the header that was written; nothing else in the file changed. -/
theorem C120_sign (name : Bytes) (p : Pkg) (hP : p.file.length < 2^63) (junk : Bytes)
    (hs : (pkgSign hk name p junk o []).1.1 = .ok) :
    ∃ e1 e2 k s hash dig, (pkgSign hk name p junk o []).2 = e1 ++ (e2 ++ [k, s]) ∧
      Hashed hk p.hdr.hashKind (hashedBytes p.file p.hdr.parts 4096) dig e1 ∧
      (hk.loadPrivate = some k.fn ∧ k.call = .loadPrivate name ∧ k.ans.code = .ok) ∧
      (hk.sign = some s.fn ∧ s.call = .sign hash p.hdr.hashKind k.ans.key 512 ∧ s.ans.code = .ok) ∧
      (∃ d n, headerHash hk { p.hdr with payloadHash := dig ++ p.hdr.payloadHash.drop dig.length } junk o e1 =
        ((.ok, d, n), e1 ++ e2) ∧ hash = d.take n) ∧
      (pkgSign hk name p junk o []).1.2 = writeHeader { p with hdr := { p.hdr with
        payloadHash := dig ++ p.hdr.payloadHash.drop dig.length
        signature := s.ans.data.take 512 ++ List.replicate (512 - (s.ans.data.take 512).length) 0
        signatureSz := BitVec.ofNat 16 (s.ans.data.take 512).length } } := by
  unfold pkgSign at hs ⊢
  rw [bind_eq] at hs ⊢
  unfold updateHash at hs ⊢
  rw [bind_eq] at hs ⊢
  cases hp : payloadHash hk p.hdr (pkgReader p.file) 4096 p.hdr.payloadHash o [] with
  | mk r e1 =>
    obtain ⟨e, d, n⟩ := r
    rw [hp] at hs
    dsimp only at hs ⊢
    by_cases he : e = .ok
    · subst he
      rw [if_pos' rfl, bind_eq, pure_eq] at hs ⊢
      obtain ⟨evs, dig, hev, rfl, rfl, data, hd, hh⟩ := payloadHash_ok hp
      obtain ⟨_, rfl⟩ := payload_data hP hd
      rw [List.nil_append] at hev
      subst hev
      obtain ⟨e2, g1, _⟩ := headerHash_cases (o := o) (hk := hk)
        { p.hdr with payloadHash := dig ++ p.hdr.payloadHash.drop dig.length } junk e1
      cases hq : headerHash hk { p.hdr with payloadHash := dig ++ p.hdr.payloadHash.drop dig.length } junk o e1 with
      | mk q l2 =>
        obtain ⟨c, d2, n2⟩ := q
        rw [hq] at hs g1
        dsimp only at hs g1 ⊢
        subst g1
        by_cases hc : c = .ok
        · subst hc
          rw [if_pos' rfl] at hs ⊢
          cases hl : hk.loadPrivate with
          | none => rw [hook_bind_none hl] at hs; exact nomatch hs
          | some f =>
            rw [hook_bind hl] at hs
            rw [hook_bind rfl]
            by_cases hk1 : (o (e1 ++ e2) f (.loadPrivate name)).code = .ok
            · rw [if_pos' hk1] at hs ⊢
              unfold signWith at hs ⊢
              cases hsg : hk.sign with
              | none => rw [hook_bind_none hsg] at hs; exact nomatch hs
              | some g =>
                rw [hook_bind hsg] at hs
                rw [hook_bind rfl]
                by_cases ha : (o (e1 ++ e2 ++ [⟨f, .loadPrivate name, o (e1 ++ e2) f (.loadPrivate name)⟩]) g
                    (.sign (d2.take n2) p.hdr.hashKind (o (e1 ++ e2) f (.loadPrivate name)).key 512)).code = .ok
                · rw [if_pos' ha, pure_eq]
                  exact ⟨e1, e2, ⟨f, .loadPrivate name, _⟩, ⟨g, _, _⟩, d2.take n2, dig, by simp, hh, ⟨rfl, rfl, hk1⟩, ⟨rfl, rfl, ha⟩,
                    ⟨d2, n2, hq, rfl⟩, rfl⟩
                · rw [if_neg' ha] at hs
                  exact absurd hs ha
            · rw [if_neg' hk1] at hs
              exact absurd hs hk1
        · rw [if_neg' hc] at hs
          exact absurd hs hc
    · rw [if_neg' he, pure_eq] at hs ⊢
      dsimp only at hs
      rw [if_neg' he] at hs
      exact absurd hs he

/-- Missing: what is signed is the hash of the header only if no hash function failed (`C120_failure_hidden`,
`C120_stale_memory_signed`). -/
theorem C120_sign_partial (name : Bytes) (p : Pkg) (hP : p.file.length < 2^63) (junk : Bytes)
    (hs : (pkgSign hk name p junk o []).1.1 = .ok) (w : p.hdr.WF) (hu : hk.update ≠ none)
    (hok : ∀ e ∈ (pkgSign hk name p junk o []).2, e.ans.code = .ok) :
    ∃ e1 e2 k s hash, (pkgSign hk name p junk o []).2 = e1 ++ (e2 ++ [k, s]) ∧
      Hashed hk p.hdr.hashKind (headerSignedBytes (pkgSign hk name p junk o []).1.2.hdr) hash e2 ∧
      s.call = .sign hash p.hdr.hashKind k.ans.key 512 := by
  obtain ⟨e1, e2, k, s, hash, dig, h1, h2, h3, ⟨_, h4, _⟩, ⟨d, n, h5, rfl⟩, h6⟩ := C120_sign name p hP junk hs
  obtain ⟨evs, g1, g2⟩ := headerHash_cases (o := o) (hk := hk)
    { p.hdr with payloadHash := dig ++ p.hdr.payloadHash.drop dig.length } junk e1
  rw [h5] at g1 g2
  dsimp only at g1 g2
  have g1 := List.append_cancel_left g1
  subst g1
  refine ⟨e1, e2, k, s, _, h1, ?_, h4⟩
  rcases g2 with ⟨dig', g3, g4⟩ | g | g | g | ⟨e, he, hne, _⟩
  · obtain ⟨_, g3⟩ := Prod.mk.inj g3
    obtain ⟨rfl, rfl⟩ := Prod.mk.inj g3
    rw [List.take_append_of_le_length (Nat.le_refl _), List.take_length, h6]
    have hsig : (s.ans.data.take 512 ++ List.replicate (512 - (s.ans.data.take 512).length) (0 : U8)).length = 512 := by
      have := List.length_take_le 512 s.ans.data
      simp only [List.length_append, List.length_replicate]
      omega
    have hdig : dig.length ≤ 64 := by
      obtain ⟨_, _, f, _, _, _, _, _, ⟨_, _, _, rfl⟩, _⟩ := h2
      exact List.length_take_le _ _
    obtain ⟨w1, w2, w3, w4, w5, w6, w7, w8⟩ := w
    have w' : ({ p.hdr with payloadHash := dig ++ p.hdr.payloadHash.drop dig.length } : Header).WF :=
      ⟨w1, w2, w3, w4, by simp only [List.length_append, List.length_drop]; omega, w6, w7, w8⟩
    have w2' : ({ p.hdr with
        payloadHash := dig ++ p.hdr.payloadHash.drop dig.length
        signature := s.ans.data.take 512 ++ List.replicate (512 - (s.ans.data.take 512).length) 0
        signatureSz := BitVec.ofNat 16 (s.ans.data.take 512).length } : Header).WF :=
      ⟨w1, w2, w3, w4, w'.2.2.2.2.1, w6, hsig, w8⟩
    have key := signed_bytes _ w2'
    rw [image_signature _ w' _ _ hsig] at key
    rw [key] at g4
    exact g4
  · obtain ⟨i, _, _, _, _, ⟨hi, _⟩, _⟩ := h2
    rw [g] at hi
    exact nomatch hi
  · exact absurd g hu
  · obtain ⟨_, _, _, _, _, _, _, _, ⟨hf, _⟩, _⟩ := h2
    rw [g] at hf
    exact nomatch hf
  · refine absurd (hok e ?_) hne
    rw [h1]
    exact List.mem_append_right _ (List.mem_append_left _ he)

/-- When signing fails, whatever fails: nothing was written. -/
theorem C120_sign_failed (name : Bytes) (p : Pkg) (junk : Bytes) (hs : (pkgSign hk name p junk o []).1.1 ≠ .ok) :
    (pkgSign hk name p junk o []).1.2.file = p.file ∧ (pkgSign hk name p junk o []).1.2.log = p.log := by
  unfold pkgSign at hs ⊢
  rw [bind_eq] at hs ⊢
  have hup : (updateHash hk p junk o []).1.2.1.file = p.file ∧ (updateHash hk p junk o []).1.2.1.log = p.log := by
    unfold updateHash
    rw [bind_eq]
    dsimp only
    by_cases he : (payloadHash hk p.hdr (pkgReader p.file) 4096 p.hdr.payloadHash o []).1.1 = .ok
    · rw [if_pos' he]
      exact ⟨rfl, rfl⟩
    · rw [if_neg' he]
      exact ⟨rfl, rfl⟩
  generalize updateHash hk p junk o [] = r at hs hup ⊢
  obtain ⟨⟨e, q, d, n⟩, l⟩ := r
  dsimp only at hs hup ⊢
  by_cases he : e = .ok
  · rw [if_pos' he] at hs ⊢
    cases hl : hk.loadPrivate with
    | none => rw [hook_bind_none rfl]; exact hup
    | some f =>
      rw [hook_bind hl] at hs
      rw [hook_bind rfl]
      by_cases hk1 : (o l f (.loadPrivate name)).code = .ok
      · rw [if_pos' hk1] at hs ⊢
        unfold signWith at hs ⊢
        cases hsg : hk.sign with
        | none => rw [hook_bind_none rfl]; exact hup
        | some g =>
          rw [hook_bind hsg] at hs
          rw [hook_bind rfl]
          by_cases ha : (o (l ++ [⟨f, .loadPrivate name, o l f (.loadPrivate name)⟩]) g
              (.sign (d.take n) q.hdr.hashKind (o l f (.loadPrivate name)).key 512)).code = .ok
          · rw [if_pos' ha] at hs
            exact absurd rfl hs
          · rw [if_neg' ha]
            exact hup
      · rw [if_neg' hk1]
        exact hup
  · rw [if_neg' he]
    exact hup

/-- Installed functions for the examples: every function is installed. -/
def allHooks : Hooks := ⟨some 1, some 2, some 3, some 4, some 5, some 6, some 7, some 8, some 9⟩

/-- They succeed, but `bad` fails; the digest is 32 zero bytes, the signature is 2 bytes, and every signature is accepted. -/
def answers (bad : HCall → Bool) : Oracle := fun _ _ c =>
  if bad c then ⟨.failed, [], ⟨0, 0, []⟩, false⟩
  else match c with
    | .final _ => ⟨.ok, List.replicate 32 0, ⟨0, 0, []⟩, true⟩
    | .sign _ _ _ _ => ⟨.ok, [7, 9], ⟨0, 0, []⟩, true⟩
    | _ => ⟨.ok, [], ⟨0, 0, []⟩, true⟩

/-- An update function that fails. -/
def badUpdate : HCall → Bool
  | .update _ => true
  | _ => false

/-- An empty package. -/
def emptyPkg : Pkg := ⟨initHeader, [], []⟩

theorem run_checked (key : Key) (junk : Bytes) :
    pkgVerify allHooks key emptyPkg junk [] (answers badUpdate) [] =
      (.ok, [⟨1, .init 1, ⟨.ok, [], ⟨0, 0, []⟩, true⟩⟩,
        ⟨2, .update (initHeader.image.take 3582), ⟨.failed, [], ⟨0, 0, []⟩, false⟩⟩,
        ⟨4, .free, ⟨.ok, [], ⟨0, 0, []⟩, true⟩⟩,
        ⟨5, .verify [] (junk.take 64) 1 key, ⟨.ok, [], ⟨0, 0, []⟩, true⟩⟩,
        ⟨1, .init 1, ⟨.ok, [], ⟨0, 0, []⟩, true⟩⟩,
        ⟨3, .final 64, ⟨.ok, List.replicate 32 0, ⟨0, 0, []⟩, true⟩⟩,
        ⟨4, .free, ⟨.ok, [], ⟨0, 0, []⟩, true⟩⟩,
        ⟨0, .trees, ⟨.ok, [], ⟨0, 0, []⟩, true⟩⟩]) := by
  rfl

theorem run_signed (name junk : Bytes) :
    pkgSign allHooks name emptyPkg junk (answers badUpdate) [] =
      ((.ok, writeHeader { emptyPkg with hdr := { emptyPkg.hdr with
          payloadHash := List.replicate 64 0, signature := [7, 9] ++ List.replicate 510 0, signatureSz := 2 } }),
        [⟨1, .init 1, ⟨.ok, [], ⟨0, 0, []⟩, true⟩⟩,
        ⟨3, .final 64, ⟨.ok, List.replicate 32 0, ⟨0, 0, []⟩, true⟩⟩,
        ⟨4, .free, ⟨.ok, [], ⟨0, 0, []⟩, true⟩⟩,
        ⟨1, .init 1, ⟨.ok, [], ⟨0, 0, []⟩, true⟩⟩,
        ⟨2, .update (initHeader.image.take 3582), ⟨.failed, [], ⟨0, 0, []⟩, false⟩⟩,
        ⟨4, .free, ⟨.ok, [], ⟨0, 0, []⟩, true⟩⟩,
        ⟨8, .loadPrivate name, ⟨.ok, [], ⟨0, 0, []⟩, true⟩⟩,
        ⟨6, .sign (junk.take 64) 1 ⟨0, 0, []⟩ 512, ⟨.ok, [7, 9], ⟨0, 0, []⟩, true⟩⟩]) := by
  rfl

/-- The full claim about verification is false: with an update function that always fails, a package is verified with success
although no hash was ever computed of its header: what the verify function was given as the hash is whatever was in memory. -/
theorem C120_stale_memory_checked (key : Key) (junk : Bytes) :
    (pkgVerify allHooks key emptyPkg junk [] (answers badUpdate) []).1 = .ok ∧
    (∃ v ∈ (pkgVerify allHooks key emptyPkg junk [] (answers badUpdate) []).2,
      v.call = .verify (emptyPkg.hdr.signature.take emptyPkg.hdr.signatureSz.toNat) (junk.take 64) emptyPkg.hdr.hashKind key ∧
      v.ans.flag = true) ∧
    ∀ e ∈ (pkgVerify allHooks key emptyPkg junk [] (answers badUpdate) []).2, ∀ d, e.call = .update d → e.ans.code ≠ .ok := by
  have h := run_checked key junk
  rw [h]
  refine ⟨rfl, ⟨_, List.mem_cons_of_mem _ (List.mem_cons_of_mem _ (List.mem_cons_of_mem _ List.mem_cons_self)), rfl, rfl⟩, ?_⟩
  intro e he d hd
  have : e.call = .update d → e.ans = answers badUpdate [] 0 (.update d) := by
    intro _
    simp only [List.mem_cons, List.not_mem_nil, or_false] at he
    rcases he with rfl | rfl | rfl | rfl | rfl | rfl | rfl | rfl <;> first | rfl | cases hd
  rw [this hd]
  exact (by decide : Err.failed ≠ .ok)

/-- The same for signing: what is signed, and written to the package as its signature, is whatever was in memory. -/
theorem C120_stale_memory_signed (name junk : Bytes) :
    (pkgSign allHooks name emptyPkg junk (answers badUpdate) []).1.1 = .ok ∧
    (∃ v ∈ (pkgSign allHooks name emptyPkg junk (answers badUpdate) []).2,
      v.call = .sign (junk.take 64) emptyPkg.hdr.hashKind ⟨0, 0, []⟩ 512 ∧ v.ans.code = .ok) ∧
    (pkgSign allHooks name emptyPkg junk (answers badUpdate) []).1.2.log ≠ [] := by
  rw [run_signed name junk]
  exact ⟨rfl, ⟨_, List.mem_cons_of_mem _ (List.mem_cons_of_mem _ (List.mem_cons_of_mem _ (List.mem_cons_of_mem _
    (List.mem_cons_of_mem _ (List.mem_cons_of_mem _ (List.mem_cons_of_mem _ List.mem_cons_self)))))), rfl, rfl⟩,
    by unfold writeHeader; exact List.append_ne_nil_of_right_ne_nil _ (List.cons_ne_nil _ _)⟩

/-- `C120_verify`, `C120_verify_partial` and `C120_payload_hash`: an accepted package, without a failure. -/
example : (pkgVerify allHooks ⟨1, 2, []⟩ emptyPkg [] [] (answers fun _ => false) []).1 = .ok ∧
    (∀ e ∈ (pkgVerify allHooks ⟨1, 2, []⟩ emptyPkg [] [] (answers fun _ => false) []).2, e.ans.code = .ok) ∧
    (payloadHash allHooks initHeader (pkgReader []) 4096 [] (answers fun _ => false) []).1.1 = .ok := by
  decide +kernel

/-- `C120_sign` and `C120_sign_partial`. -/
example : (pkgSign allHooks [47] emptyPkg [] (answers fun _ => false) []).1.1 = .ok ∧
    (∀ e ∈ (pkgSign allHooks [47] emptyPkg [] (answers fun _ => false) []).2, e.ans.code = .ok) := by
  decide +kernel

/-- `C120_sign_failed`: no sign function is installed. -/
example : (pkgSign { allHooks with sign := none } [47] emptyPkg [] (answers fun _ => false) []).1.1 ≠ .ok := by
  decide +kernel

/-- `C120_hash_functions` and `C120_crypto_functions`. -/
example : (installed ⟨none, none, none, none, none, none, none, none, none⟩
    [.hash none none none none, .hash (some 1) (some 2) (some 3) (some 4),
      .crypto (some 5) (some 6) (some 7) (some 8) (some 9)]) = allHooks := rfl

end Bpak.Hk
