import Verif.Proof.Main
import Verif.Props.CryptoAccept
/-! C108: exit status, and what a successful `bpak verify` means. -/
namespace Bpak

/-- C108: the exit status is 0 exactly for success, and every error code has its own status below 256. -/
theorem C108_status : (∀ e, exitStatus e = 0 ↔ e = .ok) ∧ (∀ e, exitStatus e < 256) ∧ ∀ e e', exitStatus e = exitStatus e' → e = e' := by
  refine ⟨?_, ?_, ?_⟩
  · intro e; cases e <;> decide
  · intro e; cases e <;> decide
  · intro e e' h
    have : ∀ e : Err, exitStatus e = if e = .ok then 0 else (256 + e.code).toNat := by intro e; cases e <;> decide
    have inj : ∀ e e' : Err, e.code = e'.code → e = e' := by
      intro e e' h
      cases e <;> cases e' <;> first | rfl | (exfalso; revert h; decide)
    have rng : ∀ e : Err, e ≠ .ok → -30 ≤ e.code ∧ e.code ≤ -1 := by intro e he; cases e <;> first | exact absurd rfl he | decide
    rw [this, this] at h
    split at h
    · rename_i h1
      split at h
      · rename_i h2; rw [h1, h2]
      · rename_i h2; have := rng e' h2; omega
    · rename_i h1
      have := rng e h1
      split at h
      · omega
      · rename_i h2
        have := rng e' h2
        exact inj _ _ (by omega)

variable [LzmaLib]

theorem verifyStep_key : ∀ c a (s s' : VerifyOpts), verifyStep c a s = some s' → s'.key = if c = 'k' then some a else s.key := by
  intro c a s s' h
  unfold verifyStep at h
  split at h
  · cases h; rfl
  · cases h; rfl
  · cases h

theorem verifyStep_store : ∀ c a (s s' : VerifyOpts), verifyStep c a s = some s' → s'.keystore = if c = 'K' then some a else s.keystore := by
  intro c a s s' h
  unfold verifyStep at h
  split at h
  · cases h; rfl
  · cases h; rfl
  · cases h

/-- Success comes with a key. -/
theorem loadKeyFromFile_some {H : HashFn} {f : Bytes} {ksid keyid : U32} {parse : Bytes → Except Err Key} (hp : ∀ b, parse b ≠ .error .ok)
    (h : loadKeyFromFile H f ksid keyid none parse = .ret (.ok, none)) : False := by
  unfold loadKeyFromFile at h
  split at h
  · rename_i hne; exact hne (Prod.mk.inj (Out.ret.inj h)).1
  · simp only at h
    unfold loadKeyFromPkg at h
    split at h
    · cases h
    · split at h
      · cases h
      · split at h
        · cases h
        · split at h
          · cases h
          · split at h
            · cases h
            · split at h
              · cases h
              · unfold loadKeyBytes at h
                split at h
                · cases h
                · split at h
                  · cases h
                  · split at h
                    · cases h
                    split at h
                    · rename_i he
                      obtain ⟨h1, -⟩ := Prod.mk.inj (Out.ret.inj h)
                      subst h1
                      exact hp _ he
                    · cases h

/-- What the command does once its options are read. -/
theorem verifyLine_ok {env : Env} {w : World} {path : Bytes} {o : VerifyOpts} {out : Printed} {w' : World} (h : verifyLine env w o path = .exit .ok out w') :
    out = .verified ∧ Accepted env w path o.key o.keystore := by
  unfold verifyLine at h
  split at h
  · cases h
  · rename_i f hf
    simp only at h
    split at h
    · rename_i hne
      exact absurd (Ran.exit.inj h).1 hne
    · rename_i hok
      split at h
      · cases h
      · rename_i hks
        split at h
        · cases h
        · rename_i e hv
          obtain ⟨h1, h2, h3⟩ := Ran.exit.inj h
          subst h1
          refine ⟨h2.symm, ?_⟩
          rcases hp : pkgOpen env.H true f with ⟨e, p⟩
          rw [hp] at hok hv hks
          simp only [ne_eq, Classical.not_not] at hok
          subst hok
          unfold verifyCmd at hv
          rw [hp] at hv
          simp only [ne_eq, not_true_eq_false, if_false] at hv
          cases hk : o.key with
          | some kf =>
            rw [hk] at hv
            simp only [Option.map_some] at hv
            cases hl : mbedLoadPublic env.M (w.put path (some p.file) kf) with
            | error e =>
              rw [hl] at hv
              have : e ≠ .ok := by
                rcases (C101_codes env.M _ _).1 hl with h | ⟨h, -⟩ <;> subst h <;> exact fun h => (by cases h)
              exact absurd (Out.ret.inj hv) this
            | ok k =>
              rw [hl] at hv
              exact ⟨f, p, k, hf, hp, hv, .inl ⟨kf, rfl, hl⟩⟩
          | none =>
            rw [hk] at hv hks
            simp only [Option.map_none] at hv
            cases hs : o.keystore with
            | none => rw [hs] at hv; cases hv
            | some s =>
              rw [hs] at hv hks
              simp only [Option.bind_some] at hv hks
              cases hg : w.put path (some p.file) s with
              | none => rw [hg] at hks; exact absurd ⟨trivial, rfl, fun h => (by cases h)⟩ hks
              | some g =>
                rw [hg] at hv
                simp only at hv
                cases hl : loadKeyFromFile env.H g p.hdr.keystoreId p.hdr.keyId none (mbedParsePublic env.M) with
                | ub => rw [hl] at hv; cases hv
                | ret r =>
                  rw [hl] at hv
                  rcases r with ⟨e, x⟩
                  cases x with
                  | none =>
                    have he : e = .ok := by cases e <;> first | rfl | exact Out.ret.inj hv
                    subst he
                    exact (loadKeyFromFile_some (fun b hb => by cases (C101_codes env.M none _).2.2 b hb) hl).elim
                  | some k =>
                    obtain ⟨he, -⟩ := C71_load_sound _ _ _ _ _ _ _ _ hl
                    subst he
                    exact ⟨f, p, k, hf, hp, hv, .inr ⟨rfl, s, g, rfl, hg, hl⟩⟩

/-- The package that verifies is reported. -/
theorem verifyLine_accepted {env : Env} {w : World} {path : Bytes} {o : VerifyOpts} (h : Accepted env w path o.key o.keystore) :
    ∃ w', verifyLine env w o path = .exit .ok .verified w' := by
  obtain ⟨f, p, k, hf, hp, hv, hk⟩ := h
  unfold verifyLine verifyCmd
  rcases hk with ⟨kf, h1, h2⟩ | ⟨h1, s, g, h2, h3, h4⟩
  · refine ⟨w.put path (some p.file), ?_⟩
    simp only [hf, hp, h1, Option.map_some, h2, hv, ne_eq, not_true_eq_false, if_false]
    rfl
  · refine ⟨w.put path (some p.file), ?_⟩
    simp only [hf, hp, h1, h2, Option.map_none, Option.bind_some, h3, h4, hv, ne_eq, not_true_eq_false, if_false]
    rfl

theorem verify_letters (args : List Bytes) (c : Char) (a : Bytes) (h : OptEv.opt c a ∈ (getopt verifyTable args).1) : c = 'h' ∨ c = 'v' ∨ ∀ s, verifyStep c a s ≠ none := by
  have := getopt_letters verifyTable args false c a h
  simp only [OptTable.letters, verifyTable, List.map_cons, List.map_nil, List.cons_append, List.nil_append, List.mem_cons, List.not_mem_nil, or_false] at this
  rcases this with h | h | h | h | h | h | h | h <;> subst h <;> first | exact .inl rfl | exact .inr (.inl rfl) | exact .inr (.inr fun s h => (by cases h))

theorem status_zero {r : Ran} : r.status = some 0 ↔ ∃ out w', r = .exit .ok out w' := by
  constructor
  · intro h
    cases r with
    | exit rc out w' =>
      have : rc = .ok := (C108_status.1 rc).1 (Option.some.inj h)
      exact ⟨out, w', by rw [this]⟩
    | ub => cases h
    | hang => cases h
    | shared => cases h
  · rintro ⟨out, w', rfl⟩; rfl

/-- C108, a successful `bpak verify`: the tool exits with 0 exactly if it was asked for help before anything was wrong with the options (it prints the usage text), or if the options were all known, there
was a file name, and the package of that name verifies with the key of the last `-k`, or without `-k` with the key found in the keystore of the last `-K`. -/
theorem C108_verify_means (env : Env) (w : World) (args : List Bytes) :
    (bpakMain env w (ascii "verify" :: args)).status = some 0 ↔
      HelpFirst (getopt verifyTable args).1 ∨
      (OptEv.bad ∉ (getopt verifyTable args).1 ∧ ¬ AsksHelp (getopt verifyTable args).1 ∧
        ∃ path, (getopt verifyTable args).2.head? = some path ∧ Accepted env w path (lastArg 'k' (getopt verifyTable args).1) (lastArg 'K' (getopt verifyTable args).1)) := by
  rw [main_verify, status_zero]
  constructor
  · rintro ⟨out, w', h⟩
    unfold actionVerify withFile at h
    unfold withOpts at h
    split at h
    · rename_i e he
      obtain ⟨h1, -⟩ := Ran.exit.inj h
      subst h1
      exact .inl (optLoop_helpFirst _ _ _ he)
    · rename_i o ho
      obtain ⟨hb, hh⟩ := optLoop_clean _ _ _ _ ho
      simp only at h
      split at h
      · cases h
      · rename_i path rest hops
        obtain ⟨-, ha⟩ := verifyLine_ok h
        refine .inr ⟨hb, hh, path, by rw [hops]; rfl, ?_⟩
        have l1 := optLoop_last verifyStep VerifyOpts.key 'k' (by decide) verifyStep_key _ _ _ ho
        have l2 := optLoop_last verifyStep VerifyOpts.keystore 'K' (by decide) verifyStep_store _ _ _ ho
        rw [l1, l2] at ha
        exact ha
  · rintro (h | ⟨hb, hh, path, hops, ha⟩)
    · have := (optLoop_total verifyStep (getopt verifyTable args).1 {} (verify_letters args)).1 h
      unfold actionVerify withFile withOpts
      rw [this]
      exact ⟨_, _, rfl⟩
    · obtain ⟨o, ho⟩ := (optLoop_total verifyStep (getopt verifyTable args).1 {} (verify_letters args)).2 hb hh
      have l1 := optLoop_last verifyStep VerifyOpts.key 'k' (by decide) verifyStep_key _ _ _ ho
      have l2 := optLoop_last verifyStep VerifyOpts.keystore 'K' (by decide) verifyStep_store _ _ _ ho
      unfold lastArg at ha
      have ha' : Accepted env w path o.key o.keystore := by rw [l1, l2]; exact ha
      obtain ⟨w', hv⟩ := verifyLine_accepted ha'
      unfold actionVerify withFile withOpts
      rw [ho]
      rcases hx : (getopt verifyTable args).2 with _ | ⟨x, xs⟩
      · rw [hx] at hops; cases hops
      · rw [hx] at hops
        cases hops
        exact ⟨_, _, hv⟩

/-- The ways to write `-k K` (or `-K K`) with a file name. -/
theorem verify_lines (K P : Bytes) (h : P.take 1 ≠ [45]) :
    (∀ args ∈ [[ascii "-k", K, P], [P, ascii "-k", K], [ascii "--key", K, P], [P, ascii "--key", K], [ascii "--key=" ++ K, P], [P, ascii "--key=" ++ K]], getopt verifyTable args = ([.opt 'k' K], [P])) ∧
    (∀ args ∈ [[ascii "-K", K, P], [P, ascii "-K", K], [ascii "--keystore", K, P], [P, ascii "--keystore", K], [ascii "--keystore=" ++ K, P], [P, ascii "--keystore=" ++ K]],
      getopt verifyTable args = ([.opt 'K' K], [P])) := by
  have l1 : verifyTable.letter 107 = some ('k', true) := by decide
  have l2 : verifyTable.letter 75 = some ('K', true) := by decide
  have n1 : verifyTable.name [107, 101, 121] = some (true, 'k') := by decide
  have n2 : verifyTable.name [107, 101, 121, 115, 116, 111, 114, 101] = some (true, 'K') := by decide
  have e1 : ascii "-k" = [45, 107] := by decide
  have e2 : ascii "-K" = [45, 75] := by decide
  have e3 : ascii "--key" = 45 :: 45 :: [107, 101, 121] := by decide
  have e4 : ascii "--key=" ++ K = 45 :: 45 :: ([107, 101, 121] ++ 61 :: K) := by
    rw [show ascii "--key=" = [45, 45, 107, 101, 121, 61] by decide]; rfl
  have e5 : ascii "--keystore" = 45 :: 45 :: [107, 101, 121, 115, 116, 111, 114, 101] := by decide
  have e6 : ascii "--keystore=" ++ K = 45 :: 45 :: ([107, 101, 121, 115, 116, 111, 114, 101] ++ 61 :: K) := by
    rw [show ascii "--keystore=" = [45, 45, 107, 101, 121, 115, 116, 111, 114, 101, 61] by decide]; rfl
  constructor
  · intro args ha
    simp only [List.mem_cons, List.not_mem_nil, or_false] at ha
    unfold getopt
    rcases ha with ha | ha | ha | ha | ha | ha <;> subst ha
    · rw [e1, getoptGo_short _ _ _ (by decide) l1, getoptGo_operand _ _ _ h, getoptGo_nil]
    · rw [e1, getoptGo_operand _ _ _ h, getoptGo_short _ _ _ (by decide) l1, getoptGo_nil]
    · rw [e3, getoptGo_long _ _ _ (by decide) (by decide) n1, getoptGo_operand _ _ _ h, getoptGo_nil]
    · rw [e3, getoptGo_operand _ _ _ h, getoptGo_long _ _ _ (by decide) (by decide) n1, getoptGo_nil]
    · rw [e4, getoptGo_eq _ _ _ (by decide) n1, getoptGo_operand _ _ _ h, getoptGo_nil]
    · rw [e4, getoptGo_operand _ _ _ h, getoptGo_eq _ _ _ (by decide) n1, getoptGo_nil]
  · intro args ha
    simp only [List.mem_cons, List.not_mem_nil, or_false] at ha
    unfold getopt
    rcases ha with ha | ha | ha | ha | ha | ha <;> subst ha
    · rw [e2, getoptGo_short _ _ _ (by decide) l2, getoptGo_operand _ _ _ h, getoptGo_nil]
    · rw [e2, getoptGo_operand _ _ _ h, getoptGo_short _ _ _ (by decide) l2, getoptGo_nil]
    · rw [e5, getoptGo_long _ _ _ (by decide) (by decide) n2, getoptGo_operand _ _ _ h, getoptGo_nil]
    · rw [e5, getoptGo_operand _ _ _ h, getoptGo_long _ _ _ (by decide) (by decide) n2, getoptGo_nil]
    · rw [e6, getoptGo_eq _ _ _ (by decide) n2, getoptGo_operand _ _ _ h, getoptGo_nil]
    · rw [e6, getoptGo_operand _ _ _ h, getoptGo_eq _ _ _ (by decide) n2, getoptGo_nil]

/-- C108, plain lines: `bpak verify -k KEY FILE`, in any of its spellings and with the file name before or after, exits with 0 exactly if the package verifies with the key in the file KEY; with
`-K STORE`, exactly if it verifies with the key that the keystore package STORE has for it. No file name that begins with a dash is meant. -/
theorem C108_verify_line (env : Env) (w : World) (key file : Bytes) (h : file.take 1 ≠ [45]) :
    (∀ args ∈ [[ascii "-k", key, file], [file, ascii "-k", key], [ascii "--key", key, file], [file, ascii "--key", key], [ascii "--key=" ++ key, file], [file, ascii "--key=" ++ key]],
      ((bpakMain env w (ascii "verify" :: args)).status = some 0 ↔ Accepted env w file (some key) none)) ∧
    (∀ args ∈ [[ascii "-K", key, file], [file, ascii "-K", key], [ascii "--keystore", key, file], [file, ascii "--keystore", key], [ascii "--keystore=" ++ key, file],
        [file, ascii "--keystore=" ++ key]],
      ((bpakMain env w (ascii "verify" :: args)).status = some 0 ↔ Accepted env w file none (some key))) := by
  obtain ⟨l1, l2⟩ := verify_lines key file h
  have nh : ∀ c, c ≠ 'h' → ¬ AsksHelp [OptEv.opt c key] := by
    rintro c hc ⟨a, ha⟩
    simp only [List.mem_singleton] at ha
    injection ha with ha
    exact hc ha.symm
  constructor
  · intro args ha
    rw [C108_verify_means, l1 args ha]
    constructor
    · rintro (h | ⟨-, -, path, h1, h2⟩)
      · exact absurd h.asks (nh 'k' (by decide))
      · cases h1; exact h2
    · intro h
      exact .inr ⟨by simp, nh 'k' (by decide), file, rfl, h⟩
  · intro args ha
    rw [C108_verify_means, l2 args ha]
    constructor
    · rintro (h | ⟨-, -, path, h1, h2⟩)
      · exact absurd h.asks (nh 'K' (by decide))
      · cases h1; exact h2
    · intro h
      exact .inr ⟨by simp, nh 'K' (by decide), file, rfl, h⟩

/-- C108, the signature: if a `bpak verify` without `-h` exits with 0, then its first operand names a package that opens, with one of the three hashes in its header, and mbedtls accepted the signature in
the header over the digest of the header with a key it read from the bytes that the key file or the keystore gave. -/
theorem C108_verified_signature (env : Env) (w : World) (path f : Bytes) (key store : Option Bytes) (hf : w path = some f) (hl : 4096 ≤ f.length) (h : Accepted env w path key store) :
    let hd := parseHeader (f.take 4096)
    (hd.hashKind = 1 ∨ hd.hashKind = 2 ∨ hd.hashKind = 3) ∧ validHeader hd = .ok ∧
    ∃ k pk, env.M.parsePub k.data = some pk ∧
      env.M.verify pk (some hd.hashKind) (env.H hd.hashKind (headerSignedBytes hd)) (hd.signature.take hd.signatureSz.toNat) = true ∧
      ((∃ kf, key = some kf ∧ mbedLoadPublic env.M (w kf) = .ok k) ∨
       (key = none ∧ ∃ s g, store = some s ∧ w s = some g ∧ loadKeyFromFile env.H g hd.keystoreId hd.keyId none (mbedParsePublic env.M) = .ret (.ok, some k))) := by
  intro hd
  obtain ⟨f', p, k, hf', hp, hv, hk⟩ := h
  rw [hf] at hf'
  cases hf'
  unfold pkgOpen at hp
  rw [if_pos hl] at hp
  obtain ⟨h1, h2⟩ := Prod.mk.inj hp
  have e1 : p.hdr = hd := by rw [← h2]
  have e2 : p.file = f := by rw [← h2]
  have same : ∀ x, w.put path (some p.file) x = w x := by
    intro x
    unfold World.put
    split
    · rename_i hx; rw [hx, hf, e2]
    · rfl
  obtain ⟨a, pk, b, c⟩ := C102_accept_means env.M env.H k p (by rw [e1]; exact parseHeader_wf (by rw [List.length_take]; omega)) hv
  rw [e1] at a c hk
  refine ⟨a, h1, k, pk, b, c, ?_⟩
  rcases hk with ⟨kf, h1, h2⟩ | ⟨h1, s, g, h2, h3, h4⟩
  · exact .inl ⟨kf, h1, by rw [← same]; exact h2⟩
  · exact .inr ⟨h1, s, g, h2, by rw [← same]; exact h3, h4⟩

/-- C108, a finding: "exit status 0 of `bpak verify` means that the package was verified" is false: with `-h` anywhere (and no wrong option before it) it prints the usage text and exits with 0, whatever
the files are. -/
theorem C108_verify_help_is_false (env : Env) : ¬ ∀ (w : World) (args : List Bytes), (bpakMain env w (ascii "verify" :: args)).status = some 0 →
    ∃ path key store, Accepted env w path key store := by
  intro h
  have hx : HelpFirst (getopt verifyTable [ascii "-k", ascii "key.pem", ascii "file.bpak", ascii "-h"]).1 := by
    have : (getopt verifyTable [ascii "-k", ascii "key.pem", ascii "file.bpak", ascii "-h"]).1 = [.opt 'k' (ascii "key.pem"), .opt 'h' []] := by decide
    rw [this]
    exact ⟨[.opt 'k' (ascii "key.pem")], [], [], rfl, by decide⟩
  obtain ⟨path, key, store, f, p, k, hf, -⟩ := h (fun _ => none) _ ((C108_verify_means _ _ _).2 (.inl hx))
  cases hf

end Bpak
