import Verif.Props.SignVerifyExample
import Verif.Props.MainFindings
import Verif.Props.MainOrder
import Verif.Props.Lines
/-! Command lines that meet the hypotheses of C108 to C112: create a package, name its key, sign it and verify it. -/
namespace Bpak
variable [LzmaLib]

def exEnv : Env := { H := exHash, M := exMbed, srch := fun _ _ _ => none }

/-- The files at first: key pair 2, the public key 3 and a keystore with the public key 2. There is no package. -/
def exWorld : World := fun p =>
  if p = ascii "key" then some [81, 2] else if p = ascii "pub" then some [80, 2] else if p = ascii "pub3" then some [80, 3] else if p = ascii "ks" then some exKsFile else none

omit [LzmaLib] in
theorem exWorld_at : exWorld (ascii "key") = some [81, 2] ∧ exWorld (ascii "pub") = some [80, 2] ∧ exWorld (ascii "pub3") = some [80, 3] ∧ exWorld (ascii "ks") = some exKsFile ∧ exWorld (ascii "p") = none := by
  unfold exWorld
  refine ⟨if_pos rfl, ?_, ?_, ?_, ?_⟩
  · rw [if_neg (by decide), if_pos rfl]
  · rw [if_neg (by decide), if_neg (by decide), if_pos rfl]
  · rw [if_neg (by decide), if_neg (by decide), if_neg (by decide), if_pos rfl]
  · rw [if_neg (by decide), if_neg (by decide), if_neg (by decide), if_neg (by decide)]

omit [LzmaLib] in
theorem World.put_put (w : World) (p : Bytes) (x y : Option Bytes) : (w.put p x).put p y = w.put p y := by
  funext q
  unfold World.put
  split <;> rfl

omit [LzmaLib] in
theorem World.put_ne (w : World) {p q : Bytes} (x : Option Bytes) (h : q ≠ p) : w.put p x q = w q := if_neg h

omit [LzmaLib] in
theorem exSv_steps : ∃ f0, createCmd exHash none none none false 0 = (.ok, some f0) ∧ setCmd f0 { keyId := some (ascii "k1"), keystoreId := some (ascii "0x64636261") } = .ret (.ok, exSvFile) := by
  have h := runOut_eq exSvRun
  rw [exSvCmds, runCmds] at h
  split at h
  · cases h
  · rcases h1 : cmdStep exHash exScheme none (.create none none false 0) with - | ⟨e, f⟩
    · rw [h1] at h; cases h
    · rw [h1] at h
      simp only at h
      split at h
      · cases h
      · rename_i es g hr
        obtain ⟨ha, rfl⟩ := Prod.mk.inj (Option.some.inj h)
        simp only [List.zip_cons_cons, List.zip_nil_right, List.cons.injEq, Prod.mk.injEq, true_and] at ha
        obtain ⟨rfl, rfl⟩ := ha
        rw [runCmds] at hr
        split at hr
        · cases hr
        · rcases h2 : cmdStep exHash exScheme f (.set { keyId := some (ascii "k1"), keystoreId := some (ascii "0x64636261") }) with - | ⟨e2, f2⟩
          · rw [h2] at hr; cases hr
          rw [h2] at hr
          simp only [runCmds] at hr
          obtain ⟨ha, rfl⟩ := Prod.mk.inj (Option.some.inj hr)
          simp only [List.cons.injEq, Prod.mk.injEq, true_and, and_true] at ha
          subst ha
          have h1 : some (createCmd exHash none none none false 0) = some (.ok, f) := h1
          cases f with
          | none => cases h2
          | some f0 =>
            refine ⟨f0, Option.some.inj h1, ?_⟩
            unfold cmdStep at h2
            simp only at h2
            split at h2
            · cases h2
            · rename_i e f hs
              injection h2 with h2
              injection h2 with h3 h4
              subst h3
              rw [hs]
              exact congrArg (fun x => Out.ret (Err.ok, x)) (Option.some.inj h4)

/-- The lines. -/
def exCreateLine : List Bytes := [ascii "p"]
def exSetLine : List Bytes := [ascii "-k", ascii "k1", ascii "p", ascii "--keystore-id=0x64636261"]
def exSignLine : List Bytes := [ascii "p", ascii "--key", ascii "key"]

theorem ex_create (f0 : Bytes) (h : createCmd exHash none none none false 0 = (.ok, some f0)) :
    bpakMain exEnv exWorld (ascii "create" :: exCreateLine) = .exit .ok .nothing (exWorld.put (ascii "p") (some f0)) := by
  rw [main_create]
  unfold actionCreate withFile withOpts
  rw [show getopt createTable exCreateLine = ([], [ascii "p"]) by decide]
  show createLine exEnv exWorld {} (ascii "p") = _
  unfold createLine
  rw [exWorld_at.2.2.2.2]
  show Ran.exit (createCmd exHash none none none false 0).1 .nothing (exWorld.put (ascii "p") (createCmd exHash none none none false 0).2) = _
  rw [h]

theorem ex_set (f0 : Bytes) (h : setCmd f0 { keyId := some (ascii "k1"), keystoreId := some (ascii "0x64636261") } = .ret (.ok, exSvFile)) :
    bpakMain exEnv (exWorld.put (ascii "p") (some f0)) (ascii "set" :: exSetLine) = .exit .ok .nothing (exWorld.put (ascii "p") (some exSvFile)) := by
  rw [main_set]
  unfold actionSet withFile withOpts
  rw [show getopt setTable exSetLine = ([.opt 'k' (ascii "k1"), .opt 'i' (ascii "0x64636261")], [ascii "p"]) by decide]
  show setLine _ { keyId := some (ascii "k1"), keystoreId := some (ascii "0x64636261") } (ascii "p") = _
  unfold setLine
  rw [put_at]
  simp only [h]
  unfold inPlace
  simp only [World.put_put]

omit [LzmaLib] in
theorem exSv_open : ∃ hdr, pkgOpen exHash true exSvFile = (.ok, ⟨hdr, exSvFile, []⟩) := by
  obtain ⟨t, h, -⟩ := exSv_session
  obtain ⟨hdr, h1, -⟩ := C102_sign exMbed exMbed_laws exHash exHash_len t exSvFile h [81, 2] (false, 2) 6 ⟨rfl, by decide⟩ []
  exact ⟨hdr, h1⟩

theorem ex_sign (f' : Bytes) (h : signCmd exHash (mbedScheme exMbed) exSvFile [] (mbedLoadPrivate exMbed true (some [81, 2])) = (.ok, f')) :
    bpakMain exEnv (exWorld.put (ascii "p") (some exSvFile)) (ascii "sign" :: exSignLine) = .exit .ok .nothing (exWorld.put (ascii "p") (some f')) := by
  rw [main_sign]
  unfold actionSign withFile withOpts
  rw [show getopt signTable exSignLine = ([.opt 'k' (ascii "key")], [ascii "p"]) by decide]
  show signLine exEnv _ { key := some (ascii "key") } (ascii "p") = _
  unfold signLine
  rw [put_at]
  obtain ⟨hdr, ho⟩ := exSv_open
  have ho : pkgOpen exEnv.H true exSvFile = (.ok, ⟨hdr, exSvFile, []⟩) := ho
  simp only [ho, World.put_put]
  rw [if_neg (fun h => h rfl), World.put_ne _ _ (by decide), exWorld_at.1]
  show inPlace _ _ (some (.ret (signCmd exHash (mbedScheme exMbed) exSvFile [] (mbedLoadPrivate exMbed true (some [81, 2]))))) = _
  rw [h]
  unfold inPlace
  simp only [World.put_put]

omit [LzmaLib] in
/-- The signed package. -/
theorem ex_signed : ∃ f' hdr, signCmd exHash (mbedScheme exMbed) exSvFile [] (mbedLoadPrivate exMbed true (some [81, 2])) = (.ok, f') ∧ pkgOpen exHash true f' = (.ok, ⟨hdr, f', []⟩) ∧
    verifyCmd exHash (mbedScheme exMbed) f' (some (mbedLoadPublic exMbed (some [80, 2]))) none (mbedParsePublic exMbed) = .ret .ok ∧
    verifyCmd exHash (mbedScheme exMbed) f' (some (mbedLoadPublic exMbed (some [80, 3]))) none (mbedParsePublic exMbed) = .ret .verifyFail := by
  obtain ⟨t, h, hb⟩ := exSv_session
  obtain ⟨f', hs, hv, hw⟩ := exSv_verified
  obtain ⟨hdr, sig, ho, -⟩ := C102_sign_then_verify exMbed exMbed_laws exHash exHash_len t exSvFile h hb [81, 2] (false, 2) 6 ⟨rfl, by decide⟩ [] f' hs
  exact ⟨f', hdr, hs, ho, hv, hw⟩

theorem ex_verify (f' : Bytes) (hdr : Header) (ho : pkgOpen exHash true f' = (.ok, ⟨hdr, f', []⟩)) (k d : Bytes) (hk : k ≠ ascii "p") (hd : exWorld k = some d) (e : Err)
    (h : verifyCmd exHash (mbedScheme exMbed) f' (some (mbedLoadPublic exMbed (some d))) none (mbedParsePublic exMbed) = .ret e) :
    bpakMain exEnv (exWorld.put (ascii "p") (some f')) [ascii "verify", ascii "-k", k, ascii "p"] =
      .exit e (if e = .ok then .verified else .nothing) (exWorld.put (ascii "p") (some f')) := by
  rw [main_verify]
  unfold actionVerify withFile withOpts
  rw [show getopt verifyTable [ascii "-k", k, ascii "p"] = ([.opt 'k' k], [ascii "p"]) by
    unfold getopt
    rw [show ascii "-k" = [45, 107] by decide, getoptGo_short _ _ _ (by decide) (show verifyTable.letter 107 = some ('k', true) by decide), getoptGo_operand _ _ _ (by decide), getoptGo_nil]]
  show verifyLine exEnv _ { key := some k } (ascii "p") = _
  unfold verifyLine
  rw [put_at]
  have ho : pkgOpen exEnv.H true f' = (.ok, ⟨hdr, f', []⟩) := ho
  simp only [ho, World.put_put]
  rw [if_neg (fun h => h rfl), if_neg (fun h => by cases h.1)]
  simp only [Option.map_some, World.put_ne _ _ hk, hd]
  have h : verifyCmd exEnv.H (mbedScheme exEnv.M) f' (some (mbedLoadPublic exEnv.M (some d))) none (mbedParsePublic exEnv.M) = .ret e := h
  simp only [Option.bind_none, h]

/-- C108: the signed package is accepted with its key and not with another; the exit status tells which. -/
example : ∃ w, Accepted exEnv w (ascii "p") (some (ascii "pub")) none ∧ ¬ Accepted exEnv w (ascii "p") (some (ascii "pub3")) none ∧
    (bpakMain exEnv w [ascii "verify", ascii "-k", ascii "pub", ascii "p"]).status = some 0 ∧ (bpakMain exEnv w [ascii "verify", ascii "-k", ascii "pub3", ascii "p"]).status = some 236 ∧
    (bpakMain exEnv w [ascii "verify", ascii "-k", ascii "pub", ascii "p", ascii "missing"]).status = some 0 := by
  obtain ⟨f', hdr, -, ho, hv, hw⟩ := ex_signed
  have e1 := ex_verify f' hdr ho (ascii "pub") [80, 2] (by decide) exWorld_at.2.1 _ hv
  have e2 := ex_verify f' hdr ho (ascii "pub3") [80, 3] (by decide) exWorld_at.2.2.1 _ hw
  have s1 : (bpakMain exEnv (exWorld.put (ascii "p") (some f')) [ascii "verify", ascii "-k", ascii "pub", ascii "p"]).status = some 0 := by rw [e1]; rfl
  have s2 : (bpakMain exEnv (exWorld.put (ascii "p") (some f')) [ascii "verify", ascii "-k", ascii "pub3", ascii "p"]).status = some 236 := by rw [e2]; rfl
  have a1 := ((C108_verify_line exEnv _ (ascii "pub") (ascii "p") (by decide)).1 [ascii "-k", ascii "pub", ascii "p"] (by simp)).1 s1
  refine ⟨exWorld.put (ascii "p") (some f'), a1, ?_, s1, s2, C112_verify_two_files _ _ _ _ _ (by decide) (by decide) a1⟩
  intro a
  have := ((C108_verify_line exEnv _ (ascii "pub3") (ascii "p") (by decide)).1 [ascii "-k", ascii "pub3", ascii "p"] (by simp)).2 a
  rw [s2] at this
  cases this

/-- C111: four lines, all with status 0, are a sequence of lines; a failing line among them. -/
example : ∃ f' w, Lines exHash exMbed (ascii "p")
      [(.create none none false 0, .ok), (.set { keyId := some (ascii "k1"), keystoreId := some (ascii "0x64636261") }, .ok), (.sign (mbedLoadPrivate exMbed true (some [81, 2])) [], .ok)] w ∧
    w (ascii "p") = some f' ∧ (bpakMain exEnv w [ascii "verify", ascii "-k", ascii "pub", ascii "p"]).status = some 0 := by
  obtain ⟨f0, h1, h2⟩ := exSv_steps
  obtain ⟨f', hdr, hs, ho, hv, -⟩ := ex_signed
  have g1 := ex_create f0 h1
  have g2 := ex_set f0 h2
  have g3 := ex_sign f' hs
  have g4 := ex_verify f' hdr ho (ascii "pub") [80, 2] (by decide) exWorld_at.2.1 _ hv
  have l0 : Lines exHash exMbed (ascii "p") [] exWorld := .start exWorld_at.2.2.2.2
  have l1 := l0.line (env := exEnv) rfl rfl (by decide) (show (getopt (tableOf "create") exCreateLine).2.head? = some (ascii "p") by decide) g1
    (by rw [show lineCmd exEnv exWorld "create" exCreateLine = some (.create none none false 0) by unfold lineCmd; rfl]; rintro c hc; cases hc; exact ⟨trivial, fun h => by cases h⟩)
  have l2 := l1.line (env := exEnv) rfl rfl (by decide) (show (getopt (tableOf "set") exSetLine).2.head? = some (ascii "p") by decide) g2
    (by
      rw [show lineCmd exEnv _ "set" exSetLine = some (.set { keyId := some (ascii "k1"), keystoreId := some (ascii "0x64636261") }) by
        unfold lineCmd; rw [show getopt (tableOf "set") exSetLine = ([.opt 'k' (ascii "k1"), .opt 'i' (ascii "0x64636261")], [ascii "p"]) by decide]; rfl]
      rintro c hc; cases hc; exact ⟨fun n hn => (by cases hn), fun h => (by cases h)⟩)
  have k3 : lineCmd exEnv (exWorld.put (ascii "p") (some exSvFile)) "sign" exSignLine = some (.sign (mbedLoadPrivate exMbed true (some [81, 2])) []) := by
    unfold lineCmd
    rw [show getopt (tableOf "sign") exSignLine = ([.opt 'k' (ascii "key")], [ascii "p"]) by decide]
    rfl
  have l3 := l2.line (env := exEnv) rfl rfl (by decide) (show (getopt (tableOf "sign") exSignLine).2.head? = some (ascii "p") by decide) g3
    (by
      rw [k3]; rintro c hc; cases hc
      obtain ⟨d, hd, -⟩ := exMbed_laws.priSize (false, 2) 6 (by decide)
      have hload := (C101_load_private exMbed exMbed_laws (some [81, 2]) ⟨0, 6, d⟩).2 ⟨[81, 2], (false, 2), 6, d, rfl, ⟨rfl, by decide⟩, hd, rfl⟩
      refine ⟨?_, fun h => (by cases h)⟩
      show mbedLoadPrivate exMbed true (some [81, 2]) ≠ _
      rw [hload]; intro h; cases h)
  refine ⟨f', _, ?_, put_at _ _ _, by rw [g4]; rfl⟩
  rw [k3] at l3
  exact l3

/-- C110: the same options in another order. -/
example (env : Env) (w : World) : bpakMain env w [ascii "set", ascii "-k", ascii "k1", ascii "p", ascii "--keystore-id=5"] = bpakMain env w [ascii "set", ascii "p", ascii "-i5", ascii "--key-id", ascii "k1"] := by
  have e1 : getopt (tableOf "set") [ascii "-k", ascii "k1", ascii "p", ascii "--keystore-id=5"] = ([.opt 'k' (ascii "k1"), .opt 'i' (ascii "5")], [ascii "p"]) := by decide
  have e2 : getopt (tableOf "set") [ascii "p", ascii "-i5", ascii "--key-id", ascii "k1"] = ([.opt 'i' (ascii "5"), .opt 'k' (ascii "k1")], [ascii "p"]) := by decide
  refine C110_option_order env w "set" (by decide) _ _ ?_ ?_ ?_ ?_ (by rw [e1, e2])
  · rw [e1]; decide
  · rw [e2]; decide
  · rw [e1]
    rintro ⟨a, ha⟩
    simp only [List.mem_cons, List.not_mem_nil, or_false, OptEv.opt.injEq] at ha
    rcases ha with ⟨h, -⟩ | ⟨h, -⟩ <;> revert h <;> decide
  · rw [e1, e2]
    intro c
    show (([OptEv.opt 'k' _, OptEv.opt 'i' _].filterMap _) : List Bytes) = ([OptEv.opt 'i' _, OptEv.opt 'k' _].filterMap _)
    by_cases hk : 'k' = c
    · subst hk; rfl
    · by_cases hi : 'i' = c
      · subst hi; rfl
      · simp [if_neg hk, if_neg hi]

/-- C109: signing changes only the package, not the key; and verifying changes nothing. -/
example : ∃ w w', bpakMain exEnv w (ascii "sign" :: exSignLine) = .exit .ok .nothing w' ∧ ¬ Writes "sign" exSignLine (ascii "key") ∧ Writes "sign" exSignLine (ascii "p") ∧ w' (ascii "pub") = w (ascii "pub") := by
  obtain ⟨f', -, hs, -⟩ := ex_signed
  have g := ex_sign f' hs
  have e : getopt (tableOf "sign") exSignLine = ([.opt 'k' (ascii "key")], [ascii "p"]) := by decide
  refine ⟨_, _, g, ?_, ?_, C109_unnamed _ _ _ _ _ _ g _ (by decide)⟩
  · unfold Writes
    rw [e]
    rintro (⟨-, h⟩ | ⟨h, -⟩ | ⟨h, -⟩) <;> revert h <;> decide
  · exact .inl ⟨by decide, by rw [e]; rfl⟩

/-- C112: what comes of the options that the usage text of `transport` has. -/
example (env : Env) (w : World) (hw : w (ascii "p") = none) : bpakMain env w [ascii "transport", ascii "-D", ascii "p", ascii "-o", ascii "q"] = .exit .failed .nothing w := by
  have hh : ∀ x ∈ [ascii "-D", ascii "-p"], ¬ HelpFirst (getopt transportTable [x, ascii "p", ascii "-o", ascii "q"]).1 := by
    rintro x hx ⟨pre, a, post, h, hb⟩
    have : ∀ x ∈ [ascii "-D", ascii "-p"], (getopt transportTable [x, ascii "p", ascii "-o", ascii "q"]).1 = [.bad, .opt 'o' (ascii "q")] := by decide
    rw [this x hx] at h
    cases pre with
    | nil => cases h
    | cons y ys => injection h with h1; exact hb (h1 ▸ List.mem_cons_self)
  exact (C112_transport_letters env w _ (hh _ (by simp)) (hh _ (by simp)) (ascii "p") (ascii "q") (by decide) hw).1

end Bpak
