import Verif.Props.Generate
/-! A concrete keystore for C97 and C98. -/
namespace Bpak

/-- A keystore with two keys. -/
def exKsCmds : List (Cmd Unit) := [
  .create none none false 0,
  .addMeta { name := ascii "bpak-package", source := .text (ascii "x") },
  .addMeta { name := ascii "keystore-provider-id", source := .text (ascii "abcd") },
  .addPart (ascii "k1") false none (some [1, 2, 3]) (.error .failed) [],
  .addPart (ascii "k2") false none (some [4, 5]) (.error .failed) [] ]

def exKsFile1 : Bytes := unrle [(50, 1), (65, 1), (80, 1), (66, 1), (0, 4), (63, 1), (31, 1), (47, 1), (251, 1), (2, 1), (0, 11), (154, 1), (125, 1), (54, 1), (251, 1), (5, 1), (0, 1), (8, 1), (0, 489), (86, 1), (178, 1), (215, 2), (3, 1), (0, 8), (16, 1), (0, 14), (253, 1), (1, 1), (0, 994), (120, 1), (0, 7), (97, 1), (98, 1), (99, 1), (100, 1), (0, 1908), (1, 1), (2, 1), (0, 1), (2, 1), (0, 628), (1, 1), (2, 1), (3, 1), (0, 509)]

def exKsFile : Bytes := unrle [(50, 1), (65, 1), (80, 1), (66, 1), (0, 4), (63, 1), (31, 1), (47, 1), (251, 1), (2, 1), (0, 11), (154, 1), (125, 1), (54, 1), (251, 1), (5, 1), (0, 1), (8, 1), (0, 489), (86, 1), (178, 1), (215, 2), (3, 1), (0, 8), (16, 1), (0, 14), (253, 1), (1, 1), (0, 2), (236, 1), (227, 1), (222, 1), (78, 1), (2, 1), (0, 8), (18, 1), (0, 14), (254, 1), (1, 1), (0, 962), (120, 1), (0, 7), (97, 1), (98, 1), (99, 1), (100, 1), (0, 1908), (1, 1), (2, 1), (0, 1), (2, 1), (0, 628), (1, 1), (2, 1), (3, 1), (0, 509), (4, 1), (5, 1), (0, 510)]

set_option maxRecDepth 100000 in
theorem exKsRun1 : runOut none (exKsCmds.take 4) = some ([.ok, .ok, .ok, .ok], some exKsFile1) := runTo_eq (by decide +kernel)
set_option maxRecDepth 100000 in
theorem exKsRun2 : runOut (some exKsFile1) (exKsCmds.drop 4) = some ([.ok], some exKsFile) := runTo_eq (by decide +kernel)

theorem exKs_run : Session exHash exScheme (exKsCmds.zip [.ok, .ok, .ok, .ok, .ok]) (some exKsFile) := by
  have hrun : runCmds none exKsCmds = some (exKsCmds.zip [.ok, .ok, .ok, .ok, .ok], some exKsFile) :=
    runCmds_append (exKsCmds.take 4) (exKsCmds.drop 4) none (some exKsFile1) (some exKsFile) _ _ (runOut_eq exKsRun1) (runOut_eq exKsRun2)
  have := runCmds_session exKsCmds [] none _ (some exKsFile) ?_ .start hrun
  · rw [List.nil_append] at this
    exact this
  · have part : ∀ (name d : Bytes), bpakId name ≠ 0 → d.length ≤ 3 → ∀ f : Option Bytes, (f.getD []).length < 100000 →
        Allowed (SK := Unit) exHash f (.addPart name false none (some d) (.error .failed) []) := by
      intro name d h1 h2 f h3
      refine ⟨h1, fun g d' e1 e2 => ⟨?_, (fun h => by cases h), fun h => by cases h⟩⟩
      subst e1
      cases e2
      simp only [Option.getD_some] at h3
      omega
    intro c hc f hf
    simp only [exKsCmds, List.mem_cons, List.not_mem_nil, or_false] at hc
    rcases hc with rfl | rfl | rfl | rfl | rfl
    · trivial
    · exact show bpakId (ascii "bpak-package") ≠ 0 by decide +kernel
    · exact show bpakId (ascii "keystore-provider-id") ≠ 0 by decide +kernel
    · exact part _ _ (by decide +kernel) (by decide) f hf
    · exact part _ _ (by decide +kernel) (by decide) f hf

theorem exKs_session : ∃ t, Session exHash exScheme t (some exKsFile) ∧ sessionFiles exHash t = [(bpakId (ascii "k1"), [1, 2, 3]), (bpakId (ascii "k2"), [4, 5])] :=
  ⟨_, exKs_run, rfl⟩

theorem exKs_entries : entries (parseHeader (exKsFile.take 4096)) =
    [⟨bpakId (ascii "bpak-package"), 0, [120, 0]⟩, ⟨bpakId (ascii "keystore-provider-id"), 0, [97, 98, 99, 100, 0]⟩] := by decide +kernel

def exParse (d : Bytes) : Except Err Key := .ok ⟨0, 2, d⟩

/-- Two key definitions and the keystore. -/
example : ∃ ks st, generateKeystore (some exKsFile) (some (ascii "my-keys")) false exParse = .ret (.ok, ⟨ks, some st⟩) ∧
    ks.map (fun g => (g.id, g.data)) = [(bpakId (ascii "k1"), [1, 2, 3]), (bpakId (ascii "k2"), [4, 5])] ∧ st.id = 0x64636261 ∧ st.noOfKeys = 2 := by
  obtain ⟨t, h, e⟩ := exKs_session
  obtain ⟨ks, st, h1, h2, h3, -, -, -, h5, h6⟩ := C97_generate_success exHash exHash_len exScheme exScheme_ok t exKsFile h (ascii "my-keys") false exParse
    ⟨bpakId (ascii "bpak-package"), 0, [120, 0]⟩ ⟨bpakId (ascii "keystore-provider-id"), 0, [97, 98, 99, 100, 0]⟩
    (by rw [exKs_entries]; simp) rfl rfl (by rw [exKs_entries]; simp) rfl rfl (by decide)
    (by rw [e]; intro c hc; refine ⟨_, rfl, by simp, ?_⟩; rcases List.mem_cons.1 hc with rfl | hc
        · decide
        · rw [List.mem_singleton.1 hc]; decide)
  rw [e] at h2 h3
  refine ⟨ks, st, h1, ?_, by rw [h6]; decide, by rw [h5, h2]; rfl⟩
  obtain ⟨k0, g0, a0, b0, c0, -, -, d0⟩ := h3 0 _ rfl
  obtain ⟨k1, g1, a1, b1, c1, -, -, d1⟩ := h3 1 _ rfl
  cases a0
  cases a1
  match ks, h2 with
  | [x, y], _ =>
    cases b0
    cases b1
    simp only [List.map_cons, List.map_nil, c0, c1, d0, d1]

/-- A parser that drops the first byte: three bytes announced, two given. -/
example : ∃ o g, generateKeystore (some exKsFile) (some (ascii "k")) true (fun d => .ok ⟨0, 2, d.drop 1⟩) = .ret (.ok, o) ∧ g ∈ o.keys ∧ g.data = [2, 3] ∧
    g.size.toNat ≠ g.data.length := by
  obtain ⟨t, h, e⟩ := exKs_session
  obtain ⟨o, g, h1, h2, -, h3, h4⟩ := C97_size_is_false exHash exHash_len exScheme exScheme_ok t exKsFile h (ascii "k") true (fun d => .ok ⟨0, 2, d.drop 1⟩)
    ⟨bpakId (ascii "bpak-package"), 0, [120, 0]⟩ ⟨bpakId (ascii "keystore-provider-id"), 0, [97, 98, 99, 100, 0]⟩
    (by rw [exKs_entries]; simp) rfl rfl (by rw [exKs_entries]; simp) rfl rfl (by decide)
    (by rw [e]; intro c hc; refine ⟨_, rfl, by simp, ?_⟩; rcases List.mem_cons.1 hc with rfl | hc
        · decide
        · rw [List.mem_singleton.1 hc]; decide)
    (bpakId (ascii "k1"), [1, 2, 3]) (by rw [e]; exact List.mem_cons_self) _ rfl (by decide)
  exact ⟨o, g, h1, h2, h3, h4⟩

/-- A parser that refuses the second key; without the provider entry the other session fails. -/
example : (∃ ks, generateKeystore (some exKsFile) (some (ascii "k")) true (fun d => if d = [4, 5] then .error .keyDecode else exParse d) = .ret (.keyDecode, ⟨ks, none⟩) ∧
      ks.map (·.id) = [bpakId (ascii "k1")]) ∧
    ∃ f, generateKeystore (some f) (some (ascii "k")) true exParse = .ret (.notFound, ⟨[], none⟩) := by
  refine ⟨?_, ?_⟩
  · obtain ⟨t, h, e⟩ := exKs_session
    obtain ⟨ks, h1, h2⟩ := (C97_generate_failure exHash exHash_len exScheme exScheme_ok t exKsFile h (ascii "k") true
      (fun d => if d = [4, 5] then .error .keyDecode else exParse d)).2
      ⟨bpakId (ascii "bpak-package"), 0, [120, 0]⟩ ⟨bpakId (ascii "keystore-provider-id"), 0, [97, 98, 99, 100, 0]⟩
      (by rw [exKs_entries]; simp) rfl rfl (by rw [exKs_entries]; simp) rfl rfl (by decide)
      [(bpakId (ascii "k1"), [1, 2, 3])] (bpakId (ascii "k2")) [4, 5] [] .keyDecode (by rw [e]; rfl)
      (by intro c hc; rw [List.mem_singleton.1 hc]; exact ⟨_, rfl, by decide, by decide⟩)
      (Or.inr (Or.inl ⟨by decide, rfl⟩))
    exact ⟨ks, h1, h2⟩
  · obtain ⟨t, h, -⟩ : ∃ t, Session exHash exScheme t (some exFile3) ∧ True := by
      refine ⟨exCmds.zip exCodes, ?_, trivial⟩
      exact exSession3
    refine ⟨exFile3, (C97_generate_failure exHash exHash_len exScheme exScheme_ok t exFile3 h (ascii "k") true exParse).1 (Or.inl ?_)⟩
    have : entries (parseHeader (exFile3.take 4096)) = [⟨bpakId (ascii "v"), 0, [49, 46, 48, 0]⟩] := by decide +kernel
    rw [this]
    intro e he
    rw [List.mem_singleton.1 he]
    decide +kernel

/-- The compiled keystore hands out what the package does; and after its payload is overwritten it is printed as verified all the same. -/
example : (∃ o ks, generateKeystore (some exKsFile) (some (ascii "k")) true exParse = .ret (.ok, o) ∧ o.compiled = some ks ∧
      keystoreGet ks (bpakId (ascii "k2")) = (.ok, some ⟨bpakId (ascii "k2"), 2, [4, 5]⟩) ∧
      loadKeyFromFile exHash exKsFile ks.id (bpakId (ascii "k2")) none exParse = .ret (.ok, some ⟨bpakId (ascii "k2"), 2, [4, 5]⟩)) ∧
    ∃ o ks, generateKeystore (some (exKsFile.take 4096 ++ List.replicate 1024 7)) (some (ascii "k")) true exParse = .ret (.ok, o) ∧ o.compiled = some ks ∧
      ks.verified = true := by
  have hlen : exKsFile.length = 5120 := by simp only [exKsFile, unrle, List.length_append, List.length_replicate, List.length_nil]
  have hsz : ∀ q ∈ usedParts (parseHeader (exKsFile.take 4096)), q.size.toNat ≤ 4096 := by decide +kernel
  obtain ⟨t, h, e⟩ := exKs_session
  have hb : (⟨bpakId (ascii "keystore-provider-id"), 0, [97, 98, 99, 100, 0]⟩ : Entry) ∈ entries (parseHeader (exKsFile.take 4096)) := by rw [exKs_entries]; simp
  have ha : (⟨bpakId (ascii "bpak-package"), 0, [120, 0]⟩ : Entry) ∈ entries (parseHeader (exKsFile.take 4096)) := by rw [exKs_entries]; simp
  refine ⟨?_, ?_⟩
  · obtain ⟨o, ks, h1, h2, h3, h4⟩ := C98_verified_is_false exHash exHash_len exScheme exScheme_ok t exKsFile h (ascii "k") true exParse _ _ ha rfl rfl hb rfl rfl (by decide)
      exKsFile rfl rfl (fun q hq => ⟨_, rfl, by simp, hsz q hq⟩)
    have hk : keystoreGet ks (bpakId (ascii "k2")) = (.ok, some ⟨bpakId (ascii "k2"), 2, [4, 5]⟩) := by
      obtain ⟨hd, e0, -, e1⟩ := C96_offsets_session exHash exHash_len exScheme exScheme_ok t exKsFile h
      rw [e] at e1
      subst e0
      have h5 : ks.keys.map some = ((usedParts (parseHeader (exKsFile.take 4096))).map (fun q => (q.id, fileRead exKsFile q.offset.toNat q.size.toNat))).map (fun c => some ⟨c.1, 2, c.2⟩) := by
        rw [h4, List.map_map]; rfl
      rw [e1] at h5
      obtain ⟨i, v, l⟩ := ks
      simp only at h3 h5
      subst h3
      match l, h5 with
      | [x, y], h5 =>
        simp only [List.map_cons, List.map_nil, List.cons.injEq, Option.some.injEq, and_true] at h5
        rw [h5.1, h5.2]
        unfold keystoreGet
        simp only [keystoreFind]
        rw [if_neg (by decide), if_neg (by decide +kernel), if_pos True.intro]
    refine ⟨o, ks, h1, h2, hk, ?_⟩
    refine (C98_static_keystore_partial exHash exHash_len exScheme exScheme_ok t exKsFile h (ascii "k") true exParse ?_ o ks h1 h2 _ (by decide +kernel) ?_ _).1 hk
    · rw [exKs_entries]
      intro x hx x1 _
      rcases List.mem_cons.1 hx with rfl | hx
      · revert x1; decide +kernel
      · rw [List.mem_singleton.1 hx]; decide
    · rw [e]
      intro d hd
      rcases List.mem_cons.1 hd with hd | hd
      · rw [(Prod.mk.inj hd).2]; decide
      · rw [(Prod.mk.inj (List.mem_singleton.1 hd)).2]; decide
  · obtain ⟨o, ks, h1, h2, h3, -⟩ := C98_verified_is_false exHash exHash_len exScheme exScheme_ok t exKsFile h (ascii "k") true exParse _ _ ha rfl rfl hb rfl rfl (by decide)
      (exKsFile.take 4096 ++ List.replicate 1024 7) (by rw [List.length_append, List.length_take, List.length_replicate, hlen]; rfl)
      (by rw [List.take_left' (by rw [List.length_take, hlen]; rfl)]) (fun q hq => ⟨_, rfl, by simp, hsz q hq⟩)
    exact ⟨o, ks, h1, h2, h3⟩

/-- `C97_any_file` speaks about it. -/
example : (∀ b, exParse b ≠ .error .ok) ∧ ∃ out, generateKeystore (some exKsFile) (some (ascii "k")) true exParse = .ret (.ok, out) := by
  refine ⟨fun b h => (by cases h), ?_⟩
  obtain ⟨t, h, e⟩ := exKs_session
  obtain ⟨ks, st, h1, -⟩ := C97_generate_success exHash exHash_len exScheme exScheme_ok t exKsFile h (ascii "k") true exParse
    ⟨bpakId (ascii "bpak-package"), 0, [120, 0]⟩ ⟨bpakId (ascii "keystore-provider-id"), 0, [97, 98, 99, 100, 0]⟩
    (by rw [exKs_entries]; simp) rfl rfl (by rw [exKs_entries]; simp) rfl rfl (by decide)
    (by rw [e]; intro c hc; refine ⟨_, rfl, by simp, ?_⟩; rcases List.mem_cons.1 hc with rfl | hc
        · decide
        · rw [List.mem_singleton.1 hc]; decide)
  exact ⟨_, h1⟩

end Bpak
