import Verif.Props.MetaHistory
import Verif.Props.GenerateExample
import Verif.Props.TransportCmdRun
/-! Sessions that meet the hypotheses of C115. -/
namespace Bpak

/-- After the commands of GenerateExample: a duplicate, a longer text, a shorter text. -/
def exMhCmds : List (Cmd Unit) := [
  .addMeta { name := ascii "bpak-package", source := .text (ascii "again") },
  .set { name := some (ascii "bpak-package"), text := some (ascii "longer text") },
  .set { name := some (ascii "keystore-provider-id"), text := some (ascii "z") } ]

/-- The file after them. -/
def exMhFile : Bytes := unrle [(50, 1), (65, 1), (80, 1), (66, 1), (0, 4), (154, 1), (125, 1), (54, 1), (251, 1), (5, 1), (0, 11), (63, 1), (31, 1), (47, 1), (251, 1), (12, 1), (0, 1), (8, 1), (0, 489), (86, 1), (178, 1), (215, 2), (3, 1), (0, 8), (16, 1), (0, 14), (253, 1), (1, 1), (0, 2), (236, 1), (227, 1), (222, 1), (78, 1), (2, 1), (0, 8), (18, 1), (0, 14), (254, 1), (1, 1), (0, 962), (122, 1), (0, 7), (108, 1), (111, 1), (110, 1), (103, 1), (101, 1), (114, 1), (32, 1), (116, 1), (101, 1), (120, 1), (116, 1), (0, 1901), (1, 1), (2, 1), (0, 1), (2, 1), (0, 628), (1, 1), (2, 1), (3, 1), (0, 509), (4, 1), (5, 1), (0, 510)]

set_option maxRecDepth 100000 in
theorem exMhRun : runOut (some exKsFile) exMhCmds = some ([.exists_, .ok, .ok], some exMhFile) := runTo_eq (by decide +kernel)

theorem exMh_session : Session exHash exScheme (exKsCmds.zip [.ok, .ok, .ok, .ok, .ok] ++ exMhCmds.zip [.exists_, .ok, .ok]) (some exMhFile) := by
  refine runCmds_session exMhCmds _ (some exKsFile) _ (some exMhFile) ?_ exKs_run (runOut_eq exMhRun)
  intro c hc f hf
  simp only [exMhCmds, List.mem_cons, List.not_mem_nil, or_false] at hc
  rcases hc with rfl | rfl | rfl
  · exact show bpakId (ascii "bpak-package") ≠ 0 by decide +kernel
  · rintro n hn; cases hn; decide +kernel
  · rintro n hn; cases hn; decide +kernel

/-- The metadata the user expects then. -/
def exMhEntries : List Entry := [⟨bpakId (ascii "keystore-provider-id"), 0, [122, 0, 0, 0, 0]⟩, ⟨bpakId (ascii "bpak-package"), 0, ascii "longer text" ++ [0]⟩]

theorem exMh_history : MetaHistory exHash (exKsCmds.zip [.ok, .ok, .ok, .ok, .ok] ++ exMhCmds.zip [.exists_, .ok, .ok]) exMhEntries := by
  have t1 : bpakId (ascii "bpak-package") ≠ idBpakTransport := by decide +kernel
  have t2 : bpakId (ascii "keystore-provider-id") ≠ idBpakTransport := by decide +kernel
  have h0 : MetaHistory (SK := Unit) exHash [] [] := .start
  have h1 := h0.created none none false 0
  have h2 := h1.added { name := ascii "bpak-package", source := .text (ascii "x") } _ (.text _ (by decide))
  rw [shown_other t1] at h2
  have h3 := h2.added { name := ascii "keystore-provider-id", source := .text (ascii "abcd") } _ (.text _ (by decide))
  rw [shown_other t2] at h3
  have h4 := h3.kept (.addPart (ascii "k1") false none (some [1, 2, 3]) (.error .failed) []) trivial
  have h5 := h4.kept (.addPart (ascii "k2") false none (some [4, 5]) (.error .failed) []) trivial
  have h6 := h5.failed (.addMeta { name := ascii "bpak-package", source := .text (ascii "again") }) .exists_ (by decide)
  have h7 := MetaHistory.grown (pre := []) (post := [⟨bpakId (ascii "keystore-provider-id"), 0, ascii "abcd" ++ [0]⟩])
    { name := some (ascii "bpak-package"), text := some (ascii "longer text") } (ascii "bpak-package") (ascii "longer text") h6 rfl rfl rfl rfl rfl t1 (by decide) (by
      intro x hx; rw [List.mem_singleton.1 hx]; decide)
  exact MetaHistory.text (pre := []) (post := [⟨bpakId (ascii "bpak-package"), 0, ascii "longer text" ++ [0]⟩])
    { name := some (ascii "keystore-provider-id"), text := some (ascii "z") } (ascii "keystore-provider-id") (ascii "z") h7 rfl rfl rfl rfl rfl t2 (by decide)

/-- C115 on it. -/
example : extractCmd exHash exMhFile none (some (ascii "bpak-package")) none = .ret (.ok, some (ascii "longer text" ++ [0])) := by
  obtain ⟨d, h1, -, h2, -⟩ := (C115_extract exHash exHash_len exScheme exScheme_ok _ _ exMh_session _ exMh_history (ascii "bpak-package") none 0 (by decide +kernel) rfl).1
    _ (show (⟨bpakId (ascii "bpak-package"), 0, ascii "longer text" ++ [0]⟩ : Entry) ∈ exMhEntries by simp [exMhEntries]) (by decide +kernel) rfl
  rw [h1, h2 (by decide +kernel)]

/-- The session of SessionExample, with a deletion, key ids and a signature. -/
theorem exMh_deleted : MetaHistory exHash (exCmds.zip exCodes) [⟨bpakId (ascii "v"), 0, ascii "1.0" ++ [0]⟩] := by
  have t1 : bpakId (ascii "v") ≠ idBpakTransport := by decide +kernel
  have h0 : MetaHistory (SK := Unit) exHash [] [] := .start
  have h1 := h0.failed (.addPart (ascii "kernel") false none (some [1, 2, 3]) (.error .failed) []) .notFound (by decide)
  have h2 := h1.created none none false 0
  have h3 := h2.kept (.addPart (ascii "kernel") false none (some [1, 2, 3]) (.error .failed) []) trivial
  have h4 := h3.failed (.addPart (ascii "kernel") false none (some [9]) (.error .failed) []) .exists_ (by decide)
  have h5 := h4.kept (.addPart (ascii "dtb") true none (some [4]) (.error .failed) []) trivial
  have h6 := h5.added { name := ascii "v", source := .text (ascii "1.0") } _ (.text _ (by decide))
  rw [shown_other t1] at h6
  have h7 := h6.kept (.set { keyId := some (ascii "key") }) rfl
  have h8 := h7.deleted (ascii "kernel") (by unfold FitsBehind; simp)
  have hd : idForNameOrRef (ascii "kernel") ≠ 0 := by decide +kernel
  generalize hL : List.filter _ _ = L at h8
  obtain rfl : L = [⟨bpakId (ascii "v"), 0, ascii "1.0" ++ [0]⟩] := hL.symm.trans (List.filter_cons_of_pos (by simpa using hd.symm))
  have h9 := h8.kept (.sign (.ok ()) []) trivial
  exact h9.failed (.delete (some (ascii "kernel")) false false) .notFound (by decide)

example : ∃ h, pkgOpen exHash true exFile3 = (.ok, ⟨h, exFile3, []⟩) ∧ (entries h).map shown = [⟨bpakId (ascii "v"), 0, ascii "1.0" ++ [0]⟩] :=
  C115_metadata exHash exHash_len exScheme exScheme_ok _ _ exSession3 _ exMh_deleted

end Bpak
