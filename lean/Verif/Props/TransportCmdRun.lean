import Verif.Props.TransportCmd
/-! A concrete package for C99. -/
namespace Bpak

/-- A package with an id and a part to be sent as a delta. -/
def exTrCmds (d : Bytes) : List (Cmd Unit) := [
  .create none none false 0,
  .addMeta { name := ascii "bpak-package", source := .text (ascii "0123456789abcde") },
  .addPart (ascii "a") false none (some d) (.error .failed) [],
  .transportAdd (some (ascii "a")) (ascii "bsdiff") (ascii "bspatch") ]

def exTrPre : Bytes := unrle [(50, 1), (65, 1), (80, 1), (66, 1), (0, 4), (63, 1), (31, 1), (47, 1), (251, 1), (16, 1), (0, 11), (251, 1), (187, 1), (68, 1), (45, 1), (32, 1), (0, 1), (16, 1), (0, 1), (206, 1), (81, 1), (181, 1), (58, 1), (0, 484), (206, 1), (81, 1), (181, 1), (58, 1), (3, 1), (0, 8), (16, 1), (0, 14), (253, 1), (1, 1), (0, 994), (48, 1), (49, 1), (50, 1), (51, 1), (52, 1), (53, 1), (54, 1), (55, 1), (56, 1), (57, 1), (97, 1), (98, 1), (99, 1), (100, 1), (101, 1), (0, 1), (249, 1), (172, 1), (122, 1), (159, 1), (136, 1), (67, 1), (150, 1), (181, 1), (0, 1896), (1, 1), (2, 1), (0, 1), (2, 1), (0, 628)]

def exTrFile (x : Nat) : Bytes := exTrPre ++ unrle [(1, 1), (x, 1), (3, 1), (0, 509)]

def exTrFirst : Bytes := unrle [(50, 1), (65, 1), (80, 1), (66, 1), (0, 4), (63, 1), (31, 1), (47, 1), (251, 1), (16, 1), (0, 1531), (48, 1), (49, 1), (50, 1), (51, 1), (52, 1), (53, 1), (54, 1), (55, 1), (56, 1), (57, 1), (97, 1), (98, 1), (99, 1), (100, 1), (101, 1), (0, 1905), (1, 1), (2, 1), (0, 1), (2, 1), (0, 628)]

def exTrMid (x : Nat) : Bytes := unrle [(50, 1), (65, 1), (80, 1), (66, 1), (0, 4), (63, 1), (31, 1), (47, 1), (251, 1), (16, 1), (0, 507), (206, 1), (81, 1), (181, 1), (58, 1), (3, 1), (0, 8), (16, 1), (0, 14), (253, 1), (1, 1), (0, 994), (48, 1), (49, 1), (50, 1), (51, 1), (52, 1), (53, 1), (54, 1), (55, 1), (56, 1), (57, 1), (97, 1), (98, 1), (99, 1), (100, 1), (101, 1), (0, 1905), (1, 1), (2, 1), (0, 1), (2, 1), (0, 628), (1, 1), (x, 1), (3, 1), (0, 509)]

set_option maxRecDepth 100000 in
theorem exTrRunA : runOut none ((exTrCmds []).take 2) = some ([.ok, .ok], some exTrFirst) := runTo_eq (by decide +kernel)
set_option maxRecDepth 100000 in
theorem exTrRunB : runOut (some exTrFirst) (((exTrCmds [1, 2, 3]).drop 2).take 1) = some ([.ok], some (exTrMid 2)) := runTo_eq (by decide +kernel)
set_option maxRecDepth 100000 in
theorem exTrRunC : runOut (some (exTrMid 2)) ((exTrCmds [1, 2, 3]).drop 3) = some ([.ok], some (exTrFile 2)) := runTo_eq (by decide +kernel)

theorem runOut_append {a b : List (Cmd Unit)} {f g g' : Option Bytes} {c c' : List Err} (h1 : runOut f a = some (c, g)) (h2 : runOut g b = some (c', g')) (hl : a.length = c.length) :
    runOut f (a ++ b) = some (c ++ c', g') := by
  have h := runCmds_append a b f g g' _ _ (runOut_eq h1) (runOut_eq h2)
  have h3 : runOut f (a ++ b) = some ((a.zip c ++ b.zip c').map (fun x => x.2), g') := by unfold runOut; rw [h]; rfl
  have h4 : runOut g b = some ((b.zip c').map (fun x => x.2), g') := by unfold runOut; rw [runOut_eq h2]; rfl
  rw [h2] at h4
  rw [h3, List.map_append, ← (Prod.mk.inj (Option.some.inj h4)).1]
  have : (a.zip c).map (fun x => x.2) = c := List.map_snd_zip (by omega)
  rw [this]

theorem exTrRun2 : runOut none (exTrCmds [1, 2, 3]) = some ([.ok, .ok, .ok, .ok], some (exTrFile 2)) :=
  show runOut none ((exTrCmds []).take 2 ++ (((exTrCmds [1, 2, 3]).drop 2).take 1 ++ (exTrCmds [1, 2, 3]).drop 3)) = some ([.ok, .ok] ++ ([.ok] ++ [.ok]), some (exTrFile 2)) from
  runOut_append exTrRunA (runOut_append exTrRunB exTrRunC rfl) rfl

theorem exTr_session (d : Bytes) (hd : d.length = 3) (f : Bytes) (hr : runOut none (exTrCmds d) = some ([.ok, .ok, .ok, .ok], some f)) :
    ∃ t, Session exHash exScheme t (some f) ∧ sessionFiles exHash t = [(bpakId (ascii "a"), d)] := by
  have := runCmds_session (exTrCmds d) [] none _ (some f) ?_ .start (runOut_eq hr)
  · rw [List.nil_append] at this
    exact ⟨_, this, rfl⟩
  · intro c hc f hf
    simp only [exTrCmds, List.mem_cons, List.not_mem_nil, or_false] at hc
    rcases hc with rfl | rfl | rfl | rfl
    · trivial
    · exact show bpakId (ascii "bpak-package") ≠ 0 by decide +kernel
    · refine ⟨by decide +kernel, fun g d' e1 e2 => ⟨?_, (fun h => by cases h), fun h => by cases h⟩⟩
      subst e1
      cases e2
      simp only [Option.getD_some] at hf
      omega
    · trivial


theorem exTr_len (x : Nat) : (exTrFile x).length = 4608 := by simp only [exTrFile, exTrPre, unrle, List.length_append, List.length_replicate, List.length_nil]

theorem exTr_hdr (x : Nat) : (storedPkg (exTrFile x)).hdr = parseHeader exTrPre := by
  have : exTrPre.length = 4096 := by simp only [exTrPre, unrle, List.length_append, List.length_replicate, List.length_nil]
  unfold storedPkg exTrFile
  rw [List.take_append_of_le_length (by omega), List.take_of_length_le (by omega)]

end Bpak
