import Verif.Props.MetaHistory
import Verif.Props.LinesExample
/-! Command lines that meet the hypotheses of C115_extract_line. -/
namespace Bpak
attribute [local instance] storeLib

/-- `bpak create p`, `bpak add p -m bpak-package -s 0123456789abcde`; then `bpak extract p --meta=bpak-package`. -/
example (w : World) (h0 : w (ascii "p") = none) : ∃ f, bpakMain exTrEnv (w.put (ascii "p") (some f)) [ascii "extract", ascii "p", ascii "--meta=bpak-package"] =
    .exit .ok (.bytes (ascii "0123456789abcde" ++ [0])) (w.put (ascii "p") (some f)) := by
  obtain ⟨f1, f2, f3, h1, h2, -⟩ := exTr_steps [1, 2, 3] _ exTrRun2
  have l1 := line_create w (ascii "p") f1 h0 (by decide) h1
  have l2 := line_addMeta _ _ l1 (put_at _ _ _) (by decide) (by decide +kernel) h2
  rw [World.put_put] at l2
  have m0 : MetaHistory (SK := Key) exHash [] [] := .start
  have m1 := (m0.created none none false 0).added ⟨ascii "bpak-package", .text (ascii "0123456789abcde"), none, none⟩ _ (.text _ (by decide))
  have t1 : bpakId (ascii "bpak-package") ≠ idBpakTransport := by decide +kernel
  rw [shown_other t1] at m1
  have g1 : getopt extractTable [ascii "p", ascii "--meta=bpak-package"] = ([.opt 'm' (ascii "bpak-package")], [ascii "p"]) := by decide
  have h := (C115_extract_line exHash exHash_len exMbed _ _ _ _ l2 (put_at _ _ _) _ m1 exTrEnv rfl [ascii "p", ascii "--meta=bpak-package"]
    (clean_of g1 (by decide) (by simp)) (by rw [g1]; rfl) (by rw [g1]; decide) (ascii "bpak-package") (by rw [g1]; decide) (by decide +kernel) (by rw [g1]; decide) 0 (by rw [g1]; rfl)).1
    _ (List.mem_append_right _ (List.mem_singleton.2 rfl)) (by decide +kernel) rfl t1
  rw [g1] at h
  exact ⟨f2, h⟩

end Bpak
