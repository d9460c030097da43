import Verif.Props.PySession
import Verif.Props.Keystore
import Verif.Props.SessionExample
/-! The offset stored with each part (C96). -/
namespace Bpak

theorem PkgInv.at_offsets {H : HashFn} {p : Pkg} {s : List (U32 × Bytes)} (i : PkgInv H p s) :
    (∀ q ∈ usedParts p.hdr, q.offset = partOffset p.hdr q ∧ 4096 ≤ q.offset.toNat ∧ q.offset.toNat % 512 = 0 ∧ q.offset.toNat + q.size.toNat ≤ p.file.length ∧ q.transportSize = 0) ∧
    (usedParts p.hdr).map (fun q => (q.id, fileRead p.file q.offset.toNat q.size.toNat)) = s := by
  have g := i.good
  have hx := g.exact
  have hs := i.small
  have t : TidyParts p.hdr := g.parts.tidy (by omega)
  refine ⟨?_, ?_⟩
  · intro q hq
    obtain ⟨pre, post, hu⟩ := List.append_of_mem hq
    obtain ⟨e3, -⟩ := tidy_offset p.hdr t pre post q hu
    have hst : ∀ q ∈ usedParts p.hdr, storedSize q = q.size.toNat + q.padBytes.toNat := by
      intro q hq
      unfold storedSize; rw [if_neg (by simpa using g.plain q hq)]
    have hal : ∀ l : List PartHdr, (∀ q ∈ l, q ∈ usedParts p.hdr) → (l.map storedSize).sum % 512 = 0 := by
      intro l
      induction l with
      | nil => intro _; rfl
      | cons a l ih =>
        intro h
        have h1 := ih (fun q hq => h q (by simp [hq]))
        have h2 := i.aligned a (h a (by simp))
        rw [List.map_cons, List.sum_cons, hst a (h a (by simp))]
        omega
    have h512 := hal pre (fun q hq => by rw [hu]; simp [hq])
    have hsz := hst q hq
    rw [hu] at hx
    simp only [List.map_append, List.map_cons, List.sum_append, List.sum_cons] at hx
    obtain ⟨hp, htr⟩ := i.placed q hq
    refine ⟨hp, ?_, ?_, ?_, htr⟩
    · rw [hp, e3]; omega
    · rw [hp, e3]; omega
    · rw [hp, e3]; omega
  · rw [← i.files]
    unfold Bpak.files
    apply List.map_congr_left
    intro q hq
    obtain ⟨-, r2, r3, -⟩ := read_stored i q hq
    rw [(i.placed q hq).1, ← r2, r3]

/-- C96: after any session of commands on a file, the offset stored with each part is where the library looks for the part's data; it is
a multiple of 512, after the header, and the part's data ends within the file; no transport size is stored. A reader that only seeks to the stored offsets gets exactly
the files expected. -/
theorem C96_offsets_session {SK PK : Type} (H : HashFn) (hH : HashLen H) (S : SigScheme SK PK) (hS : ∀ sk rnd k d, S.sign sk rnd k d ≠ .error .ok)
    (t : List (Cmd SK × Err)) (f : Bytes) (h : Session H S t (some f)) :
    ∃ hd, hd = parseHeader (f.take 4096) ∧
    (∀ q ∈ usedParts hd, q.offset = partOffset hd q ∧ 4096 ≤ q.offset.toNat ∧ q.offset.toNat % 512 = 0 ∧ q.offset.toNat + q.size.toNat ≤ f.length ∧ q.transportSize = 0) ∧
    (usedParts hd).map (fun q => (q.id, fileRead f q.offset.toNat q.size.toNat)) = sessionFiles H t := by
  rcases session_inv hH S hS h with ⟨h, -⟩ | ⟨p, hf, i⟩
  · cases h
  · cases hf
    refine ⟨_, rfl, ?_⟩
    rw [i.saved.2]
    exact i.at_offsets

/-- C96, for applications of the library. -/
theorem C96_offsets_history {SK PK : Type} (H : HashFn) (hH : HashLen H) (S : SigScheme SK PK) (hS : ∀ sk rnd k d, S.sign sk rnd k d ≠ .error .ok)
    (ops : List (PkgOp SK)) (p0 p : Pkg) (h0 : pkgOpen H true [] = (.ok, p0)) (hr : pkgRun H S p0 ops = some p) :
    (∀ q ∈ usedParts p.hdr, q.offset = partOffset p.hdr q ∧ 4096 ≤ q.offset.toNat ∧ q.offset.toNat % 512 = 0 ∧ q.offset.toNat + q.size.toNat ≤ p.file.length ∧ q.transportSize = 0) ∧
    (usedParts p.hdr).map (fun q => (q.id, fileRead p.file q.offset.toNat q.size.toNat)) = expect [] ops :=
  (run_inv H hH S hS ops p0 p h0 hr).at_offsets

/-- C96, for Python programs. -/
theorem C96_offsets_python {SK PK : Type} (H : HashFn) (hH : HashLen H) (S : SigScheme SK PK) (hS : ∀ sk rnd k d, S.sign sk rnd k d ≠ .error .ok)
    (s : List (U32 × Bytes)) (t : List (PyCall SK × Option PyExc)) (p : Pkg) (h : PySession H S s t p) :
    (∀ q ∈ usedParts p.hdr, q.offset = partOffset p.hdr q ∧ 4096 ≤ q.offset.toNat ∧ q.offset.toNat % 512 = 0 ∧ q.offset.toNat + q.size.toNat ≤ p.file.length ∧ q.transportSize = 0) ∧
    (usedParts p.hdr).map (fun q => (q.id, fileRead p.file q.offset.toNat q.size.toNat)) = pyFiles H s t :=
  (pysession_inv hH S hS h).at_offsets

/-- The hypotheses of C96 are met by the session of the example, in which a part before the remaining one is deleted. -/
example : ∃ t f, Session exHash exScheme t (some f) ∧
    (usedParts (parseHeader (f.take 4096))).map (fun q => (q.id, fileRead f q.offset.toNat q.size.toNat)) = [(bpakId (ascii "dtb"), [4])] := by
  obtain ⟨t, f, h, -, -, e, -⟩ := exSession
  obtain ⟨hd, rfl, -, h2⟩ := C96_offsets_session exHash exHash_len exScheme exScheme_ok t f h
  exact ⟨t, f, h, by rw [h2, e]⟩

end Bpak
