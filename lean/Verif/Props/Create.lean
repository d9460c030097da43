import Verif.Props.PkgHistory
/-! `bpak create` (C79). -/
namespace Bpak

/-- The hash kinds by name. -/
def hashNames : List (String × U8) := [("sha256", 1), ("sha384", 2), ("sha512", 3)]
/-- The signature kinds by name. -/
def signatureNames : List (String × U8) := [("rsa4096", 1), ("prime256v1", 2), ("secp384r1", 3), ("secp521r1", 4)]

/-- What a name on the command line stands for, with a default. -/
def Named (names : List (String × U8)) (dflt : U8) : Option Bytes → U8 → Prop
  | none, k => k = dflt
  | some s, k => ∃ e ∈ names, s = ascii e.1 ∧ k = e.2

theorem hashKind_named (s : Option Bytes) (k : U8) : hashKindOf s = some k ↔ Named hashNames 1 s k := by
  cases s with
  | none => simp only [hashKindOf, Named, Option.some.injEq]; exact eq_comm
  | some s =>
    simp only [hashKindOf, Named, hashNames, List.mem_cons, List.not_mem_nil, or_false, exists_eq_or_imp, exists_eq_left]
    have d1 : ascii "sha384" ≠ ascii "sha256" := by decide +kernel
    have d2 : ascii "sha512" ≠ ascii "sha256" := by decide +kernel
    have d3 : ascii "sha512" ≠ ascii "sha384" := by decide +kernel
    by_cases h1 : s = ascii "sha256"
    · subst h1; rw [if_pos rfl]; simp [d1.symm, d2.symm, eq_comm]
    · rw [if_neg h1]
      by_cases h2 : s = ascii "sha384"
      · subst h2; rw [if_pos rfl]; simp [d1, d3.symm, eq_comm]
      · rw [if_neg h2]
        by_cases h3 : s = ascii "sha512"
        · subst h3; rw [if_pos rfl]; simp [d2, d3, eq_comm]
        · rw [if_neg h3]; simp [h1, h2, h3]

theorem signatureKind_named (s : Option Bytes) (k : U8) : signatureKindOf s = some k ↔ Named signatureNames 2 s k := by
  cases s with
  | none => simp only [signatureKindOf, Named, Option.some.injEq]; exact eq_comm
  | some s =>
    simp only [signatureKindOf, Named, signatureNames, List.mem_cons, List.not_mem_nil, or_false, exists_eq_or_imp, exists_eq_left]
    have d1 : ascii "rsa4096" ≠ ascii "prime256v1" := by decide +kernel
    have d2 : ascii "rsa4096" ≠ ascii "secp384r1" := by decide +kernel
    have d3 : ascii "rsa4096" ≠ ascii "secp521r1" := by decide +kernel
    have d4 : ascii "prime256v1" ≠ ascii "secp384r1" := by decide +kernel
    have d5 : ascii "prime256v1" ≠ ascii "secp521r1" := by decide +kernel
    have d6 : ascii "secp384r1" ≠ ascii "secp521r1" := by decide +kernel
    by_cases h1 : s = ascii "prime256v1"
    · subst h1; rw [if_pos rfl]; simp [d1.symm, d4, d5, eq_comm]
    · rw [if_neg h1]
      by_cases h2 : s = ascii "secp384r1"
      · subst h2; rw [if_pos rfl]; simp [d2.symm, d4.symm, d6, eq_comm]
      · rw [if_neg h2]
        by_cases h3 : s = ascii "secp521r1"
        · subst h3; rw [if_pos rfl]; simp [d3.symm, d5.symm, d6.symm, eq_comm]
        · rw [if_neg h3]
          by_cases h4 : s = ascii "rsa4096"
          · subst h4; rw [if_pos rfl]; simp [d1, d2, d3, eq_comm]
          · rw [if_neg h4]; simp [h1, h2, h3, h4]

/-- C79: `bpak create` with known names, where there is no file or overwriting is allowed: whatever was in the file, it then holds
an empty package with exactly the kinds named and the right payload hash, one that further calls of the library can work on (it is
the package of the history that consists of this command). -/
theorem C79_create {SK PK : Type} (H : HashFn) (hH : HashLen H) (S : SigScheme SK PK) (f : Option Bytes) (hash sig : Option Bytes) (force : Bool) (answer : U8)
    (hk sk : U8) (hhk : Named hashNames 1 hash hk) (hsk : Named signatureNames 2 sig sk) (hok : f = none ∨ force = true ∨ answer = 89) :
    ∃ p, createCmd H f hash sig force answer = (.ok, some p.file) ∧ (∀ p0, pkgRun H S p0 [.create hk sk] = some p) ∧
      (∃ l, pkgOpen H true p.file = (.ok, ⟨p.hdr, p.file, l⟩)) ∧ p.file.length = 4096 ∧ usedParts p.hdr = [] ∧ usedMetas p.hdr = [] ∧
      p.hdr.hashKind = hk ∧ p.hdr.signatureKind = sk ∧ p.hdr.keyId = 0 ∧ p.hdr.keystoreId = 0 ∧ p.hdr.signatureSz = 0 ∧
      H hk [] <+: p.hdr.payloadHash := by
  obtain ⟨n, hn⟩ : ∃ n, digestLen hk = some n := by
    cases hash with
    | none => exact ⟨32, by rw [show hk = 1 from hhk]; decide⟩
    | some s =>
      obtain ⟨e, he, -, h2⟩ := hhk
      simp only [hashNames, List.mem_cons, List.not_mem_nil, or_false] at he
      rcases he with rfl | rfl | rfl
      · exact ⟨32, by rw [h2]; decide⟩
      · exact ⟨48, by rw [h2]; decide⟩
      · exact ⟨64, by rw [h2]; decide⟩
  obtain ⟨p, e1, i, e2, e3⟩ := create_inv H hH hk sk n hn
  have hl : p.file.length = 4096 := by rw [e2, image_length i.good.wf]
  refine ⟨p, ?_, ?_, ⟨[], ?_⟩, hl, ?_, ?_, ?_, ?_, ?_, ?_, ?_, ?_⟩
  · unfold createCmd
    rw [(hashKind_named hash hk).2 hhk]
    simp only
    rw [(signatureKind_named sig sk).2 hsk]
    simp only
    rw [if_neg, e1]
    rintro ⟨h1, h2, h3⟩
    rcases hok with h | h | h
    · exact h1 h
    · rw [h] at h2; cases h2
    · exact h3 h
  · intro p0
    simp only [pkgRun, pkgStep]
    rw [e1]
  · unfold pkgOpen
    rw [if_pos i.saved.1, i.saved.2, i.valid]
  · rw [e3]; exact used_empty rfl
  · rw [e3]; exact (by decide +kernel : usedMetas initHeader = [])
  · rw [e3]; rfl
  · rw [e3]; rfl
  · rw [e3]; rfl
  · rw [e3]; rfl
  · rw [e3]; rfl
  · rw [e3]; exact List.prefix_append _ _

/-- C79: with an unknown name, or if the file exists and the user neither forces nor confirms, nothing is changed and the command
fails. -/
theorem C79_create_refused (H : HashFn) (f : Option Bytes) (hash sig : Option Bytes) (force : Bool) (answer : U8)
    (hbad : (∀ k, ¬ Named hashNames 1 hash k) ∨ (∀ k, ¬ Named signatureNames 2 sig k) ∨ (f ≠ none ∧ force = false ∧ answer ≠ 89)) :
    ∃ e, e ≠ .ok ∧ createCmd H f hash sig force answer = (e, f) := by
  unfold createCmd
  cases h1 : hashKindOf hash with
  | none => exact ⟨_, by decide, rfl⟩
  | some hk =>
    simp only
    cases h2 : signatureKindOf sig with
    | none => exact ⟨_, by decide, rfl⟩
    | some sk =>
      simp only
      rcases hbad with h | h | h
      · exact absurd ((hashKind_named hash hk).1 h1) (h hk)
      · exact absurd ((signatureKind_named sig sk).1 h2) (h sk)
      · rw [if_pos h]; exact ⟨_, by decide, rfl⟩

example : Named hashNames 1 (some (ascii "sha384")) 2 ∧ Named signatureNames 2 none 2 ∧ ∀ k, ¬ Named hashNames 1 (some (ascii "SHA256")) k := by
  refine ⟨⟨("sha384", 2), by decide, rfl, rfl⟩, rfl, ?_⟩
  rintro k ⟨e, he, h, -⟩
  have : ∀ e ∈ hashNames, ascii "SHA256" ≠ ascii e.1 := by decide +kernel
  exact this e he h

/-- A history with a package of another hash kind: SHA-512. -/
example : (pkgRun exHash exScheme (pkgOpen exHash true []).2 [.create 3 4, .addFile 7 0 [1, 2, 3], .sign () [], .reopen]).map
    (fun p => (files p, p.hdr.hashKind, p.hdr.signatureKind)) = some ([(7, [1, 2, 3])], 3, 4) := by decide +kernel

end Bpak
