import Verif.Model.Cli
import Verif.Props.BuildHistory
import Verif.Props.Add
/-! `bpak show`, `bpak sign --signature`, `bpak verify`: signing with a key that the tool never sees (C80). -/
namespace Bpak

theorem PkgInv.open {H : HashFn} {p : Pkg} {s : List (U32 × Bytes)} (i : PkgInv H p s) (w : Bool) :
    pkgOpen H w p.file = (.ok, ⟨p.hdr, p.file, []⟩) := by
  rw [C56_open_existing H w p.file i.saved.1, i.saved.2, i.valid]

theorem PkgInv.withHash {H : HashFn} {p : Pkg} {s : List (U32 × Bytes)} (i : PkgInv H p s) : withPayloadHash H p.hdr p.file = p.hdr := by
  obtain ⟨w, gp, ⟨n, hk⟩, plain, exact⟩ := i.good
  have hsm := i.small
  have t : TidyParts p.hdr := gp.tidy (by omega)
  have hb : hashedBytes p.file p.hdr.parts 4096 = ((usedParts p.hdr).filter (fun q => !q.excluded)).flatMap (storedBytes p) :=
    (C31_bytes_at_part_offsets p.hdr t p.file).1
  have hs := i.hash
  unfold HashStored at hs
  rw [← hb] at hs
  obtain ⟨r, hr⟩ := hs
  unfold withPayloadHash
  rw [← hr, List.drop_left, hr]

/-- The payload hash of a package made by a history is already the right one. -/
theorem PkgInv.update {H : HashFn} {p : Pkg} {s : List (U32 × Bytes)} (i : PkgInv H p s) (lg : List FOp) :
    updateHash H ⟨p.hdr, p.file, lg⟩ = (.ok, ⟨p.hdr, p.file, lg⟩) := by
  obtain ⟨w, gp, ⟨n, hk⟩, plain, exact⟩ := i.good
  have hsm := i.small
  have t : TidyParts p.hdr := gp.tidy (by omega)
  rw [updateHash_eq H ⟨p.hdr, p.file, lg⟩ t hsm (by unfold Whole; exact Nat.le_of_eq exact.symm) n hk (digestLen_le hk)]
  rw [i.withHash]

theorem PkgInv.updateOut {H : HashFn} {p : Pkg} {s : List (U32 × Bytes)} (i : PkgInv H p s) (lg : List FOp) :
    updateHashOut H ⟨p.hdr, p.file, lg⟩ = (.ok, ⟨p.hdr, p.file, lg⟩, some (H p.hdr.hashKind (headerSignedBytes p.hdr))) := by
  obtain ⟨n, hk⟩ := i.good.kind
  unfold updateHashOut
  rw [i.update]
  simp only
  rw [C17_header_hash_is_digest_of_signed_bytes H p.hdr i.good.wf n 64 hk (digestLen_le hk)]

theorem PkgInv.showRaw {H : HashFn} {p : Pkg} {s : List (U32 × Bytes)} (i : PkgInv H p s) :
    showCmd H p.file { binary := true } = .ret (.ok, .raw (H p.hdr.hashKind (headerSignedBytes p.hdr))) := by
  unfold showCmd
  rw [i.open]
  simp only [i.valid, ne_eq, not_true_eq_false, if_false, if_true]
  rw [i.updateOut]

theorem hexDigit_spec (n : Nat) (h : n < 16) : hexDigit n = (ascii "0123456789abcdef").getD n 0 := by
  have : ∀ n : Fin 16, hexDigit n.1 = (ascii "0123456789abcdef").getD n.1 0 := by decide +kernel
  exact this ⟨n, h⟩

theorem hexText_eq (d : Bytes) : d.flatMap (fun b => [hexDigit (b.toNat / 16), hexDigit (b.toNat % 16)]) = hexText d := by
  unfold hexText hexChars
  congr 1
  funext b
  rw [hexDigit_spec _ (by have := b.isLt; omega), hexDigit_spec _ (by omega)]

theorem buildRun_append {SK PK : Type} (H : HashFn) (S : SigScheme SK PK) (xs ys : List (BuildOp SK)) (p q : Pkg) (h : buildRun H S p xs = some q) :
    buildRun H S p (xs ++ ys) = buildRun H S q ys := by
  induction xs generalizing p with
  | nil => simp only [buildRun, Option.some.injEq] at h; subst h; rfl
  | cons o os ih =>
    simp only [List.cons_append, buildRun] at h ⊢
    cases e : buildStep H S p o with
    | none => rw [e] at h; cases h
    | some r => rw [e] at h; simp only at h ⊢; exact ih r h

/-- A package with another signature. -/
theorem signRaw_step {SK PK : Type} (H : HashFn) (S : SigScheme SK PK) {p : Pkg} {s : List (U32 × Bytes)} (i : PkgInv H p s) (sig : Bytes) (hl : sig.length ≤ 512) :
    ∃ p', pkgStep H S p (.signRaw sig) = some p' ∧ signRawCmd H p.file sig = .ret (.ok, p'.file) ∧ p'.file.drop 4096 = p.file.drop 4096 ∧
      p'.hdr.hashKind = p.hdr.hashKind ∧ headerSignedBytes p'.hdr = headerSignedBytes p.hdr ∧
      p'.hdr.signatureSz.toNat = sig.length ∧ p'.hdr.signature.take sig.length = sig := by
  have wf := withSig_wf i.good.wf sig hl (BitVec.ofNat 16 sig.length)
  have il := image_length wf
  refine ⟨writeHeader { p with hdr := { p.hdr with signature := sig ++ List.replicate (512 - sig.length) 0, signatureSz := BitVec.ofNat 16 sig.length } }, ?_, ?_, ?_, rfl, rfl, ?_, ?_⟩
  · simp only [pkgStep, writeRawSignature]
    rw [if_neg (by omega)]
  · unfold signRawCmd
    rw [i.open, List.take_of_length_le (by omega)]
    simp only [ne_eq, not_true_eq_false, if_false, writeRawSignature]
    rw [if_neg (by omega)]
    rfl
  · rw [writeHeader_eq _ wf]
    simp only
    rw [List.drop_append_of_le_length (by omega), List.drop_of_length_le (by omega), List.nil_append]
  · show (BitVec.ofNat 16 sig.length).toNat = _
    rw [BitVec.toNat_ofNat]; omega
  · show (sig ++ _).take _ = _
    rw [List.take_left]

/-- C80: for every package that an application built (files, hash trees, metadata, keys, signatures, in any order): `bpak show
--binary-hash` gives a digest, `--hash` the same in text. Whoever holds the key can sign that digest: `bpak sign --signature` puts the
result into the file, and `bpak verify` accepts the file exactly if the signature is one of the digest; all files stay in the package,
and the digest stays the same. -/
theorem C80_external_signing {SK : Type} (H : HashFn) (hH : HashLen H) (S : SigScheme SK Key) (hS : ∀ sk rnd k d, S.sign sk rnd k d ≠ .error .ok)
    (hV : ∀ pk k d s, S.verify pk k d s ≠ .error .ok)
    (ops : List (BuildOp SK)) (hb : ∀ o ∈ ops, o.builds) (p0 p : Pkg) (h0 : pkgOpen H true [] = (.ok, p0)) (hr : buildRun H S p0 ops = some p)
    (sig : Bytes) (hl : sig.length ≤ 512) (pk : Key) (parse : Bytes → Except Err Key) :
    ∃ d f' p', showCmd H p.file { binary := true } = .ret (.ok, .raw d) ∧ showCmd H p.file { text := true } = .ret (.ok, .line (hexText d)) ∧
      signRawCmd H p.file sig = .ret (.ok, f') ∧
      (verifyCmd H S f' (some (.ok pk)) none parse = .ret .ok ↔ S.verify pk p.hdr.hashKind d sig = .ok true) ∧
      showCmd H f' { binary := true } = .ret (.ok, .raw d) ∧
      buildRun H S p0 (ops ++ [.plain (.signRaw sig)]) = some p' ∧ p'.file = f' ∧ files p' = buildExpect H [] ops ∧ f'.drop 4096 = p.file.drop 4096 := by
  have i := build_inv H hH S hS ops hb p0 p h0 hr
  obtain ⟨p', e1, e2, e3, e4, e5, e6, e7⟩ := signRaw_step H S i.pkg sig hl
  have i' := build_step H hH S p p' _ (.plain (.signRaw sig)) hS trivial i e1
  refine ⟨_, _, p', i.pkg.showRaw, ?_, e2, ?_, ?_, ?_, rfl, i'.pkg.files, e3⟩
  · unfold showCmd
    rw [i.pkg.open]
    simp only [i.pkg.valid, ne_eq, not_true_eq_false, if_false, if_true]
    rw [i.pkg.updateOut]
    simp only
    rw [hexText_eq]
    rfl
  · unfold verifyCmd
    rw [i'.pkg.open]
    simp only [ne_eq, not_true_eq_false, if_false]
    rw [show pkgVerify H S pk ⟨p'.hdr, p'.file, []⟩ = pkgVerify H S pk p' from rfl, C33_verify_iff H hH S pk p' i'.pkg.good i'.pkg.small (by omega) (hV pk)]
    rw [e4, e5, e6, e7]
    constructor
    · intro h; exact h.1
    · intro h
      have hs := i'.pkg.hash
      unfold HashStored at hs
      rw [e4] at hs
      exact ⟨h, hs, i'.trees⟩
  · rw [i'.pkg.showRaw, e4, e5]
  · rw [buildRun_append H S ops _ p0 p hr]
    simp only [buildRun, buildStep]
    rw [e1]

/-- A signature scheme whose verification keys are keys in DER form; a signature starts with the byte 1. -/
def exKeyScheme : SigScheme Unit Key where
  sign := fun _ _ _ d => .ok (1 :: d)
  verify := fun _ _ _ s => .ok (s.head? == some 1)

/-- The hypotheses of C80 are met: a package with two files and an entry is built, the signature is accepted, another one is not. -/
example : ∃ (ops : List (BuildOp Unit)) (p0 p : Pkg) (k : Key), (∀ o ∈ ops, o.builds) ∧ pkgOpen exHash true [] = (.ok, p0) ∧
    buildRun exHash exKeyScheme p0 ops = some p ∧ buildExpect exHash [] ops = [(7, [1, 2, 3]), (8, [4])] ∧
    (∀ sk rnd k d, exKeyScheme.sign sk rnd k d ≠ .error .ok) ∧ (∀ pk k d s, exKeyScheme.verify pk k d s ≠ .error .ok) ∧
    ∃ f1 f2, signRawCmd exHash p.file [1, 5, 6] = .ret (.ok, f1) ∧ verifyCmd exHash exKeyScheme f1 (some (.ok k)) none (fun _ => .error .failed) = .ret .ok ∧
      signRawCmd exHash p.file [2, 5, 6] = .ret (.ok, f2) ∧ verifyCmd exHash exKeyScheme f2 (some (.ok k)) none (fun _ => .error .failed) ≠ .ret .ok := by
  obtain ⟨p0, e0, _⟩ := C56_open_new exHash exHash_len
  have hS : ∀ sk rnd k d, exKeyScheme.sign sk rnd k d ≠ .error .ok := by intro _ _ _ _ h; cases h
  have hV : ∀ pk k d s, exKeyScheme.verify pk k d s ≠ .error .ok := by intro _ _ _ _ h; cases h
  have hb : ∀ o ∈ ([.plain (.addFile 7 0 [1, 2, 3]), .plain (.header (.addMeta 5 7 8)), .plain (.addFile 8 0 [4])] : List (BuildOp Unit)), o.builds := by
    intro o ho
    simp only [List.mem_cons, List.not_mem_nil, or_false] at ho
    rcases ho with rfl | rfl | rfl
    · trivial
    · exact ⟨by decide, by decide⟩
    · trivial
  have h : ((buildRun exHash exKeyScheme (pkgOpen exHash true []).2 [.plain (.addFile 7 0 [1, 2, 3]), .plain (.header (.addMeta 5 7 8)), .plain (.addFile 8 0 [4])]).map
      fun p => (usedParts p.hdr).length) = some 2 := by decide +kernel
  rw [e0] at h
  cases hr : buildRun exHash exKeyScheme p0 [.plain (.addFile 7 0 [1, 2, 3]), .plain (.header (.addMeta 5 7 8)), .plain (.addFile 8 0 [4])] with
  | none => rw [hr] at h; cases h
  | some p =>
    obtain ⟨d1, f1, _, _, _, a1, b1, _⟩ := C80_external_signing exHash exHash_len exKeyScheme hS hV _ hb p0 p e0 hr [1, 5, 6] (by decide) ⟨3, 1, [1]⟩ (fun _ => .error .failed)
    obtain ⟨d2, f2, _, _, _, a2, b2, _⟩ := C80_external_signing exHash exHash_len exKeyScheme hS hV _ hb p0 p e0 hr [2, 5, 6] (by decide) ⟨3, 1, [1]⟩ (fun _ => .error .failed)
    exact ⟨_, p0, p, ⟨3, 1, [1]⟩, hb, e0, hr, rfl, hS, hV, f1, f2, a1, b1.2 rfl, a2, fun h => absurd (b2.1 h) (by intro h; cases h)⟩

/-- C80, a flaw: a signature file of more than 512 bytes is not refused; it is copied past the end of the signature, for every package. -/
theorem C80_long_signature_is_false {SK PK : Type} (H : HashFn) (hH : HashLen H) (S : SigScheme SK PK) (hS : ∀ sk rnd k d, S.sign sk rnd k d ≠ .error .ok)
    (ops : List (PkgOp SK)) (p0 p : Pkg) (h0 : pkgOpen H true [] = (.ok, p0)) (hr : pkgRun H S p0 ops = some p)
    (sig : Bytes) (hl : 512 < sig.length) : signRawCmd H p.file sig = .ub := by
  have i := run_inv H hH S hS ops p0 p h0 hr
  unfold signRawCmd
  rw [i.open]
  simp only [ne_eq, not_true_eq_false, if_false, writeRawSignature]
  rw [if_pos (by rw [List.length_take]; omega)]

/-- C80, a flaw: of a package whose payload is cut short, `--binary-hash` reports the error, but `--hash` ignores it and prints memory that
was never written. -/
theorem C80_show_hash_is_false : ∃ (p : Pkg) (e : Err), PkgInv exHash p [(7, [1, 2, 3])] ∧ e ≠ .ok ∧
    showCmd exHash (p.file.take 4100) { binary := true } = .ret (e, .nothing) ∧ showCmd exHash (p.file.take 4100) { text := true } = .ub := by
  obtain ⟨p, i, e⟩ := ex_run [.addFile 7 0 [1, 2, 3]] (fun p => (decide (showCmd exHash (p.file.take 4100) { binary := true } = .ret (.readError, .nothing)),
    decide (showCmd exHash (p.file.take 4100) { text := true } = .ub))) (true, true) (by decide +kernel)
  have e := Prod.mk.inj e
  exact ⟨p, .readError, i, by decide, of_decide_eq_true e.1, of_decide_eq_true e.2⟩

end Bpak
