import Verif.Props.PyExample
import Verif.Props.Compare
import Verif.Props.Offsets
import Verif.Props.SignRaw
/-! Reading a package from Python: lookups, attributes that cannot be assigned, digest and verification (C103). -/
namespace Bpak

/-- A length rounded up to the next multiple of 512. -/
def upTo512 (n : Nat) : Nat := (n + 511) / 512 * 512

theorem upTo512_eq (n : Nat) : n + padFor n = upTo512 n := by
  unfold padFor upTo512
  split <;> omega

theorem pyMask_mod (v : Int) : ((pyMask v).toNat : Int) = v % 2^32 := by
  unfold pyMask
  rw [BitVec.toNat_ofInt]
  have h1 : 0 ≤ v % ((2^32 : Nat) : Int) := Int.emod_nonneg _ (by decide)
  rw [Int.toNat_of_nonneg h1]
  rfl

theorem toInt_small {x : U64} {n : Nat} (h : x.toNat = n) (hn : n < 2^63) : x.toInt = (n : Int) := by
  rw [BitVec.toInt_eq_toNat_of_lt (by omega), h]

/-- The parts as a list of headers, next to the files they hold. -/
theorem PkgInv.split {H : HashFn} {p : Pkg} {s : List (U32 × Bytes)} (i : PkgInv H p s) {pre post : List (U32 × Bytes)} {id : U32} {d : Bytes}
    (hs : s = pre ++ (id, d) :: post) : ∃ pre' q post', usedParts p.hdr = pre' ++ q :: post' ∧ q.id = id ∧ q.size.toNat = d.length ∧
      pre'.map storedSize = pre.map (fun x => upTo512 x.2.length) ∧ storedSize q = upTo512 d.length := by
  have hst : ∀ q ∈ usedParts p.hdr, storedSize q = upTo512 q.size.toNat := by
    intro q hq
    unfold storedSize
    rw [if_neg (by simpa using i.good.plain q hq), i.padded q hq, upTo512_eq]
  have hl : ∀ q ∈ usedParts p.hdr, ((storedBytes p q).take q.size.toNat).length = q.size.toNat := fun q hq => (read_stored i q hq).2.2.2
  have hf := i.files
  rw [hs] at hf
  unfold Bpak.files at hf
  obtain ⟨pre', r, e1, e2, e3⟩ := List.map_eq_append_iff.1 hf
  obtain ⟨q, post', e4, e5, e6⟩ := List.map_eq_cons_iff.1 e3
  subst e4
  have hq : q ∈ usedParts p.hdr := by rw [e1]; simp
  have hd : q.size.toNat = d.length := by rw [← (Prod.mk.inj e5).2, hl q hq]
  refine ⟨pre', q, post', e1, (Prod.mk.inj e5).1, hd, ?_, by rw [hst q hq, hd]⟩
  rw [← e2, List.map_map]
  apply List.map_congr_left
  intro x hx
  have hx' : x ∈ usedParts p.hdr := by rw [e1]; simp [hx]
  rw [hst x hx', Function.comp, hl x hx']

theorem PkgInv.pyPart {H : HashFn} {p : Pkg} {s : List (U32 × Bytes)} (i : PkgInv H p s) {pre post : List PartHdr} {q : PartHdr}
    (hu : usedParts p.hdr = pre ++ q :: post) : Bpak.pyPart p q.id = some (pre.length, q) := by
  obtain ⟨a, b⟩ := getPart_used (i.good.parts.inv i.good.wf) pre post q hu
  unfold Bpak.pyPart
  rw [a]
  simp only
  rw [b]
  rfl

theorem PkgInv.noPart {H : HashFn} {p : Pkg} {s : List (U32 × Bytes)} (i : PkgInv H p s) (id : U32) (h0 : id ≠ 0) :
    getPart p.hdr id = none ↔ id ∉ s.map (·.1) := by
  rw [getPart_none_iff (i.good.parts.inv i.good.wf) id h0, ← i.files]
  unfold Bpak.files
  simp only [List.map_map, List.mem_map, not_exists, not_and]
  exact Iff.rfl

/-- C103: a part of any package a Python program works on. Its size is that of the file rounded up to 512; its offset is the header's size
and the rounded sizes of the parts before it, and the file's content is found there; it is not transport encoded. -/
theorem C103_part_attributes {SK PK : Type} (H : HashFn) (hH : HashLen H) (S : SigScheme SK PK) (hS : ∀ sk rnd k d, S.sign sk rnd k d ≠ .error .ok)
    (s : List (U32 × Bytes)) (t : List (PyCall SK × Option PyExc)) (p : Pkg) (h : PySession H S s t p) (pre post : List (U32 × Bytes)) (id : U32) (d : Bytes)
    (hf : pyFiles H s t = pre ++ (id, d) :: post) :
    pyPartSize p id = .val (upTo512 d.length : Nat) ∧
    pyPartOffset p id = .val (4096 + (pre.map (fun x => upTo512 x.2.length)).sum : Nat) ∧
    (p.file.drop (4096 + (pre.map (fun x => upTo512 x.2.length)).sum)).take d.length = d ∧
    pyPartTransport p id = .val false := by
  have i := pysession_inv hH S hS h
  have hx := i.good.exact
  have hs := i.small
  have t : TidyParts p.hdr := i.good.parts.tidy (by omega)
  obtain ⟨pre', q, post', hu, rfl, hd, hpre, hst⟩ := i.split hf
  have hq : q ∈ usedParts p.hdr := by rw [hu]; simp
  have hp := i.pyPart hu
  obtain ⟨o1, o2⟩ := tidy_offset p.hdr t pre' post' q hu
  rw [hpre] at o1
  rw [hst] at o2
  rw [hu] at hx
  simp only [List.map_append, List.map_cons, List.sum_append, List.sum_cons, hpre, hst] at hx
  refine ⟨?_, ?_, ?_, ?_⟩
  · unfold pyPartSize
    rw [hp]
    simp only
    rw [toInt_small o2 (by omega)]
  · unfold pyPartOffset
    rw [hp]
    simp only
    rw [toInt_small o1 (by omega)]
  · obtain ⟨-, a, b, -⟩ := read_stored i q hq
    rw [o1, b, hd] at a
    have hm : (q.id, d) ∈ Bpak.files p := by rw [i.files, hf]; simp
    obtain ⟨q', hq', e⟩ := List.mem_map.1 hm
    have e1 := (Prod.mk.inj e).1
    obtain ⟨x, y, hu'⟩ := List.append_of_mem hq'
    have hp' := i.pyPart hu'
    rw [e1, hp] at hp'
    have : q = q' := (Prod.mk.inj (Option.some.inj hp')).2
    subst this
    have e2 := (Prod.mk.inj e).2
    rw [hd] at e2
    rw [e2] at a
    exact a
  · unfold pyPartTransport
    rw [hp]
    simp only
    have := i.good.plain q hq
    simp only [PyOut.val.injEq]
    exact Bool.eq_false_iff.2 (fun hc => ((isTransport_iff q).1 hc) this)

/-- C103: a `Part` object whose part is gone raises KeyError from every attribute. -/
theorem C103_part_gone {SK PK : Type} (H : HashFn) (hH : HashLen H) (S : SigScheme SK PK) (hS : ∀ sk rnd k d, S.sign sk rnd k d ≠ .error .ok)
    (s : List (U32 × Bytes)) (t : List (PyCall SK × Option PyExc)) (p : Pkg) (h : PySession H S s t p) (id : U32) (h0 : id ≠ 0)
    (hg : id ∉ (pyFiles H s t).map (·.1)) :
    pyPartSize p id = .raise .keyError ∧ pyPartOffset p id = .raise .keyError ∧ pyPartTransport p id = .raise .keyError := by
  have i := pysession_inv hH S hS h
  have hn := (i.noPart id h0).2 hg
  have : pyPart p id = none := by unfold pyPart; rw [hn]
  refine ⟨?_, ?_, ?_⟩
  · unfold pyPartSize; rw [this]
  · unfold pyPartOffset; rw [this]
  · unfold pyPartTransport; rw [this]

/-- C103: `get_part` and `get_meta`. Integers are taken modulo 2^32; the object returned has that id (and part reference); it is
returned exactly if the package has such a part or entry, otherwise KeyError is raised. -/
theorem C103_lookup {SK PK : Type} (H : HashFn) (hH : HashLen H) (S : SigScheme SK PK) (hS : ∀ sk rnd k d, S.sign sk rnd k d ≠ .error .ok)
    (s : List (U32 × Bytes)) (t : List (PyCall SK × Option PyExc)) (p : Pkg) (h : PySession H S s t p) (v r : Int) (x y : U32)
    (hx : (x.toNat : Int) = v % 2^32) (hy : (y.toNat : Int) = r % 2^32) (h0 : x ≠ 0) :
    pyGetPart p v = (if x ∈ (pyFiles H s t).map (·.1) then .val x else .raise .keyError) ∧
    ((∃ e ∈ entries p.hdr, e.id = x ∧ e.ref = y) → pyGetMeta p v r = .val (x, y)) ∧
    ((∀ e ∈ entries p.hdr, ¬ (e.id = x ∧ e.ref = y)) → pyGetMeta p v r = .raise .keyError) := by
  have i := pysession_inv hH S hS h
  have ex : pyMask v = x := by
    apply BitVec.eq_of_toNat_eq
    have := pyMask_mod v
    omega
  have ey : pyMask r = y := by
    apply BitVec.eq_of_toNat_eq
    have := pyMask_mod r
    omega
  obtain ⟨us, k, im⟩ := i.hdr.metas
  refine ⟨?_, ?_, ?_⟩
  · unfold pyGetPart
    rw [ex]
    by_cases hm : x ∈ (pyFiles H s t).map (·.1)
    · rw [if_pos hm]
      cases hg : getPart p.hdr x with
      | none => exact absurd hm ((i.noPart x h0).1 hg)
      | some j => rfl
    · rw [if_neg hm, (i.noPart x h0).2 hm]
  · rintro he
    obtain ⟨m, hm, e1, e2⟩ := (hasEntry_iff im x y).1 he
    obtain ⟨a, b, hu⟩ := List.append_of_mem hm
    obtain ⟨g, -⟩ := getMeta_used im a b m hu
    unfold pyGetMeta
    rw [ex, ey, ← e1, ← e2, g]
  · intro he
    unfold pyGetMeta
    rw [ex, ey]
    have : getMeta p.hdr x y = none := by
      rw [C03_get_meta_not_found, im.slots]
      intro m hm
      rcases List.mem_append.1 hm with hm | hm
      · intro hc
        obtain ⟨e, h1, h2⟩ := (hasEntry_iff im x y).2 ⟨m, hm, hc⟩
        exact he e h1 h2
      · rw [(List.mem_replicate.1 hm).2]
        intro hc
        exact h0 hc.1.symm
    rw [this]

/-- C103: a metadata entry: its size and bytes, and as a UUID, which only 16 bytes can be. -/
theorem C103_meta_attributes {SK PK : Type} (H : HashFn) (hH : HashLen H) (S : SigScheme SK PK) (hS : ∀ sk rnd k d, S.sign sk rnd k d ≠ .error .ok)
    (s : List (U32 × Bytes)) (t : List (PyCall SK × Option PyExc)) (p : Pkg) (h : PySession H S s t p) (id ref : U32) (d : Bytes)
    (he : (⟨id, ref, d⟩ : Entry) ∈ entries p.hdr) :
    pyMetaSize p id ref = .val d.length ∧ pyMetaRaw p id ref = .ret (.val d) ∧
    pyMetaUuid p id ref = .ret (if d.length = 16 then .val d else .raise .valueError) := by
  have i := pysession_inv hH S hS h
  obtain ⟨pre, post, hu⟩ := List.append_of_mem he
  obtain ⟨pre', m, post', k, im, g, e1, e2, e3, e4, e5, -, -⟩ := pyMeta_entry i hu
  have hmd := im.md
  have hr : pyMetaRaw p id ref = .ret (.val d) := by
    unfold pyMetaRaw
    rw [g]
    simp only
    rw [e3, readAt_eq_some (by omega), ← e5]
  refine ⟨?_, hr, ?_⟩
  · unfold pyMetaSize
    rw [g]
    simp only
    rw [e3]
  · unfold pyMetaUuid
    rw [hr]
    simp only
    split <;> rfl

/-- C103: `bpak.id` gives the CRC-32 of the name as an integer below 2^32, and with it `get_part` finds the part that was added under the name, if the
package has it. -/
theorem C103_id {SK PK : Type} (H : HashFn) (hH : HashLen H) (S : SigScheme SK PK) (hS : ∀ sk rnd k d, S.sign sk rnd k d ≠ .error .ok)
    (s : List (U32 × Bytes)) (t : List (PyCall SK × Option PyExc)) (p : Pkg) (h : PySession H S s t p) (name : Bytes) (h0 : Spec.crc 0 name ≠ 0) :
    pyId name = (Spec.crc 0 name).toNat ∧
    pyGetPart p (pyId name) = (if Spec.crc 0 name ∈ (pyFiles H s t).map (·.1) then .val (Spec.crc 0 name) else .raise .keyError) := by
  have e : pyId name = (Spec.crc 0 name).toNat := by unfold pyId; rw [C01_id_is_crc]
  refine ⟨e, ?_⟩
  refine (C103_lookup H hH S hS s t p h (pyId name) 0 (Spec.crc 0 name) 0 ?_ (by decide) h0).1
  rw [e]
  have := (Spec.crc 0 name).isLt
  omega

/-- C103: but 0 is no part's id, but as long as the part table has a free slot `get_part(0)` returns an object instead of raising. -/
theorem C103_get_part_zero {SK PK : Type} (H : HashFn) (hH : HashLen H) (S : SigScheme SK PK) (hS : ∀ sk rnd k d, S.sign sk rnd k d ≠ .error .ok)
    (s : List (U32 × Bytes)) (t : List (PyCall SK × Option PyExc)) (p : Pkg) (h : PySession H S s t p) (hl : (pyFiles H s t).length < 32) :
    0 ∉ (pyFiles H s t).map (·.1) ∧ pyGetPart p 0 = .val 0 := by
  have i := pysession_inv hH S hS h
  have ip := i.good.parts.inv i.good.wf
  have e : (pyFiles H s t).map (·.1) = (usedParts p.hdr).map (·.id) := by rw [← i.files]; unfold Bpak.files; rw [List.map_map]; rfl
  constructor
  · rw [e]
    intro hc
    obtain ⟨q, hq, e0⟩ := List.mem_map.1 hc
    exact ip.ids q hq e0
  · unfold pyGetPart
    have e0 : pyMask 0 = 0 := by decide
    rw [e0]
    cases hg : getPart p.hdr 0 with
    | some j => rfl
    | none =>
      rw [C10_get_part_not_found] at hg
      have hlen := ip.len
      have : (usedParts p.hdr).length < 32 := by rw [← i.files] at hl; unfold Bpak.files at hl; simpa using hl
      refine absurd rfl (hg PartHdr.zero ?_)
      rw [ip.slots]
      refine List.mem_append_right _ (List.mem_replicate.2 ⟨by omega, rfl⟩)

/-- C103: `installed_size` is the sum of the parts' sizes and, with the header's 4096 bytes, the length of the file; `size` counts the
files' own lengths and the header. -/
theorem C103_sizes {SK PK : Type} (H : HashFn) (hH : HashLen H) (S : SigScheme SK PK) (hS : ∀ sk rnd k d, S.sign sk rnd k d ≠ .error .ok)
    (s : List (U32 × Bytes)) (t : List (PyCall SK × Option PyExc)) (p : Pkg) (h : PySession H S s t p) :
    pyInstalledSize p = (((pyFiles H s t).map (fun x => upTo512 x.2.length)).sum : Nat) ∧
    p.file.length = 4096 + ((pyFiles H s t).map (fun x => upTo512 x.2.length)).sum ∧
    pySize p = (4096 + ((pyFiles H s t).map (fun x => x.2.length)).sum : Nat) := by
  have i := pysession_inv hH S hS h
  have hsm := i.small
  have hl : ∀ q ∈ usedParts p.hdr, ((storedBytes p q).take q.size.toNat).length = q.size.toNat := fun q hq => (read_stored i q hq).2.2.2
  have e1 : (pyFiles H s t).map (fun x => upTo512 x.2.length) = (usedParts p.hdr).map (fun q => upTo512 q.size.toNat) := by
    rw [← i.files]
    unfold Bpak.files
    rw [List.map_map]
    apply List.map_congr_left
    intro q hq
    simp only [Function.comp]
    rw [hl q hq]
  have e2 : (pyFiles H s t).map (fun x => x.2.length) = (usedParts p.hdr).map (fun q => q.size.toNat) := by
    rw [← i.files]
    unfold Bpak.files
    rw [List.map_map]
    apply List.map_congr_left
    intro q hq
    simp only [Function.comp]
    rw [hl q hq]
  obtain ⟨c1, c2⟩ := C37_sizes_vs_file p i.good i.small
  have hst : (usedParts p.hdr).map storedSize = (usedParts p.hdr).map (fun q => upTo512 q.size.toNat) := by
    apply List.map_congr_left
    intro q hq
    unfold storedSize
    rw [if_neg (by simpa using i.good.plain q hq), i.padded q hq, upTo512_eq]
  have hx := i.good.exact
  rw [hst] at hx
  have hsum : ((usedParts p.hdr).map (fun q => upTo512 q.size.toNat)).sum = ((usedParts p.hdr).map (fun q => q.size.toNat)).sum + ((usedParts p.hdr).map (fun q => q.padBytes.toNat)).sum := by
    have : ∀ l : List PartHdr, (∀ q ∈ l, q ∈ usedParts p.hdr) → (l.map (fun q => upTo512 q.size.toNat)).sum = (l.map (fun q => q.size.toNat)).sum + (l.map (fun q => q.padBytes.toNat)).sum := by
      intro l
      induction l with
      | nil => intro _; rfl
      | cons a l ih =>
        intro hm
        have h1 := ih (fun q hq => hm q (by simp [hq]))
        have h2 := i.padded a (hm a (by simp))
        simp only [List.map_cons, List.sum_cons]
        rw [← upTo512_eq, h1, h2]
        omega
    exact this _ (fun _ h => h)
  rw [e1, e2]
  refine ⟨?_, by omega, ?_⟩
  · unfold pyInstalledSize
    rw [toInt_small (n := ((usedParts p.hdr).map (fun q => upTo512 q.size.toNat)).sum) (by omega) (by omega)]
  · unfold pySize
    rw [toInt_small (n := 4096 + ((usedParts p.hdr).map (fun q => q.size.toNat)).sum) (by omega) (by omega)]

/-- C103: `read_digest` gives the digest, of the package's hash kind, of the signed bytes of the header (with the payload hash of what the
parts hold), and changes nothing. -/
theorem C103_digest {SK PK : Type} (H : HashFn) (hH : HashLen H) (S : SigScheme SK PK) (hS : ∀ sk rnd k d, S.sign sk rnd k d ≠ .error .ok)
    (s : List (U32 × Bytes)) (t : List (PyCall SK × Option PyExc)) (p : Pkg) (h : PySession H S s t p) :
    pyDigest H p = (some (H p.hdr.hashKind (headerSignedBytes p.hdr)), p) ∧ HashStored H p := by
  have i := pysession_inv hH S hS h
  refine ⟨?_, i.hash⟩
  have := i.updateOut p.log
  unfold pyDigest
  rw [show (⟨p.hdr, p.file, p.log⟩ : Pkg) = p from rfl] at this
  rw [this]

/-- C103: `verify` returns exactly if the key accepts the signature over the header's digest and all hash trees are right; otherwise it raises
`bpak.Error`, as it does for a key that cannot be loaded. -/
theorem C103_verify {SK PK : Type} (H : HashFn) (hH : HashLen H) (S : SigScheme SK PK) (hS : ∀ sk rnd k d, S.sign sk rnd k d ≠ .error .ok)
    (hV : ∀ pk k d sig, S.verify pk k d sig ≠ .error .ok)
    (s : List (U32 × Bytes)) (t : List (PyCall SK × Option PyExc)) (p : Pkg) (h : PySession H S s t p) (hsz : p.hdr.signatureSz.toNat ≤ 512) :
    (∀ pk, pyVerify H S (.ok pk) p = .ret (.val ()) ↔
      S.verify pk p.hdr.hashKind (H p.hdr.hashKind (headerSignedBytes p.hdr)) (p.hdr.signature.take p.hdr.signatureSz.toNat) = .ok true ∧ TreesOk H p) ∧
    ((∀ e ∈ entries p.hdr, e.id = idMerkleSalt ∨ e.id = idMerkleRootHash → 32 ≤ e.data.length) → ∀ pk, pyVerify H S (.ok pk) p ≠ .ret (.val ()) →
      ∃ e, e ≠ .ok ∧ pyVerify H S (.ok pk) p = .ret (.raise (.error e))) ∧
    ∀ e, pyVerify H S (.error e) p = .ret (.raise (.error e)) := by
  have i := pysession_inv hH S hS h
  refine ⟨?_, ?_, fun _ => rfl⟩
  · intro pk
    have hv := C33_verify_iff H hH S pk p i.good i.small hsz (hV pk)
    have hb : pyVerify H S (.ok pk) p = .ret (.val ()) ↔ pkgVerify H S pk p = .ret .ok := by
      unfold pyVerify
      simp only
      constructor
      · intro hr
        split at hr
        · cases hr
        · assumption
        · cases hr
      · intro hr
        rw [hr]
    rw [hb, hv]
    constructor
    · rintro ⟨a, -, c⟩; exact ⟨a, c⟩
    · rintro ⟨a, c⟩; exact ⟨a, i.hash, c⟩
  · intro hs pk hne
    have hu : pkgVerify H S pk p ≠ .ub := by
      refine pkgVerify_safe H S pk p i.hdr ?_ hsz
      intro m hm hid
      obtain ⟨us, k, im⟩ := i.hdr.metas
      rw [im.used] at hm
      have := hs (entOf p.hdr m) (by rw [entries_inv im]; exact List.mem_map_of_mem hm) hid
      have hb := (im.packed.ge m hm).2
      have hmd := im.md
      have hl : (entOf p.hdr m).data.length ≤ m.size.toNat := by
        show (metaContent p.hdr m).length ≤ _
        unfold metaContent
        rw [List.length_take]
        omega
      omega
    unfold pyVerify at hne ⊢
    simp only at hne ⊢
    split at hne
    · contradiction
    · exact absurd rfl hne
    · rename_i e hno heq
      exact ⟨e, fun hc => hno hc, rfl⟩

/-- C103: the package of `exPy`: one file of 3 bytes under id 7, one metadata entry. -/
example : ∃ t p, PySession exHash exScheme [] t p ∧ pyGetPart p 7 = .val 7 ∧ pyGetPart p (2^32 + 7) = .val 7 ∧ pyGetPart p 8 = .raise .keyError ∧
    pyGetPart p 0 = .val 0 ∧ pyGetMeta p 5 0 = .val (5, 0) ∧ pyGetMeta p 5 1 = .raise .keyError ∧ pyPartSize p 7 = .val 512 ∧ pyPartOffset p 7 = .val 4096 ∧
    pyPartTransport p 7 = .val false ∧ pyPartSize p 8 = .raise .keyError ∧ pyInstalledSize p = 512 ∧ pySize p = 4099 ∧
    (∃ d, pyDigest exHash p = (some d, p)) ∧ pyMetaRaw p 5 0 = .ret (.val [97, 0, 0]) ∧ pyMetaUuid p 5 0 = .ret (.raise .valueError) ∧
    pyGetPart p (pyId (ascii "kernel")) = .raise .keyError := by
  obtain ⟨t, p, h, -, h2, -, he, -⟩ := exPy_session
  obtain ⟨a1, a2, -⟩ := C103_lookup exHash exHash_len exScheme exScheme_ok [] t p h 7 0 7 0 (by decide) (by decide) (by decide)
  obtain ⟨b1, -, -⟩ := C103_lookup exHash exHash_len exScheme exScheme_ok [] t p h (2^32 + 7) 0 7 0 (by decide) (by decide) (by decide)
  obtain ⟨c1, -, -⟩ := C103_lookup exHash exHash_len exScheme exScheme_ok [] t p h 8 0 8 0 (by decide) (by decide) (by decide)
  obtain ⟨-, d1, -⟩ := C103_lookup exHash exHash_len exScheme exScheme_ok [] t p h 5 0 5 0 (by decide) (by decide) (by decide)
  obtain ⟨-, -, d2⟩ := C103_lookup exHash exHash_len exScheme exScheme_ok [] t p h 5 1 5 1 (by decide) (by decide) (by decide)
  obtain ⟨e1, e2, -, e3⟩ := C103_part_attributes exHash exHash_len exScheme exScheme_ok [] t p h [] [] 7 [1, 2, 3] h2
  obtain ⟨f1, -⟩ := C103_part_gone exHash exHash_len exScheme exScheme_ok [] t p h 8 (by decide) (by rw [h2]; decide)
  obtain ⟨g1, -, g2⟩ := C103_sizes exHash exHash_len exScheme exScheme_ok [] t p h
  rw [h2] at a1 b1 c1 g1 g2
  obtain ⟨-, m1, m2⟩ := C103_meta_attributes exHash exHash_len exScheme exScheme_ok [] t p h 5 0 [97, 0, 0] (by rw [he]; simp)
  refine ⟨t, p, h, a1, b1, c1, (C103_get_part_zero exHash exHash_len exScheme exScheme_ok [] t p h (by rw [h2]; decide)).2, d1 (by rw [he]; simp), d2 (by rw [he]; simp), e1, e2, e3, f1, g1, g2,
    ⟨_, (C103_digest exHash exHash_len exScheme exScheme_ok [] t p h).1⟩, m1, m2, ?_⟩
  rw [(C103_id exHash exHash_len exScheme exScheme_ok [] t p h (ascii "kernel") (by rw [← C01_id_is_crc]; decide +kernel)).2, h2, if_neg]
  rw [← C01_id_is_crc]
  decide +kernel

/-- C103: a package whose signature the key does not accept; and the hypotheses of `C103_verify` are met. -/
example : ∃ t p e, PySession exHash failScheme [] t p ∧ p.hdr.signatureSz.toNat ≤ 512 ∧ pyVerify exHash failScheme (.ok ()) p = .ret (.raise (.error e)) ∧ e ≠ .ok := by
  have hf : ∀ sk rnd k d, failScheme.sign sk rnd k d ≠ .error .ok := by intro _ _ _ _ h; cases h
  obtain ⟨p, h, -, he, hs, -⟩ := pySee_session exPy3_run
  have hsz : p.hdr.signatureSz.toNat ≤ 512 := by
    have i := pysession_inv exHash_len failScheme hf h
    unfold pySignature at hs
    cases hr : readAt p.hdr.signature 0 p.hdr.signatureSz.toNat with
    | none => rw [hr] at hs; cases hs
    | some x =>
      have : 0 + p.hdr.signatureSz.toNat ≤ p.hdr.signature.length := by
        unfold readAt at hr
        split at hr
        · assumption
        · cases hr
      have := i.good.wf.2.2.2.2.2.2.1
      omega
  obtain ⟨a, b, -⟩ := C103_verify exHash exHash_len failScheme hf (by intro _ _ _ _ h; cases h) [] _ p h hsz
  obtain ⟨e, e1, e2⟩ := b (by rw [he]; simp) () (fun hc => by have := ((a ()).1 hc).1; cases this)
  exact ⟨_, p, e, h, hsz, e2, e1⟩

end Bpak
