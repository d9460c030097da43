import Verif.Props.Set
import Verif.Proof.Strtol
/-! `bpak set`: integers, ids and key ids (C76, C77). -/
namespace Bpak
open Spec

/-! ### C76 integers and ids -/

theorem setMeta_value {h : Header} {pre post : List MetaHdr} {m : MetaHdr} {k : Nat} (im : MetaInv h (pre ++ m :: post) k) (d : Bytes) (hd : d.length = m.size.toNat) :
    ∃ h', putValue h m d = .ret (.ok, h') ∧ run h [.writeMeta m.id m.partRef d] = some h' ∧ h' = { h with metas := h'.metas, metadata := h'.metadata } ∧
      entries h' = pre.map (entOf h) ++ ⟨m.id, m.partRef, d⟩ :: post.map (entOf h) := by
  obtain ⟨md, e1, e2, e3⟩ := write_entries im d hd
  obtain ⟨g1, g2⟩ := getMeta_used im pre post m rfl
  refine ⟨_, ?_, ?_, rfl, e3⟩
  · unfold putValue; rw [e1]
  · have hid := im.packed.ids m (by simp)
    simp only [run, step]
    rw [if_neg hid, g1]
    simp only
    rw [g2]
    simp only
    rw [if_pos hd, e1]

/-- `setMeta` with an encoder, once the entry is found. -/
theorem setMeta_enc {h : Header} {pre post : List MetaHdr} {m : MetaHdr} {k : Nat} (im : MetaInv h (pre ++ m :: post) k) (name text : Bytes)
    (hn : m.id = bpakId name ∧ m.partRef = 0) :
    setMeta h name text (some (ascii "integer")) = (if m.size.toNat ≠ 8 then .ret (.sizeError, h, false) else match strtolChecked text with
      | none => .ret (.failed, h, false)
      | some v => match putValue h m (le64 v) with
        | .ub => .ub
        | .ret (e, h') => .ret (e, h', decide (e = .ok))) ∧
    setMeta h name text (some (ascii "id")) = (if m.size.toNat ≠ 4 then .ret (.sizeError, h, false) else match putValue h m (le32 (bpakId text)) with
        | .ub => .ub
        | .ret (e, h') => .ret (e, h', decide (e = .ok))) := by
  obtain ⟨g1, g2⟩ := getMeta_used im pre post m rfl
  rw [hn.1, hn.2] at g1
  constructor
  · unfold setMeta
    rw [g1]
    simp only
    rw [g2]
    simp only
    rw [if_pos True.intro]
    by_cases h8 : m.size.toNat ≠ 8
    · rw [if_pos h8, if_pos h8]
    · rw [if_neg h8, if_neg h8]
      generalize strtolChecked text = r
      cases r with
      | none => rfl
      | some v =>
        simp only
        generalize putValue h m (le64 v) = q
        cases q <;> rfl
  · unfold setMeta
    rw [g1]
    simp only
    rw [g2]
    simp only
    rw [if_neg (show ¬ ascii "id" = ascii "integer" by decide +kernel), if_pos True.intro]
    by_cases h4 : m.size.toNat ≠ 4
    · rw [if_pos h4, if_pos h4]
    · rw [if_neg h4, if_neg h4]
      generalize putValue h m _ = q
      cases q <;> rfl

/-- C76: `--encoder integer` on an entry of 8 bytes, for every integer written in C notation: in the range of a signed 64-bit number it is
stored (little-endian, two's complement) and nothing else changes; outside, the call fails and nothing changes. -/
theorem C76_set_integer {SK PK : Type} (H : HashFn) (hH : HashLen H) (S : SigScheme SK PK) (hS : ∀ sk rnd k d, S.sign sk rnd k d ≠ .error .ok)
    (ops : List (PkgOp SK)) (p0 p : Pkg) (h0 : pkgOpen H true [] = (.ok, p0)) (hr : pkgRun H S p0 ops = some p)
    (name text : Bytes) (pre post : List Entry) (e : Entry) (he : entries p.hdr = pre ++ e :: post) (hn : e.id = bpakId name ∧ e.ref = 0)
    (h8 : e.data.length = 8) (v : Int) (hv : Spec.Integer text v) :
    if -2^63 ≤ v ∧ v < 2^63 then
      ∃ p' ops', setCmd p.file { name := some name, text := some text, encoder := some (ascii "integer") } = .ret (.ok, p'.file) ∧
        pkgRun H S p0 (ops ++ ops') = some p' ∧ entries p'.hdr = pre ++ { e with data := Spec.leBytes 8 (v % 2^64).toNat } :: post ∧
        p'.hdr = { p.hdr with metas := p'.hdr.metas, metadata := p'.hdr.metadata } ∧ p'.file.drop 4096 = p.file.drop 4096
    else setCmd p.file { name := some name, text := some text, encoder := some (ascii "integer") } = .ret (.failed, p.file) := by
  have i := run_inv H hH S hS ops p0 p h0 hr
  obtain ⟨us, k, im⟩ := i.hdr.metas
  obtain ⟨pre', m, post', rfl, rfl, rfl, rfl⟩ := entry_slot im he
  have hl : (entOf p.hdr m).data.length = m.size.toNat := content_len im (by simp)
  rw [hl] at h8
  have hcmd := setCmd_open i { name := some name, text := some text, encoder := some (ascii "integer") } name text rfl rfl
  simp only at hcmd
  rw [(setMeta_enc im name text hn).1, if_neg (show ¬ m.size.toNat ≠ 8 by omega), strtolChecked_integer hv] at hcmd
  by_cases hc : -2^63 ≤ v ∧ v < 2^63
  · rw [if_pos hc]
    rw [if_pos hc] at hcmd
    simp only at hcmd
    rw [hcmd]
    obtain ⟨h', e1, e2, e3, e4⟩ := setMeta_value im (le64 (BitVec.ofInt 64 v)) (by rw [h8]; rfl)
    obtain ⟨p', ops', r1, r2, r3, r4⟩ := setCmd_made S hr i _ (by simp [Op.keepsParts]) h' e2
    refine ⟨p', ops', ?_, r1, ?_, by rw [r2]; exact e3, r4⟩
    · rw [e1]; simp only [decide_true, if_true]; rw [r3]
    · rw [r2, e4, le64_spec, BitVec.toNat_ofInt]; rfl
  · rw [if_neg hc]
    rw [if_neg hc] at hcmd
    rw [hcmd]
    rfl

/-- C76: text that has no decimal digit after white space and sign is refused, and nothing changes. -/
theorem C76_not_a_number {SK PK : Type} (H : HashFn) (hH : HashLen H) (S : SigScheme SK PK) (hS : ∀ sk rnd k d, S.sign sk rnd k d ≠ .error .ok)
    (ops : List (PkgOp SK)) (p0 p : Pkg) (h0 : pkgOpen H true [] = (.ok, p0)) (hr : pkgRun H S p0 ops = some p)
    (name : Bytes) (e : Entry) (he : e ∈ entries p.hdr) (hn : e.id = bpakId name ∧ e.ref = 0) (h8 : e.data.length = 8)
    (sp sg t : Bytes) (hsp : ∀ c ∈ sp, c = 32 ∨ (9 ≤ c.toNat ∧ c.toNat ≤ 13)) (hsg : sg = [] ∨ sg = [43] ∨ sg = [45])
    (ht : ∀ c r, t = c :: r → ¬ (c = 32 ∨ (9 ≤ c.toNat ∧ c.toNat ≤ 13)) ∧ (sg = [] → c ≠ 43 ∧ c ≠ 45) ∧ (c.toNat < 48 ∨ 57 < c.toNat)) :
    setCmd p.file { name := some name, text := some (sp ++ (sg ++ t)), encoder := some (ascii "integer") } = .ret (.failed, p.file) := by
  have i := run_inv H hH S hS ops p0 p h0 hr
  obtain ⟨us, k, im⟩ := i.hdr.metas
  obtain ⟨pre, post, he'⟩ := List.append_of_mem he
  obtain ⟨pre', m, post', rfl, rfl, rfl, rfl⟩ := entry_slot im he'
  have hl : (entOf p.hdr m).data.length = m.size.toNat := content_len im (by simp)
  rw [hl] at h8
  rw [setCmd_open i _ name (sp ++ (sg ++ t)) rfl rfl]
  simp only
  rw [(setMeta_enc im name _ hn).1, if_neg (show ¬ m.size.toNat ≠ 8 by omega), strtolChecked_refused sp sg t (fun c hc => by unfold isSpaceC; exact decide_eq_true (hsp c hc)) hsg
    (fun c r hcr => ⟨by unfold isSpaceC; exact decide_eq_false (ht c r hcr).1, (ht c r hcr).2⟩)]
  rfl

/-- C76: `--encoder id` on an entry of 4 bytes stores the id of the text, and nothing else changes. -/
theorem C76_set_id {SK PK : Type} (H : HashFn) (hH : HashLen H) (S : SigScheme SK PK) (hS : ∀ sk rnd k d, S.sign sk rnd k d ≠ .error .ok)
    (ops : List (PkgOp SK)) (p0 p : Pkg) (h0 : pkgOpen H true [] = (.ok, p0)) (hr : pkgRun H S p0 ops = some p)
    (name text : Bytes) (pre post : List Entry) (e : Entry) (he : entries p.hdr = pre ++ e :: post) (hn : e.id = bpakId name ∧ e.ref = 0)
    (h4 : e.data.length = 4) :
    ∃ p' ops', setCmd p.file { name := some name, text := some text, encoder := some (ascii "id") } = .ret (.ok, p'.file) ∧
      pkgRun H S p0 (ops ++ ops') = some p' ∧ entries p'.hdr = pre ++ { e with data := Spec.leBytes 4 (bpakId text).toNat } :: post ∧
      p'.hdr = { p.hdr with metas := p'.hdr.metas, metadata := p'.hdr.metadata } ∧ p'.file.drop 4096 = p.file.drop 4096 := by
  have i := run_inv H hH S hS ops p0 p h0 hr
  obtain ⟨us, k, im⟩ := i.hdr.metas
  obtain ⟨pre', m, post', rfl, rfl, rfl, rfl⟩ := entry_slot im he
  have hl : (entOf p.hdr m).data.length = m.size.toNat := content_len im (by simp)
  rw [hl] at h4
  rw [setCmd_open i _ name text rfl rfl]
  simp only
  rw [(setMeta_enc im name text hn).2, if_neg (show ¬ m.size.toNat ≠ 4 by omega)]
  obtain ⟨h', e1, e2, e3, e4⟩ := setMeta_value im (le32 (bpakId text)) (by rw [h4]; rfl)
  obtain ⟨p', ops', r1, r2, r3, r4⟩ := setCmd_made S hr i _ (by simp [Op.keepsParts]) h' e2
  refine ⟨p', ops', ?_, r1, ?_, by rw [r2]; exact e3, r4⟩
  · rw [e1]; simp only [decide_true, if_true]; rw [r3]
  · rw [r2, e4, le32_spec]; rfl

/-- C76: an entry of the wrong size is refused, and nothing changes. -/
theorem C76_wrong_size {SK PK : Type} (H : HashFn) (hH : HashLen H) (S : SigScheme SK PK) (hS : ∀ sk rnd k d, S.sign sk rnd k d ≠ .error .ok)
    (ops : List (PkgOp SK)) (p0 p : Pkg) (h0 : pkgOpen H true [] = (.ok, p0)) (hr : pkgRun H S p0 ops = some p)
    (name text : Bytes) (e : Entry) (he : e ∈ entries p.hdr) (hn : e.id = bpakId name ∧ e.ref = 0) :
    (e.data.length ≠ 8 → setCmd p.file { name := some name, text := some text, encoder := some (ascii "integer") } = .ret (.sizeError, p.file)) ∧
    (e.data.length ≠ 4 → setCmd p.file { name := some name, text := some text, encoder := some (ascii "id") } = .ret (.sizeError, p.file)) := by
  have i := run_inv H hH S hS ops p0 p h0 hr
  obtain ⟨us, k, im⟩ := i.hdr.metas
  obtain ⟨pre, post, he'⟩ := List.append_of_mem he
  obtain ⟨pre', m, post', rfl, rfl, rfl, rfl⟩ := entry_slot im he'
  have hl : (entOf p.hdr m).data.length = m.size.toNat := content_len im (by simp)
  rw [hl]
  rw [setCmd_open i _ name text rfl rfl, setCmd_open i _ name text rfl rfl]
  simp only
  rw [(setMeta_enc im name text hn).1, (setMeta_enc im name text hn).2]
  constructor
  · intro h; rw [if_pos h]; rfl
  · intro h; rw [if_pos h]; rfl

/-- The package of `exSet`, with "bb" in front. -/
theorem exSet8 : ∃ p, Made p [(7, [1, 2])] ∧
    entries p.hdr = [⟨bpakId (ascii "a"), 0, [0, 0, 0]⟩, ⟨9, 0, List.replicate 40 0xaa⟩] ++ ⟨bpakId (ascii "bb"), 0, List.replicate 8 0⟩ :: [] := by
  obtain ⟨p, hr, he⟩ := exSet
  exact ⟨p, ⟨exSetOps, hr, rfl⟩, he⟩

example : Spec.Integer (ascii "-0x1aF") (-431) := .minus _ 431 (.hex _ _ 120 (.snoc [49, 97] 26 70 15 (.snoc [49] 1 97 10 (.one 49 1 (by omega) (by decide)) (by omega) (by decide)) (by omega) (by decide)) (Or.inl rfl))

/-- C76 fails as "a text that is not an integer is refused, one that is and fits 8 bytes is stored": "12abc" stores 12, and 2^63 is
refused although an unsigned 8-byte number can hold it. -/
theorem C76_malformed_is_false : ∃ p s p' s', Made p s ∧ Made p' s' ∧
    setCmd p.file { name := some (ascii "bb"), text := some (ascii "12abc"), encoder := some (ascii "integer") } = .ret (.ok, p'.file) ∧
    (⟨bpakId (ascii "bb"), 0, [12, 0, 0, 0, 0, 0, 0, 0]⟩ : Entry) ∈ entries p'.hdr ∧
    setCmd p.file { name := some (ascii "bb"), text := some (ascii "9223372036854775808"), encoder := some (ascii "integer") } = .ret (.failed, p.file) := by
  obtain ⟨q0, e0, _⟩ := C56_open_new exHash exHash_len
  obtain ⟨p, mp, he⟩ := exSet8
  obtain ⟨ops, hr, hs⟩ := id mp
  have i := mp.inv
  obtain ⟨us, k, im⟩ := i.hdr.metas
  obtain ⟨pre', m, post', rfl, hpre, hpost, hm⟩ := entry_slot im he
  have hl : (entOf p.hdr m).data.length = m.size.toNat := content_len im (by simp)
  have hid : m.id = bpakId (ascii "bb") ∧ m.partRef = 0 := by
    have h1 := congrArg Entry.id hm
    have h2 := congrArg Entry.ref hm
    exact ⟨h1.symm, h2.symm⟩
  have hsz : m.size.toNat = 8 := by rw [← hl, ← hm]; decide
  obtain ⟨h', e1, e2, e3, e4⟩ := setMeta_value im (le64 12) (by rw [hsz]; rfl)
  obtain ⟨p', ops', r1, r2, r3, r4⟩ := setCmd_made exScheme hr i _ (by simp [Op.keepsParts]) h' e2
  refine ⟨p, _, p', _, mp, ⟨_, r1, rfl⟩, ?_, ?_, ?_⟩
  · rw [setCmd_open i _ (ascii "bb") (ascii "12abc") rfl rfl]
    simp only
    rw [(setMeta_enc im _ _ hid).1, if_neg (show ¬ m.size.toNat ≠ 8 by omega), show strtolChecked (ascii "12abc") = some 12 by decide +kernel]
    simp only
    rw [e1]; simp only [decide_true, if_true]; rw [r3]
  · rw [r2, e4, hid.1, hid.2]
    have : le64 12 = [12, 0, 0, 0, 0, 0, 0, 0] := by decide +kernel
    rw [this]; simp
  · rw [setCmd_open i _ (ascii "bb") (ascii "9223372036854775808") rfl rfl]
    simp only
    rw [(setMeta_enc im _ _ hid).1, if_neg (show ¬ m.size.toNat ≠ 8 by omega), show strtolChecked (ascii "9223372036854775808") = none by decide +kernel]
    rfl

/-! ### C77 key ids, by name or number -/

/-- C77: an argument that does not start with "0x" is a name; "0x" followed by up to 8 hexadecimal digits (or more, with a value below
2^32) is that number. -/
theorem C77_id_for_name_or_ref (s : Bytes) :
    (s.take 2 ≠ [48, 120] → idForNameOrRef s = bpakId s) ∧
    (∀ t v, s = 48 :: 120 :: t → Digits 16 t v → v < 2^32 → idForNameOrRef s = BitVec.ofNat 32 v) := by
  constructor
  · intro h
    unfold idForNameOrRef
    rw [if_neg h]
  · rintro t v rfl hd hv
    unfold idForNameOrRef
    rw [if_pos (show List.take 2 (48 :: 120 :: t) = [48, 120] from rfl), strtoAny_plain 16 48 _ (by decide) (by decide) (by decide)]
    unfold strtoBody
    have := digitsGo_digits (by omega) hd [] 0 false
    rw [List.append_nil] at this
    rw [if_pos ⟨rfl, Or.inl rfl⟩]
    simp only [List.drop_succ_cons, List.drop_zero, this, digitsGo, Nat.zero_mul, Nat.zero_add, Option.map_some, Bool.false_eq_true, if_false]
    rw [if_pos (by omega), BitVec.ofInt_natCast]

/-- C77 fails for other arguments: a name that starts with "0x" is taken for a number - "0xylophone" for 0 - and larger numbers are cut. -/
theorem C77_id_is_false :
    idForNameOrRef (ascii "0xylophone") = 0 ∧ bpakId (ascii "0xylophone") ≠ 0 ∧ idForNameOrRef (ascii "0x1deadbeef") = 0xdeadbeef ∧
    idForNameOrRef (ascii "0xdeadline") = 0xdead ∧ bpakId (ascii "0xdeadline") ≠ 0xdead := by decide +kernel

/-- C77: `bpak set --key-id K --keystore-id S` sets those of the two that are given, and changes nothing else. -/
theorem C77_set_ids {SK PK : Type} (H : HashFn) (hH : HashLen H) (S : SigScheme SK PK) (hS : ∀ sk rnd k d, S.sign sk rnd k d ≠ .error .ok)
    (ops : List (PkgOp SK)) (p0 p : Pkg) (h0 : pkgOpen H true [] = (.ok, p0)) (hr : pkgRun H S p0 ops = some p)
    (key ks : Option Bytes) (hsome : key ≠ none ∨ ks ≠ none) :
    ∃ p' ops', setCmd p.file { keyId := key, keystoreId := ks } = .ret (.ok, p'.file) ∧ pkgRun H S p0 (ops ++ ops') = some p' ∧
      p'.hdr = { p.hdr with keyId := (key.map idForNameOrRef).getD p.hdr.keyId, keystoreId := (ks.map idForNameOrRef).getD p.hdr.keystoreId } ∧
      p'.file.drop 4096 = p.file.drop 4096 := by
  have i := run_inv H hH S hS ops p0 p h0 hr
  have hcmd : setCmd p.file { keyId := key, keystoreId := ks } =
      .ret (.ok, fileWrite p.file 0 { p.hdr with keyId := (key.map idForNameOrRef).getD p.hdr.keyId, keystoreId := (ks.map idForNameOrRef).getD p.hdr.keystoreId }.image) := by
    unfold setCmd
    rw [if_neg (by rintro ⟨-, h1, h2⟩; rcases hsome with h | h; exact h h1; exact h h2), if_neg (by simp), if_neg (by have := i.saved.1; omega)]
    simp only [i.saved.2, i.valid, ne_eq, not_true_eq_false, if_false]
    cases key <;> cases ks <;> rfl
  obtain ⟨p', ops', r1, r2, r3, r4⟩ := setCmd_made S hr i
    ([.setKeyId ((key.map idForNameOrRef).getD p.hdr.keyId), .setKeystoreId ((ks.map idForNameOrRef).getD p.hdr.keystoreId)]) (by simp [Op.keepsParts]) _ rfl
  exact ⟨p', ops', by rw [hcmd, r3]; rfl, r1, r2, r4⟩

/-- C77 fails if a metadata entry is set in the same call: the key ids are then ignored, whatever they are. -/
theorem C77_ids_ignored_is_false (f : Bytes) (name text key ks : Bytes) (enc : Option Bytes) :
    setCmd f { name := some name, text := some text, encoder := enc, keyId := some key, keystoreId := some ks } =
      setCmd f { name := some name, text := some text, encoder := enc } := rfl

end Bpak
