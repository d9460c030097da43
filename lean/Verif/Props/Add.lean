import Verif.Model.Add
import Verif.Props.SetValue
import Verif.Props.Utils
/-! `bpak add --meta` (C78). -/
namespace Bpak
open Spec

/-- The text that a source gives to an encoder: the argument, or what the file holds up to its end or a NUL (which must come within
1920 bytes). -/
inductive Says : AddSource → Bytes → Prop where
  | text (s : Bytes) : 0 ∉ s → s.length < 1920 → Says (.text s) s
  | file (s rest : Bytes) : 0 ∉ s → s.length < 1920 → s ++ rest ≠ [] → (∀ c, rest.head? = some c → c = 0) → Says (.file (some (s ++ rest))) s

/-- The content that the new entry should get. -/
inductive Encodes : AddSource → Option Bytes → Bytes → Prop where
  | text (s : Bytes) : s.length < 1920 → Encodes (.text s) none (s ++ [0])
  | file (c : Bytes) : c ≠ [] → c.length ≤ 1920 → Encodes (.file (some c)) none c
  | uuid (src : AddSource) (s u : Bytes) : Says src s → UuidShape s → u.length = 16 → s.map lowerChar = uuidText u →
      Encodes src (some (ascii "uuid")) u
  | integer (src : AddSource) (s : Bytes) (v : Int) : Says src s → Spec.Integer s v → -2^63 ≤ v → v < 2^63 →
      Encodes src (some (ascii "integer")) (Spec.leBytes 8 (v % 2^64).toNat)
  | id (src : AddSource) (s : Bytes) : Says src s → Encodes src (some (ascii "id")) (Spec.leBytes 4 (bpakId s).toNat)

theorem exScheme_ok : ∀ sk rnd k d, exScheme.sign sk rnd k d ≠ .error .ok := by intro _ _ _ _ h; cases h

theorem takeWhile_text {s r : Bytes} (h : 0 ∉ s) (hr : ∀ c, r.head? = some c → c = 0) : (s ++ r).takeWhile (fun c => decide (c ≠ 0)) = s := by
  induction s with
  | nil => cases r with
    | nil => rfl
    | cons c r => rw [hr c rfl]; rfl
  | cons c s ih =>
    have hc : c ≠ 0 := fun e => h (by rw [e]; simp)
    rw [List.cons_append, List.takeWhile_cons, if_pos (decide_eq_true hc), ih (fun hm => h (List.mem_cons_of_mem _ hm))]

theorem says_input {src : AddSource} {s : Bytes} (h : Says src s) : ∃ input, addInput src = .ok input ∧ cString input = some s := by
  cases h with
  | text _ h0 hl =>
    refine ⟨s ++ [0], by unfold addInput; simp only; rw [if_neg (by omega)], ?_⟩
    unfold cString
    rw [if_pos (Or.inr (by simp)), takeWhile_text h0 (by simp)]
  | file _ rest h0 hl hne hr =>
    refine ⟨(s ++ rest).take 1920, by unfold addInput; simp only; rw [if_neg (by intro e; exact hne (List.eq_nil_of_length_eq_zero e))], ?_⟩
    unfold cString
    have ht : (s ++ rest).take 1920 = s ++ rest.take (1920 - s.length) := by rw [List.take_append, List.take_of_length_le (by omega)]
    rw [ht]
    obtain ⟨d, hd⟩ : ∃ d, 1920 - s.length = d + 1 := ⟨1920 - s.length - 1, by omega⟩
    cases rest with
    | nil => rw [List.take_nil, if_pos (Or.inl (by simp; omega)), takeWhile_text h0 (by simp)]
    | cons c rest =>
      rw [hd, List.take_succ_cons, hr c rfl, if_pos (Or.inr (by simp)), takeWhile_text h0 (by simp)]

theorem encodes_input {src : AddSource} {enc : Option Bytes} {d : Bytes} (h : Encodes src enc d) :
    ∃ input, addInput src = .ok input ∧ addEncode enc input = .ret (.ok d) ∧ d.length ≤ 1920 := by
  cases h with
  | text s hl => exact ⟨s ++ [0], by unfold addInput; simp only; rw [if_neg (by omega)], rfl, by simp; omega⟩
  | file c hne hl =>
    refine ⟨d, ?_, rfl, hl⟩
    unfold addInput
    simp only
    rw [if_neg (fun e => hne (List.eq_nil_of_length_eq_zero e)), List.take_of_length_le hl]
  | uuid _ s u hs h1 h2 h3 =>
    obtain ⟨input, e1, e2⟩ := says_input hs
    refine ⟨input, e1, ?_, by omega⟩
    unfold addEncode
    simp only [if_true]
    rw [e2]
    simp only
    rw [(C19_uuid_parse_exact s d).2 ⟨h1, h2, h3⟩]
  | integer _ s v hs h1 h2 h3 =>
    obtain ⟨input, e1, e2⟩ := says_input hs
    refine ⟨input, e1, ?_, by simp [leBytes]⟩
    unfold addEncode
    simp only
    rw [if_neg (show ¬ ascii "integer" = ascii "uuid" by decide +kernel), if_pos True.intro, e2]
    simp only
    rw [strtolChecked_integer h1, if_pos ⟨h2, h3⟩]
    simp only
    rw [le64_spec, BitVec.toNat_ofInt]; rfl
  | id _ s hs =>
    obtain ⟨input, e1, e2⟩ := says_input hs
    refine ⟨input, e1, ?_, by simp [leBytes]⟩
    unfold addEncode
    simp only
    rw [if_neg (show ¬ ascii "id" = ascii "uuid" by decide +kernel), if_neg (show ¬ ascii "id" = ascii "integer" by decide +kernel), if_pos True.intro, e2]
    simp only
    rw [le32_spec]

theorem addMetaCmd_open {H : HashFn} {p : Pkg} {s : List (U32 × Bytes)} (i : PkgInv H p s) (o : AddOpts) :
    addMetaCmd H p.file o = match addInput o.source with
    | .error e => .ret (e, p.file)
    | .ok input => match addEncode o.encoder input with
      | .ub => .ub
      | .ret (.error e) => .ret (e, p.file)
      | .ret (.ok d) =>
        let a := addMeta p.hdr (bpakId o.name) ((o.ref.map bpakId).getD 0) (BitVec.ofNat 16 d.length)
        if a.1 ≠ .ok then .ret (a.1, p.file)
        else match a.2.1.metas[a.2.2]? with
          | none => .ub
          | some m => match writeAt a.2.1.metadata m.offset.toNat d with
            | none => .ub
            | some md => .ret (.ok, fileWrite p.file 0 { a.2.1 with metadata := md }.image) := by
  unfold addMetaCmd
  rw [C56_open_existing H true p.file i.saved.1]
  simp only [i.saved.2, i.valid, ne_eq, not_true_eq_false, if_false]
  cases addInput o.source with
  | error e => rfl
  | ok input =>
    simp only
    generalize addEncode o.encoder input = r
    cases r with
    | ub => rfl
    | ret r => cases r with
      | error e => rfl
      | ok d => rfl

/-- C78: `bpak add --meta`, with an input that the encoder accepts. A new entry with the name's id, the part reference and the encoded
content is put at the end of the table; no other entry, no other field of the header and no byte of a part changes, and the file is
again one that calls of the library could have made. If the entry exists, or there is no free slot or no room, the file is untouched. -/
theorem C78_add_meta {SK PK : Type} (H : HashFn) (hH : HashLen H) (S : SigScheme SK PK) (hS : ∀ sk rnd k d, S.sign sk rnd k d ≠ .error .ok)
    (ops : List (PkgOp SK)) (p0 p : Pkg) (h0 : pkgOpen H true [] = (.ok, p0)) (hr : pkgRun H S p0 ops = some p)
    (o : AddOpts) (d : Bytes) (he : Encodes o.source o.encoder d) (hid : bpakId o.name ≠ 0) (ref : U32) (href : ref = match o.ref with | none => 0 | some r => bpakId r) :
    if ∃ e ∈ entries p.hdr, e.id = bpakId o.name ∧ e.ref = ref then addMetaCmd H p.file o = .ret (.exists_, p.file)
    else if (entries p.hdr).length = 32 ∨ ((entries p.hdr).map (fun e => roundUp8 e.data.length)).sum + d.length > 1920 then
      addMetaCmd H p.file o = .ret (.noSpaceLeft, p.file)
    else
      ∃ p' ops', addMetaCmd H p.file o = .ret (.ok, p'.file) ∧ pkgRun H S p0 (ops ++ ops') = some p' ∧
        entries p'.hdr = entries p.hdr ++ [⟨bpakId o.name, ref, d⟩] ∧
        p'.hdr = { p.hdr with metas := p'.hdr.metas, metadata := p'.hdr.metadata } ∧ p'.file.drop 4096 = p.file.drop 4096 := by
  have i := run_inv H hH S hS ops p0 p h0 hr
  obtain ⟨us, k, im⟩ := i.hdr.metas
  obtain ⟨input, e1, e2, e3⟩ := encodes_input he
  have href' : (o.ref.map bpakId).getD 0 = ref := by rw [href]; cases o.ref <;> rfl
  have hcmd := addMetaCmd_open i o
  rw [e1] at hcmd
  simp only at hcmd
  rw [e2, href'] at hcmd
  simp only at hcmd
  have hsz : (BitVec.ofNat 16 d.length).toNat = d.length := by simp; omega
  have hlen := im.len
  have hnl : (entries p.hdr).length = us.length := by rw [entries_inv im, List.length_map]
  have hiff : (∃ e ∈ entries p.hdr, e.id = bpakId o.name ∧ e.ref = ref) ↔ ∃ m ∈ us, m.id = bpakId o.name ∧ m.partRef = ref := by
    rw [entries_inv im]
    constructor
    · rintro ⟨e, he, h1, h2⟩
      obtain ⟨m, hm, rfl⟩ := List.mem_map.1 he
      exact ⟨m, hm, h1, h2⟩
    · rintro ⟨m, hm, h1, h2⟩
      exact ⟨_, List.mem_map.2 ⟨m, hm, rfl⟩, h1, h2⟩
  have hsum : ((entries p.hdr).map (fun e => roundUp8 e.data.length)).sum = endOff 0 us := by
    rw [entries_inv im, endOff_sum us (by omega), Nat.zero_add, List.map_map]
    congr 1
    apply List.map_congr_left
    intro x hx
    show roundUp8 (metaContent p.hdr x).length = _
    rw [content_len im hx, metaAlignSize_eq]
  rw [hsum, hnl]
  have hcases := addMeta_cases im (bpakId o.name) ref (BitVec.ofNat 16 d.length)
  rw [hsz] at hcases
  by_cases hx : ∃ e ∈ entries p.hdr, e.id = bpakId o.name ∧ e.ref = ref
  · rw [if_pos hx]
    have hc : (addMeta p.hdr (bpakId o.name) ref (BitVec.ofNat 16 d.length)).1 = .exists_ := by
      rcases hcases with ⟨-, hc, -⟩ | ⟨hc, -⟩ | ⟨hc, -⟩ | ⟨hc, -⟩
      · exact hc
      all_goals exact absurd (hiff.1 hx) hc
    rw [hcmd, hc]; rfl
  · rw [if_neg hx]
    have hx' := fun h => hx (hiff.2 h)
    by_cases hroom : us.length = 32 ∨ endOff 0 us + d.length > 1920
    · rw [if_pos hroom]
      have hc : (addMeta p.hdr (bpakId o.name) ref (BitVec.ofNat 16 d.length)).1 = .noSpaceLeft := by
        rcases hcases with ⟨hc, -⟩ | ⟨-, -, hc, -⟩ | ⟨-, -, -, hc⟩ | ⟨-, h1, h2, -⟩
        · exact absurd hc hx'
        · exact hc
        · exact hc
        · omega
      rw [hcmd, hc]; rfl
    · rw [if_neg hroom]
      obtain ⟨m, a1, a2, a3, a4, a5, a6, im2⟩ := addMeta_ok_inv im (id := bpakId o.name) (ref := ref) (size := BitVec.ofNat 16 d.length) hid hx' (by omega)
        (by rw [hsz]; omega)
      have hms : d.length = m.size.toNat := by rw [a3, hsz]
      obtain ⟨md, w1, w2, w3⟩ := write_entries im2 d hms
      obtain ⟨g3, g4⟩ := getMeta_used im2 us [] m rfl
      rw [a6] at hcmd
      simp only [ne_eq, not_true_eq_false, if_false] at hcmd
      rw [g4] at hcmd
      simp only at hcmd
      simp only at w1
      rw [w1] at hcmd
      simp only at hcmd
      have hrun : run p.hdr [.addMeta (bpakId o.name) ref (BitVec.ofNat 16 d.length), .writeMeta m.id m.partRef d] =
          some { p.hdr with metas := us ++ m :: List.replicate (k-1) MetaHdr.zero, metadata := md } := by
        simp only [run, step]
        rw [if_neg hid, a6]
        simp only [true_or, if_true]
        rw [if_neg (by rw [a1]; exact hid), g3]
        simp only
        rw [g4]
        simp only
        rw [if_pos hms, w1]
      obtain ⟨p', ops', r1, r2, r3, r4⟩ := setCmd_made S hr i _ (by simp [Op.keepsParts]) _ hrun
      refine ⟨p', ops', by rw [hcmd, r3], r1, ?_, by rw [r2], r4⟩
      rw [r2]
      have hsame : ∀ x, entOf { p.hdr with metas := us ++ m :: List.replicate (k-1) MetaHdr.zero } x = entOf p.hdr x := fun x => rfl
      rw [show entries { p.hdr with metas := us ++ m :: List.replicate (k-1) MetaHdr.zero, metadata := md } = _ from w3, List.map_congr_left (fun x _ => hsame x),
        ← entries_inv im, a1, a2]
      rfl

/-- Inputs that the encoders accept. -/
example : Encodes (.file (some (ascii "0888b0FA-9c48-4524-9845-06a641b61edd"))) (some (ascii "uuid"))
    [0x08, 0x88, 0xb0, 0xfa, 0x9c, 0x48, 0x45, 0x24, 0x98, 0x45, 0x06, 0xa6, 0x41, 0xb6, 0x1e, 0xdd] := by
  have h := (C19_uuid_parse_exact (ascii "0888b0FA-9c48-4524-9845-06a641b61edd")
    [0x08, 0x88, 0xb0, 0xfa, 0x9c, 0x48, 0x45, 0x24, 0x98, 0x45, 0x06, 0xa6, 0x41, 0xb6, 0x1e, 0xdd]).1 (by decide +kernel)
  exact .uuid _ _ _ (.file (ascii "0888b0FA-9c48-4524-9845-06a641b61edd") [] (by decide +kernel) (by decide +kernel) (by decide +kernel) (by simp)) h.1 h.2.1 h.2.2
example : Encodes (.file (some (ascii "-2" ++ [0, 7]))) (some (ascii "integer")) [0xfe, 0xff, 0xff, 0xff, 0xff, 0xff, 0xff, 0xff] :=
  .integer _ (ascii "-2") (-2) (.file _ [0, 7] (by decide +kernel) (by decide +kernel) (by decide +kernel) (by simp))
    (.minus _ 2 (.dec _ 2 (.one 50 2 (by omega) (by decide)) (by decide))) (by omega) (by omega)
example : Encodes (.text (ascii "pb-load-addr")) (some (ascii "id")) [0x4b, 0x4a, 0xe6, 0xd1] := by
  have h : Spec.leBytes 4 (bpakId (ascii "pb-load-addr")).toNat = [0x4b, 0x4a, 0xe6, 0xd1] := by decide +kernel
  rw [← h]
  exact .id _ _ (.text _ (by decide +kernel) (by decide +kernel))

/-- C78: what is refused, with the file untouched: a text of 1920 or more bytes, a file that is empty or cannot be opened, an unknown
encoder; a text that is not a UUID or has no digits, with those encoders. -/
theorem C78_refused {SK PK : Type} (H : HashFn) (hH : HashLen H) (S : SigScheme SK PK) (hS : ∀ sk rnd k d, S.sign sk rnd k d ≠ .error .ok)
    (ops : List (PkgOp SK)) (p0 p : Pkg) (h0 : pkgOpen H true [] = (.ok, p0)) (hr : pkgRun H S p0 ops = some p) (o : AddOpts) :
    (∀ s, o.source = .text s → 1920 ≤ s.length → addMetaCmd H p.file o = .ret (.noSpaceLeft, p.file)) ∧
    (o.source = .file none ∨ o.source = .file (some []) → addMetaCmd H p.file o = .ret (.failed, p.file)) ∧
    (∀ s enc, Says o.source s → o.encoder = some enc → enc ∉ ["uuid", "integer", "id"].map ascii → addMetaCmd H p.file o = .ret (.notSupported, p.file)) ∧
    (∀ s, Says o.source s → o.encoder = some (ascii "uuid") → ¬ UuidShape s → addMetaCmd H p.file o = .ret (.failed, p.file)) ∧
    (∀ s v, Says o.source s → o.encoder = some (ascii "integer") → Spec.Integer s v → ¬ (-2^63 ≤ v ∧ v < 2^63) →
      addMetaCmd H p.file o = .ret (.failed, p.file)) ∧
    (∀ sp sg t, Says o.source (sp ++ (sg ++ t)) → o.encoder = some (ascii "integer") → (∀ c ∈ sp, c = 32 ∨ (9 ≤ c.toNat ∧ c.toNat ≤ 13)) →
      (sg = [] ∨ sg = [43] ∨ sg = [45]) →
      (∀ c r, t = c :: r → ¬ (c = 32 ∨ (9 ≤ c.toNat ∧ c.toNat ≤ 13)) ∧ (sg = [] → c ≠ 43 ∧ c ≠ 45) ∧ (c.toNat < 48 ∨ 57 < c.toNat)) →
      addMetaCmd H p.file o = .ret (.failed, p.file)) := by
  have i := run_inv H hH S hS ops p0 p h0 hr
  have hcmd := addMetaCmd_open i o
  refine ⟨?_, ?_, ?_, ?_, ?_, ?_⟩
  · intro s hs hl
    rw [hs] at hcmd
    rw [hcmd]
    unfold addInput
    simp only
    rw [if_pos (by omega)]
  · rintro (hs | hs)
    · rw [hcmd, hs]; rfl
    · rw [hcmd, hs]; rfl
  · intro s enc hs he hn
    obtain ⟨input, e1, e2⟩ := says_input hs
    rw [hcmd, e1, he]
    simp only
    unfold addEncode
    simp only
    simp only [List.map_cons, List.map_nil, List.mem_cons, List.not_mem_nil, or_false, not_or] at hn
    rw [if_neg hn.1, if_neg hn.2.1, if_neg hn.2.2]
  · intro s hs he hn
    obtain ⟨input, e1, e2⟩ := says_input hs
    rw [hcmd, e1, he]
    simp only
    unfold addEncode
    simp only [if_true]
    rw [e2]
    simp only
    rw [(C19_uuid_parse_rejects s).2 hn]
  · intro s v hs he hv hn
    obtain ⟨input, e1, e2⟩ := says_input hs
    rw [hcmd, e1, he]
    simp only
    unfold addEncode
    simp only
    rw [if_neg (show ¬ ascii "integer" = ascii "uuid" by decide +kernel), if_pos True.intro, e2]
    simp only
    rw [strtolChecked_integer hv, if_neg hn]
  · intro sp sg t hs he hsp hsg ht
    obtain ⟨input, e1, e2⟩ := says_input hs
    rw [hcmd, e1, he]
    simp only
    unfold addEncode
    simp only
    rw [if_neg (show ¬ ascii "integer" = ascii "uuid" by decide +kernel), if_pos True.intro, e2]
    simp only
    rw [strtolChecked_refused sp sg t (fun c hc => by unfold isSpaceC; exact decide_eq_true (hsp c hc)) hsg
      (fun c r hcr => ⟨by unfold isSpaceC; exact decide_eq_false (ht c r hcr).1, (ht c r hcr).2⟩)]

/-- C78 fails as "the content of the file is stored or the command fails": of a longer file the first 1920 bytes are stored, and the
command reports success; and with an encoder a file of 1920 bytes or more, none of them NUL, is read past the end of the buffer. -/
theorem C78_long_file_is_false (c : Bytes) (hc : 1920 < c.length) : ∃ p s p' s', Made p s ∧ Made p' s' ∧
    addMetaCmd exHash p.file { name := ascii "a", source := .file (some c) } = .ret (.ok, p'.file) ∧
    entries p'.hdr = [⟨bpakId (ascii "a"), 0, c.take 1920⟩] ∧ c.take 1920 ≠ c ∧
    (0 ∉ c → addMetaCmd exHash p.file { name := ascii "a", source := .file (some c), encoder := some (ascii "id") } = .ub) := by
  obtain ⟨p0, e0, -, -, -, hm, -⟩ := C56_open_new exHash exHash_len
  have he : entries p0.hdr = [] := by unfold entries; rw [hm]; rfl
  have hr : pkgRun exHash exScheme p0 [] = some p0 := rfl
  have hl : (c.take 1920).length = 1920 := by rw [List.length_take]; omega
  have i := run_inv exHash exHash_len exScheme exScheme_ok [] p0 p0 e0 hr
  have hadd := C78_add_meta exHash exHash_len exScheme exScheme_ok [] p0 p0 e0 hr
    { name := ascii "a", source := .file (some (c.take 1920)) } (c.take 1920) (.file _ (by intro h; rw [h] at hl; simp at hl) (by omega)) (show bpakId (ascii "a") ≠ 0 by decide +kernel) 0 rfl
  rw [if_neg (by rw [he]; simp), if_neg (by rw [he]; simp; omega)] at hadd
  obtain ⟨p', ops', h1, h2, h3, -, -⟩ := hadd
  have mk : ∀ {ops p}, pkgRun exHash exScheme p0 ops = some p → ∃ s, Made p s := fun {ops p} h => ⟨_, ops, by rw [e0]; exact h, rfl⟩
  obtain ⟨s, ms⟩ := mk hr
  obtain ⟨s', ms'⟩ := mk h2
  refine ⟨p0, s, p', s', ms, ms', ?_, by rw [h3, he]; rfl, by intro h; rw [h] at hl; omega, ?_⟩
  · rw [← h1, addMetaCmd_open i, addMetaCmd_open i]
    have : addInput (.file (some c)) = addInput (.file (some (c.take 1920))) := by
      unfold addInput
      simp only
      rw [if_neg (by omega), if_neg (by omega), List.take_take]; rfl
    rw [this]
  · intro hz
    rw [addMetaCmd_open i]
    have : addInput (.file (some c)) = .ok (c.take 1920) := by
      unfold addInput
      simp only
      rw [if_neg (by omega)]
    simp only
    rw [this]
    simp only
    have hcs : cString (c.take 1920) = none := by
      unfold cString
      rw [if_neg]
      rintro (h | h)
      · omega
      · exact hz (List.mem_of_mem_take h)
    unfold addEncode
    simp only
    rw [if_neg (show ¬ ascii "id" = ascii "uuid" by decide +kernel), if_neg (show ¬ ascii "id" = ascii "integer" by decide +kernel), if_pos True.intro, hcs]

end Bpak
