import Verif.Model.Keystore
import Verif.Spec.Keystore
import Verif.Props.PkgTree
import Verif.Props.PkgHistory
/-! Properties C71, C72: keys from a keystore package. -/
namespace Bpak

theorem loadKeyBytes_ok {f : Bytes} {off n : Nat} {keyid : U32} {parse : Bytes → Except Err Key} {k : Key} {e : Err}
    (h : loadKeyBytes f off n keyid parse = .ret (e, some k)) :
    e = .ok ∧ (fileRead f off n).length = n ∧ n ≤ 512 ∧ ∃ k0, parse (fileRead f off n) = .ok k0 ∧ k = { k0 with id := keyid } := by
  unfold loadKeyBytes at h
  repeat' split at h
  all_goals first | (cases h; done) | skip
  rename_i h1 h2 h3 k0 hk
  cases h
  exact ⟨rfl, by omega, by omega, k0, hk, rfl⟩

theorem readOnly_ok {H : HashFn} {f : Bytes} (h : (pkgOpen H false f).1 = .ok) :
    4096 ≤ f.length ∧ (pkgOpen H false f).2.hdr = parseHeader (f.take 4096) ∧ validHeader (parseHeader (f.take 4096)) = .ok := by
  unfold pkgOpen at h ⊢
  by_cases hl : 4096 ≤ f.length
  · rw [if_pos hl] at h ⊢
    exact ⟨hl, rfl, h⟩
  · rw [if_neg hl] at h
    split at h
    · simp at h
    · rename_i hne _
      exact (hne h).elim

theorem loadKeyFromPkg_ok {hd : Header} {f : Bytes} {ksid keyid : U32} {parse : Bytes → Except Err Key} {e : Err} {k : Key}
    (h : loadKeyFromPkg hd f ksid keyid parse = .ret (e, some k)) :
    e = .ok ∧ (∃ m ∈ hd.metas, m.id = 0xfb367d9a ∧ m.partRef = 0 ∧ ∃ b, readAt hd.metadata m.offset.toNat 4 = some b ∧ ofLe32 b = ksid) ∧
      ∃ q ∈ hd.parts, q.id = keyid ∧ (partSizeWoPad q).toNat ≤ 512 ∧ ∃ k0,
        (fileRead f (partOffset hd q).toNat (partSizeWoPad q).toNat).length = (partSizeWoPad q).toNat ∧
        parse (fileRead f (partOffset hd q).toNat (partSizeWoPad q).toNat) = .ok k0 ∧ k = { k0 with id := keyid } := by
  unfold loadKeyFromPkg at h
  cases h1 : getMeta hd idProvider 0 with
  | none => rw [h1] at h; cases h
  | some i =>
  rw [h1] at h; simp only at h
  obtain ⟨⟨m, hm, e1, e2⟩, -⟩ := (C03_get_meta_is_first_match hd idProvider 0 i).1 h1
  rw [hm] at h; simp only at h
  cases h2 : readAt hd.metadata m.offset.toNat 4 with
  | none => rw [h2] at h; cases h
  | some b =>
  rw [h2] at h; simp only at h
  split at h
  · cases h
  rename_i hks
  cases h3 : getPart hd keyid with
  | none => rw [h3] at h; cases h
  | some j =>
  rw [h3] at h; simp only at h
  obtain ⟨⟨q, hq, e3⟩, -⟩ := (C10_get_part_is_first_match hd keyid j).1 h3
  rw [hq] at h; simp only at h
  obtain ⟨a, b1, b2, k0, b3, b4⟩ := loadKeyBytes_ok h
  exact ⟨a, ⟨m, List.mem_of_getElem? hm, e1, e2, b, h2, Classical.not_not.1 hks⟩, q, List.mem_of_getElem? hq, e3, b2, k0, b1, b3, b4⟩

/-- C71: a key that comes out of any file at all belongs to a part of the asked id in a package with a valid header,
which passed the caller's check and whose keystore provider entry says the asked keystore; it is what the parser makes of
exactly that part's stored bytes, and carries the asked id. -/
theorem C71_load_sound (H : HashFn) (f : Bytes) (ksid keyid : U32) (check : Option (Header → Err)) (parse : Bytes → Except Err Key) (e : Err) (k : Key)
    (h : loadKeyFromFile H f ksid keyid check parse = .ret (e, some k)) :
    e = .ok ∧ 4096 ≤ f.length ∧ ∃ hd, hd = parseHeader (f.take 4096) ∧ validHeader hd = .ok ∧ (∀ c, check = some c → c hd = .ok) ∧
      (∃ m ∈ hd.metas, m.id = 0xfb367d9a ∧ m.partRef = 0 ∧ ∃ b, readAt hd.metadata m.offset.toNat 4 = some b ∧ ofLe32 b = ksid) ∧
      ∃ q ∈ hd.parts, q.id = keyid ∧ (partSizeWoPad q).toNat ≤ 512 ∧ ∃ k0,
        (fileRead f (partOffset hd q).toNat (partSizeWoPad q).toNat).length = (partSizeWoPad q).toNat ∧
        parse (fileRead f (partOffset hd q).toNat (partSizeWoPad q).toNat) = .ok k0 ∧ k = { k0 with id := keyid } := by
  unfold loadKeyFromFile at h
  split at h
  · cases h
  · rename_i ho
    obtain ⟨h1, h2, h3⟩ := readOnly_ok (Classical.not_not.1 ho)
    rw [h2] at h
    split at h
    · obtain ⟨a, b, c⟩ := loadKeyFromPkg_ok h
      exact ⟨a, h1, _, rfl, h3, (fun c e => by cases e), b, c⟩
    · rename_i chk
      split at h
      · cases h
      · rename_i hc
        obtain ⟨a, b, c⟩ := loadKeyFromPkg_ok h
        exact ⟨a, h1, _, rfl, h3, (fun c e => by cases e; exact Classical.not_not.1 hc), b, c⟩

/-- Where the bytes of a file lie, and that they are read back. -/
theorem read_stored {H : HashFn} {p : Pkg} {s : List (U32 × Bytes)} (i : PkgInv H p s) (q : PartHdr) (hq : q ∈ usedParts p.hdr) :
    (partOffset p.hdr q).toNat < 2^63 ∧ fileRead p.file (partOffset p.hdr q).toNat (partSizeWoPad q).toNat = (storedBytes p q).take q.size.toNat ∧
    (partSizeWoPad q).toNat = q.size.toNat ∧ ((storedBytes p q).take q.size.toNat).length = q.size.toNat := by
  have g := i.good
  obtain ⟨-, hl⟩ := C35_extract_file p g i.small q hq
  obtain ⟨pre, post, hu⟩ := List.append_of_mem hq
  have hx := g.exact
  have hs := i.small
  have t : TidyParts p.hdr := g.parts.tidy (by omega)
  obtain ⟨e3, _⟩ := tidy_offset p.hdr t pre post q hu
  rw [hu] at hx
  simp only [List.map_append, List.map_cons, List.sum_append, List.sum_cons] at hx
  have hst : storedSize q = q.size.toNat + q.padBytes.toNat := by
    unfold storedSize; rw [if_neg (by simpa using g.plain q hq)]
  have hwo : partSizeWoPad q = q.size := by
    unfold partSizeWoPad PartHdr.isTransport
    have := g.plain q hq
    rw [if_neg]
    intro hc
    have hc' := (isTransport_iff q).1 hc
    exact hc' this
  refine ⟨by omega, ?_, by rw [hwo], hl⟩
  rw [hwo]
  unfold storedBytes fileRead
  rw [List.take_take, hst, Nat.min_eq_left (by omega)]

theorem loadKeyFromPkg_exact {H : HashFn} {p : Pkg} {s : List (U32 × Bytes)} (i : PkgInv H p s) (ksid keyid : U32) (hk : keyid ≠ 0)
    (hprov : ∀ e ∈ entries p.hdr, e.id = 0xfb367d9a → e.ref = 0 → 4 ≤ e.data.length) (parse : Bytes → Except Err Key) :
    ((∀ d, (keyid, d) ∈ s → d.length ≤ 512) → loadKeyFromPkg p.hdr p.file ksid keyid parse = .ret (keystoreAnswer (entries p.hdr) s ksid keyid parse)) ∧
    (∀ d e, (keyid, d) ∈ s → 512 < d.length → e ∈ entries p.hdr → e.id = 0xfb367d9a → e.ref = 0 → ofLe32 (e.data.take 4) = ksid →
      loadKeyFromPkg p.hdr p.file ksid keyid parse = .ub) := by
  have g := i.good
  have gm := i.metas
  have im := gm.inv g.wf
  have ip := g.parts.inv g.wf
  have hfind : (entries p.hdr).find? (fun e => e.id = 0xfb367d9a ∧ e.ref = 0) =
      ((usedMetas p.hdr).find? (fun m => m.id = 0xfb367d9a ∧ m.partRef = 0)).map (fun m => ⟨m.id, m.partRef, metaContent p.hdr m⟩) := by
    unfold entries; rw [List.find?_map]; rfl
  have hfs : s.find? (fun c => c.1 = keyid) = ((usedParts p.hdr).find? (fun q => q.id = keyid)).map (fun q => (q.id, (storedBytes p q).take q.size.toNat)) := by
    rw [← i.files]; unfold files; rw [List.find?_map]; rfl
  cases hm : (usedMetas p.hdr).find? (fun m => m.id = 0xfb367d9a ∧ m.partRef = 0) with
  | none =>
    have hno : ∀ m ∈ usedMetas p.hdr, ¬ (m.id = 0xfb367d9a ∧ m.partRef = 0) := by
      intro m h1 h2
      have := List.find?_eq_none.1 hm m h1
      exact this (by simpa using h2)
    have hg : getMeta p.hdr idProvider 0 = none := by
      rw [C03_get_meta_not_found]
      intro m h1 h2
      rw [im.slots] at h1
      rcases List.mem_append.1 h1 with h1 | h1
      · exact hno m h1 h2
      · rw [(List.mem_replicate.1 h1).2] at h2
        exact absurd h2.1 (by decide)
    refine ⟨fun _ => ?_, ?_⟩
    · unfold loadKeyFromPkg keystoreAnswer
      rw [hg, hfind, hm]; rfl
    · intro d e _ _ he h1 h2 _
      obtain ⟨m, hm1, hm2⟩ := List.mem_map.1 he
      rw [← hm2] at h1 h2
      exact absurd ⟨h1, h2⟩ (hno m hm1)
  | some m =>
    obtain ⟨hp, pre, post, hu, hpre⟩ := List.find?_eq_some_iff_append.1 hm
    have hp : m.id = 0xfb367d9a ∧ m.partRef = 0 := by simpa using hp
    have hmm : m ∈ usedMetas p.hdr := by rw [hu]; simp
    obtain ⟨g1, g2⟩ := getMeta_used im pre post m hu
    rw [hp.1, hp.2] at g1
    have hfit := (im.packed.ge m hmm).2
    have hml : (metaContent p.hdr m).length = m.size.toNat := by
      unfold metaContent; rw [List.length_take, List.length_drop, im.md]; omega
    have h4 : 4 ≤ m.size.toNat := by
      have := hprov ⟨m.id, m.partRef, metaContent p.hdr m⟩ (List.mem_map.2 ⟨m, hmm, rfl⟩) hp.1 hp.2
      simp only [hml] at this; exact this
    have hrd : readAt p.hdr.metadata m.offset.toNat 4 = some ((metaContent p.hdr m).take 4) := by
      rw [readAt_eq_some (by rw [im.md]; omega)]
      unfold metaContent
      rw [List.take_take, Nat.min_eq_left h4]
    have step1 : loadKeyFromPkg p.hdr p.file ksid keyid parse =
        if ofLe32 ((metaContent p.hdr m).take 4) ≠ ksid then .ret (.keystoreIdMismatch, none)
        else match getPart p.hdr keyid with
          | none => .ret (.notFound, none)
          | some j => match p.hdr.parts[j]? with
            | none => .ub
            | some q => loadKeyBytes p.file (partOffset p.hdr q).toNat (partSizeWoPad q).toNat keyid parse := by
      unfold loadKeyFromPkg
      rw [show getMeta p.hdr idProvider 0 = some pre.length from g1]
      simp only [g2, hrd]
      rfl
    have step2 : keystoreAnswer (entries p.hdr) s ksid keyid parse =
        if ofLe32 ((metaContent p.hdr m).take 4) ≠ ksid then (.keystoreIdMismatch, none)
        else match s.find? (fun c => c.1 = keyid) with
          | none => (.notFound, none)
          | some c => match parse c.2 with
            | .error e => (e, none)
            | .ok k => (.ok, some ⟨keyid, k.kind, k.data⟩) := by
      unfold keystoreAnswer
      rw [hfind, hm]; rfl
    rw [step1, step2]
    have only : ∀ e ∈ entries p.hdr, e.id = 0xfb367d9a → e.ref = 0 → e.data = metaContent p.hdr m := by
      intro e he h1 h2
      obtain ⟨x, hx1, hx2⟩ := List.mem_map.1 he
      have : getMeta p.hdr x.id x.partRef = getMeta p.hdr m.id m.partRef := by
        rw [← hx2] at h1 h2
        rw [show x.id = 0xfb367d9a from h1, show x.partRef = 0 from h2, hp.1, hp.2]
      obtain ⟨pre', post', hu'⟩ := List.append_of_mem hx1
      obtain ⟨a1, a2⟩ := getMeta_used im pre' post' x hu'
      obtain ⟨b1, b2⟩ := getMeta_used im pre post m hu
      rw [a1, b1] at this
      rw [Option.some.inj this, b2] at a2
      rw [← hx2, Option.some.inj a2]
    cases hq : (usedParts p.hdr).find? (fun q => q.id = keyid) with
    | none =>
      have hno : ∀ q ∈ usedParts p.hdr, q.id ≠ keyid := by
        intro q h1 h2
        exact List.find?_eq_none.1 hq q h1 (by simpa using h2)
      have hg : getPart p.hdr keyid = none := by
        rw [C10_get_part_not_found]
        intro q h1 h2
        rw [ip.slots] at h1
        rcases List.mem_append.1 h1 with h1 | h1
        · exact hno q h1 h2
        · rw [(List.mem_replicate.1 h1).2] at h2; exact hk h2.symm
      rw [hg, hfs, hq]
      refine ⟨fun _ => ?_, ?_⟩
      · split <;> rfl
      · intro d e hd
        rw [← i.files] at hd
        obtain ⟨q, hq1, hq2⟩ := List.mem_map.1 hd
        exact absurd (Prod.mk.inj hq2).1 (hno q hq1)
    | some q =>
      obtain ⟨hqp, pre', post', hu', _⟩ := List.find?_eq_some_iff_append.1 hq
      have hqp : q.id = keyid := by simpa using hqp
      have hqm : q ∈ usedParts p.hdr := by rw [hu']; simp
      obtain ⟨a1, a2⟩ := getPart_used ip pre' post' q hu'
      rw [hqp] at a1
      obtain ⟨r1, r2, r3, r4⟩ := read_stored i q hqm
      rw [a1, hfs, hq]
      simp only [a2, Option.map_some]
      have hmem : (keyid, (storedBytes p q).take q.size.toNat) ∈ s := by
        rw [← i.files, ← hqp]; exact List.mem_map.2 ⟨q, hqm, rfl⟩
      refine ⟨fun hsm => ?_, ?_⟩
      · have := hsm _ hmem
        split
        · rfl
        · unfold loadKeyBytes
          rw [if_neg (by omega), r2, if_neg (by omega), if_neg (by omega)]
          cases parse ((storedBytes p q).take q.size.toNat) with
          | error e => rfl
          | ok k => rfl
      · intro d e hd hl he h1 h2 h3
        rw [only e he h1 h2] at h3
        rw [if_neg (by rw [h3]; simp)]
        have hdq : d = (storedBytes p q).take q.size.toNat := by
          rw [← i.files] at hd
          obtain ⟨x, hx1, hx2⟩ := List.mem_map.1 hd
          obtain ⟨y1, y2⟩ := Prod.mk.inj hx2
          obtain ⟨pre'', post'', hu''⟩ := List.append_of_mem hx1
          obtain ⟨c1, c2⟩ := getPart_used ip pre'' post'' x hu''
          rw [y1, a1] at c1
          rw [← Option.some.inj c1, a2] at c2
          rw [← y2, Option.some.inj c2]
        unfold loadKeyBytes
        rw [if_neg (by omega), r2, ← hdq, if_pos hl]

theorem loadKeyFromFile_saved {H : HashFn} {p : Pkg} {s : List (U32 × Bytes)} (i : PkgInv H p s) (ksid keyid : U32) (check : Option (Header → Err))
    (hc : ∀ c, check = some c → c p.hdr = .ok) (parse : Bytes → Except Err Key) :
    loadKeyFromFile H p.file ksid keyid check parse = loadKeyFromPkg p.hdr p.file ksid keyid parse := by
  have hs := i.saved
  unfold loadKeyFromFile pkgOpen
  rw [if_pos hs.1, hs.2, i.valid]
  rw [if_neg (by simp)]
  cases check with
  | none => rfl
  | some c => simp only; rw [hc c rfl]; rfl

/-- C71: from a package made by any history of calls, every key put in comes out: the outcome is the one expected from
its metadata and the files put in. Missing: keys over 512 bytes, for which the buffer is overrun (`C72`). -/
theorem C71_load_exact_partial {SK PK : Type} (H : HashFn) (hH : HashLen H) (S : SigScheme SK PK) (hS : ∀ sk rnd k d, S.sign sk rnd k d ≠ .error .ok)
    (ops : List (PkgOp SK)) (p0 p : Pkg) (h0 : pkgOpen H true [] = (.ok, p0)) (hr : pkgRun H S p0 ops = some p) (ksid keyid : U32) (hk : keyid ≠ 0)
    (hprov : ∀ e ∈ entries p.hdr, e.id = 0xfb367d9a → e.ref = 0 → 4 ≤ e.data.length) (check : Option (Header → Err))
    (hc : ∀ c, check = some c → c p.hdr = .ok) (parse : Bytes → Except Err Key) (hsize : ∀ d, (keyid, d) ∈ expect [] ops → d.length ≤ 512) :
    loadKeyFromFile H p.file ksid keyid check parse = .ret (keystoreAnswer (entries p.hdr) (expect [] ops) ksid keyid parse) := by
  have i := run_inv H hH S hS ops p0 p h0 hr
  rw [loadKeyFromFile_saved i ksid keyid check hc parse]
  exact (loadKeyFromPkg_exact i ksid keyid hk hprov parse).1 hsize

/-- C72, the flaw: from a package made by any history of calls, loading a key of more than 512 bytes (an RSA key of 4096
bits has 550) writes past the end of the buffer. -/
theorem C72_in_bounds_is_false {SK PK : Type} (H : HashFn) (hH : HashLen H) (S : SigScheme SK PK) (hS : ∀ sk rnd k d, S.sign sk rnd k d ≠ .error .ok)
    (ops : List (PkgOp SK)) (p0 p : Pkg) (h0 : pkgOpen H true [] = (.ok, p0)) (hr : pkgRun H S p0 ops = some p) (ksid keyid : U32) (hk : keyid ≠ 0)
    (e : Entry) (he : e ∈ entries p.hdr) (h1 : e.id = 0xfb367d9a) (h2 : e.ref = 0) (h3 : 4 ≤ e.data.length) (h4 : ofLe32 (e.data.take 4) = ksid)
    (check : Option (Header → Err)) (hc : ∀ c, check = some c → c p.hdr = .ok) (parse : Bytes → Except Err Key)
    (d : Bytes) (hd : (keyid, d) ∈ expect [] ops) (hl : 512 < d.length) : loadKeyFromFile H p.file ksid keyid check parse = .ub := by
  have i := run_inv H hH S hS ops p0 p h0 hr
  rw [loadKeyFromFile_saved i ksid keyid check hc parse]
  refine (loadKeyFromPkg_exact i ksid keyid hk ?_ parse).2 d e hd hl he h1 h2 h4
  intro x hx a b
  have im := i.metas.inv i.good.wf
  obtain ⟨m, hm, em⟩ := List.mem_map.1 he
  obtain ⟨y, hy, ey⟩ := List.mem_map.1 hx
  obtain ⟨pre, post, hu⟩ := List.append_of_mem hm
  obtain ⟨pre', post', hu'⟩ := List.append_of_mem hy
  obtain ⟨a1, a2⟩ := getMeta_used im pre post m hu
  obtain ⟨b1, b2⟩ := getMeta_used im pre' post' y hu'
  rw [← em] at h1 h2
  rw [← ey] at a b
  rw [show m.id = 0xfb367d9a from h1, show m.partRef = 0 from h2] at a1
  rw [show y.id = 0xfb367d9a from a, show y.partRef = 0 from b] at b1
  rw [a1] at b1
  rw [Option.some.inj b1, b2] at a2
  rw [← ey, Option.some.inj a2]
  rw [← em] at h3
  exact h3

/-- C72, what holds: of any file whatever, no key is read outside the buffer and no metadata outside its area, if no part is
longer than 512 bytes and the slots with the provider's id designate four bytes inside the area. Missing: longer parts, for which
it is false. -/
theorem C72_in_bounds_partial (H : HashFn) (f : Bytes) (ksid keyid : U32) (check : Option (Header → Err)) (parse : Bytes → Except Err Key)
    (hparts : ∀ q ∈ (parseHeader (f.take 4096)).parts, (partSizeWoPad q).toNat ≤ 512)
    (hmetas : ∀ m ∈ (parseHeader (f.take 4096)).metas, m.id = 0xfb367d9a → m.offset.toNat + 4 ≤ (parseHeader (f.take 4096)).metadata.length) :
    ∃ r, loadKeyFromFile H f ksid keyid check parse = .ret r := by
  have main : (pkgOpen H false f).1 = .ok → ∃ r, loadKeyFromPkg (pkgOpen H false f).2.hdr f ksid keyid parse = .ret r := by
    intro ho
    obtain ⟨_, e, _⟩ := readOnly_ok ho
    rw [e]
    unfold loadKeyFromPkg
    cases h1 : getMeta (parseHeader (f.take 4096)) idProvider 0 with
    | none => exact ⟨_, rfl⟩
    | some i =>
    obtain ⟨⟨m, hm, e1, e2⟩, -⟩ := (C03_get_meta_is_first_match _ idProvider 0 i).1 h1
    have := hmetas m (List.mem_of_getElem? hm) e1
    simp only [hm, readAt_eq_some this]
    split
    · exact ⟨_, rfl⟩
    cases h3 : getPart (parseHeader (f.take 4096)) keyid with
    | none => exact ⟨_, rfl⟩
    | some j =>
    obtain ⟨⟨q, hq, e3⟩, -⟩ := (C10_get_part_is_first_match _ keyid j).1 h3
    simp only [hq]
    have := hparts q (List.mem_of_getElem? hq)
    unfold loadKeyBytes
    have hle : ∀ o n, (fileRead f o n).length ≤ n := by
      intro o n; unfold fileRead; rw [List.length_take]; omega
    have := hle (partOffset (parseHeader (f.take 4096)) q).toNat (partSizeWoPad q).toNat
    split
    · exact ⟨_, rfl⟩
    rw [if_neg (by omega)]
    split
    · exact ⟨_, rfl⟩
    split <;> exact ⟨_, rfl⟩
  unfold loadKeyFromFile
  split
  · exact ⟨_, rfl⟩
  · rename_i ho
    have := main (Classical.not_not.1 ho)
    split
    · exact this
    · split
      · exact ⟨_, rfl⟩
      · exact this

/-! ### C73 -/

theorem loadKeyFromPkg_other {hd : Header} {f : Bytes} {ksid keyid : U32} {parse : Bytes → Except Err Key} {e : Err} {k : Key}
    (h : loadKeyFromPkg hd f ksid keyid parse = .ret (e, some k)) :
    ∃ j q, getPart hd keyid = some j ∧ hd.parts[j]? = some q ∧
      ∀ f', loadKeyFromPkg hd f' ksid keyid parse = loadKeyBytes f' (partOffset hd q).toNat (partSizeWoPad q).toNat keyid parse := by
  unfold loadKeyFromPkg at h ⊢
  cases h1 : getMeta hd idProvider 0 with
  | none => rw [h1] at h; cases h
  | some i =>
  rw [h1] at h; simp only at h
  obtain ⟨⟨m, hm, e1, e2⟩, -⟩ := (C03_get_meta_is_first_match hd idProvider 0 i).1 h1
  rw [hm] at h; simp only at h
  cases h2 : readAt hd.metadata m.offset.toNat 4 with
  | none => rw [h2] at h; cases h
  | some b =>
  rw [h2] at h; simp only at h
  split at h
  · cases h
  rename_i hks
  cases h3 : getPart hd keyid with
  | none => rw [h3] at h; cases h
  | some j =>
  obtain ⟨⟨q, hq, e3⟩, -⟩ := (C10_get_part_is_first_match hd keyid j).1 h3
  refine ⟨j, q, rfl, hq, ?_⟩
  intro f'
  simp only [hm, h2, hq]
  rw [if_neg hks]

theorem loadKeyFromFile_eq {H : HashFn} {f : Bytes} (hl : 4096 ≤ f.length) (hv : validHeader (parseHeader (f.take 4096)) = .ok) (ksid keyid : U32)
    (check : Option (Header → Err)) (hc : ∀ c, check = some c → c (parseHeader (f.take 4096)) = .ok) (parse : Bytes → Except Err Key) :
    loadKeyFromFile H f ksid keyid check parse = loadKeyFromPkg (parseHeader (f.take 4096)) f ksid keyid parse := by
  unfold loadKeyFromFile pkgOpen
  rw [if_pos hl, hv, if_neg (by simp)]
  cases check with
  | none => rfl
  | some c => simp only; rw [hc c rfl]; rfl

/-- C73, the flaw: the payload of a keystore is not verified. Whatever key comes out of a keystore that a history of calls
made (signed or not), overwriting that part's bytes with any others of the same number, which changes nothing in the header
with its hash and signature, makes the call hand out what the parser makes of the other bytes. -/
theorem C73_integrity_is_false {SK PK : Type} (H : HashFn) (hH : HashLen H) (S : SigScheme SK PK) (hS : ∀ sk rnd k d, S.sign sk rnd k d ≠ .error .ok)
    (ops : List (PkgOp SK)) (p0 p : Pkg) (h0 : pkgOpen H true [] = (.ok, p0)) (hr : pkgRun H S p0 ops = some p) (ksid keyid : U32) (hk : keyid ≠ 0)
    (check : Option (Header → Err)) (parse : Bytes → Except Err Key) (k : Key)
    (hload : loadKeyFromFile H p.file ksid keyid check parse = .ret (.ok, some k)) :
    ∃ d, (keyid, d) ∈ expect [] ops ∧ ∀ d', d'.length = d.length → ∃ f', f'.length = p.file.length ∧ f'.take 4096 = p.file.take 4096 ∧
      loadKeyFromFile H f' ksid keyid check parse = .ret (match parse d' with | .ok k' => (.ok, some ⟨keyid, k'.kind, k'.data⟩) | .error e => (e, none)) := by
  have i := run_inv H hH S hS ops p0 p h0 hr
  have hsv := i.saved
  obtain ⟨-, -, hd, e0, hv, hchk, -, -⟩ := C71_load_sound H p.file ksid keyid check parse _ k hload
  rw [hsv.2] at e0
  subst e0
  rw [loadKeyFromFile_saved i ksid keyid check hchk parse] at hload
  obtain ⟨j, q, hj, hq, hall⟩ := loadKeyFromPkg_other hload
  have g := i.good
  have ip := g.parts.inv g.wf
  obtain ⟨pre, m, post, hu, _, e1, e2⟩ := getPart_split ip hk hj
  rw [hq] at e2
  have e2 := Option.some.inj e2
  subst e2
  have hqm : q ∈ usedParts p.hdr := by rw [hu]; simp
  obtain ⟨r1, r2, r3, r4⟩ := read_stored i q hqm
  have hx := g.exact
  have hs := i.small
  have t : TidyParts p.hdr := g.parts.tidy (by omega)
  obtain ⟨e3, _⟩ := tidy_offset p.hdr t pre post q hu
  have hst : storedSize q = q.size.toNat + q.padBytes.toNat := by
    unfold storedSize; rw [if_neg (by simpa using g.plain q hqm)]
  have hx' := hx
  rw [hu] at hx'
  simp only [List.map_append, List.map_cons, List.sum_append, List.sum_cons] at hx'
  refine ⟨(storedBytes p q).take q.size.toNat, ?_, ?_⟩
  · rw [← i.files, ← e1]; exact List.mem_map.2 ⟨q, hqm, rfl⟩
  · intro d' hd'
    rw [r4] at hd'
    have hin : (partOffset p.hdr q).toNat + d'.length ≤ p.file.length := by omega
    have hfw := fileWrite_inner p.file (partOffset p.hdr q).toNat d' hin
    have hlen : (fileWrite p.file (partOffset p.hdr q).toNat d').length = p.file.length := by
      rw [hfw]; simp; omega
    have htake : (fileWrite p.file (partOffset p.hdr q).toNat d').take 4096 = p.file.take 4096 := by
      rw [hfw, List.append_assoc, List.take_append_of_le_length (by rw [List.length_take]; omega), List.take_take, Nat.min_eq_left (by omega)]
    refine ⟨_, hlen, htake, ?_⟩
    have hn : (partSizeWoPad q).toNat = d'.length := by rw [r3, hd']
    have hsz : d'.length ≤ 512 := by
      have := hall p.file
      rw [hload] at this
      have := (loadKeyBytes_ok this.symm).2.2.1
      omega
    rw [loadKeyFromFile_eq (by rw [hlen]; exact hsv.1) (by rw [htake, hsv.2]; exact hv) ksid keyid check (by rw [htake, hsv.2]; exact hchk) parse, htake, hsv.2, hall]
    unfold loadKeyBytes
    rw [if_neg (by omega), hn, fileRead_fileWrite, if_neg (by omega), if_neg (by omega)]
    cases parse d' <;> rfl

/-- C73, what holds: for two files with the same header whose payloads both pass verification, the same key comes out of
both, unless the hash has a collision. Missing: the function does not verify; the caller has to. -/
theorem C73_verified_integrity_partial (H : HashFn) (hH : HashLen H) (P Q : Bytes) (hP : P.length < 2^63) (hQ : Q.length < 2^63)
    (lP : 4096 ≤ P.length) (lQ : 4096 ≤ Q.length) (hsame : Q.take 4096 = P.take 4096) (t : TidyParts (parseHeader (P.take 4096)))
    (vP : verifyPayload H (parseHeader (P.take 4096)) (payloadReader P) 4096 = .ret .ok)
    (vQ : verifyPayload H (parseHeader (P.take 4096)) (payloadReader Q) 4096 = .ret .ok)
    (ksid keyid : U32) (hk : keyid ≠ 0) (hex : ∀ q ∈ usedParts (parseHeader (P.take 4096)), q.id = keyid → q.excluded = false)
    (check : Option (Header → Err)) (parse : Bytes → Except Err Key) :
    loadKeyFromFile H Q ksid keyid check parse = loadKeyFromFile H P ksid keyid check parse ∨
    ∃ x y : Bytes, x ≠ y ∧ H (parseHeader (P.take 4096)).hashKind x = H (parseHeader (P.take 4096)).hashKind y := by
  rcases C32_hashed_change_detected H hH _ t P Q hP hQ vP vQ with hread | hcol
  · left
    have hopen : ∀ F : Bytes, 4096 ≤ F.length → F.take 4096 = P.take 4096 →
        (pkgOpen H false F).1 = validHeader (parseHeader (P.take 4096)) ∧ (pkgOpen H false F).2.hdr = parseHeader (P.take 4096) := by
      intro F h1 h2
      unfold pkgOpen
      rw [if_pos h1, h2]
      exact ⟨rfl, rfl⟩
    obtain ⟨p1, p2⟩ := hopen P lP rfl
    obtain ⟨q1, q2⟩ := hopen Q lQ hsame
    have hpk : loadKeyFromPkg (parseHeader (P.take 4096)) Q ksid keyid parse = loadKeyFromPkg (parseHeader (P.take 4096)) P ksid keyid parse := by
      unfold loadKeyFromPkg
      cases h1 : getMeta (parseHeader (P.take 4096)) idProvider 0 with
      | none => rfl
      | some i =>
      obtain ⟨⟨m, hm, e1, e2⟩, -⟩ := (C03_get_meta_is_first_match _ idProvider 0 i).1 h1
      simp only [hm]
      cases h2 : readAt (parseHeader (P.take 4096)).metadata m.offset.toNat 4 with
      | none => rfl
      | some b =>
      simp only
      split
      · rfl
      cases h3 : getPart (parseHeader (P.take 4096)) keyid with
      | none => rfl
      | some j =>
      obtain ⟨⟨q, hq, e3⟩, -⟩ := (C10_get_part_is_first_match _ keyid j).1 h3
      simp only [hq]
      have hqm : q ∈ usedParts (parseHeader (P.take 4096)) := by
        have := List.mem_of_getElem? hq
        rw [used_append] at this
        rcases List.mem_append.1 this with h | h
        · exact h
        · rw [← e3] at hk; exact absurd (t.compact q h) hk
      have := hread q hqm (hex q hqm e3)
      have hle : (partSizeWoPad q).toNat ≤ storedSize q := by
        unfold partSizeWoPad storedSize
        by_cases ht : q.isTransport = true
        · rw [if_pos ht, if_pos ((isTransport_iff q).1 ht)]; omega
        · rw [if_neg ht, if_neg (fun x => ht ((isTransport_iff q).2 x))]; omega
      have hr : fileRead Q (partOffset (parseHeader (P.take 4096)) q).toNat (partSizeWoPad q).toNat =
          fileRead P (partOffset (parseHeader (P.take 4096)) q).toNat (partSizeWoPad q).toNat := by
        have := congrArg (List.take (partSizeWoPad q).toNat) this
        unfold fileRead at this ⊢
        rw [List.take_take, List.take_take, Nat.min_eq_left hle] at this
        exact this.symm
      unfold loadKeyBytes
      rw [hr]
    unfold loadKeyFromFile
    rw [p1, p2, q1, q2, hpk]
  · exact Or.inr hcol

/-- A keystore with two keys, one of 600 bytes. -/
def exKeystore : List (PkgOp Unit) :=
  [.header (.addMeta 0xfb367d9a 0 4), .header (.writeMeta 0xfb367d9a 0 [0x11, 0x22, 0x33, 0x44]), .addFile 7 0 [1, 2, 3], .addFile 8 0 (List.replicate 600 5)]

/-- The hypotheses of C71, C72 and C73 are met: the small key comes out, the long one does not fit. -/
example : ∃ p, pkgRun exHash exScheme (pkgOpen exHash true []).2 exKeystore = some p ∧
    (⟨0xfb367d9a, 0, [0x11, 0x22, 0x33, 0x44]⟩ : Entry) ∈ entries p.hdr ∧
    loadKeyFromFile exHash p.file 0x44332211 7 none (fun d => .ok ⟨0, 1, d⟩) = .ret (.ok, some ⟨7, 1, [1, 2, 3]⟩) ∧
    loadKeyFromFile exHash p.file 0x44332212 7 none (fun d => .ok ⟨0, 1, d⟩) = .ret (.keystoreIdMismatch, none) ∧
    loadKeyFromFile exHash p.file 0x44332211 9 none (fun d => .ok ⟨0, 1, d⟩) = .ret (.notFound, none) ∧
    loadKeyFromFile exHash p.file 0x44332211 8 none (fun d => .ok ⟨0, 1, d⟩) = .ub := by
  obtain ⟨q, e, _⟩ := C56_open_new exHash exHash_len
  have hrun : (pkgRun exHash exScheme (pkgOpen exHash true []).2 exKeystore).map (fun p => entries p.hdr) =
      some [⟨0xfb367d9a, 0, [0x11, 0x22, 0x33, 0x44]⟩] := by decide +kernel
  cases hr : pkgRun exHash exScheme (pkgOpen exHash true []).2 exKeystore with
  | none => rw [hr] at hrun; cases hrun
  | some p =>
    rw [hr] at hrun
    have hen : entries p.hdr = [⟨0xfb367d9a, 0, [0x11, 0x22, 0x33, 0x44]⟩] := Option.some.inj hrun
    have h0 : pkgOpen exHash true [] = (.ok, (pkgOpen exHash true []).2) := by rw [e]
    have hS : ∀ (sk : Unit) rnd k d, exScheme.sign sk rnd k d ≠ .error .ok := by intro _ _ _ _ h; cases h
    have hprov : ∀ e ∈ entries p.hdr, e.id = 0xfb367d9a → e.ref = 0 → 4 ≤ e.data.length := by
      rw [hen]; intro e he _ _; rw [List.mem_singleton.1 he]; decide
    have hexp : expect [] exKeystore = [(7, [1, 2, 3]), (8, List.replicate 600 5)] := rfl
    have small : ∀ ksid keyid, keyid ≠ 0 → keyid ≠ 8 → loadKeyFromFile exHash p.file ksid keyid none (fun d => .ok ⟨0, 1, d⟩) =
        .ret (keystoreAnswer (entries p.hdr) (expect [] exKeystore) ksid keyid (fun d => .ok ⟨0, 1, d⟩)) := by
      intro ksid keyid h1 h8
      refine C71_load_exact_partial exHash exHash_len exScheme hS exKeystore _ p h0 hr ksid keyid h1 hprov none (fun c e => by cases e) _ ?_
      intro d hd
      rw [hexp] at hd
      rcases List.mem_cons.1 hd with h | h
      · rw [(Prod.mk.inj h).2]; decide
      · rw [List.mem_singleton] at h; exact absurd (Prod.mk.inj h).1 h8
    refine ⟨p, rfl, by rw [hen]; simp, ?_, ?_, ?_, ?_⟩
    · rw [small _ _ (by decide) (by decide), hen, hexp]; rfl
    · rw [small _ _ (by decide) (by decide), hen, hexp]; rfl
    · rw [small _ _ (by decide) (by decide), hen, hexp]; rfl
    · exact C72_in_bounds_is_false exHash exHash_len exScheme hS exKeystore _ p h0 hr 0x44332211 8 (by decide) ⟨0xfb367d9a, 0, [0x11, 0x22, 0x33, 0x44]⟩
        (by rw [hen]; simp) rfl rfl (by decide) (by decide) none (fun c e => by cases e) _ (List.replicate 600 5) (by rw [hexp]; exact List.mem_cons_of_mem _ List.mem_cons_self) (by rw [List.length_replicate]; omega)

end Bpak
