import Verif.Spec.Session
import Verif.Props.SignRaw
import Verif.Props.Create
import Verif.Props.ShowOne
/-! Sessions with the tool (C84). -/
namespace Bpak

theorem PkgInv.logged {H : HashFn} {p : Pkg} {s : List (U32 × Bytes)} (i : PkgInv H p s) (l : List FOp) : PkgInv H ⟨p.hdr, p.file, l⟩ s :=
  ⟨i.hdr, ⟨i.good.wf, i.good.parts, i.good.kind, i.good.plain, i.good.exact⟩, i.small, i.saved, i.hash, i.padded, i.files, i.placed⟩

/-- Another header over the old one: same parts, payload hash and kinds. -/
theorem PkgInv.newHdr {H : HashFn} {p : Pkg} {s : List (U32 × Bytes)} (i : PkgInv H p s) (h : Header) (wf : h.WF) (gm : GoodMetas h)
    (e1 : h.parts = p.hdr.parts) (e2 : h.payloadHash = p.hdr.payloadHash) (e3 : h.hashKind = p.hdr.hashKind) (e4 : h.magic = p.hdr.magic) :
    ∃ p', p'.hdr = h ∧ p'.file = fileWrite p.file 0 h.image ∧ PkgInv H p' s := by
  have hf : fileWrite p.file 0 h.image = h.image ++ p.file.drop 4096 := by rw [fileWrite_zero, image_length wf]
  obtain ⟨g1, sv1, hsb, hu, hlen⟩ := same_parts (p' := ⟨h, fileWrite p.file 0 h.image, []⟩) i.good i.small e1 wf e3 hf
  have hsm := i.small
  refine ⟨⟨h, fileWrite p.file 0 h.image, []⟩, rfl, rfl, inv_of_hdr i.hdr gm g1 ⟨e4, e3⟩, g1, by omega, sv1, ?_, by rw [hu]; exact i.padded, ?_, i.placed.same e1⟩
  · have := i.hash
    unfold HashStored at this ⊢
    rw [hu, funext hsb]
    simp only
    rw [e2, e3]
    exact this
  · have := i.files
    unfold Bpak.files at this ⊢
    rw [hu]
    simp only [hsb]
    exact this

theorem run_keeps : ∀ (os : List Op) (h h' : Header), (∀ o ∈ os, o.keepsParts = true) → Inv h → run h os = some h' →
    Inv h' ∧ h'.parts = h.parts ∧ h'.payloadHash = h.payloadHash ∧ h'.hashKind = h.hashKind := by
  intro os
  induction os with
  | nil => intro h h' _ i hr; simp only [run, Option.some.injEq] at hr; subst hr; exact ⟨i, rfl, rfl, rfl⟩
  | cons o os ih =>
    intro h h' hk i hr
    simp only [run] at hr
    cases hs : step h o with
    | none => rw [hs] at hr; cases hr
    | some h1 =>
      rw [hs] at hr
      obtain ⟨a, b, c, d⟩ := ih h1 h' (fun o ho => hk o (by simp [ho])) (inv_step i hs) hr
      obtain ⟨b', c', d'⟩ := step_keeps (hk o (by simp)) hs
      exact ⟨a, by rw [b, b'], by rw [c, c'], by rw [d, d']⟩

theorem PkgInv.headers {H : HashFn} {p : Pkg} {s : List (U32 × Bytes)} (i : PkgInv H p s) (os : List Op) (hk : ∀ o ∈ os, o.keepsParts = true) (h' : Header)
    (hr : run p.hdr os = some h') : ∃ p', p'.hdr = h' ∧ p'.file = fileWrite p.file 0 h'.image ∧ PkgInv H p' s := by
  obtain ⟨a, b, c, d⟩ := run_keeps os p.hdr h' hk i.hdr hr
  obtain ⟨us, k, im⟩ := a.metas
  exact i.newHdr h' a.wf im.good b c d (by rw [a.magic, i.hdr.magic])

theorem PkgInv.rewrite {H : HashFn} {p : Pkg} {s : List (U32 × Bytes)} (i : PkgInv H p s) : fileWrite p.file 0 p.hdr.image = p.file := by
  rw [fileWrite_zero, image_length i.good.wf, ← i.saved.2, image_parse (by rw [List.length_take]; have := i.saved.1; omega), List.take_append_drop]

/-- A new entry, filled in whole or in part. -/
theorem PkgInv.newMeta {H : HashFn} {p : Pkg} {s : List (U32 × Bytes)} (i : PkgInv H p s) (id ref : U32) (hid : id ≠ 0) (size : U16) (d : Bytes) :
    if (addMeta p.hdr id ref size).1 = .ok then
      ∀ m md, (addMeta p.hdr id ref size).2.1.metas[(addMeta p.hdr id ref size).2.2]? = some m → writeAt (addMeta p.hdr id ref size).2.1.metadata m.offset.toNat d = some md →
      ∃ p', p'.hdr = { (addMeta p.hdr id ref size).2.1 with metadata := md } ∧
        p'.file = fileWrite p.file 0 { (addMeta p.hdr id ref size).2.1 with metadata := md }.image ∧ PkgInv H p' s
    else True := by
  split
  · rename_i hok
    intro m md _ hw
    obtain ⟨us, k, im⟩ := i.hdr.metas
    rcases addMeta_cases im id ref size with ⟨-, hc, -⟩ | ⟨-, -, hc, -⟩ | ⟨-, -, -, hc⟩ | ⟨h1, h2, h3, -⟩
    · rw [hok] at hc; cases hc
    · rw [hok] at hc; cases hc
    · rw [hok] at hc; cases hc
    · obtain ⟨m', a1, a2, a3, a4, a5, a6, im2⟩ := addMeta_ok_inv im hid h1 h2 h3
      rw [a6] at hw ⊢
      simp only at hw ⊢
      obtain ⟨w1, w2, w3⟩ := writeAt_some hw
      have hmd : md.length = 1920 := by rw [w2]; exact im.md
      have im3 : MetaInv { p.hdr with metas := us ++ m' :: List.replicate (k-1) MetaHdr.zero, metadata := md } (us ++ [m']) (k-1) :=
        ⟨im2.slots, im2.len, im2.packed, im2.distinct, hmd⟩
      have hwf : { p.hdr with metas := us ++ m' :: List.replicate (k-1) MetaHdr.zero, metadata := md }.WF := by
        have w := i.good.wf
        have w' := (inv_step i.hdr (op := .addMeta id ref size) (h' := { p.hdr with metas := us ++ m' :: List.replicate (k-1) MetaHdr.zero }) (by
          simp only [step]; rw [if_neg hid, a6]; simp)).wf
        exact ⟨w'.1, w'.2.1, w'.2.2.1, hmd, w'.2.2.2.2⟩
      exact i.newHdr _ hwf im3.good rfl rfl rfl rfl
  · trivial

/-- What `bpak set --meta` writes back. -/
theorem setMeta_run {h h' : Header} (i : Inv h) (name text : Bytes) (enc : Option Bytes) (hid : bpakId name ≠ 0) (e : Err) (w : Bool)
    (hs : setMeta h name text enc = .ret (e, h', w)) :
    (e ≠ .ok → w = true → h' = h) ∧ (e = .ok → w = true ∧ ∃ os, (∀ o ∈ os, o.keepsParts = true) ∧ run h os = some h') := by
  obtain ⟨us, k, im⟩ := i.metas
  cases hg : getMeta h (bpakId name) 0 with
  | none =>
    unfold setMeta at hs
    rw [hg] at hs
    simp only [Out.ret.injEq, Prod.mk.injEq] at hs
    obtain ⟨rfl, rfl, rfl⟩ := hs
    exact ⟨(fun _ h => by cases h), fun h => by cases h⟩
  | some j =>
    obtain ⟨pre, m, post, rfl, s2, s3, s4, s5⟩ := getMeta_split im hid hg
    cases enc with
    | none =>
      rw [setMeta_text im name text ⟨s3, s4⟩] at hs
      by_cases hfit : text.length + 1 ≤ m.size.toNat
      · obtain ⟨h2, e1, e2, e3, e4⟩ := setText_fits im text hfit
        rw [e1] at hs
        simp only [Out.ret.injEq, Prod.mk.injEq] at hs
        obtain ⟨rfl, rfl, rfl⟩ := hs
        exact ⟨fun h => absurd rfl h, fun _ => ⟨rfl, _, by simp [Op.keepsParts], e2⟩⟩
      · cases k with
        | zero =>
          have hfull : ∀ x ∈ h.metas, x.id ≠ 0 := by
            have := im.slots
            rw [List.replicate_zero, List.append_nil] at this
            rw [this]; exact im.packed.ids
          have : setText h m text = .ub := by
            unfold setText
            rw [if_pos (by omega), s3, s4, hg]
            simp only
            rw [delMeta_full h j hfull]
          rw [this] at hs
          cases hs
        | succ k =>
          obtain ⟨t1, t2, t3⟩ := setText_grows im text (by omega)
          by_cases hbig : ((pre ++ post).map (fun x => roundUp8 x.size.toNat)).sum + (text.length + 1) % 65536 > 1920
          · rw [t2 hbig] at hs
            simp only [Out.ret.injEq, Prod.mk.injEq] at hs
            obtain ⟨rfl, rfl, rfl⟩ := hs
            exact ⟨fun _ _ => rfl, fun h => by cases h⟩
          · by_cases hlong : 65536 ≤ text.length + 1
            · rw [t3 hlong (by omega)] at hs; cases hs
            · obtain ⟨h2, e1, e2, e3, e4⟩ := t1 (by omega) (by rw [Nat.mod_eq_of_lt (by omega)] at hbig; omega)
              rw [e1] at hs
              simp only [Out.ret.injEq, Prod.mk.injEq] at hs
              obtain ⟨rfl, rfl, rfl⟩ := hs
              exact ⟨fun h => absurd rfl h, fun _ => ⟨rfl, _, by simp [Op.keepsParts], e2⟩⟩
    | some enc =>
      by_cases h1 : enc = ascii "integer"
      · subst h1
        rw [(setMeta_enc im name text ⟨s3, s4⟩).1] at hs
        split at hs
        · simp only [Out.ret.injEq, Prod.mk.injEq] at hs
          obtain ⟨rfl, rfl, rfl⟩ := hs
          exact ⟨(fun _ h => by cases h), fun h => by cases h⟩
        · rename_i h8
          split at hs
          · simp only [Out.ret.injEq, Prod.mk.injEq] at hs
            obtain ⟨rfl, rfl, rfl⟩ := hs
            exact ⟨(fun _ h => by cases h), fun h => by cases h⟩
          · rename_i v _
            obtain ⟨h2, e1, e2, e3, e4⟩ := setMeta_value im (le64 v) (by
              have : m.size.toNat = 8 := by omega
              rw [this]; rfl)
            rw [e1] at hs
            simp only [Out.ret.injEq, Prod.mk.injEq] at hs
            obtain ⟨rfl, rfl, rfl⟩ := hs
            exact ⟨fun h => absurd rfl h, fun _ => ⟨rfl, _, by simp [Op.keepsParts], e2⟩⟩
      · by_cases h2 : enc = ascii "id"
        · subst h2
          rw [(setMeta_enc im name text ⟨s3, s4⟩).2] at hs
          split at hs
          · simp only [Out.ret.injEq, Prod.mk.injEq] at hs
            obtain ⟨rfl, rfl, rfl⟩ := hs
            exact ⟨(fun _ h => by cases h), fun h => by cases h⟩
          · rename_i h4
            obtain ⟨h2, e1, e2, e3, e4⟩ := setMeta_value im (le32 (bpakId text)) (by
              have : m.size.toNat = 4 := by omega
              rw [this]; rfl)
            rw [e1] at hs
            simp only [Out.ret.injEq, Prod.mk.injEq] at hs
            obtain ⟨rfl, rfl, rfl⟩ := hs
            exact ⟨fun h => absurd rfl h, fun _ => ⟨rfl, _, by simp [Op.keepsParts], e2⟩⟩
        · unfold setMeta at hs
          rw [hg] at hs
          simp only at hs
          rw [s5] at hs
          simp only at hs
          rw [if_neg h1, if_neg h2] at hs
          simp only [Out.ret.injEq, Prod.mk.injEq] at hs
          obtain ⟨rfl, rfl, rfl⟩ := hs
          exact ⟨fun _ _ => rfl, fun h => by cases h⟩

/-- `bpak set` on a package. -/
theorem set_step {H : HashFn} {p : Pkg} {s : List (U32 × Bytes)} (i : PkgInv H p s) (o : SetOpts) (hid : ∀ n, o.name = some n → bpakId n ≠ 0) (e : Err) (f' : Bytes)
    (hs : setCmd p.file o = .ret (e, f')) : ∃ p', p'.file = f' ∧ PkgInv H p' s ∧ (e ≠ .ok → f' = p.file) := by
  by_cases c1 : o.name = none ∧ o.keyId = none ∧ o.keystoreId = none
  · unfold setCmd at hs
    rw [if_pos c1] at hs
    simp only [Out.ret.injEq, Prod.mk.injEq] at hs
    exact ⟨p, hs.2, i, fun _ => hs.2.symm⟩
  by_cases c2 : o.text = none ∧ o.name ≠ none
  · unfold setCmd at hs
    rw [if_neg c1, if_pos c2] at hs
    simp only [Out.ret.injEq, Prod.mk.injEq] at hs
    exact ⟨p, hs.2, i, fun _ => hs.2.symm⟩
  cases hn : o.name with
  | some name =>
    cases ht : o.text with
    | none => exact absurd ⟨ht, by rw [hn]; simp⟩ c2
    | some text =>
      rw [setCmd_open i o name text hn ht] at hs
      cases hm : setMeta p.hdr name text o.encoder with
      | ub => rw [hm] at hs; cases hs
      | ret r =>
        obtain ⟨e1, h', w⟩ := r
        rw [hm] at hs
        simp only [Out.ret.injEq, Prod.mk.injEq] at hs
        obtain ⟨rfl, hs⟩ := hs
        obtain ⟨m1, m2⟩ := setMeta_run i.hdr name text o.encoder (hid name hn) e1 w hm
        by_cases he : e1 = .ok
        · obtain ⟨rfl, os, k1, k2⟩ := m2 he
          obtain ⟨p', q1, q2, q3⟩ := i.headers os k1 h' k2
          rw [if_pos rfl] at hs
          exact ⟨p', by rw [q2, hs], q3, fun h => absurd he h⟩
        · cases w with
          | false => exact ⟨p, by simpa using hs, i, fun _ => by simpa using hs.symm⟩
          | true =>
            rw [if_pos rfl, m1 he rfl, i.rewrite] at hs
            exact ⟨p, hs, i, fun _ => hs.symm⟩
  | none =>
    unfold setCmd at hs
    rw [if_neg c1, if_neg c2, if_neg (by have := i.saved.1; omega)] at hs
    simp only [i.saved.2, i.valid, ne_eq, not_true_eq_false, if_false, hn] at hs
    obtain ⟨p', q1, q2, q3⟩ := i.headers [.setKeyId ((o.keyId.map idForNameOrRef).getD p.hdr.keyId), .setKeystoreId ((o.keystoreId.map idForNameOrRef).getD p.hdr.keystoreId)]
      (by simp [Op.keepsParts]) _ rfl
    have he := (Prod.mk.inj (Out.ret.inj hs)).1
    refine ⟨p', ?_, q3, fun h => absurd he.symm h⟩
    rw [q2, ← (Prod.mk.inj (Out.ret.inj hs)).2]
    cases o.keyId <;> cases o.keystoreId <;> rfl

/-- `bpak add --meta` on a package. -/
theorem addMeta_step {H : HashFn} {p : Pkg} {s : List (U32 × Bytes)} (i : PkgInv H p s) (o : AddOpts) (hid : bpakId o.name ≠ 0) (e : Err) (f' : Bytes)
    (hs : addMetaCmd H p.file o = .ret (e, f')) : ∃ p', p'.file = f' ∧ PkgInv H p' s ∧ (e ≠ .ok → f' = p.file) := by
  have same : ∀ {e0 : Err}, (Out.ret (e0, p.file) : Out (Err × Bytes)) = .ret (e, f') → ∃ p', p'.file = f' ∧ PkgInv H p' s ∧ (e ≠ .ok → f' = p.file) := by
    intro e0 h
    simp only [Out.ret.injEq, Prod.mk.injEq] at h
    exact ⟨p, h.2, i, fun _ => h.2.symm⟩
  rw [addMetaCmd_open i] at hs
  split at hs
  · exact same hs
  · split at hs
    · cases hs
    · exact same hs
    · rename_i d _
      have hnew := i.newMeta (bpakId o.name) ((o.ref.map bpakId).getD 0) hid (BitVec.ofNat 16 d.length) d
      simp only at hs
      split at hs
      · exact same hs
      · rename_i hok
        rw [if_pos (Classical.not_not.1 hok)] at hnew
        split at hs
        · cases hs
        · rename_i m hm
          split at hs
          · cases hs
          · rename_i md hw
            obtain ⟨p', q1, q2, q3⟩ := hnew m md hm hw
            simp only [Out.ret.injEq, Prod.mk.injEq] at hs
            exact ⟨p', by rw [q2, hs.2], q3, fun h => absurd hs.1.symm h⟩

/-- `bpak transport --add` on a package. -/
theorem transportAdd_step {H : HashFn} {p : Pkg} {s : List (U32 × Bytes)} (i : PkgInv H p s) (ref : Option Bytes) (enc dec : Bytes) (e : Err) (f' : Bytes)
    (hs : transportAddCmd H p.file ref enc dec = .ret (e, f')) : ∃ p', p'.file = f' ∧ PkgInv H p' s ∧ (e ≠ .ok → f' = p.file) := by
  unfold transportAddCmd at hs
  rw [i.open] at hs
  simp only [ne_eq, not_true_eq_false, if_false] at hs
  have hnew := i.newMeta idBpakTransport ((ref.map idForNameOrRef).getD 0) (by decide) 32 (le32 (bpakId enc) ++ le32 (bpakId dec))
  generalize hr : addMeta p.hdr idBpakTransport ((ref.map idForNameOrRef).getD 0) 32 = r at hnew
  obtain ⟨e1, h1, j⟩ := r
  by_cases hok : e1 = .ok
  · subst hok
    unfold addTransportMeta at hs
    rw [hr] at hs
    simp only [if_true] at hs hnew
    split at hs
    · cases hs
    · rename_i e2 h2 hx
      split at hx
      · cases hx
      · rename_i m hm
        split at hx
        · cases hx
        · rename_i md hw
          simp only [Out.ret.injEq, Prod.mk.injEq] at hx
          obtain ⟨rfl, rfl⟩ := hx
          obtain ⟨p', q1, q2, q3⟩ := hnew m md hm hw
          simp only [not_true_eq_false, if_false, Out.ret.injEq, Prod.mk.injEq] at hs
          refine ⟨p', ?_, q3, fun h => absurd hs.1.symm h⟩
          rw [q2, ← hs.2]; rfl
  · have : addTransportMeta p.hdr ((ref.map idForNameOrRef).getD 0) (bpakId enc) (bpakId dec) = .ret (e1, h1) := by
      unfold addTransportMeta
      rw [hr]
      cases e1 <;> first | exact absurd rfl hok | rfl
    rw [this] at hs
    simp only at hs
    rw [if_pos hok] at hs
    simp only [Out.ret.injEq, Prod.mk.injEq] at hs
    exact ⟨p, hs.2, i, fun _ => hs.2.symm⟩

/-- Adding a file with its hash tree. -/
theorem tree_step {H : HashFn} (hH : HashLen H) {p q : Pkg} {s : List (U32 × Bytes)} (i : PkgInv H p s) (id : U32) (flags : U8) (d salt : Bytes)
    (hid : id ≠ 0) (htid : partIdToHashTreeId id ≠ 0) (hfl : flags &&& 2 = 0) (hsalt : salt.length = 32)
    (hsz : p.file.length + d.length + (hashTree H salt d).length + 512 < 2^63)
    (hs : addFileWithMerkle H (d.length + 2) p id flags d salt = some (.ret (.ok, q))) :
    PkgInv H q (s ++ [(id, d), (partIdToHashTreeId id, hashTree H salt d)]) := by
  have g := i.good
  have gm := i.metas
  obtain ⟨r, hsup⟩ := (C65_success_iff H hH p g gm id hid htid flags hfl d salt hsalt hsz (d.length + 2) (by omega)).1 ⟨q, hs⟩
  obtain ⟨q', e, gq, gmq, svq, hsq, hcq, heq, haq, hhq, _, hplq, htq⟩ := C65_add_file_with_tree H hH p g gm id r flags hfl d salt hsup hsalt hsz (d.length + 2) (by omega)
  rw [hs] at e
  have e2 : q = q' := (Prod.mk.inj (Out.ret.inj (Option.some.inj e))).2
  subst e2
  have htl : (hashTree H salt d).length % 4096 = 0 := by
    have := C29_tree_size H hH salt d hsup
    obtain ⟨h1, h2, h3⟩ := hsup
    rw [merkleComputeSize_eq, if_neg (by omega), if_neg (by omega)] at this
    rw [← Except.ok.inj this]
    unfold treeSize
    omega
  have hd0 := hsup.1
  have hlen : q.file.length < 2^63 := by
    have h1 := plain_len q gq
    have h2 := plain_len p g
    rw [haq] at h1
    simp at h1 h2
    omega
  refine ⟨inv_of_hdr i.hdr gmq gq (by rw [hhq]; exact ⟨rfl, rfl⟩), gq, hlen, svq, hsq, ?_, ?_, hplq i.placed⟩
  · intro x hx
    have : partAttrs x ∈ (usedParts q.hdr).map partAttrs := List.mem_map.2 ⟨x, hx, rfl⟩
    rw [haq] at this
    rcases List.mem_append.1 this with h | h
    · obtain ⟨y, hy, e⟩ := List.mem_map.1 h
      have := i.padded y hy
      unfold partAttrs at e
      simp only [Prod.mk.injEq] at e
      rw [← e.2.2.1, ← e.2.2.2.1]; exact this
    · unfold partAttrs at h
      simp only [List.mem_cons, Prod.mk.injEq, List.not_mem_nil, or_false] at h
      rcases h with h | h
      · rw [h.2.2.1, h.2.2.2.1]; unfold padFor; rw [if_neg (by omega)]
      · rw [h.2.2.1, h.2.2.2.1]; unfold padFor; rw [if_neg (by omega)]
  · rw [files_eq, hcq, haq]
    unfold mkFiles
    rw [List.zipWith_append (by unfold contents; simp)]
    have := i.files
    rw [files_eq] at this
    unfold mkFiles at this
    rw [this]
    simp

/-- Adding a key, when it ends: like adding a file with the key's bytes. -/
theorem key_step {H : HashFn} (hH : HashLen H) {p : Pkg} {s : List (U32 × Bytes)} (i : PkgInv H p s) (id : U32) (hid : id ≠ 0) (flags : U8) (hfl : flags &&& 2 = 0)
    (d : Bytes) (hsz : p.file.length + d.length + 512 < 2^63) (e : Err) (q : Pkg) (hs : addKey H p id flags (.ok d) = .ret (e, q)) :
    ∃ q', addFile H (d.length + 2) p id flags d.length d = some (e, q') ∧ q.hdr = q'.hdr ∧ q.file = q'.file := by
  have g := i.good
  by_cases hd : d.length % 512 = 0 ∨ d.length % 512 = 511
  · obtain ⟨e1, q1, q2, a1, a2, a3, a4⟩ := C59_add_key_partial H hH p g id hid flags hfl d hd hsz (d.length + 2) (by omega)
    rw [a1] at hs
    obtain ⟨rfl, rfl⟩ := Prod.mk.inj (Out.ret.inj hs)
    exact ⟨q2, a2, a3, a4⟩
  · rcases addPart_cases (g.parts.inv g.wf) id with ⟨hx, e1, e2⟩ | ⟨hx, hk0, e1, e2⟩ | ⟨hx, hk0, -⟩
    · unfold addKey at hs
      obtain ⟨⟨a, b, c⟩, hr⟩ : ∃ r, addPart p.hdr id = r := ⟨_, rfl⟩
      rw [hr] at e1 e2
      simp only at e1 e2
      subst e1; subst e2
      simp only [hr] at hs
      obtain ⟨rfl, rfl⟩ := Prod.mk.inj (Out.ret.inj hs)
      exact ⟨p, (C35_add_refused H p g id flags _ d _).1 hx, rfl, rfl⟩
    · unfold addKey at hs
      obtain ⟨⟨a, b, c⟩, hr⟩ : ∃ r, addPart p.hdr id = r := ⟨_, rfl⟩
      rw [hr] at e1 e2
      simp only at e1 e2
      subst e1; subst e2
      simp only [hr] at hs
      obtain ⟨rfl, rfl⟩ := Prod.mk.inj (Out.ret.inj hs)
      exact ⟨p, (C35_add_refused H p g id flags _ d _).2 (fun q hq h => hx ⟨q, hq, h⟩) (by have := (g.parts.inv g.wf).len; omega), rfl, rfl⟩
    · rw [C59_add_key_is_false H p g id (fun q hq h => hx ⟨q, hq, h⟩) (by have := (g.parts.inv g.wf).len; omega) flags d (by omega) (by omega)] at hs
      cases hs

/-- Adding a file. -/
theorem file_step {SK PK : Type} {H : HashFn} (hH : HashLen H) (S : SigScheme SK PK) (hS : ∀ sk rnd k d, S.sign sk rnd k d ≠ .error .ok)
    {p : Pkg} {s : List (U32 × Bytes)} (i : PkgInv H p s) (id : U32) (hid : id ≠ 0) (flags : U8) (hfl : flags &&& 2 = 0)
    (d : Bytes) (hsz : p.file.length + d.length + 512 < 2^63) (e : Err) (q : Pkg) (hs : addFile H (d.length + 2) p id flags d.length d = some (e, q)) :
    (e = .ok → PkgInv H q (s ++ [(id, d)])) ∧ (e ≠ .ok → q = p) := by
  have hl := (i.good.parts.inv i.good.wf).len
  by_cases h1 : ∃ q ∈ usedParts p.hdr, q.id = id
  · rw [(C35_add_refused H p i.good id _ _ d _).1 h1] at hs
    obtain ⟨rfl, rfl⟩ := Prod.mk.inj (Option.some.inj hs)
    exact ⟨(fun h => by cases h), fun _ => rfl⟩
  · have h1' : ∀ q ∈ usedParts p.hdr, q.id ≠ id := fun q hq e => h1 ⟨q, hq, e⟩
    by_cases h2 : (usedParts p.hdr).length = 32
    · rw [(C35_add_refused H p i.good id _ _ d _).2 h1' h2] at hs
      obtain ⟨rfl, rfl⟩ := Prod.mk.inj (Option.some.inj hs)
      exact ⟨(fun h => by cases h), fun _ => rfl⟩
    · obtain ⟨p1, e1, -⟩ := C35_add_file H hH p i.good id hid h1' (by omega) flags hfl d hsz (d.length + 2) (by omega)
      rw [e1] at hs
      obtain ⟨rfl, rfl⟩ := Prod.mk.inj (Option.some.inj hs)
      refine ⟨fun _ => ?_, fun h => absurd rfl h⟩
      exact inv_pkgStep H hH S p p1 s (.addFile id flags d) hS i (by
        simp only [pkgStep]
        rw [if_neg (by rintro (h | h | h); exact hid h; exact h hfl; omega), e1])

theorem no_room {h : Header} (g : GoodMetas h) (w : h.WF) {sel : U32 → Bool} (hr : ¬ MetaRoom h sel) : (∀ m ∈ h.metas, m.id ≠ 0) ∧
    ∃ m ∈ h.metas, sel m.partRef = true := by
  have hi := g.inv w
  have hs := hi.slots
  have hk := hi.len
  have h1 : ¬ (usedMetas h).length < 32 := fun x => hr (Or.inr x)
  have h2 : ∃ m ∈ usedMetas h, sel m.partRef = true := by
    apply Classical.byContradiction
    intro hn
    exact hr (Or.inl (fun m hm => by cases hc : sel m.partRef with | false => rfl | true => exact absurd ⟨m, hm, hc⟩ hn))
  have he : h.metas = usedMetas h := by
    have : 32 - (usedMetas h).length = 0 := by omega
    rw [this, List.replicate_zero, List.append_nil] at hs
    exact hs
  constructor
  · intro m hm
    rw [he] at hm
    exact hi.packed.ids m hm
  · rw [he]; exact h2

theorem sessionStep_fail {SK : Type} (H : HashFn) (s : List (U32 × Bytes)) (c : Cmd SK) {e : Err} (h : e ≠ .ok) : sessionStep H s (c, e) = s := by
  unfold sessionStep
  simp only
  rw [if_pos h]

/-- One command. -/
theorem cmd_step {SK PK : Type} {H : HashFn} (hH : HashLen H) (S : SigScheme SK PK) (hS : ∀ sk rnd k d, S.sign sk rnd k d ≠ .error .ok)
    {p : Pkg} {s : List (U32 × Bytes)} (i : PkgInv H p s) (c : Cmd SK) (ha : Allowed H (some p.file) c) (e : Err) (f' : Option Bytes)
    (hs : cmdStep H S (some p.file) c = some (e, f')) (ht : c.isTree = true → e = .ok) :
    ∃ p', f' = some p'.file ∧ PkgInv H p' (sessionStep H s (c, e)) ∧ (e ≠ .ok → p'.file = p.file) := by
  have fin : ∀ {s' : List (U32 × Bytes)} {r : Out (Err × Bytes)}, (match r with | .ub => none | .ret (e, f') => some (e, some f')) = some (e, f') →
      (∀ g, r = .ret (e, g) → ∃ p', p'.file = g ∧ PkgInv H p' s' ∧ (e ≠ .ok → g = p.file)) →
      ∃ p', f' = some p'.file ∧ PkgInv H p' s' ∧ (e ≠ .ok → p'.file = p.file) := by
    intro s' r h1 h2
    cases r with
    | ub => cases h1
    | ret r =>
      obtain ⟨e1, g⟩ := r
      have h1 := Prod.mk.inj (Option.some.inj h1)
      obtain ⟨p', a, b, d⟩ := h2 g (by rw [h1.1])
      exact ⟨p', by rw [← h1.2, a], b, fun h => by rw [a]; exact d h⟩
  have keep : ∀ {s' : List (U32 × Bytes)} {e0 : Err} {g : Bytes}, e0 ≠ .ok → s' = s → (Out.ret (e0, p.file) : Out (Err × Bytes)) = .ret (e, g) →
      ∃ p', p'.file = g ∧ PkgInv H p' s' ∧ (e ≠ .ok → g = p.file) := by
    intro s' e0 g h0 hss h
    have h := Prod.mk.inj (Out.ret.inj h)
    exact ⟨p, h.2, by rw [hss]; exact i, fun _ => h.2.symm⟩
  cases c with
  | create hash sig force answer =>
    have hs : createCmd H (some p.file) hash sig force answer = (e, f') := by
      have : cmdStep H S (some p.file) (.create hash sig force answer) = some (createCmd H (some p.file) hash sig force answer) := rfl
      rw [this] at hs
      exact Option.some.inj hs
    by_cases hk : (∃ k, Named hashNames 1 hash k) ∧ (∃ k, Named signatureNames 2 sig k) ∧ (force = true ∨ answer = 89)
    · obtain ⟨⟨hk, h1⟩, ⟨sk, h2⟩, h3⟩ := hk
      obtain ⟨p', a1, a2, -⟩ := C79_create H hH S (some p.file) hash sig force answer hk sk h1 h2 (Or.inr h3)
      rw [a1] at hs
      obtain ⟨rfl, rfl⟩ := Prod.mk.inj hs
      have hr := a2 p
      refine ⟨p', rfl, ?_, fun h => absurd rfl h⟩
      simp only [pkgRun] at hr
      split at hr
      · cases hr
      · rename_i p1 h1
        cases hr
        have := inv_pkgStep H hH S p _ s _ hS i h1
        exact this
    · obtain ⟨e', h1, h2⟩ := C79_create_refused H (some p.file) hash sig force answer (by
        by_cases h1 : ∃ k, Named hashNames 1 hash k
        · by_cases h2 : ∃ k, Named signatureNames 2 sig k
          · refine Or.inr (Or.inr ⟨by simp, ?_, ?_⟩)
            · cases hf : force with
              | false => rfl
              | true => exact absurd ⟨h1, h2, Or.inl hf⟩ hk
            · intro h; exact hk ⟨h1, h2, Or.inr h⟩
          · exact Or.inr (Or.inl (fun k h => h2 ⟨k, h⟩))
        · exact Or.inl (fun k h => h1 ⟨k, h⟩))
      rw [h2] at hs
      obtain ⟨rfl, rfl⟩ := Prod.mk.inj hs
      refine ⟨p, rfl, ?_, fun _ => rfl⟩
      rw [sessionStep_fail H s _ h1]
      exact i
  | addPart name dontHash enc src key salt =>
    obtain ⟨hid, hroom⟩ := ha
    have hfl : (if dontHash then (1 : U8) else 0) &&& 2 = 0 := by cases dontHash <;> decide
    have i0 := i.logged []
    simp only [cmdStep] at hs
    cases hc : addPartCmd H p.file name dontHash enc src key salt with
    | none => rw [hc] at hs; cases hs
    | some r =>
      rw [hc] at hs
      refine fin (r := r) hs ?_
      rintro g rfl
      unfold addPartCmd at hc
      rw [i.open] at hc
      simp only [ne_eq, not_true_eq_false, if_false] at hc
      cases src with
      | none => cases hc
      | some d =>
        obtain ⟨hsz, hkey, htree⟩ := hroom p.file d rfl rfl
        simp only at hc
        cases enc with
        | none =>
          simp only at hc
          cases hq : addFile H (d.length + 2) ⟨p.hdr, p.file, []⟩ (bpakId name) (if dontHash then (1 : U8) else 0) d.length d with
          | none => rw [hq] at hc; cases hc
          | some r =>
            obtain ⟨e1, q⟩ := r
            rw [hq] at hc
            simp only [Option.some.injEq] at hc
            obtain ⟨rfl, rfl⟩ := Prod.mk.inj (Out.ret.inj hc)
            obtain ⟨s1, s2⟩ := file_step hH S hS i0 (bpakId name) hid _ hfl d hsz e1 q hq
            by_cases he : e1 = .ok
            · subst he
              exact ⟨q, rfl, s1 rfl, fun h => absurd rfl h⟩
            · exact ⟨p, by rw [s2 he], by rw [sessionStep_fail H s _ he]; exact i, fun h => by rw [s2 h]⟩
        | some enc =>
          simp only at hc
          by_cases hk : enc = ascii "key"
          · rw [if_pos hk] at hc
            subst hk
            obtain ⟨k1, k2⟩ := hkey rfl
            cases key with
            | error e0 =>
              have hc := Prod.mk.inj (Out.ret.inj (Option.some.inj hc))
              have he : e ≠ .ok := fun h => k1 (by rw [hc.1, h])
              exact ⟨p, hc.2, by rw [sessionStep_fail H s _ he]; exact i, fun _ => hc.2.symm⟩
            | ok k =>
              cases hq : addKey H ⟨p.hdr, p.file, []⟩ (bpakId name) (if dontHash then (1 : U8) else 0) (.ok k) with
              | ub => rw [hq] at hc; cases hc
              | ret r =>
                obtain ⟨e1, q⟩ := r
                rw [hq] at hc
                simp only [Option.some.injEq] at hc
                obtain ⟨rfl, rfl⟩ := Prod.mk.inj (Out.ret.inj hc)
                obtain ⟨q', w1, -, w2⟩ := key_step hH i0 (bpakId name) hid _ hfl k (k2 k rfl) e1 q hq
                obtain ⟨s1, s2⟩ := file_step hH S hS i0 (bpakId name) hid _ hfl k (k2 k rfl) e1 q' w1
                rw [w2]
                by_cases he : e1 = .ok
                · subst he
                  exact ⟨q', rfl, s1 rfl, fun h => absurd rfl h⟩
                · exact ⟨p, by rw [s2 he], by rw [sessionStep_fail H s _ he]; exact i, fun h => by rw [s2 h]⟩
          · rw [if_neg hk] at hc
            by_cases hm : enc = ascii "merkle"
            · subst hm
              obtain ⟨t1, t2, t3⟩ := htree rfl
              rw [if_pos rfl] at hc
              have : e = .ok := ht (by simp [Cmd.isTree])
              subst this
              split at hc
              · cases hc
              · cases hc
              · rename_i e1 q hq
                simp only [Option.some.injEq] at hc
                obtain ⟨rfl, rfl⟩ := Prod.mk.inj (Out.ret.inj hc)
                exact ⟨q, rfl, tree_step hH i0 (bpakId name) _ d salt hid t1 hfl t2 t3 hq, fun h => absurd rfl h⟩
            · rw [if_neg hm] at hc
              simp only [Option.some.injEq] at hc
              have hc := Out.ret.inj hc
              refine keep (e0 := .failed) (by decide) ?_ (by rw [hc])
              exact sessionStep_fail H s _ (by rw [← (Prod.mk.inj hc).1]; decide)
  | addMeta o =>
    refine fin (r := addMetaCmd H p.file o) hs ?_
    intro g hg
    obtain ⟨p', a, b, c⟩ := addMeta_step i o ha e g hg
    refine ⟨p', a, ?_, c⟩
    by_cases he : e = .ok
    · subst he; exact b
    · rw [sessionStep_fail H s _ he]; exact b
  | set o =>
    refine fin (r := setCmd p.file o) hs ?_
    intro g hg
    obtain ⟨p', a, b, c⟩ := set_step i o ha e g hg
    refine ⟨p', a, ?_, c⟩
    by_cases he : e = .ok
    · subst he; exact b
    · rw [sessionStep_fail H s _ he]; exact b
  | transportAdd ref enc dec =>
    refine fin (r := transportAddCmd H p.file ref enc dec) hs ?_
    intro g hg
    obtain ⟨p', a, b, c⟩ := transportAdd_step i ref enc dec e g hg
    refine ⟨p', a, ?_, c⟩
    by_cases he : e = .ok
    · subst he; exact b
    · rw [sessionStep_fail H s _ he]; exact b
  | signRaw sig =>
    refine fin (r := signRawCmd H p.file sig) hs ?_
    intro g hg
    by_cases hl : (sig.take 1024).length ≤ 512
    · have hl2 : sig.length ≤ 512 := by rw [List.length_take] at hl; omega
      obtain ⟨p', a1, a2, -⟩ := signRaw_step H S i sig hl2
      rw [a2] at hg
      obtain ⟨rfl, rfl⟩ := Prod.mk.inj (Out.ret.inj hg)
      exact ⟨p', rfl, inv_pkgStep H hH S p p' s _ hS i a1, fun h => absurd rfl h⟩
    · unfold signRawCmd at hg
      rw [i.open] at hg
      simp only [ne_eq, not_true_eq_false, if_false, writeRawSignature] at hg
      rw [if_pos (by omega)] at hg
      cases hg
  | sign key rnd =>
    have hs2 : signCmd H S p.file rnd key = (e, (signCmd H S p.file rnd key).2) ∧ f' = some (signCmd H S p.file rnd key).2 := by
      have hs := Prod.mk.inj (Option.some.inj hs)
      exact ⟨by rw [← hs.1], hs.2.symm⟩
    clear ht
    obtain ⟨hs2, rfl⟩ := hs2
    clear hs
    have i0 := i.logged []
    have hcmd : signCmd H S p.file rnd key = ((pkgSign H S rnd key ⟨p.hdr, p.file, []⟩).1, (pkgSign H S rnd key ⟨p.hdr, p.file, []⟩).2.file) := by
      unfold signCmd
      rw [i.open]
      rfl
    cases he : pkgSign H S rnd key ⟨p.hdr, p.file, []⟩ with
    | mk e1 q =>
      rw [he] at hcmd
      rw [hcmd] at hs2 ⊢
      have e1e := (Prod.mk.inj hs2).1
      simp only at e1e ⊢
      subst e1e
      by_cases hok : e1 = .ok
      · subst hok
        cases key with
        | error e2 =>
          rw [pkgSign_eq H hH S rnd _ _ i0.good i.small] at he
          simp only at he
          exact absurd (congrArg Except.error (Prod.mk.inj he).1) ha
        | ok sk =>
          refine ⟨q, rfl, inv_pkgStep H hH S ⟨p.hdr, p.file, []⟩ q s (.sign sk rnd) hS i0 (by simp only [pkgStep]; rw [he]), fun h => absurd rfl h⟩
      · have hf : q.file = p.file := by
          rw [pkgSign_eq H hH S rnd _ _ i0.good i.small] at he
          cases key with
          | error e2 => simp only at he; rw [← (Prod.mk.inj he).2]
          | ok sk =>
            simp only at he
            split at he
            · rw [← (Prod.mk.inj he).2]
            · split at he
              · rw [← (Prod.mk.inj he).2]
              · exact absurd (Prod.mk.inj he).1.symm hok
        exact ⟨p, by rw [hf], by rw [sessionStep_fail H s _ hok]; exact i, fun _ => rfl⟩
  | delete part all keep' =>
    simp only [cmdStep] at hs
    cases hc : deleteCmd H p.file part all keep' with
    | none => rw [hc] at hs; cases hs
    | some r =>
      rw [hc] at hs
      refine fin (r := r) hs ?_
      rintro g rfl
      have i0 := i.logged []
      unfold deleteCmd at hc
      simp only at hc
      by_cases c1 : (part.map idForNameOrRef).getD 0 = 0 ∧ all = false
      · rw [if_pos c1] at hc
        have hc := Out.ret.inj (Option.some.inj hc)
        refine keep (e0 := .failed) (by decide) ?_ (by rw [hc])
        exact sessionStep_fail H s _ (by rw [← (Prod.mk.inj hc).1]; decide)
      · rw [if_neg c1, i.open] at hc
        simp only [ne_eq, not_true_eq_false, if_false] at hc
        cases all with
        | true =>
          simp only [if_true] at hc
          cases hq : deleteAllParts H 65 ⟨p.hdr, p.file, []⟩ (!keep') with
          | none => rw [hq] at hc; cases hc
          | some r =>
            cases r with
            | ub => rw [hq] at hc; cases hc
            | ret r =>
              obtain ⟨e1, q⟩ := r
              rw [hq] at hc
              simp only [Option.some.injEq] at hc
              obtain ⟨rfl, rfl⟩ := Prod.mk.inj (Out.ret.inj hc)
              have hok : e1 = .ok := by
                by_cases hr : (!keep') = true → MetaRoom p.hdr (fun r => r != 0)
                · obtain ⟨p1, a1, -⟩ := C47_delete_all H hH ⟨p.hdr, p.file, []⟩ i.good.wf i.good.kind i.small i.saved.1 (!keep') (fun h => ⟨i.metas, hr h⟩) 65 (by omega)
                  rw [a1] at hq
                  exact (Prod.mk.inj (Out.ret.inj (Option.some.inj hq))).1.symm
                · have hr : (!keep') = true ∧ ¬ MetaRoom p.hdr (fun r => r != 0) := by
                    by_cases h : (!keep') = true
                    · exact ⟨h, fun h2 => hr (fun _ => h2)⟩
                    · exact absurd (fun h2 => absurd h2 h) hr
                  obtain ⟨f1, m, f2, f3⟩ := no_room i.metas i.good.wf hr.2
                  rw [hr.1, C47_full_table_is_false H ⟨p.hdr, p.file, []⟩ i.good.wf f1 ⟨m, f2, by simpa using f3⟩ 65 (by omega)] at hq
                  cases hq
              subst hok
              exact ⟨q, rfl, inv_pkgStep H hH S _ q s (.deleteAll (!keep')) hS i0 (by simp only [pkgStep]; rw [hq]), fun h => absurd rfl h⟩
        | false =>
          cases part with
          | none => exact absurd ⟨rfl, rfl⟩ c1
          | some name =>
            have hid : idForNameOrRef name ≠ 0 := fun h => c1 ⟨h, rfl⟩
            simp only [Bool.false_eq_true, if_false, Option.map_some, Option.getD_some] at hc
            cases hq : deletePart H (p.file.length + 65) ⟨p.hdr, p.file, []⟩ (idForNameOrRef name) (!keep') with
            | none => rw [hq] at hc; cases hc
            | some r =>
              cases r with
              | ub => rw [hq] at hc; cases hc
              | ret r =>
                obtain ⟨e1, q⟩ := r
                rw [hq] at hc
                simp only [Option.some.injEq] at hc
                obtain ⟨rfl, rfl⟩ := Prod.mk.inj (Out.ret.inj hc)
                by_cases hx : ∃ x ∈ usedParts p.hdr, x.id = idForNameOrRef name
                · obtain ⟨x, x1, x2⟩ := hx
                  have hok : e1 = .ok := by
                    by_cases hr : (!keep') = true → MetaRoom p.hdr (fun r => r == x.id)
                    · obtain ⟨p1, a1, -⟩ := C36_delete_part H hH ⟨p.hdr, p.file, []⟩ i0.good i.small x x1 (!keep') (fun h => ⟨i.metas, hr h⟩) (p.file.length + 65) (by simp only; omega)
                      rw [x2, hq] at a1
                      exact (Prod.mk.inj (Out.ret.inj (Option.some.inj a1))).1
                    · have hr : (!keep') = true ∧ ¬ MetaRoom p.hdr (fun r => r == x.id) := by
                        by_cases h : (!keep') = true
                        · exact ⟨h, fun h2 => hr (fun _ => h2)⟩
                        · exact absurd (fun h2 => absurd h2 h) hr
                      obtain ⟨f1, m, f2, f3⟩ := no_room i.metas i.good.wf hr.2
                      rw [hr.1, ← x2, C36_full_table_is_false H ⟨p.hdr, p.file, []⟩ i0.good i.small x x1 f1 ⟨m, f2, by simpa using f3⟩ (p.file.length + 65) (by omega)] at hq
                      cases hq
                  subst hok
                  exact ⟨q, rfl, inv_pkgStep H hH S _ q s (.deletePart (idForNameOrRef name) (!keep')) hS i0 (by
                    simp only [pkgStep]; rw [if_neg hid, hq]), fun h => absurd rfl h⟩
                · rw [C36_not_found H ⟨p.hdr, p.file, []⟩ (idForNameOrRef name) (fun y hy h => hx ⟨y, by
                    have hsl := (i.good.parts.inv i.good.wf).slots
                    simp only at hy
                    rw [hsl] at hy
                    rcases List.mem_append.1 hy with hy | hy
                    · exact hy
                    · rw [List.eq_of_mem_replicate hy] at h
                      exact absurd h.symm hid, h⟩)] at hq
                  obtain ⟨rfl, rfl⟩ := Prod.mk.inj (Out.ret.inj (Option.some.inj hq))
                  exact ⟨p, rfl, by rw [sessionStep_fail H s _ (by decide)]; exact i, fun _ => rfl⟩

theorem cmdStep_none {SK PK : Type} (H : HashFn) (S : SigScheme SK PK) (c : Cmd SK) (h : ∀ a b d e, c ≠ .create a b d e) :
    cmdStep H S none c = some (.notFound, none) := by
  cases c <;> first | rfl | exact absurd rfl (h _ _ _ _)

/-- One command without a file: only `bpak create` can succeed, and then the package is empty. -/
theorem cmd_first {SK PK : Type} {H : HashFn} (hH : HashLen H) (S : SigScheme SK PK) (hS : ∀ sk rnd k d, S.sign sk rnd k d ≠ .error .ok)
    (c : Cmd SK) (e : Err) (f' : Option Bytes) (hs : cmdStep H S none c = some (e, f')) :
    (e ≠ .ok ∧ f' = none) ∨ (e = .ok ∧ (∃ a b d x, c = .create a b d x) ∧ ∃ p', f' = some p'.file ∧ PkgInv H p' []) := by
  by_cases hc : ∃ a b d x, c = .create a b d x
  · obtain ⟨hash, sig, force, answer, rfl⟩ := hc
    have hs : createCmd H none hash sig force answer = (e, f') := Option.some.inj hs
    by_cases hk : (∃ k, Named hashNames 1 hash k) ∧ (∃ k, Named signatureNames 2 sig k)
    · obtain ⟨⟨hk, h1⟩, ⟨sk, h2⟩⟩ := hk
      obtain ⟨p', a1, a2, -⟩ := C79_create H hH S none hash sig force answer hk sk h1 h2 (Or.inl rfl)
      rw [a1] at hs
      obtain ⟨rfl, rfl⟩ := Prod.mk.inj hs
      obtain ⟨p0, e0⟩ : ∃ p0, pkgOpen H true [] = (.ok, p0) := by
        obtain ⟨p0, e, -⟩ := C56_open_new H hH
        exact ⟨p0, e⟩
      have := run_inv H hH S hS [.create hk sk] p0 p' e0 (a2 p0)
      exact Or.inr ⟨rfl, ⟨_, _, _, _, rfl⟩, p', rfl, this⟩
    · obtain ⟨e', h1, h2⟩ := C79_create_refused H none hash sig force answer (by
        by_cases h1 : ∃ k, Named hashNames 1 hash k
        · exact Or.inr (Or.inl (fun k h => hk ⟨h1, k, h⟩))
        · exact Or.inl (fun k h => h1 ⟨k, h⟩))
      rw [h2] at hs
      obtain ⟨rfl, rfl⟩ := Prod.mk.inj hs
      exact Or.inl ⟨h1, rfl⟩
  · rw [cmdStep_none H S c (fun a b d x h => hc ⟨a, b, d, x, h⟩)] at hs
    obtain ⟨rfl, rfl⟩ := Prod.mk.inj (Option.some.inj hs)
    exact Or.inl ⟨by decide, rfl⟩

theorem sessionFiles_snoc {SK : Type} (H : HashFn) (t : List (Cmd SK × Err)) (c : Cmd SK × Err) : sessionFiles H (t ++ [c]) = sessionStep H (sessionFiles H t) c := by
  unfold sessionFiles; rw [List.foldl_append]; rfl

theorem session_inv {SK PK : Type} {H : HashFn} (hH : HashLen H) (S : SigScheme SK PK) (hS : ∀ sk rnd k d, S.sign sk rnd k d ≠ .error .ok)
    {t : List (Cmd SK × Err)} {f : Option Bytes} (h : Session H S t f) :
    (f = none ∧ sessionFiles H t = [] ∧ ∀ x ∈ t, x.2 ≠ .ok) ∨ ∃ p, f = some p.file ∧ PkgInv H p (sessionFiles H t) := by
  induction h with
  | start => exact Or.inl ⟨rfl, rfl, by simp⟩
  | @run t f f' c e h1 ha hs ht ih =>
    rw [sessionFiles_snoc]
    rcases ih with ⟨rfl, hn, hx⟩ | ⟨p, rfl, i⟩
    · rcases cmd_first hH S hS c e f' hs with ⟨h, rfl⟩ | ⟨rfl, ⟨a, b, d, x, rfl⟩, p', rfl, i'⟩
      · refine Or.inl ⟨rfl, by rw [sessionStep_fail H _ _ h]; exact hn, ?_⟩
        intro y hy
        rcases List.mem_append.1 hy with hy | hy
        · exact hx y hy
        · rw [List.mem_singleton.1 hy]; exact h
      · exact Or.inr ⟨p', rfl, i'⟩
    · obtain ⟨p', a, b, -⟩ := cmd_step hH S hS i c ha e f' hs ht
      exact Or.inr ⟨p', a, b⟩

/-- C84: after any session the package file opens, its header is valid, its payload hash is that of its payload, no id is taken twice,
and `bpak extract --part NAME` delivers exactly the file the session's successful commands left under the name's id (or reports that
there is none). -/
theorem C84_session {SK PK : Type} (H : HashFn) (hH : HashLen H) (S : SigScheme SK PK) (hS : ∀ sk rnd k d, S.sign sk rnd k d ≠ .error .ok)
    (t : List (Cmd SK × Err)) (f : Bytes) (h : Session H S t (some f)) :
    ∃ hdr, 4096 ≤ f.length ∧ f.length % 512 = 0 ∧ pkgOpen H true f = (.ok, ⟨hdr, f, []⟩) ∧ validHeader hdr = .ok ∧ HashStored H ⟨hdr, f, []⟩ ∧
    (usedParts hdr).map (fun q => (q.id, q.size.toNat)) = (sessionFiles H t).map (fun c => (c.1, c.2.length)) ∧
    (sessionFiles H t).Pairwise (fun a b => a.1 ≠ b.1) ∧ (∀ c ∈ sessionFiles H t, c.1 ≠ 0) ∧
    ∀ name, idForNameOrRef name ≠ 0 → extractCmd H f (some name) none none =
      match (sessionFiles H t).find? (fun c => decide (c.1 = idForNameOrRef name)) with
      | none => .ret (.notFound, none)
      | some c => .ret (.ok, some c.2) := by
  rcases session_inv hH S hS h with ⟨h, -⟩ | ⟨p, hf, i⟩
  · cases h
  cases hf
  have hinv := i.good.parts.inv i.good.wf
  have i0 := i.logged []
  refine ⟨p.hdr, i.saved.1, ?_, i.open true, i.valid, i0.hash, i.sizes, ?_, ?_, ?_⟩
  · have h1 := i.good.exact
    have h2 : ∀ l : List PartHdr, (∀ q ∈ l, q.flags &&& 2 = 0 ∧ (q.size.toNat + q.padBytes.toNat) % 512 = 0) → (l.map storedSize).sum % 512 = 0 := by
      intro l
      induction l with
      | nil => intro _; rfl
      | cons q l ih =>
        intro hl
        have h1 := hl q (by simp)
        have h2 := ih (fun x hx => hl x (by simp [hx]))
        have h3 : storedSize q = q.size.toNat + q.padBytes.toNat := by unfold storedSize; rw [if_neg (by simpa using h1.1)]
        rw [List.map_cons, List.sum_cons]
        omega
    have h3 := h2 _ (fun q hq => ⟨i.good.plain q hq, i.aligned q hq⟩)
    omega
  · rw [← i.files]
    unfold Bpak.files
    rw [List.pairwise_map]
    exact i.good.parts.distinct
  · rw [← i.files]
    unfold Bpak.files
    intro c hc
    obtain ⟨q, hq, rfl⟩ := List.mem_map.1 hc
    exact used_ids _ q hq
  · intro name hn
    have e : extractCmd H p.file (some name) none none = .ret (extractFile ⟨p.hdr, p.file, []⟩ (idForNameOrRef name)) := by
      unfold extractCmd
      simp [i.open]
      exact fun h => absurd h hn
    rw [e]
    rcases i.find (idForNameOrRef name) hn with ⟨f1, f2⟩ | ⟨q, d, q1, q2, q3, q4, q5, q6⟩
    · rw [f2]
      have : getPart p.hdr (idForNameOrRef name) = none := by
        rw [C10_get_part_not_found]
        intro q hq hx
        have := List.find?_eq_none.1 f1 q hq
        simp [hx] at this
      unfold extractFile
      rw [this]
    · rw [q4, ← q2, (C35_extract_file ⟨p.hdr, p.file, []⟩ i0.good i.small q q1).1]
      have hss : storedSize q = q.size.toNat + q.padBytes.toNat := by
        unfold storedSize
        rw [if_neg (by rw [i.good.plain q q1]; simp)]
      rw [← q6]
      unfold storedBytes fileRead
      rw [List.take_take, Nat.min_eq_left (by omega)]

/-- C84: a command that fails leaves the file as it is (adding a hash tree excepted, see C66). -/
theorem C84_failed_command_changes_nothing {SK PK : Type} (H : HashFn) (hH : HashLen H) (S : SigScheme SK PK) (hS : ∀ sk rnd k d, S.sign sk rnd k d ≠ .error .ok)
    (t : List (Cmd SK × Err)) (f f' : Option Bytes) (h : Session H S t f) (c : Cmd SK) (ha : Allowed H f c) (e : Err) (hs : cmdStep H S f c = some (e, f'))
    (he : e ≠ .ok) (hc : c.isTree = false) : f' = f := by
  rcases session_inv hH S hS h with ⟨rfl, -⟩ | ⟨p, rfl, i⟩
  · rcases cmd_first hH S hS c e f' hs with ⟨-, h⟩ | ⟨h, -⟩
    · exact h
    · exact absurd h he
  · obtain ⟨p', a, -, b⟩ := cmd_step hH S hS i c ha e f' hs (fun h => by rw [hc] at h; cases h)
    rw [a, b he]

/-- C84: as long as there is no file, no command succeeded. -/
theorem C84_no_file {SK PK : Type} (H : HashFn) (hH : HashLen H) (S : SigScheme SK PK) (hS : ∀ sk rnd k d, S.sign sk rnd k d ≠ .error .ok)
    (t : List (Cmd SK × Err)) (h : Session H S t none) : ∀ c e, (c, e) ∈ t → e ≠ .ok := by
  rcases session_inv hH S hS h with ⟨-, -, h⟩ | ⟨p, h, -⟩
  · exact fun c e hm => h _ hm
  · cases h

/-! A concrete session: it meets the hypotheses of the theorems above. -/

end Bpak
