import Verif.Props.Session
import Verif.Props.BuildHistory
/-! Sessions that build a package: the hash trees stay right (used for C102). -/
namespace Bpak

/-- Commands that only build: nothing is deleted, `bpak set` sets key ids only, and salt and root hash entries are left alone. -/
def Cmd.builds {SK : Type} : Cmd SK → Prop
  | .delete _ _ _ => False
  | .set o => o.name = none
  | .addMeta o => bpakId o.name ≠ idMerkleSalt ∧ bpakId o.name ≠ idMerkleRootHash
  | _ => True

theorem BuildInv.logged {H : HashFn} {p : Pkg} {s : List (U32 × Bytes)} (i : BuildInv H p s) (l : List FOp) : BuildInv H ⟨p.hdr, p.file, l⟩ s :=
  ⟨i.pkg.logged l, i.trees, i.size, i.refs, i.tree0⟩

theorem BuildInv.run {SK PK : Type} {H : HashFn} (hH : HashLen H) (S : SigScheme SK PK) (hS : ∀ sk rnd k d, S.sign sk rnd k d ≠ .error .ok) :
    ∀ (ops : List (BuildOp SK)) {p p' : Pkg} {s : List (U32 × Bytes)}, (∀ o ∈ ops, o.builds) → BuildInv H p s → buildRun H S p ops = some p' →
      BuildInv H p' (buildExpect H s ops) := by
  intro ops
  induction ops with
  | nil => intro p p' s _ i h; cases h; exact i
  | cons o ops ih =>
    intro p p' s hb i h
    simp only [buildRun] at h
    split at h
    · cases h
    · rename_i p1 h1
      exact ih (fun o ho => hb o (by simp [ho])) (build_step H hH S p p1 s o hS (hb o (by simp)) i h1) h

/-- Several changes of the header, written once. -/
theorem BuildInv.headers {H : HashFn} (hH : HashLen H) : ∀ (os : List Op) {p : Pkg} {s : List (U32 × Bytes)} (_ : BuildInv H p s)
    (_ : ∀ o ∈ os, o.keepsParts = true ∧ BuildOp.builds (SK := Unit) (.plain (.header o))) (h' : Header) (_ : Bpak.run p.hdr os = some h'),
    ∃ p', p'.hdr = h' ∧ p'.file = fileWrite p.file 0 h'.image ∧ BuildInv H p' s := by
  intro os
  induction os with
  | nil =>
    intro p s i _ h' hr
    cases hr
    exact ⟨p, rfl, i.pkg.rewrite.symm, i⟩
  | cons o os ih =>
    intro p s i ho h' hr
    simp only [Bpak.run] at hr
    cases hst : step p.hdr o with
    | none => rw [hst] at hr; cases hr
    | some h1 =>
      rw [hst] at hr
      have i1 : BuildInv H (writeHeader { p with hdr := h1 }) s := by
        have := build_step (SK := Unit) (PK := Unit) H hH ⟨fun _ _ _ _ => .error .failed, fun _ _ _ _ => .ok false⟩ p (writeHeader { p with hdr := h1 }) s (.plain (.header o))
          (fun _ _ _ _ h => by cases h) (ho o (by simp)).2 i (by
            simp only [buildStep, pkgStep]
            rw [if_pos (ho o (by simp)).1, hst])
        exact this
      have e1 : (writeHeader { p with hdr := h1 }).hdr = h1 := rfl
      obtain ⟨p', a, b, c⟩ := ih i1 (fun o' h => ho o' (by simp [h])) h' (by rw [e1]; exact hr)
      refine ⟨p', a, ?_, c⟩
      have w1 : h1.WF := (inv_step i.pkg.hdr hst).wf
      have w' : h'.WF := by rw [← a]; exact c.pkg.good.wf
      rw [b, show (writeHeader { p with hdr := h1 }).file = fileWrite p.file 0 h1.image from rfl, fileWrite_zero, fileWrite_zero, fileWrite_zero,
        image_length w1, image_length w', List.drop_append_of_le_length (by rw [image_length w1]; omega), List.drop_of_length_le (by rw [image_length w1]; omega), List.nil_append]

/-- A new entry, filled in whole or in part. -/
theorem BuildInv.newMeta {H : HashFn} (hH : HashLen H) {p : Pkg} {s : List (U32 × Bytes)} (i : BuildInv H p s) (id ref : U32) (hid : id ≠ 0)
    (hn : id ≠ idMerkleSalt ∧ id ≠ idMerkleRootHash) (size : U16) (d : Bytes) (hok : (addMeta p.hdr id ref size).1 = .ok) (m : MetaHdr) (md : Bytes)
    (hm : (addMeta p.hdr id ref size).2.1.metas[(addMeta p.hdr id ref size).2.2]? = some m)
    (hw : writeAt (addMeta p.hdr id ref size).2.1.metadata m.offset.toNat d = some md) :
    ∃ p', p'.hdr = { (addMeta p.hdr id ref size).2.1 with metadata := md } ∧
      p'.file = fileWrite p.file 0 { (addMeta p.hdr id ref size).2.1 with metadata := md }.image ∧ BuildInv H p' s := by
  have hnew := i.pkg.newMeta id ref hid size d
  rw [if_pos hok] at hnew
  obtain ⟨p', q1, q2, q3⟩ := hnew m md hm hw
  refine ⟨p', q1, q2, i.grow hH q3 ?_⟩
  obtain ⟨us, k, im⟩ := i.pkg.hdr.metas
  have hus : usedMetas p.hdr = us := im.used
  rcases addMeta_cases im id ref size with ⟨-, hc, -⟩ | ⟨-, -, hc, -⟩ | ⟨-, -, -, hc⟩ | ⟨h1, h2, h3, -⟩
  · rw [hok] at hc; cases hc
  · rw [hok] at hc; cases hc
  · rw [hok] at hc; cases hc
  · obtain ⟨m', a1, a2, a3, a4, a5, a6, im2⟩ := addMeta_ok_inv im hid h1 h2 h3
    rw [a6] at hm hw q1 q2
    simp only at hm hw q1 q2
    have hmm : m = m' := by
      rw [List.getElem?_append_right (Nat.le_refl _), Nat.sub_self] at hm
      simpa using hm.symm
    subst hmm
    obtain ⟨w1, w2, w3⟩ := writeAt_some hw
    have wf : p'.hdr.WF := q3.good.wf
    have hf : p'.file.drop 4096 = p.file.drop 4096 := by
      rw [q2, ← q1, fileWrite_zero, image_length wf, List.drop_append_of_le_length (by rw [image_length wf]; omega),
        List.drop_of_length_le (by rw [image_length wf]; omega), List.nil_append]
    refine ⟨⟨[], ?_⟩, ⟨[m], ?_, ?_⟩, ⟨[], by rw [hf, List.append_nil]⟩, ?_⟩
    · unfold usedParts; rw [q1]; simp
    · rw [hus]
      have : usedMetas p'.hdr = usedMetas { p.hdr with metas := us ++ m :: List.replicate (k-1) MetaHdr.zero } := by unfold usedMetas; rw [q1]
      rw [this]; exact im2.used
    · intro x hx
      rw [List.mem_singleton.1 hx, a1]; exact hn
    · intro x hx hk
      have h32 := i.size x hx hk
      rw [hus] at hx
      have hx2 := (im.packed.ge x hx).2
      have hmd := im.md
      have hd := im2.packed.disjoint
      rw [List.pairwise_append] at hd
      have hdx := hd.2.2 x hx m (by simp)
      rw [q1]
      simp only
      rw [readAt_eq_some (by omega), readAt_eq_some (by omega)]
      congr 1
      apply window_eq (by omega) (by omega)
      intro b hb
      rw [w3, if_neg]
      intro hc
      omega

/-- One building command. -/
theorem cmd_build {SK PK : Type} {H : HashFn} (hH : HashLen H) (S : SigScheme SK PK) (hS : ∀ sk rnd k d, S.sign sk rnd k d ≠ .error .ok)
    {p : Pkg} {s : List (U32 × Bytes)} (i : BuildInv H p s) (c : Cmd SK) (hb : c.builds) (ha : Allowed H (some p.file) c) (e : Err) (f' : Option Bytes)
    (hs : cmdStep H S (some p.file) c = some (e, f')) (ht : c.isTree = true → e = .ok) :
    ∃ p' s', f' = some p'.file ∧ BuildInv H p' s' := by
  obtain ⟨p1, hf1, i1, hfail⟩ := cmd_step hH S hS i.pkg c ha e f' hs ht
  by_cases he : e = .ok
  case neg => exact ⟨p, s, by rw [hf1, hfail he], i⟩
  subst he
  have i0 := i.logged []
  have one : ∀ (op : BuildOp SK) (q : Pkg), op.builds → buildStep H S ⟨p.hdr, p.file, []⟩ op = some q → f' = some q.file → ∃ p' s', f' = some p'.file ∧ BuildInv H p' s' :=
    fun op q h1 h2 h3 => ⟨q, _, h3, build_step H hH S _ q s op hS h1 i0 h2⟩
  have fin : ∀ {r : Out (Err × Bytes)}, (match r with | .ub => none | .ret (e, f') => some (e, some f')) = some (Err.ok, f') → ∃ g, r = .ret (.ok, g) ∧ f' = some g := by
    intro r h
    cases r with
    | ub => cases h
    | ret r =>
      obtain ⟨e1, g⟩ := r
      have h := Prod.mk.inj (Option.some.inj h)
      exact ⟨g, by rw [h.1], h.2.symm⟩
  cases c with
  | create hash sig force answer =>
    have hs : createCmd H (some p.file) hash sig force answer = (.ok, f') := by
      have : cmdStep H S (some p.file) (.create hash sig force answer) = some (createCmd H (some p.file) hash sig force answer) := rfl
      rw [this] at hs
      exact Option.some.inj hs
    by_cases hk : (∃ k, Named hashNames 1 hash k) ∧ (∃ k, Named signatureNames 2 sig k) ∧ (force = true ∨ answer = 89)
    · obtain ⟨⟨hk, h1⟩, ⟨sk, h2⟩, h3⟩ := hk
      obtain ⟨p', a1, a2, -⟩ := C79_create H hH S (some p.file) hash sig force answer hk sk h1 h2 (Or.inr h3)
      rw [a1] at hs
      have hr := a2 ⟨p.hdr, p.file, []⟩
      simp only [pkgRun] at hr
      split at hr
      · cases hr
      · rename_i q hq
        cases hr
        exact one (.plain (.create hk sk)) p' trivial hq (Prod.mk.inj hs).2.symm
    · exfalso
      obtain ⟨e', h1, h2⟩ := C79_create_refused H (some p.file) hash sig force answer (by
        by_cases h1 : ∃ k, Named hashNames 1 hash k
        · by_cases h2 : ∃ k, Named signatureNames 2 sig k
          · refine Or.inr (Or.inr ⟨by simp, ?_, ?_⟩)
            · cases hf : force with
              | false => rfl
              | true => exact absurd ⟨h1, h2, Or.inl hf⟩ hk
            · intro h; exact hk ⟨h1, h2, Or.inr h⟩
          · exact Or.inr (Or.inl (fun k h => h2 ⟨k, h⟩))
        · exact Or.inl (fun k h => h1 ⟨k, h⟩))
      rw [h2] at hs
      exact h1 (Prod.mk.inj hs).1
  | addPart name dontHash enc src key salt =>
    obtain ⟨hid, hroom⟩ := ha
    have hfl : (if dontHash then (1 : U8) else 0) &&& 2 = 0 := by cases dontHash <;> decide
    simp only [cmdStep] at hs
    cases hc : addPartCmd H p.file name dontHash enc src key salt with
    | none => rw [hc] at hs; cases hs
    | some r =>
      rw [hc] at hs
      obtain ⟨g, rfl, rfl⟩ := fin hs
      unfold addPartCmd at hc
      rw [i.pkg.open] at hc
      simp only [ne_eq, not_true_eq_false, if_false] at hc
      cases src with
      | none => cases hc
      | some d =>
        obtain ⟨hsz, hkey, htree⟩ := hroom p.file d rfl rfl
        simp only at hc
        cases enc with
        | none =>
          simp only at hc
          cases hq : addFile H (d.length + 2) ⟨p.hdr, p.file, []⟩ (bpakId name) (if dontHash then (1 : U8) else 0) d.length d with
          | none => rw [hq] at hc; cases hc
          | some r =>
            obtain ⟨e1, q⟩ := r
            rw [hq] at hc
            simp only [Option.some.injEq] at hc
            obtain ⟨rfl, rfl⟩ := Prod.mk.inj (Out.ret.inj hc)
            refine one (.plain (.addFile (bpakId name) (if dontHash then (1 : U8) else 0) d)) q trivial ?_ rfl
            simp only [buildStep, pkgStep]
            rw [if_neg (by
              rintro (h | h | h)
              · exact hid h
              · exact h hfl
              · omega), hq]
        | some enc =>
          simp only at hc
          by_cases hk : enc = ascii "key"
          · rw [if_pos hk] at hc
            subst hk
            obtain ⟨k1, k2⟩ := hkey rfl
            cases key with
            | error e0 =>
              have hc := Prod.mk.inj (Out.ret.inj (Option.some.inj hc))
              exact absurd (by rw [hc.1]) k1
            | ok k =>
              cases hq : addKey H ⟨p.hdr, p.file, []⟩ (bpakId name) (if dontHash then (1 : U8) else 0) (.ok k) with
              | ub => rw [hq] at hc; cases hc
              | ret r =>
                obtain ⟨e1, q⟩ := r
                rw [hq] at hc
                simp only [Option.some.injEq] at hc
                obtain ⟨rfl, rfl⟩ := Prod.mk.inj (Out.ret.inj hc)
                have hsz2 := k2 k rfl
                obtain ⟨q', w1, -, w2⟩ := key_step hH i0.pkg (bpakId name) hid _ hfl k hsz2 .ok q hq
                refine one (.plain (.addFile (bpakId name) (if dontHash then (1 : U8) else 0) k)) q' trivial ?_ (by rw [w2])
                simp only [buildStep, pkgStep]
                rw [if_neg (by
                  rintro (h | h | h)
                  · exact hid h
                  · exact h hfl
                  · omega), w1]
          · rw [if_neg hk] at hc
            by_cases hm : enc = ascii "merkle"
            · subst hm
              obtain ⟨t1, t2, t3⟩ := htree rfl
              rw [if_pos rfl] at hc
              split at hc
              · cases hc
              · cases hc
              · rename_i e1 q hq
                simp only [Option.some.injEq] at hc
                obtain ⟨rfl, rfl⟩ := Prod.mk.inj (Out.ret.inj hc)
                refine one (.tree (bpakId name) (if dontHash then (1 : U8) else 0) d salt) q trivial ?_ rfl
                simp only [buildStep]
                rw [if_neg (by
                  rintro (h | h | h | h | h)
                  · exact hid h
                  · exact t1 h
                  · exact h hfl
                  · exact h t2
                  · omega), hq]
            · rw [if_neg hm] at hc
              have hc := Prod.mk.inj (Out.ret.inj (Option.some.inj hc))
              cases hc.1
  | addMeta o =>
    obtain ⟨g, hg, rfl⟩ := fin (r := addMetaCmd H p.file o) hs
    have same : ∀ {e0 : Err}, (Out.ret (e0, p.file) : Out (Err × Bytes)) = .ret (.ok, g) → ∃ p' s', some g = some p'.file ∧ BuildInv H p' s' :=
      fun h => ⟨p, s, by rw [(Prod.mk.inj (Out.ret.inj h)).2], i⟩
    rw [addMetaCmd_open i.pkg] at hg
    split at hg
    · exact same hg
    · split at hg
      · cases hg
      · exact same hg
      · rename_i d _
        simp only at hg
        split at hg
        · rename_i hno
          exact absurd (Prod.mk.inj (Out.ret.inj hg)).1 hno
        · rename_i hok
          split at hg
          · cases hg
          · rename_i m hm
            split at hg
            · cases hg
            · rename_i md hw
              obtain ⟨p', q1, q2, q3⟩ := i.newMeta hH (bpakId o.name) ((o.ref.map bpakId).getD 0) ha hb (BitVec.ofNat 16 d.length) d (Classical.not_not.1 hok) m md hm hw
              simp only [Out.ret.injEq, Prod.mk.injEq] at hg
              exact ⟨p', s, by rw [q2, hg.2], q3⟩
  | set o =>
    obtain ⟨g, hg, rfl⟩ := fin (r := setCmd p.file o) hs
    have hn : o.name = none := hb
    unfold setCmd at hg
    split at hg
    · cases (Prod.mk.inj (Out.ret.inj hg)).1
    · rw [if_neg (by rw [hn]; simp), if_neg (by have := i.pkg.saved.1; omega)] at hg
      simp only [i.pkg.saved.2, i.pkg.valid, ne_eq, not_true_eq_false, if_false, hn] at hg
      obtain ⟨p', q1, q2, q3⟩ := i.headers hH [.setKeyId ((o.keyId.map idForNameOrRef).getD p.hdr.keyId), .setKeystoreId ((o.keystoreId.map idForNameOrRef).getD p.hdr.keystoreId)]
        (by simp [Op.keepsParts, BuildOp.builds]) _ rfl
      refine ⟨p', s, ?_, q3⟩
      rw [q2, ← (Prod.mk.inj (Out.ret.inj hg)).2]
      cases o.keyId <;> cases o.keystoreId <;> rfl
  | transportAdd ref enc dec =>
    obtain ⟨g, hg, rfl⟩ := fin (r := transportAddCmd H p.file ref enc dec) hs
    unfold transportAddCmd at hg
    rw [i.pkg.open] at hg
    simp only [ne_eq, not_true_eq_false, if_false] at hg
    have hnew := i.newMeta hH idBpakTransport ((ref.map idForNameOrRef).getD 0) (by decide) (by decide) 32 (le32 (bpakId enc) ++ le32 (bpakId dec))
    generalize hr : addMeta p.hdr idBpakTransport ((ref.map idForNameOrRef).getD 0) 32 = r at hnew
    obtain ⟨e1, h1, j⟩ := r
    by_cases hok : e1 = .ok
    · subst hok
      unfold addTransportMeta at hg
      rw [hr] at hg
      simp only at hg hnew
      split at hg
      · cases hg
      · rename_i e2 h2 hx
        split at hx
        · cases hx
        · rename_i m hm
          split at hx
          · cases hx
          · rename_i md hw
            simp only [Out.ret.injEq, Prod.mk.injEq] at hx
            obtain ⟨rfl, rfl⟩ := hx
            obtain ⟨p', q1, q2, q3⟩ := hnew trivial m md hm hw
            simp only [not_true_eq_false, if_false, Out.ret.injEq, Prod.mk.injEq] at hg
            refine ⟨p', s, ?_, q3⟩
            rw [q2, ← hg.2]; rfl
    · have : addTransportMeta p.hdr ((ref.map idForNameOrRef).getD 0) (bpakId enc) (bpakId dec) = .ret (e1, h1) := by
        unfold addTransportMeta
        rw [hr]
        cases e1 <;> first | exact absurd rfl hok | rfl
      rw [this] at hg
      simp only at hg
      rw [if_pos hok] at hg
      exact absurd (Prod.mk.inj (Out.ret.inj hg)).1 hok
  | signRaw sig =>
    obtain ⟨g, hg, rfl⟩ := fin (r := signRawCmd H p.file sig) hs
    by_cases hl : (sig.take 1024).length ≤ 512
    · have hl2 : sig.length ≤ 512 := by rw [List.length_take] at hl; omega
      obtain ⟨p', a1, a2, -⟩ := signRaw_step H S i0.pkg sig hl2
      rw [a2] at hg
      exact one (.plain (.signRaw sig)) p' trivial a1 (by rw [(Prod.mk.inj (Out.ret.inj hg)).2])
    · unfold signRawCmd at hg
      rw [i.pkg.open] at hg
      simp only [ne_eq, not_true_eq_false, if_false, writeRawSignature] at hg
      rw [if_pos (by omega)] at hg
      cases hg
  | sign key rnd =>
    have hs := Prod.mk.inj (Option.some.inj hs)
    have hcmd : signCmd H S p.file rnd key = ((pkgSign H S rnd key ⟨p.hdr, p.file, []⟩).1, (pkgSign H S rnd key ⟨p.hdr, p.file, []⟩).2.file) := by
      unfold signCmd
      rw [i.pkg.open]
      rfl
    rw [hcmd] at hs
    cases key with
    | error e2 =>
      exfalso
      have h1 := hs.1
      rw [pkgSign_eq H hH S rnd _ _ i0.pkg.good i.pkg.small] at h1
      exact ha (congrArg Except.error h1)
    | ok sk =>
      refine one (.plain (.sign sk rnd)) (pkgSign H S rnd (.ok sk) ⟨p.hdr, p.file, []⟩).2 trivial ?_ hs.2.symm
      simp only [buildStep, pkgStep]
      split
      · rename_i p' hp; rw [hp]
      · rename_i hno
        exact absurd (Prod.ext hs.1 rfl : pkgSign H S rnd (.ok sk) ⟨p.hdr, p.file, []⟩ = (.ok, (pkgSign H S rnd (.ok sk) ⟨p.hdr, p.file, []⟩).2)) (hno _)
  | delete part all keep' => exact absurd hb (fun h => h)

/-- One building command on no file: `bpak create`. -/
theorem first_build {SK PK : Type} {H : HashFn} (hH : HashLen H) (S : SigScheme SK PK) (hS : ∀ sk rnd k d, S.sign sk rnd k d ≠ .error .ok)
    (c : Cmd SK) (e : Err) (f' : Option Bytes) (hs : cmdStep H S none c = some (e, f')) :
    f' = none ∨ ∃ p' s', f' = some p'.file ∧ BuildInv H p' s' := by
  rcases cmd_first hH S hS c e f' hs with ⟨-, h⟩ | ⟨rfl, ⟨hash, sig, force, answer, rfl⟩, p1, rfl, i1⟩
  · exact Or.inl h
  · have hs : createCmd H none hash sig force answer = (.ok, some p1.file) := Option.some.inj hs
    by_cases hk : (∃ k, Named hashNames 1 hash k) ∧ (∃ k, Named signatureNames 2 sig k)
    · obtain ⟨⟨hk, h1⟩, ⟨sk, h2⟩⟩ := hk
      obtain ⟨p', a1, a2, -, -, hu, hum, -⟩ := C79_create H hH S none hash sig force answer hk sk h1 h2 (Or.inl rfl)
      rw [a1] at hs
      obtain ⟨p0, e0, -⟩ := C56_open_new H hH
      have i' := run_inv H hH S hS [.create hk sk] p0 p' e0 (a2 p0)
      exact Or.inr ⟨p', _, (Prod.mk.inj hs).2.symm, i', (by intro x hx; rw [hu] at hx; cases hx), by rw [hum]; simp, by rw [hum]; simp, by rw [hum]; simp⟩
    · obtain ⟨e', h1, h2⟩ := C79_create_refused H none hash sig force answer (by
        by_cases h1 : ∃ k, Named hashNames 1 hash k
        · exact Or.inr (Or.inl (fun k h => hk ⟨h1, k, h⟩))
        · exact Or.inl (fun k h => h1 ⟨k, h⟩))
      rw [h2] at hs
      exact absurd (Prod.mk.inj hs).1 h1

/-- After every session of building commands the trees are right. -/
theorem session_build {SK PK : Type} {H : HashFn} (hH : HashLen H) (S : SigScheme SK PK) (hS : ∀ sk rnd k d, S.sign sk rnd k d ≠ .error .ok)
    {t : List (Cmd SK × Err)} {f : Option Bytes} (h : Session H S t f) (hb : ∀ c ∈ t, c.1.builds) :
    f = none ∨ ∃ p s, f = some p.file ∧ BuildInv H p s := by
  induction h with
  | start => exact Or.inl rfl
  | @run t f f' c e h1 ha hs ht ih =>
    rcases ih (fun c hc => hb c (by simp [hc])) with rfl | ⟨p, s, rfl, i⟩
    · exact first_build hH S hS c e f' hs
    · exact Or.inr (cmd_build hH S hS i c (hb (c, e) (by simp)) ha e f' hs ht)

end Bpak
