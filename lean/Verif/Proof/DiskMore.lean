import Verif.Proof.DiskCalls
/-! Every call on a disk that can be full: signing, opening, deleting, files with a hash tree. -/
namespace Bpak

theorem updateHashD_clean (H : HashFn) (w : Disk) (hp : w.pending = false) :
    updateHashD H w = ((updateHash H w.pkg).1, { w with pkg := (updateHash H w.pkg).2 }) := by
  unfold updateHashD updateHash
  rw [if_neg (by rw [hp]; decide)]
  split
  · rename_i d h; simp only [h]
  · rename_i e x hne h
    have : { w with pending := false } = w := by cases w; simp only at hp; rw [hp]
    rw [this]
    split
    · rename_i h2; rw [h] at h2; have := Prod.mk.inj h2; exact (hne _ this.1 this.2).elim
    · rename_i h2; rw [h] at h2; have := Prod.mk.inj h2; rw [this.1]

theorem Track.hash_clean {P : Prop} {p0 p : Pkg} {w : Disk} (H : HashFn) (t : Track P p0 p w) (hp : w.pending = false) :
    ∃ w', updateHashD H w = ((updateHash H p).1, w') ∧ Track P p0 (updateHash H p).2 w' ∧ w'.pending = false := by
  have e := t.clean hp
  subst e
  refine ⟨_, updateHashD_clean H w hp, ?_, hp⟩
  have g := Onward.updateHash H w.pkg
  exact ⟨t.grows.trans g, .same (t.grows.trans g), rfl, fun _ => rfl, t.prompt⟩

/-! ### the header, signatures -/

theorem writeHeaderD_ok (w : Disk) (hp : w.pending = false) : ResT (Prompt w.luck) w.pkg (.ok, writeHeader w.pkg) (writeHeaderD w) := (Track.start hp).writeHeader

theorem writeRawSignatureD_ok (w : Disk) (hp : w.pending = false) (sig : Bytes) :
    (∀ b, writeRawSignature w.pkg sig = .ret b → ∃ r, writeRawSignatureD w sig = .ret r ∧ ResT (Prompt w.luck) w.pkg b r) ∧
    (writeRawSignature w.pkg sig = .ub → writeRawSignatureD w sig = .ub) := by
  unfold writeRawSignature writeRawSignatureD
  split
  · exact ⟨fun b h => (by cases h), fun _ => rfl⟩
  · refine ⟨fun b h => ?_, fun h => (by cases h)⟩
    cases h
    exact ⟨_, rfl, ((Track.start hp).setHdr _).writeHeader⟩

theorem pkgSignD_ok {SK PK : Type} (H : HashFn) (S : SigScheme SK PK) (rnd : Bytes) (key : Except Err SK) (w : Disk) (hp : w.pending = false) :
    ResT (Prompt w.luck) w.pkg (pkgSign H S rnd key w.pkg) (pkgSignD H S rnd key w) := by
  obtain ⟨w1, e1, t1, hp1⟩ := (Track.start hp).hash_clean H hp
  unfold pkgSign pkgSignD
  rw [e1]
  rcases hu : updateHash H w.pkg with ⟨e, p1⟩
  rw [hu] at t1
  simp only at t1 ⊢
  by_cases he : e = .ok
  · subst he
    simp only
    rw [t1.hdr]
    rcases computeHeaderHash H p1.hdr 64 with ⟨e2, x⟩
    by_cases he2 : ∃ d, (e2, x) = (Err.ok, some d)
    · obtain ⟨d, hd⟩ := he2
      rw [hd]
      simp only
      rcases key with e3 | sk
      · exact t1.same hp1 _
      · simp only
        rcases S.sign sk rnd p1.hdr.hashKind d with e4 | sig
        · have t2 := t1.setHdr { p1.hdr with signature := List.replicate 512 0 }
          exact t2.same hp1 _
        · simp only
          split
          · have t2 := t1.setHdr { p1.hdr with signature := List.replicate 512 0 }
            exact t2.same hp1 _
          · exact (t1.setHdr _).writeHeader
    · split
      · rename_i d h; have := Prod.mk.inj h; exact absurd ⟨d, by rw [this.1, this.2]⟩ he2
      · rename_i h
        split
        · rename_i d h; have := Prod.mk.inj h; exact absurd ⟨d, by rw [this.1, this.2]⟩ he2
        · rename_i h2
          rw [← (Prod.mk.inj h).1, ← (Prod.mk.inj h2).1]
          exact t1.same hp1 _
  · cases e <;> first | exact absurd rfl he | exact t1.same hp1 _

/-! ### opening -/

theorem pkgOpenD_ok (H : HashFn) (canWrite : Bool) (f : Bytes) (luck : List Luck) (h : Header) :
    Res True ⟨h, f, []⟩ (pkgOpen H canWrite f) (pkgOpenD H canWrite f luck) := by
  unfold pkgOpen pkgOpenD
  split
  · exact ⟨.hdr ⟨h, f, []⟩ _, fun he => ⟨he, rfl, .inl ⟨rfl, rfl⟩⟩, fun _ => .same (.hdr ⟨h, f, []⟩ _)⟩
  · have t : Track (Prompt luck) ⟨h, f, []⟩ ⟨initHeader, f, []⟩ ⟨⟨initHeader, f, []⟩, luck, false⟩ :=
      ⟨.hdr ⟨h, f, []⟩ _, .same (.hdr ⟨h, f, []⟩ _), rfl, fun _ => rfl, fun hP => ⟨rfl, hP⟩⟩
    obtain ⟨w1, e1, t1, hp1⟩ := t.hash_clean H rfl
    rw [e1]
    rcases hu : updateHash H ⟨initHeader, f, []⟩ with ⟨e, p1⟩
    rw [hu] at t1
    simp only at t1 ⊢
    have same : ∀ e, Res True ⟨h, f, []⟩ (e, p1) (e, w1) := fun e => ⟨t1.grows, fun he => ⟨he, t1.hdr, .inl ⟨t1.clean hp1, hp1⟩⟩, fun _ => t1.fail⟩
    by_cases he : e = .ok
    · subst he
      simp only
      cases canWrite with
      | false => exact same _
      | true =>
        simp only [if_true]
        rw [t1.hdr]
        rcases hf : w1.fwrite f.length p1.hdr.image with ⟨b, w2⟩
        cases b with
        | false => exact .failed (t1.grows.trans (.write _ _ _)) (t1.fwrite_false hf) (by decide)
        | true =>
          have t2 := (t1.fwrite_true hf).1
          simp only
          rcases hs : w2.fseek 0 with ⟨b, w3⟩
          cases b with
          | false => exact .failed t2.grows (t2.fseek_false hs) (by decide)
          | true =>
            obtain ⟨rfl, hp3, ep3, _⟩ := t2.fseek_true hs
            simp only
            rw [ep3]
            exact ⟨t2.grows, fun he => ⟨he, t2.hdr, .inl ⟨ep3, hp3⟩⟩, fun _ => t2.fail⟩
    · cases e <;> first | exact absurd rfl he | exact same _

/-! ### deleting -/

theorem moveData_grows (k : Nat) : ∀ (p : Pkg) (rd wr rem : U64) (e : Err) (p' : Pkg), moveData k p rd wr rem = some (e, p') → Onward p p' := by
  induction k with
  | zero => intro p rd wr rem e p' h; cases h
  | succ k ih =>
    intro p rd wr rem e p' h
    unfold moveData at h
    split at h
    · cases h; exact .refl _
    · split at h
      · cases h; exact .refl _
      · split at h
        · cases h; exact .refl _
        · exact (Onward.write _ _ _).trans (ih _ _ _ _ _ _ h)

theorem moveDataD_ok {P : Prop} {p0 : Pkg} (k : Nat) : ∀ (p : Pkg) (w : Disk) (rd wr rem : U64) (e : Err) (p' : Pkg), Track P p0 p w → moveData k p rd wr rem = some (e, p') →
    ∃ e' w', moveDataD k w rd wr rem = some (e', w') ∧ (e' = .ok → e = .ok ∧ Track P p0 p' w') ∧ (e' ≠ .ok → Fail p0 p' w'.pkg.file) := by
  induction k with
  | zero => intro p w rd wr rem e p' _ h; cases h
  | succ k ih =>
    intro p w rd wr rem e p' t h
    have g := moveData_grows _ _ _ _ _ _ _ h
    unfold moveData at h
    unfold moveDataD
    split at h
    · rename_i h0
      cases h
      exact ⟨.ok, w, by rw [if_pos h0], fun _ => ⟨rfl, t⟩, fun h => absurd rfl h⟩
    · rename_i h0
      rw [if_neg h0]
      rcases hs : w.fseek rd.toNat with ⟨b, w1⟩
      cases b with
      | false => exact ⟨_, _, rfl, fun h => (by cases h), fun _ => (t.fseek_false hs).grows g⟩
      | true =>
        obtain ⟨rfl, hp, ep, hrd⟩ := t.fseek_true hs
        rw [if_neg (by omega)] at h
        simp only
        rw [fseek_pos hp]
        by_cases hw : wr.toNat < 2^63
        · rw [if_neg (by omega)] at h
          rw [decide_eq_true hw, ep]
          simp only
          rcases hf : w1.fwrite wr.toNat (fileRead p.file rd.toNat 4096) with ⟨b, w2⟩
          cases b with
          | false => exact ⟨_, _, rfl, fun h => (by cases h), fun _ => (t.fwrite_false hf).grows (moveData_grows _ _ _ _ _ _ _ h)⟩
          | true => exact ih _ _ _ _ _ _ _ (t.fwrite_true hf).1 h
        · rw [if_pos (by omega)] at h
          cases h
          rw [decide_eq_false hw]
          exact ⟨_, _, rfl, fun h => (by cases h), fun _ => t.fail⟩

theorem moveDataD_none {P : Prop} {p0 : Pkg} (k : Nat) : ∀ (p : Pkg) (w : Disk) (rd wr rem : U64), Track P p0 p w → moveData k p rd wr rem = none →
    ∀ w', moveDataD k w rd wr rem ≠ some (.ok, w') := by
  induction k with
  | zero => intro p w rd wr rem _ _ w' h; cases h
  | succ k ih =>
    intro p w rd wr rem t h w' hd
    unfold moveData at h
    unfold moveDataD at hd
    split at h
    · cases h
    · rename_i h0
      rw [if_neg h0] at hd
      split at h
      · cases h
      · split at h
        · cases h
        · rcases hs : w.fseek rd.toNat with ⟨b, w1⟩
          rw [hs] at hd
          cases b with
          | false => cases hd
          | true =>
            obtain ⟨rfl, hp, ep, hrd⟩ := t.fseek_true hs
            simp only at hd
            rw [fseek_pos hp, decide_eq_true (by omega), ep] at hd
            simp only at hd
            rcases hf : w1.fwrite wr.toNat (fileRead p.file rd.toNat 4096) with ⟨b, w2⟩
            rw [hf] at hd
            cases b with
            | false => cases hd
            | true => exact ih _ _ _ _ _ (t.fwrite_true hf).1 h _ hd

/-- Hash, header and truncation on a disk with room. -/
def finishTrunc (H : HashFn) (size : Header → Nat) (p : Pkg) : Err × Pkg :=
  match updateHash H p with
  | (.ok, p) => (.ok, (writeHeader p).trunc (size p.hdr))
  | (e, p) => (e, p)

theorem finishTrunc_match (H : HashFn) {α : Type} (size : Header → Nat) (p : Pkg) (k : Err × Pkg → α) :
    (match updateHash H p with | (.ok, p) => k (.ok, (writeHeader p).trunc (size p.hdr)) | (e, p) => k (e, p)) = k (finishTrunc H size p) := by
  unfold finishTrunc
  rcases updateHash H p with ⟨e, q⟩
  cases e <;> rfl

theorem Onward.finishTrunc (H : HashFn) (size : Header → Nat) (p : Pkg) : Onward (Bpak.finish H p).2 (Bpak.finishTrunc H size p).2 := by
  unfold Bpak.finish Bpak.finishTrunc
  rcases Bpak.updateHash H p with ⟨e, q⟩
  by_cases he : e = Err.ok
  · subst he; exact .trunc _ _
  · cases e <;> first | exact absurd rfl he | exact .refl _

theorem Track.finishTrunc {P : Prop} {p0 p : Pkg} {w : Disk} (H : HashFn) (size : Header → Nat) (t : Track P p0 p w) :
    Res P p0 (Bpak.finishTrunc H size p) (finishTruncD H size w) := by
  have gall : Onward p0 (Bpak.finishTrunc H size p).2 := (t.grows.trans (.finish H p)).trans (.finishTrunc H size p)
  unfold finishTruncD
  rcases hr : finishD H w with ⟨e, w1⟩
  by_cases he : e = .ok
  · subst he
    obtain ⟨p1, e1, g, d, t2⟩ := t.finish_ok H hr
    simp only
    have e2 : Bpak.finishTrunc H size p = (.ok, (Bpak.writeHeader p1).trunc (size p1.hdr)) := by
      unfold Bpak.finish at e1
      unfold Bpak.finishTrunc
      rcases hu : updateHash H p with ⟨e, q⟩
      rw [hu] at e1
      by_cases he : e = .ok
      · subst he
        simp only at e1 ⊢
        have e1 := (Prod.mk.inj e1).2
        have eq : (Bpak.writeHeader q).hdr = (Bpak.writeHeader p1).hdr := congrArg (fun x : Pkg => x.hdr) e1
        have eq : q.hdr = p1.hdr := eq
        rw [e1, eq]
      · cases e <;> first | exact absurd rfl he | cases e1
    rcases hf : w1.ftruncate (size w1.pkg.hdr) with ⟨b, w2⟩
    unfold Disk.ftruncate at hf
    cases b with
    | false =>
      simp only
      refine ⟨gall, fun h => (by cases h), fun _ => ?_⟩
      rw [e2]
      refine Fail.grows ?_ (.trunc _ _)
      split at hf
      · cases hf
      · rw [← (Prod.mk.inj hf).2]; exact t2.fail
    | true =>
      simp only
      refine ⟨gall, fun _ => ?_, fun h => absurd rfl h⟩
      rw [e2]
      have eh : w1.pkg.hdr = p1.hdr := t2.hdr
      split at hf
      · rw [← (Prod.mk.inj hf).2]
        refine ⟨rfl, eh, ?_⟩
        rcases d with d | ⟨a, _, m, b, d⟩
        · refine .inl ⟨?_, rfl⟩
          simp only
          rw [eh, d.2]
        · obtain ⟨ops, e, f⟩ := g
          refine .inr ⟨a, ops, [.trunc (size p1.hdr)], m, ?_, b, ?_⟩
          · show (p1.log ++ [.write 0 p1.hdr.image]) ++ [.trunc (size p1.hdr)] = _
            rw [e]; simp only [List.append_assoc]; rfl
          · simp only
            rw [applyOps_append, ← f]
            show applyOp w1.pkg.file (.trunc (size w1.pkg.hdr)) = _
            rw [eh, d]
            rfl
      · cases hf
  · have hF := (t.finish_fail H hr he).grows (.finishTrunc H size p)
    have key : Res P p0 (Bpak.finishTrunc H size p) (e, w1) := ⟨gall, fun h => absurd h he, fun _ => hF⟩
    cases e <;> first | exact absurd rfl he | exact key

theorem deleteAllParts_finish (H : HashFn) (fuel : Nat) (p : Pkg) (rm : Bool) (h : Header)
    (hm : (if rm then removeMetas (fun ref => ref != 0) fuel { p.hdr with parts := List.replicate 32 PartHdr.zero } 0 else
      some (.ret { p.hdr with parts := List.replicate 32 PartHdr.zero })) = some (.ret h)) :
    deleteAllParts H fuel p rm = some (.ret (finishTrunc H (fun _ => 4096) { p with hdr := h })) := by
  unfold deleteAllParts
  simp only [hm]
  exact finishTrunc_match H (fun _ => 4096) _ (fun x => some (Out.ret x))

theorem deletePart_finish (H : HashFn) (fuel : Nat) (p : Pkg) (id : U32) (rm : Bool) (i : Slot) (q : PartHdr) (h h2 : Header) (hg : getPart p.hdr id = some i)
    (hq : p.hdr.parts[i]? = some q) (hd : delPart p.hdr i = .ret h)
    (hm : (if rm then removeMetas (fun ref => ref == id) fuel { h with parts := h.parts.take i ++ (shiftParts (partSize q) (h.parts.drop i)).1 } 0 else
      some (.ret { h with parts := h.parts.take i ++ (shiftParts (partSize q) (h.parts.drop i)).1 })) = some (.ret h2)) (e : Err) (p1 : Pkg)
    (hv : moveData fuel { p with hdr := h2 } (partOffset p.hdr q + partSize q) (partOffset p.hdr q) (shiftParts (partSize q) (h.parts.drop i)).2 = some (e, p1)) :
    (e = .ok → deletePart H fuel p id rm = some (.ret (finishTrunc H (fun h => (partsEnd h.parts 4096).toNat) p1))) ∧
    (e ≠ .ok → deletePart H fuel p id rm = some (.ret (e, p1))) := by
  unfold deletePart
  simp only [hg, hq, hd, hm, hv]
  refine ⟨fun he => ?_, fun he => ?_⟩
  · subst he
    exact finishTrunc_match H (fun h => (partsEnd h.parts 4096).toNat) p1 (fun x => some (Out.ret x))
  · cases e <;> first | exact absurd rfl he | rfl

theorem deleteAllPartsD_ok (H : HashFn) (fuel : Nat) (w : Disk) (hp : w.pending = false) (rm : Bool) :
    (∀ b, deleteAllParts H fuel w.pkg rm = some (.ret b) → ∃ r, deleteAllPartsD H fuel w rm = some (.ret r) ∧ Res (Prompt w.luck) w.pkg b r) ∧
    (deleteAllParts H fuel w.pkg rm = none → deleteAllPartsD H fuel w rm = none) ∧ (deleteAllParts H fuel w.pkg rm = some .ub → deleteAllPartsD H fuel w rm = some .ub) := by
  unfold deleteAllParts deleteAllPartsD
  simp only
  rcases (if rm then removeMetas (fun ref => ref != 0) fuel { w.pkg.hdr with parts := List.replicate 32 PartHdr.zero } 0 else
    some (.ret { w.pkg.hdr with parts := List.replicate 32 PartHdr.zero })) with _ | ⟨h⟩ | _
  · exact ⟨fun b h => (by cases h), fun _ => rfl, fun h => (by cases h)⟩
  · refine ⟨fun b hb => ?_, fun h => ?_, fun h => ?_⟩
    · have hb := (finishTrunc_match H (fun _ => 4096) { w.pkg with hdr := h } (fun x => some (Out.ret x))).symm.trans hb
      cases hb
      exact ⟨_, rfl, ((Track.start hp).setHdr _).finishTrunc H _⟩
    · have hb := (finishTrunc_match H (fun _ => 4096) { w.pkg with hdr := _ } (fun x => some (Out.ret x))).symm.trans h
      cases hb
    · have hb := (finishTrunc_match H (fun _ => 4096) { w.pkg with hdr := _ } (fun x => some (Out.ret x))).symm.trans h
      cases hb
  · exact ⟨fun b h => (by cases h), fun h => (by cases h), fun _ => rfl⟩

theorem deletePartD_ok (H : HashFn) (fuel : Nat) (w : Disk) (hp : w.pending = false) (id : U32) (rm : Bool) :
    (∀ b, deletePart H fuel w.pkg id rm = some (.ret b) → ∃ r, deletePartD H fuel w id rm = some (.ret r) ∧ Res (Prompt w.luck) w.pkg b r) ∧
    (deletePart H fuel w.pkg id rm = none → ∀ r, deletePartD H fuel w id rm = some (.ret r) → r.1 ≠ .ok) ∧
    (deletePart H fuel w.pkg id rm = some .ub → deletePartD H fuel w id rm = some .ub) := by
  have t := Track.start hp
  rcases hg : getPart w.pkg.hdr id with _ | i
  · have e1 : deletePart H fuel w.pkg id rm = some (.ret (.notFound, w.pkg)) := by unfold deletePart; simp only [hg]
    have e2 : deletePartD H fuel w id rm = some (.ret (.notFound, w)) := by unfold deletePartD; simp only [hg]
    rw [e1, e2]
    refine ⟨fun b h => ?_, fun h => (by cases h), fun h => (by cases h)⟩
    cases h
    exact ⟨_, rfl, (t.same hp _).toRes⟩
  · rcases hq : w.pkg.hdr.parts[i]? with _ | q
    · have e1 : deletePart H fuel w.pkg id rm = some .ub := by unfold deletePart; simp only [hg, hq]
      have e2 : deletePartD H fuel w id rm = some .ub := by unfold deletePartD; simp only [hg, hq]
      rw [e1, e2]
      exact ⟨fun b h => (by cases h), fun h => (by cases h), fun _ => rfl⟩
    · rcases hd : delPart w.pkg.hdr i with ⟨h⟩ | _
      · rcases hm : (if rm then removeMetas (fun ref => ref == id) fuel { h with parts := h.parts.take i ++ (shiftParts (partSize q) (h.parts.drop i)).1 } 0 else
          some (.ret { h with parts := h.parts.take i ++ (shiftParts (partSize q) (h.parts.drop i)).1 })) with _ | ⟨h2⟩ | _
        · have e2 : deletePartD H fuel w id rm = none := by unfold deletePartD; simp only [hg, hq, hd, hm]
          have e1 : deletePart H fuel w.pkg id rm = none := by unfold deletePart; simp only [hg, hq, hd, hm]
          rw [e1, e2]
          exact ⟨fun b h => (by cases h), fun _ r h => (by cases h), fun h => (by cases h)⟩
        · have t1 := t.setHdr h2
          rcases hv : moveData fuel { w.pkg with hdr := h2 } (partOffset w.pkg.hdr q + partSize q) (partOffset w.pkg.hdr q) (shiftParts (partSize q) (h.parts.drop i)).2 with _ | ⟨e, p1⟩
          · have e1 : deletePart H fuel w.pkg id rm = none := by unfold deletePart; simp only [hg, hq, hd, hm, hv]
            rw [e1]
            refine ⟨fun b h => (by cases h), fun _ r hr => ?_, fun h => (by cases h)⟩
            unfold deletePartD at hr
            simp only [hg, hq, hd, hm] at hr
            split at hr
            · cases hr
            · rename_i h3; exact absurd h3 (moveDataD_none _ _ _ _ _ _ t1 hv _)
            · rename_i e3 w3 hne h3; cases hr; exact hne
          · obtain ⟨f1, f2⟩ := deletePart_finish H fuel w.pkg id rm i q h h2 hg hq hd hm e p1 hv
            obtain ⟨e', w1, e1, h3, h4⟩ := moveDataD_ok _ _ _ _ _ _ _ _ t1 hv
            have g1 : Onward w.pkg p1 := t1.grows.trans (moveData_grows _ _ _ _ _ _ _ hv)
            by_cases he' : e' = .ok
            · subst he'
              obtain ⟨rfl, t2⟩ := h3 rfl
              have e2 : deletePartD H fuel w id rm = some (.ret (finishTruncD H (fun h => (partsEnd h.parts 4096).toNat) w1)) := by
                unfold deletePartD; simp only [hg, hq, hd, hm, e1]
              rw [f1 rfl, e2]
              refine ⟨fun b h => ?_, fun h => (by cases h), fun h => (by cases h)⟩
              cases h
              exact ⟨_, rfl, t2.finishTrunc H _⟩
            · have e2 : deletePartD H fuel w id rm = some (.ret (e', w1)) := by
                unfold deletePartD; simp only [hg, hq, hd, hm, e1]
              rw [e2]
              have key : ∀ b, Onward p1 b.2 → Res (Prompt w.luck) w.pkg b (e', w1) := fun b gb => ⟨g1.trans gb, fun h => absurd h he', fun _ => (h4 he').grows gb⟩
              by_cases he : e = .ok
              · rw [f1 he]
                refine ⟨fun b h => ?_, fun h => (by cases h), fun h => (by cases h)⟩
                cases h
                exact ⟨_, rfl, key _ ((Onward.finish H p1).trans (.finishTrunc H _ p1))⟩
              · rw [f2 he]
                refine ⟨fun b h => ?_, fun h => (by cases h), fun h => (by cases h)⟩
                cases h
                exact ⟨_, rfl, key _ (.refl _)⟩
        · have e2 : deletePartD H fuel w id rm = some .ub := by unfold deletePartD; simp only [hg, hq, hd, hm]
          have e1 : deletePart H fuel w.pkg id rm = some .ub := by unfold deletePart; simp only [hg, hq, hd, hm]
          rw [e1, e2]
          exact ⟨fun b h => (by cases h), fun h => (by cases h), fun _ => rfl⟩
      · have e2 : deletePartD H fuel w id rm = some .ub := by unfold deletePartD; simp only [hg, hq, hd]
        have e1 : deletePart H fuel w.pkg id rm = some .ub := by unfold deletePart; simp only [hg, hq, hd]
        rw [e1, e2]
        exact ⟨fun b h => (by cases h), fun h => (by cases h), fun _ => rfl⟩

end Bpak
