import Verif.Proof.DiskLuck
import Verif.Props.PkgHistory
/-! Properties of packages on a disk that can be full (C106, C107). -/
namespace Bpak

/-! ### C106 -/

theorem WCall.res {SK PK : Type} (H : HashFn) (S : SigScheme SK PK) (fuel : Nat) (w : Disk) (hp : w.pending = false) (c : WCall SK) :
    (∀ b, c.room H S fuel w.pkg = some (.ret b) → ∃ r, c.disk H S fuel w = some (.ret r) ∧ Res (Prompt w.luck) w.pkg b r) ∧
    ((∀ b, c.room H S fuel w.pkg ≠ some (.ret b)) → ∀ r, c.disk H S fuel w = some (.ret r) → r.1 ≠ .ok) := by
  cases c with
  | addFile id flags n src =>
    obtain ⟨h1, h2⟩ := addFileD_ok H fuel w hp id flags n src
    simp only [WCall.room, WCall.disk]
    rcases hb : Bpak.addFile H fuel w.pkg id flags n src with _ | b
    · refine ⟨fun b h => (by cases h), fun _ r h => ?_⟩
      rcases hd : addFileD H fuel w id flags n src with _ | r'
      · rw [hd] at h; cases h
      · rw [hd] at h; cases h; exact h2 hb _ hd
    · obtain ⟨r, e, hr⟩ := h1 b hb
      refine ⟨fun b' h => ?_, fun h => absurd rfl (h b)⟩
      cases h
      exact ⟨r, by rw [e]; rfl, hr.toRes⟩
  | addTree id flags d salt => exact addFileWithMerkleD_ok H fuel w hp id flags d salt
  | addKey id flags key =>
    obtain ⟨h1, h2⟩ := addKeyD_ok H w hp id flags key
    simp only [WCall.room, WCall.disk]
    rcases hb : Bpak.addKey H w.pkg id flags key with b | _
    · obtain ⟨r, e, hr⟩ := h1 b hb
      refine ⟨fun b' h => ?_, fun h => absurd rfl (h b)⟩
      cases h
      exact ⟨r, by rw [e], hr.toRes⟩
    · exact ⟨fun b h => (by cases h), fun _ r h => h2 hb r (Option.some.inj h)⟩
  | delete id rm =>
    obtain ⟨h1, h2, h3⟩ := deletePartD_ok H fuel w hp id rm
    refine ⟨h1, fun h r hr => ?_⟩
    rcases hb : deletePart H fuel w.pkg id rm with _ | b | _
    · exact h2 hb r hr
    · exact absurd hb (h b)
    · have := h3 hb
      simp only [WCall.disk] at hr
      rw [this] at hr
      cases hr
  | deleteAll rm =>
    obtain ⟨h1, h2, h3⟩ := deleteAllPartsD_ok H fuel w hp rm
    refine ⟨h1, fun h r hr => ?_⟩
    simp only [WCall.disk] at hr
    rcases hb : deleteAllParts H fuel w.pkg rm with _ | b | _
    · rw [h2 hb] at hr; cases hr
    · exact absurd hb (h b)
    · rw [h3 hb] at hr; cases hr
  | edit ch =>
    refine ⟨fun b h => ?_, fun h => absurd rfl (h _)⟩
    cases h
    have t := ((Track.start hp).setHdr (ch w.pkg.hdr)).writeHeader
    exact ⟨_, rfl, t.toRes⟩
  | rawSignature sig =>
    obtain ⟨h1, h2⟩ := writeRawSignatureD_ok w hp sig
    simp only [WCall.room, WCall.disk]
    rcases hb : writeRawSignature w.pkg sig with b | _
    · obtain ⟨r, e, hr⟩ := h1 b hb
      refine ⟨fun b' h => ?_, fun h => absurd rfl (h b)⟩
      cases h
      exact ⟨r, by rw [e], hr.toRes⟩
    · rw [h2 hb]
      exact ⟨fun b h => (by cases h), fun _ r h => (by cases h)⟩
  | sign key rnd =>
    refine ⟨fun b h => ?_, fun h => absurd rfl (h _)⟩
    cases h
    exact ⟨_, rfl, (pkgSignD_ok H S rnd key w hp).toRes⟩

/-- C106: every call that writes, on a disk on which any write can stop anywhere (as long as `fwrite` says so): if it reports success then it would have
succeeded on a disk with room too, and the package and its file are those it would have left there; if it reports an error then the file is one that a crash during the
call could have left. A call that does not return, or breaks the rules of C, on a disk with room never reports success. -/
theorem C106_no_silent_loss {SK PK : Type} (H : HashFn) (S : SigScheme SK PK) (fuel : Nat) (w : Disk) (hp : w.pending = false) (hl : Prompt w.luck) (c : WCall SK) :
    (∀ b, c.room H S fuel w.pkg = some (.ret b) → ∃ r, c.disk H S fuel w = some (.ret r) ∧ NoSilentLoss w.pkg b r) ∧
    ((∀ b, c.room H S fuel w.pkg ≠ some (.ret b)) → ∀ r, c.disk H S fuel w = some (.ret r) → r.1 ≠ .ok) := by
  obtain ⟨h1, h2⟩ := WCall.res H S fuel w hp c
  refine ⟨fun b hb => ?_, h2⟩
  obtain ⟨r, e, hr⟩ := h1 b hb
  exact ⟨r, e, hr.noSilentLoss hl⟩

/-- C106: the same of opening (which writes a header to a new file); here also if write errors are noticed late. -/
theorem C106_open (H : HashFn) (canWrite : Bool) (f : Bytes) (luck : List Luck) (h : Header) :
    NoSilentLoss ⟨h, f, []⟩ (pkgOpen H canWrite f) (pkgOpenD H canWrite f luck) := (pkgOpenD_ok H canWrite f luck h).noSilentLoss trivial

/-- C106: with room on the disk each call does what it does in the other properties. -/
theorem C106_with_room {SK PK : Type} (H : HashFn) (S : SigScheme SK PK) (fuel : Nat) (p : Pkg) (c : WCall SK) :
    c.disk H S fuel ⟨p, [], false⟩ =
      match c.room H S fuel p with
      | none => none
      | some .ub => some .ub
      | some (.ret (e, p')) => some (.ret (e, ⟨p', [], false⟩)) := by
  have m : ∀ x : Option (Out (Err × Pkg)), x.map fairOut = match x with
      | none => none | some .ub => some .ub | some (.ret (e, p')) => some (.ret (e, ⟨p', [], false⟩)) := by
    intro x; rcases x with _ | ⟨e, p'⟩ | _ <;> rfl
  cases c with
  | addFile id flags n src =>
    simp only [WCall.room, WCall.disk]
    rw [show (⟨p, [], false⟩ : Disk) = fair p from rfl, fair_addFile]
    rcases Bpak.addFile H fuel p id flags n src with _ | ⟨e, p'⟩ <;> rfl
  | addTree id flags d salt => exact (fair_merkle H fuel p id flags d salt).trans (m _)
  | addKey id flags key => exact (congrArg some (fair_addKey H p id flags key)).trans (m (some _))
  | delete id rm => exact (fair_deletePart H fuel p id rm).trans (m _)
  | deleteAll rm => exact (fair_deleteAll H fuel p rm).trans (m _)
  | edit ch => exact congrArg (fun x => some (Out.ret x)) (fair_writeHeader { p with hdr := ch p.hdr })
  | rawSignature sig => exact (congrArg some (fair_sig p sig)).trans (m (some _))
  | sign key rnd => exact congrArg (fun x => some (Out.ret x)) (fair_sign H S rnd key p)

/-- C106: any number of calls: if all report success then what is in memory and in the file is what the calls leave on a disk with room, and closing the package loses nothing. -/
theorem C106_session {SK PK : Type} (H : HashFn) (S : SigScheme SK PK) (fuel : Nat) (cs : List (WCall SK)) (w w' : Disk) (hp : w.pending = false) (hl : Prompt w.luck)
    (h : allOkDisk H S fuel w cs = some w') : allOkRoom H S fuel w.pkg cs = some w'.pkg ∧ w'.pending = false ∧ closeD w' = (.ok, w'.pkg.file) := by
  induction cs generalizing w with
  | nil => cases h; exact ⟨rfl, hp, rfl⟩
  | cons c cs ih =>
    unfold allOkDisk at h
    split at h
    · rename_i w1 h1
      obtain ⟨hA, hB⟩ := C106_no_silent_loss H S fuel w hp hl c
      rcases hr : c.room H S fuel w.pkg with _ | ⟨e, p1⟩ | _
      · exact absurd rfl (hB (by rw [hr]; exact fun _ h => (by cases h)) _ h1)
      · obtain ⟨r, e1, ops, _, _, h2, _⟩ := hA _ hr
        rw [h1] at e1
        cases e1
        obtain ⟨e2, e3, e4⟩ := h2 rfl
        simp only at e2 e3 e4
        subst e2
        have hl1 : Prompt w1.luck := fun m hm => hl m ((WCall.luck h1).subset hm)
        obtain ⟨a, b, c⟩ := ih w1 e4 hl1 h
        refine ⟨?_, b, c⟩
        unfold allOkRoom
        simp only [hr]
        rw [← e3]
        exact a
      · exact absurd rfl (hB (by rw [hr]; exact fun _ h => (by cases h)) _ h1)
    · cases h

theorem crash_last {f f' : Bytes} {ops : List FOp} {o : FOp} (h : CrashState f (ops ++ [o]) f') :
    CrashState f ops f' ∨ f' = applyOps f (ops ++ [o]) ∨ ∃ pos d n, o = .write pos d ∧ f' = fileWrite (applyOps f ops) pos (d.take n) := by
  obtain ⟨done, rest, e, h⟩ := h
  rcases List.eq_nil_or_concat rest with rfl | ⟨r0, o', rfl⟩
  · rw [List.append_nil] at e
    subst e
    rcases h with h | ⟨_, _, _, _, h, _⟩
    · exact .inr (.inl h)
    · cases h
  · rw [List.concat_eq_append, ← List.append_assoc] at e
    obtain ⟨e1, e2⟩ := List.append_inj' e rfl
    cases e2
    subst e1
    rcases h with h | ⟨pos, d, tl, n, h1, h2⟩
    · exact .inl ⟨done, r0, rfl, .inl h⟩
    · rw [List.concat_eq_append] at h1
      cases r0 with
      | nil =>
        rw [List.nil_append] at h1
        cases h1
        exact .inr (.inr ⟨pos, d, n, rfl, by rw [List.append_nil]; exact h2⟩)
      | cons a r0 =>
        rw [List.cons_append] at h1
        cases h1
        exact .inl ⟨done, .write pos d :: r0, rfl, .inr ⟨pos, d, r0, n, rfl, h2⟩⟩

/-- C106: adding a file to a package, on a disk where any write can fail, noticed at once or late. If an error is reported then either the old package opens from the file with all its
parts, or the file holds the old parts and the new one, and only the header (4096 bytes) is a mixture: the first `m` bytes of the new one, the rest of the old one. -/
theorem C106_failed_add (H : HashFn) (hH : HashLen H) (p : Pkg) (g : GoodPkg p) (id : U32) (hid : id ≠ 0) (hnew : ∀ q ∈ usedParts p.hdr, q.id ≠ id)
    (hroom : (usedParts p.hdr).length < 32) (flags : U8) (hfl : flags &&& 2 = 0) (d : Bytes) (hsz : p.file.length + d.length + 512 < 2^63)
    (fuel : Nat) (hfuel : d.length / 4096 + 2 ≤ fuel) (luck : List Luck) :
    ∃ p' r, addFile H fuel p id flags d.length d = some (.ok, p') ∧ addFileD H fuel ⟨p, luck, false⟩ id flags d.length d = some r ∧
      (r.1 ≠ .ok →
        (parseHeader (r.2.pkg.file.take 4096) = parseHeader (p.file.take 4096) ∧ contents { p with file := r.2.pkg.file } = contents p) ∨
        ∃ m, r.2.pkg.file = p'.hdr.image.take m ++ (p.file ++ d ++ List.replicate (padFor d.length) 0).drop m) := by
  obtain ⟨p', ops, ea, el, ef, hc⟩ := C57_crash_while_adding H hH p g id hid hnew hroom flags hfl d hsz fuel hfuel
  obtain ⟨h, h0, e0, e1, u1, g0, wf, ea'⟩ := addFile_ok H hH p g id hid hnew hroom flags hfl d hsz fuel hfuel
  obtain ⟨r, er, hr⟩ := (addFileD_ok H fuel ⟨p, luck, false⟩ rfl id flags d.length d).1 _ ea
  refine ⟨p', r, ea, er, fun hne => ?_⟩
  have hf := (hr.bad hne).unique (p0 := p) el
  rw [ea] at ea'
  cases ea'
  simp only at el hf hc
  have eo : ops = chunkWrites p.file.length d ++ [.write (p.file.length + d.length) (List.replicate (padFor d.length) 0)] := by
    have e2 : ops ++ [FOp.write 0 h.image] =
        (chunkWrites p.file.length d ++ [.write (p.file.length + d.length) (List.replicate (padFor d.length) 0)]) ++ [FOp.write 0 h.image] := by
      apply List.append_cancel_left (as := p.log)
      rw [← el]
      simp
    exact List.append_cancel_right e2
  have eapp : applyOps p.file ops = p.file ++ d ++ List.replicate (padFor d.length) 0 := by
    rw [eo, applyOps_append, chunkWrites_apply _ _ _ _ rfl, fileWrite_end]
    simp only [applyOps, List.foldl_cons, List.foldl_nil, applyOp]
    have e2 : p.file.length + d.length = (p.file ++ d).length := by simp
    rw [e2, fileWrite_end]
  have cut : ∀ n, fileWrite (applyOps p.file ops) 0 (h.image.take n) =
      h.image.take (min n h.image.length) ++ (p.file ++ d ++ List.replicate (padFor d.length) 0).drop (min n h.image.length) := by
    intro n
    rw [eapp, fileWrite_zero, List.length_take]
    congr 1
    rw [← List.take_length (l := h.image.take n), List.length_take, List.take_take]
    congr 1
    omega
  rcases crash_last hf with hx | hx | ⟨pos, x, n, e, hx⟩
  · exact .inl (hc _ hx)
  · refine .inr ⟨min h.image.length h.image.length, ?_⟩
    rw [← cut, hx, List.take_length, applyOps_append]
    rfl
  · cases e
    exact .inr ⟨_, hx.trans (cut n)⟩

/-! ### a failed call and the header in memory -/

theorem addPartGo_again (id : U32) (hid : id ≠ 0) (fill : PartHdr → PartHdr) (hf : ∀ q, (fill q).id = id) : ∀ (ps ps' : List PartHdr) (i j : Nat),
    addPartGo id ps i = (.ok, ps', j) → i ≤ j ∧ addPartGo id (ps'.modify (j - i) fill) i = (.exists_, ps'.modify (j - i) fill, j) := by
  intro ps
  induction ps with
  | nil => intro ps' i j h; cases h
  | cons q ps ih =>
    intro ps' i j h
    unfold addPartGo at h
    split at h
    · cases h
      refine ⟨Nat.le_refl _, ?_⟩
      rw [Nat.sub_self]
      simp only [List.modify_zero_cons]
      unfold addPartGo
      rw [if_neg (by rw [hf]; exact hid), if_pos (hf _)]
    · split at h
      · cases h
      · rename_i h0 h1
        simp only [Prod.mk.injEq] at h
        obtain ⟨ha, hb, hc⟩ := h
        obtain ⟨hle, he⟩ := ih (addPartGo id ps (i+1)).2.1 (i+1) j (by rw [← ha, ← hc])
        refine ⟨by omega, ?_⟩
        subst hb
        have ej : j - i = (j - (i+1)) + 1 := by omega
        rw [ej, List.modify_succ_cons]
        revert he
        generalize (addPartGo id ps (i+1)).2.1 = r
        intro he
        unfold addPartGo
        rw [if_neg h0, if_neg h1, he]

theorem fseek_hdr {w w' : Disk} {b : Bool} {pos : Nat} (h : w.fseek pos = (b, w')) : w'.pkg.hdr = w.pkg.hdr := by
  unfold Disk.fseek at h
  split at h <;> (cases h; rfl)

theorem fwrite_hdr {w w' : Disk} {b : Bool} {pos : Nat} {d : Bytes} (h : w.fwrite pos d = (b, w')) : w'.pkg.hdr = w.pkg.hdr := by
  unfold Disk.fwrite at h
  split at h
  · cases h; rfl
  · split at h
    · split at h <;> (cases h; rfl)
    · split at h
      · cases h; rfl
      · split at h <;> (cases h; rfl)
      · split at h <;> (cases h; rfl)

theorem copy_hdr (k : Nat) : ∀ {w w' : Disk} {b : Bool} {pos pos' : Nat} {src : Bytes} {rem : U64}, addCopyLoopD k w pos src rem = some (b, w', pos') → w'.pkg.hdr = w.pkg.hdr := by
  induction k with
  | zero => intro w w' b pos pos' src rem h; cases h
  | succ k ih =>
    intro w w' b pos pos' src rem h
    unfold addCopyLoopD at h
    split at h
    · cases h; rfl
    · split at h
      · rename_i h1; cases h; exact fwrite_hdr h1
      · rename_i h1; exact (ih h).trans (fwrite_hdr h1)

theorem finish_parts {w w' : Disk} {H : HashFn} {e : Err} (h : finishD H w = (e, w')) : w'.pkg.hdr.parts = w.pkg.hdr.parts := by
  have hu : ∀ {w w' : Disk} {e : Err}, updateHashD H w = (e, w') → w'.pkg.hdr.parts = w.pkg.hdr.parts := by
    intro w w' e h
    unfold updateHashD at h
    split at h <;> (cases h; rfl)
  unfold finishD at h
  split at h
  · rename_i h1
    refine Eq.trans ?_ (hu h1)
    unfold writeHeaderD at h
    split at h
    · rename_i h2; cases h; rw [fseek_hdr h2]
    · rename_i h2
      split at h
      · rename_i h3; cases h; rw [fwrite_hdr h3, fseek_hdr h2]
      · rename_i h3; cases h; rw [fwrite_hdr h3, fseek_hdr h2]
  · rename_i h1; cases h; exact hu h1

/-- C106, what a failed call leaves in memory: after `bpak_pkg_add_file` failed for want of room the part stays in the header in memory, and trying again with the same handle, also when there is
room, gives `BPAK_EXISTS` and not the part. -/
theorem C106_retry_is_refused (H : HashFn) (fuel : Nat) (w w' : Disk) (id : U32) (hid : id ≠ 0) (flags : U8) (n : Nat) (src : Bytes)
    (h : addFileD H fuel w id flags n src = some (.writeError, w')) (fuel' : Nat) (flags' : U8) (n' : Nat) (src' : Bytes) :
    ∃ p, addFile H fuel' w'.pkg id flags' n' src' = some (.exists_, p) ∧ p.file = w'.pkg.file := by
  have hne : ∀ i ps, (addPartGo id ps i).1 ≠ .writeError := by
    intro i ps
    induction ps generalizing i with
    | nil => exact fun h => (by cases h)
    | cons q ps ih =>
      unfold addPartGo
      split
      · exact fun h => (by cases h)
      · split
        · exact fun h => (by cases h)
        · exact ih _
  rcases ha : addPart w.pkg.hdr id with ⟨e0, h0, i⟩
  by_cases he : e0 = .ok
  · subst he
    have hp : w'.pkg.hdr.parts = (fillPart h0 i id (newOffset w.pkg.hdr) flags n).parts := by
      rw [addFileD_finish H fuel w id flags n src h0 i ha] at h
      split at h
      · cases h
      · rename_i h1
        have e1 := fseek_hdr h1
        split at h
        · cases h
        · rename_i h2; cases h; rw [copy_hdr _ h2, e1]
        · rename_i h2
          split at h
          · rename_i h3; cases h; rw [fwrite_hdr h3, copy_hdr _ h2, e1]
          · rename_i h3; rw [finish_parts (Option.some.inj h), fwrite_hdr h3, copy_hdr _ h2, e1]
    unfold addPart at ha
    simp only [Prod.mk.injEq] at ha
    obtain ⟨a1, a2, a3⟩ := ha
    obtain ⟨_, he⟩ := addPartGo_again id hid (fun q => { q with id := id, offset := newOffset w.pkg.hdr, flags := flags, size := BitVec.ofNat 64 n, padBytes := BitVec.ofNat 16 (padFor n) })
      (fun _ => rfl) w.pkg.hdr.parts (addPartGo id w.pkg.hdr.parts 0).2.1 0 i (by rw [← a1, ← a3])
    have hp2 : w'.pkg.hdr.parts = ((addPartGo id w.pkg.hdr.parts 0).2.1).modify (i - 0) (fun q => { q with
        id := id, offset := newOffset w.pkg.hdr, flags := flags, size := BitVec.ofNat 64 n, padBytes := BitVec.ofNat 16 (padFor n) }) := by
      rw [hp, ← a2]; rfl
    rw [← hp2] at he
    have hx : addPart w'.pkg.hdr id = (.exists_, w'.pkg.hdr, i) := by
      unfold addPart
      rw [he]
    exact ⟨_, addFile_refused H fuel' w'.pkg id flags' n' src' _ _ _ hx (by decide), rfl⟩
  · rw [addFileD_refused H fuel w id flags n src e0 h0 i ha he] at h
    cases h
    refine absurd ?_ (hne 0 w.pkg.hdr.parts)
    rw [show (addPartGo id w.pkg.hdr.parts 0).1 = (addPart w.pkg.hdr id).1 from rfl, ha]

/-- A new package, for examples. -/
def exDiskPkg : Pkg := ⟨initHeader, initHeader.image, []⟩

/-- C106, the flaw that follows: the disk is full when a file of three bytes is added, the application goes on (say, after making room) and writes the header again, e.g. with other
metadata. That succeeds, the file opens as a valid package, and the part that could not be added is in it, without its data. -/
theorem C106_failed_add_is_forgotten_is_false :
    ∃ w w' q, addFileD exHash 9 ⟨exDiskPkg, [.short 0], false⟩ 7 0 3 [1, 2, 3] = some (.writeError, w) ∧ w.luck = [] ∧ w.pending = false ∧
      writeHeaderD w = (.ok, w') ∧ pkgOpen exHash true (closeD w').2 = (.ok, q) ∧ (getPart q.hdr 7).isSome = true ∧ extractFile q 7 = (.readError, some []) := by
  have e1 : (addFileD exHash 9 ⟨exDiskPkg, [.short 0], false⟩ 7 0 3 [1, 2, 3]).map (fun r => (r.1, r.2.luck.length, r.2.pending)) = some (.writeError, 0, false) := by
    decide +kernel
  have e2 : (addFileD exHash 9 ⟨exDiskPkg, [.short 0], false⟩ 7 0 3 [1, 2, 3]).map (fun r =>
      ((writeHeaderD r.2).1, (pkgOpen exHash true (closeD (writeHeaderD r.2).2).2).1)) = some (.ok, .ok) := by decide +kernel
  have e3 : (addFileD exHash 9 ⟨exDiskPkg, [.short 0], false⟩ 7 0 3 [1, 2, 3]).map (fun r =>
      ((getPart (pkgOpen exHash true (closeD (writeHeaderD r.2).2).2).2.hdr 7).isSome, extractFile (pkgOpen exHash true (closeD (writeHeaderD r.2).2).2).2 7)) =
      some (true, .readError, some []) := by decide +kernel
  rcases hx : addFileD exHash 9 ⟨exDiskPkg, [.short 0], false⟩ 7 0 3 [1, 2, 3] with _ | ⟨e, w⟩
  · rw [hx] at e1; cases e1
  · rw [hx] at e1 e2 e3
    simp only [Option.map_some, Option.some.injEq, Prod.mk.injEq] at e1 e2 e3
    refine ⟨w, (writeHeaderD w).2, (pkgOpen exHash true (closeD (writeHeaderD w).2).2).2, by rw [e1.1], List.length_eq_zero_iff.1 e1.2.1, e1.2.2, ?_, ?_, e3.1, ?_⟩
    · rw [← e2.1]
    · rw [← e2.2]
    · exact e3.2

/-- The premises are met: a file of three bytes, and the disk is full after the first of the padding, or after ten bytes of the header; with two failures to come in a session of two calls, the first call
already reports. -/
example : Prompt [.full, .short 1] ∧ Prompt [.full, .full, .short 10] ∧
    (addFile exHash 9 exDiskPkg 7 0 3 [1, 2, 3]).map (·.1) = some .ok ∧
    (addFileD exHash 9 ⟨exDiskPkg, [.full, .short 1], false⟩ 7 0 3 [1, 2, 3]).map (fun r => (r.1, r.2.pkg.file.length)) = some (.writeError, 4096 + 4) ∧
    (addFileD exHash 9 ⟨exDiskPkg, [.full, .full, .short 10], false⟩ 7 0 3 [1, 2, 3]).map (fun r => (r.1, r.2.pkg.file.length)) = some (.writeError, 4096 + 512) := by
  refine ⟨by intro m h; simp at h, by intro m h; simp at h, by decide +kernel, by decide +kernel, by decide +kernel⟩

/-- A session of three calls with complete writes succeeds; if the fifth write is cut then not all of them report success. -/
example : (allOkDisk exHash exScheme 99 ⟨exDiskPkg, [.full, .full, .full, .full, .full], false⟩ [.addFile 7 0 3 [1, 2, 3], .edit (fun h => { h with keyId := 5 }), .delete 7 true]).isSome = true ∧
    (allOkDisk exHash exScheme 99 ⟨exDiskPkg, [.full, .full, .full, .full, .short 9], false⟩ [.addFile 7 0 3 [1, 2, 3], .edit (fun h => { h with keyId := 5 }), .delete 7 true]).isSome = false := by
  decide +kernel

/-- A package as in `C106_failed_add` and `C107_success_means_stored_is_false`. -/
example : ∃ p : Pkg, pkgOpen exHash true [] = (.ok, p) ∧ GoodPkg p ∧ (∀ q ∈ usedParts p.hdr, q.id ≠ 7) ∧ (usedParts p.hdr).length < 32 ∧ p.file.length + [1, 2, 3].length + 512 < 2^63 := by
  obtain ⟨p0, e0, g0, -, -, -, hf, hh⟩ := C56_open_new exHash exHash_len
  have hu : usedParts p0.hdr = [] := by rw [hh]; exact used_init
  exact ⟨p0, e0, g0, by rw [hu]; simp, by rw [hu]; simp, by rw [g0.exact, hu]; decide⟩

/-! ### C107 -/

/-- C107, what holds if write errors can be noticed late: a call that reports success would have succeeded on a disk with room, the header in memory is the right one, and in the file nothing but a last piece
of the header can be missing; a call that reports an error leaves a file that a crash could have left. The full claim would be that nothing is missing: see `C107_success_means_stored_is_false`. -/
theorem C107_only_the_header_partial {SK PK : Type} (H : HashFn) (S : SigScheme SK PK) (fuel : Nat) (w : Disk) (hp : w.pending = false) (c : WCall SK) :
    (∀ b, c.room H S fuel w.pkg = some (.ret b) → ∃ r, c.disk H S fuel w = some (.ret r) ∧ OnlyHeaderLost w.pkg b r) ∧
    ((∀ b, c.room H S fuel w.pkg ≠ some (.ret b)) → ∀ r, c.disk H S fuel w = some (.ret r) → r.1 ≠ .ok) := by
  obtain ⟨h1, h2⟩ := WCall.res H S fuel w hp c
  refine ⟨fun b hb => ?_, h2⟩
  obtain ⟨r, e, hr⟩ := h1 b hb
  exact ⟨r, e, hr.onlyHeaderLost⟩

/-- C107: an error not yet noticed is noticed by the next call: no call that writes reports success while there is one. -/
theorem C107_next_call_reports {SK PK : Type} (H : HashFn) (S : SigScheme SK PK) (hS : ∀ sk rnd k d, S.sign sk rnd k d ≠ .error .ok) (fuel : Nat) (w : Disk) (hp : w.pending = true)
    (c : WCall SK) (hc : c.sane) (r : Err × Disk) (h : c.disk H S fuel w = some (.ret r)) : r.1 ≠ .ok := WCall.pending H S hS fuel w hp c hc r h

/-- The premise is met: the header's write fails late, the call reports success, and there is an error not yet noticed; the next call reports it. -/
example : (addFileD exHash 9 ⟨exDiskPkg, [.full, .full, .late 10], false⟩ 7 0 3 [1, 2, 3]).map (fun r => (r.1, r.2.pending, (writeHeaderD r.2).1)) = some (.ok, true, .seekError) := by
  decide +kernel

theorem copy_room (k : Nat) : ∀ (p : Pkg) (pos : Nat) (src : Bytes) (rem : U64), ∃ n, ∀ l,
    addCopyLoopD k ⟨p, List.replicate n .full ++ l, false⟩ pos src rem = (addCopyLoop k p pos src rem).map (fun x => (true, ⟨x.1, l, false⟩, x.2)) := by
  induction k with
  | zero => intro p pos src rem; exact ⟨0, fun l => rfl⟩
  | succ k ih =>
    intro p pos src rem
    by_cases hr : rem = 0
    · refine ⟨0, fun l => ?_⟩
      unfold addCopyLoopD addCopyLoop
      rw [if_pos hr, if_pos hr]
      rfl
    · obtain ⟨n, hn⟩ := ih (p.write pos (src.take 4096)) (pos + (src.take 4096).length) (src.drop 4096) (rem - BitVec.ofNat 64 (src.take 4096).length)
      by_cases hd : src.take 4096 = []
      · refine ⟨n, fun l => ?_⟩
        unfold addCopyLoopD addCopyLoop
        rw [if_neg hr, if_neg hr]
        have e : Disk.fwrite ⟨p, List.replicate n .full ++ l, false⟩ pos (src.take 4096) = (true, ⟨p.write pos (src.take 4096), List.replicate n .full ++ l, false⟩) := by
          unfold Disk.fwrite; rw [if_pos hd]
        rw [e]
        exact hn l
      · refine ⟨n + 1, fun l => ?_⟩
        unfold addCopyLoopD addCopyLoop
        rw [if_neg hr, if_neg hr]
        have e : Disk.fwrite ⟨p, List.replicate (n+1) .full ++ l, false⟩ pos (src.take 4096) = (true, ⟨p.write pos (src.take 4096), List.replicate n .full ++ l, false⟩) := by
          unfold Disk.fwrite; rw [if_neg hd]; rfl
        rw [e]
        exact hn l

/-- A successful `bpak_pkg_add_file` whose writes are complete up to the header's. -/
theorem addFileD_upto (H : HashFn) (fuel : Nat) (p p' : Pkg) (id : U32) (flags : U8) (n : Nat) (src : Bytes) (h : addFile H fuel p id flags n src = some (.ok, p')) :
    ∃ k p1, p' = writeHeader p1 ∧ Onward p p1 ∧ ∀ l, addFileD H fuel ⟨p, List.replicate k .full ++ l, false⟩ id flags n src = some (writeHeaderD ⟨p1, l, false⟩) := by
  rcases ha : addPart p.hdr id with ⟨e0, h0, i⟩
  by_cases he : e0 = .ok
  · subst he
    rw [addFile_finish H fuel p id flags n src h0 i ha] at h
    split at h
    · cases h
    · rename_i hs
      obtain ⟨k, hk⟩ := copy_room fuel { p with hdr := fillPart h0 i id (newOffset p.hdr) flags n } (newOffset p.hdr).toNat src (BitVec.ofNat 64 n)
      rcases hc : addCopyLoop fuel { p with hdr := fillPart h0 i id (newOffset p.hdr) flags n } (newOffset p.hdr).toNat src (BitVec.ofNat 64 n) with _ | ⟨q, pos⟩
      · rw [hc] at h; cases h
      · rw [hc] at h hk
        have hfin := Option.some.inj h
        unfold finish at hfin
        rcases hu : updateHash H (q.write pos (List.replicate (padFor n) 0)) with ⟨e, p1⟩
        have gr : Onward p p1 := by
          have g1 := addCopyLoop_grows _ _ _ _ _ _ _ hc
          have g2 := Onward.updateHash H (q.write pos (List.replicate (padFor n) 0))
          rw [hu] at g2
          exact (((Onward.hdr p _).trans g1).trans (.write _ _ _)).trans g2
        rw [hu] at hfin
        have heo : e = .ok := by
          by_cases heo : e = .ok
          · exact heo
          · cases e <;> first | exact absurd rfl heo | cases hfin
        subst heo
        simp only [Prod.mk.injEq, true_and] at hfin
        have main : ∀ l l2, Disk.fwrite ⟨q, l, false⟩ pos (List.replicate (padFor n) 0) = (true, ⟨q.write pos (List.replicate (padFor n) 0), l2, false⟩) →
            addFileD H fuel ⟨p, List.replicate k .full ++ l, false⟩ id flags n src = some (writeHeaderD ⟨p1, l2, false⟩) := by
          intro l l2 hw
          rw [addFileD_finish H fuel _ id flags n src h0 i ha, fseek_pos rfl, decide_eq_true (show (newOffset p.hdr).toNat < 2^63 by omega)]
          simp only [hk, Option.map_some, hw]
          unfold finishD
          rw [updateHashD_clean H _ rfl]
          simp only [hu]
        by_cases hz : padFor n = 0
        · refine ⟨k, p1, hfin.symm, gr, fun l => main l l ?_⟩
          unfold Disk.fwrite
          rw [if_pos (by rw [hz]; rfl)]
        · refine ⟨k + 1, p1, hfin.symm, gr, fun l => ?_⟩
          have e : List.replicate (k+1) Luck.full ++ l = List.replicate k .full ++ (.full :: l) := by
            rw [List.replicate_succ', List.append_assoc]; rfl
          rw [e]
          refine main _ _ ?_
          unfold Disk.fwrite
          rw [if_neg (by intro h; exact hz (by simpa using congrArg List.length h))]
          rfl
  · rw [addFile_refused H fuel p id flags n src e0 h0 i ha he] at h
    cases h
    exact absurd rfl he

/-- C107, the flaw: adding a file to any package, if the room on the disk ends with the header and the error is noticed when the stream is closed. `bpak_pkg_add_file` reports success,
the header in memory has the part, `bpak_pkg_close` reports success, and from the file the old package opens, without the part. -/
theorem C107_success_means_stored_is_false (H : HashFn) (hH : HashLen H) (p : Pkg) (g : GoodPkg p) (id : U32) (hid : id ≠ 0) (hnew : ∀ q ∈ usedParts p.hdr, q.id ≠ id)
    (hroom : (usedParts p.hdr).length < 32) (flags : U8) (hfl : flags &&& 2 = 0) (d : Bytes) (hsz : p.file.length + d.length + 512 < 2^63)
    (fuel : Nat) (hfuel : d.length / 4096 + 2 ≤ fuel) :
    ∃ luck p' w', addFile H fuel p id flags d.length d = some (.ok, p') ∧ addFileD H fuel ⟨p, luck, false⟩ id flags d.length d = some (.ok, w') ∧
      w'.pkg.hdr = p'.hdr ∧ (closeD w').1 = .ok ∧
      parseHeader ((closeD w').2.take 4096) = parseHeader (p.file.take 4096) ∧ contents { p with file := (closeD w').2 } = contents p := by
  obtain ⟨p', ops, ea, el, ef, hc⟩ := C57_crash_while_adding H hH p g id hid hnew hroom flags hfl d hsz fuel hfuel
  obtain ⟨k, p1, e1, ⟨o, g1, g2⟩, hd⟩ := addFileD_upto H fuel p p' id flags d.length d ea
  subst e1
  have eo : o = ops := by
    have : (writeHeader p1).log = p.log ++ (o ++ [FOp.write 0 p1.hdr.image]) := by
      show p1.log ++ _ = _
      rw [g1, List.append_assoc]
    rw [this] at el
    exact List.append_cancel_right (List.append_cancel_left el)
  subst eo
  have hne : p1.hdr.image ≠ [] := by
    intro h
    obtain ⟨h', h0, _, _, _, _, wf, ea'⟩ := addFile_ok H hH p g id hid hnew hroom flags hfl d hsz fuel hfuel
    have e2 : p1.hdr = h' := by
      rw [ea] at ea'
      exact congrArg (fun x => x.2.hdr) (Option.some.inj ea')
    have := image_length wf
    rw [← e2, h] at this
    cases this
  have hw : writeHeaderD ⟨p1, [.late 0], false⟩ = (.ok, ⟨p1.write 0 [], [], true⟩) := by
    unfold writeHeaderD
    rw [fseek_pos rfl]
    show (match Disk.fwrite ⟨p1, [.late 0], false⟩ 0 p1.hdr.image with | (false, w) => (Err.writeError, w) | (true, w) => (.ok, w)) = _
    have e : Disk.fwrite ⟨p1, [.late 0], false⟩ 0 p1.hdr.image = (true, ⟨p1.write 0 [], [], true⟩) := by
      unfold Disk.fwrite
      have hlen : ¬ p1.hdr.image.length ≤ 0 := fun h => hne (List.length_eq_zero_iff.1 (Nat.le_zero.1 h))
      rw [if_neg hne, if_neg (fun h => (by cases h))]
      simp only [List.headD_cons, if_neg hlen]
      rfl
    simp only [e]
  refine ⟨List.replicate k .full ++ [.late 0], writeHeader p1, ⟨p1.write 0 [], [], true⟩, ea, by rw [hd, hw], rfl, rfl, ?_⟩
  exact hc _ ⟨o, [], by simp, .inl (by show fileWrite p1.file 0 [] = _; rw [fileWrite_nil, g2])⟩

end Bpak
