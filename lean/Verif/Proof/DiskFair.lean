import Verif.Proof.DiskTree
/-! On a disk with room the calls of Model/Disk.lean are those of Model/Pkg.lean. -/
namespace Bpak

/-- A handle on a disk with room. -/
def fair (p : Pkg) : Disk := ⟨p, [], false⟩

theorem fair_fseek (p : Pkg) (pos : Nat) : (fair p).fseek pos = (decide (pos < 2^63), fair p) := rfl

theorem fair_fwrite (p : Pkg) (pos : Nat) (d : Bytes) : (fair p).fwrite pos d = (true, fair (p.write pos d)) := by
  unfold Disk.fwrite fair
  split <;> rfl

theorem fair_updateHash (H : HashFn) (p : Pkg) : updateHashD H (fair p) = ((updateHash H p).1, fair (updateHash H p).2) := updateHashD_clean H (fair p) rfl

theorem fair_writeHeader (p : Pkg) : writeHeaderD (fair p) = (.ok, fair (writeHeader p)) := by
  unfold writeHeaderD
  rw [fair_fseek]
  show (match (fair p).fwrite 0 p.hdr.image with | (false, w) => (Err.writeError, w) | (true, w) => (.ok, w)) = _
  rw [fair_fwrite]
  rfl

theorem fair_finish (H : HashFn) (p : Pkg) : finishD H (fair p) = ((finish H p).1, fair (finish H p).2) := by
  unfold finishD finish
  rw [fair_updateHash]
  rcases updateHash H p with ⟨e, q⟩
  by_cases he : e = .ok
  · subst he; exact fair_writeHeader q
  · cases e <;> first | exact absurd rfl he | rfl

theorem fair_copy (k : Nat) : ∀ (p : Pkg) (pos : Nat) (src : Bytes) (rem : U64),
    addCopyLoopD k (fair p) pos src rem = (addCopyLoop k p pos src rem).map (fun x => (true, fair x.1, x.2)) := by
  induction k with
  | zero => intros; rfl
  | succ k ih =>
    intro p pos src rem
    unfold addCopyLoopD addCopyLoop
    split
    · rfl
    · rw [fair_fwrite]
      exact ih _ _ _ _

theorem fair_pkg (p : Pkg) : (fair p).pkg = p := rfl

theorem fair_set (p : Pkg) (h : Header) :
    (⟨⟨h, p.file, p.log⟩, (fair p).luck, (fair p).pending⟩ : Disk) = fair { p with hdr := h } := rfl

theorem fair_addFile (H : HashFn) (fuel : Nat) (p : Pkg) (id : U32) (flags : U8) (n : Nat) (src : Bytes) :
    addFileD H fuel (fair p) id flags n src = (addFile H fuel p id flags n src).map (fun x => (x.1, fair x.2)) := by
  rcases ha : addPart p.hdr id with ⟨e, h, i⟩
  by_cases he : e = .ok
  · subst he
    rw [addFile_finish H fuel p id flags n src h i ha, addFileD_finish H fuel (fair p) id flags n src h i ha]
    simp only [fair_pkg, fair_set, fair_fseek]
    by_cases hs : (newOffset p.hdr).toNat < 2^63
    · simp only [decide_eq_true hs, if_neg (Nat.not_le.2 hs), fair_copy]
      rcases addCopyLoop fuel { p with hdr := fillPart h i id (newOffset p.hdr) flags n } (newOffset p.hdr).toNat src (BitVec.ofNat 64 n) with _ | ⟨q, pos⟩
      · rfl
      · simp only [Option.map_some, fair_fwrite, fair_finish]
    · simp only [decide_eq_false hs, if_pos (Nat.not_lt.1 hs)]
      rfl
  · rw [addFile_refused H fuel p id flags n src e h i ha he, addFileD_refused H fuel (fair p) id flags n src e h i ha he]
    rfl

/-- Undefined behaviour stays so; else the result is on a disk with room. -/
def fairOut : Out (Err × Pkg) → Out (Err × Disk)
  | .ub => .ub
  | .ret x => .ret (x.1, fair x.2)

theorem fair_addKey (H : HashFn) (p : Pkg) (id : U32) (flags : U8) (key : Except Err Bytes) : addKeyD H (fair p) id flags key = fairOut (addKey H p id flags key) := by
  cases key with
  | error e => rfl
  | ok d =>
    rcases ha : addPart p.hdr id with ⟨e, h, i⟩
    by_cases he : e = .ok
    · subst he
      rw [addKey_finish H p id flags d h i ha, addKeyD_finish H (fair p) id flags d h i ha]
      simp only [fair_pkg, fair_set, fair_fseek]
      by_cases hs : (newOffset p.hdr).toNat < 2^63
      · simp only [decide_eq_true hs, if_neg (Nat.not_le.2 hs), fair_fwrite]
        split
        · rfl
        · rw [fair_finish]; rfl
      · simp only [decide_eq_false hs, if_pos (Nat.not_lt.1 hs)]
        rfl
    · unfold addKeyD addKey
      simp only [fair_pkg, ha]
      cases e <;> first | exact absurd rfl he | rfl

theorem fair_merkle (H : HashFn) (fuel : Nat) (p : Pkg) (id : U32) (flags : U8) (d salt : Bytes) :
    addFileWithMerkleD H fuel (fair p) id flags d salt = (addFileWithMerkle H fuel p id flags d salt).map fairOut := by
  have ea := fair_addFile H fuel p id flags d.length d
  rcases hb : addFile H fuel p id flags d.length d with _ | ⟨e, p1⟩
  · rw [hb] at ea
    unfold addFileWithMerkleD addFileWithMerkle
    rw [ea]
    simp only [hb]
    rfl
  · rw [hb] at ea
    by_cases he : e = .ok
    · subst he
      rw [merkle_steps H fuel p p1 id flags d salt hb, merkleD_steps H fuel (fair p) (fair p1) id flags d salt ea]
      simp only [fair_pkg, fair_set]
      rcases treeSteps H p1.hdr id flags d salt with (⟨e, h⟩ | ⟨h, tree⟩) | _
      · rfl
      · simp only [fair_fseek]
        by_cases hs : (newOffset p1.hdr).toNat < 2^63
        · simp only [decide_eq_true hs, if_neg (Nat.not_le.2 hs), fair_fwrite, fair_finish]
          rfl
        · simp only [decide_eq_false hs, if_pos (Nat.not_lt.1 hs)]
          rfl
      · rfl
    · unfold addFileWithMerkleD addFileWithMerkle
      rw [ea]
      simp only [hb, Option.map_some]
      cases e <;> first | exact absurd rfl he | rfl

theorem fair_move (k : Nat) : ∀ (p : Pkg) (rd wr rem : U64), moveDataD k (fair p) rd wr rem = (moveData k p rd wr rem).map (fun x => (x.1, fair x.2)) := by
  induction k with
  | zero => intros; rfl
  | succ k ih =>
    intro p rd wr rem
    unfold moveDataD moveData
    split
    · rfl
    · simp only [fair_fseek]
      by_cases h1 : rd.toNat < 2^63
      · simp only [decide_eq_true h1, if_neg (Nat.not_le.2 h1)]
        by_cases h2 : wr.toNat < 2^63
        · simp only [fair_fseek, decide_eq_true h2, if_neg (Nat.not_le.2 h2), fair_fwrite, fair_pkg]
          exact ih _ _ _ _
        · simp only [fair_fseek, decide_eq_false h2, if_pos (Nat.not_lt.1 h2)]
          rfl
      · simp only [decide_eq_false h1, if_pos (Nat.not_lt.1 h1)]
        rfl

theorem fair_finishTrunc (H : HashFn) (size : Header → Nat) (p : Pkg) : finishTruncD H size (fair p) = ((finishTrunc H size p).1, fair (finishTrunc H size p).2) := by
  unfold finishTruncD finishTrunc
  rw [fair_finish]
  unfold finish
  rcases updateHash H p with ⟨e, q⟩
  by_cases he : e = .ok
  · subst he; rfl
  · cases e <;> first | exact absurd rfl he | rfl

theorem fair_deleteAll (H : HashFn) (fuel : Nat) (p : Pkg) (rm : Bool) : deleteAllPartsD H fuel (fair p) rm = (deleteAllParts H fuel p rm).map fairOut := by
  unfold deleteAllPartsD deleteAllParts
  simp only [fair_pkg, fair_set]
  rcases (if rm then removeMetas (fun ref => ref != 0) fuel { p.hdr with parts := List.replicate 32 PartHdr.zero } 0 else
    some (.ret { p.hdr with parts := List.replicate 32 PartHdr.zero })) with _ | ⟨h⟩ | _
  · rfl
  · simp only [fair_finishTrunc]
    have := finishTrunc_match H (fun _ => 4096) { p with hdr := h } (fun x => some (Out.ret x))
    refine Eq.trans ?_ (congrArg (Option.map fairOut) this.symm)
    rfl
  · rfl

theorem fair_deletePart (H : HashFn) (fuel : Nat) (p : Pkg) (id : U32) (rm : Bool) : deletePartD H fuel (fair p) id rm = (deletePart H fuel p id rm).map fairOut := by
  unfold deletePartD deletePart
  simp only [fair_pkg, fair_set]
  rcases getPart p.hdr id with _ | i
  · rfl
  simp only
  rcases p.hdr.parts[i]? with _ | q
  · rfl
  rcases delPart p.hdr i with h | _
  · simp only
    rcases (if rm then removeMetas (fun ref => ref == id) fuel { h with parts := h.parts.take i ++ (shiftParts (partSize q) (h.parts.drop i)).1 } 0 else
      some (.ret { h with parts := h.parts.take i ++ (shiftParts (partSize q) (h.parts.drop i)).1 })) with _ | ⟨h2⟩ | _
    · rfl
    · simp only [fair_move]
      rcases moveData fuel { p with hdr := h2 } (partOffset p.hdr q + partSize q) (partOffset p.hdr q) (shiftParts (partSize q) (h.parts.drop i)).2 with _ | ⟨e, p1⟩
      · rfl
      · by_cases he : e = .ok
        · subst he
          simp only [Option.map_some, fair_finishTrunc]
          have := finishTrunc_match H (fun h => (partsEnd h.parts 4096).toNat) p1 (fun x => some (Out.ret x))
          refine Eq.trans ?_ (congrArg (Option.map fairOut) this.symm)
          rfl
        · cases e <;> first | exact absurd rfl he | rfl
    · rfl
  · rfl

theorem fair_open (H : HashFn) (cw : Bool) (f : Bytes) : pkgOpenD H cw f [] = ((pkgOpen H cw f).1, fair (pkgOpen H cw f).2) := by
  unfold pkgOpenD pkgOpen
  split
  · rfl
  · have := fair_updateHash H ⟨initHeader, f, []⟩
    unfold fair at this
    rw [this]
    rcases updateHash H ⟨initHeader, f, []⟩ with ⟨e, p⟩
    by_cases he : e = .ok
    · subst he
      cases cw with
      | false => rfl
      | true =>
        have hw := fair_fwrite p f.length p.hdr.image
        unfold fair at hw
        simp only [if_true, hw]
        rfl
    · cases e <;> first | exact absurd rfl he | rfl

theorem fair_sig (p : Pkg) (sig : Bytes) : writeRawSignatureD (fair p) sig = fairOut (writeRawSignature p sig) := by
  unfold writeRawSignatureD writeRawSignature
  split
  · rfl
  · simp only [fair_pkg, fair_set, fair_writeHeader]
    rfl

theorem fair_sign {SK PK : Type} (H : HashFn) (S : SigScheme SK PK) (rnd : Bytes) (key : Except Err SK) (p : Pkg) :
    pkgSignD H S rnd key (fair p) = ((pkgSign H S rnd key p).1, fair (pkgSign H S rnd key p).2) := by
  unfold pkgSignD pkgSign
  rw [fair_updateHash]
  rcases updateHash H p with ⟨e, q⟩
  by_cases he : e = .ok
  · subst he
    simp only [fair_pkg, fair_set]
    rcases computeHeaderHash H q.hdr 64 with ⟨e, x⟩
    by_cases he : e = .ok
    · subst he
      cases x with
      | none => rfl
      | some d =>
        simp only
        cases key with
        | error e => rfl
        | ok sk =>
          simp only
          rcases S.sign sk rnd q.hdr.hashKind d with e | sig
          · rfl
          · simp only
            split
            · rfl
            · exact fair_writeHeader _
    · cases e <;> first | exact absurd rfl he | rfl
  · cases e <;> first | exact absurd rfl he | rfl

end Bpak
