import Verif.Proof.Disk
/-! Every call on a disk that can be full, compared with the same call on a disk with room. -/
namespace Bpak

/-- What both specifications in Spec/Disk.lean say at once. -/
structure Res (P : Prop) (p0 : Pkg) (base : Err × Pkg) (res : Err × Disk) : Prop where
  grows : Onward p0 base.2
  ok : res.1 = .ok → base.1 = .ok ∧ res.2.pkg.hdr = base.2.hdr ∧
    ((res.2.pkg = base.2 ∧ res.2.pending = false) ∨
     (¬ P ∧ ∃ pre post m, base.2.log = p0.log ++ (pre ++ .write 0 base.2.hdr.image :: post) ∧ m < base.2.hdr.image.length ∧
       res.2.pkg.file = applyOps p0.file (pre ++ .write 0 (base.2.hdr.image.take m) :: post)))
  bad : res.1 ≠ .ok → Fail p0 base.2 res.2.pkg.file

theorem Fail.unique {p0 p : Pkg} {f : Bytes} (h : Fail p0 p f) {ops : List FOp} (e : p.log = p0.log ++ ops) : CrashState p0.file ops f := by
  obtain ⟨a, e1, _, c⟩ := h
  rw [e] at e1
  rw [List.append_cancel_left e1]
  exact c

theorem Res.noSilentLoss {P : Prop} {p0 : Pkg} {base : Err × Pkg} {res : Err × Disk} (r : Res P p0 base res) (hP : P) : NoSilentLoss p0 base res := by
  obtain ⟨⟨ops, e, f⟩, h1, h2⟩ := r
  refine ⟨ops, e, f, fun h => ?_, fun h => (h2 h).unique e⟩
  obtain ⟨a, _, b | b⟩ := h1 h
  · exact ⟨a, b⟩
  · exact absurd hP b.1

theorem Res.onlyHeaderLost {P : Prop} {p0 : Pkg} {base : Err × Pkg} {res : Err × Disk} (r : Res P p0 base res) : OnlyHeaderLost p0 base res := by
  obtain ⟨⟨ops, e, f⟩, h1, h2⟩ := r
  refine ⟨ops, e, f, fun h => ?_, fun h => (h2 h).unique e⟩
  obtain ⟨a, a2, b | ⟨_, pre, post, m, b1, b2, b3⟩⟩ := h1 h
  · exact ⟨a, a2, .inl b.1⟩
  · rw [e] at b1
    exact ⟨a, a2, .inr ⟨pre, post, m, List.append_cancel_left b1, b2, b3⟩⟩

/-- A call that failed on both. -/
theorem Res.failed {P : Prop} {p0 p : Pkg} {e e' : Err} {w : Disk} (g : Onward p0 p) (h : Fail p0 p w.pkg.file) (hne : e' ≠ .ok) : Res P p0 (e, p) (e', w) :=
  ⟨g, fun h => absurd h hne, fun _ => h⟩

/-- The same, and if it succeeded then going on is possible. -/
structure ResT (P : Prop) (p0 : Pkg) (base : Err × Pkg) (res : Err × Disk) : Prop extends Res P p0 base res where
  track : res.1 = .ok → Track P p0 base.2 res.2

theorem ResT.failed {P : Prop} {p0 p : Pkg} {e e' : Err} {w : Disk} (g : Onward p0 p) (h : Fail p0 p w.pkg.file) (hne : e' ≠ .ok) : ResT P p0 (e, p) (e', w) :=
  ⟨.failed g h hne, fun h => absurd h hne⟩

theorem HeaderDone.res {P : Prop} {p0 p1 : Pkg} {w : Disk} (g : Onward p0 p1) (h : HeaderDone P p1 w) : Res P p0 (.ok, writeHeader p1) (.ok, w) := by
  refine ⟨g.trans (.writeHeader _), fun _ => ⟨rfl, ?_, ?_⟩, fun h => absurd rfl h⟩
  · rcases h with h | ⟨_, _, m, _, h⟩
    · simp only; rw [h.2]
    · simp only; rw [h]; rfl
  · rcases h with h | ⟨a, _, m, b, h⟩
    · exact .inl ⟨h.2, h.1⟩
    · obtain ⟨ops, e, f⟩ := g
      refine .inr ⟨a, ops, [], m, ?_, b, ?_⟩
      · show (p1.write 0 p1.hdr.image).log = _
        rw [Pkg.write, e, List.append_assoc]
        rfl
      · simp only
        rw [h, applyOps_append, ← f]
        rfl

theorem Onward.finish (H : HashFn) (p : Pkg) : Onward p (finish H p).2 := by
  have := Onward.updateHash H p
  unfold Bpak.finish
  split
  · rename_i h; rw [h] at this; exact this.trans (.writeHeader _)
  · rename_i h; rw [h] at this; exact this

theorem Track.finish {P : Prop} {p0 p : Pkg} {w : Disk} (H : HashFn) (t : Track P p0 p w) : ResT P p0 (finish H p) (finishD H w) := by
  rcases hr : finishD H w with ⟨e, w'⟩
  by_cases he : e = .ok
  · subst he
    obtain ⟨p1, e1, g, d, t2⟩ := t.finish_ok H hr
    rw [e1]
    exact ⟨d.res g, fun _ => t2⟩
  · exact .failed (t.grows.trans (.finish H p)) (t.finish_fail H hr he) he

theorem Track.writeHeader {P : Prop} {p0 p : Pkg} {w : Disk} (t : Track P p0 p w) : ResT P p0 (.ok, writeHeader p) (writeHeaderD w) := by
  rcases hr : writeHeaderD w with ⟨e, w'⟩
  by_cases he : e = .ok
  · subst he
    exact ⟨(t.writeHeader_ok hr).1.res t.grows, fun _ => (t.writeHeader_ok hr).2⟩
  · exact .failed (t.grows.trans (.writeHeader p)) (t.writeHeader_fail hr) he

/-- A failure on a disk with room is one on this disk, unless an error came earlier. -/
theorem Track.failed {P : Prop} {p0 p : Pkg} {w : Disk} (t : Track P p0 p w) {e : Err} (he : e ≠ .ok) : ResT P p0 (e, p) (e, w) :=
  .failed t.grows t.fail he

/-- Nothing was lost so far. -/
theorem Track.same {P : Prop} {p0 p : Pkg} {w : Disk} (t : Track P p0 p w) (hp : w.pending = false) (e : Err) : ResT P p0 (e, p) (e, w) :=
  ⟨⟨t.grows, fun h => ⟨h, t.hdr, .inl ⟨t.clean hp, hp⟩⟩, fun _ => t.fail⟩, fun _ => t⟩

/-! ### adding a file -/

theorem addCopyLoop_grows (k : Nat) : ∀ (p : Pkg) (pos : Nat) (src : Bytes) (rem : U64) (p' : Pkg) (pos' : Nat), addCopyLoop k p pos src rem = some (p', pos') → Onward p p' := by
  induction k with
  | zero => intro p pos src rem p' pos' h; cases h
  | succ k ih =>
    intro p pos src rem p' pos' h
    unfold addCopyLoop at h
    split at h
    · cases h; exact .refl _
    · exact (Onward.write _ _ _).trans (ih _ _ _ _ _ _ h)

theorem addCopyLoopD_ok {P : Prop} {p0 : Pkg} (k : Nat) : ∀ (p : Pkg) (w : Disk) (pos : Nat) (src : Bytes) (rem : U64) (p' : Pkg) (pos' : Nat), Track P p0 p w →
    addCopyLoop k p pos src rem = some (p', pos') →
    ∃ b w' q, addCopyLoopD k w pos src rem = some (b, w', q) ∧ (b = true → Track P p0 p' w' ∧ q = pos') ∧ (b = false → Fail p0 p' w'.pkg.file) := by
  induction k with
  | zero => intro p w pos src rem p' pos' _ h; cases h
  | succ k ih =>
    intro p w pos src rem p' pos' t h
    unfold addCopyLoop at h
    unfold addCopyLoopD
    split at h
    · rename_i h0
      cases h
      exact ⟨true, w, pos, by rw [if_pos h0], fun _ => ⟨t, rfl⟩, fun h => (by cases h)⟩
    · rename_i h0
      rw [if_neg h0]
      rcases hf : w.fwrite pos (src.take 4096) with ⟨b, w1⟩
      cases b with
      | false => exact ⟨false, w1, pos, rfl, fun h => (by cases h), fun _ => (t.fwrite_false hf).grows (addCopyLoop_grows _ _ _ _ _ _ _ h)⟩
      | true => exact ih _ _ _ _ _ _ _ (t.fwrite_true hf).1 h

theorem addCopyLoopD_none (k : Nat) : ∀ (p : Pkg) (w : Disk) (pos : Nat) (src : Bytes) (rem : U64), addCopyLoop k p pos src rem = none →
    ∀ w' q, addCopyLoopD k w pos src rem ≠ some (true, w', q) := by
  induction k with
  | zero => intro p w pos src rem _ w' q h; cases h
  | succ k ih =>
    intro p w pos src rem h w' q hd
    unfold addCopyLoop at h
    unfold addCopyLoopD at hd
    split at h
    · cases h
    · rename_i h0
      rw [if_neg h0] at hd
      split at hd
      · cases hd
      · exact ih _ _ _ _ _ h _ _ hd

/-- The part added last by `bpak_pkg_add_file` and `bpak_pkg_add_key`. -/
def fillPart (h : Header) (i : Slot) (id : U32) (off : U64) (flags : U8) (n : Nat) : Header :=
  { h with parts := h.parts.modify i (fun q => { q with id := id, offset := off, flags := flags, size := BitVec.ofNat 64 n, padBytes := BitVec.ofNat 16 (padFor n) }) }

theorem finish_match (H : HashFn) {α : Type} (p : Pkg) (k : Err × Pkg → α) :
    (match updateHash H p with | (.ok, p) => k (.ok, writeHeader p) | (e, p) => k (e, p)) = k (finish H p) := by
  unfold finish
  rcases updateHash H p with ⟨e, q⟩
  cases e <;> rfl

theorem addFile_finish (H : HashFn) (fuel : Nat) (p : Pkg) (id : U32) (flags : U8) (n : Nat) (src : Bytes) (h : Header) (i : Slot) (ha : addPart p.hdr id = (.ok, h, i)) :
    addFile H fuel p id flags n src =
      if 2^63 ≤ (newOffset p.hdr).toNat then some (.seekError, { p with hdr := fillPart h i id (newOffset p.hdr) flags n })
      else match addCopyLoop fuel { p with hdr := fillPart h i id (newOffset p.hdr) flags n } (newOffset p.hdr).toNat src (BitVec.ofNat 64 n) with
        | none => none
        | some (p, pos) => some (finish H (p.write pos (List.replicate (padFor n) 0))) := by
  unfold addFile
  simp only [ha]
  split
  · rfl
  · show (match addCopyLoop fuel { p with hdr := fillPart h i id (newOffset p.hdr) flags n } (newOffset p.hdr).toNat src (BitVec.ofNat 64 n) with
      | none => none
      | some (p, pos) => match updateHash H (p.write pos (List.replicate (padFor n) 0)) with
        | (.ok, p) => some (Err.ok, writeHeader p)
        | (e, p) => some (e, p)) = _
    rcases addCopyLoop fuel { p with hdr := fillPart h i id (newOffset p.hdr) flags n } (newOffset p.hdr).toNat src (BitVec.ofNat 64 n) with _ | ⟨q, pos⟩
    · rfl
    · exact finish_match H _ some

theorem addFile_refused (H : HashFn) (fuel : Nat) (p : Pkg) (id : U32) (flags : U8) (n : Nat) (src : Bytes) (e : Err) (h : Header) (i : Slot)
    (ha : addPart p.hdr id = (e, h, i)) (he : e ≠ .ok) : addFile H fuel p id flags n src = some (e, { p with hdr := h }) := by
  unfold addFile
  simp only [ha]

theorem addFileD_refused (H : HashFn) (fuel : Nat) (w : Disk) (id : U32) (flags : U8) (n : Nat) (src : Bytes) (e : Err) (h : Header) (i : Slot)
    (ha : addPart w.pkg.hdr id = (e, h, i)) (he : e ≠ .ok) : addFileD H fuel w id flags n src = some (e, { w with pkg := { w.pkg with hdr := h } }) := by
  unfold addFileD
  simp only [ha]

theorem addFileD_finish (H : HashFn) (fuel : Nat) (w : Disk) (id : U32) (flags : U8) (n : Nat) (src : Bytes) (h : Header) (i : Slot) (ha : addPart w.pkg.hdr id = (.ok, h, i)) :
    addFileD H fuel w id flags n src =
      match Disk.fseek { w with pkg := { w.pkg with hdr := fillPart h i id (newOffset w.pkg.hdr) flags n } } (newOffset w.pkg.hdr).toNat with
      | (false, w) => some (.seekError, w)
      | (true, w') =>
        match addCopyLoopD fuel w' (newOffset w.pkg.hdr).toNat src (BitVec.ofNat 64 n) with
        | none => none
        | some (false, w, _) => some (.writeError, w)
        | some (true, w, pos) =>
          match w.fwrite pos (List.replicate (padFor n) 0) with
          | (false, w) => some (.writeError, w)
          | (true, w) => some (finishD H w) := by
  unfold addFileD
  simp only [ha]
  rfl

theorem fseek_pos {w : Disk} (h : w.pending = false) (pos : Nat) : w.fseek pos = (decide (pos < 2^63), w) := by
  unfold Disk.fseek; rw [if_neg (by rw [h]; decide)]

theorem addFileD_ok (H : HashFn) (fuel : Nat) (w : Disk) (hp : w.pending = false) (id : U32) (flags : U8) (statSize : Nat) (src : Bytes) :
    (∀ b, addFile H fuel w.pkg id flags statSize src = some b → ∃ r, addFileD H fuel w id flags statSize src = some r ∧ ResT (Prompt w.luck) w.pkg b r) ∧
    (addFile H fuel w.pkg id flags statSize src = none → ∀ r, addFileD H fuel w id flags statSize src = some r → r.1 ≠ .ok) := by
  have t := Track.start hp
  rcases ha : addPart w.pkg.hdr id with ⟨e, h, i⟩
  by_cases he : e = .ok
  · subst he
    rw [addFile_finish H fuel w.pkg id flags statSize src h i ha, addFileD_finish H fuel w id flags statSize src h i ha]
    generalize fillPart h i id (newOffset w.pkg.hdr) flags statSize = h1
    have t1 := t.setHdr h1
    rw [fseek_pos (by exact hp)]
    by_cases hb : (newOffset w.pkg.hdr).toNat < 2^63
    · rw [if_neg (by omega), decide_eq_true hb]
      simp only
      rcases hc : addCopyLoop fuel { w.pkg with hdr := h1 } (newOffset w.pkg.hdr).toNat src (BitVec.ofNat 64 statSize) with _ | ⟨p1, pos1⟩
      · refine ⟨fun b h => (by cases h), fun _ r hr => ?_⟩
        split at hr
        · cases hr
        · cases hr; exact fun h => (by cases h)
        · rename_i h2; exact absurd h2 (addCopyLoopD_none _ _ _ _ _ _ hc _ _)
      · refine ⟨fun b hb => ?_, fun h => (by cases h)⟩
        cases hb
        obtain ⟨b, w1, q, e1, h1, h2⟩ := addCopyLoopD_ok _ _ _ _ _ _ _ _ t1 hc
        rw [e1]
        have g1 : Onward w.pkg p1 := (t1.grows).trans (addCopyLoop_grows _ _ _ _ _ _ _ hc)
        have g2 := (Onward.write p1 pos1 (List.replicate (padFor statSize) 0)).trans (.finish H _)
        cases b with
        | false => exact ⟨_, rfl, .failed (g1.trans g2) ((h2 rfl).grows g2) (by intro h; cases h)⟩
        | true =>
          obtain ⟨t2, rfl⟩ := h1 rfl
          simp only
          rcases hf : w1.fwrite q (List.replicate (padFor statSize) 0) with ⟨b, w2⟩
          cases b with
          | false => exact ⟨_, rfl, .failed (g1.trans g2) ((t2.fwrite_false hf).grows (.finish H _)) (by intro h; cases h)⟩
          | true => exact ⟨_, rfl, (t2.fwrite_true hf).1.finish H⟩
    · rw [if_pos (by omega), decide_eq_false hb]
      refine ⟨fun b h => ?_, fun h => (by cases h)⟩
      cases h
      exact ⟨_, rfl, t1.failed (by decide)⟩
  · rw [addFile_refused H fuel w.pkg id flags statSize src e h i ha he, addFileD_refused H fuel w id flags statSize src e h i ha he]
    refine ⟨fun b hb => ?_, fun h => (by cases h)⟩
    cases hb
    exact ⟨_, rfl, (t.setHdr h).failed he⟩

/-! ### adding a key -/

theorem addKey_finish (H : HashFn) (p : Pkg) (id : U32) (flags : U8) (d : Bytes) (h : Header) (i : Slot) (ha : addPart p.hdr id = (.ok, h, i)) :
    addKey H p id flags (.ok d) =
      if 2^63 ≤ (newOffset p.hdr).toNat then .ret (.seekError, { p with hdr := fillPart h i id (newOffset p.hdr) flags d.length })
      else if padFor d.length > 1 then .ub
      else .ret (finish H ((Pkg.write { p with hdr := fillPart h i id (newOffset p.hdr) flags d.length } (newOffset p.hdr).toNat d).write
        ((newOffset p.hdr).toNat + d.length) (List.replicate (padFor d.length) 0))) := by
  unfold addKey
  simp only [ha]
  split
  · rfl
  · split
    · rfl
    · exact finish_match H _ Out.ret

theorem addKeyD_finish (H : HashFn) (w : Disk) (id : U32) (flags : U8) (d : Bytes) (h : Header) (i : Slot) (ha : addPart w.pkg.hdr id = (.ok, h, i)) :
    addKeyD H w id flags (.ok d) =
      match Disk.fseek { w with pkg := { w.pkg with hdr := fillPart h i id (newOffset w.pkg.hdr) flags d.length } } (newOffset w.pkg.hdr).toNat with
      | (false, w) => .ret (.seekError, w)
      | (true, w') =>
        match w'.fwrite (newOffset w.pkg.hdr).toNat d with
        | (false, w) => .ret (.writeError, w)
        | (true, w') =>
          if padFor d.length > 1 then .ub
          else match w'.fwrite ((newOffset w.pkg.hdr).toNat + d.length) (List.replicate (padFor d.length) 0) with
            | (false, w) => .ret (.writeError, w)
            | (true, w) => .ret (finishD H w) := by
  unfold addKeyD
  simp only [ha]
  rfl

theorem addKeyD_ok (H : HashFn) (w : Disk) (hp : w.pending = false) (id : U32) (flags : U8) (key : Except Err Bytes) :
    (∀ b, addKey H w.pkg id flags key = .ret b → ∃ r, addKeyD H w id flags key = .ret r ∧ ResT (Prompt w.luck) w.pkg b r) ∧
    (addKey H w.pkg id flags key = .ub → ∀ r, addKeyD H w id flags key = .ret r → r.1 ≠ .ok) := by
  have t := Track.start hp
  rcases key with e | d
  · unfold addKey addKeyD
    refine ⟨fun b hb => ?_, fun h => (by cases h)⟩
    cases hb
    exact ⟨_, rfl, t.same hp e⟩
  rcases ha : addPart w.pkg.hdr id with ⟨e, h, i⟩
  by_cases he : e = .ok
  · subst he
    rw [addKey_finish H w.pkg id flags d h i ha, addKeyD_finish H w id flags d h i ha]
    generalize fillPart h i id (newOffset w.pkg.hdr) flags d.length = h1
    have t1 := t.setHdr h1
    rw [fseek_pos (by exact hp)]
    by_cases hb : (newOffset w.pkg.hdr).toNat < 2^63
    · rw [if_neg (by omega), decide_eq_true hb]
      simp only
      rcases hf : Disk.fwrite { w with pkg := { w.pkg with hdr := h1 } } (newOffset w.pkg.hdr).toNat d with ⟨b, w1⟩
      by_cases hpad : padFor d.length > 1
      · rw [if_pos hpad]
        refine ⟨fun b h => (by cases h), fun _ r hr => ?_⟩
        cases b with
        | false => cases hr; exact fun h => (by cases h)
        | true => simp only [if_pos hpad] at hr; cases hr
      · rw [if_neg hpad]
        refine ⟨fun b hb => ?_, fun h => (by cases h)⟩
        cases hb
        have g2 := (Onward.write (Pkg.write { w.pkg with hdr := h1 } (newOffset w.pkg.hdr).toNat d) ((newOffset w.pkg.hdr).toNat + d.length) (List.replicate (padFor d.length) 0)).trans (.finish H _)
        cases b with
        | false => exact ⟨_, rfl, .failed ((t1.grows.trans (.write _ _ _)).trans g2) ((t1.fwrite_false hf).grows g2) (by intro h; cases h)⟩
        | true =>
          have t2 := (t1.fwrite_true hf).1
          simp only [if_neg hpad]
          rcases hf2 : w1.fwrite ((newOffset w.pkg.hdr).toNat + d.length) (List.replicate (padFor d.length) 0) with ⟨b, w2⟩
          cases b with
          | false => exact ⟨_, rfl, .failed (t2.grows.trans ((Onward.write _ _ _).trans (.finish H _))) ((t2.fwrite_false hf2).grows (.finish H _)) (by intro h; cases h)⟩
          | true => exact ⟨_, rfl, (t2.fwrite_true hf2).1.finish H⟩
    · rw [if_pos (by omega), decide_eq_false hb]
      refine ⟨fun b h => ?_, fun h => (by cases h)⟩
      cases h
      exact ⟨_, rfl, t1.failed (by decide)⟩
  · have e1 : addKey H w.pkg id flags (.ok d) = .ret (e, { w.pkg with hdr := h }) := by unfold addKey; simp only [ha]
    have e2 : addKeyD H w id flags (.ok d) = .ret (e, { w with pkg := { w.pkg with hdr := h } }) := by unfold addKeyD; simp only [ha]
    rw [e1, e2]
    refine ⟨fun b hb => ?_, fun h => (by cases h)⟩
    cases hb
    exact ⟨_, rfl, (t.setHdr h).failed he⟩

end Bpak
