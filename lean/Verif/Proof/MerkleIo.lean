import Verif.Spec.MerkleIo
import Verif.Spec.Merkle
import Verif.Model.Verify
/-!
The hash tree code over two sets of callbacks, one of which may fail where the other does not.
-/
namespace Bpak

variable {σ τ : Type} {io : MIo σ} {io2 : MIo τ} {R : σ → τ → Prop} {bad : Err → Prop}

/-- The first result is the second one, or an error of the allowed kind. -/
def MioSim {α β : Type} (bad : Err → Prop) (R : α → β → Prop) (x : Except Err α) (y : Except Err β) : Prop :=
  (∃ e, x = .error e ∧ bad e) ∨ (∃ e, x = .error e ∧ y = .error e) ∨ (∃ a b, x = .ok a ∧ y = .ok b ∧ R a b)

theorem MioSim.cb {α β : Type} {R : α → β → Prop} {e : Err} {y : Except Err β} (h : bad e) : MioSim bad R (.error e : Except Err α) y :=
  Or.inl ⟨e, rfl, h⟩

theorem MioSim.same {α β : Type} {R : α → β → Prop} (e : Err) : MioSim bad R (.error e : Except Err α) (.error e : Except Err β) :=
  Or.inr (Or.inl ⟨e, rfl, rfl⟩)

theorem MioSim.done {α β : Type} {R : α → β → Prop} {a : α} {b : β} (h : R a b) : MioSim bad R (.ok a) (.ok b) :=
  Or.inr (Or.inr ⟨a, b, rfl, rfl, h⟩)

/-- What the callbacks `io` do the callbacks `io2` do as well, except for errors of the allowed kind. -/
structure MioRefines (bad : Err → Prop) (io : MIo σ) (io2 : MIo τ) (R : σ → τ → Prop) : Prop where
  wr : ∀ s t off b, R s t → MioSim bad R (io.wr s off b) (io2.wr t off b)
  rd : ∀ s t off n x, R s t → io.rd s off n = .ok x → x.length = n → io2.rd t off n = .ok x
  rdErr : ∀ s off n e, io.rd s off n = .error e → bad e
  short : ∀ s off n x, io.rd s off n = .ok x → x.length ≠ n → bad .readError

/-- The same result, related stores. -/
def MioSame {α : Type} (R : σ → τ → Prop) (a : α × σ) (b : α × τ) : Prop := a.1 = b.1 ∧ R a.2 b.2

theorem mio_zeroFill (hf : MioRefines bad io io2 R) (n : Nat) : ∀ (s : σ) (t : τ) (off : Nat), R s t →
    MioSim bad R (merkleZeroFill io s off n) (merkleZeroFill io2 t off n) := by
  induction n using Nat.strongRecOn with
  | ind n ih =>
    intro s t off hR
    rw [merkleZeroFill, merkleZeroFill.eq_1 io2]
    by_cases h0 : n = 0
    · rw [dif_pos h0, dif_pos h0]
      exact MioSim.done hR
    · rw [dif_neg h0, dif_neg h0]
      rcases hf.wr s t off (List.replicate 32 0) hR with ⟨e, h, hb⟩ | ⟨e, h, h2⟩ | ⟨s', t', h, h2, hR'⟩
      · rw [h]
        exact MioSim.cb hb
      · rw [h, h2]
        exact MioSim.same e
      · rw [h, h2]
        exact ih _ (by omega) _ _ _ hR'

theorem mio_init (hf : MioRefines bad io io2 R) (s : σ) (t : τ) (hR : R s t) (n : Nat) (salt : Bytes) (off : Nat) (z : Bool) :
    MioSim bad (MioSame R) (merkleInit io s n salt off z) (merkleInit io2 t n salt off z) := by
  unfold merkleInit
  split
  · exact MioSim.same _
  · split
    · exact MioSim.same _
    · cases merkleLevelsGo 4 0 n [] with
      | error e => exact MioSim.same _
      | ok ls =>
        dsimp only
        split
        · rcases mio_zeroFill hf ls.sum s t off hR with ⟨e, h, hb⟩ | ⟨e, h, h2⟩ | ⟨s', t', h, h2, hR'⟩
          · rw [h]
            exact MioSim.cb hb
          · rw [h, h2]
            exact MioSim.same e
          · rw [h, h2]
            exact MioSim.done ⟨rfl, hR'⟩
        · exact MioSim.done ⟨rfl, hR⟩

theorem mio_writeGo (H : HashFn) (hf : MioRefines bad io io2 R) (k : Nat) : ∀ (m : Merkle) (s : σ) (t : τ) (d : Bytes), R s t →
    MioSim bad (MioSame R) (merkleWriteGo H io k m s d) (merkleWriteGo H io2 k m t d) := by
  induction k with
  | zero =>
    intro m s t d hR
    unfold merkleWriteGo
    split
    · exact MioSim.done ⟨rfl, hR⟩
    · exact MioSim.same _
  | succ k ih =>
    intro m s t d hR
    unfold merkleWriteGo
    split
    · exact MioSim.done ⟨rfl, hR⟩
    · dsimp only
      generalize (if m.blockCounter = 4096 then { m with running := hashUpdate ⟨hashSha256, []⟩ m.salt } else m) = m1
      split
      · rcases hf.wr s t (m1.offset + (m1.chunkCounter + m1.levelOff.getD 0 0))
          (H (hashUpdate m1.running (d.take (min m1.blockCounter d.length))).kind
            (hashUpdate m1.running (d.take (min m1.blockCounter d.length))).fed) hR with ⟨e, h, hb⟩ | ⟨e, h, h2⟩ | ⟨s', t', h, h2, hR'⟩
        · rw [h]
          exact MioSim.cb hb
        · rw [h, h2]
          exact MioSim.same e
        · rw [h, h2]
          dsimp only
          split
          · exact MioSim.done ⟨rfl, hR'⟩
          · exact ih _ _ _ _ hR'
      · exact ih _ _ _ _ hR

theorem mio_writeAll (H : HashFn) (hf : MioRefines bad io io2 R) (ds : List Bytes) : ∀ (m : Merkle) (s : σ) (t : τ), R s t →
    MioSim bad (MioSame R) (merkleWriteAll H io m s ds) (merkleWriteAll H io2 m t ds) := by
  induction ds with
  | nil => exact fun m s t hR => MioSim.done ⟨rfl, hR⟩
  | cons d ds ih =>
    intro m s t hR
    unfold merkleWriteAll merkleWriteChunk
    rcases mio_writeGo H hf d.length m s t d hR with ⟨e, h, hb⟩ | ⟨e, h, h2⟩ | ⟨⟨m1, s1⟩, ⟨m2, t1⟩, h, h2, rfl, hR'⟩
    · rw [h]
      exact MioSim.cb hb
    · rw [h, h2]
      exact MioSim.same e
    · rw [h, h2]
      exact ih _ _ _ hR'

theorem mio_feed (hf : MioRefines bad io io2 R) (s : σ) (t : τ) (hR : R s t) (k : Nat) : ∀ (off : Nat) (c : HashCtx),
    MioSim bad (fun a b => a = b) (merkleFeed io s k off c) (merkleFeed io2 t k off c) := by
  induction k with
  | zero => exact fun off c => MioSim.done rfl
  | succ k ih =>
    intro off c
    unfold merkleFeed
    cases h : io.rd s off 32 with
    | error e => exact MioSim.cb (hf.rdErr _ _ _ _ h)
    | ok x =>
      dsimp only
      by_cases hx : x.length ≠ 32
      · rw [if_pos hx]
        exact MioSim.cb (hf.short _ _ _ _ h hx)
      · rw [hf.rd _ _ _ _ _ hR h (Classical.not_not.1 hx)]
        dsimp only
        rw [if_neg hx, if_neg hx]
        exact ih _ _

theorem mio_levelGo (H : HashFn) (hf : MioRefines bad io io2 R) (m : Merkle) (k : Nat) : ∀ (s : σ) (t : τ) (i o : Nat), R s t →
    MioSim bad R (merkleLevelGo H io m k s i o) (merkleLevelGo H io2 m k t i o) := by
  induction k with
  | zero => exact fun s t i o hR => MioSim.done hR
  | succ k ih =>
    intro s t i o hR
    unfold merkleLevelGo
    rcases mio_feed hf s t hR 128 (m.offset + i) (hashUpdate ⟨hashSha256, []⟩ m.salt) with ⟨e, h, hb⟩ | ⟨e, h, h2⟩ | ⟨c, c', h, h2, rfl⟩
    · rw [h]
      exact MioSim.cb hb
    · rw [h, h2]
      exact MioSim.same e
    · rw [h, h2]
      dsimp only
      rcases hf.wr s t (m.offset + o) (H c.kind c.fed) hR with ⟨e, h, hb⟩ | ⟨e, h, h2⟩ | ⟨s', t', h, h2, hR'⟩
      · rw [h]
        exact MioSim.cb hb
      · rw [h, h2]
        exact MioSim.same e
      · rw [h, h2]
        exact ih _ _ _ _ hR'

theorem mio_levelsUp (H : HashFn) (hf : MioRefines bad io io2 R) (m : Merkle) (ps : List (Nat × Nat)) : ∀ (s : σ) (t : τ), R s t →
    MioSim bad R (merkleLevelsUp H io m ps s) (merkleLevelsUp H io2 m ps t) := by
  induction ps with
  | nil => exact fun s t hR => MioSim.done hR
  | cons p ps ih =>
    intro s t hR
    cases ps with
    | nil => exact MioSim.done hR
    | cons q ps =>
      unfold merkleLevelsUp
      rcases mio_levelGo H hf m (p.1 / 4096) s t p.2 q.2 hR with ⟨e, h, hb⟩ | ⟨e, h, h2⟩ | ⟨s', t', h, h2, hR'⟩
      · rw [h]
        exact MioSim.cb hb
      · rw [h, h2]
        exact MioSim.same e
      · rw [h, h2]
        exact ih s' t' hR'

theorem mio_finish (H : HashFn) (hf : MioRefines bad io io2 R) (m : Merkle) (s : σ) (t : τ) (hR : R s t) :
    MioSim bad (MioSame R) (merkleFinish H io m s) (merkleFinish H io2 m t) := by
  unfold merkleFinish
  split
  · exact MioSim.done ⟨rfl, hR⟩
  · rcases mio_levelsUp H hf m (m.levelLen.zip m.levelOff) s t hR with ⟨e, h, hb⟩ | ⟨e, h, h2⟩ | ⟨s', t', h, h2, hR'⟩
    · rw [h]
      exact MioSim.cb hb
    · rw [h, h2]
      exact MioSim.same e
    · rw [h, h2]
      dsimp only
      rcases mio_feed hf s' t' hR' ((m.levelLen.getLastD 0) / 32) (m.offset + m.levelOff.getLastD 0)
        (hashUpdate ⟨hashSha256, []⟩ m.salt) with ⟨e, h, hb⟩ | ⟨e, h, h2⟩ | ⟨c, c', h, h2, rfl⟩
      · rw [h]
        exact MioSim.cb hb
      · rw [h, h2]
        exact MioSim.same e
      · rw [h, h2]
        exact MioSim.done ⟨rfl, hR'⟩

theorem mio_build (H : HashFn) (hf : MioRefines bad io io2 R) (s : σ) (t : τ) (hR : R s t) (off : Nat) (salt : Bytes) (len : Nat)
    (chunks : List Bytes) :
    MioSim bad (MioSame R) (buildOn H io s off salt len chunks) (buildOn H io2 t off salt len chunks) := by
  unfold buildOn
  rcases mio_init hf s t hR len salt off true with ⟨e, h, hb⟩ | ⟨e, h, h2⟩ | ⟨⟨m1, s1⟩, ⟨m2, t1⟩, h, h2, rfl, hR'⟩
  · rw [h]
    exact MioSim.cb hb
  · rw [h, h2]
    exact MioSim.same e
  · rw [h, h2]
    dsimp only
    rcases mio_writeAll H hf chunks m1 s1 t1 hR' with ⟨e, h, hb⟩ | ⟨e, h, h2⟩ | ⟨⟨m1, s1⟩, ⟨m2, t1⟩, h, h2, rfl, hR'⟩
    · rw [h]
      exact MioSim.cb hb
    · rw [h, h2]
      exact MioSim.same e
    · rw [h, h2]
      exact mio_finish H hf _ _ _ hR'

/-- Building in a file. -/
theorem faithful_refines {view : σ → Bytes} (hf : Faithful io view) : MioRefines (FromCallback io) io fileIo (fun s f => view s = f) where
  wr := by
    intro s t off b hR
    cases h : io.wr s off b with
    | error e => exact MioSim.cb (Or.inl ⟨s, off, b, h⟩)
    | ok s' =>
      refine MioSim.done (b := fileWrite t off b) ?_
      rw [← hR]
      exact hf.wr _ _ _ _ h
  rd := by
    intro s t off n x hR h hl
    have := hf.rd _ _ _ _ h hl
    rw [hR] at this
    rw [this]
    rfl
  rdErr := fun s off n e h => Or.inr (Or.inl ⟨s, off, n, h⟩)
  short := fun s off n x h hl => Or.inr (Or.inr ⟨rfl, s, off, n, x, h, hl⟩)

theorem mio_short_ne {rd : Reader} {off n : Nat} {x : Bytes} (h : rd off n = .ok x) (hx : x.length ≠ n) :
    ∀ y, rd off n = .ok y → y.length ≠ n := by
  intro y hy
  rw [h] at hy
  cases hy
  exact hx

/-- The comparing writer of the verifier. -/
theorem mio_verifyWr {rd : Reader} {P : Bytes} (hr : TrueReader rd P) (k : Nat) : ∀ (off : Nat) (b : Bytes), b.length ≤ k →
    MioSim (FromReader rd) (fun _ _ => True) (merkleVerifyWr rd off b) (merkleVerifyWr (payloadReader P) off b) := by
  induction k with
  | zero =>
    intro off b hb
    rw [merkleVerifyWr, merkleVerifyWr.eq_1 (payloadReader P)]
    have h : b = [] := List.length_eq_zero_iff.1 (by omega)
    rw [dif_pos h, dif_pos h]
    exact MioSim.done trivial
  | succ k ih =>
    intro off b hb
    rw [merkleVerifyWr, merkleVerifyWr.eq_1 (payloadReader P)]
    by_cases h0 : b = []
    · rw [dif_pos h0, dif_pos h0]
      exact MioSim.done trivial
    · rw [dif_neg h0, dif_neg h0]
      cases h : rd off (b.take 32).length with
      | error e => exact MioSim.cb (Or.inl ⟨_, _, h⟩)
      | ok x =>
        dsimp only
        by_cases hx : x.length ≠ (b.take 32).length
        · rw [if_pos hx]
          exact MioSim.cb (Or.inr ⟨rfl, _, _, mio_short_ne h hx⟩)
        · have e := hr _ _ _ h (Classical.not_not.1 hx)
          unfold payloadReader
          dsimp only
          rw [if_neg hx, ← e, if_neg hx]
          by_cases hc : b.take 32 ≠ x
          · rw [if_pos hc, if_pos hc]
            exact MioSim.same _
          · rw [if_neg hc, if_neg hc]
            refine ih _ _ ?_
            have := List.length_pos_iff.2 h0
            rw [List.length_drop]
            omega

theorem verify_refines {rd : Reader} {P : Bytes} (hr : TrueReader rd P) :
    MioRefines (FromReader rd) (verifyIo rd) (verifyIo (payloadReader P)) (fun _ _ => True) where
  wr := fun _ _ off b _ => mio_verifyWr hr b.length off b (Nat.le_refl _)
  rd := by
    intro s t off n x _ h hl
    have := hr _ _ _ h hl
    rw [this]
    rfl
  rdErr := fun _ off n e h => Or.inl ⟨off, n, h⟩
  short := fun _ off n x h hl => Or.inr ⟨rfl, off, n, mio_short_ne h hl⟩

theorem mio_verifyFeed (H : HashFn) {rd : Reader} {P : Bytes} (hr : TrueReader rd P) (n : Nat) : ∀ (m : Merkle) (off : Nat),
    MioSim (FromReader rd) (fun a b => a = b) (verifyFeed H rd m off n) (verifyFeed H (payloadReader P) m off n) := by
  induction n using Nat.strongRecOn with
  | ind n ih =>
    intro m off
    rw [verifyFeed, verifyFeed.eq_1 H (payloadReader P)]
    by_cases h0 : n = 0
    · rw [dif_pos h0, dif_pos h0]
      exact MioSim.done rfl
    · rw [dif_neg h0, dif_neg h0]
      cases h : rd off (min n 4096) with
      | error e => exact MioSim.cb (Or.inl ⟨_, _, h⟩)
      | ok x =>
        have e1 : ∀ y, payloadReader P off (min n 4096) = .ok y ↔ fileRead P off (min n 4096) = y := fun y => ⟨fun h => by cases h; rfl, fun h => by rw [← h]; rfl⟩
        dsimp only
        by_cases hx : x.length ≠ min n 4096
        · rw [if_pos hx]
          exact MioSim.cb (Or.inr ⟨rfl, _, _, mio_short_ne h hx⟩)
        · rw [(e1 x).2 (hr _ _ _ h (Classical.not_not.1 hx)).symm]
          dsimp only
          rw [if_neg hx, if_neg hx]
          unfold merkleWriteChunk
          rcases mio_writeGo H (verify_refines hr) x.length m () () x trivial with ⟨e, h, hb⟩ | ⟨e, h, h2⟩ | ⟨⟨m1, s1⟩, ⟨m2, t1⟩, h, h2, rfl, _⟩
          · rw [h]
            exact MioSim.cb hb
          · rw [h, h2]
            exact MioSim.same e
          · rw [h, h2]
            exact ih _ (by omega) _ _

/-- The verdict with a reader that may fail: the one for the bytes that are there, or an error of the reader. -/
theorem mio_verifyTree (H : HashFn) {rd : Reader} {P : Bytes} (hr : TrueReader rd P) (dOff n tOff : Nat) (root salt : Bytes) :
    verifyMerkleTree H rd dOff n tOff root salt = verifyMerkleTree H (payloadReader P) dOff n tOff root salt ∨
      FromReader rd (verifyMerkleTree H rd dOff n tOff root salt) := by
  unfold verifyMerkleTree
  rcases mio_init (verify_refines hr) () () trivial n salt tOff false with ⟨e, h, hb⟩ | ⟨e, h, h2⟩ | ⟨⟨m1, s1⟩, ⟨m2, t1⟩, h, h2, rfl, _⟩
  · rw [h]
    exact Or.inr hb
  · rw [h, h2]
    exact Or.inl rfl
  · rw [h, h2]
    dsimp only
    rcases mio_verifyFeed H hr n m1 dOff with ⟨e, h, hb⟩ | ⟨e, h, h2⟩ | ⟨m, m', h, h2, rfl⟩
    · rw [h]
      exact Or.inr hb
    · rw [h, h2]
      exact Or.inl rfl
    · rw [h, h2]
      dsimp only
      rcases mio_finish H (verify_refines hr) m () () trivial with ⟨e, h, hb⟩ | ⟨e, h, h2⟩ | ⟨⟨r, s1⟩, ⟨r', t1⟩, h, h2, rfl, _⟩
      · rw [h]
        exact Or.inr hb
      · rw [h, h2]
        exact Or.inl rfl
      · rw [h, h2]
        exact Or.inl rfl

theorem mio_readLoop {rd : Reader} {P : Bytes} (hr : TrueReader rd P) (n : Nat) : ∀ (off : U64) (c : HashCtx),
    MioSim (FromReader rd) (fun a b => a = b) (payloadReadLoop rd off n c) (payloadReadLoop (payloadReader P) off n c) := by
  induction n using Nat.strongRecOn with
  | ind n ih =>
    intro off c
    rw [payloadReadLoop, payloadReadLoop.eq_1 (payloadReader P)]
    cases h : rd off.toNat (min n 4096) with
    | error e => exact MioSim.cb (Or.inr ⟨rfl, off.toNat, min n 4096, fun x hx => by rw [h] at hx; cases hx⟩)
    | ok x =>
      dsimp only
      by_cases hx : x.length ≠ min n 4096
      · rw [if_pos hx]
        exact MioSim.cb (Or.inr ⟨rfl, _, _, mio_short_ne h hx⟩)
      · have e1 : payloadReader P off.toNat (min n 4096) = .ok x := by
          rw [hr _ _ _ h (Classical.not_not.1 hx)]
          rfl
        rw [e1]
        dsimp only
        rw [if_neg hx, if_neg hx]
        by_cases h0 : n - min n 4096 = 0
        · rw [dif_pos h0, dif_pos h0]
          exact MioSim.done rfl
        · rw [dif_neg h0, dif_neg h0]
          exact ih _ (by omega) _ _

theorem mio_hashGo {rd : Reader} {P : Bytes} (hr : TrueReader rd P) (ps : List PartHdr) : ∀ (off : U64) (c : HashCtx),
    MioSim (FromReader rd) (fun a b => a = b) (payloadHashGo rd ps off c) (payloadHashGo (payloadReader P) ps off c) := by
  induction ps with
  | nil => exact fun off c => MioSim.done rfl
  | cons p ps ih =>
    intro off c
    unfold payloadHashGo
    by_cases h0 : p.id = 0
    · rw [if_pos h0, if_pos h0]
      exact ih _ _
    · rw [if_neg h0, if_neg h0]
      by_cases hx : p.isExcluded
      · rw [if_pos hx, if_pos hx]
        exact ih _ _
      · rw [if_neg hx, if_neg hx]
        rcases mio_readLoop hr (partSize p).toNat off c with ⟨e, h, hb⟩ | ⟨e, h, h2⟩ | ⟨⟨o1, c1⟩, _, h, h2, rfl⟩
        · rw [h]
          exact MioSim.cb hb
        · rw [h, h2]
          exact MioSim.same e
        · rw [h, h2]
          exact ih _ _

theorem mio_payloadHash (H : HashFn) {rd : Reader} {P : Bytes} (hr : TrueReader rd P) (h : Header) (off : U64) (n : Nat) :
    computePayloadHash H h rd off n = computePayloadHash H h (payloadReader P) off n ∨
      ∃ e, computePayloadHash H h rd off n = (e, none) ∧ FromReader rd e := by
  unfold computePayloadHash
  cases hashInit h.hashKind with
  | mk e0 c =>
    cases e0 <;> try exact Or.inl rfl
    dsimp only
    rcases mio_hashGo hr h.parts off c with ⟨e, h, hb⟩ | ⟨e, h, h2⟩ | ⟨c1, _, h, h2, rfl⟩
    · rw [h]
      exact Or.inr ⟨e, rfl, hb⟩
    · rw [h, h2]
      exact Or.inl rfl
    · rw [h, h2]
      exact Or.inl rfl

theorem mio_partTree (H : HashFn) {rd : Reader} {P : Bytes} (hr : TrueReader rd P) (h : Header) (off : U64) (p : PartHdr) (ri : Slot) :
    verifyPartTree H h rd off p ri = verifyPartTree H h (payloadReader P) off p ri ∨
      ∃ e, verifyPartTree H h rd off p ri = .ret e ∧ FromReader rd e := by
  unfold verifyPartTree
  cases getMeta h idMerkleSalt p.id with
  | none => exact Or.inl rfl
  | some ss =>
    dsimp only
    cases getPart h (partIdToHashTreeId p.id) with
    | none => exact Or.inl rfl
    | some ti =>
      dsimp only
      cases h.parts[ti]? with
      | none => exact Or.inl rfl
      | some tp =>
        cases metaHash h ri with
        | none => exact Or.inl rfl
        | some root =>
          cases metaHash h ss with
          | none => exact Or.inl rfl
          | some salt =>
            dsimp only
            rcases mio_verifyTree H hr (partOffset h p - 4096 + off).toNat (partSize p).toNat (partOffset h tp - 4096 + off).toNat root salt with h1 | h1
            · rw [h1]
              exact Or.inl rfl
            · exact Or.inr ⟨_, rfl, h1⟩

theorem mio_trees (H : HashFn) {rd : Reader} {P : Bytes} (hr : TrueReader rd P) (hk : ¬ FromReader rd .ok) (h : Header) (off : U64) (ps : List PartHdr) :
    verifyTreesGo H h rd off ps = verifyTreesGo H h (payloadReader P) off ps ∨
      ∃ e, verifyTreesGo H h rd off ps = .ret e ∧ FromReader rd e := by
  induction ps with
  | nil => exact Or.inl rfl
  | cons p ps ih =>
    unfold verifyTreesGo
    by_cases h0 : p.id = 0
    · rw [if_pos h0, if_pos h0]
      exact ih
    · rw [if_neg h0, if_neg h0]
      cases getMeta h idMerkleRootHash p.id with
      | none => exact ih
      | some ri =>
        dsimp only
        rcases mio_partTree H hr h off p ri with h1 | ⟨e, h1, hb⟩
        · rw [h1]
          cases verifyPartTree H h (payloadReader P) off p ri with
          | ub => exact Or.inl rfl
          | ret e => cases e <;> first | exact ih | exact Or.inl rfl
        · rw [h1]
          cases e <;> first | exact absurd hb hk | exact Or.inr ⟨_, rfl, hb⟩

theorem mio_payload (H : HashFn) {rd : Reader} {P : Bytes} (hr : TrueReader rd P) (hk : ¬ FromReader rd .ok) (h : Header) (off : U64) :
    verifyPayload H h rd off = verifyPayload H h (payloadReader P) off ∨
      ∃ e, verifyPayload H h rd off = .ret e ∧ FromReader rd e := by
  unfold verifyPayload
  rcases mio_payloadHash H hr h off 64 with h1 | ⟨e, h1, hb⟩
  · rw [h1]
    cases computePayloadHash H h (payloadReader P) off 64 with
    | mk e d =>
      cases e <;> try exact Or.inl rfl
      cases d with
      | none => exact Or.inl rfl
      | some d =>
        dsimp only
        by_cases hd : d ≠ h.payloadHash.take d.length
        · rw [if_pos hd, if_pos hd]
          exact Or.inl rfl
        · rw [if_neg hd, if_neg hd]
          exact mio_trees H hr hk h off h.parts
  · rw [h1]
    refine Or.inr ⟨e, ?_, hb⟩
    cases e <;> rfl

end Bpak
