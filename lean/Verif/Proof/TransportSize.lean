import Verif.Proof.Transport
namespace Bpak
variable [LzmaLib]

/-- Everything a patcher wrote since the file was `f`: consecutive bytes from `off`, as many as it counts. -/
def Wrote (f : Bytes) (off : Nat) (p : Patcher) : Prop := ∃ w : Bytes, p.out = fileWrite f off w ∧ p.outPos = w.length

omit [LzmaLib] in
theorem Wrote.init (f : Bytes) (off : Nat) : Wrote f off (Patcher.init f) := ⟨[], by rw [fileWrite_nil]; rfl, rfl⟩

omit [LzmaLib] in
theorem Wrote.step {f : Bytes} {off : Nat} {p q : Patcher} (h : Wrote f off p) (b : Bytes) (h1 : q.out = fileWrite p.out (off + p.outPos) b) (h2 : q.outPos = p.outPos + b.length) :
    Wrote f off q := by
  obtain ⟨w, a, c⟩ := h
  exact ⟨w ++ b, by rw [h1, a, c, fileWrite_append], by rw [h2, c, List.length_append]⟩

omit [LzmaLib] in
theorem Wrote.same {f : Bytes} {off : Nat} {p q : Patcher} (h : Wrote f off p) (h1 : q.out = p.out) (h2 : q.outPos = p.outPos) : Wrote f off q := by
  obtain ⟨w, a, c⟩ := h
  exact ⟨w, by rw [h1, a], by rw [h2, c]⟩

def IterWrote (f : Bytes) (off : Nat) : PIter → Prop
  | .done _ p' => Wrote f off p'
  | .more p' _ => Wrote f off p'
  | .ub => True

omit [LzmaLib] in
theorem patchIter_wrote (c : PatchCfg) (hl : RdLaw c.rd) (f : Bytes) (p : Patcher) (b : Bytes) (h : Wrote f c.outOff p) : IterWrote f c.outOff (patchIter c p b) := by
  unfold patchIter
  cases hst : p.st with
  | fillCtrl =>
    simp only
    by_cases h1 : p.ctrl.length < 24
    · rw [if_pos h1]
      split <;> exact h.same rfl rfl
    · rw [if_neg h1]; exact h
  | readCtrl =>
    simp only
    split <;> exact h.same rfl rfl
  | applyDiff =>
    simp only
    split
    · trivial
    · rename_i hd
      generalize hD : min (min (b.length : Int) p.diff) (c.bufLen : Int) = D at *
      cases hr : c.rd (c.originOff + p.originPos) D.toNat with
      | none => exact h.same rfl rfl
      | some o =>
        simp only
        have ho := hl.len _ _ _ hr
        have hlen : (List.zipWith (· + ·) o (b.take D.toNat)).length = D.toNat := by
          rw [List.length_zipWith, List.length_take, ho]; omega
        generalize List.zipWith (· + ·) o (b.take D.toNat) = buf at *
        have key : ∀ q : Patcher, q.out = fileWrite p.out (c.outOff + p.outPos) buf → q.outPos = p.outPos + D.toNat → Wrote f c.outOff q :=
          fun q q1 q2 => h.step buf q1 (by rw [q2, hlen])
        split <;> unfold IterWrote <;> simp only <;> split
        · split
          · exact key _ rfl rfl
          · exact key _ rfl rfl
        · exact key _ rfl rfl
        · split
          · exact key _ rfl rfl
          · exact key _ rfl rfl
        · exact key _ rfl rfl
  | applyExtra =>
    simp only
    split
    · trivial
    · rename_i hd
      generalize hD : min (b.length : Int) p.extra = D at *
      have hlen : (b.take D.toNat).length = D.toNat := by rw [List.length_take]; omega
      have key : ∀ q : Patcher, q.out = fileWrite p.out (c.outOff + p.outPos) (b.take D.toNat) → q.outPos = p.outPos + D.toNat → Wrote f c.outOff q :=
        fun q q1 q2 => h.step _ q1 (by rw [q2, hlen])
      by_cases he : p.extra - D = 0
      · rw [if_pos he]
        split <;> exact key _ rfl rfl
      · rw [if_neg he]; exact key _ rfl rfl
  | error => exact h

omit [LzmaLib] in
theorem patchLoop_wrote (c : PatchCfg) (hl : RdLaw c.rd) (f : Bytes) (n : Nat) : ∀ (p : Patcher) (b : Bytes) (rc : Err) (p' : Patcher), Wrote f c.outOff p →
    patchLoop c n p b = .ret rc p' → Wrote f c.outOff p' := by
  induction n with
  | zero => intro p b rc p' h e; cases e
  | succ n ih =>
    intro p b rc p' h e
    rw [patchLoop] at e
    have := patchIter_wrote c hl f p b h
    cases hi : patchIter c p b with
    | done rc' q => rw [hi] at e this; simp only at e this; injection e with _ e; rw [← e]; exact this
    | more q rest => rw [hi] at e this; exact ih q rest rc p' this e
    | ub => rw [hi] at e; cases e

omit [LzmaLib] in
theorem hsPolls_wrote (c : PatchCfg) (hl : RdLaw c.rd) (f : Bytes) (k : Nat) : ∀ (s s' : HsPatch), Wrote f c.outOff s.p → hsPolls c k s = .ok s' → Wrote f c.outOff s'.p := by
  induction k with
  | zero => intro s s' h e; cases e
  | succ k ih =>
    intro s s' h e
    rw [hsPolls] at e
    split at e
    · cases e
    · cases e
    · split at e
      · cases e
      · cases e
      · rename_i more dec x _ p hp
        have hw := patchLoop_wrote c hl f _ _ _ _ _ h hp
        split at e
        · exact ih _ _ hw e
        · injection e with e; rw [← e]; exact hw
      · cases e

omit [LzmaLib] in
theorem hsDrain_wrote (c : PatchCfg) (hl : RdLaw c.rd) (f : Bytes) (inLen k : Nat) : ∀ (s s' : HsPatch), Wrote f c.outOff s.p → hsDrain c inLen k s = .ok s' → Wrote f c.outOff s'.p := by
  induction k with
  | zero => intro s s' h e; cases e
  | succ k ih =>
    intro s s' h e
    rw [hsDrain] at e
    cases hp : hsPolls c (2^19) s with
    | ok s1 =>
      rw [hp] at e
      simp only at e
      have hw := hsPolls_wrote c hl f _ _ _ h hp
      split at e
      · exact ih _ _ hw e
      · injection e with e; rw [← e]; exact hw
    | fail rc => rw [hp] at e; cases e
    | ub => rw [hp] at e; cases e
    | hang => rw [hp] at e; cases e

omit [LzmaLib] in
theorem hsWriteGo_wrote (c : PatchCfg) (hl : RdLaw c.rd) (f : Bytes) (inLen k : Nat) : ∀ (s s' : HsPatch) (b : Bytes), Wrote f c.outOff s.p → hsWriteGo c inLen k s b = .ok s' → Wrote f c.outOff s'.p := by
  induction k with
  | zero => intro s s' b h e; cases e
  | succ k ih =>
    intro s s' b h e
    rw [hsWriteGo] at e
    cases hk : decSink s.dec b with
    | ub => rw [hk] at e; cases e
    | ret r =>
      obtain ⟨n, dec⟩ := r
      rw [hk] at e
      simp only at e
      cases hp : hsDrain c inLen 2 ⟨dec, s.p, s.inPos + n⟩ with
      | ok s1 =>
        rw [hp] at e
        simp only at e
        have hw := hsDrain_wrote c hl f _ _ ⟨dec, s.p, s.inPos + n⟩ _ h hp
        split at e
        · exact ih _ _ _ hw e
        · injection e with e; rw [← e]; exact hw
      | fail rc => rw [hp] at e; cases e
      | ub => rw [hp] at e; cases e
      | hang => rw [hp] at e; cases e

theorem lzPatchGo_wrote (c : PatchCfg) (hl : RdLaw c.rd) (f : Bytes) (fin : Bool) (k : Nat) : ∀ (s s' : LzPatch) (b : Bytes), Wrote f c.outOff s.p → lzPatchGo c fin k s b = .ok s' → Wrote f c.outOff s'.p := by
  induction k with
  | zero => intro s s' b h e; cases e
  | succ k ih =>
    intro s s' b h e
    rw [lzPatchGo] at e
    split at e
    · injection e with e; subst e; exact h
    · have hpass : ∀ p, lzPass c s.p (LzmaLib.dec s.calls ⟨b, 8192, fin⟩).out = .ret .ok p → Wrote f c.outOff p := by
        intro p hp
        unfold lzPass at hp
        split at hp
        · exact patchLoop_wrote c hl f _ _ _ _ _ h hp
        · injection hp with _ hp; subst hp; exact h
      split at e
      · cases e
      · cases e
      · rename_i p hp
        have hw := hpass p hp
        split at e
        · exact ih _ _ _ hw e
        · injection e with e; subst e; exact hw
        · cases e
      · cases e

/-- The decoder's state while a part is fed, the file having been `f` after `start`; `n` bytes were fed. -/
def Feeding (f : Bytes) (d0 d : TDec) (off : Nat) (n : Nat) : Prop :=
  d.hdr = d0.hdr ∧ d.outOff = d0.outOff ∧ d.part = d0.part ∧ d.decoderId = d0.decoderId ∧
  match d.dec with
  | .plain c p => d.decoderId ≠ 0 ∧ d.decoderId ≠ idMerkleGenerate ∧ d.out = p.out ∧ RdLaw c.rd ∧ c.outOff = off ∧ Wrote f off p
  | .hs c _ s => d.decoderId ≠ 0 ∧ d.decoderId ≠ idMerkleGenerate ∧ d.out = s.p.out ∧ RdLaw c.rd ∧ c.outOff = off ∧ Wrote f off s.p
  | .lzma c s => d.decoderId ≠ 0 ∧ d.decoderId ≠ idMerkleGenerate ∧ d.out = s.p.out ∧ RdLaw c.rd ∧ c.outOff = off ∧ Wrote f off s.p
  | .idle => (d.decoderId = 0 ∧ d.copyOff = n ∧ (n = 0 ∨ off < 2^63) ∧ ∃ w : Bytes, w.length = n ∧ d.out = fileWrite f off w) ∨ (d.decoderId = idMerkleGenerate ∧ d.out = f)

theorem feeding_write (f : Bytes) (d0 d d' : TDec) (q : PartHdr) (hq : d0.hdr.parts[d0.part]? = some q) (n : Nat) (b : Bytes)
    (h : Feeding f d0 d (streamOff d0.hdr q d0.outOff).toNat n) (hb : n < 2^63) (e : decodeWrite d b = .ok d') :
    Feeding f d0 d' (streamOff d0.hdr q d0.outOff).toNat (n + b.length) := by
  obtain ⟨h1, h2, h3, h4, h5⟩ := h
  unfold decodeWrite at e
  cases hd : d.dec with
  | plain c p =>
    rw [hd] at e h5
    simp only at e h5
    obtain ⟨a, a', b1, b2, b3, b4⟩ := h5
    cases hw : bspatchWrite c p b with
    | ret rc p' =>
      rw [hw] at e
      have := patchLoop_wrote c b2 f _ _ _ _ _ (by rw [b3]; exact b4) hw
      cases rc <;> simp only at e <;> first | (injection e with e; subst e; exact ⟨h1, h2, h3, h4, a, a', rfl, b2, b3, by rw [b3] at this; exact this⟩) | cases e
    | ub => rw [hw] at e; cases e
    | hang => rw [hw] at e; cases e
  | hs c m s =>
    rw [hd] at e h5
    simp only at e h5
    obtain ⟨a, a', b1, b2, b3, b4⟩ := h5
    cases hw : hsWrite c m s b with
    | ok s' =>
      rw [hw] at e
      simp only at e
      unfold hsWrite at hw
      split at hw
      · cases hw
      · have := hsWriteGo_wrote c b2 f _ _ _ _ _ (by rw [b3]; exact b4) hw
        injection e with e; subst e; exact ⟨h1, h2, h3, h4, a, a', rfl, b2, b3, by rw [b3] at this; exact this⟩
    | fail rc => rw [hw] at e; cases e
    | ub => rw [hw] at e; cases e
    | hang => rw [hw] at e; cases e
  | lzma c s =>
    rw [hd] at e h5
    simp only at e h5
    obtain ⟨a, a', b1, b2, b3, b4⟩ := h5
    cases hw : lzPatchWrite c s b with
    | ok s' =>
      rw [hw] at e
      simp only at e
      have := lzPatchGo_wrote c b2 f _ _ _ _ _ (by rw [b3]; exact b4) hw
      injection e with e; subst e; exact ⟨h1, h2, h3, h4, a, a', rfl, b2, b3, by rw [b3] at this; exact this⟩
    | fail rc => rw [hw] at e; cases e
    | ub => rw [hw] at e; cases e
    | hang => rw [hw] at e; cases e
  | idle =>
    rw [hd] at e h5
    simp only at e h5
    split at e
    · rename_i h0
      rw [h1, h3, hq, h2] at e
      simp only at e
      rcases h5 with ⟨_, k1, k0, w, k2, k3⟩ | ⟨k1, _⟩
      · have hlt := (streamOff d0.hdr q d0.outOff).isLt
        have hoff : (streamOff d0.hdr q d0.outOff + BitVec.ofNat 64 d.copyOff).toNat = (streamOff d0.hdr q d0.outOff).toNat + d.copyOff := by
          rw [BitVec.toNat_add, BitVec.toNat_ofNat, Nat.mod_eq_of_lt (a := d.copyOff) (by omega), Nat.mod_eq_of_lt (by omega)]
        rw [hoff] at e
        split at e
        · cases e
        · rename_i hchk
          injection e with e
          subst e
          refine ⟨rfl, rfl, rfl, h4, ?_⟩
          simp only
          refine .inl ⟨h0, by rw [k1], .inr (by omega), w ++ b, by rw [List.length_append, k2], ?_⟩
          rw [k3, k1, ← k2, fileWrite_append]
      · rw [h0] at k1; exact absurd k1 (by decide)
    · cases e

theorem feeding_run (f : Bytes) (d0 : TDec) (q : PartHdr) (hq : d0.hdr.parts[d0.part]? = some q) (xs : List Bytes) : ∀ (d d' : TDec) (n : Nat),
    Feeding f d0 d (streamOff d0.hdr q d0.outOff).toNat n → n + xs.flatten.length < 2^63 → decodeRun d xs = .ok d' →
    Feeding f d0 d' (streamOff d0.hdr q d0.outOff).toNat (n + xs.flatten.length) := by
  induction xs with
  | nil => intro d d' n h _ e; rw [decodeRun] at e; injection e with e; subst e; exact h
  | cons x xs ih =>
    intro d d' n h hb e
    rw [List.flatten_cons, List.length_append] at hb ⊢
    rw [decodeRun] at e
    cases hw : decodeWrite d x with
    | ok d1 =>
      rw [hw] at e
      have := ih d1 d' (n + x.length) (feeding_write f d0 d d1 q hq n x h (by omega) hw) (by omega) e
      rw [Nat.add_assoc] at this
      exact this
    | fail rc => rw [hw] at e; cases e
    | ub => rw [hw] at e; cases e
    | hang => rw [hw] at e; cases e

omit [LzmaLib] in
theorem start_feeding (d d1 : TDec) (i : Slot) (e : decodeStart d i = .ok d1) :
    ∃ q, d.hdr.parts[i]? = some q ∧ d1.hdr = d.hdr ∧ d1.outOff = d.outOff ∧ d1.part = i ∧ decoderOf d.hdr q = some d1.decoderId ∧
      Feeding (fileWrite d.out 0 d.hdr.image) d1 d1 (streamOff d.hdr q d.outOff).toNat 0 := by
  unfold decodeStart at e
  cases hq : d.hdr.parts[i]? with
  | none => rw [hq] at e; cases e
  | some q =>
    rw [hq] at e
    simp only at e
    cases ha : decoderOf d.hdr q with
    | none => rw [ha] at e; cases e
    | some alg =>
      rw [ha] at e
      simp only at e
      refine ⟨q, rfl, ?_⟩
      split at e
      · rename_i halg
        have h0 : alg ≠ 0 ∧ alg ≠ idMerkleGenerate := by rcases halg with rfl | rfl | rfl <;> decide
        cases ho : d.origin with
        | none => rw [ho] at e; cases e
        | some o =>
          obtain ⟨oh, of, off⟩ := o
          rw [ho] at e
          simp only at e
          split at e
          · cases e
          · split at e
            · injection e with e
              subst e
              exact ⟨rfl, rfl, rfl, ha, rfl, rfl, rfl, rfl, h0.1, h0.2, rfl, fileReader_law of, rfl, Wrote.init _ _⟩
            · split at e
              · injection e with e
                subst e
                exact ⟨rfl, rfl, rfl, ha, rfl, rfl, rfl, rfl, h0.1, h0.2, rfl, fileReader_law of, rfl, Wrote.init _ _⟩
              · injection e with e
                subst e
                exact ⟨rfl, rfl, rfl, ha, rfl, rfl, rfl, rfl, h0.1, h0.2, rfl, fileReader_law of, rfl, Wrote.init _ _⟩
      · split at e
        · rename_i halg
          injection e with e
          subst e
          refine ⟨rfl, rfl, rfl, ha, rfl, rfl, rfl, rfl, ?_⟩
          rcases halg with rfl | rfl
          · exact .inr ⟨rfl, rfl⟩
          · exact .inl ⟨rfl, rfl, .inl rfl, [], rfl, by rw [fileWrite_nil]⟩
        · cases e

omit [LzmaLib] in
theorem generateFeed_chunks (H : HashFn) (n : Nat) : ∀ (m : Merkle) (out : Bytes) (off : Nat) (r : Merkle × Bytes), generateFeed H m out off n = .ok r →
    ∃ xs : List Bytes, xs.flatten.length = n ∧ merkleWriteAll H fileIo m out xs = .ok r ∧ r.1.treeLen = m.treeLen := by
  induction n using Nat.strongRecOn with
  | ind n ih =>
    intro m out off r h
    rw [generateFeed.eq_def] at h
    split at h
    · rename_i hn
      injection h with h
      subst h
      exact ⟨[], by rw [hn]; rfl, rfl, rfl⟩
    · rename_i hn
      split at h
      · cases h
      · rename_i hl
        cases hw : merkleWriteChunk H fileIo m out (fileRead out off (min n 4096)) with
        | error e => rw [hw] at h; cases h
        | ok s =>
          obtain ⟨m1, out1⟩ := s
          rw [hw] at h
          simp only at h
          obtain ⟨xs, h1, h2, h3⟩ := ih (n - min n 4096) (by omega) m1 out1 _ r h
          refine ⟨fileRead out off (min n 4096) :: xs, ?_, ?_, ?_⟩
          · rw [List.flatten_cons, List.length_append, h1]
            have := Classical.not_not.1 hl
            omega
          · rw [merkleWriteAll, hw]
            exact h2
          · rw [h3]
            have key : ∀ (k : Nat) (m : Merkle) (s d : Bytes) (m' : Merkle) (s' : Bytes), merkleWriteGo H fileIo k m s d = .ok (m', s') → m'.treeLen = m.treeLen := by
              intro k
              induction k with
              | zero =>
                intro m s d m' s' h
                rw [merkleWriteGo] at h
                split at h
                · injection h with h; rw [← (Prod.mk.inj h).1]
                · cases h
              | succ k ih =>
                intro m s d m' s' h
                rw [merkleWriteGo] at h
                split at h
                · injection h with h; rw [← (Prod.mk.inj h).1]
                · simp only [fileIo] at h
                  generalize hm1 : (if m.blockCounter = 4096 then { m with running := hashUpdate ⟨hashSha256, []⟩ m.salt } else m) = m1 at h
                  have e1 : m1.treeLen = m.treeLen := by rw [← hm1]; split <;> rfl
                  split at h
                  · split at h
                    · injection h with h; rw [← (Prod.mk.inj h).1]; exact e1
                    · rw [ih _ _ _ _ _ h]; exact e1
                  · rw [ih _ _ _ _ _ h]; exact e1
            exact key _ _ _ _ _ _ hw

omit [LzmaLib] in
theorem generate_wrote (H : HashFn) (hH : HashLen H) (h : Header) (outOff : U64) (out : Bytes) (q : PartHdr) (out' : Bytes) (n : Nat)
    (e : merkleGenerate H h outOff out q = .ok (out', n)) : ∃ w : Bytes, w.length = n ∧ out' = fileWrite out (streamOff h q outOff).toNat w := by
  unfold merkleGenerate at e
  split at e
  · cases e
  split at e
  · cases e
  split at e
  · cases e
  split at e
  · rename_i fs salt _ _
    split at e
    · cases e
    · generalize (partSize fs).toNat = N at e
      generalize (streamOff h q outOff).toNat = T at e ⊢
      cases hi : merkleInit fileIo out N salt T true with
      | error x => rw [hi] at e; cases e
      | ok r =>
        obtain ⟨m, out0⟩ := r
        rw [hi] at e
        simp only at e
        cases hg : generateFeed H m out0 (streamOff h fs outOff).toNat N with
        | error x => rw [hg] at e; cases e
        | ok r =>
          obtain ⟨m1, out1⟩ := r
          rw [hg] at e
          simp only at e
          cases hf : merkleFinish H fileIo m1 out1 with
          | error x => rw [hf] at e; cases e
          | ok r =>
            obtain ⟨root, out2⟩ := r
            rw [hf] at e
            simp only at e
            injection e with e
            obtain ⟨rfl, rfl⟩ := Prod.mk.inj e
            obtain ⟨xs, x1, x2, x3⟩ := generateFeed_chunks H N m out0 _ _ hg
            simp only at x3
            have hi' := hi
            unfold merkleInit at hi
            split at hi
            · cases hi
            split at hi
            · cases hi
            rename_i s1 s2
            rw [merkleLevelsGo_eq _ (by omega)] at hi
            by_cases h0 : N = 0 ∨ N / 4096 > 128^3
            · rw [if_pos h0] at hi; cases hi
            · rw [if_neg h0] at hi
              simp only [if_true] at hi
              have hmult : (iterLens (levelCount (N / 4096)) N).sum % 32 = 0 := by
                have := sum_mult _ (fun l hl => iterLens_mult (levelCount (N / 4096)) N l hl)
                omega
              rw [zeroFill_file _ _ _ hmult] at hi
              simp only at hi
              injection hi with hi
              have hts : TreeSupported N := ⟨by omega, by omega, by omega⟩
              have htl : m.treeLen = treeSize (N / 4096) := by rw [← (Prod.mk.inj hi).1]; exact iterLens_sum N hts
              have hb := merkleBuild_spec H hH out T salt xs.flatten xs rfl (by omega) (by rw [x1]; exact hts)
              rw [x1] at hb
              unfold merkleBuild at hb
              rw [hi'] at hb
              simp only at hb
              rw [x2] at hb
              simp only at hb
              rw [hf] at hb
              injection hb with hb
              refine ⟨hashTree H salt xs.flatten, ?_, (Prod.mk.inj hb).2⟩
              have hsz := C29_tree_size H hH salt xs.flatten (by rw [x1]; exact hts)
              rw [x1, merkleComputeSize_eq, if_neg (by omega), if_neg (by omega)] at hsz
              injection hsz with hsz
              rw [x3, htl, hsz]
  · cases e

theorem finish_wrote (H : HashFn) (hH : HashLen H) (f : Bytes) (d0 d d' : TDec) (q : PartHdr) (hq : d0.hdr.parts[d0.part]? = some q) (n : Nat)
    (h : Feeding f d0 d (streamOff d0.hdr q d0.outOff).toNat n) (hn : d0.decoderId = 0 → n = (partSize q).toNat) (e : decodeFinish H d = .ok d') :
    d'.hdr = { d0.hdr with parts := d0.hdr.parts.modify d0.part markDecoded } ∧
    ∃ w : Bytes, w.length = (q.size + q.padBytes.setWidth 64).toNat ∧ d'.out = fileWrite (fileWrite f (streamOff d0.hdr q d0.outOff).toNat w) 0 d'.hdr.image := by
  obtain ⟨h1, h2, h3, h4, h5⟩ := h
  unfold decodeFinish at e
  rw [h1, h3, hq] at e
  simp only at e
  have hlen : ∀ X m, decodedLength H d q = .ok (X, m) → ∃ w : Bytes, w.length = m ∧ X = fileWrite f (streamOff d0.hdr q d0.outOff).toNat w := by
    intro X m hd
    unfold decodedLength at hd
    cases hdec : d.dec with
    | plain c p =>
      rw [hdec] at hd h5
      simp only at hd h5
      obtain ⟨_, _, a, _, _, w, b1, b2⟩ := h5
      unfold bspatchFinal at hd
      split at hd
      · cases hd
      · rename_i k hk
        split at hk
        · cases hk
        · injection hk with hk
          injection hd with hd
          obtain ⟨rfl, rfl⟩ := Prod.mk.inj hd
          exact ⟨w, by rw [← hk, b2], by rw [a, b1]⟩
    | hs c m s =>
      rw [hdec] at hd h5
      simp only at hd h5
      obtain ⟨_, _, a, _, _, w, b1, b2⟩ := h5
      unfold bspatchFinal at hd
      split at hd
      · cases hd
      · rename_i k hk
        split at hk
        · cases hk
        · injection hk with hk
          injection hd with hd
          obtain ⟨rfl, rfl⟩ := Prod.mk.inj hd
          exact ⟨w, by rw [← hk, b2], by rw [a, b1]⟩
    | lzma c s =>
      rw [hdec] at hd h5
      simp only at hd h5
      obtain ⟨_, _, a, b2, b3, b4⟩ := h5
      unfold lzPatchFinal at hd
      split at hd
      · rename_i s' k hk
        split at hk
        · cases hk
        · cases hw : lzPatchWrite c s [] with
          | ok s1 =>
            rw [hw] at hk
            simp only at hk
            obtain ⟨w, w1, w2⟩ := lzPatchGo_wrote c b2 f _ _ _ _ _ (by rw [b3]; exact b4) hw
            injection hk with hk
            obtain ⟨rfl, rfl⟩ := Prod.mk.inj hk
            injection hd with hd
            obtain ⟨rfl, rfl⟩ := Prod.mk.inj hd
            exact ⟨w, by rw [w2], by rw [w1, b3]⟩
          | fail rc => rw [hw] at hk; cases hk
          | ub => rw [hw] at hk; cases hk
          | hang => rw [hw] at hk; cases hk
      · cases hd
      · cases hd
      · cases hd
    | idle =>
      rw [hdec] at hd h5
      simp only at hd h5
      rcases h5 with ⟨a, _, _, w, b1, b2⟩ | ⟨a, b⟩
      · rw [if_neg (by rw [a]; decide), if_pos a] at hd
        injection hd with hd
        obtain ⟨rfl, rfl⟩ := Prod.mk.inj hd
        exact ⟨w, by rw [b1, hn (by rw [← h4, a])], b2⟩
      · rw [if_pos a, h1, h2, b] at hd
        exact generate_wrote H hH _ _ _ _ _ _ hd
  cases hd : decodedLength H d q with
  | ok r =>
    obtain ⟨X, m⟩ := r
    obtain ⟨w, w1, w2⟩ := hlen X m hd
    rw [hd] at e
    simp only at e
    split at e
    · cases e
    · split at e
      · cases e
      · rename_i hm
        injection e with e
        subst e
        simp only
        refine ⟨trivial, w, ?_, by rw [w2]⟩
        rw [w1]; exact Classical.not_not.1 hm
  | fail rc => rw [hd] at e; cases e
  | ub => rw [hd] at e; cases e
  | hang => rw [hd] at e; cases e

theorem feedPart_run (inp : Bytes) (n : Nat) : ∀ (d d' : TDec) (pos pos' : Nat), feedPart inp d pos n = .ok (d', pos') →
    ∃ xs : List Bytes, xs.flatten = fileRead inp pos n ∧ xs.flatten.length = n ∧ decodeRun d xs = .ok d' ∧ pos' = pos + n := by
  induction n using Nat.strongRecOn with
  | ind n ih =>
    intro d d' pos pos' h
    rw [feedPart.eq_def] at h
    split at h
    · rename_i hn
      injection h with h
      obtain ⟨rfl, rfl⟩ := Prod.mk.inj h
      exact ⟨[], by rw [hn]; simp [fileRead], by rw [hn]; rfl, rfl, by omega⟩
    · split at h
      · cases h
      · rename_i hn hl
        cases hw : decodeWrite d (fileRead inp pos (min n 4096)) with
        | ok d1 =>
          rw [hw] at h
          simp only at h
          obtain ⟨xs, x1, x2, x3, x4⟩ := ih (n - min n 4096) (by omega) d1 d' _ pos' h
          refine ⟨fileRead inp pos (min n 4096) :: xs, ?_, ?_, ?_, by omega⟩
          · rw [List.flatten_cons, x1, ← fileRead_add]
            congr 1; omega
          · rw [List.flatten_cons, List.length_append, x2]
            have := Classical.not_not.1 hl
            omega
          · rw [decodeRun, hw]; exact x3
        | fail rc => rw [hw] at h; cases h
        | ub => rw [hw] at h; cases h
        | hang => rw [hw] at h; cases h

end Bpak
