import Verif.Spec.DecodeIo
import Verif.Proof.PatchIo
import Verif.Proof.MerkleIo
/-!
The transport decoder over callbacks that may fail does the same as the one over a file, until a callback fails.
-/
namespace Bpak
variable [LzmaLib] {σ : Type} {io : DecIo σ} {view : σ → Bytes} {origin : Bytes}

theorem dec_patch_honest (hio : HonestDec io view origin) : HonestIo io.patch view origin where
  wr := hio.wr
  rd := by
    intro s off n s' x h hx
    have h1 : s = s' ∧ io.org s off n = .ok x := Prod.mk.inj h
    obtain ⟨h2, h3⟩ := hio.org s off n x h1.2 hx
    exact ⟨h2, h3, by rw [h1.1]⟩

theorem dec_patch_from {e : Err} (h : FromDeltaIo io.patch e) : FromDecIo io e := by
  rcases h with ⟨s, off, b, s', h⟩ | ⟨s, off, n, s', h⟩ | ⟨rfl, s, off, b, s', n, h, hn⟩ | ⟨rfl, s, off, n, s', x, h, hx⟩
  · exact .wr s off b s' e h
  · exact .org s off n e (Prod.mk.inj h).2
  · exact .shortWr s off b s' n _ h hn (Or.inr rfl)
  · exact .shortOrg s off n x (Prod.mk.inj h).2 hx

theorem dec_merkle_refines (hio : HonestDec io view origin) : MioRefines (FromDecIo io) io.merkle fileIo (fun s f => view s = f) where
  wr := by
    rintro s t off b rfl
    show MioSim _ _ (match io.wr s off b with | (_, .error e) => .error e | (s, .ok n) => if n ≠ b.length then .error .writeError else .ok s) _
    rcases h : io.wr s off b with ⟨s', r⟩
    cases r with
    | error e => exact MioSim.cb (.wr s off b s' e h)
    | ok n =>
      dsimp only
      by_cases hn : n ≠ b.length
      · rw [if_pos hn]; exact MioSim.cb (.shortWr s off b s' n _ h hn (Or.inl rfl))
      · rw [if_neg hn]; exact MioSim.done (hio.wr s off b s' n h (Classical.not_not.1 hn))
  rd := by
    rintro s t off n x rfl h hx
    show Except.ok (fileRead (view s) off n) = _
    rw [← hio.rd s off n x h hx]
  rdErr := fun s off n e h => .rd s off n e h
  short := fun s off n x h hx => .shortRd s off n x h hx

theorem ioHead_cases (hio : HonestDec io view origin) (s : σ) (h : Header) :
    (∃ s' e, ioHead io s h = (s', some e) ∧ FromDecIo io e) ∨ (∃ s', ioHead io s h = (s', none) ∧ view s' = fileWrite (view s) 0 h.image) := by
  unfold ioHead
  rcases hr : io.hd s h.image with ⟨s', r⟩
  cases r with
  | error e => exact Or.inl ⟨s', e, rfl, .hd s _ s' e hr⟩
  | ok n =>
    dsimp only
    by_cases hn : n ≠ h.image.length
    · rw [if_pos hn]; exact Or.inl ⟨s', _, rfl, .shortHd s _ s' n hr hn⟩
    · rw [if_neg hn]; exact Or.inr ⟨s', rfl, hio.hd s _ s' n hr (Classical.not_not.1 hn)⟩

/-- As `DrvSim`, for these callbacks. -/
inductive DecSim {α β : Type} (io : DecIo σ) (R : α → β → Prop) : Drv α → Drv β → Prop where
  | bad (e : Err) (y : Drv β) : FromDecIo io e → DecSim io R (.fail e) y
  | fail (e : Err) : DecSim io R (.fail e) (.fail e)
  | ok (a : α) (b : β) : R a b → DecSim io R (.ok a) (.ok b)
  | ub : DecSim io R .ub .ub
  | hang : DecSim io R .hang .hang

/-- The decoder context with the file. -/
def Decoder.on (f : Bytes) : Decoder → Decoder
  | .idle => .idle
  | .plain c p => .plain c (p.on f)
  | .hs c n h => .hs c n ⟨h.dec, h.p.on f, h.inPos⟩
  | .lzma c h => .lzma c ⟨h.calls, h.p.on f⟩

/-- Its reader of the origin. -/
def Decoder.Of (origin : Bytes) : Decoder → Prop
  | .idle => True
  | .plain c _ => c.rd = fileReader origin
  | .hs c _ _ => c.rd = fileReader origin
  | .lzma c _ => c.rd = fileReader origin

/-- Between parts. -/
def LooseOn (view : σ → Bytes) (origin : Bytes) (a : TDec × σ) (b : TDec) : Prop :=
  (∃ x, b = { a.1 with out := view a.2, dec := x }) ∧ ∀ oh of off, a.1.origin = some (oh, of, off) → of = origin

/-- Within a part. -/
def TightOn (view : σ → Bytes) (origin : Bytes) (a : TDec × σ) (b : TDec) : Prop :=
  b = { a.1 with out := view a.2, dec := a.1.dec.on (view a.2) } ∧ a.1.dec.Of origin ∧ ∀ oh of off, a.1.origin = some (oh, of, off) → of = origin

theorem decOrigin_eq (f : Bytes) : originRead f = fileReader f := rfl

theorem start_sim (hio : HonestDec io view origin) (a : TDec × σ) (b : TDec) (hR : LooseOn view origin a b) (i : Slot) :
    DecSim io (TightOn view origin) (decodeStartIo io a.1 a.2 i) (decodeStart b i) := by
  obtain ⟨d, s⟩ := a
  obtain ⟨⟨x, rfl⟩, ho⟩ := hR
  unfold decodeStartIo decodeStart
  dsimp only at ho ⊢
  cases d.hdr.parts[i]? with
  | none => exact .ub
  | some q =>
    dsimp only
    rcases ioHead_cases hio s d.hdr with ⟨s', e, h1, h2⟩ | ⟨s', h1, h2⟩
    · rw [h1]; exact .bad _ _ h2
    · rw [h1]
      dsimp only
      rw [← h2]
      cases decoderOf d.hdr q with
      | none => exact .ub
      | some alg =>
        dsimp only
        by_cases h3 : alg = idBspatch ∨ alg = idBspatchNoComp ∨ alg = idBspatchLzma
        · rw [if_pos h3, if_pos h3]
          cases ho' : d.origin with
          | none => exact .fail _
          | some r =>
            obtain ⟨oh, of, off⟩ := r
            have := ho oh of off ho'
            subst this
            dsimp only
            by_cases h4 : 2^63 ≤ (streamOff d.hdr q d.outOff).toNat
            · rw [if_pos h4, if_pos h4]; exact .fail _
            · rw [if_neg h4, if_neg h4]
              by_cases h5 : alg = idBspatch
              · rw [if_pos h5, if_pos h5]; exact .ok _ _ ⟨rfl, decOrigin_eq _, fun oh' of' off' h => ho oh' of' off' (ho'.trans h)⟩
              · rw [if_neg h5, if_neg h5]
                by_cases h6 : alg = idBspatchNoComp
                · rw [if_pos h6, if_pos h6]; exact .ok _ _ ⟨rfl, decOrigin_eq _, fun oh' of' off' h => ho oh' of' off' (ho'.trans h)⟩
                · rw [if_neg h6, if_neg h6]; exact .ok _ _ ⟨rfl, decOrigin_eq _, fun oh' of' off' h => ho oh' of' off' (ho'.trans h)⟩
        · rw [if_neg h3, if_neg h3]
          by_cases h5 : alg = idMerkleGenerate ∨ alg = 0
          · rw [if_pos h5, if_pos h5]; exact .ok _ _ ⟨rfl, trivial, ho⟩
          · rw [if_neg h5, if_neg h5]; exact .fail _

theorem chunk_sim (hio : HonestDec io view origin) (hz : ¬ FromDecIo io .ok) (a : TDec × σ) (b : TDec) (hR : TightOn view origin a b) (x : Bytes) :
    DecSim io (TightOn view origin) (decodeWriteIo io a.1 a.2 x) (decodeWrite b x) := by
  obtain ⟨d, s⟩ := a
  obtain ⟨rfl, hof, ho⟩ := hR
  have hp := dec_patch_honest hio
  have hpz : ¬ FromDeltaIo io.patch .ok := fun h => hz (dec_patch_from h)
  unfold decodeWriteIo decodeWrite
  dsimp only at hof ho ⊢
  cases hd : d.dec with
  | idle =>
    dsimp only [Decoder.on]
    by_cases h1 : d.decoderId = 0
    · rw [if_pos h1, if_pos h1]
      cases d.hdr.parts[d.part]? with
      | none => exact .ub
      | some q =>
        dsimp only
        by_cases h2 : 2^63 ≤ (streamOff d.hdr q d.outOff + BitVec.ofNat 64 d.copyOff).toNat
        · rw [if_pos h2, if_pos h2]; exact .fail _
        · rw [if_neg h2, if_neg h2]
          rcases hw : io.wr s (streamOff d.hdr q d.outOff + BitVec.ofNat 64 d.copyOff).toNat x with ⟨s', r⟩
          cases r with
          | error e => exact .bad _ _ (.wr _ _ _ _ _ hw)
          | ok n =>
            dsimp only
            by_cases hn : n ≠ x.length
            · rw [if_pos hn]; exact .bad _ _ (.shortWr _ _ _ _ _ _ hw hn (Or.inl rfl))
            · rw [if_neg hn]
              have hn' := Classical.not_not.1 hn
              subst hn'
              have h3 := hio.wr _ _ _ _ _ hw rfl
              rw [← h3]
              exact .ok _ _ ⟨rfl, trivial, ho⟩
    · rw [if_neg h1, if_neg h1]; exact .fail _
  | plain c p =>
    rw [hd] at hof
    dsimp only [Decoder.on]
    have h := write_sim hp c hof p s x
    generalize bspatchWriteIo io.patch c p s x = u at h
    generalize bspatchWrite c (p.on (view s)) x = v at h
    cases h with
    | bad e p s _ h1 h2 => cases e <;> first | exact absurd h1 hpz | exact .bad _ _ (dec_patch_from h1)
    | ret rc p s => cases rc <;> first | exact .fail _ | exact .ok _ _ ⟨rfl, hof, ho⟩
    | ub => exact .ub
    | hang => exact .hang
  | hs c n h =>
    rw [hd] at hof
    dsimp only [Decoder.on]
    have hh : DrvSim io.patch (HsOn view) (hsWriteIo io.patch c n h s x) (hsWrite c n ⟨h.dec, h.p.on (view s), h.inPos⟩ x) := by
      unfold hsWriteIo hsWrite
      by_cases h1 : h.inPos ≥ n
      · rw [if_pos h1, if_pos h1]; exact .fail _
      · rw [if_neg h1, if_neg h1]; exact hsWriteGo_sim hp hpz c hof n _ (h, s) _ x rfl
    generalize hsWriteIo io.patch c n h s x = u at hh
    generalize hsWrite c n ⟨h.dec, h.p.on (view s), h.inPos⟩ x = v at hh
    cases hh with
    | bad e _ h1 => exact .bad _ _ (dec_patch_from h1)
    | fail e => exact .fail _
    | ub => exact .ub
    | hang => exact .hang
    | ok a b h2 =>
      obtain ⟨h', s'⟩ := a
      subst h2
      exact .ok _ _ ⟨rfl, hof, ho⟩
  | lzma c h =>
    rw [hd] at hof
    dsimp only [Decoder.on]
    have hh : DrvSim io.patch (LzOn view) (lzPatchWriteIo io.patch c h s x) (lzPatchWrite c ⟨h.calls, h.p.on (view s)⟩ x) :=
      lzPatchGo_sim hp hpz c hof _ _ (h, s) _ x rfl
    generalize lzPatchWriteIo io.patch c h s x = u at hh
    generalize lzPatchWrite c ⟨h.calls, h.p.on (view s)⟩ x = v at hh
    cases hh with
    | bad e _ h1 => exact .bad _ _ (dec_patch_from h1)
    | fail e => exact .fail _
    | ub => exact .ub
    | hang => exact .hang
    | ok a b h2 =>
      obtain ⟨h', s'⟩ := a
      subst h2
      exact .ok _ _ ⟨rfl, hof, ho⟩

theorem genFeed_sim (H : HashFn) (hio : HonestDec io view origin) (n : Nat) : ∀ (m : Merkle) (s : σ) (f : Bytes) (off : Nat), view s = f →
    MioSim (FromDecIo io) (MioSame (fun s f => view s = f)) (generateFeedIo H io m s off n) (generateFeed H m f off n) := by
  induction n using Nat.strongRecOn with
  | ind n ih =>
    intro m s f off hv
    rw [generateFeedIo, generateFeed]
    by_cases h0 : n = 0
    · rw [dif_pos h0, dif_pos h0]; exact MioSim.done ⟨rfl, hv⟩
    · rw [dif_neg h0, dif_neg h0]
      cases hr : io.rd s off (min n 4096) with
      | error e => exact MioSim.cb (.rdCode _ _ _ _ hr)
      | ok x =>
        dsimp only
        by_cases hx : x.length ≠ min n 4096
        · rw [if_pos hx]; exact MioSim.cb (.shortRd _ _ _ _ hr hx)
        · rw [if_neg hx]
          have hx' := Classical.not_not.1 hx
          have e := hio.rd _ _ _ _ hr hx'
          subst hv
          rw [← e, if_neg hx]
          have hw := mio_writeGo H (dec_merkle_refines hio) x.length m s (view s) x rfl
          have hw : MioSim (FromDecIo io) (MioSame (fun s f => view s = f)) (merkleWriteChunk H io.merkle m s x) (merkleWriteChunk H fileIo m (view s) x) := hw
          rcases hw with ⟨e, h, hb⟩ | ⟨e, h, h2⟩ | ⟨⟨m1, s1⟩, ⟨m2, f1⟩, h, h2, rfl, hR⟩
          · rw [h]; exact MioSim.cb hb
          · rw [h, h2]; exact MioSim.same e
          · rw [h, h2]
            exact ih _ (by omega) _ _ _ _ hR

theorem generate_sim (H : HashFn) (hio : HonestDec io view origin) (h : Header) (outOff : U64) (s : σ) (q : PartHdr) :
    DecSim io (fun (a : σ × Nat) (b : Bytes × Nat) => view a.1 = b.1 ∧ a.2 = b.2) (merkleGenerateIo H io h outOff s q) (merkleGenerate H h outOff (view s) q) := by
  unfold merkleGenerateIo merkleGenerate
  by_cases h0 : hashTreeIdToPartId h q.id = 0
  · rw [if_pos h0, if_pos h0]; exact .fail _
  · rw [if_neg h0, if_neg h0]
    cases getMeta h idMerkleSalt (hashTreeIdToPartId h q.id) with
    | none => exact .fail _
    | some j =>
      dsimp only
      cases getPart h (hashTreeIdToPartId h q.id) with
      | none => exact .fail _
      | some k =>
        dsimp only
        cases h.parts[k]? with
        | none => exact .ub
        | some fs =>
          cases metaHash h j with
          | none => exact .ub
          | some salt =>
            dsimp only
            by_cases h1 : 2^63 ≤ (streamOff h q outOff).toNat ∨ 2^63 ≤ (streamOff h fs outOff).toNat
            · rw [if_pos h1, if_pos h1]; exact .fail _
            · rw [if_neg h1, if_neg h1]
              rcases mio_init (dec_merkle_refines hio) s (view s) rfl (partSize fs).toNat salt (streamOff h q outOff).toNat true with
                ⟨e, k1, hb⟩ | ⟨e, k1, k2⟩ | ⟨⟨m1, s1⟩, ⟨m2, f1⟩, k1, k2, hm, hR⟩
              · rw [k1]; exact .bad _ _ hb
              · rw [k1, k2]; exact .fail _
              · rw [k1, k2]
                dsimp only at hm hR ⊢
                subst hm
                rcases genFeed_sim H hio (partSize fs).toNat m1 s1 f1 (streamOff h fs outOff).toNat hR with
                  ⟨e, k1, hb⟩ | ⟨e, k1, k2⟩ | ⟨⟨m1, s1⟩, ⟨m2, f1⟩, k1, k2, hm, hR⟩
                · rw [k1]; exact .bad _ _ hb
                · rw [k1, k2]; exact .fail _
                · rw [k1, k2]
                  dsimp only at hm hR ⊢
                  subst hm
                  rcases mio_finish H (dec_merkle_refines hio) m1 s1 f1 hR with ⟨e, k1, hb⟩ | ⟨e, k1, k2⟩ | ⟨⟨r1, s1⟩, ⟨r2, f1⟩, k1, k2, hm, hR⟩
                  · rw [k1]; exact .bad _ _ hb
                  · rw [k1, k2]; exact .fail _
                  · rw [k1, k2]; exact .ok _ _ ⟨hR, rfl⟩

theorem length_sim (H : HashFn) (hio : HonestDec io view origin) (hz : ¬ FromDecIo io .ok) (a : TDec × σ) (b : TDec) (hR : TightOn view origin a b) (q : PartHdr) :
    DecSim io (fun (x : σ × Nat) (y : Bytes × Nat) => view x.1 = y.1 ∧ x.2 = y.2) (decodedLengthIo H io a.1 a.2 q) (decodedLength H b q) := by
  obtain ⟨d, s⟩ := a
  obtain ⟨rfl, hof, -⟩ := hR
  have hp := dec_patch_honest hio
  have hpz : ¬ FromDeltaIo io.patch .ok := fun h => hz (dec_patch_from h)
  unfold decodedLengthIo decodedLength
  dsimp only at hof ⊢
  cases hd : d.dec with
  | idle =>
    dsimp only [Decoder.on]
    by_cases h1 : d.decoderId = idMerkleGenerate
    · rw [if_pos h1, if_pos h1]; exact generate_sim H hio _ _ _ _
    · rw [if_neg h1, if_neg h1]
      by_cases h2 : d.decoderId = 0
      · rw [if_pos h2, if_pos h2]; exact .ok _ _ ⟨rfl, rfl⟩
      · rw [if_neg h2, if_neg h2]; exact .fail _
  | plain c p =>
    dsimp only [Decoder.on]
    have : bspatchFinal (p.on (view s)) = bspatchFinal p := rfl
    rw [this]
    cases bspatchFinal p with
    | none => exact .fail _
    | some n => exact .ok _ _ ⟨rfl, rfl⟩
  | hs c n h =>
    dsimp only [Decoder.on]
    have : bspatchFinal (h.p.on (view s)) = bspatchFinal h.p := rfl
    rw [this]
    cases bspatchFinal h.p with
    | none => exact .fail _
    | some n => exact .ok _ _ ⟨rfl, rfl⟩
  | lzma c h =>
    rw [hd] at hof
    dsimp only [Decoder.on]
    have hh := lzPatchFinal_sim hp hpz c hof (h, s) _ rfl
    dsimp only at hh
    generalize lzPatchFinalIo io.patch c h s = u at hh
    generalize lzPatchFinal c ⟨h.calls, h.p.on (view s)⟩ = v at hh
    cases hh with
    | bad e _ h1 => exact .bad _ _ (dec_patch_from h1)
    | fail e => exact .fail _
    | ub => exact .ub
    | hang => exact .hang
    | ok x y h2 => exact .ok _ _ ⟨h2.2.symm, h2.1⟩

theorem finish_sim (H : HashFn) (hio : HonestDec io view origin) (hz : ¬ FromDecIo io .ok) (a : TDec × σ) (b : TDec) (hR : TightOn view origin a b) :
    DecSim io (LooseOn view origin) (decodeFinishIo H io a.1 a.2) (decodeFinish H b) := by
  have hl := length_sim H hio hz a b hR
  obtain ⟨d, s⟩ := a
  obtain ⟨rfl, -, ho⟩ := hR
  unfold decodeFinishIo decodeFinish
  dsimp only at ho hl ⊢
  cases d.hdr.parts[d.part]? with
  | none => exact .ub
  | some q =>
    dsimp only
    have hq := hl q
    generalize decodedLengthIo H io d s q = u at hq
    generalize decodedLength H { d with out := view s, dec := d.dec.on (view s) } q = v at hq
    cases hq with
    | bad e _ h1 => exact .bad _ _ h1
    | fail e => exact .fail _
    | ub => exact .ub
    | hang => exact .hang
    | ok x y h2 =>
      obtain ⟨s1, n⟩ := x
      obtain ⟨f1, n2⟩ := y
      obtain ⟨h3, h4⟩ := h2
      dsimp only at h3 h4 ⊢
      subst h3; subst h4
      by_cases h5 : 2^63 ≤ n
      · rw [if_pos h5, if_pos h5]; exact .fail _
      · rw [if_neg h5, if_neg h5]
        by_cases h6 : n ≠ (q.size + q.padBytes.setWidth 64).toNat
        · rw [if_pos h6, if_pos h6]; exact .fail _
        · rw [if_neg h6, if_neg h6]
          rcases ioHead_cases hio s1 { d.hdr with parts := d.hdr.parts.modify d.part markDecoded } with ⟨s', e, k1, k2⟩ | ⟨s', k1, k2⟩
          · rw [k1]; exact .bad _ _ k2
          · rw [k1]
            dsimp only
            rw [← k2]
            exact .ok _ _ ⟨⟨_, rfl⟩, ho⟩

theorem feed_sim (hio : HonestDec io view origin) (hz : ¬ FromDecIo io .ok) (inp : Bytes) (n : Nat) : ∀ (a : TDec × σ) (b : TDec) (pos : Nat), TightOn view origin a b →
    DecSim io (fun x y => TightOn view origin x.1 y.1 ∧ x.2 = y.2) (feedPartIo io inp a.1 a.2 pos n) (feedPart inp b pos n) := by
  induction n using Nat.strongRecOn with
  | ind n ih =>
    intro a b pos hR
    rw [feedPartIo, feedPart]
    by_cases h0 : n = 0
    · rw [dif_pos h0, dif_pos h0]; exact .ok _ _ ⟨hR, rfl⟩
    · rw [dif_neg h0, dif_neg h0]
      by_cases h1 : (fileRead inp pos (min n 4096)).length ≠ min n 4096
      · rw [if_pos h1, if_pos h1]; exact .fail _
      · rw [if_neg h1, if_neg h1]
        have hc := chunk_sim hio hz a b hR (fileRead inp pos (min n 4096))
        generalize decodeWriteIo io a.1 a.2 (fileRead inp pos (min n 4096)) = u at hc
        generalize decodeWrite b (fileRead inp pos (min n 4096)) = v at hc
        cases hc with
        | bad e _ h1 => exact .bad _ _ h1
        | fail e => exact .fail _
        | ub => exact .ub
        | hang => exact .hang
        | ok x y h2 => exact ih _ (by omega) x y _ h2

theorem one_sim (H : HashFn) (hio : HonestDec io view origin) (hz : ¬ FromDecIo io .ok) (inp : Bytes) (a : TDec × σ) (b : TDec) (hR : LooseOn view origin a b)
    (i : Slot) (q : PartHdr) (pos : Nat) :
    DecSim io (fun x y => LooseOn view origin x.1 y.1 ∧ x.2 = y.2) (decodeOneIo H io inp a.1 a.2 i q pos) (decodeOne H inp b i q pos) := by
  have horg : b.origin = a.1.origin := by obtain ⟨⟨x, rfl⟩, -⟩ := hR; rfl
  unfold decodeOneIo decodeOne
  rw [horg]
  by_cases h0 : originLacks a.1.origin q.id = true
  · rw [if_pos h0, if_pos h0]; exact .fail _
  · rw [if_neg h0, if_neg h0]
    have hs := start_sim hio a b hR i
    generalize decodeStartIo io a.1 a.2 i = u at hs
    generalize decodeStart b i = v at hs
    cases hs with
    | bad e _ h1 => exact .bad _ _ h1
    | fail e => exact .fail _
    | ub => exact .ub
    | hang => exact .hang
    | ok x y h2 =>
      obtain ⟨d1, s1⟩ := x
      dsimp only
      have hf := feed_sim hio hz inp (partSize q).toNat (d1, s1) y pos h2
      dsimp only at hf
      generalize feedPartIo io inp d1 s1 pos (partSize q).toNat = u at hf
      generalize feedPart inp y pos (partSize q).toNat = v at hf
      cases hf with
      | bad e _ h1 => exact .bad _ _ h1
      | fail e => exact .fail _
      | ub => exact .ub
      | hang => exact .hang
      | ok x y h3 =>
        obtain ⟨⟨d2, s2⟩, pos2⟩ := x
        obtain ⟨y, pos3⟩ := y
        obtain ⟨h4, h5⟩ := h3
        dsimp only at h4 h5 ⊢
        subst h5
        have hk := finish_sim H hio hz (d2, s2) y h4
        dsimp only at hk
        generalize decodeFinishIo H io d2 s2 = u at hk
        generalize decodeFinish H y = v at hk
        cases hk with
        | bad e _ h1 => exact .bad _ _ h1
        | fail e => exact .fail _
        | ub => exact .ub
        | hang => exact .hang
        | ok x z h6 => exact .ok _ _ ⟨h6, rfl⟩

theorem go_sim (H : HashFn) (hio : HonestDec io view origin) (hz : ¬ FromDecIo io .ok) (inp : Bytes) (k : Nat) : ∀ (a : TDec × σ) (b : TDec) (i : Slot) (pos : Nat),
    LooseOn view origin a b → DecSim io (LooseOn view origin) (decodeGoIo H io inp k a.1 a.2 i pos) (decodeGo H inp k b i pos) := by
  induction k with
  | zero => exact fun _ _ _ _ h => .ok _ _ h
  | succ k ih =>
    intro a b i pos hR
    have hh : b.hdr = a.1.hdr := by obtain ⟨⟨x, rfl⟩, -⟩ := hR; rfl
    unfold decodeGoIo decodeGo
    rw [hh]
    cases a.1.hdr.parts[i]? with
    | none => exact .ub
    | some q =>
      dsimp only
      by_cases h0 : q.id = 0
      · rw [if_pos h0, if_pos h0]; exact .ok _ _ hR
      · rw [if_neg h0, if_neg h0]
        have h1 := one_sim H hio hz inp a b hR i q pos
        generalize decodeOneIo H io inp a.1 a.2 i q pos = u at h1
        generalize decodeOne H inp b i q pos = v at h1
        cases h1 with
        | bad e _ h1 => exact .bad _ _ h1
        | fail e => exact .fail _
        | ub => exact .ub
        | hang => exact .hang
        | ok x y h2 =>
          obtain ⟨⟨d1, s1⟩, p1⟩ := x
          obtain ⟨y, p2⟩ := y
          obtain ⟨h3, h4⟩ := h2
          dsimp only at h3 h4 ⊢
          subst h4
          exact ih (d1, s1) y _ _ h3

theorem decodeInit_cases (patch : Header) (org : Option (Header × Bytes)) (hof : ∀ oh of, org = some (oh, of) → of = origin) (f : Bytes) :
    (∃ d, decodeInit patch org [] = .ok d ∧ decodeInit patch org f = .ok { d with out := f } ∧ ∀ oh of off, d.origin = some (oh, of, off) → of = origin) ∨
    (∃ e, decodeInit patch org [] = .fail e ∧ decodeInit patch org f = .fail e) ∨ (decodeInit patch org [] = .ub ∧ decodeInit patch org f = .ub) := by
  unfold decodeInit
  cases org with
  | none => exact Or.inl ⟨_, rfl, rfl, fun _ _ _ h => nomatch h⟩
  | some r =>
    obtain ⟨oh, of⟩ := r
    have := hof oh of rfl
    subst this
    dsimp only
    unfold setOrigin
    have e1 : ∀ g, (TDec.init 4096 patch 4096 g).hdr = patch := fun _ => rfl
    rw [e1, e1]
    cases getMeta oh idBpakPackage 0 with
    | none => exact Or.inr (Or.inl ⟨_, rfl, rfl⟩)
    | some i =>
      dsimp only
      cases getMeta patch idBpakPackage 0 with
      | none => exact Or.inr (Or.inl ⟨_, rfl, rfl⟩)
      | some j =>
        dsimp only
        cases metaBytes oh oh i 0 16 with
        | none => exact Or.inr (Or.inr ⟨rfl, rfl⟩)
        | some a =>
          cases metaBytes patch oh j 0 16 with
          | none => exact Or.inr (Or.inr ⟨rfl, rfl⟩)
          | some b =>
            dsimp only
            by_cases h : a ≠ b
            · rw [if_pos h, if_pos h]; exact Or.inr (Or.inl ⟨_, rfl, rfl⟩)
            · rw [if_neg h, if_neg h]
              refine Or.inl ⟨_, rfl, rfl, ?_⟩
              intro oh' of' off' h
              injection h with h
              injection h with h1 h2
              injection h2 with h2 h3
              exact h2.symm

theorem decode_sim (H : HashFn) (hio : HonestDec io view origin) (hz : ¬ FromDecIo io .ok) (patch : Header) (inp : Bytes) (org : Option (Header × Bytes))
    (hof : ∀ oh of, org = some (oh, of) → of = origin) (s : σ) :
    DecSim io (fun (x : Header × σ) (y : Header × Bytes) => x.1 = y.1 ∧ view x.2 = y.2) (transportDecodeIo H io patch inp org s) (transportDecode H patch inp org (view s)) := by
  unfold transportDecodeIo transportDecode
  rcases decodeInit_cases patch org hof (view s) with ⟨d, h1, h2, h3⟩ | ⟨e, h1, h2⟩ | ⟨h1, h2⟩
  · rw [h1, h2]
    dsimp only
    have hg := go_sim H hio hz inp 32 (d, s) { d with out := view s } 0 4096 ⟨⟨d.dec, rfl⟩, h3⟩
    dsimp only at hg
    generalize decodeGoIo H io inp 32 d s 0 4096 = u at hg
    generalize decodeGo H inp 32 { d with out := view s } 0 4096 = v at hg
    cases hg with
    | bad e _ h1 => exact .bad _ _ h1
    | fail e => exact .fail _
    | ub => exact .ub
    | hang => exact .hang
    | ok x y h2 =>
      obtain ⟨d1, s1⟩ := x
      obtain ⟨⟨z, rfl⟩, -⟩ := h2
      exact .ok _ _ ⟨rfl, rfl⟩
  · rw [h1, h2]; exact .fail _
  · rw [h1, h2]; exact .ub

end Bpak
