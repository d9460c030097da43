import Verif.Props.Transport
/-!
C39: decoding enforces the declared size.
-/
namespace Bpak
variable [LzmaLib]

/-- C39, partial: if a part is decoded (start, any number of writes, finish) without an error, then exactly as many bytes as the part
declares (size and padding) were written, consecutively, at the part's place in the output; apart from them only the header was
written; and the part is marked as decoded. This holds for every history of the decoder before (`d` is any state).
Partial: for a part that is merely copied the code does not look at how much arrived, so the caller must have delivered the
declared size; see C39_is_false. -/
theorem C39_decode_partial (H : HashFn) (hH : HashLen H) (d d1 d2 d3 : TDec) (i : Slot) (xs : List Bytes) (q : PartHdr) (hq : d.hdr.parts[i]? = some q)
    (start : decodeStart d i = .ok d1) (write : decodeRun d1 xs = .ok d2) (finish : decodeFinish H d2 = .ok d3) (small : xs.flatten.length < 2^63)
    (copied : decoderOf d.hdr q = some 0 → xs.flatten.length = (partSize q).toNat) :
    d3.hdr = { d.hdr with parts := d.hdr.parts.modify i markDecoded } ∧
    ∃ w : Bytes, w.length = (q.size + q.padBytes.setWidth 64).toNat ∧
      d3.out = fileWrite (fileWrite (fileWrite d.out 0 d.hdr.image) (streamOff d.hdr q d.outOff).toNat w) 0 d3.hdr.image := by
  obtain ⟨q', e0, e1, e2, e3, e4, e5⟩ := start_feeding d d1 i start
  have : q' = q := by rw [hq] at e0; exact (Option.some.inj e0).symm
  subst this
  have hq1 : d1.hdr.parts[d1.part]? = some q' := by rw [e1, e3]; exact hq
  rw [← e1, ← e2] at e5
  have f := feeding_run _ d1 q' hq1 xs d1 d2 0 e5 (by omega) write
  rw [Nat.zero_add] at f
  obtain ⟨a, w, b, c⟩ := finish_wrote H hH _ d1 d2 d3 q' hq1 _ f (fun h0 => copied (by rw [e4, h0])) finish
  rw [e1, e3] at a
  rw [e1, e2] at c
  exact ⟨a, w, b, c⟩

/-- C39 is false: a part that is merely copied can be finished although nothing at all was written (here 5 bytes were declared), from
every state of the decoder. -/
theorem C39_is_false (H : HashFn) (d : TDec) (i : Slot) (q : PartHdr) (hq : d.hdr.parts[i]? = some q) (h5 : q.size = 5) (h0 : q.padBytes = 0) (hf : q.flags = 0) :
    ∃ d1 d3, decodeStart d i = .ok d1 ∧ decodeRun d1 [] = .ok d1 ∧ decodeFinish H d1 = .ok d3 ∧
      d3.out = fileWrite (fileWrite d.out 0 d.hdr.image) 0 d3.hdr.image := by
  have ht : q.isTransport = false := by unfold PartHdr.isTransport; rw [hf]; rfl
  have hd : decoderOf d.hdr q = some 0 := by unfold decoderOf; rw [ht]; rfl
  have hs : partSize q = 5 := by unfold partSize; rw [ht, h5, h0]; rfl
  have s : decodeStart d i = .ok { d with out := fileWrite d.out 0 d.hdr.image, part := i, decoderId := 0, dec := .idle, copyOff := 0 } := by
    unfold decodeStart
    rw [hq]
    simp only
    rw [hd]
    simp only
    rw [if_neg (by decide), if_pos (by decide)]
  refine ⟨_, ⟨{ d.hdr with parts := d.hdr.parts.modify i markDecoded }, d.outOff, d.bufLen, d.origin, i, 0, .idle, 0,
    fileWrite (fileWrite d.out 0 d.hdr.image) 0 ({ d.hdr with parts := d.hdr.parts.modify i markDecoded } : Header).image⟩, s, rfl, ?_, rfl⟩
  unfold decodeFinish
  simp only
  rw [hq]
  simp only
  unfold decodedLength
  simp only
  rw [if_neg (by decide), if_pos (by decide), hs]
  simp only
  rw [if_neg (by decide), if_neg (by rw [h5, h0]; decide)]

theorem finish_outOff (H : HashFn) (d d' : TDec) (e : decodeFinish H d = .ok d') : d'.outOff = d.outOff := by
  unfold decodeFinish at e
  split at e
  · cases e
  · split at e
    · split at e
      · cases e
      · split at e
        · cases e
        · injection e with e; subst e; rfl
    all_goals cases e

theorem decodeOne_wrote (H : HashFn) (hH : HashLen H) (inp : Bytes) (small : inp.length < 2^63) (d d3 : TDec) (i : Slot) (q : PartHdr) (hq : d.hdr.parts[i]? = some q)
    (pos pos' : Nat) (h : decodeOne H inp d i q pos = .ok (d3, pos')) :
    d3.hdr = { d.hdr with parts := d.hdr.parts.modify i markDecoded } ∧ pos' = pos + (partSize q).toNat ∧ d3.outOff = d.outOff ∧
    ∃ w : Bytes, w.length = (q.size + q.padBytes.setWidth 64).toNat ∧
      d3.out = fileWrite (fileWrite (fileWrite d.out 0 d.hdr.image) (streamOff d.hdr q d.outOff).toNat w) 0 d3.hdr.image := by
  unfold decodeOne at h
  split at h
  · cases h
  cases hs : decodeStart d i with
  | ok d1 =>
    rw [hs] at h
    simp only at h
    cases hf : feedPart inp d1 pos (partSize q).toNat with
    | ok r =>
      obtain ⟨d2, p2⟩ := r
      rw [hf] at h
      simp only at h
      cases hn : decodeFinish H d2 with
      | ok d3' =>
        rw [hn] at h
        injection h with h
        obtain ⟨rfl, rfl⟩ := Prod.mk.inj h
        obtain ⟨xs, x1, x2, x3, x4⟩ := feedPart_run inp _ _ _ _ _ hf
        have hl : xs.flatten.length ≤ inp.length := by
          rw [x1]; unfold fileRead; rw [List.length_take, List.length_drop]; omega
        obtain ⟨a, b⟩ := C39_decode_partial H hH d d1 d2 d3' i xs q hq hs x3 hn (by omega) (fun _ => x2)
        refine ⟨a, x4, ?_, b⟩
        rw [finish_outOff H d2 d3' hn]
        obtain ⟨q', e0, e1, e2, e3, e4, e5⟩ := start_feeding d d1 i hs
        have : q' = q := by rw [hq] at e0; exact (Option.some.inj e0).symm
        subst this
        rw [← e1, ← e2] at e5
        rw [(feeding_run _ d1 q' (by rw [e1, e3]; exact hq) xs d1 d2 0 e5 (by omega) x3).2.1, e2]
      | fail e => rw [hn] at h; cases h
      | ub => rw [hn] at h; cases h
      | hang => rw [hn] at h; cases h
    | fail e => rw [hf] at h; cases h
    | ub => rw [hf] at h; cases h
    | hang => rw [hf] at h; cases h
  | fail e => rw [hs] at h; cases h
  | ub => rw [hs] at h; cases h
  | hang => rw [hs] at h; cases h

omit [LzmaLib] in
theorem markDecoded_stored (q : PartHdr) : storedSize (markDecoded q) = declaredSize q := by
  unfold storedSize markDecoded declaredSize
  simp only
  rw [if_neg]
  rw [Classical.not_not, BitVec.and_assoc]
  have : ~~~(2 : U8) &&& 2 = 0 := by decide
  rw [this]; simp
/-- C39 for whole packages: `bpak_pkg_transport_decode` delivers what each part declares, so for every part it decodes (any kind) exactly the
declared number of bytes is written at the part's place. -/
theorem C39_package (H : HashFn) (hH : HashLen H) (inp : Bytes) (small : inp.length < 2^63) (d d3 : TDec) (i : Slot) (q : PartHdr) (hq : d.hdr.parts[i]? = some q)
    (pos pos' : Nat) (h : decodeOne H inp d i q pos = .ok (d3, pos')) :
    d3.hdr = { d.hdr with parts := d.hdr.parts.modify i markDecoded } ∧ pos' = pos + (partSize q).toNat ∧
    ∃ w : Bytes, w.length = (q.size + q.padBytes.setWidth 64).toNat ∧
      d3.out = fileWrite (fileWrite (fileWrite d.out 0 d.hdr.image) (streamOff d.hdr q d.outOff).toNat w) 0 d3.hdr.image := by
  obtain ⟨a, b, _, c⟩ := decodeOne_wrote H hH inp small d d3 i q hq pos pos' h
  exact ⟨a, b, c⟩

omit [LzmaLib] in
theorem fileWrite_len (f : Bytes) (p : Nat) (d : Bytes) (h : p ≤ f.length) : (fileWrite f p d).length = max f.length (p + d.length) := by
  by_cases hd : d = []
  · subst hd; rw [fileWrite_nil, List.length_nil]; omega
  · exact fileWrite_length f p d hd

theorem decodeGo_file (H : HashFn) (hH : HashLen H) (inp : Bytes) (small : inp.length < 2^63) (k : Nat) (post : List PartHdr) :
    ∀ (pre : List PartHdr) (d d' : TDec) (pos : Nat), PartInv d.hdr (pre ++ post) k → d.hdr.WF → d.outOff = 4096 →
    4096 + ((pre ++ post).map declaredSize).sum < 2^63 → pre.map storedSize = pre.map declaredSize → d.out.length ≤ 4096 + (pre.map declaredSize).sum →
    (pre ≠ [] → 4096 + (pre.map declaredSize).sum ≤ d.out.length ∧ d.out.take 4096 = d.hdr.image) →
    decodeGo H inp (post.length + k) d pre.length pos = .ok d' →
    d'.hdr = { d.hdr with parts := pre ++ post.map markDecoded ++ List.replicate k PartHdr.zero } ∧
    (pre ++ post ≠ [] → d'.out.length = 4096 + ((pre ++ post).map declaredSize).sum ∧ d'.out.take 4096 = d'.hdr.image) := by
  induction post with
  | nil =>
    intro pre d d' pos hi hw ho hs hst hle hge h
    have hd : d' = d := by
      cases k with
      | zero => rw [List.length_nil, Nat.zero_add, decodeGo] at h; injection h with h; exact h.symm
      | succ k =>
        rw [List.length_nil, Nat.zero_add, decodeGo] at h
        have : d.hdr.parts[pre.length]? = some PartHdr.zero := by rw [hi.slots]; simp [List.replicate_succ]
        rw [this] at h
        simp only at h
        rw [if_pos (show PartHdr.zero.id = 0 from rfl)] at h
        injection h with h; exact h.symm
    subst hd
    refine ⟨?_, ?_⟩
    · rw [List.map_nil, ← hi.slots]
    · intro hne
      rw [List.append_nil] at hne ⊢
      have := hge hne
      exact ⟨by omega, this.2⟩
  | cons q post ih =>
    intro pre d d' pos hi hw ho hs hst hle hge h
    rw [List.length_cons, show post.length + 1 + k = post.length + k + 1 from by omega, decodeGo] at h
    have hslot : d.hdr.parts[pre.length]? = some q := by rw [hi.slots]; simp
    rw [hslot] at h
    simp only at h
    rw [if_neg (hi.ids q (by simp))] at h
    cases h1 : decodeOne H inp d pre.length q pos with
    | ok r =>
      obtain ⟨d1, pos1⟩ := r
      rw [h1] at h
      simp only at h
      obtain ⟨a, b, c, w, w1, w2⟩ := decodeOne_wrote H hH inp small d d1 pre.length q hslot pos pos1 h1
      have hsum : ((pre ++ q :: post).map declaredSize).sum = (pre.map declaredSize).sum + declaredSize q + (post.map declaredSize).sum := by simp; omega
      have hwl : w.length = declaredSize q := by
        rw [w1, BitVec.toNat_add, BitVec.toNat_setWidth]
        have hdq : declaredSize q = q.size.toNat + q.padBytes.toNat := rfl
        have := q.padBytes.isLt
        rw [Nat.mod_eq_of_lt (a := q.padBytes.toNat) (by omega), Nat.mod_eq_of_lt (by omega), hdq]
      have hoff : (streamOff d.hdr q d.outOff).toNat = 4096 + (pre.map declaredSize).sum := by
        rw [ho, streamOff_4096, offset_at hi q rfl (by rw [hst]; omega), hst]
      have hparts : d.hdr.parts.modify pre.length markDecoded = pre ++ markDecoded q :: post ++ List.replicate k PartHdr.zero := by
        rw [hi.slots, List.append_assoc, List.append_assoc, List.cons_append, modify_append_cons]
        rfl
      have hd1p : d1.hdr.parts = (pre ++ [markDecoded q]) ++ post ++ List.replicate k PartHdr.zero := by rw [a]; simp only; rw [hparts]; simp
      have hi1 : PartInv d1.hdr ((pre ++ [markDecoded q]) ++ post) k := inv_sameIds hi (by simp [markDecoded]) hd1p
      have hw1 : d1.hdr.WF := by
        rw [a]
        refine withParts_wf hw _ ?_
        rw [List.length_modify]; exact hw.2.2.1
      have him := image_length hw
      have him1 := image_length hw1
      have hmd : (pre ++ [markDecoded q]).map declaredSize = (pre ++ [q]).map declaredSize := by simp [declaredSize, markDecoded]
      have hlen : d1.out.length = 4096 + (pre.map declaredSize).sum + declaredSize q := by
        rw [w2]
        have l0 : (fileWrite d.out 0 d.hdr.image).length = 4096 + (pre.map declaredSize).sum := by
          rw [fileWrite_len _ _ _ (by omega), him]
          by_cases hp : pre = []
          · subst hp; simp at hle ⊢; omega
          · have := (hge hp).1; omega
        rw [fileWrite_len _ _ _ (by omega), him1, fileWrite_len _ _ _ (by rw [hoff]; omega), l0, hoff, hwl]
        omega
      have htake : d1.out.take 4096 = d1.hdr.image := by
        rw [w2, fileWrite_zero, List.take_append_of_le_length (by omega), List.take_of_length_le (by omega)]
      rw [show pre.length + 1 = (pre ++ [markDecoded q]).length from by simp] at h
      have := ih (pre ++ [markDecoded q]) d1 d' pos1 hi1 hw1 (by rw [c, ho]) (by rw [List.map_append, hmd]; simp at hs ⊢; omega)
        (by rw [List.map_append, List.map_append, hst]; simp [markDecoded_stored]; simp [declaredSize, markDecoded])
        (by rw [hmd, hlen]; simp; omega) (fun _ => ⟨by rw [hmd, hlen]; simp; omega, htake⟩) h
      refine ⟨?_, ?_⟩
      · rw [this.1, a]; simp
      · intro _
        have t2 := this.2 (by simp)
        refine ⟨?_, t2.2⟩
        rw [t2.1, List.map_append, hmd]; simp
    | fail e => rw [h1] at h; cases h
    | ub => rw [h1] at h; cases h
    | hang => rw [h1] at h; cases h

/-- C39 for the whole decoder: whatever the input file contains, if decoding a package into a new file succeeds, then every part is marked as
decoded, the output ends where the last part, at its declared size, ends, and it starts with the resulting header. -/
theorem C39_package_file (H : HashFn) (hH : HashLen H) (patch : Header) (wf : patch.WF) (good : GoodParts patch) (inp : Bytes) (small : inp.length < 2^63)
    (hs : 4096 + ((usedParts patch).map declaredSize).sum < 2^63) (hne : usedParts patch ≠ []) (org : Option (Header × Bytes)) (out : Bytes) (hout : out.length ≤ 4096)
    (h : Header) (f : Bytes) (ok : transportDecode H patch inp org out = .ok (h, f)) :
    usedParts h = (usedParts patch).map markDecoded ∧ f.length = 4096 + ((usedParts patch).map declaredSize).sum ∧ parseHeader (f.take 4096) = h := by
  have inv := good.inv wf
  unfold transportDecode at ok
  cases hin : decodeInit patch org out with
  | ok d =>
    rw [hin] at ok
    simp only at ok
    have hd : d.hdr = patch ∧ d.outOff = 4096 ∧ d.out = out := by
      unfold decodeInit at hin
      cases org with
      | none => injection hin with hin; subst hin; exact ⟨rfl, rfl, rfl⟩
      | some o =>
        obtain ⟨oh, of⟩ := o
        simp only at hin
        unfold setOrigin at hin
        split at hin
        · cases hin
        · split at hin
          · cases hin
          · split at hin
            · split at hin
              · cases hin
              · injection hin with hin; subst hin; exact ⟨rfl, rfl, rfl⟩
            · cases hin
    cases hgo : decodeGo H inp 32 d 0 4096 with
    | ok d' =>
      rw [hgo] at ok
      injection ok with ok
      obtain ⟨rfl, rfl⟩ := Prod.mk.inj ok
      have hl := inv.len
      have := decodeGo_file H hH inp small _ (usedParts patch) [] d d' 4096 (by rw [hd.1]; exact inv) (by rw [hd.1]; exact wf) hd.2.1 hs rfl (by rw [hd.2.2]; simpa using hout) (by simp)
        (by rw [hl]; exact hgo)
      rw [List.nil_append, hd.1] at this
      have t2 := this.2 hne
      have hi : PartInv d'.hdr ((usedParts patch).map markDecoded) _ := inv_sameIds inv (by simp [markDecoded]) (by rw [this.1])
      have hw : d'.hdr.WF := by
        rw [this.1]
        refine withParts_wf wf _ ?_
        rw [List.length_append, List.length_replicate, List.length_map]; exact hl
      exact ⟨hi.used, t2.1, by rw [t2.2]; exact parse_image hw⟩
    | fail e => rw [hgo] at ok; cases ok
    | ub => rw [hgo] at ok; cases ok
    | hang => rw [hgo] at ok; cases ok
  | fail e => rw [hin] at ok; cases ok
  | ub => rw [hin] at ok; cases ok
  | hang => rw [hin] at ok; cases ok

end Bpak
