import Verif.Spec.Transport
import Verif.Props.HsDelta
import Verif.Proof.Lzma
import Verif.Proof.DeltaSize
import Verif.Props.PkgHistory
namespace Bpak
variable [LzmaLib]

/-! ### metadata -/

omit [LzmaLib] in
theorem getMeta_entry {h : Header} (g : GoodMetas h) (w : h.WF) {id ref : U32} (hid : id ≠ 0) {d : Bytes} (he : HasEntry h id ref d) :
    ∃ i m, getMeta h id ref = some i ∧ h.metas[i]? = some m ∧ m ∈ usedMetas h ∧ m.id = id ∧ m.partRef = ref ∧ m.offset.toNat + d.length ≤ 1920 ∧
      m.size.toNat = d.length ∧ (h.metadata.drop m.offset.toNat).take d.length = d := by
  have inv := g.inv w
  unfold HasEntry entries at he
  rw [List.mem_map] at he
  obtain ⟨m, hm, em⟩ := he
  injection em with e1 e2 e3
  obtain ⟨pre, post, hu⟩ := List.append_of_mem hm
  have hlay := g.layout pre m post hu
  have hlen : d.length = m.size.toNat := by
    rw [← e3]; unfold metaContent
    rw [List.length_take, List.length_drop, w.2.2.2.1]; omega
  cases hg : getMeta h id ref with
  | none =>
    have := getMetaIntGo_none.1 hg m (by rw [inv.slots]; exact List.mem_append_left _ hm)
    simp [e1, e2] at this
  | some i =>
    obtain ⟨pre', m', post', hu', hl', i1, i2, hs⟩ := getMeta_split inv hid hg
    have : m' = m := by
      have hm' : m' ∈ usedMetas h := by rw [hu']; simp
      rcases Classical.em (m' = m) with h | h
      · exact h
      exfalso
      have hd := inv.distinct
      rw [hu'] at hd hm
      rw [List.pairwise_append, List.pairwise_cons] at hd
      simp only [List.mem_append, List.mem_cons] at hm
      rcases hm with hm | hm | hm
      · exact hd.2.2 m hm m' (by simp) ⟨by rw [e1, i1], by rw [e2, i2]⟩
      · exact h hm.symm
      · exact hd.2.1.1 m hm ⟨by rw [e1, i1], by rw [e2, i2]⟩
    subst this
    exact ⟨i, m', rfl, hs, hm, e1, e2, by rw [hlen]; omega, hlen.symm, by rw [hlen]; exact e3⟩

omit [LzmaLib] in
theorem entry_unique {h : Header} (gm : GoodMetas h) (w : h.WF) {a b : MetaHdr} (ha : a ∈ usedMetas h) (hb : b ∈ usedMetas h) (e1 : a.id = b.id) (e2 : a.partRef = b.partRef) :
    a = b := by
  have hd := (gm.inv w).distinct
  obtain ⟨p, q, hu⟩ := List.append_of_mem ha
  rw [hu] at hd hb
  rw [List.pairwise_append, List.pairwise_cons] at hd
  simp only [List.mem_append, List.mem_cons] at hb
  rcases hb with hb | hb | hb
  · exact absurd ⟨e1.symm, e2.symm⟩ (hd.2.2 b hb a (by simp))
  · exact hb.symm
  · exact absurd ⟨e1, e2⟩ (hd.2.1.1 b hb)

omit [LzmaLib] in
theorem getMeta_noEntry {h : Header} (g : GoodMetas h) (w : h.WF) {id ref : U32} (hid : id ≠ 0) (he : ∀ e ∈ entries h, ¬ (e.id = id ∧ e.ref = ref)) :
    getMeta h id ref = none := by
  cases hg : getMeta h id ref with
  | none => rfl
  | some i =>
    obtain ⟨pre', m', post', hu', hl', i1, i2, hs⟩ := getMeta_split (g.inv w) hid hg
    exact absurd ⟨i1, i2⟩ (he ⟨m'.id, m'.partRef, metaContent h m'⟩ (List.mem_map.2 ⟨m', by rw [hu']; simp, rfl⟩))

omit [LzmaLib] in
theorem metaBytes_at {h : Header} (w : h.WF) {i : Nat} {m : MetaHdr} (hs : h.metas[i]? = some m) {d : Bytes} (hb : m.offset.toNat + d.length ≤ 1920)
    (hd : (h.metadata.drop m.offset.toNat).take d.length = d) (k n : Nat) (hk : k + n ≤ d.length) : metaBytes h h i k n = some ((d.drop k).take n) := by
  unfold metaBytes
  rw [hs]
  simp only
  rw [readAt_eq_some (by rw [w.2.2.2.1]; omega)]
  congr 1
  conv => rhs; rw [← hd]
  rw [List.drop_take, List.take_take, List.drop_drop, Nat.min_eq_left (by omega)]

omit [LzmaLib] in
theorem transportWords {h : Header} (w : h.WF) {i : Nat} {m : MetaHdr} (hs : h.metas[i]? = some m) {enc dec : U32} {tail : Bytes}
    (hb : m.offset.toNat + (le32 enc ++ le32 dec ++ tail).length ≤ 1920)
    (hd : (h.metadata.drop m.offset.toNat).take (le32 enc ++ le32 dec ++ tail).length = le32 enc ++ le32 dec ++ tail) :
    transportWord h i 0 = some enc ∧ transportWord h i 4 = some dec := by
  have hl : (le32 enc ++ le32 dec ++ tail).length = 8 + tail.length := by
    rw [List.length_append, List.length_append]; simp [le32]
  unfold transportWord
  rw [metaBytes_at w hs hb hd 0 4 (by omega), metaBytes_at w hs hb hd 4 4 (by omega)]
  constructor
  · simp only [Option.map_some]
    rw [show ((le32 enc ++ le32 dec ++ tail).drop 0).take 4 = le32 enc from by simp [le32], ofLe32_le32]
  · simp only [Option.map_some]
    rw [show ((le32 enc ++ le32 dec ++ tail).drop 4).take 4 = le32 dec from by simp [le32], ofLe32_le32]

/-! ### deltas against a part of a file -/

omit [LzmaLib] in
theorem fileReader_part {of o : Bytes} {oOff : Nat} (ho : fileRead of oOff o.length = o) {p : Int} {n : Nat} {x : Bytes} (h : fileReader o p n = some x) :
    fileReader of (oOff + p) n = some x := by
  unfold fileReader at *
  split at h
  · cases h
  rename_i hp
  rw [if_neg (by omega)]
  split at h
  · rename_i hn
    rw [if_pos hn]; exact h
  rename_i hn
  rw [if_neg hn]
  split at h
  · rename_i hb
    have hl : oOff + o.length ≤ of.length ∨ o.length = 0 := by
      have := congrArg List.length ho
      unfold fileRead at this
      rw [List.length_take, List.length_drop] at this
      omega
    rw [if_pos (by omega)]
    rw [← h]
    congr 1
    conv => rhs; rw [← ho]
    unfold fileRead
    rw [List.drop_take, List.take_take, List.drop_drop, Nat.min_eq_left (by omega)]
    congr 2; omega
  · cases h

omit [LzmaLib] in
theorem applyRecs_part {of o : Bytes} {oOff : Nat} (ho : fileRead of oOff o.length = o) : ∀ (rs : List Rec) (p : Int) (r : Bytes × Int),
    applyRecs (fileReader o) p rs = some r → applyRecs (fun p n => fileReader of ((oOff : Int) + p) n) p rs = some r := by
  intro rs
  induction rs with
  | nil => intro p r h; exact h
  | cons a rs ih =>
    intro p r h
    unfold applyRecs at h ⊢
    cases hr : fileReader o p a.diff.length with
    | none => rw [hr] at h; cases h
    | some x =>
      rw [hr] at h
      simp only at h ⊢
      rw [fileReader_part ho hr]
      simp only
      cases hs : applyRecs (fileReader o) (p + a.diff.length + a.adjust) rs with
      | none => rw [hs] at h; cases h
      | some y =>
        rw [hs] at h
        rw [ih _ _ hs]
        exact h

omit [LzmaLib] in
theorem originRead_eq (f : Bytes) : originRead f = fileReader f := rfl

/-- A delta that restores `d` from the origin at `oOff`, without compression. -/
def PlainDelta (of : Bytes) (oOff : Nat) (d z : Bytes) : Prop :=
  ∀ (f : Bytes) (outOff : Nat) (xs : List Bytes), xs.flatten = z → (∀ x ∈ xs, x ≠ []) →
    ∃ p, bspatchRun ⟨originRead of, oOff, outOff, 2048⟩ (Patcher.init f) xs = .ok p ∧ p.out = fileWrite f outOff d ∧ bspatchFinal p = some d.length

/-- The same, compressed. -/
def HsDelta (of : Bytes) (oOff : Nat) (d z : Bytes) : Prop :=
  ∀ (f : Bytes) (outOff : Nat) (xs : List Bytes), xs.flatten = z → (∀ x ∈ xs, x ≠ []) →
    ∃ t, hsRun ⟨originRead of, oOff, outOff, 2048⟩ z.length (HsPatch.init f) xs = .ok t ∧ t.p.out = fileWrite f outOff d ∧ bspatchFinal t.p = some d.length

/-- The same, compressed with LZMA. -/
def LzDelta (of : Bytes) (oOff : Nat) (d z : Bytes) : Prop :=
  ∀ (f : Bytes) (outOff : Nat) (xs : List Bytes), xs.flatten = z → (∀ x ∈ xs, x ≠ []) →
    ∃ t t', lzPatchRun ⟨originRead of, oOff, outOff, 2048⟩ (LzPatch.init f) xs = .ok t ∧
      lzPatchFinal ⟨originRead of, oOff, outOff, 2048⟩ t = .ok (t', d.length) ∧ t'.p.out = fileWrite f outOff d

omit [LzmaLib] in
theorem writeBufs_eq (bufs : List Bytes) : ∀ (f : Bytes) (pos : Nat), writeBufs f pos bufs = fileWrite f pos bufs.flatten := by
  induction bufs with
  | nil => intro f pos; rfl
  | cons b bs ih => intro f pos; rw [writeBufs, ih, fileWrite_append, List.flatten_cons]

omit [LzmaLib] in
theorem fileRead_len {f : Bytes} {p n : Nat} (h : p + n ≤ f.length) : (fileRead f p n).length = n := by
  unfold fileRead; rw [List.length_take, List.length_drop]; omega

/-- `transport_bsdiff` on ranges inside the files. -/
theorem transportBsdiff_ok (L : LzmaLaws) (srch : Bytes → Bytes → Int → Option (Int × Int)) (hsr : ∀ o n, SearchOk o n (srch o n)) (target : Bytes) (tOff tLen : Nat) (origin : Bytes) (oOff oLen : Nat)
    (out : Bytes) (outOff : Nat) (c : Comp) (ht0 : target ≠ []) (ho0 : origin ≠ []) (ht : tOff + tLen ≤ target.length) (ho : oOff + oLen ≤ origin.length)
    (htl : tLen < 2^63) (hol : oLen < 2^63) :
    (transportBsdiff srch target tOff tLen origin oOff oLen out outOff c = .fail .writeError ∧ 2^63 ≤ outOff + (29 * tLen + 1100)) ∨
    ∃ z, transportBsdiff srch target tOff tLen origin oOff oLen out outOff c = .ok (fileWrite out outOff z, z.length) ∧ outOff + z.length < 2^63 ∧ z.length ≤ 29 * tLen + 1100 ∧
      (c = .none → PlainDelta origin oOff (fileRead target tOff tLen) z) ∧ (c = .hs → HsDelta origin oOff (fileRead target tOff tLen) z) ∧
      (c = .lzma → LzDelta origin oOff (fileRead target tOff tLen) z) := by
  have hl1 := fileRead_len ht
  have hl2 := fileRead_len ho
  unfold transportBsdiff
  rw [if_neg (by simp [ht0, ho0]), if_neg (by omega)]
  generalize hn : fileRead target tOff tLen = n at *
  generalize hoo : fileRead origin oOff oLen = o at *
  obtain ⟨bufs, rs, q, h1, h2, h3, h4⟩ := bsdiffWith_spec o n (by omega) (by omega) (srch o n) (hsr o n)
  have hsz := bsdiffWith_size o n (by omega) (by omega) (srch o n) (hsr o n) bufs h1
  have h5 := applyRecs_part (of := origin) (oOff := oOff) (by rw [hl2]; exact hoo) rs 0 _ h4
  have run : ∀ (f : Bytes) (outOff : Nat) (xs : List Bytes), xs.flatten = bufs.flatten →
      ∃ p, bspatchRun ⟨originRead origin, oOff, outOff, 2048⟩ (Patcher.init f) xs = .ok p ∧ p.out = fileWrite f outOff n ∧ bspatchFinal p = some n.length := by
    intro f outOff xs hx
    exact C22_decoder_applies_records origin f oOff outOff 2048 (by decide) rs h2 n q h5 xs (by rw [hx, h3])
  cases c with
  | none =>
    simp only
    rw [h1]
    simp only
    by_cases hb : 2^63 ≤ outOff + bufs.flatten.length
    · rw [if_pos hb]; exact .inl ⟨rfl, by omega⟩
    · rw [if_neg hb, writeBufs_eq]
      exact .inr ⟨bufs.flatten, rfl, by omega, by omega, fun _ f outOff xs hx _ => run f outOff xs hx, (fun h => by cases h), (fun h => by cases h)⟩
  | hs =>
    simp only
    obtain ⟨s, s', z, g1, g2, g3, g4, g5, g6⟩ := comp_ok outOff out bufs
    have : bsdiffHs (srch o n) o n outOff out = some (.ok s') := by
      unfold bsdiffHs
      rw [h1]
      simp only
      rw [g1]
      simp only
      rw [g2]
    rw [this]
    simp only
    rw [g4, g3]
    by_cases hb : 2^63 ≤ outOff + z.length
    · rw [if_pos hb]; exact .inl ⟨rfl, by omega⟩
    · rw [if_neg hb]
      refine .inr ⟨z, rfl, by omega, by omega, (fun h => by cases h), ?_, (fun h => by cases h)⟩
      intro _ f outOff xs hx hne
      subst hx
      exact hs_accepts ⟨originRead origin, oOff, outOff, 2048⟩ (by simp) xs.flatten.length f xs (inTime xs hne) (fun p => p.out = fileWrite f outOff n ∧ bspatchFinal p = some n.length)
        (fun ys hy => run f outOff ys (by rw [hy, g5]))
  | lzma =>
    simp only
    obtain ⟨s, s', z, g1, g2, g3, g4, g5⟩ := lz_comp_ok L outOff out bufs
    have g6 := L.size _ _ g5
    have : bsdiffLzma (srch o n) o n outOff out = some (.ok s') := by
      unfold bsdiffLzma
      rw [h1]
      simp only
      rw [g1]
      simp only
      rw [g2]
    rw [this]
    simp only
    rw [g4, g3]
    by_cases hb : 2^63 ≤ outOff + z.length
    · rw [if_pos hb]; exact .inl ⟨rfl, by omega⟩
    · rw [if_neg hb]
      refine .inr ⟨z, rfl, by omega, by omega, (fun h => by cases h), (fun h => by cases h), ?_⟩
      intro _ f outOff xs hx hne
      obtain ⟨t, t', k1, k2, k3, k4⟩ := lz_accepts L ⟨originRead origin, oOff, outOff, 2048⟩ f _ _ g5 (fun p => p.out = fileWrite f outOff n ∧ bspatchFinal p = some n.length)
        (fun ys hy => run f outOff ys hy) xs hx hne
      refine ⟨t, t', k1, ?_, k3⟩
      unfold bspatchFinal at k4
      split at k4
      · cases k4
      · injection k4 with k4
        rw [k2, k4]

/-! ### offsets -/

omit [LzmaLib] in
theorem stored_size_lt (q : PartHdr) : storedSize q < 2^64 + 2^16 := by
  unfold storedSize
  split <;> omega

omit [LzmaLib] in
theorem partSize_lt (ps : List PartHdr) (h : (ps.map storedSize).sum < 2^64) : sizesSum ps = (ps.map storedSize).sum := by
  induction ps with
  | nil => rfl
  | cons a ps ih =>
    rw [List.map_cons, List.sum_cons] at h ⊢
    have : sizesSum (a :: ps) = (partSize a).toNat + sizesSum ps := by simp [sizesSum]
    rw [this, ih (by omega), partSize_stored a (by omega)]

omit [LzmaLib] in
theorem offset_at {h : Header} {pre post : List PartHdr} {r : PartHdr} {k : Nat} (i : PartInv h (pre ++ r :: post) k) (x : PartHdr) (hx : x.id = r.id)
    (hs : 4096 + (pre.map storedSize).sum < 2^63) : (partOffset h x).toNat = 4096 + (pre.map storedSize).sum := by
  unfold partOffset
  rw [i.slots, hx, List.append_assoc]
  have hd := i.distinct
  rw [List.pairwise_append] at hd
  have e := partSize_lt pre (by omega)
  have : (4096 : U64).toNat = 4096 := rfl
  rw [partOffsetGo_eq r.id pre _ 4096 (fun q hq => ⟨i.ids q (by simp [hq]), hd.2.2 q hq r (by simp)⟩) (by rw [this, e]; omega) (by
    intro q hq
    simp at hq
    left; rw [hq]), this, e]

/-! ### encoding -/

omit [LzmaLib] in
theorem fileRead_fileRead (f : Bytes) (p n k m : Nat) (h : k + m ≤ n) : fileRead (fileRead f p n) k m = fileRead f (p + k) m := by
  unfold fileRead
  rw [List.drop_take, List.take_take, List.drop_drop, Nat.min_eq_left (by omega)]

omit [LzmaLib] in
theorem copyLoop_ok (inp : Bytes) (n : Nat) : ∀ (out : Bytes) (rd wr : Nat), rd + n ≤ inp.length → copyLoop inp out rd wr n = .ok (fileWrite out wr (fileRead inp rd n)) := by
  induction n using Nat.strongRecOn with
  | ind n ih =>
    intro out rd wr h
    rw [copyLoop.eq_def]
    split
    · rename_i hn
      subst hn
      unfold fileRead; simp [fileWrite_nil]
    · rename_i hn
      have hl := fileRead_len (f := inp) (p := rd) (n := min n 1024) (by omega)
      rw [if_neg (by omega), ih (n - min n 1024) (by omega) _ _ _ (by omega)]
      congr 1
      have := fileWrite_append out wr (fileRead inp rd (min n 1024)) (fileRead inp (rd + min n 1024) (n - min n 1024))
      rw [hl] at this
      rw [this, ← fileRead_add]
      congr 2; omega

/-- What encoding a part amounts to: the part header and the bytes in the encoded file, and how they decode. -/
inductive Coded (inp : Pkg) (org : Option Pkg) (q : PartHdr) : PartHdr → Bytes → Prop where
  | copied (no : getMeta inp.hdr idBpakTransport q.id = none) : Coded inp org q q (storedBytes inp q)
  | plain (o : Pkg) (ho : org = some o) (j : Slot) (z : Bytes) (k : Nat) (hj : getMeta inp.hdr idBpakTransport q.id = some j)
      (hw : transportWord inp.hdr j 4 = some idBspatchNoComp) (ho : k = (partOffset o.hdr q).toNat) (hk : k < 2^63)
      (hz : z.length < 2^63) (hd : PlainDelta o.file k (storedBytes inp q) z) : Coded inp org q (markEncoded q z.length) z
  | hs (o : Pkg) (ho : org = some o) (j : Slot) (z : Bytes) (k : Nat) (hj : getMeta inp.hdr idBpakTransport q.id = some j)
      (hw : transportWord inp.hdr j 4 = some idBspatch) (ho : k = (partOffset o.hdr q).toNat) (hk : k < 2^63)
      (hz : z.length < 2^63) (hd : HsDelta o.file k (storedBytes inp q) z) : Coded inp org q (markEncoded q z.length) z
  | lzma (o : Pkg) (ho : org = some o) (j : Slot) (z : Bytes) (k : Nat) (hj : getMeta inp.hdr idBpakTransport q.id = some j)
      (hw : transportWord inp.hdr j 4 = some idBspatchLzma) (ho : k = (partOffset o.hdr q).toNat) (hk : k < 2^63)
      (hz : z.length < 2^63) (hd : LzDelta o.file k (storedBytes inp q) z) : Coded inp org q (markEncoded q z.length) z
  | tree (j : Slot) (hj : getMeta inp.hdr idBpakTransport q.id = some j) (hw : transportWord inp.hdr j 4 = some idMerkleGenerate) :
      Coded inp org q (markEncoded q 0) []

inductive CodedAll (inp : Pkg) (org : Option Pkg) : List PartHdr → List PartHdr → Bytes → Prop where
  | nil : CodedAll inp org [] [] []
  | cons {q r : PartHdr} {z : Bytes} {qs rs : List PartHdr} {Z : Bytes} (h : Coded inp org q r z) (t : CodedAll inp org qs rs Z) :
      CodedAll inp org (q :: qs) (r :: rs) (z ++ Z)

omit [LzmaLib] in
theorem markEncoded_stored (q : PartHdr) (n : Nat) (hn : n < 2^63) : storedSize (markEncoded q n) = n := by
  unfold storedSize markEncoded
  have : (q.flags ||| 2) &&& 2 ≠ 0 := by
    intro h
    have := congrArg (fun b : U8 => b.getLsbD 1) h
    simp at this
  rw [if_pos this, BitVec.toNat_ofNat, Nat.mod_eq_of_lt (by omega)]

theorem Coded.id {inp : Pkg} {org : Option Pkg} {q r : PartHdr} {z : Bytes} (c : Coded inp org q r z) : r.id = q.id := by
  cases c <;> rfl

theorem Coded.size {inp : Pkg} {org : Option Pkg} {q r : PartHdr} {z : Bytes} (c : Coded inp org q r z) (h : (storedBytes inp q).length = storedSize q) :
    storedSize r = z.length := by
  cases c with
  | copied => exact h.symm
  | plain o ho j z k hj hw hk1 hk2 hz hd => exact markEncoded_stored q _ hz
  | hs o ho j z k hj hw hk1 hk2 hz hd => exact markEncoded_stored q _ hz
  | lzma o ho j z k hj hw hk1 hk2 hz hd => exact markEncoded_stored q _ hz
  | tree => exact markEncoded_stored q 0 (by omega)

omit [LzmaLib] in
/-- In a good package a part lies where it should. -/
theorem good_part {p : Pkg} (g : GoodPkg p) (hs : p.file.length < 2^63) {pre post : List PartHdr} {q : PartHdr} (hu : usedParts p.hdr = pre ++ q :: post) :
    (partOffset p.hdr q).toNat = 4096 + (pre.map storedSize).sum ∧ (partSize q).toNat = storedSize q ∧
      4096 + (pre.map storedSize).sum + storedSize q ≤ p.file.length := by
  have he := g.exact
  have t := g.parts.tidy (by omega)
  obtain ⟨a, b⟩ := tidy_offset p.hdr t pre post q hu
  refine ⟨a, b, ?_⟩
  rw [he, hu, List.map_append, List.map_cons, List.sum_append, List.sum_cons]
  omega

omit [LzmaLib] in
theorem good_stored {p : Pkg} (g : GoodPkg p) (hs : p.file.length < 2^63) {pre post : List PartHdr} {q : PartHdr} (hu : usedParts p.hdr = pre ++ q :: post) :
    storedBytes p q = fileRead p.file (4096 + (pre.map storedSize).sum) (storedSize q) ∧ (storedBytes p q).length = storedSize q := by
  obtain ⟨a, b, c⟩ := good_part g hs hu
  unfold storedBytes
  rw [a]
  exact ⟨rfl, fileRead_len c⟩

omit [LzmaLib] in
theorem origin_part {o : Pkg} (g : GoodPkg o) {id : U32} (h : ∃ q ∈ usedParts o.hdr, q.id = id) :
    ∃ pre oq post, usedParts o.hdr = pre ++ oq :: post ∧ oq.id = id ∧ originPart (some o.pair) id = .ok (some (o.hdr, o.file, oq)) ∧ (getPart o.hdr id).isNone = false := by
  obtain ⟨oq, hq, rfl⟩ := h
  obtain ⟨pre, post, hu⟩ := List.append_of_mem hq
  obtain ⟨e1, e2⟩ := getPart_used (g.parts.inv g.wf) pre post oq hu
  refine ⟨pre, oq, post, hu, rfl, ?_, by rw [e1]; rfl⟩
  unfold originPart Pkg.pair
  simp only
  rw [e1]
  simp only
  rw [e2]

theorem encodeOne_ok (L : LzmaLaws) (H : HashFn) (srch : Bytes → Bytes → Int → Option (Int × Int)) (hsr : ∀ o n, SearchOk o n (srch o n)) (inp : Pkg) (org : Option Pkg)
    (hs : Sendable H inp org.isSome) (ho : ∀ o, org = some o → OriginFor inp o) (pre post rs : List PartHdr) (q : PartHdr) (hu : usedParts inp.hdr = pre ++ q :: post)
    (outH : Header) (k : Nat) (hi : PartInv outH (rs ++ q :: post) k) (out : Bytes) (hsz : 4096 + (rs.map storedSize).sum < 2^63) :
    (encodeOne srch inp.hdr inp.file (org.map Pkg.pair) q.id outH out = .fail .writeError ∧ 2^63 ≤ 4096 + (rs.map storedSize).sum + (29 * storedSize q + 1100)) ∨
    ∃ r z, encodeOne srch inp.hdr inp.file (org.map Pkg.pair) q.id outH out =
        .ok ({ outH with parts := rs ++ r :: post ++ List.replicate k PartHdr.zero }, fileWrite out (4096 + (rs.map storedSize).sum) z) ∧
      Coded inp org q r z ∧ 4096 + (rs.map storedSize).sum + z.length < 2^63 ∧ z.length ≤ 29 * storedSize q + 1100 := by
  have g := hs.good
  have ii := g.parts.inv g.wf
  obtain ⟨o1, o2, o3⟩ := good_part g hs.small hu
  obtain ⟨b1, b2⟩ := good_stored g hs.small hu
  have oo := offset_at hi q rfl hsz
  obtain ⟨p1, p2⟩ := getPart_used ii pre post q hu
  obtain ⟨r1, r2⟩ := getPart_used hi rs post q rfl
  have hsm := hs.small
  have same : { outH with parts := rs ++ q :: post ++ List.replicate k PartHdr.zero } = outH := by rw [← hi.slots]
  have hpl : q.isTransport = false := by
    have := g.plain q (by rw [hu]; simp)
    cases h : q.isTransport with
    | false => rfl
    | true => exact absurd this ((isTransport_iff q).1 h)
  unfold encodeOne
  rcases hs.parts pre q post hu with no | ⟨enc, dec, tail, entry, algs, origin⟩ | ⟨tail, entry, fs, before, name, salt, saltE, saltL, size, bytes⟩
  · have hn := getMeta_noEntry hs.metas g.wf (by decide) no
    rw [hn]
    simp only
    unfold transportCopy
    rw [p1]
    simp only
    rw [p2]
    simp only
    rw [o1, oo, o2, if_neg (by omega)]
    by_cases hb : 2^63 ≤ 4096 + (rs.map storedSize).sum + storedSize q
    · rw [if_pos hb]; exact .inl ⟨rfl, by omega⟩
    · rw [if_neg hb, copyLoop_ok _ _ _ _ _ o3, ← b1]
      exact .inr ⟨q, storedBytes inp q, by simp only [same], .copied hn, by omega, by omega⟩
  · obtain ⟨j, m, m1, m2, m3, m4, m5, m6, m7, m8⟩ := getMeta_entry hs.metas g.wf (by decide) entry
    obtain ⟨w1, w2⟩ := transportWords g.wf m2 m6 m8
    rw [m1]
    simp only
    rw [w1]
    simp only
    cases org with
    | none => cases origin
    | some o =>
      have of := ho o rfl
      obtain ⟨opre, oq, opost, ou, oid, oe, -⟩ := origin_part of.good (of.has q (by rw [hu]; simp))
      obtain ⟨q1, q2, q3⟩ := good_part of.good of.small ou
      have hos := of.small
      unfold encodePart
      rw [p1, r1]
      simp only
      rw [p2, r2]
      simp only
      rw [Option.map_some, oe]
      simp only
      rw [hpl, if_neg (by simp), o1, oo, if_neg (by unfold originPos; simp only; rw [q1]; omega)]
      have hoff : (partOffset o.hdr q).toNat = (partOffset o.hdr oq).toNat := by unfold partOffset; rw [oid]
      unfold encodeAlg
      rw [if_pos (by rcases algs with ⟨rfl, _⟩ | ⟨rfl, _⟩ | ⟨rfl, _⟩ <;> simp)]
      simp only
      rw [o1, o2, q1, q2]
      rcases algs with ⟨rfl, rfl⟩ | ⟨rfl, rfl⟩ | ⟨rfl, rfl⟩
      · rw [if_pos rfl]
        rcases transportBsdiff_ok L srch hsr inp.file _ _ o.file _ _ out (4096 + (rs.map storedSize).sum) .hs (by intro e; rw [e] at o3; simp at o3)
          (by intro e; rw [e] at q3; simp at q3) o3 q3 (by omega) (by omega) with ⟨e, eb⟩ | ⟨z, e, z1, zb, -, z2, -⟩
        · left; rw [e]; exact ⟨rfl, eb⟩
        · right
          rw [e]
          simp only
          refine ⟨markEncoded q z.length, z, ?_, .hs o rfl j z _ m1 w2 hoff.symm (by omega) (by omega) ?_, z1, zb⟩
          · rw [hi.slots, List.append_assoc, List.cons_append, modify_append_cons]; simp
          · rw [q1, b1]; exact z2 rfl
      · rw [if_neg (by decide), if_pos rfl]
        rcases transportBsdiff_ok L srch hsr inp.file _ _ o.file _ _ out (4096 + (rs.map storedSize).sum) .none (by intro e; rw [e] at o3; simp at o3)
          (by intro e; rw [e] at q3; simp at q3) o3 q3 (by omega) (by omega) with ⟨e, eb⟩ | ⟨z, e, z1, zb, z2, -, -⟩
        · left; rw [e]; exact ⟨rfl, eb⟩
        · right
          rw [e]
          simp only
          refine ⟨markEncoded q z.length, z, ?_, .plain o rfl j z _ m1 w2 hoff.symm (by omega) (by omega) ?_, z1, zb⟩
          · rw [hi.slots, List.append_assoc, List.cons_append, modify_append_cons]; simp
          · rw [q1, b1]; exact z2 rfl
      · rw [if_neg (by decide), if_neg (by decide)]
        rcases transportBsdiff_ok L srch hsr inp.file _ _ o.file _ _ out (4096 + (rs.map storedSize).sum) .lzma (by intro e; rw [e] at o3; simp at o3)
          (by intro e; rw [e] at q3; simp at q3) o3 q3 (by omega) (by omega) with ⟨e, eb⟩ | ⟨z, e, z1, zb, -, -, z2⟩
        · left; rw [e]; exact ⟨rfl, eb⟩
        · right
          rw [e]
          simp only
          refine ⟨markEncoded q z.length, z, ?_, .lzma o rfl j z _ m1 w2 hoff.symm (by omega) (by omega) ?_, z1, zb⟩
          · rw [hi.slots, List.append_assoc, List.cons_append, modify_append_cons]; simp
          · rw [q1, b1]; exact z2 rfl
  · obtain ⟨j, m, m1, m2, m3, m4, m5, m6, m7, m8⟩ := getMeta_entry hs.metas g.wf (by decide) entry
    obtain ⟨w1, w2⟩ := transportWords g.wf m2 m6 m8
    rw [m1]
    simp only
    rw [w1]
    simp only
    have horg : ∃ x, originPart (org.map Pkg.pair) q.id = .ok x ∧ originPos x < 2^63 := by
      cases org with
      | none => exact ⟨none, rfl, by decide⟩
      | some o =>
        have of := ho o rfl
        obtain ⟨opre, oq, opost, ou, oid, oe, -⟩ := origin_part of.good (of.has q (by rw [hu]; simp))
        obtain ⟨q1, q2, q3⟩ := good_part of.good of.small ou
        have hos := of.small
        exact ⟨_, oe, by unfold originPos; simp only; omega⟩
    obtain ⟨x, hx, hx2⟩ := horg
    unfold encodePart
    rw [p1, r1]
    simp only
    rw [p2, r2]
    simp only
    rw [hx]
    simp only
    rw [hpl, if_neg (by simp), o1, oo, if_neg (by omega)]
    unfold encodeAlg
    rw [if_neg (by decide), if_pos rfl]
    right
    refine ⟨markEncoded q 0, [], ?_, .tree j m1 w2, by simpa using hsz, by simp⟩
    simp only [fileWrite_nil]
    rw [hi.slots, List.append_assoc, List.cons_append, modify_append_cons]; simp

omit [LzmaLib] in
theorem inv_replace {h : Header} {rs post : List PartHdr} {q r : PartHdr} {k : Nat} (i : PartInv h (rs ++ q :: post) k) (hr : r.id = q.id) :
    PartInv { h with parts := rs ++ r :: post ++ List.replicate k PartHdr.zero } (rs ++ r :: post) k := by
  obtain ⟨a, b, c, d⟩ := i
  refine ⟨rfl, by simpa using b, ?_, ?_⟩
  · intro p hp
    simp only [List.mem_append, List.mem_cons] at hp
    rcases hp with hp | rfl | hp
    · exact c p (by simp [hp])
    · rw [hr]; exact c q (by simp)
    · exact c p (by simp [hp])
  · rw [List.pairwise_append, List.pairwise_cons] at d ⊢
    refine ⟨d.1, ⟨?_, d.2.1.2⟩, ?_⟩
    · intro x hx; rw [hr]; exact d.2.1.1 x hx
    · intro x hx y hy
      rcases List.mem_cons.1 hy with rfl | hy
      · rw [hr]; exact d.2.2 x hx q (by simp)
      · exact d.2.2 x hx y (by simp [hy])

theorem encodeGo_ok (L : LzmaLaws) (H : HashFn) (srch : Bytes → Bytes → Int → Option (Int × Int)) (hsr : ∀ o n, SearchOk o n (srch o n)) (inp : Pkg) (org : Option Pkg)
    (hs : Sendable H inp org.isSome) (ho : ∀ o, org = some o → OriginFor inp o) (f0 : Bytes) (k : Nat) (post : List PartHdr) : ∀ (pre rs : List PartHdr) (outH : Header) (Z : Bytes),
    usedParts inp.hdr = pre ++ post → PartInv outH (rs ++ post) k → (rs.map storedSize).sum = Z.length → 4096 + Z.length < 2^63 →
    (encodeGo srch inp.hdr inp.file (org.map Pkg.pair) (post ++ List.replicate k PartHdr.zero) outH (fileWrite f0 4096 Z) = .fail .writeError ∧
      2^63 ≤ 4096 + Z.length + (post.map (fun q => 29 * storedSize q + 1100)).sum) ∨
    ∃ rs' Z', encodeGo srch inp.hdr inp.file (org.map Pkg.pair) (post ++ List.replicate k PartHdr.zero) outH (fileWrite f0 4096 Z) =
        .ok ({ outH with parts := rs ++ rs' ++ List.replicate k PartHdr.zero }, fileWrite f0 4096 (Z ++ Z')) ∧ CodedAll inp org post rs' Z' := by
  induction post with
  | nil =>
    intro pre rs outH Z hu hi hz hb
    right
    refine ⟨[], [], ?_, .nil⟩
    have e : encodeGo srch inp.hdr inp.file (org.map Pkg.pair) ([] ++ List.replicate k PartHdr.zero) outH (fileWrite f0 4096 Z) = .ok (outH, fileWrite f0 4096 Z) := by
      cases k with
      | zero => rfl
      | succ k => rw [List.replicate_succ, List.nil_append, encodeGo, if_pos (show PartHdr.zero.id = 0 from rfl)]
    have := hi.slots
    rw [List.append_nil] at this ⊢
    rw [e, List.append_nil, ← this]
  | cons q post ih =>
    intro pre rs outH Z hu hi hz hb
    have hid : q.id ≠ 0 := hi.ids q (by simp)
    rw [List.cons_append, encodeGo, if_neg hid]
    rcases encodeOne_ok L H srch hsr inp org hs ho pre post rs q hu outH k hi (fileWrite f0 4096 Z) (by rw [hz]; exact hb) with ⟨e, eb⟩ | ⟨r, z, e, c, hz2, zb⟩
    · rw [e]; exact .inl ⟨rfl, by rw [List.map_cons, List.sum_cons]; omega⟩
    · rw [e]
      simp only
      rw [hz, fileWrite_append]
      have hcs := c.size (good_stored hs.good hs.small hu).2
      have hi2 := inv_replace hi c.id
      rcases ih (pre ++ [q]) (rs ++ [r]) { outH with parts := rs ++ r :: post ++ List.replicate k PartHdr.zero } (Z ++ z) (by rw [hu]; simp)
        (by rw [show rs ++ [r] ++ post = rs ++ r :: post from by simp]; exact hi2) (by simp [hz, hcs]) (by rw [List.length_append]; omega) with ⟨e, eb⟩ | ⟨rs', Z', e, c'⟩
      · exact .inl ⟨e, by rw [List.length_append] at eb; rw [List.map_cons, List.sum_cons]; omega⟩
      · right
        refine ⟨r :: rs', z ++ Z', ?_, .cons c c'⟩
        rw [e]
        simp

/-! ### decoding -/

omit [LzmaLib] in
theorem readChunks_ne (d : Bytes) : ∀ x ∈ readChunks d, x ≠ [] := by
  induction h : d.length using Nat.strongRecOn generalizing d with
  | ind n ih =>
    intro x hx
    rw [readChunks.eq_def] at hx
    split at hx
    · cases hx
    · rename_i hd
      have := List.length_pos_iff.2 hd
      rcases List.mem_cons.1 hx with rfl | hx
      · intro e
        have := congrArg List.length e
        rw [List.length_take, List.length_nil] at this; omega
      · exact ih (d.drop 4096).length (by simp; omega) _ rfl x hx

omit [LzmaLib] in
theorem readChunks_flatten (d : Bytes) : (readChunks d).flatten = d := by
  induction h : d.length using Nat.strongRecOn generalizing d with
  | ind n ih =>
    rw [readChunks.eq_def]
    split
    · rename_i hd; rw [hd]; rfl
    · rename_i hd
      have := List.length_pos_iff.2 hd
      rw [List.flatten_cons, ih (d.drop 4096).length (by simp; omega) _ rfl, List.take_append_drop]

omit [LzmaLib] in
theorem readChunks_step (f : Bytes) (p n : Nat) (hn : n ≠ 0) (h : p + n ≤ f.length) :
    readChunks (fileRead f p n) = fileRead f p (min n 4096) :: readChunks (fileRead f (p + min n 4096) (n - min n 4096)) := by
  have hl := fileRead_len h
  rw [readChunks.eq_def, dif_neg (by intro e; rw [e] at hl; simp at hl; omega)]
  unfold fileRead
  rw [List.take_take, List.drop_take, List.drop_drop]
  by_cases hc : n ≤ 4096
  · rw [Nat.min_eq_left (a := n) hc, Nat.min_eq_right hc, Nat.sub_eq_zero_of_le hc, Nat.sub_self]
    simp
  · rw [Nat.min_eq_left (a := 4096) (by omega), Nat.min_eq_right (a := n) (by omega)]

theorem feed_plain (inp : Bytes) (n : Nat) : ∀ (d : TDec) (pos : Nat) (c : PatchCfg) (p p' : Patcher), d.dec = .plain c p → d.out = p.out → pos + n ≤ inp.length →
    bspatchRun c p (readChunks (fileRead inp pos n)) = .ok p' → feedPart inp d pos n = .ok ({ d with dec := .plain c p', out := p'.out }, pos + n) := by
  induction n using Nat.strongRecOn with
  | ind n ih =>
    intro d pos c p p' hd hout hl hr
    rw [feedPart.eq_def]
    split
    · rename_i hn
      subst hn
      have : fileRead inp pos 0 = [] := by simp [fileRead]
      rw [this, readChunks.eq_def, dif_pos rfl, bspatchRun] at hr
      injection hr with hr
      subst hr
      rw [Nat.add_zero, ← hd, ← hout]
    · rename_i hn
      have hlm := fileRead_len (f := inp) (p := pos) (n := min n 4096) (by omega)
      rw [if_neg (by omega)]
      rw [readChunks_step _ _ _ hn hl, bspatchRun] at hr
      unfold decodeWrite
      rw [hd]
      simp only
      cases hw : bspatchWrite c p (fileRead inp pos (min n 4096)) with
      | ub => rw [hw] at hr; cases hr
      | hang => rw [hw] at hr; cases hr
      | ret e q =>
        rw [hw] at hr
        cases e <;> first
          | (simp only [PRes.out] at hr
             simp only
             rw [ih (n - min n 4096) (by omega) _ _ c q p' rfl rfl (by omega) hr]
             simp only
             congr 2; omega)
          | (simp only [PRes.out] at hr; cases hr)

theorem feed_hs (inp : Bytes) (N n : Nat) : ∀ (d : TDec) (pos : Nat) (c : PatchCfg) (s s' : HsPatch), d.dec = .hs c N s → d.out = s.p.out → pos + n ≤ inp.length →
    hsRun c N s (readChunks (fileRead inp pos n)) = .ok s' → feedPart inp d pos n = .ok ({ d with dec := .hs c N s', out := s'.p.out }, pos + n) := by
  induction n using Nat.strongRecOn with
  | ind n ih =>
    intro d pos c s s' hd hout hl hr
    rw [feedPart.eq_def]
    split
    · rename_i hn
      subst hn
      have : fileRead inp pos 0 = [] := by simp [fileRead]
      rw [this, readChunks.eq_def, dif_pos rfl, hsRun] at hr
      injection hr with hr
      subst hr
      rw [Nat.add_zero, ← hd, ← hout]
    · rename_i hn
      have hlm := fileRead_len (f := inp) (p := pos) (n := min n 4096) (by omega)
      rw [if_neg (by omega)]
      rw [readChunks_step _ _ _ hn hl, hsRun] at hr
      unfold decodeWrite
      rw [hd]
      simp only
      cases hw : hsWrite c N s (fileRead inp pos (min n 4096)) with
      | ub => rw [hw] at hr; cases hr
      | hang => rw [hw] at hr; cases hr
      | fail e => rw [hw] at hr; cases hr
      | ok q =>
        rw [hw] at hr
        simp only at hr ⊢
        rw [ih (n - min n 4096) (by omega) _ _ c q s' rfl rfl (by omega) hr]
        simp only
        congr 2; omega

theorem feed_lzma (inp : Bytes) (n : Nat) : ∀ (d : TDec) (pos : Nat) (c : PatchCfg) (s s' : LzPatch), d.dec = .lzma c s → d.out = s.p.out → pos + n ≤ inp.length →
    lzPatchRun c s (readChunks (fileRead inp pos n)) = .ok s' → feedPart inp d pos n = .ok ({ d with dec := .lzma c s', out := s'.p.out }, pos + n) := by
  induction n using Nat.strongRecOn with
  | ind n ih =>
    intro d pos c s s' hd hout hl hr
    rw [feedPart.eq_def]
    split
    · rename_i hn
      subst hn
      have : fileRead inp pos 0 = [] := by simp [fileRead]
      rw [this, readChunks.eq_def, dif_pos rfl, lzPatchRun] at hr
      injection hr with hr
      subst hr
      rw [Nat.add_zero, ← hd, ← hout]
    · rename_i hn
      have hlm := fileRead_len (f := inp) (p := pos) (n := min n 4096) (by omega)
      rw [if_neg (by omega)]
      rw [readChunks_step _ _ _ hn hl, lzPatchRun] at hr
      unfold decodeWrite
      rw [hd]
      simp only
      cases hw : lzPatchWrite c s (fileRead inp pos (min n 4096)) with
      | ub => rw [hw] at hr; cases hr
      | hang => rw [hw] at hr; cases hr
      | fail e => rw [hw] at hr; cases hr
      | ok q =>
        rw [hw] at hr
        simp only at hr ⊢
        rw [ih (n - min n 4096) (by omega) _ _ c q s' rfl rfl (by omega) hr]
        simp only
        congr 2; omega

theorem feed_copy (inp : Bytes) (n : Nat) (q : PartHdr) : ∀ (d : TDec) (pos : Nat), d.dec = .idle → d.decoderId = 0 → d.hdr.parts[d.part]? = some q → pos + n ≤ inp.length →
    (streamOff d.hdr q d.outOff).toNat + d.copyOff + n < 2^63 →
    feedPart inp d pos n = .ok ({ d with copyOff := d.copyOff + n, out := fileWrite d.out ((streamOff d.hdr q d.outOff).toNat + d.copyOff) (fileRead inp pos n) }, pos + n) := by
  induction n using Nat.strongRecOn with
  | ind n ih =>
    intro d pos h1 h2 h3 hl hb
    rw [feedPart.eq_def]
    split
    · rename_i hn
      subst hn
      have : fileRead inp pos 0 = [] := by simp [fileRead]
      rw [this, fileWrite_nil, Nat.add_zero, Nat.add_zero]
    · rename_i hn
      have hlm := fileRead_len (f := inp) (p := pos) (n := min n 4096) (by omega)
      rw [if_neg (by omega)]
      unfold decodeWrite
      rw [h1]
      simp only
      rw [if_pos h2, h3]
      simp only
      have hoff : (streamOff d.hdr q d.outOff + BitVec.ofNat 64 d.copyOff).toNat = (streamOff d.hdr q d.outOff).toNat + d.copyOff := by
        rw [BitVec.toNat_add, BitVec.toNat_ofNat, Nat.mod_eq_of_lt (a := d.copyOff) (by omega), Nat.mod_eq_of_lt (by omega)]
      rw [hoff, if_neg (by omega), hlm]
      simp only
      rw [ih (n - min n 4096) (by omega) _ _ (by rfl) (by exact h2) (by exact h3) (by omega) (by simp only; omega)]
      simp only
      have := fileWrite_append d.out ((streamOff d.hdr q d.outOff).toNat + d.copyOff) (fileRead inp pos (min n 4096)) (fileRead inp (pos + min n 4096) (n - min n 4096))
      rw [hlm, ← fileRead_add] at this
      rw [← Nat.add_assoc, this, show min n 4096 + (n - min n 4096) = n from by omega, show d.copyOff + min n 4096 + (n - min n 4096) = d.copyOff + n from by omega,
        show pos + min n 4096 + (n - min n 4096) = pos + n from by omega]

omit [LzmaLib] in
theorem fileWrite_take (f : Bytes) (pos k : Nat) (d : Bytes) (h1 : k ≤ pos) (h2 : k ≤ f.length) : (fileWrite f pos d).take k = f.take k := by
  unfold fileWrite
  split
  · rfl
  · rw [List.append_assoc, List.append_assoc, List.take_append_of_le_length (by rw [List.length_take]; omega), List.take_take, Nat.min_eq_left h1]

omit [LzmaLib] in
theorem fileRead_take (f : Bytes) (p n k : Nat) (h : p + n ≤ k) : fileRead (f.take k) p n = fileRead f p n := by
  unfold fileRead
  rw [List.drop_take, List.take_take, Nat.min_eq_left (by omega)]

/-- The parts of the tree builder's state that stay, and the file in front of the tree. -/
def TreeKeeps (m : Merkle) (s : Bytes) (m' : Merkle) (s' : Bytes) : Prop :=
  m'.offset = m.offset ∧ m'.treeLen = m.treeLen ∧ s.length ≤ s'.length ∧ s'.take m.offset = s.take m.offset

omit [LzmaLib] in
theorem TreeKeeps.trans {m m' m'' : Merkle} {s s' s'' : Bytes} (a : TreeKeeps m s m' s') (b : TreeKeeps m' s' m'' s'') : TreeKeeps m s m'' s'' := by
  obtain ⟨a1, a2, a3, a4⟩ := a
  obtain ⟨b1, b2, b3, b4⟩ := b
  refine ⟨by rw [b1, a1], by rw [b2, a2], by omega, ?_⟩
  rw [← a4, ← a1]; exact b4

omit [LzmaLib] in
theorem merkleWriteGo_keeps (H : HashFn) (k : Nat) : ∀ (m : Merkle) (s d : Bytes) (m' : Merkle) (s' : Bytes), m.offset ≤ s.length →
    merkleWriteGo H fileIo k m s d = .ok (m', s') → TreeKeeps m s m' s' := by
  induction k with
  | zero =>
    intro m s d m' s' hl h
    rw [merkleWriteGo] at h
    split at h
    · injection h with h; obtain ⟨rfl, rfl⟩ := Prod.mk.inj h; exact ⟨rfl, rfl, Nat.le_refl _, rfl⟩
    · cases h
  | succ k ih =>
    intro m s d m' s' hl h
    rw [merkleWriteGo] at h
    split at h
    · injection h with h; obtain ⟨rfl, rfl⟩ := Prod.mk.inj h; exact ⟨rfl, rfl, Nat.le_refl _, rfl⟩
    · simp only [fileIo] at h
      generalize hm1 : (if m.blockCounter = 4096 then { m with running := hashUpdate ⟨hashSha256, []⟩ m.salt } else m) = m1 at h
      have e1 : m1.offset = m.offset ∧ m1.treeLen = m.treeLen := by rw [← hm1]; split <;> exact ⟨rfl, rfl⟩
      split at h
      · split at h
        · injection h with h
          obtain ⟨rfl, rfl⟩ := Prod.mk.inj h
          exact ⟨e1.1, e1.2, fileWrite_ge_length _ _ _, fileWrite_take _ _ _ _ (by omega) hl⟩
        · have := ih _ _ _ _ _ (by simp only; rw [e1.1]; exact Nat.le_trans hl (fileWrite_ge_length _ _ _)) h
          refine TreeKeeps.trans ?_ this
          exact ⟨e1.1, e1.2, fileWrite_ge_length _ _ _, fileWrite_take _ _ _ _ (by omega) hl⟩
      · have := ih _ _ _ _ _ (by simp only; rw [e1.1]; exact hl) h
        refine TreeKeeps.trans ?_ this
        exact ⟨e1.1, e1.2, Nat.le_refl _, rfl⟩

omit [LzmaLib] in
theorem generateFeed_eq (H : HashFn) (n : Nat) : ∀ (m : Merkle) (out : Bytes) (off : Nat), off + n ≤ m.offset → m.offset ≤ out.length →
    generateFeed H m out off n = merkleWriteAll H fileIo m out (readChunks (fileRead out off n)) ∧
    (∀ m' out', generateFeed H m out off n = .ok (m', out') → TreeKeeps m out m' out') := by
  induction n using Nat.strongRecOn with
  | ind n ih =>
    intro m out off h1 h2
    rw [generateFeed.eq_def]
    split
    · rename_i hn
      subst hn
      have : fileRead out off 0 = [] := by simp [fileRead]
      rw [this, readChunks.eq_def, dif_pos rfl, merkleWriteAll]
      exact ⟨rfl, fun m' out' h => by injection h with h; obtain ⟨rfl, rfl⟩ := Prod.mk.inj h; exact ⟨rfl, rfl, Nat.le_refl _, rfl⟩⟩
    · rename_i hn
      rw [if_neg (by rw [fileRead_len (by omega)]; simp), readChunks_step _ _ _ hn (by omega), merkleWriteAll]
      cases hw : merkleWriteChunk H fileIo m out (fileRead out off (min n 4096)) with
      | error e => exact ⟨rfl, fun _ _ h => by cases h⟩
      | ok r =>
        obtain ⟨m1, out1⟩ := r
        simp only
        have k1 := merkleWriteGo_keeps H _ _ _ _ _ _ h2 hw
        obtain ⟨a, b, c, d⟩ := k1
        have hr : fileRead out1 (off + min n 4096) (n - min n 4096) = fileRead out (off + min n 4096) (n - min n 4096) := by
          rw [← fileRead_take out1 _ _ m.offset (by omega), d, fileRead_take _ _ _ _ (by omega)]
        obtain ⟨i1, i2⟩ := ih (n - min n 4096) (by omega) m1 out1 (off + min n 4096) (by omega) (by omega)
        rw [hr] at i1
        exact ⟨i1, fun m' out' h => TreeKeeps.trans ⟨a, b, c, d⟩ (i2 _ _ h)⟩

omit [LzmaLib] in
/-- Rebuilding a hash tree behind its data. -/
theorem generate_core (H : HashFn) (hH : HashLen H) (out salt : Bytes) (off n tOff : Nat) (h1 : off + n ≤ tOff) (h2 : tOff ≤ out.length) (hsalt : salt.length = 32)
    (hs : TreeSupported n) :
    ∃ m out0 m1 out1 r, merkleInit fileIo out n salt tOff true = .ok (m, out0) ∧ generateFeed H m out0 off n = .ok (m1, out1) ∧
      merkleFinish H fileIo m1 out1 = .ok (r, fileWrite out tOff (hashTree H salt (fileRead out off n))) ∧
      m1.treeLen = (hashTree H salt (fileRead out off n)).length := by
  have hl := fileRead_len (f := out) (p := off) (n := n) (by omega)
  have hb := merkleBuild_spec H hH out tOff salt (fileRead out off n) (readChunks (fileRead out off n)) (readChunks_flatten _) (by omega) (by rw [hl]; exact hs)
  rw [hl] at hb
  have hsz := C29_tree_size H hH salt (fileRead out off n) (by rw [hl]; exact hs)
  rw [hl] at hsz
  unfold merkleBuild at hb
  cases hi : merkleInit fileIo out n salt tOff true with
  | error e => rw [hi] at hb; cases hb
  | ok r =>
    obtain ⟨m, out0⟩ := r
    rw [hi] at hb
    simp only at hb
    have hk : m.offset = tOff ∧ m.treeLen = treeSize (n / 4096) ∧ out.length ≤ out0.length ∧ out0.take tOff = out.take tOff := by
      obtain ⟨s1, s2, s3⟩ := hs
      unfold merkleInit at hi
      rw [if_neg (by omega), if_neg (by omega), merkleLevelsGo_eq _ s1, if_neg (by omega)] at hi
      simp only [if_true] at hi
      have hmult : (iterLens (levelCount (n / 4096)) n).sum % 32 = 0 := by
        have := sum_mult _ (fun l hl => iterLens_mult (levelCount (n / 4096)) n l hl)
        omega
      rw [zeroFill_file _ _ _ hmult] at hi
      simp only at hi
      injection hi with hi
      obtain ⟨rfl, rfl⟩ := Prod.mk.inj hi
      exact ⟨rfl, iterLens_sum n ⟨s1, s2, s3⟩, fileWrite_ge_length _ _ _, fileWrite_take _ _ _ _ (Nat.le_refl _) h2⟩
    obtain ⟨k1, k2, k3, k4⟩ := hk
    obtain ⟨g1, g2⟩ := generateFeed_eq H n m out0 off (by omega) (by omega)
    have hr : fileRead out0 off n = fileRead out off n := by rw [← fileRead_take out0 _ _ tOff h1, k4, fileRead_take _ _ _ _ h1]
    rw [hr] at g1
    rw [← g1] at hb
    cases hg : generateFeed H m out0 off n with
    | error e => rw [hg] at hb; cases hb
    | ok r =>
      obtain ⟨m1, out1⟩ := r
      rw [hg] at hb
      simp only at hb
      refine ⟨m, out0, m1, out1, _, rfl, hg, hb, ?_⟩
      rw [(g2 _ _ hg).2.1, k2]
      obtain ⟨s1, s2, s3⟩ := hs
      rw [merkleComputeSize_eq, if_neg (by omega), if_neg (by omega)] at hsz
      injection hsz

omit [LzmaLib] in
theorem streamOff_4096 (h : Header) (q : PartHdr) : streamOff h q 4096 = partOffset h q := by
  unfold streamOff; exact BitVec.sub_add_cancel _ _

omit [LzmaLib] in
theorem markDecoded_plain (q : PartHdr) (n : Nat) (h1 : q.transportSize = 0) (h2 : q.flags &&& 2 = 0) : markDecoded q = q ∧ markDecoded (markEncoded q n) = q := by
  have e1 : q.flags &&& ~~~2 = q.flags := by
    have : q.flags &&& ~~~2 = (q.flags &&& 2) ||| (q.flags &&& ~~~2) := by rw [h2]; simp
    rw [this]
    ext i hi
    simp only [BitVec.getElem_or, BitVec.getElem_and, BitVec.getElem_not]
    cases q.flags[i] <;> cases (2 : U8)[i] <;> rfl
  have e2 : (q.flags ||| 2) &&& ~~~2 = q.flags := by
    rw [← e1]
    ext i hi
    simp only [BitVec.getElem_or, BitVec.getElem_and, BitVec.getElem_not]
    cases q.flags[i] <;> cases (2 : U8)[i] <;> rfl
  unfold markDecoded markEncoded
  constructor
  · rw [e1, ← h1]
  · simp only; rw [e2, ← h1]

omit [LzmaLib] in
theorem markEncoded_isTransport (q : PartHdr) (n : Nat) : (markEncoded q n).isTransport = true := by
  rw [isTransport_iff]
  unfold markEncoded
  intro h
  have := congrArg (fun b : U8 => b.getLsbD 1) h
  simp at this

omit [LzmaLib] in
theorem getMeta_parts (h : Header) (ps : List PartHdr) (id ref : U32) : getMeta { h with parts := ps } id ref = getMeta h id ref := rfl

omit [LzmaLib] in
theorem transportWord_parts (h : Header) (ps : List PartHdr) (j : Slot) (d : Nat) : transportWord { h with parts := ps } j d = transportWord h j d := rfl

/-- The decoder of lib/pkg.c between two parts. -/
def between (h : Header) (org : Option Pkg) (out : Bytes) (part : Slot) (id : U32) (dec : Decoder) (copy : Nat) : TDec :=
  ⟨h, 4096, 2048, org.map (fun o => (o.hdr, o.file, 4096)), part, id, dec, copy, out⟩

theorem finish_ok (H : HashFn) (d : TDec) (q r : PartHdr) (hr : d.hdr.parts[d.part]? = some r) (out : Bytes) (n : Nat) (hd : decodedLength H d r = .ok (out, n))
    (hn : n = storedSize q) (hn2 : storedSize q < 2^63) (h2 : q.flags &&& 2 = 0) (hs : r.size = q.size) (hp : r.padBytes = q.padBytes) :
    decodeFinish H d = .ok { d with hdr := { d.hdr with parts := d.hdr.parts.modify d.part markDecoded }, out := fileWrite out 0 { d.hdr with parts := d.hdr.parts.modify d.part markDecoded }.image } := by
  unfold decodeFinish
  rw [hr]
  simp only
  rw [hd]
  simp only
  have : storedSize q = q.size.toNat + q.padBytes.toNat := by unfold storedSize; rw [if_neg (fun e => e h2)]
  rw [if_neg (by omega), if_neg]
  rw [hs, hp, BitVec.toNat_add, BitVec.toNat_setWidth, Nat.mod_eq_of_lt (a := q.padBytes.toNat) (by omega), Nat.mod_eq_of_lt (by omega)]
  simp; omega

omit [LzmaLib] in
theorem fileRead_behind (a f : Bytes) (n k m : Nat) (ha : a.length = 4096) (h : k + m ≤ n) : fileRead (a ++ fileRead f 4096 n) (4096 + k) m = fileRead f (4096 + k) m := by
  rw [← fileRead_fileRead f 4096 n k m h]
  unfold fileRead
  rw [List.drop_append, List.drop_eq_nil_of_le (as := a) (by omega), ha, Nat.add_sub_cancel_left, List.nil_append]

theorem decodeOne_ok (H : HashFn) (hH : HashLen H) (inp : Pkg) (org : Option Pkg) (hs : Sendable H inp org.isSome) (ho : ∀ o, org = some o → OriginFor inp o)
    (pre post rs : List PartHdr) (q r : PartHdr) (z : Bytes) (hu : usedParts inp.hdr = pre ++ q :: post) (hc : Coded inp org q r z) (k : Nat)
    (h h' : Header) (hh : h = { inp.hdr with parts := pre ++ r :: rs ++ List.replicate k PartHdr.zero }) (hh' : h' = { inp.hdr with parts := pre ++ q :: rs ++ List.replicate k PartHdr.zero })
    (hi : PartInv h (pre ++ r :: rs) k)
    (ef : Bytes) (pos : Nat) (hpos : pos + z.length ≤ ef.length) (hz : fileRead ef pos z.length = z)
    (out : Bytes) (part : Slot) (id : U32) (dec : Decoder) (copy : Nat) (hout : out.drop 4096 = fileRead inp.file 4096 (pre.map storedSize).sum) :
    ∃ part' id' dec' copy' out', decodeOne H ef (between h org out part id dec copy) pre.length r pos =
      .ok (between h' org out' part' id' dec' copy', pos + z.length) ∧
      out' = h'.image ++ fileRead inp.file 4096 ((pre ++ [q]).map storedSize).sum := by
  have g := hs.good
  have hsm := hs.small
  obtain ⟨o1, o2, o3⟩ := good_part g hs.small hu
  obtain ⟨b1, b2⟩ := good_stored g hs.small hu
  have hq2 := g.plain q (by rw [hu]; simp)
  have hts := hs.fresh q (by rw [hu]; simp)
  have hcs := hc.size b2
  have hid := hc.id
  have hslot := (getPart_used hi pre rs r rfl).2
  have hoff := offset_at hi r rfl (by omega)
  have hoffq : ∀ h : Header, partOffset h r = partOffset h q := by intro h; unfold partOffset; rw [hid]
  have hmod : h.parts.modify pre.length markDecoded = pre ++ markDecoded r :: rs ++ List.replicate k PartHdr.zero := by
    rw [hh]
    simp only
    rw [List.append_assoc, List.cons_append, modify_append_cons]; simp
  have hmd : markDecoded r = q := by
    cases hc with
    | copied => exact (markDecoded_plain q 0 hts hq2).1
    | plain => exact (markDecoded_plain q _ hts hq2).2
    | hs => exact (markDecoded_plain q _ hts hq2).2
    | lzma => exact (markDecoded_plain q _ hts hq2).2
    | tree => exact (markDecoded_plain q _ hts hq2).2
  have hsz : r.size = q.size ∧ r.padBytes = q.padBytes := by cases hc <;> exact ⟨rfl, rfl⟩
  rw [hmd] at hmod
  have hwf : ∀ ps : List PartHdr, ps.length = 32 → { inp.hdr with parts := ps }.image.length = 4096 := fun ps h => image_length (withParts_wf g.wf _ h)
  have hlen : (pre ++ r :: rs ++ List.replicate k PartHdr.zero).length = 32 := by
    have := hi.len
    rw [List.length_append, List.length_replicate]; exact this
  have hlen' : (pre ++ q :: rs ++ List.replicate k PartHdr.zero).length = 32 := by
    rw [← hlen]; simp
  have hil : h.image.length = 4096 := by rw [hh]; exact hwf _ hlen
  have hil' : h'.image.length = 4096 := by rw [hh']; exact hwf _ hlen'
  have hcat : fileRead inp.file 4096 ((pre ++ [q]).map storedSize).sum = fileRead inp.file 4096 (pre.map storedSize).sum ++ storedBytes inp q := by
    rw [List.map_append, List.sum_append, fileRead_add, b1]; simp
  have hl0 : (fileRead inp.file 4096 (pre.map storedSize).sum).length = (pre.map storedSize).sum := fileRead_len (by omega)
  have hw : ∀ (X : Bytes), X.drop 4096 = fileRead inp.file 4096 (pre.map storedSize).sum ++ storedBytes inp q →
      fileWrite X 0 h'.image =
      h'.image ++ fileRead inp.file 4096 ((pre ++ [q]).map storedSize).sum := by
    intro X hX
    rw [fileWrite_zero, hil', hX, hcat]
  have hbegin : fileWrite out 0 h.image =
      h.image ++ fileRead inp.file 4096 (pre.map storedSize).sum := by
    rw [fileWrite_zero, hil, hout]
  have himl := hil
  generalize hG : h.image ++ fileRead inp.file 4096 (pre.map storedSize).sum = G at hbegin
  have hGl : G.length = 4096 + (pre.map storedSize).sum := by rw [← hG, List.length_append, himl, hl0]
  have hGd : ∀ X, (fileWrite G (4096 + (pre.map storedSize).sum) X).drop 4096 = fileRead inp.file 4096 (pre.map storedSize).sum ++ X := by
    intro X
    rw [← hGl, fileWrite_end, ← hG, List.append_assoc, List.drop_append_of_le_length (by omega), List.drop_eq_nil_of_le (by omega), List.nil_append]
  have horg : originLacks (org.map (fun o => (o.hdr, o.file, (4096 : U64)))) r.id = false := by
    cases org with
    | none => rfl
    | some o =>
      have of := ho o rfl
      obtain ⟨opre, oq, opost, ou, oid, oe, on⟩ := origin_part of.good (of.has q (by rw [hu]; simp))
      unfold originLacks
      simp only [Option.map_some]
      rw [hid]; exact on
  unfold decodeOne between
  simp only
  rw [horg, if_neg (by simp)]
  have hhm : { h with parts := h.parts.modify pre.length markDecoded } = h' := by rw [hmod, hh, hh']
  unfold decodeStart
  simp only
  rw [hslot]
  simp only
  have hzl : z.length < 2^63 := by
    cases hc with
    | copied => omega
    | plain _ _ _ _ _ _ _ _ _ hz2 _ => exact hz2
    | hs _ _ _ _ _ _ _ _ _ hz2 _ => exact hz2
    | lzma _ _ _ _ _ _ _ _ _ hz2 _ => exact hz2
    | tree => simp
  have hps : (partSize r).toNat = z.length := by rw [partSize_stored r (by omega), hcs]
  have hmeta : ∀ i r, getMeta h i r = getMeta inp.hdr i r := by intro i r; rw [hh]; rfl
  have hword : ∀ j d, transportWord h j d = transportWord inp.hdr j d := by intro j d; rw [hh]; rfl
  have htr : q.isTransport = false := by
    cases hb : q.isTransport with
    | false => rfl
    | true => exact absurd hq2 ((isTransport_iff q).1 hb)
  have key : ∀ (d : TDec) (X : Bytes), d.hdr = h → d.part = pre.length → decodedLength H d r = .ok (X, storedSize q) →
      X = fileWrite G (4096 + (pre.map storedSize).sum) (storedBytes inp q) →
      decodeFinish H d = .ok { d with hdr := h', out := h'.image ++ fileRead inp.file 4096 ((pre ++ [q]).map storedSize).sum } := by
    intro d X d1 d2 d3 d4
    rw [finish_ok H d q r (by rw [d1, d2]; exact hslot) X _ d3 rfl (by omega) hq2 hsz.1 hsz.2, d1, d2]
    rw [hhm, hw X (by rw [d4]; exact hGd _)]
  cases hc with
  | copied no =>
    have e : decoderOf h q = some 0 := by unfold decoderOf; rw [htr, if_neg (by simp)]
    rw [e]
    simp only
    rw [hbegin, if_neg (by decide), if_pos (by decide)]
    simp only
    rw [hps, feed_copy ef _ q _ pos rfl rfl hslot hpos (by simp only; rw [streamOff_4096, hoff]; omega)]
    simp only
    rw [streamOff_4096, hoff, hz]
    rw [key _ (fileWrite G (4096 + (pre.map storedSize).sum) (storedBytes inp q)) rfl rfl]
    · exact ⟨_, _, _, _, _, rfl, rfl⟩
    · unfold decodedLength
      simp only
      rw [if_neg (by decide), if_pos (by trivial), o2]; rfl
    · rfl
  | plain o ho' j z k2 hj hw4 hk1 hk2 hz2 hd =>
    have e : decoderOf h (markEncoded q z.length) = some idBspatchNoComp := by
      unfold decoderOf
      rw [markEncoded_isTransport, if_pos rfl, hmeta, show (markEncoded q z.length).id = q.id from rfl, hj]
      simp only
      rw [hword, hw4]
    rw [e]
    simp only
    subst ho'
    simp only [Option.map_some]
    rw [hbegin, if_pos (by decide), streamOff_4096, streamOff_4096, hoff, hoffq, if_neg (by omega), if_neg (by decide), if_pos (by trivial)]
    simp only
    have ek : (partOffset o.hdr q).toInt = (k2 : Int) := by rw [hk1, BitVec.toInt_eq_toNat_of_lt (by omega)]
    rw [ek, hps]
    obtain ⟨p, p1, p2, p3⟩ := hd G (4096 + (pre.map storedSize).sum) (readChunks z) (readChunks_flatten z) (readChunks_ne z)
    rw [feed_plain ef _ _ pos ⟨originRead o.file, k2, 4096 + (pre.map storedSize).sum, 2048⟩ (Patcher.init G) p rfl rfl hpos (by rw [hz]; exact p1)]
    simp only
    rw [key _ p.out rfl rfl]
    · exact ⟨_, _, _, _, _, rfl, rfl⟩
    · unfold decodedLength
      simp only
      rw [p3, b2]
    · exact p2
  | hs o ho' j z k2 hj hw4 hk1 hk2 hz2 hd =>
    have e : decoderOf h (markEncoded q z.length) = some idBspatch := by
      unfold decoderOf
      rw [markEncoded_isTransport, if_pos rfl, hmeta, show (markEncoded q z.length).id = q.id from rfl, hj]
      simp only
      rw [hword, hw4]
    rw [e]
    simp only
    subst ho'
    simp only [Option.map_some]
    rw [hbegin, if_pos (by decide), streamOff_4096, streamOff_4096, hoff, hoffq, if_neg (by omega), if_pos (by trivial)]
    simp only
    have ek : (partOffset o.hdr q).toInt = (k2 : Int) := by rw [hk1, BitVec.toInt_eq_toNat_of_lt (by omega)]
    rw [ek, hps]
    obtain ⟨p, p1, p2, p3⟩ := hd G (4096 + (pre.map storedSize).sum) (readChunks z) (readChunks_flatten z) (readChunks_ne z)
    rw [feed_hs ef _ _ _ pos ⟨originRead o.file, k2, 4096 + (pre.map storedSize).sum, 2048⟩ (HsPatch.init G) p rfl rfl hpos (by rw [hz]; exact p1)]
    simp only
    rw [key _ p.p.out rfl rfl]
    · exact ⟨_, _, _, _, _, rfl, rfl⟩
    · unfold decodedLength
      simp only
      rw [p3, b2]
    · exact p2
  | lzma o ho' j z k2 hj hw4 hk1 hk2 hz2 hd =>
    have e : decoderOf h (markEncoded q z.length) = some idBspatchLzma := by
      unfold decoderOf
      rw [markEncoded_isTransport, if_pos rfl, hmeta, show (markEncoded q z.length).id = q.id from rfl, hj]
      simp only
      rw [hword, hw4]
    rw [e]
    simp only
    subst ho'
    simp only [Option.map_some]
    rw [hbegin, if_pos (by decide), streamOff_4096, streamOff_4096, hoff, hoffq, if_neg (by omega), if_neg (by decide), if_neg (by decide)]
    simp only
    have ek : (partOffset o.hdr q).toInt = (k2 : Int) := by rw [hk1, BitVec.toInt_eq_toNat_of_lt (by omega)]
    rw [ek, hps]
    obtain ⟨p, p', p1, p3, p2⟩ := hd G (4096 + (pre.map storedSize).sum) (readChunks z) (readChunks_flatten z) (readChunks_ne z)
    rw [feed_lzma ef _ _ pos ⟨originRead o.file, k2, 4096 + (pre.map storedSize).sum, 2048⟩ (LzPatch.init G) p rfl rfl hpos (by rw [hz]; exact p1)]
    simp only
    rw [key _ p'.p.out rfl rfl]
    · exact ⟨_, _, _, _, _, rfl, rfl⟩
    · unfold decodedLength
      simp only
      rw [p3, b2]
    · exact p2
  | tree j hj hw4 =>
    have e : decoderOf h (markEncoded q 0) = some idMerkleGenerate := by
      unfold decoderOf
      rw [markEncoded_isTransport, if_pos rfl, hmeta, show (markEncoded q 0).id = q.id from rfl, hj]
      simp only
      rw [hword, hw4]
    rw [e]
    simp only
    rw [hbegin, if_neg (by decide), if_pos (by decide)]
    simp only
    rw [hps, List.length_nil, feedPart.eq_def, dif_pos rfl]
    simp only
    obtain ⟨fs, salt, fpre, fpost, f1, f2, f3, f4, f5, f6⟩ : ∃ fs salt fpre fpost, pre = fpre ++ fs :: fpost ∧ partIdToHashTreeId fs.id = q.id ∧ HasEntry inp.hdr idMerkleSalt fs.id salt ∧ salt.length = 32 ∧
        TreeSupported (storedSize fs) ∧ storedBytes inp q = hashTree H salt (storedBytes inp fs) := by
      rcases hs.parts pre q post hu with no | ⟨enc, dec, tail, entry, algs, origin⟩ | ⟨tail, entry, fs, before, name, salt, saltE, saltL, size, bytes⟩
      · rw [getMeta_noEntry hs.metas g.wf (by decide) no] at hj; cases hj
      · exfalso
        obtain ⟨j', m, m1, m2, m3, m4, m5, m6, m7, m8⟩ := getMeta_entry hs.metas g.wf (by decide) entry
        obtain ⟨w1, w2⟩ := transportWords g.wf m2 m6 m8
        rw [m1] at hj
        injection hj with hj
        rw [← hj, w2] at hw4
        rcases algs with ⟨_, rfl⟩ | ⟨_, rfl⟩ | ⟨_, rfl⟩ <;> exact absurd hw4 (by decide)
      · obtain ⟨fpre, fpost, hf⟩ := List.append_of_mem before
        exact ⟨fs, salt, fpre, fpost, hf, name, saltE, saltL, size, bytes⟩
    have hfu : usedParts inp.hdr = fpre ++ fs :: (fpost ++ q :: post) := by rw [hu, f1]; simp
    have hfu2 : pre ++ markEncoded q 0 :: rs = fpre ++ fs :: (fpost ++ markEncoded q 0 :: rs) := by rw [f1]; simp
    obtain ⟨fo1, fo2, fo3⟩ := good_part g hs.small hfu
    obtain ⟨fb1, fb2⟩ := good_stored g hs.small hfu
    obtain ⟨fp1, fp2⟩ := getPart_used hi fpre _ fs hfu2
    have hsum : (pre.map storedSize).sum = (fpre.map storedSize).sum + storedSize fs + (fpost.map storedSize).sum := by
      rw [f1]; simp; omega
    have hfoff := offset_at (h := h) (by rw [← hfu2]; exact hi) fs rfl (by omega)
    have hfid : hashTreeIdToPartId h (markEncoded q 0).id = fs.id := by
      rw [show (markEncoded q 0).id = q.id from rfl, ← f2]
      refine C02_hash_tree_id_to_part_id h fs ?_
      rw [hh]
      simp only
      rw [hfu2]; simp
    obtain ⟨js, ms, s1, s2, s3, s4, s5, s6, s7, s8⟩ := getMeta_entry hs.metas g.wf (by decide) f3
    have hmh : metaHash h js = some salt := by
      unfold metaHash
      rw [show h.metas = inp.hdr.metas from by rw [hh], show h.metadata = inp.hdr.metadata from by rw [hh], s2]
      simp only
      rw [f4] at s6 s8
      rw [readAt_eq_some (by rw [g.wf.2.2.2.1]; omega), s8]
    have hread : fileRead G (4096 + (fpre.map storedSize).sum) (storedSize fs) = storedBytes inp fs := by
      rw [fb1, ← hG]
      exact fileRead_behind _ _ _ _ _ himl (by omega)
    obtain ⟨m, out0, m1, out1, r, c1, c2, c3, c4⟩ := generate_core H hH G salt (4096 + (fpre.map storedSize).sum) (storedSize fs) (4096 + (pre.map storedSize).sum) (by omega) (by omega) f4 f5
    rw [hread, ← f6] at c3 c4
    rw [key _ (fileWrite G (4096 + (pre.map storedSize).sum) (storedBytes inp q)) rfl rfl]
    · exact ⟨_, _, _, _, _, rfl, rfl⟩
    · unfold decodedLength
      simp only
      rw [if_pos (by trivial)]
      unfold merkleGenerate
      rw [hfid, if_neg (hi.ids fs (by rw [hfu2]; simp)), hmeta, s1]
      simp only
      rw [fp1]
      simp only
      rw [fp2, hmh]
      simp only
      rw [streamOff_4096, streamOff_4096, hoff, hfoff, if_neg (by omega), fo2, c1]
      simp only
      rw [c2]
      simp only
      rw [c3]
      simp only
      rw [c4, b2]
    · rfl

omit [LzmaLib] in
theorem inv_sameIds {h h' : Header} {ps ps' : List PartHdr} {k : Nat} (i : PartInv h ps k) (hid : ps'.map (·.id) = ps.map (·.id))
    (hs : h'.parts = ps' ++ List.replicate k PartHdr.zero) : PartInv h' ps' k := by
  have hlen : ps'.length = ps.length := by have := congrArg List.length hid; simpa using this
  refine ⟨hs, by rw [hlen]; exact i.len, ?_, ?_⟩
  · intro p hp
    have : p.id ∈ ps.map (·.id) := by rw [← hid]; exact List.mem_map.2 ⟨p, hp, rfl⟩
    obtain ⟨p', hp', e⟩ := List.mem_map.1 this
    rw [← e]; exact i.ids p' hp'
  · have h1 : (ps.map (·.id)).Pairwise (· ≠ ·) := List.pairwise_map.2 i.distinct
    rw [← hid] at h1
    exact List.pairwise_map.1 h1

theorem CodedAll.ids {inp : Pkg} {org : Option Pkg} {qs rs : List PartHdr} {Z : Bytes} (c : CodedAll inp org qs rs Z) : rs.map (·.id) = qs.map (·.id) := by
  induction c with
  | nil => rfl
  | cons h t ih => rw [List.map_cons, List.map_cons, ih, h.id]

theorem decodeGo_ok (H : HashFn) (hH : HashLen H) (inp : Pkg) (org : Option Pkg) (hs : Sendable H inp org.isSome) (ho : ∀ o, org = some o → OriginFor inp o)
    (ef : Bytes) (k : Nat) (post : List PartHdr) : ∀ (pre rs : List PartHdr) (Z : Bytes), usedParts inp.hdr = pre ++ post → CodedAll inp org post rs Z →
    PartInv inp.hdr (pre ++ post) k → ∀ (pos : Nat), pos + Z.length ≤ ef.length → fileRead ef pos Z.length = Z →
    ∀ (out : Bytes) (part : Slot) (id : U32) (dec : Decoder) (copy : Nat), out.drop 4096 = fileRead inp.file 4096 (pre.map storedSize).sum →
    ∃ d, decodeGo H ef (rs.length + k) (between { inp.hdr with parts := pre ++ rs ++ List.replicate k PartHdr.zero } org out part id dec copy) pre.length pos = .ok d ∧
      d.hdr = inp.hdr ∧ d.out = if post = [] then out else inp.hdr.image ++ fileRead inp.file 4096 ((usedParts inp.hdr).map storedSize).sum := by
  induction post with
  | nil =>
    intro pre rs Z hu hc hi pos hpos hz out part id dec copy hout
    cases hc
    have hsame : ({ inp.hdr with parts := pre ++ [] ++ List.replicate k PartHdr.zero } : Header) = inp.hdr := by rw [← hi.slots]
    rw [hsame]
    refine ⟨between inp.hdr org out part id dec copy, ?_, rfl, by rw [if_pos rfl]; rfl⟩
    · cases k with
      | zero => rfl
      | succ k =>
        rw [List.length_nil, Nat.zero_add, decodeGo]
        have : (between inp.hdr org out part id dec copy).hdr.parts[pre.length]? = some PartHdr.zero := by
          unfold between
          simp only
          rw [hi.slots]; simp [List.replicate_succ]
        rw [this]
        simp only
        rw [if_pos (show PartHdr.zero.id = 0 from rfl)]
  | cons q post ih =>
    intro pre rs Z hu hc hi pos hpos hz out part id dec copy hout
    obtain ⟨⟩ := hc
    rename_i r z rs Z t c
    have hid := c.ids
    have hi2 : PartInv { inp.hdr with parts := pre ++ r :: rs ++ List.replicate k PartHdr.zero } (pre ++ r :: rs) k :=
      inv_sameIds hi (by rw [List.map_append, List.map_append, List.map_cons, List.map_cons, hid, t.id]) rfl
    rw [List.length_append] at hpos hz
    rw [fileRead_add] at hz
    have hlz : (fileRead ef pos z.length).length = z.length := fileRead_len (by omega)
    obtain ⟨z1, z2⟩ := List.append_inj hz hlz
    obtain ⟨part', id', dec', copy', out', e, e2⟩ := decodeOne_ok H hH inp org hs ho pre post rs q r z hu t k _ { inp.hdr with parts := pre ++ q :: rs ++ List.replicate k PartHdr.zero } rfl rfl hi2 ef pos (by omega) z1 out part id dec copy hout
    rw [List.length_cons, show rs.length + 1 + k = rs.length + k + 1 from by omega, decodeGo]
    have hslot : (between { inp.hdr with parts := pre ++ r :: rs ++ List.replicate k PartHdr.zero } org out part id dec copy).hdr.parts[pre.length]? = some r := by
      unfold between
      simp
    rw [hslot]
    simp only
    rw [if_neg (hi2.ids r (by simp)), e]
    simp only
    have hdrop : out'.drop 4096 = fileRead inp.file 4096 ((pre ++ [q]).map storedSize).sum := by
      rw [e2]
      have : { inp.hdr with parts := pre ++ q :: rs ++ List.replicate k PartHdr.zero }.image.length = 4096 := by
        refine image_length (withParts_wf hs.good.wf _ ?_)
        have := hi2.len
        simp at this ⊢; omega
      rw [List.drop_append_of_le_length (by omega), List.drop_eq_nil_of_le (by omega), List.nil_append]
    obtain ⟨d, f1, f2, f3⟩ := ih (pre ++ [q]) rs Z (by rw [hu]; simp) c (by rw [List.append_assoc]; exact hi) (pos + z.length) (by omega) z2 out' part' id' dec' copy' hdrop
    have hassoc : pre ++ [q] ++ rs = pre ++ q :: rs := by simp
    rw [hassoc, List.length_append, List.length_singleton] at f1
    refine ⟨d, f1, f2, ?_⟩
    rw [f3, if_neg (List.cons_ne_nil q post)]
    split
    · rename_i hp
      subst hp
      cases c
      rw [e2, hu]
      have hsame : ({ inp.hdr with parts := pre ++ q :: [] ++ List.replicate k PartHdr.zero } : Header) = inp.hdr := by rw [← hi.slots]
      rw [hsame]
    · rfl

/-- The whole encoder. -/
theorem encode_ok (L : LzmaLaws) (H : HashFn) (srch : Bytes → Bytes → Int → Option (Int × Int)) (hsr : ∀ o n, SearchOk o n (srch o n)) (inp : Pkg) (org : Option Pkg)
    (hs : Sendable H inp org.isSome) (ho : ∀ o, org = some o → OriginFor inp o) (out : Bytes) :
    (transportEncode srch inp.hdr inp.file (org.map Pkg.pair) out = .fail .writeError ∧ 2^63 ≤ 29 * inp.file.length) ∨
    ∃ rs Z, transportEncode srch inp.hdr inp.file (org.map Pkg.pair) out =
        .ok ({ inp.hdr with parts := rs ++ List.replicate (32 - rs.length) PartHdr.zero }, fileWrite (fileWrite out 4096 Z) 0 { inp.hdr with parts := rs ++ List.replicate (32 - rs.length) PartHdr.zero }.image) ∧
      CodedAll inp org (usedParts inp.hdr) rs Z := by
  have g := hs.good
  have inv := g.parts.inv g.wf
  have hcheck : encodeOriginCheck inp.hdr (org.map Pkg.pair) = .ok () := by
    cases org with
    | none => rfl
    | some o =>
      obtain ⟨og, om, os, oh, u, ul, ui, uo⟩ := ho o rfl
      obtain ⟨i, m, m1, m2, m3, m4, m5, m6, m7, m8⟩ := getMeta_entry om og.wf (by decide) uo
      obtain ⟨j, n, n1, n2, n3, n4, n5, n6, n7, n8⟩ := getMeta_entry hs.metas g.wf (by decide) ui
      simp only [Option.map_some, Pkg.pair]
      unfold encodeOriginCheck
      simp only
      rw [m1]
      simp only
      rw [n1]
      simp only
      rw [metaBytes_at og.wf m2 m6 m8 0 16 (by omega), metaBytes_at g.wf n2 n6 n8 0 16 (by omega)]
      simp
  unfold transportEncode
  rw [hcheck]
  simp only
  rcases encodeGo_ok L H srch hsr inp org hs ho out (32 - (usedParts inp.hdr).length) (usedParts inp.hdr) [] [] inp.hdr [] (by simp) inv (by simp) (by simp) with ⟨e, eb⟩ | ⟨rs, Z, e, c⟩
  · rw [← inv.slots, fileWrite_nil] at e
    rw [e]
    refine .inl ⟨rfl, ?_⟩
    have hsum : ∀ l : List PartHdr, (l.map (fun q => 29 * storedSize q + 1100)).sum = 29 * (l.map storedSize).sum + 1100 * l.length := by
      intro l
      induction l with
      | nil => rfl
      | cons a l ih => rw [List.map_cons, List.sum_cons, ih, List.map_cons, List.sum_cons, List.length_cons]; omega
    rw [hsum] at eb
    have := g.exact
    have := inv.len
    simp only [List.length_nil] at eb
    omega
  · rw [← inv.slots, fileWrite_nil] at e
    rw [e]
    right
    have hl : rs.length = (usedParts inp.hdr).length := by have := congrArg List.length c.ids; simpa using this
    refine ⟨rs, Z, ?_, c⟩
    simp only [hl, List.nil_append]

end Bpak
