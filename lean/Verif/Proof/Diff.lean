import Verif.Spec.Patch
import Verif.Proof.Patch
namespace Bpak

/-! ### Integers on the wire -/

theorem bv8_or_high (n : Nat) (h : n < 128) : BitVec.ofNat 8 n ||| (0x80 : U8) = BitVec.ofNat 8 (n + 128) := by
  have : ∀ n : Fin 128, BitVec.ofNat 8 n.val ||| (0x80 : U8) = BitVec.ofNat 8 (n.val + 128) := by decide +kernel
  exact this ⟨n, h⟩

theorem offtout_eq (x : Int) (h : x.natAbs < 2^63) : offtout x = wireInt x := by
  unfold offtout wireInt
  have e8 : List.range 8 = [0,1,2,3,4,5,6,7] := rfl
  simp only [e8, List.map_cons, List.map_nil]
  by_cases hx : x < 0
  · simp only [hx, if_true]
    rw [bv8_or_high _ (by omega)]
    have ofn : ∀ a b : Nat, a % 256 = b % 256 → BitVec.ofNat 8 a = BitVec.ofNat 8 b := by
      intro a b hab
      apply BitVec.eq_of_toNat_eq
      simp [hab]
    simp only [List.cons.injEq, and_true]
    refine ⟨?_, ?_, ?_, ?_, ?_, ?_, ?_, ?_⟩ <;> apply ofn <;> omega
  · simp only [hx, if_false, BitVec.or_zero, Nat.add_zero]
    simp

theorem offtin_wireInt (x : Int) (h : x.natAbs < 2^63) : offtin (wireInt x) = x := by
  unfold offtin wireInt
  have e8 : List.range 8 = [0,1,2,3,4,5,6,7] := rfl
  simp only [e8, List.map_cons, List.map_nil, byteN, List.getD_cons_zero, List.getD_cons_succ, BitVec.toNat_ofNat]
  by_cases hx : x < 0
  · simp only [hx, if_true]
    rw [if_pos (by omega)]
    omega
  · simp only [hx, if_false]
    rw [if_neg (by omega)]
    omega

theorem wireInt_length (x : Int) : (wireInt x).length = 8 := by simp [wireInt]

theorem offtin_bound (b : Bytes) : (offtin b).natAbs < 2^63 := by
  unfold offtin byteN
  have h0 := (b.getD 0 0).isLt
  have h1 := (b.getD 1 0).isLt
  have h2 := (b.getD 2 0).isLt
  have h3 := (b.getD 3 0).isLt
  have h4 := (b.getD 4 0).isLt
  have h5 := (b.getD 5 0).isLt
  have h6 := (b.getD 6 0).isLt
  simp only
  split <;> omega

/-! ### The origin reader -/

theorem fileReader_law (f : Bytes) : RdLaw (fileReader f) where
  len := by
    intro p n x h
    unfold fileReader at h
    split at h
    · cases h
    · split at h
      · cases h; simp [*]
      · split at h
        · cases h; simp; omega
        · cases h
  app := by
    intro p a b
    unfold fileReader
    by_cases hp : p < 0
    · simp [hp]
    · simp only [hp, if_false]
      have hpa : ¬ p + (a : Int) < 0 := by omega
      simp only [hpa, if_false]
      by_cases ha : a = 0
      · subst ha
        simp only [Nat.zero_add, if_true, Option.bind_some, List.nil_append]
        simp
      · by_cases hb : b = 0
        · subst hb
          simp only [Nat.add_zero, if_true, Option.map_some, List.append_nil]
          cases (if a = 0 then some [] else if p.toNat + a ≤ f.length then some (List.take a (List.drop p.toNat f)) else none) <;> rfl
        · simp only [ha, hb, if_false, show a + b ≠ 0 by omega]
          rw [show (p + (a : Int)).toNat = p.toNat + a by omega]
          by_cases h1 : p.toNat + a ≤ f.length
          · simp only [h1, if_true, Option.bind_some]
            by_cases h2 : p.toNat + a + b ≤ f.length
            · rw [if_pos h2, if_pos (by omega)]
              simp only [Option.map_some, Option.some.injEq]
              rw [List.take_add, List.drop_drop]
            · rw [if_neg h2, if_neg (by omega)]; rfl
          · rw [if_neg h1, if_neg (by omega)]; rfl

/-- shifting an origin reader -/
theorem RdLaw.shift {rd : Int → Nat → Option Bytes} (h : RdLaw rd) (o : Int) : RdLaw (fun p n => rd (o + p) n) where
  len := fun p n x hx => h.len _ _ _ hx
  app := fun p a b => by rw [h.app, Int.add_assoc]

/-! ### Decoding encoded records -/

/-- ready for the next record at origin position `pos`, having output `w` after `f` -/
def Ready (c : PatchCfg) (f : Bytes) (pos : Int) (w : Bytes) (p : Patcher) : Prop :=
  PInv p ∧ ∃ q, settle c p = .ok q ∧ q.st = .fillCtrl ∧ q.ctrl = [] ∧ q.originPos = pos ∧
    q.outPos = w.length ∧ q.out = fileWrite f c.outOff w ∧ p.outPos = q.outPos ∧ p.out = q.out

theorem settle_idem {c : PatchCfg} {p q : Patcher} (h : settle c p = .ok q) : settle c q = .ok q := by
  unfold settle at h
  split at h
  · split at h
    · cases h
    · split at h
      · split at h
        · cases h
        · cases h
          rename_i h0 _ _ _
          unfold settle afterDiff
          rw [if_pos h0]
          split <;> simp [Patcher.nextRecord]
      · cases h
        unfold settle
        simp_all
  · cases h
    unfold settle
    simp_all

theorem foldBytes_settle {c : PatchCfg} {p q : Patcher} (h : settle c p = .ok q) (b : Bytes) (hb : b ≠ []) :
    foldBytes c p b = foldBytes c q b := by
  obtain ⟨x, b', rfl⟩ := List.exists_cons_of_ne_nil hb
  unfold foldBytes byteStep
  rw [h, settle_idem h]

theorem ready_nextRecord (c : PatchCfg) (f w : Bytes) (p : Patcher)
    (h1 : p.outPos = w.length) (h2 : p.out = fileWrite f c.outOff w) :
    Ready c f (p.originPos + p.adjust) w p.nextRecord := by
  refine ⟨pinv_nextRecord p, p.nextRecord, ?_, rfl, rfl, rfl, h1, h2, rfl, rfl⟩
  unfold settle Patcher.nextRecord; simp

theorem foldBytes_rec (c : PatchCfg) (hl : RdLaw c.rd) (f : Bytes) (pos : Int) (w : Bytes) (p : Patcher) (r : Rec)
    (hr : r.Small) (hp : Ready c f pos w p) (o : Bytes) (ho : c.rd (c.originOff + pos) r.diff.length = some o) :
    ∃ p', foldBytes c p (encodeRec r) = .ok p' ∧
      Ready c f (pos + r.diff.length + r.adjust) (w ++ (List.zipWith (· + ·) o r.diff ++ r.extra)) p' := by
  obtain ⟨hinv, q, hq, q1, q2, q3, q4, q5, -, -⟩ := hp
  obtain ⟨s1, s2, s3⟩ := hr
  have lo := hl.len _ _ _ ho
  unfold encodeRec
  generalize hhdr : wireInt r.diff.length ++ wireInt r.extra.length ++ wireInt r.adjust = hdr
  have hhl : hdr.length = 24 := by rw [← hhdr]; simp [wireInt_length]
  have hne : hdr ++ r.diff ++ r.extra ≠ [] := by
    intro h; have := congrArg List.length h; simp only [List.length_append, List.length_nil] at this; omega
  rw [foldBytes_settle hq _ hne, List.append_assoc, foldBytes_append,
    foldBytes_fill c q hdr q1 (by rw [q2]; simp; omega) (by rw [q2]; simp)]
  rw [if_pos (by rw [q2]; simpa using hhl)]
  simp only [POut.bind_ok, q2, List.nil_append]
  generalize hp1 : loadCtrl { q with ctrl := hdr } = p1
  have l8 := wireInt_length
  have t0 : hdr.take 8 = wireInt r.diff.length := by
    rw [← hhdr, List.append_assoc]; exact List.take_left' (l8 _)
  have t1 : (hdr.drop 8).take 8 = wireInt r.extra.length := by
    rw [← hhdr, List.append_assoc, List.drop_left' (l8 _)]; exact List.take_left' (l8 _)
  have t2 : (hdr.drop 16).take 8 = wireInt r.adjust := by
    rw [← hhdr, List.drop_left' (by simp [l8])]; exact List.take_of_length_le (by rw [l8]; omega)
  have d1 : p1.diff = r.diff.length := by
    rw [← hp1]; show offtin (hdr.take 8) = _; rw [t0, offtin_wireInt _ (by omega)]
  have d2 : p1.extra = r.extra.length := by
    rw [← hp1]; show offtin ((hdr.drop 8).take 8) = _; rw [t1, offtin_wireInt _ (by omega)]
  have d3 : p1.adjust = r.adjust := by
    rw [← hp1]; show offtin ((hdr.drop 16).take 8) = _; rw [t2, offtin_wireInt _ s3]
  have d4 : p1.st = .applyDiff := by rw [← hp1]; rfl
  have d5 : p1.originPos = pos := by rw [← hp1]; exact q3
  have d6 : p1.outPos = w.length := by rw [← hp1]; exact q4
  have d7 : p1.out = fileWrite f c.outOff w := by rw [← hp1]; exact q5
  clear hp1
  -- the diff phase: a context `p2` past the diff bytes
  have hrd0 : ∃ e, c.rd (c.originOff + (pos + r.diff.length)) 0 = some e := by
    have := hl.app (c.originOff + pos) r.diff.length 0
    rw [Nat.add_zero, ho] at this
    simp only [Option.bind_some] at this
    rw [← Int.add_assoc]
    cases h : c.rd (c.originOff + pos + r.diff.length) 0 with
    | none => rw [h] at this; cases this
    | some e => exact ⟨e, rfl⟩
  have key : ∃ p2 : Patcher, (∀ b, b ≠ [] → foldBytes c p1 (r.diff ++ b) = foldBytes c (afterDiff p2) b) ∧
      (∃ p2', foldBytes c p1 r.diff = .ok p2' ∧ settle c p2' = .ok (afterDiff p2) ∧ PInv p2' ∧ p2'.outPos = p2.outPos ∧ p2'.out = p2.out) ∧
      p2.st = .applyDiff ∧ p2.diff = 0 ∧ p2.extra = r.extra.length ∧ p2.adjust = r.adjust ∧
      p2.originPos = pos + r.diff.length ∧
      p2.outPos = (w ++ List.zipWith (· + ·) o r.diff).length ∧
      p2.out = fileWrite f c.outOff (w ++ List.zipWith (· + ·) o r.diff) := by
    have hpinv1 : PInv p1 := by constructor <;> rw [d4] <;> simp
    by_cases hd : r.diff = []
    · refine ⟨p1, ?_, ?_, d4, ?_, d2, d3, ?_, ?_, ?_⟩
      · intro b hb
        rw [hd, List.nil_append]
        apply foldBytes_settle _ b hb
        obtain ⟨e, he⟩ := hrd0
        unfold settle
        rw [hd] at d1 he
        have d1' : p1.diff = 0 := d1
        have he' : c.rd (c.originOff + pos) 0 = some e := by simpa using he
        rw [if_pos d4, if_neg (by rw [d1']; simp), if_pos d1', d5, he']
      · refine ⟨p1, by rw [hd]; rfl, ?_, hpinv1, rfl, rfl⟩
        obtain ⟨e, he⟩ := hrd0
        unfold settle
        rw [hd] at d1 he
        have d1' : p1.diff = 0 := d1
        have he' : c.rd (c.originOff + pos) 0 = some e := by simpa using he
        rw [if_pos d4, if_neg (by rw [d1']; simp), if_pos d1', d5, he']
      · rw [d1, hd]; rfl
      · rw [d5, hd]; simp
      · rw [d6, hd]; simp
      · rw [d7, hd]; simp
    · have hf := foldBytes_diff c hl p1 r.diff d4 hd (by rw [d1]; omega)
      rw [d5, ho] at hf
      simp only at hf
      generalize hp2 : ({ p1 with
          diff := p1.diff - r.diff.length
          originPos := pos + r.diff.length
          out := fileWrite p1.out (c.outOff + p1.outPos) (List.zipWith (· + ·) o r.diff)
          outPos := p1.outPos + r.diff.length } : Patcher) = p2 at hf
      have e0 : p2.diff = 0 := by rw [← hp2]; simp only; rw [d1]; omega
      have est : p2.st = .applyDiff := by rw [← hp2]; exact d4
      have hset : settle c (afterDiff p2) = .ok (afterDiff p2) := by
        unfold settle afterDiff; rw [if_pos e0]; split <;> simp [Patcher.nextRecord]
      refine ⟨p2, ?_, ⟨afterDiff p2, hf, hset, pinv_afterDiff est, ?_, ?_⟩, est, e0, ?_, ?_, ?_, ?_, ?_⟩
      · intro b hb
        rw [foldBytes_append, hf]
        rfl
      · unfold afterDiff; rw [if_pos e0]; split <;> rfl
      · unfold afterDiff; rw [if_pos e0]; split <;> rfl
      · rw [← hp2]; exact d2
      · rw [← hp2]; exact d3
      · rw [← hp2]
      · rw [← hp2]; simp only [List.length_append, List.length_zipWith, d6]; omega
      · rw [← hp2]
        show fileWrite p1.out _ _ = _
        rw [d6, d7, fileWrite_append]
  obtain ⟨p2, k1, ⟨p2', k2, k2b, k2c, k2d, k2e⟩, k3, k4, k5, k6, k7, k8, k9⟩ := key
  by_cases he : r.extra = []
  · -- no extra bytes
    rw [he, List.append_nil, List.append_nil]
    refine ⟨p2', k2, k2c, _, k2b, ?_⟩
    have : afterDiff p2 = p2.nextRecord := by
      unfold afterDiff; rw [if_pos k4, if_neg]; rw [k5, he]; simp
    rw [this]
    refine ⟨rfl, rfl, ?_, k8, k9, k2d, k2e⟩
    show p2.originPos + p2.adjust = _
    rw [k7, k6]
  · have hel : 0 < r.extra.length := List.length_pos_iff.2 he
    have ha : afterDiff p2 = { p2 with st := .applyExtra } := by
      unfold afterDiff; rw [if_pos k4, if_pos]; rw [k5]; omega
    rw [k1 r.extra he, ha, foldBytes_extra c _ r.extra rfl he (by simp only; rw [k5]; omega)]
    simp only
    rw [if_pos (by rw [k5]; omega)]
    refine ⟨_, rfl, ?_⟩
    rw [← k7, ← k6, ← List.append_assoc]
    refine ready_nextRecord c f _ _ ?_ ?_
    · show p2.outPos + r.extra.length = _
      rw [k8, List.length_append (bs := r.extra)]
    · show fileWrite p2.out (c.outOff + p2.outPos) r.extra = _
      rw [k8, k9, fileWrite_append]

theorem foldBytes_recs (c : PatchCfg) (hl : RdLaw c.rd) (f : Bytes) (rs : List Rec) (hs : ∀ r ∈ rs, r.Small)
    (pos : Int) (w : Bytes) (p : Patcher) (hp : Ready c f pos w p) (out : Bytes) (pos' : Int)
    (ha : applyRecs (fun p n => c.rd (c.originOff + p) n) pos rs = some (out, pos')) :
    ∃ p', foldBytes c p (encodeRecs rs) = .ok p' ∧ Ready c f pos' (w ++ out) p' := by
  induction rs generalizing pos w p out with
  | nil =>
    simp only [applyRecs, Option.some.injEq, Prod.mk.injEq] at ha
    obtain ⟨rfl, rfl⟩ := ha
    refine ⟨p, rfl, by simpa using hp⟩
  | cons r rs ih =>
    unfold applyRecs at ha
    cases ho : c.rd (c.originOff + pos) r.diff.length with
    | none => rw [ho] at ha; cases ha
    | some o =>
      rw [ho] at ha
      simp only at ha
      split at ha
      · cases ha
      · rename_i w2 q2 h2
        simp only [Option.some.injEq, Prod.mk.injEq] at ha
        obtain ⟨rfl, rfl⟩ := ha
        obtain ⟨p1, e1, r1⟩ := foldBytes_rec c hl f pos w p r (hs r (by simp)) hp o ho
        obtain ⟨p2, e2, r2⟩ := ih (fun r hr => hs r (by simp [hr])) _ _ p1 r1 _ h2
        refine ⟨p2, ?_, ?_⟩
        · have : encodeRecs (r :: rs) = encodeRec r ++ encodeRecs rs := rfl
          rw [this, foldBytes_append, e1]
          exact e2
        · simpa [List.append_assoc] using r2

theorem ready_init (c : PatchCfg) (f : Bytes) : Ready c f 0 [] (Patcher.init f) := by
  refine ⟨PInv.init f, Patcher.init f, rfl, rfl, rfl, rfl, rfl, ?_, rfl, rfl⟩
  simp [fileWrite_nil, Patcher.init]

end Bpak
