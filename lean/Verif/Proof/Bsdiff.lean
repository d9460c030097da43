import Verif.Proof.PatchNil
/-! The delta encoder emits records whose meaning is the new data. -/
namespace Bpak

theorem getI_some {b : Bytes} {i : Int} (h0 : 0 ≤ i) (h1 : i < b.length) : ∃ x, getI b i = some x ∧ b[i.toNat]? = some x := by
  unfold getI
  rw [if_pos h0]
  have : i.toNat < b.length := by omega
  exact ⟨b[i.toNat], by simp [this], by simp [this]⟩

theorem fwdGo_spec (o n : Bytes) (ls lp : Int) : ∀ (k : Nat) (i s sf d : Int), 0 ≤ lp + i → lp + i + k ≤ o.length →
    0 ≤ ls + i → ls + i + k ≤ n.length → 0 ≤ d → d ≤ i → 0 ≤ i → ∃ d', fwdGo o n ls lp k i s sf d = some d' ∧ 0 ≤ d' ∧ d' ≤ i + k := by
  intro k
  induction k with
  | zero => intro i s sf d _ _ _ _ h1 h2 _; exact ⟨d, rfl, h1, by omega⟩
  | succ k ih =>
    intro i s sf d h1 h2 h3 h4 h5 h6 h7
    obtain ⟨a, ha, _⟩ := getI_some h1 (by omega : lp + i < o.length)
    obtain ⟨b, hb, _⟩ := getI_some h3 (by omega : ls + i < n.length)
    unfold fwdGo
    rw [ha, hb]
    simp only
    split
    all_goals
      split
      · obtain ⟨d', e, e1, e2⟩ := ih (i+1) _ _ (i+1) (by omega) (by omega) (by omega) (by omega) (by omega) (by omega) (by omega)
        exact ⟨d', e, e1, by omega⟩
      · obtain ⟨d', e, e1, e2⟩ := ih (i+1) _ _ d (by omega) (by omega) (by omega) (by omega) (by omega) (by omega) (by omega)
        exact ⟨d', e, e1, by omega⟩

theorem bwdGo_spec (o n : Bytes) (scan pos : Int) : ∀ (k : Nat) (i s sb l : Int), 1 ≤ i → pos ≤ o.length → scan ≤ n.length →
    i + k ≤ pos + 1 → i + k ≤ scan + 1 → 0 ≤ l → l ≤ i - 1 → ∃ l', bwdGo o n scan pos k i s sb l = some l' ∧ 0 ≤ l' ∧ l' ≤ i - 1 + k := by
  intro k
  induction k with
  | zero => intro i s sb l _ _ _ _ _ h1 h2; exact ⟨l, rfl, h1, by omega⟩
  | succ k ih =>
    intro i s sb l h1 h2 h3 h4 h5 h6 h7
    obtain ⟨a, ha, _⟩ := getI_some (by omega : 0 ≤ pos - i) (by omega : pos - i < o.length)
    obtain ⟨b, hb, _⟩ := getI_some (by omega : 0 ≤ scan - i) (by omega : scan - i < n.length)
    unfold bwdGo
    rw [ha, hb]
    simp only
    split
    all_goals
      split
      · obtain ⟨d', e, e1, e2⟩ := ih (i+1) _ _ i (by omega) (by omega) (by omega) (by omega) (by omega) (by omega) (by omega)
        exact ⟨d', e, e1, by omega⟩
      · obtain ⟨d', e, e1, e2⟩ := ih (i+1) _ _ l (by omega) (by omega) (by omega) (by omega) (by omega) (by omega) (by omega)
        exact ⟨d', e, e1, by omega⟩

theorem ovlGo_spec (o n : Bytes) (u v x y : Int) : ∀ (k : Nat) (i s ss l : Int), 0 ≤ u + i → u + i + k ≤ n.length →
    0 ≤ v + i → v + i + k ≤ o.length → 0 ≤ x + i → x + i + k ≤ n.length → 0 ≤ y + i → y + i + k ≤ o.length →
    0 ≤ i → 0 ≤ l → l ≤ i → ∃ l', ovlGo o n u v x y k i s ss l = some l' ∧ 0 ≤ l' ∧ l' ≤ i + k := by
  intro k
  induction k with
  | zero => intro i s sb l _ _ _ _ _ _ _ _ _ h1 h2; exact ⟨l, rfl, h1, by omega⟩
  | succ k ih =>
    intro i s ss l h1 h2 h3 h4 h5 h6 h7 h8 h9 h10 h11
    obtain ⟨a, ha, _⟩ := getI_some h1 (by omega : u + i < n.length)
    obtain ⟨b, hb, _⟩ := getI_some h3 (by omega : v + i < o.length)
    obtain ⟨c, hc, _⟩ := getI_some h5 (by omega : x + i < n.length)
    obtain ⟨d, hd, _⟩ := getI_some h7 (by omega : y + i < o.length)
    unfold ovlGo
    rw [ha, hb, hc, hd]
    simp only
    generalize (if c = d then (if a = b then s + 1 else s) - 1 else if a = b then s + 1 else s) = s'
    split
    · obtain ⟨d', e, e1, e2⟩ := ih (i+1) s' s' (i+1) (by omega) (by omega) (by omega) (by omega) (by omega) (by omega) (by omega) (by omega) (by omega) (by omega) (by omega)
      exact ⟨d', e, e1, by omega⟩
    · obtain ⟨d', e, e1, e2⟩ := ih (i+1) s' ss l (by omega) (by omega) (by omega) (by omega) (by omega) (by omega) (by omega) (by omega) (by omega) (by omega) (by omega)
      exact ⟨d', e, e1, by omega⟩

theorem take_succ_of_getElem? {b : Bytes} {i : Nat} {x : U8} (h : b[i]? = some x) (k : Nat) :
    (b.drop i).take (k+1) = x :: (b.drop (i+1)).take k := by
  have hi : i < b.length := by
    rw [List.getElem?_eq_some_iff] at h; exact h.1
  rw [List.drop_eq_getElem_cons hi, List.take_succ_cons]
  rw [List.getElem?_eq_getElem hi] at h
  cases h; rfl

theorem diffGo_spec (o n : Bytes) (ls lp : Int) : ∀ (k : Nat) (i : Int), 0 ≤ lp + i → lp + i + k ≤ o.length →
    0 ≤ ls + i → ls + i + k ≤ n.length → ∃ db, diffGo o n ls lp k i = some db ∧ db.length = k ∧
      List.zipWith (· + ·) ((o.drop (lp + i).toNat).take k) db = (n.drop (ls + i).toNat).take k := by
  intro k
  induction k with
  | zero => intro i _ _ _ _; exact ⟨[], rfl, rfl, by simp⟩
  | succ k ih =>
    intro i h1 h2 h3 h4
    obtain ⟨b, hb, hb'⟩ := getI_some h1 (by omega : lp + i < o.length)
    obtain ⟨a, ha, ha'⟩ := getI_some h3 (by omega : ls + i < n.length)
    obtain ⟨db, e, e1, e2⟩ := ih (i+1) (by omega) (by omega) (by omega) (by omega)
    unfold diffGo
    rw [ha, hb, e]
    refine ⟨_, rfl, by simp [e1], ?_⟩
    rw [take_succ_of_getElem? hb', take_succ_of_getElem? ha', List.zipWith_cons_cons]
    rw [show (lp + (i+1)).toNat = (lp + i).toNat + 1 by omega, show (ls + (i+1)).toNat = (ls + i).toNat + 1 by omega] at e2
    rw [e2]
    congr 1
    rw [BitVec.add_comm]; exact BitVec.sub_add_cancel a b

theorem chunks4096_flatten (b : Bytes) : (chunks4096 b).flatten = b := by
  induction hn : b.length using Nat.strongRecOn generalizing b with
  | ind n ih =>
    unfold chunks4096
    split
    · rename_i h; rw [h]; rfl
    · rename_i h
      have := List.length_pos_iff.2 h
      rw [List.flatten_cons, ih (b.drop 4096).length (by simp; omega) _ rfl, List.take_append_drop]

theorem applyRecs_append (rd : Int → Nat → Option Bytes) (pos : Int) (rs : List Rec) (r : Rec) (w : Bytes) (q : Int) (ob : Bytes)
    (h : applyRecs rd pos rs = some (w, q)) (hr : rd q r.diff.length = some ob) :
    applyRecs rd pos (rs ++ [r]) = some (w ++ (List.zipWith (· + ·) ob r.diff ++ r.extra), q + r.diff.length + r.adjust) := by
  induction rs generalizing pos w with
  | nil =>
    simp only [applyRecs, Option.some.injEq, Prod.mk.injEq] at h
    obtain ⟨rfl, rfl⟩ := h
    simp [applyRecs, hr]
  | cons r' rs ih =>
    rw [List.cons_append]
    unfold applyRecs at h ⊢
    split at h
    · cases h
    · rename_i o ho
      split at h
      · cases h
      · rename_i w' q' h'
        simp only [Option.some.injEq, Prod.mk.injEq] at h
        obtain ⟨rfl, rfl⟩ := h
        rw [ih _ _ h']
        simp

/-- Invariant between rounds. -/
structure DInv (o n : Bytes) (c : Differ) : Prop where
  ls0 : 0 ≤ c.lastScan
  ls1 : c.lastScan ≤ c.scan
  sc : c.scan ≤ n.length
  lp0 : 0 ≤ c.lastPos
  lp1 : c.lastPos ≤ o.length
  p0 : 0 ≤ c.pos
  p1 : c.pos ≤ o.length
  lo : -c.scan ≤ c.lastOffset
  out : ∃ rs : List Rec, (∀ r ∈ rs, r.Small) ∧ c.out.flatten = encodeRecs rs ∧
    applyRecs (fileReader o) 0 rs = some (n.take c.lastScan.toNat, c.lastPos)

theorem fileReader_some {o : Bytes} {p : Int} {k : Nat} (h0 : 0 ≤ p) (h1 : p + k ≤ o.length) :
    fileReader o p k = some ((o.drop p.toNat).take k) := by
  unfold fileReader
  rw [if_neg (by omega)]
  split
  · rename_i h; rw [h]; simp
  · rw [if_pos (by omega)]

/-- What one call of the record writer achieves. -/
theorem writeDiff_spec (o n : Bytes) (ho : o.length < 2^63) (hn : n.length < 2^63) (c : Differ) (h : DInv o n c) :
    ∃ c', writeDiff o n c = some c' ∧ DInv o n c' ∧ c'.scan = c.scan ∧ c'.len = c.len ∧
      (c.scan = n.length → c'.lastScan = n.length) := by
  obtain ⟨a1, a2, a3, a4, a5, a6, a7, a8, rs, b1, b2, b3⟩ := h
  obtain ⟨scan, len, pos, lastScan, lastPos, lastOffset, outb⟩ := c
  simp only at a1 a2 a3 a4 a5 a6 a7 a8 b2 b3
  unfold writeDiff
  simp only
  obtain ⟨d, hd, d0, d1⟩ := fwdGo_spec o n lastScan lastPos (min (scan - lastScan) (o.length - lastPos)).toNat 0 0 0 0
    (by omega) (by omega) (by omega) (by omega) (by omega) (by omega) (by omega)
  rw [hd]
  have hb : ∃ l, backExtend o n ⟨scan, len, pos, lastScan, lastPos, lastOffset, outb⟩ = some l ∧
      0 ≤ l ∧ l ≤ scan - lastScan ∧ l ≤ pos ∧ (scan = n.length → l = 0) := by
    unfold backExtend
    simp only
    split
    · obtain ⟨l, e, e1, e2⟩ := bwdGo_spec o n scan pos (min (scan - lastScan) pos).toNat 1 0 0 0 (by omega) (by omega) (by omega)
        (by omega) (by omega) (by omega) (by omega)
      exact ⟨l, e, e1, by omega, by omega, by omega⟩
    · exact ⟨0, rfl, by omega, by omega, by omega, by omega⟩
  obtain ⟨l, hl, l0, l1, l2, l3⟩ := hb
  simp only [Option.bind_some]
  rw [hl]
  simp only [Option.bind_some]
  have hov : ∃ d' l', resolveOverlap o n ⟨scan, len, pos, lastScan, lastPos, lastOffset, outb⟩ d l = some (d', l') ∧
      0 ≤ d' ∧ 0 ≤ l' ∧ l' ≤ scan - lastScan ∧ l' ≤ pos ∧ d' ≤ o.length - lastPos ∧
      lastScan + d' ≤ scan - l' ∧ (scan = n.length → l' = 0) := by
    unfold resolveOverlap
    simp only
    split
    · obtain ⟨s, e, e1, e2⟩ := ovlGo_spec o n (lastScan + d - ((lastScan + d) - (scan - l))) (lastPos + d - ((lastScan + d) - (scan - l))) (scan - l) (pos - l)
        ((lastScan + d) - (scan - l)).toNat 0 0 0 0 (by omega) (by omega) (by omega) (by omega) (by omega) (by omega) (by omega) (by omega) (by omega) (by omega) (by omega)
      rw [e]
      refine ⟨_, _, rfl, by omega, by omega, by omega, by omega, by omega, by omega, ?_⟩
      intro hsn
      have := l3 hsn
      omega
    · exact ⟨d, l, rfl, by omega, by omega, by omega, by omega, by omega, by omega, l3⟩
  obtain ⟨d', l', hv, v1, v2, v3, v4, v5, v6, v7⟩ := hov
  rw [hv]
  simp only [Option.bind_some]
  rw [if_neg (by omega)]
  obtain ⟨db, e, e1, e2⟩ := diffGo_spec o n lastScan lastPos d'.toNat 0 (by omega) (by omega) (by omega) (by omega)
  rw [e]
  simp only [Option.bind_some]
  have hex : ∃ ex, extraBufs n (lastScan + d') (scan - l' - (lastScan + d')) = some ex ∧
      ex.flatten = (n.drop (lastScan + d').toNat).take (scan - l' - (lastScan + d')).toNat := by
    unfold extraBufs
    split
    · unfold getRange
      rw [if_pos ⟨by omega, by omega, by omega⟩]
      exact ⟨_, rfl, by simp⟩
    · rename_i h0
      refine ⟨[], rfl, ?_⟩
      have : scan - l' - (lastScan + d') = 0 := by omega
      rw [this]; simp
  obtain ⟨ex, hx, hx2⟩ := hex
  rw [hx]
  simp only [Option.bind_some]
  refine ⟨_, rfl, ?_, rfl, rfl, ?_⟩
  · refine ⟨by simp only; omega, by simp only; omega, a3, by simp only; omega, by simp only; omega, a6, a7, by simp only; omega, ?_⟩
    let r : Rec := ⟨db, (n.drop (lastScan + d').toNat).take (scan - l' - (lastScan + d')).toNat, (pos - l') - (lastPos + d')⟩
    have rl : r.extra.length = (scan - l' - (lastScan + d')).toNat := by simp only [r, List.length_take, List.length_drop]; omega
    have rd : r.diff.length = d'.toNat := e1
    have rsm : r.Small := ⟨by omega, by omega, by simp only [r]; omega⟩
    refine ⟨rs ++ [r], ?_, ?_, ?_⟩
    · intro x hx
      rcases List.mem_append.1 hx with h | h
      · exact b1 x h
      · rw [List.mem_singleton] at h; rw [h]; exact rsm
    · have : encodeRecs (rs ++ [r]) = encodeRecs rs ++ encodeRec r := by simp [encodeRecs]
      rw [this]
      simp only [List.flatten_append, List.flatten_cons, List.flatten_nil, List.append_nil, chunks4096_flatten, b2, hx2, List.append_assoc]
      congr 1
      unfold encodeRec
      rw [rl, rd, show ((d'.toNat : Nat) : Int) = d' by omega,
        show (((scan - l' - (lastScan + d')).toNat : Nat) : Int) = scan - l' - (lastScan + d') by omega,
        offtout_eq d' (by omega), offtout_eq _ (by omega), offtout_eq _ (by omega)]
      simp only [r, List.append_assoc]
    · have hfr : fileReader o lastPos r.diff.length = some ((o.drop lastPos.toNat).take d'.toNat) := by
        rw [rd]; exact fileReader_some a4 (by omega)
      rw [applyRecs_append _ _ rs r _ _ _ b3 hfr]
      simp only [Option.some.injEq, Prod.mk.injEq]
      refine ⟨?_, ?_⟩
      · have e2' : List.zipWith (· + ·) ((o.drop lastPos.toNat).take d'.toNat) r.diff = (n.drop lastScan.toNat).take d'.toNat := by
          simpa using e2
        rw [e2']
        show _ ++ ((n.drop lastScan.toNat).take d'.toNat ++ (n.drop (lastScan + d').toNat).take (scan - l' - (lastScan + d')).toNat) = _
        rw [show (scan - l').toNat = lastScan.toNat + (d'.toNat + (scan - l' - (lastScan + d')).toNat) by omega,
          List.take_add, List.take_add, List.drop_drop, show (lastScan + d').toNat = lastScan.toNat + d'.toNat by omega]
      · rw [rd]; simp only [r]; omega
  · intro hsn
    have := v7 hsn
    simp only
    rw [this]
    omega

theorem scoreGo_spec (o n : Bytes) (lo : Int) : ∀ (k : Nat) (s fs : Int), 0 ≤ s → 0 ≤ s + lo → s + k ≤ n.length →
    ∃ fs', scoreGo o n lo k s fs = some fs' ∧ fs ≤ fs' := by
  intro k
  induction k with
  | zero => intro s fs _ _ _; exact ⟨fs, rfl, by omega⟩
  | succ k ih =>
    intro s fs h1 h2 h3
    unfold scoreGo
    split
    · obtain ⟨a, ha, _⟩ := getI_some h2 (by assumption)
      obtain ⟨b, hb, _⟩ := getI_some h1 (by omega : s < n.length)
      rw [ha, hb]
      simp only
      obtain ⟨f, e, e1⟩ := ih (s+1) (if a = b then fs + 1 else fs) (by omega) (by omega) (by omega)
      refine ⟨f, e, ?_⟩
      split at e1 <;> omega
    · exact ih (s+1) fs (by omega) (by omega) (by omega)

theorem scanGo_spec (o n : Bytes) (srch : Int → Option (Int × Int)) (hs : SearchOk o n srch) (lo scan0 : Int) (h00 : 0 ≤ scan0) (hlo : -scan0 ≤ lo) :
    ∀ (k : Nat) (scan scsc fs len pos : Int), scan0 ≤ scan → scan + k = n.length → scan0 ≤ scsc → scsc ≤ n.length →
      (scan = scan0 → 0 ≤ fs) → 0 ≤ pos → pos ≤ o.length →
      ∃ scan' len' pos' fs', scanGo o n srch lo k scan scsc fs len pos = some (scan', len', pos', fs') ∧
        scan ≤ scan' ∧ scan' ≤ n.length ∧ 0 ≤ pos' ∧ pos' ≤ o.length ∧
        (scan' < n.length → 0 ≤ len' ∧ scan' + len' ≤ n.length ∧ scan0 < scan' + len') := by
  intro k
  induction k with
  | zero =>
    intro scan scsc fs len pos h1 h2 h3 h4 h5 h6 h7
    exact ⟨scan, len, pos, fs, rfl, by omega, by omega, h6, h7, by omega⟩
  | succ k ih =>
    intro scan scsc fs _ _ h1 h2 h3 h4 h5 h6 h7
    obtain ⟨len, pos, e, e1, e2, e3, e4⟩ := hs scan (by omega) (by omega)
    obtain ⟨f, g, g1⟩ := scoreGo_spec o n lo (scan + len - scsc).toNat scsc fs (by omega) (by omega) (by omega)
    unfold scanGo
    rw [e]
    simp only
    rw [g]
    simp only
    split
    · rename_i hbr
      refine ⟨scan, len, pos, f, rfl, by omega, by omega, e3, e4, fun _ => ⟨e1, by omega, ?_⟩⟩
      by_cases hsc : scan = scan0
      · have := h5 hsc
        omega
      · omega
    · split
      · obtain ⟨a, ha, _⟩ := getI_some (by omega : 0 ≤ scan + lo) (by assumption)
        obtain ⟨b, hb, _⟩ := getI_some (by omega : 0 ≤ scan) (by omega : scan < n.length)
        rw [ha, hb]
        simp only
        obtain ⟨x1, x2, x3, x4, y1, y2, y3⟩ := ih (scan+1) (max scsc (scan+len)) (if a = b then f - 1 else f) len pos (by omega) (by omega) (by omega) (by omega)
          (by omega) e3 e4
        exact ⟨x1, x2, x3, x4, y1, by omega, y3⟩
      · obtain ⟨x1, x2, x3, x4, y1, y2, y3⟩ := ih (scan+1) (max scsc (scan+len)) f len pos (by omega) (by omega) (by omega) (by omega)
          (by omega) e3 e4
        exact ⟨x1, x2, x3, x4, y1, by omega, y3⟩

theorem diffRound_spec (o n : Bytes) (ho : o.length < 2^63) (hn : n.length < 2^63) (srch : Int → Option (Int × Int)) (hs : SearchOk o n srch)
    (c : Differ) (h : DInv o n c) (h0 : 0 ≤ c.len) (h1 : c.scan + c.len ≤ n.length) :
    ∃ c', diffRound o n srch c = some c' ∧ DInv o n c' ∧
      (c'.scan < n.length → 0 ≤ c'.len ∧ c'.scan + c'.len ≤ n.length ∧ c.scan + c.len < c'.scan + c'.len) ∧
      (c'.scan = n.length → c'.lastScan = n.length) := by
  have hs0 : 0 ≤ c.scan := by have := h.ls0; have := h.ls1; omega
  obtain ⟨s', l', p', f', e, e1, e2, e3, e4, e5⟩ := scanGo_spec o n srch hs c.lastOffset (c.scan + c.len) (by omega) (by have := h.lo; omega)
    ((n.length : Int) - (c.scan + c.len)).toNat (c.scan + c.len) (c.scan + c.len) 0 c.len c.pos (by omega) (by omega) (by omega) (by omega) (by omega) h.p0 h.p1
  unfold diffRound
  simp only [Option.bind_eq_bind]
  rw [e]
  simp only [Option.bind_some]
  have hinv : DInv o n { c with scan := s', len := l', pos := p' } := by
    refine ⟨h.ls0, ?_, e2, h.lp0, h.lp1, e3, e4, ?_, h.out⟩
    · have := h.ls1; simp only; omega
    · have := h.lo; simp only; omega
  split
  · obtain ⟨c', w, w1, w2, w3, w4⟩ := writeDiff_spec o n ho hn _ hinv
    refine ⟨c', w, w1, ?_, ?_⟩
    · rw [w2, w3]; exact e5
    · rw [w2]; exact w4
  · rename_i hc
    refine ⟨_, rfl, hinv, e5, ?_⟩
    intro hsn
    simp only at hsn
    omega

theorem diffLoop_spec (o n : Bytes) (ho : o.length < 2^63) (hn : n.length < 2^63) (srch : Int → Option (Int × Int)) (hs : SearchOk o n srch) :
    ∀ (k : Nat) (c : Differ), DInv o n c → (c.scan < n.length → 0 ≤ c.len ∧ c.scan + c.len ≤ n.length ∧ (n.length : Int) - (c.scan + c.len) + 2 ≤ k) →
      (c.scan = n.length → c.lastScan = n.length ∧ 1 ≤ k) →
      ∃ c', diffLoop o n srch k c = some c' ∧ DInv o n c' ∧ c'.lastScan = n.length := by
  intro k
  induction k with
  | zero =>
    intro c h h1 h2
    have := h.sc
    exfalso
    by_cases hc : c.scan < n.length
    · have := h1 hc; omega
    · have := h2 (by omega); omega
  | succ k ih =>
    intro c h h1 h2
    unfold diffLoop
    split
    · rename_i hc
      obtain ⟨a1, a2, a3⟩ := h1 hc
      obtain ⟨c', e, e1, e2, e3⟩ := diffRound_spec o n ho hn srch hs c h a1 a2
      rw [e, Option.bind_some]
      refine ih c' e1 ?_ ?_
      · intro h'
        obtain ⟨b1, b2, b3⟩ := e2 h'
        exact ⟨b1, b2, by omega⟩
      · intro h'
        exact ⟨e3 h', by omega⟩
    · rename_i hc
      have := h.sc
      exact ⟨c, rfl, h, (h2 (by omega)).1⟩

theorem bsdiffWith_spec (o n : Bytes) (ho : o.length < 2^63) (hn : n.length < 2^63) (srch : Int → Option (Int × Int)) (hs : SearchOk o n srch) :
    ∃ bufs rs q, bsdiffWith srch o n = some bufs ∧ (∀ r ∈ rs, Rec.Small r) ∧ bufs.flatten = encodeRecs rs ∧
      applyRecs (fileReader o) 0 rs = some (n, q) := by
  obtain ⟨c', e, e1, e2⟩ := diffLoop_spec o n ho hn srch hs (n.length + 2) ⟨0, 0, 0, 0, 0, 0, []⟩
    ⟨by simp, by simp, by simp, by simp, by simp, by simp, by simp, by simp, [], by simp, rfl, by simp [applyRecs]⟩
    (by simp only; omega) (by simp only; omega)
  obtain ⟨rs, b1, b2, b3⟩ := e1.out
  refine ⟨c'.out, rs, c'.lastPos, ?_, b1, b2, ?_⟩
  · unfold bsdiffWith; rw [e]; rfl
  · rw [b3, e2]; simp

/-! ### The search -/

theorem matchlen_le (a b : Bytes) : matchlen a b ≤ b.length := by
  induction a generalizing b with
  | nil => unfold matchlen; simp
  | cons x a ih =>
    cases b with
    | nil => simp [matchlen]
    | cons y b =>
      unfold matchlen
      split
      · have := ih b; simp; omega
      · simp

theorem matchlen32_eq (a b : Bytes) (h : b.length < 2^31) : matchlen32 a b = matchlen a b := by
  have := matchlen_le a b
  unfold matchlen32
  rw [Int.bmod_def]
  omega

theorem search_spec (sa : List Int) (o to : Bytes) (hto : to.length < 2^31) (hsa : ∀ p ∈ sa, 0 ≤ p ∧ p ≤ o.length) :
    ∀ (k b e : Nat), b ≤ e → e < sa.length → e - b < k → ∃ len pos, search sa o to k b e = some (len, pos) ∧
      0 ≤ len ∧ len ≤ to.length ∧ 0 ≤ pos ∧ pos ≤ o.length := by
  have hsuf : ∀ i, i < sa.length → ∃ p s, suffixAt sa o i = some (p, s) ∧ 0 ≤ p ∧ p ≤ o.length := by
    intro i hi
    unfold suffixAt
    rw [List.getElem?_eq_getElem hi]
    have := hsa sa[i] (List.getElem_mem hi)
    simp only [if_pos this]
    exact ⟨_, _, rfl, this⟩
  intro k
  induction k with
  | zero => intro b e _ _ h; omega
  | succ k ih =>
    intro b e hbe he hk
    unfold search
    split
    · obtain ⟨p, s, h1, h2⟩ := hsuf b (by omega)
      obtain ⟨p', s', h1', h2'⟩ := hsuf e he
      rw [h1, h1']
      simp only [matchlen32_eq _ to hto]
      have m1 := matchlen_le s to
      have m2 := matchlen_le s' to
      split
      · exact ⟨_, _, rfl, by omega, by omega, h2⟩
      · exact ⟨_, _, rfl, by omega, by omega, h2'⟩
    · obtain ⟨p, s, h1, h2⟩ := hsuf (b + (e - b) / 2) (by omega)
      simp only [h1]
      split
      · exact ih _ _ (by omega) he (by omega)
      · exact ih _ _ (by omega) (by omega) (by omega)

/-- With one spare entry in the suffix array the search satisfies the encoder's needs. -/
theorem searchCall_ok (sa : List Int) (o n : Bytes) (hn : n.length < 2^31) (hl : sa.length = o.length + 1) (hsa : ∀ p ∈ sa, 0 ≤ p ∧ p ≤ o.length) :
    SearchOk o n (searchCall sa o n) := by
  intro scan h0 h1
  unfold searchCall
  rw [if_pos h0]
  obtain ⟨len, pos, e, e1, e2, e3⟩ := search_spec sa o (n.drop scan.toNat) (by simp; omega) hsa (o.length + 1) 0 o.length (by omega) (by omega) (by omega)
  refine ⟨len, pos, e, e1, ?_, e3⟩
  rw [List.length_drop] at e2
  omega

end Bpak
