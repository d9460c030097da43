import Verif.Spec.History
namespace Bpak

/-! ### search loops -/

theorem getMetaIntGo_some {id ref : U32} {mr : Bool} {ms : List MetaHdr} {k i : Nat}
    (h : getMetaIntGo id ref mr ms k = some i) :
    k ≤ i ∧ (∃ m, ms[i - k]? = some m ∧ m.id = id ∧ (mr = true → m.partRef = ref)) ∧
    ∀ j, j < i - k → ∀ m, ms[j]? = some m → ¬ (m.id = id ∧ (mr = true → m.partRef = ref)) := by
  induction ms generalizing k with
  | nil => simp [getMetaIntGo] at h
  | cons a ms ih =>
    unfold getMetaIntGo at h
    by_cases hm : a.id = id ∧ (mr = true → a.partRef = ref)
    · have : k = i := by
        rw [if_pos hm.1] at h
        have : ¬ ((mr && (a.partRef != ref)) = true) := by
          intro hc; simp at hc; exact hc.2 (hm.2 hc.1)
        rw [if_neg this] at h; simpa using h
      subst this
      refine ⟨Nat.le_refl _, ⟨a, by simp, hm⟩, ?_⟩
      intro j hj; omega
    · have h' : getMetaIntGo id ref mr ms (k+1) = some i := by
        by_cases h1 : a.id = id
        · rw [if_pos h1] at h
          have : (mr && (a.partRef != ref)) = true := by
            simp; constructor
            · cases mr
              · exfalso; exact hm ⟨h1, by simp⟩
              · rfl
            · intro hc; exact hm ⟨h1, fun _ => hc⟩
          rw [if_pos this] at h; exact h
        · rw [if_neg h1] at h; exact h
      obtain ⟨hk, ⟨m, hm1, hm2⟩, hrest⟩ := ih h'
      refine ⟨by omega, ⟨m, ?_, hm2⟩, ?_⟩
      · have : i - k = (i - (k+1)) + 1 := by omega
        rw [this]; simpa using hm1
      · intro j hj m' hm'
        cases j with
        | zero => simp at hm'; subst hm'; exact hm
        | succ j => exact hrest j (by omega) m' (by simpa using hm')

theorem getMetaIntGo_none {id ref : U32} {mr : Bool} {ms : List MetaHdr} {k : Nat} :
    getMetaIntGo id ref mr ms k = none ↔
      ∀ m ∈ ms, ¬ (m.id = id ∧ (mr = true → m.partRef = ref)) := by
  induction ms generalizing k with
  | nil => simp [getMetaIntGo]
  | cons a ms ih =>
    unfold getMetaIntGo
    by_cases h1 : a.id = id
    · rw [if_pos h1]
      by_cases h2 : (mr && (a.partRef != ref)) = true
      · rw [if_pos h2, ih]
        simp at h2
        constructor
        · intro h m hm
          rcases List.mem_cons.1 hm with rfl | hm
          · intro hc; exact h2.2 (hc.2 h2.1)
          · exact h m hm
        · intro h m hm; exact h m (List.mem_cons_of_mem _ hm)
      · rw [if_neg h2]
        constructor
        · intro h; cases h
        · intro h
          exfalso
          apply h a (by simp)
          refine ⟨h1, fun hmr => ?_⟩
          subst hmr; simpa using h2
    · rw [if_neg h1, ih]
      constructor
      · intro h m hm
        rcases List.mem_cons.1 hm with rfl | hm
        · intro hc; exact h1 hc.1
        · exact h m hm
      · intro h m hm; exact h m (List.mem_cons_of_mem _ hm)

/-! ### buffers -/

theorem readAt_some {b : Bytes} {o l : Nat} {d : Bytes} (h : readAt b o l = some d) :
    d.length = l ∧ o + l ≤ b.length ∧ ∀ j, j < l → d[j]? = b[o + j]? := by
  unfold readAt at h
  split at h
  · simp at h; subst h
    refine ⟨by simp; omega, by assumption, ?_⟩
    intro j hj
    simp [List.getElem?_take, hj]
  · cases h

theorem readAt_eq_some {b : Bytes} {o l : Nat} (h : o + l ≤ b.length) :
    readAt b o l = some ((b.drop o).take l) := by
  unfold readAt; rw [if_pos h]

theorem writeAt_eq_some {b : Bytes} {o : Nat} {d : Bytes} (h : o + d.length ≤ b.length) :
    writeAt b o d = some (b.take o ++ d ++ b.drop (o + d.length)) := by
  unfold writeAt; rw [if_pos h]

theorem writeAt_some {b : Bytes} {o : Nat} {d b' : Bytes} (h : writeAt b o d = some b') :
    o + d.length ≤ b.length ∧ b'.length = b.length ∧
    ∀ j, b'[j]? = if o ≤ j ∧ j < o + d.length then d[j - o]? else b[j]? := by
  unfold writeAt at h
  split at h
  · rename_i hle
    simp at h; subst h
    refine ⟨hle, by simp; omega, ?_⟩
    intro j
    by_cases h1 : j < o
    · rw [if_neg (by omega), List.getElem?_append_left (by simp; omega), List.getElem?_take]
      simp [h1]
    · by_cases h2 : j < o + d.length
      · rw [if_pos (by omega), List.getElem?_append_right (by simp; omega),
          List.getElem?_append_left (by simp; omega)]
        congr 1; simp; omega
      · rw [if_neg (by omega), List.getElem?_append_right (by simp; omega),
          List.getElem?_append_right (by simp; omega), List.getElem?_drop]
        congr 1; simp; omega
  · cases h

/-- two windows with equal bytes are equal lists -/
theorem window_eq {b b' : Bytes} {o o' l : Nat} (h : o + l ≤ b.length) (h' : o' + l ≤ b'.length)
    (he : ∀ j, j < l → b[o + j]? = b'[o' + j]?) : (b.drop o).take l = (b'.drop o').take l := by
  apply List.ext_getElem?
  intro j
  by_cases hj : j < l
  · simp [List.getElem?_take, hj, he j hj]
  · simp [List.getElem?_take, hj]

/-! ### the layout invariant -/

theorem metaAlignSize_mod (x : Nat) : metaAlignSize x % 8 = 0 := by unfold metaAlignSize; omega
theorem metaAlignSize_le (x : Nat) : x ≤ metaAlignSize x := by unfold metaAlignSize; omega
theorem metaAlignSize_lt (x : Nat) : metaAlignSize x < x + 8 := by unfold metaAlignSize; omega
theorem metaAlignSize_add {o s : Nat} (h : o % 8 = 0) :
    metaAlignSize (o + s) = o + metaAlignSize s := by unfold metaAlignSize; omega
theorem metaAlignSize_1920 {x : Nat} (h : x ≤ 1920) : metaAlignSize x ≤ 1920 := by
  unfold metaAlignSize; omega

/-- Entries packed one after another from `off`, each start rounded up to 8. -/
def Packed : Nat → List MetaHdr → Prop
  | _, [] => True
  | off, m :: ms => m.id ≠ 0 ∧ m.offset.toNat = off ∧ off + m.size.toNat ≤ 1920 ∧
      Packed (metaAlignSize (off + m.size.toNat)) ms

/-- Where the next entry would start. -/
def endOff : Nat → List MetaHdr → Nat
  | off, [] => off
  | off, m :: ms => endOff (metaAlignSize (off + m.size.toNat)) ms

def sameKey (a b : MetaHdr) : Prop := a.id = b.id ∧ a.partRef = b.partRef

structure MetaInv (h : Header) (us : List MetaHdr) (k : Nat) : Prop where
  slots : h.metas = us ++ List.replicate k MetaHdr.zero
  len : us.length + k = 32
  packed : Packed 0 us
  distinct : us.Pairwise (fun a b => ¬ sameKey a b)
  md : h.metadata.length = 1920

theorem Packed.ids {off : Nat} {us : List MetaHdr} (h : Packed off us) : ∀ m ∈ us, m.id ≠ 0 := by
  induction us generalizing off with
  | nil => simp
  | cons a us ih =>
    intro m hm
    rcases List.mem_cons.1 hm with rfl | hm
    · exact h.1
    · exact ih h.2.2.2 m hm

theorem Packed.ge {off : Nat} {us : List MetaHdr} (h : Packed off us) :
    ∀ m ∈ us, off ≤ m.offset.toNat ∧ m.offset.toNat + m.size.toNat ≤ 1920 := by
  induction us generalizing off with
  | nil => simp
  | cons a us ih =>
    intro m hm
    rcases List.mem_cons.1 hm with rfl | hm
    · exact ⟨by rw [h.2.1]; exact Nat.le_refl _, by rw [h.2.1]; exact h.2.2.1⟩
    · have h2 := ih h.2.2.2 m hm
      have := metaAlignSize_le (off + a.size.toNat)
      exact ⟨by omega, h2.2⟩

theorem Packed.aligned {off : Nat} {us : List MetaHdr} (h : Packed off us) (ho : off % 8 = 0) :
    ∀ m ∈ us, m.offset.toNat % 8 = 0 := by
  induction us generalizing off with
  | nil => simp
  | cons a us ih =>
    intro m hm
    rcases List.mem_cons.1 hm with rfl | hm
    · rw [h.2.1]; exact ho
    · exact ih h.2.2.2 (metaAlignSize_mod _) m hm

theorem Packed.lt_end {off : Nat} {us : List MetaHdr} (h : Packed off us) :
    off ≤ endOff off us ∧ ∀ m ∈ us, m.offset.toNat + m.size.toNat ≤ endOff off us := by
  induction us generalizing off with
  | nil => simp [endOff]
  | cons a us ih =>
    have h2 := ih h.2.2.2
    have := metaAlignSize_le (off + a.size.toNat)
    simp only [endOff]
    refine ⟨by omega, ?_⟩
    intro m hm
    rcases List.mem_cons.1 hm with rfl | hm
    · rw [h.2.1]; omega
    · exact h2.2 m hm

theorem Packed.end_le {off : Nat} {us : List MetaHdr} (h : Packed off us) (ho : off ≤ 1920) :
    endOff off us ≤ 1920 := by
  induction us generalizing off with
  | nil => simpa [endOff]
  | cons a us ih =>
    simp only [endOff]
    exact ih h.2.2.2 (metaAlignSize_1920 h.2.2.1)

theorem endOff_mod {off : Nat} (us : List MetaHdr) (ho : off % 8 = 0) : endOff off us % 8 = 0 := by
  induction us generalizing off with
  | nil => simpa [endOff]
  | cons a us ih => exact ih (metaAlignSize_mod _)

theorem Packed.append_iff {off : Nat} {us vs : List MetaHdr} :
    Packed off (us ++ vs) ↔ Packed off us ∧ Packed (endOff off us) vs := by
  induction us generalizing off with
  | nil => simp [Packed, endOff]
  | cons a us ih => simp only [List.cons_append, Packed, endOff, ih]; grind

/-- pairwise disjointness of byte ranges -/
theorem Packed.disjoint {off : Nat} {us : List MetaHdr} (h : Packed off us) :
    us.Pairwise (fun a b => a.offset.toNat + a.size.toNat ≤ b.offset.toNat) := by
  induction us generalizing off with
  | nil => simp
  | cons a us ih =>
    refine List.Pairwise.cons ?_ (ih h.2.2.2)
    intro b hb
    have h2 := (h.2.2.2.ge b hb).1
    have := metaAlignSize_le (off + a.size.toNat)
    rw [h.2.1]; omega

/-! ### add -/

theorem off_step {off : U16} {a : MetaHdr} {us : List MetaHdr} (hp : Packed off.toNat (a :: us)) :
    (BitVec.ofNat 16 (metaAlignSize (off + a.size).toNat)).toNat
        = metaAlignSize (off.toNat + a.size.toNat) := by
  obtain ⟨h1, h2, h3, h4⟩ := hp
  have hal : metaAlignSize (off.toNat + a.size.toNat) ≤ 1920 := metaAlignSize_1920 h3
  have hsum : (off + a.size).toNat = off.toNat + a.size.toNat := by
    rw [BitVec.toNat_add, Nat.mod_eq_of_lt]; omega
  rw [hsum, BitVec.toNat_ofNat, Nat.mod_eq_of_lt]; omega

theorem addMetaGo_exists (id ref : U32) (size : U16) (us ts : List MetaHdr) (off : U16)
    (i : Nat) (hp : ∀ m ∈ us, m.id ≠ 0) (hex : ∃ m ∈ us, m.id = id ∧ m.partRef = ref) :
    (addMetaGo id ref size off (us ++ ts) i).1 = .exists_ ∧
    (addMetaGo id ref size off (us ++ ts) i).2.1 = us ++ ts := by
  induction us generalizing off i with
  | nil => simp at hex
  | cons a us ih =>
    have ha := hp a (by simp)
    simp only [List.cons_append, addMetaGo, if_neg ha]
    by_cases hm : a.id = id ∧ a.partRef = ref
    · simp [hm]
    · rw [if_neg hm]
      have hex' : ∃ m ∈ us, m.id = id ∧ m.partRef = ref := by
        obtain ⟨m, hm1, hm2⟩ := hex
        rcases List.mem_cons.1 hm1 with rfl | h
        · exact absurd hm2 hm
        · exact ⟨m, h, hm2⟩
      have := ih (BitVec.ofNat 16 (metaAlignSize (off + a.size).toNat)) (i+1)
        (fun m hm => hp m (List.mem_cons_of_mem _ hm)) hex'
      exact ⟨this.1, by rw [this.2]⟩

theorem addMetaGo_full (id ref : U32) (size : U16) (us : List MetaHdr) (off : U16)
    (i : Nat) (hp : ∀ m ∈ us, m.id ≠ 0) (hex : ¬ ∃ m ∈ us, m.id = id ∧ m.partRef = ref) :
    addMetaGo id ref size off us i = (.noSpaceLeft, us, i + us.length) := by
  induction us generalizing off i with
  | nil => simp [addMetaGo]
  | cons a us ih =>
    have ha := hp a (by simp)
    have hm : ¬ (a.id = id ∧ a.partRef = ref) := fun h => hex ⟨a, by simp, h⟩
    simp only [addMetaGo, if_neg ha, if_neg hm]
    rw [ih _ (i+1) (fun m hm => hp m (List.mem_cons_of_mem _ hm))
      (fun ⟨m, h1, h2⟩ => hex ⟨m, List.mem_cons_of_mem _ h1, h2⟩)]
    simp only [List.length_cons, Nat.add_assoc, Nat.add_comm 1]

theorem addMetaGo_free (id ref : U32) (size : U16) (us ts : List MetaHdr) (off : U16)
    (i : Nat) (hp : Packed off.toNat us)
    (hex : ¬ ∃ m ∈ us, m.id = id ∧ m.partRef = ref) :
    addMetaGo id ref size off (us ++ MetaHdr.zero :: ts) i =
        ((if endOff off.toNat us + size.toNat > 1920 then .noSpaceLeft else .ok),
          us ++ { id := id, offset := BitVec.ofNat 16 (endOff off.toNat us), size := size, partRef := ref }
            :: ts, i + us.length) := by
  induction us generalizing off i with
  | nil =>
    have : MetaHdr.zero.id = 0 := rfl
    simp only [List.nil_append, addMetaGo, this, if_true, endOff, metadataBytes]
    by_cases hc : off.toNat + size.toNat > 1920
    · simp [hc, MetaHdr.zero]
    · simp [hc, MetaHdr.zero]
  | cons a us ih =>
    have ha := hp.1
    have hm : ¬ (a.id = id ∧ a.partRef = ref) := fun h => hex ⟨a, by simp, h⟩
    have hs := off_step hp
    simp only [List.cons_append, addMetaGo, if_neg ha, if_neg hm]
    rw [ih _ (i+1) (by rw [hs]; exact hp.2.2.2)
      (fun ⟨m, h1, h2⟩ => hex ⟨m, List.mem_cons_of_mem _ h1, h2⟩)]
    simp only [hs, endOff, List.length_cons, Nat.add_assoc, Nat.add_comm 1]
    rfl

/-! ### delete -/

def shiftMeta (adj : Nat) (m : MetaHdr) : MetaHdr :=
  { m with offset := BitVec.ofNat 16 (m.offset.toNat - adj) }

theorem shiftMeta_off (adj : Nat) (m : MetaHdr) :
    (shiftMeta adj m).offset.toNat = m.offset.toNat - adj := by
  have := m.offset.isLt
  simp only [shiftMeta, BitVec.toNat_ofNat]
  exact Nat.mod_eq_of_lt (by omega)

theorem delMetaMove_ok {adj : Nat} {nx : MetaHdr} {md : Bytes} (hid : nx.id ≠ 0)
    (ha : adj ≤ nx.offset.toNat) (hl : md.length = 1920)
    (hb : nx.offset.toNat + nx.size.toNat ≤ 1920) :
    ∃ md', delMetaMove adj nx md = .ret (shiftMeta adj nx, md') ∧ md'.length = 1920 ∧
      ∀ j, md'[j]? =
        if nx.offset.toNat ≤ j ∧ j < nx.offset.toNat + nx.size.toNat then some 0
        else if nx.offset.toNat - adj ≤ j ∧ j < nx.offset.toNat - adj + nx.size.toNat then md[j + adj]?
        else md[j]? := by
  unfold delMetaMove
  rw [if_pos hid, if_neg (by omega), readAt_eq_some (by omega)]
  have hdl : ((md.drop nx.offset.toNat).take nx.size.toNat).length = nx.size.toNat := by
    simp; omega
  obtain ⟨md1, h1⟩ : ∃ md1, writeAt md (nx.offset.toNat - adj)
      ((md.drop nx.offset.toNat).take nx.size.toNat) = some md1 :=
    ⟨_, writeAt_eq_some (by rw [hdl]; omega)⟩
  have w1 := writeAt_some h1
  obtain ⟨md2, h2⟩ : ∃ md2, writeAt md1 nx.offset.toNat (List.replicate nx.size.toNat 0) = some md2 :=
    ⟨_, writeAt_eq_some (by rw [List.length_replicate, w1.2.1]; omega)⟩
  have w2 := writeAt_some h2
  simp only [h1, h2]
  refine ⟨md2, rfl, by rw [w2.2.1, w1.2.1, hl], ?_⟩
  intro j
  rw [w2.2.2 j, List.length_replicate]
  by_cases hj : nx.offset.toNat ≤ j ∧ j < nx.offset.toNat + nx.size.toNat
  · rw [if_pos hj, if_pos hj, List.getElem?_replicate, if_pos (by omega)]
  · rw [if_neg hj, if_neg hj, w1.2.2 j, hdl]
    by_cases hj2 : nx.offset.toNat - adj ≤ j ∧ j < nx.offset.toNat - adj + nx.size.toNat
    · rw [if_pos hj2, if_pos hj2, List.getElem?_take, if_pos (by omega), List.getElem?_drop]
      congr 1; omega
    · rw [if_neg hj2, if_neg hj2]

theorem delMetaGo_packed {adj : Nat} (us ts : List MetaHdr) {off : Nat} {md : Bytes}
    (hp : Packed off us) (ha : adj ≤ off) (hl : md.length = 1920) :
    ∃ md', delMetaGo adj (us ++ MetaHdr.zero :: ts) md
        = .ret (us.map (shiftMeta adj) ++ MetaHdr.zero :: MetaHdr.zero :: ts, md') ∧
      md'.length = 1920 ∧ (∀ j, j < off - adj → md'[j]? = md[j]?) ∧
      ∀ m ∈ us, ∀ t, t < m.size.toNat →
        md'[m.offset.toNat - adj + t]? = if t < adj then md[m.offset.toNat + t]? else some 0 := by
  induction us generalizing off md with
  | nil =>
    have hz : MetaHdr.zero.id = 0 := rfl
    refine ⟨md, ?_, hl, fun _ _ => rfl, by simp⟩
    simp [delMetaGo, delMetaMove, hz]
  | cons a us ih =>
    obtain ⟨h1, h2, h3, h4⟩ := hp
    obtain ⟨md1, e1, l1, p1⟩ := delMetaMove_ok (adj := adj) (nx := a) (md := md) h1 (by omega) hl (by omega)
    have hle := metaAlignSize_le (off + a.size.toNat)
    obtain ⟨md', e2, l2, q1, q2⟩ := ih h4 (by omega) l1
    refine ⟨md', ?_, l2, ?_, ?_⟩
    · have hs : (shiftMeta adj a).id ≠ 0 := h1
      simp only [List.cons_append, delMetaGo, e1, if_neg hs, e2, List.map_cons]
    · intro j hj
      rw [q1 j (by omega), p1 j, if_neg (by omega), if_neg (by omega)]
    · intro m hm t ht
      rcases List.mem_cons.1 hm with rfl | hm
      · rw [q1 _ (by omega), p1]
        by_cases hta : t < adj
        · rw [if_neg (by omega), if_pos (by omega), if_pos hta]; congr 1; omega
        · rw [if_pos (by omega), if_neg hta]
      · rw [q2 m hm t ht]
        have := h4.ge m hm
        split
        · rw [p1, if_neg (by omega), if_neg (by omega)]
        · rfl

theorem Packed.shift {adj off : Nat} {us : List MetaHdr} (hp : Packed off us) (ha : adj ≤ off)
    (h8 : adj % 8 = 0) : Packed (off - adj) (us.map (shiftMeta adj)) := by
  induction us generalizing off with
  | nil => trivial
  | cons a us ih =>
    obtain ⟨h1, h2, h3, h4⟩ := hp
    refine ⟨h1, by rw [shiftMeta_off, h2], by simp only [shiftMeta]; omega, ?_⟩
    have hle := metaAlignSize_le (off + a.size.toNat)
    have e : metaAlignSize (off - adj + (shiftMeta adj a).size.toNat)
        = metaAlignSize (off + a.size.toNat) - adj := by
      simp only [shiftMeta, metaAlignSize]; omega
    rw [e]
    exact ih h4 (by omega)

theorem MetaInv.used {h : Header} {us : List MetaHdr} {k : Nat} (inv : MetaInv h us k) :
    usedMetas h = us := by
  unfold usedMetas
  rw [inv.slots]
  have hid := inv.packed.ids
  rw [List.takeWhile_append_of_pos (by simpa using hid)]
  have : List.takeWhile (fun m => decide (m.id ≠ 0)) (List.replicate k MetaHdr.zero) = [] := by
    cases k with
    | zero => rfl
    | succ k => rw [List.replicate_succ, List.takeWhile_cons]; simp [MetaHdr.zero]
  rw [this, List.append_nil]

/-- Deleting entry `m` between `pre` and `post`. -/
theorem delMeta_inv {h : Header} {pre post : List MetaHdr} {m : MetaHdr} {k : Nat}
    (inv : MetaInv h (pre ++ m :: post) (k+1)) :
    ∃ h', delMeta h pre.length = .ret h' ∧
      MetaInv h' (pre ++ post.map (shiftMeta (metaAlignSize m.size.toNat))) (k+2) ∧
      h' = { h with metas := h'.metas, metadata := h'.metadata } ∧
      (∀ j, j < m.offset.toNat → h'.metadata[j]? = h.metadata[j]?) ∧
      ∀ p ∈ post, ∀ t, t < p.size.toNat →
        h'.metadata[p.offset.toNat - metaAlignSize m.size.toNat + t]? =
          if t < metaAlignSize m.size.toNat then h.metadata[p.offset.toNat + t]? else some 0 := by
  obtain ⟨hs, hlen, hp, hd, hmd⟩ := inv
  rw [Packed.append_iff] at hp
  obtain ⟨hp1, hp2⟩ := hp
  have ⟨m1, m2, m3, m4⟩ := hp2
  have h8 := metaAlignSize_mod m.size.toNat
  have hoff8 := endOff_mod (off := 0) pre (by omega)
  have hadd : metaAlignSize (endOff 0 pre + m.size.toNat) = endOff 0 pre + metaAlignSize m.size.toNat :=
    metaAlignSize_add hoff8
  have hadj : metaAlignSize m.size.toNat ≤ 1920 := metaAlignSize_1920 (by omega)
  unfold delMeta
  have hget : h.metas[pre.length]? = some m := by
    rw [hs]; simp
  have hdrop : h.metas.drop (pre.length + 1) = post ++ MetaHdr.zero :: List.replicate k MetaHdr.zero := by
    rw [hs, ← List.replicate_succ]; simp
  have htake : h.metas.take pre.length = pre := by
    rw [hs, List.append_assoc, List.take_left]
  have hmod : metaAlignSize m.size.toNat % 65536 = metaAlignSize m.size.toNat := Nat.mod_eq_of_lt (by omega)
  rw [hget]
  simp only [hmod, hdrop, htake]
  rw [hadd] at m4
  obtain ⟨md', e, l, q1, q2⟩ := delMetaGo_packed post (List.replicate k MetaHdr.zero) m4
    (Nat.le_add_left _ _) hmd
  rw [e]
  refine ⟨_, rfl, ⟨?_, ?_, ?_, ?_, l⟩, rfl, ?_, q2⟩
  · simp [List.replicate_succ]
  · simp at hlen ⊢; omega
  · rw [Packed.append_iff]
    refine ⟨hp1, ?_⟩
    have := m4.shift (Nat.le_add_left _ _) h8
    rwa [Nat.add_sub_cancel] at this
  · rw [List.pairwise_append] at hd ⊢
    obtain ⟨d1, d2, d3⟩ := hd
    refine ⟨d1, ?_, ?_⟩
    · rw [List.pairwise_map]; exact (List.pairwise_cons.1 d2).2
    · intro a ha b hb
      rw [List.mem_map] at hb
      obtain ⟨b', hb', rfl⟩ := hb
      exact d3 a ha b' (List.mem_cons_of_mem _ hb')
  · intro j hj
    exact q1 j (by omega)

/-- With a full table the final memset leaves the array. -/
theorem delMetaGo_full {adj : Nat} (us : List MetaHdr) {md : Bytes} (hp : ∀ m ∈ us, m.id ≠ 0) :
    delMetaGo adj us md = .ub := by
  induction us generalizing md with
  | nil => rfl
  | cons a us ih =>
    have ha := hp a (by simp)
    unfold delMetaGo
    split
    · rfl
    · rename_i nx' md' he
      have : nx'.id = a.id := by
        unfold delMetaMove at he
        rw [if_pos ha] at he
        split at he
        · cases he
        · split at he
          · cases he
          · split at he
            · cases he
            · split at he
              · cases he
              · cases he; rfl
      rw [if_neg (by rw [this]; exact ha), ih (fun m hm => hp m (List.mem_cons_of_mem _ hm))]

end Bpak
