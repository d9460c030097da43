import Verif.Proof.Merkle
namespace Bpak

/-- Canonical form of feeding data: the pending bytes of the current block and the new ones. -/
def absorb {σ : Type} (H : HashFn) (io : MIo σ) (salt : Bytes) (base c : Nat) (s : σ) (all : Bytes) : Except Err (σ × Nat × Bytes) :=
  if h : all.length < 4096 then .ok (s, c, all)
  else match io.wr s (base + c) (H hashSha256 (salt ++ all.take 4096)) with
    | .error e => .error e
    | .ok s => absorb H io salt base (c + 32) s (all.drop 4096)
  termination_by all.length
  decreasing_by simp; omega

theorem absorb_lt {σ : Type} (H : HashFn) (io : MIo σ) (salt : Bytes) (base c : Nat) (s : σ) (all : Bytes) (h : all.length < 4096) :
    absorb H io salt base c s all = .ok (s, c, all) := by
  unfold absorb; rw [dif_pos h]

theorem absorb_ge {σ : Type} (H : HashFn) (io : MIo σ) (salt : Bytes) (base c : Nat) (s : σ) (all : Bytes) (h : ¬ all.length < 4096) :
    absorb H io salt base c s all = match io.wr s (base + c) (H hashSha256 (salt ++ all.take 4096)) with
    | .error e => .error e
    | .ok s => absorb H io salt base (c + 32) s (all.drop 4096) := by
  conv => lhs; unfold absorb
  rw [dif_neg h]

/-- The context `m0` after feeding `c / 32` blocks and the bytes `w` of the next. -/
structure Pend (m0 m : Merkle) (c : Nat) (w : Bytes) : Prop where
  il : m.inputLen = m0.inputLen
  salt : m.salt = m0.salt
  ll : m.levelLen = m0.levelLen
  lo : m.levelOff = m0.levelOff
  tl : m.treeLen = m0.treeLen
  off : m.offset = m0.offset
  cc : m.chunkCounter = c
  wl : w.length < 4096
  bc : m.blockCounter = 4096 - w.length
  run : w ≠ [] → m.running = ⟨hashSha256, m0.salt ++ w⟩
  fin : m.finished = false

/-- one pass of the loop -/
theorem merkleWriteGo_step {σ : Type} (H : HashFn) (io : MIo σ) (m0 m : Merkle) (c : Nat) (w : Bytes) (hp : Pend m0 m c w)
    (k : Nat) (s : σ) (d : Bytes) (hd : d ≠ []) :
    ∃ m1 : Merkle, Pend m0 { m1 with blockCounter := 4096, chunkCounter := c + 32 } (c + 32) [] ∧
      ((w ++ d).length < 4096 → ∃ m2 : Merkle, Pend m0 m2 c (w ++ d) ∧ merkleWriteGo H io (k+1) m s d = merkleWriteGo H io k m2 s []) ∧
      (4096 ≤ (w ++ d).length → m1.buffer = H hashSha256 (m0.salt ++ (w ++ d).take 4096) ∧ merkleWriteGo H io (k+1) m s d =
        match io.wr s (m0.offset + (c + m0.levelOff.getD 0 0)) (H hashSha256 (m0.salt ++ (w ++ d).take 4096)) with
        | .error e => .error e
        | .ok s =>
          if m0.inputLen = 4096 then .ok ({ m1 with blockCounter := 4096, chunkCounter := c + 32, finished := true }, s)
          else merkleWriteGo H io k { m1 with blockCounter := 4096, chunkCounter := c + 32 } s (d.drop (4096 - w.length))) := by
  have hdl := List.length_pos_iff.2 hd
  obtain ⟨il, sal, ll, lo, tl, off, cc, bc, run, buf, fin⟩ := m
  obtain ⟨h1, h2, h3, h4, h5, h6, h7, h8, h9, h10, h11⟩ := hp
  simp only at h1 h2 h3 h4 h5 h6 h7 h9 h10 h11
  subst h1 h2 h3 h4 h5 h6 h7 h11
  -- the running hash once the salt is in
  have hrun : ∃ r : HashCtx, r = ⟨hashSha256, m0.salt ++ w⟩ ∧
      (if bc = 4096 then (⟨m0.inputLen, m0.salt, m0.levelLen, m0.levelOff, m0.treeLen, m0.offset, cc, bc, hashUpdate ⟨hashSha256, []⟩ m0.salt, buf, false⟩ : Merkle)
        else ⟨m0.inputLen, m0.salt, m0.levelLen, m0.levelOff, m0.treeLen, m0.offset, cc, bc, run, buf, false⟩) =
      ⟨m0.inputLen, m0.salt, m0.levelLen, m0.levelOff, m0.treeLen, m0.offset, cc, bc, r, buf, false⟩ := by
    by_cases hw : w = []
    · subst hw
      rw [if_pos (by rw [h9]; simp)]
      exact ⟨_, by simp [hashUpdate], rfl⟩
    · have := List.length_pos_iff.2 hw
      rw [if_neg (by omega)]
      exact ⟨run, h10 hw, rfl⟩
  obtain ⟨r, hr, hm⟩ := hrun
  refine ⟨⟨m0.inputLen, m0.salt, m0.levelLen, m0.levelOff, m0.treeLen, m0.offset, cc, 4096, ⟨hashSha256, m0.salt ++ (w ++ d).take 4096⟩,
    H hashSha256 (m0.salt ++ (w ++ d).take 4096), false⟩, ?_, ?_, ?_⟩
  · exact ⟨rfl, rfl, rfl, rfl, rfl, rfl, rfl, by simp, rfl, by simp, rfl⟩
  · intro hlt
    rw [List.length_append] at hlt
    refine ⟨⟨m0.inputLen, m0.salt, m0.levelLen, m0.levelOff, m0.treeLen, m0.offset, cc, bc - min bc d.length, hashUpdate r (d.take (min bc d.length)), buf, false⟩, ?_, ?_⟩
    · refine ⟨rfl, rfl, rfl, rfl, rfl, rfl, rfl, by rw [List.length_append]; exact hlt, ?_, ?_, rfl⟩
      · simp only [List.length_append]; omega
      · intro _
        simp only
        rw [hr, Nat.min_eq_right (by omega), List.take_length]
        simp [hashUpdate]
    · rw [merkleWriteGo, if_neg hd]
      simp only [hm]
      rw [if_neg (by omega)]
      rw [show d.drop (min bc d.length) = [] by rw [List.drop_eq_nil_iff]; omega]
  · intro hge
    rw [List.length_append] at hge
    refine ⟨rfl, ?_⟩
    have hmin : min bc d.length = 4096 - w.length := by omega
    have hfed : hashUpdate r (d.take (min bc d.length)) = ⟨hashSha256, m0.salt ++ (w ++ d).take 4096⟩ := by
      rw [hr, hmin, List.take_append, List.take_of_length_le (by omega : w.length ≤ 4096)]
      simp [hashUpdate]
    rw [merkleWriteGo, if_neg hd]
    simp only [hm]
    rw [if_pos (by omega)]
    simp only [hfed]
    rw [hmin]
    cases io.wr s (m0.offset + (cc + m0.levelOff.getD 0 0)) (H hashSha256 (m0.salt ++ (w ++ d).take 4096)) with
    | error e => rfl
    | ok s => rfl

theorem merkleWriteGo_nil {σ : Type} (H : HashFn) (io : MIo σ) (k : Nat) (m : Merkle) (s : σ) :
    merkleWriteGo H io k m s [] = .ok (m, s) := by
  cases k <;> simp [merkleWriteGo]

/-- One call, when the input is longer than one block. -/
theorem merkleWriteGo_absorb {σ : Type} (H : HashFn) (io : MIo σ) (m0 : Merkle) (hne : m0.inputLen ≠ 4096) :
    ∀ (k : Nat) (m : Merkle) (c : Nat) (w : Bytes) (s : σ) (d : Bytes), Pend m0 m c w → d.length ≤ k →
      match absorb H io m0.salt (m0.offset + m0.levelOff.getD 0 0) c s (w ++ d) with
      | .error e => merkleWriteGo H io k m s d = .error e
      | .ok (s', c', w') => ∃ m', Pend m0 m' c' w' ∧ merkleWriteGo H io k m s d = .ok (m', s') := by
  intro k
  induction k with
  | zero =>
    intro m c w s d hp hk
    have : d = [] := List.eq_nil_of_length_eq_zero (by omega)
    subst this
    unfold absorb
    rw [List.append_nil, dif_pos hp.wl]
    exact ⟨m, hp, merkleWriteGo_nil _ _ _ _ _⟩
  | succ k ih =>
    intro m c w s d hp hk
    by_cases hd : d = []
    · subst hd
      unfold absorb
      rw [List.append_nil, dif_pos hp.wl]
      exact ⟨m, hp, merkleWriteGo_nil _ _ _ _ _⟩
    · obtain ⟨m1, hp1, a1, a2⟩ := merkleWriteGo_step H io m0 m c w hp k s d hd
      unfold absorb
      have hdl := List.length_pos_iff.2 hd
      split
      · rename_i x e he
        split at he
        · cases he
        · rename_i hge
          obtain ⟨_, a2⟩ := a2 (by omega)
          rw [a2]
          rw [show m0.offset + (c + m0.levelOff.getD 0 0) = m0.offset + m0.levelOff.getD 0 0 + c by omega]
          cases hw : io.wr s (m0.offset + m0.levelOff.getD 0 0 + c) (H hashSha256 (m0.salt ++ (w ++ d).take 4096)) with
          | error e2 => rw [hw] at he; cases he; rfl
          | ok s2 =>
            rw [hw] at he
            simp only at he ⊢
            rw [if_neg hne]
            have := ih _ (c + 32) [] s2 (d.drop (4096 - w.length)) hp1 (by simp; have := hp.wl; omega)
            have e3 : [] ++ d.drop (4096 - w.length) = (w ++ d).drop 4096 := by
              rw [List.drop_append, List.drop_eq_nil_of_le (by have := hp.wl; omega : w.length ≤ 4096)]
            rw [e3, he] at this
            exact this
      · rename_i x s' c' w' he
        split at he
        · rename_i hlt
          cases he
          obtain ⟨m2, b1, b2⟩ := a1 hlt
          exact ⟨m2, b1, by rw [b2]; exact merkleWriteGo_nil _ _ _ _ _⟩
        · rename_i hge
          obtain ⟨_, a2⟩ := a2 (by omega)
          rw [a2]
          rw [show m0.offset + (c + m0.levelOff.getD 0 0) = m0.offset + m0.levelOff.getD 0 0 + c by omega]
          cases hw : io.wr s (m0.offset + m0.levelOff.getD 0 0 + c) (H hashSha256 (m0.salt ++ (w ++ d).take 4096)) with
          | error e2 => rw [hw] at he; cases he
          | ok s2 =>
            rw [hw] at he
            simp only at he ⊢
            rw [if_neg hne]
            have := ih _ (c + 32) [] s2 (d.drop (4096 - w.length)) hp1 (by simp; have := hp.wl; omega)
            have e3 : [] ++ d.drop (4096 - w.length) = (w ++ d).drop 4096 := by
              rw [List.drop_append, List.drop_eq_nil_of_le (by have := hp.wl; omega : w.length ≤ 4096)]
            rw [e3, he] at this
            exact this

theorem absorb_append {σ : Type} (H : HashFn) (io : MIo σ) (salt : Bytes) (base c : Nat) (s : σ) (a b : Bytes) :
    absorb H io salt base c s (a ++ b) =
      match absorb H io salt base c s a with
      | .error e => .error e
      | .ok (s', c', w') => absorb H io salt base c' s' (w' ++ b) := by
  induction hn : a.length using Nat.strongRecOn generalizing a c s with
  | ind n ih =>
    by_cases h : a.length < 4096
    · rw [absorb_lt _ _ _ _ _ _ a h]
    · rw [absorb_ge _ _ _ _ _ _ a h, absorb_ge _ _ _ _ _ _ (a ++ b) (by simp; omega)]
      rw [List.take_append_of_le_length (by omega), List.drop_append_of_le_length (by omega)]
      cases io.wr s (base + c) (H hashSha256 (salt ++ a.take 4096)) with
      | error e => rfl
      | ok s2 => exact ih (a.drop 4096).length (by simp; omega) _ _ _ rfl

/-- All the calls, when the input is longer than one block. -/
theorem merkleWriteAll_absorb {σ : Type} (H : HashFn) (io : MIo σ) (m0 : Merkle) (hne : m0.inputLen ≠ 4096) (ds : List Bytes) :
    ∀ (m : Merkle) (c : Nat) (w : Bytes) (s : σ), Pend m0 m c w →
      match absorb H io m0.salt (m0.offset + m0.levelOff.getD 0 0) c s (w ++ ds.flatten) with
      | .error e => merkleWriteAll H io m s ds = .error e
      | .ok (s', c', w') => ∃ m', Pend m0 m' c' w' ∧ merkleWriteAll H io m s ds = .ok (m', s') := by
  induction ds with
  | nil =>
    intro m c w s hp
    unfold absorb
    rw [List.flatten_nil, List.append_nil, dif_pos hp.wl]
    exact ⟨m, hp, rfl⟩
  | cons d ds ih =>
    intro m c w s hp
    rw [List.flatten_cons, ← List.append_assoc, absorb_append]
    have h1 := merkleWriteGo_absorb H io m0 hne d.length m c w s d hp (by omega)
    unfold merkleWriteAll merkleWriteChunk
    cases ha : absorb H io m0.salt (m0.offset + m0.levelOff.getD 0 0) c s (w ++ d) with
    | error e =>
      rw [ha] at h1
      simp only at h1 ⊢
      rw [h1]
    | ok x =>
      obtain ⟨s', c', w'⟩ := x
      rw [ha] at h1
      simp only at h1 ⊢
      obtain ⟨m', hp', e'⟩ := h1
      rw [e']
      exact ih m' c' w' s' hp'

/-- All the calls, when the input is one block. -/
theorem merkleWriteAll_one {σ : Type} (H : HashFn) (io : MIo σ) (m0 : Merkle) (hne : m0.inputLen = 4096) (ds : List Bytes) :
    ∀ (m : Merkle) (w : Bytes) (s : σ), Pend m0 m 0 w → (w ++ ds.flatten).length = 4096 →
      match io.wr s (m0.offset + m0.levelOff.getD 0 0) (H hashSha256 (m0.salt ++ (w ++ ds.flatten))) with
      | .error e => merkleWriteAll H io m s ds = .error e
      | .ok s' => ∃ m', m'.finished = true ∧ m'.buffer = H hashSha256 (m0.salt ++ (w ++ ds.flatten)) ∧ merkleWriteAll H io m s ds = .ok (m', s') := by
  induction ds with
  | nil => intro m w s hp hl; simp at hl; have := hp.wl; omega
  | cons d ds ih =>
    intro m w s hp hl
    rw [List.flatten_cons] at hl ⊢
    unfold merkleWriteAll merkleWriteChunk
    by_cases hd : d = []
    · subst hd
      rw [merkleWriteGo_nil]
      exact ih m w s hp hl
    · have hdl := List.length_pos_iff.2 hd
      obtain ⟨m1, hp1, a1, a2⟩ := merkleWriteGo_step H io m0 m 0 w hp (d.length - 1) s d hd
      rw [show d.length - 1 + 1 = d.length by omega] at a1 a2
      simp only [List.length_append] at hl
      by_cases hlt : (w ++ d).length < 4096
      · obtain ⟨m2, b1, b2⟩ := a1 hlt
        rw [b2, merkleWriteGo_nil]
        have := ih m2 (w ++ d) s b1 (by simp only [List.length_append]; omega)
        rw [← List.append_assoc w]
        exact this
      · rw [List.length_append] at hlt
        obtain ⟨hb, a2⟩ := a2 (by rw [List.length_append]; omega)
        have hfl : ds.flatten = [] := List.eq_nil_of_length_eq_zero (by omega)
        have hall : (w ++ d).take 4096 = w ++ d := List.take_of_length_le (by rw [List.length_append]; omega)
        rw [a2, hall, Nat.zero_add, hfl, List.append_nil]
        rw [hall] at hb
        cases hw : io.wr s (m0.offset + m0.levelOff.getD 0 0) (H hashSha256 (m0.salt ++ (w ++ d))) with
        | error e => rfl
        | ok s' =>
          simp only
          rw [if_pos hne]
          simp only
          have hrest : ∀ (ds : List Bytes), ds.flatten = [] → ∀ m, merkleWriteAll H io m s' ds = .ok (m, s') := by
            intro ds
            induction ds with
            | nil => intro _ m; rfl
            | cons x xs ihx =>
              intro hx m
              rw [List.flatten_cons, List.append_eq_nil_iff] at hx
              unfold merkleWriteAll merkleWriteChunk
              rw [hx.1, merkleWriteGo_nil]
              exact ihx hx.2 m
          exact ⟨{ m1 with blockCounter := 4096, chunkCounter := 0 + 32, finished := true }, rfl, hb, hrest ds hfl _⟩

end Bpak
