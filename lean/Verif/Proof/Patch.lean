import Verif.Model.Patch
/-! The chunked patch decoder equals a byte-at-a-time decoder. -/
namespace Bpak

/-- Reads of adjacent pieces compose, and a successful read returns the number of bytes asked for. -/
structure RdLaw (rd : Int → Nat → Option Bytes) : Prop where
  len : ∀ p n x, rd p n = some x → x.length = n
  app : ∀ p a b, rd p (a + b) = (rd p a).bind fun x => (rd (p + a) b).map (x ++ ·)

/-- Lift of the outcome monad. -/
def POut.bind (x : POut) (f : Patcher → POut) : POut :=
  match x with
  | .ok p => f p
  | .fail rc => .fail rc
  | .ub => .ub
  | .hang => .hang

@[simp] theorem POut.bind_ok (p : Patcher) (f : Patcher → POut) : (POut.ok p).bind f = f p := rfl
@[simp] theorem POut.bind_fail (e : Err) (f : Patcher → POut) : (POut.fail e).bind f = .fail e := rfl
@[simp] theorem POut.bind_ub (f : Patcher → POut) : POut.ub.bind f = .ub := rfl
@[simp] theorem POut.bind_hang (f : Patcher → POut) : POut.hang.bind f = .hang := rfl
theorem POut.bind_assoc (x : POut) (f g : Patcher → POut) : (x.bind f).bind g = x.bind (fun p => (f p).bind g) := by
  cases x <;> rfl

def afterDiff (p : Patcher) : Patcher :=
  if p.diff = 0 then (if p.extra > 0 then { p with st := .applyExtra } else p.nextRecord) else p

/-- leave the diff phase when no diff byte is due -/
def settle (c : PatchCfg) (p : Patcher) : POut :=
  if p.st = .applyDiff then
    if p.diff < 0 then .ub
    else if p.diff = 0 then
      match c.rd (c.originOff + p.originPos) 0 with
      | none => .fail .patchReadOriginError
      | some _ => .ok (afterDiff p)
    else .ok p
  else .ok p

def loadCtrl (p : Patcher) : Patcher :=
  { p with
      diff := offtin (p.ctrl.take 8)
      extra := offtin ((p.ctrl.drop 8).take 8)
      adjust := offtin ((p.ctrl.drop 16).take 8)
      st := .applyDiff }

/-- consume one byte; in diff state at least one byte is due -/
def eatByte (c : PatchCfg) (p : Patcher) (b : U8) : POut :=
  match p.st with
  | .fillCtrl =>
    let p := { p with ctrl := p.ctrl ++ [b] }
    .ok (if p.ctrl.length = 24 then loadCtrl p else p)
  | .applyDiff =>
    match c.rd (c.originOff + p.originPos) 1 with
    | none => .fail .patchReadOriginError
    | some o => .ok (afterDiff { p with
        diff := p.diff - 1
        originPos := p.originPos + 1
        out := fileWrite p.out (c.outOff + p.outPos) (List.zipWith (· + ·) o [b])
        outPos := p.outPos + 1 })
  | .applyExtra =>
    let p := { p with
        extra := p.extra - 1
        out := fileWrite p.out (c.outOff + p.outPos) [b]
        outPos := p.outPos + 1 }
    .ok (if p.extra = 0 then p.nextRecord else p)
  | _ => .fail .failed

def byteStep (c : PatchCfg) (p : Patcher) (b : U8) : POut := (settle c p).bind (fun p => eatByte c p b)

def foldBytes (c : PatchCfg) (p : Patcher) : Bytes → POut
  | [] => .ok p
  | b :: bs => (byteStep c p b).bind (fun p => foldBytes c p bs)

theorem foldBytes_append (c : PatchCfg) (p : Patcher) (a b : Bytes) :
    foldBytes c p (a ++ b) = (foldBytes c p a).bind (fun p => foldBytes c p b) := by
  induction a generalizing p with
  | nil => rfl
  | cons x a ih =>
    simp only [List.cons_append, foldBytes, POut.bind_assoc]
    congr 1; funext q; exact ih q

/-- Well-formed context between calls. -/
structure PInv (p : Patcher) : Prop where
  fill : p.st = .fillCtrl → p.ctrl.length < 24
  noread : p.st ≠ .readCtrl
  extra : p.st = .applyExtra → p.extra > 0
  noerr : p.st ≠ .error

theorem PInv.init (f : Bytes) : PInv (Patcher.init f) := ⟨by simp [Patcher.init], by simp [Patcher.init], by simp [Patcher.init], by simp [Patcher.init]⟩

theorem pinv_nextRecord (p : Patcher) : PInv p.nextRecord := by
  constructor <;> simp [Patcher.nextRecord]

theorem pinv_afterDiff {p : Patcher} (h : p.st = .applyDiff) : PInv (afterDiff p) := by
  unfold afterDiff
  split
  · split
    · rename_i he; constructor <;> simp; omega
    · exact pinv_nextRecord p
  · constructor <;> simp [h]

theorem pinv_loadCtrl (p : Patcher) : PInv (loadCtrl p) := by
  constructor <;> simp [loadCtrl]

/-- settle either fails or yields a context that is not waiting with zero diff -/
theorem settle_inv {c : PatchCfg} {p q : Patcher} (hp : PInv p) (h : settle c p = .ok q) :
    PInv q ∧ (q.st = .applyDiff → q.diff > 0) := by
  unfold settle at h
  split at h
  · rename_i hs
    split at h
    · cases h
    · split at h
      · split at h
        · cases h
        · cases h
          refine ⟨pinv_afterDiff hs, ?_⟩
          unfold afterDiff
          rename_i h0 _ _ _
          rw [if_pos h0]
          split <;> simp [Patcher.nextRecord]
      · cases h; exact ⟨hp, fun _ => by omega⟩
  · cases h
    rename_i hs
    exact ⟨hp, fun h => absurd h hs⟩

theorem eatByte_inv {c : PatchCfg} {p q : Patcher} {b : U8} (hp : PInv p) (h : eatByte c p b = .ok q) : PInv q := by
  unfold eatByte at h
  cases hs : p.st with
  | fillCtrl =>
    rw [hs] at h
    simp only [POut.ok.injEq] at h
    subst h
    split
    · exact pinv_loadCtrl _
    · rename_i hl
      have := hp.fill hs
      constructor <;> simp_all
      omega
  | applyDiff =>
    rw [hs] at h
    simp only at h
    split at h
    · cases h
    · cases h
      exact pinv_afterDiff (by simp)
  | applyExtra =>
    rw [hs] at h
    simp only [POut.ok.injEq] at h
    subst h
    have := hp.extra hs
    split
    · exact pinv_nextRecord _
    · constructor <;> simp
      omega
  | readCtrl => rw [hs] at h; cases h
  | error => rw [hs] at h; cases h

theorem foldBytes_inv {c : PatchCfg} {p q : Patcher} {b : Bytes} (hp : PInv p) (h : foldBytes c p b = .ok q) : PInv q := by
  induction b generalizing p with
  | nil => cases h; exact hp
  | cons x b ih =>
    unfold foldBytes byteStep at h
    cases h1 : settle c p with
    | ok p1 =>
      rw [h1] at h
      simp only [POut.bind_ok] at h
      cases h2 : eatByte c p1 x with
      | ok p2 =>
        rw [h2] at h
        exact ih (eatByte_inv (settle_inv hp h1).1 h2) h
      | fail => rw [h2] at h; cases h
      | ub => rw [h2] at h; cases h
      | hang => rw [h2] at h; cases h
    | fail => rw [h1] at h; cases h
    | ub => rw [h1] at h; cases h
    | hang => rw [h1] at h; cases h

/-- a run of control bytes -/
theorem foldBytes_fill (c : PatchCfg) (p : Patcher) (x : Bytes) (hs : p.st = .fillCtrl)
    (hl : p.ctrl.length + x.length ≤ 24) (h24 : p.ctrl.length < 24) :
    foldBytes c p x = .ok (if (p.ctrl ++ x).length = 24 then loadCtrl { p with ctrl := p.ctrl ++ x }
      else { p with ctrl := p.ctrl ++ x }) := by
  induction x generalizing p with
  | nil =>
    simp only [foldBytes, List.append_nil]
    rw [if_neg (by omega)]
  | cons b x ih =>
    have e : byteStep c p b = eatByte c p b := by
      unfold byteStep settle; rw [hs]; simp
    unfold foldBytes
    rw [e]
    unfold eatByte
    rw [hs]
    simp only [POut.bind_ok]
    by_cases hx : x = []
    · subst hx
      simp only [foldBytes]
    · have hx' : 0 < x.length := List.length_pos_iff.2 hx
      simp only [List.length_cons] at hl
      rw [if_neg (by simp; omega)]
      have := ih { p with ctrl := p.ctrl ++ [b] } hs (by simp; omega) (by simp; omega)
      simp only [hs] at this
      rw [this]
      simp [List.append_assoc]

/-- a run of extra bytes -/
theorem foldBytes_extra (c : PatchCfg) (p : Patcher) (x : Bytes) (hs : p.st = .applyExtra) (hx : x ≠ [])
    (hl : (x.length : Int) ≤ p.extra) :
    foldBytes c p x = .ok (
      let p' := { p with extra := p.extra - x.length, out := fileWrite p.out (c.outOff + p.outPos) x, outPos := p.outPos + x.length }
      if p'.extra = 0 then p'.nextRecord else p') := by
  induction x generalizing p with
  | nil => exact absurd rfl hx
  | cons b x ih =>
    have e : byteStep c p b = eatByte c p b := by
      unfold byteStep settle; rw [hs]; simp
    unfold foldBytes
    rw [e]
    unfold eatByte
    rw [hs]
    simp only [POut.bind_ok]
    by_cases hx : x = []
    · subst hx
      simp [foldBytes]
    · have hx' : 0 < x.length := List.length_pos_iff.2 hx
      simp only [List.length_cons] at hl
      rw [if_neg (by omega)]
      rw [ih _ rfl hx (by simp only; omega)]
      simp only [List.length_cons]
      rw [show p.extra - 1 - (x.length : Int) = p.extra - ((x.length + 1 : Nat) : Int) by omega,
        show p.outPos + 1 + x.length = p.outPos + (x.length + 1) by omega,
        show c.outOff + (p.outPos + 1) = c.outOff + p.outPos + [b].length by simp; omega,
        fileWrite_append]
      rfl

/-- a run of diff bytes -/
theorem foldBytes_diff (c : PatchCfg) (hl : RdLaw c.rd) (p : Patcher) (x : Bytes) (hs : p.st = .applyDiff) (hx : x ≠ [])
    (hd : (x.length : Int) ≤ p.diff) :
    foldBytes c p x =
      match c.rd (c.originOff + p.originPos) x.length with
      | none => .fail .patchReadOriginError
      | some o => .ok (afterDiff { p with
          diff := p.diff - x.length
          originPos := p.originPos + x.length
          out := fileWrite p.out (c.outOff + p.outPos) (List.zipWith (· + ·) o x)
          outPos := p.outPos + x.length }) := by
  induction x generalizing p with
  | nil => exact absurd rfl hx
  | cons b x ih =>
    simp only [List.length_cons] at hd
    have e : byteStep c p b = eatByte c p b := by
      unfold byteStep settle; rw [hs, if_pos rfl, if_neg (by omega), if_neg (by omega)]; rfl
    unfold foldBytes
    rw [e]
    unfold eatByte
    rw [hs]
    simp only [List.length_cons]
    rw [show x.length + 1 = 1 + x.length by omega, hl.app]
    cases h1 : c.rd (c.originOff + p.originPos) 1 with
    | none => rfl
    | some o1 =>
      simp only [POut.bind_ok, Option.bind_some]
      by_cases hx : x = []
      · subst hx
        simp only [foldBytes, List.length_nil]
        have h0 := hl.app (c.originOff + p.originPos) 1 0
        rw [Nat.add_zero, h1] at h0
        simp only [Option.bind_some] at h0
        cases h2 : c.rd (c.originOff + p.originPos + ((1 : Nat) : Int)) 0 with
        | none => rw [h2] at h0; cases h0
        | some o2 =>
          rw [h2] at h0
          simp only [Option.map_some, Option.some.injEq] at h0
          simp only [Option.map_some, ← h0]
          simp
      · have hx' : 0 < x.length := List.length_pos_iff.2 hx
        have hne : ∀ q : Patcher, q.diff = p.diff - 1 → afterDiff q = q := by
          intro q hq; unfold afterDiff; rw [if_neg (by omega)]
        rw [hne _ rfl]
        rw [ih _ rfl hx (by simp only; omega)]
        simp only
        rw [show c.originOff + (p.originPos + 1) = c.originOff + p.originPos + ((1 : Nat) : Int) by omega]
        cases h2 : c.rd (c.originOff + p.originPos + ((1 : Nat) : Int)) x.length with
        | none => rfl
        | some o2 =>
          simp only [Option.map_some]
          have l1 := hl.len _ _ _ h1
          have hz : List.zipWith (· + ·) (o1 ++ o2) (b :: x) = List.zipWith (· + ·) o1 [b] ++ List.zipWith (· + ·) o2 x := by
            match o1, l1 with
            | [a], _ => rfl
          rw [hz, ← fileWrite_append]
          have hzl : (List.zipWith (· + ·) o1 [b]).length = 1 := by
            rw [List.length_zipWith, l1]; rfl
          rw [hzl]
          rw [show p.diff - 1 - (x.length : Int) = p.diff - ((1 + x.length : Nat) : Int) by omega,
            show p.originPos + 1 + (x.length : Int) = p.originPos + ((1 + x.length : Nat) : Int) by omega,
            show p.outPos + 1 + x.length = p.outPos + (1 + x.length) by omega,
            show c.outOff + (p.outPos + 1) = c.outOff + p.outPos + 1 by omega]

def rank : PState → Nat
  | .readCtrl => 3 | .applyDiff => 2 | .applyExtra => 1 | .fillCtrl => 0 | .error => 0

/-- context during the loop (may be about to read the control block) -/
def LoopInv (p : Patcher) : Prop := (p.st = .readCtrl ∧ p.ctrl.length = 24) ∨ PInv p

def unread (p : Patcher) : Patcher := if p.st = .readCtrl then loadCtrl p else p

theorem patchLoop_eq (c : PatchCfg) (hl : RdLaw c.rd) (hb : 0 < c.bufLen) :
    ∀ (n : Nat) (p : Patcher) (b : Bytes), LoopInv p → (b ≠ [] ∨ p.st = .readCtrl) → 4 * b.length + rank p.st < n →
      (patchLoop c n p b).out = foldBytes c (unread p) b := by
  intro n
  induction n with
  | zero => intro p b _ _ h; omega
  | succ n ih =>
    intro p b hp hne hn
    unfold patchLoop patchIter
    cases hs : p.st with
    | readCtrl =>
      simp only
      have eu : unread p = loadCtrl p := by unfold unread; rw [if_pos hs]
      rw [eu]
      by_cases hb0 : b = []
      · subst hb0; rfl
      · rw [if_neg hb0]
        simp only
        have := ih (loadCtrl p) b (.inr (pinv_loadCtrl p)) (.inl hb0) (by
          rw [hs] at hn; simp only [rank, loadCtrl] at hn ⊢; omega)
        have eu2 : unread (loadCtrl p) = loadCtrl p := by unfold unread; rw [if_neg]; simp [loadCtrl]
        rw [eu2] at this
        exact this
    | fillCtrl =>
      have hinv : PInv p := by
        rcases hp with ⟨h, _⟩ | h
        · rw [hs] at h; cases h
        · exact h
      have hb0 : b ≠ [] := by
        rcases hne with h | h
        · exact h
        · rw [hs] at h; cases h
      have h24 := hinv.fill hs
      have eu : unread p = p := by unfold unread; rw [if_neg]; rw [hs]; simp
      rw [eu]
      simp only
      rw [if_pos h24]
      have hbl : 0 < b.length := List.length_pos_iff.2 hb0
      generalize hk : min b.length (24 - p.ctrl.length) = k
      have hfold : foldBytes c p b = (foldBytes c p (b.take k)).bind (fun p => foldBytes c p (b.drop k)) := by
        rw [← foldBytes_append, List.take_append_drop]
      have htl : (b.take k).length = k := by simp; omega
      rw [hfold, foldBytes_fill c p (b.take k) hs (by omega) h24]
      simp only [POut.bind_ok]
      by_cases hfull : (p.ctrl ++ b.take k).length = 24
      · rw [if_pos hfull, if_pos hfull]
        simp only
        rw [ih _ _ (.inl ⟨rfl, hfull⟩) (.inr rfl) (by
          have : (b.drop k).length = b.length - k := by simp
          simp only [rank, this]; rw [hs] at hn; simp only [rank] at hn; omega)]
        congr 1
      · rw [if_neg hfull, if_neg hfull]
        have : b.drop k = [] := by
          rw [List.drop_eq_nil_iff]
          rw [List.length_append, htl] at hfull
          omega
        rw [this]
        simp only [hs]
        rfl
    | applyDiff =>
      have hinv : PInv p := by
        rcases hp with ⟨h, _⟩ | h
        · rw [hs] at h; cases h
        · exact h
      have hb0 : b ≠ [] := by
        rcases hne with h | h
        · exact h
        · rw [hs] at h; cases h
      have hbl : 0 < b.length := List.length_pos_iff.2 hb0
      have eu : unread p = p := by unfold unread; rw [if_neg]; rw [hs]; simp
      rw [eu]
      simp only
      generalize hd : min (min (b.length : Int) p.diff) (c.bufLen : Int) = d
      by_cases hneg : p.diff < 0
      · rw [if_pos (by omega)]
        obtain ⟨x, b', rfl⟩ := List.exists_cons_of_ne_nil hb0
        unfold foldBytes byteStep settle
        rw [if_pos hs, if_pos hneg]
        rfl
      · rw [if_neg (by omega)]
        by_cases hz : p.diff = 0
        · -- zero diff bytes: settle
          have hd0 : d = 0 := by omega
          subst hd0
          simp only [Int.toNat_zero, List.take_zero, List.drop_zero, List.zipWith_nil_right, fileWrite_nil, Int.sub_zero,
            Int.add_zero, Nat.add_zero]
          obtain ⟨x, b', hbx⟩ := List.exists_cons_of_ne_nil hb0
          have hset : settle c p = match c.rd (c.originOff + p.originPos) 0 with
              | none => .fail .patchReadOriginError
              | some _ => .ok (afterDiff p) := by
            unfold settle; rw [if_pos hs, if_neg hneg, if_pos hz]
          have hf : foldBytes c p b = (settle c p).bind (fun q => foldBytes c q b) := by
            rw [hbx]
            unfold foldBytes byteStep
            rw [POut.bind_assoc, hset]
            cases c.rd (c.originOff + p.originPos) 0 with
            | none => rfl
            | some o =>
              simp only [POut.bind_ok]
              have : settle c (afterDiff p) = .ok (afterDiff p) := by
                unfold settle afterDiff; rw [if_pos hz]; split <;> simp [Patcher.nextRecord]
              rw [this]; rfl
          rw [hf, hset]
          cases hr : c.rd (c.originOff + p.originPos) 0 with
          | none => rfl
          | some o =>
            simp only [POut.bind_ok]
            rw [if_neg hb0]
            simp only
            have hinv2 := pinv_afterDiff hs
            have heq : (if p.diff = 0 then (if p.extra > 0 then ({ p with st := .applyExtra } : Patcher) else p.nextRecord) else p) = afterDiff p := rfl
            have := ih (afterDiff p) b (.inr hinv2) (.inl hb0) (by
              rw [hs] at hn
              have hrk : rank (afterDiff p).st ≤ 1 := by
                unfold afterDiff; rw [if_pos hz]; split <;> simp [Patcher.nextRecord, rank]
              simp only [rank] at hn; omega)
            have eu2 : unread (afterDiff p) = afterDiff p := by unfold unread; rw [if_neg]; exact hinv2.noread
            rw [eu2] at this
            rw [← this]
            unfold afterDiff
            obtain ⟨st, ctrl, diff, extra, adjust, opos, outpos, out⟩ := p
            simp only at hs
            subst hs
            rfl
        · have hdpos : 0 < d := by omega
          obtain ⟨k, hk⟩ : ∃ k : Nat, d = k := ⟨d.toNat, by omega⟩
          subst hk
          simp only [Int.toNat_natCast]
          have htl : (b.take k).length = k := by simp; omega
          have htne : b.take k ≠ [] := by intro h; rw [h] at htl; simp at htl; omega
          have hfold : foldBytes c p b = (foldBytes c p (b.take k)).bind (fun p => foldBytes c p (b.drop k)) := by
            rw [← foldBytes_append, List.take_append_drop]
          rw [hfold, foldBytes_diff c hl p (b.take k) hs htne (by omega), htl]
          cases hr : c.rd (c.originOff + p.originPos) k with
          | none => rfl
          | some o =>
            simp only [POut.bind_ok]
            generalize hq : ({ p with
              diff := p.diff - (k : Int)
              originPos := p.originPos + (k : Int)
              out := fileWrite p.out (c.outOff + p.outPos) (List.zipWith (· + ·) o (b.take k))
              outPos := p.outPos + k } : Patcher) = q
            have hqs : q.st = .applyDiff := by rw [← hq]; exact hs
            have hinv2 := pinv_afterDiff hqs
            have eu2 : unread (afterDiff q) = afterDiff q := by unfold unread; rw [if_neg]; exact hinv2.noread
            have hgoal : ∀ r, r = afterDiff q →
              (match (if b.drop k = [] then PIter.done Err.ok r else PIter.more r (b.drop k)) with
                | .done rc p' => PRes.ret rc p'
                | .more p' rest => patchLoop c n p' rest
                | .ub => PRes.ub).out = foldBytes c (afterDiff q) (b.drop k) := by
              rintro r rfl
              by_cases hd0 : b.drop k = []
              · rw [if_pos hd0, hd0]; rfl
              · rw [if_neg hd0]
                simp only
                have := ih (afterDiff q) (b.drop k) (.inr hinv2) (.inl hd0) (by
                  rw [hs] at hn
                  have hrk : rank (afterDiff q).st ≤ 2 := by
                    unfold afterDiff; split
                    · split <;> simp [Patcher.nextRecord, rank]
                    · rw [hqs]; simp [rank]
                  simp only [rank] at hn
                  rw [List.length_drop]; omega)
                rw [eu2] at this
                exact this
            apply hgoal
            rw [← hq]
            unfold afterDiff
            simp only [hs]
    | applyExtra =>
      have hinv : PInv p := by
        rcases hp with ⟨h, _⟩ | h
        · rw [hs] at h; cases h
        · exact h
      have hb0 : b ≠ [] := by
        rcases hne with h | h
        · exact h
        · rw [hs] at h; cases h
      have hbl : 0 < b.length := List.length_pos_iff.2 hb0
      have eu : unread p = p := by unfold unread; rw [if_neg]; rw [hs]; simp
      rw [eu]
      have hex := hinv.extra hs
      simp only
      generalize hd : min (b.length : Int) p.extra = d
      rw [if_neg (by omega)]
      obtain ⟨k, hk⟩ : ∃ k : Nat, d = k := ⟨d.toNat, by omega⟩
      subst hk
      simp only [Int.toNat_natCast]
      have htl : (b.take k).length = k := by simp; omega
      have htne : b.take k ≠ [] := by intro h; rw [h] at htl; simp at htl; omega
      have hfold : foldBytes c p b = (foldBytes c p (b.take k)).bind (fun p => foldBytes c p (b.drop k)) := by
        rw [← foldBytes_append, List.take_append_drop]
      rw [hfold, foldBytes_extra c p (b.take k) hs htne (by omega), htl]
      simp only [POut.bind_ok, hs]
      by_cases hz : p.extra - (k : Int) = 0
      · rw [if_pos hz, if_pos hz]
        generalize hq : Patcher.nextRecord _ = q
        have hinv2 : PInv q := by rw [← hq]; exact pinv_nextRecord _
        have eu2 : unread q = q := by unfold unread; rw [if_neg]; exact hinv2.noread
        by_cases hd0 : b.drop k = []
        · rw [if_pos hd0, hd0]; rfl
        · rw [if_neg hd0]
          simp only
          have := ih q (b.drop k) (.inr hinv2) (.inl hd0) (by
            rw [hs] at hn
            have : q.st = .fillCtrl := by rw [← hq]; rfl
            rw [this]
            simp only [rank, List.length_drop] at hn ⊢; omega)
          rw [eu2] at this
          exact this
      · rw [if_neg hz, if_neg hz]
        have hd0 : b.drop k = [] := by rw [List.drop_eq_nil_iff]; omega
        rw [hd0]; rfl
    | error =>
      rcases hp with ⟨h, _⟩ | h
      · rw [hs] at h; cases h
      · exact absurd hs h.noerr

theorem bspatchWrite_eq (c : PatchCfg) (hl : RdLaw c.rd) (hb : 0 < c.bufLen) (p : Patcher) (b : Bytes) (hp : PInv p)
    (hne : b ≠ []) : (bspatchWrite c p b).out = foldBytes c p b := by
  unfold bspatchWrite
  rw [patchLoop_eq c hl hb _ p b (.inr hp) (.inl hne) (by cases p.st <;> simp only [rank] <;> omega)]
  unfold unread
  rw [if_neg hp.noread]

theorem bspatchRun_eq (c : PatchCfg) (hl : RdLaw c.rd) (hb : 0 < c.bufLen) (p : Patcher) (bs : List Bytes) (hp : PInv p)
    (hne : ∀ b ∈ bs, b ≠ []) : bspatchRun c p bs = foldBytes c p bs.flatten := by
  induction bs generalizing p with
  | nil => rfl
  | cons b bs ih =>
    unfold bspatchRun
    rw [bspatchWrite_eq c hl hb p b hp (hne b (by simp)), List.flatten_cons, foldBytes_append]
    cases hf : foldBytes c p b with
    | ok q => exact ih q (foldBytes_inv hp hf) (fun b hb => hne b (by simp [hb]))
    | fail => rfl
    | ub => rfl
    | hang => rfl

theorem foldBytes_no_hang (c : PatchCfg) (p : Patcher) (b : Bytes) : foldBytes c p b ≠ .hang := by
  induction b generalizing p with
  | nil => simp [foldBytes]
  | cons x b ih =>
    unfold foldBytes byteStep
    cases h1 : settle c p with
    | ok q =>
      simp only [POut.bind_ok]
      cases h2 : eatByte c q x with
      | ok r => exact ih r
      | fail => simp
      | ub => simp
      | hang => 
        unfold eatByte at h2
        split at h2 <;> try cases h2
        split at h2 <;> cases h2
    | fail => simp
    | ub => simp
    | hang =>
      unfold settle at h1
      split at h1
      · split at h1
        · cases h1
        · split at h1
          · split at h1 <;> cases h1
          · cases h1
      · cases h1

end Bpak
