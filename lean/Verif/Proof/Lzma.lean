import Verif.Spec.Lzma
import Verif.Proof.HsDelta
/-!
Proofs about the LZMA compressor and decompressor.
-/
namespace Bpak
variable [LzmaLib]

/-! ### The compressing side -/

/-- The compressor between calls. -/
structure LCSim (off : Nat) (f : Bytes) (s : LzComp) (fin : Bool) (taken out : Bytes) : Prop where
  ran : LzRan LzmaLib.enc s.calls fin taken out
  file : s.file = fileWrite f off out
  pos : s.pos = out.length

omit [LzmaLib] in
theorem lz_emit_calls (off : Nat) (s : LzComp) (c : LzCall) (e : Bytes) : (s.emit off c e).calls = s.calls ++ [c] := by
  unfold LzComp.emit; split <;> rfl

omit [LzmaLib] in
theorem lz_emit_file {off : Nat} {f : Bytes} {s : LzComp} {out : Bytes} (hf : s.file = fileWrite f off out) (hp : s.pos = out.length) (c : LzCall) (e : Bytes) :
    (s.emit off c e).file = fileWrite f off (out ++ e) ∧ (s.emit off c e).pos = (out ++ e).length := by
  unfold LzComp.emit
  split
  · refine ⟨?_, by simp only; rw [List.length_append, hp]⟩
    simp only
    rw [hf, hp, fileWrite_append]
  · rename_i h0
    have : e = [] := List.eq_nil_of_length_eq_zero (by omega)
    subst this
    rw [List.append_nil]
    exact ⟨hf, hp⟩

theorem LCSim.emit {off : Nat} {f : Bytes} {s : LzComp} {fin : Bool} {taken out : Bytes} (i : LCSim off f s fin taken out) (c : LzCall) (hp : c.Proper fin)
    (hr : (LzmaLib.enc s.calls c).ret = .ok) :
    LCSim off f (s.emit off c (LzmaLib.enc s.calls c).out) c.finish (taken ++ c.input.take (LzmaLib.enc s.calls c).used) (out ++ (LzmaLib.enc s.calls c).out) := by
  obtain ⟨h1, h2⟩ := lz_emit_file i.file i.pos c (LzmaLib.enc s.calls c).out
  refine ⟨?_, h1, h2⟩
  rw [lz_emit_calls]
  exact .call c i.ran hp hr

theorem lzWriteGo_ok (L : LzmaLaws) (off : Nat) (f : Bytes) : ∀ (k : Nat) (s : LzComp) (taken out rest : Bytes), LCSim off f s false taken out →
    LzmaLib.encRounds s.calls rest < k → ∃ s' out', lzWriteGo off k s rest = .ok s' ∧ LCSim off f s' false (taken ++ rest) out' := by
  intro k
  induction k with
  | zero => intro s taken out rest _ h; omega
  | succ k ih =>
    intro s taken out rest i hk
    unfold lzWriteGo
    by_cases hr : rest = []
    · rw [if_pos hr]
      subst hr
      exact ⟨s, out, rfl, by rw [List.append_nil]; exact i⟩
    · rw [if_neg hr]
      have hp : LzCall.Proper ⟨rest, 4096, false⟩ false := ⟨by simp, by simp [hr]⟩
      obtain ⟨l1, l2, l3, l4⟩ := L.enc _ _ _ _ _ i.ran hp
      have l5 := L.encNoError _ _ _ _ _ i.ran hp
      have hok : (LzmaLib.enc s.calls ⟨rest, 4096, false⟩).ret = .ok := by
        cases hx : (LzmaLib.enc s.calls ⟨rest, 4096, false⟩).ret with
        | ok => rfl
        | streamEnd => exact absurd (l3 hx) (by simp)
        | error => exact absurd hx l5
      rw [if_neg (by simp [hok])]
      have hs := i.emit _ hp hok
      obtain ⟨s', out', g1, g2⟩ := ih _ _ _ (rest.drop (LzmaLib.enc s.calls ⟨rest, 4096, false⟩).used) hs (by
        rw [lz_emit_calls]; have := l4 hok; simp only at this; omega)
      refine ⟨s', out', g1, ?_⟩
      simp only [List.append_assoc, List.take_append_drop] at g2
      exact g2

theorem lzCompRun_ok (L : LzmaLaws) (off : Nat) (f : Bytes) : ∀ (bs : List Bytes) (s : LzComp) (taken out : Bytes), LCSim off f s false taken out →
    ∃ s' out', lzCompRun off s bs = .ok s' ∧ LCSim off f s' false (taken ++ bs.flatten) out' := by
  intro bs
  induction bs with
  | nil => intro s taken out i; exact ⟨s, out, rfl, by simpa using i⟩
  | cons b bs ih =>
    intro s taken out i
    unfold lzCompRun
    obtain ⟨s1, o1, h1, h2⟩ := lzWriteGo_ok L off f (LzmaLib.encRounds s.calls b + 1) s taken out b i (by omega)
    have h1' : lzCompWrite off s b = .ok s1 := h1
    rw [h1']
    obtain ⟨s2, o2, h3, h4⟩ := ih s1 _ o1 h2
    refine ⟨s2, o2, h3, ?_⟩
    rw [List.flatten_cons, ← List.append_assoc]
    exact h4

theorem lzFinalGo_ok (L : LzmaLaws) (off : Nat) (f : Bytes) : ∀ (k : Nat) (s : LzComp) (fin : Bool) (taken out : Bytes), LCSim off f s fin taken out →
    LzmaLib.encRounds s.calls [] < k → ∃ s' z, lzFinalGo off k s = .ok s' ∧ s'.file = fileWrite f off z ∧ s'.pos = z.length ∧ XzStream taken z := by
  intro k
  induction k with
  | zero => intro s fin taken out _ h; omega
  | succ k ih =>
    intro s fin taken out i hk
    have hp : LzCall.Proper ⟨[], 4096, true⟩ fin := ⟨by simp, by simp⟩
    obtain ⟨l1, l2, l3, l4⟩ := L.enc _ _ _ _ _ i.ran hp
    have l5 := L.encNoError _ _ _ _ _ i.ran hp
    unfold lzFinalGo
    cases hx : (LzmaLib.enc s.calls ⟨[], 4096, true⟩).ret with
    | error => exact absurd hx l5
    | ok =>
      simp only
      have hs := i.emit _ hp hx
      obtain ⟨s', z, g1, g2, g3, g4⟩ := ih _ _ _ _ hs (by
        rw [lz_emit_calls]; have := l4 hx; simp only [List.drop_nil] at this; omega)
      refine ⟨s', z, g1, g2, g3, ?_⟩
      simpa using g4
    | streamEnd =>
      simp only
      obtain ⟨h1, h2⟩ := lz_emit_file i.file i.pos ⟨[], 4096, true⟩ (LzmaLib.enc s.calls ⟨[], 4096, true⟩).out
      exact ⟨_, _, rfl, h1, h2, s.calls, fin, out, _, i.ran, hp, hx, rfl⟩

/-- Compressing any buffers. -/
theorem lz_comp_ok (L : LzmaLaws) (off : Nat) (f : Bytes) (bufs : List Bytes) : ∃ s s' z, lzCompRun off (LzComp.init f) bufs = .ok s ∧ lzCompFinal off s = .ok s' ∧
    s'.file = fileWrite f off z ∧ s'.pos = z.length ∧ XzStream bufs.flatten z := by
  obtain ⟨s, o, h1, h2⟩ := lzCompRun_ok L off f bufs (LzComp.init f) [] [] ⟨.start, by simp [LzComp.init, fileWrite_nil], rfl⟩
  obtain ⟨s', z, g1, g2⟩ := lzFinalGo_ok L off f (LzmaLib.encRounds s.calls [] + 1) s _ _ _ h2 (by omega)
  rw [List.nil_append] at g2
  exact ⟨s, s', z, h1, g1, g2⟩

/-! ### The decompressing side -/

/-- The decompressor between calls: what came out so far was accepted by the patcher. -/
structure LPSim (c : PatchCfg) (p0 : Patcher) (s : LzPatch) (fin : Bool) (taken : Bytes) (outs : List Bytes) : Prop where
  ran : LzRan LzmaLib.dec s.calls fin taken outs.flatten
  run : bspatchRun c p0 outs = .ok s.p

/-- How a patcher's end shows through the decompressor. -/
def drvOf (q : POut) (r : Drv LzPatch) : Prop :=
  match q with
  | .ok _ => False
  | .fail rc => r = .fail rc
  | .ub => r = .ub
  | .hang => r = .hang

/-- The loop ended at a call `d` of the decompressor with result `r`: at the end of the stream, at its error, or because the patcher did not take what came out. -/
inductive LzStop (c : PatchCfg) (p0 : Patcher) (all : Bytes) (fin : Bool) (r : Drv LzPatch) : Prop where
  | mk (h : List LzCall) (g : Bool) (i : Bytes) (outs : List Bytes) (o : Bytes) (d : LzCall) (ran : LzRan LzmaLib.dec h g i o) (proper : d.Proper g) (isFin : d.finish = fin)
    (all : i ++ d.input = all) (out : outs.flatten = o ++ (LzmaLib.dec h d).out)
    (ends : (∃ p, bspatchRun c p0 outs = .ok p ∧
        ((LzmaLib.dec h d).ret = .streamEnd ∧ fin = true ∧ r = .ok ⟨h ++ [d], p⟩ ∨ (LzmaLib.dec h d).ret = .error ∧ r = .fail .decompressorError)) ∨
      drvOf (bspatchRun c p0 outs) r)

omit [LzmaLib] in
theorem bspatchRun_snoc (c : PatchCfg) (p0 p : Patcher) (outs : List Bytes) (e : Bytes) (h : bspatchRun c p0 outs = .ok p) : bspatchRun c p0 (outs ++ [e]) = (bspatchWrite c p e).out := by
  rw [bspatchRun_append c outs [e] p0 p h]
  unfold bspatchRun
  cases (bspatchWrite c p e).out <;> simp [bspatchRun]

theorem lzPatchGo_ok (L : LzmaLaws) (c : PatchCfg) (p0 : Patcher) (fin : Bool) : ∀ (k : Nat) (s : LzPatch) (g : Bool) (taken : Bytes) (outs : List Bytes) (rest : Bytes),
    LPSim c p0 s g taken outs → (fin = true → rest = []) → (fin = false → g = false) → LzmaLib.decRounds s.calls rest < k →
    (∃ s' outs', lzPatchGo c fin k s rest = .ok s' ∧ fin = false ∧ LPSim c p0 s' false (taken ++ rest) outs') ∨ LzStop c p0 (taken ++ rest) fin (lzPatchGo c fin k s rest) := by
  intro k
  induction k with
  | zero => intro s g taken outs rest _ _ _ h; omega
  | succ k ih =>
    intro s g taken outs rest i h1 h2 hk
    unfold lzPatchGo
    by_cases hr : rest = [] ∧ fin = false
    · rw [if_pos hr]
      refine .inl ⟨s, outs, rfl, hr.2, ?_⟩
      rw [hr.1, List.append_nil, ← h2 hr.2]
      exact i
    · rw [if_neg hr]
      have hp : LzCall.Proper ⟨rest, 8192, fin⟩ g := by
        refine ⟨by simp, ?_⟩
        cases fin with
        | true => simpa using h1 rfl
        | false => simpa using ⟨h2 rfl, fun e => hr ⟨e, rfl⟩⟩
      obtain ⟨l1, l2, l3, l4⟩ := L.dec _ _ _ _ _ i.ran hp
      -- what the patcher does with the output
      have hpass : ∃ outs', outs'.flatten = outs.flatten ++ (LzmaLib.dec s.calls ⟨rest, 8192, fin⟩).out ∧
          bspatchRun c p0 outs' = (lzPass c s.p (LzmaLib.dec s.calls ⟨rest, 8192, fin⟩).out).out := by
        unfold lzPass
        split
        · exact ⟨outs ++ [(LzmaLib.dec s.calls ⟨rest, 8192, fin⟩).out], by simp, bspatchRun_snoc c p0 s.p outs _ i.run⟩
        · rename_i h0
          refine ⟨outs, ?_, ?_⟩
          · rw [List.eq_nil_of_length_eq_zero (by omega : (LzmaLib.dec s.calls ⟨rest, 8192, fin⟩).out.length = 0), List.append_nil]
          · rw [i.run]; rfl
      obtain ⟨outs', ho, hrun⟩ := hpass
      cases hq : lzPass c s.p (LzmaLib.dec s.calls ⟨rest, 8192, fin⟩).out with
      | hang =>
        rw [hq] at hrun
        exact .inr ⟨s.calls, g, taken, outs', _, _, i.ran, hp, rfl, rfl, ho, .inr (by rw [hrun]; simp [PRes.out, drvOf])⟩
      | ub =>
        rw [hq] at hrun
        exact .inr ⟨s.calls, g, taken, outs', _, _, i.ran, hp, rfl, rfl, ho, .inr (by rw [hrun]; simp [PRes.out, drvOf])⟩
      | ret rc p =>
        rw [hq] at hrun
        by_cases hrc : rc = .ok
        · subst hrc
          have hrun' : bspatchRun c p0 outs' = .ok p := by rw [hrun]; rfl
          simp only
          cases hx : (LzmaLib.dec s.calls ⟨rest, 8192, fin⟩).ret with
          | ok =>
            simp only
            have hs : LPSim c p0 ⟨s.calls ++ [⟨rest, 8192, fin⟩], p⟩ fin (taken ++ rest.take (LzmaLib.dec s.calls ⟨rest, 8192, fin⟩).used) outs' :=
              ⟨by rw [ho]; exact .call ⟨rest, 8192, fin⟩ i.ran hp hx, hrun'⟩
            have hz := ih _ _ _ _ (rest.drop (LzmaLib.dec s.calls ⟨rest, 8192, fin⟩).used) hs (fun e => by rw [h1 e]; simp) (fun e => e)
              (by have := l4 hx; simp only at this ⊢; omega)
            rw [List.append_assoc, List.take_append_drop] at hz
            exact hz
          | streamEnd =>
            exact .inr ⟨s.calls, g, taken, outs', _, _, i.ran, hp, rfl, rfl, ho, .inl ⟨p, hrun', .inl ⟨hx, l3 hx, rfl⟩⟩⟩
          | error =>
            exact .inr ⟨s.calls, g, taken, outs', _, _, i.ran, hp, rfl, rfl, ho, .inl ⟨p, hrun', .inr ⟨hx, rfl⟩⟩⟩
        · refine .inr ⟨s.calls, g, taken, outs', _, _, i.ran, hp, rfl, rfl, ho, .inr ?_⟩
          have : (PRes.ret rc p).out = .fail rc := by
            unfold PRes.out
            split <;> simp_all
          rw [hrun, this]
          unfold drvOf
          split <;> simp_all

/-- Writing chunks that are not empty. -/
theorem lzPatchRun_ok (L : LzmaLaws) (c : PatchCfg) (p0 : Patcher) : ∀ (xs : List Bytes) (s : LzPatch) (taken : Bytes) (outs : List Bytes), (∀ x ∈ xs, x ≠ []) →
    LPSim c p0 s false taken outs →
    (∃ s' outs', lzPatchRun c s xs = .ok s' ∧ LPSim c p0 s' false (taken ++ xs.flatten) outs') ∨
    (∃ all, all <+: taken ++ xs.flatten ∧ LzStop c p0 all false (lzPatchRun c s xs)) := by
  intro xs
  induction xs with
  | nil => intro s taken outs _ i; exact .inl ⟨s, outs, rfl, by simpa using i⟩
  | cons x xs ih =>
    intro s taken outs hne i
    have hx : x ≠ [] := hne x List.mem_cons_self
    have hd : decide (x.length = 0) = false := by
      have := List.length_pos_iff.2 hx
      exact decide_eq_false (by omega)
    have hw : lzPatchWrite c s x = lzPatchGo c false (LzmaLib.decRounds s.calls x + 1) s x := by unfold lzPatchWrite; rw [hd]
    unfold lzPatchRun
    rw [hw]
    rcases lzPatchGo_ok L c p0 false (LzmaLib.decRounds s.calls x + 1) s false taken outs x i (fun e => by cases e) (fun _ => rfl) (by omega) with ⟨s1, o1, g1, _, g2⟩ | g
    · rw [g1]
      simp only
      rw [List.flatten_cons, ← List.append_assoc]
      exact ih s1 _ o1 (fun y hy => hne y (List.mem_cons_of_mem _ hy)) g2
    · refine .inr ⟨taken ++ x, ⟨xs.flatten, by simp⟩, ?_⟩
      have hno : ∀ s', lzPatchGo c false (LzmaLib.decRounds s.calls x + 1) s x ≠ .ok s' := by
        intro s' e
        rw [e] at g
        obtain ⟨h, g', i', outs', o, d, _, _, _, _, _, ends⟩ := g
        rcases ends with ⟨p, _, ⟨_, hf, _⟩ | ⟨_, hf⟩⟩ | hd
        · cases hf
        · cases hf
        · unfold drvOf at hd
          split at hd
          · exact hd
          all_goals cases hd
      split
      · rename_i s' e; exact absurd e (hno s')
      · exact g

/-- Ending the stream. -/
theorem lzPatchEnd_ok (L : LzmaLaws) (c : PatchCfg) (p0 : Patcher) (s : LzPatch) (g : Bool) (taken : Bytes) (outs : List Bytes) (i : LPSim c p0 s g taken outs) :
    LzStop c p0 taken true (lzPatchWrite c s []) := by
  rcases lzPatchGo_ok L c p0 true (LzmaLib.decRounds s.calls [] + 1) s g taken outs [] i (fun _ => rfl) (fun e => by cases e) (by omega) with ⟨_, _, _, e, _⟩ | h
  · cases e
  · rw [List.append_nil] at h
    exact h

/-- Feeding a beginning of a stream of what the plain decoder accepts. -/
theorem lz_feeds (L : LzmaLaws) (c : PatchCfg) (f D z : Bytes) (hz : XzStream D z) (Q : Patcher → Prop)
    (h : ∀ ys : List Bytes, ys.flatten = D → ∃ q, bspatchRun c (Patcher.init f) ys = .ok q ∧ Q q) (xs : List Bytes) (hx : xs.flatten <+: z) (hne : ∀ x ∈ xs, x ≠ []) :
    ∃ t outs, lzPatchRun c (LzPatch.init f) xs = .ok t ∧ LPSim c (Patcher.init f) t false xs.flatten outs ∧ t.p.st ≠ .error := by
  have hrun : ∃ t outs, lzPatchRun c (LzPatch.init f) xs = .ok t ∧ LPSim c (Patcher.init f) t false xs.flatten outs := by
    rcases lzPatchRun_ok L c (Patcher.init f) xs (LzPatch.init f) [] [] hne ⟨.start, rfl⟩ with ⟨t, outs, k1, k2⟩ | ⟨all, k1, h', g', i, outs, ob, d, r1, r2, r3, r4, r5, r6⟩
    · exact ⟨t, outs, k1, k2⟩
    · exfalso
      rw [List.nil_append] at k1
      obtain ⟨d1, d2⟩ := L.decoded _ _ _ _ _ _ d hz r1 r2 (by rw [r4]; exact k1.trans hx)
      rw [← r5] at d1
      obtain ⟨q, hq⟩ := run_prefix h outs d1
      rcases r6 with ⟨p, _, ⟨_, e, _⟩ | ⟨e, _⟩⟩ | e
      · cases e
      · exact d2 (.inl r3) e
      · rw [hq] at e; exact e
  obtain ⟨t, outs, k1, i⟩ := hrun
  refine ⟨t, outs, k1, i, ?_⟩
  intro e
  have hw : outs.flatten <+: D := by
    have := L.decoded _ _ _ _ _ _ ⟨[], 1, true⟩ hz i.ran ⟨by simp, by simp⟩ (by simpa using hx)
    exact (List.prefix_append _ _).trans this.1
  -- the patcher goes on to the end of the delta
  obtain ⟨r, hr⟩ := hw
  obtain ⟨q, q1, _⟩ := h (outs ++ [r]) (by simpa using hr)
  rw [bspatchRun_snoc _ _ _ _ _ i.run] at q1
  have hbad : bspatchWrite c t.p r = .ret .failed t.p := by
    unfold bspatchWrite patchLoop patchIter
    rw [e]
  rw [hbad] at q1
  cases q1

/-- The finishing call after a whole stream. -/
theorem lz_accepts (L : LzmaLaws) (c : PatchCfg) (f D z : Bytes) (hz : XzStream D z) (Q : Patcher → Prop)
    (h : ∀ ys : List Bytes, ys.flatten = D → ∃ q, bspatchRun c (Patcher.init f) ys = .ok q ∧ Q q) (xs : List Bytes) (hx : xs.flatten = z) (hne : ∀ x ∈ xs, x ≠ []) :
    ∃ t t', lzPatchRun c (LzPatch.init f) xs = .ok t ∧ lzPatchFinal c t = .ok (t', t'.p.outPos) ∧ Q t'.p := by
  obtain ⟨t, outs, k1, k2, k3⟩ := lz_feeds L c f D z hz Q h xs (by rw [hx]; exact List.prefix_refl _) hne
  obtain ⟨h', g', i, outs', ob, d, r1, r2, r3, r4, r5, r6⟩ := lzPatchEnd_ok L _ _ t _ _ _ k2
  have hd : d.input = [] := by
    have := r2.2
    rw [if_pos r3] at this
    exact this
  rw [hd, List.append_nil, hx] at r4
  subst r4
  obtain ⟨d1, d2⟩ := L.decoded _ _ _ _ _ _ d hz r1 r2 (by rw [hd, List.append_nil]; exact List.prefix_refl _)
  rw [← r5] at d1
  obtain ⟨q, hq⟩ := run_prefix h outs' d1
  rcases r6 with ⟨p, p1, ⟨p2, _, p3⟩ | ⟨e, _⟩⟩ | e
  · have hall := L.decodedAll _ _ _ _ _ d hz r1 r2 p2
    obtain ⟨q', q1, q2⟩ := h outs' (by rw [r5, hall])
    rw [p1] at q1
    injection q1 with q1
    subst q1
    refine ⟨t, ⟨h' ++ [d], p⟩, k1, ?_, q2⟩
    unfold lzPatchFinal
    rw [if_neg k3, p3]
  · exact absurd e (d2 (.inr rfl))
  · rw [hq] at e; exact e.elim

/-- The finishing call after a stream cut short. -/
theorem lz_cut (L : LzmaLaws) (c : PatchCfg) (f D z : Bytes) (hz : XzStream D z) (Q : Patcher → Prop)
    (h : ∀ ys : List Bytes, ys.flatten = D → ∃ q, bspatchRun c (Patcher.init f) ys = .ok q ∧ Q q) (xs : List Bytes) (hx : xs.flatten <+: z) (hx2 : xs.flatten ≠ z) (hne : ∀ x ∈ xs, x ≠ []) :
    ∃ t, lzPatchRun c (LzPatch.init f) xs = .ok t ∧ lzPatchFinal c t = .fail .decompressorError := by
  obtain ⟨t, outs, k1, k2, k3⟩ := lz_feeds L c f D z hz Q h xs hx hne
  refine ⟨t, k1, ?_⟩
  obtain ⟨h', g', i, outs', ob, d, r1, r2, r3, r4, r5, r6⟩ := lzPatchEnd_ok L _ _ t _ _ _ k2
  have hd : d.input = [] := by
    have := r2.2
    rw [if_pos r3] at this
    exact this
  rw [hd, List.append_nil] at r4
  subst r4
  obtain ⟨d1, _⟩ := L.decoded _ _ _ _ _ _ d hz r1 r2 (by rw [hd, List.append_nil]; exact hx)
  rw [← r5] at d1
  obtain ⟨q, hq⟩ := run_prefix h outs' d1
  unfold lzPatchFinal
  rw [if_neg k3]
  rcases r6 with ⟨p, p1, ⟨p2, _, p3⟩ | ⟨_, p3⟩⟩ | e
  · exact absurd p2 (L.cut _ _ _ _ _ _ d hz r1 r2 hx hx2)
  · rw [p3]
  · rw [hq] at e; exact e.elim

end Bpak
