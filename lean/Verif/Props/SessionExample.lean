import Verif.Props.Session
/-! A concrete session, shared by the examples of C84-C88. It is run by the kernel in three steps, to keep memory low. -/
namespace Bpak

/-- An add before there is a package; creation; two parts and a duplicate; metadata; key id; deletion; signature; a second deletion. -/
def exCmds : List (Cmd Unit) := [
  .addPart (ascii "kernel") false none (some [1, 2, 3]) (.error .failed) [],
  .create none none false 0,
  .addPart (ascii "kernel") false none (some [1, 2, 3]) (.error .failed) [],
  .addPart (ascii "kernel") false none (some [9]) (.error .failed) [],
  .addPart (ascii "dtb") true none (some [4]) (.error .failed) [],
  .addMeta { name := ascii "v", source := .text (ascii "1.0") },
  .set { keyId := some (ascii "key") },
  .delete (some (ascii "kernel")) false false,
  .sign (.ok ()) [],
  .delete (some (ascii "kernel")) false false ]

/-- Running commands while the file is small. -/
def runCmds (f : Option Bytes) : List (Cmd Unit) → Option (List (Cmd Unit × Err) × Option Bytes)
  | [] => some ([], f)
  | c :: cs => if 100000 ≤ (f.getD []).length ∨ c.isTree then none else match cmdStep exHash exScheme f c with
    | none => none
    | some (e, f') => match runCmds f' cs with
      | none => none
      | some (es, g) => some ((c, e) :: es, g)

theorem runCmds_session (cs : List (Cmd Unit)) : ∀ (t : List (Cmd Unit × Err)) (f : Option Bytes) (es : List (Cmd Unit × Err)) (g : Option Bytes),
    (∀ c ∈ cs, ∀ f : Option Bytes, (f.getD []).length < 100000 → Allowed exHash f c) → Session exHash exScheme t f → runCmds f cs = some (es, g) →
    Session exHash exScheme (t ++ es) g := by
  induction cs with
  | nil =>
    intro t f es g _ hs hr
    obtain ⟨rfl, rfl⟩ := Prod.mk.inj (Option.some.inj hr)
    rw [List.append_nil]; exact hs
  | cons c cs ih =>
    intro t f es g ha hs hr
    rw [runCmds] at hr
    split at hr
    · cases hr
    · rename_i h1
      split at hr
      · cases hr
      · rename_i e f' hstep
        split at hr
        · cases hr
        · rename_i es' g' hrest
          obtain ⟨rfl, rfl⟩ := Prod.mk.inj (Option.some.inj hr)
          have := ih (t ++ [(c, e)]) f' es' g' (fun c' hc' => ha c' (by simp [hc']))
            (.run hs (ha c (by simp) f (by omega)) hstep (fun h => absurd (Or.inr h) h1)) hrest
          simpa using this

/-- Bytes from (byte, count) pairs. -/
def unrle : List (Nat × Nat) → Bytes
  | [] => []
  | (b, n) :: r => List.replicate n (BitVec.ofNat 8 b) ++ unrle r

/-- The file after the first four commands. -/
def exFile1 : Bytes := unrle [(50, 1), (65, 1), (80, 1), (66, 1), (0, 516), (8, 1), (59, 1), (16, 1), (236, 1), (3, 1), (0, 8), (16, 1), (0, 14), (253, 1), (1, 1), (0, 2914), (1, 1), (2, 1), (0, 1), (2, 1), (0, 628), (1, 1), (2, 1), (3, 1), (0, 509)]

/-- The file after the first seven commands. -/
def exFile2 : Bytes := unrle [(50, 1), (65, 1), (80, 1), (66, 1), (0, 4), (9, 1), (212, 1), (102, 1), (185, 1), (4, 1), (0, 507), (8, 1), (59, 1), (16, 1), (236, 1), (3, 1), (0, 8), (16, 1), (0, 14), (253, 1), (1, 1), (0, 2), (122, 1), (223, 1), (49, 1), (167, 1), (1, 1), (0, 8), (18, 1), (0, 14), (255, 1), (1, 2), (0, 961), (49, 1), (46, 1), (48, 1), (0, 1917), (1, 1), (2, 1), (0, 1), (2, 1), (0, 64), (187, 1), (114, 1), (209, 1), (117, 1), (0, 560), (1, 1), (2, 1), (3, 1), (0, 509), (4, 1), (0, 511)]

/-- The file after all commands. -/
def exFile3 : Bytes := unrle [(50, 1), (65, 1), (80, 1), (66, 1), (0, 4), (9, 1), (212, 1), (102, 1), (185, 1), (4, 1), (0, 507), (122, 1), (223, 1), (49, 1), (167, 1), (1, 1), (0, 8), (16, 1), (0, 14), (255, 1), (1, 2), (0, 993), (49, 1), (46, 1), (48, 1), (0, 1917), (1, 1), (2, 1), (0, 1), (2, 1), (0, 64), (187, 1), (114, 1), (209, 1), (117, 1), (0, 46), (1, 1), (0, 511), (33, 1), (0, 1), (4, 1), (0, 511)]

theorem runCmds_append (a : List (Cmd Unit)) : ∀ (b : List (Cmd Unit)) (f g g' : Option Bytes) (es es' : List (Cmd Unit × Err)),
    runCmds f a = some (es, g) → runCmds g b = some (es', g') → runCmds f (a ++ b) = some (es ++ es', g') := by
  induction a with
  | nil =>
    intro b f g g' es es' h1 h2
    obtain ⟨rfl, rfl⟩ := Prod.mk.inj (Option.some.inj h1)
    exact h2
  | cons c a ih =>
    intro b f g g' es es' h1 h2
    rw [List.cons_append, runCmds]
    rw [runCmds] at h1
    split at h1
    · cases h1
    · rename_i hc
      rw [if_neg hc]
      split at h1
      · cases h1
      · rename_i e f' hs
        split at h1
        · cases h1
        · rename_i es1 g1 hr
          obtain ⟨rfl, rfl⟩ := Prod.mk.inj (Option.some.inj h1)
          rw [ih b f' g1 g' es1 es' hr h2]
          rfl

/-- List equality without nested recursion, for the kernel. -/
def sameBytes : Bytes → Bytes → Bool
  | [], [] => true
  | x :: xs, y :: ys => if x = y then sameBytes xs ys else false
  | _, _ => false

theorem sameBytes_eq (a : Bytes) : ∀ b, sameBytes a b = true → a = b := by
  induction a with
  | nil => intro b h; cases b with | nil => rfl | cons y ys => simp [sameBytes] at h
  | cons x xs ih =>
    intro b h
    cases b with
    | nil => simp [sameBytes] at h
    | cons y ys =>
      rw [sameBytes] at h
      split at h
      · rename_i e; rw [e, ih ys h]
      · cases h

/-- Does a run end with these exit codes and this file? -/
def runTo (f : Option Bytes) (cs : List (Cmd Unit)) (c : List Err) (g : Bytes) : Bool := match runCmds f cs with
  | some (es, some g') => decide (es.map (fun x => x.2) = c) && sameBytes g' g
  | _ => false

/-- Exit codes and file of a run. -/
def runOut (f : Option Bytes) (cs : List (Cmd Unit)) : Option (List Err × Option Bytes) := (runCmds f cs).map (fun r => (r.1.map (fun x => x.2), r.2))

theorem runOut_eq {f : Option Bytes} {cs : List (Cmd Unit)} {c : List Err} {g : Option Bytes} (h : runOut f cs = some (c, g)) :
    runCmds f cs = some (cs.zip c, g) := by
  have hz : ∀ (cs : List (Cmd Unit)) f es g, runCmds f cs = some (es, g) → es = cs.zip (es.map (fun x => x.2)) := by
    intro cs
    induction cs with
    | nil => intro f es g h; rw [← (Prod.mk.inj (Option.some.inj h)).1]; rfl
    | cons c cs ih =>
      intro f es g h
      rw [runCmds] at h
      split at h
      · cases h
      · split at h
        · cases h
        · split at h
          · cases h
          · rename_i es' g' hrest
            rw [← (Prod.mk.inj (Option.some.inj h)).1, List.map_cons, List.zip_cons_cons, ← ih _ _ _ hrest]
  unfold runOut at h
  cases hr : runCmds f cs with
  | none => rw [hr] at h; cases h
  | some r =>
    obtain ⟨es, g'⟩ := r
    rw [hr] at h
    obtain ⟨h1, h2⟩ := Prod.mk.inj (Option.some.inj h)
    simp only at h1 h2
    rw [hz cs f es g' hr, h1, h2]

theorem runTo_eq {f : Option Bytes} {cs : List (Cmd Unit)} {c : List Err} {g : Bytes} (h : runTo f cs c g = true) : runOut f cs = some (c, some g) := by
  unfold runTo at h
  unfold runOut
  split at h
  · rename_i es g' hr
    rw [Bool.and_eq_true] at h
    rw [hr, Option.map_some, of_decide_eq_true h.1, sameBytes_eq _ _ h.2]
  · cases h

set_option maxRecDepth 100000 in
theorem exRun1 : runOut none (exCmds.take 4) = some ([.notFound, .ok, .ok, .exists_], some exFile1) := runTo_eq (by decide +kernel)
set_option maxRecDepth 100000 in
theorem exRun2 : runOut (some exFile1) ((exCmds.drop 4).take 3) = some ([.ok, .ok, .ok], some exFile2) := runTo_eq (by decide +kernel)
set_option maxRecDepth 100000 in
theorem exRun3 : runOut (some exFile2) (exCmds.drop 7) = some ([.ok, .ok, .notFound], some exFile3) := runTo_eq (by decide +kernel)

/-- The exit codes of the commands. -/
def exCodes : List Err := [.notFound, .ok, .ok, .exists_, .ok, .ok, .ok, .ok, .ok, .notFound]

theorem exCmds_run : runCmds none exCmds = some (exCmds.zip exCodes, some exFile3) :=
  runCmds_append (exCmds.take 4) (exCmds.drop 4) none (some exFile1) (some exFile3) _ _ (runOut_eq exRun1)
    (runCmds_append ((exCmds.drop 4).take 3) (exCmds.drop 7) (some exFile1) (some exFile2) (some exFile3) _ _ (runOut_eq exRun2) (runOut_eq exRun3))

theorem exSession3 : Session exHash exScheme (exCmds.zip exCodes) (some exFile3) := by
  · have := runCmds_session exCmds [] none (exCmds.zip exCodes) (some exFile3) ?_ .start exCmds_run
    · simpa using this
    · have part : ∀ (name d : Bytes) (b : Bool), bpakId name ≠ 0 → d.length ≤ 3 → ∀ f : Option Bytes, (f.getD []).length < 100000 →
          Allowed (SK := Unit) exHash f (.addPart name b none (some d) (.error .failed) []) := by
        intro name d b h1 h2 f h3
        refine ⟨h1, fun g d' e1 e2 => ⟨?_, (fun h => by cases h), fun h => by cases h⟩⟩
        subst e1
        cases e2
        simp only [Option.getD_some] at h3
        omega
      intro c hc f hf
      simp only [exCmds, List.mem_cons, List.not_mem_nil, or_false] at hc
      rcases hc with rfl | rfl | rfl | rfl | rfl | rfl | rfl | rfl | rfl | rfl
      · exact part _ _ _ (by decide +kernel) (by decide) f hf
      · trivial
      · exact part _ _ _ (by decide +kernel) (by decide) f hf
      · exact part _ _ _ (by decide +kernel) (by decide) f hf
      · exact part _ _ _ (by decide +kernel) (by decide) f hf
      · exact show bpakId (ascii "v") ≠ 0 by decide +kernel
      · intro n hn; cases hn
      · trivial
      · intro h; cases h
      · trivial

/-- The session of these commands: the exit codes, and that "dtb" is the one file left. -/
theorem exSession : ∃ t f, Session exHash exScheme t (some f) ∧ t.map (fun x => x.1) = exCmds ∧
    t.map (fun x => x.2) = [.notFound, .ok, .ok, .exists_, .ok, .ok, .ok, .ok, .ok, .notFound] ∧ sessionFiles exHash t = [(bpakId (ascii "dtb"), [4])] ∧
    f.length = 4608 := by
  exact ⟨exCmds.zip exCodes, exFile3, exSession3, rfl, rfl, by decide +kernel, by simp only [exFile3, unrle, List.length_append, List.length_replicate, List.length_nil]⟩

end Bpak
