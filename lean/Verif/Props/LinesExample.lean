import Verif.Props.MainExample
import Verif.Props.LinesSign
import Verif.Props.TransportCmdExample
/-! Command lines that meet the hypotheses of C113, C114 and C99_lines_partial. -/
namespace Bpak

theorem runCmds_step {f : Option Bytes} {c : Cmd Unit} {cs : List (Cmd Unit)} {e : Err} {es : List Err} {g : Option Bytes} (h : runOut f (c :: cs) = some (e :: es, g)) :
    ∃ f1, cmdStep exHash exScheme f c = some (e, f1) ∧ runOut f1 cs = some (es, g) ∧ (f.getD []).length < 100000 := by
  unfold runOut at h
  rw [runCmds] at h
  split at h
  · cases h
  · rename_i hlen
    split at h
    · cases h
    · rename_i e1 f1 h1
      split at h
      · cases h
      · rename_i es1 g1 h2
        rw [Option.map_some] at h
        obtain ⟨h3, h4⟩ := Prod.mk.inj (Option.some.inj h)
        rw [List.map_cons] at h3
        injection h3 with h5 h6
        simp only at h5 h4
        subst h5; subst h4
        refine ⟨f1, h1, ?_, by omega⟩
        unfold runOut
        rw [h2, Option.map_some, h6]

/-- The steps to the packages of TransportCmdExample. -/
theorem exTr_steps (d F : Bytes) (h : runOut none (exTrCmds d) = some ([.ok, .ok, .ok, .ok], some F)) :
    ∃ f1 f2 f3, createCmd exHash none none none false 0 = (.ok, some f1) ∧ addMetaCmd exHash f1 ⟨ascii "bpak-package", .text (ascii "0123456789abcde"), none, none⟩ = .ret (.ok, f2) ∧
      addPartCmd exHash f2 (ascii "a") false none (some d) (.error .failed) [] = some (.ret (.ok, f3)) ∧ transportAddCmd exHash f3 (some (ascii "a")) (ascii "bsdiff") (ascii "bspatch") = .ret (.ok, F) ∧ f2.length < 100000 := by
  obtain ⟨x1, h1, h, -⟩ := runCmds_step h
  obtain ⟨x2, h2, h, -⟩ := runCmds_step h
  obtain ⟨x3, h3, h, len⟩ := runCmds_step h
  obtain ⟨x4, h4, h, -⟩ := runCmds_step h
  have h5 : some (([] : List Err), x4) = some ([], some F) := h
  injection h5 with h5
  injection h5 with _ h5
  subst h5
  have h1 : some (createCmd exHash none none none false 0) = some (.ok, x1) := h1
  have h1 := Option.some.inj h1
  cases x1 with
  | none => cases h2
  | some f1 =>
  have out : ∀ (r : Out (Err × Bytes)) (x : Option Bytes), (match r with | .ub => none | .ret (e, f') => some (e, some f')) = some (Err.ok, x) → ∃ f, x = some f ∧ r = .ret (.ok, f) := by
    intro r x hr
    rcases r with ⟨e, f⟩ | _
    · injection hr with hr
      injection hr with a b
      subst a
      exact ⟨f, b.symm, rfl⟩
    · cases hr
  obtain ⟨f2, e2, k2⟩ := out _ _ h2
  subst e2
  have h3 : (addPartCmd exHash f2 (ascii "a") false none (some d) (.error .failed) []).bind _ = _ := h3
  rcases hx : addPartCmd exHash f2 (ascii "a") false none (some d) (.error .failed) [] with _ | r3
  · rw [hx] at h3; cases h3
  rw [hx] at h3
  obtain ⟨f3, e3, k3⟩ := out _ _ h3
  subst e3
  obtain ⟨f4, e4, k4⟩ := out _ _ h4
  injection e4 with e4
  subst e4
  exact ⟨f1, f2, f3, h1, k2, by rw [hx, k3], k4, len⟩

attribute [local instance] storeLib

def exTrEnv : Env := { H := exHash, M := exMbed, srch := fun _ _ _ => some (0, 0) }

/-- `bpak create PATH`. -/
theorem line_create (w : World) (path f1 : Bytes) (h0 : w path = none) (hpath : path.take 1 ≠ [45]) (h1 : createCmd exHash none none none false 0 = (.ok, some f1)) :
    Lines exHash exMbed path [(.create none none false 0, .ok)] (w.put path (some f1)) := by
  have l0 : Lines exHash exMbed path [] w := .start h0
  have g1 : getopt createTable [path] = ([], [path]) := by unfold getopt; rw [getoptGo_operand _ _ _ hpath, getoptGo_nil]
  have r1 : bpakMain exTrEnv w (ascii "create" :: [path]) = .exit .ok .nothing (w.put path (some f1)) := by
    rw [main_create]
    unfold actionCreate withFile withOpts
    rw [g1]
    show createLine exTrEnv w {} path = _
    unfold createLine
    rw [h0]
    show Ran.exit (createCmd exHash none none none false 0).1 .nothing (w.put path (createCmd exHash none none none false 0).2) = _
    rw [h1]
  have c1 : lineCmd exTrEnv w "create" [path] = some (.create none none false 0) := by
    unfold lineCmd
    rw [show tableOf "create" = createTable from rfl, g1]
    rfl
  have l1 := l0.line (env := exTrEnv) rfl rfl (by decide) (show (getopt (tableOf "create") [path]).2.head? = some path by rw [show tableOf "create" = createTable from rfl, g1]; rfl) r1
    (by rw [c1]; rintro c hc; cases hc; exact ⟨trivial, fun h => (by cases h)⟩)
  rw [c1] at l1
  exact l1

/-- `bpak add PATH -m NAME -s TEXT`. -/
theorem line_addMeta {t : List (Cmd Key × Err)} {w : World} {path f1 f2 : Bytes} (name text : Bytes) (l1 : Lines exHash exMbed path t w) (h1 : w path = some f1) (hpath : path.take 1 ≠ [45]) (hn : bpakId name ≠ 0)
    (h2 : addMetaCmd exHash f1 ⟨name, .text text, none, none⟩ = .ret (.ok, f2)) : Lines exHash exMbed path (t ++ [(.addMeta ⟨name, .text text, none, none⟩, .ok)]) (w.put path (some f2)) := by
  have g2 : getopt addTable [path, ascii "-m", name, ascii "-s", text] = ([.opt 'm' (name), .opt 's' (text)], [path]) := by
    unfold getopt
    rw [getoptGo_operand _ _ _ hpath, show ascii "-m" = [45, 109] by decide, getoptGo_short _ _ _ (by decide) (show addTable.letter 109 = some ('m', true) by decide), show ascii "-s" = [45, 115] by decide,
      getoptGo_short _ _ _ (by decide) (show addTable.letter 115 = some ('s', true) by decide), getoptGo_nil]
  have r2 : bpakMain exTrEnv w (ascii "add" :: [path, ascii "-m", name, ascii "-s", text]) = .exit .ok .nothing (w.put path (some f2)) := by
    rw [main_add]
    unfold actionAdd withFile withOpts
    rw [g2]
    show addLine exTrEnv _ { metaName := some (name), fromString := some (text) } path = _
    unfold addLine
    rw [h1]
    rw [if_neg (fun h => (by cases h.2)), if_neg (fun h => (by cases h.1))]
    show inPlace _ _ (some (addMetaCmd exHash f1 ⟨name, .text (text), none, none⟩)) = _
    rw [h2]
    unfold inPlace
    rfl
  have c2 : lineCmd exTrEnv w "add" [path, ascii "-m", name, ascii "-s", text] =
      some (.addMeta ⟨name, .text (text), none, none⟩) := by
    unfold lineCmd
    rw [show tableOf "add" = addTable from rfl, g2]
    rfl
  have l2 := l1.line (env := exTrEnv) rfl rfl (by decide)
    (show (getopt (tableOf "add") [path, ascii "-m", name, ascii "-s", text]).2.head? = some path by rw [show tableOf "add" = addTable from rfl, g2]; rfl) r2
    (by rw [c2]; rintro c hc; cases hc; exact ⟨hn, fun h => (by cases h)⟩)
  rw [c2] at l2
  exact l2

/-- `bpak add -p NAME -f SRC PATH`. -/
theorem line_addPart {t : List (Cmd Key × Err)} {w : World} {path f2 f3 : Bytes} (name src d : Bytes) (l2 : Lines exHash exMbed path t w) (h2 : w path = some f2) (hpath : path.take 1 ≠ [45]) (hn : bpakId name ≠ 0)
    (hsrc : w src = some d) (ne : src ≠ path) (small : f2.length + d.length < 1000000) (h3 : addPartCmd exHash f2 name false none (some d) (.error .failed) [] = some (.ret (.ok, f3))) :
    ∃ key, Lines exHash exMbed path (t ++ [(.addPart name false none (some d) key [], .ok)]) (w.put path (some f3)) := by
  have g3 : getopt addTable [ascii "-p", name, ascii "-f", src, path] = ([.opt 'p' (name), .opt 'f' src], [path]) := by
    unfold getopt
    rw [show ascii "-p" = [45, 112] by decide, getoptGo_short _ _ _ (by decide) (show addTable.letter 112 = some ('p', true) by decide), show ascii "-f" = [45, 102] by decide,
      getoptGo_short _ _ _ (by decide) (show addTable.letter 102 = some ('f', true) by decide), getoptGo_operand _ _ _ hpath, getoptGo_nil]
  have r3 : bpakMain exTrEnv w (ascii "add" :: [ascii "-p", name, ascii "-f", src, path]) = .exit .ok .nothing (w.put path (some f3)) := by
    rw [main_add]
    unfold actionAdd withFile withOpts
    rw [g3]
    show addLine exTrEnv _ { part := some (name), fromFile := some src } path = _
    unfold addLine
    rw [h2]
    rw [if_neg (fun h => (by cases h.1)), if_neg (fun h => (by cases h.2))]
    show addPartLine exTrEnv _ path f2 (name) { part := some (name), fromFile := some src } = _
    unfold addPartLine
    simp only
    rw [if_neg (by simp), if_neg (fun h => ne (Option.some.inj h)), hsrc]
    show inPlace _ _ (addPartCmd exHash f2 (name) false none (some d) (.error .failed) []) = _
    rw [h3]
    unfold inPlace
    rfl
  have c3 : ∃ key, lineCmd exTrEnv w "add" [ascii "-p", name, ascii "-f", src, path] = some (.addPart (name) false none (some d) key []) := by
    refine ⟨(mbedLoadPublic exMbed (some d)).map Key.data, ?_⟩
    unfold lineCmd
    rw [show tableOf "add" = addTable from rfl, g3]
    have a1 : lastArg 'h' [OptEv.opt 'p' (name), OptEv.opt 'f' src] = none := rfl
    have a2 : lastArg 'm' [OptEv.opt 'p' (name), OptEv.opt 'f' src] = none := rfl
    have a3 : lastArg 'p' [OptEv.opt 'p' (name), OptEv.opt 'f' src] = some (name) := rfl
    have a4 : lastArg 'f' [OptEv.opt 'p' (name), OptEv.opt 'f' src] = some src := rfl
    simp only [a1, a2, a3, a4, Option.bind_some, hsrc]
    rfl
  obtain ⟨key, c3⟩ := c3
  have l3 := l2.line (env := exTrEnv) rfl rfl (by decide)
    (show (getopt (tableOf "add") [ascii "-p", name, ascii "-f", src, path]).2.head? = some path by rw [show tableOf "add" = addTable from rfl, g3]; rfl) r3
    (by
      rw [c3]; rintro c hc; cases hc
      refine ⟨⟨hn, fun g d' e1 e2 => ⟨?_, (fun h => by cases h), fun h => by cases h⟩⟩, fun h => (by cases h)⟩
      rw [h2] at e1
      cases e1
      cases e2
      omega)
  rw [c3] at l3
  exact ⟨key, l3⟩

/-- Four lines make the package of TransportCmdExample at `path`, from the file `src`. -/
theorem exTr_lines (x : Nat) (d path src : Bytes) (w : World) (h0 : w path = none) (hs : w src = some d) (hd : d.length = 3) (ne : src ≠ path) (hpath : path.take 1 ≠ [45])
    (h : runOut none (exTrCmds d) = some ([.ok, .ok, .ok, .ok], some (exTrFile x))) :
    ∃ t, Lines exHash exMbed path t (w.put path (some (exTrFile x))) ∧ sessionFiles exHash t = [(bpakId (ascii "a"), d)] := by
  obtain ⟨f1, f2, f3, h1, h2, h3, h4, small⟩ := exTr_steps d _ h
  have l1 := line_create w path f1 h0 hpath h1
  have l2 := line_addMeta _ _ l1 (put_at _ _ _) hpath (by decide +kernel) h2
  rw [World.put_put] at l2
  obtain ⟨key, l3⟩ := line_addPart (ascii "a") src d l2 (put_at _ _ _) hpath (by decide +kernel) ((World.put_ne w _ ne).trans hs) ne (by omega) h3
  rw [World.put_put] at l3
  have len : ∀ {t : List (Cmd Key × Err)} {w : World} {f : Bytes}, Lines exHash exMbed path t w → w path = some f → 4096 ≤ f.length ∧ (pkgOpen exHash true f).1 = .ok := by
    intro t w f hL hf
    obtain ⟨_, a, b, -⟩ := C111_contents exHash exHash_len exMbed path f t w hL hf
    exact ⟨a, by rw [b]⟩
  -- bpak transport --add PATH -r a -e bsdiff -d bspatch
  have g4 : getopt transportTable [ascii "--add", path, ascii "-r", ascii "a", ascii "-e", ascii "bsdiff", ascii "-d", ascii "bspatch"] =
      ([.opt 'a' [], .opt 'r' (ascii "a"), .opt 'e' (ascii "bsdiff"), .opt 'd' (ascii "bspatch")], [path]) := by
    unfold getopt
    rw [show ascii "--add" = 45 :: 45 :: [97, 100, 100] by decide, getoptGo_longFlag _ _ (by decide) (by decide) (show transportTable.name [97, 100, 100] = some (false, 'a') by decide),
      getoptGo_operand _ _ _ hpath, show ascii "-r" = [45, 114] by decide, getoptGo_short _ _ _ (by decide) (show transportTable.letter 114 = some ('r', true) by decide), show ascii "-e" = [45, 101] by decide,
      getoptGo_short _ _ _ (by decide) (show transportTable.letter 101 = some ('e', true) by decide), show ascii "-d" = [45, 100] by decide,
      getoptGo_short _ _ _ (by decide) (show transportTable.letter 100 = some ('d', true) by decide), getoptGo_nil]
  have r4 : bpakMain exTrEnv (w.put path (some f3)) (ascii "transport" :: [ascii "--add", path, ascii "-r", ascii "a", ascii "-e", ascii "bsdiff", ascii "-d", ascii "bspatch"]) =
      .exit .ok .nothing (w.put path (some (exTrFile x))) := by
    rw [main_transport]
    unfold actionTransport withFile withOpts
    rw [g4]
    show transportLine exTrEnv _ { add := true, encoder := some (ascii "bsdiff"), decoder := some (ascii "bspatch"), ref := some (ascii "a") } path = _
    unfold transportLine
    refine (if_neg (by show ¬ 0 + 1 + 0 > 1; decide)).trans ?_
    rw [put_at]
    obtain ⟨a, b⟩ := len l3 (put_at _ _ _)
    have b : (pkgOpen exTrEnv.H true f3).1 = .ok := b
    simp only [b, open_long _ true f3 a, World.put_put]
    rw [if_neg (fun h => h rfl)]
    show inPlace _ _ (some (transportAddCmd exHash f3 (some (ascii "a")) (ascii "bsdiff") (ascii "bspatch"))) = _
    rw [h4]
    unfold inPlace
    simp only [World.put_put]
  have c4 : lineCmd exTrEnv (w.put path (some f3)) "transport" [ascii "--add", path, ascii "-r", ascii "a", ascii "-e", ascii "bsdiff", ascii "-d", ascii "bspatch"] =
      some (.transportAdd (some (ascii "a")) (ascii "bsdiff") (ascii "bspatch")) := by
    unfold lineCmd
    rw [show tableOf "transport" = transportTable from rfl, g4]
    rfl
  have l4 := l3.line (env := exTrEnv) rfl rfl (by decide)
    (show (getopt (tableOf "transport") [ascii "--add", path, ascii "-r", ascii "a", ascii "-e", ascii "bsdiff", ascii "-d", ascii "bspatch"]).2.head? = some path by
      rw [show tableOf "transport" = transportTable from rfl, g4]; rfl) r4
    (by rw [c4]; rintro c hc; cases hc; exact ⟨trivial, fun h => (by cases h)⟩)
  rw [c4] at l4
  exact ⟨_, l4, rfl⟩

/-- Two source files, and no packages yet. -/
def exTrWorld : World := fun p => if p = ascii "src" then some [1, 2, 3] else if p = ascii "src9" then some [1, 9, 3] else none

/-- No option of these letters asks for help. -/
theorem clean_of {action : String} {args : List Bytes} {evs : List OptEv} {ops : List Bytes} (h : getopt (tableOf action) args = (evs, ops)) (h1 : OptEv.bad ∉ evs) (h2 : ∀ e ∈ evs, ∀ a, e ≠ .opt 'h' a) : Clean action args := by
  refine ⟨by rw [h]; exact h1, ?_⟩
  rw [h]
  rintro ⟨a, ha⟩
  exact h2 _ ha a rfl

theorem not_help {c : Char} (hc : c ≠ 'h') (a b : Bytes) : OptEv.opt c a ≠ .opt 'h' b := fun h => hc (OptEv.opt.inj h).1

theorem ex_new : ∃ t, Lines exHash exMbed (ascii "new") t (exTrWorld.put (ascii "new") (some (exTrFile 2))) ∧ sessionFiles exHash t = [(bpakId (ascii "a"), [1, 2, 3])] :=
  exTr_lines 2 [1, 2, 3] (ascii "new") (ascii "src") exTrWorld (by decide) (by decide) rfl (by decide) (by decide) exTrRun2

theorem ex_old (w : World) (h0 : w (ascii "old") = none) (hs : w (ascii "src9") = some [1, 9, 3]) :
    ∃ t, Lines exHash exMbed (ascii "old") t (w.put (ascii "old") (some (exTrFile 9))) ∧ sessionFiles exHash t = [(bpakId (ascii "a"), [1, 9, 3])] :=
  exTr_lines 9 [1, 9, 3] (ascii "old") (ascii "src9") w h0 hs rfl (by decide) (by decide) exTrRun9

/-- C113: `bpak extract new --part=a` prints 1, 2, 3; with `-o` they go to the file; there is no part "b". -/
example : ∃ w, (bpakMain exTrEnv w [ascii "extract", ascii "new", ascii "--part=a"] = .exit .ok (.bytes [1, 2, 3]) w) ∧
    (bpakMain exTrEnv w [ascii "extract", ascii "-p", ascii "a", ascii "-oout", ascii "new"] = .exit .ok .nothing (w.put (ascii "out") (some [1, 2, 3]))) ∧
    (bpakMain exTrEnv w [ascii "extract", ascii "-p", ascii "b", ascii "-oout", ascii "new"] = .exit .notFound .nothing w) := by
  obtain ⟨t, ht, hs⟩ := ex_new
  have g1 : getopt extractTable [ascii "new", ascii "--part=a"] = ([.opt 'p' (ascii "a")], [ascii "new"]) := by decide
  have g2 : ∀ x ∈ [ascii "a", ascii "b"], getopt extractTable [ascii "-p", x, ascii "-oout", ascii "new"] = ([.opt 'p' x, .opt 'o' (ascii "out")], [ascii "new"]) := by decide
  refine ⟨exTrWorld.put (ascii "new") (some (exTrFile 2)), ?_, ?_, ?_⟩
  · have h := C113_extract exHash exHash_len exMbed _ _ t _ ht (put_at _ _ _) exTrEnv rfl [ascii "new", ascii "--part=a"]
      (clean_of g1 (by decide) (by simp [not_help])) (by rw [g1]; rfl) (by rw [g1]; decide) (ascii "a") (by rw [g1]; decide) (by decide +kernel) (by rw [g1]; decide)
    rw [hs, List.find?_cons_of_pos (by decide +kernel), g1] at h
    exact h
  · have h := C113_extract exHash exHash_len exMbed _ _ t _ ht (put_at _ _ _) exTrEnv rfl [ascii "-p", ascii "a", ascii "-oout", ascii "new"]
      (clean_of (g2 _ (by simp)) (by decide) (by simp [not_help])) (by rw [g2 _ (by simp)]; rfl) (by rw [g2 _ (by simp)]; decide) (ascii "a") (by rw [g2 _ (by simp)]; decide) (by decide +kernel) (by rw [g2 _ (by simp)]; decide)
    rw [hs, List.find?_cons_of_pos (by decide +kernel), g2 _ (by simp)] at h
    exact h
  · have h := C113_extract exHash exHash_len exMbed _ _ t _ ht (put_at _ _ _) exTrEnv rfl [ascii "-p", ascii "b", ascii "-oout", ascii "new"]
      (clean_of (g2 _ (by simp)) (by decide) (by simp [not_help])) (by rw [g2 _ (by simp)]; rfl) (by rw [g2 _ (by simp)]; decide) (ascii "b") (by rw [g2 _ (by simp)]; decide) (by decide +kernel) (by rw [g2 _ (by simp)]; decide)
    rw [hs, List.find?_cons_of_neg (by decide +kernel)] at h
    exact h

/-- C113: `generate id`, and `compare` and `show` on what the lines made. -/
example (w : World) : bpakMain exTrEnv w [ascii "generate", ascii "id", ascii "merkle-salt"] = .exit .ok (.id 0x7c9b2f93#32) w := by
  have g : getopt generateTable [ascii "id", ascii "merkle-salt"] = ([], [ascii "id", ascii "merkle-salt"]) := by decide
  have h := (C113_generate_line exTrEnv w (ascii "merkle-salt") [] [ascii "id", ascii "merkle-salt"] (clean_of g (by decide) (by simp))).1 (by rw [g])
  rw [show bpakId (ascii "merkle-salt") = 0x7c9b2f93#32 by decide +kernel] at h
  exact h

example : ∃ w, (∀ e s, showCmd exHash (exTrFile 2) ⟨none, none, none, false, true⟩ = .ret (e, s) → bpakMain exTrEnv w [ascii "show", ascii "new", ascii "-H"] = .exit e (.shown s) w) ∧
    ∀ c, compareFiles (exTrFile 2) (exTrFile 9) = .ret c → bpakMain exTrEnv w [ascii "compare", ascii "new", ascii "old"] = .exit c.rc (.comparison c) w := by
  have g1 : getopt showTable [ascii "new", ascii "-H"] = ([.opt 'H' []], [ascii "new"]) := by decide
  have g2 : getopt compareTable [ascii "new", ascii "old"] = ([], [ascii "new", ascii "old"]) := by decide
  generalize hw : (exTrWorld.put (ascii "new") (some (exTrFile 2))).put (ascii "old") (some (exTrFile 9)) = w
  have w1 : w (ascii "new") = some (exTrFile 2) := by rw [← hw, World.put_ne _ _ (by decide), put_at]
  have w2 : w (ascii "old") = some (exTrFile 9) := by rw [← hw, put_at]
  refine ⟨w, ?_, ?_⟩
  · intro e s hs
    have h := C113_show_line exTrEnv w (ascii "new") (exTrFile 2) [ascii "new", ascii "-H"] (clean_of g1 (by decide) (by simp)) (by rw [g1]; rfl) w1
    rw [g1] at h
    have a1 : lastArg 'm' [OptEv.opt 'H' []] = none := rfl
    have a2 : lastArg 'p' [OptEv.opt 'H' []] = none := rfl
    have a3 : lastArg 'P' [OptEv.opt 'H' []] = none := rfl
    have a4 : (lastArg 'B' [OptEv.opt 'H' []]).isSome = false := rfl
    have a5 : (lastArg 'H' [OptEv.opt 'H' []]).isSome = true := rfl
    have hs : showCmd exTrEnv.H (exTrFile 2) ⟨none, none, none, false, true⟩ = .ret (e, s) := hs
    simp only [a1, a2, a3, a4, a5, hs] at h
    exact h
  · intro c hc
    have h := C113_compare_line exTrEnv w (ascii "new") (ascii "old") (exTrFile 2) (exTrFile 9) [] [ascii "new", ascii "old"] (clean_of g2 (by decide) (by simp)) (by rw [g2]) w1 w2
    simp only [hc] at h
    exact h

/-- C99: the lines that send one package against the other, and restore it on a machine that has only the sent file and the origin. -/
example : ∃ w e, (bpakMain exTrEnv w [ascii "transport", ascii "--encode", ascii "new", ascii "--origin", ascii "old", ascii "-o", ascii "sent"] = .exit .ok .nothing (w.put (ascii "sent") (some e))) ∧
    ∃ w', w' (ascii "new") = none ∧
      (bpakMain exTrEnv w' [ascii "transport", ascii "--decode", ascii "sent", ascii "--origin", ascii "old", ascii "--output", ascii "back"] = .exit .ok .nothing (w'.put (ascii "back") (some (exTrFile 2)))) := by
  obtain ⟨t', ht', hs'⟩ := ex_old exTrWorld (by decide) (by decide)
  obtain ⟨t, ht, hs⟩ := exTr_lines 2 [1, 2, 3] (ascii "new") (ascii "src") (exTrWorld.put (ascii "old") (some (exTrFile 9))) (by rw [World.put_ne _ _ (by decide)]; decide)
    (by rw [World.put_ne _ _ (by decide)]; decide) rfl (by decide) (by decide) exTrRun2
  have g1 : getopt transportTable [ascii "--encode", ascii "new", ascii "--origin", ascii "old", ascii "-o", ascii "sent"] = ([.opt 'E' [], .opt 'O' (ascii "old"), .opt 'o' (ascii "sent")], [ascii "new"]) := by decide
  have g2 : getopt transportTable [ascii "--decode", ascii "sent", ascii "--origin", ascii "old", ascii "--output", ascii "back"] = ([.opt 'D' [], .opt 'O' (ascii "old"), .opt 'o' (ascii "back")], [ascii "sent"]) := by decide
  obtain ⟨e, h1, h2⟩ := C99_lines_partial store_laws exHash exHash_len exMbed exTrEnv rfl (fun o n => exSearch o n) (ascii "new") (ascii "old") (ascii "sent") (ascii "back") (exTrFile 2) (exTrFile 9) t t' _ _ ht ht'
    (by rw [World.put_ne _ _ (by decide)]) (put_at _ _ _) (by rw [World.put_ne _ _ (by decide), put_at]) exTr_transportable
    (by rw [hs, hs']; intro c hc; rw [List.mem_singleton.1 hc]; exact ⟨_, List.mem_singleton.2 rfl, rfl⟩) (by rw [hs]; simp) exTrId rfl
    exTr_hasId (by rw [exTr_hdr 9, ← exTr_hdr 2]; exact exTr_hasId) (by rw [exTr_hdr 9, ← exTr_hdr 2]; exact exTr_place) exTr_short
    [ascii "--encode", ascii "new", ascii "--origin", ascii "old", ascii "-o", ascii "sent"] [ascii "--decode", ascii "sent", ascii "--origin", ascii "old", ascii "--output", ascii "back"]
    ⟨clean_of g1 (by decide) (by simp [not_help]), by rw [g1]; decide, by rw [g1]; decide, by rw [g1]; decide, by rw [g1]; decide, by rw [g1]; decide, by rw [g1]; rfl, by rw [g1]; decide, by rw [g1]; decide⟩
    ⟨clean_of g2 (by decide) (by simp [not_help]), by rw [g2]; decide, by rw [g2]; decide, by rw [g2]; decide, by rw [g2]; decide, by rw [g2]; decide, by rw [g2]; rfl, by rw [g2]; decide, by rw [g2]; decide⟩
    (by decide) (by decide) (by decide) (by decide)
  refine ⟨_, e, h1, (exTrWorld.put (ascii "old") (some (exTrFile 9))).put (ascii "sent") (some e), ?_, h2 _ (put_at _ _ _) (by rw [World.put_ne _ _ (by decide), put_at])⟩
  rw [World.put_ne _ _ (by decide), World.put_ne _ _ (by decide)]
  decide

/-- The lines that make the package of SignVerifyExample. -/
theorem ex_lines : ∃ t, Lines exHash exMbed (ascii "p") t (exWorld.put (ascii "p") (some exSvFile)) ∧ ∀ c ∈ t, c.1.builds := by
  obtain ⟨f0, h1, h2⟩ := exSv_steps
  have g1 := ex_create f0 h1
  have g2 := ex_set f0 h2
  have l0 : Lines exHash exMbed (ascii "p") [] exWorld := .start exWorld_at.2.2.2.2
  have k1 : lineCmd exEnv exWorld "create" exCreateLine = some (.create none none false 0) := by unfold lineCmd; rfl
  have l1 := l0.line (env := exEnv) rfl rfl (by decide) (show (getopt (tableOf "create") exCreateLine).2.head? = some (ascii "p") by decide) g1
    (by rw [k1]; rintro c hc; cases hc; exact ⟨trivial, fun h => by cases h⟩)
  have k2 : lineCmd exEnv (exWorld.put (ascii "p") (some f0)) "set" exSetLine = some (.set { keyId := some (ascii "k1"), keystoreId := some (ascii "0x64636261") }) := by
    unfold lineCmd; rw [show getopt (tableOf "set") exSetLine = ([.opt 'k' (ascii "k1"), .opt 'i' (ascii "0x64636261")], [ascii "p"]) by decide]; rfl
  have l2 := l1.line (env := exEnv) rfl rfl (by decide) (show (getopt (tableOf "set") exSetLine).2.head? = some (ascii "p") by decide) g2
    (by rw [k2]; rintro c hc; cases hc; exact ⟨fun n hn => (by cases hn), fun h => (by cases h)⟩)
  rw [k1, k2] at l2
  refine ⟨_, l2, ?_⟩
  intro c hc
  simp only [List.nil_append, Option.toList_some, List.map_cons, List.map_nil, List.cons_append, List.mem_cons, List.not_mem_nil, or_false] at hc
  rcases hc with rfl | rfl
  · trivial
  · rfl

/-- C114: a package made by two lines, signed by a third with key pair 2; a fourth verifies it, with its key and with the keystore that has it, and not with another key. -/
example : ∃ w1, (bpakMain exEnv (exWorld.put (ascii "p") (some exSvFile)) (ascii "sign" :: exSignLine) = .exit .ok .nothing w1) ∧
    (bpakMain exEnv w1 [ascii "verify", ascii "p", ascii "--key=pub"]).status = some 0 ∧ (bpakMain exEnv w1 [ascii "verify", ascii "-kpub3", ascii "p"]).status = some 236 := by
  obtain ⟨f', hdr, hs, ho, -, hw⟩ := ex_signed
  have g3 := ex_sign f' hs
  obtain ⟨t, l2, hb⟩ := ex_lines
  have gs : getopt signTable exSignLine = ([.opt 'k' (ascii "key")], [ascii "p"]) := by decide
  have gv : getopt verifyTable [ascii "p", ascii "--key=pub"] = ([.opt 'k' (ascii "pub")], [ascii "p"]) := by decide
  have gw : getopt verifyTable [ascii "-kpub3", ascii "p"] = ([.opt 'k' (ascii "pub3")], [ascii "p"]) := by decide
  refine ⟨_, g3, ?_, ?_⟩
  · exact C114_own_key exMbed exMbed_laws exHash exHash_len _ t _ l2 hb exEnv rfl rfl rfl exSignLine (clean_of gs (by decide) (by simp [not_help])) (by rw [gs]; rfl) (ascii "key") [81, 2]
      (by rw [gs]; decide) (by rw [gs]; decide) (false, 2) 6 (by rw [World.put_ne _ _ (by decide)]; decide) ⟨rfl, by decide⟩ _ _ g3 (ascii "pub") [80, 2] _ 2 ⟨rfl, by decide⟩ (exMbed_pair 2)
      (fun h => by revert h; decide) _ rfl (by rw [World.put_ne _ _ (by decide)]; decide) exEnv rfl rfl _ (clean_of gv (by decide) (by simp [not_help])) (by rw [gv]; rfl) (by rw [gv]; decide)
  · have hl : 4096 ≤ f'.length := by
      obtain ⟨-, _, _, -, -, l, -⟩ := signed_session exMbed exMbed_laws exHash exHash_len _ t _ l2 hb exEnv rfl rfl rfl exSignLine (clean_of gs (by decide) (by simp)) (by rw [gs]; rfl) (ascii "key") [81, 2]
        (by rw [gs]; decide) (by rw [gs]; decide) (false, 2) 6 (by rw [World.put_ne _ _ (by decide)]; decide) ⟨rfl, by decide⟩ _ _ g3 f' (put_at _ _ _)
      exact l
    rw [verify_line exEnv _ (ascii "p") f' (ascii "pub3") [ascii "-kpub3", ascii "p"] (clean_of gw (by decide) (by simp)) (by rw [gw]; rfl) (by rw [gw]; decide) (put_at _ _ _) hl
      (show (pkgOpen exHash true f').1 = .ok by rw [ho]), World.put_ne _ _ (by decide), exWorld_at.2.2.1, gw]
    have hw : verifyCmd exEnv.H (mbedScheme exEnv.M) f' (some (mbedLoadPublic exEnv.M (some [80, 3]))) ((lastArg 'K' [OptEv.opt 'k' (ascii "pub3")]).bind ((exWorld.put (ascii "p") (some f')))) (mbedParsePublic exEnv.M) = .ret .verifyFail := hw
    simp only [hw]
    rfl

/-- The lines that make the keystore of GenerateExample. -/
theorem exKs_lines (w : World) (h0 : w (ascii "ks") = none) (h1 : w (ascii "k1.pub") = some [1, 2, 3]) (h2 : w (ascii "k2.pub") = some [4, 5]) :
    ∃ t, Lines exHash exMbed (ascii "ks") t (w.put (ascii "ks") (some exKsFile)) ∧ sessionFiles exHash t = [(bpakId (ascii "k1"), [1, 2, 3]), (bpakId (ascii "k2"), [4, 5])] := by
  have out : ∀ (r : Out (Err × Bytes)) (x : Option Bytes), (match r with | .ub => none | .ret (e, f') => some (e, some f')) = some (Err.ok, x) → ∃ f, x = some f ∧ r = .ret (.ok, f) := by
    intro r x hr
    rcases r with ⟨e, f⟩ | _
    · injection hr with hr
      injection hr with a b
      subst a
      exact ⟨f, b.symm, rfl⟩
    · cases hr
  have part : ∀ (f d n : Bytes) (x : Option Bytes), cmdStep exHash exScheme (some f) (.addPart n false none (some d) (.error .failed) []) = some (Err.ok, x) →
      ∃ f', x = some f' ∧ addPartCmd exHash f n false none (some d) (.error .failed) [] = some (.ret (.ok, f')) := by
    intro f d n x h
    have h : (addPartCmd exHash f n false none (some d) (.error .failed) []).bind _ = _ := h
    rcases hx : addPartCmd exHash f n false none (some d) (.error .failed) [] with _ | r
    · rw [hx] at h; cases h
    rw [hx] at h
    obtain ⟨f', e, k⟩ := out _ _ h
    exact ⟨f', e, by rw [k]⟩
  obtain ⟨x1, a1, h, -⟩ := runCmds_step exKsRun1
  obtain ⟨x2, a2, h, -⟩ := runCmds_step h
  obtain ⟨x3, a3, h, -⟩ := runCmds_step h
  obtain ⟨x4, a4, h, len⟩ := runCmds_step h
  have h5 : some (([] : List Err), x4) = some ([], some exKsFile1) := h
  injection h5 with h5
  injection h5 with _ h5
  subst h5
  have a1 : some (createCmd exHash none none none false 0) = some (.ok, x1) := a1
  have a1 := Option.some.inj a1
  cases x1 with
  | none => cases a2
  | some f1 =>
  obtain ⟨f2, e2, k2⟩ := out _ _ a2
  subst e2
  obtain ⟨f3, e3, k3⟩ := out _ _ a3
  subst e3
  obtain ⟨f4, e4, k4⟩ := part _ _ _ _ a4
  injection e4 with e4
  subst e4
  obtain ⟨x5, a5, h, len'⟩ := runCmds_step exKsRun2
  have h5 : some (([] : List Err), x5) = some ([], some exKsFile) := h
  injection h5 with h5
  injection h5 with _ h5
  subst h5
  obtain ⟨f5, e5, k5⟩ := part _ _ _ _ a5
  injection e5 with e5
  subst e5
  have l1 := line_create w (ascii "ks") f1 h0 (by decide) a1
  have l2 := line_addMeta _ _ l1 (put_at _ _ _) (by decide) (by decide +kernel) k2
  rw [World.put_put] at l2
  have l3 := line_addMeta _ _ l2 (put_at _ _ _) (by decide) (by decide +kernel) k3
  rw [World.put_put] at l3
  have len : f3.length < 100000 := len
  have len' : exKsFile1.length < 100000 := len'
  obtain ⟨key, l4⟩ := line_addPart (ascii "k1") (ascii "k1.pub") [1, 2, 3] l3 (put_at _ _ _) (by decide) (by decide +kernel) ((World.put_ne w _ (by decide)).trans h1) (by decide) (by simp only [List.length_cons, List.length_nil]; omega) k4
  rw [World.put_put] at l4
  obtain ⟨key', l5⟩ := line_addPart (ascii "k2") (ascii "k2.pub") [4, 5] l4 (put_at _ _ _) (by decide) (by decide +kernel) ((World.put_ne w _ (by decide)).trans h2) (by decide) (by simp only [List.length_cons, List.length_nil]; omega) k5
  rw [World.put_put] at l5
  exact ⟨_, l5, rfl⟩

/-- C114: and `bpak verify -K ks p` accepts it, where `ks` was made by five lines. -/
example : ∃ w1, bpakMain exEnv (exWorld.put (ascii "p") (some exSvFile)) (ascii "sign" :: exSignLine) = .exit .ok .nothing w1 ∧ (bpakMain exEnv w1 [ascii "verify", ascii "-K", ascii "ks", ascii "p"]).status = some 0 := by
  obtain ⟨f', hdr, hs, ho, -, -⟩ := ex_signed
  have g3 := ex_sign f' hs
  obtain ⟨t, l2, hb⟩ := ex_lines
  have gs : getopt signTable exSignLine = ([.opt 'k' (ascii "key")], [ascii "p"]) := by decide
  have gv : getopt verifyTable [ascii "-K", ascii "ks", ascii "p"] = ([.opt 'K' (ascii "ks")], [ascii "p"]) := by decide
  obtain ⟨tk, lk, ek⟩ := exKs_lines (fun p => if p = ascii "k1.pub" then some [1, 2, 3] else if p = ascii "k2.pub" then some [4, 5] else none) (by decide) (by decide) (by decide)
  refine ⟨_, g3, ?_⟩
  obtain ⟨f2, hdr2, sig, e1, g0, g1, g2⟩ := C114_keystore exMbed exMbed_laws exHash exHash_len _ t _ l2 hb exEnv rfl rfl rfl exSignLine (clean_of gs (by decide) (by simp)) (by rw [gs]; rfl) (ascii "key") [81, 2]
    (by rw [gs]; decide) (by rw [gs]; decide) (false, 2) 6 (by rw [World.put_ne _ _ (by decide)]; decide) ⟨rfl, by decide⟩ _ _ g3 (ascii "ks") exKsFile tk _ lk (put_at _ _ _)
  have ef : f' = f2 := by
    have := congrFun e1 (ascii "p")
    rw [put_at, put_at] at this
    exact Option.some.inj this
  subst ef
  have b1 : (⟨bpakId (ascii "keystore-provider-id"), 0, [97, 98, 99, 100, 0]⟩ : Entry) ∈ entries (parseHeader (exKsFile.take 4096)) := by rw [exKs_entries]; simp
  have hids : hdr2.keyId = bpakId (ascii "k1") ∧ hdr2.keystoreId = 0x64636261 := by
    have e1 : f' = (signCmd exHash (mbedScheme exMbed) exSvFile [] (mbedLoadPrivate exMbed true (some [81, 2]))).2 := by rw [hs]
    have e2 : hdr2 = (pkgOpen exHash true f').2.hdr := by rw [g0]
    rw [e2, e1]
    exact exSv_ids
  rw [hids.1, hids.2, ek] at g2
  have := g2 (by decide +kernel) _ b1 rfl rfl (by decide) (by decide) [1, 2, 3] List.mem_cons_self (by decide) (false, 2) 2 rfl (by decide) (by decide)
    (exWorld.put (ascii "p") (some f')) exEnv [ascii "-K", ascii "ks", ascii "p"] rfl rfl (put_at _ _ _) (by rw [World.put_ne _ _ (by decide)]; exact exWorld_at.2.2.2.1)
    (clean_of gv (by decide) (by simp)) (by rw [gv]; rfl) (by rw [gv]; decide) (by rw [gv]; decide)
  rw [this, if_pos (exMbed_pair 2 _ _ _ _ _ g1)]

end Bpak
