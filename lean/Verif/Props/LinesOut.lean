import Verif.Proof.LinesOut
import Verif.Props.Lines
import Verif.Props.TransportCmd
/-! C113: what the lines that read do; and C99 for lines. -/
namespace Bpak
variable [LzmaLib]

/-- The options are all known to the action, and none of them asks for help. -/
def Clean (action : String) (args : List Bytes) : Prop := OptEv.bad ∉ (getopt (tableOf action) args).1 ∧ ¬ AsksHelp (getopt (tableOf action) args).1

/-- C113, `extract`: on every package with at least the 4096 bytes of a header, with the last `-p`, `-m` and `-r`, the output goes to the file of the last `-o` or is printed, and no other file changes. -/
theorem C113_extract_line (env : Env) (w : World) (path f : Bytes) (args : List Bytes) (hc : Clean "extract" args) (hp : (getopt extractTable args).2.head? = some path) (hf : w path = some f)
    (hl : 4096 ≤ f.length) (ho : lastArg 'o' (getopt extractTable args).1 ≠ some path) :
    let arg := fun c => lastArg c (getopt extractTable args).1
    bpakMain env w (ascii "extract" :: args) = match extractCmd env.H f (arg 'p') (arg 'm') (arg 'r') with
      | .ub => .ub
      | .ret (e, none) => .exit e .nothing w
      | .ret (e, some d) => match arg 'o' with
        | none => .exit e (.bytes d) w
        | some out => .exit e .nothing (w.put out (some d)) := by
  intro arg
  obtain ⟨o, h⟩ := (optLoop_total extractStep (getopt extractTable args).1 {} (extract_letters args)).2 hc.1 hc.2
  obtain ⟨o1, o2, o3, o4⟩ := extract_opts' h
  rw [main_extract]
  unfold actionExtract
  rw [withFile_go h hp]
  unfold extractLine
  by_cases hx : (decide ((o.metaName.map idForNameOrRef).getD 0 ≠ 0) == decide ((o.part.map idForNameOrRef).getD 0 ≠ 0)) = true
  · rw [if_pos hx]
    have : extractCmd env.H f (arg 'p') (arg 'm') (arg 'r') = .ret (.failed, none) := by
      show extractCmd env.H f (lastArg 'p' _) (lastArg 'm' _) (lastArg 'r' _) = _
      rw [← o1, ← o2, ← o4]
      unfold extractCmd
      exact if_pos hx
    rw [this]
  · rw [if_neg hx, hf]
    simp only
    rw [open_long env.H true f hl, put_same w path f hf, if_neg (by rw [o3]; exact ho), o1, o2, o4]
    show (match extractCmd env.H f (arg 'p') (arg 'm') (arg 'r') with | .ub => _ | .ret (e, none) => _ | .ret (e, some d) => _) = _
    rcases extractCmd env.H f (arg 'p') (arg 'm') (arg 'r') with ⟨e, d⟩ | _
    · cases d with
      | none => rfl
      | some d => simp only [o3]; rfl
    · rfl

/-- C113: what lines put into a package, `extract` gets out. After any sequence of lines, `bpak extract -p NAME` (and the like: `--part=NAME`, before or after the file name) prints exactly the content of the file added under that
name, or with `-o` puts it in the file named there, and exits with 0; without such a file it exits with the status of "not found" and changes nothing. -/
theorem C113_extract (H : HashFn) (hH : HashLen H) (M : Mbed) (path f : Bytes) (t : List (Cmd Key × Err)) (w : World) (h : Lines H M path t w) (hf : w path = some f)
    (env : Env) (he : env.H = H) (args : List Bytes) (hc : Clean "extract" args) (hp : (getopt extractTable args).2.head? = some path)
    (ho : lastArg 'o' (getopt extractTable args).1 ≠ some path) (name : Bytes) (hn : lastArg 'p' (getopt extractTable args).1 = some name) (hn0 : idForNameOrRef name ≠ 0)
    (hm : lastArg 'm' (getopt extractTable args).1 = none) :
    bpakMain env w (ascii "extract" :: args) = match (sessionFiles H t).find? (fun c => decide (c.1 = idForNameOrRef name)) with
      | none => .exit .notFound .nothing w
      | some c => match lastArg 'o' (getopt extractTable args).1 with
        | none => .exit .ok (.bytes c.2) w
        | some out => .exit .ok .nothing (w.put out (some c.2)) := by
  subst he
  obtain ⟨hdr, hl, -, -, -, -, -, hx⟩ := C111_contents env.H hH M path f t w h hf
  have hx := hx name hn0
  have ref : extractCmd env.H f (some name) none (lastArg 'r' (getopt extractTable args).1) = extractCmd env.H f (some name) none none := by
    unfold extractCmd
    rfl
  have hm' := C113_extract_line env w path f args hc hp hf hl ho
  simp only [hn, hm, ref, hx] at hm'
  rw [hm']
  cases (sessionFiles env.H t).find? (fun c => decide (c.1 = idForNameOrRef name)) <;> rfl

/-- C113, `show`: what is shown is what the last of each option asks for, and no file changes. -/
theorem C113_show_line (env : Env) (w : World) (path f : Bytes) (args : List Bytes) (hc : Clean "show" args) (hp : (getopt showTable args).2.head? = some path) (hf : w path = some f) :
    let arg := fun c => lastArg c (getopt showTable args).1
    bpakMain env w (ascii "show" :: args) = match showCmd env.H f ⟨arg 'm', arg 'p', arg 'P', (arg 'B').isSome, (arg 'H').isSome⟩ with
      | .ub => .ub
      | .ret (e, s) => .exit e (.shown s) w := by
  intro arg
  obtain ⟨o, h⟩ := (optLoop_total showStep (getopt showTable args).1 {} (show_letters args)).2 hc.1 hc.2
  obtain ⟨o1, o2, o3, o4, o5⟩ := show_opts' h
  rw [main_show]
  unfold actionShow
  rw [withFile_go h hp]
  unfold showLine
  rw [hf]
  simp only
  rw [show o = ⟨arg 'm', arg 'p', arg 'P', (arg 'B').isSome, (arg 'H').isSome⟩ by cases o; simp only at o1 o2 o3 o4 o5; rw [o1, o2, o3, o4, o5]]
  rcases showCmd env.H f ⟨arg 'm', arg 'p', arg 'P', (arg 'B').isSome, (arg 'H').isSome⟩ with _ | _ <;> rfl

/-- C113, `compare`: the report and the status are those of the two packages in their order, and no file changes. -/
theorem C113_compare_line (env : Env) (w : World) (a b f g : Bytes) (rest : List Bytes) (args : List Bytes) (hc : Clean "compare" args) (hp : (getopt compareTable args).2 = a :: b :: rest)
    (hf : w a = some f) (hg : w b = some g) :
    bpakMain env w (ascii "compare" :: args) = match compareFiles f g with
      | .ub => .ub
      | .ret c => .exit c.rc (.comparison c) w := by
  have hl : ∀ c x, OptEv.opt c x ∈ (getopt compareTable args).1 → c = 'h' ∨ c = 'v' ∨ ∀ s : Unit, (fun (_ : Char) (_ : Bytes) (_ : Unit) => (none : Option Unit)) c x s ≠ none := by
    intro c x h
    have := getopt_letters compareTable args false c x h
    simp only [OptTable.letters, compareTable, List.map_cons, List.map_nil, List.cons_append, List.nil_append, List.mem_cons, List.not_mem_nil, or_false] at this
    rcases this with h | h | h | h <;> subst h <;> first | exact .inl rfl | exact .inr (.inl rfl)
  obtain ⟨o, h⟩ := (optLoop_total (fun _ _ _ => none) (getopt compareTable args).1 () hl).2 hc.1 hc.2
  rw [main_compare]
  unfold actionCompare withOpts
  rw [h, hp]
  simp only [hf, hg]
  cases compareFiles f g <;> rfl

/-- C113, `generate`: `generate id NAME` prints the id of the name; `generate keystore FILE` prints the code for the package, for the last `-n`, decorated if `-d` is given. No file changes. -/
theorem C113_generate_line (env : Env) (w : World) (x : Bytes) (rest args : List Bytes) (hc : Clean "generate" args) :
    ((getopt generateTable args).2 = ascii "id" :: x :: rest → bpakMain env w (ascii "generate" :: args) = .exit .ok (.id (bpakId x)) w) ∧
    ((getopt generateTable args).2 = ascii "keystore" :: x :: rest →
      bpakMain env w (ascii "generate" :: args) = match generateKeystore (w x) (lastArg 'n' (getopt generateTable args).1) (lastArg 'd' (getopt generateTable args).1).isSome (mbedParsePublic env.M) with
        | .ub => .ub
        | .ret (e, c) => .exit e (.code c) w) := by
  obtain ⟨o, h⟩ := (optLoop_total generateStep (getopt generateTable args).1 {} (generate_letters args)).2 hc.1 hc.2
  obtain ⟨o1, o2⟩ := generate_opts' h
  rw [main_generate]
  unfold actionGenerate withOpts
  rw [h]
  constructor
  · intro hp
    rw [hp]
    simp only [if_true]
    rfl
  · intro hp
    rw [hp]
    simp only
    rw [if_neg (by decide), if_pos trivial, o1, o2]
    cases generateKeystore (w x) (lastArg 'n' (getopt generateTable args).1) (lastArg 'd' (getopt generateTable args).1).isSome (mbedParsePublic env.M) <;> rfl

/-- What `transport` does with an input and an origin that open, once its options are read. -/
theorem transport_line (env : Env) (w : World) (path f og g out : Bytes) (args : List Bytes) (hc : Clean "transport" args)
    (hs : lastArg 's' (getopt transportTable args).1 = none) (hg : lastArg 'G' (getopt transportTable args).1 = none)
    (hp : (getopt transportTable args).2.head? = some path) (ha : lastArg 'a' (getopt transportTable args).1 = none)
    (hO : lastArg 'O' (getopt transportTable args).1 = some og) (ho : lastArg 'o' (getopt transportTable args).1 = some out) (h1 : out ≠ path) (h2 : out ≠ og)
    (hf : w path = some f) (hgf : w og = some g) (hl : 4096 ≤ f.length) (hlg : 4096 ≤ g.length) (op : (pkgOpen env.H true f).1 = .ok) (og' : (pkgOpen env.H true g).1 = .ok) :
    (lastArg 'E' (getopt transportTable args).1 ≠ none → lastArg 'D' (getopt transportTable args).1 = none →
      bpakMain env w (ascii "transport" :: args) = toOutput env w out (transportEncodeCmd env.H env.srch (some f) (some (some g)) true)) ∧
    (lastArg 'E' (getopt transportTable args).1 = none → lastArg 'D' (getopt transportTable args).1 ≠ none →
      bpakMain env w (ascii "transport" :: args) = toOutput env w out (transportDecodeCmd env.H (some f) (some (some g)) true)) := by
  obtain ⟨o, h⟩ := (optLoop_total transportStep (getopt transportTable args).1 {} (transport_letters args hs hg)).2 hc.1 hc.2
  obtain ⟨o1, o2, o3, o4, o5, o6, o7, o8⟩ := transport_opts' h
  rw [ha] at o1
  rw [hO] at o4
  rw [ho] at o5
  rw [main_transport]
  unfold actionTransport
  rw [withFile_go h hp]
  have cnt : ∀ a b c : Bool, a.toNat + b.toNat + c.toNat > 1 → (a = true ∧ (b = true ∨ c = true)) ∨ (b = true ∧ c = true) := by decide
  have pre : ¬ (o.encode = true ∧ o.decode = true) → transportLine env w o path = transportRun env w path f (some (some g)) o := by
    intro hed
    unfold transportLine
    rw [if_neg (by
      intro hh
      rcases cnt _ _ _ hh with ⟨ha, hb | hb⟩ | ⟨hb, -⟩
      · rw [o1] at hb; cases hb
      · exact hed ⟨ha, hb⟩
      · rw [o1] at hb; cases hb), hf]
    simp only [open_long env.H true f hl, put_same w path f hf, op, o4, hgf, open_long env.H true g hlg, put_same w og g hgf, og']
    rw [if_neg (fun h => h rfl)]
    rw [if_neg (fun h => h rfl)]
  have nsh : ¬ (out = path ∨ o.origin = some out) := by
    rw [o4]
    rintro (h | h)
    · exact h1 h
    · exact h2 (Option.some.inj h).symm
  constructor
  · intro hE hD
    have e1 : o.encode = true := by rw [o2]; cases hx : lastArg 'E' (getopt transportTable args).1 with | none => exact absurd hx hE | some _ => rfl
    have e2 : o.decode = false := by rw [o3, hD]; rfl
    rw [pre (fun h => by rw [e2] at h; cases h.2)]
    unfold transportRun
    rw [e1, e2]
    refine (if_pos rfl).trans ?_
    rw [o5]
    simp only
    rw [if_neg nsh]
    rfl
  · intro hE hD
    have e1 : o.encode = false := by rw [o2, hE]; rfl
    have e2 : o.decode = true := by rw [o3]; cases hx : lastArg 'D' (getopt transportTable args).1 with | none => exact absurd hx hD | some _ => rfl
    rw [pre (fun h => by rw [e1] at h; cases h.1)]
    unfold transportRun
    rw [e1, e2]
    refine (if_pos rfl).trans ?_
    rw [o5]
    simp only
    rw [if_neg nsh]
    rfl

/-- A line that sends (`--encode`) or restores (`--decode`): input, origin and output. -/
structure TransportLine (flag other : Char) (args : List Bytes) (path og out : Bytes) : Prop where
  clean : Clean "transport" args
  noS : lastArg 's' (getopt transportTable args).1 = none
  noG : lastArg 'G' (getopt transportTable args).1 = none
  noAdd : lastArg 'a' (getopt transportTable args).1 = none
  hasFlag : lastArg flag (getopt transportTable args).1 ≠ none
  noOther : lastArg other (getopt transportTable args).1 = none
  input : (getopt transportTable args).2.head? = some path
  origin : lastArg 'O' (getopt transportTable args).1 = some og
  output : lastArg 'o' (getopt transportTable args).1 = some out

/-- C99, on the command line: a package that lines made, sent with `bpak transport --encode PKG --origin ORIGIN --output SENT`, and restored with `bpak transport --decode SENT --origin ORIGIN --output BACK`, possibly much later
and with other files changed in between: both lines exit with 0, and BACK is the package byte for byte. (Under the conditions of C99_send_and_restore_partial, without which it is false.) -/
theorem C99_lines_partial (L : LzmaLaws) (H : HashFn) (hH : HashLen H) (M : Mbed) (env : Env) (he : env.H = H) (hsr : ∀ o n, SearchOk o n (env.srch o n))
    (path og sent back f g : Bytes) (t t' : List (Cmd Key × Err)) (w wg : World) (hf : Lines H M path t w) (hg : Lines H M og t' wg) (hw : w og = wg og) (pf : w path = some f) (pg : w og = some g)
    (hp : ∀ pre q post, usedParts (storedPkg f).hdr = pre ++ q :: post → Transportable H (storedPkg f) true pre q)
    (has : ∀ c ∈ sessionFiles H t, ∃ c' ∈ sessionFiles H t', c'.1 = c.1) (hne : sessionFiles H t ≠ [])
    (u : Bytes) (ul : u.length = 16) (hu : HasEntry (storedPkg f).hdr idBpakPackage 0 u) (hv : HasEntry (storedPkg g).hdr idBpakPackage 0 u)
    (hsp : SamePlace (storedPkg f).hdr (storedPkg g).hdr) (short : 29 * f.length < 2^63)
    (args args' : List Bytes) (l1 : TransportLine 'E' 'D' args path og sent) (l2 : TransportLine 'D' 'E' args' sent og back)
    (d1 : sent ≠ path) (d2 : sent ≠ og) (d3 : back ≠ sent) (d4 : back ≠ og) :
    ∃ e, bpakMain env w (ascii "transport" :: args) = .exit .ok .nothing (w.put sent (some e)) ∧
      ∀ w', w' sent = some e → w' og = some g → bpakMain env w' (ascii "transport" :: args') = .exit .ok .nothing (w'.put back (some f)) := by
  subst he
  obtain ⟨s, hs, hst, -⟩ := C111_lines_are_a_session env.H hH M path t w hf
  obtain ⟨s', hs', hst', -⟩ := C111_lines_are_a_session env.H hH M og t' wg hg
  rw [pf] at hs
  rw [← hw, pg] at hs'
  have es : sessionFiles env.H s = sessionFiles env.H t := by rw [← sessionFiles_filter, hst, sessionFiles_filter]
  have es' : sessionFiles env.H s' = sessionFiles env.H t' := by rw [← sessionFiles_filter, hst', sessionFiles_filter]
  obtain ⟨hdr, a1, -, a2, -⟩ := C84_session env.H hH _ (mbed_sign_err M) s f hs
  obtain ⟨hdr', b1, -, b2, -⟩ := C84_session env.H hH _ (mbed_sign_err M) s' g hs'
  obtain ⟨e, e1, e2, h1, h2⟩ := send_and_restore_cmd L env.H hH (mbedScheme M) (mbed_sign_err M) env.srch hsr s s' f g hs hs' hp (by rw [es, es']; exact has) (by rw [es]; exact hne) u ul hu hv hsp short
  refine ⟨e, ?_, ?_⟩
  · rw [(transport_line env w path f og g sent args l1.clean l1.noS l1.noG l1.input l1.noAdd l1.origin l1.output d1 d2 pf pg a1 b1 (by rw [a2]) (by rw [b2])).1 l1.hasFlag l1.noOther, h1]
    rfl
  · intro w' h3 h4
    rw [(transport_line env w' sent e og g back args' l2.clean l2.noS l2.noG l2.input l2.noAdd l2.origin l2.output d3 d4 h3 h4 e1 b1 e2 (by rw [b2])).2 l2.noOther l2.hasFlag, h2]
    rfl

end Bpak
