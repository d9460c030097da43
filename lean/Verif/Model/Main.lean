import Verif.Model.Getopt
import Verif.Model.Cli
import Verif.Model.Compare
import Verif.Model.Crypto
import Verif.Model.Generate
import Verif.Model.TransportCmd
/-!
The `bpak` tool from its command line to its exit status: src/main.c and the option loops of the commands in src/. What a command does after its options are parsed is in Model/Cli.lean, Add, Create,
Set, Compare, Generate and TransportCmd.

Simplifications: two different path strings name two different files; every file can be read and written and every path can be created; what `-v` prints in addition and the texts on `stderr` are left out.
-/
namespace Bpak
variable [LzmaLib]

/-- The files, by their paths. (no C counterpart) -/
abbrev World := Bytes → Option Bytes

/-- The world with another content (or no file) at a path. (no C counterpart) -/
def World.put (w : World) (path : Bytes) (x : Option Bytes) : World := fun p => if p = path then x else w p

/-- What a run depends on besides the command line and the files: the crypto library, the match search of the encoder (lib/bsdiff.c:50-95), random bytes, the answer typed when `bpak create` asks
(src/create.c:117), and what a failing `--encode` or `--decode` leaves in its output file. (no C counterpart) -/
structure Env where
  H : HashFn
  M : Mbed
  srch : Bytes → Bytes → Int → Option (Int × Int)
  seeded : Bool := true
  rnd : Bytes := []
  salt : Bytes := []
  answer : U8 := 0
  left : Bytes := []

/-- What is printed on `stdout`. (no C counterpart) -/
inductive Printed where
  | nothing
  | usage
  | version
  | shown (s : Shown)
  | bytes (d : Bytes)
  | comparison (c : Comparison)
  | id (n : U32)
  | code (g : GenOut)
  | verified

/-- The end of a run: `main` returns, with the files then; undefined behaviour; no end; not modelled, because a file is written under a path that is open for reading at the same time. (no C counterpart) -/
inductive Ran where
  | exit (rc : Err) (out : Printed) (w : World)
  | ub
  | hang
  | shared

/-- The option loop of a command: `-h` ends it with 0, an error of `getopt_long` and every letter the `switch` does not know with -1, `-v` has no effect here. (src/create.c:33-65, src/add.c:55-105,
src/show.c:53-94, src/sign.c:42-70, 138-165, src/generate.c:36-65, src/transport.c:52-100, src/set.c:48-89, src/compare.c:38-60, src/extract.c:47-83, src/delete.c:43-76) -/
def optLoop {σ : Type} (step : Char → Bytes → σ → Option σ) : List OptEv → σ → Except Err σ
  | [], s => .ok s
  | .bad :: _, _ => .error .failed
  | .opt c a :: es, s =>
    if c = 'h' then .error .ok
    else if c = 'v' then optLoop step es s
    else match step c a s with
      | none => .error .failed
      | some s => optLoop step es s

/-- The option loop and what follows it. (as `optLoop`) -/
def withOpts {σ : Type} (t : OptTable) (step : Char → Bytes → σ → Option σ) (init : σ) (w : World) (args : List Bytes) (k : σ → List Bytes → Ran) : Ran :=
  match optLoop step (getopt t args).1 init with
  | .error e => .exit e (if e = .ok then .usage else .nothing) w
  | .ok o => k o (getopt t args).2

/-- The same for a command that needs a file name, its first operand; further operands are ignored. (src/create.c:66-71, src/add.c:106-111, src/show.c:95-100, src/sign.c:71-76, 166-171,
src/transport.c:101-106, src/set.c:90-95, src/extract.c:84-89, src/delete.c:77-82) -/
def withFile {σ : Type} (t : OptTable) (step : Char → Bytes → σ → Option σ) (init : σ) (w : World) (args : List Bytes) (k : σ → Bytes → Ran) : Ran :=
  withOpts t step init w args fun o ops => match ops with
    | [] => .exit .failed .nothing w
    | path :: _ => k o path

/-- A command that changes the file at `path`. (no C counterpart) -/
def inPlace (w : World) (path : Bytes) : Option (Out (Err × Bytes)) → Ran
  | none => .hang
  | some .ub => .ub
  | some (.ret (e, f)) => .exit e .nothing (w.put path (some f))

/-! ### create -/

/-- src/create.c:25-44. -/
structure CreateOpts where
  hash : Option Bytes := none
  sig : Option Bytes := none
  force : Bool := false

/-- src/create.c:24-35. -/
def createTable : OptTable := ⟨[('h', false), ('v', false), ('Y', false), ('H', true), ('S', true)],
  [("help", false, 'h'), ("verbose", false, 'v'), ("force", false, 'Y'), ("hash-kind", true, 'H'), ("signature-kind", true, 'S')]⟩

/-- The `switch`, src/create.c:36-64. -/
def createStep (c : Char) (a : Bytes) (o : CreateOpts) : Option CreateOpts :=
  match c with
  | 'Y' => some { o with force := true }
  | 'H' => some { o with hash := some a }
  | 'S' => some { o with sig := some a }
  | _ => none

/-- The part of `action_create` after the options and the file name, src/create.c:73-153. -/
def createLine (env : Env) (w : World) (o : CreateOpts) (path : Bytes) : Ran :=
  let r := createCmd env.H (w path) o.hash o.sig o.force env.answer
  .exit r.1 .nothing (w.put path r.2)

/-- `action_create`, src/create.c:18-153. -/
def actionCreate (env : Env) (w : World) (args : List Bytes) : Ran := withFile createTable createStep {} w args (createLine env w)

/-! ### add -/

/-- src/add.c:33-41. -/
structure AddLine where
  part : Option Bytes := none
  metaName : Option Bytes := none
  fromFile : Option Bytes := none
  fromString : Option Bytes := none
  encoder : Option Bytes := none
  ref : Option Bytes := none
  dontHash : Bool := false

/-- src/add.c:42-59. -/
def addTable : OptTable := ⟨[('h', false), ('v', false), ('p', true), ('m', true), ('f', true), ('s', true), ('e', true), ('F', true), ('r', true)],
  [("help", false, 'h'), ("verbose", false, 'v'), ("part", true, 'p'), ("meta", true, 'm'), ("from-file", true, 'f'), ("from-string", true, 's'), ("encoder", true, 'e'), ("set-flag", true, 'F'),
   ("part-ref", true, 'r')]⟩

/-- The `switch`, src/add.c:60-104. -/
def addStep (c : Char) (a : Bytes) (o : AddLine) : Option AddLine :=
  match c with
  | 'p' => some { o with part := some a }
  | 'm' => some { o with metaName := some a }
  | 'r' => some { o with ref := some a }
  | 'f' => some { o with fromFile := some a }
  | 's' => some { o with fromString := some a }
  | 'e' => some { o with encoder := some a }
  | 'F' => if a = ascii "dont-hash" then some { o with dontHash := true } else none
  | _ => none

/-- `bpak add --part` with the file at `path` holding `f`, src/add.c:127-133, 284-307. A file that is not there: `stat` fails (lib/pkg_create.c:52, 210), or loading the key. An unknown encoder fails
without a look at the file. -/
def addPartLine (env : Env) (w : World) (path f : Bytes) (name : Bytes) (o : AddLine) : Ran :=
  let unknown := decide (o.encoder ≠ none ∧ o.encoder ≠ some (ascii "key") ∧ o.encoder ≠ some (ascii "merkle"))
  if unknown then inPlace w path (addPartCmd env.H f name o.dontHash o.encoder (some []) (.error .failed) env.salt)
  else if o.fromFile = some path then .shared
  else match o.fromFile with
    | none => inPlace w path (addPartCmd env.H f name o.dontHash o.encoder none (.error .failed) env.salt)
    | some src => match w src with
      | some d => inPlace w path (addPartCmd env.H f name o.dontHash o.encoder (some d) ((mbedLoadPublic env.M (some d)).map Key.data) env.salt)
      | none =>
        if (pkgOpen env.H true f).1 ≠ .ok then .exit (pkgOpen env.H true f).1 .nothing (w.put path (some (pkgOpen env.H true f).2.file))
        else if o.encoder = some (ascii "key") then
          inPlace w path (addPartCmd env.H f name o.dontHash o.encoder (some []) ((mbedLoadPublic env.M none).map Key.data) env.salt)
        else .exit .fileNotFound .nothing (w.put path (some (pkgOpen env.H true f).2.file))

/-- The part of `action_add` after the options and the file name, src/add.c:113-307. -/
def addLine (env : Env) (w : World) (o : AddLine) (path : Bytes) : Ran :=
  if o.part = none ∧ o.metaName = none then .exit .failed .nothing w
  else if o.fromString = none ∧ o.fromFile = none then .exit .failed .nothing w
  else match w path with
    | none => .exit .notFound .nothing w
    | some f => match o.metaName with
      | some m =>
        let w' := w.put path (some (pkgOpen env.H true f).2.file)
        let source := match o.fromString with | some s => AddSource.text s | none => .file (o.fromFile.bind w')
        inPlace w path (some (addMetaCmd env.H f ⟨m, source, o.ref, o.encoder⟩))
      | none => addPartLine env w path f (o.part.getD []) o

/-- `action_add`, src/add.c:26-307. -/
def actionAdd (env : Env) (w : World) (args : List Bytes) : Ran := withFile addTable addStep {} w args (addLine env w)

/-! ### set -/

/-- src/set.c:37-52. -/
def setTable : OptTable := ⟨[('h', false), ('v', false), ('p', true), ('m', true), ('s', true), ('e', true), ('k', true), ('i', true)],
  [("help", false, 'h'), ("verbose", false, 'v'), ("meta", true, 'm'), ("from-string", true, 's'), ("encoder", true, 'e'), ("key-id", true, 'k'), ("keystore-id", true, 'i')]⟩

/-- The `switch`, src/set.c:53-88. -/
def setStep (c : Char) (a : Bytes) (o : SetOpts) : Option SetOpts :=
  match c with
  | 'k' => some { o with keyId := some a }
  | 'i' => some { o with keystoreId := some a }
  | 'm' => some { o with name := some a }
  | 's' => some { o with text := some a }
  | 'e' => some { o with encoder := some a }
  | _ => none

/-- The part of `action_set` after the options and the file name, src/set.c:97-268. -/
def setLine (w : World) (o : SetOpts) (path : Bytes) : Ran :=
  match w path with
  | some f => inPlace w path (some (setCmd f o))
  | none =>
    if o.name = none ∧ o.keyId = none ∧ o.keystoreId = none then .exit .failed .nothing w
    else if o.text = none ∧ o.name ≠ none then .exit .failed .nothing w
    else .exit .fileNotFound .nothing w

/-- `action_set`, src/set.c:23-268. -/
def actionSet (w : World) (args : List Bytes) : Ran := withFile setTable setStep {} w args (setLine w)

/-! ### delete -/

/-- src/delete.c:29-31. -/
structure DeleteOpts where
  part : Option Bytes := none
  all : Bool := false
  keep : Bool := false

/-- src/delete.c:34-47. -/
def deleteTable : OptTable := ⟨[('h', false), ('v', false), ('p', true), ('a', false), ('k', false)],
  [("help", false, 'h'), ("verbose", false, 'v'), ("part", true, 'p'), ("all", false, 'a'), ("keep-meta", false, 'k')]⟩

/-- The `switch`, src/delete.c:48-75. -/
def deleteStep (c : Char) (a : Bytes) (o : DeleteOpts) : Option DeleteOpts :=
  match c with
  | 'p' => some { o with part := some a }
  | 'a' => some { o with all := true }
  | 'k' => some { o with keep := true }
  | _ => none

/-- The part of `action_delete` after the options and the file name, src/delete.c:84-107. -/
def deleteLine (env : Env) (w : World) (o : DeleteOpts) (path : Bytes) : Ran :=
  match w path with
  | some f => inPlace w path (deleteCmd env.H f o.part o.all o.keep)
  | none => .exit (if (o.part.map idForNameOrRef).getD 0 = 0 ∧ o.all = false then .failed else .notFound) .nothing w

/-- `action_delete`, src/delete.c:24-107. -/
def actionDelete (env : Env) (w : World) (args : List Bytes) : Ran := withFile deleteTable deleteStep {} w args (deleteLine env w)

/-! ### sign, verify -/

/-- src/sign.c:26-28. -/
structure SignOpts where
  key : Option Bytes := none
  signature : Option Bytes := none

/-- src/sign.c:34-44. -/
def signTable : OptTable := ⟨[('h', false), ('v', false), ('k', true), ('f', true)],
  [("help", false, 'h'), ("verbose", false, 'v'), ("key", true, 'k'), ("signature", true, 'f')]⟩

/-- The `switch`, src/sign.c:45-69. -/
def signStep (c : Char) (a : Bytes) (o : SignOpts) : Option SignOpts :=
  match c with
  | 'k' => some { o with key := some a }
  | 'f' => some { o with signature := some a }
  | _ => none

/-- The part of `action_sign` after the options and the file name, src/sign.c:78-115. With neither option the null pointer is passed on as the name of the key file. -/
def signLine (env : Env) (w : World) (o : SignOpts) (path : Bytes) : Ran :=
  match w path with
  | none => .exit .notFound .nothing w
  | some f =>
    let r := pkgOpen env.H true f
    let w' := w.put path (some r.2.file)
    if r.1 ≠ .ok then .exit r.1 .nothing w'
    else match o.signature with
      | some s => match w' s with
        | none => .exit .fileNotFound .nothing w'
        | some d => inPlace w path (some (signRawCmd env.H f d))
      | none => match o.key with
        | none => .ub
        | some k => inPlace w path (some (.ret (signCmd env.H (mbedScheme env.M) f env.rnd (mbedLoadPrivate env.M env.seeded (w' k)))))

/-- `action_sign`, src/sign.c:22-115. -/
def actionSign (env : Env) (w : World) (args : List Bytes) : Ran := withFile signTable signStep {} w args (signLine env w)

/-- src/sign.c:122-123. -/
structure VerifyOpts where
  key : Option Bytes := none
  keystore : Option Bytes := none

/-- src/sign.c:130-139. -/
def verifyTable : OptTable := ⟨[('h', false), ('v', false), ('k', true), ('K', true)],
  [("help", false, 'h'), ("verbose", false, 'v'), ("key", true, 'k'), ("keystore", true, 'K')]⟩

/-- The `switch`, src/sign.c:140-164. -/
def verifyStep (c : Char) (a : Bytes) (o : VerifyOpts) : Option VerifyOpts :=
  match c with
  | 'k' => some { o with key := some a }
  | 'K' => some { o with keystore := some a }
  | _ => none

/-- The part of `action_verify` after the options and the file name, src/sign.c:173-218. -/
def verifyLine (env : Env) (w : World) (o : VerifyOpts) (path : Bytes) : Ran :=
  match w path with
  | none => .exit .notFound .nothing w
  | some f =>
    let r := pkgOpen env.H true f
    let w' := w.put path (some r.2.file)
    if r.1 ≠ .ok then .exit r.1 .nothing w'
    else if o.key = none ∧ o.keystore.bind w' = none ∧ o.keystore ≠ none then .exit .notFound .nothing w'
    else match verifyCmd env.H (mbedScheme env.M) f (o.key.map (fun k => mbedLoadPublic env.M (w' k))) (o.keystore.bind w') (mbedParsePublic env.M) with
      | .ub => .ub
      | .ret e => .exit e (if e = .ok then .verified else .nothing) w'

/-- `action_verify`, src/sign.c:117-218. -/
def actionVerify (env : Env) (w : World) (args : List Bytes) : Ran := withFile verifyTable verifyStep {} w args (verifyLine env w)

/-! ### show, extract, compare, generate -/

/-- src/show.c:42-55. -/
def showTable : OptTable := ⟨[('h', false), ('v', false), ('m', true), ('p', true), ('P', true), ('H', false), ('B', false)],
  [("help", false, 'h'), ("verbose", false, 'v'), ("meta", true, 'm'), ("part", true, 'p'), ("part-hash", true, 'P'), ("hash", false, 'H'), ("binary-hash", false, 'B')]⟩

/-- The `switch`, src/show.c:56-93. -/
def showStep (c : Char) (a : Bytes) (o : ShowOpts) : Option ShowOpts :=
  match c with
  | 'p' => some { o with partName := some a }
  | 'P' => some { o with partHash := some a }
  | 'm' => some { o with metaName := some a }
  | 'H' => some { o with text := true }
  | 'B' => some { o with binary := true }
  | _ => none

/-- The part of `action_show` after the options and the file name, src/show.c:102-303. -/
def showLine (env : Env) (w : World) (o : ShowOpts) (path : Bytes) : Ran :=
  match w path with
  | none => .exit .notFound .nothing w
  | some f => match showCmd env.H f o with
    | .ub => .ub
    | .ret (e, s) => .exit e (.shown s) w

/-- `action_show`, src/show.c:23-303. -/
def actionShow (env : Env) (w : World) (args : List Bytes) : Ran := withFile showTable showStep {} w args (showLine env w)

/-- src/extract.c:29-33. -/
structure ExtractOpts where
  metaName : Option Bytes := none
  part : Option Bytes := none
  output : Option Bytes := none
  ref : Option Bytes := none

/-- src/extract.c:37-51. -/
def extractTable : OptTable := ⟨[('h', false), ('v', false), ('m', true), ('p', true), ('o', true), ('r', true)],
  [("help", false, 'h'), ("verbose", false, 'v'), ("meta", true, 'm'), ("part", true, 'p'), ("output", true, 'o'), ("part-ref", true, 'r')]⟩

/-- The `switch`, src/extract.c:52-82. -/
def extractStep (c : Char) (a : Bytes) (o : ExtractOpts) : Option ExtractOpts :=
  match c with
  | 'r' => some { o with ref := some a }
  | 'p' => some { o with part := some a }
  | 'm' => some { o with metaName := some a }
  | 'o' => some { o with output := some a }
  | _ => none

/-- The part of `action_extract` after the options and the file name, src/extract.c:91-157. -/
def extractLine (env : Env) (w : World) (o : ExtractOpts) (path : Bytes) : Ran :=
  if decide ((o.metaName.map idForNameOrRef).getD 0 ≠ 0) == decide ((o.part.map idForNameOrRef).getD 0 ≠ 0) then .exit .failed .nothing w
  else match w path with
    | none => .exit .notFound .nothing w
    | some f =>
      let w' := w.put path (some (pkgOpen env.H true f).2.file)
      if o.output = some path then .shared
      else match extractCmd env.H f o.part o.metaName o.ref with
        | .ub => .ub
        | .ret (e, none) => .exit e .nothing w'
        | .ret (e, some d) => match o.output with
          | none => .exit e (.bytes d) w'
          | some out => .exit e .nothing (w'.put out (some d))

/-- `action_extract`, src/extract.c:24-157. -/
def actionExtract (env : Env) (w : World) (args : List Bytes) : Ran := withFile extractTable extractStep {} w args (extractLine env w)

/-- src/compare.c:32-39. -/
def compareTable : OptTable := ⟨[('h', false), ('v', false)], [("help", false, 'h'), ("verbose", false, 'v')]⟩

/-- `action_compare`, src/compare.c:22-355; the `switch` knows no further letters. -/
def actionCompare (w : World) (args : List Bytes) : Ran :=
  withOpts (σ := Unit) compareTable (fun _ _ _ => none) () w args fun _ ops => match ops with
    | path1 :: path2 :: _ => match w path1, w path2 with
      | some f1, some f2 => match compareFiles f1 f2 with
        | .ub => .ub
        | .ret c => .exit c.rc (.comparison c) w
      | _, _ => .exit .fileNotFound .nothing w
    | _ => .exit .failed .nothing w

/-- src/generate.c:24-25. -/
structure GenerateOpts where
  name : Option Bytes := none
  decorate : Bool := false

/-- src/generate.c:28-38. -/
def generateTable : OptTable := ⟨[('h', false), ('v', false), ('d', false), ('n', true)],
  [("help", false, 'h'), ("verbose", false, 'v'), ("name", true, 'n'), ("decorate", false, 'd')]⟩

/-- The `switch`, src/generate.c:39-64. -/
def generateStep (c : Char) (a : Bytes) (o : GenerateOpts) : Option GenerateOpts :=
  match c with
  | 'n' => some { o with name := some a }
  | 'd' => some { o with decorate := true }
  | _ => none

/-- `action_generate`, src/generate.c:17-279. For a generator it does not know it prints nothing and returns 0. -/
def actionGenerate (env : Env) (w : World) (args : List Bytes) : Ran :=
  withOpts generateTable generateStep {} w args fun o ops => match ops with
    | [] => .exit .failed .nothing w
    | g :: ops =>
      if g = ascii "id" then match ops with
        | [] => .exit .failed .nothing w
        | s :: _ => .exit .ok (.id (generateId s)) w
      else if g = ascii "keystore" then match ops with
        | [] => .exit .failed .nothing w
        | path :: _ => match generateKeystore (w path) o.name o.decorate (mbedParsePublic env.M) with
          | .ub => .ub
          | .ret (e, c) => .exit e (.code c) w
      else .exit .ok .nothing w

/-! ### transport -/

/-- src/transport.c:27-35. -/
structure TransportOpts where
  add : Bool := false
  encode : Bool := false
  decode : Bool := false
  origin : Option Bytes := none
  output : Option Bytes := none
  encoder : Option Bytes := none
  decoder : Option Bytes := none
  ref : Option Bytes := none

/-- src/transport.c:38-56. `-s` and `-G` are letters of the option string that the `switch` does not know; `-D` is in the `switch` but not in the option string. -/
def transportTable : OptTable := ⟨[('h', false), ('v', false), ('a', false), ('o', true), ('s', true), ('O', true), ('e', true), ('d', true), ('E', false), ('G', false), ('r', true)],
  [("help", false, 'h'), ("verbose", false, 'v'), ("add", false, 'a'), ("origin", true, 'O'), ("output", true, 'o'), ("encoder", true, 'e'), ("decoder", true, 'd'), ("encode", false, 'E'),
   ("decode", false, 'D'), ("part-ref", true, 'r')]⟩

/-- The `switch`, src/transport.c:57-99. -/
def transportStep (c : Char) (a : Bytes) (o : TransportOpts) : Option TransportOpts :=
  match c with
  | 'a' => some { o with add := true }
  | 'E' => some { o with encode := true }
  | 'r' => some { o with ref := some a }
  | 'O' => some { o with origin := some a }
  | 'o' => some { o with output := some a }
  | 'e' => some { o with encoder := some a }
  | 'd' => some { o with decoder := some a }
  | 'D' => some { o with decode := true }
  | _ => none

/-- The end of `--encode` and `--decode`, src/transport.c:147-176: a new output file. (a failed run leaves something in it) -/
def toOutput (env : Env) (w : World) (out : Bytes) : Drv Bytes → Ran
  | .ok d => .exit .ok .nothing (w.put out (some d))
  | .fail e => .exit e .nothing (w.put out (some env.left))
  | .ub => .ub
  | .hang => .hang

/-- src/transport.c:135-187, with the input `f` and the origin open; `w` are the files then. -/
def transportRun (env : Env) (w : World) (path f : Bytes) (org : Option (Option Bytes)) (o : TransportOpts) : Ran :=
  if (o.encode || o.decode) then match o.output with
    | none => .exit .failed .nothing w
    | some out =>
      if out = path ∨ o.origin = some out then .shared
      else if o.encode then toOutput env w out (transportEncodeCmd env.H env.srch (some f) org true)
      else toOutput env w out (transportDecodeCmd env.H (some f) org true)
  else match o.add, o.encoder, o.decoder with
    | true, some enc, some dec => inPlace w path (some (transportAddCmd env.H f o.ref enc dec))
    | _, _, _ => .exit .failed .nothing w

/-- The part of `action_transport` after the options and the file name, src/transport.c:108-187. -/
def transportLine (env : Env) (w : World) (o : TransportOpts) (path : Bytes) : Ran :=
  if o.encode.toNat + o.add.toNat + o.decode.toNat > 1 then .exit .failed .nothing w
  else match w path with
    | none => .exit .notFound .nothing w
    | some f =>
      let r := pkgOpen env.H true f
      let w1 := w.put path (some r.2.file)
      if r.1 ≠ .ok then .exit r.1 .nothing w1
      else match o.origin with
        | none => transportRun env w1 path f none o
        | some g => match w1 g with
          | none => .exit .notFound .nothing w1
          | some fo =>
            let r2 := pkgOpen env.H true fo
            let w2 := w1.put g (some r2.2.file)
            if r2.1 ≠ .ok then .exit r2.1 .nothing w2
            else transportRun env w2 path f (some (some fo)) o

/-- `action_transport`, src/transport.c:23-187. -/
def actionTransport (env : Env) (w : World) (args : List Bytes) : Ran := withFile transportTable transportStep {} w args (transportLine env w)

/-! ### main -/

/-- The chain of `strcmp`, src/main.c:93-121; `args` are the arguments after the new `argv[0]`. -/
def dispatch (env : Env) (w : World) (action : Bytes) (args : List Bytes) : Ran :=
  if action = ascii "create" then actionCreate env w args
  else if action = ascii "add" then actionAdd env w args
  else if action = ascii "show" then actionShow env w args
  else if action = ascii "sign" then actionSign env w args
  else if action = ascii "verify" then actionVerify env w args
  else if action = ascii "generate" then actionGenerate env w args
  else if action = ascii "transport" then actionTransport env w args
  else if action = ascii "set" then actionSet w args
  else if action = ascii "compare" then actionCompare w args
  else if action = ascii "extract" then actionExtract env w args
  else if action = ascii "delete" then actionDelete env w args
  else .exit .failed .nothing w

/-- src/main.c:51-55, 64. -/
def mainTable : OptTable := ⟨[('h', false), ('V', false)], [("help", false, 'h'), ("version", false, 'V')]⟩

/-- `main`, src/main.c:44-132; `argv` without `argv[0]`. `getopt_long` is told that there are two arguments, so it looks at the first only. After `--` the action is the argument that follows, but only one argument is
taken away, so that the name of the action is the command's first operand. -/
def bpakMain (env : Env) (w : World) (argv : List Bytes) : Ran :=
  match argv with
  | [] => .exit .ok .usage w
  | a :: rest => match getopt mainTable [a] with
    | (.opt c _ :: _, _) => .exit .ok (if c = 'V' then .version else .usage) w
    | (.bad :: _, _) => .exit .failed .nothing w
    | ([], _ :: _) => dispatch env w a rest
    | ([], []) => match rest with
      | [] => .exit .failed .nothing w
      | action :: _ => dispatch env w action rest

/-- The exit status the shell sees: the low eight bits of what `main` returns, src/main.c:131. -/
def exitStatus (rc : Err) : Nat := (rc.code % 256).toNat

end Bpak
