import Verif.Spec.Main
import Verif.Spec.Session
/-!
Command lines of the `bpak` tool that work on one package: what each of them asks for, and their sequences.
-/
namespace Bpak
variable [LzmaLib]

/-- What a command line of an action asks for, in the words of Spec/Session.lean: its options are named by their letters, of a repeated option the last one counts, files named by options are there with their content.
`none`: the line asks for help, does not change a package, or lacks something. -/
def lineCmd (env : Env) (w : World) (action : String) (args : List Bytes) : Option (Cmd Key) :=
  let arg := fun c => lastArg c (getopt (tableOf action) args).1
  if arg 'h' ≠ none then none
  else match action with
  | "create" => some (.create (arg 'H') (arg 'S') (arg 'Y').isSome env.answer)
  | "add" => match arg 'm' with
    | some m => some (.addMeta ⟨m, (match arg 's' with | some s => .text s | none => .file ((arg 'f').bind w)), arg 'r', arg 'e'⟩)
    | none => match arg 'p', (arg 'f').bind w with
      | some n, some d => some (.addPart n (arg 'F').isSome (arg 'e') (some d) ((mbedLoadPublic env.M (some d)).map Key.data) env.salt)
      | _, _ => none
  | "set" => some (.set ⟨arg 'm', arg 's', arg 'e', arg 'k', arg 'i'⟩)
  | "delete" => some (.delete (arg 'p') (arg 'a').isSome (arg 'k').isSome)
  | "sign" => match arg 'f' with
    | some s => (w s).map .signRaw
    | none => (arg 'k').map (fun k => .sign (mbedLoadPrivate env.M env.seeded (w k)) env.rnd)
  | "transport" => match arg 'a', arg 'e', arg 'd' with
    | some _, some enc, some dec => some (.transportAdd (arg 'r') enc dec)
    | _, _, _ => none
  | _ => none

/-- Command lines run one after the other; `path` is the package they work on, at first there is none. The log has what each line that works on `path` asked for, with its exit code. Between the lines anything may happen
to other files, also by lines that work on other packages. Of a line that works on `path` is asked what `Allowed` and `Session` ask of a command. -/
inductive Lines (H : HashFn) (M : Mbed) (path : Bytes) : List (Cmd Key × Err) → World → Prop where
  | start {w : World} : w path = none → Lines H M path [] w
  | other {t : List (Cmd Key × Err)} {w w' : World} : Lines H M path t w → w' path = w path → Lines H M path t w'
  | line {t : List (Cmd Key × Err)} {w w' : World} {env : Env} {action : String} {args : List Bytes} {rc : Err} {out : Printed} : Lines H M path t w →
      env.H = H → env.M = M → action ∈ actions → (getopt (tableOf action) args).2.head? = some path →
      bpakMain env w (ascii action :: args) = .exit rc out w' →
      (∀ c, lineCmd env w action args = some c → Allowed H (w path) c ∧ (c.isTree = true → rc = .ok)) →
      Lines H M path (t ++ (lineCmd env w action args).toList.map (fun c => (c, rc))) w'

end Bpak
