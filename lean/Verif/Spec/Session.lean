import Verif.Model.Cli
import Verif.Spec.BuildHistory
/-!
Sessions with the `bpak` tool: command lines run one after the other on one package file, and what their user expects.
-/
namespace Bpak

/-- A command line that may change the package file. Files named on the command line are given by their content; `key` is the outcome of
loading a key, `rnd` and `salt` what the random source delivers. -/
inductive Cmd (SK : Type) where
  | create (hash sig : Option Bytes) (force : Bool) (answer : U8)
  | addPart (name : Bytes) (dontHash : Bool) (encoder : Option Bytes) (src : Option Bytes) (key : Except Err Bytes) (salt : Bytes)
  | addMeta (o : AddOpts)
  | set (o : SetOpts)
  | delete (part : Option Bytes) (all keep : Bool)
  | sign (key : Except Err SK) (rnd : Bytes)
  | signRaw (sig : Bytes)
  | transportAdd (ref : Option Bytes) (enc dec : Bytes)

/-- The command run on a file (`none`: there is no such file): the exit code and the file afterwards. `none` if the command does not
end or its behaviour is undefined. Every command but `create` opens an existing file (`fopen` with mode "r+"). -/
def cmdStep {SK PK : Type} (H : HashFn) (S : SigScheme SK PK) : Option Bytes → Cmd SK → Option (Err × Option Bytes)
  | f, .create hash sig force answer => some (createCmd H f hash sig force answer)
  | none, _ => some (.notFound, none)
  | some f, c =>
    let out : Out (Err × Bytes) → Option (Err × Option Bytes) := fun r => match r with
      | .ub => none
      | .ret (e, f') => some (e, some f')
    match c with
    | .create hash sig force answer => some (createCmd H (some f) hash sig force answer)
    | .addPart name dontHash enc src key salt => (addPartCmd H f name dontHash enc src key salt).bind out
    | .addMeta o => out (addMetaCmd H f o)
    | .set o => out (setCmd f o)
    | .delete part all keep => (deleteCmd H f part all keep).bind out
    | .sign key rnd => some ((signCmd H S f rnd key).1, some (signCmd H S f rnd key).2)
    | .signRaw sig => out (signRawCmd H f sig)
    | .transportAdd ref enc dec => out (transportAddCmd H f ref enc dec)

/-- What the user must not do: names whose id is 0 (it marks a free slot); files beyond the range of `off_t`. The random source
delivers 32 bytes, and loading a key reports success only with a key. -/
def Allowed {SK : Type} (H : HashFn) (f : Option Bytes) : Cmd SK → Prop
  | .addPart name _ enc src key salt => bpakId name ≠ 0 ∧ ∀ g d, f = some g → src = some d → g.length + d.length + 512 < 2^63 ∧
      (enc = some (ascii "key") → key ≠ .error .ok ∧ ∀ k, key = .ok k → g.length + k.length + 512 < 2^63) ∧
      (enc = some (ascii "merkle") → partIdToHashTreeId (bpakId name) ≠ 0 ∧ salt.length = 32 ∧ g.length + d.length + (hashTree H salt d).length + 512 < 2^63)
  | .addMeta o => bpakId o.name ≠ 0
  | .set o => ∀ n, o.name = some n → bpakId n ≠ 0
  | .sign key _ => key ≠ .error .ok
  | _ => True

/-- Adding a file with its hash tree, the one command that may fail half way (C66). -/
def Cmd.isTree {SK : Type} : Cmd SK → Bool
  | .addPart _ _ (some enc) _ _ _ => decide (enc = ascii "merkle")
  | _ => false

/-- A session: commands and exit codes so far, and the file. At first there is no file. -/
inductive Session {SK PK : Type} (H : HashFn) (S : SigScheme SK PK) : List (Cmd SK × Err) → Option Bytes → Prop where
  | start : Session H S [] none
  | run {t : List (Cmd SK × Err)} {f f' : Option Bytes} {c : Cmd SK} {e : Err} : Session H S t f → Allowed H f c → cmdStep H S f c = some (e, f') →
      (c.isTree = true → e = .ok) → Session H S (t ++ [(c, e)]) f'

/-- What the user expects to be in the package after a command: only successful commands count. -/
def sessionStep {SK : Type} (H : HashFn) (s : List (U32 × Bytes)) : Cmd SK × Err → List (U32 × Bytes)
  | (c, e) => if e ≠ .ok then s else match c with
    | .create _ _ _ _ => []
    | .addPart name _ none (some d) _ _ => s ++ [(bpakId name, d)]
    | .addPart name _ (some enc) (some d) key salt =>
      if enc = ascii "key" then (match key with | .ok k => s ++ [(bpakId name, k)] | .error _ => s)
      else s ++ [(bpakId name, d), (partIdToHashTreeId (bpakId name), hashTree H salt d)]
    | .delete _ true _ => []
    | .delete (some name) false _ => s.filter (fun c => c.1 ≠ idForNameOrRef name)
    | _ => s

def sessionFiles {SK : Type} (H : HashFn) (t : List (Cmd SK × Err)) : List (U32 × Bytes) := t.foldl (sessionStep H) []

end Bpak
