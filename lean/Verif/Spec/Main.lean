import Verif.Model.Main
/-!
Words for command lines.
-/
namespace Bpak
variable [LzmaLib]

/-- The exit status of a run that ends. -/
def Ran.status : Ran → Option Nat
  | .exit rc _ _ => some (exitStatus rc)
  | _ => none

/-- The argument of the last option `c` among `evs`. -/
def lastArg (c : Char) (evs : List OptEv) : Option Bytes :=
  evs.foldl (fun x e => match e with
    | .opt d a => if d = c then some a else x
    | .bad => x) none

/-- `-h` is among the options. -/
def AsksHelp (evs : List OptEv) : Prop := ∃ a, OptEv.opt 'h' a ∈ evs

/-- `-h` is among the options, and nothing that `getopt_long` refuses stands before it. -/
def HelpFirst (evs : List OptEv) : Prop := ∃ pre a post, evs = pre ++ OptEv.opt 'h' a :: post ∧ OptEv.bad ∉ pre

/-- The package at `path` opens and verifies: with the key in the file `key`, or, if there is none, with the key that the keystore in the file `store` has for the package. (The files are those
after the package has been opened.) -/
def Accepted (env : Env) (w : World) (path : Bytes) (key store : Option Bytes) : Prop :=
  ∃ f p k, w path = some f ∧ pkgOpen env.H true f = (.ok, p) ∧ pkgVerify env.H (mbedScheme env.M) k p = .ret .ok ∧
    ((∃ kf, key = some kf ∧ mbedLoadPublic env.M (w.put path (some p.file) kf) = .ok k) ∨
     (key = none ∧ ∃ s g, store = some s ∧ w.put path (some p.file) s = some g ∧
        loadKeyFromFile env.H g p.hdr.keystoreId p.hdr.keyId none (mbedParsePublic env.M) = .ret (.ok, some k)))

/-- The actions of the tool. -/
def actions : List String := ["create", "add", "show", "sign", "verify", "generate", "transport", "set", "compare", "extract", "delete"]

/-- The options of each action. -/
def tableOf (action : String) : OptTable :=
  match action with
  | "create" => createTable | "add" => addTable | "show" => showTable | "sign" => signTable | "verify" => verifyTable | "generate" => generateTable
  | "transport" => transportTable | "set" => setTable | "compare" => compareTable | "extract" => extractTable | _ => deleteTable

/-- The files that an action may change: none for `show`, `compare` and `generate`; the package (the first operand) for the others; for `extract` and `transport` also the file named by the last `-o`; for `transport`
the file named by the last `-O`. -/
def Writes (action : String) (args : List Bytes) (p : Bytes) : Prop :=
  (action ∉ ["show", "compare", "generate"] ∧ (getopt (tableOf action) args).2.head? = some p) ∨
  (action ∈ ["extract", "transport"] ∧ lastArg 'o' (getopt (tableOf action) args).1 = some p) ∨
  (action = "transport" ∧ lastArg 'O' (getopt (tableOf action) args).1 = some p)

/-- The arguments of the option `c`, in their order. -/
def argsOf (c : Char) (evs : List OptEv) : List Bytes :=
  evs.filterMap (fun e => match e with
    | .opt d a => if d = c then some a else none
    | .bad => none)

/-- The same options with the same arguments, possibly in another order; for an option that occurs more than once the order of its arguments is kept. -/
def SameOptions (evs evs' : List OptEv) : Prop := ∀ c, argsOf c evs = argsOf c evs'

end Bpak
