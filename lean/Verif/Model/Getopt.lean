import Verif.Model.Utils
/-!
`getopt_long` of the GNU C library, as the `bpak` tool calls it. It is not code of /repo; the tool's behaviour on a command line depends on it. Simplification: the environment variable `POSIXLY_CORRECT`
(options only before the first operand) is not set. The text it prints on errors is left out.
-/
namespace Bpak

/-- What a call of `getopt_long` returns: an option (by its letter) with its argument (empty if it takes none), or `'?'`. (C library; src/main.c:64) -/
inductive OptEv where
  | opt (c : Char) (arg : Bytes)
  | bad
  deriving DecidableEq, Repr

/-- The letters and names a command knows; `true`: the option has an argument. (the last arguments of `getopt_long`, e.g. src/sign.c:34-44) -/
structure OptTable where
  short : List (Char × Bool)
  long : List (String × Bool × Char)

/-- The letter that a byte of a cluster such as `-vk` stands for. (C library) -/
def OptTable.letter (t : OptTable) (b : U8) : Option (Char × Bool) := t.short.find? (fun o => decide (BitVec.ofNat 8 o.1.toNat = b))

/-- A cluster of one-letter options, without the dash; `next` is the argument that follows. Result: the options, and whether `next` was used up. (C library) -/
def cluster (t : OptTable) (next : Option Bytes) : Bytes → List OptEv × Bool
  | [] => ([], false)
  | b :: bs => match t.letter b with
    | none => (.bad :: (cluster t next bs).1, (cluster t next bs).2)
    | some (c, false) => (.opt c [] :: (cluster t next bs).1, (cluster t next bs).2)
    | some (c, true) =>
      if bs ≠ [] then ([.opt c bs], false)
      else match next with
        | some a => ([.opt c a], true)
        | none => ([.bad], false)

/-- The long option a name stands for: the one of that name, or the one(s) it is the beginning of if they all mean the same. (C library) -/
def OptTable.name (t : OptTable) (n : Bytes) : Option (Bool × Char) :=
  match t.long.find? (fun o => decide (ascii o.1 = n)) with
  | some o => some o.2
  | none => match t.long.filter (fun o => n.isPrefixOf (ascii o.1)) with
    | [] => none
    | o :: os => if os.all (fun o' => decide (o'.2 = o.2)) then some o.2 else none

/-- A long option, without the dashes. (C library) -/
def longOpt (t : OptTable) (next : Option Bytes) (body : Bytes) : OptEv × Bool :=
  let n := body.takeWhile (fun b => decide (b ≠ 61))
  match t.name n with
  | none => (.bad, false)
  | some (false, c) => if n.length = body.length then (.opt c [], false) else (.bad, false)
  | some (true, c) =>
    if n.length ≠ body.length then (.opt c (body.drop (n.length + 1)), false)
    else match next with
      | some a => (.opt c a, true)
      | none => (.bad, false)

/-- All the calls of `getopt_long` until it returns -1: the options in their order and the operands, which may stand between the options; `skip`: the first argument was used up as the argument of
an option. (C library; the loops e.g. at src/sign.c:42-70) -/
def getoptGo (t : OptTable) : Bool → List Bytes → List OptEv × List Bytes
  | _, [] => ([], [])
  | true, _ :: rest => getoptGo t false rest
  | false, a :: rest =>
    if a = [45, 45] then ([], rest)
    else if a.take 2 = [45, 45] then
      let r := longOpt t rest.head? (a.drop 2)
      (r.1 :: (getoptGo t r.2 rest).1, (getoptGo t r.2 rest).2)
    else if a.take 1 = [45] ∧ 2 ≤ a.length then
      let r := cluster t rest.head? (a.drop 1)
      (r.1 ++ (getoptGo t r.2 rest).1, (getoptGo t r.2 rest).2)
    else ((getoptGo t false rest).1, a :: (getoptGo t false rest).2)

/-- The same from the start. (C library) -/
def getopt (t : OptTable) (args : List Bytes) : List OptEv × List Bytes := getoptGo t false args

end Bpak
