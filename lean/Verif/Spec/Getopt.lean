import Verif.Model.Main
/-!
How a command line is written: the conventions of GNU command lines, without the program that reads them.
-/
namespace Bpak

/-- A table of options as it should be: the letters are different, none is the dash; the names are different and have no `=`. -/
structure OptTable.Proper (t : OptTable) : Prop where
  letters : t.short.Pairwise (fun a b => BitVec.ofNat 8 a.1.toNat ≠ BitVec.ofNat 8 b.1.toNat)
  dash : ∀ o ∈ t.short, BitVec.ofNat 8 o.1.toNat ≠ 45
  names : t.long.Pairwise (fun a b => ascii a.1 ≠ ascii b.1)
  equals : ∀ o ∈ t.long, 61 ∉ ascii o.1

/-- The byte `b` is the letter of the option `c`, which has an argument or not. -/
def OptTable.Letter (t : OptTable) (b : U8) (c : Char) (arg : Bool) : Prop := (c, arg) ∈ t.short ∧ b = BitVec.ofNat 8 c.toNat

/-- The name `n` stands for the option `c`: it is its long name; or it is no long name, but the beginning of one, and all long names it is the beginning of stand for `c`. -/
def OptTable.Means (t : OptTable) (n : Bytes) (c : Char) (arg : Bool) : Prop :=
  (∃ s, (s, arg, c) ∈ t.long ∧ ascii s = n) ∨
  ((∀ o ∈ t.long, ascii o.1 ≠ n) ∧ (∃ s, (s, arg, c) ∈ t.long ∧ n <+: ascii s) ∧ ∀ o ∈ t.long, n <+: ascii o.1 → o.2 = (arg, c))

/-- The options written as a cluster of letters. -/
def flagEvs (fs : List (U8 × Char)) : List OptEv := fs.map fun f => .opt f.2 []

/-- `Spells t args evs ops`: the arguments `args` say the options `evs` (each with its argument, or the empty one) in that order, and the operands `ops`. -/
inductive Spells (t : OptTable) : List Bytes → List OptEv → List Bytes → Prop
  /-- nothing -/
  | nil : Spells t [] [] []
  /-- `--`: what follows are operands -/
  | dashes (rest : List Bytes) : Spells t ([45, 45] :: rest) [] rest
  /-- an operand: it does not begin with a dash, or is a dash -/
  | operand {a rest evs ops} : (a.take 1 ≠ [45] ∨ a = [45]) → Spells t rest evs ops → Spells t (a :: rest) evs (a :: ops)
  /-- `-abc`: options without arguments -/
  | flags {fs rest evs ops} : fs ≠ [] → (∀ f ∈ fs, t.Letter f.1 f.2 false) → Spells t rest evs ops →
      Spells t ((45 :: fs.map Prod.fst) :: rest) (flagEvs fs ++ evs) ops
  /-- `-abkARG`: such options, if any, and one with its argument -/
  | attached {fs b c a rest evs ops} : (∀ f ∈ fs, t.Letter f.1 f.2 false) → t.Letter b c true → a ≠ [] → Spells t rest evs ops →
      Spells t ((45 :: (fs.map Prod.fst ++ b :: a)) :: rest) (flagEvs fs ++ .opt c a :: evs) ops
  /-- `-abk ARG` -/
  | separate {fs b c a rest evs ops} : (∀ f ∈ fs, t.Letter f.1 f.2 false) → t.Letter b c true → Spells t rest evs ops →
      Spells t ((45 :: (fs.map Prod.fst ++ [b])) :: a :: rest) (flagEvs fs ++ .opt c a :: evs) ops
  /-- `--name` -/
  | longFlag {n c rest evs ops} : n ≠ [] → t.Means n c false → Spells t rest evs ops → Spells t ((45 :: 45 :: n) :: rest) (.opt c [] :: evs) ops
  /-- `--name=ARG` -/
  | longEq {n c a rest evs ops} : t.Means n c true → Spells t rest evs ops → Spells t ((45 :: 45 :: (n ++ 61 :: a)) :: rest) (.opt c a :: evs) ops
  /-- `--name ARG` -/
  | longNext {n c a rest evs ops} : n ≠ [] → t.Means n c true → Spells t rest evs ops → Spells t ((45 :: 45 :: n) :: a :: rest) (.opt c a :: evs) ops

end Bpak
