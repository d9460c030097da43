import Verif.Model.Header
/-! The order of byte strings and what a suffix array is (C104, C105). -/
namespace Bpak

/-- The first string comes before the second in the dictionary: a shorter string before its extensions, otherwise the first different byte decides. -/
def before : Bytes → Bytes → Prop
  | _, [] => False
  | [], _ :: _ => True
  | a :: x, b :: y => a.toNat < b.toNat ∨ (a = b ∧ before x y)

/-- `S` lists the positions of `t`, each once, in the order of the strings that start there. -/
structure IsSuffixArray (t : Bytes) (S : List Nat) : Prop where
  positions : ∀ i, i ∈ S ↔ i < t.length
  sorted : S.Pairwise (fun i j => before (t.drop i) (t.drop j))

/-- No rest of the new file comes behind all suffixes of the origin; the origin has two bytes or more, the new file is below 2 GiB. -/
def SortsWithin (o n : Bytes) : Prop := 2 ≤ o.length ∧ n.length < 2^31 ∧ ∀ i < n.length, ∃ j, j < o.length ∧ ¬ before (o.drop j) (n.drop i)

end Bpak
