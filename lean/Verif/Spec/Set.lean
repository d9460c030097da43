import Verif.Model.Basic
/-!
Integers as a user writes them: C notation, decimal, octal (leading 0) or hexadecimal (leading 0x).
-/
namespace Bpak.Spec
open Bpak

/-- The characters for a digit. -/
def digitChars (d : Nat) : List U8 := if d < 10 then [BitVec.ofNat 8 (48 + d)] else [BitVec.ofNat 8 (87 + d), BitVec.ofNat 8 (55 + d)]

/-- A non-empty string of digits in a base, and its value. -/
inductive Digits (base : Nat) : Bytes → Nat → Prop where
  | one (c : U8) (d : Nat) : d < base → c ∈ digitChars d → Digits base [c] d
  | snoc (t : Bytes) (v : Nat) (c : U8) (d : Nat) : Digits base t v → d < base → c ∈ digitChars d → Digits base (t ++ [c]) (v * base + d)

/-- An unsigned C integer constant and its value. -/
inductive Numeral : Bytes → Nat → Prop where
  | dec (t : Bytes) (v : Nat) : Digits 10 t v → t.head? ≠ some 48 → Numeral t v
  | oct (t : Bytes) (v : Nat) : Digits 8 t v → t.head? = some 48 → Numeral t v
  | hex (t : Bytes) (v : Nat) (x : U8) : Digits 16 t v → x = 120 ∨ x = 88 → Numeral (48 :: x :: t) v

/-- A constant with an optional sign, and its value. -/
inductive Integer : Bytes → Int → Prop where
  | plain (t : Bytes) (v : Nat) : Numeral t v → Integer t v
  | plus (t : Bytes) (v : Nat) : Numeral t v → Integer (43 :: t) v
  | minus (t : Bytes) (v : Nat) : Numeral t v → Integer (45 :: t) (-(v : Int))

end Bpak.Spec
