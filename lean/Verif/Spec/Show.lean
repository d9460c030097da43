import Verif.Model.Basic
/-!
Numbers as hexadecimal text.
-/
namespace Bpak.Spec

/-- Value of a hexadecimal digit character, upper or lower case. -/
def digit (c : BitVec 8) : Option Nat :=
  ("0123456789abcdef".toList.findIdx? (fun d => d.toNat = c.toNat)).orElse fun _ =>
    "0123456789ABCDEF".toList.findIdx? (fun d => d.toNat = c.toNat)

/-- Value of a text of hexadecimal digits, most significant first; `none` if a character is no digit. -/
def hexNumber (t : Bytes) : Option Nat :=
  t.foldl (fun v c => match v, digit c with | some v, some d => some (16 * v + d) | _, _ => none) (some 0)

/-- The number of bytes of content a metadata entry needs for its meaning: 4 for the ids, 16 for a UUID, 8 for the
transport algorithms and the load address, 32 for salt and root hash, all for a version string, else none. -/
def bytesNeeded (id : BitVec 32) (size : Nat) : Nat :=
  if id = 0x7da19399 ∨ id = 0x106c13a7 ∨ id = 0xfb367d9a then 4
  else if id = 0xfb2f1f3f then 16
  else if id = 0x2d44bbfb ∨ id = 0xd1e64a4b then 8
  else if id = 0x7c9b2f93 ∨ id = 0xe68fc9be then 32
  else if id = 0x9a5bab69 then size
  else 0

end Bpak.Spec
