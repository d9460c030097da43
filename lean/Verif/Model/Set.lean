import Verif.Model.Pkg
import Verif.Model.Utils
import Verif.Model.Crc
/-!
src/set.c: `bpak set`, and src/main.c:27-42: ids given as name or number.
Arguments are the byte strings of the C strings, without the terminating NUL.
-/
namespace Bpak

/-- `isspace` in the C locale. (C library, called through src/set.c:209) -/
def isSpaceC (c : U8) : Bool := decide (c = 32 ∨ (9 ≤ c.toNat ∧ c.toNat ≤ 13))

/-- Value of a digit in bases up to 36, as `strtol` reads it. (C library, called through src/set.c:209) -/
def digitOf (c : U8) : Option Nat :=
  if 48 ≤ c.toNat ∧ c.toNat ≤ 57 then some (c.toNat - 48)
  else if 97 ≤ c.toNat ∧ c.toNat ≤ 122 then some (c.toNat - 97 + 10)
  else if 65 ≤ c.toNat ∧ c.toNat ≤ 90 then some (c.toNat - 65 + 10)
  else none

/-- The longest run of digits of the base: its value (appended to `acc`) and whether there was any. (C library, called through src/set.c:209) -/
def digitsGo (base : Nat) : Bytes → Nat → Bool → Nat × Bool
  | [], acc, any => (acc, any)
  | c :: cs, acc, any =>
    match digitOf c with
    | none => (acc, any)
    | some d => if d < base then digitsGo base cs (acc * base + d) true else (acc, any)

/-- The C library's number syntax (glibc `strtol`, `strtoul`; base 0 or 16): white space, sign, prefix, digits; what follows is
ignored. `none` if nothing was converted (`endptr` = start); "0x" without digits converts to 0. Result: sign and magnitude. (C library, called through src/set.c:209, src/main.c:27-42) -/
def strtoAny (base : Nat) (s : Bytes) : Option (Bool × Nat) :=
  let s1 := s.dropWhile isSpaceC
  let neg := s1.head? == some 45
  let s2 := if s1.head? = some 45 ∨ s1.head? = some 43 then s1.drop 1 else s1
  if s2.head? = some 48 ∧ (s2[1]? = some 120 ∨ s2[1]? = some 88) then
    some (neg, (digitsGo 16 (s2.drop 2) 0 false).1)
  else
    let r := digitsGo (if base = 0 then (if s2.head? = some 48 then 8 else 10) else base) s2 0 false
    if r.2 then some (neg, r.1) else none

/-- `strtol(s, &endptr, 0)` with the checks of src/set.c:206-216 (and src/add.c:201-211): `none` if nothing was converted or `errno` is
set (range of a 64-bit `long`). -/
def strtolChecked (s : Bytes) : Option U64 :=
  match strtoAny 0 s with
  | none => none
  | some (neg, v) =>
    if neg then (if v ≤ 2^63 then some (BitVec.ofInt 64 (-(v : Int))) else none)
    else (if v < 2^63 then some (BitVec.ofNat 64 v) else none)

/-- `bpak_get_id_for_name_or_ref`, src/main.c:27-42: the 64-bit result of `strtoul` is cut to 32 bits. -/
def idForNameOrRef (s : Bytes) : U32 :=
  if s.take 2 = [48, 120] then
    match strtoAny 16 s with
    | none => bpakId s
    | some (neg, v) => if v < 2^64 then BitVec.ofInt 32 (if neg then -(v : Int) else v) else bpakId s
  else bpakId s

/-- `memcpy` of the text with its NUL and `memset` of the rest, src/set.c:194-197. The `size_t` difference wraps if the entry is too
small (only when the requested size did not fit the 16 bits of the table). -/
def putText (h : Header) (m : MetaHdr) (text : Bytes) : Out Header :=
  if m.size.toNat < text.length + 1 then .ub
  else match writeAt h.metadata m.offset.toNat (text ++ [0]) with
    | none => .ub
    | some md => match writeAt md (m.offset.toNat + text.length + 1) (List.replicate (m.size.toNat - text.length - 1) 0) with
      | none => .ub
      | some md' => .ret { h with metadata := md' }

/-- The branch without encoder, src/set.c:153-198. A failed `bpak_add_meta` leaves the header of the file as it was: the change was
made in a copy. -/
def setText (h : Header) (m : MetaHdr) (text : Bytes) : Out (Err × Header) :=
  if text.length + 1 > m.size.toNat then
    match getMeta h m.id m.partRef with
    | none => .ret (.notFound, h)
    | some j => match delMeta h j with
      | .ub => .ub
      | .ret h1 =>
        let r := addMeta h1 m.id m.partRef (BitVec.ofNat 16 (text.length + 1))
        if r.1 ≠ .ok then .ret (r.1, h)
        else match r.2.1.metas[r.2.2]? with
          | none => .ub
          | some m2 => match putText r.2.1 m2 text with
            | .ub => .ub
            | .ret h2 => .ret (.ok, h2)
  else match putText h m text with
    | .ub => .ub
    | .ret h2 => .ret (.ok, h2)

/-- A store of the bytes `d` at the start of an entry (`*bpak_get_meta_ptr(...) = value`), src/set.c:218, 226. -/
def putValue (h : Header) (m : MetaHdr) (d : Bytes) : Out (Err × Header) :=
  match writeAt h.metadata m.offset.toNat d with
  | none => .ub
  | some md => .ret (.ok, { h with metadata := md })

/-- The options of `bpak set`. (src/set.c:22-90) -/
structure SetOpts where
  name : Option Bytes := none
  text : Option Bytes := none
  encoder : Option Bytes := none
  keyId : Option Bytes := none
  keystoreId : Option Bytes := none

/-- One metadata entry changed in the header, src/set.c:140-230. The Bool says whether the header is written back. -/
def setMeta (h : Header) (name text : Bytes) (encoder : Option Bytes) : Out (Err × Header × Bool) :=
  match getMeta h (bpakId name) 0 with
  | none => .ret (.notFound, h, false)
  | some i => match h.metas[i]? with
    | none => .ub
    | some m =>
      let fin : Out (Err × Header) → Out (Err × Header × Bool) := fun r => match r with
        | .ub => .ub
        | .ret (e, h') => .ret (e, h', decide (e = .ok))
      match encoder with
      | none => fin (setText h m text)
      | some enc =>
        if enc = ascii "integer" then
          if m.size.toNat ≠ 8 then .ret (.sizeError, h, false)
          else match strtolChecked text with
            | none => .ret (.failed, h, false)
            | some v => fin (putValue h m (le64 v))
        else if enc = ascii "id" then
          if m.size.toNat ≠ 4 then .ret (.sizeError, h, false)
          else fin (putValue h m (le32 (bpakId text)))
        else .ret (.failed, h, true)

/-- `action_set`, src/set.c:92-268, after the options are parsed; `f` is the file. The result is the code and the file afterwards. -/
def setCmd (f : Bytes) (o : SetOpts) : Out (Err × Bytes) :=
  if o.name = none ∧ o.keyId = none ∧ o.keystoreId = none then .ret (.failed, f)
  else if o.text = none ∧ o.name ≠ none then .ret (.failed, f)
  else if f.length < 4096 then .ret (.readError, f)
  else
    let h := parseHeader (f.take 4096)
    if validHeader h ≠ .ok then .ret (validHeader h, f)
    else match o.name with
      | some name => match setMeta h name (o.text.getD []) o.encoder with
        | .ub => .ub
        | .ret (e, h', w) => .ret (e, if w then fileWrite f 0 h'.image else f)
      | none =>
        let h1 := match o.keyId with | none => h | some k => setKeyId h (idForNameOrRef k)
        let h2 := match o.keystoreId with | none => h1 | some k => setKeystoreId h1 (idForNameOrRef k)
        .ret (.ok, fileWrite f 0 h2.image)

end Bpak
