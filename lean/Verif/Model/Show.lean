import Verif.Model.Utils
import Verif.Model.Verify
/-!
lib/utils.c: `bpak_meta_to_string`.
-/
namespace Bpak

/-- The digits of `printf("%x", v)`. (lib/utils.c:68) -/
def hexMin (v : Nat) : Bytes := if h : v < 16 then [hexDigit v] else hexMin (v / 16) ++ [hexDigit (v % 16)]
termination_by v
decreasing_by omega

/-- Upper-case letters, as `%X` prints them. (lib/utils.c:92) -/
def upperHex (c : U8) : U8 := if 97 ≤ c.toNat ∧ c.toNat ≤ 102 then c - 32 else c

/-- Zeros on the left up to `n` characters (`%08…`, `%8.8…`). (lib/utils.c:81, 92) -/
def zeroFill (n : Nat) (s : Bytes) : Bytes := List.replicate (n - s.length) 0x30 ++ s

/-- What `snprintf(buf, size, …)` writes for the text `s`: as much as fits, and NUL. (lib/utils.c:68) -/
def snprintf (size : Nat) (s : Bytes) : Bytes := if size = 0 then [] else s.take (size - 1) ++ [0]

/-- Identifiers the function knows, include/bpak/id.h:19-27. -/
def idKeyId : U32 := 0x7da19399
/-- include/bpak/id.h:19-27. -/
def idKeyStore : U32 := 0x106c13a7
/-- include/bpak/id.h:19-27. -/
def idPackage : U32 := 0xfb2f1f3f
/-- include/bpak/id.h:19-27. -/
def idLoadAddr : U32 := 0xd1e64a4b
/-- include/bpak/id.h:19-27. -/
def idVersion : U32 := 0x9a5bab69
/-- include/bpak/id.h:19-27. -/
def idProvider : U32 := 0xfb367d9a

/-- Use of `n` bytes of the metadata array through the pointer of `bpak_get_meta_ptr`. (lib/utils.c:59-109) -/
def withMeta (h : Header) (m : MetaHdr) (n : Nat) (k : Bytes → Err × Bytes) : Out (Err × Bytes) :=
  match readAt h.metadata m.offset.toNat n with
  | none => .ub
  | some b => .ret (k b)

/-- `bpak_meta_to_string`, lib/utils.c:59-109: code and the bytes written from `buf[0]` on. The codes of
`bpak_uuid_to_string` and `bpak_bin2hex` are not looked at. -/
def metaToString (h : Header) (m : MetaHdr) (size : Nat) : Out (Err × Bytes) :=
  if m.id = idKeyId then withMeta h m 4 fun b => (.ok, snprintf size (hexMin (ofLe32 b).toNat))
  else if m.id = idKeyStore then withMeta h m 4 fun b => (.ok, snprintf size (hexMin (ofLe32 b).toNat))
  else if m.id = idPackage then withMeta h m 16 fun b => (.ok, (uuidToString b size).2)
  else if m.id = idBpakTransport then withMeta h m 8 fun b =>
    (.ok, snprintf size (ascii "Encode: " ++ zeroFill 8 (hexMin (ofLe32 (b.take 4)).toNat) ++ ascii ", Decode: " ++ zeroFill 8 (hexMin (ofLe32 (b.drop 4)).toNat)))
  else if m.id = idMerkleSalt then withMeta h m 32 fun b => (.ok, (bin2hex b size).2)
  else if m.id = idMerkleRootHash then withMeta h m 32 fun b => (.ok, (bin2hex b size).2)
  else if m.id = idLoadAddr then withMeta h m 8 fun b =>
    (.ok, snprintf size (ascii "Entry: 0x" ++ zeroFill 8 ((hexMin (ofLe64 b).toNat).map upperHex)))
  else if m.id = idVersion then
    if m.size.toNat > size then .ret (.sizeError, [])
    else withMeta h m m.size.toNat fun b => (.ok, b)
  else if m.id = idProvider then withMeta h m 4 fun b => (.ok, snprintf size (ascii "0x" ++ hexMin (ofLe32 b).toNat))
  else .ret (.ok, if size = 0 then [] else [0])

end Bpak
