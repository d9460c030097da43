import Verif.Model.Pkg
import Verif.Model.Show
/-!
lib/keystore_load_from_file.c: a key out of a keystore package.
-/
namespace Bpak

/-- The read of `bpak_keystore_load_key_from_file`, lib/keystore_load_from_file.c:60-81: seek, `fread` into
`key_buffer[512]` (undefined behaviour if more than that many bytes arrive), parse, set the id. -/
def loadKeyBytes (f : Bytes) (off n : Nat) (keyid : U32) (parse : Bytes → Except Err Key) : Out (Err × Option Key) :=
  if 2^63 ≤ off then .ret (.seekError, none)
  else if (fileRead f off n).length > 512 then .ub
  else if (fileRead f off n).length ≠ n then .ret (.readError, none)
  else match parse (fileRead f off n) with
    | .error e => .ret (e, none)
    | .ok k => .ret (.ok, some { k with id := keyid })

/-- `bpak_keystore_load_key_from_file`, lib/keystore_load_from_file.c:45-81, from the lookup of the provider entry on;
`hd` is the header read from the file `f`, `parse` is `bpak_crypto_parse_public_key`. -/
def loadKeyFromPkg (hd : Header) (f : Bytes) (ksid keyid : U32) (parse : Bytes → Except Err Key) : Out (Err × Option Key) :=
  match getMeta hd idProvider 0 with
  | none => .ret (.notFound, none)
  | some i =>
    match hd.metas[i]? with
    | none => .ub
    | some m =>
      match readAt hd.metadata m.offset.toNat 4 with
      | none => .ub
      | some b =>
        if ofLe32 b ≠ ksid then .ret (.keystoreIdMismatch, none)
        else match getPart hd keyid with
          | none => .ret (.notFound, none)
          | some j =>
            match hd.parts[j]? with
            | none => .ub
            | some q => loadKeyBytes f (partOffset hd q).toNat (partSizeWoPad q).toNat keyid parse

/-- `bpak_keystore_load_key_from_file`, lib/keystore_load_from_file.c:17-84, on a file with content `f`. `check` is the
optional callback (it is taken not to change the header). -/
def loadKeyFromFile (H : HashFn) (f : Bytes) (ksid keyid : U32) (check : Option (Header → Err)) (parse : Bytes → Except Err Key) : Out (Err × Option Key) :=
  if (pkgOpen H false f).1 ≠ .ok then .ret ((pkgOpen H false f).1, none)
  else match check with
    | none => loadKeyFromPkg (pkgOpen H false f).2.hdr f ksid keyid parse
    | some c =>
      if c (pkgOpen H false f).2.hdr ≠ .ok then .ret (c (pkgOpen H false f).2.hdr, none)
      else loadKeyFromPkg (pkgOpen H false f).2.hdr f ksid keyid parse

end Bpak
