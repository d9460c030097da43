import Verif.Model.Pkg
import Verif.Model.Utils
/-! src/create.c: `bpak create`. -/
namespace Bpak

/-- The package made by `bpak create`, src/create.c:125-152: the file is truncated by the mode "wb" and the header that
`bpak_pkg_open` writes is replaced by one with the chosen kinds. -/
def pkgCreate (H : HashFn) (hk sk : U8) : Err × Pkg :=
  let r := pkgOpen H true []
  if r.1 ≠ .ok then r
  else match updateHash H { r.2 with hdr := { initHeader with hashKind := hk, signatureKind := sk } } with
    | (.ok, p) => (.ok, writeHeader p)
    | (e, p) => (e, p)

/-- The hash named on the command line, src/create.c:73-89. -/
def hashKindOf : Option Bytes → Option U8
  | none => some 1
  | some s => if s = ascii "sha256" then some 1 else if s = ascii "sha384" then some 2 else if s = ascii "sha512" then some 3 else none

/-- The signature method named on the command line, src/create.c:91-109. -/
def signatureKindOf : Option Bytes → Option U8
  | none => some 2
  | some s => if s = ascii "prime256v1" then some 2 else if s = ascii "secp384r1" then some 3 else if s = ascii "secp521r1" then some 4
    else if s = ascii "rsa4096" then some 1 else none

/-- `action_create`, src/create.c:73-153, after the options are parsed. `f` is the file's content (`none`: there is none), `answer`
what the user types at the question whether to overwrite. The result is the code and the file afterwards. -/
def createCmd (H : HashFn) (f : Option Bytes) (hash sig : Option Bytes) (force : Bool) (answer : U8) : Err × Option Bytes :=
  match hashKindOf hash with
  | none => (.unsupportedHashAlg, f)
  | some hk => match signatureKindOf sig with
    | none => (.unsupportedKey, f)
    | some sk =>
      if f ≠ none ∧ force = false ∧ answer ≠ 89 then (.failed, f)
      else ((pkgCreate H hk sk).1, some (pkgCreate H hk sk).2.file)

end Bpak
